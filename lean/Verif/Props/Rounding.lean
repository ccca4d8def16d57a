import Verif.Lemmas.RoundWorld
import Verif.Lemmas.RoundSame
import Verif.Lemmas.RoundArith

/-!
C83: a run in rounded arithmetic.
-/
namespace DG
variable {α : Type}

/-- **C83** (the routines).  The flux routines that are run here in rounded arithmetic are the ones the properties of the
exact program (C31, C32, C64) are about: over the reals, where no division by zero, root of a negative number or failed assertion
occurs, they return the same flux. -/
theorem C83_same_routines (dim : ℕ) (γ : ℝ) (UL UR N Fq F X : ℕ → ℝ) :
    (convFlux dim γ UL F = some X → Fl.convFlux dim γ UL F = X) ∧
    (laxFriedrichs dim γ UL UR N Fq F = some X → Fl.laxFriedrichs dim γ UL UR N Fq F = X) ∧
    (hllc dim γ UL UR N F = some X → Fl.hllc dim γ UL UR N F = some X) :=
  ⟨fun h => (convFlux_inv h).symm, fun h => (lax_inv h).symm, hllc_inv⟩

/-- **C83** (double precision).  IEEE doubles with rounding to nearest - the nearest double, ties either way, numbers below the
normal range included, and with a value that is not a number for what is not defined or exceeds `2^1022` - are a computer
arithmetic of unit roundoff `2^-53`. -/
theorem C83_doubles : ∃ A : Arith, A.u = 2 ^ (-53 : ℤ) ∧ A.big = 2 ^ (1022 : ℤ) ∧
    (∀ a, A.fin a → IsDouble (A.val a)) ∧
    (∀ a b, A.fin a → A.fin b → |A.val a + A.val b| ≤ A.big → Rounded (A.val a + A.val b) (A.val (a + b))) ∧
    (∀ a b, A.fin a → A.fin b → |A.val a - A.val b| ≤ A.big → Rounded (A.val a - A.val b) (A.val (a - b))) ∧
    (∀ a b, A.fin a → A.fin b → |A.val a * A.val b| ≤ A.big → Rounded (A.val a * A.val b) (A.val (a * b))) ∧
    (∀ a b, A.fin a → A.fin b → A.val b ≠ 0 → |A.val a / A.val b| ≤ A.big → Rounded (A.val a / A.val b) (A.val (a / b))) ∧
    (∀ a, A.fin a → 0 ≤ A.val a → Real.sqrt (A.val a) ≤ A.big → Rounded (Real.sqrt (A.val a)) (A.val (HasSqrt.sqrt a))) := by
  obtain ⟨rd, h1, h⟩ := doubles_round
  have key : ∀ x, |x| ≤ (2 : ℝ) ^ (1022 : ℤ) → Rounded x (RoundTo.v (h.res x)) := by
    intro x hx
    have : h.res x = some ⟨rd x, (h.mem x hx).1⟩ := dif_pos hx
    rw [this]
    exact h1 x
  refine ⟨h.arith, rfl, rfl, ?_, ?_, ?_, ?_, ?_, ?_⟩
  · intro a ha
    cases a with
    | none => cases ha
    | some x => exact x.2
  · intro a b ha hb hab
    have e : (a + b ) = h.res (h.arith.val a + h.arith.val b) := if_pos ⟨ha, hb⟩
    rw [e]
    exact key _ hab
  · intro a b ha hb hab
    have e : (a - b ) = h.res (h.arith.val a - h.arith.val b) := if_pos ⟨ha, hb⟩
    rw [e]
    exact key _ hab
  · intro a b ha hb hab
    have e : (a * b ) = h.res (h.arith.val a * h.arith.val b) := if_pos ⟨ha, hb⟩
    rw [e]
    exact key _ hab
  · intro a b ha hb hb0 hab
    have e : (a / b ) = h.res (h.arith.val a / h.arith.val b) := if_pos ⟨ha, hb, hb0⟩
    rw [e]
    exact key _ hab
  · intro a ha h0 hs
    have e : (HasSqrt.sqrt a ) = h.res (Real.sqrt (h.arith.val a)) := if_pos ⟨ha, h0⟩
    rw [e]
    exact key _ (by rw [abs_of_nonneg (Real.sqrt_nonneg _)]; exact hs)

/-- **C83** (rounding).  A case for the Euler equations, in 2D or 3D, with either numerical flux, whose semidiscrete
equations have a solution `y` on `[0, T]` through states where the flux is well behaved.  There are constants `C`, `h0`, `u0`,
`B` such that the following holds for every computer arithmetic of unit roundoff `u ≤ u0` in which results up to `B`
do not overflow, every number of ranks, every partition, every interleaving of the ranks, every order of the flux loops,
both steppers and every step size with `C u ≤ dt ≤ h0`, if the tables, the geometry and the initial coefficients the ranks
have computed are within `κ` roundoffs of the exact ones.  Whenever a rank has completed `n` steps, all its coefficients are
finite numbers; they differ from those of the exact `n`-step calculation by at most `C u/dt`, and from the solution at time
`n dt` by at most `C (dt + u/dt)`. -/
theorem C83_rounded_run (m : GMesh α) (hm : MeshOK m) (d : Disc ℝ) (hd : d.dim = 2 ∨ d.dim = 3) (f : NumericalFluxType) (γ : ℝ)
    (hE : EulerScheme d f γ) (hγ : 1 < γ) (norient : ℕ) (hc : Conforming d norient m) (ho : OrderOK d norient) (G : Geom ℝ)
    (hN : NormalsNonzero d m G) (T : ℝ) (hT : 0 ≤ T) (y : ℝ → Coeffs ℝ)
    (hy : ExactSolution d m.numElems T (fun _ => globalRHS d m G) y)
    (hr : ∀ t ∈ Set.Icc 0 T, StatesRegular f γ d m G (y t)) (κ : ℝ) :
    ∃ C h0 u0 B : ℝ, 0 < h0 ∧ 0 < u0 ∧ ∀ A : Arith, A.u ≤ u0 → B ≤ A.big →
      ∀ D : Disc A.K, MachineScheme A κ f γ d D →
      ∀ (nranks : ℕ) (part : List ℕ) (rms : ℕ → RankMesh α), World m nranks part rms →
      ∀ g : ℕ → Geom A.K, (∀ r < nranks, GeomClose A κ d (rms r) (g r) G) →
      ∀ u : ℕ → Coeffs A.K, (∀ r < nranks, CoeffsClose A κ d (rms r) (u r) (y 0)) →
      ∀ sched : ℕ → ℕ → List (FluxWrite A.K) → List (FluxWrite A.K), (∀ r k l, (sched r k l).Perm l) →
      ∀ (st : Stepper) (dt : A.K), A.fin dt → 0 < A.val dt → A.val dt ≤ h0 → C * A.u ≤ A.val dt →
      ∀ (nsteps k : ℕ) (c : Proto.Conf (FaceArr (ℕ → ℕ → A.K) × Option (RankState A.K)) (List (ℕ → ℕ → A.K))),
      Proto.Exec (solverProg D g rms nranks dt st sched nsteps) (Proto.init (solverStart D rms st u)) c k →
      ∀ r < nranks, ∀ n : ℕ, (c.proc r).round = stagesOf st * n → n * A.val dt ≤ T →
      ∃ s, (c.proc r).st.2 = some s ∧
        ∀ i e : ℕ, (rms r).l2gElem[i]? = some e → ∀ b < d.nb, ∀ v < d.ns,
          A.fin (s.Uc i b v) ∧
          |A.val (s.Uc i b v) - (stepOf st (A.val dt) (globalRHS d m G))^[n] (y 0) e b v| ≤ C * (A.u / A.val dt) ∧
          |A.val (s.Uc i b v) - y (n * A.val dt) e b v| ≤ C * (A.val dt + A.u / A.val dt) := by
  obtain ⟨C, h0, u0, B, a, b, H⟩ := rounded_run_world m hm d hd f γ hE hγ norient hc ho G hN T hT y hy hr κ
  exact ⟨C, h0, u0, B, a, b, fun A hu hB D hD => H A hu hB D hD α m rfl rfl⟩

/-- **C83** (launches agree).  Two launches of such a case - each with its own number of ranks, partition, order of the flux
loops, interleaving, and its own rounding errors in tables, geometry (also of normals two ranks share) and initial
coefficients: where a rank of the first and one of the second have completed the same number of steps, the coefficients of an
element they both have differ by at most `C u/dt`. -/
theorem C83_launches_agree (m : GMesh α) (hm : MeshOK m) (d : Disc ℝ) (hd : d.dim = 2 ∨ d.dim = 3) (f : NumericalFluxType) (γ : ℝ)
    (hE : EulerScheme d f γ) (hγ : 1 < γ) (norient : ℕ) (hc : Conforming d norient m) (ho : OrderOK d norient) (G : Geom ℝ)
    (hN : NormalsNonzero d m G) (T : ℝ) (hT : 0 ≤ T) (y : ℝ → Coeffs ℝ)
    (hy : ExactSolution d m.numElems T (fun _ => globalRHS d m G) y)
    (hr : ∀ t ∈ Set.Icc 0 T, StatesRegular f γ d m G (y t)) (κ : ℝ) :
    ∃ C h0 u0 B : ℝ, 0 < h0 ∧ 0 < u0 ∧ ∀ A : Arith, A.u ≤ u0 → B ≤ A.big →
      ∀ (st : Stepper) (dt : A.K), A.fin dt → 0 < A.val dt → A.val dt ≤ h0 → C * A.u ≤ A.val dt →
      ∀ D : Disc A.K, MachineScheme A κ f γ d D →
      ∀ (nranks : ℕ) (part : List ℕ) (rms : ℕ → RankMesh α), World m nranks part rms →
      ∀ g : ℕ → Geom A.K, (∀ r < nranks, GeomClose A κ d (rms r) (g r) G) →
      ∀ u : ℕ → Coeffs A.K, (∀ r < nranks, CoeffsClose A κ d (rms r) (u r) (y 0)) →
      ∀ sched : ℕ → ℕ → List (FluxWrite A.K) → List (FluxWrite A.K), (∀ r k l, (sched r k l).Perm l) →
      ∀ (nsteps k : ℕ) (c : Proto.Conf (FaceArr (ℕ → ℕ → A.K) × Option (RankState A.K)) (List (ℕ → ℕ → A.K))),
      Proto.Exec (solverProg D g rms nranks dt st sched nsteps) (Proto.init (solverStart D rms st u)) c k →
      ∀ D' : Disc A.K, MachineScheme A κ f γ d D' →
      ∀ (nranks' : ℕ) (part' : List ℕ) (rms' : ℕ → RankMesh α), World m nranks' part' rms' →
      ∀ g' : ℕ → Geom A.K, (∀ r < nranks', GeomClose A κ d (rms' r) (g' r) G) →
      ∀ u' : ℕ → Coeffs A.K, (∀ r < nranks', CoeffsClose A κ d (rms' r) (u' r) (y 0)) →
      ∀ sched' : ℕ → ℕ → List (FluxWrite A.K) → List (FluxWrite A.K), (∀ r k l, (sched' r k l).Perm l) →
      ∀ (nsteps' k' : ℕ) (c' : Proto.Conf (FaceArr (ℕ → ℕ → A.K) × Option (RankState A.K)) (List (ℕ → ℕ → A.K))),
      Proto.Exec (solverProg D' g' rms' nranks' dt st sched' nsteps') (Proto.init (solverStart D' rms' st u')) c' k' →
      ∀ r < nranks, ∀ r' < nranks', ∀ n : ℕ, (c.proc r).round = stagesOf st * n → (c'.proc r').round = stagesOf st * n →
      n * A.val dt ≤ T →
      ∃ s s', (c.proc r).st.2 = some s ∧ (c'.proc r').st.2 = some s' ∧
        ∀ i i' e : ℕ, (rms r).l2gElem[i]? = some e → (rms' r').l2gElem[i']? = some e → ∀ b < d.nb, ∀ v < d.ns,
          A.fin (s.Uc i b v) ∧ A.fin (s'.Uc i' b v) ∧
          |A.val (s.Uc i b v) - A.val (s'.Uc i' b v)| ≤ C * (A.u / A.val dt) := by
  obtain ⟨C, h0, u0, B, hh0, hu0, H⟩ := C83_rounded_run m hm d hd f γ hE hγ norient hc ho G hN T hT y hy hr κ
  refine ⟨max C (2 * C), h0, u0, B, hh0, hu0, ?_⟩
  intro A hu hB st dt hdt hdt0 hdt1 hdt2 D hD nranks part rms w g hg u hcu sched hs nsteps k c hx
    D' hD' nranks' part' rms' w' g' hg' u' hcu' sched' hs' nsteps' k' c' hx' r hr r' hr' n hn hn' hnT
  have hC : C * A.u ≤ A.val dt := (mul_le_mul_of_nonneg_right (le_max_left _ _) A.u_nonneg).trans hdt2
  obtain ⟨s, h1, h2⟩ := H A hu hB D hD nranks part rms w g hg u hcu sched hs st dt hdt hdt0 hdt1 hC nsteps k c hx r hr n hn hnT
  obtain ⟨s', h1', h2'⟩ := H A hu hB D' hD' nranks' part' rms' w' g' hg' u' hcu' sched' hs' st dt hdt hdt0 hdt1 hC
    nsteps' k' c' hx' r' hr' n hn' hnT
  refine ⟨s, s', h1, h1', ?_⟩
  intro i i' e hi hi' b hb v hv
  obtain ⟨a1, a2, -⟩ := h2 i e hi b hb v hv
  obtain ⟨b1, b2, -⟩ := h2' i' e hi' b hb v hv
  refine ⟨a1, b1, ?_⟩
  have hq : 0 ≤ A.u / A.val dt := div_nonneg A.u_nonneg hdt0.le
  have h3 : 2 * C * (A.u / A.val dt) ≤ max C (2 * C) * (A.u / A.val dt) := by gcongr; exact le_max_right _ _
  refine le_trans ?_ h3
  rw [abs_sub_comm] at b2
  have := abs_sub_le (A.val (s.Uc i b v)) ((stepOf st (A.val dt) (globalRHS d m G))^[n] (y 0) e b v) (A.val (s'.Uc i' b v))
  linarith

end DG
