import Verif.Spec.TimeOrder
import Verif.Lemmas.TimeOrderSmooth
import Verif.Props.Stepper
import Mathlib.Analysis.SpecialFunctions.Exponential
import Mathlib.Topology.Algebra.Module.FiniteDimension
import Verif.Props.FreeStream
import Verif.Props.Solver

/-!
Property C81: order of accuracy of the time integration.
-/
namespace DG
open Finset

theorem toBox_ofBox {d : Disc ℝ} {ne : ℕ} (u : Box d ne) : toBox d ne (ofBox u) = u := by
  funext e b v
  simp [toBox, ofBox]

theorem ofBox_toBox (d : Disc ℝ) (ne : ℕ) (U : Coeffs ℝ) : AgreeIn d ne (ofBox (toBox d ne U)) U := by
  intro e he b hb v hv
  simp [toBox, ofBox, he, hb, hv]

theorem toBox_eq_iff {d : Disc ℝ} {ne : ℕ} {U V : Coeffs ℝ} :
    toBox d ne U = toBox d ne V ↔ AgreeIn d ne U V := by
  constructor
  · intro h e he b hb v hv
    exact congrFun (congrFun (congrFun h ⟨e, he⟩) ⟨b, hb⟩) ⟨v, hv⟩
  · intro h
    funext e b v
    exact h e e.2 b b.2 v v.2

theorem entry_le_norm {d : Disc ℝ} {ne : ℕ} (U V : Coeffs ℝ) {e b v : ℕ} (he : e < ne) (hb : b < d.nb)
    (hv : v < d.ns) : |U e b v - V e b v| ≤ ‖toBox d ne U - toBox d ne V‖ := by
  have h1 := norm_le_pi_norm (toBox d ne U - toBox d ne V) ⟨e, he⟩
  have h2 := norm_le_pi_norm ((toBox d ne U - toBox d ne V) ⟨e, he⟩) ⟨b, hb⟩
  have h3 := norm_le_pi_norm ((toBox d ne U - toBox d ne V) ⟨e, he⟩ ⟨b, hb⟩) ⟨v, hv⟩
  exact (h3.trans h2).trans h1

/-- the right-hand side on the normed space -/
noncomputable def boxRHS (d : Disc ℝ) (ne : ℕ) (f : ℝ → Coeffs ℝ → Coeffs ℝ) (t : ℝ) (u : Box d ne) : Box d ne :=
  toBox d ne (f t (ofBox u))

/-- one step on the normed space -/
noncomputable def boxStep (st : Stepper) {d : Disc ℝ} {ne : ℕ} (F : ℝ → Box d ne → Box d ne) :
    ℝ → ℝ → Box d ne → Box d ne :=
  match st with
  | .FE => eulerV F
  | .RK4 => rk4V F

theorem boxStep_eq {d : Disc ℝ} {ne : ℕ} (st : Stepper) (f : ℝ → Coeffs ℝ → Coeffs ℝ)
    (hf : ∀ t U V, AgreeIn d ne U V → AgreeIn d ne (f t U) (f t V)) (dt t : ℝ) (U : Coeffs ℝ) :
    boxStep st (boxRHS d ne f) t dt (toBox d ne U) = toBox d ne (methodAt st dt f t U) := by
  have hb : ∀ (s : ℝ) (W : Coeffs ℝ), boxRHS d ne f s (toBox d ne W) = toBox d ne (f s W) := fun s W =>
    toBox_eq_iff.2 (hf s _ _ (ofBox_toBox d ne W))
  have ha : ∀ (c : ℝ) (W : Coeffs ℝ), toBox d ne U + c • toBox d ne W =
      toBox d ne (fun e b v => U e b v + c * W e b v) := fun c W => rfl
  cases st with
  | FE =>
    simp only [boxStep, eulerV, methodAt, eulerAt]
    rw [hb, ha]
    rfl
  | RK4 =>
    simp only [boxStep, rk4V, methodAt, rk4At]
    rw [hb, ha, hb, ha, hb, ha, hb]
    rfl

theorem boxMarch_eq {d : Disc ℝ} {ne : ℕ} (st : Stepper) (f : ℝ → Coeffs ℝ → Coeffs ℝ)
    (hf : ∀ t U V, AgreeIn d ne U V → AgreeIn d ne (f t U) (f t V)) (dt : ℝ) (U : Coeffs ℝ) (n : ℕ) :
    let x := (fun x : ℝ × Coeffs ℝ => (x.1 + dt, methodAt st dt f x.1 x.2))^[n] (0, U)
    march (boxStep st (boxRHS d ne f)) dt n (toBox d ne U) = (x.1, toBox d ne x.2) := by
  induction n with
  | zero => rfl
  | succ n ih =>
    intro x
    simp only at ih
    rw [march_succ, ih]
    simp only [x, Function.iterate_succ_apply']
    rw [boxStep_eq st f hf]

/-- The textbook methods are convergent of their order. -/
theorem methodAt_order (d : Disc ℝ) (ne : ℕ) (st : Stepper) (f : ℝ → Coeffs ℝ → Coeffs ℝ)
    (hf : ∀ t U V, AgreeIn d ne U V → AgreeIn d ne (f t U) (f t V)) (T : ℝ) (hT : 0 < T)
    (y : ℝ → Coeffs ℝ) (hy : ExactSolution d ne T f y) (hs : SmoothAlong d ne T (methodOrder st) f y) :
    ∃ C h0 : ℝ, 0 < h0 ∧ ∀ (dt : ℝ) (n : ℕ) (U : Coeffs ℝ), 0 < dt → dt ≤ h0 → n * dt ≤ T →
      AgreeIn d ne U (y 0) → ∀ e < ne, ∀ b < d.nb, ∀ v < d.ns,
      |((fun x : ℝ × Coeffs ℝ => (x.1 + dt, methodAt st dt f x.1 x.2))^[n] (0, U)).2 e b v -
        y (n * dt) e b v| ≤ C * dt ^ methodOrder st := by
  obtain ⟨Ω, hO, hΩ, hF⟩ := hs
  have hy' : ∀ t ∈ Set.Icc 0 T, HasDerivWithinAt (fun t => toBox d ne (y t))
      (boxRHS d ne f t (toBox d ne (y t))) (Set.Icc 0 T) t := by
    intro t ht
    rw [boxRHS, toBox_eq_iff.2 (hf t _ _ (ofBox_toBox d ne (y t)))]
    refine hasDerivWithinAt_pi.2 fun e => hasDerivWithinAt_pi.2 fun b => hasDerivWithinAt_pi.2 fun v => ?_
    exact hy t ht e e.2 b b.2 v v.2
  have main : ∃ C h0 : ℝ, 0 < h0 ∧ ∀ (h : ℝ) (n : ℕ), 0 < h → h ≤ h0 → n * h ≤ T →
      (march (boxStep st (boxRHS d ne f)) h n (toBox d ne (y 0))).1 = n * h ∧
      ‖(march (boxStep st (boxRHS d ne f)) h n (toBox d ne (y 0))).2 - toBox d ne (y (n * h))‖ ≤
        C * h ^ methodOrder st := by
    cases st with
    | FE => exact euler_order (F := boxRHS d ne f) hT hO (by exact_mod_cast hF) hΩ hy'
    | RK4 => exact rk4_order (F := boxRHS d ne f) hT hO (by exact_mod_cast hF) hΩ hy'
  obtain ⟨C, h0, hp, hC⟩ := main
  refine ⟨C, h0, hp, fun dt n U hdt hle hn hU e he b hb v hv => ?_⟩
  have h1 := (hC dt n hdt hle hn).2
  rw [← toBox_eq_iff.2 hU, boxMarch_eq st f hf] at h1
  exact (entry_le_norm _ _ he hb hv).trans h1

/-- **C81** (the time loop).  If the right-hand side `M⁻¹ R(t, U)` is smooth near an exact solution `y` of
`dy/dt = M⁻¹ R(t, y)` on `[0, T]` (four times continuously differentiable for Runge-Kutta, once for Euler), then the time
loop started from `y 0` stays within `C dt⁴` (Runge-Kutta) or `C dt` (Euler) of `y` at every step up to
`T`, with one constant for all small step sizes and all numbers of steps. -/
theorem C81_time_loop (d : Disc ℝ) (ne : ℕ) (iMM : ℕ → ℕ → ℕ → ℝ) (st : Stepper)
    (R : ℝ → Coeffs ℝ → Coeffs ℝ)
    (hR : ∀ t U V, AgreeIn d ne U V → AgreeIn d ne (R t U) (R t V)) (T : ℝ) (hT : 0 < T)
    (y : ℝ → Coeffs ℝ)
    (hy : ExactSolution d ne T (fun t U e b v => ∑ j ∈ range d.nb, iMM e b j * R t U e j v) y)
    (hs : SmoothAlong d ne T (methodOrder st) R y) :
    ∃ C h0 : ℝ, 0 < h0 ∧ ∀ (dt : ℝ) (n : ℕ) (s : RankState ℝ), 0 < dt → dt ≤ h0 → n * dt ≤ T →
      s.stage = 0 → s.time = 0 → AgreeIn d ne s.Uc (y 0) →
      (timeLoop d ne dt iMM st R n s).time = n * dt ∧
      ∀ e < ne, ∀ b < d.nb, ∀ v < d.ns,
        |(timeLoop d ne dt iMM st R n s).Uc e b v - y (n * dt) e b v| ≤ C * dt ^ methodOrder st := by
  set f : ℝ → Coeffs ℝ → Coeffs ℝ := fun t U e b v => ∑ j ∈ range d.nb, iMM e b j * R t U e j v with hf
  have hfa : ∀ t U V, AgreeIn d ne U V → AgreeIn d ne (f t U) (f t V) := by
    intro t U V h e he b hb v hv
    exact Finset.sum_congr rfl fun j hj => by
      rw [hR t U V h e he j (Finset.mem_range.1 hj) v hv]
  have hs' : SmoothAlong d ne T (methodOrder st) f y := by
    obtain ⟨Ω, hO, hΩ, hF⟩ := hs
    refine ⟨Ω, hO, hΩ, ?_⟩
    refine contDiffOn_pi.2 fun e => contDiffOn_pi.2 fun b => contDiffOn_pi.2 fun v => ?_
    simp only [hf, toBox]
    refine ContDiffOn.sum fun j hj => contDiffOn_const.mul ?_
    exact contDiffOn_pi.1 (contDiffOn_pi.1 (contDiffOn_pi.1 hF e) ⟨j, Finset.mem_range.1 hj⟩) v
  obtain ⟨C, h0, hp, hC⟩ := methodAt_order d ne st f hfa T hT y hy hs'
  refine ⟨C, h0, hp, fun dt n s hdt hle hn h1 h2 h3 => ?_⟩
  obtain ⟨k1, k2, -, -⟩ := C40_time_loop d ne dt iMM st R hR s h1 n
  rw [h2] at k1 k2
  refine ⟨by rw [k2]; ring, fun e he b hb v hv => ?_⟩
  rw [k1 e he b hb v hv]
  exact hC dt n s.Uc hdt hle hn h3 e he b hb v hv

/-- the methods for a right-hand side without explicit time -/
theorem stepOf_iterate (st : Stepper) (dt : ℝ) (rhs : Coeffs ℝ → Coeffs ℝ) (U : Coeffs ℝ) (n : ℕ) :
    ∀ t : ℝ, ((fun x : ℝ × Coeffs ℝ => (x.1 + dt, methodAt st dt (fun _ => rhs) x.1 x.2))^[n] (t, U)).2 =
      (stepOf st dt rhs)^[n] U := by
  induction n generalizing U with
  | zero => intro t; rfl
  | succ n ih =>
    intro t
    rw [Function.iterate_succ_apply, Function.iterate_succ_apply]
    have e : methodAt st dt (fun _ => rhs) t U = stepOf st dt rhs U := by cases st <;> rfl
    simp only [e]
    exact ih _ _

/-- **C81** (the parallel run).  Let `y` be an exact solution of the discontinuous Galerkin equations
`dy/dt = M⁻¹ R(y)` of the whole mesh on `[0, T]` near which the right-hand side is smooth.  There is one constant `C` such that for
every small enough step size, every number of ranks, every partition, every interleaving of the ranks, every order of
the parallel flux loops and every number of steps: a rank that has made `n` steps holds on its elements
the exact solution at the time `n dt` up to `C dt⁴` (Runge-Kutta) or `C dt` (Euler). -/
theorem C81_parallel_run {α : Type} (m : GMesh α) (hm : MeshOK m) (d : Disc ℝ) (norient : ℕ)
    (hc : Conforming d norient m) (ho : OrderOK d norient) (G : Geom ℝ) (st : Stepper) (T : ℝ) (hT : 0 < T)
    (y : ℝ → Coeffs ℝ) (hy : ExactSolution d m.numElems T (fun _ => globalRHS d m G) y)
    (hs : SmoothAlong d m.numElems T (methodOrder st) (fun _ => globalRHS d m G) y) :
    ∃ C h0 : ℝ, 0 < h0 ∧ ∀ (dt : ℝ), 0 < dt → dt ≤ h0 →
      ∀ (nranks : ℕ) (part : List ℕ) (rms : ℕ → RankMesh α), World m nranks part rms →
      ∀ (g : ℕ → Geom ℝ), (∀ r < nranks, GeomRestrict d (rms r) (g r) G) →
      ∀ (sched : ℕ → ℕ → List (FluxWrite ℝ) → List (FluxWrite ℝ)), (∀ r k l, (sched r k l).Perm l) →
      ∀ (u : ℕ → Coeffs ℝ), (∀ r < nranks, CoeffsRestrict d (rms r) (u r) (y 0)) →
      ∀ (nsteps k : ℕ) (c : Proto.Conf (FaceArr (ℕ → ℕ → ℝ) × Option (RankState ℝ)) (List (ℕ → ℕ → ℝ))),
      Proto.Exec (solverProg d g rms nranks dt st sched nsteps) (Proto.init (solverStart d rms st u)) c k →
      ∀ r < nranks, ∀ n : ℕ, (c.proc r).round = stagesOf st * n → n * dt ≤ T →
      ∃ s, (c.proc r).st.2 = some s ∧ s.time = n * dt ∧
        ∀ i e : ℕ, (rms r).l2gElem[i]? = some e → ∀ b < d.nb, ∀ v < d.ns,
          |s.Uc i b v - y (n * dt) e b v| ≤ C * dt ^ methodOrder st := by
  have hRa : ∀ (t : ℝ) (U V : Coeffs ℝ), AgreeIn d m.numElems U V →
      AgreeIn d m.numElems (globalRHS d m G U) (globalRHS d m G V) := by
    intro _ U V h e he b _ v _
    exact Finset.sum_congr rfl fun j _ => by rw [globalResidual_congr hm h he]
  obtain ⟨C, h0, hp, hC⟩ := methodAt_order d m.numElems st (fun _ => globalRHS d m G) hRa T hT y hy hs
  refine ⟨C, h0, hp, ?_⟩
  intro dt hdt hle nranks part rms w g hg sched hsched u hu nsteps k c hx r hr n hn hnT
  obtain ⟨s, s1, s2, s3, -⟩ := C60_run_matches_serial m nranks part rms w d norient hc ho G g hg st dt
    sched hsched (y 0) u hu nsteps k c hx r hr n hn
  refine ⟨s, s1, s3, fun i e hi b hb v hv => ?_⟩
  have he : e < m.numElems := by
    have := List.mem_of_getElem? hi
    rw [(w.res hr).l2gElem] at this
    exact (mem_owned.1 this).1
  rw [s2 i e hi b hb v hv, ← stepOf_iterate st dt (globalRHS d m G) (y 0) n 0]
  exact hC dt n (y 0) hdt hle hnT (fun _ _ _ _ _ _ => rfl) e he b hb v hv

/-! ### non-vacuity -/

/-- If the right-hand side is linear, it is smooth everywhere and there is an exact solution for all times
from every initial state: both hypotheses of C81 hold. -/
theorem C81_linear_case (d : Disc ℝ) (ne : ℕ) (f : Coeffs ℝ → Coeffs ℝ)
    (hf : ∀ U V, AgreeIn d ne U V → AgreeIn d ne (f U) (f V))
    (hlin : ∀ (a : ℝ) (U V : Coeffs ℝ), AgreeIn d ne (f fun e b v => U e b v + a * V e b v)
      (fun e b v => f U e b v + a * f V e b v)) (U0 : Coeffs ℝ) :
    ∃ y : ℝ → Coeffs ℝ, AgreeIn d ne (y 0) U0 ∧
      ∀ (T : ℝ), ExactSolution d ne T (fun _ => f) y ∧ ∀ k, SmoothAlong d ne T k (fun _ => f) y := by
  have hadd : ∀ (a : ℝ) (u v : Box d ne), boxRHS d ne (fun _ => f) 0 (u + a • v) =
      boxRHS d ne (fun _ => f) 0 u + a • boxRHS d ne (fun _ => f) 0 v := by
    intro a u v
    have h1 : AgreeIn d ne (ofBox (u + a • v)) (fun e b s => ofBox u e b s + a * ofBox v e b s) := by
      intro e he b hb s hs
      simp [ofBox, he, hb, hs]
    have h2 := toBox_eq_iff.2 (hf _ _ h1)
    have h3 := toBox_eq_iff.2 (hlin a (ofBox u) (ofBox v))
    exact h2.trans h3
  have h0 : boxRHS d ne (fun _ => f) 0 0 = 0 := by
    have h1 := hadd (-1) 0 0
    simpa using h1
  let A0 : Box d ne →ₗ[ℝ] Box d ne :=
    { toFun := boxRHS d ne (fun _ => f) 0
      map_add' := fun u v => by simpa using hadd 1 u v
      map_smul' := fun a v => by simpa [h0] using hadd a 0 v }
  let A : Box d ne →L[ℝ] Box d ne := LinearMap.toContinuousLinearMap A0
  have hA : ∀ u, A u = boxRHS d ne (fun _ => f) 0 u := fun _ => rfl
  let z : ℝ → Box d ne := fun t => NormedSpace.exp (t • A) (toBox d ne U0)
  have hz : ∀ t, HasDerivAt z (A (z t)) t := by
    intro t
    have h1 := hasDerivAt_exp_smul_const' (𝕂 := ℝ) A t
    have h2 := h1.clm_apply (hasDerivAt_const t (toBox d ne U0))
    simpa [z] using h2
  refine ⟨fun t => ofBox (z t), ?_, fun T => ⟨?_, fun k => ⟨Set.univ, isOpen_univ, fun _ _ => trivial, ?_⟩⟩⟩
  · refine toBox_eq_iff.1 ?_
    rw [toBox_ofBox]
    simp [z, NormedSpace.exp_zero]
  · intro t _ e he b hb v hv
    have h1 := hasDerivAt_pi.1 (hasDerivAt_pi.1 (hasDerivAt_pi.1 (hz t) ⟨e, he⟩) ⟨b, hb⟩) ⟨v, hv⟩
    have e1 : (fun t => ofBox (z t) e b v) = fun t => z t ⟨e, he⟩ ⟨b, hb⟩ ⟨v, hv⟩ := by
      funext t; simp [ofBox, he, hb, hv]
    rw [e1]
    exact h1.hasDerivWithinAt
  · have : (fun p : ℝ × Box d ne => toBox d ne (f (ofBox p.2))) = fun p => A p.2 := rfl
    rw [this]
    exact (A.contDiff.comp contDiff_snd).contDiffOn

end DG
