import Verif.Props.TimeOrder

/-!
Concrete cases of C81: linear fluxes, and the advection example of `Props/Solver` with real numbers.
-/
namespace DG
open Finset

/-- Linear fluxes give a linear right-hand side. -/
theorem globalRHS_linear {α : Type} (d : Disc ℝ) (m : GMesh α) (G : Geom ℝ)
    (hv : ∀ (a : ℝ) (u w : ℕ → ℝ) (k : ℕ), d.volFlux (fun s => u s + a * w s) k = d.volFlux u k + a * d.volFlux w k)
    (hn : ∀ (a : ℝ) (u w u' w' N : ℕ → ℝ) (s : ℕ),
      d.numFlux (fun s => u s + a * w s) (fun s => u' s + a * w' s) N s = d.numFlux u u' N s + a * d.numFlux w w' N s)
    (a : ℝ) (U V : Coeffs ℝ) :
    globalRHS d m G (fun e b v => U e b v + a * V e b v) =
      fun e b v => globalRHS d m G U e b v + a * globalRHS d m G V e b v := by
  have h1 : ∀ e q, volState d (fun e b v => U e b v + a * V e b v) e q =
      fun s => volState d U e q s + a * volState d V e q s := by
    intro e q
    funext s
    unfold volState
    split
    · rw [Finset.mul_sum, ← Finset.sum_add_distrib]
      exact Finset.sum_congr rfl fun b _ => by ring
    · simp
  have h2 : ∀ e f j, traceState d (fun e b v => U e b v + a * V e b v) e f j =
      fun s => traceState d U e f j s + a * traceState d V e f j s := by
    intro e f j
    funext s
    unfold traceState
    split
    · rw [Finset.mul_sum, ← Finset.sum_add_distrib]
      exact Finset.sum_congr rfl fun b _ => by ring
    · simp
  have h3 : ∀ e b s, volumeTerm d G (fun e b v => U e b v + a * V e b v) e b s =
      volumeTerm d G U e b s + a * volumeTerm d G V e b s := by
    intro e b s
    unfold volumeTerm
    simp only [h1, hv, Finset.mul_sum, ← Finset.sum_add_distrib]
    refine Finset.sum_congr rfl fun q _ => Finset.sum_congr rfl fun i _ => Finset.sum_congr rfl fun j _ => ?_
    ring
  have h4 : ∀ e b s g f, faceTerm d G (fun e b v => U e b v + a * V e b v) e b s g f =
      faceTerm d G U e b s g f + a * faceTerm d G V e b s g f := by
    intro e b s g f
    unfold faceTerm meshFlux
    simp only [h2, hn, Finset.mul_sum, ← Finset.sum_add_distrib]
    refine Finset.sum_congr rfl fun q _ => ?_
    ring
  have h5 : ∀ e b s, globalResidual d m G (fun e b v => U e b v + a * V e b v) e b s =
      globalResidual d m G U e b s + a * globalResidual d m G V e b s := by
    intro e b s
    unfold globalResidual
    rw [h3]
    have : (m.faces.zipIdx.map fun x => faceTerm d G (fun e b v => U e b v + a * V e b v) e b s x.2 x.1).sum =
        (m.faces.zipIdx.map fun x => faceTerm d G U e b s x.2 x.1).sum +
        a * (m.faces.zipIdx.map fun x => faceTerm d G V e b s x.2 x.1).sum := by
      simp only [h4]
      induction m.faces.zipIdx with
      | nil => simp
      | cons x xs ih => simp only [List.map_cons, List.sum_cons, ih]; ring
    rw [this]; ring
  funext e b v
  unfold globalRHS
  simp only [h5, Finset.mul_sum, ← Finset.sum_add_distrib]
  exact Finset.sum_congr rfl fun j _ => by ring

/-- **C81** for linear fluxes (advection): no hypothesis about an exact solution is left.  From every initial
state and for every final time the exact solution of the discontinuous Galerkin equations exists, and
the parallel runs converge to it with the order of the method. -/
theorem C81_linear_flux {α : Type} (m : GMesh α) (hm : MeshOK m) (d : Disc ℝ) (norient : ℕ)
    (hc : Conforming d norient m) (ho : OrderOK d norient) (G : Geom ℝ) (st : Stepper)
    (hv : ∀ (a : ℝ) (u w : ℕ → ℝ) (k : ℕ), d.volFlux (fun s => u s + a * w s) k = d.volFlux u k + a * d.volFlux w k)
    (hn : ∀ (a : ℝ) (u w u' w' N : ℕ → ℝ) (s : ℕ),
      d.numFlux (fun s => u s + a * w s) (fun s => u' s + a * w' s) N s = d.numFlux u u' N s + a * d.numFlux w w' N s)
    (U0 : Coeffs ℝ) :
    ∃ y : ℝ → Coeffs ℝ, AgreeIn d m.numElems (y 0) U0 ∧ ∀ T > 0,
    ExactSolution d m.numElems T (fun _ => globalRHS d m G) y ∧
    ∃ C h0 : ℝ, 0 < h0 ∧ ∀ (dt : ℝ), 0 < dt → dt ≤ h0 →
      ∀ (nranks : ℕ) (part : List ℕ) (rms : ℕ → RankMesh α), World m nranks part rms →
      ∀ (g : ℕ → Geom ℝ), (∀ r < nranks, GeomRestrict d (rms r) (g r) G) →
      ∀ (sched : ℕ → ℕ → List (FluxWrite ℝ) → List (FluxWrite ℝ)), (∀ r k l, (sched r k l).Perm l) →
      ∀ (u : ℕ → Coeffs ℝ), (∀ r < nranks, CoeffsRestrict d (rms r) (u r) (y 0)) →
      ∀ (nsteps k : ℕ) (c : Proto.Conf (FaceArr (ℕ → ℕ → ℝ) × Option (RankState ℝ)) (List (ℕ → ℕ → ℝ))),
      Proto.Exec (solverProg d g rms nranks dt st sched nsteps) (Proto.init (solverStart d rms st u)) c k →
      ∀ r < nranks, ∀ n : ℕ, (c.proc r).round = stagesOf st * n → n * dt ≤ T →
      ∃ s, (c.proc r).st.2 = some s ∧ s.time = n * dt ∧
        ∀ i e : ℕ, (rms r).l2gElem[i]? = some e → ∀ b < d.nb, ∀ v < d.ns,
          |s.Uc i b v - y (n * dt) e b v| ≤ C * dt ^ methodOrder st := by
  have hRa : ∀ (U V : Coeffs ℝ), AgreeIn d m.numElems U V →
      AgreeIn d m.numElems (globalRHS d m G U) (globalRHS d m G V) := by
    intro U V h e he b _ v _
    exact Finset.sum_congr rfl fun j _ => by rw [globalResidual_congr hm h he]
  have hlin := globalRHS_linear d m G hv hn
  obtain ⟨y, y0, hy⟩ := C81_linear_case d m.numElems (globalRHS d m G) hRa
    (fun a U V => by rw [hlin]; exact fun _ _ _ _ _ _ => rfl) U0
  refine ⟨y, y0, fun T hT => ⟨(hy T).1, ?_⟩⟩
  exact C81_parallel_run m hm d norient hc ho G st T hT y (hy T).1 ((hy T).2 _)

/-- upwind advection of the 2 × 2 mesh, real numbers -/
noncomputable def exDiscR : Disc ℝ where
  dim := 2
  ns := 1
  nb := 1
  nq := 1
  nface := 4
  nqf := 2
  volBasis := fun _ _ => 1
  volGrad := fun _ _ _ => 0
  volWts := fun _ => 4
  faceBasis := fun _ _ _ => 1
  faceWts := fun _ => 1
  ptsOrder := fun o i => if o = 0 then i else 1 - i
  volFlux := fun u i => u (i % 1)
  numFlux := fun uL _ n s => uL s * (n 0 + n 1)

noncomputable def exGeomRe : Geom ℝ where
  djac := fun _ _ => 1 / 4
  ijac := fun _ _ i j => if i = j then 2 else 0
  iMM := fun _ _ _ => 1
  normals := fun g _ j => if (g < 2 ∧ j = 0) ∨ (2 ≤ g ∧ j = 1) then 1 / 2 else 0

noncomputable def exGeomReR (r : ℕ) : Geom ℝ where
  djac := fun _ _ => 1 / 4
  ijac := fun _ _ i j => if i = j then 2 else 0
  iMM := fun _ _ _ => 1
  normals := fun i => exGeomRe.normals (((exRms r).l2gFace[i]?).getD 0)

/-- The advection example on two ranks, from element values `e + 1`: Runge-Kutta runs up to time 1 converge
with order 4; runs exist for every number of steps. -/
example : ∃ (y : ℝ → Coeffs ℝ) (C h0 : ℝ), 0 < h0 ∧ y 0 1 0 0 = 2 ∧ ∀ dt, 0 < dt → dt ≤ h0 → ∀ n : ℕ,
    n * dt ≤ 1 → ∃ c k, Proto.Exec (solverProg exDiscR exGeomReR exRms 2 dt .RK4 (fun _ _ => List.reverse) n)
      (Proto.init (solverStart exDiscR exRms .RK4 (fun r k b s => y 0 (((exRms r).l2gElem[k]?).getD 0) b s))) c k ∧
      ∃ s, (c.proc 0).st.2 = some s ∧ s.time = n * dt ∧ |s.Uc 0 0 0 - y (n * dt) 1 0 0| ≤ C * dt ^ 4 := by
  have hc : Conforming exDiscR 2 exMesh := ⟨by decide, by decide, by decide⟩
  have ho : OrderOK exDiscR 2 := by
    intro o ho
    have : o = 0 ∨ o = 1 := by omega
    constructor
    · intro i hi
      simp only [exDiscR] at hi ⊢
      rcases this with rfl | rfl <;> simp <;> omega
    · intro i hi j hj h
      simp only [exDiscR] at hi hj h
      rcases this with rfl | rfl <;> simp at h <;> omega
  have hg : ∀ r, GeomRestrict exDiscR (exRms r) (exGeomReR r) exGeomRe := fun r =>
    ⟨fun _ _ _ _ _ => rfl, fun _ _ _ _ _ _ _ _ _ => rfl, fun _ _ _ _ _ _ _ => rfl, by
      intro i f h q _ j _
      simp [exGeomReR, h]⟩
  obtain ⟨y, y0, hy⟩ := C81_linear_flux exMesh exWorld.mesh exDiscR 2 hc ho exGeomRe .RK4
    (by intro a u w k; simp [exDiscR]) (by intro a u w u' w' N s; simp only [exDiscR]; ring)
    (fun e _ _ => e + 1)
  obtain ⟨-, C, h0, hp, hC⟩ := hy 1 one_pos
  refine ⟨y, C, h0, hp, ?_, fun dt hdt hle n hn => ?_⟩
  · rw [y0 1 (by decide) 0 (by decide) 0 (by decide)]; norm_num
  · have hu : ∀ r, CoeffsRestrict exDiscR (exRms r)
        (fun k b s => y 0 (((exRms r).l2gElem[k]?).getD 0) b s) (y 0) := by
      intro r k e h b _ s _
      simp [h]
    obtain ⟨-, c, k, h1, h2⟩ := C60_run_completes exMesh 2 exPart exRms exWorld exDiscR 2 hc
      ho exGeomRe exGeomReR (fun r _ => hg r) .RK4 dt (fun _ _ => List.reverse)
      (fun _ _ l => List.reverse_perm l) (y 0) _ (fun r _ => hu r) n 0 _ Proto.Exec.refl
    obtain ⟨s, s1, s2, s3⟩ := hC dt hdt hle 2 exPart exRms exWorld exGeomReR (fun r _ => hg r)
      (fun _ _ => List.reverse) (fun _ _ l => List.reverse_perm l) _ (fun r _ => hu r) n k c h1 0 (by omega) n
      (h2 0 (by omega)) hn
    exact ⟨c, k, h1, s, s1, s2, s3 0 1 (by decide) 0 (by decide) 0 (by decide)⟩

end DG
