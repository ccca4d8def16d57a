import Verif.Props.Conservation

/-!
Property C39: free-stream preservation.
-/
namespace DG
open Finset

variable {K : Type} [Field K] {α : Type}

/-! ### specification -/

/-- The coefficients of a uniform state `u`: `one` are the coefficients of the function 1. -/
def uniformCoeffs (one : ℕ → K) (u : ℕ → K) : Coeffs K := fun _ b s => one b * u s

/-- The numerical flux is consistent at the state `u`: between two equal states it is, for every nonzero
normal, the physical flux in the direction of the normal (the flux routines divide by the length of the
normal). -/
def ConsistentAt (d : Disc K) (u : ℕ → K) : Prop :=
  ∀ (n : ℕ → K), (∃ j < d.dim, n j ≠ 0) → ∀ s < d.ns, d.numFlux (cArr d.ns u) (cArr d.ns u) (cArr d.dim n) s =
    ∑ j ∈ range d.dim, d.volFlux (cArr d.ns u) (j * d.ns + s) * n j

/-- No face of the mesh has a zero normal. -/
def NormalsNonzero (d : Disc K) (m : GMesh α) (G : Geom K) : Prop :=
  ∀ g < m.faces.length, ∀ iq < d.nqf, ∃ j < d.dim, G.normals g iq j ≠ 0

/-- Quadrature of `∂φ_b/∂x_j` over element `e`. -/
def volMetric (d : Disc K) (G : Geom K) (e b j : ℕ) : K :=
  ∑ q ∈ range d.nq, ∑ i ∈ range d.dim, d.volGrad q b i * G.ijac e q i j * G.djac e q * d.volWts q

/-- Quadrature of `φ_b n_j` (`n` outward) over the part of face number `g` that bounds element `e`. -/
def faceMetric (d : Disc K) (G : Geom K) (e b j g : ℕ) (f : IFace) : K :=
  ∑ iq ∈ range d.nqf,
    ((if f.elemL = e then d.faceBasis f.faceL (d.ptsOrder f.orientL iq) b else 0) -
     (if f.elemR = e then d.faceBasis f.faceR (d.ptsOrder f.orientR iq) b else 0)) *
    (G.normals g iq j * d.faceWts iq)

/-- The discrete metric identities of element `e`: integration by parts holds for the basis functions
and constant fluxes, `∫_e ∂φ_b/∂x_j = ∮ φ_b n_j`, by the rules the solver uses. -/
def MetricIdentity (d : Disc K) (m : GMesh α) (G : Geom K) (e : ℕ) : Prop :=
  ∀ b < d.nb, ∀ j < d.dim,
    volMetric d G e b j = (m.faces.zipIdx.map fun x => faceMetric d G e b j x.2 x.1).sum

/-! ### theorems -/

theorem uniform_volState {d : Disc K} {one : ℕ → K} (u : ℕ → K) (e q : ℕ)
    (h : ∑ b ∈ range d.nb, one b * d.volBasis q b = 1) :
    volState d (uniformCoeffs one u) e q = cArr d.ns u := by
  funext s
  unfold volState cArr uniformCoeffs
  split
  · have : ∀ b ∈ range d.nb, d.volBasis q b * (one b * u s) = (one b * d.volBasis q b) * u s :=
      fun b _ => by ring
    rw [Finset.sum_congr rfl this, ← Finset.sum_mul, h, one_mul]
  · rfl

theorem uniform_traceState {d : Disc K} {one : ℕ → K} (u : ℕ → K) (e f j : ℕ)
    (h : ∑ b ∈ range d.nb, one b * d.faceBasis f j b = 1) :
    traceState d (uniformCoeffs one u) e f j = cArr d.ns u := by
  funext s
  unfold traceState cArr uniformCoeffs
  split
  · have : ∀ b ∈ range d.nb, d.faceBasis f j b * (one b * u s) = (one b * d.faceBasis f j b) * u s :=
      fun b _ => by ring
    rw [Finset.sum_congr rfl this, ← Finset.sum_mul, h, one_mul]
  · rfl

theorem list_sum_sub_comm {ι : Type} (l : List ι) (n : ℕ) (F : ℕ → K) (f : ℕ → ι → K) :
    ∑ j ∈ range n, F j * (l.map (f j)).sum = (l.map fun x => ∑ j ∈ range n, F j * f j x).sum := by
  induction l with
  | nil => simp
  | cons a l ih => simp [mul_add, Finset.sum_add_distrib, ih]

theorem list_sum_neg {ι : Type} (l : List ι) (f : ι → K) :
    (l.map fun x => -f x).sum = -(l.map f).sum := by
  induction l with
  | nil => simp
  | cons a l ih => simp [ih, add_comm]

/-- C39, exact form: for a uniform state and a consistent flux, the residual of an element is the
physical flux times the defect of the metric identity: nothing else can disturb a free stream. -/
theorem C39_residual_is_metric_defect (m : GMesh α) (d : Disc K) (norient : ℕ)
    (hc : Conforming d norient m) (ho : OrderOK d norient) (one : ℕ → K)
    (hvol : ∀ q < d.nq, ∑ b ∈ range d.nb, one b * d.volBasis q b = 1)
    (hface : ∀ f < d.nface, ∀ j < d.nqf, ∑ b ∈ range d.nb, one b * d.faceBasis f j b = 1)
    (G : Geom K) (hnz : NormalsNonzero d m G) (u : ℕ → K) (hu : ConsistentAt d u) (e b s : ℕ) (hs : s < d.ns) :
    globalResidual d m G (uniformCoeffs one u) e b s =
      ∑ j ∈ range d.dim, d.volFlux (cArr d.ns u) (j * d.ns + s) *
        (volMetric d G e b j - (m.faces.zipIdx.map fun x => faceMetric d G e b j x.2 x.1).sum) := by
  unfold globalResidual
  have hv : volumeTerm d G (uniformCoeffs one u) e b s =
      ∑ j ∈ range d.dim, d.volFlux (cArr d.ns u) (j * d.ns + s) * volMetric d G e b j := by
    unfold volumeTerm volMetric
    simp only [Finset.mul_sum]
    rw [Finset.sum_comm (s := range d.dim) (t := range d.nq)]
    refine Finset.sum_congr rfl fun q hq => ?_
    rw [Finset.sum_comm]
    refine Finset.sum_congr rfl fun j _ => Finset.sum_congr rfl fun i _ => ?_
    rw [uniform_volState u e q (hvol q (Finset.mem_range.1 hq))]
    ring
  have hf : ∀ x ∈ m.faces.zipIdx, faceTerm d G (uniformCoeffs one u) e b s x.2 x.1 =
      -∑ j ∈ range d.dim, d.volFlux (cArr d.ns u) (j * d.ns + s) * faceMetric d G e b j x.2 x.1 := by
    intro x hx
    have hmem : x.1 ∈ m.faces := List.mem_of_getElem? (mem_zipIdx_lt hx)
    obtain ⟨cL, oL⟩ := hc.faceL _ hmem
    obtain ⟨cR, oR⟩ := hc.faceR _ hmem
    unfold faceTerm faceMetric
    simp only [Finset.mul_sum]
    rw [Finset.sum_comm, ← Finset.sum_neg_distrib]
    refine Finset.sum_congr rfl fun iq hq => ?_
    have hq' := Finset.mem_range.1 hq
    unfold meshFlux
    rw [uniform_traceState u _ _ _ (hface _ cL _ ((ho _ oL).1 iq hq')),
      uniform_traceState u _ _ _ (hface _ cR _ ((ho _ oR).1 iq hq')),
      hu _ (hnz x.2 (List.getElem?_eq_some_iff.1 (mem_zipIdx_lt hx)).1 iq hq') s hs,
      Finset.sum_mul, Finset.mul_sum, ← Finset.sum_neg_distrib]
    exact Finset.sum_congr rfl fun j _ => by ring
  have hm : (m.faces.zipIdx.map fun x => faceTerm d G (uniformCoeffs one u) e b s x.2 x.1) =
      m.faces.zipIdx.map fun x =>
        -∑ j ∈ range d.dim, d.volFlux (cArr d.ns u) (j * d.ns + s) * faceMetric d G e b j x.2 x.1 :=
    List.map_congr_left hf
  rw [hv, hm]
  simp only [mul_sub, Finset.sum_sub_distrib]
  rw [list_sum_sub_comm, sub_eq_add_neg, list_sum_neg]

/-- C39: the residual of a uniform state is zero on every element whose metric identities hold. -/
theorem C39_uniform_residual_zero (m : GMesh α) (d : Disc K) (norient : ℕ)
    (hc : Conforming d norient m) (ho : OrderOK d norient) (one : ℕ → K)
    (hvol : ∀ q < d.nq, ∑ b ∈ range d.nb, one b * d.volBasis q b = 1)
    (hface : ∀ f < d.nface, ∀ j < d.nqf, ∑ b ∈ range d.nb, one b * d.faceBasis f j b = 1)
    (G : Geom K) (hnz : NormalsNonzero d m G) (u : ℕ → K) (hu : ConsistentAt d u) (e : ℕ) (hm : MetricIdentity d m G e)
    (b s : ℕ) (hb : b < d.nb) (hs : s < d.ns) :
    globalResidual d m G (uniformCoeffs one u) e b s = 0 := by
  rw [C39_residual_is_metric_defect m d norient hc ho one hvol hface G hnz u hu e b s hs]
  refine Finset.sum_eq_zero fun j hj => ?_
  rw [hm b hb j (Finset.mem_range.1 hj), sub_self, mul_zero]

/-- the residual of the elements of the mesh only depends on the coefficients of the mesh -/
theorem globalResidual_congr {m : GMesh α} (hm : MeshOK m) {d : Disc K} {G : Geom K} {U V : Coeffs K}
    (h : AgreeIn d m.numElems U V) {e : ℕ} (he : e < m.numElems) (b s : ℕ) :
    globalResidual d m G U e b s = globalResidual d m G V e b s := by
  have hv : ∀ q, volState d U e q = volState d V e q := by
    intro q; funext v; unfold volState
    split
    · next hv => exact Finset.sum_congr rfl fun b hb => by rw [h e he b (Finset.mem_range.1 hb) v hv]
    · rfl
  have ht : ∀ e < m.numElems, ∀ f j, traceState d U e f j = traceState d V e f j := by
    intro e he f j; funext v; unfold traceState
    split
    · next hv => exact Finset.sum_congr rfl fun b hb => by rw [h e he b (Finset.mem_range.1 hb) v hv]
    · rfl
  unfold globalResidual
  congr 1
  · unfold volumeTerm; simp only [hv]
  · congr 1
    refine List.map_congr_left fun x hx => ?_
    obtain ⟨mL, mR⟩ := hm.faces _ (List.mem_of_getElem? (mem_zipIdx_lt hx))
    unfold faceTerm meshFlux
    simp only [ht _ mL, ht _ mR]

/-- C39: when the metric identities hold on all elements of the mesh, the uniform state is a fixed point
of the time step of either method, for every step size: any number of steps leaves every coefficient
unchanged. -/
theorem C39_uniform_state_is_fixed (m : GMesh α) (hm : MeshOK m) (d : Disc K) (norient : ℕ)
    (hc : Conforming d norient m) (ho : OrderOK d norient) (one : ℕ → K)
    (hvol : ∀ q < d.nq, ∑ b ∈ range d.nb, one b * d.volBasis q b = 1)
    (hface : ∀ f < d.nface, ∀ j < d.nqf, ∑ b ∈ range d.nb, one b * d.faceBasis f j b = 1)
    (G : Geom K) (hnz : NormalsNonzero d m G) (u : ℕ → K) (hu : ConsistentAt d u)
    (hmet : ∀ e < m.numElems, MetricIdentity d m G e) (st : Stepper) (dt : K) (k : ℕ) :
    AgreeIn d m.numElems ((stepOf st dt (globalRHS d m G))^[k] (uniformCoeffs one u))
      (uniformCoeffs one u) := by
  have hz : ∀ V, AgreeIn d m.numElems V (uniformCoeffs one u) →
      ∀ e < m.numElems, ∀ b < d.nb, ∀ s < d.ns, globalRHS d m G V e b s = 0 := by
    intro V hV e he b _ s hs
    unfold globalRHS
    refine Finset.sum_eq_zero fun j hj => ?_
    rw [globalResidual_congr hm hV he, C39_uniform_residual_zero m d norient hc ho one hvol hface G hnz u hu e
      (hmet e he) j s (Finset.mem_range.1 hj) hs, mul_zero]
  have hadd : ∀ (c : K) (A W : Coeffs K), AgreeIn d m.numElems W (uniformCoeffs one u) →
      AgreeIn d m.numElems A (uniformCoeffs one u) →
      AgreeIn d m.numElems (fun e b s => A e b s + c * globalRHS d m G W e b s) (uniformCoeffs one u) := by
    intro c A W hW hA e he b hb s hs
    simp only
    rw [hz W hW e he b hb s hs, mul_zero, add_zero, hA e he b hb s hs]
  have hstep : ∀ V, AgreeIn d m.numElems V (uniformCoeffs one u) →
      AgreeIn d m.numElems (stepOf st dt (globalRHS d m G) V) (uniformCoeffs one u) := by
    intro V hV
    cases st with
    | FE => exact hadd dt V V hV hV
    | RK4 =>
      intro e he b hb s hs
      simp only [stepOf, rk4Step]
      have h1 := hadd (dt / 2) V V hV hV
      have h2 := hadd (dt / 2) V _ h1 hV
      have h3 := hadd dt V _ h2 hV
      rw [hz _ hV e he b hb s hs, hz _ h1 e he b hb s hs, hz _ h2 e he b hb s hs,
        hz _ h3 e he b hb s hs, hV e he b hb s hs]
      ring
  induction k with
  | zero => intro e _ b _ s _; rfl
  | succ k ih => rw [Function.iterate_succ_apply']; exact hstep _ ih

/-- C39 for the program: on any number of ranks and under any interleaving, a run started from a uniform
state ends with that state on every rank. -/
theorem C39_run_preserves_uniform_state [DecidableEq K] [CharZero K] (m : GMesh α) (nranks : ℕ)
    (part : List ℕ) (rms : ℕ → RankMesh α) (w : World m nranks part rms) (d : Disc K) (norient : ℕ)
    (hc : Conforming d norient m) (ho : OrderOK d norient) (one : ℕ → K)
    (hvol : ∀ q < d.nq, ∑ b ∈ range d.nb, one b * d.volBasis q b = 1)
    (hface : ∀ f < d.nface, ∀ j < d.nqf, ∑ b ∈ range d.nb, one b * d.faceBasis f j b = 1)
    (G : Geom K) (g : ℕ → Geom K) (hg : ∀ r < nranks, GeomRestrict d (rms r) (g r) G)
    (hnz : NormalsNonzero d m G) (u : ℕ → K) (hu : ConsistentAt d u) (hmet : ∀ e < m.numElems, MetricIdentity d m G e)
    (st : Stepper) (dt : K) (sched : ℕ → ℕ → List (FluxWrite K) → List (FluxWrite K))
    (hsched : ∀ r k l, (sched r k l).Perm l) (nsteps k : ℕ)
    (c : Proto.Conf (FaceArr (ℕ → ℕ → K) × Option (RankState K)) (List (ℕ → ℕ → K)))
    (hx : Proto.Exec (solverProg d g rms nranks dt st sched nsteps)
      (Proto.init (solverStart d rms st fun _ => uniformCoeffs one u)) c k)
    (hfin : ∀ r < nranks, (c.proc r).round = stagesOf st * nsteps) :
    ∀ r < nranks, ∃ s : RankState K, (c.proc r).st.2 = some s ∧
      AgreeIn d (rms r).numElemsPart s.Uc (uniformCoeffs one u) := by
  intro r hr
  obtain ⟨s, s1, s2, _⟩ := C60_run_matches_serial m nranks part rms w d norient hc ho G g hg st dt
    sched hsched (uniformCoeffs one u) _ (fun _ _ _ _ _ _ _ _ _ => rfl) nsteps k c hx r hr nsteps
    (hfin r hr)
  refine ⟨s, s1, ?_⟩
  intro e he b hb v hv
  have hlt : e < (rms r).l2gElem.length := by rw [← w.numElems hr]; exact he
  have hget := List.getElem?_eq_getElem hlt
  rw [s2 e _ hget b hb v hv]
  have hmem : (rms r).l2gElem[e] ∈ (rms r).l2gElem := List.getElem_mem hlt
  generalize (rms r).l2gElem[e] = x at hmem ⊢
  rw [(w.res hr).l2gElem] at hmem
  exact C39_uniform_state_is_fixed m w.mesh d norient hc ho one hvol hface G hnz u hu hmet st dt nsteps _
    (mem_owned.1 hmem).1 b hb v hv

end DG
