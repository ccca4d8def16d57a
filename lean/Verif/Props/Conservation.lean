import Verif.Props.Solver
import Verif.Props.Mass

/-!
Property C38: discrete conservation, for the residual, for a step and for the whole distributed run.
-/
namespace DG
open Finset

variable {K : Type} [Field K] {α : Type}

theorem list_sum_comm {ι : Type} (l : List ι) (n : ℕ) (f : ℕ → ι → K) :
    ∑ e ∈ range n, (l.map (f e)).sum = (l.map fun x => ∑ e ∈ range n, f e x).sum := by
  induction l with
  | nil => simp
  | cons a l ih => simp [Finset.sum_add_distrib, ih]

theorem sum_volumeTerm (d : Disc K) (G : Geom K) (U : Coeffs K) (e s : ℕ) (c : ℕ → K)
    (hgrad : ∀ q < d.nq, ∀ i < d.dim, ∑ b ∈ range d.nb, c b * d.volGrad q b i = 0) :
    ∑ b ∈ range d.nb, c b * volumeTerm d G U e b s = 0 := by
  unfold volumeTerm
  simp only [Finset.mul_sum (range d.nq)]
  rw [Finset.sum_comm]
  refine Finset.sum_eq_zero fun q hq => ?_
  simp only [Finset.mul_sum _ _ (c _)]
  rw [Finset.sum_comm]
  refine Finset.sum_eq_zero fun i hi => ?_
  simp only [← mul_assoc (c _)]
  rw [← Finset.sum_mul, hgrad q (Finset.mem_range.1 hq) i (Finset.mem_range.1 hi), zero_mul]

theorem sum_faceTerm {m : GMesh α} (hm : MeshOK m) {d : Disc K} {norient : ℕ}
    (hc : Conforming d norient m) (ho : OrderOK d norient) (G : Geom K) (U : Coeffs K) (s : ℕ)
    (c : ℕ → K) (hface : ∀ f < d.nface, ∀ j < d.nqf, ∑ b ∈ range d.nb, c b * d.faceBasis f j b = 1)
    {f : IFace} (hf : f ∈ m.faces) (g : ℕ) :
    ∑ e ∈ range m.numElems, ∑ b ∈ range d.nb, c b * faceTerm d G U e b s g f = 0 := by
  obtain ⟨mL, mR⟩ := hm.faces f hf
  obtain ⟨cL, oL⟩ := hc.faceL f hf
  obtain ⟨cR, oR⟩ := hc.faceR f hf
  unfold faceTerm
  have e1 : ∀ e ∈ range m.numElems, (∑ b ∈ range d.nb, c b * ∑ iq ∈ range d.nqf,
      ((if f.elemR = e then d.faceBasis f.faceR (d.ptsOrder f.orientR iq) b else 0) -
       (if f.elemL = e then d.faceBasis f.faceL (d.ptsOrder f.orientL iq) b else 0)) *
      meshFlux d G U g f iq s) =
      ∑ iq ∈ range d.nqf, ((if f.elemR = e then 1 else 0) - (if f.elemL = e then 1 else 0)) *
        meshFlux d G U g f iq s := by
    intro e _
    simp only [Finset.mul_sum]
    rw [Finset.sum_comm]
    refine Finset.sum_congr rfl fun iq hq => ?_
    simp only [← mul_assoc (c _), mul_sub (c _)]
    rw [← Finset.sum_mul, Finset.sum_sub_distrib]
    congr 2
    · split
      · exact hface _ cR _ ((ho _ oR).1 iq (Finset.mem_range.1 hq))
      · simp
    · split
      · exact hface _ cL _ ((ho _ oL).1 iq (Finset.mem_range.1 hq))
      · simp
  rw [Finset.sum_congr rfl e1, Finset.sum_comm]
  refine Finset.sum_eq_zero fun iq _ => ?_
  rw [← Finset.sum_mul, Finset.sum_sub_distrib, Finset.sum_ite_eq, Finset.sum_ite_eq,
    if_pos (Finset.mem_range.2 mR), if_pos (Finset.mem_range.2 mL), sub_self, zero_mul]

/-- C38: for a basis in which the function 1 has coefficients `c` (all ones for a Lagrange basis, the
first unit vector for a Legendre basis), the sum over all elements of `Σ_b c_b R_b` - the residual tested
with the function 1 - is zero for each state variable, for every state, flux function and geometry: what
leaves an element through a face enters its neighbour.  (The code computes no fluxes through boundary
sides.) -/
theorem C38_residual_sums_to_zero (m : GMesh α) (hm : MeshOK m) (d : Disc K) (norient : ℕ)
    (hc : Conforming d norient m) (ho : OrderOK d norient)
    (one : ℕ → K)
    (hface : ∀ f < d.nface, ∀ j < d.nqf, ∑ b ∈ range d.nb, one b * d.faceBasis f j b = 1)
    (hgrad : ∀ q < d.nq, ∀ i < d.dim, ∑ b ∈ range d.nb, one b * d.volGrad q b i = 0)
    (G : Geom K) (U : Coeffs K) (s : ℕ) :
    ∑ e ∈ range m.numElems, ∑ b ∈ range d.nb, one b * globalResidual d m G U e b s = 0 := by
  unfold globalResidual
  simp only [mul_add, Finset.sum_add_distrib]
  have hv : ∑ e ∈ range m.numElems, ∑ b ∈ range d.nb, one b * volumeTerm d G U e b s = 0 :=
    Finset.sum_eq_zero fun e _ => sum_volumeTerm d G U e s one hgrad
  rw [hv, zero_add]
  generalize hl : m.faces.zipIdx = l
  have e1 : ∀ e ∈ range m.numElems, (∑ b ∈ range d.nb,
      one b * (l.map fun x => faceTerm d G U e b s x.2 x.1).sum) =
      (l.map fun x => ∑ b ∈ range d.nb, one b * faceTerm d G U e b s x.2 x.1).sum := by
    intro e _
    simp only [← List.sum_map_mul_left]
    rw [list_sum_comm]
  rw [Finset.sum_congr rfl e1, list_sum_comm]
  subst hl
  refine List.sum_eq_zero fun y hy => ?_
  obtain ⟨x, hx, rfl⟩ := List.mem_map.1 hy
  exact sum_faceTerm hm hc ho G U s one hface (List.mem_of_getElem? (mem_zipIdx_lt hx)) x.2

/-- the mesh integral of the right-hand side is the sum of the residual -/
theorem integral_rhs (m : GMesh α) (d : Disc K) (n : ℕ) (W B : ℕ → ℕ → K) (G : Geom K)
    (one : ℕ → K) (hB : ∀ q < n, ∑ b ∈ range d.nb, one b * B q b = 1)
    (hM : InvMassOf m d.nb n W B G.iMM)
    (U : Coeffs K) (v : ℕ) :
    meshIntegral m d.nb n W B (globalRHS d m G U) v =
      ∑ e ∈ range m.numElems, ∑ b ∈ range d.nb, one b * globalResidual d m G U e b v := by
  unfold meshIntegral
  refine Finset.sum_congr rfl fun e he => ?_
  have he' := Finset.mem_range.1 he
  -- insert Σ_a one a * B q a = 1
  have e1 : ∀ q ∈ range n, W e q * ∑ b ∈ range d.nb, B q b * globalRHS d m G U e b v =
      ∑ a ∈ range d.nb, one a * ∑ b ∈ range d.nb, W e q * (B q a * B q b) * globalRHS d m G U e b v := by
    intro q hq
    have h1 := hB q (Finset.mem_range.1 hq)
    have e0 : ∀ a ∈ range d.nb, one a * ∑ b ∈ range d.nb, W e q * (B q a * B q b) *
        globalRHS d m G U e b v = (one a * B q a) * (W e q * ∑ b ∈ range d.nb, B q b *
          globalRHS d m G U e b v) := by
      intro a _
      rw [Finset.mul_sum, Finset.mul_sum, Finset.mul_sum]
      exact Finset.sum_congr rfl fun b _ => by ring
    rw [Finset.sum_congr rfl e0, ← Finset.sum_mul, h1, one_mul]
  rw [Finset.sum_congr rfl e1, Finset.sum_comm]
  refine Finset.sum_congr rfl fun a ha => ?_
  have ha' := Finset.mem_range.1 ha
  rw [← Finset.mul_sum]
  congr 1
  rw [Finset.sum_comm]
  have e2 : ∀ b ∈ range d.nb, ∑ q ∈ range n, W e q * (B q a * B q b) * globalRHS d m G U e b v =
      ∑ j ∈ range d.nb, (∑ q ∈ range n, W e q * (B q a * B q b)) * G.iMM e b j *
        globalResidual d m G U e j v := by
    intro b _
    rw [← Finset.sum_mul]
    unfold globalRHS
    rw [Finset.mul_sum]
    exact Finset.sum_congr rfl fun j _ => by ring
  rw [Finset.sum_congr rfl e2, Finset.sum_comm]
  have e3 : ∀ j ∈ range d.nb, ∑ b ∈ range d.nb, (∑ q ∈ range n, W e q * (B q a * B q b)) *
      G.iMM e b j * globalResidual d m G U e j v =
      if a = j then globalResidual d m G U e j v else 0 := by
    intro j hj
    rw [← Finset.sum_mul, hM e he' a ha' j (Finset.mem_range.1 hj)]
    split <;> simp
  rw [Finset.sum_congr rfl e3, Finset.sum_ite_eq, if_pos ha]

theorem integral_add (m : GMesh α) (nb n : ℕ) (W B : ℕ → ℕ → K) (U V : Coeffs K) (c : K) (v : ℕ) :
    meshIntegral m nb n W B (fun e b s => U e b s + c * V e b s) v =
      meshIntegral m nb n W B U v + c * meshIntegral m nb n W B V v := by
  unfold meshIntegral
  rw [Finset.mul_sum, ← Finset.sum_add_distrib]
  refine Finset.sum_congr rfl fun e _ => ?_
  rw [Finset.mul_sum, ← Finset.sum_add_distrib]
  refine Finset.sum_congr rfl fun q _ => ?_
  have : ∑ b ∈ range nb, B q b * (U e b v + c * V e b v) =
      ∑ b ∈ range nb, B q b * U e b v + c * ∑ b ∈ range nb, B q b * V e b v := by
    rw [Finset.mul_sum, ← Finset.sum_add_distrib]
    exact Finset.sum_congr rfl fun b _ => by ring
  rw [this]; ring

/-- C38: a step of either time stepper leaves the integral of every state variable over the mesh
unchanged, hence so does any number of steps.  The integral is by the rule the mass matrices use. -/
theorem C38_steps_conserve (m : GMesh α) (hm : MeshOK m) (d : Disc K) (norient : ℕ)
    (hc : Conforming d norient m) (ho : OrderOK d norient)
    (one : ℕ → K)
    (hface : ∀ f < d.nface, ∀ j < d.nqf, ∑ b ∈ range d.nb, one b * d.faceBasis f j b = 1)
    (hgrad : ∀ q < d.nq, ∀ i < d.dim, ∑ b ∈ range d.nb, one b * d.volGrad q b i = 0)
    (G : Geom K) (n : ℕ) (W B : ℕ → ℕ → K)
    (hB : ∀ q < n, ∑ b ∈ range d.nb, one b * B q b = 1) (hM : InvMassOf m d.nb n W B G.iMM)
    (st : Stepper) (dt : K) (U : Coeffs K) (v k : ℕ) :
    meshIntegral m d.nb n W B ((stepOf st dt (globalRHS d m G))^[k] U) v =
      meshIntegral m d.nb n W B U v := by
  have hz : ∀ V, meshIntegral m d.nb n W B (globalRHS d m G V) v = 0 := fun V => by
    rw [integral_rhs m d n W B G one hB hM,
      C38_residual_sums_to_zero m hm d norient hc ho one hface hgrad]
  have hone : ∀ V, meshIntegral m d.nb n W B (stepOf st dt (globalRHS d m G) V) v =
      meshIntegral m d.nb n W B V v := by
    intro V
    cases st with
    | FE =>
      have := integral_add m d.nb n W B V (globalRHS d m G V) dt v
      rw [hz, mul_zero, add_zero] at this
      exact this
    | RK4 =>
      have e : stepOf .RK4 dt (globalRHS d m G) V = fun e b s =>
          (fun e b s => (fun e b s => (fun e b s => V e b s +
            dt / 6 * globalRHS d m G (rkStage dt (globalRHS d m G) V 0) e b s) e b s +
            dt / 6 * 2 * globalRHS d m G (rkStage dt (globalRHS d m G) V 1) e b s) e b s +
            dt / 6 * 2 * globalRHS d m G (rkStage dt (globalRHS d m G) V 2) e b s) e b s +
            dt / 6 * globalRHS d m G (rkStage dt (globalRHS d m G) V 3) e b s := by
        funext e b s
        simp only [stepOf]
        rw [rk4Step_eq]; ring
      rw [e, integral_add, integral_add, integral_add, integral_add, hz, hz, hz, hz]
      simp
  induction k with
  | zero => rfl
  | succ k ih => rw [Function.iterate_succ_apply', hone, ih]

/-! ### the distributed run -/

theorem sum_getD (h : ℕ → K) : ∀ l : List ℕ,
    ∑ k ∈ range l.length, h ((l[k]?).getD 0) = (l.map h).sum := by
  intro l
  induction l with
  | nil => simp
  | cons a l ih =>
    rw [List.length_cons, Finset.sum_range_succ']
    simp only [List.getElem?_cons_succ, List.getElem?_cons_zero, Option.getD_some, List.map_cons,
      List.sum_cons]
    rw [ih, add_comm]

theorem sum_filter_range (p : ℕ → Prop) [DecidablePred p] (h : ℕ → K) (n : ℕ) :
    (((List.range n).filter (fun e => decide (p e))).map h).sum =
      ∑ e ∈ range n, if p e then h e else 0 := by
  induction n with
  | zero => rfl
  | succ n ih =>
    rw [List.range_succ, List.filter_append, List.map_append, List.sum_append, ih,
      Finset.sum_range_succ]
    congr 1
    by_cases hp : p n <;> simp [List.filter_cons, hp]

section world
variable {m : GMesh α} {nranks : ℕ} {part : List ℕ} {rms : ℕ → RankMesh α}

/-- a sum over all local elements of all ranks is a sum over the elements of the mesh -/
theorem World.sum_ranks (w : World m nranks part rms) (h : ℕ → K) :
    ∑ r ∈ range nranks, ∑ k ∈ range (rms r).numElemsPart, h (gElem (rms r) k) =
      ∑ e ∈ range m.numElems, h e := by
  have hloc : ∀ r ∈ range nranks, ∑ k ∈ range (rms r).numElemsPart, h (gElem (rms r) k) =
      ∑ e ∈ range m.numElems, if part[e]? = some r then h e else 0 := by
    intro r hr
    have hr' := Finset.mem_range.1 hr
    rw [w.numElems hr']
    unfold gElem
    rw [sum_getD, (w.res hr').l2gElem]
    exact sum_filter_range _ _ _
  rw [Finset.sum_congr rfl hloc, Finset.sum_comm]
  refine Finset.sum_congr rfl fun e he => ?_
  have hlt : e < part.length := by rw [w.parts.len]; exact Finset.mem_range.1 he
  have : ∀ r ∈ range nranks, (if part[e]? = some r then h e else 0) =
      if part[e] = r then h e else 0 := by
    intro r _
    rw [List.getElem?_eq_getElem hlt]; simp
  rw [Finset.sum_congr rfl this, Finset.sum_ite_eq,
    if_pos (Finset.mem_range.2 (w.parts.lt _ (List.getElem_mem hlt)))]

end world

/-- C38 for the program: on any number of ranks, under any interleaving and order of the flux loops,
the sum over all ranks and all their elements of the integral of every state variable is the same
after `nsteps` time steps as initially.  `Wr r k` are the weights (times Jacobian) rank `r` has for its
element `k`. -/
theorem C38_run_conserves [DecidableEq K] [CharZero K] (m : GMesh α) (nranks : ℕ) (part : List ℕ)
    (rms : ℕ → RankMesh α) (w : World m nranks part rms) (d : Disc K) (norient : ℕ)
    (hc : Conforming d norient m) (ho : OrderOK d norient)
    (one : ℕ → K)
    (hface : ∀ f < d.nface, ∀ j < d.nqf, ∑ b ∈ range d.nb, one b * d.faceBasis f j b = 1)
    (hgrad : ∀ q < d.nq, ∀ i < d.dim, ∑ b ∈ range d.nb, one b * d.volGrad q b i = 0)
    (G : Geom K) (g : ℕ → Geom K) (hg : ∀ r < nranks, GeomRestrict d (rms r) (g r) G)
    (n : ℕ) (W B : ℕ → ℕ → K) (hB : ∀ q < n, ∑ b ∈ range d.nb, one b * B q b = 1)
    (hM : InvMassOf m d.nb n W B G.iMM) (Wr : ℕ → ℕ → ℕ → K)
    (hW : ∀ r < nranks, ∀ k e : ℕ, (rms r).l2gElem[k]? = some e → ∀ q < n, Wr r k q = W e q)
    (st : Stepper) (dt : K) (sched : ℕ → ℕ → List (FluxWrite K) → List (FluxWrite K))
    (hsched : ∀ r k l, (sched r k l).Perm l) (U0 : Coeffs K) (Uc0 : ℕ → Coeffs K)
    (hu : ∀ r < nranks, CoeffsRestrict d (rms r) (Uc0 r) U0) (nsteps k : ℕ)
    (c : Proto.Conf (FaceArr (ℕ → ℕ → K) × Option (RankState K)) (List (ℕ → ℕ → K)))
    (hx : Proto.Exec (solverProg d g rms nranks dt st sched nsteps)
      (Proto.init (solverStart d rms st Uc0)) c k)
    (hfin : ∀ r < nranks, (c.proc r).round = stagesOf st * nsteps) (v : ℕ) (hv : v < d.ns) :
    ∃ S : ℕ → RankState K, (∀ r < nranks, (c.proc r).st.2 = some (S r)) ∧
      ∑ r ∈ range nranks, ∑ k ∈ range (rms r).numElemsPart, ∑ q ∈ range n,
        Wr r k q * ∑ b ∈ range d.nb, B q b * (S r).Uc k b v =
      ∑ r ∈ range nranks, ∑ k ∈ range (rms r).numElemsPart, ∑ q ∈ range n,
        Wr r k q * ∑ b ∈ range d.nb, B q b * Uc0 r k b v := by
  have hex : ∀ r, ∃ s : RankState K, r < nranks → (c.proc r).st.2 = some s ∧
      CoeffsRestrict d (rms r) s.Uc ((stepOf st dt (globalRHS d m G))^[nsteps] U0) := by
    intro r
    by_cases hr : r < nranks
    · obtain ⟨s, s1, s2, _⟩ := C60_run_matches_serial m nranks part rms w d norient hc ho G g hg st dt
        sched hsched U0 Uc0 hu nsteps k c hx r hr nsteps (hfin r hr)
      exact ⟨s, fun _ => ⟨s1, s2⟩⟩
    · exact ⟨⟨fun _ _ _ => 0, 0, fun _ _ _ => 0, fun _ _ _ => 0, fun _ _ _ => 0, fun _ _ _ => 0,
        fun _ _ _ => 0, fun _ _ _ => 0, fun _ _ _ => 0, 0, 0⟩, fun h => absurd h hr⟩
  choose S hS using hex
  refine ⟨S, fun r hr => (hS r hr).1, ?_⟩
  have key : ∀ (u : ℕ → Coeffs K) (U : Coeffs K), (∀ r < nranks, CoeffsRestrict d (rms r) (u r) U) →
      ∑ r ∈ range nranks, ∑ k ∈ range (rms r).numElemsPart, ∑ q ∈ range n,
        Wr r k q * ∑ b ∈ range d.nb, B q b * u r k b v = meshIntegral m d.nb n W B U v := by
    intro u U huU
    unfold meshIntegral
    rw [← w.sum_ranks]
    refine Finset.sum_congr rfl fun r hr => Finset.sum_congr rfl fun k hk => ?_
    have hr' := Finset.mem_range.1 hr
    have hk' : k < (rms r).l2gElem.length := by
      rw [← w.numElems hr']; exact Finset.mem_range.1 hk
    have he := List.getElem?_eq_getElem hk'
    refine Finset.sum_congr rfl fun q hq => ?_
    have hge : gElem (rms r) k = (rms r).l2gElem[k] := by unfold gElem; rw [he]; rfl
    rw [hge, hW r hr' k _ he q (Finset.mem_range.1 hq)]
    congr 1
    exact Finset.sum_congr rfl fun b hb => by rw [huU r hr' k _ he b (Finset.mem_range.1 hb) v hv]
  rw [key _ _ (fun r hr => (hS r hr).2), key _ _ hu,
    C38_steps_conserve m w.mesh d norient hc ho one hface hgrad G n W B hB hM]

end DG
