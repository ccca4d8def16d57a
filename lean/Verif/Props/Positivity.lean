import Verif.Lemmas.Positivity
import Verif.Props.EulerDG
import Verif.Lemmas.HexMetric

/-!
Property C65: the first-order scheme with the Lax–Friedrichs flux and forward Euler keeps density and
pressure positive under a CFL condition, on every mesh without boundary sides.
-/
namespace DG
open Finset Polynomial

/-! ### specification -/

/-- Sum over the faces of element `e` of area times signal speed. -/
noncomputable def waveArea {α : Type} (γ : ℝ) (d : Disc ℝ) (m : GMesh α) (G : Geom ℝ) (U : Coeffs ℝ) (e : ℕ) : ℝ :=
  (m.faces.zipIdx.map fun x => ∑ iq ∈ range d.nqf,
    ((if x.1.elemL = e then 1 else 0) + (if x.1.elemR = e then 1 else 0)) *
      (d.faceWts iq * Real.sqrt (inner' d.dim (G.normals x.2 iq) (G.normals x.2 iq)) *
        max (maxSpeed d.dim γ (U x.1.elemL 0)) (maxSpeed d.dim γ (U x.1.elemR 0)))).sum

/-! ### one step, for any discretisation with one basis function -/

/-- a discretisation of order 0: the only basis function is 1 -/
structure OrderZero (d : Disc ℝ) : Prop where
  nb : d.nb = 1
  vol : ∀ q < d.nq, d.volBasis q 0 = 1
  grad : ∀ q < d.nq, ∀ i < d.dim, d.volGrad q 0 i = 0
  face : ∀ f < d.nface, ∀ j < d.nqf, d.faceBasis f j 0 = 1
  wts : ∀ j < d.nqf, 0 ≤ d.faceWts j

theorem maxSpeed_congr {dim : ℕ} {γ : ℝ} {U V : ℕ → ℝ} (h : ∀ s < dim + 2, U s = V s) :
    maxSpeed dim γ U = maxSpeed dim γ V := by
  have hv : inner' dim (vel U) (vel U) = inner' dim (vel V) (vel V) :=
    Finset.sum_congr rfl fun i hi => by
      have := Finset.mem_range.1 hi
      unfold vel; rw [h _ (by omega), h 0 (by omega)]
  unfold maxSpeed soundSpeed pressure internalEnergy
  rw [hv, h _ (by omega : dim + 1 < dim + 2), h 0 (by omega)]

theorem inner_cArr (dim : ℕ) (N : ℕ → ℝ) : inner' dim (cArr dim N) (cArr dim N) = inner' dim N N :=
  Finset.sum_congr rfl fun i hi => by simp [cArr, Finset.mem_range.1 hi]

theorem eulerFlux_axis (dim : ℕ) (γ : ℝ) (U N : ℕ → ℝ) (s : ℕ) (hs : s < dim + 2) :
    eulerFlux dim γ U N s = ∑ j ∈ range dim, eulerFlux dim γ U (axis j) s * N j := by
  have h1 : ∀ j ∈ range dim, inner' dim (vel U) (axis j) = vel U j := by
    intro j hj
    unfold inner' axis
    simp [Finset.mem_range.1 hj]
  unfold eulerFlux
  by_cases h0 : s = 0
  · simp only [h0, if_true]
    unfold inner' at h1 ⊢
    rw [mul_sum]
    exact sum_congr rfl fun j hj => by rw [h1 j hj]; ring
  · simp only [h0, if_false]
    by_cases h2 : s < dim + 1
    · simp only [h2, if_true]
      have : pressure dim γ U * N (s - 1) = ∑ j ∈ range dim, pressure dim γ U * axis j (s - 1) * N j := by
        rw [Finset.sum_eq_single (s - 1)]
        · simp [axis]
        · intro j _ hne; simp [axis, Ne.symm hne]
        · intro h; exact absurd (Finset.mem_range.2 (by omega)) h
      rw [this]
      unfold inner' at h1 ⊢
      rw [mul_sum, ← sum_add_distrib]
      exact sum_congr rfl fun j hj => by rw [h1 j hj]; ring
    · simp only [h2, if_false]
      unfold inner' at h1 ⊢
      rw [mul_sum]
      exact sum_congr rfl fun j hj => by rw [h1 j hj]; ring

theorem list_sum_add {ι : Type} (l : List ι) (f g : ι → ℝ) :
    (l.map fun x => f x + g x).sum = (l.map f).sum + (l.map g).sum := by
  induction l with
  | nil => simp
  | cons a l ih => simp only [List.map_cons, List.sum_cons, ih]; ring

theorem list_sum_mul {ι : Type} (l : List ι) (f : ι → ℝ) (c : ℝ) :
    (l.map fun x => f x * c).sum = (l.map f).sum * c := by
  induction l with
  | nil => simp
  | cons a l ih => simp only [List.map_cons, List.sum_cons, ih]; ring

theorem list_sum_fin {ι : Type} (l : List ι) (n : ℕ) (f : ι → ℕ → ℝ) :
    (l.map fun x => ∑ j ∈ range n, f x j).sum = ∑ j ∈ range n, (l.map fun x => f x j).sum := by
  induction l with
  | nil => simp
  | cons a l ih => simp only [List.map_cons, List.sum_cons, ih, sum_add_distrib]

/-- what a face point adds to the residual of element `e`, after adding half the flux of `e` itself and
`λ` times its state -/
theorem face_point_weak {dim : ℕ} {γ : ℝ} (hγ : 1 < γ) {UL UR Ue : ℕ → ℝ} (hL : Admissible dim γ UL)
    (hR : Admissible dim γ UR) (N : ℕ → ℝ) (L R : Bool) (eL : L = true → UL = Ue)
    (eR : R = true → UR = Ue) {w : ℝ} (hw : 0 ≤ w) :
    WeakAdm dim (fun s =>
      ((if R then 1 else 0) - (if L then 1 else 0)) * (rusanovFlux dim γ UL UR N s * w)
      - ((if R then 1 else 0) - (if L then 1 else 0)) * (w / 2 * eulerFlux dim γ Ue N s)
      + ((if L then 1 else 0) + (if R then 1 else 0)) *
        (w * Real.sqrt (inner' dim N N) * max (maxSpeed dim γ UL) (maxSpeed dim γ UR)) / 2 * Ue s) := by
  have hn0 : 0 ≤ Real.sqrt (inner' dim N N) := Real.sqrt_nonneg _
  have hm0 : ∀ U, Admissible dim γ U → 0 ≤ maxSpeed dim γ U := fun U h => by
    have := soundSpeed_pos hγ h
    unfold maxSpeed; positivity
  cases L <;> cases R
  · simpa using WeakAdm.zero dim
  · obtain rfl := eR rfl
    have hneg := lf_split hγ hL (fun i => - N i) (le_max_left (maxSpeed dim γ UL) (maxSpeed dim γ UR))
    have hnn : inner' dim (fun i => - N i) (fun i => - N i) = inner' dim N N := by simp [inner']
    rw [hnn] at hneg
    have := hneg.smul (show 0 ≤ w / 2 by linarith)
    refine this.congr fun s _ => ?_
    simp only [eulerFlux_neg, Bool.false_eq_true, if_true, if_false, rusanovFlux]
    ring
  · obtain rfl := eL rfl
    have hpos := lf_split hγ hR N (le_max_right (maxSpeed dim γ UL) (maxSpeed dim γ UR))
    have := hpos.smul (show 0 ≤ w / 2 by linarith)
    refine this.congr fun s _ => ?_
    simp only [Bool.false_eq_true, if_true, if_false, rusanovFlux]
    ring
  · obtain rfl := eL rfl
    obtain rfl := eR rfl
    have := (hL.weak hγ).smul (show 0 ≤ w * Real.sqrt (inner' dim N N) * maxSpeed dim γ UR from
      mul_nonneg (mul_nonneg hw hn0) (hm0 _ hR))
    refine this.congr fun s _ => ?_
    simp only [if_true, max_self]
    ring

/-- One forward Euler step of a scheme of order 0 with the Lax–Friedrichs flux keeps all elements
admissible. -/
theorem order_zero_step {d : Disc ℝ} {m : GMesh ℝ} {norient : ℕ} (hm : MeshOK m) (hc : Conforming d norient m)
    (ho : OrderOK d norient) (h0 : OrderZero d) (G : Geom ℝ) (γ : ℝ) (hγ : 1 < γ) (hns : d.ns = d.dim + 2)
    (hnum : d.numFlux = rusanovFlux d.dim γ)
    (hmet : ∀ e < m.numElems, MetricIdentity d m G e) (U : Coeffs ℝ)
    (hU : ∀ e < m.numElems, Admissible d.dim γ (U e 0)) (dt : ℝ) (hdt : 0 ≤ dt)
    (hM : ∀ e < m.numElems, 0 < G.iMM e 0 0)
    (hcfl : ∀ e < m.numElems, dt * (G.iMM e 0 0 * waveArea γ d m G U e) < 2) :
    ∀ e < m.numElems, Admissible d.dim γ (eulerStep dt (globalRHS d m G) U e 0) := by
  intro e he
  set dim := d.dim with hdim
  have htr : ∀ e f j, f < d.nface → j < d.nqf → ∀ s < dim + 2, traceState d U e f j s = U e 0 s := by
    intro e f j hf hj s hs
    unfold traceState
    rw [if_pos (by rw [hns]; exact hs), h0.nb, sum_range_one, h0.face f hf j hj, one_mul]
  have htra : ∀ e f j, e < m.numElems → f < d.nface → j < d.nqf → Admissible dim γ (traceState d U e f j) :=
    fun e f j he hf hj => admissible_congr (fun s hs => (htr e f j hf hj s hs).symm) (hU e he)
  -- sum of outward normals
  have hclosed : ∀ j < dim, (m.faces.zipIdx.map fun x => ∑ iq ∈ range d.nqf,
      (((if x.1.elemR = e then 1 else 0) - (if x.1.elemL = e then 1 else 0) : ℝ) *
        (G.normals x.2 iq j * d.faceWts iq))).sum = 0 := by
    intro j hj
    have h := hmet e he 0 (by rw [h0.nb]; omega) j hj
    have hv : volMetric d G e 0 j = 0 := by
      unfold volMetric
      refine sum_eq_zero fun q hq => sum_eq_zero fun i hi => ?_
      rw [h0.grad q (Finset.mem_range.1 hq) i (Finset.mem_range.1 hi)]; ring
    rw [hv] at h
    have e1 : (m.faces.zipIdx.map fun x => ∑ iq ∈ range d.nqf,
        (((if x.1.elemR = e then 1 else 0) - (if x.1.elemL = e then 1 else 0) : ℝ) *
          (G.normals x.2 iq j * d.faceWts iq)))
        = m.faces.zipIdx.map fun x => faceMetric d G e 0 j x.2 x.1 * (-1) := by
      refine List.map_congr_left fun x hx => ?_
      have hf : x.1 ∈ m.faces := List.mem_of_getElem? (mem_zipIdx_lt hx)
      obtain ⟨cL, oL⟩ := hc.faceL _ hf
      obtain ⟨cR, oR⟩ := hc.faceR _ hf
      unfold faceMetric
      rw [sum_mul]
      refine sum_congr rfl fun iq hq => ?_
      have hq' := Finset.mem_range.1 hq
      rw [h0.face _ cL _ ((ho _ oL).1 iq hq'), h0.face _ cR _ ((ho _ oR).1 iq hq')]
      ring
    rw [e1, list_sum_mul, ← h, zero_mul]
  have hflux0 : ∀ s < dim + 2, (m.faces.zipIdx.map fun x => ∑ iq ∈ range d.nqf,
      ((((if x.1.elemR = e then 1 else 0) - (if x.1.elemL = e then 1 else 0) : ℝ)) *
        (d.faceWts iq / 2 * eulerFlux dim γ (U e 0) (G.normals x.2 iq) s))).sum = 0 := by
    intro s hs
    have e1 : ∀ x : IFace × ℕ, ∑ iq ∈ range d.nqf,
        ((((if x.1.elemR = e then 1 else 0) - (if x.1.elemL = e then 1 else 0) : ℝ)) *
          (d.faceWts iq / 2 * eulerFlux dim γ (U e 0) (G.normals x.2 iq) s))
        = ∑ j ∈ range dim, (∑ iq ∈ range d.nqf,
          (((if x.1.elemR = e then 1 else 0) - (if x.1.elemL = e then 1 else 0) : ℝ) *
            (G.normals x.2 iq j * d.faceWts iq))) * (1 / 2 * eulerFlux dim γ (U e 0) (axis j) s) := by
      intro x
      simp only [sum_mul]
      rw [sum_comm]
      refine sum_congr rfl fun iq _ => ?_
      rw [eulerFlux_axis dim γ (U e 0) (G.normals x.2 iq) s hs, mul_sum, mul_sum]
      exact sum_congr rfl fun j _ => by ring
    simp only [e1]
    rw [list_sum_fin]
    refine sum_eq_zero fun j hj => ?_
    rw [list_sum_mul, hclosed j (Finset.mem_range.1 hj), zero_mul]
  -- the residual
  set Q : IFace × ℕ → ℕ → ℕ → ℝ := fun x iq s =>
      ((if x.1.elemR = e then 1 else 0) - (if x.1.elemL = e then 1 else 0)) *
        (rusanovFlux dim γ (U x.1.elemL 0) (U x.1.elemR 0) (G.normals x.2 iq) s * d.faceWts iq)
      - ((if x.1.elemR = e then 1 else 0) - (if x.1.elemL = e then 1 else 0)) *
        (d.faceWts iq / 2 * eulerFlux dim γ (U e 0) (G.normals x.2 iq) s)
      + ((if x.1.elemL = e then 1 else 0) + (if x.1.elemR = e then 1 else 0)) *
        (d.faceWts iq * Real.sqrt (inner' dim (G.normals x.2 iq) (G.normals x.2 iq)) *
          max (maxSpeed dim γ (U x.1.elemL 0)) (maxSpeed dim γ (U x.1.elemR 0))) / 2 * U e 0 s with hQ
  have hres : ∀ s < dim + 2, globalResidual d m G U e 0 s
      = (m.faces.zipIdx.map fun x => ∑ iq ∈ range d.nqf, Q x iq s).sum - waveArea γ d m G U e / 2 * U e 0 s := by
    intro s hs
    unfold globalResidual
    have hv : volumeTerm d G U e 0 s = 0 := by
      unfold volumeTerm
      refine sum_eq_zero fun q hq => sum_eq_zero fun i hi => ?_
      rw [h0.grad q (Finset.mem_range.1 hq) i (Finset.mem_range.1 hi)]; ring
    rw [hv, zero_add]
    have e1 : (m.faces.zipIdx.map fun x => faceTerm d G U e 0 s x.2 x.1)
        = m.faces.zipIdx.map fun x => (∑ iq ∈ range d.nqf, Q x iq s
          + ∑ iq ∈ range d.nqf, ((((if x.1.elemR = e then 1 else 0) - (if x.1.elemL = e then 1 else 0) : ℝ)) *
            (d.faceWts iq / 2 * eulerFlux dim γ (U e 0) (G.normals x.2 iq) s)))
          + (∑ iq ∈ range d.nqf, ((if x.1.elemL = e then 1 else 0) + (if x.1.elemR = e then 1 else 0)) *
            (d.faceWts iq * Real.sqrt (inner' dim (G.normals x.2 iq) (G.normals x.2 iq)) *
              max (maxSpeed dim γ (U x.1.elemL 0)) (maxSpeed dim γ (U x.1.elemR 0)))) * (- (1 / 2) * U e 0 s) := by
      refine List.map_congr_left fun x hx => ?_
      have hf : x.1 ∈ m.faces := List.mem_of_getElem? (mem_zipIdx_lt hx)
      obtain ⟨cL, oL⟩ := hc.faceL _ hf
      obtain ⟨cR, oR⟩ := hc.faceR _ hf
      unfold faceTerm meshFlux
      rw [sum_mul, ← sum_add_distrib, ← sum_add_distrib]
      refine sum_congr rfl fun iq hq => ?_
      have hq' := Finset.mem_range.1 hq
      have a1 := (ho _ oL).1 iq hq'
      have a2 := (ho _ oR).1 iq hq'
      rw [h0.face _ cL _ a1, h0.face _ cR _ a2, hnum]
      have hru : rusanovFlux dim γ (traceState d U x.1.elemL x.1.faceL (d.ptsOrder x.1.orientL iq))
          (traceState d U x.1.elemR x.1.faceR (d.ptsOrder x.1.orientR iq)) (cArr dim (G.normals x.2 iq)) s
          = rusanovFlux dim γ (U x.1.elemL 0) (U x.1.elemR 0) (G.normals x.2 iq) s := by
        have hl := htr x.1.elemL _ _ cL a1
        have hr := htr x.1.elemR _ _ cR a2
        have hN : ∀ j < dim, cArr dim (G.normals x.2 iq) j = G.normals x.2 iq j := fun j hj => by simp [cArr, hj]
        unfold rusanovFlux
        rw [eulerFlux_congr hl hN hs, eulerFlux_congr hr hN hs, maxSpeed_congr hl, maxSpeed_congr hr, inner_cArr,
          hl s hs, hr s hs]
      rw [← hdim, hru]
      simp only [hQ]
      ring
    rw [e1, list_sum_add, list_sum_add, hflux0 s hs, add_zero, list_sum_mul]
    unfold waveArea
    ring
  have hQw : WeakAdm dim (fun s => (m.faces.zipIdx.map fun x => ∑ iq ∈ range d.nqf, Q x iq s).sum) := by
    refine weak_sum _ (fun x s => ∑ iq ∈ range d.nqf, Q x iq s) fun x hx => ?_
    refine weak_fsum _ (fun iq s => Q x iq s) fun iq hq => ?_
    have hf : x.1 ∈ m.faces := List.mem_of_getElem? (mem_zipIdx_lt hx)
    obtain ⟨mL, mR⟩ := hm.faces _ hf
    have := face_point_weak hγ (hU _ mL) (hU _ mR) (G.normals x.2 iq) (decide (x.1.elemL = e))
      (decide (x.1.elemR = e)) (Ue := U e 0) (fun h => by rw [of_decide_eq_true h])
      (fun h => by rw [of_decide_eq_true h]) (h0.wts iq (Finset.mem_range.1 hq))
    simp only [decide_eq_true_eq] at this
    exact this
  set lam := dt * (G.iMM e 0 0 * waveArea γ d m G U e) / 2 with hlam
  have hl1 : 0 < 1 - lam := by have := hcfl e he; rw [hlam]; linarith
  have hmain := ((hU e he).smul hγ hl1).add_weak hγ (hQw.smul (mul_nonneg hdt (hM e he).le))
  refine admissible_congr (fun s hs => ?_) hmain
  unfold eulerStep globalRHS
  rw [h0.nb, sum_range_one, hres s hs, hlam]
  ring


/-! ### quadrilaterals -/

theorem adm_fsum {dim : ℕ} {γ : ℝ} (hγ : 1 < γ) {ι : Type} (l : Finset ι) (hne : l.Nonempty) (V : ι → ℕ → ℝ)
    (h : ∀ x ∈ l, Admissible dim γ (V x)) : Admissible dim γ (fun s => ∑ x ∈ l, V x s) := by
  classical
  obtain ⟨x, hx⟩ := hne
  have := (h x hx).add_weak hγ (weak_fsum (l.erase x) V fun y hy => (h y (Finset.mem_of_mem_erase hy)).weak hγ)
  refine admissible_congr (fun s _ => ?_) this
  exact Finset.add_sum_erase l (fun x => V x s) hx

/-- Volume (area) of element `e`, as the scheme computes it. -/
noncomputable def quadArea (t : Fam) (m : GMesh ℝ) (e : ℕ) : ℝ := quadMass t 0 0 (fileCoords m e) 0 0

theorem dphi_zero (t : Fam) (i : ℕ) (x y : ℝ) : dphi t 0 0 i x y = 0 := by
  have h : (famPoly t 0 0).natDegree ≤ 0 := famPoly_degree t 0 0 (le_refl 0)
  have h0 : derivative (famPoly t 0 0) = 0 := derivative_of_natDegree_zero (by omega)
  unfold dphi
  simp [h0]

theorem quad_order_zero (t : Fam) (ns : ℕ) (vf : (ℕ → ℝ) → ℕ → ℝ)
    (nf : (ℕ → ℝ) → (ℕ → ℝ) → (ℕ → ℝ) → ℕ → ℝ) : OrderZero (quadDisc t 0 ns vf nf) where
  nb := rfl
  vol := fun q _ => phi_zero t _ _
  grad := fun q _ i _ => dphi_zero t i _ _
  face := fun f _ j _ => phi_zero t _ _
  wts := fun j hj => ((gl_rule 1 (by unfold tableOK; omega)).2.pos j hj).le

theorem quad_mass_zero {m : GMesh ℝ} (hq : QuadMesh m) (t : Fam) (e : ℕ) (he : e < m.numElems) :
    0 < quadArea t m e ∧ (quadGeom t 0 m).iMM e 0 0 = 1 / quadArea t m e := by
  have hp : orderFine t 0 := ⟨by omega, by cases t <;> simp [famOK]⟩
  have hpos : 0 < quadArea t m e := by
    have rule := gl_rule_odd 0 (by unfold tableOK; omega)
    unfold quadArea quadMass
    refine Finset.sum_pos (fun q hq' => ?_) ⟨0, by simp⟩
    obtain ⟨h1, h2⟩ := prod_lt (Finset.mem_range.1 hq')
    obtain ⟨a, b⟩ := rule.inside _ h1
    obtain ⟨c, d⟩ := rule.inside _ h2
    rw [phi_zero, one_mul, mul_one]
    exact mul_pos (mul_pos (rule.pos _ h1) (rule.pos _ h2)) (hq.det e he _ _ a b c d)
  refine ⟨hpos, ?_⟩
  have hinv := quadInvMass_left t 0 hp _ (hq.det e he) 0 0 (by omega) (by omega)
  simp only [Nat.reduceAdd, Nat.reduceMul, Finset.sum_range_one, if_true] at hinv
  rw [eq_div_iff hpos.ne']
  exact hinv

theorem quad_init_zero {m : GMesh ℝ} (hq : QuadMesh m) (t : Fam) {γ : ℝ} (hγ : 1 < γ) (start : (ℕ → ℝ) → ℕ → ℝ)
    (hst : ∀ x, Admissible 2 γ (start x)) (e : ℕ) (he : e < m.numElems) :
    Admissible 2 γ (quadInit t 0 m start e 0) := by
  obtain ⟨h1, h2⟩ := quad_mass_zero hq t e he
  have h2' : quadInvMass t 0 (fileCoords m e) 0 0 = 1 / quadArea t m e := h2
  have rule := gl_rule_odd 2 (by unfold tableOK; omega)
  have key : Admissible 2 γ (fun s => ∑ q ∈ range ((2 + 2) * (2 + 2)),
      (quadInvMass t 0 (fileCoords m e) 0 0 *
      (glW (2 * 2 + 3) (q % (2 + 2)) * glW (2 * 2 + 3) (q / (2 + 2)) *
        quadDet (fileCoords m e) (glX (2 * 2 + 3) (q % (2 + 2))) (glX (2 * 2 + 3) (q / (2 + 2))))) *
      start (fun d => if d < 2 then quadMap (fileCoords m e) (glX (2 * 2 + 3) (q % (2 + 2)))
        (glX (2 * 2 + 3) (q / (2 + 2))) d else 0) s) := by
    refine adm_fsum hγ _ ⟨0, by simp⟩ (fun q s => _ * _) fun q hq' => ?_
    obtain ⟨k1, k2⟩ := prod_lt (Finset.mem_range.1 hq')
    obtain ⟨a, b⟩ := rule.inside _ k1
    obtain ⟨c, d⟩ := rule.inside _ k2
    refine (hst _).smul hγ ?_
    rw [h2']
    exact mul_pos (one_div_pos.2 h1)
      (mul_pos (mul_pos (rule.pos _ k1) (rule.pos _ k2)) (hq.det e he _ _ a b c d))
  refine admissible_congr (fun s _ => ?_) key
  show _ = ∑ j ∈ range 1, quadInvMass t 0 (fileCoords m e) 0 j * ∑ q ∈ range ((2 + 2) * (2 + 2)),
    glW (2 * 2 + 3) (q % (2 + 2)) * glW (2 * 2 + 3) (q / (2 + 2)) *
      quadDet (fileCoords m e) (glX (2 * 2 + 3) (q % (2 + 2))) (glX (2 * 2 + 3) (q / (2 + 2))) *
      (phi t 0 j (glX (2 * 2 + 3) (q % (2 + 2))) (glX (2 * 2 + 3) (q / (2 + 2))) * start (fun d => if d < 2 then
        quadMap (fileCoords m e) (glX (2 * 2 + 3) (q % (2 + 2))) (glX (2 * 2 + 3) (q / (2 + 2))) d else 0) s)
  rw [Finset.sum_range_one, Finset.mul_sum]
  exact Finset.sum_congr rfl fun q _ => by rw [phi_zero]; ring

/-- **CFL condition** of the order-0 scheme on quadrilaterals, along `n` steps of the textbook run: time step
times (sum over the sides of length times signal speed) is less than twice the area of the element. -/
def QuadCFL (t : Fam) (γ : ℝ) (m : GMesh ℝ) (dt : ℝ) (U : Coeffs ℝ) (n : ℕ) : Prop :=
  ∀ i < n, ∀ e < m.numElems,
    dt * waveArea γ (quadEuler t 0 .LaxFriedrichs γ) m (quadGeom t 0 m)
      ((eulerStep dt (globalRHS (quadEuler t 0 .LaxFriedrichs γ) m (quadGeom t 0 m)))^[i] U) e < 2 * quadArea t m e

theorem quad_run_admissible {m : GMesh ℝ} (hm : MeshOK m) (hq : QuadMesh m) (hnb : NoBoundary m) (t : Fam) {γ : ℝ} (hγ : 1 < γ)
    (dt : ℝ) (hdt : 0 ≤ dt) (U : Coeffs ℝ) (hU : ∀ e < m.numElems, Admissible 2 γ (U e 0)) (n : ℕ)
    (hcfl : QuadCFL t γ m dt U n) :
    ∀ i ≤ n, ∀ e < m.numElems, Admissible 2 γ
      (((eulerStep dt (globalRHS (quadEuler t 0 .LaxFriedrichs γ) m (quadGeom t 0 m)))^[i] U) e 0) := by
  intro i
  induction i with
  | zero => intro _ e he; exact hU e he
  | succ i ih =>
    intro hi
    rw [Function.iterate_succ_apply']
    refine order_zero_step (d := quadEuler t 0 .LaxFriedrichs γ) hm (hq.conforming t 0 4 _ _) (quadDisc_order t 0 4 _ _)
      (quad_order_zero t 4 _ _) (quadGeom t 0 m) γ hγ rfl rfl (fun e he => metricIdentity_zero hq hnb t 4 _ _ e he) _
      (ih (by omega)) dt hdt (fun e he => ?_) fun e he => ?_
    · obtain ⟨h1, h2⟩ := quad_mass_zero hq t e he
      rw [h2]; exact one_div_pos.2 h1
    · obtain ⟨h1, h2⟩ := quad_mass_zero hq t e he
      have := hcfl i (by omega) e he
      rw [h2, mul_comm (1 / _), ← mul_assoc, mul_one_div, div_lt_iff₀ h1]
      exact this

theorem states_of_cells {α : Type} {γ : ℝ} {d : Disc ℝ} {m : GMesh α} (hm : MeshOK m) {norient : ℕ} (hc : Conforming d norient m)
    (h0 : OrderZero d) (hns : d.ns = d.dim + 2) (U : Coeffs ℝ)
    (hU : ∀ e < m.numElems, Admissible d.dim γ (U e 0)) : StatesAdmissible γ d m U := by
  refine ⟨fun e he q hq => ?_, fun f hf i hi => ?_, fun f hf i hi => ?_⟩
  · refine admissible_congr (fun s hs => ?_) (hU e he)
    unfold volState
    rw [if_pos (by rw [hns]; exact hs), h0.nb, sum_range_one, h0.vol q hq, one_mul]
  · refine admissible_congr (fun s hs => ?_) (hU _ (hm.faces _ hf).1)
    unfold traceState
    rw [if_pos (by rw [hns]; exact hs), h0.nb, sum_range_one, h0.face _ (hc.faceL _ hf).1 i hi, one_mul]
  · refine admissible_congr (fun s hs => ?_) (hU _ (hm.faces _ hf).2)
    unfold traceState
    rw [if_pos (by rw [hns]; exact hs), h0.nb, sum_range_one, h0.face _ (hc.faceR _ hf).1 i hi, one_mul]

/-- **C65** (the vortex).  The isentropic vortex is an admissible state everywhere. -/
theorem C65_start_admissible (ph : Physics) (hγ : 1 < ph.γ) (dim : ℕ) (start : (ℕ → ℝ) → ℕ → ℝ)
    (h : StartState ph dim start)
    (hu : ph.ic = .Uniform → Admissible dim ph.γ (fun s => ph.icData.getD s 0)) (x : ℕ → ℝ) :
    Admissible dim ph.γ (start x) := by
  cases h with
  | uniform dim hd h hlen => exact hu h
  | vortex h hR ρ u v P K rest hdata hρ hP hK =>
    have hγ0 : 0 < ph.γ := by linarith
    set f := K / (2 * Real.pi) * Real.exp ((1 - (x 0 ^ 2 + x 1 ^ 2)) / 2) with hf
    set T := P / ρ - (ph.γ - 1) / (2 * ph.γ) * f ^ 2 with hT
    have hTpos : 0 < T := by
      have hexp : Real.exp ((1 - (x 0 ^ 2 + x 1 ^ 2)) / 2) ^ 2 ≤ Real.exp 1 := by
        rw [← Real.exp_nat_mul]
        exact Real.exp_le_exp.2 (by push_cast; nlinarith [sq_nonneg (x 0), sq_nonneg (x 1)])
      have hpi := Real.pi_pos
      have hf2 : f ^ 2 ≤ K ^ 2 / (4 * Real.pi ^ 2) * Real.exp 1 := by
        rw [hf, mul_pow, div_pow, mul_pow]
        have : (2:ℝ) ^ 2 = 4 := by norm_num
        rw [this]
        exact mul_le_mul_of_nonneg_left hexp (by positivity)
      have h1 : (ph.γ - 1) / (2 * ph.γ) * f ^ 2 ≤ (ph.γ - 1) / (2 * ph.γ) * (K ^ 2 / (4 * Real.pi ^ 2) * Real.exp 1) :=
        mul_le_mul_of_nonneg_left hf2 (div_nonneg (by linarith) (by linarith))
      have h2 : (ph.γ - 1) / (2 * ph.γ) * (K ^ 2 / (4 * Real.pi ^ 2) * Real.exp 1)
          = (ph.γ - 1) * K ^ 2 * Real.exp 1 / (8 * ph.γ * Real.pi ^ 2) := by
        field_simp; ring
      have h3 : (ph.γ - 1) * K ^ 2 * Real.exp 1 / (8 * ph.γ * Real.pi ^ 2) < P / ρ := by
        rw [div_lt_iff₀ (by positivity)]; linarith
      rw [hT]; linarith
    have hr : 0 < (T / (P / ρ ^ ph.γ)) ^ (1 / (ph.γ - 1)) :=
      Real.rpow_pos_of_pos (div_pos hTpos (div_pos hP (Real.rpow_pos_of_pos hρ _))) _
    set r := (T / (P / ρ ^ ph.γ)) ^ (1 / (ph.γ - 1)) with hrdef
    have e0 : vortexState ph.γ ρ u v P K (x 0) (x 1) 0 = r := by simp [vortexState, hrdef, hT, hf]
    have e1 : vortexState ph.γ ρ u v P K (x 0) (x 1) 1 = r * (u - f * x 1) := by simp [vortexState, hrdef, hT, hf]
    have e2 : vortexState ph.γ ρ u v P K (x 0) (x 1) 2 = r * (v + f * x 0) := by simp [vortexState, hrdef, hT, hf]
    have e3 : vortexState ph.γ ρ u v P K (x 0) (x 1) 3 = r * T / (ph.γ - 1) + r * ((u - f * x 1) ^ 2 + (v + f * x 0) ^ 2) / 2 := by
      simp [vortexState, hrdef, hT, hf]
    show Admissible 2 ph.γ (vortexState ph.γ ρ u v P K (x 0) (x 1))
    refine ⟨by rw [e0]; exact hr, ?_⟩
    unfold pressure internalEnergy inner' vel
    simp only [Finset.sum_range_succ, Finset.sum_range_zero, Nat.reduceAdd, e0, e1, e2, e3]
    rw [mul_div_cancel_left₀ _ hr.ne', mul_div_cancel_left₀ _ hr.ne']
    have : (ph.γ - 1) * (r * T / (ph.γ - 1) + r * ((u - f * x 1) ^ 2 + (v + f * x 0) ^ 2) / 2 -
        1 / 2 * r * (0 + (u - f * x 1) * (u - f * x 1) + (v + f * x 0) * (v + f * x 0))) = r * T := by
      have : ph.γ - 1 ≠ 0 := by linarith
      field_simp
      ring
    rw [this]
    exact mul_pos hr hTpos
  | vortex3 h hγ3 =>
    have hγ0 : 0 < ph.γ := by linarith
    have hTpos := vortex3_temp hγ hγ3 (10 * (x 0 - 1 / 2)) (10 * (x 2 - 1 / 2))
    set X := 10 * (x 0 - 1 / 2) with hX
    set Z := 10 * (x 2 - 1 / 2) with hZ
    set f := 5 * Real.sqrt 2 / (4 * Real.pi) * Real.exp ((1 - (X ^ 2 + Z ^ 2)) / 2) with hf
    set T := 1 - (ph.γ - 1) / 2 * f ^ 2 with hT
    have hr : 0 < T ^ (1 / (ph.γ - 1)) := Real.rpow_pos_of_pos hTpos _
    set r := T ^ (1 / (ph.γ - 1)) with hrdef
    have e0 : vortexState3 ph.γ (x 0) (x 2) 0 = r := rfl
    have e1 : vortexState3 ph.γ (x 0) (x 2) 1 = r * (1 - f * Z) := rfl
    have e2 : vortexState3 ph.γ (x 0) (x 2) 2 = 0 := rfl
    have e3 : vortexState3 ph.γ (x 0) (x 2) 3 = r * (f * X) := rfl
    have e4 : vortexState3 ph.γ (x 0) (x 2) 4 = r * T / (ph.γ * (ph.γ - 1)) + r * ((1 - f * Z) ^ 2 + (f * X) ^ 2) / 2 := rfl
    show Admissible 3 ph.γ (vortexState3 ph.γ (x 0) (x 2))
    refine ⟨by rw [e0]; exact hr, ?_⟩
    unfold pressure internalEnergy inner' vel
    simp only [Finset.sum_range_succ, Finset.sum_range_zero, Nat.reduceAdd, e0, e1, e2, e3, e4]
    clear_value r T f X Z
    rw [mul_div_cancel_left₀ _ hr.ne', mul_div_cancel_left₀ _ hr.ne', zero_div]
    have hg1 : ph.γ - 1 ≠ 0 := by linarith
    have : (ph.γ - 1) * (r * T / (ph.γ * (ph.γ - 1)) + r * ((1 - f * Z) ^ 2 + (f * X) ^ 2) / 2 -
        1 / 2 * r * (0 + (1 - f * Z) * (1 - f * Z) + 0 * 0 + (f * X) * (f * X))) = r * T / ph.γ := by
      field_simp
      ring
    rw [this]
    exact div_pos (mul_pos hr hTpos) hγ0

/-- **C65** (quadrilaterals).  The whole program with Euler physics, order 0, the Lax–Friedrichs flux and
forward Euler on a mesh of quadrilaterals without boundary, on any number of ranks, under any
interleaving: as long as the time step satisfies the CFL condition, every element on every rank has
positive density and positive pressure after every step. -/
theorem C65_positivity_quad (m : GMesh ℝ) (nranks : ℕ) (part : List ℕ) (rms : ℕ → RankMesh ℝ)
    (w : World m nranks part rms) (hq : QuadMesh m) (hs : SidesNonzero m) (hnb : NoBoundary m) (t : Fam)
    (ph : Physics) (hE : ph.ptype = .Euler) (hL : ph.ftype = .LaxFriedrichs) (hγ : 1 < ph.γ) (start : (ℕ → ℝ) → ℕ → ℝ)
    (hstart : StartState ph 2 start)
    (hu : ph.ic = .Uniform → Admissible 2 ph.γ (fun s => ph.icData.getD s 0))
    (junkV junkI : (ℕ → ℝ) → ℕ → ℝ)
    (junkN : (ℕ → ℝ) → (ℕ → ℝ) → (ℕ → ℝ) → (ℕ → ℝ) × (ℕ → ℝ))
    (d : Disc ℝ) (g : ℕ → Geom ℝ) (u : ℕ → Coeffs ℝ)
    (hr : RanksReady t 0 4 (solverVolFlux 2 ph junkV) (solverNumFlux 2 ph junkN) (solverIC 2 ph junkI)
      nranks rms d g u) (dt : ℝ) (hdt : 0 ≤ dt)
    (sched : ℕ → ℕ → List (FluxWrite ℝ) → List (FluxWrite ℝ))
    (hsched : ∀ r k l, (sched r k l).Perm l) (nsteps k : ℕ)
    (c : Proto.Conf (FaceArr (ℕ → ℕ → ℝ) × Option (RankState ℝ)) (List (ℕ → ℕ → ℝ)))
    (hx : Proto.Exec (solverProg d g rms nranks dt .FE sched nsteps)
      (Proto.init (solverStart d rms .FE u)) c k) (r : ℕ) (hlt : r < nranks) (n : ℕ)
    (hn : (c.proc r).round = n) (hcfl : QuadCFL t ph.γ m dt (quadInit t 0 m start) n) :
    ∃ s, (c.proc r).st.2 = some s ∧ s.time = n * dt ∧
      ∀ i < (rms r).numElemsPart, Admissible 2 ph.γ (s.Uc i 0) := by
  have hp : orderFine t 0 := ⟨by omega, by cases t <;> simp [famOK]⟩
  have hst := C65_start_admissible ph hγ 2 start hstart hu
  have hcells := quad_run_admissible w.mesh hq hnb t hγ dt hdt (quadInit t 0 m start)
    (fun e he => quad_init_zero hq t hγ start hst e he) n hcfl
  obtain ⟨s, s1, s2, s3⟩ := C64_euler_quad m nranks part rms w hq hs t 0 hp ph hE hγ start hstart junkV junkI junkN d g u hr
    .FE dt sched hsched nsteps k c hx r hlt n (by rw [hn]; simp [stagesOf]) (by
      rw [hL]
      intro i hi
      exact states_of_cells w.mesh (hq.conforming t 0 4 _ _) (quad_order_zero t 4 _ _) rfl _
        (hcells i hi.le))
  refine ⟨s, s1, s2, fun i hi => ?_⟩
  have hlt' : i < (rms r).l2gElem.length := by rw [← w.numElems hlt]; exact hi
  have hget := List.getElem?_eq_getElem hlt'
  have he := w.elem_lt hlt hget
  refine admissible_congr (fun v hv => ?_) (hcells n (le_refl n) _ he)
  rw [s3 i _ hget 0 (by omega) v hv, hL]
  rfl

/-! ### hexahedra -/

/-- No element has a boundary face. -/
def NoBoundary3 (m : GMesh ℝ) : Prop := ∀ e < m.numElems, ∀ k < 6, ¬ IsBoundarySide m e k

/-- Volume of element `e`, as the scheme computes it. -/
noncomputable def hexVolume (t : Fam) (m : GMesh ℝ) (e : ℕ) : ℝ := hexMass t 0 0 (fileCoords m e) 0 0

theorem wt2_pos (o : ℕ) (h : tableOK (2 * o + 3)) (q : ℕ) (hq : q < (o + 2) * (o + 2)) : 0 < wt2 o q := by
  have rule := gl_rule_odd _ h
  obtain ⟨a, b⟩ := prod_lt hq
  exact mul_pos (rule.pos _ a) (rule.pos _ b)

theorem hex_order_zero (t : Fam) (ns : ℕ) (vf : (ℕ → ℝ) → ℕ → ℝ)
    (nf : (ℕ → ℝ) → (ℕ → ℝ) → (ℕ → ℝ) → ℕ → ℝ) : OrderZero (hexDisc t 0 ns vf nf) where
  nb := rfl
  vol := fun q _ => phi3_zero t _
  grad := fun q _ i _ => dphi3_zero t i _
  face := fun f _ j _ => phi3_zero t _
  wts := fun j hj => (wt2_pos 0 (by unfold tableOK; omega) j hj).le

theorem hex_mass_zero {m : GMesh ℝ} (hq : HexMesh m) (t : Fam) (e : ℕ) (he : e < m.numElems) :
    0 < hexVolume t m e ∧ (hexGeom t 0 m).iMM e 0 0 = 1 / hexVolume t m e := by
  have hp : orderFine t 0 := ⟨by omega, by cases t <;> simp [famOK]⟩
  have hd : DetPos3 (fileCoords m e) := hq.det e he
  have hpos : 0 < hexVolume t m e := by
    unfold hexVolume hexMass
    refine Finset.sum_pos (fun q hq' => ?_) ⟨0, by simp⟩
    have hq2 := Finset.mem_range.1 hq'
    rw [phi3_zero, one_mul, mul_one]
    exact mul_pos (wt3_pos 0 (by unfold tableOK; omega) q hq2) (hd.at 0 (by unfold tableOK; omega) q hq2)
  refine ⟨hpos, ?_⟩
  have hinv := hexInvMass_inv t 0 hp _ hd 0 0 (by omega) (by omega)
  simp only [Nat.reduceAdd, Nat.reduceMul, Finset.sum_range_one, if_true] at hinv
  rw [eq_div_iff hpos.ne', mul_comm]
  exact hinv

theorem hex_init_zero {m : GMesh ℝ} (hq : HexMesh m) (t : Fam) {γ : ℝ} (hγ : 1 < γ) (start : (ℕ → ℝ) → ℕ → ℝ)
    (hst : ∀ x, Admissible 3 γ (start x)) (e : ℕ) (he : e < m.numElems) :
    Admissible 3 γ (hexInit t 0 m start e 0) := by
  obtain ⟨h1, h2⟩ := hex_mass_zero hq t e he
  have h2' : hexInvMass t 0 (fileCoords m e) 0 0 = 1 / hexVolume t m e := h2
  have hd : DetPos3 (fileCoords m e) := hq.det e he
  have key : Admissible 3 γ (fun s => ∑ q ∈ range ((2 + 2) * (2 + 2) * (2 + 2)),
      (hexInvMass t 0 (fileCoords m e) 0 0 * (wt3 2 q * hexDet (fileCoords m e) (volPt3 2 q))) *
      start (fun d => if d < 3 then hexMap (fileCoords m e) (volPt3 2 q) d else 0) s) := by
    refine adm_fsum hγ _ ⟨0, by simp⟩ (fun q s => _ * _) fun q hq' => ?_
    have hq2 := Finset.mem_range.1 hq'
    refine (hst _).smul hγ ?_
    rw [h2']
    exact mul_pos (one_div_pos.2 h1)
      (mul_pos (wt3_pos 2 (by unfold tableOK; omega) q hq2) (hd.at 2 (by unfold tableOK; omega) q hq2))
  refine admissible_congr (fun s _ => ?_) key
  show _ = ∑ j ∈ range 1, hexInvMass t 0 (fileCoords m e) 0 j * ∑ q ∈ range ((2 + 2) * (2 + 2) * (2 + 2)),
    wt3 2 q * hexDet (fileCoords m e) (volPt3 2 q) *
      (phi3 t 0 j (volPt3 2 q) * start (fun d => if d < 3 then hexMap (fileCoords m e) (volPt3 2 q) d else 0) s)
  rw [Finset.sum_range_one, Finset.mul_sum]
  exact Finset.sum_congr rfl fun q _ => by rw [phi3_zero]; ring

/-- **CFL condition** of the order-0 scheme on hexahedra, along `n` steps of the textbook run: time step
times (sum over the faces of area times signal speed) is less than twice the volume of the element. -/
def HexCFL (t : Fam) (γ : ℝ) (m : GMesh ℝ) (dt : ℝ) (U : Coeffs ℝ) (n : ℕ) : Prop :=
  ∀ i < n, ∀ e < m.numElems,
    dt * waveArea γ (hexEuler t 0 .LaxFriedrichs γ) m (hexGeom t 0 m)
      ((eulerStep dt (globalRHS (hexEuler t 0 .LaxFriedrichs γ) m (hexGeom t 0 m)))^[i] U) e < 2 * hexVolume t m e

theorem noBoundary_mem {m : GMesh ℝ} (hnb : NoBoundary3 m) {e : ℕ} (he : e < m.numElems) :
    ∀ k < 6, (e, k) ∈ sideList m := by
  intro k hk
  by_contra h
  exact hnb e he k hk ((boundary_iff m e k).2 h)

theorem hex_run_admissible {m : GMesh ℝ} (hm : MeshOK m) (hq : HexMesh m) (hnb : NoBoundary3 m) (t : Fam) {γ : ℝ} (hγ : 1 < γ)
    (dt : ℝ) (hdt : 0 ≤ dt) (U : Coeffs ℝ) (hU : ∀ e < m.numElems, Admissible 3 γ (U e 0)) (n : ℕ)
    (hcfl : HexCFL t γ m dt U n) :
    ∀ i ≤ n, ∀ e < m.numElems, Admissible 3 γ
      (((eulerStep dt (globalRHS (hexEuler t 0 .LaxFriedrichs γ) m (hexGeom t 0 m)))^[i] U) e 0) := by
  intro i
  induction i with
  | zero => intro _ e he; exact hU e he
  | succ i ih =>
    intro hi
    rw [Function.iterate_succ_apply']
    refine order_zero_step (d := hexEuler t 0 .LaxFriedrichs γ) hm (hq.conforming t 0 5 _ _) (hexDisc_order t 0 5 _ _)
      (hex_order_zero t 5 _ _) (hexGeom t 0 m) γ hγ rfl rfl
      (fun e he => metricIdentity_hex_zero hq t 5 _ _ e (noBoundary_mem hnb he)) _
      (ih (by omega)) dt hdt (fun e he => ?_) fun e he => ?_
    · obtain ⟨h1, h2⟩ := hex_mass_zero hq t e he
      rw [h2]; exact one_div_pos.2 h1
    · obtain ⟨h1, h2⟩ := hex_mass_zero hq t e he
      have := hcfl i (by omega) e he
      rw [h2, mul_comm (1 / _), ← mul_assoc, mul_one_div, div_lt_iff₀ h1]
      exact this

/-- **C65** (hexahedra).  The same on trilinear hexahedra, partitioned along parallelograms. -/
theorem C65_positivity_hex (m : GMesh ℝ) (nranks : ℕ) (part : List ℕ) (rms : ℕ → RankMesh ℝ)
    (w : World m nranks part rms) (hq : HexMesh m) (hcut : CutFlat m part) (hs : FacesNonzero m) (hnb : NoBoundary3 m) (t : Fam)
    (ph : Physics) (hE : ph.ptype = .Euler) (hL : ph.ftype = .LaxFriedrichs) (hγ : 1 < ph.γ) (start : (ℕ → ℝ) → ℕ → ℝ)
    (hstart : StartState ph 3 start)
    (hu : ph.ic = .Uniform → Admissible 3 ph.γ (fun s => ph.icData.getD s 0))
    (junkV junkI : (ℕ → ℝ) → ℕ → ℝ)
    (junkN : (ℕ → ℝ) → (ℕ → ℝ) → (ℕ → ℝ) → (ℕ → ℝ) × (ℕ → ℝ))
    (d : Disc ℝ) (g : ℕ → Geom ℝ) (u : ℕ → Coeffs ℝ)
    (hr : HexRanksReady t 0 5 (solverVolFlux 3 ph junkV) (solverNumFlux 3 ph junkN) (solverIC 3 ph junkI)
      nranks rms d g u) (dt : ℝ) (hdt : 0 ≤ dt)
    (sched : ℕ → ℕ → List (FluxWrite ℝ) → List (FluxWrite ℝ))
    (hsched : ∀ r k l, (sched r k l).Perm l) (nsteps k : ℕ)
    (c : Proto.Conf (FaceArr (ℕ → ℕ → ℝ) × Option (RankState ℝ)) (List (ℕ → ℕ → ℝ)))
    (hx : Proto.Exec (solverProg d g rms nranks dt .FE sched nsteps)
      (Proto.init (solverStart d rms .FE u)) c k) (r : ℕ) (hlt : r < nranks) (n : ℕ)
    (hn : (c.proc r).round = n) (hcfl : HexCFL t ph.γ m dt (hexInit t 0 m start) n) :
    ∃ s, (c.proc r).st.2 = some s ∧ s.time = n * dt ∧
      ∀ i < (rms r).numElemsPart, Admissible 3 ph.γ (s.Uc i 0) := by
  have hp : orderFine t 0 := ⟨by omega, by cases t <;> simp [famOK]⟩
  have hst := C65_start_admissible ph hγ 3 start hstart hu
  have hcells := hex_run_admissible w.mesh hq hnb t hγ dt hdt (hexInit t 0 m start)
    (fun e he => hex_init_zero hq t hγ start hst e he) n hcfl
  obtain ⟨s, s1, s2, s3⟩ := C64_euler_hex m nranks part rms w hq hcut hs t 0 hp ph hE hγ start hstart junkV junkI junkN d g u hr
    .FE dt sched hsched nsteps k c hx r hlt n (by rw [hn]; simp [stagesOf]) (by
      rw [hL]
      intro i hi
      exact states_of_cells w.mesh (hq.conforming t 0 5 _ _) (hex_order_zero t 5 _ _) rfl _
        (hcells i hi.le))
  refine ⟨s, s1, s2, fun i hi => ?_⟩
  have hlt' : i < (rms r).l2gElem.length := by rw [← w.numElems hlt]; exact hi
  have hget := List.getElem?_eq_getElem hlt'
  have he := w.elem_lt hlt hget
  refine admissible_congr (fun v hv => ?_) (hcells n (le_refl n) _ he)
  rw [s3 i _ hget 0 (by omega) v hv, hL]
  rfl

end DG
