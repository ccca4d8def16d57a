import Verif.Lemmas.HexMetric3
import Verif.Props.Positivity

/-!
Property C66: free stream on meshes of trilinear hexahedra, with the fluxes of the code.
-/
namespace DG
open Finset Polynomial

/-! ### specification -/

open Classical in
/-- Flux of variable `s` of the uniform state `u` through the boundary faces of element `e`, weighted with
basis function `b`: the terms the scheme leaves out. -/
noncomputable def boundaryFlux3 (t : Fam) (p : ℕ) (γ : ℝ) (m : GMesh ℝ) (u : ℕ → ℝ) (e b s : ℕ) : ℝ :=
  ∑ k ∈ range 6, if IsBoundarySide m e k then
    ∑ q ∈ range ((p + 2) * (p + 2)), wt2 p q * (phi3 t p b (facePoint k (facePt2 p q)) *
      eulerFlux 3 γ u (faceNormal (fileCoords m e) k (facePt2 p q)) s)
  else 0

/-- accuracy of the metric identities: that of the quadrature tables -/
noncomputable def metricTol3 (t : Fam) (p b : ℕ) : ℝ :=
  8 * (p + 2) / 10 ^ 30 * (coeffSum (famPoly t p (b % (p + 1))) *
    coeffSum (famPoly t p (b / (p + 1) % (p + 1))) * coeffSum (famPoly t p (b / ((p + 1) * (p + 1)))))

/-- every face between two elements is a parallelogram -/
def AllFlat (m : GMesh ℝ) : Prop := ∀ f ∈ m.faces, FlatFace (fileCoords m f.elemL) f.faceL

/-- every element is a parallelepiped (the map is affine) -/
def AllAffine (m : GMesh ℝ) : Prop :=
  ∀ e < m.numElems, ∀ k < 6, FlatFace (fileCoords m e) k

/-! ### lemmas -/

theorem consistent_euler3 (t : Fam) (p : ℕ) (ph : Physics) (hE : ph.ptype = .Euler) (hγ : 1 < ph.γ)
    (junkV : (ℕ → ℝ) → ℕ → ℝ) (junkN : (ℕ → ℝ) → (ℕ → ℝ) → (ℕ → ℝ) → (ℕ → ℝ) × (ℕ → ℝ)) (u : ℕ → ℝ)
    (hu : Admissible 3 ph.γ u) :
    ConsistentAt (hexDisc t p 5 (solverVolFlux 3 ph junkV) (solverNumFlux 3 ph junkN)) u := by
  intro n hn s hs
  have hs' : s < 3 + 2 := hs
  show solverNumFlux 3 ph junkN (cArr 5 u) (cArr 5 u) (cArr 3 n) s =
    ∑ j ∈ range 3, solverVolFlux 3 ph junkV (cArr 5 u) (j * 5 + s) * n j
  rw [solverVolFlux_euler 3 (Or.inr rfl) ph hE junkV u hu.ρ_pos.ne' n s hs']
  have hadm : Admissible 3 ph.γ (cArr 5 u) := admissible_congr (U := u) (fun s hs => by simp [cArr, hs]) hu
  have hnn : inner' 3 (cArr 3 n) (cArr 3 n) ≠ 0 := by
    obtain ⟨j, hj, h⟩ := hn
    have hj' : j < 3 := hj
    exact inner_ne ⟨j, hj', by simp [cArr, hj', h]⟩
  obtain ⟨F, h1, h2⟩ := (C35_flux 3 (Or.inr rfl) ph hE (cArr 5 u) (cArr 5 u) (cArr 3 n)
    (junkN (cArr 5 u) (cArr 5 u) (cArr 3 n)).1 (junkN (cArr 5 u) (cArr 5 u) (cArr 3 n)).2).2.2 _ hγ hadm hnn
  unfold solverNumFlux
  rw [h1, Option.getD_some, h2 s hs']
  exact eulerFlux_congr (fun s hs => by simp [cArr, hs]) (fun j hj => by simp [cArr, hj]) hs'

theorem hex_hvol (t : Fam) (p ns : ℕ) (vf : (ℕ → ℝ) → ℕ → ℝ) (nf : (ℕ → ℝ) → (ℕ → ℝ) → (ℕ → ℝ) → ℕ → ℝ) :
    (∀ q < (hexDisc t p ns vf nf).nq, ∑ b ∈ range (hexDisc t p ns vf nf).nb,
      hexOne t p b * (hexDisc t p ns vf nf).volBasis q b = 1) ∧
    (∀ f < (hexDisc t p ns vf nf).nface, ∀ j < (hexDisc t p ns vf nf).nqf,
      ∑ b ∈ range (hexDisc t p ns vf nf).nb, hexOne t p b * (hexDisc t p ns vf nf).faceBasis f j b = 1) :=
  ⟨fun _ _ => hexOne_phi t p _, fun _ _ _ _ => hexOne_phi t p _⟩

theorem hexInvMass_left (t : Fam) (p : ℕ) (hp : orderFine t p) (X : ℕ → ℕ → ℝ) (hX : DetPos3 X)
    (a j : ℕ) (ha : a < (p + 1) * (p + 1) * (p + 1)) (hj : j < (p + 1) * (p + 1) * (p + 1)) :
    ∑ b ∈ range ((p + 1) * (p + 1) * (p + 1)), hexInvMass t p X a b * hexMass t p (2 * p) X b j
      = if a = j then 1 else 0 := by
  set n := (p + 1) * (p + 1) * (p + 1) with hn
  have h1 : (Matrix.of fun a b : Fin n => hexMass t p (2 * p) X a b) *
      (Matrix.of fun a b : Fin n => hexInvMass t p X a b) = 1 := by
    ext x y
    rw [Matrix.mul_apply, Matrix.one_apply]
    have := hexInvMass_inv t p hp X hX x y x.2 y.2
    rw [← hn, ← Fin.sum_univ_eq_sum_range (fun b => hexMass t p (2 * p) X x b * hexInvMass t p X b y)] at this
    simpa [Fin.ext_iff] using this
  have h3 : (Matrix.of fun a b : Fin n => hexInvMass t p X a b) *
      (Matrix.of fun a b : Fin n => hexMass t p (2 * p) X a b) = 1 := mul_eq_one_comm.1 h1
  have h2 := congrFun (congrFun h3 ⟨a, ha⟩) ⟨j, hj⟩
  rw [Matrix.mul_apply, Matrix.one_apply] at h2
  rw [← Fin.sum_univ_eq_sum_range (fun b => hexInvMass t p X a b * hexMass t p (2 * p) X b j)]
  simpa [Fin.ext_iff] using h2

/-- the physical flux of a uniform state, by directions -/
theorem flux_axes {dim : ℕ} (hd : dim = 2 ∨ dim = 3) (ph : Physics) (hE : ph.ptype = .Euler) (junk : (ℕ → ℝ) → ℕ → ℝ)
    (u : ℕ → ℝ) (hu : u 0 ≠ 0) (s : ℕ) (hs : s < dim + 2) (j : ℕ) (hj : j < dim) :
    solverVolFlux dim ph junk (cArr (dim + 2) u) (j * (dim + 2) + s) = eulerFlux dim ph.γ u (axis j) s := by
  rw [← solverVolFlux_euler dim hd ph hE junk u hu (axis j) s hs, Finset.sum_eq_single j]
  · simp [axis]
  · intro i _ hi
    unfold axis
    rw [if_neg hi, mul_zero]
  · intro h; exact absurd (Finset.mem_range.2 hj) h

/-! ### C66 -/

section
variable (m : GMesh ℝ) (hm : MeshOK m) (hq : HexMesh m) (hs : FacesNonzero m) (t : Fam) (p : ℕ) (hp : orderFine t p)
  (ph : Physics) (hE : ph.ptype = .Euler) (hγ : 1 < ph.γ) (junkV : (ℕ → ℝ) → ℕ → ℝ)
  (junkN : (ℕ → ℝ) → (ℕ → ℝ) → (ℕ → ℝ) → (ℕ → ℝ) × (ℕ → ℝ))
include hm hq hs hp hE hγ

/-- **C66** (residual of a uniform state).  On a mesh whose faces between elements are parallelograms, for
either numerical flux and every order: the residual of a uniform admissible state is the flux through the
boundary faces of the element, which the scheme does not compute; the rest is of the accuracy of the
quadrature tables. -/
theorem C66_uniform_residual (hfl : AllFlat m) (u : ℕ → ℝ) (hu : Admissible 3 ph.γ u) (e : ℕ) (he : e < m.numElems) (h : ℝ)
    (hh : EdgesLe (fileCoords m e) h)
    (b s : ℕ) (hb : b < (p + 1) * (p + 1) * (p + 1)) (hv : s < 5) :
    |globalResidual (hexDisc t p 5 (solverVolFlux 3 ph junkV) (solverNumFlux 3 ph junkN)) m (hexGeom t p m)
        (uniformCoeffs (hexOne t p) u) e b s - boundaryFlux3 t p ph.γ m u e b s|
      ≤ metricTol3 t p b * h ^ 2 * (|eulerFlux 3 ph.γ u (axis 0) s| + |eulerFlux 3 ph.γ u (axis 1) s| +
          |eulerFlux 3 ph.γ u (axis 2) s|) := by
  obtain ⟨-, t2, -, -⟩ := tables_fine p hp.1
  set D := hexDisc t p 5 (solverVolFlux 3 ph junkV) (solverNumFlux 3 ph junkN) with hD
  obtain ⟨hvol, hface⟩ := hex_hvol t p 5 (solverVolFlux 3 ph junkV) (solverNumFlux 3 ph junkN)
  rw [C39_residual_is_metric_defect m D 8 (hq.conforming t p 5 _ _) (hexDisc_order t p 5 _ _) (hexOne t p)
    hvol hface (hexGeom t p m) (hex_normals_nonzero hm hq hs t p 5 hp _ _) u
    (consistent_euler3 t p ph hE hγ junkV junkN u hu) e b s hv]
  set F : ℕ → ℝ := fun j => solverVolFlux 3 ph junkV (cArr 5 u) (j * 5 + s) with hF
  have hFa : ∀ j < 3, F j = eulerFlux 3 ph.γ u (axis j) s := fun j hj =>
    flux_axes (dim := 3) (Or.inr rfl) ph hE junkV u hu.ρ_pos.ne' s hv j hj
  have hbf : boundaryFlux3 t p ph.γ m u e b s = ∑ j ∈ range 3, F j *
      (∑ k ∈ range 6, faceIntegral t p (fileCoords m e) k b j -
        ∑ k ∈ range 6, if (e, k) ∈ sideList m then faceIntegral t p (fileCoords m e) k b j else 0) := by
    unfold boundaryFlux3
    simp only [← Finset.sum_sub_distrib]
    simp only [Finset.mul_sum (s := range 6)]
    rw [Finset.sum_comm]
    refine Finset.sum_congr rfl fun k _ => ?_
    by_cases hk : (e, k) ∈ sideList m
    · rw [if_neg (by rw [boundary_iff]; exact not_not.2 hk)]
      simp [hk]
    · rw [if_pos ((boundary_iff m e k).2 hk)]
      simp only [hk, if_false, sub_zero, faceIntegral]
      simp only [Finset.mul_sum]
      rw [Finset.sum_comm]
      refine Finset.sum_congr rfl fun q _ => ?_
      rw [← solverVolFlux_euler 3 (Or.inr rfl) ph hE junkV u hu.ρ_pos.ne' _ s hv, Finset.mul_sum, Finset.mul_sum]
      exact Finset.sum_congr rfl fun j _ => by rw [hF]; ring
  rw [hbf]
  show |∑ j ∈ range 3, F j * _ - _| ≤ _
  rw [← Finset.sum_sub_distrib]
  have key : ∀ j ∈ range 3, |F j * (volMetric D (hexGeom t p m) e b j -
        (m.faces.zipIdx.map fun x => faceMetric D (hexGeom t p m) e b j x.2 x.1).sum) -
      F j * (∑ k ∈ range 6, faceIntegral t p (fileCoords m e) k b j -
        ∑ k ∈ range 6, if (e, k) ∈ sideList m then faceIntegral t p (fileCoords m e) k b j else 0)|
      ≤ metricTol3 t p b * h ^ 2 * |eulerFlux 3 ph.γ u (axis j) s| := by
    intro j hj
    have hj' := Finset.mem_range.1 hj
    rw [faces_to_sides hq e (fun g f => faceMetric D (hexGeom t p m) e b j g f)
      (fun k => faceIntegral t p (fileCoords m e) k b j) fun g f hg =>
        faceMetric_flat hq t p 5 t2 _ _ e b j g hj' f hg (hfl f (List.mem_of_getElem? hg)),
      ← mul_sub, abs_mul, hFa j hj', mul_comm]
    refine mul_le_mul_of_nonneg_right ?_ (abs_nonneg _)
    rw [sub_sub_sub_cancel_right]
    refine (metric_defect_hex t p 5 t2 _ _ m e (hq.det e he) h hh b j hb hj').trans (le_of_eq ?_)
    unfold metricTol3; ring
  refine (Finset.abs_sum_le_sum_abs _ _).trans ((Finset.sum_le_sum key).trans (le_of_eq ?_))
  simp only [Finset.sum_range_succ, Finset.sum_range_zero]
  ring

open Classical in
/-- **C66** (net flux).  On every mesh of trilinear hexahedra, twisted faces included, and for every order:
the total residual of an element - the rate of change of the integral of a conserved variable over the
element - in a uniform state is exactly the flux through its boundary faces. -/
theorem C66_net_flux (u : ℕ → ℝ) (hu : Admissible 3 ph.γ u) (e s : ℕ) (hv : s < 5) :
    ∑ b ∈ range ((p + 1) * (p + 1) * (p + 1)), hexOne t p b *
      globalResidual (hexDisc t p 5 (solverVolFlux 3 ph junkV) (solverNumFlux 3 ph junkN)) m (hexGeom t p m)
        (uniformCoeffs (hexOne t p) u) e b s =
    ∑ k ∈ range 6, if IsBoundarySide m e k then
      eulerFlux 3 ph.γ u (faceNormal (fileCoords m e) k (0, 0)) s * (∑ i ∈ range (p + 2), glW (2 * p + 3) i) ^ 2 else 0 := by
  obtain ⟨-, t2, -, -⟩ := tables_fine p hp.1
  set D := hexDisc t p 5 (solverVolFlux 3 ph junkV) (solverNumFlux 3 ph junkN) with hD
  obtain ⟨hvol, hface⟩ := hex_hvol t p 5 (solverVolFlux 3 ph junkV) (solverNumFlux 3 ph junkN)
  set F : ℕ → ℝ := fun j => solverVolFlux 3 ph junkV (cArr 5 u) (j * 5 + s) with hF
  set W := (∑ i ∈ range (p + 2), glW (2 * p + 3) i) ^ 2 with hW
  have hres : ∀ b, globalResidual D m (hexGeom t p m) (uniformCoeffs (hexOne t p) u) e b s =
      ∑ j ∈ range 3, F j * (volMetric D (hexGeom t p m) e b j -
        (m.faces.zipIdx.map fun x => faceMetric D (hexGeom t p m) e b j x.2 x.1).sum) := fun b =>
    C39_residual_is_metric_defect m D 8 (hq.conforming t p 5 _ _) (hexDisc_order t p 5 _ _) (hexOne t p)
      hvol hface (hexGeom t p m) (hex_normals_nonzero hm hq hs t p 5 hp _ _) u
      (consistent_euler3 t p ph hE hγ junkV junkN u hu) e b s hv
  have hv0 : ∀ j, ∑ b ∈ range ((p + 1) * (p + 1) * (p + 1)), hexOne t p b * volMetric D (hexGeom t p m) e b j = 0 := by
    intro j
    unfold volMetric
    simp only [Finset.mul_sum]
    rw [Finset.sum_comm]
    refine Finset.sum_eq_zero fun q _ => ?_
    rw [Finset.sum_comm]
    refine Finset.sum_eq_zero fun i _ => ?_
    have := hexOne_dphi t p (volPt3 p q) i
    calc _ = (∑ b ∈ range ((p + 1) * (p + 1) * (p + 1)), hexOne t p b * dphi3 t p b i (volPt3 p q)) *
          ((hexGeom t p m).ijac e q i j * (hexGeom t p m).djac e q * D.volWts q) := by
          rw [Finset.sum_mul]
          refine Finset.sum_congr rfl fun b _ => ?_
          show hexOne t p b * (dphi3 t p b i _ * _ * _ * _) = _
          ring
      _ = 0 := by rw [this, zero_mul]
  have hf0 : ∀ j < 3, ∑ b ∈ range ((p + 1) * (p + 1) * (p + 1)), hexOne t p b *
      (m.faces.zipIdx.map fun x => faceMetric D (hexGeom t p m) e b j x.2 x.1).sum
      = ∑ k ∈ range 6, if (e, k) ∈ sideList m then faceNormal (fileCoords m e) k (0, 0) j * W else 0 := by
    intro j hj
    rw [← faces_to_sides hq e (fun g f => ∑ b ∈ range ((p + 1) * (p + 1) * (p + 1)), hexOne t p b *
        faceMetric D (hexGeom t p m) e b j g f) (fun k => faceNormal (fileCoords m e) k (0, 0) j * W)
        fun g f hg => faceMetric_total hq t p 5 t2 _ _ e j g hj f hg]
    rw [list_sum_sub_comm m.faces.zipIdx ((p + 1) * (p + 1) * (p + 1)) (hexOne t p)
      (fun b x => faceMetric D (hexGeom t p m) e b j x.2 x.1)]
  simp only [hres]
  calc _ = ∑ j ∈ range 3, F j * (∑ b ∈ range ((p + 1) * (p + 1) * (p + 1)), hexOne t p b * volMetric D (hexGeom t p m) e b j -
        ∑ b ∈ range ((p + 1) * (p + 1) * (p + 1)), hexOne t p b *
          (m.faces.zipIdx.map fun x => faceMetric D (hexGeom t p m) e b j x.2 x.1).sum) := by
        simp only [← Finset.sum_sub_distrib, Finset.mul_sum]
        rw [Finset.sum_comm]
        exact Finset.sum_congr rfl fun j _ => Finset.sum_congr rfl fun b _ => by ring
    _ = ∑ j ∈ range 3, F j * ∑ k ∈ range 6, if IsBoundarySide m e k then faceNormal (fileCoords m e) k (0, 0) j * W else 0 := by
        refine Finset.sum_congr rfl fun j hj => ?_
        have hj' := Finset.mem_range.1 hj
        congr 1
        rw [hv0, hf0 j hj', zero_sub]
        have h0 : ∑ k ∈ range 6, faceNormal (fileCoords m e) k (0, 0) j * W = 0 := by
          rw [← Finset.sum_mul, normals_closed _ j hj', zero_mul]
        rw [← sub_eq_zero, neg_sub_left, neg_eq_zero, ← Finset.sum_add_distrib]
        refine Eq.trans ?_ h0
        refine Finset.sum_congr rfl fun k _ => ?_
        rw [boundary_iff]
        by_cases hk : (e, k) ∈ sideList m <;> simp [hk]
    _ = _ := by
        simp only [Finset.mul_sum (s := range 6)]
        rw [Finset.sum_comm]
        refine Finset.sum_congr rfl fun k _ => ?_
        split
        · rw [← solverVolFlux_euler 3 (Or.inr rfl) ph hE junkV u hu.ρ_pos.ne' _ s hv, Finset.sum_mul]
          exact Finset.sum_congr rfl fun j _ => by rw [hF]; ring
        · simp

end

/-! ### the initial state -/

/-- **C66** (the projection is exact on the polynomial space).  For every order from 1 up, an initial
condition that is on an element a combination of the basis functions is represented exactly by the
initial coefficients - in particular a uniform state. -/
theorem C66_projection_exact (m : GMesh ℝ) (hq : HexMesh m) (t : Fam) (p : ℕ) (hp : orderFine t p) (hp1 : 1 ≤ p)
    (ic : (ℕ → ℝ) → ℕ → ℝ) (e : ℕ) (he : e < m.numElems) (s : ℕ) (c : ℕ → ℝ)
    (hic : ∀ x : ℝ × ℝ × ℝ, ic (fun d => if d < 3 then hexMap (fileCoords m e) x d else 0) s =
      ∑ a ∈ range ((p + 1) * (p + 1) * (p + 1)), c a * phi3 t p a x)
    (b : ℕ) (hb : b < (p + 1) * (p + 1) * (p + 1)) : hexInit t p m ic e b s = c b := by
  have hmax : max p 1 = p := max_eq_left hp1
  unfold hexInit
  simp only [hmax, hic]
  have hin : ∀ j, ∑ q ∈ range ((2 * p + 2) * (2 * p + 2) * (2 * p + 2)),
      wt3 (2 * p) q * hexDet (fileCoords m e) (volPt3 (2 * p) q) * (phi3 t p j (volPt3 (2 * p) q) *
          ∑ a ∈ range ((p + 1) * (p + 1) * (p + 1)), c a * phi3 t p a (volPt3 (2 * p) q))
      = ∑ a ∈ range ((p + 1) * (p + 1) * (p + 1)), hexMass t p (2 * p) (fileCoords m e) j a * c a := by
    intro j
    unfold hexMass
    simp only [Finset.mul_sum, Finset.sum_mul]
    rw [Finset.sum_comm]
    exact Finset.sum_congr rfl fun a _ => Finset.sum_congr rfl fun q _ => by ring
  simp only [hin]
  simp only [Finset.mul_sum]
  rw [Finset.sum_comm]
  have : ∀ a ∈ range ((p + 1) * (p + 1) * (p + 1)), ∑ j ∈ range ((p + 1) * (p + 1) * (p + 1)),
      hexInvMass t p (fileCoords m e) b j * (hexMass t p (2 * p) (fileCoords m e) j a * c a)
      = (if b = a then 1 else 0) * c a := by
    intro a ha
    rw [← hexInvMass_left t p hp _ (hq.det e he) b a hb (Finset.mem_range.1 ha), Finset.sum_mul]
    exact Finset.sum_congr rfl fun j _ => by ring
  rw [Finset.sum_congr rfl this]
  simp only [ite_mul, one_mul, zero_mul]
  rw [Finset.sum_ite_eq (range ((p + 1) * (p + 1) * (p + 1))) b, if_pos (Finset.mem_range.2 hb)]

/-- the determinant of a parallelepiped is constant -/
theorem hexDet_affine (X : ℕ → ℕ → ℝ) (h : ∀ k < 6, FlatFace X k) (x : ℝ × ℝ × ℝ) : hexDet X x = hexDet X (0, 0, 0) := by
  have f0 := h 0 (by omega)
  have f1 := h 1 (by omega)
  have f2 := h 2 (by omega)
  have f3 := h 3 (by omega)
  have f4 := h 4 (by omega)
  have f5 := h 5 (by omega)
  unfold FlatFace at f0 f1 f2 f3 f4 f5
  simp [faceCorner] at f0 f1 f2 f3 f4 f5
  have key : ∀ d < 3, ∀ i, hexDer X x d i = hexDer X (0, 0, 0) d i := by
    intro d hd i
    have e0 := f0 d hd
    have e1 := f1 d hd
    have e2 := f2 d hd
    have e3 := f3 d hd
    have e4 := f4 d hd
    have e5 := f5 d hd
    have x3 : X 3 d = X 1 d + X 2 d - X 0 d := by linarith
    have x5 : X 5 d = X 1 d + X 4 d - X 0 d := by linarith
    have x6 : X 6 d = X 2 d + X 4 d - X 0 d := by linarith
    have x7 : X 7 d = X 1 d + X 2 d + X 4 d - 2 * X 0 d := by linarith
    unfold hexDer
    rw [x3, x5, x6, x7]
    split_ifs <;> ring
  unfold hexDet
  congr 1
  ext d i
  exact key d d.2 i

theorem sum_wt3 (o : ℕ) : ∑ q ∈ range ((o + 2) * (o + 2) * (o + 2)), wt3 o q = (∑ i ∈ range (o + 2), glW (2 * o + 3) i) ^ 3 := by
  have h := sum_div_mod3 (K := ℝ) (o + 2) fun i j k => glW (2 * o + 3) i * glW (2 * o + 3) j * glW (2 * o + 3) k
  refine Eq.trans (by rfl) (h.trans ?_)
  simp only [← Finset.mul_sum, ← Finset.sum_mul]
  ring

/-- **C66** (a uniform initial condition).  The projection of a uniform state `u` is exactly `u` for
every order from 1 up; on meshes of parallelepipeds it is `κ u` for order 0, with the same `κ` in all
elements, which differs from 1 by less than `10⁻²⁹`. -/
theorem C66_uniform_start (m : GMesh ℝ) (hq : HexMesh m) (t : Fam) (p : ℕ) (hp : orderFine t p) (haff : p = 0 → AllAffine m) :
    ∃ κ : ℝ, 0 < κ ∧ |κ - 1| ≤ 1 / 10 ^ 29 ∧ (1 ≤ p → κ = 1) ∧
      ∀ (ic : (ℕ → ℝ) → ℕ → ℝ) (u : ℕ → ℝ) (s : ℕ), (∀ x, ic x s = u s) → ∀ e < m.numElems,
        ∀ b < (p + 1) * (p + 1) * (p + 1), hexInit t p m ic e b s = uniformCoeffs (hexOne t p) (fun v => κ * u v) e b s := by
  by_cases hp1 : 1 ≤ p
  · refine ⟨1, one_pos, by norm_num, fun _ => rfl, fun ic u s hic e he b hb => ?_⟩
    rw [C66_projection_exact m hq t p hp hp1 ic e he s (fun a => hexOne t p a * u s) ?_ b hb]
    · simp [uniformCoeffs]
    · intro x
      rw [hic]
      have : ∑ a ∈ range ((p + 1) * (p + 1) * (p + 1)), hexOne t p a * u s * phi3 t p a x
          = (∑ a ∈ range ((p + 1) * (p + 1) * (p + 1)), hexOne t p a * phi3 t p a x) * u s := by
        rw [Finset.sum_mul]; exact Finset.sum_congr rfl fun a _ => by ring
      rw [this, hexOne_phi, one_mul]
  · obtain rfl : p = 0 := by omega
    have w3 := weights_near 3 (by unfold tableOK; omega)
    have w7 := weights_near 7 (by unfold tableOK; omega)
    norm_num at w3 w7
    set W3 := ∑ i ∈ range 2, glW 3 i with hW3
    set W7 := ∑ i ∈ range 4, glW 7 i with hW7
    rw [abs_le] at w3 w7
    have h3 : 0 < W3 := by linarith [w3.1]
    have h7 : 0 < W7 := by linarith [w7.1]
    refine ⟨(W7 / W3) ^ 3, by positivity, ?_, fun h => absurd h hp1, fun ic u s hic e he b hb => ?_⟩
    · have hr : |W7 / W3 - 1| ≤ 2 / 10 ^ 30 := by
        rw [div_sub_one h3.ne', abs_div, abs_of_pos h3, div_le_iff₀ h3, abs_le]
        constructor <;> nlinarith [w3.1, w3.2, w7.1, w7.2]
      generalize W7 / W3 = r at hr
      rw [show r ^ 3 - 1 = (r - 1) * (3 + 3 * (r - 1) + (r - 1) ^ 2) by ring, abs_mul]
      have hb : |3 + 3 * (r - 1) + (r - 1) ^ 2| ≤ 4 := by
        rw [abs_le] at hr ⊢
        constructor <;> nlinarith [hr.1, hr.2]
      calc |r - 1| * |3 + 3 * (r - 1) + (r - 1) ^ 2| ≤ 2 / 10 ^ 30 * 4 := mul_le_mul hr hb (abs_nonneg _) (by norm_num)
        _ ≤ _ := by norm_num
    · obtain rfl : b = 0 := by omega
      obtain ⟨v0, v1⟩ := hex_mass_zero hq t e he
      have v1' : hexInvMass t 0 (fileCoords m e) 0 0 = 1 / hexVolume t m e := v1
      have hdet : ∀ x, hexDet (fileCoords m e) x = hexDet (fileCoords m e) (0, 0, 0) := hexDet_affine _ (haff rfl e he)
      set Δ := hexDet (fileCoords m e) (0, 0, 0) with hΔ
      have hvol : hexVolume t m e = Δ * W3 ^ 3 := by
        unfold hexVolume hexMass
        simp only [phi3_zero, mul_one, hdet]
        rw [← Finset.sum_mul, sum_wt3 0, mul_comm]
      have hone : hexOne t 0 0 = 1 := by cases t <;> simp [hexOne, famOne]
      have hΔ0 : Δ ≠ 0 := by
        intro h; rw [hvol, h, zero_mul] at v0; exact lt_irrefl _ v0
      unfold uniformCoeffs
      rw [hone, one_mul]
      show ∑ j ∈ range 1, hexInvMass t 0 (fileCoords m e) 0 j * ∑ q ∈ range ((2 + 2) * (2 + 2) * (2 + 2)),
        wt3 2 q * hexDet (fileCoords m e) (volPt3 2 q) *
          (phi3 t 0 j (volPt3 2 q) * ic (fun d => if d < 3 then hexMap (fileCoords m e) (volPt3 2 q) d else 0) s) = _
      simp only [Finset.sum_range_one, phi3_zero, hic, hdet, one_mul]
      rw [← Finset.sum_mul, ← Finset.sum_mul, sum_wt3 2, v1', hvol]
      field_simp
      rw [mul_comm]

/-! ### the run -/

/-- **C66** (order 0 keeps a uniform flow, any mesh).  On every mesh of trilinear hexahedra without boundary
faces, twisted faces included: a uniform admissible state is an exact fixed point of the first-order
scheme, with either numerical flux and either time stepper, for every time step. -/
theorem C66_order_zero_fixed_point (m : GMesh ℝ) (hm : MeshOK m) (hq : HexMesh m) (hs : FacesNonzero m) (hnb : NoBoundary3 m)
    (t : Fam) (ph : Physics) (hE : ph.ptype = .Euler) (hγ : 1 < ph.γ) (junkV : (ℕ → ℝ) → ℕ → ℝ)
    (junkN : (ℕ → ℝ) → (ℕ → ℝ) → (ℕ → ℝ) → (ℕ → ℝ) × (ℕ → ℝ)) (u : ℕ → ℝ) (hu : Admissible 3 ph.γ u)
    (st : Stepper) (dt : ℝ) (n : ℕ) :
    ∀ e < m.numElems, ∀ v < 5,
      ((stepOf st dt (globalRHS (hexDisc t 0 5 (solverVolFlux 3 ph junkV) (solverNumFlux 3 ph junkN)) m (hexGeom t 0 m)))^[n]
        (fun _ _ v => u v)) e 0 v = u v := by
  have hp : orderFine t 0 := ⟨by omega, by cases t <;> simp [famOK]⟩
  obtain ⟨hvol, hface⟩ := hex_hvol t 0 5 (solverVolFlux 3 ph junkV) (solverNumFlux 3 ph junkN)
  have hone : hexOne t 0 0 = 1 := by cases t <;> simp [hexOne, famOne]
  have hfix := C39_uniform_state_is_fixed m hm _ 8 (hq.conforming t 0 5 _ _) (hexDisc_order t 0 5 _ _)
    (hexOne t 0) hvol hface (hexGeom t 0 m) (hex_normals_nonzero hm hq hs t 0 5 hp _ _) u
    (consistent_euler3 t 0 ph hE hγ junkV junkN _ hu)
    (fun e he => metricIdentity_hex_zero hq t 5 _ _ e (noBoundary_mem hnb he)) st dt n
  have hstart : AgreeIn (hexDisc t 0 5 (solverVolFlux 3 ph junkV) (solverNumFlux 3 ph junkN)) m.numElems
      (fun _ _ v => u v) (uniformCoeffs (hexOne t 0) u) := by
    intro e _ b hb v _
    have hb' : b < (0 + 1) * (0 + 1) * (0 + 1) := hb
    obtain rfl : b = 0 := by omega
    simp [uniformCoeffs, hone]
  intro e he v hv
  have hcong := iterate_congr_in (G := hexGeom t 0 m) hm hstart st dt n
  rw [hcong e he 0 (by show 0 < 1; omega) v hv, hfix e he 0 (by show 0 < 1; omega) v hv]
  simp [uniformCoeffs, hone]

/-- **C66** (order 0, the program).  The whole program with the first-order scheme, started from the initial
condition "Uniform" with an admissible state on a mesh of parallelepipeds without boundary faces: at the
end of every run, on any number of ranks and under any interleaving, every rank holds exactly the
coefficients it started with, and these are the numbers of the input file up to the accuracy of the
tables. -/
theorem C66_order_zero_keeps_uniform_flow (m : GMesh ℝ) (nranks : ℕ) (part : List ℕ) (rms : ℕ → RankMesh ℝ)
    (w : World m nranks part rms) (hq : HexMesh m) (haff : AllAffine m) (hs : FacesNonzero m) (hnb : NoBoundary3 m) (t : Fam)
    (ph : Physics) (hE : ph.ptype = .Euler) (hγ : 1 < ph.γ) (hic : ph.ic = .Uniform)
    (hlen : 5 ≤ ph.icData.length) (hadm : Admissible 3 ph.γ (fun v => ph.icData.getD v 0))
    (junkV junkI : (ℕ → ℝ) → ℕ → ℝ)
    (junkN : (ℕ → ℝ) → (ℕ → ℝ) → (ℕ → ℝ) → (ℕ → ℝ) × (ℕ → ℝ))
    (d : Disc ℝ) (g : ℕ → Geom ℝ) (u : ℕ → Coeffs ℝ)
    (hr : HexRanksReady t 0 5 (solverVolFlux 3 ph junkV) (solverNumFlux 3 ph junkN) (solverIC 3 ph junkI)
      nranks rms d g u) (st : Stepper) (dt : ℝ)
    (sched : ℕ → ℕ → List (FluxWrite ℝ) → List (FluxWrite ℝ))
    (hsched : ∀ r k l, (sched r k l).Perm l) (nsteps k : ℕ)
    (c : Proto.Conf (FaceArr (ℕ → ℕ → ℝ) × Option (RankState ℝ)) (List (ℕ → ℕ → ℝ)))
    (hx : Proto.Exec (solverProg d g rms nranks dt st sched nsteps)
      (Proto.init (solverStart d rms st u)) c k)
    (hfin : ∀ r < nranks, (c.proc r).round = stagesOf st * nsteps) :
    ∀ r < nranks, ∃ s, (c.proc r).st.2 = some s ∧ ∀ i < (rms r).numElemsPart, ∀ v < 5,
      s.Uc i 0 v = u r i 0 v ∧ |u r i 0 v - ph.icData.getD v 0| ≤ 1 / 10 ^ 29 * |ph.icData.getD v 0| := by
  intro r hlt
  have hcut : CutFlat m part := fun f hf _ => haff _ (w.mesh.faces f hf).1 _ (hq.faceL f hf).1
  have hp : orderFine t 0 := ⟨by omega, by cases t <;> simp [famOK]⟩
  obtain ⟨κ, hκ, hκ1, -, hinit⟩ := C66_uniform_start m hq t 0 hp fun _ => haff
  obtain ⟨s, s1, -, s3⟩ := C63_run_is_textbook m nranks part rms w hq hcut t 0 5 hp _ _ _ d g u hr st dt sched hsched
    nsteps k c hx r hlt nsteps (hfin r hlt)
  refine ⟨s, s1, ?_⟩
  intro i hi v hv
  have hlt' : i < (rms r).l2gElem.length := by rw [← w.numElems hlt]; exact hi
  have hget := List.getElem?_eq_getElem hlt'
  set e := (rms r).l2gElem[i] with hedef
  have he : e < m.numElems := w.elem_lt hlt hget
  have hu0 := hr.initQ w hq hcut hp r hlt i e hget 0 (by show 0 < 1; omega) v hv
  have hicv : ∀ v < 5, ∀ x, solverIC 3 ph junkI x v = ph.icData.getD v 0 := by
    intro v hv x
    unfold solverIC callIC
    simp [hic, setUniform, hlen, hv]
  have h0 : hexOne t 0 0 = 1 := by cases t <;> simp [hexOne, famOne]
  have hval' : ∀ e < m.numElems, ∀ v < 5, hexInit t 0 m (solverIC 3 ph junkI) e 0 v = κ * ph.icData.getD v 0 := by
    intro e he v hv
    rw [hinit _ (fun v => ph.icData.getD v 0) v (hicv v hv) e he 0 (by omega)]
    simp [uniformCoeffs, h0]
  have hstart : AgreeIn (hexDisc t 0 5 (solverVolFlux 3 ph junkV) (solverNumFlux 3 ph junkN)) m.numElems
      (hexInit t 0 m (solverIC 3 ph junkI)) (fun _ _ v => κ * ph.icData.getD v 0) := by
    intro e he b hb v hv
    have hb' : b < (0 + 1) * (0 + 1) * (0 + 1) := hb
    obtain rfl : b = 0 := by omega
    exact hval' e he v hv
  have hcong := iterate_congr_in (G := hexGeom t 0 m) w.mesh hstart st dt nsteps
  have hval : u r i 0 v = κ * ph.icData.getD v 0 := by rw [hu0, hval' e he v hv]
  refine ⟨?_, ?_⟩
  · rw [s3 i e hget 0 (by omega) v hv, hcong e he 0 (by show 0 < 1; omega) v hv, hval]
    exact C66_order_zero_fixed_point m w.mesh hq hs hnb t ph hE hγ junkV junkN _ (admissible_smul hκ hadm) st dt nsteps e he v hv
  · rw [hval, show κ * ph.icData.getD v 0 - ph.icData.getD v 0 = (κ - 1) * ph.icData.getD v 0 by ring, abs_mul]
    exact mul_le_mul_of_nonneg_right hκ1 (abs_nonneg _)

/-- **C66** (higher orders).  The same program with any order from 1 up and the forward Euler stepper, on a
mesh whose faces are parallelograms: the initial coefficients are exactly those of the uniform state, and
the first step changes a coefficient of an element whose edges have extents at most `h` by no more than
the time step times the inverse mass matrix times the accuracy of the quadrature tables. -/
theorem C66_first_step_deviation (m : GMesh ℝ) (nranks : ℕ) (part : List ℕ) (rms : ℕ → RankMesh ℝ)
    (w : World m nranks part rms) (hq : HexMesh m) (hfl : AllFlat m) (hs : FacesNonzero m) (hnb : NoBoundary3 m) (t : Fam)
    (p : ℕ) (hp : orderFine t p) (hp1 : 1 ≤ p)
    (ph : Physics) (hE : ph.ptype = .Euler) (hγ : 1 < ph.γ) (hic : ph.ic = .Uniform)
    (hlen : 5 ≤ ph.icData.length) (hadm : Admissible 3 ph.γ (fun v => ph.icData.getD v 0))
    (junkV junkI : (ℕ → ℝ) → ℕ → ℝ)
    (junkN : (ℕ → ℝ) → (ℕ → ℝ) → (ℕ → ℝ) → (ℕ → ℝ) × (ℕ → ℝ))
    (d : Disc ℝ) (g : ℕ → Geom ℝ) (u : ℕ → Coeffs ℝ)
    (hr : HexRanksReady t p 5 (solverVolFlux 3 ph junkV) (solverNumFlux 3 ph junkN) (solverIC 3 ph junkI)
      nranks rms d g u) (dt : ℝ)
    (sched : ℕ → ℕ → List (FluxWrite ℝ) → List (FluxWrite ℝ))
    (hsched : ∀ r k l, (sched r k l).Perm l) (nsteps k : ℕ)
    (c : Proto.Conf (FaceArr (ℕ → ℕ → ℝ) × Option (RankState ℝ)) (List (ℕ → ℕ → ℝ)))
    (hx : Proto.Exec (solverProg d g rms nranks dt .FE sched nsteps)
      (Proto.init (solverStart d rms .FE u)) c k) (r : ℕ) (hlt : r < nranks)
    (h1 : (c.proc r).round = stagesOf .FE) :
    ∃ s, (c.proc r).st.2 = some s ∧ ∀ i e : ℕ, (rms r).l2gElem[i]? = some e → ∀ h : ℝ,
      EdgesLe (fileCoords m e) h →
      ∀ b < (p + 1) * (p + 1) * (p + 1), ∀ v < 5,
        u r i b v = hexOne t p b * ph.icData.getD v 0 ∧
        |s.Uc i b v - u r i b v| ≤ |dt| * ∑ j ∈ range ((p + 1) * (p + 1) * (p + 1)),
          |hexInvMass t p (fileCoords m e) b j| * (metricTol3 t p j * h ^ 2 *
            (|eulerFlux 3 ph.γ (fun v => ph.icData.getD v 0) (axis 0) v| +
             |eulerFlux 3 ph.γ (fun v => ph.icData.getD v 0) (axis 1) v| +
             |eulerFlux 3 ph.γ (fun v => ph.icData.getD v 0) (axis 2) v|)) := by
  have hcut : CutFlat m part := fun f hf _ => hfl f hf
  obtain ⟨κ, -, -, hκ, hinit⟩ := C66_uniform_start m hq t p hp fun h => by omega
  obtain rfl := hκ hp1
  obtain ⟨s, s1, -, s3⟩ := C63_run_is_textbook m nranks part rms w hq hcut t p 5 hp _ _ _ d g u hr .FE dt sched hsched
    nsteps k c hx r hlt 1 (by rw [h1, mul_one])
  refine ⟨s, s1, ?_⟩
  intro i e hget h hh b hb v hv
  have he : e < m.numElems := w.elem_lt hlt hget
  have hicv : ∀ v < 5, ∀ x, solverIC 3 ph junkI x v = ph.icData.getD v 0 := by
    intro v hv x
    unfold solverIC callIC
    simp [hic, setUniform, hlen, hv]
  have hstart : AgreeIn (hexDisc t p 5 (solverVolFlux 3 ph junkV) (solverNumFlux 3 ph junkN)) m.numElems
      (hexInit t p m (solverIC 3 ph junkI)) (uniformCoeffs (hexOne t p) (fun v => ph.icData.getD v 0)) := by
    intro e he b hb v hv
    have := hinit _ (fun v => ph.icData.getD v 0) v (hicv v hv) e he b hb
    simpa only [one_mul] using this
  have hu0 := hr.initQ w hq hcut hp r hlt i e hget b hb v hv
  have hval : u r i b v = hexOne t p b * ph.icData.getD v 0 := by
    rw [hu0, hstart e he b hb v hv]; rfl
  refine ⟨hval, ?_⟩
  have hcong := iterate_congr_in (G := hexGeom t p m) w.mesh hstart .FE dt 1 e he b hb v hv
  rw [s3 i e hget b hb v hv, hcong, hval]
  simp only [Function.iterate_one, stepOf, eulerStep]
  show |hexOne t p b * ph.icData.getD v 0 + dt * _ - hexOne t p b * ph.icData.getD v 0| ≤ _
  rw [add_sub_cancel_left, abs_mul]
  refine mul_le_mul_of_nonneg_left ?_ (abs_nonneg _)
  unfold globalRHS
  refine (Finset.abs_sum_le_sum_abs _ _).trans (Finset.sum_le_sum fun j hj => ?_)
  rw [abs_mul]
  refine mul_le_mul_of_nonneg_left ?_ (abs_nonneg _)
  have := C66_uniform_residual m w.mesh hq hs t p hp ph hE hγ junkV junkN hfl _ hadm e he h hh j v
    (Finset.mem_range.1 hj) hv
  rw [show boundaryFlux3 t p ph.γ m (fun v => ph.icData.getD v 0) e j v = 0 from
    Finset.sum_eq_zero fun k hk => if_neg (hnb e he k (Finset.mem_range.1 hk)), sub_zero] at this
  exact this

end DG
