import Verif.Lemmas.QuadMetric
import Verif.Model.Flux
import Verif.Props.Config

/-!
Property C62: free stream on meshes of bilinear quadrilaterals, with the fluxes of the code.
-/
namespace DG
open Finset Polynomial

/-! ### specification -/

/-- Side `k` of element `e` is on no face of the mesh: a boundary side. -/
def IsBoundarySide {α : Type} (m : GMesh α) (e k : ℕ) : Prop :=
  ∀ f ∈ m.faces, (f.elemL, f.faceL) ≠ (e, k) ∧ (f.elemR, f.faceR) ≠ (e, k)

open Classical in
/-- Flux of variable `s` of the uniform state `u` through the boundary sides of element `e`, weighted with
basis function `b`: the terms the scheme leaves out. -/
noncomputable def boundaryFlux (t : Fam) (p : ℕ) (γ : ℝ) (m : GMesh ℝ) (u : ℕ → ℝ) (e b s : ℕ) : ℝ :=
  ∑ k ∈ range 4, if IsBoundarySide m e k then
    eulerFlux 2 γ u (sideNormal (fileCoords m e) k) s * ∑ q ∈ range (p + 1), glW (2 * p + 1) q *
      phi t p b (sidePoint k (glX (2 * p + 1) q)).1 (sidePoint k (glX (2 * p + 1) q)).2
  else 0

/-- accuracy of the metric identities: exact for order 0, otherwise that of the quadrature tables -/
noncomputable def metricTol (t : Fam) (p b : ℕ) : ℝ :=
  if p = 0 then 0 else (12 + 5 * p) / 10 ^ 30 *
    (coeffSum (famPoly t p (b % (p + 1))) * coeffSum (famPoly t p (b / (p + 1))))

/-- every side of every element has two different end points -/
def SidesNonzero (m : GMesh ℝ) : Prop :=
  ∀ e < m.numElems, ∀ k < 4, ∃ d < 2,
    fileCoords m e (sideTo k) d ≠ fileCoords m e (sideFrom k) d

/-! ### lemmas -/

theorem boundary_iff {α : Type} (m : GMesh α) (e k : ℕ) : IsBoundarySide m e k ↔ (e, k) ∉ sideList m := by
  unfold IsBoundarySide sideList
  simp only [List.mem_flatMap, List.mem_cons, List.not_mem_nil, or_false, not_exists, not_and, not_or]
  exact forall₂_congr fun f _ => and_congr ⟨fun h e => h e.symm, fun h e => h e.symm⟩ ⟨fun h e => h e.symm, fun h e => h e.symm⟩

theorem inner_ne {N : ℕ → ℝ} {dim : ℕ} (h : ∃ j < dim, N j ≠ 0) : inner' dim N N ≠ 0 := by
  obtain ⟨j, hj, hn⟩ := h
  have : 0 < inner' dim N N := by
    unfold inner'
    refine Finset.sum_pos' (fun i _ => mul_self_nonneg _) ⟨j, Finset.mem_range.2 hj, ?_⟩
    exact mul_self_pos.2 hn
  exact this.ne'

theorem eulerFlux_congr {dim : ℕ} {γ : ℝ} {U V N M : ℕ → ℝ} (hU : ∀ s < dim + 2, U s = V s)
    (hN : ∀ j < dim, N j = M j) {s : ℕ} (hs : s < dim + 2) : eulerFlux dim γ U N s = eulerFlux dim γ V M s := by
  have hv : ∀ i < dim, vel U i = vel V i := fun i hi => by
    unfold vel; rw [hU _ (by omega), hU 0 (by omega)]
  have h1 : inner' dim (vel U) N = inner' dim (vel V) M :=
    Finset.sum_congr rfl fun i hi => by
      rw [hv i (Finset.mem_range.1 hi), hN i (Finset.mem_range.1 hi)]
  have h2 : inner' dim (vel U) (vel U) = inner' dim (vel V) (vel V) :=
    Finset.sum_congr rfl fun i hi => by rw [hv i (Finset.mem_range.1 hi)]
  have h3 : pressure dim γ U = pressure dim γ V := by
    unfold pressure internalEnergy; rw [h2, hU _ (by omega : dim + 1 < dim + 2), hU 0 (by omega)]
  unfold eulerFlux
  rw [h1, h3, hU 0 (by omega), hU s hs, hU _ (by omega : dim + 1 < dim + 2)]
  split
  · rfl
  · split
    · rw [hN _ (by omega)]
    · rfl

theorem admissible_congr {dim : ℕ} {γ : ℝ} {U V : ℕ → ℝ} (hU : ∀ s < dim + 2, U s = V s)
    (h : Admissible dim γ U) : Admissible dim γ V := by
  have hv : inner' dim (vel U) (vel U) = inner' dim (vel V) (vel V) :=
    Finset.sum_congr rfl fun i hi => by
      have := Finset.mem_range.1 hi
      unfold vel; rw [hU _ (by omega), hU 0 (by omega)]
  refine ⟨by rw [← hU 0 (by omega)]; exact h.ρ_pos, ?_⟩
  have := h.p_pos
  unfold pressure internalEnergy at this ⊢
  rw [← hv, ← hU _ (by omega : dim + 1 < dim + 2), ← hU 0 (by omega)]; exact this

/-- the flux of direction `j` -/
theorem solverVolFlux_euler (dim : ℕ) (hd : dim = 2 ∨ dim = 3) (ph : Physics) (hE : ph.ptype = .Euler)
    (junk : (ℕ → ℝ) → ℕ → ℝ) (u : ℕ → ℝ) (hu : u 0 ≠ 0) (N : ℕ → ℝ) (s : ℕ) (hs : s < dim + 2) :
    ∑ j ∈ range dim, solverVolFlux dim ph junk (cArr (dim + 2) u) (j * (dim + 2) + s) * N j
      = eulerFlux dim ph.γ u N s := by
  obtain ⟨Fq, h1, h2⟩ := C33_flux dim hd ph.γ (cArr (dim + 2) u) (junk (cArr (dim + 2) u))
    (by simpa [cArr] using hu)
  have : solverVolFlux dim ph junk (cArr (dim + 2) u) = Fq := by
    unfold solverVolFlux getConvFluxInterior; rw [hE]; simp [h1]
  rw [this]
  rw [← eulerFlux_congr (U := cArr (dim + 2) u) (N := N) (fun s hs => by simp [cArr, hs]) (fun _ _ => rfl) hs, ← h2 N s hs]
  exact Finset.sum_congr rfl fun j _ => by rw [add_comm]

theorem consistent_euler (t : Fam) (p : ℕ) (ph : Physics) (hE : ph.ptype = .Euler) (hγ : 1 < ph.γ)
    (junkV : (ℕ → ℝ) → ℕ → ℝ) (junkN : (ℕ → ℝ) → (ℕ → ℝ) → (ℕ → ℝ) → (ℕ → ℝ) × (ℕ → ℝ)) (u : ℕ → ℝ)
    (hu : Admissible 2 ph.γ u) :
    ConsistentAt (quadDisc t p 4 (solverVolFlux 2 ph junkV) (solverNumFlux 2 ph junkN)) u := by
  intro n hn s hs
  have hs' : s < 2 + 2 := hs
  show solverNumFlux 2 ph junkN (cArr 4 u) (cArr 4 u) (cArr 2 n) s =
    ∑ j ∈ range 2, solverVolFlux 2 ph junkV (cArr 4 u) (j * 4 + s) * n j
  rw [solverVolFlux_euler 2 (Or.inl rfl) ph hE junkV u hu.ρ_pos.ne' n s hs']
  have hadm : Admissible 2 ph.γ (cArr 4 u) := admissible_congr (U := u) (fun s hs => by simp [cArr, hs]) hu
  have hnn : inner' 2 (cArr 2 n) (cArr 2 n) ≠ 0 := by
    obtain ⟨j, hj, h⟩ := hn
    have hj' : j < 2 := hj
    exact inner_ne ⟨j, hj', by simp [cArr, hj', h]⟩
  obtain ⟨F, h1, h2⟩ := (C35_flux 2 (Or.inl rfl) ph hE (cArr 4 u) (cArr 4 u) (cArr 2 n)
    (junkN (cArr 4 u) (cArr 4 u) (cArr 2 n)).1 (junkN (cArr 4 u) (cArr 4 u) (cArr 2 n)).2).2.2 _ hγ hadm hnn
  unfold solverNumFlux
  rw [h1, Option.getD_some, h2 s hs']
  exact eulerFlux_congr (fun s hs => by simp [cArr, hs]) (fun j hj => by simp [cArr, hj]) hs'

theorem normals_nonzero {m : GMesh ℝ} (hm : MeshOK m) (hq : QuadMesh m) (hs : SidesNonzero m) (t : Fam) (p ns : ℕ)
    (vf : (ℕ → ℝ) → ℕ → ℝ) (nf : (ℕ → ℝ) → (ℕ → ℝ) → (ℕ → ℝ) → ℕ → ℝ) :
    NormalsNonzero (quadDisc t p ns vf nf) m (quadGeom t p m) := by
  intro g hg iq _
  have hat : faceAt m g = m.faces[g] := by unfold faceAt; rw [List.getElem?_eq_getElem hg]; rfl
  have hmem : m.faces[g] ∈ m.faces := List.getElem_mem hg
  obtain ⟨d, hd, hne⟩ := hs _ (hm.faces _ hmem).1 _ (hq.faceL _ hmem).1
  show ∃ j < 2, sideNormal (fileCoords m (faceAt m g).elemL) (faceAt m g).faceL j ≠ 0
  rw [hat]
  have hD : d = 0 ∨ d = 1 := by omega
  rcases hD with rfl | rfl
  · refine ⟨1, by omega, ?_⟩
    unfold sideNormal
    rw [if_neg (by omega)]
    exact neg_ne_zero.2 (div_ne_zero (sub_ne_zero.2 hne) two_ne_zero)
  · refine ⟨0, by omega, ?_⟩
    unfold sideNormal
    rw [if_pos rfl]
    exact div_ne_zero (sub_ne_zero.2 hne) two_ne_zero

theorem quad_hvol (t : Fam) (p ns : ℕ) (vf : (ℕ → ℝ) → ℕ → ℝ) (nf : (ℕ → ℝ) → (ℕ → ℝ) → (ℕ → ℝ) → ℕ → ℝ) :
    (∀ q < (quadDisc t p ns vf nf).nq, ∑ b ∈ range (quadDisc t p ns vf nf).nb,
      quadOne t p b * (quadDisc t p ns vf nf).volBasis q b = 1) ∧
    (∀ f < (quadDisc t p ns vf nf).nface, ∀ j < (quadDisc t p ns vf nf).nqf,
      ∑ b ∈ range (quadDisc t p ns vf nf).nb, quadOne t p b * (quadDisc t p ns vf nf).faceBasis f j b = 1) :=
  ⟨fun _ _ => quadOne_phi t p _ _, fun _ _ _ _ => quadOne_phi t p _ _⟩

/-- the metric identity of one element, with the sides on faces only -/
theorem metric_quad {m : GMesh ℝ} (hq : QuadMesh m) (t : Fam) (p ns : ℕ) (hp : p ≤ 11)
    (vf : (ℕ → ℝ) → ℕ → ℝ) (nf : (ℕ → ℝ) → (ℕ → ℝ) → (ℕ → ℝ) → ℕ → ℝ) (e : ℕ) (he : e < m.numElems) (h : ℝ)
    (hh : ∀ k < 4, ∀ d < 2, |fileCoords m e (sideTo k) d - fileCoords m e (sideFrom k) d| ≤ h)
    (b j : ℕ) (hb : b < (p + 1) * (p + 1)) (hj : j < 2) :
    |volMetric (quadDisc t p ns vf nf) (quadGeom t p m) e b j
        - ∑ k ∈ range 4, sideTerm t p (fileCoords m e) k b j| ≤ metricTol t p b * h := by
  unfold metricTol
  split
  · next h0 =>
    subst h0
    rw [metric_exact_zero t ns vf nf m e (hq.det e he) b j hb hj]
    simp
  · refine (metric_defect t p ns (by unfold tableOK; omega) (by unfold tableOK; omega) vf nf m e (hq.det e he) h hh b j
      hb hj).trans (le_of_eq ?_)
    ring

/-! ### C62 -/

section
variable (m : GMesh ℝ) (hm : MeshOK m) (hq : QuadMesh m) (hs : SidesNonzero m) (t : Fam) (p : ℕ) (hp : p ≤ 11)
  (ph : Physics) (hE : ph.ptype = .Euler) (hγ : 1 < ph.γ) (junkV : (ℕ → ℝ) → ℕ → ℝ)
  (junkN : (ℕ → ℝ) → (ℕ → ℝ) → (ℕ → ℝ) → (ℕ → ℝ) × (ℕ → ℝ))
include hm hq hs hp hE hγ

/-- **C62** (residual of a uniform state).  For either numerical flux, the residual of a uniform
admissible state is the flux through the boundary sides of the element, which the scheme does not
compute; the rest is exactly zero for order 0, and of the accuracy of the quadrature tables otherwise. -/
theorem C62_uniform_residual (u : ℕ → ℝ) (hu : Admissible 2 ph.γ u) (e : ℕ) (he : e < m.numElems) (h : ℝ)
    (hh : ∀ k < 4, ∀ d < 2, |fileCoords m e (sideTo k) d - fileCoords m e (sideFrom k) d| ≤ h)
    (b s : ℕ) (hb : b < (p + 1) * (p + 1)) (hv : s < 4) :
    |globalResidual (quadDisc t p 4 (solverVolFlux 2 ph junkV) (solverNumFlux 2 ph junkN)) m (quadGeom t p m)
        (uniformCoeffs (quadOne t p) u) e b s - boundaryFlux t p ph.γ m u e b s|
      ≤ metricTol t p b * h * (|eulerFlux 2 ph.γ u (axis 0) s| + |eulerFlux 2 ph.γ u (axis 1) s|) := by
  set D := quadDisc t p 4 (solverVolFlux 2 ph junkV) (solverNumFlux 2 ph junkN) with hD
  obtain ⟨hvol, hface⟩ := quad_hvol t p 4 (solverVolFlux 2 ph junkV) (solverNumFlux 2 ph junkN)
  rw [C39_residual_is_metric_defect m D 2 (hq.conforming t p 4 _ _) (quadDisc_order t p 4 _ _) (quadOne t p)
    hvol hface (quadGeom t p m) (normals_nonzero hm hq hs t p 4 _ _) u
    (consistent_euler t p ph hE hγ junkV junkN u hu) e b s hv]
  set F : ℕ → ℝ := fun j => solverVolFlux 2 ph junkV (cArr 4 u) (j * 4 + s) with hF
  have hFa : ∀ j < 2, F j = eulerFlux 2 ph.γ u (axis j) s := by
    intro j hj
    rw [← solverVolFlux_euler 2 (Or.inl rfl) ph hE junkV u hu.ρ_pos.ne' (axis j) s hv]
    have hJ : j = 0 ∨ j = 1 := by omega
    rcases hJ with rfl | rfl <;> simp [axis, Finset.sum_range_succ, hF]
  have hbf : boundaryFlux t p ph.γ m u e b s = ∑ j ∈ range 2, F j *
      (∑ k ∈ range 4, sideTerm t p (fileCoords m e) k b j -
        ∑ k ∈ range 4, if (e, k) ∈ sideList m then sideTerm t p (fileCoords m e) k b j else 0) := by
    unfold boundaryFlux
    simp only [← Finset.sum_sub_distrib, Finset.mul_sum]
    rw [Finset.sum_comm]
    refine Finset.sum_congr rfl fun k _ => ?_
    by_cases hk : (e, k) ∈ sideList m
    · rw [if_neg (by rw [boundary_iff]; exact not_not.2 hk)]
      simp [hk]
    · rw [if_pos ((boundary_iff m e k).2 hk)]
      simp only [hk, if_false, sub_zero, sideTerm]
      rw [← Finset.mul_sum, ← solverVolFlux_euler 2 (Or.inl rfl) ph hE junkV u hu.ρ_pos.ne' _ s hv, Finset.sum_mul]
      exact Finset.sum_congr rfl fun j _ => by rw [hF]; ring
  rw [hbf]
  show |∑ j ∈ range 2, F j * _ - _| ≤ _
  rw [← Finset.sum_sub_distrib]
  have key : ∀ j ∈ range 2, |F j * (volMetric D (quadGeom t p m) e b j -
        (m.faces.zipIdx.map fun x => faceMetric D (quadGeom t p m) e b j x.2 x.1).sum) -
      F j * (∑ k ∈ range 4, sideTerm t p (fileCoords m e) k b j -
        ∑ k ∈ range 4, if (e, k) ∈ sideList m then sideTerm t p (fileCoords m e) k b j else 0)|
      ≤ metricTol t p b * h * |eulerFlux 2 ph.γ u (axis j) s| := by
    intro j hj
    have hj' := Finset.mem_range.1 hj
    rw [faceMetric_sum hq t p 4 (by unfold tableOK; omega) _ _ e b j hj', ← mul_sub, abs_mul, hFa j hj', mul_comm]
    refine mul_le_mul_of_nonneg_right ?_ (abs_nonneg _)
    rw [sub_sub_sub_cancel_right]
    exact metric_quad hq t p 4 hp _ _ e he h hh b j hb hj'
  refine (Finset.abs_sum_le_sum_abs _ _).trans ((Finset.sum_le_sum key).trans (le_of_eq ?_))
  simp only [Finset.sum_range_succ, Finset.sum_range_zero]
  ring

omit hp in
open Classical in
/-- **C62** (net flux).  The total residual of an element - the rate of change of the integral of a
conserved variable over the element - in a uniform state is exactly, for every order, the flux through
its boundary sides. -/
theorem C62_net_flux (hp : p ≤ 11) (u : ℕ → ℝ) (hu : Admissible 2 ph.γ u) (e s : ℕ) (hv : s < 4) :
    ∑ b ∈ range ((p + 1) * (p + 1)), quadOne t p b *
      globalResidual (quadDisc t p 4 (solverVolFlux 2 ph junkV) (solverNumFlux 2 ph junkN)) m (quadGeom t p m)
        (uniformCoeffs (quadOne t p) u) e b s =
    ∑ k ∈ range 4, if IsBoundarySide m e k then
      eulerFlux 2 ph.γ u (sideNormal (fileCoords m e) k) s * ∑ q ∈ range (p + 1), glW (2 * p + 1) q else 0 := by
  set D := quadDisc t p 4 (solverVolFlux 2 ph junkV) (solverNumFlux 2 ph junkN) with hD
  obtain ⟨hvol, hface⟩ := quad_hvol t p 4 (solverVolFlux 2 ph junkV) (solverNumFlux 2 ph junkN)
  set F : ℕ → ℝ := fun j => solverVolFlux 2 ph junkV (cArr 4 u) (j * 4 + s) with hF
  set W := ∑ q ∈ range (p + 1), glW (2 * p + 1) q with hW
  have hres : ∀ b, globalResidual D m (quadGeom t p m) (uniformCoeffs (quadOne t p) u) e b s =
      ∑ j ∈ range 2, F j * (volMetric D (quadGeom t p m) e b j -
        ∑ k ∈ range 4, if (e, k) ∈ sideList m then sideTerm t p (fileCoords m e) k b j else 0) := by
    intro b
    rw [C39_residual_is_metric_defect m D 2 (hq.conforming t p 4 _ _) (quadDisc_order t p 4 _ _) (quadOne t p)
      hvol hface (quadGeom t p m) (normals_nonzero hm hq hs t p 4 _ _) u
      (consistent_euler t p ph hE hγ junkV junkN u hu) e b s hv]
    refine Finset.sum_congr rfl fun j hj => ?_
    rw [faceMetric_sum hq t p 4 (by unfold tableOK; omega) _ _ e b j (Finset.mem_range.1 hj)]
    rfl
  have hv0 : ∀ j, ∑ b ∈ range ((p + 1) * (p + 1)), quadOne t p b * volMetric D (quadGeom t p m) e b j = 0 := by
    intro j
    unfold volMetric
    simp only [Finset.mul_sum]
    rw [Finset.sum_comm]
    refine Finset.sum_eq_zero fun q _ => ?_
    rw [Finset.sum_comm]
    refine Finset.sum_eq_zero fun i _ => ?_
    have := quadOne_dphi t p (glX (2 * p + 3) (q % (p + 2))) (glX (2 * p + 3) (q / (p + 2))) i
    calc _ = (∑ b ∈ range ((p + 1) * (p + 1)), quadOne t p b *
          dphi t p b i (glX (2 * p + 3) (q % (p + 2))) (glX (2 * p + 3) (q / (p + 2)))) *
          ((quadGeom t p m).ijac e q i j * (quadGeom t p m).djac e q * D.volWts q) := by
          rw [Finset.sum_mul]
          refine Finset.sum_congr rfl fun b _ => ?_
          show quadOne t p b * (dphi t p b i _ _ * _ * _ * _) = _
          ring
      _ = 0 := by rw [this, zero_mul]
  have hside : ∀ k j, ∑ b ∈ range ((p + 1) * (p + 1)), quadOne t p b * sideTerm t p (fileCoords m e) k b j
      = sideNormal (fileCoords m e) k j * W := by
    intro k j
    unfold sideTerm
    simp only [Finset.mul_sum]
    rw [Finset.sum_comm, hW, Finset.mul_sum]
    refine Finset.sum_congr rfl fun q _ => ?_
    have := quadOne_phi t p (sidePoint k (glX (2 * p + 1) q)).1 (sidePoint k (glX (2 * p + 1) q)).2
    calc _ = (∑ b ∈ range ((p + 1) * (p + 1)), quadOne t p b *
          phi t p b (sidePoint k (glX (2 * p + 1) q)).1 (sidePoint k (glX (2 * p + 1) q)).2) *
          (sideNormal (fileCoords m e) k j * glW (2 * p + 1) q) := by
          rw [Finset.sum_mul]; exact Finset.sum_congr rfl fun b _ => by ring
      _ = _ := by rw [this, one_mul]
  have hclosed : ∀ j, ∑ k ∈ range 4, sideNormal (fileCoords m e) k j = 0 := by
    intro j
    simp only [Finset.sum_range_succ, Finset.sum_range_zero, sideNormal, sideTo, sideFrom]
    split <;> norm_num <;> ring
  simp only [hres]
  calc _ = ∑ j ∈ range 2, F j * (∑ b ∈ range ((p + 1) * (p + 1)), quadOne t p b * volMetric D (quadGeom t p m) e b j -
        ∑ k ∈ range 4, if (e, k) ∈ sideList m then
          ∑ b ∈ range ((p + 1) * (p + 1)), quadOne t p b * sideTerm t p (fileCoords m e) k b j else 0) := by
        simp only [Finset.mul_sum]
        rw [Finset.sum_comm]
        refine Finset.sum_congr rfl fun j _ => ?_
        rw [mul_sub, Finset.mul_sum, Finset.mul_sum]
        have : ∀ k, F j * (if (e, k) ∈ sideList m then
            ∑ b ∈ range ((p + 1) * (p + 1)), quadOne t p b * sideTerm t p (fileCoords m e) k b j else 0) =
            ∑ b ∈ range ((p + 1) * (p + 1)), quadOne t p b * (F j *
              if (e, k) ∈ sideList m then sideTerm t p (fileCoords m e) k b j else 0) := by
          intro k
          split
          · rw [Finset.mul_sum]; exact Finset.sum_congr rfl fun b _ => by ring
          · simp
        simp only [this]
        rw [Finset.sum_comm (s := range 4), ← Finset.sum_sub_distrib]
        refine Finset.sum_congr rfl fun b _ => ?_
        rw [← Finset.mul_sum, ← Finset.mul_sum]; ring
    _ = ∑ j ∈ range 2, F j * ∑ k ∈ range 4, if IsBoundarySide m e k then
          sideNormal (fileCoords m e) k j * W else 0 := by
        refine Finset.sum_congr rfl fun j _ => ?_
        congr 1
        rw [hv0, zero_sub]
        have h0 : ∑ k ∈ range 4, sideNormal (fileCoords m e) k j * W = 0 := by
          rw [← Finset.sum_mul, hclosed, zero_mul]
        rw [← sub_eq_zero, neg_sub_left, neg_eq_zero, ← Finset.sum_add_distrib]
        refine Eq.trans ?_ h0
        refine Finset.sum_congr rfl fun k _ => ?_
        rw [boundary_iff, hside]
        by_cases hk : (e, k) ∈ sideList m <;> simp [hk]
    _ = _ := by
        simp only [Finset.mul_sum]
        rw [Finset.sum_comm]
        refine Finset.sum_congr rfl fun k _ => ?_
        split
        · rw [← solverVolFlux_euler 2 (Or.inl rfl) ph hE junkV u hu.ρ_pos.ne' _ s hv, Finset.sum_mul]
          exact Finset.sum_congr rfl fun j _ => by rw [hF]; ring
        · simp

/-- **C62** (a gas at rest is set in motion by a boundary).  In an element with exactly one boundary
side, the momentum residual of a uniform gas at rest is the pressure times the normal of that side, not
zero. -/
theorem C62_gas_at_rest_is_accelerated (u : ℕ → ℝ) (hu : Admissible 2 ph.γ u) (h1 : u 1 = 0) (h2 : u 2 = 0)
    (e : ℕ) (he : e < m.numElems) (k : ℕ) (hk : k < 4) (hb : IsBoundarySide m e k)
    (honly : ∀ k' < 4, IsBoundarySide m e k' → k' = k) :
    (∀ j < 2, ∑ b ∈ range ((p + 1) * (p + 1)), quadOne t p b *
      globalResidual (quadDisc t p 4 (solverVolFlux 2 ph junkV) (solverNumFlux 2 ph junkN)) m (quadGeom t p m)
        (uniformCoeffs (quadOne t p) u) e b (1 + j) =
      pressure 2 ph.γ u * sideNormal (fileCoords m e) k j * ∑ q ∈ range (p + 1), glW (2 * p + 1) q) ∧
    ∃ j < 2, ∃ b < (p + 1) * (p + 1),
      globalResidual (quadDisc t p 4 (solverVolFlux 2 ph junkV) (solverNumFlux 2 ph junkN)) m (quadGeom t p m)
        (uniformCoeffs (quadOne t p) u) e b (1 + j) ≠ 0 := by
  classical
  have main : ∀ j < 2, ∑ b ∈ range ((p + 1) * (p + 1)), quadOne t p b *
      globalResidual (quadDisc t p 4 (solverVolFlux 2 ph junkV) (solverNumFlux 2 ph junkN)) m (quadGeom t p m)
        (uniformCoeffs (quadOne t p) u) e b (1 + j) =
      pressure 2 ph.γ u * sideNormal (fileCoords m e) k j * ∑ q ∈ range (p + 1), glW (2 * p + 1) q := by
    intro j hj
    rw [C62_net_flux m hm hq hs t p ph hE hγ junkV junkN hp u hu e (1 + j) (by omega),
      Finset.sum_eq_single k]
    · rw [if_pos hb]
      congr 1
      unfold eulerFlux
      have hin : inner' 2 (vel u) (sideNormal (fileCoords m e) k) = 0 := by
        simp [inner', vel, Finset.sum_range_succ, h1, h2]
      rw [if_neg (by omega), if_pos (by omega), hin, mul_zero, zero_add, Nat.add_sub_cancel_left]
    · intro k' hk' hne
      rw [if_neg fun h => hne (honly k' (Finset.mem_range.1 hk') h)]
    · intro h; exact absurd (Finset.mem_range.2 hk) h
  refine ⟨main, ?_⟩
  obtain ⟨d, hd, hne⟩ := hs e he k hk
  have hn : ∃ j < 2, sideNormal (fileCoords m e) k j ≠ 0 := by
    have hD : d = 0 ∨ d = 1 := by omega
    rcases hD with rfl | rfl
    · refine ⟨1, by omega, ?_⟩
      unfold sideNormal
      rw [if_neg (by omega)]
      exact neg_ne_zero.2 (div_ne_zero (sub_ne_zero.2 hne) two_ne_zero)
    · refine ⟨0, by omega, ?_⟩
      unfold sideNormal
      rw [if_pos rfl]
      exact div_ne_zero (sub_ne_zero.2 hne) two_ne_zero
  obtain ⟨j, hj, hn⟩ := hn
  refine ⟨j, hj, ?_⟩
  by_contra hall
  push Not at hall
  have hz := main j hj
  rw [Finset.sum_eq_zero fun b hb => by rw [hall b (Finset.mem_range.1 hb), mul_zero]] at hz
  have rule := (gl_rule (2 * p + 1) (by unfold tableOK; omega)).2
  rw [show (2 * p + 1) / 2 + 1 = p + 1 by omega] at rule
  have hW : 0 < ∑ q ∈ range (p + 1), glW (2 * p + 1) q :=
    Finset.sum_pos (fun q hq => rule.pos q (Finset.mem_range.1 hq)) ⟨0, by simp⟩
  exact (mul_ne_zero (mul_ne_zero hu.p_pos.ne' hn) hW.ne') hz.symm

end

/-! ### the initial state -/

theorem quadInvMass_left (t : Fam) (p : ℕ) (hp : orderFine t p) (X : ℕ → ℕ → ℝ) (hX : DetPos X)
    (a j : ℕ) (ha : a < (p + 1) * (p + 1)) (hj : j < (p + 1) * (p + 1)) :
    ∑ b ∈ range ((p + 1) * (p + 1)), quadInvMass t p X a b * quadMass t p (2 * p) X b j
      = if a = j then 1 else 0 := by
  set n := (p + 1) * (p + 1) with hn
  have h1 : (Matrix.of fun a b : Fin n => quadMass t p (2 * p) X a b) *
      (Matrix.of fun a b : Fin n => quadInvMass t p X a b) = 1 := by
    ext x y
    rw [Matrix.mul_apply, Matrix.one_apply]
    have := quadInvMass_inv t p hp X hX x y x.2 y.2
    rw [← hn, ← Fin.sum_univ_eq_sum_range (fun b => quadMass t p (2 * p) X x b * quadInvMass t p X b y)] at this
    simpa [Fin.ext_iff] using this
  have h3 : (Matrix.of fun a b : Fin n => quadInvMass t p X a b) *
      (Matrix.of fun a b : Fin n => quadMass t p (2 * p) X a b) = 1 := mul_eq_one_comm.1 h1
  have h2 := congrFun (congrFun h3 ⟨a, ha⟩) ⟨j, hj⟩
  rw [Matrix.mul_apply, Matrix.one_apply] at h2
  rw [← Fin.sum_univ_eq_sum_range (fun b => quadInvMass t p X a b * quadMass t p (2 * p) X b j)]
  simpa [Fin.ext_iff] using h2

/-- **C62** (the projection is exact on the polynomial space).  For every order from 1 up, an initial
condition that is on an element a combination of the basis functions is represented exactly by the
initial coefficients - in particular a uniform state. -/
theorem C62_projection_exact (m : GMesh ℝ) (hq : QuadMesh m) (t : Fam) (p : ℕ) (hp : orderFine t p) (hp1 : 1 ≤ p)
    (ic : (ℕ → ℝ) → ℕ → ℝ) (e : ℕ) (he : e < m.numElems) (s : ℕ) (c : ℕ → ℝ)
    (hic : ∀ ξ η : ℝ, ic (fun d => if d < 2 then quadMap (fileCoords m e) ξ η d else 0) s =
      ∑ a ∈ range ((p + 1) * (p + 1)), c a * phi t p a ξ η)
    (b : ℕ) (hb : b < (p + 1) * (p + 1)) : quadInit t p m ic e b s = c b := by
  have hmax : max p 1 = p := max_eq_left hp1
  unfold quadInit
  simp only [hmax, hic]
  have hin : ∀ j, ∑ q ∈ range ((2 * p + 2) * (2 * p + 2)),
      glW (2 * (2 * p) + 3) (q % (2 * p + 2)) * glW (2 * (2 * p) + 3) (q / (2 * p + 2)) *
        quadDet (fileCoords m e) (glX (2 * (2 * p) + 3) (q % (2 * p + 2))) (glX (2 * (2 * p) + 3) (q / (2 * p + 2))) *
        (phi t p j (glX (2 * (2 * p) + 3) (q % (2 * p + 2))) (glX (2 * (2 * p) + 3) (q / (2 * p + 2))) *
          ∑ a ∈ range ((p + 1) * (p + 1)), c a *
            phi t p a (glX (2 * (2 * p) + 3) (q % (2 * p + 2))) (glX (2 * (2 * p) + 3) (q / (2 * p + 2))))
      = ∑ a ∈ range ((p + 1) * (p + 1)), quadMass t p (2 * p) (fileCoords m e) j a * c a := by
    intro j
    unfold quadMass
    simp only [Finset.mul_sum, Finset.sum_mul]
    rw [Finset.sum_comm]
    exact Finset.sum_congr rfl fun a _ => Finset.sum_congr rfl fun q _ => by ring
  simp only [hin]
  simp only [Finset.mul_sum]
  rw [Finset.sum_comm]
  have : ∀ a ∈ range ((p + 1) * (p + 1)), ∑ j ∈ range ((p + 1) * (p + 1)),
      quadInvMass t p (fileCoords m e) b j * (quadMass t p (2 * p) (fileCoords m e) j a * c a)
      = (if b = a then 1 else 0) * c a := by
    intro a ha
    rw [← quadInvMass_left t p hp _ (hq.det e he) b a hb (Finset.mem_range.1 ha), Finset.sum_mul]
    exact Finset.sum_congr rfl fun j _ => by ring
  rw [Finset.sum_congr rfl this]
  simp only [ite_mul, one_mul, zero_mul]
  rw [Finset.sum_ite_eq (range ((p + 1) * (p + 1))) b, if_pos (Finset.mem_range.2 hb)]

theorem quadDet_affine (X : ℕ → ℕ → ℝ) : ∃ a b c : ℝ, (∀ ξ η, quadDet X ξ η = a + b * ξ + c * η) ∧ a = quadDet X 0 0 := by
  refine ⟨quadDet X 0 0, quadDet X 1 0 - quadDet X 0 0, quadDet X 0 1 - quadDet X 0 0, fun ξ η => ?_, rfl⟩
  unfold quadDet quadXi quadEta
  ring

/-- a symmetric tensor rule integrates the determinant up to the sum of the weights -/
theorem sum_det (o : ℕ) (h : tableOK (2 * o + 3)) (X : ℕ → ℕ → ℝ) :
    ∑ q ∈ range ((o + 2) * (o + 2)), glW (2 * o + 3) (q % (o + 2)) * glW (2 * o + 3) (q / (o + 2)) *
      quadDet X (glX (2 * o + 3) (q % (o + 2))) (glX (2 * o + 3) (q / (o + 2)))
    = quadDet X 0 0 * (∑ i ∈ range (o + 2), glW (2 * o + 3) i) ^ 2 := by
  obtain ⟨a, b, c, hd, ha⟩ := quadDet_affine X
  have rule := gl_rule_odd _ h
  have hz : ∑ i ∈ range (o + 2), glW (2 * o + 3) i * glX (2 * o + 3) i = 0 := by
    have : ∑ i ∈ range (o + 2), glW (2 * o + 3) i * glX (2 * o + 3) i
        = - ∑ i ∈ range (o + 2), glW (2 * o + 3) i * glX (2 * o + 3) i := by
      conv_lhs => rw [← Finset.sum_range_reflect]
      rw [← Finset.sum_neg_distrib]
      refine Finset.sum_congr rfl fun i hi => ?_
      rw [rule.symw i (Finset.mem_range.1 hi), rule.symx i (Finset.mem_range.1 hi)]; ring
    linarith
  rw [← ha]
  set w := glW (2 * o + 3)
  set x := glX (2 * o + 3)
  calc _ = ∑ q ∈ range ((o + 2) * (o + 2)), (fun i j => w i * w j * (a + b * x i + c * x j)) (q % (o + 2)) (q / (o + 2)) :=
        Finset.sum_congr rfl fun q _ => by rw [hd]
    _ = ∑ j ∈ range (o + 2), ∑ i ∈ range (o + 2), w i * w j * (a + b * x i + c * x j) :=
        sum_div_mod (o + 2) (o + 2) fun i j => w i * w j * (a + b * x i + c * x j)
    _ = ∑ j ∈ range (o + 2), (w j * a * ∑ i ∈ range (o + 2), w i + b * w j * ∑ i ∈ range (o + 2), w i * x i
          + c * (w j * x j) * ∑ i ∈ range (o + 2), w i) := by
        refine Finset.sum_congr rfl fun j _ => ?_
        simp only [Finset.mul_sum, ← Finset.sum_add_distrib]
        exact Finset.sum_congr rfl fun i _ => by ring
    _ = _ := by
        simp only [hz, mul_zero, add_zero, Finset.sum_add_distrib, ← Finset.sum_mul, ← Finset.mul_sum]
        ring

theorem phi_zero (t : Fam) (x y : ℝ) : phi t 0 0 x y = 1 := by
  have := quadOne_phi t 0 x y
  have h1 : quadOne t 0 0 = 1 := by cases t <;> simp [quadOne, famOne]
  simpa [h1] using this

/-- sum of the weights -/
theorem weights_near (o : ℕ) (h : tableOK o) : |∑ i ∈ range (o / 2 + 1), glW o i - 2| ≤ 1 / 10 ^ 30 := by
  have := gl_exact o h (1 : ℝ[X]) (by simp)
  simp only [eval_one, mul_one, intervalIntegral.integral_const] at this
  have hc : coeffSum (1 : ℝ[X]) = 1 := by simp [coeffSum]
  rw [hc] at this
  norm_num at this ⊢
  exact this

/-- **C62** (a uniform initial condition).  The projection of a uniform state `u` is the uniform state
`κ u`; `κ = 1` for every order from 1 up, and differs from 1 by less than `10⁻²⁹` for order 0 (two
different rules are used there). -/
theorem C62_uniform_start (m : GMesh ℝ) (hq : QuadMesh m) (t : Fam) (p : ℕ) (hp : orderFine t p) :
    ∃ κ : ℝ, 0 < κ ∧ |κ - 1| ≤ 1 / 10 ^ 29 ∧ (1 ≤ p → κ = 1) ∧
      ∀ (ic : (ℕ → ℝ) → ℕ → ℝ) (u : ℕ → ℝ) (s : ℕ), (∀ x, ic x s = u s) → ∀ e < m.numElems,
        ∀ b < (p + 1) * (p + 1), quadInit t p m ic e b s = uniformCoeffs (quadOne t p) (fun v => κ * u v) e b s := by
  by_cases hp1 : 1 ≤ p
  · refine ⟨1, one_pos, by norm_num, fun _ => rfl, fun ic u s hic e he b hb => ?_⟩
    rw [C62_projection_exact m hq t p hp hp1 ic e he s (fun a => quadOne t p a * u s) ?_ b hb]
    · simp [uniformCoeffs]
    · intro ξ η
      rw [hic]
      have : ∑ a ∈ range ((p + 1) * (p + 1)), quadOne t p a * u s * phi t p a ξ η
          = (∑ a ∈ range ((p + 1) * (p + 1)), quadOne t p a * phi t p a ξ η) * u s := by
        rw [Finset.sum_mul]; exact Finset.sum_congr rfl fun a _ => by ring
      rw [this, quadOne_phi, one_mul]
  · obtain rfl : p = 0 := by omega
    have w3 := weights_near 3 (by unfold tableOK; omega)
    have w7 := weights_near 7 (by unfold tableOK; omega)
    norm_num at w3 w7
    set W3 := ∑ i ∈ range 2, glW 3 i with hW3
    set W7 := ∑ i ∈ range 4, glW 7 i with hW7
    rw [abs_le] at w3 w7
    have h3 : 0 < W3 := by linarith [w3.1]
    have h7 : 0 < W7 := by linarith [w7.1]
    refine ⟨(W7 / W3) ^ 2, by positivity, ?_, fun h => absurd h hp1, fun ic u s hic e he b hb => ?_⟩
    · have hr : |W7 / W3 - 1| ≤ 2 / 10 ^ 30 := by
        rw [div_sub_one h3.ne', abs_div, abs_of_pos h3, div_le_iff₀ h3, abs_le]
        constructor <;> nlinarith [w3.1, w3.2, w7.1, w7.2]
      rw [abs_le] at hr ⊢
      constructor <;> nlinarith [hr.1, hr.2]
    · obtain rfl : b = 0 := by omega
      have hd : 0 < quadDet (fileCoords m e) 0 0 := hq.det e he 0 0 (by norm_num) (by norm_num) (by norm_num) (by norm_num)
      have hinv := quadInvMass_left t 0 hp _ (hq.det e he) 0 0 (by omega) (by omega)
      have hmass : quadMass t 0 (2 * 0) (fileCoords m e) 0 0 = quadDet (fileCoords m e) 0 0 * W3 ^ 2 := by
        have := sum_det 0 (by unfold tableOK; omega) (fileCoords m e)
        unfold quadMass
        simp only [phi_zero, mul_one]
        exact this
      simp only [Nat.reduceAdd, Nat.reduceMul, Finset.sum_range_one, if_true] at hinv
      rw [hmass] at hinv
      unfold quadInit uniformCoeffs
      have hone : quadOne t 0 0 = 1 := by cases t <;> simp [quadOne, famOne]
      simp only [phi_zero, hic, hone, one_mul]
      simp only [Nat.reduceAdd, Nat.reduceMul, Finset.sum_range_one]
      have h7s := sum_det 2 (by unfold tableOK; omega) (fileCoords m e)
      simp only [Nat.reduceAdd, Nat.reduceMul] at h7s
      norm_num
      simp only [phi_zero, one_mul]
      rw [← Finset.sum_mul, h7s]
      have : quadInvMass t 0 (fileCoords m e) 0 0 = 1 / (quadDet (fileCoords m e) 0 0 * W3 ^ 2) := by
        rw [eq_div_iff (by positivity)]; exact hinv
      rw [this]
      field_simp
      rw [← hW7]; ring

/-! ### the run -/

theorem admissible_smul {dim : ℕ} {γ κ : ℝ} (hκ : 0 < κ) {U : ℕ → ℝ} (h : Admissible dim γ U) :
    Admissible dim γ (fun v => κ * U v) := by
  have hv : vel (fun v => κ * U v) = vel U := by
    funext i; unfold vel; exact mul_div_mul_left _ _ hκ.ne'
  refine ⟨mul_pos hκ h.ρ_pos, ?_⟩
  have := mul_pos hκ h.p_pos
  unfold pressure internalEnergy at this ⊢
  rw [hv]
  linarith [this]

/-- No element has a boundary side (for example a periodic mesh). -/
def NoBoundary (m : GMesh ℝ) : Prop := ∀ e < m.numElems, ∀ k < 4, ¬ IsBoundarySide m e k

theorem boundaryFlux_zero {m : GMesh ℝ} (h : NoBoundary m) (t : Fam) (p : ℕ) (γ : ℝ) (u : ℕ → ℝ) (e b s : ℕ)
    (he : e < m.numElems) : boundaryFlux t p γ m u e b s = 0 := by
  unfold boundaryFlux
  exact Finset.sum_eq_zero fun k hk => if_neg (h e he k (Finset.mem_range.1 hk))

theorem metricIdentity_zero {m : GMesh ℝ} (hq : QuadMesh m) (hnb : NoBoundary m) (t : Fam) (ns : ℕ)
    (vf : (ℕ → ℝ) → ℕ → ℝ) (nf : (ℕ → ℝ) → (ℕ → ℝ) → (ℕ → ℝ) → ℕ → ℝ) (e : ℕ) (he : e < m.numElems) :
    MetricIdentity (quadDisc t 0 ns vf nf) m (quadGeom t 0 m) e := by
  intro b hb j hj
  rw [metric_exact_zero t ns vf nf m e (hq.det e he) b j hb hj,
    faceMetric_sum hq t 0 ns (by unfold tableOK; omega) vf nf e b j hj]
  refine Finset.sum_congr rfl fun k hk => ?_
  rw [if_pos]
  by_contra h
  exact hnb e he k (Finset.mem_range.1 hk) ((boundary_iff m e k).2 h)

theorem iterate_congr_in {m : GMesh ℝ} (hm : MeshOK m) {d : Disc ℝ} {G : Geom ℝ} {U V : Coeffs ℝ}
    (h : AgreeIn d m.numElems U V) (st : Stepper) (dt : ℝ) (n : ℕ) :
    AgreeIn d m.numElems ((stepOf st dt (globalRHS d m G))^[n] U) ((stepOf st dt (globalRHS d m G))^[n] V) := by
  induction n with
  | zero => exact h
  | succ n ih =>
    rw [Function.iterate_succ_apply', Function.iterate_succ_apply']
    refine stepOf_agree st dt _ _ (fun U V hUV => ?_) _ _ ih
    intro e he b _ s _
    unfold globalRHS
    exact Finset.sum_congr rfl fun j _ => by rw [globalResidual_congr hm hUV he]

/-- **C62** (order 0 keeps a uniform flow).  The whole program with the first-order scheme, Euler physics,
either numerical flux and either time stepper, started from the initial condition "Uniform" with an
admissible state on a mesh without boundary sides: at the end of every run, on any number of ranks and
under any interleaving, every rank holds exactly the coefficients it started with, and these are the
numbers of the input file up to the accuracy of the tables. -/
theorem C62_order_zero_keeps_uniform_flow (m : GMesh ℝ) (nranks : ℕ) (part : List ℕ) (rms : ℕ → RankMesh ℝ)
    (w : World m nranks part rms) (hq : QuadMesh m) (hs : SidesNonzero m) (hnb : NoBoundary m) (t : Fam)
    (ph : Physics) (hE : ph.ptype = .Euler) (hγ : 1 < ph.γ) (hic : ph.ic = .Uniform)
    (hlen : 4 ≤ ph.icData.length) (hadm : Admissible 2 ph.γ (fun v => ph.icData.getD v 0))
    (junkV junkI : (ℕ → ℝ) → ℕ → ℝ)
    (junkN : (ℕ → ℝ) → (ℕ → ℝ) → (ℕ → ℝ) → (ℕ → ℝ) × (ℕ → ℝ))
    (d : Disc ℝ) (g : ℕ → Geom ℝ) (u : ℕ → Coeffs ℝ)
    (hr : RanksReady t 0 4 (solverVolFlux 2 ph junkV) (solverNumFlux 2 ph junkN) (solverIC 2 ph junkI)
      nranks rms d g u) (st : Stepper) (dt : ℝ)
    (sched : ℕ → ℕ → List (FluxWrite ℝ) → List (FluxWrite ℝ))
    (hsched : ∀ r k l, (sched r k l).Perm l) (nsteps k : ℕ)
    (c : Proto.Conf (FaceArr (ℕ → ℕ → ℝ) × Option (RankState ℝ)) (List (ℕ → ℕ → ℝ)))
    (hx : Proto.Exec (solverProg d g rms nranks dt st sched nsteps)
      (Proto.init (solverStart d rms st u)) c k)
    (hfin : ∀ r < nranks, (c.proc r).round = stagesOf st * nsteps) :
    ∀ r < nranks, ∃ s, (c.proc r).st.2 = some s ∧ ∀ i < (rms r).numElemsPart, ∀ v < 4,
      s.Uc i 0 v = u r i 0 v ∧ |u r i 0 v - ph.icData.getD v 0| ≤ 1 / 10 ^ 29 * |ph.icData.getD v 0| := by
  intro r hlt
  have hp : orderFine t 0 := ⟨by omega, by cases t <;> simp [famOK]⟩
  obtain ⟨κ, hκ, hκ1, -, hinit⟩ := C62_uniform_start m hq t 0 hp
  obtain ⟨s, s1, -, s3⟩ := C61_run_is_textbook m nranks part rms w hq t 0 4 hp _ _ _ d g u hr st dt sched hsched
    nsteps k c hx r hlt nsteps (hfin r hlt)
  refine ⟨s, s1, ?_⟩
  intro i hi v hv
  have hlt' : i < (rms r).l2gElem.length := by rw [← w.numElems hlt]; exact hi
  have hget := List.getElem?_eq_getElem hlt'
  set e := (rms r).l2gElem[i] with hedef
  have he : e < m.numElems := w.elem_lt hlt hget
  have hu0 := hr.initQ w hq hp r hlt i e hget 0 (by show 0 < 1; omega) v hv
  have hicv : ∀ v < 4, ∀ x, solverIC 2 ph junkI x v = ph.icData.getD v 0 := by
    intro v hv x
    unfold solverIC callIC
    simp [hic, setUniform, hlen, hv]
  have hstart : AgreeIn (quadDisc t 0 4 (solverVolFlux 2 ph junkV) (solverNumFlux 2 ph junkN)) m.numElems
      (quadInit t 0 m (solverIC 2 ph junkI))
      (uniformCoeffs (quadOne t 0) (fun v => κ * ph.icData.getD v 0)) := by
    intro e he b hb v hv
    exact hinit _ (fun v => ph.icData.getD v 0) v (hicv v hv) e he b hb
  obtain ⟨hvol, hface⟩ := quad_hvol t 0 4 (solverVolFlux 2 ph junkV) (solverNumFlux 2 ph junkN)
  have hfix := C39_uniform_state_is_fixed m w.mesh _ 2 (hq.conforming t 0 4 _ _) (quadDisc_order t 0 4 _ _)
    (quadOne t 0) hvol hface (quadGeom t 0 m) (normals_nonzero w.mesh hq hs t 0 4 _ _)
    (fun v => κ * ph.icData.getD v 0)
    (consistent_euler t 0 ph hE hγ junkV junkN _ (admissible_smul hκ hadm))
    (fun e he => metricIdentity_zero hq hnb t 4 _ _ e he) st dt nsteps
  have hcong := iterate_congr_in (G := quadGeom t 0 m) w.mesh hstart st dt nsteps
  have h0 : quadOne t 0 0 = 1 := by cases t <;> simp [quadOne, famOne]
  have hval : u r i 0 v = κ * ph.icData.getD v 0 := by
    rw [hu0, hstart e he 0 (by show 0 < 1; omega) v hv]
    simp [uniformCoeffs, h0]
  refine ⟨?_, ?_⟩
  · rw [s3 i e hget 0 (by omega) v hv, hcong e he 0 (by show 0 < 1; omega) v hv,
      hfix e he 0 (by show 0 < 1; omega) v hv, hval]
    simp [uniformCoeffs, h0]
  · rw [hval, show κ * ph.icData.getD v 0 - ph.icData.getD v 0 = (κ - 1) * ph.icData.getD v 0 by ring, abs_mul]
    exact mul_le_mul_of_nonneg_right hκ1 (abs_nonneg _)

/-- **C62** (higher orders).  The same program with any order from 1 up and the forward Euler stepper: the
initial coefficients are exactly those of the uniform state, and the first step changes a coefficient of
an element whose sides have extents at most `h` by no more than the time step times the inverse mass
matrix times the accuracy of the quadrature tables. -/
theorem C62_first_step_deviation (m : GMesh ℝ) (nranks : ℕ) (part : List ℕ) (rms : ℕ → RankMesh ℝ)
    (w : World m nranks part rms) (hq : QuadMesh m) (hs : SidesNonzero m) (hnb : NoBoundary m) (t : Fam)
    (p : ℕ) (hp : orderFine t p) (hp1 : 1 ≤ p)
    (ph : Physics) (hE : ph.ptype = .Euler) (hγ : 1 < ph.γ) (hic : ph.ic = .Uniform)
    (hlen : 4 ≤ ph.icData.length) (hadm : Admissible 2 ph.γ (fun v => ph.icData.getD v 0))
    (junkV junkI : (ℕ → ℝ) → ℕ → ℝ)
    (junkN : (ℕ → ℝ) → (ℕ → ℝ) → (ℕ → ℝ) → (ℕ → ℝ) × (ℕ → ℝ))
    (d : Disc ℝ) (g : ℕ → Geom ℝ) (u : ℕ → Coeffs ℝ)
    (hr : RanksReady t p 4 (solverVolFlux 2 ph junkV) (solverNumFlux 2 ph junkN) (solverIC 2 ph junkI)
      nranks rms d g u) (dt : ℝ)
    (sched : ℕ → ℕ → List (FluxWrite ℝ) → List (FluxWrite ℝ))
    (hsched : ∀ r k l, (sched r k l).Perm l) (nsteps k : ℕ)
    (c : Proto.Conf (FaceArr (ℕ → ℕ → ℝ) × Option (RankState ℝ)) (List (ℕ → ℕ → ℝ)))
    (hx : Proto.Exec (solverProg d g rms nranks dt .FE sched nsteps)
      (Proto.init (solverStart d rms .FE u)) c k) (r : ℕ) (hlt : r < nranks)
    (h1 : (c.proc r).round = stagesOf .FE) :
    ∃ s, (c.proc r).st.2 = some s ∧ ∀ i e : ℕ, (rms r).l2gElem[i]? = some e → ∀ h : ℝ,
      (∀ k < 4, ∀ d < 2, |fileCoords m e (sideTo k) d - fileCoords m e (sideFrom k) d| ≤ h) →
      ∀ b < (p + 1) * (p + 1), ∀ v < 4,
        u r i b v = quadOne t p b * ph.icData.getD v 0 ∧
        |s.Uc i b v - u r i b v| ≤ |dt| * ∑ j ∈ range ((p + 1) * (p + 1)),
          |quadInvMass t p (fileCoords m e) b j| * (metricTol t p j * h *
            (|eulerFlux 2 ph.γ (fun v => ph.icData.getD v 0) (axis 0) v| +
             |eulerFlux 2 ph.γ (fun v => ph.icData.getD v 0) (axis 1) v|)) := by
  obtain ⟨κ, -, -, hκ, hinit⟩ := C62_uniform_start m hq t p hp
  obtain rfl := hκ hp1
  obtain ⟨s, s1, -, s3⟩ := C61_run_is_textbook m nranks part rms w hq t p 4 hp _ _ _ d g u hr .FE dt sched hsched
    nsteps k c hx r hlt 1 (by rw [h1, mul_one])
  refine ⟨s, s1, ?_⟩
  intro i e hget h hh b hb v hv
  have he : e < m.numElems := w.elem_lt hlt hget
  have hicv : ∀ v < 4, ∀ x, solverIC 2 ph junkI x v = ph.icData.getD v 0 := by
    intro v hv x
    unfold solverIC callIC
    simp [hic, setUniform, hlen, hv]
  have hstart : AgreeIn (quadDisc t p 4 (solverVolFlux 2 ph junkV) (solverNumFlux 2 ph junkN)) m.numElems
      (quadInit t p m (solverIC 2 ph junkI)) (uniformCoeffs (quadOne t p) (fun v => ph.icData.getD v 0)) := by
    intro e he b hb v hv
    have := hinit _ (fun v => ph.icData.getD v 0) v (hicv v hv) e he b hb
    simpa only [one_mul] using this
  have hu0 := hr.initQ w hq hp r hlt i e hget b hb v hv
  have hval : u r i b v = quadOne t p b * ph.icData.getD v 0 := by
    rw [hu0, hstart e he b hb v hv]; rfl
  refine ⟨hval, ?_⟩
  have hcong := iterate_congr_in (G := quadGeom t p m) w.mesh hstart .FE dt 1 e he b hb v hv
  rw [s3 i e hget b hb v hv, hcong, hval]
  simp only [Function.iterate_one, stepOf, eulerStep]
  show |quadOne t p b * ph.icData.getD v 0 + dt * _ - quadOne t p b * ph.icData.getD v 0| ≤ _
  rw [add_sub_cancel_left, abs_mul]
  refine mul_le_mul_of_nonneg_left ?_ (abs_nonneg _)
  unfold globalRHS
  refine (Finset.abs_sum_le_sum_abs _ _).trans (Finset.sum_le_sum fun j hj => ?_)
  rw [abs_mul]
  refine mul_le_mul_of_nonneg_left ?_ (abs_nonneg _)
  have := C62_uniform_residual m w.mesh hq hs t p hp.1 ph hE hγ junkV junkN _ hadm e he h hh j v
    (Finset.mem_range.1 hj) hv
  rw [boundaryFlux_zero hnb t p ph.γ _ e j v he, sub_zero] at this
  exact this

end DG
