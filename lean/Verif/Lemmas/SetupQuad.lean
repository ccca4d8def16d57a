import Verif.Spec.QuadDG
import Verif.Lemmas.DiscAgree
import Verif.Props.Conform

/-! The setup on bilinear quadrilaterals produces the textbook discretisation. -/
namespace DG
open Finset Polynomial

theorem tables_fine (p : ℕ) (hp : p ≤ 11) :
    tableOK (2 * p + 1) ∧ tableOK (2 * p + 3) ∧ tableOK (2 * (2 * p) + 3) ∧ tableOK (2 * (2 * max p 1) + 3) := by
  unfold tableOK; omega

/-- orders the program supports for a basis family: the rules exist up to order 11, Legendre
polynomials are coded up to order 7 -/
def orderFine (t : Fam) (p : ℕ) : Prop := p ≤ 11 ∧ famOK t p

/-! ### the geometric basis -/

theorem geo_zero (x : ℝ) : (famPoly .lagrange 1 0).eval x = (1 - x) / 2 := ell_one_zero x
theorem geo_one (x : ℝ) : (famPoly .lagrange 1 1).eval x = (1 + x) / 2 := ell_one_one x

theorem geo_dzero (x : ℝ) : (derivative (famPoly .lagrange 1 0)).eval x = - (1 / 2) := by
  have : famPoly .lagrange 1 0 = C (1 / 2) - C (1 / 2) * X :=
    Polynomial.funext fun y => by rw [geo_zero]; simp; ring
  rw [this]; simp

theorem geo_done (x : ℝ) : (derivative (famPoly .lagrange 1 1)).eval x = 1 / 2 := by
  have : famPoly .lagrange 1 1 = C (1 / 2) + C (1 / 2) * X :=
    Polynomial.funext fun y => by rw [geo_one]; simp; ring
  rw [this]; simp

/-- what the volume tables of a first-order geometry contain at points `(x q, y q)` -/
structure GeoTable (n : ℕ) (x y : ℕ → ℝ) (ref : RefData ℝ) : Prop where
  gval : ∀ q < n, ∀ b < 4, get0 (ref.gval q) b =
    (famPoly .lagrange 1 (b % 2)).eval (x q) * (famPoly .lagrange 1 (b / 2)).eval (y q)
  gx : ∀ q < n, ∀ b < 4, ref.ggrad q b 0 =
    (derivative (famPoly .lagrange 1 (b % 2))).eval (x q) * (famPoly .lagrange 1 (b / 2)).eval (y q)
  gy : ∀ q < n, ∀ b < 4, ref.ggrad q b 1 =
    (famPoly .lagrange 1 (b % 2)).eval (x q) * (derivative (famPoly .lagrange 1 (b / 2))).eval (y q)

theorem jac_entries {n : ℕ} {x y : ℕ → ℝ} {ref : RefData ℝ} (h : GeoTable n x y ref) (X : ℕ → ℕ → ℝ)
    (q : ℕ) (hq : q < n) (d : ℕ) :
    ∑ k ∈ range 4, X k d * ref.ggrad q k 0 = quadXi X (y q) d ∧
    ∑ k ∈ range 4, X k d * ref.ggrad q k 1 = quadEta X (x q) d := by
  constructor
  · simp only [Finset.sum_range_succ, Finset.sum_range_zero]
    rw [h.gx q hq 0 (by omega), h.gx q hq 1 (by omega), h.gx q hq 2 (by omega), h.gx q hq 3 (by omega)]
    norm_num [geo_zero, geo_one, geo_dzero, geo_done, quadXi]
    ring
  · simp only [Finset.sum_range_succ, Finset.sum_range_zero]
    rw [h.gy q hq 0 (by omega), h.gy q hq 1 (by omega), h.gy q hq 2 (by omega), h.gy q hq 3 (by omega)]
    norm_num [geo_zero, geo_one, geo_dzero, geo_done, quadEta]
    ring

theorem setupDjac_quad {n : ℕ} {x y : ℕ → ℝ} {ref : RefData ℝ} (h : GeoTable n x y ref) (X : ℕ → ℕ → ℝ)
    (q : ℕ) (hq : q < n) : setupDjac 2 4 ref X q = quadDet X (x q) (y q) := by
  unfold setupDjac elementJacobian
  simp only [detTo]
  rw [cATxB_entry _ _ _ _ _ _ _ _ (by omega) (by omega), cATxB_entry _ _ _ _ _ _ _ _ (by omega) (by omega),
    cATxB_entry _ _ _ _ _ _ _ _ (by omega) (by omega), cATxB_entry _ _ _ _ _ _ _ _ (by omega) (by omega)]
  rw [(jac_entries h X q hq 0).1, (jac_entries h X q hq 1).1, (jac_entries h X q hq 0).2,
    (jac_entries h X q hq 1).2]
  rfl

theorem setupIjac_quad {n : ℕ} {x y : ℕ → ℝ} {ref : RefData ℝ} (h : GeoTable n x y ref) (X : ℕ → ℕ → ℝ)
    (q : ℕ) (hq : q < n) (i j : ℕ) (hi : i < 2) (hj : j < 2) :
    setupIjac 2 4 ref X q i j = quadInvJac X (x q) (y q) i j := by
  have e1 : ∀ d < 2, cATxB_to_C 1 2 2 4 X (ref.ggrad q) (fun _ _ => 0) d 0 = quadXi X (y q) d := fun d hd => by
    rw [cATxB_entry _ _ _ _ _ _ _ _ hd (by omega)]
    exact (jac_entries h X q hq d).1
  have e2 : ∀ d < 2, cATxB_to_C 1 2 2 4 X (ref.ggrad q) (fun _ _ => 0) d 1 = quadEta X (x q) d := fun d hd => by
    rw [cATxB_entry _ _ _ _ _ _ _ _ hd (by omega)]
    exact (jac_entries h X q hq d).2
  have hI : i = 0 ∨ i = 1 := by omega
  have hJ : j = 0 ∨ j = 1 := by omega
  unfold setupIjac elementJacobian
  rcases hI with rfl | rfl <;> rcases hJ with rfl | rfl <;>
    simp only [invA, e1 0 (by omega), e1 1 (by omega), e2 0 (by omega), e2 1 (by omega), quadInvJac, quadDet] <;>
    simp

theorem refToPhys_quad {n : ℕ} {x y : ℕ → ℝ} {ref : RefData ℝ} (h : GeoTable n x y ref) (X : ℕ → ℕ → ℝ)
    (q : ℕ) (hq : q < n) (d : ℕ) (hd : d < 2) :
    refToPhys 2 4 (ref.gval q) X d = quadMap X (x q) (y q) d := by
  rw [refToPhys_eq _ _ _ _ _ hd]
  simp only [Finset.sum_range_succ, Finset.sum_range_zero]
  rw [h.gval q hq 0 (by omega), h.gval q hq 1 (by omega), h.gval q hq 2 (by omega), h.gval q hq 3 (by omega)]
  norm_num [geo_zero, geo_one, quadMap]
  ring

/-- setup of one rule in the notation of the specification -/
theorem volRef_spec (t : Fam) (p o : ℕ) (hp : famOK t p) (ho : tableOK (2 * o + 3)) :
    ∃ ref, volRef (K := ℝ) (quadType t) .LagrangeQuad p 1 o = some ref ∧ ref.nq = (o + 2) * (o + 2) ∧
      GeoTable ((o + 2) * (o + 2)) (fun q => glX (2 * o + 3) (q % (o + 2))) (fun q => glX (2 * o + 3) (q / (o + 2))) ref ∧
      ∀ q < (o + 2) * (o + 2),
        ref.wts q = glW (2 * o + 3) (q % (o + 2)) * glW (2 * o + 3) (q / (o + 2)) ∧
        ∀ b < (p + 1) * (p + 1),
          ref.val q b = phi t p b (glX (2 * o + 3) (q % (o + 2))) (glX (2 * o + 3) (q / (o + 2))) ∧
          ∀ i < 2, ref.grad q b i = dphi t p b i (glX (2 * o + 3) (q % (o + 2))) (glX (2 * o + 3) (q / (o + 2))) := by
  obtain ⟨ref, h1, h2, h3⟩ := volRef_quad t p 1 o hp ho
  refine ⟨ref, h1, h2, ⟨fun q hq b hb => ?_, fun q hq b hb => ?_, fun q hq b hb => ?_⟩, fun q hq => ⟨(h3 q hq).1, fun b hb => ?_⟩⟩
  · exact ((h3 q hq).2.2 b hb).1
  · exact ((h3 q hq).2.2 b hb).2.1
  · exact ((h3 q hq).2.2 b hb).2.2
  · obtain ⟨a1, a2, a3⟩ := (h3 q hq).2.1 b hb
    refine ⟨a1, fun i hi => ?_⟩
    have hI : i = 0 ∨ i = 1 := by omega
    rcases hI with rfl | rfl
    · rw [a2]; rfl
    · rw [a3]; rfl

theorem sidePoint_eq (f : ℕ) (hf : f < 4) (s : ℝ) : quadPt f 0 s = sidePoint f s := by
  have hF : f = 0 ∨ f = 1 ∨ f = 2 ∨ f = 3 := by omega
  rcases hF with rfl | rfl | rfl | rfl
  · rw [quadPt_0_0]; rfl
  · rw [quadPt_1_0]; rfl
  · rw [quadPt_2_0]; rfl
  · rw [quadPt_3_0]; rfl

/-! ### the discretisation -/

theorem buildDisc_quad (t : Fam) (p ns : ℕ) (hp : orderFine t p) (vf : (ℕ → ℝ) → ℕ → ℝ)
    (nf : (ℕ → ℝ) → (ℕ → ℝ) → (ℕ → ℝ) → ℕ → ℝ) :
    ∃ d, buildDisc (quadType t) .LagrangeQuad p 1 ns vf nf = some d ∧
      DiscAgree 2 d (quadDisc t p ns vf nf) := by
  obtain ⟨t1, t2, -, -⟩ := tables_fine p hp.1
  have es : basisShape (quadType t) = some (.Quadrilateral, some .Segment) := by cases t <;> rfl
  have en : ∀ p, shapeNumBasis .Quadrilateral p = some ((p + 1) * (p + 1)) := fun _ => rfl
  obtain ⟨ref, r1, r2, -, r4⟩ := volRef_spec t p p hp.2 t2
  obtain ⟨fr, f1, f2, f3, f4, f5⟩ := faceRef_quad t p hp.2 t1
  unfold buildDisc
  rw [es]
  simp only [Option.bind_eq_bind, Option.bind_some, en, r1, f1]
  refine ⟨_, rfl, ⟨rfl, rfl, rfl, r2, rfl, f2, ?_, ?_, ?_, ?_, ?_, ?_, rfl, rfl⟩⟩
  · intro q hq b hb
    simp only [r2] at hq
    exact ((r4 q hq).2 b hb).1
  · intro q hq b hb i hi
    simp only [r2] at hq
    exact ((r4 q hq).2 b hb).2 i hi
  · intro q hq
    simp only [r2] at hq
    exact (r4 q hq).1
  · intro f hf j hj b hb
    simp only [f2] at hj
    have := f5 f hf j hj b hb
    rw [sidePoint_eq f hf] at this
    exact this
  · intro j hj
    simp only [f2] at hj
    exact f4 j hj
  · intro o ho i hi
    simp only [f2] at hi
    simp only [facePtsOrder, f2]
    rw [ptsOrderQuad_closed _ _ ho _ (by simp)]
    have hO : o = 0 ∨ o = 1 := by omega
    rcases hO with rfl | rfl <;> simp [hi, quadDisc]

theorem quadDisc_order (t : Fam) (p ns : ℕ) (vf : (ℕ → ℝ) → ℕ → ℝ)
    (nf : (ℕ → ℝ) → (ℕ → ℝ) → (ℕ → ℝ) → ℕ → ℝ) : OrderOK (quadDisc t p ns vf nf) 2 := by
  intro o ho
  have hO : o = 0 ∨ o = 1 := by omega
  rcases hO with rfl | rfl <;> simp [quadDisc] <;> omega

theorem QuadMesh.conforming {m : GMesh ℝ} (h : QuadMesh m) (t : Fam) (p ns : ℕ) (vf : (ℕ → ℝ) → ℕ → ℝ)
    (nf : (ℕ → ℝ) → (ℕ → ℝ) → (ℕ → ℝ) → ℕ → ℝ) : Conforming (quadDisc t p ns vf nf) 2 m :=
  ⟨h.faceL, h.faceR, h.sides⟩

end DG
