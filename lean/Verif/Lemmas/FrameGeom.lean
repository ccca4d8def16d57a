import Verif.Lemmas.FrameScheme

/-! Quadrilaterals and hexahedra in another frame. -/
namespace DG
open Finset

/-! ### two dimensions -/

theorem Frame.turn2 (F : Frame 2) (x : ℕ → ℝ) {d : ℕ} (h : d < 2) : F.turn x d = F.Q d 0 * x 0 + F.Q d 1 * x 1 := by
  rw [F.turn_eq h, sum_range_succ, sum_range_succ, sum_range_zero, zero_add]

theorem Frame.rot2 (F : Frame 2) : F.Q 1 1 = F.Q 0 0 ∧ F.Q 1 0 = - F.Q 0 1 ∧ F.Q 0 0 ^ 2 + F.Q 0 1 ^ 2 = 1 := by
  have h00 := F.orth 0 (by norm_num) 0 (by norm_num)
  have h11 := F.orth 1 (by norm_num) 1 (by norm_num)
  have hd := F.rot
  rw [Matrix.det_fin_two] at hd
  simp only [sum_range_succ, sum_range_zero, zero_add, if_true, Matrix.of_apply, Fin.val_zero, Fin.val_one] at h00 h11 hd
  have h : (F.Q 1 1 - F.Q 0 0) ^ 2 + (F.Q 1 0 + F.Q 0 1) ^ 2 = 0 := by linear_combination h00 + h11 - 2 * hd
  have h1 : F.Q 1 1 - F.Q 0 0 = 0 := by nlinarith [sq_nonneg (F.Q 1 1 - F.Q 0 0), sq_nonneg (F.Q 1 0 + F.Q 0 1)]
  have h2 : F.Q 1 0 + F.Q 0 1 = 0 := by nlinarith [sq_nonneg (F.Q 1 1 - F.Q 0 0), sq_nonneg (F.Q 1 0 + F.Q 0 1)]
  have e1 : F.Q 1 1 = F.Q 0 0 := by linarith
  have e2 : F.Q 1 0 = - F.Q 0 1 := by linarith
  refine ⟨e1, e2, ?_⟩
  rw [e1, e2] at hd
  linarith

/-- corners in the new frame -/
def CornersQ (F : Frame 2) (X X' : ℕ → ℕ → ℝ) : Prop := ∀ i < 4, ∀ d < 2, X' i d = F.point (X i) d

section quad
variable {F : Frame 2} {X X' : ℕ → ℕ → ℝ} (h : CornersQ F X X')
include h

theorem quadXi_frame (η : ℝ) {d : ℕ} (hd : d < 2) : quadXi X' η d = F.len * F.turn (quadXi X η) d := by
  unfold quadXi
  rw [h 0 (by norm_num) d hd, h 1 (by norm_num) d hd, h 2 (by norm_num) d hd, h 3 (by norm_num) d hd]
  unfold Frame.point
  simp only [F.turn2 _ hd]
  ring

theorem quadEta_frame (ξ : ℝ) {d : ℕ} (hd : d < 2) : quadEta X' ξ d = F.len * F.turn (quadEta X ξ) d := by
  unfold quadEta
  rw [h 0 (by norm_num) d hd, h 1 (by norm_num) d hd, h 2 (by norm_num) d hd, h 3 (by norm_num) d hd]
  unfold Frame.point
  simp only [F.turn2 _ hd]
  ring

theorem quadMap_frame (ξ η : ℝ) {d : ℕ} (hd : d < 2) : quadMap X' ξ η d = F.point (quadMap X ξ η) d := by
  unfold quadMap
  rw [h 0 (by norm_num) d hd, h 1 (by norm_num) d hd, h 2 (by norm_num) d hd, h 3 (by norm_num) d hd]
  unfold Frame.point
  simp only [F.turn2 _ hd]
  ring

theorem quadDet_frame (ξ η : ℝ) : quadDet X' ξ η = F.len ^ 2 * quadDet X ξ η := by
  unfold quadDet
  rw [quadXi_frame h _ (by norm_num), quadXi_frame h _ (by norm_num), quadEta_frame h _ (by norm_num),
    quadEta_frame h _ (by norm_num)]
  simp only [F.turn2 _ (show 0 < 2 by norm_num), F.turn2 _ (show 1 < 2 by norm_num)]
  obtain ⟨e1, e2, e3⟩ := F.rot2
  rw [e1, e2]
  linear_combination (F.len ^ 2 * (quadXi X η 0 * quadEta X ξ 1 - quadEta X ξ 0 * quadXi X η 1)) * e3

theorem quadInvJac_frame (ξ η : ℝ) {i j : ℕ} (hi : i < 2) (hj : j < 2) :
    quadInvJac X' ξ η i j = F.len⁻¹ * F.turn (quadInvJac X ξ η i) j := by
  have hl := F.len_pos.ne'
  unfold quadInvJac
  rw [quadDet_frame h, quadXi_frame h _ (show 0 < 2 by norm_num), quadXi_frame h _ (show 1 < 2 by norm_num),
    quadEta_frame h _ (show 0 < 2 by norm_num), quadEta_frame h _ (show 1 < 2 by norm_num)]
  simp only [F.turn2 _ (show 0 < 2 by norm_num), F.turn2 _ (show 1 < 2 by norm_num), F.turn2 _ hj]
  obtain ⟨e1, e2, e3⟩ := F.rot2
  have hI : i = 0 ∨ i = 1 := by omega
  have hJ : j = 0 ∨ j = 1 := by omega
  generalize quadDet X ξ η = D
  have key : ∀ a : ℝ, F.len * a / (F.len ^ 2 * D) = F.len⁻¹ * (a / D) := by
    intro a
    rw [show F.len ^ 2 * D = F.len * (F.len * D) by ring, mul_div_mul_left _ _ hl, div_mul_eq_div_div, inv_eq_one_div]
    ring
  rcases hI with rfl | rfl <;> rcases hJ with rfl | rfl <;>
    simp only [if_true, one_ne_zero, if_false, e1, e2, neg_mul_eq_mul_neg, key] <;> ring

theorem sideNormal_frame {f : ℕ} (hf : f < 4) {j : ℕ} (hj : j < 2) :
    sideNormal X' f j = F.len * F.turn (sideNormal X f) j := by
  obtain ⟨e1, e2, e3⟩ := F.rot2
  have hF : f = 0 ∨ f = 1 ∨ f = 2 ∨ f = 3 := by omega
  have hJ : j = 0 ∨ j = 1 := by omega
  rw [F.turn2 _ hj]
  have hp : ∀ i < 4, ∀ d < 2, X' i d = F.len * (F.Q d 0 * X i 0 + F.Q d 1 * X i 1) + F.shift d := by
    intro i hi d hd
    rw [h i hi d hd]; unfold Frame.point; rw [F.turn2 _ hd]
  rcases hF with rfl | rfl | rfl | rfl <;> rcases hJ with rfl | rfl <;>
    simp only [sideNormal, sideTo, sideFrom, if_true, one_ne_zero, if_false, OfNat.ofNat_ne_zero, OfNat.ofNat_ne_one,
      Nat.reduceEqDiff, hp 0 (by norm_num) 0 (by norm_num), hp 1 (by norm_num) 0 (by norm_num),
      hp 2 (by norm_num) 0 (by norm_num), hp 3 (by norm_num) 0 (by norm_num),
      hp 0 (by norm_num) 1 (by norm_num), hp 1 (by norm_num) 1 (by norm_num),
      hp 2 (by norm_num) 1 (by norm_num), hp 3 (by norm_num) 1 (by norm_num), e1, e2] <;> ring

theorem quadMass_frame (t : Fam) (p o a b : ℕ) : quadMass t p o X' a b = F.len ^ 2 * quadMass t p o X a b := by
  unfold quadMass
  rw [mul_sum]
  refine sum_congr rfl fun q _ => ?_
  rw [quadDet_frame h]; ring

end quad

/-- inverse of a scaled matrix -/
theorem inv_scaled {n : ℕ} (A : Matrix (Fin n) (Fin n) ℝ) {c : ℝ} (hc : c ≠ 0) : (c • A)⁻¹ = c⁻¹ • A⁻¹ := by
  by_cases hA : IsUnit A.det
  · have := Matrix.inv_smul' A (Units.mk0 c hc) hA
    rw [Units.smul_def] at this
    simpa [Units.smul_def] using this
  · rw [Matrix.nonsing_inv_apply_not_isUnit A hA, smul_zero]
    apply Matrix.nonsing_inv_apply_not_isUnit
    rw [Matrix.det_smul]
    intro hu
    exact hA (isUnit_of_mul_isUnit_right hu)

theorem quadInvMass_frame {F : Frame 2} {X X' : ℕ → ℕ → ℝ} (h : CornersQ F X X') (t : Fam) (p i j : ℕ) :
    quadInvMass t p X' i j = (F.len ^ 2)⁻¹ * quadInvMass t p X i j := by
  unfold quadInvMass
  split_ifs with hij
  · have : (Matrix.of fun a b : Fin ((p + 1) * (p + 1)) => quadMass t p (2 * p) X' a b) =
        F.len ^ 2 • (Matrix.of fun a b : Fin ((p + 1) * (p + 1)) => quadMass t p (2 * p) X a b) := by
      ext a b
      simp only [Matrix.of_apply, Matrix.smul_apply, smul_eq_mul]
      exact quadMass_frame h t p (2 * p) a b
    rw [this, inv_scaled _ (pow_ne_zero _ F.len_pos.ne')]
    rfl
  · ring

/-! ### three dimensions -/

theorem Frame.turn3 (F : Frame 3) (x : ℕ → ℝ) {d : ℕ} (h : d < 3) :
    F.turn x d = F.Q d 0 * x 0 + F.Q d 1 * x 1 + F.Q d 2 * x 2 := by
  rw [F.turn_eq h, sum_range_succ, sum_range_succ, sum_range_succ, sum_range_zero, zero_add]

/-- the rotation as a matrix -/
noncomputable def Frame.mat {dim : ℕ} (F : Frame dim) : Matrix (Fin dim) (Fin dim) ℝ := Matrix.of fun i j => F.Q i j

theorem Frame.mat_orth {dim : ℕ} (F : Frame dim) : F.mat.transpose * F.mat = 1 := by
  ext i j
  rw [Matrix.mul_apply, Matrix.one_apply]
  have := F.orth i i.2 j j.2
  simp only [Matrix.transpose_apply, Frame.mat, Matrix.of_apply]
  rw [Fin.sum_univ_eq_sum_range (fun k => F.Q k i * F.Q k j) dim, this]
  simp only [Fin.ext_iff]

theorem Frame.mat_inv {dim : ℕ} (F : Frame dim) : F.mat⁻¹ = F.mat.transpose := Matrix.inv_eq_left_inv F.mat_orth

theorem Frame.mat_adj {dim : ℕ} (F : Frame dim) : F.mat.adjugate = F.mat.transpose := by
  have h1 : F.mat.det = 1 := F.rot
  have h2 : F.mat * F.mat.adjugate = 1 := by rw [Matrix.mul_adjugate, h1, one_smul]
  calc F.mat.adjugate = F.mat.transpose * F.mat * F.mat.adjugate := by rw [F.mat_orth, Matrix.one_mul]
    _ = F.mat.transpose := by rw [Matrix.mul_assoc, h2, Matrix.mul_one]

/-- corners in the new frame -/
def CornersH (F : Frame 3) (X X' : ℕ → ℕ → ℝ) : Prop := ∀ i < 8, ∀ d < 3, X' i d = F.point (X i) d

section hex
variable {F : Frame 3} {X X' : ℕ → ℕ → ℝ} (h : CornersH F X X')
include h

theorem hexMap_frame (x : ℝ × ℝ × ℝ) {d : ℕ} (hd : d < 3) : hexMap X' x d = F.point (hexMap X x) d := by
  unfold hexMap
  rw [h 0 (by norm_num) d hd, h 1 (by norm_num) d hd, h 2 (by norm_num) d hd, h 3 (by norm_num) d hd,
    h 4 (by norm_num) d hd, h 5 (by norm_num) d hd, h 6 (by norm_num) d hd, h 7 (by norm_num) d hd]
  unfold Frame.point
  simp only [F.turn3 _ hd]
  ring

theorem hexDer_frame (x : ℝ × ℝ × ℝ) {d : ℕ} (hd : d < 3) (i : ℕ) :
    hexDer X' x d i = F.len * F.turn (fun k => hexDer X x k i) d := by
  rw [F.turn3 _ hd]
  unfold hexDer
  rw [h 0 (by norm_num) d hd, h 1 (by norm_num) d hd, h 2 (by norm_num) d hd, h 3 (by norm_num) d hd,
    h 4 (by norm_num) d hd, h 5 (by norm_num) d hd, h 6 (by norm_num) d hd, h 7 (by norm_num) d hd]
  unfold Frame.point
  simp only [F.turn3 _ hd]
  split_ifs <;> ring

theorem hexJac_frame (x : ℝ × ℝ × ℝ) : hexJac X' x = F.len • (F.mat * hexJac X x) := by
  ext d i
  rw [Matrix.smul_apply, Matrix.mul_apply, Fin.sum_univ_three]
  simp only [hexJac, Frame.mat, Matrix.of_apply, smul_eq_mul]
  rw [hexDer_frame h x d.2 i, F.turn3 _ d.2]
  rfl

theorem hexDet_frame (x : ℝ × ℝ × ℝ) : hexDet X' x = F.len ^ 3 * hexDet X x := by
  unfold hexDet
  rw [hexJac_frame h, Matrix.det_smul, Matrix.det_mul, show F.mat.det = 1 from F.rot, one_mul, Fintype.card_fin]

theorem hexInvJac_frame (x : ℝ × ℝ × ℝ) {i j : ℕ} (hi : i < 3) (hj : j < 3) :
    hexInvJac X' x i j = F.len⁻¹ * F.turn (hexInvJac X x i) j := by
  rw [F.turn3 _ hj]
  unfold hexInvJac
  rw [dif_pos ⟨hi, hj⟩, dif_pos ⟨hi, by norm_num⟩, dif_pos ⟨hi, by norm_num⟩, dif_pos ⟨hi, by norm_num⟩]
  rw [hexJac_frame h, inv_scaled _ F.len_pos.ne', Matrix.mul_inv_rev, F.mat_inv, Matrix.smul_apply, Matrix.mul_apply,
    Fin.sum_univ_three]
  simp only [Frame.mat, Matrix.transpose_apply, Matrix.of_apply, smul_eq_mul]
  have e0 : ((0 : Fin 3) : ℕ) = 0 := rfl
  have e1 : ((1 : Fin 3) : ℕ) = 1 := rfl
  have e2 : ((2 : Fin 3) : ℕ) = 2 := rfl
  rw [e0, e1, e2]
  have f0 : (⟨0, by norm_num⟩ : Fin 3) = 0 := rfl
  have f1 : (⟨1, by norm_num⟩ : Fin 3) = 1 := rfl
  have f2 : (⟨2, by norm_num⟩ : Fin 3) = 2 := rfl
  rw [f0, f1, f2]
  ring

theorem faceCorner_lt8 (f k : ℕ) : faceCorner f k < 8 := by
  unfold faceCorner
  rcases k with _ | _ | _ | _ | k <;> simp <;> split_ifs <;> norm_num

theorem faceTan1_frame (f : ℕ) (s : ℝ × ℝ) {d : ℕ} (hd : d < 3) :
    faceTan1 X' f s d = F.len * F.turn (faceTan1 X f s) d := by
  rw [F.turn3 _ hd]
  unfold faceTan1
  rw [h _ (faceCorner_lt8 h f 0) d hd, h _ (faceCorner_lt8 h f 1) d hd, h _ (faceCorner_lt8 h f 2) d hd,
    h _ (faceCorner_lt8 h f 3) d hd]
  unfold Frame.point
  simp only [F.turn3 _ hd]
  ring

theorem faceTan2_frame (f : ℕ) (s : ℝ × ℝ) {d : ℕ} (hd : d < 3) :
    faceTan2 X' f s d = F.len * F.turn (faceTan2 X f s) d := by
  rw [F.turn3 _ hd]
  unfold faceTan2
  rw [h _ (faceCorner_lt8 h f 0) d hd, h _ (faceCorner_lt8 h f 1) d hd, h _ (faceCorner_lt8 h f 2) d hd,
    h _ (faceCorner_lt8 h f 3) d hd]
  unfold Frame.point
  simp only [F.turn3 _ hd]
  ring

theorem faceNormal_frame (f : ℕ) (s : ℝ × ℝ) {j : ℕ} (hj : j < 3) :
    faceNormal X' f s j = F.len ^ 2 * F.turn (faceNormal X f s) j := by
  have hadj := F.mat_adj
  rw [Matrix.adjugate_fin_three] at hadj
  have c : ∀ i j : Fin 3, F.mat.transpose i j = F.Q j i := fun i j => rfl
  have a : ∀ i j : Fin 3, F.mat i j = F.Q i j := fun i j => rfl
  have g : ∀ i j : Fin 3, _ = F.Q j i := fun i j => (congrFun (congrFun hadj i) j).trans (c i j)
  have hJ : j = 0 ∨ j = 1 ∨ j = 2 := by omega
  have t1 : ∀ d < 3, faceTan1 X' f s d = _ := fun d hd => (faceTan1_frame h f s hd).trans (by rw [F.turn3 _ hd])
  have t2 : ∀ d < 3, faceTan2 X' f s d = _ := fun d hd => (faceTan2_frame h f s hd).trans (by rw [F.turn3 _ hd])
  rw [F.turn3 _ hj]
  rcases hJ with rfl | rfl | rfl
  · have g0 := g 0 0
    have g1 := g 1 0
    have g2 := g 2 0
    simp [a] at g0 g1 g2
    simp only [faceNormal]
    norm_num only
    rw [t1 1 (by norm_num), t1 2 (by norm_num), t2 1 (by norm_num), t2 2 (by norm_num), ← g0, ← g1, ← g2]
    ring
  · have g0 := g 0 1
    have g1 := g 1 1
    have g2 := g 2 1
    simp [a] at g0 g1 g2
    simp only [faceNormal]
    norm_num only
    rw [t1 0 (by norm_num), t1 2 (by norm_num), t2 0 (by norm_num), t2 2 (by norm_num), ← g0, ← g1, ← g2]
    ring
  · have g0 := g 0 2
    have g1 := g 1 2
    have g2 := g 2 2
    simp [a] at g0 g1 g2
    simp only [faceNormal]
    norm_num only
    rw [t1 0 (by norm_num), t1 1 (by norm_num), t2 0 (by norm_num), t2 1 (by norm_num), ← g0, ← g1, ← g2]
    ring

theorem hexMass_frame (t : Fam) (p o a b : ℕ) : hexMass t p o X' a b = F.len ^ 3 * hexMass t p o X a b := by
  unfold hexMass
  rw [mul_sum]
  refine sum_congr rfl fun q _ => ?_
  rw [hexDet_frame h]; ring

theorem hexInvMass_frame (t : Fam) (p i j : ℕ) : hexInvMass t p X' i j = (F.len ^ 3)⁻¹ * hexInvMass t p X i j := by
  unfold hexInvMass
  split_ifs with hij
  · have : (Matrix.of fun a b : Fin ((p + 1) * (p + 1) * (p + 1)) => hexMass t p (2 * p) X' a b) =
        F.len ^ 3 • (Matrix.of fun a b : Fin ((p + 1) * (p + 1) * (p + 1)) => hexMass t p (2 * p) X a b) := by
      ext a b
      simp only [Matrix.of_apply, Matrix.smul_apply, smul_eq_mul]
      exact hexMass_frame h t p (2 * p) a b
    rw [this, inv_scaled _ (pow_ne_zero _ F.len_pos.ne')]
    rfl
  · ring

end hex
end DG
