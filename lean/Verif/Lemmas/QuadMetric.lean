import Verif.Props.Setup

/-! The discrete metric identities of bilinear quadrilaterals. -/
namespace DG
open Finset Polynomial

/-! ### sizes of polynomials -/

theorem coeffSum_eq (q : ℝ[X]) (n : ℕ) (h : q.natDegree ≤ n) :
    coeffSum q = ∑ i ∈ range (n + 1), |q.coeff i| := by
  unfold coeffSum
  refine Finset.sum_subset (fun i hi => ?_) fun i _ hi => ?_
  · simp only [Finset.mem_range] at hi ⊢; omega
  · rw [coeff_eq_zero_of_natDegree_lt (by simp only [Finset.mem_range] at hi; omega), abs_zero]

theorem coeffSum_mul_linear (q : ℝ[X]) (a b : ℝ) :
    coeffSum (q * (C a + C b * X)) ≤ (|a| + |b|) * coeffSum q := by
  have hd : (q * (C a + C b * X)).natDegree ≤ q.natDegree + 1 := by
    refine natDegree_mul_le.trans (Nat.add_le_add_left ?_ _)
    refine (natDegree_add_le _ _).trans (max_le (by simp) ?_)
    exact (natDegree_C_mul_le _ _).trans natDegree_X_le
  rw [coeffSum_eq _ _ hd, add_mul]
  have hc : ∀ i, (q * (C a + C b * X)).coeff i = a * q.coeff i + b * (X * q).coeff i := by
    intro i
    have : q * (C a + C b * X) = C a * q + C b * (X * q) := by ring
    rw [this, coeff_add, coeff_C_mul, coeff_C_mul]
  have h1 : ∀ i ∈ range (q.natDegree + 1 + 1), |(q * (C a + C b * X)).coeff i|
      ≤ |a| * |q.coeff i| + |b| * |(X * q).coeff i| := by
    intro i _
    rw [hc]
    refine (abs_add_le _ _).trans ?_
    rw [abs_mul, abs_mul]
  refine (Finset.sum_le_sum h1).trans ?_
  rw [Finset.sum_add_distrib, ← Finset.mul_sum, ← Finset.mul_sum]
  refine add_le_add ?_ ?_
  · rw [← coeffSum_eq q _ (Nat.le_succ _)]
  · rw [Finset.sum_range_succ']
    simp only [coeff_X_mul, coeff_X_mul_zero, abs_zero, add_zero]
    rfl

theorem coeffSum_derivative (q : ℝ[X]) (n : ℕ) (h : q.natDegree ≤ n) :
    coeffSum (derivative q) ≤ n * coeffSum q := by
  rcases Nat.eq_zero_or_pos n with rfl | hn
  · have : derivative q = 0 := derivative_of_natDegree_zero (by omega)
    rw [this]; simp [coeffSum]
  · have hd : (derivative q).natDegree ≤ n - 1 := (natDegree_derivative_le q).trans (by omega)
    have hL : coeffSum (derivative q) = ∑ i ∈ range n, |(derivative q).coeff i| := by
      rw [coeffSum_eq _ _ hd, show n - 1 + 1 = n by omega]
    rw [hL, coeffSum_eq q n h, Finset.sum_range_succ', mul_add]
    refine le_trans ?_ (le_add_of_nonneg_right (by positivity))
    rw [Finset.mul_sum]
    refine Finset.sum_le_sum fun i hi => ?_
    rw [coeff_derivative, abs_mul, mul_comm]
    have hi' := Finset.mem_range.1 hi
    have : |(i : ℝ) + 1| ≤ n := by
      rw [abs_of_nonneg (by positivity)]; exact_mod_cast hi'
    exact mul_le_mul_of_nonneg_right this (abs_nonneg _)

theorem abs_eval_le (q : ℝ[X]) (x : ℝ) (hx : |x| ≤ 1) : |q.eval x| ≤ coeffSum q := by
  rw [eval_eq_sum_range, coeffSum]
  refine (Finset.abs_sum_le_sum_abs _ _).trans (Finset.sum_le_sum fun i _ => ?_)
  rw [abs_mul, abs_pow]
  exact mul_le_of_le_one_right (abs_nonneg _) (pow_le_one₀ (abs_nonneg _) hx)

/-- integration by parts against a linear function -/
theorem integral_parts (f : ℝ[X]) (a b : ℝ) :
    ∫ x in (-1:ℝ)..1, (derivative f * (C a + C b * X)).eval x
      = f.eval 1 * (a + b) - f.eval (-1) * (a - b) - b * ∫ x in (-1:ℝ)..1, f.eval x := by
  have hder : ∀ x ∈ Set.uIcc (-1:ℝ) 1, HasDerivAt (fun x => (f * (C a + C b * X)).eval x)
      ((derivative f * (C a + C b * X)).eval x + b * f.eval x) x := by
    intro x _
    have := (f * (C a + C b * X)).hasDerivAt x
    rw [derivative_mul] at this
    have e : (derivative f * (C a + C b * X) + f * derivative (C a + C b * X)).eval x
        = (derivative f * (C a + C b * X)).eval x + b * f.eval x := by
      simp; ring
    rwa [e] at this
  have hc : Continuous fun x => (derivative f * (C a + C b * X)).eval x := Polynomial.continuous _
  have hc2 : Continuous fun x => f.eval x := Polynomial.continuous _
  have h := intervalIntegral.integral_eq_sub_of_hasDerivAt hder
    ((hc.add (continuous_const.mul hc2)).intervalIntegrable _ _)
  have hadd := intervalIntegral.integral_add (hc.intervalIntegrable (μ := MeasureTheory.volume) (-1) 1)
    ((continuous_const (y := b).mul hc2).intervalIntegrable (μ := MeasureTheory.volume) (-1) 1)
  have hcm := intervalIntegral.integral_const_mul (a := (-1:ℝ)) (b := 1) (μ := MeasureTheory.volume) b
    (fun x => f.eval x)
  have h' := hadd.symm.trans h
  simp only [Pi.mul_apply] at h'
  rw [hcm] at h'
  simp only [eval_mul, eval_add, eval_C, eval_X] at h' ⊢
  linarith

/-! ### one element -/

/-- sum of a rule -/
noncomputable def gq (o : ℕ) (q : ℝ[X]) : ℝ := ∑ i ∈ range (o / 2 + 1), glW o i * q.eval (glX o i)

/-- contribution of side `k` -/
noncomputable def sideTerm (t : Fam) (p : ℕ) (X : ℕ → ℕ → ℝ) (k b j : ℕ) : ℝ :=
  sideNormal X k j * ∑ q ∈ range (p + 1), glW (2 * p + 1) q *
    phi t p b (sidePoint k (glX (2 * p + 1) q)).1 (sidePoint k (glX (2 * p + 1) q)).2

theorem gl_sym (o : ℕ) (h : tableOK (2 * o + 1)) (F : ℝ → ℝ) :
    ∑ q ∈ range (o + 1), glW (2 * o + 1) q * F (- glX (2 * o + 1) q)
      = ∑ q ∈ range (o + 1), glW (2 * o + 1) q * F (glX (2 * o + 1) q) := by
  have rule := (gl_rule _ h).2
  rw [show (2 * o + 1) / 2 + 1 = o + 1 by omega] at rule
  rw [← Finset.sum_range_reflect]
  refine Finset.sum_congr rfl fun q hq => ?_
  have hq' := Finset.mem_range.1 hq
  rw [rule.symw q hq', rule.symx q hq', neg_neg]

/-- the four side terms -/
theorem sideTerm_sum (t : Fam) (p : ℕ) (h : tableOK (2 * p + 1)) (X : ℕ → ℕ → ℝ) (b j : ℕ) (hj : j < 2) :
    ∑ k ∈ range 4, sideTerm t p X k b j =
      (if j = 0 then 1 else -1) *
      (gq (2 * p + 1) (famPoly t p (b / (p + 1))) *
          ((famPoly t p (b % (p + 1))).eval 1 * ((X 3 (1 - j) - X 1 (1 - j)) / 2)
            - (famPoly t p (b % (p + 1))).eval (-1) * ((X 2 (1 - j) - X 0 (1 - j)) / 2))
        - gq (2 * p + 1) (famPoly t p (b % (p + 1))) *
          ((famPoly t p (b / (p + 1))).eval 1 * ((X 3 (1 - j) - X 2 (1 - j)) / 2)
            - (famPoly t p (b / (p + 1))).eval (-1) * ((X 1 (1 - j) - X 0 (1 - j)) / 2))) := by
  set f := famPoly t p (b % (p + 1))
  set g := famPoly t p (b / (p + 1))
  have hg : ∀ q : ℝ[X], gq (2 * p + 1) q = ∑ i ∈ range (p + 1), glW (2 * p + 1) i * q.eval (glX (2 * p + 1) i) := by
    intro q; unfold gq; rw [show (2 * p + 1) / 2 + 1 = p + 1 by omega]
  have e0 : ∑ q ∈ range (p + 1), glW (2 * p + 1) q *
      phi t p b (sidePoint 0 (glX (2 * p + 1) q)).1 (sidePoint 0 (glX (2 * p + 1) q)).2
      = gq (2 * p + 1) f * g.eval (-1) := by
    rw [hg, Finset.sum_mul]
    exact Finset.sum_congr rfl fun q _ => by simp only [phi, sidePoint, if_true]; ring
  have e1 : ∑ q ∈ range (p + 1), glW (2 * p + 1) q *
      phi t p b (sidePoint 1 (glX (2 * p + 1) q)).1 (sidePoint 1 (glX (2 * p + 1) q)).2
      = gq (2 * p + 1) g * f.eval 1 := by
    rw [hg, Finset.sum_mul]
    exact Finset.sum_congr rfl fun q _ => by simp [phi, sidePoint]; ring
  have e2 : ∑ q ∈ range (p + 1), glW (2 * p + 1) q *
      phi t p b (sidePoint 2 (glX (2 * p + 1) q)).1 (sidePoint 2 (glX (2 * p + 1) q)).2
      = gq (2 * p + 1) f * g.eval 1 := by
    rw [hg, ← gl_sym p h (fun x => f.eval x), Finset.sum_mul]
    exact Finset.sum_congr rfl fun q _ => by simp [phi, sidePoint]; ring
  have e3 : ∑ q ∈ range (p + 1), glW (2 * p + 1) q *
      phi t p b (sidePoint 3 (glX (2 * p + 1) q)).1 (sidePoint 3 (glX (2 * p + 1) q)).2
      = gq (2 * p + 1) g * f.eval (-1) := by
    rw [hg, ← gl_sym p h (fun x => g.eval x), Finset.sum_mul]
    exact Finset.sum_congr rfl fun q _ => by simp [phi, sidePoint]; ring
  have s0 : sideTerm t p X 0 b j = sideNormal X 0 j * (gq (2 * p + 1) f * g.eval (-1)) := by
    unfold sideTerm; rw [e0]
  have s1 : sideTerm t p X 1 b j = sideNormal X 1 j * (gq (2 * p + 1) g * f.eval 1) := by
    unfold sideTerm; rw [e1]
  have s2 : sideTerm t p X 2 b j = sideNormal X 2 j * (gq (2 * p + 1) f * g.eval 1) := by
    unfold sideTerm; rw [e2]
  have s3 : sideTerm t p X 3 b j = sideNormal X 3 j * (gq (2 * p + 1) g * f.eval (-1)) := by
    unfold sideTerm; rw [e3]
  simp only [Finset.sum_range_succ, Finset.sum_range_zero, s0, s1, s2, s3]
  have hJ : j = 0 ∨ j = 1 := by omega
  rcases hJ with rfl | rfl <;> simp [sideNormal, sideTo, sideFrom] <;> ring

/-- the volume term -/
theorem volMetric_quad (t : Fam) (p ns : ℕ) (h : tableOK (2 * p + 3)) (vf : (ℕ → ℝ) → ℕ → ℝ)
    (nf : (ℕ → ℝ) → (ℕ → ℝ) → (ℕ → ℝ) → ℕ → ℝ) (m : GMesh ℝ) (e : ℕ) (hX : DetPos (fileCoords m e))
    (b j : ℕ) (hj : j < 2) :
    volMetric (quadDisc t p ns vf nf) (quadGeom t p m) e b j =
      (if j = 0 then 1 else -1) *
      (gq (2 * p + 3) (derivative (famPoly t p (b % (p + 1))) *
          (C ((fileCoords m e 2 (1 - j) - fileCoords m e 0 (1 - j) + fileCoords m e 3 (1 - j) - fileCoords m e 1 (1 - j)) / 4)
            + C ((fileCoords m e 0 (1 - j) - fileCoords m e 1 (1 - j) - fileCoords m e 2 (1 - j) + fileCoords m e 3 (1 - j)) / 4) * X)) *
          gq (2 * p + 3) (famPoly t p (b / (p + 1)))
        - gq (2 * p + 3) (famPoly t p (b % (p + 1))) *
          gq (2 * p + 3) (derivative (famPoly t p (b / (p + 1))) *
          (C ((fileCoords m e 1 (1 - j) - fileCoords m e 0 (1 - j) + fileCoords m e 3 (1 - j) - fileCoords m e 2 (1 - j)) / 4)
            + C ((fileCoords m e 0 (1 - j) - fileCoords m e 1 (1 - j) - fileCoords m e 2 (1 - j) + fileCoords m e 3 (1 - j)) / 4) * X))) := by
  have rule := gl_rule_odd _ h
  set Y := fileCoords m e with hY
  set f := famPoly t p (b % (p + 1)) with hf
  set g := famPoly t p (b / (p + 1)) with hg
  set x := glX (2 * p + 3) with hx
  set wt := glW (2 * p + 3) with hw
  have tens : ∀ P Q : ℝ[X], gq (2 * p + 3) P * gq (2 * p + 3) Q
      = ∑ q ∈ range ((p + 2) * (p + 2)), wt (q % (p + 2)) * wt (q / (p + 2)) *
          (P.eval (x (q % (p + 2))) * Q.eval (x (q / (p + 2)))) := by
    intro P Q
    unfold gq
    rw [show (2 * p + 3) / 2 + 1 = p + 2 by omega, Finset.sum_mul_sum, Finset.sum_comm,
      ← sum_div_mod (p + 2) (p + 2) (fun i j => wt i * P.eval (x i) * (wt j * Q.eval (x j)))]
    exact Finset.sum_congr rfl fun q _ => by ring
  rw [tens, tens, ← Finset.sum_sub_distrib, Finset.mul_sum]
  unfold volMetric
  refine Finset.sum_congr rfl fun q hq => ?_
  have hq' : q < (p + 2) * (p + 2) := Finset.mem_range.1 hq
  obtain ⟨a1, a2⟩ := rule.inside _ (prod_lt hq').1
  obtain ⟨b1, b2⟩ := rule.inside _ (prod_lt hq').2
  have hd : quadDet Y (x (q % (p + 2))) (x (q / (p + 2))) ≠ 0 := (hX _ _ a1 a2 b1 b2).ne'
  show ∑ i ∈ range 2, dphi t p b i (x (q % (p + 2))) (x (q / (p + 2))) *
    quadInvJac Y (x (q % (p + 2))) (x (q / (p + 2))) i j * quadDet Y (x (q % (p + 2))) (x (q / (p + 2))) *
    (wt (q % (p + 2)) * wt (q / (p + 2))) = _
  generalize x (q % (p + 2)) = ξ at *
  generalize x (q / (p + 2)) = η at *
  have hi : ∀ i, quadInvJac Y ξ η i j * quadDet Y ξ η =
      if i = 0 then (if j = 0 then quadEta Y ξ 1 else - quadEta Y ξ 0)
        else (if j = 0 then - quadXi Y η 1 else quadXi Y η 0) := by
    intro i; unfold quadInvJac; exact div_mul_cancel₀ _ hd
  simp only [Finset.sum_range_succ, Finset.sum_range_zero, mul_assoc, hi, ← mul_assoc (quadInvJac Y ξ η _ j)]
  have hJ : j = 0 ∨ j = 1 := by omega
  rcases hJ with rfl | rfl <;>
    simp [dphi, quadEta, quadXi, ← hf, ← hg, eval_mul, eval_add] <;> ring

theorem gq_exact (o : ℕ) (h : tableOK o) (q : ℝ[X]) (hq : q.natDegree ≤ o) :
    |gq o q - ∫ x in (-1:ℝ)..1, q.eval x| ≤ 1 / 10 ^ 30 * coeffSum q := gl_exact o h q hq

theorem abs_integral_le (q : ℝ[X]) : |∫ x in (-1:ℝ)..1, q.eval x| ≤ 2 * coeffSum q := by
  have := intervalIntegral.norm_integral_le_of_norm_le_const (a := (-1:ℝ)) (b := 1) (C := coeffSum q)
    (f := fun x => q.eval x) (fun x hx => by
      rw [Set.uIoc_of_le (by norm_num)] at hx
      rw [Real.norm_eq_abs]
      exact abs_eval_le q x (abs_le.2 ⟨hx.1.le, hx.2⟩))
  rw [Real.norm_eq_abs] at this
  norm_num at this
  linarith


/-- the algebra of the metric identity with perturbed integrals -/
theorem metric_algebra (A B F G δ e1 e2 e3 e4 e5 e6 ε cf cg m p : ℝ) (hε : 0 ≤ ε) (hε1 : ε ≤ 1 / 2) (hp : 0 ≤ p)
    (hcf : 0 ≤ cf) (hcg : 0 ≤ cg) (hm : 0 ≤ m) (hA : |A| ≤ 2 * m * cf) (hB : |B| ≤ 2 * m * cg)
    (hF : |F| ≤ 2 * cf) (hG : |G| ≤ 2 * cg) (hδ : |δ| ≤ m) (h1 : |e1| ≤ ε * (p * m * cf))
    (h2 : |e2| ≤ ε * cg) (h3 : |e3| ≤ ε * cf) (h4 : |e4| ≤ ε * (p * m * cg)) (h5 : |e5| ≤ ε * cg)
    (h6 : |e6| ≤ ε * cf) :
    |((A - δ * F + e1) * (G + e2) - (F + e3) * (B - δ * G + e4)) - ((G + e5) * A - (F + e6) * B)|
      ≤ ε * (12 + 5 * p) * m * (cf * cg) := by
  have eq : ((A - δ * F + e1) * (G + e2) - (F + e3) * (B - δ * G + e4)) - ((G + e5) * A - (F + e6) * B)
      = A * e2 - A * e5 + B * e6 - B * e3 + e1 * G + e1 * e2 - F * e4 - e3 * e4 - δ * (F * e2) + δ * (G * e3) := by
    ring
  have mul : ∀ {x y a b : ℝ}, |x| ≤ a → |y| ≤ b → |x * y| ≤ a * b := fun {x y a b} hx hy => by
    rw [abs_mul]; exact mul_le_mul hx hy (abs_nonneg _) ((abs_nonneg _).trans hx)
  have t1 := mul hA h2
  have t2 := mul hA h5
  have t3 := mul hB h6
  have t4 := mul hB h3
  have t5 := mul h1 hG
  have t6 := mul h1 h2
  have t7 := mul hF h4
  have t8 := mul h3 h4
  have t9 := mul hδ (mul hF h2)
  have t10 := mul hδ (mul hG h3)
  rw [eq]
  have tri : |A * e2 - A * e5 + B * e6 - B * e3 + e1 * G + e1 * e2 - F * e4 - e3 * e4 - δ * (F * e2) + δ * (G * e3)|
      ≤ |A * e2| + |A * e5| + |B * e6| + |B * e3| + |e1 * G| + |e1 * e2| + |F * e4| + |e3 * e4| + |δ * (F * e2)|
        + |δ * (G * e3)| := by
    have := abs_le.1 (le_refl |A * e2|)
    have := abs_le.1 (le_refl |A * e5|)
    have := abs_le.1 (le_refl |B * e6|)
    have := abs_le.1 (le_refl |B * e3|)
    have := abs_le.1 (le_refl |e1 * G|)
    have := abs_le.1 (le_refl |e1 * e2|)
    have := abs_le.1 (le_refl |F * e4|)
    have := abs_le.1 (le_refl |e3 * e4|)
    have := abs_le.1 (le_refl |δ * (F * e2)|)
    have := abs_le.1 (le_refl |δ * (G * e3)|)
    rw [abs_le]; constructor <;> linarith
  refine tri.trans ?_
  have hq : ε * ε * (p * m * (cf * cg)) ≤ 1 / 2 * ε * (p * m * (cf * cg)) :=
    mul_le_mul_of_nonneg_right (mul_le_mul_of_nonneg_right hε1 hε) (by positivity)
  nlinarith [hq]

/-- **metric identity of one element**: up to the accuracy of the tables -/
theorem metric_defect (t : Fam) (p ns : ℕ) (hp : tableOK (2 * p + 1)) (hp' : tableOK (2 * p + 3))
    (vf : (ℕ → ℝ) → ℕ → ℝ)
    (nf : (ℕ → ℝ) → (ℕ → ℝ) → (ℕ → ℝ) → ℕ → ℝ) (m : GMesh ℝ) (e : ℕ) (hX : DetPos (fileCoords m e))
    (h : ℝ) (hh : ∀ k < 4, ∀ d < 2,
      |fileCoords m e (sideTo k) d - fileCoords m e (sideFrom k) d| ≤ h)
    (b j : ℕ) (hb : b < (p + 1) * (p + 1)) (hj : j < 2) :
    |volMetric (quadDisc t p ns vf nf) (quadGeom t p m) e b j
        - ∑ k ∈ range 4, sideTerm t p (fileCoords m e) k b j|
      ≤ (12 + 5 * p) / 10 ^ 30 * h *
        (coeffSum (famPoly t p (b % (p + 1))) * coeffSum (famPoly t p (b / (p + 1)))) := by
  rw [volMetric_quad t p ns hp' vf nf m e hX b j hj, sideTerm_sum t p hp _ b j hj, ← mul_sub, abs_mul]
  rw [show |(if j = 0 then (1:ℝ) else -1)| = 1 by split <;> simp, one_mul]
  have hf := famPoly_degree t p (b % (p + 1)) (Nat.lt_succ_iff.1 (prod_lt hb).1)
  have hg := famPoly_degree t p (b / (p + 1)) (Nat.lt_succ_iff.1 (prod_lt hb).2)
  have h0 := hh 0 (by omega) (1 - j) (by omega)
  have h1 := hh 1 (by omega) (1 - j) (by omega)
  have h2 := hh 2 (by omega) (1 - j) (by omega)
  have h3 := hh 3 (by omega) (1 - j) (by omega)
  generalize famPoly t p (b % (p + 1)) = f at *
  generalize famPoly t p (b / (p + 1)) = g at *
  simp only [sideTo, sideFrom] at h0 h1 h2 h3
  norm_num at h0 h1 h2 h3
  generalize fileCoords m e 0 (1 - j) = X0 at *
  generalize fileCoords m e 1 (1 - j) = X1 at *
  generalize fileCoords m e 2 (1 - j) = X2 at *
  generalize fileCoords m e 3 (1 - j) = X3 at *
  set γ := (X2 - X0 + X3 - X1) / 4 with hγ
  set δ := (X0 - X1 - X2 + X3) / 4 with hδ
  set β := (X1 - X0 + X3 - X2) / 4 with hβ
  rw [abs_le] at h0 h1 h2 h3
  have aγ : |γ| ≤ h / 2 := by rw [abs_le]; constructor <;> (rw [hγ]; linarith)
  have aδ : |δ| ≤ h / 2 := by rw [abs_le]; constructor <;> (rw [hδ]; linarith)
  have aβ : |β| ≤ h / 2 := by rw [abs_le]; constructor <;> (rw [hβ]; linarith)
  have hh0 : 0 ≤ h := by linarith [h0.1, h0.2]
  have e31 : (X3 - X1) / 2 = γ + δ := by rw [hγ, hδ]; ring
  have e20 : (X2 - X0) / 2 = γ - δ := by rw [hγ, hδ]; ring
  have e32 : (X3 - X2) / 2 = β + δ := by rw [hβ, hδ]; ring
  have e10 : (X1 - X0) / 2 = β - δ := by rw [hβ, hδ]; ring
  rw [e31, e20, e32, e10]
  have deg : ∀ (q : ℝ[X]) (a b : ℝ), q.natDegree ≤ p → (derivative q * (C a + C b * X)).natDegree ≤ p + 1 := by
    intro q a b hq
    refine natDegree_mul_le.trans (Nat.add_le_add ((natDegree_derivative_le q).trans (by omega)) ?_)
    refine (natDegree_add_le _ _).trans (max_le (by simp) ?_)
    exact (natDegree_C_mul_le _ _).trans natDegree_X_le
  have cs : ∀ (q : ℝ[X]) (a b : ℝ), q.natDegree ≤ p → |a| ≤ h / 2 → |b| ≤ h / 2 →
      coeffSum (derivative q * (C a + C b * X)) ≤ p * h * coeffSum q := by
    intro q a b hq ha hb
    refine (coeffSum_mul_linear _ _ _).trans ?_
    have := coeffSum_derivative q p hq
    have h5 : |a| + |b| ≤ h := by linarith
    calc (|a| + |b|) * coeffSum (derivative q) ≤ h * (p * coeffSum q) :=
          mul_le_mul h5 this (coeffSum_nonneg _) hh0
      _ = p * h * coeffSum q := by ring
  have ends : ∀ (q : ℝ[X]) (a b : ℝ), |a| ≤ h / 2 → |b| ≤ h / 2 →
      |q.eval 1 * (a + b) - q.eval (-1) * (a - b)| ≤ 2 * h * coeffSum q := by
    intro q a b ha hb
    have q1 := abs_eval_le q 1 (by norm_num)
    have q2 := abs_eval_le q (-1) (by norm_num)
    have s1 : |a + b| ≤ h := (abs_add_le _ _).trans (by linarith)
    have s2 : |a - b| ≤ h := (abs_sub _ _).trans (by linarith)
    refine (abs_sub _ _).trans ?_
    rw [abs_mul, abs_mul]
    have := mul_le_mul q1 s1 (abs_nonneg _) (coeffSum_nonneg q)
    have := mul_le_mul q2 s2 (abs_nonneg _) (coeffSum_nonneg q)
    linarith
  have key := metric_algebra (f.eval 1 * (γ + δ) - f.eval (-1) * (γ - δ))
    (g.eval 1 * (β + δ) - g.eval (-1) * (β - δ)) (∫ x in (-1:ℝ)..1, f.eval x) (∫ x in (-1:ℝ)..1, g.eval x) δ
    (gq (2 * p + 3) (derivative f * (C γ + C δ * X)) - ∫ x in (-1:ℝ)..1, (derivative f * (C γ + C δ * X)).eval x)
    (gq (2 * p + 3) g - ∫ x in (-1:ℝ)..1, g.eval x) (gq (2 * p + 3) f - ∫ x in (-1:ℝ)..1, f.eval x)
    (gq (2 * p + 3) (derivative g * (C β + C δ * X)) - ∫ x in (-1:ℝ)..1, (derivative g * (C β + C δ * X)).eval x)
    (gq (2 * p + 1) g - ∫ x in (-1:ℝ)..1, g.eval x) (gq (2 * p + 1) f - ∫ x in (-1:ℝ)..1, f.eval x)
    (1 / 10 ^ 30) (coeffSum f) (coeffSum g) h p (by positivity) (by norm_num) (by positivity)
    (coeffSum_nonneg _) (coeffSum_nonneg _) hh0 (ends f γ δ aγ aδ) (ends g β δ aβ aδ)
    (abs_integral_le f) (abs_integral_le g) (by linarith)
    ((gq_exact _ hp' _ ((deg f _ _ hf).trans (by omega))).trans (mul_le_mul_of_nonneg_left (cs f _ _ hf aγ aδ) (by positivity)))
    (gq_exact _ hp' _ (hg.trans (by omega))) (gq_exact _ hp' _ (hf.trans (by omega)))
    ((gq_exact _ hp' _ ((deg g _ _ hg).trans (by omega))).trans (mul_le_mul_of_nonneg_left (cs g _ _ hg aβ aδ) (by positivity)))
    (gq_exact _ hp _ (hg.trans (by omega))) (gq_exact _ hp _ (hf.trans (by omega)))
  rw [integral_parts f γ δ, integral_parts g β δ] at key
  have e : ∀ a b c : ℝ, a - b + (c - (a - b)) = c := fun a b c => by ring
  simp only [e, add_sub_cancel] at key
  refine key.trans ?_
  have : 0 ≤ coeffSum f * coeffSum g := mul_nonneg (coeffSum_nonneg _) (coeffSum_nonneg _)
  refine le_of_eq ?_
  ring

/-- order 0: exact -/
theorem metric_exact_zero (t : Fam) (ns : ℕ) (vf : (ℕ → ℝ) → ℕ → ℝ)
    (nf : (ℕ → ℝ) → (ℕ → ℝ) → (ℕ → ℝ) → ℕ → ℝ) (m : GMesh ℝ) (e : ℕ) (hX : DetPos (fileCoords m e))
    (b j : ℕ) (hb : b < (0 + 1) * (0 + 1)) (hj : j < 2) :
    volMetric (quadDisc t 0 ns vf nf) (quadGeom t 0 m) e b j
      = ∑ k ∈ range 4, sideTerm t 0 (fileCoords m e) k b j := by
  rw [volMetric_quad t 0 ns (by unfold tableOK; omega) vf nf m e hX b j hj, sideTerm_sum t 0 (by unfold tableOK; omega) _ b j hj]
  have hf := famPoly_degree t 0 (b % (0 + 1)) (Nat.lt_succ_iff.1 (prod_lt hb).1)
  have hg := famPoly_degree t 0 (b / (0 + 1)) (Nat.lt_succ_iff.1 (prod_lt hb).2)
  generalize famPoly t 0 (b % (0 + 1)) = f at *
  generalize famPoly t 0 (b / (0 + 1)) = g at *
  rw [derivative_of_natDegree_zero (by omega), derivative_of_natDegree_zero (by omega)]
  rw [eq_C_of_natDegree_le_zero hf, eq_C_of_natDegree_le_zero hg]
  unfold gq
  simp only [zero_mul, eval_zero, mul_zero, Finset.sum_const_zero, eval_C, sub_zero, ← Finset.sum_mul]
  ring

/-! ### the faces of an element -/

/-- all sides of faces -/
def sideList {α : Type} (m : GMesh α) : List (ℕ × ℕ) :=
  m.faces.flatMap fun f => [(f.elemL, f.faceL), (f.elemR, f.faceR)]

theorem sum_sides (L : List (ℕ × ℕ)) (hn : L.Nodup) {n : ℕ} (h4 : ∀ s ∈ L, s.2 < n) (e : ℕ) (F : ℕ → ℝ) :
    (L.map fun s => if s.1 = e then F s.2 else 0).sum = ∑ k ∈ range n, if (e, k) ∈ L then F k else 0 := by
  induction L with
  | nil => simp
  | cons a L ih =>
    obtain ⟨ha, hL⟩ := List.nodup_cons.1 hn
    rw [List.map_cons, List.sum_cons, ih hL fun s hs => h4 s (List.mem_cons_of_mem _ hs)]
    have hsplit : ∀ k ∈ range n, (if (e, k) ∈ a :: L then F k else 0)
        = (if (e, k) = a then F k else 0) + if (e, k) ∈ L then F k else 0 := by
      intro k _
      by_cases h : (e, k) = a
      · subst h; simp [ha]
      · simp [List.mem_cons, h]
    rw [Finset.sum_congr rfl hsplit, Finset.sum_add_distrib]
    congr 1
    by_cases h : a.1 = e
    · rw [if_pos h, Finset.sum_eq_single a.2]
      · rw [if_pos (by rw [← h])]
      · intro k _ hk
        rw [if_neg]; intro hh; exact hk (by rw [← hh])
      · intro hh; exact absurd (Finset.mem_range.2 (h4 a (by simp))) hh
    · rw [if_neg h]
      symm
      refine Finset.sum_eq_zero fun k _ => ?_
      rw [if_neg]; intro hh; exact h (by rw [← hh])

theorem faceMetric_quad {m : GMesh ℝ} (hq : QuadMesh m) (t : Fam) (p ns : ℕ) (hp : tableOK (2 * p + 1))
    (vf : (ℕ → ℝ) → ℕ → ℝ) (nf : (ℕ → ℝ) → (ℕ → ℝ) → (ℕ → ℝ) → ℕ → ℝ) (e b j g : ℕ) (hj : j < 2) (f : IFace)
    (hg : m.faces[g]? = some f) :
    faceMetric (quadDisc t p ns vf nf) (quadGeom t p m) e b j g f =
      (if f.elemL = e then sideTerm t p (fileCoords m e) f.faceL b j else 0) +
      (if f.elemR = e then sideTerm t p (fileCoords m e) f.faceR b j else 0) := by
  have hmem : f ∈ m.faces := List.mem_of_getElem? hg
  have hat : faceAt m g = f := by unfold faceAt; rw [hg]; rfl
  have rule := (gl_rule _ hp).2
  rw [show (2 * p + 1) / 2 + 1 = p + 1 by omega] at rule
  have reorder : ∀ (o : ℕ) (F : ℝ → ℝ), ∑ iq ∈ range (p + 1),
      F (glX (2 * p + 1) (if o = 0 then iq else p - iq)) * glW (2 * p + 1) iq
        = ∑ q ∈ range (p + 1), glW (2 * p + 1) q * F (glX (2 * p + 1) q) := by
    intro o F
    by_cases ho : o = 0
    · simp only [ho, if_true]; exact Finset.sum_congr rfl fun _ _ => mul_comm _ _
    · simp only [ho, if_false]
      rw [← Finset.sum_range_reflect]
      refine Finset.sum_congr rfl fun q hq => ?_
      have hq' := Finset.mem_range.1 hq
      rw [rule.symw q hq', mul_comm, show p - (p + 1 - 1 - q) = q by omega]
  have side : ∀ (k o : ℕ) (c : ℝ), ∑ iq ∈ range (p + 1),
      (quadDisc t p ns vf nf).faceBasis k ((quadDisc t p ns vf nf).ptsOrder o iq) b * (c * glW (2 * p + 1) iq)
        = c * ∑ q ∈ range (p + 1), glW (2 * p + 1) q *
            phi t p b (sidePoint k (glX (2 * p + 1) q)).1 (sidePoint k (glX (2 * p + 1) q)).2 := by
    intro k o c
    rw [← reorder o (fun x => phi t p b (sidePoint k x).1 (sidePoint k x).2), Finset.mul_sum]
    refine Finset.sum_congr rfl fun iq _ => ?_
    show phi t p b (sidePoint k (glX (2 * p + 1) (if o = 0 then iq else p - iq))).1
      (sidePoint k (glX (2 * p + 1) (if o = 0 then iq else p - iq))).2 * _ = _
    ring
  have hn : ∀ iq, (quadGeom t p m).normals g iq j = sideNormal (fileCoords m f.elemL) f.faceL j := by
    intro iq; show sideNormal (fileCoords m (faceAt m g).elemL) (faceAt m g).faceL j = _; rw [hat]
  unfold faceMetric
  simp only [sub_mul, Finset.sum_sub_distrib, hn]
  rw [sub_eq_add_neg]
  congr 1
  · by_cases h : f.elemL = e
    · simp only [h, if_true]
      exact side f.faceL f.orientL _
    · simp [h]
  · by_cases h : f.elemR = e
    · simp only [h, if_true]
      have := side f.faceR f.orientR (sideNormal (fileCoords m f.elemL) f.faceL j)
      refine (congrArg Neg.neg this).trans ?_
      unfold sideTerm
      rw [← neg_mul, ← hq.normals hmem, h]
    · simp [h]

/-- sum over the faces of the mesh: the sides of the element that are on a face -/
theorem faceMetric_sum {m : GMesh ℝ} (hq : QuadMesh m) (t : Fam) (p ns : ℕ) (hp : tableOK (2 * p + 1))
    (vf : (ℕ → ℝ) → ℕ → ℝ) (nf : (ℕ → ℝ) → (ℕ → ℝ) → (ℕ → ℝ) → ℕ → ℝ) (e b j : ℕ) (hj : j < 2) :
    (m.faces.zipIdx.map fun x => faceMetric (quadDisc t p ns vf nf) (quadGeom t p m) e b j x.2 x.1).sum
      = ∑ k ∈ range 4, if (e, k) ∈ sideList m then sideTerm t p (fileCoords m e) k b j else 0 := by
  rw [← sum_sides (sideList m) hq.sides ?_ e (fun k => sideTerm t p (fileCoords m e) k b j)]
  · have h1 : (m.faces.zipIdx.map fun x => faceMetric (quadDisc t p ns vf nf) (quadGeom t p m) e b j x.2 x.1)
        = m.faces.zipIdx.map ((fun f : IFace =>
          (if f.elemL = e then sideTerm t p (fileCoords m e) f.faceL b j else 0) +
          (if f.elemR = e then sideTerm t p (fileCoords m e) f.faceR b j else 0)) ∘ Prod.fst) :=
      List.map_congr_left fun x hx => faceMetric_quad hq t p ns hp vf nf e b j x.2 hj x.1 (mem_zipIdx_lt hx)
    rw [h1, ← List.map_map, List.zipIdx_map_fst]
    unfold sideList
    generalize m.faces = l
    induction l with
    | nil => rfl
    | cons f l ih => simp [ih, add_assoc]
  · intro s hs
    obtain ⟨f, hf, hs⟩ := List.mem_flatMap.1 hs
    simp only [List.mem_cons, List.not_mem_nil, or_false] at hs
    rcases hs with rfl | rfl
    · exact (hq.faceL f hf).1
    · exact (hq.faceR f hf).1

end DG
