import Verif.Lemmas.HexMetric

/-!
The discrete metric identities of trilinear hexahedra, all orders: the volume rule and the face rule have the
same points per direction, so the identity reduces to integration by parts in one direction.
-/
namespace DG
open Finset Polynomial

/-! ### one direction -/

theorem coeffSum_sub_le (a b : ℝ[X]) : coeffSum (a - b) ≤ coeffSum a + coeffSum b := by
  have hn : (a - b).natDegree ≤ max a.natDegree b.natDegree := natDegree_sub_le a b
  rw [coeffSum_eq _ _ hn, coeffSum_eq a _ (le_max_left a.natDegree b.natDegree),
    coeffSum_eq b _ (le_max_right a.natDegree b.natDegree), ← Finset.sum_add_distrib]
  exact Finset.sum_le_sum fun i _ => by rw [coeff_sub]; exact abs_sub _ _

theorem deg_mul_linear (q : ℝ[X]) (a b : ℝ) : (q * (C a + C b * X)).natDegree ≤ q.natDegree + 1 := by
  refine natDegree_mul_le.trans (Nat.add_le_add_left ?_ _)
  refine (natDegree_add_le _ _).trans (max_le (by simp) ?_)
  exact (natDegree_C_mul_le _ _).trans natDegree_X_le

/-- an affine function -/
def lin (l : ℝ × ℝ) (x : ℝ) : ℝ := l.1 + l.2 * x

/-- integration by parts against a difference of products of affine functions, by a Gauss rule -/
theorem parts_one (p : ℕ) (h : tableOK (2 * p + 3)) (f : ℝ[X]) (hf : f.natDegree ≤ p) (l1 l2 l3 l4 : ℝ × ℝ) (H : ℝ)
    (h1 : |l1.1| + |l1.2| ≤ H) (h2 : |l2.1| + |l2.2| ≤ H) (h3 : |l3.1| + |l3.2| ≤ H) (h4 : |l4.1| + |l4.2| ≤ H) :
    |∑ i ∈ range (p + 2), glW (2 * p + 3) i *
        ((derivative f).eval (glX (2 * p + 3) i) * (lin l1 (glX (2 * p + 3) i) * lin l2 (glX (2 * p + 3) i)
            - lin l3 (glX (2 * p + 3) i) * lin l4 (glX (2 * p + 3) i))
          + f.eval (glX (2 * p + 3) i) * (l1.2 * lin l2 (glX (2 * p + 3) i) + lin l1 (glX (2 * p + 3) i) * l2.2
            - l3.2 * lin l4 (glX (2 * p + 3) i) - lin l3 (glX (2 * p + 3) i) * l4.2))
      - (f.eval 1 * (lin l1 1 * lin l2 1 - lin l3 1 * lin l4 1)
          - f.eval (-1) * (lin l1 (-1) * lin l2 (-1) - lin l3 (-1) * lin l4 (-1)))|
      ≤ 1 / 10 ^ 30 * ((p + 2) * (2 * H ^ 2 * coeffSum f)) := by
  set P := f * (C l1.1 + C l1.2 * X) * (C l2.1 + C l2.2 * X) - f * (C l3.1 + C l3.2 * X) * (C l4.1 + C l4.2 * X) with hP
  have hdeg : P.natDegree ≤ p + 2 := by
    refine (natDegree_sub_le _ _).trans (max_le ?_ ?_)
    · exact (deg_mul_linear _ _ _).trans (by have := deg_mul_linear f l1.1 l1.2; omega)
    · exact (deg_mul_linear _ _ _).trans (by have := deg_mul_linear f l3.1 l3.2; omega)
  have hH : 0 ≤ H := by have := abs_nonneg l1.1; have := abs_nonneg l1.2; linarith
  have hc : coeffSum P ≤ 2 * H ^ 2 * coeffSum f := by
    have two : ∀ (a b : ℝ × ℝ), |a.1| + |a.2| ≤ H → |b.1| + |b.2| ≤ H →
        coeffSum (f * (C a.1 + C a.2 * X) * (C b.1 + C b.2 * X)) ≤ H ^ 2 * coeffSum f := by
      intro a b ha hb
      refine (coeffSum_mul_linear _ _ _).trans ?_
      have e := coeffSum_mul_linear f a.1 a.2
      have e' : coeffSum (f * (C a.1 + C a.2 * X)) ≤ H * coeffSum f :=
        e.trans (mul_le_mul_of_nonneg_right ha (coeffSum_nonneg f))
      calc _ ≤ H * (H * coeffSum f) := mul_le_mul hb e' (coeffSum_nonneg _) hH
        _ = _ := by ring
    have := coeffSum_sub_le (f * (C l1.1 + C l1.2 * X) * (C l2.1 + C l2.2 * X)) (f * (C l3.1 + C l3.2 * X) * (C l4.1 + C l4.2 * X))
    have a := two l1 l2 h1 h2
    have b := two l3 l4 h3 h4
    rw [hP]; linarith
  have hc' : coeffSum (derivative P) ≤ (p + 2) * (2 * H ^ 2 * coeffSum f) := by
    have := coeffSum_derivative P (p + 2) hdeg
    push_cast at this
    exact this.trans (mul_le_mul_of_nonneg_left hc (by positivity))
  have key := gq_exact (2 * p + 3) h (derivative P) ((natDegree_derivative_le P).trans (by omega))
  have hint : ∫ x in (-1:ℝ)..1, (derivative P).eval x = P.eval 1 - P.eval (-1) := by
    have hc : Continuous fun x => (derivative P).eval x := Polynomial.continuous _
    exact intervalIntegral.integral_eq_sub_of_hasDerivAt (fun x _ => P.hasDerivAt x) (hc.intervalIntegrable _ _)
  rw [hint] at key
  have hdP : ∀ x, (derivative P).eval x = (derivative f).eval x * (lin l1 x * lin l2 x - lin l3 x * lin l4 x)
      + f.eval x * (l1.2 * lin l2 x + lin l1 x * l2.2 - l3.2 * lin l4 x - lin l3 x * l4.2) := by
    intro x
    simp only [hP, derivative_sub, derivative_mul, derivative_add, derivative_C, derivative_X, eval_sub, eval_add,
      eval_mul, eval_C, eval_X, lin, eval_zero, eval_one]
    ring
  have hPe : ∀ x, P.eval x = f.eval x * (lin l1 x * lin l2 x - lin l3 x * lin l4 x) := by
    intro x
    simp only [hP, eval_sub, eval_add, eval_mul, eval_C, eval_X, lin]
    ring
  unfold gq at key
  rw [show (2 * p + 3) / 2 + 1 = p + 2 by omega] at key
  simp only [hdP, hPe] at key
  exact key.trans (mul_le_mul_of_nonneg_left hc' (by positivity))

/-! ### cofactors -/

/-- cofactor matrix of the Jacobian: `det · ∂ξ_i/∂x_j` -/
noncomputable def cofac (X : ℕ → ℕ → ℝ) (x : ℝ × ℝ × ℝ) (i j : ℕ) : ℝ :=
  hexDer X x ((j + 1) % 3) ((i + 1) % 3) * hexDer X x ((j + 2) % 3) ((i + 2) % 3) -
    hexDer X x ((j + 2) % 3) ((i + 1) % 3) * hexDer X x ((j + 1) % 3) ((i + 2) % 3)

theorem adj_cofac (X : ℕ → ℕ → ℝ) (x : ℝ × ℝ × ℝ) (i j : Fin 3) :
    (hexJac X x).adjugate i j = cofac X x i j := by
  rw [Matrix.adjugate_fin_three]
  fin_cases i <;> fin_cases j <;> simp [cofac, hexJac] <;> ring

theorem invJac_cofac (X : ℕ → ℕ → ℝ) (x : ℝ × ℝ × ℝ) (hd : hexDet X x ≠ 0) (i j : ℕ) (hi : i < 3) (hj : j < 3) :
    hexInvJac X x i j * hexDet X x = cofac X x i j := by
  unfold hexInvJac
  rw [dif_pos ⟨hi, hj⟩, Matrix.inv_def]
  have h := adj_cofac X x ⟨i, hi⟩ ⟨j, hj⟩
  simp only at h
  rw [Matrix.smul_apply, h, Ring.inverse_eq_inv', smul_eq_mul]
  have hd' : (hexJac X x).det ≠ 0 := hd
  unfold hexDet
  field_simp

/-- moving one coordinate -/
def setC (x : ℝ × ℝ × ℝ) (i : ℕ) (v : ℝ) : ℝ × ℝ × ℝ :=
  if i = 0 then (v, x.2.1, x.2.2) else if i = 1 then (x.1, v, x.2.2) else (x.1, x.2.1, v)

/-- coordinate `i` -/
def getC (x : ℝ × ℝ × ℝ) (i : ℕ) : ℝ := if i = 0 then x.1 else if i = 1 then x.2.1 else x.2.2

/-- `∂x_d/∂ξ_k` as a function of coordinate `i` -/
noncomputable def slope (X : ℕ → ℕ → ℝ) (x : ℝ × ℝ × ℝ) (i d k : ℕ) : ℝ × ℝ :=
  (hexDer X (setC x i 0) d k, hexDer X (setC x i 1) d k - hexDer X (setC x i 0) d k)

theorem slope_lin (X : ℕ → ℕ → ℝ) (x : ℝ × ℝ × ℝ) (i d k : ℕ) (hi : i < 3) (v : ℝ) :
    lin (slope X x i d k) v = hexDer X (setC x i v) d k := by
  have hI : i = 0 ∨ i = 1 ∨ i = 2 := by omega
  unfold lin slope hexDer
  rcases hI with rfl | rfl | rfl <;> simp only [setC] <;> split_ifs <;> simp_all <;> ring

/-- derivative of cofactor `(i, j)` in direction `i` -/
noncomputable def dcofac (X : ℕ → ℕ → ℝ) (x : ℝ × ℝ × ℝ) (i j : ℕ) : ℝ :=
  (slope X x i ((j + 1) % 3) ((i + 1) % 3)).2 * hexDer X x ((j + 2) % 3) ((i + 2) % 3) +
  hexDer X x ((j + 1) % 3) ((i + 1) % 3) * (slope X x i ((j + 2) % 3) ((i + 2) % 3)).2 -
  (slope X x i ((j + 2) % 3) ((i + 1) % 3)).2 * hexDer X x ((j + 1) % 3) ((i + 2) % 3) -
  hexDer X x ((j + 2) % 3) ((i + 1) % 3) * (slope X x i ((j + 1) % 3) ((i + 2) % 3)).2

/-- Piola identity: the cofactors are divergence free -/
theorem piola (X : ℕ → ℕ → ℝ) (x : ℝ × ℝ × ℝ) (j : ℕ) :
    dcofac X x 0 j + dcofac X x 1 j + dcofac X x 2 j = 0 := by
  unfold dcofac slope
  generalize (j + 1) % 3 = a
  generalize (j + 2) % 3 = b
  simp [setC, hexDer]
  ring

/-- the twelve edges of the element have extents at most `h` -/
def EdgesLe (X : ℕ → ℕ → ℝ) (h : ℝ) : Prop :=
  ∀ d < 3, |X 1 d - X 0 d| ≤ h ∧ |X 3 d - X 2 d| ≤ h ∧ |X 5 d - X 4 d| ≤ h ∧ |X 7 d - X 6 d| ≤ h ∧
    |X 2 d - X 0 d| ≤ h ∧ |X 3 d - X 1 d| ≤ h ∧ |X 6 d - X 4 d| ≤ h ∧ |X 7 d - X 5 d| ≤ h ∧
    |X 4 d - X 0 d| ≤ h ∧ |X 5 d - X 1 d| ≤ h ∧ |X 6 d - X 2 d| ≤ h ∧ |X 7 d - X 3 d| ≤ h

theorem combo_le {u v a b c d h : ℝ} (hu : |u| ≤ 1) (hv : |v| ≤ 1) (ha : |a| ≤ h) (hb : |b| ≤ h) (hc : |c| ≤ h) (hd : |d| ≤ h) :
    |((1 - u) * (1 - v) * a + (1 + u) * (1 - v) * b + (1 - u) * (1 + v) * c + (1 + u) * (1 + v) * d) / 8| ≤ h / 2 := by
  rw [abs_le] at *
  have u1 : 0 ≤ 1 - u := by linarith
  have u2 : 0 ≤ 1 + u := by linarith
  have v1 : 0 ≤ 1 - v := by linarith
  have v2 : 0 ≤ 1 + v := by linarith
  have k1 := mul_nonneg u1 v1
  have k2 := mul_nonneg u2 v1
  have k3 := mul_nonneg u1 v2
  have k4 := mul_nonneg u2 v2
  constructor
  · nlinarith [mul_nonneg k1 (by linarith : 0 ≤ h + a), mul_nonneg k2 (by linarith : 0 ≤ h + b),
      mul_nonneg k3 (by linarith : 0 ≤ h + c), mul_nonneg k4 (by linarith : 0 ≤ h + d)]
  · nlinarith [mul_nonneg k1 (by linarith : 0 ≤ h - a), mul_nonneg k2 (by linarith : 0 ≤ h - b),
      mul_nonneg k3 (by linarith : 0 ≤ h - c), mul_nonneg k4 (by linarith : 0 ≤ h - d)]

theorem hexDer_le {X : ℕ → ℕ → ℝ} {h : ℝ} (hX : EdgesLe X h) (x : ℝ × ℝ × ℝ) (h1 : |x.1| ≤ 1) (h2 : |x.2.1| ≤ 1)
    (h3 : |x.2.2| ≤ 1) (d k : ℕ) (hd : d < 3) : |hexDer X x d k| ≤ h / 2 := by
  obtain ⟨a1, a2, a3, a4, b1, b2, b3, b4, c1, c2, c3, c4⟩ := hX d hd
  unfold hexDer
  split_ifs
  · exact combo_le h2 h3 a1 a2 a3 a4
  · exact combo_le h1 h3 b1 b2 b3 b4
  · exact combo_le h1 h2 c1 c2 c3 c4

theorem setC_le {x : ℝ × ℝ × ℝ} (h1 : |x.1| ≤ 1) (h2 : |x.2.1| ≤ 1) (h3 : |x.2.2| ≤ 1) (i : ℕ) {v : ℝ} (hv : |v| ≤ 1) :
    |(setC x i v).1| ≤ 1 ∧ |(setC x i v).2.1| ≤ 1 ∧ |(setC x i v).2.2| ≤ 1 := by
  unfold setC; split_ifs <;> exact ⟨by assumption, by assumption, by assumption⟩

theorem slope_le {X : ℕ → ℕ → ℝ} {h : ℝ} (hX : EdgesLe X h) (x : ℝ × ℝ × ℝ) (h1 : |x.1| ≤ 1) (h2 : |x.2.1| ≤ 1)
    (h3 : |x.2.2| ≤ 1) (i d k : ℕ) (hi : i < 3) (hd : d < 3) :
    |(slope X x i d k).1| + |(slope X x i d k).2| ≤ h / 2 := by
  have e1 := slope_lin X x i d k hi 1
  have e2 := slope_lin X x i d k hi (-1)
  obtain ⟨s1, s2, s3⟩ := setC_le h1 h2 h3 i (v := 1) (by simp)
  obtain ⟨t1, t2, t3⟩ := setC_le h1 h2 h3 i (v := -1) (by simp)
  have b1 := hexDer_le hX _ s1 s2 s3 d k hd
  have b2 := hexDer_le hX _ t1 t2 t3 d k hd
  rw [← e1] at b1
  rw [← e2] at b2
  unfold lin at b1 b2
  rw [abs_le] at b1 b2
  rcases abs_cases (slope X x i d k).1 with ⟨q1, _⟩ | ⟨q1, _⟩ <;> rcases abs_cases (slope X x i d k).2 with ⟨q2, _⟩ | ⟨q2, _⟩ <;>
    rw [q1, q2] <;> linarith [b1.1, b1.2, b2.1, b2.2]

/-- integration by parts of a basis polynomial against cofactor `(i, j)` in direction `i` -/
theorem parts_cofac (p : ℕ) (h : tableOK (2 * p + 3)) (f : ℝ[X]) (hf : f.natDegree ≤ p) {X : ℕ → ℕ → ℝ} {hh : ℝ}
    (hX : EdgesLe X hh) (x : ℝ × ℝ × ℝ) (h1 : |x.1| ≤ 1) (h2 : |x.2.1| ≤ 1) (h3 : |x.2.2| ≤ 1) (i j : ℕ) (hi : i < 3) :
    |∑ a ∈ range (p + 2), glW (2 * p + 3) a *
        ((derivative f).eval (glX (2 * p + 3) a) * cofac X (setC x i (glX (2 * p + 3) a)) i j
          + f.eval (glX (2 * p + 3) a) * dcofac X (setC x i (glX (2 * p + 3) a)) i j)
      - (f.eval 1 * cofac X (setC x i 1) i j - f.eval (-1) * cofac X (setC x i (-1)) i j)|
      ≤ 1 / 10 ^ 30 * ((p + 2) * (hh ^ 2 / 2 * coeffSum f)) := by
  have m1 : (j + 1) % 3 < 3 := Nat.mod_lt _ (by omega)
  have m2 : (j + 2) % 3 < 3 := Nat.mod_lt _ (by omega)
  have key := parts_one p h f hf (slope X x i ((j + 1) % 3) ((i + 1) % 3)) (slope X x i ((j + 2) % 3) ((i + 2) % 3))
    (slope X x i ((j + 2) % 3) ((i + 1) % 3)) (slope X x i ((j + 1) % 3) ((i + 2) % 3)) (hh / 2)
    (slope_le hX x h1 h2 h3 i _ _ hi m1) (slope_le hX x h1 h2 h3 i _ _ hi m2) (slope_le hX x h1 h2 h3 i _ _ hi m2)
    (slope_le hX x h1 h2 h3 i _ _ hi m1)
  simp only [slope_lin X x i _ _ hi] at key
  have hsl : ∀ v d k, slope X (setC x i v) i d k = slope X x i d k := by
    intro v d k
    have : ∀ u, setC (setC x i v) i u = setC x i u := by
      intro u; unfold setC; split_ifs <;> rfl
    unfold slope; rw [this, this]
  unfold cofac dcofac
  simp only [hsl]
  refine key.trans (le_of_eq ?_)
  ring

/-! ### the element -/

/-- contribution of face `k` of the element with corners `X`, with the true normal of each point -/
noncomputable def faceIntegral (t : Fam) (p : ℕ) (X : ℕ → ℕ → ℝ) (k b j : ℕ) : ℝ :=
  ∑ q ∈ range ((p + 2) * (p + 2)), wt2 p q *
    (phi3 t p b (facePoint k (facePt2 p q)) * faceNormal X k (facePt2 p q) j)

theorem faceNormal_cofac (X : ℕ → ℕ → ℝ) (f : ℕ) (hf : f < 6) (s : ℝ × ℝ) (j : ℕ) (hj : j < 3) :
    faceNormal X f s j = (if f = 0 ∨ f = 1 ∨ f = 4 then -1 else 1) *
      cofac X (facePoint f s) ([2, 1, 0, 1, 0, 2].getD f 0) j := by
  have h := faceNormal_outward X f hf s ⟨j, hj⟩
  simp only at h
  rw [h]
  congr 1
  have hF : f = 0 ∨ f = 1 ∨ f = 2 ∨ f = 3 ∨ f = 4 ∨ f = 5 := by omega
  rcases hF with rfl | rfl | rfl | rfl | rfl | rfl
  · exact adj_cofac X _ 2 ⟨j, hj⟩
  · exact adj_cofac X _ 1 ⟨j, hj⟩
  · exact adj_cofac X _ 0 ⟨j, hj⟩
  · exact adj_cofac X _ 1 ⟨j, hj⟩
  · exact adj_cofac X _ 0 ⟨j, hj⟩
  · exact adj_cofac X _ 2 ⟨j, hj⟩

theorem sum_faces (p : ℕ) (F : ℝ → ℝ → ℝ) :
    ∑ q ∈ range ((p + 2) * (p + 2)), wt2 p q * F (facePt2 p q).1 (facePt2 p q).2
      = ∑ c ∈ range (p + 2), ∑ a ∈ range (p + 2), glW (2 * p + 3) a * glW (2 * p + 3) c *
          F (glX (2 * p + 3) a) (glX (2 * p + 3) c) :=
  sum_div_mod (p + 2) (p + 2) fun a c => glW (2 * p + 3) a * glW (2 * p + 3) c * F (glX (2 * p + 3) a) (glX (2 * p + 3) c)

theorem gl_sym3 (p : ℕ) (h : tableOK (2 * p + 3)) (F : ℝ → ℝ) :
    ∑ q ∈ range (p + 2), glW (2 * p + 3) q * F (- glX (2 * p + 3) q)
      = ∑ q ∈ range (p + 2), glW (2 * p + 3) q * F (glX (2 * p + 3) q) :=
  gl_sym (p + 1) h F

/-- the three pairs of faces -/
theorem faceIntegral_pairs (t : Fam) (p : ℕ) (h : tableOK (2 * p + 3)) (X : ℕ → ℕ → ℝ) (b j : ℕ) (hj : j < 3) :
    ∑ k ∈ range 6, faceIntegral t p X k b j =
      ∑ c ∈ range (p + 2), ∑ a ∈ range (p + 2), glW (2 * p + 3) a * glW (2 * p + 3) c *
        ((phi3 t p b (1, glX (2 * p + 3) a, glX (2 * p + 3) c) * cofac X (1, glX (2 * p + 3) a, glX (2 * p + 3) c) 0 j
          - phi3 t p b (-1, glX (2 * p + 3) a, glX (2 * p + 3) c) * cofac X (-1, glX (2 * p + 3) a, glX (2 * p + 3) c) 0 j)
        + (phi3 t p b (glX (2 * p + 3) a, 1, glX (2 * p + 3) c) * cofac X (glX (2 * p + 3) a, 1, glX (2 * p + 3) c) 1 j
          - phi3 t p b (glX (2 * p + 3) a, -1, glX (2 * p + 3) c) * cofac X (glX (2 * p + 3) a, -1, glX (2 * p + 3) c) 1 j)
        + (phi3 t p b (glX (2 * p + 3) a, glX (2 * p + 3) c, 1) * cofac X (glX (2 * p + 3) a, glX (2 * p + 3) c, 1) 2 j
          - phi3 t p b (glX (2 * p + 3) a, glX (2 * p + 3) c, -1) * cofac X (glX (2 * p + 3) a, glX (2 * p + 3) c, -1) 2 j)) := by
  set w := glW (2 * p + 3)
  set x := glX (2 * p + 3)
  have gen : ∀ k < 6, faceIntegral t p X k b j = ∑ c ∈ range (p + 2), ∑ a ∈ range (p + 2), w a * w c *
      ((if k = 0 ∨ k = 1 ∨ k = 4 then -1 else 1) * (phi3 t p b (facePoint k (x a, x c)) *
        cofac X (facePoint k (x a, x c)) ([2, 1, 0, 1, 0, 2].getD k 0) j)) := by
    intro k hk
    rw [← sum_faces p fun s u => (if k = 0 ∨ k = 1 ∨ k = 4 then -1 else 1) * (phi3 t p b (facePoint k (s, u)) *
        cofac X (facePoint k (s, u)) ([2, 1, 0, 1, 0, 2].getD k 0) j)]
    unfold faceIntegral
    refine Finset.sum_congr rfl fun q _ => ?_
    rw [faceNormal_cofac X k hk _ j hj]
    ring
  have refl2 : ∀ F : ℝ → ℝ → ℝ, ∑ c ∈ range (p + 2), ∑ a ∈ range (p + 2), w a * w c * F (- x a) (x c)
      = ∑ c ∈ range (p + 2), ∑ a ∈ range (p + 2), w a * w c * F (x a) (x c) := by
    intro F
    refine Finset.sum_congr rfl fun c _ => ?_
    have := gl_sym3 p h fun s => w c * F s (x c)
    simpa only [mul_assoc] using this
  have t0 : faceIntegral t p X 0 b j = ∑ c ∈ range (p + 2), ∑ a ∈ range (p + 2), w a * w c *
      (- (phi3 t p b (x a, x c, -1) * cofac X (x a, x c, -1) 2 j)) := by
    rw [gen 0 (by omega), Finset.sum_comm]
    exact Finset.sum_congr rfl fun c _ => Finset.sum_congr rfl fun a _ => by
      simp only [facePoint, if_true, true_or, List.getD_cons_zero]; ring
  have t1 : faceIntegral t p X 1 b j = ∑ c ∈ range (p + 2), ∑ a ∈ range (p + 2), w a * w c *
      (- (phi3 t p b (x a, -1, x c) * cofac X (x a, -1, x c) 1 j)) := by
    rw [gen 1 (by omega)]
    exact Finset.sum_congr rfl fun c _ => Finset.sum_congr rfl fun a _ => by simp [facePoint]
  have t2 : faceIntegral t p X 2 b j = ∑ c ∈ range (p + 2), ∑ a ∈ range (p + 2), w a * w c *
      (phi3 t p b (1, x a, x c) * cofac X (1, x a, x c) 0 j) := by
    rw [gen 2 (by omega)]
    exact Finset.sum_congr rfl fun c _ => Finset.sum_congr rfl fun a _ => by simp [facePoint]
  have t3 : faceIntegral t p X 3 b j = ∑ c ∈ range (p + 2), ∑ a ∈ range (p + 2), w a * w c *
      (phi3 t p b (x a, 1, x c) * cofac X (x a, 1, x c) 1 j) := by
    rw [gen 3 (by omega), ← refl2 fun s u => phi3 t p b (s, 1, u) * cofac X (s, 1, u) 1 j]
    exact Finset.sum_congr rfl fun c _ => Finset.sum_congr rfl fun a _ => by simp [facePoint]
  have t4 : faceIntegral t p X 4 b j = ∑ c ∈ range (p + 2), ∑ a ∈ range (p + 2), w a * w c *
      (- (phi3 t p b (-1, x a, x c) * cofac X (-1, x a, x c) 0 j)) := by
    rw [gen 4 (by omega), ← refl2 fun s u => - (phi3 t p b (-1, s, u) * cofac X (-1, s, u) 0 j)]
    exact Finset.sum_congr rfl fun c _ => Finset.sum_congr rfl fun a _ => by simp [facePoint]
  have t5 : faceIntegral t p X 5 b j = ∑ c ∈ range (p + 2), ∑ a ∈ range (p + 2), w a * w c *
      (phi3 t p b (x a, x c, 1) * cofac X (x a, x c, 1) 2 j) := by
    rw [gen 5 (by omega)]
    exact Finset.sum_congr rfl fun c _ => Finset.sum_congr rfl fun a _ => by simp [facePoint]
  simp only [Finset.sum_range_succ _ 5, Finset.sum_range_succ _ 4, Finset.sum_range_succ _ 3, Finset.sum_range_succ _ 2,
    Finset.sum_range_succ _ 1, Finset.sum_range_succ _ 0, Finset.sum_range_zero, t0, t1, t2, t3, t4, t5,
    ← Finset.sum_add_distrib, zero_add]
  exact Finset.sum_congr rfl fun c _ => Finset.sum_congr rfl fun a _ => by ring

/-- weighted double sum of small terms -/
theorem double_le (n : ℕ) (w g h : ℕ → ℝ) (D : ℕ → ℕ → ℝ) (cg ch E W : ℝ) (hw : ∀ i < n, 0 ≤ w i)
    (hW : ∑ i ∈ range n, w i ≤ W) (hg : ∀ i < n, |g i| ≤ cg) (hh : ∀ i < n, |h i| ≤ ch)
    (hD : ∀ i < n, ∀ k < n, |D i k| ≤ E) (hcg : 0 ≤ cg) (hch : 0 ≤ ch) (hE : 0 ≤ E) :
    |∑ c ∈ range n, ∑ a ∈ range n, w a * w c * (g a * h c * D a c)| ≤ W ^ 2 * (cg * ch * E) := by
  have hW0 : 0 ≤ ∑ i ∈ range n, w i := Finset.sum_nonneg fun i hi => hw i (Finset.mem_range.1 hi)
  calc _ ≤ ∑ c ∈ range n, ∑ a ∈ range n, w a * w c * (cg * ch * E) := by
        refine (Finset.abs_sum_le_sum_abs _ _).trans (Finset.sum_le_sum fun c hc => ?_)
        refine (Finset.abs_sum_le_sum_abs _ _).trans (Finset.sum_le_sum fun a ha => ?_)
        have hc' := Finset.mem_range.1 hc
        have ha' := Finset.mem_range.1 ha
        rw [abs_mul, abs_mul, abs_mul, abs_mul, abs_of_nonneg (hw a ha'), abs_of_nonneg (hw c hc')]
        refine mul_le_mul_of_nonneg_left ?_ (mul_nonneg (hw a ha') (hw c hc'))
        exact mul_le_mul (mul_le_mul (hg a ha') (hh c hc') (abs_nonneg _) hcg) (hD a ha' c hc') (abs_nonneg _)
          (mul_nonneg hcg hch)
    _ = (∑ i ∈ range n, w i) ^ 2 * (cg * ch * E) := by
        simp only [← Finset.sum_mul, ← Finset.mul_sum]; ring
    _ ≤ _ := mul_le_mul_of_nonneg_right (pow_le_pow_left₀ hW0 hW 2) (by positivity)

theorem weights_le (o : ℕ) (h : tableOK (2 * o + 3)) : ∑ i ∈ range (o + 2), glW (2 * o + 3) i ≤ 11 / 5 := by
  have := gl_exact (2 * o + 3) h (1 : ℝ[X]) (by simp)
  rw [show (2 * o + 3) / 2 + 1 = o + 2 by omega] at this
  simp only [eval_one, mul_one, intervalIntegral.integral_const] at this
  have hc : coeffSum (1 : ℝ[X]) = 1 := by simp [coeffSum]
  rw [hc, abs_le] at this
  norm_num at this
  linarith [this.2]

/-- **metric identity of one element**: up to the accuracy of the tables -/
theorem metric_defect_hex (t : Fam) (p ns : ℕ) (hp : tableOK (2 * p + 3))
    (vf : (ℕ → ℝ) → ℕ → ℝ) (nf : (ℕ → ℝ) → (ℕ → ℝ) → (ℕ → ℝ) → ℕ → ℝ) (m : GMesh ℝ) (e : ℕ)
    (hX : DetPos3 (fileCoords m e)) (hh : ℝ) (hed : EdgesLe (fileCoords m e) hh)
    (b j : ℕ) (hb : b < (p + 1) * (p + 1) * (p + 1)) (hj : j < 3) :
    |volMetric (hexDisc t p ns vf nf) (hexGeom t p m) e b j
        - ∑ k ∈ range 6, faceIntegral t p (fileCoords m e) k b j|
      ≤ 8 * (p + 2) / 10 ^ 30 * hh ^ 2 * (coeffSum (famPoly t p (b % (p + 1))) *
        coeffSum (famPoly t p (b / (p + 1) % (p + 1))) * coeffSum (famPoly t p (b / ((p + 1) * (p + 1))))) := by
  rw [faceIntegral_pairs t p hp _ b j hj]
  set X := fileCoords m e
  have rule := gl_rule_odd _ hp
  obtain ⟨k1, k2, k3⟩ := cube_lt hb
  have hf := famPoly_degree t p (b % (p + 1)) (Nat.lt_succ_iff.1 k1)
  have hg := famPoly_degree t p (b / (p + 1) % (p + 1)) (Nat.lt_succ_iff.1 k2)
  have hk := famPoly_degree t p (b / ((p + 1) * (p + 1))) (Nat.lt_succ_iff.1 k3)
  have hphi : ∀ y, phi3 t p b y = (famPoly t p (b % (p + 1))).eval y.1 * (famPoly t p (b / (p + 1) % (p + 1))).eval y.2.1 *
    (famPoly t p (b / ((p + 1) * (p + 1)))).eval y.2.2 := fun _ => rfl
  -- the volume term
  have hvol : volMetric (hexDisc t p ns vf nf) (hexGeom t p m) e b j = ∑ q ∈ range ((p + 2) * (p + 2) * (p + 2)),
      wt3 p q * ∑ i ∈ range 3, dphi3 t p b i (volPt3 p q) * cofac X (volPt3 p q) i j := by
    unfold volMetric
    refine Finset.sum_congr rfl fun q hq' => ?_
    rw [Finset.mul_sum]
    refine Finset.sum_congr rfl fun i hi => ?_
    show dphi3 t p b i (volPt3 p q) * hexInvJac X (volPt3 p q) i j * hexDet X (volPt3 p q) * wt3 p q = _
    rw [mul_assoc (dphi3 t p b i (volPt3 p q)), invJac_cofac X _ (hX.at p hp q (Finset.mem_range.1 hq')).ne' i j
      (Finset.mem_range.1 hi) hj]
    ring
  rw [hvol]
  simp only [hphi]
  have hd0 : ∀ y, dphi3 t p b 0 y = (derivative (famPoly t p (b % (p + 1)))).eval y.1 *
    (famPoly t p (b / (p + 1) % (p + 1))).eval y.2.1 * (famPoly t p (b / ((p + 1) * (p + 1)))).eval y.2.2 := fun _ => rfl
  have hd1 : ∀ y, dphi3 t p b 1 y = (famPoly t p (b % (p + 1))).eval y.1 *
    (derivative (famPoly t p (b / (p + 1) % (p + 1)))).eval y.2.1 * (famPoly t p (b / ((p + 1) * (p + 1)))).eval y.2.2 := fun _ => rfl
  have hd2 : ∀ y, dphi3 t p b 2 y = (famPoly t p (b % (p + 1))).eval y.1 *
    (famPoly t p (b / (p + 1) % (p + 1))).eval y.2.1 * (derivative (famPoly t p (b / ((p + 1) * (p + 1))))).eval y.2.2 := fun _ => rfl
  have hs3 : ∀ F : ℕ → ℝ, ∑ i ∈ range 3, F i = 0 + F 0 + F 1 + F 2 := fun F => by
    simp only [Finset.sum_range_succ, Finset.sum_range_zero]
  simp only [hs3, hd0, hd1, hd2]
  generalize famPoly t p (b % (p + 1)) = f at *
  generalize famPoly t p (b / (p + 1) % (p + 1)) = g at *
  generalize famPoly t p (b / ((p + 1) * (p + 1))) = k at *
  clear hphi hd0 hd1 hd2 hvol hs3
  unfold wt3 volPt3
  have hin : ∀ i < p + 2, |glX (2 * p + 3) i| ≤ 1 := fun i hi => by
    obtain ⟨a, b⟩ := rule.inside i hi
    exact abs_le.2 ⟨a.le, b.le⟩
  have hpos : ∀ i < p + 2, 0 ≤ glW (2 * p + 3) i := fun i hi => (rule.pos i hi).le
  have hWn := weights_le p hp
  set w := glW (2 * p + 3)
  set x := glX (2 * p + 3)
  set ε : ℝ := 1 / 10 ^ 30 * ((p + 2) * (hh ^ 2 / 2)) with hε
  have hε0 : 0 ≤ ε := by positivity
  set S0 : ℕ → ℕ → ℝ := fun b c => ∑ a ∈ range (p + 2), w a *
    ((derivative f).eval (x a) * cofac X (x a, x b, x c) 0 j + f.eval (x a) * dcofac X (x a, x b, x c) 0 j) with hS0
  set S1 : ℕ → ℕ → ℝ := fun a c => ∑ b ∈ range (p + 2), w b *
    ((derivative g).eval (x b) * cofac X (x a, x b, x c) 1 j + g.eval (x b) * dcofac X (x a, x b, x c) 1 j) with hS1
  set S2 : ℕ → ℕ → ℝ := fun a b => ∑ c ∈ range (p + 2), w c *
    ((derivative k).eval (x c) * cofac X (x a, x b, x c) 2 j + k.eval (x c) * dcofac X (x a, x b, x c) 2 j) with hS2
  have b0 : ∀ b < p + 2, ∀ c < p + 2, |S0 b c - (f.eval 1 * cofac X (1, x b, x c) 0 j
      - f.eval (-1) * cofac X (-1, x b, x c) 0 j)| ≤ ε * coeffSum f := by
    intro b hb c hc
    refine (parts_cofac p hp f hf hed (0, x b, x c) (by simp) (hin b hb) (hin c hc) 0 j (by omega)).trans (le_of_eq ?_)
    rw [hε]; ring
  have b1 : ∀ a < p + 2, ∀ c < p + 2, |S1 a c - (g.eval 1 * cofac X (x a, 1, x c) 1 j
      - g.eval (-1) * cofac X (x a, -1, x c) 1 j)| ≤ ε * coeffSum g := by
    intro a ha c hc
    refine (parts_cofac p hp g hg hed (x a, 0, x c) (hin a ha) (by simp) (hin c hc) 1 j (by omega)).trans (le_of_eq ?_)
    rw [hε]; ring
  have b2 : ∀ a < p + 2, ∀ b < p + 2, |S2 a b - (k.eval 1 * cofac X (x a, x b, 1) 2 j
      - k.eval (-1) * cofac X (x a, x b, -1) 2 j)| ≤ ε * coeffSum k := by
    intro a ha b hb
    refine (parts_cofac p hp k hk hed (x a, x b, 0) (hin a ha) (hin b hb) (by simp) 2 j (by omega)).trans (le_of_eq ?_)
    rw [hε]; ring
  have ef : ∀ i < p + 2, |f.eval (x i)| ≤ coeffSum f := fun i hi => abs_eval_le f _ (hin i hi)
  have eg : ∀ i < p + 2, |g.eval (x i)| ≤ coeffSum g := fun i hi => abs_eval_le g _ (hin i hi)
  have ek : ∀ i < p + 2, |k.eval (x i)| ≤ coeffSum k := fun i hi => abs_eval_le k _ (hin i hi)
  have cf := coeffSum_nonneg f
  have cg := coeffSum_nonneg g
  have ck := coeffSum_nonneg k
  have d0 := double_le (p + 2) w (fun b => g.eval (x b)) (fun c => k.eval (x c)) (fun b c => S0 b c -
    (f.eval 1 * cofac X (1, x b, x c) 0 j - f.eval (-1) * cofac X (-1, x b, x c) 0 j)) _ _ _ _ hpos hWn eg ek b0 cg ck
    (mul_nonneg hε0 cf)
  have d1 := double_le (p + 2) w (fun a => f.eval (x a)) (fun c => k.eval (x c)) (fun a c => S1 a c -
    (g.eval 1 * cofac X (x a, 1, x c) 1 j - g.eval (-1) * cofac X (x a, -1, x c) 1 j)) _ _ _ _ hpos hWn ef ek b1 cf ck
    (mul_nonneg hε0 cg)
  have d2 := double_le (p + 2) w (fun a => f.eval (x a)) (fun b => g.eval (x b)) (fun a b => S2 a b -
    (k.eval 1 * cofac X (x a, x b, 1) 2 j - k.eval (-1) * cofac X (x a, x b, -1) 2 j)) _ _ _ _ hpos hWn ef eg b2 cf cg
    (mul_nonneg hε0 ck)
  -- rearrange the volume term
  have hV : ∑ c ∈ range (p + 2), ∑ b ∈ range (p + 2), ∑ a ∈ range (p + 2), w a * w b * w c *
      (0 + (derivative f).eval (x a) * g.eval (x b) * k.eval (x c) * cofac X (x a, x b, x c) 0 j
        + f.eval (x a) * (derivative g).eval (x b) * k.eval (x c) * cofac X (x a, x b, x c) 1 j
        + f.eval (x a) * g.eval (x b) * (derivative k).eval (x c) * cofac X (x a, x b, x c) 2 j)
      = ∑ c ∈ range (p + 2), ∑ b ∈ range (p + 2), w b * w c * (g.eval (x b) * k.eval (x c) * S0 b c)
        + ∑ c ∈ range (p + 2), ∑ a ∈ range (p + 2), w a * w c * (f.eval (x a) * k.eval (x c) * S1 a c)
        + ∑ b ∈ range (p + 2), ∑ a ∈ range (p + 2), w a * w b * (f.eval (x a) * g.eval (x b) * S2 a b) := by
    have r1 : ∑ c ∈ range (p + 2), ∑ a ∈ range (p + 2), w a * w c * (f.eval (x a) * k.eval (x c) * S1 a c)
        = ∑ c ∈ range (p + 2), ∑ b ∈ range (p + 2), ∑ a ∈ range (p + 2), w a * w b * w c * (f.eval (x a) * k.eval (x c) *
          ((derivative g).eval (x b) * cofac X (x a, x b, x c) 1 j + g.eval (x b) * dcofac X (x a, x b, x c) 1 j)) := by
      refine Finset.sum_congr rfl fun c _ => ?_
      rw [Finset.sum_comm]
      refine Finset.sum_congr rfl fun a _ => ?_
      simp only [hS1, Finset.mul_sum]
      exact Finset.sum_congr rfl fun b _ => by ring
    have r2 : ∑ b ∈ range (p + 2), ∑ a ∈ range (p + 2), w a * w b * (f.eval (x a) * g.eval (x b) * S2 a b)
        = ∑ c ∈ range (p + 2), ∑ b ∈ range (p + 2), ∑ a ∈ range (p + 2), w a * w b * w c * (f.eval (x a) * g.eval (x b) *
          ((derivative k).eval (x c) * cofac X (x a, x b, x c) 2 j + k.eval (x c) * dcofac X (x a, x b, x c) 2 j)) := by
      symm
      rw [Finset.sum_comm]
      refine Finset.sum_congr rfl fun b _ => ?_
      rw [Finset.sum_comm]
      refine Finset.sum_congr rfl fun a _ => ?_
      simp only [hS2, Finset.mul_sum]
      exact Finset.sum_congr rfl fun c _ => by ring
    have r0 : ∑ c ∈ range (p + 2), ∑ b ∈ range (p + 2), w b * w c * (g.eval (x b) * k.eval (x c) * S0 b c)
        = ∑ c ∈ range (p + 2), ∑ b ∈ range (p + 2), ∑ a ∈ range (p + 2), w a * w b * w c * (g.eval (x b) * k.eval (x c) *
          ((derivative f).eval (x a) * cofac X (x a, x b, x c) 0 j + f.eval (x a) * dcofac X (x a, x b, x c) 0 j)) := by
      refine Finset.sum_congr rfl fun c _ => Finset.sum_congr rfl fun b _ => ?_
      simp only [hS0, Finset.mul_sum]
      exact Finset.sum_congr rfl fun a _ => by ring
    rw [r0, r1, r2, ← Finset.sum_add_distrib, ← Finset.sum_add_distrib]
    refine Finset.sum_congr rfl fun c _ => ?_
    rw [← Finset.sum_add_distrib, ← Finset.sum_add_distrib]
    refine Finset.sum_congr rfl fun b _ => ?_
    rw [← Finset.sum_add_distrib, ← Finset.sum_add_distrib]
    refine Finset.sum_congr rfl fun a _ => ?_
    have hpi := piola X (x a, x b, x c) j
    linear_combination (- (w a * w b * w c * (f.eval (x a) * g.eval (x b) * k.eval (x c)))) * hpi
  have hsum3 := sum_div_mod3 (p + 2) (fun a b c => w a * w b * w c *
      (0 + (derivative f).eval (x a) * g.eval (x b) * k.eval (x c) * cofac X (x a, x b, x c) 0 j
        + f.eval (x a) * (derivative g).eval (x b) * k.eval (x c) * cofac X (x a, x b, x c) 1 j
        + f.eval (x a) * g.eval (x b) * (derivative k).eval (x c) * cofac X (x a, x b, x c) 2 j))
  rw [hV] at hsum3
  simp only at hsum3 ⊢
  rw [hsum3]
  set D0 := ∑ c ∈ range (p + 2), ∑ b ∈ range (p + 2), w b * w c * (g.eval (x b) * k.eval (x c) * (S0 b c -
    (f.eval 1 * cofac X (1, x b, x c) 0 j - f.eval (-1) * cofac X (-1, x b, x c) 0 j))) with hD0
  set D1 := ∑ c ∈ range (p + 2), ∑ a ∈ range (p + 2), w a * w c * (f.eval (x a) * k.eval (x c) * (S1 a c -
    (g.eval 1 * cofac X (x a, 1, x c) 1 j - g.eval (-1) * cofac X (x a, -1, x c) 1 j))) with hD1
  set D2 := ∑ b ∈ range (p + 2), ∑ a ∈ range (p + 2), w a * w b * (f.eval (x a) * g.eval (x b) * (S2 a b -
    (k.eval 1 * cofac X (x a, x b, 1) 2 j - k.eval (-1) * cofac X (x a, x b, -1) 2 j))) with hD2
  have tot : ∑ c ∈ range (p + 2), ∑ b ∈ range (p + 2), w b * w c * (g.eval (x b) * k.eval (x c) * S0 b c)
        + ∑ c ∈ range (p + 2), ∑ a ∈ range (p + 2), w a * w c * (f.eval (x a) * k.eval (x c) * S1 a c)
        + ∑ b ∈ range (p + 2), ∑ a ∈ range (p + 2), w a * w b * (f.eval (x a) * g.eval (x b) * S2 a b)
      - ∑ c ∈ range (p + 2), ∑ a ∈ range (p + 2), w a * w c *
        ((f.eval 1 * g.eval (x a) * k.eval (x c) * cofac X (1, x a, x c) 0 j
          - f.eval (-1) * g.eval (x a) * k.eval (x c) * cofac X (-1, x a, x c) 0 j)
        + (f.eval (x a) * g.eval 1 * k.eval (x c) * cofac X (x a, 1, x c) 1 j
          - f.eval (x a) * g.eval (-1) * k.eval (x c) * cofac X (x a, -1, x c) 1 j)
        + (f.eval (x a) * g.eval (x c) * k.eval 1 * cofac X (x a, x c, 1) 2 j
          - f.eval (x a) * g.eval (x c) * k.eval (-1) * cofac X (x a, x c, -1) 2 j)) = D0 + D1 + D2 := by
    rw [hD0, hD1, hD2, ← Finset.sum_add_distrib, ← Finset.sum_add_distrib, ← Finset.sum_sub_distrib,
      ← Finset.sum_add_distrib, ← Finset.sum_add_distrib]
    refine Finset.sum_congr rfl fun c _ => ?_
    rw [← Finset.sum_add_distrib, ← Finset.sum_add_distrib, ← Finset.sum_sub_distrib,
      ← Finset.sum_add_distrib, ← Finset.sum_add_distrib]
    exact Finset.sum_congr rfl fun a _ => by ring
  rw [tot]
  have hprod : 0 ≤ coeffSum f * coeffSum g * coeffSum k := by positivity
  calc |D0 + D1 + D2| ≤ |D0| + |D1| + |D2| := (abs_add_le _ _).trans (add_le_add_left (abs_add_le _ _) _)
    _ ≤ (11 / 5) ^ 2 * (coeffSum g * coeffSum k * (ε * coeffSum f)) + (11 / 5) ^ 2 * (coeffSum f * coeffSum k * (ε * coeffSum g))
        + (11 / 5) ^ 2 * (coeffSum f * coeffSum g * (ε * coeffSum k)) := add_le_add (add_le_add d0 d1) d2
    _ = 3 * (11 / 5) ^ 2 * ε * (coeffSum f * coeffSum g * coeffSum k) := by ring
    _ ≤ _ := by
        refine mul_le_mul_of_nonneg_right ?_ hprod
        rw [hε]
        have : 0 ≤ ((p:ℝ) + 2) * hh ^ 2 := by positivity
        have e1 : 3 * (11 / 5 : ℝ) ^ 2 * (1 / 10 ^ 30 * ((p + 2) * (hh ^ 2 / 2))) = 363 / 50 / 10 ^ 30 * ((p + 2) * hh ^ 2) := by ring
        have e2 : 8 * ((p:ℝ) + 2) / 10 ^ 30 * hh ^ 2 = 8 / 10 ^ 30 * ((p + 2) * hh ^ 2) := by ring
        rw [e1, e2]
        exact mul_le_mul_of_nonneg_right (by norm_num) this

end DG
