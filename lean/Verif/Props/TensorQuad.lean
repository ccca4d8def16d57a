import Verif.Props.Quadrature
import Verif.Lemmas.Normals

/-! C26: tensor-product quadrature. -/
namespace DG
open Polynomial Finset

/-- Specification: value of a rule on a function of several variables. -/
noncomputable def quadSumOn {α : Type} (wts : List ℝ) (pts : List α) (f : α → ℝ) : ℝ :=
  (List.zipWith (fun w x => w * f x) wts pts).sum

theorem quadSumOn_range {α : Type} (n : ℕ) (w : ℕ → ℝ) (x : ℕ → α) (f : α → ℝ) :
    quadSumOn ((List.range n).map w) ((List.range n).map x) f = ∑ i ∈ range n, w i * f (x i) := by
  unfold quadSumOn
  rw [List.zipWith_map, List.zipWith_self, Finset.sum_range]
  rw [← List.sum_ofFn, List.ofFn_eq_map]
  congr 1
  rw [← List.map_coe_finRange_eq_range, List.map_map]
  rfl

theorem list_eq_range {n : ℕ} (l : List ℝ) (h : l.length = n) : l = (List.range n).map (get0 l) := by
  refine List.ext_getElem? fun i => ?_
  by_cases hi : i < n
  · have hi' : i < l.length := by omega
    simp [hi, get0, List.getElem?_eq_getElem hi']
  · have hi' : l.length ≤ i := by omega
    simp [hi, List.getElem?_eq_none hi']

theorem quadSum_range (wts pts : List ℝ) (n : ℕ) (hw : wts.length = n) (hp : pts.length = n) (f : ℝ → ℝ) :
    quadSum wts pts f = ∑ i ∈ range n, get0 wts i * f (get0 pts i) := by
  have e : quadSum wts pts f = quadSumOn wts pts f := rfl
  rw [e]
  conv_lhs => rw [list_eq_range wts hw, list_eq_range pts hp]
  exact quadSumOn_range n _ _ f

theorem get_get0 (l : List ℝ) (i : ℕ) (h : i < l.length) : l[i]? = some (get0 l i) := by
  simp [get0, List.getElem?_eq_getElem h]

/-- **C26** (quadrilateral).  For every order of the tables, with `x`, `w` the one-dimensional rule:
the rule of the square lists, first direction fastest, the points `(x_i, x_j)` at position
`j·n + i` with weight `w_i w_j`, whatever the views held, and its value on a product of functions of
one variable is the product of the one-dimensional values. -/
theorem C26_quad_tensor (order : ℕ) (ho : order < 50) (vp : List (ℝ × ℝ)) (vw : List ℝ)
    (hp : vp.length = (numQuadPoints order 2 0).2) (hw : vw.length = (numQuadPoints order 2 0).2) :
    ∃ x w pts wts,
      segmentGL (K := ℝ) order (List.replicate (numQuadPoints order 2 0).1 0)
        (List.replicate (numQuadPoints order 2 0).1 0) = some (x, w) ∧
      quadGL order (numQuadPoints order 2 0).1 vp vw = some (pts, wts) ∧
      pts.length = vp.length ∧ wts.length = vw.length ∧
      (∀ i < (numQuadPoints order 2 0).1, ∀ j < (numQuadPoints order 2 0).1, ∃ xi xj wi wj,
        x[i]? = some xi ∧ x[j]? = some xj ∧ w[i]? = some wi ∧ w[j]? = some wj ∧
        pts[j * (numQuadPoints order 2 0).1 + i]? = some (xi, xj) ∧
        wts[j * (numQuadPoints order 2 0).1 + i]? = some (wi * wj)) ∧
      ∀ f g : ℝ → ℝ, quadSumOn wts pts (fun p => f p.1 * g p.2) = quadSum w x f * quadSum w x g := by
  have h1 := (C25_sizes order 2 0).1
  obtain ⟨⟨x, w, hx, hxl, hwl⟩, -⟩ := (C25_sizes order 1 0).2 ho
    (List.replicate (numQuadPoints order 2 0).1 (0:ℝ)) (List.replicate (numQuadPoints order 2 0).1 (0:ℝ))
    (by rw [List.length_replicate, h1, (C25_sizes order 1 0).1])
    (by rw [List.length_replicate, h1, (C25_sizes order 1 0).1])
  simp only [h1] at *
  simp only [List.length_replicate] at hxl hwl
  set n := order / 2 + 1 with hn
  have hxy : glNodes (K := ℝ) order (List.replicate n 0) = some x ∧
      glWeights (K := ℝ) order (List.replicate n 0) = some w := by
    unfold segmentGL at hx
    cases h1 : glNodes (K := ℝ) order (List.replicate n 0) with
    | none => simp [h1] at hx
    | some a =>
      cases h2 : glWeights (K := ℝ) order (List.replicate n 0) with
      | none => simp [h1, h2] at hx
      | some b => simp [h1, h2] at hx; rw [hx.1, hx.2]; exact ⟨rfl, rfl⟩
  have hP := fill2 n (fun j i => (get0 x i, get0 x j)) (fun m => (get0 x (m % n), get0 x (m / n))) vp
    (by rw [hp]; ring) (fun j _ i hi => by simp only [idx2_div hi, idx2_mod hi])
  have hW := fill2 n (fun j i => get0 w i * get0 w j) (fun m => get0 w (m % n) * get0 w (m / n)) vw
    (by rw [hw]; ring) (fun j _ i hi => by simp only [idx2_div hi, idx2_mod hi])
  refine ⟨x, w, (List.range (n * n)).map (fun m => (get0 x (m % n), get0 x (m / n))),
    (List.range (n * n)).map (fun m => get0 w (m % n) * get0 w (m / n)), hx, ?_, ?_, ?_, ?_, ?_⟩
  · unfold quadGL
    rw [hxy.1, hxy.2]
    simp only [Option.bind_eq_bind, Option.bind_some]
    rw [hP, hW]; rfl
  · simp [hp]; ring
  · simp [hw]; ring
  · intro i hi j hj
    have hm : j * n + i < n * n := by nlinarith
    refine ⟨_, _, _, _, get_get0 x i (by omega), get_get0 x j (by omega), get_get0 w i (by omega),
      get_get0 w j (by omega), ?_, ?_⟩
    · simp [hm, idx2_div hi, idx2_mod hi]
    · simp [hm, idx2_div hi, idx2_mod hi]
  · intro f g
    rw [quadSumOn_range, quadSum_range w x n hwl hxl, quadSum_range w x n hwl hxl]
    have := sum_div_mod (K := ℝ) n n (fun c r => (get0 w c * get0 w r) * (f (get0 x c) * g (get0 x r)))
    simp only [] at this ⊢
    rw [this, Finset.sum_mul_sum, Finset.sum_comm]
    refine Finset.sum_congr rfl fun i _ => Finset.sum_congr rfl fun j _ => by ring

/-- **C26** (hexahedron).  As `C26_quad_tensor`, at position `k·n² + j·n + i`. -/
theorem C26_hex_tensor (order : ℕ) (ho : order < 50) (vp : List (ℝ × ℝ × ℝ)) (vw : List ℝ)
    (hp : vp.length = (numQuadPoints order 3 0).2) (hw : vw.length = (numQuadPoints order 3 0).2) :
    ∃ x w pts wts,
      segmentGL (K := ℝ) order (List.replicate (numQuadPoints order 3 0).1 0)
        (List.replicate (numQuadPoints order 3 0).1 0) = some (x, w) ∧
      hexGL order (numQuadPoints order 3 0).1 vp vw = some (pts, wts) ∧
      pts.length = vp.length ∧ wts.length = vw.length ∧
      (∀ i < (numQuadPoints order 3 0).1, ∀ j < (numQuadPoints order 3 0).1,
        ∀ k < (numQuadPoints order 3 0).1, ∃ xi xj xk wi wj wk,
        x[i]? = some xi ∧ x[j]? = some xj ∧ x[k]? = some xk ∧
        w[i]? = some wi ∧ w[j]? = some wj ∧ w[k]? = some wk ∧
        pts[k * (numQuadPoints order 3 0).1 * (numQuadPoints order 3 0).1
          + j * (numQuadPoints order 3 0).1 + i]? = some (xi, xj, xk) ∧
        wts[k * (numQuadPoints order 3 0).1 * (numQuadPoints order 3 0).1
          + j * (numQuadPoints order 3 0).1 + i]? = some (wi * wj * wk)) ∧
      ∀ f g h : ℝ → ℝ, quadSumOn wts pts (fun p => f p.1 * g p.2.1 * h p.2.2)
        = quadSum w x f * quadSum w x g * quadSum w x h := by
  have h1 := (C25_sizes order 3 0).1
  obtain ⟨⟨x, w, hx, hxl, hwl⟩, -⟩ := (C25_sizes order 1 0).2 ho
    (List.replicate (numQuadPoints order 3 0).1 (0:ℝ)) (List.replicate (numQuadPoints order 3 0).1 (0:ℝ))
    (by rw [List.length_replicate, h1, (C25_sizes order 1 0).1])
    (by rw [List.length_replicate, h1, (C25_sizes order 1 0).1])
  simp only [h1] at *
  simp only [List.length_replicate] at hxl hwl
  set n := order / 2 + 1 with hn
  have hxy : glNodes (K := ℝ) order (List.replicate n 0) = some x ∧
      glWeights (K := ℝ) order (List.replicate n 0) = some w := by
    unfold segmentGL at hx
    cases h1 : glNodes (K := ℝ) order (List.replicate n 0) with
    | none => simp [h1] at hx
    | some a =>
      cases h2 : glWeights (K := ℝ) order (List.replicate n 0) with
      | none => simp [h1, h2] at hx
      | some b => simp [h1, h2] at hx; rw [hx.1, hx.2]; exact ⟨rfl, rfl⟩
  have hP := fill3 n (fun k j i => (get0 x i, get0 x j, get0 x k))
    (fun m => (get0 x (m % n), get0 x (m / n % n), get0 x (m / (n * n)))) vp
    (by rw [hp]; ring) (fun k _ j hj i hi => by
      obtain ⟨h1, h2, h3⟩ := idx3 (n := n) (k := k) hj hi
      simp only [h1, h2, h3])
  have hW := fill3 n (fun k j i => get0 w i * get0 w j * get0 w k)
    (fun m => get0 w (m % n) * get0 w (m / n % n) * get0 w (m / (n * n))) vw
    (by rw [hw]; ring) (fun k _ j hj i hi => by
      obtain ⟨h1, h2, h3⟩ := idx3 (n := n) (k := k) hj hi
      simp only [h1, h2, h3])
  refine ⟨x, w, (List.range (n * n * n)).map
      (fun m => (get0 x (m % n), get0 x (m / n % n), get0 x (m / (n * n)))),
    (List.range (n * n * n)).map (fun m => get0 w (m % n) * get0 w (m / n % n) * get0 w (m / (n * n))),
    hx, ?_, ?_, ?_, ?_, ?_⟩
  · unfold hexGL
    rw [hxy.1, hxy.2]
    simp only [Option.bind_eq_bind, Option.bind_some]
    rw [hP, hW]; rfl
  · simp [hp]; ring
  · simp [hw]; ring
  · intro i hi j hj k hk
    have hm : k * n * n + j * n + i < n * n * n := by
      have : k * n + j < n * n := by nlinarith
      nlinarith
    obtain ⟨h1, h2, h3⟩ := idx3 (n := n) (k := k) hj hi
    refine ⟨_, _, _, _, _, _, get_get0 x i (by omega), get_get0 x j (by omega), get_get0 x k (by omega),
      get_get0 w i (by omega), get_get0 w j (by omega), get_get0 w k (by omega), ?_, ?_⟩
    · simp [hm, h1, h2, h3]
    · simp [hm, h1, h2, h3]
  · intro f g h
    rw [quadSumOn_range, quadSum_range w x n hwl hxl, quadSum_range w x n hwl hxl,
      quadSum_range w x n hwl hxl]
    have := sum_div_mod3 (K := ℝ) n (fun c r q => (get0 w c * get0 w r * get0 w q)
      * (f (get0 x c) * g (get0 x r) * h (get0 x q)))
    simp only [] at this ⊢
    rw [this, mul_assoc, Finset.sum_mul_sum, Finset.sum_mul_sum, Finset.sum_comm]
    conv_lhs => enter [2, j]; rw [Finset.sum_comm]
    rw [Finset.sum_comm]
    refine Finset.sum_congr rfl fun i _ => ?_
    refine Finset.sum_congr rfl fun j _ => ?_
    rw [Finset.mul_sum]
    refine Finset.sum_congr rfl fun k _ => by ring

theorem abs_integral_pow_le (i : ℕ) : |∫ x in (-1:ℝ)..1, x ^ i| ≤ 2 := by
  rw [integral_pow]
  rw [abs_div, abs_of_pos (by positivity : (0:ℝ) < (i:ℝ) + 1), div_le_iff₀ (by positivity)]
  have : |(1:ℝ) ^ (i + 1) - (-1) ^ (i + 1)| ≤ 2 := by
    refine (abs_sub _ _).trans ?_
    simp [abs_pow]; norm_num
  have h : (0:ℝ) ≤ i := Nat.cast_nonneg i
  linarith

theorem abs_integral_poly_le (p : ℝ[X]) : |∫ x in (-1:ℝ)..1, p.eval x| ≤ 2 * coeffSum p := by
  rw [integral_poly]
  refine (Finset.abs_sum_le_sum_abs _ _).trans ?_
  unfold coeffSum; rw [Finset.mul_sum]
  refine Finset.sum_le_sum fun i _ => ?_
  rw [abs_mul, mul_comm]
  exact mul_le_mul_of_nonneg_right (abs_integral_pow_le i) (abs_nonneg _)

theorem prod_err {A B a b Cp Cq α ε δ : ℝ} (hp : 0 ≤ Cp) (hq : 0 ≤ Cq) (h0 : 0 ≤ ε) (h1 : ε ≤ 1)
    (hδ : 0 ≤ δ) (hα : 0 ≤ α)
    (hA : |A - a| ≤ δ * Cp) (ha : |a| ≤ α * Cp) (hB : |B - b| ≤ ε * Cq) (hb : |b| ≤ 2 * Cq) :
    |A * B - a * b| ≤ (3 * δ + α * ε) * (Cp * Cq) := by
  have e : A * B - a * b = (A - a) * B + a * (B - b) := by ring
  have hB' : |B| ≤ 3 * Cq := by
    have : B = (B - b) + b := by ring
    rw [this]
    refine (abs_add_le _ _).trans ?_
    nlinarith
  rw [e]
  refine (abs_add_le _ _).trans ?_
  rw [abs_mul, abs_mul]
  have t1 : |A - a| * |B| ≤ (δ * Cp) * (3 * Cq) :=
    mul_le_mul hA hB' (abs_nonneg _) (by positivity)
  have t2 : |a| * |B - b| ≤ (α * Cp) * (ε * Cq) :=
    mul_le_mul ha hB (abs_nonneg _) (by positivity)
  nlinarith

theorem segment_zero (order : ℕ) (h : order < 50) (h6 : order ≠ 36) (h7 : order ≠ 37) (n : ℕ)
    (hn : n = order / 2 + 1) (x w : List ℝ)
    (hx : segmentGL (K := ℝ) order (List.replicate n 0) (List.replicate n 0) = some (x, w)) (p : ℝ[X])
    (hp : p.natDegree ≤ order) :
    |quadSum w x (fun x => p.eval x) - ∫ x in (-1:ℝ)..1, p.eval x| ≤ 1 / 10 ^ 30 * coeffSum p := by
  obtain ⟨pts, wts, h1, h2⟩ := C23_exact order h h6 h7 (List.replicate n 0) (List.replicate n 0)
    (by rw [numQuadPoints_fst, List.length_replicate, hn])
    (by rw [numQuadPoints_fst, List.length_replicate, hn])
  rw [hx] at h1
  obtain ⟨rfl, rfl⟩ := Prod.mk.inj (Option.some.inj h1)
  exact h2 p hp

/-- **C26** (quadrilateral, all orders of the tables but 36 and 37).  The rule of the square
integrates every product of polynomials of degree up to `order` in each variable with an error of at
most `10⁻²⁹` times the product of their coefficient sums; the weights add up to 4 within `10⁻²⁹`. -/
theorem C26_quad_exact (order : ℕ) (ho : order < 50) (h6 : order ≠ 36) (h7 : order ≠ 37)
    (vp : List (ℝ × ℝ)) (vw : List ℝ)
    (hp : vp.length = (numQuadPoints order 2 0).2) (hw : vw.length = (numQuadPoints order 2 0).2) :
    ∃ pts wts, quadGL order (numQuadPoints order 2 0).1 vp vw = some (pts, wts) ∧
      (∀ p q : ℝ[X], p.natDegree ≤ order → q.natDegree ≤ order →
        |quadSumOn wts pts (fun z => p.eval z.1 * q.eval z.2)
          - (∫ x in (-1:ℝ)..1, p.eval x) * (∫ x in (-1:ℝ)..1, q.eval x)|
          ≤ 1 / 10 ^ 29 * (coeffSum p * coeffSum q)) ∧
      |quadSumOn wts pts (fun _ => 1) - 4| ≤ 1 / 10 ^ 29 := by
  obtain ⟨x, w, pts, wts, h1, h2, -, -, -, h3⟩ := C26_quad_tensor order ho vp vw hp hw
  have hn := numQuadPoints_fst order 2 0
  have key : ∀ p q : ℝ[X], p.natDegree ≤ order → q.natDegree ≤ order →
        |quadSumOn wts pts (fun z => p.eval z.1 * q.eval z.2)
          - (∫ x in (-1:ℝ)..1, p.eval x) * (∫ x in (-1:ℝ)..1, q.eval x)|
          ≤ 1 / 10 ^ 29 * (coeffSum p * coeffSum q) := by
    intro p q hpd hqd
    have h := h3 (fun x => p.eval x) (fun x => q.eval x)
    rw [h]
    have a := segment_zero order ho h6 h7 _ hn x w h1 p hpd
    have b := segment_zero order ho h6 h7 _ hn x w h1 q hqd
    refine (prod_err (coeffSum_nonneg p) (coeffSum_nonneg q) (by norm_num) (by norm_num) (by norm_num)
      (by norm_num) a (abs_integral_poly_le p) b (abs_integral_poly_le q)).trans ?_
    refine mul_le_mul_of_nonneg_right (by norm_num) (mul_nonneg (coeffSum_nonneg p) (coeffSum_nonneg q))
  refine ⟨pts, wts, h2, key, ?_⟩
  have := key 1 1 (by simp) (by simp)
  simp [coeffSum] at this
  norm_num at this
  norm_num
  exact this

/-- **C26** (hexahedron, all orders of the tables but 36 and 37). -/
theorem C26_hex_exact (order : ℕ) (ho : order < 50) (h6 : order ≠ 36) (h7 : order ≠ 37)
    (vp : List (ℝ × ℝ × ℝ)) (vw : List ℝ)
    (hp : vp.length = (numQuadPoints order 3 0).2) (hw : vw.length = (numQuadPoints order 3 0).2) :
    ∃ pts wts, hexGL order (numQuadPoints order 3 0).1 vp vw = some (pts, wts) ∧
      (∀ p q r : ℝ[X], p.natDegree ≤ order → q.natDegree ≤ order → r.natDegree ≤ order →
        |quadSumOn wts pts (fun z => p.eval z.1 * q.eval z.2.1 * r.eval z.2.2)
          - (∫ x in (-1:ℝ)..1, p.eval x) * (∫ x in (-1:ℝ)..1, q.eval x) * (∫ x in (-1:ℝ)..1, r.eval x)|
          ≤ 1 / 10 ^ 28 * (coeffSum p * coeffSum q * coeffSum r)) ∧
      |quadSumOn wts pts (fun _ => 1) - 8| ≤ 1 / 10 ^ 28 := by
  obtain ⟨x, w, pts, wts, h1, h2, -, -, -, h3⟩ := C26_hex_tensor order ho vp vw hp hw
  have hn := numQuadPoints_fst order 3 0
  have key : ∀ p q r : ℝ[X], p.natDegree ≤ order → q.natDegree ≤ order → r.natDegree ≤ order →
        |quadSumOn wts pts (fun z => p.eval z.1 * q.eval z.2.1 * r.eval z.2.2)
          - (∫ x in (-1:ℝ)..1, p.eval x) * (∫ x in (-1:ℝ)..1, q.eval x) * (∫ x in (-1:ℝ)..1, r.eval x)|
          ≤ 1 / 10 ^ 28 * (coeffSum p * coeffSum q * coeffSum r) := by
    intro p q r hpd hqd hrd
    have h := h3 (fun x => p.eval x) (fun x => q.eval x) (fun x => r.eval x)
    rw [h]
    have a := segment_zero order ho h6 h7 _ hn x w h1 p hpd
    have b := segment_zero order ho h6 h7 _ hn x w h1 q hqd
    have c := segment_zero order ho h6 h7 _ hn x w h1 r hrd
    have ab := prod_err (coeffSum_nonneg p) (coeffSum_nonneg q) (by norm_num) (by norm_num) (by norm_num)
      (by norm_num) a (abs_integral_poly_le p) b (abs_integral_poly_le q)
    have i4 : |(∫ x in (-1:ℝ)..1, p.eval x) * (∫ x in (-1:ℝ)..1, q.eval x)|
        ≤ 4 * (coeffSum p * coeffSum q) := by
      rw [abs_mul]
      have := mul_le_mul (abs_integral_poly_le p) (abs_integral_poly_le q) (abs_nonneg _)
        (by have := coeffSum_nonneg p; positivity)
      linarith
    refine (prod_err (mul_nonneg (coeffSum_nonneg p) (coeffSum_nonneg q)) (coeffSum_nonneg r)
      (by norm_num) (by norm_num) (by norm_num) (by norm_num) ab i4 c (abs_integral_poly_le r)).trans ?_
    refine mul_le_mul_of_nonneg_right (by norm_num)
      (mul_nonneg (mul_nonneg (coeffSum_nonneg p) (coeffSum_nonneg q)) (coeffSum_nonneg r))
  refine ⟨pts, wts, h2, key, ?_⟩
  have := key 1 1 1 (by simp) (by simp) (by simp)
  simp [coeffSum] at this
  norm_num at this
  norm_num
  exact this

/-- **C26** (complete, quadrilateral): the tensor rule is exact exactly when the order is neither 36 nor
37. -/
theorem C26_quad_exact_iff (order : ℕ) (ho : order < 50) (vp : List (ℝ × ℝ)) (vw : List ℝ)
    (hp : vp.length = (numQuadPoints order 2 0).2) (hw : vw.length = (numQuadPoints order 2 0).2) :
    (∃ pts wts, quadGL order (numQuadPoints order 2 0).1 vp vw = some (pts, wts) ∧
      ∀ p q : ℝ[X], p.natDegree ≤ order → q.natDegree ≤ order →
        |quadSumOn wts pts (fun z => p.eval z.1 * q.eval z.2)
          - (∫ x in (-1:ℝ)..1, p.eval x) * (∫ x in (-1:ℝ)..1, q.eval x)|
          ≤ 1 / 10 ^ 29 * (coeffSum p * coeffSum q)) ↔ order ≠ 36 ∧ order ≠ 37 := by
  constructor
  · rintro ⟨pts, wts, h1, h2⟩
    by_contra hc
    have hb : order = 36 ∨ order = 37 := by omega
    obtain ⟨x, w, pts', wts', e1, e2, -, -, -, e3⟩ := C26_quad_tensor order ho vp vw hp hw
    rw [h1] at e2
    obtain ⟨rfl, rfl⟩ := Prod.mk.inj (Option.some.inj e2)
    have hd : (X ^ 2 : ℝ[X]).natDegree ≤ order := by rw [natDegree_X_pow]; omega
    have a := h2 (X ^ 2) (X ^ 2) hd hd
    rw [coeffSum_X_sq] at a
    simp only [eval_pow, eval_X] at a
    rw [e3 (fun x => x ^ 2) (fun x => x ^ 2), integral_pow] at a
    rw [show (numQuadPoints order 2 0).1 = (numQuadPoints order 1 0).1 by
      rw [numQuadPoints_fst, numQuadPoints_fst]] at e1
    obtain ⟨b0, b1⟩ := moment36 order hb x w e1
    have := (abs_le.1 a).1
    norm_num at this
    nlinarith
  · rintro ⟨h6, h7⟩
    obtain ⟨pts, wts, h1, h2, -⟩ := C26_quad_exact order ho h6 h7 vp vw hp hw
    exact ⟨pts, wts, h1, h2⟩

/-- **C26** (complete, hexahedron): the tensor rule is exact exactly when the order is neither 36 nor
37. -/
theorem C26_hex_exact_iff (order : ℕ) (ho : order < 50) (vp : List (ℝ × ℝ × ℝ)) (vw : List ℝ)
    (hp : vp.length = (numQuadPoints order 3 0).2) (hw : vw.length = (numQuadPoints order 3 0).2) :
    (∃ pts wts, hexGL order (numQuadPoints order 3 0).1 vp vw = some (pts, wts) ∧
      ∀ p q r : ℝ[X], p.natDegree ≤ order → q.natDegree ≤ order → r.natDegree ≤ order →
        |quadSumOn wts pts (fun z => p.eval z.1 * q.eval z.2.1 * r.eval z.2.2)
          - (∫ x in (-1:ℝ)..1, p.eval x) * (∫ x in (-1:ℝ)..1, q.eval x) * (∫ x in (-1:ℝ)..1, r.eval x)|
          ≤ 1 / 10 ^ 28 * (coeffSum p * coeffSum q * coeffSum r)) ↔ order ≠ 36 ∧ order ≠ 37 := by
  constructor
  · rintro ⟨pts, wts, h1, h2⟩
    by_contra hc
    have hb : order = 36 ∨ order = 37 := by omega
    obtain ⟨x, w, pts', wts', e1, e2, -, -, -, e3⟩ := C26_hex_tensor order ho vp vw hp hw
    rw [h1] at e2
    obtain ⟨rfl, rfl⟩ := Prod.mk.inj (Option.some.inj e2)
    have hd : (X ^ 2 : ℝ[X]).natDegree ≤ order := by rw [natDegree_X_pow]; omega
    have a := h2 (X ^ 2) (X ^ 2) (X ^ 2) hd hd hd
    rw [coeffSum_X_sq] at a
    simp only [eval_pow, eval_X] at a
    rw [e3 (fun x => x ^ 2) (fun x => x ^ 2) (fun x => x ^ 2), integral_pow] at a
    rw [show (numQuadPoints order 3 0).1 = (numQuadPoints order 1 0).1 by
      rw [numQuadPoints_fst, numQuadPoints_fst]] at e1
    obtain ⟨b0, b1⟩ := moment36 order hb x w e1
    have := (abs_le.1 a).1
    norm_num at this
    have c : quadSum w x (fun x => x ^ 2) * quadSum w x (fun x => x ^ 2) ≤ 61 / 100 * (61 / 100) :=
      mul_le_mul b1.le b1.le b0 (by norm_num)
    nlinarith [mul_nonneg b0 b0]
  · rintro ⟨h6, h7⟩
    obtain ⟨pts, wts, h1, h2, -⟩ := C26_hex_exact order ho h6 h7 vp vw hp hw
    exact ⟨pts, wts, h1, h2⟩

/-- views of the announced size exist for the order the solver uses at `p = 1` -/
example : ∃ pts wts, quadGL (K := ℝ) (gaussOrder 1) (numQuadPoints (gaussOrder 1) 2 0).1
    (List.replicate 9 (0, 0)) (List.replicate 9 0) = some (pts, wts) ∧
    |quadSumOn wts pts (fun _ => 1) - 4| ≤ 1 / 10 ^ 29 := by
  obtain ⟨pts, wts, h, -, h2⟩ := C26_quad_exact (gaussOrder 1) (by decide) (by decide) (by decide)
    (List.replicate 9 (0, 0)) (List.replicate 9 0) (by decide) (by decide)
  exact ⟨pts, wts, h, h2⟩

end DG
