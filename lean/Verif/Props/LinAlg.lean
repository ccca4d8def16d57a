import Verif.Lemmas.LinAlg
import Mathlib.Data.Matrix.Mul
import Mathlib.LinearAlgebra.CrossProduct
import Mathlib.Data.Rat.Defs
import Mathlib.Tactic.NormNum
import Mathlib.Tactic.FinCases
import Mathlib.Tactic.LinearCombination

/-! C27, C28: small dense linear algebra. -/
namespace DG
open Finset Matrix

section
variable {K : Type} [Field K]

/-! ## C27 -/

/-- **C27** (determinant).  For sizes 1, 2, 3 the routine returns the determinant whatever the
output held; for any other size the output is left as it was. -/
theorem C27_det (n : ℕ) (m : ℕ → ℕ → K) (d0 : K) :
    ((1 ≤ n ∧ n ≤ 3) → detTo n m d0 = (toM n n m).det) ∧
    (¬ (1 ≤ n ∧ n ≤ 3) → detTo n m d0 = d0) := by
  constructor
  · rintro ⟨h1, h3⟩
    have hn : n = 1 ∨ n = 2 ∨ n = 3 := by omega
    rcases hn with rfl | rfl | rfl
    · simp [detTo, toM, Matrix.det_fin_one]
    · simp [detTo, toM, Matrix.det_fin_two]
    · simp [detTo, toM, Matrix.det_fin_three]
  · intro h
    match n with
    | 0 => rfl
    | 1 => omega
    | 2 => omega
    | 3 => omega
    | n + 4 => rfl

theorem invA_mul_small (n : ℕ) (h1 : 1 ≤ n) (h3 : n ≤ 3) (m imat : ℕ → ℕ → K)
    (hd : (toM n n m).det ≠ 0) : toM n n m * toM n n (invA n m imat) = 1 := by
  have hn : n = 1 ∨ n = 2 ∨ n = 3 := by omega
  rcases hn with rfl | rfl | rfl
  · rw [Matrix.det_fin_one] at hd
    have hd' : m 0 0 ≠ 0 := hd
    ext i j
    fin_cases i; fin_cases j
    rw [toM_mul]
    simp [invA, Finset.sum_range_succ, hd']
  · rw [Matrix.det_fin_two] at hd
    have hd' : m 0 0 * m 1 1 - m 0 1 * m 1 0 ≠ 0 := hd
    ext i j
    rw [toM_mul]
    generalize hD : m 0 0 * m 1 1 - m 0 1 * m 1 0 = D at hd'
    fin_cases i <;> fin_cases j <;>
      simp [invA, Finset.sum_range_succ, hD] <;> field_simp <;> (try rw [← hD]) <;> ring
  · rw [Matrix.det_fin_three] at hd
    have hd' : m 0 0 * m 1 1 * m 2 2 - m 0 0 * m 1 2 * m 2 1
      - m 0 1 * m 1 0 * m 2 2 + m 0 1 * m 1 2 * m 2 0
      + m 0 2 * m 1 0 * m 2 1 - m 0 2 * m 1 1 * m 2 0 ≠ 0 := hd
    ext i j
    rw [toM_mul]
    generalize hD : m 0 0 * m 1 1 * m 2 2 - m 0 0 * m 1 2 * m 2 1
      - m 0 1 * m 1 0 * m 2 2 + m 0 1 * m 1 2 * m 2 0
      + m 0 2 * m 1 0 * m 2 1 - m 0 2 * m 1 1 * m 2 0 = D at hd'
    fin_cases i <;> fin_cases j <;>
      simp [invA, Finset.sum_range_succ, hD] <;> field_simp <;> (try rw [← hD]) <;> ring

/-- **C27** (inverse, sizes 1 to 3).  For every invertible matrix the routine returns the two-sided
inverse, whatever the output view held on entry. -/
theorem C27_inverse_small (n : ℕ) (h1 : 1 ≤ n) (h3 : n ≤ 3) (m imat : ℕ → ℕ → K)
    (hd : (toM n n m).det ≠ 0) :
    toM n n m * toM n n (invA n m imat) = 1 ∧ toM n n (invA n m imat) * toM n n m = 1 := by
  have h := invA_mul_small n h1 h3 m imat hd
  exact ⟨h, mul_eq_one_comm.1 h⟩

theorem invA_large_eq (n : ℕ) (h4 : 4 ≤ n) (m imat : ℕ → ℕ → K) :
    invA n m imat = serialSolveLU n (serialLU n m) (identityTo n imat) := by
  obtain ⟨k, rfl⟩ : ∃ k, n = k + 4 := ⟨n - 4, by omega⟩
  rfl

/-- **C27** (sizes from 4 on).  Elimination without pivoting succeeds when the leading principal
minors are non-zero; the routine then returns the two-sided inverse exactly when the off-diagonal
entries of the output view were zero on entry: the caller has to provide a clean workspace. -/
theorem C27_inverse_large (n : ℕ) (h4 : 4 ≤ n) (m imat : ℕ → ℕ → K)
    (minors : ∀ q < n, (toM (q + 1) (q + 1) m).det ≠ 0) :
    (toM n n m * toM n n (invA n m imat) = 1 ∧ toM n n (invA n m imat) * toM n n m = 1) ↔
      ∀ i < n, ∀ j < n, i ≠ j → imat i j = 0 := by
  have h := lu_solve n n m (identityTo n imat) minors
  rw [← invA_large_eq n h4] at h
  constructor
  · rintro ⟨h1, -⟩ i hi j hj hij
    rw [h1] at h
    have := congrFun (congrFun h ⟨i, hi⟩) ⟨j, hj⟩
    rw [Matrix.one_apply_ne (by simpa [Fin.ext_iff] using hij)] at this
    have e : toM n n (identityTo n imat) ⟨i, hi⟩ ⟨j, hj⟩ = imat i j := by
      simp [toM, identityTo, hij]
    rw [e] at this
    exact this.symm
  · intro hz
    have e : toM n n (identityTo n imat) = 1 := by
      ext i j
      rw [Matrix.one_apply]
      simp only [toM, identityTo]
      by_cases hij : i = j
      · subst hij; rw [if_pos ⟨i.2, i.2, rfl⟩, if_pos rfl]
      · have hne : (i : ℕ) ≠ j := fun h => hij (Fin.ext h)
        rw [if_neg (by rintro ⟨-, -, h⟩; exact hne h), if_neg hij]
        exact hz i i.2 j j.2 hne
    rw [e] at h
    exact ⟨h, mul_eq_one_comm.1 h⟩

/-- Without the condition on the minors the claim fails: there is an invertible 4×4 matrix (its own
inverse) and a clean workspace for which the result is not the inverse. -/
theorem C27_no_pivoting :
    ∃ m imat : ℕ → ℕ → ℚ, (toM 4 4 m).det ≠ 0 ∧ (∀ i j, imat i j = 0) ∧
      toM 4 4 m * toM 4 4 (invA 4 m imat) ≠ 1 := by
  let m : ℕ → ℕ → ℚ := fun i j => if (i = 0 ∧ j = 1) ∨ (i = 1 ∧ j = 0) ∨ (2 ≤ i ∧ i = j) then 1 else 0
  refine ⟨m, fun _ _ => 0, ?_, fun _ _ => rfl, ?_⟩
  · have : toM 4 4 m * toM 4 4 m = 1 := by
      ext i j
      rw [toM_mul]
      fin_cases i <;> fin_cases j <;> simp [m, Finset.sum_range_succ]
    intro h0
    have := congrArg Matrix.det this
    rw [Matrix.det_mul, h0] at this
    simp at this
  · intro h
    have := congrFun (congrFun h 1) 1
    rw [toM_mul] at this
    have e : invA 4 m (fun _ _ => 0) 0 1 = 0 := by
      simp [invA, serialSolveLU, serialLU, luStep, fwdStep, bwdStep, identityTo, List.range_succ, m]
    simp [Finset.sum_range_succ, m, e] at this

/-! ## C28 -/

variable [DecidableEq K]

theorem gemm_toM (α : K) (m n k : ℕ) (a b C : ℕ → ℕ → K) :
    toM m n (gemm α 0 m n k a b C) = α • (toM m k a * toM k n b) := by
  ext i j
  rw [Matrix.smul_apply, toM_mul]
  simp only [toM, gemm, i.2, j.2, and_self, if_true, zero_add, loopSum_eq, smul_eq_mul,
    Finset.mul_sum, mul_assoc]

/-- **C28** (products).  Each product routine fills the whole `m × n` output with the product its
name announces, for every previous content of the output (the accumulating variant adds it), and
touches nothing outside the output. -/
theorem C28_products (c : K) (m n k : ℕ) (A B C : ℕ → ℕ → K) :
    toM m n (cAxB_to_C c m n k A B C) = c • (toM m k A * toM k n B) ∧
    toM m n (cAxBT_to_C c m n k A B C) = c • (toM m k A * (toM n k B)ᵀ) ∧
    toM m n (cATxB_to_C c m n k A B C) = c • ((toM k m A)ᵀ * toM k n B) ∧
    toM m n (cATxBpC_to_C c m n k A B C) = c • ((toM k m A)ᵀ * toM k n B) + toM m n C ∧
    (∀ i j, ¬ (i < m ∧ j < n) → cAxB_to_C c m n k A B C i j = C i j ∧
      cAxBT_to_C c m n k A B C i j = C i j ∧ cATxB_to_C c m n k A B C i j = C i j ∧
      cATxBpC_to_C c m n k A B C i j = C i j) := by
  refine ⟨gemm_toM _ _ _ _ _ _ _, gemm_toM _ _ _ _ _ _ _, gemm_toM _ _ _ _ _ _ _, ?_, ?_⟩
  · ext i j
    have : (toM m k (fun i p => A p i) * toM k n B) i j = ∑ p ∈ range k, A p i * B p j := toM_mul ..
    rw [Matrix.add_apply, Matrix.smul_apply]
    rw [show (toM k m A)ᵀ = toM m k (fun i p => A p i) from rfl, this]
    simp only [toM, cATxBpC_to_C, gemm, i.2, j.2, and_self, if_true, one_ne_zero, if_false,
      loopSum_eq, smul_eq_mul, Finset.mul_sum, mul_assoc, one_mul]
    rw [add_comm]
  · intro i j h
    simp only [cAxB_to_C, cAxBT_to_C, cATxB_to_C, cATxBpC_to_C, gemm, if_neg h, and_self]

omit [DecidableEq K] in
/-- **C28** (vector updates, dot and cross products).  `axpy`-style updates compute `c*A + B` on
exactly the first `n` entries; the specialised dot products are the sum of products; the cross
product is the vector cross product. -/
theorem C28_vectors (n : ℕ) (c : K) (A B C : ℕ → K) :
    (∀ i, cApB_to_B n c A B i = if i < n then c * A i + B i else B i) ∧
    (∀ i, cApB_to_C n c A B C i = if i < n then c * A i + B i else C i) ∧
    dotN n A B = ∑ i ∈ range n, A i * B i ∧
    dot2 A B = ∑ i ∈ range 2, A i * B i ∧ dot3 A B = ∑ i ∈ range 3, A i * B i ∧
    dot4 A B = ∑ i ∈ range 4, A i * B i ∧ dot5 A B = ∑ i ∈ range 5, A i * B i ∧
    (fun i : Fin 3 => cross A B C i) = crossProduct (fun i : Fin 3 => A i) (fun i : Fin 3 => B i) := by
  refine ⟨fun i => rfl, fun i => by simp [cApB_to_C], loopSum_eq _ _, ?_, ?_, ?_, ?_, ?_⟩
  · simp [dot2, Finset.sum_range_succ]
  · simp [dot3, Finset.sum_range_succ]
  · simp [dot4, Finset.sum_range_succ]
  · simp [dot5, Finset.sum_range_succ]
  · ext i
    rw [cross_apply]
    fin_cases i <;> simp [cross]

end

/-! Non-vacuity: an invertible 3×3 matrix and a 4×4 matrix with non-zero leading minors. -/

example : (toM 3 3 (fun i j => if i = j then (2 : ℚ) else 1)).det = 4 := by
  rw [Matrix.det_fin_three]; simp [toM]; norm_num

example : toM 2 2 (invA 2 (fun i j => ((i + 2 * j + 1 : ℕ) : ℚ)) fun _ _ => 77)
    = !![-2, 3/2; 1, -1/2] := by
  ext i j
  fin_cases i <;> fin_cases j <;> simp [toM, invA] <;> norm_num

/-- hypotheses of `C27_inverse_large`: a 4×4 triangular matrix -/
example : ∀ q < 4, (toM (q + 1) (q + 1) (fun i j => if i ≤ j then (2 : ℚ) else 0)).det ≠ 0 := by
  intro q _
  rw [Matrix.det_of_upperTriangular]
  · refine Finset.prod_ne_zero_iff.2 fun i _ => ?_
    simp [toM]
  · intro i j h
    have h' : (j : ℕ) < i := h
    simp only [toM]; rw [if_neg (by omega)]

end DG
