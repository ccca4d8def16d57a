import Verif.Model.LinAlg
import Mathlib.LinearAlgebra.Matrix.NonsingularInverse
import Mathlib.LinearAlgebra.Matrix.Block
import Mathlib.Algebra.BigOperators.Ring.Finset
import Mathlib.Algebra.BigOperators.Intervals
import Mathlib.Tactic.Ring
import Mathlib.Tactic.FieldSimp

namespace DG
open Finset

variable {K : Type} [Field K]

theorem loopSum_eq (n : ℕ) (f : ℕ → K) : loopSum n f = ∑ i ∈ range n, f i := by
  unfold loopSum
  induction n with
  | zero => simp
  | succ n ih => rw [List.range_succ, List.foldl_append, ih, Finset.sum_range_succ]; rfl

/-- the `m × n` matrix held by a rank-2 view -/
def toM (m n : ℕ) (A : ℕ → ℕ → K) : Matrix (Fin m) (Fin n) K := fun i j => A i j

theorem toM_mul (m n k : ℕ) (A B : ℕ → ℕ → K) (i : Fin m) (j : Fin n) :
    (toM m k A * toM k n B) i j = ∑ p ∈ range k, A i p * B p j := by
  rw [Matrix.mul_apply, Finset.sum_range]; rfl

theorem sum_ite_lt {n t : ℕ} (ht : t ≤ n) (f : ℕ → K) :
    ∑ k ∈ range n, (if k < t then f k else 0) = ∑ k ∈ range t, f k := by
  rw [← Finset.sum_filter]
  congr 1
  ext k; simp; omega

/-! ### LU -/

def luIter (n p : ℕ) (A : ℕ → ℕ → K) : ℕ → ℕ → K := (List.range p).foldl (luStep n) A

theorem luIter_succ (n p : ℕ) (A : ℕ → ℕ → K) :
    luIter n (p + 1) A = luStep n (luIter n p A) p := by
  unfold luIter; rw [List.range_succ, List.foldl_append]; rfl

theorem luIter_row (n : ℕ) (A : ℕ → ℕ → K) (q p : ℕ) (h : q ≤ p) (j : ℕ) :
    luIter n p A q j = luIter n q A q j := by
  induction p with
  | zero => obtain rfl : q = 0 := by omega
            rfl
  | succ p ih =>
    rcases Nat.lt_or_ge q (p + 1) with h1 | h1
    · rw [luIter_succ, luStep, if_neg (by omega), ih (by omega)]
    · obtain rfl : q = p + 1 := by omega
      rfl

theorem luIter_inv (n : ℕ) (A : ℕ → ℕ → K) (p : ℕ) (hp : p ≤ n)
    (piv : ∀ q < p, luIter n q A q q ≠ 0) (i j : ℕ) (hi : i < n) (hj : j < n) :
    A i j = ∑ k ∈ range (min p (min i (j + 1))), luIter n p A i k * luIter n p A k j
      + (if j < i ∧ j < p then 0 else luIter n p A i j) := by
  induction p generalizing i j with
  | zero => simp [luIter]
  | succ p ih =>
    have IH := ih (by omega) (fun q hq => piv q (by omega)) i j hi hj
    rw [luIter_succ]
    have hpiv := piv p (by omega)
    generalize luIter n p A = M at *
    have hcol : ∀ i k, k < p → luStep n M p i k = M i k := by
      intro i k hk
      unfold luStep
      split
      · rw [if_neg (by omega), if_neg (by omega)]
      · rfl
    have hrow : ∀ k j, k ≤ p → luStep n M p k j = M k j := by
      intro k j hk
      unfold luStep
      rw [if_neg (by omega)]
    by_cases h1 : i ≤ p
    · rw [IH, hrow i j h1]
      have e : min (p + 1) (min i (j + 1)) = min p (min i (j + 1)) := by omega
      rw [e]
      have e2 : (j < i ∧ j < p + 1) ↔ (j < i ∧ j < p) := by omega
      simp only [e2]
      congr 1
      refine Finset.sum_congr rfl fun k hk => ?_
      rw [Finset.mem_range] at hk
      rw [hrow i k h1, hrow k j (by omega)]
    · have hsum : ∑ k ∈ range p, luStep n M p i k * luStep n M p k j
          = ∑ k ∈ range p, M i k * M k j := by
        refine Finset.sum_congr rfl fun k hk => ?_
        rw [Finset.mem_range] at hk
        rw [hcol i k hk, hrow k j (by omega)]
      rcases Nat.lt_trichotomy j p with h2 | h2 | h2
      · rw [IH, if_pos (by omega), if_pos (by omega)]
        have e : min (p + 1) (min i (j + 1)) = min p (min i (j + 1)) := by omega
        rw [e]
        congr 1
        refine Finset.sum_congr rfl fun k hk => ?_
        rw [Finset.mem_range] at hk
        rw [hcol i k (by omega), hrow k j (by omega)]
      · subst h2
        rw [IH, if_neg (by omega), if_pos (by omega)]
        have e : min (j + 1) (min i (j + 1)) = j + 1 := by omega
        have e' : min j (min i (j + 1)) = j := by omega
        rw [e, e', Finset.sum_range_succ, hsum, hrow j j le_rfl]
        have : luStep n M j i j = M i j / M j j := by
          unfold luStep; rw [if_pos (by omega), if_pos rfl]
        rw [this, div_mul_cancel₀ _ hpiv, add_zero]
      · rw [IH, if_neg (by omega), if_neg (by omega)]
        have e : min (p + 1) (min i (j + 1)) = p + 1 := by omega
        have e' : min p (min i (j + 1)) = p := by omega
        rw [e, e', Finset.sum_range_succ, hsum, hrow p j le_rfl]
        have t1 : luStep n M p i p = M i p / M p p := by
          unfold luStep; rw [if_pos (by omega), if_pos rfl]
        have t2 : luStep n M p i j = M i j - M i p / M p p * M p j := by
          unfold luStep; rw [if_pos (by omega), if_neg (by omega), if_pos h2]
        rw [t1, t2]; ring

/-- unit lower triangle of the factored view -/
def lowerOf (M : ℕ → ℕ → K) : ℕ → ℕ → K := fun i k => if k < i then M i k else if k = i then 1 else 0
/-- upper triangle of the factored view -/
def upperOf (M : ℕ → ℕ → K) : ℕ → ℕ → K := fun k j => if k ≤ j then M k j else 0

theorem lower_mul_upper (m : ℕ) (M : ℕ → ℕ → K) (i j : ℕ) (hi : i < m) :
    ∑ k ∈ range m, lowerOf M i k * upperOf M k j
      = ∑ k ∈ range (min i (j + 1)), M i k * M k j + (if j < i then 0 else M i j) := by
  have e : ∀ k, lowerOf M i k * upperOf M k j
      = (if k < min i (j + 1) then M i k * M k j else 0)
        + (if k = i then (if j < i then 0 else M i j) else 0) := by
    intro k
    unfold lowerOf upperOf
    by_cases h1 : k < i
    · rw [if_pos h1, if_neg (by omega : ¬ k = i), add_zero]
      by_cases h2 : k ≤ j
      · rw [if_pos h2, if_pos (by omega)]
      · rw [if_neg h2, if_neg (by omega), mul_zero]
    · rw [if_neg h1]
      by_cases h2 : k = i
      · subst h2
        rw [if_pos rfl, if_pos rfl, if_neg (by omega : ¬ k < min k (j + 1)), zero_add, one_mul]
        by_cases h3 : j < k
        · rw [if_pos h3, if_neg (by omega)]
        · rw [if_neg h3, if_pos (by omega)]
      · rw [if_neg h2, if_neg h2, if_neg (by omega : ¬ k < min i (j + 1)), zero_mul, add_zero]
  simp only [e]
  rw [Finset.sum_add_distrib, sum_ite_lt (by omega), Finset.sum_ite_eq' (range m) i]
  rw [if_pos (by simpa using hi)]

/-- leading blocks factor through the partially eliminated view -/
theorem toM_lu_prefix (n : ℕ) (A : ℕ → ℕ → K) (q : ℕ) (hq : q < n)
    (piv : ∀ r < q, luIter n r A r r ≠ 0) :
    toM (q + 1) (q + 1) A
      = toM (q + 1) (q + 1) (lowerOf (luIter n q A)) * toM (q + 1) (q + 1) (upperOf (luIter n q A)) := by
  ext i j
  rw [toM_mul, lower_mul_upper _ _ _ _ i.2]
  have := luIter_inv n A q (by omega) piv i j (by omega) (by omega)
  have hi := i.2
  have hj := j.2
  show A i j = _
  rw [this]
  have e : min q (min (i : ℕ) ((j : ℕ) + 1)) = min (i : ℕ) ((j : ℕ) + 1) := by omega
  have e2 : ((j : ℕ) < i ∧ (j : ℕ) < q) ↔ (j : ℕ) < i := by omega
  rw [e]; simp only [e2]

theorem toM_lu (n : ℕ) (A : ℕ → ℕ → K) (piv : ∀ r < n, luIter n r A r r ≠ 0) :
    toM n n A = toM n n (lowerOf (serialLU n A)) * toM n n (upperOf (serialLU n A)) := by
  ext i j
  rw [toM_mul, lower_mul_upper _ _ _ _ i.2]
  have := luIter_inv n A n le_rfl piv i j i.2 j.2
  have hi := i.2
  have hj := j.2
  show A i j = _
  rw [this]
  have e : min n (min (i : ℕ) ((j : ℕ) + 1)) = min (i : ℕ) ((j : ℕ) + 1) := by omega
  have e2 : ((j : ℕ) < i ∧ (j : ℕ) < n) ↔ (j : ℕ) < i := by omega
  rw [e]; simp only [e2]; rfl

theorem det_lower (m : ℕ) (M : ℕ → ℕ → K) : (toM m m (lowerOf M)).det = 1 := by
  rw [Matrix.det_of_lowerTriangular]
  · refine Finset.prod_eq_one fun i _ => ?_
    simp [toM, lowerOf]
  · intro i j h
    have h' : (i : ℕ) < j := h
    simp only [toM, lowerOf]
    rw [if_neg (by omega), if_neg (by omega)]

theorem det_upper (m : ℕ) (M : ℕ → ℕ → K) :
    (toM m m (upperOf M)).det = ∏ k ∈ range m, M k k := by
  rw [Matrix.det_of_upperTriangular]
  · rw [Finset.prod_range]
    refine Finset.prod_congr rfl fun i _ => ?_
    simp [toM, upperOf]
  · intro i j h
    have h' : (j : ℕ) < i := h
    simp only [toM, upperOf]
    rw [if_neg (by omega)]

/-- pivots are non-zero when the leading principal minors are -/
theorem pivots_ne_zero (n : ℕ) (A : ℕ → ℕ → K)
    (minors : ∀ q < n, (toM (q + 1) (q + 1) A).det ≠ 0) :
    ∀ q < n, luIter n q A q q ≠ 0 := by
  intro q
  induction q using Nat.strong_induction_on with
  | _ q ih =>
    intro hq h0
    have piv : ∀ r < q, luIter n r A r r ≠ 0 := fun r hr => ih r hr (by omega)
    have hd := minors q hq
    rw [toM_lu_prefix n A q hq piv, Matrix.det_mul, det_lower, det_upper, one_mul] at hd
    exact hd (Finset.prod_eq_zero (i := q) (by simp) h0)

/-! ### substitutions -/

def fwdIter (n p : ℕ) (M B : ℕ → ℕ → K) : ℕ → ℕ → K := (List.range p).foldl (fwdStep n M) B

theorem fwdIter_inv (n : ℕ) (M B : ℕ → ℕ → K) (p : ℕ) (hp : p ≤ n) (i j : ℕ) (hi : i < n) :
    B i j = ∑ k ∈ range (min p i), M i k * fwdIter n p M B k j + fwdIter n p M B i j := by
  induction p generalizing i with
  | zero => simp [fwdIter]
  | succ p ih =>
    have IH := ih (by omega) i hi
    have hs : fwdIter n (p + 1) M B = fwdStep n M (fwdIter n p M B) p := by
      unfold fwdIter; rw [List.range_succ, List.foldl_append]; rfl
    rw [hs]
    generalize fwdIter n p M B = Y at *
    have hrow : ∀ k j, k ≤ p → fwdStep n M Y p k j = Y k j := by
      intro k j hk; unfold fwdStep; rw [if_neg (by omega)]
    by_cases h1 : i ≤ p
    · rw [IH, hrow i j h1]
      have e : min (p + 1) i = min p i := by omega
      rw [e]
      congr 1
      refine Finset.sum_congr rfl fun k hk => ?_
      rw [Finset.mem_range] at hk
      rw [hrow k j (by omega)]
    · have e : min (p + 1) i = p + 1 := by omega
      have e' : min p i = p := by omega
      rw [IH, e, e', Finset.sum_range_succ, hrow p j le_rfl]
      have hsum : ∑ k ∈ range p, M i k * fwdStep n M Y p k j = ∑ k ∈ range p, M i k * Y k j := by
        refine Finset.sum_congr rfl fun k hk => ?_
        rw [Finset.mem_range] at hk
        rw [hrow k j (by omega)]
      have t : fwdStep n M Y p i j = Y i j - M i p * Y p j := by
        unfold fwdStep; rw [if_pos (by omega)]
      rw [hsum, t]; ring

theorem fwd_solves (n m : ℕ) (M B : ℕ → ℕ → K) :
    toM n n (lowerOf M) * toM n m ((List.range n).foldl (fwdStep n M) B) = toM n m B := by
  ext i j
  rw [toM_mul]
  have := fwdIter_inv n M B n le_rfl i j i.2
  have hi := i.2
  show _ = B i j
  rw [this]
  have e : min n (i : ℕ) = i := by omega
  rw [e]
  change ∑ p ∈ range n, lowerOf M i p * fwdIter n n M B p j = _
  generalize fwdIter n n M B = Y
  have e2 : ∀ k, lowerOf M i k * Y k j = (if k < (i : ℕ) then M i k * Y k j else 0)
      + (if k = (i : ℕ) then Y i j else 0) := by
    intro k; unfold lowerOf
    by_cases h1 : k < (i : ℕ)
    · rw [if_pos h1, if_pos h1, if_neg (by omega), add_zero]
    · rw [if_neg h1, if_neg h1]
      by_cases h2 : k = (i : ℕ)
      · rw [if_pos h2, if_pos h2, h2, one_mul, zero_add]
      · rw [if_neg h2, if_neg h2, zero_mul, add_zero]
  simp only [e2]
  rw [Finset.sum_add_distrib, sum_ite_lt (by omega), Finset.sum_ite_eq' (range n) (i : ℕ),
    if_pos (by simp)]

theorem bwd_inv (n : ℕ) (M : ℕ → ℕ → K) (m : ℕ) (hm : m ≤ n) (piv : ∀ q < m, M q q ≠ 0)
    (X : ℕ → ℕ → K) (j : ℕ) :
    (∀ i, m ≤ i → (List.range m).foldr (fun p B => bwdStep n M B p) X i j = X i j) ∧
    (∀ i < m, ∑ k ∈ range m, upperOf M i k * (List.range m).foldr (fun p B => bwdStep n M B p) X k j
      = X i j) := by
  induction m generalizing X with
  | zero => simp
  | succ m ih =>
    rw [List.range_succ, List.foldr_append]
    change (∀ i, m + 1 ≤ i →
      (List.range m).foldr (fun p B => bwdStep n M B p) (bwdStep n M X m) i j = X i j) ∧
      (∀ i < m + 1, ∑ k ∈ range (m + 1), upperOf M i k *
        (List.range m).foldr (fun p B => bwdStep n M B p) (bwdStep n M X m) k j = X i j)
    obtain ⟨h1, h2⟩ := ih (by omega) (fun q hq => piv q (by omega)) (bwdStep n M X m)
    have hmm : bwdStep n M X m m j = X m j / M m m := by
      unfold bwdStep; rw [if_pos (by omega)]
    constructor
    · intro i hi
      rw [h1 i (by omega)]
      unfold bwdStep; rw [if_neg (by omega), if_neg (by omega)]
    · intro i hi
      rw [Finset.sum_range_succ, h1 m le_rfl, hmm]
      rcases Nat.lt_or_ge i m with hlt | hge
      · rw [h2 i hlt]
        have : bwdStep n M X m i j = X i j - M i m * (X m j / M m m) := by
          unfold bwdStep; rw [if_neg (by omega), if_pos (by omega)]
        rw [this, upperOf, if_pos (by omega)]; ring
      · obtain rfl : i = m := by omega
        have z : ∑ k ∈ range i, upperOf M i k *
            (List.range i).foldr (fun p B => bwdStep n M B p) (bwdStep n M X i) k j = 0 := by
          refine Finset.sum_eq_zero fun k hk => ?_
          rw [Finset.mem_range] at hk
          rw [upperOf, if_neg (by omega), zero_mul]
        rw [z, zero_add, upperOf, if_pos le_rfl, mul_div_cancel₀ _ (piv i (by omega))]

theorem bwd_solves (n m : ℕ) (M X : ℕ → ℕ → K) (piv : ∀ q < n, M q q ≠ 0) :
    toM n n (upperOf M) * toM n m ((List.range n).reverse.foldl (bwdStep n M) X) = toM n m X := by
  ext i j
  rw [toM_mul, List.foldl_reverse]
  exact (bwd_inv n M n le_rfl piv X j).2 i i.2

/-- LU factorisation followed by the two substitutions solves the linear system. -/
theorem lu_solve (n m : ℕ) (A B : ℕ → ℕ → K)
    (minors : ∀ q < n, (toM (q + 1) (q + 1) A).det ≠ 0) :
    toM n n A * toM n m (serialSolveLU n (serialLU n A) B) = toM n m B := by
  have piv := pivots_ne_zero n A minors
  have piv' : ∀ q < n, serialLU n A q q ≠ 0 := by
    intro q hq
    have := luIter_row n A q n (by omega) q
    change luIter n n A q q ≠ 0
    rw [this]; exact piv q hq
  rw [toM_lu n A piv, Matrix.mul_assoc, serialSolveLU, bwd_solves n m _ _ piv', fwd_solves]

end DG
