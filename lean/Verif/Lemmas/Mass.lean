import Verif.Model.Mass
import Verif.Props.LinAlg
import Verif.Props.Basis
import Mathlib.LinearAlgebra.Matrix.ToLinearEquiv
import Mathlib.Algebra.Order.BigOperators.Ring.Finset

namespace DG
open Finset Matrix

section
variable {K : Type} [Field K]

theorem scaleRows_apply (nq n : ℕ) (w djac : ℕ → K) (A : ℕ → ℕ → K) (q j : ℕ) (hq : q < nq) (hj : j < n) :
    scaleRows nq n w djac A q j = w q * djac q * A q j := by
  simp [scaleRows, hq, scaleVec, hj]

variable [DecidableEq K]

theorem cATxB_entry (m n k : ℕ) (A B C : ℕ → ℕ → K) (i j : ℕ) (hi : i < m) (hj : j < n) :
    cATxB_to_C 1 m n k A B C i j = ∑ p ∈ range k, A p i * B p j := by
  simp [cATxB_to_C, gemm, hi, hj, loopSum_eq]

theorem cAxB_entry (c : K) (m n k : ℕ) (A B C : ℕ → ℕ → K) (i j : ℕ) (hi : i < m) (hj : j < n) :
    cAxB_to_C c m n k A B C i j = c * ∑ p ∈ range k, A i p * B p j := by
  simp only [cAxB_to_C, gemm, hi, hj, and_self, if_true, loopSum_eq, zero_add, Finset.mul_sum, mul_assoc]

theorem massMatrix_entry (nq nb : ℕ) (w djac : ℕ → K) (B scr0 MM0 : ℕ → ℕ → K) (i j : ℕ)
    (hi : i < nb) (hj : j < nb) :
    massMatrix nq nb w djac B scr0 MM0 i j = ∑ q ∈ range nq, w q * djac q * (B q i * B q j) := by
  rw [massMatrix, cATxB_entry _ _ _ _ _ _ _ _ hi hj]
  refine Finset.sum_congr rfl fun q hq => ?_
  have hq' := Finset.mem_range.1 hq
  rw [scaleRows_apply _ _ _ _ _ _ _ hq' hj, copyTo, if_pos ⟨hq', hj⟩]
  ring

/-- quadratic form of the mass matrix -/
theorem mass_quadratic (nq nb n : ℕ) (hn : n ≤ nb) (w djac : ℕ → K) (B scr0 MM0 : ℕ → ℕ → K) (c d : ℕ → K) :
    ∑ i ∈ range n, ∑ j ∈ range n, c i * massMatrix nq nb w djac B scr0 MM0 i j * d j
      = ∑ q ∈ range nq, w q * djac q * ((∑ i ∈ range n, c i * B q i) * (∑ j ∈ range n, d j * B q j)) := by
  have h : ∀ i ∈ range n, ∀ j ∈ range n, c i * massMatrix nq nb w djac B scr0 MM0 i j * d j
      = ∑ q ∈ range nq, w q * djac q * ((c i * B q i) * (d j * B q j)) := by
    intro i hi j hj
    rw [massMatrix_entry _ _ _ _ _ _ _ _ _ (by simp at hi; omega) (by simp at hj; omega), Finset.mul_sum,
      Finset.sum_mul]
    exact Finset.sum_congr rfl fun q _ => by ring
  rw [Finset.sum_congr rfl fun i hi => Finset.sum_congr rfl fun j hj => h i hi j hj]
  simp only [Finset.sum_comm (s := range n) (t := range nq)]
  refine Finset.sum_congr rfl fun q _ => ?_
  rw [Finset.sum_mul_sum, Finset.mul_sum]
  exact Finset.sum_congr rfl fun i _ => by rw [Finset.mul_sum]

end

/-- Specification: the functions tabulated in the columns of `B` are linearly independent on the
`nq` points. -/
def IndepOn {K : Type} [Field K] (nq nb : ℕ) (B : ℕ → ℕ → K) : Prop :=
  ∀ c : ℕ → K, (∀ q < nq, ∑ i ∈ range nb, c i * B q i = 0) → ∀ i < nb, c i = 0

section
variable {K : Type} [Field K] [LinearOrder K] [IsStrictOrderedRing K]

theorem mass_pos (nq nb : ℕ) (w djac : ℕ → K) (B scr0 MM0 : ℕ → ℕ → K)
    (hw : ∀ q < nq, 0 < w q) (hj : ∀ q < nq, 0 < djac q) (hB : IndepOn nq nb B)
    (n : ℕ) (hn : n ≤ nb) (c : ℕ → K) (hc : ∃ i < n, c i ≠ 0) :
    0 < ∑ i ∈ range n, ∑ j ∈ range n, c i * massMatrix nq nb w djac B scr0 MM0 i j * c j := by
  rw [mass_quadratic _ _ _ hn]
  have hnn : ∀ q ∈ range nq, 0 ≤ w q * djac q * ((∑ i ∈ range n, c i * B q i) * (∑ j ∈ range n, c j * B q j)) := by
    intro q hq
    have hq' := Finset.mem_range.1 hq
    exact mul_nonneg (mul_pos (hw q hq') (hj q hq')).le (mul_self_nonneg _)
  refine lt_of_le_of_ne (Finset.sum_nonneg hnn) fun h0 => ?_
  rw [eq_comm, Finset.sum_eq_zero_iff_of_nonneg hnn] at h0
  obtain ⟨i, hi, hci⟩ := hc
  have := hB (fun i => if i < n then c i else 0) (fun q hq => ?_) i (by omega)
  · simp only [hi, if_true] at this; exact hci this
  · have h1 := h0 q (Finset.mem_range.2 hq)
    have hp := (mul_pos (hw q hq) (hj q hq)).ne'
    have h2 : ∑ i ∈ range n, c i * B q i = 0 := mul_self_eq_zero.1 ((mul_eq_zero.1 h1).resolve_left hp)
    refine Eq.trans ?_ h2
    simp only [ite_mul, zero_mul]
    exact sum_ite_lt hn fun i => c i * B q i

theorem mass_minors (nq nb : ℕ) (w djac : ℕ → K) (B scr0 MM0 : ℕ → ℕ → K)
    (hw : ∀ q < nq, 0 < w q) (hj : ∀ q < nq, 0 < djac q) (hB : IndepOn nq nb B)
    (n : ℕ) (hn : n ≤ nb) : (toM n n (massMatrix nq nb w djac B scr0 MM0)).det ≠ 0 := by
  intro h0
  obtain ⟨v, hv, hMv⟩ := Matrix.exists_mulVec_eq_zero_iff.2 h0
  obtain ⟨i0, hi0⟩ := Function.ne_iff.1 hv
  let c : ℕ → K := fun i => if h : i < n then v ⟨i, h⟩ else 0
  have hpos := mass_pos nq nb w djac B scr0 MM0 hw hj hB n hn c ⟨i0, i0.2, by simpa [c] using hi0⟩
  refine hpos.ne' ?_
  refine Finset.sum_eq_zero fun i hi => ?_
  have hi' := Finset.mem_range.1 hi
  have := congrFun hMv ⟨i, hi'⟩
  simp only [Matrix.mulVec, dotProduct, Pi.zero_apply] at this
  have e : ∑ j ∈ range n, c i * massMatrix nq nb w djac B scr0 MM0 i j * c j
      = c i * ∑ j ∈ range n, massMatrix nq nb w djac B scr0 MM0 i j * c j := by
    rw [Finset.mul_sum]; exact Finset.sum_congr rfl fun j _ => by ring
  rw [e, Finset.sum_range]
  have e2 : ∑ j : Fin n, massMatrix nq nb w djac B scr0 MM0 i j * c j = 0 := by
    rw [← this]
    refine Finset.sum_congr rfl fun j _ => ?_
    simp [c, toM]
  rw [e2, mul_zero]

end

/-! ### independence of the bases -/
section
variable {K : Type} [Field K]

theorem sum_mul_range_aux (n k : ℕ) (f : ℕ → K) :
    ∑ m ∈ range (k * n), f m = ∑ j ∈ range k, ∑ i ∈ range n, f (j * n + i) := by
  induction k with
  | zero => simp
  | succ k ih => rw [Nat.succ_mul, Finset.sum_range_add, ih, Finset.sum_range_succ]

theorem IndepOn.kron {n1 k1 n2 k2 : ℕ} (A1 A2 B : ℕ → ℕ → K) (h1 : IndepOn n1 k1 A1) (h2 : IndepOn n2 k2 A2)
    (hB : ∀ q1 < n1, ∀ q2 < n2, ∀ i < k1, ∀ j < k2, B (q2 * n1 + q1) (j * k1 + i) = A1 q1 i * A2 q2 j) :
    IndepOn (n2 * n1) (k2 * k1) B := by
  intro c hc
  have key : ∀ q1 < n1, ∀ q2 < n2, ∑ j ∈ range k2, (∑ i ∈ range k1, c (j * k1 + i) * A1 q1 i) * A2 q2 j = 0 := by
    intro q1 hq1 q2 hq2
    have h := hc (q2 * n1 + q1) (by nlinarith)
    rw [← h, sum_mul_range_aux k1 k2 (fun m => c m * B (q2 * n1 + q1) m)]
    refine Finset.sum_congr rfl fun j hj => ?_
    rw [Finset.sum_mul]
    refine Finset.sum_congr rfl fun i hi => ?_
    rw [hB q1 hq1 q2 hq2 i (Finset.mem_range.1 hi) j (Finset.mem_range.1 hj)]; ring
  intro m hm
  have hk1 : 0 < k1 := by
    rcases Nat.eq_zero_or_pos k1 with h | h
    · subst h; simp at hm
    · exact h
  have hj : m / k1 < k2 := (Nat.div_lt_iff_lt_mul hk1).2 hm
  have hi : m % k1 < k1 := Nat.mod_lt _ hk1
  have := h1 (fun i => c (m / k1 * k1 + i)) (fun q1 hq1 => h2 (fun j => ∑ i ∈ range k1, c (j * k1 + i) * A1 q1 i)
    (fun q2 hq2 => key q1 hq1 q2 hq2) (m / k1) hj) (m % k1) hi
  rwa [Nat.div_add_mod' m k1] at this

theorem indep_const (nq : ℕ) (h : 0 < nq) (B : ℕ → ℕ → K) (hB : ∀ q < nq, B q 0 = 1) : IndepOn nq 1 B := by
  intro c hc i hi
  obtain rfl : i = 0 := by omega
  have := hc 0 h
  rwa [Finset.sum_range_one, hB 0 h, mul_one] at this

open Polynomial in
theorem degree_C_mul_le' (a : K) (q : K[X]) : (C a * q).degree ≤ q.degree := by
  by_cases h : a = 0
  · simp [h]
  · rw [degree_C_mul h]

open Polynomial in
theorem indep_lagrange (xn : List K) (hd : xn.Nodup) (nq : ℕ) (hnq : xn.length ≤ nq) (x : ℕ → K)
    (hx : ∀ i < nq, ∀ j < nq, x i = x j → i = j) :
    IndepOn nq xn.length (fun q i => (lagPoly xn i).eval (x q)) := by
  intro c hc
  set P : K[X] := ∑ i ∈ range xn.length, C (c i) * lagPoly xn i with hP
  have hev : ∀ t, P.eval t = ∑ i ∈ range xn.length, c i * (lagPoly xn i).eval t := by
    intro t; rw [hP, eval_finsetSum]; exact Finset.sum_congr rfl fun i _ => by rw [eval_mul, eval_C]
  have hdeg : P.degree < xn.length := by
    rw [hP]
    refine (Polynomial.degree_sum_le _ _).trans_lt ?_
    rw [Finset.sup_lt_iff (by exact WithBot.bot_lt_coe _)]
    intro i hi
    refine lt_of_le_of_lt (degree_C_mul_le' _ _) ?_
    unfold lagPoly
    rw [Lagrange.degree_basis (injOn_of_nodup hd) hi, Finset.card_range]
    have := Finset.mem_range.1 hi
    exact_mod_cast (by omega : xn.length - 1 < xn.length)
  have hP0 : P = 0 := by
    have hinj : Set.InjOn x (range nq : Finset ℕ) := by
      intro a ha b hb hab
      exact hx a (by simpa using ha) b (by simpa using hb) hab
    refine Polynomial.eq_zero_of_degree_lt_of_eval_index_eq_zero (range nq) hinj ?_ ?_
    · refine lt_of_lt_of_le hdeg ?_
      rw [Finset.card_range]; exact_mod_cast hnq
    · intro q hq
      rw [hev]; exact hc q (Finset.mem_range.1 hq)
  intro i hi
  have h1 : P.eval (get0 xn i) = 0 := by rw [hP0]; simp
  rw [hev, Finset.sum_eq_single i] at h1
  · rwa [lagPoly_nodal hd hi hi, if_pos rfl, mul_one] at h1
  · intro j hj hji
    rw [lagPoly_nodal hd (Finset.mem_range.1 hj) hi, if_neg hji, mul_zero]
  · intro h; simp at h; omega

end
end DG
