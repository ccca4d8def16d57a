import Verif.Model.Quadrature
import Verif.Lemmas.Loops
import Mathlib.Analysis.SpecialFunctions.Integrals.Basic
import Mathlib.Algebra.Polynomial.Eval.Degree
import Mathlib.Algebra.Polynomial.BigOperators
import Mathlib.Tactic.Linarith
import Mathlib.Tactic.Ring
import Mathlib.Tactic.NormNum
import Mathlib.Tactic.FieldSimp

namespace DG
open Polynomial

section
variable {K : Type} [Field K]

theorem gaussVal_eq {K : Type} [Field K] (n : ℤ) : (gaussVal n : K) = (n : K) / 10 ^ gaussScale := rfl

theorem applyWrites_aux (ws : List (ℕ × ℤ)) : ∀ (k : ℕ) (pre view : List K),
    pre.length = k → ws.map Prod.fst = List.range' k ws.length → view.length = ws.length →
    applyWrites ws (pre ++ view) = some (pre ++ ws.map fun w => gaussVal w.2) := by
  induction ws with
  | nil => intro k pre view hp _ hv; simp at hv; subst hv; simp [applyWrites]
  | cons w ws ih =>
    intro k pre view hp hw hv
    obtain ⟨a, view', rfl⟩ : ∃ a v, view = a :: v := by
      cases view with
      | nil => simp at hv
      | cons a v => exact ⟨a, v, rfl⟩
    simp only [List.map_cons, List.length_cons, List.range'_succ, List.cons.injEq] at hw
    unfold applyWrites
    rw [List.foldlM_cons, hw.1]
    have : setB (pre ++ a :: view') k (gaussVal w.2) = some ((pre ++ [gaussVal w.2]) ++ view') := by
      rw [setB_of_lt (by simp [hp])]
      rw [List.set_append_right _ _ (by omega)]
      simp [hp]
    rw [this]
    have := ih (k + 1) (pre ++ [gaussVal w.2]) view' (by simp [hp]) hw.2 (by simpa using hv)
    unfold applyWrites at this
    simpa using this

theorem applyWrites_eq (ws : List (ℕ × ℤ)) (view : List K)
    (hw : ws.map Prod.fst = List.range ws.length) (hv : view.length = ws.length) :
    applyWrites ws view = some (ws.map fun w => gaussVal w.2) := by
  have := applyWrites_aux ws 0 [] view rfl (by rw [hw, List.range_eq_range']) hv
  simpa using this
end

/-! ### kernel-checked tables -/

/-- moments `j, j+1, …` of an integer rule (nodes `xs`, `v = w x^j`, `s = D^(j+1)`) are within
`10^-30` of the exact ones -/
def momentsOK (D : ℤ) (xs : List ℤ) : ℕ → ℕ → List ℤ → ℤ → Bool
  | 0, _, _, _ => true
  | n + 1, j, v, s =>
    decide (((((j : ℤ) + 1) * v.sum - (if j % 2 = 0 then 2 * s else 0)).natAbs : ℤ) * 10 ^ 30
      ≤ s * ((j : ℤ) + 1)) && momentsOK D xs n (j + 1) (List.zipWith (· * ·) v xs) (s * D)

/-- one case of the two tables, checked: entries `0..n-1` written in order, moments up to `2n-1`,
nodes increasing in `(-1,1)`, symmetric, weights positive, symmetric -/
def caseOK (n : ℕ) (px wx : List (ℕ × ℤ)) : Bool :=
  let D : ℤ := 10 ^ gaussScale
  let xs := px.map Prod.snd
  let ws := wx.map Prod.snd
  decide (px.map Prod.fst = List.range n) && decide (wx.map Prod.fst = List.range n) &&
  momentsOK D xs (2 * n) 0 ws D &&
  decide (xs.Pairwise (· < ·)) && xs.all (fun x => decide (-D < x) && decide (x < D)) &&
  ws.all (fun w => decide (0 < w)) && decide (xs.reverse = xs.map (- ·)) && decide (ws.reverse = ws)

def orderOK (order : ℕ) : Bool :=
  match glNodeWrites order, glWeightWrites order with
  | some px, some wx => caseOK (order / 2 + 1) px wx
  | _, _ => false

set_option maxRecDepth 100000 in
theorem all_ordersOK : ∀ k < 25, k ≠ 18 → orderOK (2 * k) = true := by decide +kernel

theorem odd_case : ∀ k < 25, glNodeWrites (2 * k + 1) = glNodeWrites (2 * k) ∧
    glWeightWrites (2 * k + 1) = glWeightWrites (2 * k) := by decide +kernel

theorem orderOK_all (order : ℕ) (h : order < 50) (h6 : order ≠ 36) (h7 : order ≠ 37) :
    ∃ px wx, glNodeWrites order = some px ∧ glWeightWrites order = some wx ∧
      caseOK (order / 2 + 1) px wx = true := by
  have h1 := all_ordersOK (order / 2) (by omega) (by omega)
  have e : glNodeWrites order = glNodeWrites (2 * (order / 2)) ∧
      glWeightWrites order = glWeightWrites (2 * (order / 2)) := by
    rcases Nat.mod_two_eq_zero_or_one order with h0 | h0
    · have : order = 2 * (order / 2) := by omega
      rw [← this]; exact ⟨rfl, rfl⟩
    · have : order = 2 * (order / 2) + 1 := by omega
      have o := odd_case (order / 2) (by omega)
      rw [← this] at o; exact o
  rw [e.1, e.2]
  unfold orderOK at h1
  split at h1
  · rename_i px wx hp hw
    refine ⟨px, wx, hp, hw, ?_⟩
    rw [show 2 * (order / 2) / 2 = order / 2 by omega] at h1
    exact h1
  · exact absurd h1 (by simp)

/-! ### soundness of the moment check -/

/-- value of a rule on a function -/
noncomputable def quadSum (wts pts : List ℝ) (f : ℝ → ℝ) : ℝ :=
  (List.zipWith (fun w x => w * f x) wts pts).sum

theorem momentsOK_sound (D : ℤ) (xs ws : List ℤ) : ∀ (n j : ℕ) (s : ℤ),
    momentsOK D xs n j (List.zipWith (fun w x => w * x ^ j) ws xs) s = true → s = D ^ (j + 1) →
    ∀ k, j ≤ k → k < j + n →
      ((((k : ℤ) + 1) * (List.zipWith (fun w x => w * x ^ k) ws xs).sum
        - (if k % 2 = 0 then 2 * D ^ (k + 1) else 0)).natAbs : ℤ) * 10 ^ 30
      ≤ D ^ (k + 1) * ((k : ℤ) + 1) := by
  intro n
  induction n with
  | zero => intro j s _ _ k h1 h2; omega
  | succ n ih =>
    intro j s h hs k h1 h2
    unfold momentsOK at h
    rw [Bool.and_eq_true, decide_eq_true_eq] at h
    rcases Nat.eq_or_lt_of_le h1 with rfl | hlt
    · rw [hs] at h; exact h.1
    · have e : List.zipWith (· * ·) (List.zipWith (fun w x => w * x ^ j) ws xs) xs
          = List.zipWith (fun w x => w * x ^ (j + 1)) ws xs := by
        clear h ih hs
        induction ws generalizing xs with
        | nil => simp
        | cons w ws ihw =>
          cases xs with
          | nil => simp
          | cons x xs => simp only [List.zipWith_cons_cons, ihw xs, pow_succ, mul_assoc]
      rw [e] at h
      exact ih (j + 1) (s * D) h.2 (by rw [hs]; ring) k hlt (by omega)

theorem quadSum_pow_cast (px wx : List (ℕ × ℤ)) (j : ℕ) :
    quadSum (wx.map fun w => gaussVal w.2) (px.map fun w => gaussVal w.2) (fun x => x ^ j)
      = ((List.zipWith (fun w x => w * x ^ j) (wx.map Prod.snd) (px.map Prod.snd)).sum : ℤ)
        / ((10 ^ gaussScale : ℝ)) ^ (j + 1) := by
  unfold quadSum
  induction wx generalizing px with
  | nil => simp
  | cons w wx ih =>
    cases px with
    | nil => simp
    | cons q px =>
      have h := ih px
      beta_reduce at h
      simp only [List.map_cons, List.zipWith_cons_cons, List.sum_cons, Int.cast_add, Int.cast_mul,
        Int.cast_pow]
      rw [h, add_div]
      congr 1
      rw [gaussVal_eq, gaussVal_eq, div_pow, div_mul_div_comm, ← pow_succ']

theorem moment_bound (n : ℕ) (px wx : List (ℕ × ℤ)) (h : caseOK n px wx = true) (j : ℕ)
    (hj : j < 2 * n) :
    |quadSum (wx.map fun w => gaussVal w.2) (px.map fun w => gaussVal w.2) (fun x => x ^ j)
      - ∫ x in (-1:ℝ)..1, x ^ j| ≤ 1 / 10 ^ 30 := by
  simp only [caseOK, Bool.and_eq_true, decide_eq_true_eq] at h
  have hm := h.1.1.1.1.1.2
  have e0 : List.zipWith (fun w x => w * x ^ 0) (wx.map Prod.snd) (px.map Prod.snd) = wx.map Prod.snd := by
    have hl : (wx.map Prod.snd).length = (px.map Prod.snd).length := by
      have a := congrArg List.length h.1.1.1.1.1.1.1
      have b := congrArg List.length h.1.1.1.1.1.1.2
      simp at a b ⊢; omega
    generalize wx.map Prod.snd = ws at hl ⊢
    generalize px.map Prod.snd = xs at hl ⊢
    clear h hm
    induction ws generalizing xs with
    | nil => simp
    | cons w ws ih =>
      cases xs with
      | nil => simp at hl
      | cons x xs => simp only [List.length_cons, Nat.add_right_cancel_iff] at hl; rw [List.zipWith_cons_cons, ih xs hl, pow_zero, mul_one]
  have := momentsOK_sound (10 ^ gaussScale) (px.map Prod.snd) (wx.map Prod.snd) (2 * n) 0 (10 ^ gaussScale)
    (by rw [e0]; exact hm) (by simp) j (by omega) (by omega)
  rw [quadSum_pow_cast]
  generalize (List.zipWith (fun w x => w * x ^ j) (wx.map Prod.snd) (px.map Prod.snd)).sum = S at this ⊢
  have hI : ∫ x in (-1:ℝ)..1, x ^ j = (if j % 2 = 0 then 2 else 0) / ((j:ℝ) + 1) := by
    rw [integral_pow]
    rcases Nat.mod_two_eq_zero_or_one j with h0 | h0
    · rw [if_pos h0, Odd.neg_one_pow (by rw [Nat.odd_iff]; omega)]; norm_num
    · rw [if_neg (by omega), Even.neg_one_pow (by rw [Nat.even_iff]; omega)]; norm_num
  rw [hI]
  have hD : (0:ℝ) < (10 ^ gaussScale : ℝ) ^ (j + 1) := by positivity
  have hj1 : (0:ℝ) < (j:ℝ) + 1 := by positivity
  have c : (|((j:ℝ) + 1) * (S:ℝ) - (if j % 2 = 0 then 2 else 0) * (10 ^ gaussScale : ℝ) ^ (j + 1)|) * 10 ^ 30
      ≤ (10 ^ gaussScale : ℝ) ^ (j + 1) * ((j:ℝ) + 1) := by
    have h2 := (Int.cast_le (R := ℝ)).2 this
    rw [Int.natCast_natAbs] at h2
    push_cast at h2
    by_cases h0 : j % 2 = 0
    · simp only [if_pos h0] at h2 ⊢; push_cast at h2; norm_num at h2 ⊢; exact h2
    · simp only [if_neg h0] at h2 ⊢; push_cast at h2; norm_num at h2 ⊢; exact h2
  have e : (S:ℝ) / (10 ^ gaussScale : ℝ) ^ (j + 1) - (if j % 2 = 0 then 2 else 0) / ((j:ℝ) + 1)
      = (((j:ℝ) + 1) * (S:ℝ) - (if j % 2 = 0 then 2 else 0) * (10 ^ gaussScale : ℝ) ^ (j + 1))
        / ((10 ^ gaussScale : ℝ) ^ (j + 1) * ((j:ℝ) + 1)) := by
    rw [div_sub_div _ _ hD.ne' hj1.ne']; ring
  rw [e, abs_div, abs_of_pos (mul_pos hD hj1), div_le_div_iff₀ (mul_pos hD hj1) (by positivity), one_mul]
  exact c

theorem quadSum_sum (wts pts : List ℝ) (n : ℕ) (c : ℕ → ℝ) :
    quadSum wts pts (fun x => ∑ i ∈ Finset.range n, c i * x ^ i)
      = ∑ i ∈ Finset.range n, c i * quadSum wts pts (fun x => x ^ i) := by
  unfold quadSum
  induction wts generalizing pts with
  | nil => simp
  | cons w wts ih =>
    cases pts with
    | nil => simp
    | cons x pts =>
      have h := ih pts
      beta_reduce at h
      simp only [List.zipWith_cons_cons, List.sum_cons, mul_add, Finset.sum_add_distrib]
      rw [h, Finset.mul_sum]
      congr 1
      refine Finset.sum_congr rfl fun i _ => by ring

/-- sum of the absolute values of the coefficients of a polynomial -/
noncomputable def coeffSum (p : ℝ[X]) : ℝ := ∑ i ∈ Finset.range (p.natDegree + 1), |p.coeff i|

theorem coeffSum_nonneg (p : ℝ[X]) : 0 ≤ coeffSum p := Finset.sum_nonneg fun _ _ => abs_nonneg _

theorem integral_poly (p : ℝ[X]) : ∫ x in (-1:ℝ)..1, p.eval x
    = ∑ i ∈ Finset.range (p.natDegree + 1), p.coeff i * ∫ x in (-1:ℝ)..1, x ^ i := by
  simp only [Polynomial.eval_eq_sum_range]
  rw [intervalIntegral.integral_finset_sum]
  · refine Finset.sum_congr rfl fun i _ => intervalIntegral.integral_const_mul _ _
  · intro i _
    exact ((continuous_pow i).const_smul (p.coeff i)).intervalIntegrable _ _

theorem poly_bound (wts pts : List ℝ) (N : ℕ) (ε : ℝ)
    (h : ∀ j < N, |quadSum wts pts (fun x => x ^ j) - ∫ x in (-1:ℝ)..1, x ^ j| ≤ ε)
    (p : ℝ[X]) (hp : p.natDegree < N) :
    |quadSum wts pts (fun x => p.eval x) - ∫ x in (-1:ℝ)..1, p.eval x| ≤ ε * coeffSum p := by
  rw [integral_poly]
  simp only [Polynomial.eval_eq_sum_range]
  rw [quadSum_sum, ← Finset.sum_sub_distrib]
  refine (Finset.abs_sum_le_sum_abs _ _).trans ?_
  unfold coeffSum
  rw [Finset.mul_sum]
  refine Finset.sum_le_sum fun i hi => ?_
  rw [Finset.mem_range] at hi
  rw [← mul_sub, abs_mul, mul_comm]
  exact mul_le_mul_of_nonneg_right (h i (by omega)) (abs_nonneg _)

end DG
