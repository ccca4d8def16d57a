import Verif.Lemmas.Basis
import Mathlib.Analysis.Calculus.Deriv.Polynomial
import Mathlib.MeasureTheory.Integral.IntervalIntegral.FundThmCalculus
import Mathlib.Algebra.Order.Field.Basic
import Mathlib.Topology.Algebra.Polynomial
import Mathlib.Analysis.SpecialFunctions.Integrals.Basic
import Mathlib.Tactic.Linarith
import Mathlib.Tactic.NormNum
import Mathlib.Tactic.IntervalCases

/-! C21: the Legendre basis. -/
namespace DG

open Polynomial

section Spec
variable {K : Type} [Field K] [CharZero K]

/-- Specification: the Legendre polynomials, by Bonnet's recurrence
`(n+2) P_{n+2} = (2n+3) x P_{n+1} - (n+1) P_n`. -/
noncomputable def legPoly : ℕ → K[X]
  | 0 => 1
  | 1 => X
  | n + 2 => C (1 / ((n : K) + 2)) *
      (C (2 * (n : K) + 3) * X * legPoly (n + 1) - C ((n : K) + 1) * legPoly n)

theorem legPoly_rec (n : ℕ) : C ((n : K) + 2) * legPoly (n + 2)
    = C (2 * (n : K) + 3) * X * legPoly (n + 1) - C ((n : K) + 1) * legPoly n := by
  have h : ((n : K) + 2) ≠ 0 := by
    have : ((n + 2 : ℕ) : K) ≠ 0 := by exact_mod_cast (by omega : n + 2 ≠ 0)
    simpa using this
  rw [legPoly, ← mul_assoc, ← C_mul, mul_one_div_cancel h, C_1, one_mul]

theorem legPoly_eval_rec (x : K) (n : ℕ) : (legPoly (n + 2)).eval x
    = 1 / ((n : K) + 2) * ((2 * (n : K) + 3) * x * (legPoly (n + 1)).eval x
        - ((n : K) + 1) * (legPoly n).eval x) := by
  rw [legPoly]; simp

theorem leg_eval (x : K) :
    (legPoly 0).eval x = 1 ∧ (legPoly 1).eval x = x ∧
    (legPoly 2).eval x = 1/2 * (3 * x * x - 1) ∧
    (legPoly 3).eval x = 1/2 * (5 * x * x * x - 3 * x) ∧
    (legPoly 4).eval x = 1/8 * (35 * x * x * x * x - 30 * x * x + 3) ∧
    (legPoly 5).eval x = 1/8 * (63 * x * x * x * x * x - 70 * x * x * x + 15 * x) ∧
    (legPoly 6).eval x = 1/16 * (231 * x * x * x * x * x * x - 315 * x * x * x * x + 105 * x * x - 5) ∧
    (legPoly 7).eval x = 1/16 * (429 * x * x * x * x * x * x * x - 693 * x * x * x * x * x
      + 315 * x * x * x - 35 * x) := by
  have e0 : (legPoly 0).eval x = 1 := by simp [legPoly]
  have e1 : (legPoly 1).eval x = x := by simp [legPoly]
  have e2 : (legPoly 2).eval x = 1/2 * (3 * x * x - 1) := by
    rw [legPoly_eval_rec x 0, e0, e1]; norm_num
  have e3 : (legPoly 3).eval x = 1/2 * (5 * x * x * x - 3 * x) := by
    rw [legPoly_eval_rec x 1, e2, e1]; push_cast; ring
  have e4 : (legPoly 4).eval x = 1/8 * (35 * x * x * x * x - 30 * x * x + 3) := by
    rw [legPoly_eval_rec x 2, e3, e2]; push_cast; ring
  have e5 : (legPoly 5).eval x = 1/8 * (63 * x * x * x * x * x - 70 * x * x * x + 15 * x) := by
    rw [legPoly_eval_rec x 3, e4, e3]; push_cast; ring
  have e6 : (legPoly 6).eval x
      = 1/16 * (231 * x * x * x * x * x * x - 315 * x * x * x * x + 105 * x * x - 5) := by
    rw [legPoly_eval_rec x 4, e5, e4]; push_cast; ring
  have e7 : (legPoly 7).eval x = 1/16 * (429 * x * x * x * x * x * x * x - 693 * x * x * x * x * x
      + 315 * x * x * x - 35 * x) := by
    rw [legPoly_eval_rec x 5, e6, e5]; push_cast; ring
  exact ⟨e0, e1, e2, e3, e4, e5, e6, e7⟩

theorem legPoly_deriv_eval_rec (x : K) (n : ℕ) : (derivative (legPoly (n + 2))).eval x
    = 1 / ((n : K) + 2) * ((2 * (n : K) + 3) * ((legPoly (n + 1)).eval x
        + x * (derivative (legPoly (n + 1))).eval x)
        - ((n : K) + 1) * (derivative (legPoly n)).eval x) := by
  rw [legPoly]
  simp only [derivative_mul, derivative_sub, derivative_C, derivative_X, eval_add, eval_mul,
    eval_sub, eval_C, eval_X, eval_zero, eval_one, zero_mul, mul_one, zero_add]
  ring

theorem leg_deriv_eval (x : K) :
    (derivative (legPoly 0)).eval x = 0 ∧ (derivative (legPoly 1)).eval x = 1 ∧
    (derivative (legPoly 2)).eval x = 3 * x ∧
    (derivative (legPoly 3)).eval x = 1/2 * (15 * x * x - 3) ∧
    (derivative (legPoly 4)).eval x = 1/8 * (35 * 4 * x * x * x - 60 * x) ∧
    (derivative (legPoly 5)).eval x = 1/8 * (63 * 5 * x * x * x * x - 210 * x * x + 15) ∧
    (derivative (legPoly 6)).eval x
      = 1/16 * (231 * 6 * x * x * x * x * x - 315 * 4 * x * x * x + 210 * x) ∧
    (derivative (legPoly 7)).eval x = 1/16 * (429 * 7 * x * x * x * x * x * x
      - 693 * 5 * x * x * x * x + 315 * 3 * x * x - 35) := by
  obtain ⟨e0, e1, e2, e3, e4, e5, e6, e7⟩ := leg_eval x
  have d0 : (derivative (legPoly 0)).eval x = 0 := by simp [legPoly]
  have d1 : (derivative (legPoly 1)).eval x = 1 := by simp [legPoly]
  have d2 : (derivative (legPoly 2)).eval x = 3 * x := by
    rw [legPoly_deriv_eval_rec x 0, e1, d1, d0]; push_cast; ring
  have d3 : (derivative (legPoly 3)).eval x = 1/2 * (15 * x * x - 3) := by
    rw [legPoly_deriv_eval_rec x 1, e2, d2, d1]; push_cast; ring
  have d4 : (derivative (legPoly 4)).eval x = 1/8 * (35 * 4 * x * x * x - 60 * x) := by
    rw [legPoly_deriv_eval_rec x 2, e3, d3, d2]; push_cast; ring
  have d5 : (derivative (legPoly 5)).eval x = 1/8 * (63 * 5 * x * x * x * x - 210 * x * x + 15) := by
    rw [legPoly_deriv_eval_rec x 3, e4, d4, d3]; push_cast; ring
  have d6 : (derivative (legPoly 6)).eval x
      = 1/16 * (231 * 6 * x * x * x * x * x - 315 * 4 * x * x * x + 210 * x) := by
    rw [legPoly_deriv_eval_rec x 4, e5, d5, d4]; push_cast; ring
  have d7 : (derivative (legPoly 7)).eval x = 1/16 * (429 * 7 * x * x * x * x * x * x
      - 693 * 5 * x * x * x * x + 315 * 3 * x * x - 35) := by
    rw [legPoly_deriv_eval_rec x 5, e6, d6, d5]; push_cast; ring
  exact ⟨d0, d1, d2, d3, d4, d5, d6, d7⟩

/-- **C21** (values).  For every order `p ≤ 7` and every point, every entry `0..p` is set, to the
value of the Legendre polynomial of that degree (so it does not depend on `p` or on the previous
contents). -/
theorem C21_values (p : ℕ) (hp : p ≤ 7) (x : K) (view : List K) (hv : view.length = p + 1) :
    ∃ phi, legendreVal1D x p view = some phi ∧ phi.length = p + 1 ∧
      ∀ i ≤ p, phi[i]? = some ((legPoly i).eval x) := by
  obtain ⟨e0, e1, e2, e3, e4, e5, e6, e7⟩ := leg_eval x
  refine ⟨(List.range (p + 1)).map (fun i : ℕ => (legPoly i).eval x), ?_, by simp, fun i hi => by
    simp [show i < p + 1 by omega]⟩
  have hP : p = 0 ∨ p = 1 ∨ p = 2 ∨ p = 3 ∨ p = 4 ∨ p = 5 ∨ p = 6 ∨ p = 7 := by omega
  rcases hP with rfl | rfl | rfl | rfl | rfl | rfl | rfl | rfl
  · match view, hv with
    | [a0], _ => simp [legendreVal1D, setB, List.range_succ, e0, e1, e2, e3, e4, e5, e6, e7]
  · match view, hv with
    | [a0, a1], _ => simp [legendreVal1D, setB, List.range_succ, e0, e1, e2, e3, e4, e5, e6, e7]
  · match view, hv with
    | [a0, a1, a2], _ => simp [legendreVal1D, setB, List.range_succ, e0, e1, e2, e3, e4, e5, e6, e7]
  · match view, hv with
    | [a0, a1, a2, a3], _ => simp [legendreVal1D, setB, List.range_succ, e0, e1, e2, e3, e4, e5, e6, e7]
  · match view, hv with
    | [a0, a1, a2, a3, a4], _ => simp [legendreVal1D, setB, List.range_succ, e0, e1, e2, e3, e4, e5, e6, e7]
  · match view, hv with
    | [a0, a1, a2, a3, a4, a5], _ => simp [legendreVal1D, setB, List.range_succ, e0, e1, e2, e3, e4, e5, e6, e7]
  · match view, hv with
    | [a0, a1, a2, a3, a4, a5, a6], _ => simp [legendreVal1D, setB, List.range_succ, e0, e1, e2, e3, e4, e5, e6, e7]
  · match view, hv with
    | [a0, a1, a2, a3, a4, a5, a6, a7], _ => simp [legendreVal1D, setB, List.range_succ, e0, e1, e2, e3, e4, e5, e6, e7]

/-- **C21** (gradients, algebraic form). -/
theorem C21_gradients (p : ℕ) (hp : p ≤ 7) (x : K) (view : List K) (hv : view.length = p + 1) :
    ∃ g, legendreGrad1D x p view = some g ∧ g.length = p + 1 ∧
      ∀ i ≤ p, g[i]? = some ((derivative (legPoly i)).eval x) := by
  obtain ⟨e0, e1, e2, e3, e4, e5, e6, e7⟩ := leg_deriv_eval x
  refine ⟨(List.range (p + 1)).map (fun i : ℕ => (derivative (legPoly i)).eval x), ?_, by simp, fun i hi => by
    simp [show i < p + 1 by omega]⟩
  have hP : p = 0 ∨ p = 1 ∨ p = 2 ∨ p = 3 ∨ p = 4 ∨ p = 5 ∨ p = 6 ∨ p = 7 := by omega
  rcases hP with rfl | rfl | rfl | rfl | rfl | rfl | rfl | rfl
  · match view, hv with
    | [a0], _ => simp [legendreGrad1D, setB, List.range_succ, e0, e1, e2, e3, e4, e5, e6, e7]
  · match view, hv with
    | [a0, a1], _ => simp [legendreGrad1D, setB, List.range_succ, e0, e1, e2, e3, e4, e5, e6, e7]
  · match view, hv with
    | [a0, a1, a2], _ => simp [legendreGrad1D, setB, List.range_succ, e0, e1, e2, e3, e4, e5, e6, e7]
  · match view, hv with
    | [a0, a1, a2, a3], _ => simp [legendreGrad1D, setB, List.range_succ, e0, e1, e2, e3, e4, e5, e6, e7]
  · match view, hv with
    | [a0, a1, a2, a3, a4], _ => simp [legendreGrad1D, setB, List.range_succ, e0, e1, e2, e3, e4, e5, e6, e7]
  · match view, hv with
    | [a0, a1, a2, a3, a4, a5], _ => simp [legendreGrad1D, setB, List.range_succ, e0, e1, e2, e3, e4, e5, e6, e7]
  · match view, hv with
    | [a0, a1, a2, a3, a4, a5, a6], _ => simp [legendreGrad1D, setB, List.range_succ, e0, e1, e2, e3, e4, e5, e6, e7]
  · match view, hv with
    | [a0, a1, a2, a3, a4, a5, a6, a7], _ => simp [legendreGrad1D, setB, List.range_succ, e0, e1, e2, e3, e4, e5, e6, e7]

/-- **C21** (the limit of the claim).  For orders above 7 the API is accepted, but entries 7 and
up of the output are left as they were. -/
theorem C21_above_seven_unset (p : ℕ) (hp : 7 < p) (x : K) (view : List K)
    (hv : view.length = p + 1) :
    ∃ phi g, legendreVal1D x p view = some phi ∧ legendreGrad1D x p view = some g ∧
      ∀ i, 7 ≤ i → phi[i]? = view[i]? ∧ g[i]? = view[i]? := by
  have h : ∀ k, k ≤ 7 → k < p + 1 := fun k hk => by omega
  obtain ⟨v, v1, v2⟩ : ∃ l, legendreVal1D x p view = some l ∧ ∀ i, 7 ≤ i → l[i]? = view[i]? := by
    simp only [legendreVal1D, setB, hv, List.length_set, Option.bind_eq_bind, Option.bind_some,
      h 0 (by omega), h 1 (by omega), h 2 (by omega), h 3 (by omega), h 4 (by omega),
      h 5 (by omega), h 6 (by omega), show 1 ≤ p by omega, show 2 ≤ p by omega,
      show 3 ≤ p by omega, show 4 ≤ p by omega, show 5 ≤ p by omega, show 6 ≤ p by omega,
      show ¬ p = 7 by omega, if_true, if_false]
    refine ⟨_, rfl, fun i hi => ?_⟩
    rw [List.getElem?_set_ne (by omega), List.getElem?_set_ne (by omega),
      List.getElem?_set_ne (by omega), List.getElem?_set_ne (by omega),
      List.getElem?_set_ne (by omega), List.getElem?_set_ne (by omega),
      List.getElem?_set_ne (by omega)]
  obtain ⟨g, g1, g2⟩ : ∃ l, legendreGrad1D x p view = some l ∧ ∀ i, 7 ≤ i → l[i]? = view[i]? := by
    simp only [legendreGrad1D, setB, hv, List.length_set, Option.bind_eq_bind, Option.bind_some,
      h 0 (by omega), h 1 (by omega), h 2 (by omega), h 3 (by omega), h 4 (by omega),
      h 5 (by omega), h 6 (by omega), show 1 ≤ p by omega, show 2 ≤ p by omega,
      show 3 ≤ p by omega, show 4 ≤ p by omega, show 5 ≤ p by omega, show 6 ≤ p by omega,
      show ¬ p = 7 by omega, if_true, if_false]
    refine ⟨_, rfl, fun i hi => ?_⟩
    rw [List.getElem?_set_ne (by omega), List.getElem?_set_ne (by omega),
      List.getElem?_set_ne (by omega), List.getElem?_set_ne (by omega),
      List.getElem?_set_ne (by omega), List.getElem?_set_ne (by omega),
      List.getElem?_set_ne (by omega)]
  exact ⟨v, g, v1, g1, fun i hi => ⟨v2 i hi, g2 i hi⟩⟩

theorem legPoly_at_one (n : ℕ) :
    (legPoly (K := K) n).eval 1 = 1 ∧ (legPoly (K := K) (n + 1)).eval 1 = 1 := by
  induction n with
  | zero => simp [legPoly]
  | succ n ih =>
    refine ⟨ih.2, ?_⟩
    rw [legPoly_eval_rec, ih.1, ih.2]
    have h : ((n : K) + 2) ≠ 0 := by
      have : ((n + 2 : ℕ) : K) ≠ 0 := by exact_mod_cast (by omega : n + 2 ≠ 0)
      simpa using this
    field_simp; ring

theorem legPoly_parity (x : K) (n : ℕ) :
    (legPoly (K := K) n).eval (-x) = (-1) ^ n * (legPoly n).eval x ∧
    (legPoly (K := K) (n + 1)).eval (-x) = (-1) ^ (n + 1) * (legPoly (n + 1)).eval x := by
  induction n with
  | zero => simp [legPoly]
  | succ n ih =>
    refine ⟨ih.2, ?_⟩
    rw [legPoly_eval_rec, legPoly_eval_rec, ih.1, ih.2]
    ring

/-- derivative identities `P'_{n+1} = x P'_n + (n+1) P_n`, `x P'_{n+1} = P'_n + (n+1) P_{n+1}` -/
theorem legPoly_deriv_ids (n : ℕ) :
    derivative (legPoly (K := K) (n + 1)) = X * derivative (legPoly n) + C ((n : K) + 1) * legPoly n ∧
    X * derivative (legPoly (K := K) (n + 1)) =
      derivative (legPoly n) + C ((n : K) + 1) * legPoly (n + 1) := by
  induction n with
  | zero => simp [legPoly]
  | succ n ih =>
    obtain ⟨hA, hB⟩ := ih
    have h2 : (C ((n : K) + 2) : K[X]) ≠ 0 := by
      rw [Ne, C_eq_zero]
      have : ((n + 2 : ℕ) : K) ≠ 0 := by exact_mod_cast (by omega : n + 2 ≠ 0)
      simpa using this
    have hrec := legPoly_rec (K := K) n
    have hd : C ((n : K) + 2) * derivative (legPoly (n + 2)) = C (2 * (n : K) + 3) *
        (legPoly (n + 1) + X * derivative (legPoly (n + 1))) - C ((n : K) + 1) * derivative (legPoly n) := by
      have := congrArg derivative hrec
      simp only [derivative_mul, derivative_sub, derivative_C, derivative_X, zero_mul, mul_one,
        zero_add] at this
      rw [this]; ring
    have c1 : (C ((n : K) + 2) : K[X]) = C (n : K) + 2 := by
      rw [C_add, show (C (2 : K) : K[X]) = 2 from map_ofNat C 2]
    have c2 : (C (2 * (n : K) + 3) : K[X]) = 2 * C (n : K) + 3 := by
      rw [C_add, C_mul, show (C (2 : K) : K[X]) = 2 from map_ofNat C 2,
        show (C (3 : K) : K[X]) = 3 from map_ofNat C 3]
    have c3 : (C ((n : K) + 1) : K[X]) = C (n : K) + 1 := by simp
    have c4 : (C (((n + 1 : ℕ) : K) + 1) : K[X]) = C (n : K) + 2 := by
      push_cast; rw [C_add, C_add, C_1]; ring
    rw [c1] at h2 hrec hd
    rw [c2, c3] at hrec hd
    rw [c3] at hA hB
    rw [c4]
    generalize (C (n : K) : K[X]) = N at *
    have A' : derivative (legPoly (K := K) (n + 2)) =
        X * derivative (legPoly (n + 1)) + (N + 2) * legPoly (n + 1) := by
      refine mul_left_cancel₀ h2 ?_
      linear_combination hd + (N + 1) * hB
    refine ⟨A', ?_⟩
    refine mul_left_cancel₀ h2 ?_
    linear_combination (N + 2) * X * A' - (N + 2) * hrec + (N + 2) * X * hB - (N + 2) * hA

end Spec

/-- **C21** (the specification is the normalised Legendre family): every Legendre polynomial takes
the value 1 at 1 and has the parity of its degree. -/
theorem C21_normalised (n : ℕ) (x : ℝ) :
    (legPoly (K := ℝ) n).eval 1 = 1 ∧
    (legPoly (K := ℝ) n).eval (-x) = (-1) ^ n * (legPoly n).eval x :=
  ⟨(legPoly_at_one n).1, (legPoly_parity x n).1⟩

/-- the integral over [-1,1] of a polynomial -/
noncomputable def integ (q : ℝ[X]) : ℝ := ∫ x in (-1 : ℝ)..1, q.eval x

theorem integ_derivative (q : ℝ[X]) : integ (derivative q) = q.eval 1 - q.eval (-1) := by
  unfold integ
  exact intervalIntegral.integral_eq_sub_of_hasDerivAt (fun x _ => q.hasDerivAt x)
    ((derivative q).continuous.intervalIntegrable _ _)

theorem integ_add (p q : ℝ[X]) : integ (p + q) = integ p + integ q := by
  unfold integ
  simp only [eval_add]
  exact intervalIntegral.integral_add (p.continuous.intervalIntegrable _ _)
    (q.continuous.intervalIntegrable _ _)

theorem integ_C_mul (c : ℝ) (q : ℝ[X]) : integ (C c * q) = c * integ q := by
  unfold integ
  simp only [eval_mul, eval_C]
  exact intervalIntegral.integral_const_mul _ _

theorem integ_sub (p q : ℝ[X]) : integ (p - q) = integ p - integ q := by
  have : p - q = p + C (-1) * q := by simp; ring
  rw [this, integ_add, integ_C_mul]; ring

theorem integ_legPoly (n : ℕ) : integ (legPoly (n + 1)) = 0 := by
  -- (2n+3) P_{n+1} = P'_{n+2} - P'_n
  obtain ⟨A, -⟩ := legPoly_deriv_ids (K := ℝ) (n + 1)
  obtain ⟨-, B⟩ := legPoly_deriv_ids (K := ℝ) n
  have key : C (2 * (n : ℝ) + 3) * legPoly (n + 1)
      = derivative (legPoly (n + 2)) - derivative (legPoly n) := by
    rw [A, B]
    have c2 : (C (2 * (n : ℝ) + 3) : ℝ[X]) = 2 * C (n : ℝ) + 3 := by
      rw [C_add, C_mul, show (C (2 : ℝ) : ℝ[X]) = 2 from map_ofNat C 2,
        show (C (3 : ℝ) : ℝ[X]) = 3 from map_ofNat C 3]
    have c3 : (C ((n : ℝ) + 1) : ℝ[X]) = C (n : ℝ) + 1 := by simp
    have c4 : (C (((n + 1 : ℕ) : ℝ) + 1) : ℝ[X]) = C (n : ℝ) + 2 := by
      push_cast; rw [C_add, C_add, C_1]; ring
    rw [c2, c3, c4]; ring
  have h := congrArg integ key
  rw [integ_C_mul, integ_sub, integ_derivative, integ_derivative, (legPoly_at_one (n + 2)).1,
    (legPoly_at_one n).1, (legPoly_parity 1 (n + 2)).1, (legPoly_parity 1 n).1,
    (legPoly_at_one (n + 2)).1, (legPoly_at_one n).1, pow_add] at h
  have h3 : (2 * (n : ℝ) + 3) ≠ 0 := by positivity
  have : (2 * (n : ℝ) + 3) * integ (legPoly (n + 1)) = 0 := by rw [h]; ring
  exact (mul_eq_zero.1 this).resolve_left h3

/-- `⟨P_m, P_n⟩` -/
noncomputable def legIP (m n : ℕ) : ℝ := integ (legPoly m * legPoly n)

theorem legIP_rel (m n : ℕ) : (2 * (n : ℝ) + 3) * (((m : ℝ) + 2) * legIP (m + 2) (n + 1) + ((m : ℝ) + 1) * legIP m (n + 1))
    = (2 * (m : ℝ) + 3) * (((n : ℝ) + 2) * legIP (m + 1) (n + 2) + ((n : ℝ) + 1) * legIP (m + 1) n) := by
  have hm := legPoly_rec (K := ℝ) m
  have hn := legPoly_rec (K := ℝ) n
  unfold legIP
  rw [← integ_C_mul, ← integ_C_mul, ← integ_add, ← integ_C_mul, ← integ_C_mul, ← integ_C_mul,
    ← integ_add, ← integ_C_mul]
  congr 1
  linear_combination C (2 * (n : ℝ) + 3) * legPoly (n + 1) * hm
    - C (2 * (m : ℝ) + 3) * legPoly (m + 1) * hn

theorem legIP_comm (m n : ℕ) : legIP m n = legIP n m := by unfold legIP; rw [mul_comm]

theorem legIP_zero (n : ℕ) : legIP 0 (n + 1) = 0 := by
  unfold legIP; rw [legPoly, one_mul]; exact integ_legPoly n

/-- first row: `⟨x, P_n⟩ = 0` for `n ≥ 2` -/
theorem legIP_one (n : ℕ) : legIP 1 (n + 2) = 0 := by
  have hn := legPoly_rec (K := ℝ) (n + 1)
  have : C (2 * ((n + 1 : ℕ) : ℝ) + 3) * (legPoly 1 * legPoly (n + 2))
      = C (((n + 1 : ℕ) : ℝ) + 2) * legPoly (n + 3) + C (((n + 1 : ℕ) : ℝ) + 1) * legPoly (n + 1) := by
    rw [hn]; simp only [legPoly]; ring
  have h := congrArg integ this
  rw [integ_C_mul, integ_add, integ_C_mul, integ_C_mul, integ_legPoly, integ_legPoly] at h
  have h3 : (2 * ((n + 1 : ℕ) : ℝ) + 3) ≠ 0 := by positivity
  unfold legIP
  have h' : (2 * ((n + 1 : ℕ) : ℝ) + 3) * integ (legPoly 1 * legPoly (n + 2)) = 0 := by
    rw [h]; ring
  exact (mul_eq_zero.1 h').resolve_left h3

theorem legIP_lt : ∀ m : ℕ, (∀ n, m < n → legIP m n = 0) ∧ (∀ n, m + 1 < n → legIP (m + 1) n = 0) := by
  intro m
  induction m with
  | zero =>
    refine ⟨fun n hn => ?_, fun n hn => ?_⟩
    · obtain ⟨k, rfl⟩ : ∃ k, n = k + 1 := ⟨n - 1, by omega⟩; exact legIP_zero k
    · obtain ⟨k, rfl⟩ : ∃ k, n = k + 2 := ⟨n - 2, by omega⟩; exact legIP_one k
  | succ m ih =>
    refine ⟨ih.2, fun n hn => ?_⟩
    obtain ⟨k, rfl⟩ : ∃ k, n = k + 1 := ⟨n - 1, by omega⟩
    have h := legIP_rel m k
    rw [ih.1 (k + 1) (by omega), ih.2 (k + 2) (by omega), ih.2 k (by omega)] at h
    have h1 : (2 * (k : ℝ) + 3) ≠ 0 := by positivity
    have h2 : ((m : ℝ) + 2) ≠ 0 := by positivity
    have h' : (2 * (k : ℝ) + 3) * (((m : ℝ) + 2) * legIP (m + 2) (k + 1)) = 0 := by linarith
    exact (mul_eq_zero.1 ((mul_eq_zero.1 h').resolve_left h1)).resolve_left h2

theorem legIP_self : ∀ m : ℕ, legIP m m = 2 / (2 * (m : ℝ) + 1) ∧
    legIP (m + 1) (m + 1) = 2 / (2 * ((m + 1 : ℕ) : ℝ) + 1) := by
  intro m
  induction m with
  | zero =>
    constructor
    · unfold legIP integ; simp [legPoly]; norm_num
    · unfold legIP integ
      have : ∀ x : ℝ, eval x (legPoly (0 + 1) * legPoly (0 + 1)) = x ^ 2 := by
        intro x; simp [legPoly]; ring
      simp only [this, integral_pow]; norm_num
  | succ m ih =>
    refine ⟨ih.2, ?_⟩
    have h := legIP_rel m (m + 1)
    have z1 : legIP m (m + 1 + 1) = 0 := (legIP_lt m).1 _ (by omega)
    have z2 : legIP (m + 1) (m + 1 + 2) = 0 := (legIP_lt m).2 _ (by omega)
    rw [z1, z2, ih.2] at h
    have h1 : (2 * (m : ℝ) + 3) ≠ 0 := by positivity
    have h2 : ((m : ℝ) + 2) ≠ 0 := by positivity
    have h3 : (2 * (m : ℝ) + 5) ≠ 0 := by positivity
    push_cast at h ⊢
    have e1 : (2 * ((m : ℝ) + 1) + 1) = 2 * m + 3 := by ring
    have e2 : (2 * ((m : ℝ) + 1 + 1) + 1) = 2 * m + 5 := by ring
    have e3 : (2 * ((m : ℝ) + 1) + 3) = 2 * m + 5 := by ring
    rw [e1, e3] at h
    rw [e2, eq_div_iff h3]
    field_simp at h
    refine mul_left_cancel₀ h2 ?_
    linear_combination h

/-- **C21** (orthogonality).  The Legendre polynomials, hence by `C21_values` the entries of the
basis for `p ≤ 7`, are orthogonal on `[-1,1]` with squared norm `2/(2i+1)`. -/
theorem C21_orthogonal (i j : ℕ) :
    ∫ x in (-1 : ℝ)..1, (legPoly (K := ℝ) i).eval x * (legPoly j).eval x
      = if i = j then 2 / (2 * (i : ℝ) + 1) else 0 := by
  have e : ∫ x in (-1 : ℝ)..1, (legPoly (K := ℝ) i).eval x * (legPoly j).eval x = legIP i j := by
    unfold legIP integ; simp only [eval_mul]
  rw [e]
  rcases Nat.lt_trichotomy i j with h | h | h
  · rw [if_neg (by omega)]; exact (legIP_lt i).1 j h
  · subst h; rw [if_pos rfl]; exact (legIP_self i).1
  · rw [if_neg (by omega), legIP_comm]; exact (legIP_lt j).1 i h

/-- **C21** (gradients are derivatives of the values, real analysis form). -/
theorem C21_is_derivative (p : ℕ) (hp : p ≤ 7) (x : ℝ) (view view' : List ℝ)
    (hv : view.length = p + 1) (hv' : view'.length = p + 1) :
    ∃ (phi : ℝ → List ℝ) (g : List ℝ), (∀ t, legendreVal1D t p view = some (phi t)) ∧
      legendreGrad1D x p view' = some g ∧
      ∀ i ≤ p, HasDerivAt (fun t => get0 (phi t) i) (get0 g i) x := by
  choose phi h1 h2 h3 using fun t => C21_values p hp t view hv
  obtain ⟨g, g1, g2, g3⟩ := C21_gradients p hp x view' hv'
  refine ⟨phi, g, h1, g1, ?_⟩
  intro i hi
  have e : (fun t => get0 (phi t) i) = fun t => (legPoly (K := ℝ) i).eval t := by
    funext t; simp [get0, h3 t i hi]
  have e' : get0 g i = (derivative (legPoly (K := ℝ) i)).eval x := by simp [get0, g3 i hi]
  rw [e, e']
  exact (legPoly i).hasDerivAt x

example : legendreVal1D (1/2 : ℚ) 3 [9, 9, 9, 9] = some [1, 1/2, -1/8, -7/16] := by
  simp [legendreVal1D, setB]; norm_num

end DG
