import Verif.Spec.Rounding
import Verif.Lemmas.Double
import Mathlib.Data.Int.Log

/-!
Computer arithmetics in the sense of `Spec/Rounding.lean`: IEEE double precision, and for every `p` the operations on the reals rounded to `p` bits.
-/
namespace DG

/-- a rounding to the numbers `F` of a machine -/
structure RoundTo (F : Set ℝ) (u big : ℝ) (rd : ℝ → ℝ) : Prop where
  u0 : 0 ≤ u
  zero : (0 : ℝ) ∈ F
  one : (1 : ℝ) ∈ F
  neg : ∀ x ∈ F, -x ∈ F
  mem : ∀ x, |x| ≤ big → rd x ∈ F ∧ Rounds u x (rd x)

section
variable {F : Set ℝ} {u big : ℝ} {rd : ℝ → ℝ}

open Classical in
/-- the result of an operation: the rounded value, or not a number -/
noncomputable def RoundTo.res (h : RoundTo F u big rd) (x : ℝ) : Option F :=
  if hx : |x| ≤ big then some ⟨rd x, (h.mem x hx).1⟩ else none

noncomputable def RoundTo.v : Option F → ℝ := fun a => (a.map Subtype.val).getD 0

theorem RoundTo.res_ok (h : RoundTo F u big rd) {x : ℝ} (hx : |x| ≤ big) :
    (h.res x).isSome ∧ Rounds u x (v (h.res x)) := by
  have : h.res x = some ⟨rd x, (h.mem x hx).1⟩ := dif_pos hx
  rw [this]
  exact ⟨rfl, (h.mem x hx).2⟩

theorem RoundTo.res_ok4 (h : RoundTo F u big rd) {x : ℝ} (hx : |x| ≤ big) :
    (h.res x).isSome ∧ Rounds (4 * u) x (v (h.res x)) := by
  obtain ⟨h1, h2, h3⟩ := h.res_ok hx
  refine ⟨h1, h2.trans ?_, h3⟩
  have := h.u0
  nlinarith [mul_nonneg this (abs_nonneg x)]

open Classical in
/-- The arithmetic on `F` with one value that is not a number: exact operations followed by the rounding. -/
noncomputable def RoundTo.arith (h : RoundTo F u big rd) : Arith where
  K := Option F
  instZero := ⟨some ⟨0, h.zero⟩⟩
  instOne := ⟨some ⟨1, h.one⟩⟩
  instAdd := ⟨fun a b => if a.isSome ∧ b.isSome then h.res (v a + v b) else none⟩
  instSub := ⟨fun a b => if a.isSome ∧ b.isSome then h.res (v a - v b) else none⟩
  instMul := ⟨fun a b => if a.isSome ∧ b.isSome then h.res (v a * v b) else none⟩
  instNeg := ⟨fun a => a.map fun x => ⟨-x.1, h.neg x.1 x.2⟩⟩
  instDiv := ⟨fun a b => if a.isSome ∧ b.isSome ∧ v b ≠ 0 then h.res (v a / v b) else none⟩
  instCast := ⟨fun n => h.res n⟩
  instSqrt := ⟨fun a => if a.isSome ∧ 0 ≤ v a then h.res (Real.sqrt (v a)) else none⟩
  instLit := ⟨fun n k => h.res (n / 10 ^ k)⟩
  instLibm := ⟨fun a => if a.isSome then h.res (Real.exp (v a)) else none,
    fun a b => if a.isSome ∧ b.isSome ∧ (0 < v a ∨ v a = 0 ∧ 0 < v b) then h.res (v a ^ v b) else none,
    fun a n => if a.isSome then h.res (v a ^ n) else none, h.res Real.pi⟩
  instLT := ⟨fun a b => a.isSome ∧ b.isSome ∧ v a < v b⟩
  instDecLT := fun _ _ => inferInstance
  instLE := ⟨fun a b => a.isSome ∧ b.isSome ∧ v a ≤ v b⟩
  instDecLE := fun _ _ => inferInstance
  instDecEq := fun _ _ => inferInstance
  fin a := a.isSome
  val := v
  u := u
  big := big
  u_nonneg := h.u0
  zero := ⟨rfl, rfl⟩
  one := ⟨rfl, rfl⟩
  cast n hn := h.res_ok (by rw [abs_of_nonneg (Nat.cast_nonneg n)]; exact hn)
  lit n k hn := h.res_ok hn
  neg a ha := by
    cases a with
    | none => cases ha
    | some x => exact ⟨rfl, rfl⟩
  add a b ha hb hab := by
    have : (if a.isSome ∧ b.isSome then h.res (v a + v b) else none) = h.res (v a + v b) := if_pos ⟨ha, hb⟩
    show (if a.isSome ∧ b.isSome then h.res (v a + v b) else none).isSome = true ∧ _
    refine ⟨by rw [this]; exact (h.res_ok hab).1, ?_⟩
    show Rounds u _ (v (if a.isSome ∧ b.isSome then h.res (v a + v b) else none))
    rw [this]; exact (h.res_ok hab).2
  sub a b ha hb hab := by
    have : (if a.isSome ∧ b.isSome then h.res (v a - v b) else none) = h.res (v a - v b) := if_pos ⟨ha, hb⟩
    show (if a.isSome ∧ b.isSome then h.res (v a - v b) else none).isSome = true ∧ _
    refine ⟨by rw [this]; exact (h.res_ok hab).1, ?_⟩
    show Rounds u _ (v (if a.isSome ∧ b.isSome then h.res (v a - v b) else none))
    rw [this]; exact (h.res_ok hab).2
  mul a b ha hb hab := by
    have : (if a.isSome ∧ b.isSome then h.res (v a * v b) else none) = h.res (v a * v b) := if_pos ⟨ha, hb⟩
    show (if a.isSome ∧ b.isSome then h.res (v a * v b) else none).isSome = true ∧ _
    refine ⟨by rw [this]; exact (h.res_ok hab).1, ?_⟩
    show Rounds u _ (v (if a.isSome ∧ b.isSome then h.res (v a * v b) else none))
    rw [this]; exact (h.res_ok hab).2
  div a b ha hb hb0 hab := by
    have : (if a.isSome ∧ b.isSome ∧ v b ≠ 0 then h.res (v a / v b) else none) = h.res (v a / v b) :=
      if_pos ⟨ha, hb, hb0⟩
    show (if a.isSome ∧ b.isSome ∧ v b ≠ 0 then h.res (v a / v b) else none).isSome = true ∧ _
    refine ⟨by rw [this]; exact (h.res_ok hab).1, ?_⟩
    show Rounds u _ (v (if a.isSome ∧ b.isSome ∧ v b ≠ 0 then h.res (v a / v b) else none))
    rw [this]; exact (h.res_ok hab).2
  sqrt a ha h0 hs := by
    have hs' : |Real.sqrt (v a)| ≤ big := by rw [abs_of_nonneg (Real.sqrt_nonneg _)]; exact hs
    have : (if a.isSome ∧ 0 ≤ v a then h.res (Real.sqrt (v a)) else none) = h.res (Real.sqrt (v a)) :=
      if_pos ⟨ha, h0⟩
    show (if a.isSome ∧ 0 ≤ v a then h.res (Real.sqrt (v a)) else none).isSome = true ∧ _
    refine ⟨by rw [this]; exact (h.res_ok hs').1, ?_⟩
    show Rounds u _ (v (if a.isSome ∧ 0 ≤ v a then h.res (Real.sqrt (v a)) else none))
    rw [this]; exact (h.res_ok hs').2
  pi hb := h.res_ok4 (by rw [abs_of_pos Real.pi_pos]; exact hb)
  exp a ha hb := by
    have : (if a.isSome then h.res (Real.exp (v a)) else none) = h.res (Real.exp (v a)) := if_pos ha
    have h4 := h.res_ok4 (x := Real.exp (v a)) (by rw [abs_of_pos (Real.exp_pos _)]; exact hb)
    rw [← this] at h4
    exact h4
  pow a b ha hb h0 hab := by
    have h0' : 0 ≤ v a := h0.elim le_of_lt fun h => h.1.ge
    have : (if a.isSome ∧ b.isSome ∧ (0 < v a ∨ v a = 0 ∧ 0 < v b) then h.res (v a ^ v b) else none) = h.res (v a ^ v b) :=
      if_pos ⟨ha, hb, h0⟩
    have h4 := h.res_ok4 (x := v a ^ v b) (by rw [abs_of_nonneg (Real.rpow_nonneg h0' _)]; exact hab)
    rw [← this] at h4
    exact h4
  powi a n ha hb := by
    have : (if a.isSome then h.res (v a ^ n) else none) = h.res (v a ^ n) := if_pos ha
    have h4 := h.res_ok4 hb
    rw [← this] at h4
    exact h4
  lt a b ha hb := ⟨fun h => h.2.2, fun h => ⟨ha, hb, h⟩⟩
  le a b ha hb := ⟨fun h => h.2.2, fun h => ⟨ha, hb, h⟩⟩

end

/-- a rounding to double precision is one in the sense of `Rounds` -/
theorem Rounded.rounds {x y : ℝ} (h : Rounded x y) (hx : |x| < (2 : ℝ) ^ (1023 : ℤ)) : Rounds (2 ^ (-53 : ℤ)) x y := by
  have hz : IsDouble 0 := by simpa using isDouble_natCast (k := 0) (by norm_num)
  refine ⟨?_, fun h0 => h.ge hz h0⟩
  have neg : ∀ {z : ℝ}, IsDouble z → IsDouble (-z) := by
    rintro z ⟨m, e, h1, h2, h3, rfl⟩
    exact ⟨-m, e, by rwa [abs_neg], h2, h3, by push_cast; ring⟩
  have e1 : (2 : ℝ) ^ (-53 : ℤ) = 1 / 2 ^ 53 := by rw [zpow_neg, one_div]; norm_num
  by_cases hs : |x| < (2 : ℝ) ^ (-1022 : ℤ)
  · -- subnormal
    set t : ℝ := x * 2 ^ (1074 : ℤ) with ht
    have hz1 : (2 : ℝ) ^ (-1074 : ℤ) * 2 ^ (1074 : ℤ) = 1 := by rw [← zpow2_split]; norm_num
    have hp := zpow2_pos 1074
    have hp' := zpow2_pos (-1074)
    have hb : |t| < 2 ^ (52 : ℤ) := by
      rw [ht, abs_mul, abs_of_pos hp]
      calc |x| * 2 ^ (1074 : ℤ) < 2 ^ (-1022 : ℤ) * 2 ^ (1074 : ℤ) := by gcongr
        _ = 2 ^ (52 : ℤ) := by rw [← zpow2_split]; norm_num
    have hr := abs_sub_round t
    have hm : |round t| < 2 ^ 53 := by
      have h1 : |(round t : ℝ)| < 2 ^ (53 : ℕ) := by
        have h2 : |(round t : ℝ)| ≤ |t| + 1 / 2 := by
          have := abs_sub_abs_le_abs_sub (round t : ℝ) t
          rw [abs_sub_comm] at this
          linarith
        have h3 : (2 : ℝ) ^ (52 : ℤ) + 1 / 2 < 2 ^ (53 : ℕ) := by norm_num
        linarith
      exact_mod_cast h1
    have hd : IsDouble ((round t : ℝ) * 2 ^ (-1074 : ℤ)) := ⟨round t, -1074, hm, by norm_num, by norm_num, rfl⟩
    have h1 := h.2 _ hd
    have h2 : x - (round t : ℝ) * 2 ^ (-1074 : ℤ) = (t - round t) * 2 ^ (-1074 : ℤ) := by
      rw [ht]; linear_combination (-x) * hz1
    rw [h2, abs_mul, abs_of_pos hp'] at h1
    have h3 : |t - round t| * (2 : ℝ) ^ (-1074 : ℤ) ≤ 1 / 2 * 2 ^ (-1074 : ℤ) := by gcongr
    have h4 : (1 : ℝ) / 2 * 2 ^ (-1074 : ℤ) ≤ (2 ^ (-53 : ℤ)) ^ 2 := by
      have : ((2 : ℝ) ^ (-53 : ℤ)) ^ 2 = 2 ^ (-106 : ℤ) := by rw [← zpow_natCast, ← zpow_mul]; norm_num
      rw [this]
      have : (2 : ℝ) ^ (-1074 : ℤ) ≤ 2 ^ (-106 : ℤ) := zpow_le_zpow_right₀ (by norm_num) (by norm_num)
      generalize (2 : ℝ) ^ (-1074 : ℤ) = a at this hp'
      generalize (2 : ℝ) ^ (-106 : ℤ) = b at this
      linarith
    rw [abs_sub_comm]
    have h5 : 0 ≤ (2 : ℝ) ^ (-53 : ℤ) * |x| := by positivity
    exact ((h1.trans h3).trans h4).trans (le_add_of_nonneg_left h5)
  · push Not at hs
    have h0 : 0 ≤ ((2 : ℝ) ^ (-53 : ℤ)) ^ 2 := by positivity
    suffices |y - x| ≤ |x| / 2 ^ 53 by rw [e1] at h0 ⊢; linarith
    rcases le_total 0 x with hx0 | hx0
    · rw [abs_of_nonneg hx0] at hs hx ⊢
      rw [abs_sub_comm]
      exact h.rel hs hx
    · rw [abs_of_nonpos hx0] at hs hx ⊢
      have h' : Rounded (-x) (-y) := ⟨neg h.1, fun z hz => by
        have := h.2 (-z) (neg hz)
        rw [show -x - -y = -(x - y) by ring, show -x - z = -(x - -z) by ring, abs_neg, abs_neg]
        exact this⟩
      have := h'.rel hs hx
      rwa [show -x - -y = y - x by ring] at this

/-- IEEE double precision (round to nearest, ties either way) -/
theorem doubles_round : ∃ rd : ℝ → ℝ, (∀ x, Rounded x (rd x)) ∧
    RoundTo {x | IsDouble x} (2 ^ (-53 : ℤ)) (2 ^ (1022 : ℤ)) rd := by
  choose rd hrd using exists_rounded
  refine ⟨rd, hrd, by positivity, by simpa using isDouble_natCast (k := 0) (by norm_num),
    by simpa using isDouble_natCast (k := 1) (by norm_num), ?_, ?_⟩
  · rintro z ⟨m, e, h1, h2, h3, rfl⟩
    exact ⟨-m, e, by rwa [abs_neg], h2, h3, by push_cast; ring⟩
  · intro x hx
    exact ⟨(hrd x).1, (hrd x).rounds (lt_of_le_of_lt hx (zpow_lt_zpow_right₀ (by norm_num) (by norm_num)))⟩

/-- the nearest fraction with denominator `2^p` times the power of two below `|x|`: `p` bits and any exponent -/
noncomputable def roundBits (p : ℕ) (x : ℝ) : ℝ :=
  (round (x / 2 ^ (Int.log 2 |x| - p)) : ℝ) * 2 ^ (Int.log 2 |x| - p)

theorem roundBits_rounds (p : ℕ) (x : ℝ) : Rounds (2 ^ (-(p : ℤ))) x (roundBits p x) := by
  unfold roundBits
  set s : ℝ := 2 ^ (Int.log 2 |x| - p) with hs
  have hsp : 0 < s := zpow2_pos _
  constructor
  · have h1 := abs_sub_round (x / s)
    have h2 : (round (x / s) : ℝ) * s - x = -((x / s - round (x / s)) * s) := by field_simp; ring
    rw [h2, abs_neg, abs_mul, abs_of_pos hsp]
    rcases eq_or_ne x 0 with rfl | hx
    · simp
    have h3 : (2 : ℝ) ^ Int.log 2 |x| ≤ |x| := by
      have := Int.zpow_log_le_self (b := 2) (by norm_num) (abs_pos.2 hx)
      exact_mod_cast this
    have h4 : s ≤ 2 ^ (-(p : ℤ)) * |x| := by
      rw [hs, sub_eq_add_neg, zpow2_split, mul_comm]
      gcongr
    have h5 : |x / s - round (x / s)| * s ≤ 1 / 2 * s := by gcongr
    have h6 : 0 ≤ ((2 : ℝ) ^ (-(p : ℤ))) ^ 2 := by positivity
    linarith
  · intro h0
    have h7 : 0 ≤ x / s := by positivity
    have : (0 : ℤ) ≤ round (x / s) := by
      rw [round_eq]
      exact Int.floor_nonneg.2 (by linarith)
    have : (0 : ℝ) ≤ round (x / s) := by exact_mod_cast this
    positivity

/-- operations rounded to `p` bits -/
theorem bits_round (p : ℕ) (big : ℝ) : RoundTo Set.univ (2 ^ (-(p : ℤ))) big (roundBits p) :=
  ⟨by positivity, trivial, trivial, fun _ _ => trivial, fun x _ => ⟨trivial, roundBits_rounds p x⟩⟩

end DG
