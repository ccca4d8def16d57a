import Verif.Model.Double
import Mathlib.Analysis.SpecialFunctions.Pow.Real
import Mathlib.Algebra.Order.Archimedean.Basic

/-! Rounding to double precision. -/
namespace DG

theorem zpow2_pos (e : ℤ) : (0 : ℝ) < 2 ^ e := zpow_pos (by norm_num) e

theorem zpow2_split (a b : ℤ) : (2 : ℝ) ^ (a + b) = 2 ^ a * 2 ^ b := zpow_add₀ (by norm_num) a b

theorem isDouble_natCast {k : ℕ} (hk : k < 2 ^ 53) : IsDouble k :=
  ⟨k, 0, by rw [abs_of_nonneg (by omega)]; exact_mod_cast hk, by norm_num, by norm_num, by simp⟩

theorem isDouble_half {k : ℕ} (hk : k < 2 ^ 51) : IsDouble ((k : ℝ) + 1 / 2) := by
  refine ⟨2 * k + 1, -1, ?_, by norm_num, by norm_num, ?_⟩
  · rw [abs_of_nonneg (by omega)]; norm_num at hk ⊢; omega
  · push_cast; rw [zpow_neg_one]; ring

theorem Rounded.ge {x y z : ℝ} (h : Rounded x y) (hz : IsDouble z) (hzx : z ≤ x) : z ≤ y := by
  by_contra hlt
  push Not at hlt
  have := h.2 z hz
  rw [abs_of_nonneg (by linarith), abs_of_nonneg (by linarith)] at this
  linarith

theorem Rounded.le {x y z : ℝ} (h : Rounded x y) (hz : IsDouble z) (hzx : x ≤ z) : y ≤ z := by
  by_contra hlt
  push Not at hlt
  have := h.2 z hz
  rw [abs_of_nonpos (by linarith), abs_of_nonpos (by linarith)] at this
  linarith

/-- relative error of a rounding in the normal range -/
theorem Rounded.rel {x y : ℝ} (h : Rounded x y) (hlo : (2 : ℝ) ^ (-1022 : ℤ) ≤ x) (hhi : x < (2 : ℝ) ^ (1023 : ℤ)) :
    |x - y| ≤ x / 2 ^ 53 := by
  have hx : 0 < x := lt_of_lt_of_le (zpow2_pos _) hlo
  obtain ⟨e, he1, he2⟩ := exists_mem_Ico_zpow hx (by norm_num : (1 : ℝ) < 2)
  have hge : -1022 ≤ e := by
    by_contra hc
    have : (2 : ℝ) ^ (e + 1) ≤ 2 ^ (-1022 : ℤ) := zpow_le_zpow_right₀ (by norm_num) (by omega)
    linarith
  have hle : e < 1023 := by
    by_contra hc
    have : (2 : ℝ) ^ (1023 : ℤ) ≤ 2 ^ e := zpow_le_zpow_right₀ (by norm_num) (by omega)
    linarith
  set u : ℝ := 2 ^ (e - 52) with hu
  have hupos : 0 < u := zpow2_pos _
  have hue : (2 : ℝ) ^ e = 2 ^ 52 * u := by
    rw [hu, show e = 52 + (e - 52) by ring, zpow2_split]; norm_num
  have hdist : |x - round (x / u) * u| ≤ u / 2 := by
    have h1 := abs_sub_round (x / u)
    have : x - round (x / u) * u = (x / u - round (x / u)) * u := by field_simp
    rw [this, abs_mul, abs_of_pos hupos]
    calc _ ≤ 1 / 2 * u := mul_le_mul_of_nonneg_right h1 hupos.le
      _ = u / 2 := by ring
  have hq1 : x / u < 2 ^ 53 := by
    rw [div_lt_iff₀ hupos]
    calc x < 2 ^ (e + 1) := he2
      _ = 2 ^ 53 * u := by rw [zpow2_split, hue]; norm_num; ring
  have hq0 : 0 ≤ x / u := by positivity
  have hr1 : round (x / u) ≤ 2 ^ 53 := by
    have h1 := abs_sub_round (x / u)
    have h2 := abs_le.1 h1
    have : (round (x / u) : ℝ) < 2 ^ 53 + 1 := by linarith
    have : (round (x / u) : ℤ) < 2 ^ 53 + 1 := by exact_mod_cast this
    omega
  have hr0 : 0 ≤ round (x / u) := by
    have h1 := abs_sub_round (x / u)
    have h2 := abs_le.1 h1
    have : (-1 : ℝ) < round (x / u) := by linarith
    have : (-1 : ℤ) < round (x / u) := by exact_mod_cast this
    omega
  have hz : IsDouble (round (x / u) * u) := by
    rcases lt_or_eq_of_le hr1 with hlt | heq
    · exact ⟨round (x / u), e - 52, by rw [abs_of_nonneg hr0]; exact hlt, by omega, by omega, rfl⟩
    · refine ⟨2 ^ 52, e - 51, by norm_num, by omega, by omega, ?_⟩
      rw [heq, hu, show e - 51 = 1 + (e - 52) by ring, zpow2_split]
      push_cast
      norm_num
      ring
  calc |x - y| ≤ u / 2 := (h.2 _ hz).trans hdist
    _ = 2 ^ e / 2 ^ 53 := by rw [hue]; norm_num; ring
    _ ≤ x / 2 ^ 53 := by gcongr

/-- doubles in the binade of `x` are multiples of the unit in the last place; a multiple at most half of it away is
the rounding -/
theorem rounded_of_close {x : ℝ} {m e : ℤ} (hm0 : 2 ^ 52 ≤ m) (hm1 : m < 2 ^ 53) (he0 : -1074 ≤ e) (he1 : e ≤ 971)
    (hx : (2 : ℝ) ^ (e + 52) ≤ x) (hc : |x - m * (2 : ℝ) ^ e| ≤ (2 : ℝ) ^ e / 2) : Rounded x (m * (2 : ℝ) ^ e) := by
  refine ⟨⟨m, e, by rw [abs_of_nonneg (by omega)]; exact hm1, he0, he1, rfl⟩, ?_⟩
  set u : ℝ := 2 ^ e with hu
  have hupos : 0 < u := zpow2_pos _
  have hmult : ∀ w : ℤ, |x - m * u| ≤ |x - w * u| := by
    intro w
    by_cases hw : w = m
    · rw [hw]
    · have h1 : (1 : ℝ) ≤ |(w : ℝ) - m| := by
        have : 1 ≤ |w - m| := Int.one_le_abs (sub_ne_zero.2 hw)
        exact_mod_cast this
      have h2 : |(w : ℝ) * u - m * u| = |(w : ℝ) - m| * u := by rw [← sub_mul, abs_mul, abs_of_pos hupos]
      have h3 : |(w : ℝ) * u - m * u| ≤ |x - m * u| + |x - w * u| := by
        have := abs_sub_le ((w : ℝ) * u) x (m * u)
        rw [abs_sub_comm ((w : ℝ) * u) x] at this
        linarith
      rw [h2] at h3
      have h4 : u ≤ |(w : ℝ) - m| * u := by nlinarith
      linarith
  have hbase : (2 : ℝ) ^ (e + 52) = ((2 ^ 52 : ℤ) : ℝ) * u := by
    rw [add_comm, zpow2_split, hu]; push_cast; norm_num
  intro z hz
  rcases lt_or_ge z ((2 : ℝ) ^ (e + 52)) with hlt | hge
  · calc |x - m * u| ≤ |x - ((2 ^ 52 : ℤ) : ℝ) * u| := hmult _
      _ = x - 2 ^ (e + 52) := by rw [← hbase, abs_of_nonneg (by linarith)]
      _ ≤ x - z := by linarith
      _ ≤ |x - z| := le_abs_self _
  · obtain ⟨mz, f, h1, h2, h3, rfl⟩ := hz
    have hf : e ≤ f := by
      by_contra hcon
      push Not at hcon
      have hf1 : (2 : ℝ) ^ f ≤ 2 ^ (e - 1) := zpow_le_zpow_right₀ (by norm_num) (by omega)
      have hmz : (mz : ℝ) < 2 ^ 53 := by
        have : mz < 2 ^ 53 := lt_of_le_of_lt (le_abs_self _) h1
        exact_mod_cast this
      have h5 : (mz : ℝ) * 2 ^ f < 2 ^ 53 * 2 ^ f := mul_lt_mul_of_pos_right hmz (zpow2_pos f)
      have h6 : (2 : ℝ) ^ 53 * 2 ^ f ≤ 2 ^ 53 * 2 ^ (e - 1) := by
        apply mul_le_mul_of_nonneg_left hf1; positivity
      have h7 : (2 : ℝ) ^ 53 * 2 ^ (e - 1) = 2 ^ (e + 52) := by
        rw [show e + 52 = 53 + (e - 1) by ring, zpow2_split]; norm_num
      linarith
    have : (mz : ℝ) * (2 : ℝ) ^ f = ((mz * 2 ^ (f - e).toNat : ℤ) : ℝ) * u := by
      have h8 : (2 : ℝ) ^ f = 2 ^ (f - e).toNat * u := by
        rw [hu, ← zpow_natCast, Int.toNat_of_nonneg (by omega), ← zpow2_split]
        congr 1; omega
      rw [h8]; push_cast; ring
    rw [this]
    exact hmult _

/-- rounding keeps the order with respect to integers: the truncated quotient is the integer part of the exact one
or one more -/
theorem floor_rounded {x y : ℝ} (h : Rounded x y) (hx : 0 ≤ x) (hy : x < 2 ^ 53 - 1) :
    ⌊x⌋ ≤ ⌊y⌋ ∧ ⌊y⌋ ≤ ⌊x⌋ + 1 := by
  have hz : 0 ≤ ⌊x⌋ := Int.floor_nonneg.2 hx
  have hcast : ((⌊x⌋.toNat : ℕ) : ℝ) = (⌊x⌋ : ℝ) := by rw [← Int.cast_natCast, Int.toNat_of_nonneg hz]
  have hlt : ⌊x⌋ < 2 ^ 53 - 1 := by
    rw [Int.floor_lt]; push_cast; norm_num at hy ⊢; exact hy
  have h1 : ((⌊x⌋.toNat : ℕ) : ℝ) ≤ y := h.ge (isDouble_natCast (by omega)) (by rw [hcast]; exact Int.floor_le x)
  have h2 : y ≤ ((⌊x⌋.toNat + 1 : ℕ) : ℝ) := h.le (isDouble_natCast (by omega)) (by
    push_cast; rw [hcast]; exact (Int.lt_floor_add_one x).le)
  constructor
  · rw [Int.le_floor, ← hcast]; exact h1
  · have : ⌊y⌋ ≤ ⌊(((⌊x⌋.toNat + 1 : ℕ) : ℝ))⌋ := Int.floor_le_floor h2
    rw [Int.floor_natCast] at this
    omega

/-- there are finitely many doubles -/
theorem finite_isDouble : {x : ℝ | IsDouble x}.Finite := by
  apply ((Set.finite_Ioo (-2 ^ 53 : ℤ) (2 ^ 53)).prod (Set.finite_Icc (-1074 : ℤ) 971)).image
    (fun p => (p.1 : ℝ) * (2 : ℝ) ^ p.2) |>.subset
  rintro x ⟨m, e, h1, h2, h3, rfl⟩
  exact ⟨(m, e), ⟨abs_lt.1 h1, ⟨h2, h3⟩⟩, rfl⟩

/-- every number has a nearest double -/
theorem exists_rounded (x : ℝ) : ∃ y, Rounded x y := by
  obtain ⟨y, h1, h2⟩ := Set.exists_min_image {x : ℝ | IsDouble x} (fun z => |x - z|) finite_isDouble
    ⟨0, by simpa using isDouble_natCast (k := 0) (by norm_num)⟩
  exact ⟨y, h1, h2⟩

/-- if `x` is itself a double nothing is rounded -/
theorem Rounded.exact {x y : ℝ} (h : Rounded x y) (hx : IsDouble x) : y = x := by
  have := h.2 x hx
  rw [sub_self, abs_zero] at this
  have := abs_eq_zero.1 (le_antisymm this (abs_nonneg _))
  linarith

/-- doubles not below a binade's start are multiples of its unit in the last place -/
theorem isDouble_multiple {z : ℝ} {e : ℤ} (hz : IsDouble z) (hge : (2 : ℝ) ^ (e + 52) ≤ z) :
    ∃ w : ℤ, z = w * (2 : ℝ) ^ e := by
  obtain ⟨mz, f, h1, h2, h3, rfl⟩ := hz
  have hf : e ≤ f := by
    by_contra hcon
    push Not at hcon
    have hf1 : (2 : ℝ) ^ f ≤ 2 ^ (e - 1) := zpow_le_zpow_right₀ (by norm_num) (by omega)
    have hmz : (mz : ℝ) < 2 ^ 53 := by
      have : mz < 2 ^ 53 := lt_of_le_of_lt (le_abs_self _) h1
      exact_mod_cast this
    have h5 : (mz : ℝ) * 2 ^ f < 2 ^ 53 * 2 ^ f := mul_lt_mul_of_pos_right hmz (zpow2_pos f)
    have h6 : (2 : ℝ) ^ 53 * 2 ^ f ≤ 2 ^ 53 * 2 ^ (e - 1) := by
      apply mul_le_mul_of_nonneg_left hf1; positivity
    have h7 : (2 : ℝ) ^ 53 * 2 ^ (e - 1) = 2 ^ (e + 52) := by
      rw [show e + 52 = 53 + (e - 1) by ring, zpow2_split]; norm_num
    linarith
  refine ⟨mz * 2 ^ (f - e).toNat, ?_⟩
  have h8 : (2 : ℝ) ^ f = 2 ^ (f - e).toNat * 2 ^ e := by
    rw [← zpow_natCast, Int.toNat_of_nonneg (by omega), ← zpow2_split]
    congr 1; omega
  rw [h8]; push_cast; ring

/-- a multiple of the unit in the last place less than half of it away is the only rounding -/
theorem rounded_unique_of_close {x y : ℝ} {m e : ℤ} (hm0 : 2 ^ 52 ≤ m) (hm1 : m < 2 ^ 53) (he0 : -1074 ≤ e)
    (he1 : e ≤ 971) (hx : (2 : ℝ) ^ (e + 52) ≤ x) (hc : |x - m * (2 : ℝ) ^ e| < (2 : ℝ) ^ e / 2)
    (h : Rounded x y) : y = m * (2 : ℝ) ^ e := by
  have hr := rounded_of_close hm0 hm1 he0 he1 hx hc.le
  have h1 : |x - y| ≤ |x - m * (2 : ℝ) ^ e| := h.2 _ hr.1
  have h2 : (2 : ℝ) ^ (e + 52) ≤ y := by
    apply h.ge ⟨2 ^ 52, e, by norm_num, he0, he1, ?_⟩ hx
    rw [add_comm, zpow2_split]; push_cast; norm_num
  obtain ⟨w, rfl⟩ := isDouble_multiple h.1 h2
  have hupos : (0 : ℝ) < 2 ^ e := zpow2_pos _
  generalize (2 : ℝ) ^ e = u at *
  have h3 : |(w : ℝ) * u - m * u| < u := by
    have := abs_sub_le ((w : ℝ) * u) x (m * u)
    rw [abs_sub_comm ((w : ℝ) * u) x] at this
    linarith
  rw [← sub_mul, abs_mul, abs_of_pos hupos] at h3
  have h4 : |(w : ℝ) - m| < 1 := by
    by_contra hcon
    push Not at hcon
    nlinarith
  have h5 : |w - m| < 1 := by exact_mod_cast h4
  have : w = m := by
    have := Int.abs_lt_one_iff.1 h5
    omega
  rw [this]

end DG
