import Verif.Lemmas.Double

/-!
C72: how many steps a run takes, and what its clock reads, with the rounding errors of double precision.
`IsDouble` and `Rounded` (the numbers, and "a nearest one") are the specification of the arithmetic.
-/
namespace DG

/-- the count is the integer part of the rounded quotient -/
theorem numIterations_floor {q : ℝ} {n : ℕ} (hq : 0 ≤ q) (h : numIterations q = some n) : (n : ℤ) = ⌊q⌋ := by
  unfold numIterations at h
  rw [if_pos hq] at h
  have h0 := Int.floor_nonneg.2 hq
  dsimp only at h
  split_ifs at h with hc
  · injection h with h
    omega

theorem numIterations_some {q : ℝ} (hq : 0 ≤ q) (h : q < 2 ^ 31) : numIterations q = some ⌊q⌋.toNat := by
  have h0 := Int.floor_nonneg.2 hq
  have hlt : ⌊q⌋ < 2 ^ 31 := by
    rw [Int.floor_lt]; push_cast; norm_num at h ⊢; exact h
  unfold numIterations
  rw [if_pos hq, if_pos ⟨by omega, hlt⟩]
  congr 2
  omega

/-- C72: with the two numbers the program has in memory (`tfinal` and `dt`), however the quotient is rounded: there
is a number of steps; it is never smaller than the number of whole steps that fit; it is larger by at most one; and
the last step ends at most a rounding error behind the final time. -/
theorem C72_steps_of_doubles (tfinal dt : ℝ) (hdt : 0 < dt) (ht : 0 ≤ tfinal) (hfit : tfinal / dt < 2 ^ 31 - 1) :
    (∃ n, FloatSteps tfinal dt n) ∧
    ∀ n, FloatSteps tfinal dt n →
      ⌊tfinal / dt⌋ ≤ n ∧ (n : ℤ) ≤ ⌊tfinal / dt⌋ + 1 ∧ (n : ℝ) * dt ≤ tfinal * (1 + 1 / 2 ^ 53) := by
  have hx0 : 0 ≤ tfinal / dt := div_nonneg ht hdt.le
  have hd0 : IsDouble 0 := by simpa using isDouble_natCast (k := 0) (by norm_num)
  constructor
  · obtain ⟨q, hq⟩ := exists_rounded (tfinal / dt)
    have hq0 : 0 ≤ q := hq.ge hd0 hx0
    have hq1 : q ≤ ((2 ^ 31 - 1 : ℕ) : ℝ) := hq.le (isDouble_natCast (by norm_num)) (by push_cast; linarith)
    exact ⟨_, q, hq, numIterations_some hq0 (by push_cast at hq1; linarith)⟩
  · rintro n ⟨q, hq, hn⟩
    have hq0 : 0 ≤ q := hq.ge hd0 hx0
    have hfl := numIterations_floor hq0 hn
    have hb := floor_rounded hq hx0 (by linarith)
    refine ⟨by omega, by omega, ?_⟩
    rcases Nat.eq_zero_or_pos n with h0 | hpos
    · subst h0
      simp only [Nat.cast_zero, zero_mul]
      positivity
    · have hqn : (n : ℝ) ≤ q := by
        have : ((n : ℤ) : ℝ) ≤ q := by rw [hfl]; exact Int.floor_le q
        exact_mod_cast this
      have hn1 : (1 : ℝ) ≤ n := by exact_mod_cast hpos
      have hlo : (2 : ℝ) ^ (-1022 : ℤ) ≤ tfinal / dt := by
        by_contra hcon
        push Not at hcon
        have h1 : q ≤ (2 : ℝ) ^ (-1022 : ℤ) :=
          hq.le ⟨1, -1022, by norm_num, by norm_num, by norm_num, by simp⟩ hcon.le
        have h2 : (2 : ℝ) ^ (-1022 : ℤ) ≤ 2 ^ (-1 : ℤ) := zpow_le_zpow_right₀ (by norm_num) (by norm_num)
        rw [zpow_neg_one] at h2
        linarith
      have hhi : tfinal / dt < (2 : ℝ) ^ (1023 : ℤ) := by
        have h2 : (2 : ℝ) ^ (31 : ℤ) ≤ 2 ^ (1023 : ℤ) := zpow_le_zpow_right₀ (by norm_num) (by norm_num)
        refine lt_of_lt_of_le (lt_of_lt_of_le hfit ?_) h2
        norm_num
      have hrel := (abs_le.1 (hq.rel hlo hhi)).1
      have : (n : ℝ) ≤ tfinal / dt * (1 + 1 / 2 ^ 53) := by
        have : tfinal / dt * (1 + 1 / 2 ^ 53) = tfinal / dt + tfinal / dt / 2 ^ 53 := by ring
        rw [this]; linarith
      calc (n : ℝ) * dt ≤ tfinal / dt * (1 + 1 / 2 ^ 53) * dt := mul_le_mul_of_nonneg_right this hdt.le
        _ = tfinal * (1 + 1 / 2 ^ 53) := by field_simp

/-- C72: when the step size and the final time, a whole number `k` of steps, are exactly representable, the run takes
exactly `k` steps. -/
theorem C72_exact_when_representable (k : ℕ) (D : ℝ) (hD : 0 < D) (hk : k < 2 ^ 31) (hb : IsDouble D)
    (ha : IsDouble (k * D)) (a b : ℝ) (hra : Rounded (k * D) a) (hrb : Rounded D b) (n : ℕ) (h : FloatSteps a b n) :
    n = k := by
  rw [hra.exact ha, hrb.exact hb] at h
  obtain ⟨q, hq, hn⟩ := h
  rw [mul_div_assoc, div_self hD.ne', mul_one] at hq
  rw [hq.exact (isDouble_natCast (by omega))] at hn
  have := numIterations_floor (Nat.cast_nonneg k) hn
  rw [Int.floor_natCast] at this
  exact_mod_cast this

/-- C72: a decimal step size `D` and a decimal final time of exactly `k` steps, both rounded when they are read: the
run takes `k` steps or one fewer, never more. -/
theorem C72_decimal_input (k : ℕ) (D : ℝ) (hk0 : 0 < k) (hk : k < 2 ^ 31) (hD0 : (2 : ℝ) ^ (-1022 : ℤ) ≤ D)
    (hD1 : k * D < (2 : ℝ) ^ (1023 : ℤ)) (a b : ℝ) (hra : Rounded (k * D) a) (hrb : Rounded D b) (n : ℕ)
    (h : FloatSteps a b n) : n = k ∨ n + 1 = k := by
  have hD : 0 < D := lt_of_lt_of_le (zpow2_pos _) hD0
  have hk1 : (1 : ℝ) ≤ k := by exact_mod_cast hk0
  have hk2 : (k : ℝ) < 2 ^ 31 := by exact_mod_cast hk
  have hT : D ≤ k * D := by nlinarith
  have ea := abs_le.1 (hra.rel (hD0.trans hT) hD1)
  have eb := abs_le.1 (hrb.rel hD0 (by linarith))
  have hb0 : 0 < b := by
    have : D / 2 ^ 53 < D := by
      rw [div_lt_iff₀ (by positivity)]; nlinarith
    linarith
  obtain ⟨q, hq, hn⟩ := h
  have hup : a / b ≤ k + 1 / 2 := by
    rw [div_le_iff₀ hb0]
    have h1 : a ≤ k * D * (1 + 1 / 2 ^ 53) := by
      have : k * D * (1 + 1 / 2 ^ 53) = k * D + k * D / 2 ^ 53 := by ring
      rw [this]; linarith
    have h2 : D * (1 - 1 / 2 ^ 53) ≤ b := by
      have : D * (1 - 1 / 2 ^ 53) = D - D / 2 ^ 53 := by ring
      rw [this]; linarith
    have h3 : (k : ℝ) * D * (1 + 1 / 2 ^ 53) ≤ (k + 1 / 2) * (D * (1 - 1 / 2 ^ 53)) := by
      have : (k + 1 / 2) * (D * (1 - 1 / 2 ^ 53)) - k * D * (1 + 1 / 2 ^ 53)
          = D * (1 / 2 - 1 / 2 ^ 54 - 2 * k / 2 ^ 53) := by ring
      have h4 : (0 : ℝ) ≤ 1 / 2 - 1 / 2 ^ 54 - 2 * k / 2 ^ 53 := by
        have : 2 * (k : ℝ) / 2 ^ 53 ≤ 2 * 2 ^ 31 / 2 ^ 53 := by gcongr
        norm_num at this ⊢
        linarith
      nlinarith
    have h5 : (k + 1 / 2) * (D * (1 - 1 / 2 ^ 53)) ≤ ((k : ℝ) + 1 / 2) * b := by gcongr
    linarith
  have hlo : (k : ℝ) - 1 / 2 ≤ a / b := by
    rw [le_div_iff₀ hb0]
    have h1 : k * D * (1 - 1 / 2 ^ 53) ≤ a := by
      have : k * D * (1 - 1 / 2 ^ 53) = k * D - k * D / 2 ^ 53 := by ring
      rw [this]; linarith
    have h2 : b ≤ D * (1 + 1 / 2 ^ 53) := by
      have : D * (1 + 1 / 2 ^ 53) = D + D / 2 ^ 53 := by ring
      rw [this]; linarith
    have h3 : (k - 1 / 2) * (D * (1 + 1 / 2 ^ 53)) ≤ (k : ℝ) * D * (1 - 1 / 2 ^ 53) := by
      have : k * D * (1 - 1 / 2 ^ 53) - (k - 1 / 2) * (D * (1 + 1 / 2 ^ 53))
          = D * (1 / 2 + 1 / 2 ^ 54 - 2 * k / 2 ^ 53) := by ring
      have h4 : (0 : ℝ) ≤ 1 / 2 + 1 / 2 ^ 54 - 2 * k / 2 ^ 53 := by
        have : 2 * (k : ℝ) / 2 ^ 53 ≤ 2 * 2 ^ 31 / 2 ^ 53 := by gcongr
        norm_num at this ⊢
        linarith
      nlinarith
    have h5 : ((k : ℝ) - 1 / 2) * b ≤ (k - 1 / 2) * (D * (1 + 1 / 2 ^ 53)) := by
      apply mul_le_mul_of_nonneg_left h2; linarith
    linarith
  have hq1 : q ≤ k + 1 / 2 := hq.le (isDouble_half (by omega)) hup
  have hq2 : (k : ℝ) - 1 / 2 ≤ q := by
    have e : (k : ℝ) - 1 / 2 = ((k - 1 : ℕ) : ℝ) + 1 / 2 := by
      rw [Nat.cast_sub hk0]; push_cast; ring
    rw [e]
    apply hq.ge (isDouble_half (by omega))
    rw [← e]; exact hlo
  have hfl := numIterations_floor (by linarith) hn
  have h1 : (n : ℤ) < k + 1 := by
    rw [hfl, Int.floor_lt]; push_cast; linarith
  have h2 : (k : ℤ) - 1 ≤ n := by
    rw [hfl, Int.le_floor]; push_cast; linarith
  omega

/-- C72, a defect: `tfinal = 0.3` with `dt = 0.1` always takes two steps, not three. -/
theorem C72_three_tenths_takes_two_steps (a b : ℝ) (ha : Rounded (3 / 10) a) (hb : Rounded (1 / 10) b) :
    FloatSteps a b 2 ∧ ∀ n, FloatSteps a b n → n = 2 := by
  have hp : ∀ k : ℕ, (2 : ℝ) ^ (-(k : ℤ)) = 1 / 2 ^ k := fun k => by rw [zpow_neg, zpow_natCast, one_div]
  have p54 : (2 : ℝ) ^ (-54 : ℤ) = 1 / 2 ^ 54 := hp 54
  have p56 : (2 : ℝ) ^ (-56 : ℤ) = 1 / 2 ^ 56 := hp 56
  have p51 : (2 : ℝ) ^ (-51 : ℤ) = 1 / 2 ^ 51 := hp 51
  have p2 : (2 : ℝ) ^ (-54 + 52 : ℤ) = 1 / 2 ^ 2 := hp 2
  have p4 : (2 : ℝ) ^ (-56 + 52 : ℤ) = 1 / 2 ^ 4 := hp 4
  have p1 : (2 : ℝ) ^ (-51 + 52 : ℤ) = 2 := by norm_num
  have hav : a = (5404319552844595 : ℤ) * (2 : ℝ) ^ (-54 : ℤ) := by
    refine rounded_unique_of_close (by norm_num) (by norm_num) (by norm_num) (by norm_num) ?_ ?_ ha
    · rw [p2]; norm_num
    · rw [p54, abs_lt]; constructor <;> norm_num
  have hbv : b = (7205759403792794 : ℤ) * (2 : ℝ) ^ (-56 : ℤ) := by
    refine rounded_unique_of_close (by norm_num) (by norm_num) (by norm_num) (by norm_num) ?_ ?_ hb
    · rw [p4]; norm_num
    · rw [p56, abs_lt]; constructor <;> norm_num
  have hclose : |a / b - (6755399441055743 : ℤ) * (2 : ℝ) ^ (-51 : ℤ)| < (2 : ℝ) ^ (-51 : ℤ) / 2 := by
    rw [hav, hbv, p54, p56, p51, abs_lt]; constructor <;> norm_num
  have hge : (2 : ℝ) ^ (-51 + 52 : ℤ) ≤ a / b := by
    rw [hav, hbv, p54, p56, p1]; norm_num
  have hn : numIterations ((6755399441055743 : ℤ) * (2 : ℝ) ^ (-51 : ℤ)) = some 2 := by
    rw [numIterations_some (by positivity) (by rw [p51]; norm_num), p51]
    have : ⌊((6755399441055743 : ℤ) : ℝ) * (1 / 2 ^ 51)⌋ = 2 := by
      rw [Int.floor_eq_iff]; constructor <;> norm_num
    rw [this]; rfl
  constructor
  · exact ⟨_, rounded_of_close (by norm_num) (by norm_num) (by norm_num) (by norm_num) hge hclose.le, hn⟩
  · rintro n ⟨q, hq, h⟩
    rw [rounded_unique_of_close (by norm_num) (by norm_num) (by norm_num) (by norm_num) hge hclose hq, hn] at h
    injection h with h
    exact h.symm

/-- bounds of a clock advanced by rounded additions -/
theorem floatClock_bounds {h : ℝ} (h0 : (2 : ℝ) ^ (-1022 : ℤ) ≤ h) {n : ℕ} {t : ℝ}
    (hc : FloatClock h n t) (hmax : n * h * (1 + 1 / 2 ^ 53) ^ n < (2 : ℝ) ^ (1023 : ℤ)) :
    n * h * (1 - 1 / 2 ^ 53) ^ n ≤ t ∧ t ≤ n * h * (1 + 1 / 2 ^ 53) ^ n := by
  have hh : 0 < h := lt_of_lt_of_le (zpow2_pos _) h0
  induction hc with
  | start => simp
  | @tick n t t' hc hr ih =>
    have hpow : (1 : ℝ) ≤ (1 + 1 / 2 ^ 53) ^ n := one_le_pow₀ (by norm_num)
    have hpow2 : (1 - 1 / 2 ^ 53 : ℝ) ^ n ≤ 1 := pow_le_one₀ (by norm_num) (by norm_num)
    have hpow3 : (0 : ℝ) < (1 - 1 / 2 ^ 53 : ℝ) ^ n := pow_pos (by norm_num) n
    have hstep : (n * h + h) * (1 + 1 / 2 ^ 53) ^ n ≤ ((n + 1 : ℕ) : ℝ) * h * (1 + 1 / 2 ^ 53) ^ (n + 1) := by
      push_cast
      rw [pow_succ (1 + 1 / 2 ^ 53 : ℝ) n]
      have : (0 : ℝ) ≤ (n * h + h) * (1 + 1 / 2 ^ 53) ^ n := by positivity
      nlinarith
    have hn : (n : ℝ) * h * (1 + 1 / 2 ^ 53) ^ n ≤ (n * h + h) * (1 + 1 / 2 ^ 53) ^ n := by
      apply mul_le_mul_of_nonneg_right _ (by positivity); linarith
    obtain ⟨ih1, ih2⟩ := ih (by linarith)
    have hs : t + h ≤ (n * h + h) * (1 + 1 / 2 ^ 53) ^ n := by nlinarith
    have ht0 : 0 ≤ t := le_trans (by positivity) ih1
    have hrel := abs_le.1 (hr.rel (by linarith) (by linarith))
    constructor
    · have h1 : (t + h) * (1 - 1 / 2 ^ 53) ≤ t' := by
        have : (t + h) * (1 - 1 / 2 ^ 53) = t + h - (t + h) / 2 ^ 53 := by ring
        rw [this]; linarith
      have h2 : (n * h + h) * (1 - 1 / 2 ^ 53) ^ n ≤ t + h := by nlinarith
      calc ((n + 1 : ℕ) : ℝ) * h * (1 - 1 / 2 ^ 53) ^ (n + 1)
          = ((n * h + h) * (1 - 1 / 2 ^ 53) ^ n) * (1 - 1 / 2 ^ 53) := by push_cast; ring
        _ ≤ (t + h) * (1 - 1 / 2 ^ 53) := mul_le_mul_of_nonneg_right h2 (by norm_num)
        _ ≤ t' := h1
    · have h1 : t' ≤ (t + h) * (1 + 1 / 2 ^ 53) := by
        have : (t + h) * (1 + 1 / 2 ^ 53) = t + h + (t + h) / 2 ^ 53 := by ring
        rw [this]; linarith
      calc t' ≤ (t + h) * (1 + 1 / 2 ^ 53) := h1
        _ ≤ ((n * h + h) * (1 + 1 / 2 ^ 53) ^ n) * (1 + 1 / 2 ^ 53) := mul_le_mul_of_nonneg_right hs (by norm_num)
        _ = ((n + 1 : ℕ) : ℝ) * h * (1 + 1 / 2 ^ 53) ^ (n + 1) := by push_cast; ring

/-- C72: the clock. After `n` steps of either method the time the program keeps (and reports) is within one part in a
million of `n * dt`, whatever way each of its additions is rounded; the two half steps of the Runge-Kutta method do
not make it drift. -/
theorem C72_clock (st : Stepper) (dt : ℝ) (n : ℕ) (hn : n < 2 ^ 31) (h0 : (2 : ℝ) ^ (-1021 : ℤ) ≤ dt)
    (h1 : n * dt < (2 : ℝ) ^ (1022 : ℤ)) (t : ℝ) (hc : FloatClock (clockStep st dt).2 ((clockStep st dt).1 * n) t) :
    |t - n * dt| ≤ n * dt / 2 ^ 20 := by
  obtain ⟨c, h, hch, hcs, hc2, hh⟩ : ∃ c h, clockStep st dt = (c, h) ∧ (c : ℝ) * h = dt ∧ c ≤ 2 ∧
      (2 : ℝ) ^ (-1022 : ℤ) ≤ h := by
    have e : (2 : ℝ) ^ (-1021 : ℤ) = 2 ^ (-1022 : ℤ) * 2 := by
      rw [show (-1021 : ℤ) = -1022 + 1 by norm_num, zpow2_split]; norm_num
    have hp := zpow2_pos (-1022)
    cases st
    · exact ⟨1, dt, rfl, by simp, by norm_num, by rw [e] at h0; linarith⟩
    · exact ⟨2, dt / 2, rfl, by push_cast; ring, le_rfl, by rw [e] at h0; linarith⟩
  rw [hch] at hc
  simp only at hc
  set N := c * n with hN
  have hNh : (N : ℝ) * h = n * dt := by rw [hN, ← hcs]; push_cast; ring
  have hdt : 0 ≤ (n : ℝ) * dt := mul_nonneg (Nat.cast_nonneg _) ((zpow2_pos _).le.trans h0)
  have hNlt : N < 2 ^ 32 := by
    have : c * n ≤ 2 * n := Nat.mul_le_mul_right _ hc2
    omega
  have hNu : (N : ℝ) * (1 / 2 ^ 53) ≤ 1 / 2 ^ 21 := by
    have : (N : ℝ) ≤ 2 ^ 32 := by exact_mod_cast hNlt.le
    calc (N : ℝ) * (1 / 2 ^ 53) ≤ 2 ^ 32 * (1 / 2 ^ 53) := by gcongr
      _ = 1 / 2 ^ 21 := by norm_num
  have hlow : 1 - 1 / 2 ^ 21 ≤ (1 - 1 / 2 ^ 53 : ℝ) ^ N := by
    have := one_add_mul_le_pow (a := (-(1 / 2 ^ 53) : ℝ)) (by norm_num) N
    have e : (1 + -(1 / 2 ^ 53) : ℝ) = 1 - 1 / 2 ^ 53 := by ring
    rw [e] at this
    have e2 : (1 : ℝ) + N * -(1 / 2 ^ 53) = 1 - N * (1 / 2 ^ 53) := by ring
    rw [e2] at this
    exact le_trans (by linarith) this
  have hup : (1 + 1 / 2 ^ 53 : ℝ) ^ N ≤ 1 + 1 / 2 ^ 20 := by
    have hprod : (1 + 1 / 2 ^ 53 : ℝ) ^ N * (1 - 1 / 2 ^ 53 : ℝ) ^ N ≤ 1 := by
      rw [← mul_pow]; exact pow_le_one₀ (by norm_num) (by norm_num)
    have hpos : (0 : ℝ) < (1 + 1 / 2 ^ 53 : ℝ) ^ N := by positivity
    by_contra hcon
    push Not at hcon
    have : (1 + 1 / 2 ^ 20) * (1 - 1 / 2 ^ 21 : ℝ) ≤ (1 + 1 / 2 ^ 53 : ℝ) ^ N * (1 - 1 / 2 ^ 53 : ℝ) ^ N := by
      apply mul_le_mul hcon.le hlow (by norm_num) hpos.le
    have : (1 : ℝ) < (1 + 1 / 2 ^ 20) * (1 - 1 / 2 ^ 21 : ℝ) := by norm_num
    linarith
  have e2 : (2 : ℝ) ^ (1023 : ℤ) = 2 ^ (1022 : ℤ) * 2 := by
    rw [show (1023 : ℤ) = 1022 + 1 by norm_num, zpow2_split]; norm_num
  have hb := floatClock_bounds hh hc (by
    rw [hNh, e2]
    have : (1 + 1 / 2 ^ 53 : ℝ) ^ N ≤ 2 := hup.trans (by norm_num)
    exact lt_of_le_of_lt (mul_le_mul_of_nonneg_left this hdt) (mul_lt_mul_of_pos_right h1 (by norm_num)))
  rw [hNh] at hb
  rw [abs_le]
  constructor
  · have : n * dt * (1 - 1 / 2 ^ 21) ≤ n * dt * (1 - 1 / 2 ^ 53 : ℝ) ^ N := by gcongr
    have e : n * dt * (1 - 1 / 2 ^ 21) = n * dt - n * dt / 2 ^ 21 := by ring
    have e' : n * dt / 2 ^ 21 ≤ n * dt / 2 ^ 20 := by gcongr <;> norm_num
    linarith
  · have : n * dt * (1 + 1 / 2 ^ 53 : ℝ) ^ N ≤ n * dt * (1 + 1 / 2 ^ 20) := by gcongr
    have e : n * dt * (1 + 1 / 2 ^ 20) = n * dt + n * dt / 2 ^ 20 := by ring
    linarith

/-! ### the hypotheses are met -/

/-- the two literals have roundings, so the defect occurs -/
example : ∃ a b, Rounded (3 / 10) a ∧ Rounded (1 / 10) b ∧ FloatSteps a b 2 := by
  obtain ⟨a, ha⟩ := exists_rounded (3 / 10)
  obtain ⟨b, hb⟩ := exists_rounded (1 / 10)
  exact ⟨a, b, ha, hb, (C72_three_tenths_takes_two_steps a b ha hb).1⟩

/-- a run to time 2 in steps of 1/4 takes eight steps -/
example : FloatSteps 2 (1 / 4) 8 := by
  obtain ⟨n, hn⟩ := (C72_steps_of_doubles 2 (1 / 4) (by norm_num) (by norm_num) (by norm_num)).1
  have hq : IsDouble (1 / 4) := ⟨1, -2, by norm_num, by norm_num, by norm_num, by norm_num⟩
  have ht : IsDouble ((8 : ℕ) * (1 / 4)) := ⟨2, 0, by norm_num, by norm_num, by norm_num, by norm_num⟩
  have := C72_exact_when_representable 8 (1 / 4) (by norm_num) (by norm_num) hq ht _ _
    ⟨ht, fun z _ => by simp⟩ ⟨hq, fun z _ => by simp⟩ n (by
      rw [show ((8 : ℕ) : ℝ) * (1 / 4) = 2 by norm_num]; exact hn)
  exact this ▸ hn

/-- a clock exists for every number of additions -/
theorem exists_floatClock (h : ℝ) : ∀ n, ∃ t, FloatClock h n t
  | 0 => ⟨0, .start⟩
  | n + 1 => by
    obtain ⟨t, ht⟩ := exists_floatClock h n
    obtain ⟨t', ht'⟩ := exists_rounded (t + h)
    exact ⟨t', .tick ht ht'⟩

end DG
