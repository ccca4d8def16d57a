import Mathlib.Analysis.Calculus.MeanValue
import Mathlib.Analysis.Calculus.Deriv.Pow
import Mathlib.Analysis.Calculus.Deriv.Mul
import Mathlib.Analysis.Calculus.Deriv.Add
import Mathlib.Analysis.Calculus.ContDiff.Basic
import Mathlib.Analysis.Calculus.IteratedDeriv.Defs
import Mathlib.Tactic.Module
/-!
Order of accuracy of the Runge-Kutta and the Euler step, one step: expansion along the exact solution.
The defects of the stages are expanded to third order; their contributions cancel in the weighted sum,
which leaves Simpson's rule along the exact solution.
-/
open Set Filter Asymptotics Topology
namespace DG
variable {E : Type*} [NormedAddCommGroup E] [NormedSpace ℝ E]

/-- `y (i+1)` is the derivative of `y i` on `[0, T]`, `i < n`. -/
def Chain (T : ℝ) (n : ℕ) (y : ℕ → ℝ → E) : Prop :=
  ∀ i < n, ∀ t ∈ Icc 0 T, HasDerivWithinAt (y i) (y (i + 1) t) (Icc 0 T) t

/-- Taylor's formula at `t` with a bound of the remainder. -/
theorem taylor_chain {T : ℝ} (n : ℕ) : ∀ {y : ℕ → ℝ → E}, Chain T n y → ∀ {M : ℝ},
    (∀ t ∈ Icc 0 T, ‖y n t‖ ≤ M) → ∀ {t : ℝ}, 0 ≤ t → ∀ s ∈ Icc t T,
    ‖y 0 s - ∑ i ∈ Finset.range n, ((s - t) ^ i / (i.factorial : ℝ)) • y i t‖ ≤
      M * ((s - t) ^ n / (n.factorial : ℝ)) := by
  induction n with
  | zero =>
    intro y _ M hM t ht s hs
    simpa using hM s ⟨ht.trans hs.1, hs.2⟩
  | succ n ih =>
    intro y hy M hM t ht s hs
    have hsub : Icc t T ⊆ Icc 0 T := Icc_subset_Icc_left ht
    have h1 := ih (y := fun i => y (i + 1)) (fun i hi => hy (i + 1) (by omega)) hM ht
    have hd : ∀ x ∈ Icc t T, HasDerivWithinAt
        (fun s => y 0 s - ∑ i ∈ Finset.range (n + 1), ((s - t) ^ i / (i.factorial : ℝ)) • y i t)
        (y 1 x - ∑ i ∈ Finset.range n, ((x - t) ^ i / (i.factorial : ℝ)) • y (i + 1) t)
        (Icc t T) x := by
      intro x hx
      refine ((hy 0 (by omega) x (hsub hx)).mono hsub).sub ?_
      have : ∀ i ∈ Finset.range (n + 1), HasDerivWithinAt
          (fun s : ℝ => ((s - t) ^ i / (i.factorial : ℝ)) • y i t)
          (((i : ℝ) * (x - t) ^ (i - 1) * 1 / (i.factorial : ℝ)) • y i t) (Icc t T) x := by
        intro i _
        have h := (((hasDerivAt_id x).sub_const t).pow i).div_const (i.factorial : ℝ)
        exact (h.smul_const (y i t)).hasDerivWithinAt
      have h2 := HasDerivWithinAt.fun_sum this
      rw [Finset.sum_range_succ'] at h2
      refine h2.congr_deriv ?_
      simp only [CharP.cast_eq_zero, zero_mul, zero_div, zero_smul, add_zero]
      refine Finset.sum_congr rfl fun i _ => ?_
      congr 1
      rw [Nat.add_sub_cancel, Nat.factorial_succ]
      push_cast
      have : (i.factorial : ℝ) ≠ 0 := by exact_mod_cast i.factorial_ne_zero
      have : (i : ℝ) + 1 ≠ 0 := by positivity
      field_simp
    have hB : ∀ x : ℝ, HasDerivAt (fun s : ℝ => M * ((s - t) ^ (n + 1) / ((n + 1).factorial : ℝ)))
        (M * ((x - t) ^ n / (n.factorial : ℝ))) x := by
      intro x
      have h := ((((hasDerivAt_id x).sub_const t).pow (n + 1)).div_const
        ((n + 1).factorial : ℝ)).const_mul M
      refine h.congr_deriv ?_
      simp only [id_eq]
      rw [Nat.add_sub_cancel, Nat.factorial_succ]
      push_cast
      have : (n.factorial : ℝ) ≠ 0 := by exact_mod_cast n.factorial_ne_zero
      have : (n : ℝ) + 1 ≠ 0 := by positivity
      field_simp
    refine image_norm_le_of_norm_deriv_right_le_deriv_boundary
      (fun x hx => (hd x hx).continuousWithinAt)
      (fun x hx => ((hd x ⟨hx.1, hx.2.le⟩).mono_of_mem_nhdsWithin
        (Icc_mem_nhdsGE_of_mem hx))) ?_ hB ?_ hs
    · rw [Finset.sum_range_succ']
      simp
    · intro x hx
      exact h1 x ⟨hx.1, hx.2.le⟩

/-- Start time and step size: `0 ≤ t`, `0 ≤ h`, `t + h ≤ T`. -/
def stepsIn (T : ℝ) : Set (ℝ × ℝ) := {p | 0 ≤ p.1 ∧ 0 ≤ p.2 ∧ p.1 + p.2 ≤ T}

/-- Step sizes going to zero, uniformly in the start time. -/
def smallSteps (T : ℝ) : Filter (ℝ × ℝ) := 𝓟 (stepsIn T) ⊓ comap Prod.snd (𝓝 0)

theorem smallSteps_mem (T : ℝ) : ∀ᶠ p in smallSteps T, p ∈ stepsIn T :=
  mem_inf_of_left (mem_principal_self _)

theorem smallSteps_tendsto (T : ℝ) : Tendsto Prod.snd (smallSteps T) (𝓝 0) :=
  tendsto_comap.mono_left inf_le_right

/-- lower powers of the step size are weaker bounds -/
theorem pow_isBigO (T : ℝ) {m n : ℕ} (h : m ≤ n) :
    (fun p : ℝ × ℝ => p.2 ^ n) =O[smallSteps T] fun p => p.2 ^ m := by
  obtain ⟨k, rfl⟩ := Nat.exists_eq_add_of_le h
  have h1 : (fun p : ℝ × ℝ => p.2 ^ k) =O[smallSteps T] fun _ => (1 : ℝ) :=
    ((smallSteps_tendsto T).pow k).isBigO_one ℝ
  simpa [pow_add] using (isBigO_refl (fun p : ℝ × ℝ => p.2 ^ m) (smallSteps T)).mul h1

theorem pow_smul_isBigO {T : ℝ} {m n k : ℕ} (c : ℝ) {g : ℝ × ℝ → E}
    (hg : g =O[smallSteps T] fun p => p.2 ^ m) (h : k ≤ n + m) :
    (fun p => (c * p.2 ^ n) • g p) =O[smallSteps T] fun p => p.2 ^ k := by
  have h1 : (fun p : ℝ × ℝ => c * p.2 ^ n) =O[smallSteps T] fun p => p.2 ^ n :=
    (isBigO_refl _ _).const_mul_left c
  have h2 := h1.smul hg
  refine IsBigO.trans ?_ (pow_isBigO T h)
  simpa [pow_add] using h2

/-- Taylor expansion of `y` at `t`, at the point `t + θ h`. -/
theorem taylor_isBigO {T θ : ℝ} (h0 : 0 ≤ θ) (h1 : θ ≤ 1) (n : ℕ) {y : ℕ → ℝ → E}
    (hy : Chain T n y) {M : ℝ} (hM : ∀ t ∈ Icc 0 T, ‖y n t‖ ≤ M) :
    (fun p : ℝ × ℝ => y 0 (p.1 + θ * p.2) -
      ∑ i ∈ Finset.range n, ((θ * p.2) ^ i / (i.factorial : ℝ)) • y i p.1) =O[smallSteps T]
      fun p => p.2 ^ n := by
  refine IsBigO.of_bound (M * (θ ^ n / (n.factorial : ℝ))) ?_
  filter_upwards [smallSteps_mem T] with p hp
  have h2 : θ * p.2 ≤ p.2 := mul_le_of_le_one_left hp.2.1 h1
  have h := taylor_chain n hy hM hp.1 (p.1 + θ * p.2)
    ⟨le_add_of_nonneg_right (mul_nonneg h0 hp.2.1), by linarith [hp.2.2]⟩
  rw [add_sub_cancel_left] at h
  refine h.trans (le_of_eq ?_)
  rw [norm_pow, Real.norm_of_nonneg hp.2.1]
  ring

/-- The classical Runge-Kutta step, from time `t` with step size `h`. -/
noncomputable def rk4V (F : ℝ → E → E) (t h : ℝ) (u : E) : E :=
  let k1 := F t u
  let k2 := F (t + h / 2) (u + (h / 2) • k1)
  let k3 := F (t + h / 2) (u + (h / 2) • k2)
  let k4 := F (t + h) (u + h • k3)
  u + (h / 6) • (k1 + (2 : ℝ) • k2 + (2 : ℝ) • k3 + k4)

/-- The forward Euler step. -/
noncomputable def eulerV (F : ℝ → E → E) (t h : ℝ) (u : E) : E := u + h • F t u

/-- A stage: the right-hand side at a point `Y` close to the exact solution at `t + θ h`. -/
theorem stage_isBigO {T θ r B : ℝ} (h0 : 0 ≤ θ) (h1 : θ ≤ 1) (hr : 0 < r) {F : ℝ → E → E}
    {y : ℕ → ℝ → E} (hF : ∀ t ∈ Icc 0 T, F t (y 0 t) = y 1 t) {J : ℕ → ℝ → E →L[ℝ] E}
    (hJ : ∀ t ∈ Icc 0 T, ∀ u, ‖u - y 0 t‖ ≤ r →
      ‖F t u - F t (y 0 t) - J 0 t (u - y 0 t)‖ ≤ B * ‖u - y 0 t‖ ^ 2)
    {Y : ℝ × ℝ → E} (hY : (fun p => Y p - y 0 (p.1 + θ * p.2)) =O[smallSteps T] fun p => p.2 ^ 2) :
    (fun p => F (p.1 + θ * p.2) (Y p) - y 1 (p.1 + θ * p.2) -
      J 0 (p.1 + θ * p.2) (Y p - y 0 (p.1 + θ * p.2))) =O[smallSteps T] fun p => p.2 ^ 4 := by
  have h2 : (fun p => F (p.1 + θ * p.2) (Y p) - y 1 (p.1 + θ * p.2) -
      J 0 (p.1 + θ * p.2) (Y p - y 0 (p.1 + θ * p.2))) =O[smallSteps T]
      fun p => (‖Y p - y 0 (p.1 + θ * p.2)‖) ^ 2 := by
    have hz : Tendsto (fun p => Y p - y 0 (p.1 + θ * p.2)) (smallSteps T) (𝓝 0) :=
      hY.trans_tendsto (by simpa using (smallSteps_tendsto T).pow 2)
    refine IsBigO.of_bound B ?_
    filter_upwards [smallSteps_mem T, hz.norm.eventually (Iic_mem_nhds (by simpa using hr))]
      with p hp hp2
    have h3 : θ * p.2 ≤ p.2 := mul_le_of_le_one_left hp.2.1 h1
    have h4 : p.1 + θ * p.2 ∈ Icc 0 T :=
      ⟨add_nonneg hp.1 (mul_nonneg h0 hp.2.1), by linarith [hp.2.2]⟩
    rw [← hF _ h4]
    simpa using hJ _ h4 (Y p) hp2
  refine h2.trans ?_
  have h5 := (hY.norm_left).pow 2
  simpa [← pow_mul] using h5

theorem bounded_isBigO {T M : ℝ} {V : Type*} [NormedAddCommGroup V] {g : ℝ → V}
    (hM : ∀ t ∈ Icc 0 T, ‖g t‖ ≤ M) :
    (fun p : ℝ × ℝ => g p.1) =O[smallSteps T] fun p => p.2 ^ 0 := by
  refine IsBigO.of_bound M ?_
  filter_upwards [smallSteps_mem T] with p hp
  simpa using hM p.1 ⟨hp.1, by linarith [hp.2.1, hp.2.2]⟩

theorem clm_isBigO {T : ℝ} {m n k : ℕ} {L : ℝ × ℝ → E →L[ℝ] E} {v : ℝ × ℝ → E}
    (hL : L =O[smallSteps T] fun p => p.2 ^ m) (hv : v =O[smallSteps T] fun p => p.2 ^ n)
    (h : k ≤ m + n) : (fun p => L p (v p)) =O[smallSteps T] fun p => p.2 ^ k := by
  have h1 : (fun p => L p (v p)) =O[smallSteps T] fun p => ‖L p‖ * ‖v p‖ :=
    IsBigO.of_bound 1 (Eventually.of_forall fun p => by
      rw [one_mul, Real.norm_of_nonneg (by positivity)]
      exact (L p).le_opNorm (v p))
  refine h1.trans (((hL.norm_left).mul (hv.norm_left)).trans ?_)
  simpa [pow_add] using pow_isBigO T h

/-- The derivative at the exact solution, applied to a defect with a known expansion. -/
theorem jacobian_isBigO {T θ M : ℝ} (h0 : 0 ≤ θ) (h1 : θ ≤ 1) {J : ℕ → ℝ → E →L[ℝ] E}
    (hJ : Chain T 2 J) (hJM : ∀ i ≤ 2, ∀ t ∈ Icc 0 T, ‖J i t‖ ≤ M) {a b : ℝ → E} {Ma Mb : ℝ}
    (ha : ∀ t ∈ Icc 0 T, ‖a t‖ ≤ Ma) (hb : ∀ t ∈ Icc 0 T, ‖b t‖ ≤ Mb) {δ : ℝ × ℝ → E}
    (hδ : (fun p => δ p - p.2 ^ 2 • a p.1 - p.2 ^ 3 • b p.1) =O[smallSteps T] fun p => p.2 ^ 4) :
    (fun p => J 0 (p.1 + θ * p.2) (δ p) - p.2 ^ 2 • J 0 p.1 (a p.1) -
      p.2 ^ 3 • (J 0 p.1 (b p.1) + θ • J 1 p.1 (a p.1))) =O[smallSteps T] fun p => p.2 ^ 4 := by
  have t2 := taylor_isBigO h0 h1 2 hJ (hJM 2 le_rfl)
  have t1 := taylor_isBigO h0 h1 1 (fun i hi => hJ i (by omega)) (hJM 1 (by omega))
  have t0 := taylor_isBigO h0 h1 0 (fun i hi => hJ i (by omega)) (hJM 0 (by omega))
  have e1 := clm_isBigO (k := 4) t0 hδ (by norm_num)
  have e2 := pow_smul_isBigO (k := 4) (n := 2) 1
    (clm_isBigO (k := 2) t2 (bounded_isBigO ha) (by norm_num)) (by norm_num)
  have e3 := pow_smul_isBigO (k := 4) (n := 3) 1
    (clm_isBigO (k := 1) t1 (bounded_isBigO hb) (by norm_num)) (by norm_num)
  refine ((e1.add e2).add e3).congr_left fun p => ?_
  simp only [Finset.sum_range_succ, Finset.sum_range_zero, map_sub, map_smul,
    sub_apply, add_apply, smul_apply,
    Nat.factorial, pow_zero, pow_one]
  norm_num
  module

theorem cut3_isBigO {T Mb : ℝ} {a b : ℝ → E} (hb : ∀ t ∈ Icc 0 T, ‖b t‖ ≤ Mb) {δ : ℝ × ℝ → E}
    (hδ : (fun p => δ p - p.2 ^ 2 • a p.1 - p.2 ^ 3 • b p.1) =O[smallSteps T] fun p => p.2 ^ 4) :
    (fun p => δ p - p.2 ^ 2 • a p.1) =O[smallSteps T] fun p => p.2 ^ 3 := by
  refine ((hδ.trans (pow_isBigO T (m := 3) (by omega))).add
    (pow_smul_isBigO (k := 3) (n := 3) 1 (bounded_isBigO hb) (by omega))).congr_left fun p => ?_
  module

theorem cut2_isBigO {T Ma Mb : ℝ} {a b : ℝ → E} (ha : ∀ t ∈ Icc 0 T, ‖a t‖ ≤ Ma)
    (hb : ∀ t ∈ Icc 0 T, ‖b t‖ ≤ Mb) {δ : ℝ × ℝ → E}
    (hδ : (fun p => δ p - p.2 ^ 2 • a p.1 - p.2 ^ 3 • b p.1) =O[smallSteps T] fun p => p.2 ^ 4) :
    δ =O[smallSteps T] fun p => p.2 ^ 2 := by
  refine (((cut3_isBigO hb hδ).trans (pow_isBigO T (m := 2) (by omega))).add
    (pow_smul_isBigO (k := 2) (n := 2) 1 (bounded_isBigO ha) (by omega))).congr_left fun p => ?_
  module

/-- The Runge-Kutta step from a point of an exact solution stays within `O(h^5)` of it. -/
theorem rk4_local {T r B M : ℝ} (hr : 0 < r) {F : ℝ → E → E} {y : ℕ → ℝ → E}
    (hy : Chain T 5 y) (hyM : ∀ i ≤ 5, ∀ t ∈ Icc 0 T, ‖y i t‖ ≤ M)
    (hF : ∀ t ∈ Icc 0 T, F t (y 0 t) = y 1 t) {J : ℕ → ℝ → E →L[ℝ] E}
    (hJ : Chain T 2 J) (hJM : ∀ i ≤ 2, ∀ t ∈ Icc 0 T, ‖J i t‖ ≤ M)
    (hT : ∀ t ∈ Icc 0 T, ∀ u, ‖u - y 0 t‖ ≤ r →
      ‖F t u - F t (y 0 t) - J 0 t (u - y 0 t)‖ ≤ B * ‖u - y 0 t‖ ^ 2) :
    (fun p : ℝ × ℝ => y 0 (p.1 + p.2) - rk4V F p.1 p.2 (y 0 p.1)) =O[smallSteps T]
      fun p => p.2 ^ 5 := by
  have half0 : (0 : ℝ) ≤ 1 / 2 := by norm_num
  have half1 : (1 / 2 : ℝ) ≤ 1 := by norm_num
  have ch : ∀ n ≤ 5, Chain T n y := fun n hn i hi => hy i (by omega)
  have ch1 : ∀ n ≤ 4, Chain T n (fun i => y (i + 1)) := fun n hn i hi => hy (i + 1) (by omega)
  -- expansions of the exact solution
  have ya := taylor_isBigO half0 half1 4 (ch 4 (by omega)) (hyM 4 (by omega))
  have yb := taylor_isBigO zero_le_one le_rfl 4 (ch 4 (by omega)) (hyM 4 (by omega))
  have yc := taylor_isBigO zero_le_one le_rfl 5 (ch 5 (by omega)) (hyM 5 (by omega))
  have za := taylor_isBigO half0 half1 3 (ch1 3 (by omega)) (hyM 4 (by omega))
  have zb := taylor_isBigO half0 half1 4 (ch1 4 (by omega)) (hyM 5 (by omega))
  have zc := taylor_isBigO zero_le_one le_rfl 4 (ch1 4 (by omega)) (hyM 5 (by omega))
  simp only [Finset.sum_range_succ, Finset.sum_range_zero, Nat.factorial, one_mul] at ya yb yc za zb zc
  have lin : ∀ (L : E →L[ℝ] E) (v : E), ‖L‖ ≤ M → ‖v‖ ≤ M → ‖L v‖ ≤ M * M := fun L v hL hv =>
    (L.le_opNorm v).trans (mul_le_mul hL hv (norm_nonneg _) ((norm_nonneg _).trans hL))
  have sc : ∀ (c : ℝ) (v : E) (N : ℝ), ‖v‖ ≤ N → ‖c • v‖ ≤ |c| * N := fun c v N h => by
    rw [norm_smul]; exact mul_le_mul_of_nonneg_left h (norm_nonneg c)
  -- second stage
  let Y2 : ℝ × ℝ → E := fun p => y 0 p.1 + (p.2 / 2) • y 1 p.1
  have d2 : (fun p => (Y2 p - y 0 (p.1 + 1 / 2 * p.2)) - p.2 ^ 2 • ((-(1 / 8) : ℝ) • y 2 p.1) -
      p.2 ^ 3 • ((-(1 / 48) : ℝ) • y 3 p.1)) =O[smallSteps T] fun p => p.2 ^ 4 := by
    refine ya.neg_left.congr_left fun p => ?_
    simp only [Y2]; norm_num; module
  have b2a : ∀ t ∈ Icc 0 T, ‖(-(1 / 8) : ℝ) • y 2 t‖ ≤ |(-(1 / 8) : ℝ)| * M := fun t ht =>
    sc _ _ _ (hyM 2 (by omega) t ht)
  have b2b : ∀ t ∈ Icc 0 T, ‖(-(1 / 48) : ℝ) • y 3 t‖ ≤ |(-(1 / 48) : ℝ)| * M := fun t ht =>
    sc _ _ _ (hyM 3 (by omega) t ht)
  have e2 := stage_isBigO half0 half1 hr hF hT (cut2_isBigO b2a b2b d2)
  have j2 := jacobian_isBigO half0 half1 hJ hJM b2a b2b d2
  let K2 : ℝ × ℝ → E := fun p => F (p.1 + 1 / 2 * p.2) (Y2 p)
  -- third stage
  let Y3 : ℝ × ℝ → E := fun p => y 0 p.1 + (p.2 / 2) • K2 p
  let A3 : ℝ → E := fun t => (1 / 8 : ℝ) • y 2 t
  let B3 : ℝ → E := fun t => (1 / 24 : ℝ) • y 3 t + (-(1 / 16) : ℝ) • J 0 t (y 2 t)
  have b3a : ∀ t ∈ Icc 0 T, ‖A3 t‖ ≤ |(1 / 8 : ℝ)| * M := fun t ht =>
    sc _ _ _ (hyM 2 (by omega) t ht)
  have b3b : ∀ t ∈ Icc 0 T, ‖B3 t‖ ≤ |(1 / 24 : ℝ)| * M + |(-(1 / 16) : ℝ)| * (M * M) := fun t ht =>
    norm_add_le_of_le (sc _ _ _ (hyM 3 (by omega) t ht))
      (sc _ _ _ (lin _ _ (hJM 0 (by omega) t ht) (hyM 2 (by omega) t ht)))
  have bJ : ∀ t ∈ Icc 0 T, ‖J 0 t ((-(1 / 48) : ℝ) • y 3 t) + (1 / 2 : ℝ) • J 1 t ((-(1 / 8) : ℝ) • y 2 t)‖ ≤
      M * (|(-(1 / 48) : ℝ)| * M) + |(1 / 2 : ℝ)| * (M * (|(-(1 / 8) : ℝ)| * M)) := fun t ht =>
    norm_add_le_of_le (((J 0 t).le_opNorm _).trans (mul_le_mul (hJM 0 (by omega) t ht) (b2b t ht)
        (norm_nonneg _) ((norm_nonneg _).trans (hJM 0 (by omega) t ht))))
      (sc _ _ _ (((J 1 t).le_opNorm _).trans (mul_le_mul (hJM 1 (by omega) t ht) (b2a t ht)
        (norm_nonneg _) ((norm_nonneg _).trans (hJM 1 (by omega) t ht)))))
  have j2' := cut3_isBigO bJ (a := fun t => J 0 t ((-(1 / 8) : ℝ) • y 2 t)) j2
  have d3 : (fun p => (Y3 p - y 0 (p.1 + 1 / 2 * p.2)) - p.2 ^ 2 • A3 p.1 - p.2 ^ 3 • B3 p.1)
      =O[smallSteps T] fun p => p.2 ^ 4 := by
    have s1 := pow_smul_isBigO (k := 4) (n := 1) (1 / 2) e2 (by omega)
    have s2 := pow_smul_isBigO (k := 4) (n := 1) (1 / 2) za (by omega)
    have s3 := pow_smul_isBigO (k := 4) (n := 1) (1 / 2) j2' (by omega)
    refine (((s1.add s2).add s3).sub ya).congr_left fun p => ?_
    simp only [Y3, A3, B3, K2, map_smul]; norm_num; module
  have e3 := stage_isBigO half0 half1 hr hF hT (cut2_isBigO b3a b3b d3)
  have j3 := jacobian_isBigO half0 half1 hJ hJM b3a b3b d3
  let K3 : ℝ × ℝ → E := fun p => F (p.1 + 1 / 2 * p.2) (Y3 p)
  have bJ3 : ∀ t ∈ Icc 0 T, ‖J 0 t (B3 t) + (1 / 2 : ℝ) • J 1 t (A3 t)‖ ≤
      M * (|(1 / 24 : ℝ)| * M + |(-(1 / 16) : ℝ)| * (M * M)) + |(1 / 2 : ℝ)| * (M * (|(1 / 8 : ℝ)| * M)) :=
    fun t ht =>
    norm_add_le_of_le (((J 0 t).le_opNorm _).trans (mul_le_mul (hJM 0 (by omega) t ht) (b3b t ht)
        (norm_nonneg _) ((norm_nonneg _).trans (hJM 0 (by omega) t ht))))
      (sc _ _ _ (((J 1 t).le_opNorm _).trans (mul_le_mul (hJM 1 (by omega) t ht) (b3a t ht)
        (norm_nonneg _) ((norm_nonneg _).trans (hJM 1 (by omega) t ht)))))
  have j3' := cut3_isBigO bJ3 (a := fun t => J 0 t (A3 t)) j3
  -- fourth stage
  let Y4 : ℝ × ℝ → E := fun p => y 0 p.1 + p.2 • K3 p
  let B4 : ℝ → E := fun t => (1 / 8 : ℝ) • J 0 t (y 2 t) + (-(1 / 24) : ℝ) • y 3 t
  have b4a : ∀ t ∈ Icc 0 T, ‖(0 : E)‖ ≤ (0 : ℝ) := fun t _ => by simp
  have b4b : ∀ t ∈ Icc 0 T, ‖B4 t‖ ≤ |(1 / 8 : ℝ)| * (M * M) + |(-(1 / 24) : ℝ)| * M := fun t ht =>
    norm_add_le_of_le (sc _ _ _ (lin _ _ (hJM 0 (by omega) t ht) (hyM 2 (by omega) t ht)))
      (sc _ _ _ (hyM 3 (by omega) t ht))
  have d4 : (fun p => (Y4 p - y 0 (p.1 + 1 * p.2)) - p.2 ^ 2 • (fun _ => (0 : E)) p.1 -
      p.2 ^ 3 • B4 p.1) =O[smallSteps T] fun p => p.2 ^ 4 := by
    have s1 := pow_smul_isBigO (k := 4) (n := 1) 1 e3 (by omega)
    have s2 := pow_smul_isBigO (k := 4) (n := 1) 1 za (by omega)
    have s3 := pow_smul_isBigO (k := 4) (n := 1) 1 j3' (by omega)
    refine (((s1.add s2).add s3).sub yb).congr_left fun p => ?_
    simp only [Y4, A3, B4, K3, map_smul, one_mul]; norm_num; module
  have e4 := stage_isBigO zero_le_one le_rfl hr hF hT (cut2_isBigO b4a b4b d4)
  have j4 := jacobian_isBigO zero_le_one le_rfl hJ hJM b4a b4b d4
  -- the sum: Simpson's rule along the exact solution
  have s1 := pow_smul_isBigO (k := 5) (n := 1) (1 / 3) e2 (by omega)
  have s2 := pow_smul_isBigO (k := 5) (n := 1) (1 / 3) e3 (by omega)
  have s3 := pow_smul_isBigO (k := 5) (n := 1) (1 / 6) e4 (by omega)
  have s4 := pow_smul_isBigO (k := 5) (n := 1) (1 / 3) j2 (by omega)
  have s5 := pow_smul_isBigO (k := 5) (n := 1) (1 / 3) j3 (by omega)
  have s6 := pow_smul_isBigO (k := 5) (n := 1) (1 / 6) j4 (by omega)
  have s7 := pow_smul_isBigO (k := 5) (n := 1) (2 / 3) zb (by omega)
  have s8 := pow_smul_isBigO (k := 5) (n := 1) (1 / 6) zc (by omega)
  refine (yc.sub (((((((s1.add s2).add s3).add s4).add s5).add s6).add s7).add s8)).congr' ?_ EventuallyEq.rfl
  filter_upwards [smallSteps_mem T] with p hp
  have q1 : F p.1 (y 0 p.1) = y 1 p.1 := hF p.1 ⟨hp.1, by linarith [hp.2.1, hp.2.2]⟩
  have q2 : rk4V F p.1 p.2 (y 0 p.1) = y 0 p.1 + (p.2 / 6) • (y 1 p.1 + (2 : ℝ) • K2 p +
      (2 : ℝ) • K3 p + F (p.1 + 1 * p.2) (Y4 p)) := by
    have e1 : p.1 + p.2 / 2 = p.1 + 1 / 2 * p.2 := by ring
    simp only [rk4V, q1, e1, K2, K3, Y2, Y3, Y4, one_mul]
  rw [q2]
  simp only [K2, K3, A3, B3, B4, map_smul, map_add, map_zero, smul_zero, zero_add, add_zero, sub_zero, one_mul,
    pow_zero, pow_one, mul_one]
  norm_num
  module

/-- The Euler step from a point of an exact solution stays within `O(h^2)` of it. -/
theorem euler_local {T M : ℝ} {F : ℝ → E → E} {y : ℕ → ℝ → E}
    (hy : Chain T 2 y) (hyM : ∀ i ≤ 2, ∀ t ∈ Icc 0 T, ‖y i t‖ ≤ M)
    (hF : ∀ t ∈ Icc 0 T, F t (y 0 t) = y 1 t) :
    (fun p : ℝ × ℝ => y 0 (p.1 + p.2) - eulerV F p.1 p.2 (y 0 p.1)) =O[smallSteps T]
      fun p => p.2 ^ 2 := by
  have h := taylor_isBigO zero_le_one le_rfl 2 hy (hyM 2 le_rfl)
  refine h.congr' ?_ EventuallyEq.rfl
  filter_upwards [smallSteps_mem T] with p hp
  have q1 : F p.1 (y 0 p.1) = y 1 p.1 := hF p.1 ⟨hp.1, by linarith [hp.2.1, hp.2.2]⟩
  simp only [eulerV, q1, Finset.sum_range_succ, Finset.sum_range_zero, Nat.factorial, one_mul]
  norm_num

end DG
