import Verif.Lemmas.TimeOrder
import Mathlib.Analysis.Complex.Exponential

/-!
Order of accuracy of a whole run: local error, stability in a tube around the exact solution, and the
discrete Groenwall argument.
-/
open Set Filter Asymptotics Topology
namespace DG
variable {E : Type*} [NormedAddCommGroup E] [NormedSpace ℝ E]

omit [NormedSpace ℝ E] in
/-- From the filter to constants. -/
theorem smallSteps_bound {T : ℝ} {g : ℝ × ℝ → E} {k : ℕ} (h : g =O[smallSteps T] fun p => p.2 ^ k) :
    ∃ C h1 : ℝ, 0 ≤ C ∧ 0 < h1 ∧ ∀ t h : ℝ, 0 ≤ t → 0 ≤ h → h ≤ h1 → t + h ≤ T →
      ‖g (t, h)‖ ≤ C * h ^ k := by
  obtain ⟨C, hC0, hC⟩ := h.exists_nonneg
  have h2 := hC.bound
  rw [smallSteps, inf_comm, eventually_inf_principal, eventually_comap,
    Metric.eventually_nhds_iff] at h2
  obtain ⟨ε, hε, h3⟩ := h2
  refine ⟨C, ε / 2, hC0, by positivity, fun t h ht hh hle hT => ?_⟩
  have h4 := h3 (y := h) (by rw [Real.dist_eq, sub_zero, abs_of_nonneg hh]; linarith) (t, h) rfl
    ⟨ht, hh, hT⟩
  rwa [norm_pow, Real.norm_of_nonneg hh] at h4

/-- `n` steps of the one-step method `Φ t h` of step size `h` from the time 0: time and state. -/
def march (Φ : ℝ → ℝ → E → E) (h : ℝ) (n : ℕ) (u : E) : ℝ × E :=
  (fun x : ℝ × E => (x.1 + h, Φ x.1 h x.2))^[n] (0, u)

omit [NormedAddCommGroup E] [NormedSpace ℝ E] in
theorem march_succ (Φ : ℝ → ℝ → E → E) (h : ℝ) (n : ℕ) (u : E) :
    march Φ h (n + 1) u = ((march Φ h n u).1 + h, Φ (march Φ h n u).1 h (march Φ h n u).2) := by
  simp only [march, Function.iterate_succ_apply']

omit [NormedSpace ℝ E] in
/-- Local error `O(h^(q+1))` and stability give the error `O(h^q)` of the whole run. -/
theorem march_converges {T r L C h1 : ℝ} {q : ℕ} (hq : 1 ≤ q) (hT : 0 ≤ T) (hr : 0 < r) (h1p : 0 < h1)
    (hL : 0 ≤ L) (hC : 0 ≤ C) {Φ : ℝ → ℝ → E → E} {y : ℝ → E}
    (stab : ∀ t h u, 0 ≤ t → 0 ≤ h → h ≤ h1 → t + h ≤ T → ‖u - y t‖ ≤ r →
      ‖Φ t h u - Φ t h (y t)‖ ≤ (1 + L * h) * ‖u - y t‖)
    (loc : ∀ t h, 0 ≤ t → 0 ≤ h → h ≤ h1 → t + h ≤ T → ‖y (t + h) - Φ t h (y t)‖ ≤ C * h ^ (q + 1)) :
    ∃ D h0 : ℝ, 0 < h0 ∧ ∀ (h : ℝ) (n : ℕ), 0 < h → h ≤ h0 → n * h ≤ T →
      (march Φ h n (y 0)).1 = n * h ∧ ‖(march Φ h n (y 0)).2 - y (n * h)‖ ≤ D * h ^ q := by
  set D := T * C * Real.exp (L * T) with hD
  have hD0 : 0 ≤ D := by positivity
  refine ⟨D, min h1 (min 1 (r / (D + 1))), by positivity, fun h n hh hle => ?_⟩
  have hle1 : h ≤ h1 := hle.trans (min_le_left _ _)
  have hle2 : h ≤ 1 := hle.trans ((min_le_right _ _).trans (min_le_left _ _))
  have hle3 : h ≤ r / (D + 1) := hle.trans ((min_le_right _ _).trans (min_le_right _ _))
  have small : D * h ^ q ≤ r := by
    have a1 : h ^ q ≤ h := by
      calc h ^ q ≤ h ^ 1 := pow_le_pow_of_le_one hh.le hle2 hq
        _ = h := pow_one h
    have a2 : h * (D + 1) ≤ r := (le_div_iff₀ (by positivity)).1 hle3
    nlinarith [mul_le_mul_of_nonneg_left a1 hD0]
  have up : ∀ n : ℕ, n * h ≤ T → n * h * C * h ^ q * Real.exp (L * (n * h)) ≤ D * h ^ q := by
    intro n hn
    have a1 : Real.exp (L * (n * h)) ≤ Real.exp (L * T) :=
      Real.exp_le_exp.2 (mul_le_mul_of_nonneg_left hn hL)
    have a2 : n * h * C * h ^ q ≤ T * C * h ^ q := by gcongr
    calc _ ≤ (T * C * h ^ q) * Real.exp (L * T) := by gcongr
      _ = _ := by rw [hD]; ring
  have key : ∀ n : ℕ, n * h ≤ T → (march Φ h n (y 0)).1 = n * h ∧
      ‖(march Φ h n (y 0)).2 - y (n * h)‖ ≤ n * h * C * h ^ q * Real.exp (L * (n * h)) := by
    intro n
    induction n with
    | zero => intro _; simp [march]
    | succ n ih =>
      intro hn
      push_cast at hn ⊢
      have hn' : n * h ≤ T := by linarith
      obtain ⟨i1, i2⟩ := ih hn'
      rw [march_succ]
      refine ⟨by simp only [i1]; ring, ?_⟩
      simp only [i1]
      have t0 : 0 ≤ (n : ℝ) * h := by positivity
      have tT : n * h + h ≤ T := by linarith
      have s1 := stab (n * h) h (march Φ h n (y 0)).2 t0 hh.le hle1 tT
        (i2.trans ((up n hn').trans small))
      have s2 := loc (n * h) h t0 hh.le hle1 tT
      have e1 : ((n : ℝ) + 1) * h = n * h + h := by ring
      rw [e1]
      have s3 : 1 + L * h ≤ Real.exp (L * h) := by linarith [Real.add_one_le_exp (L * h)]
      have s4 : 1 ≤ Real.exp (L * (n * h + h)) := Real.one_le_exp (by positivity)
      have e2 : Real.exp (L * (n * h + h)) = Real.exp (L * h) * Real.exp (L * (n * h)) := by
        rw [← Real.exp_add]; congr 1; ring
      calc ‖Φ (n * h) h (march Φ h n (y 0)).2 - y (n * h + h)‖
          = ‖(Φ (n * h) h (march Φ h n (y 0)).2 - Φ (n * h) h (y (n * h))) -
              (y (n * h + h) - Φ (n * h) h (y (n * h)))‖ := by congr 1; abel
        _ ≤ (1 + L * h) * ‖(march Φ h n (y 0)).2 - y (n * h)‖ + C * h ^ (q + 1) :=
            norm_sub_le_of_le s1 s2
        _ ≤ Real.exp (L * h) * (n * h * C * h ^ q * Real.exp (L * (n * h))) +
              C * h ^ (q + 1) * Real.exp (L * (n * h + h)) := by
            refine add_le_add (mul_le_mul s3 i2 (norm_nonneg _) (Real.exp_nonneg _)) ?_
            exact le_mul_of_one_le_right (by positivity) s4
        _ = _ := by rw [e2]; ring
  intro hn
  obtain ⟨k1, k2⟩ := key n hn
  exact ⟨k1, k2.trans (up n hn)⟩

/-- The tube of radius `R` around the solution: the right-hand side is bounded and Lipschitz there. -/
structure Tube (T R L M : ℝ) (F : ℝ → E → E) (y : ℝ → E) : Prop where
  bound : ∀ t ∈ Icc 0 T, ∀ u, ‖u - y t‖ ≤ R → ‖F t u‖ ≤ M
  lip : ∀ t ∈ Icc 0 T, ∀ u v, ‖u - y t‖ ≤ R → ‖v - y t‖ ≤ R → ‖F t u - F t v‖ ≤ L * ‖u - v‖
  slow : ∀ t ∈ Icc 0 T, ∀ s ∈ Icc 0 T, ‖y s - y t‖ ≤ M * |s - t|

theorem Tube.near {T R L M : ℝ} {F : ℝ → E → E} {y : ℝ → E} (ht : Tube T R L M F y)
    (hM : 0 ≤ M) {t h s c : ℝ} (h0 : 0 ≤ t) (hh : 0 ≤ h) (hT : t + h ≤ T) (hs : s ∈ Icc t (t + h))
    (hc0 : 0 ≤ c) (hc : c ≤ h) (hsm : 4 * h * M ≤ R) {u k : E} (hu : ‖u - y t‖ ≤ R / 2) (hk : ‖k‖ ≤ M) :
    ‖u + c • k - y s‖ ≤ R := by
  have a1 : ‖c • k‖ ≤ h * M := by
    rw [norm_smul, Real.norm_of_nonneg hc0]; gcongr
  have a2 : ‖y s - y t‖ ≤ h * M := by
    refine (ht.slow t ⟨h0, by linarith⟩ s ⟨by linarith [hs.1], by linarith [hs.2]⟩).trans ?_
    rw [abs_of_nonneg (by linarith [hs.1]), mul_comm]
    exact mul_le_mul_of_nonneg_right (by linarith [hs.2]) hM
  calc ‖u + c • k - y s‖ = ‖(u - y t) + c • k - (y s - y t)‖ := by congr 1; abel
    _ ≤ R / 2 + h * M + h * M := norm_sub_le_of_le (norm_add_le_of_le hu a1) a2
    _ ≤ R := by linarith

/-- Two states in the tube. -/
theorem rk4_stable₂ {T R L M : ℝ} {F : ℝ → E → E} {y : ℝ → E} (ht : Tube T R L M F y) (hR : 0 < R)
    (hL : 0 ≤ L) (hM : 0 ≤ M) {t h : ℝ} {u v : E} (h0 : 0 ≤ t) (hh : 0 ≤ h) (hT : t + h ≤ T)
    (hsm : 4 * h * M ≤ R) (hLh : h * L ≤ 1) (hu : ‖u - y t‖ ≤ R / 2) (hv : ‖v - y t‖ ≤ R / 2) :
    ‖rk4V F t h u - rk4V F t h v‖ ≤ (1 + 2 * L * h) * ‖u - v‖ := by
  have tm : t ∈ Icc 0 T := ⟨h0, by linarith⟩
  have tm2 : t + h / 2 ∈ Icc 0 T := ⟨by positivity, by linarith⟩
  have tm3 : t + h ∈ Icc 0 T := ⟨by positivity, hT⟩
  set ε := ‖u - v‖ with hε
  have ε0 : 0 ≤ ε := norm_nonneg _
  have st : ∀ (c B : ℝ) (k l : E), 0 ≤ c → c ≤ h → ‖k - l‖ ≤ B →
      ‖(u + c • k) - (v + c • l)‖ ≤ ε + c * B := by
    intro c B k l hc hch hB
    have : (u + c • k) - (v + c • l) = (u - v) + c • (k - l) := by module
    rw [this]
    refine norm_add_le_of_le le_rfl ?_
    rw [norm_smul, Real.norm_of_nonneg hc]
    gcongr
  have near : ∀ {s c : ℝ}, s ∈ Icc t (t + h) → 0 ≤ c → c ≤ h → ∀ {w k : E}, ‖w - y t‖ ≤ R / 2 →
      ‖k‖ ≤ M → ‖w + c • k - y s‖ ≤ R := fun hs hc hch _ _ hw hk =>
    ht.near hM h0 hh hT hs hc hch hsm hw hk
  have c2 : 0 ≤ h / 2 := by positivity
  have c2' : h / 2 ≤ h := by linarith
  have i2 : t + h / 2 ∈ Icc t (t + h) := ⟨by linarith, by linarith⟩
  have i3 : t + h ∈ Icc t (t + h) := ⟨by linarith, le_rfl⟩
  have hR2 : R / 2 ≤ R := by linarith
  set k1 := F t u with hk1
  set l1 := F t v with hl1
  have bk1 : ‖k1‖ ≤ M := ht.bound t tm u (hu.trans hR2)
  have bl1 : ‖l1‖ ≤ M := ht.bound t tm _ (hv.trans hR2)
  have e1 : ‖k1 - l1‖ ≤ L * ε := ht.lip t tm u v (hu.trans hR2) (hv.trans hR2)
  set k2 := F (t + h / 2) (u + (h / 2) • k1) with hk2
  set l2 := F (t + h / 2) (v + (h / 2) • l1) with hl2
  have bk2 : ‖k2‖ ≤ M := ht.bound _ tm2 _ (near i2 c2 c2' hu bk1)
  have bl2 : ‖l2‖ ≤ M := ht.bound _ tm2 _ (near i2 c2 c2' hv bl1)
  have Lε : h * L * ε ≤ ε := mul_le_of_le_one_left ε0 hLh
  have e2 : ‖k2 - l2‖ ≤ L * (2 * ε) := by
    refine (ht.lip _ tm2 _ _ (near i2 c2 c2' hu bk1) (near i2 c2 c2' hv bl1)).trans ?_
    refine mul_le_mul_of_nonneg_left ((st _ _ _ _ c2 c2' e1).trans ?_) hL
    nlinarith
  set k3 := F (t + h / 2) (u + (h / 2) • k2) with hk3
  set l3 := F (t + h / 2) (v + (h / 2) • l2) with hl3
  have bk3 : ‖k3‖ ≤ M := ht.bound _ tm2 _ (near i2 c2 c2' hu bk2)
  have bl3 : ‖l3‖ ≤ M := ht.bound _ tm2 _ (near i2 c2 c2' hv bl2)
  have e3 : ‖k3 - l3‖ ≤ L * (2 * ε) := by
    refine (ht.lip _ tm2 _ _ (near i2 c2 c2' hu bk2) (near i2 c2 c2' hv bl2)).trans ?_
    refine mul_le_mul_of_nonneg_left ((st _ _ _ _ c2 c2' e2).trans ?_) hL
    nlinarith
  set k4 := F (t + h) (u + h • k3) with hk4
  set l4 := F (t + h) (v + h • l3) with hl4
  have e4 : ‖k4 - l4‖ ≤ L * (3 * ε) := by
    refine (ht.lip _ tm3 _ _ (near i3 hh le_rfl hu bk3) (near i3 hh le_rfl hv bl3)).trans ?_
    refine mul_le_mul_of_nonneg_left ((st _ _ _ _ hh le_rfl e3).trans ?_) hL
    nlinarith
  have e5 : rk4V F t h u - rk4V F t h v = (u - v) + (h / 6) • ((k1 - l1) + (2 : ℝ) • (k2 - l2) +
      (2 : ℝ) • (k3 - l3) + (k4 - l4)) := by
    simp only [rk4V, ← hk1, ← hl1, ← hk2, ← hl2, ← hk3, ← hl3, ← hk4, ← hl4]; module
  have two : ∀ (w : E) (B : ℝ), ‖w‖ ≤ B → ‖(2 : ℝ) • w‖ ≤ 2 * B := fun w B h => by
    rw [norm_smul]; norm_num; exact h
  rw [e5]
  have e6 := norm_add_le_of_le (norm_add_le_of_le (norm_add_le_of_le e1 (two _ _ e2)) (two _ _ e3)) e4
  refine (norm_add_le_of_le le_rfl (r₂ := h / 6 * (L * ε + 2 * (L * (2 * ε)) + 2 * (L * (2 * ε)) + L * (3 * ε))) ?_).trans ?_
  · rw [norm_smul, Real.norm_of_nonneg (by positivity)]
    exact mul_le_mul_of_nonneg_left e6 (by positivity)
  · rw [← hε]; exact le_of_eq (by ring)

theorem rk4_stable {T R L M : ℝ} {F : ℝ → E → E} {y : ℝ → E} (ht : Tube T R L M F y) (hR : 0 < R)
    (hL : 0 ≤ L) (hM : 0 ≤ M) {t h : ℝ} {u : E} (h0 : 0 ≤ t) (hh : 0 ≤ h) (hT : t + h ≤ T)
    (hsm : 4 * h * M ≤ R) (hLh : h * L ≤ 1) (hu : ‖u - y t‖ ≤ R / 2) :
    ‖rk4V F t h u - rk4V F t h (y t)‖ ≤ (1 + 2 * L * h) * ‖u - y t‖ := by
  exact rk4_stable₂ ht hR hL hM h0 hh hT hsm hLh hu (by simp; positivity)

/-- Two states in the tube. -/
theorem euler_stable₂ {T R L M : ℝ} {F : ℝ → E → E} {y : ℝ → E} (ht : Tube T R L M F y) (hR : 0 < R)
    {t h : ℝ} {u v : E} (h0 : 0 ≤ t) (hh : 0 ≤ h) (hT : t + h ≤ T) (hu : ‖u - y t‖ ≤ R / 2)
    (hv : ‖v - y t‖ ≤ R / 2) : ‖eulerV F t h u - eulerV F t h v‖ ≤ (1 + L * h) * ‖u - v‖ := by
  have e : eulerV F t h u - eulerV F t h v = (u - v) + h • (F t u - F t v) := by
    simp only [eulerV]; module
  rw [e]
  have e1 := ht.lip t ⟨h0, by linarith⟩ u v (by linarith) (by linarith)
  refine (norm_add_le_of_le le_rfl (r₂ := h * (L * ‖u - v‖)) ?_).trans (le_of_eq (by ring))
  rw [norm_smul, Real.norm_of_nonneg hh]
  gcongr

theorem euler_stable {T R L M : ℝ} {F : ℝ → E → E} {y : ℝ → E} (ht : Tube T R L M F y) (hR : 0 < R)
    {t h : ℝ} {u : E} (h0 : 0 ≤ t) (hh : 0 ≤ h) (hT : t + h ≤ T) (hu : ‖u - y t‖ ≤ R / 2) :
    ‖eulerV F t h u - eulerV F t h (y t)‖ ≤ (1 + L * h) * ‖u - y t‖ :=
  euler_stable₂ ht hR h0 hh hT hu (by simp; positivity)

end DG
