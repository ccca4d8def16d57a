import Verif.Model.MachinePost
import Verif.Lemmas.RoundProgram
import Mathlib.Analysis.SpecialFunctions.Pow.Deriv

/-!
Sums and roots of nonnegative numbers in rounded arithmetic: errors relative to the sum.
-/
open Finset
namespace DG

/-- `a` is a nonnegative number that has been computed for `X` with small relative error, up to underflow -/
structure Back (A : Arith) (c : ℝ) (a : A.K) (X : ℝ) : Prop where
  fin : A.fin a
  val0 : 0 ≤ A.val a
  x0 : 0 ≤ X
  err : |A.val a - X| ≤ c * (A.u * X + A.u ^ 2)

theorem Back.mono {A : Arith} {c c' X : ℝ} {a : A.K} (h : Back A c a X) (hc : c ≤ c') : Back A c' a X :=
  ⟨h.fin, h.val0, h.x0, h.err.trans (mul_le_mul_of_nonneg_right hc
    (add_nonneg (mul_nonneg A.u_nonneg h.x0) (sq_nonneg _)))⟩

theorem Back.le {A : Arith} {c X : ℝ} {a : A.K} (h : Back A c a X) (hc : 0 ≤ c) (hu : A.u ≤ 1) : A.val a ≤ X + c * (X + 1) := by
  have h0 := A.u_nonneg
  have h1 := (abs_le.1 h.err).2
  have h2 : A.u * X + A.u ^ 2 ≤ X + 1 := by
    have : A.u * X ≤ 1 * X := mul_le_mul_of_nonneg_right hu h.x0
    nlinarith
  have := mul_le_mul_of_nonneg_left h2 hc
  linarith

/-- number of leaves -/
def Fl.Reduction.size (t : Fl.Reduction) : ℕ := t.items.length + t.zeros

theorem Fl.Reduction.size_pos (t : Fl.Reduction) : 0 < t.size := by
  induction t with
  | zero => decide
  | item i => simp [size, items, zeros]
  | join a b ha hb => simp only [size, items, zeros, List.length_append] at *; omega

theorem join_const {k : ℝ} (hk : 1 ≤ k) {a b : ℕ} (ha : 0 < a) (hb : 0 < b) : 2 * (k * 8 ^ a + k * 8 ^ b) + 1 ≤ k * 8 ^ (a + b) := by
  have h1 : (8 : ℝ) ≤ 8 ^ a := by calc (8 : ℝ) = 8 ^ 1 := by norm_num
      _ ≤ 8 ^ a := pow_le_pow_right₀ (by norm_num) ha
  have h2 : (8 : ℝ) ≤ 8 ^ b := by calc (8 : ℝ) = 8 ^ 1 := by norm_num
      _ ≤ 8 ^ b := pow_le_pow_right₀ (by norm_num) hb
  rw [pow_add]
  generalize (8 : ℝ) ^ a = x at *
  generalize (8 : ℝ) ^ b = y at *
  have h3 : 2 * (x + y) + 1 ≤ x * y := by nlinarith
  have h4 : k * (2 * (x + y) + 1) ≤ k * (x * y) := mul_le_mul_of_nonneg_left h3 (by linarith)
  linarith

theorem reduce_aux {A : Arith} {c : ℝ} (hc : 0 ≤ c) (hu : A.u ≤ 1) {v : ℕ → A.K} {X : ℕ → ℝ} (N : ℕ) (M : ℝ)
    (hB : 2 * (M + (c + 1) * 8 ^ N * (M + 1)) ≤ A.big) (t : Fl.Reduction) (hN : t.size ≤ N)
    (h : ∀ i ∈ t.items, Back A c (v i) (X i)) (hM : (t.items.map X).sum ≤ M) :
    Back A ((c + 1) * 8 ^ t.size) (t.run v) ((t.items.map X).sum) := by
  induction t with
  | zero =>
    refine ⟨A.zero.1, A.zero.2.ge, by simp [Fl.Reduction.items], ?_⟩
    show |A.val 0 - _| ≤ _
    rw [A.zero.2]
    simp only [Fl.Reduction.items, List.map_nil, List.sum_nil, sub_zero, abs_zero]
    have := A.u_nonneg
    positivity
  | item i =>
    have := h i (by simp [Fl.Reduction.items])
    have e : (((Fl.Reduction.item i).items).map X).sum = X i := by simp [Fl.Reduction.items]
    rw [e]
    refine this.mono ?_
    have : (Fl.Reduction.item i).size = 1 := by simp [Fl.Reduction.size, Fl.Reduction.items, Fl.Reduction.zeros]
    rw [this]; linarith
  | join a b iha ihb =>
    have es : (a.join b).size = a.size + b.size := by
      simp only [Fl.Reduction.size, Fl.Reduction.items, Fl.Reduction.zeros, List.length_append]; omega
    have ei : (a.join b).items = a.items ++ b.items := rfl
    rw [ei, List.map_append, List.sum_append] at hM ⊢
    rw [ei] at h
    have nn : ∀ l : List ℕ, (∀ i ∈ l, Back A c (v i) (X i)) → 0 ≤ (l.map X).sum := fun l hl =>
      List.sum_nonneg fun x hx => by obtain ⟨i, hi, rfl⟩ := List.mem_map.1 hx; exact (hl i hi).x0
    have ha' : ∀ i ∈ a.items, Back A c (v i) (X i) := fun i hi => h i (List.mem_append_left _ hi)
    have hb' : ∀ i ∈ b.items, Back A c (v i) (X i) := fun i hi => h i (List.mem_append_right _ hi)
    have na := nn _ ha'
    have nb := nn _ hb'
    have ka := iha (by omega) ha' (by linarith)
    have kb := ihb (by omega) hb' (by linarith)
    have pa := a.size_pos
    have pb := b.size_pos
    have hj := join_const (k := c + 1) (by linarith) pa pb
    rw [es]
    generalize (a.items.map X).sum = Xa at *
    generalize (b.items.map X).sum = Xb at *
    show Back A _ (a.run v + b.run v) _
    have bound : ∀ {s : ℕ} {z : A.K} {Y : ℝ}, s ≤ N → Y ≤ M → Back A ((c + 1) * 8 ^ s) z Y → A.val z ≤ M + (c + 1) * 8 ^ N * (M + 1) := by
      intro s z Y hs hY hz
      refine (hz.le (by positivity) hu).trans ?_
      have e1 : (8 : ℝ) ^ s ≤ 8 ^ N := pow_le_pow_right₀ (by norm_num) hs
      have e2 : (c + 1) * 8 ^ s ≤ (c + 1) * 8 ^ N := mul_le_mul_of_nonneg_left e1 (by linarith)
      have e3 : (c + 1) * 8 ^ s * (Y + 1) ≤ (c + 1) * 8 ^ N * (M + 1) :=
        mul_le_mul e2 (by linarith) (by linarith [hz.x0]) (by positivity)
      linarith
    have b1 := bound (s := a.size) (by omega) (by linarith) ka
    have b2 := bound (s := b.size) (by omega) (by linarith) kb
    have s0 : 0 ≤ A.val (a.run v) + A.val (b.run v) := add_nonneg ka.val0 kb.val0
    obtain ⟨f, r1, r2⟩ := A.add _ _ ka.fin kb.fin (by rw [abs_of_nonneg s0]; linarith)
    refine ⟨f, r2 s0, add_nonneg na nb, ?_⟩
    rw [abs_of_nonneg s0] at r1
    have e1 := ka.err
    have e2 := kb.err
    generalize A.val (a.run v + b.run v) = r at *
    generalize A.val (a.run v) = x at *
    generalize A.val (b.run v) = y at *
    have hu0 := A.u_nonneg
    generalize A.u = u at *
    have hCa : 0 ≤ (c + 1) * 8 ^ a.size := by positivity
    have hCb : 0 ≤ (c + 1) * 8 ^ b.size := by positivity
    generalize (c + 1) * 8 ^ a.size = Ca at *
    generalize (c + 1) * 8 ^ b.size = Cb at *
    generalize (c + 1) * 8 ^ (a.size + b.size) = Cab at *
    set E := Ca * (u * Xa + u ^ 2) + Cb * (u * Xb + u ^ 2) with hE
    have hE0 : 0 ≤ E := by positivity
    have hs : |x + y - (Xa + Xb)| ≤ E := by
      have : x + y - (Xa + Xb) = (x - Xa) + (y - Xb) := by ring
      rw [this]; exact (abs_add_le _ _).trans (add_le_add e1 e2)
    have hs' : x + y ≤ Xa + Xb + E := by have := (abs_le.1 hs).2; linarith
    have hr : |r - (Xa + Xb)| ≤ u * (x + y) + u ^ 2 + E := by
      have := abs_sub_le r (x + y) (Xa + Xb); linarith
    have h1 : u * (x + y) ≤ u * (Xa + Xb) + E := by
      have := mul_le_mul_of_nonneg_left hs' hu0
      have h2 : u * E ≤ 1 * E := mul_le_mul_of_nonneg_right hu hE0
      nlinarith
    have h2 : E ≤ (Ca + Cb) * (u * (Xa + Xb) + u ^ 2) := by
      have p1 : 0 ≤ Ca * (u * Xb) := by positivity
      have p2 : 0 ≤ Cb * (u * Xa) := by positivity
      rw [hE]; nlinarith
    have h3 : (2 * (Ca + Cb) + 1) * (u * (Xa + Xb) + u ^ 2) ≤ Cab * (u * (Xa + Xb) + u ^ 2) :=
      mul_le_mul_of_nonneg_right hj (by positivity)
    linarith

/-- sums in any order -/
theorem reduce_back {A : Arith} {c : ℝ} (hc : 0 ≤ c) (hu : A.u ≤ 1) {v : ℕ → A.K} {X : ℕ → ℝ} {n N : ℕ} {M : ℝ}
    (hB : 2 * (M + (c + 1) * 8 ^ (2 * N + 1) * (M + 1)) ≤ A.big) (hn : n ≤ N) {t : Fl.Reduction} (ht : t.Sums n)
    (h : ∀ i < n, Back A c (v i) (X i)) (hM : ∑ i ∈ range n, X i ≤ M) :
    Back A ((c + 1) * 8 ^ (2 * N + 1)) (t.run v) (∑ i ∈ range n, X i) := by
  have e : (t.items.map X).sum = ∑ i ∈ range n, X i := by
    rw [(ht.1.map X).sum_eq]; rfl
  have hsz : t.size ≤ 2 * N + 1 := by
    have h1 := ht.1.length_eq
    have h2 := ht.2
    simp only [List.length_range] at h1
    unfold Fl.Reduction.size; omega
  have := reduce_aux hc hu (2 * N + 1) M hB t hsz (fun i hi => h i (by simpa using (ht.1.mem_iff.1 hi))) (by rw [e]; exact hM)
  rw [e] at this
  exact this.mono (mul_le_mul_of_nonneg_left (pow_le_pow_right₀ (by norm_num) hsz) (by linarith))


theorem back_div {c M Vol : ℝ} (hc : 0 ≤ c) (hM : 0 ≤ M) (hV : 0 < Vol) :
    ∃ c' u0 B : ℝ, 0 ≤ c' ∧ 0 < u0 ∧ ∀ A : Arith, A.u ≤ u0 → B ≤ A.big → ∀ (a b : A.K) (X : ℝ), Back A c a X → X ≤ M →
      Back A c b Vol → Back A c' (a / b) (X / Vol) := by
  set C1 : ℝ := 2 * c * (1 / Vol + 1 + (Vol + 1) / Vol) with hC1
  have hC10 : 0 ≤ C1 := by positivity
  refine ⟨2 * C1 + 1, min 1 (Vol / (2 * (c * (Vol + 1)) + 1)), M / Vol + C1 * (M / Vol + 1), by positivity,
    lt_min one_pos (by positivity), ?_⟩
  intro A hu hB a b X ha hXM hb
  obtain ⟨hu1, hu2⟩ := le_min_iff.1 hu
  have hu0 := A.u_nonneg
  have ea := ha.err
  have eb := hb.err
  have hX := ha.x0
  have ha0 := ha.val0
  obtain ⟨hfa, hfb⟩ := (⟨ha.fin, hb.fin⟩ : A.fin a ∧ A.fin b)
  have key := fun h0 hq => A.div a b hfa hfb h0 hq
  generalize A.val a = s at *
  generalize A.val b = v at *
  have hB' : M / Vol + C1 * (M / Vol + 1) ≤ A.big := hB
  generalize A.big = big at *
  have hval : ∀ z : ℝ, z = A.val (a / b) → (0 ≤ z ∧ |z - X / Vol| ≤ (2 * C1 + 1) * (A.u * (X / Vol) + A.u ^ 2)) →
      A.fin (a / b) → Back A (2 * C1 + 1) (a / b) (X / Vol) := by
    rintro z rfl ⟨h1, h2⟩ h3; exact ⟨h3, h1, by positivity, h2⟩
  have fine : (v ≠ 0 → |s / v| ≤ big → A.fin (a / b) ∧ Rounds A.u (s / v) (A.val (a / b))) := key
  clear key
  generalize A.val (a / b) = z at *
  generalize A.u = u at *
  have huu : u ^ 2 ≤ u := by nlinarith
  have ev : |v - Vol| ≤ c * (Vol + 1) * u := by
    refine eb.trans ?_
    have : c * (u * Vol + u ^ 2) ≤ c * (u * Vol + u) := mul_le_mul_of_nonneg_left (by linarith) hc
    linarith
  have hhalf : c * (Vol + 1) * u ≤ Vol / 2 := by
    rw [le_div_iff₀ (by positivity)] at hu2
    have : 0 ≤ u := hu0
    nlinarith
  have hv : Vol / 2 ≤ v := by have := (abs_le.1 ev).1; linarith
  have hv0 : 0 < v := by linarith
  have hq0 : 0 ≤ s / v := by positivity
  set Y := X / Vol with hY
  have hY0 : 0 ≤ Y := by positivity
  have hXY : X = Y * Vol := by rw [hY]; field_simp
  have hq : |s / v - Y| ≤ C1 * (u * Y + u ^ 2) := by
    have e : s / v - Y = ((s - X) - Y * (v - Vol)) / v := by rw [hXY]; field_simp; ring
    rw [e, abs_div, abs_of_pos hv0, div_le_iff₀ hv0]
    have h1 : |(s - X) - Y * (v - Vol)| ≤ c * (u * X + u ^ 2) + Y * (c * (Vol + 1) * u) := by
      refine (abs_sub _ _).trans (add_le_add ea ?_)
      rw [abs_mul, abs_of_nonneg hY0]
      exact mul_le_mul_of_nonneg_left ev hY0
    refine h1.trans ?_
    have h2 : C1 * (u * Y + u ^ 2) * (Vol / 2) ≤ C1 * (u * Y + u ^ 2) * v := mul_le_mul_of_nonneg_left hv (by positivity)
    refine le_trans ?_ h2
    have h3 : C1 * (Vol / 2) = c * (1 + Vol + (Vol + 1)) := by rw [hC1]; field_simp
    have h4 : C1 * (u * Y + u ^ 2) * (Vol / 2) = c * (1 + Vol + (Vol + 1)) * (u * Y + u ^ 2) := by rw [← h3]; ring
    rw [h4, hXY]
    have p1 : 0 ≤ c * (u * Y) := by positivity
    have p2 : 0 ≤ c * u ^ 2 * Vol := by positivity
    nlinarith
  have hqle : s / v ≤ Y + C1 * (u * Y + u ^ 2) := by have := (abs_le.1 hq).2; linarith
  have hYM : Y ≤ M / Vol := div_le_div_of_nonneg_right hXM hV.le
  have hb1 : u * Y + u ^ 2 ≤ M / Vol + 1 := by
    have : u * Y ≤ 1 * Y := mul_le_mul_of_nonneg_right hu1 hY0
    nlinarith
  obtain ⟨f, r1, r2⟩ := fine hv0.ne' (by
    rw [abs_of_nonneg hq0]
    have := mul_le_mul_of_nonneg_left hb1 hC10
    linarith)
  refine hval z rfl ⟨r2 hq0, ?_⟩ f
  rw [abs_of_nonneg hq0] at r1
  have h5 := abs_sub_le z (s / v) Y
  have h6 : u * (s / v) ≤ u * Y + C1 * (u * Y + u ^ 2) := by
    have h7 := mul_le_mul_of_nonneg_left hqle hu0
    have h8 : u * (C1 * (u * Y + u ^ 2)) ≤ 1 * (C1 * (u * Y + u ^ 2)) := mul_le_mul_of_nonneg_right hu1 (by positivity)
    nlinarith
  nlinarith

/-- powers depend smoothly on the exponent, also near zero -/
theorem rpow_exponent {Z z s r : ℝ} (hz : 0 ≤ z) (hZ : z ≤ Z) (hs : s ∈ Set.Icc (1 / 4 : ℝ) (3 / 4)) (hr : r ∈ Set.Icc (1 / 4 : ℝ) (3 / 4)) :
    |z ^ s - z ^ r| ≤ (4 + (Z + 1) ^ 2) * |s - r| := by
  rcases hz.eq_or_lt with rfl | hz0
  · rw [Real.zero_rpow (by linarith [hs.1]), Real.zero_rpow (by linarith [hr.1])]
    simp only [sub_self, abs_zero]
    positivity
  · have hd : ∀ x ∈ Set.Icc (1 / 4 : ℝ) (3 / 4), HasDerivWithinAt (fun x : ℝ => z ^ x) (z ^ x * Real.log z) (Set.Icc (1 / 4) (3 / 4)) x :=
      fun x _ => (Real.hasStrictDerivAt_const_rpow hz0 x).hasDerivAt.hasDerivWithinAt
    have hb : ∀ x ∈ Set.Icc (1 / 4 : ℝ) (3 / 4), ‖z ^ x * Real.log z‖ ≤ 4 + (Z + 1) ^ 2 := by
      intro x hx
      rw [Real.norm_eq_abs]
      have hx0 : 0 < x := by linarith [hx.1]
      rcases le_total z 1 with h1 | h1
      · have := Real.abs_log_mul_self_rpow_lt z x hz0 h1 hx0
        rw [mul_comm] at this
        have h2 : 1 / x ≤ 4 := by rw [div_le_iff₀ hx0]; linarith [hx.1]
        nlinarith [sq_nonneg (Z + 1)]
      · have l0 := Real.log_nonneg h1
        have l1 : Real.log z ≤ z := (Real.log_le_sub_one_of_pos hz0).trans (by linarith)
        have l2 : z ^ x ≤ z := by
          calc z ^ x ≤ z ^ (1 : ℝ) := Real.rpow_le_rpow_of_exponent_le h1 (by linarith [hx.2])
            _ = z := Real.rpow_one z
        have l3 : 0 ≤ z ^ x := Real.rpow_nonneg hz _
        rw [abs_of_nonneg (by positivity)]
        calc z ^ x * Real.log z ≤ z * z := mul_le_mul l2 l1 l0 hz
          _ ≤ 4 + (Z + 1) ^ 2 := by nlinarith
    have := (convex_Icc (1 / 4 : ℝ) (3 / 4)).norm_image_sub_le_of_norm_hasDerivWithin_le hd hb hr hs
    rwa [Real.norm_eq_abs, Real.norm_eq_abs] at this

theorem sqrt_back {z Y u c M : ℝ} (hz : 0 ≤ z) (hY : 0 ≤ Y) (hu : 0 ≤ u) (hu1 : u ≤ 1) (hc : 0 ≤ c) (hM : Y ≤ M)
    (h : |z - Y| ≤ c * (u * Y + u ^ 2)) : |Real.sqrt z - Real.sqrt Y| ≤ (c * (Real.sqrt M + 1) + Real.sqrt (2 * c)) * u := by
  have hsz := Real.sqrt_nonneg z
  have hsY := Real.sqrt_nonneg Y
  have ez := Real.sq_sqrt hz
  have eY := Real.sq_sqrt hY
  have prod : |Real.sqrt z - Real.sqrt Y| * (Real.sqrt z + Real.sqrt Y) = |z - Y| := by
    rw [← abs_of_nonneg (add_nonneg hsz hsY), ← abs_mul]
    congr 1; nlinarith
  by_cases hy : Real.sqrt Y ≤ u
  · -- small
    have h1 : |Real.sqrt z - Real.sqrt Y| ≤ Real.sqrt (2 * c) * u := by
      have h2 : |Real.sqrt z - Real.sqrt Y| ^ 2 ≤ |z - Y| := by
        rw [← prod, sq]
        refine mul_le_mul_of_nonneg_left ?_ (abs_nonneg _)
        rw [abs_le]; constructor <;> linarith
      have h3 : Y ≤ u ^ 2 := by rw [← eY]; gcongr
      have h4 : c * (u * Y + u ^ 2) ≤ 2 * c * u ^ 2 := by
        have : u * Y ≤ 1 * u ^ 2 := mul_le_mul hu1 h3 hY zero_le_one
        nlinarith
      have h5 : |Real.sqrt z - Real.sqrt Y| ^ 2 ≤ (Real.sqrt (2 * c) * u) ^ 2 := by
        rw [mul_pow, Real.sq_sqrt (by positivity)]; linarith
      exact (abs_le_of_sq_le_sq' h5 (by positivity)).2
    have : 0 ≤ c * (Real.sqrt M + 1) * u := by positivity
    linarith
  · push Not at hy
    have hpos : 0 < Real.sqrt Y := lt_of_le_of_lt hu hy
    have hsM : Real.sqrt Y ≤ Real.sqrt M := Real.sqrt_le_sqrt hM
    have h1 : |Real.sqrt z - Real.sqrt Y| * Real.sqrt Y ≤ c * (Real.sqrt M + 1) * u * Real.sqrt Y := by
      calc |Real.sqrt z - Real.sqrt Y| * Real.sqrt Y ≤ |z - Y| := by
            rw [← prod]; exact mul_le_mul_of_nonneg_left (by linarith) (abs_nonneg _)
        _ ≤ c * (u * Y + u ^ 2) := h
        _ ≤ _ := by
          have a1 : u * Y ≤ Real.sqrt M * u * Real.sqrt Y := by
            calc u * Y = u * (Real.sqrt Y * Real.sqrt Y) := by rw [← sq, eY]
              _ ≤ u * (Real.sqrt M * Real.sqrt Y) := by gcongr
              _ = _ := by ring
          have a2 : u ^ 2 ≤ u * Real.sqrt Y := by rw [sq]; gcongr
          have := mul_le_mul_of_nonneg_left (add_le_add a1 a2) hc
          linarith
    have h2 := le_of_mul_le_mul_right h1 hpos
    have : 0 ≤ Real.sqrt (2 * c) * u := by positivity
    linarith

theorem back_root {c M : ℝ} (hc : 0 ≤ c) (hM : 0 ≤ M) :
    ∃ C u0 B : ℝ, 0 ≤ C ∧ 0 < u0 ∧ ∀ A : Arith, A.u ≤ u0 → B ≤ A.big → ∀ (a : A.K) (Y : ℝ), Back A c a Y → Y ≤ M →
      A.fin (HasLibm.pow a (1 / 2)) ∧ |A.val (HasLibm.pow a (1 / 2)) - Real.sqrt Y| ≤ C * A.u := by
  set Z : ℝ := M + c * (M + 1) with hZ
  have hZ0 : 0 ≤ Z := by positivity
  refine ⟨4 * (Z + 1) + 16 + (4 + (Z + 1) ^ 2) * 4 + (c * (Real.sqrt M + 1) + Real.sqrt (2 * c)), 1 / 16, max 2 (Z + 1), by positivity,
    by norm_num, ?_⟩
  intro A hu hB a Y ha hY
  obtain ⟨hB1, hB2⟩ := max_le_iff.1 hB
  have hu0 := A.u_nonneg
  have hu1 : A.u ≤ 1 := hu.trans (by norm_num)
  obtain ⟨h1, h2⟩ := half_step (A := A) (dt := 1) (hu.trans (by norm_num)) hB1 A.one.1 (by rw [A.one.2]; norm_num) (by rw [A.one.2])
  rw [A.one.2] at h2
  have hz0 := ha.val0
  have hzZ : A.val a ≤ Z := by
    refine (ha.le hc hu1).trans ?_
    have := mul_le_mul_of_nonneg_left (add_le_add_left hY 1) hc
    linarith
  have hr := sqrt_back hz0 ha.x0 hu0 hu1 hc hY ha.err
  have hh := abs_le.1 h2
  have hs : A.val (1 / 2 : A.K) ∈ Set.Icc (1 / 4 : ℝ) (3 / 4) := ⟨by linarith [hh.1], by linarith [hh.2]⟩
  have he := rpow_exponent hz0 hzZ hs (⟨by norm_num, by norm_num⟩ : (1 / 2 : ℝ) ∈ Set.Icc (1 / 4 : ℝ) (3 / 4))
  have hle : A.val a ^ A.val (1 / 2 : A.K) ≤ Z + 1 := by
    calc A.val a ^ A.val (1 / 2 : A.K) ≤ (Z + 1) ^ A.val (1 / 2 : A.K) := Real.rpow_le_rpow hz0 (by linarith) (by linarith [hs.1])
      _ ≤ (Z + 1) ^ (1 : ℝ) := Real.rpow_le_rpow_of_exponent_le (by linarith) (by linarith [hs.2])
      _ = Z + 1 := Real.rpow_one _
  obtain ⟨f, r1, -⟩ := A.pow a (1 / 2) ha.fin h1 (hz0.eq_or_lt.symm.imp id fun h => ⟨h.symm, by linarith [hs.1]⟩) (hle.trans hB2)
  refine ⟨f, ?_⟩
  have hp0 : 0 ≤ A.val a ^ A.val (1 / 2 : A.K) := Real.rpow_nonneg hz0 _
  rw [abs_of_nonneg hp0] at r1
  rw [← Real.sqrt_eq_rpow] at he
  generalize A.val (HasLibm.pow a (1 / 2)) = r at *
  generalize A.val a ^ A.val (1 / 2 : A.K) = w at *
  generalize Real.sqrt (A.val a) = x at *
  generalize Real.sqrt Y = y at *
  have t1 : |r - y| ≤ |r - w| + |w - x| + |x - y| := by
    have a1 := abs_sub_le r w y
    have a2 := abs_sub_le w x y
    linarith
  have t2 : 4 * A.u * w ≤ 4 * (Z + 1) * A.u := by
    have := mul_le_mul_of_nonneg_left hle hu0; linarith
  have t3 : (4 * A.u) ^ 2 ≤ 16 * A.u := by nlinarith
  have t4 : (4 + (Z + 1) ^ 2) * |A.val (1 / 2 : A.K) - 1 / 2| ≤ (4 + (Z + 1) ^ 2) * (4 * A.u) := mul_le_mul_of_nonneg_left h2 (by positivity)
  linarith

end DG
