import Verif.Lemmas.Quadrature
import Verif.Lemmas.Basis
import Verif.Props.Basis
import Mathlib.Tactic.IntervalCases

/-! C23-C26: quadrature rules. -/
namespace DG
open Polynomial

/-! ### C23, C24, C25 in one dimension -/

theorem glNodes_eq {K : Type} [Field K] (order : ℕ) (px : List (ℕ × ℤ)) (hp : glNodeWrites order = some px)
    (n : ℕ) (hidx : px.map Prod.fst = List.range n) (view : List K) (hv : view.length = n) :
    glNodes order view = some (px.map fun w => gaussVal w.2) := by
  have hl : px.length = n := by have := congrArg List.length hidx; simpa using this
  unfold glNodes; rw [hp]
  exact applyWrites_eq px view (by rw [hl]; exact hidx) (by omega)

theorem glWeights_eq {K : Type} [Field K] (order : ℕ) (px : List (ℕ × ℤ))
    (hp : glWeightWrites order = some px)
    (n : ℕ) (hidx : px.map Prod.fst = List.range n) (view : List K) (hv : view.length = n) :
    glWeights order view = some (px.map fun w => gaussVal w.2) := by
  have hl : px.length = n := by have := congrArg List.length hidx; simpa using this
  unfold glWeights; rw [hp]
  exact applyWrites_eq px view (by rw [hl]; exact hidx) (by omega)

theorem numQuadPoints_fst (order ndims nq0 : ℕ) : (numQuadPoints order ndims nq0).1 = order / 2 + 1 := by
  unfold numQuadPoints
  rcases Nat.mod_two_eq_zero_or_one order with h | h
  · have h1 : (order + 2) % 2 = 0 := by omega
    have h2 : ¬ (order + 1) % 2 = 0 := by omega
    simp only [h1, h2, if_true, if_false]; omega
  · have h1 : ¬ (order + 2) % 2 = 0 := by omega
    have h2 : (order + 1) % 2 = 0 := by omega
    simp only [h1, h2, if_true, if_false]; omega

/-- **C23** (all orders of the tables but 36 and 37).  For every order of the tables and
every initial content of the views: the segment rule evaluates the integral over `[-1,1]` of every
polynomial of degree up to `order` with an error of at most `10⁻³⁰` times the sum of the absolute
values of its coefficients.  Missing: orders 36 and 37, for which the claim is false
(`C23_order_36_37_fails`). -/
theorem C23_exact (order : ℕ) (h : order < 50) (h6 : order ≠ 36) (h7 : order ≠ 37)
    (vp vw : List ℝ) (hp : vp.length = (numQuadPoints order 1 0).1)
    (hw : vw.length = (numQuadPoints order 1 0).1) :
    ∃ pts wts, segmentGL order vp vw = some (pts, wts) ∧
      ∀ p : ℝ[X], p.natDegree ≤ order →
        |quadSum wts pts (fun x => p.eval x) - ∫ x in (-1:ℝ)..1, p.eval x|
          ≤ 1 / 10 ^ 30 * coeffSum p := by
  rw [numQuadPoints_fst] at hp hw
  obtain ⟨px, wx, h1, h2, h3⟩ := orderOK_all order h h6 h7
  have h3' := h3
  simp only [caseOK, Bool.and_eq_true, decide_eq_true_eq] at h3'
  refine ⟨px.map fun w => gaussVal w.2, wx.map fun w => gaussVal w.2, ?_, ?_⟩
  · unfold segmentGL
    rw [glNodes_eq order px h1 _ h3'.1.1.1.1.1.1.1 vp hp, glWeights_eq order wx h2 _ h3'.1.1.1.1.1.1.2 vw hw]
    rfl
  · intro p hpd
    exact poly_bound _ _ (2 * (order / 2 + 1)) _ (fun j hj => moment_bound _ px wx h3 j hj) p (by omega)

/-- **C24** (all orders of the tables but 36 and 37).  The points are strictly increasing,
inside `(-1,1)` and symmetric about 0, the weights are positive and symmetric, whatever the views held
before.  Missing: orders 36 and 37 (`C23_order_36_37_fails`). -/
theorem C24_points_and_weights (order : ℕ) (h : order < 50) (h6 : order ≠ 36) (h7 : order ≠ 37)
    (vp vw : List ℝ) (hp : vp.length = (numQuadPoints order 1 0).1)
    (hw : vw.length = (numQuadPoints order 1 0).1) :
    ∃ pts wts, segmentGL order vp vw = some (pts, wts) ∧
      pts.length = (numQuadPoints order 1 0).1 ∧ wts.length = (numQuadPoints order 1 0).1 ∧
      pts.Pairwise (· < ·) ∧ (∀ x ∈ pts, -1 < x ∧ x < 1) ∧ pts.reverse = pts.map (- ·) ∧
      (∀ w ∈ wts, 0 < w) ∧ wts.reverse = wts := by
  rw [numQuadPoints_fst] at *
  obtain ⟨px, wx, h1, h2, h3⟩ := orderOK_all order h h6 h7
  simp only [caseOK, Bool.and_eq_true, decide_eq_true_eq, List.all_eq_true] at h3
  obtain ⟨⟨⟨⟨⟨⟨⟨i1, i2⟩, -⟩, inc⟩, rng⟩, pos⟩, symp⟩, symw⟩ := h3
  have hD : (0:ℝ) < 10 ^ gaussScale := by positivity
  refine ⟨px.map fun w => gaussVal w.2, wx.map fun w => gaussVal w.2,
    ?_, ?_, ?_, ?_, ?_, ?_, ?_, ?_⟩
  · unfold segmentGL
    rw [glNodes_eq order px h1 _ i1 vp hp, glWeights_eq order wx h2 _ i2 vw hw]
    rfl
  · have := congrArg List.length i1; simpa using this
  · have := congrArg List.length i2; simpa using this
  · rw [List.pairwise_map] at inc ⊢
    refine inc.imp fun {a b} hab => ?_
    simp only [gaussVal_eq]
    exact div_lt_div_of_pos_right (by exact_mod_cast hab) hD
  · intro x hx
    obtain ⟨a, ha, rfl⟩ := List.mem_map.1 hx
    have := rng a.2 (List.mem_map.2 ⟨a, ha, rfl⟩)
    simp only [gaussVal_eq]
    rw [lt_div_iff₀ hD, div_lt_iff₀ hD]
    constructor
    · have := this.1
      have h2 : ((-(10 ^ gaussScale) : ℤ) : ℝ) < (a.2 : ℝ) := Int.cast_lt.2 this
      push_cast at h2; linarith
    · have := this.2
      have h2 : ((a.2 : ℤ) : ℝ) < ((10 ^ gaussScale : ℤ) : ℝ) := Int.cast_lt.2 this
      push_cast at h2; linarith
  · have := congrArg (List.map (fun n : ℤ => (gaussVal n : ℝ))) symp
    rw [List.map_reverse, List.map_map, List.map_map, List.map_map] at this
    rw [List.map_map]
    refine this.trans (List.map_congr_left fun a _ => ?_)
    simp [gaussVal_eq, neg_div]
  · intro x hx
    obtain ⟨a, ha, rfl⟩ := List.mem_map.1 hx
    have := pos a.2 (List.mem_map.2 ⟨a, ha, rfl⟩)
    simp only [gaussVal_eq]
    exact div_pos (by exact_mod_cast this) hD
  · have := congrArg (List.map (fun n : ℤ => (gaussVal n : ℝ))) symw
    rw [List.map_reverse, List.map_map] at this
    exact this

/-- the hypotheses are met by freshly allocated views of the announced size -/
example : ∃ pts wts, segmentGL (K := ℝ) 5 [0, 0, 0] [0, 0, 0] = some (pts, wts) ∧
      ∀ p : ℝ[X], p.natDegree ≤ 5 →
        |quadSum wts pts (fun x => p.eval x) - ∫ x in (-1:ℝ)..1, p.eval x|
          ≤ 1 / 10 ^ 30 * coeffSum p :=
  C23_exact 5 (by omega) (by omega) (by omega) _ _ (by decide) (by decide)

/-! ### the rule of orders 36 and 37 -/

/-- the assignments on integers -/
def intWrites (ws : List (ℕ × ℤ)) (view : List ℤ) : Option (List ℤ) :=
  ws.foldlM (fun v w => setB v w.1 w.2) view

theorem applyWrites_int {K : Type} [Field K] (ws : List (ℕ × ℤ)) (view : List ℤ) :
    applyWrites (K := K) ws (view.map gaussVal) = (intWrites ws view).map (List.map gaussVal) := by
  unfold applyWrites intWrites
  induction ws generalizing view with
  | nil => simp
  | cons w ws ih =>
    simp only [List.foldlM_cons]
    by_cases hl : w.1 < view.length
    · rw [setB_of_lt hl, setB_of_lt (by simpa using hl), ← List.map_set]
      exact ih _
    · simp [setB, hl]

theorem applyWrites_untouched {K : Type} [Field K] (ws : List (ℕ × ℤ)) (view out : List K) (i : ℕ)
    (h : applyWrites ws view = some out) (hi : i ∉ ws.map Prod.fst) : out[i]? = view[i]? := by
  induction ws generalizing view with
  | nil => simp [applyWrites] at h; rw [h]
  | cons w ws ih =>
    simp only [List.map_cons, List.mem_cons, not_or] at hi
    unfold applyWrites at h
    rw [List.foldlM_cons] at h
    by_cases hl : w.1 < view.length
    · rw [setB_of_lt hl] at h
      rw [ih _ h hi.2, List.getElem?_set_ne (Ne.symm hi.1)]
    · simp [setB, hl] at h

/-- integer content of the 19-point rule on a zeroed view -/
def nodes36 : List ℤ := (intWrites ((glNodeWrites 36).getD []) (List.replicate 19 0)).getD []
def weights36 : List ℤ := (intWrites ((glWeightWrites 36).getD []) (List.replicate 19 0)).getD []

theorem writes36 : glNodeWrites 37 = glNodeWrites 36 ∧ glWeightWrites 37 = glWeightWrites 36 ∧
    (glNodeWrites 36).isSome ∧ (glWeightWrites 36).isSome ∧
    (intWrites ((glNodeWrites 36).getD []) (List.replicate 19 0)).isSome ∧
    (intWrites ((glWeightWrites 36).getD []) (List.replicate 19 0)).isSome ∧
    nodes36[14]? = some 720966177335229378617095860823780 ∧ nodes36[15]? = some 0 ∧
    15 ∉ ((glNodeWrites 36).getD []).map Prod.fst ∧
    (List.zipWith (fun w x => w * x ^ 2) weights36 nodes36).sum * 100 < 61 * (10 ^ gaussScale) ^ 3 := by
  decide +kernel

theorem segment36 (order : ℕ) (ho : order = 36 ∨ order = 37) :
    segmentGL (K := ℝ) order (List.replicate 19 0) (List.replicate 19 0)
      = some (nodes36.map gaussVal, weights36.map gaussVal) := by
  obtain ⟨e1, e2, s1, s2, s3, s4, -⟩ := writes36
  obtain ⟨px, hpx⟩ := Option.isSome_iff_exists.1 s1
  obtain ⟨wx, hwx⟩ := Option.isSome_iff_exists.1 s2
  have hp : glNodeWrites order = some px := by rcases ho with rfl | rfl; exacts [hpx, e1.trans hpx]
  have hw : glWeightWrites order = some wx := by rcases ho with rfl | rfl; exacts [hwx, e2.trans hwx]
  have z : (List.replicate 19 (0:ℝ)) = (List.replicate 19 (0:ℤ)).map gaussVal := by
    rw [List.map_replicate]; simp [gaussVal_eq]
  rw [hpx, Option.getD_some] at s3
  rw [hwx, Option.getD_some] at s4
  obtain ⟨a, ha⟩ := Option.isSome_iff_exists.1 s3
  obtain ⟨b, hb⟩ := Option.isSome_iff_exists.1 s4
  unfold segmentGL glNodes glWeights nodes36 weights36
  rw [hp, hw, hpx, hwx]
  simp only [Option.getD_some]
  rw [z, applyWrites_int, applyWrites_int, ha, hb]
  rfl

/-- **C23**, **C24** (negation for orders 36 and 37).  On the zero-initialised views the code
allocates, the 19-point rule of orders 36 and 37 has entry 15 equal to 0 although entry 14 is positive
(the points are not increasing), and it integrates `x²` over `[-1,1]` to less than 0.61 instead of
2/3. -/
theorem C23_order_36_37_fails (order : ℕ) (ho : order = 36 ∨ order = 37) :
    ∃ pts wts, segmentGL (K := ℝ) order (List.replicate (numQuadPoints order 1 0).1 0)
        (List.replicate (numQuadPoints order 1 0).1 0) = some (pts, wts) ∧
      pts[15]? = some 0 ∧ (∃ x, pts[14]? = some x ∧ 0 < x) ∧
      quadSum wts pts (fun x => x ^ 2) < 61 / 100 ∧ ∫ x in (-1:ℝ)..1, x ^ 2 = 2 / 3 := by
  have hn : (numQuadPoints order 1 0).1 = 19 := by
    rw [numQuadPoints_fst]; rcases ho with rfl | rfl <;> rfl
  rw [hn]
  obtain ⟨-, -, -, -, -, -, h14, h15, -, hm⟩ := writes36
  refine ⟨_, _, segment36 order ho, ?_, ?_, ?_, ?_⟩
  · simp [h15, gaussVal_eq]
  · refine ⟨gaussVal 720966177335229378617095860823780, by simp [h14], ?_⟩
    rw [gaussVal_eq]; positivity
  · have key := quadSum_pow_cast (nodes36.map fun n => (0, n)) (weights36.map fun n => (0, n)) 2
    simp only [List.map_map, Function.comp_def, List.map_id'] at key
    have e : quadSum (weights36.map gaussVal) (nodes36.map gaussVal) (fun x => x ^ 2)
        = ((List.zipWith (fun w x => w * x ^ 2) weights36 nodes36).sum : ℤ)
          / ((10 ^ gaussScale : ℝ)) ^ (2 + 1) := key
    rw [e, div_lt_div_iff₀ (by positivity) (by norm_num)]
    exact_mod_cast hm
  · rw [integral_pow]; norm_num

theorem moment36_nonneg :
    0 ≤ (List.zipWith (fun w x => w * x ^ 2) weights36 nodes36).sum := by
  decide +kernel

theorem coeffSum_X_sq : coeffSum (X ^ 2 : ℝ[X]) = 1 := by
  unfold coeffSum
  rw [natDegree_X_pow]
  simp [Finset.sum_range_succ, coeff_X_pow]

/-- second moment of the 19-point rule on zeroed views -/
theorem moment36 (order : ℕ) (ho : order = 36 ∨ order = 37) (pts wts : List ℝ)
    (h : segmentGL (K := ℝ) order (List.replicate (numQuadPoints order 1 0).1 0)
        (List.replicate (numQuadPoints order 1 0).1 0) = some (pts, wts)) :
    0 ≤ quadSum wts pts (fun x => x ^ 2) ∧ quadSum wts pts (fun x => x ^ 2) < 61 / 100 := by
  obtain ⟨p, w, h1, -, -, h2, -⟩ := C23_order_36_37_fails order ho
  rw [h] at h1
  obtain ⟨rfl, rfl⟩ := Prod.mk.inj (Option.some.inj h1)
  refine ⟨?_, h2⟩
  have hn : (numQuadPoints order 1 0).1 = 19 := by
    rw [numQuadPoints_fst]; rcases ho with rfl | rfl <;> rfl
  rw [hn, segment36 order ho] at h
  obtain ⟨rfl, rfl⟩ := Prod.mk.inj (Option.some.inj h)
  have key := quadSum_pow_cast (nodes36.map fun n => (0, n)) (weights36.map fun n => (0, n)) 2
  simp only [List.map_map, Function.comp_def, List.map_id'] at key
  have e : quadSum (weights36.map gaussVal) (nodes36.map gaussVal) (fun x => x ^ 2)
      = ((List.zipWith (fun w x => w * x ^ 2) weights36 nodes36).sum : ℤ)
        / ((10 ^ gaussScale : ℝ)) ^ (2 + 1) := key
  rw [e]
  have := moment36_nonneg
  refine div_nonneg ?_ (by positivity)
  exact_mod_cast this

/-- **C23** (complete).  On the zero-initialised views the code allocates, the rule of a tabulated
order has its advertised exactness exactly when the order is neither 36 nor 37. -/
theorem C23_exact_iff (order : ℕ) (h : order < 50) :
    (∃ pts wts, segmentGL (K := ℝ) order (List.replicate (numQuadPoints order 1 0).1 0)
        (List.replicate (numQuadPoints order 1 0).1 0) = some (pts, wts) ∧
      ∀ p : ℝ[X], p.natDegree ≤ order →
        |quadSum wts pts (fun x => p.eval x) - ∫ x in (-1:ℝ)..1, p.eval x|
          ≤ 1 / 10 ^ 30 * coeffSum p) ↔ order ≠ 36 ∧ order ≠ 37 := by
  constructor
  · rintro ⟨pts, wts, h1, h2⟩
    by_contra hc
    have ho : order = 36 ∨ order = 37 := by omega
    have hd : (X ^ 2 : ℝ[X]).natDegree ≤ order := by rw [natDegree_X_pow]; omega
    have a := h2 (X ^ 2) hd
    rw [coeffSum_X_sq] at a
    simp only [eval_pow, eval_X] at a
    have b := (moment36 order ho pts wts h1).2
    rw [integral_pow] at a
    have := (abs_le.1 a).1
    norm_num at this
    linarith
  · rintro ⟨h6, h7⟩
    exact C23_exact order h h6 h7 _ _ (by simp) (by simp)

/-- **C24** (complete).  On the zero-initialised views the code allocates, the points are strictly
increasing, interior and symmetric and the weights positive and symmetric exactly when the order is
neither 36 nor 37. -/
theorem C24_points_and_weights_iff (order : ℕ) (h : order < 50) :
    (∃ pts wts, segmentGL (K := ℝ) order (List.replicate (numQuadPoints order 1 0).1 0)
        (List.replicate (numQuadPoints order 1 0).1 0) = some (pts, wts) ∧
      pts.Pairwise (· < ·) ∧ (∀ x ∈ pts, -1 < x ∧ x < 1) ∧ pts.reverse = pts.map (- ·) ∧
      (∀ w ∈ wts, 0 < w) ∧ wts.reverse = wts) ↔ order ≠ 36 ∧ order ≠ 37 := by
  constructor
  · rintro ⟨pts, wts, h1, h2, -⟩
    by_contra hc
    have ho : order = 36 ∨ order = 37 := by omega
    obtain ⟨p, w, h3, h15, ⟨x, h14, hx⟩, -⟩ := C23_order_36_37_fails order ho
    rw [h1] at h3
    obtain ⟨rfl, rfl⟩ := Prod.mk.inj (Option.some.inj h3)
    obtain ⟨l14, e14⟩ := List.getElem?_eq_some_iff.1 h14
    obtain ⟨l15, e15⟩ := List.getElem?_eq_some_iff.1 h15
    have := List.pairwise_iff_getElem.1 h2 14 15 l14 l15 (by norm_num)
    rw [e14, e15] at this
    linarith
  · rintro ⟨h6, h7⟩
    obtain ⟨pts, wts, h1, -, -, h2⟩ := C24_points_and_weights order h h6 h7
      (List.replicate (numQuadPoints order 1 0).1 0) (List.replicate (numQuadPoints order 1 0).1 0)
      (by simp) (by simp)
    exact ⟨pts, wts, h1, h2⟩

/-- **C23** (negation, any view).  Whatever the view held, orders 36 and 37 leave entry 15 of the
points as it was. -/
theorem C23_order_36_37_unset (order : ℕ) (ho : order = 36 ∨ order = 37) (view out : List ℝ)
    (h : glNodes order view = some out) : out[15]? = view[15]? := by
  obtain ⟨e1, e2, s1, -, -, -, -, -, h15, -⟩ := writes36
  obtain ⟨px, hpx⟩ := Option.isSome_iff_exists.1 s1
  have hp : glNodeWrites order = some px := by rcases ho with rfl | rfl; exacts [hpx, e1.trans hpx]
  rw [hpx, Option.getD_some] at h15
  unfold glNodes at h; rw [hp] at h
  exact applyWrites_untouched px view out 15 h h15

/-! ### C25 -/

theorem tables_sizes : ∀ order < 50, ∃ px wx, glNodeWrites order = some px ∧
    glWeightWrites order = some wx ∧ (∀ a ∈ px, a.1 < order / 2 + 1) ∧
    wx.map Prod.fst = List.range (order / 2 + 1) ∧ px.length = order / 2 + 1 := by
  have h : ∀ order < 50, (match glNodeWrites order, glWeightWrites order with
      | some px, some wx => px.all (fun a => decide (a.1 < order / 2 + 1)) &&
          decide (wx.map Prod.fst = List.range (order / 2 + 1)) && decide (px.length = order / 2 + 1)
      | _, _ => false) = true := by decide +kernel
  intro order ho
  have := h order ho
  split at this
  · rename_i px wx hp hw
    simp only [Bool.and_eq_true, List.all_eq_true, decide_eq_true_eq] at this
    exact ⟨px, wx, hp, hw, this.1.1, this.1.2, this.2⟩
  · exact absurd this (by simp)

theorem applyWrites_inBounds {K : Type} [Field K] (ws : List (ℕ × ℤ)) (view : List K)
    (h : ∀ a ∈ ws, a.1 < view.length) : ∃ out, applyWrites ws view = some out ∧
      out.length = view.length := by
  induction ws generalizing view with
  | nil => exact ⟨view, rfl, rfl⟩
  | cons w ws ih =>
    unfold applyWrites
    rw [List.foldlM_cons, setB_of_lt (h w (by simp))]
    obtain ⟨out, h1, h2⟩ := ih (view.set w.1 (gaussVal w.2))
      (fun a ha => by rw [List.length_set]; exact h a (by simp [ha]))
    exact ⟨out, h1, by rw [h2, List.length_set]⟩

theorem applyWrites_oob {K : Type} [Field K] (ws : List (ℕ × ℤ)) (view : List K)
    (a : ℕ × ℤ) (ha : a ∈ ws) (h : view.length ≤ a.1) : applyWrites ws view = none := by
  induction ws generalizing view with
  | nil => simp at ha
  | cons w ws ih =>
    unfold applyWrites
    rw [List.foldlM_cons]
    by_cases hw : w.1 < view.length
    · rw [setB_of_lt hw]
      rcases List.mem_cons.1 ha with rfl | h1
      · omega
      · exact ih _ h1 (by rw [List.length_set]; exact h)
    · simp [setB, hw]

/-- **C25** (sizes).  For every order: the announced number of points in 1D is `order/2 + 1` whatever
the output variable held, and in `d` dimensions its `d`-th power.  For every order of the tables, views
of the announced size are filled without out-of-bounds access, and a weight view one entry shorter is
accessed out of bounds. -/
theorem C25_sizes (order ndims nq0 : ℕ) :
    numQuadPoints order ndims nq0 = (order / 2 + 1, (order / 2 + 1) ^ ndims) ∧
    (order < 50 → ∀ vp vw : List ℝ, vp.length = (numQuadPoints order 1 nq0).1 →
      vw.length = (numQuadPoints order 1 nq0).1 →
      (∃ pts wts, segmentGL order vp vw = some (pts, wts) ∧ pts.length = vp.length ∧
        wts.length = vw.length) ∧
      segmentGL order vp vw.tail = none) := by
  have e : numQuadPoints order ndims nq0 = (order / 2 + 1, (order / 2 + 1) ^ ndims) := by
    have h := numQuadPoints_fst order ndims nq0
    ext
    · exact h
    · rw [← h]; rfl
  refine ⟨e, fun ho vp vw hp hw => ?_⟩
  rw [numQuadPoints_fst] at hp hw
  obtain ⟨px, wx, h1, h2, h3, h4, h5⟩ := tables_sizes order ho
  obtain ⟨pts, a1, a2⟩ := applyWrites_inBounds px vp (fun a ha => by rw [hp]; exact h3 a ha)
  obtain ⟨wts, b1, b2⟩ := applyWrites_inBounds wx vw (fun a ha => by
    have : a.1 ∈ wx.map Prod.fst := List.mem_map.2 ⟨a, ha, rfl⟩
    rw [h4] at this; rw [hw]; exact List.mem_range.1 this)
  refine ⟨⟨pts, wts, ?_, a2, b2⟩, ?_⟩
  · unfold segmentGL glNodes glWeights; rw [h1, h2]; simp only [a1, b1]; rfl
  · have hm : order / 2 ∈ wx.map Prod.fst := by rw [h4]; simp
    obtain ⟨a, ha, hae⟩ := List.mem_map.1 hm
    have hn := applyWrites_oob wx vw.tail a ha (by rw [hae, List.length_tail, hw]; omega)
    unfold segmentGL glNodes glWeights; rw [h1, h2]; simp only [a1, hn]; rfl

theorem tables_end : ∀ order, 50 ≤ order → glNodeWrites order = none ∧ glWeightWrites order = none := by
  intro order h
  obtain ⟨k, rfl⟩ := Nat.exists_eq_add_of_le h
  rw [Nat.add_comm]
  exact ⟨rfl, rfl⟩

/-- **C25** (orders outside the tables).  From order 50 on nothing is written: the views keep what
they held. -/
theorem C25_above_tables_unset (order : ℕ) (h : 50 ≤ order) (vp vw : List ℝ) :
    segmentGL order vp vw = some (vp, vw) := by
  obtain ⟨h1, h2⟩ := tables_end order h
  unfold segmentGL glNodes glWeights; rw [h1, h2]; rfl

/-- **C25** (solution orders).  For solution order `p` the solver integrates with the rules of order
`4p+3` (mass matrices, initial condition and error, both element types), `2p+3` (residual) and `2p+1` /
`2p+3` (faces of quadrilaterals / hexahedra).  All of these are in the tables, and none is one of the
two broken ones, for every `p ≤ 11`; from `p = 12` on the mass matrix rule is outside the tables (and
then left unset, `C25_above_tables_unset`). -/
theorem C25_solution_orders (p : ℕ) :
    (quadGaussOrder (2 * p) = gaussOrder (2 * p)) ∧
    (p ≤ 11 → ∀ o ∈ [quadGaussOrder (2 * p), gaussOrder (2 * p), quadGaussOrder p, gaussOrder p, segGaussOrder p],
      o < 50 ∧ o ≠ 36 ∧ o ≠ 37) ∧
    (12 ≤ p → 50 ≤ quadGaussOrder (2 * p) ∧ 50 ≤ gaussOrder (2 * p)) ∧
    (numQuadPoints (gaussOrder (2 * p)) 1 0).1 = 2 * p + 2 ∧ (numQuadPoints (gaussOrder p) 1 0).1 = p + 2 ∧
    (numQuadPoints (segGaussOrder p) 1 0).1 = p + 1 := by
  refine ⟨?_, ?_, ?_, ?_, ?_, ?_⟩
  · unfold quadGaussOrder segGaussOrder gaussOrder; omega
  · intro h o ho
    simp only [List.mem_cons, List.not_mem_nil, or_false, quadGaussOrder, segGaussOrder, gaussOrder] at ho
    omega
  · unfold quadGaussOrder segGaussOrder gaussOrder; omega
  · rw [numQuadPoints_fst]; unfold gaussOrder; omega
  · rw [numQuadPoints_fst]; unfold gaussOrder; omega
  · rw [numQuadPoints_fst]; unfold segGaussOrder; omega

end DG
