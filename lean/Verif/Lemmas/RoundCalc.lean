import Verif.Spec.Rounding
import Verif.Lemmas.LipCalc

/-!
Rounded computations that follow exact ones: the error is of the order of the unit roundoff.
-/
open Set Filter Topology Asymptotics
namespace DG

/-- a family of arithmetics of growing precision and range -/
structure Fine {ι : Type*} (l : Filter ι) (A : ι → Arith) : Prop where
  u : Tendsto (fun i => (A i).u) l (𝓝 0)
  big : Tendsto (fun i => (A i).big) l atTop

/-- the computed numbers `a` follow the exact numbers `x`, which tend to `x0` -/
structure Tr {ι : Type*} (l : Filter ι) (A : ι → Arith) (a : ∀ i, (A i).K) (x : ι → ℝ) (x0 : ℝ) : Prop where
  lim : Tendsto x l (𝓝 x0)
  fin : ∀ᶠ i in l, (A i).fin (a i)
  err : (fun i => (A i).val (a i) - x i) =O[l] fun i => (A i).u

section
variable {ι : Type*} {l : Filter ι} {A : ι → Arith} {a b : ∀ i, (A i).K} {x y : ι → ℝ} {x0 y0 : ℝ}

theorem Tr.val_lim (hA : Fine l A) (h : Tr l A a x x0) : Tendsto (fun i => (A i).val (a i)) l (𝓝 x0) := by
  have h1 := h.lim.add (h.err.trans_tendsto hA.u)
  rw [add_zero] at h1
  exact h1.congr fun i => by ring

theorem Fine.u_nonneg (i : ι) : 0 ≤ (A i).u := (A i).u_nonneg

/-- the result of a rounded operation -/
theorem Tr.ofRounds (hA : Fine l A) {r : ∀ i, (A i).K} {e t : ι → ℝ} {t0 : ℝ} (ht : Tendsto t l (𝓝 t0))
    (he : (fun i => e i - t i) =O[l] fun i => (A i).u)
    (hr : ∀ᶠ i in l, |e i| ≤ (A i).big → (A i).fin (r i) ∧ Rounds (A i).u (e i) ((A i).val (r i))) :
    Tr l A r t t0 := by
  have h1 := ht.add (he.trans_tendsto hA.u)
  rw [add_zero] at h1
  have h2 : Tendsto e l (𝓝 t0) := h1.congr fun i => by ring
  have h3 : ∀ᶠ i in l, |e i| ≤ |t0| + 1 := by
    have := h2.abs.eventually (Iio_mem_nhds (lt_add_one |t0|))
    exact this.mono fun i hi => le_of_lt hi
  have h4 : ∀ᶠ i in l, |t0| + 1 ≤ (A i).big := hA.big.eventually_ge_atTop _
  have h5 : ∀ᶠ i in l, (A i).u ≤ 1 := (hA.u.eventually (Iio_mem_nhds one_pos)).mono fun i hi => le_of_lt hi
  have hfin : ∀ᶠ i in l, (A i).fin (r i) ∧ Rounds (A i).u (e i) ((A i).val (r i)) := by
    filter_upwards [h3, h4, hr] with i a b c using c (a.trans b)
  refine ⟨ht, hfin.mono fun i hi => hi.1, ?_⟩
  have k1 : (fun i => (A i).val (r i) - e i) =O[l] fun i => (A i).u := by
    refine IsBigO.of_bound (|t0| + 2) ?_
    filter_upwards [hfin, h3, h5] with i c1 c2 c3
    have hu := (A i).u_nonneg
    rw [Real.norm_eq_abs, Real.norm_of_nonneg hu]
    refine c1.2.1.trans ?_
    nlinarith [mul_le_mul_of_nonneg_left c2 hu, abs_nonneg (e i)]
  exact (k1.add he).congr_left fun i => by ring

/-- locally Lipschitz functions of two arguments -/
theorem lip_bigO {φ : ℝ × ℝ → ℝ} (hφ : LipAt φ (x0, y0)) (hA : Fine l A) (ha : Tr l A a x x0) (hb : Tr l A b y y0) :
    (fun i => φ ((A i).val (a i), (A i).val (b i)) - φ (x i, y i)) =O[l] fun i => (A i).u := by
  obtain ⟨K, s, hs, hL⟩ := hφ
  have m1 : ∀ᶠ i in l, ((A i).val (a i), (A i).val (b i)) ∈ s :=
    ((ha.val_lim hA).prodMk_nhds (hb.val_lim hA)).eventually hs
  have m2 : ∀ᶠ i in l, (x i, y i) ∈ s := (ha.lim.prodMk_nhds hb.lim).eventually hs
  have k : (fun i => φ ((A i).val (a i), (A i).val (b i)) - φ (x i, y i)) =O[l]
      fun i => (((A i).val (a i) - x i, (A i).val (b i) - y i) : ℝ × ℝ) := by
    refine IsBigO.of_bound K ?_
    filter_upwards [m1, m2] with i c1 c2
    have := hL.dist_le_mul _ c1 _ c2
    rw [dist_eq_norm, dist_eq_norm] at this
    exact this
  exact k.trans (ha.err.prod_left hb.err)

theorem lip_bigO1 {φ : ℝ → ℝ} (hφ : LipAt φ x0) (hA : Fine l A) (ha : Tr l A a x x0) :
    (fun i => φ ((A i).val (a i)) - φ (x i)) =O[l] fun i => (A i).u :=
  lip_bigO (φ := fun p => φ p.1) (y0 := x0) (LipAt.comp (g := φ) (f := Prod.fst) hφ
    (lipAt_of_lipschitz LipschitzWith.prod_fst _)) hA ha ha

theorem lip1 (p : ℝ × ℝ) : LipAt (fun q : ℝ × ℝ => q.1) p := lipAt_of_lipschitz LipschitzWith.prod_fst _
theorem lip2 (p : ℝ × ℝ) : LipAt (fun q : ℝ × ℝ => q.2) p := lipAt_of_lipschitz LipschitzWith.prod_snd _

theorem Tr.add (hA : Fine l A) (ha : Tr l A a x x0) (hb : Tr l A b y y0) :
    Tr l A (fun i => a i + b i) (fun i => x i + y i) (x0 + y0) := by
  refine Tr.ofRounds hA (ha.lim.add hb.lim)
    (lip_bigO (φ := fun p => p.1 + p.2) ((lip1 _).add (lip2 _)) hA ha hb) ?_
  filter_upwards [ha.fin, hb.fin] with i c1 c2 using (A i).add _ _ c1 c2

theorem Tr.sub (hA : Fine l A) (ha : Tr l A a x x0) (hb : Tr l A b y y0) :
    Tr l A (fun i => a i - b i) (fun i => x i - y i) (x0 - y0) := by
  refine Tr.ofRounds hA (ha.lim.sub hb.lim)
    (lip_bigO (φ := fun p => p.1 - p.2) ((lip1 _).sub (lip2 _)) hA ha hb) ?_
  filter_upwards [ha.fin, hb.fin] with i c1 c2 using (A i).sub _ _ c1 c2

theorem Tr.mul (hA : Fine l A) (ha : Tr l A a x x0) (hb : Tr l A b y y0) :
    Tr l A (fun i => a i * b i) (fun i => x i * y i) (x0 * y0) := by
  refine Tr.ofRounds hA (ha.lim.mul hb.lim)
    (lip_bigO (φ := fun p => p.1 * p.2) ((lip1 _).mul (lip2 _)) hA ha hb) ?_
  filter_upwards [ha.fin, hb.fin] with i c1 c2 using (A i).mul _ _ c1 c2

theorem Tr.div (hA : Fine l A) (ha : Tr l A a x x0) (hb : Tr l A b y y0) (h0 : y0 ≠ 0) :
    Tr l A (fun i => a i / b i) (fun i => x i / y i) (x0 / y0) := by
  refine Tr.ofRounds hA (ha.lim.div hb.lim h0)
    (lip_bigO (φ := fun p => p.1 / p.2) ((lip1 _).div (lip2 _) h0) hA ha hb) ?_
  filter_upwards [ha.fin, hb.fin, (hb.val_lim hA).eventually_ne h0] with i c1 c2 c3 using
    (A i).div _ _ c1 c2 c3

theorem Tr.neg (ha : Tr l A a x x0) : Tr l A (fun i => -a i) (fun i => -x i) (-x0) := by
  refine ⟨ha.lim.neg, ha.fin.mono fun i hi => ((A i).neg _ hi).1, ?_⟩
  refine ha.err.neg_left.congr' (ha.fin.mono fun i hi => ?_) EventuallyEq.rfl
  simp only [((A i).neg _ hi).2]; ring

theorem Tr.sqrt (hA : Fine l A) (ha : Tr l A a x x0) (h0 : 0 < x0) :
    Tr l A (fun i => HasSqrt.sqrt (a i)) (fun i => Real.sqrt (x i)) (Real.sqrt x0) := by
  have hL : LipAt Real.sqrt x0 := lipAt_of_contDiffAt (Real.contDiffAt_sqrt h0.ne')
  refine Tr.ofRounds hA ha.lim.sqrt (lip_bigO1 hL hA ha) ?_
  filter_upwards [ha.fin, (ha.val_lim hA).eventually (lt_mem_nhds h0)] with i c1 c2 c3
  rw [abs_of_nonneg (Real.sqrt_nonneg _)] at c3
  exact (A i).sqrt _ c1 (le_of_lt c2) c3

theorem Tr.zero : Tr l A (fun _ => 0) (fun _ => 0) 0 :=
  ⟨tendsto_const_nhds, Eventually.of_forall fun i => (A i).zero.1,
    IsBigO.of_bound 0 (Eventually.of_forall fun i => by rw [(A i).zero.2]; simp)⟩

theorem Tr.one : Tr l A (fun _ => 1) (fun _ => 1) 1 :=
  ⟨tendsto_const_nhds, Eventually.of_forall fun i => (A i).one.1,
    IsBigO.of_bound 0 (Eventually.of_forall fun i => by rw [(A i).one.2]; simp)⟩

theorem Tr.nat (hA : Fine l A) (n : ℕ) : Tr l A (fun i => ((n : ℕ) : (A i).K)) (fun _ => (n : ℝ)) n := by
  refine Tr.ofRounds hA tendsto_const_nhds (e := fun _ => (n : ℝ)) (by simpa using isBigO_zero _ _) ?_
  refine Eventually.of_forall fun i hi => (A i).cast n ?_
  rwa [abs_of_nonneg (by positivity)] at hi

theorem Tr.ofNat (hA : Fine l A) (n : ℕ) [n.AtLeastTwo] :
    Tr l A (fun i => (OfNat.ofNat n : (A i).K)) (fun _ => (OfNat.ofNat n : ℝ)) (OfNat.ofNat n) := Tr.nat hA n

theorem Tr.lit (hA : Fine l A) (n : ℤ) (k : ℕ) :
    Tr l A (fun i => (DecLit.ofDec n k : (A i).K)) (fun _ => (n : ℝ) / 10 ^ k) ((n : ℝ) / 10 ^ k) :=
  Tr.ofRounds hA tendsto_const_nhds (e := fun _ => (n : ℝ) / 10 ^ k) (by simpa using isBigO_zero _ _)
    (Eventually.of_forall fun i hi => (A i).lit n k hi)

theorem Tr.half (hA : Fine l A) : Tr l A (fun _ => 1 / 2) (fun _ => 1 / 2) (1 / 2) :=
  Tr.one.div hA (Tr.ofNat hA 2) two_ne_zero

theorem Tr.congr {a' : ∀ i, (A i).K} {x' : ι → ℝ} (h : Tr l A a x x0) (ha : ∀ᶠ i in l, a' i = a i)
    (hx : ∀ᶠ i in l, x' i = x i) : Tr l A a' x' x0 := by
  refine ⟨h.lim.congr' (hx.mono fun i hi => hi.symm), ?_, ?_⟩
  · filter_upwards [h.fin, ha] with i c1 c2
    rwa [c2]
  · refine h.err.congr' ?_ EventuallyEq.rfl
    filter_upwards [ha, hx] with i c1 c2
    rw [c1, c2]

/-- loops -/
theorem Tr.loop (hA : Fine l A) {n : ℕ} {F : ∀ i, ℕ → (A i).K} {X : ℕ → ι → ℝ} {X0 : ℕ → ℝ}
    (h : ∀ j < n, Tr l A (fun i => F i j) (X j) (X0 j)) :
    Tr l A (fun i => loopSum n (F i)) (fun i => ∑ j ∈ Finset.range n, X j i) (∑ j ∈ Finset.range n, X0 j) := by
  unfold loopSum
  induction n with
  | zero => simpa using Tr.zero
  | succ n ih =>
    simp only [List.range_succ, List.foldl_append, List.foldl_cons, List.foldl_nil, Finset.sum_range_succ]
    exact (ih fun j hj => h j (by omega)).add hA (h n (by omega))

theorem Tr.fold (hA : Fine l A) {n : ℕ} {F : ∀ i, ℕ → (A i).K} {X : ℕ → ι → ℝ} {X0 : ℕ → ℝ}
    (h : ∀ j < n, Tr l A (fun i => F i j) (X j) (X0 j)) (ha : Tr l A a x x0) :
    Tr l A (fun i => (List.range n).foldl (fun acc j => acc + F i j) (a i))
      (fun i => x i + ∑ j ∈ Finset.range n, X j i) (x0 + ∑ j ∈ Finset.range n, X0 j) := by
  induction n with
  | zero => simpa using ha
  | succ n ih =>
    simp only [List.range_succ, List.foldl_append, List.foldl_cons, List.foldl_nil, Finset.sum_range_succ, ← add_assoc]
    exact (ih fun j hj => h j (by omega)).add hA (h n (by omega))

/-! ### comparisons -/

theorem Tr.ev_lt (hA : Fine l A) (ha : Tr l A a x x0) (hb : Tr l A b y y0) (h : x0 < y0) :
    ∀ᶠ i in l, a i < b i ∧ ¬ b i ≤ a i ∧ a i ≤ b i ∧ ¬ b i < a i ∧ x i < y i := by
  filter_upwards [ha.fin, hb.fin, (ha.val_lim hA).eventually_lt (hb.val_lim hA) h, ha.lim.eventually_lt hb.lim h]
    with i c1 c2 c3 c4
  exact ⟨((A i).lt _ _ c1 c2).2 c3, fun hh => absurd (((A i).le _ _ c2 c1).1 hh) (not_le.2 c3),
    ((A i).le _ _ c1 c2).2 c3.le, fun hh => absurd (((A i).lt _ _ c2 c1).1 hh) (not_lt.2 c3.le), c4⟩

/-- a decision that the rounding can reverse, between two expressions that are close where it is made -/
theorem Tr.switch {c : ∀ i, (A i).K} {z : ι → ℝ} {z0 B : ℝ} {p P : ι → Prop} [DecidablePred p] [DecidablePred P]
    (ha : Tr l A a x x0) (hb : Tr l A b y x0) (hc : Tr l A c z z0)
    (hm : ∀ᶠ i in l, ¬(p i ↔ P i) → |x i - y i| ≤ B * |(A i).val (c i) - z i|) :
    Tr l A (fun i => if p i then a i else b i) (fun i => if P i then x i else y i) x0 := by
  refine ⟨ha.lim.if' hb.lim, ?_, ?_⟩
  · filter_upwards [ha.fin, hb.fin] with i c1 c2
    split_ifs
    · exact c1
    · exact c2
  · have k : (fun i => (A i).val (if p i then a i else b i) - (if P i then x i else y i)) =O[l]
        fun i => |(A i).val (a i) - x i| + |(A i).val (b i) - y i| + |(A i).val (c i) - z i| := by
      refine IsBigO.of_bound (1 + |B|) ?_
      filter_upwards [hm] with i hi
      set ea := (A i).val (a i) - x i
      set eb := (A i).val (b i) - y i
      set ec := (A i).val (c i) - z i
      rw [Real.norm_eq_abs, Real.norm_of_nonneg (by positivity)]
      have q1 : 0 ≤ |B| * |ea| := by positivity
      have q2 : 0 ≤ |B| * |eb| := by positivity
      have q3 : B * |ec| ≤ |B| * |ec| := mul_le_mul_of_nonneg_right (le_abs_self B) (abs_nonneg _)
      have n1 := abs_nonneg ea
      have n2 := abs_nonneg eb
      have n3 := abs_nonneg ec
      have n4 : 0 ≤ |B| * |ec| := by positivity
      by_cases h1 : p i <;> by_cases h2 : P i
      · simp only [h1, h2, if_true]
        show |ea| ≤ _
        nlinarith
      · simp only [h1, h2, if_true, if_false]
        have h3 := hi (by simp [h1, h2])
        have h4 : |(A i).val (a i) - y i| ≤ |ea| + |x i - y i| := by
          have := abs_add_le ea (x i - y i)
          rwa [show ea + (x i - y i) = (A i).val (a i) - y i by simp only [ea]; ring] at this
        nlinarith
      · simp only [h1, h2, if_true, if_false]
        have h3 := hi (by simp [h1, h2])
        have h4 : |(A i).val (b i) - x i| ≤ |eb| + |x i - y i| := by
          have := abs_sub eb (x i - y i)
          rwa [show eb - (x i - y i) = (A i).val (b i) - x i by simp only [eb]; ring] at this
        nlinarith
      · simp only [h1, h2, if_false]
        show |eb| ≤ _
        nlinarith
    exact k.trans ((ha.err.norm_left.add hb.err.norm_left).add hc.err.norm_left)

theorem Tr.max' (hA : Fine l A) (ha : Tr l A a x x0) (hb : Tr l A b y y0) :
    Tr l A (fun i => if a i < b i then b i else a i) (fun i => max (x i) (y i)) (max x0 y0) := by
  refine ⟨ha.lim.max hb.lim, ?_, ?_⟩
  · filter_upwards [ha.fin, hb.fin] with i c1 c2
    split_ifs
    · exact c2
    · exact c1
  · refine (lip_bigO (φ := fun p => max p.1 p.2) ((lip1 _).max (lip2 _)) hA ha hb).congr' ?_ EventuallyEq.rfl
    filter_upwards [ha.fin, hb.fin] with i c1 c2
    have := (A i).lt _ _ c1 c2
    split_ifs with h
    · rw [max_eq_right (this.1 h).le]
    · rw [max_eq_left (not_lt.1 fun hh => h (this.2 hh))]

end
end DG
