import Verif.Lemmas.RoundResidual
import Verif.Lemmas.LipFlux

/-!
The fluxes in rounded arithmetic follow the exact fluxes.
-/
open Set Filter Topology Asymptotics
namespace DG

noncomputable instance : HasSqrt ℝ := ⟨Real.sqrt⟩

section
variable {ι : Type*} {l : Filter ι} {A : ι → Arith} {a b : ∀ i, (A i).K} {x y : ι → ℝ} {x0 y0 : ℝ}

theorem Tr.to (h : Tr l A a x x0) {x' : ι → ℝ} {x0' : ℝ} (hx : ∀ i, x i = x' i) (h0 : x0 = x0') : Tr l A a x' x0' := by
  subst h0
  rwa [show x' = x from (funext hx).symm]

theorem Tr.toEv (h : Tr l A a x x0) {x' : ι → ℝ} {x0' : ℝ} (hx : ∀ᶠ i in l, x' i = x i) (h0 : x0 = x0') :
    Tr l A a x' x0' := by
  subst h0
  exact h.congr (Eventually.of_forall fun _ => rfl) hx

/-- one of two results, each close enough to the exact value when it is taken -/
theorem Tr.pick {z : ι → ℝ} {z0 : ℝ} {E : ι → ℝ} {p : ι → Prop} [DecidablePred p]
    (ha : Tr l A a x x0) (hb : Tr l A b y y0) (hz : Tendsto z l (𝓝 z0)) (hE : E =O[l] fun i => (A i).u)
    (hm : ∀ᶠ i in l, (p i → |x i - z i| ≤ E i) ∧ (¬ p i → |y i - z i| ≤ E i)) :
    Tr l A (fun i => if p i then a i else b i) z z0 := by
  refine ⟨hz, ?_, ?_⟩
  · filter_upwards [ha.fin, hb.fin] with i c1 c2
    split_ifs
    · exact c1
    · exact c2
  · have k : (fun i => (A i).val (if p i then a i else b i) - z i) =O[l]
        fun i => |(A i).val (a i) - x i| + |(A i).val (b i) - y i| + |E i| := by
      refine IsBigO.of_bound 1 ?_
      filter_upwards [hm] with i hi
      rw [Real.norm_eq_abs, Real.norm_of_nonneg (by positivity), one_mul]
      have n1 := abs_nonneg ((A i).val (a i) - x i)
      have n2 := abs_nonneg ((A i).val (b i) - y i)
      have n3 := le_abs_self (E i)
      by_cases h1 : p i
      · rw [if_pos h1]
        have := abs_sub_le ((A i).val (a i)) (x i) (z i)
        have := hi.1 h1
        linarith
      · rw [if_neg h1]
        have := abs_sub_le ((A i).val (b i)) (y i) (z i)
        have := hi.2 h1
        linarith
    exact k.trans ((ha.err.norm_left.add hb.err.norm_left).add hE.norm_left)

/-! ### the length of a vector that may vanish -/

/-- accuracy of a sum of squares -/
def Acc (C u S D : ℝ) : Prop := |D - S| ≤ C * (u * S + u ^ 2) ∧ 0 ≤ D

theorem Acc.sq {u v r : ℝ} (h : Rounds u (v * v) r) : Acc 1 u (v * v) r := by
  have h0 := mul_self_nonneg v
  refine ⟨?_, h.2 h0⟩
  have := h.1
  rw [abs_of_nonneg h0] at this
  linarith

theorem Acc.add {C u S S' D D' r : ℝ} (hu : 0 ≤ u) (h1 : u ≤ 1) (hC : 1 ≤ C) (hS : 0 ≤ S) (hS' : 0 ≤ S')
    (h : Acc C u S D) (h' : Acc C u S' D') (hr : Rounds u (D + D') r) : Acc (4 * C + 1) u (S + S') r := by
  refine ⟨?_, hr.2 (add_nonneg h.2 h'.2)⟩
  have e0 := hr.1
  rw [abs_of_nonneg (add_nonneg h.2 h'.2)] at e0
  have e1 := abs_le.1 h.1
  have e2 := abs_le.1 h'.1
  have e3 := abs_le.1 e0
  have u2 : u ^ 2 ≤ u := by nlinarith
  have p1 : 0 ≤ u * S := mul_nonneg hu hS
  have p2 : 0 ≤ u * S' := mul_nonneg hu hS'
  have p3 : 0 ≤ C * (u * S) := by positivity
  have p4 : 0 ≤ C * (u * S') := by positivity
  have p5 : 0 ≤ C * u ^ 2 := by positivity
  have q1 : u * D ≤ u * S + C * (u * S) + C * u ^ 2 := by
    have : u * D ≤ u * (S + C * (u * S + u ^ 2)) := mul_le_mul_of_nonneg_left (by linarith) hu
    have k : u * (C * (u * S + u ^ 2)) ≤ 1 * (C * (u * S + u ^ 2)) :=
      mul_le_mul_of_nonneg_right h1 (by positivity)
    nlinarith
  have q2 : u * D' ≤ u * S' + C * (u * S') + C * u ^ 2 := by
    have : u * D' ≤ u * (S' + C * (u * S' + u ^ 2)) := mul_le_mul_of_nonneg_left (by linarith) hu
    have k : u * (C * (u * S' + u ^ 2)) ≤ 1 * (C * (u * S' + u ^ 2)) :=
      mul_le_mul_of_nonneg_right h1 (by positivity)
    nlinarith
  rw [abs_le]
  constructor <;> nlinarith [sq_nonneg u]

theorem Acc.mono {C C' u S D : ℝ} (hu : 0 ≤ u) (hS : 0 ≤ S) (h : Acc C u S D) (hc : C ≤ C') : Acc C' u S D :=
  ⟨h.1.trans (mul_le_mul_of_nonneg_right hc (by positivity)), h.2⟩

theorem Acc.root {C u S D : ℝ} (hu : 0 ≤ u) (h1 : u ≤ 1) (hC : 1 ≤ C) (hS : 0 ≤ S) (h : Acc C u S D) :
    |Real.sqrt D - Real.sqrt S| ≤ 2 * C * (Real.sqrt S + 1) * u := by
  set r := Real.sqrt S with hr
  set q := Real.sqrt D with hq
  have r0 : 0 ≤ r := Real.sqrt_nonneg _
  have q0 : 0 ≤ q := Real.sqrt_nonneg _
  have r2 : r * r = S := Real.mul_self_sqrt hS
  have q2 : q * q = D := Real.mul_self_sqrt h.2
  have hb := h.1
  rw [← r2, ← q2] at hb
  have e : |q * q - r * r| = |q - r| * (q + r) := by
    rw [show q * q - r * r = (q - r) * (q + r) by ring, abs_mul, abs_of_nonneg (add_nonneg q0 r0)]
  rw [e] at hb
  set t := |q - r| with ht
  have t0 : 0 ≤ t := abs_nonneg _
  have t1 : t ≤ q + r := by
    rw [ht, abs_le]; constructor <;> linarith
  by_contra hcon
  push Not at hcon
  -- t (q + r) > (2C(r+1)u) max(t, r)
  have a1 : t * t ≤ C * (u * (r * r) + u ^ 2) := le_trans (mul_le_mul_of_nonneg_left t1 t0) hb
  have a2 : t * r ≤ C * (u * (r * r) + u ^ 2) := le_trans (mul_le_mul_of_nonneg_left (by linarith) t0) hb
  have m0 : 0 ≤ 2 * C * (r + 1) * u := by positivity
  rcases le_total r u with hru | hru
  · have : (2 * C * (r + 1) * u) * (2 * C * (r + 1) * u) < t * t := by nlinarith
    have k1 : u * (r * r) ≤ u ^ 2 := by nlinarith [mul_le_mul hru hru r0 hu]
    have k2 : 2 * C * u ≤ 2 * C * (r + 1) * u := by nlinarith [mul_nonneg (mul_nonneg (by linarith : (0:ℝ) ≤ C) r0) hu]
    have k3 : (2 * C * u) * (2 * C * u) ≤ (2 * C * (r + 1) * u) * (2 * C * (r + 1) * u) :=
      mul_le_mul k2 k2 (by positivity) m0
    have k4 : C * (u * (r * r) + u ^ 2) ≤ C * (2 * u ^ 2) := mul_le_mul_of_nonneg_left (by linarith) (by linarith)
    have k5 : C * (2 * u ^ 2) ≤ (2 * C * u) * (2 * C * u) := by
      have : 0 ≤ C * u ^ 2 := by positivity
      nlinarith
    linarith
  · rcases eq_or_lt_of_le r0 with h0 | h0
    · have hu0 : u = 0 := le_antisymm (by linarith) hu
      rw [hu0] at a1 hcon
      simp at a1 hcon
      nlinarith
    · have : (2 * C * (r + 1) * u) * r < t * r := mul_lt_mul_of_pos_right hcon h0
      have k1 : u ^ 2 ≤ u * r := by nlinarith
      have k2 : C * (u * (r * r) + u ^ 2) ≤ C * (u * (r * r) + u * r) := mul_le_mul_of_nonneg_left (by linarith) (by linarith)
      have k3 : 0 ≤ C * (u * r * r) := by positivity
      have k4 : 0 ≤ C * (u * r) := by positivity
      nlinarith

theorem lip_bigOn {n : ℕ} {φ : (Fin n → ℝ) → ℝ} {v : ∀ i, ℕ → (A i).K} {X : ι → ℕ → ℝ} {X0 : ℕ → ℝ}
    (hφ : LipAt φ (fun k => X0 k)) (hA : Fine l A) (hv : TrVec l A v X X0) :
    (fun i => φ (fun k => (A i).val (v i k)) - φ (fun k => X i k)) =O[l] fun i => (A i).u := by
  obtain ⟨K, s, hs, hL⟩ := hφ
  have m1 : ∀ᶠ i in l, (fun k : Fin n => (A i).val (v i k)) ∈ s :=
    (tendsto_pi_nhds.2 fun k : Fin n => (hv k).val_lim hA).eventually hs
  have m2 : ∀ᶠ i in l, (fun k : Fin n => X i k) ∈ s := (tendsto_pi_nhds.2 fun k : Fin n => (hv k).lim).eventually hs
  have k : (fun i => φ (fun k => (A i).val (v i k)) - φ (fun k => X i k)) =O[l]
      fun i => (fun k : Fin n => (A i).val (v i k) - X i k) := by
    refine IsBigO.of_bound K ?_
    filter_upwards [m1, m2] with i c1 c2
    have := hL.dist_le_mul _ c1 _ c2
    rw [dist_eq_norm, dist_eq_norm] at this
    exact this
  exact k.trans (isBigO_pi.2 fun k => (hv k).err)

theorem Fine.ev_one (hA : Fine l A) : ∀ᶠ i in l, (A i).u ≤ 1 :=
  (hA.u.eventually (Iio_mem_nhds one_pos)).mono fun _ hi => le_of_lt hi

variable {dim : ℕ}

theorem fl_dot (hd : dim = 2 ∨ dim = 3) (a b : ℕ → ℝ) : Fl.dot dim a b = inner' dim a b := by
  rcases hd with rfl | rfl
  · simp [Fl.dot, dot2, inner', Finset.sum_range_succ]
  · simp [Fl.dot, dot3, inner', Finset.sum_range_succ]

theorem dot_tr (hA : Fine l A) (hd : dim = 2 ∨ dim = 3) {v w : ∀ i, ℕ → (A i).K} {X Y : ι → ℕ → ℝ} {X0 Y0 : ℕ → ℝ}
    (hv : TrVec l A v X X0) (hw : TrVec l A w Y Y0) :
    Tr l A (fun i => Fl.dot dim (v i) (w i)) (fun i => inner' dim (X i) (Y i)) (inner' dim X0 Y0) := by
  rcases hd with rfl | rfl
  · have := ((hv 0).mul hA (hw 0)).add hA ((hv 1).mul hA (hw 1))
    exact this.to (fun i => by simp [inner', Finset.sum_range_succ]) (by simp [inner', Finset.sum_range_succ])
  · have := (((hv 0).mul hA (hw 0)).add hA ((hv 1).mul hA (hw 1))).add hA ((hv 2).mul hA (hw 2))
    exact this.to (fun i => by simp [inner', Finset.sum_range_succ]) (by simp [inner', Finset.sum_range_succ])

/-- the computed sum of squares is accurate relative to the squares of the computed numbers -/
theorem dot_acc (hA : Fine l A) (hd : dim = 2 ∨ dim = 3) {v : ∀ i, ℕ → (A i).K} {X : ι → ℕ → ℝ} {X0 : ℕ → ℝ}
    (hv : TrVec l A v X X0) :
    ∀ᶠ i in l, (A i).fin (Fl.dot dim (v i) (v i)) ∧ Acc 21 (A i).u (inner' dim (fun k => (A i).val (v i k)) (fun k => (A i).val (v i k)))
      ((A i).val (Fl.dot dim (v i) (v i))) := by
  have bnd : ∀ {a : ∀ i, (A i).K} {x : ι → ℝ} {x0 : ℝ} {b : ∀ i, (A i).K} {y : ι → ℝ} {y0 : ℝ},
      Tr l A a x x0 → Tr l A b y y0 → ∀ᶠ i in l, |(A i).val (a i) + (A i).val (b i)| ≤ (A i).big := by
    intro a x x0 b y y0 ha hb
    have h2 := (ha.val_lim hA).add (hb.val_lim hA)
    filter_upwards [h2.abs.eventually (Iio_mem_nhds (lt_add_one |x0 + y0|)), hA.big.eventually_ge_atTop (|x0 + y0| + 1)]
      with i c1 c2 using (le_of_lt c1).trans c2
  have sq : ∀ k, ∀ᶠ i in l, (A i).fin (v i k * v i k) ∧
      Acc 1 (A i).u ((A i).val (v i k) * (A i).val (v i k)) ((A i).val (v i k * v i k)) := by
    intro k
    have h2 := ((hv k).val_lim hA).mul ((hv k).val_lim hA)
    filter_upwards [(hv k).fin, h2.abs.eventually (Iio_mem_nhds (lt_add_one |X0 k * X0 k|)),
      hA.big.eventually_ge_atTop (|X0 k * X0 k| + 1)] with i c0 c1 c2
    obtain ⟨d1, d2⟩ := (A i).mul _ _ c0 c0 ((le_of_lt c1).trans c2)
    exact ⟨d1, Acc.sq d2⟩
  have t := fun k => (hv k).mul hA (hv k)
  have t01 := (t 0).add hA (t 1)
  have n := fun (i : ι) (k : ℕ) => mul_self_nonneg ((A i).val (v i k))
  rcases hd with rfl | rfl
  · filter_upwards [sq 0, sq 1, bnd (t 0) (t 1), hA.ev_one] with i c0 c1 c2 c3
    obtain ⟨d1, d2⟩ := (A i).add _ _ c0.1 c1.1 c2
    have hu := (A i).u_nonneg
    have := Acc.add hu c3 le_rfl (n i 0) (n i 1) c0.2 c1.2 d2
    refine ⟨d1, ?_⟩
    have h5 := this.mono hu (add_nonneg (n i 0) (n i 1)) (by norm_num : (4 * 1 + 1 : ℝ) ≤ 21)
    simpa [inner', Finset.sum_range_succ, Fl.dot, dot2] using h5
  · filter_upwards [sq 0, sq 1, sq 2, bnd (t 0) (t 1), bnd t01 (t 2), hA.ev_one] with i c0 c1 c1' c2 c2' c3
    obtain ⟨d1, d2⟩ := (A i).add _ _ c0.1 c1.1 c2
    obtain ⟨d1', d2'⟩ := (A i).add _ _ d1 c1'.1 c2'
    have hu := (A i).u_nonneg
    have h5 := Acc.add hu c3 le_rfl (n i 0) (n i 1) c0.2 c1.2 d2
    have h6 := Acc.add hu c3 (by norm_num) (add_nonneg (n i 0) (n i 1)) (n i 2) h5
      (c1'.2.mono hu (n i 2) (by norm_num : (1 : ℝ) ≤ 4 * 1 + 1)) d2'
    refine ⟨d1', ?_⟩
    have h7 : Acc 21 (A i).u _ _ := h6.mono hu (add_nonneg (add_nonneg (n i 0) (n i 1)) (n i 2)) (by norm_num)
    simpa [inner', Finset.sum_range_succ, Fl.dot, dot3] using h7

theorem length_tr (hA : Fine l A) (hd : dim = 2 ∨ dim = 3) {v : ∀ i, ℕ → (A i).K} {X : ι → ℕ → ℝ} {X0 : ℕ → ℝ}
    (hv : TrVec l A v X X0) :
    Tr l A (fun i => HasSqrt.sqrt (Fl.dot dim (v i) (v i))) (fun i => Real.sqrt (inner' dim (X i) (X i)))
      (Real.sqrt (inner' dim X0 X0)) := by
  set V : ι → ℕ → ℝ := fun i k => (A i).val (v i k) with hV
  have hacc := dot_acc hA hd hv
  have n0 : ∀ w : ℕ → ℝ, 0 ≤ inner' dim w w := fun w => Finset.sum_nonneg fun k _ => mul_self_nonneg _
  have hlip : LipAt (fun w : Fin dim → ℝ => Real.sqrt (∑ k : Fin dim, w k * w k)) (fun k => X0 k) := by
    have := LipAt.length (n := dim) (x := fun k : Fin dim => X0 k)
      (F := fun k w => if h : k < dim then w ⟨k, h⟩ else 0) (fun k hk => by
        simp only [hk, dif_pos]
        exact lipAt_of_lipschitz (LipschitzWith.eval (α := fun _ : Fin dim => ℝ) (⟨k, hk⟩ : Fin dim)) _)
    refine this.congr (Eventually.of_forall fun w => ?_)
    simp only [Finset.sum_range, Fin.is_lt, dif_pos, Fin.eta]
  have e1 := lip_bigOn hlip hA hv
  have e2 : (fun i => Real.sqrt (inner' dim (V i) (V i)) - Real.sqrt (inner' dim (X i) (X i))) =O[l] fun i => (A i).u := by
    refine e1.congr_left fun i => ?_
    simp only [inner', Finset.sum_range, hV]
  have lim : Tendsto (fun i => Real.sqrt (inner' dim (X i) (X i))) l (𝓝 (Real.sqrt (inner' dim X0 X0))) := by
    unfold inner'
    exact (tendsto_finsetSum _ fun k _ => (hv k).lim.mul (hv k).lim).sqrt
  have lim' : Tendsto (fun i => Real.sqrt (inner' dim (V i) (V i))) l (𝓝 (Real.sqrt (inner' dim X0 X0))) := by
    unfold inner'
    exact (tendsto_finsetSum _ fun k _ => ((hv k).val_lim hA).mul ((hv k).val_lim hA)).sqrt
  have e3 : (fun i => Real.sqrt ((A i).val (Fl.dot dim (v i) (v i))) - Real.sqrt (inner' dim (V i) (V i))) =O[l]
      fun i => (A i).u := by
    refine IsBigO.of_bound (2 * 21 * (Real.sqrt (inner' dim X0 X0) + 1 + 1)) ?_
    filter_upwards [hacc, hA.ev_one, lim'.eventually (Iio_mem_nhds (lt_add_one _))] with i c1 c2 c3
    have hu := (A i).u_nonneg
    rw [Real.norm_eq_abs, Real.norm_of_nonneg hu]
    refine (Acc.root hu c2 (by norm_num) (n0 _) c1.2).trans ?_
    refine mul_le_mul_of_nonneg_right ?_ hu
    have : Real.sqrt (inner' dim (V i) (V i)) < Real.sqrt (inner' dim X0 X0) + 1 := c3
    simp only [hV] at this
    linarith
  refine Tr.ofRounds hA (e := fun i => Real.sqrt ((A i).val (Fl.dot dim (v i) (v i)))) lim
    ((e3.add e2).congr_left fun i => by ring) ?_
  filter_upwards [hacc] with i c1 c2
  rw [abs_of_nonneg (Real.sqrt_nonneg _)] at c2
  exact (A i).sqrt _ c1.1 c1.2.2 c2

/-! ### the physics routines -/

variable {γ : ℝ} {g : ∀ i, (A i).K} {v : ∀ i, ℕ → (A i).K} {X : ι → ℕ → ℝ} {X0 : ℕ → ℝ}

theorem TrVec.mom (hv : TrVec l A v X X0) :
    TrVec l A (fun i k => v i (1 + k)) (fun i k => X i (1 + k)) (fun k => X0 (1 + k)) := fun k => hv (1 + k)

theorem pressure_alt (dim : ℕ) (γ : ℝ) (U : ℕ → ℝ) :
    (γ - 1) * (U (dim + 1) - 1 / 2 * (inner' dim (fun k => U (1 + k)) (fun k => U (1 + k)) / U 0)) = pressure dim γ U := by
  unfold pressure internalEnergy
  by_cases h : U 0 = 0
  · simp [h]
  · rw [inner_mom_mom dim U h]
    field_simp

theorem un_alt (dim : ℕ) (U n : ℕ → ℝ) :
    inner' dim (fun k => U (1 + k)) n * (1 / U 0) = inner' dim (vel U) n := by
  unfold inner' vel
  rw [Finset.sum_mul]
  exact Finset.sum_congr rfl fun k _ => by beta_reduce; rw [add_comm 1 k]; ring

theorem pressure_tr (hA : Fine l A) (hd : dim = 2 ∨ dim = 3) (hg : Tr l A g (fun _ => γ) γ) (hv : TrVec l A v X X0)
    (h0 : X0 0 ≠ 0) :
    Tr l A (fun i => Fl.pressure dim (g i) (v i)) (fun i => pressure dim γ (X i)) (pressure dim γ X0) :=
  ((hg.sub hA Tr.one).mul hA ((hv (dim + 1)).sub hA ((Tr.half hA).mul hA
    ((dot_tr hA hd hv.mom hv.mom).div hA (hv 0) h0)))).to (fun i => pressure_alt dim γ (X i)) (pressure_alt dim γ X0)

theorem rinv_tr (hA : Fine l A) (hv : TrVec l A v X X0) (h0 : X0 0 ≠ 0) :
    Tr l A (fun i => 1 / v i 0) (fun i => 1 / X i 0) (1 / X0 0) := Tr.one.div hA (hv 0) h0

theorem un_tr (hA : Fine l A) (hd : dim = 2 ∨ dim = 3) (hv : TrVec l A v X X0) (h0 : X0 0 ≠ 0)
    {n : ∀ i, ℕ → (A i).K} {Y : ι → ℕ → ℝ} {Y0 : ℕ → ℝ} (hn : TrVec l A n Y Y0) :
    Tr l A (fun i => Fl.dot dim (fun k => v i (1 + k)) (n i) * (1 / v i 0)) (fun i => inner' dim (vel (X i)) (Y i))
      (inner' dim (vel X0) Y0) :=
  ((dot_tr hA hd hv.mom hn).mul hA (rinv_tr hA hv h0)).to (fun i => un_alt dim (X i) _) (un_alt dim X0 _)

theorem sound_tr (hA : Fine l A) (hd : dim = 2 ∨ dim = 3) (hγ : 1 < γ) (hg : Tr l A g (fun _ => γ) γ)
    (hv : TrVec l A v X X0) (h : Admissible dim γ X0) :
    Tr l A (fun i => HasSqrt.sqrt (g i * Fl.pressure dim (g i) (v i) * (1 / v i 0))) (fun i => soundSpeed dim γ (X i))
      (soundSpeed dim γ X0) := by
  have h1 := h.ρ_pos
  have h2 := h.p_pos
  refine (((hg.mul hA (pressure_tr hA hd hg hv h1.ne')).mul hA (rinv_tr hA hv h1.ne')).sqrt hA (by positivity)).to
    (fun i => ?_) ?_ <;>
  · unfold soundSpeed
    rw [mul_one_div]

theorem TrVec.ev_pos (hv : TrVec l A v X X0) (h : 0 < X0 0) : ∀ᶠ i in l, 0 < X i 0 :=
  (hv 0).lim.eventually (lt_mem_nhds h)

theorem TrVec.ev_adm (hA : Fine l A) (hd : dim = 2 ∨ dim = 3) (hg : Tr l A g (fun _ => γ) γ) (hv : TrVec l A v X X0)
    (h : Admissible dim γ X0) : ∀ᶠ i in l, Admissible dim γ (X i) := by
  filter_upwards [hv.ev_pos h.ρ_pos, (pressure_tr hA hd hg hv h.ρ_pos.ne').lim.eventually (lt_mem_nhds h.p_pos)]
    with i a b using ⟨a, b⟩

theorem speed_tr (hA : Fine l A) (hd : dim = 2 ∨ dim = 3) (hγ : 1 < γ) (hg : Tr l A g (fun _ => γ) γ)
    (hv : TrVec l A v X X0) (h : Admissible dim γ X0) :
    Tr l A (fun i => Fl.maxWaveSpeed dim (g i) (v i)) (fun i => maxSpeed dim γ (X i)) (maxSpeed dim γ X0) := by
  have e : ∀ U : ℕ → ℝ, 0 < U 0 → maxSpeed dim γ U =
      Real.sqrt (inner' dim (fun k => U (1 + k)) (fun k => U (1 + k))) * (1 / U 0) + soundSpeed dim γ U := by
    intro U hU
    unfold maxSpeed
    rw [inner_mom_mom dim U hU.ne', Real.sqrt_mul (sq_nonneg _), Real.sqrt_sq hU.le]
    field_simp
  refine (((length_tr hA hd hv.mom).mul hA (rinv_tr hA hv h.ρ_pos.ne')).add hA (sound_tr hA hd hγ hg hv h)).toEv
    ?_ (e X0 h.ρ_pos).symm
  filter_upwards [hv.ev_pos h.ρ_pos] with i hi using e (X i) hi

theorem convFlux_tr (hA : Fine l A) (hd : dim = 2 ∨ dim = 3) (hg : Tr l A g (fun _ => γ) γ)
    (hv : TrVec l A v X X0) (h : 0 < X0 0) (F : ∀ i, ℕ → (A i).K) {j s : ℕ} (hj : j < dim) (hs : s < dim + 2) :
    Tr l A (fun i => Fl.convFlux dim (g i) (v i) (F i) (j * (dim + 2) + s))
      (fun i => eulerDirFlux dim γ (X i) (j * (dim + 2) + s)) (eulerDirFlux dim γ X0 (j * (dim + 2) + s)) := by
  have P := pressure_tr hA hd hg hv h.ne'
  have r := rinv_tr hA hv h.ne'
  have t1 := fun a b => ((hv a).mul hA (hv b)).mul hA r
  have t2 := fun a => (t1 a a).add hA P
  have t3 := fun a => (((hv (dim + 1)).add hA P).mul hA (hv a)).mul hA r
  have ev := hv.ev_pos h
  have fin : ∀ {a : ∀ i, (A i).K} {f : (ℕ → ℝ) → ℝ} {k : ℕ}, Tr l A a (fun i => f (X i)) (f X0) →
      (∀ U : ℕ → ℝ, 0 < U 0 → eulerDirFlux dim γ U k = f U) →
      Tr l A a (fun i => eulerDirFlux dim γ (X i) k) (eulerDirFlux dim γ X0 k) := by
    intro a f k ht he
    exact ht.toEv (ev.mono fun i hi => he _ hi) (he X0 h).symm
  rcases hd with rfl | rfl
  · interval_cases j <;> interval_cases s
    · refine fin (f := fun U => U 1) (hv 1) fun U hU => ?_
      have := hU.ne'; simp [eulerDirFlux, eulerFlux, inner', axis, vel, Finset.sum_range_succ]; try field_simp
    · refine fin (f := fun U => U 1 * U 1 * (1 / U 0) + pressure 2 γ U) (t2 1) fun U hU => ?_
      have := hU.ne'; simp [eulerDirFlux, eulerFlux, inner', axis, vel, Finset.sum_range_succ]; try field_simp
    · refine fin (f := fun U => U 1 * U 2 * (1 / U 0)) (t1 1 2) fun U hU => ?_
      have := hU.ne'; simp [eulerDirFlux, eulerFlux, inner', axis, vel, Finset.sum_range_succ]; try field_simp
    · refine fin (f := fun U => (U 3 + pressure 2 γ U) * U 1 * (1 / U 0)) (t3 1) fun U hU => ?_
      have := hU.ne'; simp [eulerDirFlux, eulerFlux, inner', axis, vel, Finset.sum_range_succ]; try field_simp
    · refine fin (f := fun U => U 2) (hv 2) fun U hU => ?_
      have := hU.ne'; simp [eulerDirFlux, eulerFlux, inner', axis, vel, Finset.sum_range_succ]; try field_simp
    · refine fin (f := fun U => U 1 * U 2 * (1 / U 0)) (t1 1 2) fun U hU => ?_
      have := hU.ne'; simp [eulerDirFlux, eulerFlux, inner', axis, vel, Finset.sum_range_succ]; try field_simp
    · refine fin (f := fun U => U 2 * U 2 * (1 / U 0) + pressure 2 γ U) (t2 2) fun U hU => ?_
      have := hU.ne'; simp [eulerDirFlux, eulerFlux, inner', axis, vel, Finset.sum_range_succ]; try field_simp
    · refine fin (f := fun U => (U 3 + pressure 2 γ U) * U 2 * (1 / U 0)) (t3 2) fun U hU => ?_
      have := hU.ne'; simp [eulerDirFlux, eulerFlux, inner', axis, vel, Finset.sum_range_succ]; try field_simp
  · interval_cases j <;> interval_cases s
    · refine fin (f := fun U => U 1) (hv 1) fun U hU => ?_
      have := hU.ne'; simp [eulerDirFlux, eulerFlux, inner', axis, vel, Finset.sum_range_succ]; try field_simp
    · refine fin (f := fun U => U 1 * U 1 * (1 / U 0) + pressure 3 γ U) (t2 1) fun U hU => ?_
      have := hU.ne'; simp [eulerDirFlux, eulerFlux, inner', axis, vel, Finset.sum_range_succ]; try field_simp
    · refine fin (f := fun U => U 1 * U 2 * (1 / U 0)) (t1 1 2) fun U hU => ?_
      have := hU.ne'; simp [eulerDirFlux, eulerFlux, inner', axis, vel, Finset.sum_range_succ]; try field_simp
    · refine fin (f := fun U => U 1 * U 3 * (1 / U 0)) (t1 1 3) fun U hU => ?_
      have := hU.ne'; simp [eulerDirFlux, eulerFlux, inner', axis, vel, Finset.sum_range_succ]; try field_simp
    · refine fin (f := fun U => (U 4 + pressure 3 γ U) * U 1 * (1 / U 0)) (t3 1) fun U hU => ?_
      have := hU.ne'; simp [eulerDirFlux, eulerFlux, inner', axis, vel, Finset.sum_range_succ]; try field_simp
    · refine fin (f := fun U => U 2) (hv 2) fun U hU => ?_
      have := hU.ne'; simp [eulerDirFlux, eulerFlux, inner', axis, vel, Finset.sum_range_succ]; try field_simp
    · refine fin (f := fun U => U 2 * U 1 * (1 / U 0)) (t1 2 1) fun U hU => ?_
      have := hU.ne'; simp [eulerDirFlux, eulerFlux, inner', axis, vel, Finset.sum_range_succ]; try field_simp
    · refine fin (f := fun U => U 2 * U 2 * (1 / U 0) + pressure 3 γ U) (t2 2) fun U hU => ?_
      have := hU.ne'; simp [eulerDirFlux, eulerFlux, inner', axis, vel, Finset.sum_range_succ]; try field_simp
    · refine fin (f := fun U => U 2 * U 3 * (1 / U 0)) (t1 2 3) fun U hU => ?_
      have := hU.ne'; simp [eulerDirFlux, eulerFlux, inner', axis, vel, Finset.sum_range_succ]; try field_simp
    · refine fin (f := fun U => (U 4 + pressure 3 γ U) * U 2 * (1 / U 0)) (t3 2) fun U hU => ?_
      have := hU.ne'; simp [eulerDirFlux, eulerFlux, inner', axis, vel, Finset.sum_range_succ]; try field_simp
    · refine fin (f := fun U => U 3) (hv 3) fun U hU => ?_
      have := hU.ne'; simp [eulerDirFlux, eulerFlux, inner', axis, vel, Finset.sum_range_succ]; try field_simp
    · refine fin (f := fun U => U 3 * U 1 * (1 / U 0)) (t1 3 1) fun U hU => ?_
      have := hU.ne'; simp [eulerDirFlux, eulerFlux, inner', axis, vel, Finset.sum_range_succ]; try field_simp
    · refine fin (f := fun U => U 3 * U 2 * (1 / U 0)) (t1 3 2) fun U hU => ?_
      have := hU.ne'; simp [eulerDirFlux, eulerFlux, inner', axis, vel, Finset.sum_range_succ]; try field_simp
    · refine fin (f := fun U => U 3 * U 3 * (1 / U 0) + pressure 3 γ U) (t2 3) fun U hU => ?_
      have := hU.ne'; simp [eulerDirFlux, eulerFlux, inner', axis, vel, Finset.sum_range_succ]; try field_simp
    · refine fin (f := fun U => (U 4 + pressure 3 γ U) * U 3 * (1 / U 0)) (t3 3) fun U hU => ?_
      have := hU.ne'; simp [eulerDirFlux, eulerFlux, inner', axis, vel, Finset.sum_range_succ]; try field_simp

theorem dirFlux_sum (hd : dim = 2 ∨ dim = 3) (γ : ℝ) (U n : ℕ → ℝ) {s : ℕ} (hs : s < dim + 2) :
    ∑ j ∈ Finset.range dim, eulerDirFlux dim γ U (j * (dim + 2) + s) * n j = eulerFlux dim γ U n s := by
  have e : ∀ j, eulerDirFlux dim γ U (j * (dim + 2) + s) = eulerFlux dim γ U (axis j) s := by
    intro j
    unfold eulerDirFlux
    rw [show j * (dim + 2) + s = s + (dim + 2) * j by ring, Nat.add_mul_div_left _ _ (by omega), Nat.div_eq_of_lt hs,
      Nat.add_mul_mod_self_left, Nat.mod_eq_of_lt hs, zero_add]
  simp only [e]
  rcases hd with rfl | rfl <;> interval_cases s <;>
    simp [eulerFlux, inner', axis, Finset.sum_range_succ] <;> ring

theorem unit_tr (hA : Fine l A) {N : ∀ i, ℕ → (A i).K} {N0 : ℕ → ℝ} (hN : TrVec l A N (fun _ => N0) N0)
    {J : ∀ i, (A i).K} (hJ : Tr l A J (fun _ => Real.sqrt (inner' dim N0 N0)) (Real.sqrt (inner' dim N0 N0)))
    (h0 : Real.sqrt (inner' dim N0 N0) ≠ 0) : TrVec l A (fun i k => N i k / J i) (fun _ => unit dim N0) (unit dim N0) :=
  fun k => (hN k).div hA hJ h0

theorem rusanov_tr (hA : Fine l A) (hd : dim = 2 ∨ dim = 3) (hγ : 1 < γ) (hg : Tr l A g (fun _ => γ) γ)
    (hv : TrVec l A v X X0) {w : ∀ i, ℕ → (A i).K} {Y : ι → ℕ → ℝ} {Y0 : ℕ → ℝ} (hw : TrVec l A w Y Y0)
    {N : ∀ i, ℕ → (A i).K} {N0 : ℕ → ℝ} (hN : TrVec l A N (fun _ => N0) N0)
    (aX : Admissible dim γ X0) (aY : Admissible dim γ Y0) (hn : 0 < inner' dim N0 N0)
    (F F0 : ∀ i, ℕ → (A i).K) {s : ℕ} (hs : s < dim + 2) :
    Tr l A (fun i => Fl.laxFriedrichs dim (g i) (v i) (w i) (N i) (F i) (F0 i) s)
      (fun i => rusanovFlux dim γ (X i) (Y i) N0 s) (rusanovFlux dim γ X0 Y0 N0 s) := by
  have hJ : Tr l A (fun i => HasSqrt.sqrt (loopSum dim fun k => N i k * N i k))
      (fun _ => Real.sqrt (inner' dim N0 N0)) (Real.sqrt (inner' dim N0 N0)) :=
    (Tr.loop hA fun k _ => (hN k).mul hA (hN k)).sqrt hA hn
  have hJ0 : Real.sqrt (inner' dim N0 N0) ≠ 0 := (Real.sqrt_pos.2 hn).ne'
  have hh := unit_tr hA hN hJ hJ0
  have FL : ∀ F : ∀ i, ℕ → (A i).K, Tr l A (fun i => loopSum dim fun d => Fl.convFlux dim (g i) (v i) (F i)
      (s + d * (dim + 2)) * (N i d / HasSqrt.sqrt (loopSum dim fun k => N i k * N i k)))
      (fun i => eulerFlux dim γ (X i) (unit dim N0) s) (eulerFlux dim γ X0 (unit dim N0) s) := by
    intro F
    refine (Tr.loop hA fun j hj => ?_).to (fun i => dirFlux_sum hd γ (X i) (unit dim N0) hs) (dirFlux_sum hd γ X0 _ hs)
    simp only [add_comm s]
    exact (convFlux_tr hA hd hg hv aX.ρ_pos F hj hs).mul hA (hh j)
  have FR : ∀ F : ∀ i, ℕ → (A i).K, Tr l A (fun i => loopSum dim fun d => Fl.convFlux dim (g i) (w i) (F i)
      (s + d * (dim + 2)) * (N i d / HasSqrt.sqrt (loopSum dim fun k => N i k * N i k)))
      (fun i => eulerFlux dim γ (Y i) (unit dim N0) s) (eulerFlux dim γ Y0 (unit dim N0) s) := by
    intro F
    refine (Tr.loop hA fun j hj => ?_).to (fun i => dirFlux_sum hd γ (Y i) (unit dim N0) hs) (dirFlux_sum hd γ Y0 _ hs)
    simp only [add_comm s]
    exact (convFlux_tr hA hd hg hw aY.ρ_pos F hj hs).mul hA (hh j)
  have e : ∀ U V : ℕ → ℝ, Real.sqrt (inner' dim N0 N0) * (1 / 2 * (eulerFlux dim γ U (unit dim N0) s +
      eulerFlux dim γ V (unit dim N0) s) - 1 / 2 * max (maxSpeed dim γ U) (maxSpeed dim γ V) * (V s - U s)) =
      rusanovFlux dim γ U V N0 s := by
    intro U V
    have eu : unit dim N0 = fun k => (1 / Real.sqrt (inner' dim N0 N0)) * N0 k := by
      funext k; unfold unit; ring
    rw [eu, eulerFlux_smul, eulerFlux_smul]
    unfold rusanovFlux
    field_simp
  unfold Fl.laxFriedrichs
  simp only [hs, if_true]
  refine (hJ.mul hA (((Tr.half hA).mul hA ((FL F).add hA (FR fun i => Fl.convFlux dim (g i) (v i) (F i)))).sub hA
    (((Tr.half hA).mul hA ((speed_tr hA hd hγ hg hv aX).max' hA (speed_tr hA hd hγ hg hw aY))).mul hA
      ((hw s).sub hA (hv s))))).to (fun i => e (X i) (Y i)) (e X0 Y0)

theorem shock_tr (hA : Fine l A) (hγ : 1 < γ) (hg : Tr l A g (fun _ => γ) γ) {pS P : ∀ i, (A i).K} {S p : ι → ℝ}
    {S0 p0 : ℝ} (hS : Tr l A pS S S0) (hP : Tr l A P p p0) (n0 : 0 ≤ S0) (h0 : 0 < p0) :
    Tr l A (fun i => Fl.hllcQ (g i) (pS i) (P i)) (fun i => shockFactor γ (S i) (p i)) (shockFactor γ S0 p0) := by
  have r := hS.div hA hP h0.ne'
  set c := (γ + 1) / (2 * γ) with hc
  have c0 : 0 < c := by positivity
  have c1 : c < 1 := by rw [hc, div_lt_one (by linarith)]; linarith
  have hcT := (hg.add hA Tr.one).div hA ((Tr.ofNat hA 2).mul hA hg) (by positivity)
  have hq := Tr.one.add hA (hcT.mul hA (r.sub hA Tr.one))
  have q0 : 0 < 1 + c * (S0 / p0 - 1) := by
    have : 0 ≤ S0 / p0 := by positivity
    nlinarith [mul_nonneg c0.le this]
  have hs := hq.sqrt hA q0
  unfold Fl.hllcQ
  have evp : ∀ᶠ i in l, 0 < p i := hP.lim.eventually (lt_mem_nhds h0)
  have hz : Tendsto (fun i => shockFactor γ (S i) (p i)) l (𝓝 (shockFactor γ S0 p0)) := by
    rw [shockFactor_max hγ h0]
    have : Tendsto (fun i => Real.sqrt (1 + (γ + 1) / (2 * γ) * max (S i / p i - 1) 0)) l
        (𝓝 (Real.sqrt (1 + (γ + 1) / (2 * γ) * max (S0 / p0 - 1) 0))) :=
      (tendsto_const_nhds.add (tendsto_const_nhds.mul ((r.lim.sub tendsto_const_nhds).max tendsto_const_nhds))).sqrt
    refine this.congr' ?_
    filter_upwards [evp] with i hi using (shockFactor_max hγ hi).symm
  refine Tr.pick (E := fun i => c * |(A i).val (pS i / P i) - S i / p i|) hs Tr.one hz
    ((r.err.norm_left).const_mul_left c) ?_
  filter_upwards [evp, r.fin, hq.lim.eventually (lt_mem_nhds q0)] with i i1 i2 i3
  rw [shockFactor_max hγ i1, ← hc]
  set t := S i / p i with ht
  set t' := (A i).val (pS i / P i) with ht'
  have dlt : 1 < pS i / P i ↔ 1 < t' := by
    rw [(A i).lt _ _ (A i).one.1 i2, (A i).one.2]
  constructor
  · intro hp
    have h1 := dlt.1 hp
    rcases le_total 1 t with h2 | h2
    · rw [max_eq_left (by linarith), sub_self, abs_zero]; positivity
    · rw [max_eq_right (by linarith), mul_zero, add_zero, Real.sqrt_one]
      have h3 : 1 - t ≤ |t' - t| := by rw [abs_of_nonneg (by linarith)]; linarith
      have h4 : Real.sqrt (1 + c * (t - 1)) ≤ 1 := by
        rw [Real.sqrt_le_one]; nlinarith
      have h5 : 1 + c * (t - 1) ≤ Real.sqrt (1 + c * (t - 1)) := by
        have k := Real.mul_self_sqrt i3.le
        nlinarith [Real.sqrt_nonneg (1 + c * (t - 1))]
      rw [abs_sub_comm, abs_of_nonneg (by linarith)]
      nlinarith [mul_le_mul_of_nonneg_left h3 c0.le]
  · intro hp
    have h1 : t' ≤ 1 := not_lt.1 fun h => hp (dlt.2 h)
    set m := max (t - 1) 0 with hm
    have m0 : 0 ≤ m := le_max_right _ _
    have h3 : m ≤ |t' - t| := by
      rw [hm]; refine max_le ?_ (abs_nonneg _)
      rw [abs_sub_comm]; exact le_trans (by linarith) (le_abs_self _)
    have h4 : 1 ≤ Real.sqrt (1 + c * m) := by rw [Real.one_le_sqrt]; nlinarith [mul_nonneg c0.le m0]
    have h5 : Real.sqrt (1 + c * m) ≤ 1 + c * m := by
      have k := Real.mul_self_sqrt (show 0 ≤ 1 + c * m by positivity)
      nlinarith
    rw [abs_sub_comm, abs_of_nonneg (by linarith)]
    nlinarith [mul_le_mul_of_nonneg_left h3 c0.le]

/-- four branches, selected by the signs of three wave speeds -/
theorem waves_tr (hA : Fine l A) {sL sS sR : ∀ i, (A i).K} {tL tS tR : ι → ℝ} {kL kS kR : ℝ} (hL : Tr l A sL tL kL)
    (hS : Tr l A sS tS kS) (hR : Tr l A sR tR kR) (o1 : kL < kS) (o2 : kS < kR)
    {m0 m1 m2 m3 j : ∀ i, (A i).K} {f a b c : ι → ℝ} {f0 a0 b0 c0 : ℝ} (hf : Tr l A m0 f f0)
    (h1 : Tr l A m1 (fun i => f i + tL i * a i) (f0 + kL * a0))
    (h2 : Tr l A m2 (fun i => f i + tL i * a i + tS i * b i) (f0 + kL * a0 + kS * b0))
    (h3 : Tr l A m3 (fun i => f i + tL i * a i + tS i * b i + tR i * c i) (f0 + kL * a0 + kS * b0 + kR * c0))
    (ha : Tendsto a l (𝓝 a0)) (hb : Tendsto b l (𝓝 b0)) (hc : Tendsto c l (𝓝 c0)) :
    Tr l A (fun i => if 0 ≤ sL i then m0 i else if sR i ≤ 0 then m3 i else if sL i < 0 ∧ 0 ≤ sS i then m1 i
      else if sS i < 0 ∧ 0 < sR i then m2 i else j i)
      (fun i => f i + min (tL i) 0 * a i + min (tS i) 0 * b i + min (tR i) 0 * c i)
      (f0 + min kL 0 * a0 + min kS 0 * b0 + min kR 0 * c0) := by
  have comp : ∀ᶠ i in l, (0 ≤ sL i ↔ 0 ≤ (A i).val (sL i)) ∧ (sR i ≤ 0 ↔ (A i).val (sR i) ≤ 0) ∧
      (sL i < 0 ↔ (A i).val (sL i) < 0) ∧ (0 ≤ sS i ↔ 0 ≤ (A i).val (sS i)) ∧ (sS i < 0 ↔ (A i).val (sS i) < 0) ∧
      (0 < sR i ↔ 0 < (A i).val (sR i)) := by
    filter_upwards [hL.fin, hS.fin, hR.fin] with i c1 c2 c3
    have z := (A i).zero
    refine ⟨?_, ?_, ?_, ?_, ?_, ?_⟩
    · rw [(A i).le _ _ z.1 c1, z.2]
    · rw [(A i).le _ _ c3 z.1, z.2]
    · rw [(A i).lt _ _ c1 z.1, z.2]
    · rw [(A i).le _ _ z.1 c2, z.2]
    · rw [(A i).lt _ _ c2 z.1, z.2]
    · rw [(A i).lt _ _ z.1 c3, z.2]
  have lim : Tendsto (fun i => f i + min (tL i) 0 * a i + min (tS i) 0 * b i + min (tR i) 0 * c i) l
      (𝓝 (f0 + min kL 0 * a0 + min kS 0 * b0 + min kR 0 * c0)) :=
    (((hf.lim.add ((hL.lim.min tendsto_const_nhds).mul ha)).add ((hS.lim.min tendsto_const_nhds).mul hb)).add
      ((hR.lim.min tendsto_const_nhds).mul hc))
  refine ⟨lim, ?_, ?_⟩
  · filter_upwards [hf.fin, h1.fin, h2.fin, h3.fin, comp] with i f0 f1 f2 f3 ⟨e1, e2, e3, e4, e5, e6⟩
    split_ifs with g1 g2 g3 g4
    · exact f0
    · exact f3
    · exact f1
    · exact f2
    · exfalso
      rw [e1] at g1; rw [e2] at g2; rw [e3, e4] at g3; rw [e5, e6] at g4
      push Not at g1 g2
      exact g4 ⟨not_le.1 fun h => g3 ⟨g1, h⟩, g2⟩
  · set B := |a0| + |b0| + |c0| + 3 with hB
    have k : (fun i => (A i).val (if 0 ≤ sL i then m0 i else if sR i ≤ 0 then m3 i else if sL i < 0 ∧ 0 ≤ sS i then m1 i
        else if sS i < 0 ∧ 0 < sR i then m2 i else j i) -
          (f i + min (tL i) 0 * a i + min (tS i) 0 * b i + min (tR i) 0 * c i)) =O[l]
        fun i => |(A i).val (m0 i) - f i| + |(A i).val (m1 i) - (f i + tL i * a i)| +
          |(A i).val (m2 i) - (f i + tL i * a i + tS i * b i)| +
          |(A i).val (m3 i) - (f i + tL i * a i + tS i * b i + tR i * c i)| +
          (|(A i).val (sL i) - tL i| + |(A i).val (sS i) - tS i| + |(A i).val (sR i) - tR i|) * B := by
      refine IsBigO.of_bound 1 ?_
      filter_upwards [comp, hL.lim.eventually_lt hS.lim o1, hS.lim.eventually_lt hR.lim o2,
        ha.abs.eventually (Iio_mem_nhds (lt_add_one |a0|)), hb.abs.eventually (Iio_mem_nhds (lt_add_one |b0|)),
        hc.abs.eventually (Iio_mem_nhds (lt_add_one |c0|))] with i ⟨e1, e2, e3, e4, e5, e6⟩ i1 i2 i3 i4 i5
      have j3 : |a i| < |a0| + 1 := i3
      have j4 : |b i| < |b0| + 1 := i4
      have j5 : |c i| < |c0| + 1 := i5
      have nB : 0 ≤ B := by positivity
      rw [Real.norm_eq_abs, Real.norm_of_nonneg (by positivity), one_mul]
      set L' := (A i).val (sL i) with hL'
      set S' := (A i).val (sS i) with hS'
      set R' := (A i).val (sR i) with hR'
      set D := |L' - tL i| + |S' - tS i| + |R' - tR i| with hD
      have n1 := abs_nonneg (L' - tL i)
      have n2 := abs_nonneg (S' - tS i)
      have n3 := abs_nonneg (R' - tR i)
      have d1 : |L' - tL i| ≤ D := by linarith
      have d2 : |S' - tS i| ≤ D := by linarith
      have d3 : |R' - tR i| ≤ D := by linarith
      have D0 : 0 ≤ D := by positivity
      have c1 := abs_le.1 d1
      have c2 := abs_le.1 d2
      have c3 := abs_le.1 d3
      -- the three jumps
      have jump : ∀ {x y z : ℝ}, |x| ≤ D → |y| ≤ D → |z| ≤ D → |x * a i + y * b i + z * c i| ≤ D * B := by
        intro x y z hx hy hz
        have q1 : |x * a i| ≤ D * (|a0| + 1) := by
          rw [abs_mul]; exact mul_le_mul hx j3.le (abs_nonneg _) D0
        have q2 : |y * b i| ≤ D * (|b0| + 1) := by
          rw [abs_mul]; exact mul_le_mul hy j4.le (abs_nonneg _) D0
        have q3 : |z * c i| ≤ D * (|c0| + 1) := by
          rw [abs_mul]; exact mul_le_mul hz j5.le (abs_nonneg _) D0
        have r1 := abs_add_le (x * a i + y * b i) (z * c i)
        have r2 := abs_add_le (x * a i) (y * b i)
        rw [hB]
        linarith
      have fin : ∀ {m x z : ℝ}, |x - z| ≤ D * B → |m - z| ≤ |m - x| + D * B := by
        intro m x z h
        have := abs_sub_le m x z
        linarith
      have p0 := abs_nonneg ((A i).val (m0 i) - f i)
      have p1 := abs_nonneg ((A i).val (m1 i) - (f i + tL i * a i))
      have p2 := abs_nonneg ((A i).val (m2 i) - (f i + tL i * a i + tS i * b i))
      have p3 := abs_nonneg ((A i).val (m3 i) - (f i + tL i * a i + tS i * b i + tR i * c i))
      have mneg : ∀ {x : ℝ}, -D ≤ x → |0 - min x 0| ≤ D := by
        intro x hx
        rw [zero_sub, abs_neg, abs_of_nonpos (min_le_right _ _)]
        rcases min_cases x 0 with ⟨h, -⟩ | ⟨h, -⟩ <;> rw [h] <;> linarith
      have mpos : ∀ {x : ℝ}, x ≤ D → |x - min x 0| ≤ D := by
        intro x hx
        rw [abs_of_nonneg (sub_nonneg.2 (min_le_left _ _))]
        rcases min_cases x 0 with ⟨h, -⟩ | ⟨h, -⟩ <;> rw [h] <;> linarith
      split_ifs with g1 g2 g3 g4
      · rw [e1] at g1
        have := jump (mneg (x := tL i) (by linarith)) (mneg (x := tS i) (by linarith)) (mneg (x := tR i) (by linarith))
        have := fin (m := (A i).val (m0 i)) (x := f i)
          (z := f i + min (tL i) 0 * a i + min (tS i) 0 * b i + min (tR i) 0 * c i) (by
            rw [show f i - (f i + min (tL i) 0 * a i + min (tS i) 0 * b i + min (tR i) 0 * c i) =
              (0 - min (tL i) 0) * a i + (0 - min (tS i) 0) * b i + (0 - min (tR i) 0) * c i by ring]
            exact this)
        linarith
      · rw [e1] at g1; rw [e2] at g2
        push Not at g1
        have := jump (mpos (x := tL i) (by linarith)) (mpos (x := tS i) (by linarith)) (mpos (x := tR i) (by linarith))
        have := fin (m := (A i).val (m3 i)) (x := f i + tL i * a i + tS i * b i + tR i * c i)
          (z := f i + min (tL i) 0 * a i + min (tS i) 0 * b i + min (tR i) 0 * c i) (by
            rw [show f i + tL i * a i + tS i * b i + tR i * c i -
              (f i + min (tL i) 0 * a i + min (tS i) 0 * b i + min (tR i) 0 * c i) =
              (tL i - min (tL i) 0) * a i + (tS i - min (tS i) 0) * b i + (tR i - min (tR i) 0) * c i by ring]
            exact this)
        linarith
      · rw [e3, e4] at g3
        have := jump (mpos (x := tL i) (by linarith)) (mneg (x := tS i) (by linarith)) (mneg (x := tR i) (by linarith))
        have := fin (m := (A i).val (m1 i)) (x := f i + tL i * a i)
          (z := f i + min (tL i) 0 * a i + min (tS i) 0 * b i + min (tR i) 0 * c i) (by
            rw [show f i + tL i * a i -
              (f i + min (tL i) 0 * a i + min (tS i) 0 * b i + min (tR i) 0 * c i) =
              (tL i - min (tL i) 0) * a i + (0 - min (tS i) 0) * b i + (0 - min (tR i) 0) * c i by ring]
            exact this)
        linarith
      · rw [e5, e6] at g4
        have := jump (mpos (x := tL i) (by linarith)) (mpos (x := tS i) (by linarith)) (mneg (x := tR i) (by linarith))
        have := fin (m := (A i).val (m2 i)) (x := f i + tL i * a i + tS i * b i)
          (z := f i + min (tL i) 0 * a i + min (tS i) 0 * b i + min (tR i) 0 * c i) (by
            rw [show f i + tL i * a i + tS i * b i -
              (f i + min (tL i) 0 * a i + min (tS i) 0 * b i + min (tR i) 0 * c i) =
              (tL i - min (tL i) 0) * a i + (tS i - min (tS i) 0) * b i + (0 - min (tR i) 0) * c i by ring]
            exact this)
        linarith
      · exfalso
        rw [e1] at g1; rw [e2] at g2; rw [e3, e4] at g3; rw [e5, e6] at g4
        push Not at g1 g2
        exact g4 ⟨not_le.1 fun h => g3 ⟨g1, h⟩, g2⟩
    refine k.trans ((((hf.err.norm_left.add h1.err.norm_left).add h2.err.norm_left).add h3.err.norm_left).add ?_)
    refine (((hL.err.norm_left.add hS.err.norm_left).add hR.err.norm_left).const_mul_left B).congr_left fun i => ?_
    simp only [Real.norm_eq_abs]
    ring

theorem writeFlux_tr {M E : ∀ i, (A i).K} {m : ∀ i, ℕ → (A i).K} {M' E' : ι → ℝ} {m' : ι → ℕ → ℝ} {M0 E0 : ℝ} {m0 : ℕ → ℝ}
    (hM : Tr l A M M' M0) (hm : TrVec l A m m' m0) (hE : Tr l A E E' E0) (F : ∀ i, ℕ → (A i).K) {s : ℕ} (hs : s < dim + 2) :
    Tr l A (fun i => Fl.writeFlux dim (M i) (m i) (E i) (F i) s) (fun i => writeFlux dim (M' i) (m' i) (E' i) (fun _ => 0) s)
      (writeFlux dim M0 m0 E0 (fun _ => 0) s) := by
  unfold Fl.writeFlux writeFlux
  by_cases h0 : s = 0
  · simp only [h0, if_true]; exact hM
  · by_cases h1 : s < dim + 1
    · simp only [h0, h1, if_true, if_false]; exact hm _
    · have : s = dim + 1 := by omega
      subst this
      simp only [h0, h1, if_true, if_false]; exact hE

theorem starFlux_tr (hA : Fine l A) {γ : ℝ} (hv : TrVec l A v X X0) (h0 : 0 < X0 0) {J S Ss un P : ∀ i, (A i).K}
    {n : ∀ i, ℕ → (A i).K} {j0 : ℝ} {n0 : ℕ → ℝ} {t ts : ι → ℝ} {t0 ts0 : ℝ}
    (hJ : Tr l A J (fun _ => j0) j0) (hn : TrVec l A n (fun _ => n0) n0) (hS : Tr l A S t t0) (hSs : Tr l A Ss ts ts0)
    (hu : Tr l A un (fun i => inner' dim (vel (X i)) n0) (inner' dim (vel X0) n0))
    (hP : Tr l A P (fun i => pressure dim γ (X i)) (pressure dim γ X0))
    (h1 : t0 - ts0 ≠ 0) (h2 : t0 - inner' dim (vel X0) n0 ≠ 0) (F : ∀ i, ℕ → (A i).K) {s : ℕ} (hs : s < dim + 2) :
    Tr l A (fun i => Fl.hllcStar dim (J i) (Ss i) (S i) (un i) (P i) (n i) (v i) (F i) s)
      (fun i => j0 * (eulerFlux dim γ (X i) n0 s + t i * (starState dim γ (X i) n0 (t i) (ts i) s - X i s)))
      (j0 * (eulerFlux dim γ X0 n0 s + t0 * (starState dim γ X0 n0 t0 ts0 s - X0 s))) := by
  have hc := (hS.sub hA hu).div hA (hS.sub hA hSs) h1
  have hc1 := hc.sub hA Tr.one
  have f1 := hSs.sub hA hu
  have f2 := hSs.add hA (hP.div hA ((hv 0).mul hA (hS.sub hA hu)) (mul_ne_zero h0.ne' h2))
  unfold Fl.hllcStar
  refine (writeFlux_tr (dim := dim) (s := s)
    (hJ.mul hA (((hv 0).mul hA hu).add hA (((hv 0).mul hA hS).mul hA hc1)))
    (fun k => hJ.mul hA ((((hv (1 + k)).mul hA hu).add hA (hP.mul hA (hn k))).add hA
      (hS.mul hA (((hv (1 + k)).mul hA hc1).add hA ((((hv 0).mul hA hc).mul hA f1).mul hA (hn k))))))
    (hJ.mul hA ((((hv (dim + 1)).add hA hP).mul hA hu).add hA
      (hS.mul hA (((hv (dim + 1)).mul hA hc1).add hA ((((hv 0).mul hA hc).mul hA f1).mul hA f2))))) F hs).toEv ?_
    (writeFlux_star dim γ j0 t0 ts0 X0 n0 _ s hs h0.ne' h1)
  filter_upwards [hv.ev_pos h0, (hS.sub hA hSs).lim.eventually_ne h1] with i i1 i2
  exact (writeFlux_star dim γ j0 (t i) (ts i) (X i) n0 _ s hs i1.ne' i2).symm

theorem sideFlux_tr (hA : Fine l A) {γ : ℝ} (hv : TrVec l A v X X0) {J un P : ∀ i, (A i).K}
    {n : ∀ i, ℕ → (A i).K} {j0 : ℝ} {n0 : ℕ → ℝ} (hJ : Tr l A J (fun _ => j0) j0) (hn : TrVec l A n (fun _ => n0) n0)
    (hu : Tr l A un (fun i => inner' dim (vel (X i)) n0) (inner' dim (vel X0) n0))
    (hP : Tr l A P (fun i => pressure dim γ (X i)) (pressure dim γ X0)) (F : ∀ i, ℕ → (A i).K) {s : ℕ} (hs : s < dim + 2) :
    Tr l A (fun i => Fl.writeFlux dim (J i * v i 0 * un i) (fun k => J i * (v i (1 + k) * un i + P i * n i k))
        (J i * ((v i (dim + 1) + P i) * un i)) (F i) s)
      (fun i => j0 * eulerFlux dim γ (X i) n0 s) (j0 * eulerFlux dim γ X0 n0 s) ∧
    Tr l A (fun i => Fl.writeFlux dim (J i * v i 0 * un i) (fun k => J i * (v i (1 + k) * un i + P i * n i k))
        (J i * (v i (dim + 1) + P i) * un i) (F i) s)
      (fun i => j0 * eulerFlux dim γ (X i) n0 s) (j0 * eulerFlux dim γ X0 n0 s) := by
  have e := fun U : ℕ → ℝ => writeFlux_euler dim γ j0 U n0 (fun _ => 0) s hs
  constructor
  · refine (writeFlux_tr (dim := dim) (s := s) ((hJ.mul hA (hv 0)).mul hA hu)
      (fun k => hJ.mul hA (((hv (1 + k)).mul hA hu).add hA (hP.mul hA (hn k))))
      (hJ.mul hA (((hv (dim + 1)).add hA hP).mul hA hu)) F hs).to (fun i => ?_) ?_ <;>
    · rw [← e, mul_assoc]
  · refine (writeFlux_tr (dim := dim) (s := s) ((hJ.mul hA (hv 0)).mul hA hu)
      (fun k => hJ.mul hA (((hv (1 + k)).mul hA hu).add hA (hP.mul hA (hn k))))
      ((hJ.mul hA ((hv (dim + 1)).add hA hP)).mul hA hu) F hs).to (fun i => ?_) ?_ <;>
    · rw [← e, mul_assoc, mul_assoc]

theorem hllc_tr (hA : Fine l A) (hd : dim = 2 ∨ dim = 3) (hγ : 1 < γ) (hg : Tr l A g (fun _ => γ) γ)
    (hv : TrVec l A v X X0) {w : ∀ i, ℕ → (A i).K} {Y : ι → ℕ → ℝ} {Y0 : ℕ → ℝ} (hw : TrVec l A w Y Y0)
    {N : ∀ i, ℕ → (A i).K} {N0 : ℕ → ℝ} (hN : TrVec l A N (fun _ => N0) N0)
    (aX : Admissible dim γ X0) (aY : Admissible dim γ Y0) (hn : 0 < inner' dim N0 N0)
    (ho : WavesOrdered dim γ X0 Y0 (unit dim N0)) (F F0 : ∀ i, ℕ → (A i).K) {s : ℕ} (hs : s < dim + 2) :
    Tr l A (fun i => ((Fl.hllc dim (g i) (v i) (w i) (N i) (F0 i)).getD (F i)) s)
      (fun i => Real.sqrt (inner' dim N0 N0) * hllcFlux dim γ (X i) (Y i) (unit dim N0) s)
      (Real.sqrt (inner' dim N0 N0) * hllcFlux dim γ X0 Y0 (unit dim N0) s) := by
  set n0 := unit dim N0 with hn0
  set j0 := Real.sqrt (inner' dim N0 N0) with hj0
  have hJ0 : j0 ≠ 0 := (Real.sqrt_pos.2 hn).ne'
  set W : ∀ i, Fl.Waves (A i).K := fun i => Fl.hllcWaves dim (g i) (v i) (w i) (N i) with hW
  have hJ : Tr l A (fun i => (W i).djac) (fun _ => j0) j0 := (dot_tr hA hd hN hN).sqrt hA hn
  have hnn : TrVec l A (fun i => (W i).n) (fun _ => n0) n0 := fun k =>
    ((hN k).mul hA (Tr.one.div hA hJ hJ0)).to (fun i => mul_one_div _ _) (mul_one_div _ _)
  have uL : Tr l A (fun i => (W i).unL) (fun i => inner' dim (vel (X i)) n0) (inner' dim (vel X0) n0) :=
    un_tr hA hd hv aX.ρ_pos.ne' hnn
  have uR : Tr l A (fun i => (W i).unR) (fun i => inner' dim (vel (Y i)) n0) (inner' dim (vel Y0) n0) :=
    un_tr hA hd hw aY.ρ_pos.ne' hnn
  have pL : Tr l A (fun i => (W i).PL) (fun i => pressure dim γ (X i)) (pressure dim γ X0) :=
    pressure_tr hA hd hg hv aX.ρ_pos.ne'
  have pR : Tr l A (fun i => (W i).PR) (fun i => pressure dim γ (Y i)) (pressure dim γ Y0) :=
    pressure_tr hA hd hg hw aY.ρ_pos.ne'
  have cL := sound_tr hA hd hγ hg hv aX
  have cR := sound_tr hA hd hγ hg hw aY
  have half := fun {a : ∀ i, (A i).K} {x : ι → ℝ} {x0 : ℝ} (h : Tr l A a x x0) => (Tr.half hA).mul hA h
  have pvrs : ∀ ρL uL pL aL ρR uR pR aR : ℝ, max 0 (1 / 2 * (pL + pR - (uR - uL) * (1 / 2 * (ρL + ρR)) *
      (1 / 2 * (aL + aR)))) = pvrsPressure ρL uL pL aL ρR uR pR aR := by
    intros; unfold pvrsPressure; congr 1; ring
  have pS := (Tr.zero.max' hA (half ((pL.add hA pR).sub hA (((uR.sub hA uL).mul hA (half ((hv 0).add hA (hw 0)))).mul hA
    (half (cL.add hA cR)))))).to (fun i => pvrs _ _ _ _ _ _ _ _) (pvrs _ _ _ _ _ _ _ _)
  have pS0 : 0 ≤ pvrsPressure (X0 0) (inner' dim (vel X0) n0) (pressure dim γ X0) (soundSpeed dim γ X0)
      (Y0 0) (inner' dim (vel Y0) n0) (pressure dim γ Y0) (soundSpeed dim γ Y0) := le_max_left _ _
  have sL : Tr l A (fun i => (W i).sL) (fun i => waveSpeedL dim γ (X i) (Y i) n0) (waveSpeedL dim γ X0 Y0 n0) :=
    uL.sub hA (cL.mul hA (shock_tr hA hγ hg pS pL pS0 aX.p_pos))
  have sR : Tr l A (fun i => (W i).sR) (fun i => waveSpeedR dim γ (X i) (Y i) n0) (waveSpeedR dim γ X0 Y0 n0) :=
    uR.add hA (cR.mul hA (shock_tr hA hγ hg pS pR pS0 aY.p_pos))
  have sS : Tr l A (fun i => (W i).sStar) (fun i => contactSpeed dim γ (X i) (Y i) n0) (contactSpeed dim γ X0 Y0 n0) :=
    ((((pR.sub hA pL).add hA (((hv 0).mul hA uL).mul hA (sL.sub hA uL))).sub hA
      (((hw 0).mul hA uR).mul hA (sR.sub hA uR))).div hA (((hv 0).mul hA (sL.sub hA uL)).sub hA
        ((hw 0).mul hA (sR.sub hA uR))) (contact_denom_neg hγ aX aY).ne)
  have g1 := waveSpeedL_lt (UR := Y0) (n := n0) hγ aX
  have g2 := waveSpeedR_gt (UL := X0) (n := n0) hγ aY
  have evo : ∀ᶠ i in l, Admissible dim γ (X i) ∧ Admissible dim γ (Y i) ∧ WavesOrdered dim γ (X i) (Y i) n0 := by
    filter_upwards [hv.ev_adm hA hd hg aX, hw.ev_adm hA hd hg aY, sL.lim.eventually_lt sS.lim ho.1,
      sS.lim.eventually_lt sR.lim ho.2] with i a b c d using ⟨a, b, c, d⟩
  -- the four fluxes
  have m0 := (sideFlux_tr hA (dim := dim) (γ := γ) hv hJ hnn uL pL F0 hs).1
  have m3 := (sideFlux_tr hA (dim := dim) (γ := γ) hw hJ hnn uR pR F0 hs).2
  have m1 := starFlux_tr hA (dim := dim) (γ := γ) hv aX.ρ_pos hJ hnn sL sS uL pL (sub_neg.2 ho.1).ne
    (sub_neg.2 g1).ne F0 hs
  have m2 := starFlux_tr hA (dim := dim) (γ := γ) hw aY.ρ_pos hJ hnn sR sS uR pR (sub_pos.2 ho.2).ne'
    (sub_pos.2 g2).ne' F0 hs
  -- the jumps over the waves
  set jL : (ℕ → ℝ) → (ℕ → ℝ) → ℝ := fun U V => j0 * (starState dim γ U n0 (waveSpeedL dim γ U V n0)
    (contactSpeed dim γ U V n0) s - U s) with hjL
  set jR : (ℕ → ℝ) → (ℕ → ℝ) → ℝ := fun U V => j0 * (V s - starState dim γ V n0 (waveSpeedR dim γ U V n0)
    (contactSpeed dim γ U V n0) s) with hjR
  set jS : (ℕ → ℝ) → (ℕ → ℝ) → ℝ := fun U V => j0 * (starState dim γ V n0 (waveSpeedR dim γ U V n0)
    (contactSpeed dim γ U V n0) s - starState dim γ U n0 (waveSpeedL dim γ U V n0) (contactSpeed dim γ U V n0) s) with hjS
  have key : ∀ U V : ℕ → ℝ, Admissible dim γ U → Admissible dim γ V → WavesOrdered dim γ U V n0 →
      j0 * eulerFlux dim γ U n0 s + waveSpeedL dim γ U V n0 * jL U V + contactSpeed dim γ U V n0 * jS U V =
        j0 * (eulerFlux dim γ V n0 s + waveSpeedR dim γ U V n0 * (starState dim γ V n0 (waveSpeedR dim γ U V n0)
          (contactSpeed dim γ U V n0) s - V s)) := by
    intro U V aU aV hov
    have k1 := waveSpeedL_lt (UR := V) (n := n0) hγ aU
    have k2 := waveSpeedR_gt (UL := U) (n := n0) hγ aV
    have o1 := hov.1
    have o2 := hov.2
    have hcp := contact_pressure (n := n0) hγ aU aV
    have fL := star_flux dim γ (waveSpeedL dim γ U V n0) (contactSpeed dim γ U V n0) U n0 s aU.ρ_pos.ne'
      (sub_neg.2 o1).ne (sub_neg.2 k1).ne
    have fR := star_flux dim γ (waveSpeedR dim γ U V n0) (contactSpeed dim γ U V n0) V n0 s aV.ρ_pos.ne'
      (sub_pos.2 o2).ne' (sub_pos.2 k2).ne'
    have eL : ∀ V : ℕ → ℝ, (if s < dim + 1 then V s else V (dim + 1)) = V s := by
      intro V
      split_ifs with h'
      · rfl
      · rw [show s = dim + 1 by omega]
    rw [eL] at fL fR
    rw [fR, ← hcp]
    simp only [jL, jS]
    have : j0 * eulerFlux dim γ U n0 s + waveSpeedL dim γ U V n0 * (j0 * (starState dim γ U n0 (waveSpeedL dim γ U V n0)
        (contactSpeed dim γ U V n0) s - U s)) = j0 * (eulerFlux dim γ U n0 s + waveSpeedL dim γ U V n0 *
          (starState dim γ U n0 (waveSpeedL dim γ U V n0) (contactSpeed dim γ U V n0) s - U s)) := by ring
    rw [this, fL]
    split_ifs <;> ring
  have final : ∀ U V : ℕ → ℝ, Admissible dim γ U → Admissible dim γ V → WavesOrdered dim γ U V n0 →
      j0 * hllcFlux dim γ U V n0 s = j0 * eulerFlux dim γ U n0 s + min (waveSpeedL dim γ U V n0) 0 * jL U V +
        min (contactSpeed dim γ U V n0) 0 * jS U V + min (waveSpeedR dim γ U V n0) 0 * jR U V := by
    intro U V aU aV hov
    rw [hllc_waves hγ aU aV hov.1 hov.2 s hs]
    simp only [jL, jS, jR]
    ring
  have stL : Tendsto (fun i => starState dim γ (X i) n0 (waveSpeedL dim γ (X i) (Y i) n0) (contactSpeed dim γ (X i) (Y i) n0) s)
      l (𝓝 (starState dim γ X0 n0 (waveSpeedL dim γ X0 Y0 n0) (contactSpeed dim γ X0 Y0 n0) s)) := by
    have hc := (sL.lim.sub uL.lim).div (sL.lim.sub sS.lim) (sub_neg.2 ho.1).ne
    unfold starState
    by_cases h0 : s = 0
    · simp only [h0, if_true]; exact (hv 0).lim.mul hc
    · by_cases h3 : s < dim + 1
      · simp only [h0, h3, if_false, if_true]
        exact ((hv 0).lim.mul hc).mul (((hv _).lim.div (hv 0).lim aX.ρ_pos.ne').add
          ((sS.lim.sub uL.lim).mul tendsto_const_nhds))
      · simp only [h0, h3, if_false]
        exact hc.mul ((hv _).lim.add (((hv 0).lim.mul (sS.lim.sub uL.lim)).mul (sS.lim.add (pL.lim.div
          ((hv 0).lim.mul (sL.lim.sub uL.lim)) (mul_ne_zero aX.ρ_pos.ne' (sub_neg.2 g1).ne)))))
  have stR : Tendsto (fun i => starState dim γ (Y i) n0 (waveSpeedR dim γ (X i) (Y i) n0) (contactSpeed dim γ (X i) (Y i) n0) s)
      l (𝓝 (starState dim γ Y0 n0 (waveSpeedR dim γ X0 Y0 n0) (contactSpeed dim γ X0 Y0 n0) s)) := by
    have hc := (sR.lim.sub uR.lim).div (sR.lim.sub sS.lim) (sub_pos.2 ho.2).ne'
    unfold starState
    by_cases h0 : s = 0
    · simp only [h0, if_true]; exact (hw 0).lim.mul hc
    · by_cases h3 : s < dim + 1
      · simp only [h0, h3, if_false, if_true]
        exact ((hw 0).lim.mul hc).mul (((hw _).lim.div (hw 0).lim aY.ρ_pos.ne').add
          ((sS.lim.sub uR.lim).mul tendsto_const_nhds))
      · simp only [h0, h3, if_false]
        exact hc.mul ((hw _).lim.add (((hw 0).lim.mul (sS.lim.sub uR.lim)).mul (sS.lim.add (pR.lim.div
          ((hw 0).lim.mul (sR.lim.sub uR.lim)) (mul_ne_zero aY.ρ_pos.ne' (sub_pos.2 g2).ne')))))
  have h := waves_tr (j := fun i => F i s) (a := fun i => jL (X i) (Y i)) (b := fun i => jS (X i) (Y i))
    (c := fun i => jR (X i) (Y i)) (a0 := jL X0 Y0) (b0 := jS X0 Y0) (c0 := jR X0 Y0) hA sL sS sR ho.1 ho.2 m0
    (m1.to (fun i => by simp only [jL]; ring) (by simp only [jL]; ring))
    (m2.toEv (evo.mono fun i hi => key _ _ hi.1 hi.2.1 hi.2.2) (key _ _ aX aY ho).symm)
    (m3.toEv (evo.mono fun i hi => by rw [key _ _ hi.1 hi.2.1 hi.2.2]; simp only [jR]; ring)
      (by rw [key _ _ aX aY ho]; simp only [jR]; ring))
    (tendsto_const_nhds.mul (stL.sub (hv s).lim)) (tendsto_const_nhds.mul (stR.sub stL))
    (tendsto_const_nhds.mul ((hw s).lim.sub stR))
  refine (h.congr (Eventually.of_forall fun i => ?_) (evo.mono fun i hi => final _ _ hi.1 hi.2.1 hi.2.2)).to
    (fun i => rfl) (final _ _ aX aY ho).symm
  show ((Fl.hllc dim (g i) (v i) (w i) (N i) (F0 i)).getD (F i)) s = _
  unfold Fl.hllc
  simp only
  split_ifs <;> rfl

theorem fluxTr (hA : Fine l A) {d : Disc ℝ} (hd : d.dim = 2 ∨ d.dim = 3) (hγ : 1 < γ) (hg : Tr l A g (fun _ => γ) γ)
    {f : NumericalFluxType} (hE : EulerScheme d f γ) {T : ∀ i, Tables (A i).K} {junk junk' : ∀ i, ℕ → (A i).K}
    (h1 : ∀ i, (T i).volFlux = fun U => Fl.convFlux d.dim (g i) U (junk' i))
    (h2 : ∀ i, (T i).numFlux = machineNumFlux f d.dim (g i) (junk i)) :
    FluxTr l A d T (Admissible d.dim γ) (fun U V N => Admissible d.dim γ U ∧ Admissible d.dim γ V ∧
      0 < inner' d.dim N N ∧ (f = .HLLC → WavesOrdered d.dim γ U V (unit d.dim N))) := by
  constructor
  · intro a x x0 ha hx j hj s hs
    rw [hE.vars] at hs
    simp only [h1, hE.vol, hE.vars]
    exact convFlux_tr hA hd hg ha hx.ρ_pos junk' hj hs
  · intro a b n x y x0 y0 n0 ha hb hn hgood s hs
    rw [hE.vars] at hs
    obtain ⟨k1, k2, k3, k4⟩ := hgood
    simp only [h2, hE.num]
    cases f with
    | LaxFriedrichs => exact rusanov_tr hA hd hγ hg ha hb hn k1 k2 k3 junk junk hs
    | HLLC => exact hllc_tr hA hd hγ hg ha hb hn k1 k2 k3 (k4 rfl) junk junk hs

end
end DG
