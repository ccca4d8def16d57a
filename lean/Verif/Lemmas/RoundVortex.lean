import Verif.Lemmas.RoundSetup
import Verif.Lemmas.RoundSame
import Verif.Spec.MachineCase
import Verif.Props.EulerDG

/-!
The vortex in rounded arithmetic.
-/
open Filter Topology Asymptotics
namespace DG

section
variable {ι : Type*} {l : Filter ι} {A : ι → Arith} {a b : ∀ i, (A i).K} {x y : ℝ}

/-- the result of a function of the mathematics library -/
theorem Fo.ofLibm (hA : Fine l A) {r : ∀ i, (A i).K} {e : ι → ℝ} {t : ℝ}
    (he : (fun i => e i - t) =O[l] fun i => (A i).u)
    (hr : ∀ᶠ i in l, |e i| ≤ (A i).big → (A i).fin (r i) ∧ Rounds (4 * (A i).u) (e i) ((A i).val (r i))) :
    Fo l A r t := by
  have h1 := (he.trans_tendsto hA.u).add_const t
  rw [zero_add] at h1
  have h2 : Tendsto e l (𝓝 t) := h1.congr fun i => by ring
  have h3 : ∀ᶠ i in l, |e i| ≤ |t| + 1 := by
    have := h2.abs.eventually (Iio_mem_nhds (lt_add_one |t|))
    exact this.mono fun i hi => le_of_lt hi
  have h4 : ∀ᶠ i in l, |t| + 1 ≤ (A i).big := hA.big.eventually_ge_atTop _
  have h5 : ∀ᶠ i in l, (A i).u ≤ 1 := (hA.u.eventually (Iio_mem_nhds one_pos)).mono fun i hi => le_of_lt hi
  have hfin : ∀ᶠ i in l, (A i).fin (r i) ∧ Rounds (4 * (A i).u) (e i) ((A i).val (r i)) := by
    filter_upwards [h3, h4, hr] with i a b c using c (a.trans b)
  refine ⟨tendsto_const_nhds, hfin.mono fun i hi => hi.1, ?_⟩
  have k1 : (fun i => (A i).val (r i) - e i) =O[l] fun i => (A i).u := by
    refine IsBigO.of_bound (4 * |t| + 20) ?_
    filter_upwards [hfin, h3, h5] with i c1 c2 c3
    have hu := (A i).u_nonneg
    rw [Real.norm_eq_abs, Real.norm_of_nonneg hu]
    refine c1.2.1.trans ?_
    nlinarith [mul_le_mul_of_nonneg_left c2 hu, abs_nonneg (e i)]
  exact (k1.add he).congr_left fun i => by ring

theorem Fo.pi (hA : Fine l A) : Fo l A (fun _ => HasLibm.pi) Real.pi := by
  refine Fo.ofLibm hA (e := fun _ => Real.pi) (by simpa using isBigO_zero _ _) (Eventually.of_forall fun i hi => ?_)
  rw [abs_of_pos Real.pi_pos] at hi
  exact (A i).pi hi

theorem Fo.exp (hA : Fine l A) (ha : Fo l A a x) : Fo l A (fun i => HasLibm.exp (a i)) (Real.exp x) := by
  refine Fo.ofLibm hA (lip_bigO1 (φ := Real.exp) (lipAt_of_contDiffAt Real.contDiff_exp.contDiffAt) hA ha) ?_
  filter_upwards [ha.fin] with i c1 c2
  rw [abs_of_pos (Real.exp_pos _)] at c2
  exact (A i).exp _ c1 c2

theorem Fo.pow (hA : Fine l A) (ha : Fo l A a x) (hb : Fo l A b y) (h0 : 0 < x) :
    Fo l A (fun i => HasLibm.pow (a i) (b i)) (x ^ y) := by
  refine Fo.ofLibm hA (lip_bigO (φ := fun p => p.1 ^ p.2) (lipAt_of_contDiffAt
    (Real.contDiffAt_rpow_of_ne (x, y) (n := 1) h0.ne')) hA ha hb) ?_
  filter_upwards [ha.fin, hb.fin, (ha.val_lim hA).eventually (lt_mem_nhds h0)] with i c1 c2 c3 c4
  rw [abs_of_pos (Real.rpow_pos_of_pos c3 _)] at c4
  exact (A i).pow _ _ c1 c2 (.inl c3) c4

theorem Fo.powi (hA : Fine l A) (n : ℕ) (ha : Fo l A a x) : Fo l A (fun i => HasLibm.powi (a i) n) (x ^ n) := by
  refine Fo.ofLibm hA (lip_bigO1 (φ := fun x => x ^ n) (lipAt_of_contDiffAt (contDiff_id.pow n).contDiffAt) hA ha) ?_
  filter_upwards [ha.fin] with i c1 c2
  exact (A i).powi _ _ c1 c2

/-- the square of the root of a sum of squares: also at zero -/
theorem Fo.hypot (hA : Fine l A) (ha : Fo l A a x) (hb : Fo l A b y) :
    Fo l A (fun i => HasLibm.powi (HasSqrt.sqrt (HasLibm.powi (a i) 2 + HasLibm.powi (b i) 2)) 2) (x ^ 2 + y ^ 2) := by
  have h2a := Fo.powi hA 2 ha
  have h2b := Fo.powi hA 2 hb
  have hs := Fo.add hA h2a h2b
  generalize hS : (fun i => HasLibm.powi (a i) 2 + HasLibm.powi (b i) 2) = S at hs
  have hSi : ∀ i, HasLibm.powi (a i) 2 + HasLibm.powi (b i) 2 = S i := fun i => congrFun hS i
  simp only [hSi]
  have hb1 : ∀ {c : ∀ i, (A i).K} {z : ℝ}, Fo l A c z → ∀ᶠ i in l, |(A i).val (c i)| ≤ (A i).big := by
    intro c z hc
    have h1 := (hc.val_lim hA).abs.eventually (Iio_mem_nhds (lt_add_one |z|))
    filter_upwards [h1, hA.big.eventually_ge_atTop (|z| + 1)] with i c1 c2 using (le_of_lt c1).trans c2
  have hsq : ∀ {c : ∀ i, (A i).K} {z : ℝ}, Fo l A c z → ∀ᶠ i in l, |(A i).val (c i) ^ 2| ≤ (A i).big := by
    intro c z hc
    have h1 := ((hc.val_lim hA).pow 2).abs.eventually (Iio_mem_nhds (lt_add_one |z ^ 2|))
    filter_upwards [h1, hA.big.eventually_ge_atTop (|z ^ 2| + 1)] with i c1 c2 using (le_of_lt c1).trans c2
  -- the sum is not negative
  have hsum : ∀ᶠ i in l, |(A i).val (HasLibm.powi (a i) 2) + (A i).val (HasLibm.powi (b i) 2)| ≤ (A i).big := by
    have h1 := ((h2a.val_lim hA).add (h2b.val_lim hA)).abs.eventually (Iio_mem_nhds (lt_add_one |x ^ 2 + y ^ 2|))
    filter_upwards [h1, hA.big.eventually_ge_atTop (|x ^ 2 + y ^ 2| + 1)] with i c1 c2 using (le_of_lt c1).trans c2
  have hnn : ∀ᶠ i in l, 0 ≤ (A i).val (S i) := by
    filter_upwards [ha.fin, hb.fin, hsq ha, hsq hb, hsum] with i f1 f2 c1 c2 c3
    obtain ⟨p1, p2⟩ := (A i).powi _ 2 f1 c1
    obtain ⟨q1, q2⟩ := (A i).powi _ 2 f2 c2
    obtain ⟨-, r2⟩ := (A i).add _ _ p1 q1 c3
    rw [← hSi]
    exact r2.2 (add_nonneg (p2.2 (sq_nonneg _)) (q2.2 (sq_nonneg _)))
  have h5 : ∀ᶠ i in l, (A i).u ≤ 1 := (hA.u.eventually (Iio_mem_nhds one_pos)).mono fun i hi => le_of_lt hi
  set M : ℝ := |x ^ 2 + y ^ 2| + 1 with hM
  have hM1 : 1 ≤ M := by have := abs_nonneg (x ^ 2 + y ^ 2); linarith
  have hval : ∀ᶠ i in l, (A i).val (S i) ≤ M := by
    have h1 := (hs.val_lim hA).abs.eventually (Iio_mem_nhds (lt_add_one |x ^ 2 + y ^ 2|))
    filter_upwards [h1] with i c1 using (le_abs_self _).trans (le_of_lt c1)
  -- the root
  have hroot : ∀ᶠ i in l, (A i).fin (HasSqrt.sqrt (S i)) ∧
      |(A i).val (HasSqrt.sqrt (S i)) - Real.sqrt ((A i).val (S i))| ≤ (A i).u * Real.sqrt ((A i).val (S i)) + (A i).u ^ 2 := by
    filter_upwards [hs.fin, hnn, hval, hA.big.eventually_ge_atTop M] with i f1 c1 c2 c3
    have hle : Real.sqrt ((A i).val (S i)) ≤ (A i).big := by
      refine le_trans ?_ c3
      rw [Real.sqrt_le_left (by linarith)]
      nlinarith
    obtain ⟨g1, g2⟩ := (A i).sqrt _ f1 c1 hle
    refine ⟨g1, ?_⟩
    have := g2.1
    rwa [abs_of_nonneg (Real.sqrt_nonneg _)] at this
  have herr : ∀ᶠ i in l, |(A i).val (HasSqrt.sqrt (S i)) ^ 2 - (A i).val (S i)| ≤ (10 * M) * (A i).u := by
    filter_upwards [hroot, hnn, hval, h5] with i c1 c2 c3 c4
    set w := Real.sqrt ((A i).val (S i)) with hw
    set r := (A i).val (HasSqrt.sqrt (S i)) with hr
    have hu := (A i).u_nonneg
    have w0 : 0 ≤ w := Real.sqrt_nonneg _
    have w2 : w ^ 2 = (A i).val (S i) := Real.sq_sqrt c2
    have wM : w ≤ M := by nlinarith
    have e1 : |r - w| ≤ (A i).u * w + (A i).u ^ 2 := c1.2
    have e2 : |r - w| ≤ (A i).u * (w + 1) := by nlinarith
    have e3 : |r + w| ≤ 3 * w + 1 := by
      have : |r + w| ≤ |r - w| + 2 * w := by
        calc |r + w| = |(r - w) + 2 * w| := by ring_nf
          _ ≤ |r - w| + |2 * w| := abs_add_le _ _
          _ = _ := by rw [abs_of_nonneg (show 0 ≤ 2 * w by linarith)]
      nlinarith
    rw [← w2, show r ^ 2 - w ^ 2 = (r - w) * (r + w) by ring, abs_mul]
    calc |r - w| * |r + w| ≤ ((A i).u * (w + 1)) * (3 * w + 1) := by gcongr
      _ = (3 * w ^ 2 + 4 * w + 1) * (A i).u := by ring
      _ ≤ (10 * M) * (A i).u := by
        gcongr
        have hw1 : w ^ 2 ≤ M := by rw [w2]; exact c3
        nlinarith [sq_nonneg (w - 1)]
  refine Fo.ofLibm hA (e := fun i => (A i).val (HasSqrt.sqrt (S i)) ^ 2) ?_ ?_
  · have k1 : (fun i => (A i).val (HasSqrt.sqrt (S i)) ^ 2 - (A i).val (S i)) =O[l] fun i => (A i).u := by
      refine IsBigO.of_bound (10 * M) (herr.mono fun i hi => ?_)
      rw [Real.norm_eq_abs, Real.norm_of_nonneg (A i).u_nonneg]; exact hi
    exact (k1.add hs.err).congr_left fun i => by ring
  · filter_upwards [hroot] with i c1 c2 using (A i).powi _ _ c1.1 c2

theorem Fo.eq (h : Fo l A a x) (e : x = y) : Fo l A a y := e ▸ h

theorem Fo.half (hA : Fine l A) : Fo l A (fun _ => 1 / 2) (1 / 2) := Fo.div hA Fo.one (Fo.ofNat hA 2) (by norm_num)

/-- `m` with `m = some U` for all computers: the vortex routine in two dimensions -/
theorem vortex2_follow (hA : Fine l A) {data : ∀ i, ℕ → (A i).K} {γ' : ∀ i, (A i).K} {X : ∀ i, ℕ → (A i).K} {γ ρ u v P K x0 x1 : ℝ}
    (junk : ∀ i, ℕ → (A i).K) (hγ : 1 < γ) (hρ : 0 < ρ) (hP : 0 < P)
    (hK : (γ - 1) * K ^ 2 * Real.exp 1 < 8 * γ * Real.pi ^ 2 * (P / ρ))
    (h0 : Fo l A (fun i => data i 0) ρ) (h1 : Fo l A (fun i => data i 1) u) (h2 : Fo l A (fun i => data i 2) v)
    (h3 : Fo l A (fun i => data i 3) P) (h4 : Fo l A (fun i => data i 4) K) (hg : Fo l A γ' γ)
    (hx : Fo l A (fun i => X i 0) x0) (hy : Fo l A (fun i => X i 1) x1) {s : ℕ} (hs : s < 4) :
    Fo l A (fun i => ((Fl.vortex2 (data i) (γ' i) 1 (X i) 0 (junk i)).getD (junk i)) s) (vortexState γ ρ u v P K x0 x1 s) := by
  have hπ := Real.pi_pos
  have hρg : 0 < ρ ^ γ := Real.rpow_pos_of_pos hρ _
  set f : ℝ := K / (2 * Real.pi) * Real.exp ((1 - (x0 ^ 2 + x1 ^ 2)) / 2) with hf
  set T : ℝ := P / ρ - (γ - 1) / (2 * γ) * f ^ 2 with hT
  have hf2 : f ^ 2 = K ^ 2 / (4 * Real.pi ^ 2) * Real.exp (1 - (x0 ^ 2 + x1 ^ 2)) := by
    rw [hf, mul_pow, div_pow, ← Real.exp_nat_mul, mul_pow]
    congr 2
    · norm_num
    · push_cast; ring
  have hTpos : 0 < T := by
    have hle : Real.exp (1 - (x0 ^ 2 + x1 ^ 2)) ≤ Real.exp 1 := Real.exp_le_exp.mpr (by nlinarith [sq_nonneg x0, sq_nonneg x1])
    have e1 : (γ - 1) / (2 * γ) * f ^ 2 = (γ - 1) * K ^ 2 * Real.exp (1 - (x0 ^ 2 + x1 ^ 2)) / (8 * γ * Real.pi ^ 2) := by
      rw [hf2]; field_simp; ring
    have e2 : (γ - 1) * K ^ 2 * Real.exp (1 - (x0 ^ 2 + x1 ^ 2)) ≤ (γ - 1) * K ^ 2 * Real.exp 1 :=
      mul_le_mul_of_nonneg_left hle (mul_nonneg (by linarith) (sq_nonneg _))
    have e3 : (γ - 1) / (2 * γ) * f ^ 2 < P / ρ := by
      rw [e1, div_lt_iff₀ (by positivity)]; linarith
    rw [hT]; linarith
  -- the steps of the routine
  have hTb : Fo l A (fun i => data i 3 / (data i 0 * 1)) (P / ρ) :=
    (Fo.div hA h3 (Fo.mul hA h0 Fo.one) (by simpa using hρ.ne')).eq (by rw [mul_one])
  have hS : Fo l A (fun i => data i 3 / HasLibm.pow (data i 0) (γ' i)) (P / ρ ^ γ) := Fo.div hA h3 (Fo.pow hA h0 hg hρ) hρg.ne'
  have hxr : Fo l A (fun i => X i 0 - data i 1 * 0) x0 := (Fo.sub hA hx (Fo.mul hA h1 Fo.zero)).eq (by ring)
  have hyr : Fo l A (fun i => X i 1 - data i 2 * 0) x1 := (Fo.sub hA hy (Fo.mul hA h2 Fo.zero)).eq (by ring)
  have hr2 := Fo.hypot hA hxr hyr
  have hdU : Fo l A (fun i => data i 4 / (2 * HasLibm.pi) * HasLibm.exp (1 / 2 * (1 - HasLibm.powi (HasSqrt.sqrt
      (HasLibm.powi (X i 0 - data i 1 * 0) 2 + HasLibm.powi (X i 1 - data i 2 * 0) 2)) 2))) f :=
    (Fo.mul hA (Fo.div hA h4 (Fo.mul hA (Fo.ofNat hA 2) (Fo.pi hA)) (by positivity))
      (Fo.exp hA (Fo.mul hA (Fo.half hA) (Fo.sub hA Fo.one hr2)))).eq (by rw [hf]; congr 2; ring)
  have hdT : Fo l A (fun i => -1 * (γ' i - 1) * HasLibm.powi (data i 4) 2 / (8 * γ' i * HasLibm.powi HasLibm.pi 2) *
      HasLibm.exp (1 - HasLibm.powi (HasSqrt.sqrt
      (HasLibm.powi (X i 0 - data i 1 * 0) 2 + HasLibm.powi (X i 1 - data i 2 * 0) 2)) 2)) (-((γ - 1) / (2 * γ) * f ^ 2)) :=
    (Fo.mul hA (Fo.div hA (Fo.mul hA (Fo.mul hA (Fo.neg Fo.one) (Fo.sub hA hg Fo.one)) (Fo.powi hA 2 h4))
      (Fo.mul hA (Fo.mul hA (Fo.ofNat hA 8) hg) (Fo.powi hA 2 (Fo.pi hA))) (by positivity))
      (Fo.exp hA (Fo.sub hA Fo.one hr2))).eq (by rw [hf2]; field_simp; ring)
  generalize hrr : (fun i => HasLibm.powi (HasSqrt.sqrt
      (HasLibm.powi (X i 0 - data i 1 * 0) 2 + HasLibm.powi (X i 1 - data i 2 * 0) 2)) 2) = r2 at *
  have hri : ∀ i, HasLibm.powi (HasSqrt.sqrt
      (HasLibm.powi (X i 0 - data i 1 * 0) 2 + HasLibm.powi (X i 1 - data i 2 * 0) 2)) 2 = r2 i := fun i => congrFun hrr i
  simp only [hri] at hdU hdT
  unfold Fl.vortex2
  simp only [if_true, Option.getD_some, hri]
  have hu := Fo.add hA h1 (Fo.mul hA (Fo.mul hA hdU (Fo.neg Fo.one)) hyr)
  have hv := Fo.add hA h2 (Fo.mul hA hdU hxr)
  have hTT : Fo l A _ T := (Fo.add hA hTb hdT).eq (by rw [hT]; ring)
  have hrho := Fo.pow hA (Fo.div hA hTT hS (by positivity)) (Fo.div hA Fo.one (Fo.sub hA hg Fo.one) (by linarith))
    (div_pos hTpos (div_pos hP hρg))
  set R : ℝ := (T / (P / ρ ^ γ)) ^ (1 / (γ - 1)) with hR
  have hRpos : 0 < R := Real.rpow_pos_of_pos (div_pos hTpos (div_pos hP hρg)) _
  have hm0 := Fo.mul hA hrho hu
  have hm1 := Fo.mul hA hrho hv
  have hE := Fo.add hA (Fo.mul hA (Fo.div hA (Fo.mul hA hrho Fo.one) (Fo.sub hA hg Fo.one) (by linarith)) hTT)
    (Fo.div hA (Fo.mul hA (Fo.half hA) (Fo.add hA (Fo.mul hA hm0 hm0) (Fo.mul hA hm1 hm1))) hrho hRpos.ne')
  have hcases : s = 0 ∨ s = 1 ∨ s = 2 ∨ s = 3 := by omega
  rcases hcases with rfl | rfl | rfl | rfl
  · exact hrho
  · refine hm0.eq ?_
    simp only [vortexState, if_true, one_ne_zero, if_false]
    rw [← hf, ← hT, ← hR]; ring
  · refine hm1.eq ?_
    simp only [vortexState, if_true, OfNat.ofNat_ne_zero, OfNat.ofNat_ne_one, if_false]
    rw [← hf, ← hT, ← hR]
  · refine hE.eq ?_
    have e1 : vortexState γ ρ u v P K x0 x1 3 = R * T / (γ - 1) + R * ((u - f * x1) ^ 2 + (v + f * x0) ^ 2) / 2 := rfl
    rw [e1]
    have : γ - 1 ≠ 0 := by linarith
    field_simp
    ring

/-- the vortex routine in three dimensions -/
theorem vortex3_follow (hA : Fine l A) {γ' : ∀ i, (A i).K} {X : ∀ i, ℕ → (A i).K} {γ x0 x2 : ℝ}
    (junk : ∀ i, ℕ → (A i).K) (hγ : 1 < γ) (hγ3 : 25 * (γ - 1) * Real.exp 1 < 16 * Real.pi ^ 2) (hg : Fo l A γ' γ)
    (hx : Fo l A (fun i => X i 0) x0) (hz : Fo l A (fun i => X i 2) x2) {s : ℕ} (hs : s < 5) :
    Fo l A (fun i => Fl.vortex3 (γ' i) (X i) 0 (junk i) s) (vortexState3 γ x0 x2 s) := by
  have hπ := Real.pi_pos
  have hg1 : γ - 1 ≠ 0 := by linarith
  have hg0 : γ ≠ 0 := by linarith
  set x : ℝ := 10 * (x0 - 1 / 2) with hxd
  set z : ℝ := 10 * (x2 - 1 / 2) with hzd
  set f : ℝ := 5 * Real.sqrt 2 / (4 * Real.pi) * Real.exp ((1 - (x ^ 2 + z ^ 2)) / 2) with hf
  set T : ℝ := 1 - (γ - 1) / 2 * f ^ 2 with hT
  have hTpos : 0 < T := vortex3_temp hγ hγ3 x z
  have hrad : Fo l A (fun _ => 1 / 10) (1 / 10) := Fo.div hA Fo.one (Fo.ofNat hA 10) (by norm_num)
  have hx1 : Fo l A (fun i => X i 0 - 1 / 2) (x0 - 1 / 2) := Fo.sub hA hx (Fo.half hA)
  have hy1 : Fo l A (fun i => X i 2 - 1 / 2) (x2 - 1 / 2) := Fo.sub hA hz (Fo.half hA)
  have h2 : Fo l A (fun i => HasSqrt.sqrt (2 : (A i).K)) (Real.sqrt 2) := Tr.sqrt hA (Fo.ofNat hA 2) (by norm_num)
  have hOm := Fo.mul hA (Fo.mul hA (Fo.div hA (Fo.mul hA (Fo.mul hA Fo.one (Fo.ofNat hA 5)) h2)
    (Fo.mul hA (Fo.ofNat hA 4) (Fo.pi hA)) (by positivity)) (Fo.exp hA (Fo.half hA)))
    (Fo.exp hA (Fo.div hA (Fo.mul hA (Fo.div hA (Fo.neg (Fo.half hA)) (Fo.mul hA Fo.one Fo.one) (by norm_num))
      (Fo.add hA (Fo.mul hA hx1 hx1) (Fo.mul hA hy1 hy1))) (Fo.mul hA hrad hrad) (by norm_num)))
  have hOm' := hOm.eq (y := f) (by
    rw [mul_assoc, ← Real.exp_add, hf, one_mul]
    congr 2; rw [hxd, hzd]; ring)
  unfold Fl.vortex3
  simp only []
  have hdu := Fo.mul hA (Fo.div hA (Fo.neg hy1) hrad (by norm_num)) hOm'
  have hdv := Fo.mul hA (Fo.div hA hx1 hrad (by norm_num)) hOm'
  have hTT := (Fo.add hA Fo.one (Fo.mul hA (Fo.mul hA (Fo.div hA (Fo.neg (Fo.sub hA hg Fo.one)) (Fo.ofNat hA 2) (by norm_num))
    hOm') hOm')).eq (y := T) (by rw [hT]; ring)
  have hp := Fo.mul hA (Fo.div hA Fo.one hg hg0) (Fo.pow hA hTT (Fo.div hA hg (Fo.sub hA hg Fo.one) hg1) hTpos)
  have hrho := Fo.pow hA hTT (Fo.div hA Fo.one (Fo.sub hA hg Fo.one) hg1) hTpos
  set R : ℝ := T ^ (1 / (γ - 1)) with hR
  have hRpos : 0 < R := Real.rpow_pos_of_pos hTpos _
  have hP : T ^ (γ / (γ - 1)) = T * R := by
    rw [hR, show γ / (γ - 1) = 1 + 1 / (γ - 1) by field_simp; ring, Real.rpow_add hTpos, Real.rpow_one]
  have hm0 := Fo.mul hA hrho (Fo.add hA (Fo.mul hA Fo.one Fo.one) hdu)
  have hm2 := Fo.mul hA hrho hdv
  have hz0 : Fo l A (fun i => (0 : (A i).K)) 0 := Fo.zero
  have hE := Fo.add hA (Fo.div hA hp (Fo.sub hA hg Fo.one) hg1) (Fo.mul hA (Fo.half hA)
    (Fo.div hA (Fo.add hA (Fo.add hA (Fo.mul hA hm0 hm0) (Fo.mul hA hz0 hz0)) (Fo.mul hA hm2 hm2)) hrho hRpos.ne'))
  have hcases : s = 0 ∨ s = 1 ∨ s = 2 ∨ s = 3 ∨ s = 4 := by omega
  have e1 : vortexState3 γ x0 x2 1 = R * (1 - f * z) := rfl
  have e3 : vortexState3 γ x0 x2 3 = R * (f * x) := rfl
  have e4 : vortexState3 γ x0 x2 4 = R * T / (γ * (γ - 1)) + R * ((1 - f * z) ^ 2 + (f * x) ^ 2) / 2 := rfl
  rcases hcases with rfl | rfl | rfl | rfl | rfl
  · exact hrho
  · refine hm0.eq ?_
    rw [e1, hzd]; ring
  · exact hz0
  · refine hm2.eq ?_
    rw [e3, hxd]; ring
  · refine hE.eq ?_
    rw [e4, hP, hxd, hzd]
    clear_value R T f
    field_simp
    ring

end

/-! ### single points -/

/-- a quantity that follows a number in every family of computers is known -/
theorem computesAll_of_follow {P : Arith → Type} {R : ∀ A, P A → Prop} {dim ns : ℕ} {f : ∀ A, P A → (ℕ → A.K) → ℕ → A.K}
    {ic : (ℕ → ℝ) → ℕ → ℝ}
    (h : ∀ (κ : ℝ) (X : ℕ → ℝ), ∀ s < ns, Fo (sitFilter R 1 1 dim κ fun _ _ => X) Sit.A
      (fun i => f i.A i.par (i.co 0 0) s) (ic X s)) : ComputesAll dim ns (fun A ic' => ∃ q, R A q ∧ ic' = f A q) ic := by
  intro κ X
  obtain ⟨κ', hev⟩ := (EvK.lt fun s hs => EvK.fo (h κ X s hs)).ev
  obtain ⟨u0, B, hu0, H⟩ := sit_eventually hev
  refine ⟨κ', u0, B, hu0, ?_⟩
  rintro A hu hB _ ⟨q, hq, rfl⟩ x hx s hs
  exact H ⟨⟨A, fun _ _ => x, q⟩, fun _ _ _ _ j hj => hx j hj, hq⟩ hu hB s hs

/-- no further data -/
def noData (A : Arith) (_ : Unit) : Prop := A = A

theorem computes_of_follow {dim ns : ℕ} {ic' : ∀ A : Arith, (ℕ → A.K) → ℕ → A.K} {ic : (ℕ → ℝ) → ℕ → ℝ}
    (h : ∀ (κ : ℝ) (X : ℕ → ℝ), ∀ s < ns, Fo (sitFilter noData 1 1 dim κ fun _ _ => X) Sit.A
      (fun i => ic' i.A (i.co 0 0) s) (ic X s)) : Computes dim ns ic' ic := by
  intro κ X
  obtain ⟨κ', u0, B, hu0, H⟩ := computesAll_of_follow (f := fun A _ => ic' A) h κ X
  exact ⟨κ', u0, B, hu0, fun A hu hB => H A hu hB _ ⟨(), rfl, rfl⟩⟩

theorem sit_point {P : Arith → Type} {R : ∀ A, P A → Prop} {dim : ℕ} {κ : ℝ} {X : ℕ → ℝ} {j : ℕ} (hj : j < dim) :
    Fo (sitFilter R 1 1 dim κ fun _ _ => X) Sit.A (fun i => i.co 0 0 j) (X j) :=
  sit_coords (ne := 1) (nn := 1) (X := fun _ _ => X) Nat.one_pos 0 Nat.one_pos j hj

theorem Known.fo {c : ∀ A : Arith, A.K} {x : ℝ} (h : Known c x) {ι : Type*} {l : Filter ι} {A : ι → Arith} (hA : Fine l A) :
    Fo l A (fun i => c (A i)) x := by
  obtain ⟨κ, u0, B, hu0, H⟩ := h
  refine Fo.ofClose (κ := κ) ?_
  filter_upwards [hA.u.eventually (Iio_mem_nhds hu0), hA.big.eventually_ge_atTop B] with i h1 h2 using H _ (le_of_lt h1) h2

end DG
