import Verif.Lemmas.RoundStep
import Verif.Lemmas.RoundMarch
import Verif.Props.Wellposed

/-!
The error of one rounded time step, uniformly over all computers that are precise enough and over a compact
set of states.
-/
open Set Filter Topology Asymptotics
namespace DG
variable {α : Type} {d : Disc ℝ} {f : NumericalFluxType} {γ : ℝ} {m : GMesh α} {G : Geom ℝ} {norient : ℕ}

/-- the values of an array of machine numbers -/
def vals (A : Arith) (U : Coeffs A.K) : Coeffs ℝ := fun e b s => A.val (U e b s)

/-- all entries are finite numbers -/
def AllFin (A : Arith) (d : Disc ℝ) (ne : ℕ) (U : Coeffs A.K) : Prop :=
  ∀ e < ne, ∀ b < d.nb, ∀ s < d.ns, A.fin (U e b s)

/-- geometry of the whole mesh within `κ` roundoffs of `G` -/
structure GeomCloseAll (A : Arith) (κ : ℝ) (d : Disc ℝ) (m : GMesh α) (g : Geom A.K) (G : Geom ℝ) : Prop where
  djac : ∀ e < m.numElems, ∀ q < d.nq, A.Close κ (g.djac e q) (G.djac e q)
  ijac : ∀ e < m.numElems, ∀ q < d.nq, ∀ i < d.dim, ∀ j < d.dim, A.Close κ (g.ijac e q i j) (G.ijac e q i j)
  iMM : ∀ e < m.numElems, ∀ i < d.nb, ∀ j < d.nb, A.Close κ (g.iMM e i j) (G.iMM e i j)
  normals : ∀ f < m.faces.length, ∀ q < d.nqf, ∀ j < d.dim, A.Close κ (g.normals f q j) (G.normals f q j)

/-- tables of a machine scheme -/
def tablesOf {K : Type} (D : Disc K) : Tables K :=
  ⟨D.volBasis, D.volGrad, D.volWts, D.faceBasis, D.faceWts, D.volFlux, D.numFlux⟩

theorem MachineScheme.withTables {A : Arith} {κ : ℝ} {D : Disc A.K} (h : MachineScheme A κ f γ d D) :
    DG.withTables d (tablesOf D) = D := by
  obtain ⟨h1, h2, h3, h4, h5, h6, h7, -⟩ := h
  cases D
  simp only at h1 h2 h3 h4 h5 h6 h7
  subst h1 h2 h3 h4 h5 h6 h7
  rfl

theorem Arith.Close.tr {ι : Type*} {l : Filter ι} {A : ι → Arith} {κ x : ℝ} {a : ∀ i, (A i).K}
    (h : ∀ i, (A i).Close κ (a i) x) : Tr l A a (fun _ => x) x :=
  ⟨tendsto_const_nhds, Eventually.of_forall fun i => (h i).1,
    IsBigO.of_bound κ (Eventually.of_forall fun i => by
      rw [Real.norm_eq_abs, Real.norm_of_nonneg (A i).u_nonneg]; exact (h i).2)⟩

theorem round_step (hm : MeshOK m) (hd : d.dim = 2 ∨ d.dim = 3) (hE : EulerScheme d f γ) (hγ : 1 < γ)
    (hc : Conforming d norient m) (ho : OrderOK d norient) (hN : NormalsNonzero d m G)
    {Q : Set (Box d m.numElems)} (hQ : IsCompact Q) (hreg : ∀ u ∈ Q, StatesRegular f γ d m G (ofBox u)) (κ : ℝ)
    (st : Stepper) : ∃ k : ℕ, ∀ A : Arith, A.u ≤ 1 / ((k : ℝ) + 1) → (k : ℝ) ≤ A.big →
      ∀ (D : Disc A.K) (part : List ℕ) (g : ℕ → Geom A.K), MachineScheme A κ f γ d D →
      (∀ e < m.numElems, GeomCloseAll A κ d m (g (rankOf part e)) G) →
      ∀ dt : A.K, A.fin dt → 0 < A.val dt → A.val dt ≤ 1 / ((k : ℝ) + 1) →
      ∀ S : RankState A.K, BetweenSteps st S → AllFin A d m.numElems S.Uc → toBox d m.numElems (vals A S.Uc) ∈ Q →
      ∀ e < m.numElems, ∀ b < d.nb, ∀ s < d.ns,
        A.fin (((nextP D m part g dt st)^[stagesOf st] S).Uc e b s) ∧
        |A.val (((nextP D m part g dt st)^[stagesOf st] S).Uc e b s) -
          stepOf st (A.val dt) (globalRHS d m G) (vals A S.Uc) e b s| ≤ k * A.u := by
  by_contra hcon
  push Not at hcon
  choose A hu hbig D part g hD hg dt hdt hdt0 hdt1 S hS hfin hSQ ee hee bb hbb ss hss bad using hcon
  obtain ⟨a, haQ, φ, hφ, hlim⟩ := hQ.tendsto_subseq hSQ
  set l : Filter ℕ := Filter.map φ atTop with hl
  have hle : l ≤ atTop := hφ.tendsto_atTop
  haveI : l.NeBot := by rw [hl]; infer_instance
  have hlim' : Tendsto (fun k => toBox d m.numElems (vals (A k) (S k).Uc)) l (𝓝 a) := hlim
  have hsmall : Tendsto (fun k : ℕ => 1 / ((k : ℝ) + 1)) l (𝓝 0) := tendsto_one_div_add_atTop_nhds_zero_nat.mono_left hle
  have hA : Fine l A := by
    refine ⟨squeeze_zero (fun k => (A k).u_nonneg) hu hsmall, ?_⟩
    exact tendsto_atTop_mono hbig (tendsto_natCast_atTop_atTop.mono_left hle)
  choose γ' junk junk' hg' hvol hnum using fun k => (hD k).fluxes
  set T : ∀ k, Tables (A k).K := fun k => tablesOf (D k) with hT
  have hDT : ∀ k, withTables d (T k) = D k := fun k => (hD k).withTables
  have hM : MachineTr l A d m G T part g (Admissible d.dim γ) (fun U V N => Admissible d.dim γ U ∧ Admissible d.dim γ V ∧
      0 < inner' d.dim N N ∧ (f = .HLLC → WavesOrdered d.dim γ U V (unit d.dim N))) := by
    refine ⟨hA, ?_, ?_, ?_⟩
    · exact ⟨fun q hq b hb => Arith.Close.tr fun k => (hD k).volBasis q hq b hb,
        fun q hq b hb j hj => Arith.Close.tr fun k => (hD k).volGrad q hq b hb j hj,
        fun q hq => Arith.Close.tr fun k => (hD k).volWts q hq,
        fun f hf q hq b hb => Arith.Close.tr fun k => (hD k).faceBasis f hf q hq b hb,
        fun q hq => Arith.Close.tr fun k => (hD k).faceWts q hq⟩
    · intro e he
      exact ⟨fun e' he' q hq => Arith.Close.tr fun k => (hg k e he).djac e' he' q hq,
        fun e' he' q hq i hi j hj => Arith.Close.tr fun k => (hg k e he).ijac e' he' q hq i hi j hj,
        fun e' he' i hi j hj => Arith.Close.tr fun k => (hg k e he).iMM e' he' i hi j hj,
        fun f hf q hq j hj => Arith.Close.tr fun k => (hg k e he).normals f hf q hq j hj⟩
    · exact fluxTr hA hd hγ (Arith.Close.tr hg') hE hvol hnum
  have hX : GoodAt d m G (Admissible d.dim γ) (fun U V N => Admissible d.dim γ U ∧ Admissible d.dim γ V ∧
      0 < inner' d.dim N N ∧ (f = .HLLC → WavesOrdered d.dim γ U V (unit d.dim N))) (ofBox a) := by
    have hr := hreg a haQ
    refine ⟨hr.admissible.vol, fun x hx i hi => ?_⟩
    have hx1 : x.1 ∈ m.faces := List.fst_mem_of_mem_zipIdx hx
    have hx2 : x.2 < m.faces.length := by
      have := List.mem_zipIdx_iff_getElem?.1 hx
      exact (List.getElem?_eq_some_iff.1 this).1
    refine ⟨hr.admissible.left _ hx1 _ ((ho _ (hc.faceL _ hx1).2).1 i hi),
      hr.admissible.right _ hx1 _ ((ho _ (hc.faceR _ hx1).2).1 i hi), ?_, fun hf => hr.waves hf x hx i hi⟩
    have e1 : inner' d.dim (cArr d.dim (G.normals x.2 i)) (cArr d.dim (G.normals x.2 i)) =
        inner' d.dim (G.normals x.2 i) (G.normals x.2 i) :=
      Finset.sum_congr rfl fun j hj => by simp only [cArr, Finset.mem_range.1 hj, if_true]
    rw [e1]
    obtain ⟨j, hj, hne⟩ := hN _ hx2 i hi
    exact Finset.sum_pos' (fun k _ => mul_self_nonneg _) ⟨j, Finset.mem_range.2 hj, mul_self_pos.2 hne⟩
  have hdtT : Tr l A dt (fun k => (A k).val (dt k)) 0 :=
    ⟨squeeze_zero (fun k => (hdt0 k).le) hdt1 hsmall, Eventually.of_forall hdt,
      (isBigO_zero _ _).congr_left fun k => by simp⟩
  have hU : TrCoeffs l A d m.numElems (fun k => (S k).Uc) (fun k => vals (A k) (S k).Uc) (ofBox a) := by
    intro e he b hb s hs
    refine ⟨?_, Eventually.of_forall fun k => hfin k e he b hb s hs,
      (isBigO_zero _ _).congr_left fun k => by simp [vals]⟩
    have h1 := (tendsto_pi_nhds.1 (tendsto_pi_nhds.1 (tendsto_pi_nhds.1 hlim' ⟨e, he⟩) ⟨b, hb⟩) ⟨s, hs⟩)
    have e1 : ofBox a e b s = a ⟨e, he⟩ ⟨b, hb⟩ ⟨s, hs⟩ := by simp [ofBox, he, hb, hs]
    rw [e1]
    exact h1
  have hstep := step_tr hM hm hc ho hdtT st hS hU hX
  simp only [hDT] at hstep
  have hev : ∀ᶠ k in l, ∀ (e : Fin m.numElems) (b : Fin d.nb) (s : Fin d.ns),
      (A k).fin (((nextP (D k) m (part k) (g k) (dt k) st)^[stagesOf st] (S k)).Uc e b s) ∧
        |(A k).val (((nextP (D k) m (part k) (g k) (dt k) st)^[stagesOf st] (S k)).Uc e b s) -
          stepOf st ((A k).val (dt k)) (globalRHS d m G) (vals (A k) (S k).Uc) e b s| ≤ k * (A k).u := by
    rw [eventually_all]; intro e
    rw [eventually_all]; intro b
    rw [eventually_all]; intro s
    have h1 := hstep e e.2 b b.2 s s.2
    obtain ⟨C, hC⟩ := h1.err.bound
    have h2 : ∀ᶠ k : ℕ in l, C ≤ k := (tendsto_natCast_atTop_atTop.mono_left hle).eventually_ge_atTop C
    filter_upwards [h1.fin, hC, h2] with k c1 c2 c3
    rw [Real.norm_eq_abs, Real.norm_of_nonneg (A k).u_nonneg] at c2
    exact ⟨c1, c2.trans (mul_le_mul_of_nonneg_right c3 (A k).u_nonneg)⟩
  obtain ⟨k, hk⟩ := hev.exists
  obtain ⟨c1, c2⟩ := hk ⟨ee k, hee k⟩ ⟨bb k, hbb k⟩ ⟨ss k, hss k⟩
  exact absurd c2 (not_le.2 (bad k c1))


theorem march_fst {E : Type*} (Φ : ℝ → ℝ → E → E) (h : ℝ) (n : ℕ) (u : E) : (march Φ h n u).1 = n * h := by
  induction n with
  | zero => simp [march]
  | succ n ih => rw [march_succ]; simp only [ih]; push_cast; ring

theorem box_norm_le {ne : ℕ} {U V : Coeffs ℝ} {c : ℝ} (hc : 0 ≤ c)
    (h : ∀ e < ne, ∀ b < d.nb, ∀ s < d.ns, |U e b s - V e b s| ≤ c) : ‖toBox d ne U - toBox d ne V‖ ≤ c :=
  (pi_norm_le_iff_of_nonneg hc).2 fun e => (pi_norm_le_iff_of_nonneg hc).2 fun b =>
    (pi_norm_le_iff_of_nonneg hc).2 fun s => h e e.2 b b.2 s s.2

/-- the whole run, for one method -/
theorem rounded_run (hm : MeshOK m) (hd : d.dim = 2 ∨ d.dim = 3) (hE : EulerScheme d f γ) (hγ : 1 < γ)
    (hc : Conforming d norient m) (ho : OrderOK d norient) (hN : NormalsNonzero d m G) (T : ℝ) (hT : 0 ≤ T)
    (y : ℝ → Coeffs ℝ) (hy : ExactSolution d m.numElems T (fun _ => globalRHS d m G) y)
    (hr : ∀ t ∈ Set.Icc 0 T, StatesRegular f γ d m G (y t)) (κ : ℝ) (st : Stepper) :
    ∃ C h0 u0 B : ℝ, 0 ≤ C ∧ 0 < h0 ∧ 0 < u0 ∧ ∀ A : Arith, A.u ≤ u0 → B ≤ A.big →
      ∀ (D : Disc A.K) (part : List ℕ) (g : ℕ → Geom A.K), MachineScheme A κ f γ d D →
      (∀ e < m.numElems, GeomCloseAll A κ d m (g (rankOf part e)) G) →
      ∀ dt : A.K, A.fin dt → 0 < A.val dt → A.val dt ≤ h0 → C * A.u ≤ A.val dt →
      ∀ U0 : Coeffs A.K, (∀ e < m.numElems, ∀ b < d.nb, ∀ s < d.ns, A.Close κ (U0 e b s) (y 0 e b s)) →
      ∀ n : ℕ, n * A.val dt ≤ T → ∀ e < m.numElems, ∀ b < d.nb, ∀ s < d.ns,
        A.fin (((nextP D m part g dt st)^[stagesOf st * n] (startP st U0)).Uc e b s) ∧
        |A.val (((nextP D m part g dt st)^[stagesOf st * n] (startP st U0)).Uc e b s) -
          (stepOf st (A.val dt) (globalRHS d m G))^[n] (y 0) e b s| ≤ C * (A.u / A.val dt) ∧
        |(stepOf st (A.val dt) (globalRHS d m G))^[n] (y 0) e b s - y (n * A.val dt) e b s| ≤ C * A.val dt := by
  set F : Coeffs ℝ → Coeffs ℝ := globalRHS d m G with hFdef
  have hF : ∀ U V, AgreeIn d m.numElems U V → AgreeIn d m.numElems (F U) (F V) := rhs_agree hm
  set z : ℝ → Box d m.numElems := fun t => toBox d m.numElems (y t) with hz
  have hzs := box_solution hF hy
  obtain ⟨R, L, M, hR, hL, hM, tube, inside⟩ := lip_tube (F := boxRHS d m.numElems (fun _ => F) 0)
    (regular_open (ne := m.numElems) (G := G) (f := f) hγ hc ho) (fun u hu => lip_rhs hE hγ hc ho hu)
    (y := z) (fun t ht => (hr t ht).congr hm (agree_symm (ofBox_toBox d m.numElems (y t)))) hzs
  obtain ⟨D0, h1, hD0, h1p, h1le, horder⟩ := tube_order hT hR hL hM tube hzs
  obtain ⟨hmarch, hstab⟩ := horder (boxStep st (fun _ => boxRHS d m.numElems (fun _ => F) 0))
    (by cases st; exact Or.inr rfl; exact Or.inl rfl)
  -- the tube is compact
  have cont : ContinuousOn z (Icc 0 T) := fun t ht => (hzs t ht).continuousWithinAt
  set Q : Set (Box d m.numElems) := {u | ∃ t ∈ Icc 0 T, ‖u - z t‖ ≤ R / 2} with hQdef
  have hQ : IsCompact Q := by
    have h2 : IsCompact (Icc (0 : ℝ) T ×ˢ Metric.closedBall (0 : Box d m.numElems) (R / 2)) :=
      isCompact_Icc.prod (isCompact_closedBall _ _)
    have h3 : ContinuousOn (fun p : ℝ × Box d m.numElems => z p.1 + p.2)
        (Icc (0 : ℝ) T ×ˢ Metric.closedBall (0 : Box d m.numElems) (R / 2)) :=
      (cont.comp continuousOn_fst fun p hp => hp.1).add continuousOn_snd
    have : Q = (fun p : ℝ × Box d m.numElems => z p.1 + p.2) ''
        (Icc (0 : ℝ) T ×ˢ Metric.closedBall (0 : Box d m.numElems) (R / 2)) := by
      ext u
      constructor
      · rintro ⟨t, ht, hu⟩
        exact ⟨(t, u - z t), ⟨ht, by simpa using hu⟩, by simp⟩
      · rintro ⟨p, ⟨hp1, hp2⟩, rfl⟩
        exact ⟨p.1, hp1, by simpa using hp2⟩
    rw [this]
    exact h2.image_of_continuousOn h3
  obtain ⟨k, hk⟩ := round_step (f := f) hm hd hE hγ hc ho hN hQ
    (fun u ⟨t, ht, hu⟩ => inside t ht u (by linarith)) κ st
  set E0 : ℝ := Real.exp (2 * L * T) * (|κ| + T * k) with hE0
  have hE00 : 0 ≤ E0 := by positivity
  refine ⟨max E0 (max (4 * E0 / R) D0), min h1 (1 / ((k : ℝ) + 1)), 1 / ((k : ℝ) + 1), k,
    le_max_of_le_left hE00, by positivity, by positivity, ?_⟩
  intro A hu hB D part g hDm hg dt hdt hdt0 hle hCu U0 hU0 n hn
  set h : ℝ := A.val dt with hh
  have u0 := A.u_nonneg
  have hle1 : h ≤ h1 := hle.trans (min_le_left _ _)
  have hle2 : h ≤ 1 / ((k : ℝ) + 1) := hle.trans (min_le_right _ _)
  set St : ℕ → RankState A.K := fun n => (nextP D m part g dt st)^[stagesOf st * n] (startP st U0) with hSt
  have hSt1 : ∀ n, St (n + 1) = (nextP D m part g dt st)^[stagesOf st] (St n) := by
    intro n
    simp only [hSt]
    rw [Nat.mul_succ, Nat.add_comm, Function.iterate_add_apply]
  have hbs : ∀ (t : ℝ) (U : Coeffs ℝ), boxStep st (fun _ => boxRHS d m.numElems (fun _ => F) 0) t h
      (toBox d m.numElems U) = toBox d m.numElems (stepOf st h F U) := by
    intro t U
    have h2 := boxStep_eq (ne := m.numElems) st (fun _ => F) (fun _ => hF) h t U
    have e : methodAt st h (fun _ => F) t U = stepOf st h F U := by cases st <;> rfl
    rw [e] at h2
    exact h2
  have hx : ∀ n, (march (boxStep st (fun _ => boxRHS d m.numElems (fun _ => F) 0)) h n (z 0)).2 =
      toBox d m.numElems ((stepOf st h F)^[n] (y 0)) := by
    intro n
    induction n with
    | zero => rfl
    | succ n ih => rw [march_succ, Function.iterate_succ_apply']; simp only [ih, hbs]
  have hEu : E0 * (A.u / h) ≤ R / 4 := by
    have h2 : 4 * E0 / R * A.u ≤ h := le_trans (mul_le_mul_of_nonneg_right
      ((le_max_left _ _).trans (le_max_right _ _)) u0) hCu
    rw [div_mul_eq_mul_div, div_le_iff₀ hR] at h2
    rw [← mul_div_assoc, div_le_iff₀ hdt0]
    linarith
  have hsum : Real.exp (2 * L * T) * (|κ| * A.u + T / h * (k * A.u)) ≤ E0 * (A.u / h) := by
    have h2 : A.u ≤ A.u / h := by
      rw [le_div_iff₀ hdt0]
      exact mul_le_of_le_one_right u0 (hle1.trans h1le)
    have h3 : |κ| * A.u + T / h * (k * A.u) ≤ (|κ| + T * k) * (A.u / h) := by
      have : |κ| * A.u ≤ |κ| * (A.u / h) := mul_le_mul_of_nonneg_left h2 (abs_nonneg _)
      have e1 : T / h * (k * A.u) = T * k * (A.u / h) := by ring
      rw [e1, add_mul]; linarith
    rw [hE0, mul_assoc (Real.exp (2 * L * T))]
    exact mul_le_mul_of_nonneg_left h3 (Real.exp_nonneg _)
  have key := perturbed_march (T := T) (r := R / 2) (L := 2 * L) (h := h) (ε := |κ| * A.u) (δ := k * A.u)
    (Φ := boxStep st (fun _ => boxRHS d m.numElems (fun _ => F) 0)) (y := z) (by positivity) hdt0 (by positivity)
    (by positivity) (fun t u v ht hTh hu hv => hstab h t u v hdt0 hle1 ht hTh hu hv)
    (x := fun n => (march (boxStep st (fun _ => boxRHS d m.numElems (fun _ => F) 0)) h n (z 0)).2)
    (z := fun n => toBox d m.numElems (vals A (St n).Uc))
    (P := fun n => BetweenSteps st (St n) ∧ AllFin A d m.numElems (St n).Uc)
    (fun n => by rw [march_succ, march_fst]) (by positivity)
    (fun n hn => by
      obtain ⟨-, a2, a3⟩ := hmarch h n hdt0 hle1 hn
      refine (a2.trans a3).trans (by linarith))
    (by
      show ‖toBox d m.numElems (vals A (St 0).Uc) - toBox d m.numElems (y 0)‖ ≤ _
      refine box_norm_le (by positivity) fun e he b hb s hs => ?_
      have h2 : (St 0).Uc = U0 := startP_Uc st U0
      rw [vals, h2]
      exact (hU0 e he b hb s hs).2.trans (mul_le_mul_of_nonneg_right (le_abs_self _) u0))
    (by
      have h2 : (St 0).Uc = U0 := startP_Uc st U0
      refine ⟨startP_between st U0, ?_⟩
      rw [h2]
      exact fun e he b hb s hs => (hU0 e he b hb s hs).1)
    (by
      rintro n ⟨p1, p2⟩ hn1 hnear
      have tn : (n : ℝ) * h ∈ Icc 0 T := ⟨by positivity, by nlinarith⟩
      have h2 := hk A hu hB D part g hDm hg dt hdt hdt0 hle2 (St n) p1 p2 ⟨_, tn, hnear⟩
      rw [← hSt1] at h2
      refine ⟨⟨by rw [hSt1]; exact between_step D part g dt st _ p1, fun e he b hb s hs => (h2 e he b hb s hs).1⟩, ?_⟩
      rw [hbs]
      exact box_norm_le (by positivity) fun e he b hb s hs => (h2 e he b hb s hs).2)
    (by
      rw [show R / 2 / 2 = R / 4 by ring]
      exact hsum.trans hEu) n hn
  obtain ⟨⟨-, q1⟩, q2⟩ := key
  intro e he b hb s hs
  refine ⟨q1 e he b hb s hs, ?_, ?_⟩
  · refine (entry_le_norm (vals A (St n).Uc) _ he hb hs).trans ?_
    rw [← hx]
    refine (q2.trans hsum).trans (mul_le_mul_of_nonneg_right (le_max_left _ _) (by positivity))
  · refine (entry_le_norm _ _ he hb hs).trans ?_
    rw [← hx]
    refine (hmarch h n hdt0 hle1 hn).2.1.trans (mul_le_mul_of_nonneg_right ?_ hdt0.le)
    exact (le_max_right _ _).trans (le_max_right _ _)

end DG
