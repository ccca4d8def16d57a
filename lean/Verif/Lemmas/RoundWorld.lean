import Verif.Lemmas.RoundExtend

/-!
A run in rounded arithmetic on a mesh whose coordinates are themselves rounded.
-/
namespace DG
variable {α β : Type}

section same
variable {K : Type} [Zero K] [One K] [Add K] [Sub K] [Mul K] [Neg K] [Div K] [NatCast K] [DecidableEq K]

theorem slotVal_faces {d : Disc K} {m : GMesh α} {m' : GMesh β} (h : m'.faces = m.faces) {G : Geom K} {U : Coeffs K}
    {e j s : ℕ} {v : K} : SlotVal d m' G U e j s v ↔ SlotVal d m G U e j s v := by
  unfold SlotVal IsFace
  rw [h]

theorem resRef_faces {d : Disc K} {m : GMesh α} {m' : GMesh β} (h : m'.faces = m.faces) (G : Geom K) (U : Coeffs K) :
    resRef d m' G U = resRef d m G U := by
  have h0 : SlotVal d m' G U = SlotVal d m G U := by
    funext e j s v
    exact propext (slotVal_faces h)
  have : slotRef d m' G U = slotRef d m G U := by
    funext e j s
    unfold slotRef
    rw [h0]
  unfold resRef
  rw [this]

theorem nextP_faces {d : Disc K} {m : GMesh α} {m' : GMesh β} (hn : m'.numElems = m.numElems) (h : m'.faces = m.faces)
    (part : List ℕ) (G : ℕ → Geom K) (dt : K) (st : Stepper) : nextP d m' part G dt st = nextP d m part G dt st := by
  funext S
  unfold nextP
  have : (fun e => resRef d m' (G (rankOf part e)) S.Uc e) = fun e => resRef d m (G (rankOf part e)) S.Uc e := by
    funext e
    rw [resRef_faces h]
  rw [hn, this]

end same

theorem rounded_run_world (m : GMesh α) (hm : MeshOK m) (d : Disc ℝ) (hd : d.dim = 2 ∨ d.dim = 3) (f : NumericalFluxType) (γ : ℝ)
    (hE : EulerScheme d f γ) (hγ : 1 < γ) (norient : ℕ) (hc : Conforming d norient m) (ho : OrderOK d norient) (G : Geom ℝ)
    (hN : NormalsNonzero d m G) (T : ℝ) (hT : 0 ≤ T) (y : ℝ → Coeffs ℝ)
    (hy : ExactSolution d m.numElems T (fun _ => globalRHS d m G) y)
    (hr : ∀ t ∈ Set.Icc 0 T, StatesRegular f γ d m G (y t)) (κ : ℝ) :
    ∃ C h0 u0 B : ℝ, 0 < h0 ∧ 0 < u0 ∧ ∀ A : Arith, A.u ≤ u0 → B ≤ A.big →
      ∀ D : Disc A.K, MachineScheme A κ f γ d D →
      ∀ (β : Type) (m' : GMesh β), m'.numElems = m.numElems → m'.faces = m.faces →
      ∀ (nranks : ℕ) (part : List ℕ) (rms : ℕ → RankMesh β), World m' nranks part rms →
      ∀ g : ℕ → Geom A.K, (∀ r < nranks, GeomClose A κ d (rms r) (g r) G) →
      ∀ u : ℕ → Coeffs A.K, (∀ r < nranks, CoeffsClose A κ d (rms r) (u r) (y 0)) →
      ∀ sched : ℕ → ℕ → List (FluxWrite A.K) → List (FluxWrite A.K), (∀ r k l, (sched r k l).Perm l) →
      ∀ (st : Stepper) (dt : A.K), A.fin dt → 0 < A.val dt → A.val dt ≤ h0 → C * A.u ≤ A.val dt →
      ∀ (nsteps k : ℕ) (c : Proto.Conf (FaceArr (ℕ → ℕ → A.K) × Option (RankState A.K)) (List (ℕ → ℕ → A.K))),
      Proto.Exec (solverProg D g rms nranks dt st sched nsteps) (Proto.init (solverStart D rms st u)) c k →
      ∀ r < nranks, ∀ n : ℕ, (c.proc r).round = stagesOf st * n → n * A.val dt ≤ T →
      ∃ s, (c.proc r).st.2 = some s ∧
        ∀ i e : ℕ, (rms r).l2gElem[i]? = some e → ∀ b < d.nb, ∀ v < d.ns,
          A.fin (s.Uc i b v) ∧
          |A.val (s.Uc i b v) - (stepOf st (A.val dt) (globalRHS d m G))^[n] (y 0) e b v| ≤ C * (A.u / A.val dt) ∧
          |A.val (s.Uc i b v) - y (n * A.val dt) e b v| ≤ C * (A.val dt + A.u / A.val dt) := by
  obtain ⟨C1, h1, u1, B1, hC1, hh1, hu1, H1⟩ := rounded_run hm hd hE hγ hc ho hN T hT y hy hr κ .FE
  obtain ⟨C2, h2, u2, B2, hC2, hh2, hu2, H2⟩ := rounded_run hm hd hE hγ hc ho hN T hT y hy hr κ .RK4
  refine ⟨max C1 C2, min h1 h2, min u1 u2, max B1 B2, lt_min hh1 hh2, lt_min hu1 hu2, ?_⟩
  intro A hu hB D hD β m' hne hfa nranks part rms w g hg u hcu sched hs st dt hdt hdt0 hdt1 hdt2 nsteps k c hx r hrr n hn hnT
  have hu0 := A.u_nonneg
  have hq : 0 ≤ A.u / A.val dt := by positivity
  have hD' := hD.withTables
  have hcD : Conforming D norient m' := by
    rw [← hD']
    exact ⟨by rw [hfa]; exact hc.faceL, by rw [hfa]; exact hc.faceR, by rw [hfa]; exact hc.sides⟩
  have hoD : OrderOK D norient := by rw [← hD']; exact ho
  obtain ⟨s, hI⟩ := w.bitsRunP hcD hoD (G := extGeom m' part rms g) (fun r hr => w.extRestrict D g hr) hs
    (U0 := extCoeffs part rms u) (fun r hr => w.extCoeffsRestrict D u hr) hx hrr
  refine ⟨s, hI.state, ?_⟩
  have e1 := (restrict_iff_via (w.numElems hrr) _ _).2 hI.via.Uc
  intro i e hi b hb v hv
  rw [e1 i e hi b (by rw [hD.nb]; exact hb) v (by rw [hD.ns]; exact hv), hn, nextP_faces hne hfa]
  have he : e < m.numElems := by
    have := List.mem_of_getElem? hi
    rw [(w.res hrr).l2gElem] at this
    rw [← hne]
    exact (mem_owned.1 this).1
  have hgc : ∀ e < m.numElems, GeomCloseAll A κ d m (extGeom m' part rms g (rankOf part e)) G := by
    intro e he
    obtain ⟨a1, a2, a3, a4⟩ := w.extClose hg (w.rankOf_lt (by rw [hne]; exact he)).1
    rw [hne] at a1 a2 a3
    rw [hfa] at a4
    exact ⟨a1, a2, a3, a4⟩
  have hU0 := w.extCoeffsClose hcu
  rw [hne] at hU0
  have fin : ∀ {C : ℝ} {x p q : ℝ}, 0 ≤ C → C ≤ max C1 C2 → |x - p| ≤ C * (A.u / A.val dt) → |p - q| ≤ C * A.val dt →
      |x - p| ≤ max C1 C2 * (A.u / A.val dt) ∧ |x - q| ≤ max C1 C2 * (A.val dt + A.u / A.val dt) := by
    intro C x p q h0 hC h1 h2
    have h3 : C * (A.u / A.val dt) ≤ max C1 C2 * (A.u / A.val dt) := by gcongr
    have h4 : C * A.val dt ≤ max C1 C2 * A.val dt := by gcongr
    refine ⟨h1.trans h3, ?_⟩
    have := abs_sub_le x p q
    rw [mul_add]
    linarith
  have hCu : ∀ {C : ℝ}, C ≤ max C1 C2 → C * A.u ≤ A.val dt := fun h =>
    (mul_le_mul_of_nonneg_right h hu0).trans hdt2
  cases st with
  | FE =>
    obtain ⟨a, b1, b2⟩ := H1 A (hu.trans (min_le_left _ _)) ((le_max_left _ _).trans hB) D part _ hD hgc dt hdt hdt0
      (hdt1.trans (min_le_left _ _)) (hCu (le_max_left _ _)) _ hU0 n hnT e he b hb v hv
    exact ⟨a, fin hC1 (le_max_left _ _) b1 b2⟩
  | RK4 =>
    obtain ⟨a, b1, b2⟩ := H2 A (hu.trans (min_le_right _ _)) ((le_max_right _ _).trans hB) D part _ hD hgc dt hdt hdt0
      (hdt1.trans (min_le_right _ _)) (hCu (le_max_right _ _)) _ hU0 n hnT e he b hb v hv
    exact ⟨a, fin hC2 (le_max_right _ _) b1 b2⟩

/-! ### two forms of the exact scheme -/

theorem DiscAgree.exactSolution {norient : ℕ} {d d' : Disc ℝ} (h : DiscAgree norient d d') {m : GMesh α}
    (hm : MeshOK m) (hc : Conforming d norient m) (ho : OrderOK d norient) {G : Geom ℝ} {T : ℝ} {y : ℝ → Coeffs ℝ}
    (hy : ExactSolution d' m.numElems T (fun _ => globalRHS d' m G) y) :
    ExactSolution d m.numElems T (fun _ => globalRHS d m G) y := by
  intro t ht e he b hb v hv
  beta_reduce
  rw [h.rhs hm hc ho G (y t) (y t) (fun _ _ _ _ _ _ => rfl) e he b hb v hv]
  exact hy t ht e he b (by rw [← h.nb]; exact hb) v (by rw [← h.ns]; exact hv)

theorem DiscAgree.statesRegular {norient : ℕ} {d d' : Disc ℝ} (h : DiscAgree norient d d') {m : GMesh α}
    (hc : Conforming d norient m) (ho : OrderOK d norient) {G : Geom ℝ} {f : NumericalFluxType} {γ : ℝ} {U : Coeffs ℝ}
    (hr : StatesRegular f γ d' m G U) : StatesRegular f γ d m G U := by
  obtain ⟨⟨r1, r2, r3⟩, r4⟩ := hr
  obtain ⟨e1, e2, e3, e4, e5, e6, hvb, hvg, hvw, hfb, hfw, hpo, hvf, hnf⟩ := h
  have hvs : ∀ e : ℕ, ∀ q < d.nq, volState d U e q = volState d' U e q := by
    intro e q hq
    funext s
    unfold volState
    rw [← e2, ← e3]
    split
    · exact Finset.sum_congr rfl fun b hb => by rw [hvb q hq b (Finset.mem_range.1 hb)]
    · rfl
  have hts : ∀ e : ℕ, ∀ f < d.nface, ∀ j < d.nqf, traceState d U e f j = traceState d' U e f j := by
    intro e f hf j hj
    funext s
    unfold traceState
    rw [← e2, ← e3]
    split
    · exact Finset.sum_congr rfl fun b hb => by rw [hfb f hf j hj b (Finset.mem_range.1 hb)]
    · rfl
  refine ⟨⟨?_, ?_, ?_⟩, ?_⟩
  · intro e he q hq
    rw [hvs e q hq, e1]
    exact r1 e he q (by rw [← e4]; exact hq)
  · intro f hf i hi
    rw [hts _ _ (hc.faceL f hf).1 i hi, e1]
    exact r2 f hf i (by rw [← e6]; exact hi)
  · intro f hf i hi
    rw [hts _ _ (hc.faceR f hf).1 i hi, e1]
    exact r3 f hf i (by rw [← e6]; exact hi)
  · intro hH x hx i hi
    have hf : x.1 ∈ m.faces := List.mem_of_getElem? (mem_zipIdx_lt hx)
    obtain ⟨cL, oL⟩ := hc.faceL _ hf
    obtain ⟨cR, oR⟩ := hc.faceR _ hf
    rw [hts _ _ cL _ ((ho _ oL).1 i hi), hts _ _ cR _ ((ho _ oR).1 i hi), hpo _ oL i hi, hpo _ oR i hi, e1]
    exact r4 hH x hx i (by rw [← e6]; exact hi)

end DG
