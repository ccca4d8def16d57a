import Verif.Lemmas.KernelFlux
import Verif.Lemmas.SolverRun

/-! The sequences of kernels of `Model/Kernels.lean` against the functions of `Model/Solver.lean` and
`Model/Network.lean`. -/
namespace DG.Dev
open Kernel

variable {K : Type} [Zero K] [One K] [Add K] [Sub K] [Mul K] [Neg K] [Div K] [NatCast K] {α : Type}

/-- the entries of a view below the extents -/
def ViewIs (m : Cell → K) (v : View) (n0 n1 n2 : ℕ) (f : ℕ → ℕ → ℕ → K) : Prop :=
  ∀ i < n0, ∀ j < n1, ∀ k < n2, m ⟨v, i, j, k, 0⟩ = f i j k

/-- a view holds a list of blocks -/
def BlocksAre (m : Cell → K) (v : View) (n1 n2 : ℕ) (L : List (ℕ → ℕ → K)) : Prop :=
  ∀ (i : ℕ) (B : ℕ → ℕ → K), L[i]? = some B → ∀ j < n1, ∀ k < n2, m ⟨v, i, j, k, 0⟩ = B j k

/-- only the given views have changed -/
def OnlyChanged (vs : View → Prop) (m m' : Cell → K) : Prop := ∀ c, ¬ vs c.view → m' c = m c

theorem OnlyChanged.view {vs : View → Prop} {m m' : Cell → K} (h : OnlyChanged vs m m') {v : View}
    (hv : ¬ vs v) {n0 n1 n2 : ℕ} {f : ℕ → ℕ → ℕ → K} (hf : ViewIs m v n0 n1 n2 f) :
    ViewIs m' v n0 n1 n2 f := fun i hi j hj k hk => (h _ hv).trans (hf i hi j hj k hk)

theorem OnlyChanged.blocks {vs : View → Prop} {m m' : Cell → K} (h : OnlyChanged vs m m') {v : View}
    (hv : ¬ vs v) {n1 n2 : ℕ} {L : List (ℕ → ℕ → K)} (hf : BlocksAre m v n1 n2 L) :
    BlocksAre m' v n1 n2 L := fun i B hB j hj k hk => (h _ hv).trans (hf i B hB j hj k hk)

theorem foldl_congr_range {σ : Type} {n : ℕ} {f f' : σ → ℕ → σ} (h : ∀ i < n, ∀ a, f a i = f' a i) (a : σ) :
    (List.range n).foldl f a = (List.range n).foldl f' a := by
  suffices hs : ∀ (l : List ℕ), (∀ i ∈ l, i < n) → ∀ a, l.foldl f a = l.foldl f' a from
    hs _ (fun i hi => List.mem_range.1 hi) a
  intro l
  induction l with
  | nil => intro _ a; rfl
  | cons x l ih =>
    intro hl a
    rw [List.foldl_cons, List.foldl_cons, h x (hl x (by simp)), ih fun i hi => hl i (by simp [hi])]

variable [DecidableEq K] [NeZero (1 : K)]

/-- volume part of the residual as `residual` computes it -/
def volRes (d : Disc K) (g : Geom K) (u : ℕ → ℕ → ℕ → K) (e b s : ℕ) : K :=
  volumeIntegral d (fun iq is id => volumeFlux d g
    (evaluateState d.nq d.nb d.ns d.volBasis (u e) (fun _ _ => 0)) e iq is id) b s 0

theorem evaluateState_eq {nq nb ns : ℕ} {B Uc Uq0 : ℕ → ℕ → K} {q s : ℕ} (hq : q < nq) (hs : s < ns) :
    evaluateState nq nb ns B Uc Uq0 q s = 0 + loopSum nb fun p => (1 * B q p) * Uc p s := by
  simp [evaluateState, cAxB_to_C, gemm, hq, hs]

/-- a view after an evaluation kernel -/
theorem evalKernel_view (ne nq ns nb : ℕ) (B : ℕ → ℕ → K) (dst : View) (hd : dst ≠ .Uc) (m : Cell → K)
    (u : ℕ → ℕ → ℕ → K) (hu : ViewIs m .Uc ne nb ns u) (Uq0 : ℕ → ℕ → ℕ → K) :
    ∃ m', (evalKernel ne nq ns nb B dst).Computes m m' ∧
      ViewIs m' dst ne nq ns (fun e => evaluateState nq nb ns B (u e) (Uq0 e)) ∧
      OnlyChanged (· = dst) m m' := by
  refine ⟨_, gemmKernel_computes true ne nq ns nb 1 (fun _ => B) .Uc dst (Ne.symm hd) m, ?_, ?_⟩
  · intro e he q hq s hs
    rw [put_in he hq hs (by omega)]
    show _ = evaluateState nq nb ns B (u e) (Uq0 e) q s
    rw [evaluateState_eq hq hs]
    simp only [if_true]
    exact congrArg (0 + ·) (loopSum_congr fun p hp => by rw [hu e he p hp s hs])
  · intro c hc; exact put_other hc

theorem volumePart (d : Disc K) (g : Geom K) (ne : ℕ) (m : Cell → K) (u : ℕ → ℕ → ℕ → K)
    (hu : ViewIs m .Uc ne d.nb d.ns u) :
    ∃ m', Then (fillKernel .res ne d.nb d.ns 0).Computes (Then
        (evalKernel ne d.nq d.ns d.nb d.volBasis .uqVol).Computes (Then
        (volumeFluxKernel d g ne).Computes (volumeIntegralKernel d ne).Computes)) m m' ∧
      ViewIs m' .res ne d.nb d.ns (volRes d g u) ∧
      OnlyChanged (fun v => v = .res ∨ v = .uqVol ∨ v = .vgUq) m m' := by
  have h1 := fillKernel_computes .res ne d.nb d.ns (0 : K) m
  set m1 := put .res ne d.nb d.ns 1 (fun _ _ _ _ => 0) m with hm1
  have hu1 : ViewIs m1 .Uc ne d.nb d.ns u := fun i hi j hj k hk => by
    rw [hm1, put_other (by simp)]; exact hu i hi j hj k hk
  obtain ⟨m2, h2, v2, c2⟩ := evalKernel_view ne d.nq d.ns d.nb d.volBasis .uqVol (by decide) m1 u hu1
    (fun _ _ _ => 0)
  have h3 := volumeFluxKernel_computes d g ne m2
  set m3 := put .uqVol ne d.nq d.ns 1 (fun _ _ _ _ => 0) (put .vgUq ne d.nq d.ns d.dim
    (fun e q s i => volumeFlux d g (fun q s => m2 ⟨.uqVol, e, q, s, 0⟩) e q s i) m2) with hm3
  refine ⟨_, ⟨m1, h1, m2, h2, m3, h3, volumeIntegralKernel_computes d ne m3⟩, ?_, ?_⟩
  · intro e he b hb s hs
    rw [put_in he hb hs (by omega)]
    have hr : m3 ⟨.res, e, b, s, 0⟩ = 0 := by
      rw [hm3, put_other (by simp), put_other (by simp), c2 _ (by simp), hm1, put_in he hb hs (by omega)]
    rw [hr]
    unfold volRes volumeIntegral
    refine foldl_congr_range (fun q hq a => foldl_congr_range (fun i hi a => ?_) a) _
    show a + d.volGrad q b i * m3 ⟨.vgUq, e, q, s, i⟩ = a + d.volGrad q b i * volumeFlux d g _ e q s i
    rw [hm3, put_other (by simp), put_in he hq hs hi]
    unfold volumeFlux
    have : (cArr d.ns fun s => m2 ⟨.uqVol, e, q, s, 0⟩) =
        cArr d.ns (evaluateState d.nq d.nb d.ns d.volBasis (u e) (fun _ _ => 0) q) := by
      funext t
      unfold cArr
      split
      · exact v2 e he q hq t ‹_›
      · rfl
    simp only [this]
  · intro c hc
    simp only [not_or] at hc
    rw [put_other hc.1, hm3, put_other hc.2.1, put_other hc.2.2, c2 _ hc.2.1, hm1, put_other hc.1]

/-- what `construct_face_states` leaves in the blocks of one side -/
theorem mapM_getElem? {ι β : Type} {f : ι → Option β} : ∀ {l : List ι} {l' : List β},
    l.mapM f = some l' → ∀ i : ℕ, l'[i]? = l[i]?.bind f := by
  intro l
  induction l with
  | nil => intro l' h i; simp at h; subst h; simp
  | cons a l ih =>
    intro l' h i
    rw [List.mapM_cons] at h
    obtain ⟨b, hb, h⟩ := Option.bind_eq_some_iff.mp h
    obtain ⟨l2, h2, h⟩ := Option.bind_eq_some_iff.mp h
    cases h
    cases i with
    | zero => simp [hb]
    | succ i => simpa using ih h2 i

theorem facePart (d : Disc K) (rm : RankMesh α) (rank : ℕ) (m : Cell → K) (u : ℕ → ℕ → ℕ → K)
    (hu : ViewIs m .Uc rm.numElemsPart d.nb d.ns u) (U U' : FaceArr (ℕ → ℕ → K))
    (hL : BlocksAre m .UqL d.nqf d.ns U.L) (hR : BlocksAre m .UqR d.nqf d.ns U.R)
    (Uq0 : ℕ → ℕ → ℕ → K) (hf : faceStates d rm rank u Uq0 U = some U') :
    ∃ m', Then (evalKernel rm.numElemsPart (d.nface * d.nqf) d.ns d.nb (faceBasisFlat d) .Uq).Computes
        (faceStateKernel d rank rm.rows).Computes m m' ∧
      BlocksAre m' .UqL d.nqf d.ns U'.L ∧ BlocksAre m' .UqR d.nqf d.ns U'.R ∧
      OnlyChanged (fun v => v = .Uq ∨ v = .UqL ∨ v = .UqR) m m' := by
  obtain ⟨m1, h1, v1, c1⟩ := evalKernel_view rm.numElemsPart (d.nface * d.nqf) d.ns d.nb (faceBasisFlat d)
    .Uq (by decide) m u hu Uq0
  refine ⟨_, ⟨m1, h1, faceStateKernel_computes d rank rm.rows m1⟩, ?_, ?_, ?_⟩
  · unfold faceStates constructFaceStates at hf
    obtain ⟨L, e1, hf⟩ := Option.bind_eq_some_iff.mp hf
    obtain ⟨R, e2, hf⟩ := Option.bind_eq_some_iff.mp hf
    cases hf
    intro i B hB q hq s hs
    have := mapM_getElem? e1 i
    rw [hB, List.getElem?_zipIdx] at this
    cases hUi : U.L[i]? with
    | none => rw [hUi] at this; simp at this
    | some B0 =>
      rw [hUi] at this
      simp only [Option.map_some, Option.bind_some, Nat.zero_add, Option.bind_eq_bind] at this
      have hold := hL i B0 hUi q hq s hs
      simp only [putFaces]
      rw [if_pos ⟨hq, hs, trivial⟩]
      cases hrow : rm.rows[i]? with
      | none => rw [hrow] at this; simp at this
      | some row =>
        rw [hrow] at this
        simp only [Option.bind_some] at this
        simp only
        split
        · rename_i hp
          rw [if_pos hp] at this
          unfold gatherSide at this
          split at this
          · rename_i hb
            cases this
            simp only
            rw [if_pos ⟨hq, hs⟩, v1 _ hb.1 _ (hb.2 q hq) s hs]
          · cases this
        · rename_i hp
          rw [if_neg hp] at this
          cases this
          rw [c1 _ (by simp), hold]
  · unfold faceStates constructFaceStates at hf
    obtain ⟨L, e1, hf⟩ := Option.bind_eq_some_iff.mp hf
    obtain ⟨R, e2, hf⟩ := Option.bind_eq_some_iff.mp hf
    cases hf
    intro i B hB q hq s hs
    have := mapM_getElem? e2 i
    rw [hB, List.getElem?_zipIdx] at this
    cases hUi : U.R[i]? with
    | none => rw [hUi] at this; simp at this
    | some B0 =>
      rw [hUi] at this
      simp only [Option.map_some, Option.bind_some, Nat.zero_add, Option.bind_eq_bind] at this
      have hold := hR i B0 hUi q hq s hs
      simp only [putFaces]
      rw [if_pos ⟨hq, hs, trivial⟩]
      cases hrow : rm.rows[i]? with
      | none => rw [hrow] at this; simp at this
      | some row =>
        rw [hrow] at this
        simp only [Option.bind_some] at this
        simp only
        split
        · rename_i hp
          rw [if_pos hp] at this
          unfold gatherSide at this
          split at this
          · rename_i hb
            cases this
            simp only
            rw [if_pos ⟨hq, hs⟩, v1 _ hb.1 _ (hb.2 q hq) s hs]
          · cases this
        · rename_i hp
          rw [if_neg hp] at this
          cases this
          rw [c1 _ (by simp), hold]
  · intro c hc
    simp only [not_or] at hc
    have : putFaces d rank rm.rows m1 c = m1 c := by
      unfold putFaces
      split
      · split
        · rename_i hv _; exact absurd hv hc.2.1
        · rename_i hv _; exact absurd hv hc.2.2
        · rfl
      · rfl
    rw [this, c1 _ hc.1]

/-- the views changed before the exchange -/
def preViews (v : View) : Prop := v = .res ∨ v = .uqVol ∨ v = .vgUq ∨ v = .Uq ∨ v = .UqL ∨ v = .UqR

theorem before_sim (d : Disc K) (g : Geom K) (rm : RankMesh α) (rank : ℕ) (m : Cell → K)
    (u : ℕ → ℕ → ℕ → K) (hu : ViewIs m .Uc rm.numElemsPart d.nb d.ns u) (U U' : FaceArr (ℕ → ℕ → K))
    (hL : BlocksAre m .UqL d.nqf d.ns U.L) (hR : BlocksAre m .UqR d.nqf d.ns U.R)
    (Uq0 : ℕ → ℕ → ℕ → K) (hf : faceStates d rm rank u Uq0 U = some U') :
    ∃ m', beforeExchange Computes d g rank rm.numElemsPart rm.rows m m' ∧
      ViewIs m' .res rm.numElemsPart d.nb d.ns (volRes d g u) ∧
      BlocksAre m' .UqL d.nqf d.ns U'.L ∧ BlocksAre m' .UqR d.nqf d.ns U'.R ∧
      OnlyChanged preViews m m' := by
  obtain ⟨m1, ⟨a, ha, b, hb, c, hc, hd⟩, r1, c1⟩ := volumePart d g rm.numElemsPart m u hu
  obtain ⟨m2, ⟨e, he, hf2⟩, l2, r2, c2⟩ := facePart d rm rank m1 u (c1.view (by simp) hu) U U'
    (c1.blocks (by simp) hL) (c1.blocks (by simp) hR) Uq0 hf
  refine ⟨m2, ⟨a, ha, b, hb, c, hc, m1, hd, e, he, hf2⟩, c2.view (by simp) r1, l2, r2, ?_⟩
  intro x hx
  simp only [preViews, not_or] at hx
  rw [c2 x (by simp [hx]), c1 x (by simp [hx])]

/-- blocks that agree below the extents lead to the same assignments -/
theorem fluxWrites_congr {d : Disc K} {rank : ℕ} {rows : List FaceRow} {Fq Fq' : List (ℕ → ℕ → K)}
    (hl : Fq.length = Fq'.length) (h : ∀ (i : ℕ) (B B' : ℕ → ℕ → K), Fq[i]? = some B → Fq'[i]? = some B' →
      ∀ q < d.nqf, ∀ s < d.ns, B q s = B' q s) :
    fluxWrites d rank rows Fq = fluxWrites d rank rows Fq' := by
  unfold fluxWrites
  induction rows generalizing Fq Fq' with
  | nil => rfl
  | cons row rows ih =>
    cases Fq with
    | nil =>
      cases Fq' with
      | nil => rfl
      | cons => simp at hl
    | cons B Fq =>
      cases Fq' with
      | nil => simp at hl
      | cons B' Fq' =>
        simp only [List.length_cons, Nat.add_right_cancel_iff] at hl
        rw [List.zip_cons_cons, List.zip_cons_cons, List.flatMap_cons, List.flatMap_cons,
          ih hl fun i B B' hB hB' => h (i + 1) B B' (by simpa using hB) (by simpa using hB')]
        congr 1
        have h0 := h 0 B B' rfl rfl
        refine List.flatMap_congr fun q hq => ?_
        have hq := List.mem_range.1 hq
        unfold fluxWritesAt
        have e1 : ((List.range d.ns).map fun is => (⟨row.elemL, row.faceL * d.nqf + d.ptsOrder row.orientL q,
            is, -1 * B q is⟩ : FluxWrite K)) = (List.range d.ns).map fun is =>
            ⟨row.elemL, row.faceL * d.nqf + d.ptsOrder row.orientL q, is, -1 * B' q is⟩ :=
          List.map_congr_left fun s hs => by rw [h0 q hq s (List.mem_range.1 hs)]
        have e2 : ((List.range d.ns).map fun is => (⟨row.elemR, row.faceR * d.nqf + d.ptsOrder row.orientR q,
            is, B q is⟩ : FluxWrite K)) = (List.range d.ns).map fun is =>
            ⟨row.elemR, row.faceR * d.nqf + d.ptsOrder row.orientR q, is, B' q is⟩ :=
          List.map_congr_left fun s hs => by rw [h0 q hq s (List.mem_range.1 hs)]
        simp only [e1, e2]

theorem after_sim (d : Disc K) (g : Geom K) (rm : RankMesh α) (rank norient : ℕ)
    (hrows : RowsOK d norient rm.numElemsPart rank rm.rows) (ho : OrderOK d norient)
    (hlen : rm.rows.length = rm.numIFacesPart)
    (sched : List (FluxWrite K) → List (FluxWrite K)) (hs : ∀ l, (sched l).Perm l) (m : Cell → K)
    (u : ℕ → ℕ → ℕ → K) (U : FaceArr (ℕ → ℕ → K))
    (hL : BlocksAre m .UqL d.nqf d.ns U.L) (hR : BlocksAre m .UqR d.nqf d.ns U.R)
    (Fe0 res0 : ℕ → ℕ → ℕ → K) (hFe : ViewIs m .FqElem rm.numElemsPart (d.nface * d.nqf) d.ns Fe0)
    (hv : ViewIs m .res rm.numElemsPart d.nb d.ns (volRes d g u)) (res Fe : ℕ → ℕ → ℕ → K)
    (hres : residual d g rm rank sched u U (fun _ _ _ => 0) Fe0 res0 = some (res, Fe)) :
    ∃ m', afterExchange Computes d g rank rm.numElemsPart rm.rows m m' ∧
      ViewIs m' .res rm.numElemsPart d.nb d.ns res ∧
      ViewIs m' .FqElem rm.numElemsPart (d.nface * d.nqf) d.ns Fe ∧
      OnlyChanged (fun v => v = .res ∨ v = .Fq ∨ v = .FqElem) m m' := by
  unfold residual at hres
  obtain ⟨Fq, e1, hres⟩ := Option.bind_eq_some_iff.mp hres
  obtain ⟨Fe', e2, hres⟩ := Option.bind_eq_some_iff.mp hres
  have h1 := faceFluxKernel_computes d g rm.rows.length m
  set m1 := put .Fq rm.rows.length d.nqf d.ns 1 (fun i q s _ =>
      d.numFlux (cArr d.ns fun s => m ⟨.UqL, i, q, s, 0⟩) (cArr d.ns fun s => m ⟨.UqR, i, q, s, 0⟩)
        (cArr d.dim (g.normals i q)) s * d.faceWts q) m with hm1
  have hFql : Fq.length = rm.rows.length := by
    rw [mapM_length _ _ _ e1, List.length_range, hlen]
  -- the fluxes of the kernel are those of the function
  have hw : fluxWrites d rank rm.rows (fqBlocks rm.rows.length m1) = fluxWrites d rank rm.rows Fq := by
    refine fluxWrites_congr (by simp [fqBlocks, hFql]) ?_
    intro i B B' hB hB' q hq s hs
    have hi : i < rm.rows.length := by rw [← hFql]; exact (List.getElem?_eq_some_iff.1 hB').1
    rw [fqBlocks, List.getElem?_map, List.getElem?_range hi] at hB
    cases hB
    show m1 ⟨.Fq, i, q, s, 0⟩ = B' q s
    rw [hm1, put_in hi hq hs (by omega)]
    have := mapM_getElem? e1 i
    rw [hB', List.getElem?_range (by omega)] at this
    simp only [Option.bind_some] at this
    unfold faceFlux at this
    obtain ⟨L, l1, this⟩ := Option.bind_eq_some_iff.mp this.symm
    obtain ⟨R, l2, this⟩ := Option.bind_eq_some_iff.mp this
    cases this
    have f1 : (cArr d.ns fun s => m ⟨.UqL, i, q, s, 0⟩) = cArr d.ns (L q) := by
      funext t; unfold cArr; split
      · exact hL i L l1 q hq t ‹_›
      · rfl
    have f2 : (cArr d.ns fun s => m ⟨.UqR, i, q, s, 0⟩) = cArr d.ns (R q) := by
      funext t; unfold cArr; split
      · exact hR i R l2 q hq t ‹_›
      · rfl
    rw [f1, f2]
  have hb := fluxWrites_inB hrows ho Fq
  have hnd := fluxWrites_nodup hrows ho Fq hFql.symm
  rw [writeFluxes_perm d _ _ _ _ (hs _) hb hnd] at e2
  obtain ⟨FeA, a1, a2, a3⟩ := writeFluxes_spec d rm.numElemsPart _ Fe0 hb hnd
  rw [a1] at e2
  have e2 := Option.some.inj e2
  subst e2
  have hr1 := congrArg Prod.fst (Option.some.inj hres)
  have hr2 := congrArg Prod.snd (Option.some.inj hres)
  simp only at hr1 hr2
  subst hr1 hr2
  obtain ⟨FeB, b1, b2, b3⟩ := writeFluxes_spec d rm.numElemsPart (fluxWrites d rank rm.rows Fq)
    (fun e j s => m1 ⟨.FqElem, e, j, s, 0⟩) hb hnd
  have h2 := fluxStateKernel_computes hrows ho m1 FeB (by rw [hw]; exact b1)
  have hAB : ∀ e < rm.numElemsPart, ∀ j < d.nface * d.nqf, ∀ s < d.ns, FeB e j s = FeA e j s := by
    intro e he j hj s hs
    by_cases hk : (e, j, s) ∈ (fluxWrites d rank rm.rows Fq).map FluxWrite.key
    · obtain ⟨x, hx, hxk⟩ := List.mem_map.1 hk
      simp only [FluxWrite.key, Prod.mk.injEq] at hxk
      obtain ⟨rfl, rfl, rfl⟩ := hxk
      rw [a2 x hx, b2 x hx]
    · rw [a3 _ _ _ hk, b3 _ _ _ hk, hm1, put_other (by simp)]
      exact hFe e he j hj s hs
  have h3 := gemmKernel_computes false rm.numElemsPart d.nb d.ns (d.nface * d.nqf) 1
    (fun _ i p => faceBasisFlat d p i) .FqElem .res (by decide) (putFe FeB m1)
  refine ⟨_, ⟨m1, h1, putFe FeB m1, h2, h3⟩, ?_, ?_, ?_⟩
  · intro e he b hb s hs
    rw [put_in he hb hs (by omega), if_neg Bool.false_ne_true]
    simp only [if_pos he]
    unfold cATxBpC_to_C gemm
    rw [if_pos ⟨hb, hs⟩, if_neg one_ne_zero, if_pos rfl]
    congr 1
    · have : putFe FeB m1 ⟨.res, e, b, s, 0⟩ = volRes d g u e b s := by
        simp only [putFe]
        rw [if_neg (by simp), hm1, put_other (by simp)]
        exact hv e he b hb s hs
      rw [this]
      simp only
      rw [if_pos ⟨he, hb, hs⟩, if_pos ⟨he, hb, hs⟩]
      rfl
    · refine loopSum_congr fun p hp => ?_
      simp only [putFe]
      rw [if_pos ⟨trivial, trivial⟩, hAB e he p hp s hs]
  · intro e he j hj s hs
    rw [put_other (by simp)]
    simp only [putFe]
    rw [if_pos ⟨trivial, trivial⟩, hAB e he j hj s hs]
  · intro c hc
    simp only [not_or] at hc
    rw [put_other hc.1]
    simp only [putFe]
    rw [if_neg (fun h => hc.2.2 h.1), hm1, put_other hc.2.1]

end DG.Dev
