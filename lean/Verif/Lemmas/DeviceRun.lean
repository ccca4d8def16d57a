import Verif.Model.DeviceRun
import Verif.Lemmas.KernelExchange
import Verif.Lemmas.ProtoSim
import Verif.Lemmas.SolverRun

/-! The run with kernels against the run with whole-array functions. -/
namespace DG.Dev
open Kernel

variable {K : Type} [Zero K] [One K] [Add K] [Sub K] [Mul K] [Neg K] [Div K] [NatCast K] [NeZero (1 : K)] {α : Type}

/-! ### sequences of kernels: what is computed is what every execution ends with -/

/-- what is computed by all executions is what some execution ends with, and nothing else -/
def Determines (R S : (Cell → K) → (Cell → K) → Prop) : Prop :=
  ∀ m m', R m m' → ∀ m'', S m m'' ↔ m'' = m'

omit [Zero K] [One K] [Add K] [Sub K] [Mul K] [Neg K] [Div K] [NatCast K] [NeZero (1 : K)] in
theorem Computes.determines {T J : Type} [DecidableEq T] [DecidableEq J] (k : Kernel Cell K T J) :
    Determines k.Computes k.Ends := fun m m' h m'' => by
  constructor
  · rintro ⟨n, c, hs, hd, rfl⟩
    exact h.result n c hs hd
  · rintro rfl
    obtain ⟨N, hN⟩ := h.ends
    obtain ⟨n', c', hs, hd⟩ := (hN 0 _ (.refl _)).2
    exact ⟨n', c', hs, hd, h.result n' c' hs hd⟩

omit [Zero K] [One K] [Add K] [Sub K] [Mul K] [Neg K] [Div K] [NatCast K] [NeZero (1 : K)] in
theorem Determines.then {R R' S S' : (Cell → K) → (Cell → K) → Prop} (h : Determines R S)
    (h' : Determines R' S') : Determines (Then R R') (Then S S') := by
  rintro m m' ⟨x, hx, hx'⟩ m''
  constructor
  · rintro ⟨y, hy, hy'⟩
    rw [h m x hx y] at hy
    subst hy
    exact (h' _ m' hx' m'').1 hy'
  · rintro rfl
    exact ⟨x, (h m x hx x).2 rfl, (h' _ _ hx' _).2 rfl⟩

omit [Zero K] [One K] [Add K] [Sub K] [Mul K] [Neg K] [Div K] [NatCast K] [NeZero (1 : K)] in
theorem determines_eq : Determines (K := K) Eq Eq := by
  rintro m m' rfl m''; exact eq_comm

theorem before_determines (d : Disc K) (g : Geom K) (rank ne : ℕ) (rows : List FaceRow) :
    Determines (beforeExchange Computes d g rank ne rows) (beforeExchange Ends d g rank ne rows) := by
  unfold beforeExchange
  exact (Computes.determines _).then <| (Computes.determines _).then <| (Computes.determines _).then <|
    (Computes.determines _).then <| (Computes.determines _).then <| Computes.determines _

theorem after_determines (d : Disc K) (g : Geom K) (rank ne : ℕ) (rows : List FaceRow) :
    Determines (afterExchange Computes d g rank ne rows) (afterExchange Ends d g rank ne rows) := by
  unfold afterExchange
  exact (Computes.determines _).then <| (Computes.determines _).then <| Computes.determines _

theorem pack_determines (d : Disc K) (rm : RankMesh α) (rank N : ℕ) :
    Determines (packAll Computes d rm rank N) (packAll Ends d rm rank N) := by
  induction N with
  | zero => exact determines_eq
  | succ N ih => exact ih.then (Computes.determines _)

theorem unpack_determines (d : Disc K) (rm : RankMesh α) (rank N : ℕ) :
    Determines (unpackAll Computes d rm rank N) (unpackAll Ends d rm rank N) := by
  induction N with
  | zero => exact determines_eq
  | succ N ih => exact ih.then (Computes.determines _)

theorem stage_determines (d : Disc K) (ne : ℕ) (dt : K) (iMM : ℕ → ℕ → ℕ → K) (st : Stepper) (stage : ℕ) :
    Determines (stageUpdate Computes d ne dt iMM st stage) (stageUpdate Ends d ne dt iMM st stage) := by
  unfold stageUpdate
  cases st with
  | FE => exact (Computes.determines _).then (Computes.determines _)
  | RK4 =>
    rcases stage with _ | _ | _ | k
    · exact (Computes.determines _).then (Computes.determines _)
    · exact (Computes.determines _).then (Computes.determines _)
    · exact (Computes.determines _).then (Computes.determines _)
    · exact (Computes.determines _).then <| (Computes.determines _).then <| (Computes.determines _).then <|
        (Computes.determines _).then <| (Computes.determines _).then <| (Computes.determines _).then <|
        Computes.determines _

theorem round_determines (d : Disc K) (g : Geom K) (rm : RankMesh α) (rank : ℕ) (dt : K) (st : Stepper)
    (stage : ℕ) : Determines (deviceRound Computes d g rm rank dt st stage)
      (deviceRound Ends d g rm rank dt st stage) :=
  (unpack_determines d rm rank _).then <| (after_determines d g rank _ _).then <|
    (stage_determines d _ dt _ st stage).then <| (before_determines d g rank _ _).then <|
    pack_determines d rm rank _

theorem start_determines (d : Disc K) (g : Geom K) (rm : RankMesh α) (rank : ℕ) (st : Stepper) :
    Determines (deviceStart Computes d g rm rank st) (deviceStart Ends d g rm rank st) := by
  refine Determines.then ?_ ((before_determines d g rank _ _).then <| pack_determines d rm rank _)
  cases st with
  | FE => exact determines_eq
  | RK4 => exact Computes.determines _

variable [DecidableEq K]

/-- The memory of a rank holds the data of the array model. -/
structure Holds (d : Disc K) (g : Geom K) (rm : RankMesh α) (rank : ℕ)
    (x : FaceArr (ℕ → ℕ → K) × Option (RankState K)) (D : DevState K) (s : RankState K) : Prop where
  state : x.2 = some s
  stages : HoldsStages d rm.numElemsPart D.mem s
  Fe : ViewIs D.mem .FqElem rm.numElemsPart (d.nface * d.nqf) d.ns s.Fe
  res : ViewIs D.mem .res rm.numElemsPart d.nb d.ns (volRes d g s.Uc)
  L : BlocksAre D.mem .UqL d.nqf d.ns x.1.L
  R : BlocksAre D.mem .UqR d.nqf d.ns x.1.R
  send : ∀ n < rm.nbrs.length, ∀ msg, pack rm rank x.1 n = some msg →
    BlocksAre D.mem (.sendBuf n) d.nqf d.ns msg
  stage : D.stage = s.stage
  time : D.time = s.time
  evals : D.evals = s.evals

/-- messages with the same numbers -/
def SameMsg (d : Disc K) (l l' : List (ℕ → ℕ → K)) : Prop :=
  List.Forall₂ (fun B B' : ℕ → ℕ → K => ∀ j < d.nqf, ∀ k < d.ns, B j k = B' j k) l l'

theorem storeGhosts_blocks (d : Disc K) (bufs bufs' : List (List (ℕ → ℕ → K))) (m : Cell → K)
    (h : List.Forall₂ (SameMsg d) bufs bufs') (n : ℕ) (buf : List (ℕ → ℕ → K)) (hn : bufs[n]? = some buf) :
    BlocksAre (storeGhosts d bufs' m) (.ghostBuf n) d.nqf d.ns buf := by
  intro i B hB j hj k hk
  obtain ⟨h1, hn'⟩ := List.getElem?_eq_some_iff.1 hn
  have h1' : n < bufs'.length := by rw [← h.length_eq]; exact h1
  have hs : SameMsg d buf bufs'[n] := by rw [← hn']; exact List.forall₂_iff_get.1 h |>.2 n h1 h1'
  obtain ⟨h2, hB'⟩ := List.getElem?_eq_some_iff.1 hB
  have h2' : i < bufs'[n].length := by rw [← hs.length_eq]; exact h2
  have hv := (List.forall₂_iff_get.1 hs).2 i h2 h2' j hj k hk
  simp only [List.get_eq_getElem, hB'] at hv
  simp only [storeGhosts, List.getElem?_eq_getElem h1', Option.bind_some, List.getElem?_eq_getElem h2']
  simp only [hj, hk, and_self, if_true]
  exact hv.symm

omit [Zero K] [One K] [Add K] [Sub K] [Mul K] [Neg K] [Div K] [NatCast K] [NeZero (1 : K)] [DecidableEq K] in
theorem storeGhosts_only [Zero K] [One K] [Add K] [Sub K] [Mul K] [Neg K] [Div K] [NatCast K] [NeZero (1 : K)] (d : Disc K) (bufs : List (List (ℕ → ℕ → K))) (m : Cell → K) :
    OnlyChanged (fun v => ∃ n, v = .ghostBuf n) m (storeGhosts d bufs m) := by
  intro c hc
  unfold storeGhosts
  split
  · rename_i n h; exact absurd ⟨n, h⟩ hc
  · rfl

theorem msg_same (d : Disc K) (m : Cell → K) (n : ℕ) (msg : List (ℕ → ℕ → K))
    (h : BlocksAre m (.sendBuf n) d.nqf d.ns msg) : SameMsg d msg (bufferMsg d m n msg.length) := by
  refine List.forall₂_iff_get.2 ⟨by simp [bufferMsg], ?_⟩
  intro i hi hi' j hj k hk
  simp only [bufferMsg, List.get_eq_getElem, List.getElem_map, List.getElem_range, hj, hk, and_self, if_true]
  exact (h i _ (List.getElem?_eq_getElem hi) j hj k hk).symm

theorem pack_length {rm : RankMesh α} {rank : ℕ} {U : FaceArr (ℕ → ℕ → K)} {k : ℕ} {msg : List (ℕ → ℕ → K)}
    (h : pack rm rank U k = some msg) : (rm.nFacesPerNbr[k]?).getD 0 = msg.length := by
  unfold pack at h
  obtain ⟨c, hc, h⟩ := Option.bind_eq_some_iff.mp h
  obtain ⟨gl, _, h⟩ := Option.bind_eq_some_iff.mp h
  rw [hc, mapM_length _ _ _ h]; simp

theorem afterResidual_host (d : Disc K) (ne : ℕ) (dt : K) (iMM : ℕ → ℕ → ℕ → K) (st : Stepper)
    (s : RankState K) : (afterResidual d ne dt iMM st s).stage = (hostUpdate st dt s.stage s.time).1 ∧
      (afterResidual d ne dt iMM st s).time = (hostUpdate st dt s.stage s.time).2 ∧
      (afterResidual d ne dt iMM st s).Fe = s.Fe ∧ (afterResidual d ne dt iMM st s).evals = s.evals := by
  cases st with
  | FE => exact ⟨rfl, rfl, rfl, rfl⟩
  | RK4 =>
    unfold afterResidual hostUpdate
    rcases s.stage with _ | _ | _ | k <;> exact ⟨rfl, rfl, rfl, rfl⟩

/-- what a rank launches between two exchanges, under all interleavings -/
theorem round_sim (d : Disc K) (g : Geom K) (rm : RankMesh α) (rank norient : ℕ) (ht : TablesOK rm)
    (hrows : RowsOK d norient rm.numElemsPart rank rm.rows) (ho : OrderOK d norient)
    (hlen : rm.rows.length = rm.numIFacesPart) (dt : K) (st : Stepper)
    (sched : ℕ → List (FluxWrite K) → List (FluxWrite K)) (hs : ∀ k l, (sched k l).Perm l)
    {x : FaceArr (ℕ → ℕ → K) × Option (RankState K)} {D : DevState K} {s : RankState K}
    (h : Holds d g rm rank x D s) {bufs bufs' : List (List (ℕ → ℕ → K))}
    (hb : List.Forall₂ (SameMsg d) bufs bufs') {U : FaceArr (ℕ → ℕ → K)}
    (hU : unpack rm rank x.1 bufs = some U) {U' : FaceArr (ℕ → ℕ → K)} {s' : RankState K}
    (hr : solverRound d g rm rank dt st sched U s = some (U', s')) :
    ∃ m', deviceRound Computes d g rm rank dt st D.stage (storeGhosts d bufs' D.mem) m' ∧
      Holds d g rm rank (U', some s') ⟨m', (hostUpdate st dt D.stage D.time).1,
        (hostUpdate st dt D.stage D.time).2, D.evals + 1⟩ s' := by
  have c0 := storeGhosts_only d bufs' D.mem
  have hno : ∀ v, (∀ n, v ≠ .ghostBuf n) → ¬ ∃ n, v = View.ghostBuf n := fun v hv ⟨n, e⟩ => hv n e
  obtain ⟨m1, k1, l1, r1, c1⟩ := unpack_sim d rm ht rank x.1 U bufs (storeGhosts d bufs' D.mem)
    (c0.blocks (by simp) h.L) (c0.blocks (by simp) h.R)
    (fun n buf hn => storeGhosts_blocks d bufs bufs' D.mem hb n buf hn) hU
  unfold solverRound at hr
  obtain ⟨⟨res, Fe⟩, hres, hr⟩ := Option.bind_eq_some_iff.mp hr
  obtain ⟨U2, hf, hr⟩ := Option.bind_eq_some_iff.mp hr
  cases hr
  obtain ⟨m2, k2, v2, f2, c2⟩ := after_sim d g rm rank norient hrows ho hlen (sched s.evals) (hs _) m1 s.Uc U
    l1 r1 s.Fe s.res (c1.view (by simp [faceViews]) (c0.view (by simp) h.Fe))
    (c1.view (by simp [faceViews]) (c0.view (by simp) h.res)) res Fe hres
  have hst : HoldsStages d rm.numElemsPart m2 { s with res := res, Fe := Fe } := by
    have h' : HoldsStages d rm.numElemsPart D.mem { s with res := res, Fe := Fe } :=
      ⟨h.stages.Uc, h.stages.Uhold, h.stages.dU1, h.stages.dU2, h.stages.dU3, h.stages.dU4⟩
    refine ((h'.only c0 ?_).only c1 ?_).only c2 ?_
    · intro v hv; rcases hv with rfl | rfl | rfl | rfl | rfl | rfl | rfl <;> simp
    · intro v hv; rcases hv with rfl | rfl | rfl | rfl | rfl | rfl | rfl <;> simp [faceViews]
    · intro v hv; rcases hv with rfl | rfl | rfl | rfl | rfl | rfl | rfl <;> simp
  obtain ⟨m3, k3, h3, c3⟩ := stage_sim d rm.numElemsPart dt g.iMM st m2 { s with res := res, Fe := Fe } hst v2
  obtain ⟨e1, e2, e3, e4⟩ := afterResidual_host d rm.numElemsPart dt g.iMM st { s with res := res, Fe := Fe }
  set s1 := afterResidual d rm.numElemsPart dt g.iMM st { s with res := res, Fe := Fe } with hs1
  have nst : ∀ v, v = View.FqElem ∨ v = .UqL ∨ v = .UqR → ¬ stageViews v := by
    rintro v (rfl | rfl | rfl) <;> simp [stageViews]
  obtain ⟨m4, k4, v4, l4, r4, c4⟩ := before_sim d g rm rank m3 s1.Uc h3.Uc U U'
    (c3.blocks (nst _ (by simp)) (c2.blocks (by simp) l1)) (c3.blocks (nst _ (by simp)) (c2.blocks (by simp) r1))
    (fun _ _ _ => 0) hf
  obtain ⟨m5, k5, b5, c5⟩ := pack_sim d rm rank U' m4 l4 r4 rm.nbrs.length
  have k3' : stageUpdate Computes d rm.numElemsPart dt g.iMM st D.stage m2 m3 := by rw [h.stage]; exact k3
  refine ⟨m5, ⟨m1, k1, m2, k2, m3, k3', m4, k4, k5⟩, ?_⟩
  have hpre : ∀ v, stageViews v ∨ v = .FqElem → ¬ preViews v := by
    rintro v ((rfl | rfl | rfl | rfl | rfl | rfl | rfl) | rfl) <;> simp [preViews]
  have hsv : ∀ v, stageViews v ∨ v = .FqElem ∨ v = .res ∨ v = .UqL ∨ v = .UqR → ¬ sendViews v := by
    rintro v ((rfl | rfl | rfl | rfl | rfl | rfl | rfl) | rfl | rfl | rfl | rfl) <;> simp [sendViews]
  have hstg : HoldsStages d rm.numElemsPart m5 s1 :=
    (h3.only c4 fun v hv => hpre v (Or.inl hv)).only c5 fun v hv => hsv v (Or.inl hv)
  exact
    { state := rfl
      stages := ⟨hstg.Uc, hstg.Uhold, hstg.dU1, hstg.dU2, hstg.dU3, hstg.dU4⟩
      Fe := by
        show ViewIs m5 .FqElem _ _ _ s1.Fe
        rw [e3]
        exact c5.view (hsv _ (by simp)) (c4.view (hpre _ (by simp)) (c3.view (nst _ (by simp)) f2))
      res := c5.view (hsv _ (by simp)) v4
      L := c5.blocks (hsv _ (by simp)) l4
      R := c5.blocks (hsv _ (by simp)) r4
      send := b5
      stage := by show _ = s1.stage; rw [e1, h.stage, h.time]
      time := by show _ = s1.time; rw [e2, h.stage, h.time]
      evals := by show _ = s1.evals + 1; rw [e4, h.evals] }

theorem start_sim (d : Disc K) (g : ℕ → Geom K) (rms : ℕ → RankMesh α) (r : ℕ) (st : Stepper)
    (Uc0 : ℕ → ℕ → ℕ → ℕ → K) (s : RankState K) (hs : (solverStart d rms st Uc0 r).2 = some s) :
    ∃ m', deviceStart Computes d (g r) (rms r) r st (memInit (Uc0 r)) m' ∧
      Holds d (g r) (rms r) r (solverStart d rms st Uc0 r) ⟨m', 0, 0, 0⟩ s := by
  unfold solverStart at hs ⊢
  simp only at hs ⊢
  set s0 := beginStep st (⟨Uc0 r, 0, fun _ _ _ => 0, fun _ _ _ => 0, fun _ _ _ => 0,
      fun _ _ _ => 0, fun _ _ _ => 0, fun _ _ _ => 0, fun _ _ _ => 0, 0, 0⟩ : RankState K) with hs0
  set U0 : FaceArr (ℕ → ℕ → K) := ⟨List.replicate (rms r).numIFacesPart (fun _ _ => 0),
    List.replicate (rms r).numIFacesPart (fun _ _ => 0)⟩ with hU0
  cases hf : faceStates d (rms r) r s0.Uc (fun _ _ _ => 0) U0 with
  | none => rw [hf] at hs; cases hs
  | some U =>
    rw [hf] at hs
    have hss : s0 = s := Option.some.inj hs
    subst hss
    simp only
    set ne := (rms r).numElemsPart with hne
    have z : ∀ v, v ≠ .Uc → ∀ n0 n1 n2, ViewIs (memInit (Uc0 r)) v n0 n1 n2 (fun _ _ _ => 0) :=
      fun v hv n0 n1 n2 i _ j _ k _ => if_neg fun h => hv h.1
    have hUc : ViewIs (memInit (Uc0 r)) .Uc ne d.nb d.ns (Uc0 r) := fun i _ j _ k _ => if_pos ⟨rfl, rfl⟩
    obtain ⟨m1, k1, h1, f1, z1⟩ : ∃ m1, (match st with
        | .FE => Eq
        | .RK4 => (copyKernel ne d.nb d.ns .Uc .Uhold).Computes) (memInit (Uc0 r)) m1 ∧
        HoldsStages d ne m1 s0 ∧ ViewIs m1 .FqElem ne (d.nface * d.nqf) d.ns s0.Fe ∧
        (∀ v, v = .UqL ∨ v = .UqR → ∀ i j k, m1 ⟨v, i, j, k, 0⟩ = 0) := by
      cases st with
      | FE =>
        refine ⟨memInit (Uc0 r), rfl, ⟨hUc, ?_, ?_, ?_, ?_, ?_⟩, ?_, ?_⟩
        · exact z _ (by simp) _ _ _
        · exact z _ (by simp) _ _ _
        · exact z _ (by simp) _ _ _
        · exact z _ (by simp) _ _ _
        · exact z _ (by simp) _ _ _
        · exact z _ (by simp) _ _ _
        · rintro v (rfl | rfl) i j k <;> exact if_neg (by simp)
      | RK4 =>
        obtain ⟨m1, k1, v1, c1⟩ := copy_sim d ne .Uc .Uhold (memInit (Uc0 r)) _ hUc
        refine ⟨m1, k1, ⟨c1.view (by simp) hUc, v1, ?_, ?_, ?_, ?_⟩, ?_, ?_⟩
        · exact c1.view (by simp) (z _ (by simp) _ _ _)
        · exact c1.view (by simp) (z _ (by simp) _ _ _)
        · exact c1.view (by simp) (z _ (by simp) _ _ _)
        · exact c1.view (by simp) (z _ (by simp) _ _ _)
        · exact c1.view (by simp) (z _ (by simp) _ _ _)
        · rintro v (rfl | rfl) i j k <;> exact (c1 _ (by simp)).trans (if_neg (by simp))
    have hz : ∀ (v : View), v = .UqL ∨ v = .UqR → ∀ n, BlocksAre m1 v d.nqf d.ns (List.replicate n fun _ _ => 0) := by
      intro v hv n i B hB j _ k _
      rw [List.getElem?_replicate] at hB
      split at hB
      · cases hB; exact z1 v hv i j k
      · cases hB
    obtain ⟨m4, k4, v4, l4, r4, c4⟩ := before_sim d (g r) (rms r) r m1 s0.Uc h1.Uc U0 U
      (hz _ (Or.inl rfl) _) (hz _ (Or.inr rfl) _) (fun _ _ _ => 0) hf
    obtain ⟨m5, k5, b5, c5⟩ := pack_sim d (rms r) r U m4 l4 r4 (rms r).nbrs.length
    have hpre : ∀ v, stageViews v ∨ v = .FqElem → ¬ preViews v := by
      rintro v ((rfl | rfl | rfl | rfl | rfl | rfl | rfl) | rfl) <;> simp [preViews]
    have hsv : ∀ v, stageViews v ∨ v = .FqElem ∨ v = .res ∨ v = .UqL ∨ v = .UqR → ¬ sendViews v := by
      rintro v ((rfl | rfl | rfl | rfl | rfl | rfl | rfl) | rfl | rfl | rfl | rfl) <;> simp [sendViews]
    have hb : s0.stage = 0 ∧ s0.time = 0 ∧ s0.evals = 0 := by
      rw [hs0]; cases st <;> exact ⟨rfl, rfl, rfl⟩
    refine ⟨m5, ⟨m1, ?_, m4, k4, k5⟩, ?_⟩
    · cases st <;> exact k1
    exact
      { state := rfl
        stages := (h1.only c4 fun v hv => hpre v (Or.inl hv)).only c5 fun v hv => hsv v (Or.inl hv)
        Fe := c5.view (hsv _ (by simp)) (c4.view (hpre _ (by simp)) f1)
        res := c5.view (hsv _ (by simp)) v4
        L := c5.blocks (hsv _ (by simp)) l4
        R := c5.blocks (hsv _ (by simp)) r4
        send := b5
        stage := hb.1.symm
        time := hb.2.1.symm
        evals := hb.2.2.symm }

end DG.Dev
