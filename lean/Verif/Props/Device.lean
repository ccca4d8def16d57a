import Verif.Lemmas.DeviceRun
import Verif.Props.Solver
import Verif.Props.Bits

/-!
Properties C69 and C70: the kernels of the time loop, run by many threads under every interleaving of
their single loads and stores, and the whole run of all ranks on top of them.
-/
namespace DG.Dev
open Kernel

variable {K : Type} [Zero K] [One K] [Add K] [Sub K] [Mul K] [Neg K] [Div K] [NatCast K] [DecidableEq K]
  [NeZero (1 : K)] {α : Type}
variable {m : GMesh α} {nranks : ℕ} {part : List ℕ} {rms : ℕ → RankMesh α}

omit [DecidableEq K] in
theorem exists_before (d : Disc K) (g : Geom K) (rank ne : ℕ) (rows : List FaceRow) (mem : Cell → K) :
    ∃ m', beforeExchange Computes d g rank ne rows mem m' :=
  ⟨_, _, fillKernel_computes _ _ _ _ _ _, _, gemmKernel_computes true ne d.nq d.ns d.nb 1 _ .Uc .uqVol (by decide) _,
    _, volumeFluxKernel_computes _ _ _ _, _, volumeIntegralKernel_computes _ _ _,
    _, gemmKernel_computes true ne (d.nface * d.nqf) d.ns d.nb 1 _ .Uc .Uq (by decide) _,
    faceStateKernel_computes _ _ _ _⟩

omit [DecidableEq K] in
theorem exists_after {d : Disc K} (g : Geom K) {norient rank ne : ℕ} {rows : List FaceRow}
    (hr : RowsOK d norient ne rank rows) (ho : OrderOK d norient) (mem : Cell → K) :
    ∃ m', afterExchange Computes d g rank ne rows mem m' := by
  have h1 := faceFluxKernel_computes d g rows.length mem
  obtain ⟨Fe, h2, _⟩ := writeFluxes_spec d ne _ (fun e j s => (put .Fq rows.length d.nqf d.ns 1 (fun i q s _ =>
      d.numFlux (cArr d.ns fun s => mem ⟨.UqL, i, q, s, 0⟩) (cArr d.ns fun s => mem ⟨.UqR, i, q, s, 0⟩)
        (cArr d.dim (g.normals i q)) s * d.faceWts q) mem) ⟨.FqElem, e, j, s, 0⟩)
    (fluxWrites_inB hr ho (fqBlocks rows.length _)) (fluxWrites_nodup hr ho (fqBlocks rows.length _) (by simp [fqBlocks]))
  exact ⟨_, _, h1, _, fluxStateKernel_computes hr ho _ Fe h2,
    gemmKernel_computes false ne d.nb d.ns (d.nface * d.nqf) 1 _ .FqElem .res (by decide) _⟩

omit [DecidableEq K] in
theorem exists_stage (d : Disc K) (ne : ℕ) (dt : K) (iMM : ℕ → ℕ → ℕ → K) (st : Stepper) (stage : ℕ)
    (mem : Cell → K) : ∃ m', stageUpdate Computes d ne dt iMM st stage mem m' := by
  have inv : ∀ dst : View, dst ≠ .res → ∀ mem : Cell → K, ∃ m', (invMassKernel d ne dt iMM dst).Computes mem m' :=
    fun dst h mem => ⟨_, gemmKernel_computes true ne d.nb d.ns d.nb dt iMM .res dst (Ne.symm h) mem⟩
  unfold stageUpdate
  cases st with
  | FE =>
    obtain ⟨m1, h1⟩ := inv .dU (by decide) mem
    exact ⟨_, m1, h1, axpyKernel_computes _ _ _ _ _ _ _ _⟩
  | RK4 =>
    rcases stage with _ | _ | _ | k
    · obtain ⟨m1, h1⟩ := inv .dU1 (by decide) mem
      exact ⟨_, m1, h1, axpyKernel_computes _ _ _ _ _ _ _ _⟩
    · obtain ⟨m1, h1⟩ := inv .dU2 (by decide) mem
      exact ⟨_, m1, h1, axpyKernel_computes _ _ _ _ _ _ _ _⟩
    · obtain ⟨m1, h1⟩ := inv .dU3 (by decide) mem
      exact ⟨_, m1, h1, axpyKernel_computes _ _ _ _ _ _ _ _⟩
    · obtain ⟨m1, h1⟩ := inv .dU4 (by decide) mem
      exact ⟨_, m1, h1, _, axpyKernel_computes _ _ _ _ _ _ _ _, _, axpyKernel_computes _ _ _ _ _ _ _ _,
        _, axpyKernel_computes _ _ _ _ _ _ _ _, _, axpyKernel_computes _ _ _ _ _ _ _ _,
        _, copyKernel_computes _ _ _ _ _ _, copyKernel_computes _ _ _ _ _ _⟩

omit [DecidableEq K] in
theorem exists_pack (d : Disc K) (rm : RankMesh α) (rank N : ℕ) (mem : Cell → K) :
    ∃ m', packAll Computes d rm rank N mem m' := by
  induction N with
  | zero => exact ⟨mem, rfl⟩
  | succ N ih =>
    obtain ⟨m1, h1⟩ := ih
    exact ⟨_, m1, h1, packKernel_computes d rm rank N _ _ m1⟩

omit [DecidableEq K] in
theorem exists_unpack (d : Disc K) {rm : RankMesh α} (ht : TablesOK rm) (rank : ℕ) (mem : Cell → K) :
    ∃ m', unpackAll Computes d rm rank rm.nbrs.length mem m' := by
  -- the arrays the memory holds
  let B : View → ℕ → List (ℕ → ℕ → K) := fun v n => (List.range n).map fun i => fun j k => mem ⟨v, i, j, k, 0⟩
  have hB : ∀ v n, BlocksAre mem v d.nqf d.ns (B v n) := by
    intro v n i x hx j _ k _
    simp only [B, List.getElem?_map] at hx
    obtain ⟨i', h1, h2⟩ := Option.map_eq_some_iff.1 hx
    rw [List.getElem?_range (by
      have := (List.getElem?_eq_some_iff.1 h1).1; simpa using this)] at h1
    cases h1; subst h2; rfl
  let U : FaceArr (ℕ → ℕ → K) := ⟨B .UqL rm.l2gFace.length, B .UqR rm.l2gFace.length⟩
  let bufs := (List.range rm.nbrs.length).map fun n => B (.ghostBuf n) ((rm.ghosts[n]?).getD []).length
  have hbufs : ∀ (n : ℕ) buf, bufs[n]? = some buf → buf = B (.ghostBuf n) ((rm.ghosts[n]?).getD []).length := by
    intro n buf h
    simp only [bufs, List.getElem?_map] at h
    obtain ⟨i', h1, h2⟩ := Option.map_eq_some_iff.1 h
    rw [List.getElem?_range (by
      have := (List.getElem?_eq_some_iff.1 h1).1; simpa using this)] at h1
    cases h1; exact h2.symm
  obtain ⟨U', hU, _⟩ := unpack_spec ht rank U (by intro b; cases b <;> simp [U, B, FaceArr.get]) bufs
    (by simp [bufs]) (by
      intro k gl buf hgl hbuf
      rw [hbufs k buf hbuf, hgl]; simp [B])
  obtain ⟨m', h, _⟩ := unpack_sim d rm ht rank U U' bufs mem (hB _ _) (hB _ _)
    (fun n buf hn => by rw [hbufs n buf hn]; exact hB _ _) hU
  exact ⟨m', h⟩

/-! ### C69 -/

omit [DecidableEq K] in
/-- C69: the kernels a rank launches between two exchanges (unpacking, face fluxes, face integrals, stage
update of either time stepper, volume and face terms of the next residual, packing), launched on any
memory contents whatsoever: every one of them, under every interleaving of the loads and stores of all
its threads, is free of data races, terminates, and leaves one and the same memory. -/
theorem C69_kernels_race_free (w : World m nranks part rms) (d : Disc K) (norient : ℕ)
    (hc : Conforming d norient m) (ho : OrderOK d norient) (g : Geom K) (dt : K) (st : Stepper)
    (r : ℕ) (hr : r < nranks) (stage : ℕ) (mem : Cell → K) :
    ∃ m', deviceRound Computes d g (rms r) r dt st stage mem m' := by
  obtain ⟨m1, h1⟩ := exists_unpack d (w.tables hr) r mem
  obtain ⟨m2, h2⟩ := exists_after g (w.rowsOK hc hr) ho m1
  obtain ⟨m3, h3⟩ := exists_stage d (rms r).numElemsPart dt g.iMM st stage m2
  obtain ⟨m4, h4⟩ := exists_before d g r (rms r).numElemsPart (rms r).rows m3
  obtain ⟨m5, h5⟩ := exists_pack d (rms r) r (rms r).nbrs.length m4
  exact ⟨m5, m1, h1, m2, h2, m3, h3, m4, h4, h5⟩

omit [DecidableEq K] in
/-- C69: the same for the kernels before the first exchange. -/
theorem C69_start_race_free (d : Disc K) (g : Geom K) (rm : RankMesh α) (r : ℕ) (st : Stepper)
    (mem : Cell → K) : ∃ m', deviceStart Computes d g rm r st mem m' := by
  cases st with
  | FE =>
    obtain ⟨m4, h4⟩ := exists_before d g r rm.numElemsPart rm.rows mem
    obtain ⟨m5, h5⟩ := exists_pack d rm r rm.nbrs.length m4
    exact ⟨m5, mem, rfl, m4, h4, h5⟩
  | RK4 =>
    have h1 := copyKernel_computes rm.numElemsPart d.nb d.ns .Uc .Uhold mem
    obtain ⟨m4, h4⟩ := exists_before d g r rm.numElemsPart rm.rows _
    obtain ⟨m5, h5⟩ := exists_pack d rm r rm.nbrs.length m4
    exact ⟨m5, _, h1, m4, h4, h5⟩

omit [DecidableEq K] in
/-- C69: so the outcome of a round does not depend on how its threads are scheduled: there is an
execution, and any two executions end with the same memory. -/
theorem C69_schedule_independent (w : World m nranks part rms) (d : Disc K) (norient : ℕ)
    (hc : Conforming d norient m) (ho : OrderOK d norient) (g : Geom K) (dt : K) (st : Stepper)
    (r : ℕ) (hr : r < nranks) (stage : ℕ) (mem : Cell → K) :
    ∃! m', deviceRound Ends d g (rms r) r dt st stage mem m' := by
  obtain ⟨m', h⟩ := C69_kernels_race_free w d norient hc ho g dt st r hr stage mem
  have hd := round_determines d g (rms r) r dt st stage mem m' h
  exact ⟨m', (hd m').2 rfl, fun y hy => (hd y).1 hy⟩

/-! ### C70 -/

section run
variable {d : Disc K} {norient : ℕ} {G : Geom K} {g : ℕ → Geom K} {st : Stepper} {dt : K}
  {Uc0 : ℕ → ℕ → ℕ → ℕ → K} {U0 : Coeffs K} {x : Executions K}

theorem run_sim (w : World m nranks part rms) (hc : Conforming d norient m) (ho : OrderOK d norient)
    (hx : x.OK d g rms dt st) (nsteps : ℕ) :
    Proto.Sim (solverProg d g rms nranks dt st (fun _ _ l => l) nsteps) (deviceProg x d rms nranks dt st nsteps)
      (fun _ y => ∃ s, y.2 = some s) (fun r y D => ∃ s, Holds d (g r) (rms r) r y D s) (SameMsg d) where
  nranks := rfl
  rounds := rfl
  nbrs := fun _ => rfl
  pack := by
    rintro r hr k e y D msg hk ⟨s, hs⟩ hp
    have hp' : pack (rms r) r y.1 k = some msg := hp
    have hkl : k < (rms r).nbrs.length := (List.getElem?_eq_some_iff.1 hk).1
    refine ⟨_, rfl, ?_⟩
    show SameMsg d msg (bufferMsg d D.mem k (((rms r).nFacesPerNbr[k]?).getD 0))
    rw [pack_length hp']
    exact msg_same d D.mem k msg (hs.send k hkl msg hp')
  accept := by
    intro r hr k msg msg' h
    show ((rms r).nFacesPerNbr[k]? == some msg'.length) = ((rms r).nFacesPerNbr[k]? == some msg.length)
    rw [List.Forall₂.length_eq h]
  finish := by
    rintro r hr y D bufs bufs' y1 ⟨s, hs⟩ hb hf ⟨s1, hy1⟩
    have hf' : (unpack (rms r) r y.1 bufs).map (fun U => solverComp d g rms dt st (fun _ _ l => l) r (U, y.2))
        = some y1 := hf
    obtain ⟨U, hU, hcomp⟩ := Option.map_eq_some_iff.1 hf'
    unfold solverComp at hcomp
    simp only [hs.state] at hcomp
    cases hround : solverRound d (g r) (rms r) r dt st (fun _ l => l) U s with
    | none =>
      rw [hround] at hcomp; simp only at hcomp
      rw [← hcomp] at hy1; cases hy1
    | some z =>
      obtain ⟨U', s'⟩ := z
      rw [hround] at hcomp; simp only at hcomp
      subst hcomp
      obtain ⟨m', h1, h2⟩ := round_sim d (g r) (rms r) r norient (w.tables hr) (w.rowsOK hc hr) ho
        (w.rowsLen hr) dt st (fun _ l => l) (fun _ _ => .refl _) hs hb hU hround
      refine ⟨_, rfl, s', ?_⟩
      have hd := round_determines d (g r) (rms r) r dt st D.stage _ m' h1
      have : x.round r D.evals D.stage (storeGhosts d bufs' D.mem) = m' :=
        (hd _).1 (hx.round r D.evals D.stage _ ⟨m', (hd m').2 rfl⟩)
      rw [this]
      exact h2

theorem run_init (w : World m nranks part rms) (hc : Conforming d norient m) (ho : OrderOK d norient)
    (hx : x.OK d g rms dt st) (hu : ∀ r < nranks, CoeffsRestrict d (rms r) (Uc0 r) U0) :
    Proto.CRel nranks (fun r y D => ∃ s, Holds d (g r) (rms r) r y D s) (SameMsg d)
      (Proto.init (solverStart d rms st Uc0)) (Proto.init (deviceInit x Uc0)) where
  round := fun _ _ => rfl
  phase := fun _ _ => rfl
  bufs := fun _ _ => .nil
  chan := fun _ _ => .nil
  st := by
    intro r hr
    obtain ⟨s, hs⟩ := w.bitsStart (G := g 0) (st := st) (dt := dt) hc ho hu hr
    obtain ⟨m', h1, h2⟩ := start_sim d g rms r st Uc0 s hs.state
    have hd := start_determines d (g r) (rms r) r st _ m' h1
    have : x.start r (memInit (Uc0 r)) = m' := (hd _).1 (hx.start r _ ⟨m', (hd m').2 rfl⟩)
    refine ⟨s, ?_⟩
    show Holds d (g r) (rms r) r (solverStart d rms st Uc0 r) ⟨x.start r (memInit (Uc0 r)), 0, 0, 0⟩ s
    rw [this]
    exact h2

theorem run_good (w : World m nranks part rms) (hc : Conforming d norient m) (ho : OrderOK d norient)
    (nsteps : ℕ) :
    ∀ c n, Proto.Exec (solverProg d g rms nranks dt st (fun _ _ l => l) nsteps)
      (Proto.init (solverStart d rms st Uc0)) c n → ∀ r < nranks, (c.proc r).phase ≠ .failed ∧
      ∃ s, (c.proc r).st.2 = some s := by
  intro c n hx r hr
  have := (C80_run_completes m d norient hc ho st dt nsteps nranks part rms w g (fun _ _ l => l)
    (fun _ _ _ => .refl _) Uc0 n c hx).1 r hr
  exact ⟨this.1, Option.ne_none_iff_exists'.1 this.2⟩

end run

/-- C70: the whole run, down to the single loads and stores of all threads of all ranks: whatever the
executions `x` of the kernels and the interleaving of the ranks, when a rank has completed `n` time steps
its coefficient view holds the coefficients of the serial scheme after `n` steps on its elements, its time
is `n * dt`, and it has evaluated the residual once (Euler) or four times (Runge-Kutta) per step. -/
theorem C70_run_matches_serial {K : Type} [Field K] [DecidableEq K] [CharZero K] (w : World m nranks part rms) (d : Disc K) (norient : ℕ)
    (hc : Conforming d norient m) (ho : OrderOK d norient) (G : Geom K) (g : ℕ → Geom K)
    (hg : ∀ r < nranks, GeomRestrict d (rms r) (g r) G) (st : Stepper) (dt : K)
    (x : Executions K) (hx : x.OK d g rms dt st) (U0 : Coeffs K) (Uc0 : ℕ → Coeffs K)
    (hu : ∀ r < nranks, CoeffsRestrict d (rms r) (Uc0 r) U0) (nsteps k : ℕ)
    (c : Proto.Conf (DevState K) (List (ℕ → ℕ → K)))
    (he : Proto.Exec (deviceProg x d rms nranks dt st nsteps) (Proto.init (deviceInit x Uc0)) c k)
    (r : ℕ) (hr : r < nranks) (n : ℕ) (hn : (c.proc r).round = stagesOf st * n) :
    (∀ i e : ℕ, (rms r).l2gElem[i]? = some e → ∀ b < d.nb, ∀ v < d.ns,
      (c.proc r).st.mem ⟨.Uc, i, b, v, 0⟩ = ((stepOf st dt (globalRHS d m G))^[n] U0) e b v) ∧
    (c.proc r).st.time = n * dt ∧ (c.proc r).st.evals = stagesOf st * n := by
  obtain ⟨c1, h1, h2⟩ := (run_sim w hc ho hx nsteps).exec_back
    (run_good (dt := dt) (st := st) w hc ho nsteps)
    (run_init w hc ho hx hu) he
  obtain ⟨s, s1, s2, s3, s4⟩ := C60_run_matches_serial m nranks part rms w d norient hc ho G g hg st dt
    (fun _ _ l => l) (fun _ _ _ => .refl _) U0 Uc0 hu nsteps k c1 h1 r hr n ((h2.round r hr).symm.trans hn)
  obtain ⟨s', hs'⟩ := h2.st r hr
  have : s' = s := by have := hs'.state; rw [s1] at this; exact (Option.some.inj this).symm
  subst this
  refine ⟨?_, hs'.time.trans s3, hs'.evals.trans s4⟩
  intro i e hi b hb v hv
  have hlt : i < (rms r).numElemsPart := by
    rw [w.numElems hr]; exact (List.getElem?_eq_some_iff.1 hi).1
  rw [hs'.stages.Uc i hlt b hb v hv]
  exact s2 i e hi b hb v hv

/-- C70: no rank fails at any point of any execution, and every execution can be continued to the end of
the run. -/
theorem C70_run_completes (w : World m nranks part rms) (d : Disc K) (norient : ℕ)
    (hc : Conforming d norient m) (ho : OrderOK d norient) (g : ℕ → Geom K) (st : Stepper) (dt : K)
    (x : Executions K) (hx : x.OK d g rms dt st) (Uc0 : ℕ → Coeffs K)
    (nsteps k : ℕ)
    (c : Proto.Conf (DevState K) (List (ℕ → ℕ → K)))
    (he : Proto.Exec (deviceProg x d rms nranks dt st nsteps) (Proto.init (deviceInit x Uc0)) c k) :
    (∀ r < nranks, (c.proc r).phase ≠ .failed) ∧
    ∃ c' k', Proto.Exec (deviceProg x d rms nranks dt st nsteps) c c' k' ∧
      ∀ r < nranks, (c'.proc r).round = stagesOf st * nsteps := by
  have hS := run_sim (nranks := nranks) w hc ho hx nsteps
  have hgood := run_good (g := g) (Uc0 := Uc0) (dt := dt) (st := st) w hc ho nsteps
  obtain ⟨c1, h1, h2⟩ := hS.exec_back hgood (run_init w hc ho hx fun r hr => w.extCoeffsRestrict d Uc0 hr) he
  obtain ⟨h3, c2, k2, h4, h5⟩ := C80_run_completes m d norient hc ho st dt nsteps nranks part rms w g
    (fun _ _ l => l) (fun _ _ _ => .refl _) Uc0 k c1 h1
  refine ⟨fun r hr => by rw [h2.phase r hr]; exact (h3 r hr).1, ?_⟩
  obtain ⟨c3, h6, h7⟩ := hS.exec_forth hgood h1 h2 h4
  exact ⟨c3, k2, h6, fun r hr => (h7.round r hr).trans (h5 r hr)⟩

omit [DecidableEq K] in
/-- C70: there are executions to talk about, and one only: all families of executions of the kernels give
the same memory contents whenever a round is run. -/
theorem C70_executions_exist (w : World m nranks part rms) (d : Disc K) (norient : ℕ)
    (hc : Conforming d norient m) (ho : OrderOK d norient) (g : ℕ → Geom K) (st : Stepper) (dt : K) :
    (∃ x : Executions K, x.OK d g rms dt st) ∧
    ∀ x y : Executions K, x.OK d g rms dt st → y.OK d g rms dt st → ∀ r < nranks, ∀ k stage mem,
      x.start r mem = y.start r mem ∧ x.round r k stage mem = y.round r k stage mem := by
  classical
  constructor
  · refine ⟨⟨fun r mem => if h : ∃ m', deviceStart Ends d (g r) (rms r) r st mem m' then h.choose else mem,
      fun r _ stage mem => if h : ∃ m', deviceRound Ends d (g r) (rms r) r dt st stage mem m' then h.choose
        else mem⟩, ?_, ?_⟩
    · intro r mem h; simp only [dif_pos h]; exact h.choose_spec
    · intro r k stage mem h; simp only [dif_pos h]; exact h.choose_spec
  · intro x y hx hy r hr k stage mem
    obtain ⟨m1, h1⟩ := C69_start_race_free d (g r) (rms r) r st mem
    have hd1 := start_determines d (g r) (rms r) r st mem m1 h1
    obtain ⟨m2, h2⟩ := C69_kernels_race_free w d norient hc ho (g r) dt st r hr stage mem
    have hd2 := round_determines d (g r) (rms r) r dt st stage mem m2 h2
    exact ⟨((hd1 _).1 (hx.start r mem ⟨m1, (hd1 m1).2 rfl⟩)).trans
        ((hd1 _).1 (hy.start r mem ⟨m1, (hd1 m1).2 rfl⟩)).symm,
      ((hd2 _).1 (hx.round r k stage mem ⟨m2, (hd2 m2).2 rfl⟩)).trans
        ((hd2 _).1 (hy.round r k stage mem ⟨m2, (hd2 m2).2 rfl⟩)).symm⟩

/-! ### non-vacuity -/

/-- The 2 x 2 mesh on two ranks: a complete two-step Runge-Kutta run exists at the level of threads. -/
example : ∃ (x : Executions ℚ) (c : _) (k : ℕ), x.OK exDisc exGeomR exRms (1 / 10) .RK4 ∧
    Proto.Exec (deviceProg x exDisc exRms 2 (1 / 10) .RK4 2)
      (Proto.init (deviceInit x (fun r k b s => exU0 (((exRms r).l2gElem[k]?).getD 0) b s))) c k ∧
    (∀ r < 2, (c.proc r).round = stagesOf .RK4 * 2) ∧ (c.proc 0).st.time = 1 / 5 ∧
    (c.proc 0).st.mem ⟨.Uc, 0, 0, 0, 0⟩
      = ((stepOf .RK4 (1 / 10) (globalRHS exDisc exMesh exGeom))^[2] exU0) 1 0 0 := by
  obtain ⟨x, hx⟩ := (C70_executions_exist exWorld exDisc 2 exConforming exOrder exGeomR .RK4 (1 / 10)).1
  obtain ⟨_, c, k, h1, h2⟩ := C70_run_completes exWorld exDisc 2 exConforming exOrder exGeomR .RK4 (1 / 10) x hx _ 2 0 _ .refl
  obtain ⟨s1, s2, _⟩ := C70_run_matches_serial exWorld exDisc 2 exConforming exOrder exGeom exGeomR
    (fun r _ => exGeomRestrict r) .RK4 (1 / 10) x hx exU0 _ (fun r _ => exRestrict r) 2 k c h1 0 (by omega) 2
    (h2 0 (by omega))
  exact ⟨x, c, k, hx, h1, h2, by rw [s2]; norm_num, s1 0 1 (by decide) 0 (by decide) 0 (by decide)⟩

end DG.Dev
