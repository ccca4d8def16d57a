import Verif.Lemmas.LateSend
import Verif.Props.Solver
import Verif.Props.MainExample

/-!
Property C77: send buffers live long enough for sends that are not eager.
-/
namespace DG

variable {K : Type} [Field K] [DecidableEq K] {α β γ : Type}

section
variable (m : GMesh α) (nranks : ℕ) (part : List ℕ) (rms : ℕ → RankMesh α) (w : World m nranks part rms)
  (comp : ℕ → FaceArr β × γ → FaceArr β × γ) (hc : KeepsSizes comp) (st0 : ℕ → FaceArr β × γ)
  (hst : ∀ r < nranks, Sized (rms r) (st0 r).1) (rounds n : ℕ)
include w hc hst

/-- **C77** (host builds).  MPI may copy the messages out of the send buffers at any time.  Nevertheless, for any
interleaving: no buffer is read after its release and no rank fails; the ranks are in a state that they also reach with
eager sends; and when a rank has released its buffers (it is at the start of an exchange), all of its messages have been
received. -/
theorem C77_late_sends_safe (c : Late.Conf (FaceArr β × γ) (List β))
    (hx : Late.Exec (exchangeProg rms nranks rounds comp) false (Late.init st0) c n) :
    c.fault = false ∧ (∀ r < nranks, (c.proc r).phase ≠ .failed) ∧
    (∃ a n', Proto.Exec (exchangeProg rms nranks rounds comp) (Proto.init st0) a n' ∧ a.proc = c.proc) ∧
    ∀ r < nranks, (c.proc r).phase = .send 0 → ∀ d, c.chan r d = [] := by
  have hR := w.syncRun hc hst rounds
  obtain ⟨a, n', h1, h2, -⟩ := Late.exec_sim hR st0 (fun _ _ => rfl) hx
  have hI := w.reach hc hst h1
  refine ⟨h2.fault, ?_, ⟨a, n', h1, h2.proc⟩, ?_⟩
  · rw [← h2.proc]
    exact C09_no_error m nranks part rms w comp hc st0 hst rounds n' a h1
  · intro r hr hph d
    have h0 : a.chan r d = [] := by
      by_cases hd : d ∈ (rms r).nbrs
      · exact Late.chan_nil_of_start hR hI hr (by rw [h2.proc]; exact hph) d hd
      · exact h2.only r d hd
    have h3 := h2.chan r d
    rw [h0] at h3
    exact List.forall₂_nil_right_iff.1 h3

/-- **C77** (host builds).  Every execution with late sends is finite and can be continued to the end of all exchanges. -/
theorem C77_late_sends_finish (c : Late.Conf (FaceArr β × γ) (List β))
    (hx : Late.Exec (exchangeProg rms nranks rounds comp) false (Late.init st0) c n) :
    n ≤ 2 * ∑ r ∈ Finset.range nranks, rounds * (2 * (rms r).nbrs.length + 3) ∧
    ∃ c' n', Late.Exec (exchangeProg rms nranks rounds comp) false c c' n' ∧ ∀ r < nranks, (c'.proc r).round = rounds := by
  have hR := w.syncRun hc hst rounds
  refine ⟨?_, Late.exec_finish hR st0 (fun _ _ => rfl) hx⟩
  obtain ⟨a, n', h1, h2, h3⟩ := Late.exec_sim hR st0 (fun _ _ => rfl) hx
  have := (C09_terminates m nranks part rms w comp hc st0 hst rounds n' a h1).1
  omega

/-- **C77** (device builds).  If the data to send is copied to host memory that is released at the end of each iteration of
the send loop, then MPI can read released memory, as soon as some rank has a neighbour. -/
theorem C77_mirror_buffers_fault (hrounds : 0 < rounds) (r : ℕ) (hr : r < nranks) (hn : (rms r).nbrs ≠ []) :
    ∃ c k, Late.Exec (exchangeProg rms nranks rounds comp) true (Late.init st0) c k ∧ c.fault = true := by
  have hR := w.syncRun hc hst rounds
  obtain ⟨d, hd⟩ : ∃ d, (rms r).nbrs[0]? = some d := by
    cases h : (rms r).nbrs with
    | nil => exact absurd h hn
    | cons d l => exact ⟨d, rfl⟩
  have hp := hR.pack 0 hrounds r hr 0 d hd
  have hdn := (w.nbrs_symm hr (List.mem_of_getElem? hd)).1
  refine ⟨_, _, .step r (.step r .refl hr (.send 0 d _ hrounds rfl hd hp)) hr
    (.copyFault d [] [] 0 0 hdn ?_ ?_), rfl⟩
  · simp [Late.Conf.setProc, Late.Conf.setChan, Late.Conf.setBuf, Late.init]
  · simp [Late.Conf.setProc, Late.Conf.setChan, Late.Conf.setBuf, Late.init]

end

/-- **C77** (solver).  With late sends, too, the solver computes what the serial scheme computes (C60). -/
theorem C77_run_matches_serial [CharZero K] (m : GMesh α) (nranks : ℕ) (part : List ℕ)
    (rms : ℕ → RankMesh α) (w : World m nranks part rms) (d : Disc K) (norient : ℕ)
    (hc : Conforming d norient m) (ho : OrderOK d norient) (G : Geom K) (g : ℕ → Geom K)
    (hg : ∀ r < nranks, GeomRestrict d (rms r) (g r) G) (st : Stepper) (dt : K)
    (sched : ℕ → ℕ → List (FluxWrite K) → List (FluxWrite K))
    (hsched : ∀ r k l, (sched r k l).Perm l) (U0 : Coeffs K) (Uc0 : ℕ → Coeffs K)
    (hu : ∀ r < nranks, CoeffsRestrict d (rms r) (Uc0 r) U0) (nsteps k : ℕ)
    (c : Late.Conf (FaceArr (ℕ → ℕ → K) × Option (RankState K)) (List (ℕ → ℕ → K)))
    (hx : Late.Exec (solverProg d g rms nranks dt st sched nsteps) false
      (Late.init (solverStart d rms st Uc0)) c k) (r : ℕ) (hr : r < nranks) (n : ℕ)
    (hn : (c.proc r).round = stagesOf st * n) :
    ∃ s, (c.proc r).st.2 = some s ∧
      (∀ i e : ℕ, (rms r).l2gElem[i]? = some e → ∀ b < d.nb, ∀ v < d.ns,
        s.Uc i b v = ((stepOf st dt (globalRHS d m G))^[n] U0) e b v) ∧
      s.time = n * dt ∧ s.evals = stagesOf st * n := by
  obtain ⟨-, -, ⟨a, n', h1, h2⟩, -⟩ := C77_late_sends_safe m nranks part rms w _ (solverComp_keeps d g rms dt st sched) _
    (fun r _ => solverStart_sized d rms st Uc0 r) _ _ c hx
  rw [← h2] at hn ⊢
  exact C60_run_matches_serial m nranks part rms w d norient hc ho G g hg st dt sched hsched U0 Uc0 hu nsteps n' a h1 r hr
    n hn

/-! ### the executable -/

/-- the ranks of a run, as far as the code after the time loop looks at them -/
def Late.Conf.ranks (c : Late.Conf (FaceArr (ℕ → ℕ → ℝ) × Option (RankState ℝ)) (List (ℕ → ℕ → ℝ))) : LoopConf :=
  ⟨c.proc, fun _ _ => []⟩

/-- what the input files say about the mesh of a run and its parts -/
theorem job_world {deck : Deck} {fs : String → List String → Option (MeshFile ℝ)} {un : Unset} {dim nranks : ℕ} {job : Job}
    (hj : readJob deck fs un dim nranks = some job) {p : ℕ} {b : BasisType} {ph : Physics} {st : StepperType} {dt T : ℝ}
    (ha : DeckAsks deck dim p b ph st dt T) {m : GMesh ℝ} (hm : MeshOK m)
    (hf : ∃ name mf, deck.meshFile = some name ∧ fs name deck.boundaries = some mf ∧ MeshFileOf m dim mf)
    (hcap : ∀ e < m.numElems, sidesOf m.faces e ≤ 6) {part : List ℕ} {env : ℕ → RankEnv}
    (hl : LaunchOK m nranks part env) {ranks : ℕ → RankReady}
    (hr : ∀ r < nranks, readyRank job un dim nranks (env r) r = some (ranks r)) :
    World m nranks part fun r => (ranks r).rm := by
  obtain ⟨name, mf, hname, hmf, hof⟩ := hf
  obtain ⟨rd, hrd, hrm⟩ := readMesh_of hof hm hcap
  have hpt : numPartitions deck.parts nranks = some nranks := by unfold numPartitions; rw [ha.parts]; rfl
  have e : job.mesh = m ∧ job.nparts = nranks := by
    unfold readJob readInputs at hj
    simp only [Option.bind_eq_bind] at hj
    obtain ⟨num, -, hj⟩ := Option.bind_eq_some_iff.1 hj
    rw [hname, Option.bind_some, hpt, Option.bind_some, hmf, Option.bind_some, hrd, Option.bind_some] at hj
    obtain ⟨data, -, hj⟩ := Option.bind_eq_some_iff.1 hj
    obtain ⟨sol, -, hj⟩ := Option.bind_eq_some_iff.1 hj
    split at hj
    · obtain ⟨sh, -, hj⟩ := Option.bind_eq_some_iff.1 hj
      split at hj
      · obtain ⟨disc, -, hj⟩ := Option.bind_eq_some_iff.1 hj
        obtain ⟨ns, -, hj⟩ := Option.bind_eq_some_iff.1 hj
        rw [← Option.some.inj hj]
        exact ⟨hrm, rfl⟩
      · cases hj
    · cases hj
  refine ⟨hm, hl.parts, fun r hlt => ⟨_, hl.enum r, ?_⟩⟩
  have h1 := (readyRank_some (hr r hlt)).1
  rw [e.1, e.2, hl.part_eq r hlt] at h1
  exact h1

/-- the time loop with late sends, given the results with eager sends -/
theorem late_loop {m : GMesh ℝ} {nranks : ℕ} {part : List ℕ} {job : Job} {ranks : ℕ → RankReady}
    (w : World m nranks part fun r => (ranks r).rm) (sched : ℕ → ℕ → List (FluxWrite ℝ) → List (FluxWrite ℝ))
    {c : Late.Conf (FaceArr (ℕ → ℕ → ℝ) × Option (RankState ℝ)) (List (ℕ → ℕ → ℝ))} {k : ℕ}
    (hx : Late.Exec (jobProg job ranks nranks sched) false (Late.init (solverStart job.disc (fun r => (ranks r).rm)
      (stepperOf job.sol.stepper) fun r => (ranks r).init)) c k) :
    c.fault = false ∧
    (∃ a k', Proto.Exec (jobProg job ranks nranks sched) (jobInit job ranks) a k' ∧ a.proc = c.proc) ∧
    ∃ c' k', Late.Exec (jobProg job ranks nranks sched) false c c' k' ∧ LoopDone job nranks c'.ranks := by
  have hk := solverComp_keeps job.disc (fun r => (ranks r).geom) (fun r => (ranks r).rm) job.sol.dt
    (stepperOf job.sol.stepper) sched
  have hs : ∀ r < nranks, Sized (ranks r).rm (solverStart job.disc (fun r => (ranks r).rm)
      (stepperOf job.sol.stepper) (fun r => (ranks r).init) r).1 := fun r _ => solverStart_sized _ _ _ _ r
  obtain ⟨h1, -, h2, -⟩ := C77_late_sends_safe m nranks part _ w _ hk _ hs _ _ c hx
  exact ⟨h1, h2, (C77_late_sends_finish m nranks part _ w _ hk _ hs _ _ c hx).2⟩

/-- **C77** (the executable, quadrilaterals).  C67 with sends that MPI may carry out late: no released buffer is read, no
rank fails, the time loop can be finished, and the converted solution file is that of the serial textbook run. -/
theorem C77_program_quad (deck : Deck) (fs : String → List String → Option (MeshFile ℝ)) (m : GMesh ℝ) (t : Fam) (p : ℕ)
    (ph : Physics) (start : (ℕ → ℝ) → ℕ → ℝ) (st : StepperType) (dt T : ℝ) (n : ℕ)
    (h : QuadRunOK deck fs m t p ph start st dt T n)
    (nranks : ℕ) (part : List ℕ) (env : ℕ → RankEnv) (hl : LaunchOK m nranks part env) (un : Unset)
    (sched : ℕ → ℕ → List (FluxWrite ℝ) → List (FluxWrite ℝ)) (hsched : ∀ r k l, (sched r k l).Perm l)
    (ord : ℕ → List ℕ) (hord : ∀ i, (ord i).Perm (List.range nranks)) (job : Job)
    (hj : readJob deck fs un 2 nranks = some job) (ranks : ℕ → RankReady)
    (hr : ∀ r < nranks, readyRank job un 2 nranks (env r) r = some (ranks r))
    (c : Late.Conf (FaceArr (ℕ → ℕ → ℝ) × Option (RankState ℝ)) (List (ℕ → ℕ → ℝ))) (k : ℕ)
    (hx : Late.Exec (jobProg job ranks nranks sched) false (Late.init (solverStart job.disc (fun r => (ranks r).rm)
      (stepperOf job.sol.stepper) fun r => (ranks r).init)) c k) :
    c.fault = false ∧ (∀ r < nranks, (c.proc r).phase ≠ .failed ∧ (c.proc r).st.2 ≠ none) ∧
    (∃ c' k', Late.Exec (jobProg job ranks nranks sched) false c c' k' ∧ LoopDone job nranks c'.ranks) ∧
    (LoopDone job nranks c.ranks → ∃ f, jobFile job ranks 2 nranks ord c.ranks = some f ∧
      convert nranks f = some (serialFile m 2 ((p + 1) * (p + 1)) 4 (n * dt)
        (quadRun t p m ph start st.scheme dt n))) := by
  have hq := h.quads
  have w := job_world hj h.asks h.mesh h.file (fun e _ => le_trans
    (sides_le 4 (fun f hf => (hq.faceL f hf).1) (fun f hf => (hq.faceR f hf).1) hq.sides e) (by omega)) hl hr
  obtain ⟨h1, ⟨a, k', h2, h3⟩, h4⟩ := late_loop w sched hx
  obtain ⟨-, job', j1, -, j2⟩ := C67_program_quad deck fs m t p ph start st dt T n h nranks part env hl un sched hsched ord
    hord
  rw [hj] at j1
  cases j1
  obtain ⟨g1, -, g3⟩ := j2 ranks hr a k' h2
  rw [h3] at g1
  refine ⟨h1, g1, h4, fun hd => ?_⟩
  obtain ⟨f, g, f1, f2, f3, -⟩ := g3 (by intro r hr; rw [h3]; exact hd r hr)
  refine ⟨f, ?_, by rw [f2, f3]⟩
  rw [← f1]
  unfold jobFile
  rw [h3]
  rfl

/-- **C77** (the executable, hexahedra). -/
theorem C77_program_hex (deck : Deck) (fs : String → List String → Option (MeshFile ℝ)) (m : GMesh ℝ) (t : Fam) (p : ℕ)
    (ph : Physics) (start : (ℕ → ℝ) → ℕ → ℝ) (st : StepperType) (dt T : ℝ) (n : ℕ)
    (h : HexRunOK deck fs m t p ph start st dt T n)
    (nranks : ℕ) (part : List ℕ) (env : ℕ → RankEnv) (hl : LaunchOK m nranks part env) (hcut : CutFlat m part) (un : Unset)
    (sched : ℕ → ℕ → List (FluxWrite ℝ) → List (FluxWrite ℝ)) (hsched : ∀ r k l, (sched r k l).Perm l)
    (ord : ℕ → List ℕ) (hord : ∀ i, (ord i).Perm (List.range nranks)) (job : Job)
    (hj : readJob deck fs un 3 nranks = some job) (ranks : ℕ → RankReady)
    (hr : ∀ r < nranks, readyRank job un 3 nranks (env r) r = some (ranks r))
    (c : Late.Conf (FaceArr (ℕ → ℕ → ℝ) × Option (RankState ℝ)) (List (ℕ → ℕ → ℝ))) (k : ℕ)
    (hx : Late.Exec (jobProg job ranks nranks sched) false (Late.init (solverStart job.disc (fun r => (ranks r).rm)
      (stepperOf job.sol.stepper) fun r => (ranks r).init)) c k) :
    c.fault = false ∧ (∀ r < nranks, (c.proc r).phase ≠ .failed ∧ (c.proc r).st.2 ≠ none) ∧
    (∃ c' k', Late.Exec (jobProg job ranks nranks sched) false c c' k' ∧ LoopDone job nranks c'.ranks) ∧
    (LoopDone job nranks c.ranks → ∃ f, jobFile job ranks 3 nranks ord c.ranks = some f ∧
      convert nranks f = some (serialFile m 3 ((p + 1) * (p + 1) * (p + 1)) 5 (n * dt)
        (hexRun t p m ph start st.scheme dt n))) := by
  have hq := h.hexes
  have w := job_world hj h.asks h.mesh h.file (fun e _ => le_trans
    (sides_le 6 (fun f hf => (hq.faceL f hf).1) (fun f hf => (hq.faceR f hf).1) hq.sides e) (by omega)) hl hr
  obtain ⟨h1, ⟨a, k', h2, h3⟩, h4⟩ := late_loop w sched hx
  obtain ⟨-, job', j1, -, j2⟩ := C67_program_hex deck fs m t p ph start st dt T n h nranks part env hl hcut un sched hsched
    ord hord
  rw [hj] at j1
  cases j1
  obtain ⟨g1, -, g3⟩ := j2 ranks hr a k' h2
  rw [h3] at g1
  refine ⟨h1, g1, h4, fun hd => ?_⟩
  obtain ⟨f, g, f1, f2, f3, -⟩ := g3 (by intro r hr; rw [h3]; exact hd r hr)
  refine ⟨f, ?_, by rw [f2, f3]⟩
  rw [← f1]
  unfold jobFile
  rw [h3]
  rfl

/-- C77 on the two ranks of the example of the executable: a complete run with late sends exists -/
example (un : Unset) : ∃ job ranks c f, readJob perDeck (fun _ _ => some perFile) un 2 2 = some job ∧
    (∃ k, Late.Exec (jobProg job ranks 2 fun _ _ l => l.reverse) false (Late.init (solverStart job.disc
      (fun r => (ranks r).rm) (stepperOf job.sol.stepper) fun r => (ranks r).init)) c k) ∧ LoopDone job 2 c.ranks ∧
    jobFile job ranks 2 2 (fun _ => [1, 0]) c.ranks = some f := by
  obtain ⟨job, ranks, -, -, h1, h2, -⟩ := perProgram un
  have H := C77_program_quad _ _ _ _ _ _ _ _ _ _ _ perRun 2 perPart (twoRanks perPart) perLaunch un
    (fun _ _ l => l.reverse) (fun _ _ l => List.reverse_perm l) (fun _ => [1, 0]) (fun _ => by decide) job h1 ranks h2
  obtain ⟨-, -, ⟨c, k, hx, hd⟩, -⟩ := H _ 0 .refl
  obtain ⟨-, -, -, h⟩ := H c k hx
  obtain ⟨f, hf, -⟩ := h hd
  exact ⟨job, ranks, c, f, h1, ⟨k, hx⟩, hd, hf⟩

/-- in the example of `Props/Exchange` the message of rank 0 can wait in its buffer until rank 1 receives it, and with
mirror buffers this reads released memory -/
example : ∃ c k, Late.Exec (exchangeProg exRms 2 1 (fun _ s => s)) true (Late.init (fun r => (exOld r, ()))) c k ∧
    c.fault = true :=
  C77_mirror_buffers_fault exMesh 2 exPart exRms exWorld _ (fun _ _ _ => ⟨rfl, rfl⟩) (fun r => (exOld r, ())) exSized 1
    (by omega) 0 (by omega) (by decide)

end DG
