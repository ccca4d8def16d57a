import Verif.Props.MachinePost
import Verif.Props.MachineThreads

/-!
C87, continued: the post-processor on the file a run of the solver with threads has written.
-/
namespace DG.Dev

theorem ThreadOutcome.mono {A : Arith} {C C' : ℝ} (hC : C ≤ C') {toInt : A.K → Option ℤ} {deck : Fl.Deck A.K}
    {fs : String → List String → Option (MeshFile A.K)} {un : Fl.Unset A.K} {dim nb nranks : ℕ} {m' : GMesh A.K}
    {env : ℕ → RankEnv A.K} {ord : ℕ → List ℕ} {dt tend : A.K} {run : ℕ → Coeffs ℝ} {y : ℝ → Coeffs ℝ} (hdt0 : 0 < A.val dt)
    (h : ThreadOutcome A C toInt deck fs un dim nb nranks m' env ord dt tend run y) :
    ThreadOutcome A C' toInt deck fs un dim nb nranks m' env ord dt tend run y := by
  have hu0 := A.u_nonneg
  have hq0 : 0 ≤ A.u / A.val dt := div_nonneg hu0 hdt0.le
  have k1 := mul_le_mul_of_nonneg_right hC hu0
  have k2 := mul_le_mul_of_nonneg_right hC hq0
  have k3 := mul_le_mul_of_nonneg_right hC (add_nonneg hdt0.le hq0)
  obtain ⟨h1, job, h2, h3, h4, h5, h6⟩ := h
  refine ⟨h1, job, h2, by linarith, by linarith, h5, fun rms hrms mem nor hset => ⟨(h6 rms hrms mem nor hset).1, fun x hx c k hex => ?_⟩⟩
  obtain ⟨g1, g2, g3⟩ := (h6 rms hrms mem nor hset).2 x hx c k hex
  refine ⟨g1, g2, fun hd => ?_⟩
  obtain ⟨f, time, V, e1, e2, e3, e4, e5, e6⟩ := g3 hd
  exact ⟨f, time, V, e1, e2, e3, e4.trans k2, fun e he b hb v hv =>
    ⟨(e5 e he b hb v hv).1, (e5 e he b hb v hv).2.1.trans k2, (e5 e he b hb v hv).2.2.trans k3⟩, e6⟩

theorem threadMesh_partition {K : Type} [Zero K] [One K] [Add K] [Sub K] [Mul K] [Neg K] [Div K] [NatCast K] [HasSqrt K] [HasLibm K] [DecLit K]
    [LT K] [DecidableLT K] [LE K] [DecidableLE K] [DecidableEq K] {job : Fl.Job K} {nranks : ℕ} {env : RankEnv K} {r : ℕ}
    {rm : RankMesh K} (h : threadMesh job nranks env r = some rm) :
    partition job.mesh job.nparts nranks (elemPartition job.nparts job.mesh.numElems env.metis) env.enum r = some rm := by
  unfold threadMesh at h
  simp only [Option.bind_eq_bind, Option.bind_eq_some_iff, Option.some.injEq] at h
  obtain ⟨rm', h1, v, h2, rfl⟩ := h
  exact h1

/-- the post-processor after the solver -/
theorem thread_post {A : Arith} {κ C1 C2 L My : ℝ} (hC1 : 0 ≤ C1) (hC2 : 0 ≤ C2) (hL : 0 ≤ L) {toInt : A.K → Option ℤ} {deck : Fl.Deck A.K}
    {fs : String → List String → Option (MeshFile A.K)} {un : Fl.Unset A.K} {dim nb nranks p : ℕ} {b : BasisType} {ph : Physics}
    {st : StepperType} {m : GMesh ℝ} {m' : GMesh A.K} {env : ℕ → RankEnv A.K} {part : List ℕ}
    {ord : ℕ → List ℕ} {dt tend : A.K} {run : ℕ → Coeffs ℝ} {y : ℝ → Coeffs ℝ}
    (hrun : ThreadOutcome A C1 toInt deck fs un dim nb nranks m' env ord dt tend run y)
    (hdeck : DeckRead A κ deck dim p b ph st dt tend) (hgiven : MeshGiven A κ dim deck fs m m')
    (hcap : ∀ e < m.numElems, sidesOf m.faces e ≤ 6) (hl : LaunchOK m' nranks part env)
    (hdt0 : 0 < A.val dt) (hdt1 : A.val dt ≤ 1) (hdt2 : A.u ≤ A.val dt)
    (hMy : ∀ e < m.numElems, ∀ b < nb, ∀ v < dim + 2, |y (A.val tend) e b v| ≤ My)
    {dist : Coeffs ℝ → ℕ → ℝ}
    (hlip : ∀ (V W : Coeffs ℝ) (δ : ℝ), 0 ≤ δ → (∀ e < m.numElems, ∀ b < nb, ∀ v < dim + 2, |V e b v - W e b v| ≤ δ) → ∀ v < dim + 2,
      |dist V v - dist W v| ≤ L * δ) {nv ne : ℕ} {un' : Fl.Unset A.K} {env' : ℕ → RankEnv A.K}
    (hpost : ∀ (f : SolFile A.K) (V : Coeffs A.K), FileHolds f nranks part m'.numElems nb (dim + 2) V →
      (∀ e < m.numElems, ∀ b < nb, ∀ v < dim + 2, A.fin (V e b v) ∧ |A.val (V e b v)| ≤ My + C1 * 2) →
      PostOutcome A deck fs un' dim nranks nv ne env' f fun v N => |N - dist (fun e b v => A.val (V e b v)) v| ≤ C2 * A.u)
    {job : Fl.Job A.K} (hjob : Fl.readJob toInt deck fs un dim nranks = some job) {rms : ℕ → RankMesh A.K}
    (hrms : ∀ r < nranks, threadMesh job nranks (env r) r = some (rms r)) {mem : ℕ → SCell → A.K} {nor : ℕ → NCell → A.K}
    (hset : ∀ r < nranks, Nonempty (JobSetup job un dim r (rms r) (mem r) (nor r))) {x : Executions A.K} (hx : JobKernels job rms mem nor x)
    {c : ThreadConf A.K} {k : ℕ}
    (hexec : Proto.Exec (threadProg job rms nranks x) (threadInit x mem) c k) (hdone : ThreadsDone job nranks c)
    {f : SolFile A.K} (hf : threadFile job rms dim nranks ord c = some f) :
    PostOutcome A deck fs un' dim nranks nv ne env' f fun v N =>
      |N - dist (run job.nsteps) v| ≤ (C2 + L * C1) * (A.u / A.val dt) ∧
      |N - dist (y (A.val tend)) v| ≤ (C2 + L * C1) * (A.val dt + A.u / A.val dt) := by
  obtain ⟨-, job', hjob', -, -, -, H⟩ := hrun
  obtain rfl : job' = job := Option.some.inj (hjob'.symm.trans hjob)
  obtain ⟨-, -, H⟩ := (H rms hrms mem nor hset).2 x hx c k hexec
  obtain ⟨f', time, V, hf', -, -, -, hV, hback⟩ := H hdone
  obtain rfl : f' = f := Option.some.inj (hf'.symm.trans hf)
  obtain ⟨j1, j2⟩ := job_mesh hdeck hgiven hcap hjob
  have hold : FileHolds f' nranks part m'.numElems nb (dim + 2) V := by
    intro r hr
    obtain ⟨s, s1, s2, s3⟩ := hback r hr
    refine ⟨s, s1, s2, fun i e hi => s3 i e ?_⟩
    have hp := threadMesh_partition (hrms r hr)
    rw [j1, j2, hl.part_eq r hr] at hp
    rw [(result_of hgiven.2.2.1 hl.parts (hl.enum r) hr hp).l2gElem]
    exact hi
  exact file_post hC1 hC2 hL hgiven.2.1.numElems hdt0 hdt1 hdt2 hMy hlip hpost hold hV

/-- **C87** (solver with threads, then post-processor, quadrilaterals).  The statement of `C86_run_post_quad` for a solver whose kernels
are executed by threads: whatever their number and interleavings, every launch of the post-processor on the file the
solver has written, on as many ranks and the same partition, prints for each variable a finite number within `C u/dt` of the distance from
the exact solution the exact calculation of as many steps has, and within `C (dt + u/dt)` of the distance the solution of
the semidiscrete equations has at the final time. -/
theorem C87_threads_post_quad (m : GMesh ℝ) (hm : MeshOK m) (hq : QuadMesh m) (hs : SidesNonzero m) (t : Fam) (p : ℕ) (hp : orderFine t p)
    (ph : Physics) (hγ : 1 < ph.γ) (start : (ℕ → ℝ) → ℕ → ℝ) (hst : StartState ph 2 start)
    (T T1 : ℝ) (hT : 0 ≤ T) (hT1 : T1 < T) (y : ℝ → Coeffs ℝ)
    (hy : ExactSolution (quadEuler t p ph.ftype ph.γ) m.numElems T
      (fun _ => globalRHS (quadEuler t p ph.ftype ph.γ) m (quadGeom t p m)) y)
    (hr : ∀ s ∈ Set.Icc 0 T, StatesRegular ph.ftype ph.γ (quadEuler t p ph.ftype ph.γ) m (quadGeom t p m) (y s))
    (hy0 : AgreeIn (quadEuler t p ph.ftype ph.γ) m.numElems (y 0) (quadInit t p m start)) (κ : ℝ) :
    ∃ C h0 u0 B : ℝ, 0 < h0 ∧ 0 < u0 ∧ ∀ A : Arith, A.u ≤ u0 → B ≤ A.big →
      ∀ toInt : A.K → Option ℤ, Truncates A toInt →
      ∀ (deck : Fl.Deck A.K) (st : StepperType) (dt tend : A.K), DeckRead A κ deck 2 p (quadType t) ph st dt tend →
      A.fin dt → 0 < A.val dt → A.val dt ≤ h0 → C * A.u ≤ A.val dt →
      A.fin tend → 0 ≤ A.val tend → A.val tend ≤ T1 → A.val tend ≤ (2 ^ 31 - 2) * A.val dt →
      ∀ (fs : String → List String → Option (MeshFile A.K)) (m' : GMesh A.K), MeshGiven A κ 2 deck fs m m' →
      ∀ (nranks : ℕ) (part : List ℕ) (env : ℕ → RankEnv A.K), LaunchOK m' nranks part env →
      ∀ un : Fl.Unset A.K,
      ∀ ord : ℕ → List ℕ, (∀ i, (ord i).Perm (List.range nranks)) →
      ∀ job, Fl.readJob toInt deck fs un 2 nranks = some job →
      ∀ rms : ℕ → RankMesh A.K, (∀ r < nranks, threadMesh job nranks (env r) r = some (rms r)) →
      ∀ mem nor, (∀ r < nranks, Nonempty (JobSetup job un 2 r (rms r) (mem r) (nor r))) →
      ∀ x, JobKernels job rms mem nor x →
      ∀ c k, Proto.Exec (threadProg job rms nranks x) (threadInit x mem) c k → ThreadsDone job nranks c →
      ∀ f, threadFile job rms 2 nranks ord c = some f →
      ∀ (env' : ℕ → RankEnv A.K) (un' : Fl.Unset A.K), LaunchOK m' nranks part env' →
      PostOutcome A deck fs un' 2 nranks ((p + 2) * (p + 2)) ((2 * max p 1 + 2) * (2 * max p 1 + 2)) env' f fun v N =>
        |N - quadDist t p m start (quadRun t p m ph start st.scheme (A.val dt) job.nsteps) v| ≤ C * (A.u / A.val dt) ∧
        |N - quadDist t p m start (y (A.val tend)) v| ≤ C * (A.val dt + A.u / A.val dt) := by
  have hcap : ∀ e < m.numElems, sidesOf m.faces e ≤ 6 := fun e _ =>
    le_trans (sides_le 4 (fun f hf => (hq.faceL f hf).1) (fun f hf => (hq.faceR f hf).1) hq.sides e) (by omega)
  obtain ⟨My, hMy0, hMy⟩ := solution_bound hm (quadEuler_scheme t p ph.ftype ph.γ) hγ (hq.conforming t p 4 _ _)
    (quadDisc_order t p 4 _ _) T hT y hy hr
  obtain ⟨mass, vol, proj, fr, N1, N2, h⟩ := setupIs_quad hq t p 4 hp start
  obtain ⟨-, hW, hJ⟩ := proj_quad hq hp h.exact.projE
  obtain ⟨L, hL, hlip⟩ := refDist_lip 2 4 ((p + 1) * (p + 1)) m.numElems (2 + 2) proj (fileCoords m) ((p + 2) * (p + 2))
    (fun q => glW (2 * p + 3) (q % (p + 2)) * glW (2 * p + 3) (q / (p + 2))) (quadGeom t p m).djac start hW hJ
  simp only [refDist_quad hp h.exact.projE (m := m) (fun _ _ => rfl)] at hlip
  obtain ⟨C1, h1, u1, B1, hh1, hu1, H1⟩ := C87_threads_quad m hm hq hs t p hp ph hγ start hst T T1 hT hT1 y hy hr hy0 κ
  obtain ⟨C2, u2, B2, hu2, H2⟩ := C86_post_quad m hq t p hp ph hγ start hst κ (My + max C1 0 * 2)
  have hC1 : (0 : ℝ) ≤ max C1 0 := le_max_right _ _
  have hC2 : (0 : ℝ) ≤ max C2 0 := le_max_right _ _
  have hLC := mul_nonneg hL hC1
  refine ⟨max C1 0 + 1 + (max C2 0 + L * max C1 0), min h1 1, min u1 u2, max B1 B2, lt_min hh1 one_pos, lt_min hu1 hu2, ?_⟩
  intro A hu hB toInt htr deck st dt tend hdeck f1 hdt0 hdt1 hdt2 f2 ht0 ht1 ht2 fs m' hgiven nranks part env hl un
    ord hord job hjob rms hrms mem nor hset x hx c k hex hdone f hf env' un' hl'
  have hu0 := A.u_nonneg
  have hq0 : 0 ≤ A.u / A.val dt := div_nonneg hu0 hdt0.le
  have k1 : C1 * A.u ≤ A.val dt :=
    le_trans (mul_le_mul_of_nonneg_right (by linarith [le_max_left C1 0]) hu0) hdt2
  have k2 : A.u ≤ A.val dt :=
    le_trans (le_of_eq_of_le (one_mul _).symm (mul_le_mul_of_nonneg_right (by linarith) hu0)) hdt2
  have out := H1 A (hu.trans (min_le_left _ _)) ((le_max_left _ _).trans hB) toInt htr deck st dt tend hdeck f1 hdt0
    (hdt1.trans (min_le_left _ _)) k1 f2 ht0 ht1 ht2 fs m' hgiven nranks part env hl un ord hord
  have post := thread_post (dim := 2) hC1 hC2 hL (out.mono (le_max_left _ _) hdt0) hdeck hgiven hcap hl hdt0
    (hdt1.trans (min_le_right _ _)) k2 (fun e he b hb v hv => hMy _ ⟨ht0, ht1.trans hT1.le⟩ e he b hb v hv) hlip
    (un' := un') (env' := env') (nv := ((p + 2) * (p + 2))) (ne := (2 * max p 1 + 2) * (2 * max p 1 + 2)) (fun f V hf hV => by
      obtain ⟨jp, q1, q2, q3⟩ := H2 A (hu.trans (min_le_right _ _)) ((le_max_right _ _).trans hB) deck st dt tend hdeck fs m' hgiven nranks
        part env' hl' un' f V hf hV
      refine ⟨jp, q1, q2, fun qs hqs sums hsums Uq0 => ?_⟩
      obtain ⟨N, n1, n2⟩ := q3 qs hqs sums hsums Uq0
      exact ⟨N, n1, fun v hv => ⟨(n2 v hv).1, (n2 v hv).2.trans (mul_le_mul_of_nonneg_right (le_max_left _ _) hu0)⟩⟩)
    hjob hrms hset hx hex hdone hf
  obtain ⟨jp, q1, q2, q3⟩ := post
  refine ⟨jp, q1, q2, fun qs hqs sums hsums Uq0 => ?_⟩
  obtain ⟨N, n1, n2⟩ := q3 qs hqs sums hsums Uq0
  exact ⟨N, n1, fun v hv => ⟨(n2 v hv).1, (n2 v hv).2.1.trans (mul_le_mul_of_nonneg_right (by linarith) hq0),
    (n2 v hv).2.2.trans (mul_le_mul_of_nonneg_right (by linarith) (by linarith))⟩⟩

/-- **C87** (solver with threads, then post-processor, hexahedra).  The same for trilinear hexahedra, order at most five, and
partitions that cut the mesh along flat faces only. -/
theorem C87_threads_post_hex (m : GMesh ℝ) (hm : MeshOK m) (hq : HexMesh m) (hs : FacesNonzero m) (t : Fam) (p : ℕ) (hp : orderFine t p)
    (hp5 : p ≤ 5) (ph : Physics) (hγ : 1 < ph.γ) (start : (ℕ → ℝ) → ℕ → ℝ) (hst : StartState ph 3 start)
    (T T1 : ℝ) (hT : 0 ≤ T) (hT1 : T1 < T) (y : ℝ → Coeffs ℝ)
    (hy : ExactSolution (hexEuler t p ph.ftype ph.γ) m.numElems T
      (fun _ => globalRHS (hexEuler t p ph.ftype ph.γ) m (hexGeom t p m)) y)
    (hr : ∀ s ∈ Set.Icc 0 T, StatesRegular ph.ftype ph.γ (hexEuler t p ph.ftype ph.γ) m (hexGeom t p m) (y s))
    (hy0 : AgreeIn (hexEuler t p ph.ftype ph.γ) m.numElems (y 0) (hexInit t p m start)) (κ : ℝ) :
    ∃ C h0 u0 B : ℝ, 0 < h0 ∧ 0 < u0 ∧ ∀ A : Arith, A.u ≤ u0 → B ≤ A.big →
      ∀ toInt : A.K → Option ℤ, Truncates A toInt →
      ∀ (deck : Fl.Deck A.K) (st : StepperType) (dt tend : A.K), DeckRead A κ deck 3 p (hexType t) ph st dt tend →
      A.fin dt → 0 < A.val dt → A.val dt ≤ h0 → C * A.u ≤ A.val dt →
      A.fin tend → 0 ≤ A.val tend → A.val tend ≤ T1 → A.val tend ≤ (2 ^ 31 - 2) * A.val dt →
      ∀ (fs : String → List String → Option (MeshFile A.K)) (m' : GMesh A.K), MeshGiven A κ 3 deck fs m m' →
      ∀ (nranks : ℕ) (part : List ℕ) (env : ℕ → RankEnv A.K), LaunchOK m' nranks part env → CutFlat m part →
      ∀ un : Fl.Unset A.K,
      ∀ ord : ℕ → List ℕ, (∀ i, (ord i).Perm (List.range nranks)) →
      ∀ job, Fl.readJob toInt deck fs un 3 nranks = some job →
      ∀ rms : ℕ → RankMesh A.K, (∀ r < nranks, threadMesh job nranks (env r) r = some (rms r)) →
      ∀ mem nor, (∀ r < nranks, Nonempty (JobSetup job un 3 r (rms r) (mem r) (nor r))) →
      ∀ x, JobKernels job rms mem nor x →
      ∀ c k, Proto.Exec (threadProg job rms nranks x) (threadInit x mem) c k → ThreadsDone job nranks c →
      ∀ f, threadFile job rms 3 nranks ord c = some f →
      ∀ (env' : ℕ → RankEnv A.K) (un' : Fl.Unset A.K), LaunchOK m' nranks part env' →
      PostOutcome A deck fs un' 3 nranks ((p + 2) * (p + 2) * (p + 2)) ((2 * max p 1 + 2) * (2 * max p 1 + 2) * (2 * max p 1 + 2)) env' f fun v N =>
        |N - hexDist t p m start (hexRun t p m ph start st.scheme (A.val dt) job.nsteps) v| ≤ C * (A.u / A.val dt) ∧
        |N - hexDist t p m start (y (A.val tend)) v| ≤ C * (A.val dt + A.u / A.val dt) := by
  have hcap : ∀ e < m.numElems, sidesOf m.faces e ≤ 6 := fun e _ =>
    le_trans (sides_le 6 (fun f hf => (hq.faceL f hf).1) (fun f hf => (hq.faceR f hf).1) hq.sides e) (by omega)
  obtain ⟨My, hMy0, hMy⟩ := solution_bound hm (hexEuler_scheme t p ph.ftype ph.γ) hγ (hq.conforming t p 5 _ _)
    (hexDisc_order t p 5 _ _) T hT y hy hr
  obtain ⟨mass, vol, proj, fr, N1, N2, h⟩ := setupIs_hex hq t p 5 hp start
  obtain ⟨-, hW, hJ⟩ := proj_hex hq hp h.exact.projE
  obtain ⟨L, hL, hlip⟩ := refDist_lip 3 8 ((p + 1) * (p + 1) * (p + 1)) m.numElems (3 + 2) proj (fileCoords m) ((p + 2) * (p + 2) * (p + 2))
    (wt3 p) (hexGeom t p m).djac start hW hJ
  simp only [refDist_hex hp h.exact.projE (m := m) (fun _ _ => rfl)] at hlip
  obtain ⟨C1, h1, u1, B1, hh1, hu1, H1⟩ := C87_threads_hex m hm hq hs t p hp hp5 ph hγ start hst T T1 hT hT1 y hy hr hy0 κ
  obtain ⟨C2, u2, B2, hu2, H2⟩ := C86_post_hex m hq t p hp hp5 ph hγ start hst κ (My + max C1 0 * 2)
  have hC1 : (0 : ℝ) ≤ max C1 0 := le_max_right _ _
  have hC2 : (0 : ℝ) ≤ max C2 0 := le_max_right _ _
  have hLC := mul_nonneg hL hC1
  refine ⟨max C1 0 + 1 + (max C2 0 + L * max C1 0), min h1 1, min u1 u2, max B1 B2, lt_min hh1 one_pos, lt_min hu1 hu2, ?_⟩
  intro A hu hB toInt htr deck st dt tend hdeck f1 hdt0 hdt1 hdt2 f2 ht0 ht1 ht2 fs m' hgiven nranks part env hl hcut un
    ord hord job hjob rms hrms mem nor hset x hx c k hex hdone f hf env' un' hl'
  have hu0 := A.u_nonneg
  have hq0 : 0 ≤ A.u / A.val dt := div_nonneg hu0 hdt0.le
  have k1 : C1 * A.u ≤ A.val dt :=
    le_trans (mul_le_mul_of_nonneg_right (by linarith [le_max_left C1 0]) hu0) hdt2
  have k2 : A.u ≤ A.val dt :=
    le_trans (le_of_eq_of_le (one_mul _).symm (mul_le_mul_of_nonneg_right (by linarith) hu0)) hdt2
  have out := H1 A (hu.trans (min_le_left _ _)) ((le_max_left _ _).trans hB) toInt htr deck st dt tend hdeck f1 hdt0
    (hdt1.trans (min_le_left _ _)) k1 f2 ht0 ht1 ht2 fs m' hgiven nranks part env hl hcut un ord hord
  have post := thread_post (dim := 3) hC1 hC2 hL (out.mono (le_max_left _ _) hdt0) hdeck hgiven hcap hl hdt0
    (hdt1.trans (min_le_right _ _)) k2 (fun e he b hb v hv => hMy _ ⟨ht0, ht1.trans hT1.le⟩ e he b hb v hv) hlip
    (un' := un') (env' := env') (nv := ((p + 2) * (p + 2) * (p + 2))) (ne := (2 * max p 1 + 2) * (2 * max p 1 + 2) * (2 * max p 1 + 2)) (fun f V hf hV => by
      obtain ⟨jp, q1, q2, q3⟩ := H2 A (hu.trans (min_le_right _ _)) ((le_max_right _ _).trans hB) deck st dt tend hdeck fs m' hgiven nranks
        part env' hl' hcut un' f V hf hV
      refine ⟨jp, q1, q2, fun qs hqs sums hsums Uq0 => ?_⟩
      obtain ⟨N, n1, n2⟩ := q3 qs hqs sums hsums Uq0
      exact ⟨N, n1, fun v hv => ⟨(n2 v hv).1, (n2 v hv).2.trans (mul_le_mul_of_nonneg_right (le_max_left _ _) hu0)⟩⟩)
    hjob hrms hset hx hex hdone hf
  obtain ⟨jp, q1, q2, q3⟩ := post
  refine ⟨jp, q1, q2, fun qs hqs sums hsums Uq0 => ?_⟩
  obtain ⟨N, n1, n2⟩ := q3 qs hqs sums hsums Uq0
  exact ⟨N, n1, fun v hv => ⟨(n2 v hv).1, (n2 v hv).2.1.trans (mul_le_mul_of_nonneg_right (by linarith) hq0),
    (n2 v hv).2.2.trans (mul_le_mul_of_nonneg_right (by linarith) (by linarith))⟩⟩

end DG.Dev
