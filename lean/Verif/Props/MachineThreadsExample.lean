import Verif.Props.MachineThreadsPost
import Verif.Props.MachinePostExample

/-!
Cases that meet the hypotheses of C87.
-/
namespace DG.Dev

theorem ThreadOutcome.runs {A : Arith} {C : ℝ} {toInt : A.K → Option ℤ} {deck : Fl.Deck A.K}
    {fs : String → List String → Option (MeshFile A.K)} {un : Fl.Unset A.K} {dim nb nranks : ℕ} {m' : GMesh A.K}
    {env : ℕ → RankEnv A.K} {ord : ℕ → List ℕ} {dt tend : A.K} {run : ℕ → Coeffs ℝ} {y : ℝ → Coeffs ℝ}
    (h : ThreadOutcome A C toInt deck fs un dim nb nranks m' env ord dt tend run y) {n : ℕ} (hn : 0 < n) :
    ∃ job rms mem nor x c k sol, Fl.readJob toInt deck fs un dim nranks = some job ∧
      (∀ r < nranks, threadMesh job nranks (env r) r = some (rms r)) ∧
      (∀ r < nranks, ∃ S : JobSetup job un dim r (rms r) (mem r) (nor r), S.n1 = n ∧ S.n2 = n ∧ S.n3 = n) ∧
      JobKernels job rms mem nor x ∧ Proto.Exec (threadProg job rms nranks x) (threadInit x mem) c k ∧ ThreadsDone job nranks c ∧
      threadFile job rms dim nranks ord c = some sol := by
  obtain ⟨-, job, h2, -, -, h5, h6⟩ := h
  have key : ∀ r, ∃ (rm : RankMesh A.K) (mem : SCell → A.K) (nor : NCell → A.K), r < nranks → threadMesh job nranks (env r) r = some rm ∧
      ∃ S : JobSetup job un dim r rm mem nor, S.n1 = n ∧ S.n2 = n ∧ S.n3 = n := by
    intro r
    by_cases hr : r < nranks
    · obtain ⟨rm, e1, e2⟩ := h5 r hr
      obtain ⟨mem, nor, S, s1, s2, s3, -⟩ := e2 n hn (fun _ => 0) (fun _ => 0) fun _ _ _ => rfl
      exact ⟨rm, mem, nor, fun _ => ⟨e1, S, s1, s2, s3⟩⟩
    · exact ⟨⟨0, 0, 0, 0, [], [], [], [], [], [], [], [], []⟩, fun _ => 0, fun _ => 0, fun h => absurd h hr⟩
  choose rms mem nor hS using key
  obtain ⟨⟨x, hx⟩, H⟩ := h6 rms (fun r hr => (hS r hr).1) mem nor fun r hr => ⟨(hS r hr).2.choose⟩
  obtain ⟨-, ⟨c, k, e1, e2⟩, -⟩ := H x hx _ _ .refl
  obtain ⟨-, -, e3⟩ := H x hx c k e1
  obtain ⟨sol, -, -, e4, -⟩ := e3 e2
  exact ⟨job, rms, mem, nor, x, c, k, sol, h2, fun r hr => (hS r hr).1, fun r hr => (hS r hr).2, hx, e1, e2, e4⟩

theorem _root_.DG.PostOutcome.prints {A : Arith} {deck : Fl.Deck A.K} {fs : String → List String → Option (MeshFile A.K)} {un : Fl.Unset A.K}
    {dim nranks nv ne : ℕ} {env : ℕ → RankEnv A.K} {f : SolFile A.K} {good : ℕ → ℝ → Prop}
    (hn : 0 < nranks) (h : PostOutcome A deck fs un dim nranks nv ne env f good) :
    ∃ job qs sums N, Fl.readPost deck fs un dim nranks = some job ∧ (∀ r < nranks, Fl.postRank job dim nranks (env r) f r = some (qs r)) ∧
      PostSumsOK sums nranks nv ne qs ∧ Fl.postPrint job un dim (fun _ _ _ _ => 0) sums qs = some N ∧
      ∀ v < dim + 2, A.fin (N v) ∧ good v (A.val (N v)) := by
  obtain ⟨job, h1, h2, h3⟩ := h
  have q0 := Option.ne_none_iff_exists'.1 (h2 0 hn)
  have key : ∀ r, ∃ q, r < nranks → Fl.postRank job dim nranks (env r) f r = some q := fun r => by
    by_cases hr : r < nranks
    · obtain ⟨q, hq⟩ := Option.ne_none_iff_exists'.1 (h2 r hr)
      exact ⟨q, fun _ => hq⟩
    · exact ⟨q0.choose, fun h => absurd h hr⟩
  choose qs hqs using key
  obtain ⟨N, n1, n2⟩ := h3 qs hqs _ (leftSums_ok nranks _ _ _) fun _ _ _ _ => 0
  exact ⟨job, qs, _, N, h1, hqs, leftSums_ok nranks _ _ _, n1, n2⟩

/-- All hypotheses of `C87_threads_quad` and `C87_threads_post_quad` are met by the uniform flow on `perMesh` on computers of arbitrarily small roundoff: two
ranks, whose kernels run with any number `n` of threads, get to the end and write the file, and two ranks of the
post-processor print numbers. -/
example (t : Fam) (p : ℕ) (hp : orderFine t p) (f : NumericalFluxType) (st : StepperType) (n : ℕ) (hn : 0 < n) :
    ∃ (T T1 : ℝ) (y : ℝ → Coeffs ℝ) (κ C : ℝ), T1 < T ∧ ∀ u0 B : ℝ, 0 < u0 → ∃ A : Arith, 0 < A.u ∧ A.u ≤ u0 ∧ B ≤ A.big ∧
      ∃ (toInt : _) (deck : Fl.Deck A.K) (dt tend : A.K), DeckRead A κ deck 2 p (quadType t) (breezeGas f) st dt tend ∧
        A.val dt ≤ A.val tend ∧ A.val tend ≤ T1 ∧
        ∃ fs m', MeshGiven A κ 2 deck fs perMesh m' ∧ ∃ env, LaunchOK m' 2 perPart env ∧ ∃ un ord job rms mem nor x c k sol,
          Fl.readJob toInt deck fs un 2 2 = some job ∧ (∀ r < 2, threadMesh job 2 (env r) r = some (rms r)) ∧
          (∀ r < 2, ∃ S : JobSetup job un 2 r (rms r) (mem r) (nor r), S.n1 = n ∧ S.n2 = n ∧ S.n3 = n) ∧
          JobKernels job rms mem nor x ∧ Proto.Exec (threadProg job rms 2 x) (threadInit x mem) c k ∧ ThreadsDone job 2 c ∧
          threadFile job rms 2 2 ord c = some sol ∧
          ∃ job' qs sums N, Fl.readPost deck fs un 2 2 = some job' ∧
            (∀ r < 2, Fl.postRank job' 2 2 (env r) sol r = some (qs r)) ∧ PostSumsOK sums 2 ((p + 2) * (p + 2)) ((2 * max p 1 + 2) * (2 * max p 1 + 2)) qs ∧
            Fl.postPrint job' un 2 (fun _ _ _ _ => 0) sums qs = some N ∧ ∀ v < 2 + 2, A.fin (N v) ∧
              |A.val (N v) - quadDist t p perMesh (fun _ s => (breezeGas f).icData.getD s 0) (y (A.val tend)) v| ≤
                C * (A.val dt + A.u / A.val dt) := by
  obtain ⟨T, T1, y, κ, hT, hT1, hst, hy, hr, hy0, H⟩ := breeze_case t p hp f st
  have hγ : 1 < (breezeGas f).γ := by norm_num [breezeGas]
  obtain ⟨C1, h1, u1, B1, hh1, hu1, H1⟩ := C87_threads_quad perMesh perMesh_ok perMesh_quad perMesh_sides t p hp (breezeGas f) hγ _ hst T T1 hT hT1
    y hy hr hy0 κ
  obtain ⟨C2, h2, u2, B2, hh2, hu2, H2⟩ := C87_threads_post_quad perMesh perMesh_ok perMesh_quad perMesh_sides t p hp (breezeGas f) hγ _ hst T T1 hT hT1
    y hy hr hy0 κ
  refine ⟨T, T1, y, κ, C2, hT1, fun u0 B hu0 => ?_⟩
  obtain ⟨A, a0, a1, a2, ⟨toInt, htr⟩, deck, dt, tend, hdeck, d1, d2, d3, d4, d5, d6, d7, d8, fs, m', hgiven, env, hl⟩ :=
    H (max C1 C2) (min h1 h2) (min u0 (min u1 u2)) (max B (max B1 B2)) (lt_min hh1 hh2) (lt_min hu0 (lt_min hu1 hu2))
  simp only [le_min_iff] at a1 d3
  simp only [max_le_iff] at a2
  have e1 := (mul_le_mul_of_nonneg_right (le_max_left C1 C2) a0.le).trans d4
  have e2 := (mul_le_mul_of_nonneg_right (le_max_right C1 C2) a0.le).trans d4
  have hord : ∀ i : ℕ, ((fun _ => List.range 2 : ℕ → List ℕ) i).Perm (List.range 2) := fun _ => List.Perm.refl _
  obtain ⟨job, rms, mem, nor, x, c, k, sol, q1, q2, q3, q4, q5, q6, q7⟩ := (H1 A a1.2.1 a2.2.1 toInt htr deck st dt tend hdeck d1 d2 d3.1 e1 d5
    (d2.le.trans d6) d7 d8 fs m' hgiven 2 perPart env hl ⟨fun _ => 0, fun _ => 0, fun _ => 0, 0, 0⟩ _ hord).runs hn
  obtain ⟨job', qs, sums, N, n1, n2, n3, n4, n5⟩ := (H2 A a1.2.2 a2.2.2 toInt htr deck st dt tend hdeck d1 d2 d3.2 e2 d5
    (d2.le.trans d6) d7 d8 fs m' hgiven 2 perPart env hl ⟨fun _ => 0, fun _ => 0, fun _ => 0, 0, 0⟩ _ hord job q1 rms q2 mem nor
    (fun r hr => ⟨(q3 r hr).choose⟩) x q4 c k q5 q6 sol q7 env ⟨fun _ => 0, fun _ => 0, fun _ => 0, 0, 0⟩ hl).prints (by omega)
  exact ⟨A, a0, a1.1, a2.1, toInt, deck, dt, tend, hdeck, d6, d7, fs, m', hgiven, env, hl, _, _, job, rms, mem, nor, x, c, k, sol, q1, q2, q3, q4, q5,
    q6, q7, job', qs, sums, N, n1, n2, n3, n4, fun v hv => ⟨(n5 v hv).1, (n5 v hv).2.2⟩⟩

/-- All hypotheses of `C87_threads_hex` and `C87_threads_post_hex` are met by the uniform flow on `slabMesh` on computers of arbitrarily small roundoff: two
ranks, whose kernels run with any number `n` of threads, get to the end and write the file, and two ranks of the
post-processor print numbers. -/
example (t : Fam) (p : ℕ) (hp : orderFine t p) (hp5 : p ≤ 5) (f : NumericalFluxType) (st : StepperType) (n : ℕ) (hn : 0 < n) :
    ∃ (T T1 : ℝ) (y : ℝ → Coeffs ℝ) (κ C : ℝ), T1 < T ∧ ∀ u0 B : ℝ, 0 < u0 → ∃ A : Arith, 0 < A.u ∧ A.u ≤ u0 ∧ B ≤ A.big ∧
      ∃ (toInt : _) (deck : Fl.Deck A.K) (dt tend : A.K), DeckRead A κ deck 3 p (hexType t) (breezeGas3 f) st dt tend ∧
        A.val dt ≤ A.val tend ∧ A.val tend ≤ T1 ∧
        ∃ fs m', MeshGiven A κ 3 deck fs slabMesh m' ∧ ∃ env, LaunchOK m' 2 slabPart env ∧ ∃ un ord job rms mem nor x c k sol,
          Fl.readJob toInt deck fs un 3 2 = some job ∧ (∀ r < 2, threadMesh job 2 (env r) r = some (rms r)) ∧
          (∀ r < 2, ∃ S : JobSetup job un 3 r (rms r) (mem r) (nor r), S.n1 = n ∧ S.n2 = n ∧ S.n3 = n) ∧
          JobKernels job rms mem nor x ∧ Proto.Exec (threadProg job rms 2 x) (threadInit x mem) c k ∧ ThreadsDone job 2 c ∧
          threadFile job rms 3 2 ord c = some sol ∧
          ∃ job' qs sums N, Fl.readPost deck fs un 3 2 = some job' ∧
            (∀ r < 2, Fl.postRank job' 3 2 (env r) sol r = some (qs r)) ∧ PostSumsOK sums 2 ((p + 2) * (p + 2) * (p + 2)) ((2 * max p 1 + 2) * (2 * max p 1 + 2) * (2 * max p 1 + 2)) qs ∧
            Fl.postPrint job' un 3 (fun _ _ _ _ => 0) sums qs = some N ∧ ∀ v < 3 + 2, A.fin (N v) ∧
              |A.val (N v) - hexDist t p slabMesh (fun _ s => (breezeGas3 f).icData.getD s 0) (y (A.val tend)) v| ≤
                C * (A.val dt + A.u / A.val dt) := by
  obtain ⟨T, T1, y, κ, hT, hT1, _, hst, hy, hr, hy0, H⟩ := breeze_case3 t p hp hp5 f st
  have hγ : 1 < (breezeGas3 f).γ := by norm_num [breezeGas3]
  obtain ⟨C1, h1, u1, B1, hh1, hu1, H1⟩ := C87_threads_hex slabMesh slabMesh_ok slabMesh_hex slabMesh_faces t p hp hp5 (breezeGas3 f) hγ _ hst T T1 hT hT1
    y hy hr hy0 κ
  obtain ⟨C2, h2, u2, B2, hh2, hu2, H2⟩ := C87_threads_post_hex slabMesh slabMesh_ok slabMesh_hex slabMesh_faces t p hp hp5 (breezeGas3 f) hγ _ hst T T1 hT hT1
    y hy hr hy0 κ
  refine ⟨T, T1, y, κ, C2, hT1, fun u0 B hu0 => ?_⟩
  obtain ⟨A, a0, a1, a2, ⟨toInt, htr⟩, deck, dt, tend, hdeck, d1, d2, d3, d4, d5, d6, d7, d8, fs, m', hgiven, env, hl, hcut⟩ :=
    H (max C1 C2) (min h1 h2) (min u0 (min u1 u2)) (max B (max B1 B2)) (lt_min hh1 hh2) (lt_min hu0 (lt_min hu1 hu2))
  simp only [le_min_iff] at a1 d3
  simp only [max_le_iff] at a2
  have e1 := (mul_le_mul_of_nonneg_right (le_max_left C1 C2) a0.le).trans d4
  have e2 := (mul_le_mul_of_nonneg_right (le_max_right C1 C2) a0.le).trans d4
  have hord : ∀ i : ℕ, ((fun _ => List.range 2 : ℕ → List ℕ) i).Perm (List.range 2) := fun _ => List.Perm.refl _
  obtain ⟨job, rms, mem, nor, x, c, k, sol, q1, q2, q3, q4, q5, q6, q7⟩ := (H1 A a1.2.1 a2.2.1 toInt htr deck st dt tend hdeck d1 d2 d3.1 e1 d5
    (d2.le.trans d6) d7 d8 fs m' hgiven 2 slabPart env hl hcut ⟨fun _ => 0, fun _ => 0, fun _ => 0, 0, 0⟩ _ hord).runs hn
  obtain ⟨job', qs, sums, N, n1, n2, n3, n4, n5⟩ := (H2 A a1.2.2 a2.2.2 toInt htr deck st dt tend hdeck d1 d2 d3.2 e2 d5
    (d2.le.trans d6) d7 d8 fs m' hgiven 2 slabPart env hl hcut ⟨fun _ => 0, fun _ => 0, fun _ => 0, 0, 0⟩ _ hord job q1 rms q2 mem nor
    (fun r hr => ⟨(q3 r hr).choose⟩) x q4 c k q5 q6 sol q7 env ⟨fun _ => 0, fun _ => 0, fun _ => 0, 0, 0⟩ hl).prints (by omega)
  exact ⟨A, a0, a1.1, a2.1, toInt, deck, dt, tend, hdeck, d6, d7, fs, m', hgiven, env, hl, _, _, job, rms, mem, nor, x, c, k, sol, q1, q2, q3, q4, q5,
    q6, q7, job', qs, sums, N, n1, n2, n3, n4, fun v hv => ⟨(n5 v hv).1, (n5 v hv).2.2⟩⟩

end DG.Dev
