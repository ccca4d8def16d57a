import Verif.Props.MachineMain
import Verif.Props.RoundingThreadsExample
import Verif.Spec.MachineProgram

/-!
C87: the solver executable on a computer, from the input file to the solution file, down to its threads.
-/
namespace DG.Dev
open Kernel

theorem viewData_congr {α : Type} (right : Bool) (ne nb ns : ℕ) (U V : ℕ → ℕ → ℕ → α)
    (h : ∀ i < ne, ∀ j < nb, ∀ k < ns, U i j k = V i j k) : viewData right ne nb ns U = viewData right ne nb ns V := by
  unfold viewData
  refine List.map_congr_left fun p hp => ?_
  have hp := List.mem_range.1 hp
  have h1 : 0 < ne * nb * ns := by omega
  have hns : 0 < ns := Nat.pos_of_mul_pos_left h1
  have hnn : 0 < ne * nb := Nat.pos_of_mul_pos_right h1
  have hnb : 0 < nb := Nat.pos_of_mul_pos_left hnn
  have hne : 0 < ne := Nat.pos_of_mul_pos_right hnn
  split
  · refine h _ ?_ _ (Nat.mod_lt _ hnb) _ (Nat.mod_lt _ hns)
    rw [Nat.div_lt_iff_lt_mul (Nat.mul_pos hnb hns), ← mul_assoc]; exact hp
  · refine h _ (Nat.mod_lt _ hne) _ (Nat.mod_lt _ hnb) _ ?_
    rw [Nat.div_lt_iff_lt_mul hnn, mul_comm]; exact hp

theorem ready_mesh {K : Type} [Zero K] [One K] [Add K] [Sub K] [Mul K] [Neg K] [Div K] [NatCast K] [HasSqrt K] [HasLibm K] [DecLit K]
    [LT K] [DecidableLT K] [LE K] [DecidableLE K] [DecidableEq K] {job : Fl.Job K} {un : Fl.Unset K} {dim nranks : ℕ} {env : RankEnv K} {r : ℕ}
    {q : Fl.RankReady K} (h : Fl.readyRank job un dim nranks env r = some q) : threadMesh job nranks env r = some q.rm := by
  unfold Fl.readyRank at h
  unfold threadMesh
  simp only [Option.bind_eq_bind, Option.bind_eq_some_iff, Option.some.injEq] at h ⊢
  obtain ⟨rm, h1, v, h2, g, h3, u, h4, rfl⟩ := h
  exact ⟨rm, h1, v, h2, rfl⟩

/-- from sequential loops to threads -/
theorem _root_.DG.ProgramHolds.threads {A : Arith} {C : ℝ} {toInt : A.K → Option ℤ} {deck : Fl.Deck A.K}
    {fs : String → List String → Option (MeshFile A.K)} {un : Fl.Unset A.K} {dim nb nranks : ℕ} {part : List ℕ} {m' : GMesh A.K}
    {env : ℕ → RankEnv A.K} {ord : ℕ → List ℕ} {dt tend : A.K} {norient : ℕ}
    {bt bg : BasisType} {run : ℕ → Coeffs ℝ} {y : ℝ → Coeffs ℝ}
    (h : ProgramHolds A C toInt deck fs un dim nb nranks part m' env (fun _ _ l => l) ord dt tend norient bt bg run y)
    (hgt : basisShape bg = basisShape bt) :
    ThreadOutcome A C toInt deck fs un dim nb nranks m' env ord dt tend run y := by
  obtain ⟨h1, job, h2, h3, h4, h5, k1, k2, hc, ho, knb, kns, h6⟩ := h
  have hgt' : basisShape job.num.gbasis = basisShape job.num.basis := by rw [k1, k2]; exact hgt
  have R : ∀ r, ∃ q : Fl.RankReady A.K, r < nranks → Fl.readyRank job un dim nranks (env r) r = some q := by
    intro r
    by_cases hr : r < nranks
    · obtain ⟨q, hq⟩ := Option.ne_none_iff_exists'.1 (h5 r hr)
      exact ⟨q, fun _ => hq⟩
    · exact ⟨⟨⟨0, 0, 0, 0, [], [], [], [], [], [], [], [], []⟩, ⟨fun _ _ => 0, fun _ _ _ _ => 0, fun _ _ _ => 0, fun _ _ _ => 0⟩, fun _ _ _ => 0⟩, fun h => absurd h hr⟩
  choose ranks hranks using R
  obtain ⟨L, H⟩ := h6 ranks hranks
  refine ⟨h1, job, h2, h3, h4, fun r hr => ⟨_, ready_mesh (hranks r hr), fun n hn m0 nm0 hm0 => ?_⟩, ?_⟩
  · obtain ⟨scr, MM0, hg⟩ := L.geom r hr
    obtain ⟨rhs0, U0, hu⟩ := L.init r hr
    exact setupRun_exists hg hu hgt' hn hn hn (fun _ i => ⟨i % n, Nat.mod_lt _ hn⟩)
      (fun _ i => ⟨i % n, Nat.mod_lt _ hn⟩) (fun _ i => ⟨i % n, Nat.mod_lt _ hn⟩) m0 nm0 (fun e _ i j => hm0 e i j)
  · intro rms hrms mem nor S
    have hrm : ∀ r < nranks, rms r = (ranks r).rm := fun r hr =>
      Option.some.inj ((hrms r hr).symm.trans (ready_mesh (hranks r hr)))
    have w : World m' nranks part rms := by
      obtain ⟨a, b, c⟩ := L.world
      exact ⟨a, b, fun r hr => by rw [hrm r hr]; exact c r hr⟩
    refine ⟨(C70_executions_exist w job.disc norient hc ho _ _ _).1, fun x hx c k he => ?_⟩
    unfold threadProg at he ⊢
    unfold threadInit at he
    obtain ⟨f1, f2⟩ := C70_run_completes w job.disc norient hc ho _ _ _ x hx _ job.nsteps k c he
    refine ⟨f1, f2, fun hdone => ?_⟩
    obtain ⟨c1, e1, e2⟩ := threads_sequential w hc ho hx _ job.nsteps k c he
    obtain ⟨-, -, g3⟩ := H (fun r => ⟨rms r, readGeom (mem r) (nor r), readCoeffs (mem r)⟩) (fun r hr => ⟨hrm r hr, by
      show HoldsSetup job.disc (rms r) _ _ _ _
      obtain ⟨S⟩ := S r hr
      rw [hrm r hr] at S ⊢
      exact S.holdsSetup L hgt' hr⟩) c1 k e1
    obtain ⟨f, time, V, q1, q2⟩ := g3 fun r hr => by rw [(e2 r hr).1]; exact hdone r hr
    refine ⟨f, time, V, ?_, q2⟩
    rw [← q1]
    unfold threadFile Fl.jobFile
    simp only [Option.bind_eq_bind]
    have hmap : (List.range nranks).mapM (fun r => (c1.proc r).st.2.map fun s => rankOut job.mesh job.fileDim nranks job.disc.nb (dim + 2)
        s.time true (rms r) s.Uc) = some ((List.range nranks).map fun r => rankOut job.mesh job.fileDim nranks job.disc.nb (dim + 2)
          (c.proc r).st.time true (rms r) fun i b v => (c.proc r).st.mem ⟨.Uc, i, b, v, 0⟩) := by
      refine DG.mapM_some _ _ _ fun r hr => ?_
      obtain ⟨-, s, s1, s2, s3⟩ := e2 r (List.mem_range.1 hr)
      rw [s1, Option.map_some, s2]
      unfold rankOut
      rw [viewData_congr true (rms r).numElemsPart job.disc.nb (dim + 2) (fun i b v => (c.proc r).st.mem ⟨.Uc, i, b, v, 0⟩) s.Uc]
      intro i hi b hb v hv
      have hi' : i < (rms r).l2gElem.length := by rw [← w.numElems (List.mem_range.1 hr)]; exact hi
      exact s3 i _ (List.getElem?_eq_getElem hi') b hb v (by rw [kns]; exact hv)
    rw [hmap, Option.bind_some]

/-- **C87** (the executable on a computer down to its threads, quadrilaterals).  The statement of `C85_program_quad` for runs down
to the single loads and stores: on every rank the kernels of the setup and of the time loop are executed by any numbers of threads
(the kernel of the normals by one thread per face) under any interleavings, on whatever the memory held before; the
program does what `ThreadOutcome` says. -/
theorem C87_threads_quad (m : GMesh ℝ) (hm : MeshOK m) (hq : QuadMesh m) (hs : SidesNonzero m) (t : Fam) (p : ℕ) (hp : orderFine t p)
    (ph : Physics) (hγ : 1 < ph.γ) (start : (ℕ → ℝ) → ℕ → ℝ) (hst : StartState ph 2 start)
    (T T1 : ℝ) (hT : 0 ≤ T) (hT1 : T1 < T) (y : ℝ → Coeffs ℝ)
    (hy : ExactSolution (quadEuler t p ph.ftype ph.γ) m.numElems T
      (fun _ => globalRHS (quadEuler t p ph.ftype ph.γ) m (quadGeom t p m)) y)
    (hr : ∀ s ∈ Set.Icc 0 T, StatesRegular ph.ftype ph.γ (quadEuler t p ph.ftype ph.γ) m (quadGeom t p m) (y s))
    (hy0 : AgreeIn (quadEuler t p ph.ftype ph.γ) m.numElems (y 0) (quadInit t p m start)) (κ : ℝ) :
    ∃ C h0 u0 B : ℝ, 0 < h0 ∧ 0 < u0 ∧ ∀ A : Arith, A.u ≤ u0 → B ≤ A.big →
      ∀ toInt : A.K → Option ℤ, Truncates A toInt →
      ∀ (deck : Fl.Deck A.K) (st : StepperType) (dt tend : A.K), DeckRead A κ deck 2 p (quadType t) ph st dt tend →
      A.fin dt → 0 < A.val dt → A.val dt ≤ h0 → C * A.u ≤ A.val dt →
      A.fin tend → 0 ≤ A.val tend → A.val tend ≤ T1 → A.val tend ≤ (2 ^ 31 - 2) * A.val dt →
      ∀ (fs : String → List String → Option (MeshFile A.K)) (m' : GMesh A.K), MeshGiven A κ 2 deck fs m m' →
      ∀ (nranks : ℕ) (part : List ℕ) (env : ℕ → RankEnv A.K), LaunchOK m' nranks part env →
      ∀ un : Fl.Unset A.K,
      ∀ ord : ℕ → List ℕ, (∀ i, (ord i).Perm (List.range nranks)) →
      ThreadOutcome A C toInt deck fs un 2 ((p + 1) * (p + 1)) nranks m' env ord dt tend
        (quadRun t p m ph start st.scheme (A.val dt)) y := by
  have hmax : (p + 1) * (p + 1) ≤ 300 := by
    have := hp.1
    calc (p + 1) * (p + 1) ≤ 12 * 12 := Nat.mul_le_mul (by omega) (by omega)
      _ ≤ 300 := by norm_num
  obtain ⟨mass, vol, proj, fr, N1, N2, h⟩ := setupIs_quad hq t p 4 hp start
  obtain ⟨d, hd, ag⟩ := buildDisc_quad t p 4 hp (eulerDirFlux 2 ph.γ) (eulerNumFlux ph.ftype 2 ph.γ)
  obtain ⟨C, h0, u0, B, hh0, hu0, H⟩ := SetupIs.programHolds (dim := 2) h rfl (quad_shape t) rfl rfl rfl hq.npe (by rw [hq.npe]; omega) hq.faceRange
    (nb1 := p + 1) (gnb := 4) (gg := (.LagrangeQuad, 4, 2))
    (by cases t <;> rfl) (by cases t <;> rfl) (by cases t <;> rfl) rfl rfl hmax (by positivity)
    (fun e _ => le_trans (sides_le 4 (fun f hf => (hq.faceL f hf).1) (fun f hf => (hq.faceR f hf).1) hq.sides e) (by omega))
    κ hst hd (dE := quadEuler t p ph.ftype ph.γ) ag rfl rfl hm (Or.inl rfl) rfl (quadEuler_scheme t p ph.ftype ph.γ) hγ
    (hq.conforming t p 4 _ _) (quadDisc_order t p 4 _ _) (normals_nonzero hm hq hs t p 4 _ _) T T1 hT1 hT y hy hr hy0
  refine ⟨C, h0, u0, B, hh0, hu0, ?_⟩
  intro A hu hB toInt htr deck st dt tend hdeck f1 hdt0 hdt1 hdt2 f2 ht0 ht1 ht2 fs m' hgiven nranks part env hl un ord hord
  exact (H A hu hB toInt htr deck st dt tend hdeck f1 hdt0 hdt1 hdt2 f2 ht0 ht1 ht2 fs m' hgiven nranks part env hl (fun _ _ _ => trivial) un
    (fun _ _ l => l) (fun _ _ _ => .refl _) ord hord).threads (by rw [quad_shape t]; rfl)

/-- **C87** (the executable on a computer down to its threads, hexahedra).  The same for trilinear hexahedra, order at most five,
and partitions that cut the mesh along flat faces only. -/
theorem C87_threads_hex (m : GMesh ℝ) (hm : MeshOK m) (hq : HexMesh m) (hs : FacesNonzero m) (t : Fam) (p : ℕ) (hp : orderFine t p)
    (hp5 : p ≤ 5) (ph : Physics) (hγ : 1 < ph.γ) (start : (ℕ → ℝ) → ℕ → ℝ) (hst : StartState ph 3 start)
    (T T1 : ℝ) (hT : 0 ≤ T) (hT1 : T1 < T) (y : ℝ → Coeffs ℝ)
    (hy : ExactSolution (hexEuler t p ph.ftype ph.γ) m.numElems T
      (fun _ => globalRHS (hexEuler t p ph.ftype ph.γ) m (hexGeom t p m)) y)
    (hr : ∀ s ∈ Set.Icc 0 T, StatesRegular ph.ftype ph.γ (hexEuler t p ph.ftype ph.γ) m (hexGeom t p m) (y s))
    (hy0 : AgreeIn (hexEuler t p ph.ftype ph.γ) m.numElems (y 0) (hexInit t p m start)) (κ : ℝ) :
    ∃ C h0 u0 B : ℝ, 0 < h0 ∧ 0 < u0 ∧ ∀ A : Arith, A.u ≤ u0 → B ≤ A.big →
      ∀ toInt : A.K → Option ℤ, Truncates A toInt →
      ∀ (deck : Fl.Deck A.K) (st : StepperType) (dt tend : A.K), DeckRead A κ deck 3 p (hexType t) ph st dt tend →
      A.fin dt → 0 < A.val dt → A.val dt ≤ h0 → C * A.u ≤ A.val dt →
      A.fin tend → 0 ≤ A.val tend → A.val tend ≤ T1 → A.val tend ≤ (2 ^ 31 - 2) * A.val dt →
      ∀ (fs : String → List String → Option (MeshFile A.K)) (m' : GMesh A.K), MeshGiven A κ 3 deck fs m m' →
      ∀ (nranks : ℕ) (part : List ℕ) (env : ℕ → RankEnv A.K), LaunchOK m' nranks part env → CutFlat m part →
      ∀ un : Fl.Unset A.K,
      ∀ ord : ℕ → List ℕ, (∀ i, (ord i).Perm (List.range nranks)) →
      ThreadOutcome A C toInt deck fs un 3 ((p + 1) * (p + 1) * (p + 1)) nranks m' env ord dt tend
        (hexRun t p m ph start st.scheme (A.val dt)) y := by
  have hmax : (p + 1) * (p + 1) * (p + 1) ≤ 300 := by
    calc (p + 1) * (p + 1) * (p + 1) ≤ 6 * 6 * 6 :=
          Nat.mul_le_mul (Nat.mul_le_mul (by omega) (by omega)) (by omega)
      _ ≤ 300 := by norm_num
  obtain ⟨mass, vol, proj, fr, N1, N2, h⟩ := setupIs_hex hq t p 5 hp start
  obtain ⟨d, hd, ag⟩ := buildDisc_hex t p 5 hp (eulerDirFlux 3 ph.γ) (eulerNumFlux ph.ftype 3 ph.γ)
  obtain ⟨C, h0, u0, B, hh0, hu0, H⟩ := SetupIs.programHolds (dim := 3) h rfl (hex_shape t) rfl rfl rfl hq.npe (by rw [hq.npe]; omega) hq.faceRange
    (nb1 := p + 1) (gnb := 8) (gg := (.LagrangeHex, 6, 8))
    (by cases t <;> rfl) (by cases t <;> rfl) (by cases t <;> rfl) rfl rfl hmax (by positivity)
    (fun e _ => le_trans (sides_le 6 (fun f hf => (hq.faceL f hf).1) (fun f hf => (hq.faceR f hf).1) hq.sides e) (by omega))
    κ hst hd (dE := hexEuler t p ph.ftype ph.γ) ag rfl rfl hm (Or.inr rfl) rfl (hexEuler_scheme t p ph.ftype ph.γ) hγ
    (hq.conforming t p 5 _ _) (hexDisc_order t p 5 _ _) (hex_normals_nonzero hm hq hs t p 5 hp _ _) T T1 hT1 hT y hy hr hy0
  refine ⟨C, h0, u0, B, hh0, hu0, ?_⟩
  intro A hu hB toInt htr deck st dt tend hdeck f1 hdt0 hdt1 hdt2 f2 ht0 ht1 ht2 fs m' hgiven nranks part env hl hcut un ord hord
  exact (H A hu hB toInt htr deck st dt tend hdeck f1 hdt0 hdt1 hdt2 f2 ht0 ht1 ht2 fs m' hgiven nranks part env hl hcut un
    (fun _ _ l => l) (fun _ _ _ => .refl _) ord hord).threads (by rw [hex_shape t]; rfl)

end DG.Dev
