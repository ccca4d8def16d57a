import Verif.Model.Post
import Verif.Props.Main

/-!
Property C68: the post-processor prints the distance of the computed solution from the exact solution.
-/
namespace DG
open Finset

/-- the exact solution of the program, for the initial states of `StartState` -/
theorem solverExact_eq (ph : Physics) (hγ : 1 < ph.γ) (junk : (ℕ → ℝ) → ℕ → ℝ) (dim : ℕ) (W : (ℕ → ℝ) → ℕ → ℝ)
    (h : StartState ph dim W) (x : ℕ → ℝ) (s : ℕ) (hs : s < dim + 2) : solverExact dim ph junk 0 x s = W x s := by
  rw [← solverIC_eq ph hγ junk dim W h x s hs]
  have key : (callExact dim ph x 0 (junk x)).map Prod.fst = callIC dim ph x 0 (junk x) := by
    have hm : ∀ o : Option (ℕ → ℝ), (o.map (·, false)).map Prod.fst = o := by
      intro o; cases o <;> rfl
    cases h with
    | uniform _ hd hic hlen =>
      rcases hd with rfl | rfl <;> unfold callExact callIC <;> simp only [hic] <;> exact hm _
    | vortex hic hR ρ u v P K rest hdata hρ hP hK =>
      unfold callExact callIC; simp only [hic]; exact hm _
    | vortex3 hic hγ3 =>
      unfold callExact callIC; simp only [hic]; exact hm _
  unfold solverExact solverIC
  rw [key]

/-- the reduction over elements and ranks -/
theorem errorNorm_ranks {m : GMesh ℝ} {nranks : ℕ} {part : List ℕ} {rms : ℕ → RankMesh ℝ} (w : World m nranks part rms)
    (err vol : ℕ → ℕ → ℝ) (F G : ℕ → ℝ)
    (herr : ∀ r < nranks, ∀ k e : ℕ, (rms r).l2gElem[k]? = some e → err r k = F e)
    (hvol : ∀ r < nranks, ∀ k e : ℕ, (rms r).l2gElem[k]? = some e → vol r k = G e) :
    errorNorm nranks 2 (fun r => (rms r).numElemsPart) err
      (fun r => totVolPart true (localVolume (rms r).numElemsPart (vol r))) =
    Real.sqrt ((∑ e ∈ range m.numElems, F e) / ∑ e ∈ range m.numElems, G e) := by
  have key : ∀ r, ∃ en, r < nranks → EnumOK en ∧ partition m nranks nranks part en r = some (rms r) := by
    intro r
    by_cases hr : r < nranks
    · obtain ⟨en, h⟩ := w.ranks r hr
      exact ⟨en, fun _ => h⟩
    · exact ⟨id, fun h => absurd h hr⟩
  choose en hen using key
  have hen' : ∀ r, EnumOK (if r < nranks then en r else id) := by
    intro r
    split
    · rename_i hr; exact (hen r hr).1
    · exact fun l => List.Perm.refl l
  have hpart : ∀ r < nranks, partition m nranks nranks part (if r < nranks then en r else id) r = some (rms r) := by
    intro r hr; rw [if_pos hr]; exact (hen r hr).2
  have red : ∀ (a : ℕ → ℕ → ℝ) (A : ℕ → ℝ),
      (∀ r < nranks, ∀ k e : ℕ, (rms r).l2gElem[k]? = some e → a r k = A e) →
      allreduceSum nranks (fun r => loopSum (rms r).numElemsPart (a r)) = ∑ e ∈ range m.numElems, A e := by
    intro a A h
    rw [← rank_sum m nranks part _ w.mesh w.parts hen' rms hpart A]
    unfold allreduceSum
    rw [loopSum_eq, loopSum_eq]
    refine Finset.sum_congr rfl fun r hr => ?_
    have hr' := Finset.mem_range.1 hr
    rw [loopSum_eq, loopSum_eq]
    refine Finset.sum_congr rfl fun k hk => ?_
    have res := result_of w.mesh w.parts (hen' r) hr' (hpart r hr')
    have hk' : k < (rms r).l2gElem.length := by
      rw [res.l2gElem, ← res.numElemsPart]; exact Finset.mem_range.1 hk
    rw [h r hr' k _ (List.getElem?_eq_getElem hk'), List.getElem?_eq_getElem hk', Option.getD_some]
  unfold errorNorm totVolPart localVolume
  simp only [if_true]
  rw [red err F herr, red vol G hvol, Real.sqrt_eq_rpow]
  norm_num

/-- a rank of the post-processor -/
theorem postRank_some {job : Job} {dim nranks : ℕ} {env : RankEnv} {f : SolFile ℝ} {r : ℕ} {q : PostRank}
    (h : postRank job dim nranks env f r = some q) :
    partition job.mesh job.nparts nranks (elemPartition job.nparts job.mesh.numElems env.metis) env.enum r = some q.rm ∧
    buildGeom job.num.basis job.num.gbasis job.num.order 1 r q.rm env.scr env.MM0 = some q.geom ∧
    ∃ s, readInCoefficients nranks f r newSolver = some s ∧ q.time = s.time ∧ ∀ e b v, q.uc e b v = (s.uc e b v).getD 0 := by
  unfold postRank at h
  simp only [Option.bind_eq_bind, Option.bind_eq_some_iff] at h
  obtain ⟨rm, h1, -, -, g, h2, s, h3, h4⟩ := h
  split at h4
  · cases h4; exact ⟨h1, h2, s, h3, rfl, fun _ _ _ => rfl⟩
  · cases h4

/-- the inputs of a run, quadrilaterals -/
theorem quad_inputs {deck : Deck} {fs : String → List String → Option (MeshFile ℝ)} {m : GMesh ℝ} {t : Fam} {p : ℕ}
    {ph : Physics} {start : (ℕ → ℝ) → ℕ → ℝ} {st : StepperType} {dt T : ℝ} {n : ℕ}
    (h : QuadRunOK deck fs m t p ph start st dt T n) (un : Unset) (nranks : ℕ) (steps : SolverSetup → Option ℕ) (k : ℕ)
    (hk : steps ⟨ph, st, dt, T, 0⟩ = some k) :
    ∃ num d, num.order = p ∧ num.basis = quadType t ∧ num.gbasis = .LagrangeQuad ∧
      buildDisc (quadType t) .LagrangeQuad p 1 4 (solverVolFlux 2 ph un.vol) (solverNumFlux 2 ph un.num) = some d ∧
      readInputs deck fs un 2 nranks steps = some ⟨num, m, 2, nranks, ⟨ph, st, dt, T, 0⟩, d, k⟩ := by
  obtain ⟨name, mf, hname, hmf, hof⟩ := h.file
  have hq := h.quads
  obtain ⟨rd, hrd, hrm⟩ := readMesh_of hof h.mesh fun e _ => le_trans
    (sides_le 4 (fun f hf => (hq.faceL f hf).1) (fun f hf => (hq.faceR f hf).1) hq.sides e) (by omega)
  have hmax : (p + 1) * (p + 1) ≤ 300 := by
    have := h.order.1
    calc (p + 1) * (p + 1) ≤ 12 * 12 := Nat.mul_le_mul (by omega) (by omega)
      _ ≤ 300 := by norm_num
  obtain ⟨num, n1, n2, n3, n4⟩ := deck_params h.asks ((p + 1) * (p + 1)) (p + 1) 4 (.LagrangeQuad, 4, 2)
    (by cases t <;> rfl) (by cases t <;> rfl) (by cases t <;> rfl) rfl hmax
  obtain ⟨d, hd, -⟩ := buildDisc_quad t p 4 h.order (solverVolFlux 2 ph un.vol) (solverNumFlux 2 ph un.num)
  have hjob := readInputs_ok (steps := steps) h.asks un nranks n1 n2 n3 n4
    (sh := (.Quadrilateral, some .Segment)) (by cases t <;> rfl) rfl fs hname hmf hrd hrm hd hk
  rw [hof.fileDim] at hjob
  exact ⟨num, d, n2, n3, n4, hd, hjob⟩

/-- **C68** (quadrilaterals).  Run the solver, then the post-processor with the same input files on the same
number of ranks, and let the partitioner give the same answer.  Then every rank gets through, and the
number printed for variable `v` is the distance of the computed solution from the initial state (which
for a uniform flow, and for the vortex after whole periods, is the exact solution) in the normalised
discrete L² norm, whatever the two launches. -/
theorem C68_post_quad (deck : Deck) (fs : String → List String → Option (MeshFile ℝ)) (m : GMesh ℝ) (t : Fam) (p : ℕ)
    (ph : Physics) (start : (ℕ → ℝ) → ℕ → ℝ) (st : StepperType) (dt T : ℝ) (n : ℕ)
    (h : QuadRunOK deck fs m t p ph start st dt T n)
    -- the run of the solver
    (nranks : ℕ) (part : List ℕ) (env : ℕ → RankEnv) (hl : LaunchOK m nranks part env) (un : Unset)
    (sched : ℕ → ℕ → List (FluxWrite ℝ) → List (FluxWrite ℝ)) (hsched : ∀ r k l, (sched r k l).Perm l)
    (ord : ℕ → List ℕ) (hord : ∀ i, (ord i).Perm (List.range nranks)) (job : Job) (ranks : ℕ → RankReady)
    (hj : readJob deck fs un 2 nranks = some job)
    (hranks : ∀ r < nranks, readyRank job un 2 nranks (env r) r = some (ranks r))
    (c : LoopConf) (k : ℕ) (hx : Proto.Exec (jobProg job ranks nranks sched) (jobInit job ranks) c k)
    (hdone : LoopDone job nranks c) (f : SolFile ℝ) (hf : jobFile job ranks 2 nranks ord c = some f)
    -- the run of the post-processor
    (env' : ℕ → RankEnv) (hl' : LaunchOK m nranks part env') (un' : Unset) (Uq0 : ℕ → ℕ → ℕ → ℕ → ℝ) :
    ∃ job', readPost deck fs un' 2 nranks = some job' ∧
      (∀ r < nranks, postRank job' 2 nranks (env' r) f r ≠ none) ∧
      ∀ qs : ℕ → PostRank, (∀ r < nranks, postRank job' 2 nranks (env' r) f r = some (qs r)) →
        ∃ N, postPrint job' un' 2 nranks Uq0 qs = some N ∧
          ∀ v < 4, N v = quadDist t p m start (quadRun t p m ph start st.scheme dt n) v := by
  -- what the file holds
  obtain ⟨-, job₁, a1, -, a2⟩ := C67_program_quad deck fs m t p ph start st dt T n h nranks part env hl un sched hsched ord hord
  rw [hj] at a1; cases a1
  obtain ⟨f', -, b1, -, -, -, hback⟩ := (a2 ranks hranks c k hx).2.2 hdone
  rw [hf] at b1; cases b1
  -- setup of the post-processor
  have hq := h.quads
  obtain ⟨numR, dR, -, -, -, -, hR⟩ := quad_inputs h un nranks (fun sol => numIterations (sol.tfinal / sol.dt)) n
    (iterations_of h.step h.before h.after h.count)
  obtain rfl : _ = job := Option.some.inj (hR.symm.trans hj)
  obtain ⟨num, d, n2, n3, n4, hd, hP⟩ := quad_inputs h un' nranks (fun _ => some 0) 0 rfl
  obtain ⟨rms, w, hparts, hview⟩ := hl'.world h.mesh
  obtain ⟨d', hd', hag⟩ := buildDisc_quad t p 4 h.order (solverVolFlux 2 ph un'.vol) (solverNumFlux 2 ph un'.num)
  rw [hd] at hd'; cases hd'
  have hnb : d.nb = (p + 1) * (p + 1) := hag.nb
  have hgeom : ∀ r < nranks, ∃ g, buildGeom (quadType t) .LagrangeQuad p 1 r (rms r) (env' r).scr (env' r).MM0 = some g ∧
      GeomRestrict (quadDisc t p 4 (solverVolFlux 2 ph un'.vol) (solverNumFlux 2 ph un'.num)) (rms r) g (quadGeom t p m) :=
    fun r hlt => buildGeom_quad w hq t p 4 h.order _ _ hlt _ _
  -- the two launches give every rank the same elements
  have hsame : ∀ r < nranks, (rms r).l2gElem = (ranks r).rm.l2gElem := by
    intro r hlt
    have hpr := (readyRank_some (hranks r hlt)).1
    simp only at hpr
    rw [hl.part_eq r hlt] at hpr
    rw [(result_of h.mesh hl'.parts (hl'.enum r) hlt (hparts r hlt)).l2gElem,
      (result_of h.mesh hl.parts (hl.enum r) hlt hpr).l2gElem]
  have hread : ∀ r < nranks, ∃ s, readInCoefficients nranks f r newSolver = some s ∧ s.time = 0 ∧
      ∀ i e : ℕ, (rms r).l2gElem[i]? = some e → ∀ j < (p + 1) * (p + 1), ∀ k < 4,
        s.uc i j k = some (quadRun t p m ph start st.scheme dt n e j k) := by
    intro r hlt
    rw [hsame r hlt]; exact hback r hlt
  refine ⟨_, hP, fun r hlt => ?_, fun qs hqs => ?_⟩
  · obtain ⟨v, hv⟩ := hview r hlt
    obtain ⟨g, hg, -⟩ := hgeom r hlt
    obtain ⟨s, s1, -, s3⟩ := hread r hlt
    have res := result_of h.mesh hl'.parts (hl'.enum r) hlt (hparts r hlt)
    unfold postRank
    simp only [Option.bind_eq_bind]
    rw [hl'.part_eq r hlt, hparts r hlt, Option.bind_some, hv, Option.bind_some, n3, n4, n2, hg, Option.bind_some, s1,
      Option.bind_some, if_pos]
    · simp
    · intro e he b hb v hv
      have he' : e < (rms r).l2gElem.length := by rw [res.l2gElem, ← res.numElemsPart]; exact he
      rw [s3 e _ (List.getElem?_eq_getElem he') b (by rw [← hnb]; exact hb) v hv]
      simp
  · have hqq := fun r hlt => postRank_some (hqs r hlt)
    simp only [n2, n3, n4] at hqq
    clear hgeom hview hsame
    have hparts' : ∀ r < nranks, partition m nranks nranks part (env' r).enum r = some (qs r).rm := fun r hlt => by
      rw [← (hqq r hlt).1, hl'.part_eq r hlt]
    have w' : World m nranks part fun r => (qs r).rm := ⟨h.mesh, hl'.parts, fun r hr => ⟨_, hl'.enum r, hparts' r hr⟩⟩
    have hrms : ∀ r < nranks, rms r = (qs r).rm := fun r hlt => Option.some.inj ((hparts r hlt).symm.trans (hparts' r hlt))
    obtain ⟨-, -, -, t4⟩ := tables_fine p h.order.1
    obtain ⟨ref, r1, r2, r3, r4⟩ := volRef_spec t p (2 * max p 1) h.order.2 t4
    have es : basisShape (quadType t) = some (.Quadrilateral, some .Segment) := by cases t <;> rfl
    have eg : basisShape .LagrangeQuad = some (.Quadrilateral, some .Segment) := rfl
    have en : shapeNumBasis .Quadrilateral 1 = some 4 := rfl
    unfold postPrint
    simp only [Option.bind_eq_bind]
    rw [n3, n4, n2, es, Option.bind_some, eg, Option.bind_some, en, Option.bind_some, r1, Option.bind_some]
    refine ⟨_, rfl, fun v hv => ?_⟩
    rw [errorNorm_ranks w' _ _ _ _ ?_ ?_]
    · rfl
    · intro r hlt k e hk
      obtain ⟨-, -, s, s1, s2, s3⟩ := hqq r hlt
      obtain ⟨s', s1', s4, s5⟩ := hread r hlt
      rw [s1] at s1'; cases s1'
      have hcoord : ∀ i < 4, ∀ d, elemCoords (qs r).rm k i d = fileCoords m e i d := by
        intro i hi d; exact w'.coords hlt hk i (by rw [hq.npe]; exact hi) d
      rw [hrms r hlt] at s5
      simp only [elemError]
      rw [loopSum_eq, r2]
      refine Finset.sum_congr rfl fun q hq' => ?_
      have hq'' := Finset.mem_range.1 hq'
      rw [evaluateState, cAxB_entry _ _ _ _ _ _ _ _ _ hq'' hv, one_mul, s2, s4,
        solverExact_eq ph h.gas un'.ic 2 start h.startOK _ v hv, (r4 q hq'').1,
        show shapeNodes .Quadrilateral 1 = 4 from rfl, setupDjac_quad r3 _ q hq'', (quad_congr hcoord).2.1, hnb]
      rw [show (∑ j ∈ range ((p + 1) * (p + 1)), ref.val q j * (qs r).uc k j v) =
          ∑ b ∈ range ((p + 1) * (p + 1)), quadRun t p m ph start st.scheme dt n e b v *
            phi t p b (glX (2 * (2 * max p 1) + 3) (q % (2 * max p 1 + 2))) (glX (2 * (2 * max p 1) + 3) (q / (2 * max p 1 + 2)))
        from Finset.sum_congr rfl fun b hb => by
          have hb' := Finset.mem_range.1 hb
          rw [((r4 q hq'').2 b hb').1, s3, s5 k e hk b hb' v hv, Option.getD_some, mul_comm]]
      have hx : cArr 2 (refToPhys 2 4 (ref.gval q) (elemCoords (qs r).rm k)) = fun d => if d < 2 then
          quadMap (fileCoords m e) (glX (2 * (2 * max p 1) + 3) (q % (2 * max p 1 + 2)))
            (glX (2 * (2 * max p 1) + 3) (q / (2 * max p 1 + 2))) d else 0 := by
        funext d
        simp only [cArr]
        split
        · rename_i hd
          rw [refToPhys_quad r3 _ q hq'' d hd, (quad_congr hcoord).1]
        · rfl
      rw [hx]
      ring
    · intro r hlt k e hk
      obtain ⟨g, hg, hgr⟩ := buildGeom_quad w' hq t p 4 h.order (solverVolFlux 2 ph un'.vol) (solverNumFlux 2 ph un'.num)
        hlt (env' r).scr (env' r).MM0
      rw [(hqq r hlt).2.1] at hg; cases hg
      simp only [elementVolume]
      rw [loopSum_eq, show d.nq = (p + 2) * (p + 2) from hag.nq]
      refine Finset.sum_congr rfl fun q hq' => ?_
      have hq'' := Finset.mem_range.1 hq'
      rw [hag.volWts q (by rw [show d.nq = (p + 2) * (p + 2) from hag.nq]; exact hq''), hgr.djac k e hk q hq'']
      rfl

/-- the inputs of a run, hexahedra -/
theorem hex_inputs {deck : Deck} {fs : String → List String → Option (MeshFile ℝ)} {m : GMesh ℝ} {t : Fam} {p : ℕ}
    {ph : Physics} {start : (ℕ → ℝ) → ℕ → ℝ} {st : StepperType} {dt T : ℝ} {n : ℕ}
    (h : HexRunOK deck fs m t p ph start st dt T n) (un : Unset) (nranks : ℕ) (steps : SolverSetup → Option ℕ) (k : ℕ)
    (hk : steps ⟨ph, st, dt, T, 0⟩ = some k) :
    ∃ num d, num.order = p ∧ num.basis = hexType t ∧ num.gbasis = .LagrangeHex ∧
      buildDisc (hexType t) .LagrangeHex p 1 5 (solverVolFlux 3 ph un.vol) (solverNumFlux 3 ph un.num) = some d ∧
      readInputs deck fs un 3 nranks steps = some ⟨num, m, 3, nranks, ⟨ph, st, dt, T, 0⟩, d, k⟩ := by
  obtain ⟨name, mf, hname, hmf, hof⟩ := h.file
  have hq := h.hexes
  obtain ⟨rd, hrd, hrm⟩ := readMesh_of hof h.mesh fun e _ => le_trans
    (sides_le 6 (fun f hf => (hq.faceL f hf).1) (fun f hf => (hq.faceR f hf).1) hq.sides e) (by omega)
  have hmax : (p + 1) * (p + 1) * (p + 1) ≤ 300 := by
    have := h.small
    calc (p + 1) * (p + 1) * (p + 1) ≤ 6 * 6 * 6 :=
          Nat.mul_le_mul (Nat.mul_le_mul (by omega) (by omega)) (by omega)
      _ ≤ 300 := by norm_num
  obtain ⟨num, n1, n2, n3, n4⟩ := deck_params h.asks ((p + 1) * (p + 1) * (p + 1)) (p + 1) 8 (.LagrangeHex, 6, 8)
    (by cases t <;> rfl) (by cases t <;> rfl) (by cases t <;> rfl) rfl hmax
  obtain ⟨d, hd, -⟩ := buildDisc_hex t p 5 h.order (solverVolFlux 3 ph un.vol) (solverNumFlux 3 ph un.num)
  have hjob := readInputs_ok (steps := steps) h.asks un nranks n1 n2 n3 n4
    (sh := (.Hexahedron, some .Quadrilateral)) (by cases t <;> rfl) rfl fs hname hmf hrd hrm hd hk
  rw [hof.fileDim] at hjob
  exact ⟨num, d, n2, n3, n4, hd, hjob⟩

/-- **C68** (hexahedra).  Run the solver, then the post-processor with the same input files on the same
number of ranks, and let the partitioner give the same answer, cutting along flat faces only.  Then every rank gets through, and the
number printed for variable `v` is the distance of the computed solution from the initial state (a uniform
flow, its own exact solution) in the normalised discrete L² norm, whatever the two launches. -/
theorem C68_post_hex (deck : Deck) (fs : String → List String → Option (MeshFile ℝ)) (m : GMesh ℝ) (t : Fam) (p : ℕ)
    (ph : Physics) (start : (ℕ → ℝ) → ℕ → ℝ) (st : StepperType) (dt T : ℝ) (n : ℕ)
    (h : HexRunOK deck fs m t p ph start st dt T n)
    -- the run of the solver
    (nranks : ℕ) (part : List ℕ) (env : ℕ → RankEnv) (hl : LaunchOK m nranks part env)
    (hcut : CutFlat m part) (un : Unset)
    (sched : ℕ → ℕ → List (FluxWrite ℝ) → List (FluxWrite ℝ)) (hsched : ∀ r k l, (sched r k l).Perm l)
    (ord : ℕ → List ℕ) (hord : ∀ i, (ord i).Perm (List.range nranks)) (job : Job) (ranks : ℕ → RankReady)
    (hj : readJob deck fs un 3 nranks = some job)
    (hranks : ∀ r < nranks, readyRank job un 3 nranks (env r) r = some (ranks r))
    (c : LoopConf) (k : ℕ) (hx : Proto.Exec (jobProg job ranks nranks sched) (jobInit job ranks) c k)
    (hdone : LoopDone job nranks c) (f : SolFile ℝ) (hf : jobFile job ranks 3 nranks ord c = some f)
    -- the run of the post-processor
    (env' : ℕ → RankEnv) (hl' : LaunchOK m nranks part env') (un' : Unset) (Uq0 : ℕ → ℕ → ℕ → ℕ → ℝ) :
    ∃ job', readPost deck fs un' 3 nranks = some job' ∧
      (∀ r < nranks, postRank job' 3 nranks (env' r) f r ≠ none) ∧
      ∀ qs : ℕ → PostRank, (∀ r < nranks, postRank job' 3 nranks (env' r) f r = some (qs r)) →
        ∃ N, postPrint job' un' 3 nranks Uq0 qs = some N ∧
          ∀ v < 5, N v = hexDist t p m start (hexRun t p m ph start st.scheme dt n) v := by
  -- what the file holds
  obtain ⟨-, job₁, a1, -, a2⟩ := C67_program_hex deck fs m t p ph start st dt T n h nranks part env hl hcut un sched hsched ord hord
  rw [hj] at a1; cases a1
  obtain ⟨f', -, b1, -, -, -, hback⟩ := (a2 ranks hranks c k hx).2.2 hdone
  rw [hf] at b1; cases b1
  -- setup of the post-processor
  have hq := h.hexes
  obtain ⟨numR, dR, -, -, -, -, hR⟩ := hex_inputs h un nranks (fun sol => numIterations (sol.tfinal / sol.dt)) n
    (iterations_of h.step h.before h.after h.count)
  obtain rfl : _ = job := Option.some.inj (hR.symm.trans hj)
  obtain ⟨num, d, n2, n3, n4, hd, hP⟩ := hex_inputs h un' nranks (fun _ => some 0) 0 rfl
  obtain ⟨rms, w, hparts, hview⟩ := hl'.world h.mesh
  obtain ⟨d', hd', hag⟩ := buildDisc_hex t p 5 h.order (solverVolFlux 3 ph un'.vol) (solverNumFlux 3 ph un'.num)
  rw [hd] at hd'; cases hd'
  have hnb : d.nb = (p + 1) * (p + 1) * (p + 1) := hag.nb
  have hgeom : ∀ r < nranks, ∃ g, buildGeom (hexType t) .LagrangeHex p 1 r (rms r) (env' r).scr (env' r).MM0 = some g ∧
      GeomRestrict (hexDisc t p 5 (solverVolFlux 3 ph un'.vol) (solverNumFlux 3 ph un'.num)) (rms r) g (hexGeom t p m) :=
    fun r hlt => buildGeom_hex w hq hcut t p 5 h.order _ _ hlt _ _
  -- the two launches give every rank the same elements
  have hsame : ∀ r < nranks, (rms r).l2gElem = (ranks r).rm.l2gElem := by
    intro r hlt
    have hpr := (readyRank_some (hranks r hlt)).1
    simp only at hpr
    rw [hl.part_eq r hlt] at hpr
    rw [(result_of h.mesh hl'.parts (hl'.enum r) hlt (hparts r hlt)).l2gElem,
      (result_of h.mesh hl.parts (hl.enum r) hlt hpr).l2gElem]
  have hread : ∀ r < nranks, ∃ s, readInCoefficients nranks f r newSolver = some s ∧ s.time = 0 ∧
      ∀ i e : ℕ, (rms r).l2gElem[i]? = some e → ∀ j < (p + 1) * (p + 1) * (p + 1), ∀ k < 5,
        s.uc i j k = some (hexRun t p m ph start st.scheme dt n e j k) := by
    intro r hlt
    rw [hsame r hlt]; exact hback r hlt
  refine ⟨_, hP, fun r hlt => ?_, fun qs hqs => ?_⟩
  · obtain ⟨v, hv⟩ := hview r hlt
    obtain ⟨g, hg, -⟩ := hgeom r hlt
    obtain ⟨s, s1, -, s3⟩ := hread r hlt
    have res := result_of h.mesh hl'.parts (hl'.enum r) hlt (hparts r hlt)
    unfold postRank
    simp only [Option.bind_eq_bind]
    rw [hl'.part_eq r hlt, hparts r hlt, Option.bind_some, hv, Option.bind_some, n3, n4, n2, hg, Option.bind_some, s1,
      Option.bind_some, if_pos]
    · simp
    · intro e he b hb v hv
      have he' : e < (rms r).l2gElem.length := by rw [res.l2gElem, ← res.numElemsPart]; exact he
      rw [s3 e _ (List.getElem?_eq_getElem he') b (by rw [← hnb]; exact hb) v hv]
      simp
  · have hqq := fun r hlt => postRank_some (hqs r hlt)
    simp only [n2, n3, n4] at hqq
    clear hgeom hview hsame
    have hparts' : ∀ r < nranks, partition m nranks nranks part (env' r).enum r = some (qs r).rm := fun r hlt => by
      rw [← (hqq r hlt).1, hl'.part_eq r hlt]
    have w' : World m nranks part fun r => (qs r).rm := ⟨h.mesh, hl'.parts, fun r hr => ⟨_, hl'.enum r, hparts' r hr⟩⟩
    have hrms : ∀ r < nranks, rms r = (qs r).rm := fun r hlt => Option.some.inj ((hparts r hlt).symm.trans (hparts' r hlt))
    obtain ⟨-, -, -, t4⟩ := tables_fine p h.order.1
    obtain ⟨ref, r1, r2, r3, r4⟩ := volRef_spec3 t p (2 * max p 1) h.order.2 t4
    have es : basisShape (hexType t) = some (.Hexahedron, some .Quadrilateral) := by cases t <;> rfl
    have eg : basisShape .LagrangeHex = some (.Hexahedron, some .Quadrilateral) := rfl
    have en : shapeNumBasis .Hexahedron 1 = some 8 := rfl
    unfold postPrint
    simp only [Option.bind_eq_bind]
    rw [n3, n4, n2, es, Option.bind_some, eg, Option.bind_some, en, Option.bind_some, r1, Option.bind_some]
    refine ⟨_, rfl, fun v hv => ?_⟩
    rw [errorNorm_ranks w' _ _ _ _ ?_ ?_]
    · rfl
    · intro r hlt k e hk
      obtain ⟨-, -, s, s1, s2, s3⟩ := hqq r hlt
      obtain ⟨s', s1', s4, s5⟩ := hread r hlt
      rw [s1] at s1'; cases s1'
      have hcoord : ∀ i < 8, ∀ d, elemCoords (qs r).rm k i d = fileCoords m e i d := by
        intro i hi d; exact w'.coords hlt hk i (by rw [hq.npe]; exact hi) d
      rw [hrms r hlt] at s5
      simp only [elemError]
      rw [loopSum_eq, r2]
      refine Finset.sum_congr rfl fun q hq' => ?_
      have hq'' := Finset.mem_range.1 hq'
      rw [evaluateState, cAxB_entry _ _ _ _ _ _ _ _ _ hq'' hv, one_mul, s2, s4,
        solverExact_eq ph h.gas un'.ic 3 start h.startOK _ v hv, (r4 q hq'').1,
        show shapeNodes .Hexahedron 1 = 8 from rfl, setupDjac_hex r3 _ q hq'', (hex_congr hcoord).2.1, hnb]
      rw [show (∑ j ∈ range ((p + 1) * (p + 1) * (p + 1)), ref.val q j * (qs r).uc k j v) =
          ∑ b ∈ range ((p + 1) * (p + 1) * (p + 1)), hexRun t p m ph start st.scheme dt n e b v *
            phi3 t p b (volPt3 (2 * max p 1) q)
        from Finset.sum_congr rfl fun b hb => by
          have hb' := Finset.mem_range.1 hb
          rw [((r4 q hq'').2 b hb').1, s3, s5 k e hk b hb' v hv, Option.getD_some, mul_comm]]
      have hx : cArr 3 (refToPhys 3 8 (ref.gval q) (elemCoords (qs r).rm k)) = fun d => if d < 3 then
          hexMap (fileCoords m e) (volPt3 (2 * max p 1) q) d else 0 := by
        funext d
        simp only [cArr]
        split
        · rename_i hd
          rw [refToPhys_hex r3 _ q hq'' d hd, (hex_congr hcoord).1]
        · rfl
      rw [hx]
      ring
    · intro r hlt k e hk
      obtain ⟨g, hg, hgr⟩ := buildGeom_hex w' hq hcut t p 5 h.order (solverVolFlux 3 ph un'.vol) (solverNumFlux 3 ph un'.num)
        hlt (env' r).scr (env' r).MM0
      rw [(hqq r hlt).2.1] at hg; cases hg
      simp only [elementVolume]
      rw [loopSum_eq, show d.nq = (p + 2) * (p + 2) * (p + 2) from hag.nq]
      refine Finset.sum_congr rfl fun q hq' => ?_
      have hq'' := Finset.mem_range.1 hq'
      rw [hag.volWts q (by rw [show d.nq = (p + 2) * (p + 2) * (p + 2) from hag.nq]; exact hq''), hgr.djac k e hk q hq'']
      rfl

end DG
