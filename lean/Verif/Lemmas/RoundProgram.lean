import Verif.Lemmas.RoundMain

/-!
The whole executable in rounded arithmetic.
-/
namespace DG

/-- the exact solution moves at bounded speed -/
theorem solution_slow {α : Type} {m : GMesh α} {d : Disc ℝ} {G : Geom ℝ} {f : NumericalFluxType} {γ : ℝ} {norient : ℕ} (hm : MeshOK m)
    (hE : EulerScheme d f γ) (hγ : 1 < γ) (hc : Conforming d norient m) (ho : OrderOK d norient) (T : ℝ) (y : ℝ → Coeffs ℝ)
    (hy : ExactSolution d m.numElems T (fun _ => globalRHS d m G) y)
    (hr : ∀ t ∈ Set.Icc 0 T, StatesRegular f γ d m G (y t)) :
    ∃ M : ℝ, 0 ≤ M ∧ ∀ t ∈ Set.Icc 0 T, ∀ s ∈ Set.Icc 0 T, ∀ e < m.numElems, ∀ b < d.nb, ∀ v < d.ns,
      |y s e b v - y t e b v| ≤ M * |s - t| := by
  set F : Coeffs ℝ → Coeffs ℝ := globalRHS d m G with hFdef
  have hF : ∀ U V, AgreeIn d m.numElems U V → AgreeIn d m.numElems (F U) (F V) := rhs_agree hm
  have hzs := box_solution hF hy
  obtain ⟨R, L, M, hR, hL, hM, tube, inside⟩ := lip_tube (F := boxRHS d m.numElems (fun _ => F) 0)
    (regular_open (ne := m.numElems) (G := G) (f := f) hγ hc ho) (fun u hu => lip_rhs hE hγ hc ho hu)
    (y := fun t => toBox d m.numElems (y t)) (fun t ht => (hr t ht).congr hm (agree_symm (ofBox_toBox d m.numElems (y t)))) hzs
  refine ⟨M, hM, fun t ht s hs e he b hb v hv => ?_⟩
  have h1 := tube.slow t ht s hs
  have h2 := (norm_le_pi_norm _ (⟨e, he⟩ : Fin m.numElems)).trans h1
  have h3 := (norm_le_pi_norm _ (⟨b, hb⟩ : Fin d.nb)).trans h2
  exact (norm_le_pi_norm _ (⟨v, hv⟩ : Fin d.ns)).trans h3

section deck
variable {A : Arith} {κ : ℝ} {deck : Fl.Deck A.K} {dim p : ℕ} {b : BasisType} {ph : Physics} {st : StepperType} {dt tend : A.K}

theorem machine_solver (h : DeckRead A κ deck dim p b ph st dt tend) (hu : A.u ≤ 1) (hB : 2 ≤ A.big) :
    ∃ data, deck.icData = some data ∧ data.length ≤ 10 ∧ ∀ γ0 R0, ∃ ph' : Fl.Physics A.K,
      Fl.makeSolver deck data γ0 R0 = some ⟨ph', st, dt, tend⟩ ∧ ph'.ptype = .Euler ∧ ph'.ftype = ph.ftype ∧
      ∀ junk, PhysRead ph (max κ 3) A (ph', junk) := by
  obtain ⟨data, d1, d2, d3⟩ := h.icData
  obtain ⟨hE, hE'⟩ := h.euler
  have hu0 := A.u_nonneg
  have mono : ∀ {a : A.K} {x : ℝ}, A.Close κ a x → A.Close (max κ 3) a x := fun h => h.mono (le_max_left _ _)
  refine ⟨data, d1, by rw [d2]; exact h.icSize, fun γ0 R0 => ?_⟩
  have e1 : parseEnum physicsTypeTable PhysicsType.members "Euler" = some .Euler := (parse_physics _ _).2 rfl
  have e2 : parseEnum numericalFluxTable NumericalFluxType.members (deck.fluxName.getD "LaxFriedrichs") = some ph.ftype := by
    refine (parse_flux _ _).2 ?_
    rcases h.flux with e | ⟨e, e'⟩
    · rw [e]; rfl
    · rw [e, e']; rfl
  have e3 : parseEnum icTable ICType.members ph.ic.label = some ph.ic := (parse_ic _ _).2 rfl
  have e4 : parseEnum stepperTypeTable StepperType.members (deck.stepperName.getD "FE") = some st := by
    refine (parse_stepper _ _).2 ?_
    rcases h.stepper with e | ⟨e, e'⟩
    · rw [e]; rfl
    · rw [e, e']; rfl
  refine ⟨⟨.Euler, ph.ftype, ph.ic, data, deck.gamma.getD (DecLit.ofDec 14 1), deck.gasConstant.getD (DecLit.ofDec 28705 2)⟩,
    ?_, rfl, rfl, fun junk => ⟨rfl, d2, fun i hi => mono (d3 i (by rw [d2]; exact hi)), ?_, ?_⟩⟩
  · unfold Fl.makeSolver
    rw [h.ic, hE]
    simp only [Option.bind_eq_bind, Option.bind_some]
    rw [e1]
    simp only [Option.bind_some]
    rw [e2]
    simp only [Option.bind_some]
    rw [e3]
    simp only [Option.bind_some]
    rw [e4]
    simp only [Option.bind_some]
    rw [h.timestep, h.tend]
    rfl
  · show A.Close _ (deck.gamma.getD (DecLit.ofDec 14 1)) _
    rcases h.gamma with ⟨γ', e, e'⟩ | ⟨e, e'⟩
    · rw [e]; exact mono e'
    · rw [e, e']
      have := Arith.literal_close (A := A) 14 1 hu (by norm_num [abs_of_nonneg]; linarith)
      refine ⟨this.1, ?_⟩
      have h2 := this.2
      norm_num [abs_of_nonneg] at h2
      refine (le_trans ?_ (le_trans h2 ?_)).trans (mul_le_mul_of_nonneg_right (le_max_right κ 3) hu0)
      · rw [Option.getD_none]; norm_num
      · nlinarith
  · intro hR
    show deck.gasConstant.getD (DecLit.ofDec 28705 2) = 1
    rcases h.gas with ⟨R', e, -, e'⟩ | ⟨-, e'⟩
    · rw [e]; exact e' hR
    · rw [e'] at hR; norm_num at hR

theorem machine_job (h : DeckRead A κ deck dim p b ph st dt tend) {toInt : A.K → Option ℤ} (un : Fl.Unset A.K) (nranks : ℕ) {num : NumParams}
    (hnum : makeNumParams nBasisMax deck.order deck.basis deck.quad 1 = some num) (hp : num.order = p) (hb : num.basis = b)
    {gb : BasisType} (hg : num.gbasis = gb) {sh : ShapeType × Option ShapeType} (hsh : basisShape b = some sh)
    (hdim : shapeDim sh.1 = dim) (fs : String → List String → Option (MeshFile A.K)) {name : String}
    (hname : deck.meshFile = some name) {mf : MeshFile A.K} (hmf : fs name deck.boundaries = some mf) {m : GMesh A.K}
    {rd : ReadResult A.K} (hrd : readMesh mf = some rd) (hrm : rd.mesh = m) {data : List A.K} (hdata : deck.icData = some data)
    (hlen : data.length ≤ 10) {sol : Fl.SolverSetup A.K} (hsol : Fl.makeSolver deck data un.γ un.R = some sol) {d : Disc A.K}
    (hd : buildDisc b gb p 1 (dim + 2) (Fl.solverVolFlux dim sol.physics un.vol) (Fl.solverNumFlux dim sol.physics un.num) = some d) {n : ℕ}
    (hn : Fl.numSteps toInt sol = some n) :
    Fl.readJob toInt deck fs un dim nranks = some ⟨num, m, mf.dim, nranks, sol, d, n⟩ := by
  unfold Fl.readJob
  simp only [Option.bind_eq_bind]
  rw [hnum, Option.bind_some, hname, Option.bind_some]
  have hpt : numPartitions deck.parts nranks = some nranks := by unfold numPartitions; rw [h.parts]; rfl
  rw [hpt, Option.bind_some, hmf, Option.bind_some, hrd, Option.bind_some, hdata, Option.bind_some,
    hsol, Option.bind_some, if_pos (show data.length ≤ initParamsMax from hlen), hb, hsh, Option.bind_some,
    if_pos hdim, hg, hp]
  rw [hd, Option.bind_some, hn, Option.bind_some, hrm]

end deck

theorem machine_ready {A : Arith} {job : Fl.Job A.K} {un : Fl.Unset A.K} {dim nranks : ℕ} {env : RankEnv A.K} {r : ℕ} {q : Fl.RankReady A.K}
    (h : Fl.readyRank job un dim nranks env r = some q) :
    partition job.mesh job.nparts nranks (elemPartition job.nparts job.mesh.numElems env.metis) env.enum r = some q.rm ∧
    buildGeom job.num.basis job.num.gbasis job.num.order 1 r q.rm env.scr env.MM0 = some q.geom ∧
    initState job.num.basis job.num.gbasis job.num.order 1 (dim + 2) q.rm q.geom.iMM
      (Fl.solverIC dim job.sol.physics un.ic) env.rhs0 env.U0 = some q.init := by
  unfold Fl.readyRank at h
  simp only [Option.bind_eq_bind, Option.bind_eq_some_iff, Option.some.injEq] at h
  obtain ⟨rm, h1, -, -, g, h2, u, h3, rfl⟩ := h
  exact ⟨h1, h2, h3⟩

/-- half a time step -/
theorem half_step {A : Arith} {dt : A.K} (hu : A.u ≤ 1 / 4) (hB : 2 ≤ A.big) (f : A.fin dt) (h0 : 0 ≤ A.val dt) (h1 : A.val dt ≤ 1) :
    A.fin (dt / 2) ∧ |A.val (dt / 2) - A.val dt / 2| ≤ 4 * A.u := by
  have hu0 := A.u_nonneg
  obtain ⟨t1, t2, -⟩ := A.cast 2 (by exact_mod_cast hB)
  change A.fin (2 : A.K) at t1
  change |A.val (2 : A.K) - ((2 : ℕ) : ℝ)| ≤ _ at t2
  generalize (2 : A.K) = two at t1 t2 ⊢
  push_cast at t2
  rw [abs_of_nonneg (show (0 : ℝ) ≤ 2 by norm_num)] at t2
  have hu2 : A.u ^ 2 ≤ A.u := by nlinarith
  have b := abs_le.1 t2
  have hv : 1 ≤ A.val two := by nlinarith [b.1]
  have hv' : (0 : ℝ) < A.val two := by linarith
  have hx0 : 0 ≤ A.val dt / A.val two := div_nonneg h0 hv'.le
  have hx1 : A.val dt / A.val two ≤ 1 := by rw [div_le_one hv']; linarith
  obtain ⟨q1, q2, -⟩ := A.div _ _ f t1 hv'.ne' (by rw [abs_of_nonneg hx0]; linarith)
  refine ⟨q1, ?_⟩
  rw [abs_of_nonneg hx0] at q2
  have e : |A.val dt / A.val two - A.val dt / 2| ≤ 3 / 2 * A.u := by
    have : A.val dt / A.val two - A.val dt / 2 = A.val dt * (2 - A.val two) / (2 * A.val two) := by field_simp
    rw [this, abs_div, abs_mul, abs_of_nonneg h0, abs_of_pos (show (0 : ℝ) < 2 * A.val two by positivity), div_le_iff₀ (by positivity),
      abs_sub_comm]
    have h3 : |A.val two - 2| ≤ 3 * A.u := by linarith
    calc A.val dt * |A.val two - 2| ≤ 1 * (3 * A.u) := mul_le_mul h1 h3 (abs_nonneg _) (by norm_num)
      _ ≤ 3 / 2 * A.u * (2 * A.val two) := by nlinarith
  have := abs_sub_le (A.val (dt / two)) (A.val dt / A.val two) (A.val dt / 2)
  nlinarith

/-- the clock of the program -/
theorem machine_clock {A : Arith} {dt : A.K} (st : Stepper) {T : ℝ} (hT : 0 ≤ T) (hu : A.u ≤ 1 / 4) (hB : T + 6 ≤ A.big) (f : A.fin dt)
    (h0 : 0 < A.val dt) (h1 : A.val dt ≤ 1) (hs : 2 * (T * (T + 11)) * A.u ≤ A.val dt) (n : ℕ) (hn : n * A.val dt ≤ T) :
    A.fin (clockAt st dt n) ∧ |A.val (clockAt st dt n) - n * A.val dt| ≤ 2 * (T * (T + 11)) * (A.u / A.val dt) := by
  have hu0 := A.u_nonneg
  have hnn : (n : ℝ) ≤ T / A.val dt := by rw [le_div_iff₀ h0]; exact hn
  have key : ∀ (J : ℕ) (c : ℝ), (J : ℝ) ≤ 2 * n → 0 ≤ c → c ≤ 4 → J * ((2 * c + T + 3) * A.u) ≤ 2 * (T * (T + 11)) * (A.u / A.val dt) := by
    intro J c hJ hc0 hc
    calc J * ((2 * c + T + 3) * A.u) ≤ 2 * (T / A.val dt) * ((T + 11) * A.u) := by
          refine mul_le_mul (hJ.trans (by linarith)) (mul_le_mul_of_nonneg_right (by linarith) hu0) (by positivity) (by positivity)
      _ = _ := by ring
  have one : 2 * (T * (T + 11)) * (A.u / A.val dt) ≤ 1 := by rw [← mul_div_assoc, div_le_one h0]; exact hs
  cases st with
  | FE =>
    have hJ := key n 0 (by nlinarith [Nat.cast_nonneg (α := ℝ) n]) le_rfl (by norm_num)
    obtain ⟨a, b⟩ := clock_sum (c := 0) (T := T) h0.le le_rfl f (by simp) (hu.trans (by norm_num)) (by linarith)
      (fun j => clockAt .FE dt j) rfl (fun j => rfl) n hn (hJ.trans one)
    exact ⟨a, b.trans hJ⟩
  | RK4 =>
    obtain ⟨g1, g2⟩ := half_step hu (by linarith) f h0.le h1
    have hJ := key (2 * n) 4 (by push_cast; exact le_rfl) (by norm_num) le_rfl
    let τ : ℕ → A.K := fun j => Nat.rec (motive := fun _ => A.K) 0 (fun _ t => t + dt / 2) j
    have e : ∀ j, τ (2 * j) = clockAt .RK4 dt j := by
      intro j
      induction j with
      | zero => rfl
      | succ j ih =>
        show τ (2 * j) + dt / 2 + dt / 2 = clockAt .RK4 dt j + dt / 2 + dt / 2
        rw [ih]
    obtain ⟨a, b⟩ := clock_sum (c := 4) (T := T) (h := A.val dt / 2) (by linarith) (by norm_num) g1 g2 (hu.trans (by norm_num)) (by linarith)
      τ rfl (fun j => rfl) (2 * n) (by push_cast; linarith) (hJ.trans one)
    rw [e] at a b
    refine ⟨a, le_trans (le_of_eq ?_) (b.trans hJ)⟩
    push_cast
    congr 2
    ring

theorem gap_bound {T h u q : ℝ} (hT : 0 ≤ T) (hh : 0 ≤ h) (hq : 0 ≤ q) (hu : u ≤ q) : h + (T + 1) * u ≤ (T + 2) * (h + q) := by
  have h1 : (T + 1) * u ≤ (T + 1) * q := mul_le_mul_of_nonneg_left hu (by linarith)
  have h2 : 0 ≤ (T + 1) * h := by positivity
  linarith

/-- `ProgramOutcome`, also for ranks whose setup agrees with that of the sequential loops where the time loop reads it -/
def ProgramHolds (A : Arith) (C : ℝ) (toInt : A.K → Option ℤ) (deck : Fl.Deck A.K) (fs : String → List String → Option (MeshFile A.K))
    (un : Fl.Unset A.K) (dim nb nranks : ℕ) (part : List ℕ) (m' : GMesh A.K) (env : ℕ → RankEnv A.K)
    (sched : ℕ → ℕ → List (FluxWrite A.K) → List (FluxWrite A.K)) (ord : ℕ → List ℕ) (dt tend : A.K) (norient : ℕ) (bt bg : BasisType) (run : ℕ → Coeffs ℝ)
    (y : ℝ → Coeffs ℝ) : Prop :=
  Fl.mainDim deck = some (some dim) ∧ ∃ job, Fl.readJob toInt deck fs un dim nranks = some job ∧
    job.nsteps * A.val dt ≤ A.val tend + C * A.u ∧ A.val tend - A.val dt - C * A.u ≤ job.nsteps * A.val dt ∧
    (∀ r < nranks, Fl.readyRank job un dim nranks (env r) r ≠ none) ∧
    job.num.basis = bt ∧ job.num.gbasis = bg ∧ Conforming job.disc norient m' ∧ OrderOK job.disc norient ∧ job.disc.nb = nb ∧ job.disc.ns = dim + 2 ∧
    ∀ ranks : ℕ → Fl.RankReady A.K, (∀ r < nranks, Fl.readyRank job un dim nranks (env r) r = some (ranks r)) →
    Launched job.num.basis job.num.gbasis job.num.order 1 (dim + 2) (Fl.solverVolFlux dim job.sol.physics un.vol)
      (Fl.solverNumFlux dim job.sol.physics un.num) (Fl.solverIC dim job.sol.physics un.ic) m' nranks part (fun r => (ranks r).rm)
      job.disc (fun r => (ranks r).geom) (fun r => (ranks r).init) ∧
    ∀ ranks2 : ℕ → Fl.RankReady A.K, (∀ r < nranks, (ranks2 r).rm = (ranks r).rm ∧
      HoldsSetup job.disc (ranks2 r).rm (ranks r).geom (ranks r).init (ranks2 r).geom (ranks2 r).init) →
    ∀ c k, Proto.Exec (Fl.jobProg job ranks2 nranks sched) (Fl.jobInit job ranks2) c k →
      (∀ r < nranks, (c.proc r).phase ≠ .failed ∧ (c.proc r).st.2 ≠ none) ∧
      (∃ c' k', Proto.Exec (Fl.jobProg job ranks2 nranks sched) c c' k' ∧ Fl.LoopDone job nranks c') ∧
      (Fl.LoopDone job nranks c → ∃ f time V, Fl.jobFile job ranks2 dim nranks ord c = some f ∧
        convert nranks f = some (serialFile m' dim nb (dim + 2) time V) ∧
        A.fin time ∧ |A.val time - job.nsteps * A.val dt| ≤ C * (A.u / A.val dt) ∧
        (∀ e < m'.numElems, ∀ b < nb, ∀ v < dim + 2, A.fin (V e b v) ∧
          |A.val (V e b v) - run job.nsteps e b v| ≤ C * (A.u / A.val dt) ∧
          |A.val (V e b v) - y (A.val tend) e b v| ≤ C * (A.val dt + A.u / A.val dt)) ∧
        ∀ r < nranks, ∃ s, readInCoefficients nranks f r newSolver = some s ∧ s.time = 0 ∧
          ∀ i e : ℕ, (ranks2 r).rm.l2gElem[i]? = some e → ∀ j < nb, ∀ k < dim + 2, s.uc i j k = some (V e j k))

theorem ProgramHolds.outcome {A : Arith} {C : ℝ} {toInt : A.K → Option ℤ} {deck : Fl.Deck A.K} {fs : String → List String → Option (MeshFile A.K)}
    {un : Fl.Unset A.K} {dim nb nranks : ℕ} {part : List ℕ} {m' : GMesh A.K} {env : ℕ → RankEnv A.K}
    {sched : ℕ → ℕ → List (FluxWrite A.K) → List (FluxWrite A.K)} {ord : ℕ → List ℕ} {dt tend : A.K} {norient : ℕ} {bt bg : BasisType} {run : ℕ → Coeffs ℝ}
    {y : ℝ → Coeffs ℝ} (h : ProgramHolds A C toInt deck fs un dim nb nranks part m' env sched ord dt tend norient bt bg run y) :
    ProgramOutcome A C toInt deck fs un dim nb nranks m' env sched ord dt tend run y := by
  obtain ⟨h1, job, h2, h3, h4, h5, -, -, -, -, -, -, h6⟩ := h
  exact ⟨h1, job, h2, h3, h4, h5, fun ranks hr => (h6 ranks hr).2 ranks fun r _ =>
    ⟨rfl, ⟨fun _ _ => ⟨fun _ _ => ⟨rfl, fun _ _ _ _ => rfl⟩, fun _ _ _ _ => rfl, fun _ _ _ _ => rfl⟩, fun _ _ _ _ _ _ => rfl⟩⟩⟩

/-- the executable, against a textbook form `dE` of the scheme -/
theorem SetupIs.programHolds {sh : ShapeType} {t gt : BasisType} {p dim nb nq nqf : ℕ} {m : GMesh ℝ} {ok : IFace → Prop}
    {ph : Physics} {start : (ℕ → ℝ) → ℕ → ℝ} {G : Geom ℝ} {U : Coeffs ℝ} {mass vol proj : RefData ℝ} {fr : FaceRef ℝ}
    {N1 N2 : ℕ → ℕ → List (ℕ → ℝ)}
    (h : SetupIs sh t gt p 1 nb (dim + 2) nq nqf m ok start G U mass vol proj fr N1 N2) (hshd : shapeDim sh = dim)
    {fsh gfsh : Option ShapeType} (hsh : basisShape t = some (sh, fsh)) (hgsh : basisShape gt = some (sh, gfsh))
    (hnb : shapeNumBasis sh p = some nb) (hgnb : shapeNumBasis sh 1 = some (shapeNodes sh 1))
    (hn : m.npe = shapeNodes sh 1) (hnpos : 0 < m.npe) (hf : ∀ f ∈ m.faces, f.faceL < shapeFaces sh ∧ f.faceR < shapeFaces sh)
    {nb1 gnb : ℕ} {gg : BasisType × ℕ × ℕ} (b1 : getNumBases t p = some nb) (b2 : getNumBases1d t p = some nb1)
    (b3 : geometricBasis t = some gg) (b4 : getNumBases gg.1 1 = some gnb) (b5 : gg.1 = gt) (hmax : nb ≤ 300) (hnb0 : 0 < nb)
    (hcap : ∀ e < m.numElems, sidesOf m.faces e ≤ 6)
    (κ : ℝ) (hs : StartState ph dim start) {d dE : Disc ℝ}
    (hd : buildDisc t gt p 1 (dim + 2) (eulerDirFlux dim ph.γ) (eulerNumFlux ph.ftype dim ph.γ) = some d) {norient : ℕ}
    (ag : DiscAgree norient d dE) (hdEnb : dE.nb = nb) (hdEns : dE.ns = dim + 2) (hm : MeshOK m)
    (hdim : dE.dim = 2 ∨ dE.dim = 3) (hdEd : dE.dim = dim) (hE : EulerScheme dE ph.ftype ph.γ) (hγ : 1 < ph.γ)
    (hc : Conforming dE norient m) (ho : OrderOK dE norient)
    (hN : NormalsNonzero dE m G) (T T1 : ℝ) (hT1 : T1 < T) (hT : 0 ≤ T) (y : ℝ → Coeffs ℝ)
    (hy : ExactSolution dE m.numElems T (fun _ => globalRHS dE m G) y)
    (hr : ∀ t ∈ Set.Icc 0 T, StatesRegular ph.ftype ph.γ dE m G (y t)) (hy0 : AgreeIn dE m.numElems (y 0) U) :
    ∃ C h0 u0 B : ℝ, 0 < h0 ∧ 0 < u0 ∧ ∀ A : Arith, A.u ≤ u0 → B ≤ A.big →
      ∀ toInt : A.K → Option ℤ, Truncates A toInt →
      ∀ (deck : Fl.Deck A.K) (st : StepperType) (dt tend : A.K), DeckRead A κ deck dim p t ph st dt tend →
      A.fin dt → 0 < A.val dt → A.val dt ≤ h0 → C * A.u ≤ A.val dt →
      A.fin tend → 0 ≤ A.val tend → A.val tend ≤ T1 → A.val tend ≤ (2 ^ 31 - 2) * A.val dt →
      ∀ (fs : String → List String → Option (MeshFile A.K)) (m' : GMesh A.K), MeshGiven A κ dim deck fs m m' →
      ∀ (nranks : ℕ) (part : List ℕ) (env : ℕ → RankEnv A.K), LaunchOK m' nranks part env →
      (∀ f ∈ m.faces, part[f.elemL]? ≠ part[f.elemR]? → ok f) →
      ∀ un : Fl.Unset A.K,
      ∀ sched : ℕ → ℕ → List (FluxWrite A.K) → List (FluxWrite A.K), (∀ r k l, (sched r k l).Perm l) →
      ∀ ord : ℕ → List ℕ, (∀ i, (ord i).Perm (List.range nranks)) →
      ProgramHolds A C toInt deck fs un dim nb nranks part m' env sched ord dt tend norient t gt
        (fun n => (stepOf st.scheme (A.val dt) (globalRHS dE m G))^[n] U) y := by
  subst hshd
  set κ' : ℝ := max κ 3 with hκ'
  have hcomp := start_computes hs hγ κ'
  obtain ⟨κ2, u2, B2, hu2, H2⟩ := h.machine hsh hgsh hnb hgnb hn hf κ' hcomp hd ph.ftype ph.γ
  obtain ⟨C1, h1, u1, B1, hh1, hu1, H1⟩ := h.runHolds hsh hgsh hnb hgnb hn hf κ' hcomp hd ag ph.ftype ph.γ hm hdim hE hγ hc ho hN T hT y hy hr hy0
  obtain ⟨M, hM, hslow⟩ := solution_slow hm hE hγ hc ho T y hy hr
  have hgap : 0 < (T - T1) / (|T1| + 1) := div_pos (by linarith) (by positivity)
  refine ⟨|C1| + 2 * (T * (T + 11)) + (T + 1) + M * (T + 2), min h1 1, min (min u1 u2) (min (1 / 2 ^ 31) ((T - T1) / (|T1| + 1))),
    max (max B1 B2) (max (2 ^ 31) (T + 6)), lt_min hh1 one_pos, lt_min (lt_min hu1 hu2) (lt_min (by norm_num) hgap), ?_⟩
  set C : ℝ := |C1| + 2 * (T * (T + 11)) + (T + 1) + M * (T + 2) with hC
  intro A hu hB toInt htr deck st dt tend hdeck f1 hdt0 hdt1 hdt2 f2 ht0 ht1 ht2 fs m' hgiven nranks part env hl hcut un sched hsched ord hord
  obtain ⟨⟨hua, hub⟩, huc, hud⟩ := (⟨le_min_iff.1 (le_min_iff.1 hu).1, le_min_iff.1 (le_min_iff.1 hu).2⟩ :
    (A.u ≤ u1 ∧ A.u ≤ u2) ∧ A.u ≤ 1 / 2 ^ 31 ∧ A.u ≤ (T - T1) / (|T1| + 1))
  obtain ⟨⟨hBa, hBb⟩, hBc, hBd⟩ := (⟨max_le_iff.1 (max_le_iff.1 hB).1, max_le_iff.1 (max_le_iff.1 hB).2⟩ :
    (B1 ≤ A.big ∧ B2 ≤ A.big) ∧ (2 : ℝ) ^ 31 ≤ A.big ∧ T + 6 ≤ A.big)
  obtain ⟨hdta, hdtb⟩ := le_min_iff.1 hdt1
  have hu0 := A.u_nonneg
  have hu4 : A.u ≤ 1 / 4 := huc.trans (by norm_num)
  obtain ⟨⟨name, mf, hname, hmf, hof⟩, hread, hm', hused, hcoord⟩ := hgiven
  have hread' : MeshRead A κ' (shapeDim sh) m m' :=
    ⟨hread.numElems, hread.npe, hread.faces, fun e he i hi j hj => (hread.coords e he i hi j hj).mono (le_max_left _ _)⟩
  have c0 : 0 ≤ |C1| := abs_nonneg _
  have c1 : 0 ≤ 2 * (T * (T + 11)) := by positivity
  have c2 : 0 ≤ M * (T + 2) := by positivity
  have bound : ∀ c : ℝ, c ≤ C → c * A.u ≤ A.val dt := fun c hc' => (mul_le_mul_of_nonneg_right hc' hu0).trans hdt2
  -- the input file
  obtain ⟨data, e1, e2, e3⟩ := machine_solver hdeck (hu4.trans (by norm_num)) (hBc.trans' (by norm_num))
  obtain ⟨ph', e4, e5, e6, e7⟩ := e3 un.γ un.R
  have hphys := e7 un.ic
  obtain ⟨num, n1, n2, n3, n4⟩ := params_of hdeck.order hdeck.basisName hdeck.quad nb nb1 gnb gg b1 b2 b3 b4 hmax
  rw [b5] at n4
  -- the mesh
  obtain ⟨rd, hrd, hrm⟩ := readMesh_of hof hm' (by rw [hread.numElems, hread.faces]; exact hcap)
  obtain ⟨rms, w, hparts, hview⟩ := hl.world hm'
  -- the setup
  obtain ⟨D, d1, d2, d3⟩ := H2 A hub hBb (Fl.solverIC (shapeDim sh) ph' un.ic) ⟨(ph', un.ic), hphys, rfl⟩ m' hread' ph'.γ un.num un.vol hphys.γ
  have hvf : Fl.solverVolFlux (shapeDim sh) ph' un.vol = fun U => Fl.convFlux (shapeDim sh) ph'.γ U un.vol := by
    funext U; unfold Fl.solverVolFlux; rw [e5]
  have hnf : Fl.solverNumFlux (shapeDim sh) ph' un.num = machineNumFlux ph.ftype (shapeDim sh) ph'.γ un.num := by
    unfold Fl.solverNumFlux; rw [e5, e6]
  have d1' := d1
  rw [← hvf, ← hnf] at d1'
  obtain ⟨n, s1, s2, s3⟩ := machine_steps (sol := ⟨ph', st, dt, tend⟩) htr huc hBc f1 f2 hdt0 ht0 ht2
  simp only at s2 s3
  have hjob := machine_job hdeck un nranks n1 n2 n3 n4 hsh rfl fs hname hmf hrd hrm e1 e2 e4 (toInt := toInt) d1' s1
  have hsum : A.u * (A.val tend + A.val dt) ≤ (T + 1) * A.u := by
    rw [mul_comm]; exact mul_le_mul_of_nonneg_right (by linarith) hu0
  have hT1C : (T + 1) * A.u ≤ C * A.u := mul_le_mul_of_nonneg_right (by linarith) hu0
  have hnT : (n : ℝ) * A.val dt ≤ T := by
    have g1 : A.u * (|T1| + 1) ≤ T - T1 := by rwa [le_div_iff₀ (by positivity)] at hud
    have g2 : A.u * (A.val tend + A.val dt) ≤ A.u * (|T1| + 1) :=
      mul_le_mul_of_nonneg_left (by have := le_abs_self T1; linarith) hu0
    linarith
  have hq0 : 0 ≤ A.u / A.val dt := by positivity
  have huq : A.u ≤ A.u / A.val dt := by rw [le_div_iff₀ hdt0]; nlinarith
  have hD' := d2.withTables
  have ho1 := ag.orderOK ho
  have hc1 := ag.conforming hc
  have hcD : Conforming D norient m' := by
    rw [← hD']
    exact ⟨by rw [hread.faces]; exact hc1.faceL, by rw [hread.faces]; exact hc1.faceR, by rw [hread.faces]; exact hc1.sides⟩
  have hoD : OrderOK D norient := by rw [← hD']; exact ho1
  have hDnb : D.nb = nb := d2.nb.trans (ag.nb.trans hdEnb)
  have hDns : D.ns = shapeDim sh + 2 := d2.ns.trans (ag.ns.trans hdEns)
  refine ⟨by unfold Fl.mainDim; rw [hdeck.runDim]; rw [hdEd] at hdim; rcases hdim with e | e <;> rw [e] <;> rfl,
    _, hjob, by linarith, by linarith, ?_, n3, n4, hcD, hoD, hDnb, hDns, ?_⟩
  · intro r hlt
    obtain ⟨v, hv⟩ := hview r hlt
    obtain ⟨g, g1, -, g3⟩ := d3 nranks part rms w hcut r hlt (env r).scr (env r).MM0
    obtain ⟨u, v1, -⟩ := g3 (env r).rhs0 (env r).U0
    have : Fl.readyRank ⟨num, m', mf.dim, nranks, ⟨ph', st, dt, tend⟩, D, n⟩ un (shapeDim sh) nranks (env r) r = some ⟨rms r, g, u⟩ := by
      unfold Fl.readyRank
      simp only [Option.bind_eq_bind]
      rw [hl.part_eq r hlt, hparts r hlt, Option.bind_some, hv, Option.bind_some, n3, n4, n2, g1, Option.bind_some, v1, Option.bind_some]
    rw [this]; simp
  · clear hview hparts w
    intro ranks0 hready
    have hrr := fun r hlt => machine_ready (hready r hlt)
    simp only [n2, n3, n4] at hrr
    have hparts0 : ∀ r < nranks, partition m' nranks nranks part (env r).enum r = some (ranks0 r).rm := fun r hlt => by
      rw [← (hrr r hlt).1, hl.part_eq r hlt]
    refine ⟨?_, ?_⟩
    · show Launched num.basis num.gbasis num.order _ _ _ _ _ _ _ _ _ _ _ _
      rw [n2, n3, n4]
      exact ⟨⟨hm', hl.parts, fun r hr => ⟨_, hl.enum r, hparts0 r hr⟩⟩, d1', fun r hr => ⟨_, _, (hrr r hr).2.1⟩, fun r hr => ⟨_, _, (hrr r hr).2.2⟩⟩
    intro ranks hsame c k hx
    have hparts : ∀ r < nranks, partition m' nranks nranks part (env r).enum r = some (ranks r).rm := fun r hlt => by
      rw [(hsame r hlt).1]; exact hparts0 r hlt
    have w : World m' nranks part fun r => (ranks r).rm := ⟨hm', hl.parts, fun r hr => ⟨_, hl.enum r, hparts r hr⟩⟩
    have L : Launched t gt p 1 (shapeDim sh + 2) (fun U => Fl.convFlux (shapeDim sh) ph'.γ U un.vol)
        (machineNumFlux ph.ftype (shapeDim sh) ph'.γ un.num) (Fl.solverIC (shapeDim sh) ph' un.ic) m' nranks part (fun r => (ranks r).rm) D
        (fun r => (ranks0 r).geom) (fun r => (ranks0 r).init) :=
      ⟨w, d1, fun r hr => ⟨_, _, by rw [(hsame r hr).1]; exact (hrr r hr).2.1⟩, fun r hr => ⟨_, _, by rw [(hsame r hr).1]; exact (hrr r hr).2.2⟩⟩
    unfold Fl.jobProg at hx ⊢
    unfold Fl.jobInit at hx
    simp only at hx ⊢
    have hst : stepperOf st = st.scheme := by cases st <;> rfl
    have hinv := fun r (hr : r < nranks) => w.bitsRunP hcD hoD (G := extGeom m' part (fun r => (ranks r).rm) fun r => (ranks r).geom)
      (fun r hr => w.extRestrict D (fun r => (ranks r).geom) hr) hsched
      (U0 := extCoeffs part (fun r => (ranks r).rm) fun r => (ranks r).init) (fun r hr => w.extCoeffsRestrict D (fun r => (ranks r).init) hr) hx hr
    refine ⟨fun r hr => ⟨C09_no_error m' nranks part _ w _ (solverComp_keeps D _ _ dt (stepperOf st) _) _
      (fun r _ => solverStart_sized D _ (stepperOf st) (fun r => (ranks r).init) r) _ k c hx r hr, ?_⟩, ?_, ?_⟩
    · obtain ⟨s, hs⟩ := hinv r hr
      rw [hs.state]; simp
    · obtain ⟨-, -, c', k', q1, q2⟩ := C09_terminates m' nranks part _ w _ (solverComp_keeps D _ _ dt (stepperOf st) _) _
        (fun r _ => solverStart_sized D _ (stepperOf st) (fun r => (ranks r).init) r) _ k c hx
      exact ⟨c', k', q1, q2⟩
    · intro hdone
      have S : ∀ r, ∃ s : RankState A.K, r < nranks → (c.proc r).st.2 = some s ∧ s.time = clockAt (stepperOf st) dt n := by
        intro r
        by_cases hr : r < nranks
        · obtain ⟨s, hs⟩ := hinv r hr
          refine ⟨s, fun _ => ⟨hs.state, ?_⟩⟩
          have e := hs.via.time
          rw [show (c.proc r).round = stagesOf (stepperOf st) * n from hdone r hr, (nextP_clock D m' part _ dt (stepperOf st) _ n).1] at e
          exact e
        · exact ⟨⟨fun _ _ _ => 0, 0, fun _ _ _ => 0, fun _ _ _ => 0, fun _ _ _ => 0, fun _ _ _ => 0, fun _ _ _ => 0, fun _ _ _ => 0,
            fun _ _ _ => 0, 0, 0⟩, fun h => absurd h hr⟩
      choose S hS using S
      have hV := fun r (hr : r < nranks) => w.extCoeffsRestrict D (fun r => (S r).Uc) hr
      set V := extCoeffs part (fun r => (ranks r).rm) (fun r => (S r).Uc) with hVdef
      obtain ⟨f, g1, g2, g3⟩ := files_convert hl hm' (shapeDim sh) nb (fun r => (ranks r).rm) hparts hused hof.rows hcoord
        (by rw [hread.npe]; exact hnpos) (by rw [hdEd] at hdim; omega) hnb0 V (clockAt (stepperOf st) dt n) (fun r => (c.proc r).st.2)
        (fun r hr => ⟨S r, (hS r hr).1, (hS r hr).2, fun i e hi j hj k hk => hV r hr i e hi j (by rw [hDnb]; exact hj) k (by rw [hDns]; exact hk)⟩)
        ord hord
      obtain ⟨t1, t2⟩ := machine_clock (stepperOf st) hT hu4 hBd f1 hdt0 hdtb (bound _ (by linarith)) n hnT
      refine ⟨f, clockAt (stepperOf st) dt n, V, ?_, g2, t1, t2.trans (mul_le_mul_of_nonneg_right (by linarith) hq0), ?_, g3⟩
      · unfold Fl.jobFile
        simp only [hof.fileDim, hDnb]
        exact g1
      · intro e he b hb v hv
        obtain ⟨r1, r2⟩ := w.rankOf_lt he
        obtain ⟨i, hi⟩ := List.mem_iff_getElem?.1 r2
        obtain ⟨s, z1, z2⟩ := H1 A hua hBa (Fl.solverIC (shapeDim sh) ph' un.ic) ⟨(ph', un.ic), hphys, rfl⟩ m' hread' ph'.γ un.num un.vol hphys.γ
          nranks part _ D _ _ hcut L (fun r => (ranks r).geom) (fun r => (ranks r).init) (fun r hr => (hsame r hr).2)
          sched hsched (stepperOf st) dt f1 hdt0 hdta (bound C1 (by have := le_abs_self C1; linarith)) n k c hx _ r1 n (hdone _ r1) hnT
        obtain ⟨a1, a2, a3⟩ := z2 i e hi b (by rw [hdEnb]; exact hb) v (by rw [hdEns]; exact hv)
        have hsS : s = S (rankOf part e) := Option.some.inj (z1.symm.trans (hS _ r1).1)
        have ev : s.Uc i b v = V e b v := by
          rw [hsS]; exact hV _ r1 i e hi b (by rw [hDnb]; exact hb) v (by rw [hDns]; exact hv)
        rw [ev] at a1 a2 a3
        rw [hst] at a2
        have hC1 : C1 ≤ |C1| := le_abs_self C1
        refine ⟨a1, a2.trans (mul_le_mul_of_nonneg_right (by linarith) hq0), ?_⟩
        have hsl := hslow (n * A.val dt) ⟨by positivity, hnT⟩ (A.val tend) ⟨ht0, by linarith⟩ e (by rw [← hread.numElems]; exact he) b
          (by rw [hdEnb]; exact hb) v (by rw [hdEns]; exact hv)
        have hgap2 : |A.val tend - n * A.val dt| ≤ A.val dt + (T + 1) * A.u := by rw [abs_le]; constructor <;> linarith
        have hMg : M * |A.val tend - n * A.val dt| ≤ M * (T + 2) * (A.val dt + A.u / A.val dt) := by
          rw [mul_assoc]
          exact mul_le_mul_of_nonneg_left (hgap2.trans (gap_bound hT hdt0.le hq0 huq)) hM
        have h3 := abs_sub_le (A.val (V e b v)) (y (n * A.val dt) e b v) (y (A.val tend) e b v)
        rw [abs_sub_comm (y (n * A.val dt) e b v)] at h3
        have hp0 : 0 ≤ A.val dt + A.u / A.val dt := by positivity
        have h4 : C1 * (A.val dt + A.u / A.val dt) ≤ |C1| * (A.val dt + A.u / A.val dt) := mul_le_mul_of_nonneg_right hC1 hp0
        have h5 : (|C1| + M * (T + 2)) * (A.val dt + A.u / A.val dt) ≤ C * (A.val dt + A.u / A.val dt) := mul_le_mul_of_nonneg_right (by linarith) hp0
        rw [add_mul] at h5
        exact h3.trans ((add_le_add (a3.trans h4) (hsl.trans hMg)).trans h5)

/-- the executable, against a textbook form `dE` of the scheme -/
theorem SetupIs.program {sh : ShapeType} {t gt : BasisType} {p dim nb nq nqf : ℕ} {m : GMesh ℝ} {ok : IFace → Prop}
    {ph : Physics} {start : (ℕ → ℝ) → ℕ → ℝ} {G : Geom ℝ} {U : Coeffs ℝ} {mass vol proj : RefData ℝ} {fr : FaceRef ℝ}
    {N1 N2 : ℕ → ℕ → List (ℕ → ℝ)}
    (h : SetupIs sh t gt p 1 nb (dim + 2) nq nqf m ok start G U mass vol proj fr N1 N2) (hshd : shapeDim sh = dim)
    {fsh gfsh : Option ShapeType} (hsh : basisShape t = some (sh, fsh)) (hgsh : basisShape gt = some (sh, gfsh))
    (hnb : shapeNumBasis sh p = some nb) (hgnb : shapeNumBasis sh 1 = some (shapeNodes sh 1))
    (hn : m.npe = shapeNodes sh 1) (hnpos : 0 < m.npe) (hf : ∀ f ∈ m.faces, f.faceL < shapeFaces sh ∧ f.faceR < shapeFaces sh)
    {nb1 gnb : ℕ} {gg : BasisType × ℕ × ℕ} (b1 : getNumBases t p = some nb) (b2 : getNumBases1d t p = some nb1)
    (b3 : geometricBasis t = some gg) (b4 : getNumBases gg.1 1 = some gnb) (b5 : gg.1 = gt) (hmax : nb ≤ 300) (hnb0 : 0 < nb)
    (hcap : ∀ e < m.numElems, sidesOf m.faces e ≤ 6)
    (κ : ℝ) (hs : StartState ph dim start) {d dE : Disc ℝ}
    (hd : buildDisc t gt p 1 (dim + 2) (eulerDirFlux dim ph.γ) (eulerNumFlux ph.ftype dim ph.γ) = some d) {norient : ℕ}
    (ag : DiscAgree norient d dE) (hdEnb : dE.nb = nb) (hdEns : dE.ns = dim + 2) (hm : MeshOK m)
    (hdim : dE.dim = 2 ∨ dE.dim = 3) (hdEd : dE.dim = dim) (hE : EulerScheme dE ph.ftype ph.γ) (hγ : 1 < ph.γ)
    (hc : Conforming dE norient m) (ho : OrderOK dE norient)
    (hN : NormalsNonzero dE m G) (T T1 : ℝ) (hT1 : T1 < T) (hT : 0 ≤ T) (y : ℝ → Coeffs ℝ)
    (hy : ExactSolution dE m.numElems T (fun _ => globalRHS dE m G) y)
    (hr : ∀ t ∈ Set.Icc 0 T, StatesRegular ph.ftype ph.γ dE m G (y t)) (hy0 : AgreeIn dE m.numElems (y 0) U) :
    ∃ C h0 u0 B : ℝ, 0 < h0 ∧ 0 < u0 ∧ ∀ A : Arith, A.u ≤ u0 → B ≤ A.big →
      ∀ toInt : A.K → Option ℤ, Truncates A toInt →
      ∀ (deck : Fl.Deck A.K) (st : StepperType) (dt tend : A.K), DeckRead A κ deck dim p t ph st dt tend →
      A.fin dt → 0 < A.val dt → A.val dt ≤ h0 → C * A.u ≤ A.val dt →
      A.fin tend → 0 ≤ A.val tend → A.val tend ≤ T1 → A.val tend ≤ (2 ^ 31 - 2) * A.val dt →
      ∀ (fs : String → List String → Option (MeshFile A.K)) (m' : GMesh A.K), MeshGiven A κ dim deck fs m m' →
      ∀ (nranks : ℕ) (part : List ℕ) (env : ℕ → RankEnv A.K), LaunchOK m' nranks part env →
      (∀ f ∈ m.faces, part[f.elemL]? ≠ part[f.elemR]? → ok f) →
      ∀ un : Fl.Unset A.K,
      ∀ sched : ℕ → ℕ → List (FluxWrite A.K) → List (FluxWrite A.K), (∀ r k l, (sched r k l).Perm l) →
      ∀ ord : ℕ → List ℕ, (∀ i, (ord i).Perm (List.range nranks)) →
      ProgramOutcome A C toInt deck fs un dim nb nranks m' env sched ord dt tend
        (fun n => (stepOf st.scheme (A.val dt) (globalRHS dE m G))^[n] U) y := by
  obtain ⟨C, h0, u0, B, hh0, hu0, H⟩ := SetupIs.programHolds h hshd hsh hgsh hnb hgnb hn hnpos hf b1 b2 b3 b4 b5 hmax hnb0 hcap κ hs hd ag hdEnb hdEns hm hdim hdEd hE hγ hc ho hN T T1 hT1 hT y hy hr hy0
  refine ⟨C, h0, u0, B, hh0, hu0, ?_⟩
  intro A hu hB toInt htr deck st dt tend hdeck f1 hdt0 hdt1 hdt2 f2 ht0 ht1 ht2 fs m' hgiven nranks part env hl hcut un sched hsched ord hord
  exact (H A hu hB toInt htr deck st dt tend hdeck f1 hdt0 hdt1 hdt2 f2 ht0 ht1 ht2 fs m' hgiven nranks part env hl hcut un sched hsched ord
    hord).outcome

end DG
