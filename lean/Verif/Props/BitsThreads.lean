import Verif.Props.Device
import Verif.Props.SetupKernels
import Verif.Props.NormalRace
import Verif.Model.DeviceLaunch

/-!
Property C80 at the level of threads: reproducibility bit by bit of runs in which every kernel is executed by
many threads under every interleaving of their single loads and stores.  Nothing is assumed about the
arithmetic except that the constants 0 and 1 are different (`gemm` is told by them whether to overwrite).
-/
namespace DG.Dev
open Kernel

variable {K : Type} [Zero K] [One K] [Add K] [Sub K] [Mul K] [Neg K] [Div K] [NatCast K] [DecidableEq K]
  [NeZero (1 : K)] {α : Type}

/-- **C80** (threads).  Two runs of a case down to the single loads and stores of all threads - on any numbers
of ranks, partitions, interleavings of the ranks and executions `x`, `x'` of the kernels - in which a rank of
the first and a rank of the second have completed the same number of residual evaluations: their coefficient
views hold the same bits for every element they both have, and their times are the same bits. -/
theorem C80_threads (m : GMesh α) (d : Disc K) (norient : ℕ) (hc : Conforming d norient m)
    (ho : OrderOK d norient) (G : Geom K) (st : Stepper) (dt : K) (U0 : Coeffs K) (nsteps nsteps' : ℕ)
    (nranks : ℕ) (part : List ℕ) (rms : ℕ → RankMesh α) (w : World m nranks part rms)
    (g : ℕ → Geom K) (hg : ∀ r < nranks, GeomRestrict d (rms r) (g r) G)
    (x : Executions K) (hx : x.OK d g rms dt st)
    (Uc0 : ℕ → Coeffs K) (hu : ∀ r < nranks, CoeffsRestrict d (rms r) (Uc0 r) U0) (k : ℕ)
    (c : Proto.Conf (DevState K) (List (ℕ → ℕ → K)))
    (he : Proto.Exec (deviceProg x d rms nranks dt st nsteps) (Proto.init (deviceInit x Uc0)) c k)
    (nranks' : ℕ) (part' : List ℕ) (rms' : ℕ → RankMesh α) (w' : World m nranks' part' rms')
    (g' : ℕ → Geom K) (hg' : ∀ r < nranks', GeomRestrict d (rms' r) (g' r) G)
    (x' : Executions K) (hx' : x'.OK d g' rms' dt st)
    (Uc0' : ℕ → Coeffs K) (hu' : ∀ r < nranks', CoeffsRestrict d (rms' r) (Uc0' r) U0) (k' : ℕ)
    (c' : Proto.Conf (DevState K) (List (ℕ → ℕ → K)))
    (he' : Proto.Exec (deviceProg x' d rms' nranks' dt st nsteps') (Proto.init (deviceInit x' Uc0')) c' k')
    (r : ℕ) (hr : r < nranks) (r' : ℕ) (hr' : r' < nranks')
    (hround : (c.proc r).round = (c'.proc r').round) :
    (c.proc r).st.time = (c'.proc r').st.time ∧
      ∀ i i' e : ℕ, (rms r).l2gElem[i]? = some e → (rms' r').l2gElem[i']? = some e →
        ∀ b < d.nb, ∀ v < d.ns,
          (c.proc r).st.mem ⟨.Uc, i, b, v, 0⟩ = (c'.proc r').st.mem ⟨.Uc, i', b, v, 0⟩ := by
  obtain ⟨c1, h1, h2⟩ := (run_sim w hc ho hx nsteps).exec_back
    (run_good (dt := dt) (st := st) w hc ho nsteps) (run_init w hc ho hx hu) he
  obtain ⟨c2, h1', h2'⟩ := (run_sim w' hc ho hx' nsteps').exec_back
    (run_good (dt := dt) (st := st) w' hc ho nsteps') (run_init w' hc ho hx' hu') he'
  obtain ⟨s, s', a1, a2, a3, a4⟩ := C80_time_loop m d norient hc ho G st dt U0 nsteps nsteps' nranks part rms w
    g hg (fun _ _ l => l) (fun _ _ _ => .refl _) Uc0 hu k c1 h1 nranks' part' rms' w' g' hg' (fun _ _ l => l)
    (fun _ _ _ => .refl _) Uc0' hu' k' c2 h1' r hr r' hr'
    ((h2.round r hr).symm.trans (hround.trans (h2'.round r' hr')))
  obtain ⟨t, ht⟩ := h2.st r hr
  obtain ⟨t', ht'⟩ := h2'.st r' hr'
  obtain rfl : t = s := by have := ht.state; rw [a1] at this; exact (Option.some.inj this).symm
  obtain rfl : t' = s' := by have := ht'.state; rw [a2] at this; exact (Option.some.inj this).symm
  refine ⟨ht.time.trans (a3.trans ht'.time.symm), ?_⟩
  intro i i' e hi hi' b hb v hv
  have hlt : i < (rms r).numElemsPart := by
    rw [w.numElems hr]; exact (List.getElem?_eq_some_iff.1 hi).1
  have hlt' : i' < (rms' r').numElemsPart := by
    rw [w'.numElems hr']; exact (List.getElem?_eq_some_iff.1 hi').1
  rw [ht.stages.Uc i hlt b hb v hv, ht'.stages.Uc i' hlt' b hb v hv]
  exact a4 i i' e hi hi' b hb v hv

/-- **C80** (threads and ranks against one rank after the other).  The same bits as a run of the model in which
every kernel is one sequential loop: the number of threads and their interleaving change nothing. -/
theorem C80_threads_sequential (m : GMesh α) (d : Disc K) (norient : ℕ) (hc : Conforming d norient m)
    (ho : OrderOK d norient) (G : Geom K) (st : Stepper) (dt : K) (U0 : Coeffs K) (nsteps nsteps' : ℕ)
    (nranks : ℕ) (part : List ℕ) (rms : ℕ → RankMesh α) (w : World m nranks part rms)
    (g : ℕ → Geom K) (hg : ∀ r < nranks, GeomRestrict d (rms r) (g r) G)
    (x : Executions K) (hx : x.OK d g rms dt st)
    (Uc0 : ℕ → Coeffs K) (hu : ∀ r < nranks, CoeffsRestrict d (rms r) (Uc0 r) U0) (k : ℕ)
    (c : Proto.Conf (DevState K) (List (ℕ → ℕ → K)))
    (he : Proto.Exec (deviceProg x d rms nranks dt st nsteps) (Proto.init (deviceInit x Uc0)) c k)
    (nranks' : ℕ) (part' : List ℕ) (rms' : ℕ → RankMesh α) (w' : World m nranks' part' rms')
    (g' : ℕ → Geom K) (hg' : ∀ r < nranks', GeomRestrict d (rms' r) (g' r) G)
    (sched' : ℕ → ℕ → List (FluxWrite K) → List (FluxWrite K)) (hs' : ∀ r k l, (sched' r k l).Perm l)
    (Uc0' : ℕ → Coeffs K) (hu' : ∀ r < nranks', CoeffsRestrict d (rms' r) (Uc0' r) U0) (k' : ℕ)
    (c' : Proto.Conf (FaceArr (ℕ → ℕ → K) × Option (RankState K)) (List (ℕ → ℕ → K)))
    (he' : Proto.Exec (solverProg d g' rms' nranks' dt st sched' nsteps')
      (Proto.init (solverStart d rms' st Uc0')) c' k')
    (r : ℕ) (hr : r < nranks) (r' : ℕ) (hr' : r' < nranks')
    (hround : (c.proc r).round = (c'.proc r').round) :
    ∃ s', (c'.proc r').st.2 = some s' ∧ (c.proc r).st.time = s'.time ∧
      ∀ i i' e : ℕ, (rms r).l2gElem[i]? = some e → (rms' r').l2gElem[i']? = some e →
        ∀ b < d.nb, ∀ v < d.ns, (c.proc r).st.mem ⟨.Uc, i, b, v, 0⟩ = s'.Uc i' b v := by
  obtain ⟨c1, h1, h2⟩ := (run_sim w hc ho hx nsteps).exec_back
    (run_good (dt := dt) (st := st) w hc ho nsteps) (run_init w hc ho hx hu) he
  obtain ⟨s, s', a1, a2, a3, a4⟩ := C80_time_loop m d norient hc ho G st dt U0 nsteps nsteps' nranks part rms w
    g hg (fun _ _ l => l) (fun _ _ _ => .refl _) Uc0 hu k c1 h1 nranks' part' rms' w' g' hg' sched' hs'
    Uc0' hu' k' c' he' r hr r' hr' ((h2.round r hr).symm.trans hround)
  obtain ⟨t, ht⟩ := h2.st r hr
  obtain rfl : t = s := by have := ht.state; rw [a1] at this; exact (Option.some.inj this).symm
  refine ⟨s', a2, ht.time.trans a3, ?_⟩
  intro i i' e hi hi' b hb v hv
  have hlt : i < (rms r).numElemsPart := by
    rw [w.numElems hr]; exact (List.getElem?_eq_some_iff.1 hi).1
  rw [ht.stages.Uc i hlt b hb v hv]
  exact a4 i i' e hi hi' b hb v hv

/-! ### setup and time loop -/

variable [DecLit K]

omit [NeZero (1 : K)] in
/-- what the threads of the setup leave in memory is the geometry and the initial state of `Launched` -/
theorem SetupRun.holds {t gt : BasisType} {p gorder ns rank : ℕ} {vf : (ℕ → K) → ℕ → K}
    {nf : (ℕ → K) → (ℕ → K) → (ℕ → K) → ℕ → K} {ic : (ℕ → K) → ℕ → K} {rm : RankMesh K} {mem : SCell → K}
    {nor : NCell → K} (S : SetupRun t gt p gorder ns rank ic rm mem nor) (hgt : basisShape gt = basisShape t)
    {d : Disc K} (hd : buildDisc t gt p gorder ns vf nf = some d) {scr MM0 rhs0 U0 : ℕ → ℕ → ℕ → K} {g : Geom K}
    {u : Coeffs K} (hg : buildGeom t gt p gorder rank rm scr MM0 = some g)
    (hu : initState t gt p gorder ns rm g.iMM ic rhs0 U0 = some u) :
    (∀ e < rm.numElemsPart, (∀ q < d.nq, mem ⟨.djac, e, q, 0, 0⟩ = g.djac e q ∧
        ∀ i < d.dim, ∀ j < d.dim, mem ⟨.ijac, e, q, i, j⟩ = g.ijac e q i j) ∧
      (∀ i < d.nb, ∀ j < d.nb, mem ⟨.iMM, e, i, j, 0⟩ = g.iMM e i j) ∧
      ∀ b < d.nb, ∀ s < ns, mem ⟨.Uc, e, b, s, 0⟩ = u e b s) ∧
    ∀ i < rm.numIFacesPart, ∀ q < d.nqf, ∀ j < d.dim, nor (.normal i q j) = g.normals i q j := by
  obtain ⟨sh, nb, ref, b1, b2, b3, b4⟩ := C75_setup_bits t gt p gorder ns rank rm scr MM0 rhs0 U0 ic g u hg hu hgt
    S.pos1 S.pos2 S.pos3 S.D1 S.D2 S.D3 S.k1 S.mass S.k2 S.volume S.k3 S.init S.m0 S.m1 S.m1' S.m2 S.m2' mem
    S.zeroed S.massEnds S.keep1 S.volumeEnds S.keep2 S.initEnds
  obtain ⟨nm, c1, c2⟩ := C69_normals_setup hg S.shape S.face S.nm0
  obtain ⟨n, c, q1, q2, hn⟩ := S.normalsEnds
  have hnor : nor = nm := hn.symm.trans (c1.result n c q1 q2)
  have hdd : d.nb = nb ∧ d.nq = ref.nq ∧ d.dim = shapeDim sh.1 ∧ d.nqf = S.fr.pts.length ∧ sh = S.sh := by
    unfold buildDisc at hd
    simp only [Option.bind_eq_bind] at hd
    obtain ⟨sh', h1, hd⟩ := Option.bind_eq_some_iff.1 hd
    obtain ⟨nb', h2, hd⟩ := Option.bind_eq_some_iff.1 hd
    obtain ⟨vol, h3, hd⟩ := Option.bind_eq_some_iff.1 hd
    obtain ⟨fr, h4, hd⟩ := Option.bind_eq_some_iff.1 hd
    rw [b1] at h1; cases h1
    rw [b2] at h2; cases h2
    rw [b3] at h3; cases h3
    have h5 := S.face
    rw [h4] at h5
    have h6 := S.shape
    rw [b1] at h6
    cases hd
    have h7 : fr.nqf = fr.pts.length := by
      unfold faceRef at h4
      simp only [Option.bind_eq_bind] at h4
      obtain ⟨_, -, h4⟩ := Option.bind_eq_some_iff.1 h4
      obtain ⟨_, -, h4⟩ := Option.bind_eq_some_iff.1 h4
      obtain ⟨_, -, h4⟩ := Option.bind_eq_some_iff.1 h4
      obtain ⟨_, -, h4⟩ := Option.bind_eq_some_iff.1 h4
      obtain ⟨_, -, h4⟩ := Option.bind_eq_some_iff.1 h4
      cases h4
      rfl
    exact ⟨rfl, rfl, rfl, by rw [← Option.some.inj h5]; exact h7, Option.some.inj h6⟩
  obtain ⟨e1, e2, e3, e4, e5⟩ := hdd
  rw [e1, e2, e3, e4]
  refine ⟨fun e he => ⟨(b4 e he).2.1, (b4 e he).1, (b4 e he).2.2.2⟩, ?_⟩
  intro i hi q hq j hj
  rw [show nor (.normal i q j) = nm (.normal i q j) from congrFun hnor _]
  exact c2 i hi q hq j (by rw [← e5]; exact hj)

omit [NeZero (1 : K)] in
/-- what the threads of the setups hold is the restriction of one geometry and one initial state -/
theorem SetupRun.restrict {t gt : BasisType} {p gorder ns : ℕ} {vf : (ℕ → K) → ℕ → K}
    {nf : (ℕ → K) → (ℕ → K) → (ℕ → K) → ℕ → K} {ic : (ℕ → K) → ℕ → K} {m : GMesh K}
    {sh : ShapeType × Option ShapeType} (ht : basisShape t = some sh) (hgt : basisShape gt = some sh)
    (hm : MeshOfShape sh.1 gorder m) (d : Disc K) :
    ∃ (G : Geom K) (U0 : Coeffs K), ∀ (nranks : ℕ) (part : List ℕ) (rms : ℕ → RankMesh K)
      (_ : ∃ g u, Launched t gt p gorder ns vf nf ic m nranks part rms d g u)
      (mem : ℕ → SCell → K) (nor : ℕ → NCell → K)
      (_ : ∀ r < nranks, Nonempty (SetupRun t gt p gorder ns r ic (rms r) (mem r) (nor r)))
      (_ : NormalsShared nranks rms d fun r => readGeom (mem r) (nor r)),
      ∀ r < nranks, GeomRestrict d (rms r) (readGeom (mem r) (nor r)) G ∧
        CoeffsRestrict d (rms r) (readCoeffs (mem r)) U0 := by
  obtain ⟨G, U0, H⟩ := Launched.restrict (p := p) (ns := ns) (vf := vf) (nf := nf) (ic := ic) ht hgt hm d
  refine ⟨G, U0, ?_⟩
  rintro nranks part rms ⟨g, u, L⟩ mem nor S hn
  obtain ⟨_, _, _, _, t4, _, _, _⟩ := buildDisc_orderOK L.disc
  have hold : ∀ r < nranks,
      (∀ e < (rms r).numElemsPart, (∀ q < d.nq, mem r ⟨.djac, e, q, 0, 0⟩ = (g r).djac e q ∧
        ∀ i < d.dim, ∀ j < d.dim, mem r ⟨.ijac, e, q, i, j⟩ = (g r).ijac e q i j) ∧
        (∀ i < d.nb, ∀ j < d.nb, mem r ⟨.iMM, e, i, j, 0⟩ = (g r).iMM e i j) ∧
        ∀ b < d.nb, ∀ s < ns, mem r ⟨.Uc, e, b, s, 0⟩ = u r e b s) ∧
      ∀ i < (rms r).numIFacesPart, ∀ q < d.nqf, ∀ j < d.dim, nor r (.normal i q j) = (g r).normals i q j := by
    intro r hr
    obtain ⟨scr, MM0, hg⟩ := L.geom r hr
    obtain ⟨rhs0, Uin, hu⟩ := L.init r hr
    exact (S r hr).some.holds (hgt.trans ht.symm) L.disc hg hu
  have elt : ∀ r < nranks, ∀ k e : ℕ, (rms r).l2gElem[k]? = some e → k < (rms r).numElemsPart :=
    fun r hr k e hk => by rw [L.world.numElems hr]; exact (List.getElem?_eq_some_iff.1 hk).1
  have flt : ∀ r < nranks, ∀ i a : ℕ, (rms r).l2gFace[i]? = some a → i < (rms r).numIFacesPart :=
    fun r hr k e hk => by rw [L.world.numIF hr]; exact (List.getElem?_eq_some_iff.1 hk).1
  have hsh : NormalsShared nranks rms d g := by
    intro r hr r' hr' i i' a hi hi' q hq j hj
    rw [← (hold r hr).2 i (flt r hr i a hi) q hq j hj, ← (hold r' hr').2 i' (flt r' hr' i' a hi') q hq j hj]
    exact hn r hr r' hr' i i' a hi hi' q hq j hj
  intro r hr
  obtain ⟨h1, h2⟩ := H _ _ _ _ _ L hsh r hr
  obtain ⟨o1, o2⟩ := hold r hr
  exact ⟨⟨fun k e hk q hq => (((o1 k (elt r hr k e hk)).1 q hq).1).trans (h1.djac k e hk q hq),
    fun k e hk q hq i hi j hj => (((o1 k (elt r hr k e hk)).1 q hq).2 i hi j hj).trans (h1.ijac k e hk q hq i hi j hj),
    fun k e hk i hi j hj => ((o1 k (elt r hr k e hk)).2.1 i hi j hj).trans (h1.iMM k e hk i hi j hj),
    fun i a hi q hq j hj => (o2 i (flt r hr i a hi) q hq j hj).trans (h1.normals i a hi q hq j hj)⟩,
    fun k e hk b hb s hs => ((o1 k (elt r hr k e hk)).2.2 b hb s (by rw [← t4]; exact hs)).trans
      (h2 k e hk b hb s hs)⟩

/-- **C80** (setup and time loop down to the threads).  Two launches of a case, on any numbers of ranks and
partitions; on every rank the kernels of the setup and of the time loop are executed by any numbers of threads
(the kernel of the normals by one thread per face) under any interleavings, on whatever the memory held before; the
two ranks of every face hold the same normals.  A rank of the first and a rank of the second that have
completed the same number of residual evaluations hold the same bits for every element they both have. -/
theorem C80_threads_case (t gt : BasisType) (p gorder ns : ℕ) (vf : (ℕ → K) → ℕ → K)
    (nf : (ℕ → K) → (ℕ → K) → (ℕ → K) → ℕ → K) (ic : (ℕ → K) → ℕ → K) (m : GMesh K)
    (sh : ShapeType × Option ShapeType) (ht : basisShape t = some sh) (hgt : basisShape gt = some sh)
    (hm : MeshOfShape sh.1 gorder m) (st : Stepper) (dt : K) (nsteps nsteps' : ℕ)
    (nranks : ℕ) (part : List ℕ) (rms : ℕ → RankMesh K) (d : Disc K)
    (L : ∃ g u, Launched t gt p gorder ns vf nf ic m nranks part rms d g u)
    (mem : ℕ → SCell → K) (nor : ℕ → NCell → K)
    (S : ∀ r < nranks, Nonempty (SetupRun t gt p gorder ns r ic (rms r) (mem r) (nor r)))
    (hn : NormalsShared nranks rms d fun r => readGeom (mem r) (nor r))
    (x : Executions K) (hx : x.OK d (fun r => readGeom (mem r) (nor r)) rms dt st) (k : ℕ)
    (c : Proto.Conf (DevState K) (List (ℕ → ℕ → K)))
    (he : Proto.Exec (deviceProg x d rms nranks dt st nsteps)
      (Proto.init (deviceInit x fun r => readCoeffs (mem r))) c k)
    (nranks' : ℕ) (part' : List ℕ) (rms' : ℕ → RankMesh K)
    (L' : ∃ g u, Launched t gt p gorder ns vf nf ic m nranks' part' rms' d g u)
    (mem' : ℕ → SCell → K) (nor' : ℕ → NCell → K)
    (S' : ∀ r < nranks', Nonempty (SetupRun t gt p gorder ns r ic (rms' r) (mem' r) (nor' r)))
    (hn' : NormalsShared nranks' rms' d fun r => readGeom (mem' r) (nor' r))
    (x' : Executions K) (hx' : x'.OK d (fun r => readGeom (mem' r) (nor' r)) rms' dt st) (k' : ℕ)
    (c' : Proto.Conf (DevState K) (List (ℕ → ℕ → K)))
    (he' : Proto.Exec (deviceProg x' d rms' nranks' dt st nsteps')
      (Proto.init (deviceInit x' fun r => readCoeffs (mem' r))) c' k')
    (r : ℕ) (hr : r < nranks) (r' : ℕ) (hr' : r' < nranks')
    (hround : (c.proc r).round = (c'.proc r').round) :
    (c.proc r).st.time = (c'.proc r').st.time ∧
      ∀ i i' e : ℕ, (rms r).l2gElem[i]? = some e → (rms' r').l2gElem[i']? = some e →
        ∀ b < d.nb, ∀ v < ns,
          (c.proc r).st.mem ⟨.Uc, i, b, v, 0⟩ = (c'.proc r').st.mem ⟨.Uc, i', b, v, 0⟩ := by
  obtain ⟨sh1, nb, t1, _, t4, _, t5, t6⟩ := buildDisc_orderOK L.choose_spec.choose_spec.disc
  rw [ht] at t1; cases t1
  have hc : Conforming d (shapeOrients sh.1) m :=
    ⟨fun f hf => by rw [t5]; exact hm.faceL f hf, fun f hf => by rw [t5]; exact hm.faceR f hf, hm.sides⟩
  obtain ⟨G, U0, key⟩ := SetupRun.restrict (p := p) (ns := ns) (vf := vf) (nf := nf) (ic := ic) ht hgt hm d
  have K1 := key nranks part rms L mem nor S hn
  have K2 := key nranks' part' rms' L' mem' nor' S' hn'
  obtain ⟨_, _, l⟩ := L
  obtain ⟨_, _, l'⟩ := L'
  have := C80_threads m d _ hc t6 G st dt U0 nsteps nsteps' nranks part rms l.world _ (fun r hr => (K1 r hr).1) x hx
    _ (fun r hr => (K1 r hr).2) k c he nranks' part' rms' l'.world _ (fun r hr => (K2 r hr).1) x' hx'
    _ (fun r hr => (K2 r hr).2) k' c' he' r hr r' hr' hround
  rw [t4] at this
  exact this

/-- **C80** (the run of the threads completes).  In the situation of `C80_threads_case`, whatever the
setup left in the memory of each rank, no exchange fails at any moment, and every run can be continued until all ranks have finished all steps. -/
theorem C80_threads_completes (t gt : BasisType) (p gorder ns : ℕ) (vf : (ℕ → K) → ℕ → K)
    (nf : (ℕ → K) → (ℕ → K) → (ℕ → K) → ℕ → K) (ic : (ℕ → K) → ℕ → K) (m : GMesh K)
    (sh : ShapeType × Option ShapeType) (ht : basisShape t = some sh) (hgt : basisShape gt = some sh)
    (hm : MeshOfShape sh.1 gorder m) (st : Stepper) (dt : K) (nsteps : ℕ)
    (nranks : ℕ) (part : List ℕ) (rms : ℕ → RankMesh K) (d : Disc K)
    (L : ∃ g u, Launched t gt p gorder ns vf nf ic m nranks part rms d g u)
    (mem : ℕ → SCell → K) (nor : ℕ → NCell → K)
    (x : Executions K) (hx : x.OK d (fun r => readGeom (mem r) (nor r)) rms dt st) (k : ℕ)
    (c : Proto.Conf (DevState K) (List (ℕ → ℕ → K)))
    (he : Proto.Exec (deviceProg x d rms nranks dt st nsteps)
      (Proto.init (deviceInit x fun r => readCoeffs (mem r))) c k) :
    (∀ r < nranks, (c.proc r).phase ≠ .failed) ∧
    ∃ c' k', Proto.Exec (deviceProg x d rms nranks dt st nsteps) c c' k' ∧
      ∀ r < nranks, (c'.proc r).round = stagesOf st * nsteps := by
  obtain ⟨sh1, nb, t1, _, t4, _, t5, t6⟩ := buildDisc_orderOK L.choose_spec.choose_spec.disc
  rw [ht] at t1; cases t1
  have hc : Conforming d (shapeOrients sh.1) m :=
    ⟨fun f hf => by rw [t5]; exact hm.faceL f hf, fun f hf => by rw [t5]; exact hm.faceR f hf, hm.sides⟩
  obtain ⟨_, _, l⟩ := L
  exact C70_run_completes l.world d _ hc t6 _ st dt x hx _ nsteps k c he

end DG.Dev
