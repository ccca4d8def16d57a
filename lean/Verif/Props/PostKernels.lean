import Verif.Lemmas.PostKernels
import Verif.Props.SetupKernels
import Verif.Spec.PostKernels
import Verif.Props.Post

/-!
Property C79: the kernels of the post-processor, run by teams of any number of threads under every
interleaving of their single loads and stores.
-/
namespace DG.Dev
open Kernel

section general
variable {K : Type} [Field K]

theorem Kernel.Computes.of_ends {C V T J : Type} [DecidableEq C] [DecidableEq T] [DecidableEq J] {k : Kernel C V T J}
    {m m' m'' : C → V} (h : k.Computes m m') (he : k.Ends m m'') : m'' = m' := by
  obtain ⟨n, c, h1, h2, rfl⟩ := he
  exact h.result n c h1 h2

theorem Kernel.Computes.to_ends {C V T J : Type} [DecidableEq C] [DecidableEq T] [DecidableEq J] {k : Kernel C V T J}
    {m m' : C → V} (h : k.Computes m m') : k.Ends m m' := by
  obtain ⟨N, hN⟩ := h.ends
  obtain ⟨n', c', h1, h2⟩ := (hN 0 _ (.refl _)).2
  exact ⟨n', c', h1, h2, h.result n' c' h1 h2⟩

theorem launch_ends {ne' nt ne nn dim nq nb ns : ℕ} {k : Kernel SCell K (Fin ne') (Fin nt)}
    {F : (SCell → K) → SCell → K} (hk : ∀ m, k.Computes m (F m))
    (hi : ∀ m, k.StaysIn (PInside ne nt nn dim nq nb ns) m) {m m' : SCell → K} (h : launch (fun k => k.Ends) k m m') :
    launch (PostSafe ne nn dim nq nb ns) k m m' ∧ ∃ m1, (∀ c, c.view.lasting = true → m1 c = m c) ∧ m' = F m1 := by
  obtain ⟨m1, h1, h2⟩ := h
  obtain rfl := (hk m1).of_ends h2
  exact ⟨⟨m1, h1, hk m1, hi m1⟩, m1, h1, rfl⟩

theorem launch_exists {ne' nt : ℕ} {k : Kernel SCell K (Fin ne') (Fin nt)} {F : (SCell → K) → SCell → K}
    (hk : ∀ m, k.Computes m (F m)) (m : SCell → K) : launch (fun k => k.Ends) k m (F m) :=
  ⟨m, fun _ _ => rfl, (hk m).to_ends⟩

theorem totalError_in {nt : ℕ} (d : ℕ → Fin nt) {ne nn dim nq nb ns s : ℕ} (hs : s < ns) (m : SCell → K) :
    (totalErrorKernel d ne s).StaysIn (PInside ne nt nn dim nq nb ns) m := by
  intro n c hn t j x hx
  rcases sum_in m n c hn t j x hx with ⟨e, he, rfl⟩ | ⟨l, hl, rfl⟩ | rfl
  · exact Or.inl ⟨he, hs, Nat.one_pos, Nat.one_pos⟩
  · exact Or.inr (Or.inl ⟨l, hl, rfl⟩)
  · exact Or.inr (Or.inr (Or.inr ⟨s, hs, rfl⟩))

theorem totalVolume_in {nt : ℕ} (d : ℕ → Fin nt) {ne nn dim nq nb ns : ℕ} (m : SCell → K) :
    (totalVolumeKernel d ne).StaysIn (PInside ne nt nn dim nq nb ns) m := by
  intro n c hn t j x hx
  rcases sum_in m n c hn t j x hx with ⟨e, he, rfl⟩ | ⟨l, hl, rfl⟩ | rfl
  · exact Or.inl ⟨he, Nat.one_pos, Nat.one_pos, Nat.one_pos⟩
  · exact Or.inr (Or.inl ⟨l, hl, rfl⟩)
  · exact Or.inr (Or.inr (Or.inl rfl))

variable {nt : ℕ → ℕ} (hnt : ∀ k, 0 < nt k) (D : ∀ k, ℕ → ℕ → Fin (nt k))
include hnt

theorem errorSums_spec {ne nn dim nq nb ns : ℕ} (n : ℕ) (hn : n ≤ ns) (m m' : SCell → K)
    (h : errorSums (fun k => k.Ends) D ne n m m') :
    errorSums (PostSafe ne nn dim nq nb ns) D ne n m m' ∧
    (∀ s < n, m' ⟨.total, 0, s, 0, 0⟩ = loopSum ne fun e => m ⟨.err, e, s, 0, 0⟩) ∧
    (∀ c, c.view.lasting = true → c.view ≠ .total → m' c = m c) := by
  induction n generalizing m' with
  | zero => exact ⟨h, fun _ hs => absurd hs (by omega), fun c _ _ => by rw [show m' = m from h]⟩
  | succ n ih =>
    obtain ⟨m1, h1, h2⟩ := h
    obtain ⟨a1, a2, a3⟩ := ih (by omega) m1 h1
    obtain ⟨b1, m2, b2, rfl⟩ := launch_ends (F := fun M => sumMem (D (n + 3) 0) ne (fun e => ⟨.err, e, n, 0, 0⟩)
      ⟨.total, 0, n, 0, 0⟩ M 2) (fun m => sum_computes (hnt _) (by simp) (by simp) m)
      (fun m => totalError_in (D (n + 3) 0) (nn := nn) (dim := dim) (nq := nq) (nb := nb) (Nat.lt_of_succ_le hn) m) h2
    refine ⟨⟨m1, a1, b1⟩, fun s hs => ?_, fun c hc hct => ?_⟩
    · rcases Nat.lt_succ_iff_lt_or_eq.1 hs with hs | rfl
      · rw [sumMem_ne (by simp; omega) (by simp), b2 _ rfl, a2 s hs]
      · rw [sumMem_dst]
        refine congrArg (loopSum ne) (funext fun e => ?_)
        rw [b2 _ rfl, a3 _ rfl (by simp)]
    · rw [sumMem_ne (by rintro rfl; exact hct rfl) (by intro h; rw [h] at hc; exact absurd hc (by simp [SView.lasting])),
        b2 c hc, a3 c hc hct]

theorem errorSums_exists (ne n : ℕ) (m : SCell → K) : ∃ m', errorSums (fun k => k.Ends) D ne n m m' := by
  induction n with
  | zero => exact ⟨m, rfl⟩
  | succ n ih =>
    obtain ⟨m1, h1⟩ := ih
    exact ⟨_, m1, h1, launch_exists (F := fun M => sumMem (D (n + 3) 0) ne (fun e => ⟨.err, e, n, 0, 0⟩)
      ⟨.total, 0, n, 0, 0⟩ M 2) (fun m => sum_computes (hnt _) (by simp) (by simp) m) m1⟩

variable [DecidableEq K]

/-- **C79** (one rank).  The kernels of the post-processor on a rank, launched one after the other with any contents of the
scratch memory, any numbers of threads and any distribution of the loops over the threads, from any memory: they
can be run to the end; in every run no launch has a data race, leaves the memory of its views or admits another
result; and a run ends with the sum of the volumes of the elements, and for each variable with the sum over
the elements of the quadrature of the `ord`-th power of the difference of the solution and the exact one. -/
theorem C79_rank (t gt : BasisType) (p gorder ns ord : ℕ) (ex : (ℕ → K) → ℕ → K) (rm : RankMesh K)
    (hgt : basisShape gt = basisShape t) (sh : ShapeType × Option ShapeType) (hsh : basisShape t = some sh)
    (nb : ℕ) (hnb : shapeNumBasis sh.1 p = some nb) (gnb : ℕ) (hgnb : shapeNumBasis sh.1 gorder = some gnb)
    (ref : RefData K) (href : volRef (K := K) t gt p gorder (2 * max p 1) = some ref) :
    ∃ run safe, rankErrors (fun k => k.Ends) D t gt p gorder ns ord ex rm = some run ∧
      rankErrors (PostSafe rm.numElemsPart (shapeNodes sh.1 gorder) (shapeDim sh.1) ref.nq nb ns) D t gt p gorder ns
        ord ex rm = some safe ∧
      (∀ m, ∃ m', run m m') ∧
      ∀ m m', run m m' → safe m m' ∧
        m' ⟨.totVol, 0, 0, 0, 0⟩ = ∑ e ∈ Finset.range rm.numElemsPart, m ⟨.vol, e, 0, 0, 0⟩ ∧
        ∀ s < ns, m' ⟨.total, 0, s, 0, 0⟩ = ∑ e ∈ Finset.range rm.numElemsPart, ∑ q ∈ Finset.range ref.nq,
          (∑ b ∈ Finset.range nb, ref.val q b * m ⟨.Uc, e, b, s, 0⟩ -
            ex (cArr (shapeDim sh.1) (refToPhys (shapeDim sh.1) gnb (ref.gval q) (elemCoords rm e))) s) ^ ord *
            ref.wts q * setupDjac (shapeDim sh.1) (shapeNodes sh.1 gorder) ref (elemCoords rm e) q := by
  have hle := numBasis_le_nodes hgnb
  have c0 : ∀ m : SCell → K, (totalVolumeKernel (D 0 0) rm.numElemsPart).Computes m
      (sumMem (D 0 0) rm.numElemsPart (fun e => ⟨.vol, e, 0, 0, 0⟩) ⟨.totVol, 0, 0, 0, 0⟩ m 2) :=
    fun m => sum_computes (hnt 0) (by simp) (by simp) m
  have c1 : ∀ m : SCell → K, (stateKernel (D 1) rm.numElemsPart ref.nq nb ns ref.val).Computes m
      (finalMem (fun t : Fin rm.numElemsPart => stateMem ref.nq nb ns ref.val m t) 2 m) := fun m => state_computes m
  have c2 : ∀ m : SCell → K, (errorKernel (D 2) rm.numElemsPart (shapeDim sh.1) (shapeNodes sh.1 gorder) gnb ref.nq ns
      ord ref.wts (fun q => get0 (ref.gval q)) ref.ggrad ex (elemCoords rm)).Computes m
      (finalMem (fun t : Fin rm.numElemsPart => errorMem (shapeDim sh.1) (shapeNodes sh.1 gorder) gnb ref.nq ns ord
        ref.wts (fun q => get0 (ref.gval q)) ref.ggrad ex (elemCoords rm t) m t) 4 m) :=
    fun m => error_computes (hnt 2) hle m
  have form : ∀ run : SLaunch K, ∃ r, rankErrors run D t gt p gorder ns ord ex rm = some r ∧
      ∀ m m', r m m' ↔ ∃ m1 m2 m3, launch run (totalVolumeKernel (D 0 0) rm.numElemsPart) m m1 ∧
        launch run (stateKernel (D 1) rm.numElemsPart ref.nq nb ns ref.val) m1 m2 ∧
        launch run (errorKernel (D 2) rm.numElemsPart (shapeDim sh.1) (shapeNodes sh.1 gorder) gnb ref.nq ns
          ord ref.wts (fun q => get0 (ref.gval q)) ref.ggrad ex (elemCoords rm)) m2 m3 ∧
        errorSums run D rm.numElemsPart ns m3 m' := by
    intro run
    unfold rankErrors
    simp only [Option.bind_eq_bind, hgt, hsh, hnb, hgnb, href, Option.bind_some]
    exact ⟨_, rfl, fun _ _ => Iff.rfl⟩
  obtain ⟨run, hrun, frun⟩ := form fun k => k.Ends
  obtain ⟨safe, hsafe, fsafe⟩ := form (PostSafe rm.numElemsPart (shapeNodes sh.1 gorder) (shapeDim sh.1) ref.nq nb ns)
  refine ⟨run, safe, hrun, hsafe, fun m => ?_, fun m m' h => ?_⟩
  · have h' := errorSums_exists (K := K) hnt D rm.numElemsPart ns
    exact ⟨(h' _).choose, (frun _ _).2 ⟨_, _, _, launch_exists c0 m, launch_exists c1 _, launch_exists c2 _,
      (h' _).choose_spec⟩⟩
  · obtain ⟨m1, m2, m3, h1, h2, h3, h4⟩ := (frun _ _).1 h
    have i1 : ∀ m : SCell → K, (stateKernel (D 1) rm.numElemsPart ref.nq nb ns ref.val).StaysIn
        (PInside rm.numElemsPart (nt 1) (shapeNodes sh.1 gorder) (shapeDim sh.1) ref.nq nb ns) m :=
      fun m n c hn t j x hx => Or.inl (state_in (D 1) ref.val m n c hn t j x hx)
    have i2 : ∀ m : SCell → K, (errorKernel (D 2) rm.numElemsPart (shapeDim sh.1) (shapeNodes sh.1 gorder) gnb ref.nq ns
        ord ref.wts (fun q => get0 (ref.gval q)) ref.ggrad ex (elemCoords rm)).StaysIn
        (PInside rm.numElemsPart (nt 2) (shapeNodes sh.1 gorder) (shapeDim sh.1) ref.nq nb ns) m :=
      fun m n c hn t j x hx => Or.inl (error_in (D 2) hle _ _ _ _ _ m n c hn t j x hx)
    obtain ⟨s1, a, ha, rfl⟩ := launch_ends c0 (totalVolume_in (nn := shapeNodes sh.1 gorder) (dim := shapeDim sh.1)
      (nq := ref.nq) (nb := nb) (ns := ns) (D 0 0)) h1
    obtain ⟨s2, b, hb, rfl⟩ := launch_ends c1 i1 h2
    obtain ⟨s3, c, hc, rfl⟩ := launch_ends c2 i2 h3
    obtain ⟨s4, t1, t2⟩ := errorSums_spec (nn := shapeNodes sh.1 gorder) (dim := shapeDim sh.1)
      (nq := ref.nq) (nb := nb) hnt D ns le_rfl _ _ h4
    refine ⟨(fsafe _ _).2 ⟨_, _, _, s1, s2, s3, s4⟩, ?_, fun s hs => ?_⟩
    · rw [t2 _ rfl (by simp)]
      have e1 : ∀ (M : Fin rm.numElemsPart → ℕ → SCell → K) (n : ℕ) (m : SCell → K) (c : SCell),
          (∀ t, M t n c = m c) → finalMem M n m c = m c := by
        intro M n m c h
        unfold finalMem
        split
        · exact h _
        · rfl
      rw [e1 _ _ _ _ fun t => errorMem_kept rfl (by simp) 4, hc _ rfl, e1 _ _ _ _ fun t => stateMem_ne (by simp),
        hb _ rfl, sumMem_dst, loopSum_eq]
      exact Finset.sum_congr rfl fun e _ => ha _ rfl
    · rw [t1 s hs, loopSum_eq]
      refine Finset.sum_congr rfl fun e he => ?_
      have he := Finset.mem_range.1 he
      rw [finalMem_at he, errorMem_err hs, loopSum_eq]
      refine Finset.sum_congr rfl fun q hq => ?_
      have hq := Finset.mem_range.1 hq
      rw [hc _ rfl, finalMem_at he, stateMem_Uq hq hs, loopSum_eq, setupDjac_eq]
      congr 3
      refine congrArg₂ (· - ·) ?_ ?_
      · refine Finset.sum_congr rfl fun b _ => ?_
        rw [hb _ rfl, sumMem_ne (by simp) (by simp), ha _ rfl, one_mul]
      · refine congrArg (fun x => ex x s) ?_
        funext d
        unfold cArr
        split
        · next hd => simp [refToPhys, cAxB_to_C, gemm, hd]
        · rfl

end general

/-- what a successful reading of the inputs says about the bases -/
theorem readPost_some {deck : Deck} {fs : String → List String → Option (MeshFile ℝ)} {un : Unset} {dim nranks : ℕ}
    {job : Job} (h : readPost deck fs un dim nranks = some job) :
    ∃ sh ref, basisShape job.num.basis = some sh ∧ basisShape job.num.gbasis = basisShape job.num.basis ∧
      shapeDim sh.1 = dim ∧ shapeNumBasis sh.1 job.num.order = some job.disc.nb ∧
      volRef job.num.basis job.num.gbasis job.num.order 1 job.num.order = some ref ∧
      job.disc.nq = ref.nq ∧ job.disc.volWts = ref.wts := by
  unfold readPost readInputs at h
  simp only [Option.bind_eq_bind] at h
  obtain ⟨num, hnum, h⟩ := Option.bind_eq_some_iff.1 h
  obtain ⟨name, -, h⟩ := Option.bind_eq_some_iff.1 h
  obtain ⟨np, -, h⟩ := Option.bind_eq_some_iff.1 h
  obtain ⟨mf, -, h⟩ := Option.bind_eq_some_iff.1 h
  obtain ⟨rd, -, h⟩ := Option.bind_eq_some_iff.1 h
  obtain ⟨data, -, h⟩ := Option.bind_eq_some_iff.1 h
  obtain ⟨sol, -, h⟩ := Option.bind_eq_some_iff.1 h
  split at h
  · obtain ⟨sh, hsh, h⟩ := Option.bind_eq_some_iff.1 h
    split at h
    · next hdim =>
      obtain ⟨disc, hdisc, h⟩ := Option.bind_eq_some_iff.1 h
      obtain rfl := Option.some.inj h
      unfold buildDisc at hdisc
      simp only [Option.bind_eq_bind, hsh, Option.bind_some] at hdisc
      obtain ⟨nb, hnb, hdisc⟩ := Option.bind_eq_some_iff.1 hdisc
      obtain ⟨ref, href, hdisc⟩ := Option.bind_eq_some_iff.1 hdisc
      obtain ⟨fr, -, hdisc⟩ := Option.bind_eq_some_iff.1 hdisc
      obtain rfl := Option.some.inj hdisc
      refine ⟨sh, ref, hsh, ?_, hdim, hnb, href, rfl, rfl⟩
      unfold makeNumParams at hnum
      simp only [Option.bind_eq_bind] at hnum
      obtain ⟨_, -, hnum⟩ := Option.bind_eq_some_iff.1 hnum
      obtain ⟨_, -, hnum⟩ := Option.bind_eq_some_iff.1 hnum
      obtain ⟨b, -, hnum⟩ := Option.bind_eq_some_iff.1 hnum
      obtain ⟨_, -, hnum⟩ := Option.bind_eq_some_iff.1 hnum
      obtain ⟨_, -, hnum⟩ := Option.bind_eq_some_iff.1 hnum
      split at hnum
      · obtain ⟨⟨gb, nf, no⟩, hgb, hnum⟩ := Option.bind_eq_some_iff.1 hnum
        obtain ⟨_, -, hnum⟩ := Option.bind_eq_some_iff.1 hnum
        obtain ⟨_, -, hnum⟩ := Option.bind_eq_some_iff.1 hnum
        obtain rfl := Option.some.inj hnum
        show basisShape gb = basisShape b
        have hsh : basisShape b = some sh := hsh
        cases b <;> simp [geometricBasis, basisShape] at hgb hsh ⊢ <;> obtain ⟨rfl, -, -⟩ := hgb <;> rfl
      · cases hnum
    · cases h
  · cases h

/-- **C79** (what is printed).  Whatever the numbers of threads, the distributions of the loops and the
interleavings on the ranks, the numbers printed by the post-processor are those of the sequential description. -/
theorem C79_printed (deck : Deck) (fs : String → List String → Option (MeshFile ℝ)) (un : Unset) (dim nranks : ℕ)
    (job : Job) (hj : readPost deck fs un dim nranks = some job) (env : ℕ → RankEnv) (f : SolFile ℝ)
    (qs : ℕ → PostRank) (hqs : ∀ r < nranks, postRank job dim nranks (env r) f r = some (qs r))
    (Uq0 : ℕ → ℕ → ℕ → ℕ → ℝ) (N : ℕ → ℝ) (hN : postPrint job un dim nranks Uq0 qs = some N)
    (m0 m1 m m' : ℕ → SCell → ℝ) (hx : ∀ r < nranks, PostExec job un dim (qs r) (m0 r) (m1 r) (m r) (m' r)) :
    ∀ s < dim + 2, printedNorm nranks m' s = N s := by
  intro s hs
  obtain ⟨sh, vref, hsh, hgt, hdim, hnb, hvref, hnq, hwts⟩ := readPost_some hj
  unfold postPrint at hN
  simp only [Option.bind_eq_bind, hgt, hsh, Option.bind_some] at hN
  obtain ⟨gnb, hgnb, hN⟩ := Option.bind_eq_some_iff.1 hN
  obtain ⟨ref, href, hN⟩ := Option.bind_eq_some_iff.1 hN
  rw [← Option.some.inj hN]
  subst hdim
  unfold printedNorm errorNorm
  have red : ∀ F G : ℕ → ℝ, (∀ r < nranks, F r = G r) → allreduceSum nranks F = allreduceSum nranks G := by
    intro F G h
    unfold allreduceSum
    rw [loopSum_eq, loopSum_eq]
    exact Finset.sum_congr rfl fun r hr => h r (Finset.mem_range.1 hr)
  have key : ∀ r < nranks, m' r ⟨.total, 0, s, 0, 0⟩ = loopSum (qs r).rm.numElemsPart (fun e =>
        elemError ref.nq 2 ref.wts (setupDjac (shapeDim sh.1) (shapeNodes sh.1 1) ref (elemCoords (qs r).rm e))
          (fun q => evaluateState ref.nq job.disc.nb (shapeDim sh.1 + 2) ref.val ((qs r).uc e) (Uq0 r e) q s)
          fun q => solverExact (shapeDim sh.1) job.sol.physics un.ic (qs r).time (cArr (shapeDim sh.1)
            (refToPhys (shapeDim sh.1) gnb (ref.gval q) (elemCoords (qs r).rm e))) s) ∧
      m' r ⟨.totVol, 0, 0, 0, 0⟩ = totVolPart true (localVolume (qs r).rm.numElemsPart fun e =>
        elementVolume job.disc.nq job.disc.volWts ((qs r).geom.djac e)) := by
    intro r hr
    obtain ⟨⟨n, Dv, kv, hn, hkv, hend⟩, hv, hU, nt, D, run, hnt, hrun, hm⟩ := hx r hr
    obtain ⟨-, hgeom, -⟩ := postRank_some (hqs r hr)
    obtain ⟨run', _, e1, _, _, h1⟩ := C79_rank hnt D job.num.basis job.num.gbasis job.num.order 1 (shapeDim sh.1 + 2) 2
      (solverExact (shapeDim sh.1) job.sol.physics un.ic (qs r).time) (qs r).rm hgt sh hsh job.disc.nb hnb gnb hgnb ref href
    rw [hrun] at e1
    obtain rfl := Option.some.inj e1
    obtain ⟨-, h2, h3⟩ := h1 _ _ hm
    obtain ⟨kv', _, _, vref', e2, -, -, hvref', m1', hset, -, hvol, -⟩ := C75_volume_data job.num.basis job.num.gbasis
      job.num.order 1 r (qs r).rm _ _ (qs r).geom hgeom hgt hn Dv (m0 r)
    rw [hkv] at e2
    obtain rfl := Option.some.inj e2
    obtain rfl := hset.of_ends hend
    rw [hvref] at hvref'
    obtain rfl := Option.some.inj hvref'
    constructor
    · rw [h3 s hs, loopSum_eq]
      refine Finset.sum_congr rfl fun e he => ?_
      have he := Finset.mem_range.1 he
      unfold elemError
      rw [loopSum_eq]
      refine Finset.sum_congr rfl fun q hq => ?_
      have hq := Finset.mem_range.1 hq
      beta_reduce
      rw [evaluateState, cAxB_entry _ _ _ _ _ _ _ _ _ hq hs, one_mul]
      congr 4
      exact Finset.sum_congr rfl fun b hb => by rw [hU e he b (Finset.mem_range.1 hb) s hs]
    · rw [h2]
      simp only [totVolPart, if_true, localVolume]
      rw [loopSum_eq]
      refine Finset.sum_congr rfl fun e he => ?_
      rw [hv, hvol e (Finset.mem_range.1 he), hnq, hwts]
  rw [red _ _ fun r hr => (key r hr).1, red _ _ fun r hr => (key r hr).2]

/-- runs exist -/
theorem postExec_exists {deck : Deck} {fs : String → List String → Option (MeshFile ℝ)} {un : Unset} {dim nranks : ℕ}
    {job : Job} (hj : readPost deck fs un dim nranks = some job) {env : ℕ → RankEnv} {f : SolFile ℝ}
    {qs : ℕ → PostRank} (hqs : ∀ r < nranks, postRank job dim nranks (env r) f r = some (qs r))
    {Uq0 : ℕ → ℕ → ℕ → ℕ → ℝ} {N : ℕ → ℝ} (hN : postPrint job un dim nranks Uq0 qs = some N)
    (m0 : ℕ → SCell → ℝ) :
    ∃ m1 m m' : ℕ → SCell → ℝ, ∀ r < nranks, PostExec job un dim (qs r) (m0 r) (m1 r) (m r) (m' r) := by
  obtain ⟨sh, vref, hsh, hgt, hdim, hnb, hvref, hnq, hwts⟩ := readPost_some hj
  unfold postPrint at hN
  simp only [Option.bind_eq_bind, hgt, hsh, Option.bind_some] at hN
  obtain ⟨gnb, hgnb, hN⟩ := Option.bind_eq_some_iff.1 hN
  obtain ⟨ref, href, hN⟩ := Option.bind_eq_some_iff.1 hN
  have key : ∀ r, ∃ m1 m m' : SCell → ℝ, r < nranks → PostExec job un dim (qs r) (m0 r) m1 m m' := by
    intro r
    by_cases hr : r < nranks
    · obtain ⟨-, hgeom, -⟩ := postRank_some (hqs r hr)
      obtain ⟨kv, _, _, _, e2, _, _, _, m1, hset, _⟩ := C75_volume_data (nt := 1) job.num.basis job.num.gbasis
        job.num.order 1 r (qs r).rm _ _ (qs r).geom hgeom hgt Nat.one_pos (fun _ _ => 0) (m0 r)
      obtain ⟨n, hn⟩ := hset.ends
      obtain ⟨n', c', h1, h2⟩ := (hn 0 _ (.refl _)).2
      obtain ⟨run, _, e1, _, hex, _⟩ := C79_rank (nt := fun _ => 1) (fun _ => Nat.one_pos) (fun _ _ _ => 0) job.num.basis
        job.num.gbasis job.num.order 1 (dim + 2) 2 (solverExact dim job.sol.physics un.ic (qs r).time) (qs r).rm hgt sh hsh
        job.disc.nb hnb gnb hgnb ref href
      obtain ⟨m', hm'⟩ := hex fun c => if c.view = .Uc then (qs r).uc c.e c.i c.j else c'.mem c
      exact ⟨_, _, m', fun _ => ⟨⟨1, _, kv, Nat.one_pos, e2, n', c', h1, h2, rfl⟩, fun _ => by simp,
        fun _ _ _ _ _ _ => by simp, fun _ => 1, _, run, fun _ => Nat.one_pos, e1, hm'⟩⟩
    · exact ⟨0, 0, 0, fun h => absurd h hr⟩
  choose m1 m m' h using key
  exact ⟨m1, m, m', h⟩

/-- **C79** (whole workflow, quadrilaterals).  Run the solver, then the post-processor with the same input files on the
same number of ranks: the kernels of the post-processor can be run to the end on every rank, and whatever their
numbers of threads, distributions of loops, scratch memory and interleavings, the number printed for
variable `v` is the distance of the computed solution from the exact one. -/
theorem C79_post_quad (deck : Deck) (fs : String → List String → Option (MeshFile ℝ)) (m : GMesh ℝ) (t : Fam) (p : ℕ)
    (ph : Physics) (start : (ℕ → ℝ) → ℕ → ℝ) (st : StepperType) (dt T : ℝ) (n : ℕ)
    (h : QuadRunOK deck fs m t p ph start st dt T n)
    (nranks : ℕ) (part : List ℕ) (env : ℕ → RankEnv) (hl : LaunchOK m nranks part env) (un : Unset)
    (sched : ℕ → ℕ → List (FluxWrite ℝ) → List (FluxWrite ℝ)) (hsched : ∀ r k l, (sched r k l).Perm l)
    (ord : ℕ → List ℕ) (hord : ∀ i, (ord i).Perm (List.range nranks)) (job : Job) (ranks : ℕ → RankReady)
    (hj : readJob deck fs un 2 nranks = some job)
    (hranks : ∀ r < nranks, readyRank job un 2 nranks (env r) r = some (ranks r))
    (c : LoopConf) (k : ℕ) (hx : Proto.Exec (jobProg job ranks nranks sched) (jobInit job ranks) c k)
    (hdone : LoopDone job nranks c) (f : SolFile ℝ) (hf : jobFile job ranks 2 nranks ord c = some f)
    (env' : ℕ → RankEnv) (hl' : LaunchOK m nranks part env') (un' : Unset) :
    ∃ job', readPost deck fs un' 2 nranks = some job' ∧
      (∀ r < nranks, postRank job' 2 nranks (env' r) f r ≠ none) ∧
      ∀ qs : ℕ → PostRank, (∀ r < nranks, postRank job' 2 nranks (env' r) f r = some (qs r)) →
        ∀ m0 : ℕ → SCell → ℝ,
        (∃ m1 m2 m3 : ℕ → SCell → ℝ, ∀ r < nranks, PostExec job' un' 2 (qs r) (m0 r) (m1 r) (m2 r) (m3 r)) ∧
        ∀ m1 m2 m3 : ℕ → SCell → ℝ, (∀ r < nranks, PostExec job' un' 2 (qs r) (m0 r) (m1 r) (m2 r) (m3 r)) →
          ∀ v < 4, printedNorm nranks m3 v = quadDist t p m start (quadRun t p m ph start st.scheme dt n) v := by
  obtain ⟨job', h1, h2, h3⟩ := C68_post_quad deck fs m t p ph start st dt T n h nranks part env hl un sched hsched ord hord
    job ranks hj hranks c k hx hdone f hf env' hl' un' fun _ _ _ _ => 0
  refine ⟨job', h1, h2, fun qs hqs m0 => ?_⟩
  obtain ⟨N, hN, hv⟩ := h3 qs hqs
  refine ⟨postExec_exists h1 hqs hN m0, fun m1 m2 m3 he v hv4 => ?_⟩
  rw [C79_printed deck fs un' 2 nranks job' h1 env' f qs hqs _ N hN m0 m1 m2 m3 he v hv4, hv v hv4]

/-- **C79** (whole workflow, hexahedra), as for quadrilaterals. -/
theorem C79_post_hex (deck : Deck) (fs : String → List String → Option (MeshFile ℝ)) (m : GMesh ℝ) (t : Fam) (p : ℕ)
    (ph : Physics) (start : (ℕ → ℝ) → ℕ → ℝ) (st : StepperType) (dt T : ℝ) (n : ℕ)
    (h : HexRunOK deck fs m t p ph start st dt T n)
    (nranks : ℕ) (part : List ℕ) (env : ℕ → RankEnv) (hl : LaunchOK m nranks part env)
    (hcut : CutFlat m part) (un : Unset)
    (sched : ℕ → ℕ → List (FluxWrite ℝ) → List (FluxWrite ℝ)) (hsched : ∀ r k l, (sched r k l).Perm l)
    (ord : ℕ → List ℕ) (hord : ∀ i, (ord i).Perm (List.range nranks)) (job : Job) (ranks : ℕ → RankReady)
    (hj : readJob deck fs un 3 nranks = some job)
    (hranks : ∀ r < nranks, readyRank job un 3 nranks (env r) r = some (ranks r))
    (c : LoopConf) (k : ℕ) (hx : Proto.Exec (jobProg job ranks nranks sched) (jobInit job ranks) c k)
    (hdone : LoopDone job nranks c) (f : SolFile ℝ) (hf : jobFile job ranks 3 nranks ord c = some f)
    (env' : ℕ → RankEnv) (hl' : LaunchOK m nranks part env') (un' : Unset) :
    ∃ job', readPost deck fs un' 3 nranks = some job' ∧
      (∀ r < nranks, postRank job' 3 nranks (env' r) f r ≠ none) ∧
      ∀ qs : ℕ → PostRank, (∀ r < nranks, postRank job' 3 nranks (env' r) f r = some (qs r)) →
        ∀ m0 : ℕ → SCell → ℝ,
        (∃ m1 m2 m3 : ℕ → SCell → ℝ, ∀ r < nranks, PostExec job' un' 3 (qs r) (m0 r) (m1 r) (m2 r) (m3 r)) ∧
        ∀ m1 m2 m3 : ℕ → SCell → ℝ, (∀ r < nranks, PostExec job' un' 3 (qs r) (m0 r) (m1 r) (m2 r) (m3 r)) →
          ∀ v < 5, printedNorm nranks m3 v = hexDist t p m start (hexRun t p m ph start st.scheme dt n) v := by
  obtain ⟨job', h1, h2, h3⟩ := C68_post_hex deck fs m t p ph start st dt T n h nranks part env hl hcut un sched hsched ord hord
    job ranks hj hranks c k hx hdone f hf env' hl' un' fun _ _ _ _ => 0
  refine ⟨job', h1, h2, fun qs hqs m0 => ?_⟩
  obtain ⟨N, hN, hv⟩ := h3 qs hqs
  refine ⟨postExec_exists h1 hqs hN m0, fun m1 m2 m3 he v hv5 => ?_⟩
  rw [C79_printed deck fs un' 3 nranks job' h1 env' f qs hqs _ N hN m0 m1 m2 m3 he v hv5, hv v hv5]

end DG.Dev
