import Verif.Lemmas.SetupInit
import Verif.Props.SetupExample

/-!
Property C75: the kernels of the setup, run by teams of any number of threads under every interleaving of
their single loads and stores.
-/
namespace DG.Dev
open Kernel

variable {K : Type} [Zero K] [One K] [Add K] [Sub K] [Mul K] [Neg K] [Div K] [NatCast K] [DecidableEq K]
  [DecLit K] {nt : ℕ}

/-- the Jacobian the kernels leave is the one of the sequential description -/
theorem jacOf_eq (dim nn : ℕ) (X g : ℕ → ℕ → K) : jacOf dim nn X g = cATxB_to_C 1 dim dim nn X g fun _ _ => 0 := by
  funext i j
  simp only [jacOf, cATxB_to_C, gemm, if_true]

theorem setupDjac_eq (dim nn : ℕ) (ref : RefData K) (X : ℕ → ℕ → K) (q : ℕ) :
    setupDjac dim nn ref X q = detTo dim (jacOf dim nn X (ref.ggrad q)) 0 := by
  rw [jacOf_eq]; rfl

theorem setupIjac_eq (dim nn : ℕ) (ref : RefData K) (X : ℕ → ℕ → K) (q : ℕ) :
    setupIjac dim nn ref X q = invA dim (jacOf dim nn X (ref.ggrad q)) fun _ _ => 0 := by
  rw [jacOf_eq]; rfl

omit [DecidableEq K] [DecLit K] in
theorem finalMem_at {ne : ℕ} {M : Fin ne → ℕ → SCell → K} {n : ℕ} {m : SCell → K} {v : SView} {e i j k : ℕ}
    (he : e < ne) : finalMem M n m ⟨v, e, i, j, k⟩ = M ⟨e, he⟩ n ⟨v, e, i, j, k⟩ := by
  simp [finalMem, he]

theorem numBasis_le_nodes {s : ShapeType} {g n : ℕ} (h : shapeNumBasis s g = some n) : n ≤ shapeNodes s g := by
  cases s <;> simp [shapeNumBasis] at h <;> subst h <;>
    simp [shapeNodes, numBasisSeg, numBasisQuad, numBasisHex, nodesPerElemQuad, nodesPerElemHex, pow_succ]

/-- **C75** (inverse mass matrices).  On every rank whose setup succeeds, started with the freshly allocated
(zero) view of the inverse mass matrices, any scratch memory, any number of threads per team and any
distribution of the loops over the threads: no thread reads a cell another one is about to write, threads about
to write the same cell are of the same team and write the same number, every execution ends, and it ends with the inverse
mass matrices of the sequential description, everything outside of the memory of the elements unchanged. -/
theorem C75_inverse_mass (t gt : BasisType) (p gorder rank : ℕ) (rm : RankMesh K) (scr MM0 : ℕ → ℕ → ℕ → K)
    (g : Geom K) (hgeom : buildGeom t gt p gorder rank rm scr MM0 = some g) (hnt : 0 < nt) (D : ℕ → ℕ → Fin nt)
    (m : SCell → K) (hm : ∀ e < rm.numElemsPart, ∀ i j, m ⟨.iMM, e, i, j, 0⟩ = 0) :
    ∃ k sh nb, massLaunch D t gt p gorder rm = some k ∧ basisShape t = some sh ∧ shapeNumBasis sh.1 p = some nb ∧
    ∃ m', k.Settles m m' ∧
      (∀ e < rm.numElemsPart, ∀ i < nb, ∀ j < nb, m' ⟨.iMM, e, i, j, 0⟩ = g.iMM e i j) ∧
      ∀ c : SCell, rm.numElemsPart ≤ c.e → m' c = m c := by
  unfold buildGeom at hgeom
  simp only [Option.bind_eq_bind] at hgeom
  obtain ⟨sh, hsh, hgeom⟩ := Option.bind_eq_some_iff.1 hgeom
  obtain ⟨nb, hnb, hgeom⟩ := Option.bind_eq_some_iff.1 hgeom
  obtain ⟨mass, hmass, hgeom⟩ := Option.bind_eq_some_iff.1 hgeom
  obtain ⟨vol, hvol, hgeom⟩ := Option.bind_eq_some_iff.1 hgeom
  obtain ⟨fr, hfr, hgeom⟩ := Option.bind_eq_some_iff.1 hgeom
  obtain ⟨normals, hnorm, hgeom⟩ := Option.bind_eq_some_iff.1 hgeom
  refine ⟨massKernel D rm.numElemsPart (shapeDim sh.1) (shapeNodes sh.1 gorder) mass.nq nb mass.wts mass.val
    mass.ggrad (elemCoords rm), sh, nb, ?_, hsh, hnb, _, mass_settles hnt m, ?_, ?_⟩
  · unfold massLaunch
    simp only [Option.bind_eq_bind, hsh, hnb, hmass, Option.bind_some]
  · intro e he i hi j hj
    rw [finalMem_at he]
    have h1 : g.iMM e i j = invMass mass.nq nb mass.wts (setupDjac (shapeDim sh.1) (shapeNodes sh.1 gorder) mass
        (elemCoords rm e)) mass.val (scr e) (MM0 e) (fun _ _ => 0) i j := by
      rw [← Option.some.inj hgeom]
    rw [h1, massMem_iMM (B0 := fun _ _ => 0) (fun i _ j _ => hm e he i j) (scr e) (MM0 e) hi hj]
    simp only [← setupDjac_eq]
  · intro c hc
    simp only [finalMem]
    rw [dif_neg (by omega)]

/-- **C75** (volume data, bit by bit).  The same for the kernel that computes the points, Jacobian determinants,
inverse Jacobians and volumes of the elements; the inverse mass matrices stay.  The volume is the sum of the
partial sums of the threads. -/
theorem C75_volume_data_bits (t gt : BasisType) (p gorder rank : ℕ) (rm : RankMesh K) (scr MM0 : ℕ → ℕ → ℕ → K)
    (g : Geom K) (hgeom : buildGeom t gt p gorder rank rm scr MM0 = some g) (hgt : basisShape gt = basisShape t)
    (hnt : 0 < nt) (D : ℕ → ℕ → Fin nt) (m : SCell → K) :
    ∃ k sh gnb ref, volumeLaunch D t gt p gorder rm = some k ∧ basisShape t = some sh ∧
      shapeNumBasis sh.1 gorder = some gnb ∧ volRef t gt p gorder p = some ref ∧
    ∃ m', k.Settles m m' ∧
      (∀ e < rm.numElemsPart, ∀ q < ref.nq,
        m' ⟨.djac, e, q, 0, 0⟩ = g.djac e q ∧
        (∀ i < shapeDim sh.1, ∀ j < shapeDim sh.1, m' ⟨.ijac, e, q, i, j⟩ = g.ijac e q i j) ∧
        ∀ i < shapeDim sh.1, m' ⟨.x, e, q, i, 0⟩ = refToPhys (shapeDim sh.1) gnb (ref.gval q) (elemCoords rm e) i) ∧
      (∀ e < rm.numElemsPart, m' ⟨.vol, e, 0, 0, 0⟩ =
        loopSum nt fun l => pickSum ref.nq (fun iq => (D 1 iq).1 = l) fun iq => ref.wts iq * g.djac e iq) ∧
      (∀ e i j, m' ⟨.iMM, e, i, j, 0⟩ = m ⟨.iMM, e, i, j, 0⟩) ∧
      ∀ c : SCell, rm.numElemsPart ≤ c.e → m' c = m c := by
  unfold buildGeom at hgeom
  simp only [Option.bind_eq_bind] at hgeom
  obtain ⟨sh, hsh, hgeom⟩ := Option.bind_eq_some_iff.1 hgeom
  obtain ⟨nb, hnb, hgeom⟩ := Option.bind_eq_some_iff.1 hgeom
  obtain ⟨mass, hmass, hgeom⟩ := Option.bind_eq_some_iff.1 hgeom
  obtain ⟨vol, hvol, hgeom⟩ := Option.bind_eq_some_iff.1 hgeom
  obtain ⟨fr, hfr, hgeom⟩ := Option.bind_eq_some_iff.1 hgeom
  obtain ⟨normals, hnorm, hgeom⟩ := Option.bind_eq_some_iff.1 hgeom
  obtain ⟨gnb, hgnb⟩ : ∃ gnb, shapeNumBasis sh.1 gorder = some gnb := by
    generalize sh.1 = s at hnb ⊢
    cases s <;> simp [shapeNumBasis] at hnb ⊢
  have hdj : ∀ e q, g.djac e q = detTo (shapeDim sh.1) (jacOf (shapeDim sh.1) (shapeNodes sh.1 gorder)
      (elemCoords rm e) (vol.ggrad q)) 0 := fun e q => by
    rw [← setupDjac_eq, ← Option.some.inj hgeom]
  have hij : ∀ e q, g.ijac e q = invA (shapeDim sh.1) (jacOf (shapeDim sh.1) (shapeNodes sh.1 gorder)
      (elemCoords rm e) (vol.ggrad q)) fun _ _ => 0 := fun e q => by
    rw [← setupIjac_eq, ← Option.some.inj hgeom]
  refine ⟨volumeKernel D rm.numElemsPart (shapeDim sh.1) (shapeNodes sh.1 gorder) gnb vol.nq vol.wts
    (fun q => get0 (vol.gval q)) vol.ggrad (elemCoords rm), sh, gnb, vol, ?_, hsh, hgnb, hvol, _,
    vol_settles hnt (numBasis_le_nodes hgnb) m, ?_, ?_, ?_, ?_⟩
  · unfold volumeLaunch
    simp only [Option.bind_eq_bind, hgt, hsh, hgnb, hvol, Option.bind_some]
  · intro e he q hq
    refine ⟨?_, fun i hi j hj => ?_, fun i hi => ?_⟩
    · rw [finalMem_at he, volMem_djac hq 4 (by omega) (by omega), hdj]
    · rw [finalMem_at he, volMem_ijac hq hi hj, hij]
    · rw [finalMem_at he, volMem_x hq hi]
      simp only [refToPhys, cAxB_to_C, gemm, hi, Nat.zero_lt_one, and_self, if_true, Nat.lt_one_iff]
  · intro e he
    rw [finalMem_at he, volMem_slots]
    simp only [hdj]
  · intro e i j
    by_cases he : e < rm.numElemsPart
    · rw [finalMem_at he, volMem_iMM rfl]
    · simp [finalMem, he]
  · intro c hc
    simp only [finalMem]
    rw [dif_neg (by omega)]

theorem pickSum_total {F : Type} [Field F] {nq : ℕ} {d : ℕ → Fin nt} {w djac : ℕ → F} :
    (loopSum nt fun l => pickSum nq (fun iq => (d iq).1 = l) fun iq => w iq * djac iq) = elementVolume nq w djac := by
  rw [elementVolume, loopSum_eq, loopSum_eq]
  simp only [pickSum_sum]
  rw [Finset.sum_comm]
  refine Finset.sum_congr rfl fun iq _ => ?_
  rw [Finset.sum_ite_eq, if_pos (Finset.mem_range.2 (d iq).2)]

/-- **C75** (volume data).  The same for the kernel that computes the points, Jacobian determinants, inverse
Jacobians and volumes of the elements; the inverse mass matrices stay. -/
theorem C75_volume_data {K : Type} [Field K] [DecidableEq K] (t gt : BasisType) (p gorder rank : ℕ) (rm : RankMesh K) (scr MM0 : ℕ → ℕ → ℕ → K)
    (g : Geom K) (hgeom : buildGeom t gt p gorder rank rm scr MM0 = some g) (hgt : basisShape gt = basisShape t)
    (hnt : 0 < nt) (D : ℕ → ℕ → Fin nt) (m : SCell → K) :
    ∃ k sh gnb ref, volumeLaunch D t gt p gorder rm = some k ∧ basisShape t = some sh ∧
      shapeNumBasis sh.1 gorder = some gnb ∧ volRef t gt p gorder p = some ref ∧
    ∃ m', k.Settles m m' ∧
      (∀ e < rm.numElemsPart, ∀ q < ref.nq,
        m' ⟨.djac, e, q, 0, 0⟩ = g.djac e q ∧
        (∀ i < shapeDim sh.1, ∀ j < shapeDim sh.1, m' ⟨.ijac, e, q, i, j⟩ = g.ijac e q i j) ∧
        ∀ i < shapeDim sh.1, m' ⟨.x, e, q, i, 0⟩ = refToPhys (shapeDim sh.1) gnb (ref.gval q) (elemCoords rm e) i) ∧
      (∀ e < rm.numElemsPart, m' ⟨.vol, e, 0, 0, 0⟩ = elementVolume ref.nq ref.wts (g.djac e)) ∧
      (∀ e i j, m' ⟨.iMM, e, i, j, 0⟩ = m ⟨.iMM, e, i, j, 0⟩) ∧
      ∀ c : SCell, rm.numElemsPart ≤ c.e → m' c = m c := by
  obtain ⟨k, sh, gnb, ref, h1, h2, h3, h4, m', h5, h6, h7, h8, h9⟩ :=
    C75_volume_data_bits t gt p gorder rank rm scr MM0 g hgeom hgt hnt D m
  exact ⟨k, sh, gnb, ref, h1, h2, h3, h4, m', h5, h6, fun e he => (h7 e he).trans pickSum_total, h8, h9⟩

/-- **C75** (initial state).  The kernel of the initial condition has no data race, and leaves the
coefficients of the sequential description, computed with the inverse mass matrices in memory; what the two
other kernels computed stays. -/
theorem C75_initial_state (t gt : BasisType) (p gorder ns : ℕ) (rm : RankMesh K) (iMM : ℕ → ℕ → ℕ → K)
    (ic : (ℕ → K) → ℕ → K) (rhs0 U0 : ℕ → ℕ → ℕ → K) (u : ℕ → ℕ → ℕ → K)
    (hu : initState t gt p gorder ns rm iMM ic rhs0 U0 = some u) (hgt : basisShape gt = basisShape t)
    (hnt : 0 < nt) (D : ℕ → ℕ → Fin nt) :
    ∃ k sh nb, initLaunch D t gt p gorder ns ic rm = some k ∧ basisShape t = some sh ∧
      shapeNumBasis sh.1 p = some nb ∧
    ∀ m : SCell → K, (∀ e < rm.numElemsPart, ∀ i < nb, ∀ j < nb, m ⟨.iMM, e, i, j, 0⟩ = iMM e i j) →
    ∃ m', k.Computes m m' ∧
      (∀ e < rm.numElemsPart, ∀ b < nb, ∀ s < ns, m' ⟨.Uc, e, b, s, 0⟩ = u e b s) ∧
      (∀ v e i j k, v = .iMM ∨ v = .djac ∨ v = .ijac ∨ v = .x ∨ v = .vol →
        m' ⟨v, e, i, j, k⟩ = m ⟨v, e, i, j, k⟩) ∧
      ∀ c : SCell, rm.numElemsPart ≤ c.e → m' c = m c := by
  unfold initState at hu
  simp only [Option.bind_eq_bind] at hu
  obtain ⟨sh, hsh, hu⟩ := Option.bind_eq_some_iff.1 hu
  obtain ⟨gsh, hgsh, hu⟩ := Option.bind_eq_some_iff.1 hu
  obtain ⟨nb, hnb, hu⟩ := Option.bind_eq_some_iff.1 hu
  obtain ⟨gnb, hgnb, hu⟩ := Option.bind_eq_some_iff.1 hu
  obtain ⟨ref, href, hu⟩ := Option.bind_eq_some_iff.1 hu
  have hsg : gsh = sh := by rw [hgt, hsh] at hgsh; exact (Option.some.inj hgsh).symm
  subst hsg
  refine ⟨initKernel D rm.numElemsPart (shapeDim gsh.1) (shapeNodes gsh.1 gorder) gnb ref.nq nb ns ref.wts ref.val
    (fun q => get0 (ref.gval q)) ref.ggrad ic (elemCoords rm), gsh, nb, ?_, hsh, hnb, fun m hm => ⟨_,
    init_computes hnt (numBasis_le_nodes hgnb) m, ?_, ?_, ?_⟩⟩
  · unfold initLaunch
    simp only [Option.bind_eq_bind, hgt, hsh, hnb, hgnb, href, Option.bind_some]
  · intro e he b hb s hs
    rw [finalMem_at he, initMem_Uc (hm e he) (rhs0 e) (U0 e) hb hs]
    have h1 : u e b s = l2Projection ref.nq nb ns (iMM e) ref.val (setupDjac (shapeDim gsh.1)
        (shapeNodes gsh.1 gorder) ref (elemCoords rm e)) ref.wts (fun q => ic (cArr (shapeDim gsh.1)
        (refToPhys (shapeDim gsh.1) gnb (ref.gval q) (elemCoords rm e)))) (rhs0 e) (U0 e) b s := by
      rw [← Option.some.inj hu]
    rw [h1]
    have h2 : ∀ q, cArr (shapeDim gsh.1) (refToPhys (shapeDim gsh.1) gnb (ref.gval q) (elemCoords rm e)) =
        cArr (shapeDim gsh.1) fun d => 0 + loopSum gnb fun p => (1 * get0 (ref.gval q) p) * elemCoords rm e p d := by
      intro q
      funext d
      unfold cArr
      split
      · next hd => simp only [refToPhys, cAxB_to_C, gemm, hd, Nat.zero_lt_one, and_self, if_true]
      · rfl
    simp only [h2, ← setupDjac_eq]
  · intro v e i j k hv
    by_cases he : e < rm.numElemsPart
    · rw [finalMem_at he, initMem_kept (by rcases hv with rfl | rfl | rfl | rfl | rfl <;> rfl)]
    · simp [finalMem, he]
  · intro c hc
    simp only [finalMem]
    rw [dif_neg (by omega)]

omit [DecidableEq K] [DecLit K] in
theorem Kernel.Settles.of_ends {T J : Type} [DecidableEq T] [DecidableEq J] {k : Kernel SCell K T J} {m m' m'' : SCell → K}
    (h : k.Settles m m') (he : k.Ends m m'') : m'' = m' := by
  obtain ⟨n, c, h1, h2, rfl⟩ := he
  exact h.result n c h1 h2

/-- **C75** (the setup of a rank, bit by bit).  Three kernels in a row, each with its own number of threads and its own
schedule: the first starts from zeroed inverse mass matrices; between the first and the second the other views
are resized, between the second and the third anything but their results may change.  Whatever the
interleavings: at the end the memory holds the geometry and the initial coefficients of the sequential
description. -/
theorem C75_setup_bits (t gt : BasisType) (p gorder ns rank : ℕ) (rm : RankMesh K) (scr MM0 rhs0 U0 : ℕ → ℕ → ℕ → K)
    (ic : (ℕ → K) → ℕ → K) (g : Geom K) (u : ℕ → ℕ → ℕ → K)
    (hgeom : buildGeom t gt p gorder rank rm scr MM0 = some g)
    (hu : initState t gt p gorder ns rm g.iMM ic rhs0 U0 = some u) (hgt : basisShape gt = basisShape t)
    {n1 n2 n3 : ℕ} (h1 : 0 < n1) (h2 : 0 < n2) (h3 : 0 < n3)
    (D1 : ℕ → ℕ → Fin n1) (D2 : ℕ → ℕ → Fin n2) (D3 : ℕ → ℕ → Fin n3)
    (k1 : Kernel SCell K (Fin rm.numElemsPart) (Fin n1)) (hk1 : massLaunch D1 t gt p gorder rm = some k1)
    (k2 : Kernel SCell K (Fin rm.numElemsPart) (Fin n2)) (hk2 : volumeLaunch D2 t gt p gorder rm = some k2)
    (k3 : Kernel SCell K (Fin rm.numElemsPart) (Fin n3)) (hk3 : initLaunch D3 t gt p gorder ns ic rm = some k3)
    (m0 m1 m1' m2 m2' m3 : SCell → K) (hm0 : ∀ e < rm.numElemsPart, ∀ i j, m0 ⟨.iMM, e, i, j, 0⟩ = 0)
    (hr1 : k1.Ends m0 m1) (hm1 : ∀ e i j, m1' ⟨.iMM, e, i, j, 0⟩ = m1 ⟨.iMM, e, i, j, 0⟩)
    (hr2 : k2.Ends m1' m2)
    (hm2 : ∀ v e i j k, v = .iMM ∨ v = .djac ∨ v = .ijac ∨ v = .x ∨ v = .vol →
      m2' ⟨v, e, i, j, k⟩ = m2 ⟨v, e, i, j, k⟩)
    (hr3 : k3.Ends m2' m3) :
    ∃ sh nb ref, basisShape t = some sh ∧ shapeNumBasis sh.1 p = some nb ∧ volRef t gt p gorder p = some ref ∧
    ∀ e < rm.numElemsPart,
      (∀ i < nb, ∀ j < nb, m3 ⟨.iMM, e, i, j, 0⟩ = g.iMM e i j) ∧
      (∀ q < ref.nq, m3 ⟨.djac, e, q, 0, 0⟩ = g.djac e q ∧
        ∀ i < shapeDim sh.1, ∀ j < shapeDim sh.1, m3 ⟨.ijac, e, q, i, j⟩ = g.ijac e q i j) ∧
      (m3 ⟨.vol, e, 0, 0, 0⟩ = loopSum n2 fun l => pickSum ref.nq (fun iq => (D2 1 iq).1 = l) fun iq =>
        ref.wts iq * g.djac e iq) ∧
      ∀ b < nb, ∀ s < ns, m3 ⟨.Uc, e, b, s, 0⟩ = u e b s := by
  obtain ⟨k1', sh, nb, e1, hsh, hnb, m1'', s1, r1, -⟩ :=
    C75_inverse_mass t gt p gorder rank rm scr MM0 g hgeom h1 D1 m0 hm0
  obtain ⟨k2', sh', gnb, ref, e2, hsh', -, href, m2'', s2, r2, v2, i2, -⟩ :=
    C75_volume_data_bits t gt p gorder rank rm scr MM0 g hgeom hgt h2 D2 m1'
  obtain ⟨k3', sh'', nb', e3, hsh'', hnb', f3⟩ := C75_initial_state t gt p gorder ns rm g.iMM ic rhs0 U0 u hu hgt h3 D3
  rw [hsh] at hsh' hsh''
  obtain rfl := Option.some.inj hsh'
  obtain rfl := Option.some.inj hsh''
  rw [hnb] at hnb'
  obtain rfl := Option.some.inj hnb'
  rw [hk1] at e1; obtain rfl := Option.some.inj e1
  rw [hk2] at e2; obtain rfl := Option.some.inj e2
  rw [hk3] at e3; obtain rfl := Option.some.inj e3
  obtain rfl := s1.of_ends hr1
  obtain rfl := s2.of_ends hr2
  have hiMM : ∀ e < rm.numElemsPart, ∀ i < nb, ∀ j < nb, m2' ⟨.iMM, e, i, j, 0⟩ = g.iMM e i j := by
    intro e he i hi j hj
    rw [hm2 _ _ _ _ _ (Or.inl rfl), i2, hm1, r1 e he i hi j hj]
  obtain ⟨m3', c3, u3, k3, -⟩ := f3 m2' hiMM
  obtain ⟨n, c, q1, q2, rfl⟩ := hr3
  obtain rfl : c.mem = m3' := c3.result n c q1 q2
  refine ⟨sh, nb, ref, hsh, hnb, href, fun e he => ⟨fun i hi j hj => ?_, fun q hq => ⟨?_, fun i hi j hj => ?_⟩, ?_,
    u3 e he⟩⟩
  · rw [k3 _ _ _ _ _ (Or.inl rfl), hiMM e he i hi j hj]
  · rw [k3 _ _ _ _ _ (Or.inr (Or.inl rfl)), hm2 _ _ _ _ _ (Or.inr (Or.inl rfl)), (r2 e he q hq).1]
  · rw [k3 _ _ _ _ _ (Or.inr (Or.inr (Or.inl rfl))), hm2 _ _ _ _ _ (Or.inr (Or.inr (Or.inl rfl))),
      (r2 e he q hq).2.1 i hi j hj]
  · rw [k3 _ _ _ _ _ (by simp), hm2 _ _ _ _ _ (by simp), v2 e he]

/-- **C75** (the setup of a rank).  Three kernels in a row, each with its own number of threads and its own
schedule: the first starts from zeroed inverse mass matrices; between the first and the second the other views
are resized, between the second and the third anything but their results may change.  Whatever the
interleavings: at the end the memory holds the geometry and the initial coefficients of the sequential
description. -/
theorem C75_setup {K : Type} [Field K] [DecidableEq K] (t gt : BasisType) (p gorder ns rank : ℕ) (rm : RankMesh K) (scr MM0 rhs0 U0 : ℕ → ℕ → ℕ → K)
    (ic : (ℕ → K) → ℕ → K) (g : Geom K) (u : ℕ → ℕ → ℕ → K)
    (hgeom : buildGeom t gt p gorder rank rm scr MM0 = some g)
    (hu : initState t gt p gorder ns rm g.iMM ic rhs0 U0 = some u) (hgt : basisShape gt = basisShape t)
    {n1 n2 n3 : ℕ} (h1 : 0 < n1) (h2 : 0 < n2) (h3 : 0 < n3)
    (D1 : ℕ → ℕ → Fin n1) (D2 : ℕ → ℕ → Fin n2) (D3 : ℕ → ℕ → Fin n3)
    (k1 : Kernel SCell K (Fin rm.numElemsPart) (Fin n1)) (hk1 : massLaunch D1 t gt p gorder rm = some k1)
    (k2 : Kernel SCell K (Fin rm.numElemsPart) (Fin n2)) (hk2 : volumeLaunch D2 t gt p gorder rm = some k2)
    (k3 : Kernel SCell K (Fin rm.numElemsPart) (Fin n3)) (hk3 : initLaunch D3 t gt p gorder ns ic rm = some k3)
    (m0 m1 m1' m2 m2' m3 : SCell → K) (hm0 : ∀ e < rm.numElemsPart, ∀ i j, m0 ⟨.iMM, e, i, j, 0⟩ = 0)
    (hr1 : k1.Ends m0 m1) (hm1 : ∀ e i j, m1' ⟨.iMM, e, i, j, 0⟩ = m1 ⟨.iMM, e, i, j, 0⟩)
    (hr2 : k2.Ends m1' m2)
    (hm2 : ∀ v e i j k, v = .iMM ∨ v = .djac ∨ v = .ijac ∨ v = .x ∨ v = .vol →
      m2' ⟨v, e, i, j, k⟩ = m2 ⟨v, e, i, j, k⟩)
    (hr3 : k3.Ends m2' m3) :
    ∃ sh nb ref, basisShape t = some sh ∧ shapeNumBasis sh.1 p = some nb ∧ volRef t gt p gorder p = some ref ∧
    ∀ e < rm.numElemsPart,
      (∀ i < nb, ∀ j < nb, m3 ⟨.iMM, e, i, j, 0⟩ = g.iMM e i j) ∧
      (∀ q < ref.nq, m3 ⟨.djac, e, q, 0, 0⟩ = g.djac e q ∧
        ∀ i < shapeDim sh.1, ∀ j < shapeDim sh.1, m3 ⟨.ijac, e, q, i, j⟩ = g.ijac e q i j) ∧
      m3 ⟨.vol, e, 0, 0, 0⟩ = elementVolume ref.nq ref.wts (g.djac e) ∧
      ∀ b < nb, ∀ s < ns, m3 ⟨.Uc, e, b, s, 0⟩ = u e b s := by
  obtain ⟨sh, nb, ref, a1, a2, a3, a4⟩ := C75_setup_bits t gt p gorder ns rank rm scr MM0 rhs0 U0 ic g u hgeom hu hgt
    h1 h2 h3 D1 D2 D3 k1 hk1 k2 hk2 k3 hk3 m0 m1 m1' m2 m2' m3 hm0 hr1 hm1 hr2 hm2 hr3
  refine ⟨sh, nb, ref, a1, a2, a3, fun e he => ?_⟩
  obtain ⟨b1, b2, b3, b4⟩ := a4 e he
  exact ⟨b1, b2, b3.trans pickSum_total, b4⟩

/-- C75 on two elements of a rank of the example, order 1 (four basis functions, so that the matrices are
inverted by factorisation), teams of 32 threads: the three kernels can be run to the end, and any run ends with
the geometry and the coefficients of the setup. -/
example : ∃ (rms : ℕ → RankMesh ℝ) (d : Disc ℝ) (g : ℕ → Geom ℝ) (u : ℕ → Coeffs ℝ),
    World perMesh 2 perPart rms ∧ RanksReady .lagrange 1 4 (solverVolFlux 2 perGas fun _ _ => 0)
      (solverNumFlux 2 perGas fun _ _ _ => (fun _ => 0, fun _ => 0)) (solverIC 2 perGas fun _ _ => 0) 2 rms d g u ∧
    ∃ k1 k2 k3 m1 m2 m3,
      massLaunch (fun _ i => (⟨i % 32, by omega⟩ : Fin 32)) .LagrangeQuad .LagrangeQuad 1 1 (rms 0) = some k1 ∧
      volumeLaunch (fun _ i => (⟨i % 32, by omega⟩ : Fin 32)) .LagrangeQuad .LagrangeQuad 1 1 (rms 0) = some k2 ∧
      initLaunch (fun _ i => (⟨i % 32, by omega⟩ : Fin 32)) .LagrangeQuad .LagrangeQuad 1 1 4
        (solverIC 2 perGas fun _ _ => 0) (rms 0) = some k3 ∧
      k1.Ends (fun _ => 0) m1 ∧ k2.Ends m1 m2 ∧ k3.Ends m2 m3 ∧
      ∀ e < (rms 0).numElemsPart, ∀ b < 4, ∀ s < 4, m3 ⟨.Uc, e, b, s, 0⟩ = u 0 e b s := by
  obtain ⟨rms, d, g, u, w, hr, -⟩ := perExample .lagrange 1 ⟨by omega, trivial⟩ .FE 1 0
  refine ⟨rms, d, g, u, w, hr, ?_⟩
  obtain ⟨scr, MM0, hg⟩ := hr.geom 0 (by omega)
  obtain ⟨rhs0, Uin, hu⟩ := hr.init 0 (by omega)
  have ends : ∀ {T J : Type} [DecidableEq T] [DecidableEq J] {k : Kernel SCell ℝ T J} {m : SCell → ℝ} {N : ℕ},
      (∀ n c, k.Steps n (k.init m) c → n ≤ N ∧ ∃ n' c', k.Steps n' c c' ∧ k.Done c') → ∃ m', k.Ends m m' := by
    intro T J _ _ k m N h
    obtain ⟨n', c', h1, h2⟩ := (h 0 _ (.refl _)).2
    exact ⟨_, n', c', h1, h2, rfl⟩
  obtain ⟨k1, sh, nb, e1, -, -, _, s1, -⟩ := C75_inverse_mass (nt := 32) .LagrangeQuad .LagrangeQuad 1 1 0 (rms 0) scr
    MM0 (g 0) hg (by omega) (fun _ i => ⟨i % 32, by omega⟩) (fun _ => 0) (fun _ _ _ _ => rfl)
  obtain ⟨m1, r1⟩ := ends s1.ends.choose_spec
  obtain ⟨k2, sh, gnb, ref, e2, -, -, -, _, s2, -⟩ := C75_volume_data (nt := 32) .LagrangeQuad .LagrangeQuad 1 1 0 (rms 0)
    scr MM0 (g 0) hg rfl (by omega) (fun _ i => ⟨i % 32, by omega⟩) m1
  obtain ⟨m2, r2⟩ := ends s2.ends.choose_spec
  obtain ⟨k3, sh, nb3, e3, hsh3, hnb3, f3⟩ := C75_initial_state (nt := 32) .LagrangeQuad .LagrangeQuad 1 1 4 (rms 0)
    (g 0).iMM (solverIC 2 perGas fun _ _ => 0) rhs0 Uin (u 0) hu rfl (by omega) (fun _ i => ⟨i % 32, by omega⟩)
  have hm3 : ∃ m3, k3.Ends m2 m3 := by
    have e4 := e3
    unfold initLaunch at e4
    simp only [Option.bind_eq_bind] at e4
    obtain ⟨sh1, h1, e5⟩ := Option.bind_eq_some_iff.1 e4
    obtain ⟨gsh, h2, e6⟩ := Option.bind_eq_some_iff.1 e5
    obtain ⟨nb1, h3, e7⟩ := Option.bind_eq_some_iff.1 e6
    obtain ⟨gnb1, h4, e8⟩ := Option.bind_eq_some_iff.1 e7
    obtain ⟨ref1, h5, e9⟩ := Option.bind_eq_some_iff.1 e8
    obtain rfl : sh1 = gsh := Option.some.inj (h1.symm.trans h2)
    rw [← Option.some.inj e9]
    exact ends (init_computes (by omega) (numBasis_le_nodes h4) m2).ends.choose_spec
  obtain ⟨m3, r3⟩ := hm3
  refine ⟨k1, k2, k3, m1, m2, m3, e1, e2, e3, r1, r2, r3, ?_⟩
  obtain ⟨sh, nb, ref, h1, h2, -, h⟩ := C75_setup .LagrangeQuad .LagrangeQuad 1 1 4 0 (rms 0) scr MM0 rhs0 Uin
    (solverIC 2 perGas fun _ _ => 0) (g 0) (u 0) hg hu rfl (by omega) (by omega) (by omega) _ _ _ k1 e1 k2 e2 k3 e3
    (fun _ => 0) m1 m1 m2 m2 m3 (fun _ _ _ _ => rfl) r1 (fun _ _ _ => rfl) r2 (fun _ _ _ _ _ _ => rfl) r3
  obtain rfl := Option.some.inj h1
  obtain rfl := Option.some.inj h2
  exact fun e he => (h e he).2.2.2

omit [DecidableEq K] [DecLit K] in
theorem forN_first {f : ℕ → Code SCell K Unit} {x : SCell} {v : K} {r : Code SCell K Unit} (h : f 0 = .store x v r)
    (n : ℕ) : ∃ r', Code.forN (n + 1) f = .store x v r' := by
  induction n with
  | zero =>
    refine ⟨r, ?_⟩
    show f 0 = _
    exact h
  | succ n ih =>
    obtain ⟨r', hr⟩ := ih
    refine ⟨r'.bind fun _ => f (n + 1), ?_⟩
    show (Code.forN (n + 1) f).bind (fun _ => f (n + 1)) = _
    rw [hr]; rfl

omit [DecidableEq K] [DecLit K] in
/-- **C75** (finding).  With at least four basis functions and at least two threads per team the threads do race:
every thread of a team sets the diagonal of the inverse mass matrix to one (`Math::identity` is neither
distributed over the threads nor left to one of them).  An execution in which two threads are about to write the same
cell exists for every such launch; that the result is nevertheless always the same is `C75_inverse_mass`. -/
theorem C75_identity_race (D : ℕ → ℕ → Fin nt) (ne dim nn nq nb : ℕ) (w : ℕ → K) (val : ℕ → ℕ → K)
    (ggrad : ℕ → ℕ → ℕ → K) (X : ℕ → ℕ → ℕ → K) (m : SCell → K) (hnt : 1 < nt) (hne : 0 < ne) (hnb : 4 ≤ nb) :
    ∃ n c, (massKernel D ne dim nn nq nb w val ggrad X).Steps n ((massKernel D ne dim nn nq nb w val ggrad X).init m) c ∧
      (massKernel D ne dim nn nq nb w val ggrad X).Racing c := by
  obtain ⟨N, hN⟩ := (mass_settles (D := D) (ne := ne) (dim := dim) (nn := nn) (nq := nq) (nb := nb) (w := w)
    (val := val) (ggrad := ggrad) (X := X) (by omega) m).ends
  obtain ⟨n1, c1, hs1, hd1⟩ := (hN 0 _ (.refl _)).2
  obtain ⟨n, c, hs, hp, hc⟩ := reach_phase hs1 (⟨0, hne⟩ : Fin ne) (p := 6) (by
    rw [hd1]; show 6 ≤ 8; omega)
  obtain ⟨b, rfl⟩ : ∃ b, nb = b + 1 := ⟨nb - 1, by omega⟩
  have hcode : ∀ j, ∃ r, (massKernel D ne dim nn nq (b + 1) w val ggrad X).code ⟨0, hne⟩ 6 j =
      .store ⟨.iMM, 0, 0, 0, 0⟩ 1 r := by
    intro j
    obtain ⟨r, hr⟩ := forN_first (K := K) (f := fun b => Code.cond (0 = b) (Code.write ⟨.iMM, 0, 0, b, 0⟩ 1))
      (x := ⟨.iMM, 0, 0, 0, 0⟩) (v := 1) (r := .ret ()) rfl b
    obtain ⟨r', hr'⟩ := forN_first (K := K) (f := fun a => Code.forN (b + 1) fun b =>
      Code.cond (a = b) (Code.write ⟨.iMM, 0, a, b, 0⟩ 1)) (x := ⟨.iMM, 0, 0, 0, 0⟩) (v := 1) hr b
    refine ⟨r'.bind fun _ => rankZero j do
          let A ← loadMat (b + 1) (b + 1) fun a b => ⟨.MM, 0, a, b, 0⟩
          storeMat (b + 1) (b + 1) (fun a b => ⟨.MM, 0, a, b, 0⟩) (serialLU (b + 1) A), ?_⟩
    show (if b + 1 ≤ 3 then _ else _) = _
    rw [if_neg (by omega)]
    show (Code.forN (b + 1) fun a : ℕ => Code.forN (b + 1) fun b : ℕ =>
      Code.cond (a = b) (Code.write (⟨.iMM, 0, a, b, 0⟩ : SCell) (1 : K))).bind _ = _
    rw [hr']; rfl
  refine ⟨n, c, hs, ⟨0, hne⟩, ⟨0, by omega⟩, ⟨0, hne⟩, ⟨1, hnt⟩, ⟨.iMM, 0, 0, 0, 0⟩, by simp, ?_, Or.inl ?_⟩
  · obtain ⟨r, hr⟩ := hcode ⟨0, by omega⟩
    exact ⟨by rw [hp]; show 6 < 8; omega, 1, r, by rw [hc]; exact hr⟩
  · obtain ⟨r, hr⟩ := hcode ⟨1, hnt⟩
    exact ⟨by rw [hp]; show 6 < 8; omega, 1, r, by rw [hc]; exact hr⟩

end DG.Dev
