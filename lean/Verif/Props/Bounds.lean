import Verif.Lemmas.BoundsSetup
import Verif.Props.Device
import Verif.Props.SetupKernels

/-!
Property C76: kernels stay in the memory that was allocated for them.
-/
namespace DG.Dev
open Kernel

variable {K : Type} [Field K] {α : Type}
variable {m : GMesh α} {nranks : ℕ} {part : List ℕ} {rms : ℕ → RankMesh α}

/-! ### the time loop -/

theorem before_confined {d : Disc K} {g : Geom K} {rank norient : ℕ} {rm : RankMesh α}
    (hr : RowsOK d norient rm.numElemsPart rank rm.rows) (ho : OrderOK d norient)
    (hlen : rm.rows.length = rm.numIFacesPart) {mem m' : Cell → K}
    (h : beforeExchange Computes d g rank rm.numElemsPart rm.rows mem m') :
    beforeExchange (Confined d rm) d g rank rm.numElemsPart rm.rows mem m' := by
  obtain ⟨m1, h1, m2, h2, m3, h3, m4, h4, m5, h5, h6⟩ := h
  exact ⟨m1, ⟨h1, fill_in (Or.inr (Or.inl rfl)) _⟩, m2, ⟨h2, evalVol_in _⟩, m3, ⟨h3, volumeFlux_in _⟩,
    m4, ⟨h4, volumeIntegral_in⟩, m5, ⟨h5, evalFace_in _⟩, h6, faceState_in hr ho hlen⟩

theorem after_confined {d : Disc K} {g : Geom K} {rank norient : ℕ} {rm : RankMesh α}
    (hr : RowsOK d norient rm.numElemsPart rank rm.rows) (ho : OrderOK d norient)
    (hlen : rm.rows.length = rm.numIFacesPart) {mem m' : Cell → K}
    (h : afterExchange Computes d g rank rm.numElemsPart rm.rows mem m') :
    afterExchange (Confined d rm) d g rank rm.numElemsPart rm.rows mem m' := by
  obtain ⟨m1, h1, m2, h2, h3⟩ := h
  exact ⟨m1, ⟨h1, faceFlux_in _ hlen⟩, m2, ⟨h2, fluxState_in hr ho hlen⟩, h3, faceIntegral_in⟩

theorem pack_confined {d : Disc K} {rank : ℕ} {rm : RankMesh α} (ht : TablesOK rm)
    (hlen : rm.rows.length = rm.numIFacesPart) : ∀ {N : ℕ}, N ≤ rm.nbrs.length → ∀ {mem m' : Cell → K},
    packAll Computes d rm rank N mem m' → packAll (Confined d rm) d rm rank N mem m'
  | 0, _, _, _, h => h
  | N + 1, hN, _, _, h => by
    obtain ⟨m1, h1, h2⟩ := h
    exact ⟨m1, pack_confined ht hlen (by omega) h1, h2, pack_in ht hlen (by omega) rank⟩

theorem unpack_confined {d : Disc K} {rank : ℕ} {rm : RankMesh α} (ht : TablesOK rm)
    (hlen : rm.rows.length = rm.numIFacesPart) : ∀ {N : ℕ}, N ≤ rm.nbrs.length → ∀ {mem m' : Cell → K},
    unpackAll Computes d rm rank N mem m' → unpackAll (Confined d rm) d rm rank N mem m'
  | 0, _, _, _, h => h
  | N + 1, hN, _, _, h => by
    obtain ⟨m1, h1, h2⟩ := h
    exact ⟨m1, unpack_confined ht hlen (by omega) h1, h2, unpack_in ht hlen (by omega) rank⟩

theorem stage_confined {d : Disc K} {dt : K} {iMM : ℕ → ℕ → ℕ → K} {rm : RankMesh α} {st : Stepper} {stage : ℕ}
    {mem m' : Cell → K} (h : stageUpdate Computes d rm.numElemsPart dt iMM st stage mem m') :
    stageUpdate (Confined d rm) d rm.numElemsPart dt iMM st stage mem m' := by
  have cv : CoefView .Uc ∧ CoefView .Uhold ∧ CoefView .dU ∧ CoefView .dU1 ∧ CoefView .dU2 ∧ CoefView .dU3 ∧
      CoefView .dU4 := by simp [CoefView]
  obtain ⟨c1, c2, c3, c4, c5, c6, c7⟩ := cv
  cases st with
  | FE =>
    obtain ⟨m1, h1, h2⟩ := h
    exact ⟨m1, ⟨h1, invMass_in c3 _ _⟩, h2, axpy_in c3 c1 c1 _⟩
  | RK4 =>
    rcases stage with _ | _ | _ | k
    · obtain ⟨m1, h1, h2⟩ := h
      exact ⟨m1, ⟨h1, invMass_in c4 _ _⟩, h2, axpy_in c4 c2 c1 _⟩
    · obtain ⟨m1, h1, h2⟩ := h
      exact ⟨m1, ⟨h1, invMass_in c5 _ _⟩, h2, axpy_in c5 c2 c1 _⟩
    · obtain ⟨m1, h1, h2⟩ := h
      exact ⟨m1, ⟨h1, invMass_in c6 _ _⟩, h2, axpy_in c6 c2 c1 _⟩
    · obtain ⟨m1, h1, m2, h2, m3, h3, m4, h4, m5, h5, m6, h6, h7⟩ := h
      exact ⟨m1, ⟨h1, invMass_in c7 _ _⟩, m2, ⟨h2, axpy_in c6 c7 c7 _⟩, m3, ⟨h3, axpy_in c5 c7 c7 _⟩,
        m4, ⟨h4, axpy_in c4 c7 c7 _⟩, m5, ⟨h5, axpy_in c7 c2 c2 _⟩, m6, ⟨h6, copy_in c2 c1⟩, h7, copy_in c1 c2⟩

/-- **C76** (time loop).  The kernels a rank launches between two exchanges, on any memory contents: whatever the
interleaving of their threads, no load and no store is outside of the extents of its view. -/
theorem C76_time_loop (w : World m nranks part rms) (d : Disc K) (norient : ℕ) (hc : Conforming d norient m)
    (ho : OrderOK d norient) (g : Geom K) (dt : K) (st : Stepper) (r : ℕ) (hr : r < nranks) (stage : ℕ) (mem : Cell → K) :
    ∃ m', deviceRound (Confined d (rms r)) d g (rms r) r dt st stage mem m' := by
  obtain ⟨m5, m1, h1, m2, h2, m3, h3, m4, h4, h5⟩ := C69_kernels_race_free w d norient hc ho g dt st r hr stage mem
  exact ⟨m5, m1, unpack_confined (w.tables hr) (w.rowsLen hr) le_rfl h1, m2,
    after_confined (w.rowsOK hc hr) ho (w.rowsLen hr) h2, m3, stage_confined h3, m4,
    before_confined (w.rowsOK hc hr) ho (w.rowsLen hr) h4, pack_confined (w.tables hr) (w.rowsLen hr) le_rfl h5⟩

/-- **C76** (start).  The same for the kernels before the first exchange. -/
theorem C76_start (w : World m nranks part rms) (d : Disc K) (norient : ℕ) (hc : Conforming d norient m)
    (ho : OrderOK d norient) (g : Geom K) (st : Stepper) (r : ℕ) (hr : r < nranks) (mem : Cell → K) :
    ∃ m', deviceStart (Confined d (rms r)) d g (rms r) r st mem m' := by
  obtain ⟨m5, m1, h1, m4, h4, h5⟩ := C69_start_race_free d g (rms r) r st mem
  refine ⟨m5, m1, ?_, m4, before_confined (w.rowsOK hc hr) ho (w.rowsLen hr) h4,
    pack_confined (w.tables hr) (w.rowsLen hr) le_rfl h5⟩
  cases st with
  | FE => exact h1
  | RK4 => exact ⟨h1, copy_in (Or.inl rfl) (by simp [CoefView])⟩

/-- **C76** (tables of the exchange).  The tables the copy loops of an exchange index are long enough: there is a
list of ghost faces and a number of faces for each neighbour, the list is as long as that number, and each of its faces has
a record. -/
theorem C76_exchange_tables (w : World m nranks part rms) (r : ℕ) (hr : r < nranks) (n : ℕ)
    (hn : n < (rms r).nbrs.length) :
    ∃ gl, (rms r).ghosts[n]? = some gl ∧ (rms r).nFacesPerNbr[n]? = some gl.length ∧
      ∀ g ∈ gl, searchLocal g (rms r).l2gFace < (rms r).rows.length ∧ (rms r).rows.length = (rms r).numIFacesPart := by
  have ht := w.tables hr
  have h1 : n < (rms r).ghosts.length := by rw [ht.len]; exact hn
  refine ⟨_, List.getElem?_eq_getElem h1, ht.cnt n _ (List.getElem?_eq_getElem h1), fun g hg => ⟨?_, w.rowsLen hr⟩⟩
  rw [ht.rows]
  exact ht.local_lt (ht.mem _ (List.mem_flatten.2 ⟨_, List.getElem_mem h1, hg⟩))

/-- C76 on the two ranks of the example, two RK4 stages in a row -/
example (mem : Cell → ℚ) : ∃ m' m'', deviceStart (Confined exDisc (exRms 0)) exDisc (exGeomR 0) (exRms 0) 0 .RK4 mem m' ∧
    deviceRound (Confined exDisc (exRms 0)) exDisc (exGeomR 0) (exRms 0) 0 (1 / 10) .RK4 3 m' m'' := by
  obtain ⟨m', h⟩ := C76_start exWorld exDisc 2 exConforming exOrder (exGeomR 0) .RK4 0 (by omega) mem
  obtain ⟨m'', h'⟩ := C76_time_loop exWorld exDisc 2 exConforming exOrder (exGeomR 0) (1 / 10) .RK4 0 (by omega) 3 m'
  exact ⟨m', m'', h, h'⟩

/-! ### the setup -/

theorem rows_le_nodes {s : ShapeType} {g n : ℕ} (h : shapeNumBasis s g = some n) : n ≤ shapeNodes s g := by
  cases s <;> simp [shapeNumBasis] at h <;> subst h <;>
    simp [shapeNodes, numBasisSeg, numBasisQuad, numBasisHex, nodesPerElemQuad, nodesPerElemHex, pow_succ]

/-- **C76** (setup).  The kernels for inverse mass matrices, volume data and initial state stay in their views (and in
the part of the views that belongs to their element), for all numbers of threads and all schedules. -/
theorem C76_setup {nt : ℕ} (D : ℕ → ℕ → Fin nt) (t gt : BasisType) (p gorder ns : ℕ) (ic : (ℕ → K) → ℕ → K) (rm : RankMesh K)
    (hgt : basisShape gt = basisShape t) (sh : ShapeType × Option ShapeType) (hsh : basisShape t = some sh) (nb : ℕ)
    (hnb : shapeNumBasis sh.1 p = some nb) (mem : SCell → K) :
    (∀ k ref, massLaunch D t gt p gorder rm = some k → volRef (K := K) t gt p gorder (massRuleOrder p) = some ref →
      k.StaysIn (SInside rm.numElemsPart nt (shapeNodes sh.1 gorder) (shapeDim sh.1) ref.nq nb ns) mem) ∧
    (∀ k ref, volumeLaunch D t gt p gorder rm = some k → volRef (K := K) t gt p gorder p = some ref →
      k.StaysIn (SInside rm.numElemsPart nt (shapeNodes sh.1 gorder) (shapeDim sh.1) ref.nq nb ns) mem) ∧
    (∀ k ref, initLaunch D t gt p gorder ns ic rm = some k → volRef (K := K) t gt p gorder (projRuleOrder p) = some ref →
      k.StaysIn (SInside rm.numElemsPart nt (shapeNodes sh.1 gorder) (shapeDim sh.1) ref.nq nb ns) mem) := by
  refine ⟨fun k ref h hr => ?_, fun k ref h hr => ?_, fun k ref h hr => ?_⟩
  · unfold massLaunch at h
    simp only [Option.bind_eq_bind, hsh, hnb, hr, Option.bind_some] at h
    obtain rfl := Option.some.inj h
    exact mass_in _ _ _ _ _ _
  · unfold volumeLaunch at h
    simp only [Option.bind_eq_bind, hgt, hsh, Option.bind_some] at h
    obtain ⟨gnb, hg, h⟩ := Option.bind_eq_some_iff.1 h
    rw [hr, Option.bind_some] at h
    obtain rfl := Option.some.inj h
    exact volume_in _ (rows_le_nodes hg) _ _ _ _ _
  · unfold initLaunch at h
    simp only [Option.bind_eq_bind, hgt, hsh, hnb, Option.bind_some] at h
    obtain ⟨gnb, hg, h⟩ := Option.bind_eq_some_iff.1 h
    rw [hr, Option.bind_some] at h
    obtain rfl := Option.some.inj h
    exact init_in _ (rows_le_nodes hg) _ _ _ _ _ _ _

/-- **C76** (normals).  The kernels for the normals stay in their views (although they race, C69). -/
theorem C76_normals (nt np nf nn : ℕ) (sign : ℕ → K) (coords grads : ℕ → ℕ → ℕ → K) (mem : NCell → K) :
    (quadNormals nt np nf nn sign coords grads).StaysIn (NInside nf np 2) mem ∧
    (hexNormals nt np nf nn sign coords grads).StaysIn (NInside nf np 3) mem :=
  ⟨quadNormals_in nt np nf nn sign coords grads mem, hexNormals_in nt np nf nn sign coords grads mem⟩

/-! ### scratch memory -/

theorem alloc_fits {align : ℕ} (ha : 0 < align) {shmem : ℕ → ℕ} (hs : ∀ b, b + align ≤ shmem b + 1) {stop : ℕ} :
    ∀ (views : List ℕ) (iter : ℕ), iter + (views.map shmem).sum ≤ stop →
    ∃ l, scratchAllocs align stop iter views = some l ∧ l.map Prod.snd = views ∧
      (∀ x ∈ l, align ∣ x.1 ∧ iter ≤ x.1 ∧ x.1 + x.2 ≤ stop) ∧ l.Pairwise fun x y => x.1 + x.2 ≤ y.1
  | [], iter, _ => ⟨[], rfl, rfl, by simp, List.Pairwise.nil⟩
  | b :: bs, iter, h => by
    simp only [List.map_cons, List.sum_cons] at h
    have hb := hs b
    set a := (iter + align - 1) / align * align with hadef
    have h1 : iter ≤ a ∧ a + 1 ≤ iter + align := by
      have := Nat.div_add_mod' (iter + align - 1) align
      have := Nat.mod_lt (iter + align - 1) ha
      constructor <;> omega
    obtain ⟨l, e1, e2, e3, e4⟩ := alloc_fits ha hs (stop := stop) bs (a + b) (by omega)
    refine ⟨(a, b) :: l, ?_, by simp [e2], ?_, List.pairwise_cons.2 ⟨fun y hy => (e3 y hy).2.1, e4⟩⟩
    · unfold scratchAllocs scratchAlloc
      simp only [← hadef]
      rw [if_pos (by omega)]
      simp [e1]
    · intro x hx
      rcases List.mem_cons.1 hx with rfl | hx
      · exact ⟨⟨_, by rw [hadef, Nat.mul_comm]⟩, h1.1, by show a + b ≤ stop; omega⟩
      · obtain ⟨f1, f2, f3⟩ := e3 x hx
        exact ⟨f1, by omega, f3⟩

theorem foldlM_length {β ι : Type} {f : List β → ι → Option (List β)} (hf : ∀ v i v', f v i = some v' → v'.length = v.length) :
    ∀ (l : List ι) (v v' : List β), l.foldlM f v = some v' → v'.length = v.length
  | [], v, v', h => by cases h; rfl
  | i :: l, v, v', h => by
    rw [List.foldlM_cons] at h
    obtain ⟨v1, h1, h2⟩ := Option.bind_eq_some_iff.1 h
    rw [foldlM_length hf l v1 v' h2, hf v i v1 h1]

theorem setB_length {β : Type} {v v' : List β} {i : ℕ} {x : β} (h : setB v i x = some v') : v'.length = v.length := by
  unfold setB at h
  split at h
  · cases h; simp
  · cases h

/-- the number of points of the rule is the one `get_number_of_quadrature_points` announces -/
theorem getQuadrature_length {s : ShapeType} {order : ℕ} {pw : List (K × K × K) × List K}
    (h : getQuadrature s order = some pw) : pw.1.length = (numQuadPoints (shapeQuadOrder s order) (shapeDim s) 0).2 := by
  cases s with
  | Segment =>
    simp only [getQuadrature, segmentGL, Option.bind_eq_bind] at h
    obtain ⟨x, h1, rfl⟩ := Option.map_eq_some_iff.1 h
    obtain ⟨p, h2, h3⟩ := Option.bind_eq_some_iff.1 h1
    obtain ⟨q, h4, h5⟩ := Option.bind_eq_some_iff.1 h3
    cases h5
    unfold glNodes at h2
    simp only [List.length_map, shapeQuadOrder, shapeDim]
    split at h2
    · unfold applyWrites at h2
      rw [foldlM_length (fun v i v' h => setB_length h) _ _ _ h2]; simp
    · cases h2; simp
  | Quadrilateral =>
    simp only [getQuadrature, quadGL, Option.bind_eq_bind] at h
    obtain ⟨x, h1, rfl⟩ := Option.map_eq_some_iff.1 h
    obtain ⟨a, _, h3⟩ := Option.bind_eq_some_iff.1 h1
    obtain ⟨b, _, h5⟩ := Option.bind_eq_some_iff.1 h3
    obtain ⟨p, h6, h7⟩ := Option.bind_eq_some_iff.1 h5
    obtain ⟨q, _, h9⟩ := Option.bind_eq_some_iff.1 h7
    cases h9
    simp only [List.length_map, shapeQuadOrder, shapeDim]
    rw [foldlM_length (fun v i v' h => foldlM_length (fun v i v' h => setB_length h) _ _ _ h) _ _ _ h6]; simp
  | Hexahedron =>
    simp only [getQuadrature, hexGL, Option.bind_eq_bind] at h
    obtain ⟨a, _, h3⟩ := Option.bind_eq_some_iff.1 h
    obtain ⟨b, _, h5⟩ := Option.bind_eq_some_iff.1 h3
    obtain ⟨p, h6, h7⟩ := Option.bind_eq_some_iff.1 h5
    obtain ⟨q, _, h9⟩ := Option.bind_eq_some_iff.1 h7
    cases h9
    simp only [shapeQuadOrder, shapeDim]
    rw [foldlM_length (fun v i v' h => foldlM_length (fun v i v' h => foldlM_length (fun v i v' h => setB_length h)
      _ _ _ h) _ _ _ h) _ _ _ h6]; simp
  | Triangle => cases h

theorem volRef_nq {t gt : BasisType} {p gorder q : ℕ} {ref : RefData K} (h : volRef t gt p gorder q = some ref)
    {sh : ShapeType × Option ShapeType} (hsh : basisShape t = some sh) :
    ref.nq = (numQuadPoints (shapeQuadOrder sh.1 q) (shapeDim sh.1) 0).2 := by
  unfold volRef at h
  simp only [Option.bind_eq_bind, hsh, Option.bind_some] at h
  obtain ⟨gsh, _, h⟩ := Option.bind_eq_some_iff.1 h
  obtain ⟨nb, _, h⟩ := Option.bind_eq_some_iff.1 h
  obtain ⟨gnb, _, h⟩ := Option.bind_eq_some_iff.1 h
  obtain ⟨pw, hpw, h⟩ := Option.bind_eq_some_iff.1 h
  obtain ⟨v1, _, h⟩ := Option.bind_eq_some_iff.1 h
  obtain ⟨v2, _, h⟩ := Option.bind_eq_some_iff.1 h
  obtain ⟨v3, _, h⟩ := Option.bind_eq_some_iff.1 h
  obtain ⟨v4, _, h⟩ := Option.bind_eq_some_iff.1 h
  rw [← Option.some.inj h]
  exact getQuadrature_length hpw

/-- **C76** (scratch memory).  If the dimension of the mesh is that of the basis, the scratch memory requested for a kernel
of the setup (and of the error computation of the post-processor) holds all the scratch views the kernel and the
functions it calls make, without overlap. -/
theorem C76_scratch (t gt : BasisType) (p gorder ns : ℕ) (sh : ShapeType × Option ShapeType) (hsh : basisShape t = some sh)
    (nb : ℕ) (meshNodes nfn nqf : ℕ) :
    (∀ ref, volRef (K := K) t gt p gorder (massRuleOrder p) = some ref →
      ScratchFits (massRequest meshNodes (shapeDim sh.1) nb (shapeQuadOrder sh.1 (2 * p)))
        (massScratch meshNodes (shapeDim sh.1) ref.nq nb)) ∧
    ScratchFits (volumeRequest meshNodes (shapeDim sh.1)) (volumeScratch meshNodes (shapeDim sh.1)) ∧
    (∀ ref, volRef (K := K) t gt p gorder (projRuleOrder p) = some ref →
      ScratchFits (initRequest meshNodes (shapeDim sh.1) (shapeDim sh.1) nb ns (shapeQuadOrder sh.1 (2 * max p 1)))
        (initScratch meshNodes (shapeDim sh.1) ref.nq nb ns)) ∧
    (∀ ref q, volRef (K := K) t gt p gorder q = some ref →
      ScratchFits (errorRequest meshNodes (shapeDim sh.1) (shapeDim sh.1) ns (shapeQuadOrder sh.1 q))
        (errorScratch meshNodes (shapeDim sh.1) ref.nq ns)) ∧
    ScratchFits (normalsRequest nfn meshNodes (shapeDim sh.1) nqf) (normalsScratch nfn meshNodes (shapeDim sh.1) nqf) := by
  refine ⟨fun ref h => ?_, fun _ _ ha hs _ _ h => alloc_fits ha hs _ _ h, fun ref h => ?_, fun ref q h => ?_,
    fun _ _ ha hs _ _ h => alloc_fits ha hs _ _ h⟩
  · intro _ _ ha hs _ _ h'
    refine alloc_fits ha hs _ _ ?_
    rw [volRef_nq h hsh]
    exact h'
  · intro _ _ ha hs _ _ h'
    refine alloc_fits ha hs _ _ ?_
    rw [volRef_nq h hsh]
    exact h'
  · intro _ _ ha hs _ _ h'
    refine alloc_fits ha hs _ _ ?_
    rw [volRef_nq h hsh]
    exact h'

/-- C76 on two elements of a rank of the example (order 1, teams of 32 threads): the kernel for the inverse mass matrices
exists, stays in its views, and has the scratch memory it needs. -/
example : ∃ (rms : ℕ → RankMesh ℝ) (k : _) (ref : RefData ℝ), World perMesh 2 perPart rms ∧
    massLaunch (fun _ i => (⟨i % 32, by omega⟩ : Fin 32)) .LagrangeQuad .LagrangeQuad 1 1 (rms 0) = some k ∧
    volRef (K := ℝ) .LagrangeQuad .LagrangeQuad 1 1 (massRuleOrder 1) = some ref ∧
    k.StaysIn (SInside (rms 0).numElemsPart 32 4 2 ref.nq 4 4) (fun _ => 0) ∧
    ScratchFits (massRequest 4 2 4 (shapeQuadOrder .Quadrilateral 2)) (massScratch 4 2 ref.nq 4) := by
  obtain ⟨rms, d, g, u, w, hr, -⟩ := perExample .lagrange 1 ⟨by omega, trivial⟩ .FE 1 0
  obtain ⟨scr, MM0, hg⟩ := hr.geom 0 (by omega)
  obtain ⟨k, sh, nb, e1, -⟩ := C75_inverse_mass (nt := 32) .LagrangeQuad .LagrangeQuad 1 1 0 (rms 0) scr
    MM0 (g 0) hg (by omega) (fun _ i => ⟨i % 32, by omega⟩) (fun _ => 0) (fun _ _ _ _ => rfl)
  have e2 := e1
  unfold massLaunch at e2
  simp only [Option.bind_eq_bind] at e2
  obtain ⟨_, _, e3⟩ := Option.bind_eq_some_iff.1 e2
  obtain ⟨_, _, e4⟩ := Option.bind_eq_some_iff.1 e3
  obtain ⟨ref, e5, _⟩ := Option.bind_eq_some_iff.1 e4
  exact ⟨rms, k, ref, w, e1, e5, (C76_setup _ .LagrangeQuad .LagrangeQuad 1 1 4 (fun _ _ => 0) (rms 0) rfl _ rfl 4 rfl _).1
      k ref e1 e5,
    (C76_scratch .LagrangeQuad .LagrangeQuad 1 1 4 _ rfl 4 4 2 2).1 ref e5⟩

/-- the three scratch views of that kernel in a memory that starts at an address not divisible by 8, with the request
`shmem_size = bytes + 8` of Kokkos: addresses and sizes -/
example : scratchAllocs 8 (4 + (((massRequest 4 2 4 2).map (· + 8)).sum)) 4 (massScratch 4 2 4 4) =
    some [(8, 64), (72, 128), (200, 128)] := by decide

end DG.Dev
