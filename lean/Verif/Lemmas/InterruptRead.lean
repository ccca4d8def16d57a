import Verif.Lemmas.Interrupt

/-!
What is in the file when the head rank has come to its last calls.
-/
namespace DG.Cut

variable {T : Type} {α : Type}

/-- the small parts of a complete dataset -/
def small (bs : List (Block T)) : PDset T :=
  ⟨none, some ((List.range bs.length).map (writeOffset true (bs.map fun b => dimsProd b.dims))), some (headDims bs), some bs.length,
    some (bs.map fun b => dimsProd b.dims).sum, mpiGather (headDims bs) (bs.map Block.dims)⟩

/-- the small parts of a file with the dimensions of the coefficients as given -/
def smallFile (outs : List (RankOut α)) (h : RankOut α) (dims : Option (List ℕ)) : PFile α :=
  ⟨some h.numRanks, some h.dim, some h.numElems, some h.numNodes, some h.npe, some h.nb, some h.ns, some h.time,
    gatherScalar true (outs.map RankOut.numElemsPart), some (boolToAttr h.layoutRight), small (outs.map RankOut.nodeCoords),
    small (outs.map RankOut.l2gNode), small (outs.map RankOut.elemToNode), small (outs.map RankOut.l2gElem),
    { small (outs.map RankOut.uc) with dims := dims }⟩

set_option maxRecDepth 100000 in
theorem headRun_99 [Zero α] (outs : List (RankOut α)) (h : RankOut α) : headRun outs h 99 = smallFile outs h none := rfl

set_option maxRecDepth 100000 in
theorem headRun_100 [Zero α] (outs : List (RankOut α)) (h : RankOut α) : headRun outs h 100 =
    smallFile outs h (some (List.replicate (headDims (outs.map RankOut.uc) * (outs.map RankOut.uc).length) 0)) := rfl

set_option maxRecDepth 100000 in
theorem headRun_101 [Zero α] (outs : List (RankOut α)) (h : RankOut α) : headRun outs h 101 =
    smallFile outs h (mpiGather (headDims (outs.map RankOut.uc)) ((outs.map RankOut.uc).map Block.dims)) := rfl

theorem dims_keep [Zero α] (outs : List (RankOut α)) (h : RankOut α) (e : Ev) (he : ∀ w, e ≠ .part .uc .dims w) (f : PFile α) :
    (erase (effect outs h 0 e f)).uc.dims = f.uc.dims := by
  cases e with
  | slab d => cases d <;> rfl
  | create d => cases d <;> rfl
  | part d p w => cases d <;> cases p <;> first | rfl | exact absurd rfl (he w)
  | attr a w => cases a <;> rfl
  | counts w => rfl
  | allreduce => rfl
  | scan => rfl
  | gather => rfl

theorem dims_none [Zero α] (outs : List (RankOut α)) (h : RankOut α) {m : ℕ} (hm : m ≤ 99) : (headRun outs h m).uc.dims = none := by
  induction m with
  | zero => rfl
  | succ m ih =>
    have hlt : m < prog.length := by rw [prog_length]; omega
    rw [headRun_succ outs h (List.getElem?_eq_getElem hlt), dims_keep, ih (by omega)]
    have key : ∀ i : Fin 99, ∀ w, prog[i.1]? ≠ some (.part .uc .dims w) := by decide +kernel
    intro w hw
    exact key ⟨m, by omega⟩ w (by rw [← hw]; exact List.getElem?_eq_getElem hlt)

theorem headDims_eq {nd : ℕ} (hnd : 0 < nd) {bs : List (Block T)} (hbs : bs ≠ []) (hok : ∀ b ∈ bs, BlockOK nd b) : headDims bs = nd := by
  cases bs with
  | nil => exact absurd rfl hbs
  | cons b bs =>
    have := (hok b (by simp)).dims
    simp only [headDims, List.getElem?_cons_zero, this]
    rw [if_neg (by omega)]

theorem small_eq {nd : ℕ} (hnd : 0 < nd) {bs : List (Block T)} (hbs : bs ≠ []) (hok : ∀ b ∈ bs, BlockOK nd b) :
    small bs = eraseD (ofParDset (parDsetOf nd bs)) := by
  have hsz : ∀ b ∈ bs, b.data.length = dimsProd b.dims := fun b hb => (hok b hb).size
  have hoff : (List.range bs.length).map (writeOffset true (bs.map fun b => dimsProd b.dims)) =
      (List.range bs.length).map (blockStart (bs.map Block.data)) :=
    List.map_congr_left fun r hr => writeOffset_eq bs hsz r (List.mem_range.mp hr)
  have hd : mpiGather nd (bs.map Block.dims) = some (bs.map Block.dims).flatten := mpiGather_eq nd (bs.map Block.dims) (by
    intro l hl
    obtain ⟨b, hb, rfl⟩ := List.mem_map.mp hl
    exact (hok b hb).dims)
  simp only [small, eraseD, ofParDset, parDsetOf, headDims_eq hnd hbs hok, hoff, hd, sum_sizes bs hsz]

theorem written_data [Zero T] {nd : ℕ} (hnd : 0 < nd) {bs : List (Block T)} (hbs : bs ≠ []) (hok : ∀ b ∈ bs, BlockOK nd b)
    {ord : List ℕ} (hord : ord.Perm (List.range bs.length)) :
    ord.foldlM (writeRank true bs) (List.replicate (bs.map fun b => dimsProd b.dims).sum (0 : T)) = some (bs.map Block.data).flatten := by
  have h := writeParallel_eq nd hnd bs hbs hok ord hord
  unfold writeParallel at h
  cases hf : ord.foldlM (writeRank true bs) (List.replicate (bs.map fun b => dimsProd b.dims).sum (0 : T)) with
  | none => simp [hf] at h
  | some y =>
    simp only [hf, Option.bind_eq_bind, Option.bind_some] at h
    have hpos : 0 < bs.length := List.length_pos_of_ne_nil hbs
    rw [List.getElem?_eq_getElem hpos] at h
    simp only [Option.bind_some, Option.bind_eq_some_iff] at h
    obtain ⟨ds, -, h2⟩ := h
    simp only [Option.some.injEq] at h2
    have := congrArg ParDset.data h2
    simp only at this
    rw [this]
    rfl

/-- when the head rank has gathered the offsets, all blocks are in the file -/
theorem data_complete [Zero T] [Zero α] {outs : List (RankOut α)} {h : RankOut α} {d : DName} {f : RankOut α → Block T} {nd : ℕ}
    {get : PFile α → Option (List T)} (A : Access outs h d (outs.map f) get) (hnd : 0 < nd) (hbs : outs ≠ [])
    (hok : ∀ o ∈ outs, BlockOK nd (f o)) {c : Conf α} (hc : Reachable outs h c) (hp : base d + 4 < c.pc 0) :
    get c.file = some ((outs.map f).map Block.data).flatten := by
  have I := inv_data A hc
  obtain ⟨ord, h1, h2, h3⟩ := I.after (by omega)
  rw [h3]
  refine written_data hnd (by simpa using hbs) ?_ ?_
  · intro b hb
    obtain ⟨o, ho, rfl⟩ := List.mem_map.mp hb
    exact hok o ho
  · rw [List.perm_ext_iff_of_nodup h1 List.nodup_range]
    intro q
    rw [h2, List.mem_range, List.length_map]
    constructor
    · exact fun h => h.1
    · intro hq
      have := I.gather hp q hq
      exact ⟨hq, by omega⟩

theorem dset_ext {x y : PDset T} (h : eraseD x = eraseD y) (hd : x.data = y.data) : x = y := by
  cases x; cases y
  simp only [eraseD, PDset.mk.injEq] at h
  simp only at hd
  simp only [PDset.mk.injEq]
  exact ⟨hd, h.2⟩

variable {outs : List (RankOut α)} {h : RankOut α}

theorem Arguments.ne (A : Arguments outs h) : outs ≠ [] := by
  have := A.head
  rintro rfl
  simp at this

theorem Arguments.ok (A : Arguments outs h) : ∀ o ∈ outs, OutOK o := fun o ho =>
  ⟨A.nodeCoords o ho, A.l2gNode o ho, A.elemToNode o ho, A.l2gElem o ho, A.uc o ho⟩

theorem small_outs {nd : ℕ} (hnd : 0 < nd) (hbs : outs ≠ []) {f : RankOut α → Block T} (hok : ∀ o ∈ outs, BlockOK nd (f o)) :
    small (outs.map f) = eraseD (ofParDset (parDsetOf nd (outs.map f))) := by
  refine small_eq hnd (by simpa using hbs) ?_
  intro b hb
  obtain ⟨o, ho, rfl⟩ := List.mem_map.mp hb
  exact hok o ho

/-- the file is complete as soon as the head rank has made all its calls -/
theorem file_complete [Zero α] (A : Arguments outs h) {c : Conf α} (hc : Reachable outs h c) (hp : c.pc 0 = 101) :
    c.file = ofSolFile (fileOf h outs) := by
  have he := inv_erase hc
  rw [hp, headRun_101] at he
  have d1 := data_complete (access_nodeCoords outs h) (by omega) A.ne A.nodeCoords hc (by rw [hp]; decide)
  have d2 := data_complete (access_l2gNode outs h) (by omega) A.ne A.l2gNode hc (by rw [hp]; decide)
  have d3 := data_complete (access_elemToNode outs h) (by omega) A.ne A.elemToNode hc (by rw [hp]; decide)
  have d4 := data_complete (access_l2gElem outs h) (by omega) A.ne A.l2gElem hc (by rw [hp]; decide)
  have d5 := data_complete (access_uc outs h) (by omega) A.ne A.uc hc (by rw [hp]; decide)
  have s5 : ({ small (outs.map RankOut.uc) with dims := mpiGather (headDims (outs.map RankOut.uc)) ((outs.map RankOut.uc).map Block.dims) } :
      PDset α) = small (outs.map RankOut.uc) := rfl
  unfold smallFile at he
  rw [s5, small_outs (by omega) A.ne A.nodeCoords, small_outs (by omega) A.ne A.l2gNode, small_outs (by omega) A.ne A.elemToNode,
    small_outs (by omega) A.ne A.l2gElem, small_outs (by omega) A.ne A.uc, gatherScalar_eq] at he
  rcases hf : c.file with ⟨a1, a2, a3, a4, a5, a6, a7, a8, a9, a10, f1, f2, f3, f4, f5⟩
  rw [hf] at he d1 d2 d3 d4 d5
  simp only [erase, PFile.mk.injEq] at he
  obtain ⟨b1, b2, b3, b4, b5, b6, b7, b8, b9, b10, g1, g2, g3, g4, g5⟩ := he
  have k1 := dset_ext g1 d1
  have k2 := dset_ext g2 d2
  have k3 := dset_ext g3 d3
  have k4 := dset_ext g4 d4
  have k5 := dset_ext g5 d5
  simp only [b1, b2, b3, b4, b5, b6, b7, b8, b9, b10, k1, k2, k3, k4, k5]
  rfl

end DG.Cut
