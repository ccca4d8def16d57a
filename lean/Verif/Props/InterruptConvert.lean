import Verif.Props.Interrupt
import Verif.Model.Refusal

/-!
C89: the converter on a file whose writing was interrupted.
-/
namespace DG.Cut

variable {α : Type} {outs : List (RankOut α)} {h : RankOut α}

/-- the complete file with the dimensions of the coefficients still zero -/
def gapFile (h : RankOut α) (outs : List (RankOut α)) : SolFile α :=
  { fileOf h outs with uc := { parDsetOf 3 (outs.map RankOut.uc) with dims := List.replicate (3 * outs.length) 0 } }

theorem gap_all [Zero α] (A : Arguments outs h) {c : Conf α} (hc : Reachable outs h c) (hp : c.pc 0 = 100) :
    c.file = ofSolFile (gapFile h outs) := by
  have he := inv_erase hc
  rw [hp, headRun_100] at he
  have d1 := data_complete (access_nodeCoords outs h) (by omega) A.ne A.nodeCoords hc (by rw [hp]; decide)
  have d2 := data_complete (access_l2gNode outs h) (by omega) A.ne A.l2gNode hc (by rw [hp]; decide)
  have d3 := data_complete (access_elemToNode outs h) (by omega) A.ne A.elemToNode hc (by rw [hp]; decide)
  have d4 := data_complete (access_l2gElem outs h) (by omega) A.ne A.l2gElem hc (by rw [hp]; decide)
  have d5 := data_complete (access_uc outs h) (by omega) A.ne A.uc hc (by rw [hp]; decide)
  have hh : headDims (outs.map RankOut.uc) = 3 := headDims_eq (by omega) (by simpa using A.ne) (by
    intro b hb
    obtain ⟨o, ho, rfl⟩ := List.mem_map.mp hb
    exact A.uc o ho)
  unfold smallFile at he
  rw [small_outs (by omega) A.ne A.nodeCoords, small_outs (by omega) A.ne A.l2gNode, small_outs (by omega) A.ne A.elemToNode,
    small_outs (by omega) A.ne A.l2gElem, small_outs (by omega) A.ne A.uc, gatherScalar_eq, hh, List.length_map] at he
  rcases hf : c.file with ⟨a1, a2, a3, a4, a5, a6, a7, a8, a9, a10, f1, f2, f3, f4, ⟨k1, k2, k3, k4, k5, k6⟩⟩
  rw [hf] at he d1 d2 d3 d4 d5
  simp only [erase, PFile.mk.injEq] at he
  obtain ⟨b1, b2, b3, b4, b5, b6, b7, b8, b9, b10, g1, g2, g3, g4, g5⟩ := he
  have e1 := dset_ext g1 d1
  have e2 := dset_ext g2 d2
  have e3 := dset_ext g3 d3
  have e4 := dset_ext g4 d4
  simp only [eraseD, ofParDset, PDset.mk.injEq] at g5
  obtain ⟨-, g6, g7, g8, g9, g10⟩ := g5
  simp only at d5
  simp only [b1, b2, b3, b4, b5, b6, b7, b8, b9, b10, e1, e2, e3, e4, d5, g6, g7, g8, g9, g10]
  rfl

theorem whole_ofSolFile (g : SolFile α) : (ofSolFile g).whole = some g := rfl

theorem dset_whole {T : Type} {x : PDset T} {d : ParDset T} (h : x.whole = some d) : x = ofParDset d := by
  rcases x with ⟨a1, a2, a3, a4, a5, a6⟩
  simp only [PDset.whole, Option.bind_eq_bind, Option.bind_eq_some_iff, Option.some.injEq] at h
  obtain ⟨_, rfl, _, rfl, _, rfl, _, rfl, _, rfl, _, rfl, rfl⟩ := h
  rfl

theorem file_whole {f : PFile α} {g : SolFile α} (g0 : f.whole = some g) : f = ofSolFile g := by
  rcases f with ⟨a1, a2, a3, a4, a5, a6, a7, a8, a9, a10, b1, b2, b3, b4, b5⟩
  unfold PFile.whole at g0
  obtain ⟨v0, e0, g1⟩ := Option.bind_eq_some_iff.mp g0
  obtain ⟨v1, e1, g2⟩ := Option.bind_eq_some_iff.mp g1
  obtain ⟨v2, e2, g3⟩ := Option.bind_eq_some_iff.mp g2
  obtain ⟨v3, e3, g4⟩ := Option.bind_eq_some_iff.mp g3
  obtain ⟨v4, e4, g5⟩ := Option.bind_eq_some_iff.mp g4
  obtain ⟨v5, e5, g6⟩ := Option.bind_eq_some_iff.mp g5
  obtain ⟨v6, e6, g7⟩ := Option.bind_eq_some_iff.mp g6
  obtain ⟨v7, e7, g8⟩ := Option.bind_eq_some_iff.mp g7
  obtain ⟨v8, e8, g9⟩ := Option.bind_eq_some_iff.mp g8
  obtain ⟨v9, e9, g10⟩ := Option.bind_eq_some_iff.mp g9
  obtain ⟨v10, e10, g11⟩ := Option.bind_eq_some_iff.mp g10
  obtain ⟨v11, e11, g12⟩ := Option.bind_eq_some_iff.mp g11
  obtain ⟨v12, e12, g13⟩ := Option.bind_eq_some_iff.mp g12
  obtain ⟨v13, e13, g14⟩ := Option.bind_eq_some_iff.mp g13
  obtain ⟨v14, e14, g15⟩ := Option.bind_eq_some_iff.mp g14
  have e0 : a1 = some v0 := e0
  subst e0
  have e1 : a2 = some v1 := e1
  subst e1
  have e2 : a3 = some v2 := e2
  subst e2
  have e3 : a4 = some v3 := e3
  subst e3
  have e4 : a5 = some v4 := e4
  subst e4
  have e5 : a6 = some v5 := e5
  subst e5
  have e6 : a7 = some v6 := e6
  subst e6
  have e7 : a8 = some v7 := e7
  subst e7
  have e8 : a9 = some v8 := e8
  subst e8
  have e9 : a10 = some v9 := e9
  subst e9
  have e10 : b1 = ofParDset v10 := dset_whole e10
  subst e10
  have e11 : b2 = ofParDset v11 := dset_whole e11
  subst e11
  have e12 : b3 = ofParDset v12 := dset_whole e12
  subst e12
  have e13 : b4 = ofParDset v13 := dset_whole e13
  subst e13
  have e14 : b5 = ofParDset v14 := dset_whole e14
  subst e14
  have g16 := Option.some.inj g15
  subst g16
  rfl

theorem lost_eq {β : Type} {x y : Option β} (hl : LostItem x y) (hx : x ≠ none) : x = y := by
  rcases hl with h1 | h1
  · exact absurd h1 hx
  · exact h1

theorem lost_dset {T : Type} {x : ParDset T} {y : PDset T} (hl : LostDset (ofParDset x) y) : y = ofParDset x := by
  rcases hl with ⟨h1, h2, h3, h4, h5, h6⟩
  rcases y with ⟨b1, b2, b3, b4, b5, b6⟩
  have k1 := lost_eq h1 (by simp [ofParDset])
  have k2 := lost_eq h2 (by simp [ofParDset])
  have k3 := lost_eq h3 (by simp [ofParDset])
  have k4 := lost_eq h4 (by simp [ofParDset])
  have k5 := lost_eq h5 (by simp [ofParDset])
  have k6 := lost_eq h6 (by simp [ofParDset])
  simp only at k1 k2 k3 k4 k5 k6
  subst k1 k2 k3 k4 k5 k6
  rfl

/-- if nothing is missing, nothing was lost -/
theorem whole_lost {x y : PFile α} (hl : Lost x y) {g : SolFile α} (hx : x.whole = some g) : x = ofSolFile g ∧ y = ofSolFile g := by
  have hx := file_whole hx
  subst hx
  refine ⟨rfl, ?_⟩
  rcases y with ⟨a1, a2, a3, a4, a5, a6, a7, a8, a9, a10, b1, b2, b3, b4, b5⟩
  have k0 := lost_eq hl.numRanks (by simp [ofSolFile])
  have k1 := lost_eq hl.dim (by simp [ofSolFile])
  have k2 := lost_eq hl.numElems (by simp [ofSolFile])
  have k3 := lost_eq hl.numNodes (by simp [ofSolFile])
  have k4 := lost_eq hl.npe (by simp [ofSolFile])
  have k5 := lost_eq hl.nb (by simp [ofSolFile])
  have k6 := lost_eq hl.ns (by simp [ofSolFile])
  have k7 := lost_eq hl.time (by simp [ofSolFile])
  have k8 := lost_eq hl.elemsPerPart (by simp [ofSolFile])
  have k9 := lost_eq hl.layoutAttr (by simp [ofSolFile])
  have j0 : b1 = _ := lost_dset hl.nodeCoords
  have j1 : b2 = _ := lost_dset hl.l2gNode
  have j2 : b3 = _ := lost_dset hl.elemToNode
  have j3 : b4 = _ := lost_dset hl.l2gElem
  have j4 : b5 = _ := lost_dset hl.uc
  simp only at k0 k1 k2 k3 k4 k5 k6 k7 k8 k9
  subst k0 k1 k2 k3 k4 k5 k6 k7 k8 k9 j0 j1 j2 j3 j4
  rfl

theorem gap_read {r : ℕ} (hr : r < outs.length) {b : Block α} (h1 : readParallel true outs.length (gapFile h outs).uc r = some b) :
    b = ⟨[0, 0, 0], []⟩ := by
  have e1 : readDims true outs.length (gapFile h outs).uc r = some [0, 0, 0] := by
    have : (gapFile h outs).uc.nRanks = outs.length := List.length_map _
    simp only [readDims, this, if_true]
    exact scatter_zeros 3 outs.length r hr
  simp only [readParallel, e1, Option.bind_eq_bind, Option.bind_some, Option.bind_eq_some_iff] at h1
  obtain ⟨o, -, h1⟩ := h1
  split_ifs at h1
  simp only [Option.bind_eq_some_iff, Option.some.injEq] at h1
  obtain ⟨d, hd, rfl⟩ := h1
  simp only [readSlab] at hd
  split_ifs at hd
  simp only [Option.some.injEq] at hd
  subst hd
  simp [dimsProd]

theorem serial_gap [Zero α] {bs : List (Block α)} {f : ParDset α} (h : ∀ b, bs[0]? = some b → b.dims = [0, 0, 0]) :
    serializeDataset bs f = none := by
  cases h0 : bs[0]? with
  | none => simp [serializeDataset, h0]
  | some b =>
    have := h b h0
    simp only [serializeDataset, h0, this, serialDims, Option.bind_eq_bind, Option.bind_some]
    cases mpiGatherv (bs.map Block.data) (localSizes f.offsets f.totalSize) f.offsets f.totalSize <;> rfl

theorem convert_gap [Zero α] (hn : 1 < outs.length) : convert outs.length (gapFile h outs) = none := by
  by_contra hne
  obtain ⟨g, hg⟩ := Option.ne_none_iff_exists'.mp hne
  simp only [convert, Option.bind_eq_bind, Option.bind_eq_some_iff] at hg
  obtain ⟨out, ho, -⟩ := hg
  simp only [readSerialized] at ho
  split_ifs at ho
  simp only [Option.bind_eq_bind, Option.bind_eq_some_iff] at ho
  obtain ⟨epp, -, rs, hrs, ho⟩ := ho
  obtain ⟨s, hs, -⟩ := ho
  simp only [serializeSets, Option.bind_eq_bind, Option.bind_eq_some_iff] at hs
  obtain ⟨en, -, nc, -, ln, -, en', -, le, -, uc, hu, -⟩ := hs
  rw [serial_gap] at hu
  · simp at hu
  · intro b hb
    rw [List.getElem?_map, Option.map_eq_some_iff] at hb
    obtain ⟨s0, h0, rfl⟩ := hb
    have hread : readSets outs.length (gapFile h outs) 0 = some s0 := by
      obtain ⟨m, hm⟩ : ∃ m, outs.length = m + 1 := ⟨outs.length - 1, by omega⟩
      have hl : List.range outs.length = 0 :: (List.range m).map Nat.succ := by rw [hm, List.range_succ_eq_map]
      rw [hl, List.mapM_cons] at hrs
      simp only [Option.bind_eq_bind, Option.bind_eq_some_iff, Option.pure_def, Option.some.injEq] at hrs
      obtain ⟨s1, hs1, l, -, rfl⟩ := hrs
      simp only [List.getElem?_cons_zero, Option.some.injEq] at h0
      rw [← h0]
      exact hs1
    simp only [readSets, Option.bind_eq_bind, Option.bind_eq_some_iff] at hread
    obtain ⟨nc0, -, ln0, -, en0, -, le0, -, uc0, hu0, h3⟩ := hread
    simp only [Option.some.injEq] at h3
    subst h3
    rw [gap_read (h := h) (by omega) hu0]

/-- C89: the converter, run on at least two ranks on a file whose writing was stopped anywhere and parts of which may have been lost besides:
if it writes a file at all, nothing is missing in its input and the output is that of the complete file. -/
theorem C89_converter [Zero α] (A : Arguments outs h) (hn : 1 < outs.length) {c : Conf α} (hc : Reachable outs h c) {f : PFile α}
    (hl : Lost f c.file) (ord : ℕ → List ℕ) (hord : ∀ i, (ord i).Perm (List.range outs.length)) {g : SolFile α}
    (hg : convertFile outs.length f = some g) :
    ∃ F, writeFile true outs ord = some F ∧ f = ofSolFile F ∧ convert outs.length F = some g := by
  simp only [convertFile, Option.bind_eq_some_iff] at hg
  obtain ⟨F, hF, hconv⟩ := hg
  obtain ⟨hx, hy⟩ := whole_lost hl hF
  have hpc := inv_pc hc 0
  rw [prog_length] at hpc
  by_cases h1 : c.pc 0 ≤ 99
  · exfalso
    have h2 := congrArg (fun f => f.uc.dims) (inv_erase hc)
    have h3 := dims_none outs h (m := c.pc 0) (by omega)
    have h4 : c.file.uc.dims = none := h2.trans h3
    rw [hy] at h4
    simp [ofSolFile, ofParDset] at h4
  by_cases h2 : c.pc 0 = 100
  · exfalso
    have h3 := congrArg PFile.whole ((gap_all A hc h2).symm.trans hy)
    rw [whole_ofSolFile, whole_ofSolFile, Option.some.injEq] at h3
    rw [← h3, convert_gap hn] at hconv
    simp at hconv
  · have h3 : c.pc 0 = prog.length := by rw [prog_length]; omega
    obtain ⟨F', hw, hcf⟩ := C89_schedules A hc h3 ord hord
    have h4 := congrArg PFile.whole (hcf.symm.trans hy)
    rw [whole_ofSolFile, whole_ofSolFile, Option.some.injEq] at h4
    subst h4
    exact ⟨F', hw, hx, hconv⟩

/-- C89: on one rank the converter writes, from the file between the head rank's last two calls, one that is complete but has no
coefficients. -/
theorem C89_converter_alone [Zero α] (A : Arguments [h] h) (h1 : h.numRanks = 1) {c : Conf α} (hc : Reachable [h] h c) (hp : c.pc 0 = 100) :
    ∃ g, convertFile 1 c.file = some g ∧ g.uc.data = [] ∧ g.uc.dims = [0, 0, 0] ∧ g.nodeCoords.data = h.nodeCoords.data ∧
      g.elemToNode.data = h.elemToNode.data ∧ g.time = h.time ∧ g.elemsPerPart = [h.numElemsPart] := by
  have hf := gap_all A hc hp
  simp only [convertFile, hf, whole_ofSolFile, Option.bind_some]
  have r1 := readParallel_eq 2 [h.nodeCoords] (by simpa using A.nodeCoords) 0 (by simp)
  have r2 := readParallel_eq 1 [h.l2gNode] (by simpa using A.l2gNode) 0 (by simp)
  have r3 := readParallel_eq 2 [h.elemToNode] (by simpa using A.elemToNode) 0 (by simp)
  have r4 := readParallel_eq 1 [h.l2gElem] (by simpa using A.l2gElem) 0 (by simp)
  have r5 : readParallel true 1 (gapFile h [h]).uc 0 = some ⟨[0, 0, 0], []⟩ := by
    simp [readParallel, readDims, readOffset, gapFile, parDsetOf, mpiScatter, readSlab, dimsProd, blockStart]
  simp only [List.length_cons, List.length_nil, Nat.zero_add, List.getElem_cons_zero] at r1 r2 r3 r4
  have hs : readSets 1 (gapFile h [h]) 0 = some ⟨h.nodeCoords, h.l2gNode, h.elemToNode, h.l2gElem, ⟨[0, 0, 0], []⟩⟩ := by
    simp only [readSets, r5, Option.bind_eq_bind]
    simp only [gapFile, fileOf, List.map_cons, List.map_nil, r1, r2, r3, r4, Option.bind_some]
  have he : scatterScalar true (gapFile h [h]).elemsPerPart 0 = some h.numElemsPart := by
    simp [gapFile, fileOf, scatterScalar, mpiScatter, readSlab]
  have hr : readSerialized 1 (gapFile h [h]) = some (readerOut (gapFile h [h]) h.numRanks h.numElemsPart
      ⟨h.nodeCoords, h.l2gNode, h.elemToNode, h.l2gElem, ⟨[0, 0, 0], []⟩⟩) := by
    unfold readSerialized
    rw [if_neg (by simp [gapFile, fileOf, h1])]
    simp [he, hs]
    rfl
  have ok : ∀ {T : Type} {nd : ℕ} {b : Block T}, 0 < nd → BlockOK nd b → b.dims ≠ [] ∧ b.data.length = dimsProd b.dims :=
    fun hnd hb => ⟨fun h0 => by have := hb.dims; rw [h0] at this; simp at this; omega, hb.size⟩
  obtain ⟨a1, b1⟩ := ok (by omega) (A.nodeCoords h (by simp))
  obtain ⟨a2, b2⟩ := ok (by omega) (A.l2gNode h (by simp))
  obtain ⟨a3, b3⟩ := ok (by omega) (A.elemToNode h (by simp))
  obtain ⟨a4, b4⟩ := ok (by omega) (A.l2gElem h (by simp))
  rw [convert, hr, Option.bind_eq_bind, Option.bind_some]
  unfold writeFile
  simp only [List.getElem?_cons_zero, Option.bind_eq_bind, Option.bind_some, List.map_cons, List.map_nil, gatherScalar, Bool.false_eq_true,
    if_false, Option.map_some, readerOut]
  rw [writeParallel_serial _ a1 b1, Option.bind_some, writeParallel_serial _ a2 b2, Option.bind_some, writeParallel_serial _ a3 b3,
    Option.bind_some, writeParallel_serial _ a4 b4, Option.bind_some, writeParallel_serial _ (by simp) (by simp [dimsProd]), Option.bind_some]
  exact ⟨_, rfl, rfl, rfl, rfl, rfl, rfl, rfl⟩

/-- such a point exists -/
example : ∃ (h : RankOut ℤ) (c : Conf ℤ), Arguments [h] h ∧ h.numRanks = 1 ∧ Reachable [h] h c ∧ c.pc 0 = 100 := by
  have A : Arguments [{ sampleOut 1 2 with numRanks := 1 }] { sampleOut 1 2 with numRanks := 1 } := by
    refine ⟨rfl, ?_, ?_, ?_, ?_, ?_⟩ <;> intro o ho <;> simp only [List.mem_cons, List.not_mem_nil, or_false] at ho <;>
      subst ho <;> exact ⟨rfl, rfl⟩
  obtain ⟨c, hc, hp⟩ := lockstep (outs := [{ sampleOut 1 2 with numRanks := 1 }]) (h := { sampleOut 1 2 with numRanks := 1 }) A.ne (m := 100)
    (by decide)
  exact ⟨_, c, A, rfl, hc, hp 0 (by simp)⟩

end DG.Cut
