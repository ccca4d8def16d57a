import Verif.Lemmas.IO
import Verif.Props.Mesh

/-!
C42 (parallel datasets round-trip), C43 (writes tile the dataset), C44 (wrong number of ranks),
C45 (coefficients survive a write/read cycle), C46 (time in the file), C48 (scalars and booleans).
-/
namespace DG

variable {T : Type} {α : Type}

/-! ### C43 -/

theorem offset_eq (sizes : List ℕ) (r : ℕ) (hr : r < sizes.length) :
    writeOffset true sizes r = (sizes.take r).sum := by
  simp only [writeOffset, if_true, mpiScan]
  rw [List.take_succ_eq_append_getElem hr]
  simp [hr]

theorem take_sum_succ (sizes : List ℕ) (r : ℕ) (hr : r < sizes.length) :
    (sizes.take (r + 1)).sum = (sizes.take r).sum + sizes.getD r 0 := by
  rw [List.take_succ_eq_append_getElem hr]; simp [hr]

theorem take_sum_mono (sizes : List ℕ) {r s : ℕ} (h : r ≤ s) :
    (sizes.take r).sum ≤ (sizes.take s).sum := by
  induction s with
  | zero => simp [Nat.le_zero.mp h]
  | succ s ih =>
    rcases Nat.lt_or_ge r (s + 1) with h' | h'
    · refine le_trans (ih (by omega)) ?_
      by_cases hs : s < sizes.length
      · rw [take_sum_succ sizes s hs]; omega
      · rw [List.take_of_length_le (by omega), List.take_of_length_le (by omega)]
    · rw [le_antisymm h h']

/-- The file regions of the ranks of a parallel write tile the dataset: every position of the
dataset (whose size is the sum of the local sizes) lies in the region of exactly one rank, and no
region extends beyond the dataset. -/
theorem C43_regions_tile (sizes : List ℕ) :
    (∀ r < sizes.length,
      writeOffset true sizes r + sizes.getD r 0 ≤ sizes.sum) ∧
    ∀ p < sizes.sum, ∃ r, (r < sizes.length ∧ writeOffset true sizes r ≤ p ∧
        p < writeOffset true sizes r + sizes.getD r 0) ∧
      ∀ r', (r' < sizes.length ∧ writeOffset true sizes r' ≤ p ∧
        p < writeOffset true sizes r' + sizes.getD r' 0) → r' = r := by
  constructor
  · intro r hr
    rw [offset_eq sizes r hr, ← take_sum_succ sizes r hr]
    have := take_sum_mono sizes (r := r + 1) (s := sizes.length) hr
    rwa [List.take_length] at this
  · intro p hp
    have hex : ∃ r, p < (sizes.take r).sum := ⟨sizes.length, by rwa [List.take_length]⟩
    classical
    let n := Nat.find hex
    have hn : p < (sizes.take n).sum := Nat.find_spec hex
    have hmin : ∀ r < n, (sizes.take r).sum ≤ p := fun r hr => not_lt.mp (Nat.find_min hex hr)
    have hn0 : 0 < n := by
      rcases Nat.eq_zero_or_pos n with h | h
      · rw [h] at hn; simp at hn
      · exact h
    have hnl : n ≤ sizes.length := Nat.find_min' hex (by rwa [List.take_length])
    refine ⟨n - 1, ⟨by omega, ?_, ?_⟩, ?_⟩
    · rw [offset_eq _ _ (by omega)]; exact hmin _ (by omega)
    · rw [offset_eq _ _ (by omega), ← take_sum_succ _ _ (by omega), Nat.sub_add_cancel hn0]
      exact hn
    · rintro r' ⟨h1, h2, h3⟩
      rw [offset_eq _ _ h1] at h2 h3
      rw [← take_sum_succ _ _ h1] at h3
      by_contra hne
      rcases Nat.lt_or_ge r' (n - 1) with h | h
      · exact absurd (hmin (r' + 1) (by omega)) (not_le.mpr h3)
      · have := take_sum_mono sizes (r := n) (s := r') (by omega)
        omega

/-! ### C42 -/

/-- All ranks write one block each, in any order of the individual writes; the file that results
does not depend on that order, and reading it back with the same number of ranks returns to each
rank exactly its block, data and dimensions.  Blocks may be empty; all ranks must use the same,
non-zero, number of dimensions. -/
theorem C42_round_trip [Zero T] (nd : ℕ) (hnd : 0 < nd) (bs : List (Block T)) (hbs : bs ≠ [])
    (hok : ∀ b ∈ bs, BlockOK nd b) :
    ∃ f : ParDset T,
      (∀ order : List ℕ, order.Perm (List.range bs.length) →
        writeParallel true bs order = some f) ∧
      ∀ r (hr : r < bs.length), readParallel true bs.length f r = some bs[r] :=
  ⟨parDsetOf nd bs, fun ord hord => writeParallel_eq nd hnd bs hbs hok ord hord,
    fun r hr => readParallel_eq nd bs hok r hr⟩

/-- The same for a file written and read without MPI, which can also be read by one MPI rank. -/
theorem C42_serial_round_trip [Zero T] (b : Block T) (hd : b.dims ≠ [])
    (hs : b.data.length = dimsProd b.dims) :
    ∃ f : ParDset T, writeParallel false [b] [0] = some f ∧
      readParallel false 1 f 0 = some b ∧ readParallel true 1 f 0 = some b := by
  refine ⟨_, writeParallel_serial b hd hs, ?_, ?_⟩
  · simp [readParallel, readDims, readOffset, ← hs, readSlab]
  · simp [readParallel, readDims, readOffset, ← hs, readSlab, mpiScatter]

/-- The whole dataset is the concatenation of the blocks in rank order, whoever writes first. -/
theorem C42_file_contents [Zero T] (nd : ℕ) (hnd : 0 < nd) (bs : List (Block T)) (hbs : bs ≠ [])
    (hok : ∀ b ∈ bs, BlockOK nd b) (order : List ℕ) (hord : order.Perm (List.range bs.length))
    (f : ParDset T) (hf : writeParallel true bs order = some f) :
    f.data = (bs.map Block.data).flatten := by
  rw [writeParallel_eq nd hnd bs hbs hok order hord] at hf
  cases hf; rfl

/-- A block without dimensions (a scalar) makes a parallel write gather from an empty array. -/
theorem C42_scalar_blocks_ub [Zero T] (bs : List (Block T)) (order : List ℕ) (b : Block T)
    (hb : bs[0]? = some b) (h0 : b.dims = []) : writeParallel true bs order = none := by
  have hmem : b ∈ bs := List.mem_of_getElem? hb
  have hg : mpiGather 1 (bs.map Block.dims) = none := by
    rw [mpiGather, Option.map_eq_none_iff]
    clear hb
    induction bs with
    | nil => simp at hmem
    | cons c cs ih =>
      rw [List.map_cons, List.mapM_cons]
      rcases List.mem_cons.mp hmem with rfl | h
      · simp [readSlab, h0]
      · rw [ih h]
        cases readSlab c.dims 0 1 <;> rfl
  unfold writeParallel
  simp only [hb, Option.bind_eq_bind, Option.bind_some, gatherDims, if_true, h0, List.length_nil,
    hg, Option.bind_none]
  cases order.foldlM (writeRank true bs) _ <;> rfl

/-- three ranks, one of them with an empty block, two-dimensional data; rank 2 writes first -/
example : (writeParallel true
      [⟨[1, 2], [10, 11]⟩, ⟨[0, 2], []⟩, ⟨[2, 2], [20, 21, 22, 23]⟩] [2, 0, 1] : Option (ParDset ℕ)) =
    some ⟨[10, 11, 20, 21, 22, 23], [0, 2, 2], 2, 3, 6, [1, 2, 0, 2, 2, 2]⟩ := by decide +kernel
example : ∀ b ∈ ([⟨[1, 2], [10, 11]⟩, ⟨[0, 2], []⟩, ⟨[2, 2], [20, 21, 22, 23]⟩] : List (Block ℕ)),
    BlockOK 2 b := by
  intro b hb
  simp at hb
  rcases hb with rfl | rfl | rfl <;> exact ⟨rfl, rfl⟩

/-! ### C44 -/

/-- A parallel dataset written by `n` ranks cannot be read by a different number of ranks. -/
theorem C44_wrong_rank_count [Zero T] (bs : List (Block T)) (par : Bool) (order : List ℕ)
    (f : ParDset T) (hf : writeParallel par bs order = some f) (n : ℕ) (hn : n ≠ bs.length)
    (r : ℕ) : readParallel true n f r = none := by
  have hr : f.nRanks = bs.length := by
    unfold writeParallel at hf
    simp only [Option.bind_eq_bind, Option.bind_eq_some_iff] at hf
    obtain ⟨_, _, _, _, _, _, h⟩ := hf
    cases h; rfl
  simp [readParallel, readDims, hr, Ne.symm hn]

/-- … nor without MPI, unless a single rank wrote it. -/
theorem C44_wrong_rank_count_serial [Zero T] (bs : List (Block T)) (par : Bool) (order : List ℕ)
    (f : ParDset T) (hf : writeParallel par bs order = some f) (hn : bs.length ≠ 1) (n r : ℕ) :
    readParallel false n f r = none := by
  have hr : f.nRanks = bs.length := by
    unfold writeParallel at hf
    simp only [Option.bind_eq_bind, Option.bind_eq_some_iff] at hf
    obtain ⟨_, _, _, _, _, _, h⟩ := hf
    cases h; rfl
  simp [readParallel, readDims, hr, hn]

/-- Consequently neither the converter nor the post-processor returns anything when started on a
solution file with a number of ranks other than the one that wrote it. -/
theorem C44_solution_file [Zero α] (outs : List (RankOut α)) (ord : ℕ → List ℕ) (f : SolFile α)
    (hf : writeFile true outs ord = some f) (n : ℕ) (hn : n ≠ outs.length) :
    convert n f = none ∧ ∀ r s, readInCoefficients n f r s = none := by
  unfold writeFile at hf
  simp only [Option.bind_eq_bind, Option.bind_eq_some_iff] at hf
  obtain ⟨h, -, epp, -, nc, hnc, ln, -, en, -, le, -, uc, huc, hf⟩ := hf
  cases hf
  have hnr : ∀ r, readParallel true n nc r = none := fun r =>
    C44_wrong_rank_count _ _ _ nc hnc n (by simpa using hn) r
  have hur : ∀ r, readParallel true n uc r = none := fun r =>
    C44_wrong_rank_count _ _ _ uc huc n (by simpa using hn) r
  constructor
  · rw [convert, Option.bind_eq_bind, Option.bind_eq_none_iff]
    intro out hout
    exfalso
    unfold readSerialized at hout
    split at hout
    · simp at hout
    · obtain ⟨e, he, hout⟩ := Option.bind_eq_some_iff.mp hout
      obtain ⟨rs, hrs, hout⟩ := Option.bind_eq_some_iff.mp hout
      cases n with
      | zero =>
        simp only [List.range_zero, List.mapM_nil] at he
        cases he
        simp at hout
      | succ k =>
        rw [List.range_succ_eq_map, List.mapM_cons] at hrs
        simp [readSets, hnr 0] at hrs
  · intro r s
    simp [readInCoefficients, hur r]

/-- … and the serialized read - of any file, also one this program did not write - stops unless the
number of ranks in the file's header is the number of ranks that read it. -/
theorem C44_header [Zero α] (f : SolFile α) (n : ℕ) (hn : n ≠ f.numRanks) : convert n f = none := by
  rw [convert, Option.bind_eq_bind, Option.bind_eq_none_iff]
  intro out hout
  rw [readSerialized, if_pos hn] at hout
  simp at hout

/-! ### C48 -/

/-- Gathering one scalar per rank and scattering the dataset returns to each rank its value. -/
theorem C48_scalars_round_trip (vals : List T) :
    ∃ ds, gatherScalar true vals = some ds ∧ ds.length = vals.length ∧
      ∀ r (hr : r < vals.length), scatterScalar true ds r = some vals[r] :=
  ⟨vals, gatherScalar_eq vals, rfl, fun r hr => scatterScalar_eq vals r hr⟩

/-- Without MPI: one value. -/
theorem C48_scalar_serial (v : T) :
    ∃ ds, gatherScalar false [v] = some ds ∧ scatterScalar false ds 0 = some v :=
  ⟨[v], rfl, rfl⟩

/-- Boolean attributes read back as written. -/
theorem C48_bool_round_trip (b : Bool) : attrToBool (boolToAttr b) = b := by
  cases b <;> decide

example : (gatherScalar true [7, 8, 9]).bind (fun ds => scatterScalar true ds 2) = some 9 := by
  decide +kernel

/-! ### C45, C46 -/

theorem rankOut_ok (m : GMesh α) (d nranks nb ns : ℕ) (time : α) (right : Bool) (part : List ℕ)
    (r : ℕ) (rm : RankMesh α) (res : PartitionResult m part r rm) (hm : MeshOK m)
    (hd : ∀ row ∈ m.coord, row.length = d) (U : ℕ → ℕ → ℕ → α) :
    OutOK (rankOut m d nranks nb ns time right rm U) := by
  have hc : ∀ row ∈ rm.nodeCoords, row.length = d := by
    intro row hrow
    obtain ⟨i, hi, rfl⟩ := List.getElem_of_mem hrow
    have hi' : i < rm.l2gNode.length := by rw [← res.coordLen]; exact hi
    have := res.coord i _ (List.getElem?_eq_getElem hi')
    rw [List.getElem?_eq_getElem hi] at this
    exact hd _ (List.mem_of_getElem? this.symm)
  have flen {β : Type} (w : ℕ) (L : List (List β)) (h : ∀ b ∈ L, b.length = w) :
      L.flatten.length = L.length * w := by
    rw [← blockStart_const L w L.length h le_rfl, blockStart_eq, List.take_length]
  refine ⟨⟨rfl, ?_⟩, ⟨rfl, ?_⟩, ⟨rfl, ?_⟩, ⟨rfl, ?_⟩, ⟨rfl, ?_⟩⟩
  · simp [rankOut, flen d _ hc, res.coordLen, res.numNodesPart]
  · simp [rankOut, res.numNodesPart]
  · have : ∀ b ∈ rm.elemToNode, b.length = m.npe := by
      rw [res.elemToNode]
      intro b hb
      obtain ⟨e, _, rfl⟩ := List.mem_map.mp hb
      simp
    simp only [rankOut, flen m.npe _ this, dimsProd_two, res.numElemsPart]
    rw [res.elemToNode, List.length_map]
  · simp [rankOut, res.numElemsPart, res.l2gElem]
  · simp [rankOut, viewData_length]

/-- The arguments passed to the writer by the ranks `0 … nranks - 1` of a run: rank `r` holds the
mesh part `rms r` and the view `U r` of coefficients. -/
def runOuts (m : GMesh α) (d nranks nb ns : ℕ) (time : α) (right : Bool)
    (rms : ℕ → RankMesh α) (U : ℕ → ℕ → ℕ → ℕ → α) : List (RankOut α) :=
  (List.range nranks).map fun r => rankOut m d nranks nb ns time right (rms r) (U r)

theorem runOuts_write [Zero α] (m : GMesh α) (d nranks nb ns : ℕ) (time : α) (right : Bool)
    (part : List ℕ) (rms : ℕ → RankMesh α) (U : ℕ → ℕ → ℕ → ℕ → α) (hn : 0 < nranks)
    (hm : MeshOK m) (hd : ∀ row ∈ m.coord, row.length = d)
    (hres : ∀ r < nranks, PartitionResult m part r (rms r))
    (ord : ℕ → List ℕ) (hord : ∀ i, (ord i).Perm (List.range nranks)) :
    writeFile true (runOuts m d nranks nb ns time right rms U) ord =
      some (fileOf (rankOut m d nranks nb ns time right (rms 0) (U 0))
        (runOuts m d nranks nb ns time right rms U)) := by
  refine writeFile_eq _ _ ?_ ?_ ord ?_
  · simp [runOuts, hn]
  · intro o ho
    obtain ⟨r, hr, rfl⟩ := List.mem_map.mp ho
    exact rankOut_ok m d nranks nb ns time right part r _ (hres r (List.mem_range.mp hr)) hm hd _
  · intro i; simpa [runOuts] using hord i

theorem runOuts_readUc [Zero α] (m : GMesh α) (d nranks nb ns : ℕ) (time : α) (right : Bool)
    (part : List ℕ) (rms : ℕ → RankMesh α) (U : ℕ → ℕ → ℕ → ℕ → α)
    (hm : MeshOK m) (hd : ∀ row ∈ m.coord, row.length = d)
    (hres : ∀ r < nranks, PartitionResult m part r (rms r)) (r : ℕ) (hr : r < nranks) :
    readParallel true nranks
      (parDsetOf 3 ((runOuts m d nranks nb ns time right rms U).map RankOut.uc)) r =
      some ⟨[(rms r).numElemsPart, nb, ns],
        viewData right (rms r).numElemsPart nb ns (U r)⟩ := by
  have hl : ((runOuts m d nranks nb ns time right rms U).map RankOut.uc).length = nranks := by
    simp [runOuts]
  have := readParallel_eq 3 ((runOuts m d nranks nb ns time right rms U).map RankOut.uc) (by
    intro b hb
    obtain ⟨o, ho, rfl⟩ := List.mem_map.mp hb
    obtain ⟨s, hs, rfl⟩ := List.mem_map.mp ho
    exact (rankOut_ok m d nranks nb ns time right part s _ (hres s (List.mem_range.mp hs)) hm hd
      _).uc) r (by rw [hl]; exact hr)
  have hconv : readParallel true nranks
      (parDsetOf 3 ((runOuts m d nranks nb ns time right rms U).map RankOut.uc)) r =
      readParallel true ((runOuts m d nranks nb ns time right rms U).map RankOut.uc).length
      (parDsetOf 3 ((runOuts m d nranks nb ns time right rms U).map RankOut.uc)) r := by rw [hl]
  rw [hconv, this]
  simp [runOuts, rankOut]

/-- A run on any number of ranks, any mesh partition, either memory layout and any order of the
file writes, followed by `read_in_coefficients` on as many ranks: each rank gets back the
coefficient of the same element, basis function and variable, for the same number of elements. -/
theorem C45_coefficients_survive [Zero α] (m : GMesh α) (d nranks nb ns : ℕ) (time : α)
    (right : Bool) (part : List ℕ) (enum : ℕ → List ℕ → List ℕ) (rms : ℕ → RankMesh α)
    (U : ℕ → ℕ → ℕ → ℕ → α) (hn : 0 < nranks)
    (hm : MeshOK m) (hp : PartOK m nranks part) (he : ∀ r, EnumOK (enum r))
    (hd : ∀ row ∈ m.coord, row.length = d)
    (hrms : ∀ r < nranks, partition m nranks nranks part (enum r) r = some (rms r))
    (ord : ℕ → List ℕ) (hord : ∀ i, (ord i).Perm (List.range nranks)) :
    ∃ f, writeFile true (runOuts m d nranks nb ns time right rms U) ord = some f ∧
      ∀ r < nranks, ∃ s, readInCoefficients nranks f r newSolver = some s ∧
        s.ne = (rms r).numElemsPart ∧ s.nb = nb ∧ s.ns = ns ∧
        ∀ i < (rms r).numElemsPart, ∀ j < nb, ∀ k < ns, s.uc i j k = some (U r i j k) := by
  have hres : ∀ r < nranks, PartitionResult m part r (rms r) :=
    fun r hr => result_of hm hp (he r) hr (hrms r hr)
  refine ⟨_, runOuts_write m d nranks nb ns time right part rms U hn hm hd hres ord hord, ?_⟩
  intro r hr
  have h1 : scatterScalar true
      ((runOuts m d nranks nb ns time right rms U).map RankOut.numElemsPart) r =
      some (rms r).numElemsPart := by
    rw [scatterScalar_eq _ r (by simp [runOuts, hr])]
    simp [runOuts, rankOut]
  have h2 := runOuts_readUc m d nranks nb ns time right part rms U hm hd hres r hr
  unfold readInCoefficients
  simp only [fileOf, h1, h2, Option.bind_eq_bind, Option.bind_some]
  refine ⟨_, rfl, rfl, rfl, rfl, ?_⟩
  intro i hi j hj k hk
  have hv := viewData_index right (rms r).numElemsPart nb ns (U r) i j k hi hj hk
  show (if i < (rms r).numElemsPart ∧ j < nb ∧ k < ns then _ else _) = _
  rw [if_pos ⟨hi, hj, hk⟩]
  simp only [rankOut, C48_bool_round_trip]
  cases right
  · simp only [Bool.false_eq_true, if_false]
    rw [← hv]; congr 1
    simp only [viewIndex, Bool.false_eq_true, if_false]; ring
  · simp only [if_true]
    rw [← hv]; congr 1
    simp only [viewIndex, if_true]; ring

/-- The file records the time of the run, but reading it back leaves the time of the solver what
it was, i.e. zero for the post-processor's newly constructed solver: the time is restored exactly
when the file was written at time zero. -/
theorem C46_time_is_not_restored [Zero α] (m : GMesh α) (d nranks nb ns : ℕ) (time : α)
    (right : Bool) (part : List ℕ) (enum : ℕ → List ℕ → List ℕ) (rms : ℕ → RankMesh α)
    (U : ℕ → ℕ → ℕ → ℕ → α) (hn : 0 < nranks)
    (hm : MeshOK m) (hp : PartOK m nranks part) (he : ∀ r, EnumOK (enum r))
    (hd : ∀ row ∈ m.coord, row.length = d)
    (hrms : ∀ r < nranks, partition m nranks nranks part (enum r) r = some (rms r))
    (ord : ℕ → List ℕ) (hord : ∀ i, (ord i).Perm (List.range nranks)) :
    ∃ f, writeFile true (runOuts m d nranks nb ns time right rms U) ord = some f ∧
      f.time = time ∧
      ∀ r < nranks, ∃ s, readInCoefficients nranks f r newSolver = some s ∧ s.time = 0 ∧
        (s.time = f.time ↔ time = 0) := by
  have hres : ∀ r < nranks, PartitionResult m part r (rms r) :=
    fun r hr => result_of hm hp (he r) hr (hrms r hr)
  obtain ⟨f, hf, hr⟩ := C45_coefficients_survive m d nranks nb ns time right part enum rms U hn hm
    hp he hd hrms ord hord
  have hw := runOuts_write m d nranks nb ns time right part rms U hn hm hd hres ord hord
  have ht : f.time = time := by
    rw [hf] at hw; cases hw; rfl
  refine ⟨f, hf, ht, fun r hrr => ?_⟩
  obtain ⟨s, hs, -⟩ := hr r hrr
  have hs0 : s.time = 0 := by
    unfold readInCoefficients at hs
    simp only [Option.bind_eq_bind, Option.bind_eq_some_iff] at hs
    obtain ⟨_, _, _, _, h⟩ := hs
    cases h; rfl
  exact ⟨s, hs, hs0, by rw [hs0, ht, eq_comm]⟩

/-- The converter copies the time of the file. -/
theorem C46_converter_keeps_time [Zero α] (n : ℕ) (f g : SolFile α) (h : convert n f = some g) :
    g.time = f.time := by
  rw [convert, Option.bind_eq_bind, Option.bind_eq_some_iff] at h
  obtain ⟨out, h1, h2⟩ := h
  have ho : out.time = f.time := by
    unfold readSerialized at h1
    split at h1
    · simp at h1
    · obtain ⟨_, -, h1⟩ := Option.bind_eq_some_iff.mp h1
      obtain ⟨_, -, h1⟩ := Option.bind_eq_some_iff.mp h1
      split at h1
      · obtain ⟨_, -, h1⟩ := Option.bind_eq_some_iff.mp h1
        obtain ⟨_, -, h1⟩ := Option.bind_eq_some_iff.mp h1
        cases h1; rfl
      · obtain ⟨_, -, h1⟩ := Option.bind_eq_some_iff.mp h1
        obtain ⟨_, -, h1⟩ := Option.bind_eq_some_iff.mp h1
        cases h1; rfl
  unfold writeFile at h2
  simp only [List.getElem?_cons_zero, Option.bind_eq_bind, Option.bind_some,
    Option.bind_eq_some_iff] at h2
  obtain ⟨_, -, _, -, _, -, _, -, _, -, _, -, h2⟩ := h2
  cases h2; exact ho

end DG
