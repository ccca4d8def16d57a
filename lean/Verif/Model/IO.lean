import Verif.Model.Mesh
import Mathlib.Algebra.BigOperators.Group.List.Basic

/-!
Model of the HDF5 layer (`src/io/HDF5Wrapper.h`), of the solution file writer and reader
(`src/io/writer.cpp`, `src/io/reader.h`), of the converter (`src/converter/main.cpp`) and of
`Solver::read_in_coefficients` (`src/solver/base.cpp:236-282`).

Each collective function is modelled once for all ranks: its arguments are the lists of the
arguments of the ranks (index = rank, the head rank is 0), MPI collectives are functions of these
lists, and the order in which the ranks' independent `H5Dwrite` calls reach the file is an
argument.  `none` = the program exits with an error or the behaviour is undefined (a buffer is
accessed outside its bounds).  Not modelled: groups, 32-bit truncation of sizes and offsets
passed to MPI (`static_cast<int>`), HDF5 errors of the file system.
-/
namespace DG

variable {T : Type} {α : Type}

/-- `std::accumulate(dims.begin(), dims.end(), 1, std::multiplies)`, HDF5Wrapper.h:705,786. -/
def dimsProd (dims : List ℕ) : ℕ := dims.foldl (· * ·) 1

/-- `H5Sselect_hyperslab` + `H5Dwrite` of a contiguous block of a one-dimensional dataset,
HDF5Wrapper.h:828-840. -/
def writeSlab (file : List T) (off : ℕ) (d : List T) : Option (List T) :=
  if off + d.length ≤ file.length then
    some (file.take off ++ (d ++ file.drop (off + d.length)))
  else none

/-- `n` consecutive entries of a buffer from position `off` (`H5Dread` of a hyperslab,
HDF5Wrapper.h:744-756; also reading `n` items through a pointer). -/
def readSlab (buf : List T) (off n : ℕ) : Option (List T) :=
  if off + n ≤ buf.length then some ((buf.drop off).take n) else none

/-- `MPI_Scan` with `MPI_SUM`: the inclusive prefix sum on rank `r`. (HDF5Wrapper.h:809) -/
def mpiScan (xs : List ℕ) (r : ℕ) : ℕ := (xs.take (r + 1)).sum

/-- `MPI_Gather` of `cnt` items per rank: the head rank's receive buffer. (HDF5Wrapper.h:649, 851, 882) -/
def mpiGather (cnt : ℕ) (bufs : List (List T)) : Option (List T) :=
  (bufs.mapM (fun b => readSlab b 0 cnt)).map List.flatten

/-- `MPI_Scatter` of `cnt` items per rank from the head rank's buffer: what rank `r` receives. (HDF5Wrapper.h:671, 935, 990) -/
def mpiScatter (cnt : ℕ) (buf : List T) (r : ℕ) : Option (List T) := readSlab buf (r * cnt) cnt

/-! ### Parallel datasets -/

/-- The arguments `dims` and `data` of one rank. (HDF5Wrapper.h:780-800) -/
structure Block (T : Type) where
  dims : List ℕ
  data : List T
deriving DecidableEq, Repr

/-- What the file contains for one parallel dataset: the flattened data, the dataset
`name_offsets` with its attributes `nDims`, `nRanks`, `totalSize`, and the dataset `name_dims`. (HDF5Wrapper.h:780-907) -/
structure ParDset (T : Type) where
  data : List T
  offsets : List ℕ
  nDims : ℕ
  nRanks : ℕ
  totalSize : ℕ
  dims : List ℕ
deriving DecidableEq, Repr

/-- The offset of rank `r`, HDF5Wrapper.h:808-813. -/
def writeOffset (par : Bool) (sizes : List ℕ) (r : ℕ) : ℕ :=
  if par then mpiScan sizes r - sizes.getD r 0 else 0

/-- The write of rank `r`, HDF5Wrapper.h:815-840: `localSize` items are taken from the data
pointer and stored in the rank's region. -/
def writeRank (par : Bool) (bs : List (Block T)) (file : List T) (r : ℕ) : Option (List T) := do
  let b ← bs[r]?
  let chunk ← readSlab b.data 0 (dimsProd b.dims)
  writeSlab file (writeOffset par (bs.map fun b => dimsProd b.dims) r) chunk

/-- The dataset `name_dims`, HDF5Wrapper.h:872-891: `nd` dimensions gathered from every rank, or
the dimensions of the only writer. -/
def gatherDims (par : Bool) (nd : ℕ) (bs : List (Block T)) (head : Block T) : Option (List ℕ) :=
  if par then mpiGather nd (bs.map Block.dims) else some head.dims

/-- `create_and_write_parallel_dataset`, HDF5Wrapper.h:779-892.  `par` = the file was opened in
parallel mode; `bs` = the blocks of all ranks (of the single writer if not `par`); `order` = the
order in which the ranks' writes take effect.  A new dataset is filled with zeros. -/
def writeParallel [Zero T] (par : Bool) (bs : List (Block T)) (order : List ℕ) :
    Option (ParDset T) := do
  let sizes := bs.map fun b => dimsProd b.dims
  let total := sizes.sum
  let file ← order.foldlM (writeRank par bs) (List.replicate total 0)
  let head ← bs[0]?
  let nd := if head.dims.length = 0 then 1 else head.dims.length
  let dimsAll ← gatherDims par nd bs head
  some { data := file
         offsets := if par then (List.range bs.length).map (writeOffset par sizes) else [0]
         nDims := nd
         nRanks := bs.length
         totalSize := total
         dims := dimsAll }

/-- `read_dims_of_parallel_dataset`, HDF5Wrapper.h:909-944, on rank `r` of `mpiSize`. -/
def readDims (par : Bool) (mpiSize : ℕ) (f : ParDset T) (r : ℕ) : Option (List ℕ) :=
  if f.nRanks = (if par then mpiSize else 1) then
    if par then mpiScatter f.nDims f.dims r else some f.dims
  else none

/-- `read_offset_of_parallel_dataset`, HDF5Wrapper.h:981-996. -/
def readOffset (par : Bool) (f : ParDset T) (r : ℕ) : Option ℕ :=
  if par then (mpiScatter 1 f.offsets r).bind (fun l => l[0]?) else some 0

/-- `open_and_read_parallel_dataset`, HDF5Wrapper.h:700-775, on rank `r`: data and dimensions. -/
def readParallel (par : Bool) (mpiSize : ℕ) (f : ParDset T) (r : ℕ) : Option (Block T) := do
  let dims ← readDims par mpiSize f r
  let off ← readOffset par f r
  if off + dimsProd dims ≤ f.totalSize then
    let data ← readSlab f.data off (dimsProd dims)
    some { dims := dims, data := data }
  else none

/-! ### Scalars and attributes -/

/-- `create_and_write_dataset_gather_scalar`, HDF5Wrapper.h:638-654: the dataset written, from
the values of all ranks. -/
def gatherScalar (par : Bool) (vals : List T) : Option (List T) :=
  if par then mpiGather 1 (vals.map fun v => [v]) else vals[0]?.map fun v => [v]

/-- `open_and_read_dataset_scatter_scalar`, HDF5Wrapper.h:656-677, on rank `r`.  The head rank
first reads entry 0. -/
def scatterScalar (par : Bool) (ds : List T) (r : ℕ) : Option T := do
  let v0 ← ds[0]?
  if par then (mpiScatter 1 ds r).bind (fun l => l[0]?) else some v0

/-- `write_to_attribute<bool>`, HDF5Wrapper.h:330-334: a boolean is stored as an `int`. -/
def boolToAttr (b : Bool) : ℤ := if b then 1 else 0

/-- `read_attribute_all<bool>`, HDF5Wrapper.h:243-300: read on the head rank as an `int`, made a
boolean, broadcast as an `int`, made a boolean again. -/
def attrToBool (v : ℤ) : Bool :=
  let value : Bool := decide (v ≠ 0)
  let tmp : ℤ := if value then 1 else 0
  decide (tmp ≠ 0)

/-! ### The solution file -/

/-- The arguments of `Writer::write`, writer.cpp:10-33, on one rank. -/
structure RankOut (α : Type) where
  numRanks : ℕ
  dim : ℕ
  numElems : ℕ
  numNodes : ℕ
  npe : ℕ
  nb : ℕ
  ns : ℕ
  time : α
  numElemsPart : ℕ
  layoutRight : Bool
  nodeCoords : Block α
  l2gNode : Block ℕ
  elemToNode : Block ℕ
  l2gElem : Block ℕ
  uc : Block α

/-- The contents of a solution file. (writer.cpp:30-65) -/
structure SolFile (α : Type) where
  numRanks : ℕ
  dim : ℕ
  numElems : ℕ
  numNodes : ℕ
  npe : ℕ
  nb : ℕ
  ns : ℕ
  time : α
  elemsPerPart : List ℕ
  layoutAttr : ℤ
  nodeCoords : ParDset α
  l2gNode : ParDset ℕ
  elemToNode : ParDset ℕ
  l2gElem : ParDset ℕ
  uc : ParDset α

/-- `Writer::write`, writer.cpp:36-63, by all ranks (or, if not `par`, by the head rank alone:
`outs` has one entry).  Attributes must be passed identically by all ranks; the head rank's value
is used.  `ord i` is the order of the ranks' writes to the `i`-th dataset. -/
def writeFile [Zero α] (par : Bool) (outs : List (RankOut α)) (ord : ℕ → List ℕ) :
    Option (SolFile α) := do
  let h ← outs[0]?
  let epp ← gatherScalar par (outs.map RankOut.numElemsPart)
  let nc ← writeParallel par (outs.map RankOut.nodeCoords) (ord 0)
  let ln ← writeParallel par (outs.map RankOut.l2gNode) (ord 1)
  let en ← writeParallel par (outs.map RankOut.elemToNode) (ord 2)
  let le ← writeParallel par (outs.map RankOut.l2gElem) (ord 3)
  let uc ← writeParallel par (outs.map RankOut.uc) (ord 4)
  some { numRanks := h.numRanks, dim := h.dim, numElems := h.numElems, numNodes := h.numNodes,
         npe := h.npe, nb := h.nb, ns := h.ns, time := h.time, elemsPerPart := epp,
         layoutAttr := boolToAttr h.layoutRight, nodeCoords := nc, l2gNode := ln,
         elemToNode := en, l2gElem := le, uc := uc }

/-- Position of entry `(i,j,k)` in the memory of an `ne × nb × ns` Kokkos view: `LayoutRight`
(row-major) or `LayoutLeft` (column-major), contiguous, without padding. (`h_Uc.data()` of writer.cpp:68-98) -/
def viewIndex (right : Bool) (ne nb ns i j k : ℕ) : ℕ :=
  if right then (i * nb + j) * ns + k else i + ne * (j + nb * k)

/-- The memory (`h_Uc.data()`, writer.cpp:94) of a view whose entries are `U i j k`. -/
def viewData (right : Bool) (ne nb ns : ℕ) (U : ℕ → ℕ → ℕ → α) : List α :=
  (List.range (ne * nb * ns)).map fun p =>
    if right then U (p / (nb * ns)) (p / ns % nb) (p % ns)
    else U (p % ne) (p / ne % nb) (p / (ne * nb))

/-- `Writer::Writer(name, mesh, network, h_Uc, nb, ns, time)`, writer.cpp:68-98, on one rank: the
arguments passed to `write`.  `rm` is the rank's mesh, `U` its view of coefficients.  The mesh
arrays are row-major, as on a host build (`LayoutRight`). -/
def rankOut (m : GMesh α) (d nranks nb ns : ℕ) (time : α) (right : Bool)
    (rm : RankMesh α) (U : ℕ → ℕ → ℕ → α) : RankOut α where
  numRanks := nranks
  dim := d
  numElems := m.numElems
  numNodes := m.coord.length
  npe := m.npe
  nb := nb
  ns := ns
  time := time
  numElemsPart := rm.numElemsPart
  layoutRight := right
  nodeCoords := { dims := [rm.numNodesPart, d], data := rm.nodeCoords.flatten }
  l2gNode := { dims := [rm.numNodesPart], data := rm.l2gNode }
  elemToNode := { dims := [rm.numElemsPart, m.npe], data := rm.elemToNode.flatten }
  l2gElem := { dims := [rm.numElemsPart], data := rm.l2gElem }
  uc := { dims := [rm.numElemsPart, nb, ns], data := viewData right rm.numElemsPart nb ns U }

/-! ### The reader -/

/-- `localSizes` on the head rank, reader.h:184-188 (`offsets` is not empty). -/
def localSizes (offsets : List ℕ) (total : ℕ) : List ℕ :=
  (List.range offsets.length).map fun i =>
    if i < offsets.length - 1 then offsets.getD (i + 1) 0 - offsets.getD i 0
    else total - offsets.getD i 0

/-- `MPI_Gatherv`, reader.h:221: block `i` of `counts[i]` items is placed at `displs[i]`. -/
def mpiGatherv [Zero T] (bufs : List (List T)) (counts displs : List ℕ) (size : ℕ) :
    Option (List T) :=
  (List.range bufs.length).foldlM (fun out i => do
    let b ← bufs[i]?
    let c ← counts[i]?
    let d ← displs[i]?
    if b.length = c then writeSlab out d b else none) (List.replicate size 0)

/-- the dimensions of a serialised dataset, reader.h:223-229: the first one is the total size
divided by the others -/
def serialDims (total : ℕ) : List ℕ → Option (List ℕ)
  | [] => none
  | _ :: ds => do
    let d0 ← ds.foldlM (fun acc d => if d = 0 then none else some (acc / d)) total
    some (d0 :: ds)

/-- `serialize_dataset`, reader.h:193-233: data and dimensions on the head rank.  `bs` = the
blocks held by all ranks, `f` = the dataset in the file. -/
def serializeDataset [Zero T] (bs : List (Block T)) (f : ParDset T) : Option (Block T) := do
  let h ← bs[0]?
  let data ← mpiGatherv (bs.map Block.data) (localSizes f.offsets f.totalSize) f.offsets f.totalSize
  let dims ← serialDims f.totalSize h.dims
  some { dims := dims, data := data }

/-- The loops reader.h:77-89 and 99-107: row `i` of `src` (`w` entries) is copied to row `idx[i]`
of `dst`. -/
def placeRows (w : ℕ) (idx : List ℕ) (src dst : List T) : Option (List T) :=
  (List.range idx.length).foldlM (fun d i => do
    let g ← idx[i]?
    (List.range w).foldlM (fun d k => do
      let v ← src[i * w + k]?
      setB d (g * w + k) v) d) dst

/-- `*std::max_element`; `none` = dereferencing `end()`. (reader.h:93) -/
def maxElem : List ℕ → Option ℕ
  | [] => none
  | x :: xs => some (xs.foldl max x)

/-- `std::vector<unsigned>::resize`. (reader.h:112, 177) -/
def resizeN (l : List ℕ) (n : ℕ) : List ℕ := l.take n ++ List.replicate (n - l.length) 0

/-- The translation reader.h:153-159 of the local node IDs of one rank's elements. -/
def toGlobalNodes (l2g : Block ℕ) (e2n : Block ℕ) : Option (Block ℕ) := do
  let d ← e2n.data.mapM fun ln => l2g.data[ln]?
  some { dims := e2n.dims, data := d }

/-- The five parallel datasets of a reader on one rank (reader.h:137-141). -/
structure RankSets (α : Type) where
  nodeCoords : Block α
  l2gNode : Block ℕ
  elemToNode : Block ℕ
  l2gElem : Block ℕ
  uc : Block α

/-- reader.h:147-151: rank `r` reads its blocks. -/
def readSets (mpiSize : ℕ) (f : SolFile α) (r : ℕ) : Option (RankSets α) := do
  let nc ← readParallel true mpiSize f.nodeCoords r
  let ln ← readParallel true mpiSize f.l2gNode r
  let en ← readParallel true mpiSize f.elemToNode r
  let le ← readParallel true mpiSize f.l2gElem r
  let uc ← readParallel true mpiSize f.uc r
  some ⟨nc, ln, en, le, uc⟩

/-- reader.h:153-168 (more than one rank): translate the node IDs on every rank, then gather the
five datasets on the head rank. -/
def serializeSets [Zero α] (f : SolFile α) (rs : List (RankSets α)) : Option (RankSets α) := do
  let en ← rs.mapM fun s => toGlobalNodes s.l2gNode s.elemToNode
  let nc ← serializeDataset (rs.map RankSets.nodeCoords) f.nodeCoords
  let ln ← serializeDataset (rs.map RankSets.l2gNode) f.l2gNode
  let en ← serializeDataset en f.elemToNode
  let le ← serializeDataset (rs.map RankSets.l2gElem) f.l2gElem
  let uc ← serializeDataset (rs.map RankSets.uc) f.uc
  some ⟨nc, ln, en, le, uc⟩

/-- reader.h:70-114 (head rank, more than one rank): elements are moved to the row of their
global ID, nodes to the row of their global ID without duplicates.  (Inside the loop of lines
77-89 entry `i` of the ID table is overwritten after it has been used, and it is not used
again.) -/
def reorderSets [Zero α] (s : RankSets α) : Option (RankSets α) := do
  let ew ← s.elemToNode.dims[1]?
  let ub ← s.uc.dims[1]?
  let us ← s.uc.dims[2]?
  let en ← placeRows ew s.l2gElem.data s.elemToNode.data s.elemToNode.data
  let uc ← placeRows (ub * us) s.l2gElem.data s.uc.data s.uc.data
  let mx ← maxElem s.l2gNode.data
  let cw ← s.nodeCoords.dims[1]?
  let nc ← placeRows cw s.l2gNode.data s.nodeCoords.data (List.replicate ((1 + mx) * cw) 0)
  some { nodeCoords := { dims := s.nodeCoords.dims.set 0 (1 + mx), data := nc }
         l2gNode := { dims := s.l2gNode.dims.set 0 (1 + mx),
                      data := resizeN (List.range s.l2gNode.data.length) (1 + mx) }
         elemToNode := { dims := s.elemToNode.dims, data := en }
         l2gElem := { dims := s.l2gElem.dims, data := List.range s.l2gElem.data.length }
         uc := { dims := s.uc.dims, data := uc } }

/-- The members of the reader passed to `Writer::write`, writer.cpp:109-126. -/
def readerOut (f : SolFile α) (numRanks numElemsPart : ℕ) (s : RankSets α) : RankOut α :=
  { numRanks := numRanks, dim := f.dim, numElems := f.numElems, numNodes := f.numNodes,
    npe := f.npe, nb := f.nb, ns := f.ns, time := f.time, numElemsPart := numElemsPart,
    layoutRight := attrToBool f.layoutAttr,
    nodeCoords := s.nodeCoords, l2gNode := s.l2gNode, elemToNode := s.elemToNode,
    l2gElem := s.l2gElem, uc := s.uc }

/-- `Reader::Reader(filename, serialize = true)` run by `mpiSize` ranks (reader.h:29-116): what
the head rank holds at the end, as the arguments it will pass to `Writer::write`
(writer.cpp:109-126). -/
def readSerialized [Zero α] (mpiSize : ℕ) (f : SolFile α) : Option (RankOut α) :=
  if mpiSize ≠ f.numRanks then none
  else do
    let epp ← (List.range mpiSize).mapM (scatterScalar true f.elemsPerPart)
    let rs ← (List.range mpiSize).mapM (readSets mpiSize f)
    if mpiSize > 1 then do
      let s ← serializeSets f rs
      let s' ← reorderSets s
      some (readerOut f 1 epp.sum s')
    else do
      let e0 ← epp[0]?
      let s ← rs[0]?
      some (readerOut f f.numRanks e0 s)

/-- `src/converter/main.cpp`: read with `serialize = true` by `mpiSize` ranks, write with
`parallel = false` (head rank only). (converter/main.cpp:15-30) -/
def convert [Zero α] (mpiSize : ℕ) (f : SolFile α) : Option (SolFile α) := do
  let out ← readSerialized mpiSize f
  writeFile false [out] (fun _ => [0])

/-! ### Restarting the post-processor -/

/-- The part of a solver that reading a file concerns: its time, and the coefficients. (solver/base.h:17-90, as used in solver/base.cpp:236-282) -/
structure SolverState (α : Type) where
  time : α
  ne : ℕ
  nb : ℕ
  ns : ℕ
  uc : ℕ → ℕ → ℕ → Option α

/-- A newly constructed solver, solver/base.cpp:25 (`time = 0.0`). -/
def newSolver [Zero α] : SolverState α :=
  { time := 0, ne := 0, nb := 0, ns := 0, uc := fun _ _ _ => none }

/-- `Solver::read_in_coefficients`, solver/base.cpp:236-282, on rank `r` of `mpiSize`.  The time
stored in the file is read into a local variable that is not used.  An entry of the view is
`none` if it is not assigned or is assigned from outside the buffer. -/
def readInCoefficients (mpiSize : ℕ) (f : SolFile α) (r : ℕ) (s : SolverState α) :
    Option (SolverState α) := do
  let ne ← scatterScalar true f.elemsPerPart r
  let nb := f.nb
  let ns := f.ns
  let buff ← readParallel true mpiSize f.uc r
  some { time := s.time, ne := ne, nb := nb, ns := ns,
         uc := fun i j k =>
           if i < ne ∧ j < nb ∧ k < ns then
             if attrToBool f.layoutAttr then buff.data[i * nb * ns + j * ns + k]?
             else buff.data[k * nb * ne + j * ne + i]?
           else none }

end DG
