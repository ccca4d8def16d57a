import Verif.Model.IO
import Mathlib.Logic.Function.Basic
import Mathlib.Logic.Relation

/-!
`Writer::write` (src/io/writer.cpp 36-63) in parallel, call by call, for interleaved ranks that may be stopped at any point, and the
restart (`Solver::read_in_coefficients`, src/solver/base.cpp 236-282) from the file that was left.

Simplifications: every call of the library takes effect in the file when it is made (the library's buffers are not shown; losing
objects is allowed for in `Spec/Interrupt`); groups, datasets and attributes, which all ranks create with the same calls, appear
with the call of the head rank; objects that are created and not yet written hold zeros.  `MPI_Allreduce` waits for all
ranks, `MPI_Scan` for the ranks up to the own one, `MPI_Gather` waits on the head rank only.
-/
namespace DG.Cut

variable {T : Type} {α : Type}

/-- The parts of a parallel dataset in the file; `none`: there is no object of this name (HDF5Wrapper.h 780-893). -/
structure PDset (T : Type) where
  data : Option (List T)
  offsets : Option (List ℕ)
  nDims : Option ℕ
  nRanks : Option ℕ
  totalSize : Option ℕ
  dims : Option (List ℕ)

/-- A solution file, not necessarily complete (writer.cpp 44-62); `none`: there is no object of this name. -/
structure PFile (α : Type) where
  numRanks : Option ℕ
  dim : Option ℕ
  numElems : Option ℕ
  numNodes : Option ℕ
  npe : Option ℕ
  nb : Option ℕ
  ns : Option ℕ
  time : Option α
  elemsPerPart : Option (List ℕ)
  layoutAttr : Option ℤ
  nodeCoords : PDset α
  l2gNode : PDset ℕ
  elemToNode : PDset ℕ
  l2gElem : PDset ℕ
  uc : PDset α

/-- no object of these names (HDF5Wrapper.h 780) -/
def PDset.empty : PDset T := ⟨none, none, none, none, none, none⟩

/-- The file after `file.open(name, H5F_ACC_TRUNC, parallel)`, writer.cpp 42. -/
def PFile.empty : PFile α :=
  ⟨none, none, none, none, none, none, none, none, none, none, .empty, .empty, .empty, .empty, .empty⟩

/-- The attributes of the file, writer.cpp 45-54. -/
inductive Attr where
  | numRanks | dim | numElems | numNodes | npe | nb | ns | time | layout
  deriving DecidableEq

/-- The parallel datasets, writer.cpp 56-60. -/
inductive DName where
  | nodeCoords | l2gNode | elemToNode | l2gElem | uc
  deriving DecidableEq

/-- The small parts of a parallel dataset, HDF5Wrapper.h 858-891. -/
inductive Part where
  | offsets | nDims | nRanks | totalSize | dims
  deriving DecidableEq

/-- The calls of one rank; the flag tells the creation of an object (`false`) from writing to it (`true`); see `dsetProg`, `prog`
(writer.cpp 44-60, HDF5Wrapper.h 620-654, 780-893). -/
inductive Ev where
  | allreduce
  | scan
  | gather
  | attr (a : Attr) (written : Bool)
  | counts (written : Bool)
  | create (d : DName)
  | slab (d : DName)
  | part (d : DName) (p : Part) (written : Bool)
  deriving DecidableEq

/-- `create_and_write_parallel_dataset`, HDF5Wrapper.h 780-893: 788, 798, 809, 832, 851/854 (gather), 862 and 864, 873-875, 882/885,
891. -/
def dsetProg (d : DName) : List Ev :=
  [.allreduce, .create d, .scan, .slab d, .gather, .part d .offsets false, .part d .offsets true,
    .part d .nDims false, .part d .nDims true, .part d .nRanks false, .part d .nRanks true,
    .part d .totalSize false, .part d .totalSize true, .gather, .part d .dims false, .part d .dims true]

/-- `Writer::write`, writer.cpp 44-60. -/
def prog : List Ev :=
  [.attr .numRanks false, .attr .numRanks true, .attr .dim false, .attr .dim true, .attr .numElems false, .attr .numElems true,
    .attr .numNodes false, .attr .numNodes true, .attr .npe false, .attr .npe true, .attr .nb false, .attr .nb true,
    .attr .ns false, .attr .ns true, .attr .time false, .attr .time true, .gather, .counts false, .counts true,
    .attr .layout false, .attr .layout true] ++
  (dsetProg .nodeCoords ++ dsetProg .l2gNode ++ dsetProg .elemToNode ++ dsetProg .l2gElem ++ dsetProg .uc)

/-- The effect on a parallel dataset of creating it, HDF5Wrapper.h 784-803. -/
def createData [Zero T] (bs : List (Block T)) (x : PDset T) : PDset T :=
  { x with data := some (List.replicate (bs.map fun b => dimsProd b.dims).sum 0) }

/-- The effect of the `H5Dwrite` of rank `r`, HDF5Wrapper.h 832. -/
def writeData (bs : List (Block T)) (r : ℕ) (x : PDset T) : PDset T := { x with data := x.data.bind fun f => writeRank true bs f r }

/-- The number of dimensions of the head rank's data, HDF5Wrapper.h 868-871. -/
def headDims (bs : List (Block T)) : ℕ := match bs[0]? with
  | some b => if b.dims.length = 0 then 1 else b.dims.length
  | none => 1

/-- The effect of creating or writing a small part, HDF5Wrapper.h 845-891. -/
def setPart (bs : List (Block T)) (p : Part) (w : Bool) (x : PDset T) : PDset T :=
  match p with
  | .offsets => { x with offsets := some (if w then (List.range bs.length).map (writeOffset true (bs.map fun b => dimsProd b.dims))
      else List.replicate bs.length 0) }
  | .nDims => { x with nDims := some (if w then headDims bs else 0) }
  | .nRanks => { x with nRanks := some (if w then bs.length else 0) }
  | .totalSize => { x with totalSize := some (if w then (bs.map fun b => dimsProd b.dims).sum else 0) }
  | .dims => { x with dims := (if w then mpiGather (headDims bs) (bs.map Block.dims)
      else some (List.replicate (headDims bs * bs.length) 0)) }

/-- The effect of creating or writing an attribute of the file, writer.cpp 45-54 (values of the head rank `h`). -/
def setAttr [Zero α] (h : RankOut α) (a : Attr) (w : Bool) (f : PFile α) : PFile α :=
  match a with
  | .numRanks => { f with numRanks := some (if w then h.numRanks else 0) }
  | .dim => { f with dim := some (if w then h.dim else 0) }
  | .numElems => { f with numElems := some (if w then h.numElems else 0) }
  | .numNodes => { f with numNodes := some (if w then h.numNodes else 0) }
  | .npe => { f with npe := some (if w then h.npe else 0) }
  | .nb => { f with nb := some (if w then h.nb else 0) }
  | .ns => { f with ns := some (if w then h.ns else 0) }
  | .time => { f with time := some (if w then h.time else 0) }
  | .layout => { f with layoutAttr := some (if w then boolToAttr h.layoutRight else 0) }

/-- A change of the parallel dataset with name `d`, given for the blocks of all ranks (writer.cpp 56-60). -/
def onDset [Zero α] (outs : List (RankOut α)) (d : DName) (g : {S : Type} → [Zero S] → List (Block S) → PDset S → PDset S)
    (f : PFile α) : PFile α :=
  match d with
  | .nodeCoords => { f with nodeCoords := g (outs.map RankOut.nodeCoords) f.nodeCoords }
  | .l2gNode => { f with l2gNode := g (outs.map RankOut.l2gNode) f.l2gNode }
  | .elemToNode => { f with elemToNode := g (outs.map RankOut.elemToNode) f.elemToNode }
  | .l2gElem => { f with l2gElem := g (outs.map RankOut.l2gElem) f.l2gElem }
  | .uc => { f with uc := g (outs.map RankOut.uc) f.uc }

/-- The effect of a call of rank `r` on the file; `outs`: the arguments of all ranks, `h` of the head rank (writer.cpp 36-63). -/
def effect [Zero α] (outs : List (RankOut α)) (h : RankOut α) (r : ℕ) (e : Ev) (f : PFile α) : PFile α :=
  match e with
  | .slab d => onDset outs d (fun bs => writeData bs r) f
  | .create d => if r = 0 then onDset outs d (fun bs => createData bs) f else f
  | .part d p w => if r = 0 then onDset outs d (fun bs => setPart bs p w) f else f
  | .attr a w => if r = 0 then setAttr h a w f else f
  | .counts w => if r = 0 then
      { f with elemsPerPart := if w then gatherScalar true (outs.map RankOut.numElemsPart) else some (List.replicate outs.length 0) }
    else f
  | .allreduce | .scan | .gather => f

/-- How far every rank has come in `prog` (writer.cpp 44-60), and the file. -/
structure Conf (α : Type) where
  pc : ℕ → ℕ
  file : PFile α

/-- May rank `r` of `n` go beyond its next call?  (`MPI_Allreduce`, HDF5Wrapper.h 788; `MPI_Scan`, 809; `MPI_Gather`, 649, 851, 882) -/
def May (n : ℕ) (pc : ℕ → ℕ) (r : ℕ) : Ev → Prop
  | .allreduce => ∀ q < n, pc r ≤ pc q
  | .scan => ∀ q ≤ r, pc r ≤ pc q
  | .gather => r = 0 → ∀ q < n, pc r ≤ pc q
  | _ => True

/-- One rank makes its next call (writer.cpp 44-60). -/
inductive Step [Zero α] (outs : List (RankOut α)) (h : RankOut α) : Conf α → Conf α → Prop
  | mk (c : Conf α) (r : ℕ) (e : Ev) (hr : r < outs.length) (he : prog[c.pc r]? = some e) (hm : May outs.length c.pc r e) :
    Step outs h c ⟨Function.update c.pc r (c.pc r + 1), effect outs h r e c.file⟩

/-- The states in which a run can be stopped (writer.cpp 42-60). -/
def Reachable [Zero α] (outs : List (RankOut α)) (h : RankOut α) (c : Conf α) : Prop :=
  Relation.ReflTransGen (Step outs h) ⟨fun _ => 0, .empty⟩ c

/-- All parts of a parallel dataset, or the message that one cannot be opened (HDF5Wrapper.h 700-775, 909-996). -/
def PDset.whole (x : PDset T) : Option (ParDset T) := do
  let data ← x.data
  let offsets ← x.offsets
  let nDims ← x.nDims
  let nRanks ← x.nRanks
  let totalSize ← x.totalSize
  let dims ← x.dims
  some ⟨data, offsets, nDims, nRanks, totalSize, dims⟩

/-- `Solver::read_in_coefficients`, solver/base.cpp 236-282, on a file that need not be complete: what it asks for must be there
(otherwise it ends with a message, HDF5Wrapper.h 220-247, 400-412); objects it does not ask for are not looked at. -/
def restart (mpiSize : ℕ) (f : PFile α) (r : ℕ) (s : SolverState α) : Option (SolverState α) := do
  let counts ← f.elemsPerPart
  let nb ← f.nb
  let ns ← f.ns
  let time ← f.time
  let layout ← f.layoutAttr
  let uc ← f.uc.whole
  readInCoefficients mpiSize
    { numRanks := 0, dim := 0, numElems := 0, numNodes := 0, npe := 0, nb := nb, ns := ns, time := time, elemsPerPart := counts,
      layoutAttr := layout, nodeCoords := ⟨[], [], 0, 0, 0, []⟩, l2gNode := ⟨[], [], 0, 0, 0, []⟩, elemToNode := ⟨[], [], 0, 0, 0, []⟩,
      l2gElem := ⟨[], [], 0, 0, 0, []⟩, uc := uc } r s

end DG.Cut
