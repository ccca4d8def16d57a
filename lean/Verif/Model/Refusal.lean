import Verif.Model.Interrupt

/-!
How a program ends on all ranks when a file it reads lacks something: the calls of the readers of the program, rank by rank.  An object
is opened by all ranks or by the head rank alone (which broadcasts or scatters what it read); who cannot open it calls `std::exit`
without telling the others (src/io/HDF5Wrapper.h 201-247, 308-315, 400-412, 542-567, 656-677, 710-775, 909-996).

Simplifications: consecutive broadcasts of one object are shown as one; a second opening of the same object by the head rank
alone (reader.h 184) is left out.  A rank that has called `std::exit` takes no part in later collectives; the launcher's reaction
(`mpirun` may kill the job) is not shown.
-/
namespace DG.Cut

variable {α : Type}

/-- One call; the flag: does it find what it asks for?  (HDF5Wrapper.h 235-247, 400-412: `all` and `head` open an object;
`fromHead`: `MPI_Bcast` or `MPI_Scatter`, 281, 316, 453, 671, 935, 990) -/
inductive Rd where
  | all (ok : Bool)
  | head (ok : Bool)
  | fromHead
  deriving DecidableEq

/-- How far the ranks have come, and which have ended (HDF5Wrapper.h 243, 409). -/
structure Ranks where
  pc : ℕ → ℕ
  dead : ℕ → Bool

/-- May rank `r` go beyond a broadcast or scatter?  It must have something from the head rank; if the MPI library synchronises
(`sync`), all ranks must have come there (HDF5Wrapper.h 281, 671). -/
def MayGo (sync : Bool) (n : ℕ) (pc : ℕ → ℕ) (r : ℕ) : Prop := pc r ≤ pc 0 ∧ (sync = true → ∀ q < n, pc r ≤ pc q)

/-- One call of one rank (HDF5Wrapper.h 235-247, 270-315, 400-412, 656-677). -/
inductive RStep (sync : Bool) (n : ℕ) (P : List Rd) : Ranks → Ranks → Prop
  | good (c : Ranks) (r : ℕ) (hr : r < n) (ha : c.dead r = false)
      (he : P[c.pc r]? = some (.all true) ∨ P[c.pc r]? = some (.head true) ∨ (r ≠ 0 ∧ P[c.pc r]? = some (.head false))) :
    RStep sync n P c ⟨Function.update c.pc r (c.pc r + 1), c.dead⟩
  | bad (c : Ranks) (r : ℕ) (hr : r < n) (ha : c.dead r = false)
      (he : P[c.pc r]? = some (.all false) ∨ (r = 0 ∧ P[c.pc r]? = some (.head false))) :
    RStep sync n P c ⟨c.pc, Function.update c.dead r true⟩
  | coll (c : Ranks) (r : ℕ) (hr : r < n) (ha : c.dead r = false) (he : P[c.pc r]? = some .fromHead) (hm : MayGo sync n c.pc r) :
    RStep sync n P c ⟨Function.update c.pc r (c.pc r + 1), c.dead⟩

/-- The states of a run (solver/base.cpp 236). -/
def RReach (sync : Bool) (n : ℕ) (P : List Rd) (c : Ranks) : Prop :=
  Relation.ReflTransGen (RStep sync n P) ⟨fun _ => 0, fun _ => false⟩ c

/-- `read_dims_of_parallel_dataset`, HDF5Wrapper.h 909-944. -/
def dimsCalls {T : Type} (n : ℕ) (x : PDset T) : List Rd :=
  [.all x.offsets.isSome, .head x.nDims.isSome, .fromHead, .head x.nRanks.isSome, .fromHead, .all (decide (x.nRanks = some n)),
    .head x.dims.isSome, .fromHead]

/-- `read_total_size_of_parallel_dataset`, HDF5Wrapper.h 969-973. -/
def totalCalls {T : Type} (x : PDset T) : List Rd := [.all x.offsets.isSome, .head x.totalSize.isSome, .fromHead]

/-- `open_and_read_parallel_dataset(name, data)`, HDF5Wrapper.h 710-775. -/
def parCalls {T : Type} (n : ℕ) (x : PDset T) : List Rd :=
  dimsCalls n x ++ totalCalls x ++ [.head x.offsets.isSome, .fromHead, .all x.data.isSome]

/-- `Solver::read_in_coefficients`, solver/base.cpp 242-256, of a file that exists if `found`. -/
def restartCalls (found : Bool) (n : ℕ) (f : PFile α) : List Rd :=
  [.all found, .head f.elemsPerPart.isSome, .fromHead, .head f.nb.isSome, .fromHead, .head f.ns.isSome, .fromHead,
    .head f.time.isSome, .fromHead, .head f.layoutAttr.isSome, .fromHead] ++ dimsCalls n f.uc ++ parCalls n f.uc

/-- `Reader::populate_parallel_dataset`, reader.h 172-181. -/
def populateCalls {T : Type} (n : ℕ) (x : PDset T) : List Rd := dimsCalls n x ++ totalCalls x ++ parCalls n x

/-- `Reader::Reader`, reader.h 29-56, 143-149: the number of ranks is compared on all ranks, but only the head rank ends. -/
def readerCalls (found : Bool) (n : ℕ) (f : PFile α) : List Rd :=
  [.all found, .head f.numRanks.isSome, .fromHead, .head (decide (f.numRanks = some n)), .head f.dim.isSome, .fromHead,
    .head f.numElems.isSome, .fromHead, .head f.numNodes.isSome, .fromHead, .head f.npe.isSome, .fromHead, .head f.nb.isSome, .fromHead,
    .head f.ns.isSome, .fromHead, .head f.time.isSome, .fromHead, .head f.layoutAttr.isSome, .fromHead,
    .head f.elemsPerPart.isSome, .fromHead] ++
  (populateCalls n f.nodeCoords ++ populateCalls n f.l2gNode ++ populateCalls n f.elemToNode ++ populateCalls n f.l2gElem ++
    populateCalls n f.uc)

/-- `Mesh::read_mesh`, mesh.cpp 79-204: the datasets are read one after the other with `open_and_read_dataset_all`
(HDF5Wrapper.h 542-567); `there`: are they in the file? -/
def meshCalls (found : Bool) (there : List Bool) : List Rd := .all found :: (there.map fun b => [.head b, .fromHead]).flatten

/-- The opening in `Writer::write`, writer.cpp 40-42, by all ranks or by the head rank alone; `writable`: can the file be created?  What
follows is in `Model/Interrupt`. -/
def writerCalls (par writable : Bool) : List Rd := if par = true then [.all writable] else [.head writable]

/-- The converter, converter/main.cpp 15-30: reading, writing by the head rank alone, and at the end the collective `H5Fclose` of the
input on all ranks (HDF5Wrapper.h 150-161), shown as waiting for the head rank.  The collectives in which only the head rank waits
(reader.h 60-68, 221) are left out. -/
def convertCalls (found writable : Bool) (n : ℕ) (f : PFile α) : List Rd := readerCalls found n f ++ writerCalls false writable ++ [.fromHead]

/-- What the converter reads: all attributes and datasets, reader.h 29-56, 143-149; `none`: one of them is missing. -/
def PFile.whole (f : PFile α) : Option (SolFile α) := do
  let numRanks ← f.numRanks
  let dim ← f.dim
  let numElems ← f.numElems
  let numNodes ← f.numNodes
  let npe ← f.npe
  let nb ← f.nb
  let ns ← f.ns
  let time ← f.time
  let elemsPerPart ← f.elemsPerPart
  let layoutAttr ← f.layoutAttr
  let nodeCoords ← f.nodeCoords.whole
  let l2gNode ← f.l2gNode.whole
  let elemToNode ← f.elemToNode.whole
  let l2gElem ← f.l2gElem.whole
  let uc ← f.uc.whole
  some ⟨numRanks, dim, numElems, numNodes, npe, nb, ns, time, elemsPerPart, layoutAttr, nodeCoords, l2gNode, elemToNode, l2gElem, uc⟩

/-- The converter run by `mpiSize` ranks on a file that need not be complete, converter/main.cpp 15-30: the file it writes. -/
def convertFile [Zero α] (mpiSize : ℕ) (f : PFile α) : Option (SolFile α) := f.whole.bind (convert mpiSize)

end DG.Cut
