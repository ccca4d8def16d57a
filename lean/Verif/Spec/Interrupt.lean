import Verif.Model.Interrupt
import Verif.Spec.IO

/-!
Words for statements about interrupted writing.
-/
namespace DG.Cut

variable {T : Type} {α : Type}

/-- All ranks have made all their calls. -/
def Finished (n : ℕ) (c : Conf α) : Prop := ∀ r < n, c.pc r = prog.length

/-- A complete parallel dataset as part of a file. -/
def ofParDset (d : ParDset T) : PDset T :=
  ⟨some d.data, some d.offsets, some d.nDims, some d.nRanks, some d.totalSize, some d.dims⟩

/-- A complete file. -/
def ofSolFile (g : SolFile α) : PFile α :=
  ⟨some g.numRanks, some g.dim, some g.numElems, some g.numNodes, some g.npe, some g.nb, some g.ns, some g.time,
    some g.elemsPerPart, some g.layoutAttr, ofParDset g.nodeCoords, ofParDset g.l2gNode, ofParDset g.elemToNode,
    ofParDset g.l2gElem, ofParDset g.uc⟩

/-- `x` is `y`, or was lost. -/
def LostItem {β : Type} (x y : Option β) : Prop := x = none ∨ x = y

/-- Some parts of a dataset may have been lost. -/
structure LostDset (x y : PDset T) : Prop where
  data : LostItem x.data y.data
  offsets : LostItem x.offsets y.offsets
  nDims : LostItem x.nDims y.nDims
  nRanks : LostItem x.nRanks y.nRanks
  totalSize : LostItem x.totalSize y.totalSize
  dims : LostItem x.dims y.dims

/-- What a crash leaves of the file `y`: any of its objects may have been lost. -/
structure Lost (x y : PFile α) : Prop where
  numRanks : LostItem x.numRanks y.numRanks
  dim : LostItem x.dim y.dim
  numElems : LostItem x.numElems y.numElems
  numNodes : LostItem x.numNodes y.numNodes
  npe : LostItem x.npe y.npe
  nb : LostItem x.nb y.nb
  ns : LostItem x.ns y.ns
  time : LostItem x.time y.time
  elemsPerPart : LostItem x.elemsPerPart y.elemsPerPart
  layoutAttr : LostItem x.layoutAttr y.layoutAttr
  nodeCoords : LostDset x.nodeCoords y.nodeCoords
  l2gNode : LostDset x.l2gNode y.l2gNode
  elemToNode : LostDset x.elemToNode y.elemToNode
  l2gElem : LostDset x.l2gElem y.l2gElem
  uc : LostDset x.uc y.uc

/-- What the ranks pass to the writer: `h` is the head rank's part, and every array has as many entries as its dimensions say. -/
structure Arguments (outs : List (RankOut α)) (h : RankOut α) : Prop where
  head : outs[0]? = some h
  nodeCoords : ∀ o ∈ outs, BlockOK 2 o.nodeCoords
  l2gNode : ∀ o ∈ outs, BlockOK 1 o.l2gNode
  elemToNode : ∀ o ∈ outs, BlockOK 2 o.elemToNode
  l2gElem : ∀ o ∈ outs, BlockOK 1 o.l2gElem
  uc : ∀ o ∈ outs, BlockOK 3 o.uc

end DG.Cut
