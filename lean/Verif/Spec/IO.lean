import Verif.Model.IO
import Verif.Spec.Mesh

/-! What callers of the I/O layer must provide, and what they get. -/
namespace DG

variable {T : Type} {α : Type}

/-- What a rank must pass to a parallel write: as many dimensions as the other ranks, and as many
data as the product of the dimensions. -/
structure BlockOK (nd : ℕ) (b : Block T) : Prop where
  dims : b.dims.length = nd
  size : b.data.length = dimsProd b.dims

/-- The solution file of an unpartitioned run: elements and nodes in the order of the mesh file,
the connectivity and the coordinates of the mesh file, and coefficient `V e j k` for element `e`,
basis function `j`, variable `k`, in row-major order. -/
structure SerialFileOf (m : GMesh α) (d nb ns : ℕ) (time : α) (V : ℕ → ℕ → ℕ → α)
    (g : SolFile α) : Prop where
  numRanks : g.numRanks = 1
  dim : g.dim = d
  numElems : g.numElems = m.numElems
  numNodes : g.numNodes = m.coord.length
  npe : g.npe = m.npe
  numBasis : g.nb = nb
  numState : g.ns = ns
  finalTime : g.time = time
  elemsPerPart : g.elemsPerPart = [m.numElems]
  layout : attrToBool g.layoutAttr = true
  elemIDs : g.l2gElem.data = List.range m.numElems ∧ g.l2gElem.dims = [m.numElems]
  nodeIDs : g.l2gNode.data = List.range m.coord.length ∧ g.l2gNode.dims = [m.coord.length]
  connectivity : g.elemToNode.data = m.eind ∧ g.elemToNode.dims = [m.numElems, m.npe]
  coords : g.nodeCoords.data = m.coord.flatten ∧ g.nodeCoords.dims = [m.coord.length, d]
  coeffs : ∀ e < m.numElems, ∀ j < nb, ∀ k < ns,
    g.uc.data[(e * nb + j) * ns + k]? = some (V e j k)
  coeffDims : g.uc.data.length = m.numElems * nb * ns ∧ g.uc.dims = [m.numElems, nb, ns]

/-- Every node of the mesh file belongs to some element. -/
def AllNodesUsed (m : GMesh α) : Prop := ∀ g < m.coord.length, g ∈ m.eind

end DG
