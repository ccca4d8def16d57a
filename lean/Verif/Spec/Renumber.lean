import Verif.Model.IO
import Mathlib.Data.Set.Function
import Mathlib.Data.Real.Basic

/-! Specification: meshes, and solution files, that differ in the numbers of elements, nodes and faces. -/
namespace DG

/-- the same face, with the new numbers of its elements -/
def IFace.renumber (σ : ℕ → ℕ) (f : IFace) : IFace := ⟨σ f.elemL, f.faceL, f.orientL, σ f.elemR, f.faceR, f.orientR⟩

/-- `m'` is the mesh `m` with other numbers: element `e` has become element `σ e`, node `n` has become node `ν n`, and the
faces are listed in any order.  (The nodes of an element keep their order.) -/
structure Renumbered (σ ν : ℕ → ℕ) (m m' : GMesh ℝ) : Prop where
  numElems : m'.numElems = m.numElems
  npe : m'.npe = m.npe
  elems : Set.BijOn σ (Set.Iio m.numElems) (Set.Iio m.numElems)
  numNodes : m'.coord.length = m.coord.length
  nodes : Set.BijOn ν (Set.Iio m.coord.length) (Set.Iio m.coord.length)
  connLen : m'.eind.length = m.eind.length
  conn : ∀ e < m.numElems, ∀ i < m.npe, m'.eind[σ e * m.npe + i]? = (m.eind[e * m.npe + i]?).map ν
  coord : ∀ n < m.coord.length, m'.coord[ν n]? = m.coord[n]?
  faces : m'.faces.Perm (m.faces.map (IFace.renumber σ))

/-- The solution file `g'` holds what `g` holds, with the new numbers. -/
structure RenumberedFile (σ ν : ℕ → ℕ) (g g' : SolFile ℝ) : Prop where
  numElems : g'.numElems = g.numElems
  numNodes : g'.numNodes = g.numNodes
  npe : g'.npe = g.npe
  dim : g'.dim = g.dim
  numBasis : g'.nb = g.nb
  numState : g'.ns = g.ns
  time : g'.time = g.time
  elemIDs : g'.l2gElem.data = g.l2gElem.data
  nodeIDs : g'.l2gNode.data = g.l2gNode.data
  conn : ∀ e < g.numElems, ∀ i < g.npe,
    ∃ n < g.numNodes, g.elemToNode.data[e * g.npe + i]? = some n ∧ g'.elemToNode.data[σ e * g.npe + i]? = some (ν n)
  coords : ∀ n < g.numNodes, ∀ d < g.dim,
    ∃ x, g.nodeCoords.data[n * g.dim + d]? = some x ∧ g'.nodeCoords.data[ν n * g.dim + d]? = some x
  coeffs : ∀ e < g.numElems, ∀ b < g.nb, ∀ s < g.ns,
    ∃ u, g.uc.data[(e * g.nb + b) * g.ns + s]? = some u ∧ g'.uc.data[(σ e * g.nb + b) * g.ns + s]? = some u

end DG
