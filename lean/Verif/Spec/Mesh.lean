import Verif.Model.Mesh

/-! Preconditions of `Mesh::partition`: what a mesh file and the partitioner must provide. -/
namespace DG

/-- A consistent mesh file: arrays have their advertised sizes and IDs are in range, and the
numbers of elements, nodes and faces fit in an `unsigned`. -/
structure MeshOK {α : Type _} (m : GMesh α) : Prop where
  eindLen : m.eind.length = m.numElems * m.npe
  nodes : ∀ g ∈ m.eind, g < m.coord.length
  faces : ∀ f ∈ m.faces, f.elemL < m.numElems ∧ f.elemR < m.numElems
  elemsFit : m.numElems ≤ UINT_MAX
  nodesFit : m.coord.length ≤ UINT_MAX
  facesFit : m.faces.length ≤ UINT_MAX

/-- A valid answer of the partitioner: one part number per element, below the number of parts,
which is the number of ranks (the default of the constructor). -/
structure PartOK {α : Type _} (m : GMesh α) (nranks : ℕ) (part : List ℕ) : Prop where
  len : part.length = m.numElems
  lt : ∀ p ∈ part, p < nranks

/-- Iterating over a hash set visits each member once, in some order. -/
def EnumOK (enum : List ℕ → List ℕ) : Prop := ∀ l, (enum l).Perm l

/-- Element `e` is assigned to rank `r`. -/
def Owns (part : List ℕ) (r e : ℕ) : Prop := part[e]? = some r

instance (part : List ℕ) (r e : ℕ) : Decidable (Owns part r e) := by unfold Owns; infer_instance

/-- Face number `g` of the mesh file is `f`. -/
def IsFace {α : Type _} (m : GMesh α) (g : ℕ) (f : IFace) : Prop := m.faces[g]? = some f

/-- face `f` has an element on rank `r` -/
def Touches (part : List ℕ) (r : ℕ) (f : IFace) : Prop :=
  part[f.elemL]? = some r ∨ part[f.elemR]? = some r

instance (part : List ℕ) (r : ℕ) (f : IFace) : Decidable (Touches part r f) := by
  unfold Touches; infer_instance

/-- the two elements of `f` are on different ranks -/
def Ghost (part : List ℕ) (f : IFace) : Prop := part[f.elemL]? ≠ part[f.elemR]?

instance (part : List ℕ) (f : IFace) : Decidable (Ghost part f) := by
  unfold Ghost; infer_instance

/-- one element of `f` is on `r`, the other on `s` -/
def Between (part : List ℕ) (r s : ℕ) (f : IFace) : Prop :=
  (part[f.elemL]? = some r ∧ part[f.elemR]? = some s) ∨
  (part[f.elemL]? = some s ∧ part[f.elemR]? = some r)

instance (part : List ℕ) (r s : ℕ) (f : IFace) : Decidable (Between part r s f) := by
  unfold Between; infer_instance

end DG
