import Mathlib.Data.Set.Basic
import Verif.Model.Handles

/-!
Words for statements about the handles of the HDF5 library.
-/
namespace DG.H5

variable {D : Type}

/-- The object `v` holds the file handle `h`. -/
def Holds (s : State D) (v h : ℕ) : Prop := s.objs v = some (some h)

/-- The handle `h` is an open file. -/
def FileOpen (s : State D) (h : ℕ) : Prop := ∃ name par, s.lib h = some (.file name par)

/-- The handle `h` is an open group, dataset, attribute or dataspace. -/
def PartOpen (s : State D) (h : ℕ) : Prop := s.lib h = some .space ∨ ∃ k root, s.lib h = some (.obj k root)

/-- The variable `p` refers to the pair `b`, and one of the two handles of this pair is `h`. -/
def Refers (s : State D) (p b h : ℕ) : Prop :=
  s.ptrs p = some (some b) ∧ ∃ blk, s.blocks b = some blk ∧ (blk.first = some h ∨ blk.second = some h)

/-- The handle `h` was overwritten: in the course of the calls `ops` something else was moved to an object that held it. -/
def Overwritten (empty : D) (disk : String → Option D) (ops : List Op) (h : ℕ) : Prop :=
  ∃ pre v w post s, ops = pre ++ Op.moveAssign v w :: post ∧ v ≠ w ∧ run empty (start disk) pre = .ok s ∧ Holds s v h

/-- No object and no variable is left. -/
def AllGone (s : State D) : Prop := (∀ v, s.objs v = none) ∧ ∀ p, s.ptrs p = none

/-- No handle is open, no pair is allocated, and no object and no variable is left. -/
def Clean (s : State D) : Prop := (∀ h, s.lib h = none) ∧ (∀ b, s.blocks b = none) ∧ AllGone s

end DG.H5
