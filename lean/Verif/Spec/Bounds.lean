import Verif.Model.Extents
import Verif.Spec.Device

/-!
What it means that kernels stay in their memory (property C76).
-/
namespace DG.Dev

variable {K : Type} [Field K] {α : Type}

/-- the cell is one of the view -/
def Inside (d : Disc K) (rm : RankMesh α) (c : Cell) : Prop :=
  c.i < (viewExtents d rm c.view).1 ∧ c.j < (viewExtents d rm c.view).2.1 ∧
  c.k < (viewExtents d rm c.view).2.2.1 ∧ c.l < (viewExtents d rm c.view).2.2.2

/-- the cell is one of the part of the view that belongs to an element `< ne` -/
def SInside (ne nt nn dim nq nb ns : ℕ) (c : SCell) : Prop :=
  c.e < ne ∧ c.i < (setupExtents nt nn dim nq nb ns c.view).1 ∧ c.j < (setupExtents nt nn dim nq nb ns c.view).2.1 ∧
  c.k < (setupExtents nt nn dim nq nb ns c.view).2.2

/-- the cell is one of `xphys_grad` (shape `dim x (dim - 1) x np`, one per face) or of `normals`
(shape `nf x np x dim`) -/
def NInside (nf np dim : ℕ) : NCell → Prop
  | .grad f j k ip => f < nf ∧ j < dim ∧ k < dim - 1 ∧ ip < np
  | .normal f ip j => f < nf ∧ ip < np ∧ j < dim

/-- The kernel has no data race, ends with one result, and never leaves the views of the time loop of a rank. -/
def Confined (d : Disc K) (rm : RankMesh α) : Launch K :=
  fun k m m' => k.Computes m m' ∧ k.StaysIn (Inside d rm) m

/-- Scratch memory: if the memory of a team has the size `sum shmem(r)` of the requests, wherever it
starts, then all scratch views of the kernel are made, at addresses with the alignment, inside of the memory
of the team, and without overlap.  `shmem b` is what `shmem_size` returns for a view of `b` bytes: it includes the
loss by alignment. -/
def ScratchFits (requests views : List ℕ) : Prop :=
  ∀ (align : ℕ) (shmem : ℕ → ℕ), 0 < align → (∀ b, b + align ≤ shmem b + 1) →
  ∀ start stop : ℕ, start + (requests.map shmem).sum ≤ stop →
    ∃ l, scratchAllocs align stop start views = some l ∧ l.map Prod.snd = views ∧
      (∀ x ∈ l, align ∣ x.1 ∧ start ≤ x.1 ∧ x.1 + x.2 ≤ stop) ∧ l.Pairwise fun x y => x.1 + x.2 ≤ y.1

end DG.Dev
