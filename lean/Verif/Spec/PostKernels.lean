import Verif.Spec.Bounds
import Verif.Model.PostKernels

/-!
What it means that the kernels of the post-processor run well (property C79).
-/
namespace DG.Dev

variable {K : Type} [Field K]

/-- a cell of the post-processor: of an element, of the memory of a `parallel_reduce` (one number per thread), the
volume of the rank, or one of its errors (one per variable) -/
def PInside (ne nt nn dim nq nb ns : ℕ) (c : SCell) : Prop :=
  SInside ne nt nn dim nq nb ns c ∨ (∃ l < nt, c = ⟨.part, 0, l, 0, 0⟩) ∨ c = ⟨.totVol, 0, 0, 0, 0⟩ ∨
    ∃ s < ns, c = ⟨.total, 0, s, 0, 0⟩

/-- what should be true of a launch in the post-processor: no data race, every execution ends, all with the same result,
and no thread leaves the memory of the views -/
def PostSafe (ne nn dim nq nb ns : ℕ) : SLaunch K := fun {_ nt} k m m' =>
  k.Computes m m' ∧ k.StaysIn (PInside ne nt nn dim nq nb ns) m

end DG.Dev
