import Verif.Model.Views
import Mathlib.Data.Set.Card

/-!
C91: what is held, and which histories finalise last.
-/
namespace DG.Vw

/-- Memory held by some `View`. -/
def held (s : State) : Set ℕ := {a | ∃ o, s.val o = some (some a)}

/-- After `finalize` the mesh is not used for a residual and not finalised again. -/
def FinalizedLast (l : List Call) : Prop :=
  ∀ pre post, l = pre ++ .finalize :: post → .residual ∉ post ∧ .finalize ∉ post

end DG.Vw
