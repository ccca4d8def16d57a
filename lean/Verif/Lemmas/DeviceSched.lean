import Verif.Model.Device
import Verif.Spec.Device
import Mathlib.Data.Fintype.Basic

/-! Running a kernel under a given schedule. -/
namespace DG.Dev

def Code.isRet {C V : Type} : Code C V Unit → Bool
  | .ret _ => true
  | _ => false

theorem Code.isRet_iff {C V : Type} (x : Code C V Unit) : x.isRet = true ↔ x = .ret () := by
  cases x <;> simp [Code.isRet]

namespace Kernel
variable {C V T J : Type} [DecidableEq C] [DecidableEq T] [DecidableEq J] [Fintype J]

/-- one entry of a schedule: a thread moves, or (`none`) a team passes a barrier -/
def sched1 (k : Kernel C V T J) (c : Conf C V T J) (s : T × Option J) : Option (Conf C V T J) :=
  if c.phase s.1 < k.nph then
    match s.2 with
    | some j =>
      match c.codes s.1 j with
      | .ret _ => none
      | .load x f => some { c with codes := setCode c s.1 j (f (c.mem x)) }
      | .store x v f => some { c with codes := setCode c s.1 j f, mem := Function.update c.mem x v }
    | none =>
      if ∀ j, (c.codes s.1 j).isRet = true then
        some { c with phase := Function.update c.phase s.1 (c.phase s.1 + 1)
                      codes := Function.update c.codes s.1 fun j => k.code s.1 (c.phase s.1 + 1) j }
      else none
  else none

def sched (k : Kernel C V T J) : List (T × Option J) → Conf C V T J → Option (Conf C V T J)
  | [], c => some c
  | s :: l, c => (sched1 k c s).bind (sched k l)

theorem sched1_step {k : Kernel C V T J} {c c' : Conf C V T J} {s : T × Option J}
    (h : k.sched1 c s = some c') : k.Step c c' := by
  unfold sched1 at h
  split at h
  · rename_i hp
    split at h
    · split at h
      · cases h
      · cases h; exact .load c _ _ _ _ hp ‹_›
      · cases h; exact .store c _ _ _ _ _ hp ‹_›
    · split at h
      · rename_i hr
        cases h; exact .barrier c _ hp fun j => (Code.isRet_iff _).1 (hr j)
      · cases h
  · cases h

theorem steps_cons {k : Kernel C V T J} {a b c : Conf C V T J} {n : ℕ} (h : k.Step a b) (h' : k.Steps n b c) :
    k.Steps (n + 1) a c := by
  induction h' with
  | refl => exact .tail (.refl _) h
  | tail _ hs ih => exact .tail (ih h) hs

theorem sched_steps {k : Kernel C V T J} : ∀ {l : List (T × Option J)} {c c' : Conf C V T J},
    k.sched l c = some c' → k.Steps l.length c c' := by
  intro l
  induction l with
  | nil => intro c c' h; cases h; exact .refl _
  | cons s l ih =>
    intro c c' h
    obtain ⟨c1, h1, h2⟩ := Option.bind_eq_some_iff.mp h
    exact steps_cons (sched1_step h1) (ih h2)

end Kernel
end DG.Dev
