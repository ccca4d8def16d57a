import Verif.Model.Device

/-!
What it means that a kernel computes something: not in some execution, but in all of them.
-/
namespace DG.Dev.Kernel
variable {C V T J : Type} [DecidableEq C] [DecidableEq T] [DecidableEq J]

/-- Launched with memory `m`, whatever the interleaving of the loads and stores of all threads: no two
threads are ever about to access the same cell with one of them writing it; no execution has more than
`N` steps, and every execution can be continued to the end; at the end the memory is `m'`. -/
structure Computes (k : Kernel C V T J) (m m' : C → V) : Prop where
  noRace : ∀ n c, k.Steps n (k.init m) c → ¬ k.Racing c
  ends : ∃ N, ∀ n c, k.Steps n (k.init m) c → n ≤ N ∧ ∃ n' c', k.Steps n' c c' ∧ k.Done c'
  result : ∀ n c, k.Steps n (k.init m) c → k.Done c → c.mem = m'

/-- Launched with memory `m`, whatever the interleaving of the loads and stores of all threads: when a thread
is about to write a cell, no other thread is about to read it, and if another thread is about to write it
too, it is one of the same team and writes the same number; no execution has more than `N` steps, and every
execution can be continued to the end; at the end the memory is `m'`. -/
structure Settles (k : Kernel C V T J) (m m' : C → V) : Prop where
  noRead : ∀ n c, k.Steps n (k.init m) c → ∀ t j t' j' x, (t, j) ≠ (t', j') → k.AboutToWrite c t j x →
    ¬ k.AboutToRead c t' j' x
  sameValue : ∀ n c, k.Steps n (k.init m) c → ∀ t j t' j' x v v' f f', (t, j) ≠ (t', j') →
    c.phase t < k.nph → c.codes t j = .store x v f →
    c.phase t' < k.nph → c.codes t' j' = .store x v' f' → t = t' ∧ v = v'
  ends : ∃ N, ∀ n c, k.Steps n (k.init m) c → n ≤ N ∧ ∃ n' c', k.Steps n' c c' ∧ k.Done c'
  result : ∀ n c, k.Steps n (k.init m) c → k.Done c → c.mem = m'

/-- Launched with memory `m`, whatever the interleaving: no thread is ever about to read or write a cell outside
of `P`. -/
def StaysIn (k : Kernel C V T J) (P : C → Prop) (m : C → V) : Prop :=
  ∀ n c, k.Steps n (k.init m) c → ∀ t j x, k.AboutToRead c t j x ∨ k.AboutToWrite c t j x → P x

end DG.Dev.Kernel
