import Mathlib.Logic.Function.Basic
import Mathlib.Data.Set.Basic

/-!
Model of how a Kokkos kernel runs (`Kokkos::parallel_for` with a range, `MDRangePolicy` or
`TeamPolicy`, as used in `src/solver/base.cpp`, `src/solver/tools.cpp`, `src/solver/helpers.cpp`,
`src/memory/memory_network.cpp`).

* The body of an iteration is a sequence of single loads and stores of memory cells, with arbitrary
  computation in between (`Code`).
* A kernel is a set of teams; a team works through phases separated by `member.team_barrier()`; in a
  phase the threads of the team each run their code.  Range kernels are kernels whose teams (the
  iterations) have one thread and one phase.
* The machine interleaves single loads and stores of all threads of all teams arbitrarily
  (sequentially consistent memory); a barrier lets a team go on when all its threads have arrived.
* An iteration of a `TeamThreadRange` loop is a thread of its own here: every assignment of iterations
  to real threads, and every order in which a thread works through its iterations, is one of the
  interleavings of the model.

Simplification: memory is sequentially consistent; loads and stores of single numbers do not tear.
For kernels without data races (`Dev.Kernel.Racing` never holds, proved in `Props/Device.lean` for every
kernel modelled) this is what the C++ and CUDA memory models guarantee.
-/
namespace DG.Dev

/-- Code of one thread between two barriers: cells `C`, numbers `V`.
(semantics of the kernels of solver/base.cpp 171-561, helpers.cpp 12-474, solver/tools.cpp 19-140, post/main.cpp 117-180) -/
inductive Code (C V α : Type) where
  /-- finished -/
  | ret (a : α)
  /-- read a cell -/
  | load (c : C) (k : V → Code C V α)
  /-- write a cell -/
  | store (c : C) (v : V) (k : Code C V α)

namespace Code
variable {C V α β : Type}

/-- sequential composition
(semantics of the kernels of solver/base.cpp 171-561, helpers.cpp 12-474, solver/tools.cpp 19-140, post/main.cpp 117-180) -/
def bind : Code C V α → (α → Code C V β) → Code C V β
  | ret a, f => f a
  | load c k, f => load c fun v => bind (k v) f
  | store c v k, f => store c v (bind k f)

/-- sequencing of statements: semantics of the kernels of solver/base.cpp 171-561, helpers.cpp 12-474, solver/tools.cpp 19-140, post/main.cpp 117-180 -/
instance : Monad (Code C V) where
  pure := ret
  bind := bind

/-- `x = c;` (semantics of the kernels of solver/base.cpp 171-561, helpers.cpp 12-474, solver/tools.cpp 19-140, post/main.cpp 117-180) -/
def read (c : C) : Code C V V := load c ret
/-- `c = v;` (semantics of the kernels of solver/base.cpp 171-561, helpers.cpp 12-474, solver/tools.cpp 19-140, post/main.cpp 117-180) -/
def write (c : C) (v : V) : Code C V Unit := store c v (ret ())

/-- `for (i = 0; i < n; i++) body(i);`
(semantics of the kernels of solver/base.cpp 171-561, helpers.cpp 12-474, solver/tools.cpp 19-140, post/main.cpp 117-180) -/
def forN : ℕ → (ℕ → Code C V Unit) → Code C V Unit
  | 0, _ => ret ()
  | n + 1, f => bind (forN n f) fun _ => f n

/-- `for (i = 0; i < n; i++) acc = step(acc, i)` with a register `acc`
(semantics of the kernels of solver/base.cpp 171-561, helpers.cpp 12-474, solver/tools.cpp 19-140, post/main.cpp 117-180) -/
def foldN (a : α) : ℕ → (α → ℕ → Code C V α) → Code C V α
  | 0, _ => ret a
  | n + 1, f => bind (foldN a n f) fun b => f b n

/-- `if (p) body` (semantics of the kernels of solver/base.cpp 171-561, helpers.cpp 12-474, solver/tools.cpp 19-140, post/main.cpp 117-180) -/
def cond (p : Prop) [Decidable p] (body : Code C V Unit) : Code C V Unit := if p then body else ret ()

variable [DecidableEq C]

/-- the code run alone, from memory `m`: result and memory
(semantics of the kernels of solver/base.cpp 171-561, helpers.cpp 12-474, solver/tools.cpp 19-140, post/main.cpp 117-180) -/
def run : Code C V α → (C → V) → α × (C → V)
  | ret a, m => (a, m)
  | load c k, m => run (k (m c)) m
  | store c v k, m => run k (Function.update m c v)

/-- number of loads and stores of that run
(semantics of the kernels of solver/base.cpp 171-561, helpers.cpp 12-474, solver/tools.cpp 19-140, post/main.cpp 117-180) -/
def steps : Code C V α → (C → V) → ℕ
  | ret _, _ => 0
  | load c k, m => steps (k (m c)) m + 1
  | store c v k, m => steps k (Function.update m c v) + 1

end Code

/-- A kernel: `code t p j` is what thread `j` of team `t` does in phase `p < nph`.
(semantics of the kernels of solver/base.cpp 171-561, helpers.cpp 12-474, solver/tools.cpp 19-140, post/main.cpp 117-180) -/
structure Kernel (C V T J : Type) where
  nph : ℕ
  code : T → ℕ → J → Code C V Unit

/-- State of a running kernel: phase of every team, what is left to do of the phase, memory.
(semantics of the kernels of solver/base.cpp 171-561, helpers.cpp 12-474, solver/tools.cpp 19-140, post/main.cpp 117-180) -/
structure Conf (C V T J : Type) where
  phase : T → ℕ
  codes : T → J → Code C V Unit
  mem : C → V

namespace Kernel
variable {C V T J : Type} [DecidableEq C] [DecidableEq T] [DecidableEq J]

/-- launch with memory `m`
(semantics of the kernels of solver/base.cpp 171-561, helpers.cpp 12-474, solver/tools.cpp 19-140, post/main.cpp 117-180) -/
def init (k : Kernel C V T J) (m : C → V) : Conf C V T J :=
  ⟨fun _ => 0, fun t j => k.code t 0 j, m⟩

/-- the code of one thread replaced
(semantics of the kernels of solver/base.cpp 171-561, helpers.cpp 12-474, solver/tools.cpp 19-140, post/main.cpp 117-180) -/
def setCode (c : Conf C V T J) (t : T) (j : J) (x : Code C V Unit) : T → J → Code C V Unit :=
  fun t' j' => if t' = t ∧ j' = j then x else c.codes t' j'

/-- One step of the machine.
(semantics of the kernels of solver/base.cpp 171-561, helpers.cpp 12-474, solver/tools.cpp 19-140, post/main.cpp 117-180) -/
inductive Step (k : Kernel C V T J) : Conf C V T J → Conf C V T J → Prop
  | load (c : Conf C V T J) (t : T) (j : J) (x : C) (f : V → Code C V Unit)
      (hp : c.phase t < k.nph) (h : c.codes t j = .load x f) :
      Step k c { c with codes := setCode c t j (f (c.mem x)) }
  | store (c : Conf C V T J) (t : T) (j : J) (x : C) (v : V) (f : Code C V Unit)
      (hp : c.phase t < k.nph) (h : c.codes t j = .store x v f) :
      Step k c { c with codes := setCode c t j f, mem := Function.update c.mem x v }
  | barrier (c : Conf C V T J) (t : T) (hp : c.phase t < k.nph) (h : ∀ j, c.codes t j = .ret ()) :
      Step k c { c with phase := Function.update c.phase t (c.phase t + 1)
                        codes := Function.update c.codes t fun j => k.code t (c.phase t + 1) j }

/-- `n` steps (semantics of the kernels of solver/base.cpp 171-561, helpers.cpp 12-474, solver/tools.cpp 19-140, post/main.cpp 117-180) -/
inductive Steps (k : Kernel C V T J) : ℕ → Conf C V T J → Conf C V T J → Prop
  | refl (c) : Steps k 0 c c
  | tail {n a b c} : Steps k n a b → Step k b c → Steps k (n + 1) a c

/-- all teams are through with all phases: the kernel has returned
(semantics of the kernels of solver/base.cpp 171-561, helpers.cpp 12-474, solver/tools.cpp 19-140, post/main.cpp 117-180) -/
def Done (k : Kernel C V T J) (c : Conf C V T J) : Prop := ∀ t, c.phase t = k.nph

/-- the thread is about to write cell `x`
(semantics of the kernels of solver/base.cpp 171-561, helpers.cpp 12-474, solver/tools.cpp 19-140, post/main.cpp 117-180) -/
def AboutToWrite (k : Kernel C V T J) (c : Conf C V T J) (t : T) (j : J) (x : C) : Prop :=
  c.phase t < k.nph ∧ ∃ v f, c.codes t j = .store x v f
/-- the thread is about to read cell `x`
(semantics of the kernels of solver/base.cpp 171-561, helpers.cpp 12-474, solver/tools.cpp 19-140, post/main.cpp 117-180) -/
def AboutToRead (k : Kernel C V T J) (c : Conf C V T J) (t : T) (j : J) (x : C) : Prop :=
  c.phase t < k.nph ∧ ∃ f, c.codes t j = .load x f

/-- a data race: two threads are about to access the same cell, one of them to write it
(semantics of the kernels of solver/base.cpp 171-561, helpers.cpp 12-474, solver/tools.cpp 19-140, post/main.cpp 117-180) -/
def Racing (k : Kernel C V T J) (c : Conf C V T J) : Prop :=
  ∃ t j t' j' x, (t, j) ≠ (t', j') ∧ k.AboutToWrite c t j x ∧
    (k.AboutToWrite c t' j' x ∨ k.AboutToRead c t' j' x)

/-- the kernel returns with memory `m'` in some execution from memory `m`
(semantics of the kernels of solver/base.cpp 171-561, helpers.cpp 12-474, solver/tools.cpp 19-140, post/main.cpp 117-180) -/
def Ends (k : Kernel C V T J) (m m' : C → V) : Prop :=
  ∃ n c, k.Steps n (k.init m) c ∧ k.Done c ∧ c.mem = m'

end Kernel
end DG.Dev
