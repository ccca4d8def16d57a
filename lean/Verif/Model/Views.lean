import Mathlib.Logic.Function.Basic
import Mathlib.Data.List.Basic

/-!
The life of the Kokkos arrays that the program keeps in raw arrays of `View`s: the ghost faces of the mesh (`ghost_faces`,
mesh/mesh.cpp 474-533, freed by `Mesh::finalize`, 64-77) and the buffers of an exchange (`Uq_local`, `Uq_ghost`,
solver/base.cpp 512-529, memory/memory_network.cpp 55-175).

Kokkos is external and taken as documented, on the host: memory of an array is held as long as some `View` object refers to it,
`resize` gives a new one, `auto v = w` shares, a host mirror of a host array is the array itself.  Simplifications: only the
`View`s of raw arrays and the variables that copy them are shown (members of classes and other local variables are destructed by the
compiler); the copy of a variable inside of a lambda is not shown; the element accesses of one loop are one access.
-/
namespace DG.Vw

/-- An object of type `View` (mesh.cpp 474, 517; base.cpp 512-513; memory_network.cpp 70-71, 104, 124, 144-146). -/
inductive Obj where
  /-- `ghost_faces[i]` -/
  | ghost (i : ℕ)
  /-- `Uq_local[i]` of exchange `k` -/
  | loc (k i : ℕ)
  /-- `Uq_ghost[i]` of exchange `k` -/
  | rem (k i : ℕ)
  /-- variables of the loop bodies -/
  | tmp (j : ℕ)
  deriving DecidableEq

/-- The objects and the memory they refer to (mesh.cpp 474-476, base.cpp 512-519): `none` = there is no object, `some none` = an empty `View`.
`arrays`: the blocks given by `new View[...]` that have not been deleted. -/
structure State where
  val : Obj → Option (Option ℕ)
  next : ℕ
  arrays : ℕ

/-- What is done with a `View` (mesh.cpp 474-476, 71; base.cpp 512-528; memory_network.cpp 70, 108, 139). -/
inductive Op where
  /-- the constructor of an empty `View` -/
  | construct (o : Obj)
  /-- `Kokkos::resize(o, …)` -/
  | resize (o : Obj)
  /-- `auto o = w` -/
  | copy (o w : Obj)
  /-- the destructor -/
  | destroy (o : Obj)
  /-- elements are read or written -/
  | access (o : Obj)
  /-- memory for an array of `View`s, `new View[…]` -/
  | newArray

/-- One operation (Kokkos as documented; called from mesh.cpp 474-476, 71 and base.cpp 512-528); `none`: an object is used or destructed that does not exist, or constructed twice (undefined). -/
def step (s : State) : Op → Option State
  | .construct o => if s.val o = none then some { s with val := Function.update s.val o (some none) } else none
  | .resize o => if s.val o = none then none
      else some { s with val := Function.update s.val o (some (some s.next)), next := s.next + 1 }
  | .copy o w => if s.val o = none ∧ s.val w ≠ none then some { s with val := Function.update s.val o (s.val w) } else none
  | .destroy o => if s.val o = none then none else some { s with val := Function.update s.val o none }
  | .access o => match s.val o with
    | some (some _) => some s
    | _ => none
  | .newArray => some { s with arrays := s.arrays + 1 }

/-- Operations one after the other (control flow, e.g. base.cpp 512-529). -/
def run : List Op → State → Option State
  | [], s => some s
  | o :: l, s => (step s o).bind (run l)

/-- a loop over the neighbours, `for (unsigned i = 0; i < num_neighbor_ranks; i++)` (mesh.cpp 69, 475, base.cpp 514, 525) -/
def loop (n : ℕ) (body : ℕ → List Op) : List Op := (List.range n).flatMap body

/-- The part of the constructor of `Mesh` that makes the ghost faces, for `n` neighbours (mesh.cpp 474-533). -/
def constructMesh (n : ℕ) : List Op :=
  .newArray :: loop n (fun i => [.construct (.ghost i)]) ++ loop n (fun i => [.resize (.ghost i)]) ++
    loop n fun i => [.copy (.tmp 0) (.ghost i), .access (.tmp 0), .destroy (.tmp 0)]

/-- `communicate_face_solution` of exchange `k` (memory_network.cpp 55-175): gathering, sending, receiving, scattering. -/
def communicate (k n : ℕ) : List Op :=
  loop n (fun i => [.copy (.tmp 0) (.ghost i), .copy (.tmp 1) (.loc k i), .access (.tmp 0), .access (.tmp 1),
    .destroy (.tmp 1), .destroy (.tmp 0)]) ++
  loop n (fun i => [.copy (.tmp 0) (.loc k i), .copy (.tmp 1) (.tmp 0), .access (.tmp 1), .destroy (.tmp 1), .destroy (.tmp 0)]) ++
  loop n (fun i => [.copy (.tmp 0) (.rem k i), .copy (.tmp 1) (.tmp 0), .access (.tmp 1), .access (.tmp 0),
    .destroy (.tmp 1), .destroy (.tmp 0)]) ++
  loop n fun i => [.copy (.tmp 0) (.ghost i), .copy (.tmp 1) (.loc k i), .copy (.tmp 2) (.rem k i), .access (.tmp 0),
    .access (.tmp 2), .destroy (.tmp 2), .destroy (.tmp 1), .destroy (.tmp 0)]

/-- The exchange number `k` of `get_interior_face_residuals` (base.cpp 512-529). -/
def exchange (k n : ℕ) : List Op :=
  (.newArray :: loop n fun i => [.construct (.loc k i)]) ++
  (.newArray :: loop n fun i => [.construct (.rem k i)]) ++
  loop n (fun i => [.resize (.loc k i), .resize (.rem k i)]) ++
  communicate k n ++
  loop n fun i => [.destroy (.loc k i), .destroy (.rem k i)]

/-- `Mesh::finalize` (mesh.cpp 64-77). -/
def finalizeMesh (n : ℕ) : List Op := loop n fun i => [.destroy (.ghost i)]

/-- Calls of the user of a mesh with `n` neighbours: a residual (one exchange), copying the `Mesh` or letting a copy go out of scope
(base.cpp 298, 340: the pointer `ghost_faces` is copied, mesh.h 274; no destructor is declared, mesh.h), and `finalize`. -/
inductive Call where
  | residual
  | copyMesh
  | dropCopy
  | finalize
  deriving DecidableEq

/-- What the `k`-th exchange and the other calls do (base.cpp 298, 512-529, mesh.cpp 64-77). -/
def Call.ops (n k : ℕ) : Call → List Op
  | .residual => exchange k n
  | .copyMesh => []
  | .dropCopy => []
  | .finalize => finalizeMesh n

/-- A history of calls; `k` exchanges have been made before (control flow of base.cpp 387-391). -/
def callOps (n : ℕ) : ℕ → List Call → List Op
  | _, [] => []
  | k, c :: l => c.ops n k ++ callOps n (if c = .residual then k + 1 else k) l

/-- The constructor of the mesh and a history of calls after it (exec/main.cpp 63-118). -/
def history (n : ℕ) (l : List Call) : List Op := constructMesh n ++ callOps n 0 l

/-- Nothing exists yet (exec/main.cpp 30). -/
def start : State := ⟨fun _ => none, 0, 0⟩

/-- The calls of the solver executable with `stages` residuals per step (exec/main.cpp 63-118, base.cpp 387-391, stepper.cpp). -/
def solverCalls (stages nsteps : ℕ) : List Call := List.replicate (stages * nsteps) .residual ++ [.finalize]

/-- The calls of the post-processor (post/main.cpp 216-251): a copy of the mesh, and `finalize`. -/
def postCalls : List Call := [.copyMesh, .dropCopy, .finalize]

end DG.Vw
