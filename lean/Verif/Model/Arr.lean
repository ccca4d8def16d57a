import Mathlib.Data.List.Basic

/-!
Bounds-checked arrays.  A C++ array (`std::vector`, `Kokkos::View`) is a `List`; reading or
writing outside of it is undefined behaviour in the code and is the distinct outcome `none` here.
-/
namespace DG

/-- `a[i] = v` on an array; `none` = out-of-bounds write (undefined behaviour). (the stores of mesh/mesh.cpp 284-527) -/
def setB {α : Type _} (a : List α) (i : ℕ) (v : α) : Option (List α) :=
  if i < a.length then some (a.set i v) else none

/-- `a[i]++`; `none` = out-of-bounds access (undefined behaviour). (the counters of mesh/mesh.cpp 284-320) -/
def bumpB (a : List ℕ) (i : ℕ) : Option (List ℕ) :=
  match a[i]? with
  | some v => some (a.set i (v + 1))
  | none => none

/-- `a(counter) = v; counter++`, the idiom of all storing loops of `Mesh::partition`. (mesh/mesh.cpp 352-442, 500-527) -/
def pushB {α : Type _} (st : ℕ × List α) (v : α) : Option (ℕ × List α) :=
  match setB st.2 st.1 v with
  | some a => some (st.1 + 1, a)
  | none => none

end DG
