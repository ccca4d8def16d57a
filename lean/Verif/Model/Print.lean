import Mathlib.Logic.Function.Basic
import Mathlib.Data.List.Basic

/-!
Printing from all ranks: `MemoryNetwork::print`, `print_view` (six overloads), `print_3d_view`, `print_4d_view`
(src/memory/memory_network.cpp 177-453), and the lines `get_error` prints (src/post/main.cpp 190-196).

All ranks run the same sequence of barriers; between two barriers a rank may print lines.  `std::endl` and
`printf` of a line are one step; the lines of all ranks go to one output in the order in which they are printed.

Simplifications: what `mpirun` does with the output of a process on its way to the terminal is not modelled
(MPI gives no guarantee for it); a line is printed in one piece; the head rank is rank 0 (memory_network.cpp 30).
-/
namespace DG.Pr

/-- A program of barriers and prints: `lines r p` is what rank `r` prints between its `p`-th and its next barrier;
`nph - 1` barriers. (memory_network.cpp 177-453) -/
structure Prog (L : Type) where
  nranks : ℕ
  nph : ℕ
  lines : ℕ → ℕ → List L

/-- State: how many barriers each rank has left, what it still has to print before the next one, the output. (memory_network.cpp 177-453) -/
structure Conf (L : Type) where
  phase : ℕ → ℕ
  rem : ℕ → List L
  out : List L

variable {L : Type}

/-- before the first instruction (memory_network.cpp 177-453) -/
def Prog.init (P : Prog L) : Conf L := ⟨fun _ => 0, fun r => P.lines r 0, []⟩

/-- One step of one rank.  `MPI_Barrier` (memory_network.cpp 45-47): a rank leaves the barrier only when every
rank has entered it, that is, has printed what comes before it. -/
inductive Prog.Step (P : Prog L) : Conf L → Conf L → Prop
  | print (c : Conf L) (r : ℕ) (l : L) (ls : List L) (hr : r < P.nranks) (h : c.rem r = l :: ls) :
      Step P c { c with rem := Function.update c.rem r ls, out := c.out ++ [l] }
  | pass (c : Conf L) (r : ℕ) (hr : r < P.nranks) (hp : c.phase r + 1 < P.nph) (h : c.rem r = [])
      (hall : ∀ r' < P.nranks, c.phase r < c.phase r' ∨ (c.phase r' = c.phase r ∧ c.rem r' = [])) :
      Step P c { c with phase := Function.update c.phase r (c.phase r + 1)
                        rem := Function.update c.rem r (P.lines r (c.phase r + 1)) }

/-- `n` steps (memory_network.cpp 177-453) -/
inductive Prog.Steps (P : Prog L) : ℕ → Conf L → Conf L → Prop
  | refl (c) : Steps P 0 c c
  | tail {n a b c} : Steps P n a b → Prog.Step P b c → Steps P (n + 1) a c

/-- all ranks have returned (memory_network.cpp 177-453) -/
def Prog.Done (P : Prog L) (c : Conf L) : Prop := ∀ r < P.nranks, c.phase r + 1 = P.nph ∧ c.rem r = []

/-- memory_network.cpp 181, 203, 238, ... -/
def opening : String :=
  "--------------------------------- The Ranks Speak! --------------------------------"
/-- memory_network.cpp 195, 230, 264, ... -/
def closing : String :=
  "------------------------------ The Ranks Have Spoken ------------------------------"

/-- The common frame of `print` and all `print_view` (memory_network.cpp 177-197, 199-232, ...): a barrier; the head
rank prints `head`; for every `i` a barrier, after which rank `i` prints its block; a barrier; the head rank prints
the closing line. -/
def framed (n : ℕ) (head : List String) (block : ℕ → List String) : Prog String where
  nranks := n
  nph := n + 3
  lines r p :=
    if p = 1 then (if r = 0 then head else [])
    else if 2 ≤ p ∧ p < n + 2 then (if p - 2 = r then ("Rank " ++ toString r ++ " says:") :: block r else [])
    else if p = n + 2 then (if r = 0 then [closing] else [])
    else []

/-- `print`, memory_network.cpp 177-197; `data r` is the text of rank `r`'s datum -/
def print (n : ℕ) (data : ℕ → String) : Prog String := framed n [opening] fun r => [data r]

/-- `cout << x << "  "` for all entries of a row, then `endl` (memory_network.cpp 216-219) -/
def rowText (n : ℕ) (entry : ℕ → String) : String :=
  (List.range n).foldl (fun s k => s ++ entry k ++ "  ") ""

/-- A view on a rank: extents and the printed form of its entries. (memory_network.cpp 177-453) -/
structure View1 where
  n0 : ℕ
  entry : ℕ → String
/-- rank 2 (memory_network.cpp 177-453) -/
structure View2 where
  n0 : ℕ
  n1 : ℕ
  entry : ℕ → ℕ → String
/-- rank 3 (memory_network.cpp 238-265) -/
structure View3 where
  n0 : ℕ
  n1 : ℕ
  n2 : ℕ
  entry : ℕ → ℕ → ℕ → String
/-- rank 4 (memory_network.cpp 200-236) -/
structure View4 where
  n0 : ℕ
  n1 : ℕ
  n2 : ℕ
  n3 : ℕ
  entry : ℕ → ℕ → ℕ → ℕ → String

/-- the loop of `print_view(T*)`, memory_network.cpp 376-379 -/
def View1.text (v : View1) : List String := [rowText v.n0 v.entry]

/-- the loop of `print_view(T**)`, memory_network.cpp 316-322 and 347-353 -/
def View2.text (v : View2) : List String :=
  ((List.range v.n0).map fun i => rowText v.n1 (v.entry i)) ++ [""]

/-- the loop of `print_view(T***)` and `print_3d_view`, memory_network.cpp 250-259, 284-293, 403-412 -/
def View3.text (v : View3) : List String :=
  (List.range v.n0).flatMap fun i => ["(" ++ toString i ++ ", :, :)"] ++
    ((List.range v.n1).map fun j => rowText v.n2 (v.entry i j)) ++ [""]

/-- the loop of `print_view(T****)`, memory_network.cpp 213-225 (`idx` = ", :, :, :)"), and of `print_4d_view`,
435-447 (`idx` = ", :, :)") -/
def View4.text (idx : String) (v : View4) : List String :=
  (List.range v.n0).flatMap fun i => ["(" ++ toString i ++ idx] ++
    ((List.range v.n1).flatMap fun j => ((List.range v.n2).map fun k => rowText v.n3 (v.entry i j k)) ++ [""]) ++ [""]

/-- `print_view(View<T*>)`, memory_network.cpp 362-386 -/
def printView1 (n : ℕ) (v : ℕ → View1) : Prog String := framed n [opening] fun r => (v r).text
/-- `print_view(View<T**>)`, memory_network.cpp 302-329, 331-360 -/
def printView2 (n : ℕ) (v : ℕ → View2) : Prog String := framed n [opening] fun r => (v r).text
/-- `print_view(View<T***>)`, memory_network.cpp 234-266: the head rank also prints the shape of its view -/
def printView3 (n : ℕ) (v : ℕ → View3) : Prog String :=
  framed n [opening, "View Shape [" ++ toString (v 0).n0 ++ ", " ++ toString (v 0).n1 ++ ", " ++
    toString (v 0).n2 ++ "]"] fun r => (v r).text
/-- `print_3d_view` and `print_view` of a scratch view, memory_network.cpp 268-300, 389-419 -/
def print3d (n : ℕ) (v : ℕ → View3) : Prog String := framed n [opening] fun r => (v r).text
/-- `print_view(View<T****>)`, memory_network.cpp 199-232 -/
def printView4 (n : ℕ) (v : ℕ → View4) : Prog String := framed n [opening] fun r => (v r).text ", :, :, :)"
/-- `print_4d_view`, memory_network.cpp 421-453 -/
def print4d (n : ℕ) (v : ℕ → View4) : Prog String := framed n [opening] fun r => (v r).text ", :, :)"

/-- The last loop of `get_error`, src/post/main.cpp 190-196: for every variable a reduction and a barrier, then
every rank prints the (reduced, hence common) value; the reduction is not a barrier here. -/
def printErrors (n ns : ℕ) (line : ℕ → String) : Prog String where
  nranks := n
  nph := ns + 1
  lines _ p := if 1 ≤ p ∧ p ≤ ns then [line (p - 1)] else []

end DG.Pr
