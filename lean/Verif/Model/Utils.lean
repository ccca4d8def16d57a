import Mathlib.Data.List.Basic
import Mathlib.Data.Int.Notation

/-!
Model of `src/utils/utils.cpp` and `src/utils/utils.h`: command-line lookup, output file names,
the intersection test on sorted ranges and the input-file check.  A C string / `std::string` is
a `List Char` where its characters matter and a `String` where only equality matters.
-/
namespace DG

/-! ### Command line -/

/-- `std::find(begin, end, option)`, utils.cpp:123,131: the suffix starting at the first
argument equal to `option` (`[]` is the iterator `end`). -/
def findArg (option : String) : List String → List String
  | [] => []
  | a :: as => if a = option then a :: as else findArg option as

/-- `get_option`, utils.cpp:122-128; `none` is the null pointer. -/
def getOption (argv : List String) (option : String) : Option String :=
  match findArg option argv with
  | [] => none
  | _ :: rest =>
    match rest with
    | [] => none
    | b :: _ => some b

/-- `exist_option`, utils.cpp:130-132. -/
def existOption (argv : List String) (option : String) : Bool :=
  match findArg option argv with
  | [] => false
  | _ :: _ => true

/-- The input-file name chosen by `main`, exec/main.cpp:31-35 and post/main.cpp:259-263.
`none` = `std::string` built from a null pointer (undefined behaviour). -/
def inputFileName (argv : List String) : Option String :=
  if existOption argv "-input" then getOption argv "-input" else some "input.toml"

/-! ### File names -/

/-- `operator<<` of an `int` on a stream in the default (decimal) format. (utils.cpp:104, 117-118) -/
def printInt : ℤ → List Char
  | Int.ofNat n => Nat.toDigits 10 n
  | Int.negSucc n => '-' :: Nat.toDigits 10 (n + 1)

/-- `setfill('0') << setw(w)` applied to the next item: fill characters are put in front
(default adjustment) until the width is reached. (utils.cpp:104, 116-118) -/
def padTo (w : ℕ) (s : List Char) : List Char := List.replicate (w - s.length) '0' ++ s

/-- `get_fname_with_iter`, utils.cpp:101-107. -/
def fnameWithIter (pre suf : List Char) (iter : ℤ) : List Char :=
  pre ++ (['_'] ++ (padTo 8 (printInt iter) ++ suf))

/-- `get_fname_with_iter_srID`, utils.cpp:109-120 (both numbers unsigned). -/
def fnameWithIterSr (pre suf : List Char) (iter srID : ℕ) : List Char :=
  pre ++ (['_'] ++ (padTo 8 (Nat.toDigits 10 iter) ++
    (['_'] ++ (padTo 3 (Nat.toDigits 10 srID) ++ suf))))

/-! ### Intersection of sorted ranges -/

/-- `have_common_element`, utils.h:93-104: the two-pointer loop, on the remaining ranges. -/
def haveCommonElement {α : Type*} [LT α] [DecidableLT α] : List α → List α → Bool
  | [], _ => false
  | _ :: _, [] => false
  | a :: as, b :: bs =>
    if a < b then haveCommonElement as (b :: bs)
    else if b < a then haveCommonElement (a :: as) bs
    else true
termination_by l₁ l₂ => l₁.length + l₂.length

/-! ### The input file -/

/-- A parsed TOML value, as far as the input check looks at it: strings, arrays, tables (an
association list; TOML forbids duplicate keys) and anything else. (utils.cpp:27-60) -/
inductive Toml
  | str (s : String)
  | arr (xs : List Toml)
  | table (kv : List (String × Toml))
  | other

/-- `value.at(key)` on a table; `none` = exception (not a table, or no such key). (utils.cpp:28-58) -/
def Toml.at? (k : String) : Toml → Option Toml
  | .table kv => kv.lookup k
  | _ => none

/-- `value.contains(key)`.  On a value that is not a table toml11 throws; the caller is then
rejected exactly as by a missing key, so `false` is used for both. (utils.cpp:27-58) -/
def Toml.contains (v : Toml) (k : String) : Bool := (v.at? k).isSome

/-- conversion of a TOML value to `std::string`; `none` = exception (utils.cpp:55-58) -/
def Toml.asStr : Toml → Option String
  | .str s => some s
  | _ => none

/-- conversion of a TOML value to `std::vector<std::string>`; `none` = exception (utils.cpp:55) -/
def Toml.asStrs : Toml → Option (List String)
  | .arr xs => xs.mapM Toml.asStr
  | _ => none

/-- `input.contains(sec) && input.at(sec).contains(key)`, the test repeated in
utils.cpp:27-53 (there negated). -/
def Toml.has (v : Toml) (sec key : String) : Bool :=
  v.contains sec && ((v.at? sec).getD .other).contains key

/-- `check_input_file`, utils.cpp:26-63: `true` = returns normally, `false` = throws. -/
def checkInputFile (input : Toml) : Bool :=
  if !input.contains "Mesh" || !((input.at? "Mesh").getD .other).contains "file" then false
  else if !input.contains "Numerics" || !((input.at? "Numerics").getD .other).contains "basis" ||
      !((input.at? "Numerics").getD .other).contains "order" then false
  else if !input.contains "Output" || !((input.at? "Output").getD .other).contains "prefix" then
    false
  else if !input.contains "Stepper" || !((input.at? "Stepper").getD .other).contains "start" ||
      !((input.at? "Stepper").getD .other).contains "end" ||
      !((input.at? "Stepper").getD .other).contains "timestep" then false
  else if !input.contains "Physics" || !((input.at? "Physics").getD .other).contains "dim" then
    false
  else if !input.contains "Equation" || !((input.at? "Equation").getD .other).contains "name" then
    false
  else if input.contains "Boundaries" then
    match (((input.at? "Boundaries").bind (Toml.at? "names")).bind Toml.asStrs) with
    | none => false
    | some names =>
      names.all fun b =>
        !(!((input.at? "Boundaries").getD .other).contains b ||
          !((((input.at? "Boundaries").getD .other).at? b).getD .other).contains "type")
  else true

/-- The `(section, key)` pairs whose absence makes a run throw, in the order in which
`exec/main.cpp` and the objects it builds look them up with `toml::find` (no default):
exec/main.cpp:42; numerics_data.cpp:231-235; mesh.cpp:31-34; solver/base.cpp:26-57;
exec/main.cpp:73.  (`find_or` look-ups have a default and are not listed; the boundary names are
looked up under the same condition as in the check.) -/
def runRequiredKeys : List (String × String) :=
  [("Physics", "dim"), ("Numerics", "order"), ("Numerics", "basis"), ("Mesh", "file"),
   ("InitialCondition", "name"), ("Physics", "name"), ("Stepper", "timestep"),
   ("Stepper", "end"), ("InitialCondition", "data")]

end DG
