import Mathlib.Logic.Function.Basic
import Mathlib.Data.List.Basic

/-!
The handles of the HDF5 library held by the class `HDF5File` (src/io/HDF5Wrapper.h): which handles are open after any sequence
of calls of one process, and the four places of the program that use the class.

Simplifications: the library (external) numbers the handles it gives consecutively; property lists, which are created and closed
inside of one function, are not shown; contents of files are an abstract type, and data written through a handle are the subject
of `Model/IO`.  The library is taken as documented: `H5Fclose` of a file opened with the MPI driver fails while groups, datasets
or attributes opened through that handle are open (`H5F_CLOSE_SEMI`), other files may be closed before their objects
(`H5F_CLOSE_WEAK`); `H5Fcreate` fails for a file that is open with
the same driver (files are recognised by driver and inode).
-/
namespace DG.H5

/-- What a group, dataset or attribute handle refers to; the deleters of HDF5Wrapper.h 1016-1081 differ in the closing function. -/
inductive ObjKind where
  | group
  | attr
  | dset
  deriving DecidableEq

/-- What the library knows about an open handle (external; HDF5Wrapper.h 90-147, 164-424). -/
inductive Handle where
  /-- a file, and whether it was opened with the MPI driver -/
  | file (name : String) (par : Bool)
  /-- a dataspace -/
  | space
  /-- an object opened through the file handle `root` -/
  | obj (k : ObjKind) (root : ℕ)
  deriving DecidableEq

/-- The pair behind a `managed_hid`, HDF5Wrapper.h 46, 1012-1081: `first` (a dataspace) and `second`; `none` = -1. -/
structure Block where
  /-- which deleter -/
  kind : ObjKind
  /-- dataspace -/
  first : Option ℕ
  /-- group, attribute or dataset -/
  second : Option ℕ

/-- The variables of one process that matter for handles, the library and the disk (HDF5Wrapper.h 44-46, 1001-1007). -/
structure State (D : Type) where
  /-- objects of class `HDF5File`: `none` = no such object now, `some none` = its member `file` is -1 -/
  objs : ℕ → Option (Option ℕ)
  /-- variables of type `managed_hid`: `none` = no such variable now, `some none` = the null pointer -/
  ptrs : ℕ → Option (Option ℕ)
  /-- allocated pairs -/
  blocks : ℕ → Option Block
  /-- open handles of the library -/
  lib : ℕ → Option Handle
  /-- next number for a handle or a pair -/
  next : ℕ
  /-- files on disk -/
  disk : String → Option D

/-- The state when the program starts (HDF5Wrapper.h 44-46). -/
def start {D : Type} (disk : String → Option D) : State D := ⟨fun _ => none, fun _ => none, fun _ => none, fun _ => none, 0, disk⟩

/-- Outcome of calls: they return, the program ends with an error message (`std::exit`, e.g. HDF5Wrapper.h 117, 158), a handle that
is not open or of another kind is given to the library, or the sequence is not a C++ program (a variable is used outside of its
life). -/
inductive Res (α : Type) where
  | ok (a : α)
  | exit
  | misuse
  | invalid

/-- consecutive calls (control flow, e.g. HDF5Wrapper.h 83-85) -/
def Res.bind {α β : Type} : Res α → (α → Res β) → Res β
  | .ok a, f => f a
  | .exit, _ => .exit
  | .misuse, _ => .misuse
  | .invalid, _ => .invalid

/-- Modes of opening, HDF5Wrapper.h 114-142: the constants of HDF5, or any other number. -/
inductive Mode where
  | rdonly
  | rdwr
  | trunc
  | excl
  | other
  deriving DecidableEq

/-- The calls of the interface that concern handles.  Variables are numbered; `good`: does the library find or create what is
asked for (HDF5Wrapper.h 53-424, 1016-1086). -/
inductive Op where
  /-- `HDF5File v;` (53) -/
  | new (v : ℕ)
  /-- `HDF5File v(name, mode, par);` (75-79) -/
  | newOpen (v : ℕ) (name : String) (mode : Mode) (par good : Bool)
  /-- `HDF5File v(std::move(w));` (55-59) -/
  | moveNew (v w : ℕ)
  /-- `v = std::move(w);` (60-73) -/
  | moveAssign (v w : ℕ)
  /-- `v.open(name, mode, par);` (83-147) -/
  | open_ (v : ℕ) (name : String) (mode : Mode) (par good : Bool)
  /-- `v.close();` (150-161) -/
  | close (v : ℕ)
  /-- the end of the life of `v` (80) -/
  | destroy (v : ℕ)
  /-- `auto p = v.create_group(…, dest)`, `v.open_attribute(…, dest)`, … (164-424); `sp`: with a dataspace -/
  | make (p : ℕ) (k : ObjKind) (sp : Bool) (v : ℕ) (dest : Option ℕ) (good : Bool)
  /-- `hid_t p = H5Screate_simple(…)` in create_and_write_parallel_dataset (813) and open_and_read_parallel_dataset (734), closed
  at its `H5Sclose` -/
  | space (p : ℕ)
  /-- `managed_hid p;` -/
  | null (p : ℕ)
  /-- `managed_hid p = q;` -/
  | copyNew (p q : ℕ)
  /-- `p = q;` -/
  | assign (p q : ℕ)
  /-- `p = std::move(q);` -/
  | moveP (p q : ℕ)
  /-- the end of the life of `p` -/
  | drop (p : ℕ)

section
variable {D : Type}

open Classical in
/-- `HDF5File::close()` for an object with member `file`, HDF5Wrapper.h 150-161, with `H5Fclose`. -/
noncomputable def closeFile (s : State D) (v : ℕ) (file : Option ℕ) : Res (State D) :=
  match file with
  | none => .ok s
  | some h =>
    match s.lib h with
    | some (.file _ par) =>
      if par = true ∧ ∃ h' k, s.lib h' = some (.obj k h) then .exit
      else .ok { s with lib := Function.update s.lib h none, objs := Function.update s.objs v (some none) }
    | _ => .misuse

open Classical in
/-- `H5Fopen` / `H5Fcreate` in `open`, HDF5Wrapper.h 112-142: the mode `EXCL` creates with `TRUNC`. -/
noncomputable def openFile (empty : D) (s : State D) (v : ℕ) (name : String) (mode : Mode) (par good : Bool) : Res (State D) :=
  let opened (disk : String → Option D) : Res (State D) :=
    .ok { s with
      objs := Function.update s.objs v (some (some s.next))
      lib := Function.update s.lib s.next (some (.file name par))
      next := s.next + 1
      disk := disk }
  match mode with
  | .rdonly | .rdwr => if s.disk name ≠ none ∧ good = true then opened s.disk else .exit
  | .trunc | .excl =>
    if (∀ h, s.lib h ≠ some (.file name par)) ∧ good = true then opened (Function.update s.disk name (some empty)) else .exit
  | .other => .exit

/-- `H5Aclose`, `H5Dclose`, `H5Gclose` in a deleter, HDF5Wrapper.h 1023, 1045, 1068 -/
def closeObj (s : State D) (k : ObjKind) : Option ℕ → Res (State D)
  | none => .ok s
  | some h =>
    match s.lib h with
    | some (.obj k' _) => if k' = k then .ok { s with lib := Function.update s.lib h none } else .misuse
    | _ => .misuse

/-- `H5Sclose` in a deleter, HDF5Wrapper.h 1028, 1050, 1073 -/
def closeSpace (s : State D) : Option ℕ → Res (State D)
  | none => .ok s
  | some h =>
    match s.lib h with
    | some .space => .ok { s with lib := Function.update s.lib h none }
    | _ => .misuse

open Classical in
/-- What `std::shared_ptr` does when a variable lets go of the pair `b` (external): the deleter, HDF5Wrapper.h 1016-1081, is called
when no other variable refers to it. -/
noncomputable def release (s : State D) : Option ℕ → Res (State D)
  | none => .ok s
  | some b =>
    if ∃ q, s.ptrs q = some (some b) then .ok s
    else match s.blocks b with
      | none => .misuse
      | some blk =>
        ((closeObj s blk.kind blk.second).bind fun s => closeSpace s blk.first).bind fun s =>
          .ok { s with blocks := Function.update s.blocks b none }

/-- `get_dest`, HDF5Wrapper.h 1083-1086: the handle of the destination, or of the file; with the file handle through which it was
opened.  `none`: the handle is -1 or not one that can hold objects, and the call of the library fails. -/
def destRoot (s : State D) (file : Option ℕ) (dest : Option ℕ) : Res (Option ℕ) :=
  match dest with
  | none =>
    match file with
    | none => .ok none
    | some h => match s.lib h with
      | some (.file _ _) => .ok (some h)
      | _ => .misuse
  | some b =>
    match s.blocks b with
    | none => .misuse
    | some blk => match blk.second with
      | none => .ok none
      | some h => match s.lib h with
        | some (.obj k root) => .ok (if k = .attr then none else some root)
        | _ => .misuse

/-- Creation or opening of a group, attribute or dataset, HDF5Wrapper.h 164-175, 179-190, 201-231, 235-247, 346-385, 400-412: the
pair is allocated, the dataspace and the object are opened. -/
def makeObj (s : State D) (p : ℕ) (k : ObjKind) (sp : Bool) (root : ℕ) : State D :=
  if sp = true then
    { s with
      ptrs := Function.update s.ptrs p (some (some s.next))
      blocks := Function.update s.blocks s.next (some ⟨k, some (s.next + 1), some (s.next + 2)⟩)
      lib := Function.update (Function.update s.lib (s.next + 1) (some .space)) (s.next + 2) (some (.obj k root))
      next := s.next + 3 }
  else
    { s with
      ptrs := Function.update s.ptrs p (some (some s.next))
      blocks := Function.update s.blocks s.next (some ⟨k, none, some (s.next + 1)⟩)
      lib := Function.update s.lib (s.next + 1) (some (.obj k root))
      next := s.next + 2 }

/-- One call, HDF5Wrapper.h 53-424, 1016-1086 (lines beside the cases); `empty`: the contents of a new file. -/
noncomputable def step (empty : D) (s : State D) : Op → Res (State D)
  -- 53
  | .new v => match s.objs v with
    | none => .ok { s with objs := Function.update s.objs v (some none) }
    | some _ => .invalid
  -- 75-79
  | .newOpen v name mode par good => match s.objs v with
    | none => openFile empty { s with objs := Function.update s.objs v (some none) } v name mode par good
    | some _ => .invalid
  -- 55-59
  | .moveNew v w => match s.objs v, s.objs w with
    | none, some f => .ok { s with objs := Function.update (Function.update s.objs v (some f)) w (some none) }
    | _, _ => .invalid
  -- 60-73
  | .moveAssign v w => match s.objs v, s.objs w with
    | some _, some f =>
      if w = v then .ok s
      else .ok { s with objs := Function.update (Function.update s.objs v (some f)) w (some none) }
    | _, _ => .invalid
  -- 83-147
  | .open_ v name mode par good => match s.objs v with
    | some f => (closeFile s v f).bind fun s => openFile empty s v name mode par good
    | none => .invalid
  -- 150-161
  | .close v => match s.objs v with
    | some f => closeFile s v f
    | none => .invalid
  -- 80
  | .destroy v => match s.objs v with
    | some f => (closeFile s v f).bind fun s => .ok { s with objs := Function.update s.objs v none }
    | none => .invalid
  -- 164-424
  | .make p k sp v dest good => match s.ptrs p, s.objs v with
    | none, some f =>
      match dest with
      | none => (destRoot s f none).bind fun
        | some root => if good = true then .ok (makeObj s p k sp root) else .exit
        | none => .exit
      | some q => match s.ptrs q with
        | some b => (destRoot s f b).bind fun
          | some root => if good = true then .ok (makeObj s p k sp root) else .exit
          | none => .exit
        | none => .invalid
    | _, _ => .invalid
  -- 734, 813
  | .space p => match s.ptrs p with
    | none => .ok { s with
        ptrs := Function.update s.ptrs p (some (some s.next))
        blocks := Function.update s.blocks s.next (some ⟨.dset, some (s.next + 1), none⟩)
        lib := Function.update s.lib (s.next + 1) (some .space)
        next := s.next + 2 }
    | some _ => .invalid
  | .null p => match s.ptrs p with
    | none => .ok { s with ptrs := Function.update s.ptrs p (some none) }
    | some _ => .invalid
  | .copyNew p q => match s.ptrs p, s.ptrs q with
    | none, some b => .ok { s with ptrs := Function.update s.ptrs p (some b) }
    | _, _ => .invalid
  | .assign p q => match s.ptrs p, s.ptrs q with
    | some b, some b' => release { s with ptrs := Function.update s.ptrs p (some b') } b
    | _, _ => .invalid
  | .moveP p q => match s.ptrs p, s.ptrs q with
    | some b, some b' =>
      if q = p then .ok s
      else release { s with ptrs := Function.update (Function.update s.ptrs p (some b')) q (some none) } b
    | _, _ => .invalid
  | .drop p => match s.ptrs p with
    | some b => release { s with ptrs := Function.update s.ptrs p none } b
    | none => .invalid

/-- A sequence of calls of one process (e.g. io/writer.cpp 36-63). -/
noncomputable def run (empty : D) (s : State D) : List Op → Res (State D)
  | [] => .ok s
  | op :: ops => (step empty s op).bind fun s => run empty s ops

end

/-- `f.create_and_write_attribute`, HDF5Wrapper.h 337-342, in the file or in the object of variable `dest`. -/
def writeAttr (f p : ℕ) (dest : Option ℕ) : List Op := [.make p .attr true f dest true, .drop p]

/-- `f.create_and_write_dataset`, HDF5Wrapper.h 620-634; also `create_and_write_dataset_gather_scalar`, 638-654. -/
def writeDset (f p : ℕ) : List Op := [.make p .dset true f none true, .drop p]

/-- `f.create_and_write_parallel_dataset`, HDF5Wrapper.h 780-893: file space and dataset (791, 798; as one pair, closed in this order
at 839, 840), memory space (813, closed at 838), the dataset of offsets with three attributes, the dataset of dimensions. -/
def writePar (f : ℕ) : List Op :=
  [.make 0 .dset true f none true, .space 1, .drop 1, .drop 0] ++
  [.make 0 .dset true f none true] ++ writeAttr f 1 (some 0) ++ writeAttr f 1 (some 0) ++ writeAttr f 1 (some 0) ++
    writeDset f 1 ++ [.drop 0]

/-- `Writer::write`, writer.cpp 36-64, on one rank. -/
def writerOps (f : ℕ) (name : String) (par head : Bool) : List Op :=
  [.new f] ++
  (if par = true ∨ head = true then
    [.open_ f name .trunc par true] ++ (List.replicate 8 (writeAttr f 0 none)).flatten ++ writeDset f 0 ++ writeAttr f 0 none ++
      (List.replicate 5 (writePar f)).flatten
  else []) ++ [.destroy f]

/-- `f.open_and_read_dataset_all`, HDF5Wrapper.h 542-548, 560-567: the other ranks keep a null pointer. -/
def readDset (f : ℕ) (head : Bool) : List Op :=
  [.null 0] ++ (if head = true then [.make 1 .dset true f none true, .moveP 0 1, .drop 1] else []) ++ [.drop 0]

/-- `Mesh::read_mesh`, mesh.cpp 79-204, on one rank: `n` datasets (6 or 7, three arrays, two for every boundary group). -/
def readMeshOps (name : String) (head : Bool) (n : ℕ) : List Op :=
  [.newOpen 0 name .rdonly true true] ++ (List.replicate n (readDset 0 head)).flatten ++ [.destroy 0]

/-- `f.open_and_read_attribute_all`, HDF5Wrapper.h 308-315; `dest`: variable of the object with the attribute -/
def readAttr (f p : ℕ) (dest : Option ℕ) (head : Bool) : List Op :=
  [.null p] ++ (if head = true then [.make (p + 1) .attr false f dest true, .moveP p (p + 1), .drop (p + 1)] else []) ++ [.drop p]

/-- `f.open_and_read_dataset`, HDF5Wrapper.h 552-556, called by the head rank only (660-663, 934, 989) -/
def readHead (f p : ℕ) (head : Bool) : List Op := if head = true then [.make p .dset true f none true, .drop p] else []

/-- `f.read_dims_of_parallel_dataset`, HDF5Wrapper.h 909-946, for a file with the number of ranks of this run -/
def readDims (f : ℕ) (head : Bool) : List Op :=
  [.make 0 .dset true f none true] ++ readAttr f 1 (some 0) head ++ readAttr f 1 (some 0) head ++ readHead f 1 head ++ [.drop 0]

/-- `f.read_total_size_of_parallel_dataset`, HDF5Wrapper.h 969-973 -/
def readTotal (f : ℕ) (head : Bool) : List Op := [.make 0 .dset true f none true] ++ readAttr f 1 (some 0) head ++ [.drop 0]

/-- `f.open_and_read_parallel_dataset(name, data)`, HDF5Wrapper.h 710-776: the dimensions, the total size, the offset (read by the
head rank, 989), the dataset with its file space (718, 726) and the memory space (734); closed at 756-768. -/
def readPar (f : ℕ) (head : Bool) : List Op :=
  readDims f head ++ readTotal f head ++ readHead f 0 head ++
    [.make 0 .dset true f none true, .space 1, .drop 0, .drop 1]

/-- `Solver::read_in_coefficients`, solver/base.cpp 236-282, on one rank; `open_and_read_parallel_dataset(name)` reads the
dimensions twice (HDF5Wrapper.h 702, 712). -/
def readCoefficientsOps (name : String) (head : Bool) : List Op :=
  [.newOpen 0 name .rdonly true true] ++ readHead 0 0 head ++ (List.replicate 4 (readAttr 0 0 none head)).flatten ++
    readDims 0 head ++ readPar 0 head ++ [.destroy 0]

/-- `Reader::populate_parallel_dataset`, reader.h 172-190: dimensions, total size, data, and on the head rank the offsets. -/
def populateOps (f : ℕ) (head : Bool) : List Op := readDims f head ++ readTotal f head ++ readPar f head ++ readHead f 0 head

/-- `Reader::Reader`, reader.h 29-62, 143-151, for a file with the number of ranks of this run. -/
def readerOps (name : String) (head : Bool) : List Op :=
  [.newOpen 0 name .rdwr true true] ++ (List.replicate 9 (readAttr 0 0 none head)).flatten ++ readHead 0 0 head ++
    (List.replicate 5 (populateOps 0 head)).flatten

/-- The converter, converter/main.cpp 21-28, on one rank: the reader keeps its file open while the writer works. -/
def converterOps (input output : String) (head : Bool) : List Op :=
  readerOps input head ++ writerOps 1 output false head ++ [.destroy 0]

end DG.H5
