import Verif.Model.Mesh

/-!
Model of the `Mesh` constructor's choice of the number of partitions (src/mesh/mesh.cpp 28-62) and
of `Mesh::read_mesh` (mesh.cpp 79-204).  The HDF5 file is the record `MeshFile` of its datasets.
-/
namespace DG

/-- Contents of a mesh file (mesh.cpp 13-26 names the datasets); integers are read as `int` and are
non-negative in any valid file, modelled as `ℕ`. `bgroups`: for each boundary group of the input
file, in order, (`_nBFace`, `_BFaceData`). -/
structure MeshFile (α : Type) where
  dim : ℕ
  numElems : ℕ
  numNodes : ℕ
  nIF : ℕ
  npe : ℕ
  elem2Nodes : List ℕ
  nodeCoords : List α
  ifaceData : List ℕ
  bgroups : List (ℕ × List ℕ)

/-- A reverse map under construction: for every element a fixed row of 6 slots (mesh.cpp 118,120)
and the number of slots used (`nIF_in_elem` / `nBG_in_elem`). -/
structure RevMap where
  tbl : List (List ℕ)
  cnt : List ℕ
deriving DecidableEq, Repr

/-- mesh.cpp 116-121: `n` empty rows of 6 slots. -/
def RevMap.empty (n : ℕ) : RevMap := ⟨List.replicate n (List.replicate 6 0), List.replicate n 0⟩

/-- `elem_to_IF[e][nIF_in_elem[e]] = v` (mesh.cpp 155); `none` = out of bounds. -/
def RevMap.write (m : RevMap) (e v : ℕ) : Option RevMap := do
  let row ← m.tbl[e]?
  let c ← m.cnt[e]?
  let row' ← setB row c v
  let tbl ← setB m.tbl e row'
  some { m with tbl := tbl }

/-- `nIF_in_elem[e]++` (mesh.cpp 157). -/
def RevMap.bump (m : RevMap) (e : ℕ) : Option RevMap := do
  let cnt ← bumpB m.cnt e
  some { m with cnt := cnt }

/-- mesh.cpp 145-152: the six integers of face `i`. -/
def readFace (data : List ℕ) (i : ℕ) : Option IFace := do
  let a ← data[6 * i + 0]?
  let b ← data[6 * i + 1]?
  let c ← data[6 * i + 2]?
  let d ← data[6 * i + 3]?
  let e ← data[6 * i + 4]?
  let f ← data[6 * i + 5]?
  some ⟨a, b, c, d, e, f⟩

/-- mesh.cpp 155-158: both reverse-map writes, then both increments. -/
def revFace (m : RevMap) (f : IFace) (i : ℕ) : Option RevMap := do
  let m ← m.write f.elemL i
  let m ← m.write f.elemR i
  let m ← m.bump f.elemL
  m.bump f.elemR

/-- mesh.cpp 144-159: the loop over interior faces. -/
def readFaces (numElems nIF : ℕ) (data : List ℕ) : Option (List IFace × RevMap) :=
  (List.range nIF).foldlM (fun st i => do
    let f ← readFace data i
    let m ← revFace st.2 f i
    some (st.1 ++ [f], m)) ([], RevMap.empty numElems)

/-- mesh.cpp 134-141: row-major (node, direction). -/
def readCoords {α : Type} (numNodes dim : ℕ) (buff : List α) : Option (List (List α)) :=
  (List.range numNodes).mapM (fun n => (List.range dim).mapM (fun d => buff[n * dim + d]?))

/-- mesh.cpp 162-167. -/
def readEptr (numElems npe : ℕ) : List ℕ :=
  ((List.range (numElems + 1)).foldl (fun st _ => (st.1 ++ [st.2], st.2 + npe))
    (([] : List ℕ), 0)).1

/-- Boundary face record: element, reference face, orientation (mesh.cpp 187-189). -/
structure BFace where
  elem : ℕ
  face : ℕ
  orient : ℕ
deriving DecidableEq, Repr

/-- State of the boundary loop: records per group, reverse map, `ibface_global`. (mesh.cpp 170-203) -/
structure BState where
  groups : List (List BFace)
  rev : RevMap
  next : ℕ
deriving DecidableEq, Repr

/-- mesh.cpp 185-197: one boundary face. -/
def readBFace (data : List ℕ) (st : List BFace × RevMap × ℕ) (i : ℕ) :
    Option (List BFace × RevMap × ℕ) := do
  let a ← data[3 * i + 0]?
  let b ← data[3 * i + 1]?
  let c ← data[3 * i + 2]?
  let m ← st.2.1.write a st.2.2
  let m ← m.bump a
  some (st.1 ++ [⟨a, b, c⟩], m, st.2.2 + 1)

/-- mesh.cpp 176-198: one boundary group. -/
def readBGroup (st : BState) (g : ℕ × List ℕ) : Option BState := do
  let r ← (List.range g.1).foldlM (readBFace g.2) ([], st.rev, st.next)
  some ⟨st.groups ++ [r.1], r.2.1, r.2.2⟩

/-- mesh.cpp 170-203. -/
def readBFaces (numElems : ℕ) (groups : List (ℕ × List ℕ)) : Option BState :=
  groups.foldlM readBGroup ⟨[], RevMap.empty numElems, 0⟩

/-- Everything `read_mesh` leaves in the `Mesh` object. (mesh.cpp 79-204) -/
structure ReadResult (α : Type) where
  mesh : GMesh α
  eptr : List ℕ
  revI : RevMap
  bnd : BState

/-- mesh.cpp 79-204. -/
def readMesh {α : Type} (f : MeshFile α) : Option (ReadResult α) := do
  let coord ← readCoords f.numNodes f.dim f.nodeCoords
  let fr ← readFaces f.numElems f.nIF f.ifaceData
  let b ← readBFaces f.numElems f.bgroups
  some { mesh := ⟨f.numElems, f.npe, f.elem2Nodes, coord, fr.1⟩,
         eptr := readEptr f.numElems f.npe, revI := fr.2, bnd := b }

/-- The part of the input file the constructor looks at: is there a top-level key `npartitions`, and
the value of `npartitions` in the `[Mesh]` table. (mesh.cpp 37-43) -/
structure MeshInput where
  topLevelNpartitions : Bool
  meshNpartitions : Option ℕ

/-- mesh.cpp 37-43: the key is looked up at top level but its value is taken from `[Mesh]`
(`toml::find` throws when it is absent: `none`). -/
def numPartitions (inp : MeshInput) (numRanks : ℕ) : Option ℕ :=
  if inp.topLevelNpartitions then inp.meshNpartitions else some numRanks

end DG
