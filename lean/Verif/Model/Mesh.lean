import Verif.Model.Arr

/-!
Model of `Mesh::partition` (src/mesh/mesh.cpp 227-590) after the call to METIS, on one rank.
The METIS result is the argument `part` (`elem_partition`); the iteration order of
`std::unordered_set` is the argument `enum`.
-/
namespace DG

/-- The value of `UINT_MAX` (32-bit `unsigned`), used as "not on this rank"
(mesh.cpp 604-613). -/
def UINT_MAX : ℕ := 4294967295

/-- One row of `IF_to_elem` (mesh.cpp 147-152): left element, its reference face and orientation,
then the same for the right element. -/
structure IFace where
  elemL : ℕ
  faceL : ℕ
  orientL : ℕ
  elemR : ℕ
  faceR : ℕ
  orientR : ℕ
deriving DecidableEq, Repr

/-- The global mesh as held by every rank after `read_mesh` (mesh.cpp 79-204): only the members
used by `partition`.  `α` is the type of a coordinate (`rtype`). -/
structure GMesh (α : Type _) where
  numElems : ℕ
  npe : ℕ                 -- num_nodes_per_elem
  eind : List ℕ           -- row-major (element, node)
  coord : List (List α)   -- one row per node
  faces : List IFace      -- IF_to_elem

/-- `std::set<int>::insert` (mesh.cpp 302-305): the set is its increasing list of members. -/
def setInsert (x : ℕ) : List ℕ → List ℕ
  | [] => [x]
  | y :: ys => if x < y then x :: y :: ys else if x = y then y :: ys else y :: setInsert x ys

/-- `std::unordered_set<int>::insert` (mesh.cpp 338-339): members without duplicates; the order
of the list is the insertion order, iteration order is chosen later by `enum`. -/
def usetInsert (x : ℕ) (s : List ℕ) : List ℕ := if x ∈ s then s else s ++ [x]

/-- mesh.cpp 604-613 `search_for_local_ID`: linear search, first hit, `UINT_MAX` if none. -/
def searchLocal (g : ℕ) (l2g : List ℕ) : ℕ :=
  go 0 l2g
where
  go (i : ℕ) : List ℕ → ℕ
    | [] => UINT_MAX
    | x :: xs => if x = g then i else go (i + 1) xs

/-- mesh.cpp 284-288: number of elements of every partition. -/
def countElems (nparts : ℕ) (part : List ℕ) : Option (List ℕ) :=
  part.foldlM bumpB (List.replicate nparts 0)

/-- mesh.cpp 298-306: loop over the node slots of element `i`, inserting in the set. -/
def nodeSetElem (eind : List ℕ) (npe i : ℕ) (s : List ℕ) : Option (List ℕ) :=
  (List.range npe).foldlM (fun s j =>
    match eind[i * npe + j]? with
    | some g => some (setInsert g s)
    | none => none) s

/-- mesh.cpp 291-309: the set `global_node_IDs` of nodes of the elements of rank `r`. -/
def nodeSet {α : Type _} (m : GMesh α) (part : List ℕ) (r : ℕ) : Option (List ℕ) :=
  (List.range m.numElems).foldlM (fun s i =>
    match part[i]? with
    | some p => if r = p then nodeSetElem m.eind m.npe i s else some s
    | none => none) []

/-- State of the face counting loop (mesh.cpp 311-341). -/
structure FaceCount where
  ifaceSize : List ℕ        -- iface_partition_size
  ghosts : List ℕ           -- ghost_faces_vector
  nbrs : List (List ℕ)      -- sets_of_neighbor_ranks
deriving DecidableEq, Repr

/-- One iteration of mesh.cpp 315-341 for face number `i`. -/
def countFace (part : List ℕ) (st : FaceCount) (f : IFace × ℕ) : Option FaceCount := do
  let rl ← part[f.1.elemL]?
  let sz ← bumpB st.ifaceSize rl
  let rr ← part[f.1.elemR]?
  if rl ≠ rr then
    let sz ← bumpB sz rr
    let sl ← st.nbrs[rl]?
    let nb ← setB st.nbrs rl (usetInsert rr sl)
    let sr ← nb[rr]?
    let nb ← setB nb rr (usetInsert rl sr)
    some { ifaceSize := sz, ghosts := st.ghosts ++ [f.2], nbrs := nb }
  else
    some { st with ifaceSize := sz }

/-- mesh.cpp 311-341, whole loop. -/
def countFaces {α : Type _} (m : GMesh α) (nparts nranks : ℕ) (part : List ℕ) : Option FaceCount :=
  m.faces.zipIdx.foldlM (countFace part)
    { ifaceSize := List.replicate nparts 0, ghosts := [], nbrs := List.replicate nranks [] }

/-- mesh.cpp 376-379: local node IDs of global element `i`: the distance from the beginning of
the ordered node set to the node (the size of the set if the node is absent, like `end()`). -/
def elemNodes (eind : List ℕ) (npe : ℕ) (nodes : List ℕ) (i : ℕ) : Option (List ℕ) :=
  (List.range npe).mapM (fun j =>
    match eind[i * npe + j]? with
    | some g => some (nodes.idxOf g)
    | none => none)

/-- mesh.cpp 368-382: fill `h_local_to_global_elem_IDs` and `h_elem_to_node_IDs` (rows are
written in one go here; in the code, entry by entry). -/
def storeElems {α : Type _} (m : GMesh α) (part : List ℕ) (r nElemsPart : ℕ) (nodes : List ℕ) :
    Option (ℕ × List (ℕ × List ℕ)) :=
  (List.range m.numElems).foldlM (fun st i =>
    match part[i]? with
    | some p =>
      if r = p then
        match elemNodes m.eind m.npe nodes i with
        | some row => pushB st (i, row)
        | none => none
      else some st
    | none => none) (0, List.replicate nElemsPart (0, []))

/-- mesh.cpp 384-397: coordinates of the local nodes. -/
def storeCoords {α : Type _} (m : GMesh α) (nodes : List ℕ) : Option (List (List α)) :=
  nodes.mapM (fun g => m.coord[g]?)

/-- One row of `interior_faces`, columns 0..7 (mesh.h, accessors `get_rankL` .. `get_orientR`). (mesh.h 112-160) -/
structure FaceRow where
  rankL : ℕ
  elemL : ℕ
  faceL : ℕ
  orientL : ℕ
  rankR : ℕ
  elemR : ℕ
  faceR : ℕ
  orientR : ℕ
deriving DecidableEq, Repr

/-- mesh.cpp 406-429: the record stored for a face (`l2gE` = `h_local_to_global_elem_IDs`). -/
def faceRow (l2gE : List ℕ) (rl rr : ℕ) (f : IFace) : FaceRow :=
  { rankL := rl, rankR := rr,
    elemL := searchLocal f.elemL l2gE, elemR := searchLocal f.elemR l2gE,
    faceL := f.faceL, orientL := f.orientL, faceR := f.faceR, orientR := f.orientR }

/-- State of the interior face storing loop: counter, (`h_local_to_global_iface_IDs`,
`h_interior_faces`) rows, and `num_gfaces_part`. (mesh.cpp 399-442) -/
structure FaceStore where
  st : ℕ × List (ℕ × FaceRow)
  ngf : ℕ
deriving DecidableEq, Repr

/-- One iteration of mesh.cpp 402-431. -/
def storeFace (part : List ℕ) (r : ℕ) (l2gE : List ℕ) (s : FaceStore) (f : IFace × ℕ) :
    Option FaceStore := do
  let rl ← part[f.1.elemL]?
  let rr ← part[f.1.elemR]?
  if r = rl ∨ r = rr then
    let st ← pushB s.st (f.2, faceRow l2gE rl rr f.1)
    some { st := st, ngf := if rl ≠ rr then s.ngf + 1 else s.ngf }
  else some s

/-- mesh.cpp 399-432. -/
def storeFaces {α : Type _} (m : GMesh α) (part : List ℕ) (r nIFacesPart : ℕ) (l2gE : List ℕ) :
    Option FaceStore :=
  m.faces.zipIdx.foldlM (storeFace part r l2gE)
    { st := (0, List.replicate nIFacesPart (0, ⟨0, 0, 0, 0, 0, 0, 0, 0⟩)), ngf := 0 }

/-- mesh.cpp 447-454 (and three identical copies): position of a rank in `h_neighbor_ranks`;
`none` = `index` is used uninitialised. -/
def nbrIndex (nbrs : List ℕ) (s : ℕ) : Option ℕ :=
  go 0 nbrs
where
  go (i : ℕ) : List ℕ → Option ℕ
    | [] => none
    | x :: xs => if x = s then some i else go (i + 1) xs

/-- mesh.cpp 436-456 / 482-513: for a ghost face, if it is stored on this rank, the index of the
neighbour on the other side.  Outer `none` = undefined behaviour, inner `none` = skip. -/
def ghostIndex (r : ℕ) (l2gF : List ℕ) (rows : List FaceRow) (nbrs : List ℕ) (g : ℕ) :
    Option (Option ℕ) :=
  let lf := searchLocal g l2gF
  if lf = UINT_MAX then some none
  else
    match rows[lf]? with
    | none => none
    | some row =>
      if r = row.rankL then (nbrIndex nbrs row.rankR).map some
      else if r = row.rankR then (nbrIndex nbrs row.rankL).map some
      else some none

/-- mesh.cpp 434-469: number of faces on the boundary with each neighbour. -/
def countGhosts (r : ℕ) (l2gF : List ℕ) (rows : List FaceRow) (nbrs ghosts : List ℕ) :
    Option (List ℕ) :=
  ghosts.foldlM (fun cnt g => do
    match ← ghostIndex r l2gF rows nbrs g with
    | some idx => bumpB cnt idx
    | none => some cnt) (List.replicate nbrs.length 0)

/-- mesh.cpp 471-527: the ghost faces of each neighbour, with one write position per neighbour
(`gface_counter`).  In the code, `index` would be used uninitialised if the rank of the row is on
neither side; here that case is skipped like in the counting loop (it never occurs, see C05). -/
def storeGhosts (r : ℕ) (l2gF : List ℕ) (rows : List FaceRow) (nbrs cnt ghosts : List ℕ) :
    Option (List (ℕ × List ℕ)) :=
  ghosts.foldlM (fun gs g => do
    match ← ghostIndex r l2gF rows nbrs g with
    | some idx =>
      let cur ← gs[idx]?
      let nxt ← pushB cur g
      setB gs idx nxt
    | none => some gs) (cnt.map (fun n => (0, List.replicate n 0)))

/-- What rank `r` holds after `partition`. (mesh.h 175-305) -/
structure RankMesh (α : Type _) where
  numElemsPart : ℕ
  numNodesPart : ℕ
  numIFacesPart : ℕ
  numGFacesPart : ℕ
  nbrs : List ℕ                 -- neighbor_ranks
  l2gElem : List ℕ              -- local_to_global_elem_IDs
  elemToNode : List (List ℕ)    -- elem_to_node_IDs
  l2gNode : List ℕ              -- local_to_global_node_IDs
  nodeCoords : List (List α)    -- node_coords
  l2gFace : List ℕ              -- local_to_global_iface_IDs
  rows : List FaceRow           -- interior_faces
  nFacesPerNbr : List ℕ         -- num_faces_per_rank_boundary
  ghosts : List (List ℕ)        -- ghost_faces[i]

/-- mesh.cpp 284-527 on rank `r`: everything `partition` computes from the METIS result.
`none` = some access is out of bounds or uninitialised. -/
def partition {α : Type _} (m : GMesh α) (nparts nranks : ℕ) (part : List ℕ)
    (enum : List ℕ → List ℕ) (r : ℕ) : Option (RankMesh α) := do
  let sizes ← countElems nparts part
  let nElemsPart ← sizes[r]?
  let nodes ← nodeSet m part r
  let fc ← countFaces m nparts nranks part
  let nIFacesPart ← fc.ifaceSize[r]?
  let nset ← fc.nbrs[r]?
  let nbrs := enum nset
  let els ← storeElems m part r nElemsPart nodes
  let coords ← storeCoords m nodes
  let l2gE := els.2.map Prod.fst
  let fs ← storeFaces m part r nIFacesPart l2gE
  let l2gF := fs.st.2.map Prod.fst
  let rows := fs.st.2.map Prod.snd
  let cnt ← countGhosts r l2gF rows nbrs fc.ghosts
  let gh ← storeGhosts r l2gF rows nbrs cnt fc.ghosts
  some { numElemsPart := nElemsPart, numNodesPart := nodes.length, numIFacesPart := nIFacesPart,
         numGFacesPart := fs.ngf, nbrs := nbrs, l2gElem := l2gE,
         elemToNode := els.2.map Prod.snd, l2gNode := nodes, nodeCoords := coords,
         l2gFace := l2gF, rows := rows, nFacesPerNbr := cnt, ghosts := gh.map Prod.snd }

/-- mesh.cpp 544-552, the "CHECK VIEW" debug print executed unconditionally at the end of
`partition`: reads rows 0, 1, 2 of `h_interior_faces`. `none` = out-of-bounds read. -/
def checkView {α : Type _} (rm : RankMesh α) : Option (List FaceRow) :=
  [0, 1, 2].mapM (fun i => rm.rows[i]?)

/-- mesh.cpp 277-281: with one partition METIS is not called and everything is on partition 0;
otherwise the METIS result is used. -/
def elemPartition (nparts numElems : ℕ) (metis : List ℕ) : List ℕ :=
  if nparts > 1 then metis else List.replicate numElems 0

end DG
