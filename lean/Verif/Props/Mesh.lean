import Verif.Lemmas.MeshMain
import Mathlib.Algebra.BigOperators.Group.List.Basic

/-!
Properties C01–C07 and C12 of `Mesh::partition`.

Throughout: `m` is any mesh, `nranks` any number of ranks, `part` any answer of the partitioner and
`enum` any iteration order of hash sets.  `partition m nranks nranks part enum r = some rm` says that
`partition` on rank `r` performs no out-of-bounds or uninitialised access and leaves `rm`.
-/
namespace DG

variable {α : Type}

/-! ### concrete data used for the non-vacuity examples: a 2x2 quadrilateral mesh on 9 nodes,
elements 0 1 / 2 3, on two ranks. -/

/-- 2x2 quads; faces: 0|1, 2|3, 0|2, 1|3. -/
def exMesh : GMesh ℕ where
  numElems := 4
  npe := 4
  eind := [0, 1, 3, 4,  1, 2, 4, 5,  3, 4, 6, 7,  4, 5, 7, 8]
  coord := [[0, 0], [1, 0], [2, 0], [0, 1], [1, 1], [2, 1], [0, 2], [1, 2], [2, 2]]
  faces := [⟨0, 1, 0, 1, 3, 1⟩, ⟨2, 1, 0, 3, 3, 1⟩, ⟨0, 2, 0, 2, 0, 1⟩, ⟨1, 2, 0, 3, 0, 1⟩]

/-- elements 0 and 2 on rank 1, 1 and 3 on rank 0 -/
def exPart : List ℕ := [1, 0, 1, 0]

theorem exMesh_ok : MeshOK exMesh where
  eindLen := by decide
  nodes := by decide
  faces := by decide
  elemsFit := by decide
  nodesFit := by decide
  facesFit := by decide

theorem exPart_ok : PartOK exMesh 2 exPart where
  len := by decide
  lt := by decide

theorem enum_id_ok : EnumOK id := fun l => List.Perm.refl l

/-- `partition` is free of out-of-bounds and uninitialised accesses (up to the debug print, see
`C12_debug_print_*`) on every rank. -/
theorem C01_partition_no_ub (m : GMesh α) (nranks : ℕ) (part : List ℕ) (enum : List ℕ → List ℕ)
    (hm : MeshOK m) (hp : PartOK m nranks part) (he : EnumOK enum) :
    ∀ r < nranks, ∃ rm, partition m nranks nranks part enum r = some rm := by
  intro r hr
  obtain ⟨rm, h, _⟩ := partition_spec m nranks part enum r hm hp he hr
  exact ⟨rm, h⟩

theorem result_of {m : GMesh α} {nranks : ℕ} {part : List ℕ} {enum : List ℕ → List ℕ} {r : ℕ}
    {rm : RankMesh α} (hm : MeshOK m) (hp : PartOK m nranks part) (he : EnumOK enum)
    (hr : r < nranks) (h : partition m nranks nranks part enum r = some rm) :
    PartitionResult m part r rm := by
  obtain ⟨rm', h', hres⟩ := partition_spec m nranks part enum r hm hp he hr
  rw [h] at h'
  cases h'
  exact hres

theorem mem_owned {part : List ℕ} {n r e : ℕ} :
    e ∈ ownedElems part n r ↔ e < n ∧ part[e]? = some r := by
  simp [ownedElems]

theorem owned_sorted (part : List ℕ) (n r : ℕ) : (ownedElems part n r).Pairwise (· < ·) :=
  List.Pairwise.sublist List.filter_sublist List.pairwise_lt_range

/-- C01: every element is on exactly one rank. -/
theorem C01_element_on_exactly_one_rank (m : GMesh α) (nranks : ℕ) (part : List ℕ)
    (enum : ℕ → List ℕ → List ℕ) (hm : MeshOK m) (hp : PartOK m nranks part) (he : ∀ r, EnumOK (enum r))
    (e : ℕ) (hlt : e < m.numElems) :
    ∃ r, (r < nranks ∧ ∃ rm, partition m nranks nranks part (enum r) r = some rm ∧ e ∈ rm.l2gElem) ∧
      ∀ r', (r' < nranks ∧ ∃ rm, partition m nranks nranks part (enum r') r' = some rm ∧
        e ∈ rm.l2gElem) → r' = r := by
  have hl : e < part.length := by rw [hp.len]; exact hlt
  refine ⟨part[e], ⟨hp.lt _ (List.getElem_mem hl), ?_⟩, ?_⟩
  · obtain ⟨rm, h, res⟩ := partition_spec m nranks part (enum part[e]) part[e] hm hp (he _)
      (hp.lt _ (List.getElem_mem hl))
    refine ⟨rm, h, ?_⟩
    rw [res.l2gElem, mem_owned]
    exact ⟨hlt, List.getElem?_eq_getElem hl⟩
  · rintro r' ⟨hr', rm, h, hmem⟩
    have res := result_of hm hp (he r') hr' h
    rw [res.l2gElem, mem_owned, List.getElem?_eq_getElem hl] at hmem
    exact (Option.some.inj hmem.2).symm

/-- C01: a rank stores each of its elements once, only elements of the mesh assigned to it, and
allocates for exactly that many. -/
theorem C01_rank_elements (m : GMesh α) (nranks : ℕ) (part : List ℕ) (enum : List ℕ → List ℕ)
    (hm : MeshOK m) (hp : PartOK m nranks part) (he : EnumOK enum) (r : ℕ) (hr : r < nranks)
    (rm : RankMesh α) (h : partition m nranks nranks part enum r = some rm) :
    rm.l2gElem.Nodup ∧ rm.numElemsPart = rm.l2gElem.length ∧
      ∀ e, e ∈ rm.l2gElem ↔ e < m.numElems ∧ Owns part r e := by
  have res := result_of hm hp he hr h
  refine ⟨?_, ?_, ?_⟩
  · rw [res.l2gElem]; exact nodup_of_lt (owned_sorted _ _ _)
  · rw [res.numElemsPart, res.l2gElem]
  · intro e; rw [res.l2gElem, mem_owned]; rfl

theorem sum_count_range (n : ℕ) (l : List ℕ) (h : ∀ x ∈ l, x < n) :
    ((List.range n).map (fun r => l.count r)).sum = l.length := by
  induction l with
  | nil => simp
  | cons x xs ih =>
    have hx : x < n := h x (by simp)
    have ih' := ih (fun y hy => h y (by simp [hy]))
    have : (List.range n).map (fun r => (x :: xs).count r)
        = (List.range n).map (fun r => xs.count r + if r = x then 1 else 0) := by
      apply List.map_congr_left
      intro r _
      rw [List.count_cons]
      by_cases hrx : r = x
      · simp [hrx]
      · have : ¬ x = r := fun h => hrx h.symm
        simp [hrx, this]
    rw [this, List.sum_map_add, ih', List.length_cons]
    congr 1
    clear this ih ih' h
    induction n with
    | zero => omega
    | succ n ihn =>
      rw [List.range_succ, List.map_append, List.sum_append]
      by_cases hxn : x = n
      · subst hxn
        have h0 : ((List.range x).map (fun r => if r = x then 1 else 0)).sum = 0 := by
          apply List.sum_eq_zero
          intro y hy
          simp only [List.mem_map, List.mem_range] at hy
          obtain ⟨a, ha, rfl⟩ := hy
          rw [if_neg (by omega)]
        simp [h0]
      · rw [ihn (by omega)]
        simp only [List.map_cons, List.map_nil, List.sum_cons, List.sum_nil]
        rw [if_neg (fun h => hxn h.symm)]
        rfl

/-- C01: the element counts of the ranks add up to the number of elements of the mesh. -/
theorem C01_element_counts_add_up (m : GMesh α) (nranks : ℕ) (part : List ℕ)
    (enum : ℕ → List ℕ → List ℕ) (hm : MeshOK m) (hp : PartOK m nranks part) (he : ∀ r, EnumOK (enum r))
    (rms : ℕ → RankMesh α)
    (h : ∀ r < nranks, partition m nranks nranks part (enum r) r = some (rms r)) :
    ((List.range nranks).map (fun r => (rms r).numElemsPart)).sum = m.numElems := by
  rw [← hp.len, ← sum_count_range nranks part hp.lt]
  congr 1
  apply List.map_congr_left
  intro r hr
  simp only [List.mem_range] at hr
  rw [(result_of hm hp (he r) hr (h r hr)).numElemsPart, count_eq_owned, hp.len]

example : ∃ rm, partition exMesh 2 2 exPart id 1 = some rm ∧ rm.l2gElem = [0, 2] ∧
    MeshOK exMesh ∧ PartOK exMesh 2 exPart ∧ EnumOK id :=
  ⟨_, rfl, by decide, exMesh_ok, exPart_ok, enum_id_ok⟩

/-! ### C02 -/

/-- What a local-to-global table and the search function must satisfy together. -/
structure IDTableOK (l2g : List ℕ) : Prop where
  /-- local numbering preserves the global order -/
  mono : ∀ i j (hj : j < l2g.length) (hij : i < j), l2g[i]'(by omega) < l2g[j]
  /-- local → global → local -/
  localRoundTrip : ∀ i (hi : i < l2g.length), searchLocal l2g[i] l2g = i
  /-- global → local → global -/
  globalRoundTrip : ∀ g, g ∈ l2g → l2g[searchLocal g l2g]? = some g
  /-- the sentinel is returned exactly for IDs that are not in the table -/
  sentinel : ∀ g, searchLocal g l2g = UINT_MAX ↔ g ∉ l2g

theorem IDTableOK.of_sorted {l : List ℕ} (hs : l.Pairwise (· < ·)) (hfit : l.length ≤ UINT_MAX) :
    IDTableOK l where
  mono := by
    intro i j hj hij
    exact List.pairwise_iff_getElem.1 hs i j (by omega) hj hij
  localRoundTrip := by
    intro i hi
    rw [searchLocal_eq, if_pos (List.getElem_mem hi)]
    exact List.Nodup.idxOf_getElem (nodup_of_lt hs) i hi
  globalRoundTrip := by
    intro g hg
    rw [searchLocal_eq, if_pos hg]
    exact List.getElem?_idxOf hg
  sentinel := by
    intro g
    rw [searchLocal_eq]
    split
    · rename_i hg
      have := List.idxOf_lt_length_of_mem hg
      constructor
      · intro h; omega
      · intro h; exact absurd hg h
    · rename_i hg; simp [hg]

theorem length_le_of_sorted_lt (n : ℕ) : ∀ (l : List ℕ), l.Pairwise (· < ·) → (∀ x ∈ l, x < n) →
    l.length ≤ n := by
  intro l hs hl
  have h1 : l.Nodup := nodup_of_lt hs
  have h2 : l ⊆ List.range n := fun x hx => List.mem_range.2 (hl x hx)
  have := (List.subperm_of_subset h1 h2).length_le
  simpa using this

/-- C02: element, node and interior face IDs translate consistently on every rank. -/
theorem C02_id_translation (m : GMesh α) (nranks : ℕ) (part : List ℕ) (enum : List ℕ → List ℕ)
    (hm : MeshOK m) (hp : PartOK m nranks part) (he : EnumOK enum) (r : ℕ) (hr : r < nranks)
    (rm : RankMesh α) (h : partition m nranks nranks part enum r = some rm) :
    IDTableOK rm.l2gElem ∧ IDTableOK rm.l2gNode ∧ IDTableOK rm.l2gFace := by
  have res := result_of hm hp he hr h
  refine ⟨?_, ?_, ?_⟩
  · rw [res.l2gElem]
    refine IDTableOK.of_sorted (owned_sorted _ _ _) ?_
    refine le_trans (length_le_of_sorted_lt m.numElems _ (owned_sorted _ _ _) ?_) hm.elemsFit
    intro x hx; exact (mem_owned.1 hx).1
  · refine IDTableOK.of_sorted res.nodeSorted ?_
    refine le_trans (length_le_of_sorted_lt m.coord.length _ res.nodeSorted ?_) hm.nodesFit
    intro g hg
    obtain ⟨e, _, _, j, _, hj⟩ := (res.nodeMem g).1 hg
    exact hm.nodes g (List.mem_of_getElem? hj)
  · rw [res.l2gFace]
    refine IDTableOK.of_sorted (myFaces_sorted _ _ _) ?_
    refine le_trans (length_le_of_sorted_lt m.faces.length _ (myFaces_sorted _ _ _) ?_) hm.facesFit
    intro x hx
    obtain ⟨y, hy, rfl⟩ := List.mem_map.1 hx
    simp only [myFaces, List.mem_filter] at hy
    exact (List.getElem?_eq_some_iff.1 (mem_zipIdx_lt hy.1)).1

example : ∃ rm, partition exMesh 2 2 exPart id 1 = some rm ∧
    rm.l2gNode = [0, 1, 3, 4, 6, 7] ∧ searchLocal 6 rm.l2gNode = 4 ∧
    searchLocal 2 rm.l2gNode = UINT_MAX := ⟨_, rfl, by decide, by decide, by decide⟩

/-! ### C03 -/

/-- C03: the node list of a rank is exactly the set of nodes of its elements. -/
theorem C03_nodes_exact (m : GMesh α) (nranks : ℕ) (part : List ℕ) (enum : List ℕ → List ℕ)
    (hm : MeshOK m) (hp : PartOK m nranks part) (he : EnumOK enum) (r : ℕ) (hr : r < nranks)
    (rm : RankMesh α) (h : partition m nranks nranks part enum r = some rm) :
    rm.l2gNode.Nodup ∧ rm.numNodesPart = rm.l2gNode.length ∧
      rm.nodeCoords.length = rm.l2gNode.length ∧
      ∀ g, g ∈ rm.l2gNode ↔
        ∃ e, Owns part r e ∧ ∃ j < m.npe, m.eind[e * m.npe + j]? = some g := by
  have res := result_of hm hp he hr h
  refine ⟨nodup_of_lt res.nodeSorted, res.numNodesPart, res.coordLen, ?_⟩
  intro g
  rw [res.nodeMem]
  constructor
  · rintro ⟨e, _, h⟩; exact ⟨e, h⟩
  · rintro ⟨e, h1, h2⟩
    refine ⟨e, ?_, h1, h2⟩
    have := (List.getElem?_eq_some_iff.1 h1).1
    rwa [hp.len] at this

/-- C03: the connectivity of a rank resolves to the connectivity and the coordinates of the mesh
file. -/
theorem C03_connectivity (m : GMesh α) (nranks : ℕ) (part : List ℕ) (enum : List ℕ → List ℕ)
    (hm : MeshOK m) (hp : PartOK m nranks part) (he : EnumOK enum) (r : ℕ) (hr : r < nranks)
    (rm : RankMesh α) (h : partition m nranks nranks part enum r = some rm)
    (k e : ℕ) (hk : rm.l2gElem[k]? = some e) (j : ℕ) (hj : j < m.npe) :
    ∃ row ln g, rm.elemToNode[k]? = some row ∧ row.length = m.npe ∧ row[j]? = some ln ∧
      m.eind[e * m.npe + j]? = some g ∧ rm.l2gNode[ln]? = some g ∧
      rm.nodeCoords[ln]? = m.coord[g]? ∧ ln < rm.numNodesPart := by
  have res := result_of hm hp he hr h
  have hmem : e ∈ ownedElems part m.numElems r := by
    rw [← res.l2gElem]; exact List.mem_of_getElem? hk
  obtain ⟨helt, hown⟩ := mem_owned.1 hmem
  have hlt : e * m.npe + j < m.eind.length := by
    rw [hm.eindLen]
    have : (e + 1) * m.npe ≤ m.numElems * m.npe := Nat.mul_le_mul_right _ helt
    have h2 : (e + 1) * m.npe = e * m.npe + m.npe := by ring
    omega
  have hg : m.eind[e * m.npe + j]? = some (m.eind.getD (e * m.npe + j) 0) := getD_some hlt
  have hin : m.eind.getD (e * m.npe + j) 0 ∈ rm.l2gNode :=
    (res.nodeMem _).2 ⟨e, helt, hown, j, hj, hg⟩
  refine ⟨(List.range m.npe).map (fun j => rm.l2gNode.idxOf (m.eind.getD (e * m.npe + j) 0)),
    rm.l2gNode.idxOf (m.eind.getD (e * m.npe + j) 0), _, ?_, by simp, by simp [hj], hg,
    List.getElem?_idxOf hin, res.coord _ _ (List.getElem?_idxOf hin), ?_⟩
  · rw [res.elemToNode, List.getElem?_map]
    rw [res.l2gElem] at hk
    rw [hk]; rfl
  · rw [res.numNodesPart]; exact List.idxOf_lt_length_of_mem hin

example : ∃ rm, partition exMesh 2 2 exPart id 1 = some rm ∧ rm.l2gElem[1]? = some 2 ∧
    rm.elemToNode = [[0, 1, 2, 3], [2, 3, 4, 5]] ∧
    rm.nodeCoords = [[0, 0], [1, 0], [0, 1], [1, 1], [0, 2], [1, 2]] :=
  ⟨_, rfl, by decide, by decide, by decide⟩

/-! ### C04, C05 -/

/-- C04: a rank stores exactly the interior faces with an element on it, each once; what it
allocates is what it stores. -/
theorem C04_interior_faces (m : GMesh α) (nranks : ℕ) (part : List ℕ) (enum : List ℕ → List ℕ)
    (hm : MeshOK m) (hp : PartOK m nranks part) (he : EnumOK enum) (r : ℕ) (hr : r < nranks)
    (rm : RankMesh α) (h : partition m nranks nranks part enum r = some rm) :
    rm.l2gFace.Nodup ∧ rm.numIFacesPart = rm.l2gFace.length ∧
      rm.rows.length = rm.l2gFace.length ∧
      ∀ g, g ∈ rm.l2gFace ↔ ∃ f, IsFace m g f ∧ (Owns part r f.elemL ∨ Owns part r f.elemR) := by
  have res := result_of hm hp he hr h
  refine ⟨?_, ?_, ?_, ?_⟩
  · rw [res.l2gFace]; exact nodup_of_lt (myFaces_sorted _ _ _)
  · rw [res.numIFacesPart, res.l2gFace]; simp
  · rw [res.rows, res.l2gFace]; simp [rowsOf]
  · intro g
    rw [res.l2gFace, List.mem_map]
    constructor
    · rintro ⟨x, hx, rfl⟩
      simp only [myFaces, List.mem_filter, decide_eq_true_eq] at hx
      exact ⟨x.1, mem_zipIdx_lt hx.1, hx.2⟩
    · rintro ⟨f, hf, ht⟩
      refine ⟨(f, g), ?_, rfl⟩
      simp only [myFaces, List.mem_filter, decide_eq_true_eq]
      exact ⟨List.mem_zipIdx_iff_getElem?.2 hf, ht⟩

/-- C04: each interior face is on the rank of its left element, on the rank of its right element,
and nowhere else. -/
theorem C04_face_ranks (m : GMesh α) (nranks : ℕ) (part : List ℕ) (enum : ℕ → List ℕ → List ℕ)
    (hm : MeshOK m) (hp : PartOK m nranks part) (he : ∀ r, EnumOK (enum r))
    (g : ℕ) (f : IFace) (hf : IsFace m g f) :
    ∃ rl rr, Owns part rl f.elemL ∧ Owns part rr f.elemR ∧ rl < nranks ∧ rr < nranks ∧
      ∀ r < nranks, (∃ rm, partition m nranks nranks part (enum r) r = some rm ∧ g ∈ rm.l2gFace) ↔
        r = rl ∨ r = rr := by
  obtain ⟨hL, hR⟩ := hm.faces f (List.mem_of_getElem? hf)
  have hL' : f.elemL < part.length := by rw [hp.len]; exact hL
  have hR' : f.elemR < part.length := by rw [hp.len]; exact hR
  refine ⟨part[f.elemL], part[f.elemR], List.getElem?_eq_getElem hL', List.getElem?_eq_getElem hR',
    hp.lt _ (List.getElem_mem _), hp.lt _ (List.getElem_mem _), ?_⟩
  intro r hr
  have hT : (Owns part r f.elemL ∨ Owns part r f.elemR) ↔
      r = part[f.elemL] ∨ r = part[f.elemR] := by
    unfold Owns
    rw [List.getElem?_eq_getElem hL', List.getElem?_eq_getElem hR']
    simp only [Option.some.injEq]
    exact ⟨fun h => h.imp Eq.symm Eq.symm, fun h => h.imp Eq.symm Eq.symm⟩
  constructor
  · rintro ⟨rm, h, hg⟩
    obtain ⟨f', hf', ht⟩ := ((C04_interior_faces m nranks part (enum r) hm hp (he r) r hr rm h).2.2.2 g).1 hg
    unfold IsFace at hf hf'
    rw [hf] at hf'
    cases hf'
    exact hT.1 ht
  · intro h
    obtain ⟨rm, hrm⟩ := C01_partition_no_ub m nranks part (enum r) hm hp (he r) r hr
    exact ⟨rm, hrm, ((C04_interior_faces m nranks part (enum r) hm hp (he r) r hr rm hrm).2.2.2 g).2
      ⟨f, hf, hT.2 h⟩⟩

/-- C05: the record of a stored face. -/
theorem C05_face_record (m : GMesh α) (nranks : ℕ) (part : List ℕ) (enum : List ℕ → List ℕ)
    (hm : MeshOK m) (hp : PartOK m nranks part) (he : EnumOK enum) (r : ℕ) (hr : r < nranks)
    (rm : RankMesh α) (h : partition m nranks nranks part enum r = some rm)
    (i g : ℕ) (hi : rm.l2gFace[i]? = some g) :
    ∃ f row, IsFace m g f ∧ rm.rows[i]? = some row ∧
      Owns part row.rankL f.elemL ∧ Owns part row.rankR f.elemR ∧ (row.rankL = r ∨ row.rankR = r) ∧
      row.faceL = f.faceL ∧ row.orientL = f.orientL ∧ row.faceR = f.faceR ∧
      row.orientR = f.orientR ∧
      (row.rankL = r → rm.l2gElem[row.elemL]? = some f.elemL) ∧
      (row.rankL ≠ r → row.elemL = UINT_MAX) ∧
      (row.rankR = r → rm.l2gElem[row.elemR]? = some f.elemR) ∧
      (row.rankR ≠ r → row.elemR = UINT_MAX) := by
  have res := result_of hm hp he hr h
  have tab := (C02_id_translation m nranks part enum hm hp he r hr rm h).1
  rw [res.l2gFace, List.getElem?_map] at hi
  obtain ⟨x, hx, rfl⟩ : ∃ x, (myFaces part r m.faces)[i]? = some x ∧ x.2 = g := by
    cases hq : (myFaces part r m.faces)[i]? with
    | none => rw [hq] at hi; cases hi
    | some x => rw [hq] at hi; exact ⟨x, rfl, Option.some.inj hi⟩
  have hxm := List.mem_of_getElem? hx
  simp only [myFaces, List.mem_filter, decide_eq_true_eq] at hxm
  have hface := mem_zipIdx_lt hxm.1
  obtain ⟨hL, hR⟩ := hm.faces x.1 (List.mem_of_getElem? hface)
  have eL : part[x.1.elemL]? = some (part.getD x.1.elemL 0) := getD_some (by rw [hp.len]; exact hL)
  have eR : part[x.1.elemR]? = some (part.getD x.1.elemR 0) := getD_some (by rw [hp.len]; exact hR)
  refine ⟨x.1, faceRow rm.l2gElem (part.getD x.1.elemL 0) (part.getD x.1.elemR 0) x.1, hface,
    ?_, eL, eR, ?_, rfl, rfl, rfl, rfl, ?_, ?_, ?_, ?_⟩
  · rw [res.rows, rowsOf, List.getElem?_map, hx]; rfl
  · have := hxm.2
    unfold Touches at this
    rw [eL, eR] at this
    simpa [faceRow] using this
  · intro hrank
    refine tab.globalRoundTrip _ ?_
    rw [res.l2gElem, mem_owned, eL]
    exact ⟨hL, by rw [← hrank]; rfl⟩
  · intro hrank
    refine (tab.sentinel _).2 ?_
    rw [res.l2gElem, mem_owned, eL]
    intro hh; exact hrank (Option.some.inj hh.2)
  · intro hrank
    refine tab.globalRoundTrip _ ?_
    rw [res.l2gElem, mem_owned, eR]
    exact ⟨hR, by rw [← hrank]; rfl⟩
  · intro hrank
    refine (tab.sentinel _).2 ?_
    rw [res.l2gElem, mem_owned, eR]
    intro hh; exact hrank (Option.some.inj hh.2)

example : ∃ rm, partition exMesh 2 2 exPart id 0 = some rm ∧ rm.l2gFace = [0, 1, 3] ∧
    rm.rows[0]? = some ⟨1, UINT_MAX, 1, 0, 0, 0, 3, 1⟩ :=
  ⟨_, rfl, by decide, by decide⟩

/-! ### C06, C07 -/

/-- C06: the neighbours of a rank. -/
theorem C06_neighbours_exact (m : GMesh α) (nranks : ℕ) (part : List ℕ) (enum : List ℕ → List ℕ)
    (hm : MeshOK m) (hp : PartOK m nranks part) (he : EnumOK enum) (r : ℕ) (hr : r < nranks)
    (rm : RankMesh α) (h : partition m nranks nranks part enum r = some rm) :
    rm.nbrs.Nodup ∧ r ∉ rm.nbrs ∧
      ∀ s, s ∈ rm.nbrs ↔ s ≠ r ∧ s < nranks ∧ ∃ g f, IsFace m g f ∧ Between part r s f := by
  have res := result_of hm hp he hr h
  refine ⟨res.nbrsNodup, fun hh => ((res.nbrsMem r).1 hh).1 rfl, ?_⟩
  intro s
  rw [res.nbrsMem]
  constructor
  · rintro ⟨hne, x, hx, hb⟩
    refine ⟨hne, ?_, x.2, x.1, mem_zipIdx_lt hx, hb⟩
    rcases hb with ⟨_, h2⟩ | ⟨h2, _⟩ <;> exact hp.lt _ (List.mem_of_getElem? h2)
  · rintro ⟨hne, _, g, f, hf, hb⟩
    exact ⟨hne, (f, g), List.mem_zipIdx_iff_getElem?.2 hf, hb⟩

/-- C06: neighbourhood is symmetric. -/
theorem C06_neighbours_symmetric (m : GMesh α) (nranks : ℕ) (part : List ℕ)
    (er es : List ℕ → List ℕ) (hm : MeshOK m) (hp : PartOK m nranks part)
    (her : EnumOK er) (hes : EnumOK es)
    (r s : ℕ) (hr : r < nranks) (hs : s < nranks) (rmr rms : RankMesh α)
    (h : partition m nranks nranks part er r = some rmr)
    (h' : partition m nranks nranks part es s = some rms) :
    s ∈ rmr.nbrs ↔ r ∈ rms.nbrs := by
  rw [(C06_neighbours_exact m nranks part er hm hp her r hr rmr h).2.2,
    (C06_neighbours_exact m nranks part es hm hp hes s hs rms h').2.2]
  constructor
  · rintro ⟨hne, _, g, f, hf, hb⟩; exact ⟨hne.symm, hr, g, f, hf, hb.symm⟩
  · rintro ⟨hne, _, g, f, hf, hb⟩; exact ⟨hne.symm, hs, g, f, hf, hb.symm⟩

/-- C07: the ghost face list kept for neighbour `s` is exactly the list of faces shared with `s`,
in increasing global order, and its length was pre-computed correctly. -/
theorem C07_ghost_list_exact (m : GMesh α) (nranks : ℕ) (part : List ℕ) (enum : List ℕ → List ℕ)
    (hm : MeshOK m) (hp : PartOK m nranks part) (he : EnumOK enum) (r : ℕ) (hr : r < nranks)
    (rm : RankMesh α) (h : partition m nranks nranks part enum r = some rm) :
    rm.ghosts.length = rm.nbrs.length ∧
    ∀ i s : ℕ, rm.nbrs[i]? = some s → ∃ gl, rm.ghosts[i]? = some gl ∧
      rm.nFacesPerNbr[i]? = some gl.length ∧ gl ≠ [] ∧ gl.Pairwise (· < ·) ∧
      (∀ g, g ∈ gl ↔ ∃ f, IsFace m g f ∧ Between part r s f) ∧ ∀ g ∈ gl, g ∈ rm.l2gFace := by
  have res := result_of hm hp he hr h
  refine ⟨by rw [res.ghosts]; simp, ?_⟩
  intro i s hi
  have hmem : ∀ g, g ∈ betweenFaces part r s m.faces ↔ ∃ f, IsFace m g f ∧ Between part r s f := by
    intro g
    unfold betweenFaces
    rw [List.mem_map]
    constructor
    · rintro ⟨x, hx, rfl⟩
      simp only [List.mem_filter, decide_eq_true_eq] at hx
      exact ⟨x.1, mem_zipIdx_lt hx.1, hx.2⟩
    · rintro ⟨f, hf, hb⟩
      refine ⟨(f, g), ?_, rfl⟩
      simp only [List.mem_filter, decide_eq_true_eq]
      exact ⟨List.mem_zipIdx_iff_getElem?.2 hf, hb⟩
  refine ⟨betweenFaces part r s m.faces, ?_, ?_, ?_, ?_, hmem, ?_⟩
  · rw [res.ghosts, List.getElem?_map, hi]; rfl
  · rw [res.nFaces, List.getElem?_map, hi]; rfl
  · obtain ⟨_, _, g, f, hf, hb⟩ := ((C06_neighbours_exact m nranks part enum hm hp he r hr rm h).2.2 s).1
      (List.mem_of_getElem? hi)
    have := (hmem g).2 ⟨f, hf, hb⟩
    intro hnil; rw [hnil] at this; cases this
  · exact List.Pairwise.sublist (List.Sublist.map _ List.filter_sublist) (zipIdx_snd_sorted _)
  · intro g hg
    obtain ⟨f, hf, hb⟩ := (hmem g).1 hg
    refine ((C04_interior_faces m nranks part enum hm hp he r hr rm h).2.2.2 g).2 ⟨f, hf, ?_⟩
    rcases hb with ⟨h1, _⟩ | ⟨_, h1⟩
    · exact Or.inl h1
    · exact Or.inr h1

/-- C07: the two ranks of a rank boundary hold the same ghost face list, hence exchange messages of
equal size in the same face order. -/
theorem C07_ghost_lists_agree (m : GMesh α) (nranks : ℕ) (part : List ℕ) (er es : List ℕ → List ℕ)
    (hm : MeshOK m) (hp : PartOK m nranks part) (her : EnumOK er) (hes : EnumOK es)
    (r s : ℕ) (hr : r < nranks) (hs : s < nranks) (rmr rms : RankMesh α)
    (h : partition m nranks nranks part er r = some rmr)
    (h' : partition m nranks nranks part es s = some rms)
    (i j : ℕ) (hi : rmr.nbrs[i]? = some s) (hj : rms.nbrs[j]? = some r) :
    (∃ gl, rmr.ghosts[i]? = some gl) ∧ rmr.ghosts[i]? = rms.ghosts[j]? ∧
      rmr.nFacesPerNbr[i]? = rms.nFacesPerNbr[j]? := by
  have res := result_of hm hp her hr h
  have res' := result_of hm hp hes hs h'
  rw [res.ghosts, res'.ghosts, res.nFaces, res'.nFaces]
  simp only [List.getElem?_map, hi, hj, Option.map_some]
  rw [betweenFaces_comm]
  exact ⟨⟨_, rfl⟩, rfl, rfl⟩

theorem sum_between (part : List ℕ) (r : ℕ) (nbrs : List ℕ) (hnd : nbrs.Nodup) (hrn : r ∉ nbrs) :
    ∀ (l : List (IFace × ℕ)),
      (∀ f ∈ l, f.1.elemL < part.length ∧ f.1.elemR < part.length) →
      (∀ f ∈ l, ∀ s, s ≠ r → Between part r s f.1 → s ∈ nbrs) →
      (nbrs.map (fun s => (l.filter (fun f => decide (Between part r s f.1))).length)).sum
      = (l.filter (fun f => decide (Touches part r f.1 ∧ Ghost part f.1))).length := by
  intro l
  induction l with
  | nil => intros; simp
  | cons f l ih =>
    intro hl hn
    obtain ⟨hL, hR⟩ := hl f (by simp)
    have eL := getD_some hL
    have eR := getD_some hR
    have ih' := ih (fun g hg => hl g (by simp [hg])) (fun g hg => hn g (by simp [hg]))
    have hsplit : nbrs.map (fun s => ((f :: l).filter (fun f => decide (Between part r s f.1))).length)
        = nbrs.map (fun s => (l.filter (fun f => decide (Between part r s f.1))).length
            + if Between part r s f.1 then 1 else 0) := by
      apply List.map_congr_left
      intro s _
      rw [List.filter_cons]
      by_cases hb : Between part r s f.1 <;> simp [hb]
    rw [hsplit, List.sum_map_add, ih', List.filter_cons]
    have hone : ∀ o, (∀ s, s ∈ nbrs → (Between part r s f.1 ↔ s = o)) → o ∈ nbrs →
        (nbrs.map (fun s => if Between part r s f.1 then 1 else 0)).sum = 1 := by
      intro o ho hmem
      have : nbrs.map (fun s => if Between part r s f.1 then 1 else 0)
          = nbrs.map (fun s => if s = o then 1 else 0) := by
        apply List.map_congr_left
        intro s hs
        simp [ho s hs]
      rw [this]
      clear this ho hsplit ih ih' hn hrn
      induction nbrs with
      | nil => cases hmem
      | cons a as iha =>
        rw [List.nodup_cons] at hnd
        rw [List.map_cons, List.sum_cons]
        rcases List.mem_cons.1 hmem with rfl | hmem
        · have h0 : (as.map (fun s => if s = o then 1 else 0)).sum = 0 := by
            apply List.sum_eq_zero
            intro y hy
            obtain ⟨a, ha, rfl⟩ := List.mem_map.1 hy
            rw [if_neg]
            rintro rfl; exact hnd.1 ha
          simp [h0]
        · rw [iha hnd.2 hmem, if_neg]
          rintro rfl; exact hnd.1 hmem
    generalize hgl : part.getD f.1.elemL 0 = rl at *
    generalize hgr : part.getD f.1.elemR 0 = rr at *
    have hB : ∀ s, Between part r s f.1 ↔ (rl = r ∧ rr = s) ∨ (rl = s ∧ rr = r) := by
      intro s; unfold Between; rw [eL, eR]; simp
    have hTG : (Touches part r f.1 ∧ Ghost part f.1) ↔ (rl = r ∨ rr = r) ∧ rl ≠ rr := by
      unfold Touches Ghost; rw [eL, eR]; simp
    by_cases htg : Touches part r f.1 ∧ Ghost part f.1
    · simp only [htg, and_self, decide_true, if_true, List.length_cons]
      congr 1
      obtain ⟨ht, hg⟩ := hTG.1 htg
      rcases ht with ht | ht
      · refine hone rr ?_ ?_
        · intro s _
          rw [hB]
          constructor
          · rintro (⟨_, h⟩ | ⟨_, h⟩)
            · exact h.symm
            · exact absurd (ht.trans h.symm) hg
          · rintro rfl; exact Or.inl ⟨ht, rfl⟩
        · exact hn f (by simp) rr (fun h => hg (ht.trans h.symm)) ((hB rr).2 (Or.inl ⟨ht, rfl⟩))
      · refine hone rl ?_ ?_
        · intro s _
          rw [hB]
          constructor
          · rintro (⟨h, _⟩ | ⟨h, _⟩)
            · exact absurd (h.trans ht.symm) hg
            · exact h.symm
          · rintro rfl; exact Or.inr ⟨rfl, ht⟩
        · exact hn f (by simp) rl (fun h => hg (h.trans ht.symm)) ((hB rl).2 (Or.inr ⟨rfl, ht⟩))
    · rw [if_neg (by simpa using htg)]
      have : (nbrs.map (fun s => if Between part r s f.1 then 1 else 0)).sum = 0 := by
        apply List.sum_eq_zero
        intro y hy
        obtain ⟨s, hs, rfl⟩ := List.mem_map.1 hy
        rw [if_neg]
        intro hb
        have hsr : s ≠ r := by rintro rfl; exact hrn hs
        apply htg
        rw [hTG]
        rcases (hB s).1 hb with ⟨h1, h2⟩ | ⟨h1, h2⟩
        · exact ⟨Or.inl h1, by rw [h1, h2]; exact hsr.symm⟩
        · exact ⟨Or.inr h2, by rw [h1, h2]; exact hsr⟩
      rw [this]; rfl

/-- C07: the per-neighbour counts of a rank add up to its number of ghost faces. -/
theorem C07_ghost_counts_add_up (m : GMesh α) (nranks : ℕ) (part : List ℕ) (enum : List ℕ → List ℕ)
    (hm : MeshOK m) (hp : PartOK m nranks part) (he : EnumOK enum) (r : ℕ) (hr : r < nranks)
    (rm : RankMesh α) (h : partition m nranks nranks part enum r = some rm) :
    rm.nFacesPerNbr.sum = rm.numGFacesPart ∧
    rm.numGFacesPart = (rm.rows.filter (fun row => decide (row.rankL ≠ row.rankR))).length := by
  have res := result_of hm hp he hr h
  have hfz : ∀ f ∈ m.faces.zipIdx, f.1.elemL < part.length ∧ f.1.elemR < part.length := by
    intro f hf'; rw [hp.len]; exact hm.faces f.1 (List.mem_of_getElem? (mem_zipIdx_lt hf'))
  constructor
  · rw [res.nFaces, res.numGFacesPart]
    rw [← sum_between part r rm.nbrs res.nbrsNodup (fun hh => ((res.nbrsMem r).1 hh).1 rfl)
      m.faces.zipIdx hfz (fun f hf s hs hb => (res.nbrsMem s).2 ⟨hs, f, hf, hb⟩)]
    congr 1
    apply List.map_congr_left
    intro s _
    simp [betweenFaces]
  · rw [res.numGFacesPart, res.rows, rowsOf, List.filter_map, List.length_map, myFaces,
      List.filter_filter]
    congr 1
    apply List.filter_congr
    intro f hf
    obtain ⟨hL, hR⟩ := hfz f hf
    have hG : Ghost part f.1 ↔ part.getD f.1.elemL 0 ≠ part.getD f.1.elemR 0 := by
      unfold Ghost; rw [getD_some hL, getD_some hR]; simp
    rw [Bool.eq_iff_iff]
    simp only [decide_eq_true_eq, Function.comp, Bool.and_eq_true, faceRow]
    rw [hG]
    constructor
    · rintro ⟨a, b⟩; exact ⟨decide_eq_true b, a⟩
    · rintro ⟨a, b⟩; exact ⟨b, of_decide_eq_true a⟩

example : ∃ rm0 rm1, partition exMesh 2 2 exPart id 0 = some rm0 ∧
    partition exMesh 2 2 exPart id 1 = some rm1 ∧ rm0.nbrs = [1] ∧ rm1.nbrs = [0] ∧
    rm0.ghosts = [[0, 1]] ∧ rm1.ghosts = [[0, 1]] ∧ rm0.numGFacesPart = 2 :=
  ⟨_, _, rfl, rfl, by decide, by decide, by decide, by decide, by decide⟩

/-! ### C12 (part): the unconditional debug print and a number of parts different from the number of
ranks -/

/-- The debug print at the end of `partition` reads out of bounds exactly on ranks with fewer than
three interior faces. -/
theorem C12_debug_print_ub_iff (m : GMesh α) (nranks : ℕ) (part : List ℕ) (enum : List ℕ → List ℕ)
    (hm : MeshOK m) (hp : PartOK m nranks part) (he : EnumOK enum) (r : ℕ) (hr : r < nranks)
    (rm : RankMesh α) (h : partition m nranks nranks part enum r = some rm) :
    checkView rm = none ↔ rm.numIFacesPart < 3 := by
  have h4 := C04_interior_faces m nranks part enum hm hp he r hr rm h
  rw [h4.2.1, ← h4.2.2.1]
  unfold checkView
  generalize rm.rows = rows
  rcases rows with _ | ⟨a, _ | ⟨b, _ | ⟨c, rest⟩⟩⟩ <;>
    simp [List.mapM_cons]

/-- A rank whose number is not below the number of parts reads past the size array: undefined
behaviour, whatever the mesh. -/
theorem C12_fewer_parts_than_ranks_is_ub (m : GMesh α) (nparts nranks : ℕ) (part : List ℕ)
    (enum : List ℕ → List ℕ) (r : ℕ) (hr : nparts ≤ r) :
    partition m nparts nranks part enum r = none := by
  unfold partition countElems
  have hlen : ∀ (l : List ℕ) (a b : List ℕ), l.foldlM bumpB a = some b → b.length = a.length := by
    intro l
    induction l with
    | nil => intro a b h; cases h; rfl
    | cons x xs ih =>
      intro a b h
      rw [List.foldlM_cons] at h
      cases hb : bumpB a x with
      | none => rw [hb] at h; cases h
      | some a' =>
        rw [hb] at h
        rw [ih a' b h]
        unfold bumpB at hb
        split at hb
        · cases hb; simp
        · cases hb
  cases hc : part.foldlM bumpB (List.replicate nparts 0) with
  | none => rfl
  | some sizes =>
    have := hlen _ _ _ hc
    simp only [List.length_replicate] at this
    simp [List.getElem?_eq_none (l := sizes) (i := r) (by omega)]

theorem foldlM_none {σ β : Type} (f : σ → β → Option σ) (P : σ → Prop) (l : List β) (x : β) (hx : x ∈ l)
    (hinv : ∀ s b s', P s → f s b = some s' → P s') (hbad : ∀ s, P s → f s x = none) (s : σ) (hs : P s) :
    l.foldlM f s = none := by
  induction l generalizing s with
  | nil => simp at hx
  | cons y ys ih =>
    rw [List.foldlM_cons]
    cases hy : f s y with
    | none => rfl
    | some s' =>
      rcases List.mem_cons.1 hx with rfl | hx'
      · rw [hbad s hs] at hy; cases hy
      · exact ih hx' s' (hinv s y s' hs hy)

theorem setB_length {β : Type} (l l' : List β) (i : ℕ) (x : β) (h : setB l i x = some l') :
    l'.length = l.length := by
  unfold setB at h
  split at h
  · cases h; simp
  · cases h

theorem countFace_nbrs_length (part : List ℕ) (st st' : FaceCount) (f : IFace × ℕ)
    (h : countFace part st f = some st') : st'.nbrs.length = st.nbrs.length := by
  unfold countFace at h
  obtain ⟨rl, h1, h⟩ := Option.bind_eq_some_iff.1 h
  obtain ⟨sz, h2, h⟩ := Option.bind_eq_some_iff.1 h
  obtain ⟨rr, h3, h⟩ := Option.bind_eq_some_iff.1 h
  split at h
  · obtain ⟨_, _, h⟩ := Option.bind_eq_some_iff.1 h
    obtain ⟨_, _, h⟩ := Option.bind_eq_some_iff.1 h
    obtain ⟨nb, h4, h⟩ := Option.bind_eq_some_iff.1 h
    obtain ⟨_, _, h⟩ := Option.bind_eq_some_iff.1 h
    obtain ⟨nb', h5, h⟩ := Option.bind_eq_some_iff.1 h
    cases h
    simp only
    rw [setB_length _ _ _ _ h5, setB_length _ _ _ _ h4]
  · cases h; rfl

/-- C12: more parts than ranks.  If some interior face joins an element of a part that has no rank to an
element of another part, every rank reads and writes past the array of neighbour sets: undefined behaviour. -/
theorem C12_more_parts_than_ranks_is_ub (m : GMesh α) (nparts nranks : ℕ) (part : List ℕ)
    (enum : List ℕ → List ℕ) (r : ℕ) (f : IFace) (hf : f ∈ m.faces) (pl pr : ℕ)
    (hl : part[f.elemL]? = some pl) (hr : part[f.elemR]? = some pr) (hne : pl ≠ pr)
    (hbig : nranks ≤ pl ∨ nranks ≤ pr) :
    partition m nparts nranks part enum r = none := by
  obtain ⟨i, hi, hfi⟩ := List.getElem_of_mem hf
  have hmem : (f, i) ∈ m.faces.zipIdx := by
    rw [List.mem_zipIdx_iff_getElem?]
    simp [List.getElem?_eq_getElem hi, hfi]
  have key : countFaces m nparts nranks part = none := by
    unfold countFaces
    refine foldlM_none (countFace part) (fun s => s.nbrs.length = nranks) _ (f, i) hmem ?_ ?_ _ (by simp)
    · intro s b s' hs h
      rw [countFace_nbrs_length part s s' b h, hs]
    · intro s hs
      unfold countFace
      simp only [hl, hr, Option.bind_eq_bind, Option.bind_some]
      cases bumpB s.ifaceSize pl with
      | none => rfl
      | some sz =>
        simp only [Option.bind_some]
        rw [if_pos hne]
        cases bumpB sz pr with
        | none => rfl
        | some sz' =>
          simp only [Option.bind_some]
          cases h1 : s.nbrs[pl]? with
          | none => rfl
          | some sl =>
            simp only [Option.bind_some]
            cases h2 : setB s.nbrs pl (usetInsert pr sl) with
            | none => rfl
            | some nb =>
              simp only [Option.bind_some]
              have l1 := (List.getElem?_eq_some_iff.1 h1).1
              have l2 := setB_length _ _ _ _ h2
              rw [List.getElem?_eq_none (l := nb) (i := pr) (by omega)]
              rfl
  unfold partition
  rw [key]
  cases countElems nparts part with
  | none => rfl
  | some sizes =>
    simp only [Option.bind_eq_bind, Option.bind_some]
    cases sizes[r]? with
    | none => rfl
    | some n =>
      simp only [Option.bind_some]
      cases nodeSet m part r <;> rfl

/-- C12: more parts than ranks.  Whatever the faces, a rank for which `partition` is defined holds exactly
the elements of the part with its number: the elements of parts without a rank are on no rank at all and
take no part in the computation. -/
theorem C12_elements_of_a_rank (m : GMesh α) (nparts nranks : ℕ) (part : List ℕ) (enum : List ℕ → List ℕ)
    (hm : MeshOK m) (hp : PartOK m nparts part) (r : ℕ) (rm : RankMesh α)
    (h : partition m nparts nranks part enum r = some rm) (e : ℕ) :
    e ∈ rm.l2gElem ↔ e < m.numElems ∧ part[e]? = some r := by
  have hr : r < nparts := by
    by_contra hc
    rw [C12_fewer_parts_than_ranks_is_ub m nparts nranks part enum r (by omega)] at h
    cases h
  unfold partition at h
  rw [countElems_spec nparts part hp.lt] at h
  simp only [Option.bind_eq_bind, Option.bind_some] at h
  obtain ⟨n, hn, h⟩ := Option.bind_eq_some_iff.1 h
  have hn' : n = part.count r := by
    simp [List.getElem?_range hr] at hn
    exact hn.symm
  subst hn'
  obtain ⟨nodes, _, h⟩ := Option.bind_eq_some_iff.1 h
  obtain ⟨fc, _, h⟩ := Option.bind_eq_some_iff.1 h
  obtain ⟨nif, _, h⟩ := Option.bind_eq_some_iff.1 h
  obtain ⟨ns, _, h⟩ := Option.bind_eq_some_iff.1 h
  rw [storeElems_spec m part r nodes hp.len hm.eindLen] at h
  simp only [Option.bind_some] at h
  obtain ⟨cs, _, h⟩ := Option.bind_eq_some_iff.1 h
  obtain ⟨fs, _, h⟩ := Option.bind_eq_some_iff.1 h
  obtain ⟨cnt, _, h⟩ := Option.bind_eq_some_iff.1 h
  obtain ⟨gh, _, h⟩ := Option.bind_eq_some_iff.1 h
  cases h
  simp only [List.map_map, Function.comp_def, List.map_id']
  exact mem_owned

/-- C12: one partition.  METIS is not called, and the only rank holds every element. -/
theorem C12_single_partition (m : GMesh α) (metis : List ℕ) (enum : List ℕ → List ℕ)
    (hm : MeshOK m) (he : EnumOK enum) :
    ∃ rm, partition m 1 1 (elemPartition 1 m.numElems metis) enum 0 = some rm ∧
      rm.numElemsPart = m.numElems ∧ rm.nbrs = [] ∧ rm.numGFacesPart = 0 ∧
      ∀ e, e ∈ rm.l2gElem ↔ e < m.numElems := by
  have hp : PartOK m 1 (elemPartition 1 m.numElems metis) :=
    { len := by simp [elemPartition]
      lt := by intro p hp; simp [elemPartition] at hp; simp [hp.2] }
  have hown : ∀ e, e < m.numElems → (elemPartition 1 m.numElems metis)[e]? = some 0 := by
    intro e he'
    simp [elemPartition, List.getElem?_replicate, he']
  obtain ⟨rm, h, res⟩ := partition_spec m 1 _ enum 0 hm hp he one_pos
  refine ⟨rm, h, ?_, ?_, ?_, ?_⟩
  · have := C01_element_counts_add_up m 1 _ (fun _ => enum) hm hp (fun _ => he) (fun _ => rm)
      (fun r hr => by
        have h0 : r = 0 := by omega
        subst h0
        exact h)
    simpa using this
  · rw [List.eq_nil_iff_forall_not_mem]
    intro s hs
    have := ((C06_neighbours_exact m 1 _ enum hm hp he 0 one_pos rm h).2.2 s).1 hs
    omega
  · rw [res.numGFacesPart, List.length_eq_zero_iff, List.filter_eq_nil_iff]
    intro f hf hc
    simp only [decide_eq_true_eq] at hc
    obtain ⟨hL, hR⟩ := hm.faces f.1 (List.mem_of_getElem? (mem_zipIdx_lt hf))
    have := hc.2
    unfold Ghost at this
    simp [hown _ hL, hown _ hR] at this
  · intro e
    rw [C12_elements_of_a_rank m 1 1 _ enum hm hp 0 rm h]
    exact ⟨fun h => h.1, fun h => ⟨h, hown e h⟩⟩

example : partition exMesh 1 2 (elemPartition 1 4 []) id 1 = none := by decide
/-- On two elements and one interior face (any small mesh), the print is out of bounds. -/
example : ∃ rm, partition (⟨2, 1, [0, 1], [[0], [1]], [⟨0, 0, 0, 1, 0, 0⟩]⟩ : GMesh ℕ) 1 1 [0, 0] id 0
    = some rm ∧ checkView rm = none := ⟨_, rfl, rfl⟩

end DG
