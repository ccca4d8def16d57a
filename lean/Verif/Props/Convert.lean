import Verif.Props.IO
import Verif.Props.Exchange

/-!
C47: converting a parallel solution file to a serial one gives the file of the unpartitioned run,
whatever the number of ranks, the distribution of the elements and the order of the writes.
-/
namespace DG

variable {T : Type} {α : Type}

/-! ### lists of rows -/

theorem getD_of_lt {l : List T} {n : ℕ} {d : T} (h : n < l.length) : l.getD n d = l[n] := by
  simp [h]

theorem idxOf_range (g n : ℕ) (h : g < n) : List.idxOf g (List.range n) = g := by
  have hlt' : List.idxOf g (List.range n) < (List.range n).length :=
    List.idxOf_lt_length_of_mem (List.mem_range.mpr h)
  have := List.getElem_idxOf hlt'
  rwa [List.getElem_range] at this

theorem flatten_map_flatten {β ι : Type} (l : List ι) (L : ι → List β) (F : β → List T) :
    (l.map fun r => ((L r).map F).flatten).flatten = (((l.map L).flatten).map F).flatten := by
  induction l with
  | nil => rfl
  | cons r rs ih => simp only [List.map_cons, List.flatten_cons, ih, List.map_append,
      List.flatten_append]

theorem length_flatten_const (w : ℕ) (L : List (List T)) (h : ∀ b ∈ L, b.length = w) :
    L.flatten.length = L.length * w := by
  rw [← blockStart_const L w L.length h le_rfl, blockStart_eq, List.take_length]

theorem range_mul (n w : ℕ) : List.range (n * w) =
    ((List.range n).map fun i => (List.range w).map fun j => i * w + j).flatten := by
  induction n with
  | zero => simp
  | succ n ih =>
    rw [List.range_succ, List.map_append, List.flatten_append, ← ih, Nat.add_mul, Nat.one_mul,
      List.range_add]
    simp

/-- an array of `n` rows of `w` entries is the concatenation of its rows -/
theorem rows_of_array (l : List ℕ) (n w : ℕ) (h : l.length = n * w) :
    ((List.range n).map fun e => (List.range w).map fun j => l.getD (e * w + j) 0).flatten = l := by
  have h1 : l = (List.range (n * w)).map fun p => l.getD p 0 := by
    apply List.ext_getElem (by simp [h])
    intro i hi _
    simp [hi]
  conv_rhs => rw [h1, range_mul, List.map_flatten, List.map_map]
  congr 1
  apply List.map_congr_left
  intro e _
  simp [Function.comp_def]

/-- row `e` of the coefficients in row-major order -/
def coeffRow (nb ns : ℕ) (V : ℕ → ℕ → ℕ → α) (e : ℕ) : List α :=
  (List.range (nb * ns)).map fun q => V e (q / ns) (q % ns)

theorem viewData_rows (ne nb ns : ℕ) (hns : 0 < ns) (U : ℕ → ℕ → ℕ → α) :
    viewData true ne nb ns U = ((List.range ne).map (coeffRow nb ns U)).flatten := by
  rw [viewData, Nat.mul_assoc, range_mul, List.map_flatten, List.map_map]
  congr 1
  apply List.map_congr_left
  intro i _
  simp only [Function.comp_apply, List.map_map, coeffRow, if_true]
  apply List.map_congr_left
  intro q hq
  have hq := List.mem_range.mp hq
  have hnbns : 0 < nb * ns := by omega
  have hqb : q / ns < nb := (Nat.div_lt_iff_lt_mul hns).mpr hq
  have e1 : (i * (nb * ns) + q) / (nb * ns) = i := by
    rw [Nat.add_comm, Nat.add_mul_div_right _ _ hnbns, Nat.div_eq_of_lt hq, Nat.zero_add]
  have e2 : (i * (nb * ns) + q) / ns = i * nb + q / ns := by
    rw [← Nat.mul_assoc, Nat.add_comm, Nat.add_mul_div_right _ _ hns, Nat.add_comm]
  have e3 : (i * nb + q / ns) % nb = q / ns := by
    rw [Nat.mul_comm, Nat.mul_add_mod, Nat.mod_eq_of_lt hqb]
  have e4 : (i * (nb * ns) + q) % ns = q % ns := by
    rw [← Nat.mul_assoc, Nat.mul_comm, Nat.mul_add_mod]
  simp only [Function.comp_apply, e1, e2, e3, e4]

theorem map_range_of_getElem {β : Type} (l : List ℕ) (f : ℕ → β) (F : ℕ → β)
    (h : ∀ i e, l[i]? = some e → f i = F e) : (List.range l.length).map f = l.map F := by
  apply List.ext_getElem (by simp)
  intro i h1 h2
  have hi : i < l.length := by simpa using h2
  simp [h i _ (List.getElem?_eq_getElem hi)]

theorem eq_range_of_sorted (l : List ℕ) (n : ℕ) (hs : l.Pairwise (· < ·))
    (hm : ∀ g, g ∈ l ↔ g < n) : l = List.range n := by
  have hp : l.Perm (List.range n) := by
    rw [List.perm_ext_iff_of_nodup (nodup_of_lt hs) List.nodup_range]
    intro a; rw [hm, List.mem_range]
  exact hp.eq_of_pairwise (fun a b _ _ h1 h2 => absurd h1 (lt_asymm h2)) hs
    (List.pairwise_lt_range)

theorem maxElem_eq (l : List ℕ) (n : ℕ) (hn : 0 < n) (h : ∀ g, g ∈ l ↔ g < n) :
    maxElem l = some (n - 1) := by
  cases l with
  | nil => exact absurd ((h 0).mpr hn) (by simp)
  | cons x xs =>
    have hle : ∀ (ys : List ℕ) (a b : ℕ), a ≤ b → (∀ y ∈ ys, y ≤ b) → ys.foldl max a ≤ b := by
      intro ys
      induction ys with
      | nil => intro a b h _; simpa using h
      | cons y ys ih =>
        intro a b h1 h2
        exact ih _ _ (max_le h1 (h2 y (by simp))) fun z hz => h2 z (by simp [hz])
    have hge : ∀ (ys : List ℕ) (a : ℕ), a ≤ ys.foldl max a ∧ ∀ y ∈ ys, y ≤ ys.foldl max a := by
      intro ys
      induction ys with
      | nil => intro a; simp
      | cons y ys ih =>
        intro a
        obtain ⟨h1, h2⟩ := ih (max a y)
        refine ⟨le_trans (le_max_left _ _) h1, fun z hz => ?_⟩
        rcases List.mem_cons.mp hz with rfl | hz
        · exact le_trans (le_max_right _ _) h1
        · exact h2 z hz
    simp only [maxElem, Option.some.injEq]
    apply le_antisymm
    · refine hle xs x _ ?_ ?_
      · have := (h x).mp (by simp); omega
      · intro y hy; have := (h y).mp (by simp [hy]); omega
    · have : n - 1 ∈ x :: xs := (h (n - 1)).mpr (by omega)
      rcases List.mem_cons.mp this with h1 | h1
      · rw [h1]; exact (hge xs x).1
      · exact (hge xs x).2 _ h1

theorem resizeN_range (k n : ℕ) (h : n ≤ k) : resizeN (List.range k) n = List.range n := by
  simp [resizeN, List.take_range, h]

/-! ### gathering the datasets -/

theorem serializeDataset_eq [Zero T] (nd : ℕ) (bs bs0 : List (Block T)) (h : Block T)
    (hh : bs[0]? = some h) (hlen : bs.map (fun b => b.data.length) = bs0.map (fun b => b.data.length))
    (dims : List ℕ)
    (hdims : serialDims (bs.map Block.data).flatten.length h.dims = some dims) :
    serializeDataset bs (parDsetOf nd bs0) = some ⟨dims, (bs.map Block.data).flatten⟩ := by
  have hL : (bs0.map Block.data).map List.length = (bs.map Block.data).map List.length := by
    rw [List.map_map, List.map_map]; exact hlen.symm
  have htot : (bs0.map Block.data).flatten.length = (bs.map Block.data).flatten.length := by
    rw [List.length_flatten, List.length_flatten, hL]
  have hbl : bs0.length = (bs.map Block.data).length := by
    have := congrArg List.length hlen; simpa using this.symm
  have hoff : (parDsetOf nd bs0).offsets =
      (List.range (bs.map Block.data).length).map (blockStart (bs.map Block.data)) := by
    show (List.range bs0.length).map (blockStart (bs0.map Block.data)) = _
    rw [hbl]
    exact List.map_congr_left fun r _ => blockStart_congr hL r
  have htot' : (parDsetOf nd bs0).totalSize = (bs.map Block.data).flatten.length := htot
  have hne : bs.map Block.data ≠ [] := by
    intro hc
    have : bs = [] := by simpa using hc
    rw [this] at hh; simp at hh
  unfold serializeDataset
  rw [hh, hoff, htot', Option.bind_eq_bind, Option.bind_some, Option.bind_eq_bind,
    mpiGatherv_eq _ hne, Option.bind_some, Option.bind_eq_bind, hdims, Option.bind_some]

/-! ### the run -/

/-- the elements of all ranks, in rank order -/
def allElems (nranks : ℕ) (rms : ℕ → RankMesh α) : List ℕ :=
  ((List.range nranks).map fun r => (rms r).l2gElem).flatten

/-- the nodes of all ranks, in rank order -/
def allNodes (nranks : ℕ) (rms : ℕ → RankMesh α) : List ℕ :=
  ((List.range nranks).map fun r => (rms r).l2gNode).flatten

/-- row `e` of the connectivity of the mesh file -/
def connRow (m : GMesh α) (e : ℕ) : List ℕ :=
  (List.range m.npe).map fun j => m.eind.getD (e * m.npe + j) 0

/-- coordinates of node `g` of the mesh file -/
def coordRow (m : GMesh α) (g : ℕ) : List α := m.coord.getD g []

section
variable {m : GMesh α} {d nranks : ℕ} {part : List ℕ} {rms : ℕ → RankMesh α}

theorem mem_allElems (hp : PartOK m nranks part)
    (hres : ∀ r < nranks, PartitionResult m part r (rms r)) (e : ℕ) :
    e ∈ allElems nranks rms ↔ e < m.numElems := by
  simp only [allElems, List.mem_flatten, List.mem_map, List.mem_range]
  constructor
  · rintro ⟨l, ⟨r, hr, rfl⟩, he⟩
    rw [(hres r hr).l2gElem, mem_owned] at he
    exact he.1
  · intro he
    have hl : e < part.length := by rw [hp.len]; exact he
    have hr := hp.lt _ (List.getElem_mem hl)
    refine ⟨_, ⟨part[e], hr, rfl⟩, ?_⟩
    rw [(hres _ hr).l2gElem, mem_owned]
    exact ⟨he, List.getElem?_eq_getElem hl⟩

theorem allElems_length (hp : PartOK m nranks part)
    (hres : ∀ r < nranks, PartitionResult m part r (rms r)) :
    (allElems nranks rms).length = m.numElems := by
  rw [allElems, List.length_flatten, List.map_map, ← hp.len, ← sum_count_range nranks part hp.lt]
  congr 1
  apply List.map_congr_left
  intro r hr
  have hr := List.mem_range.mp hr
  simp only [Function.comp_apply]
  rw [(hres r hr).l2gElem, count_eq_owned, hp.len]

theorem mem_allNodes (hm : MeshOK m) (hp : PartOK m nranks part) (hu : AllNodesUsed m)
    (hres : ∀ r < nranks, PartitionResult m part r (rms r)) (g : ℕ) :
    g ∈ allNodes nranks rms ↔ g < m.coord.length := by
  simp only [allNodes, List.mem_flatten, List.mem_map, List.mem_range]
  constructor
  · rintro ⟨l, ⟨r, hr, rfl⟩, hg⟩
    obtain ⟨e, _, _, j, _, h⟩ := ((hres r hr).nodeMem g).mp hg
    exact hm.nodes g (List.mem_of_getElem? h)
  · intro hg
    obtain ⟨p, hpl, hp'⟩ := List.getElem_of_mem (hu g hg)
    have hnpe : 0 < m.npe := by
      rcases Nat.eq_zero_or_pos m.npe with h | h
      · rw [hm.eindLen, h] at hpl; simp at hpl
      · exact h
    have he : p / m.npe < m.numElems := by
      rw [Nat.div_lt_iff_lt_mul hnpe, ← hm.eindLen]; exact hpl
    have hl : p / m.npe < part.length := by rw [hp.len]; exact he
    have hr := hp.lt _ (List.getElem_mem hl)
    refine ⟨_, ⟨part[p / m.npe], hr, rfl⟩, ?_⟩
    rw [(hres _ hr).nodeMem]
    refine ⟨p / m.npe, he, List.getElem?_eq_getElem hl, p % m.npe, Nat.mod_lt _ hnpe, ?_⟩
    rw [Nat.div_add_mod' p m.npe, List.getElem?_eq_getElem hpl, hp']

theorem allNodes_length (hm : MeshOK m) (hp : PartOK m nranks part) (hu : AllNodesUsed m)
    (hres : ∀ r < nranks, PartitionResult m part r (rms r)) :
    m.coord.length ≤ (allNodes nranks rms).length := by
  have := (List.subperm_of_subset (List.nodup_range (n := m.coord.length))
    (l₂ := allNodes nranks rms) (fun g hg => (mem_allNodes hm hp hu hres g).mpr
      (List.mem_range.mp hg))).length_le
  simpa using this

theorem nodeCoords_rows {r : ℕ} (res : PartitionResult m part r (rms r)) (hm : MeshOK m) :
    (rms r).nodeCoords = (rms r).l2gNode.map (coordRow m) := by
  apply List.ext_getElem (by simp [res.coordLen])
  intro i h1 h2
  have hi : i < (rms r).l2gNode.length := by simpa using h2
  have h3 := res.coord i _ (List.getElem?_eq_getElem hi)
  rw [List.getElem?_eq_getElem h1] at h3
  simp [coordRow, ← h3]

theorem toGlobal_rows {r : ℕ} (res : PartitionResult m part r (rms r)) (hm : MeshOK m)
    (dims dims' : List ℕ) :
    toGlobalNodes ⟨dims', (rms r).l2gNode⟩ ⟨dims, (rms r).elemToNode.flatten⟩ =
      some ⟨dims, ((rms r).l2gElem.map (connRow m)).flatten⟩ := by
  have hmem : ∀ e ∈ (rms r).l2gElem, ∀ j < m.npe,
      (rms r).l2gNode.getD ((rms r).l2gNode.idxOf (m.eind.getD (e * m.npe + j) 0)) 0 =
        m.eind.getD (e * m.npe + j) 0 ∧
      (rms r).l2gNode.idxOf (m.eind.getD (e * m.npe + j) 0) < (rms r).l2gNode.length := by
    intro e he j hj
    rw [res.l2gElem, mem_owned] at he
    have hlt : e * m.npe + j < m.eind.length := by
      rw [hm.eindLen]
      calc e * m.npe + j < e * m.npe + m.npe := by omega
        _ = (e + 1) * m.npe := by ring
        _ ≤ _ := Nat.mul_le_mul_right _ he.1
    have hg : m.eind.getD (e * m.npe + j) 0 ∈ (rms r).l2gNode := by
      rw [res.nodeMem]
      exact ⟨e, he.1, he.2, j, hj, by simp [hlt]⟩
    have hidx := List.idxOf_lt_length_of_mem hg
    refine ⟨?_, hidx⟩
    rw [getD_of_lt hidx]
    exact List.getElem_idxOf hidx
  unfold toGlobalNodes
  rw [mapM_some _ (fun ln => (rms r).l2gNode.getD ln 0)]
  · simp only [Option.bind_eq_bind, Option.bind_some, Option.some.injEq, Block.mk.injEq, true_and]
    rw [List.map_flatten, res.elemToNode, ← res.l2gElem, List.map_map]
    congr 1
    apply List.map_congr_left
    intro e he
    simp only [Function.comp_apply, List.map_map, connRow]
    apply List.map_congr_left
    intro j hj
    exact (hmem e he j (List.mem_range.mp hj)).1
  · intro ln hln
    rw [res.elemToNode, ← res.l2gElem] at hln
    simp only [List.mem_flatten, List.mem_map] at hln
    obtain ⟨row, ⟨e, he, rfl⟩, hln⟩ := hln
    obtain ⟨j, hj, rfl⟩ := List.mem_map.mp hln
    have := (hmem e he j (List.mem_range.mp hj)).2
    rw [getD_of_lt this, List.getElem?_eq_getElem this]

theorem connRow_length (e : ℕ) : (connRow m e).length = m.npe := by simp [connRow]

theorem coordRow_length (hd : ∀ row ∈ m.coord, row.length = d) (g : ℕ) (hg : g < m.coord.length) :
    (coordRow m g).length = d := by
  simp only [coordRow]
  rw [show m.coord.getD g [] = m.coord[g] by simp [hg]]
  exact hd _ (List.getElem_mem hg)

theorem coeffRow_length (nb ns : ℕ) (V : ℕ → ℕ → ℕ → α) (e : ℕ) :
    (coeffRow nb ns V e).length = nb * ns := by simp [coeffRow]

theorem uc_rows {r : ℕ} (res : PartitionResult m part r (rms r)) (nb ns : ℕ) (hns : 0 < ns)
    (U : ℕ → ℕ → ℕ → α) (V : ℕ → ℕ → ℕ → α)
    (hU : ∀ i e, (rms r).l2gElem[i]? = some e → ∀ j < nb, ∀ k < ns, U i j k = V e j k) :
    viewData true (rms r).numElemsPart nb ns U =
      ((rms r).l2gElem.map (coeffRow nb ns V)).flatten := by
  rw [viewData_rows _ _ _ hns, res.numElemsPart, ← res.l2gElem,
    map_range_of_getElem (rms r).l2gElem (coeffRow nb ns U) (coeffRow nb ns V)]
  intro i e hie
  apply List.map_congr_left
  intro q hq
  have hq := List.mem_range.mp hq
  exact hU i e hie _ ((Nat.div_lt_iff_lt_mul hns).mpr hq) _ (Nat.mod_lt _ hns)

end

/-- what the head rank holds after serialising and reordering -/
def serialSets (m : GMesh α) (d nb ns : ℕ) (V : ℕ → ℕ → ℕ → α) : RankSets α where
  nodeCoords := ⟨[m.coord.length, d], m.coord.flatten⟩
  l2gNode := ⟨[m.coord.length], List.range m.coord.length⟩
  elemToNode := ⟨[m.numElems, m.npe], m.eind⟩
  l2gElem := ⟨[m.numElems], List.range m.numElems⟩
  uc := ⟨[m.numElems, nb, ns], ((List.range m.numElems).map (coeffRow nb ns V)).flatten⟩

theorem coord_rows (m : GMesh α) : (List.range m.coord.length).map (coordRow m) = m.coord := by
  apply List.ext_getElem (by simp)
  intro i h1 h2
  simp [coordRow, h2]

/-- what the ranks hold after gathering on the head rank -/
def gatheredSets (m : GMesh α) (d nranks nb ns : ℕ) (rms : ℕ → RankMesh α) (V : ℕ → ℕ → ℕ → α) :
    RankSets α where
  nodeCoords := ⟨[(allNodes nranks rms).length, d],
    ((allNodes nranks rms).map (coordRow m)).flatten⟩
  l2gNode := ⟨[(allNodes nranks rms).length], allNodes nranks rms⟩
  elemToNode := ⟨[m.numElems, m.npe], ((allElems nranks rms).map (connRow m)).flatten⟩
  l2gElem := ⟨[m.numElems], allElems nranks rms⟩
  uc := ⟨[m.numElems, nb, ns], ((allElems nranks rms).map (coeffRow nb ns V)).flatten⟩

theorem reorder_eq [Zero α] (m : GMesh α) (d nranks nb ns : ℕ) (part : List ℕ)
    (rms : ℕ → RankMesh α) (V : ℕ → ℕ → ℕ → α)
    (hm : MeshOK m) (hp : PartOK m nranks part) (hu : AllNodesUsed m)
    (hd : ∀ row ∈ m.coord, row.length = d) (hc : 0 < m.coord.length)
    (hres : ∀ r < nranks, PartitionResult m part r (rms r)) :
    reorderSets (gatheredSets m d nranks nb ns rms V) = some (serialSets m d nb ns V) := by
  have hE := mem_allElems hp hres
  have hEl := allElems_length hp hres
  have hN := mem_allNodes hm hp hu hres
  have hNl := allNodes_length hm hp hu hres
  have h1 : placeRows m.npe (allElems nranks rms) ((allElems nranks rms).map (connRow m)).flatten
      ((allElems nranks rms).map (connRow m)).flatten = some m.eind := by
    rw [placeRows_eq m.npe m.numElems _ (connRow m) _ (fun g _ => connRow_length g)
      (fun g hg => (hE g).mp hg) (fun g hg => (hE g).mpr hg)]
    · rw [show (List.range m.numElems).map (connRow m) = (List.range m.numElems).map fun e =>
        (List.range m.npe).map fun j => m.eind.getD (e * m.npe + j) 0 from rfl,
        rows_of_array m.eind m.numElems m.npe hm.eindLen]
    · rw [length_flatten_const m.npe _ (by
        intro b hb; obtain ⟨e, _, rfl⟩ := List.mem_map.mp hb; exact connRow_length e)]
      simp [hEl]
  have h2 : placeRows (nb * ns) (allElems nranks rms)
      ((allElems nranks rms).map (coeffRow nb ns V)).flatten
      ((allElems nranks rms).map (coeffRow nb ns V)).flatten =
      some ((List.range m.numElems).map (coeffRow nb ns V)).flatten := by
    rw [placeRows_eq (nb * ns) m.numElems _ (coeffRow nb ns V) _ (fun g _ => coeffRow_length _ _ _ g)
      (fun g hg => (hE g).mp hg) (fun g hg => (hE g).mpr hg)]
    rw [length_flatten_const (nb * ns) _ (by
        intro b hb; obtain ⟨e, _, rfl⟩ := List.mem_map.mp hb; exact coeffRow_length _ _ _ e)]
    simp [hEl]
  have h3 : maxElem (allNodes nranks rms) = some (m.coord.length - 1) := maxElem_eq _ _ hc hN
  have h4 : 1 + (m.coord.length - 1) = m.coord.length := by omega
  have h5 : placeRows d (allNodes nranks rms) ((allNodes nranks rms).map (coordRow m)).flatten
      (List.replicate (m.coord.length * d) 0) = some m.coord.flatten := by
    rw [placeRows_eq d m.coord.length _ (coordRow m) _
      (fun g hg => coordRow_length hd g ((hN g).mp hg))
      (fun g hg => (hN g).mp hg) (fun g hg => (hN g).mpr hg) (by simp), coord_rows]
  unfold reorderSets gatheredSets
  simp only [List.getElem?_cons_succ, List.getElem?_cons_zero, Option.bind_eq_bind,
    Option.bind_some, h1, h2, h3, h4, h5]
  simp [serialSets, resizeN_range _ _ hNl, hEl]

theorem serialize_eq [Zero α] (m : GMesh α) (d nranks nb ns : ℕ) (time : α) (part : List ℕ)
    (rms : ℕ → RankMesh α) (U : ℕ → ℕ → ℕ → ℕ → α) (V : ℕ → ℕ → ℕ → α)
    (hn : 0 < nranks) (hm : MeshOK m) (hp : PartOK m nranks part)
    (hd : ∀ row ∈ m.coord, row.length = d)
    (hnpe : 0 < m.npe) (hdim : 0 < d) (hnb : 0 < nb) (hns : 0 < ns)
    (hres : ∀ r < nranks, PartitionResult m part r (rms r))
    (hU : ∀ r < nranks, ∀ i e, (rms r).l2gElem[i]? = some e →
      ∀ j < nb, ∀ k < ns, U r i j k = V e j k) :
    serializeSets (fileOf (rankOut m d nranks nb ns time true (rms 0) (U 0))
        (runOuts m d nranks nb ns time true rms U))
      ((runOuts m d nranks nb ns time true rms U).map fun o =>
        ⟨o.nodeCoords, o.l2gNode, o.elemToNode, o.l2gElem, o.uc⟩) =
      some (gatheredSets m d nranks nb ns rms V) := by
  have h0 : ∀ {β : Type} (F : ℕ → β), ((List.range nranks).map F)[0]? = some (F 0) := by
    intro β F; simp [hn]
  have hEl := allElems_length hp hres
  -- node IDs
  have g1 : ((runOuts m d nranks nb ns time true rms U).map fun o =>
        (⟨o.nodeCoords, o.l2gNode, o.elemToNode, o.l2gElem, o.uc⟩ : RankSets α)).mapM
        (fun s => toGlobalNodes s.l2gNode s.elemToNode) =
      some ((List.range nranks).map fun r => ⟨[(rms r).numElemsPart, m.npe],
        ((rms r).l2gElem.map (connRow m)).flatten⟩) := by
    rw [runOuts, List.map_map, List.mapM_map]
    rw [mapM_some _ (fun r => (⟨[(rms r).numElemsPart, m.npe],
        ((rms r).l2gElem.map (connRow m)).flatten⟩ : Block ℕ))]
    intro r hr
    exact toGlobal_rows (hres r (List.mem_range.mp hr)) hm _ _
  have d1 {S : Type} (L : ℕ → List S) (k w : ℕ) (hw : 0 < w)
      (hk : (((List.range nranks).map L).flatten).length = k * w) (x : ℕ) :
      serialDims (((List.range nranks).map L).flatten).length [x, w] = some [k, w] := by
    simp [serialDims, hk, hw.ne', Nat.mul_div_cancel _ hw]
  have e1 : serializeDataset ((List.range nranks).map fun r =>
        (⟨[(rms r).numElemsPart, m.npe], ((rms r).l2gElem.map (connRow m)).flatten⟩ : Block ℕ))
      (parDsetOf 2 ((runOuts m d nranks nb ns time true rms U).map RankOut.elemToNode)) =
      some (gatheredSets m d nranks nb ns rms V).elemToNode := by
    have hdat : ((List.range nranks).map fun r =>
        (⟨[(rms r).numElemsPart, m.npe], ((rms r).l2gElem.map (connRow m)).flatten⟩ :
          Block ℕ)).map Block.data = (List.range nranks).map fun r =>
            ((rms r).l2gElem.map (connRow m)).flatten := by
      rw [List.map_map]; rfl
    have hflat := flatten_map_flatten (List.range nranks) (fun r => (rms r).l2gElem) (connRow m)
    rw [serializeDataset_eq 2 _ _ _ (h0 _) _ [m.numElems, m.npe], hdat, hflat]
    · rfl
    · rw [hdat]
      refine d1 _ _ _ hnpe ?_ _
      rw [hflat, length_flatten_const m.npe _ (by
        intro b hb; obtain ⟨e, _, rfl⟩ := List.mem_map.mp hb; exact connRow_length e),
        List.length_map, ← hEl]
      rfl
    · rw [runOuts, List.map_map, List.map_map, List.map_map]
      apply List.map_congr_left
      intro r hr
      have res := hres r (List.mem_range.mp hr)
      have e1 : (((rms r).l2gElem.map (connRow m)).flatten).length =
          (rms r).l2gElem.length * m.npe := by
        rw [length_flatten_const m.npe _ (by
          intro b hb; obtain ⟨e, _, rfl⟩ := List.mem_map.mp hb; exact connRow_length e)]
        simp
      have e2 : ((rms r).elemToNode.flatten).length = (rms r).l2gElem.length * m.npe := by
        rw [length_flatten_const m.npe _ (by
          rw [res.elemToNode]
          intro b hb; obtain ⟨e, _, rfl⟩ := List.mem_map.mp hb; simp), res.elemToNode, res.l2gElem]
        simp
      simp only [Function.comp_apply, rankOut, e1, e2]
  have e2 : serializeDataset ((List.range nranks).map fun r =>
        (⟨[(rms r).numNodesPart, d], (rms r).nodeCoords.flatten⟩ : Block α))
      (parDsetOf 2 ((runOuts m d nranks nb ns time true rms U).map RankOut.nodeCoords)) =
      some (gatheredSets m d nranks nb ns rms V).nodeCoords := by
    have hdat : ((List.range nranks).map fun r =>
        (⟨[(rms r).numNodesPart, d], (rms r).nodeCoords.flatten⟩ : Block α)).map Block.data =
        (List.range nranks).map fun r => ((rms r).l2gNode.map (coordRow m)).flatten := by
      rw [List.map_map]
      apply List.map_congr_left
      intro r hr
      simp only [Function.comp_apply]
      rw [nodeCoords_rows (hres r (List.mem_range.mp hr)) hm]
    have hflat := flatten_map_flatten (List.range nranks) (fun r => (rms r).l2gNode) (coordRow m)
    rw [serializeDataset_eq 2 _ _ _ (h0 _) _ [(allNodes nranks rms).length, d], hdat, hflat]
    · rfl
    · rw [hdat]
      refine d1 _ _ _ hdim ?_ _
      rw [hflat, length_flatten_const d _ (by
        intro b hb
        obtain ⟨g, hg, rfl⟩ := List.mem_map.mp hb
        refine coordRow_length hd g ?_
        simp only [List.mem_flatten, List.mem_map, List.mem_range] at hg
        obtain ⟨l, ⟨r, hr, rfl⟩, hg⟩ := hg
        obtain ⟨e, _, _, j, _, h⟩ := ((hres r hr).nodeMem g).mp hg
        exact hm.nodes g (List.mem_of_getElem? h)), List.length_map]
      rfl
    · rw [runOuts, List.map_map, List.map_map, List.map_map]
      rfl
  have e3 : serializeDataset ((List.range nranks).map fun r =>
        (⟨[(rms r).numNodesPart], (rms r).l2gNode⟩ : Block ℕ))
      (parDsetOf 1 ((runOuts m d nranks nb ns time true rms U).map RankOut.l2gNode)) =
      some (gatheredSets m d nranks nb ns rms V).l2gNode := by
    have hdat : ((List.range nranks).map fun r =>
        (⟨[(rms r).numNodesPart], (rms r).l2gNode⟩ : Block ℕ)).map Block.data =
        (List.range nranks).map fun r => (rms r).l2gNode := by rw [List.map_map]; rfl
    rw [serializeDataset_eq 1 _ _ _ (h0 _) _ [(allNodes nranks rms).length], hdat]
    · rfl
    · rw [hdat]; rfl
    · rw [runOuts, List.map_map, List.map_map, List.map_map]; rfl
  have e4 : serializeDataset ((List.range nranks).map fun r =>
        (⟨[(rms r).numElemsPart], (rms r).l2gElem⟩ : Block ℕ))
      (parDsetOf 1 ((runOuts m d nranks nb ns time true rms U).map RankOut.l2gElem)) =
      some (gatheredSets m d nranks nb ns rms V).l2gElem := by
    have hdat : ((List.range nranks).map fun r =>
        (⟨[(rms r).numElemsPart], (rms r).l2gElem⟩ : Block ℕ)).map Block.data =
        (List.range nranks).map fun r => (rms r).l2gElem := by rw [List.map_map]; rfl
    rw [serializeDataset_eq 1 _ _ _ (h0 _) _ [m.numElems], hdat]
    · rfl
    · rw [hdat]
      show some [(allElems nranks rms).length] = _
      rw [hEl]
    · rw [runOuts, List.map_map, List.map_map, List.map_map]; rfl
  have e5 : serializeDataset ((List.range nranks).map fun r =>
        (⟨[(rms r).numElemsPart, nb, ns], viewData true (rms r).numElemsPart nb ns (U r)⟩ : Block α))
      (parDsetOf 3 ((runOuts m d nranks nb ns time true rms U).map RankOut.uc)) =
      some (gatheredSets m d nranks nb ns rms V).uc := by
    have hdat : ((List.range nranks).map fun r =>
        (⟨[(rms r).numElemsPart, nb, ns], viewData true (rms r).numElemsPart nb ns (U r)⟩ :
          Block α)).map Block.data =
        (List.range nranks).map fun r => ((rms r).l2gElem.map (coeffRow nb ns V)).flatten := by
      rw [List.map_map]
      apply List.map_congr_left
      intro r hr
      have hr := List.mem_range.mp hr
      exact uc_rows (hres r hr) nb ns hns (U r) V (hU r hr)
    have hflat := flatten_map_flatten (List.range nranks) (fun r => (rms r).l2gElem)
      (coeffRow nb ns V)
    rw [serializeDataset_eq 3 _ _ _ (h0 _) _ [m.numElems, nb, ns], hdat, hflat]
    · rfl
    · rw [hdat, hflat, length_flatten_const (nb * ns) _ (by
        intro b hb; obtain ⟨e, _, rfl⟩ := List.mem_map.mp hb; exact coeffRow_length _ _ _ e),
        List.length_map]
      rw [show (((List.range nranks).map fun r => (rms r).l2gElem).flatten).length = m.numElems
        from hEl]
      simp only [serialDims, List.foldlM_cons, List.foldlM_nil, hnb.ne', hns.ne', if_false,
        Option.bind_eq_bind, Option.bind_some, Option.pure_def, Option.some.injEq,
        List.cons.injEq, and_true]
      rw [Nat.div_div_eq_div_mul, Nat.mul_div_cancel _ (Nat.mul_pos hnb hns)]
    · rw [runOuts, List.map_map, List.map_map, List.map_map]; rfl
  unfold serializeSets
  rw [g1]
  simp only [Option.bind_eq_bind, Option.bind_some, fileOf]
  rw [e1]
  simp only [runOuts, List.map_map] at e2 e3 e4 e5 ⊢
  erw [e2, e3, e4, e5]
  rfl

/-! ### reading -/

/-- the datasets of rank `r` -/
def rankSets (m : GMesh α) (d nb ns : ℕ) (right : Bool) (rm : RankMesh α) (U : ℕ → ℕ → ℕ → α) :
    RankSets α :=
  ⟨⟨[rm.numNodesPart, d], rm.nodeCoords.flatten⟩, ⟨[rm.numNodesPart], rm.l2gNode⟩,
    ⟨[rm.numElemsPart, m.npe], rm.elemToNode.flatten⟩, ⟨[rm.numElemsPart], rm.l2gElem⟩,
    ⟨[rm.numElemsPart, nb, ns], viewData right rm.numElemsPart nb ns U⟩⟩

theorem runOuts_readSets [Zero α] (m : GMesh α) (d nranks nb ns : ℕ) (time : α) (right : Bool)
    (part : List ℕ) (rms : ℕ → RankMesh α) (U : ℕ → ℕ → ℕ → ℕ → α)
    (hm : MeshOK m) (hd : ∀ row ∈ m.coord, row.length = d)
    (hres : ∀ r < nranks, PartitionResult m part r (rms r)) (r : ℕ) (hr : r < nranks) :
    readSets nranks (fileOf (rankOut m d nranks nb ns time right (rms 0) (U 0))
      (runOuts m d nranks nb ns time right rms U)) r = some (rankSets m d nb ns right (rms r) (U r)) := by
  have hok : ∀ o ∈ runOuts m d nranks nb ns time right rms U, OutOK o := by
    intro o ho
    obtain ⟨s, hs, rfl⟩ := List.mem_map.mp ho
    exact rankOut_ok m d nranks nb ns time right part s _ (hres s (List.mem_range.mp hs)) hm hd _
  have aux {S : Type} (nd : ℕ) (F : RankOut α → Block S)
      (hF : ∀ o ∈ runOuts m d nranks nb ns time right rms U, BlockOK nd (F o)) :
      readParallel true nranks
        (parDsetOf nd ((runOuts m d nranks nb ns time right rms U).map F)) r =
      some (F (rankOut m d nranks nb ns time right (rms r) (U r))) := by
    have hl : ((runOuts m d nranks nb ns time right rms U).map F).length = nranks := by
      simp [runOuts]
    have := readParallel_eq nd ((runOuts m d nranks nb ns time right rms U).map F) (by
      intro b hb
      obtain ⟨o, ho, rfl⟩ := List.mem_map.mp hb
      exact hF o ho) r (by rw [hl]; exact hr)
    have hconv : readParallel true nranks
        (parDsetOf nd ((runOuts m d nranks nb ns time right rms U).map F)) r =
        readParallel true ((runOuts m d nranks nb ns time right rms U).map F).length
        (parDsetOf nd ((runOuts m d nranks nb ns time right rms U).map F)) r := by rw [hl]
    rw [hconv, this]
    simp [runOuts]
  unfold readSets
  simp only [fileOf]
  rw [aux 2 RankOut.nodeCoords (fun o ho => (hok o ho).nodeCoords),
    aux 1 RankOut.l2gNode (fun o ho => (hok o ho).l2gNode),
    aux 2 RankOut.elemToNode (fun o ho => (hok o ho).elemToNode),
    aux 1 RankOut.l2gElem (fun o ho => (hok o ho).l2gElem),
    aux 3 RankOut.uc (fun o ho => (hok o ho).uc)]
  rfl

/-- on one rank the datasets are already those of the unpartitioned run -/
theorem rankSets_one {m : GMesh α} {d nb ns : ℕ} {part : List ℕ} {rms : ℕ → RankMesh α}
    (hm : MeshOK m) (hp : PartOK m 1 part) (hu : AllNodesUsed m)
    (res : PartitionResult m part 0 (rms 0)) (hns : 0 < ns)
    (U V : ℕ → ℕ → ℕ → α)
    (hU : ∀ i e, (rms 0).l2gElem[i]? = some e → ∀ j < nb, ∀ k < ns, U i j k = V e j k) :
    rankSets m d nb ns true (rms 0) U = serialSets m d nb ns V := by
  have hres : ∀ r < 1, PartitionResult m part r (rms r) := by
    intro r hr
    obtain rfl : r = 0 := by omega
    exact res
  have hE : allElems 1 rms = (rms 0).l2gElem := by simp [allElems]
  have hN : allNodes 1 rms = (rms 0).l2gNode := by simp [allNodes]
  have hEr : (rms 0).l2gElem = List.range m.numElems := by
    refine eq_range_of_sorted _ _ ?_ fun g => by rw [← hE]; exact mem_allElems hp hres g
    rw [res.l2gElem, ownedElems]
    exact List.Pairwise.filter _ List.pairwise_lt_range
  have hNr : (rms 0).l2gNode = List.range m.coord.length :=
    eq_range_of_sorted _ _ res.nodeSorted fun g => by rw [← hN]; exact mem_allNodes hm hp hu hres g
  have hne : (rms 0).numElemsPart = m.numElems := by
    rw [res.numElemsPart, ← res.l2gElem, hEr, List.length_range]
  have hnn : (rms 0).numNodesPart = m.coord.length := by
    rw [res.numNodesPart, hNr, List.length_range]
  have hc : (rms 0).nodeCoords = m.coord := by rw [nodeCoords_rows res hm, hNr, coord_rows]
  have hen : (rms 0).elemToNode.flatten = m.eind := by
    conv_rhs => rw [← rows_of_array m.eind m.numElems m.npe hm.eindLen]
    rw [res.elemToNode, ← res.l2gElem, hEr]
    congr 1
    apply List.map_congr_left
    intro e he
    apply List.map_congr_left
    intro j hj
    have he := List.mem_range.mp he
    have hj := List.mem_range.mp hj
    have hlt : e * m.npe + j < m.eind.length := by
      rw [hm.eindLen]
      calc e * m.npe + j < e * m.npe + m.npe := by omega
        _ = (e + 1) * m.npe := by ring
        _ ≤ _ := Nat.mul_le_mul_right _ he
    have hg : m.eind.getD (e * m.npe + j) 0 < m.coord.length := by
      rw [getD_of_lt hlt]
      exact hm.nodes _ (List.getElem_mem hlt)
    generalize m.eind.getD (e * m.npe + j) 0 = g at hg
    rw [hNr]
    exact idxOf_range g _ hg
  have huc := uc_rows res nb ns hns U V hU
  rw [rankSets, serialSets, huc, hEr, hne, hnn, hc, hen, hNr]

/-- the dataset a single writer leaves -/
def oneDset (b : Block T) : ParDset T where
  data := b.data
  offsets := [0]
  nDims := b.dims.length
  nRanks := 1
  totalSize := b.data.length
  dims := b.dims

/-- the file the converter leaves -/
def serialFile (m : GMesh α) (d nb ns : ℕ) (time : α) (V : ℕ → ℕ → ℕ → α) : SolFile α where
  numRanks := 1
  dim := d
  numElems := m.numElems
  numNodes := m.coord.length
  npe := m.npe
  nb := nb
  ns := ns
  time := time
  elemsPerPart := [m.numElems]
  layoutAttr := 1
  nodeCoords := oneDset (serialSets m d nb ns V).nodeCoords
  l2gNode := oneDset (serialSets m d nb ns V).l2gNode
  elemToNode := oneDset (serialSets m d nb ns V).elemToNode
  l2gElem := oneDset (serialSets m d nb ns V).l2gElem
  uc := oneDset (serialSets m d nb ns V).uc

theorem serialSets_uc_length (m : GMesh α) (d nb ns : ℕ) (V : ℕ → ℕ → ℕ → α) :
    (serialSets m d nb ns V).uc.data.length = m.numElems * nb * ns := by
  simp only [serialSets]
  rw [length_flatten_const (nb * ns) _ (by
    intro b hb; obtain ⟨e, _, rfl⟩ := List.mem_map.mp hb; exact coeffRow_length _ _ _ e)]
  simp [Nat.mul_assoc]

/-- the converter leaves exactly `serialFile` -/
theorem convert_serialFile [Zero α] (m : GMesh α) (d nranks nb ns : ℕ) (time : α)
    (part : List ℕ) (enum : ℕ → List ℕ → List ℕ) (rms : ℕ → RankMesh α)
    (U : ℕ → ℕ → ℕ → ℕ → α) (V : ℕ → ℕ → ℕ → α) (hn : 0 < nranks)
    (hm : MeshOK m) (hp : PartOK m nranks part) (he : ∀ r, EnumOK (enum r))
    (hrms : ∀ r < nranks, partition m nranks nranks part (enum r) r = some (rms r))
    (hu : AllNodesUsed m) (hd : ∀ row ∈ m.coord, row.length = d) (hc : 0 < m.coord.length)
    (hnpe : 0 < m.npe) (hdim : 0 < d) (hnb : 0 < nb) (hns : 0 < ns)
    (hU : ∀ r < nranks, ∀ i e, (rms r).l2gElem[i]? = some e →
      ∀ j < nb, ∀ k < ns, U r i j k = V e j k)
    (ord : ℕ → List ℕ) (hord : ∀ i, (ord i).Perm (List.range nranks)) :
    ∃ f, writeFile true (runOuts m d nranks nb ns time true rms U) ord = some f ∧
      convert nranks f = some (serialFile m d nb ns time V) := by
  have hres : ∀ r < nranks, PartitionResult m part r (rms r) :=
    fun r hr => result_of hm hp (he r) hr (hrms r hr)
  set f := fileOf (rankOut m d nranks nb ns time true (rms 0) (U 0))
        (runOuts m d nranks nb ns time true rms U) with hf
  have hw := runOuts_write m d nranks nb ns time true part rms U hn hm hd hres ord hord
  have hepp : (List.range nranks).mapM (scatterScalar true f.elemsPerPart) =
      some ((List.range nranks).map fun r => (rms r).l2gElem.length) := by
    apply mapM_some
    intro r hr
    have hr := List.mem_range.mp hr
    show scatterScalar true ((runOuts m d nranks nb ns time true rms U).map RankOut.numElemsPart) r
      = _
    rw [scatterScalar_eq _ r (by simp [runOuts, hr])]
    simp [runOuts, rankOut, (hres r hr).numElemsPart, (hres r hr).l2gElem]
  have hsets : (List.range nranks).mapM (readSets nranks f) =
      some ((List.range nranks).map fun r => rankSets m d nb ns true (rms r) (U r)) := by
    apply mapM_some
    intro r hr
    exact runOuts_readSets m d nranks nb ns time true part rms U hm hd hres r
      (List.mem_range.mp hr)
  have hsum : ((List.range nranks).map fun r => (rms r).l2gElem.length).sum = m.numElems := by
    rw [← allElems_length hp hres, allElems, List.length_flatten, List.map_map]
    rfl
  have hread : readSerialized nranks f = some (readerOut f 1 m.numElems (serialSets m d nb ns V)) := by
    unfold readSerialized
    rw [if_neg (by simp [hf, fileOf, rankOut]), hepp, hsets]
    simp only [Option.bind_eq_bind, Option.bind_some]
    by_cases h1 : nranks > 1
    · rw [if_pos h1]
      have hser := serialize_eq m d nranks nb ns time part rms U V hn hm hp hd hnpe hdim hnb hns
        hres hU
      rw [runOuts, List.map_map, ← runOuts] at hser
      erw [hser]
      rw [Option.bind_some, reorder_eq m d nranks nb ns part rms V hm hp hu hd hc hres,
        Option.bind_some, hsum]
    · obtain rfl : nranks = 1 := by omega
      rw [if_neg h1]
      have hs : (List.range 1).map (fun r => (rms r).l2gElem.length) = [m.numElems] := by
        simpa using hsum
      rw [hs]
      simp only [List.range_one, List.map_cons, List.map_nil, List.getElem?_cons_zero,
        Option.bind_some]
      rw [rankSets_one hm hp hu (hres 0 (by omega)) hns (U 0) V (hU 0 (by omega))]
      rfl
  have hlen := serialSets_uc_length m d nb ns V
  refine ⟨f, hw, ?_⟩
  · rw [convert, hread, Option.bind_eq_bind, Option.bind_some]
    unfold writeFile
    simp only [List.getElem?_cons_zero, Option.bind_eq_bind, Option.bind_some, List.map_cons,
      List.map_nil, gatherScalar, Bool.false_eq_true, if_false, Option.map_some, readerOut]
    rw [writeParallel_serial _ (by simp [serialSets]) (by
        simp [serialSets, length_flatten_const d _ hd, -List.length_flatten]),
      Option.bind_some, writeParallel_serial _ (by simp [serialSets]) (by simp [serialSets]),
      Option.bind_some, writeParallel_serial _ (by simp [serialSets]) (by
        simp [serialSets, hm.eindLen]),
      Option.bind_some, writeParallel_serial _ (by simp [serialSets]) (by simp [serialSets]),
      Option.bind_some, writeParallel_serial _ (by simp [serialSets]) (by
        rw [hlen]; simp [serialSets]),
      Option.bind_some]
    rfl

theorem serialFile_spec (m : GMesh α) (d nb ns : ℕ) (time : α) (V : ℕ → ℕ → ℕ → α) (hns : 0 < ns) :
    SerialFileOf m d nb ns time V (serialFile m d nb ns time V) := by
  have hlen := serialSets_uc_length m d nb ns V
  refine ⟨rfl, rfl, rfl, rfl, rfl, rfl, rfl, rfl, rfl, rfl, ⟨rfl, rfl⟩, ⟨rfl, rfl⟩, ⟨rfl, rfl⟩,
    ⟨rfl, rfl⟩, ?_, ⟨hlen, rfl⟩⟩
  intro e he j hj k hk
  have := viewData_index true m.numElems nb ns V e j k he hj hk
  rw [viewData_rows _ _ _ hns] at this
  simp only [viewIndex, if_true] at this
  exact this

/-- C47. A run on any number of ranks, any distribution of the elements over them, any order of
the neighbour lists and any order of the file writes, followed by the converter on as many ranks,
leaves the solution file of the unpartitioned run: the header, the connectivity and coordinates of
the mesh file in its own numbering, and for every element the coefficients the owning rank had. -/
theorem C47_serial_file_independent [Zero α] (m : GMesh α) (d nranks nb ns : ℕ) (time : α)
    (part : List ℕ) (enum : ℕ → List ℕ → List ℕ) (rms : ℕ → RankMesh α)
    (U : ℕ → ℕ → ℕ → ℕ → α) (V : ℕ → ℕ → ℕ → α) (hn : 0 < nranks)
    (hm : MeshOK m) (hp : PartOK m nranks part) (he : ∀ r, EnumOK (enum r))
    (hrms : ∀ r < nranks, partition m nranks nranks part (enum r) r = some (rms r))
    (hu : AllNodesUsed m) (hd : ∀ row ∈ m.coord, row.length = d) (hc : 0 < m.coord.length)
    (hnpe : 0 < m.npe) (hdim : 0 < d) (hnb : 0 < nb) (hns : 0 < ns)
    (hU : ∀ r < nranks, ∀ i e, (rms r).l2gElem[i]? = some e →
      ∀ j < nb, ∀ k < ns, U r i j k = V e j k)
    (ord : ℕ → List ℕ) (hord : ∀ i, (ord i).Perm (List.range nranks)) :
    ∃ f g, writeFile true (runOuts m d nranks nb ns time true rms U) ord = some f ∧
      convert nranks f = some g ∧ SerialFileOf m d nb ns time V g := by
  obtain ⟨f, h1, h2⟩ := convert_serialFile m d nranks nb ns time part enum rms U V hn hm hp he hrms hu hd hc hnpe hdim
    hnb hns hU ord hord
  exact ⟨f, _, h1, h2, serialFile_spec m d nb ns time V hns⟩

/-- the hypotheses are met by the 2x2 mesh on two ranks, element `e` holding `100 e + 10 j + k` -/
example : ∃ f g, writeFile true (runOuts exMesh 2 2 3 2 7 true exRms
      (fun r i j k => 100 * ((exRms r).l2gElem.getD i 0) + 10 * j + k)) (fun _ => [1, 0]) = some f ∧
    convert 2 f = some g ∧
    SerialFileOf exMesh 2 3 2 7 (fun e j k => 100 * e + 10 * j + k) g := by
  refine C47_serial_file_independent exMesh 2 2 3 2 7 exPart (fun _ => List.reverse) exRms _ _
    (by decide) exMesh_ok exPart_ok (fun _ l => List.reverse_perm l) ?_ (by unfold AllNodesUsed; decide)
    (by decide) (by decide) (by decide) (by decide) (by decide) (by decide) ?_ _ ?_
  · intro r hr
    have : r = 0 ∨ r = 1 := by omega
    rcases this with rfl | rfl <;> rfl
  · intro r _ i e h j _ k _
    simp [List.getD, h]
  · intro i; decide

/-- The statement needs the row-major layout of a host build: the coefficients of a run with the
column-major layout of a device build are moved as if they were row-major, and the serial file,
read in the layout it declares, gives element 1 the coefficient 200 of element 2 instead of 100. -/
theorem C47_column_major_is_scrambled :
    ((writeFile true (runOuts exMesh 2 2 2 1 7 false exRms
      (fun r i j k => 100 * ((exRms r).l2gElem.getD i 0) + 10 * j + k)) (fun _ => [0, 1])).bind
        (convert 2)).map (fun g => (attrToBool g.layoutAttr, g.uc.data[viewIndex false 4 2 1 1 0 0]?))
      = some (false, some 200) := by
  decide +kernel

/-- The statement needs every node to belong to an element: with an unused last node the header
announces ten nodes and the file has the coordinates of nine. -/
theorem C47_unused_node_is_lost :
    ((writeFile true (runOuts { exMesh with coord := exMesh.coord ++ [[5, 5]] } 2 2 1 1 7 true
      (fun r => (partition { exMesh with coord := exMesh.coord ++ [[5, 5]] } 2 2 exPart id r).getD
        (exRms r)) (fun _ _ _ _ => 0)) (fun _ => [0, 1])).bind
        (convert 2)).map (fun g => (g.numNodes, g.nodeCoords.dims)) = some (10, [9, 2]) := by
  decide +kernel

end DG
