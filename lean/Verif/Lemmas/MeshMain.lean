import Verif.Lemmas.MeshFaces
import Verif.Spec.Mesh

/-! Closed form of the complete `partition`. -/
namespace DG

variable {α : Type _}

/-- global numbers of the faces between `r` and `s`, increasing -/
def betweenFaces (part : List ℕ) (r s : ℕ) (faces : List IFace) : List ℕ :=
  (faces.zipIdx.filter (fun f => decide (Between part r s f.1))).map Prod.snd

theorem betweenFaces_comm (part : List ℕ) (r s : ℕ) (faces : List IFace) :
    betweenFaces part r s faces = betweenFaces part s r faces := by
  unfold betweenFaces
  congr 1
  apply List.filter_congr
  intro f _
  rw [decide_eq_decide]
  exact ⟨Between.symm, Between.symm⟩

/-- bucket of a global face on rank `r` -/
def bucket (part : List ℕ) (faces : List IFace) (nbrs : List ℕ) (r g : ℕ) : Option ℕ :=
  match faces[g]? with
  | none => none
  | some f =>
    if part[f.elemL]? = some r then some (nbrs.idxOf (part.getD f.elemR 0))
    else if part[f.elemR]? = some r then some (nbrs.idxOf (part.getD f.elemL 0))
    else none

theorem getD_some {part : List ℕ} {e : ℕ} (h : e < part.length) :
    part[e]? = some (part.getD e 0) := by simp [List.getD_eq_getElem?_getD, h]

/-- the rows stored on rank `r` -/
def rowsOf (part : List ℕ) (r : ℕ) (faces : List IFace) (l2gE : List ℕ) : List FaceRow :=
  (myFaces part r faces).map (fun f =>
    faceRow l2gE (part.getD f.1.elemL 0) (part.getD f.1.elemR 0) f.1)

theorem ghostIndex_spec (part : List ℕ) (faces : List IFace) (l2gE nbrs : List ℕ) (r : ℕ)
    (hf : ∀ f ∈ faces, f.elemL < part.length ∧ f.elemR < part.length)
    (hfit : faces.length ≤ UINT_MAX)
    (hn : ∀ x, x ∈ nbrs ↔ x ≠ r ∧ ∃ f ∈ faces.zipIdx, Between part r x f.1)
    (x : IFace × ℕ) (hx : x ∈ faces.zipIdx) (hg : Ghost part x.1) :
    ghostIndex r ((myFaces part r faces).map Prod.snd) (rowsOf part r faces l2gE) nbrs x.2
      = some (bucket part faces nbrs r x.2) := by
  have hget := mem_zipIdx_lt hx
  obtain ⟨hL, hR⟩ := hf x.1 (List.mem_of_getElem? hget)
  have eL := getD_some hL
  have eR := getD_some hR
  unfold ghostIndex bucket
  rw [hget]
  simp only [searchLocal_eq]
  by_cases ht : Touches part r x.1
  · have hmem : x ∈ myFaces part r faces := by simp [myFaces, hx, ht]
    have hmem' : x.2 ∈ (myFaces part r faces).map Prod.snd := List.mem_map_of_mem hmem
    have hnd := nodup_of_lt (myFaces_sorted part r faces)
    have hidx := getElem?_idxOf_snd _ hnd hmem
    have hlt : ((myFaces part r faces).map Prod.snd).idxOf x.2 < UINT_MAX := by
      have h1 : ((myFaces part r faces).map Prod.snd).idxOf x.2
          < ((myFaces part r faces).map Prod.snd).length := List.idxOf_lt_length_of_mem hmem'
      have h2 : (myFaces part r faces).length ≤ faces.length := by
        unfold myFaces
        exact le_trans (List.length_filter_le _ _) (by simp)
      simp only [List.length_map] at h1
      omega
    rw [if_pos hmem', if_neg (by omega)]
    have hrow : (rowsOf part r faces l2gE)[((myFaces part r faces).map Prod.snd).idxOf x.2]?
        = some (faceRow l2gE (part.getD x.1.elemL 0) (part.getD x.1.elemR 0) x.1) := by
      rw [rowsOf, List.getElem?_map, hidx]; rfl
    rw [hrow]
    simp only [faceRow]
    generalize hgl : part.getD x.1.elemL 0 = rl at *
    generalize hgr : part.getD x.1.elemR 0 = rr at *
    have hne : rl ≠ rr := by unfold Ghost at hg; rw [eL, eR] at hg; simpa using hg
    unfold Touches at ht
    rw [eL, eR] at ht ⊢
    simp only [Option.some.injEq] at ht ⊢
    by_cases h1 : rl = r
    · subst h1
      have hin : rr ∈ nbrs := (hn rr).2 ⟨fun h => hne h.symm, x, hx, Or.inl ⟨eL, eR⟩⟩
      simp [nbrIndex_eq, hin]
    · have h2 : rr = r := by tauto
      subst h2
      have hin : rl ∈ nbrs := (hn rl).2 ⟨hne, x, hx, Or.inr ⟨eL, eR⟩⟩
      have h3 : ¬ (rr = rl) := fun h => hne h.symm
      simp [nbrIndex_eq, hin, h3, h1]
  · have hmem' : x.2 ∉ (myFaces part r faces).map Prod.snd := by
      intro h
      obtain ⟨y, hy, hyx⟩ := List.mem_map.1 h
      simp only [myFaces, List.mem_filter, decide_eq_true_eq] at hy
      have := mem_zipIdx_lt hy.1
      rw [hyx, hget] at this
      have := Option.some.inj this
      exact ht (this ▸ hy.2)
    rw [if_neg hmem']
    unfold Touches at ht
    simp only [not_or] at ht
    simp [ht.1, ht.2]

theorem bucket_iff (part : List ℕ) (faces : List IFace) (nbrs : List ℕ) (r : ℕ)
    (hf : ∀ f ∈ faces, f.elemL < part.length ∧ f.elemR < part.length)
    (hn : ∀ x, x ∈ nbrs ↔ x ≠ r ∧ ∃ f ∈ faces.zipIdx, Between part r x f.1) (hnd : nbrs.Nodup)
    (x : IFace × ℕ) (hx : x ∈ faces.zipIdx) (hg : Ghost part x.1) (i s : ℕ)
    (hi : nbrs[i]? = some s) :
    bucket part faces nbrs r x.2 = some i ↔ Between part r s x.1 := by
  have hget := mem_zipIdx_lt hx
  obtain ⟨hL, hR⟩ := hf x.1 (List.mem_of_getElem? hget)
  have eL := getD_some hL
  have eR := getD_some hR
  obtain ⟨hil, his⟩ := List.getElem?_eq_some_iff.1 hi
  have hix : ∀ y, y ∈ nbrs → (nbrs.idxOf y = i ↔ y = s) := by
    intro y hy
    constructor
    · intro h
      have := List.getElem?_idxOf hy
      rw [h, hi] at this
      exact (Option.some.inj this).symm
    · rintro rfl
      rw [← his]
      exact List.Nodup.idxOf_getElem hnd i hil
  unfold bucket
  rw [hget]
  simp only
  generalize hgl : part.getD x.1.elemL 0 = rl at *
  generalize hgr : part.getD x.1.elemR 0 = rr at *
  have hne : rl ≠ rr := by unfold Ghost at hg; rw [eL, eR] at hg; simpa using hg
  unfold Between
  rw [eL, eR]
  simp only [Option.some.injEq]
  by_cases h1 : rl = r
  · subst h1
    have hin : rr ∈ nbrs := (hn rr).2 ⟨fun h => hne h.symm, x, hx, Or.inl ⟨eL, eR⟩⟩
    simp only [if_true, Option.some.injEq, hix rr hin, true_and]
    constructor
    · exact Or.inl
    · rintro (h | ⟨_, h⟩)
      · exact h
      · exact absurd h.symm hne
  · by_cases h2 : rr = r
    · subst h2
      have hin : rl ∈ nbrs := (hn rl).2 ⟨hne, x, hx, Or.inr ⟨eL, eR⟩⟩
      simp only [h1, if_false, if_true, Option.some.injEq, hix rl hin, false_and, false_or, and_true]
    · simp only [h1, h2, if_false, false_and, and_false, or_self, reduceCtorEq]

/-- global numbers of ghost faces -/
def ghostFaces (part : List ℕ) (faces : List IFace) : List ℕ :=
  (faces.zipIdx.filter (fun f => decide (Ghost part f.1))).map Prod.snd

theorem filter_bucket (part : List ℕ) (faces : List IFace) (nbrs : List ℕ) (r : ℕ)
    (hf : ∀ f ∈ faces, f.elemL < part.length ∧ f.elemR < part.length)
    (hn : ∀ x, x ∈ nbrs ↔ x ≠ r ∧ ∃ f ∈ faces.zipIdx, Between part r x f.1) (hnd : nbrs.Nodup)
    (i s : ℕ) (hi : nbrs[i]? = some s) :
    (ghostFaces part faces).filter (fun g => decide (bucket part faces nbrs r g = some i))
      = betweenFaces part r s faces := by
  unfold ghostFaces betweenFaces
  rw [List.filter_map, List.filter_filter]
  congr 1
  apply List.filter_congr
  intro x hx
  have hs : s ≠ r := ((hn s).1 (List.mem_of_getElem? hi)).1
  by_cases hg : Ghost part x.1
  · have := bucket_iff part faces nbrs r hf hn hnd x hx hg i s hi
    simp [hg, this]
  · have hb : ¬ Between part r s x.1 := by
      unfold Ghost at hg
      unfold Between
      rw [not_not] at hg
      rw [hg]
      rintro (⟨h1, h2⟩ | ⟨h1, h2⟩) <;>
      · rw [h1] at h2
        have := Option.some.inj h2
        omega
    simp [hg, hb]

theorem foldlM_bind_some {β γ δ : Type _} (f : γ → Option δ) (b : γ → δ) (k : β → δ → Option β)
    (l : List γ) (s : β) (h : ∀ x ∈ l, f x = some (b x)) :
    l.foldlM (fun st x => do k st (← f x)) s = l.foldlM (fun st x => k st (b x)) s := by
  apply foldlM_congr
  intro st x hx
  rw [h x hx]; rfl

theorem ghosts_spec (part : List ℕ) (faces : List IFace) (l2gE nbrs : List ℕ) (r : ℕ)
    (hf : ∀ f ∈ faces, f.elemL < part.length ∧ f.elemR < part.length)
    (hfit : faces.length ≤ UINT_MAX)
    (hn : ∀ x, x ∈ nbrs ↔ x ≠ r ∧ ∃ f ∈ faces.zipIdx, Between part r x f.1) (hnd : nbrs.Nodup) :
    countGhosts r ((myFaces part r faces).map Prod.snd) (rowsOf part r faces l2gE) nbrs
        (ghostFaces part faces)
      = some (nbrs.map (fun s => (betweenFaces part r s faces).length)) ∧
    storeGhosts r ((myFaces part r faces).map Prod.snd) (rowsOf part r faces l2gE) nbrs
        (nbrs.map (fun s => (betweenFaces part r s faces).length)) (ghostFaces part faces)
      = some (nbrs.map (fun s => ((betweenFaces part r s faces).length,
          betweenFaces part r s faces))) := by
  have hgi : ∀ g ∈ ghostFaces part faces,
      ghostIndex r ((myFaces part r faces).map Prod.snd) (rowsOf part r faces l2gE) nbrs g
        = some (bucket part faces nbrs r g) := by
    intro g hg
    unfold ghostFaces at hg
    obtain ⟨x, hx, rfl⟩ := List.mem_map.1 hg
    simp only [List.mem_filter, decide_eq_true_eq] at hx
    exact ghostIndex_spec part faces l2gE nbrs r hf hfit hn x hx.1 hx.2
  have hblt : ∀ g ∈ ghostFaces part faces, ∀ i, bucket part faces nbrs r g = some i →
      i < nbrs.length := by
    intro g hg i hb
    unfold ghostFaces at hg
    obtain ⟨x, hx, rfl⟩ := List.mem_map.1 hg
    simp only [List.mem_filter, decide_eq_true_eq] at hx
    have hget := mem_zipIdx_lt hx.1
    obtain ⟨hL, hR⟩ := hf x.1 (List.mem_of_getElem? hget)
    have eL := getD_some hL
    have eR := getD_some hR
    have hne : part.getD x.1.elemL 0 ≠ part.getD x.1.elemR 0 := by
      have := hx.2
      unfold Ghost at this; rw [eL, eR] at this; simpa using this
    unfold bucket at hb
    rw [hget] at hb
    simp only at hb
    split at hb
    · rename_i h
      rw [← Option.some.inj hb]
      apply List.idxOf_lt_length_of_mem
      have hr : part.getD x.1.elemL 0 = r := by rw [eL] at h; exact Option.some.inj h
      exact (hn _).2 ⟨fun h' => hne (by rw [h', hr]), x, hx.1, Or.inl ⟨h, eR⟩⟩
    · split at hb
      · rename_i h
        rw [← Option.some.inj hb]
        apply List.idxOf_lt_length_of_mem
        have hr : part.getD x.1.elemR 0 = r := by rw [eR] at h; exact Option.some.inj h
        exact (hn _).2 ⟨fun h' => hne (by rw [h', hr]), x, hx.1, Or.inr ⟨eL, h⟩⟩
      · cases hb
  have hrange : ∀ {β : Type} (k : ℕ → β) (K : ℕ → β),
      (∀ i s, nbrs[i]? = some s → k i = K s) →
      (List.range nbrs.length).map k = nbrs.map K := by
    intro β k K h
    apply List.ext_getElem
    · simp
    · intro i h1 h2
      have hi : i < nbrs.length := by simpa using h1
      simp only [List.getElem_map, List.getElem_range]
      exact h i _ (List.getElem?_eq_getElem hi)
  have hfb := fun i s => filter_bucket part faces nbrs r hf hn hnd i s
  constructor
  · unfold countGhosts
    rw [foldlM_congr (g := fun cnt g => match bucket part faces nbrs r g with
      | some i => bumpB cnt i
      | none => some cnt)]
    · refine (bucketCount _ nbrs.length _ hblt).trans ?_
      congr 1
      exact hrange _ _ (fun i s hi => by rw [hfb i s hi])
    · intro cnt g hg
      rw [hgi g hg]
      rfl
  · unfold storeGhosts
    rw [foldlM_congr (g := fun gs g => match bucket part faces nbrs r g with
      | some i => do
        let cur ← gs[i]?
        let nxt ← pushB cur g
        setB gs i nxt
      | none => some gs)]
    · have hinit : (nbrs.map (fun s => (betweenFaces part r s faces).length)).map
          (fun n => ((0 : ℕ), List.replicate n 0))
          = (List.range nbrs.length).map (fun i => ((0 : ℕ), List.replicate
              (((ghostFaces part faces).filter
                (fun g => decide (bucket part faces nbrs r g = some i))).length) 0)) := by
        rw [List.map_map]
        exact (hrange _ _ (fun i s hi => by rw [hfb i s hi]; rfl)).symm
      rw [hinit]
      refine (bucketStore _ (fun i => ((ghostFaces part faces).filter
                (fun g => decide (bucket part faces nbrs r g = some i))).length) nbrs.length _ hblt
            (fun i _ => le_rfl)).trans ?_
      congr 1
      unfold bucketState
      exact hrange _ _ (fun i s hi => by simp [hfb i s hi])
    · intro gs g hg
      rw [hgi g hg]
      rfl

/-- The complete result of `partition` on rank `r`, in closed form. -/
structure PartitionResult (m : GMesh α) (part : List ℕ) (r : ℕ) (rm : RankMesh α) : Prop where
  l2gElem : rm.l2gElem = ownedElems part m.numElems r
  numElemsPart : rm.numElemsPart = (ownedElems part m.numElems r).length
  elemToNode : rm.elemToNode = (ownedElems part m.numElems r).map (fun e =>
    (List.range m.npe).map (fun j => rm.l2gNode.idxOf (m.eind.getD (e * m.npe + j) 0)))
  nodeSorted : rm.l2gNode.Pairwise (· < ·)
  nodeMem : ∀ g, g ∈ rm.l2gNode ↔ ∃ e < m.numElems, part[e]? = some r ∧
        ∃ j < m.npe, m.eind[e * m.npe + j]? = some g
  numNodesPart : rm.numNodesPart = rm.l2gNode.length
  coordLen : rm.nodeCoords.length = rm.l2gNode.length
  coord : ∀ i g : ℕ, rm.l2gNode[i]? = some g → rm.nodeCoords[i]? = m.coord[g]?
  l2gFace : rm.l2gFace = (myFaces part r m.faces).map Prod.snd
  rows : rm.rows = rowsOf part r m.faces rm.l2gElem
  numIFacesPart : rm.numIFacesPart = (myFaces part r m.faces).length
  numGFacesPart : rm.numGFacesPart = (m.faces.zipIdx.filter
    (fun f => decide (Touches part r f.1 ∧ Ghost part f.1))).length
  nbrsNodup : rm.nbrs.Nodup
  nbrsMem : ∀ x, x ∈ rm.nbrs ↔ x ≠ r ∧ ∃ f ∈ m.faces.zipIdx, Between part r x f.1
  nFaces : rm.nFacesPerNbr = rm.nbrs.map (fun s => (betweenFaces part r s m.faces).length)
  ghosts : rm.ghosts = rm.nbrs.map (fun s => betweenFaces part r s m.faces)

theorem partition_spec (m : GMesh α) (nranks : ℕ) (part : List ℕ) (enum : List ℕ → List ℕ) (r : ℕ)
    (hm : MeshOK m) (hp : PartOK m nranks part) (he : EnumOK enum) (hr : r < nranks) :
    ∃ rm, partition m nranks nranks part enum r = some rm ∧ PartitionResult m part r rm := by
  have hf : ∀ f ∈ m.faces, f.elemL < part.length ∧ f.elemR < part.length := by
    intro f hf; rw [hp.len]; exact hm.faces f hf
  have hfz : ∀ f ∈ m.faces.zipIdx, f.1.elemL < part.length ∧ f.1.elemR < part.length := by
    intro f hf'; exact hf f.1 (List.mem_of_getElem? (mem_zipIdx_lt hf'))
  obtain ⟨nodes, n1, n2, n3⟩ := nodeSet_spec m part r hp.len hm.eindLen
  obtain ⟨fc, f1, inv⟩ := countFaces_aux part nranks nranks
    (fun p hpp => ⟨hp.lt p hpp, hp.lt p hpp⟩) m.faces.zipIdx hfz
  obtain ⟨nset, s1, s2, s3⟩ := inv.nb r hr
  have hnr : ∀ g ∈ nodes, g < m.coord.length := by
    intro g hg
    obtain ⟨e, _, _, j, _, hj⟩ := (n3 g).1 hg
    exact hm.nodes g (List.mem_of_getElem? hj)
  obtain ⟨cs, c1, c2, c3⟩ := storeCoords_spec m nodes hnr
  have hcount := countElems_spec nranks part hp.lt
  have hsz : ((List.range nranks).map (fun i => part.count i))[r]? = some (part.count r) := by
    simp [hr]
  have hstoreE := storeElems_spec m part r nodes hp.len hm.eindLen
  have hstoreF := storeFaces_aux part r (ownedElems part m.numElems r)
    (0, ⟨0, 0, 0, 0, 0, 0, 0, 0⟩) m.faces.zipIdx [] (myFaces part r m.faces).length 0 hfz le_rfl
  have hnm : ∀ x, x ∈ enum nset ↔ x ≠ r ∧ ∃ f ∈ m.faces.zipIdx, Between part r x f.1 := by
    intro x; rw [(he nset).mem_iff]; exact s3 x
  have hnd : (enum nset).Nodup := (he nset).nodup_iff.2 s2
  obtain ⟨hcg, hsg⟩ := ghosts_spec part m.faces (ownedElems part m.numElems r) (enum nset) r hf
    hm.facesFit hnm hnd
  unfold partition
  simp only [hcount, Option.bind_eq_bind, Option.bind_some, hsz, n1,
    show countFaces m nranks nranks part = some fc from f1, inv.sz r hr, s1, hstoreE, c1]
  have hstoreF' : storeFaces m part r
      ((m.faces.zipIdx.filter (fun f => decide (Touches part r f.1))).length)
      (ownedElems part m.numElems r)
      = some (FaceStore.mk ((myFaces part r m.faces).length, (myFaces part r m.faces).map (fun f =>
          (f.2, faceRow (ownedElems part m.numElems r) (part.getD f.1.elemL 0)
            (part.getD f.1.elemR 0) f.1)))
        (m.faces.zipIdx.filter
          (fun f => decide (Touches part r f.1 ∧ Ghost part f.1))).length) := by
    unfold storeFaces
    have h := hstoreF
    simp only [List.length_nil, List.nil_append, List.length_map] at h
    unfold myFaces at h ⊢
    rw [h]
    simp
  have hmapid : (List.map Prod.fst (List.map (fun i => (i, List.map (fun j =>
      List.idxOf (m.eind.getD (i * m.npe + j) 0) nodes) (List.range m.npe)))
      (ownedElems part m.numElems r))) = ownedElems part m.numElems r := by
    rw [List.map_map]
    exact List.map_id'' (fun _ => rfl) _
  rw [hmapid, hstoreF']
  simp only [Option.bind_some, List.map_map]
  have hA : List.map (Prod.fst ∘ fun f : IFace × ℕ => (f.2, faceRow (ownedElems part m.numElems r)
      (part.getD f.1.elemL 0) (part.getD f.1.elemR 0) f.1)) (myFaces part r m.faces)
      = (myFaces part r m.faces).map Prod.snd := by
    apply List.map_congr_left; intro a _; rfl
  have hB : List.map (Prod.snd ∘ fun f : IFace × ℕ => (f.2, faceRow (ownedElems part m.numElems r)
      (part.getD f.1.elemL 0) (part.getD f.1.elemR 0) f.1)) (myFaces part r m.faces)
      = rowsOf part r m.faces (ownedElems part m.numElems r) := by
    unfold rowsOf; apply List.map_congr_left; intro a _; rfl
  rw [hA, hB, show fc.ghosts = ghostFaces part m.faces from inv.gh, hcg]
  simp only [Option.bind_some, hsg]
  refine ⟨_, rfl, ?_⟩
  have hown : part.count r = (ownedElems part m.numElems r).length := by
    rw [count_eq_owned, hp.len]
  constructor
  · rfl
  · exact hown
  · apply List.map_congr_left; intro a _; rfl
  · exact n2
  · exact n3
  · rfl
  · exact c2
  · exact c3
  · rfl
  · rfl
  · rfl
  · rfl
  · exact hnd
  · exact hnm
  · rfl
  · show List.map Prod.snd _ = _
    rw [List.map_map]; rfl

end DG
