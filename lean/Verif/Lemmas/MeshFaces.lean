import Verif.Lemmas.Mesh
import Verif.Lemmas.Bucket
import Verif.Spec.Mesh

/-! Closed forms of the interior-face loops of `Mesh::partition`. -/
namespace DG

variable {α : Type _}

theorem Between.symm {part : List ℕ} {r s : ℕ} {f : IFace} (h : Between part r s f) :
    Between part s r f := by
  unfold Between at *; tauto

theorem mem_usetInsert (x y : ℕ) (s : List ℕ) : y ∈ usetInsert x s ↔ y = x ∨ y ∈ s := by
  unfold usetInsert
  split
  · constructor
    · exact Or.inr
    · rintro (rfl | h) <;> assumption
  · simp; tauto

theorem nodup_usetInsert (x : ℕ) (s : List ℕ) (h : s.Nodup) : (usetInsert x s).Nodup := by
  unfold usetInsert
  split
  · exact h
  · rename_i hx
    rw [List.nodup_append]
    refine ⟨h, by simp, ?_⟩
    intro a ha b hb
    simp at hb; subst hb
    rintro rfl; exact hx ha

/-- Everything the counting loop establishes about the faces `l` it has seen. -/
structure CountInv (part : List ℕ) (nparts nranks : ℕ) (l : List (IFace × ℕ)) (st : FaceCount) :
    Prop where
  szLen : st.ifaceSize.length = nparts
  sz : ∀ i < nparts, st.ifaceSize[i]? =
    some (l.filter (fun f => decide (Touches part i f.1))).length
  gh : st.ghosts = (l.filter (fun f => decide (Ghost part f.1))).map Prod.snd
  nbLen : st.nbrs.length = nranks
  nb : ∀ i < nranks, ∃ s, st.nbrs[i]? = some s ∧ s.Nodup ∧
    ∀ x, x ∈ s ↔ x ≠ i ∧ ∃ f ∈ l, Between part i x f.1

theorem countFaces_aux (part : List ℕ) (nparts nranks : ℕ)
    (hp : ∀ p ∈ part, p < nparts ∧ p < nranks) (l : List (IFace × ℕ))
    (hl : ∀ f ∈ l, f.1.elemL < part.length ∧ f.1.elemR < part.length) :
    ∃ st, l.foldlM (countFace part)
      { ifaceSize := List.replicate nparts 0, ghosts := [], nbrs := List.replicate nranks [] }
        = some st ∧ CountInv part nparts nranks l st := by
  induction l using List.reverseRecOn with
  | nil =>
    refine ⟨_, rfl, ⟨by simp, ?_, rfl, by simp, ?_⟩⟩
    · intro i hi; simp [hi]
    · intro i hi; exact ⟨[], by simp [hi], by simp, by simp⟩
  | append_singleton l f ih =>
    obtain ⟨st, hst, inv⟩ := ih (fun g hg => hl g (by simp [hg]))
    obtain ⟨hL, hR⟩ := hl f (by simp)
    have hrl := hp _ (List.getElem_mem hL)
    have hrr := hp _ (List.getElem_mem hR)
    rw [List.foldlM_append, hst]
    simp only [Option.bind_eq_bind, Option.bind_some, List.foldlM_cons, List.foldlM_nil]
    generalize hL' : part[f.1.elemL] = rl at hrl
    generalize hR' : part[f.1.elemR] = rr at hrr
    have eL : part[f.1.elemL]? = some rl := by rw [List.getElem?_eq_getElem hL, hL']
    have eR : part[f.1.elemR]? = some rr := by rw [List.getElem?_eq_getElem hR, hR']
    have h1 : rl < st.ifaceSize.length := by rw [inv.szLen]; exact hrl.1
    unfold countFace
    simp only [eL, eR, Option.bind_eq_bind, Option.bind_some, bumpB_of_lt h1]
    have hszl : st.ifaceSize[rl] = (l.filter (fun f => decide (Touches part rl f.1))).length := by
      have := inv.sz rl hrl.1
      rw [List.getElem?_eq_getElem h1] at this
      exact Option.some.inj this
    by_cases hne : rl = rr
    · subst hne
      simp only [ne_eq, not_true_eq_false, if_false]
      refine ⟨_, rfl, ?_, ?_, ?_, ?_, ?_⟩
      · simpa using inv.szLen
      · intro i hi
        simp only [List.getElem?_set]
        by_cases hi' : rl = i
        · subst hi'
          have ht : Touches part rl f.1 := Or.inl eL
          simp [h1, hszl, List.filter_append, ht]
        · have ht : ¬ Touches part i f.1 := by
            unfold Touches; rw [eL, eR]; simp [hi']
          simp only [hi', if_false, inv.sz i hi, List.filter_append, List.length_append]
          simp [ht]
      · have hg : ¬ Ghost part f.1 := by unfold Ghost; simp [eL, eR]
        simp only [inv.gh, List.filter_append]
        simp [hg]
      · exact inv.nbLen
      · intro i hi
        obtain ⟨s, hs1, hs2, hs3⟩ := inv.nb i hi
        refine ⟨s, hs1, hs2, ?_⟩
        intro x
        rw [hs3]
        constructor
        · rintro ⟨hx, g, hg, hb⟩; exact ⟨hx, g, by simp [hg], hb⟩
        · rintro ⟨hx, g, hg, hb⟩
          refine ⟨hx, ?_⟩
          rcases List.mem_append.1 hg with hg | hg
          · exact ⟨g, hg, hb⟩
          · simp only [List.mem_singleton] at hg
            subst hg
            unfold Between at hb
            rw [eL, eR] at hb
            simp only [Option.some.injEq] at hb
            omega
    · have h2 : rr < (st.ifaceSize.set rl (st.ifaceSize[rl] + 1)).length := by
        rw [List.length_set, inv.szLen]; exact hrr.1
      obtain ⟨sl, sl1, sl2, sl3⟩ := inv.nb rl hrl.2
      obtain ⟨sr, sr1, sr2, sr3⟩ := inv.nb rr hrr.2
      have h3 : rl < st.nbrs.length := by rw [inv.nbLen]; exact hrl.2
      have h4 : rr < (st.nbrs.set rl (usetInsert rr sl)).length := by
        rw [List.length_set, inv.nbLen]; exact hrr.2
      have h5 : (st.nbrs.set rl (usetInsert rr sl))[rr]? = some sr := by
        rw [List.getElem?_set]; simp [hne, sr1]
      simp only [ne_eq, hne, not_false_eq_true, if_true, bumpB_of_lt h2, Option.bind_some, sl1,
        setB_of_lt h3, h5, setB_of_lt h4]
      refine ⟨_, rfl, ?_, ?_, ?_, ?_, ?_⟩
      · simpa using inv.szLen
      · intro i hi
        have hszr := inv.sz rr hrr.1
        have hrr' : rr < st.ifaceSize.length := by rw [inv.szLen]; exact hrr.1
        rw [List.getElem?_eq_getElem hrr'] at hszr
        have hszr' := Option.some.inj hszr
        simp only [List.getElem?_set, List.length_set]
        by_cases hi2 : rr = i
        · subst hi2
          have ht : Touches part rr f.1 := Or.inr eR
          simp [hrr', hne, hszr', List.filter_append, ht]
        · by_cases hi' : rl = i
          · subst hi'
            have ht : Touches part rl f.1 := Or.inl eL
            simp [h1, hszl, List.filter_append, ht, hi2]
          · have ht : ¬ Touches part i f.1 := by
              unfold Touches; rw [eL, eR]; simp [hi', hi2]
            simp only [hi', hi2, if_false, inv.sz i hi, List.filter_append, List.length_append]
            simp [ht]
      · have hg : Ghost part f.1 := by unfold Ghost; simp [eL, eR, hne]
        simp only [inv.gh, List.filter_append]
        simp [hg]
      · simpa using inv.nbLen
      · intro i hi
        have hb : ∀ x, Between part i x f.1 ↔ (rl = i ∧ rr = x) ∨ (rl = x ∧ rr = i) := by
          intro x; unfold Between; rw [eL, eR]; simp
        have hex : ∀ x, (∃ g ∈ l ++ [f], Between part i x g.1) ↔
            (∃ g ∈ l, Between part i x g.1) ∨ (rl = i ∧ rr = x) ∨ (rl = x ∧ rr = i) := by
          intro x
          constructor
          · rintro ⟨g, hg, hbg⟩
            rcases List.mem_append.1 hg with hg | hg
            · exact Or.inl ⟨g, hg, hbg⟩
            · simp only [List.mem_singleton] at hg
              subst hg; exact Or.inr ((hb x).1 hbg)
          · rintro (⟨g, hg, hbg⟩ | h)
            · exact ⟨g, by simp [hg], hbg⟩
            · exact ⟨f, by simp, (hb x).2 h⟩
        simp only [List.getElem?_set, List.length_set]
        by_cases hi2 : rr = i
        · subst hi2
          have hlt : rr < st.nbrs.length := by rw [inv.nbLen]; exact hrr.2
          refine ⟨usetInsert rl sr, by simp [hlt], nodup_usetInsert _ _ sr2, ?_⟩
          intro x
          rw [mem_usetInsert, sr3, hex]
          constructor
          · rintro (rfl | ⟨hx, hh⟩)
            · exact ⟨hne, Or.inr (Or.inr ⟨rfl, rfl⟩)⟩
            · exact ⟨hx, Or.inl hh⟩
          · rintro ⟨hx, (hh | ⟨h, _⟩ | ⟨h, _⟩)⟩
            · exact Or.inr ⟨hx, hh⟩
            · exact absurd h hne
            · exact Or.inl h.symm
        · by_cases hi' : rl = i
          · subst hi'
            refine ⟨usetInsert rr sl, by simp [h3, hi2], nodup_usetInsert _ _ sl2, ?_⟩
            intro x
            rw [mem_usetInsert, sl3, hex]
            constructor
            · rintro (rfl | ⟨hx, hh⟩)
              · exact ⟨fun h => hne h.symm, Or.inr (Or.inl ⟨rfl, rfl⟩)⟩
              · exact ⟨hx, Or.inl hh⟩
            · rintro ⟨hx, (hh | ⟨_, h⟩ | ⟨_, h⟩)⟩
              · exact Or.inr ⟨hx, hh⟩
              · exact Or.inl h.symm
              · exact absurd h hi2
          · obtain ⟨s, hs1, hs2, hs3⟩ := inv.nb i hi
            refine ⟨s, by simp [hi2, hi', hs1], hs2, ?_⟩
            intro x
            rw [hs3, hex]
            constructor
            · rintro ⟨hx, hh⟩; exact ⟨hx, Or.inl hh⟩
            · rintro ⟨hx, (hh | ⟨h, _⟩ | ⟨_, h⟩)⟩
              · exact ⟨hx, hh⟩
              · exact absurd h hi'
              · exact absurd h hi2

/-- faces stored on rank `r`, with their global number, in global order -/
def myFaces (part : List ℕ) (r : ℕ) (faces : List IFace) : List (IFace × ℕ) :=
  faces.zipIdx.filter (fun f => decide (Touches part r f.1))

theorem storeFaces_aux (part : List ℕ) (r : ℕ) (l2gE : List ℕ) (d : ℕ × FaceRow) :
    ∀ (l : List (IFace × ℕ)) (done : List (ℕ × FaceRow)) (n ngf : ℕ),
    (∀ f ∈ l, f.1.elemL < part.length ∧ f.1.elemR < part.length) →
    (l.filter (fun f => decide (Touches part r f.1))).length ≤ n →
    l.foldlM (storeFace part r l2gE)
      { st := (done.length, done ++ List.replicate n d), ngf := ngf }
    = some
      { st := ((done ++ (l.filter (fun f => decide (Touches part r f.1))).map (fun f =>
              (f.2, faceRow l2gE (part.getD f.1.elemL 0) (part.getD f.1.elemR 0) f.1))).length,
          (done ++ (l.filter (fun f => decide (Touches part r f.1))).map (fun f =>
              (f.2, faceRow l2gE (part.getD f.1.elemL 0) (part.getD f.1.elemR 0) f.1)))
            ++ List.replicate (n - (l.filter (fun f => decide (Touches part r f.1))).length) d),
        ngf := ngf + (l.filter (fun f => decide (Touches part r f.1 ∧ Ghost part f.1))).length } := by
  intro l
  induction l with
  | nil => intro done n ngf _ _; simp
  | cons f l ih =>
    intro done n ngf hl hn
    obtain ⟨hL, hR⟩ := hl f (by simp)
    have hl' : ∀ f ∈ l, f.1.elemL < part.length ∧ f.1.elemR < part.length :=
      fun g hg => hl g (by simp [hg])
    rw [List.foldlM_cons]
    have eL : part[f.1.elemL]? = some (part.getD f.1.elemL 0) := by
      simp [List.getD_eq_getElem?_getD, hL]
    have eR : part[f.1.elemR]? = some (part.getD f.1.elemR 0) := by
      simp [List.getD_eq_getElem?_getD, hR]
    have hT : Touches part r f.1 ↔ r = part.getD f.1.elemL 0 ∨ r = part.getD f.1.elemR 0 := by
      unfold Touches; rw [eL, eR]; simp only [Option.some.injEq]; tauto
    have hG : Ghost part f.1 ↔ part.getD f.1.elemL 0 ≠ part.getD f.1.elemR 0 := by
      unfold Ghost; rw [eL, eR]; simp
    unfold storeFace
    simp only [eL, eR, Option.bind_eq_bind, Option.bind_some]
    by_cases ht : Touches part r f.1
    · rw [if_pos (hT.1 ht)]
      simp only [List.filter_cons, ht, decide_true, if_true, List.map_cons, true_and] at hn ⊢
      obtain ⟨k, rfl⟩ : ∃ k, n = k + 1 := ⟨n - 1, by simp at hn; omega⟩
      rw [pushB_prefix]
      simp only [Option.bind_some]
      have := ih (done ++ [(f.2, faceRow l2gE (part.getD f.1.elemL 0) (part.getD f.1.elemR 0) f.1)])
        k (if part.getD f.1.elemL 0 ≠ part.getD f.1.elemR 0 then ngf + 1 else ngf) hl'
        (by simpa using hn)
      unfold storeFace at this
      simp only [Option.bind_eq_bind] at this
      rw [this]
      congr 1
      simp only [List.append_assoc, List.singleton_append, List.length_cons, Nat.add_sub_add_right,
        FaceStore.mk.injEq, true_and]
      by_cases hg : Ghost part f.1
      · rw [if_pos (hG.1 hg)]
        simp only [hg, decide_true, if_true, List.length_cons]; omega
      · have : part.getD f.1.elemL 0 = part.getD f.1.elemR 0 := by
          by_contra h; exact hg (hG.2 h)
        rw [if_neg (not_not.2 this)]
        simp only [hg, decide_false, Bool.false_eq_true, if_false]
    · rw [if_neg (fun h => ht (hT.2 h))]
      simp only [List.filter_cons, ht, decide_false, Bool.false_eq_true, if_false, false_and] at hn ⊢
      simp only [Option.bind_some]
      have := ih done n ngf hl' hn
      unfold storeFace at this
      simp only [Option.bind_eq_bind] at this
      rw [this]

theorem mem_zipIdx_lt {β : Type _} {l : List β} {x : β × ℕ} (h : x ∈ l.zipIdx) :
    l[x.2]? = some x.1 := by
  obtain ⟨a, i⟩ := x
  rw [List.mem_zipIdx_iff_getElem?] at h
  exact h

theorem zipIdx_snd_sorted {β : Type _} (l : List β) :
    (l.zipIdx.map Prod.snd).Pairwise (· < ·) := by
  rw [List.zipIdx_map_snd]
  exact List.pairwise_lt_range'

theorem myFaces_sorted (part : List ℕ) (r : ℕ) (faces : List IFace) :
    ((myFaces part r faces).map Prod.snd).Pairwise (· < ·) :=
  List.Pairwise.sublist (List.Sublist.map _ List.filter_sublist) (zipIdx_snd_sorted faces)

theorem nodup_of_lt {l : List ℕ} (h : l.Pairwise (· < ·)) : l.Nodup :=
  List.Pairwise.imp (fun h => Nat.ne_of_lt h) h

/-- In a list of pairs with distinct second components, searching a second component finds its
pair. -/
theorem getElem?_idxOf_snd {β : Type _} (l : List (β × ℕ)) (hn : (l.map Prod.snd).Nodup)
    {x : β × ℕ} (hx : x ∈ l) : l[(l.map Prod.snd).idxOf x.2]? = some x := by
  obtain ⟨k, hk, rfl⟩ := List.getElem_of_mem hx
  have : (l.map Prod.snd).idxOf (l[k].2) = k := by
    have h1 : (l.map Prod.snd)[k]'(by simpa using hk) = l[k].2 := by simp
    rw [← h1]
    exact List.Nodup.idxOf_getElem hn k (by simpa using hk)
  rw [this, List.getElem?_eq_getElem hk]

end DG
