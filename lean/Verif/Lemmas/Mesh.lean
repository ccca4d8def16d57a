import Verif.Model.Mesh
import Verif.Lemmas.Arr
import Mathlib.Data.List.Sort
import Mathlib.Data.List.Induction
import Mathlib.Data.List.Nodup
import Mathlib.Tactic.Common
import Mathlib.Tactic.Ring
import Mathlib.Tactic.Linarith

/-! Closed forms of the loops of `Mesh::partition`. -/
namespace DG

variable {α : Type _}

/-! ### lookups -/

theorem searchLocal_go (g : ℕ) : ∀ (l : List ℕ) (i : ℕ),
    searchLocal.go g i l = if g ∈ l then i + l.idxOf g else UINT_MAX := by
  intro l
  induction l with
  | nil => intro i; simp [searchLocal.go]
  | cons x xs ih =>
    intro i
    rw [searchLocal.go]
    by_cases hx : x = g
    · subst hx; simp
    · rw [if_neg hx, ih]
      have : g ≠ x := fun h => hx h.symm
      simp only [List.mem_cons, this, false_or]
      rw [List.idxOf_cons_ne _ hx]
      split <;> simp_all; omega

theorem searchLocal_eq (g : ℕ) (l : List ℕ) :
    searchLocal g l = if g ∈ l then l.idxOf g else UINT_MAX := by
  rw [searchLocal, searchLocal_go]; simp

theorem nbrIndex_go (s : ℕ) : ∀ (l : List ℕ) (i : ℕ),
    nbrIndex.go s i l = if s ∈ l then some (i + l.idxOf s) else none := by
  intro l
  induction l with
  | nil => intro i; simp [nbrIndex.go]
  | cons x xs ih =>
    intro i
    rw [nbrIndex.go]
    by_cases hx : x = s
    · subst hx; simp
    · rw [if_neg hx, ih]
      have : s ≠ x := fun h => hx h.symm
      simp only [List.mem_cons, this, false_or]
      rw [List.idxOf_cons_ne _ hx]
      split <;> simp_all; omega

theorem nbrIndex_eq (s : ℕ) (l : List ℕ) :
    nbrIndex l s = if s ∈ l then some (l.idxOf s) else none := by
  rw [nbrIndex, nbrIndex_go]; simp

/-! ### the node set -/

theorem mem_setInsert (x y : ℕ) (l : List ℕ) : y ∈ setInsert x l ↔ y = x ∨ y ∈ l := by
  induction l with
  | nil => simp [setInsert]
  | cons a as ih =>
    rw [setInsert]
    split
    · simp
    · split
      · rename_i h1 h2; subst h2; simp
      · simp [ih]; tauto

theorem setInsert_sorted (x : ℕ) (l : List ℕ) (h : l.Pairwise (· < ·)) :
    (setInsert x l).Pairwise (· < ·) := by
  induction l with
  | nil => simp [setInsert]
  | cons a as ih =>
    rw [List.pairwise_cons] at h
    rw [setInsert]
    split
    · rename_i hlt
      rw [List.pairwise_cons]
      refine ⟨?_, List.pairwise_cons.2 h⟩
      intro y hy
      rcases List.mem_cons.1 hy with rfl | hy
      · exact hlt
      · exact lt_trans hlt (h.1 y hy)
    · split
      · exact List.pairwise_cons.2 h
      · rw [List.pairwise_cons]
        refine ⟨?_, ih h.2⟩
        intro y hy
        rcases (mem_setInsert x y as).1 hy with rfl | hy
        · omega
        · exact h.1 y hy

theorem nodeSetElem_spec (eind : List ℕ) (npe i : ℕ) (hb : (i + 1) * npe ≤ eind.length) :
    ∀ (k : ℕ), k ≤ npe → ∀ (s : List ℕ), s.Pairwise (· < ·) →
    ∃ s', (List.range k).foldlM (fun s j =>
        match eind[i * npe + j]? with
        | some g => some (setInsert g s)
        | none => none) s = some s' ∧ s'.Pairwise (· < ·) ∧
      ∀ g, g ∈ s' ↔ g ∈ s ∨ ∃ j < k, eind[i * npe + j]? = some g := by
  intro k
  induction k with
  | zero => intro _ s hs; exact ⟨s, rfl, hs, by simp⟩
  | succ k ih =>
    intro hk s hs
    obtain ⟨s', h1, h2, h3⟩ := ih (by omega) s hs
    have hlt : i * npe + k < eind.length := by
      have : (i + 1) * npe = i * npe + npe := by ring
      omega
    refine ⟨setInsert (eind[i * npe + k]) s', ?_, setInsert_sorted _ _ h2, ?_⟩
    · rw [List.range_succ, List.foldlM_append, h1]
      simp [hlt]
    · intro g
      rw [mem_setInsert, h3]
      constructor
      · rintro (rfl | h | ⟨j, hj, he⟩)
        · exact Or.inr ⟨k, by omega, by simp [hlt]⟩
        · exact Or.inl h
        · exact Or.inr ⟨j, by omega, he⟩
      · rintro (h | ⟨j, hj, he⟩)
        · exact Or.inr (Or.inl h)
        · by_cases hjk : j = k
          · subst hjk; left; rw [List.getElem?_eq_getElem hlt] at he; exact (Option.some.inj he).symm
          · exact Or.inr (Or.inr ⟨j, by omega, he⟩)

theorem nodeSet_spec (m : GMesh α) (part : List ℕ) (r : ℕ)
    (hp : part.length = m.numElems) (he : m.eind.length = m.numElems * m.npe) :
    ∃ s, nodeSet m part r = some s ∧ s.Pairwise (· < ·) ∧
      ∀ g, g ∈ s ↔ ∃ e < m.numElems, part[e]? = some r ∧
        ∃ j < m.npe, m.eind[e * m.npe + j]? = some g := by
  unfold nodeSet
  have key : ∀ k ≤ m.numElems, ∃ s, (List.range k).foldlM (fun s i =>
      match part[i]? with
      | some p => if r = p then nodeSetElem m.eind m.npe i s else some s
      | none => none) [] = some s ∧ s.Pairwise (· < ·) ∧
      ∀ g, g ∈ s ↔ ∃ e < k, part[e]? = some r ∧
        ∃ j < m.npe, m.eind[e * m.npe + j]? = some g := by
    intro k
    induction k with
    | zero => intro _; exact ⟨[], rfl, List.Pairwise.nil, by simp⟩
    | succ k ih =>
      intro hk
      obtain ⟨s, h1, h2, h3⟩ := ih (by omega)
      have hkl : k < part.length := by omega
      have hb : (k + 1) * m.npe ≤ m.eind.length := by
        rw [he]; exact Nat.mul_le_mul_right _ hk
      rw [List.range_succ, List.foldlM_append, h1]
      simp only [List.foldlM_cons, List.foldlM_nil, List.getElem?_eq_getElem hkl]
      by_cases hr : r = part[k]
      · obtain ⟨s', g1, g2, g3⟩ := nodeSetElem_spec m.eind m.npe k hb m.npe le_rfl s h2
        refine ⟨s', ?_, g2, ?_⟩
        · show (some s >>= fun s => _) = _
          simp only [hr, if_true, Option.bind_eq_bind, Option.bind_some]
          rw [show nodeSetElem m.eind m.npe k s = some s' from g1]; rfl
        · intro g
          rw [g3, h3]
          constructor
          · rintro (⟨e, h, h'⟩ | ⟨j, hj, hh⟩)
            · exact ⟨e, by omega, h'⟩
            · exact ⟨k, by omega, by rw [List.getElem?_eq_getElem hkl, hr], j, hj, hh⟩
          · rintro ⟨e, h, h', j, hj, hh⟩
            by_cases hek : e = k
            · subst hek; exact Or.inr ⟨j, hj, hh⟩
            · exact Or.inl ⟨e, by omega, h', j, hj, hh⟩
      · refine ⟨s, ?_, h2, ?_⟩
        · show (some s >>= fun s => _) = _
          simp [hr]
        · intro g
          rw [h3]
          constructor
          · rintro ⟨e, h, h'⟩; exact ⟨e, by omega, h'⟩
          · rintro ⟨e, h, h', hj⟩
            by_cases hek : e = k
            · subst hek; rw [List.getElem?_eq_getElem hkl] at h'
              exact absurd (Option.some.inj h').symm hr
            · exact ⟨e, by omega, h', hj⟩
  exact key _ le_rfl

/-! ### elements -/

theorem countElems_spec (nparts : ℕ) (part : List ℕ) (h : ∀ p ∈ part, p < nparts) :
    countElems nparts part = some ((List.range nparts).map (fun i => part.count i)) := by
  rw [countElems, foldlM_bumpB nparts part _ (by simp) h]
  congr 1
  apply List.map_congr_left
  intro i hi
  simp only [List.mem_range] at hi
  simp [List.getD_eq_getElem?_getD, hi]

/-- elements of rank `r` among the first `n`, in global order -/
def ownedElems (part : List ℕ) (n r : ℕ) : List ℕ :=
  (List.range n).filter (fun e => decide (part[e]? = some r))

theorem count_eq_owned (part : List ℕ) (r : ℕ) :
    part.count r = (ownedElems part part.length r).length := by
  unfold ownedElems
  induction part using List.reverseRecOn with
  | nil => simp
  | append_singleton l a ih =>
    rw [List.count_append, ih]
    rw [List.length_append, List.length_singleton, List.range_succ, List.filter_append,
      List.length_append]
    congr 1
    · congr 1
      apply List.filter_congr
      intro x hx
      simp only [List.mem_range] at hx
      rw [List.getElem?_append_left hx]
    · rw [List.count_singleton]
      simp [List.filter_cons]
      split <;> simp

theorem elemNodes_spec (eind : List ℕ) (npe i : ℕ) (nodes : List ℕ)
    (hb : (i + 1) * npe ≤ eind.length) :
    elemNodes eind npe nodes i
      = some ((List.range npe).map (fun j => nodes.idxOf (eind.getD (i * npe + j) 0))) := by
  unfold elemNodes
  have : ∀ k ≤ npe, (List.range k).mapM (fun j =>
      match eind[i * npe + j]? with
      | some g => some (nodes.idxOf g)
      | none => none)
      = some ((List.range k).map (fun j => nodes.idxOf (eind.getD (i * npe + j) 0))) := by
    intro k
    induction k with
    | zero => intro _; rfl
    | succ k ih =>
      intro hk
      have hlt : i * npe + k < eind.length := by
        have : (i + 1) * npe = i * npe + npe := by ring
        omega
      rw [List.range_succ, List.mapM_append, ih (by omega)]
      simp [hlt]
  exact this _ le_rfl

theorem storeElems_spec (m : GMesh α) (part : List ℕ) (r : ℕ) (nodes : List ℕ)
    (hp : part.length = m.numElems) (he : m.eind.length = m.numElems * m.npe) :
    storeElems m part r (part.count r) nodes
      = some (part.count r, (ownedElems part m.numElems r).map (fun i => (i,
          (List.range m.npe).map (fun j => nodes.idxOf (m.eind.getD (i * m.npe + j) 0))))) := by
  unfold storeElems
  rw [foldlM_congr (g := fun st i => if part[i]? = some r then pushB st (i,
          (List.range m.npe).map (fun j => nodes.idxOf (m.eind.getD (i * m.npe + j) 0)))
          else some st)]
  · rw [foldlM_pushB (fun i => part[i]? = some r)]
    · rfl
    · rw [count_eq_owned, hp]; rfl
  · intro st i hi
    simp only [List.mem_range] at hi
    have hil : i < part.length := by omega
    rw [List.getElem?_eq_getElem hil]
    have hb : (i + 1) * m.npe ≤ m.eind.length := by
      rw [he]; exact Nat.mul_le_mul_right _ hi
    simp only [elemNodes_spec _ _ _ _ hb, Option.some.injEq, eq_comm (a := r)]

theorem storeCoords_spec (m : GMesh α) (nodes : List ℕ) (h : ∀ g ∈ nodes, g < m.coord.length) :
    ∃ cs : List (List α), storeCoords m nodes = some cs ∧ cs.length = nodes.length ∧
      ∀ i g : ℕ, nodes[i]? = some g → cs[i]? = m.coord[g]? := by
  unfold storeCoords
  induction nodes with
  | nil => exact ⟨[], rfl, rfl, by simp⟩
  | cons a as ih =>
    obtain ⟨cs, h1, h2, h3⟩ := ih (fun g hg => h g (by simp [hg]))
    have ha : a < m.coord.length := h a (by simp)
    refine ⟨m.coord[a] :: cs, ?_, by simp [h2], ?_⟩
    · simp [List.mapM_cons, h1, ha]
    · intro i g hi
      cases i with
      | zero => simp only [List.getElem?_cons_zero, Option.some.injEq] at hi ⊢; subst hi; simp [ha]
      | succ i => simpa using h3 i g (by simpa using hi)

end DG
