import Verif.Spec.Refusal
import Mathlib.Data.Finset.Max
import Mathlib.Algebra.Order.BigOperators.Group.Finset

/-!
Invariants of reading.
-/
namespace DG.Cut

variable {sync : Bool} {n : ℕ} {P : List Rd} {c : Ranks}

/-- where the ranks are, and which calls they have passed -/
structure RInv (P : List Rd) (c : Ranks) : Prop where
  le : ∀ r, c.pc r ≤ P.length
  all : ∀ r i, i < c.pc r → P[i]? ≠ some (.all false)
  head : ∀ i, i < c.pc 0 → P[i]? ≠ some (.head false)
  coll : ∀ r i, i < c.pc r → P[i]? = some .fromHead → i ≤ c.pc 0
  dead : ∀ r, c.dead r = true → P[c.pc r]? = some (.all false) ∨ (r = 0 ∧ P[c.pc r]? = some (.head false))

theorem lt_of_get {e : Rd} {i : ℕ} (h : P[i]? = some e) : i < P.length := by
  obtain ⟨h1, -⟩ := List.getElem?_eq_some_iff.mp h
  exact h1

/-- one rank goes on -/
theorem RInv.move (I : RInv P c) {r : ℕ} {e : Rd} (he : P[c.pc r]? = some e) (hd : c.dead r = false) (h1 : e ≠ .all false)
    (h2 : r = 0 → e ≠ .head false) (h3 : e = .fromHead → c.pc r ≤ c.pc 0) : RInv P ⟨Function.update c.pc r (c.pc r + 1), c.dead⟩ := by
  have hlt := lt_of_get he
  have hmono : c.pc 0 ≤ Function.update c.pc r (c.pc r + 1) 0 := by
    rw [Function.update_apply]
    split_ifs with h
    · subst h; omega
    · exact le_rfl
  refine ⟨?_, ?_, ?_, ?_, ?_⟩
  · intro q
    simp only [Function.update_apply]
    split_ifs
    · exact hlt
    · exact I.le q
  · intro q i hi
    simp only [Function.update_apply] at hi
    split_ifs at hi with h
    · rcases Nat.lt_or_ge i (c.pc r) with h4 | h4
      · exact I.all r i h4
      · have : i = c.pc r := by omega
        subst this
        rw [he]
        simpa using h1
    · exact I.all q i hi
  · intro i hi
    simp only [Function.update_apply] at hi
    split_ifs at hi with h
    · subst h
      rcases Nat.lt_or_ge i (c.pc 0) with h4 | h4
      · exact I.head i h4
      · have : i = c.pc 0 := by omega
        subst this
        rw [he]
        simpa using h2 rfl
    · exact I.head i hi
  · intro q i hi hf
    refine le_trans ?_ hmono
    simp only [Function.update_apply] at hi
    split_ifs at hi with h
    · rcases Nat.lt_or_ge i (c.pc r) with h4 | h4
      · exact I.coll r i h4 hf
      · have : i = c.pc r := by omega
        subst this
        rw [he, Option.some.injEq] at hf
        exact h3 hf
    · exact I.coll q i hi hf
  · intro q hq
    have hne : q ≠ r := by
      rintro rfl
      rw [hd] at hq
      simp at hq
    simp only [Function.update_of_ne hne]
    exact I.dead q hq

theorem rinv (h : RReach sync n P c) : RInv P c := by
  induction h with
  | refl => exact ⟨by simp, by simp, by simp, by simp, by simp⟩
  | @tail c _ _ hs I =>
    cases hs with
    | good r hr ha he =>
      rcases he with he | he | ⟨h0, he⟩
      · exact I.move he ha (by simp) (by simp) (by simp)
      · exact I.move he ha (by simp) (by simp) (by simp)
      · exact I.move he ha (by simp) (fun h => absurd h h0) (by simp)
    | bad r hr ha he =>
      refine ⟨I.le, I.all, I.head, I.coll, ?_⟩
      intro q hq
      simp only [Function.update_apply] at hq
      split_ifs at hq with h
      · subst h; exact he
      · exact I.dead q hq
    | coll r hr ha he hm => exact I.move he ha (by simp) (by simp) (fun _ => hm.1)

/-- if nothing more happens, a rank that has calls left is behind another one in a broadcast, or the head rank is behind -/
theorem stuck_rank (hs : Stuck sync n P c) {r : ℕ} (hr : r < n) (ha : c.dead r = false) (hlt : c.pc r < P.length) :
    P[c.pc r]? = some .fromHead ∧ ¬ MayGo sync n c.pc r := by
  have he := List.getElem?_eq_getElem hlt
  cases hx : P[c.pc r] with
  | all b =>
    rw [hx] at he
    cases b with
    | true => exact absurd (RStep.good c r hr ha (Or.inl he)) (hs _)
    | false => exact absurd (RStep.bad c r hr ha (Or.inl he)) (hs _)
  | head b =>
    rw [hx] at he
    cases b with
    | true => exact absurd (RStep.good c r hr ha (Or.inr (Or.inl he))) (hs _)
    | false =>
      by_cases h0 : r = 0
      · exact absurd (RStep.bad c r hr ha (Or.inr ⟨h0, he⟩)) (hs _)
      · exact absurd (RStep.good c r hr ha (Or.inr (Or.inr ⟨h0, he⟩))) (hs _)
  | fromHead =>
    rw [hx] at he
    exact ⟨he, fun hm => hs _ (RStep.coll c r hr ha he hm)⟩

/-- if nothing more happens, a living rank is not behind all others unless it is done -/
theorem stuck_min (hs : Stuck sync n P c) (I : RInv P c) {r : ℕ} (hr : r < n) (ha : c.dead r = false)
    (hmin : ∀ q < n, c.pc r ≤ c.pc q) : c.pc r = P.length := by
  by_contra hne
  have hlt : c.pc r < P.length := lt_of_le_of_ne (I.le r) hne
  exact (stuck_rank hs hr ha hlt).2 ⟨hmin 0 (by omega), fun _ => hmin⟩

theorem exists_min (hn : 0 < n) (f : ℕ → ℕ) : ∃ r < n, ∀ q < n, f r ≤ f q := by
  obtain ⟨r, hr, hmin⟩ := Finset.exists_min_image (Finset.range n) f ⟨0, Finset.mem_range.mpr hn⟩
  exact ⟨r, Finset.mem_range.mp hr, fun q hq => hmin q (Finset.mem_range.mpr hq)⟩

theorem finish_of_ok (hP : ∀ e ∈ P, e.ok = true) : AllFinish sync n P := by
  intro c hc hs r hr
  have I := rinv hc
  have hbad : ∀ i (b : Rd), P[i]? = some b → b.ok = true := fun i b h => hP b (List.mem_of_getElem? h)
  have hdead : ∀ q, c.dead q = false := by
    intro q
    by_contra hq
    rcases I.dead q (by simpa using hq) with h | ⟨-, h⟩
    · have := hbad _ _ h; simp [Rd.ok] at this
    · have := hbad _ _ h; simp [Rd.ok] at this
  obtain ⟨m, hm, hmin⟩ := exists_min (n := n) (by omega) c.pc
  have h1 := stuck_min hs I hm (hdead m) hmin
  have h2 := hmin r hr
  have h3 := I.le r
  exact ⟨hdead r, by omega⟩

theorem exit_of_all {k : ℕ} (hk : FirstBad P k (.all false)) : AllExit sync n P := by
  obtain ⟨h1, -, hpre⟩ := hk
  intro c hc hs r hr
  have I := rinv hc
  have hle : ∀ q, c.pc q ≤ k := by
    intro q
    by_contra hcon
    exact I.all q k (by omega) h1
  have hdead : ∀ q, c.dead q = true → c.pc q = k := by
    intro q hq
    by_contra hne
    have hlt : c.pc q < k := lt_of_le_of_ne (hle q) hne
    rcases I.dead q hq with h | ⟨-, h⟩
    · have := hpre _ hlt _ h; simp [Rd.ok] at this
    · have := hpre _ hlt _ h; simp [Rd.ok] at this
  by_contra hr'
  have ha : c.dead r = false := by simpa using hr'
  obtain ⟨m, hm, hmin⟩ := exists_min (n := n) (by omega) c.pc
  have hkl := lt_of_get h1
  -- a living rank that is behind all others
  have hx : ∃ q < n, c.dead q = false ∧ ∀ p < n, c.pc q ≤ c.pc p := by
    by_cases hdm : c.dead m = true
    · refine ⟨r, hr, ha, fun p hp => ?_⟩
      have := hdead m hdm
      have h2 := hmin r hr
      have h3 := hmin p hp
      have h4 := hle r
      omega
    · exact ⟨m, hm, by simpa using hdm, hmin⟩
  obtain ⟨q, hq, hqa, hqm⟩ := hx
  have := stuck_min hs I hq hqa hqm
  have := hle q
  omega

theorem hang_of_head {k j : ℕ} (hk : FirstBad P k (.head false)) (hkj : k < j) (hj : P[j]? = some .fromHead)
    (hbet : ∀ i, k < i → i < j → ∃ b, P[i]? = some (.head b)) (hn : 0 < n) : Hangs sync n P := by
  obtain ⟨h1, -, hpre⟩ := hk
  intro c hc hs
  have I := rinv hc
  have hjl := lt_of_get hj
  have hle0 : c.pc 0 ≤ k := by
    by_contra hcon
    exact I.head k (by omega) h1
  have hle : ∀ q, c.pc q ≤ j := by
    intro q
    by_contra hcon
    have := I.coll q j (by omega) hj
    omega
  have hnoall : ∀ i, i < j → P[i]? ≠ some (.all false) := by
    intro i hi h
    rcases Nat.lt_trichotomy i k with h2 | h2 | h2
    · have := hpre i h2 _ h; simp [Rd.ok] at this
    · subst h2; rw [h1] at h; simp at h
    · obtain ⟨b, hb⟩ := hbet i h2 hi
      rw [hb] at h; simp at h
  have hdead : ∀ q, c.dead q = true → q = 0 ∧ c.pc 0 = k := by
    intro q hq
    rcases I.dead q hq with h | ⟨h0, h⟩
    · exfalso
      rcases Nat.lt_or_ge (c.pc q) j with h2 | h2
      · exact hnoall _ h2 h
      · have : c.pc q = j := le_antisymm (hle q) h2
        rw [this, hj] at h; simp at h
    · subst h0
      refine ⟨rfl, ?_⟩
      by_contra hne
      have := hpre _ (lt_of_le_of_ne hle0 hne) _ h
      simp [Rd.ok] at this
  -- a living rank is in a broadcast
  have hwait : ∀ q < n, c.dead q = false → P[c.pc q]? = some .fromHead ∧ ¬ MayGo sync n c.pc q := fun q hq ha =>
    stuck_rank hs hq ha (by have := hle q; omega)
  have hd0 : c.dead 0 = true := by
    by_contra hcon
    have ha : c.dead 0 = false := by simpa using hcon
    have hlive : ∀ q, c.dead q = false := by
      intro q
      by_contra hq
      have := (hdead q (by simpa using hq)).1
      subst this
      exact hq ha
    obtain ⟨m, hm, hmin⟩ := exists_min hn c.pc
    have := stuck_min hs I hm (hlive m) hmin
    have := hle m
    omega
  have hk0 := (hdead 0 hd0).2
  refine ⟨hd0, fun r hr hr0 => ?_⟩
  have ha : c.dead r = false := by
    by_contra hcon
    exact hr0 (hdead r (by simpa using hcon)).1
  exact ⟨ha, (hwait r hr ha).1⟩

theorem no_infinite (f : ℕ → Ranks) (h0 : f 0 = ⟨fun _ => 0, fun _ => false⟩) : ¬ ∀ k, RStep sync n P (f k) (f (k + 1)) := by
  intro hs
  have hreach : ∀ k, RReach sync n P (f k) := by
    intro k
    induction k with
    | zero => rw [h0]; exact Relation.ReflTransGen.refl
    | succ k ih => exact ih.tail (hs k)
  -- every call and every end counts
  have hone : ∀ c c', RStep sync n P c c' → ∑ r ∈ Finset.range n, (c'.pc r + (c'.dead r).toNat) =
      ∑ r ∈ Finset.range n, (c.pc r + (c.dead r).toNat) + 1 := by
    intro c c' h
    have aux : ∀ r < n, ∀ g : ℕ → ℕ, g r = c.pc r + (c.dead r).toNat + 1 → (∀ q, q ≠ r → g q = c.pc q + (c.dead q).toNat) →
        ∑ q ∈ Finset.range n, g q = ∑ q ∈ Finset.range n, (c.pc q + (c.dead q).toNat) + 1 := by
      intro r hr g h1 h2
      have hmem := Finset.mem_range.mpr hr
      rw [← Finset.add_sum_erase _ _ hmem, ← Finset.add_sum_erase _ (fun q => c.pc q + (c.dead q).toNat) hmem, h1,
        Finset.sum_congr rfl fun q hq => h2 q (Finset.ne_of_mem_erase hq)]
      omega
    cases h with
    | good r hr ha he =>
      exact aux r hr _ (by simp [ha]) (fun q hq => by simp [Function.update_of_ne hq])
    | bad r hr ha he =>
      exact aux r hr _ (by simp [ha]) (fun q hq => by simp [Function.update_of_ne hq])
    | coll r hr ha he hm =>
      exact aux r hr _ (by simp [ha]) (fun q hq => by simp [Function.update_of_ne hq])
  have hsum : ∀ k, ∑ r ∈ Finset.range n, ((f k).pc r + ((f k).dead r).toNat) = k := by
    intro k
    induction k with
    | zero => simp [h0]
    | succ k ih => rw [hone _ _ (hs k), ih]
  have hb : ∀ k, k ≤ n * (P.length + 1) := by
    intro k
    calc k = ∑ r ∈ Finset.range n, ((f k).pc r + ((f k).dead r).toNat) := (hsum k).symm
      _ ≤ ∑ _r ∈ Finset.range n, (P.length + 1) := Finset.sum_le_sum fun r _ => by
          have h1 := (rinv (hreach k)).le r
          have h2 : ((f k).dead r).toNat ≤ 1 := Bool.toNat_le _
          omega
      _ = n * (P.length + 1) := by simp
  have := hb (n * (P.length + 1) + 1)
  omega

end DG.Cut
