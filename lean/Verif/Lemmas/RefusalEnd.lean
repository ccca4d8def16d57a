import Verif.Lemmas.Refusal

/-!
How reading ends, as a function of the list of calls.
-/
namespace DG.Cut

variable {sync : Bool} {n : ℕ} {P : List Rd} {c : Ranks}

/-- calls made and ends -/
def progress (n : ℕ) (c : Ranks) : ℕ := ∑ r ∈ Finset.range n, (c.pc r + (c.dead r).toNat)

theorem progress_step {c c' : Ranks} (h : RStep sync n P c c') : progress n c' = progress n c + 1 := by
  have aux : ∀ r < n, ∀ g : ℕ → ℕ, g r = c.pc r + (c.dead r).toNat + 1 → (∀ q, q ≠ r → g q = c.pc q + (c.dead q).toNat) →
      ∑ q ∈ Finset.range n, g q = ∑ q ∈ Finset.range n, (c.pc q + (c.dead q).toNat) + 1 := by
    intro r hr g h1 h2
    have hmem := Finset.mem_range.mpr hr
    rw [← Finset.add_sum_erase _ _ hmem, ← Finset.add_sum_erase _ (fun q => c.pc q + (c.dead q).toNat) hmem, h1,
      Finset.sum_congr rfl fun q hq => h2 q (Finset.ne_of_mem_erase hq)]
    omega
  cases h with
  | good r hr ha he => exact aux r hr _ (by simp [ha]) (fun q hq => by simp [Function.update_of_ne hq])
  | bad r hr ha he => exact aux r hr _ (by simp [ha]) (fun q hq => by simp [Function.update_of_ne hq])
  | coll r hr ha he hm => exact aux r hr _ (by simp [ha]) (fun q hq => by simp [Function.update_of_ne hq])

theorem progress_le (hc : RReach sync n P c) : progress n c ≤ n * (P.length + 1) := by
  calc progress n c ≤ ∑ _r ∈ Finset.range n, (P.length + 1) := Finset.sum_le_sum fun r _ => by
        have h1 := (rinv hc).le r
        have h2 : (c.dead r).toNat ≤ 1 := Bool.toNat_le _
        omega
    _ = n * (P.length + 1) := by simp

/-- every run can be continued to its end -/
theorem exists_end (hc : RReach sync n P c) : ∃ c', Relation.ReflTransGen (RStep sync n P) c c' ∧ Stuck sync n P c' := by
  generalize hk : n * (P.length + 1) - progress n c = k
  induction k using Nat.strong_induction_on generalizing c with
  | _ k ih =>
    by_cases hs : Stuck sync n P c
    · exact ⟨c, .refl, hs⟩
    · simp only [Stuck, not_forall, not_not] at hs
      obtain ⟨c', hs⟩ := hs
      have hc' : RReach sync n P c' := hc.tail hs
      have h1 := progress_step hs
      have h2 := progress_le hc'
      obtain ⟨c'', h3, h4⟩ := ih (n * (P.length + 1) - progress n c') (by omega) hc' rfl
      exact ⟨c'', h3.head hs, h4⟩

theorem exists_end_start : ∃ c, RReach sync n P c ∧ Stuck sync n P c := exists_end (sync := sync) (n := n) (P := P) .refl

/-- all ranks get through exactly if every call finds what it asks for -/
theorem finish_iff (hn : 0 < n) : AllFinish sync n P ↔ ∀ e ∈ P, e.ok = true := by
  refine ⟨fun h => ?_, finish_of_ok⟩
  obtain ⟨c, hc, hs⟩ := @exists_end_start sync n P
  obtain ⟨-, h1⟩ := h c hc hs 0 hn
  have I := rinv hc
  intro e he
  obtain ⟨i, hi, rfl⟩ := List.mem_iff_getElem.mp he
  have h2 := I.all 0 i (by omega)
  have h3 := I.head i (by omega)
  rw [List.getElem?_eq_getElem hi] at h2 h3
  revert h2 h3
  cases P[i] with
  | all b => cases b <;> simp [Rd.ok]
  | head b => cases b <;> simp [Rd.ok]
  | fromHead => simp [Rd.ok]

theorem not_finish_exit (hn : 0 < n) : ¬ (AllFinish sync n P ∧ AllExit sync n P) := by
  rintro ⟨h1, h2⟩
  obtain ⟨c, hc, hs⟩ := @exists_end_start sync n P
  have := (h1 c hc hs 0 hn).1
  rw [h2 c hc hs 0 hn] at this
  simp at this

theorem not_finish_hang (hn : 0 < n) : ¬ (AllFinish sync n P ∧ Hangs sync n P) := by
  rintro ⟨h1, h2⟩
  obtain ⟨c, hc, hs⟩ := @exists_end_start sync n P
  have := (h1 c hc hs 0 hn).1
  rw [(h2 c hc hs).1] at this
  simp at this

theorem not_exit_hang (hn : 1 < n) : ¬ (AllExit sync n P ∧ Hangs sync n P) := by
  rintro ⟨h1, h2⟩
  obtain ⟨c, hc, hs⟩ := @exists_end_start sync n P
  have := ((h2 c hc hs).2 1 hn (by omega)).1
  rw [h1 c hc hs 1 hn] at this
  simp at this

/-- the outcomes -/
inductive End where
  | finish | exit | hang | other

/-- the outcome of a list of calls -/
def endOf : List Rd → End
  | [] => .finish
  | .all true :: l => endOf l
  | .head true :: l => endOf l
  | .fromHead :: l => endOf l
  | .all false :: _ => .exit
  | .head false :: .fromHead :: _ => .hang
  | .head false :: .head _ :: .fromHead :: _ => .hang
  | .head false :: _ => .other

theorem endOf_append_ok (A B : List Rd) (h : ∀ e ∈ A, e.ok = true) : endOf (A ++ B) = endOf B := by
  induction A with
  | nil => rfl
  | cons e A ih =>
    have h1 := h e (by simp)
    have h2 := ih fun e he => h e (by simp [he])
    cases e with
    | all b => cases b with
      | true => simpa [endOf] using h2
      | false => simp [Rd.ok] at h1
    | head b => cases b with
      | true => simpa [endOf] using h2
      | false => simp [Rd.ok] at h1
    | fromHead => simpa [endOf] using h2

theorem endOf_split (P : List Rd) : (∀ e ∈ P, e.ok = true) ∨ ∃ A e B, P = A ++ e :: B ∧ (∀ x ∈ A, x.ok = true) ∧ e.ok = false := by
  induction P with
  | nil => simp
  | cons e P ih =>
    cases he : e.ok with
    | false => exact Or.inr ⟨[], e, P, rfl, by simp, he⟩
    | true =>
      rcases ih with h | ⟨A, e', B, h1, h2, h3⟩
      · exact Or.inl (by simpa [he] using h)
      · exact Or.inr ⟨e :: A, e', B, by simp [h1], by simpa [he] using h2, h3⟩

theorem firstBad_split {A B : List Rd} {e : Rd} (hA : ∀ x ∈ A, x.ok = true) (he : e.ok = false) :
    FirstBad (A ++ e :: B) A.length e := by
  refine ⟨by simp, he, ?_⟩
  intro i hi x hx
  rw [List.getElem?_append_left hi] at hx
  exact hA x (List.mem_of_getElem? hx)

theorem exit_of_endOf (h : endOf P = .exit) : AllExit sync n P := by
  rcases endOf_split P with h1 | ⟨A, e, B, rfl, h2, h3⟩
  · have := endOf_append_ok P [] h1
    rw [List.append_nil, h] at this
    simp [endOf] at this
  · rw [endOf_append_ok A _ h2] at h
    cases e with
    | all b => cases b with
      | true => simp [Rd.ok] at h3
      | false => exact exit_of_all (firstBad_split h2 rfl)
    | fromHead => simp [Rd.ok] at h3
    | head b => cases b with
      | true => simp [Rd.ok] at h3
      | false =>
        exfalso
        match B, h with
        | [], h => simp [endOf] at h
        | .fromHead :: _, h => simp [endOf] at h
        | .all _ :: _, h => simp [endOf] at h
        | [.head _], h => simp [endOf] at h
        | .head _ :: .fromHead :: _, h => simp [endOf] at h
        | .head _ :: .all _ :: _, h => simp [endOf] at h
        | .head _ :: .head _ :: _, h => simp [endOf] at h

theorem hang_of_endOf (hn : 0 < n) (h : endOf P = .hang) : Hangs sync n P := by
  rcases endOf_split P with h1 | ⟨A, e, B, rfl, h2, h3⟩
  · have := endOf_append_ok P [] h1
    rw [List.append_nil, h] at this
    simp [endOf] at this
  · rw [endOf_append_ok A _ h2] at h
    cases e with
    | all b => cases b with
      | true => simp [Rd.ok] at h3
      | false => simp [endOf] at h
    | fromHead => simp [Rd.ok] at h3
    | head b => cases b with
      | true => simp [Rd.ok] at h3
      | false =>
        match B, h with
        | [], h => simp [endOf] at h
        | .fromHead :: B, _ =>
          exact hang_of_head (j := A.length + 1) (firstBad_split h2 rfl) (by omega) (by simp) (fun i h1 h2 => by omega) hn
        | .all _ :: _, h => simp [endOf] at h
        | [.head _], h => simp [endOf] at h
        | .head b :: .fromHead :: _, _ =>
          exact hang_of_head (j := A.length + 2) (firstBad_split h2 rfl) (by omega) (by simp) (fun i h1 h2 => by
            have : i = A.length + 1 := by omega
            subst this
            exact ⟨b, by simp⟩) hn
        | .head _ :: .all _ :: _, h => simp [endOf] at h
        | .head _ :: .head _ :: _, h => simp [endOf] at h

end DG.Cut
