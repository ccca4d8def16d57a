import Verif.Model.Shape
import Verif.Lemmas.Loops
import Mathlib.Tactic.Ring
import Mathlib.Tactic.Linarith
import Mathlib.Tactic.LinearCombination

/-! Closed forms of the point reorderings. -/
namespace DG

theorem fillRun_spec (npts : ℕ) (step : ℤ → ℤ) (f : ℕ → ℤ) (a : List ℤ) (h : a.length = npts)
    (hs : ∀ i, i + 1 < npts → step (f i) = f (i + 1)) :
    fillRun npts step (f 0) a = some ((List.range npts).map f) := by
  unfold fillRun
  cases npts with
  | zero => cases a with
    | nil => rfl
    | cons _ _ => simp at h
  | succ m =>
    rw [List.range_succ, List.foldlM_append]
    have := foldlM_range_state
      (fun (st : ℤ × List ℤ) i => (setB st.2 i st.1).map fun a => (step st.1, a))
      (fun i => (f i, fillTo f i a)) m (by
        intro i hi
        show (setB (fillTo f i a) i (f i)).map _ = _
        rw [setB_fillTo f i a (by omega)]
        simp [hs i (by omega)])
    rw [fillTo_zero] at this
    rw [this]
    simp only [Option.bind_eq_bind, Option.bind_some, List.foldlM_cons, List.foldlM_nil]
    rw [setB_fillTo f m a (by omega)]
    simp only [Option.map_some, Option.bind_some]
    rw [fillTo_full f (m + 1) a h, List.range_succ]
    rfl

theorem fillRows_spec (n : ℕ) (inner outer : ℤ) (f : ℕ → ℤ) (a : List ℤ) (h : a.length = n * n)
    (g : ℕ → ℕ → ℤ) (hg : ∀ r < n, ∀ c < n, f (r * n + c) = g r c)
    (hin : ∀ r c, g r c + inner = g r (c + 1)) (hout : ∀ r, g r n + outer = g (r + 1) 0) :
    fillRows n inner outer (g 0 0) a = some ((List.range (n * n)).map f) := by
  unfold fillRows
  have hrow : ∀ r < n, (List.range n).foldlM
        (fun (st : ℤ × ℕ × List ℤ) _ =>
          (setB st.2.2 st.2.1 st.1).map fun a => (st.1 + inner, st.2.1 + 1, a))
        (g r 0, r * n, fillTo f (r * n) a) = some (g r n, r * n + n, fillTo f (r * n + n) a) := by
    intro r hr
    refine foldlM_range_state
        (fun (st : ℤ × ℕ × List ℤ) (_ : ℕ) =>
          (setB st.2.2 st.2.1 st.1).map fun a => (st.1 + inner, st.2.1 + 1, a))
        (fun c => (g r c, r * n + c, fillTo f (r * n + c) a)) n ?_
    intro c hc
    have hlt : r * n + c < a.length := by rw [h]; nlinarith
    show (setB (fillTo f (r * n + c) a) (r * n + c) (g r c)).map _ = _
    rw [← hg r hr c hc, setB_fillTo f _ a hlt]
    simp [hg r hr c hc, hin, Nat.add_assoc]
  have := foldlM_range_state
    (fun (st : ℤ × ℕ × List ℤ) (_ : ℕ) =>
      ((List.range n).foldlM
        (fun (st : ℤ × ℕ × List ℤ) (_ : ℕ) =>
          (setB st.2.2 st.2.1 st.1).map fun a => (st.1 + inner, st.2.1 + 1, a)) st).map
        fun st => (st.1 + outer, st.2))
    (fun r => (g r 0, r * n, fillTo f (r * n) a)) n (by
      intro r hr
      rw [hrow r hr]
      simp [hout, Nat.add_mul])
  simp only [Nat.zero_mul, fillTo_zero] at this
  rw [this]
  simp only [Option.map_some]
  rw [fillTo_full f _ a h]

/-- the position (row, column) in orientation 0 of the point at row `r`, column `c` of
orientation `o`, on an `n × n` face -/
def dihedral (n : ℕ) (o r c : ℕ) : ℕ × ℕ :=
  match o with
  | 0 => (r, c)
  | 1 => (c, n - 1 - r)
  | 2 => (n - 1 - r, n - 1 - c)
  | 3 => (n - 1 - c, r)
  | 4 => (c, r)
  | 5 => (r, n - 1 - c)
  | 6 => (n - 1 - c, n - 1 - r)
  | _ => (n - 1 - r, c)

/-- the same as an index -/
def dihIdx (n o i : ℕ) : ℕ :=
  (dihedral n o (i / n) (i % n)).1 * n + (dihedral n o (i / n) (i % n)).2

theorem dihedral_lt {n o r c : ℕ} (hr : r < n) (hc : c < n) :
    (dihedral n o r c).1 < n ∧ (dihedral n o r c).2 < n := by
  unfold dihedral
  split <;> constructor <;> simp only [] <;> omega

theorem dihedral_inj {n o r c r' c' : ℕ} (hr : r < n) (hc : c < n) (hr' : r' < n) (hc' : c' < n)
    (h : dihedral n o r c = dihedral n o r' c') : r = r' ∧ c = c' := by
  unfold dihedral at h
  split at h <;> simp only [Prod.mk.injEq] at h <;> omega

theorem pair_inj {n a b a' b' : ℕ} (hb : b < n) (hb' : b' < n)
    (h : a * n + b = a' * n + b') : a = a' ∧ b = b' := by
  have h1 : (a * n + b) % n = b := by rw [Nat.add_comm, Nat.add_mul_mod_self_right, Nat.mod_eq_of_lt hb]
  have h2 : (a' * n + b') % n = b' := by
    rw [Nat.add_comm, Nat.add_mul_mod_self_right, Nat.mod_eq_of_lt hb']
  have hbb : b = b' := by rw [← h1, ← h2, h]
  subst hbb
  have : a * n = a' * n := by omega
  exact ⟨Nat.eq_of_mul_eq_mul_right (by omega) this, rfl⟩

theorem div_mod_lt {n i : ℕ} (h : i < n * n) : i / n < n ∧ i % n < n := by
  have hn : 0 < n := by
    rcases Nat.eq_zero_or_pos n with h0 | h0
    · subst h0; simp at h
    · exact h0
  exact ⟨(Nat.div_lt_iff_lt_mul hn).2 h, Nat.mod_lt _ hn⟩

theorem dihIdx_lt {n o i : ℕ} (h : i < n * n) : dihIdx n o i < n * n := by
  obtain ⟨hr, hc⟩ := div_mod_lt h
  obtain ⟨h1, h2⟩ := dihedral_lt (o := o) hr hc
  unfold dihIdx
  nlinarith

theorem dihIdx_inj {n o i j : ℕ} (hi : i < n * n) (hj : j < n * n)
    (h : dihIdx n o i = dihIdx n o j) : i = j := by
  obtain ⟨hr, hc⟩ := div_mod_lt hi
  obtain ⟨hr', hc'⟩ := div_mod_lt hj
  obtain ⟨_, h2⟩ := dihedral_lt (o := o) hr hc
  obtain ⟨_, h2'⟩ := dihedral_lt (o := o) hr' hc'
  obtain ⟨e1, e2⟩ := pair_inj h2 h2' h
  obtain ⟨e3, e4⟩ := dihedral_inj hr hc hr' hc' (Prod.ext e1 e2)
  rw [← Nat.div_add_mod i n, ← Nat.div_add_mod j n, e3, e4]

theorem dihIdx_row {n o r c : ℕ} (hc : c < n) :
    dihIdx n o (r * n + c) = (dihedral n o r c).1 * n + (dihedral n o r c).2 := by
  have h1 : (r * n + c) / n = r := by
    rw [Nat.add_comm, Nat.add_mul_div_right _ _ (by omega), Nat.div_eq_of_lt hc]; simp
  have h2 : (r * n + c) % n = c := by
    rw [Nat.add_comm, Nat.add_mul_mod_self_right, Nat.mod_eq_of_lt hc]
  unfold dihIdx; rw [h1, h2]

/-- successor in row-major order -/
theorem succ_cases {n i : ℕ} (h : i + 1 < n * n) :
    ∃ r c, r < n ∧ c < n ∧ i = r * n + c ∧
      ((c + 1 < n ∧ i + 1 = r * n + (c + 1)) ∨ (c + 1 = n ∧ r + 1 < n ∧ i + 1 = (r + 1) * n + 0)) := by
  obtain ⟨hr, hc⟩ := div_mod_lt (n := n) (i := i) (by omega)
  have e : i = i / n * n + i % n := by rw [Nat.mul_comm]; exact (Nat.div_add_mod i n).symm
  refine ⟨i / n, i % n, hr, hc, e, ?_⟩
  by_cases h1 : i % n + 1 < n
  · exact Or.inl ⟨h1, by omega⟩
  · have h2 : i % n + 1 = n := by omega
    have h3 : i + 1 = (i / n + 1) * n + 0 := by rw [Nat.add_mul]; omega
    refine Or.inr ⟨h2, ?_, h3⟩
    by_contra h4
    have : n ≤ i / n + 1 := by omega
    have := Nat.mul_le_mul_right n this
    omega

theorem ptsOrderHex_closed (n o : ℕ) (hn : 0 < n) (ho : o < 8) (a : List ℤ)
    (ha : a.length = n * n) :
    ptsOrderHex o (n * n) a = some ((List.range (n * n)).map fun i => (dihIdx n o i : ℤ)) := by
  have hsq : Nat.sqrt (n * n) = n := Nat.sqrt_eq n
  have hpos : 0 < n * n := Nat.mul_pos hn hn
  have key : ∀ step : ℤ → ℤ, ∀ c0 : ℤ, c0 = (dihIdx n o 0 : ℤ) →
      (∀ r c, r < n → c + 1 < n → step (dihIdx n o (r * n + c)) = dihIdx n o (r * n + (c + 1))) →
      (∀ r c, r + 1 < n → c + 1 = n → step (dihIdx n o (r * n + c)) = dihIdx n o ((r + 1) * n + 0)) →
      fillRun (n * n) step c0 a = some ((List.range (n * n)).map fun i => (dihIdx n o i : ℤ)) := by
    intro step c0 h0 h1 h2
    subst h0
    refine fillRun_spec (n * n) step (fun i => (dihIdx n o i : ℤ)) a ha ?_
    intro i hi
    obtain ⟨r, c, hr, hc, e, h | h⟩ := succ_cases hi
    · rw [h.2, e]; exact h1 r c hr h.1
    · rw [h.2.2, e]; exact h2 r c h.2.1 h.1
  have hz : dihIdx n o 0 = (dihedral n o 0 0).1 * n + (dihedral n o 0 0).2 := by
    have := dihIdx_row (n := n) (o := o) (r := 0) (c := 0) hn
    simpa using this
  have hid : ∀ i < n * n, i / n * n + i % n = i := by
    intro i _; rw [Nat.mul_comm]; exact Nat.div_add_mod i n
  unfold ptsOrderHex
  simp only [hsq, ha, hpos, and_self, if_true]
  have hcast : ((n * n : ℕ) : ℤ) = (n : ℤ) * n := by push_cast; ring
  have hO : o = 0 ∨ o = 1 ∨ o = 2 ∨ o = 3 ∨ o = 4 ∨ o = 5 ∨ o = 6 ∨ o = 7 := by omega
  rcases hO with rfl | rfl | rfl | rfl | rfl | rfl | rfl | rfl
  · simp only []
    rw [foldlM_fill (fun i => (i : ℤ)) _ a ha]
    congr 1
    refine List.map_congr_left ?_
    intro i hi
    simp only [dihIdx, dihedral, hid i (List.mem_range.1 hi)]
  · simp only []
    refine key _ _ ?_ ?_ ?_
    · rw [hz]; simp only [dihedral]; omega
    · intro r c hr hc
      rw [dihIdx_row (by omega), dihIdx_row (by omega)]
      simp only [dihedral]
      rw [hcast]
      have e1 : ((n - 1 - r : ℕ) : ℤ) = (n : ℤ) - 1 - r := by omega
      push_cast [e1]
      rw [Int.tmod_eq_emod_of_nonneg (by nlinarith), Int.emod_eq_of_lt (by nlinarith) (by nlinarith)]
      ring
    · intro r c hr hc
      rw [dihIdx_row (by omega), dihIdx_row (by omega)]
      simp only [dihedral]
      rw [hcast]
      have e1 : ((n - 1 - r : ℕ) : ℤ) = (n : ℤ) - 1 - r := by omega
      have e2 : ((n - 1 - (r + 1) : ℕ) : ℤ) = (n : ℤ) - 2 - r := by omega
      have e3 : (n : ℤ) = c + 1 := by omega
      push_cast [e1, e2]
      have : (c : ℤ) * n + (n - 1 - r) + n = (n - 2 - r) + 1 * ((n : ℤ) * n + 1) := by
        have : (c : ℤ) = n - 1 := by omega
        rw [this]; ring
      rw [this, Int.tmod_eq_emod_of_nonneg (by nlinarith), Int.add_mul_emod_self_right,
        Int.emod_eq_of_lt (by omega) (by nlinarith)]
      ring
  · simp only []
    rw [foldlM_fill (fun i => ((n * n : ℕ) : ℤ) - 1 - (i : ℤ)) _ a ha]
    congr 1
    refine List.map_congr_left ?_
    intro i hi
    have hi := List.mem_range.1 hi
    obtain ⟨hr, hc⟩ := div_mod_lt hi
    simp only [dihIdx, dihedral]
    have e1 : ((n - 1 - i / n : ℕ) : ℤ) = (n : ℤ) - 1 - (i / n : ℕ) := by omega
    have e2 : ((n - 1 - i % n : ℕ) : ℤ) = (n : ℤ) - 1 - (i % n : ℕ) := by omega
    have e3 : (i : ℤ) = (i / n : ℕ) * n + (i % n : ℕ) := by exact_mod_cast (hid i hi).symm
    rw [hcast, Nat.cast_add, Nat.cast_mul, e1, e2]
    linear_combination -e3
  · simp only []
    refine key _ _ ?_ ?_ ?_
    · rw [hz]; simp only [dihedral]
      have e1 : ((n - 1 - 0 : ℕ) : ℤ) = (n : ℤ) - 1 := by omega
      rw [hcast, Nat.cast_add, Nat.cast_mul, e1]; push_cast [e1]; ring
    · intro r c hr hc
      rw [dihIdx_row (by omega), dihIdx_row (by omega)]
      simp only [dihedral]
      have e1 : ((n - 1 - c : ℕ) : ℤ) = (n : ℤ) - 1 - c := by omega
      have e2 : ((n - 1 - (c + 1) : ℕ) : ℤ) = (n : ℤ) - 2 - c := by omega
      push_cast [e1, e2]
      have : (0 : ℤ) ≤ ((n : ℤ) - 2 - c) * n := by
        refine mul_nonneg (by omega) (by omega)
      rw [if_neg (by nlinarith)]
      ring
    · intro r c hr hc
      rw [dihIdx_row (by omega), dihIdx_row (by omega)]
      simp only [dihedral]
      have e1 : ((n - 1 - c : ℕ) : ℤ) = 0 := by omega
      have e2 : ((n - 1 - 0 : ℕ) : ℤ) = (n : ℤ) - 1 := by omega
      push_cast [e1, e2]
      rw [if_pos (by omega)]
      ring
  · simp only []
    refine key _ _ ?_ ?_ ?_
    · rw [hz]; simp [dihedral]
    · intro r c hr hc
      rw [dihIdx_row (by omega), dihIdx_row (by omega)]
      simp only [dihedral]
      push_cast
      have : ((c : ℤ) + 1 + 1) * n ≤ n * n := by
        refine mul_le_mul_of_nonneg_right (by omega) (by omega)
      rw [if_neg (by nlinarith)]
      ring
    · intro r c hr hc
      rw [dihIdx_row (by omega), dihIdx_row (by omega)]
      simp only [dihedral]
      have e3 : (c : ℤ) = n - 1 := by omega
      push_cast [e3]
      rw [if_pos (by nlinarith)]
      ring
  · simp only []
    have e0 : (n : ℤ) - 1 = (0 : ℕ) * (n : ℤ) + ((n : ℤ) - 1 - (0 : ℕ)) := by push_cast; ring
    rw [e0]
    refine fillRows_spec n (-1) (2 * n) (fun i => (dihIdx n 5 i : ℤ)) a ha
      (fun r c => (r : ℤ) * n + (n - 1 - c)) ?_ ?_ ?_
    · intro r hr c hc
      rw [dihIdx_row (by omega)]
      simp only [dihedral]
      have e1 : ((n - 1 - c : ℕ) : ℤ) = (n : ℤ) - 1 - c := by omega
      push_cast [e1]; ring
    · intro r c; push_cast; ring
    · intro r; push_cast; ring
  · simp only []
    refine key _ _ ?_ ?_ ?_
    · rw [hz]; simp only [dihedral]
      have e1 : ((n - 1 - 0 : ℕ) : ℤ) = (n : ℤ) - 1 := by omega
      rw [hcast, Nat.cast_add, Nat.cast_mul, e1]; push_cast [e1]; ring
    · intro r c hr hc
      rw [dihIdx_row (by omega), dihIdx_row (by omega)]
      simp only [dihedral]
      have e1 : ((n - 1 - c : ℕ) : ℤ) = (n : ℤ) - 1 - c := by omega
      have e2 : ((n - 1 - (c + 1) : ℕ) : ℤ) = (n : ℤ) - 2 - c := by omega
      have e3 : ((n - 1 - r : ℕ) : ℤ) = (n : ℤ) - 1 - r := by omega
      push_cast [e1, e2, e3]
      have : (0 : ℤ) ≤ ((n : ℤ) - 2 - c) * n := by
        refine mul_nonneg (by omega) (by omega)
      rw [if_neg (by nlinarith)]
      ring
    · intro r c hr hc
      rw [dihIdx_row (by omega), dihIdx_row (by omega)]
      simp only [dihedral]
      have e1 : ((n - 1 - c : ℕ) : ℤ) = 0 := by omega
      have e2 : ((n - 1 - 0 : ℕ) : ℤ) = (n : ℤ) - 1 := by omega
      have e3 : ((n - 1 - r : ℕ) : ℤ) = (n : ℤ) - 1 - r := by omega
      have e4 : ((n - 1 - (r + 1) : ℕ) : ℤ) = (n : ℤ) - 2 - r := by omega
      push_cast [e1, e2, e3, e4]
      rw [if_pos (by omega)]
      ring
  · simp only []
    have e0 : ((n * n : ℕ) : ℤ) - n = ((n : ℤ) - 1 - (0 : ℕ)) * n + (0 : ℕ) := by push_cast; ring
    rw [e0]
    refine fillRows_spec n 1 (-(2 * n)) (fun i => (dihIdx n 7 i : ℤ)) a ha
      (fun r c => ((n : ℤ) - 1 - r) * n + c) ?_ ?_ ?_
    · intro r hr c hc
      rw [dihIdx_row (by omega)]
      simp only [dihedral]
      have e1 : ((n - 1 - r : ℕ) : ℤ) = (n : ℤ) - 1 - r := by omega
      push_cast [e1]; ring
    · intro r c; push_cast; ring
    · intro r; push_cast; ring

theorem ptsOrderQuad_closed (n o : ℕ) (ho : o < 2) (a : List ℤ) (ha : a.length = n) :
    ptsOrderQuad o n a
      = some ((List.range n).map fun i => ((if o = 0 then i else n - 1 - i : ℕ) : ℤ)) := by
  unfold ptsOrderQuad
  simp only [ha, if_true]
  have hO : o = 0 ∨ o = 1 := by omega
  rcases hO with rfl | rfl
  · simp only [if_true]
    exact foldlM_fill (fun i => (i : ℤ)) _ a ha
  · simp only [one_ne_zero, if_false]
    rw [foldlM_fill (fun i => (n : ℤ) - 1 - (i : ℤ)) _ a ha]
    congr 1
    refine List.map_congr_left ?_
    intro i hi
    have hi := List.mem_range.1 hi
    omega

end DG
