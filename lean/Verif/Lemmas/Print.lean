import Verif.Model.Print
import Mathlib.Algebra.BigOperators.Group.Finset.Basic
import Mathlib.Data.Finset.Max

/-! Barriers and prints: every execution prints phase by phase. -/
namespace DG.Pr
variable {L : Type}

/-- from `f`, printing `x` in some order of the ranks leaves `f'` to print -/
inductive Consume (n : ℕ) (f : ℕ → List L) : List L → (ℕ → List L) → Prop
  | nil : Consume n f [] f
  | snoc {x : List L} {g : ℕ → List L} (r : ℕ) (l : L) (ls : List L) (hr : r < n) (h : Consume n f x g)
      (hg : g r = l :: ls) : Consume n f (x ++ [l]) (Function.update g r ls)

/-- only rank `t` has something to print -/
theorem Consume.talker {n t : ℕ} {f g : ℕ → List L} {x : List L} (h : Consume n f x g)
    (ht : ∀ r < n, r ≠ t → f r = []) : f t = x ++ g t ∧ ∀ r < n, r ≠ t → g r = [] := by
  induction h with
  | nil => exact ⟨rfl, ht⟩
  | snoc r l ls hr _ hg ih =>
    by_cases hrt : r = t
    · subst hrt
      refine ⟨by simp [ih.1, hg], fun r' h1 h2 => ?_⟩
      rw [Function.update_of_ne h2]
      exact ih.2 r' h1 h2
    · rw [ih.2 r hr hrt] at hg
      cases hg

/-- every rank has the same single line to print -/
theorem Consume.common {n : ℕ} {f g : ℕ → List L} {x : List L} {l : L} (h : Consume n f x g)
    (hf : ∀ r < n, f r = [l]) :
    x = List.replicate x.length l ∧ (∀ r < n, g r = [l] ∨ g r = []) ∧
      x.length + ((List.range n).filter fun r => (g r).length = 1).length = n := by
  induction h with
  | nil =>
    refine ⟨rfl, fun r hr => Or.inl (hf r hr), ?_⟩
    rw [List.filter_eq_self.2 fun r hr => by simp [hf r (List.mem_range.1 hr)]]
    simp
  | snoc r a ls hr h hg ih =>
    rename_i x g
    obtain ⟨h1, h2, h3⟩ := ih
    have ha : a = l ∧ ls = [] := by
      rcases h2 r hr with h | h <;> rw [h] at hg <;> cases hg
      exact ⟨rfl, rfl⟩
    obtain ⟨rfl, rfl⟩ := ha
    refine ⟨?_, ?_, ?_⟩
    · rw [List.length_append, List.length_singleton, List.replicate_succ', ← h1]
    · intro r' hr'
      by_cases he : r' = r
      · subst he; simp
      · rw [Function.update_of_ne he]; exact h2 r' hr'
    · have hmem : r ∈ (List.range n).filter fun r => (g r).length = 1 := by simp [hr, hg]
      have hnd : ((List.range n).filter fun r => (g r).length = 1).Nodup := List.nodup_range.filter _
      have : ((List.range n).filter fun r' => (Function.update g r [] r').length = 1)
          = ((List.range n).filter fun r => (g r).length = 1).erase r := by
        rw [hnd.erase_eq_filter, List.filter_filter]
        apply List.filter_congr
        intro r' _
        by_cases he : r' = r
        · subst he; simp
        · simp [Function.update_of_ne he, he]
      rw [this, List.length_erase_of_mem hmem]
      have : 0 < ((List.range n).filter fun r => (g r).length = 1).length := List.length_pos_of_mem hmem
      simp only [List.length_append, List.length_singleton]
      omega

/-- what rank `r` still has to print in phase `q` -/
def pend (P : Prog L) (c : Conf L) (q r : ℕ) : List L :=
  if c.phase r = q then c.rem r else if c.phase r < q then P.lines r q else []

/-- the invariant -/
structure Inv (P : Prog L) (c : Conf L) (s : ℕ → List L) : Prop where
  near : ∀ r < P.nranks, ∀ r' < P.nranks, c.phase r' ≤ c.phase r + 1
  past : ∀ r < P.nranks, ∀ r' < P.nranks, c.phase r < c.phase r' → c.rem r = []
  lt : ∀ r < P.nranks, c.phase r < P.nph
  cons : ∀ q < P.nph, Consume P.nranks (fun r => P.lines r q) (s q) (pend P c q)
  fut : ∀ q < P.nph, (∀ r < P.nranks, c.phase r < q) → s q = []
  out : c.out = ((List.range P.nph).map s).flatten

theorem flatten_snoc {N : ℕ} {s : ℕ → List L} {q : ℕ} {l : L} (hq : q < N) (h : ∀ q', q < q' → q' < N → s q' = []) :
    ((List.range N).map (Function.update s q (s q ++ [l]))).flatten = ((List.range N).map s).flatten ++ [l] := by
  induction N with
  | zero => omega
  | succ N ih =>
    rw [List.range_succ, List.map_append, List.map_append, List.flatten_append, List.flatten_append]
    simp only [List.map_cons, List.map_nil, List.flatten_cons, List.flatten_nil, List.append_nil]
    by_cases hN : q = N
    · subst hN
      rw [Function.update_self, List.map_congr_left (g := s), List.append_assoc]
      intro a ha
      rw [Function.update_of_ne (by have := List.mem_range.1 ha; omega)]
    · rw [Function.update_of_ne (Ne.symm hN), h N (by omega) (by omega), ih (by omega) fun q' h1 h2 => h q' h1 (by omega)]
      simp

theorem inv_init (P : Prog L) (h : 0 < P.nph) : Inv P P.init fun _ => [] where
  near := by intros; simp [Prog.init]
  past := by intro r _ r' _ h; simp [Prog.init] at h
  lt := fun _ _ => h
  cons := by
    intro q _
    have : pend P P.init q = fun r => P.lines r q := by
      funext r
      unfold pend Prog.init
      by_cases hq : q = 0
      · subst hq; simp
      · simp [Ne.symm hq, Nat.pos_of_ne_zero hq]
    rw [this]
    exact .nil
  fut := fun _ _ _ => rfl
  out := by simp [Prog.init]

theorem inv_step {P : Prog L} {c c' : Conf L} {s : ℕ → List L} (hi : Inv P c s) (h : P.Step c c') :
    ∃ s', Inv P c' s' := by
  cases h with
  | print r l ls hr h =>
    have hnone : ∀ r' < P.nranks, c.phase r' ≤ c.phase r := by
      intro r' hr'
      by_contra hlt
      have := hi.past r hr r' hr' (by omega)
      rw [this] at h; cases h
    refine ⟨Function.update s (c.phase r) (s (c.phase r) ++ [l]), ?_⟩
    refine ⟨hi.near, ?_, hi.lt, ?_, ?_, ?_⟩
    · intro a ha b hb hab
      by_cases he : a = r
      · subst he; exact absurd hab (by have := hnone b hb; show ¬ c.phase a < c.phase b; omega)
      · show Function.update c.rem r ls a = []
        rw [Function.update_of_ne he]; exact hi.past a ha b hb hab
    · intro q hq
      by_cases he : q = c.phase r
      · subst he
        rw [Function.update_self]
        have : pend P { c with rem := Function.update c.rem r ls, out := c.out ++ [l] } (c.phase r)
            = Function.update (pend P c (c.phase r)) r ls := by
          funext a
          by_cases ha : a = r
          · subst ha; simp [pend]
          · simp [pend, Function.update_of_ne ha]
        rw [this]
        exact .snoc r l ls hr (hi.cons _ hq) (by simp [pend, h])
      · rw [Function.update_of_ne he]
        have : pend P { c with rem := Function.update c.rem r ls, out := c.out ++ [l] } q = pend P c q := by
          funext a
          by_cases ha : a = r
          · subst ha; simp [pend, Ne.symm he]
          · simp [pend, Function.update_of_ne ha]
        rw [this]
        exact hi.cons q hq
    · intro q hq hall
      rw [Function.update_of_ne (by have : c.phase r < q := hall r hr; omega)]
      exact hi.fut q hq hall
    · show c.out ++ [l] = _
      rw [flatten_snoc (hi.lt r hr) fun q' h1 h2 => hi.fut q' h2 fun r' hr' => lt_of_le_of_lt (hnone r' hr') h1, hi.out]
  | pass r hr hp h hall =>
    refine ⟨s, ?_⟩
    have hge : ∀ a < P.nranks, c.phase r ≤ c.phase a := fun a ha => by rcases hall a ha with h | h <;> omega
    refine ⟨?_, ?_, ?_, ?_, ?_, hi.out⟩
    · intro a ha b hb
      show Function.update c.phase r (c.phase r + 1) b ≤ Function.update c.phase r (c.phase r + 1) a + 1
      have h1 := hge a ha
      have h2 := hi.near a ha b hb
      have h3 := hge b hb
      have h4 := hi.near r hr b hb
      by_cases e1 : b = r <;> by_cases e2 : a = r <;> simp [Function.update, e1, e2] <;> omega
    · intro a ha b hb hab
      have hab : Function.update c.phase r (c.phase r + 1) a < Function.update c.phase r (c.phase r + 1) b := hab
      show Function.update c.rem r (P.lines r (c.phase r + 1)) a = []
      by_cases e2 : a = r
      · subst e2
        by_cases e1 : b = a
        · subst e1; exact absurd hab (lt_irrefl _)
        · rw [Function.update_self, Function.update_of_ne e1] at hab
          have := hi.near a ha b hb
          omega
      · rw [Function.update_of_ne e2] at hab ⊢
        rcases hall a ha with h' | h'
        · by_cases e1 : b = r
          · subst e1; rw [Function.update_self] at hab; omega
          · rw [Function.update_of_ne e1] at hab
            exact hi.past a ha b hb hab
        · exact h'.2
    · intro a ha
      show Function.update c.phase r (c.phase r + 1) a < _
      by_cases e : a = r
      · subst e; rw [Function.update_self]; exact hp
      · rw [Function.update_of_ne e]; exact hi.lt a ha
    · intro q hq
      have : pend P { c with phase := Function.update c.phase r (c.phase r + 1)
                             rem := Function.update c.rem r (P.lines r (c.phase r + 1)) } q = pend P c q := by
        funext a
        by_cases e : a = r
        · subst e
          simp only [pend, Function.update_self]
          by_cases h1 : c.phase a + 1 = q
          · have h2 : c.phase a ≠ q := by omega
            have h3 : c.phase a < q := by omega
            rw [if_pos h1, if_neg h2, if_pos h3, h1]
          · by_cases h2 : c.phase a = q
            · have h3 : ¬ c.phase a + 1 < q := by omega
              rw [if_neg h1, if_neg h3, if_pos h2, h]
            · by_cases h3 : c.phase a < q
              · rw [if_neg h1, if_pos (by omega), if_neg h2, if_pos h3]
              · rw [if_neg h1, if_neg (by omega), if_neg h2, if_neg h3]
        · simp [pend, Function.update_of_ne e]
      rw [this]
      exact hi.cons q hq
    · intro q hq hq'
      refine hi.fut q hq fun a ha => ?_
      have := hq' a ha
      by_cases e : a = r
      · subst e
        have h' : Function.update c.phase a (c.phase a + 1) a < q := this
        rw [Function.update_self] at h'
        omega
      · have h' : Function.update c.phase r (c.phase r + 1) a < q := this
        rwa [Function.update_of_ne e] at h'

theorem inv_steps {P : Prog L} (h : 0 < P.nph) {n : ℕ} {c : Conf L} (hs : P.Steps n P.init c) : ∃ s, Inv P c s := by
  generalize hc0 : P.init = c0 at hs
  induction hs with
  | refl => subst hc0; exact ⟨_, inv_init P h⟩
  | tail _ hstep ih =>
    obtain ⟨s, hi⟩ := ih hc0
    exact inv_step hi hstep

/-- the steps rank `r` has still to make -/
def leftOf (P : Prog L) (c : Conf L) (r : ℕ) : ℕ :=
  (P.nph - c.phase r) + ∑ q ∈ Finset.range P.nph, (pend P c q r).length

/-- the steps all ranks have still to make -/
def left (P : Prog L) (c : Conf L) : ℕ := ∑ r ∈ Finset.range P.nranks, leftOf P c r

theorem left_step {P : Prog L} {c c' : Conf L} {s : ℕ → List L} (hi : Inv P c s) (h : P.Step c c') :
    left P c' + 1 = left P c := by
  have key : ∀ r < P.nranks, (∀ a, a ≠ r → c'.phase a = c.phase a ∧ c'.rem a = c.rem a) →
      leftOf P c' r + 1 = leftOf P c r → left P c' + 1 = left P c := by
    intro r hr ho hl
    have hmem : r ∈ Finset.range P.nranks := Finset.mem_range.2 hr
    unfold left
    rw [← Finset.add_sum_erase _ _ hmem, ← Finset.add_sum_erase _ _ hmem, ← hl]
    have : ∑ x ∈ (Finset.range P.nranks).erase r, leftOf P c' x
        = ∑ x ∈ (Finset.range P.nranks).erase r, leftOf P c x := by
      refine Finset.sum_congr rfl fun a ha => ?_
      obtain ⟨h1, h2⟩ := ho a (Finset.ne_of_mem_erase ha)
      simp only [leftOf, pend, h1, h2]
    omega
  cases h with
  | print r l ls hr h =>
    refine key r hr (fun a ha => ⟨rfl, Function.update_of_ne ha _ _⟩) ?_
    have hmem : c.phase r ∈ Finset.range P.nph := Finset.mem_range.2 (hi.lt r hr)
    unfold leftOf
    rw [← Finset.add_sum_erase _ _ hmem, ← Finset.add_sum_erase _ _ hmem]
    have h1 : (pend P { c with rem := Function.update c.rem r ls, out := c.out ++ [l] } (c.phase r) r).length + 1
        = (pend P c (c.phase r) r).length := by simp [pend, h]
    have h2 : ∑ q ∈ (Finset.range P.nph).erase (c.phase r),
          (pend P { c with rem := Function.update c.rem r ls, out := c.out ++ [l] } q r).length
        = ∑ q ∈ (Finset.range P.nph).erase (c.phase r), (pend P c q r).length := by
      refine Finset.sum_congr rfl fun q hq => ?_
      have : c.phase r ≠ q := fun e => Finset.ne_of_mem_erase hq e.symm
      simp [pend, this]
    show P.nph - c.phase r + _ + 1 = _
    omega
  | pass r hr hp h hall =>
    refine key r hr (fun a ha => ⟨Function.update_of_ne ha _ _, Function.update_of_ne ha _ _⟩) ?_
    have hsum : ∀ q, pend P ⟨Function.update c.phase r (c.phase r + 1),
        Function.update c.rem r (P.lines r (c.phase r + 1)), c.out⟩ q r = pend P c q r := by
      intro q
      simp only [pend, Function.update_self]
      by_cases h1 : c.phase r + 1 = q
      · rw [if_pos h1, if_neg (by omega), if_pos (by omega), h1]
      · by_cases h2 : c.phase r = q
        · rw [if_neg h1, if_neg (by omega), if_pos h2, h]
        · by_cases h3 : c.phase r < q
          · rw [if_neg h1, if_pos (by omega), if_neg h2, if_pos h3]
          · rw [if_neg h1, if_neg (by omega), if_neg h2, if_neg h3]
    unfold leftOf
    simp only [hsum, Function.update_self]
    omega

theorem left_steps {P : Prog L} (h : 0 < P.nph) {n : ℕ} {c : Conf L} (hs : P.Steps n P.init c) :
    n + left P c = left P P.init := by
  generalize hc0 : P.init = c0 at hs
  induction hs with
  | refl => omega
  | tail hs hstep ih =>
    have h1 := ih hc0
    subst hc0
    obtain ⟨s, hi⟩ := inv_steps h hs
    have h2 := left_step hi hstep
    omega

/-- a state that is not final can go on -/
theorem progress {P : Prog L} {c : Conf L} {s : ℕ → List L} (hi : Inv P c s) (hd : ¬ P.Done c) :
    ∃ c', P.Step c c' := by
  by_cases hrem : ∃ r < P.nranks, c.rem r ≠ []
  · obtain ⟨r, hr, hne⟩ := hrem
    obtain ⟨l, ls, h⟩ := List.exists_cons_of_ne_nil hne
    exact ⟨_, .print c r l ls hr h⟩
  · push Not at hrem
    unfold Prog.Done at hd
    push Not at hd
    obtain ⟨r0, hr0, h0⟩ := hd
    have hlow : ∃ r < P.nranks, c.phase r + 1 < P.nph := by
      refine ⟨r0, hr0, ?_⟩
      have := hi.lt r0 hr0
      by_contra hcon
      exact h0 (by omega) (hrem r0 hr0)
    -- the rank that is furthest behind
    obtain ⟨r, hr, hmin⟩ := Finset.exists_min_image (Finset.range P.nranks) c.phase ⟨r0, Finset.mem_range.2 hr0⟩
    have hr := Finset.mem_range.1 hr
    refine ⟨_, .pass c r hr ?_ (hrem r hr) ?_⟩
    · obtain ⟨a, ha, h⟩ := hlow
      have := hmin a (Finset.mem_range.2 ha)
      omega
    · intro a ha
      have := hmin a (Finset.mem_range.2 ha)
      rcases Nat.lt_or_ge (c.phase r) (c.phase a) with h | h
      · exact Or.inl h
      · exact Or.inr ⟨by omega, hrem a ha⟩

theorem Prog.Steps.trans {P : Prog L} {a b c : Conf L} {n n' : ℕ} (h1 : P.Steps n a b) (h2 : P.Steps n' b c) :
    P.Steps (n + n') a c := by
  induction h2 with
  | refl => exact h1
  | tail _ hs ih => exact .tail (ih h1) hs

theorem completes {P : Prog L} (h : 0 < P.nph) {n : ℕ} {c : Conf L} (hs : P.Steps n P.init c) :
    ∃ n' c', P.Steps n' c c' ∧ P.Done c' := by
  induction hk : left P c generalizing n c with
  | zero =>
    obtain ⟨s, hi⟩ := inv_steps h hs
    by_cases hd : P.Done c
    · exact ⟨0, c, .refl c, hd⟩
    · obtain ⟨c', h'⟩ := progress hi hd
      have := left_step hi h'
      omega
  | succ k ih =>
    obtain ⟨s, hi⟩ := inv_steps h hs
    by_cases hd : P.Done c
    · exact ⟨0, c, .refl c, hd⟩
    · obtain ⟨c', h'⟩ := progress hi hd
      have := left_step hi h'
      obtain ⟨n', c'', h1, h2⟩ := ih (.tail hs h') (by omega)
      exact ⟨1 + n', c'', (Prog.Steps.tail (.refl c) h').trans h1, h2⟩

/-- at the end every phase has been printed completely -/
theorem done_out {P : Prog L} {c : Conf L} {s : ℕ → List L} (hi : Inv P c s) (hd : P.Done c) :
    ∀ q < P.nph, ∃ g, Consume P.nranks (fun r => P.lines r q) (s q) g ∧ ∀ r < P.nranks, g r = [] := by
  intro q hq
  refine ⟨_, hi.cons q hq, fun r hr => ?_⟩
  obtain ⟨h1, h2⟩ := hd r hr
  unfold pend
  by_cases h3 : c.phase r = q
  · rw [if_pos h3, h2]
  · rw [if_neg h3, if_neg (by omega)]

/-- one rank speaks in each phase: the output at any time is the beginning of what all phases print -/
theorem out_prefix {P : Prog L} {c : Conf L} {s : ℕ → List L} (hi : Inv P c s) (t : ℕ → ℕ)
    (ht : ∀ q < P.nph, t q < P.nranks) (honly : ∀ q < P.nph, ∀ r < P.nranks, r ≠ t q → P.lines r q = []) :
    c.out <+: ((List.range P.nph).map fun q => P.lines (t q) q).flatten := by
  rw [hi.out]
  have hq : ∀ q < P.nph, P.lines (t q) q = s q ++ pend P c q (t q) := fun q hq => ((hi.cons q hq).talker (honly q hq)).1
  have hstop : ∀ q < P.nph, pend P c q (t q) ≠ [] → ∀ q', q < q' → q' < P.nph → s q' = [] := by
    intro q hlt hne q' h1 h2
    refine hi.fut q' h2 fun r hr => ?_
    have hn := hi.near (t q) (ht q hlt) r hr
    unfold pend at hne
    by_cases h3 : c.phase (t q) = q
    · rw [if_pos h3] at hne
      by_contra hcon
      exact hne (hi.past (t q) (ht q hlt) r hr (by omega))
    · rw [if_neg h3] at hne
      by_cases h4 : c.phase (t q) < q
      · omega
      · rw [if_neg h4] at hne; exact absurd rfl hne
  have main : ∀ N ≤ P.nph,
      ((List.range N).map s).flatten = ((List.range N).map fun q => P.lines (t q) q).flatten ∨
      (((List.range N).map s).flatten <+: ((List.range N).map fun q => P.lines (t q) q).flatten ∧
        ∀ q', N ≤ q' → q' < P.nph → s q' = []) := by
    intro N
    induction N with
    | zero => intro _; exact Or.inl rfl
    | succ N ih =>
      intro hN
      simp only [List.range_succ, List.map_append, List.flatten_append, List.map_cons, List.map_nil,
        List.flatten_cons, List.flatten_nil, List.append_nil]
      rcases ih (by omega) with h | ⟨h, h'⟩
      · rw [h, hq N (by omega)]
        by_cases he : pend P c N (t N) = []
        · left; rw [he, List.append_nil]
        · right
          refine ⟨⟨pend P c N (t N), by simp⟩, fun q' h1 h2 => hstop N (by omega) he q' (by omega) h2⟩
      · right
        rw [h' N le_rfl (by omega), List.append_nil]
        exact ⟨h.trans (List.prefix_append _ _), fun q' h1 h2 => h' q' (by omega) h2⟩
  rcases main P.nph le_rfl with h | h
  · rw [h]
  · exact h.1

theorem out_done {P : Prog L} {c : Conf L} {s : ℕ → List L} (hi : Inv P c s) (hd : P.Done c) (t : ℕ → ℕ)
    (ht : ∀ q < P.nph, t q < P.nranks) (honly : ∀ q < P.nph, ∀ r < P.nranks, r ≠ t q → P.lines r q = []) :
    c.out = ((List.range P.nph).map fun q => P.lines (t q) q).flatten := by
  rw [hi.out]
  congr 1
  refine List.map_congr_left fun q hq => ?_
  have hq := List.mem_range.1 hq
  obtain ⟨g, h1, h2⟩ := done_out hi hd q hq
  rw [(h1.talker (honly q hq)).1, h2 _ (ht q hq), List.append_nil]

end DG.Pr
