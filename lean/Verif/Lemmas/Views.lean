import Verif.Model.Views
import Mathlib.Data.Set.Card
import Mathlib.Tactic.Ring

/-! Lemmas for C91: the loops over the arrays of `View`s. -/
namespace DG.Vw

theorem run_append (l l' : List Op) (s : State) : run (l ++ l') s = (run l s).bind (run l') := by
  induction l generalizing s with
  | nil => rfl
  | cons o l ih =>
    simp only [List.cons_append, run]
    cases step s o with
    | none => rfl
    | some t => simpa using ih t

theorem run_loop (n : ℕ) (body : ℕ → List Op) (P : ℕ → State → Prop)
    (h : ∀ i < n, ∀ s, P i s → ∃ s', run (body i) s = some s' ∧ P (i + 1) s') (s : State) (h0 : P 0 s) :
    ∃ s', run (loop n body) s = some s' ∧ P n s' := by
  induction n with
  | zero => exact ⟨s, rfl, h0⟩
  | succ n ih =>
    obtain ⟨s1, r1, p1⟩ := ih (fun i hi => h i (by omega))
    obtain ⟨s2, r2, p2⟩ := h n (by omega) s1 p1
    refine ⟨s2, ?_, p2⟩
    unfold loop at r1 ⊢
    rw [List.range_succ, List.flatMap_append, run_append, r1]
    simpa using r2

/-- the objects as three rows, without loop variables -/
def rows (k : ℕ) (g a b : ℕ → Option (Option ℕ)) : Obj → Option (Option ℕ)
  | .ghost i => g i
  | .loc k' i => if k' = k then a i else none
  | .rem k' i => if k' = k then b i else none
  | .tmp _ => none

theorem rows_ghost (k : ℕ) (g a b : ℕ → Option (Option ℕ)) (i : ℕ) (x : Option (Option ℕ)) :
    Function.update (rows k g a b) (.ghost i) x = rows k (Function.update g i x) a b := by
  funext o
  cases o <;> simp [rows, Function.update_apply]

theorem rows_loc (k : ℕ) (g a b : ℕ → Option (Option ℕ)) (i : ℕ) (x : Option (Option ℕ)) :
    Function.update (rows k g a b) (.loc k i) x = rows k g (Function.update a i x) b := by
  funext o
  cases o with
  | loc k' j =>
    by_cases h : k' = k <;> simp [rows, Function.update_apply, h]
  | _ => simp [rows, Function.update_apply]

theorem rows_rem (k : ℕ) (g a b : ℕ → Option (Option ℕ)) (i : ℕ) (x : Option (Option ℕ)) :
    Function.update (rows k g a b) (.rem k i) x = rows k g a (Function.update b i x) := by
  funext o
  cases o with
  | rem k' j =>
    by_cases h : k' = k <;> simp [rows, Function.update_apply, h]
  | _ => simp [rows, Function.update_apply]

theorem rows_none (k k' : ℕ) (g : ℕ → Option (Option ℕ)) :
    rows k g (fun _ => none) (fun _ => none) = rows k' g (fun _ => none) (fun _ => none) := by
  funext o
  cases o <;> simp [rows]

/-- the ghost faces of `n` neighbours in memory `f` -/
def ghosts (n : ℕ) (f : ℕ → ℕ) : ℕ → Option (Option ℕ) := fun i => if i < n then some (some (f i)) else none

theorem upd_back (s : State) (o : Obj) (x y : Option (Option ℕ)) (h : s.val o = y) :
    Function.update (Function.update s.val o x) o y = s.val := by
  rw [Function.update_idem, ← h, Function.update_eq_self]

/-- loop bodies that only look at the arrays -/
theorem run_one (s : State) (o : Obj) (a : ℕ) (ho : ∀ j, o ≠ .tmp j) (h0 : s.val (.tmp 0) = none) (h : s.val o = some (some a)) :
    run [.copy (.tmp 0) o, .access (.tmp 0), .destroy (.tmp 0)] s = some s := by
  simp [run, step, h0, h, upd_back s (.tmp 0) _ _ h0]

theorem unwind1 (v : Obj → Option (Option ℕ)) (x : Option (Option ℕ)) (h0 : v (.tmp 0) = none) :
    Function.update (Function.update v (.tmp 0) x) (.tmp 0) none = v := by
  funext o
  by_cases e : o = .tmp 0 <;> simp_all [Function.update_apply]

theorem unwind2 (v : Obj → Option (Option ℕ)) (x : Option (Option ℕ)) (h0 : v (.tmp 0) = none) (h1 : v (.tmp 1) = none) :
    Function.update (Function.update (Function.update v (.tmp 0) x) (.tmp 1) none) (.tmp 0) none = v := by
  funext o
  by_cases e : o = .tmp 0 <;> by_cases e' : o = .tmp 1 <;> simp_all [Function.update_apply]

theorem unwind3 (v : Obj → Option (Option ℕ)) (x y : Option (Option ℕ)) (h0 : v (.tmp 0) = none) (h1 : v (.tmp 1) = none)
    (h2 : v (.tmp 2) = none) :
    Function.update (Function.update (Function.update (Function.update (Function.update v (.tmp 0) x) (.tmp 1) y)
      (.tmp 2) none) (.tmp 1) none) (.tmp 0) none = v := by
  funext o
  by_cases e : o = .tmp 0 <;> by_cases e' : o = .tmp 1 <;> by_cases e'' : o = .tmp 2 <;> simp_all [Function.update_apply]

theorem run_alias (s : State) (o : Obj) (a : ℕ) (ho : ∀ j, o ≠ .tmp j) (h0 : s.val (.tmp 0) = none) (h1 : s.val (.tmp 1) = none)
    (h : s.val o = some (some a)) (acc : List Op) (hacc : acc = [.access (.tmp 1)] ∨ acc = [.access (.tmp 1), .access (.tmp 0)]) :
    run ([.copy (.tmp 0) o, .copy (.tmp 1) (.tmp 0)] ++ acc ++ [.destroy (.tmp 1), .destroy (.tmp 0)]) s = some s := by
  have e := unwind2 s.val (some (some a)) h0 h1
  rcases hacc with rfl | rfl <;> simp [run, step, h0, h1, h] <;> rw [e]

theorem run_gather (s : State) (o o' : Obj) (a a' : ℕ) (ho : ∀ j, o ≠ .tmp j) (ho' : ∀ j, o' ≠ .tmp j) (h0 : s.val (.tmp 0) = none)
    (h1 : s.val (.tmp 1) = none) (h : s.val o = some (some a)) (h' : s.val o' = some (some a')) :
    run [.copy (.tmp 0) o, .copy (.tmp 1) o', .access (.tmp 0), .access (.tmp 1), .destroy (.tmp 1), .destroy (.tmp 0)] s = some s := by
  have e := unwind2 s.val (some (some a)) h0 h1
  simp [run, step, h0, h1, h, h', ho']
  rw [e]

theorem run_scatter (s : State) (o o' o'' : Obj) (a a' a'' : ℕ) (ho' : ∀ j, o' ≠ .tmp j)
    (ho'' : ∀ j, o'' ≠ .tmp j) (h0 : s.val (.tmp 0) = none)
    (h1 : s.val (.tmp 1) = none) (h2 : s.val (.tmp 2) = none) (h : s.val o = some (some a)) (h' : s.val o' = some (some a'))
    (h'' : s.val o'' = some (some a'')) :
    run [.copy (.tmp 0) o, .copy (.tmp 1) o', .copy (.tmp 2) o'', .access (.tmp 0), .access (.tmp 2), .destroy (.tmp 2),
      .destroy (.tmp 1), .destroy (.tmp 0)] s = some s := by
  have e := unwind3 s.val (some (some a)) (some (some a')) h0 h1 h2
  simp [run, step, h0, h1, h2, h, h', h'', ho', ho'']
  rw [e]

theorem loop_id (n : ℕ) (body : ℕ → List Op) (s : State) (h : ∀ i < n, run (body i) s = some s) : run (loop n body) s = some s := by
  obtain ⟨s', h1, rfl⟩ := run_loop n body (fun _ t => t = s) (fun i hi t ht => ⟨s, by rw [ht]; exact h i hi, rfl⟩) s rfl
  exact h1

/-- all `n` arrays of a row hold memory below `m` -/
def Full (n m : ℕ) (a : ℕ → Option (Option ℕ)) : Prop :=
  ∃ f : ℕ → ℕ, (∀ i < n, f i < m) ∧ (∀ i < n, ∀ j < n, f i = f j → i = j) ∧ a = ghosts n f

theorem Full.get {n m : ℕ} {a : ℕ → Option (Option ℕ)} (h : Full n m a) {i : ℕ} (hi : i < n) : ∃ x, a i = some (some x) := by
  obtain ⟨f, -, -, rfl⟩ := h
  exact ⟨f i, by simp [ghosts, hi]⟩

/-- The constructor of the mesh: `n` arrays of ghost faces. -/
theorem run_constructMesh (n : ℕ) : ∃ s f, run (constructMesh n) start = some s ∧ s.arrays = 1 ∧
    (∀ i < n, f i < s.next) ∧ (∀ i < n, ∀ j < n, f i = f j → i = j) ∧
    s.val = rows 0 (ghosts n f) (fun _ => none) (fun _ => none) := by
  set z : ℕ → Option (Option ℕ) := fun _ => none
  obtain ⟨s1, r1, p1, q1⟩ := run_loop n (fun i => [.construct (.ghost i)])
    (fun i s => s.arrays = 1 ∧ s.next = 0 ∧ s.val = rows 0 (fun j => if j < i then some none else none) z z)
    (by
      rintro i hi s ⟨h1, h2, h3⟩
      have : s.val (.ghost i) = none := by rw [h3]; simp [rows]
      refine ⟨{ s with val := Function.update s.val (.ghost i) (some none) }, by simp [run, step, this], h1, h2, ?_⟩
      simp only [h3, rows_ghost]
      congr 1
      funext j
      simp only [Function.update_apply]
      split_ifs <;> first | rfl | omega)
    ⟨fun _ => none, 0, 1⟩ ⟨rfl, rfl, by funext o; cases o <;> simp [rows, z]⟩
  obtain ⟨s2, r2, p2, p3, q2⟩ := run_loop n (fun i => [.resize (.ghost i)])
    (fun i s => s.arrays = 1 ∧ s.next = i ∧
      s.val = rows 0 (fun j => if j < i then some (some j) else if j < n then some none else none) z z)
    (by
      rintro i hi s ⟨h1, h2, h3⟩
      have : s.val (.ghost i) ≠ none := by rw [h3]; simp [rows, hi]
      refine ⟨{ s with val := Function.update s.val (.ghost i) (some (some s.next)), next := s.next + 1 }, by simp [run, step, this],
        h1, by simp [h2], ?_⟩
      simp only [h3, rows_ghost]
      congr 1
      funext j
      simp only [Function.update_apply]
      split_ifs <;> first | rfl | omega | (simp_all))
    s1 ⟨p1, q1.1, by rw [q1.2]; simp⟩
  have v2 : s2.val = rows 0 (ghosts n fun i => i) z z := by
    rw [q2]; congr 1; funext j; simp only [ghosts]; split_ifs <;> rfl
  refine ⟨s2, fun i => i, ?_, p2, fun i hi => by rw [p3]; exact hi, fun i _ j _ h => h, v2⟩
  unfold constructMesh
  have e0 : run (.newArray :: loop n fun i => [.construct (.ghost i)]) start = some s1 := r1
  rw [run_append, run_append, e0, Option.bind_some, r2, Option.bind_some]
  refine loop_id n _ s2 fun i hi => ?_
  exact run_one s2 (.ghost i) i (by simp) (by rw [v2]; rfl) (by rw [v2]; simp [rows, ghosts, hi])

/-- a row in which every one of the `n` arrays holds memory, and no other exists -/
def Held (n : ℕ) (a : ℕ → Option (Option ℕ)) : Prop := (∀ j < n, ∃ x, a j = some (some x)) ∧ ∀ j, n ≤ j → a j = none

theorem held_ghosts (n : ℕ) (f : ℕ → ℕ) : Held n (ghosts n f) :=
  ⟨fun j hj => ⟨f j, by simp [ghosts, hj]⟩, fun j hj => by simp [ghosts]; omega⟩

/-- The four loops of the exchange change nothing. -/
theorem run_communicate (k n : ℕ) (g a b : ℕ → Option (Option ℕ)) (hg : Held n g) (ha : Held n a) (hb : Held n b) (s : State)
    (hs : s.val = rows k g a b) : run (communicate k n) s = some s := by
  have t : ∀ j, s.val (.tmp j) = none := fun j => by rw [hs]; rfl
  have vg : ∀ i, s.val (.ghost i) = g i := fun i => by rw [hs]; rfl
  have va : ∀ i, s.val (.loc k i) = a i := fun i => by rw [hs]; simp [rows]
  have vb : ∀ i, s.val (.rem k i) = b i := fun i => by rw [hs]; simp [rows]
  have l1 := fun body h => loop_id n body s h
  unfold communicate
  rw [run_append, run_append, run_append, l1 (fun i => [.copy (.tmp 0) (.ghost i), .copy (.tmp 1) (.loc k i), .access (.tmp 0),
    .access (.tmp 1), .destroy (.tmp 1), .destroy (.tmp 0)]), Option.bind_some, l1 (fun i => [.copy (.tmp 0) (.loc k i),
    .copy (.tmp 1) (.tmp 0), .access (.tmp 1), .destroy (.tmp 1), .destroy (.tmp 0)]), Option.bind_some,
    l1 (fun i => [.copy (.tmp 0) (.rem k i), .copy (.tmp 1) (.tmp 0), .access (.tmp 1), .access (.tmp 0),
    .destroy (.tmp 1), .destroy (.tmp 0)]), Option.bind_some, l1]
  · intro i hi
    obtain ⟨x, hx⟩ := hg.1 i hi
    obtain ⟨y, hy⟩ := ha.1 i hi
    obtain ⟨z, hz⟩ := hb.1 i hi
    exact run_scatter s (.ghost i) (.loc k i) (.rem k i) x y z (by simp) (by simp) (t 0) (t 1) (t 2) ((vg i).trans hx)
      ((va i).trans hy) ((vb i).trans hz)
  · intro i hi
    obtain ⟨y, hy⟩ := hb.1 i hi
    exact run_alias s (.rem k i) y (by simp) (t 0) (t 1) ((vb i).trans hy) _ (Or.inr rfl)
  · intro i hi
    obtain ⟨y, hy⟩ := ha.1 i hi
    exact run_alias s (.loc k i) y (by simp) (t 0) (t 1) ((va i).trans hy) _ (Or.inl rfl)
  · intro i hi
    obtain ⟨x, hx⟩ := hg.1 i hi
    obtain ⟨y, hy⟩ := ha.1 i hi
    exact run_gather s (.ghost i) (.loc k i) x y (by simp) (by simp) (t 0) (t 1) ((vg i).trans hx) ((va i).trans hy)

/-- The part of the exchange before the communication. -/
def fill (k n : ℕ) : List Op :=
  (.newArray :: loop n fun i => [.construct (.loc k i)]) ++
  (.newArray :: loop n fun i => [.construct (.rem k i)]) ++
  loop n fun i => [.resize (.loc k i), .resize (.rem k i)]

theorem run_fill' (k n : ℕ) (g : ℕ → Option (Option ℕ)) (s : State)
    (hs : s.val = rows 0 g (fun _ => none) (fun _ => none)) :
    ∃ s3 a b, run (fill k n) s = some s3 ∧ s3.val = rows k g a b ∧ Held n a ∧ Held n b ∧ s3.arrays = s.arrays + 2 ∧ s.next ≤ s3.next := by
  set z : ℕ → Option (Option ℕ) := fun _ => none
  have hs' : s.val = rows k g z z := hs.trans (rows_none 0 k g)
  obtain ⟨s1, r1, p1, q1, v1⟩ := run_loop n (fun i => [.construct (.loc k i)])
    (fun i t => t.arrays = s.arrays + 1 ∧ t.next = s.next ∧ t.val = rows k g (fun j => if j < i then some none else none) z)
    (by
      rintro i hi t ⟨h1, h2, h3⟩
      have : t.val (.loc k i) = none := by rw [h3]; simp [rows]
      refine ⟨{ t with val := Function.update t.val (.loc k i) (some none) }, by simp [run, step, this], h1, h2, ?_⟩
      simp only [h3, rows_loc]
      congr 1
      funext j
      simp only [Function.update_apply]
      split_ifs <;> first | rfl | omega)
    { s with arrays := s.arrays + 1 } ⟨rfl, rfl, by simp only [hs']; congr 1⟩
  obtain ⟨s2, r2, p2, q2, v2⟩ := run_loop n (fun i => [.construct (.rem k i)])
    (fun i t => t.arrays = s.arrays + 2 ∧ t.next = s.next ∧
      t.val = rows k g (fun j => if j < n then some none else none) (fun j => if j < i then some none else none))
    (by
      rintro i hi t ⟨h1, h2, h3⟩
      have : t.val (.rem k i) = none := by rw [h3]; simp [rows]
      refine ⟨{ t with val := Function.update t.val (.rem k i) (some none) }, by simp [run, step, this], h1, h2, ?_⟩
      simp only [h3, rows_rem]
      congr 1
      funext j
      simp only [Function.update_apply]
      split_ifs <;> first | rfl | omega)
    { s1 with arrays := s1.arrays + 1 } ⟨by simp [p1], q1, by simp only [v1]; congr 1⟩
  obtain ⟨s3, r3, p3, q3, a, b, v3, ha, hb, han, hbn⟩ := run_loop n (fun i => [.resize (.loc k i), .resize (.rem k i)])
    (fun i t => t.arrays = s.arrays + 2 ∧ s.next ≤ t.next ∧ ∃ a b, t.val = rows k g a b ∧
      (∀ j < n, if j < i then ∃ x, a j = some (some x) else a j = some none) ∧
      (∀ j < n, if j < i then ∃ x, b j = some (some x) else b j = some none) ∧ (∀ j, n ≤ j → a j = none) ∧ ∀ j, n ≤ j → b j = none)
    (by
      rintro i hi t ⟨h1, h2, a, b, h3, h4, h5, h6, h7⟩
      have e1 : a i = some none := by simpa using h4 i hi
      have e2 : b i = some none := by simpa using h5 i hi
      have t1 : t.val (.loc k i) ≠ none := by rw [h3]; simp [rows, e1]
      have t2 : t.val (.rem k i) ≠ none := by rw [h3]; simp [rows, e2]
      refine ⟨⟨Function.update (Function.update t.val (.loc k i) (some (some t.next))) (.rem k i) (some (some (t.next + 1))),
          t.next + 1 + 1, t.arrays⟩, by simp [run, step, t1, t2], h1, by simp only; omega,
        Function.update a i (some (some t.next)), Function.update b i (some (some (t.next + 1))), ?_, ?_, ?_, ?_, ?_⟩
      · simp only [h3, rows_loc, rows_rem]
      · intro j hj
        have := h4 j hj
        by_cases e : j = i
        · subst e; simp
        · rw [Function.update_of_ne e]
          split_ifs at this ⊢ <;> first | exact this | omega
      · intro j hj
        have := h5 j hj
        by_cases e : j = i
        · subst e; simp
        · rw [Function.update_of_ne e]
          split_ifs at this ⊢ <;> first | exact this | omega
      · intro j hj; rw [Function.update_of_ne (by omega)]; exact h6 j hj
      · intro j hj; rw [Function.update_of_ne (by omega)]; exact h7 j hj)
    s2 ⟨p2, q2.ge, _, _, v2, fun j hj => by simp [hj], fun j hj => by simp [hj], fun j hj => by simp; omega,
      fun j hj => by simp; omega⟩
  have Ha : Held n a := ⟨fun j hj => by simpa [hj] using ha j hj, han⟩
  have Hb : Held n b := ⟨fun j hj => by simpa [hj] using hb j hj, hbn⟩
  refine ⟨s3, a, b, ?_, v3, Ha, Hb, p3, q3⟩
  have e1 : run (.newArray :: loop n fun i => [.construct (.loc k i)]) s = some s1 := r1
  have e2 : run (.newArray :: loop n fun i => [.construct (.rem k i)]) s1 = some s2 := r2
  unfold fill
  rw [run_append, run_append, e1, Option.bind_some, e2, Option.bind_some, r3]

theorem run_fill (k n : ℕ) (g : ℕ → Option (Option ℕ)) (s : State)
    (hs : s.val = rows 0 g (fun _ => none) (fun _ => none)) :
    ∃ s3 a b, run (fill k n) s = some s3 ∧ s3.val = rows k g a b ∧ Held n a ∧ Held n b := by
  obtain ⟨s3, a, b, h1, h2, h3, h4, -⟩ := run_fill' k n g s hs
  exact ⟨s3, a, b, h1, h2, h3, h4⟩

/-- One exchange: the ghost faces are as before, the buffers are gone, two raw arrays are left. -/
theorem run_exchange (k n : ℕ) (g : ℕ → Option (Option ℕ)) (s : State)
    (hs : s.val = rows 0 g (fun _ => none) (fun _ => none)) :
    (Held n g → ∃ s', run (exchange k n) s = some s' ∧ s'.val = s.val ∧ s.next ≤ s'.next ∧ s'.arrays = s.arrays + 2) ∧
    (0 < n → g 0 = none → run (exchange k n) s = none) := by
  set z : ℕ → Option (Option ℕ) := fun _ => none
  have hs' : s.val = rows k g z z := hs.trans (rows_none 0 k g)
  obtain ⟨s3, a, b, r3, v3, Ha, Hb, p3, q3⟩ := run_fill' k n g s hs
  have han := Ha.2
  have hbn := Hb.2
  have pre : run (exchange k n) s = (run (communicate k n) s3).bind (run (loop n fun i => [.destroy (.loc k i), .destroy (.rem k i)])) := by
    have : exchange k n = fill k n ++ communicate k n ++ loop n fun i => [.destroy (.loc k i), .destroy (.rem k i)] := by
      simp [exchange, fill]
    rw [this, run_append, run_append, r3, Option.bind_some]
  refine ⟨fun hg => ?_, fun h0 hgn => ?_⟩
  · obtain ⟨s4, r4, p4, q4, a', b', v4, h4⟩ := run_loop n (fun i => [.destroy (.loc k i), .destroy (.rem k i)])
      (fun i t => t.arrays = s.arrays + 2 ∧ s.next ≤ t.next ∧ ∃ a' b', t.val = rows k g a' b' ∧
        ∀ j, (a' j = none ↔ j < i ∨ n ≤ j) ∧ (b' j = none ↔ j < i ∨ n ≤ j))
      (by
        rintro i hi t ⟨h1, h2, a', b', h3, h4⟩
        have t1 : t.val (.loc k i) ≠ none := by
          rw [h3]; simp only [rows, if_true]; intro h; have := (h4 i).1.1 h; omega
        have t2 : t.val (.rem k i) ≠ none := by
          rw [h3]; simp only [rows, if_true]; intro h; have := (h4 i).2.1 h; omega
        refine ⟨{ t with val := Function.update (Function.update t.val (.loc k i) none) (.rem k i) none },
          by simp [run, step, t1, t2], h1, h2, Function.update a' i none, Function.update b' i none,
          by simp only [h3, rows_loc, rows_rem], fun j => ?_⟩
        by_cases e : j = i
        · subst e; simp
        · rw [Function.update_of_ne e, Function.update_of_ne e, (h4 j).1, (h4 j).2]
          omega)
      s3 ⟨p3, q3, a, b, v3, fun j => by
        by_cases hj : j < n
        · obtain ⟨x, hx⟩ := Ha.1 j hj
          obtain ⟨y, hy⟩ := Hb.1 j hj
          simp [hx, hy, hj]
        · simp [han j (by omega), hbn j (by omega)]; omega⟩
    refine ⟨s4, ?_, ?_, q4, p4⟩
    · rw [pre, run_communicate k n g a b hg Ha Hb s3 v3]; exact r4
    · have za : a' = z := funext fun j => (h4 j).1.2 (by omega)
      have zb : b' = z := funext fun j => (h4 j).2.2 (by omega)
      rw [v4, za, zb, hs']
  · rw [pre]
    have hg0 : s3.val (.ghost 0) = none := by rw [v3]; exact hgn
    have : run (communicate k n) s3 = none := by
      obtain ⟨n, rfl⟩ : ∃ m, n = m + 1 := ⟨n - 1, by omega⟩
      unfold communicate loop
      rw [List.range_succ_eq_map]
      simp [run, step, hg0]
    rw [this]; rfl

/-- The end of the mesh. -/
theorem run_finalize (n : ℕ) (g : ℕ → Option (Option ℕ)) (s : State) (hs : s.val = rows 0 g (fun _ => none) (fun _ => none)) :
    (Held n g → ∃ s', run (finalizeMesh n) s = some s' ∧ (∀ o, s'.val o = none) ∧ s'.arrays = s.arrays) ∧
    (0 < n → g 0 = none → run (finalizeMesh n) s = none) := by
  refine ⟨fun hg => ?_, fun h0 hgn => ?_⟩
  · obtain ⟨s', r, p, g', v, h⟩ := run_loop n (fun i => [.destroy (.ghost i)])
      (fun i t => t.arrays = s.arrays ∧ ∃ g', t.val = rows 0 g' (fun _ => none) (fun _ => none) ∧
        ∀ j, g' j = none ↔ j < i ∨ n ≤ j)
      (by
        rintro i hi t ⟨h1, g', h3, h4⟩
        have t1 : t.val (.ghost i) ≠ none := by
          rw [h3]; simp only [rows]; intro h; have := (h4 i).1 h; omega
        refine ⟨{ t with val := Function.update t.val (.ghost i) none }, by simp [run, step, t1], h1, Function.update g' i none,
          by simp only [h3, rows_ghost], fun j => ?_⟩
        by_cases e : j = i
        · subst e; simp
        · rw [Function.update_of_ne e, h4 j]; omega)
      s ⟨rfl, g, hs, fun j => by
        by_cases hj : j < n
        · obtain ⟨x, hx⟩ := hg.1 j hj
          simp [hx, hj]
        · simp [hg.2 j (by omega)]; omega⟩
    refine ⟨s', r, fun o => ?_, p⟩
    have : g' = fun _ => none := funext fun j => (h j).2 (by omega)
    rw [v, this]
    cases o <;> simp [rows]
  · obtain ⟨n, rfl⟩ : ∃ m, n = m + 1 := ⟨n - 1, by omega⟩
    have : s.val (.ghost 0) = none := by rw [hs]; exact hgn
    unfold finalizeMesh loop
    rw [List.range_succ_eq_map]
    simp [run, step, this]

end DG.Vw
