import Verif.Lemmas.Views
import Verif.Spec.Views

/-!
C91: the arrays of `View`s that the program manages by hand.
-/
namespace DG.Vw
open Classical

theorem finalizedLast_nil : FinalizedLast [] := by
  intro pre post h
  simp at h

theorem finalizedLast_cons {c : Call} (hc : c ≠ .finalize) (l : List Call) : FinalizedLast (c :: l) ↔ FinalizedLast l := by
  constructor
  · intro h pre post e
    exact h (c :: pre) post (by rw [e]; rfl)
  · intro h pre post e
    cases pre with
    | nil => simp at e; exact absurd e.1 hc
    | cons d pre =>
      simp only [List.cons_append, List.cons.injEq] at e
      exact h pre post e.2

theorem finalizedLast_fin (l : List Call) : FinalizedLast (.finalize :: l) ↔ .residual ∉ l ∧ .finalize ∉ l := by
  constructor
  · intro h
    exact h [] l rfl
  · rintro ⟨h1, h2⟩ pre post e
    cases pre with
    | nil => simp at e; subst e; exact ⟨h1, h2⟩
    | cons d pre =>
      simp only [List.cons_append, List.cons.injEq] at e
      exact absurd (by rw [e.2]; simp) h2

/-- no object -/
def gone : Obj → Option (Option ℕ) := rows 0 (fun _ => none) (fun _ => none) (fun _ => none)

theorem gone_none (o : Obj) : gone o = none := by cases o <;> simp [gone, rows]

theorem held_zero (g : ℕ → Option (Option ℕ)) (hg : g = fun _ => none) : Held 0 g := ⟨fun j hj => by omega, fun j _ => by rw [hg]⟩

/-- calls after the end of the mesh -/
theorem calls_gone (n : ℕ) (l : List Call) : ∀ (k : ℕ) (s : State), s.val = gone →
    ((n = 0 ∨ .residual ∉ l ∧ .finalize ∉ l) → ∃ s', run (callOps n k l) s = some s' ∧ s'.val = gone ∧
      s'.arrays = s.arrays + 2 * l.count .residual) ∧
    (0 < n → .residual ∈ l ∨ .finalize ∈ l → run (callOps n k l) s = none) := by
  induction l with
  | nil => intro k s hs; exact ⟨fun _ => ⟨s, rfl, hs, rfl⟩, fun _ h => by simp at h⟩
  | cons c l ih =>
    intro k s hs
    have E := run_exchange k n (fun _ => none) s hs
    have F := run_finalize n (fun _ => none) s hs
    cases c with
    | residual =>
      refine ⟨fun h => ?_, fun h0 _ => ?_⟩
      · have hn : n = 0 := by simpa using h
        subst hn
        obtain ⟨s1, r1, v1, -, a1⟩ := E.1 (held_zero _ rfl)
        obtain ⟨s2, r2, v2, a2⟩ := (ih (k + 1) s1 (v1.trans hs)).1 (Or.inl rfl)
        refine ⟨s2, ?_, v2, by rw [a2, a1, List.count_cons_self]; ring⟩
        simp only [callOps, Call.ops, if_true]
        rw [run_append, r1]; exact r2
      · simp only [callOps, Call.ops]
        rw [run_append, E.2 h0 rfl]; rfl
    | finalize =>
      refine ⟨fun h => ?_, fun h0 _ => ?_⟩
      · have hn : n = 0 := by simpa using h
        subst hn
        obtain ⟨s1, r1, v1, a1⟩ := F.1 (held_zero _ rfl)
        obtain ⟨s2, r2, v2, a2⟩ := (ih k s1 (funext fun o => by rw [v1, gone_none])).1 (Or.inl rfl)
        refine ⟨s2, ?_, v2, by rw [a2, a1]; simp⟩
        simp only [callOps, Call.ops]
        rw [run_append, r1]; exact r2
      · simp only [callOps, Call.ops]
        rw [run_append, F.2 h0 rfl]; rfl
    | copyMesh => simpa [callOps, Call.ops] using ih k s hs
    | dropCopy => simpa [callOps, Call.ops] using ih k s hs

/-- calls while the mesh has its ghost faces -/
theorem calls_alive (n : ℕ) (f : ℕ → ℕ) (l : List Call) : ∀ (k : ℕ) (s : State),
    s.val = rows 0 (ghosts n f) (fun _ => none) (fun _ => none) →
    ((n = 0 ∨ FinalizedLast l) → ∃ s', run (callOps n k l) s = some s' ∧
      s'.val = (if .finalize ∈ l then gone else s.val) ∧ s'.arrays = s.arrays + 2 * l.count .residual) ∧
    (0 < n → ¬ FinalizedLast l → run (callOps n k l) s = none) := by
  induction l with
  | nil => intro k s hs; exact ⟨fun _ => ⟨s, rfl, by simp, rfl⟩, fun _ h => absurd finalizedLast_nil h⟩
  | cons c l ih =>
    intro k s hs
    have E := run_exchange k n _ s hs
    have F := run_finalize n _ s hs
    cases c with
    | residual =>
      obtain ⟨s1, r1, v1, -, a1⟩ := E.1 (held_ghosts n f)
      have I := ih (k + 1) s1 (v1.trans hs)
      rw [finalizedLast_cons (by decide)]
      simp only [callOps, Call.ops, if_true]
      rw [run_append, r1, Option.bind_some]
      refine ⟨fun h => ?_, I.2⟩
      obtain ⟨s2, r2, v2, a2⟩ := I.1 h
      refine ⟨s2, r2, ?_, by rw [a2, a1, List.count_cons_self]; ring⟩
      rw [v2, v1]
      simp
    | finalize =>
      obtain ⟨s1, r1, v1, a1⟩ := F.1 (held_ghosts n f)
      have hv : s1.val = gone := funext fun o => by rw [v1, gone_none]
      have I := calls_gone n l k s1 hv
      rw [finalizedLast_fin]
      simp only [callOps, Call.ops]
      rw [run_append, r1, Option.bind_some]
      refine ⟨fun h => ?_, fun h0 h => I.2 h0 (by tauto)⟩
      obtain ⟨s2, r2, v2, a2⟩ := I.1 h
      exact ⟨s2, r2, by simpa using v2, by rw [a2, a1]; simp⟩
    | copyMesh =>
      rw [finalizedLast_cons (by decide)]
      simpa [callOps, Call.ops] using ih k s hs
    | dropCopy =>
      rw [finalizedLast_cons (by decide)]
      simpa [callOps, Call.ops] using ih k s hs

/-- **C91** (when a history is defined).  On a rank with neighbours, a history of residuals, copies of the mesh and `finalize` uses
no `View` after its destructor, and destructs none twice, exactly if nothing but copies follows a `finalize`.  A rank without
neighbours has no such restriction. -/
theorem C91_defined (n : ℕ) (l : List Call) :
    (∃ s, run (history n l) start = some s) ↔ n = 0 ∨ FinalizedLast l := by
  obtain ⟨s, f, r, a, h1, h2, v⟩ := run_constructMesh n
  have I := calls_alive n f l 0 s v
  unfold history
  rw [run_append, r, Option.bind_some]
  constructor
  · rintro ⟨s', h⟩
    by_contra hn
    push Not at hn
    rw [I.2 (by omega) hn.2] at h
    simp at h
  · intro h
    obtain ⟨s', h, -⟩ := I.1 h
    exact ⟨s', h⟩

/-- **C91** (memory after a history).  After any such history the memory held is one array for each neighbour, and none after
`finalize`: a residual leaves none behind, however many there were. -/
theorem C91_held (n : ℕ) (l : List Call) (s : State) (h : run (history n l) start = some s) :
    (held s).ncard = if .finalize ∈ l then 0 else n := by
  have hd := (C91_defined n l).1 ⟨s, h⟩
  obtain ⟨s0, f, r, a, h1, h2, v⟩ := run_constructMesh n
  obtain ⟨s', r', v', -⟩ := (calls_alive n f l 0 s0 v).1 hd
  unfold history at h
  rw [run_append, r, Option.bind_some, r'] at h
  cases h
  unfold held
  rw [v']
  split_ifs with hf
  · simp [gone_none]
  · rw [v]
    have e : {a | ∃ o, rows 0 (ghosts n f) (fun _ => none) (fun _ => none) o = some (some a)} = f '' {i | i < n} := by
      ext x
      constructor
      · rintro ⟨o, ho⟩
        cases o <;> simp [rows, ghosts] at ho
        exact ⟨_, ho.1, ho.2⟩
      · rintro ⟨i, hi, rfl⟩
        have hi' : i < n := hi
        exact ⟨.ghost i, by simp [rows, ghosts, hi']⟩
    have inj : Set.InjOn f {i | i < n} := fun i hi j hj h => h2 i hi j hj h
    rw [e, Set.ncard_image_of_injOn inj, show {i | i < n} = ((Finset.range n : Finset ℕ) : Set ℕ) by ext; simp, Set.ncard_coe_finset,
      Finset.card_range]

/-- **C91** (the raw arrays).  The blocks given by `new View[…]` are never deleted: one by the constructor of the mesh and two by
every residual. -/
theorem C91_blocks (n : ℕ) (l : List Call) (s : State) (h : run (history n l) start = some s) :
    s.arrays = 1 + 2 * l.count .residual := by
  have hd := (C91_defined n l).1 ⟨s, h⟩
  obtain ⟨s0, f, r, a, h1, h2, v⟩ := run_constructMesh n
  obtain ⟨s', r', -, a'⟩ := (calls_alive n f l 0 s0 v).1 hd
  unfold history at h
  rw [run_append, r, Option.bind_some, r'] at h
  cases h
  rw [a', a]

/-! ### at any moment -/

/-- variable of a loop body -/
def isTmp : Obj → Prop
  | .tmp _ => True
  | _ => False

/-- the number of variables of loop bodies after `l`; `none`: an array is released or replaced while one of them exists -/
def chk : ℕ → List Op → Option ℕ
  | d, [] => some d
  | d, .copy (.tmp _) _ :: l => chk (d + 1) l
  | d, .destroy (.tmp _) :: l => chk (d - 1) l
  | _, .copy _ _ :: _ => none
  | _, .construct (.tmp _) :: _ => none
  | _, .resize (.tmp _) :: _ => none
  | d, .construct _ :: l => chk d l
  | d, .resize _ :: l => if d = 0 then chk d l else none
  | d, .destroy _ :: l => if d = 0 then chk d l else none
  | d, .access _ :: l => chk d l
  | d, .newArray :: l => chk d l

theorem chk_append (l l' : List Op) : ∀ d, chk d (l ++ l') = (chk d l).bind fun e => chk e l' := by
  induction l with
  | nil => intro d; rfl
  | cons c l ih =>
    intro d
    cases c with
    | construct o => cases o <;> simp [chk, ih]
    | resize o => cases o <;> simp [chk] <;> split_ifs <;> simp [ih]
    | copy o w => cases o <;> simp [chk, ih]
    | destroy o => cases o <;> simp [chk] <;> (try split_ifs) <;> simp [ih]
    | access o => simp [chk, ih]
    | newArray => simp [chk, ih]

theorem chk_loop (n : ℕ) (body : ℕ → List Op) (h : ∀ i, chk 0 (body i) = some 0) : chk 0 (loop n body) = some 0 := by
  induction n with
  | zero => rfl
  | succ n ih =>
    have : loop (n + 1) body = loop n body ++ body n := by simp [loop, List.range_succ]
    rw [this, chk_append, ih]
    exact h n

theorem chk_constructMesh (n : ℕ) : chk 0 (constructMesh n) = some 0 := by
  unfold constructMesh
  rw [List.append_assoc, List.cons_append, show ∀ l, chk 0 (.newArray :: l) = chk 0 l from fun _ => rfl, chk_append, chk_loop n _ (fun i => by simp [chk]), Option.bind_some, chk_append, chk_loop n _ (fun i => by simp [chk]),
    Option.bind_some, chk_loop n _ (fun i => by simp [chk])]

theorem chk_communicate (k n : ℕ) : chk 0 (communicate k n) = some 0 := by
  unfold communicate
  iterate 3 rw [chk_append]
  rw [chk_loop n _ (fun i => by simp [chk]), Option.bind_some, chk_loop n _ (fun i => by simp [chk]), Option.bind_some,
    chk_loop n _ (fun i => by simp [chk]), Option.bind_some, chk_loop n _ (fun i => by simp [chk])]

theorem chk_call (n k : ℕ) (c : Call) : chk 0 (c.ops n k) = some 0 := by
  cases c with
  | residual =>
    unfold Call.ops exchange
    iterate 4 rw [chk_append]
    rw [show ∀ l, chk 0 (.newArray :: l) = chk 0 l from fun _ => rfl, chk_loop n _ (fun i => by simp [chk]), Option.bind_some,
      show ∀ l, chk 0 (.newArray :: l) = chk 0 l from fun _ => rfl, chk_loop n _ (fun i => by simp [chk]), Option.bind_some,
      chk_loop n _ (fun i => by simp [chk]), Option.bind_some, chk_communicate, Option.bind_some, chk_loop n _ (fun i => by simp [chk])]
  | copyMesh => rfl
  | dropCopy => rfl
  | finalize => exact chk_loop n _ (fun i => by simp [chk])

theorem chk_calls (n : ℕ) (l : List Call) : ∀ k, chk 0 (callOps n k l) = some 0 := by
  induction l with
  | nil => intro k; rfl
  | cons c l ih =>
    intro k
    simp only [callOps]
    rw [chk_append, chk_call]
    exact ih _

/-- `d` variables of loop bodies exist, and what they refer to is an array of the mesh or of the exchange. -/
structure Shared (d : ℕ) (s : State) : Prop where
  count : ∃ T : Finset ℕ, T.card = d ∧ ∀ j, s.val (.tmp j) ≠ none ↔ j ∈ T
  owned : ∀ j a, s.val (.tmp j) = some (some a) → ∃ o, ¬ isTmp o ∧ s.val o = some (some a)

theorem Shared.none {s : State} (h : Shared 0 s) (j : ℕ) : s.val (.tmp j) = Option.none := by
  obtain ⟨T, hT, h⟩ := h.count
  by_contra hc
  have := (h j).1 hc
  rw [Finset.card_eq_zero.1 hT] at this
  simp at this

theorem shared_of_none {s : State} (h : ∀ j, s.val (.tmp j) = none) : Shared 0 s :=
  ⟨⟨∅, rfl, fun j => by simp [h j]⟩, fun j a ha => by simp [h j] at ha⟩

theorem update_ne_tmp (v : Obj → Option (Option ℕ)) (o : Obj) (x : Option (Option ℕ)) (ho : ¬ isTmp o) (j : ℕ) :
    Function.update v o x (.tmp j) = v (.tmp j) :=
  Function.update_of_ne (by rintro rfl; exact ho trivial) _ _

theorem shared_run (l : List Op) : ∀ d e s s', Shared d s → chk d l = some e → run l s = some s' → Shared e s' := by
  induction l with
  | nil => intro d e s s' h c r; cases c; cases r; exact h
  | cons c l ih =>
    intro d e s s' h hc r
    simp only [run] at r
    cases hs : step s c with
    | none => rw [hs] at r; simp at r
    | some t =>
      rw [hs, Option.bind_some] at r
      -- an operation on an array while there is no variable of a loop body
      have quiet : ∀ o, ¬ isTmp o → d = 0 → ∀ x, t.val = Function.update s.val o x → Shared d t := by
        rintro o ho rfl x e'
        exact shared_of_none fun j => by rw [e', update_ne_tmp _ _ _ ho]; exact h.none j
      have fresh : ∀ o, ¬ isTmp o → s.val o = none → ∀ x, t.val = Function.update s.val o x → Shared d t := by
        intro o ho hn x e'
        obtain ⟨T, hT, hj⟩ := h.count
        refine ⟨⟨T, hT, fun j => by rw [e', update_ne_tmp _ _ _ ho]; exact hj j⟩, fun j a ha => ?_⟩
        rw [e', update_ne_tmp _ _ _ ho] at ha
        obtain ⟨w, hw, hv⟩ := h.owned j a ha
        refine ⟨w, hw, ?_⟩
        rw [e', Function.update_of_ne (by rintro rfl; rw [hn] at hv; simp at hv)]
        exact hv
      cases c with
      | construct o =>
        simp only [step] at hs
        split_ifs at hs with hn
        cases hs
        have ho : ¬ isTmp o := by cases o <;> simp [isTmp, chk] at hc ⊢
        have : chk d l = some e := by cases o <;> simpa [chk] using hc
        exact ih d e _ s' (fresh o ho hn _ rfl) this r
      | resize o =>
        simp only [step] at hs
        split_ifs at hs with hn
        cases hs
        have ho : ¬ isTmp o := by cases o <;> simp [isTmp, chk] at hc ⊢
        have : d = 0 ∧ chk d l = some e := by
          cases o <;> simp only [chk] at hc <;> first | (split_ifs at hc with h0; exact ⟨h0, hc⟩) | simp at hc
        exact ih d e _ s' (quiet o ho this.1 _ rfl) this.2 r
      | access o =>
        simp only [step] at hs
        split at hs
        · cases hs; exact ih d e _ s' h (by simpa [chk] using hc) r
        · cases hs
      | newArray =>
        cases hs
        exact ih d e { s with arrays := s.arrays + 1 } s' ⟨h.count, h.owned⟩ (by simpa [chk] using hc) r
      | destroy o =>
        simp only [step] at hs
        split_ifs at hs with hn
        cases hs
        by_cases ho : isTmp o
        · obtain ⟨j, rfl⟩ : ∃ j, o = .tmp j := by cases o <;> simp [isTmp] at ho ⊢
          refine ih (d - 1) e _ s' ?_ (by simpa [chk] using hc) r
          obtain ⟨T, hT, hj⟩ := h.count
          refine ⟨⟨T.erase j, by rw [Finset.card_erase_of_mem ((hj j).1 hn), hT], fun i => ?_⟩, fun i a ha => ?_⟩
          · by_cases hi : i = j
            · subst hi; simp
            · simp only
              rw [Finset.mem_erase, Function.update_of_ne (by simpa using hi), hj i]
              simp [hi]
          · by_cases hi : i = j
            · subst hi; simp at ha
            · simp only [Function.update_of_ne (show Obj.tmp i ≠ .tmp j by simpa using hi)] at ha
              obtain ⟨w, hw, hv⟩ := h.owned i a ha
              refine ⟨w, hw, ?_⟩
              simp only
              rw [Function.update_of_ne (by rintro rfl; exact hw trivial)]
              exact hv
        · have : d = 0 ∧ chk d l = some e := by
            cases o <;> simp only [chk] at hc <;> first | (split_ifs at hc with h0; exact ⟨h0, hc⟩) | exact absurd trivial ho
          exact ih d e _ s' (quiet o ho this.1 _ rfl) this.2 r
      | copy o w =>
        simp only [step] at hs
        split_ifs at hs with hn
        cases hs
        obtain ⟨j, rfl⟩ : ∃ j, o = .tmp j := by cases o <;> simp [chk] at hc ⊢
        refine ih (d + 1) e _ s' ?_ (by simpa [chk] using hc) r
        obtain ⟨T, hT, hj⟩ := h.count
        have hjT : j ∉ T := fun hm => (hj j).2 hm hn.1
        refine ⟨⟨insert j T, by rw [Finset.card_insert_of_notMem hjT, hT], fun i => ?_⟩, fun i a ha => ?_⟩
        · by_cases hi : i = j
          · subst hi; simp [hn.2]
          · simp only
            rw [Finset.mem_insert, Function.update_of_ne (by simpa using hi), hj i]
            simp [hi]
        · have keep : ∀ w', ¬ isTmp w' → s.val w' = some (some a) → Function.update s.val (.tmp j) (s.val w) w' = some (some a) :=
            fun w' hw' hv => by rw [Function.update_of_ne (by rintro rfl; exact hw' trivial)]; exact hv
          have src : ∃ w', ¬ isTmp w' ∧ s.val w' = some (some a) := by
            by_cases hi : i = j
            · subst hi
              simp only [Function.update_self] at ha
              by_cases hw : isTmp w
              · obtain ⟨m, rfl⟩ : ∃ m, w = .tmp m := by cases w <;> simp [isTmp] at hw ⊢
                exact h.owned m a ha
              · exact ⟨w, hw, ha⟩
            · simp only [Function.update_of_ne (show Obj.tmp i ≠ .tmp j by simpa using hi)] at ha
              exact h.owned i a ha
          obtain ⟨w', hw', hv⟩ := src
          exact ⟨w', hw', keep w' hw' hv⟩

/-- at any moment what is held is held by an array of the mesh or of the exchange -/
theorem shared_history (n : ℕ) (l : List Call) (p : List Op) (hp : p <+: history n l) (s : State) (h : run p start = some s) :
    ∃ d, Shared d s := by
  have c : chk 0 (history n l) = some 0 := by
    unfold history
    rw [chk_append, chk_constructMesh]
    exact chk_calls n l 0
  obtain ⟨q, hq⟩ := hp
  rw [← hq, chk_append] at c
  cases hd : chk 0 p with
  | none => rw [hd] at c; simp at c
  | some d => exact ⟨d, shared_run p 0 d start s (shared_of_none fun _ => rfl) hd h⟩

/-- No two arrays of the mesh and of the exchange share memory, and memory is numbered consecutively. -/
structure Own (s : State) : Prop where
  inj : ∀ o o' a, ¬ isTmp o → ¬ isTmp o' → s.val o = some (some a) → s.val o' = some (some a) → o = o'
  below : ∀ o a, s.val o = some (some a) → a < s.next

theorem own_update {s : State} (h : Own s) (o : Obj) (x : Option (Option ℕ)) (hx : ∀ a, x ≠ some (some a)) (m : ℕ) :
    Own ⟨Function.update s.val o x, s.next, m⟩ := by
  have back : ∀ w a, Function.update s.val o x w = some (some a) → s.val w = some (some a) := by
    intro w a hw
    by_cases e : w = o
    · subst e; rw [Function.update_self] at hw; exact absurd hw (hx a)
    · rwa [Function.update_of_ne e] at hw
  exact ⟨fun w w' a t t' e e' => h.inj w w' a t t' (back w a e) (back w' a e'), fun w a e => h.below w a (back w a e)⟩

theorem own_run (l : List Op) : ∀ d e s s', Own s → chk d l = some e → run l s = some s' → Own s' := by
  induction l with
  | nil => intro d e s s' h c r; cases r; exact h
  | cons c l ih =>
    intro d e s s' h hc r
    simp only [run] at r
    cases hs : step s c with
    | none => rw [hs] at r; simp at r
    | some t =>
      rw [hs, Option.bind_some] at r
      have next : ∃ d', chk d' l = some e := by
        cases c with
        | construct o => cases o <;> simp [chk] at hc <;> exact ⟨_, hc⟩
        | resize o => cases o <;> simp [chk] at hc <;> exact ⟨_, hc.2⟩
        | copy o w => cases o <;> simp [chk] at hc; exact ⟨_, hc⟩
        | destroy o => cases o <;> simp [chk] at hc <;> first | exact ⟨_, hc.2⟩ | exact ⟨_, hc⟩
        | access o => exact ⟨_, hc⟩
        | newArray => exact ⟨_, hc⟩
      obtain ⟨d', hd'⟩ := next
      refine ih d' e t s' ?_ hd' r
      cases c with
      | construct o =>
        simp only [step] at hs
        split_ifs at hs
        cases hs
        exact own_update h o _ (by simp) _
      | destroy o =>
        simp only [step] at hs
        split_ifs at hs
        cases hs
        exact own_update h o _ (by simp) _
      | access o =>
        simp only [step] at hs
        split at hs
        · cases hs; exact h
        · cases hs
      | newArray => cases hs; exact ⟨h.inj, h.below⟩
      | resize o =>
        simp only [step] at hs
        split_ifs at hs
        cases hs
        refine ⟨fun w w' a tw tw' e1 e2 => ?_, fun w a e1 => ?_⟩
        · simp only [Function.update_apply] at e1 e2
          split_ifs at e1 e2 with c1 c2 c2
          · rw [c1, c2]
          · have := h.below w' a e2
            simp at e1; omega
          · have := h.below w a e1
            simp at e2; omega
          · exact h.inj w w' a tw tw' e1 e2
        · simp only [Function.update_apply] at e1
          split_ifs at e1
          · simp at e1; simp only; omega
          · have := h.below w a e1
            simp only; omega
      | copy o w =>
        simp only [step] at hs
        split_ifs at hs
        cases hs
        have ho : isTmp o := by cases o <;> simp [chk] at hc; trivial
        have ne : ∀ v, ¬ isTmp v → v ≠ o := by rintro v hv rfl; exact hv ho
        refine ⟨fun v v' a t t' e1 e2 => ?_, fun v a e1 => ?_⟩
        · simp only [Function.update_of_ne (ne v t), Function.update_of_ne (ne v' t')] at e1 e2
          exact h.inj v v' a t t' e1 e2
        · simp only [Function.update_apply] at e1
          split_ifs at e1
          · exact h.below w a e1
          · exact h.below v a e1

/-- the arrays of the mesh and of exchange `k` -/
def objects (n k : ℕ) : Finset Obj :=
  (Finset.range n).image Obj.ghost ∪ (Finset.range n).image (Obj.loc k) ∪ (Finset.range n).image (Obj.rem k)

theorem card_objects (n k : ℕ) : (objects n k).card ≤ 3 * n := by
  unfold objects
  have c : ∀ (m : ℕ) (g : ℕ → Obj), ((Finset.range m).image g).card ≤ m := fun m g =>
    Finset.card_image_le.trans (by simp)
  have h2 := Finset.card_union_le ((Finset.range n).image Obj.ghost ∪ (Finset.range n).image (Obj.loc k)) ((Finset.range n).image (Obj.rem k))
  have h3 := Finset.card_union_le ((Finset.range n).image Obj.ghost) ((Finset.range n).image (Obj.loc k))
  have := c n Obj.ghost
  have := c n (Obj.loc k)
  have := c n (Obj.rem k)
  omega

theorem held_le {d : ℕ} (s : State) (hsh : Shared d s) (S : Finset Obj) (h : ∀ o, ¬ isTmp o → s.val o ≠ none → o ∈ S) :
    (held s).ncard ≤ S.card := by
  have : held s ⊆ ((S.image fun o => ((s.val o).getD none).getD 0 : Finset ℕ) : Set ℕ) := by
    rintro a ⟨o, ho⟩
    obtain ⟨w, hw, hv⟩ : ∃ w, ¬ isTmp w ∧ s.val w = some (some a) := by
      by_cases ht : isTmp o
      · obtain ⟨m, rfl⟩ : ∃ m, o = .tmp m := by cases o <;> simp [isTmp] at ht ⊢
        exact hsh.owned m a ho
      · exact ⟨o, ht, ho⟩
    simp only [Finset.coe_image, Set.mem_image, Finset.mem_coe]
    exact ⟨w, h w hw (by rw [hv]; simp), by rw [hv]; rfl⟩
  refine (Set.ncard_le_ncard this (Finset.finite_toSet _)).trans ?_
  rw [Set.ncard_coe_finset]
  exact Finset.card_image_le

/-- an object that exists was there before or has been constructed -/
theorem exists_of_run (l : List Op) : ∀ s s', run l s = some s' → ∀ o, s'.val o ≠ none →
    s.val o ≠ none ∨ .construct o ∈ l ∨ ∃ w, .copy o w ∈ l := by
  induction l with
  | nil => intro s s' h o ho; cases h; exact Or.inl ho
  | cons c l ih =>
    intro s s' h o ho
    simp only [run] at h
    cases hc : step s c with
    | none => rw [hc] at h; simp at h
    | some t =>
      rw [hc, Option.bind_some] at h
      rcases ih t s' h o ho with h1 | h1 | ⟨w, h1⟩
      · cases c <;> simp only [step] at hc
        case construct o' =>
          split_ifs at hc
          cases hc
          by_cases e : o = o'
          · exact Or.inr (Or.inl (by simp [e]))
          · simp only [Function.update_of_ne e] at h1; exact Or.inl h1
        case resize o' =>
          split_ifs at hc with hz
          cases hc
          by_cases e : o = o'
          · exact Or.inl (by rw [e]; exact hz)
          · simp only [Function.update_of_ne e] at h1; exact Or.inl h1
        case copy o' w =>
          split_ifs at hc
          cases hc
          by_cases e : o = o'
          · exact Or.inr (Or.inr ⟨w, by simp [e]⟩)
          · simp only [Function.update_of_ne e] at h1; exact Or.inl h1
        case destroy o' =>
          split_ifs at hc
          cases hc
          by_cases e : o = o'
          · subst e; simp at h1
          · simp only [Function.update_of_ne e] at h1; exact Or.inl h1
        case access o' =>
          split at hc
          · cases hc; exact Or.inl h1
          · cases hc
        case newArray => cases hc; exact Or.inl h1
      · exact Or.inr (Or.inl (by simp [h1]))
      · exact Or.inr (Or.inr ⟨w, by simp [h1]⟩)

theorem made_by_mesh (n k : ℕ) (o : Obj) (h : .construct o ∈ constructMesh n ∨ ∃ w, .copy o w ∈ constructMesh n) (ho : ¬ isTmp o) :
    o ∈ objects n k := by
  simp [constructMesh, loop, objects] at h ⊢
  rcases h with ⟨i, hi, rfl⟩ | ⟨w, i, hi, rfl, rfl⟩
  · exact Or.inl ⟨i, hi, rfl⟩
  · exact absurd trivial ho

theorem made_by_call (n k : ℕ) (c : Call) (o : Obj) (h : .construct o ∈ c.ops n k ∨ ∃ w, .copy o w ∈ c.ops n k) (ho : ¬ isTmp o) :
    o ∈ objects n k := by
  cases c with
  | residual =>
    cases o with
    | tmp j => exact absurd trivial ho
    | ghost i => simp [Call.ops, exchange, communicate, loop] at h
    | loc k' i =>
      simp [Call.ops, exchange, communicate, loop, objects] at h ⊢
      aesop
    | rem k' i =>
      simp [Call.ops, exchange, communicate, loop, objects] at h ⊢
      aesop
  | copyMesh => simp [Call.ops] at h
  | dropCopy => simp [Call.ops] at h
  | finalize => simp [Call.ops, finalizeMesh, loop] at h

theorem peak_calls (n : ℕ) (l : List Call) : ∀ (k : ℕ) (g : ℕ → Option (Option ℕ)) (s : State),
    s.val = rows 0 g (fun _ => none) (fun _ => none) → (∀ j, n ≤ j → g j = none) → (Held n g ∨ g = fun _ => none) →
    ∀ p, p <+: callOps n k l → ∀ s' d, run p s = some s' → Shared d s' → (held s').ncard ≤ 3 * n := by
  have small : ∀ (k : ℕ) (g : ℕ → Option (Option ℕ)) (s : State), s.val = rows 0 g (fun _ => none) (fun _ => none) →
      (∀ j, n ≤ j → g j = none) → ∀ o, ¬ isTmp o → s.val o ≠ none → o ∈ objects n k := by
    intro k g s hs hg o ht ho
    clear ht
    rw [hs] at ho
    cases o <;> simp [rows] at ho
    next i =>
      have : i < n := by by_contra hc; exact ho (hg i (by omega))
      simp [objects, this]
  induction l with
  | nil =>
    intro k g s hs hg _ p hp s' d h hd
    obtain rfl : p = [] := List.prefix_nil.1 hp
    cases h
    exact (held_le s hd (objects n k) (small k g s hs hg)).trans (card_objects n k)
  | cons c l ih =>
    intro k g s hs hg hh p hp s' d h hd
    simp only [callOps] at hp
    rcases List.prefix_or_prefix_of_prefix hp (List.prefix_append (c.ops n k) _) with h1 | ⟨q, rfl⟩
    · refine (held_le s' hd (objects n k) fun o ht ho => ?_).trans (card_objects n k)
      rcases exists_of_run p s s' h o ho with h2 | h2 | ⟨w, h2⟩
      · exact small k g s hs hg o ht h2
      · exact made_by_call n k c o (Or.inl (h1.subset h2)) ht
      · exact made_by_call n k c o (Or.inr ⟨w, h1.subset h2⟩) ht
    · have hq := (List.prefix_append_right_inj _).1 hp
      rw [run_append] at h
      cases hm : run (c.ops n k) s with
      | none => rw [hm] at h; simp at h
      | some t =>
        rw [hm, Option.bind_some] at h
        have key : ∃ g', t.val = rows 0 g' (fun _ => none) (fun _ => none) ∧ (∀ j, n ≤ j → g' j = none) ∧
            (Held n g' ∨ g' = fun _ => none) := by
          have held0 : Held n g ∨ (0 < n ∧ g 0 = none) := by
            rcases hh with hh | rfl
            · exact Or.inl hh
            · rcases Nat.eq_zero_or_pos n with rfl | h0
              · exact Or.inl (held_zero _ rfl)
              · exact Or.inr ⟨h0, rfl⟩
          cases c with
          | residual =>
            rcases held0 with hg' | ⟨h0, hn⟩
            · obtain ⟨s1, r1, v1, -⟩ := (run_exchange k n g s hs).1 hg'
              have : t = s1 := Option.some.inj (hm.symm.trans r1)
              exact ⟨g, by rw [this, v1, hs], hg, hh⟩
            · have := hm.symm.trans ((run_exchange k n g s hs).2 h0 hn)
              simp at this
          | finalize =>
            rcases held0 with hg' | ⟨h0, hn⟩
            · obtain ⟨s1, r1, v1, -⟩ := (run_finalize n g s hs).1 hg'
              have : t = s1 := Option.some.inj (hm.symm.trans r1)
              exact ⟨fun _ => none, by funext o; rw [this, v1]; exact (gone_none o).symm, fun _ _ => rfl, Or.inr rfl⟩
            · have := hm.symm.trans ((run_finalize n g s hs).2 h0 hn)
              simp at this
          | copyMesh => cases hm; exact ⟨g, hs, hg, hh⟩
          | dropCopy => cases hm; exact ⟨g, hs, hg, hh⟩
        obtain ⟨g', v', k1, k2⟩ := key
        exact ih _ g' t v' k1 k2 q hq s' d h hd

/-- **C91** (at any moment).  At every moment of every history - between any two operations on a `View`, in the middle of an
exchange as well - the memory held is at most three arrays for each neighbour, however long the history is. -/
theorem C91_peak (n : ℕ) (l : List Call) (p : List Op) (hp : p <+: history n l) (s : State) (h : run p start = some s) :
    (held s).ncard ≤ 3 * n := by
  obtain ⟨d, hd⟩ := shared_history n l p hp s h
  obtain ⟨s0, f, r, a, h1, h2, v⟩ := run_constructMesh n
  rcases List.prefix_or_prefix_of_prefix hp (List.prefix_append (constructMesh n) _) with k1 | ⟨q, rfl⟩
  · refine (held_le s hd (objects n 0) fun o ht ho => ?_).trans (card_objects n 0)
    rcases exists_of_run p start s h o ho with h2 | h2 | ⟨w, h2⟩
    · exact absurd rfl h2
    · exact made_by_mesh n 0 o (Or.inl (k1.subset h2)) ht
    · exact made_by_mesh n 0 o (Or.inr ⟨w, k1.subset h2⟩) ht
  · have hq := (List.prefix_append_right_inj _).1 hp
    rw [run_append, r, Option.bind_some] at h
    exact peak_calls n l 0 (ghosts n f) s0 v (held_ghosts n f).2 (Or.inl (held_ghosts n f)) q hq s d h hd

/-- **C91** (the bound is met).  In every residual there is a moment at which that many arrays are held. -/
theorem C91_peak_met (n : ℕ) (l : List Call) : ∃ p s, p <+: history n (.residual :: l) ∧ run p start = some s ∧ (held s).ncard = 3 * n := by
  obtain ⟨s0, f, r, -, -, -, v⟩ := run_constructMesh n
  obtain ⟨s3, a, b, r3, v3, ha, hb⟩ := run_fill 0 n (ghosts n f) s0 v
  have hpre : constructMesh n ++ fill 0 n <+: history n (.residual :: l) := by
    refine (List.prefix_append_right_inj _).2 ?_
    simp only [callOps, Call.ops, exchange, fill, List.append_assoc]
    iterate 2 refine (List.prefix_append_right_inj _).2 ?_
    exact List.prefix_append _ _
  have hrun : run (constructMesh n ++ fill 0 n) start = some s3 := by rw [run_append, r]; exact r3
  refine ⟨_, s3, hpre, hrun, le_antisymm (C91_peak n _ _ hpre s3 hrun) ?_⟩
  have hc : chk 0 (constructMesh n ++ fill 0 n) = some 0 := by
    rw [chk_append, chk_constructMesh, Option.bind_some]
    unfold fill
    iterate 2 rw [chk_append]
    rw [show ∀ l, chk 0 (.newArray :: l) = chk 0 l from fun _ => rfl, chk_loop n _ (fun i => by simp [chk]), Option.bind_some,
      show ∀ l, chk 0 (.newArray :: l) = chk 0 l from fun _ => rfl, chk_loop n _ (fun i => by simp [chk]), Option.bind_some,
      chk_loop n _ (fun i => by simp [chk])]
  have own := own_run _ 0 0 start s3 ⟨fun o o' a _ _ h => by simp [start] at h, fun o a h => by simp [start] at h⟩ hc hrun
  have full : ∀ o ∈ objects n 0, ¬ isTmp o ∧ ∃ x, s3.val o = some (some x) := by
    intro o ho
    simp only [objects, Finset.mem_union, Finset.mem_image, Finset.mem_range] at ho
    rcases ho with (⟨i, hi, rfl⟩ | ⟨i, hi, rfl⟩) | ⟨i, hi, rfl⟩
    · exact ⟨id, by rw [v3]; exact (held_ghosts n f).1 i hi⟩
    · exact ⟨id, by rw [v3]; simpa [rows] using ha.1 i hi⟩
    · exact ⟨id, by rw [v3]; simpa [rows] using hb.1 i hi⟩
  have card : (objects n 0).card = 3 * n := by
    unfold objects
    rw [Finset.card_union_of_disjoint, Finset.card_union_of_disjoint, Finset.card_image_of_injective, Finset.card_image_of_injective,
      Finset.card_image_of_injective, Finset.card_range]
    · ring
    · intro i j h; simpa using h
    · intro i j h; simpa using h
    · intro i j h; simpa using h
    · rw [Finset.disjoint_left]; intro o h1 h2; simp at h1 h2; obtain ⟨i, -, rfl⟩ := h1; simp at h2
    · rw [Finset.disjoint_left]; intro o h1 h2; simp at h1 h2; obtain ⟨i, -, rfl⟩ := h2; simp at h1
  have fin : (held s3).Finite := (Finset.finite_toSet (Finset.range s3.next)).subset fun a ⟨o, ho⟩ => by simpa using own.below o a ho
  have sub : (((objects n 0).image fun o => ((s3.val o).getD none).getD 0 : Finset ℕ) : Set ℕ) ⊆ held s3 := by
    intro x hx
    simp only [Finset.coe_image, Set.mem_image, Finset.mem_coe] at hx
    obtain ⟨o, ho, rfl⟩ := hx
    obtain ⟨-, y, hy⟩ := full o ho
    exact ⟨o, by rw [hy]; rfl⟩
  refine le_trans (le_of_eq ?_) (Set.ncard_le_ncard sub fin)
  rw [Set.ncard_coe_finset, Finset.card_image_of_injOn, card]
  intro o ho o' ho' e
  obtain ⟨t, y, hy⟩ := full o ho
  obtain ⟨t', y', hy'⟩ := full o' ho'
  simp only [hy, hy', Option.getD_some] at e
  subst e
  exact own.inj o o' y t t' hy hy'

/-- **C91** (the executables).  On every rank, whatever the number of its neighbours, of steps and of residuals per step, the solver
and the post-processor never use or destruct a `View` that is gone, and none of the memory is held when Kokkos is finalised; the
solver leaves two blocks for every residual. -/
theorem C91_executables (n stages nsteps : ℕ) :
    (∃ s, run (history n (solverCalls stages nsteps)) start = some s ∧ held s = ∅ ∧ s.arrays = 1 + 2 * (stages * nsteps)) ∧
    ∃ s, run (history n postCalls) start = some s ∧ held s = ∅ ∧ s.arrays = 1 := by
  have main : ∀ l, FinalizedLast l → .finalize ∈ l → ∃ s, run (history n l) start = some s ∧ held s = ∅ ∧
      s.arrays = 1 + 2 * l.count .residual := by
    intro l hl hf
    obtain ⟨s0, f, r, a, h1, h2, v⟩ := run_constructMesh n
    obtain ⟨s', r', v', a'⟩ := (calls_alive n f l 0 s0 v).1 (Or.inr hl)
    refine ⟨s', by unfold history; rw [run_append, r]; exact r', ?_, by rw [a', a]⟩
    unfold held
    rw [v', if_pos hf]
    simp [gone_none]
  constructor
  · have hl : FinalizedLast (solverCalls stages nsteps) := by
      unfold solverCalls
      induction stages * nsteps with
      | zero => rw [List.replicate_zero, List.nil_append, finalizedLast_fin]; simp
      | succ m ih => rw [List.replicate_succ, List.cons_append, finalizedLast_cons (by decide)]; exact ih
    obtain ⟨s, h1, h2, h3⟩ := main _ hl (by simp [solverCalls])
    exact ⟨s, h1, h2, by rw [h3]; simp [solverCalls, List.count_replicate]⟩
  · have hl : FinalizedLast postCalls := by
      unfold postCalls
      rw [finalizedLast_cons (by decide), finalizedLast_cons (by decide), finalizedLast_fin]
      simp
    obtain ⟨s, h1, h2, h3⟩ := main _ hl (by simp [postCalls])
    exact ⟨s, h1, h2, by rw [h3]; decide⟩

/-- A history with two neighbours that is defined, and what it leaves; -/
example : ∃ s, run (history 2 [.residual, .copyMesh, .residual, .dropCopy]) start = some s ∧ (held s).ncard = 2 ∧ s.arrays = 5 := by
  have hl : FinalizedLast [.residual, .copyMesh, .residual, .dropCopy] := by
    intro pre post h
    have : Call.finalize ∈ [Call.residual, .copyMesh, .residual, .dropCopy] := by rw [h]; simp
    simp at this
  obtain ⟨s, h⟩ := (C91_defined 2 _).2 (Or.inr hl)
  exact ⟨s, h, by simpa using C91_held 2 _ s h, by simpa using C91_blocks 2 _ s h⟩

/-- one that is not: a residual after `finalize`; -/
example : run (history 2 [.finalize, .residual]) start = none := by
  by_contra h
  obtain ⟨s, hs⟩ := Option.ne_none_iff_exists'.1 h
  have := (C91_defined 2 _).1 ⟨s, hs⟩
  rcases this with h0 | hl
  · omega
  · exact (hl [] [.residual] rfl).1 (by simp)

/-- and `finalize` for the mesh and for a copy of it. -/
example : run (history 2 [.copyMesh, .finalize, .finalize]) start = none := by
  by_contra h
  obtain ⟨s, hs⟩ := Option.ne_none_iff_exists'.1 h
  have := (C91_defined 2 _).1 ⟨s, hs⟩
  rcases this with h0 | hl
  · omega
  · exact (hl [.copyMesh] [.finalize] rfl).2 (by simp)

end DG.Vw
