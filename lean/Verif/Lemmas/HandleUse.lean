import Verif.Lemmas.Handles

/-!
Sequences of calls that give back every handle they take.
-/
namespace DG.H5

variable {D : Type}

/-- numbers from `next` on are not in use -/
structure Fresh (s : State D) : Prop where
  lib : ∀ m, s.next ≤ m → s.lib m = none
  blocks : ∀ m, s.next ≤ m → s.blocks m = none
  ptrs : ∀ p c, s.ptrs p = some (some c) → c < s.next

/-- the calls leave the state as it was, but for the numbers used -/
def Quiet (empty : D) (s : State D) (ops : List Op) : Prop :=
  ∀ n, s.next ≤ n → ∃ m, n ≤ m ∧ run empty { s with next := n } ops = .ok { s with next := m }

theorem Fresh.mono {s : State D} (F : Fresh s) {n : ℕ} (h : s.next ≤ n) : Fresh { s with next := n } :=
  ⟨fun m hm => F.lib m (h.trans hm), fun m hm => F.blocks m (h.trans hm), fun p c hp => (F.ptrs p c hp).trans_le h⟩

theorem quiet_nil (empty : D) (s : State D) : Quiet empty s [] := fun n _ => ⟨n, le_rfl, rfl⟩

theorem quiet_append {empty : D} {s : State D} {a b : List Op} (ha : Quiet empty s a) (hb : Quiet empty s b) :
    Quiet empty s (a ++ b) := by
  intro n hn
  obtain ⟨m, hm, h1⟩ := ha n hn
  obtain ⟨k, hk, h2⟩ := hb m (hn.trans hm)
  exact ⟨k, hm.trans hk, by rw [run_append, h1]; exact h2⟩

theorem quiet_replicate {empty : D} {s : State D} {a : List Op} (ha : Quiet empty s a) (k : ℕ) :
    Quiet empty s (List.replicate k a).flatten := by
  induction k with
  | zero => exact quiet_nil empty s
  | succ k ih =>
    rw [List.replicate_succ, List.flatten_cons]
    exact quiet_append ha ih

/-- objects can be opened at the destination -/
def CanMake (s : State D) (f : ℕ) (dest : Option ℕ) (root : ℕ) : Prop :=
  ∃ fl, s.objs f = some fl ∧ ((dest = none ∧ destRoot s fl none = .ok (some root)) ∨
    ∃ q b, dest = some q ∧ s.ptrs q = some b ∧ destRoot s fl b = .ok (some root))

theorem step_make (empty : D) {s : State D} {f : ℕ} {dest : Option ℕ} {root : ℕ} (h : CanMake s f dest root) {p : ℕ}
    (hp : s.ptrs p = none) (k : ObjKind) (sp : Bool) (n : ℕ) :
    step empty { s with next := n } (.make p k sp f dest true) = .ok (makeObj { s with next := n } p k sp root) := by
  obtain ⟨fl, hf, ⟨rfl, hd⟩ | ⟨q, b, rfl, hq, hd⟩⟩ := h
  · have hd' : destRoot { s with next := n } fl none = .ok (some root) := hd
    simp only [step, hp, hf, hd', Res.bind, if_true]
  · have hd' : destRoot { s with next := n } fl b = .ok (some root) := hd
    simp only [step, hp, hf, hq, hd', Res.bind, if_true]

theorem update_undo {β : Type} (g : ℕ → Option β) (i : ℕ) (x y : Option β) (hi : g i = y) :
    Function.update (Function.update g i x) i y = g := by
  rw [Function.update_idem, ← hi, Function.update_eq_self]

/-- the last variable of a pair goes -/
theorem release_make {s : State D} (F : Fresh s) (p : ℕ) (k : ObjKind) (sp : Bool) (root : ℕ) {n m : ℕ} (hn : s.next ≤ n) :
    release { makeObj { s with next := n } p k sp root with ptrs := s.ptrs, next := m } (some n) = .ok { s with next := m } := by
  have hq : ¬ ∃ q, s.ptrs q = some (some n) := by
    rintro ⟨q, hq⟩
    have := F.ptrs q n hq
    omega
  cases sp with
  | true =>
    have h1 := F.lib (n + 1) (by omega)
    have h2 := F.lib (n + 2) (by omega)
    have e : Function.update (Function.update (Function.update s.lib (n + 1) (some .space)) (n + 2) none) (n + 1) none = s.lib := by
      funext r
      simp only [Function.update_apply]
      grind
    simp [release, makeObj, hq, closeObj, closeSpace, Res.bind, e, F.blocks n hn]
  | false =>
    simp [release, makeObj, hq, closeObj, closeSpace, Res.bind, update_undo, F.blocks n hn, F.lib (n + 1) (by omega)]

theorem quiet_bracket {empty : D} {s : State D} (F : Fresh s) {f : ℕ} {dest : Option ℕ} {root : ℕ} (h : CanMake s f dest root) {p : ℕ}
    (hp : s.ptrs p = none) (k : ObjKind) (sp : Bool) {L : List Op}
    (hL : ∀ n, s.next ≤ n → Quiet empty (makeObj { s with next := n } p k sp root) L) :
    Quiet empty s ([.make p k sp f dest true] ++ L ++ [.drop p]) := by
  intro n hn
  obtain ⟨m, hm, h1⟩ := hL n hn _ le_rfl
  have hnm : n ≤ m := le_trans (by unfold makeObj; split_ifs <;> simp) hm
  refine ⟨m, hnm, ?_⟩
  rw [run_append, run_append]
  have h0 : run empty { s with next := n } [.make p k sp f dest true] = .ok (makeObj { s with next := n } p k sp root) := by
    simp only [run, step_make empty h hp k sp n, Res.bind]
  rw [h0]
  simp only [Res.bind]
  rw [show run empty (makeObj { s with next := n } p k sp root) L = _ from h1]
  simp only [run]
  have h2 : (makeObj { s with next := n } p k sp root).ptrs = Function.update s.ptrs p (some (some n)) := by
    unfold makeObj; split_ifs <;> rfl
  have h3 : step empty { makeObj { s with next := n } p k sp root with next := m } (.drop p) = .ok { s with next := m } := by
    simp only [step, h2, Function.update_self, update_undo s.ptrs p _ none hp]
    exact release_make F p k sp root hn
  rw [h3]; rfl

theorem Fresh.makeObj {s : State D} (F : Fresh s) (p : ℕ) (k : ObjKind) (sp : Bool) (root : ℕ) {n : ℕ} (hn : s.next ≤ n) :
    Fresh (makeObj { s with next := n } p k sp root) := by
  have F' := F.mono hn
  unfold H5.makeObj
  split_ifs
  · refine ⟨fun m hm => ?_, fun m hm => ?_, fun q c hq => ?_⟩
    · have : n + 3 ≤ m := hm
      simp only
      rw [Function.update_of_ne (by omega), Function.update_of_ne (by omega)]
      exact F.lib m (by omega)
    · have : n + 3 ≤ m := hm
      simp only
      rw [Function.update_of_ne (by omega)]
      exact F.blocks m (by omega)
    · simp only [Function.update_apply] at hq
      split_ifs at hq
      · cases hq; simp
      · have := F.ptrs q c hq
        simp only
        omega
  · refine ⟨fun m hm => ?_, fun m hm => ?_, fun q c hq => ?_⟩
    · have : n + 2 ≤ m := hm
      simp only
      rw [Function.update_of_ne (by omega)]
      exact F.lib m (by omega)
    · have : n + 2 ≤ m := hm
      simp only
      rw [Function.update_of_ne (by omega)]
      exact F.blocks m (by omega)
    · simp only [Function.update_apply] at hq
      split_ifs at hq
      · cases hq; simp
      · have := F.ptrs q c hq
        simp only
        omega

theorem quiet_make_drop {empty : D} {s : State D} (F : Fresh s) {f : ℕ} {dest : Option ℕ} {root : ℕ} (h : CanMake s f dest root) {p : ℕ}
    (hp : s.ptrs p = none) (k : ObjKind) (sp : Bool) : Quiet empty s [.make p k sp f dest true, .drop p] :=
  quiet_bracket (L := []) F h hp k sp fun _ _ => quiet_nil empty _

theorem quiet_space {empty : D} {s : State D} (F : Fresh s) {p : ℕ} (hp : s.ptrs p = none) : Quiet empty s [.space p, .drop p] := by
  intro n hn
  refine ⟨n + 2, by omega, ?_⟩
  have hq : ¬ ∃ q, s.ptrs q = some (some n) := by
    rintro ⟨q, hq⟩
    have := F.ptrs q n hq
    omega
  simp only [run, step, hp, Res.bind, Function.update_self, update_undo s.ptrs p _ none hp, release, hq, if_false, closeObj, closeSpace,
    update_undo s.blocks n _ none (F.blocks n hn), update_undo s.lib (n + 1) _ none (F.lib (n + 1) (by omega))]

/-- a pointer that is null until the object is moved to it -/
theorem quiet_via_move {empty : D} {s : State D} (F : Fresh s) {f : ℕ} {dest : Option ℕ} {root : ℕ} (h : CanMake s f dest root) {p q : ℕ}
    (hp : s.ptrs p = none) (hq : s.ptrs q = none) (hpq : p ≠ q) (k : ObjKind) (sp : Bool) :
    Quiet empty s [.null p, .make q k sp f dest true, .moveP p q, .drop q, .drop p] := by
  intro n hn
  refine ⟨(makeObj { s with next := n } p k sp root).next, by unfold makeObj; split_ifs <;> simp, ?_⟩
  set s1 : State D := { s with ptrs := Function.update s.ptrs p (some none) } with hs1
  have hd : CanMake s1 f dest root := by
    obtain ⟨fl, hf, ⟨rfl, hd⟩ | ⟨r, b, rfl, hr, hd⟩⟩ := h
    · exact ⟨fl, hf, Or.inl ⟨rfl, hd⟩⟩
    · refine ⟨fl, hf, Or.inr ⟨r, b, rfl, ?_, hd⟩⟩
      have : r ≠ p := by rintro rfl; rw [hp] at hr; simp at hr
      simp only [hs1, Function.update_of_ne this, hr]
  have h1 : step empty { s with next := n } (.null p) = .ok { s1 with next := n } := by
    simp only [step, hp, hs1]
  have h2 := step_make empty hd (p := q) (by simp only [hs1, Function.update_of_ne hpq.symm, hq]) k sp n
  have hn1 : (makeObj { s1 with next := n } q k sp root).next = (makeObj { s with next := n } p k sp root).next := by
    unfold makeObj; split_ifs <;> rfl
  have hptr : (makeObj { s1 with next := n } q k sp root).ptrs =
      Function.update (Function.update s.ptrs p (some none)) q (some (some n)) := by
    unfold makeObj; split_ifs <;> rfl
  have hpt : Function.update (Function.update (Function.update (Function.update s.ptrs p (some none)) q (some (some n))) p
      (some (some n))) q (some none) = Function.update (Function.update s.ptrs p (some (some n))) q (some none) := by
    funext r
    simp only [Function.update_apply]
    split_ifs <;> rfl
  have h3 : step empty (makeObj { s1 with next := n } q k sp root) (.moveP p q) =
      .ok { makeObj { s1 with next := n } q k sp root with
        ptrs := Function.update (Function.update s.ptrs p (some (some n))) q (some none) } := by
    simp only [step, hptr, Function.update_self, Function.update_of_ne hpq, if_neg hpq.symm, release, hpt]
  have hpt2 : Function.update (Function.update (Function.update s.ptrs p (some (some n))) q (some none)) q none =
      Function.update s.ptrs p (some (some n)) := by
    rw [Function.update_idem]
    have : Function.update s.ptrs p (some (some n)) q = none := by rw [Function.update_of_ne hpq.symm, hq]
    rw [← this, Function.update_eq_self]
  have h4 : step empty { makeObj { s1 with next := n } q k sp root with
        ptrs := Function.update (Function.update s.ptrs p (some (some n))) q (some none) } (.drop q) =
      .ok { makeObj { s1 with next := n } q k sp root with ptrs := Function.update s.ptrs p (some (some n)) } := by
    simp only [step, Function.update_self, release, hpt2]
  have h5 : step empty { makeObj { s1 with next := n } q k sp root with ptrs := Function.update s.ptrs p (some (some n)) } (.drop p) =
      .ok { s with next := (makeObj { s with next := n } p k sp root).next } := by
    simp only [step, Function.update_self, update_undo s.ptrs p _ none hp]
    have := release_make F p k sp root (m := (makeObj { s with next := n } p k sp root).next) hn
    rw [← this]
    congr 1
    unfold makeObj
    split_ifs <;> rfl
  simp only [run, h1, h2, h3, h4, h5, Res.bind]

theorem quiet_null {empty : D} {s : State D} {p : ℕ} (hp : s.ptrs p = none) : Quiet empty s [.null p, .drop p] := by
  intro n hn
  refine ⟨n, le_rfl, ?_⟩
  simp [run, step, hp, Res.bind, release, update_undo]

/-- a dataset with its file space and a memory space, closed in the order of open_and_read_parallel_dataset -/
theorem quiet_crossed {empty : D} {s : State D} (F : Fresh s) {f : ℕ} {dest : Option ℕ} {root : ℕ} (h : CanMake s f dest root) {p q : ℕ}
    (hp : s.ptrs p = none) (hq : s.ptrs q = none) (hpq : p ≠ q) (k : ObjKind) :
    Quiet empty s [.make p k true f dest true, .space q, .drop p, .drop q] := by
  intro n hn
  refine ⟨n + 5, by omega, ?_⟩
  have h1 := step_make empty h hp k true n
  have hnp : ∀ c, n ≤ c → ∀ r, s.ptrs r ≠ some (some c) := by
    intro c hc r hr
    have := F.ptrs r c hr
    omega
  have b0 := F.blocks n hn
  have b3 := F.blocks (n + 3) (by omega)
  have l1 := F.lib (n + 1) (by omega)
  have l2 := F.lib (n + 2) (by omega)
  have l4 := F.lib (n + 4) (by omega)
  set s2 : State D := { makeObj { s with next := n } p k true root with
        ptrs := Function.update (Function.update s.ptrs p (some (some n))) q (some (some (n + 3)))
        blocks := Function.update (Function.update s.blocks n (some ⟨k, some (n + 1), some (n + 2)⟩)) (n + 3)
          (some ⟨.dset, some (n + 4), none⟩)
        lib := Function.update (Function.update (Function.update s.lib (n + 1) (some .space)) (n + 2) (some (.obj k root)))
          (n + 4) (some .space)
        next := n + 5 } with hs2
  have h2 : step empty (makeObj { s with next := n } p k true root) (.space q) = .ok s2 := by
    have : (makeObj { s with next := n } p k true root).ptrs q = none := by
      simp [makeObj, Function.update_of_ne hpq.symm, hq]
    simp only [step, this, hs2]
    simp [makeObj]
  set s3 : State D := { s with
        ptrs := Function.update s.ptrs q (some (some (n + 3)))
        blocks := Function.update s.blocks (n + 3) (some ⟨.dset, some (n + 4), none⟩)
        lib := Function.update s.lib (n + 4) (some .space)
        next := n + 5 } with hs3
  have h3 : step empty s2 (.drop p) = .ok s3 := by
    have hpp : s2.ptrs p = some (some n) := by simp [hs2, Function.update_of_ne hpq]
    have e1 : Function.update s2.ptrs p none = s3.ptrs := by
      funext r
      simp only [hs2, hs3, Function.update_apply]
      split_ifs with h1 h2
      · exact absurd (h1.symm.trans h2) hpq
      · rw [h1, hp]
      · rfl
      · rfl
    have hno : ¬ ∃ r, s3.ptrs r = some (some n) := by
      rintro ⟨r, hr⟩
      simp only [hs3, Function.update_apply] at hr
      split_ifs at hr with h1
      · simp at hr
      · exact hnp n le_rfl r hr
    have hb : s2.blocks n = some ⟨k, some (n + 1), some (n + 2)⟩ := by
      simp [hs2, Function.update_of_ne]
    have hl2 : s2.lib (n + 2) = some (.obj k root) := by simp [hs2, Function.update_of_ne]
    have hl1 : s2.lib (n + 1) = some .space := by simp [hs2, Function.update_of_ne]
    have e2 : Function.update (Function.update s2.lib (n + 2) none) (n + 1) none = s3.lib := by
      funext r
      simp only [hs2, hs3, Function.update_apply]
      grind
    have e3 : Function.update s2.blocks n none = s3.blocks := by
      funext r
      simp only [hs2, hs3, Function.update_apply]
      grind
    simp only [step, hpp, e1, release, hno, if_false, hb, closeObj, closeSpace, hl2, if_true, Res.bind,
      Function.update_of_ne (show n + 1 ≠ n + 2 by omega), hl1, e2, e3]
    simp [hs2, hs3, makeObj]
  have h4 : step empty s3 (.drop q) = .ok { s with next := n + 5 } := by
    have hqq : s3.ptrs q = some (some (n + 3)) := by simp [hs3]
    have e1 : Function.update s3.ptrs q none = s.ptrs := by simp only [hs3]; exact update_undo _ _ _ _ hq
    have hno : ¬ ∃ r, s.ptrs r = some (some (n + 3)) := by
      rintro ⟨r, hr⟩
      exact hnp (n + 3) (by omega) r hr
    have hb : s3.blocks (n + 3) = some ⟨.dset, some (n + 4), none⟩ := by simp [hs3]
    have hl : s3.lib (n + 4) = some .space := by simp [hs3]
    have e2 : Function.update s3.lib (n + 4) none = s.lib := by simp only [hs3]; exact update_undo _ _ _ _ l4
    have e3 : Function.update s3.blocks (n + 3) none = s.blocks := by simp only [hs3]; exact update_undo _ _ _ _ b3
    simp only [step, hqq, e1, release, hno, if_false, hb, closeObj, closeSpace, Res.bind, hl, e2, e3]
    simp [hs3]
  simp only [run, h1, h2, h3, h4, Res.bind]

end DG.H5
