import Mathlib.Data.List.Induction
import Verif.Spec.Handles

/-!
Invariant of the handles.
-/
namespace DG.H5

variable {D : Type}

/-- cases of `if`, then `grind` -/
macro "hgrind" : tactic => `(tactic| (intros; (try split_ifs at *) <;> first | grind | (simp_all; done) | (simp_all; grind)))

/-- Invariant; `L`: lost file handles, `b`: a pair that a variable has just let go. -/
structure InvB (s : State D) (L : Set ℕ) (b : Option ℕ) : Prop where
  fileOpen : ∀ v h, s.objs v = some (some h) → ∃ n par, s.lib h = some (.file n par)
  fileInj : ∀ v w h, s.objs v = some (some h) → s.objs w = some (some h) → v = w
  ptrBlock : ∀ p c, s.ptrs p = some (some c) → ∃ blk, s.blocks c = some blk
  blockPtr : ∀ c blk, s.blocks c = some blk → some c ≠ b → ∃ p, s.ptrs p = some (some c)
  letGo : ∀ c, b = some c → ∃ blk, s.blocks c = some blk
  second : ∀ c blk h, s.blocks c = some blk → blk.second = some h → ∃ root, s.lib h = some (.obj blk.kind root)
  first : ∀ c blk h, s.blocks c = some blk → blk.first = some h → s.lib h = some .space
  secInj : ∀ c blk c' blk' h, s.blocks c = some blk → s.blocks c' = some blk' → blk.second = some h → blk'.second = some h → c = c'
  firInj : ∀ c blk c' blk' h, s.blocks c = some blk → s.blocks c' = some blk' → blk.first = some h → blk'.first = some h → c = c'
  ownObj : ∀ h k root, s.lib h = some (.obj k root) → ∃ c blk, s.blocks c = some blk ∧ blk.second = some h
  ownSpace : ∀ h, s.lib h = some .space → ∃ c blk, s.blocks c = some blk ∧ blk.first = some h
  fresh : ∀ m, s.next ≤ m → s.lib m = none ∧ s.blocks m = none
  fileOwn : ∀ h n par, s.lib h = some (.file n par) → (∃ v, s.objs v = some (some h)) ∨ h ∈ L
  lostOpen : ∀ h, h ∈ L → (∃ n par, s.lib h = some (.file n par)) ∧ ∀ v, s.objs v ≠ some (some h)

theorem inv_start (disk : String → Option D) : InvB (start disk) ∅ none := by
  constructor <;> simp [start]

theorem closeFile_inv {s : State D} {L : Set ℕ} {v : ℕ} {f : Option ℕ} (I : InvB s L none) (hv : s.objs v = some f) :
    closeFile s v f ≠ .misuse ∧ closeFile s v f ≠ .invalid ∧
      ∀ s', closeFile s v f = .ok s' → InvB s' L none ∧ s'.objs v = some none := by
  cases f with
  | none => exact ⟨by simp [closeFile], by simp [closeFile], by simp only [closeFile, Res.ok.injEq]; rintro s' rfl; exact ⟨I, hv⟩⟩
  | some h =>
    obtain ⟨n, par, hl⟩ := I.fileOpen v h hv
    refine ⟨?_, ?_, ?_⟩
    · simp only [closeFile, hl]; split_ifs <;> simp
    · simp only [closeFile, hl]; split_ifs <;> simp
    · intro s' hs
      simp only [closeFile, hl] at hs
      split_ifs at hs
      simp only [Res.ok.injEq] at hs
      subst hs
      obtain ⟨i1, i2, i3, i4, i5, i6, i7, i8, i9, i10, i11, i12, i13, i14⟩ := I
      refine ⟨⟨?_, ?_, ?_, ?_, ?_, ?_, ?_, ?_, ?_, ?_, ?_, ?_, ?_, ?_⟩, by simp⟩ <;> simp only [Function.update_apply] <;> grind

theorem openFile_inv (empty : D) {s : State D} {L : Set ℕ} {v : ℕ} (name : String) (mode : Mode) (par good : Bool)
    (I : InvB s L none) (hv : s.objs v = some none) :
    openFile empty s v name mode par good ≠ .misuse ∧
      ∀ s', openFile empty s v name mode par good = .ok s' → InvB s' L none := by
  have key : ∀ disk : String → Option D, InvB { s with
      objs := Function.update s.objs v (some (some s.next))
      lib := Function.update s.lib s.next (some (.file name par))
      next := s.next + 1
      disk := disk } L none := by
    intro disk
    obtain ⟨i1, i2, i3, i4, i5, i6, i7, i8, i9, i10, i11, i12, i13, i14⟩ := I
    have hn := i12 s.next le_rfl
    refine ⟨?_, ?_, ?_, ?_, ?_, ?_, ?_, ?_, ?_, ?_, ?_, ?_, ?_, ?_⟩ <;> simp only [Function.update_apply] <;> first | grind | hgrind
  cases mode <;> simp only [openFile] <;> (try split_ifs) <;> simp [key]

theorem release_inv {s : State D} {L : Set ℕ} {b : Option ℕ} (I : InvB s L b) :
    release s b ≠ .misuse ∧ release s b ≠ .exit ∧ release s b ≠ .invalid ∧
      ∀ s', release s b = .ok s' → InvB s' L none ∧ s'.objs = s.objs ∧ s'.ptrs = s.ptrs := by
  cases b with
  | none => simp [release, I]
  | some c =>
    by_cases hq : ∃ q, s.ptrs q = some (some c)
    · refine ⟨by simp [release, hq], by simp [release, hq], by simp [release, hq], ?_⟩
      intro s' hs
      simp only [release, hq, if_true, Res.ok.injEq] at hs
      subst hs
      obtain ⟨i1, i2, i3, i4, i5, i6, i7, i8, i9, i10, i11, i12, i13, i14⟩ := I
      exact ⟨⟨i1, i2, i3, fun c' blk hb _ => (em (c' = c)).elim (fun h => h ▸ hq) (fun h => i4 c' blk hb (by simpa using h)), by simp, i6, i7, i8, i9, i10, i11, i12, i13, i14⟩, rfl, rfl⟩
    · obtain ⟨blk, hb⟩ := I.letGo c rfl
      have h2 := I.second c blk
      have h1 := I.first c blk
      -- the state after the deleter
      have key : ∃ lib', release s (some c) = .ok { s with lib := lib', blocks := Function.update s.blocks c none } ∧
          (∀ h, lib' h = if blk.second = some h ∨ blk.first = some h then none else s.lib h) := by
        obtain ⟨k, f1, f2⟩ := blk
        cases f2 with
        | none =>
          cases f1 with
          | none => exact ⟨s.lib, by simp [release, hq, hb, closeObj, closeSpace, Res.bind], by simp⟩
          | some a =>
            have ha := h1 a hb rfl
            exact ⟨Function.update s.lib a none, by simp [release, hq, hb, closeObj, closeSpace, Res.bind, ha],
              by intro h; simp [Function.update_apply, eq_comm]⟩
        | some d =>
          obtain ⟨root, hd⟩ := h2 d hb rfl
          cases f1 with
          | none =>
            exact ⟨Function.update s.lib d none, by simp [release, hq, hb, closeObj, closeSpace, Res.bind, hd],
              by intro h; simp [Function.update_apply, eq_comm]⟩
          | some a =>
            have ha := h1 a hb rfl
            have hne : a ≠ d := by rintro rfl; rw [ha] at hd; simp at hd
            exact ⟨Function.update (Function.update s.lib d none) a none,
              by simp [release, hq, hb, closeObj, closeSpace, Res.bind, hd, Function.update_of_ne hne, ha],
              by intro h; simp only [Function.update_apply]; grind⟩
      obtain ⟨lib', hk, hlib⟩ := key
      rw [hk]
      refine ⟨by simp, by simp, by simp, ?_⟩
      intro s' hs
      simp only [Res.ok.injEq] at hs
      subst hs
      refine ⟨?_, rfl, rfl⟩
      clear hk
      obtain ⟨i1, i2, i3, i4, i5, i6, i7, i8, i9, i10, i11, i12, i13, i14⟩ := I
      have bl : ∀ c' b, (if c' = c then none else s.blocks c') = some b → c' ≠ c ∧ s.blocks c' = some b := by
        intro c' b h; split_ifs at h with hc; exact ⟨hc, h⟩
      have keep : ∀ h n par, s.lib h = some (.file n par) → lib' h = some (.file n par) := by
        intro h n par hh
        rw [hlib, if_neg, hh]
        rintro (h3 | h3)
        · obtain ⟨r, hr⟩ := i6 c blk h hb h3; rw [hh] at hr; simp at hr
        · have hr := i7 c blk h hb h3; rw [hh] at hr; simp at hr
      refine ⟨?_, i2, ?_, ?_, by simp, ?_, ?_, ?_, ?_, ?_, ?_, ?_, ?_, ?_⟩ <;> simp only [Function.update_apply]
      · intro v h hv
        obtain ⟨n, par, hn⟩ := i1 v h hv
        exact ⟨n, par, keep _ _ _ hn⟩
      · intro q c' hq'
        have hne : c' ≠ c := by rintro rfl; exact hq ⟨q, hq'⟩
        rw [if_neg hne]
        exact i3 q c' hq'
      · intro c' b h _
        obtain ⟨hne, h⟩ := bl c' b h
        exact i4 c' b h (by simpa using hne)
      · intro c' b h g ha
        obtain ⟨hne, g⟩ := bl c' b g
        obtain ⟨r, hr⟩ := i6 c' b h g ha
        refine ⟨r, ?_⟩
        rw [hlib, if_neg, hr]
        rintro (h3 | h3)
        · exact hne (i8 c' b c blk h g hb ha h3)
        · have := i7 c blk h hb h3; rw [hr] at this; simp at this
      · intro c' b h g ha
        obtain ⟨hne, g⟩ := bl c' b g
        have hr := i7 c' b h g ha
        rw [hlib, if_neg, hr]
        rintro (h3 | h3)
        · obtain ⟨r, this⟩ := i6 c blk h hb h3; rw [hr] at this; simp at this
        · exact hne (i9 c' b c blk h g hb ha h3)
      · intro c1 b1 c2 b2 h g1 g2 a1 a2
        exact i8 c1 b1 c2 b2 h (bl _ _ g1).2 (bl _ _ g2).2 a1 a2
      · intro c1 b1 c2 b2 h g1 g2 a1 a2
        exact i9 c1 b1 c2 b2 h (bl _ _ g1).2 (bl _ _ g2).2 a1 a2
      · intro h k r hh
        rw [hlib] at hh
        split_ifs at hh with h3
        obtain ⟨c', b, g, ha⟩ := i10 h k r hh
        have hne : c' ≠ c := by
          rintro rfl; rw [hb] at g; cases g; exact h3 (Or.inl ha)
        exact ⟨c', b, by rw [if_neg hne, g], ha⟩
      · intro h hh
        rw [hlib] at hh
        split_ifs at hh with h3
        obtain ⟨c', b, g, ha⟩ := i11 h hh
        have hne : c' ≠ c := by
          rintro rfl; rw [hb] at g; cases g; exact h3 (Or.inr ha)
        exact ⟨c', b, by rw [if_neg hne, g], ha⟩
      · intro m hm
        have := i12 m hm
        refine ⟨?_, ?_⟩
        · rw [hlib]; split_ifs; exacts [rfl, this.1]
        · split_ifs; exacts [rfl, this.2]
      · intro h n par hh
        rw [hlib] at hh
        split_ifs at hh with h3
        exact i13 h n par hh
      · intro h hL
        obtain ⟨⟨n, par, hn⟩, hv⟩ := i14 h hL
        exact ⟨⟨n, par, keep _ _ _ hn⟩, hv⟩

/-- a new pair with fresh handles -/
theorem add_block {s : State D} {L : Set ℕ} (p : ℕ) (blk : Block) (root next' : ℕ) (lib' : ℕ → Option Handle) (I : InvB s L none)
    (hp : s.ptrs p = none) (hlt : s.next < next') (h1 : ∀ a, blk.first = some a → s.next ≤ a ∧ a < next')
    (h2 : ∀ a, blk.second = some a → s.next ≤ a ∧ a < next') (h12 : ∀ a, blk.first = some a → blk.second ≠ some a)
    (hlib : ∀ h, lib' h = if blk.second = some h then some (.obj blk.kind root) else if blk.first = some h then some .space else s.lib h) :
    InvB { s with
      ptrs := Function.update s.ptrs p (some (some s.next))
      blocks := Function.update s.blocks s.next (some blk)
      lib := lib'
      next := next' } L none := by
  obtain ⟨i1, i2, i3, i4, i5, i6, i7, i8, i9, i10, i11, i12, i13, i14⟩ := I
  have old : ∀ h x, s.lib h = some x → lib' h = some x := by
    intro h x hx
    have n2 : blk.second ≠ some h := fun hh => by have := (i12 h (h2 h hh).1).1; rw [hx] at this; simp at this
    have n1 : blk.first ≠ some h := fun hh => by have := (i12 h (h1 h hh).1).1; rw [hx] at this; simp at this
    rw [hlib, if_neg n2, if_neg n1, hx]
  have low : ∀ c b, s.blocks c = some b → c ≠ s.next := by
    rintro c b hb rfl; have := (i12 _ le_rfl).2; rw [hb] at this; simp at this
  have plow : ∀ q c, s.ptrs q = some (some c) → c ≠ s.next ∧ q ≠ p := by
    intro q c hq
    obtain ⟨b, hb⟩ := i3 q c hq
    exact ⟨low c b hb, by rintro rfl; rw [hp] at hq; simp at hq⟩
  have bl : ∀ c b, (if c = s.next then some blk else s.blocks c) = some b → (c = s.next ∧ b = blk) ∨ s.blocks c = some b := by
    intro c b h; split_ifs at h with hc
    · left; exact ⟨hc, (Option.some.inj h).symm⟩
    · right; exact h
  have hs2 : ∀ c b a, s.blocks c = some b → b.second = some a → blk.second ≠ some a := by
    intro c b a hb ha hh
    obtain ⟨r, hr⟩ := i6 c b a hb ha
    have := (i12 a (h2 a hh).1).1; rw [hr] at this; simp at this
  have hs1 : ∀ c b a, s.blocks c = some b → b.first = some a → blk.first ≠ some a := by
    intro c b a hb ha hh
    have hr := i7 c b a hb ha
    have := (i12 a (h1 a hh).1).1; rw [hr] at this; simp at this
  refine ⟨?_, i2, ?_, ?_, by simp, ?_, ?_, ?_, ?_, ?_, ?_, ?_, ?_, ?_⟩ <;> simp only [Function.update_apply]
  · intro v h hv
    obtain ⟨n, par, hn⟩ := i1 v h hv
    exact ⟨n, par, old _ _ hn⟩
  · intro q c hq
    by_cases hc : c = s.next
    · exact ⟨blk, by rw [if_pos hc]⟩
    · rw [if_neg hc]
      split_ifs at hq with h
      · exact absurd (by simpa using hq.symm) hc
      · exact i3 q c hq
  · intro c b hb _
    rcases bl c b hb with ⟨rfl, -⟩ | hb
    · exact ⟨p, by simp⟩
    · obtain ⟨q, hq⟩ := i4 c b hb (by simp)
      exact ⟨q, by rw [if_neg (plow q c hq).2, hq]⟩
  · intro c b h hb ha
    rcases bl c b hb with ⟨rfl, rfl⟩ | hb
    · exact ⟨root, by rw [hlib, if_pos ha]⟩
    · obtain ⟨r, hr⟩ := i6 c b h hb ha
      exact ⟨r, old _ _ hr⟩
  · intro c b h hb ha
    rcases bl c b hb with ⟨rfl, rfl⟩ | hb
    · rw [hlib, if_neg (h12 h ha), if_pos ha]
    · exact old _ _ (i7 c b h hb ha)
  · intro c b c' b' h hb hb' ha ha'
    rcases bl c b hb with ⟨e1, e2⟩ | g <;> rcases bl c' b' hb' with ⟨e1', e2'⟩ | g'
    · rw [e1, e1']
    · exact absurd (e2 ▸ ha) (hs2 c' b' h g' ha')
    · exact absurd (e2' ▸ ha') (hs2 c b h g ha)
    · exact i8 c b c' b' h g g' ha ha'
  · intro c b c' b' h hb hb' ha ha'
    rcases bl c b hb with ⟨e1, e2⟩ | g <;> rcases bl c' b' hb' with ⟨e1', e2'⟩ | g'
    · rw [e1, e1']
    · exact absurd (e2 ▸ ha) (hs1 c' b' h g' ha')
    · exact absurd (e2' ▸ ha') (hs1 c b h g ha)
    · exact i9 c b c' b' h g g' ha ha'
  · intro h k r hh
    rw [hlib] at hh
    split_ifs at hh with h2' h1'
    · exact ⟨s.next, blk, by simp, h2'⟩
    · simp at hh
    · obtain ⟨c, b, hb, ha⟩ := i10 h k r hh
      exact ⟨c, b, by rw [if_neg (low c b hb), hb], ha⟩
  · intro h hh
    rw [hlib] at hh
    split_ifs at hh with h2' h1'
    · simp at hh
    · exact ⟨s.next, blk, by simp, h1'⟩
    · obtain ⟨c, b, hb, ha⟩ := i11 h hh
      exact ⟨c, b, by rw [if_neg (low c b hb), hb], ha⟩
  · intro m hm
    have n2 : blk.second ≠ some m := fun hh => by have := (h2 m hh).2; omega
    have n1 : blk.first ≠ some m := fun hh => by have := (h1 m hh).2; omega
    have := i12 m (by omega)
    exact ⟨by rw [hlib, if_neg n2, if_neg n1, this.1], by rw [if_neg (by omega), this.2]⟩
  · intro h n par hh
    rw [hlib] at hh
    split_ifs at hh with h2' h1'
    · simp at hh
    · simp at hh
    · exact i13 h n par hh
  · intro h hL
    obtain ⟨⟨n, par, hn⟩, hv⟩ := i14 h hL
    exact ⟨⟨n, par, old _ _ hn⟩, hv⟩

theorem makeObj_inv {s : State D} {L : Set ℕ} (p : ℕ) (k : ObjKind) (sp : Bool) (root : ℕ) (I : InvB s L none)
    (hp : s.ptrs p = none) : InvB (makeObj s p k sp root) L none := by
  unfold makeObj
  split_ifs
  · refine add_block p ⟨k, some (s.next + 1), some (s.next + 2)⟩ root (s.next + 3) _ I hp (by omega) ?_ ?_ ?_ ?_
    · simp
    · simp
    · simp
    · intro h; simp only [Function.update_apply, Option.some.injEq, eq_comm]
  · refine add_block p ⟨k, none, some (s.next + 1)⟩ root (s.next + 2) _ I hp (by omega) ?_ ?_ ?_ ?_
    · simp
    · simp
    · simp
    · intro h; simp [Function.update_apply, eq_comm]

theorem space_inv {s : State D} {L : Set ℕ} (p : ℕ) (I : InvB s L none) (hp : s.ptrs p = none) :
    InvB { s with
        ptrs := Function.update s.ptrs p (some (some s.next))
        blocks := Function.update s.blocks s.next (some ⟨.dset, some (s.next + 1), none⟩)
        lib := Function.update s.lib (s.next + 1) (some .space)
        next := s.next + 2 } L none := by
  refine add_block p ⟨.dset, some (s.next + 1), none⟩ 0 (s.next + 2) _ I hp (by omega) ?_ ?_ ?_ ?_
  · simp
  · simp
  · simp
  · intro h; simp [Function.update_apply, eq_comm]

theorem InvB.congr_set {s : State D} {L L' : Set ℕ} (I : InvB s L none) (h : ∀ x, x ∈ L' ↔ x ∈ L) : InvB s L' none := by
  have : L' = L := Set.ext h
  rw [this]; exact I

/-- what a call loses -/
def Loses (s : State D) (op : Op) (h : ℕ) : Prop := ∃ v w, op = Op.moveAssign v w ∧ v ≠ w ∧ Holds s v h

theorem destRoot_ne {s : State D} {L : Set ℕ} (I : InvB s L none) {v : ℕ} {f : Option ℕ} (hv : s.objs v = some f) (dest : Option ℕ)
    (hd : ∀ b, dest = some b → ∃ p, s.ptrs p = some (some b)) : destRoot s f dest ≠ .misuse := by
  cases dest with
  | none =>
    cases f with
    | none => simp [destRoot]
    | some h =>
      obtain ⟨n, par, hl⟩ := I.fileOpen v h hv
      simp [destRoot, hl]
  | some b =>
    obtain ⟨p, hp⟩ := hd b rfl
    obtain ⟨blk, hb⟩ := I.ptrBlock p b hp
    cases h2 : blk.second with
    | none => simp [destRoot, hb, h2]
    | some h =>
      obtain ⟨r, hr⟩ := I.second b blk h hb h2
      simp [destRoot, hb, h2, hr]

theorem ptr_let_go {s : State D} {L : Set ℕ} {p : ℕ} {b : Option ℕ} (I : InvB s L none) (hp : s.ptrs p = some b)
    (ptrs' : ℕ → Option (Option ℕ)) (h1 : ∀ q c, ptrs' q = some (some c) → ∃ r, s.ptrs r = some (some c))
    (h2 : ∀ c, some c ≠ b → (∃ r, s.ptrs r = some (some c)) → ∃ q, ptrs' q = some (some c)) :
    InvB { s with ptrs := ptrs' } L b := by
  obtain ⟨i1, i2, i3, i4, i5, i6, i7, i8, i9, i10, i11, i12, i13, i14⟩ := I
  refine ⟨i1, i2, ?_, ?_, ?_, i6, i7, i8, i9, i10, i11, i12, i13, i14⟩
  · intro q c hq
    obtain ⟨r, hr⟩ := h1 q c hq
    exact i3 r c hr
  · intro c blk hc hne
    exact h2 c hne (i4 c blk hc (by simp))
  · rintro c rfl
    exact i3 p c hp

theorem objs_inv {s : State D} {L L' : Set ℕ} (objs' : ℕ → Option (Option ℕ)) (I : InvB s L none)
    (hinj : ∀ v w h, objs' v = some (some h) → objs' w = some (some h) → v = w)
    (hfrom : ∀ v h, objs' v = some (some h) → ∃ w, s.objs w = some (some h))
    (hto : ∀ w h, s.objs w = some (some h) → (∃ v, objs' v = some (some h)) ∨ h ∈ L')
    (hL : ∀ h, h ∈ L → h ∈ L') (hL' : ∀ h, h ∈ L' → h ∈ L ∨ ((∃ w, s.objs w = some (some h)) ∧ ∀ v, objs' v ≠ some (some h))) :
    InvB { s with objs := objs' } L' none := by
  obtain ⟨i1, i2, i3, i4, i5, i6, i7, i8, i9, i10, i11, i12, i13, i14⟩ := I
  refine ⟨?_, hinj, i3, i4, i5, i6, i7, i8, i9, i10, i11, i12, ?_, ?_⟩
  · intro v h hv
    obtain ⟨w, hw⟩ := hfrom v h hv
    exact i1 w h hw
  · intro h n par hh
    rcases i13 h n par hh with ⟨w, hw⟩ | hl
    · exact hto w h hw
    · exact Or.inr (hL h hl)
  · intro h hh
    rcases hL' h hh with hl | ⟨⟨w, hw⟩, hn⟩
    · refine ⟨(i14 h hl).1, ?_⟩
      intro v hv
      obtain ⟨w, hw⟩ := hfrom v h hv
      exact (i14 h hl).2 w hw
    · exact ⟨i1 w h hw, hn⟩

theorem step_inv (empty : D) {s : State D} {L : Set ℕ} (op : Op) (I : InvB s L none) :
    step empty s op ≠ .misuse ∧ ∀ s', step empty s op = .ok s' → InvB s' (L ∪ {h | Loses s op h}) none := by
  have noLose : (∀ v w, op ≠ .moveAssign v w) → ∀ {s' : State D}, InvB s' L none → InvB s' (L ∪ {h | Loses s op h}) none := by
    intro hop s' I'
    refine I'.congr_set fun x => ?_
    simp only [Set.mem_union, Set.mem_setOf_eq, or_iff_left_iff_imp]
    rintro ⟨v, w, h, -⟩
    exact absurd h (hop v w)
  cases op with
  | new v =>
    cases hv : s.objs v with
    | some f => simp [step, hv]
    | none =>
      simp only [step, hv, ne_eq, reduceCtorEq, not_false_eq_true, Res.ok.injEq, forall_eq', true_and]
      refine noLose (by simp) (objs_inv _ I ?_ ?_ ?_ (fun _ h => h) (fun _ h => Or.inl h)) <;> simp only [Function.update_apply]
      · have := I.fileInj; grind
      · grind
      · grind
  | newOpen v name mode par good =>
    cases hv : s.objs v with
    | some f => simp [step, hv]
    | none =>
      simp only [step, hv]
      have I' : InvB { s with objs := Function.update s.objs v (some none) } L none := by
        refine objs_inv _ I ?_ ?_ ?_ (fun _ h => h) (fun _ h => Or.inl h) <;> simp only [Function.update_apply]
        · have := I.fileInj; grind
        · grind
        · grind
      have h := openFile_inv empty name mode par good I' (v := v) (by simp)
      exact ⟨h.1, fun s' hs => noLose (by simp) (h.2 s' hs)⟩
  | moveNew v w =>
    cases hv : s.objs v with
    | some f => simp [step, hv]
    | none =>
      cases hw : s.objs w with
      | none => simp [step, hv, hw]
      | some f =>
        simp only [step, hv, hw, ne_eq, reduceCtorEq, not_false_eq_true, Res.ok.injEq, forall_eq', true_and]
        refine noLose (by simp) (objs_inv _ I ?_ ?_ ?_ (fun _ h => h) (fun _ h => Or.inl h)) <;> simp only [Function.update_apply]
        · have := I.fileInj; grind
        · grind
        · intro u h hu
          by_cases huw : u = w
          · subst huw
            refine Or.inl ⟨v, ?_⟩
            have : v ≠ u := by rintro rfl; rw [hv] at hw; simp at hw
            rw [if_neg this, if_pos rfl, ← hw, hu]
          · refine Or.inl ⟨u, ?_⟩
            have : u ≠ v := by rintro rfl; rw [hv] at hu; simp at hu
            rw [if_neg huw, if_neg this, hu]
  | moveAssign v w =>
    cases hv : s.objs v with
    | none => simp [step, hv]
    | some f0 =>
      cases hw : s.objs w with
      | none => simp [step, hv, hw]
      | some f =>
        by_cases hwv : w = v
        · simp only [step, hv, hwv, if_true, ne_eq, reduceCtorEq, not_false_eq_true, Res.ok.injEq, forall_eq', true_and]
          refine I.congr_set fun x => ?_
          simp only [Set.mem_union, Set.mem_setOf_eq, or_iff_left_iff_imp]
          rintro ⟨v', w', h, hne, -⟩
          cases h
          exact absurd rfl hne
        · simp only [step, hv, hw, hwv, if_false, ne_eq, reduceCtorEq, not_false_eq_true, Res.ok.injEq, forall_eq', true_and]
          have hset : ∀ h, Loses s (.moveAssign v w) h ↔ s.objs v = some (some h) := by
            intro h
            constructor
            · rintro ⟨v', w', e, -, hh⟩
              cases e; exact hh
            · intro hh
              exact ⟨v, w, rfl, fun e => hwv e.symm, hh⟩
          refine objs_inv _ I ?_ ?_ ?_ (fun _ h => Or.inl h) ?_ <;> simp only [Function.update_apply]
          · have := I.fileInj; grind
          · grind
          · intro u h hu
            by_cases huw : u = w
            · subst huw
              refine Or.inl ⟨v, ?_⟩
              rw [if_neg (fun e => hwv e.symm), if_pos rfl, ← hw, hu]
            · by_cases huv : u = v
              · subst huv
                exact Or.inr (Or.inr ((hset h).2 hu))
              · exact Or.inl ⟨u, by rw [if_neg huw, if_neg huv, hu]⟩
          · rintro h (hl | hl)
            · exact Or.inl hl
            · have hl := (hset h).1 hl
              refine Or.inr ⟨⟨v, hl⟩, ?_⟩
              intro u
              have := I.fileInj
              split_ifs with h1 h2
              · simp
              · intro e
                exact hwv (this w v h (hw.trans e) hl)
              · intro e
                exact h2 (this u v h e hl)
  | open_ v name mode par good =>
    cases hv : s.objs v with
    | none => simp [step, hv]
    | some f =>
      simp only [step, hv]
      have h := closeFile_inv I hv
      cases hc : closeFile s v f with
      | misuse => exact absurd hc h.1
      | invalid => exact absurd hc h.2.1
      | exit => simp [Res.bind]
      | ok s1 =>
        obtain ⟨I1, h1⟩ := h.2.2 s1 hc
        have h2 := openFile_inv empty name mode par good I1 h1
        simp only [Res.bind]
        exact ⟨h2.1, fun s' hs => noLose (by simp) (h2.2 s' hs)⟩
  | close v =>
    cases hv : s.objs v with
    | none => simp [step, hv]
    | some f =>
      simp only [step, hv]
      have h := closeFile_inv I hv
      exact ⟨h.1, fun s' hs => noLose (by simp) (h.2.2 s' hs).1⟩
  | destroy v =>
    cases hv : s.objs v with
    | none => simp [step, hv]
    | some f =>
      simp only [step, hv]
      have h := closeFile_inv I hv
      cases hc : closeFile s v f with
      | misuse => exact absurd hc h.1
      | invalid => exact absurd hc h.2.1
      | exit => simp [Res.bind]
      | ok s1 =>
        obtain ⟨I1, h1⟩ := h.2.2 s1 hc
        simp only [Res.bind, ne_eq, reduceCtorEq, not_false_eq_true, Res.ok.injEq, forall_eq', true_and]
        refine noLose (by simp) (objs_inv _ I1 ?_ ?_ ?_ (fun _ h => h) (fun _ h => Or.inl h)) <;> simp only [Function.update_apply]
        · have := I1.fileInj; grind
        · grind
        · intro u h hu
          have : u ≠ v := by rintro rfl; rw [h1] at hu; simp at hu
          exact Or.inl ⟨u, by rw [if_neg this, hu]⟩
  | make p k sp v dest good =>
    cases hp : s.ptrs p with
    | some b => simp [step, hp]
    | none =>
      cases hv : s.objs v with
      | none => simp [step, hp, hv]
      | some f =>
        have fin : ∀ d, (∀ b, d = some b → ∃ q, s.ptrs q = some (some b)) →
            ((destRoot s f d).bind fun
              | some root => if good = true then .ok (makeObj s p k sp root) else .exit
              | none => .exit) ≠ Res.misuse ∧ ∀ s', ((destRoot s f d).bind fun
              | some root => if good = true then .ok (makeObj s p k sp root) else .exit
              | none => .exit) = .ok s' → InvB s' L none := by
          intro d hd
          have h := destRoot_ne I hv d hd
          cases hr : destRoot s f d with
          | misuse => exact absurd hr h
          | invalid => simp [Res.bind]
          | exit => simp [Res.bind]
          | ok r =>
            cases r with
            | none => simp [Res.bind]
            | some root =>
              simp only [Res.bind]
              split_ifs
              · simpa using makeObj_inv p k sp root I hp
              · simp
        cases dest with
        | none =>
          simp only [step, hp, hv]
          have := fin none (by simp)
          exact ⟨this.1, fun s' hs => noLose (by simp) (this.2 s' hs)⟩
        | some q =>
          cases hq : s.ptrs q with
          | none => simp [step, hp, hv, hq]
          | some b =>
            simp only [step, hp, hv, hq]
            have := fin b (by rintro c rfl; exact ⟨q, hq⟩)
            exact ⟨this.1, fun s' hs => noLose (by simp) (this.2 s' hs)⟩
  | space p =>
    cases hp : s.ptrs p with
    | some b => simp [step, hp]
    | none =>
      simp only [step, hp, ne_eq, reduceCtorEq, not_false_eq_true, Res.ok.injEq, forall_eq', true_and]
      exact noLose (by simp) (space_inv p I hp)
  | null p =>
    cases hp : s.ptrs p with
    | some b => simp [step, hp]
    | none =>
      simp only [step, hp, ne_eq, reduceCtorEq, not_false_eq_true, Res.ok.injEq, forall_eq', true_and]
      refine noLose (by simp) ?_
      obtain ⟨i1, i2, i3, i4, i5, i6, i7, i8, i9, i10, i11, i12, i13, i14⟩ := I
      refine ⟨i1, i2, ?_, ?_, i5, i6, i7, i8, i9, i10, i11, i12, i13, i14⟩ <;> simp only [Function.update_apply]
      · grind
      · intro c blk hc hn
        obtain ⟨q, hq⟩ := i4 c blk hc hn
        exact ⟨q, by rw [if_neg (by rintro rfl; rw [hp] at hq; simp at hq), hq]⟩
  | copyNew p q =>
    cases hp : s.ptrs p with
    | some b => simp [step, hp]
    | none =>
      cases hq : s.ptrs q with
      | none => simp [step, hp, hq]
      | some b =>
        simp only [step, hp, hq, ne_eq, reduceCtorEq, not_false_eq_true, Res.ok.injEq, forall_eq', true_and]
        refine noLose (by simp) ?_
        obtain ⟨i1, i2, i3, i4, i5, i6, i7, i8, i9, i10, i11, i12, i13, i14⟩ := I
        refine ⟨i1, i2, ?_, ?_, i5, i6, i7, i8, i9, i10, i11, i12, i13, i14⟩ <;> simp only [Function.update_apply]
        · grind
        · intro c blk hc hn
          obtain ⟨r, hr⟩ := i4 c blk hc hn
          exact ⟨r, by rw [if_neg (by rintro rfl; rw [hp] at hr; simp at hr), hr]⟩
  | assign p q =>
    cases hp : s.ptrs p with
    | none => simp [step, hp]
    | some b =>
      cases hq : s.ptrs q with
      | none => simp [step, hp, hq]
      | some b' =>
        simp only [step, hp, hq]
        have J := ptr_let_go I hp (Function.update s.ptrs p (some b')) (by
            intro r c hr
            rw [Function.update_apply] at hr
            split_ifs at hr with h
            · exact ⟨q, hq.trans hr⟩
            · exact ⟨r, hr⟩) (by
            rintro c hc ⟨r, hr⟩
            refine ⟨r, ?_⟩
            have : r ≠ p := by rintro rfl; rw [hp] at hr; exact hc (Option.some.inj hr).symm
            rw [Function.update_of_ne this, hr])
        have h := release_inv J
        exact ⟨h.1, fun s' hs => noLose (by simp) (h.2.2.2 s' hs).1⟩
  | moveP p q =>
    cases hp : s.ptrs p with
    | none => simp [step, hp]
    | some b =>
      cases hq : s.ptrs q with
      | none => simp [step, hp, hq]
      | some b' =>
        by_cases hqp : q = p
        · subst hqp
          simp only [step, hp, if_true, ne_eq, reduceCtorEq, not_false_eq_true, Res.ok.injEq, forall_eq', true_and]
          exact noLose (by simp) I
        · simp only [step, hp, hq, hqp, if_false]
          have J := ptr_let_go I hp (Function.update (Function.update s.ptrs p (some b')) q (some none)) (by
              intro r c hr
              simp only [Function.update_apply] at hr
              split_ifs at hr with h1 h2
              · simp at hr
              · exact ⟨q, hq.trans hr⟩
              · exact ⟨r, hr⟩) (by
              rintro c hc ⟨r, hr⟩
              have hrp : r ≠ p := by rintro rfl; rw [hp] at hr; exact hc (Option.some.inj hr).symm
              by_cases hrq : r = q
              · subst hrq
                refine ⟨p, ?_⟩
                rw [Function.update_of_ne (fun e => hqp e.symm), Function.update_self, ← hq, hr]
              · exact ⟨r, by rw [Function.update_of_ne hrq, Function.update_of_ne hrp, hr]⟩)
          have h := release_inv J
          exact ⟨h.1, fun s' hs => noLose (by simp) (h.2.2.2 s' hs).1⟩
  | drop p =>
    cases hp : s.ptrs p with
    | none => simp [step, hp]
    | some b =>
      simp only [step, hp]
      have J := ptr_let_go I hp (Function.update s.ptrs p none) (by
          intro r c hr
          rw [Function.update_apply] at hr
          split_ifs at hr with h
          exact ⟨r, hr⟩) (by
          rintro c hc ⟨r, hr⟩
          refine ⟨r, ?_⟩
          have : r ≠ p := by rintro rfl; rw [hp] at hr; exact hc (Option.some.inj hr).symm
          rw [Function.update_of_ne this, hr])
      have h := release_inv J
      exact ⟨h.1, fun s' hs => noLose (by simp) (h.2.2.2 s' hs).1⟩

theorem run_append (empty : D) (s : State D) (a b : List Op) :
    run empty s (a ++ b) = (run empty s a).bind fun s => run empty s b := by
  induction a generalizing s with
  | nil => simp [run, Res.bind]
  | cons op a ih =>
    simp only [List.cons_append, run]
    cases step empty s op with
    | ok s1 => simpa [Res.bind] using ih s1
    | exit => rfl
    | misuse => rfl
    | invalid => rfl

/-- the invariant after any calls -/
theorem run_inv (empty : D) (disk : String → Option D) (ops : List Op) :
    run empty (start disk) ops ≠ .misuse ∧
      ∀ s, run empty (start disk) ops = .ok s → InvB s {h | Overwritten empty disk ops h} none := by
  induction ops using List.reverseRecOn with
  | nil =>
    refine ⟨by simp [run], ?_⟩
    intro s hs
    simp only [run, Res.ok.injEq] at hs
    subst hs
    refine (inv_start disk).congr_set fun x => ?_
    simp only [Set.mem_setOf_eq, Set.mem_empty_iff_false, iff_false]
    rintro ⟨pre, v, w, post, s, h, -⟩
    simp at h
  | append_singleton ops op ih =>
    rw [run_append]
    cases hr : run empty (start disk) ops with
    | misuse => exact absurd hr ih.1
    | exit => simp [Res.bind]
    | invalid => simp [Res.bind]
    | ok s1 =>
      have I := ih.2 s1 hr
      have h := step_inv empty op I
      have h1 : (Res.ok s1).bind (fun s => run empty s [op]) = step empty s1 op := by
        simp only [Res.bind, run]
        cases step empty s1 op <;> rfl
      rw [h1]
      refine ⟨h.1, fun s hs => (h.2 s hs).congr_set fun x => ?_⟩
      simp only [Set.mem_setOf_eq, Set.mem_union]
      constructor
      · rintro ⟨pre, v, w, post, s2, he, hne, hp, hh⟩
        rcases List.eq_nil_or_concat post with rfl | ⟨post', o, rfl⟩
        · obtain ⟨rfl, h2⟩ := List.append_inj' he rfl
          simp only [List.cons.injEq, and_true] at h2
          rw [hr] at hp; cases hp
          exact Or.inr ⟨v, w, h2, hne, hh⟩
        · refine Or.inl ⟨pre, v, w, post', s2, ?_, hne, hp, hh⟩
          have he' : ops ++ [op] = (pre ++ Op.moveAssign v w :: post') ++ [o] := by rw [he]; simp
          exact (List.append_inj' he' rfl).1
      · rintro (⟨pre, v, w, post, s2, he, hne, hp, hh⟩ | ⟨v, w, he, hne, hh⟩)
        · exact ⟨pre, v, w, post ++ [op], s2, by rw [he]; simp, hne, hp, hh⟩
        · exact ⟨ops, v, w, [], s1, by rw [he], hne, hr, hh⟩

end DG.H5
