import Verif.Spec.Device
import Verif.Lemmas.Device

/-! The machine of `Model/Device.lean`: kernels in which, apart from cells only one thread touches, there are
cells that several threads of a team write, all with the same number. -/
namespace DG.Dev

namespace Code
variable {C V α β : Type}

/-- the code only reads cells of `rd` or `wr` and only writes cells of `wr` or `sh` -/
def Within3 (rd wr sh : C → Prop) : Code C V α → Prop
  | ret _ => True
  | load c k => (rd c ∨ wr c) ∧ ∀ v, Within3 rd wr sh (k v)
  | store c _ k => (wr c ∨ sh c) ∧ Within3 rd wr sh k

theorem Within.within3 {rd wr sh : C → Prop} : ∀ {x : Code C V α}, x.Within rd wr → x.Within3 rd wr sh
  | ret _, _ => trivial
  | load _ _, h => ⟨h.1, fun v => Within.within3 (h.2 v)⟩
  | store _ _ _, h => ⟨Or.inl h.1, Within.within3 h.2⟩

theorem Within3.bind {rd wr sh : C → Prop} : ∀ {x : Code C V α} {f : α → Code C V β},
    x.Within3 rd wr sh → (∀ a, (f a).Within3 rd wr sh) → (x.bind f).Within3 rd wr sh
  | ret a, f, _, hf => hf a
  | load c k, f, h, hf => ⟨h.1, fun v => Within3.bind (h.2 v) hf⟩
  | store c v k, f, h, hf => ⟨h.1, Within3.bind h.2 hf⟩

theorem Within3.forN {rd wr sh : C → Prop} {f : ℕ → Code C V Unit} {n : ℕ}
    (h : ∀ i < n, (f i).Within3 rd wr sh) : (Code.forN n f).Within3 rd wr sh := by
  induction n with
  | zero => exact trivial
  | succ n ih => exact Within3.bind (ih fun i hi => h i (by omega)) fun _ => h n (by omega)

variable [DecidableEq C]

/-- every store of a run from memory `m` to a cell of `sh` stores the number `val` has there -/
def Agrees (sh : C → Prop) (val : C → V) : Code C V α → (C → V) → Prop
  | ret _, _ => True
  | load c k, m => Agrees sh val (k (m c)) m
  | store c v k, m => (sh c → v = val c) ∧ Agrees sh val k (Function.update m c v)

theorem Agrees.of_within {rd wr sh : C → Prop} {val : C → V} {x : Code C V α} (h : x.Within rd wr)
    (hd : ∀ c, wr c → ¬ sh c) : ∀ m, x.Agrees sh val m := by
  induction x with
  | ret a => intro m; trivial
  | load c k ih => intro m; exact ih _ (h.2 _) m
  | store c v k ih => intro m; exact ⟨fun hs => absurd hs (hd c h.1), ih h.2 _⟩

theorem Agrees.bind {sh : C → Prop} {val : C → V} {x : Code C V α} {f : α → Code C V β} :
    ∀ {m : C → V}, x.Agrees sh val m → (f (x.run m).1).Agrees sh val (x.run m).2 →
      (x.bind f).Agrees sh val m := by
  induction x with
  | ret a => intro m _ h; exact h
  | load c k ih => intro m h h'; exact ih (m c) h h'
  | store c v k ih => intro m h h'; exact ⟨h.1, ih h.2 h'⟩

theorem Agrees.forN {sh : C → Prop} {val : C → V} {f : ℕ → Code C V Unit} {n : ℕ} {m : C → V}
    (h : ∀ i < n, (f i).Agrees sh val ((Code.forN i f).run m).2) : (Code.forN n f).Agrees sh val m := by
  induction n with
  | zero => trivial
  | succ n ih => exact Agrees.bind (ih fun i hi => h i (by omega)) (h n (by omega))

/-- memories that agree on what the code reads: same result, and every cell either gets the same number or is
left alone in both runs -/
theorem run_congr3 {rd wr sh : C → Prop} {x : Code C V α} (h : x.Within3 rd wr sh) : ∀ {m m' : C → V},
    (∀ c, rd c ∨ wr c → m c = m' c) →
    (x.run m).1 = (x.run m').1 ∧ x.steps m = x.steps m' ∧
      ∀ c, (x.run m).2 c = (x.run m').2 c ∨ ((x.run m).2 c = m c ∧ (x.run m').2 c = m' c) := by
  induction x with
  | ret a => intro m m' _; exact ⟨rfl, rfl, fun c => Or.inr ⟨rfl, rfl⟩⟩
  | load c k ih =>
    intro m m' hm
    have hc : m c = m' c := hm c h.1
    have := ih (m c) (h.2 _) hm
    simp only [run, steps]
    rw [← hc]
    exact ⟨this.1, by rw [this.2.1], this.2.2⟩
  | store c v k ih =>
    intro m m' hm
    have hm' : ∀ x, rd x ∨ wr x → Function.update m c v x = Function.update m' c v x := by
      intro x hx
      by_cases hxc : x = c
      · subst hxc; simp
      · simp [Function.update_of_ne hxc, hm x hx]
    have := ih h.2 hm'
    refine ⟨this.1, by simp only [steps]; rw [this.2.1], fun x => ?_⟩
    rcases this.2.2 x with h1 | ⟨h1, h2⟩
    · exact Or.inl h1
    · by_cases hxc : x = c
      · subst hxc
        left
        simp only [run]
        rw [h1, h2]
        simp
      · right
        simp only [run]
        rw [h1, h2, Function.update_of_ne hxc, Function.update_of_ne hxc]
        exact ⟨rfl, rfl⟩

theorem Agrees.congr {rd wr sh : C → Prop} {val : C → V} {x : Code C V α} (h : x.Within3 rd wr sh) :
    ∀ {m m' : C → V}, (∀ c, rd c ∨ wr c → m c = m' c) → x.Agrees sh val m → x.Agrees sh val m' := by
  induction x with
  | ret a => intro m m' _ _; trivial
  | load c k ih =>
    intro m m' hm ha
    have hc : m c = m' c := hm c h.1
    show (k (m' c)).Agrees sh val m'
    rw [← hc]
    exact ih (m c) (h.2 _) hm ha
  | store c v k ih =>
    intro m m' hm ha
    refine ⟨ha.1, ih h.2 ?_ ha.2⟩
    intro x hx
    by_cases hxc : x = c
    · subst hxc; simp
    · simp [Function.update_of_ne hxc, hm x hx]

/-- a shared cell that already has its number keeps it -/
theorem Agrees.keeps {sh : C → Prop} {val : C → V} {x : Code C V α} {c : C} (hs : sh c) :
    ∀ {m : C → V}, x.Agrees sh val m → m c = val c → (x.run m).2 c = val c := by
  induction x with
  | ret a => intro m _ h; exact h
  | load c k ih => intro m h h'; exact ih (m c) h h'
  | store c' v k ih =>
    intro m h h'
    refine ih h.2 ?_
    by_cases hxc : c = c'
    · subst hxc; rw [Function.update_self]; exact h.1 hs
    · rw [Function.update_of_ne hxc]; exact h'

end Code

/-- One phase of one team: the threads, run alone from memory `M`, together turn it into `M'`: thread `j` owns
the cells `wr j`; the cells `sh` are written by several threads with the same numbers, and by at least one. -/
structure PhaseOK {C V J : Type} [DecidableEq C] (code : J → Code C V Unit) (rd wr : J → C → Prop)
    (sh : C → Prop) (M M' : C → V) : Prop where
  within : ∀ j, (code j).Within3 (rd j) (wr j) sh
  excl : ∀ j j' c, wr j c → rd j' c ∨ wr j' c → j = j'
  shfree : ∀ j c, sh c → ¬ rd j c ∧ ¬ wr j c
  sets : ∀ j c, wr j c → ((code j).run M).2 c = M' c
  agrees : ∀ j, (code j).Agrees sh M' M
  written : ∀ c, sh c → ∃ j, ((code j).run M).2 c = M' c
  rest : ∀ c, (∀ j, ¬ wr j c) → ¬ sh c → M' c = M c

namespace Kernel
variable {C V T J : Type} [DecidableEq C] [DecidableEq T] [DecidableEq J]

/-- A kernel all of whose phases are understood; `own c` is the team that may write cell `c`. -/
structure Phased (k : Kernel C V T J) (own : C → Option T) (rd wr : T → ℕ → J → C → Prop)
    (sh : T → ℕ → C → Prop) (M : T → ℕ → C → V) (m : C → V) : Prop where
  start : ∀ t, M t 0 = m
  phase : ∀ t p, p < k.nph → PhaseOK (k.code t p) (rd t p) (wr t p) (sh t p) (M t p) (M t (p + 1))
  rdOwn : ∀ t p j c, p < k.nph → rd t p j c → own c = some t ∨ own c = none
  wrOwn : ∀ t p j c, p < k.nph → wr t p j c → own c = some t
  shOwn : ∀ t p c, p < k.nph → sh t p c → own c = some t

variable {k : Kernel C V T J} {own : C → Option T} {rd wr : T → ℕ → J → C → Prop}
  {sh : T → ℕ → C → Prop} {M : T → ℕ → C → V} {m : C → V}

/-- what holds of every reachable state -/
structure PInv (k : Kernel C V T J) (own : C → Option T) (rd wr : T → ℕ → J → C → Prop)
    (sh : T → ℕ → C → Prop) (M : T → ℕ → C → V) (c : Conf C V T J) : Prop where
  le : ∀ t, c.phase t ≤ k.nph
  within : ∀ t j, c.phase t < k.nph →
    (c.codes t j).Within3 (rd t (c.phase t) j) (wr t (c.phase t) j) (sh t (c.phase t))
  agrees : ∀ t j, c.phase t < k.nph → (c.codes t j).Agrees (sh t (c.phase t)) (M t (c.phase t + 1)) c.mem
  mine : ∀ t j x, c.phase t < k.nph → wr t (c.phase t) j x →
    ((c.codes t j).run c.mem).2 x = M t (c.phase t + 1) x
  shared : ∀ t x, c.phase t < k.nph → sh t (c.phase t) x →
    ∃ j, ((c.codes t j).run c.mem).2 x = M t (c.phase t + 1) x
  rest : ∀ t x, (own x = some t ∨ own x = none) →
    (c.phase t < k.nph → (∀ j, ¬ wr t (c.phase t) j x) ∧ ¬ sh t (c.phase t) x) →
    c.mem x = M t (c.phase t) x

theorem Phased.inv_init (h : k.Phased own rd wr sh M m) : PInv k own rd wr sh M (k.init m) where
  le _ := Nat.zero_le _
  within t j hp := (h.phase t 0 hp).within j
  agrees t j hp := by
    have := (h.phase t 0 hp).agrees j
    rw [h.start t] at this
    exact this
  mine t j x hp hw := by
    have := (h.phase t 0 hp).sets j x hw
    rw [h.start t] at this
    exact this
  shared t x hp hx := by
    have := (h.phase t 0 hp).written x hx
    rw [h.start t] at this
    exact this
  rest t _ _ _ := by
    show m _ = M t 0 _
    rw [h.start t]

/-- what a thread can access is not written by other teams -/
theorem Phased.team_eq (h : k.Phased own rd wr sh M m) {t t' : T} {p p' : ℕ} {j j' : J} {x : C}
    (hp : p < k.nph) (hp' : p' < k.nph) (hw : wr t p j x ∨ sh t p x)
    (hr : rd t' p' j' x ∨ wr t' p' j' x ∨ sh t' p' x) : t = t' := by
  have h1 : own x = some t := hw.elim (h.wrOwn t p j x hp) (h.shOwn t p x hp)
  have h2 : own x = some t' ∨ own x = none := by
    rcases hr with hr | hr | hr
    · exact h.rdOwn t' p' j' x hp' hr
    · exact Or.inl (h.wrOwn t' p' j' x hp' hr)
    · exact Or.inl (h.shOwn t' p' x hp' hr)
  rw [h1] at h2
  rcases h2 with h2 | h2
  · exact Option.some.inj h2
  · exact absurd h2 (by simp)

/-- at a barrier the team sees the memory of the next phase -/
theorem Phased.at_barrier (h : k.Phased own rd wr sh M m) {c : Conf C V T J} (hi : PInv k own rd wr sh M c)
    {t : T} (hp : c.phase t < k.nph) (hc : ∀ j, c.codes t j = .ret ()) (y : C)
    (hv : own y = some t ∨ own y = none) : c.mem y = M t (c.phase t + 1) y := by
  by_cases hw : ∃ j, wr t (c.phase t) j y
  · obtain ⟨j, hw⟩ := hw
    have := hi.mine t j y hp hw
    rw [hc j] at this
    exact this
  · by_cases hs : sh t (c.phase t) y
    · obtain ⟨j, hj⟩ := hi.shared t y hp hs
      rw [hc j] at hj
      exact hj
    · push Not at hw
      rw [(h.phase t _ hp).rest y hw hs]
      exact hi.rest t y hv fun _ => ⟨hw, hs⟩

/-- other threads do not read the cell a thread is about to write -/
theorem Phased.store_apart (h : k.Phased own rd wr sh M m) {c : Conf C V T J}
    {t t' : T} {j j' : J} {x : C} (hp : c.phase t < k.nph) (hp' : c.phase t' < k.nph)
    (hx : wr t (c.phase t) j x ∨ sh t (c.phase t) x) (e : ¬ (t' = t ∧ j' = j)) (z : C)
    (hz : rd t' (c.phase t') j' z ∨ wr t' (c.phase t') j' z) : z ≠ x := by
  rintro rfl
  have ht : t = t' := h.team_eq (j' := j') hp hp' hx (hz.elim Or.inl fun h => Or.inr (Or.inl h))
  subst ht
  rcases hx with hx | hx
  · exact e ⟨rfl, ((h.phase t _ hp).excl j j' z hx hz).symm⟩
  · have := (h.phase t _ hp).shfree j' z hx
    exact hz.elim this.1 this.2

theorem Phased.inv_step (h : k.Phased own rd wr sh M m) {c c' : Conf C V T J} (hi : PInv k own rd wr sh M c)
    (hs : k.Step c c') : PInv k own rd wr sh M c' := by
  cases hs with
  | load t j x f hp hc =>
    have hrun : ∀ t' j', ((setCode c t j (f (c.mem x)) t' j').run c.mem) = (c.codes t' j').run c.mem := by
      intro t' j'
      unfold setCode
      split
      · next e => obtain ⟨rfl, rfl⟩ := e; rw [hc]; rfl
      · rfl
    refine ⟨hi.le, ?_, ?_, ?_, ?_, hi.rest⟩
    · intro t' j' hp'
      show (setCode c t j (f (c.mem x)) t' j').Within3 _ _ _
      unfold setCode
      split
      · next e =>
        obtain ⟨rfl, rfl⟩ := e
        have := hi.within t' j' hp'
        rw [hc] at this
        exact this.2 _
      · exact hi.within t' j' hp'
    · intro t' j' hp'
      show (setCode c t j (f (c.mem x)) t' j').Agrees _ _ c.mem
      unfold setCode
      split
      · next e =>
        obtain ⟨rfl, rfl⟩ := e
        have := hi.agrees t' j' hp'
        rw [hc] at this
        exact this
      · exact hi.agrees t' j' hp'
    · intro t' j' y hp' hw
      show ((setCode c t j (f (c.mem x)) t' j').run c.mem).2 y = _
      rw [hrun]
      exact hi.mine t' j' y hp' hw
    · intro t' y hp' hy
      obtain ⟨j', hj'⟩ := hi.shared t' y hp' hy
      refine ⟨j', ?_⟩
      show ((setCode c t j (f (c.mem x)) t' j').run c.mem).2 y = _
      rw [hrun]
      exact hj'
  | store t j x v f hp hc =>
    have hwin := hi.within t j hp
    rw [hc] at hwin
    have hagr := hi.agrees t j hp
    rw [hc] at hagr
    have hx : wr t (c.phase t) j x ∨ sh t (c.phase t) x := hwin.1
    have hapart := fun t' j' hp' e => h.store_apart (t' := t') (j' := j') hp hp' hx e
    -- runs of the other threads
    have hrun : ∀ t' j', ¬ (t' = t ∧ j' = j) → c.phase t' < k.nph → ∀ y, y ≠ x →
        ((c.codes t' j').run (Function.update c.mem x v)).2 y = ((c.codes t' j').run c.mem).2 y := by
      intro t' j' e hp' y hy
      have := (Code.run_congr3 (hi.within t' j' hp') (m := Function.update c.mem x v) (m' := c.mem)
        (fun z hz => Function.update_of_ne (hapart t' j' hp' e z hz) _ _)).2.2 y
      rcases this with h1 | ⟨h1, h2⟩
      · exact h1
      · rw [h1, h2, Function.update_of_ne hy]
    refine ⟨hi.le, ?_, ?_, ?_, ?_, ?_⟩
    · intro t' j' hp'
      show (setCode c t j f t' j').Within3 _ _ _
      unfold setCode
      split
      · next e =>
        obtain ⟨rfl, rfl⟩ := e
        exact hwin.2
      · exact hi.within t' j' hp'
    · intro t' j' hp'
      show (setCode c t j f t' j').Agrees _ _ (Function.update c.mem x v)
      unfold setCode
      split
      · next e =>
        obtain ⟨rfl, rfl⟩ := e
        exact hagr.2
      · next e =>
        exact (hi.agrees t' j' hp').congr (hi.within t' j' hp')
          fun z hz => (Function.update_of_ne (hapart t' j' hp' e z hz) _ _).symm
    · intro t' j' y hp' hw
      have hown := hi.mine t' j' y hp' hw
      show ((setCode c t j f t' j').run (Function.update c.mem x v)).2 y = _
      unfold setCode
      split
      · next e =>
        obtain ⟨rfl, rfl⟩ := e
        rw [hc] at hown
        exact hown
      · next e =>
        rw [hrun t' j' e hp' y (hapart t' j' hp' e y (Or.inr hw))]
        exact hown
    · intro t' y hp' hy
      by_cases hyx : t' = t ∧ y = x
      · obtain ⟨rfl, rfl⟩ := hyx
        refine ⟨j, ?_⟩
        show ((setCode c t' j f t' j).run (Function.update c.mem y v)).2 y = _
        simp only [setCode, and_self, if_true]
        exact hagr.2.keeps hy (by rw [Function.update_self]; exact hagr.1 hy)
      · have hne : y ≠ x := by
          rintro rfl
          exact hyx ⟨(h.team_eq (j := j) (j' := j) hp hp' hx (Or.inr (Or.inr hy))).symm, rfl⟩
        obtain ⟨j', hj'⟩ := hi.shared t' y hp' hy
        refine ⟨j', ?_⟩
        show ((setCode c t j f t' j').run (Function.update c.mem x v)).2 y = _
        unfold setCode
        split
        · next e =>
          obtain ⟨rfl, rfl⟩ := e
          rw [hc] at hj'
          exact hj'
        · next e =>
          rw [hrun t' j' e hp' y hne]
          exact hj'
    · intro t' y hv hn
      have hyx : y ≠ x := by
        rintro rfl
        have h1 : own y = some t := hx.elim (h.wrOwn t _ j y hp) (h.shOwn t _ y hp)
        rw [h1] at hv
        have ht : t = t' := hv.elim Option.some.inj (fun h => absurd h (by simp))
        subst ht
        exact hx.elim ((hn hp).1 j) (hn hp).2
      show Function.update c.mem x v y = _
      rw [Function.update_of_ne hyx]
      exact hi.rest t' y hv hn
  | barrier t hp hc =>
    have hmem := h.at_barrier hi hp hc
    have hacc : ∀ p' j' z, p' < k.nph → rd t p' j' z ∨ wr t p' j' z → own z = some t ∨ own z = none :=
      fun p' j' z hp' hz => hz.elim (h.rdOwn t p' j' z hp') fun h' => Or.inl (h.wrOwn t p' j' z hp' h')
    refine ⟨?_, ?_, ?_, ?_, ?_, ?_⟩
    · intro t'
      by_cases e : t' = t
      · subst e
        simp only [Function.update_self]
        omega
      · simp only [Function.update_of_ne e]
        exact hi.le t'
    · intro t' j' hp'
      by_cases e : t' = t
      · subst e
        simp only [Function.update_self] at hp' ⊢
        exact (h.phase t' _ hp').within j'
      · simp only [Function.update_of_ne e] at hp' ⊢
        exact hi.within t' j' hp'
    · intro t' j' hp'
      by_cases e : t' = t
      · subst e
        simp only [Function.update_self] at hp' ⊢
        exact ((h.phase t' _ hp').agrees j').congr ((h.phase t' _ hp').within j')
          fun z hz => (hmem z (hacc _ j' z hp' hz)).symm
      · simp only [Function.update_of_ne e] at hp' ⊢
        exact hi.agrees t' j' hp'
    · intro t' j' y hp' hw
      by_cases e : t' = t
      · subst e
        simp only [Function.update_self] at hp' hw ⊢
        rw [← (h.phase t' _ hp').sets j' y hw]
        have := (Code.run_congr3 ((h.phase t' _ hp').within j') (m := c.mem)
          (m' := M t' (c.phase t' + 1)) (fun z hz => hmem z (hacc _ j' z hp' hz))).2.2 y
        rcases this with h1 | ⟨h1, h2⟩
        · exact h1
        · rw [h1, h2]
          exact hmem y (hacc _ j' y hp' (Or.inr hw))
      · simp only [Function.update_of_ne e] at hp' hw ⊢
        exact hi.mine t' j' y hp' hw
    · intro t' y hp' hy
      by_cases e : t' = t
      · subst e
        simp only [Function.update_self] at hp' hy ⊢
        obtain ⟨j', hj'⟩ := (h.phase t' _ hp').written y hy
        refine ⟨j', ?_⟩
        rw [← hj']
        have := (Code.run_congr3 ((h.phase t' _ hp').within j') (m := c.mem)
          (m' := M t' (c.phase t' + 1)) (fun z hz => hmem z (hacc _ j' z hp' hz))).2.2 y
        rcases this with h1 | ⟨h1, h2⟩
        · exact h1
        · rw [h1, h2]
          exact hmem y (Or.inl (h.shOwn t' _ y hp' hy))
      · simp only [Function.update_of_ne e] at hp' hy ⊢
        exact hi.shared t' y hp' hy
    · intro t' y hv hn
      by_cases e : t' = t
      · subst e
        simp only [Function.update_self]
        exact hmem y hv
      · simp only [Function.update_of_ne e] at hn ⊢
        exact hi.rest t' y hv hn

theorem Phased.inv_steps (h : k.Phased own rd wr sh M m) {n : ℕ} {c : Conf C V T J}
    (hs : k.Steps n (k.init m) c) : PInv k own rd wr sh M c := by
  generalize hc0 : k.init m = c0 at hs
  induction hs with
  | refl => subst hc0; exact h.inv_init
  | tail _ hst ih => exact h.inv_step (ih hc0) hst

section Finite
variable [Fintype T] [Fintype J]

/-- loads, stores and barriers team `t` needs for phases `p`, ..., `nph - 1` -/
noncomputable def workP (k : Kernel C V T J) (M : T → ℕ → C → V) (t : T) (p : ℕ) : ℕ :=
  ∑ q ∈ Finset.Ico p k.nph, (1 + ∑ j, (k.code t q j).steps (M t q))

/-- steps left to do -/
noncomputable def leftP (k : Kernel C V T J) (M : T → ℕ → C → V) (c : Conf C V T J) : ℕ :=
  ∑ t, if c.phase t < k.nph then (1 + ∑ j, (c.codes t j).steps c.mem) + k.workP M t (c.phase t + 1)
    else 0

theorem workP_succ (t : T) {p : ℕ} (hp : p < k.nph) :
    k.workP M t p = (1 + ∑ j, (k.code t p j).steps (M t p)) + k.workP M t (p + 1) := by
  unfold workP
  rw [Finset.sum_eq_sum_Ico_succ_bot hp]

/-- every step uses up one unit -/
theorem Phased.left_step (h : k.Phased own rd wr sh M m) {c c' : Conf C V T J}
    (hi : PInv k own rd wr sh M c) (hs : k.Step c c') : k.leftP M c = k.leftP M c' + 1 := by
  have key : ∀ {S : Type} [Fintype S] [DecidableEq S] (F G : S → ℕ) (t : S), F t = G t + 1 →
      (∀ t', t' ≠ t → F t' = G t') → ∑ t, F t = ∑ t, G t + 1 := by
    intro S _ _ F G t h1 h2
    have e1 := Finset.add_sum_erase _ F (Finset.mem_univ t)
    have e2 := Finset.add_sum_erase _ G (Finset.mem_univ t)
    have e3 : ∑ x ∈ Finset.univ.erase t, F x = ∑ x ∈ Finset.univ.erase t, G x :=
      Finset.sum_congr rfl fun t' ht' => h2 t' (Finset.ne_of_mem_erase ht')
    omega
  cases hs with
  | load t j x f hp hc =>
    unfold leftP
    refine key _ _ t ?_ ?_
    · simp only [hp, if_true]
      have := key (fun j' => (c.codes t j').steps c.mem)
        (fun j' => (setCode c t j (f (c.mem x)) t j').steps c.mem) j
        (by simp only [setCode, and_self, if_true]; rw [hc]; rfl)
        (fun j' hj' => by simp only [setCode, hj', and_false, if_false])
      omega
    · intro t' ht'
      simp only [setCode, ht', false_and, if_false]
  | store t j x v f hp hc =>
    have hwin := hi.within t j hp
    rw [hc] at hwin
    have hsame : ∀ t' j', ¬ (t' = t ∧ j' = j) → c.phase t' < k.nph →
        (c.codes t' j').steps c.mem = (c.codes t' j').steps (Function.update c.mem x v) := by
      intro t' j' e hp'
      exact (Code.run_congr3 (hi.within t' j' hp') (m := c.mem) (m' := Function.update c.mem x v)
        (fun z hz => (Function.update_of_ne (h.store_apart hp hp' hwin.1 e z hz) _ _).symm)).2.1
    unfold leftP
    refine key _ _ t ?_ ?_
    · simp only [hp, if_true]
      have := key (fun j' => (c.codes t j').steps c.mem)
        (fun j' => (setCode c t j f t j').steps (Function.update c.mem x v)) j
        (by simp only [setCode, and_self, if_true]; rw [hc]; rfl)
        (fun j' hj' => by
          simp only [setCode, hj', and_false, if_false]
          exact hsame t j' (fun e => hj' e.2) hp)
      omega
    · intro t' ht'
      by_cases hp' : c.phase t' < k.nph
      · simp only [setCode, ht', false_and, if_false, hp', if_true]
        congr 2
        exact Finset.sum_congr rfl fun j' _ => hsame t' j' (fun e => ht' e.1) hp'
      · simp only [hp', if_false]
  | barrier t hp hc =>
    unfold leftP
    refine key _ _ t ?_ ?_
    · simp only [Function.update_self, hp, if_true, hc]
      by_cases hp' : c.phase t + 1 < k.nph
      · simp only [hp', if_true]
        rw [workP_succ t hp']
        have : ∀ j, (k.code t (c.phase t + 1) j).steps c.mem =
            (k.code t (c.phase t + 1) j).steps (M t (c.phase t + 1)) := by
          intro j
          refine (Code.run_congr3 ((h.phase t _ hp').within j) ?_).2.1
          intro z hz
          exact h.at_barrier hi hp hc z (hz.elim (h.rdOwn t _ j z hp')
            fun h' => Or.inl (h.wrOwn t _ j z hp' h'))
        simp only [this, Code.steps, Finset.sum_const_zero]
        omega
      · simp only [hp', if_false, Code.steps, Finset.sum_const_zero]
        unfold workP
        rw [Finset.Ico_eq_empty (by omega)]
        rfl
    · intro t' ht'
      simp only [Function.update_of_ne ht']

theorem Phased.left_steps (h : k.Phased own rd wr sh M m) {n : ℕ} {c : Conf C V T J}
    (hs : k.Steps n (k.init m) c) : k.leftP M (k.init m) = k.leftP M c + n := by
  generalize hc0 : k.init m = c0 at hs
  induction hs with
  | refl => rfl
  | tail hss hst ih =>
    have hi := h.inv_steps (hc0 ▸ hss)
    rw [ih hc0, h.left_step hi hst]
    omega

theorem Phased.terminates (h : k.Phased own rd wr sh M m) {n : ℕ} {c : Conf C V T J}
    (hs : k.Steps n (k.init m) c) :
    n ≤ k.leftP M (k.init m) ∧ ∃ n' c', k.Steps n' c c' ∧ k.Done c' := by
  refine ⟨by rw [h.left_steps hs]; omega, ?_⟩
  induction hl : k.leftP M c generalizing n c with
  | zero =>
    by_cases hd : k.Done c
    · exact ⟨0, c, Steps.refl c, hd⟩
    · obtain ⟨c', hc'⟩ := progress (h.inv_steps hs).le hd
      have := h.left_step (h.inv_steps hs) hc'
      omega
  | succ l ih =>
    by_cases hd : k.Done c
    · exact ⟨0, c, Steps.refl c, hd⟩
    · obtain ⟨c', hc'⟩ := progress (h.inv_steps hs).le hd
      have := h.left_step (h.inv_steps hs) hc'
      obtain ⟨n', c'', hs', hd'⟩ := ih (hs.tail hc') (by omega)
      exact ⟨1 + n', c'', ((Steps.refl c).tail hc').trans hs', hd'⟩

/-- the memory at the end -/
theorem Phased.result (h : k.Phased own rd wr sh M m) {m' : C → V}
    (hw : ∀ t c, own c = some t → m' c = M t k.nph c) (hn : ∀ c, own c = none → m' c = m c)
    {n : ℕ} {c : Conf C V T J} (hs : k.Steps n (k.init m) c) (hd : k.Done c) : c.mem = m' := by
  have hi := h.inv_steps hs
  have hmem : ∀ t x, (own x = some t ∨ own x = none) → c.mem x = M t k.nph x := by
    intro t x hx
    have := hi.rest t x hx (fun hp => absurd hp (by rw [hd t]; omega))
    rwa [hd t] at this
  funext x
  match hx : own x with
  | some t => rw [hw t x hx]; exact hmem t x (Or.inl hx)
  | none =>
    rw [hn x hx]
    rcases isEmpty_or_nonempty T with he | ⟨⟨t⟩⟩
    · have hz := h.left_steps hs
      unfold Kernel.leftP at hz
      simp only [Finset.univ_eq_empty, Finset.sum_empty, Nat.zero_add] at hz
      subst hz
      cases hs
      rfl
    · rw [hmem t x (Or.inr hx)]
      have : ∀ p ≤ k.nph, M t p x = m x := by
        intro p
        induction p with
        | zero => intro _; rw [h.start t]
        | succ p ih =>
          intro hp
          have hp' : p < k.nph := by omega
          rw [(h.phase t p hp').rest x
            (fun j hj => by have := h.wrOwn t p j x hp' hj; rw [hx] at this; exact absurd this (by simp))
            (fun hj => by have := h.shOwn t p x hp' hj; rw [hx] at this; exact absurd this (by simp))]
          exact ih (by omega)
      exact this _ le_rfl

/-- a kernel whose phases are understood settles -/
theorem Phased.settles (h : k.Phased own rd wr sh M m) {m' : C → V}
    (hw : ∀ t c, own c = some t → m' c = M t k.nph c) (hn : ∀ c, own c = none → m' c = m c) :
    k.Settles m m' where
  noRead n c hs t j t' j' x hne := by
    rintro ⟨hp, v, f, hc⟩ ⟨hp', f', hc'⟩
    have hi := h.inv_steps hs
    have h1 := hi.within t j hp
    have h2 := hi.within t' j' hp'
    rw [hc] at h1
    rw [hc'] at h2
    exact h.store_apart (c := c) hp hp' h1.1 (fun e => hne (by rw [e.1, e.2])) x h2.1 rfl
  sameValue n c hs t j t' j' x v v' f f' hne hp hc hp' hc' := by
    have hi := h.inv_steps hs
    have h1 := hi.within t j hp
    have h2 := hi.within t' j' hp'
    have a1 := hi.agrees t j hp
    have a2 := hi.agrees t' j' hp'
    rw [hc] at h1 a1
    rw [hc'] at h2 a2
    have ht : t = t' := h.team_eq (j' := j') hp hp' h1.1 (Or.inr h2.1)
    subst ht
    refine ⟨rfl, ?_⟩
    have e : ¬ (t = t ∧ j' = j) := fun e => hne (by rw [e.2])
    have hs' : sh t (c.phase t) x := by
      rcases h2.1 with h2 | h2
      · exact absurd rfl (h.store_apart (c := c) hp hp' h1.1 e x (Or.inr h2))
      · exact h2
    rw [a1.1 hs', a2.1 hs']
  ends := ⟨k.leftP M (k.init m), fun _ _ hs => h.terminates hs⟩
  result _ _ hs hd := h.result hw hn hs hd

/-- without shared cells it computes -/
theorem Phased.computes (h : k.Phased own rd wr sh M m) {m' : C → V} (hsh : ∀ t p x, ¬ sh t p x)
    (hw : ∀ t c, own c = some t → m' c = M t k.nph c) (hn : ∀ c, own c = none → m' c = m c) :
    k.Computes m m' where
  noRace n c hs := by
    have hi := h.inv_steps hs
    rintro ⟨t, j, t', j', x, hne, ⟨hp, v, f, hc⟩, h2⟩
    have h1 := hi.within t j hp
    rw [hc] at h1
    have e : ¬ (t' = t ∧ j' = j) := fun e => hne (by rw [e.1, e.2])
    rcases h2 with ⟨hp', v', f', hc'⟩ | ⟨hp', f', hc'⟩
    · have h2 := hi.within t' j' hp'
      rw [hc'] at h2
      exact h.store_apart (c := c) hp hp' h1.1 e x (Or.inr (h2.1.resolve_right (hsh _ _ _))) rfl
    · have h2 := hi.within t' j' hp'
      rw [hc'] at h2
      exact h.store_apart (c := c) hp hp' h1.1 e x h2.1 rfl
  ends := ⟨k.leftP M (k.init m), fun _ _ hs => h.terminates hs⟩
  result _ _ hs hd := h.result hw hn hs hd

end Finite

/-- every phase of every team that is reached is reached in some state where the team is about to start it -/
theorem reach_phase {n : ℕ} {c : Conf C V T J} (hs : k.Steps n (k.init m) c) (t : T) {p : ℕ}
    (hp : p ≤ c.phase t) :
    ∃ n' c', k.Steps n' (k.init m) c' ∧ c'.phase t = p ∧ c'.codes t = k.code t p := by
  generalize hc0 : k.init m = c0 at hs
  induction hs with
  | refl =>
    subst hc0
    have : p = 0 := Nat.le_zero.1 hp
    subst this
    exact ⟨0, _, Steps.refl _, rfl, rfl⟩
  | tail hss hst ih =>
    rename_i n' a b c
    subst hc0
    by_cases h : p ≤ b.phase t
    · exact ih h rfl
    · cases hst with
      | load => exact absurd hp h
      | store => exact absurd hp h
      | barrier t' hp' hc =>
        by_cases e : t = t'
        · subst e
          simp only [Function.update_self] at hp
          have hpe : p = b.phase t + 1 := by omega
          refine ⟨_, _, hss.tail (Step.barrier b t hp' hc), ?_, ?_⟩
          · simp only [Function.update_self, hpe]
          · simp only [Function.update_self, hpe]
        · simp only [Function.update_of_ne e] at hp
          exact absurd hp h

end Kernel
end DG.Dev
