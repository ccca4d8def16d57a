import Verif.Model.Device
import Mathlib.Algebra.BigOperators.Group.Finset.Basic
import Mathlib.Algebra.BigOperators.Fin
import Mathlib.Algebra.Order.BigOperators.Group.Finset
import Mathlib.Algebra.BigOperators.Intervals
import Mathlib.Data.Fintype.Basic

/-! The machine of `Model/Device.lean`: kernels whose threads do not access what others write behave as
if every thread ran alone. -/
namespace DG.Dev

namespace Code
variable {C V α β : Type}

/-- the code only reads cells of `rd` or `wr` and only writes cells of `wr` -/
def Within (rd wr : C → Prop) : Code C V α → Prop
  | ret _ => True
  | load c k => (rd c ∨ wr c) ∧ ∀ v, Within rd wr (k v)
  | store c _ k => wr c ∧ Within rd wr k

theorem Within.bind {rd wr : C → Prop} : ∀ {x : Code C V α} {f : α → Code C V β},
    x.Within rd wr → (∀ a, (f a).Within rd wr) → (x.bind f).Within rd wr
  | ret a, f, _, hf => hf a
  | load c k, f, h, hf => ⟨h.1, fun v => Within.bind (h.2 v) hf⟩
  | store c v k, f, h, hf => ⟨h.1, Within.bind h.2 hf⟩

theorem Within.forN {rd wr : C → Prop} {f : ℕ → Code C V Unit} {n : ℕ}
    (h : ∀ i < n, (f i).Within rd wr) : (Code.forN n f).Within rd wr := by
  induction n with
  | zero => exact trivial
  | succ n ih => exact Within.bind (ih fun i hi => h i (by omega)) fun _ => h n (by omega)

theorem Within.foldN {rd wr : C → Prop} {a : α} {f : α → ℕ → Code C V α} {n : ℕ}
    (h : ∀ b, ∀ i < n, (f b i).Within rd wr) : (Code.foldN a n f).Within rd wr := by
  induction n with
  | zero => exact trivial
  | succ n ih => exact Within.bind (ih fun b i hi => h b i (by omega)) fun b => h b n (by omega)

theorem Within.read {rd wr : C → Prop} {c : C} (h : rd c ∨ wr c) :
    (Code.read c : Code C V V).Within rd wr := ⟨h, fun _ => trivial⟩
theorem Within.write {rd wr : C → Prop} {c : C} {v : V} (h : wr c) :
    (Code.write c v : Code C V Unit).Within rd wr := ⟨h, trivial⟩

variable [DecidableEq C]

theorem run_bind (x : Code C V α) (f : α → Code C V β) : ∀ m : C → V,
    (x.bind f).run m = (f (x.run m).1).run (x.run m).2 := by
  induction x with
  | ret a => intro m; rfl
  | load c k ih => intro m; exact ih _ m
  | store c v k ih => intro m; exact ih _

/-- memories that agree on what the code may access: same result, and the memories after it agree where
they agreed before -/
theorem run_congr {rd wr : C → Prop} {x : Code C V α} (h : x.Within rd wr) : ∀ {m m' : C → V},
    (∀ c, rd c ∨ wr c → m c = m' c) →
    (x.run m).1 = (x.run m').1 ∧ x.steps m = x.steps m' ∧
      ∀ c, m c = m' c → (x.run m).2 c = (x.run m').2 c := by
  induction x with
  | ret a => intro m m' _; exact ⟨rfl, rfl, fun c h => h⟩
  | load c k ih =>
    intro m m' hm
    have hc : m c = m' c := hm c h.1
    have := ih (m c) (h.2 _) hm
    simp only [run, steps]
    rw [← hc]
    exact ⟨this.1, by rw [this.2.1], this.2.2⟩
  | store c v k ih =>
    intro m m' hm
    have hm' : ∀ x, rd x ∨ wr x → Function.update m c v x = Function.update m' c v x := by
      intro x hx
      by_cases hxc : x = c
      · subst hxc; simp
      · simp [Function.update_of_ne hxc, hm x hx]
    have := ih h.2 hm'
    refine ⟨this.1, by simp only [steps]; rw [this.2.1], fun x hx => this.2.2 x ?_⟩
    by_cases hxc : x = c
    · subst hxc; simp
    · simp [Function.update_of_ne hxc, hx]

/-- the code leaves alone what it may not write -/
theorem run_frame {rd wr : C → Prop} {x : Code C V α} (h : x.Within rd wr) : ∀ {m : C → V} {c : C},
    ¬ wr c → (x.run m).2 c = m c := by
  induction x with
  | ret a => intro m c _; rfl
  | load c k ih => intro m x hx; exact ih _ (h.2 _) hx
  | store c v k ih =>
    intro m x hx
    have : x ≠ c := fun e => hx (e ▸ h.1)
    simp only [run]
    rw [ih h.2 hx, Function.update_of_ne this]

end Code

namespace Kernel
variable {C V T J : Type} [DecidableEq C] [DecidableEq T] [DecidableEq J]

/-- Footprints: what thread `j` of team `t` may read and write in phase `p`, such that nobody accesses
what another thread writes in the same phase, and no team accesses what another team writes. -/
structure Safe (k : Kernel C V T J) (rd wr : T → ℕ → J → C → Prop) : Prop where
  within : ∀ t p j, p < k.nph → (k.code t p j).Within (rd t p j) (wr t p j)
  threads : ∀ t p j j' c, p < k.nph → wr t p j c → rd t p j' c ∨ wr t p j' c → j = j'
  teams : ∀ t t' p p' j j' c, p < k.nph → p' < k.nph → wr t p j c → rd t' p' j' c ∨ wr t' p' j' c →
    t = t'

open Classical in
/-- the memory as team `t` sees it after `p` phases -/
noncomputable def mids (k : Kernel C V T J) (wr : T → ℕ → J → C → Prop) (m : C → V) (t : T) :
    ℕ → C → V
  | 0 => m
  | p + 1 => fun c => if h : ∃ j, wr t p j c then
      ((k.code t p h.choose).run (mids k wr m t p)).2 c else mids k wr m t p c

variable {k : Kernel C V T J} {rd wr : T → ℕ → J → C → Prop} {m : C → V}

theorem mids_written (h : k.Safe rd wr) {t : T} {p : ℕ} {j : J} {c : C} (hp : p < k.nph)
    (hw : wr t p j c) :
    k.mids wr m t (p + 1) c = ((k.code t p j).run (k.mids wr m t p)).2 c := by
  have he : ∃ j, wr t p j c := ⟨j, hw⟩
  have := h.threads t p he.choose j c hp he.choose_spec (Or.inr hw)
  simp only [mids, dif_pos he]
  rw [this]

theorem mids_other {t : T} {p : ℕ} {c : C} (hw : ∀ j, ¬ wr t p j c) :
    k.mids wr m t (p + 1) c = k.mids wr m t p c := by
  have he : ¬ ∃ j, wr t p j c := fun ⟨j, h⟩ => hw j h
  simp only [mids, dif_neg he]

/-- no other team writes the cell -/
def Visible (k : Kernel C V T J) (wr : T → ℕ → J → C → Prop) (t : T) (c : C) : Prop :=
  ∀ t' p' j', p' < k.nph → wr t' p' j' c → t' = t

/-- what holds of every reachable state -/
structure Inv (k : Kernel C V T J) (rd wr : T → ℕ → J → C → Prop) (m : C → V) (c : Conf C V T J) :
    Prop where
  le : ∀ t, c.phase t ≤ k.nph
  within : ∀ t j, c.phase t < k.nph →
    (c.codes t j).Within (rd t (c.phase t) j) (wr t (c.phase t) j)
  own : ∀ t j x, c.phase t < k.nph → wr t (c.phase t) j x →
    ((c.codes t j).run c.mem).2 x = ((k.code t (c.phase t) j).run (k.mids wr m t (c.phase t))).2 x
  rest : ∀ t x, k.Visible wr t x → (c.phase t < k.nph → ∀ j, ¬ wr t (c.phase t) j x) →
    c.mem x = k.mids wr m t (c.phase t) x

theorem inv_init (h : k.Safe rd wr) : Inv k rd wr m (k.init m) where
  le _ := Nat.zero_le _
  within t j hp := h.within t 0 j hp
  own _ _ _ _ _ := rfl
  rest _ _ _ _ := rfl

theorem inv_step (h : k.Safe rd wr) {c c' : Conf C V T J} (hi : Inv k rd wr m c)
    (hs : k.Step c c') : Inv k rd wr m c' := by
  cases hs with
  | load t j x f hp hc =>
    refine ⟨hi.le, ?_, ?_, hi.rest⟩
    · intro t' j' hp'
      show (setCode c t j (f (c.mem x)) t' j').Within _ _
      unfold setCode
      split
      · next e =>
        obtain ⟨rfl, rfl⟩ := e
        have := hi.within t' j' hp'
        rw [hc] at this
        exact this.2 _
      · exact hi.within t' j' hp'
    · intro t' j' y hp' hw
      have := hi.own t' j' y hp' hw
      show ((setCode c t j (f (c.mem x)) t' j').run c.mem).2 y = _
      unfold setCode
      split
      · next e =>
        obtain ⟨rfl, rfl⟩ := e
        rw [hc] at this
        exact this
      · exact this
  | store t j x v f hp hc =>
    have hwin := hi.within t j hp
    rw [hc] at hwin
    have hx : wr t (c.phase t) j x := hwin.1
    refine ⟨hi.le, ?_, ?_, ?_⟩
    · intro t' j' hp'
      show (setCode c t j f t' j').Within _ _
      unfold setCode
      split
      · next e =>
        obtain ⟨rfl, rfl⟩ := e
        exact hwin.2
      · exact hi.within t' j' hp'
    · intro t' j' y hp' hw
      have hown := hi.own t' j' y hp' hw
      show ((setCode c t j f t' j').run (Function.update c.mem x v)).2 y = _
      unfold setCode
      split
      · next e =>
        obtain ⟨rfl, rfl⟩ := e
        rw [hc] at hown
        exact hown
      · next e =>
        rw [← hown]
        have hno : ∀ z, rd t' (c.phase t') j' z ∨ wr t' (c.phase t') j' z → z ≠ x := by
          rintro z hz rfl
          have ht := h.teams t t' _ _ j j' z hp hp' hx hz
          subst ht
          exact e ⟨rfl, (h.threads t _ j j' z hp hx hz).symm⟩
        have := Code.run_congr (hi.within t' j' hp') (m := Function.update c.mem x v) (m' := c.mem)
          (fun z hz => Function.update_of_ne (hno z hz) _ _)
        exact this.2.2 y (Function.update_of_ne (hno y (Or.inr hw)) _ _)
    · intro t' y hv hn
      have hyx : y ≠ x := by
        rintro rfl
        have : t = t' := hv t _ j hp hx
        subst this
        exact hn hp j hx
      show Function.update c.mem x v y = _
      rw [Function.update_of_ne hyx]
      exact hi.rest t' y hv hn
  | barrier t hp hc =>
    have hvis : ∀ p' j' y, p' < k.nph → rd t p' j' y ∨ wr t p' j' y → k.Visible wr t y :=
      fun p' j' y hp' hy t'' p'' j'' hp'' hw => h.teams t'' t p'' p' j'' j' y hp'' hp' hw hy
    have hmem : ∀ y, k.Visible wr t y → c.mem y = k.mids wr m t (c.phase t + 1) y := by
      intro y hv
      by_cases hw : ∃ j, wr t (c.phase t) j y
      · obtain ⟨j, hw⟩ := hw
        rw [mids_written h hp hw, ← hi.own t j y hp hw, hc j]
        rfl
      · rw [mids_other fun j hj => hw ⟨j, hj⟩]
        exact hi.rest t y hv fun _ j hj => hw ⟨j, hj⟩
    refine ⟨?_, ?_, ?_, ?_⟩
    · intro t'
      by_cases e : t' = t
      · subst e
        simp only [Function.update_self]
        omega
      · simp only [Function.update_of_ne e]
        exact hi.le t'
    · intro t' j' hp'
      by_cases e : t' = t
      · subst e
        simp only [Function.update_self] at hp' ⊢
        exact h.within t' _ j' hp'
      · simp only [Function.update_of_ne e] at hp' ⊢
        exact hi.within t' j' hp'
    · intro t' j' y hp' hw
      by_cases e : t' = t
      · subst e
        simp only [Function.update_self] at hp' hw ⊢
        have := Code.run_congr (h.within t' _ j' hp') (m := c.mem)
          (m' := k.mids wr m t' (c.phase t' + 1)) (fun z hz => hmem z (hvis _ j' z hp' hz))
        exact this.2.2 y (hmem y (hvis _ j' y hp' (Or.inr hw)))
      · simp only [Function.update_of_ne e] at hp' hw ⊢
        exact hi.own t' j' y hp' hw
    · intro t' y hv hn
      by_cases e : t' = t
      · subst e
        simp only [Function.update_self]
        exact hmem y hv
      · simp only [Function.update_of_ne e] at hn ⊢
        exact hi.rest t' y hv hn

theorem inv_steps (h : k.Safe rd wr) {n : ℕ} {c : Conf C V T J}
    (hs : k.Steps n (k.init m) c) : Inv k rd wr m c := by
  generalize hc0 : k.init m = c0 at hs
  induction hs with
  | refl => subst hc0; exact inv_init h
  | tail _ hst ih => exact inv_step h (ih hc0) hst

/-- no reachable state has a data race -/
theorem no_race (h : k.Safe rd wr) {n : ℕ} {c : Conf C V T J}
    (hs : k.Steps n (k.init m) c) : ¬ k.Racing c := by
  have hi := inv_steps h hs
  rintro ⟨t, j, t', j', x, hne, ⟨hp, v, f, hc⟩, h2⟩
  have hw := hi.within t j hp
  rw [hc] at hw
  have hx : c.phase t' < k.nph ∧ (rd t' (c.phase t') j' x ∨ wr t' (c.phase t') j' x) := by
    rcases h2 with ⟨hp', v', f', hc'⟩ | ⟨hp', f', hc'⟩
    · have := hi.within t' j' hp'
      rw [hc'] at this
      exact ⟨hp', Or.inr this.1⟩
    · have := hi.within t' j' hp'
      rw [hc'] at this
      exact ⟨hp', this.1⟩
  have ht := h.teams t t' _ _ j j' x hp hx.1 hw.1 hx.2
  subst ht
  exact hne (by rw [h.threads t _ j j' x hp hw.1 hx.2])

/-- when the kernel has returned, every cell holds what its team computed -/
theorem done_mem (h : k.Safe rd wr) {n : ℕ} {c : Conf C V T J}
    (hs : k.Steps n (k.init m) c) (hd : k.Done c) (t : T) (x : C) (hv : k.Visible wr t x) :
    c.mem x = k.mids wr m t k.nph x := by
  have hi := inv_steps h hs
  have := hi.rest t x hv (fun hp => absurd hp (by rw [hd t]; omega))
  rw [hd t] at this
  exact this

/-- cells nobody writes keep their value -/
theorem mids_untouched {t : T} {x : C} (hn : ∀ p j, p < k.nph → ¬ wr t p j x) :
    ∀ p ≤ k.nph, k.mids wr m t p x = m x := by
  intro p
  induction p with
  | zero => intro _; rfl
  | succ p ih => intro hp; rw [mids_other (hn p · (by omega)), ih (by omega)]

/-- a state that is not final can go on -/
theorem progress {c : Conf C V T J} (hle : ∀ t, c.phase t ≤ k.nph) (hd : ¬ k.Done c) :
    ∃ c', k.Step c c' := by
  simp only [Done, not_forall] at hd
  obtain ⟨t, ht⟩ := hd
  have hp : c.phase t < k.nph := lt_of_le_of_ne (hle t) ht
  by_cases hr : ∀ j, c.codes t j = .ret ()
  · exact ⟨_, Step.barrier c t hp hr⟩
  · push Not at hr
    obtain ⟨j, hj⟩ := hr
    match hcj : c.codes t j with
    | .ret () => exact absurd hcj hj
    | .load x f => exact ⟨_, Step.load c t j x f hp hcj⟩
    | .store x v f => exact ⟨_, Step.store c t j x v f hp hcj⟩

section Finite
variable [Fintype T] [Fintype J]

/-- loads, stores and barriers team `t` needs for phases `p`, ..., `nph - 1` -/
noncomputable def work (k : Kernel C V T J) (wr : T → ℕ → J → C → Prop) (m : C → V) (t : T) (p : ℕ) : ℕ :=
  ∑ q ∈ Finset.Ico p k.nph, (1 + ∑ j, (k.code t q j).steps (k.mids wr m t q))

/-- steps left to do -/
noncomputable def left (k : Kernel C V T J) (wr : T → ℕ → J → C → Prop) (m : C → V)
    (c : Conf C V T J) : ℕ :=
  ∑ t, if c.phase t < k.nph then (1 + ∑ j, (c.codes t j).steps c.mem) + k.work wr m t (c.phase t + 1)
    else 0

theorem work_succ (t : T) {p : ℕ} (hp : p < k.nph) :
    k.work wr m t p = (1 + ∑ j, (k.code t p j).steps (k.mids wr m t p)) + k.work wr m t (p + 1) := by
  unfold work
  rw [Finset.sum_eq_sum_Ico_succ_bot hp]

/-- every step uses up one unit -/
theorem left_step (h : k.Safe rd wr) {c c' : Conf C V T J} (hi : Inv k rd wr m c)
    (hs : k.Step c c') : k.left wr m c = k.left wr m c' + 1 := by
  have key : ∀ (F G : T → ℕ) (t : T), F t = G t + 1 → (∀ t', t' ≠ t → F t' = G t') →
      ∑ t, F t = ∑ t, G t + 1 := by
    intro F G t h1 h2
    have e1 := Finset.add_sum_erase _ F (Finset.mem_univ t)
    have e2 := Finset.add_sum_erase _ G (Finset.mem_univ t)
    have e3 : ∑ x ∈ Finset.univ.erase t, F x = ∑ x ∈ Finset.univ.erase t, G x :=
      Finset.sum_congr rfl fun t' ht' => h2 t' (Finset.ne_of_mem_erase ht')
    omega
  have keyJ : ∀ (F G : J → ℕ) (j : J), F j = G j + 1 → (∀ j', j' ≠ j → F j' = G j') →
      ∑ j, F j = ∑ j, G j + 1 := by
    intro F G t h1 h2
    have e1 := Finset.add_sum_erase _ F (Finset.mem_univ t)
    have e2 := Finset.add_sum_erase _ G (Finset.mem_univ t)
    have e3 : ∑ x ∈ Finset.univ.erase t, F x = ∑ x ∈ Finset.univ.erase t, G x :=
      Finset.sum_congr rfl fun t' ht' => h2 t' (Finset.ne_of_mem_erase ht')
    omega
  cases hs with
  | load t j x f hp hc =>
    unfold left
    refine key _ _ t ?_ ?_
    · simp only [hp, if_true]
      have := keyJ (fun j' => (c.codes t j').steps c.mem)
        (fun j' => (setCode c t j (f (c.mem x)) t j').steps c.mem) j
        (by simp only [setCode, and_self, if_true]; rw [hc]; rfl)
        (fun j' hj' => by simp only [setCode, hj', and_false, if_false])
      omega
    · intro t' ht'
      simp only [setCode, ht', false_and, if_false]
  | store t j x v f hp hc =>
    have hwin := hi.within t j hp
    rw [hc] at hwin
    have hx : wr t (c.phase t) j x := hwin.1
    have hsame : ∀ t' j', ¬ (t' = t ∧ j' = j) → c.phase t' < k.nph →
        (c.codes t' j').steps c.mem = (c.codes t' j').steps (Function.update c.mem x v) := by
      intro t' j' e hp'
      have hno : ∀ z, rd t' (c.phase t') j' z ∨ wr t' (c.phase t') j' z → z ≠ x := by
        rintro z hz rfl
        have ht := h.teams t t' _ _ j j' z hp hp' hx hz
        subst ht
        exact e ⟨rfl, (h.threads t _ j j' z hp hx hz).symm⟩
      exact (Code.run_congr (hi.within t' j' hp') (m := c.mem) (m' := Function.update c.mem x v)
        (fun z hz => (Function.update_of_ne (hno z hz) _ _).symm)).2.1
    unfold left
    refine key _ _ t ?_ ?_
    · simp only [hp, if_true]
      have := keyJ (fun j' => (c.codes t j').steps c.mem)
        (fun j' => (setCode c t j f t j').steps (Function.update c.mem x v)) j
        (by simp only [setCode, and_self, if_true]; rw [hc]; rfl)
        (fun j' hj' => by
          simp only [setCode, hj', and_false, if_false]
          exact hsame t j' (fun e => hj' e.2) hp)
      omega
    · intro t' ht'
      by_cases hp' : c.phase t' < k.nph
      · simp only [setCode, ht', false_and, if_false, hp', if_true]
        congr 2
        exact Finset.sum_congr rfl fun j' _ => hsame t' j' (fun e => ht' e.1) hp'
      · simp only [hp', if_false]
  | barrier t hp hc =>
    have hi' := inv_step h hi (Step.barrier c t hp hc)
    unfold left
    refine key _ _ t ?_ ?_
    · simp only [Function.update_self, hp, if_true, hc]
      by_cases hp' : c.phase t + 1 < k.nph
      · simp only [hp', if_true]
        rw [work_succ t hp']
        have : ∀ j, (k.code t (c.phase t + 1) j).steps c.mem =
            (k.code t (c.phase t + 1) j).steps (k.mids wr m t (c.phase t + 1)) := by
          intro j
          refine (Code.run_congr (h.within t _ j hp') ?_).2.1
          intro z hz
          have hv : k.Visible wr t z := fun t'' p'' j'' hp'' hw =>
            h.teams t'' t p'' _ j'' j z hp'' hp' hw hz
          by_cases hw : ∃ j, wr t (c.phase t) j z
          · obtain ⟨j, hw⟩ := hw
            rw [mids_written h hp hw, ← hi.own t j z hp hw, hc j]
            rfl
          · rw [mids_other fun j hj => hw ⟨j, hj⟩]
            exact hi.rest t z hv fun _ j hj => hw ⟨j, hj⟩
        simp only [this, Code.steps, Finset.sum_const_zero]
        omega
      · simp only [hp', if_false, Code.steps, Finset.sum_const_zero]
        unfold work
        rw [Finset.Ico_eq_empty (by omega)]
        rfl
    · intro t' ht'
      simp only [Function.update_of_ne ht']

theorem left_steps (h : k.Safe rd wr) {n : ℕ} {c : Conf C V T J}
    (hs : k.Steps n (k.init m) c) : k.left wr m (k.init m) = k.left wr m c + n := by
  generalize hc0 : k.init m = c0 at hs
  induction hs with
  | refl => rfl
  | tail hss hst ih =>
    have hi := inv_steps h (m := m) (hc0 ▸ hss)
    rw [ih hc0, left_step h hi hst]
    omega

theorem Steps.trans {k : Kernel C V T J} {a b c : Conf C V T J} {n n' : ℕ} (h1 : k.Steps n a b)
    (h2 : k.Steps n' b c) : k.Steps (n + n') a c := by
  induction h2 with
  | refl => exact h1
  | tail _ hs ih => exact (ih h1).tail hs

/-- Every state reached can be continued to a final one, and no execution is longer than the total
number of loads, stores and barriers. -/
theorem terminates (h : k.Safe rd wr) {n : ℕ} {c : Conf C V T J}
    (hs : k.Steps n (k.init m) c) :
    n ≤ k.left wr m (k.init m) ∧ ∃ n' c', k.Steps n' c c' ∧ k.Done c' := by
  refine ⟨by rw [left_steps h hs]; omega, ?_⟩
  induction hl : k.left wr m c generalizing n c with
  | zero =>
    by_cases hd : k.Done c
    · exact ⟨0, c, Steps.refl c, hd⟩
    · obtain ⟨c', hc'⟩ := progress (inv_steps h hs).le hd
      have := left_step h (inv_steps h hs) hc'
      omega
  | succ l ih =>
    by_cases hd : k.Done c
    · exact ⟨0, c, Steps.refl c, hd⟩
    · obtain ⟨c', hc'⟩ := progress (inv_steps h hs).le hd
      have := left_step h (inv_steps h hs) hc'
      obtain ⟨n', c'', hs', hd'⟩ := ih (hs.tail hc') (by omega)
      exact ⟨1 + n', c'', ((Steps.refl c).tail hc').trans hs', hd'⟩

end Finite
end Kernel
end DG.Dev
