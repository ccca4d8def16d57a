import Verif.Model.Kernels
import Verif.Spec.Device
import Verif.Lemmas.Device

/-! Running the bodies of the kernels of `Model/Kernels.lean`. -/
namespace DG.Dev
open Kernel

section generic
variable {C V T J : Type} [DecidableEq C] [DecidableEq T] [DecidableEq J] [Fintype T] [Fintype J]

theorem Kernel.Computes.ends_iff {k : Kernel C V T J} {m m' x : C → V} (h : k.Computes m m') :
    k.Ends m x ↔ x = m' := by
  constructor
  · rintro ⟨n, c, h1, h2, h3⟩
    rw [← h3, h.result n c h1 h2]
  · rintro rfl
    obtain ⟨N, hN⟩ := h.ends
    obtain ⟨_, n', c', h1, h2⟩ := hN 0 _ (Steps.refl _)
    exact ⟨n', c', h1, h2, h.result n' c' h1 h2⟩

/-- footprints and the memory at the end -/
theorem Kernel.Safe.computes {k : Kernel C V T J} {rd wr : T → ℕ → J → C → Prop} {m m' : C → V}
    (h : k.Safe rd wr) (hw : ∀ t p j c, p < k.nph → wr t p j c → m' c = k.mids wr m t k.nph c)
    (hn : ∀ c, (∀ t p j, p < k.nph → ¬ wr t p j c) → m' c = m c) (hne : Nonempty T ∨ m' = m) :
    k.Computes m m' where
  noRace _ _ hs := no_race h hs
  ends := ⟨k.left wr m (k.init m), fun _ _ hs => terminates h hs⟩
  result n c hs hd := by
    funext x
    by_cases hx : ∃ t p j, p < k.nph ∧ wr t p j x
    · obtain ⟨t, p, j, hp, hx⟩ := hx
      rw [hw t p j x hp hx]
      exact done_mem h hs hd t x fun t' p' j' hp' hw' => h.teams t' t p' p j' j x hp' hp hw' (Or.inr hx)
    · push Not at hx
      have hx' : ∀ t p j, p < k.nph → ¬ wr t p j x := hx
      rw [hn x hx']
      rcases isEmpty_or_nonempty T with he | ⟨⟨t⟩⟩
      · -- no team: nothing can have happened
        have hz := left_steps h hs
        unfold Kernel.left at hz
        simp only [Finset.univ_eq_empty, Finset.sum_empty, Nat.zero_add] at hz
        subst hz
        cases hs
        rfl
      · rw [done_mem h hs hd t x fun t' p' j' hp' hw' => absurd hw' (hx' t' p' j' hp')]
        exact mids_untouched (fun p j hp => hx' t p j hp) _ le_rfl

end generic

variable {K : Type} [Zero K] [One K] [Add K] [Sub K] [Mul K] [Neg K] [Div K] [NatCast K]

section sets
variable {C V : Type} [DecidableEq C]

/-- the code stores `val c` in the cells `W` and leaves the others alone -/
def Sets {α : Type} (x : Code C V α) (m : C → V) (W : C → Prop) (val : C → V) : Prop :=
  ∀ c, (W c → (x.run m).2 c = val c) ∧ (¬ W c → (x.run m).2 c = m c)

theorem Sets.forN {f : ℕ → Code C V Unit} {m : C → V} {n : ℕ} {W : ℕ → C → Prop} {val : C → V}
    (h : ∀ i < n, ∀ m' : C → V, (∀ c, ¬ (∃ j < i, W j c) → m' c = m c) → Sets (f i) m' (W i) val) :
    Sets (Code.forN n f) m (fun c => ∃ i < n, W i c) val := by
  suffices hs : ∀ k ≤ n, Sets (Code.forN k f) m (fun c => ∃ i < k, W i c) val from hs n le_rfl
  intro k
  induction k with
  | zero => intro _ c; exact ⟨fun ⟨i, hi, _⟩ => absurd hi (by omega), fun _ => rfl⟩
  | succ k ih =>
    intro hk
    have h0 := ih (by omega)
    have h1 := h k (by omega) (((Code.forN k f).run m).2) fun c hc =>
      (h0 c).2 hc
    intro c
    have hrun : ((Code.forN (k + 1) f).run m).2 c = ((f k).run ((Code.forN k f).run m).2).2 c := by
      rw [show Code.forN (k + 1) f = (Code.forN k f).bind fun _ => f k from rfl, Code.run_bind]
    rw [hrun]
    by_cases hw : W k c
    · exact ⟨fun _ => (h1 c).1 hw, fun hn => absurd ⟨k, by omega, hw⟩ hn⟩
    · rw [(h1 c).2 hw]
      refine ⟨fun ⟨i, hi, hw'⟩ => (h0 c).1 ⟨i, ?_, hw'⟩, fun hn => (h0 c).2 fun ⟨i, hi, hw'⟩ => hn ⟨i, by omega, hw'⟩⟩
      rcases Nat.lt_succ_iff_lt_or_eq.1 hi with h | h
      · exact h
      · exact absurd (h ▸ hw') hw

theorem Sets.bind {α β : Type} {x : Code C V α} {f : α → Code C V β} {m : C → V} {W W' : C → Prop}
    {val : C → V} (h : Sets x m W val) (h' : Sets (f (x.run m).1) (x.run m).2 W' val) :
    Sets (x.bind f) m (fun c => W c ∨ W' c) val := by
  intro c
  rw [Code.run_bind]
  by_cases hw : W' c
  · exact ⟨fun _ => (h' c).1 hw, fun hn => absurd (Or.inr hw) hn⟩
  · rw [(h' c).2 hw]
    exact ⟨fun hc => (h c).1 (hc.resolve_right hw), fun hn => (h c).2 fun hc => hn (Or.inl hc)⟩

theorem Sets.mono {α : Type} {x : Code C V α} {m : C → V} {W W' : C → Prop} {val : C → V}
    (h : Sets x m W val) (hW : ∀ c, W c ↔ W' c) : Sets x m W' val := fun c =>
  ⟨fun hc => (h c).1 ((hW c).2 hc), fun hc => (h c).2 fun h => hc ((hW c).1 h)⟩

theorem Sets.write {m : C → V} {c0 : C} {v : V} {val : C → V} (hv : val c0 = v) :
    Sets (Code.write c0 v) m (fun c => c = c0) val := by
  intro c
  constructor
  · rintro rfl
    simp [Code.write, Code.run, hv]
  · intro hc
    simp [Code.write, Code.run, Function.update_of_ne hc]

end sets

theorem Sets.copy {m : Cell → K} {src dst : Cell} {val : Cell → K} (hv : val dst = m src) :
    Sets (copyCell src dst : Code Cell K Unit) m (fun c => c = dst) val := by
  intro c
  constructor
  · rintro rfl
    show (Function.update m c (m src)) c = val c
    simp [hv]
  · intro hc
    show (Function.update m dst (m src)) c = m c
    simp [Function.update_of_ne hc]

theorem run_loadArr (n : ℕ) (cell : ℕ → Cell) (m : Cell → K) :
    (loadArr n cell).run m = (cArr n fun i => m (cell i), m) := by
  have hz : (cArr 0 fun i => m (cell i)) = fun _ => (0 : K) := by funext i; simp [cArr]
  induction n with
  | zero => rw [hz]; rfl
  | succ n ih =>
    have hb : (loadArr (n + 1) cell).run m =
        ((Code.load (cell n) fun v => Code.ret (Function.update ((loadArr n cell).run m).1 n v) :
          Code Cell K (ℕ → K)).run ((loadArr n cell).run m).2) := by
      refine (Code.run_bind _ _ _).trans ?_
      rfl
    rw [hb, ih]
    show (Function.update (cArr n fun i => m (cell i)) n (m (cell n)), m) = _
    congr 1
    funext i
    by_cases h : i = n
    · subst h; simp [cArr]
    · rw [Function.update_of_ne h]
      simp only [cArr]
      have : i < n + 1 ↔ i < n := by omega
      simp only [this]

theorem within_loadArr {n : ℕ} {cell : ℕ → Cell} {rd wr : Cell → Prop}
    (h : ∀ i < n, rd (cell i) ∨ wr (cell i)) : (loadArr n cell : Code Cell K (ℕ → K)).Within rd wr :=
  Code.Within.foldN fun _ i hi => Code.Within.bind (Code.Within.read (h i hi)) fun _ => trivial

theorem within_copy {src dst : Cell} {rd wr : Cell → Prop} (h : rd src ∨ wr src) (h' : wr dst) :
    (copyCell src dst : Code Cell K Unit).Within rd wr :=
  Code.Within.bind (Code.Within.read h) fun _ => Code.Within.write h'

/-- a loop of read-modify-writes of one cell -/
theorem run_forN_rmw {f : ℕ → Code Cell K Unit} {n : ℕ} {c0 : Cell} {h : K → ℕ → K} {m : Cell → K}
    (hf : ∀ i < n, ∀ m' : Cell → K, (∀ c, c ≠ c0 → m' c = m c) →
      ((f i).run m').2 = Function.update m' c0 (h (m' c0) i)) :
    ((Code.forN n f).run m).2 = Function.update m c0 ((List.range n).foldl h (m c0)) := by
  suffices hs : ∀ k ≤ n, ((Code.forN k f).run m).2 =
      Function.update m c0 ((List.range k).foldl h (m c0)) from hs n le_rfl
  intro k
  induction k with
  | zero => intro _; simp [Code.forN, Code.run]
  | succ k ih =>
    intro hk
    rw [show Code.forN (k + 1) f = (Code.forN k f).bind fun _ => f k from rfl, Code.run_bind,
      ih (by omega), hf k (by omega) _ fun c hc => Function.update_of_ne hc _ _, List.range_succ,
      List.foldl_append]
    simp

/-- range kernels -/
theorem rangeKernel_computes {T : Type} [DecidableEq T] [Fintype T] {body : T → Code Cell K Unit}
    {rd wr : T → Cell → Prop} {m m' : Cell → K}
    (hwi : ∀ t, (body t).Within (rd t) (wr t))
    (hd : ∀ t t' c, wr t c → rd t' c ∨ wr t' c → t = t')
    (hs : ∀ t, Sets (body t) m (wr t) m')
    (hn : ∀ c, (∀ t, ¬ wr t c) → m' c = m c) :
    (rangeKernel body).Computes m m' := by
  have hsafe : (rangeKernel body).Safe (fun t _ _ => rd t) (fun t _ _ => wr t) :=
    ⟨fun t p j _ => hwi t, fun _ _ _ _ _ _ _ _ => Subsingleton.elim _ _,
      fun t t' _ _ _ _ c _ _ h1 h2 => hd t t' c h1 h2⟩
  have hn1 : (rangeKernel body).nph = 1 := rfl
  refine hsafe.computes ?_ ?_ ?_
  · intro t p j c hp hc
    rw [hn1, mids_written (j := j) hsafe (by rw [hn1]; omega) hc]
    exact ((hs t c).1 hc).symm
  · intro c hc
    exact hn c fun t => hc t 0 () (by rw [hn1]; omega)
  · rcases isEmpty_or_nonempty T with he | he
    · exact Or.inr (funext fun c => hn c fun t => (he.false t).elim)
    · exact Or.inl he

end DG.Dev
