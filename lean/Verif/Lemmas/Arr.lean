import Verif.Model.Arr
import Mathlib.Data.List.Basic
import Mathlib.Data.List.Perm.Basic
import Mathlib.Data.List.Count

/-! Lemmas about bounds-checked arrays and the storing/counting loops. -/
namespace DG

theorem foldlM_congr {α β : Type _} {m : Type _ → Type _} [Monad m] {f g : β → α → m β} :
    ∀ (l : List α) (b : β), (∀ b, ∀ x ∈ l, f b x = g b x) → l.foldlM f b = l.foldlM g b := by
  intro l
  induction l with
  | nil => intros; rfl
  | cons x xs ih =>
    intro b h
    rw [List.foldlM_cons, List.foldlM_cons, h b x (by simp)]
    congr 1
    funext b'
    exact ih b' (fun b y hy => h b y (by simp [hy]))

theorem setB_of_lt {α : Type _} {a : List α} {i : ℕ} {v : α} (h : i < a.length) :
    setB a i v = some (a.set i v) := by simp [setB, h]

theorem bumpB_of_lt {a : List ℕ} {i : ℕ} (h : i < a.length) :
    bumpB a i = some (a.set i (a[i] + 1)) := by simp [bumpB, h]

/-- `pushB` on a prefix-filled array. -/
theorem pushB_prefix {α : Type _} (done : List α) (n : ℕ) (d v : α) :
    pushB (done.length, done ++ List.replicate (n + 1) d) v
      = some ((done ++ [v]).length, (done ++ [v]) ++ List.replicate n d) := by
  have h : done.length < (done ++ List.replicate (n + 1) d).length := by simp
  simp only [pushB, setB_of_lt h]
  simp [List.replicate_succ]

/-- The storing loop `for x in xs: if p x then a(counter) = g x; counter++` started with a
partially filled array. -/
theorem foldlM_pushB_aux {ι α : Type _} (p : ι → Prop) [DecidablePred p] (g : ι → α) (d : α) :
    ∀ (xs : List ι) (done : List α) (n : ℕ), (xs.filter (fun x => decide (p x))).length ≤ n →
      xs.foldlM (fun st x => if p x then pushB st (g x) else some st)
        (done.length, done ++ List.replicate n d)
      = some ((done ++ (xs.filter (fun x => decide (p x))).map g).length,
          (done ++ (xs.filter (fun x => decide (p x))).map g)
            ++ List.replicate (n - (xs.filter (fun x => decide (p x))).length) d) := by
  intro xs
  induction xs with
  | nil => intro done n _; simp
  | cons x xs ih =>
    intro done n hn
    rw [List.foldlM_cons]
    by_cases hx : p x
    · simp only [hx, if_true, List.filter_cons, decide_true, List.map_cons] at hn ⊢
      obtain ⟨k, rfl⟩ : ∃ k, n = k + 1 := ⟨n - 1, by simp at hn; omega⟩
      rw [pushB_prefix]
      simp only [Option.bind_eq_bind, Option.bind_some]
      rw [ih _ k (by simpa using hn)]
      simp
    · simp only [hx, if_false, List.filter_cons, decide_false, Bool.false_eq_true] at hn ⊢
      simp only [Option.bind_eq_bind, Option.bind_some]
      exact ih done n hn

/-- The storing loop with an array allocated with exactly the number of stored items. -/
theorem foldlM_pushB {ι α : Type _} (p : ι → Prop) [DecidablePred p] (g : ι → α) (d : α)
    (xs : List ι) (n : ℕ) (hn : n = (xs.filter (fun x => decide (p x))).length) :
    xs.foldlM (fun st x => if p x then pushB st (g x) else some st) (0, List.replicate n d)
      = some (n, (xs.filter (fun x => decide (p x))).map g) := by
  have := foldlM_pushB_aux p g d xs [] n (Nat.le_of_eq hn.symm)
  simp only [List.length_nil, List.nil_append] at this
  rw [this, ← hn]; simp [← hn]

/-- Counting loop. -/
theorem foldlM_bumpB (n : ℕ) : ∀ (xs : List ℕ) (a : List ℕ), a.length = n → (∀ x ∈ xs, x < n) →
    xs.foldlM bumpB a = some ((List.range n).map (fun i => a.getD i 0 + xs.count i)) := by
  intro xs
  induction xs with
  | nil =>
    intro a ha _
    simp only [List.foldlM_nil, List.count_nil, Nat.add_zero]
    show some a = _
    congr 1
    apply List.ext_getElem
    · simp [ha]
    · intro i h1 h2; simp [List.getD_eq_getElem?_getD, h1]
  | cons x xs ih =>
    intro a ha h
    have hx : x < a.length := by rw [ha]; exact h x (by simp)
    rw [List.foldlM_cons, bumpB_of_lt hx]
    simp only [Option.bind_eq_bind, Option.bind_some]
    rw [ih _ (by simpa using ha) (fun y hy => h y (by simp [hy]))]
    congr 1
    apply List.map_congr_left
    intro i hi
    simp only [List.mem_range] at hi
    rw [List.count_cons]
    have hi' : i < a.length := by omega
    simp only [List.getD_eq_getElem?_getD, List.getElem?_set, beq_iff_eq]
    by_cases hxi : x = i
    · subst hxi; simp [hx]; omega
    · simp [hxi]

end DG
