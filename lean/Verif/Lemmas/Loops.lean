import Verif.Model.Arr
import Verif.Lemmas.Arr
import Mathlib.Data.List.Basic
import Mathlib.Data.List.Perm.Subperm
import Mathlib.Data.List.Nodup

/-! Generic rules for counted loops that fill an array. -/
namespace DG

theorem foldlM_range_state {σ : Type _} (f : σ → ℕ → Option σ) (S : ℕ → σ) :
    ∀ n : ℕ, (∀ i < n, f (S i) i = some (S (i + 1))) →
    (List.range n).foldlM f (S 0) = some (S n) := by
  intro n
  induction n with
  | zero => intro _; rfl
  | succ n ih =>
    intro h
    rw [List.range_succ, List.foldlM_append, ih (fun i hi => h i (by omega))]
    simp [h n (by omega)]

/-- the array `a` after the first `i` entries were overwritten by `g 0, …, g (i-1)` -/
def fillTo {α : Type _} (g : ℕ → α) (i : ℕ) (a : List α) : List α :=
  (List.range i).map g ++ a.drop i

theorem fillTo_zero {α : Type _} (g : ℕ → α) (a : List α) : fillTo g 0 a = a := by
  simp [fillTo]

theorem fillTo_full {α : Type _} (g : ℕ → α) (n : ℕ) (a : List α) (h : a.length = n) :
    fillTo g n a = (List.range n).map g := by
  simp [fillTo, ← h]

theorem setB_fillTo {α : Type _} (g : ℕ → α) (i : ℕ) (a : List α) (h : i < a.length) :
    setB (fillTo g i a) i (g i) = some (fillTo g (i + 1) a) := by
  have hl : i < (fillTo g i a).length := by simp [fillTo]; omega
  rw [setB_of_lt hl]
  congr 1
  unfold fillTo
  rw [List.set_append_right _ _ (by simp)]
  rw [List.range_succ, List.map_append]
  simp only [List.length_map, List.length_range, Nat.sub_self, List.map_cons, List.map_nil,
    List.append_assoc]
  rw [List.drop_eq_getElem_cons h]
  rfl

theorem foldlM_fill {α : Type _} (g : ℕ → α) (n : ℕ) (a : List α) (h : a.length = n) :
    (List.range n).foldlM (fun a i => setB a i (g i)) a = some ((List.range n).map g) := by
  have := foldlM_range_state (fun a i => setB a i (g i)) (fun i => fillTo g i a) n
    (fun i hi => setB_fillTo g i a (by omega))
  rw [fillTo_zero, fillTo_full g n a h] at this
  exact this

theorem perm_range_of_inj {n : ℕ} (f : ℕ → ℕ) (hlt : ∀ i < n, f i < n)
    (hinj : ∀ i < n, ∀ j < n, f i = f j → i = j) :
    ((List.range n).map f).Perm (List.range n) := by
  have hnd : ((List.range n).map f).Nodup := by
    refine List.Nodup.map_on ?_ List.nodup_range
    intro i hi j hj h
    exact hinj i (List.mem_range.1 hi) j (List.mem_range.1 hj) h
  have hsub : (List.range n).map f ⊆ List.range n := by
    intro x hx
    obtain ⟨i, hi, rfl⟩ := List.mem_map.1 hx
    exact List.mem_range.2 (hlt i (List.mem_range.1 hi))
  exact (List.subperm_of_subset hnd hsub).perm_of_length_le (by simp)

end DG
