import Verif.Lemmas.Arr
import Mathlib.Data.List.Induction
import Mathlib.Tactic.Common

/-! Counting and storing items in buckets (`num_faces_per_rank_boundary`, `ghost_faces`). -/
namespace DG

theorem foldlM_bucketCount (b : ℕ → Option ℕ) : ∀ (xs : List ℕ) (a : List ℕ),
    xs.foldlM (fun cnt g => match b g with
      | some i => bumpB cnt i
      | none => some cnt) a = (xs.filterMap b).foldlM bumpB a := by
  intro xs
  induction xs with
  | nil => intro a; rfl
  | cons x xs ih =>
    intro a
    rw [List.foldlM_cons, List.filterMap_cons]
    cases hb : b x with
    | none => simpa using ih a
    | some i =>
      simp only [List.foldlM_cons]
      cases hbb : bumpB a i with
      | none => rfl
      | some a' => simpa using ih a'

theorem bucketCount (b : ℕ → Option ℕ) (n : ℕ) (xs : List ℕ)
    (hb : ∀ g ∈ xs, ∀ i, b g = some i → i < n) :
    xs.foldlM (fun cnt g => match b g with
      | some i => bumpB cnt i
      | none => some cnt) (List.replicate n 0)
      = some ((List.range n).map (fun i => (xs.filter (fun g => decide (b g = some i))).length)) := by
  rw [foldlM_bucketCount, foldlM_bumpB n _ _ (by simp)]
  · congr 1
    apply List.map_congr_left
    intro i hi
    simp only [List.mem_range] at hi
    have h0 : (List.replicate n 0).getD i 0 = 0 := by simp [List.getD_eq_getElem?_getD, hi]
    rw [h0, Nat.zero_add]
    clear hb h0
    induction xs with
    | nil => rfl
    | cons x xs ih =>
      rw [List.filterMap_cons, List.filter_cons]
      cases hbx : b x with
      | none => simpa using ih
      | some j =>
        simp only [List.count_cons, ih, Option.some.injEq, beq_iff_eq, decide_eq_true_eq]
        split <;> simp
  · intro x hx
    rw [List.mem_filterMap] at hx
    obtain ⟨g, hg, hgx⟩ := hx
    exact hb g hg x hgx

/-- Array of bucket `i` after the items `l` have been stored, `N i` slots being allocated. -/
def bucketState (b : ℕ → Option ℕ) (N : ℕ → ℕ) (n : ℕ) (l : List ℕ) : List (ℕ × List ℕ) :=
  (List.range n).map (fun i =>
    ((l.filter (fun g => decide (b g = some i))).length,
      l.filter (fun g => decide (b g = some i))
        ++ List.replicate (N i - (l.filter (fun g => decide (b g = some i))).length) 0))

theorem bucketStore (b : ℕ → Option ℕ) (N : ℕ → ℕ) (n : ℕ) (l : List ℕ)
    (hb : ∀ g ∈ l, ∀ i, b g = some i → i < n)
    (hN : ∀ i < n, (l.filter (fun g => decide (b g = some i))).length ≤ N i) :
    l.foldlM (fun gs g => match b g with
      | some i => do
        let cur ← gs[i]?
        let nxt ← pushB cur g
        setB gs i nxt
      | none => some gs) ((List.range n).map (fun i => (0, List.replicate (N i) 0)))
      = some (bucketState b N n l) := by
  induction l using List.reverseRecOn with
  | nil => simp [bucketState]
  | append_singleton l x ih =>
    have hb' : ∀ g ∈ l, ∀ i, b g = some i → i < n := fun g hg => hb g (by simp [hg])
    have hN' : ∀ i < n, (l.filter (fun g => decide (b g = some i))).length ≤ N i := by
      intro i hi
      have := hN i hi
      rw [List.filter_append, List.length_append] at this
      omega
    rw [List.foldlM_append, ih hb' hN']
    simp only [Option.bind_eq_bind, Option.bind_some, List.foldlM_cons, List.foldlM_nil]
    cases hbx : b x with
    | none =>
      simp only [Option.bind_some]
      show some _ = some _
      congr 1
      unfold bucketState
      apply List.map_congr_left
      intro i _
      simp [List.filter_append, hbx]
    | some k =>
      have hk : k < n := hb x (by simp) k hbx
      have hget : (bucketState b N n l)[k]? =
          some ((l.filter (fun g => decide (b g = some k))).length,
            l.filter (fun g => decide (b g = some k))
            ++ List.replicate (N k - (l.filter (fun g => decide (b g = some k))).length) 0) := by
        simp [bucketState, hk]
      have hroom := hN k hk
      rw [List.filter_append, List.length_append] at hroom
      simp only [List.filter_cons, hbx, decide_true, if_true, List.filter_nil,
        List.length_singleton] at hroom
      obtain ⟨q, hq⟩ : ∃ q, N k - (l.filter (fun g => decide (b g = some k))).length = q + 1 :=
        ⟨N k - (l.filter (fun g => decide (b g = some k))).length - 1, by omega⟩
      rw [hq] at hget
      have hlen : k < (bucketState b N n l).length := by simp [bucketState, hk]
      simp only [hget, Option.bind_some, pushB_prefix, setB_of_lt hlen]
      show some _ = some _
      congr 1
      apply List.ext_getElem?
      intro i
      rw [List.getElem?_set]
      by_cases hik : k = i
      · subst hik
        simp only [hlen, if_true]
        simp only [bucketState, List.getElem?_map, List.getElem?_range hk, Option.map_some,
          List.filter_append, List.filter_cons, hbx, decide_true, if_true, List.filter_nil]
        congr 3
        simp only [List.length_append, List.length_singleton]
        rw [show N k - ((l.filter (fun g => decide (b g = some k))).length + 1) = q by omega]
      · simp only [hik, if_false]
        unfold bucketState
        simp only [List.getElem?_map]
        by_cases hi : i < n
        · simp [List.getElem?_range hi, List.filter_append, hbx, hik]
        · rw [List.getElem?_eq_none (by simpa using hi)]; rfl

end DG
