import Verif.Lemmas.InterruptRead
import Mathlib.Tactic.IntervalCases

/-!
Which objects are in the file, by how far the head rank has come.
-/
namespace DG.Cut

variable {α : Type}

set_option maxRecDepth 100000 in
theorem early [Zero α] (outs : List (RankOut α)) (h : RankOut α) {m : ℕ} (hm : m ≤ 17) : (headRun outs h m).elemsPerPart = none := by
  interval_cases m <;> rfl

set_option maxRecDepth 100000 in
set_option maxHeartbeats 2000000 in
theorem header [Zero α] (outs : List (RankOut α)) (h : RankOut α) {m : ℕ} (h1 : 18 ≤ m) (h2 : m ≤ 99) :
    (headRun outs h m).elemsPerPart.isSome ∧ (headRun outs h m).nb.isSome ∧ (headRun outs h m).ns.isSome ∧
    (headRun outs h m).time.isSome ∧ ((headRun outs h m).layoutAttr.isSome = decide (20 ≤ m)) ∧
    ((headRun outs h m).uc.offsets.isSome = decide (91 ≤ m)) ∧ ((headRun outs h m).uc.nDims.isSome = decide (93 ≤ m)) ∧
    ((headRun outs h m).uc.nRanks = if m ≤ 94 then none else if m ≤ 95 then some 0 else some outs.length) ∧
    ((headRun outs h m).uc.dims = none) := by
  have hg : (gatherScalar true (outs.map RankOut.numElemsPart)).isSome = true := by rw [gatherScalar_eq]; rfl
  have hl : (outs.map RankOut.uc).length = outs.length := List.length_map _
  rcases Nat.lt_or_ge m 19 with h3 | h3
  · interval_cases m
    exact ⟨rfl, rfl, rfl, rfl, rfl, rfl, rfl, rfl, rfl⟩
  rcases Nat.lt_or_ge m 96 with h4 | h4
  · interval_cases m <;> exact ⟨hg, rfl, rfl, rfl, rfl, rfl, rfl, rfl, rfl⟩
  · interval_cases m <;> exact ⟨hg, rfl, rfl, rfl, rfl, rfl, rfl, congrArg some hl, rfl⟩

end DG.Cut
