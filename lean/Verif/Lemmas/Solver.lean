import Verif.Spec.Solver
import Verif.Lemmas.Mass
import Verif.Lemmas.Loops
import Mathlib.Algebra.BigOperators.Group.List.Basic

/-! Lemmas about the solver model: scattered writes, one rank's residual as plain sums. -/
namespace DG
open Finset

variable {K : Type}

/-! ### scattered writes -/

section ops
variable [Zero K] [One K] [Add K] [Sub K] [Mul K] [Neg K] [Div K] [NatCast K]

/-- the entry a write goes to -/
def FluxWrite.key (w : FluxWrite K) : ℕ × ℕ × ℕ := (w.elem, w.slot, w.is)

/-- the write is within the extents of `Fq_elem` -/
def FluxWrite.InB (d : Disc K) (ne : ℕ) (w : FluxWrite K) : Prop :=
  w.elem < ne ∧ w.slot < d.nface * d.nqf ∧ w.is < d.ns

theorem writeFluxes_spec (d : Disc K) (ne : ℕ) : ∀ (ws : List (FluxWrite K)) (F : ℕ → ℕ → ℕ → K),
    (∀ w ∈ ws, w.InB d ne) → (ws.map FluxWrite.key).Nodup →
    ∃ F', writeFluxes d ne ws F = some F' ∧ (∀ w ∈ ws, F' w.elem w.slot w.is = w.val) ∧
      ∀ e j s, (e, j, s) ∉ ws.map FluxWrite.key → F' e j s = F e j s := by
  intro ws
  induction ws with
  | nil => intro F _ _; exact ⟨F, rfl, by simp, fun _ _ _ _ => rfl⟩
  | cons w ws ih =>
    intro F hb hnd
    rw [List.map_cons, List.nodup_cons] at hnd
    set F1 : ℕ → ℕ → ℕ → K := fun e j s =>
      if e = w.elem ∧ j = w.slot ∧ s = w.is then w.val else F e j s with hF1
    obtain ⟨F', h1, h2, h3⟩ := ih F1 (fun x hx => hb x (by simp [hx])) hnd.2
    refine ⟨F', ?_, ?_, ?_⟩
    · unfold writeFluxes at h1 ⊢
      rw [List.foldlM_cons]
      have : assignFlux d ne F w = some F1 := if_pos (hb w (by simp))
      rw [this]
      exact h1
    · intro x hx
      rcases List.mem_cons.1 hx with rfl | hx
      · rw [h3 _ _ _ hnd.1, hF1]; simp
      · exact h2 x hx
    · intro e j s hn
      rw [List.map_cons, List.mem_cons, not_or] at hn
      rw [h3 _ _ _ hn.2, hF1]
      have : ¬(e = w.elem ∧ j = w.slot ∧ s = w.is) := by
        rintro ⟨rfl, rfl, rfl⟩; exact hn.1 rfl
      simp [this]

/-- the outcome does not depend on the order of the writes -/
theorem writeFluxes_perm (d : Disc K) (ne : ℕ) (ws ws' : List (FluxWrite K)) (F : ℕ → ℕ → ℕ → K)
    (hp : ws'.Perm ws) (hb : ∀ w ∈ ws, w.InB d ne) (hnd : (ws.map FluxWrite.key).Nodup) :
    writeFluxes d ne ws' F = writeFluxes d ne ws F := by
  obtain ⟨F1, h1, h2, h3⟩ := writeFluxes_spec d ne ws F hb hnd
  obtain ⟨F2, g1, g2, g3⟩ := writeFluxes_spec d ne ws' F (fun w hw => hb w (hp.mem_iff.1 hw))
    ((hp.map _).nodup_iff.2 hnd)
  rw [h1, g1]
  congr 1
  funext e j s
  by_cases h : (e, j, s) ∈ ws.map FluxWrite.key
  · obtain ⟨w, hw, hk⟩ := List.mem_map.1 h
    simp only [FluxWrite.key, Prod.mk.injEq] at hk
    obtain ⟨rfl, rfl, rfl⟩ := hk
    rw [h2 w hw, g2 w (hp.mem_iff.2 hw)]
  · rw [h3 _ _ _ h, g3]
    rw [(hp.map _).mem_iff]; exact h

end ops

section field
variable [Field K]

theorem list_sum_finset_sum {ι : Type} (l : List ι) (n : ℕ) (f : ι → ℕ → K) :
    ∑ j ∈ range n, (l.map fun x => f x j).sum = (l.map fun x => ∑ j ∈ range n, f x j).sum := by
  induction l with
  | nil => simp
  | cons a l ih => simp [Finset.sum_add_distrib, ih]

/-- value of an entry as a sum over the writes, when unwritten entries are 0 -/
theorem writes_sum (ws : List (FluxWrite K)) (F : ℕ → ℕ → ℕ → K)
    (hnd : (ws.map FluxWrite.key).Nodup) (h2 : ∀ w ∈ ws, F w.elem w.slot w.is = w.val) (e j s : ℕ)
    (h0 : (e, j, s) ∉ ws.map FluxWrite.key → F e j s = 0) :
    F e j s = (ws.map fun w => if w.elem = e ∧ w.slot = j ∧ w.is = s then w.val else 0).sum := by
  have aux : ∀ l : List (FluxWrite K), (e, j, s) ∉ l.map FluxWrite.key →
      (l.map fun w => if w.elem = e ∧ w.slot = j ∧ w.is = s then w.val else 0).sum = 0 := by
    intro l hl
    apply List.sum_eq_zero
    intro x hx
    obtain ⟨w, hw, rfl⟩ := List.mem_map.1 hx
    rw [if_neg]
    rintro ⟨rfl, rfl, rfl⟩
    exact hl (List.mem_map.2 ⟨w, hw, rfl⟩)
  by_cases h : (e, j, s) ∈ ws.map FluxWrite.key
  · clear h0
    induction ws with
    | nil => simp at h
    | cons w ws ih =>
      rw [List.map_cons, List.nodup_cons] at hnd
      rw [List.map_cons, List.sum_cons]
      by_cases hw : w.elem = e ∧ w.slot = j ∧ w.is = s
      · have h3 : (e, j, s) ∉ ws.map FluxWrite.key := by
          obtain ⟨rfl, rfl, rfl⟩ := hw; exact hnd.1
        rw [aux ws h3, if_pos hw, add_zero]
        obtain ⟨rfl, rfl, rfl⟩ := hw
        exact h2 w (by simp)
      · rw [if_neg hw, zero_add]
        refine ih hnd.2 (fun x hx => h2 x (by simp [hx])) ?_
        rw [List.map_cons, List.mem_cons] at h
        rcases h with h | h
        · simp only [FluxWrite.key, Prod.mk.injEq] at h
          exact absurd ⟨h.1.symm, h.2.1.symm, h.2.2.symm⟩ hw
        · exact h
  · rw [h0 h, aux ws h]

/-- the face integral of one element as a sum over the writes -/
theorem writes_integral (ws : List (FluxWrite K)) (F : ℕ → ℕ → ℕ → K) (n : ℕ) (φ : ℕ → K)
    (hnd : (ws.map FluxWrite.key).Nodup) (h2 : ∀ w ∈ ws, F w.elem w.slot w.is = w.val) (e s : ℕ)
    (hb : ∀ w ∈ ws, w.slot < n)
    (h0 : ∀ j, (e, j, s) ∉ ws.map FluxWrite.key → F e j s = 0) :
    ∑ j ∈ range n, φ j * F e j s =
      (ws.map fun w => if w.elem = e ∧ w.is = s then φ w.slot * w.val else 0).sum := by
  have : ∀ j ∈ range n, φ j * F e j s = (ws.map fun w =>
      φ j * if w.elem = e ∧ w.slot = j ∧ w.is = s then w.val else 0).sum := by
    intro j _
    rw [writes_sum ws F hnd h2 e j s (h0 j), List.sum_map_mul_left]
  rw [Finset.sum_congr rfl this, list_sum_finset_sum]
  congr 1
  apply List.map_congr_left
  intro w hw
  by_cases h : w.elem = e ∧ w.is = s
  · rw [if_pos h, Finset.sum_eq_single w.slot]
    · rw [if_pos ⟨h.1, rfl, h.2⟩]
    · intro j _ hj
      rw [if_neg (fun hh => hj hh.2.1.symm), mul_zero]
    · intro hh; exact absurd (Finset.mem_range.2 (hb w hw)) hh
  · rw [if_neg h]
    apply Finset.sum_eq_zero
    intro j _
    rw [if_neg (fun hh => h ⟨hh.1, hh.2.2⟩), mul_zero]

end field

section ops
variable [Zero K] [One K] [Add K] [Sub K] [Mul K] [Neg K] [Div K] [NatCast K]

/-! ### the writes of `construct_flux_state` -/

/-- the sides of a face that are on the rank -/
def localSides (rank : ℕ) (row : FaceRow) : List (ℕ × ℕ) :=
  (if rank = row.rankL then [(row.elemL, row.faceL)] else []) ++
  (if rank = row.rankR then [(row.elemR, row.faceR)] else [])

/-- What the rows of a rank must satisfy for the flux loop: sides on the rank are in range, and no
(element, reference face) occurs twice. -/
structure RowsOK (d : Disc K) (norient ne rank : ℕ) (rows : List FaceRow) : Prop where
  left : ∀ row ∈ rows, rank = row.rankL →
    row.elemL < ne ∧ row.faceL < d.nface ∧ row.orientL < norient
  right : ∀ row ∈ rows, rank = row.rankR →
    row.elemR < ne ∧ row.faceR < d.nface ∧ row.orientR < norient
  sides : (rows.flatMap (localSides rank)).Nodup

theorem slot_lt {d : Disc K} {norient o face iq : ℕ} (ho : OrderOK d norient) (h : o < norient)
    (hf : face < d.nface) (hq : iq < d.nqf) :
    face * d.nqf + d.ptsOrder o iq < d.nface * d.nqf := by
  have h1 := (ho o h).1 iq hq
  have h2 : (face + 1) * d.nqf ≤ d.nface * d.nqf := Nat.mul_le_mul_right _ hf
  have h3 : (face + 1) * d.nqf = face * d.nqf + d.nqf := by ring
  omega

theorem slot_div {n face j : ℕ} (hj : j < n) :
    (face * n + j) / n = face ∧ (face * n + j) % n = j := by
  have hn : 0 < n := by omega
  constructor
  · rw [Nat.mul_comm, Nat.mul_add_div hn, Nat.div_eq_of_lt hj, Nat.add_zero]
  · rw [Nat.mul_comm, Nat.mul_add_mod, Nat.mod_eq_of_lt hj]

/-- membership in the writes of one iteration -/
theorem mem_writesAt {d : Disc K} {rank : ℕ} {row : FaceRow} {F : ℕ → ℕ → K} {iq : ℕ}
    {w : FluxWrite K} (h : w ∈ fluxWritesAt d rank row F iq) :
    (rank = row.rankL ∧ ∃ s < d.ns,
      w = ⟨row.elemL, row.faceL * d.nqf + d.ptsOrder row.orientL iq, s, -1 * F iq s⟩) ∨
    (rank = row.rankR ∧ ∃ s < d.ns,
      w = ⟨row.elemR, row.faceR * d.nqf + d.ptsOrder row.orientR iq, s, F iq s⟩) := by
  unfold fluxWritesAt at h
  rcases List.mem_append.1 h with h | h
  · left
    by_cases hr : rank = row.rankL
    · rw [if_pos hr] at h
      obtain ⟨s, hs, rfl⟩ := List.mem_map.1 h
      exact ⟨hr, s, List.mem_range.1 hs, rfl⟩
    · rw [if_neg hr] at h; cases h
  · right
    by_cases hr : rank = row.rankR
    · rw [if_pos hr] at h
      obtain ⟨s, hs, rfl⟩ := List.mem_map.1 h
      exact ⟨hr, s, List.mem_range.1 hs, rfl⟩
    · rw [if_neg hr] at h; cases h

/-- a write of a row goes to a side of the row -/
theorem writesAt_side {d : Disc K} {norient ne rank : ℕ} {rows : List FaceRow}
    (hr : RowsOK d norient ne rank rows) (ho : OrderOK d norient) {row : FaceRow} (hrow : row ∈ rows)
    {F : ℕ → ℕ → K} {iq : ℕ} (hq : iq < d.nqf) {w : FluxWrite K}
    (h : w ∈ fluxWritesAt d rank row F iq) :
    w.InB d ne ∧ (w.elem, w.slot / d.nqf) ∈ localSides rank row ∧
      ∃ o < norient, w.slot % d.nqf = d.ptsOrder o iq ∧
        ((w.elem, w.slot / d.nqf) = (row.elemL, row.faceL) ∧ rank = row.rankL ∧ o = row.orientL ∨
         (w.elem, w.slot / d.nqf) = (row.elemR, row.faceR) ∧ rank = row.rankR ∧ o = row.orientR) := by
  rcases mem_writesAt h with ⟨hk, s, hs, rfl⟩ | ⟨hk, s, hs, rfl⟩
  · obtain ⟨h1, h2, h3⟩ := hr.left row hrow hk
    obtain ⟨e1, e2⟩ := slot_div (face := row.faceL) ((ho _ h3).1 iq hq)
    refine ⟨⟨h1, slot_lt ho h3 h2 hq, hs⟩, ?_, row.orientL, h3, e2, Or.inl ⟨?_, hk, rfl⟩⟩
    · simp [localSides, hk, e1]
    · simp [e1]
  · obtain ⟨h1, h2, h3⟩ := hr.right row hrow hk
    obtain ⟨e1, e2⟩ := slot_div (face := row.faceR) ((ho _ h3).1 iq hq)
    refine ⟨⟨h1, slot_lt ho h3 h2 hq, hs⟩, ?_, row.orientR, h3, e2, Or.inr ⟨?_, hk, rfl⟩⟩
    · simp [localSides, hk, e1]
    · simp [e1]

theorem mem_fluxWrites {d : Disc K} {rank : ℕ} {rows : List FaceRow} {Fq : List (ℕ → ℕ → K)}
    {w : FluxWrite K} : w ∈ fluxWrites d rank rows Fq ↔
      ∃ x ∈ rows.zip Fq, ∃ iq < d.nqf, w ∈ fluxWritesAt d rank x.1 x.2 iq := by
  simp [fluxWrites, List.mem_flatMap]

theorem fluxWrites_inB {d : Disc K} {norient ne rank : ℕ} {rows : List FaceRow}
    (hr : RowsOK d norient ne rank rows) (ho : OrderOK d norient) (Fq : List (ℕ → ℕ → K)) :
    ∀ w ∈ fluxWrites d rank rows Fq, w.InB d ne := by
  intro w hw
  obtain ⟨x, hx, iq, hq, hw⟩ := mem_fluxWrites.1 hw
  exact (writesAt_side hr ho (List.of_mem_zip hx).1 hq hw).1

theorem flatMap_zip_fst {α β γ : Type} (f : α → List γ) : ∀ (l : List α) (l' : List β),
    l.length ≤ l'.length → (l.zip l').flatMap (fun x => f x.1) = l.flatMap f := by
  intro l
  induction l with
  | nil => intro l' _; simp
  | cons a l ih =>
    intro l' h
    cases l' with
    | nil => simp at h
    | cons b l' => simp at h; simp [ih l' h]

theorem fluxWrites_nodup {d : Disc K} {norient ne rank : ℕ} {rows : List FaceRow}
    (hr : RowsOK d norient ne rank rows) (ho : OrderOK d norient) (Fq : List (ℕ → ℕ → K))
    (hl : rows.length = Fq.length) :
    ((fluxWrites d rank rows Fq).map FluxWrite.key).Nodup := by
  have hs := hr.sides
  rw [← flatMap_zip_fst (localSides rank) rows Fq (le_of_eq hl), List.nodup_flatMap] at hs
  unfold fluxWrites
  rw [List.map_flatMap, List.nodup_flatMap]
  constructor
  · intro x hx
    have hrow := (List.of_mem_zip hx).1
    have hside := hs.1 x hx
    rw [List.map_flatMap, List.nodup_flatMap]
    constructor
    · intro iq hq
      have hq := List.mem_range.1 hq
      unfold fluxWritesAt
      rw [List.map_append, List.nodup_append']
      refine ⟨?_, ?_, ?_⟩
      · by_cases hk : rank = x.1.rankL
        · rw [if_pos hk, List.map_map]
          refine List.Nodup.map ?_ List.nodup_range
          intro a b hab
          simpa [FluxWrite.key] using hab
        · rw [if_neg hk]; simp
      · by_cases hk : rank = x.1.rankR
        · rw [if_pos hk, List.map_map]
          refine List.Nodup.map ?_ List.nodup_range
          intro a b hab
          simpa [FluxWrite.key] using hab
        · rw [if_neg hk]; simp
      · intro k hk1 hk2
        by_cases hL : rank = x.1.rankL
        · by_cases hR : rank = x.1.rankR
          · rw [if_pos hL] at hk1
            rw [if_pos hR] at hk2
            simp only [List.map_map, List.mem_map, Function.comp, FluxWrite.key] at hk1 hk2
            obtain ⟨a, _, rfl⟩ := hk1
            obtain ⟨b, _, hb⟩ := hk2
            simp only [Prod.mk.injEq] at hb
            obtain ⟨h1, h2, h3⟩ := hr.left x.1 hrow hL
            obtain ⟨g1, g2, g3⟩ := hr.right x.1 hrow hR
            have e1 := (slot_div (face := x.1.faceL) ((ho _ h3).1 iq hq)).1
            have e2 := (slot_div (face := x.1.faceR) ((ho _ g3).1 iq hq)).1
            unfold localSides at hside
            rw [if_pos hL, if_pos hR] at hside
            have hne : ¬((x.1.elemL, x.1.faceL) = (x.1.elemR, x.1.faceR)) := by
              simpa using hside
            apply hne
            rw [← e1, ← e2, hb.2.1, hb.1]
          · rw [if_neg hR] at hk2; simp at hk2
        · rw [if_neg hL] at hk1; simp at hk1
    · refine List.Pairwise.imp_of_mem ?_ (List.pairwise_lt_range (n := d.nqf))
      intro i j hi hj hij k hk1 hk2
      have hi := List.mem_range.1 hi
      have hj := List.mem_range.1 hj
      obtain ⟨w, hw, rfl⟩ := List.mem_map.1 hk1
      obtain ⟨w', hw', hkey⟩ := List.mem_map.1 hk2
      simp only [FluxWrite.key, Prod.mk.injEq] at hkey
      obtain ⟨-, -, o, ho1, hm, hc⟩ := writesAt_side hr ho hrow hi hw
      obtain ⟨-, -, o', ho1', hm', hc'⟩ := writesAt_side hr ho hrow hj hw'
      rw [hkey.1, hkey.2.1] at hc'
      rw [hkey.2.1] at hm'
      have hoo : o = o' := by
        unfold localSides at hside
        rcases hc with ⟨c1, c2, c3⟩ | ⟨c1, c2, c3⟩ <;> rcases hc' with ⟨c1', c2', c3'⟩ | ⟨c1', c2', c3'⟩
        · rw [c3, c3']
        · rw [if_pos c2, if_pos c2'] at hside
          rw [c1] at c1'
          rw [c1'] at hside
          simp at hside
        · rw [if_pos c2, if_pos c2'] at hside
          rw [c1] at c1'
          rw [c1'] at hside
          simp at hside
        · rw [c3, c3']
      subst hoo
      have := (ho o ho1).2 i hi j hj (by rw [← hm, ← hm'])
      omega
  · refine List.Pairwise.imp_of_mem ?_ hs.2
    intro x y hx hy hdis k hk1 hk2
    obtain ⟨w, hw, rfl⟩ := List.mem_map.1 hk1
    obtain ⟨w', hw', hkey⟩ := List.mem_map.1 hk2
    obtain ⟨iq, hq, hw⟩ := List.mem_flatMap.1 hw
    obtain ⟨iq', hq', hw'⟩ := List.mem_flatMap.1 hw'
    simp only [FluxWrite.key, Prod.mk.injEq] at hkey
    have h1 := (writesAt_side hr ho (List.of_mem_zip hx).1 (List.mem_range.1 hq) hw).2.1
    have h2 := (writesAt_side hr ho (List.of_mem_zip hy).1 (List.mem_range.1 hq') hw').2.1
    rw [hkey.1, hkey.2.1] at h2
    exact hdis h1 h2

end ops

/-! ### the residual of a rank -/

section field
variable [Field K]

theorem sum_map_flatMap {ι κ : Type} (l : List ι) (f : ι → List κ) (g : κ → K) :
    ((l.flatMap f).map g).sum = (l.map fun x => ((f x).map g).sum).sum := by
  induction l with
  | nil => simp
  | cons a l ih => simp [ih]

end field

section ops
variable [Zero K] [One K] [Add K] [Sub K] [Mul K] [Neg K] [Div K] [NatCast K]

theorem loopSum_congr {n : ℕ} {f f' : ℕ → K} (h : ∀ i < n, f i = f' i) : loopSum n f = loopSum n f' := by
  unfold loopSum
  refine List.foldl_ext _ _ _ fun a i hi => ?_
  rw [h i (List.mem_range.1 hi)]

theorem mapM_eq_map {α β : Type} (f : α → Option β) (g : α → β) : ∀ l : List α,
    (∀ a ∈ l, f a = some (g a)) → l.mapM f = some (l.map g) := by
  intro l
  induction l with
  | nil => intro _; rfl
  | cons a l ih =>
    intro h
    rw [List.mapM_cons, h a (by simp), ih (fun b hb => h b (by simp [hb]))]
    rfl

theorem OrderOK.surj {d : Disc K} {norient o : ℕ} (h : OrderOK d norient) (ho : o < norient)
    {j : ℕ} (hj : j < d.nqf) : ∃ i < d.nqf, d.ptsOrder o i = j := by
  have hp := perm_range_of_inj (d.ptsOrder o) (h o ho).1 (h o ho).2
  have : j ∈ (List.range d.nqf).map (d.ptsOrder o) := hp.mem_iff.2 (List.mem_range.2 hj)
  obtain ⟨i, hi, rfl⟩ := List.mem_map.1 this
  exact ⟨i, List.mem_range.1 hi, rfl⟩

/-- `Fq_elem` is zero in all slots of sides that belong to no face of the rank. -/
def CleanSlots (d : Disc K) (rank : ℕ) (rows : List FaceRow) (Fe : ℕ → ℕ → ℕ → K) : Prop :=
  ∀ e j s, j < d.nface * d.nqf → s < d.ns → (e, j / d.nqf) ∉ rows.flatMap (localSides rank) →
    Fe e j s = 0

/-- a slot of a side of the rank is written -/
theorem key_of_side {d : Disc K} {norient ne rank : ℕ} {rows : List FaceRow}
    (hr : RowsOK d norient ne rank rows) (ho : OrderOK d norient) (Fq : List (ℕ → ℕ → K))
    (hl : rows.length = Fq.length) {e j s : ℕ} (hj : j < d.nface * d.nqf) (hs : s < d.ns)
    (h : (e, j / d.nqf) ∈ rows.flatMap (localSides rank)) :
    (e, j, s) ∈ (fluxWrites d rank rows Fq).map FluxWrite.key := by
  have hn : 0 < d.nqf := by
    rcases Nat.eq_zero_or_pos d.nqf with h0 | h0
    · rw [h0] at hj; simp at hj
    · exact h0
  rw [← flatMap_zip_fst (localSides rank) rows Fq (le_of_eq hl)] at h
  obtain ⟨x, hx, hside⟩ := List.mem_flatMap.1 h
  have hrow := (List.of_mem_zip hx).1
  have hjm := Nat.mod_lt j hn
  have hjd := Nat.div_add_mod j d.nqf
  rw [List.mem_map]
  unfold localSides at hside
  rcases List.mem_append.1 hside with hh | hh
  · by_cases hk : rank = x.1.rankL
    · rw [if_pos hk] at hh
      simp only [List.mem_singleton, Prod.mk.injEq] at hh
      obtain ⟨rfl, hf⟩ := hh
      obtain ⟨iq, hq, hi⟩ := ho.surj (hr.left x.1 hrow hk).2.2 hjm
      refine ⟨⟨x.1.elemL, x.1.faceL * d.nqf + d.ptsOrder x.1.orientL iq, s, -1 * x.2 iq s⟩,
        mem_fluxWrites.2 ⟨x, hx, iq, hq, ?_⟩, ?_⟩
      · unfold fluxWritesAt
        rw [if_pos hk]
        exact List.mem_append_left _ (List.mem_map.2 ⟨s, List.mem_range.2 hs, rfl⟩)
      · simp only [FluxWrite.key, Prod.mk.injEq, true_and, and_true]
        rw [hi, ← hf, Nat.mul_comm]; exact hjd
    · rw [if_neg hk] at hh; cases hh
  · by_cases hk : rank = x.1.rankR
    · rw [if_pos hk] at hh
      simp only [List.mem_singleton, Prod.mk.injEq] at hh
      obtain ⟨rfl, hf⟩ := hh
      obtain ⟨iq, hq, hi⟩ := ho.surj (hr.right x.1 hrow hk).2.2 hjm
      refine ⟨⟨x.1.elemR, x.1.faceR * d.nqf + d.ptsOrder x.1.orientR iq, s, x.2 iq s⟩,
        mem_fluxWrites.2 ⟨x, hx, iq, hq, ?_⟩, ?_⟩
      · unfold fluxWritesAt
        rw [if_pos hk]
        exact List.mem_append_right _ (List.mem_map.2 ⟨s, List.mem_range.2 hs, rfl⟩)
      · simp only [FluxWrite.key, Prod.mk.injEq, true_and, and_true]
        rw [hi, ← hf, Nat.mul_comm]; exact hjd
    · rw [if_neg hk] at hh; cases hh

theorem side_of_key {d : Disc K} {norient ne rank : ℕ} {rows : List FaceRow}
    (hr : RowsOK d norient ne rank rows) (ho : OrderOK d norient) (Fq : List (ℕ → ℕ → K))
    {e j s : ℕ} (h : (e, j, s) ∈ (fluxWrites d rank rows Fq).map FluxWrite.key) :
    (e, j / d.nqf) ∈ rows.flatMap (localSides rank) := by
  obtain ⟨w, hw, hk⟩ := List.mem_map.1 h
  simp only [FluxWrite.key, Prod.mk.injEq] at hk
  obtain ⟨rfl, rfl, rfl⟩ := hk
  obtain ⟨x, hx, iq, hq, hw⟩ := mem_fluxWrites.1 hw
  have hrow := (List.of_mem_zip hx).1
  exact List.mem_flatMap.2 ⟨x.1, hrow, (writesAt_side hr ho hrow hq hw).2.1⟩

end ops

variable [Field K]

theorem ite_range_sum (n s : ℕ) (hs : s < n) (p : Prop) [Decidable p] (f : ℕ → K) :
    ∑ i ∈ range n, (if p ∧ i = s then f i else 0) = if p then f s else 0 := by
  by_cases hp : p
  · simp [hp, hs]
  · simp [hp]

/-- the contribution of one face to element `k`, in local numbers -/
def localFaceTerm (d : Disc K) (rank : ℕ) (k b s : ℕ) (row : FaceRow) (F : ℕ → ℕ → K) : K :=
  ∑ iq ∈ range d.nqf,
    ((if rank = row.rankR ∧ row.elemR = k then d.faceBasis row.faceR (d.ptsOrder row.orientR iq) b
      else 0) -
     (if rank = row.rankL ∧ row.elemL = k then d.faceBasis row.faceL (d.ptsOrder row.orientL iq) b
      else 0)) * F iq s

theorem writesAt_sum {d : Disc K} {norient ne rank : ℕ} {rows : List FaceRow}
    (hr : RowsOK d norient ne rank rows) (ho : OrderOK d norient) {row : FaceRow} (hrow : row ∈ rows)
    (F : ℕ → ℕ → K) (k b s iq : ℕ) (hs : s < d.ns) (hq : iq < d.nqf) :
    ((fluxWritesAt d rank row F iq).map fun w =>
      if w.elem = k ∧ w.is = s then faceBasisFlat d w.slot b * w.val else 0).sum =
    ((if rank = row.rankR ∧ row.elemR = k then d.faceBasis row.faceR (d.ptsOrder row.orientR iq) b
      else 0) -
     (if rank = row.rankL ∧ row.elemL = k then d.faceBasis row.faceL (d.ptsOrder row.orientL iq) b
      else 0)) * F iq s := by
  have hL : ∀ hk : rank = row.rankL, faceBasisFlat d
      (row.faceL * d.nqf + d.ptsOrder row.orientL iq) b =
      d.faceBasis row.faceL (d.ptsOrder row.orientL iq) b := by
    intro hk
    obtain ⟨e1, e2⟩ := slot_div (face := row.faceL) ((ho _ (hr.left row hrow hk).2.2).1 iq hq)
    rw [faceBasisFlat, e1, e2]
  have hR : ∀ hk : rank = row.rankR, faceBasisFlat d
      (row.faceR * d.nqf + d.ptsOrder row.orientR iq) b =
      d.faceBasis row.faceR (d.ptsOrder row.orientR iq) b := by
    intro hk
    obtain ⟨e1, e2⟩ := slot_div (face := row.faceR) ((ho _ (hr.right row hrow hk).2.2).1 iq hq)
    rw [faceBasisFlat, e1, e2]
  unfold fluxWritesAt
  rw [List.map_append, List.sum_append]
  have h1 : ((if rank = row.rankL then (List.range d.ns).map fun is =>
      (⟨row.elemL, row.faceL * d.nqf + d.ptsOrder row.orientL iq, is, -1 * F iq is⟩ : FluxWrite K)
      else []).map fun w => if w.elem = k ∧ w.is = s then faceBasisFlat d w.slot b * w.val else 0).sum
      = -(if rank = row.rankL ∧ row.elemL = k then
          d.faceBasis row.faceL (d.ptsOrder row.orientL iq) b else 0) * F iq s := by
    by_cases hk : rank = row.rankL
    · rw [if_pos hk, List.map_map, ← hL hk]
      simp only [Function.comp_def, sum_map_range]
      rw [ite_range_sum _ _ hs]
      by_cases he : row.elemL = k
      · rw [if_pos he, if_pos ⟨hk, he⟩]; ring
      · rw [if_neg he, if_neg (fun h => he h.2)]; ring
    · rw [if_neg hk, if_neg (fun h => hk h.1)]; simp
  have h2 : ((if rank = row.rankR then (List.range d.ns).map fun is =>
      (⟨row.elemR, row.faceR * d.nqf + d.ptsOrder row.orientR iq, is, F iq is⟩ : FluxWrite K)
      else []).map fun w => if w.elem = k ∧ w.is = s then faceBasisFlat d w.slot b * w.val else 0).sum
      = (if rank = row.rankR ∧ row.elemR = k then
          d.faceBasis row.faceR (d.ptsOrder row.orientR iq) b else 0) * F iq s := by
    by_cases hk : rank = row.rankR
    · rw [if_pos hk, List.map_map, ← hR hk]
      simp only [Function.comp_def, sum_map_range]
      rw [ite_range_sum _ _ hs]
      by_cases he : row.elemR = k
      · rw [if_pos he, if_pos ⟨hk, he⟩]
      · rw [if_neg he, if_neg (fun h => he h.2)]; ring
    · rw [if_neg hk, if_neg (fun h => hk h.1)]; simp
  rw [h1, h2]; ring

/-- the face integral of one element, in local numbers, whatever the order of the writes -/
theorem face_integral {d : Disc K} {norient ne rank : ℕ} {rows : List FaceRow}
    (hr : RowsOK d norient ne rank rows) (ho : OrderOK d norient) (Fq : List (ℕ → ℕ → K))
    (hl : rows.length = Fq.length) (ws : List (FluxWrite K))
    (hp : ws.Perm (fluxWrites d rank rows Fq)) (Fe0 : ℕ → ℕ → ℕ → K)
    (hc : CleanSlots d rank rows Fe0) :
    ∃ Fe, writeFluxes d ne ws Fe0 = some Fe ∧ CleanSlots d rank rows Fe ∧
      ∀ k b s, s < d.ns → ∑ j ∈ range (d.nface * d.nqf), faceBasisFlat d j b * Fe k j s =
        ((rows.zip Fq).map fun x => localFaceTerm d rank k b s x.1 x.2).sum := by
  have hb := fluxWrites_inB hr ho Fq
  have hnd := fluxWrites_nodup hr ho Fq hl
  rw [writeFluxes_perm d ne _ ws Fe0 hp hb hnd]
  obtain ⟨Fe, h1, h2, h3⟩ := writeFluxes_spec d ne (fluxWrites d rank rows Fq) Fe0 hb hnd
  have hclean : CleanSlots d rank rows Fe := by
    intro e j s hj hs hns
    rw [h3 _ _ _ (fun h => hns (side_of_key hr ho Fq h))]
    exact hc e j s hj hs hns
  refine ⟨Fe, h1, hclean, ?_⟩
  intro k b s hs
  have h0 : ∀ j ∈ range (d.nface * d.nqf), faceBasisFlat d j b * Fe k j s =
      faceBasisFlat d j b * (fun e j s => if j < d.nface * d.nqf then Fe e j s else 0) k j s := by
    intro j hj
    simp only [Finset.mem_range.1 hj, if_true]
  rw [Finset.sum_congr rfl h0, writes_integral (fluxWrites d rank rows Fq)
    (fun e j s => if j < d.nface * d.nqf then Fe e j s else 0) _
    (fun j => faceBasisFlat d j b) hnd ?_ k s (fun w hw => (hb w hw).2.1) ?_]
  · unfold fluxWrites
    rw [sum_map_flatMap]
    congr 1
    apply List.map_congr_left
    intro x hx
    rw [sum_map_flatMap, sum_map_range]
    exact Finset.sum_congr rfl fun iq hq =>
      writesAt_sum hr ho (List.of_mem_zip hx).1 x.2 k b s iq hs (Finset.mem_range.1 hq)
  · intro w hw
    simp only [(hb w hw).2.1, if_true]
    exact h2 w hw
  · intro j hj
    by_cases hjn : j < d.nface * d.nqf
    · simp only [hjn, if_true]
      exact hclean k j s hjn hs (fun h => hj (key_of_side hr ho Fq hl hjn hs h))
    · simp only [hjn, if_false]

variable [DecidableEq K]

theorem foldl_add_eq (n : ℕ) (f : ℕ → K) (a : K) :
    (List.range n).foldl (fun acc i => acc + f i) a = a + ∑ i ∈ range n, f i := by
  induction n with
  | zero => simp
  | succ n ih => rw [List.range_succ, List.foldl_append, ih, Finset.sum_range_succ]; simp [add_assoc]

omit [DecidableEq K] in
theorem volumeIntegral_eq (d : Disc K) (F : ℕ → ℕ → ℕ → K) (b s : ℕ) (r : K) :
    volumeIntegral d F b s r =
      r + ∑ q ∈ range d.nq, ∑ i ∈ range d.dim, d.volGrad q b i * F q s i := by
  unfold volumeIntegral
  rw [show (fun (acc : K) (iq : ℕ) => (List.range d.dim).foldl
      (fun acc id => acc + d.volGrad iq b id * F iq s id) acc) =
      fun acc iq => acc + ∑ i ∈ range d.dim, d.volGrad iq b i * F iq s i from by
    funext acc iq
    induction d.dim with
    | zero => simp
    | succ n ih => rw [List.range_succ, List.foldl_append, ih, Finset.sum_range_succ]
                   simp [add_assoc]]
  induction d.nq with
  | zero => simp
  | succ n ih => rw [List.range_succ, List.foldl_append, ih, Finset.sum_range_succ]; simp [add_assoc]

omit [DecidableEq K] in
theorem volumeIntegral_flux [DecidableEq K] (d : Disc K) (g : Geom K) (u : Coeffs K) (vq0 : ℕ → ℕ → K)
    (k b s : ℕ) (r : K) :
    volumeIntegral d (fun iq is id => volumeFlux d g
      (evaluateState d.nq d.nb d.ns d.volBasis (u k) vq0) k iq is id) b s r =
      r + volumeTerm d g u k b s := by
  rw [volumeIntegral_eq]
  congr 1
  unfold volumeTerm
  refine Finset.sum_congr rfl fun q hq => Finset.sum_congr rfl fun i _ => ?_
  congr 1
  unfold volumeFlux
  have : cArr d.ns (evaluateState d.nq d.nb d.ns d.volBasis (u k) vq0 q) = volState d u k q := by
    funext s
    unfold cArr volState
    by_cases hs : s < d.ns
    · rw [if_pos hs, if_pos hs, evaluateState, cAxB_entry _ _ _ _ _ _ _ _ _ (Finset.mem_range.1 hq) hs,
        one_mul]
    · rw [if_neg hs, if_neg hs]
  rw [this]
  simp only [loopSum_eq]

/-- the residual of one rank as plain sums -/
theorem residual_spec (d : Disc K) (g : Geom K) {α : Type} (rm : RankMesh α) (rank norient : ℕ)
    (sched : List (FluxWrite K) → List (FluxWrite K)) (hsched : ∀ l, (sched l).Perm l)
    (u : Coeffs K) (U : FaceArr (ℕ → ℕ → K)) (vq0 Fe0 res0 : ℕ → ℕ → ℕ → K)
    (hr : RowsOK d norient rm.numElemsPart rank rm.rows) (ho : OrderOK d norient)
    (hl : rm.rows.length = rm.numIFacesPart) (F : ℕ → ℕ → ℕ → K)
    (hF : ∀ i < rm.numIFacesPart, faceFlux d g U i = some (F i))
    (hc : CleanSlots d rank rm.rows Fe0) :
    ∃ res Fe, residual d g rm rank sched u U vq0 Fe0 res0 = some (res, Fe) ∧
      CleanSlots d rank rm.rows Fe ∧
      ∀ k < rm.numElemsPart, ∀ b < d.nb, ∀ s < d.ns, res k b s = volumeTerm d g u k b s +
        ((rm.rows.zip ((List.range rm.numIFacesPart).map F)).map fun x =>
          localFaceTerm d rank k b s x.1 x.2).sum := by
  have hm : (List.range rm.numIFacesPart).mapM (faceFlux d g U) =
      some ((List.range rm.numIFacesPart).map F) :=
    mapM_eq_map _ _ _ (fun i hi => hF i (List.mem_range.1 hi))
  obtain ⟨Fe, h1, h2, h3⟩ := face_integral hr ho ((List.range rm.numIFacesPart).map F)
    (by simpa using hl) (sched (fluxWrites d rank rm.rows ((List.range rm.numIFacesPart).map F)))
    (hsched _) Fe0 hc
  unfold residual
  rw [hm]
  simp only [Option.bind_eq_bind, Option.bind_some, h1]
  refine ⟨_, _, rfl, h2, ?_⟩
  intro k hk b hb s hs
  simp only [hk, hb, hs, and_self, if_true, cATxBpC_to_C, gemm, one_ne_zero, if_false, one_mul]
  rw [loopSum_eq, h3 k b s hs, volumeIntegral_flux, zero_add]

end DG
