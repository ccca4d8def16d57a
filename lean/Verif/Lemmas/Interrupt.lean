import Verif.Spec.Interrupt
import Verif.Lemmas.IO
import Mathlib.Data.List.Perm.Basic
import Mathlib.Data.List.Nodup

/-!
Invariants of interleaved writing.
-/
namespace DG.Cut

variable {T : Type} {α : Type}

/-- without the data -/
def eraseD (x : PDset T) : PDset T := { x with data := none }

/-- without the data -/
def erase (f : PFile α) : PFile α :=
  { f with
    nodeCoords := eraseD f.nodeCoords
    l2gNode := eraseD f.l2gNode
    elemToNode := eraseD f.elemToNode
    l2gElem := eraseD f.l2gElem
    uc := eraseD f.uc }

theorem erase_other [Zero α] (outs : List (RankOut α)) (h : RankOut α) {r : ℕ} (hr : r ≠ 0) (e : Ev) (f : PFile α) :
    erase (effect outs h r e f) = erase f := by
  cases e with
  | slab d => cases d <;> rfl
  | create d => simp only [effect, if_neg hr]
  | part d p w => simp only [effect, if_neg hr]
  | attr a w => simp only [effect, if_neg hr]
  | counts w => simp only [effect, if_neg hr]
  | allreduce => rfl
  | scan => rfl
  | gather => rfl

theorem erase_head [Zero α] (outs : List (RankOut α)) (h : RankOut α) (e : Ev) (f : PFile α) :
    erase (effect outs h 0 e f) = erase (effect outs h 0 e (erase f)) := by
  cases e with
  | slab d => cases d <;> rfl
  | create d => cases d <;> rfl
  | part d p w => cases d <;> cases p <;> rfl
  | attr a w => cases a <;> rfl
  | counts w => rfl
  | allreduce => rfl
  | scan => rfl
  | gather => rfl

/-- what the head rank alone leaves after `m` calls, without the data -/
def headRun [Zero α] (outs : List (RankOut α)) (h : RankOut α) (m : ℕ) : PFile α :=
  (prog.take m).foldl (fun f e => erase (effect outs h 0 e f)) .empty

theorem headRun_succ [Zero α] (outs : List (RankOut α)) (h : RankOut α) {m : ℕ} {e : Ev} (he : prog[m]? = some e) :
    headRun outs h (m + 1) = erase (effect outs h 0 e (headRun outs h m)) := by
  obtain ⟨hm, rfl⟩ := List.getElem?_eq_some_iff.mp he
  simp only [headRun, List.take_succ_eq_append_getElem hm, List.foldl_append, List.foldl_cons, List.foldl_nil]

theorem inv_erase [Zero α] {outs : List (RankOut α)} {h : RankOut α} {c : Conf α} (hc : Reachable outs h c) :
    erase c.file = headRun outs h (c.pc 0) := by
  induction hc with
  | refl => rfl
  | @tail c _ _ hs ih =>
    cases hs with
    | mk r e hr he hm =>
      by_cases h0 : r = 0
      · subst h0
        show erase (effect outs h 0 e c.file) = headRun outs h (Function.update c.pc 0 (c.pc 0 + 1) 0)
        rw [Function.update_self, headRun_succ outs h he, erase_head, ih]
      · show erase (effect outs h r e c.file) = headRun outs h (Function.update c.pc r (c.pc r + 1) 0)
        rw [Function.update_of_ne (Ne.symm h0), erase_other outs h h0, ih]

theorem inv_pc [Zero α] {outs : List (RankOut α)} {h : RankOut α} {c : Conf α} (hc : Reachable outs h c) (r : ℕ) :
    c.pc r ≤ prog.length := by
  induction hc with
  | refl => exact Nat.zero_le _
  | @tail c _ _ hs ih =>
    cases hs with
    | mk q e hr he hm =>
      obtain ⟨hlt, -⟩ := List.getElem?_eq_some_iff.mp he
      show Function.update c.pc q (c.pc q + 1) r ≤ _
      rw [Function.update_apply]
      split_ifs
      · omega
      · exact ih

/-- where a dataset's calls begin -/
def base : DName → ℕ
  | .nodeCoords => 21
  | .l2gNode => 37
  | .elemToNode => 53
  | .l2gElem => 69
  | .uc => 85

theorem prog_length : prog.length = 101 := rfl

theorem prog_create (d : DName) {i : ℕ} : prog[i]? = some (.create d) ↔ i = base d + 1 := by
  constructor
  · intro h
    obtain ⟨hi, he⟩ := List.getElem?_eq_some_iff.mp h
    have key : ∀ i : Fin 101, prog[i.1]? = some (.create d) → i.1 = base d + 1 := by cases d <;> decide +kernel
    exact key ⟨i, hi⟩ h
  · rintro rfl; cases d <;> rfl

theorem prog_slab (d : DName) {i : ℕ} : prog[i]? = some (.slab d) ↔ i = base d + 3 := by
  constructor
  · intro h
    obtain ⟨hi, he⟩ := List.getElem?_eq_some_iff.mp h
    have key : ∀ i : Fin 101, prog[i.1]? = some (.slab d) → i.1 = base d + 3 := by cases d <;> decide +kernel
    exact key ⟨i, hi⟩ h
  · rintro rfl; cases d <;> rfl

theorem prog_scan (d : DName) : prog[base d + 2]? = some .scan := by cases d <;> rfl

theorem prog_gather (d : DName) : prog[base d + 4]? = some .gather := by cases d <;> rfl

/-- the data of one dataset: how the calls change it -/
structure Access [Zero T] [Zero α] (outs : List (RankOut α)) (h : RankOut α) (d : DName) (bs : List (Block T))
    (get : PFile α → Option (List T)) : Prop where
  empty : get .empty = none
  create : ∀ f, get (effect outs h 0 (.create d) f) = some (List.replicate (bs.map fun b => dimsProd b.dims).sum 0)
  createOther : ∀ r f, r ≠ 0 → get (effect outs h r (.create d) f) = get f
  slab : ∀ r f, get (effect outs h r (.slab d) f) = (get f).bind fun x => writeRank true bs x r
  other : ∀ r e f, e ≠ .create d → e ≠ .slab d → get (effect outs h r e f) = get f

/-- the data after the head rank has created the dataset, with some ranks' blocks -/
structure InvData [Zero T] (n : ℕ) (d : DName) (bs : List (Block T)) (pc : ℕ → ℕ) (x : Option (List T)) : Prop where
  scan : ∀ r < n, base d + 2 < pc r → base d + 2 ≤ pc 0
  gather : base d + 4 < pc 0 → ∀ q < n, base d + 4 ≤ pc q
  before : pc 0 ≤ base d + 1 → x = none
  after : base d + 1 < pc 0 → ∃ ord : List ℕ, ord.Nodup ∧ (∀ q, q ∈ ord ↔ q < n ∧ base d + 3 < pc q) ∧
    x = ord.foldlM (writeRank true bs) (List.replicate (bs.map fun b => dimsProd b.dims).sum 0)

theorem inv_data [Zero T] [Zero α] {outs : List (RankOut α)} {h : RankOut α} {d : DName} {bs : List (Block T)}
    {get : PFile α → Option (List T)} (A : Access outs h d bs get) {c : Conf α} (hc : Reachable outs h c) :
    InvData outs.length d bs c.pc (get c.file) := by
  induction hc with
  | refl => exact ⟨by simp, by simp, fun _ => A.empty, by simp⟩
  | @tail c _ _ hs ih =>
    cases hs with
    | mk r e hr he hm =>
      obtain ⟨hscan, hgather, hbefore, hafter⟩ := ih
      have hn : 0 < outs.length := by omega
      refine ⟨?_, ?_, ?_, ?_⟩
      · -- the scan
        intro q hq hlt
        simp only [Function.update_apply] at hlt ⊢
        by_cases hqr : q = r
        · subst hqr
          rw [if_pos rfl] at hlt
          by_cases h1 : c.pc q = base d + 2
          · rw [h1, prog_scan] at he
            cases he
            have := hm 0 (Nat.zero_le _)
            split_ifs <;> omega
          · have := hscan q hq (by omega)
            split_ifs <;> omega
        · rw [if_neg hqr] at hlt
          have := hscan q hq hlt
          split_ifs with h0
          · subst h0; omega
          · exact this
      · -- the gather
        intro hlt q hq
        simp only [Function.update_apply] at hlt ⊢
        by_cases h0 : r = 0
        · subst h0
          rw [if_pos rfl] at hlt
          by_cases h1 : c.pc 0 = base d + 4
          · have he' := he
            rw [h1, prog_gather] at he'
            cases he'
            have := hm rfl q hq
            split_ifs <;> omega
          · have := hgather (by omega) q hq
            split_ifs with h2
            · subst h2; omega
            · exact this
        · rw [if_neg (Ne.symm h0)] at hlt
          have := hgather hlt q hq
          split_ifs with h2
          · subst h2; omega
          · exact this
      · -- before the creation
        intro hle
        simp only [Function.update_apply] at hle
        have h0 : c.pc 0 ≤ base d + 1 := by
          split_ifs at hle with h1
          · subst h1; omega
          · exact hle
        have hx := hbefore h0
        show get (effect outs h r e c.file) = none
        by_cases hc : e = .create d
        · subst hc
          rw [prog_create] at he
          have hr0 : r ≠ 0 := by
            rintro rfl
            rw [if_pos rfl] at hle
            omega
          rw [A.createOther r _ hr0, hx]
        by_cases hsl : e = .slab d
        · subst hsl
          rw [A.slab, hx]; rfl
        · rw [A.other r e _ hc hsl, hx]
      · intro hlt
        simp only [Function.update_apply] at hlt
        show ∃ ord : List ℕ, _ ∧ _ ∧ get (effect outs h r e c.file) = _
        by_cases hc : e = .create d
        · subst hc
          rw [prog_create] at he
          by_cases hr0 : r = 0
          · subst hr0
            refine ⟨[], List.nodup_nil, ?_, ?_⟩
            · intro q
              simp only [List.not_mem_nil, false_iff, not_and, not_lt, Function.update_apply]
              intro hq
              split_ifs with h1
              · omega
              · by_contra hcon
                have := hscan q hq (by omega)
                omega
            · rw [A.create]; rfl
          · rw [if_neg (Ne.symm hr0)] at hlt
            obtain ⟨ord, h1, h2, h3⟩ := hafter hlt
            refine ⟨ord, h1, ?_, ?_⟩
            · intro q
              rw [h2]
              simp only [Function.update_apply]
              split_ifs with h4
              · subst h4; omega
              · rfl
            · rw [A.createOther r _ hr0, h3]
        by_cases hsl : e = .slab d
        · subst hsl
          rw [prog_slab] at he
          have hlt0 : base d + 1 < c.pc 0 := by
            have := hscan r hr (by omega)
            omega
          obtain ⟨ord, h1, h2, h3⟩ := hafter hlt0
          have hnot : r ∉ ord := by
            rw [h2]; omega
          refine ⟨ord ++ [r], ?_, ?_, ?_⟩
          · rw [List.nodup_append]
            refine ⟨h1, List.nodup_singleton r, ?_⟩
            intro a ha b hb
            rw [List.mem_singleton] at hb
            subst hb
            rintro rfl
            exact hnot ha
          · intro q
            rw [List.mem_append, h2, List.mem_singleton]
            simp only [Function.update_apply]
            split_ifs with h4
            · subst h4
              constructor
              · intro _; exact ⟨hr, by omega⟩
              · intro _; exact Or.inr rfl
            · constructor
              · rintro (h5 | h5)
                · exact h5
                · exact absurd h5 h4
              · exact Or.inl
          · rw [A.slab, h3, List.foldlM_append]
            simp only [List.foldlM_cons, List.foldlM_nil]
            cases (ord.foldlM (writeRank true bs) (List.replicate (bs.map fun b => dimsProd b.dims).sum 0)) with
            | none => rfl
            | some y => simp
        · have hlt0 : base d + 1 < c.pc 0 := by
            split_ifs at hlt with h1
            · subst h1
              have : c.pc 0 ≠ base d + 1 := by
                intro h1
                rw [h1, (prog_create d).mpr rfl] at he
                cases he
                exact hc rfl
              omega
            · exact hlt
          obtain ⟨ord, h1, h2, h3⟩ := hafter hlt0
          refine ⟨ord, h1, ?_, ?_⟩
          · intro q
            rw [h2]
            simp only [Function.update_apply]
            split_ifs with h4
            · subst h4
              have : c.pc q ≠ base d + 3 := by
                intro h1
                rw [h1, (prog_slab d).mpr rfl] at he
                cases he
                exact hsl rfl
              constructor <;> rintro ⟨h5, h6⟩ <;> exact ⟨h5, by omega⟩
            · rfl
          · rw [A.other r e _ hc hsl, h3]

theorem access_nodeCoords [Zero α] (outs : List (RankOut α)) (h : RankOut α) :
    Access outs h .nodeCoords (outs.map RankOut.nodeCoords) (fun f => f.nodeCoords.data) := by
  refine ⟨rfl, fun _ => rfl, fun r f hr => by simp only [effect, if_neg hr], fun _ _ => rfl, ?_⟩
  intro r e f h1 h2
  by_cases hr : r = 0
  · subst hr
    cases e with
    | slab d => cases d <;> first | rfl | exact absurd rfl h2
    | create d => cases d <;> first | rfl | exact absurd rfl h1
    | part d p w => cases d <;> cases p <;> rfl
    | attr a w => cases a <;> rfl
    | _ => rfl
  · cases e with
    | slab d => cases d <;> first | rfl | exact absurd rfl h2
    | create d => simp only [effect, if_neg hr]
    | part d p w => simp only [effect, if_neg hr]
    | attr a w => simp only [effect, if_neg hr]
    | counts w => simp only [effect, if_neg hr]
    | _ => rfl

theorem access_l2gNode [Zero α] (outs : List (RankOut α)) (h : RankOut α) :
    Access outs h .l2gNode (outs.map RankOut.l2gNode) (fun f => f.l2gNode.data) := by
  refine ⟨rfl, fun _ => rfl, fun r f hr => by simp only [effect, if_neg hr], fun _ _ => rfl, ?_⟩
  intro r e f h1 h2
  by_cases hr : r = 0
  · subst hr
    cases e with
    | slab d => cases d <;> first | rfl | exact absurd rfl h2
    | create d => cases d <;> first | rfl | exact absurd rfl h1
    | part d p w => cases d <;> cases p <;> rfl
    | attr a w => cases a <;> rfl
    | _ => rfl
  · cases e with
    | slab d => cases d <;> first | rfl | exact absurd rfl h2
    | create d => simp only [effect, if_neg hr]
    | part d p w => simp only [effect, if_neg hr]
    | attr a w => simp only [effect, if_neg hr]
    | counts w => simp only [effect, if_neg hr]
    | _ => rfl

theorem access_elemToNode [Zero α] (outs : List (RankOut α)) (h : RankOut α) :
    Access outs h .elemToNode (outs.map RankOut.elemToNode) (fun f => f.elemToNode.data) := by
  refine ⟨rfl, fun _ => rfl, fun r f hr => by simp only [effect, if_neg hr], fun _ _ => rfl, ?_⟩
  intro r e f h1 h2
  by_cases hr : r = 0
  · subst hr
    cases e with
    | slab d => cases d <;> first | rfl | exact absurd rfl h2
    | create d => cases d <;> first | rfl | exact absurd rfl h1
    | part d p w => cases d <;> cases p <;> rfl
    | attr a w => cases a <;> rfl
    | _ => rfl
  · cases e with
    | slab d => cases d <;> first | rfl | exact absurd rfl h2
    | create d => simp only [effect, if_neg hr]
    | part d p w => simp only [effect, if_neg hr]
    | attr a w => simp only [effect, if_neg hr]
    | counts w => simp only [effect, if_neg hr]
    | _ => rfl

theorem access_l2gElem [Zero α] (outs : List (RankOut α)) (h : RankOut α) :
    Access outs h .l2gElem (outs.map RankOut.l2gElem) (fun f => f.l2gElem.data) := by
  refine ⟨rfl, fun _ => rfl, fun r f hr => by simp only [effect, if_neg hr], fun _ _ => rfl, ?_⟩
  intro r e f h1 h2
  by_cases hr : r = 0
  · subst hr
    cases e with
    | slab d => cases d <;> first | rfl | exact absurd rfl h2
    | create d => cases d <;> first | rfl | exact absurd rfl h1
    | part d p w => cases d <;> cases p <;> rfl
    | attr a w => cases a <;> rfl
    | _ => rfl
  · cases e with
    | slab d => cases d <;> first | rfl | exact absurd rfl h2
    | create d => simp only [effect, if_neg hr]
    | part d p w => simp only [effect, if_neg hr]
    | attr a w => simp only [effect, if_neg hr]
    | counts w => simp only [effect, if_neg hr]
    | _ => rfl

theorem access_uc [Zero α] (outs : List (RankOut α)) (h : RankOut α) :
    Access outs h .uc (outs.map RankOut.uc) (fun f => f.uc.data) := by
  refine ⟨rfl, fun _ => rfl, fun r f hr => by simp only [effect, if_neg hr], fun _ _ => rfl, ?_⟩
  intro r e f h1 h2
  by_cases hr : r = 0
  · subst hr
    cases e with
    | slab d => cases d <;> first | rfl | exact absurd rfl h2
    | create d => cases d <;> first | rfl | exact absurd rfl h1
    | part d p w => cases d <;> cases p <;> rfl
    | attr a w => cases a <;> rfl
    | _ => rfl
  · cases e with
    | slab d => cases d <;> first | rfl | exact absurd rfl h2
    | create d => simp only [effect, if_neg hr]
    | part d p w => simp only [effect, if_neg hr]
    | attr a w => simp only [effect, if_neg hr]
    | counts w => simp only [effect, if_neg hr]
    | _ => rfl

end DG.Cut
