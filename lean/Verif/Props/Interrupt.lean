import Verif.Lemmas.InterruptRead
import Mathlib.Data.Finset.Max
import Mathlib.Algebra.Order.BigOperators.Group.Finset

/-!
C89: writing a solution file can be interrupted at any point; what a restart makes of the file.
-/
namespace DG.Cut

variable {T : Type} {α : Type} {outs : List (RankOut α)} {h : RankOut α}

/-- C89: the ranks cannot block each other while they write: as long as one of them has calls to make, one of them can make its
next call. -/
theorem C89_progress [Zero α] {c : Conf α} (hc : Reachable outs h c) (hf : ¬ Finished outs.length c) : ∃ c', Step outs h c c' := by
  have hex : ∃ r, r < outs.length ∧ c.pc r ≠ prog.length := by
    by_contra hcon
    exact hf fun r hr => by
      by_contra h1
      exact hcon ⟨r, hr, h1⟩
  obtain ⟨r0, hr0, h0⟩ := hex
  -- the rank that is farthest behind
  obtain ⟨r, hr, hmin⟩ := Finset.exists_min_image (Finset.range outs.length) c.pc ⟨r0, Finset.mem_range.mpr hr0⟩
  have hr' := Finset.mem_range.mp hr
  have hle : ∀ q < outs.length, c.pc r ≤ c.pc q := fun q hq => hmin q (Finset.mem_range.mpr hq)
  have hlt : c.pc r < prog.length := by
    have h1 := hle r0 hr0
    have h2 := inv_pc hc r0
    omega
  refine ⟨_, Step.mk c r prog[c.pc r] hr' (List.getElem?_eq_getElem hlt) ?_⟩
  unfold May
  split
  · exact hle
  · exact fun q hq => hle q (by omega)
  · exact fun _ => hle
  · trivial

/-- C89: writing ends: there is no infinite run. -/
theorem C89_terminates [Zero α] (f : ℕ → Conf α) (h0 : f 0 = ⟨fun _ => 0, .empty⟩) : ¬ ∀ k, Step outs h (f k) (f (k + 1)) := by
  intro hs
  have hreach : ∀ k, Reachable outs h (f k) := by
    intro k
    induction k with
    | zero => rw [h0]; exact Relation.ReflTransGen.refl
    | succ k ih => exact ih.tail (hs k)
  have hsum : ∀ k, ∑ r ∈ Finset.range outs.length, (f k).pc r = k := by
    intro k
    induction k with
    | zero => simp [h0]
    | succ k ih =>
      have h1 := hs k
      generalize f (k + 1) = c' at h1
      generalize f k = c at h1 ih
      cases h1 with
      | mk r e hr he hm =>
        show ∑ q ∈ Finset.range outs.length, Function.update c.pc r (c.pc r + 1) q = k + 1
        have hmem := Finset.mem_range.mpr hr
        rw [← Finset.add_sum_erase _ _ hmem] at ih ⊢
        rw [Function.update_self, Finset.sum_congr rfl (g := fun q => c.pc q) (fun q hq => Function.update_of_ne (Finset.ne_of_mem_erase hq) _ _)]
        omega
  have hb : ∀ k, k ≤ outs.length * prog.length := by
    intro k
    calc k = ∑ r ∈ Finset.range outs.length, (f k).pc r := (hsum k).symm
      _ ≤ ∑ _r ∈ Finset.range outs.length, prog.length := Finset.sum_le_sum fun r _ => inv_pc (hreach k) r
      _ = outs.length * prog.length := by simp
  have := hb (outs.length * prog.length + 1)
  omega

/-- C89: whatever the interleaving of the ranks, when all of them are done - in fact as soon as the head rank is done - the file
is complete, and it is the file of the collective write in every order of the ranks' blocks. -/
theorem C89_schedules [Zero α] (A : Arguments outs h) {c : Conf α} (hc : Reachable outs h c) (hp : c.pc 0 = prog.length)
    (ord : ℕ → List ℕ) (hord : ∀ i, (ord i).Perm (List.range outs.length)) :
    ∃ g, writeFile true outs ord = some g ∧ c.file = ofSolFile g :=
  ⟨_, writeFile_eq outs h A.head A.ok ord hord, file_complete A hc hp⟩

theorem lost_some {β : Type} {x y : Option β} (hl : LostItem x y) {v : β} (hx : x = some v) : y = some v := by
  rcases hl with h1 | h1
  · rw [hx] at h1; simp at h1
  · rw [← h1, hx]

theorem lost_whole {x y : PDset T} (hl : LostDset x y) {v : ParDset T} (hx : x.whole = some v) : y.whole = some v := by
  simp only [PDset.whole, Option.bind_eq_bind, Option.bind_eq_some_iff] at hx
  obtain ⟨d, h1, o, h2, nd, h3, nr, h4, ts, h5, di, h6, h7⟩ := hx
  simp only [PDset.whole, lost_some hl.data h1, lost_some hl.offsets h2, lost_some hl.nDims h3, lost_some hl.nRanks h4,
    lost_some hl.totalSize h5, lost_some hl.dims h6, Option.bind_eq_bind, Option.bind_some, h7]

/-- what a restart from an incomplete file gives it also gives from the file before anything was lost -/
theorem lost_restart {x y : PFile α} (hl : Lost x y) {n r : ℕ} {s s' : SolverState α} (hx : restart n x r s = some s') :
    restart n y r s = some s' := by
  simp only [restart, Option.bind_eq_bind, Option.bind_eq_some_iff] at hx
  obtain ⟨co, h1, nb, h2, ns, h3, t, h4, la, h5, uc, h6, h7⟩ := hx
  simp only [restart, lost_some hl.elemsPerPart h1, lost_some hl.nb h2, lost_some hl.ns h3, lost_some hl.time h4,
    lost_some hl.layoutAttr h5, lost_whole hl.uc h6, Option.bind_eq_bind, Option.bind_some, h7]

theorem restart_complete (g : SolFile α) (n r : ℕ) (s : SolverState α) : restart n (ofSolFile g) r s = readInCoefficients n g r s := rfl

/-- C89: a restart refuses every file whose writing was stopped before the head rank's last two calls, on every rank, whichever
parts of the file were lost besides. -/
theorem C89_refused [Zero α] {c : Conf α} (hc : Reachable outs h c) (hp : c.pc 0 + 2 ≤ prog.length) {f : PFile α}
    (hl : Lost f c.file) (n r : ℕ) (s : SolverState α) : restart n f r s = none := by
  rw [prog_length] at hp
  by_contra hne
  obtain ⟨s', hs⟩ := Option.ne_none_iff_exists'.mp hne
  have hs' := lost_restart hl hs
  have hd : c.file.uc.dims = none := by
    have h1 := congrArg (fun f => f.uc.dims) (inv_erase hc)
    have h2 := dims_none outs h (m := c.pc 0) (by omega)
    exact h1.trans h2
  have hw : c.file.uc.whole = none := by
    simp only [PDset.whole, hd, Option.bind_eq_bind, Option.bind_none]
    cases c.file.uc.data <;> cases c.file.uc.offsets <;> cases c.file.uc.nDims <;> cases c.file.uc.nRanks <;>
      cases c.file.uc.totalSize <;> rfl
  simp only [restart, hw, Option.bind_eq_bind, Option.bind_none] at hs'
  revert hs'
  cases c.file.elemsPerPart <;> cases c.file.nb <;> cases c.file.ns <;> cases c.file.time <;> cases c.file.layoutAttr <;> simp

theorem scatter_zeros (nd n r : ℕ) (hr : r < n) : mpiScatter nd (List.replicate (nd * n) 0) r = some (List.replicate nd 0) := by
  have h1 : r * nd + nd ≤ nd * n := by
    calc r * nd + nd = nd * (r + 1) := by ring
      _ ≤ nd * n := Nat.mul_le_mul_left _ hr
  simp only [mpiScatter, readSlab, List.length_replicate, if_pos h1, List.drop_replicate, List.take_replicate]
  congr 2
  omega

/-- the file between the last two calls of the head rank -/
theorem gap_file [Zero α] (A : Arguments outs h) {c : Conf α} (hc : Reachable outs h c) (hp : c.pc 0 = 100) :
    c.file.elemsPerPart = some (outs.map RankOut.numElemsPart) ∧ c.file.nb = some h.nb ∧ c.file.ns = some h.ns ∧
    c.file.time = some h.time ∧ c.file.layoutAttr = some (boolToAttr h.layoutRight) ∧
    c.file.uc.whole = some { parDsetOf 3 (outs.map RankOut.uc) with dims := List.replicate (3 * outs.length) 0 } := by
  have he := inv_erase hc
  rw [hp, headRun_100] at he
  have d5 := data_complete (access_uc outs h) (by omega) A.ne A.uc hc (by rw [hp]; decide)
  have hh : headDims (outs.map RankOut.uc) = 3 := headDims_eq (by omega) (by simpa using A.ne) (by
    intro b hb
    obtain ⟨o, ho, rfl⟩ := List.mem_map.mp hb
    exact A.uc o ho)
  unfold smallFile at he
  rw [small_outs (by omega) A.ne A.uc, gatherScalar_eq, hh, List.length_map] at he
  rcases hf : c.file with ⟨a1, a2, a3, a4, a5, a6, a7, a8, a9, a10, f1, f2, f3, f4, ⟨k1, k2, k3, k4, k5, k6⟩⟩
  rw [hf] at he d5
  simp only [erase, PFile.mk.injEq, eraseD, ofParDset, PDset.mk.injEq] at he
  obtain ⟨b1, b2, b3, b4, b5, b6, b7, b8, b9, b10, g1, g2, g3, g4, -, g6, g7, g8, g9, g10⟩ := he
  simp only at d5
  refine ⟨b9, b6, b7, b8, b10, ?_⟩
  simp only [PDset.whole, d5, g6, g7, g8, g9, g10, Option.bind_eq_bind, Option.bind_some]
  rfl

/-- the restart between the last two calls of the head rank -/
theorem gap_restart [Zero α] (A : Arguments outs h) {c : Conf α} (hc : Reachable outs h c) (hp : c.pc 0 = 100) {r : ℕ}
    (hr : r < outs.length) (s : SolverState α) : ∃ s', restart outs.length c.file r s = some s' ∧
      s'.ne = (outs[r]).numElemsPart ∧ s'.nb = h.nb ∧ s'.ns = h.ns ∧ ∀ i j k, s'.uc i j k = none := by
  obtain ⟨h1, h2, h3, h4, h5, h6⟩ := gap_file A hc hp
  set p : ParDset α := { parDsetOf 3 (outs.map RankOut.uc) with dims := List.replicate (3 * outs.length) 0 } with hpd
  have hl : (outs.map RankOut.uc).length = outs.length := List.length_map _
  have e1 : readDims true outs.length p r = some [0, 0, 0] := by
    have : p.nRanks = outs.length := hl
    simp only [readDims, this, if_true]
    exact scatter_zeros 3 outs.length r hr
  have e2 : ∃ o, readOffset true p r = some o ∧ o ≤ p.data.length := by
    refine ⟨blockStart ((outs.map RankOut.uc).map Block.data) r, ?_, ?_⟩
    · simp only [readOffset, if_true]
      have : p.offsets = (List.range (outs.map RankOut.uc).length).map (blockStart ((outs.map RankOut.uc).map Block.data)) := rfl
      rw [this, mpiScatter_one _ r (by simpa using hr)]
      simp
    · have : p.data = ((outs.map RankOut.uc).map Block.data).flatten := rfl
      rw [this, flatten_split ((outs.map RankOut.uc).map Block.data) r (by simpa using hr)]
      simp [blockStart, List.length_flatten]
  obtain ⟨o, e2, e3⟩ := e2
  have e4 : p.totalSize = p.data.length := rfl
  have e5 : readParallel true outs.length p r = some ⟨[0, 0, 0], []⟩ := by
    simp only [readParallel, e1, e2, Option.bind_eq_bind, Option.bind_some, dimsProd_three, Nat.mul_zero, Nat.add_zero, e4, if_pos e3,
      readSlab, List.take_zero]
  have e6 : scatterScalar true (outs.map RankOut.numElemsPart) r = some (outs[r]).numElemsPart := by
    rw [scatterScalar_eq _ r (by simpa using hr)]
    simp
  simp only [restart, h1, h2, h3, h4, h5, h6, readInCoefficients, e5, e6, Option.bind_eq_bind, Option.bind_some]
  refine ⟨_, rfl, rfl, rfl, rfl, ?_⟩
  intro i j k
  simp

/-- C89: a restart from an interrupted file, if it gets through on a rank, gives exactly what the complete file would have given -
with one exception: if the program was stopped between the last two calls of the head rank, every coefficient is read from
outside of an empty array. -/
theorem C89_no_mixture [Zero α] (A : Arguments outs h) {c : Conf α} (hc : Reachable outs h c) {f : PFile α} (hl : Lost f c.file)
    (ord : ℕ → List ℕ) (hord : ∀ i, (ord i).Perm (List.range outs.length)) {r : ℕ} (hr : r < outs.length) {s s' : SolverState α}
    (hs : restart outs.length f r s = some s') :
    (∃ g, writeFile true outs ord = some g ∧ readInCoefficients outs.length g r s = some s') ∨
    (c.pc 0 + 1 = prog.length ∧ ∀ i j k, s'.uc i j k = none) := by
  have hpc := inv_pc hc 0
  by_cases h1 : c.pc 0 + 2 ≤ prog.length
  · rw [C89_refused hc h1 hl] at hs
    simp at hs
  have hs' := lost_restart hl hs
  by_cases h2 : c.pc 0 = prog.length
  · obtain ⟨g, hg, hcg⟩ := C89_schedules A hc h2 ord hord
    refine Or.inl ⟨g, hg, ?_⟩
    rw [hcg, restart_complete] at hs'
    exact hs'
  · rw [prog_length] at h1 h2 hpc
    have h3 : c.pc 0 = 100 := by omega
    obtain ⟨s1, hs1, -, -, -, hu⟩ := gap_restart A hc h3 hr s
    rw [hs1, Option.some.injEq] at hs'
    subst hs'
    exact Or.inr ⟨by rw [h3, prog_length], hu⟩

/-- all ranks in step -/
theorem lockstep [Zero α] (hn : outs ≠ []) {m : ℕ} (hm : m ≤ prog.length) :
    ∃ c, Reachable outs h c ∧ ∀ r < outs.length, c.pc r = m := by
  induction m with
  | zero => exact ⟨_, Relation.ReflTransGen.refl, fun _ _ => rfl⟩
  | succ m ih =>
    obtain ⟨c, hc, hp⟩ := ih (by omega)
    have hlt : m < prog.length := by omega
    -- the first `k` ranks have made the next call
    have key : ∀ k ≤ outs.length, ∃ c', Reachable outs h c' ∧ (∀ r < k, c'.pc r = m + 1) ∧ ∀ r < outs.length, k ≤ r → c'.pc r = m := by
      intro k
      induction k with
      | zero => exact fun _ => ⟨c, hc, by simp, fun r hr _ => hp r hr⟩
      | succ k ihk =>
        intro hk
        obtain ⟨c', h1, h2, h3⟩ := ihk (by omega)
        have hpk : c'.pc k = m := h3 k (by omega) le_rfl
        have hle : ∀ q < outs.length, c'.pc k ≤ c'.pc q := by
          intro q hq
          rw [hpk]
          rcases Nat.lt_or_ge q k with h4 | h4
          · rw [h2 q h4]; omega
          · rw [h3 q hq h4]
        refine ⟨_, h1.tail (Step.mk c' k prog[m] (by omega) (by rw [hpk]; exact List.getElem?_eq_getElem hlt) ?_), ?_, ?_⟩
        · unfold May
          split
          · exact hle
          · exact fun q hq => hle q (by omega)
          · exact fun _ => hle
          · trivial
        · intro r hr
          show Function.update c'.pc k (c'.pc k + 1) r = m + 1
          rw [Function.update_apply]
          split_ifs with h4
          · rw [hpk]
          · exact h2 r (by omega)
        · intro r hr hkr
          show Function.update c'.pc k (c'.pc k + 1) r = m
          rw [Function.update_of_ne (by omega)]
          exact h3 r hr (by omega)
    obtain ⟨c', h1, h2, -⟩ := key outs.length le_rfl
    exact ⟨c', h1, h2⟩

/-- C89: the exception happens: for every writing there is a point at which, if the program is stopped there, the restart gets through
on every rank, with the right numbers of elements, basis functions and variables, and reads every coefficient from outside of
an empty array. -/
theorem C89_gap [Zero α] (A : Arguments outs h) : ∃ c, Reachable outs h c ∧ ∀ r, (hr : r < outs.length) → ∀ s,
    ∃ s', restart outs.length c.file r s = some s' ∧ s'.ne = (outs[r]).numElemsPart ∧ s'.nb = h.nb ∧ s'.ns = h.ns ∧
      ∀ i j k, s'.uc i j k = none := by
  obtain ⟨c, hc, hp⟩ := lockstep (outs := outs) (h := h) A.ne (m := 100) (by decide)
  have h0 : c.pc 0 = 100 := hp 0 (List.length_pos_of_ne_nil A.ne)
  exact ⟨c, hc, fun r hr s => gap_restart A hc h0 hr s⟩

/-- C89: writing can be completed. -/
theorem C89_completes [Zero α] (A : Arguments outs h) : ∃ c, Reachable outs h c ∧ Finished outs.length c := by
  obtain ⟨c, hc, hp⟩ := lockstep (outs := outs) (h := h) A.ne (m := prog.length) le_rfl
  exact ⟨c, hc, hp⟩

/-- two ranks, one element each, one basis function, two variables -/
def sampleOut (u v : ℤ) : RankOut ℤ :=
  ⟨2, 2, 2, 6, 4, 1, 2, 7, 1, true, ⟨[2, 2], [0, 0, 1, 1]⟩, ⟨[2], [0, 1]⟩, ⟨[1, 4], [0, 1, 2, 3]⟩, ⟨[1], [0]⟩, ⟨[1, 1, 2], [u, v]⟩⟩

example : Arguments [sampleOut 1 2, sampleOut 3 4] (sampleOut 1 2) := by
  refine ⟨rfl, ?_, ?_, ?_, ?_, ?_⟩ <;> intro o ho <;> simp only [List.mem_cons, List.not_mem_nil, or_false] at ho <;>
    rcases ho with rfl | rfl <;> exact ⟨rfl, rfl⟩

end DG.Cut
