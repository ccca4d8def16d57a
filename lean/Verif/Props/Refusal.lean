import Verif.Lemmas.Refusal
import Verif.Props.Interrupt
import Verif.Lemmas.RefusalFile
import Verif.Lemmas.RefusalEnd

/-!
C90: how reading ends on all ranks when a file lacks something.
-/
namespace DG.Cut

variable {α : Type} {sync : Bool} {n : ℕ}

theorem firstBad_append {A B : List Rd} {e : Rd} (hA : ∀ x ∈ A, x.ok = true) (he : e.ok = false) : FirstBad (A ++ e :: B) A.length e := by
  refine ⟨by simp, he, ?_⟩
  intro i hi x hx
  rw [List.getElem?_append_left hi] at hx
  exact hA x (List.mem_of_getElem? hx)

theorem exit_list {A B : List Rd} (hA : ∀ x ∈ A, x.ok = true) : AllExit sync n (A ++ .all false :: B) :=
  exit_of_all (firstBad_append hA rfl)

theorem hang_list (hn : 0 < n) {A B : List Rd} (hA : ∀ x ∈ A, x.ok = true) : Hangs sync n (A ++ .head false :: .fromHead :: B) :=
  hang_of_head (j := A.length + 1) (firstBad_append hA rfl) (by omega) (by simp) (fun i h1 h2 => by omega) hn

theorem hang_list' (hn : 0 < n) {A B : List Rd} (hA : ∀ x ∈ A, x.ok = true) (b : Bool) :
    Hangs sync n (A ++ .head false :: .head b :: .fromHead :: B) :=
  hang_of_head (j := A.length + 2) (firstBad_append hA rfl) (by omega) (by simp) (fun i h1 h2 => by
    have : i = A.length + 1 := by omega
    subst this
    exact ⟨b, by simp⟩) hn

/-- C90: reading ends in any case: no run is infinite. -/
theorem C90_ends (P : List Rd) (f : ℕ → Ranks) (h0 : f 0 = ⟨fun _ => 0, fun _ => false⟩) : ¬ ∀ k, RStep sync n P (f k) (f (k + 1)) :=
  no_infinite f h0

/-- C90: every run can be continued to a point where nothing more happens, and what becomes of the ranks then does not depend on the run:
of the three ways to end no two are possible for one sequence of calls. -/
theorem C90_one_outcome (P : List Rd) : (∀ c, RReach sync n P c → ∃ c', Relation.ReflTransGen (RStep sync n P) c c' ∧ Stuck sync n P c') ∧
    (0 < n → ¬ (AllFinish sync n P ∧ AllExit sync n P) ∧ ¬ (AllFinish sync n P ∧ Hangs sync n P)) ∧
    (1 < n → ¬ (AllExit sync n P ∧ Hangs sync n P)) :=
  ⟨fun _ hc => exists_end hc, fun hn => ⟨not_finish_exit hn, not_finish_hang hn⟩, not_exit_hang⟩

/-- C90: if every call finds what it asks for, all ranks get to the end, however their calls are interleaved and whether or not the MPI
library synchronises. -/
theorem C90_finish {P : List Rd} (hP : ∀ e ∈ P, e.ok = true) : AllFinish sync n P := finish_of_ok hP

/-- the same for a restart: everything it asks for is there, and the number of ranks is the right one -/
theorem C90_restart_finishes {f : PFile α} {counts : List ℕ} {nb ns : ℕ} {time : α} {layout : ℤ} {uc : ParDset α}
    (h1 : f.elemsPerPart = some counts) (h2 : f.nb = some nb) (h3 : f.ns = some ns) (h4 : f.time = some time)
    (h5 : f.layoutAttr = some layout) (h6 : f.uc.whole = some uc) (h7 : uc.nRanks = n) : AllFinish sync n (restartCalls true n f) := by
  simp only [PDset.whole, Option.bind_eq_bind, Option.bind_eq_some_iff, Option.some.injEq] at h6
  obtain ⟨d, e1, o, e2, nd, e3, nr, e4, ts, e5, di, e6, rfl⟩ := h6
  simp only at h7
  subst h7
  refine finish_of_ok ?_
  simp [restartCalls, parCalls, dimsCalls, totalCalls, h1, h2, h3, h4, h5, e1, e2, e3, e4, e5, e6, Rd.ok]

/-- C90: a restart that gets through on some rank gets through on all of them. -/
theorem C90_restart_all_or_none {f : PFile α} {r : ℕ} {s s' : SolverState α} (hs : restart n f r s = some s') :
    AllFinish sync n (restartCalls true n f) := by
  simp only [restart, Option.bind_eq_bind, Option.bind_eq_some_iff] at hs
  obtain ⟨co, h1, nb, h2, ns, h3, t, h4, la, h5, uc, h6, h7⟩ := hs
  refine C90_restart_finishes h1 h2 h3 h4 h5 h6 ?_
  simp only [readInCoefficients, Option.bind_eq_bind, Option.bind_eq_some_iff] at h7
  obtain ⟨ne, -, b, h8, -⟩ := h7
  simp only [readParallel, Option.bind_eq_bind, Option.bind_eq_some_iff] at h8
  obtain ⟨dims, h9, -⟩ := h8
  by_contra hne
  simp [readDims, hne] at h9

/-- C90: a restart from a file that does not exist ends on all ranks. -/
theorem C90_restart_no_file (f : PFile α) : AllExit sync n (restartCalls false n f) := exit_list (A := []) (by simp)

/-- C90: a restart with a wrong number of ranks ends on all ranks. -/
theorem C90_restart_wrong_ranks {f : PFile α} {m : ℕ} (h1 : f.elemsPerPart.isSome) (h2 : f.nb.isSome) (h3 : f.ns.isSome)
    (h4 : f.time.isSome) (h5 : f.layoutAttr.isSome) (h6 : f.uc.offsets.isSome) (h7 : f.uc.nDims.isSome) (h8 : f.uc.nRanks = some m)
    (hm : m ≠ n) : AllExit sync n (restartCalls true n f) := by
  have : restartCalls true n f = [.all true, .head true, .fromHead, .head true, .fromHead, .head true, .fromHead, .head true, .fromHead,
      .head true, .fromHead, .all true, .head true, .fromHead, .head true, .fromHead] ++ .all false ::
      ([.head f.uc.dims.isSome, .fromHead] ++ parCalls n f.uc) := by
    simp [restartCalls, dimsCalls, h1, h2, h3, h4, h5, h6, h7, h8, hm]
  rw [this]
  exact exit_list (by simp [Rd.ok])

/-- C90: a restart from a file without the numbers of elements: the head rank ends, all other ranks wait for it for ever. -/
theorem C90_restart_no_counts (hn : 0 < n) {f : PFile α} (h1 : f.elemsPerPart = none) : Hangs sync n (restartCalls true n f) := by
  have : restartCalls true n f = [.all true] ++ .head false :: .fromHead :: ([.head f.nb.isSome, .fromHead, .head f.ns.isSome, .fromHead,
    .head f.time.isSome, .fromHead, .head f.layoutAttr.isSome, .fromHead] ++ dimsCalls n f.uc ++ parCalls n f.uc) := by
    simp [restartCalls, h1]
  rw [this]
  exact hang_list hn (by simp [Rd.ok])

/-- C90: the converter run with a wrong number of ranks: the head rank prints a message and ends, all other ranks wait for it for ever. -/
theorem C90_convert_wrong_ranks (hn : 0 < n) {f : PFile α} {m : ℕ} (h1 : f.numRanks = some m) (hm : m ≠ n) :
    Hangs sync n (readerCalls true n f) := by
  have : ∃ B, readerCalls true n f = [.all true, .head true, .fromHead] ++ .head false :: .head f.dim.isSome :: .fromHead :: B := by
    refine ⟨(readerCalls true n f).drop 6, ?_⟩
    simp only [readerCalls, h1, Option.isSome_some, List.cons_append, List.nil_append, Option.some.injEq, hm, decide_false,
      List.drop_succ_cons, List.drop_zero]
  obtain ⟨B, hB⟩ := this
  rw [hB]
  exact hang_list' hn (by simp [Rd.ok]) _

/-- C90: reading a mesh: a missing file ends the program on all ranks; with all datasets there all ranks get to the end; if one is missing
the head rank ends, all other ranks wait for it for ever. -/
theorem C90_read_mesh (hn : 0 < n) (there : List Bool) : AllExit sync n (meshCalls false there) ∧
    ((∀ b ∈ there, b = true) → AllFinish sync n (meshCalls true there)) ∧
    ((∃ b ∈ there, b = false) → Hangs sync n (meshCalls true there)) := by
  refine ⟨exit_list (A := []) (by simp), ?_, ?_⟩
  · intro h
    refine finish_of_ok ?_
    intro e he
    simp only [meshCalls, List.mem_cons, List.mem_flatten, List.mem_map] at he
    rcases he with rfl | ⟨l, ⟨b, hb, rfl⟩, he⟩
    · rfl
    · simp only [List.mem_cons, List.not_mem_nil, or_false] at he
      rcases he with rfl | rfl
      · exact h b hb
      · rfl
  · rintro ⟨b, hb, rfl⟩
    have hsplit : ∃ A B, there = A ++ false :: B ∧ ∀ x ∈ A, x = true := by
      clear hn
      induction there with
      | nil => simp at hb
      | cons a l ih =>
        cases a with
        | false => exact ⟨[], l, rfl, by simp⟩
        | true =>
          obtain ⟨A, B, h1, h2⟩ := ih (by simpa using hb)
          exact ⟨true :: A, B, by rw [h1]; rfl, by simpa using h2⟩
    obtain ⟨A, B, rfl, hA⟩ := hsplit
    have : meshCalls true (A ++ false :: B) = (.all true :: (A.map fun b => [.head b, .fromHead]).flatten) ++ .head false :: .fromHead ::
        (B.map fun b => [.head b, .fromHead]).flatten := by simp [meshCalls]
    rw [this]
    refine hang_list hn ?_
    intro e he
    simp only [List.mem_cons, List.mem_flatten, List.mem_map] at he
    rcases he with rfl | ⟨l, ⟨b, hb, rfl⟩, he⟩
    · rfl
    · simp only [List.mem_cons, List.not_mem_nil, or_false] at he
      rcases he with rfl | rfl
      · exact hA b hb
      · rfl

/-- C90: a restart with as many ranks from a file whose writing was interrupted, by how far the head rank had come with its calls: either
all ranks end, or the head rank ends and the others wait for ever, or all get through. -/
theorem C90_interrupted [Zero α] {outs : List (RankOut α)} {h : RankOut α} (A : Arguments outs h) {c : Conf α} (hc : Reachable outs h c) :
    (c.pc 0 ≤ 19 ∨ (91 ≤ c.pc 0 ∧ c.pc 0 ≤ 94) ∨ (96 ≤ c.pc 0 ∧ c.pc 0 ≤ 99) →
      Hangs sync outs.length (restartCalls true outs.length c.file)) ∧
    ((20 ≤ c.pc 0 ∧ c.pc 0 ≤ 90) ∨ c.pc 0 = 95 → AllExit sync outs.length (restartCalls true outs.length c.file)) ∧
    (100 ≤ c.pc 0 → AllFinish sync outs.length (restartCalls true outs.length c.file)) := by
  have hn : 0 < outs.length := List.length_pos_of_ne_nil A.ne
  have he := inv_erase hc
  have e1 : c.file.elemsPerPart = (headRun outs h (c.pc 0)).elemsPerPart := congrArg (fun f => f.elemsPerPart) he
  have e2 : c.file.nb = (headRun outs h (c.pc 0)).nb := congrArg (fun f => f.nb) he
  have e3 : c.file.ns = (headRun outs h (c.pc 0)).ns := congrArg (fun f => f.ns) he
  have e4 : c.file.time = (headRun outs h (c.pc 0)).time := congrArg (fun f => f.time) he
  have e5 : c.file.layoutAttr = (headRun outs h (c.pc 0)).layoutAttr := congrArg (fun f => f.layoutAttr) he
  have e6 : c.file.uc.offsets = (headRun outs h (c.pc 0)).uc.offsets := congrArg (fun f => f.uc.offsets) he
  have e7 : c.file.uc.nDims = (headRun outs h (c.pc 0)).uc.nDims := congrArg (fun f => f.uc.nDims) he
  have e8 : c.file.uc.nRanks = (headRun outs h (c.pc 0)).uc.nRanks := congrArg (fun f => f.uc.nRanks) he
  have e9 : c.file.uc.dims = (headRun outs h (c.pc 0)).uc.dims := congrArg (fun f => f.uc.dims) he
  generalize hm : c.pc 0 = m at *
  have hdr := @header α _ outs h m
  rw [← e1, ← e2, ← e3, ← e4, ← e5, ← e6, ← e7, ← e8, ← e9] at hdr
  refine ⟨?_, ?_, ?_⟩
  · intro hcase
    by_cases h17 : m ≤ 17
    · exact C90_restart_no_counts hn (e1.trans (early outs h h17))
    obtain ⟨d1, d2, d3, d4, d5, d6, d7, d8, d9⟩ := hdr (by omega) (by omega)
    rcases hcase with hx | ⟨hx, hy⟩ | ⟨hx, hy⟩
    · have : restartCalls true outs.length c.file = [.all true, .head true, .fromHead, .head true, .fromHead, .head true, .fromHead,
          .head true, .fromHead] ++ .head false :: .fromHead :: (dimsCalls outs.length c.file.uc ++ parCalls outs.length c.file.uc) := by
        rw [decide_eq_false (by omega)] at d5
        simp [restartCalls, d1, d2, d3, d4, d5]
      rw [this]
      exact hang_list hn (by simp [Rd.ok])
    · rw [decide_eq_true (by omega)] at d5 d6
      by_cases h92 : m ≤ 92
      · rw [decide_eq_false (by omega)] at d7
        have : ∃ B, restartCalls true outs.length c.file = [.all true, .head true, .fromHead, .head true, .fromHead, .head true, .fromHead,
            .head true, .fromHead, .head true, .fromHead, .all true] ++ .head false :: .fromHead :: B :=
          ⟨(restartCalls true outs.length c.file).drop 14, by simp only [restartCalls, dimsCalls, d1, d2, d3, d4, d5, d6, d7, List.cons_append, List.nil_append,
          List.drop_succ_cons, List.drop_zero]⟩
        obtain ⟨B, hB⟩ := this
        rw [hB]
        exact hang_list hn (by simp [Rd.ok])
      · rw [decide_eq_true (by omega)] at d7
        rw [if_pos (by omega)] at d8
        have : ∃ B, restartCalls true outs.length c.file = [.all true, .head true, .fromHead, .head true, .fromHead, .head true, .fromHead,
            .head true, .fromHead, .head true, .fromHead, .all true, .head true, .fromHead] ++ .head false :: .fromHead :: B :=
          ⟨(restartCalls true outs.length c.file).drop 16, by simp only [restartCalls, dimsCalls, d1, d2, d3, d4, d5, d6, d7, d8, Option.isSome_none, List.cons_append, List.nil_append,
          List.drop_succ_cons, List.drop_zero]⟩
        obtain ⟨B, hB⟩ := this
        rw [hB]
        exact hang_list hn (by simp [Rd.ok])
    · rw [decide_eq_true (by omega)] at d5 d6 d7
      rw [if_neg (by omega), if_neg (by omega)] at d8
      have : ∃ B, restartCalls true outs.length c.file = [.all true, .head true, .fromHead, .head true, .fromHead, .head true, .fromHead,
          .head true, .fromHead, .head true, .fromHead, .all true, .head true, .fromHead, .head true, .fromHead, .all true] ++
          .head false :: .fromHead :: B :=
        ⟨(restartCalls true outs.length c.file).drop 19, by simp only [restartCalls, dimsCalls, d1, d2, d3, d4, d5, d6, d7, d8, d9, Option.isSome_none, Option.isSome_some, decide_true,
          List.cons_append, List.nil_append,
          List.drop_succ_cons, List.drop_zero]⟩
      obtain ⟨B, hB⟩ := this
      rw [hB]
      exact hang_list hn (by simp [Rd.ok])
  · intro hcase
    obtain ⟨d1, d2, d3, d4, d5, d6, d7, d8, d9⟩ := hdr (by omega) (by omega)
    rw [decide_eq_true (by omega)] at d5
    rcases hcase with ⟨hx, hy⟩ | hx
    · rw [decide_eq_false (by omega)] at d6
      have : ∃ B, restartCalls true outs.length c.file = [.all true, .head true, .fromHead, .head true, .fromHead, .head true, .fromHead,
          .head true, .fromHead, .head true, .fromHead] ++ .all false :: B :=
        ⟨(restartCalls true outs.length c.file).drop 12, by simp only [restartCalls, dimsCalls, d1, d2, d3, d4, d5, d6, List.cons_append, List.nil_append,
          List.drop_succ_cons, List.drop_zero]⟩
      obtain ⟨B, hB⟩ := this
      rw [hB]
      exact exit_list (by simp [Rd.ok])
    · subst hx
      exact C90_restart_wrong_ranks (m := 0) d1 d2 d3 d4 d5 (by simpa using d6) (by simpa using d7) (by simpa using d8) (by omega)
  · intro hx
    have hpc := inv_pc hc 0
    rw [hm, prog_length] at hpc
    have hcase : m = 100 ∨ m = 101 := by omega
    rcases hcase with rfl | rfl
    · obtain ⟨s', hs, -⟩ := gap_restart A hc hm hn (s := ⟨h.time, 0, 0, 0, fun _ _ _ => none⟩)
      exact C90_restart_all_or_none hs
    · have hf := file_complete A hc hm
      rw [hf]
      exact C90_restart_finishes rfl rfl rfl rfl rfl rfl (by simp [fileOf, parDsetOf])

/-- C90: what a restart needs: all ranks get through exactly if the file exists, holds the numbers of elements, the numbers of basis functions
and states, the time and the layout, and its coefficients are there with all their parts, written by as many ranks. -/
theorem C90_restart_needs (hn : 0 < n) (found : Bool) (f : PFile α) : AllFinish sync n (restartCalls found n f) ↔
    found = true ∧ f.elemsPerPart.isSome ∧ f.nb.isSome ∧ f.ns.isSome ∧ f.time.isSome ∧ f.layoutAttr.isSome ∧ There n f.uc := by
  rw [finish_iff hn]
  simp only [restartCalls, dimsCalls, parCalls, totalCalls, There, List.cons_append, List.nil_append, List.mem_cons, List.not_mem_nil, or_false,
    forall_eq_or_imp, forall_eq, Rd.ok, true_and, and_true, decide_eq_true_eq]
  constructor
  · rintro ⟨h1, h2, h3, h4, h5, h6, h7, h8, h9, h10, h11, h12, h13, h14, h15, h16, h17, h18, h19, h20⟩
    exact ⟨h1, h2, h3, h4, h5, h6, h20, h7, h8, h10, h18, h11⟩
  · rintro ⟨h1, h2, h3, h4, h5, h6, h20, h7, h8, h10, h18, h11⟩
    have h9 : f.uc.nRanks.isSome = true := by rw [h10]; rfl
    exact ⟨h1, h2, h3, h4, h5, h6, h7, h8, h9, h10, h11, h7, h8, h9, h10, h11, h7, h18, h7, h20⟩

/-- C90: a restart from a file in which one thing is missing: without the offsets or the data of the coefficients all ranks end; without
anything else of what it reads the head rank ends and all other ranks wait for it for ever. -/
theorem C90_restart_one_missing (hn : 0 < n) {f : PFile α} (h : HasHeader f) (hu : There n f.uc) :
    Hangs sync n (restartCalls true n { f with elemsPerPart := none }) ∧ Hangs sync n (restartCalls true n { f with nb := none }) ∧
    Hangs sync n (restartCalls true n { f with ns := none }) ∧ Hangs sync n (restartCalls true n { f with time := none }) ∧
    Hangs sync n (restartCalls true n { f with layoutAttr := none }) ∧
    Hangs sync n (restartCalls true n { f with uc := { f.uc with nDims := none } }) ∧
    Hangs sync n (restartCalls true n { f with uc := { f.uc with nRanks := none } }) ∧
    Hangs sync n (restartCalls true n { f with uc := { f.uc with dims := none } }) ∧
    Hangs sync n (restartCalls true n { f with uc := { f.uc with totalSize := none } }) ∧
    AllExit sync n (restartCalls true n { f with uc := { f.uc with offsets := none } }) ∧
    AllExit sync n (restartCalls true n { f with uc := { f.uc with data := none } }) := by
  obtain ⟨-, -, -, -, h1, h2, h3, h4, h5⟩ := h
  obtain ⟨h6, h7, h8, h9, h10, h11⟩ := hu
  refine ⟨?_, ?_, ?_, ?_, ?_, ?_, ?_, ?_, ?_, ?_, ?_⟩
  iterate 9 exact hang_of_endOf hn (by simp [restartCalls, dimsCalls, parCalls, totalCalls, endOf, h1, h2, h3, h4, h5, h6, h7, h8, h9, h10, h11])
  iterate 2 exact exit_of_endOf (by simp [restartCalls, dimsCalls, parCalls, totalCalls, endOf, h1, h2, h3, h4, h5, h6, h7, h8, h9, h10, h11])

theorem ok_populate {T : Type} (x : PDset T) : (∀ e ∈ populateCalls n x, e.ok = true) ↔ There n x := by
  simp only [populateCalls, dimsCalls, parCalls, totalCalls, There, List.cons_append, List.nil_append, List.mem_cons, List.not_mem_nil, or_false,
    forall_eq_or_imp, forall_eq, Rd.ok, true_and, and_true, decide_eq_true_eq]
  constructor
  · rintro ⟨h1, h2, h3, h4, h5, h6, h7, h8, h9, h10, h11, h12, h13, h14, h15, h16⟩
    exact ⟨h16, h1, h2, h4, h7, h5⟩
  · rintro ⟨h16, h1, h2, h4, h7, h5⟩
    have h3 : x.nRanks.isSome = true := by rw [h4]; rfl
    exact ⟨h1, h2, h3, h4, h5, h1, h7, h1, h2, h3, h4, h5, h1, h7, h1, h16⟩

/-- C90: what the converter needs: all ranks get through with reading exactly if the file exists, was written by as many ranks, and holds all
attributes and all five parallel datasets with all their parts. -/
theorem C90_convert_needs (hn : 0 < n) (found : Bool) (f : PFile α) : AllFinish sync n (readerCalls found n f) ↔
    found = true ∧ f.numRanks = some n ∧ HasHeader f ∧ HasDatasets n f := by
  rw [finish_iff hn]
  simp only [readerCalls, HasHeader, HasDatasets, List.mem_append, or_imp, forall_and, ok_populate]
  simp only [List.mem_cons, List.not_mem_nil, or_false, forall_eq_or_imp, forall_eq, Rd.ok, true_and, and_true, decide_eq_true_eq]
  constructor
  · rintro ⟨⟨h1, h2, h3, h4, h5, h6, h7, h8, h9, h10, h11, h12⟩, ⟨⟨⟨h13, h14⟩, h15⟩, h16⟩, h17⟩
    exact ⟨h1, h3, ⟨h4, h5, h6, h7, h8, h9, h10, h12, h11⟩, h13, h14, h15, h16, h17⟩
  · rintro ⟨h1, h3, ⟨h4, h5, h6, h7, h8, h9, h10, h12, h11⟩, h13, h14, h15, h16, h17⟩
    exact ⟨⟨h1, by rw [h3]; rfl, h3, h4, h5, h6, h7, h8, h9, h10, h11, h12⟩, ⟨⟨⟨h13, h14⟩, h15⟩, h16⟩, h17⟩

/-- C90: the converter on a file in which one part of one parallel dataset is missing. -/
theorem C90_convert_one_missing (hn : 0 < n) {f : PFile α} (hr : f.numRanks = some n) (h : HasHeader f) (hd : HasDatasets n f) (d : DName) :
    Hangs sync n (readerCalls true n (change f d fun x => { x with nDims := none })) ∧
    Hangs sync n (readerCalls true n (change f d fun x => { x with nRanks := none })) ∧
    Hangs sync n (readerCalls true n (change f d fun x => { x with dims := none })) ∧
    Hangs sync n (readerCalls true n (change f d fun x => { x with totalSize := none })) ∧
    AllExit sync n (readerCalls true n (change f d fun x => { x with offsets := none })) ∧
    AllExit sync n (readerCalls true n (change f d fun x => { x with data := none })) := by
  obtain ⟨g1, g2, g3, g4, g5, g6, g7, g8, g9⟩ := h
  obtain ⟨p1, p2, p3, p4, p5⟩ := hd
  have hp : ∀ {T : Type} {x : PDset T} (B : List Rd), There n x → endOf (populateCalls n x ++ B) = endOf B :=
    fun B hx => endOf_append_ok _ B ((ok_populate _).2 hx)
  have hp' : ∀ {T : Type} {x : PDset T}, There n x → endOf (populateCalls n x) = .finish := fun {T x} hx => by
    have := hp [] hx
    rwa [List.append_nil] at this
  have q : ∀ {T : Type} {x : PDset T} (B : List Rd), There n x →
      endOf (populateCalls n { x with nDims := none } ++ B) = .hang ∧ endOf (populateCalls n { x with nRanks := none } ++ B) = .hang ∧
      endOf (populateCalls n { x with dims := none } ++ B) = .hang ∧ endOf (populateCalls n { x with totalSize := none } ++ B) = .hang ∧
      endOf (populateCalls n { x with offsets := none } ++ B) = .exit ∧ endOf (populateCalls n ({ x with data := none } : PDset T) ++ B) = .exit := by
    rintro T x B ⟨h6, h7, h8, h9, h10, h11⟩
    simp [populateCalls, dimsCalls, parCalls, totalCalls, endOf, h6, h7, h8, h9, h10, h11]
  have hhead : ∀ g : PFile α, g.numRanks = some n → HasHeader g → endOf (readerCalls true n g) =
      endOf (populateCalls n g.nodeCoords ++ (populateCalls n g.l2gNode ++ (populateCalls n g.elemToNode ++ (populateCalls n g.l2gElem ++
        (populateCalls n g.uc ++ []))))) := by
    rintro g h0 ⟨h1, h2, h3, h4, h5, h6, h7, h8, h9⟩
    simp [readerCalls, endOf, h0, h1, h2, h3, h4, h5, h6, h7, h8, h9]
  have hh : HasHeader f := ⟨g1, g2, g3, g4, g5, g6, g7, g8, g9⟩
  refine ⟨hang_of_endOf hn ?_, hang_of_endOf hn ?_, hang_of_endOf hn ?_, hang_of_endOf hn ?_, exit_of_endOf ?_, exit_of_endOf ?_⟩
  all_goals
    cases d
    all_goals
      refine (hhead _ ?_ ?_).trans ?_
      · exact hr
      · exact hh
      simp only [change, hp, p1, p2, p3, p4, p5, q]

/-- C90: the converter on a file in which one attribute is missing, or the numbers of elements. -/
theorem C90_convert_no_attribute (hn : 0 < n) {f : PFile α} (hr : f.numRanks = some n) (h : HasHeader f) :
    Hangs sync n (readerCalls true n { f with numRanks := none }) ∧ Hangs sync n (readerCalls true n { f with dim := none }) ∧
    Hangs sync n (readerCalls true n { f with numElems := none }) ∧ Hangs sync n (readerCalls true n { f with numNodes := none }) ∧
    Hangs sync n (readerCalls true n { f with npe := none }) ∧ Hangs sync n (readerCalls true n { f with nb := none }) ∧
    Hangs sync n (readerCalls true n { f with ns := none }) ∧ Hangs sync n (readerCalls true n { f with time := none }) ∧
    Hangs sync n (readerCalls true n { f with elemsPerPart := none }) ∧ Hangs sync n (readerCalls true n { f with layoutAttr := none }) := by
  obtain ⟨g1, g2, g3, g4, g5, g6, g7, g8, g9⟩ := h
  refine ⟨?_, ?_, ?_, ?_, ?_, ?_, ?_, ?_, ?_, ?_⟩
  all_goals exact hang_of_endOf hn (by simp [readerCalls, endOf, hr, g1, g2, g3, g4, g5, g6, g7, g8, g9])

/-- C90: an output that cannot be created: the solver ends on all ranks; the converter, whose head rank alone opens it, ends there only, and
all other ranks wait for ever in closing the input.  The whole converter gets through exactly if its input is whole and its output can be
created. -/
theorem C90_write (hn : 0 < n) (f : PFile α) :
    AllFinish sync n (writerCalls true true) ∧ AllExit sync n (writerCalls true false) ∧
    (f.numRanks = some n → HasHeader f → HasDatasets n f → Hangs sync n (convertCalls true false n f)) ∧
    ∀ found writable, AllFinish sync n (convertCalls found writable n f) ↔
      found = true ∧ f.numRanks = some n ∧ HasHeader f ∧ HasDatasets n f ∧ writable = true := by
  refine ⟨finish_of_ok (by simp [writerCalls, Rd.ok]), exit_of_endOf (by simp [writerCalls, endOf]), ?_, ?_⟩
  · intro h1 h2 h3
    have hok : ∀ e ∈ readerCalls true n f, e.ok = true :=
      (finish_iff (sync := sync) hn).1 ((C90_convert_needs (sync := sync) hn true f).2 ⟨rfl, h1, h2, h3⟩)
    refine hang_of_endOf hn ?_
    rw [convertCalls, List.append_assoc, endOf_append_ok _ _ hok]
    simp [writerCalls, endOf]
  · intro found writable
    have h1 := C90_convert_needs (sync := sync) hn found f
    rw [finish_iff hn] at h1 ⊢
    simp only [convertCalls, List.mem_append, or_imp, forall_and, h1]
    simp [writerCalls, Rd.ok, and_assoc]

/-- a file of two ranks with everything in it; the converter needs two ranks -/
example : AllFinish true 2 (readerCalls true 2 (⟨some 2, some 2, some 2, some 6, some 4, some 1, some 4, some 0, some [1, 1], some 0,
    ⟨some [0], some [0, 4], some 2, some 2, some 8, some [4, 2, 4, 2]⟩, ⟨some [0], some [0, 4], some 1, some 2, some 8, some [4, 4]⟩,
    ⟨some [0], some [0, 4], some 2, some 2, some 8, some [1, 4, 1, 4]⟩, ⟨some [0], some [0, 1], some 1, some 2, some 2, some [1, 1]⟩,
    ⟨some [0], some [0, 4], some 3, some 2, some 8, some [1, 1, 4, 1, 1, 4]⟩⟩ : PFile ℕ)) := by
  rw [C90_convert_needs (by omega)]
  simp [HasHeader, HasDatasets, There]

/-- three ranks, a mesh file whose third dataset is missing: rank 0 ends, ranks 1 and 2 wait -/
example : Hangs true 3 (meshCalls true [true, true, false, true]) := (C90_read_mesh (by omega) _).2.2 ⟨false, by simp, rfl⟩

/-- such an end is reached: two ranks, the head rank does not find the only dataset, rank 1 waits in the broadcast -/
example : ∃ c, RReach false 2 (meshCalls true [false]) c ∧ Stuck false 2 (meshCalls true [false]) c ∧ c.dead 0 = true ∧ c.dead 1 = false := by
  have hP : meshCalls true [false] = [.all true, .head false, .fromHead] := rfl
  rw [hP]
  refine ⟨⟨Function.update (Function.update (Function.update (fun _ => 0) 0 1) 1 1) 1 2, Function.update (fun _ => false) 0 true⟩, ?_, ?_,
    by simp, by simp⟩
  · refine Relation.ReflTransGen.tail (Relation.ReflTransGen.tail (Relation.ReflTransGen.tail (Relation.ReflTransGen.tail
      Relation.ReflTransGen.refl (RStep.good _ 0 (by omega) rfl (Or.inl rfl))) (RStep.good _ 1 (by omega) rfl (Or.inl rfl)))
      (RStep.good _ 1 (by omega) rfl (Or.inr (Or.inr ⟨by omega, rfl⟩)))) (RStep.bad _ 0 (by omega) rfl (Or.inr ⟨rfl, rfl⟩))
  · intro c' hs
    cases hs with
    | good r hr ha he =>
      have : r = 0 ∨ r = 1 := by omega
      rcases this with rfl | rfl
      · simp at ha
      · simp at he
    | bad r hr ha he =>
      have : r = 0 ∨ r = 1 := by omega
      rcases this with rfl | rfl
      · simp at ha
      · simp at he
    | coll r hr ha he hm =>
      have : r = 0 ∨ r = 1 := by omega
      rcases this with rfl | rfl
      · simp at ha
      · have := hm.1
        simp at this

end DG.Cut
