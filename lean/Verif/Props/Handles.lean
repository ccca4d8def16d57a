import Verif.Lemmas.Handles

/-!
C88: the handles of the HDF5 library held by `HDF5File`.
-/
namespace DG.H5

variable {D : Type}

/-- C88: whatever a process does with objects of the class and with the handles they return, the library is never given a handle
that is not open, or of another kind: nothing is closed twice and nothing is used after it was closed. -/
theorem C88_no_stale_handle (empty : D) (disk : String → Option D) (ops : List Op) :
    run empty (start disk) ops ≠ .misuse := (run_inv empty disk ops).1

/-- C88: an open file is held by exactly one object, unless its handle was overwritten by moving something else to the object that
held it; then no object holds it. -/
theorem C88_files (empty : D) (disk : String → Option D) (ops : List Op) {s : State D} (hs : run empty (start disk) ops = .ok s)
    (h : ℕ) :
    FileOpen s h ↔ ((∃! v, Holds s v h) ∧ ¬ Overwritten empty disk ops h) ∨ (Overwritten empty disk ops h ∧ ∀ v, ¬ Holds s v h) := by
  have I := (run_inv empty disk ops).2 s hs
  constructor
  · rintro ⟨n, par, hl⟩
    by_cases ho : Overwritten empty disk ops h
    · exact Or.inr ⟨ho, (I.lostOpen h ho).2⟩
    · rcases I.fileOwn h n par hl with ⟨v, hv⟩ | hl
      · exact Or.inl ⟨⟨v, hv, fun w hw => I.fileInj w v h hw hv⟩, ho⟩
      · exact absurd hl ho
  · rintro (⟨⟨v, hv, -⟩, -⟩ | ⟨ho, -⟩)
    · exact I.fileOpen v h hv
    · exact (I.lostOpen h ho).1

/-- C88: a handle of a group, dataset, attribute or dataspace is open exactly as long as a variable refers to it; all variables that
refer to it share one pair. -/
theorem C88_parts (empty : D) (disk : String → Option D) (ops : List Op) {s : State D} (hs : run empty (start disk) ops = .ok s)
    (h : ℕ) : (PartOpen s h ↔ ∃ p b, Refers s p b h) ∧ ∀ p b p' b', Refers s p b h → Refers s p' b' h → b = b' := by
  have I := (run_inv empty disk ops).2 s hs
  refine ⟨⟨?_, ?_⟩, ?_⟩
  · rintro (hl | ⟨k, root, hl⟩)
    · obtain ⟨c, blk, hc, ha⟩ := I.ownSpace h hl
      obtain ⟨p, hp⟩ := I.blockPtr c blk hc (by simp)
      exact ⟨p, c, hp, blk, hc, Or.inl ha⟩
    · obtain ⟨c, blk, hc, ha⟩ := I.ownObj h k root hl
      obtain ⟨p, hp⟩ := I.blockPtr c blk hc (by simp)
      exact ⟨p, c, hp, blk, hc, Or.inr ha⟩
  · rintro ⟨p, b, hp, blk, hb, ha | ha⟩
    · exact Or.inl (I.first b blk h hb ha)
    · obtain ⟨r, hr⟩ := I.second b blk h hb ha
      exact Or.inr ⟨_, r, hr⟩
  · rintro p b p' b' ⟨-, blk, hb, ha⟩ ⟨-, blk', hb', ha'⟩
    rcases ha with ha | ha <;> rcases ha' with ha' | ha'
    · exact I.firInj b blk b' blk' h hb hb' ha ha'
    · have h1 := I.first b blk h hb ha
      obtain ⟨r, h2⟩ := I.second b' blk' h hb' ha'
      rw [h1] at h2; simp at h2
    · have h1 := I.first b' blk' h hb' ha'
      obtain ⟨r, h2⟩ := I.second b blk h hb ha
      rw [h1] at h2; simp at h2
    · exact I.secInj b blk b' blk' h hb hb' ha ha'

/-- C88: when all objects and variables have reached the end of their lives, every handle is closed but the overwritten ones. -/
theorem C88_all_closed (empty : D) (disk : String → Option D) (ops : List Op) {s : State D}
    (hs : run empty (start disk) ops = .ok s) (hg : AllGone s) (h : ℕ) :
    s.lib h ≠ none ↔ Overwritten empty disk ops h := by
  have I := (run_inv empty disk ops).2 s hs
  constructor
  · intro hl
    cases hh : s.lib h with
    | none => exact absurd hh hl
    | some x =>
      cases x with
      | file n par =>
        rcases I.fileOwn h n par hh with ⟨v, hv⟩ | ho
        · rw [hg.1 v] at hv; simp at hv
        · exact ho
      | space =>
        obtain ⟨c, blk, hc, -⟩ := I.ownSpace h hh
        obtain ⟨p, hp⟩ := I.blockPtr c blk hc (by simp)
        rw [hg.2 p] at hp; simp at hp
      | obj k root =>
        obtain ⟨c, blk, hc, -⟩ := I.ownObj h k root hh
        obtain ⟨p, hp⟩ := I.blockPtr c blk hc (by simp)
        rw [hg.2 p] at hp; simp at hp
  · intro ho
    obtain ⟨⟨n, par, hn⟩, -⟩ := I.lostOpen h ho
    rw [hn]; simp

/-- C88: a file handle that was overwritten stays open whatever is done afterwards: moving to an object that holds a file leaks
the file. -/
theorem C88_move_assignment_leaks (empty : D) (disk : String → Option D) (ops more : List Op) {s1 s : State D} {v w h : ℕ}
    (h1 : run empty (start disk) ops = .ok s1) (hv : Holds s1 v h) (hne : v ≠ w)
    (hs : run empty (start disk) (ops ++ Op.moveAssign v w :: more) = .ok s) : FileOpen s h ∧ ∀ u, ¬ Holds s u h := by
  have ho : Overwritten empty disk (ops ++ Op.moveAssign v w :: more) h := ⟨ops, v, w, more, s1, rfl, hne, h1, hv⟩
  exact ((run_inv empty disk _).2 s hs).lostOpen h ho

/-- C88: closing a file (also by opening another one with the same object, or at the end of its life) ends the program with an error
exactly if the file was opened in parallel and a group, dataset or attribute opened through it is still open; otherwise the
handle is closed and the object holds no file. -/
theorem C88_close (empty : D) (disk : String → Option D) (ops : List Op) {s : State D} {v h : ℕ}
    (hs : run empty (start disk) ops = .ok s) (hv : Holds s v h) :
    let busy := ∃ name, s.lib h = some (.file name true) ∧ ∃ h' k, s.lib h' = some (.obj k h)
    (busy → step empty s (.close v) = .exit ∧ step empty s (.destroy v) = .exit ∧
      ∀ name mode par good, step empty s (.open_ v name mode par good) = .exit) ∧
    (¬ busy → ∃ s', step empty s (.close v) = .ok s' ∧ s'.lib h = none ∧ s'.objs v = some none ∧
      (∀ h', h' ≠ h → s'.lib h' = s.lib h') ∧ ∀ u, u ≠ v → s'.objs u = s.objs u) := by
  have I := (run_inv empty disk ops).2 s hs
  obtain ⟨n, par, hl⟩ := I.fileOpen v h hv
  have hv' : s.objs v = some (some h) := hv
  intro busy
  constructor
  · rintro ⟨n', h1, h2⟩
    rw [hl] at h1
    cases h1
    have : closeFile s v (some h) = .exit := by simp [closeFile, hl, h2]
    refine ⟨by simp [step, hv', this], by simp [step, hv', this, Res.bind], fun _ _ _ _ => by simp [step, hv', this, Res.bind]⟩
  · intro hb
    have hb' : ¬ (par = true ∧ ∃ h' k, s.lib h' = some (.obj k h)) := by
      rintro ⟨rfl, h2⟩
      exact hb ⟨n, hl, h2⟩
    refine ⟨{ s with lib := Function.update s.lib h none, objs := Function.update s.objs v (some none) }, ?_, by simp, by simp, ?_, ?_⟩
    · simp only [step, hv', closeFile, hl, if_neg hb']
    · intro h' hne; simp [Function.update_of_ne hne]
    · intro u hne; simp [Function.update_of_ne hne]

/-- C88: the modes.  Reading modes need the file and do not change the disk; `TRUNC` and also `EXCL` replace an existing file
by an empty one; every other mode ends the program. -/
theorem C88_modes (empty : D) {s s' : State D} {v : ℕ} {name : String} {mode : Mode} {par good : Bool}
    (hs : step empty s (.open_ v name mode par good) = .ok s') :
    (mode = .rdonly ∨ mode = .rdwr → s.disk name ≠ none ∧ s'.disk = s.disk) ∧
    (mode = .trunc ∨ mode = .excl → s'.disk name = some empty ∧ ∀ n, n ≠ name → s'.disk n = s.disk n) ∧ mode ≠ .other := by
  cases hv : s.objs v with
  | none => simp [step, hv] at hs
  | some f =>
    have hd : ∀ s1, closeFile s v f = .ok s1 → s1.disk = s.disk := by
      intro s1 h1
      cases f with
      | none => simp only [closeFile, Res.ok.injEq] at h1; rw [h1]
      | some h =>
        cases hl : s.lib h with
        | none => simp [closeFile, hl] at h1
        | some x =>
          cases x with
          | file n p =>
            simp only [closeFile, hl] at h1
            split_ifs at h1
            simp only [Res.ok.injEq] at h1
            rw [← h1]
          | space => simp [closeFile, hl] at h1
          | obj k r => simp [closeFile, hl] at h1
    simp only [step, hv] at hs
    cases hc : closeFile s v f with
    | misuse => simp [hc, Res.bind] at hs
    | invalid => simp [hc, Res.bind] at hs
    | exit => simp [hc, Res.bind] at hs
    | ok s1 =>
      have hd1 := hd s1 hc
      simp only [hc, Res.bind] at hs
      cases mode with
      | rdonly =>
        simp only [openFile] at hs
        split_ifs at hs with h
        simp only [Res.ok.injEq] at hs
        subst hs
        exact ⟨fun _ => ⟨hd1 ▸ h.1, hd1⟩, by simp, by simp⟩
      | rdwr =>
        simp only [openFile] at hs
        split_ifs at hs with h
        simp only [Res.ok.injEq] at hs
        subst hs
        exact ⟨fun _ => ⟨hd1 ▸ h.1, hd1⟩, by simp, by simp⟩
      | trunc =>
        simp only [openFile] at hs
        split_ifs at hs with h
        simp only [Res.ok.injEq] at hs
        subst hs
        exact ⟨by simp, fun _ => ⟨by simp, fun n hn => by simp [Function.update_of_ne hn, hd1]⟩, by simp⟩
      | excl =>
        simp only [openFile] at hs
        split_ifs at hs with h
        simp only [Res.ok.injEq] at hs
        subst hs
        exact ⟨by simp, fun _ => ⟨by simp, fun n hn => by simp [Function.update_of_ne hn, hd1]⟩, by simp⟩
      | other => simp [openFile] at hs

/-- C88: opening with an object that holds no file succeeds, for reading, exactly if the file exists (and the library can open it); for
`TRUNC` and, just the same, for `EXCL`, exactly if this process has not opened a file of that name in the same way (serially or in parallel) and the library can create it,
whether or not the file exists.  Otherwise the program ends. -/
theorem C88_opens (empty : D) {s : State D} {v : ℕ} (hv : s.objs v = some none) (name : String) (mode : Mode) (par good : Bool) :
    let can := match mode with
      | .rdonly | .rdwr => s.disk name ≠ none ∧ good = true
      | .trunc | .excl => (¬ ∃ h, s.lib h = some (.file name par)) ∧ good = true
      | .other => False
    (can → ∃ s', step empty s (.open_ v name mode par good) = .ok s' ∧ Holds s' v s.next ∧ s'.lib s.next = some (.file name par)) ∧
    (¬ can → step empty s (.open_ v name mode par good) = .exit) := by
  cases mode with
  | rdonly =>
    simp only [step, hv, closeFile, Res.bind, openFile]
    exact ⟨fun h => ⟨_, if_pos h, by simp [Holds], by simp⟩, fun h => if_neg h⟩
  | rdwr =>
    simp only [step, hv, closeFile, Res.bind, openFile]
    exact ⟨fun h => ⟨_, if_pos h, by simp [Holds], by simp⟩, fun h => if_neg h⟩
  | trunc =>
    simp only [step, hv, closeFile, Res.bind, openFile]
    rw [not_exists]
    exact ⟨fun h => ⟨_, if_pos h, by simp [Holds], by simp⟩, fun h => if_neg h⟩
  | excl =>
    simp only [step, hv, closeFile, Res.bind, openFile]
    rw [not_exists]
    exact ⟨fun h => ⟨_, if_pos h, by simp [Holds], by simp⟩, fun h => if_neg h⟩
  | other => exact ⟨fun h => h.elim, fun _ => by simp [step, hv, closeFile, Res.bind, openFile]⟩

/-- `EXCL` on a file that exists: it is emptied -/
example : ∃ s', step (D := ℕ) 0 (⟨fun _ => some none, fun _ => none, fun _ => none, fun _ => none, 0, fun _ => some 7⟩ : State ℕ)
    (.open_ 0 "a.h5" .excl false true) = .ok s' ∧ s'.disk "a.h5" = some 0 := by
  obtain ⟨s', h, -⟩ := (C88_opens (D := ℕ) 0 (s := ⟨fun _ => some none, fun _ => none, fun _ => none, fun _ => none, 0, fun _ => some 7⟩)
    (v := 0) rfl "a.h5" .excl false true).1 ⟨by simp, rfl⟩
  exact ⟨s', h, ((C88_modes (D := ℕ) 0 h).2.1 (Or.inr rfl)).1⟩

end DG.H5
