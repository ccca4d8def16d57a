import Verif.Lemmas.HandlePrograms
import Verif.Props.Handles

/-!
C88: the parts of the program that use HDF5 files give back every handle, and what happens to the files on disk.
-/
namespace DG.H5

variable {D : Type}

theorem clean_start (disk disk' : String → Option D) (m : ℕ) : Clean { start disk with next := m, disk := disk' } :=
  ⟨fun _ => rfl, fun _ => rfl, fun _ => rfl, fun _ => rfl⟩

/-- C88: reading the mesh, on every rank and for every number of datasets, ends with everything closed and the files untouched;
without the file the program ends with a message. -/
theorem C88_read_mesh (empty : D) (disk : String → Option D) (name : String) (head : Bool) (n : ℕ) :
    (disk name ≠ none → ∃ s, run empty (start disk) (readMeshOps name head n) = .ok s ∧ Clean s ∧ s.disk = disk) ∧
    (disk name = none → run empty (start disk) (readMeshOps name head n) = .exit) := by
  constructor
  · intro hd
    obtain ⟨m, -, h⟩ := (quiet_readMesh (empty := empty) (idle_start disk) rfl hd head n).run
    exact ⟨_, h, clean_start disk disk m, rfl⟩
  · intro hd
    have : step empty (start disk) (.newOpen 0 name .rdonly true true) = .exit := by
      simp [step, start, openFile, hd]
    rw [readMeshOps, List.append_assoc, List.singleton_append, run, this]
    rfl

/-- C88: restarting from a file ends with everything closed and the files untouched; without the file the program ends. -/
theorem C88_read_coefficients (empty : D) (disk : String → Option D) (name : String) (head : Bool) :
    (disk name ≠ none → ∃ s, run empty (start disk) (readCoefficientsOps name head) = .ok s ∧ Clean s ∧ s.disk = disk) ∧
    (disk name = none → run empty (start disk) (readCoefficientsOps name head) = .exit) := by
  constructor
  · intro hd
    obtain ⟨m, -, h⟩ := (quiet_readCoefficients (empty := empty) (idle_start disk) rfl hd head).run
    exact ⟨_, h, clean_start disk disk m, rfl⟩
  · intro hd
    have : step empty (start disk) (.newOpen 0 name .rdonly true true) = .exit := by
      simp [step, start, openFile, hd]
    simp only [readCoefficientsOps, List.append_assoc]
    rw [List.singleton_append, run, this]
    rfl

/-- C88: writing a file ends with everything closed; the file is replaced by the ranks that write (all ranks of a parallel write, the
head rank otherwise), no other file changes. -/
theorem C88_write (empty : D) (disk : String → Option D) (name : String) (par head : Bool) :
    ∃ s, run empty (start disk) (writerOps 0 name par head) = .ok s ∧ Clean s ∧
      s.disk name = (if par = true ∨ head = true then some empty else disk name) ∧ ∀ n, n ≠ name → s.disk n = disk n := by
  obtain ⟨m, -, h⟩ := run_writer empty (idle_start disk) (f := 0) rfl name par head (by simp [start]) (n := 0) le_rfl
  refine ⟨_, h, clean_start disk _ m, ?_, ?_⟩
  · split_ifs <;> simp [start]
  · intro n hn
    split_ifs <;> simp [start, Function.update_of_ne hn]

theorem run_converter (empty : D) (disk : String → Option D) {input output : String} (hd : disk input ≠ none) (head : Bool) :
    ∃ m, run empty (start disk) (converterOps input output head) = .ok { start disk with
      next := m
      disk := if head = true then Function.update disk output (some empty) else disk } := by
  obtain ⟨n, hn, h1⟩ := run_reader empty (idle_start disk) rfl hd head (n := 0) le_rfl
  have I : Idle (opened (start disk) 0 input true disk 0) := (idle_start disk).opened 0 input true disk le_rfl
  have hno : ∀ h, (opened (start disk) 0 input true disk 0).lib h ≠ some (.file output false) := by
    intro h
    simp only [opened, Function.update_apply, start]
    split_ifs <;> simp
  obtain ⟨m, hm, h2⟩ := run_writer empty I (f := 1) (by simp [opened, start]) output false head hno (n := n)
    (show 0 + 1 ≤ n by omega)
  refine ⟨m, ?_⟩
  have h1' : run empty (start disk) (readerOps input head) = .ok { opened (start disk) 0 input true disk 0 with next := n } := h1
  rw [converterOps, run_append, run_append, h1']
  simp only [Res.bind, h2]
  have h3 := step_destroy empty (idle_start disk) (f := 0) rfl input true
    (if head = true then Function.update disk output (some empty) else disk) (n := 0) (m := m) le_rfl
  have e : (if false = true ∨ head = true then Function.update (opened (start disk) 0 input true disk 0).disk output (some empty)
      else (opened (start disk) 0 input true disk 0).disk) = if head = true then Function.update disk output (some empty) else disk := by
    simp [opened]
  rw [e]
  simp only [run]
  have h4 : step empty { opened (start disk) 0 input true disk 0 with
      next := m, disk := if head = true then Function.update disk output (some empty) else disk } (.destroy 0) = _ := h3
  rw [h4]
  rfl

/-- C88: the converter, also with one name for input and output, ends with everything closed; the output is replaced by the head rank,
no other file changes. -/
theorem C88_convert (empty : D) (disk : String → Option D) (input output : String) (head : Bool) (hd : disk input ≠ none) :
    ∃ s, run empty (start disk) (converterOps input output head) = .ok s ∧ Clean s ∧
      s.disk output = (if head = true then some empty else disk output) ∧ ∀ n, n ≠ output → s.disk n = disk n := by
  obtain ⟨m, h⟩ := run_converter empty disk (output := output) hd head
  refine ⟨_, h, clean_start disk _ m, ?_, ?_⟩
  · split_ifs <;> simp
  · intro n hn
    split_ifs <;> simp [Function.update_of_ne hn]

/-- C88: when the input and the output of the converter are one file, the head rank has emptied it while the reader still
holds it open and before anything is written: nothing in the program notices. -/
theorem C88_convert_onto_itself (empty : D) (disk : String → Option D) (name : String) (hd : disk name ≠ none) :
    readerOps name true ++ [.new 1, .open_ 1 name .trunc false true] <+: converterOps name name true ∧
    ∃ s h, run empty (start disk) (readerOps name true ++ [.new 1, .open_ 1 name .trunc false true]) = .ok s ∧
      s.disk name = some empty ∧ Holds s 0 h ∧ s.lib h = some (.file name true) := by
  obtain ⟨n, hn, h1⟩ := run_reader empty (idle_start disk) rfl hd true (n := 0) le_rfl
  have h1' : run empty (start disk) (readerOps name true) = .ok { opened (start disk) 0 name true disk 0 with next := n } := h1
  have hno : ∀ h, (opened (start disk) 0 name true disk 0).lib h ≠ some (.file name false) := by
    intro h
    simp only [opened, Function.update_apply, start]
    split_ifs <;> simp
  have h2 := run_writer_open empty (s := opened (start disk) 0 name true disk 0) (f := 1) (by simp [opened, start]) name false hno n
  have e : ([.new 1, .open_ 1 name .trunc false true] : List Op) = [.new 1] ++ [.open_ 1 name .trunc false true] := rfl
  refine ⟨⟨(List.replicate 8 (writeAttr 1 0 none)).flatten ++
    (writeDset 1 0 ++ (writeAttr 1 0 none ++ ((List.replicate 5 (writePar 1)).flatten ++ ([.destroy 1] ++ [.destroy 0])))), ?_⟩, ?_⟩
  · simp only [e, converterOps, writerOps, or_true, if_true, List.append_assoc]
  · refine ⟨opened (opened (start disk) 0 name true disk 0) 1 name false (Function.update disk name (some empty)) n, 0, ?_, ?_, ?_, ?_⟩
    · rw [e, run_append, h1']
      exact h2
    · simp [opened]
    · simp [Holds, opened]
    · simp only [opened]
      rw [Function.update_of_ne (by omega), Function.update_self]

/-! Concrete cases. -/

/-- two files are opened, the second object is moved to the first: after the end of both lives handle 0 is still open -/
example : ∃ s, run () (start fun _ => some ()) [.newOpen 0 "a" .rdonly true true, .newOpen 1 "b" .rdonly false true,
    .moveAssign 0 1, .destroy 0, .destroy 1] = .ok s ∧ AllGone s ∧ FileOpen s 0 := by
  refine ⟨⟨fun _ => none, fun _ => none, fun _ => none, Function.update (fun _ => none) 0 (some (.file "a" true)), 2,
    fun _ => some ()⟩, ?_, ⟨fun _ => rfl, fun _ => rfl⟩, "a", true, by simp⟩
  simp [run, step, openFile, closeFile, start, Res.bind]
  funext v
  simp only [Function.update_apply]
  split_ifs <;> rfl

/-- a group is still open when its file, opened in parallel, is closed: the program ends with a message; after the group is gone the
file closes -/
example : run () (start fun _ => some ()) [.newOpen 0 "a" .rdwr true true, .make 0 .group false 0 none true, .close 0] = .exit := by
  have h : ∃ h' k, Function.update (Function.update (fun _ : ℕ => none) 0 (some (Handle.file "a" true))) 2 (some (.obj .group 0)) h' =
      some (.obj k 0) := ⟨2, .group, by simp⟩
  simp [run, step, openFile, closeFile, start, Res.bind, destRoot, makeObj]
  simp [h]

/-- the same file opened without the MPI driver closes before its group -/
example : ∃ s, run () (start fun _ => some ()) [.newOpen 0 "a" .rdwr false true, .make 0 .group false 0 none true, .close 0,
    .drop 0, .destroy 0] = .ok s ∧ Clean s := by
  refine ⟨{ start (fun _ => some ()) with next := 3 }, ?_, clean_start _ _ 3⟩
  simp [run, step, openFile, closeFile, start, Res.bind, destRoot, makeObj, release, closeObj, closeSpace]
  funext v <;> simp only [Function.update_apply] <;> split_ifs <;> rfl

/-- opening twice with one object closes the first file -/
example : ∃ s, run () (start fun _ => some ()) [.new 0, .open_ 0 "a" .rdonly true true, .open_ 0 "b" .trunc true true] = .ok s ∧
    Holds s 0 1 ∧ s.lib 0 = none ∧ s.lib 1 = some (.file "b" true) := by
  have h : ¬ ∃ h' k, Function.update (fun _ : ℕ => none) 0 (some (Handle.file "a" true)) h' = some (.obj k 0) := by
    rintro ⟨h', k, h⟩
    simp only [Function.update_apply] at h
    split_ifs at h
    simp at h
  refine ⟨⟨Function.update (fun _ => none) 0 (some (some 1)), fun _ => none, fun _ => none,
    Function.update (fun _ => none) 1 (some (.file "b" true)), 2, fun _ => some ()⟩, ?_, by simp [Holds], by simp, by simp⟩
  simp [run, step, openFile, closeFile, start, Res.bind]
  simp [h]

end DG.H5
