import Verif.Lemmas.HandleUse

/-!
The parts of the program that use HDF5 files give back every handle.
-/
namespace DG.H5

variable {D : Type}

/-- an object with an open file, and three free variables -/
structure Ready (s : State D) (f h : ℕ) : Prop where
  fresh : Fresh s
  obj : s.objs f = some (some h)
  lib : ∃ name par, s.lib h = some (.file name par)
  free : ∀ p, p < 3 → s.ptrs p = none

theorem Ready.can {s : State D} {f h : ℕ} (R : Ready s f h) : CanMake s f none h := by
  obtain ⟨n, par, hl⟩ := R.lib
  exact ⟨some h, R.obj, Or.inl ⟨rfl, by simp [destRoot, hl]⟩⟩

/-- inside of an open dataset -/
theorem Ready.inner {s : State D} {f h : ℕ} (R : Ready s f h) {n : ℕ} (hn : s.next ≤ n) :
    let t := makeObj { s with next := n } 0 .dset true h
    Fresh t ∧ t.ptrs 1 = none ∧ t.ptrs 2 = none ∧ CanMake t f none h ∧ CanMake t f (some 0) h := by
  intro t
  obtain ⟨name, par, hl⟩ := R.lib
  have hlt : h < s.next := by
    by_contra hc
    have := R.fresh.lib h (not_lt.mp hc)
    rw [hl] at this
    simp at this
  have h1 : t.lib h = some (.file name par) := by
    show Function.update (Function.update s.lib (n + 1) (some .space)) (n + 2) (some (.obj .dset h)) h = _
    rw [Function.update_of_ne (by omega), Function.update_of_ne (by omega), hl]
  have h2 : t.blocks n = some ⟨.dset, some (n + 1), some (n + 2)⟩ := by
    show Function.update s.blocks n (some ⟨.dset, some (n + 1), some (n + 2)⟩) n = _
    exact Function.update_self ..
  have h3 : t.lib (n + 2) = some (.obj .dset h) := by
    show Function.update (Function.update s.lib (n + 1) (some .space)) (n + 2) (some (.obj .dset h)) (n + 2) = _
    rw [Function.update_self]
  have h4 : t.ptrs 0 = some (some n) := by
    show Function.update s.ptrs 0 (some (some n)) 0 = _
    exact Function.update_self ..
  have hp : ∀ p, 0 < p → p < 3 → t.ptrs p = none := by
    intro p h0 h3
    show Function.update s.ptrs 0 (some (some n)) p = _
    rw [Function.update_of_ne (by omega)]
    exact R.free p h3
  have ho : t.objs f = some (some h) := R.obj
  refine ⟨R.fresh.makeObj 0 .dset true h hn, hp 1 (by omega) (by omega), hp 2 (by omega) (by omega), ?_, ?_⟩
  · exact ⟨some h, ho, Or.inl ⟨rfl, by simp [destRoot, h1]⟩⟩
  · exact ⟨some h, ho, Or.inr ⟨0, some n, rfl, h4, by simp [destRoot, h2, h3]⟩⟩

theorem quiet_writeAttr {empty : D} {s : State D} {f h : ℕ} (R : Ready s f h) : Quiet empty s (writeAttr f 0 none) :=
  quiet_make_drop R.fresh R.can (R.free 0 (by omega)) .attr true

theorem quiet_writeDset {empty : D} {s : State D} {f h : ℕ} (R : Ready s f h) : Quiet empty s (writeDset f 0) :=
  quiet_make_drop R.fresh R.can (R.free 0 (by omega)) .dset true

theorem quiet_writePar {empty : D} {s : State D} {f h : ℕ} (R : Ready s f h) : Quiet empty s (writePar f) := by
  have h1 : Quiet empty s ([.make 0 .dset true f none true] ++ [.space 1, .drop 1] ++ [.drop 0]) := by
    refine quiet_bracket R.fresh R.can (R.free 0 (by omega)) .dset true fun n hn => ?_
    obtain ⟨F, hp1, -, -, -⟩ := R.inner hn
    exact quiet_space F hp1
  have h2 : Quiet empty s ([.make 0 .dset true f none true] ++
      (writeAttr f 1 (some 0) ++ writeAttr f 1 (some 0) ++ writeAttr f 1 (some 0) ++ writeDset f 1) ++ [.drop 0]) := by
    refine quiet_bracket R.fresh R.can (R.free 0 (by omega)) .dset true fun n hn => ?_
    obtain ⟨F, hp1, -, hc, hc0⟩ := R.inner hn
    have ha := quiet_make_drop (empty := empty) F hc0 hp1 .attr true
    exact quiet_append (quiet_append (quiet_append ha ha) ha) (quiet_make_drop F hc hp1 .dset true)
  have := quiet_append h1 h2
  simpa [writePar, List.append_assoc] using this

theorem quiet_readDset {empty : D} {s : State D} {f h : ℕ} (R : Ready s f h) (head : Bool) : Quiet empty s (readDset f head) := by
  cases head
  · exact quiet_null (R.free 0 (by omega))
  · exact quiet_via_move R.fresh R.can (R.free 0 (by omega)) (R.free 1 (by omega)) (by omega) .dset true

theorem quiet_readAttr_gen {empty : D} {s : State D} (F : Fresh s) {f root p : ℕ} {dest : Option ℕ} (hc : CanMake s f dest root)
    (h0 : s.ptrs p = none) (h1 : s.ptrs (p + 1) = none) (head : Bool) : Quiet empty s (readAttr f p dest head) := by
  cases head
  · exact quiet_null h0
  · exact quiet_via_move F hc h0 h1 (by omega) .attr false

theorem quiet_readHead_gen {empty : D} {s : State D} (F : Fresh s) {f root p : ℕ} (hc : CanMake s f none root)
    (h0 : s.ptrs p = none) (head : Bool) : Quiet empty s (readHead f p head) := by
  cases head
  · exact quiet_nil empty s
  · exact quiet_make_drop F hc h0 .dset true

theorem quiet_readAttr {empty : D} {s : State D} {f h : ℕ} (R : Ready s f h) (head : Bool) : Quiet empty s (readAttr f 0 none head) :=
  quiet_readAttr_gen R.fresh R.can (R.free 0 (by omega)) (R.free 1 (by omega)) head

theorem quiet_readHead {empty : D} {s : State D} {f h : ℕ} (R : Ready s f h) (head : Bool) : Quiet empty s (readHead f 0 head) :=
  quiet_readHead_gen R.fresh R.can (R.free 0 (by omega)) head

theorem quiet_readDims {empty : D} {s : State D} {f h : ℕ} (R : Ready s f h) (head : Bool) : Quiet empty s (readDims f head) := by
  have h2 : Quiet empty s ([.make 0 .dset true f none true] ++
      (readAttr f 1 (some 0) head ++ readAttr f 1 (some 0) head ++ readHead f 1 head) ++ [.drop 0]) := by
    refine quiet_bracket R.fresh R.can (R.free 0 (by omega)) .dset true fun n hn => ?_
    obtain ⟨F, hp1, hp2, hc, hc0⟩ := R.inner hn
    have ha := quiet_readAttr_gen (empty := empty) F hc0 hp1 hp2 head
    exact quiet_append (quiet_append ha ha) (quiet_readHead_gen F hc hp1 head)
  simpa [readDims, List.append_assoc] using h2

theorem quiet_readTotal {empty : D} {s : State D} {f h : ℕ} (R : Ready s f h) (head : Bool) : Quiet empty s (readTotal f head) := by
  refine quiet_bracket R.fresh R.can (R.free 0 (by omega)) .dset true fun n hn => ?_
  obtain ⟨F, hp1, hp2, -, hc0⟩ := R.inner hn
  exact quiet_readAttr_gen (empty := empty) F hc0 hp1 hp2 head

theorem quiet_readPar {empty : D} {s : State D} {f h : ℕ} (R : Ready s f h) (head : Bool) : Quiet empty s (readPar f head) :=
  quiet_append (quiet_append (quiet_append (quiet_readDims R head) (quiet_readTotal R head)) (quiet_readHead R head))
    (quiet_crossed R.fresh R.can (R.free 0 (by omega)) (R.free 1 (by omega)) (by omega) .dset)

theorem quiet_populate {empty : D} {s : State D} {f h : ℕ} (R : Ready s f h) (head : Bool) : Quiet empty s (populateOps f head) :=
  quiet_append (quiet_append (quiet_append (quiet_readDims R head) (quiet_readTotal R head)) (quiet_readPar R head))
    (quiet_readHead R head)

/-- the state with one more open file -/
def opened (s : State D) (f : ℕ) (name : String) (par : Bool) (disk : String → Option D) (n : ℕ) : State D :=
  { s with
    objs := Function.update s.objs f (some (some n))
    lib := Function.update s.lib n (some (.file name par))
    next := n + 1
    disk := disk }

/-- nothing but files is open, and three variables are free -/
structure Idle (s : State D) : Prop where
  fresh : Fresh s
  noObj : ∀ h k r, s.lib h ≠ some (.obj k r)
  free : ∀ p, p < 3 → s.ptrs p = none

theorem Idle.ready {s : State D} (I : Idle s) (f : ℕ) (name : String) (par : Bool) (disk : String → Option D) {n : ℕ}
    (hn : s.next ≤ n) : Ready (opened s f name par disk n) f n := by
  refine ⟨⟨?_, ?_, ?_⟩, by simp [opened], ⟨name, par, by simp [opened]⟩, I.free⟩
  · intro m hm
    have : n + 1 ≤ m := hm
    simp only [opened]
    rw [Function.update_of_ne (by omega)]
    exact I.fresh.lib m (by omega)
  · intro m hm
    have : n + 1 ≤ m := hm
    exact I.fresh.blocks m (by omega)
  · intro p c hp
    have := I.fresh.ptrs p c hp
    show c < n + 1
    omega

theorem Idle.opened {s : State D} (I : Idle s) (f : ℕ) (name : String) (par : Bool) (disk : String → Option D) {n : ℕ}
    (hn : s.next ≤ n) : Idle (opened s f name par disk n) := by
  refine ⟨(I.ready f name par disk hn).fresh, ?_, I.free⟩
  intro h k r
  simp only [H5.opened, Function.update_apply]
  split_ifs
  · simp
  · exact I.noObj h k r

theorem Idle.mono {s : State D} (I : Idle s) {n : ℕ} (hn : s.next ≤ n) : Idle { s with next := n } :=
  ⟨I.fresh.mono hn, I.noObj, I.free⟩

theorem step_newOpen (empty : D) {s : State D} {f : ℕ} {name : String} {mode : Mode} (hm : mode = .rdonly ∨ mode = .rdwr)
    (hf : s.objs f = none) (hd : s.disk name ≠ none) (par : Bool) (n : ℕ) :
    step empty { s with next := n } (.newOpen f name mode par true) = .ok (opened s f name par s.disk n) := by
  rcases hm with rfl | rfl <;> simp [step, hf, openFile, hd, opened]

/-- the end of the life of the object -/
theorem step_destroy (empty : D) {s : State D} (I : Idle s) {f : ℕ} (hf : s.objs f = none) (name : String) (par : Bool)
    (disk : String → Option D) {n m : ℕ} (hn : s.next ≤ n) :
    step empty { opened s f name par disk n with next := m } (.destroy f) = .ok { s with next := m, disk := disk } := by
  have h3 : ¬ (par = true ∧ ∃ h' k, Function.update s.lib n (some (.file name par)) h' = some (.obj k n)) := by
    rintro ⟨-, h', k, h⟩
    exact (I.opened f name par disk hn).noObj h' k n h
  have e1 : Function.update (Function.update s.lib n (some (.file name par))) n none = s.lib :=
    update_undo _ _ _ _ (I.fresh.lib n hn)
  have e2 : Function.update (Function.update (Function.update s.objs f (some (some n))) f (some none)) f none = s.objs := by
    rw [Function.update_idem]; exact update_undo _ _ _ _ hf
  unfold opened
  simp only [step, Function.update_self, closeFile, if_neg h3, Res.bind, e1, e2]

theorem Quiet.run {empty : D} {s : State D} {L : List Op} (q : Quiet empty s L) :
    ∃ m, s.next ≤ m ∧ run empty s L = .ok { s with next := m } := q s.next le_rfl

/-- a file is opened, read, and closed -/
theorem quiet_session {empty : D} {s : State D} (I : Idle s) {f : ℕ} {name : String} {mode : Mode}
    (hm : mode = .rdonly ∨ mode = .rdwr) (hf : s.objs f = none) (hd : s.disk name ≠ none) (par : Bool) {L : List Op}
    (hL : ∀ n, s.next ≤ n → Quiet empty (opened s f name par s.disk n) L) :
    Quiet empty s ([.newOpen f name mode par true] ++ L ++ [.destroy f]) := by
  intro n hn
  obtain ⟨m, hm1, h1⟩ := (hL n hn).run
  have hnm : n + 1 ≤ m := hm1
  refine ⟨m, by omega, ?_⟩
  rw [run_append, run_append]
  simp only [H5.run, step_newOpen empty hm hf hd par n, Res.bind, h1, step_destroy empty I hf name par s.disk hn]

/-- a file is opened and used -/
theorem run_session_open {empty : D} {s : State D} {f : ℕ} {name : String} {mode : Mode}
    (hm : mode = .rdonly ∨ mode = .rdwr) (hf : s.objs f = none) (hd : s.disk name ≠ none) (par : Bool) {L : List Op} {n : ℕ}
    (hL : Quiet empty (opened s f name par s.disk n) L) :
    ∃ m, n < m ∧ H5.run empty { s with next := n } ([.newOpen f name mode par true] ++ L) =
      .ok { opened s f name par s.disk n with next := m } := by
  obtain ⟨m, hm1, h1⟩ := hL.run
  have hnm : n + 1 ≤ m := hm1
  refine ⟨m, by omega, ?_⟩
  rw [run_append]
  simp only [H5.run, step_newOpen empty hm hf hd par n, Res.bind, h1]

theorem quiet_readMesh {empty : D} {s : State D} (I : Idle s) (hf : s.objs 0 = none) {name : String} (hd : s.disk name ≠ none)
    (head : Bool) (k : ℕ) : Quiet empty s (readMeshOps name head k) :=
  quiet_session I (Or.inl rfl) hf hd true fun _ hn => quiet_replicate (quiet_readDset (I.ready 0 name true s.disk hn) head) k

theorem quiet_readCoefficients {empty : D} {s : State D} (I : Idle s) (hf : s.objs 0 = none) {name : String}
    (hd : s.disk name ≠ none) (head : Bool) : Quiet empty s (readCoefficientsOps name head) := by
  have h : Quiet empty s ([.newOpen 0 name .rdonly true true] ++ (readHead 0 0 head ++
      (List.replicate 4 (readAttr 0 0 none head)).flatten ++ readDims 0 head ++ readPar 0 head) ++ [.destroy 0]) := by
    refine quiet_session I (Or.inl rfl) hf hd true fun n hn => ?_
    have R := I.ready 0 name true s.disk hn
    exact quiet_append (quiet_append (quiet_append (quiet_readHead R head) (quiet_replicate (quiet_readAttr R head) 4))
      (quiet_readDims R head)) (quiet_readPar R head)
  have e : readCoefficientsOps name head = [.newOpen 0 name .rdonly true true] ++ (readHead 0 0 head ++
      (List.replicate 4 (readAttr 0 0 none head)).flatten ++ readDims 0 head ++ readPar 0 head) ++ [.destroy 0] := by
    simp only [readCoefficientsOps, List.append_assoc]
  rw [e]; exact h

/-- the constructor of the reader leaves one open file -/
theorem run_reader (empty : D) {s : State D} (I : Idle s) (hf : s.objs 0 = none) {name : String} (hd : s.disk name ≠ none)
    (head : Bool) {n : ℕ} (hn : s.next ≤ n) :
    ∃ m, n < m ∧ run empty { s with next := n } (readerOps name head) = .ok { opened s 0 name true s.disk n with next := m } := by
  have R := I.ready 0 name true s.disk hn
  have q : Quiet empty (opened s 0 name true s.disk n) ((List.replicate 9 (readAttr 0 0 none head)).flatten ++ readHead 0 0 head ++
      (List.replicate 5 (populateOps 0 head)).flatten) :=
    quiet_append (quiet_append (quiet_replicate (quiet_readAttr R head) 9) (quiet_readHead R head))
      (quiet_replicate (quiet_populate R head) 5)
  obtain ⟨m, hm, h1⟩ := run_session_open (mode := .rdwr) (Or.inr rfl) hf hd true q
  refine ⟨m, hm, ?_⟩
  rw [← h1]
  simp only [readerOps, List.append_assoc]

/-- the object and the file of the writer -/
theorem run_writer_open (empty : D) {s : State D} {f : ℕ} (hf : s.objs f = none) (name : String)
    (par : Bool) (hno : ∀ h, s.lib h ≠ some (.file name par)) (n : ℕ) :
    run empty { s with next := n } ([.new f] ++ [.open_ f name .trunc par true]) =
      .ok (opened s f name par (Function.update s.disk name (some empty)) n) := by
  have h1 : step empty { s with next := n } (.new f) = .ok { s with objs := Function.update s.objs f (some none), next := n } := by
    simp only [step, hf]
  simp only [List.singleton_append, run, h1, Res.bind]
  simp [step, closeFile, Res.bind, openFile, hno, opened]

theorem run_writer_session (empty : D) {s : State D} (I : Idle s) {f : ℕ} (hf : s.objs f = none) (name : String) (par : Bool)
    (hno : ∀ h, s.lib h ≠ some (.file name par)) {n : ℕ} (hn : s.next ≤ n) {L : List Op}
    (hL : Quiet empty (opened s f name par (Function.update s.disk name (some empty)) n) L) :
    ∃ m, n ≤ m ∧ run empty { s with next := n } (([.new f] ++ [.open_ f name .trunc par true]) ++ L ++ [.destroy f]) = .ok { s with
      next := m
      disk := Function.update s.disk name (some empty) } := by
  obtain ⟨m, hm1, h1⟩ := hL.run
  have hnm : n + 1 ≤ m := hm1
  refine ⟨m, by omega, ?_⟩
  rw [run_append, run_append, run_writer_open empty hf name par hno n]
  simp only [H5.run, Res.bind, h1, step_destroy empty I hf name par _ hn]

theorem run_writer (empty : D) {s : State D} (I : Idle s) {f : ℕ} (hf : s.objs f = none) (name : String) (par head : Bool)
    (hno : ∀ h, s.lib h ≠ some (.file name par)) {n : ℕ} (hn : s.next ≤ n) :
    ∃ m, n ≤ m ∧ run empty { s with next := n } (writerOps f name par head) = .ok { s with
      next := m
      disk := if par = true ∨ head = true then Function.update s.disk name (some empty) else s.disk } := by
  by_cases hp : par = true ∨ head = true
  · set disk := Function.update s.disk name (some empty) with hdisk
    have R := I.ready f name par disk hn
    have q : Quiet empty (opened s f name par disk n) ((List.replicate 8 (writeAttr f 0 none)).flatten ++ writeDset f 0 ++
        writeAttr f 0 none ++ (List.replicate 5 (writePar f)).flatten) :=
      quiet_append (quiet_append (quiet_append (quiet_replicate (quiet_writeAttr R) 8) (quiet_writeDset R)) (quiet_writeAttr R))
        (quiet_replicate (quiet_writePar R) 5)
    obtain ⟨m, hm, h1⟩ := run_writer_session empty I hf name par hno hn q
    refine ⟨m, hm, ?_⟩
    rw [if_pos hp, ← h1]
    simp only [writerOps, if_pos hp, List.append_assoc]
  · refine ⟨n, le_rfl, ?_⟩
    have e : writerOps f name par head = [.new f, .destroy f] := by
      simp only [writerOps, if_neg hp, List.append_nil, List.singleton_append]
    rw [e, if_neg hp]
    simp [run, step, hf, Res.bind, closeFile, update_undo]

theorem idle_start (disk : String → Option D) : Idle (start disk) := by
  refine ⟨⟨?_, ?_, ?_⟩, ?_, ?_⟩ <;> simp [start]

end DG.H5
