import Verif.Props.Renumber
import Verif.Props.MainExample

/-!
Concrete cases of the hypotheses of C78: the vortex on four quadrilaterals with other numbers of elements, nodes and faces;
two hexahedra exchanged.
-/
namespace DG
open Finset

/-- new numbers of the elements and of the nodes of `perMesh` -/
def perSigma (e : ℕ) : ℕ := [2, 0, 3, 1].getD e 0
def perNu (n : ℕ) : ℕ := (n + 4) % 9

/-- `perMesh` with these numbers, and its faces in the reverse order -/
noncomputable def perMesh2 : GMesh ℝ where
  numElems := 4
  npe := 4
  eind := [5, 6, 8, 0, 8, 0, 2, 3, 4, 5, 7, 8, 7, 8, 1, 2]
  coord := [[2, 1], [0, 2], [1, 2], [2, 2], [0, 0], [1, 0], [2, 0], [0, 1], [6 / 5, 9 / 10]]
  faces := [⟨1, 2, 0, 0, 0, 1⟩, ⟨3, 2, 0, 2, 0, 1⟩, ⟨1, 1, 0, 3, 3, 1⟩, ⟨0, 1, 0, 2, 3, 1⟩,
    ⟨0, 2, 0, 1, 0, 1⟩, ⟨2, 2, 0, 3, 0, 1⟩, ⟨3, 1, 0, 1, 3, 1⟩, ⟨2, 1, 0, 0, 3, 1⟩]

theorem bij_of {N : ℕ} {f : ℕ → ℕ} (h1 : ∀ e < N, f e < N) (h2 : ∀ e < N, ∀ e' < N, f e = f e' → e = e')
    (h3 : ∀ e < N, ∃ e' < N, f e' = e) : Set.BijOn f (Set.Iio N) (Set.Iio N) :=
  ⟨fun e he => h1 e he, fun e he e' he' h => h2 e he e' he' h, fun e he => h3 e he⟩

theorem perMesh2_renumbered : Renumbered perSigma perNu perMesh perMesh2 where
  numElems := rfl
  npe := rfl
  elems := bij_of (N := 4) (by decide) (by decide) (by decide)
  numNodes := rfl
  nodes := bij_of (N := 9) (by decide) (by decide) (by decide)
  connLen := rfl
  conn := by
    have : ∀ e < 4, ∀ i < 4, [5, 6, 8, 0, 8, 0, 2, 3, 4, 5, 7, 8, 7, 8, 1, 2][perSigma e * 4 + i]? =
      ([0, 1, 3, 4, 1, 2, 4, 5, 3, 4, 6, 7, 4, 5, 7, 8][e * 4 + i]?).map perNu := by decide
    exact this
  coord := by
    intro n hn
    have hN : n = 0 ∨ n = 1 ∨ n = 2 ∨ n = 3 ∨ n = 4 ∨ n = 5 ∨ n = 6 ∨ n = 7 ∨ n = 8 := by
      have : n < 9 := hn
      omega
    rcases hN with rfl | rfl | rfl | rfl | rfl | rfl | rfl | rfl | rfl <;> rfl
  faces := by
    have h : perMesh2.faces = (perMesh.faces.map (IFace.renumber perSigma)).reverse := rfl
    rw [h]
    exact List.reverse_perm _

/-- its file -/
noncomputable def perFile2 : MeshFile ℝ where
  dim := 2
  numElems := 4
  numNodes := 9
  nIF := 8
  npe := 4
  elem2Nodes := perMesh2.eind
  nodeCoords := perMesh2.coord.flatten
  ifaceData := perMesh2.faces.flatMap fun f => [f.elemL, f.faceL, f.orientL, f.elemR, f.faceR, f.orientR]
  bgroups := []

theorem perFile2_of : MeshFileOf perMesh2 2 perFile2 where
  fileDim := rfl
  numElems := rfl
  numNodes := rfl
  numFaces := rfl
  npe := rfl
  conn := rfl
  rows := by simp [perMesh2]
  coords := rfl
  faces := rfl
  bnd := ⟨[], rfl, by simp, by simp⟩

theorem perLaunch2 : LaunchOK perMesh2 2 perPart (twoRanks perPart) where
  pos := by omega
  parts := ⟨rfl, perPart_ok.lt⟩
  metis := fun _ _ _ => rfl
  enum := twoRanks_enum _
  busy := by decide

/-- The hypotheses of C78 hold; the run on the renumbered mesh is accepted, and both executables can be run to the end with
solution files that differ in the numbers only. -/
example (un un' : Unset) : ∃ job job' ranks ranks' c c' k k' f f' g g',
    readJob perDeck (fun _ _ => some perFile) un 2 2 = some job ∧ readJob perDeck (fun _ _ => some perFile2) un' 2 2 = some job' ∧
    Proto.Exec (jobProg job ranks 2 fun _ _ l => l.reverse) (jobInit job ranks) c k ∧ LoopDone job 2 c ∧
    Proto.Exec (jobProg job' ranks' 2 fun _ _ l => l) (jobInit job' ranks') c' k' ∧ LoopDone job' 2 c' ∧
    jobFile job ranks 2 2 (fun _ => [1, 0]) c = some f ∧ jobFile job' ranks' 2 2 (fun _ => [0, 1]) c' = some f' ∧
    convert 2 f = some g ∧ convert 2 f' = some g' ∧ RenumberedFile perSigma perNu g g' := by
  have h' := C78_accepts_quad perRun (deck' := perDeck) (fs' := fun _ _ => some perFile2) perMesh2_renumbered perDeck_asks
    ⟨_, _, rfl, rfl, perFile2_of⟩
  obtain ⟨job, ranks, c, f, h1, h2, ⟨k, h3⟩, h4, h5, h6⟩ := perProgram un
  obtain ⟨-, job', a1, a2, a3⟩ := C67_program_quad _ _ _ _ _ _ _ _ _ _ _ h' 2 perPart (twoRanks perPart) perLaunch2 un'
    (fun _ _ l => l) (fun _ _ l => .refl l) (fun _ => [0, 1]) (fun _ => by decide)
  have : ∀ r, ∃ q, r < 2 → readyRank job' un' 2 2 (twoRanks perPart r) r = some q := by
    intro r
    by_cases hr : r < 2
    · obtain ⟨q, hq⟩ := Option.ne_none_iff_exists'.1 (a2 r hr)
      exact ⟨q, fun _ => hq⟩
    · exact ⟨(Option.ne_none_iff_exists'.1 (a2 0 (by omega))).choose, fun h => absurd h hr⟩
  choose ranks' hranks' using this
  obtain ⟨-, ⟨c', k', hx', hd'⟩, -⟩ := a3 ranks' hranks' _ 0 .refl
  obtain ⟨f, f', g, g', r1, r2, r3, r4, r5⟩ := C78_program_quad perRun (deck' := perDeck) (fs' := fun _ _ => some perFile2)
    perMesh2_renumbered perDeck_asks ⟨_, _, rfl, rfl, perFile2_of⟩
    2 2 perPart perPart (twoRanks perPart) (twoRanks perPart) perLaunch perLaunch2 un un' (fun _ _ l => l.reverse) (fun _ _ l => l)
    (fun _ _ l => List.reverse_perm l) (fun _ _ l => .refl l) (fun _ => [1, 0]) (fun _ => [0, 1]) (fun _ => by decide)
    (fun _ => by decide) job job' ranks ranks' h1 a1 h2 hranks' c c' k k' h3 hx' h4 hd'
  exact ⟨job, job', ranks, ranks', c, c', k, k', f, f', g, g', h1, a1, h3, h4, hx', hd', r1, r2, r3, r4, r5⟩

/-- `slabMesh` with its two elements exchanged, the same nodes, and the faces in another order -/
noncomputable def slabMesh2 : GMesh ℝ :=
  { slabMesh with
    eind := [1, 2, 4, 5, 7, 8, 10, 11, 0, 1, 3, 4, 6, 7, 9, 10]
    faces := [⟨0, 2, 0, 1, 4, 5⟩, ⟨1, 2, 0, 0, 4, 5⟩, ⟨1, 3, 0, 1, 1, 5⟩, ⟨0, 3, 0, 0, 1, 5⟩, ⟨1, 5, 0, 1, 0, 4⟩,
      ⟨0, 5, 0, 0, 0, 4⟩] }

theorem slabMesh2_renumbered : Renumbered (fun e => 1 - e) id slabMesh slabMesh2 where
  numElems := rfl
  npe := rfl
  elems := bij_of (N := 2) (by decide) (by decide) (by decide)
  numNodes := rfl
  nodes := Set.bijOn_id _
  connLen := rfl
  conn := by
    have : ∀ e < 2, ∀ i < 8, [1, 2, 4, 5, 7, 8, 10, 11, 0, 1, 3, 4, 6, 7, 9, 10][(1 - e) * 8 + i]? =
      ([0, 1, 3, 4, 6, 7, 9, 10, 1, 2, 4, 5, 7, 8, 10, 11][e * 8 + i]?).map id := by decide
    exact this
  coord := fun _ _ => rfl
  faces := by
    show List.Perm _ (List.map (IFace.renumber fun e => 1 - e) [⟨0, 2, 0, 1, 4, 5⟩, ⟨1, 2, 0, 0, 4, 5⟩, ⟨0, 3, 0, 0, 1, 5⟩,
      ⟨1, 3, 0, 1, 1, 5⟩, ⟨0, 5, 0, 0, 0, 4⟩, ⟨1, 5, 0, 1, 0, 4⟩])
    exact .swap _ _ _

/-- The two elements have exchanged their coefficients, in every run. -/
example (start : (ℕ → ℝ) → ℕ → ℝ) (st : Stepper) (dt : ℝ) (n : ℕ) : ∀ b < 8, ∀ s < 5,
    hexRun .lagrange 1 slabMesh2 slabGas start st dt n 1 b s = hexRun .lagrange 1 slabMesh slabGas start st dt n 0 b s ∧
    hexRun .lagrange 1 slabMesh2 slabGas start st dt n 0 b s = hexRun .lagrange 1 slabMesh slabGas start st dt n 1 b s :=
  fun b hb s hs =>
    ⟨C78_run_hex slabMesh2_renumbered slabMesh_ok slabMesh_hex .lagrange 1 slabGas start st dt n 0 (by decide) b hb s hs,
      C78_run_hex slabMesh2_renumbered slabMesh_ok slabMesh_hex .lagrange 1 slabGas start st dt n 1 (by decide) b hb s hs⟩

end DG
