import Verif.Props.Post
import Verif.Props.EulerExample
import Verif.Props.FreeStreamHexExample

/-!
Concrete cases of the hypotheses of C67 and C68: the vortex on four distorted quadrilaterals and a uniform flow
through two parallelepipeds, each on two ranks with one time step.
-/
namespace DG
open Finset

/-- the file of `perMesh` -/
noncomputable def perFile : MeshFile ℝ where
  dim := 2
  numElems := 4
  numNodes := 9
  nIF := 8
  npe := 4
  elem2Nodes := [0, 1, 3, 4, 1, 2, 4, 5, 3, 4, 6, 7, 4, 5, 7, 8]
  nodeCoords := [0, 0, 1, 0, 2, 0, 0, 1, 6 / 5, 9 / 10, 2, 1, 0, 2, 1, 2, 2, 2]
  ifaceData := [0, 1, 0, 1, 3, 1, 2, 1, 0, 3, 3, 1, 0, 2, 0, 2, 0, 1, 1, 2, 0, 3, 0, 1,
    1, 1, 0, 0, 3, 1, 3, 1, 0, 2, 3, 1, 2, 2, 0, 0, 0, 1, 3, 2, 0, 1, 0, 1]
  bgroups := []

theorem perFile_of : MeshFileOf perMesh 2 perFile where
  fileDim := rfl
  numElems := rfl
  numNodes := rfl
  numFaces := rfl
  npe := rfl
  conn := rfl
  rows := by simp [perMesh]
  coords := rfl
  faces := rfl
  bnd := ⟨[], rfl, by simp, by simp⟩

/-- the input file: Legendre basis of order 0, one forward Euler step of length 1/100 -/
noncomputable def perDeck : Deck where
  dim := some 2
  order := some 0
  basis := some "LegendreQuad"
  quad := none
  meshFile := some "mesh.h5"
  parts := ⟨false, none⟩
  boundaries := []
  solver := ⟨some "IsentropicVortex", some "Euler", none, none, some 1, none, some (1 / 100), some (1 / 80), none⟩
  icData := some [1, 1, 0, 1, 1]

theorem perDeck_asks : DeckAsks perDeck 2 0 (quadType .legendre) vortexGas .ForwardEuler (1 / 100) (1 / 80) where
  runDim := rfl
  order := rfl
  basisName := rfl
  quad := by simp [perDeck]
  parts := rfl
  ic := rfl
  icData := rfl
  icSize := by simp [vortexGas]
  euler := ⟨rfl, rfl⟩
  flux := .inr ⟨rfl, rfl⟩
  gamma := .inr ⟨rfl, by norm_num [vortexGas]⟩
  gas := .inl rfl
  stepper := .inr ⟨rfl, rfl⟩
  timestep := rfl
  tend := rfl

theorem perRun : QuadRunOK perDeck (fun _ _ => some perFile) perMesh .legendre 0 vortexGas
    (fun x => vortexState vortexGas.γ 1 1 0 1 1 (x 0) (x 1)) .ForwardEuler (1 / 100) (1 / 80) 1 where
  asks := perDeck_asks
  file := ⟨_, _, rfl, rfl, perFile_of⟩
  mesh := perMesh_ok
  quads := perMesh_quad
  sides := perMesh_sides
  used := by unfold AllNodesUsed; decide
  nodes := by decide
  order := ⟨by omega, by simp [famOK]⟩
  gas := by norm_num [vortexGas]
  startOK := vortexGas_start
  step := by norm_num
  before := by norm_num
  after := by norm_num
  count := by norm_num
  admissible := by
    intro i hi
    obtain rfl : i = 0 := by omega
    have hγ : 1 < vortexGas.γ := by norm_num [vortexGas]
    have hst := C65_start_admissible vortexGas hγ 2 _ vortexGas_start (fun h => by simp [vortexGas] at h)
    exact states_of_cells perMesh_ok (perMesh_quad.conforming .legendre 0 4 _ _) (quad_order_zero .legendre 4 _ _) rfl _
      fun e he => quad_init_zero perMesh_quad .legendre hγ _ hst e he

/-- two ranks, hash tables enumerated forwards on rank 0 and backwards on rank 1 -/
noncomputable def twoRanks (part : List ℕ) (r : ℕ) : RankEnv :=
  ⟨if r = 0 then id else List.reverse, part, fun _ _ _ => r, fun _ _ _ => 1, fun _ _ _ => 2, fun _ _ _ => 3⟩

theorem twoRanks_enum (part : List ℕ) (r : ℕ) : EnumOK (twoRanks part r).enum := by
  intro l
  by_cases h : r = 0
  · simp [twoRanks, h]
  · simp [twoRanks, h, List.reverse_perm]

theorem perLaunch : LaunchOK perMesh 2 perPart (twoRanks perPart) where
  pos := by omega
  parts := perPart_ok
  metis := fun _ _ _ => rfl
  enum := twoRanks_enum _
  busy := by decide

/-- C67 applies: the executable finishes and writes the file of one step of the textbook scheme. -/
theorem perProgram (un : Unset) : ∃ job ranks c f, readJob perDeck (fun _ _ => some perFile) un 2 2 = some job ∧
    (∀ r < 2, readyRank job un 2 2 (twoRanks perPart r) r = some (ranks r)) ∧
    (∃ k, Proto.Exec (jobProg job ranks 2 fun _ _ l => l.reverse) (jobInit job ranks) c k) ∧ LoopDone job 2 c ∧
    jobFile job ranks 2 2 (fun _ => [1, 0]) c = some f ∧
    convert 2 f = some (serialFile perMesh 2 1 4 (1 / 100) (quadRun .legendre 0 perMesh vortexGas
      (fun x => vortexState vortexGas.γ 1 1 0 1 1 (x 0) (x 1)) .FE (1 / 100) 1)) := by
  obtain ⟨-, job, h1, h2, h3⟩ := C67_program_quad _ _ _ _ _ _ _ _ _ _ _ perRun 2 perPart (twoRanks perPart) perLaunch un
    (fun _ _ l => l.reverse) (fun _ _ l => List.reverse_perm l) (fun _ => [1, 0]) (fun _ => by decide)
  have : ∀ r, ∃ q, r < 2 → readyRank job un 2 2 (twoRanks perPart r) r = some q := by
    intro r
    by_cases hr : r < 2
    · obtain ⟨q, hq⟩ := Option.ne_none_iff_exists'.1 (h2 r hr)
      exact ⟨q, fun _ => hq⟩
    · exact ⟨(Option.ne_none_iff_exists'.1 (h2 0 (by omega))).choose, fun h => absurd h hr⟩
  choose ranks hranks using this
  obtain ⟨-, ⟨c, k, hx, hd⟩, -⟩ := h3 ranks hranks _ 0 .refl
  obtain ⟨-, -, h4⟩ := h3 ranks hranks c k hx
  obtain ⟨f, g, f1, f2, f3, -⟩ := h4 hd
  refine ⟨job, ranks, c, f, h1, hranks, ⟨k, hx⟩, hd, f1, ?_⟩
  rw [f2, f3]
  norm_num [StepperType.scheme]

/-! ### hexahedra -/

/-- the file of `slabMesh` -/
noncomputable def slabFile : MeshFile ℝ where
  dim := 3
  numElems := 2
  numNodes := 12
  nIF := 6
  npe := 8
  elem2Nodes := slabMesh.eind
  nodeCoords := slabMesh.coord.flatten
  ifaceData := [0, 2, 0, 1, 4, 5, 1, 2, 0, 0, 4, 5, 0, 3, 0, 0, 1, 5, 1, 3, 0, 1, 1, 5,
    0, 5, 0, 0, 0, 4, 1, 5, 0, 1, 0, 4]
  bgroups := []

theorem slabFile_of : MeshFileOf slabMesh 3 slabFile where
  fileDim := rfl
  numElems := rfl
  numNodes := rfl
  numFaces := rfl
  npe := rfl
  conn := rfl
  rows := by simp [slabMesh]
  coords := rfl
  faces := rfl
  bnd := ⟨[], rfl, by simp, by simp⟩

/-- a uniform flow, HLLC flux -/
noncomputable def slabGas : Physics := ⟨.Euler, .HLLC, .Uniform, [1, 1, 1, 0, 5], 14 / 10, 28705 / 100⟩

theorem slabGas_start : StartState slabGas 3 fun _ s => slabGas.icData.getD s 0 :=
  .uniform 3 (.inr rfl) rfl (by simp [slabGas])

theorem slabGas_admissible : Admissible 3 slabGas.γ (fun v => slabGas.icData.getD v 0) := by
  constructor
  · simp [slabGas]
  · simp [slabGas, pressure, internalEnergy, inner', vel, Finset.sum_range_succ]
    norm_num

/-- the input file: Lagrange basis of order 0, one forward Euler step -/
noncomputable def slabDeck : Deck where
  dim := some 3
  order := some 0
  basis := some "LagrangeHex"
  quad := some "GaussLegendre"
  meshFile := some "mesh.h5"
  parts := ⟨false, none⟩
  boundaries := []
  solver := ⟨some "Uniform", some "Euler", some "HLLC", none, none, some "FE", some (1 / 10), some (1 / 10), some 0⟩
  icData := some [1, 1, 1, 0, 5]

theorem slabDeck_asks : DeckAsks slabDeck 3 0 (hexType .lagrange) slabGas .ForwardEuler (1 / 10) (1 / 10) where
  runDim := rfl
  order := rfl
  basisName := rfl
  quad := by simp [slabDeck]
  parts := rfl
  ic := rfl
  icData := rfl
  icSize := by simp [slabGas]
  euler := ⟨rfl, rfl⟩
  flux := .inl rfl
  gamma := .inr ⟨rfl, rfl⟩
  gas := .inr ⟨rfl, rfl⟩
  stepper := .inl rfl
  timestep := rfl
  tend := rfl

theorem slabRun : HexRunOK slabDeck (fun _ _ => some slabFile) slabMesh .lagrange 0 slabGas
    (fun _ s => slabGas.icData.getD s 0) .ForwardEuler (1 / 10) (1 / 10) 1 where
  asks := slabDeck_asks
  file := ⟨_, _, rfl, rfl, slabFile_of⟩
  mesh := slabMesh_ok
  hexes := slabMesh_hex
  areas := slabMesh_faces
  used := by unfold AllNodesUsed; decide
  nodes := by decide
  order := ⟨by omega, by simp [famOK]⟩
  small := by omega
  gas := by norm_num [slabGas]
  startOK := slabGas_start
  step := by norm_num
  before := by norm_num
  after := by norm_num
  count := by norm_num
  admissible := by
    intro i hi
    obtain rfl : i = 0 := by omega
    have hγ : 1 < slabGas.γ := by norm_num [slabGas]
    have hst := C65_start_admissible slabGas hγ 3 _ slabGas_start (fun _ => slabGas_admissible)
    exact states_of_cells slabMesh_ok (slabMesh_hex.conforming .lagrange 0 5 _ _) (hex_order_zero .lagrange 5 _ _) rfl _
      fun e he => hex_init_zero slabMesh_hex .lagrange hγ _ hst e he

theorem slabLaunch : LaunchOK slabMesh 2 slabPart (twoRanks slabPart) where
  pos := by omega
  parts := slabPart_ok
  metis := fun _ _ _ => rfl
  enum := twoRanks_enum _
  busy := by decide

/-- C68 applies: the post-processor, on two ranks with other scratch memory, prints the distance of that step
from the vortex. -/
example (un un' : Unset) (Uq0 : ℕ → ℕ → ℕ → ℕ → ℝ) : ∃ f job' qs N,
    convert 2 f = some (serialFile perMesh 2 1 4 (1 / 100) (quadRun .legendre 0 perMesh vortexGas
      (fun x => vortexState vortexGas.γ 1 1 0 1 1 (x 0) (x 1)) .FE (1 / 100) 1)) ∧
    readPost perDeck (fun _ _ => some perFile) un' 2 2 = some job' ∧
    (∀ r < 2, postRank job' 2 2 (twoRanks perPart (1 - r)) f r = some (qs r)) ∧
    postPrint job' un' 2 2 Uq0 qs = some N ∧ ∀ v < 4, N v = quadDist .legendre 0 perMesh
      (fun x => vortexState vortexGas.γ 1 1 0 1 1 (x 0) (x 1)) (quadRun .legendre 0 perMesh vortexGas
      (fun x => vortexState vortexGas.γ 1 1 0 1 1 (x 0) (x 1)) .FE (1 / 100) 1) v := by
  obtain ⟨job, ranks, c, f, h1, h2, ⟨k, h3⟩, h4, h5, h6⟩ := perProgram un
  have hl' : LaunchOK perMesh 2 perPart fun r => twoRanks perPart (1 - r) :=
    ⟨perLaunch.pos, perLaunch.parts, fun _ _ _ => rfl, fun _ => twoRanks_enum _ _, perLaunch.busy⟩
  obtain ⟨job', p1, p2, p3⟩ := C68_post_quad _ _ _ _ _ _ _ _ _ _ _ perRun 2 perPart (twoRanks perPart) perLaunch un
    (fun _ _ l => l.reverse) (fun _ _ l => List.reverse_perm l) (fun _ => [1, 0]) (fun _ => by decide) job ranks h1 h2 c k h3 h4
    f h5 (fun r => twoRanks perPart (1 - r)) hl' un' Uq0
  have : ∀ r, ∃ q, r < 2 → postRank job' 2 2 (twoRanks perPart (1 - r)) f r = some q := by
    intro r
    by_cases hr : r < 2
    · obtain ⟨q, hq⟩ := Option.ne_none_iff_exists'.1 (p2 r hr)
      exact ⟨q, fun _ => hq⟩
    · exact ⟨(Option.ne_none_iff_exists'.1 (p2 0 (by omega))).choose, fun h => absurd h hr⟩
  choose qs hqs using this
  obtain ⟨N, hN, hv⟩ := p3 qs hqs
  exact ⟨f, job', qs, N, h6, p1, hqs, hN, hv⟩

/-- C67 applies to the hexahedra. -/
example (un : Unset) : ∃ job ranks c f, readJob slabDeck (fun _ _ => some slabFile) un 3 2 = some job ∧
    (∀ r < 2, readyRank job un 3 2 (twoRanks slabPart r) r = some (ranks r)) ∧
    (∃ k, Proto.Exec (jobProg job ranks 2 fun _ _ l => l.reverse) (jobInit job ranks) c k) ∧ LoopDone job 2 c ∧
    jobFile job ranks 3 2 (fun _ => [1, 0]) c = some f ∧
    convert 2 f = some (serialFile slabMesh 3 1 5 (1 / 10) (hexRun .lagrange 0 slabMesh slabGas
      (fun _ s => slabGas.icData.getD s 0) .FE (1 / 10) 1)) := by
  obtain ⟨-, job, h1, h2, h3⟩ := C67_program_hex _ _ _ _ _ _ _ _ _ _ _ slabRun 2 slabPart (twoRanks slabPart) slabLaunch
    slabMesh_cut un
    (fun _ _ l => l.reverse) (fun _ _ l => List.reverse_perm l) (fun _ => [1, 0]) (fun _ => by decide)
  have : ∀ r, ∃ q, r < 2 → readyRank job un 3 2 (twoRanks slabPart r) r = some q := by
    intro r
    by_cases hr : r < 2
    · obtain ⟨q, hq⟩ := Option.ne_none_iff_exists'.1 (h2 r hr)
      exact ⟨q, fun _ => hq⟩
    · exact ⟨(Option.ne_none_iff_exists'.1 (h2 0 (by omega))).choose, fun h => absurd h hr⟩
  choose ranks hranks using this
  obtain ⟨-, ⟨c, k, hx, hd⟩, -⟩ := h3 ranks hranks _ 0 .refl
  obtain ⟨-, -, h4⟩ := h3 ranks hranks c k hx
  obtain ⟨f, g, f1, f2, f3, -⟩ := h4 hd
  refine ⟨job, ranks, c, f, h1, hranks, ⟨k, hx⟩, hd, f1, ?_⟩
  rw [f2, f3]
  norm_num [StepperType.scheme]

end DG
