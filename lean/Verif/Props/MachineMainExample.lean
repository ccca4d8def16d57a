import Verif.Props.MachineMain
import Verif.Props.RoundingSetupExample
import Verif.Props.FreeStreamHexExample

/-!
A case that meets the hypotheses of C85.
-/
namespace DG

/-- a gas in uniform motion -/
noncomputable def breezeGas (f : NumericalFluxType) : Physics := ⟨.Euler, f, .Uniform, [1, 1, 0, 4], 14 / 10, 28705 / 100⟩

theorem breezeGas_start (f : NumericalFluxType) : StartState (breezeGas f) 2 fun _ s => (breezeGas f).icData.getD s 0 :=
  .uniform 2 (.inl rfl) rfl (by simp [breezeGas])

theorem breezeGas_admissible (f : NumericalFluxType) : Admissible 2 (breezeGas f).γ (fun v => (breezeGas f).icData.getD v 0) := by
  constructor
  · simp [breezeGas]
  · simp [breezeGas, pressure, internalEnergy, inner', vel, Finset.sum_range_succ]
    norm_num

/-- the input file on a computer of `q` bits: heat ratio and gas constant by default, flux and stepper by name -/
noncomputable def breezeDeck (q : ℕ) (big : ℝ) (t : Fam) (p : ℕ) (f : NumericalFluxType) (st : StepperType) (dt tend : ℝ) :
    Fl.Deck (bits_round q big).arith.K where
  dim := some 2
  order := some p
  basis := some (quadType t).label
  quad := none
  meshFile := some "mesh.h5"
  parts := ⟨false, none⟩
  boundaries := []
  icName := some "Uniform"
  physName := some "Euler"
  fluxName := some f.label
  gamma := none
  gasConstant := none
  stepperName := some st.label
  timestep := some (toBits q big dt)
  tend := some (toBits q big tend)
  icData := some [toBits q big 1, toBits q big 1, toBits q big 0, toBits q big 4]

theorem breezeDeck_read (q : ℕ) (big : ℝ) (t : Fam) (p : ℕ) (f : NumericalFluxType) (st : StepperType) (dt tend : ℝ) {κ : ℝ} (hκ : 5 ≤ κ) :
    DeckRead (bits_round q big).arith κ (breezeDeck q big t p f st dt tend) 2 p (quadType t) (breezeGas f) st (toBits q big dt)
      (toBits q big tend) where
  runDim := rfl
  order := rfl
  basisName := rfl
  quad := by simp [breezeDeck]
  parts := rfl
  ic := rfl
  icData := by
    refine ⟨_, rfl, rfl, fun i hi => ?_⟩
    have key : ∀ x : ℝ, |x| ≤ 4 → (bits_round q big).arith.Close κ (toBits q big x) x := fun x hx => toBits_close q big (by linarith)
    have hi' : i < 4 := hi
    interval_cases i
    · exact key 1 (by norm_num)
    · exact key 1 (by norm_num)
    · exact key 0 (by norm_num)
    · exact key 4 (by norm_num [abs_of_nonneg])
  icSize := by simp [breezeGas]
  euler := ⟨rfl, rfl⟩
  flux := .inl rfl
  gamma := .inr ⟨rfl, rfl⟩
  gas := .inr ⟨rfl, rfl⟩
  stepper := .inl rfl
  timestep := rfl
  tend := rfl

/-- the mesh file on that computer -/
noncomputable def breezeFile (q : ℕ) (big : ℝ) : MeshFile (bits_round q big).arith.K where
  dim := 2
  numElems := 4
  numNodes := 9
  nIF := 8
  npe := 4
  elem2Nodes := perMesh.eind
  nodeCoords := (roundMesh q big perMesh).coord.flatten
  ifaceData := perMesh.faces.flatMap fun f => [f.elemL, f.faceL, f.orientL, f.elemR, f.faceR, f.orientR]
  bgroups := []

theorem breezeFile_of (q : ℕ) (big : ℝ) : MeshFileOf (roundMesh q big perMesh) 2 (breezeFile q big) where
  fileDim := rfl
  numElems := rfl
  numNodes := rfl
  numFaces := rfl
  npe := rfl
  conn := rfl
  rows := by simp [perMesh, roundMesh]
  coords := rfl
  faces := rfl
  bnd := ⟨[], rfl, by simp, by simp⟩

/-- a computer, a time step and a final time for given thresholds -/
theorem breeze_numbers (T C h0 u0 B : ℝ) (hT : 0 < T) (hh : 0 < h0) (hu : 0 < u0) :
    ∃ (n : ℕ) (x : ℝ), 0 < (bits_round n B).arith.u ∧ (bits_round n B).arith.u ≤ u0 ∧ B ≤ (bits_round n B).arith.big ∧
      (bits_round n B).arith.fin (toBits n B (x / 2)) ∧ 0 < (bits_round n B).arith.val (toBits n B (x / 2)) ∧
      (bits_round n B).arith.val (toBits n B (x / 2)) ≤ h0 ∧
      C * (bits_round n B).arith.u ≤ (bits_round n B).arith.val (toBits n B (x / 2)) ∧ (bits_round n B).arith.fin (toBits n B x) ∧
      (bits_round n B).arith.val (toBits n B (x / 2)) ≤ (bits_round n B).arith.val (toBits n B x) ∧
      (bits_round n B).arith.val (toBits n B x) ≤ T / 2 ∧
      (bits_round n B).arith.val (toBits n B x) ≤ (2 ^ 31 - 2) * (bits_round n B).arith.val (toBits n B (x / 2)) := by
  set x : ℝ := min h0 (T / 4) with hx
  have hx0 : 0 < x := lt_min hh (by linarith)
  have hxh : x ≤ h0 := min_le_left _ _
  have hxT : x ≤ T / 4 := min_le_right _ _
  set s : ℝ := x / 16 / (|C| + x + 1) with hs
  have hs0 : 0 < s := by positivity
  obtain ⟨n, hn⟩ := exists_pow_lt_of_lt_one (lt_min hu hs0) (show (1 / 2 : ℝ) < 1 by norm_num)
  have hn' : (2 : ℝ) ^ (-(n : ℤ)) < min u0 s := by
    rw [zpow_neg, zpow_natCast, ← one_div, ← one_div_pow]; exact hn
  have hpos : (0 : ℝ) < 2 ^ (-(n : ℤ)) := zpow2_pos _
  have hA : (bits_round n B).arith.u = 2 ^ (-(n : ℤ)) := rfl
  have hB : (bits_round n B).arith.big = B := rfl
  have hdt := toBits_close n B (x := x / 2) le_rfl
  have hte := toBits_close n B (x := x) le_rfl
  have hus : (bits_round n B).arith.u ≤ s := by rw [hA]; exact hn'.le.trans (min_le_right _ _)
  have hse : s * (|C| + x + 1) = x / 16 := by rw [hs]; field_simp
  have hu0 : 0 < (bits_round n B).arith.u := by rw [hA]; exact hpos
  have b1 : (bits_round n B).arith.u * (|C| + x + 1) ≤ x / 16 := by rw [← hse]; gcongr
  have b3 : 0 ≤ (bits_round n B).arith.u * |C| := by positivity
  have b4 : C * (bits_round n B).arith.u ≤ (bits_round n B).arith.u * |C| := by rw [mul_comm]; gcongr; exact le_abs_self C
  have b5 : 0 < (bits_round n B).arith.u * x := by positivity
  obtain ⟨f1, f2⟩ := hdt
  obtain ⟨f3, f4⟩ := hte
  rw [abs_of_pos (by positivity : 0 < x / 2)] at f2
  rw [abs_of_pos hx0] at f4
  have b6 := abs_le.1 f2
  have b7 := abs_le.1 f4
  refine ⟨n, x, hu0, by rw [hA]; exact hn'.le.trans (min_le_left _ _), hB.ge, f1, ?_, ?_, ?_, f3, ?_, ?_, ?_⟩
  · nlinarith [b6.1]
  · nlinarith [b6.2]
  · nlinarith [b6.1]
  · nlinarith [b6.2, b7.1]
  · nlinarith [b7.2]
  · have : (bits_round n B).arith.val (toBits n B x) ≤ 3 * (bits_round n B).arith.val (toBits n B (x / 2)) := by nlinarith [b6.1, b7.2]
    have h0 : 0 ≤ (bits_round n B).arith.val (toBits n B (x / 2)) := by nlinarith [b6.1]
    nlinarith

/-- All hypotheses of `C85_program_quad` are met by a uniform flow on `perMesh`, at every order, with both bases, fluxes and
steppers: there are a solution and a `κ`, and whatever the constants are, a computer, an input file, a mesh file, and a launch on two
ranks; the run takes two steps, up to roundoff. -/
theorem breeze_case (t : Fam) (p : ℕ) (hp : orderFine t p) (f : NumericalFluxType) (st : StepperType) :
    ∃ (T T1 : ℝ) (y : ℝ → Coeffs ℝ) (κ : ℝ), 0 ≤ T ∧ T1 < T ∧ StartState (breezeGas f) 2 (fun _ s => (breezeGas f).icData.getD s 0) ∧
    ExactSolution (quadEuler t p f (14 / 10)) perMesh.numElems T
      (fun _ => globalRHS (quadEuler t p f (14 / 10)) perMesh (quadGeom t p perMesh)) y ∧
    (∀ s ∈ Set.Icc 0 T, StatesRegular f (14 / 10) (quadEuler t p f (14 / 10)) perMesh (quadGeom t p perMesh) (y s)) ∧
    AgreeIn (quadEuler t p f (14 / 10)) perMesh.numElems (y 0) (quadInit t p perMesh fun _ s => (breezeGas f).icData.getD s 0) ∧
    ∀ C h0 u0 B : ℝ, 0 < h0 → 0 < u0 → ∃ A : Arith, 0 < A.u ∧ A.u ≤ u0 ∧ B ≤ A.big ∧
      (∃ toInt, Truncates A toInt) ∧
      ∃ (deck : Fl.Deck A.K) (dt tend : A.K), DeckRead A κ deck 2 p (quadType t) (breezeGas f) st dt tend ∧
        A.fin dt ∧ 0 < A.val dt ∧ A.val dt ≤ h0 ∧ C * A.u ≤ A.val dt ∧
        A.fin tend ∧ A.val dt ≤ A.val tend ∧ A.val tend ≤ T1 ∧ A.val tend ≤ (2 ^ 31 - 2) * A.val dt ∧
        ∃ fs m', MeshGiven A κ 2 deck fs perMesh m' ∧ ∃ env, LaunchOK m' 2 perPart env := by
  have hγ : (1 : ℝ) < 14 / 10 := by norm_num
  have hreg := C82_uniform_regular_quad perMesh perMesh_ok perMesh_quad t p hp f (14 / 10) hγ _ (breezeGas_admissible f)
    (fun _ s => (breezeGas f).icData.getD s 0) (fun _ _ _ => rfl)
  obtain ⟨T, hT, y, h0, hy, hr⟩ := C82_solution_exists perMesh_ok (quadEuler_scheme t p f (14 / 10)) hγ
    (perMesh_quad.conforming t p 4 _ _) (quadDisc_order t p 4 _ _) _ hreg
  obtain ⟨k1, hk1⟩ := C84_rounded_files 2 perMesh
  refine ⟨T, T / 2, y, max k1 5, hT.le, by linarith, breezeGas_start f, hy, hr, h0, ?_⟩
  intro C h0 u0 B hh hu
  obtain ⟨n, x, g1, g2, g3, g4, g5, g6, g7, g8, g9, g10, g11⟩ := breeze_numbers T C h0 u0 B hT hh hu
  refine ⟨(bits_round n B).arith, g1, g2, g3,
    ⟨fun a => some ⌊(bits_round n B).arith.val a⌋, fun _ _ _ _ => rfl⟩,
    breezeDeck n B t p f st (x / 2) x, toBits n B (x / 2), toBits n B x, breezeDeck_read n B t p f st _ _ (le_max_right _ _),
    g4, g5, g6, g7, g8, g9, g10, g11, fun _ _ => some (breezeFile n B), roundMesh n B perMesh,
    ⟨⟨_, _, rfl, rfl, breezeFile_of n B⟩, ?_, roundMesh_ok n B perMesh_ok, ?_, ?_⟩,
    fun r => ⟨if r = 0 then id else List.reverse, perPart, fun _ _ _ => 1, fun _ _ _ => 0, fun _ _ _ => 0, fun _ _ _ => 1⟩, ?_⟩
  · obtain ⟨a, b, c, d⟩ := hk1 n B
    refine ⟨a, b, c, fun e he i hi j hj => ⟨(d e he i hi j hj).1, (d e he i hi j hj).2.trans ?_⟩⟩
    exact mul_le_mul_of_nonneg_right (le_max_left _ _) g1.le
  · intro g hg
    have hg' : g < perMesh.coord.length := by simpa [roundMesh] using hg
    have : AllNodesUsed perMesh := by unfold AllNodesUsed; decide
    exact this g hg'
  · simp [roundMesh, perMesh]
  · refine ⟨by omega, ⟨perPart_ok.len, perPart_ok.lt⟩, fun _ _ _ => rfl, fun r l => ?_, ?_⟩
    · by_cases h : r = 0
      · simp [h]
      · simp [h, List.reverse_perm]
    · show ∀ r < 2, 3 ≤ (perMesh.faces.filter fun f => decide (Touches perPart r f)).length
      decide

/-- a gas in uniform motion in three dimensions -/
noncomputable def breezeGas3 (f : NumericalFluxType) : Physics := ⟨.Euler, f, .Uniform, [1, 1, 0, 1, 6], 14 / 10, 28705 / 100⟩

theorem breezeGas3_start (f : NumericalFluxType) : StartState (breezeGas3 f) 3 fun _ s => (breezeGas3 f).icData.getD s 0 :=
  .uniform 3 (.inr rfl) rfl (by simp [breezeGas3])

theorem breezeGas3_admissible (f : NumericalFluxType) : Admissible 3 (breezeGas3 f).γ (fun v => (breezeGas3 f).icData.getD v 0) := by
  constructor
  · simp [breezeGas3]
  · simp [breezeGas3, pressure, internalEnergy, inner', vel, Finset.sum_range_succ]
    norm_num

/-- the input file -/
noncomputable def breezeDeck3 (q : ℕ) (big : ℝ) (t : Fam) (p : ℕ) (f : NumericalFluxType) (st : StepperType) (dt tend : ℝ) :
    Fl.Deck (bits_round q big).arith.K where
  dim := some 3
  order := some p
  basis := some (hexType t).label
  quad := some "GaussLobatto"
  meshFile := some "mesh.h5"
  parts := ⟨false, none⟩
  boundaries := []
  icName := some "Uniform"
  physName := some "Euler"
  fluxName := some f.label
  gamma := some (toBits q big (14 / 10))
  gasConstant := some (toBits q big (28705 / 100))
  stepperName := some st.label
  timestep := some (toBits q big dt)
  tend := some (toBits q big tend)
  icData := some [toBits q big 1, toBits q big 1, toBits q big 0, toBits q big 1, toBits q big 6]

theorem breezeDeck3_read (q : ℕ) (big : ℝ) (t : Fam) (p : ℕ) (f : NumericalFluxType) (st : StepperType) (dt tend : ℝ) {κ : ℝ} (hκ : 300 ≤ κ) :
    DeckRead (bits_round q big).arith κ (breezeDeck3 q big t p f st dt tend) 3 p (hexType t) (breezeGas3 f) st (toBits q big dt)
      (toBits q big tend) where
  runDim := rfl
  order := rfl
  basisName := rfl
  quad := by simp [breezeDeck3]
  parts := rfl
  ic := rfl
  icData := by
    refine ⟨_, rfl, rfl, fun i hi => ?_⟩
    have key : ∀ x : ℝ, |x| ≤ 6 → (bits_round q big).arith.Close κ (toBits q big x) x := fun x hx => toBits_close q big (by linarith)
    have hi' : i < 5 := hi
    interval_cases i
    · exact key 1 (by norm_num)
    · exact key 1 (by norm_num)
    · exact key 0 (by norm_num)
    · exact key 1 (by norm_num)
    · exact key 6 (by norm_num [abs_of_nonneg])
  icSize := by simp [breezeGas3]
  euler := ⟨rfl, rfl⟩
  flux := .inl rfl
  gamma := .inl ⟨_, rfl, toBits_close q big (by rw [abs_of_pos (by norm_num [breezeGas3])]; norm_num [breezeGas3]; linarith)⟩
  gas := .inl ⟨_, rfl, toBits_close q big (by rw [abs_of_pos (by norm_num [breezeGas3])]; norm_num [breezeGas3]; linarith),
    fun h => by norm_num [breezeGas3] at h⟩
  stepper := .inl rfl
  timestep := rfl
  tend := rfl

/-- the mesh file on that computer -/
noncomputable def breezeFile3 (q : ℕ) (big : ℝ) : MeshFile (bits_round q big).arith.K where
  dim := 3
  numElems := 2
  numNodes := 12
  nIF := 6
  npe := 8
  elem2Nodes := slabMesh.eind
  nodeCoords := (roundMesh q big slabMesh).coord.flatten
  ifaceData := slabMesh.faces.flatMap fun f => [f.elemL, f.faceL, f.orientL, f.elemR, f.faceR, f.orientR]
  bgroups := []

theorem breezeFile3_of (q : ℕ) (big : ℝ) : MeshFileOf (roundMesh q big slabMesh) 3 (breezeFile3 q big) where
  fileDim := rfl
  numElems := rfl
  numNodes := rfl
  numFaces := rfl
  npe := rfl
  conn := rfl
  rows := by simp [slabMesh, roundMesh]
  coords := rfl
  faces := rfl
  bnd := ⟨[], rfl, by simp, by simp⟩

/-- All hypotheses of `C85_program_hex` are met by a uniform flow on `slabMesh`, at every order up to five: there are a solution and
a `κ`, and whatever the constants are, a computer, an input file, a mesh file, and a launch on two ranks. -/
theorem breeze_case3 (t : Fam) (p : ℕ) (hp : orderFine t p) (hp5 : p ≤ 5) (f : NumericalFluxType) (st : StepperType) :
    ∃ (T T1 : ℝ) (y : ℝ → Coeffs ℝ) (κ : ℝ), 0 ≤ T ∧ T1 < T ∧ p ≤ 5 ∧
    StartState (breezeGas3 f) 3 (fun _ s => (breezeGas3 f).icData.getD s 0) ∧
    ExactSolution (hexEuler t p f (14 / 10)) slabMesh.numElems T
      (fun _ => globalRHS (hexEuler t p f (14 / 10)) slabMesh (hexGeom t p slabMesh)) y ∧
    (∀ s ∈ Set.Icc 0 T, StatesRegular f (14 / 10) (hexEuler t p f (14 / 10)) slabMesh (hexGeom t p slabMesh) (y s)) ∧
    AgreeIn (hexEuler t p f (14 / 10)) slabMesh.numElems (y 0) (hexInit t p slabMesh fun _ s => (breezeGas3 f).icData.getD s 0) ∧
    ∀ C h0 u0 B : ℝ, 0 < h0 → 0 < u0 → ∃ A : Arith, 0 < A.u ∧ A.u ≤ u0 ∧ B ≤ A.big ∧
      (∃ toInt, Truncates A toInt) ∧
      ∃ (deck : Fl.Deck A.K) (dt tend : A.K), DeckRead A κ deck 3 p (hexType t) (breezeGas3 f) st dt tend ∧
        A.fin dt ∧ 0 < A.val dt ∧ A.val dt ≤ h0 ∧ C * A.u ≤ A.val dt ∧
        A.fin tend ∧ A.val dt ≤ A.val tend ∧ A.val tend ≤ T1 ∧ A.val tend ≤ (2 ^ 31 - 2) * A.val dt ∧
        ∃ fs m', MeshGiven A κ 3 deck fs slabMesh m' ∧ ∃ env, LaunchOK m' 2 slabPart env ∧ CutFlat slabMesh slabPart := by
  have hγ : (1 : ℝ) < 14 / 10 := by norm_num
  have hreg := C82_uniform_regular_hex slabMesh slabMesh_ok slabMesh_hex t p hp (fun _ => slabMesh_affine) f (14 / 10) hγ _
    (breezeGas3_admissible f) (fun _ s => (breezeGas3 f).icData.getD s 0) (fun _ _ _ => rfl)
  obtain ⟨T, hT, y, h0, hy, hr⟩ := C82_solution_exists slabMesh_ok (hexEuler_scheme t p f (14 / 10)) hγ
    (slabMesh_hex.conforming t p 5 _ _) (hexDisc_order t p 5 _ _) _ hreg
  obtain ⟨k1, hk1⟩ := C84_rounded_files 3 slabMesh
  refine ⟨T, T / 2, y, max k1 300, hT.le, by linarith, hp5, breezeGas3_start f, hy, hr, h0, ?_⟩
  intro C h0 u0 B hh hu
  obtain ⟨n, x, g1, g2, g3, g4, g5, g6, g7, g8, g9, g10, g11⟩ := breeze_numbers T C h0 u0 B hT hh hu
  refine ⟨(bits_round n B).arith, g1, g2, g3,
    ⟨fun a => some ⌊(bits_round n B).arith.val a⌋, fun _ _ _ _ => rfl⟩,
    breezeDeck3 n B t p f st (x / 2) x, toBits n B (x / 2), toBits n B x, breezeDeck3_read n B t p f st _ _ (le_max_right _ _),
    g4, g5, g6, g7, g8, g9, g10, g11, fun _ _ => some (breezeFile3 n B), roundMesh n B slabMesh,
    ⟨⟨_, _, rfl, rfl, breezeFile3_of n B⟩, ?_, roundMesh_ok n B slabMesh_ok, ?_, ?_⟩,
    fun r => ⟨if r = 0 then id else List.reverse, slabPart, fun _ _ _ => 1, fun _ _ _ => 0, fun _ _ _ => 0, fun _ _ _ => 1⟩, ?_, slabMesh_cut⟩
  · obtain ⟨a, b, c, d⟩ := hk1 n B
    refine ⟨a, b, c, fun e he i hi j hj => ⟨(d e he i hi j hj).1, (d e he i hi j hj).2.trans ?_⟩⟩
    exact mul_le_mul_of_nonneg_right (le_max_left _ _) g1.le
  · intro g hg
    have hg' : g < slabMesh.coord.length := by simpa [roundMesh] using hg
    have : AllNodesUsed slabMesh := by unfold AllNodesUsed; decide
    exact this g hg'
  · simp [roundMesh, slabMesh]
  · refine ⟨by omega, ⟨slabPart_ok.len, slabPart_ok.lt⟩, fun _ _ _ => rfl, fun r l => ?_, ?_⟩
    · by_cases h : r = 0
      · simp [h]
      · simp [h, List.reverse_perm]
    · show ∀ r < 2, 3 ≤ (slabMesh.faces.filter fun f => decide (Touches slabPart r f)).length
      decide

end DG
