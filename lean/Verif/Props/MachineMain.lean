import Verif.Lemmas.RoundProgram

/-!
C85: the solver executable on a computer, from the input file to the solution file.
-/
namespace DG

/-- **C85** (the executable on a computer, quadrilaterals).  A case for the Euler equations on a mesh of bilinear quadrilaterals,
started uniformly or from the isentropic vortex, whose textbook semidiscrete equations have a solution `y` on `[0, T]`
through states where the flux is well behaved; `T1 < T`.  There are constants `C`, `h0`, `u0`, `B`, such that for every computer of
roundoff `u ≤ u0` that does not overflow below `B`, every input file that asks for this case - its numbers and the coordinates
of the mesh file read to within `κ` roundoffs, missing optional keys standing for the defaults of the code - with either stepper, a
time step with `C u ≤ dt ≤ h0` and a final time up to `T1` (at most `2^31 - 2` steps), every number of ranks, every answer of
the partitioner, every enumeration order of the hash tables, every content of uninitialised memory, every order of the
parallel loops and of the writes to the file, and every interleaving of the ranks: the program does what `ProgramOutcome` says. -/
theorem C85_program_quad (m : GMesh ℝ) (hm : MeshOK m) (hq : QuadMesh m) (hs : SidesNonzero m) (t : Fam) (p : ℕ) (hp : orderFine t p)
    (ph : Physics) (hγ : 1 < ph.γ) (start : (ℕ → ℝ) → ℕ → ℝ) (hst : StartState ph 2 start)
    (T T1 : ℝ) (hT : 0 ≤ T) (hT1 : T1 < T) (y : ℝ → Coeffs ℝ)
    (hy : ExactSolution (quadEuler t p ph.ftype ph.γ) m.numElems T
      (fun _ => globalRHS (quadEuler t p ph.ftype ph.γ) m (quadGeom t p m)) y)
    (hr : ∀ s ∈ Set.Icc 0 T, StatesRegular ph.ftype ph.γ (quadEuler t p ph.ftype ph.γ) m (quadGeom t p m) (y s))
    (hy0 : AgreeIn (quadEuler t p ph.ftype ph.γ) m.numElems (y 0) (quadInit t p m start)) (κ : ℝ) :
    ∃ C h0 u0 B : ℝ, 0 < h0 ∧ 0 < u0 ∧ ∀ A : Arith, A.u ≤ u0 → B ≤ A.big →
      ∀ toInt : A.K → Option ℤ, Truncates A toInt →
      ∀ (deck : Fl.Deck A.K) (st : StepperType) (dt tend : A.K), DeckRead A κ deck 2 p (quadType t) ph st dt tend →
      A.fin dt → 0 < A.val dt → A.val dt ≤ h0 → C * A.u ≤ A.val dt →
      A.fin tend → 0 ≤ A.val tend → A.val tend ≤ T1 → A.val tend ≤ (2 ^ 31 - 2) * A.val dt →
      ∀ (fs : String → List String → Option (MeshFile A.K)) (m' : GMesh A.K), MeshGiven A κ 2 deck fs m m' →
      ∀ (nranks : ℕ) (part : List ℕ) (env : ℕ → RankEnv A.K), LaunchOK m' nranks part env →
      ∀ un : Fl.Unset A.K,
      ∀ sched : ℕ → ℕ → List (FluxWrite A.K) → List (FluxWrite A.K), (∀ r k l, (sched r k l).Perm l) →
      ∀ ord : ℕ → List ℕ, (∀ i, (ord i).Perm (List.range nranks)) →
      ProgramOutcome A C toInt deck fs un 2 ((p + 1) * (p + 1)) nranks m' env sched ord dt tend
        (quadRun t p m ph start st.scheme (A.val dt)) y := by
  have hmax : (p + 1) * (p + 1) ≤ 300 := by
    have := hp.1
    calc (p + 1) * (p + 1) ≤ 12 * 12 := Nat.mul_le_mul (by omega) (by omega)
      _ ≤ 300 := by norm_num
  obtain ⟨mass, vol, proj, fr, N1, N2, h⟩ := setupIs_quad hq t p 4 hp start
  obtain ⟨d, hd, ag⟩ := buildDisc_quad t p 4 hp (eulerDirFlux 2 ph.γ) (eulerNumFlux ph.ftype 2 ph.γ)
  obtain ⟨C, h0, u0, B, hh0, hu0, H⟩ := SetupIs.program (dim := 2) h rfl (quad_shape t) rfl rfl rfl hq.npe (by rw [hq.npe]; omega) hq.faceRange
    (nb1 := p + 1) (gnb := 4) (gg := (.LagrangeQuad, 4, 2))
    (by cases t <;> rfl) (by cases t <;> rfl) (by cases t <;> rfl) rfl rfl hmax (by positivity)
    (fun e _ => le_trans (sides_le 4 (fun f hf => (hq.faceL f hf).1) (fun f hf => (hq.faceR f hf).1) hq.sides e) (by omega))
    κ hst hd (dE := quadEuler t p ph.ftype ph.γ) ag rfl rfl hm (Or.inl rfl) rfl (quadEuler_scheme t p ph.ftype ph.γ) hγ
    (hq.conforming t p 4 _ _) (quadDisc_order t p 4 _ _) (normals_nonzero hm hq hs t p 4 _ _) T T1 hT1 hT y hy hr hy0
  refine ⟨C, h0, u0, B, hh0, hu0, ?_⟩
  intro A hu hB toInt htr deck st dt tend hdeck f1 hdt0 hdt1 hdt2 f2 ht0 ht1 ht2 fs m' hgiven nranks part env hl un
  exact H A hu hB toInt htr deck st dt tend hdeck f1 hdt0 hdt1 hdt2 f2 ht0 ht1 ht2 fs m' hgiven nranks part env hl (fun _ _ _ => trivial) un

/-- **C85** (the executable on a computer, hexahedra).  The same for trilinear hexahedra, order at most five (the program has room
for 300 basis functions), and partitions that cut the mesh along flat faces only. -/
theorem C85_program_hex (m : GMesh ℝ) (hm : MeshOK m) (hq : HexMesh m) (hs : FacesNonzero m) (t : Fam) (p : ℕ) (hp : orderFine t p)
    (hp5 : p ≤ 5) (ph : Physics) (hγ : 1 < ph.γ) (start : (ℕ → ℝ) → ℕ → ℝ) (hst : StartState ph 3 start)
    (T T1 : ℝ) (hT : 0 ≤ T) (hT1 : T1 < T) (y : ℝ → Coeffs ℝ)
    (hy : ExactSolution (hexEuler t p ph.ftype ph.γ) m.numElems T
      (fun _ => globalRHS (hexEuler t p ph.ftype ph.γ) m (hexGeom t p m)) y)
    (hr : ∀ s ∈ Set.Icc 0 T, StatesRegular ph.ftype ph.γ (hexEuler t p ph.ftype ph.γ) m (hexGeom t p m) (y s))
    (hy0 : AgreeIn (hexEuler t p ph.ftype ph.γ) m.numElems (y 0) (hexInit t p m start)) (κ : ℝ) :
    ∃ C h0 u0 B : ℝ, 0 < h0 ∧ 0 < u0 ∧ ∀ A : Arith, A.u ≤ u0 → B ≤ A.big →
      ∀ toInt : A.K → Option ℤ, Truncates A toInt →
      ∀ (deck : Fl.Deck A.K) (st : StepperType) (dt tend : A.K), DeckRead A κ deck 3 p (hexType t) ph st dt tend →
      A.fin dt → 0 < A.val dt → A.val dt ≤ h0 → C * A.u ≤ A.val dt →
      A.fin tend → 0 ≤ A.val tend → A.val tend ≤ T1 → A.val tend ≤ (2 ^ 31 - 2) * A.val dt →
      ∀ (fs : String → List String → Option (MeshFile A.K)) (m' : GMesh A.K), MeshGiven A κ 3 deck fs m m' →
      ∀ (nranks : ℕ) (part : List ℕ) (env : ℕ → RankEnv A.K), LaunchOK m' nranks part env → CutFlat m part →
      ∀ un : Fl.Unset A.K,
      ∀ sched : ℕ → ℕ → List (FluxWrite A.K) → List (FluxWrite A.K), (∀ r k l, (sched r k l).Perm l) →
      ∀ ord : ℕ → List ℕ, (∀ i, (ord i).Perm (List.range nranks)) →
      ProgramOutcome A C toInt deck fs un 3 ((p + 1) * (p + 1) * (p + 1)) nranks m' env sched ord dt tend
        (hexRun t p m ph start st.scheme (A.val dt)) y := by
  have hmax : (p + 1) * (p + 1) * (p + 1) ≤ 300 := by
    calc (p + 1) * (p + 1) * (p + 1) ≤ 6 * 6 * 6 :=
          Nat.mul_le_mul (Nat.mul_le_mul (by omega) (by omega)) (by omega)
      _ ≤ 300 := by norm_num
  obtain ⟨mass, vol, proj, fr, N1, N2, h⟩ := setupIs_hex hq t p 5 hp start
  obtain ⟨d, hd, ag⟩ := buildDisc_hex t p 5 hp (eulerDirFlux 3 ph.γ) (eulerNumFlux ph.ftype 3 ph.γ)
  obtain ⟨C, h0, u0, B, hh0, hu0, H⟩ := SetupIs.program (dim := 3) h rfl (hex_shape t) rfl rfl rfl hq.npe (by rw [hq.npe]; omega) hq.faceRange
    (nb1 := p + 1) (gnb := 8) (gg := (.LagrangeHex, 6, 8))
    (by cases t <;> rfl) (by cases t <;> rfl) (by cases t <;> rfl) rfl rfl hmax (by positivity)
    (fun e _ => le_trans (sides_le 6 (fun f hf => (hq.faceL f hf).1) (fun f hf => (hq.faceR f hf).1) hq.sides e) (by omega))
    κ hst hd (dE := hexEuler t p ph.ftype ph.γ) ag rfl rfl hm (Or.inr rfl) rfl (hexEuler_scheme t p ph.ftype ph.γ) hγ
    (hq.conforming t p 5 _ _) (hexDisc_order t p 5 _ _) (hex_normals_nonzero hm hq hs t p 5 hp _ _) T T1 hT1 hT y hy hr hy0
  exact ⟨C, h0, u0, B, hh0, hu0, H⟩

end DG
