import Verif.Props.Wellposed
import Verif.Props.MainExample
import Verif.Props.FreeStreamHex
import Verif.Props.Positivity

/-!
C82, continued: states from which the theorems of C82 apply, and why the order of the waves is needed.
-/
open Set Filter Topology
namespace DG

theorem pvrs_same (ρ u p a : ℝ) (hp : 0 ≤ p) : pvrsPressure ρ u p a ρ u p a = p := by
  unfold pvrsPressure
  rw [show (p + p) / 2 - (u - u) / 2 * ((ρ + ρ) / 2) * ((a + a) / 2) = p by ring]
  exact max_eq_right hp

/-- Between equal states the waves are in order. -/
theorem wavesOrdered_same {dim : ℕ} {γ : ℝ} (hγ : 1 < γ) {U : ℕ → ℝ} (h : Admissible dim γ U) (n : ℕ → ℝ) :
    WavesOrdered dim γ U U n := by
  have hL := waveSpeedL_lt (UR := U) (n := n) hγ h
  have hR := waveSpeedR_gt (UL := U) (n := n) hγ h
  have hc : contactSpeed dim γ U U n = inner' dim (vel U) n := by
    have h1 := contact_denom_neg (n := n) hγ h h
    unfold contactSpeed
    simp only
    rw [div_eq_iff h1.ne]; ring
  exact ⟨by rw [hc]; exact hL, by rw [hc]; exact hR⟩

theorem regular_of_uniform {α : Type} {d : Disc ℝ} {f : NumericalFluxType} {γ : ℝ} {m : GMesh α} {G : Geom ℝ} {norient : ℕ}
    (hγ : 1 < γ) (hc : Conforming d norient m) (ho : OrderOK d norient) (one : ℕ → ℝ)
    (hv : ∀ q < d.nq, ∑ b ∈ Finset.range d.nb, one b * d.volBasis q b = 1)
    (hf : ∀ k < d.nface, ∀ j < d.nqf, ∑ b ∈ Finset.range d.nb, one b * d.faceBasis k j b = 1)
    (hns : d.ns = d.dim + 2) (u : ℕ → ℝ) (hu : Admissible d.dim γ u) :
    StatesRegular f γ d m G (uniformCoeffs one u) := by
  have hu' : Admissible d.dim γ (cArr d.ns u) :=
    admissible_congr (U := u) (fun s hs => by simp [cArr, hns, hs]) hu
  refine ⟨⟨fun e _ q hq => ?_, fun x hx i hi => ?_, fun x hx i hi => ?_⟩, fun _ x hx i hi => ?_⟩
  · rw [uniform_volState u e q (hv q hq)]; exact hu'
  · rw [uniform_traceState u _ _ _ (hf _ (hc.faceL x hx).1 i hi)]; exact hu'
  · rw [uniform_traceState u _ _ _ (hf _ (hc.faceR x hx).1 i hi)]; exact hu'
  · have hx1 : x.1 ∈ m.faces := List.fst_mem_of_mem_zipIdx hx
    rw [uniform_traceState u _ _ _ (hf _ (hc.faceL _ hx1).1 _ ((ho _ (hc.faceL _ hx1).2).1 i hi)),
      uniform_traceState u _ _ _ (hf _ (hc.faceR _ hx1).1 _ ((ho _ (hc.faceR _ hx1).2).1 i hi))]
    exact wavesOrdered_same hγ hu' _

/-- **C82** (a uniform start is regular, quadrilaterals).  For every basis and order and both numerical fluxes
the projection of a uniform admissible state meets the hypothesis of `C82_solution_exists`. -/
theorem C82_uniform_regular_quad (m : GMesh ℝ) (hm : MeshOK m) (hq : QuadMesh m) (t : Fam) (p : ℕ) (hp : orderFine t p)
    (f : NumericalFluxType) (γ : ℝ) (hγ : 1 < γ) (u : ℕ → ℝ) (hu : Admissible 2 γ u) (start : (ℕ → ℝ) → ℕ → ℝ)
    (hs : ∀ x, ∀ s < 4, start x s = u s) :
    StatesRegular f γ (quadEuler t p f γ) m (quadGeom t p m) (quadInit t p m start) := by
  obtain ⟨κ, hκ, -, -, h⟩ := C62_uniform_start m hq t p hp
  obtain ⟨hv, hf⟩ := quad_hvol t p 4 (eulerDirFlux 2 γ) (eulerNumFlux f 2 γ)
  have h1 := regular_of_uniform (f := f) (G := quadGeom t p m) hγ (hq.conforming t p 4 (eulerDirFlux 2 γ)
    (eulerNumFlux f 2 γ)) (quadDisc_order t p 4 _ _) (quadOne t p) hv hf rfl (fun v => κ * u v) (admissible_smul hκ hu)
  exact h1.congr hm fun e he b hb s hs' => (h start u s (fun x => hs x s hs') e he b hb).symm

/-- **C82** (a uniform start is regular, hexahedra).  The same; the order 0 on meshes of parallelepipeds. -/
theorem C82_uniform_regular_hex (m : GMesh ℝ) (hm : MeshOK m) (hq : HexMesh m) (t : Fam) (p : ℕ) (hp : orderFine t p)
    (haff : p = 0 → AllAffine m)
    (f : NumericalFluxType) (γ : ℝ) (hγ : 1 < γ) (u : ℕ → ℝ) (hu : Admissible 3 γ u) (start : (ℕ → ℝ) → ℕ → ℝ)
    (hs : ∀ x, ∀ s < 5, start x s = u s) :
    StatesRegular f γ (hexEuler t p f γ) m (hexGeom t p m) (hexInit t p m start) := by
  obtain ⟨κ, hκ, -, -, h⟩ := C66_uniform_start m hq t p hp haff
  obtain ⟨hv, hf⟩ := hex_hvol t p 5 (eulerDirFlux 3 γ) (eulerNumFlux f 3 γ)
  have h1 := regular_of_uniform (f := f) (G := hexGeom t p m) hγ (hq.conforming t p 5 (eulerDirFlux 3 γ)
    (eulerNumFlux f 3 γ)) (hexDisc_order t p 5 _ _) (hexOne t p) hv hf rfl (fun v => κ * u v) (admissible_smul hκ hu)
  exact h1.congr hm fun e he b hb s hs' => (h start u s (fun x => hs x s hs') e he b hb).symm

/-- **C82** (uniform starts run, quadrilaterals).  From every uniform admissible state, with either basis at every
implemented order, either flux and either stepper, the run is admissible for a positive time if the time step is
small: C64 and C67 apply without an assumption on the run. -/
theorem C82_uniform_run_quad (m : GMesh ℝ) (hm : MeshOK m) (hq : QuadMesh m) (t : Fam) (p : ℕ) (hp : orderFine t p)
    (f : NumericalFluxType) (γ : ℝ) (hγ : 1 < γ) (u : ℕ → ℝ) (hu : Admissible 2 γ u) (start : (ℕ → ℝ) → ℕ → ℝ)
    (hs : ∀ x, ∀ s < 4, start x s = u s) :
    ∃ T0 > 0, ∃ h0 > 0, ∀ (st : Stepper) (dt : ℝ) (n : ℕ), 0 < dt → dt ≤ h0 → n * dt ≤ T0 →
      RunAdmissible γ (quadEuler t p f γ) m (quadGeom t p m) st dt (quadInit t p m start) n := by
  have hr := C82_uniform_regular_quad m hm hq t p hp f γ hγ u hu start hs
  obtain ⟨T0, hT, y, h0, hy, hreg⟩ := C82_solution_exists hm (quadEuler_scheme t p f γ) hγ
    (hq.conforming t p 4 _ _) (quadDisc_order t p 4 _ _) _ hr
  obtain ⟨C, a, ap, hC⟩ := C82_run_converges hm (quadEuler_scheme t p f γ) hγ
    (hq.conforming t p 4 _ _) (quadDisc_order t p 4 _ _) T0 hT.le y hy hreg
  exact ⟨T0, hT, a, ap, fun st dt n hdt hle hn => (hC st dt n _ hdt hle hn (agree_symm h0)).1⟩

/-- **C82** (uniform starts run, hexahedra). -/
theorem C82_uniform_run_hex (m : GMesh ℝ) (hm : MeshOK m) (hq : HexMesh m) (t : Fam) (p : ℕ) (hp : orderFine t p)
    (haff : p = 0 → AllAffine m)
    (f : NumericalFluxType) (γ : ℝ) (hγ : 1 < γ) (u : ℕ → ℝ) (hu : Admissible 3 γ u) (start : (ℕ → ℝ) → ℕ → ℝ)
    (hs : ∀ x, ∀ s < 5, start x s = u s) :
    ∃ T0 > 0, ∃ h0 > 0, ∀ (st : Stepper) (dt : ℝ) (n : ℕ), 0 < dt → dt ≤ h0 → n * dt ≤ T0 →
      RunAdmissible γ (hexEuler t p f γ) m (hexGeom t p m) st dt (hexInit t p m start) n := by
  have hr := C82_uniform_regular_hex m hm hq t p hp haff f γ hγ u hu start hs
  obtain ⟨T0, hT, y, h0, hy, hreg⟩ := C82_solution_exists hm (hexEuler_scheme t p f γ) hγ
    (hq.conforming t p 5 _ _) (hexDisc_order t p 5 _ _) _ hr
  obtain ⟨C, a, ap, hC⟩ := C82_run_converges hm (hexEuler_scheme t p f γ) hγ
    (hq.conforming t p 5 _ _) (hexDisc_order t p 5 _ _) T0 hT.le y hy hreg
  exact ⟨T0, hT, a, ap, fun st dt n hdt hle hn => (hC st dt n _ hdt hle hn (agree_symm h0)).1⟩

/-- The vortex on the distorted mesh of `perMesh`, order 0: regular, so C82 applies to it. -/
theorem perRegular : StatesRegular vortexGas.ftype vortexGas.γ (quadEuler .legendre 0 vortexGas.ftype vortexGas.γ) perMesh
    (quadGeom .legendre 0 perMesh)
    (quadInit .legendre 0 perMesh fun x => vortexState vortexGas.γ 1 1 0 1 1 (x 0) (x 1)) :=
  ⟨perRun.admissible 0 one_pos, fun h => by simp [vortexGas] at h⟩

/-- All hypotheses of `C82_program_quad` are met by the vortex on `perMesh`: there is a solution, and a time step and
a final time for which the executable completes one step within `C dt` of it. -/
theorem perWellposed : ∃ T0 > 0, ∃ y : ℝ → Coeffs ℝ,
    AgreeIn (quadEuler .legendre 0 vortexGas.ftype vortexGas.γ) 4
      (quadInit .legendre 0 perMesh fun x => vortexState vortexGas.γ 1 1 0 1 1 (x 0) (x 1)) (y 0) ∧
    ExactSolution (quadEuler .legendre 0 vortexGas.ftype vortexGas.γ) 4 T0 (fun _ => globalRHS
      (quadEuler .legendre 0 vortexGas.ftype vortexGas.γ) perMesh (quadGeom .legendre 0 perMesh)) y ∧
    (∀ s ∈ Set.Icc 0 T0, StatesRegular vortexGas.ftype vortexGas.γ (quadEuler .legendre 0 vortexGas.ftype vortexGas.γ)
      perMesh (quadGeom .legendre 0 perMesh) (y s)) ∧
    ∃ C dt : ℝ, 0 < dt ∧ dt ≤ T0 ∧ RunAdmissible vortexGas.γ (quadEuler .legendre 0 vortexGas.ftype vortexGas.γ) perMesh
      (quadGeom .legendre 0 perMesh) .RK4 dt (quadInit .legendre 0 perMesh
        fun x => vortexState vortexGas.γ 1 1 0 1 1 (x 0) (x 1)) 1 ∧
      ∀ e < 4, ∀ v < 4, |stepOf .RK4 dt (globalRHS (quadEuler .legendre 0 vortexGas.ftype vortexGas.γ) perMesh
        (quadGeom .legendre 0 perMesh)) (quadInit .legendre 0 perMesh
          fun x => vortexState vortexGas.γ 1 1 0 1 1 (x 0) (x 1)) e 0 v - y dt e 0 v| ≤ C * dt := by
  have hγ : 1 < vortexGas.γ := by norm_num [vortexGas]
  obtain ⟨T0, hT, y, h0, hy, hr⟩ := C82_solution_exists perMesh_ok (quadEuler_scheme .legendre 0 _ _) hγ
    (perMesh_quad.conforming .legendre 0 4 _ _) (quadDisc_order .legendre 0 4 _ _) _ perRegular
  obtain ⟨C, a, ap, hC⟩ := C82_run_converges perMesh_ok (quadEuler_scheme .legendre 0 _ _) hγ
    (perMesh_quad.conforming .legendre 0 4 _ _) (quadDisc_order .legendre 0 4 _ _) T0 hT.le y hy hr
  obtain ⟨k1, k2⟩ := hC .RK4 (min a T0) 1 _ (lt_min ap hT) (min_le_left _ _) (by simp) (agree_symm h0)
  refine ⟨T0, hT, y, agree_symm h0, hy, hr, C, min a T0, lt_min ap hT, min_le_right _ _, k1, fun e he v hv => ?_⟩
  have := k2 e he 0 (by decide) v hv
  simpa using this

/-- **C82** (the order of the waves is needed).  The HLLC routine is not continuous on the admissible states: a gas
running at six times the speed of sound into another of the same density and pressure, seen from a moving frame.  When
the velocity `w` of the frame passes the point at which the left wave estimate changes its sign, the right wave
estimate is already negative, and the mass flux jumps from that of the right state to that of the left state. -/
theorem C82_hllc_jump (dim : ℕ) (hd : 0 < dim) (N F0 : ℕ → ℝ) (hN : N = fun i => if i = 0 then 1 else 0)
    (F : ℝ → ℕ → ℝ) (hF : ∀ w, hllc dim (7/5) (exGas dim (w + 6)) (exGas dim w) N F0 = some (F w)) :
    (∀ w, Admissible dim (7/5) (exGas dim w)) ∧ (∀ s, Continuous fun w => exGas dim w s) ∧
    ∃ w0, (∀ w ≥ w0, F w 0 = 7 / 5 * (w + 6)) ∧ (∀ w < w0, F w 0 = 7 / 5 * w) ∧ ¬ ContinuousAt (fun w => F w 0) w0 := by
  have A := fun u => exGas_admissible dim hd u
  have hNi : ∀ b : ℕ → ℝ, inner' dim b N = b 0 := fun b => by
    unfold inner'
    rw [Finset.sum_eq_single 0]
    · simp [hN]
    · intro i _ h; simp [hN, h]
    · intro h; exact absurd (Finset.mem_range.mpr hd) h
  have hNN : inner' dim N N = 1 := by rw [hNi]; simp [hN]
  have hN0 : inner' dim N N ≠ 0 := by rw [hNN]; norm_num
  have hγ : (1 : ℝ) < 7 / 5 := by norm_num
  have hunit : unit dim N = N := by funext i; simp [unit, hNN]
  have hsq : Real.sqrt (23 / 5) < 3 := by
    rw [show (3 : ℝ) = Real.sqrt 9 by rw [show (9:ℝ) = 3 ^ 2 by norm_num, Real.sqrt_sq (by norm_num)]]
    exact Real.sqrt_lt_sqrt (by norm_num) (by norm_num)
  have hpv : ∀ w : ℝ, pvrsPressure (7 / 5) (w + 6) 1 1 (7 / 5) w 1 1 = 26 / 5 := by
    intro w
    unfold pvrsPressure
    rw [show ((1 : ℝ) + 1) / 2 - (w - (w + 6)) / 2 * ((7 / 5 + 7 / 5) / 2) * ((1 + 1) / 2) = 26 / 5 by ring]
    norm_num
  have hq : shockFactor (7 / 5) (26 / 5) 1 = Real.sqrt (23 / 5) := by
    unfold shockFactor; norm_num
  have v : ∀ u, inner' dim (vel (exGas dim u)) N = u := fun u => by rw [exGas_inner dim hd]; simp [hN]
  have g0 : ∀ u, exGas dim u 0 = 7 / 5 := fun u => by simp [exGas]
  have wL : ∀ w, waveSpeedL dim (7/5) (exGas dim (w + 6)) (exGas dim w) N = w + 6 - Real.sqrt (23 / 5) := by
    intro w
    unfold waveSpeedL
    rw [v, v, exGas_pressure dim hd, exGas_pressure dim hd, exGas_sound dim hd, exGas_sound dim hd, g0, g0, hpv, hq]
    ring
  have wR : ∀ w, waveSpeedR dim (7/5) (exGas dim (w + 6)) (exGas dim w) N = w + Real.sqrt (23 / 5) := by
    intro w
    unfold waveSpeedR
    rw [v, v, exGas_pressure dim hd, exGas_pressure dim hd, exGas_sound dim hd, exGas_sound dim hd, g0, g0, hpv, hq]
    ring
  have right : ∀ w ≥ Real.sqrt (23 / 5) - 6, F w 0 = 7 / 5 * (w + 6) := by
    intro w hw
    rw [C32_upwind_left dim _ hγ _ _ N F0 (F w) (A _) (A _) hN0 (hF w) (by rw [hunit, wL]; linarith) 0 (by omega)]
    simp only [eulerFlux, if_true, v, g0]
  have left : ∀ w < Real.sqrt (23 / 5) - 6, F w 0 = 7 / 5 * w := by
    intro w hw
    rw [C32_upwind_right dim _ hγ _ _ N F0 (F w) (A _) (A _) hN0 (hF w) (by rw [hunit, wR]; linarith)
      (by rw [hunit, wL]; linarith) 0 (by omega)]
    simp only [eulerFlux, if_true, v, g0]
  refine ⟨A, fun s => ?_, Real.sqrt (23 / 5) - 6, right, left, fun hc => ?_⟩
  · unfold exGas
    split_ifs <;> fun_prop
  · set w0 := Real.sqrt (23 / 5) - 6
    have h1 : Tendsto (fun w => F w 0) (𝓝[<] w0) (𝓝 (F w0 0)) := hc.tendsto.mono_left nhdsWithin_le_nhds
    have h2 : Tendsto (fun w => F w 0) (𝓝[<] w0) (𝓝 (7 / 5 * w0)) := by
      refine Tendsto.congr' (f₁ := fun w => 7 / 5 * w) ?_
        ((continuous_const.mul continuous_id).continuousAt.tendsto.mono_left nhdsWithin_le_nhds)
      filter_upwards [self_mem_nhdsWithin] with w hw
      exact (left w hw).symm
    have h3 := tendsto_nhds_unique h1 h2
    rw [right w0 le_rfl] at h3
    linarith

/-- the routine succeeds on all these states -/
example (dim : ℕ) (hd : 0 < dim) (F0 : ℕ → ℝ) :
    ∃ F : ℝ → ℕ → ℝ, ∀ w, hllc dim (7/5) (exGas dim (w + 6)) (exGas dim w) (fun i => if i = 0 then 1 else 0) F0 =
      some (F w) := by
  have h : ∀ w, ∃ F, hllc dim (7/5) (exGas dim (w + 6)) (exGas dim w) (fun i => if i = 0 then 1 else 0) F0 = some F := by
    intro w
    refine C32_no_failure dim _ (by norm_num) _ _ _ F0 (exGas_admissible dim hd _) (exGas_admissible dim hd _) ?_
    unfold inner'
    rw [Finset.sum_eq_single 0]
    · simp
    · intro i _ h; simp [h]
    · intro h; exact absurd (Finset.mem_range.mpr hd) h
  choose F hF using h
  exact ⟨F, hF⟩

end DG
