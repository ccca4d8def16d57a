import Verif.Lemmas.FrameMesh

/-!
Property C73: results do not depend on the choice of axes, origin, units and numbering.
-/
namespace DG
open Finset

/-! ### initial states -/

theorem Frame.state4 (F : Frame 2) (U : ℕ → ℝ) :
    F.state U 0 = F.dens * U 0 ∧ F.state U 1 = F.dens * F.speed * (F.Q 0 0 * U 1 + F.Q 0 1 * U 2) ∧
    F.state U 2 = F.dens * F.speed * (F.Q 1 0 * U 1 + F.Q 1 1 * U 2) ∧ F.state U 3 = F.dens * F.speed ^ 2 * U 3 := by
  refine ⟨F.state_zero U, ?_, ?_, F.state_energy U⟩
  · rw [F.state_mom U (show 0 < 2 by norm_num), F.turn2 _ (by norm_num)]
  · rw [F.state_mom U (show 1 < 2 by norm_num), F.turn2 _ (by norm_num)]

/-- **C73** (uniform flow).  An input file that prescribes the values of a uniform flow in the new frame. -/
theorem C73_uniform_start {dim : ℕ} (hd : dim = 2 ∨ dim = 3) (F : Frame dim) (ph ph' : Physics) (hic : ph'.ic = .Uniform)
    (hlen : dim + 2 ≤ ph'.icData.length)
    (hval : ∀ s < dim + 2, ph'.icData.getD s 0 = F.state (fun s => ph.icData.getD s 0) s) :
    StartState ph' dim (fun _ s => ph'.icData.getD s 0) ∧
    SameStart F (fun _ s => ph.icData.getD s 0) (fun _ s => ph'.icData.getD s 0) :=
  ⟨.uniform dim hd hic hlen, fun _ _ _ s hs => hval s hs⟩

/-- **C73** (vortex).  The vortex about the origin in rotated axes and other units of density and velocity (its radius
is fixed, so the unit of length stays): the background velocity is rotated, densities, velocities, pressure and
strength are multiplied by their factors. -/
theorem C73_vortex_start (F : Frame 2) (hlen : F.len = 1) (hshift : ∀ d < 2, F.shift d = 0) (ph ph' : Physics)
    (hγ : 1 < ph.γ) (hg : ph'.γ = ph.γ) (hic : ph'.ic = .IsentropicVortex) (hR : ph'.R = 1) (ρ u v P K : ℝ)
    (hρ : 0 < ρ) (hP : 0 < P)
    (hK : (ph.γ - 1) * K ^ 2 * Real.exp 1 < 8 * ph.γ * Real.pi ^ 2 * (P / ρ)) (rest' : List ℝ)
    (hdata : ph'.icData = (F.dens * ρ) :: (F.speed * (F.Q 0 0 * u + F.Q 0 1 * v)) ::
      (F.speed * (F.Q 1 0 * u + F.Q 1 1 * v)) :: (F.dens * F.speed ^ 2 * P) :: (F.speed * K) :: rest') :
    ∃ start', StartState ph' 2 start' ∧
      SameStart F (fun x => vortexState ph.γ ρ u v P K (x 0) (x 1)) start' := by
  have hd := F.dens_pos
  have hs := F.speed_pos
  refine ⟨_, .vortex hic hR _ _ _ _ _ rest' hdata (mul_pos hd hρ) (by positivity) ?_, ?_⟩
  · rw [hg]
    have : F.dens * F.speed ^ 2 * P / (F.dens * ρ) = F.speed ^ 2 * (P / ρ) := by field_simp
    rw [this]
    have h2 : (0 : ℝ) < F.speed ^ 2 := by positivity
    calc (ph.γ - 1) * (F.speed * K) ^ 2 * Real.exp 1 = F.speed ^ 2 * ((ph.γ - 1) * K ^ 2 * Real.exp 1) := by ring
      _ < F.speed ^ 2 * (8 * ph.γ * Real.pi ^ 2 * (P / ρ)) := mul_lt_mul_of_pos_left hK h2
      _ = _ := by ring
  · intro x x' hx s hs4
    rw [hg]
    obtain ⟨e1, e2, e3⟩ := F.rot2
    have hx0 : x' 0 = F.Q 0 0 * x 0 + F.Q 0 1 * x 1 := by
      rw [hx 0 (by norm_num)]; unfold Frame.point
      rw [hlen, hshift 0 (by norm_num), F.turn2 _ (by norm_num)]; ring
    have hx1 : x' 1 = F.Q 1 0 * x 0 + F.Q 1 1 * x 1 := by
      rw [hx 1 (by norm_num)]; unfold Frame.point
      rw [hlen, hshift 1 (by norm_num), F.turn2 _ (by norm_num)]; ring
    have hrad : x' 0 ^ 2 + x' 1 ^ 2 = x 0 ^ 2 + x 1 ^ 2 := by
      rw [hx0, hx1, e1, e2]; linear_combination (x 0 ^ 2 + x 1 ^ 2) * e3
    obtain ⟨s0, s1, s2, s3⟩ := F.state4 (vortexState ph.γ ρ u v P K (x 0) (x 1))
    -- the pieces of the formula
    have hf : F.speed * K / (2 * Real.pi) * Real.exp ((1 - (x' 0 ^ 2 + x' 1 ^ 2)) / 2) =
        F.speed * (K / (2 * Real.pi) * Real.exp ((1 - (x 0 ^ 2 + x 1 ^ 2)) / 2)) := by rw [hrad]; ring
    have hTpos : 0 < P / ρ - (ph.γ - 1) / (2 * ph.γ) * (K / (2 * Real.pi) * Real.exp ((1 - (x 0 ^ 2 + x 1 ^ 2)) / 2)) ^ 2 := by
      have hpi := Real.pi_pos
      have hE : Real.exp ((1 - (x 0 ^ 2 + x 1 ^ 2)) / 2) ^ 2 ≤ Real.exp 1 := by
        rw [← Real.exp_nat_mul]
        apply Real.exp_le_exp.2
        push_cast
        nlinarith [sq_nonneg (x 0), sq_nonneg (x 1)]
      have hγ0 : 0 < ph.γ := by linarith
      have h1 : (ph.γ - 1) / (2 * ph.γ) * (K / (2 * Real.pi) * Real.exp ((1 - (x 0 ^ 2 + x 1 ^ 2)) / 2)) ^ 2 ≤
          (ph.γ - 1) * K ^ 2 * Real.exp 1 / (8 * ph.γ * Real.pi ^ 2) := by
        rw [mul_pow, div_pow]
        rw [show (ph.γ - 1) / (2 * ph.γ) * (K ^ 2 / (2 * Real.pi) ^ 2 * Real.exp ((1 - (x 0 ^ 2 + x 1 ^ 2)) / 2) ^ 2) =
          ((ph.γ - 1) * K ^ 2 / (8 * ph.γ * Real.pi ^ 2)) * Real.exp ((1 - (x 0 ^ 2 + x 1 ^ 2)) / 2) ^ 2 by field_simp; ring,
          show (ph.γ - 1) * K ^ 2 * Real.exp 1 / (8 * ph.γ * Real.pi ^ 2) =
          ((ph.γ - 1) * K ^ 2 / (8 * ph.γ * Real.pi ^ 2)) * Real.exp 1 by ring]
        apply mul_le_mul_of_nonneg_left hE
        apply div_nonneg
        · exact mul_nonneg (by linarith) (sq_nonneg _)
        · positivity
      have h2 : (ph.γ - 1) * K ^ 2 * Real.exp 1 / (8 * ph.γ * Real.pi ^ 2) < P / ρ := by
        rw [div_lt_iff₀ (by positivity)]
        linarith
      linarith
    have hT : F.dens * F.speed ^ 2 * P / (F.dens * ρ) - (ph.γ - 1) / (2 * ph.γ) *
        (F.speed * (K / (2 * Real.pi) * Real.exp ((1 - (x 0 ^ 2 + x 1 ^ 2)) / 2))) ^ 2 =
        F.speed ^ 2 * (P / ρ - (ph.γ - 1) / (2 * ph.γ) *
          (K / (2 * Real.pi) * Real.exp ((1 - (x 0 ^ 2 + x 1 ^ 2)) / 2)) ^ 2) := by
      field_simp
    unfold vortexState
    dsimp only
    unfold vortexState at s0 s1 s2 s3
    dsimp only at s0 s1 s2 s3
    norm_num only [if_true, if_false] at s0 s1 s2 s3
    rw [hf, hT]
    generalize (K / (2 * Real.pi) * Real.exp ((1 - (x 0 ^ 2 + x 1 ^ 2)) / 2)) = f at *
    generalize P / ρ - (ph.γ - 1) / (2 * ph.γ) * f ^ 2 = T at *
    have hr : (F.speed ^ 2 * T / (F.dens * F.speed ^ 2 * P / (F.dens * ρ) ^ ph.γ)) ^ (1 / (ph.γ - 1)) =
        F.dens * (T / (P / ρ ^ ph.γ)) ^ (1 / (ph.γ - 1)) := by
      have h1 : F.speed ^ 2 * T / (F.dens * F.speed ^ 2 * P / (F.dens * ρ) ^ ph.γ) =
          F.dens ^ (ph.γ - 1) * (T / (P / ρ ^ ph.γ)) := by
        rw [Real.mul_rpow hd.le hρ.le, Real.rpow_sub_one hd.ne']
        have := Real.rpow_pos_of_pos hρ ph.γ
        field_simp
      have h2 : 0 ≤ T / (P / ρ ^ ph.γ) := by
        have := Real.rpow_pos_of_pos hρ ph.γ
        positivity
      rw [h1, Real.mul_rpow (Real.rpow_nonneg hd.le _) h2, ← Real.rpow_mul hd.le,
        mul_one_div_cancel (by linarith), Real.rpow_one]
    rw [hr]
    generalize (T / (P / ρ ^ ph.γ)) ^ (1 / (ph.γ - 1)) = r at *
    have hS : s = 0 ∨ s = 1 ∨ s = 2 ∨ s = 3 := by omega
    rcases hS with rfl | rfl | rfl | rfl
    · exact s0.symm
    · refine Eq.trans ?_ s1.symm
      simp only [if_true, one_ne_zero, if_false]
      rw [hx1, e1, e2]; ring
    · refine Eq.trans ?_ s2.symm
      simp only [if_true, OfNat.ofNat_ne_zero, OfNat.ofNat_ne_one, if_false]
      rw [hx0, e1, e2]; ring
    · refine Eq.trans ?_ s3.symm
      simp only [OfNat.ofNat_ne_zero, OfNat.ofNat_ne_one, if_false, Nat.reduceEqDiff]
      rw [hx0, hx1, e1, e2]
      have : ∀ a b : ℝ, (F.Q 0 0 * a + F.Q 0 1 * b) ^ 2 + (-F.Q 0 1 * a + F.Q 0 0 * b) ^ 2 = a ^ 2 + b ^ 2 := by
        intro a b; linear_combination (a ^ 2 + b ^ 2) * e3
      rw [show F.speed * (F.Q 0 0 * u + F.Q 0 1 * v) - F.speed * f * (-F.Q 0 1 * x 0 + F.Q 0 0 * x 1) =
          F.speed * (F.Q 0 0 * (u - f * x 1) + F.Q 0 1 * (v + f * x 0)) by ring,
        show F.speed * (-F.Q 0 1 * u + F.Q 0 0 * v) + F.speed * f * (F.Q 0 0 * x 0 + F.Q 0 1 * x 1) =
          F.speed * (-F.Q 0 1 * (u - f * x 1) + F.Q 0 0 * (v + f * x 0)) by ring]
      rw [mul_pow, mul_pow, ← mul_add, this]
      ring

/-! ### the scheme -/

/-- **C73** (scheme, quadrilaterals). -/
theorem C73_run_quad {F : Frame 2} {σ : ℕ → ℕ} {m m' : GMesh ℝ} (hs : SameMesh F σ m m') (hm : MeshOK m) (hq : QuadMesh m)
    (t : Fam) (p : ℕ) (ph ph' : Physics) (hf : ph'.ftype = ph.ftype) (hγ : ph'.γ = ph.γ)
    (start start' : (ℕ → ℝ) → ℕ → ℝ) (hst : SameStart F start start') (st : Stepper) (dt : ℝ) (n : ℕ) :
    ∀ e < m.numElems, ∀ b < (p + 1) * (p + 1), ∀ s < 4,
      quadRun t p m' ph' start' st (dt * F.len / F.speed) n (σ e) b s =
        F.state (quadRun t p m ph start st dt n e b) s := by
  unfold quadRun
  rw [hf, hγ]
  exact run_frame (by norm_num) (quadEuler_disc t p ph.ftype ph.γ) (quadGeom_frame hs hm hq t p ph.ftype ph.γ) hs hm
    (quadInit_frame hs hq t p hst) st dt n

/-- **C73** (scheme, hexahedra). -/
theorem C73_run_hex {F : Frame 3} {σ : ℕ → ℕ} {m m' : GMesh ℝ} (hs : SameMesh F σ m m') (hm : MeshOK m) (hq : HexMesh m)
    (t : Fam) (p : ℕ) (ph ph' : Physics) (hf : ph'.ftype = ph.ftype) (hγ : ph'.γ = ph.γ)
    (start start' : (ℕ → ℝ) → ℕ → ℝ) (hst : SameStart F start start') (st : Stepper) (dt : ℝ) (n : ℕ) :
    ∀ e < m.numElems, ∀ b < (p + 1) * (p + 1) * (p + 1), ∀ s < 5,
      hexRun t p m' ph' start' st (dt * F.len / F.speed) n (σ e) b s =
        F.state (hexRun t p m ph start st dt n e b) s := by
  unfold hexRun
  rw [hf, hγ]
  exact run_frame (by norm_num) (hexEuler_disc t p ph.ftype ph.γ) (hexGeom_frame hs hm hq t p ph.ftype ph.γ) hs hm
    (hexInit_frame hs hq t p hst) st dt n

/-! ### the executable -/

/-- **C73** (inputs, quadrilaterals).  If the program accepts and completes the original run (`QuadRunOK`, C67), it
does the same for the run described in the new frame. -/
theorem C73_accepts_quad {F : Frame 2} {σ : ℕ → ℕ} {deck deck' : Deck} {fs fs' : String → List String → Option (MeshFile ℝ)}
    {m m' : GMesh ℝ} {t : Fam} {p : ℕ} {ph ph' : Physics} {start start' : (ℕ → ℝ) → ℕ → ℝ} {st : StepperType} {dt T : ℝ}
    {n : ℕ} (h : QuadRunOK deck fs m t p ph start st dt T n) (hs : SameMesh F σ m m') (hst : SameStart F start start')
    (hf : ph'.ftype = ph.ftype) (hγ : ph'.γ = ph.γ) (hst' : StartState ph' 2 start')
    (asks' : DeckAsks deck' 2 p (quadType t) ph' st (dt * F.len / F.speed) (T * F.len / F.speed))
    (file' : ∃ name mf, deck'.meshFile = some name ∧ fs' name deck'.boundaries = some mf ∧ MeshFileOf m' 2 mf)
    (mesh' : MeshOK m') (used' : AllNodesUsed m') (nodes' : 0 < m'.coord.length) :
    QuadRunOK deck' fs' m' t p ph' start' st (dt * F.len / F.speed) (T * F.len / F.speed) n where
  asks := asks'
  file := file'
  mesh := mesh'
  quads := quadMesh_frame hs h.mesh h.quads
  sides := sides_frame hs h.quads h.sides
  used := used'
  nodes := nodes'
  order := h.order
  gas := by rw [hγ]; exact h.gas
  startOK := hst'
  step := div_pos (mul_pos h.step F.len_pos) F.speed_pos
  before := by
    rw [← mul_div_assoc, ← mul_assoc]
    exact (div_le_div_iff_of_pos_right F.speed_pos).2 (mul_le_mul_of_nonneg_right h.before F.len_pos.le)
  after := by
    rw [← mul_div_assoc, ← mul_assoc]
    exact (div_lt_div_iff_of_pos_right F.speed_pos).2 (mul_lt_mul_of_pos_right h.after F.len_pos)
  count := h.count
  admissible := by
    rw [hf, hγ]
    exact runAdmissible_frame (by norm_num) (quadEuler_disc t p ph.ftype ph.γ) (quadGeom_frame hs h.mesh h.quads t p ph.ftype ph.γ)
      hs h.mesh (quadInit_frame hs h.quads t p hst) st.scheme dt n h.admissible

/-- **C73** (inputs, hexahedra). -/
theorem C73_accepts_hex {F : Frame 3} {σ : ℕ → ℕ} {deck deck' : Deck} {fs fs' : String → List String → Option (MeshFile ℝ)}
    {m m' : GMesh ℝ} {t : Fam} {p : ℕ} {ph ph' : Physics} {start start' : (ℕ → ℝ) → ℕ → ℝ} {st : StepperType} {dt T : ℝ}
    {n : ℕ} (h : HexRunOK deck fs m t p ph start st dt T n) (hs : SameMesh F σ m m') (hst : SameStart F start start')
    (hf : ph'.ftype = ph.ftype) (hγ : ph'.γ = ph.γ) (hst' : StartState ph' 3 start')
    (asks' : DeckAsks deck' 3 p (hexType t) ph' st (dt * F.len / F.speed) (T * F.len / F.speed))
    (file' : ∃ name mf, deck'.meshFile = some name ∧ fs' name deck'.boundaries = some mf ∧ MeshFileOf m' 3 mf)
    (mesh' : MeshOK m') (used' : AllNodesUsed m') (nodes' : 0 < m'.coord.length) :
    HexRunOK deck' fs' m' t p ph' start' st (dt * F.len / F.speed) (T * F.len / F.speed) n where
  asks := asks'
  file := file'
  mesh := mesh'
  hexes := hexMesh_frame hs h.mesh h.hexes
  areas := areas_frame hs h.hexes h.areas
  used := used'
  nodes := nodes'
  order := h.order
  small := h.small
  gas := by rw [hγ]; exact h.gas
  startOK := hst'
  step := div_pos (mul_pos h.step F.len_pos) F.speed_pos
  before := by
    rw [← mul_div_assoc, ← mul_assoc]
    exact (div_le_div_iff_of_pos_right F.speed_pos).2 (mul_le_mul_of_nonneg_right h.before F.len_pos.le)
  after := by
    rw [← mul_div_assoc, ← mul_assoc]
    exact (div_lt_div_iff_of_pos_right F.speed_pos).2 (mul_lt_mul_of_pos_right h.after F.len_pos)
  count := h.count
  admissible := by
    rw [hf, hγ]
    exact runAdmissible_frame (by norm_num) (hexEuler_disc t p ph.ftype ph.γ) (hexGeom_frame hs h.mesh h.hexes t p ph.ftype ph.γ)
      hs h.mesh (hexInit_frame hs h.hexes t p hst) st.scheme dt n h.admissible

/-- The converted solution file `g'` holds the solution of `g` seen in the frame `F`, elements renumbered by `σ`: the
coefficients of the element `σ e` are the transformed coefficients of `e`, the time is in the new unit. -/
def SameSolution {dim : ℕ} (F : Frame dim) (σ : ℕ → ℕ) (ne nb : ℕ) (g g' : SolFile ℝ) : Prop :=
  g'.time = g.time * F.len / F.speed ∧
  ∀ e < ne, ∀ b < nb, ∃ U : ℕ → ℝ,
    ∀ s < dim + 2, g.uc.data[(e * nb + b) * (dim + 2) + s]? = some (U s) ∧
      g'.uc.data[(σ e * nb + b) * (dim + 2) + s]? = some (F.state U s)

/-- **C73** (executable, quadrilaterals).  Two complete runs of the executable, on any numbers of ranks, partitions and
schedules, with input files that describe the same flow in two frames (axes, origin, units of length, velocity and
density) on the same mesh with elements, nodes and faces numbered in two ways: the two solution files hold the same
solution, each in its frame. -/
theorem C73_program_quad {F : Frame 2} {σ : ℕ → ℕ} {deck deck' : Deck} {fs fs' : String → List String → Option (MeshFile ℝ)}
    {m m' : GMesh ℝ} {t : Fam} {p : ℕ} {ph ph' : Physics} {start start' : (ℕ → ℝ) → ℕ → ℝ} {st : StepperType} {dt T : ℝ}
    {n : ℕ} (h : QuadRunOK deck fs m t p ph start st dt T n) (hs : SameMesh F σ m m') (hst : SameStart F start start')
    (hf : ph'.ftype = ph.ftype) (hγ : ph'.γ = ph.γ) (hst' : StartState ph' 2 start')
    (asks' : DeckAsks deck' 2 p (quadType t) ph' st (dt * F.len / F.speed) (T * F.len / F.speed))
    (file' : ∃ name mf, deck'.meshFile = some name ∧ fs' name deck'.boundaries = some mf ∧ MeshFileOf m' 2 mf)
    (mesh' : MeshOK m') (used' : AllNodesUsed m') (nodes' : 0 < m'.coord.length)
    (nr nr' : ℕ) (part part' : List ℕ) (env env' : ℕ → RankEnv) (hl : LaunchOK m nr part env)
    (hl' : LaunchOK m' nr' part' env') (un un' : Unset)
    (sched sched' : ℕ → ℕ → List (FluxWrite ℝ) → List (FluxWrite ℝ)) (hsc : ∀ r k l, (sched r k l).Perm l)
    (hsc' : ∀ r k l, (sched' r k l).Perm l) (ord ord' : ℕ → List ℕ) (ho : ∀ i, (ord i).Perm (List.range nr))
    (ho' : ∀ i, (ord' i).Perm (List.range nr')) (job job' : Job) (ranks ranks' : ℕ → RankReady)
    (hj : readJob deck fs un 2 nr = some job) (hj' : readJob deck' fs' un' 2 nr' = some job')
    (hr : ∀ r < nr, readyRank job un 2 nr (env r) r = some (ranks r))
    (hr' : ∀ r < nr', readyRank job' un' 2 nr' (env' r) r = some (ranks' r))
    (c c' : LoopConf) (k k' : ℕ) (hx : Proto.Exec (jobProg job ranks nr sched) (jobInit job ranks) c k)
    (hx' : Proto.Exec (jobProg job' ranks' nr' sched') (jobInit job' ranks') c' k')
    (hd : LoopDone job nr c) (hd' : LoopDone job' nr' c') :
    ∃ f f' g g', jobFile job ranks 2 nr ord c = some f ∧ jobFile job' ranks' 2 nr' ord' c' = some f' ∧
      convert nr f = some g ∧ convert nr' f' = some g' ∧ SameSolution F σ m.numElems ((p + 1) * (p + 1)) g g' := by
  have h' := C73_accepts_quad h hs hst hf hγ hst' asks' file' mesh' used' nodes'
  obtain ⟨-, j, a1, -, a2⟩ := C67_program_quad deck fs m t p ph start st dt T n h nr part env hl un sched hsc ord ho
  obtain ⟨-, j', b1, -, b2⟩ := C67_program_quad deck' fs' m' t p ph' start' st _ _ n h' nr' part' env' hl' un' sched' hsc' ord' ho'
  rw [hj] at a1; cases a1
  rw [hj'] at b1; cases b1
  obtain ⟨f, g, x1, x2, -, x3, -⟩ := (a2 ranks hr c k hx).2.2 hd
  obtain ⟨f', g', y1, y2, -, y3, -⟩ := (b2 ranks' hr' c' k' hx').2.2 hd'
  refine ⟨f, f', g, g', x1, y1, x2, y2, ?_, fun e he b hb => ⟨_, fun s hs4 => ⟨x3.coeffs e he b hb s hs4, ?_⟩⟩⟩
  · rw [y3.finalTime, x3.finalTime]; ring
  · rw [y3.coeffs (σ e) (by rw [hs.numElems]; exact hs.lt e he) b hb s hs4]
    rw [C73_run_quad hs h.mesh h.quads t p ph ph' hf hγ start start' hst st.scheme dt n e he b hb s hs4]

/-- **C73** (executable, hexahedra). -/
theorem C73_program_hex {F : Frame 3} {σ : ℕ → ℕ} {deck deck' : Deck} {fs fs' : String → List String → Option (MeshFile ℝ)}
    {m m' : GMesh ℝ} {t : Fam} {p : ℕ} {ph ph' : Physics} {start start' : (ℕ → ℝ) → ℕ → ℝ} {st : StepperType} {dt T : ℝ}
    {n : ℕ} (h : HexRunOK deck fs m t p ph start st dt T n) (hs : SameMesh F σ m m') (hst : SameStart F start start')
    (hf : ph'.ftype = ph.ftype) (hγ : ph'.γ = ph.γ) (hst' : StartState ph' 3 start')
    (asks' : DeckAsks deck' 3 p (hexType t) ph' st (dt * F.len / F.speed) (T * F.len / F.speed))
    (file' : ∃ name mf, deck'.meshFile = some name ∧ fs' name deck'.boundaries = some mf ∧ MeshFileOf m' 3 mf)
    (mesh' : MeshOK m') (used' : AllNodesUsed m') (nodes' : 0 < m'.coord.length)
    (nr nr' : ℕ) (part part' : List ℕ) (env env' : ℕ → RankEnv) (hl : LaunchOK m nr part env)
    (hl' : LaunchOK m' nr' part' env') (hc : CutFlat m part) (hc' : CutFlat m' part') (un un' : Unset)
    (sched sched' : ℕ → ℕ → List (FluxWrite ℝ) → List (FluxWrite ℝ)) (hsc : ∀ r k l, (sched r k l).Perm l)
    (hsc' : ∀ r k l, (sched' r k l).Perm l) (ord ord' : ℕ → List ℕ) (ho : ∀ i, (ord i).Perm (List.range nr))
    (ho' : ∀ i, (ord' i).Perm (List.range nr')) (job job' : Job) (ranks ranks' : ℕ → RankReady)
    (hj : readJob deck fs un 3 nr = some job) (hj' : readJob deck' fs' un' 3 nr' = some job')
    (hr : ∀ r < nr, readyRank job un 3 nr (env r) r = some (ranks r))
    (hr' : ∀ r < nr', readyRank job' un' 3 nr' (env' r) r = some (ranks' r))
    (c c' : LoopConf) (k k' : ℕ) (hx : Proto.Exec (jobProg job ranks nr sched) (jobInit job ranks) c k)
    (hx' : Proto.Exec (jobProg job' ranks' nr' sched') (jobInit job' ranks') c' k')
    (hd : LoopDone job nr c) (hd' : LoopDone job' nr' c') :
    ∃ f f' g g', jobFile job ranks 3 nr ord c = some f ∧ jobFile job' ranks' 3 nr' ord' c' = some f' ∧
      convert nr f = some g ∧ convert nr' f' = some g' ∧
      SameSolution F σ m.numElems ((p + 1) * (p + 1) * (p + 1)) g g' := by
  have h' := C73_accepts_hex h hs hst hf hγ hst' asks' file' mesh' used' nodes'
  obtain ⟨-, j, a1, -, a2⟩ := C67_program_hex deck fs m t p ph start st dt T n h nr part env hl hc un sched hsc ord ho
  obtain ⟨-, j', b1, -, b2⟩ := C67_program_hex deck' fs' m' t p ph' start' st _ _ n h' nr' part' env' hl' hc' un' sched' hsc'
    ord' ho'
  rw [hj] at a1; cases a1
  rw [hj'] at b1; cases b1
  obtain ⟨f, g, x1, x2, -, x3, -⟩ := (a2 ranks hr c k hx).2.2 hd
  obtain ⟨f', g', y1, y2, -, y3, -⟩ := (b2 ranks' hr' c' k' hx').2.2 hd'
  refine ⟨f, f', g, g', x1, y1, x2, y2, ?_, fun e he b hb => ⟨_, fun s hs4 => ⟨x3.coeffs e he b hb s hs4, ?_⟩⟩⟩
  · rw [y3.finalTime, x3.finalTime]; ring
  · rw [y3.coeffs (σ e) (by rw [hs.numElems]; exact hs.lt e he) b hb s hs4]
    rw [C73_run_hex hs h.mesh h.hexes t p ph ph' hf hγ start start' hst st.scheme dt n e he b hb s hs4]

end DG
