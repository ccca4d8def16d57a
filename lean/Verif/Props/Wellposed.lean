import Verif.Lemmas.LipResidual
import Verif.Props.Main

/-!
Property C82: the semidiscrete Euler equations have a solution, it is unique, and the time loop follows it.
-/
open Set Filter Topology
namespace DG
variable {α : Type} {d : Disc ℝ} {f : NumericalFluxType} {γ : ℝ} {m : GMesh α} {G : Geom ℝ}

theorem volState_agree {ne : ℕ} {U V : Coeffs ℝ} (h : AgreeIn d ne U V) {e : ℕ} (he : e < ne) (q : ℕ) :
    volState d U e q = volState d V e q := by
  funext s
  unfold volState
  split_ifs with hs
  · exact Finset.sum_congr rfl fun b hb => by rw [h e he b (Finset.mem_range.1 hb) s hs]
  · rfl

theorem traceState_agree {ne : ℕ} {U V : Coeffs ℝ} (h : AgreeIn d ne U V) {e : ℕ} (he : e < ne) (face q : ℕ) :
    traceState d U e face q = traceState d V e face q := by
  funext s
  unfold traceState
  split_ifs with hs
  · exact Finset.sum_congr rfl fun b hb => by rw [h e he b (Finset.mem_range.1 hb) s hs]
  · rfl

theorem StatesRegular.congr (hm : MeshOK m) {U V : Coeffs ℝ} (h : AgreeIn d m.numElems U V)
    (hU : StatesRegular f γ d m G U) : StatesRegular f γ d m G V := by
  refine ⟨⟨fun e he q hq => ?_, fun x hx i hi => ?_, fun x hx i hi => ?_⟩, fun hf x hx i hi => ?_⟩
  · rw [← volState_agree h he]; exact hU.admissible.vol e he q hq
  · rw [← traceState_agree h (hm.faces x hx).1]; exact hU.admissible.left x hx i hi
  · rw [← traceState_agree h (hm.faces x hx).2]; exact hU.admissible.right x hx i hi
  · have hx1 : x.1 ∈ m.faces := List.fst_mem_of_mem_zipIdx hx
    rw [← traceState_agree h (hm.faces _ hx1).1, ← traceState_agree h (hm.faces _ hx1).2]
    exact hU.waves hf x hx i hi

theorem agree_symm {ne : ℕ} {U V : Coeffs ℝ} (h : AgreeIn d ne U V) : AgreeIn d ne V U :=
  fun e he b hb s hs => (h e he b hb s hs).symm

theorem rhs_agree (hm : MeshOK m) (U V : Coeffs ℝ) (h : AgreeIn d m.numElems U V) :
    AgreeIn d m.numElems (globalRHS d m G U) (globalRHS d m G V) := by
  intro e he b _ v _
  exact Finset.sum_congr rfl fun j _ => by rw [globalResidual_congr hm h he]

theorem box_solution {ne : ℕ} {T : ℝ} {F : Coeffs ℝ → Coeffs ℝ} {y : ℝ → Coeffs ℝ}
    (hF : ∀ U V, AgreeIn d ne U V → AgreeIn d ne (F U) (F V))
    (hy : ExactSolution d ne T (fun _ => F) y) : ∀ t ∈ Set.Icc 0 T, HasDerivWithinAt (fun t => toBox d ne (y t))
      (boxRHS d ne (fun _ => F) 0 (toBox d ne (y t))) (Set.Icc 0 T) t := by
  intro t ht
  rw [boxRHS, toBox_eq_iff.2 (hF _ _ (ofBox_toBox d ne (y t)))]
  refine hasDerivWithinAt_pi.2 fun e => hasDerivWithinAt_pi.2 fun b => hasDerivWithinAt_pi.2 fun v => ?_
  exact hy t ht e e.2 b b.2 v v.2

/-- **C82** (existence).  From every regular initial state the discontinuous Galerkin equations
`dU/dt = M⁻¹ R(U)` for the Euler equations have a solution for some time, and it stays regular: densities and
pressures at all points at which the scheme evaluates the fluxes remain positive. -/
theorem C82_solution_exists {norient : ℕ} (hm : MeshOK m) (hE : EulerScheme d f γ) (hγ : 1 < γ)
    (hc : Conforming d norient m) (ho : OrderOK d norient) (U : Coeffs ℝ) (hU : StatesRegular f γ d m G U) :
    ∃ T > 0, ∃ y : ℝ → Coeffs ℝ, AgreeIn d m.numElems (y 0) U ∧
      ExactSolution d m.numElems T (fun _ => globalRHS d m G) y ∧
      ∀ t ∈ Set.Icc 0 T, StatesRegular f γ d m G (y t) := by
  obtain ⟨T, hT, z, z0, hz⟩ := lip_exists (F := boxRHS d m.numElems (fun _ => globalRHS d m G) 0)
    (regular_open (ne := m.numElems) (G := G) (f := f) hγ hc ho) (fun u hu => lip_rhs hE hγ hc ho hu)
    (u0 := toBox d m.numElems U) (hU.congr hm (agree_symm (ofBox_toBox d m.numElems U)))
  refine ⟨T, hT, fun t => ofBox (z t), ?_, ?_, fun t ht => (hz t ht).1⟩
  · refine toBox_eq_iff.1 ?_
    rw [toBox_ofBox, z0]
  · intro t ht e he b hb v hv
    have h1 := hasDerivWithinAt_pi.1 (hasDerivWithinAt_pi.1 (hasDerivWithinAt_pi.1 (hz t ht).2 ⟨e, he⟩) ⟨b, hb⟩) ⟨v, hv⟩
    have e1 : (fun t => ofBox (z t) e b v) = fun t => z t ⟨e, he⟩ ⟨b, hb⟩ ⟨v, hv⟩ := by
      funext t; simp [ofBox, he, hb, hv]
    rw [e1]
    exact h1

/-- **C82** (the time loop follows the solution).  Let `y` be a regular solution of the discontinuous Galerkin equations
for the Euler equations on `[0, T]`.  There are a constant `C` and a step size `h0` such that for every step size up
to `h0` and every number of steps `n` with `n dt ≤ T`, the textbook run from `y 0` evaluates the fluxes at
admissible states only, and is within `C dt` of `y` after its `n` steps. -/
theorem C82_run_converges {norient : ℕ} (hm : MeshOK m) (hE : EulerScheme d f γ) (hγ : 1 < γ)
    (hc : Conforming d norient m) (ho : OrderOK d norient) (T : ℝ) (hT : 0 ≤ T) (y : ℝ → Coeffs ℝ)
    (hy : ExactSolution d m.numElems T (fun _ => globalRHS d m G) y)
    (hr : ∀ t ∈ Set.Icc 0 T, StatesRegular f γ d m G (y t)) :
    ∃ C h0 : ℝ, 0 < h0 ∧ ∀ (st : Stepper) (dt : ℝ) (n : ℕ) (U : Coeffs ℝ), 0 < dt → dt ≤ h0 → n * dt ≤ T →
      AgreeIn d m.numElems U (y 0) →
      RunAdmissible γ d m G st dt U n ∧
      ∀ e < m.numElems, ∀ b < d.nb, ∀ v < d.ns,
        |(stepOf st dt (globalRHS d m G))^[n] U e b v - y (n * dt) e b v| ≤ C * dt := by
  set F : Coeffs ℝ → Coeffs ℝ := globalRHS d m G with hFdef
  have hF : ∀ U V, AgreeIn d m.numElems U V → AgreeIn d m.numElems (F U) (F V) := rhs_agree hm
  obtain ⟨D, h0, hp, hD⟩ := lip_order (F := boxRHS d m.numElems (fun _ => F) 0) hT
    (regular_open (ne := m.numElems) (G := G) (f := f) hγ hc ho) (fun u hu => lip_rhs hE hγ hc ho hu)
    (y := fun t => toBox d m.numElems (y t))
    (fun t ht => (hr t ht).congr hm (agree_symm (ofBox_toBox d m.numElems (y t)))) (box_solution hF hy)
  refine ⟨D, h0, hp, fun st dt n U hdt hle hn hU => ?_⟩
  -- the march on the normed space is the run of the scheme
  have hmarch : ∀ (st : Stepper) (k : ℕ), (march (boxStep st (fun _ => boxRHS d m.numElems (fun _ => F) 0)) dt k
      (toBox d m.numElems (y 0))).2 = toBox d m.numElems ((stepOf st dt F)^[k] U) := by
    intro st k
    rw [← toBox_eq_iff.2 hU]
    have h1 := boxMarch_eq st (fun _ => F) (fun _ => hF) dt U k
    simp only at h1
    rw [show (fun _ : ℝ => boxRHS d m.numElems (fun _ => F) 0) = boxRHS d m.numElems (fun _ => F) from rfl, h1,
      stepOf_iterate]
  have hb : ∀ W : Coeffs ℝ, boxRHS d m.numElems (fun _ => F) 0 (toBox d m.numElems W) = toBox d m.numElems (F W) :=
    fun W => toBox_eq_iff.2 (hF _ _ (ofBox_toBox d m.numElems W))
  have ha : ∀ (c : ℝ) (V W : Coeffs ℝ), toBox d m.numElems V + c • toBox d m.numElems W =
      toBox d m.numElems (fun e b v => V e b v + c * W e b v) := fun c V W => rfl
  have reg : ∀ W : Coeffs ℝ, StatesRegular f γ d m G (ofBox (toBox d m.numElems W)) → StatesAdmissible γ d m W :=
    fun W h => (h.congr hm (ofBox_toBox d m.numElems W)).admissible
  constructor
  · intro i hi
    have hin : ((i : ℝ) + 1) * dt ≤ T := le_trans
      (mul_le_mul_of_nonneg_right (by exact_mod_cast hi) hdt.le) hn
    have hin' : (i : ℝ) * dt ≤ T := by nlinarith
    cases st with
    | FE =>
      have h1 := ((hD dt i hdt hle hin').1 (eulerV _) (Or.inr rfl)).2.2
      have h2 := hmarch .FE i
      simp only [boxStep] at h2
      rw [h2] at h1
      exact reg _ h1
    | RK4 =>
      have h2 := hmarch .RK4 i
      simp only [boxStep] at h2
      have h1 := (hD dt i hdt hle hin').2 hin _ h2.symm
      simp only [hb, ha] at h1
      exact ⟨reg _ h1.1, reg _ h1.2.1, reg _ h1.2.2.1, reg _ h1.2.2.2⟩
  · intro e he b hb' v hv
    have h2 := hmarch st n
    refine (entry_le_norm _ _ he hb' hv).trans ?_
    rw [← h2]
    cases st with
    | FE => exact ((hD dt n hdt hle hn).1 (eulerV _) (Or.inr rfl)).2.1
    | RK4 => exact ((hD dt n hdt hle hn).1 (rk4V _) (Or.inl rfl)).2.1

/-- **C82** (uniqueness).  Two regular solutions on `[0, T]` with the same initial coefficients agree. -/
theorem C82_solution_unique {norient : ℕ} (hm : MeshOK m) (hE : EulerScheme d f γ) (hγ : 1 < γ)
    (hc : Conforming d norient m) (ho : OrderOK d norient) (T : ℝ) (y z : ℝ → Coeffs ℝ)
    (hy : ExactSolution d m.numElems T (fun _ => globalRHS d m G) y)
    (hz : ExactSolution d m.numElems T (fun _ => globalRHS d m G) z)
    (hry : ∀ t ∈ Set.Icc 0 T, StatesRegular f γ d m G (y t)) (hrz : ∀ t ∈ Set.Icc 0 T, StatesRegular f γ d m G (z t))
    (h0 : AgreeIn d m.numElems (y 0) (z 0)) : ∀ t ∈ Set.Icc 0 T, AgreeIn d m.numElems (y t) (z t) := by
  intro t ht e he b hb v hv
  have hT : 0 ≤ T := ht.1.trans ht.2
  obtain ⟨C, a, ap, hC⟩ := C82_run_converges hm hE hγ hc ho T hT y hy hry
  obtain ⟨C', a', ap', hC'⟩ := C82_run_converges hm hE hγ hc ho T hT z hz hrz
  rcases eq_or_lt_of_le ht.1 with h | tpos
  · rw [← h]; exact h0 e he b hb v hv
  -- both are the limit of the same runs
  have main : ∀ n : ℕ, t / min a a' < n → |y t e b v - z t e b v| ≤ (|C| + |C'|) * (t / n) := by
    intro n hn
    have np : (0 : ℝ) < n := lt_trans (by positivity) hn
    have hdt : 0 < t / n := by positivity
    have hle : t / n ≤ min a a' := by
      rw [div_le_iff₀ np]
      rw [div_lt_iff₀ (lt_min ap ap')] at hn
      linarith
    have hnt : (n : ℝ) * (t / n) = t := by field_simp
    have k1 := (hC .FE (t / n) n (y 0) hdt (hle.trans (min_le_left _ _)) (by rw [hnt]; exact ht.2)
      (fun _ _ _ _ _ _ => rfl)).2 e he b hb v hv
    have k2 := (hC' .FE (t / n) n (y 0) hdt (hle.trans (min_le_right _ _)) (by rw [hnt]; exact ht.2) h0).2 e he b hb v hv
    rw [hnt] at k1 k2
    have l1 : C * (t / n) ≤ |C| * (t / n) := mul_le_mul_of_nonneg_right (le_abs_self C) hdt.le
    have l2 : C' * (t / n) ≤ |C'| * (t / n) := mul_le_mul_of_nonneg_right (le_abs_self C') hdt.le
    rw [abs_le] at k1 k2 ⊢
    constructor <;> nlinarith
  have lim : Tendsto (fun n : ℕ => (|C| + |C'|) * (t / n)) atTop (𝓝 ((|C| + |C'|) * 0)) :=
    (tendsto_const_div_atTop_nhds_zero_nat t).const_mul _
  rw [mul_zero] at lim
  have ev : ∀ᶠ n : ℕ in atTop, |y t e b v - z t e b v| ≤ (|C| + |C'|) * (t / n) := by
    filter_upwards [eventually_gt_atTop ⌈t / min a a'⌉₊] with n hn
    exact main n (lt_of_le_of_lt (Nat.le_ceil _) (by exact_mod_cast hn))
  have := ge_of_tendsto lim ev
  exact sub_eq_zero.1 (abs_eq_zero.1 (le_antisymm this (abs_nonneg _)))

theorem quadEuler_scheme (t : Fam) (p : ℕ) (f : NumericalFluxType) (γ : ℝ) : EulerScheme (quadEuler t p f γ) f γ :=
  ⟨rfl, rfl, rfl⟩

theorem hexEuler_scheme (t : Fam) (p : ℕ) (f : NumericalFluxType) (γ : ℝ) : EulerScheme (hexEuler t p f γ) f γ :=
  ⟨rfl, rfl, rfl⟩

/-- **C82** (the executable, quadrilaterals).  Let `y` be a regular solution of the discontinuous Galerkin equations
for the Euler equations on `[0, T0]`, from the projected initial state of the input file.  There are a constant
`C` and a step size `h0` such that every run of the program that asks for a time step up to `h0` and a final time up to
`T0` succeeds: on every number of ranks, for every partition, interleaving, order of parallel loops and content of
uninitialised memory, no rank fails, every execution can be continued to its end, and the converted solution file at the
end holds `y` at the time of the last step up to `C dt`. -/
theorem C82_program_quad (m : GMesh ℝ) (hm : MeshOK m) (hq : QuadMesh m) (hs : SidesNonzero m) (hu : AllNodesUsed m)
    (hne : 0 < m.coord.length) (t : Fam) (p : ℕ) (hp : orderFine t p) (ph : Physics) (hγ : 1 < ph.γ)
    (start : (ℕ → ℝ) → ℕ → ℝ) (hstart : StartState ph 2 start) (T0 : ℝ) (hT : 0 ≤ T0) (y : ℝ → Coeffs ℝ)
    (h0 : AgreeIn (quadEuler t p ph.ftype ph.γ) m.numElems (quadInit t p m start) (y 0))
    (hy : ExactSolution (quadEuler t p ph.ftype ph.γ) m.numElems T0
      (fun _ => globalRHS (quadEuler t p ph.ftype ph.γ) m (quadGeom t p m)) y)
    (hr : ∀ s ∈ Set.Icc 0 T0, StatesRegular ph.ftype ph.γ (quadEuler t p ph.ftype ph.γ) m (quadGeom t p m) (y s)) :
    ∃ C h0 : ℝ, 0 < h0 ∧ ∀ (deck : Deck) (fs : String → List String → Option (MeshFile ℝ)) (st : StepperType)
      (dt T : ℝ) (n : ℕ), DeckAsks deck 2 p (quadType t) ph st dt T →
      (∃ name mf, deck.meshFile = some name ∧ fs name deck.boundaries = some mf ∧ MeshFileOf m 2 mf) →
      0 < dt → dt ≤ h0 → T ≤ T0 → n * dt ≤ T → T < (n + 1) * dt → n < 2 ^ 31 →
      ∀ (nranks : ℕ) (part : List ℕ) (env : ℕ → RankEnv), LaunchOK m nranks part env → ∀ (un : Unset)
      (sched : ℕ → ℕ → List (FluxWrite ℝ) → List (FluxWrite ℝ)), (∀ r k l, (sched r k l).Perm l) →
      ∀ ord : ℕ → List ℕ, (∀ i, (ord i).Perm (List.range nranks)) →
      mainDim deck = some (some 2) ∧ ∃ job, readJob deck fs un 2 nranks = some job ∧
        (∀ r < nranks, readyRank job un 2 nranks (env r) r ≠ none) ∧
        ∀ ranks : ℕ → RankReady, (∀ r < nranks, readyRank job un 2 nranks (env r) r = some (ranks r)) →
        ∀ c k, Proto.Exec (jobProg job ranks nranks sched) (jobInit job ranks) c k →
          (∀ r < nranks, (c.proc r).phase ≠ .failed ∧ (c.proc r).st.2 ≠ none) ∧
          (∃ c' k', Proto.Exec (jobProg job ranks nranks sched) c c' k' ∧ LoopDone job nranks c') ∧
          (LoopDone job nranks c → ∃ f g V, jobFile job ranks 2 nranks ord c = some f ∧ convert nranks f = some g ∧
            SerialFileOf m 2 ((p + 1) * (p + 1)) 4 (n * dt) V g ∧
            ∀ e < m.numElems, ∀ b < (p + 1) * (p + 1), ∀ v < 4, |V e b v - y (n * dt) e b v| ≤ C * dt) := by
  obtain ⟨C, a, ap, hC⟩ := C82_run_converges hm (quadEuler_scheme t p ph.ftype ph.γ) hγ (hq.conforming t p 4 _ _)
    (quadDisc_order t p 4 _ _) T0 hT y hy hr
  refine ⟨C, a, ap, ?_⟩
  intro deck fs st dt T n asks file hdt hle hT0 hn1 hn2 hn3 nranks part env hl un sched hsched ord hord
  obtain ⟨adm, err⟩ := hC st.scheme dt n (quadInit t p m start) hdt hle (hn1.trans hT0) h0
  have ok : QuadRunOK deck fs m t p ph start st dt T n :=
    { asks := asks
      file := file
      mesh := hm
      quads := hq
      sides := hs
      used := hu
      nodes := hne
      order := hp
      gas := hγ
      startOK := hstart
      step := hdt
      before := hn1
      after := hn2
      count := hn3
      admissible := adm }
  obtain ⟨k1, job, k2, k3, k4⟩ := C67_program_quad deck fs m t p ph start st dt T n ok nranks part env hl un sched
    hsched ord hord
  refine ⟨k1, job, k2, k3, fun ranks hranks c k hx => ?_⟩
  obtain ⟨l1, l2, l3⟩ := k4 ranks hranks c k hx
  refine ⟨l1, l2, fun hd => ?_⟩
  obtain ⟨f, g, f1, f2, -, f4, -⟩ := l3 hd
  exact ⟨f, g, _, f1, f2, f4, fun e he b hb v hv => err e he b hb v hv⟩

/-- **C82** (the executable, hexahedra).  The same for meshes of trilinear hexahedra, partitioned along flat faces. -/
theorem C82_program_hex (m : GMesh ℝ) (hm : MeshOK m) (hq : HexMesh m) (hs : FacesNonzero m) (hu : AllNodesUsed m)
    (hne : 0 < m.coord.length) (t : Fam) (p : ℕ) (hp : orderFine t p) (hsmall : p ≤ 5) (ph : Physics) (hγ : 1 < ph.γ)
    (start : (ℕ → ℝ) → ℕ → ℝ) (hstart : StartState ph 3 start) (T0 : ℝ) (hT : 0 ≤ T0) (y : ℝ → Coeffs ℝ)
    (h0 : AgreeIn (hexEuler t p ph.ftype ph.γ) m.numElems (hexInit t p m start) (y 0))
    (hy : ExactSolution (hexEuler t p ph.ftype ph.γ) m.numElems T0
      (fun _ => globalRHS (hexEuler t p ph.ftype ph.γ) m (hexGeom t p m)) y)
    (hr : ∀ s ∈ Set.Icc 0 T0, StatesRegular ph.ftype ph.γ (hexEuler t p ph.ftype ph.γ) m (hexGeom t p m) (y s)) :
    ∃ C h0 : ℝ, 0 < h0 ∧ ∀ (deck : Deck) (fs : String → List String → Option (MeshFile ℝ)) (st : StepperType)
      (dt T : ℝ) (n : ℕ), DeckAsks deck 3 p (hexType t) ph st dt T →
      (∃ name mf, deck.meshFile = some name ∧ fs name deck.boundaries = some mf ∧ MeshFileOf m 3 mf) →
      0 < dt → dt ≤ h0 → T ≤ T0 → n * dt ≤ T → T < (n + 1) * dt → n < 2 ^ 31 →
      ∀ (nranks : ℕ) (part : List ℕ) (env : ℕ → RankEnv), LaunchOK m nranks part env → CutFlat m part → ∀ (un : Unset)
      (sched : ℕ → ℕ → List (FluxWrite ℝ) → List (FluxWrite ℝ)), (∀ r k l, (sched r k l).Perm l) →
      ∀ ord : ℕ → List ℕ, (∀ i, (ord i).Perm (List.range nranks)) →
      mainDim deck = some (some 3) ∧ ∃ job, readJob deck fs un 3 nranks = some job ∧
        (∀ r < nranks, readyRank job un 3 nranks (env r) r ≠ none) ∧
        ∀ ranks : ℕ → RankReady, (∀ r < nranks, readyRank job un 3 nranks (env r) r = some (ranks r)) →
        ∀ c k, Proto.Exec (jobProg job ranks nranks sched) (jobInit job ranks) c k →
          (∀ r < nranks, (c.proc r).phase ≠ .failed ∧ (c.proc r).st.2 ≠ none) ∧
          (∃ c' k', Proto.Exec (jobProg job ranks nranks sched) c c' k' ∧ LoopDone job nranks c') ∧
          (LoopDone job nranks c → ∃ f g V, jobFile job ranks 3 nranks ord c = some f ∧ convert nranks f = some g ∧
            SerialFileOf m 3 ((p + 1) * (p + 1) * (p + 1)) 5 (n * dt) V g ∧
            ∀ e < m.numElems, ∀ b < (p + 1) * (p + 1) * (p + 1), ∀ v < 5, |V e b v - y (n * dt) e b v| ≤ C * dt) := by
  obtain ⟨C, a, ap, hC⟩ := C82_run_converges hm (hexEuler_scheme t p ph.ftype ph.γ) hγ (hq.conforming t p 5 _ _)
    (hexDisc_order t p 5 _ _) T0 hT y hy hr
  refine ⟨C, a, ap, ?_⟩
  intro deck fs st dt T n asks file hdt hle hT0 hn1 hn2 hn3 nranks part env hl hcut un sched hsched ord hord
  obtain ⟨adm, err⟩ := hC st.scheme dt n (hexInit t p m start) hdt hle (hn1.trans hT0) h0
  have ok : HexRunOK deck fs m t p ph start st dt T n :=
    { asks := asks
      file := file
      mesh := hm
      hexes := hq
      areas := hs
      used := hu
      nodes := hne
      order := hp
      small := hsmall
      gas := hγ
      startOK := hstart
      step := hdt
      before := hn1
      after := hn2
      count := hn3
      admissible := adm }
  obtain ⟨k1, job, k2, k3, k4⟩ := C67_program_hex deck fs m t p ph start st dt T n ok nranks part env hl hcut un sched
    hsched ord hord
  refine ⟨k1, job, k2, k3, fun ranks hranks c k hx => ?_⟩
  obtain ⟨l1, l2, l3⟩ := k4 ranks hranks c k hx
  refine ⟨l1, l2, fun hd => ?_⟩
  obtain ⟨f, g, f1, f2, -, f4, -⟩ := l3 hd
  exact ⟨f, g, _, f1, f2, f4, fun e he b hb v hv => err e he b hb v hv⟩

end DG
