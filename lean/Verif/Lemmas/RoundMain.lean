import Verif.Spec.MachineMain
import Verif.Lemmas.RoundVortex
import Verif.Props.Main
import Verif.Props.RoundingThreads

/-!
The executable in rounded arithmetic: input deck, number of steps, clock and solution file.
-/
namespace DG

theorem Arith.literal_close {A : Arith} (n : ℤ) (k : ℕ) (hu : A.u ≤ 1) (hB : |(n : ℝ) / 10 ^ k| ≤ A.big) :
    A.Close (|(n : ℝ) / 10 ^ k| + 1) (DecLit.ofDec n k) ((n : ℝ) / 10 ^ k) := by
  obtain ⟨f1, f2, -⟩ := A.lit n k hB
  refine ⟨f1, f2.trans ?_⟩
  have h0 := A.u_nonneg
  nlinarith

/-! ### the initial condition -/

/-- the physics of the deck on a computer, with the contents of a work array -/
structure PhysRead (ph : Physics) (κ : ℝ) (A : Arith) (q : Fl.Physics A.K × (ℕ → A.K)) : Prop where
  ic : q.1.ic = ph.ic
  len : q.1.icData.length = ph.icData.length
  data : ∀ i < ph.icData.length, A.Close κ (q.1.icData.getD i 0) (ph.icData.getD i 0)
  γ : A.Close κ q.1.γ ph.γ
  R : ph.R = 1 → q.1.R = 1

/-- the initial conditions are computed, uniformly over the input decks -/
theorem start_computes {ph : Physics} {dim : ℕ} {start : (ℕ → ℝ) → ℕ → ℝ} (hs : StartState ph dim start) (hγ : 1 < ph.γ) (κ : ℝ) :
    ComputesAll dim (dim + 2) (fun A ic' => ∃ q : Fl.Physics A.K × (ℕ → A.K), PhysRead ph κ A q ∧ ic' = Fl.solverIC dim q.1 q.2) start := by
  refine computesAll_of_follow (P := fun A => Fl.Physics A.K × (ℕ → A.K)) (R := PhysRead ph κ) (f := fun A q => Fl.solverIC dim q.1 q.2)
    fun κ1 X s hlt => ?_
  cases hs with
  | uniform _ hd h hlen =>
    refine Fo.ofClose (κ := κ) (Filter.Eventually.of_forall fun i => ?_)
    have hp := i.2.2
    have e : Fl.solverIC dim i.par.1 i.par.2 (i.co 0 0) s = i.par.1.icData.getD s 0 := by
      have hl : dim + 2 ≤ i.par.1.icData.length := by rw [show i.par.1.icData.length = _ from hp.len]; exact hlen
      have hic : i.par.1.ic = .Uniform := (show i.par.1.ic = ph.ic from hp.ic).trans h
      unfold Fl.solverIC Fl.callIC
      rcases hd with rfl | rfl
      · simp only [hic, Fl.setUniform]
        rw [if_pos hl]
        simp only [Option.getD_some]
        rw [if_pos hlt]
      · simp only [hic, Fl.setUniform]
        rw [if_pos hl]
        simp only [Option.getD_some]
        rw [if_pos hlt]
    rw [e]
    exact hp.data s (by omega)
  | vortex h hR ρ u v P K rest hdata hρ hP hK =>
    have hd : ∀ k (hk : k < ph.icData.length), Fo (sitFilter (PhysRead ph κ) 1 1 2 κ1 fun _ _ => X) Sit.A
        (fun i => i.par.1.icData.getD k 0) (ph.icData.getD k 0) := fun k hk =>
      Fo.ofClose (κ := κ) (Filter.Eventually.of_forall fun i => i.2.2.data k hk)
    have hlen : 5 ≤ ph.icData.length := by rw [hdata]; simp
    have hg : Fo (sitFilter (PhysRead ph κ) 1 1 2 κ1 fun _ _ => X) Sit.A (fun i => i.par.1.γ) ph.γ :=
      Fo.ofClose (κ := κ) (Filter.Eventually.of_forall fun i => i.2.2.γ)
    have key := vortex2_follow sit_fine (data := fun i : Sit (PhysRead ph κ) 1 1 2 κ1 (fun _ _ => X) => fun k => i.par.1.icData.getD k 0)
      (γ' := fun i => i.par.1.γ) (X := fun i => i.co 0 0) (fun i => i.par.2) hγ hρ hP hK
      (by have := hd 0 (by omega); rwa [hdata] at this) (by have := hd 1 (by omega); rwa [hdata] at this)
      (by have := hd 2 (by omega); rwa [hdata] at this) (by have := hd 3 (by omega); rwa [hdata] at this)
      (by have := hd 4 (by omega); rwa [hdata] at this) hg (sit_point (by norm_num)) (sit_point (by norm_num)) (s := s) hlt
    have e : ∀ i : Sit (PhysRead ph κ) 1 1 2 κ1 (fun _ _ => X), Fl.solverIC 2 i.par.1 i.par.2 (i.co 0 0) s =
        ((Fl.vortex2 (fun k => i.par.1.icData.getD k 0) i.par.1.γ 1 (i.co 0 0) 0 i.par.2).getD i.par.2) s := by
      intro i
      have hp := i.2.2
      have hic : i.par.1.ic = .IsentropicVortex := (show i.par.1.ic = ph.ic from hp.ic).trans h
      have hl : 5 ≤ i.par.1.icData.length := by rw [show i.par.1.icData.length = _ from hp.len]; exact hlen
      have hRR : i.par.1.R = 1 := hp.R hR
      unfold Fl.solverIC Fl.callIC
      simp only [hic]
      rw [if_pos hl, hRR]
    simp only [e]
    exact key
  | vortex3 h hγ3 =>
    have hg : Fo (sitFilter (PhysRead ph κ) 1 1 3 κ1 fun _ _ => X) Sit.A (fun i => i.par.1.γ) ph.γ :=
      Fo.ofClose (κ := κ) (Filter.Eventually.of_forall fun i => i.2.2.γ)
    have key := vortex3_follow sit_fine (γ' := fun i : Sit (PhysRead ph κ) 1 1 3 κ1 (fun _ _ => X) => i.par.1.γ) (X := fun i => i.co 0 0)
      (fun i => i.par.2) hγ hγ3 hg (sit_point (by norm_num)) (sit_point (by norm_num)) (s := s) hlt
    have e : ∀ i : Sit (PhysRead ph κ) 1 1 3 κ1 (fun _ _ => X), Fl.solverIC 3 i.par.1 i.par.2 (i.co 0 0) s =
        Fl.vortex3 i.par.1.γ (i.co 0 0) 0 i.par.2 s := by
      intro i
      have hp := i.2.2
      have hic : i.par.1.ic = .IsentropicVortex := (show i.par.1.ic = ph.ic from hp.ic).trans h
      unfold Fl.solverIC Fl.callIC
      simp only [hic, Option.getD_some]
    simp only [e]
    exact key

/-! ### the number of steps -/

/-- the number of steps the program takes -/
theorem machine_steps {A : Arith} {toInt : A.K → Option ℤ} (ht : Truncates A toInt) {sol : Fl.SolverSetup A.K}
    (hu : A.u ≤ 1 / 2 ^ 31) (hB : 2 ^ 31 ≤ A.big) (f1 : A.fin sol.dt) (f2 : A.fin sol.tfinal) (h1 : 0 < A.val sol.dt)
    (h2 : 0 ≤ A.val sol.tfinal) (h3 : A.val sol.tfinal ≤ (2 ^ 31 - 2) * A.val sol.dt) :
    ∃ n : ℕ, Fl.numSteps toInt sol = some n ∧
      n * A.val sol.dt ≤ A.val sol.tfinal + A.u * (A.val sol.tfinal + A.val sol.dt) ∧
      A.val sol.tfinal - A.val sol.dt - A.u * (A.val sol.tfinal + A.val sol.dt) ≤ n * A.val sol.dt := by
  have hu0 := A.u_nonneg
  set x : ℝ := A.val sol.tfinal / A.val sol.dt with hx
  have hx0 : 0 ≤ x := div_nonneg h2 h1.le
  have hx1 : x ≤ 2 ^ 31 - 2 := by rw [hx, div_le_iff₀ h1]; exact h3
  obtain ⟨q1, q2, q3⟩ := A.div _ _ f2 f1 h1.ne' (by rw [← hx, abs_of_nonneg hx0]; linarith)
  rw [← hx] at q2 q3
  set q : ℝ := A.val (sol.tfinal / sol.dt) with hq
  have hq0 : 0 ≤ q := q3 hx0
  rw [abs_of_nonneg hx0] at q2
  have hu2 : A.u ^ 2 ≤ A.u := by
    have : A.u ≤ 1 := hu.trans (by norm_num)
    nlinarith
  have hux : A.u * x ≤ 1 := by
    calc A.u * x ≤ 1 / 2 ^ 31 * (2 ^ 31 - 2) := mul_le_mul hu hx1 hx0 (by norm_num)
      _ ≤ 1 := by norm_num
  have hu3 : A.u ≤ 1 / 2 := hu.trans (by norm_num)
  have hb := abs_le.1 q2
  have hq1 : q < 2 ^ 31 := by linarith [hb.2]
  have hfl := Int.floor_nonneg.2 hq0
  have hfl2 : ⌊q⌋ < 2 ^ 31 := by
    rw [Int.floor_lt]; push_cast; norm_num at hq1 ⊢; exact hq1
  refine ⟨⌊q⌋.toNat, ?_, ?_, ?_⟩
  · unfold Fl.numSteps
    rw [ht _ q1 hq0 hq1, Option.map_some]
    congr 1
    rw [← hq]
    omega
  · have e : ((⌊q⌋.toNat : ℕ) : ℝ) = (⌊q⌋ : ℝ) := by exact_mod_cast congrArg (Int.cast (R := ℝ)) (Int.toNat_of_nonneg hfl)
    rw [e]
    have e1 : x * A.val sol.dt = A.val sol.tfinal := by rw [hx]; field_simp
    have h4 : (⌊q⌋ : ℝ) ≤ x + A.u * x + A.u := by linarith [Int.floor_le q, hb.2]
    have := mul_le_mul_of_nonneg_right h4 h1.le
    calc _ ≤ _ := this
      _ = x * A.val sol.dt + A.u * (x * A.val sol.dt + A.val sol.dt) := by ring
      _ = _ := by rw [e1]
  · have e : ((⌊q⌋.toNat : ℕ) : ℝ) = (⌊q⌋ : ℝ) := by exact_mod_cast congrArg (Int.cast (R := ℝ)) (Int.toNat_of_nonneg hfl)
    rw [e]
    have e1 : x * A.val sol.dt = A.val sol.tfinal := by rw [hx]; field_simp
    have h4 : x - 1 - (A.u * x + A.u) ≤ (⌊q⌋ : ℝ) := by linarith [Int.lt_floor_add_one q, hb.1]
    have := mul_le_mul_of_nonneg_right h4 h1.le
    calc _ = x * A.val sol.dt - A.val sol.dt - A.u * (x * A.val sol.dt + A.val sol.dt) := by rw [e1]
      _ = (x - 1 - (A.u * x + A.u)) * A.val sol.dt := by ring
      _ ≤ _ := this

/-! ### the clock -/

/-- repeated addition of a rounded increment -/
theorem clock_sum {A : Arith} {δ : A.K} {h c T : ℝ} (hh : 0 ≤ h) (hc : 0 ≤ c) (f : A.fin δ) (hd : |A.val δ - h| ≤ c * A.u) (hu : A.u ≤ 1)
    (hT : T + 2 + c ≤ A.big) (τ : ℕ → A.K) (h0 : τ 0 = 0) (hs : ∀ j, τ (j + 1) = τ j + δ) :
    ∀ J : ℕ, (J : ℝ) * h ≤ T → J * ((2 * c + T + 3) * A.u) ≤ 1 →
      A.fin (τ J) ∧ |A.val (τ J) - J * h| ≤ J * ((2 * c + T + 3) * A.u) := by
  have hu0 := A.u_nonneg
  intro J
  induction J with
  | zero => intro _ _; rw [h0]; exact ⟨A.zero.1, by simp [A.zero.2]⟩
  | succ J ih =>
    intro h1 h2
    push_cast at h1 h2 ⊢
    have hT0 : 0 ≤ T := le_trans (by positivity) h1
    have hK : 0 ≤ (2 * c + T + 3) * A.u := by positivity
    obtain ⟨i1, i2⟩ := ih (by linarith) (by linarith)
    have hcu : c * A.u ≤ c := by nlinarith
    have b1 := abs_le.1 i2
    have b2 := abs_le.1 hd
    have hsum : |A.val (τ J) + A.val δ| ≤ T + 1 + c := by
      have hJ : (0 : ℝ) ≤ J * h := by positivity
      rw [abs_le]; constructor <;> linarith [b1.1, b1.2, b2.1, b2.2]
    obtain ⟨s1, s2, -⟩ := A.add _ _ i1 f (hsum.trans (by linarith))
    rw [hs J]
    refine ⟨s1, ?_⟩
    have s3 := abs_le.1 s2
    have : A.u * |A.val (τ J) + A.val δ| ≤ A.u * (T + 1 + c) := mul_le_mul_of_nonneg_left hsum hu0
    have hu2 : A.u ^ 2 ≤ A.u := by nlinarith
    rw [abs_le]; constructor <;> nlinarith [b1.1, b1.2, b2.1, b2.2, s3.1, s3.2]

section clock
variable {K : Type} {α : Type} [Zero K] [One K] [Add K] [Sub K] [Mul K] [Neg K] [Div K] [NatCast K] [DecidableEq K]

/-- the clock of the solver after some steps -/
def clockAt (st : Stepper) (dt : K) : ℕ → K
  | 0 => 0
  | n + 1 => match st with
    | .FE => clockAt st dt n + dt
    | .RK4 => clockAt st dt n + dt / 2 + dt / 2

omit [Sub K] in
theorem nextP_rk4 (d : Disc K) (m : GMesh α) (part : List ℕ) (G : ℕ → Geom K) (dt : K) (S : RankState K) {t : K} (ht : S.time = t) :
    (S.stage = 0 → (nextP d m part G dt .RK4 S).time = t + dt / 2 ∧ (nextP d m part G dt .RK4 S).stage = 1) ∧
    (S.stage = 1 → (nextP d m part G dt .RK4 S).time = t ∧ (nextP d m part G dt .RK4 S).stage = 2) ∧
    (S.stage = 2 → (nextP d m part G dt .RK4 S).time = t + dt / 2 ∧ (nextP d m part G dt .RK4 S).stage = 3) ∧
    (S.stage = 3 → (nextP d m part G dt .RK4 S).time = t ∧ (nextP d m part G dt .RK4 S).stage = 0) := by
  subst ht
  obtain ⟨Uc, time, Uh, d1, d2, d3, d4, res, Fe, stage, ev⟩ := S
  refine ⟨fun h => ?_, fun h => ?_, fun h => ?_, fun h => ?_⟩ <;>
    (dsimp only at h; subst h; exact ⟨rfl, rfl⟩)

theorem nextP_clock (d : Disc K) (m : GMesh α) (part : List ℕ) (G : ℕ → Geom K) (dt : K) (st : Stepper) (U0 : Coeffs K) (n : ℕ) :
    ((nextP d m part G dt st)^[stagesOf st * n] (startP st U0)).time = clockAt st dt n ∧
    ((nextP d m part G dt st)^[stagesOf st * n] (startP st U0)).stage = 0 := by
  induction n with
  | zero => cases st <;> exact ⟨rfl, rfl⟩
  | succ n ih =>
    cases st with
    | FE =>
      have e : stagesOf .FE * (n + 1) = stagesOf .FE * n + 1 := by simp [stagesOf]
      rw [e, Function.iterate_succ_apply']
      generalize (nextP d m part G dt .FE)^[stagesOf .FE * n] (startP .FE U0) = S at ih ⊢
      refine ⟨?_, rfl⟩
      show S.time + dt = _
      rw [ih.1]; rfl
    | RK4 =>
      have e : stagesOf .RK4 * (n + 1) = stagesOf .RK4 * n + 1 + 1 + 1 + 1 := by simp only [stagesOf]; ring
      rw [e, Function.iterate_succ_apply', Function.iterate_succ_apply', Function.iterate_succ_apply', Function.iterate_succ_apply']
      generalize (nextP d m part G dt .RK4)^[stagesOf .RK4 * n] (startP .RK4 U0) = S at ih ⊢
      obtain ⟨i1, i2⟩ := ih
      obtain ⟨a1, a2⟩ := (nextP_rk4 d m part G dt S i1).1 i2
      generalize nextP d m part G dt .RK4 S = S at a1 a2 ⊢
      obtain ⟨b1, b2⟩ := (nextP_rk4 d m part G dt S a1).2.1 a2
      generalize nextP d m part G dt .RK4 S = S at b1 b2 ⊢
      obtain ⟨c1, c2⟩ := (nextP_rk4 d m part G dt S b1).2.2.1 b2
      generalize nextP d m part G dt .RK4 S = S at c1 c2 ⊢
      obtain ⟨d1, d2⟩ := (nextP_rk4 d m part G dt S c1).2.2.2 c2
      exact ⟨d1, d2⟩

end clock
end DG
