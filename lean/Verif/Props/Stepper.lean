import Verif.Lemmas.Stepper

/-!
Properties C40 (the steppers are the textbook methods) and C41 (number of steps, final time).
-/
namespace DG
open Finset

variable {K : Type} [Field K] [DecidableEq K] [CharZero K]

/-- C40: whatever the residual function (it may depend on time; it is only required to read existing
entries), the mass matrices, the state and the step size: one `take_time_step` computes the step of
the textbook method for `dU/dt = M⁻¹ R(t, U)`, advances the time by `dt`, evaluates the residual once
(Euler) or four times (Runge-Kutta), and is ready for the next step. -/
theorem C40_textbook_step (d : Disc K) (ne : ℕ) (dt : K) (iMM : ℕ → ℕ → ℕ → K) (st : Stepper)
    (R : K → Coeffs K → Coeffs K)
    (hR : ∀ t U V, AgreeIn d ne U V → AgreeIn d ne (R t U) (R t V)) (s : RankState K)
    (h0 : s.stage = 0) :
    let f : K → Coeffs K → Coeffs K := fun t U e b v => ∑ j ∈ range d.nb, iMM e b j * R t U e j v
    let s' := takeTimeStep d ne dt iMM st R s
    AgreeIn d ne s'.Uc (methodAt st dt f s.time s.Uc) ∧ s'.time = s.time + dt ∧
      s'.evals = s.evals + methodEvals st ∧ s'.stage = 0 := by
  intro f s'
  have mul : ∀ (t : K) (u V : Coeffs K) (dU0 : Coeffs K), Via d ne id u V →
      Via d ne id (multInvMassAll d ne dt iMM (R t u) dU0) (fun e b v => dt * f t V e b v) := by
    intro t u V dU0 h
    exact multInvMassAll_via (φ := id) (M := iMM) (R := R t) (fun _ _ _ _ _ _ => rfl)
      (fun k hk b hb v hv => hR t u V h k hk b hb v hv) dU0
  have hid : Via d ne id s.Uc s.Uc := fun _ _ _ _ _ _ => rfl
  cases st with
  | FE =>
    refine ⟨?_, rfl, rfl, rfl⟩
    refine (axpy3_via 1 (mul s.time s.Uc s.Uc (fun _ _ _ => 0) hid) hid s.Uc).congr fun e b v => ?_
    simp only [methodAt, eulerAt]; ring
  | RK4 =>
    -- the four stages
    have hs' : s' = stageWith d ne dt iMM .RK4 R (stageWith d ne dt iMM .RK4 R
      (stageWith d ne dt iMM .RK4 R (stageWith d ne dt iMM .RK4 R (beginStep .RK4 s)))) := rfl
    clear_value s'
    set k1 := f s.time s.Uc with hk1
    set V1 : Coeffs K := fun e b v => s.Uc e b v + dt / 2 * k1 e b v with hV1
    set k2 := f (s.time + dt / 2) V1 with hk2
    set V2 : Coeffs K := fun e b v => s.Uc e b v + dt / 2 * k2 e b v with hV2
    set k3 := f (s.time + dt / 2) V2 with hk3
    set V3 : Coeffs K := fun e b v => s.Uc e b v + dt * k3 e b v with hV3
    set k4 := f (s.time + dt / 2 + dt / 2) V3 with hk4
    have htime : s.time + dt / 2 + dt / 2 = s.time + dt := by ring
    set a := stageWith d ne dt iMM .RK4 R (beginStep .RK4 s) with ha
    have hst0 : (beginStep .RK4 s).stage = 0 := h0
    have ea : a = { s with
        Uhold := s.Uc, res := R s.time s.Uc, evals := s.evals + 1,
        dU1 := multInvMassAll d ne dt iMM (R s.time s.Uc) s.dU1,
        Uc := axpy3 d ne (1 / 2) (multInvMassAll d ne dt iMM (R s.time s.Uc) s.dU1) s.Uc s.Uc,
        time := s.time + dt / 2, stage := 1 } := by
      rw [ha]; unfold stageWith afterResidual; simp only [hst0]; rfl
    have m1 := mul s.time s.Uc s.Uc s.dU1 hid
    have u1 : Via d ne id a.Uc V1 := by
      rw [ea]
      refine (axpy3_via (1 / 2) m1 hid s.Uc).congr fun e b v => ?_
      simp only [hV1, hk1]; ring
    have d1 : Via d ne id a.dU1 (fun e b v => dt * k1 e b v) := by rw [ea]; exact m1
    have t1 : a.time = s.time + dt / 2 := by rw [ea]
    have s1 : a.stage = 1 := by rw [ea]
    have g1 : a.Uhold = s.Uc := by rw [ea]
    have v1 : a.evals = s.evals + 1 := by rw [ea]
    clear_value a
    set b' := stageWith d ne dt iMM .RK4 R a with hb'
    have eb : b' = { a with
        res := R a.time a.Uc, evals := a.evals + 1,
        dU2 := multInvMassAll d ne dt iMM (R a.time a.Uc) a.dU2,
        Uc := axpy3 d ne (1 / 2) (multInvMassAll d ne dt iMM (R a.time a.Uc) a.dU2) a.Uhold a.Uc,
        stage := 2 } := by
      rw [hb']; unfold stageWith afterResidual; simp only [s1]
    have m2 := mul a.time a.Uc V1 a.dU2 u1
    rw [t1, ← hk2] at m2
    have u2 : Via d ne id b'.Uc V2 := by
      rw [eb]
      simp only [g1, t1]
      refine (axpy3_via (1 / 2) m2 hid a.Uc).congr fun e b v => ?_
      simp only [hV2]; ring
    have d2 : Via d ne id b'.dU2 (fun e b v => dt * k2 e b v) := by rw [eb]; simp only [t1]; exact m2
    have d21 : Via d ne id b'.dU1 (fun e b v => dt * k1 e b v) := by rw [eb]; exact d1
    have t2 : b'.time = s.time + dt / 2 := by rw [eb]; exact t1
    have s2 : b'.stage = 2 := by rw [eb]
    have g2 : b'.Uhold = s.Uc := by rw [eb]; exact g1
    have v2 : b'.evals = s.evals + 2 := by rw [eb]; simp only [v1]
    clear_value b'
    set c := stageWith d ne dt iMM .RK4 R b' with hc
    have ec : c = { b' with
        res := R b'.time b'.Uc, evals := b'.evals + 1,
        dU3 := multInvMassAll d ne dt iMM (R b'.time b'.Uc) b'.dU3,
        Uc := axpy3 d ne 1 (multInvMassAll d ne dt iMM (R b'.time b'.Uc) b'.dU3) b'.Uhold b'.Uc,
        time := b'.time + dt / 2, stage := 3 } := by
      rw [hc]; unfold stageWith afterResidual; simp only [s2]
    have m3 := mul b'.time b'.Uc V2 b'.dU3 u2
    rw [t2, ← hk3] at m3
    have u3 : Via d ne id c.Uc V3 := by
      rw [ec]
      simp only [g2, t2]
      refine (axpy3_via 1 m3 hid b'.Uc).congr fun e b v => ?_
      simp only [hV3]; ring
    have d3 : Via d ne id c.dU3 (fun e b v => dt * k3 e b v) := by rw [ec]; simp only [t2]; exact m3
    have d32 : Via d ne id c.dU2 (fun e b v => dt * k2 e b v) := by rw [ec]; exact d2
    have d31 : Via d ne id c.dU1 (fun e b v => dt * k1 e b v) := by rw [ec]; exact d21
    have t3 : c.time = s.time + dt / 2 + dt / 2 := by rw [ec]; simp only [t2]
    have s3 : c.stage = 3 := by rw [ec]
    have g3 : c.Uhold = s.Uc := by rw [ec]; exact g2
    have v3 : c.evals = s.evals + 3 := by rw [ec]; simp only [v2]
    clear_value c
    have m4 := mul c.time c.Uc V3 c.dU4 u3
    rw [t3, ← hk4] at m4
    have ed : s' = beginStep .RK4 { c with
        res := R c.time c.Uc, evals := c.evals + 1,
        dU4 := axpy3 d ne 1 c.dU1 (axpy3 d ne 2 c.dU2 (axpy3 d ne 2 c.dU3
          (multInvMassAll d ne dt iMM (R c.time c.Uc) c.dU4)
          (multInvMassAll d ne dt iMM (R c.time c.Uc) c.dU4))
          (axpy3 d ne 2 c.dU3 (multInvMassAll d ne dt iMM (R c.time c.Uc) c.dU4)
          (multInvMassAll d ne dt iMM (R c.time c.Uc) c.dU4)))
          (axpy3 d ne 2 c.dU2 (axpy3 d ne 2 c.dU3
          (multInvMassAll d ne dt iMM (R c.time c.Uc) c.dU4)
          (multInvMassAll d ne dt iMM (R c.time c.Uc) c.dU4))
          (axpy3 d ne 2 c.dU3 (multInvMassAll d ne dt iMM (R c.time c.Uc) c.dU4)
          (multInvMassAll d ne dt iMM (R c.time c.Uc) c.dU4))),
        Uhold := axpy3 d ne (1 / 6) (axpy3 d ne 1 c.dU1 (axpy3 d ne 2 c.dU2 (axpy3 d ne 2 c.dU3
          (multInvMassAll d ne dt iMM (R c.time c.Uc) c.dU4)
          (multInvMassAll d ne dt iMM (R c.time c.Uc) c.dU4))
          (axpy3 d ne 2 c.dU3 (multInvMassAll d ne dt iMM (R c.time c.Uc) c.dU4)
          (multInvMassAll d ne dt iMM (R c.time c.Uc) c.dU4)))
          (axpy3 d ne 2 c.dU2 (axpy3 d ne 2 c.dU3
          (multInvMassAll d ne dt iMM (R c.time c.Uc) c.dU4)
          (multInvMassAll d ne dt iMM (R c.time c.Uc) c.dU4))
          (axpy3 d ne 2 c.dU3 (multInvMassAll d ne dt iMM (R c.time c.Uc) c.dU4)
          (multInvMassAll d ne dt iMM (R c.time c.Uc) c.dU4)))) c.Uhold c.Uhold,
        Uc := axpy3 d ne (1 / 6) (axpy3 d ne 1 c.dU1 (axpy3 d ne 2 c.dU2 (axpy3 d ne 2 c.dU3
          (multInvMassAll d ne dt iMM (R c.time c.Uc) c.dU4)
          (multInvMassAll d ne dt iMM (R c.time c.Uc) c.dU4))
          (axpy3 d ne 2 c.dU3 (multInvMassAll d ne dt iMM (R c.time c.Uc) c.dU4)
          (multInvMassAll d ne dt iMM (R c.time c.Uc) c.dU4)))
          (axpy3 d ne 2 c.dU2 (axpy3 d ne 2 c.dU3
          (multInvMassAll d ne dt iMM (R c.time c.Uc) c.dU4)
          (multInvMassAll d ne dt iMM (R c.time c.Uc) c.dU4))
          (axpy3 d ne 2 c.dU3 (multInvMassAll d ne dt iMM (R c.time c.Uc) c.dU4)
          (multInvMassAll d ne dt iMM (R c.time c.Uc) c.dU4)))) c.Uhold c.Uhold,
        stage := 0 } := by
      rw [hs']; unfold stageWith afterResidual; simp only [s3]
    rw [ed]
    refine ⟨?_, ?_, ?_, rfl⟩
    · simp only [beginStep, g3, t3]
      refine (axpy3_via (1 / 6) (axpy3_via 1 d31 (axpy3_via 2 d32 (axpy3_via 2 d3 m4 _) _) _) hid
        s.Uc).congr fun e b v => ?_
      simp only [methodAt, rk4At]
      rw [hk4, htime]
      simp only [← hk1, ← hV1, ← hk2, ← hV2, ← hk3, ← hV3]
      ring
    · simp only [beginStep, t3, htime]
    · simp only [beginStep, v3, methodEvals]

/-- C40: the time loop: `niter` steps of the textbook method from the initial state, the final time
is `niter * dt` later, every step started at its own time. -/
theorem C40_time_loop (d : Disc K) (ne : ℕ) (dt : K) (iMM : ℕ → ℕ → ℕ → K) (st : Stepper)
    (R : K → Coeffs K → Coeffs K)
    (hR : ∀ t U V, AgreeIn d ne U V → AgreeIn d ne (R t U) (R t V)) (s : RankState K)
    (h0 : s.stage = 0) (n : ℕ) :
    let f : K → Coeffs K → Coeffs K := fun t U e b v => ∑ j ∈ range d.nb, iMM e b j * R t U e j v
    let s' := timeLoop d ne dt iMM st R n s
    AgreeIn d ne s'.Uc
      ((fun x : K × Coeffs K => (x.1 + dt, methodAt st dt f x.1 x.2))^[n] (s.time, s.Uc)).2 ∧
      s'.time = s.time + n * dt ∧
      s'.evals = s.evals + n * methodEvals st ∧ s'.stage = 0 := by
  intro f s'
  have hf : ∀ t U V, AgreeIn d ne U V → AgreeIn d ne (f t U) (f t V) := by
    intro t U V h e he b hb v hv
    exact Finset.sum_congr rfl fun j hj => by
      rw [hR t U V h e he j (Finset.mem_range.1 hj) v hv]
  have hm : ∀ t U V, AgreeIn d ne U V → AgreeIn d ne (methodAt st dt f t U) (methodAt st dt f t V) := by
    intro t U V h
    cases st with
    | FE =>
      intro e he b hb v hv
      simp only [methodAt, eulerAt]
      rw [h e he b hb v hv, hf t U V h e he b hb v hv]
    | RK4 =>
      have add : ∀ (c : K) (A B : Coeffs K), AgreeIn d ne A B →
          AgreeIn d ne (fun e b v => U e b v + c * A e b v) (fun e b v => V e b v + c * B e b v) := by
        intro c A B hAB e he b hb v hv
        simp only
        rw [h e he b hb v hv, hAB e he b hb v hv]
      have h1 := hf t U V h
      have h2 := hf (t + dt / 2) _ _ (add (dt / 2) _ _ h1)
      have h3 := hf (t + dt / 2) _ _ (add (dt / 2) _ _ h2)
      have h4 := hf (t + dt) _ _ (add dt _ _ h3)
      intro e he b hb v hv
      simp only [methodAt, rk4At]
      rw [h e he b hb v hv, h1 e he b hb v hv, h2 e he b hb v hv, h3 e he b hb v hv,
        h4 e he b hb v hv]
  have key : ∀ n, let s' := timeLoop d ne dt iMM st R n s
      ((fun x : K × Coeffs K => (x.1 + dt, methodAt st dt f x.1 x.2))^[n] (s.time, s.Uc)).1 = s'.time ∧
      AgreeIn d ne s'.Uc
        ((fun x : K × Coeffs K => (x.1 + dt, methodAt st dt f x.1 x.2))^[n] (s.time, s.Uc)).2 ∧
      s'.time = s.time + n * dt ∧
      s'.evals = s.evals + n * methodEvals st ∧ s'.stage = 0 := by
    intro n
    induction n with
    | zero => exact ⟨rfl, fun _ _ _ _ _ _ => rfl, by simp [timeLoop], by simp [timeLoop], h0⟩
    | succ n ih =>
      obtain ⟨i0, i1, i2, i3, i4⟩ := ih
      have e : timeLoop d ne dt iMM st R (n + 1) s =
          takeTimeStep d ne dt iMM st R (timeLoop d ne dt iMM st R n s) := by
        unfold timeLoop
        rw [List.range_succ, List.foldl_append]; rfl
      obtain ⟨j1, j2, j3, j4⟩ := C40_textbook_step d ne dt iMM st R hR _ i4
      intro s'
      have es : s' = takeTimeStep d ne dt iMM st R (timeLoop d ne dt iMM st R n s) := e
      rw [es, Function.iterate_succ_apply']
      refine ⟨?_, ?_, ?_, ?_, j4⟩
      · simp only; rw [j2, i0]
      · simp only
        intro k hk b hb v hv
        rw [j1 k hk b hb v hv, i0]
        exact hm _ _ _ i1 k hk b hb v hv
      · rw [j2, i2]; push_cast; ring
      · rw [j3, i3]; ring
  exact (key n).2

/-- non-vacuity: `dU/dt = t`, one Runge-Kutta step from 0 to 1 gives the exact integral 1/2 -/
example : (methodAt .RK4 (1 : ℚ) (fun t _ _ _ _ => t) 0 (fun _ _ _ => 0)) 0 0 0 = 1 / 2 := by
  norm_num [methodAt, rk4At]

/-! ### C41 -/

/-- C41: for a positive step size and a non-negative final time less than `2^31` steps away, the
number of steps is the integer part of the quotient, so the run, which starts at time 0 and advances by
`dt` per step (C40), ends at `n * dt`: not past the final time and less than one step before it. -/
theorem C41_final_time (tfinal dt : ℝ) (hdt : 0 < dt) (ht : 0 ≤ tfinal)
    (hfit : tfinal / dt < 2 ^ 31) :
    ∃ n : ℕ, numIterations (tfinal / dt) = some n ∧ (n : ℝ) * dt ≤ tfinal ∧
      tfinal < ((n : ℝ) + 1) * dt := by
  have hq : 0 ≤ tfinal / dt := div_nonneg ht hdt.le
  have hz : 0 ≤ ⌊tfinal / dt⌋ := Int.floor_nonneg.2 hq
  have hlt : ⌊tfinal / dt⌋ < 2 ^ 31 := by
    rw [Int.floor_lt]; push_cast; norm_num at hfit ⊢; exact hfit
  refine ⟨⌊tfinal / dt⌋.toNat, ?_, ?_, ?_⟩
  · unfold numIterations
    rw [if_pos hq, if_pos ⟨by omega, hlt⟩]
    congr 2
    omega
  · have h1 : ((⌊tfinal / dt⌋.toNat : ℕ) : ℝ) = (⌊tfinal / dt⌋ : ℝ) := by
      rw [← Int.cast_natCast, Int.toNat_of_nonneg hz]
    rw [h1]
    have := Int.floor_le (tfinal / dt)
    rwa [le_div_iff₀ hdt] at this
  · have h1 : ((⌊tfinal / dt⌋.toNat : ℕ) : ℝ) = (⌊tfinal / dt⌋ : ℝ) := by
      rw [← Int.cast_natCast, Int.toNat_of_nonneg hz]
    rw [h1]
    have := Int.lt_floor_add_one (tfinal / dt)
    rwa [div_lt_iff₀ hdt] at this

/-- C41: a whole run with an exact number of steps ends exactly at the final time. -/
theorem C41_exact_end (dt : ℝ) (hdt : 0 < dt) (k : ℕ) (hk : k < 2 ^ 31) :
    numIterations ((k : ℝ) * dt / dt) = some k := by
  rw [mul_div_assoc, div_self hdt.ne', mul_one]
  unfold numIterations
  rw [if_pos (Nat.cast_nonneg k), Int.floor_natCast, if_pos ⟨by omega, by exact_mod_cast hk⟩]
  congr 1
  omega

/-- C41 with the run: starting from time 0 the solver stops at a time in `(tfinal - dt, tfinal]`. -/
theorem C41_run_ends_at_final_time (d : Disc ℝ) (ne : ℕ) (dt tfinal : ℝ) (hdt : 0 < dt)
    (ht : 0 ≤ tfinal) (hfit : tfinal / dt < 2 ^ 31) (iMM : ℕ → ℕ → ℕ → ℝ) (st : Stepper)
    (R : ℝ → Coeffs ℝ → Coeffs ℝ)
    (hR : ∀ t U V, AgreeIn d ne U V → AgreeIn d ne (R t U) (R t V)) (s : RankState ℝ)
    (h0 : s.stage = 0) (hs : s.time = 0) :
    ∃ n : ℕ, numIterations (tfinal / dt) = some n ∧
      (timeLoop d ne dt iMM st R n s).time ≤ tfinal ∧
      tfinal - dt < (timeLoop d ne dt iMM st R n s).time := by
  obtain ⟨n, h1, h2, h3⟩ := C41_final_time tfinal dt hdt ht hfit
  have h4 := (C40_time_loop d ne dt iMM st R hR s h0 n).2.1
  refine ⟨n, h1, ?_, ?_⟩ <;> rw [h4, hs] <;> linarith

/-- A negative final time (or step size) is not treated as "no steps": the negative count is
converted to `unsigned`, for instance 4294967291 steps for a final time of minus five steps. -/
theorem C41_negative_end_wraps (dt : ℝ) (hdt : 0 < dt) (k : ℕ) (hk : 0 < k) (hk' : k ≤ 2 ^ 31) :
    numIterations (-((k : ℝ) * dt) / dt) = some (2 ^ 32 - k) := by
  have e : -((k : ℝ) * dt) / dt = ((-(k : ℤ) : ℤ) : ℝ) := by
    rw [neg_div, mul_div_assoc, div_self hdt.ne', mul_one]; push_cast; ring
  rw [e]
  unfold numIterations
  have hneg : ¬ (0 : ℝ) ≤ ((-(k : ℤ) : ℤ) : ℝ) := by
    push_cast
    have : (0 : ℝ) < k := by exact_mod_cast hk
    linarith
  rw [if_neg hneg, Int.ceil_intCast, if_pos ⟨by omega, by omega⟩]
  congr 1
  omega

example : ∃ n : ℕ, numIterations ((1 : ℝ) / (3 / 10)) = some n ∧ (n : ℝ) * (3 / 10) ≤ 1 ∧
    1 < ((n : ℝ) + 1) * (3 / 10) :=
  C41_final_time 1 (3 / 10) (by norm_num) (by norm_num) (by norm_num)

end DG
