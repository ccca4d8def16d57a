import Verif.Lemmas.Solver

/-! The stage updates of the time steppers. -/
namespace DG
open Finset

variable {K : Type}

/-- local coefficients `u` are those of the elements `φ k` of `U` -/
def Via (d : Disc K) (ne : ℕ) (φ : ℕ → ℕ) (u U : Coeffs K) : Prop :=
  ∀ k < ne, ∀ b < d.nb, ∀ s < d.ns, u k b s = U (φ k) b s

variable [Field K]

/-- inverse mass matrix times residual -/
def rhsOf (d : Disc K) (M : ℕ → ℕ → ℕ → K) (R : Coeffs K → Coeffs K) (U : Coeffs K) : Coeffs K :=
  fun e b s => ∑ j ∈ range d.nb, M e b j * R U e j s

/-- the coefficients at which stage `j` of the classical Runge-Kutta method evaluates -/
def rkStage (dt : K) (f : Coeffs K → Coeffs K) (U : Coeffs K) : ℕ → Coeffs K
  | 0 => U
  | 1 => fun e b s => U e b s + dt / 2 * f U e b s
  | 2 => fun e b s => U e b s + dt / 2 * f (fun e b s => U e b s + dt / 2 * f U e b s) e b s
  | _ => fun e b s => U e b s + dt * f (fun e b s => U e b s + dt / 2 *
      f (fun e b s => U e b s + dt / 2 * f U e b s) e b s) e b s

theorem rk4Step_eq (dt : K) (f : Coeffs K → Coeffs K) (U : Coeffs K) (e b s : ℕ) :
    rk4Step dt f U e b s = U e b s + dt / 6 * (f (rkStage dt f U 0) e b s
      + 2 * f (rkStage dt f U 1) e b s + 2 * f (rkStage dt f U 2) e b s
      + f (rkStage dt f U 3) e b s) := rfl

/-- fraction of the step at which stage `j` evaluates -/
def rkNode : ℕ → K
  | 0 => 0
  | 1 => 1 / 2
  | 2 => 1 / 2
  | _ => 1

/-- the state of a rank when it is about to evaluate the residual of stage `j` of a step that started
at coefficients `U`, time `t` -/
structure StageRel (d : Disc K) (ne : ℕ) (φ : ℕ → ℕ) (st : Stepper) (dt : K)
    (f : Coeffs K → Coeffs K) (U : Coeffs K) (t : K) (j : ℕ) (s : RankState K) : Prop where
  lt : j < stagesOf st
  stage : s.stage = j
  time : s.time = t + rkNode j * dt
  Uc : Via d ne φ s.Uc (rkStage dt f U j)
  hold : st = .RK4 → Via d ne φ s.Uhold U
  dU1 : 1 ≤ j → Via d ne φ s.dU1 (fun e b σ => dt * f (rkStage dt f U 0) e b σ)
  dU2 : 2 ≤ j → Via d ne φ s.dU2 (fun e b σ => dt * f (rkStage dt f U 1) e b σ)
  dU3 : 3 ≤ j → Via d ne φ s.dU3 (fun e b σ => dt * f (rkStage dt f U 2) e b σ)

variable [DecidableEq K]

theorem multInvMassAll_via {d : Disc K} {ne : ℕ} {φ : ℕ → ℕ} {dt : K} {iMM M : ℕ → ℕ → ℕ → K}
    (hM : ∀ k < ne, ∀ i < d.nb, ∀ j < d.nb, iMM k i j = M (φ k) i j) {R : Coeffs K → Coeffs K}
    {res V : Coeffs K} (hres : Via d ne φ res (R V)) (dU0 : Coeffs K) :
    Via d ne φ (multInvMassAll d ne dt iMM res dU0) (fun e b σ => dt * rhsOf d M R V e b σ) := by
  intro k hk b hb s hs
  unfold multInvMassAll multInvMass rhsOf
  rw [if_pos hk, cAxB_entry _ _ _ _ _ _ _ _ _ hb hs]
  congr 1
  refine Finset.sum_congr rfl fun j hj => ?_
  rw [hM k hk b hb j (Finset.mem_range.1 hj), hres k hk j (Finset.mem_range.1 hj) s hs]

omit [DecidableEq K] in
theorem axpy3_via {d : Disc K} {ne : ℕ} {φ : ℕ → ℕ} (c : K) {a u A U : Coeffs K}
    (ha : Via d ne φ a A) (hu : Via d ne φ u U) (C : Coeffs K) :
    Via d ne φ (axpy3 d ne c a u C) (fun e b σ => c * A e b σ + U e b σ) := by
  intro k hk b hb s hs
  unfold axpy3
  rw [if_pos ⟨hk, hb, hs⟩, ha k hk b hb s hs, hu k hk b hb s hs]

omit [DecidableEq K] in
theorem Via.congr {d : Disc K} {ne : ℕ} {φ : ℕ → ℕ} {u U V : Coeffs K} (h : Via d ne φ u U)
    (he : ∀ e b s, U e b s = V e b s) : Via d ne φ u V := by
  intro k hk b hb s hs
  rw [h k hk b hb s hs, he]

/-- one stage update -/
theorem afterResidual_spec [CharZero K] {d : Disc K} {ne : ℕ} {φ : ℕ → ℕ} {st : Stepper} {dt : K}
    {iMM M : ℕ → ℕ → ℕ → K}
    (hM : ∀ k < ne, ∀ i < d.nb, ∀ j < d.nb, iMM k i j = M (φ k) i j) {R : Coeffs K → Coeffs K}
    {U : Coeffs K} {t : K} {j : ℕ} {s : RankState K}
    (h : StageRel d ne φ st dt (rhsOf d M R) U t j s)
    (hres : Via d ne φ s.res (R (rkStage dt (rhsOf d M R) U j))) :
    (j + 1 < stagesOf st →
      StageRel d ne φ st dt (rhsOf d M R) U t (j + 1) (afterResidual d ne dt iMM st s)) ∧
    (j + 1 = stagesOf st →
      StageRel d ne φ st dt (rhsOf d M R) (stepOf st dt (rhsOf d M R) U) (t + dt) 0
        (afterResidual d ne dt iMM st s)) := by
  set f := rhsOf d M R with hf
  have hlt := h.lt
  cases st with
  | FE =>
    simp only [stagesOf] at hlt ⊢
    obtain rfl : j = 0 := by omega
    refine ⟨by omega, fun _ => ?_⟩
    have hU := h.Uc
    have hm := multInvMassAll_via (dt := dt) hM hres (fun _ _ _ => 0)
    refine ⟨by simp [stagesOf], rfl, ?_, ?_, by simp, by omega, by omega, by omega⟩
    · simp only [afterResidual, h.time, rkNode]; ring
    · simp only [afterResidual]
      refine (axpy3_via 1 hm hU s.Uc).congr fun e b σ => ?_
      simp only [rkStage, stepOf, eulerStep]
      ring
  | RK4 =>
    simp only [stagesOf] at hlt ⊢
    have hh := h.hold rfl
    have hj : j = 0 ∨ j = 1 ∨ j = 2 ∨ j = 3 := by omega
    rcases hj with rfl | rfl | rfl | rfl
    · refine ⟨fun _ => ?_, by omega⟩
      have hm := multInvMassAll_via (dt := dt) hM hres s.dU1
      simp only [afterResidual, h.stage]
      refine ⟨by simp [stagesOf], rfl, ?_, ?_, fun _ => hh, fun _ => hm, by omega, by omega⟩
      · simp only [h.time, rkNode]; ring
      · refine (axpy3_via (1 / 2) hm hh s.Uc).congr fun e b σ => ?_
        simp only [rkStage, ← hf]; ring
    · refine ⟨fun _ => ?_, by omega⟩
      have hm := multInvMassAll_via (dt := dt) hM hres s.dU2
      simp only [afterResidual, h.stage]
      refine ⟨by simp [stagesOf], rfl, ?_, ?_, fun _ => hh, fun _ => h.dU1 (by omega), fun _ => hm,
        by omega⟩
      · simp only [h.time, rkNode]
      · refine (axpy3_via (1 / 2) hm hh s.Uc).congr fun e b σ => ?_
        simp only [rkStage, ← hf]; ring
    · refine ⟨fun _ => ?_, by omega⟩
      have hm := multInvMassAll_via (dt := dt) hM hres s.dU3
      simp only [afterResidual, h.stage]
      refine ⟨by simp [stagesOf], rfl, ?_, ?_, fun _ => hh, fun _ => h.dU1 (by omega),
        fun _ => h.dU2 (by omega), fun _ => hm⟩
      · simp only [h.time, rkNode]; ring
      · refine (axpy3_via 1 hm hh s.Uc).congr fun e b σ => ?_
        simp only [rkStage, ← hf]; ring
    · refine ⟨by omega, fun _ => ?_⟩
      have hm := multInvMassAll_via (dt := dt) hM hres s.dU4
      have h1 := h.dU1 (by omega)
      have h2 := h.dU2 (by omega)
      have h3 := h.dU3 (by omega)
      have a1 := axpy3_via 2 h3 hm (multInvMassAll d ne dt iMM s.res s.dU4)
      have a2 := axpy3_via 2 h2 a1 (axpy3 d ne 2 s.dU3 (multInvMassAll d ne dt iMM s.res s.dU4)
        (multInvMassAll d ne dt iMM s.res s.dU4))
      have a3 := axpy3_via 1 h1 a2 (axpy3 d ne 2 s.dU2
        (axpy3 d ne 2 s.dU3 (multInvMassAll d ne dt iMM s.res s.dU4)
          (multInvMassAll d ne dt iMM s.res s.dU4))
        (axpy3 d ne 2 s.dU3 (multInvMassAll d ne dt iMM s.res s.dU4)
          (multInvMassAll d ne dt iMM s.res s.dU4)))
      have a4 := axpy3_via (1 / 6) a3 hh s.Uhold
      have h6 : Via d ne φ (afterResidual d ne dt iMM .RK4 s).Uc
          (stepOf .RK4 dt f U) := by
        simp only [afterResidual, h.stage, beginStep]
        refine a4.congr fun e b σ => ?_
        simp only [stepOf]
        rw [rk4Step_eq, ← hf]
        ring
      refine ⟨by simp [stagesOf], ?_, ?_, h6, fun _ => ?_, by omega, by omega, by omega⟩
      · simp only [afterResidual, h.stage, beginStep]
      · simp only [afterResidual, h.stage, beginStep, h.time, rkNode]; ring
      · have : (afterResidual d ne dt iMM .RK4 s).Uhold = (afterResidual d ne dt iMM .RK4 s).Uc := by
          simp only [afterResidual, h.stage, beginStep]
        rw [this]; exact h6

end DG
