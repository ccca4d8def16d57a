import Verif.Spec.EulerDG
import Verif.Lemmas.Physics

/-! The admissible states of the Euler equations are cut out by linear inequalities; Lax–Friedrichs
splitting of an admissible state. -/
namespace DG
open Finset

/-- a linear functional of the state: energy in a frame moving with velocity `v` -/
noncomputable def frameEnergy (dim : ℕ) (v U : ℕ → ℝ) : ℝ :=
  U (dim + 1) - (∑ i ∈ range dim, U (i + 1) * v i) + 1 / 2 * U 0 * inner' dim v v

theorem frameEnergy_eq (dim : ℕ) (v U : ℕ → ℝ) (h : U 0 ≠ 0) :
    frameEnergy dim v U = internalEnergy dim U +
      1 / 2 * U 0 * inner' dim (fun i => vel U i - v i) (fun i => vel U i - v i) := by
  have h1 : ∑ i ∈ range dim, U (i + 1) * v i = U 0 * inner' dim (vel U) v := by
    unfold inner' vel
    rw [mul_sum]
    exact sum_congr rfl fun i _ => by field_simp
  have h2 : inner' dim (fun i => vel U i - v i) (fun i => vel U i - v i)
      = inner' dim (vel U) (vel U) - 2 * inner' dim (vel U) v + inner' dim v v := by
    unfold inner'
    rw [mul_sum, ← sum_sub_distrib, ← sum_add_distrib]
    exact sum_congr rfl fun i _ => by ring
  unfold frameEnergy internalEnergy
  rw [h1, h2]; ring

theorem admissible_iff {dim : ℕ} {γ : ℝ} (hγ : 1 < γ) (U : ℕ → ℝ) :
    Admissible dim γ U ↔ 0 < U 0 ∧ ∀ v, 0 < frameEnergy dim v U := by
  have hγ' : 0 < γ - 1 := by linarith
  constructor
  · rintro ⟨h1, h2⟩
    refine ⟨h1, fun v => ?_⟩
    rw [frameEnergy_eq dim v U h1.ne']
    have h3 : 0 < internalEnergy dim U := pos_of_mul_pos_right h2 hγ'.le
    have := inner_nonneg dim (fun i => vel U i - v i)
    positivity
  · rintro ⟨h1, h2⟩
    refine ⟨h1, ?_⟩
    have := h2 (vel U)
    rw [frameEnergy_eq dim _ U h1.ne'] at this
    have hz : inner' dim (fun i => vel U i - vel U i) (fun i => vel U i - vel U i) = 0 := by simp [inner']
    rw [hz, mul_zero, add_zero] at this
    exact mul_pos hγ' this

/-- limits of admissible states -/
def WeakAdm (dim : ℕ) (U : ℕ → ℝ) : Prop := 0 ≤ U 0 ∧ ∀ v, 0 ≤ frameEnergy dim v U

theorem frameEnergy_smul (dim : ℕ) (v U : ℕ → ℝ) (c : ℝ) :
    frameEnergy dim v (fun s => c * U s) = c * frameEnergy dim v U := by
  unfold frameEnergy
  have : ∑ i ∈ range dim, c * U (i + 1) * v i = c * ∑ i ∈ range dim, U (i + 1) * v i := by
    rw [mul_sum]; exact sum_congr rfl fun i _ => by ring
  rw [this]; ring

theorem frameEnergy_add (dim : ℕ) (v U V : ℕ → ℝ) :
    frameEnergy dim v (fun s => U s + V s) = frameEnergy dim v U + frameEnergy dim v V := by
  unfold frameEnergy
  have : ∑ i ∈ range dim, (U (i + 1) + V (i + 1)) * v i
      = (∑ i ∈ range dim, U (i + 1) * v i) + ∑ i ∈ range dim, V (i + 1) * v i := by
    rw [← sum_add_distrib]; exact sum_congr rfl fun i _ => by ring
  rw [this]; ring

theorem WeakAdm.add {dim : ℕ} {U V : ℕ → ℝ} (hU : WeakAdm dim U) (hV : WeakAdm dim V) :
    WeakAdm dim (fun s => U s + V s) :=
  ⟨add_nonneg hU.1 hV.1, fun v => by rw [frameEnergy_add]; exact add_nonneg (hU.2 v) (hV.2 v)⟩

theorem WeakAdm.smul {dim : ℕ} {U : ℕ → ℝ} (hU : WeakAdm dim U) {c : ℝ} (hc : 0 ≤ c) :
    WeakAdm dim (fun s => c * U s) :=
  ⟨mul_nonneg hc hU.1, fun v => by rw [frameEnergy_smul]; exact mul_nonneg hc (hU.2 v)⟩

theorem WeakAdm.zero (dim : ℕ) : WeakAdm dim (fun _ => 0) :=
  ⟨le_refl _, fun v => by simp [frameEnergy]⟩

theorem frameEnergy_congr {dim : ℕ} {v U V : ℕ → ℝ} (h : ∀ s < dim + 2, U s = V s) :
    frameEnergy dim v U = frameEnergy dim v V := by
  unfold frameEnergy
  rw [h 0 (by omega), h (dim + 1) (by omega)]
  congr 2
  exact sum_congr rfl fun i hi => by rw [h (i + 1) (by have := Finset.mem_range.1 hi; omega)]

theorem WeakAdm.congr {dim : ℕ} {U V : ℕ → ℝ} (hU : WeakAdm dim U) (h : ∀ s < dim + 2, U s = V s) : WeakAdm dim V :=
  ⟨by rw [← h 0 (by omega)]; exact hU.1, fun v => by rw [← frameEnergy_congr h]; exact hU.2 v⟩

theorem Admissible.weak {dim : ℕ} {γ : ℝ} (hγ : 1 < γ) {U : ℕ → ℝ} (h : Admissible dim γ U) : WeakAdm dim U :=
  ⟨h.ρ_pos.le, fun v => (((admissible_iff hγ U).1 h).2 v).le⟩

theorem Admissible.add_weak {dim : ℕ} {γ : ℝ} (hγ : 1 < γ) {U V : ℕ → ℝ} (hU : Admissible dim γ U)
    (hV : WeakAdm dim V) : Admissible dim γ (fun s => U s + V s) := by
  rw [admissible_iff hγ] at hU ⊢
  exact ⟨add_pos_of_pos_of_nonneg hU.1 hV.1, fun v => by
    rw [frameEnergy_add]; exact add_pos_of_pos_of_nonneg (hU.2 v) (hV.2 v)⟩

theorem Admissible.smul {dim : ℕ} {γ : ℝ} (hγ : 1 < γ) {U : ℕ → ℝ} (hU : Admissible dim γ U) {c : ℝ} (hc : 0 < c) :
    Admissible dim γ (fun s => c * U s) := by
  rw [admissible_iff hγ] at hU ⊢
  exact ⟨mul_pos hc hU.1, fun v => by rw [frameEnergy_smul]; exact mul_pos hc (hU.2 v)⟩

theorem weak_sum {dim : ℕ} {ι : Type} (l : List ι) (V : ι → ℕ → ℝ) (h : ∀ x ∈ l, WeakAdm dim (V x)) :
    WeakAdm dim (fun s => (l.map fun x => V x s).sum) := by
  induction l with
  | nil => exact WeakAdm.zero dim
  | cons a l ih =>
    simp only [List.map_cons, List.sum_cons]
    exact (h a (by simp)).add (ih fun x hx => h x (by simp [hx]))

theorem weak_fsum {dim : ℕ} {ι : Type} (l : Finset ι) (V : ι → ℕ → ℝ) (h : ∀ x ∈ l, WeakAdm dim (V x)) :
    WeakAdm dim (fun s => ∑ x ∈ l, V x s) := by
  classical
  induction l using Finset.induction_on with
  | empty => simpa using WeakAdm.zero dim
  | insert a l ha ih =>
    simp only [sum_insert ha]
    exact (h a (mem_insert_self _ _)).add (ih fun x hx => h x (mem_insert_of_mem hx))

theorem inner_abs_le (n : ℕ) (a b : ℕ → ℝ) :
    |inner' n a b| ≤ Real.sqrt (inner' n a a) * Real.sqrt (inner' n b b) := by
  rw [← Real.sqrt_mul (inner_nonneg n a)]
  exact Real.abs_le_sqrt (inner_sq_le n a b)

/-- The Lax–Friedrichs splitting: `a |N| U - F(U)·N` is a limit of admissible states when the speed `a` is
at least the largest signal speed. -/
theorem lf_split {dim : ℕ} {γ a : ℝ} (hγ : 1 < γ) {U : ℕ → ℝ} (hU : Admissible dim γ U) (N : ℕ → ℝ)
    (ha : maxSpeed dim γ U ≤ a) :
    WeakAdm dim (fun s => Real.sqrt (inner' dim N N) * a * U s - eulerFlux dim γ U N s) := by
  have hρ := hU.ρ_pos
  have hp := hU.p_pos
  have hc := soundSpeed_pos hγ hU
  have hcs : soundSpeed dim γ U ^ 2 * U 0 = γ * pressure dim γ U := by
    unfold soundSpeed
    rw [Real.sq_sqrt (by positivity)]; field_simp
  unfold maxSpeed at ha
  set n := Real.sqrt (inner' dim N N) with hn
  set c := soundSpeed dim γ U
  set p := pressure dim γ U with hpdef
  have hn0 : 0 ≤ n := Real.sqrt_nonneg _
  have hun := abs_le.1 (inner_abs_le dim (vel U) N)
  have hθ : n * c ≤ n * a - inner' dim (vel U) N := by
    have : n * (Real.sqrt (inner' dim (vel U) (vel U)) + c) ≤ n * a := mul_le_mul_of_nonneg_left ha hn0
    nlinarith [hun.2]
  have hθ0 : 0 ≤ n * a - inner' dim (vel U) N := le_trans (by positivity) hθ
  set θ := n * a - inner' dim (vel U) N with hθd
  have e0 : n * a * U 0 - eulerFlux dim γ U N 0 = θ * U 0 := by
    unfold eulerFlux; simp [hθd]; ring
  refine ⟨by show 0 ≤ n * a * U 0 - eulerFlux dim γ U N 0; rw [e0]; positivity, fun v => ?_⟩
  set x := inner' dim (fun i => vel U i - v i) (fun i => vel U i - v i) with hx
  have key : frameEnergy dim v (fun s => n * a * U s - eulerFlux dim γ U N s)
      = θ * frameEnergy dim v U - p * inner' dim (fun i => vel U i - v i) N := by
    have hsum : ∑ i ∈ range dim, (n * a * U (i + 1) - eulerFlux dim γ U N (i + 1)) * v i
        = θ * (∑ i ∈ range dim, U (i + 1) * v i) - p * inner' dim v N := by
      unfold inner'
      rw [mul_sum, mul_sum, ← sum_sub_distrib]
      refine sum_congr rfl fun i hi => ?_
      have hi' := Finset.mem_range.1 hi
      unfold eulerFlux
      rw [if_neg (by omega), if_pos (by omega), Nat.add_sub_cancel]
      simp only [hθd, hpdef]; unfold inner'; ring
    have hE : eulerFlux dim γ U N (dim + 1) = (U (dim + 1) + p) * inner' dim (vel U) N := by
      unfold eulerFlux
      rw [if_neg (by omega), if_neg (by omega)]
    have hd : inner' dim (fun i => vel U i - v i) N = inner' dim (vel U) N - inner' dim v N := by
      unfold inner'; rw [← sum_sub_distrib]; exact sum_congr rfl fun i _ => by ring
    unfold frameEnergy
    rw [hsum, hd]
    simp only [hE]
    have e0' : n * a * U 0 - eulerFlux dim γ U N 0 = θ * U 0 := e0
    simp only [e0']
    simp only [hθd]; ring
  rw [key, frameEnergy_eq dim v U hρ.ne', ← hx]
  have hpe : p = (γ - 1) * internalEnergy dim U := rfl
  have hγ' : 0 < γ - 1 := by linarith
  have hI : internalEnergy dim U = p / (γ - 1) := by rw [hpe]; field_simp
  rw [hI]
  have hx0 : 0 ≤ x := inner_nonneg _ _
  set y := Real.sqrt x with hy
  have hy0 : 0 ≤ y := Real.sqrt_nonneg _
  have hyx : x = y ^ 2 := (Real.sq_sqrt hx0).symm
  have hb := (abs_le.1 (inner_abs_le dim (fun i => vel U i - v i) N)).2
  rw [← hx, ← hy, ← hn] at hb
  have h1 : p * inner' dim (fun i => vel U i - v i) N ≤ p * (y * n) := mul_le_mul_of_nonneg_left hb hp.le
  have hpos : 0 ≤ p / (γ - 1) + 1 / 2 * U 0 * x := by positivity
  have h2 : n * c * (p / (γ - 1) + 1 / 2 * U 0 * x) ≤ θ * (p / (γ - 1) + 1 / 2 * U 0 * x) :=
    mul_le_mul_of_nonneg_right hθ hpos
  have h3 : p * y ≤ c * (p / (γ - 1) + 1 / 2 * U 0 * x) := by
    have hp' : p = c ^ 2 * U 0 / γ := by rw [hcs]; field_simp
    rw [hp', hyx]
    have hγ0 : 0 < γ := by linarith
    have : c * (c ^ 2 * U 0 / γ / (γ - 1) + 1 / 2 * U 0 * y ^ 2) - c ^ 2 * U 0 / γ * y
        = c * U 0 / (γ * (γ - 1)) * ((c - (γ - 1) * y / 2) ^ 2 + (γ - 1) * (γ + 1) / 4 * y ^ 2) := by
      field_simp; ring
    have h4 : 0 ≤ c * U 0 / (γ * (γ - 1)) * ((c - (γ - 1) * y / 2) ^ 2 + (γ - 1) * (γ + 1) / 4 * y ^ 2) := by
      positivity
    linarith
  have h4 := mul_le_mul_of_nonneg_left h3 hn0
  nlinarith [h1, h2, h4]

end DG
