import Verif.Spec.Solver
import Mathlib.Analysis.Calculus.ContDiff.Defs
import Mathlib.Analysis.Calculus.Deriv.Basic
import Mathlib.Analysis.Normed.Group.Constructions
import Mathlib.Analysis.Calculus.ContDiff.Basic

/-!
Specification of the order of accuracy in time: exact solutions of the system of ordinary differential
equations `dU/dt = f(t, U)` for the coefficients, smoothness of `f` near an exact solution, and the order
of the methods.  Coefficient arrays are functions on all indices; only the entries inside the extents
(`ne` elements, `d.nb` basis functions, `d.ns` variables) count.
-/
namespace DG

/-- The coefficients as a vector of the normed space of finite arrays. -/
abbrev Box (d : Disc ℝ) (ne : ℕ) : Type := Fin ne → Fin d.nb → Fin d.ns → ℝ

/-- The entries that exist. -/
def toBox (d : Disc ℝ) (ne : ℕ) (U : Coeffs ℝ) : Box d ne := fun e b v => U e b v

/-- The array with the given entries. -/
noncomputable def ofBox {d : Disc ℝ} {ne : ℕ} (u : Box d ne) : Coeffs ℝ := fun e b v =>
  if h : e < ne ∧ b < d.nb ∧ v < d.ns then u ⟨e, h.1⟩ ⟨b, h.2.1⟩ ⟨v, h.2.2⟩ else 0

/-- `y` solves `dy/dt = f(t, y)` for `0 ≤ t ≤ T`. -/
def ExactSolution (d : Disc ℝ) (ne : ℕ) (T : ℝ) (f : ℝ → Coeffs ℝ → Coeffs ℝ) (y : ℝ → Coeffs ℝ) : Prop :=
  ∀ t ∈ Set.Icc 0 T, ∀ e < ne, ∀ b < d.nb, ∀ v < d.ns,
    HasDerivWithinAt (fun t => y t e b v) (f t (y t) e b v) (Set.Icc 0 T) t

/-- `f` is `k` times continuously differentiable near the curve `(t, y t)`, `0 ≤ t ≤ T`. -/
def SmoothAlong (d : Disc ℝ) (ne : ℕ) (T : ℝ) (k : ℕ) (f : ℝ → Coeffs ℝ → Coeffs ℝ)
    (y : ℝ → Coeffs ℝ) : Prop :=
  ∃ Ω : Set (ℝ × Box d ne), IsOpen Ω ∧ (∀ t ∈ Set.Icc 0 T, (t, toBox d ne (y t)) ∈ Ω) ∧
    ContDiffOn ℝ k (fun p : ℝ × Box d ne => toBox d ne (f p.1 (ofBox p.2))) Ω

/-- Order of the methods. -/
def methodOrder : Stepper → ℕ
  | .FE => 1
  | .RK4 => 4

end DG
