import Verif.Model.Solver
import Mathlib.Algebra.Order.Round

/-!
Double precision where it decides how many steps are taken: the numbers `tfinal` and `dt` of the input file become
the nearest doubles (toml11 / `strtod`), their quotient is rounded to a double and truncated
(src/solver/base.cpp 383), and the clock is advanced by rounded additions (src/numerics/timestepping/stepper.cpp
50, 98, 125).

Simplification: a rounding is any function to a nearest double (ties either way: IEEE's round to even is one of
them); overflow to infinity is not modelled (the largest finite double is used instead).
-/
namespace DG

/-- finite IEEE 754 double precision numbers, subnormals included
(`rtype` in the double precision build, as used in solver/base.cpp 383 and stepper.cpp 50, 98, 125) -/
def IsDouble (x : ℝ) : Prop := ∃ m e : ℤ, |m| < 2 ^ 53 ∧ -1074 ≤ e ∧ e ≤ 971 ∧ x = m * (2 : ℝ) ^ e

/-- `y` is `x` rounded to double precision (the roundings of solver/base.cpp 383 and stepper.cpp 50, 98, 125) -/
def Rounded (x y : ℝ) : Prop := IsDouble y ∧ ∀ z, IsDouble z → |x - y| ≤ |x - z|

/-- base.cpp 383: `(int)(tfinal / dt)` in double precision: the rounded quotient is truncated -/
def FloatSteps (tfinal dt : ℝ) (n : ℕ) : Prop := ∃ q, Rounded (tfinal / dt) q ∧ numIterations q = some n

/-- The clock after `n` additions of `h` (stepper.cpp 50: one addition of `dt` per step; 98 and 125: two additions of
`dt / 2.0` per step), each rounded. -/
inductive FloatClock (h : ℝ) : ℕ → ℝ → Prop
  | start : FloatClock h 0 0
  | tick {n : ℕ} {t t' : ℝ} : FloatClock h n t → Rounded (t + h) t' → FloatClock h (n + 1) t'

/-- additions per time step and the summand (`dt / 2.0` is exact unless it underflows) (stepper.cpp 50 (FE); stepper.cpp 98, 125 (RK4)) -/
noncomputable def clockStep (st : Stepper) (dt : ℝ) : ℕ × ℝ :=
  match st with
  | .FE => (1, dt)
  | .RK4 => (2, dt / 2)

end DG
