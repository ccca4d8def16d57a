import Mathlib.Algebra.Field.Defs
import Mathlib.Data.List.Range

/-!
Model of `src/math/linear_algebra.cpp`.

Simplifications, valid for the whole file: `rtype` (double) is any type `K` with the operations
of the code (theorems that need the laws of arithmetic assume a field, C80 assumes nothing); a view of
rank 1/2 is a function of its indices, its extents are passed separately, and only indices below the
extents are meaningful; the output view of a product is distinct from its inputs (as at every call
site); the team (`member`) variants compute the same values as the serial ones and are modelled by
the same definition.  The KokkosBatched/KokkosBlas kernels the file delegates to are not part of
the repository: they are modelled from their documented algorithms (`gemm`: scale the output by
`beta`, overwriting it with zero when `beta = 0`, then accumulate; `SerialLU`: in-place elimination
without pivoting; `SerialSolveLU`: in-place forward then backward substitution).
-/
namespace DG

variable {K : Type} [Zero K] [One K] [Add K] [Sub K] [Mul K] [Neg K] [Div K] [NatCast K]

/-- `res = 0; for (i < n) res += f(i);` (linear_algebra.cpp 10-28) -/
def loopSum (n : ℕ) (f : ℕ → K) : K := (List.range n).foldl (fun acc i => acc + f i) 0

/-- `Math::dot<N>`, generic version, linear_algebra.cpp:3-10. -/
def dotN (n : ℕ) (a b : ℕ → K) : K := loopSum n fun i => a i * b i
/-- `Math::dot<2>`, linear_algebra.cpp:13-16. -/
def dot2 (a b : ℕ → K) : K := a 0 * b 0 + a 1 * b 1
/-- `Math::dot<3>`, linear_algebra.cpp:19-22. -/
def dot3 (a b : ℕ → K) : K := a 0 * b 0 + a 1 * b 1 + a 2 * b 2
/-- `Math::dot<4>`, linear_algebra.cpp:25-28. -/
def dot4 (a b : ℕ → K) : K := a 0 * b 0 + a 1 * b 1 + a 2 * b 2 + a 3 * b 3
/-- `Math::dot<5>`, linear_algebra.cpp:31-34. -/
def dot5 (a b : ℕ → K) : K := a 0 * b 0 + a 1 * b 1 + a 2 * b 2 + a 3 * b 3 + a 4 * b 4

/-- `Math::cross`, linear_algebra.cpp:36-41 (`c` on entry; entries 0..2 are overwritten). -/
def cross (a b : ℕ → K) (c : ℕ → K) : ℕ → K := fun i =>
  match i with
  | 0 => a 1 * b 2 - a 2 * b 1
  | 1 => a 2 * b 0 - a 0 * b 2
  | 2 => a 0 * b 1 - a 1 * b 0
  | i => c i

/-- `Math::identity`, linear_algebra.cpp:43-51: writes the diagonal, and nothing else. -/
def identityTo (n : ℕ) (mat : ℕ → ℕ → K) : ℕ → ℕ → K := fun i j =>
  if i < n ∧ j < n ∧ i = j then 1 else mat i j

/-- `Math::cA_to_A`, linear_algebra.cpp:53-61, on a vector of extent `n`. -/
def scaleVec (n : ℕ) (c : K) (a : ℕ → K) : ℕ → K := fun i => if i < n then c * a i else a i

/-- `Math::cApB_to_B`, linear_algebra.cpp:75-81 (`axpy`). -/
def cApB_to_B (n : ℕ) (c : K) (A B : ℕ → K) : ℕ → K := fun i => if i < n then c * A i + B i else B i

/-- `Math::cApB_to_C`, linear_algebra.cpp:83-90 (`update(c, A, 1, B, 0, C)`). -/
def cApB_to_C (n : ℕ) (c : K) (A B C : ℕ → K) : ℕ → K := fun i =>
  if i < n then c * A i + 1 * B i else C i

/-- The batched `gemm` kernel (external): `C := beta*C + alpha*a*b` for an `m × n` output and inner
extent `k`; `beta = 0` overwrites, `beta = 1` leaves `C` unscaled. (called in linear_algebra.cpp 178-241) -/
def gemm (α β : K) [DecidableEq K] (m n k : ℕ) (a b C : ℕ → ℕ → K) : ℕ → ℕ → K := fun i j =>
  if i < m ∧ j < n then
    (if β = 0 then 0 else if β = 1 then C i j else β * C i j) + loopSum k fun p => (α * a i p) * b p j
  else C i j

variable [DecidableEq K]

/-- `Math::cAxB_to_C`, linear_algebra.cpp:228-241; `A` is `m × k`, `B` is `k × n`. -/
def cAxB_to_C (c : K) (m n k : ℕ) (A B C : ℕ → ℕ → K) := gemm c 0 m n k A B C
/-- `Math::cAxBT_to_C`, linear_algebra.cpp:178-192; `A` is `m × k`, `B` is `n × k`. -/
def cAxBT_to_C (c : K) (m n k : ℕ) (A B C : ℕ → ℕ → K) :=
  gemm c 0 m n k A (fun p j => B j p) C
/-- `Math::cATxB_to_C`, linear_algebra.cpp:195-210; `A` is `k × m`, `B` is `k × n`. -/
def cATxB_to_C (c : K) (m n k : ℕ) (A B C : ℕ → ℕ → K) :=
  gemm c 0 m n k (fun i p => A p i) B C
/-- `Math::cATxBpC_to_C`, linear_algebra.cpp:212-227. -/
def cATxBpC_to_C (c : K) (m n k : ℕ) (A B C : ℕ → ℕ → K) :=
  gemm c 1 m n k (fun i p => A p i) B C

omit [DecidableEq K]

/-- `Math::det`, linear_algebra.cpp:243-259: sizes other than 1, 2, 3 leave the output as it was. -/
def detTo (dim : ℕ) (m : ℕ → ℕ → K) (det : K) : K :=
  match dim with
  | 1 => m 0 0
  | 2 => m 0 0 * m 1 1 - m 0 1 * m 1 0
  | 3 => m 0 0 * m 1 1 * m 2 2 - m 0 0 * m 1 2 * m 2 1
      - m 0 1 * m 1 0 * m 2 2 + m 0 1 * m 1 2 * m 2 0
      + m 0 2 * m 1 0 * m 2 1 - m 0 2 * m 1 1 * m 2 0
  | _ => det

/-- one elimination step of the batched `SerialLU` (external; unblocked, no pivoting): the column
below pivot `p` is divided by the pivot and the trailing block is updated. (called in linear_algebra.cpp 127, 171) -/
def luStep (n : ℕ) (A : ℕ → ℕ → K) (p : ℕ) : ℕ → ℕ → K := fun i j =>
  if p < i ∧ i < n ∧ j < n then
    if j = p then A i p / A p p
    else if p < j then A i j - A i p / A p p * A p j
    else A i j
  else A i j

/-- `SerialLU::invoke` (external), called at linear_algebra.cpp:126 and 169. -/
def serialLU (n : ℕ) (A : ℕ → ℕ → K) : ℕ → ℕ → K := (List.range n).foldl (luStep n) A

/-- forward substitution step with unit lower triangle (part of `SerialSolveLU`, external) (called in linear_algebra.cpp 129, 173) -/
def fwdStep (n : ℕ) (M : ℕ → ℕ → K) (B : ℕ → ℕ → K) (p : ℕ) : ℕ → ℕ → K := fun i j =>
  if p < i ∧ i < n then B i j - M i p * B p j else B i j

/-- backward substitution step (part of `SerialSolveLU`, external) (called in linear_algebra.cpp 129, 173) -/
def bwdStep (n : ℕ) (M : ℕ → ℕ → K) (B : ℕ → ℕ → K) (p : ℕ) : ℕ → ℕ → K := fun i j =>
  if i = p ∧ p < n then B p j / M p p
  else if i < p ∧ p < n then B i j - M i p * (B p j / M p p)
  else B i j

/-- `SerialSolveLU::invoke` (external), called at linear_algebra.cpp:128-129 and 171-172. -/
def serialSolveLU (n : ℕ) (M B : ℕ → ℕ → K) : ℕ → ℕ → K :=
  (List.range n).reverse.foldl (bwdStep n M) ((List.range n).foldl (fwdStep n M) B)

/-- `Math::invA`, linear_algebra.cpp:92-131 (serial) and 134-176 (team); `imat` is the output view
on entry.  Returns the output view (`mat` itself is overwritten by its factors for sizes ≥ 4). -/
def invA (dim : ℕ) (m imat : ℕ → ℕ → K) : ℕ → ℕ → K :=
  match dim with
  | 1 => fun i j => if i = 0 ∧ j = 0 then 1 / m 0 0 else imat i j
  | 2 =>
    let det := m 0 0 * m 1 1 - m 0 1 * m 1 0
    fun i j => match i, j with
      | 0, 0 => m 1 1 / det
      | 0, 1 => - m 0 1 / det
      | 1, 0 => - m 1 0 / det
      | 1, 1 => m 0 0 / det
      | i, j => imat i j
  | 3 =>
    let det := m 0 0 * m 1 1 * m 2 2 - m 0 0 * m 1 2 * m 2 1
      - m 0 1 * m 1 0 * m 2 2 + m 0 1 * m 1 2 * m 2 0
      + m 0 2 * m 1 0 * m 2 1 - m 0 2 * m 1 1 * m 2 0
    fun i j => match i, j with
      | 0, 0 => (m 1 1 * m 2 2 - m 1 2 * m 2 1) / det
      | 1, 0 => - (m 1 0 * m 2 2 - m 1 2 * m 2 0) / det
      | 2, 0 => (m 1 0 * m 2 1 - m 1 1 * m 2 0) / det
      | 0, 1 => - (m 0 1 * m 2 2 - m 0 2 * m 2 1) / det
      | 1, 1 => (m 0 0 * m 2 2 - m 0 2 * m 2 0) / det
      | 2, 1 => - (m 0 0 * m 2 1 - m 0 1 * m 2 0) / det
      | 0, 2 => (m 0 1 * m 1 2 - m 0 2 * m 1 1) / det
      | 1, 2 => - (m 0 0 * m 1 2 - m 0 2 * m 1 0) / det
      | 2, 2 => (m 0 0 * m 1 1 - m 0 1 * m 1 0) / det
      | i, j => imat i j
  | dim => serialSolveLU dim (serialLU dim m) (identityTo dim imat)

end DG
