import Verif.Model.FluxOps
import Verif.Model.Solver
import Verif.Model.Quadrature
import Verif.Spec.Wellposed
import Verif.Props.Volume

/-!
Computer arithmetic: numbers of finite precision whose operations are rounded, with overflow and with
results that are not numbers.
-/
namespace DG

/-- `r` is a rounded value of `x`: relative error at most `u`, with an absolute error `u²` for results that
underflow, and the sign is kept. -/
def Rounds (u x r : ℝ) : Prop := |r - x| ≤ u * |x| + u ^ 2 ∧ (0 ≤ x → 0 ≤ r)

/-- A computer arithmetic.  `fin`: the numbers that are neither infinite nor NaN; `val`: their value; `u`: the
unit roundoff; results of magnitude up to `big` do not overflow.  Nothing is said about operations on other
than finite numbers, about overflow, about division by zero and about the root of a negative number.  The functions
`exp` and `pow` of the mathematics library (and `M_PI`) may have four times the error of the other operations. -/
structure Arith where
  K : Type
  [instZero : Zero K]
  [instOne : One K]
  [instAdd : Add K]
  [instSub : Sub K]
  [instMul : Mul K]
  [instNeg : Neg K]
  [instDiv : Div K]
  [instCast : NatCast K]
  [instSqrt : HasSqrt K]
  [instLit : DecLit K]
  [instLibm : HasLibm K]
  [instLT : LT K]
  [instDecLT : DecidableLT K]
  [instLE : LE K]
  [instDecLE : DecidableLE K]
  [instDecEq : DecidableEq K]
  fin : K → Prop
  val : K → ℝ
  u : ℝ
  big : ℝ
  u_nonneg : 0 ≤ u
  zero : fin 0 ∧ val 0 = 0
  one : fin 1 ∧ val 1 = 1
  cast : ∀ n : ℕ, (n : ℝ) ≤ big → fin (n : K) ∧ Rounds u n (val (n : K))
  lit : ∀ (n : ℤ) (k : ℕ), |(n : ℝ) / 10 ^ k| ≤ big →
    fin (DecLit.ofDec n k) ∧ Rounds u ((n : ℝ) / 10 ^ k) (val (DecLit.ofDec n k))
  neg : ∀ a, fin a → fin (-a) ∧ val (-a) = -val a
  add : ∀ a b, fin a → fin b → |val a + val b| ≤ big → fin (a + b) ∧ Rounds u (val a + val b) (val (a + b))
  sub : ∀ a b, fin a → fin b → |val a - val b| ≤ big → fin (a - b) ∧ Rounds u (val a - val b) (val (a - b))
  mul : ∀ a b, fin a → fin b → |val a * val b| ≤ big → fin (a * b) ∧ Rounds u (val a * val b) (val (a * b))
  div : ∀ a b, fin a → fin b → val b ≠ 0 → |val a / val b| ≤ big →
    fin (a / b) ∧ Rounds u (val a / val b) (val (a / b))
  sqrt : ∀ a, fin a → 0 ≤ val a → Real.sqrt (val a) ≤ big →
    fin (HasSqrt.sqrt a) ∧ Rounds u (Real.sqrt (val a)) (val (HasSqrt.sqrt a))
  pi : Real.pi ≤ big → fin (HasLibm.pi : K) ∧ Rounds (4 * u) Real.pi (val (HasLibm.pi : K))
  exp : ∀ a, fin a → Real.exp (val a) ≤ big →
    fin (HasLibm.exp a) ∧ Rounds (4 * u) (Real.exp (val a)) (val (HasLibm.exp a))
  pow : ∀ a b, fin a → fin b → (0 < val a ∨ val a = 0 ∧ 0 < val b) → val a ^ val b ≤ big →
    fin (HasLibm.pow a b) ∧ Rounds (4 * u) (val a ^ val b) (val (HasLibm.pow a b))
  powi : ∀ a (n : ℕ), fin a → |val a ^ n| ≤ big →
    fin (HasLibm.powi a n) ∧ Rounds (4 * u) (val a ^ n) (val (HasLibm.powi a n))
  lt : ∀ a b, fin a → fin b → (a < b ↔ val a < val b)
  le : ∀ a b, fin a → fin b → (a ≤ b ↔ val a ≤ val b)

attribute [instance] Arith.instZero Arith.instOne Arith.instAdd Arith.instSub Arith.instMul Arith.instNeg
  Arith.instDiv Arith.instCast Arith.instSqrt Arith.instLit Arith.instLibm Arith.instLT Arith.instDecLT Arith.instLE Arith.instDecLE
  Arith.instDecEq

/-- `a` is a finite number within `κ` roundoffs of `x`. -/
def Arith.Close (A : Arith) (κ : ℝ) (a : A.K) (x : ℝ) : Prop := A.fin a ∧ |A.val a - x| ≤ κ * A.u

/-- The scheme `D` is `d` for the Euler equations on the computer: the same shape, tables within `κ` roundoffs of the
exact ones, and the flux routines of the code with a specific heat ratio within `κ` roundoffs of `γ`. -/
structure MachineScheme (A : Arith) (κ : ℝ) (f : NumericalFluxType) (γ : ℝ) (d : Disc ℝ) (D : Disc A.K) : Prop where
  dim : D.dim = d.dim
  ns : D.ns = d.ns
  nb : D.nb = d.nb
  nq : D.nq = d.nq
  nface : D.nface = d.nface
  nqf : D.nqf = d.nqf
  ptsOrder : D.ptsOrder = d.ptsOrder
  volBasis : ∀ q < d.nq, ∀ b < d.nb, A.Close κ (D.volBasis q b) (d.volBasis q b)
  volGrad : ∀ q < d.nq, ∀ b < d.nb, ∀ j < d.dim, A.Close κ (D.volGrad q b j) (d.volGrad q b j)
  volWts : ∀ q < d.nq, A.Close κ (D.volWts q) (d.volWts q)
  faceBasis : ∀ f < d.nface, ∀ q < d.nqf, ∀ b < d.nb, A.Close κ (D.faceBasis f q b) (d.faceBasis f q b)
  faceWts : ∀ q < d.nqf, A.Close κ (D.faceWts q) (d.faceWts q)
  fluxes : ∃ (γ' : A.K) (junk junk' : ℕ → A.K), A.Close κ γ' γ ∧
    (D.volFlux = fun U => Fl.convFlux d.dim γ' U junk') ∧ D.numFlux = machineNumFlux f d.dim γ' junk

/-- The geometric data a rank has computed are within `κ` roundoffs of the exact ones.  (Two ranks that share a
face may have different values of its normals.) -/
structure GeomClose {α : Type} (A : Arith) (κ : ℝ) (d : Disc ℝ) (rm : RankMesh α) (g : Geom A.K) (G : Geom ℝ) : Prop where
  djac : ∀ k e : ℕ, rm.l2gElem[k]? = some e → ∀ q < d.nq, A.Close κ (g.djac k q) (G.djac e q)
  ijac : ∀ k e : ℕ, rm.l2gElem[k]? = some e → ∀ q < d.nq, ∀ i < d.dim, ∀ j < d.dim,
    A.Close κ (g.ijac k q i j) (G.ijac e q i j)
  iMM : ∀ k e : ℕ, rm.l2gElem[k]? = some e → ∀ i < d.nb, ∀ j < d.nb, A.Close κ (g.iMM k i j) (G.iMM e i j)
  normals : ∀ i f : ℕ, rm.l2gFace[i]? = some f → ∀ q < d.nqf, ∀ j < d.dim,
    A.Close κ (g.normals i q j) (G.normals f q j)

/-- The coefficients of a rank are within `κ` roundoffs of those of its elements in `U`. -/
def CoeffsClose {α : Type} (A : Arith) (κ : ℝ) (d : Disc ℝ) (rm : RankMesh α) (u : Coeffs A.K) (U : Coeffs ℝ) : Prop :=
  ∀ k e : ℕ, rm.l2gElem[k]? = some e → ∀ b < d.nb, ∀ s < d.ns, A.Close κ (u k b s) (U e b s)

/-! ### the setup -/

/-- The mesh a computer has read is `m`: the same elements and faces, node coordinates within `κ` roundoffs. -/
structure MeshRead (A : Arith) (κ : ℝ) (dim : ℕ) (m : GMesh ℝ) (m' : GMesh A.K) : Prop where
  numElems : m'.numElems = m.numElems
  npe : m'.npe = m.npe
  faces : m'.faces = m.faces
  coords : ∀ e < m.numElems, ∀ i < m.npe, ∀ j < dim, A.Close κ (fileCoords m' e i j) (fileCoords m e i j)

/-- The routine `ic'` computes the initial condition `ic` on every computer that is precise enough: at a point known to within
`κ` roundoffs its results are finite and known to within some number `κ'` of roundoffs. -/
def Computes (dim ns : ℕ) (ic' : ∀ A : Arith, (ℕ → A.K) → ℕ → A.K) (ic : (ℕ → ℝ) → ℕ → ℝ) : Prop :=
  ∀ (κ : ℝ) (X : ℕ → ℝ), ∃ κ' u0 B : ℝ, 0 < u0 ∧ ∀ A : Arith, A.u ≤ u0 → B ≤ A.big →
    ∀ x : ℕ → A.K, (∀ j < dim, A.Close κ (x j) (X j)) → ∀ s < ns, A.Close κ' (ic' A x s) (ic X s)

/-- The same for all routines of the family `R`, with the same numbers `κ'`, `u0`, `B` for all of them. -/
def ComputesAll (dim ns : ℕ) (R : ∀ A : Arith, ((ℕ → A.K) → ℕ → A.K) → Prop) (ic : (ℕ → ℝ) → ℕ → ℝ) : Prop :=
  ∀ (κ : ℝ) (X : ℕ → ℝ), ∃ κ' u0 B : ℝ, 0 < u0 ∧ ∀ A : Arith, A.u ≤ u0 → B ≤ A.big → ∀ ic' : (ℕ → A.K) → ℕ → A.K, R A ic' →
    ∀ x : ℕ → A.K, (∀ j < dim, A.Close κ (x j) (X j)) → ∀ s < ns, A.Close κ' (ic' x s) (ic X s)

end DG
