import Verif.Spec.Rounding
import Verif.Spec.Bits

/-!
Vocabulary of C84: a case on a computer.
-/
namespace DG

/-- The Euler case with heat ratio `γ'`, numerical flux `f` and initial condition `ic'` has been launched on the computer `A`
with the mesh file `m'`: `nranks` ranks have partitioned the mesh and completed the setup - all of it in the arithmetic of the
computer.  `junk`, `junk'`: what uninitialised memory held. -/
def MachineLaunch (A : Arith) (t gt : BasisType) (p dim : ℕ) (f : NumericalFluxType) (γ' : A.K) (ic' : (ℕ → A.K) → ℕ → A.K)
    (m' : GMesh A.K) (nranks : ℕ) (part : List ℕ) (rms : ℕ → RankMesh A.K) (D : Disc A.K) (g : ℕ → Geom A.K)
    (u : ℕ → Coeffs A.K) : Prop :=
  ∃ junk junk' : ℕ → A.K, Launched t gt p 1 (dim + 2) (fun U => Fl.convFlux dim γ' U junk') (machineNumFlux f dim γ' junk)
    ic' m' nranks part rms D g u

/-- The number `c` of the input deck is `x`: on every computer that is precise enough it is known to within some number of
roundoffs. -/
def Known (c : ∀ A : Arith, A.K) (x : ℝ) : Prop :=
  ∃ κ u0 B : ℝ, 0 < u0 ∧ ∀ A : Arith, A.u ≤ u0 → B ≤ A.big → A.Close κ (c A) x

end DG
