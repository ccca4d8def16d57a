import Verif.Spec.EulerDG
import Verif.Spec.TimeOrder

/-!
Specification: the states at which the numerical fluxes of the Euler equations are well behaved.
-/
namespace DG

/-- The three waves of the HLLC flux between two states are in their order: left wave, contact, right wave. -/
def WavesOrdered (dim : ℕ) (γ : ℝ) (UL UR n : ℕ → ℝ) : Prop :=
  waveSpeedL dim γ UL UR n < contactSpeed dim γ UL UR n ∧ contactSpeed dim γ UL UR n < waveSpeedR dim γ UL UR n

/-- All states the scheme evaluates for the coefficients `U` are admissible and, if the flux is HLLC, its
waves are in their order at all points of all faces. -/
structure StatesRegular {α : Type} (f : NumericalFluxType) (γ : ℝ) (d : Disc ℝ) (m : GMesh α) (G : Geom ℝ)
    (U : Coeffs ℝ) : Prop where
  admissible : StatesAdmissible γ d m U
  waves : f = .HLLC → ∀ x ∈ m.faces.zipIdx, ∀ i < d.nqf,
    WavesOrdered d.dim γ (traceState d U x.1.elemL x.1.faceL (d.ptsOrder x.1.orientL i))
      (traceState d U x.1.elemR x.1.faceR (d.ptsOrder x.1.orientR i))
      (unit d.dim (cArr d.dim (G.normals x.2 i)))

/-- The scheme `d` is for the Euler equations with the numerical flux `f`. -/
structure EulerScheme (d : Disc ℝ) (f : NumericalFluxType) (γ : ℝ) : Prop where
  vars : d.ns = d.dim + 2
  vol : d.volFlux = eulerDirFlux d.dim γ
  num : d.numFlux = eulerNumFlux f d.dim γ

end DG
