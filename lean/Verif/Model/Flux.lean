import Verif.Model.Physics

/-!
Model of the calls of the physics object by the solver.
-/
namespace DG

/-- `physics.get_conv_flux_interior(Uq, Fdir)` as called in `get_element_residuals`, solver/base.cpp
415-468.  The solver model (`Disc`) has total functions; where the computation leaves the reals
(division by zero, NaN) the value is the arbitrary function `junk`, which is also what the output array
holds on entry. -/
noncomputable def solverVolFlux (dim : ℕ) (ph : Physics) (junk : (ℕ → ℝ) → ℕ → ℝ) (U : ℕ → ℝ) : ℕ → ℝ :=
  ((getConvFluxInterior dim ph U (junk U)).map Prod.fst).getD (junk U)

/-- `physics.get_conv_flux_numerical(UqL, UqR, normals, Fq, F)` as called in
`get_interior_face_residuals`, solver/base.cpp 470-561; `junk` as above (first component: the worker
array, second: the output array). -/
noncomputable def solverNumFlux (dim : ℕ) (ph : Physics)
    (junk : (ℕ → ℝ) → (ℕ → ℝ) → (ℕ → ℝ) → (ℕ → ℝ) × (ℕ → ℝ)) (UL UR N : ℕ → ℝ) : ℕ → ℝ :=
  (getConvFluxNumerical dim ph UL UR N (junk UL UR N).1 (junk UL UR N).2).getD (junk UL UR N).2

/-- `physics.call_IC(physics, x, time, Uq)` as called in `init_state_from_fcn`, solver/base.cpp 114-226,
at time 0; `junk` as above. -/
noncomputable def solverIC (dim : ℕ) (ph : Physics) (junk : (ℕ → ℝ) → ℕ → ℝ) (x : ℕ → ℝ) : ℕ → ℝ :=
  (callIC dim ph x 0 (junk x)).getD (junk x)

end DG
