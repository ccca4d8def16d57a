import Verif.Model.Mass
import Verif.Model.Network
import Mathlib.Data.Real.Archimedean

/-!
Model of the residual evaluation (`src/solver/base.cpp` 287-598, `src/solver/flux_functors_impl.h`,
`src/solver/tools.cpp` 7-65, 124-138), of the time steppers
(`src/numerics/timestepping/stepper.cpp`) and of the time loop (`Solver::solve`, base.cpp 377-399),
on one rank, and of the program all ranks run together.

Simplifications: `rtype` is any type with the operations; views of rank 3/4 are functions of their indices (extents in
`Disc` and `RankMesh`), reads and writes with computed indices are bounds-checked (`none` =
out-of-bounds); the volume terms of a residual are computed after the exchange of face states
instead of before (they only read `Uc`, which the exchange does not change); the flux functions are
arbitrary total functions of the state and normal (they are instantiated with the Euler fluxes of
`Model/Physics.lean` in `Props/Solver.lean`); output and timers are left out.
-/
namespace DG

/-- What is the same on all ranks and does not depend on the mesh: extents, basis values and
gradients at the quadrature points of the element and of its faces, weights, the slot order of the
points of a face for every orientation, the flux functions. (helpers.h 40-56, 75-130 and the `Physics` object, physics/base/base.h 23-69) -/
structure Disc (K : Type) where
  dim : ℕ
  ns : ℕ                            -- physics.get_NS()
  nb : ℕ                            -- basis functions
  nq : ℕ                            -- volume points
  nface : ℕ                         -- faces of the reference element
  nqf : ℕ                           -- points of a face
  volBasis : ℕ → ℕ → K              -- vol_helpers.basis_val(iq, ib)
  volGrad : ℕ → ℕ → ℕ → K           -- vol_helpers.basis_ref_grad(iq, ib, id)
  volWts : ℕ → K                    -- vol_helpers.quad_wts(iq)
  faceBasis : ℕ → ℕ → ℕ → K         -- iface_helpers.basis_val(face, iq, ib)
  faceWts : ℕ → K                   -- iface_helpers.quad_wts(iq)
  ptsOrder : ℕ → ℕ → ℕ              -- get_face_pts_order_wrt_orient0(orient)(iq)
  volFlux : (ℕ → K) → ℕ → K         -- get_conv_flux_interior: entry id * NS + is of gF1
  numFlux : (ℕ → K) → (ℕ → K) → (ℕ → K) → ℕ → K  -- get_conv_flux_numerical(UL, UR, N): entry is

/-- What a rank has precomputed about its elements and faces (`precompute_matrix_helpers`,
base.cpp 70-111): indices are local IDs. -/
structure Geom (K : Type) where
  djac : ℕ → ℕ → K                  -- vol_helpers.djac_elems(ie, iq)
  ijac : ℕ → ℕ → ℕ → ℕ → K          -- vol_helpers.ijac_elems(ie, iq, id1, id2)
  iMM : ℕ → ℕ → ℕ → K               -- vol_helpers.iMM_elems(ie, i, j)
  normals : ℕ → ℕ → ℕ → K           -- iface_helpers.normals(iface, iq, id)

variable {K : Type} [Zero K] [One K] [Add K] [Sub K] [Mul K] [Neg K] [Div K] [NatCast K]

/-- a local C array of length `n` filled from a view (flux_functors_impl.h 58-60, 210-216): entries
beyond the length do not exist and are given as 0 -/
def cArr (n : ℕ) (f : ℕ → K) : ℕ → K := fun i => if i < n then f i else 0

/-- `VolumeFluxesFunctor::operator()`, flux_functors_impl.h 46-113: `gF2`, stored in
`vgUq(ie, iq, is, id1)`.  Entry `id1 * NS + is` of the array `gF2` is a function of
(`id1`, `is`), which determine each other (`is < NS`). -/
def volumeFlux (d : Disc K) (g : Geom K) (Uq : ℕ → ℕ → K) (ie iq is id1 : ℕ) : K :=
  let gF1 := d.volFlux (cArr d.ns (Uq iq))
  loopSum d.dim fun id2 => gF1 (id2 * d.ns + is) * g.ijac ie iq id1 id2 * g.djac ie iq * d.volWts iq

/-- `calculate_volume_flux_integral`, solver/tools.cpp 7-35, one entry of `res`. -/
def volumeIntegral (d : Disc K) (F : ℕ → ℕ → ℕ → K) (ib is : ℕ) (res0 : K) : K :=
  (List.range d.nq).foldl (fun acc iq =>
    (List.range d.dim).foldl (fun acc id => acc + d.volGrad iq ib id * F iq is id) acc) res0

/-- the copy of the face basis values with (face, point) in one index, base.cpp 488-501 -/
def faceBasisFlat (d : Disc K) : ℕ → ℕ → K := fun i k => d.faceBasis (i / d.nqf) (i % d.nqf) k

/-- one side of one face in `construct_face_states`, base.cpp 307-315 / 317-325: the block of `UqL`
(or `UqR`) of the face.  The iterations of the parallel loop only write their own entry, so their
order is immaterial. -/
def gatherSide (d : Disc K) (ne elem face orient : ℕ) (Uq : ℕ → ℕ → ℕ → K) (old : ℕ → ℕ → K) :
    Option (ℕ → ℕ → K) :=
  if elem < ne ∧ ∀ iq < d.nqf, face * d.nqf + d.ptsOrder orient iq < d.nface * d.nqf then
    some fun iq is =>
      if iq < d.nqf ∧ is < d.ns then Uq elem (face * d.nqf + d.ptsOrder orient iq) is
      else old iq is
  else none

/-- `construct_face_states`, base.cpp 287-327. -/
def constructFaceStates (d : Disc K) (ne rank : ℕ) (rows : List FaceRow) (Uq : ℕ → ℕ → ℕ → K)
    (U : FaceArr (ℕ → ℕ → K)) : Option (FaceArr (ℕ → ℕ → K)) := do
  let L ← U.L.zipIdx.mapM fun x => do
    let row ← rows[x.2]?
    if rank = row.rankL then gatherSide d ne row.elemL row.faceL row.orientL Uq x.1 else some x.1
  let R ← U.R.zipIdx.mapM fun x => do
    let row ← rows[x.2]?
    if rank = row.rankR then gatherSide d ne row.elemR row.faceR row.orientR Uq x.1 else some x.1
  some { L := L, R := R }

/-- `InteriorFacesFluxFunctor::operator()`, flux_functors_impl.h 168-260: the block of `Fq` of face
`i` (`none` = read outside of the views). -/
def faceFlux (d : Disc K) (g : Geom K) (U : FaceArr (ℕ → ℕ → K)) (i : ℕ) :
    Option (ℕ → ℕ → K) := do
  let L ← U.L[i]?
  let R ← U.R[i]?
  some fun iq is =>
    d.numFlux (cArr d.ns (L iq)) (cArr d.ns (R iq)) (cArr d.dim (g.normals i iq)) is * d.faceWts iq

/-- one assignment to `Fq_elem(elem, slot, state)` (base.cpp 357, 369) -/
structure FluxWrite (K : Type) where
  elem : ℕ
  slot : ℕ
  is : ℕ
  val : K

/-- the assignments of one iteration (face, point) of `construct_flux_state`, base.cpp 344-373 -/
def fluxWritesAt (d : Disc K) (rank : ℕ) (row : FaceRow) (F : ℕ → ℕ → K) (iq : ℕ) :
    List (FluxWrite K) :=
  (if rank = row.rankL then (List.range d.ns).map fun is =>
    ⟨row.elemL, row.faceL * d.nqf + d.ptsOrder row.orientL iq, is, -1 * F iq is⟩ else []) ++
  (if rank = row.rankR then (List.range d.ns).map fun is =>
    ⟨row.elemR, row.faceR * d.nqf + d.ptsOrder row.orientR iq, is, F iq is⟩ else [])

/-- all assignments of `construct_flux_state`, base.cpp 329-375, in program order; the parallel loop
may perform them in any order -/
def fluxWrites (d : Disc K) (rank : ℕ) (rows : List FaceRow) (Fq : List (ℕ → ℕ → K)) :
    List (FluxWrite K) :=
  (rows.zip Fq).flatMap fun x => (List.range d.nqf).flatMap fun iq =>
    fluxWritesAt d rank x.1 x.2 iq

/-- one assignment, bounds-checked against the extents of `Fq_elem` (base.cpp 576-577) -/
def assignFlux (d : Disc K) (ne : ℕ) (F : ℕ → ℕ → ℕ → K) (w : FluxWrite K) :
    Option (ℕ → ℕ → ℕ → K) :=
  if w.elem < ne ∧ w.slot < d.nface * d.nqf ∧ w.is < d.ns then
    some fun e j s => if e = w.elem ∧ j = w.slot ∧ s = w.is then w.val else F e j s
  else none

/-- a sequence of assignments (base.cpp 342-373) -/
def writeFluxes (d : Disc K) (ne : ℕ) (ws : List (FluxWrite K)) (F : ℕ → ℕ → ℕ → K) :
    Option (ℕ → ℕ → ℕ → K) := ws.foldlM (assignFlux d ne) F

variable [DecidableEq K]

/-- the face part of a residual up to the exchange, base.cpp 504-509: evaluate the state at all face
points of all elements, and collect the face states of the rank.  `Uq0` is the view on entry. -/
def faceStates (d : Disc K) {α : Type} (rm : RankMesh α) (rank : ℕ) (Uc : ℕ → ℕ → ℕ → K)
    (Uq0 : ℕ → ℕ → ℕ → K) (U : FaceArr (ℕ → ℕ → K)) : Option (FaceArr (ℕ → ℕ → K)) :=
  constructFaceStates d rm.numElemsPart rank rm.rows
    (fun e => evaluateState (d.nface * d.nqf) d.nb d.ns (faceBasisFlat d) (Uc e) (Uq0 e)) U

/-- `get_residual` after the exchange, base.cpp 401-468 and 544-560: returns `res` and `Fq_elem`.
`U` are the face states after the exchange, `Fe0` is `Fq_elem` on entry, `sched` the order in which
the parallel loop of `construct_flux_state` performs its assignments, `vq0` the contents of the
freshly allocated `Uq`, `res0` is `res` on entry (filled with 0 at line 406). -/
def residual (d : Disc K) (g : Geom K) {α : Type} (rm : RankMesh α) (rank : ℕ)
    (sched : List (FluxWrite K) → List (FluxWrite K)) (Uc : ℕ → ℕ → ℕ → K)
    (U : FaceArr (ℕ → ℕ → K)) (vq0 Fe0 res0 : ℕ → ℕ → ℕ → K) :
    Option ((ℕ → ℕ → ℕ → K) × (ℕ → ℕ → ℕ → K)) := do
  let ne := rm.numElemsPart
  -- 406: Math::fill(ndof, res.data(), 0.0)
  let res := fun e b s => if e < ne ∧ b < d.nb ∧ s < d.ns then 0 else res0 e b s
  -- get_element_residuals, 415-468
  let Uq := fun e => evaluateState d.nq d.nb d.ns d.volBasis (Uc e) (vq0 e)
  let res := fun e b s => if e < ne ∧ b < d.nb ∧ s < d.ns then
    volumeIntegral d (fun iq is id => volumeFlux d g (Uq e) e iq is id) b s (res e b s)
    else res e b s
  -- get_interior_face_residuals, 544-560
  let Fq ← (List.range rm.numIFacesPart).mapM (faceFlux d g U)
  let Fe ← writeFluxes d ne (sched (fluxWrites d rank rm.rows Fq)) Fe0
  let res := fun e b s => if e < ne then
    cATxBpC_to_C 1 d.nb d.ns (d.nface * d.nqf) (faceBasisFlat d) (Fe e) (res e) b s
    else res e b s
  some (res, Fe)

/-- `SolverTools::mult_inv_mass_matrix` on all elements, solver/tools.cpp 124-138. -/
def multInvMassAll (d : Disc K) (ne : ℕ) (dt : K) (iMM res dU0 : ℕ → ℕ → ℕ → K) :
    ℕ → ℕ → ℕ → K := fun e b s =>
  if e < ne then multInvMass d.nb d.ns dt (iMM e) (res e) (dU0 e) b s else dU0 e b s

/-- `Math::cApB_to_B` / `cApB_to_C` on the data of views of the same shape and layout: entry by
entry (linear_algebra.cpp 75-90); `C` is the output on entry. -/
def axpy3 (d : Disc K) (ne : ℕ) (c : K) (A B C : ℕ → ℕ → ℕ → K) : ℕ → ℕ → ℕ → K := fun e b s =>
  if e < ne ∧ b < d.nb ∧ s < d.ns then c * A e b s + B e b s else C e b s

/-- `StepperType` of the run: the factory, stepper.h 88-104 -/
inductive Stepper where
  | FE
  | RK4
deriving DecidableEq, Repr

/-- Data a rank keeps between residual evaluations: coefficients, time, the stage views of the
stepper (stepper.cpp 57-69), the work views of the solver, and how many residuals have been evaluated
(`stage` in the current step, `evals` in total). -/
structure RankState (K : Type) where
  Uc : ℕ → ℕ → ℕ → K
  time : K
  Uhold : ℕ → ℕ → ℕ → K
  dU1 : ℕ → ℕ → ℕ → K
  dU2 : ℕ → ℕ → ℕ → K
  dU3 : ℕ → ℕ → ℕ → K
  dU4 : ℕ → ℕ → ℕ → K
  res : ℕ → ℕ → ℕ → K
  Fe : ℕ → ℕ → ℕ → K
  stage : ℕ
  evals : ℕ

/-- start of `take_time_step` up to its first `get_residual`: stepper.cpp 26 (FE), 74-78 (RK4) -/
def beginStep (st : Stepper) (s : RankState K) : RankState K :=
  match st with
  | .FE => s
  | .RK4 => { s with Uhold := s.Uc }

/-- `take_time_step` from the return of one `get_residual` to the next one (or to the end of the
step, and then the beginning of the next step).  FE: stepper.cpp 29-52, RK4: 84-98, 100-103, 113-125,
127-136. -/
def afterResidual (d : Disc K) (ne : ℕ) (dt : K) (iMM : ℕ → ℕ → ℕ → K) (st : Stepper)
    (s : RankState K) : RankState K :=
  match st with
  | .FE =>
    let dU := multInvMassAll d ne dt iMM s.res (fun _ _ _ => 0)
    { s with Uc := axpy3 d ne 1 dU s.Uc s.Uc, time := s.time + dt, stage := 0 }
  | .RK4 =>
    match s.stage with
    | 0 =>
      let dU1 := multInvMassAll d ne dt iMM s.res s.dU1
      { s with dU1 := dU1, Uc := axpy3 d ne (1 / 2) dU1 s.Uhold s.Uc, time := s.time + dt / 2,
               stage := 1 }
    | 1 =>
      let dU2 := multInvMassAll d ne dt iMM s.res s.dU2
      { s with dU2 := dU2, Uc := axpy3 d ne (1 / 2) dU2 s.Uhold s.Uc, stage := 2 }
    | 2 =>
      let dU3 := multInvMassAll d ne dt iMM s.res s.dU3
      { s with dU3 := dU3, Uc := axpy3 d ne 1 dU3 s.Uhold s.Uc, time := s.time + dt / 2,
               stage := 3 }
    | _ =>
      let dU4 := multInvMassAll d ne dt iMM s.res s.dU4
      let dU4 := axpy3 d ne 2 s.dU3 dU4 dU4
      let dU4 := axpy3 d ne 2 s.dU2 dU4 dU4
      let dU4 := axpy3 d ne 1 s.dU1 dU4 dU4
      let Uhold := axpy3 d ne (1 / 6) dU4 s.Uhold s.Uhold
      beginStep .RK4 { s with dU4 := dU4, Uhold := Uhold, Uc := Uhold, stage := 0 }

/-- From the return of one exchange of face states to the next one, on rank `rank`: the residual, the
stage update, the face states of the new coefficients.  (After the very last residual of the run the
new face states are not needed and the code does not compute them.)  `sched k` is the order of the
flux assignments in residual evaluation number `k`. (base.cpp 401-561, stepper.cpp 17-142) -/
def solverRound (d : Disc K) (g : Geom K) {α : Type} (rm : RankMesh α) (rank : ℕ) (dt : K)
    (st : Stepper) (sched : ℕ → List (FluxWrite K) → List (FluxWrite K))
    (U : FaceArr (ℕ → ℕ → K)) (s : RankState K) :
    Option (FaceArr (ℕ → ℕ → K) × RankState K) := do
  let rF ← residual d g rm rank (sched s.evals) s.Uc U (fun _ _ _ => 0) s.Fe s.res
  let s := afterResidual d rm.numElemsPart dt g.iMM st { s with res := rF.1, Fe := rF.2 }
  let s := { s with evals := s.evals + 1 }
  let U ← faceStates d rm rank s.Uc (fun _ _ _ => 0) U
  some (U, s)

/-- The local computation of a rank between exchanges; an out-of-bounds access turns the state of
the rank into `none` for good. (base.cpp 401-561, stepper.cpp 17-142) -/
def solverComp (d : Disc K) (g : ℕ → Geom K) {α : Type} (rms : ℕ → RankMesh α) (dt : K)
    (st : Stepper) (sched : ℕ → ℕ → List (FluxWrite K) → List (FluxWrite K)) (r : ℕ)
    (x : FaceArr (ℕ → ℕ → K) × Option (RankState K)) :
    FaceArr (ℕ → ℕ → K) × Option (RankState K) :=
  match x.2 with
  | none => (x.1, none)
  | some s =>
    match solverRound d (g r) (rms r) r dt st (sched r) x.1 s with
    | some (U, s) => (U, some s)
    | none => (x.1, none)

/-- State of a rank when it calls its first exchange: `Uc0` are the initial coefficients; the solver
starts at time 0 (base.cpp 25); freshly resized views are zero (base.cpp 563-598, stepper.cpp 57-69). -/
def solverStart (d : Disc K) {α : Type} (rms : ℕ → RankMesh α) (st : Stepper)
    (Uc0 : ℕ → ℕ → ℕ → ℕ → K) (r : ℕ) : FaceArr (ℕ → ℕ → K) × Option (RankState K) :=
  let z : ℕ → ℕ → ℕ → K := fun _ _ _ => 0
  let s := beginStep st { Uc := Uc0 r, time := 0, Uhold := z, dU1 := z, dU2 := z, dU3 := z, dU4 := z,
                          res := z, Fe := z, stage := 0, evals := 0 }
  let U0 : FaceArr (ℕ → ℕ → K) := ⟨List.replicate (rms r).numIFacesPart (fun _ _ => 0),
    List.replicate (rms r).numIFacesPart (fun _ _ => 0)⟩
  match faceStates d (rms r) r s.Uc z U0 with
  | some U => (U, some s)
  | none => (U0, none)

/-- One `get_residual` call followed by the statements of `take_time_step` up to the next one
(stepper.cpp 29-52, 84-136), for an arbitrary residual function `R` of the time and coefficients
the solver holds; `evals` counts the calls. -/
def stageWith (d : Disc K) (ne : ℕ) (dt : K) (iMM : ℕ → ℕ → ℕ → K) (st : Stepper)
    (R : K → (ℕ → ℕ → ℕ → K) → ℕ → ℕ → ℕ → K) (s : RankState K) : RankState K :=
  afterResidual d ne dt iMM st { s with res := R s.time s.Uc, evals := s.evals + 1 }

/-- `FE::take_time_step` (stepper.cpp 23-55) and `RK4::take_time_step` (71-142) as a whole. -/
def takeTimeStep (d : Disc K) (ne : ℕ) (dt : K) (iMM : ℕ → ℕ → ℕ → K) (st : Stepper)
    (R : K → (ℕ → ℕ → ℕ → K) → ℕ → ℕ → ℕ → K) (s : RankState K) : RankState K :=
  match st with
  | .FE => stageWith d ne dt iMM .FE R (beginStep .FE s)
  | .RK4 => stageWith d ne dt iMM .RK4 R (stageWith d ne dt iMM .RK4 R (stageWith d ne dt iMM .RK4 R
      (stageWith d ne dt iMM .RK4 R (beginStep .RK4 s))))

/-- The time loop of `Solver::solve`, base.cpp 387-393. -/
def timeLoop (d : Disc K) (ne : ℕ) (dt : K) (iMM : ℕ → ℕ → ℕ → K) (st : Stepper)
    (R : K → (ℕ → ℕ → ℕ → K) → ℕ → ℕ → ℕ → K) (niter : ℕ) (s : RankState K) : RankState K :=
  (List.range niter).foldl (fun s _ => takeTimeStep d ne dt iMM st R s) s

/-- Residual evaluations of one time step. (stepper.cpp 17-55, 57-142) -/
def stagesOf : Stepper → ℕ
  | .FE => 1
  | .RK4 => 4

/-- The program run by all ranks for `nsteps` time steps: one exchange per residual evaluation
(base.cpp 377-399 with stepper.cpp). -/
def solverProg (d : Disc K) (g : ℕ → Geom K) {α : Type} (rms : ℕ → RankMesh α) (nranks : ℕ)
    (dt : K) (st : Stepper) (sched : ℕ → ℕ → List (FluxWrite K) → List (FluxWrite K))
    (nsteps : ℕ) :
    Proto.Prog (FaceArr (ℕ → ℕ → K) × Option (RankState K)) (List (ℕ → ℕ → K)) :=
  exchangeProg rms nranks (stagesOf st * nsteps) (solverComp d g rms dt st sched)

/-- `Solver::solve`, base.cpp 382: `const unsigned num_iterations = (int)(tfinal / dt)` for an exact
quotient `q`: conversion to `int` truncates towards zero and is undefined outside of the range of
`int` (`none`); conversion to `unsigned` is modulo `2^32`. -/
noncomputable def numIterations (q : ℝ) : Option ℕ :=
  let z : ℤ := if 0 ≤ q then ⌊q⌋ else ⌈q⌉
  if -2 ^ 31 ≤ z ∧ z < 2 ^ 31 then some (z % 2 ^ 32).toNat else none

end DG
