import Verif.Spec.MachineCase
import Verif.Model.DeviceLaunch

/-!
Vocabulary of C84 at the level of threads.
-/
namespace DG.Dev

/-- The Euler case with heat ratio `γ'`, numerical flux `f` and initial condition `ic'` has been launched on the computer `A`
with the mesh file `m'`: `nranks` ranks have partitioned the mesh, built the scheme `D`, and every rank has run the kernels of
its setup - with any numbers of threads, except that the kernel of the normals has one thread per face, and any interleavings,
on whatever its memory held.  `mem r`, `nor r`: the views of rank `r` afterwards. -/
def ThreadLaunch (A : Arith) (t gt : BasisType) (p dim : ℕ) (f : NumericalFluxType) (γ' : A.K) (ic' : (ℕ → A.K) → ℕ → A.K)
    (m' : GMesh A.K) (nranks : ℕ) (part : List ℕ) (rms : ℕ → RankMesh A.K) (D : Disc A.K)
    (mem : ℕ → SCell → A.K) (nor : ℕ → NCell → A.K) : Prop :=
  World m' nranks part rms ∧
  (∃ junk junk' : ℕ → A.K,
    buildDisc t gt p 1 (dim + 2) (fun U => Fl.convFlux dim γ' U junk') (machineNumFlux f dim γ' junk) = some D) ∧
  ∀ r < nranks, Nonempty (SetupRun t gt p 1 (dim + 2) r ic' (rms r) (mem r) (nor r))

end DG.Dev
