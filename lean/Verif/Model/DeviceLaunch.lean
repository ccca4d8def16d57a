import Verif.Model.SetupKernels
import Verif.Model.NormalKernels
import Verif.Model.DeviceRun

/-!
The setup of a rank down to its threads: the constructor of the solver (src/solver/base.cpp 20-67) and
`precompute_matrix_helpers` (70-111) launch the kernels of `Model/SetupKernels.lean` and
`Model/NormalKernels.lean` one after the other; what they leave in memory is what the time loop reads.
-/
namespace DG.Dev

variable {K : Type} [Zero K] [One K] [Add K] [Sub K] [Mul K] [Neg K] [Div K] [NatCast K] [DecLit K]
  [DecidableEq K]

/-- The kernels a rank launches before `solve`: inverse mass matrices (helpers.cpp 53-100; the view is freshly
allocated, hence zero, base.cpp 100), volume data (helpers.cpp 4-51), normals (380-500), initial state (base.cpp
114-223), each with its own number of threads per team and its own schedule, the normals with one thread per
team.  `mem`, `nor`: views and normals at the end.  Between two kernels the views that do not carry a result
over may change (`resize` and fresh scratch memory). -/
structure SetupRun (t gt : BasisType) (p gorder ns rank : ℕ) (ic : (ℕ → K) → ℕ → K) (rm : RankMesh K)
    (mem : SCell → K) (nor : NCell → K) where
  n1 : ℕ
  n2 : ℕ
  n3 : ℕ
  D1 : ℕ → ℕ → Fin n1
  D2 : ℕ → ℕ → Fin n2
  D3 : ℕ → ℕ → Fin n3
  k1 : Kernel SCell K (Fin rm.numElemsPart) (Fin n1)
  k2 : Kernel SCell K (Fin rm.numElemsPart) (Fin n2)
  k3 : Kernel SCell K (Fin rm.numElemsPart) (Fin n3)
  sh : ShapeType × Option ShapeType
  fr : FaceRef K
  m0 : SCell → K
  m1 : SCell → K
  m1' : SCell → K
  m2 : SCell → K
  m2' : SCell → K
  nm0 : NCell → K
  pos1 : 0 < n1
  pos2 : 0 < n2
  pos3 : 0 < n3
  mass : massLaunch D1 t gt p gorder rm = some k1
  volume : volumeLaunch D2 t gt p gorder rm = some k2
  init : initLaunch D3 t gt p gorder ns ic rm = some k3
  shape : basisShape t = some sh
  face : faceRef t p = some fr
  zeroed : ∀ e < rm.numElemsPart, ∀ i j, m0 ⟨.iMM, e, i, j, 0⟩ = 0
  massEnds : k1.Ends m0 m1
  keep1 : ∀ e i j, m1' ⟨.iMM, e, i, j, 0⟩ = m1 ⟨.iMM, e, i, j, 0⟩
  volumeEnds : k2.Ends m1' m2
  normalsEnds : (normalsLaunch sh.1 gorder rank 1 rm fr.pts).Ends nm0 nor
  keep2 : ∀ v e i j k, v = .iMM ∨ v = .djac ∨ v = .ijac ∨ v = .x ∨ v = .vol →
      m2' ⟨v, e, i, j, k⟩ = m2 ⟨v, e, i, j, k⟩
  initEnds : k3.Ends m2' mem

/-- the views of the setup as the kernels of the time loop read them
(the views of solver/helpers.h 58-65 and `normals`, used in solver/base.cpp 448-467 and 545-560) -/
def readGeom (mem : SCell → K) (nor : NCell → K) : Geom K where
  djac e q := mem ⟨.djac, e, q, 0, 0⟩
  ijac e q i j := mem ⟨.ijac, e, q, i, j⟩
  iMM e i j := mem ⟨.iMM, e, i, j, 0⟩
  normals i q j := nor (.normal i q j)

/-- `Uc` after `init_state_from_fcn` (solver/base.cpp 114-223) -/
def readCoeffs (mem : SCell → K) : ℕ → ℕ → ℕ → K := fun e b s => mem ⟨.Uc, e, b, s, 0⟩

end DG.Dev
