import Verif.Model.Device
import Verif.Model.Setup

/-!
The kernels of the setup at the level of threads: "iMM_helper" (`compute_inv_mass_matrices`,
src/solver/helpers.cpp 54-100), "volume helpers" (`compute_volume_helpers`, 7-52) and "init state"
(`init_state_from_fcn`, src/solver/base.cpp 171-222).

One team per element, `nt` threads per team (`Kokkos::AUTO`: any number).  A loop over a `TeamThreadRange` is
distributed over the threads of the team in an arbitrary way, `d i` is the thread that gets iteration `i`; each
thread works through its iterations in increasing order.  Code that is neither in such a loop nor guarded by
`team_rank() == 0` is run by every thread.

KokkosBatched (external, source not in the repository): `TeamGemm` clears its output, waits at a barrier and
adds the products, entries distributed over the threads; `TeamCopy` distributes the entries.  `TeamLU` (with a
barrier at its end) and `TeamSolveLU` are taken as the work of one thread: the arguments are loaded and the
results of `serialLU`, `serialSolveLU` (Model/LinAlg.lean) stored.  The serial functions (`SerialGemm`, `Math::det`,
`Math::invA`) work on cells no other thread uses; the stores of intermediate results are left out.
`Kokkos::parallel_reduce` over a `TeamThreadRange` (external): every thread adds up its iterations, the partial
sums are combined after a barrier, and every thread stores the total.

Simplification: reference tables, mesh connectivity and node coordinates are constants; the scratch memory
of a team is a part of the memory indexed by the element; `dim` is 1, 2 or 3.
-/
namespace DG.Dev

/-- views and scratch views written by the kernels of the setup; `slot` are the partial sums of
`parallel_reduce`; `jacS`, `djacS` are the scratch views of "init state"; of the post-processor: `Uq`, `err`
(`error_elem`), `part` (memory of a `parallel_reduce` over the elements), `total` (`error_per_rank`) and
`totVol` (`tot_vol_part`) (helpers.h 58-65, helpers.cpp 15-30, 74-82, base.cpp 173-195, post/main.cpp 101-136) -/
inductive SView where
  | coords | x | jac | djac | ijac | slot | vol | scr | MM | iMM | xphys | f | jacS | djacS | rhs | Uc
  | Uq | err | part | total | totVol
deriving DecidableEq

/-- entry `(i, j, k)` of the part of a view that belongs to element `e`
(helpers.h 58-65, helpers.cpp 15-30, 74-82, base.cpp 173-195, post/main.cpp 101-136) -/
structure SCell where
  view : SView
  e : ℕ
  i : ℕ := 0
  j : ℕ := 0
  k : ℕ := 0
deriving DecidableEq

variable {K : Type} [Zero K] [One K] [Add K] [Sub K] [Mul K] [Neg K] [Div K] [NatCast K]

/-- `parallel_for(TeamThreadRange(member, n), body)`, the part of thread `j` (base.cpp 202, solver/tools.cpp 81, post/main.cpp 148, 161) -/
def teamFor {nt : ℕ} (d : ℕ → Fin nt) (n : ℕ) (j : Fin nt) (body : ℕ → Code SCell K Unit) : Code SCell K Unit :=
  Code.forN n fun i => Code.cond (d i = j) (body i)

/-- `if (member.team_rank() == 0) body` (e.g. base.cpp 193-199, post/main.cpp 140-145) -/
def rankZero {nt : ℕ} (j : Fin nt) (body : Code SCell K Unit) : Code SCell K Unit :=
  Code.cond (j.1 = 0) body

/-- a row of a view loaded into a local array (the arguments of base.cpp 202-206, post/main.cpp 149-150) -/
def loadRow (n : ℕ) (cell : ℕ → SCell) : Code SCell K (ℕ → K) :=
  Code.foldN (fun _ => 0) n fun a i => do
    let v ← Code.read (cell i)
    pure fun i' => if i' = i then v else a i'

/-- a matrix loaded entry by entry (the arguments of linear_algebra.cpp 127-129, 171-173) -/
def loadMat (r c : ℕ) (cell : ℕ → ℕ → SCell) : Code SCell K (ℕ → ℕ → K) :=
  Code.foldN (fun _ _ => 0) r fun a i => do
    let v ← loadRow c (cell i)
    pure fun i' => if i' = i then v else a i'

/-- a matrix stored entry by entry (the results of linear_algebra.cpp 127-129, 171-173) -/
def storeMat (r c : ℕ) (cell : ℕ → ℕ → SCell) (A : ℕ → ℕ → K) : Code SCell K Unit :=
  Code.forN r fun i => Code.forN c fun j => Code.write (cell i j) (A i j)

/-- `sum_p (1 * a(p)) * b(p)` in a register (inner loop of linear_algebra.cpp 181-239) -/
def dotCode (n : ℕ) (a b : ℕ → Code SCell K K) : Code SCell K K :=
  Code.foldN 0 n fun acc p => do
    let x ← a p
    let y ← b p
    pure (acc + (1 * x) * y)

/-- `SerialGemm` with `beta = 0`, `alpha = 1` (linear_algebra.cpp 181, 197, 214, 232) -/
def serialProduct (r c n : ℕ) (a b : ℕ → ℕ → Code SCell K K) (dst : ℕ → ℕ → SCell) : Code SCell K Unit :=
  Code.forN r fun i => Code.forN c fun j => do
    let acc ← dotCode n (a i) fun p => b p j
    Code.write (dst i j) (0 + acc)

/-- one entry of the second half of a `TeamGemm` (linear_algebra.cpp 189, 207, 224, 239) -/
def addProduct (n : ℕ) (a b : ℕ → Code SCell K K) (dst : SCell) : Code SCell K Unit := do
  let acc ← dotCode n a b
  let old ← Code.read dst
  Code.write dst (old + acc)

/-- `MeshTools::elem_coords_from_elem_ID`, mesh/tools.cpp 7-17; `X` are the coordinates of the nodes of the
element -/
def coordsCode (e nn dim : ℕ) (X : ℕ → ℕ → K) : Code SCell K Unit :=
  storeMat nn dim (fun i d => ⟨.coords, e, i, d, 0⟩) X

/-- `MeshTools::ref_to_phys`, mesh/tools.cpp 19-26, for all points; `gnb` is the extent of a row of `gbasis_val` -/
def physCode (v : SView) (e nq dim gnb : ℕ) (gval : ℕ → ℕ → K) : Code SCell K Unit :=
  serialProduct nq dim gnb (fun iq p => pure (gval iq p)) (fun p d => Code.read ⟨.coords, e, p, d, 0⟩)
    fun iq d => ⟨v, e, iq, d, 0⟩

/-- `Math::cATxB_to_C` and `Math::det` at point `iq`, basis/tools.cpp 55-56 and 80-81 -/
def djacCode (vj vd : SView) (e dim nn iq : ℕ) (grad : ℕ → ℕ → K) : Code SCell K Unit := do
  serialProduct dim dim nn (fun i p => Code.read ⟨.coords, e, p, i, 0⟩) (fun p j => pure (grad p j))
    fun i j => ⟨vj, e, iq, i, j⟩
  let A ← loadMat dim dim fun i j => ⟨vj, e, iq, i, j⟩
  Code.write ⟨vd, e, iq, 0, 0⟩ (detTo dim A 0)

/-- body of `BasisTools::get_element_jacobian`, basis/tools.cpp 49-62 (the message printed for a
non-positive determinant is left out) -/
def jacobianCode (e dim nn iq : ℕ) (grad : ℕ → ℕ → K) : Code SCell K Unit := do
  djacCode .jac .djac e dim nn iq grad
  let A ← loadMat dim dim fun i j => ⟨.jac, e, iq, i, j⟩
  storeMat dim dim (fun i j => ⟨.ijac, e, iq, i, j⟩) (invA dim A fun _ _ => 0)

/-- the row `iq` of a view times `quad_wts(iq) * djac(iq)`, basis/tools.cpp 99-102 and solver/tools.cpp 81-84 -/
def scaleRowCode (v vd : SView) (e n iq : ℕ) (w : K) : Code SCell K Unit := do
  let d ← Code.read ⟨vd, e, iq, 0, 0⟩
  Code.forN n fun i => do
    let a ← Code.read ⟨v, e, iq, i, 0⟩
    Code.write ⟨v, e, iq, i, 0⟩ (w * d * a)

/-- first half of a `TeamGemm` with an `r x c` output: iteration `i` (linear_algebra.cpp 189, 207, 224, 239) -/
def clearEntry (v : SView) (e c i : ℕ) : Code SCell K Unit := Code.write ⟨v, e, i / c, i % c, 0⟩ 0

/-- "iMM_helper", helpers.cpp 71-99 with `BasisTools::get_inv_mass_matrices`, basis/tools.cpp 85-110, and the
team version of `Math::invA`, linear_algebra.cpp 134-176.  Tables: weights `w`, basis values `val`, gradients of
the geometric basis `ggrad`; `X e` are the node coordinates of element `e`. -/
def massKernel {nt : ℕ} (D : ℕ → ℕ → Fin nt) (ne dim nn nq nb : ℕ) (w : ℕ → K) (val : ℕ → ℕ → K)
    (ggrad : ℕ → ℕ → ℕ → K) (X : ℕ → ℕ → ℕ → K) : Kernel SCell K (Fin ne) (Fin nt) where
  nph := 8
  code e p j := match p with
    | 0 => rankZero j (coordsCode e nn dim (X e))
    | 1 => teamFor (D 0) nq j fun iq => jacobianCode e dim nn iq (ggrad iq)
    | 2 => teamFor (D 1) (nq * nb) j fun i => Code.write ⟨.scr, e, i / nb, i % nb, 0⟩ (val (i / nb) (i % nb))
    | 3 => teamFor (D 2) nq j fun iq => scaleRowCode .scr .djac e nb iq (w iq)
    | 4 => teamFor (D 3) (nb * nb) j (clearEntry .MM e nb)
    | 5 => teamFor (D 4) (nb * nb) j fun i =>
        addProduct nq (fun p => pure (val p (i / nb))) (fun p => Code.read ⟨.scr, e, p, i % nb, 0⟩)
          ⟨.MM, e, i / nb, i % nb, 0⟩
    | 6 =>
      if nb ≤ 3 then do
        let A ← loadMat nb nb fun a b => ⟨.MM, e, a, b, 0⟩
        storeMat nb nb (fun a b => ⟨.iMM, e, a, b, 0⟩) (invA nb A fun _ _ => 0)
      else do -- `identity(imat)`, linear_algebra.cpp 43-51, by every thread, and `TeamLU`
        Code.forN nb fun a => Code.forN nb fun b => Code.cond (a = b) (Code.write ⟨.iMM, e, a, b, 0⟩ 1)
        rankZero j do
          let A ← loadMat nb nb fun a b => ⟨.MM, e, a, b, 0⟩
          storeMat nb nb (fun a b => ⟨.MM, e, a, b, 0⟩) (serialLU nb A)
    | 7 => -- `TeamSolveLU`
      Code.cond (4 ≤ nb) <| rankZero j do
        let A ← loadMat nb nb fun a b => ⟨.MM, e, a, b, 0⟩
        let B ← loadMat nb nb fun a b => ⟨.iMM, e, a, b, 0⟩
        storeMat nb nb (fun a b => ⟨.iMM, e, a, b, 0⟩) (serialSolveLU nb A B)
    | _ => pure ()

/-- "volume helpers", helpers.cpp 12-49, with `get_element_volume`, mesh/tools.cpp 28-38 -/
def volumeKernel {nt : ℕ} (D : ℕ → ℕ → Fin nt) (ne dim nn gnb nq : ℕ) (w : ℕ → K) (gval : ℕ → ℕ → K)
    (ggrad : ℕ → ℕ → ℕ → K) (X : ℕ → ℕ → ℕ → K) : Kernel SCell K (Fin ne) (Fin nt) where
  nph := 4
  code e p j := match p with
    | 0 => rankZero j do
        coordsCode e nn dim (X e)
        physCode .x e nq dim gnb gval
    | 1 => teamFor (D 0) nq j fun iq => jacobianCode e dim nn iq (ggrad iq)
    | 2 => do
        let s ← Code.foldN 0 nq fun acc iq =>
          if D 1 iq = j then do
            let d ← Code.read ⟨.djac, e, iq, 0, 0⟩
            pure (acc + w iq * d)
          else pure acc
        Code.write ⟨.slot, e, j, 0, 0⟩ s
    | 3 => do
        let s ← Code.foldN 0 nt fun acc l => do
          let v ← Code.read ⟨.slot, e, l, 0, 0⟩
          pure (acc + v)
        Code.write ⟨.vol, e, 0, 0, 0⟩ s
    | _ => pure ()

/-- "init state", base.cpp 171-222, with `L2_projection`, solver/tools.cpp 66-122; `ic x` is what `call_IC`
stores for the point `x` at the initial time; `iMM_elems` is read from memory. -/
def initKernel {nt : ℕ} (D : ℕ → ℕ → Fin nt) (ne dim nn gnb nq nb ns : ℕ) (w : ℕ → K) (val gval : ℕ → ℕ → K)
    (ggrad : ℕ → ℕ → ℕ → K) (ic : (ℕ → K) → ℕ → K) (X : ℕ → ℕ → ℕ → K) : Kernel SCell K (Fin ne) (Fin nt) where
  nph := 8
  code e p j := match p with
    | 0 => rankZero j do
        coordsCode e nn dim (X e)
        physCode .xphys e nq dim gnb gval
    | 1 => teamFor (D 0) nq j fun iq => do
        let x ← loadRow dim fun d => ⟨.xphys, e, iq, d, 0⟩
        Code.forN ns fun is => Code.write ⟨.f, e, iq, is, 0⟩ (ic x is)
    | 2 => teamFor (D 1) nq j fun iq => djacCode .jacS .djacS e dim nn iq (ggrad iq)
    | 3 => teamFor (D 2) nq j fun iq => scaleRowCode .f .djacS e ns iq (w iq)
    | 4 => teamFor (D 3) (nb * ns) j (clearEntry .rhs e ns)
    | 5 => teamFor (D 4) (nb * ns) j fun i =>
        addProduct nq (fun p => pure (val p (i / ns))) (fun p => Code.read ⟨.f, e, p, i % ns, 0⟩)
          ⟨.rhs, e, i / ns, i % ns, 0⟩
    | 6 => teamFor (D 5) (nb * ns) j (clearEntry .Uc e ns)
    | 7 => teamFor (D 6) (nb * ns) j fun i =>
        addProduct nb (fun p => Code.read ⟨.iMM, e, i / ns, p, 0⟩) (fun p => Code.read ⟨.rhs, e, p, i % ns, 0⟩)
          ⟨.Uc, e, i / ns, i % ns, 0⟩
    | _ => pure ()

variable [DecLit K]

/-- the launch of "iMM_helper" on a rank: `compute_inv_mass_matrices`, helpers.cpp 54-100 (the rule of order `2 p`) -/
def massLaunch {nt : ℕ} (D : ℕ → ℕ → Fin nt) (t gt : BasisType) (p gorder : ℕ) (rm : RankMesh K) :
    Option (Kernel SCell K (Fin rm.numElemsPart) (Fin nt)) := do
  let sh ← basisShape t
  let nb ← shapeNumBasis sh.1 p
  let ref ← volRef (K := K) t gt p gorder (massRuleOrder p)
  some (massKernel D rm.numElemsPart (shapeDim sh.1) (shapeNodes sh.1 gorder) ref.nq nb ref.wts ref.val ref.ggrad
    (elemCoords rm))

/-- the launch of "volume helpers" on a rank: `compute_volume_helpers`, helpers.cpp 7-52 (the rule of order `p`) -/
def volumeLaunch {nt : ℕ} (D : ℕ → ℕ → Fin nt) (t gt : BasisType) (p gorder : ℕ) (rm : RankMesh K) :
    Option (Kernel SCell K (Fin rm.numElemsPart) (Fin nt)) := do
  let sh ← basisShape t
  let gsh ← basisShape gt
  let gnb ← shapeNumBasis gsh.1 gorder
  let ref ← volRef (K := K) t gt p gorder p
  some (volumeKernel D rm.numElemsPart (shapeDim sh.1) (shapeNodes sh.1 gorder) gnb ref.nq ref.wts
    (fun q => get0 (ref.gval q)) ref.ggrad (elemCoords rm))

/-- the launch of "init state" on a rank: `init_state_from_fcn`, base.cpp 114-223 -/
def initLaunch {nt : ℕ} (D : ℕ → ℕ → Fin nt) (t gt : BasisType) (p gorder ns : ℕ) (ic : (ℕ → K) → ℕ → K)
    (rm : RankMesh K) : Option (Kernel SCell K (Fin rm.numElemsPart) (Fin nt)) := do
  let sh ← basisShape t
  let gsh ← basisShape gt
  let nb ← shapeNumBasis sh.1 p
  let gnb ← shapeNumBasis gsh.1 gorder
  let ref ← volRef (K := K) t gt p gorder (projRuleOrder p)
  some (initKernel D rm.numElemsPart (shapeDim sh.1) (shapeNodes sh.1 gorder) gnb ref.nq nb ns ref.wts ref.val
    (fun q => get0 (ref.gval q)) ref.ggrad ic (elemCoords rm))

end DG.Dev
