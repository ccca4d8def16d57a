import Verif.Model.SetupKernels
import Verif.Model.Post

/-!
The kernels of the post-processor at the level of threads: "total volume" (`get_total_volume`,
src/mesh/tools.cpp 41-51), "eval state" (`evaluate_state`, src/solver/helpers.cpp 185-198), the kernel that
computes the error of an element (src/post/main.cpp 117-169) and "sum element errors" (174-180).  Threads, loops
over a `TeamThreadRange` and KokkosBatched as in Model/SetupKernels.lean.

The vector length of the teams is 1 (`TeamPolicy<>(n, Kokkos::AUTO)`), so that a loop over a `ThreadVectorRange` is
the work of one thread.  `Kokkos::parallel_reduce` over a range (external): every thread adds up its iterations, and
when all threads are through, one of them combines the partial sums into the variable of the caller.
-/
namespace DG.Dev

variable {K : Type} [Field K]

/-- "eval state", helpers.cpp 187-196, with the `TeamGemm` of `Math::cAxB_to_C` -/
def stateKernel {nt : ℕ} (D : ℕ → ℕ → Fin nt) (ne nq nb ns : ℕ) (val : ℕ → ℕ → K) :
    Kernel SCell K (Fin ne) (Fin nt) where
  nph := 2
  code e p j := match p with
    | 0 => teamFor (D 0) (nq * ns) j (clearEntry .Uq e ns)
    | 1 => teamFor (D 1) (nq * ns) j fun i =>
        addProduct nb (fun p => pure (val (i / ns) p)) (fun p => Code.read ⟨.Uc, e, p, i % ns, 0⟩)
          ⟨.Uq, e, i / ns, i % ns, 0⟩
    | _ => pure ()

/-- the error of variable `is` in element `e`, post/main.cpp 158-167 -/
def errorCode (e nq ord : ℕ) (w : ℕ → K) (is : ℕ) : Code SCell K Unit := do
  let s ← Code.foldN 0 nq fun acc iq => do
    let u ← Code.read ⟨.Uq, e, iq, is, 0⟩
    let x ← Code.read ⟨.f, e, iq, is, 0⟩
    let d ← Code.read ⟨.djacS, e, iq, 0, 0⟩
    pure (acc + (u - x) ^ ord * w iq * d)
  Code.write ⟨.err, e, is, 0, 0⟩ s

/-- the kernel of `get_error`, post/main.cpp 117-169; `exact x` is what `call_exact_solution` stores for the
point `x` at the time of the solution -/
def errorKernel {nt : ℕ} (D : ℕ → ℕ → Fin nt) (ne dim nn gnb nq ns ord : ℕ) (w : ℕ → K) (gval : ℕ → ℕ → K)
    (ggrad : ℕ → ℕ → ℕ → K) (exact : (ℕ → K) → ℕ → K) (X : ℕ → ℕ → ℕ → K) : Kernel SCell K (Fin ne) (Fin nt) where
  nph := 4
  code e p j := match p with
    | 0 => rankZero j do
        coordsCode e nn dim (X e)
        physCode .xphys e nq dim gnb gval
    | 1 => teamFor (D 0) nq j fun iq => do
        let x ← loadRow dim fun d => ⟨.xphys, e, iq, d, 0⟩
        Code.forN ns fun is => Code.write ⟨.f, e, iq, is, 0⟩ (exact x is)
    | 2 => teamFor (D 1) nq j fun iq => djacCode .jacS .djacS e dim nn iq (ggrad iq)
    | 3 => teamFor (D 2) ns j (errorCode e nq ord w)
    | _ => pure ()

/-- `parallel_reduce` over the range `n`: the sum of the cells `cell i`, stored in `dst` (mesh/tools.cpp 42, post/main.cpp 178) -/
def sumKernel {nt : ℕ} (d : ℕ → Fin nt) (n : ℕ) (cell : ℕ → SCell) (dst : SCell) :
    Kernel SCell K (Fin 1) (Fin nt) where
  nph := 2
  code _ p j := match p with
    | 0 => do
        let s ← Code.foldN 0 n fun acc i =>
          if d i = j then do
            let v ← Code.read (cell i)
            pure (acc + v)
          else pure acc
        Code.write ⟨.part, 0, j, 0, 0⟩ s
    | 1 => rankZero j do
        let s ← Code.foldN 0 nt fun acc l => do
          let v ← Code.read ⟨.part, 0, l, 0, 0⟩
          pure (acc + v)
        Code.write dst s
    | _ => pure ()

/-- "total volume", mesh/tools.cpp 45-47 -/
def totalVolumeKernel {nt : ℕ} (d : ℕ → Fin nt) (ne : ℕ) : Kernel SCell K (Fin 1) (Fin nt) :=
  sumKernel d ne (fun e => ⟨.vol, e, 0, 0, 0⟩) ⟨.totVol, 0, 0, 0, 0⟩

/-- "sum element errors" for variable `is`, post/main.cpp 176-179 -/
def totalErrorKernel {nt : ℕ} (d : ℕ → Fin nt) (ne is : ℕ) : Kernel SCell K (Fin 1) (Fin nt) :=
  sumKernel d ne (fun e => ⟨.err, e, is, 0, 0⟩) ⟨.total, 0, is, 0, 0⟩

/-- something that happens when a kernel is launched (post/main.cpp 117, 178) -/
abbrev SLaunch (K : Type) : Type :=
  ∀ {ne nt : ℕ}, Kernel SCell K (Fin ne) (Fin nt) → (SCell → K) → (SCell → K) → Prop

/-- views that live longer than one kernel; the rest is scratch memory and memory of `parallel_reduce` (post/main.cpp 48-180) -/
def SView.lasting : SView → Bool
  | .x | .djac | .ijac | .vol | .iMM | .Uc | .Uq | .err | .total | .totVol => true
  | _ => false

/-- a kernel launched with new scratch memory (post/main.cpp 117, 178) -/
def launch (run : SLaunch K) {ne nt : ℕ} (k : Kernel SCell K (Fin ne) (Fin nt)) (m m' : SCell → K) : Prop :=
  ∃ m1, (∀ c, c.view.lasting = true → m1 c = m c) ∧ run k m1 m'

/-- the loop over the variables, post/main.cpp 175-180 (the number of iterations is `n`) -/
def errorSums (run : SLaunch K) {nt : ℕ → ℕ} (D : ∀ k, ℕ → ℕ → Fin (nt k)) (ne : ℕ) :
    ℕ → (SCell → K) → (SCell → K) → Prop
  | 0, m, m' => m' = m
  | n + 1, m, m' => ∃ m1, errorSums run D ne n m m1 ∧ launch run (totalErrorKernel (D (n + 3) 0) ne n) m1 m'

/-- `get_error` on one rank up to the allreduces, post/main.cpp 48-180, with `normalize_by_volume`: the kernels in
the order they are launched.  Kernel `k` has teams of `nt k` threads, `D k` distributes its loops. -/
def rankErrors (run : SLaunch K) {nt : ℕ → ℕ} (D : ∀ k, ℕ → ℕ → Fin (nt k)) (t gt : BasisType)
    (p gorder ns ord : ℕ) (exact : (ℕ → K) → ℕ → K) (rm : RankMesh K) :
    Option ((SCell → K) → (SCell → K) → Prop) := do
  let sh ← basisShape t
  let gsh ← basisShape gt
  let nb ← shapeNumBasis sh.1 p
  let gnb ← shapeNumBasis gsh.1 gorder
  let ref ← volRef (K := K) t gt p gorder (2 * max p 1)
  some fun m m' => ∃ m1 m2 m3,
    launch run (totalVolumeKernel (D 0 0) rm.numElemsPart) m m1 ∧
    launch run (stateKernel (D 1) rm.numElemsPart ref.nq nb ns ref.val) m1 m2 ∧
    launch run (errorKernel (D 2) rm.numElemsPart (shapeDim sh.1) (shapeNodes sh.1 gorder) gnb ref.nq ns ord ref.wts
      (fun q => get0 (ref.gval q)) ref.ggrad exact (elemCoords rm)) m2 m3 ∧
    errorSums run D rm.numElemsPart ns m3 m'

/-- What happens on a rank of the post-processor after the input is read, post/main.cpp 236-250: the kernel for the volume data is run,
ending with memory `m1`; the coefficients of the file are stored (memory `m`); the kernels of `get_error` are run,
ending with memory `m'`.  Each launch has its own number of threads per team and distribution of loops. -/
structure PostExec (job : Job) (un : Unset) (dim : ℕ) (q : PostRank) (m0 m1 m m' : SCell → ℝ) : Prop where
  volume : ∃ (n : ℕ) (D : ℕ → ℕ → Fin n) (k : _), 0 < n ∧
    volumeLaunch D job.num.basis job.num.gbasis job.num.order 1 q.rm = some k ∧ k.Ends m0 m1
  vol : ∀ e, m ⟨.vol, e, 0, 0, 0⟩ = m1 ⟨.vol, e, 0, 0, 0⟩
  coeffs : ∀ e < q.rm.numElemsPart, ∀ b < job.disc.nb, ∀ s < dim + 2, m ⟨.Uc, e, b, s, 0⟩ = q.uc e b s
  errors : ∃ (nt : ℕ → ℕ) (D : ∀ k, ℕ → ℕ → Fin (nt k)) (run : _), (∀ k, 0 < nt k) ∧
    rankErrors (fun k => k.Ends) D job.num.basis job.num.gbasis job.num.order 1 (dim + 2) 2
      (solverExact dim job.sol.physics un.ic q.time) q.rm = some run ∧ run m m'

/-- what is printed for variable `s`, post/main.cpp 183-199, when the kernels on the ranks have ended -/
noncomputable def printedNorm (nranks : ℕ) (m' : ℕ → SCell → ℝ) (s : ℕ) : ℝ :=
  (allreduceSum nranks (fun r => m' r ⟨.total, 0, s, 0, 0⟩) / allreduceSum nranks (fun r => m' r ⟨.totVol, 0, 0, 0, 0⟩)) ^
    ((1 : ℝ) / ((2 : ℕ) : ℝ))

end DG.Dev
