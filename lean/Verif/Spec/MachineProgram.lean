import Verif.Model.MachineThreads
import Verif.Spec.MachineMain

/-!
Vocabulary of C87: the solver executable on a computer down to its threads.
-/
namespace DG.Dev

/-- What the program does with its input files on a computer, whatever the interleavings of its ranks and of the threads of each of
its kernels (`ProgramOutcome` says the same for sequential loops):
* it takes the last number of steps that does not pass the final time, up to roundoff;
* every rank finishes the kernels of its setup with any number of threads, on memory with any contents;
* no rank fails in the time loop, and every execution can be continued to its end;
* then the ranks can write the solution file, and it converts to the solution file of the mesh with a clock and coefficients
  that are finite numbers near the exact ones;
* read back on as many ranks, the file gives every rank the coefficients of its elements, to the last bit. -/
def ThreadOutcome (A : Arith) (C : ℝ) (toInt : A.K → Option ℤ) (deck : Fl.Deck A.K) (fs : String → List String → Option (MeshFile A.K))
    (un : Fl.Unset A.K) (dim nb nranks : ℕ) (m' : GMesh A.K) (env : ℕ → RankEnv A.K) (ord : ℕ → List ℕ) (dt tend : A.K)
    (run : ℕ → Coeffs ℝ) (y : ℝ → Coeffs ℝ) : Prop :=
  Fl.mainDim deck = some (some dim) ∧ ∃ job, Fl.readJob toInt deck fs un dim nranks = some job ∧
    job.nsteps * A.val dt ≤ A.val tend + C * A.u ∧ A.val tend - A.val dt - C * A.u ≤ job.nsteps * A.val dt ∧
    (∀ r < nranks, ∃ rm, threadMesh job nranks (env r) r = some rm ∧ ∀ n > 0, ∀ m0 nm0, (∀ e i j, m0 ⟨.iMM, e, i, j, 0⟩ = 0) →
      ∃ mem nor, ∃ S : JobSetup job un dim r rm mem nor, S.n1 = n ∧ S.n2 = n ∧ S.n3 = n ∧ S.m0 = m0 ∧ S.nm0 = nm0) ∧
    ∀ rms : ℕ → RankMesh A.K, (∀ r < nranks, threadMesh job nranks (env r) r = some (rms r)) →
    ∀ mem nor, (∀ r < nranks, Nonempty (JobSetup job un dim r (rms r) (mem r) (nor r))) →
    (∃ x, JobKernels job rms mem nor x) ∧ ∀ x, JobKernels job rms mem nor x →
    ∀ c k, Proto.Exec (threadProg job rms nranks x) (threadInit x mem) c k →
      (∀ r < nranks, (c.proc r).phase ≠ .failed) ∧
      (∃ c' k', Proto.Exec (threadProg job rms nranks x) c c' k' ∧ ThreadsDone job nranks c') ∧
      (ThreadsDone job nranks c → ∃ f time V, threadFile job rms dim nranks ord c = some f ∧
        convert nranks f = some (serialFile m' dim nb (dim + 2) time V) ∧
        A.fin time ∧ |A.val time - job.nsteps * A.val dt| ≤ C * (A.u / A.val dt) ∧
        (∀ e < m'.numElems, ∀ b < nb, ∀ v < dim + 2, A.fin (V e b v) ∧
          |A.val (V e b v) - run job.nsteps e b v| ≤ C * (A.u / A.val dt) ∧
          |A.val (V e b v) - y (A.val tend) e b v| ≤ C * (A.val dt + A.u / A.val dt)) ∧
        ∀ r < nranks, ∃ s, readInCoefficients nranks f r newSolver = some s ∧ s.time = 0 ∧
          ∀ i e : ℕ, (rms r).l2gElem[i]? = some e → ∀ j < nb, ∀ k < dim + 2, s.uc i j k = some (V e j k))

end DG.Dev
