import Verif.Model.MachinePost
import Verif.Spec.MachineMain

/-!
Vocabulary of C86: the post-processor on a computer.
-/
namespace DG

/-- Every sum of the post-processor adds each of its numbers once, in some order: `nv` and `ne` points per element for the volume
and for the errors, the elements of each of the `nranks` ranks, and the ranks. -/
structure PostSumsOK {K : Type} (sums : Fl.PostSums) (nranks nv ne : ℕ) (qs : ℕ → Fl.PostRank K) : Prop where
  volQ : ∀ r < nranks, ∀ e < (qs r).rm.numElemsPart, (sums.volQ r e).Sums nv
  volE : ∀ r < nranks, (sums.volE r).Sums (qs r).rm.numElemsPart
  volR : sums.volR.Sums nranks
  errQ : ∀ r < nranks, ∀ e < (qs r).rm.numElemsPart, ∀ v, (sums.errQ r e v).Sums ne
  errE : ∀ r < nranks, ∀ v, (sums.errE r v).Sums (qs r).rm.numElemsPart
  errR : ∀ v, (sums.errR v).Sums nranks

/-- The solution file `f` holds the coefficients `V` for a launch of the post-processor on `nranks` ranks to which the partitioner
gives the elements as in `part`: rank `r` reads those of its elements. -/
def FileHolds {K : Type} [Zero K] (f : SolFile K) (nranks : ℕ) (part : List ℕ) (ne nb ns : ℕ) (V : Coeffs K) : Prop :=
  ∀ r < nranks, ∃ s, readInCoefficients nranks f r newSolver = some s ∧ s.time = 0 ∧
    ∀ i e : ℕ, ((List.range ne).filter fun e => decide (Owns part r e))[i]? = some e → ∀ j < nb, ∀ k < ns, s.uc i j k = some (V e j k)

/-- What the post-processor does on a computer: every rank gets through, and whatever the order of the sums and the contents of
uninitialised memory it prints for each of the variables a finite number for which `good` holds. -/
def PostOutcome (A : Arith) (deck : Fl.Deck A.K) (fs : String → List String → Option (MeshFile A.K)) (un : Fl.Unset A.K) (dim nranks nv ne : ℕ)
    (env : ℕ → RankEnv A.K) (f : SolFile A.K) (good : ℕ → ℝ → Prop) : Prop :=
  ∃ job, Fl.readPost deck fs un dim nranks = some job ∧
    (∀ r < nranks, Fl.postRank job dim nranks (env r) f r ≠ none) ∧
    ∀ qs : ℕ → Fl.PostRank A.K, (∀ r < nranks, Fl.postRank job dim nranks (env r) f r = some (qs r)) →
    ∀ sums, PostSumsOK sums nranks nv ne qs → ∀ Uq0 : ℕ → ℕ → ℕ → ℕ → A.K,
      ∃ N, Fl.postPrint job un dim Uq0 sums qs = some N ∧ ∀ v < dim + 2, A.fin (N v) ∧ good v (A.val (N v))

end DG
