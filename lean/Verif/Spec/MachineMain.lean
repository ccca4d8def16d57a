import Verif.Model.MachineMain
import Verif.Spec.MachineCase
import Verif.Spec.Main
import Verif.Props.Convert

/-!
Vocabulary of C85: the input files of the solver executable on a computer.
-/
namespace DG

/-- The conversion of a number to `int` cuts off the digits behind the point, for finite numbers in the range of `int`. -/
def Truncates (A : Arith) (toInt : A.K → Option ℤ) : Prop :=
  ∀ a, A.fin a → 0 ≤ A.val a → A.val a < 2 ^ 31 → toInt a = some ⌊A.val a⌋

/-- The input file, as the computer has read it, asks for a run in `dim` dimensions with the basis of that name and order `p`,
the physics `ph` (its numbers within `κ` roundoffs), the stepper `st`, time step `dt` and final time `tend`; missing
optional keys stand for their defaults.  A gas constant of one has been read without error: the program compares it. -/
structure DeckRead (A : Arith) (κ : ℝ) (deck : Fl.Deck A.K) (dim p : ℕ) (basis : BasisType) (ph : Physics) (st : StepperType)
    (dt tend : A.K) : Prop where
  runDim : deck.dim = some dim
  order : deck.order = some p
  basisName : deck.basis = some basis.label
  quad : ∀ q, deck.quad = some q → q ∈ ["GaussLegendre", "GaussLobatto", "TriangleDunavant", "TriangleGaussLegendre"]
  parts : deck.parts.topLevelNpartitions = false
  ic : deck.icName = some ph.ic.label
  icData : ∃ data, deck.icData = some data ∧ data.length = ph.icData.length ∧
    ∀ i < data.length, A.Close κ (data.getD i 0) (ph.icData.getD i 0)
  icSize : ph.icData.length ≤ 10
  euler : deck.physName = some "Euler" ∧ ph.ptype = .Euler
  flux : deck.fluxName = some ph.ftype.label ∨ deck.fluxName = none ∧ ph.ftype = .LaxFriedrichs
  gamma : (∃ γ', deck.gamma = some γ' ∧ A.Close κ γ' ph.γ) ∨ deck.gamma = none ∧ ph.γ = 14 / 10
  gas : (∃ R', deck.gasConstant = some R' ∧ A.Close κ R' ph.R ∧ (ph.R = 1 → R' = 1)) ∨
    deck.gasConstant = none ∧ ph.R = 28705 / 100
  stepper : deck.stepperName = some st.label ∨ deck.stepperName = none ∧ st = .ForwardEuler
  timestep : deck.timestep = some dt
  tend : deck.tend = some tend

/-- The mesh file the input file names stores, as the computer has read it, the mesh `m` with coordinates within `κ` roundoffs;
it has no unused nodes. -/
def MeshGiven (A : Arith) (κ : ℝ) (dim : ℕ) (deck : Fl.Deck A.K) (fs : String → List String → Option (MeshFile A.K)) (m : GMesh ℝ)
    (m' : GMesh A.K) : Prop :=
  (∃ name mf, deck.meshFile = some name ∧ fs name deck.boundaries = some mf ∧ MeshFileOf m' dim mf) ∧
  MeshRead A κ dim m m' ∧ MeshOK m' ∧ AllNodesUsed m' ∧ 0 < m'.coord.length

/-- What the program does with its input files on a computer, whatever the interleaving of its ranks.  `run n`: the exact
coefficients after `n` steps; `y`: the exact solution of the semidiscrete equations.
* it takes the last number of steps that does not pass the final time, up to roundoff;
* all ranks finish their setup, no rank fails in the time loop, and every execution can be continued to its end;
* then the ranks can write the solution file, and it converts to the solution file of the mesh with a clock and coefficients
  that are finite numbers; the clock is within `C u/dt` of the number of steps times the time step, the coefficients within
  `C u/dt` of the exact calculation of as many steps, and within `C (dt + u/dt)` of the exact solution at the final
  time the input file asks for;
* read back on as many ranks, the file gives every rank the coefficients of its elements, to the last bit. -/
def ProgramOutcome (A : Arith) (C : ℝ) (toInt : A.K → Option ℤ) (deck : Fl.Deck A.K) (fs : String → List String → Option (MeshFile A.K))
    (un : Fl.Unset A.K) (dim nb nranks : ℕ) (m' : GMesh A.K) (env : ℕ → RankEnv A.K)
    (sched : ℕ → ℕ → List (FluxWrite A.K) → List (FluxWrite A.K)) (ord : ℕ → List ℕ) (dt tend : A.K) (run : ℕ → Coeffs ℝ)
    (y : ℝ → Coeffs ℝ) : Prop :=
  Fl.mainDim deck = some (some dim) ∧ ∃ job, Fl.readJob toInt deck fs un dim nranks = some job ∧
    job.nsteps * A.val dt ≤ A.val tend + C * A.u ∧ A.val tend - A.val dt - C * A.u ≤ job.nsteps * A.val dt ∧
    (∀ r < nranks, Fl.readyRank job un dim nranks (env r) r ≠ none) ∧
    ∀ ranks : ℕ → Fl.RankReady A.K, (∀ r < nranks, Fl.readyRank job un dim nranks (env r) r = some (ranks r)) →
    ∀ c k, Proto.Exec (Fl.jobProg job ranks nranks sched) (Fl.jobInit job ranks) c k →
      (∀ r < nranks, (c.proc r).phase ≠ .failed ∧ (c.proc r).st.2 ≠ none) ∧
      (∃ c' k', Proto.Exec (Fl.jobProg job ranks nranks sched) c c' k' ∧ Fl.LoopDone job nranks c') ∧
      (Fl.LoopDone job nranks c → ∃ f time V, Fl.jobFile job ranks dim nranks ord c = some f ∧
        convert nranks f = some (serialFile m' dim nb (dim + 2) time V) ∧
        A.fin time ∧ |A.val time - job.nsteps * A.val dt| ≤ C * (A.u / A.val dt) ∧
        (∀ e < m'.numElems, ∀ b < nb, ∀ v < dim + 2, A.fin (V e b v) ∧
          |A.val (V e b v) - run job.nsteps e b v| ≤ C * (A.u / A.val dt) ∧
          |A.val (V e b v) - y (A.val tend) e b v| ≤ C * (A.val dt + A.u / A.val dt)) ∧
        ∀ r < nranks, ∃ s, readInCoefficients nranks f r newSolver = some s ∧ s.time = 0 ∧
          ∀ i e : ℕ, (ranks r).rm.l2gElem[i]? = some e → ∀ j < nb, ∀ k < dim + 2, s.uc i j k = some (V e j k))

end DG
