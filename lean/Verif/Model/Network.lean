import Verif.Model.Mesh

/-!
Model of `MemoryNetwork::communicate_face_solution` (src/memory/memory_network.cpp 55-175), run by
all ranks at once, any number of times in a row, under an arbitrary interleaving.

* `pack`, `unpack`: the two data-copying loops.
* `Proto.Step`: one step of one rank.  MPI is modelled as one FIFO channel per (source, destination)
  pair (the tag of a message is its source, so the (source, tag) matching of `MPI_Recv` selects
  exactly the channel of the source); `MPI_Isend` is eager: it takes a copy of the buffer.
-/
namespace DG

/-- The face states of one rank: `UqL` and `UqR` (one block of `nq x ns` numbers, of type `β`, per
interior face of the rank). (memory_network.cpp 55-64) -/
structure FaceArr (β : Type) where
  L : List β
  R : List β

/-- memory_network.cpp 77-98, one iteration: the block sent for the `i`-th ghost face.
`none` = out-of-bounds read. -/
def packOne {α β : Type} (rm : RankMesh α) (rank : ℕ) (U : FaceArr β) (gl : List ℕ) (i : ℕ) :
    Option β := do
  let g ← gl[i]?
  let lf := searchLocal g rm.l2gFace
  let row ← rm.rows[lf]?
  if row.rankL = rank then U.L[lf]? else U.R[lf]?

/-- memory_network.cpp 68-100: `Uq_local_array[k]`, the buffer for neighbour number `k`. -/
def pack {α β : Type} (rm : RankMesh α) (rank : ℕ) (U : FaceArr β) (k : ℕ) : Option (List β) := do
  let n ← rm.nFacesPerNbr[k]?
  let gl ← rm.ghosts[k]?
  (List.range n).mapM (packOne rm rank U gl)

/-- memory_network.cpp 151-171, one iteration: store the `i`-th block of buffer `k`.
`none` = out-of-bounds access. -/
def unpackOne {α β : Type} (rm : RankMesh α) (rank : ℕ) (gl : List ℕ) (buf : List β)
    (U : FaceArr β) (i : ℕ) : Option (FaceArr β) := do
  let g ← gl[i]?
  let lf := searchLocal g rm.l2gFace
  let row ← rm.rows[lf]?
  let v ← buf[i]?
  if row.rankL = rank then
    let R ← setB U.R lf v
    some { U with R := R }
  else
    let L ← setB U.L lf v
    some { U with L := L }

/-- memory_network.cpp 142-173: both loops (`bufs` = `Uq_ghost_array`). -/
def unpack {α β : Type} (rm : RankMesh α) (rank : ℕ) (U : FaceArr β) (bufs : List (List β)) :
    Option (FaceArr β) :=
  (List.range rm.nbrs.length).foldlM (fun U k => do
    let n ← rm.nFacesPerNbr[k]?
    let gl ← rm.ghosts[k]?
    let buf ← bufs[k]?
    (List.range n).foldlM (unpackOne rm rank gl buf) U) U

namespace Proto

/-- Where a rank is in `communicate_face_solution`: in the send loop (106-120) at index `k`, in the
receive loop (122-137) at index `k`, at the barrier (139), or stopped by an error. (memory_network.cpp 106-139) -/
inductive Phase where
  | send (k : ℕ)
  | recv (k : ℕ)
  | barr
  | failed
deriving DecidableEq, Repr

/-- What the ranks run: `nbrs r` = `h_neighbor_ranks` of rank `r`; `pack r st k` = the message for
neighbour number `k`; `accept r k m` = message `m` has the size of receive buffer `k`;
`finish r st bufs` = the local state after the barrier, the unpacking loop and whatever the rank
computes until the next exchange (`none` = undefined behaviour). `rounds` = number of exchanges. (memory_network.cpp 55-175) -/
structure Prog (σ μ : Type) where
  nranks : ℕ
  rounds : ℕ
  nbrs : ℕ → List ℕ
  pack : ℕ → σ → ℕ → Option μ
  accept : ℕ → ℕ → μ → Bool
  finish : ℕ → σ → List μ → Option σ

/-- Local state of one rank. (memory_network.cpp 55-175) -/
structure Proc (σ μ : Type) where
  round : ℕ
  phase : Phase
  st : σ
  bufs : List μ

/-- Global state: the ranks and the messages in flight, one FIFO per (source, destination). (memory_network.cpp 118, 132) -/
structure Conf (σ μ : Type) where
  proc : ℕ → Proc σ μ
  chan : ℕ → ℕ → List μ

variable {σ μ : Type}

/-- Replace the state of rank `r`. (memory_network.cpp 55-175) -/
def Conf.setProc (c : Conf σ μ) (r : ℕ) (p : Proc σ μ) : Conf σ μ :=
  { c with proc := fun x => if x = r then p else c.proc x }

/-- Replace the contents of one channel. (memory_network.cpp 118, 132) -/
def Conf.setChan (c : Conf σ μ) (s d : ℕ) (l : List μ) : Conf σ μ :=
  { c with chan := fun x y => if x = s ∧ y = d then l else c.chan x y }

/-- Rank `s` has arrived at the barrier of round `t` (or is past it). (memory_network.cpp 139) -/
def Arrived (c : Conf σ μ) (t s : ℕ) : Prop :=
  t < (c.proc s).round ∨ ((c.proc s).round = t ∧ (c.proc s).phase = .barr)

/-- One step of rank `r`. (memory_network.cpp 106-175) -/
inductive Step (P : Prog σ μ) (r : ℕ) (c : Conf σ μ) : Conf σ μ → Prop
  /-- 113-119: `MPI_Isend` to neighbour number `k` -/
  | send (k d : ℕ) (m : μ) (hrd : (c.proc r).round < P.rounds)
      (hph : (c.proc r).phase = .send k) (hd : (P.nbrs r)[k]? = some d)
      (hm : P.pack r (c.proc r).st k = some m) :
      Step P r c ((c.setChan r d (c.chan r d ++ [m])).setProc r
        { c.proc r with phase := .send (k + 1) })
  /-- 77-98 with an out-of-bounds access -/
  | sendFail (k d : ℕ) (hrd : (c.proc r).round < P.rounds)
      (hph : (c.proc r).phase = .send k) (hd : (P.nbrs r)[k]? = some d)
      (hm : P.pack r (c.proc r).st k = none) :
      Step P r c (c.setProc r { c.proc r with phase := .failed })
  /-- 120: end of the send loop -/
  | sendEnd (k : ℕ) (hrd : (c.proc r).round < P.rounds)
      (hph : (c.proc r).phase = .send k) (hd : (P.nbrs r)[k]? = none) :
      Step P r c (c.setProc r { c.proc r with phase := .recv 0, bufs := [] })
  /-- 132-136: `MPI_Recv` from neighbour number `k`: only possible when a message is there -/
  | recv (k s : ℕ) (m : μ) (rest : List μ) (hph : (c.proc r).phase = .recv k)
      (hd : (P.nbrs r)[k]? = some s) (hc : c.chan s r = m :: rest) (ha : P.accept r k m = true) :
      Step P r c ((c.setChan s r rest).setProc r
        { c.proc r with phase := .recv (k + 1), bufs := (c.proc r).bufs ++ [m] })
  /-- 132: the message does not have the size of the receive buffer -/
  | recvFail (k s : ℕ) (m : μ) (rest : List μ) (hph : (c.proc r).phase = .recv k)
      (hd : (P.nbrs r)[k]? = some s) (hc : c.chan s r = m :: rest) (ha : P.accept r k m = false) :
      Step P r c (c.setProc r { c.proc r with phase := .failed })
  /-- 137: end of the receive loop -/
  | recvEnd (k : ℕ) (hph : (c.proc r).phase = .recv k) (hd : (P.nbrs r)[k]? = none) :
      Step P r c (c.setProc r { c.proc r with phase := .barr })
  /-- 139-175: the barrier opens when every rank has arrived; then unpack and compute on -/
  | barrier (st' : σ) (hph : (c.proc r).phase = .barr)
      (hall : ∀ s < P.nranks, Arrived c (c.proc r).round s)
      (hf : P.finish r (c.proc r).st (c.proc r).bufs = some st') :
      Step P r c (c.setProc r
        { round := (c.proc r).round + 1, phase := .send 0, st := st', bufs := [] })
  /-- 151-171 with an out-of-bounds access -/
  | barrierFail (hph : (c.proc r).phase = .barr)
      (hall : ∀ s < P.nranks, Arrived c (c.proc r).round s)
      (hf : P.finish r (c.proc r).st (c.proc r).bufs = none) :
      Step P r c (c.setProc r { c.proc r with phase := .failed })

/-- The initial state: every rank at the beginning of its first exchange, nothing in flight. (memory_network.cpp 55-62) -/
def init (st0 : ℕ → σ) : Conf σ μ where
  proc := fun r => { round := 0, phase := .send 0, st := st0 r, bufs := [] }
  chan := fun _ _ => []

/-- `Exec P c c' n`: from `c`, some interleaving of `n` steps of the ranks leads to `c'`. (memory_network.cpp 55-175, called in every residual) -/
inductive Exec (P : Prog σ μ) (c : Conf σ μ) : Conf σ μ → ℕ → Prop
  | refl : Exec P c c 0
  | step {c₁ c₂ : Conf σ μ} {n : ℕ} (r : ℕ) : Exec P c c₁ n → r < P.nranks → Step P r c₁ c₂ →
      Exec P c c₂ (n + 1)

end Proto

/-- The program run by the ranks: `rounds` exchanges, with an arbitrary local computation `comp`
after each of them (in the solver: fluxes, residual, stage update, new face states).
memory_network.cpp 55-175; `accept`: the receive buffer `Uq_ghost_array[k]` has one block per face
of the boundary, like `Uq_local_array[k]` (solver/base.cpp 512-519). -/
def exchangeProg {α β γ : Type} (rms : ℕ → RankMesh α) (nranks rounds : ℕ)
    (comp : ℕ → FaceArr β × γ → FaceArr β × γ) : Proto.Prog (FaceArr β × γ) (List β) where
  nranks := nranks
  rounds := rounds
  nbrs := fun r => (rms r).nbrs
  pack := fun r st k => pack (rms r) r st.1 k
  accept := fun r k m => (rms r).nFacesPerNbr[k]? == some m.length
  finish := fun r st bufs => (unpack (rms r) r st.1 bufs).map (fun U => comp r (U, st.2))

end DG
