import Verif.Model.Network

/-!
`MPI_Isend` without the assumption that it copies its buffer at once.

`Model/Network` models `MPI_Isend` as eager.  An MPI library may also leave a message in the buffer of the sender and
read it later, at any time until the message is received.  Here a message in flight is either copied or still in
the buffer of its sender; the model has the buffers, with their release (solver/base.cpp 525-529), and a step
of MPI that copies a message.  Reading a buffer that has been released is a fault.
-/
namespace DG.Late
open DG.Proto (Phase Prog Proc)

variable {σ μ : Type}

/-- A message in flight: copied by MPI, or still in the buffer number `k` of exchange `t` of its sender
(`Uq_local_array[k]`, or the copy of it that is given to `MPI_Isend`). (memory_network.cpp 113-119) -/
inductive Item (μ : Type) where
  | copied (m : μ)
  | waiting (t k : ℕ)

/-- All ranks, the messages in flight, the send buffers (`buf r t k`: contents of buffer `k` of exchange `t` of rank `r`,
`none` if it is not allocated), and whether a released buffer has been read. (memory_network.cpp 55-139) -/
structure Conf (σ μ : Type) where
  proc : ℕ → Proc σ μ
  chan : ℕ → ℕ → List (Item μ)
  buf : ℕ → ℕ → ℕ → Option μ
  fault : Bool

/-- Replace the state of rank `r`. (memory_network.cpp 55-175) -/
def Conf.setProc (c : Conf σ μ) (r : ℕ) (p : Proc σ μ) : Conf σ μ :=
  { c with proc := fun x => if x = r then p else c.proc x }

/-- Replace the contents of one channel. (memory_network.cpp 118, 132) -/
def Conf.setChan (c : Conf σ μ) (s d : ℕ) (l : List (Item μ)) : Conf σ μ :=
  { c with chan := fun x y => if x = s ∧ y = d then l else c.chan x y }

/-- Replace the contents of one buffer. (memory_network.cpp 113-114 and the end of its scope, 120) -/
def Conf.setBuf (c : Conf σ μ) (r t k : ℕ) (v : Option μ) : Conf σ μ :=
  { c with buf := fun x y z => if x = r ∧ y = t ∧ z = k then v else c.buf x y z }

/-- Release all buffers of rank `r` of exchange `t`: solver/base.cpp 525-529. -/
def Conf.freeAll (c : Conf σ μ) (r t : ℕ) : Conf σ μ :=
  { c with buf := fun x y z => if x = r ∧ y = t then none else c.buf x y z }

/-- The data of a message from `s`: `none` if its buffer has been released. (memory_network.cpp 118, 132) -/
def Conf.read (c : Conf σ μ) (s : ℕ) : Item μ → Option μ
  | .copied m => some m
  | .waiting t k => c.buf s t k

/-- Rank `s` has arrived at the barrier of round `t` (or is past it). (memory_network.cpp 139) -/
def Arrived (c : Conf σ μ) (t s : ℕ) : Prop :=
  t < (c.proc s).round ∨ ((c.proc s).round = t ∧ (c.proc s).phase = .barr)

/-- One step: of rank `r`, as in `Proto.Step`, or of MPI.  `mirror`: whether the data is copied to a
buffer that lives only until the end of the iteration of the send loop: `create_mirror_view_and_copy`
(memory_network.cpp 113-114) makes a new view if device and host memory differ, and returns `Uq_local` itself if not. -/
inductive Step (P : Prog σ μ) (mirror : Bool) (r : ℕ) (c : Conf σ μ) : Conf σ μ → Prop
  /-- 106-120: `MPI_Isend` to neighbour number `k`; the message stays in its buffer -/
  | send (k d : ℕ) (m : μ) (hrd : (c.proc r).round < P.rounds)
      (hph : (c.proc r).phase = .send k) (hd : (P.nbrs r)[k]? = some d)
      (hm : P.pack r (c.proc r).st k = some m) :
      Step P mirror r c (((c.setBuf r (c.proc r).round k (if mirror then none else some m)).setChan r d
        (c.chan r d ++ [.waiting (c.proc r).round k])).setProc r { c.proc r with phase := .send (k + 1) })
  /-- 77-98 with an out-of-bounds access -/
  | sendFail (k d : ℕ) (hrd : (c.proc r).round < P.rounds)
      (hph : (c.proc r).phase = .send k) (hd : (P.nbrs r)[k]? = some d)
      (hm : P.pack r (c.proc r).st k = none) :
      Step P mirror r c (c.setProc r { c.proc r with phase := .failed })
  /-- 120: end of the send loop -/
  | sendEnd (k : ℕ) (hrd : (c.proc r).round < P.rounds)
      (hph : (c.proc r).phase = .send k) (hd : (P.nbrs r)[k]? = none) :
      Step P mirror r c (c.setProc r { c.proc r with phase := .recv 0, bufs := [] })
  /-- 132-136: `MPI_Recv` from neighbour number `k`: the data is taken from MPI or from the buffer of the sender -/
  | recv (k s : ℕ) (it : Item μ) (m : μ) (rest : List (Item μ)) (hph : (c.proc r).phase = .recv k)
      (hd : (P.nbrs r)[k]? = some s) (hc : c.chan s r = it :: rest) (hrd : c.read s it = some m)
      (ha : P.accept r k m = true) :
      Step P mirror r c ((c.setChan s r rest).setProc r
        { c.proc r with phase := .recv (k + 1), bufs := (c.proc r).bufs ++ [m] })
  /-- 132: the message does not have the size of the receive buffer -/
  | recvFail (k s : ℕ) (it : Item μ) (m : μ) (rest : List (Item μ)) (hph : (c.proc r).phase = .recv k)
      (hd : (P.nbrs r)[k]? = some s) (hc : c.chan s r = it :: rest) (hrd : c.read s it = some m)
      (ha : P.accept r k m = false) :
      Step P mirror r c (c.setProc r { c.proc r with phase := .failed })
  /-- 132: the buffer of the sender has been released -/
  | recvFault (k s : ℕ) (it : Item μ) (rest : List (Item μ)) (hph : (c.proc r).phase = .recv k)
      (hd : (P.nbrs r)[k]? = some s) (hc : c.chan s r = it :: rest) (hrd : c.read s it = none) :
      Step P mirror r c { c with fault := true }
  /-- 137: end of the receive loop -/
  | recvEnd (k : ℕ) (hph : (c.proc r).phase = .recv k) (hd : (P.nbrs r)[k]? = none) :
      Step P mirror r c (c.setProc r { c.proc r with phase := .barr })
  /-- 139-175, then base.cpp 525-529: the barrier opens when every rank has arrived; unpack, release the send
  buffers and compute on -/
  | barrier (st' : σ) (hph : (c.proc r).phase = .barr)
      (hall : ∀ s < P.nranks, Arrived c (c.proc r).round s)
      (hf : P.finish r (c.proc r).st (c.proc r).bufs = some st') :
      Step P mirror r c ((c.freeAll r (c.proc r).round).setProc r
        { round := (c.proc r).round + 1, phase := .send 0, st := st', bufs := [] })
  /-- 151-171 with an out-of-bounds access -/
  | barrierFail (hph : (c.proc r).phase = .barr)
      (hall : ∀ s < P.nranks, Arrived c (c.proc r).round s)
      (hf : P.finish r (c.proc r).st (c.proc r).bufs = none) :
      Step P mirror r c (c.setProc r { c.proc r with phase := .failed })
  /-- MPI copies a message of rank `r` out of its buffer: possible at any time, in any order -/
  | copy (d : ℕ) (pre post : List (Item μ)) (t k : ℕ) (m : μ) (hd : d < P.nranks)
      (hc : c.chan r d = pre ++ .waiting t k :: post) (hb : c.buf r t k = some m) :
      Step P mirror r c (c.setChan r d (pre ++ .copied m :: post))
  /-- the same after the buffer has been released -/
  | copyFault (d : ℕ) (pre post : List (Item μ)) (t k : ℕ) (hd : d < P.nranks)
      (hc : c.chan r d = pre ++ .waiting t k :: post) (hb : c.buf r t k = none) :
      Step P mirror r c { c with fault := true }

/-- The initial state: every rank at the beginning of its first exchange, nothing in flight, no buffers. (memory_network.cpp 55-62) -/
def init (st0 : ℕ → σ) : Conf σ μ where
  proc := fun r => { round := 0, phase := .send 0, st := st0 r, bufs := [] }
  chan := fun _ _ => []
  buf := fun _ _ _ => none
  fault := false

/-- `Exec P mirror c c' n`: from `c`, some interleaving of `n` steps of ranks and MPI leads to `c'`.
(memory_network.cpp 55-175, called in every residual) -/
inductive Exec (P : Prog σ μ) (mirror : Bool) (c : Conf σ μ) : Conf σ μ → ℕ → Prop
  | refl : Exec P mirror c c 0
  | step {c₁ c₂ : Conf σ μ} {n : ℕ} (r : ℕ) : Exec P mirror c c₁ n → r < P.nranks → Step P mirror r c₁ c₂ →
      Exec P mirror c c₂ (n + 1)

end DG.Late
