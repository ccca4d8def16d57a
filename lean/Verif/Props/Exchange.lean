import Verif.Lemmas.Exchange
import Verif.Lemmas.Network

/-!
Properties C08 and C09: the exchange of face states between ranks
(`MemoryNetwork::communicate_face_solution`), run by all ranks under an arbitrary interleaving.
-/
namespace DG

variable {α β γ : Type}

/-- Every rank has run `Mesh::partition` on the same mesh with the same partitioner result
(hash-set iteration orders may differ between ranks). -/
structure World (m : GMesh α) (nranks : ℕ) (part : List ℕ) (rms : ℕ → RankMesh α) : Prop where
  mesh : MeshOK m
  parts : PartOK m nranks part
  ranks : ∀ r < nranks, ∃ enum, EnumOK enum ∧ partition m nranks nranks part enum r = some (rms r)

/-- The face state arrays of a rank have one entry per interior face of the rank. -/
def Sized (rm : RankMesh α) (U : FaceArr β) : Prop :=
  U.L.length = rm.numIFacesPart ∧ U.R.length = rm.numIFacesPart

section lemmas
variable {m : GMesh α} {nranks : ℕ} {part : List ℕ} {rms : ℕ → RankMesh α}

theorem World.res (w : World m nranks part rms) {r : ℕ} (hr : r < nranks) :
    PartitionResult m part r (rms r) := by
  obtain ⟨enum, he, h⟩ := w.ranks r hr
  exact result_of w.mesh w.parts he hr h

theorem mem_betweenFaces {part : List ℕ} {r s : ℕ} {m : GMesh α} {g : ℕ} :
    g ∈ betweenFaces part r s m.faces ↔ ∃ f, IsFace m g f ∧ Between part r s f := by
  unfold betweenFaces
  rw [List.mem_map]
  constructor
  · rintro ⟨x, hx, rfl⟩
    rw [List.mem_filter] at hx
    exact ⟨x.1, mem_zipIdx_lt hx.1, of_decide_eq_true hx.2⟩
  · rintro ⟨f, hf, hb⟩
    refine ⟨(f, g), List.mem_filter.2 ⟨List.mem_zipIdx_iff_getElem?.2 hf, decide_eq_true hb⟩, rfl⟩

theorem World.tables (w : World m nranks part rms) {r : ℕ} (hr : r < nranks) :
    TablesOK (rms r) := by
  obtain ⟨enum, he, h⟩ := w.ranks r hr
  have res := w.res hr
  have h4 := C04_interior_faces m nranks part enum w.mesh w.parts he r hr _ h
  have h7 := C07_ghost_list_exact m nranks part enum w.mesh w.parts he r hr _ h
  have hnb : ∀ (k : ℕ) gl, (rms r).ghosts[k]? = some gl → ∃ s, (rms r).nbrs[k]? = some s ∧
      gl = betweenFaces part r s m.faces := by
    intro k gl hk
    rw [res.ghosts, List.getElem?_map] at hk
    cases hs : (rms r).nbrs[k]? with
    | none => rw [hs] at hk; cases hk
    | some s => rw [hs] at hk; exact ⟨s, rfl, (Option.some.inj hk).symm⟩
  refine ⟨h7.1, ?_, ?_, ?_, h4.2.2.1, ?_⟩
  · intro k gl hk
    obtain ⟨s, hs, rfl⟩ := hnb k gl hk
    rw [res.nFaces, List.getElem?_map, hs]; rfl
  · rw [res.ghosts, List.nodup_flatten]
    constructor
    · intro l hl
      obtain ⟨s, hs, rfl⟩ := List.mem_map.1 hl
      obtain ⟨i, hi, rfl⟩ := List.mem_iff_getElem.1 hs
      obtain ⟨gl, g1, _, _, g2, _⟩ := h7.2 i _ (List.getElem?_eq_getElem hi)
      rw [res.ghosts, List.getElem?_map, List.getElem?_eq_getElem hi] at g1
      rw [← Option.some.inj g1] at g2
      exact nodup_of_lt g2
    · rw [List.pairwise_map]
      refine List.Pairwise.imp_of_mem ?_ res.nbrsNodup
      intro s s' hs hs' hne
      rw [List.disjoint_left]
      intro g hg hg'
      obtain ⟨f, hf, hb⟩ := mem_betweenFaces.1 hg
      obtain ⟨f', hf', hb'⟩ := mem_betweenFaces.1 hg'
      unfold IsFace at hf hf'
      rw [hf] at hf'
      cases hf'
      have h1 := ((res.nbrsMem s).1 hs).1
      have h2 := ((res.nbrsMem s').1 hs').1
      unfold Between at hb hb'
      rcases hb with ⟨a, b⟩ | ⟨a, b⟩ <;> rcases hb' with ⟨a', b'⟩ | ⟨a', b'⟩ <;>
        rw [a] at a' <;> rw [b] at b' <;> cases a' <;> cases b' <;> simp_all
  · intro g hg
    obtain ⟨gl, hgl, hgm⟩ := List.mem_flatten.1 hg
    obtain ⟨k, hk, rfl⟩ := List.mem_iff_getElem.1 hgl
    obtain ⟨s, hs, he'⟩ := hnb k _ (List.getElem?_eq_getElem hk)
    obtain ⟨gl', g1, _, _, _, _, g3⟩ := h7.2 k s hs
    rw [List.getElem?_eq_getElem hk] at g1
    cases g1
    exact g3 g hgm
  · exact (C02_id_translation m nranks part enum w.mesh w.parts he r hr _ h).2.2

theorem World.isLeft_iff (w : World m nranks part rms) {r lf g : ℕ} (hr : r < nranks) {f : IFace}
    {rl : ℕ} (hlf : (rms r).l2gFace[lf]? = some g) (hf : IsFace m g f)
    (hl : Owns part rl f.elemL) : isLeft (rms r) r lf = decide (rl = r) := by
  obtain ⟨enum, he, h⟩ := w.ranks r hr
  obtain ⟨f', row, hf', hrow, ho, _⟩ :=
    C05_face_record m nranks part enum w.mesh w.parts he r hr _ h lf g hlf
  unfold IsFace at hf hf'
  rw [hf] at hf'
  cases hf'
  unfold Owns at hl ho
  rw [hl] at ho
  cases ho
  unfold isLeft
  rw [hrow]
  by_cases hrl : row.rankL = r <;> simp [hrl]

theorem World.nbrs_symm (w : World m nranks part rms) {r s : ℕ} (hr : r < nranks)
    (hs : s ∈ (rms r).nbrs) : s < nranks ∧ r ∈ (rms s).nbrs := by
  obtain ⟨enum, he, h⟩ := w.ranks r hr
  have h6 := (C06_neighbours_exact m nranks part enum w.mesh w.parts he r hr _ h).2.2 s
  obtain ⟨hne, hsn, g, f, hf, hb⟩ := h6.1 hs
  refine ⟨hsn, ?_⟩
  obtain ⟨enum', he', h'⟩ := w.ranks s hsn
  have h6' := (C06_neighbours_exact m nranks part enum' w.mesh w.parts he' s hsn _ h').2.2 r
  exact h6'.2 ⟨hne.symm, hr, g, f, hf, hb.symm⟩

theorem World.ghosts_of (w : World m nranks part rms) {r k s : ℕ} (hr : r < nranks)
    (hk : (rms r).nbrs[k]? = some s) :
    (rms r).ghosts[k]? = some (betweenFaces part r s m.faces) := by
  rw [(w.res hr).ghosts, List.getElem?_map, hk]; rfl

theorem World.idx (_w : World m nranks part rms) {r s : ℕ} (_hr : r < nranks)
    (hs : s ∈ (rms r).nbrs) : (rms r).nbrs[(rms r).nbrs.idxOf s]? = some s :=
  List.getElem?_idxOf hs

theorem Sized.get {rm : RankMesh α} {U : FaceArr β} (h : Sized rm U)
    (hl : rm.numIFacesPart = rm.l2gFace.length) (b : Bool) :
    (U.get b).length = rm.l2gFace.length := by
  cases b
  · exact h.1.trans hl
  · exact h.2.trans hl

theorem World.numIF (w : World m nranks part rms) {r : ℕ} (hr : r < nranks) :
    (rms r).numIFacesPart = (rms r).l2gFace.length := by
  rw [(w.res hr).numIFacesPart, (w.res hr).l2gFace]; simp

/-- message from `s` to `d` in a lock-step exchange -/
def syncMsg (rms : ℕ → RankMesh α) (st : ℕ → FaceArr β × γ) (s d : ℕ) : List β :=
  (pack (rms s) s (st s).1 ((rms s).nbrs.idxOf d)).getD []

/-- one lock-step exchange followed by the local computation -/
def syncStep (rms : ℕ → RankMesh α) (comp : ℕ → FaceArr β × γ → FaceArr β × γ)
    (st : ℕ → FaceArr β × γ) (r : ℕ) : FaceArr β × γ :=
  match unpack (rms r) r (st r).1 ((rms r).nbrs.map (fun s => syncMsg rms st s r)) with
  | some U => comp r (U, (st r).2)
  | none => st r

/-- `t` lock-step exchanges -/
def sync (rms : ℕ → RankMesh α) (comp : ℕ → FaceArr β × γ → FaceArr β × γ)
    (st0 : ℕ → FaceArr β × γ) : ℕ → ℕ → FaceArr β × γ
  | 0 => st0
  | t + 1 => syncStep rms comp (sync rms comp st0 t)

theorem World.msg (w : World m nranks part rms) {st : ℕ → FaceArr β × γ}
    (hst : ∀ r < nranks, Sized (rms r) (st r).1) {s d : ℕ} (hs : s < nranks)
    (hd : d ∈ (rms s).nbrs) :
    pack (rms s) s (st s).1 ((rms s).nbrs.idxOf d) = some (syncMsg rms st s d) ∧
      (syncMsg rms st s d).length = (betweenFaces part s d m.faces).length ∧
      ∀ i g : ℕ, (betweenFaces part s d m.faces)[i]? = some g → (syncMsg rms st s d)[i]? =
        ((st s).1.get (!isLeft (rms s) s (searchLocal g (rms s).l2gFace)))[
          searchLocal g (rms s).l2gFace]? := by
  obtain ⟨msg, h1, h2, h3⟩ := pack_spec (w.tables hs) s (st s).1
    ((hst s hs).get (w.numIF hs)) _ _ (w.ghosts_of hs (w.idx hs hd))
  have : syncMsg rms st s d = msg := by unfold syncMsg; rw [h1]; rfl
  rw [this]
  exact ⟨h1, h2, h3⟩

theorem World.unpack (w : World m nranks part rms) {st : ℕ → FaceArr β × γ}
    (hst : ∀ r < nranks, Sized (rms r) (st r).1) {r : ℕ} (hr : r < nranks) :
    ∃ U', unpack (rms r) r (st r).1 ((rms r).nbrs.map (fun s => syncMsg rms st s r)) = some U' ∧
      (∀ b, (U'.get b).length = (rms r).l2gFace.length) ∧
      (∀ (k : ℕ) gl, (rms r).ghosts[k]? = some gl → ∀ i g lf : ℕ, gl[i]? = some g →
        (rms r).l2gFace[lf]? = some g → ∀ b, (U'.get b)[lf]? =
          if b = isLeft (rms r) r lf then
            ((rms r).nbrs.map (fun s => syncMsg rms st s r))[k]?.bind (fun buf => buf[i]?)
          else ((st r).1.get b)[lf]?) ∧
      ∀ lf g : ℕ, (rms r).l2gFace[lf]? = some g → g ∉ (rms r).ghosts.flatten →
        ∀ b, (U'.get b)[lf]? = ((st r).1.get b)[lf]? := by
  apply unpack_spec (w.tables hr) r (st r).1 ((hst r hr).get (w.numIF hr))
  · simp
  · intro k gl buf hk hb
    rw [List.getElem?_map] at hb
    cases hs : (rms r).nbrs[k]? with
    | none => rw [hs] at hb; cases hb
    | some s =>
      rw [hs] at hb
      have hbuf := (Option.some.inj hb).symm
      rw [w.ghosts_of hr hs] at hk
      rw [← Option.some.inj hk, hbuf]
      obtain ⟨hsn, hrs⟩ := w.nbrs_symm hr (List.mem_of_getElem? hs)
      rw [(w.msg hst hsn hrs).2.1, betweenFaces_comm]

/-- the local computation keeps the array sizes -/
def KeepsSizes (comp : ℕ → FaceArr β × γ → FaceArr β × γ) : Prop :=
  ∀ r U g, (comp r (U, g)).1.L.length = U.L.length ∧ (comp r (U, g)).1.R.length = U.R.length

theorem World.syncStep_sized (w : World m nranks part rms)
    {comp : ℕ → FaceArr β × γ → FaceArr β × γ} (hc : KeepsSizes comp) {st : ℕ → FaceArr β × γ}
    (hst : ∀ r < nranks, Sized (rms r) (st r).1) :
    ∀ r < nranks, Sized (rms r) (syncStep rms comp st r).1 := by
  intro r hr
  obtain ⟨U', h1, h2, _⟩ := w.unpack hst hr
  unfold syncStep
  rw [h1]
  simp only
  obtain ⟨c1, c2⟩ := hc r U' (st r).2
  have hn := w.numIF hr
  exact ⟨by rw [c1, hn]; exact h2 false, by rw [c2, hn]; exact h2 true⟩

theorem World.sync_sized (w : World m nranks part rms)
    {comp : ℕ → FaceArr β × γ → FaceArr β × γ} (hc : KeepsSizes comp) {st0 : ℕ → FaceArr β × γ}
    (hst : ∀ r < nranks, Sized (rms r) (st0 r).1) (t : ℕ) :
    ∀ r < nranks, Sized (rms r) (sync rms comp st0 t r).1 := by
  induction t with
  | zero => exact hst
  | succ t ih => exact w.syncStep_sized hc ih

theorem World.syncRun (w : World m nranks part rms)
    {comp : ℕ → FaceArr β × γ → FaceArr β × γ} (hc : KeepsSizes comp) {st0 : ℕ → FaceArr β × γ}
    (hst : ∀ r < nranks, Sized (rms r) (st0 r).1) (rounds : ℕ) :
    Proto.SyncRun (exchangeProg rms nranks rounds comp) (sync rms comp st0)
      (fun t s d => syncMsg rms (sync rms comp st0 t) s d) where
  nodup := fun r hr => (w.res hr).nbrsNodup
  symm := fun r hr s hs => w.nbrs_symm hr hs
  pack := by
    intro t _ r hr k d hk
    have hk' : (rms r).nbrs[k]? = some d := hk
    have hd : d ∈ (rms r).nbrs := List.mem_of_getElem? hk'
    have hi : (rms r).nbrs.idxOf d = k := by
      obtain ⟨hlt, rfl⟩ := List.getElem?_eq_some_iff.1 hk'
      exact List.Nodup.idxOf_getElem (w.res hr).nbrsNodup k hlt
    have := (w.msg (w.sync_sized hc hst t) hr hd).1
    rw [hi] at this
    exact this
  acc := by
    intro t _ r hr k s hk
    have hk' : (rms r).nbrs[k]? = some s := hk
    obtain ⟨hsn, hrs⟩ := w.nbrs_symm hr (List.mem_of_getElem? hk')
    have h1 := (w.msg (w.sync_sized hc hst t) hsn hrs).2.1
    simp only [exchangeProg]
    rw [h1, (w.res hr).nFaces, List.getElem?_map, hk', betweenFaces_comm]
    simp
  fin := by
    intro t _ r hr
    obtain ⟨U', h1, _⟩ := w.unpack (w.sync_sized hc hst t) hr
    simp only [exchangeProg]
    rw [h1]
    simp only [Option.map_some]
    congr 1
    simp only [sync, syncStep]
    rw [h1]

theorem World.reach (w : World m nranks part rms)
    {comp : ℕ → FaceArr β × γ → FaceArr β × γ} (hc : KeepsSizes comp) {st0 : ℕ → FaceArr β × γ}
    (hst : ∀ r < nranks, Sized (rms r) (st0 r).1) {rounds n : ℕ}
    {c : Proto.Conf (FaceArr β × γ) (List β)}
    (hx : Proto.Exec (exchangeProg rms nranks rounds comp) (Proto.init st0) c n) :
    Proto.Inv (exchangeProg rms nranks rounds comp) (sync rms comp st0)
      (fun t s d => syncMsg rms (sync rms comp st0 t) s d) c :=
  Proto.inv_exec (w.syncRun hc hst rounds) (Proto.inv_init _ _ _ st0 (fun _ _ => rfl)) hx

end lemmas

/-! ### C09 -/

/-- C09: no interleaving of the ranks leads to an error: no out-of-bounds access while packing or
unpacking, and every message has exactly the size of the buffer it is received in. -/
theorem C09_no_error (m : GMesh α) (nranks : ℕ) (part : List ℕ) (rms : ℕ → RankMesh α)
    (w : World m nranks part rms) (comp : ℕ → FaceArr β × γ → FaceArr β × γ)
    (hc : KeepsSizes comp) (st0 : ℕ → FaceArr β × γ)
    (hst : ∀ r < nranks, Sized (rms r) (st0 r).1) (rounds n : ℕ)
    (c : Proto.Conf (FaceArr β × γ) (List β))
    (hx : Proto.Exec (exchangeProg rms nranks rounds comp) (Proto.init st0) c n) :
    ∀ r < nranks, (c.proc r).phase ≠ .failed := by
  intro r hr h
  have := ((w.reach hc hst hx).ph r hr).2
  rw [h] at this
  exact this

/-- C09: as long as some rank has not finished its exchanges, some rank can make a step. -/
theorem C09_no_deadlock (m : GMesh α) (nranks : ℕ) (part : List ℕ) (rms : ℕ → RankMesh α)
    (w : World m nranks part rms) (comp : ℕ → FaceArr β × γ → FaceArr β × γ)
    (hc : KeepsSizes comp) (st0 : ℕ → FaceArr β × γ)
    (hst : ∀ r < nranks, Sized (rms r) (st0 r).1) (rounds n : ℕ)
    (c : Proto.Conf (FaceArr β × γ) (List β))
    (hx : Proto.Exec (exchangeProg rms nranks rounds comp) (Proto.init st0) c n)
    (hnf : ∃ r < nranks, (c.proc r).round < rounds) :
    ∃ r < nranks, ∃ c', Proto.Step (exchangeProg rms nranks rounds comp) r c c' :=
  Proto.progress (w.syncRun hc hst rounds) (w.reach hc hst hx) hnf

/-- C09: every execution is finite, with the same number of steps whatever the interleaving, and
every partial execution can be continued to the end. -/
theorem C09_terminates (m : GMesh α) (nranks : ℕ) (part : List ℕ) (rms : ℕ → RankMesh α)
    (w : World m nranks part rms) (comp : ℕ → FaceArr β × γ → FaceArr β × γ)
    (hc : KeepsSizes comp) (st0 : ℕ → FaceArr β × γ)
    (hst : ∀ r < nranks, Sized (rms r) (st0 r).1) (rounds n : ℕ)
    (c : Proto.Conf (FaceArr β × γ) (List β))
    (hx : Proto.Exec (exchangeProg rms nranks rounds comp) (Proto.init st0) c n) :
    n ≤ ∑ r ∈ Finset.range nranks, rounds * (2 * (rms r).nbrs.length + 3) ∧
    ((∀ r < nranks, (c.proc r).round = rounds) →
      n = ∑ r ∈ Finset.range nranks, rounds * (2 * (rms r).nbrs.length + 3)) ∧
    ∃ c' n', Proto.Exec (exchangeProg rms nranks rounds comp) c c' n' ∧
      ∀ r < nranks, (c'.proc r).round = rounds := by
  have hR := w.syncRun hc hst rounds
  have hI0 := Proto.inv_init (exchangeProg rms nranks rounds comp) (sync rms comp st0)
    (fun t s d => syncMsg rms (sync rms comp st0 t) s d) st0 (fun _ _ => rfl)
  have hI := w.reach hc hst hx
  have h1 := Proto.exec_steps hR hI0 hx
  have h0 : ∑ r ∈ Finset.range (exchangeProg rms nranks rounds comp).nranks,
      Proto.prog (exchangeProg rms nranks rounds comp) r
        ((Proto.init st0 : Proto.Conf (FaceArr β × γ) (List β)).proc r) = 0 := by
    apply Finset.sum_eq_zero
    intro r _
    simp [Proto.prog, Proto.init]
  rw [h0, Nat.zero_add] at h1
  refine ⟨?_, ?_, Proto.can_finish hR st0 (fun _ _ => rfl) hx⟩
  · rw [← h1]
    exact Finset.sum_le_sum (fun r hr => Proto.prog_le hI (Finset.mem_range.1 hr))
  · intro hd
    rw [← h1]
    apply Finset.sum_congr rfl
    intro r hr
    have hr' := Finset.mem_range.1 hr
    have h3 := (hI.ph r hr').2
    have h4 := hd r hr'
    simp only [Proto.prog]
    rw [h4]
    cases hp : (c.proc r).phase with
    | send k =>
      rw [hp, h4] at h3
      obtain ⟨_, h | ⟨_, h⟩⟩ := h3
      · exact absurd h (Nat.lt_irrefl _)
      · subst h; rfl
    | recv k => rw [hp, h4] at h3; exact absurd h3.2.1 (Nat.lt_irrefl _)
    | barr => rw [hp, h4] at h3; exact absurd h3.1 (Nat.lt_irrefl _)
    | failed => rw [hp] at h3; exact h3.elim

/-- C09: the outcome does not depend on the interleaving: in any two executions, whenever a rank is
in the same exchange its local state is the same (in particular at the end). -/
theorem C09_schedule_independent (m : GMesh α) (nranks : ℕ) (part : List ℕ)
    (rms : ℕ → RankMesh α) (w : World m nranks part rms)
    (comp : ℕ → FaceArr β × γ → FaceArr β × γ)
    (hc : KeepsSizes comp) (st0 : ℕ → FaceArr β × γ)
    (hst : ∀ r < nranks, Sized (rms r) (st0 r).1) (rounds n n' : ℕ)
    (c c' : Proto.Conf (FaceArr β × γ) (List β))
    (hx : Proto.Exec (exchangeProg rms nranks rounds comp) (Proto.init st0) c n)
    (hx' : Proto.Exec (exchangeProg rms nranks rounds comp) (Proto.init st0) c' n') :
    ∀ r < nranks, (c.proc r).round = (c'.proc r).round → (c.proc r).st = (c'.proc r).st := by
  intro r hr h
  rw [((w.reach hc hst hx).ph r hr).1, ((w.reach hc hst hx').ph r hr).1, h]

/-- C09: when a rank has left the barrier and has not yet started the next exchange, none of the
messages it sent is still in flight: its send buffers can be released (solver/base.cpp 525-529).
In particular nothing is in flight when all ranks have finished. -/
theorem C09_send_buffers_free_after_barrier (m : GMesh α) (nranks : ℕ) (part : List ℕ)
    (rms : ℕ → RankMesh α) (w : World m nranks part rms)
    (comp : ℕ → FaceArr β × γ → FaceArr β × γ)
    (hc : KeepsSizes comp) (st0 : ℕ → FaceArr β × γ)
    (hst : ∀ r < nranks, Sized (rms r) (st0 r).1) (rounds n : ℕ)
    (c : Proto.Conf (FaceArr β × γ) (List β))
    (hx : Proto.Exec (exchangeProg rms nranks rounds comp) (Proto.init st0) c n)
    (r : ℕ) (hr : r < nranks) (hph : (c.proc r).phase = .send 0) :
    ∀ d ∈ (rms r).nbrs, c.chan r d = [] := by
  intro d hd
  have hI := w.reach hc hst hx
  obtain ⟨hdn, hrd⟩ := w.nbrs_symm hr hd
  obtain ⟨h1, h2⟩ := hI.chan d hdn r hrd
  have hs : Proto.sentN (exchangeProg rms nranks rounds comp) c r d = (c.proc r).round := by
    simp [Proto.sentN, hph]
  have hr' : (c.proc r).round ≤ Proto.recvN (exchangeProg rms nranks rounds comp) c d r := by
    by_cases hlt : (c.proc d).round < (c.proc r).round
    · obtain ⟨h3, h4⟩ := hI.lag r hr d hdn hlt
      unfold Proto.recvN
      rw [h4, h3]
    · unfold Proto.recvN; omega
  rw [h2, hs]
  have : (c.proc r).round - Proto.recvN (exchangeProg rms nranks rounds comp) c d r = 0 := by omega
  rw [this]; rfl

/-! ### C08 -/

/-- what a lock-step exchange does to the face states of rank `r` -/
theorem World.exchange_states {m : GMesh α} {nranks : ℕ} {part : List ℕ} {rms : ℕ → RankMesh α}
    (w : World m nranks part rms) {st : ℕ → FaceArr β × γ}
    (hst' : ∀ r < nranks, Sized (rms r) (st r).1) (r : ℕ) (hr : r < nranks) :
    ∃ U', DG.unpack (rms r) r (st r).1 ((rms r).nbrs.map (fun s => syncMsg rms st s r)) = some U' ∧
    Sized (rms r) U' ∧
    ∀ (i g : ℕ) (_ : (rms r).l2gFace[i]? = some g) (f : IFace) (_ : IsFace m g f) (rl rr : ℕ)
    (_ : Owns part rl f.elemL) (_ : Owns part rr f.elemR),
    (rl = rr → U'.L[i]? = (st r).1.L[i]? ∧ U'.R[i]? = (st r).1.R[i]?) ∧
    (rl ≠ rr → ∀ il ir : ℕ, (rms rl).l2gFace[il]? = some g → (rms rr).l2gFace[ir]? = some g →
      U'.L[i]? = (st rl).1.L[il]? ∧ U'.R[i]? = (st rr).1.R[ir]? ∧
      (∃ v, (st rl).1.L[il]? = some v) ∧ ∃ v, (st rr).1.R[ir]? = some v) := by
  obtain ⟨U', u1, u2, u3, u4⟩ := w.unpack hst' hr
  have hn := w.numIF hr
  refine ⟨U', u1, ⟨by rw [hn]; exact u2 false, by rw [hn]; exact u2 true⟩, ?_⟩
  intro i g hi f hf rl rr hl hrr
  have hfm : f ∈ m.faces := List.mem_of_getElem? hf
  have hrl : rl < nranks := w.parts.lt _ (List.mem_of_getElem? hl)
  have hrrn : rr < nranks := w.parts.lt _ (List.mem_of_getElem? hrr)
  -- the rank is on one side
  have htouch : r = rl ∨ r = rr := by
    obtain ⟨enum, he, h⟩ := w.ranks r hr
    obtain ⟨f', row, hf', hrow, ho1, ho2, ho3, _⟩ :=
      C05_face_record m nranks part enum w.mesh w.parts he r hr _ h i g hi
    unfold IsFace at hf hf'
    rw [hf] at hf'
    cases hf'
    unfold Owns at *
    rw [hl] at ho1
    rw [hrr] at ho2
    cases ho1; cases ho2
    rcases ho3 with h | h
    · exact Or.inl h.symm
    · exact Or.inr h.symm
  have hleft := w.isLeft_iff hr hi hf hl
  constructor
  · rintro rfl
    have hng : g ∉ (rms r).ghosts.flatten := by
      intro hg
      obtain ⟨gl, hgl, hgm⟩ := List.mem_flatten.1 hg
      rw [(w.res hr).ghosts] at hgl
      obtain ⟨s, hs, rfl⟩ := List.mem_map.1 hgl
      obtain ⟨f', hf', hb⟩ := mem_betweenFaces.1 hgm
      unfold IsFace at hf hf'
      rw [hf] at hf'
      cases hf'
      have hne := (((w.res hr).nbrsMem s).1 hs).1
      unfold Owns at hl hrr
      unfold Between at hb
      rw [hl, hrr] at hb
      rcases hb with ⟨a, b⟩ | ⟨a, b⟩ <;> cases a <;> cases b <;> exact hne rfl
    exact ⟨u4 i g hi hng false, u4 i g hi hng true⟩
  · intro hne il ir hil hir
    -- the general step: the neighbour `s` on the other side
    have key : ∀ s, s < nranks → s ≠ r → Between part r s f → ∀ is : ℕ,
        (rms s).l2gFace[is]? = some g →
        (U'.get (isLeft (rms r) r i))[i]? = ((st s).1.get (!isLeft (rms s) s is))[is]? := by
      intro s hs hsr hb is his
      have hsm : s ∈ (rms r).nbrs :=
        ((w.res hr).nbrsMem s).2 ⟨hsr, (f, g), List.mem_zipIdx_iff_getElem?.2 hf, hb⟩
      obtain ⟨_, hrs⟩ := w.nbrs_symm hr hsm
      have hgb : g ∈ betweenFaces part r s m.faces := mem_betweenFaces.2 ⟨f, hf, hb⟩
      obtain ⟨j, hj, hjg⟩ := List.mem_iff_getElem.1 hgb
      have hj' : (betweenFaces part r s m.faces)[j]? = some g := by
        rw [List.getElem?_eq_getElem hj, hjg]
      have h3 := u3 _ _ (w.ghosts_of hr (w.idx hr hsm)) j g i hj' hi (isLeft (rms r) r i)
      rw [if_pos rfl, List.getElem?_map, w.idx hr hsm] at h3
      simp only [Option.map_some, Option.bind_some] at h3
      rw [h3]
      have h4 := (w.msg hst' hs hrs).2.2 j g (by rw [betweenFaces_comm]; exact hj')
      have hsl : searchLocal g (rms s).l2gFace = is := by
        obtain ⟨hlt, rfl⟩ := List.getElem?_eq_some_iff.1 his
        exact (w.tables hs).tab.localRoundTrip is hlt
      rw [h4, hsl]
    have keep : ∀ s, s < nranks → s ≠ r → Between part r s f →
        (U'.get (!isLeft (rms r) r i))[i]? = ((st r).1.get (!isLeft (rms r) r i))[i]? := by
      intro s hs hsr hb
      have hsm : s ∈ (rms r).nbrs :=
        ((w.res hr).nbrsMem s).2 ⟨hsr, (f, g), List.mem_zipIdx_iff_getElem?.2 hf, hb⟩
      have hgb : g ∈ betweenFaces part r s m.faces := mem_betweenFaces.2 ⟨f, hf, hb⟩
      obtain ⟨j, hj, hjg⟩ := List.mem_iff_getElem.1 hgb
      have hj' : (betweenFaces part r s m.faces)[j]? = some g := by
        rw [List.getElem?_eq_getElem hj, hjg]
      have h3 := u3 _ _ (w.ghosts_of hr (w.idx hr hsm)) j g i hj' hi (!isLeft (rms r) r i)
      rw [if_neg (by cases isLeft (rms r) r i <;> simp)] at h3
      exact h3
    have hsome : ∀ s < nranks, ∀ b, ∀ is : ℕ, (rms s).l2gFace[is]? = some g →
        ∃ v, ((st s).1.get b)[is]? = some v := by
      intro s hs b is his
      refine ⟨_, List.getElem?_eq_getElem ?_⟩
      rw [(hst' s hs).get (w.numIF hs)]
      exact (List.getElem?_eq_some_iff.1 his).1
    have same : ∀ s < nranks, ∀ x y : ℕ, (rms s).l2gFace[x]? = some g →
        (rms s).l2gFace[y]? = some g → x = y := by
      intro s hs x y h1 h2
      have := (w.tables hs).tab.localRoundTrip
      obtain ⟨a1, a2⟩ := List.getElem?_eq_some_iff.1 h1
      obtain ⟨b1, b2⟩ := List.getElem?_eq_some_iff.1 h2
      rw [← this x a1, a2, ← b2, this y b1]
    refine ⟨?_, ?_, hsome rl hrl false il hil, hsome rr hrrn true ir hir⟩
    · rcases htouch with rfl | rfl
      · have hb : Between part r rr f := Or.inl ⟨hl, hrr⟩
        have := keep rr hrrn hne.symm hb
        rw [hleft] at this
        rw [same r hr il i hil hi]
        simp only [decide_true, Bool.not_true] at this
        exact this
      · have hb : Between part r rl f := Or.inr ⟨hl, hrr⟩
        have := key rl hrl hne hb il hil
        rw [hleft, w.isLeft_iff hrl hil hf hl] at this
        simp only [hne, decide_false, decide_true] at this
        exact this
    · rcases htouch with rfl | rfl
      · have hb : Between part r rr f := Or.inl ⟨hl, hrr⟩
        have := key rr hrrn hne.symm hb ir hir
        rw [hleft, w.isLeft_iff hrrn hir hf hl] at this
        simp only [hne, decide_false, decide_true] at this
        exact this
      · have hb : Between part r rl f := Or.inr ⟨hl, hrr⟩
        have := keep rl hrl hne hb
        rw [hleft] at this
        rw [same r hr ir i hir hi]
        simp only [hne, decide_false, Bool.not_false] at this
        exact this

/-- C08: whatever the interleaving, once rank `r` has completed the exchange, for every face stored
on it: if the face lies between two ranks, its left state is the left state held before the exchange
by the rank of the left element and its right state the right state held by the rank of the right
element (so the state the rank owned is unchanged, and both ranks hold the same two states); if both
elements are on this rank, both states are unchanged. -/
theorem C08_ghost_states_agree (m : GMesh α) (nranks : ℕ) (part : List ℕ) (rms : ℕ → RankMesh α)
    (w : World m nranks part rms) (old : ℕ → FaceArr β)
    (hst : ∀ r < nranks, Sized (rms r) (old r)) (n : ℕ)
    (c : Proto.Conf (FaceArr β × Unit) (List β))
    (hx : Proto.Exec (exchangeProg rms nranks 1 (fun _ s => s))
      (Proto.init (fun r => (old r, ()))) c n)
    (r : ℕ) (hr : r < nranks) (hdone : (c.proc r).round = 1)
    (i g : ℕ) (hi : (rms r).l2gFace[i]? = some g) (f : IFace) (hf : IsFace m g f) (rl rr : ℕ)
    (hl : Owns part rl f.elemL) (hrr : Owns part rr f.elemR) :
    (rl = rr → (c.proc r).st.1.L[i]? = (old r).L[i]? ∧ (c.proc r).st.1.R[i]? = (old r).R[i]?) ∧
    (rl ≠ rr → ∀ il ir : ℕ, (rms rl).l2gFace[il]? = some g → (rms rr).l2gFace[ir]? = some g →
      (c.proc r).st.1.L[i]? = (old rl).L[il]? ∧ (c.proc r).st.1.R[i]? = (old rr).R[ir]? ∧
      (∃ v, (old rl).L[il]? = some v) ∧ ∃ v, (old rr).R[ir]? = some v) := by
  have hst' : ∀ r < nranks, Sized (rms r) ((fun r => (old r, ()) : ℕ → FaceArr β × Unit) r).1 := hst
  have hI := w.reach (comp := fun _ s => s) (fun _ _ _ => ⟨rfl, rfl⟩) hst' hx
  have hS : (c.proc r).st = syncStep rms (fun _ s => s) (fun r => (old r, ())) r := by
    rw [(hI.ph r hr).1, hdone]; rfl
  obtain ⟨U', u1, _, u3⟩ := w.exchange_states hst' r hr
  have hU : (c.proc r).st.1 = U' := by rw [hS]; unfold syncStep; rw [u1]
  rw [hU]
  exact u3 i g hi f hf rl rr hl hrr

/-! ### non-vacuity: two ranks, four elements, two ghost faces -/

/-- the meshes of the two ranks of the example; rank 1 iterates its hash set in reverse order -/
def exRms (r : ℕ) : RankMesh ℕ :=
  match partition exMesh 2 2 exPart List.reverse r with
  | some rm => rm
  | none => ⟨0, 0, 0, 0, [], [], [], [], [], [], [], [], []⟩

theorem exWorld : World exMesh 2 exPart exRms where
  mesh := exMesh_ok
  parts := exPart_ok
  ranks := by
    intro r hr
    refine ⟨List.reverse, fun l => List.reverse_perm l, ?_⟩
    have : r = 0 ∨ r = 1 := by omega
    rcases this with rfl | rfl <;> rfl

/-- three faces on each rank; the value of a state encodes rank, side and face -/
def exOld (r : ℕ) : FaceArr ℕ :=
  ⟨(List.range 3).map (fun i => 100 * r + i), (List.range 3).map (fun i => 100 * r + 10 + i)⟩

theorem exSized : ∀ r < 2, Sized (exRms r) (exOld r) := by
  intro r hr
  have : r = 0 ∨ r = 1 := by omega
  rcases this with rfl | rfl <;> exact ⟨by decide, by decide⟩

/-- a complete execution exists, and in it the exchange has an effect -/
example : ∃ c n, Proto.Exec (exchangeProg exRms 2 1 (fun _ s => s))
      (Proto.init (fun r => (exOld r, ()))) c n ∧ (∀ r < 2, (c.proc r).round = 1) ∧
      (c.proc 0).st.1.L[0]? = some 100 := by
  obtain ⟨c, n, hx, hd⟩ := (C09_terminates exMesh 2 exPart exRms exWorld (fun _ s => s)
    (fun _ _ _ => ⟨rfl, rfl⟩) (fun r => (exOld r, ())) exSized 1 0 _ Proto.Exec.refl).2.2
  refine ⟨c, n, hx, hd, ?_⟩
  have := (C08_ghost_states_agree exMesh 2 exPart exRms exWorld exOld exSized n c hx 0 (by omega)
    (hd 0 (by omega)) 0 0 (by decide) ⟨0, 1, 0, 1, 3, 1⟩ rfl 1 0 (by decide) (by decide)).2
    (by omega) 0 0 (by decide) (by decide)
  rw [this.1]; decide

end DG
