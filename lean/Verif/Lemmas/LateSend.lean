import Verif.Model.LateSend
import Verif.Lemmas.Network

/-! Late sends do what eager sends do, if the buffers live until the barrier. -/
namespace DG.Late
open DG.Proto (Phase Prog Proc SyncRun Inv)

variable {σ μ : Type} {P : Prog σ μ} {S : ℕ → ℕ → σ} {M : ℕ → ℕ → ℕ → μ}

/-- in the eager protocol: nothing sent by a rank is in flight when it starts an exchange -/
theorem chan_nil_of_start (hR : SyncRun P S M) {a : Proto.Conf σ μ} (hI : Inv P S M a) {r : ℕ} (hr : r < P.nranks)
    (hph : (a.proc r).phase = .send 0) : ∀ d ∈ P.nbrs r, a.chan r d = [] := by
  intro d hd
  obtain ⟨hdn, hrd⟩ := hR.symm r hr d hd
  obtain ⟨h1, h2⟩ := hI.chan d hdn r hrd
  have hs : Proto.sentN P a r d = (a.proc r).round := by simp [Proto.sentN, hph]
  have hr' : (a.proc r).round ≤ Proto.recvN P a d r := by
    by_cases hlt : (a.proc d).round < (a.proc r).round
    · obtain ⟨h3, h4⟩ := hI.lag r hr d hdn hlt
      unfold Proto.recvN
      rw [h4, h3]
    · unfold Proto.recvN; omega
  rw [h2, hs]
  have : (a.proc r).round - Proto.recvN P a d r = 0 := by omega
  rw [this]; rfl

/-- The state `a` of the eager protocol that a state of the late protocol stands for. -/
structure Rep (P : Prog σ μ) (c : Conf σ μ) (a : Proto.Conf σ μ) : Prop where
  proc : a.proc = c.proc
  chan : ∀ s d, List.Forall₂ (fun it m => c.read s it = some m) (c.chan s d) (a.chan s d)
  only : ∀ s d, d ∉ P.nbrs s → a.chan s d = []
  buf : ∀ r t k m, c.buf r t k = some m → t = (c.proc r).round ∧ ∀ j, (c.proc r).phase = .send j → k < j
  fault : c.fault = false

theorem rep_init (st0 : ℕ → σ) : Rep P (init st0) (Proto.init st0) where
  proc := rfl
  chan := fun _ _ => List.Forall₂.nil
  only := fun _ _ _ => rfl
  buf := fun _ _ _ _ h => by cases h
  fault := rfl

/-- number of messages in flight that are not copied yet -/
def isWaiting : Item μ → Bool
  | .waiting _ _ => true
  | .copied _ => false

def weight (n : ℕ) (c : Conf σ μ) : ℕ :=
  ∑ x ∈ Finset.range n ×ˢ Finset.range n, (c.chan x.1 x.2).countP isWaiting

theorem weight_change {n s d : ℕ} (hs : s < n) (hd : d < n) {c c' : Conf σ μ} (h : ∀ x y, ¬(x = s ∧ y = d) →
    c'.chan x y = c.chan x y) :
    weight n c' + (c.chan s d).countP isWaiting = weight n c + (c'.chan s d).countP isWaiting := by
  have hm : (s, d) ∈ Finset.range n ×ˢ Finset.range n := by simp [hs, hd]
  unfold weight
  rw [← Finset.add_sum_erase _ _ hm, ← Finset.add_sum_erase _ (fun x => (c.chan x.1 x.2).countP isWaiting) hm]
  have : ∑ x ∈ (Finset.range n ×ˢ Finset.range n).erase (s, d), (c'.chan x.1 x.2).countP isWaiting =
      ∑ x ∈ (Finset.range n ×ˢ Finset.range n).erase (s, d), (c.chan x.1 x.2).countP isWaiting := by
    refine Finset.sum_congr rfl fun x hx => ?_
    rw [h x.1 x.2 fun hh => Finset.ne_of_mem_erase hx (Prod.ext hh.1 hh.2)]
  rw [this]
  ring

theorem weight_same {n : ℕ} {c c' : Conf σ μ} (h : c'.chan = c.chan) : weight n c' = weight n c := by
  unfold weight; rw [h]

theorem arrived_iff {c : Conf σ μ} {a : Proto.Conf σ μ} (h : a.proc = c.proc) (t s : ℕ) :
    Arrived c t s ↔ Proto.Arrived a t s := by
  unfold Arrived Proto.Arrived; rw [h]

theorem Rep.setProc {c : Conf σ μ} {a : Proto.Conf σ μ} (h : Rep P c a) (r : ℕ) (p : Proc σ μ)
    (hp : p.round = (c.proc r).round) (hph : ∀ j, p.phase ≠ .send j) : Rep P (c.setProc r p) (a.setProc r p) where
  proc := by funext x; simp [Conf.setProc, Proto.Conf.setProc, h.proc]
  chan := fun s d => h.chan s d
  only := h.only
  buf := by
    intro x t k m hb
    obtain ⟨h1, h2⟩ := h.buf x t k m hb
    by_cases hx : x = r
    · subst hx
      simp only [Conf.setProc, if_true]
      exact ⟨h1.trans hp.symm, fun j hj => absurd hj (hph j)⟩
    · simp only [Conf.setProc, if_neg hx]
      exact ⟨h1, h2⟩
  fault := h.fault

theorem sim (hR : SyncRun P S M) {c c' : Conf σ μ} {a : Proto.Conf σ μ} (hI : Inv P S M a) (h : Rep P c a) {r : ℕ}
    (hr : r < P.nranks) (hs : Step P false r c c') :
    (∃ a', Proto.Step P r a a' ∧ Rep P c' a' ∧ weight P.nranks c' ≤ weight P.nranks c + 1) ∨
      (Rep P c' a ∧ weight P.nranks c' + 1 = weight P.nranks c) := by
  have hp : ∀ x, c.proc x = a.proc x := fun x => by rw [h.proc]
  cases hs with
  | send k d m hrd hph hd hm =>
    left
    have hd' := (hR.symm r hr d (List.mem_of_getElem? hd)).1
    refine ⟨_, .send k d m (hp r ▸ hrd) (hp r ▸ hph) hd (hp r ▸ hm), ?_, ?_⟩
    · have hnone : c.buf r (c.proc r).round k = none := by
        cases hb : c.buf r (c.proc r).round k with
        | none => rfl
        | some x => exact absurd ((h.buf r _ k x hb).2 k hph) (lt_irrefl _)
      have hread : ∀ s it m', c.read s it = some m' →
          (c.setBuf r (c.proc r).round k (some m)).read s it = some m' := by
        intro s it m' hx
        cases it with
        | copied y => exact hx
        | waiting t j =>
          have hx' : c.buf s t j = some m' := hx
          show (if s = r ∧ t = (c.proc r).round ∧ j = k then some m else c.buf s t j) = some m'
          rw [if_neg, hx']
          rintro ⟨rfl, rfl, rfl⟩
          rw [hnone] at hx'; cases hx'
      refine ⟨?_, ?_, ?_, ?_, h.fault⟩
      · funext x
        simp only [Proto.Conf.setProc, Proto.Conf.setChan, Conf.setProc, Conf.setChan, Conf.setBuf, hp]
      · intro s y
        simp only [Proto.Conf.setProc, Proto.Conf.setChan, Conf.setProc, Conf.setChan]
        by_cases hsd : s = r ∧ y = d
        · obtain ⟨rfl, rfl⟩ := hsd
          simp only [and_self, if_true]
          refine List.rel_append ((h.chan s y).imp fun it m' hx => hread s it m' hx) ?_
          refine List.Forall₂.cons ?_ List.Forall₂.nil
          show (if s = s ∧ (c.proc s).round = (c.proc s).round ∧ k = k then some m else c.buf s _ k) = some m
          simp
        · simp only [if_neg hsd]
          exact (h.chan s y).imp fun it m' hx => hread s it m' hx
      · intro s y hy
        simp only [Proto.Conf.setProc, Proto.Conf.setChan]
        by_cases hsd : s = r ∧ y = d
        · obtain ⟨rfl, rfl⟩ := hsd
          exact absurd (List.mem_of_getElem? hd) hy
        · simp only [if_neg hsd]
          exact h.only s y hy
      · intro x t j m' hb
        have hb' : (if x = r ∧ t = (c.proc r).round ∧ j = k then some m else c.buf x t j) = some m' := hb
        simp only [Conf.setProc, Conf.setChan, Conf.setBuf]
        by_cases hx : x = r ∧ t = (c.proc r).round ∧ j = k
        · obtain ⟨rfl, rfl, rfl⟩ := hx
          refine ⟨by simp, fun i hi => ?_⟩
          simp only [if_true] at hi
          cases hi; omega
        · rw [if_neg hx] at hb'
          obtain ⟨h1, h2⟩ := h.buf x t j m' hb'
          by_cases hxr : x = r
          · subst hxr
            simp only [if_true]
            refine ⟨h1, fun i hi => ?_⟩
            cases hi
            have := h2 k hph
            omega
          · simp only [if_neg hxr]
            exact ⟨h1, h2⟩
    · have := weight_change (n := P.nranks) (s := r) (d := d) hr hd' (c := c)
        (c' := ((c.setBuf r (c.proc r).round k (if false then none else some m)).setChan r d
          (c.chan r d ++ [.waiting (c.proc r).round k])).setProc r { c.proc r with phase := .send (k + 1) })
        (fun x y hxy => by simp only [Conf.setProc, Conf.setChan, Conf.setBuf, if_neg hxy])
      have e : (((c.setBuf r (c.proc r).round k (if false then none else some m)).setChan r d
          (c.chan r d ++ [.waiting (c.proc r).round k])).setProc r { c.proc r with phase := .send (k + 1) }).chan r d =
          c.chan r d ++ [.waiting (c.proc r).round k] := by simp [Conf.setProc, Conf.setChan]
      rw [e] at this
      simp only [List.countP_append, List.countP_cons, List.countP_nil, isWaiting, if_true] at this
      refine le_of_eq (Nat.add_right_cancel (m := (c.chan r d).countP isWaiting) (Eq.trans this ?_))
      simp only [Nat.zero_add]
      ring
  | sendFail k d hrd hph hd hm =>
    exact Or.inl ⟨_, .sendFail k d (hp r ▸ hrd) (hp r ▸ hph) hd (hp r ▸ hm),
      hp r ▸ h.setProc r _ rfl (by simp), (weight_same rfl).le.trans (Nat.le_succ _)⟩
  | sendEnd k hrd hph hd =>
    exact Or.inl ⟨_, .sendEnd k (hp r ▸ hrd) (hp r ▸ hph) hd,
      hp r ▸ h.setProc r _ rfl (by simp), (weight_same rfl).le.trans (Nat.le_succ _)⟩
  | recv k s it m rest hph hd hc hrd ha =>
    left
    have hs' := (hR.symm r hr s (List.mem_of_getElem? hd)).1
    have hF := h.chan s r
    rw [hc] at hF
    obtain ⟨m', rest', hm', hrest, hac⟩ := List.forall₂_cons_left_iff.1 hF
    obtain rfl : m = m' := Option.some.inj (hrd.symm.trans hm')
    refine ⟨_, .recv k s m rest' (hp r ▸ hph) hd hac ha, ?_, ?_⟩
    · rw [← hp r]
      refine Rep.setProc (c := c.setChan s r rest) (a := a.setChan s r rest') ?_ r _ rfl (by simp)
      refine ⟨h.proc, ?_, ?_, h.buf, h.fault⟩
      · intro x y
        simp only [Proto.Conf.setChan, Conf.setChan]
        by_cases hxy : x = s ∧ y = r
        · obtain ⟨rfl, rfl⟩ := hxy
          simp only [and_self, if_true]
          exact hrest
        · simp only [if_neg hxy]
          exact h.chan x y
      · intro x y hy
        simp only [Proto.Conf.setChan]
        by_cases hxy : x = s ∧ y = r
        · obtain ⟨rfl, rfl⟩ := hxy
          exact absurd (hR.symm y hr x (List.mem_of_getElem? hd)).2 hy
        · simp only [if_neg hxy]
          exact h.only x y hy
    · have := weight_change (n := P.nranks) (s := s) (d := r) hs' hr (c := c)
        (c' := (c.setChan s r rest).setProc r { c.proc r with phase := .recv (k + 1), bufs := (c.proc r).bufs ++ [m] })
        (fun x y hxy => by simp only [Conf.setProc, Conf.setChan, if_neg hxy])
      have e : ((c.setChan s r rest).setProc r { c.proc r with
          phase := .recv (k + 1), bufs := (c.proc r).bufs ++ [m] }).chan s r = rest := by simp [Conf.setProc, Conf.setChan]
      rw [e, hc, List.countP_cons] at this
      omega
  | recvFail k s it m rest hph hd hc hrd ha =>
    have hF := h.chan s r
    rw [hc] at hF
    obtain ⟨m', rest', hm', hrest, hac⟩ := List.forall₂_cons_left_iff.1 hF
    obtain rfl : m = m' := Option.some.inj (hrd.symm.trans hm')
    exact Or.inl ⟨_, .recvFail k s m rest' (hp r ▸ hph) hd hac ha,
      hp r ▸ h.setProc r _ rfl (by simp), (weight_same rfl).le.trans (Nat.le_succ _)⟩
  | recvFault k s it rest hph hd hc hrd =>
    have hF := h.chan s r
    rw [hc] at hF
    obtain ⟨m', rest', hm', hrest, hac⟩ := List.forall₂_cons_left_iff.1 hF
    rw [hrd] at hm'; cases hm'
  | recvEnd k hph hd =>
    exact Or.inl ⟨_, .recvEnd k (hp r ▸ hph) hd,
      hp r ▸ h.setProc r _ rfl (by simp), (weight_same rfl).le.trans (Nat.le_succ _)⟩
  | barrier st' hph hall hf =>
    left
    have hstep : Proto.Step P r a _ := .barrier st' (hp r ▸ hph)
      (fun s hs => by rw [← hp r]; exact (arrived_iff h.proc _ s).1 (hall s hs)) (hp r ▸ hf)
    refine ⟨_, hstep, ?_, (weight_same rfl).le.trans (Nat.le_succ _)⟩
    have hnil := chan_nil_of_start hR (Proto.inv_step hR hI hr hstep) hr (by simp)
    refine ⟨?_, ?_, h.only, ?_, h.fault⟩
    · funext x
      simp only [Proto.Conf.setProc, Conf.setProc, Conf.freeAll, hp]
    · intro x y
      by_cases hx : x = r
      · subst hx
        have h0 : a.chan x y = [] := by
          by_cases hy : y ∈ P.nbrs x
          · exact hnil y hy
          · exact h.only x y hy
        have h1 := h.chan x y
        rw [h0] at h1
        show List.Forall₂ _ (c.chan x y) (a.chan x y)
        rw [List.forall₂_nil_right_iff.1 h1, h0]
        exact List.Forall₂.nil
      · show List.Forall₂ _ (c.chan x y) (a.chan x y)
        refine (h.chan x y).imp fun it m' hm' => ?_
        cases it with
        | copied z => exact hm'
        | waiting t j =>
          show (if x = r ∧ t = (c.proc r).round then none else c.buf x t j) = some m'
          rw [if_neg (fun hh => hx hh.1)]
          exact hm'
    · intro x t j m' hb
      have hb' : (if x = r ∧ t = (c.proc r).round then none else c.buf x t j) = some m' := hb
      by_cases hx : x = r ∧ t = (c.proc r).round
      · rw [if_pos hx] at hb'; cases hb'
      · rw [if_neg hx] at hb'
        have h1 := h.buf x t j m' hb'
        have hxr : x ≠ r := by
          rintro rfl
          exact hx ⟨rfl, h1.1⟩
        simp only [Conf.setProc, if_neg hxr]
        exact h1
  | barrierFail hph hall hf =>
    exact Or.inl ⟨_, .barrierFail (hp r ▸ hph) (fun s hs => by rw [← hp r]; exact (arrived_iff h.proc _ s).1 (hall s hs))
      (hp r ▸ hf), hp r ▸ h.setProc r _ rfl (by simp), (weight_same rfl).le.trans (Nat.le_succ _)⟩
  | copy d pre post t k m hd hc hb =>
    right
    refine ⟨⟨h.proc, ?_, h.only, h.buf, h.fault⟩, ?_⟩
    · intro x y
      show List.Forall₂ (fun it m => c.read x it = some m)
        (if x = r ∧ y = d then pre ++ .copied m :: post else c.chan x y) (a.chan x y)
      by_cases hxy : x = r ∧ y = d
      · rw [if_pos hxy]
        obtain ⟨rfl, rfl⟩ := hxy
        have hF := h.chan x y
        rw [hc] at hF
        generalize a.chan x y = l at hF
        clear hc
        induction pre generalizing l with
        | nil =>
          obtain ⟨m', l', h1, h2, rfl⟩ := List.forall₂_cons_left_iff.1 hF
          refine List.Forall₂.cons ?_ h2
          exact hb.symm.trans h1
        | cons i pre ih =>
          obtain ⟨m', l', h1, h2, rfl⟩ := List.forall₂_cons_left_iff.1 hF
          exact List.Forall₂.cons h1 (ih l' h2)
      · rw [if_neg hxy]
        exact h.chan x y
    · have := weight_change (n := P.nranks) (s := r) (d := d) hr hd (c := c)
        (c' := c.setChan r d (pre ++ .copied m :: post))
        (fun x y hxy => by simp only [Conf.setChan, if_neg hxy])
      have e : (c.setChan r d (pre ++ .copied m :: post)).chan r d = pre ++ .copied m :: post := by
        simp [Conf.setChan]
      rw [e, hc] at this
      simp only [List.countP_append, List.countP_cons, isWaiting, if_true] at this
      simp at this
      omega
  | copyFault d pre post t k hd hc hb =>
    exfalso
    have hF := h.chan r d
    rw [hc] at hF
    generalize a.chan r d = l at hF
    clear hc
    induction pre generalizing l with
    | nil =>
      obtain ⟨m', l', h1, h2, rfl⟩ := List.forall₂_cons_left_iff.1 hF
      exact absurd (hb.symm.trans h1) (by simp)
    | cons i pre ih =>
      obtain ⟨m', l', h1, h2, rfl⟩ := List.forall₂_cons_left_iff.1 hF
      exact ih l' h2

/-- every step of the eager protocol can be made by the late one -/
theorem sim_back {c : Conf σ μ} {a a' : Proto.Conf σ μ} (h : Rep P c a) {r : ℕ} (hs : Proto.Step P r a a') :
    ∃ c', Step P false r c c' := by
  have hp : ∀ x, a.proc x = c.proc x := fun x => by rw [h.proc]
  have hrd : ∀ {s m rest}, a.chan s r = m :: rest → ∃ it rest', c.chan s r = it :: rest' ∧ c.read s it = some m := by
    intro s m rest hc
    have hF := h.chan s r
    rw [hc] at hF
    obtain ⟨it, rest', h1, h2, h3⟩ := List.forall₂_cons_right_iff.1 hF
    exact ⟨it, rest', h3, h1⟩
  cases hs with
  | send k d m hrd hph hd hm => exact ⟨_, .send k d m (hp r ▸ hrd) (hp r ▸ hph) hd (hp r ▸ hm)⟩
  | sendFail k d hrd hph hd hm => exact ⟨_, .sendFail k d (hp r ▸ hrd) (hp r ▸ hph) hd (hp r ▸ hm)⟩
  | sendEnd k hrd hph hd => exact ⟨_, .sendEnd k (hp r ▸ hrd) (hp r ▸ hph) hd⟩
  | recv k s m rest hph hd hc ha =>
    obtain ⟨it, rest', h1, h2⟩ := hrd hc
    exact ⟨_, .recv k s it m rest' (hp r ▸ hph) hd h1 h2 ha⟩
  | recvFail k s m rest hph hd hc ha =>
    obtain ⟨it, rest', h1, h2⟩ := hrd hc
    exact ⟨_, .recvFail k s it m rest' (hp r ▸ hph) hd h1 h2 ha⟩
  | recvEnd k hph hd => exact ⟨_, .recvEnd k (hp r ▸ hph) hd⟩
  | barrier st' hph hall hf =>
    exact ⟨_, .barrier st' (hp r ▸ hph) (fun s hs => by
      rw [← hp r]; exact (arrived_iff h.proc _ s).2 (hall s hs)) (hp r ▸ hf)⟩
  | barrierFail hph hall hf =>
    exact ⟨_, .barrierFail (hp r ▸ hph) (fun s hs => by
      rw [← hp r]; exact (arrived_iff h.proc _ s).2 (hall s hs)) (hp r ▸ hf)⟩

theorem Exec.trans {mirror : Bool} {a b c : Conf σ μ} {n k : ℕ} (h : Exec P mirror a b n) (h' : Exec P mirror b c k) :
    Exec P mirror a c (n + k) := by
  induction h' with
  | refl => exact h
  | step r _ hr hs ih => exact Exec.step r ih hr hs

/-- an execution with late sends stands for an eager one -/
theorem exec_sim (hR : SyncRun P S M) (st0 : ℕ → σ) (h0 : ∀ r < P.nranks, st0 r = S 0 r) {c : Conf σ μ} {n : ℕ}
    (hx : Exec P false (init st0) c n) :
    ∃ a n', Proto.Exec P (Proto.init st0) a n' ∧ Rep P c a ∧ n + weight P.nranks c ≤ 2 * n' := by
  induction hx with
  | refl => exact ⟨_, 0, .refl, rep_init st0, by simp [weight, init]⟩
  | @step c₁ c₂ n r hx hr hs ih =>
    obtain ⟨a, n', h1, h2, h3⟩ := ih
    have hI := Proto.inv_exec hR (Proto.inv_init P S M st0 h0) h1
    rcases sim hR hI h2 hr hs with ⟨a', g1, g2, g3⟩ | ⟨g1, g2⟩
    · exact ⟨a', n' + 1, .step r h1 hr g1, g2, by omega⟩
    · exact ⟨a, n', h1, g1, by omega⟩

/-- every state reached with late sends can be continued to the end -/
theorem exec_finish (hR : SyncRun P S M) (st0 : ℕ → σ) (h0 : ∀ r < P.nranks, st0 r = S 0 r) {c : Conf σ μ} {n : ℕ}
    (hx : Exec P false (init st0) c n) :
    ∃ c' n', Exec P false c c' n' ∧ ∀ r < P.nranks, (c'.proc r).round = P.rounds := by
  have bound : ∀ {c : Conf σ μ} {n : ℕ}, Exec P false (init st0) c n →
      n ≤ 2 * ∑ r ∈ Finset.range P.nranks, P.rounds * (2 * (P.nbrs r).length + 3) := by
    intro c n hx
    obtain ⟨a, n', h1, -, h3⟩ := exec_sim hR st0 h0 hx
    have hI0 := Proto.inv_init P S M st0 h0
    have h4 := Proto.exec_steps hR hI0 h1
    have h5 : ∑ r ∈ Finset.range P.nranks, Proto.prog P r (a.proc r)
        ≤ ∑ r ∈ Finset.range P.nranks, P.rounds * (2 * (P.nbrs r).length + 3) :=
      Finset.sum_le_sum (fun r hr => Proto.prog_le (Proto.inv_exec hR hI0 h1) (Finset.mem_range.1 hr))
    omega
  generalize hB : (2 * ∑ r ∈ Finset.range P.nranks, P.rounds * (2 * (P.nbrs r).length + 3)) - n = B
  induction B using Nat.strong_induction_on generalizing c n with
  | _ B ih =>
    obtain ⟨a, n', h1, h2, h3⟩ := exec_sim hR st0 h0 hx
    have hI := Proto.inv_exec hR (Proto.inv_init P S M st0 h0) h1
    by_cases hd : ∃ r < P.nranks, (c.proc r).round < P.rounds
    · obtain ⟨r, hr, a2, hs⟩ := Proto.progress hR hI (by rw [h2.proc]; exact hd)
      obtain ⟨c2, hs2⟩ := sim_back h2 hs
      have hx2 := Exec.step r hx hr hs2
      have hb := bound hx2
      obtain ⟨c3, n3, g1, g2⟩ := ih _ (by omega) hx2 rfl
      exact ⟨c3, _, (Exec.step r Exec.refl hr hs2).trans g1, g2⟩
    · refine ⟨c, 0, .refl, fun r hr => ?_⟩
      have h3 := (hI.ph r hr).2
      have h4 : ¬ (c.proc r).round < P.rounds := fun h => hd ⟨r, hr, h⟩
      rw [h2.proc] at h3
      cases hp : (c.proc r).phase with
      | send k => rw [hp] at h3; simp only at h3; omega
      | recv k => rw [hp] at h3; simp only at h3; omega
      | barr => rw [hp] at h3; simp only at h3; omega
      | failed => rw [hp] at h3; exact h3.elim

end DG.Late
