import Verif.Model.Network
import Mathlib.Data.List.Forall2

/-! Two programs of the exchange protocol that differ in their local data run in step. -/
namespace DG.Proto

variable {σ μ σ' μ' : Type}

/-- `P'` does with its data what `P` does, as long as `P` stays in good states. -/
structure Sim (P : Prog σ μ) (P' : Prog σ' μ') (Good : ℕ → σ → Prop) (Rs : ℕ → σ → σ' → Prop)
    (Rm : μ → μ' → Prop) : Prop where
  nranks : P'.nranks = P.nranks
  rounds : P'.rounds = P.rounds
  nbrs : ∀ r, P'.nbrs r = P.nbrs r
  pack : ∀ r < P.nranks, ∀ (k d : ℕ) st st' m, (P.nbrs r)[k]? = some d → Rs r st st' → P.pack r st k = some m →
    ∃ m', P'.pack r st' k = some m' ∧ Rm m m'
  accept : ∀ r < P.nranks, ∀ (k : ℕ) m m', Rm m m' → P'.accept r k m' = P.accept r k m
  finish : ∀ r < P.nranks, ∀ st st' bufs bufs' st1, Rs r st st' → List.Forall₂ Rm bufs bufs' →
    P.finish r st bufs = some st1 → Good r st1 →
    ∃ st1', P'.finish r st' bufs' = some st1' ∧ Rs r st1 st1'

/-- related states of the whole machine -/
structure CRel (n : ℕ) (Rs : ℕ → σ → σ' → Prop) (Rm : μ → μ' → Prop) (c : Conf σ μ) (c' : Conf σ' μ') : Prop where
  round : ∀ r < n, (c'.proc r).round = (c.proc r).round
  phase : ∀ r < n, (c'.proc r).phase = (c.proc r).phase
  st : ∀ r < n, Rs r (c.proc r).st (c'.proc r).st
  bufs : ∀ r < n, List.Forall₂ Rm (c.proc r).bufs (c'.proc r).bufs
  chan : ∀ s d, List.Forall₂ Rm (c.chan s d) (c'.chan s d)

section
variable {n : ℕ} {Rs : ℕ → σ → σ' → Prop} {Rm : μ → μ' → Prop} {c : Conf σ μ} {c' : Conf σ' μ'}

theorem CRel.setProc (h : CRel n Rs Rm c c') (r : ℕ) {p : Proc σ μ} {p' : Proc σ' μ'}
    (h1 : p'.round = p.round) (h2 : p'.phase = p.phase) (h3 : Rs r p.st p'.st)
    (h4 : List.Forall₂ Rm p.bufs p'.bufs) : CRel n Rs Rm (c.setProc r p) (c'.setProc r p') := by
  refine ⟨?_, ?_, ?_, ?_, h.chan⟩ <;> intro x hx <;> simp only [Conf.setProc] <;> by_cases e : x = r
  · simp only [e, if_true, h1]
  · simp only [e, if_false]; exact h.round x hx
  · simp only [e, if_true, h2]
  · simp only [e, if_false]; exact h.phase x hx
  · subst e; simp only [if_true]; exact h3
  · simp only [e, if_false]; exact h.st x hx
  · simp only [e, if_true, h4]
  · simp only [e, if_false]; exact h.bufs x hx

theorem CRel.setChan (h : CRel n Rs Rm c c') (s d : ℕ) {l : List μ} {l' : List μ'}
    (hl : List.Forall₂ Rm l l') : CRel n Rs Rm (c.setChan s d l) (c'.setChan s d l') := by
  refine ⟨h.round, h.phase, h.st, h.bufs, ?_⟩
  intro x y
  simp only [Conf.setChan]
  by_cases e : x = s ∧ y = d
  · simp only [e, and_self, if_true]; exact hl
  · simp only [e, if_false]; exact h.chan x y

theorem CRel.arrived (h : CRel n Rs Rm c c') {t s : ℕ} (hs : s < n) : Arrived c' t s ↔ Arrived c t s := by
  simp only [Arrived, h.round s hs, h.phase s hs]
end

theorem forall2_append {A B : Type} {R : A → B → Prop} {l1 l2 : List A} {l1' l2' : List B}
    (h1 : List.Forall₂ R l1 l1') (h2 : List.Forall₂ R l2 l2') : List.Forall₂ R (l1 ++ l2) (l1' ++ l2') := by
  induction h1 with
  | nil => exact h2
  | cons h _ ih => exact .cons h ih

variable {P : Prog σ μ} {P' : Prog σ' μ'} {Good : ℕ → σ → Prop} {Rs : ℕ → σ → σ' → Prop} {Rm : μ → μ' → Prop}

/-- a step of `P'` is a step of `P` -/
theorem Sim.back (S : Sim P P' Good Rs Rm) {c : Conf σ μ} {c' c1' : Conf σ' μ'} {r : ℕ} (hr : r < P.nranks)
    (h : CRel P.nranks Rs Rm c c')
    (hgood : ∀ c1, Step P r c c1 → (c1.proc r).phase ≠ .failed ∧ Good r (c1.proc r).st)
    (hst : Step P' r c' c1') : ∃ c1, Step P r c c1 ∧ CRel P.nranks Rs Rm c1 c1' := by
  have hself : ∀ (c : Conf σ μ) (p : Proc σ μ), (c.setProc r p).proc r = p := fun c p => by
    simp [Conf.setProc]
  cases hst with
  | send k d m' hrd hph hd hm =>
    rw [S.nbrs] at hd
    rw [h.round r hr, S.rounds] at hrd
    rw [h.phase r hr] at hph
    cases hp : P.pack r (c.proc r).st k with
    | none =>
      have := (hgood _ (.sendFail k d hrd hph hd hp)).1
      rw [hself] at this; exact absurd rfl this
    | some m =>
      obtain ⟨m1, e1, e2⟩ := S.pack r hr k d _ _ m hd (h.st r hr) hp
      rw [hm] at e1; cases e1
      exact ⟨_, .send k d m hrd hph hd hp, (h.setChan r d (forall2_append (h.chan r d)
        (.cons e2 .nil))).setProc r (h.round r hr) rfl (h.st r hr) (h.bufs r hr)⟩
  | sendFail k d hrd hph hd hm =>
    rw [S.nbrs] at hd
    rw [h.round r hr, S.rounds] at hrd
    rw [h.phase r hr] at hph
    cases hp : P.pack r (c.proc r).st k with
    | none =>
      have := (hgood _ (.sendFail k d hrd hph hd hp)).1
      rw [hself] at this; exact absurd rfl this
    | some m =>
      obtain ⟨m1, e1, e2⟩ := S.pack r hr k d _ _ m hd (h.st r hr) hp
      rw [hm] at e1; cases e1
  | sendEnd k hrd hph hd =>
    rw [S.nbrs] at hd
    rw [h.round r hr, S.rounds] at hrd
    rw [h.phase r hr] at hph
    exact ⟨_, .sendEnd k hrd hph hd, h.setProc r (h.round r hr) rfl (h.st r hr) .nil⟩
  | recv k s m' rest' hph hd hc ha =>
    rw [S.nbrs] at hd
    rw [h.phase r hr] at hph
    have hch := h.chan s r
    rw [hc] at hch
    generalize hq : c.chan s r = q at hch
    cases hch with
    | cons hm hrest =>
      rw [S.accept r hr k _ _ hm] at ha
      exact ⟨_, .recv k s _ _ hph hd hq ha, (h.setChan s r hrest).setProc r (h.round r hr) rfl (h.st r hr)
        (forall2_append (h.bufs r hr) (.cons hm .nil))⟩
  | recvFail k s m' rest' hph hd hc ha =>
    rw [S.nbrs] at hd
    rw [h.phase r hr] at hph
    have hch := h.chan s r
    rw [hc] at hch
    generalize hq : c.chan s r = q at hch
    cases hch with
    | cons hm hrest =>
      rw [S.accept r hr k _ _ hm] at ha
      have := (hgood _ (.recvFail k s _ _ hph hd hq ha)).1
      rw [hself] at this; exact absurd rfl this
  | recvEnd k hph hd =>
    rw [S.nbrs] at hd
    rw [h.phase r hr] at hph
    exact ⟨_, .recvEnd k hph hd, h.setProc r (h.round r hr) rfl (h.st r hr) (h.bufs r hr)⟩
  | barrier st1' hph hall hf =>
    rw [h.phase r hr] at hph
    have hall' : ∀ s < P.nranks, Arrived c (c.proc r).round s := fun s hs => by
      rw [← h.round r hr]; exact (h.arrived hs).1 (hall s (by rw [S.nranks]; exact hs))
    cases hp : P.finish r (c.proc r).st (c.proc r).bufs with
    | none =>
      have := (hgood _ (.barrierFail hph hall' hp)).1
      rw [hself] at this; exact absurd rfl this
    | some st1 =>
      have hg := (hgood _ (.barrier st1 hph hall' hp)).2
      rw [hself] at hg
      obtain ⟨st2, e1, e2⟩ := S.finish r hr _ _ _ _ st1 (h.st r hr) (h.bufs r hr) hp hg
      rw [hf] at e1; cases e1
      exact ⟨_, .barrier st1 hph hall' hp, h.setProc r (by simp only [h.round r hr]) rfl e2 .nil⟩
  | barrierFail hph hall hf =>
    rw [h.phase r hr] at hph
    have hall' : ∀ s < P.nranks, Arrived c (c.proc r).round s := fun s hs => by
      rw [← h.round r hr]; exact (h.arrived hs).1 (hall s (by rw [S.nranks]; exact hs))
    cases hp : P.finish r (c.proc r).st (c.proc r).bufs with
    | none =>
      have := (hgood _ (.barrierFail hph hall' hp)).1
      rw [hself] at this; exact absurd rfl this
    | some st1 =>
      have hg := (hgood _ (.barrier st1 hph hall' hp)).2
      rw [hself] at hg
      obtain ⟨st2, e1, e2⟩ := S.finish r hr _ _ _ _ st1 (h.st r hr) (h.bufs r hr) hp hg
      rw [hf] at e1; cases e1

/-- a step of `P` is a step of `P'` -/
theorem Sim.forth (S : Sim P P' Good Rs Rm) {c c1 : Conf σ μ} {c' : Conf σ' μ'} {r : ℕ} (hr : r < P.nranks)
    (h : CRel P.nranks Rs Rm c c')
    (hgood : (c1.proc r).phase ≠ .failed ∧ Good r (c1.proc r).st)
    (hst : Step P r c c1) : ∃ c1', Step P' r c' c1' ∧ CRel P.nranks Rs Rm c1 c1' := by
  have hself : ∀ (c : Conf σ μ) (p : Proc σ μ), (c.setProc r p).proc r = p := fun c p => by
    simp [Conf.setProc]
  cases hst with
  | send k d m hrd hph hd hm =>
    obtain ⟨m1, e1, e2⟩ := S.pack r hr k d _ _ m hd (h.st r hr) hm
    exact ⟨_, .send k d m1 (by rw [h.round r hr, S.rounds]; exact hrd) ((h.phase r hr).trans hph)
      (by rw [S.nbrs]; exact hd) e1, (h.setChan r d (forall2_append (h.chan r d)
        (.cons e2 .nil))).setProc r (h.round r hr) rfl (h.st r hr) (h.bufs r hr)⟩
  | sendFail k d hrd hph hd hm => rw [hself] at hgood; exact absurd rfl hgood.1
  | sendEnd k hrd hph hd =>
    exact ⟨_, .sendEnd k (by rw [h.round r hr, S.rounds]; exact hrd) ((h.phase r hr).trans hph)
      (by rw [S.nbrs]; exact hd), h.setProc r (h.round r hr) rfl (h.st r hr) .nil⟩
  | recv k s m rest hph hd hc ha =>
    have hch := h.chan s r
    rw [hc] at hch
    generalize hq : c'.chan s r = q at hch
    cases hch with
    | cons hm hrest =>
      exact ⟨_, .recv k s _ _ ((h.phase r hr).trans hph) (by rw [S.nbrs]; exact hd) hq
        (by rw [S.accept r hr k _ _ hm]; exact ha), (h.setChan s r hrest).setProc r (h.round r hr) rfl
        (h.st r hr) (forall2_append (h.bufs r hr) (.cons hm .nil))⟩
  | recvFail k s m rest hph hd hc ha => rw [hself] at hgood; exact absurd rfl hgood.1
  | recvEnd k hph hd =>
    exact ⟨_, .recvEnd k ((h.phase r hr).trans hph) (by rw [S.nbrs]; exact hd),
      h.setProc r (h.round r hr) rfl (h.st r hr) (h.bufs r hr)⟩
  | barrier st1 hph hall hf =>
    rw [hself] at hgood
    obtain ⟨st2, e1, e2⟩ := S.finish r hr _ _ _ _ st1 (h.st r hr) (h.bufs r hr) hf hgood.2
    refine ⟨_, .barrier st2 ((h.phase r hr).trans hph) (fun s hs => ?_) e1,
      h.setProc r (by simp only [h.round r hr]) rfl e2 .nil⟩
    rw [S.nranks] at hs
    rw [h.round r hr]; exact (h.arrived hs).2 (hall s hs)
  | barrierFail hph hall hf => rw [hself] at hgood; exact absurd rfl hgood.1

theorem Exec.trans {a b c : Conf σ μ} {n k : ℕ} (h : Exec P a b n) (h' : Exec P b c k) : Exec P a c (n + k) := by
  induction h' with
  | refl => exact h
  | step r _ hr hs ih => exact .step r ih hr hs

/-- executions of `P'` are executions of `P` -/
theorem Sim.exec_back (S : Sim P P' Good Rs Rm) {c0 : Conf σ μ} {c0' c' : Conf σ' μ'} {n : ℕ}
    (hgood : ∀ c n, Exec P c0 c n → ∀ r < P.nranks, (c.proc r).phase ≠ .failed ∧ Good r (c.proc r).st)
    (h0 : CRel P.nranks Rs Rm c0 c0') (hx : Exec P' c0' c' n) :
    ∃ c, Exec P c0 c n ∧ CRel P.nranks Rs Rm c c' := by
  induction hx with
  | refl => exact ⟨c0, .refl, h0⟩
  | step r _ hr hs ih =>
    obtain ⟨c, hx, hc⟩ := ih
    rw [S.nranks] at hr
    obtain ⟨c1, h1, h2⟩ := S.back hr hc (fun c1 h => hgood c1 _ (hx.step r hr h) r hr) hs
    exact ⟨c1, hx.step r hr h1, h2⟩

/-- and the other way round, from any pair of related states -/
theorem Sim.exec_forth (S : Sim P P' Good Rs Rm) {c0 c c1 : Conf σ μ} {c' : Conf σ' μ'} {n k : ℕ}
    (hgood : ∀ c n, Exec P c0 c n → ∀ r < P.nranks, (c.proc r).phase ≠ .failed ∧ Good r (c.proc r).st)
    (hx0 : Exec P c0 c n) (h0 : CRel P.nranks Rs Rm c c') (hx : Exec P c c1 k) :
    ∃ c1', Exec P' c' c1' k ∧ CRel P.nranks Rs Rm c1 c1' := by
  induction hx with
  | refl => exact ⟨c', .refl, h0⟩
  | step r hx hr hs ih =>
    obtain ⟨c2', e1, e2⟩ := ih
    obtain ⟨c3', h1, h2⟩ := S.forth hr e2 (hgood _ _ ((hx0.trans hx).step r hr hs) r hr) hs
    exact ⟨c3', e1.step r (by rw [S.nranks]; exact hr) h1, h2⟩

end DG.Proto
