import Verif.Model.Network
import Mathlib.Algebra.BigOperators.Group.Finset.Basic
import Mathlib.Algebra.Order.BigOperators.Group.Finset
import Mathlib.Tactic.Ring
import Mathlib.Data.Finset.Max

/-! Invariant of the exchange protocol. -/
namespace DG.Proto

variable {σ μ : Type}

/-- The lock-step ("bulk synchronous") run that every interleaving is compared to: `S t r` is the
local state of rank `r` before exchange `t`, `M t s d` the message of exchange `t` from `s` to
`d`. -/
structure SyncRun (P : Prog σ μ) (S : ℕ → ℕ → σ) (M : ℕ → ℕ → ℕ → μ) : Prop where
  nodup : ∀ r < P.nranks, (P.nbrs r).Nodup
  symm : ∀ r < P.nranks, ∀ s ∈ P.nbrs r, s < P.nranks ∧ r ∈ P.nbrs s
  pack : ∀ t < P.rounds, ∀ r < P.nranks, ∀ k d : ℕ, (P.nbrs r)[k]? = some d →
    P.pack r (S t r) k = some (M t r d)
  acc : ∀ t < P.rounds, ∀ r < P.nranks, ∀ k s : ℕ, (P.nbrs r)[k]? = some s →
    P.accept r k (M t s r) = true
  fin : ∀ t < P.rounds, ∀ r < P.nranks,
    P.finish r (S t r) ((P.nbrs r).map (fun s => M t s r)) = some (S (t + 1) r)

/-- number of messages rank `s` has sent to `d` so far -/
def sentN (P : Prog σ μ) (c : Conf σ μ) (s d : ℕ) : ℕ :=
  (c.proc s).round + match (c.proc s).phase with
    | .send k => if (P.nbrs s).idxOf d < k then 1 else 0
    | _ => 1

/-- number of messages rank `r` has received from `s` so far -/
def recvN (P : Prog σ μ) (c : Conf σ μ) (r s : ℕ) : ℕ :=
  (c.proc r).round + match (c.proc r).phase with
    | .send _ => 0
    | .recv k => if (P.nbrs r).idxOf s < k then 1 else 0
    | _ => 1

/-- local part of the invariant -/
def PhaseOK (P : Prog σ μ) (S : ℕ → ℕ → σ) (M : ℕ → ℕ → ℕ → μ) (r : ℕ) (p : Proc σ μ) : Prop :=
  p.st = S p.round r ∧ match p.phase with
    | .send k => k ≤ (P.nbrs r).length ∧ (p.round < P.rounds ∨ (p.round = P.rounds ∧ k = 0))
    | .recv k => k ≤ (P.nbrs r).length ∧ p.round < P.rounds ∧
        p.bufs = ((P.nbrs r).take k).map (fun s => M p.round s r)
    | .barr => p.round < P.rounds ∧ p.bufs = (P.nbrs r).map (fun s => M p.round s r)
    | .failed => False

structure Inv (P : Prog σ μ) (S : ℕ → ℕ → σ) (M : ℕ → ℕ → ℕ → μ) (c : Conf σ μ) : Prop where
  ph : ∀ r < P.nranks, PhaseOK P S M r (c.proc r)
  lag : ∀ r < P.nranks, ∀ s < P.nranks, (c.proc s).round < (c.proc r).round →
    (c.proc r).round = (c.proc s).round + 1 ∧ (c.proc s).phase = .barr
  chan : ∀ r < P.nranks, ∀ s ∈ P.nbrs r, recvN P c r s ≤ sentN P c s r ∧
    c.chan s r = (List.range' (recvN P c r s) (sentN P c s r - recvN P c r s)).map
      (fun t => M t s r)

theorem inv_init (P : Prog σ μ) (S : ℕ → ℕ → σ) (M : ℕ → ℕ → ℕ → μ) (st0 : ℕ → σ)
    (h0 : ∀ r < P.nranks, st0 r = S 0 r) : Inv P S M (init st0) where
  ph := by
    intro r hr
    refine ⟨h0 r hr, ?_⟩
    refine ⟨Nat.zero_le _, ?_⟩
    rcases Nat.eq_zero_or_pos P.rounds with h | h
    · exact Or.inr ⟨h.symm, rfl⟩
    · exact Or.inl h
  lag := by intro r _ s _ h; simp [init] at h
  chan := by intro r _ s _; simp [init, recvN, sentN]

section
variable {P : Prog σ μ} {S : ℕ → ℕ → σ} {M : ℕ → ℕ → ℕ → μ} {c : Conf σ μ}

@[simp] theorem proc_setProc_same (c : Conf σ μ) (r : ℕ) (p : Proc σ μ) :
    (c.setProc r p).proc r = p := by simp [Conf.setProc]

theorem proc_setProc_ne (c : Conf σ μ) {r x : ℕ} (p : Proc σ μ) (h : x ≠ r) :
    (c.setProc r p).proc x = c.proc x := by simp [Conf.setProc, h]

@[simp] theorem chan_setProc (c : Conf σ μ) (r : ℕ) (p : Proc σ μ) :
    (c.setProc r p).chan = c.chan := rfl

@[simp] theorem proc_setChan (c : Conf σ μ) (s d : ℕ) (l : List μ) :
    (c.setChan s d l).proc = c.proc := rfl

/-- If the state of `r` keeps its round and its sent/received counts, the invariant on the channels
is preserved. -/
theorem sentN_congr {c c' : Conf σ μ} {s d : ℕ} (h : c'.proc s = c.proc s) :
    sentN P c' s d = sentN P c s d := by simp [sentN, h]

theorem recvN_congr {c c' : Conf σ μ} {s d : ℕ} (h : c'.proc s = c.proc s) :
    recvN P c' s d = recvN P c s d := by simp [recvN, h]

theorem lag_of_same_round (hI : Inv P S M c) {r : ℕ} {p : Proc σ μ}
    (hround : p.round = (c.proc r).round) (hph : (c.proc r).phase ≠ .barr) (c' : Conf σ μ)
    (hp : c'.proc = (c.setProc r p).proc) :
    ∀ x < P.nranks, ∀ y < P.nranks, (c'.proc y).round < (c'.proc x).round →
    (c'.proc x).round = (c'.proc y).round + 1 ∧ (c'.proc y).phase = .barr := by
  intro x hx y hy hlt
  rw [hp] at hlt ⊢
  have hrnd : ∀ z, ((c.setProc r p).proc z).round = (c.proc z).round := by
    intro z
    by_cases hz : z = r
    · subst hz; simp [hround]
    · rw [proc_setProc_ne c p hz]
  rw [hrnd, hrnd] at hlt ⊢
  obtain ⟨h1, h2⟩ := hI.lag x hx y hy hlt
  refine ⟨h1, ?_⟩
  by_cases hz : y = r
  · subst hz; exact absurd h2 hph
  · rw [proc_setProc_ne c p hz]; exact h2

theorem idxOf_of_getElem? {l : List ℕ} (hn : l.Nodup) {k d : ℕ} (h : l[k]? = some d) :
    l.idxOf d = k := by
  obtain ⟨hk, rfl⟩ := List.getElem?_eq_some_iff.1 h
  exact List.Nodup.idxOf_getElem hn k hk

theorem range'_snoc_map {f : ℕ → μ} {a b : ℕ} (h : a ≤ b) :
    (List.range' a (b - a)).map f ++ [f b] = (List.range' a (b + 1 - a)).map f := by
  have : b + 1 - a = (b - a) + 1 := by omega
  rw [this, List.range'_concat, List.map_append]
  simp only [List.map_cons, List.map_nil, Nat.one_mul]
  have : a + (b - a) = b := by omega
  rw [this]

theorem inv_step (hR : SyncRun P S M) (hI : Inv P S M c) {r : ℕ} (hr : r < P.nranks)
    {c' : Conf σ μ} (hs : Step P r c c') : Inv P S M c' := by
  have hphr := hI.ph r hr
  cases hs with
  | send k d m hrd hph hd hm =>
    have hst := hphr.1
    have hk : k < (P.nbrs r).length := (List.getElem?_eq_some_iff.1 hd).1
    have hdm : d ∈ P.nbrs r := List.mem_of_getElem? hd
    obtain ⟨hdn, hrd'⟩ := hR.symm r hr d hdm
    have hidx : (P.nbrs r).idxOf d = k := idxOf_of_getElem? (hR.nodup r hr) hd
    have hmM : m = M (c.proc r).round r d := by
      rw [hst, hR.pack _ hrd r hr k d hd] at hm
      exact (Option.some.inj hm).symm
    refine ⟨?_, ?_, ?_⟩
    · intro x hx
      by_cases hxr : x = r
      · subst hxr
        simp only [proc_setProc_same]
        exact ⟨hst, by simp only; omega⟩
      · rw [proc_setProc_ne _ _ hxr]; exact hI.ph x hx
    · exact lag_of_same_round hI (p := { c.proc r with phase := .send (k + 1) }) rfl
        (by rw [hph]; simp) _ rfl
    · intro x hx s hsx
      obtain ⟨h1, h2⟩ := hI.chan x hx s hsx
      by_cases hsr : s = r
      · subst hsr
        have hrecv : recvN P ((c.setChan s d (c.chan s d ++ [m])).setProc s
            { c.proc s with phase := .send (k + 1) }) x s = recvN P c x s := by
          by_cases hxs : x = s
          · subst hxs; simp [recvN, hph]
          · exact recvN_congr (proc_setProc_ne _ _ hxs)
        rw [hrecv]
        by_cases hxd : x = d
        · subst hxd
          have hs0 : sentN P c s x = (c.proc s).round := by simp [sentN, hph, hidx]
          have hs1 : sentN P ((c.setChan s x (c.chan s x ++ [m])).setProc s
              { c.proc s with phase := .send (k + 1) }) s x = (c.proc s).round + 1 := by
            simp [sentN, hidx]
          rw [hs1]
          rw [hs0] at h1 h2
          refine ⟨by omega, ?_⟩
          simp only [chan_setProc, Conf.setChan, and_self, if_true]
          rw [h2, hmM]
          exact range'_snoc_map (f := fun t => M t s x) h1
        · have hs1 : sentN P ((c.setChan s d (c.chan s d ++ [m])).setProc s
              { c.proc s with phase := .send (k + 1) }) s x = sentN P c s x := by
            have : (P.nbrs s).idxOf x ≠ k := by
              intro h
              have hx' : x ∈ P.nbrs s := (hR.symm x hx s hsx).2
              have h3 := List.getElem?_idxOf hx'
              rw [h, hd] at h3
              exact hxd (Option.some.inj h3).symm
            simp only [sentN, proc_setProc_same, hph]
            by_cases h : (P.nbrs s).idxOf x < k
            · rw [if_pos h, if_pos (by omega)]
            · rw [if_neg h, if_neg (by omega)]
          rw [hs1]
          refine ⟨h1, ?_⟩
          simp only [chan_setProc, Conf.setChan, hxd, and_false, if_false]
          exact h2
      · have hsent : sentN P ((c.setChan r d (c.chan r d ++ [m])).setProc r
            { c.proc r with phase := .send (k + 1) }) s x = sentN P c s x :=
          sentN_congr (proc_setProc_ne _ _ hsr)
        have hrecv : recvN P ((c.setChan r d (c.chan r d ++ [m])).setProc r
            { c.proc r with phase := .send (k + 1) }) x s = recvN P c x s := by
          by_cases hxs : x = r
          · subst hxs; simp [recvN, hph]
          · exact recvN_congr (proc_setProc_ne _ _ hxs)
        rw [hsent, hrecv]
        refine ⟨h1, ?_⟩
        simp only [chan_setProc, Conf.setChan, hsr, false_and, if_false]
        exact h2
  | sendFail k d hrd hph hd hm =>
    rw [hphr.1, hR.pack _ hrd r hr k d hd] at hm
    cases hm
  | sendEnd k hrd hph hd =>
    have hst := hphr.1
    have h3 := hphr.2
    rw [hph] at h3
    simp only at h3
    have hk : (P.nbrs r).length ≤ k := List.getElem?_eq_none_iff.1 hd
    refine ⟨?_, ?_, ?_⟩
    · intro x hx
      by_cases hxr : x = r
      · subst hxr
        simp only [proc_setProc_same]
        exact ⟨hst, by simp [hrd]⟩
      · rw [proc_setProc_ne _ _ hxr]; exact hI.ph x hx
    · exact lag_of_same_round hI (p := { c.proc r with phase := .recv 0, bufs := [] }) rfl
        (by rw [hph]; simp) _ rfl
    · intro x hx s hsx
      obtain ⟨h1, h2⟩ := hI.chan x hx s hsx
      have hsent : sentN P (c.setProc r { c.proc r with phase := .recv 0, bufs := [] }) s x
          = sentN P c s x := by
        by_cases hsr : s = r
        · subst hsr
          have : (P.nbrs s).idxOf x < k :=
            lt_of_lt_of_le (List.idxOf_lt_length_of_mem (hR.symm x hx s hsx).2) hk
          simp [sentN, hph, this]
        · exact sentN_congr (proc_setProc_ne _ _ hsr)
      have hrecv : recvN P (c.setProc r { c.proc r with phase := .recv 0, bufs := [] }) x s
          = recvN P c x s := by
        by_cases hxs : x = r
        · subst hxs; simp [recvN, hph]
        · exact recvN_congr (proc_setProc_ne _ _ hxs)
      rw [hsent, hrecv]
      exact ⟨h1, h2⟩
  | recv k s₀ m rest hph hd hc ha =>
    have hst := hphr.1
    have h3 := hphr.2
    rw [hph] at h3
    simp only at h3
    obtain ⟨_, hrd, hb⟩ := h3
    have hk : k < (P.nbrs r).length := (List.getElem?_eq_some_iff.1 hd).1
    have hsm : s₀ ∈ P.nbrs r := List.mem_of_getElem? hd
    have hidx : (P.nbrs r).idxOf s₀ = k := idxOf_of_getElem? (hR.nodup r hr) hd
    obtain ⟨h10, h20⟩ := hI.chan r hr s₀ hsm
    have hrn : recvN P c r s₀ = (c.proc r).round := by simp [recvN, hph, hidx]
    rw [hrn] at h10 h20
    have hpos : (c.proc r).round < sentN P c s₀ r := by
      by_contra h
      have : sentN P c s₀ r - (c.proc r).round = 0 := by omega
      rw [this, hc] at h20
      simp at h20
    have hsplit : sentN P c s₀ r - (c.proc r).round
        = (sentN P c s₀ r - ((c.proc r).round + 1)) + 1 := by omega
    rw [hsplit, List.range'_succ, List.map_cons, hc] at h20
    obtain ⟨hmM, hrest⟩ := List.cons.inj h20
    refine ⟨?_, ?_, ?_⟩
    · intro x hx
      by_cases hxr : x = r
      · subst hxr
        simp only [proc_setProc_same]
        refine ⟨hst, ?_⟩
        simp only
        refine ⟨hk, hrd, ?_⟩
        rw [hb, hmM, List.take_add_one, hd]
        simp
      · rw [proc_setProc_ne _ _ hxr]; exact hI.ph x hx
    · exact lag_of_same_round hI (p := { c.proc r with
          phase := .recv (k + 1), bufs := (c.proc r).bufs ++ [m] }) rfl
        (by rw [hph]; simp) _ rfl
    · intro x hx s hsx
      obtain ⟨h1, h2⟩ := hI.chan x hx s hsx
      have hsent : sentN P ((c.setChan s₀ r rest).setProc r { c.proc r with
          phase := .recv (k + 1), bufs := (c.proc r).bufs ++ [m] }) s x = sentN P c s x := by
        by_cases hsr : s = r
        · subst hsr; simp [sentN, hph]
        · exact sentN_congr (proc_setProc_ne _ _ hsr)
      rw [hsent]
      by_cases hxr : x = r
      · subst hxr
        by_cases hss : s = s₀
        · subst hss
          have hrecv : recvN P ((c.setChan s x rest).setProc x { c.proc x with
              phase := .recv (k + 1), bufs := (c.proc x).bufs ++ [m] }) x s
              = (c.proc x).round + 1 := by
            simp [recvN, hidx]
          rw [hrecv]
          refine ⟨hpos, ?_⟩
          simp only [chan_setProc, Conf.setChan, and_self, if_true]
          exact hrest
        · have hrecv : recvN P ((c.setChan s₀ x rest).setProc x { c.proc x with
              phase := .recv (k + 1), bufs := (c.proc x).bufs ++ [m] }) x s = recvN P c x s := by
            have : (P.nbrs x).idxOf s ≠ k := by
              intro h
              have h3 := List.getElem?_idxOf hsx
              rw [h, hd] at h3
              exact hss (Option.some.inj h3).symm
            simp only [recvN, proc_setProc_same, hph]
            by_cases h : (P.nbrs x).idxOf s < k
            · rw [if_pos h, if_pos (by omega)]
            · rw [if_neg h, if_neg (by omega)]
          rw [hrecv]
          refine ⟨h1, ?_⟩
          simp only [chan_setProc, Conf.setChan, hss, false_and, if_false]
          exact h2
      · have hrecv : recvN P ((c.setChan s₀ r rest).setProc r { c.proc r with
            phase := .recv (k + 1), bufs := (c.proc r).bufs ++ [m] }) x s = recvN P c x s :=
          recvN_congr (proc_setProc_ne _ _ hxr)
        rw [hrecv]
        refine ⟨h1, ?_⟩
        simp only [chan_setProc, Conf.setChan, hxr, and_false, if_false]
        exact h2
  | recvFail k s₀ m rest hph hd hc ha =>
    exfalso
    have h3 := hphr.2
    rw [hph] at h3
    simp only at h3
    obtain ⟨_, hrd, hb⟩ := h3
    have hsm : s₀ ∈ P.nbrs r := List.mem_of_getElem? hd
    have hidx : (P.nbrs r).idxOf s₀ = k := idxOf_of_getElem? (hR.nodup r hr) hd
    obtain ⟨h10, h20⟩ := hI.chan r hr s₀ hsm
    have hrn : recvN P c r s₀ = (c.proc r).round := by simp [recvN, hph, hidx]
    rw [hrn, hc] at h20
    have hne : sentN P c s₀ r - (c.proc r).round ≠ 0 := by
      intro h; rw [h] at h20; simp at h20
    obtain ⟨n, hn⟩ := Nat.exists_eq_succ_of_ne_zero hne
    rw [hn, Nat.succ_eq_add_one, List.range'_succ, List.map_cons] at h20
    rw [(List.cons.inj h20).1, hR.acc _ hrd r hr k s₀ hd] at ha
    cases ha
  | recvEnd k hph hd =>
    have hst := hphr.1
    have h3 := hphr.2
    rw [hph] at h3
    simp only at h3
    obtain ⟨hkl, hrd, hb⟩ := h3
    have hk : (P.nbrs r).length ≤ k := List.getElem?_eq_none_iff.1 hd
    refine ⟨?_, ?_, ?_⟩
    · intro x hx
      by_cases hxr : x = r
      · subst hxr
        simp only [proc_setProc_same]
        refine ⟨hst, ?_⟩
        simp only
        refine ⟨hrd, ?_⟩
        rw [hb, List.take_of_length_le hk]
      · rw [proc_setProc_ne _ _ hxr]; exact hI.ph x hx
    · exact lag_of_same_round hI (p := { c.proc r with phase := .barr }) rfl
        (by rw [hph]; simp) _ rfl
    · intro x hx s hsx
      obtain ⟨h1, h2⟩ := hI.chan x hx s hsx
      have hsent : sentN P (c.setProc r { c.proc r with phase := .barr }) s x
          = sentN P c s x := by
        by_cases hsr : s = r
        · subst hsr; simp [sentN, hph]
        · exact sentN_congr (proc_setProc_ne _ _ hsr)
      have hrecv : recvN P (c.setProc r { c.proc r with phase := .barr }) x s
          = recvN P c x s := by
        by_cases hxs : x = r
        · subst hxs
          have : (P.nbrs x).idxOf s < k :=
            lt_of_lt_of_le (List.idxOf_lt_length_of_mem hsx) hk
          simp [recvN, hph, this]
        · exact recvN_congr (proc_setProc_ne _ _ hxs)
      rw [hsent, hrecv]
      exact ⟨h1, h2⟩
  | barrier st' hph hall hf =>
    have hst := hphr.1
    have h3 := hphr.2
    rw [hph] at h3
    simp only at h3
    obtain ⟨hrd, hb⟩ := h3
    have hst' : st' = S ((c.proc r).round + 1) r := by
      rw [hst, hb, hR.fin _ hrd r hr] at hf
      exact (Option.some.inj hf).symm
    refine ⟨?_, ?_, ?_⟩
    · intro x hx
      by_cases hxr : x = r
      · subst hxr
        simp only [proc_setProc_same]
        refine ⟨hst', Nat.zero_le _, ?_⟩
        rcases Nat.lt_or_ge ((c.proc x).round + 1) P.rounds with h | h
        · exact Or.inl h
        · exact Or.inr ⟨Nat.le_antisymm hrd h, rfl⟩
      · rw [proc_setProc_ne _ _ hxr]; exact hI.ph x hx
    · intro x hx y hy hlt
      by_cases hxr : x = r
      · subst hxr
        by_cases hyx : y = x
        · subst hyx; omega
        · rw [proc_setProc_ne _ _ hyx] at hlt ⊢
          simp only [proc_setProc_same] at hlt ⊢
          rcases hall y hy with h | ⟨h, h'⟩
          · omega
          · exact ⟨by omega, h'⟩
      · rw [proc_setProc_ne _ _ hxr] at hlt ⊢
        by_cases hyr : y = r
        · subst hyr
          simp only [proc_setProc_same] at hlt ⊢
          exfalso
          have := (hI.lag x hx y hy (by omega)).1
          omega
        · rw [proc_setProc_ne _ _ hyr] at hlt ⊢
          exact hI.lag x hx y hy hlt
    · intro x hx s hsx
      obtain ⟨h1, h2⟩ := hI.chan x hx s hsx
      have hsent : sentN P (c.setProc r
          { round := (c.proc r).round + 1, phase := .send 0, st := st', bufs := [] }) s x
          = sentN P c s x := by
        by_cases hsr : s = r
        · subst hsr; simp [sentN, hph]
        · exact sentN_congr (proc_setProc_ne _ _ hsr)
      have hrecv : recvN P (c.setProc r
          { round := (c.proc r).round + 1, phase := .send 0, st := st', bufs := [] }) x s
          = recvN P c x s := by
        by_cases hxs : x = r
        · subst hxs; simp [recvN, hph]
        · exact recvN_congr (proc_setProc_ne _ _ hxs)
      rw [hsent, hrecv]
      exact ⟨h1, h2⟩
  | barrierFail hph hall hf =>
    exfalso
    have h3 := hphr.2
    rw [hph] at h3
    simp only at h3
    rw [hphr.1, h3.2, hR.fin _ h3.1 r hr] at hf
    cases hf

theorem inv_exec (hR : SyncRun P S M) {c' : Conf σ μ} {n : ℕ} (hI : Inv P S M c)
    (h : Exec P c c' n) : Inv P S M c' := by
  induction h with
  | refl => exact hI
  | step r _ hr hs ih => exact inv_step hR ih hr hs

/-- Some rank can move as long as one has not finished. -/
theorem progress (hR : SyncRun P S M) (hI : Inv P S M c)
    (hnf : ∃ r < P.nranks, (c.proc r).round < P.rounds) :
    ∃ r < P.nranks, ∃ c', Step P r c c' := by
  -- a rank of minimal round
  obtain ⟨r₀, hr₀, hrd₀⟩ := hnf
  have hmin : ∃ r < P.nranks, (c.proc r).round < P.rounds ∧
      ∀ s < P.nranks, (c.proc r).round ≤ (c.proc s).round := by
    obtain ⟨r, hr, hmin⟩ := Finset.exists_min_image (Finset.range P.nranks)
      (fun r => (c.proc r).round) ⟨r₀, Finset.mem_range.2 hr₀⟩
    refine ⟨r, Finset.mem_range.1 hr, ?_, fun s hs => hmin s (Finset.mem_range.2 hs)⟩
    exact lt_of_le_of_lt (hmin r₀ (Finset.mem_range.2 hr₀)) hrd₀
  obtain ⟨r, hr, hrd, hle⟩ := hmin
  -- a rank in the send phase can move
  by_cases hsend : ∃ s < P.nranks, (c.proc s).round = (c.proc r).round ∧
      ∃ k, (c.proc s).phase = .send k
  · obtain ⟨s, hs, hsr, k, hk⟩ := hsend
    refine ⟨s, hs, ?_⟩
    cases hd : (P.nbrs s)[k]? with
    | none => exact ⟨_, Step.sendEnd k (by omega) hk hd⟩
    | some d =>
      cases hm : P.pack s (c.proc s).st k with
      | none => exact ⟨_, Step.sendFail k d (by omega) hk hd hm⟩
      | some m => exact ⟨_, Step.send k d m (by omega) hk hd hm⟩
  -- a rank in the receive phase can move
  by_cases hrecv : ∃ s < P.nranks, (c.proc s).round = (c.proc r).round ∧
      ∃ k, (c.proc s).phase = .recv k
  · obtain ⟨s, hs, hsr, k, hk⟩ := hrecv
    refine ⟨s, hs, ?_⟩
    cases hd : (P.nbrs s)[k]? with
    | none => exact ⟨_, Step.recvEnd k hk hd⟩
    | some d =>
      have hdm : d ∈ P.nbrs s := List.mem_of_getElem? hd
      obtain ⟨hdn, _⟩ := hR.symm s hs d hdm
      obtain ⟨h1, h2⟩ := hI.chan s hs d hdm
      have hrn : recvN P c s d = (c.proc s).round := by
        simp [recvN, hk, idxOf_of_getElem? (hR.nodup s hs) hd]
      have hsn : (c.proc s).round < sentN P c d s := by
        by_cases hgt : (c.proc r).round < (c.proc d).round
        · have : (c.proc d).round ≤ sentN P c d s := by unfold sentN; omega
          omega
        · have heq : (c.proc d).round = (c.proc r).round := by
            have := hle d hdn; omega
          have : ∀ k, (c.proc d).phase ≠ .send k := fun k hk => hsend ⟨d, hdn, heq, k, hk⟩
          have : sentN P c d s = (c.proc d).round + 1 := by
            unfold sentN
            cases hp : (c.proc d).phase with
            | send k => exact absurd hp (this k)
            | recv k => rfl
            | barr => rfl
            | failed => rfl
          omega
      cases hc : c.chan d s with
      | nil =>
        exfalso
        rw [hrn, hc] at h2
        have := congrArg List.length h2
        simp at this
        omega
      | cons m rest =>
        cases ha : P.accept s k m with
        | true => exact ⟨_, Step.recv k d m rest hk hd hc ha⟩
        | false => exact ⟨_, Step.recvFail k d m rest hk hd hc ha⟩
  -- otherwise all ranks of minimal round are at the barrier
  have hbarr : ∀ s < P.nranks, (c.proc s).round = (c.proc r).round →
      (c.proc s).phase = .barr := by
    intro s hs heq
    have h3 := (hI.ph s hs).2
    cases hp : (c.proc s).phase with
    | send k => exact absurd ⟨s, hs, heq, k, hp⟩ hsend
    | recv k => exact absurd ⟨s, hs, heq, k, hp⟩ hrecv
    | barr => rfl
    | failed => rw [hp] at h3; exact h3.elim
  have hall : ∀ s < P.nranks, Arrived c (c.proc r).round s := by
    intro s hs
    by_cases h : (c.proc r).round < (c.proc s).round
    · exact Or.inl h
    · have heq : (c.proc s).round = (c.proc r).round := by have := hle s hs; omega
      exact Or.inr ⟨heq, hbarr s hs heq⟩
  refine ⟨r, hr, ?_⟩
  cases hf : P.finish r (c.proc r).st (c.proc r).bufs with
  | none => exact ⟨_, Step.barrierFail (hbarr r hr rfl) hall hf⟩
  | some st' => exact ⟨_, Step.barrier st' (hbarr r hr rfl) hall hf⟩

/-- A rank that has not finished and the final state: no step is possible when all are done. -/
theorem no_step_when_done (hI : Inv P S M c) (hd : ∀ r < P.nranks, (c.proc r).round = P.rounds)
    {r : ℕ} (hr : r < P.nranks) {c' : Conf σ μ} : ¬ Step P r c c' := by
  have h3 := (hI.ph r hr).2
  have h4 := hd r hr
  intro hs
  cases hs with
  | send k d m hrd => omega
  | sendFail k d hrd => omega
  | sendEnd k hrd => omega
  | recv k s m rest hph => rw [hph] at h3; simp only at h3; omega
  | recvFail k s m rest hph => rw [hph] at h3; simp only at h3; omega
  | recvEnd k hph => rw [hph] at h3; simp only at h3; omega
  | barrier st' hph => rw [hph] at h3; simp only at h3; omega
  | barrierFail hph => rw [hph] at h3; simp only at h3; omega

/-- progress of one rank, in steps -/
def prog (P : Prog σ μ) (r : ℕ) (p : Proc σ μ) : ℕ :=
  p.round * (2 * (P.nbrs r).length + 3) + match p.phase with
    | .send k => k
    | .recv k => (P.nbrs r).length + 1 + k
    | .barr => 2 * (P.nbrs r).length + 2
    | .failed => 0

theorem prog_step (hR : SyncRun P S M) (hI : Inv P S M c) {r : ℕ} (hr : r < P.nranks)
    {c' : Conf σ μ} (hs : Step P r c c') :
    prog P r (c'.proc r) = prog P r (c.proc r) + 1 ∧ ∀ x, x ≠ r → c'.proc x = c.proc x := by
  have hI' := inv_step hR hI hr hs
  have h3 := (hI.ph r hr).2
  have h3' := (hI'.ph r hr).2
  cases hs with
  | send k d m hrd hph hd hm =>
    refine ⟨?_, fun x hx => proc_setProc_ne _ _ hx⟩
    simp only [prog, proc_setProc_same, hph]; omega
  | sendFail k d hrd hph hd hm => simp at h3'
  | sendEnd k hrd hph hd =>
    refine ⟨?_, fun x hx => proc_setProc_ne _ _ hx⟩
    have hk : (P.nbrs r).length ≤ k := List.getElem?_eq_none_iff.1 hd
    rw [hph] at h3
    simp only [prog, proc_setProc_same, hph] at h3 ⊢; omega
  | recv k s m rest hph hd hc ha =>
    refine ⟨?_, fun x hx => proc_setProc_ne _ _ hx⟩
    simp only [prog, proc_setProc_same, hph]; omega
  | recvFail k s m rest hph hd hc ha => simp at h3'
  | recvEnd k hph hd =>
    refine ⟨?_, fun x hx => proc_setProc_ne _ _ hx⟩
    have hk : (P.nbrs r).length ≤ k := List.getElem?_eq_none_iff.1 hd
    rw [hph] at h3
    simp only [prog, proc_setProc_same, hph] at h3 ⊢; omega
  | barrier st' hph hall hf =>
    refine ⟨?_, fun x hx => proc_setProc_ne _ _ hx⟩
    simp only [prog, proc_setProc_same, hph]; ring
  | barrierFail hph hall hf => simp at h3'

theorem prog_le (hI : Inv P S M c) {r : ℕ} (hr : r < P.nranks) :
    prog P r (c.proc r) ≤ P.rounds * (2 * (P.nbrs r).length + 3) := by
  have h3 := (hI.ph r hr).2
  have key : ∀ x, (c.proc r).round < P.rounds → x < 2 * (P.nbrs r).length + 3 →
      (c.proc r).round * (2 * (P.nbrs r).length + 3) + x
        ≤ P.rounds * (2 * (P.nbrs r).length + 3) := by
    intro x h1 h2
    have : ((c.proc r).round + 1) * (2 * (P.nbrs r).length + 3)
        ≤ P.rounds * (2 * (P.nbrs r).length + 3) := Nat.mul_le_mul_right _ h1
    have h5 : ((c.proc r).round + 1) * (2 * (P.nbrs r).length + 3)
        = (c.proc r).round * (2 * (P.nbrs r).length + 3) + (2 * (P.nbrs r).length + 3) := by ring
    omega
  unfold prog
  cases hp : (c.proc r).phase with
  | send k =>
    rw [hp] at h3
    obtain ⟨hk, h | ⟨h, rfl⟩⟩ := h3
    · exact key k h (by omega)
    · simp only [Nat.add_zero]; exact Nat.mul_le_mul_right _ h.le
  | recv k =>
    rw [hp] at h3
    obtain ⟨hk, h, _⟩ := h3
    have := key ((P.nbrs r).length + 1 + k) h (by omega)
    simpa using this
  | barr => rw [hp] at h3; exact key (2 * (P.nbrs r).length + 2) h3.1 (by omega)
  | failed => rw [hp] at h3; exact h3.elim

theorem exec_steps (hR : SyncRun P S M) (hI : Inv P S M c) {c' : Conf σ μ} {n : ℕ}
    (h : Exec P c c' n) :
    ∑ r ∈ Finset.range P.nranks, prog P r (c'.proc r)
      = ∑ r ∈ Finset.range P.nranks, prog P r (c.proc r) + n := by
  induction h with
  | refl => simp
  | @step c₁ c₂ n r hx hr hs ih =>
    obtain ⟨h1, h2⟩ := prog_step hR (inv_exec hR hI hx) hr hs
    rw [← Nat.add_assoc, ← ih]
    rw [← Finset.add_sum_erase _ (fun x => prog P x (c₂.proc x)) (Finset.mem_range.2 hr), h1,
      ← Finset.add_sum_erase _ (fun x => prog P x (c₁.proc x)) (Finset.mem_range.2 hr)]
    have : ∑ x ∈ (Finset.range P.nranks).erase r, prog P x (c₂.proc x)
        = ∑ x ∈ (Finset.range P.nranks).erase r, prog P x (c₁.proc x) :=
      Finset.sum_congr rfl (fun x hx => by rw [h2 x (Finset.ne_of_mem_erase hx)])
    rw [this]
    ring

/-- Executions compose. -/
theorem Exec.trans {a b c : Conf σ μ} {n k : ℕ} (h : Exec P a b n) (h' : Exec P b c k) : Exec P a c (n + k) := by
  induction h' with
  | refl => exact h
  | step r _ hr hs ih => exact Exec.step r ih hr hs

/-- Every reachable state can be continued to the end. -/
theorem can_finish (hR : SyncRun P S M) (st0 : ℕ → σ) (h0 : ∀ r < P.nranks, st0 r = S 0 r)
    {c' : Conf σ μ} {n : ℕ} (h : Exec P (init st0) c' n) :
    ∃ c'' n', Exec P c' c'' n' ∧ ∀ r < P.nranks, (c''.proc r).round = P.rounds := by
  have hI0 := inv_init P S M st0 h0
  generalize hB : (∑ r ∈ Finset.range P.nranks, P.rounds * (2 * (P.nbrs r).length + 3)) - n = B
  induction B using Nat.strong_induction_on generalizing c' n with
  | _ B ih =>
    have hI := inv_exec hR hI0 h
    by_cases hd : ∃ r < P.nranks, (c'.proc r).round < P.rounds
    · obtain ⟨r, hr, c2, hs⟩ := progress hR hI hd
      have hx := Exec.step r h hr hs
      have hle : ∀ {c3 : Conf σ μ} {k : ℕ}, Exec P (init st0) c3 k →
          k ≤ ∑ r ∈ Finset.range P.nranks, P.rounds * (2 * (P.nbrs r).length + 3) := by
        intro c3 k h3
        have h4 := exec_steps hR hI0 h3
        have h5 : ∑ r ∈ Finset.range P.nranks, prog P r (c3.proc r)
            ≤ ∑ r ∈ Finset.range P.nranks, P.rounds * (2 * (P.nbrs r).length + 3) :=
          Finset.sum_le_sum (fun r hr => prog_le (inv_exec hR hI0 h3) (Finset.mem_range.1 hr))
        omega
      have h6 := hle hx
      obtain ⟨c3, n3, h7, h9⟩ := ih _ (by omega) hx rfl
      exact ⟨c3, _, (Exec.step r Exec.refl hr hs).trans h7, h9⟩
    · refine ⟨c', 0, Exec.refl, ?_⟩
      intro r hr
      have h3 := (hI.ph r hr).2
      have h4 : ¬ (c'.proc r).round < P.rounds := fun h => hd ⟨r, hr, h⟩
      cases hp : (c'.proc r).phase with
      | send k => rw [hp] at h3; simp only at h3; omega
      | recv k => rw [hp] at h3; simp only at h3; omega
      | barr => rw [hp] at h3; simp only at h3; omega
      | failed => rw [hp] at h3; exact h3.elim

end

end DG.Proto
