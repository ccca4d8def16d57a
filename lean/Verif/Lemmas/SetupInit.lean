import Verif.Lemmas.SetupMass

/-! The kernels "volume helpers" and "init state" of `Model/SetupKernels.lean`. -/
namespace DG.Dev
open Kernel
variable {K : Type} [Zero K] [One K] [Add K] [Sub K] [Mul K] [Neg K] [Div K] [NatCast K] {nt : ℕ}

/-- what one thread of a reduction has added up: the terms of the iterations `i` with `p i`, in their order -/
def pickSum (n : ℕ) (p : ℕ → Prop) [DecidablePred p] (f : ℕ → K) : K :=
  (List.range n).foldl (fun acc i => if p i then acc + f i else acc) 0

theorem pickSum_congr {n : ℕ} {p q : ℕ → Prop} [DecidablePred p] [DecidablePred q] {f g : ℕ → K}
    (h : ∀ i < n, p i ↔ q i) (hf : ∀ i < n, f i = g i) : pickSum n p f = pickSum n q g := by
  unfold pickSum
  refine List.foldl_ext _ _ _ fun acc i hi => ?_
  have hi := List.mem_range.1 hi
  simp only [h i hi, hf i hi]

theorem pickSum_sum {F : Type} [Field F] {n : ℕ} {p : ℕ → Prop} [DecidablePred p] {f : ℕ → F} :
    pickSum n p f = ∑ i ∈ Finset.range n, if p i then f i else 0 := by
  induction n with
  | zero => rfl
  | succ n ih =>
    rw [Finset.sum_range_succ, ← ih]
    unfold pickSum
    rw [List.range_succ, List.foldl_append, List.foldl_cons, List.foldl_nil]
    split
    · rfl
    · rw [add_zero]

theorem run_foldN_read {n : ℕ} {cell : ℕ → SCell} {p : ℕ → Prop} [DecidablePred p] {f : ℕ → K → K} {m : SCell → K} :
    (Code.foldN 0 n fun acc i => if p i then (do
        let d ← Code.read (cell i)
        pure (acc + f i d) : Code SCell K K) else pure acc).run m =
      (pickSum n p fun i => f i (m (cell i)), m) := by
  induction n with
  | zero => rfl
  | succ n ih =>
    rw [show (Code.foldN 0 (n + 1) fun acc i => if p i then (do
        let d ← Code.read (cell i)
        pure (acc + f i d) : Code SCell K K) else pure acc) = (Code.foldN 0 n fun acc i => if p i then (do
        let d ← Code.read (cell i)
        pure (acc + f i d) : Code SCell K K) else pure acc).bind fun acc => if p n then (do
        let d ← Code.read (cell n)
        pure (acc + f n d) : Code SCell K K) else pure acc from rfl, Code.run_bind, ih]
    unfold pickSum
    rw [List.range_succ, List.foldl_append, List.foldl_cons, List.foldl_nil]
    by_cases h : p n
    · simp only [if_pos h]; rfl
    · simp only [if_neg h]; rfl

/-- one slot per thread -/
theorem phase_slots {t nq : ℕ} {d : ℕ → Fin nt} {m : SCell → K} {w : ℕ → K} :
    PhaseIn t (fun _ => False) (fun j : Fin nt => (do
        let s ← Code.foldN 0 nq fun acc iq =>
          if d iq = j then do
            let d ← Code.read ⟨.djac, t, iq, 0, 0⟩
            pure (acc + w iq * d)
          else pure acc
        Code.write ⟨.slot, t, j, 0, 0⟩ s : Code SCell K Unit)) m
      (setBlk m .slot t nt 1 1 fun l _ _ =>
        pickSum nq (fun iq => (d iq).1 = l) fun iq => w iq * m ⟨.djac, t, iq, 0, 0⟩) := by
  refine ⟨fun _ c => c.view = .djac ∧ c.e = t, fun j c => c = ⟨.slot, t, j, 0, 0⟩,
    PhaseOK.each ?_ ?_ ?_ ?_, fun _ _ h => h.2, ?_, fun _ h => h.elim⟩
  · intro j
    refine Code.Within.bind (Code.Within.foldN fun acc i hi => ?_) fun s => Code.Within.write rfl
    split
    · exact Code.Within.bind (Code.Within.read (Or.inl ⟨rfl, rfl⟩)) fun _ => trivial
    · trivial
  · rintro j j' c rfl (h | h)
    · exact absurd h.1 (by simp)
    · simp only [SCell.mk.injEq] at h
      exact Fin.ext h.2.2.1
  · intro j
    refine Sets.after_load (run_foldN_read (cell := fun iq => ⟨.djac, t, iq, 0, 0⟩) (p := fun iq => d iq = j)
      (f := fun iq x => w iq * x)) (Sets.write ?_)
    rw [setBlk_at j.2 Nat.one_pos Nat.one_pos]
    exact pickSum_congr (fun iq _ => Fin.ext_iff.symm) fun _ _ => rfl
  · intro c hc
    refine setBlk_rest ?_
    rintro ⟨i, hi, j, hj, k, hk, rfl⟩
    exact hc ⟨i, hi⟩ (by simp; omega)
  · rintro j c rfl; rfl

/-- the slots added up and stored by every thread -/
theorem phase_total {t : ℕ} (hnt : 0 < nt) {m : SCell → K} :
    PhaseIn t (fun c => c = ⟨.vol, t, 0, 0, 0⟩) (fun _ : Fin nt => (do
        let s ← Code.foldN 0 nt fun acc l => do
          let v ← Code.read ⟨.slot, t, l, 0, 0⟩
          pure (acc + v)
        Code.write ⟨.vol, t, 0, 0, 0⟩ s : Code SCell K Unit)) m
      (setBlk m .vol t 1 1 1 fun _ _ _ => loopSum nt fun l => m ⟨.slot, t, l, 0, 0⟩) := by
  have hrun : (Code.foldN 0 nt fun acc l => (do
          let v ← Code.read ⟨.slot, t, l, 0, 0⟩
          pure (acc + v) : Code SCell K K)).run m = (loopSum nt fun l => m ⟨.slot, t, l, 0, 0⟩, m) := by
    have := run_foldN_read (n := nt) (cell := fun l => ⟨.slot, t, l, 0, 0⟩) (p := fun _ => True)
      (f := fun _ x => x) (m := m)
    simpa [pickSum, loopSum] using this
  have hw : (Code.foldN 0 nt fun acc l => (do
          let v ← Code.read ⟨.slot, t, l, 0, 0⟩
          pure (acc + v) : Code SCell K K)).Within (fun c => c.view = .slot ∧ c.e = t) (fun _ => False) :=
    Code.Within.foldN fun acc i hi => Code.Within.bind (Code.Within.read (Or.inl ⟨rfl, rfl⟩)) fun _ => trivial
  refine PhaseIn.all hnt (R := fun c => c.view = .slot ∧ c.e = t) (fun _ h => h.2) ?_ ?_ ?_ ?_ ?_ ?_
  · rintro c rfl; rfl
  · exact Code.Within3.bind hw.within3 fun s => ⟨Or.inr rfl, trivial⟩
  · rintro c rfl h; exact absurd h.1 (by simp)
  · refine Code.Agrees.bind (Code.Agrees.of_within hw (fun _ h => h.elim) _) ?_
    rw [hrun]
    exact ⟨fun _ => (setBlk_at (m := m) (v := .vol) (e := t) (F := fun _ _ _ => _) Nat.one_pos Nat.one_pos
      Nat.one_pos).symm, trivial⟩
  · exact Sets.after_load hrun (Sets.write (setBlk_at Nat.one_pos Nat.one_pos Nat.one_pos))
  · intro c hc
    refine setBlk_rest ?_
    rintro ⟨i, hi, j, hj, k, hk, rfl⟩
    exact hc (by simp; omega)

/-! ### volume helpers -/

section volume
variable (dim nn gnb nq : ℕ) (w : ℕ → K) (gval : ℕ → ℕ → K) (ggrad : ℕ → ℕ → ℕ → K) (X : ℕ → ℕ → K)

/-- what phase `p` does to the memory of element `t` -/
def volStep (nt : ℕ) (d : ℕ → Fin nt) (t p : ℕ) (M : SCell → K) : SCell → K :=
  match p with
  | 0 => setBlk (putCoords M t nn dim X) .x t nq dim 1 fun q d _ => 0 + loopSum gnb fun p => (1 * gval q p) * X p d
  | 1 => putJac M t dim nn nq X ggrad
  | 2 => setBlk M .slot t nt 1 1 fun l _ _ =>
        pickSum nq (fun iq => (d iq).1 = l) fun iq => w iq * M ⟨.djac, t, iq, 0, 0⟩
  | 3 => setBlk M .vol t 1 1 1 fun _ _ _ => loopSum nt fun l => M ⟨.slot, t, l, 0, 0⟩
  | _ => M

/-- the memory of the team of element `t` after `p` phases -/
def volMem (nt : ℕ) (d : ℕ → Fin nt) (m : SCell → K) (t : ℕ) : ℕ → SCell → K
  | 0 => m
  | p + 1 => volStep dim nn gnb nq w gval ggrad X nt d t p (volMem nt d m t p)

end volume

theorem vol_settles {D : ℕ → ℕ → Fin nt} {ne dim nn gnb nq : ℕ} {w : ℕ → K} {gval : ℕ → ℕ → K}
    {ggrad : ℕ → ℕ → ℕ → K} {X : ℕ → ℕ → ℕ → K} (hnt : 0 < nt) (hg : gnb ≤ nn) (m : SCell → K) :
    (volumeKernel D ne dim nn gnb nq w gval ggrad X).Settles m
      (finalMem (fun t : Fin ne => volMem dim nn gnb nq w gval ggrad (X t) nt (D 1) m t) 4 m) := by
  refine settles_of (k := volumeKernel D ne dim nn gnb nq w gval ggrad X)
    (S := fun t p c => p = 3 ∧ c = ⟨.vol, t, 0, 0, 0⟩)
    (M := fun t : Fin ne => volMem dim nn gnb nq w gval ggrad (X t) nt (D 1) m t) (fun _ => rfl) fun t p hp => ?_
  have hp' : p < 4 := hp
  interval_cases p
  · simp only [show ((0 : ℕ) = 3) = False by simp, false_and]
    exact phase_coords_phys hnt hg (by simp)
  · simp only [show ((1 : ℕ) = 3) = False by simp, false_and]
    refine phase_jac fun p hp i hi => ?_
    rw [show volMem dim nn gnb nq w gval ggrad (X t) nt (D 1) m t 1 =
      volStep dim nn gnb nq w gval ggrad (X t) nt (D 1) t 0 m from rfl, volStep, setBlk_ne (by simp), putCoords,
      setBlk_at hp hi Nat.one_pos]
  · simp only [show ((2 : ℕ) = 3) = False by simp, false_and]
    exact phase_slots
  · simp only [true_and]
    exact phase_total hnt

theorem volMem_djac {d : ℕ → Fin nt} {dim nn gnb nq : ℕ} {w : ℕ → K} {gval : ℕ → ℕ → K}
    {ggrad : ℕ → ℕ → ℕ → K} {X : ℕ → ℕ → K} {m : SCell → K} {t q : ℕ} (hq : q < nq) (p : ℕ) (h2 : 2 ≤ p) (h4 : p ≤ 4) :
    volMem dim nn gnb nq w gval ggrad X nt d m t p ⟨.djac, t, q, 0, 0⟩ = detTo dim (jacOf dim nn X (ggrad q)) 0 := by
  have e2 : volMem dim nn gnb nq w gval ggrad X nt d m t 2 ⟨.djac, t, q, 0, 0⟩ =
      detTo dim (jacOf dim nn X (ggrad q)) 0 := by
    rw [show volMem dim nn gnb nq w gval ggrad X nt d m t 2 = volStep dim nn gnb nq w gval ggrad X nt d t 1 _ from rfl,
      volStep, putJac, setBlk_ne (by simp), putDjac, setBlk_at hq Nat.one_pos Nat.one_pos]
  have e3 : volMem dim nn gnb nq w gval ggrad X nt d m t 3 ⟨.djac, t, q, 0, 0⟩ =
      detTo dim (jacOf dim nn X (ggrad q)) 0 := by
    rw [show volMem dim nn gnb nq w gval ggrad X nt d m t 3 = volStep dim nn gnb nq w gval ggrad X nt d t 2 _ from rfl,
      volStep, setBlk_ne (by simp), e2]
  interval_cases p
  · exact e2
  · exact e3
  · rw [show volMem dim nn gnb nq w gval ggrad X nt d m t 4 = volStep dim nn gnb nq w gval ggrad X nt d t 3 _ from rfl,
      volStep, setBlk_ne (by simp), e3]

theorem volMem_ijac {d : ℕ → Fin nt} {dim nn gnb nq : ℕ} {w : ℕ → K} {gval : ℕ → ℕ → K}
    {ggrad : ℕ → ℕ → ℕ → K} {X : ℕ → ℕ → K} {m : SCell → K} {t q i j : ℕ} (hq : q < nq) (hi : i < dim) (hj : j < dim) :
    volMem dim nn gnb nq w gval ggrad X nt d m t 4 ⟨.ijac, t, q, i, j⟩ =
      invA dim (jacOf dim nn X (ggrad q)) (fun _ _ => 0) i j := by
  rw [show volMem dim nn gnb nq w gval ggrad X nt d m t 4 = volStep dim nn gnb nq w gval ggrad X nt d t 3
    (volStep dim nn gnb nq w gval ggrad X nt d t 2 (volStep dim nn gnb nq w gval ggrad X nt d t 1 _)) from rfl]
  simp only [volStep]
  rw [setBlk_ne (by simp), setBlk_ne (by simp), putJac, setBlk_at hq hi hj]

theorem volMem_x {d : ℕ → Fin nt} {dim nn gnb nq : ℕ} {w : ℕ → K} {gval : ℕ → ℕ → K}
    {ggrad : ℕ → ℕ → ℕ → K} {X : ℕ → ℕ → K} {m : SCell → K} {t q i : ℕ} (hq : q < nq) (hi : i < dim) :
    volMem dim nn gnb nq w gval ggrad X nt d m t 4 ⟨.x, t, q, i, 0⟩ = 0 + loopSum gnb fun p => (1 * gval q p) * X p i := by
  rw [show volMem dim nn gnb nq w gval ggrad X nt d m t 4 = volStep dim nn gnb nq w gval ggrad X nt d t 3
    (volStep dim nn gnb nq w gval ggrad X nt d t 2 (volStep dim nn gnb nq w gval ggrad X nt d t 1
    (volStep dim nn gnb nq w gval ggrad X nt d t 0 m))) from rfl]
  simp only [volStep]
  rw [setBlk_ne (by simp), setBlk_ne (by simp), putJac, setBlk_ne (by simp), putDjac, setBlk_ne (by simp),
    setBlk_ne (by simp), setBlk_at hq hi Nat.one_pos]

/-- the volume as the threads add it up: every thread its own points, then the partial sums -/
theorem volMem_slots {d : ℕ → Fin nt} {dim nn gnb nq : ℕ} {w : ℕ → K} {gval : ℕ → ℕ → K}
    {ggrad : ℕ → ℕ → ℕ → K} {X : ℕ → ℕ → K} {m : SCell → K} {t : ℕ} :
    volMem dim nn gnb nq w gval ggrad X nt d m t 4 ⟨.vol, t, 0, 0, 0⟩ =
      loopSum nt fun l => pickSum nq (fun iq => (d iq).1 = l) fun iq =>
        w iq * detTo dim (jacOf dim nn X (ggrad iq)) 0 := by
  rw [show volMem dim nn gnb nq w gval ggrad X nt d m t 4 = volStep dim nn gnb nq w gval ggrad X nt d t 3
    (volStep dim nn gnb nq w gval ggrad X nt d t 2 (volMem dim nn gnb nq w gval ggrad X nt d m t 2)) from rfl]
  simp only [volStep]
  rw [setBlk_at Nat.one_pos Nat.one_pos Nat.one_pos]
  refine loopSum_congr fun l hl => ?_
  rw [setBlk_at hl Nat.one_pos Nat.one_pos]
  exact pickSum_congr (fun _ _ => Iff.rfl) fun iq hq => by rw [volMem_djac hq 2 (by omega) (by omega)]

/-! ### initial state -/

/-- a distributed loop that stores one row per iteration -/
theorem phase_rows {t nq n dim : ℕ} {d : ℕ → Fin nt} {m : SCell → K} {v u : SView} (huv : u ≠ v)
    {F : (ℕ → K) → ℕ → K} :
    PhaseIn t (fun _ => False) (fun j : Fin nt => teamFor d nq j fun iq => (do
        let x ← loadRow dim fun d => ⟨u, t, iq, d, 0⟩
        Code.forN n fun is => Code.write ⟨v, t, iq, is, 0⟩ (F x is) : Code SCell K Unit)) m
      (setBlk m v t nq n 1 fun q i _ => F (cArr dim fun d => m ⟨u, t, q, d, 0⟩) i) := by
  refine PhaseIn.loop (R := fun q c => ∃ d < dim, c = ⟨u, t, q, d, 0⟩) (W := fun q c => ∃ i < n, c = ⟨v, t, q, i, 0⟩)
    ?_ ?_ ?_ ?_ ?_ ?_
  · rintro _ _ ⟨_, _, rfl⟩; rfl
  · rintro _ _ ⟨_, _, rfl⟩; rfl
  · intro q _
    exact Code.Within.bind (within_loadRow fun i hi => Or.inl ⟨i, hi, rfl⟩) fun _ => Code.Within.forN fun i hi =>
      Code.Within.write ⟨i, hi, rfl⟩
  · rintro q _ q' _ c ⟨i, _, rfl⟩ (⟨i', _, h⟩ | ⟨i', _, h⟩)
    · simp only [SCell.mk.injEq] at h; exact absurd h.1.symm huv
    · simp only [SCell.mk.injEq] at h; exact h.2.2.1
  · intro q hq
    exact Sets.after_load (run_loadRow _ _ _) (Sets.forN fun i hi m' hm' => Sets.write (setBlk_at hq hi Nat.one_pos))
  · intro c hc
    refine setBlk_rest ?_
    rintro ⟨i, hi, j, hj, k, hk, rfl⟩
    exact hc i hi ⟨j, hj, by simp; omega⟩

section init
variable (dim nn gnb nq nb ns : ℕ) (w : ℕ → K) (val gval : ℕ → ℕ → K) (ggrad : ℕ → ℕ → ℕ → K)
  (ic : (ℕ → K) → ℕ → K) (X : ℕ → ℕ → K)

/-- what phase `p` does to the memory of element `t` -/
def initStep (t p : ℕ) (M : SCell → K) : SCell → K :=
  match p with
  | 0 => setBlk (putCoords M t nn dim X) .xphys t nq dim 1 fun q d _ => 0 + loopSum gnb fun p => (1 * gval q p) * X p d
  | 1 => setBlk M .f t nq ns 1 fun q i _ => ic (cArr dim fun d => M ⟨.xphys, t, q, d, 0⟩) i
  | 2 => putDjac .jacS .djacS M t dim nn nq X ggrad
  | 3 => setBlk M .f t nq ns 1 fun q i _ => w q * M ⟨.djacS, t, q, 0, 0⟩ * M ⟨.f, t, q, i, 0⟩
  | 4 => setBlk M .rhs t nb ns 1 fun _ _ _ => 0
  | 5 => setBlk M .rhs t nb ns 1 fun i j _ => 0 + loopSum nq fun p => (1 * val p i) * M ⟨.f, t, p, j, 0⟩
  | 6 => setBlk M .Uc t nb ns 1 fun _ _ _ => 0
  | 7 => setBlk M .Uc t nb ns 1 fun i j _ => 0 + loopSum nb fun p => (1 * M ⟨.iMM, t, i, p, 0⟩) * M ⟨.rhs, t, p, j, 0⟩
  | _ => M

/-- the memory of the team of element `t` after `p` phases -/
def initMem (m : SCell → K) (t : ℕ) : ℕ → SCell → K
  | 0 => m
  | p + 1 => initStep dim nn gnb nq nb ns w val gval ggrad ic X t p (initMem m t p)

end init

theorem init_phase {D : ℕ → ℕ → Fin nt} {ne dim nn gnb nq nb ns : ℕ} {w : ℕ → K} {val gval : ℕ → ℕ → K}
    {ggrad : ℕ → ℕ → ℕ → K} {ic : (ℕ → K) → ℕ → K} {X : ℕ → ℕ → ℕ → K} (hnt : 0 < nt) (hg : gnb ≤ nn)
    (M : SCell → K) (t : Fin ne) (p : ℕ) (hp : p < 8)
    (h2 : p = 2 → ∀ i < nn, ∀ d < dim, M ⟨.coords, t, i, d, 0⟩ = X t i d)
    (h5 : p = 5 → ∀ i < nb, ∀ j < ns, M ⟨.rhs, t, i, j, 0⟩ = 0)
    (h7 : p = 7 → ∀ i < nb, ∀ j < ns, M ⟨.Uc, t, i, j, 0⟩ = 0) :
    PhaseIn t (fun _ => False) ((initKernel D ne dim nn gnb nq nb ns w val gval ggrad ic X).code t p)
      M (initStep dim nn gnb nq nb ns w val gval ggrad ic (X t) t p M) := by
  interval_cases p
  · exact phase_coords_phys hnt hg (by simp)
  · exact phase_rows (by simp)
  · exact phase_djac (by simp) (by simp) (by simp) (h2 rfl)
  · exact phase_scale (by simp)
  · exact phase_clear
  · exact phase_add (a := fun i p => pure (val p i)) (b := fun p j => Code.read ⟨.f, t, p, j, 0⟩)
      (av := fun i p => val p i) (bv := fun p j => M ⟨.f, t, p, j, 0⟩) (h5 rfl) (fun _ _ _ => trivial)
      (fun p _ j => Code.Within.read (Or.inl ⟨by simp, rfl⟩)) (fun _ _ _ _ => rfl) (fun _ _ _ _ => rfl)
  · exact phase_clear
  · exact phase_add (a := fun i p => Code.read ⟨.iMM, t, i, p, 0⟩) (b := fun p j => Code.read ⟨.rhs, t, p, j, 0⟩)
      (av := fun i p => M ⟨.iMM, t, i, p, 0⟩) (bv := fun p j => M ⟨.rhs, t, p, j, 0⟩) (h7 rfl)
      (fun i p _ => Code.Within.read (Or.inl ⟨by simp, rfl⟩))
      (fun p _ j => Code.Within.read (Or.inl ⟨by simp, rfl⟩)) (fun _ _ _ _ => rfl) (fun _ _ _ _ => rfl)

theorem init_computes {D : ℕ → ℕ → Fin nt} {ne dim nn gnb nq nb ns : ℕ} {w : ℕ → K} {val gval : ℕ → ℕ → K}
    {ggrad : ℕ → ℕ → ℕ → K} {ic : (ℕ → K) → ℕ → K} {X : ℕ → ℕ → ℕ → K} (hnt : 0 < nt) (hg : gnb ≤ nn)
    (m : SCell → K) :
    (initKernel D ne dim nn gnb nq nb ns w val gval ggrad ic X).Computes m
      (finalMem (fun t : Fin ne => initMem dim nn gnb nq nb ns w val gval ggrad ic (X t) m t) 8 m) := by
  refine computes_of (k := initKernel D ne dim nn gnb nq nb ns w val gval ggrad ic X)
    (M := fun t : Fin ne => initMem dim nn gnb nq nb ns w val gval ggrad ic (X t) m t) (fun _ => rfl) fun t p hp =>
      init_phase hnt hg _ t p hp ?_ ?_ ?_
  · rintro rfl i hi d hd
    rw [show initMem dim nn gnb nq nb ns w val gval ggrad ic (X t) m t 2 =
      initStep dim nn gnb nq nb ns w val gval ggrad ic (X t) t 1
        (initStep dim nn gnb nq nb ns w val gval ggrad ic (X t) t 0 m) from rfl]
    simp only [initStep]
    rw [setBlk_ne (by simp), setBlk_ne (by simp), putCoords, setBlk_at hi hd Nat.one_pos]
  · rintro rfl i hi j hj
    rw [show initMem dim nn gnb nq nb ns w val gval ggrad ic (X t) m t 5 =
      initStep dim nn gnb nq nb ns w val gval ggrad ic (X t) t 4 _ from rfl, initStep, setBlk_at hi hj Nat.one_pos]
  · rintro rfl i hi j hj
    rw [show initMem dim nn gnb nq nb ns w val gval ggrad ic (X t) m t 7 =
      initStep dim nn gnb nq nb ns w val gval ggrad ic (X t) t 6 _ from rfl, initStep, setBlk_at hi hj Nat.one_pos]

theorem initMem_Uc [DecidableEq K] {dim nn gnb nq nb ns : ℕ} {w : ℕ → K} {val gval : ℕ → ℕ → K}
    {ggrad : ℕ → ℕ → ℕ → K} {ic : (ℕ → K) → ℕ → K} {X : ℕ → ℕ → K} {m : SCell → K} {t : ℕ} {B : ℕ → ℕ → K}
    (hB : ∀ i < nb, ∀ j < nb, m ⟨.iMM, t, i, j, 0⟩ = B i j) (rhs0 U0 : ℕ → ℕ → K) {b s : ℕ} (hb : b < nb) (hs : s < ns) :
    initMem dim nn gnb nq nb ns w val gval ggrad ic X m t 8 ⟨.Uc, t, b, s, 0⟩ =
      l2Projection nq nb ns B val (fun q => detTo dim (jacOf dim nn X (ggrad q)) 0) w
        (fun q => ic (cArr dim fun d => 0 + loopSum gnb fun p => (1 * gval q p) * X p d)) rhs0 U0 b s := by
  have e1 : ∀ q < nq, ∀ i < dim, initMem dim nn gnb nq nb ns w val gval ggrad ic X m t 1 ⟨.xphys, t, q, i, 0⟩ =
      0 + loopSum gnb fun p => (1 * gval q p) * X p i := by
    intro q hq i hi
    rw [show initMem dim nn gnb nq nb ns w val gval ggrad ic X m t 1 =
      initStep dim nn gnb nq nb ns w val gval ggrad ic X t 0 m from rfl, initStep, setBlk_at hq hi Nat.one_pos]
  have e2 : ∀ q < nq, ∀ i < ns, initMem dim nn gnb nq nb ns w val gval ggrad ic X m t 2 ⟨.f, t, q, i, 0⟩ =
      ic (cArr dim fun d => 0 + loopSum gnb fun p => (1 * gval q p) * X p d) i := by
    intro q hq i hi
    rw [show initMem dim nn gnb nq nb ns w val gval ggrad ic X m t 2 =
      initStep dim nn gnb nq nb ns w val gval ggrad ic X t 1
        (initMem dim nn gnb nq nb ns w val gval ggrad ic X m t 1) from rfl, initStep, setBlk_at hq hi Nat.one_pos]
    refine congrArg (fun x => ic x i) ?_
    funext d
    unfold cArr
    split
    · next hd => exact e1 q hq d hd
    · rfl
  have e3 : ∀ q < nq, ∀ i < ns, initMem dim nn gnb nq nb ns w val gval ggrad ic X m t 3 ⟨.f, t, q, i, 0⟩ =
      ic (cArr dim fun d => 0 + loopSum gnb fun p => (1 * gval q p) * X p d) i := by
    intro q hq i hi
    rw [show initMem dim nn gnb nq nb ns w val gval ggrad ic X m t 3 =
      initStep dim nn gnb nq nb ns w val gval ggrad ic X t 2
        (initMem dim nn gnb nq nb ns w val gval ggrad ic X m t 2) from rfl, initStep, putDjac, setBlk_ne (by simp),
        setBlk_ne (by simp), e2 q hq i hi]
  have e3' : ∀ q < nq, initMem dim nn gnb nq nb ns w val gval ggrad ic X m t 3 ⟨.djacS, t, q, 0, 0⟩ =
      detTo dim (jacOf dim nn X (ggrad q)) 0 := by
    intro q hq
    rw [show initMem dim nn gnb nq nb ns w val gval ggrad ic X m t 3 =
      initStep dim nn gnb nq nb ns w val gval ggrad ic X t 2
        (initMem dim nn gnb nq nb ns w val gval ggrad ic X m t 2) from rfl, initStep, putDjac,
        setBlk_at hq Nat.one_pos Nat.one_pos]
  have e5 : ∀ q < nq, ∀ i < ns, initMem dim nn gnb nq nb ns w val gval ggrad ic X m t 5 ⟨.f, t, q, i, 0⟩ =
      w q * detTo dim (jacOf dim nn X (ggrad q)) 0 *
        ic (cArr dim fun d => 0 + loopSum gnb fun p => (1 * gval q p) * X p d) i := by
    intro q hq i hi
    rw [show initMem dim nn gnb nq nb ns w val gval ggrad ic X m t 5 =
      initStep dim nn gnb nq nb ns w val gval ggrad ic X t 4 (initStep dim nn gnb nq nb ns w val gval ggrad ic X t 3
        (initMem dim nn gnb nq nb ns w val gval ggrad ic X m t 3)) from rfl]
    simp only [initStep]
    rw [setBlk_ne (by simp), setBlk_at hq hi Nat.one_pos, e3 q hq i hi, e3' q hq]
  have e7 : ∀ i < nb, ∀ j < ns, initMem dim nn gnb nq nb ns w val gval ggrad ic X m t 7 ⟨.rhs, t, i, j, 0⟩ =
      cATxB_to_C 1 nb ns nq val (scaleRows nq ns w (fun q => detTo dim (jacOf dim nn X (ggrad q)) 0)
        fun q => ic (cArr dim fun d => 0 + loopSum gnb fun p => (1 * gval q p) * X p d)) rhs0 i j := by
    intro i hi j hj
    rw [show initMem dim nn gnb nq nb ns w val gval ggrad ic X m t 7 =
      initStep dim nn gnb nq nb ns w val gval ggrad ic X t 6 (initStep dim nn gnb nq nb ns w val gval ggrad ic X t 5
        (initMem dim nn gnb nq nb ns w val gval ggrad ic X m t 5)) from rfl]
    simp only [initStep]
    rw [setBlk_ne (by simp), setBlk_at hi hj Nat.one_pos]
    unfold cATxB_to_C gemm
    rw [if_pos ⟨hi, hj⟩, if_pos rfl]
    refine congrArg (0 + ·) (loopSum_congr fun q hq => ?_)
    rw [e5 q hq j hj]
    simp only [scaleRows, hq, if_true, scaleVec, hj]
  have e7' : ∀ i < nb, ∀ j < nb, initMem dim nn gnb nq nb ns w val gval ggrad ic X m t 7 ⟨.iMM, t, i, j, 0⟩ =
      B i j := by
    intro i hi j hj
    rw [← hB i hi j hj]
    rw [show initMem dim nn gnb nq nb ns w val gval ggrad ic X m t 7 =
      initStep dim nn gnb nq nb ns w val gval ggrad ic X t 6 (initStep dim nn gnb nq nb ns w val gval ggrad ic X t 5
      (initStep dim nn gnb nq nb ns w val gval ggrad ic X t 4 (initStep dim nn gnb nq nb ns w val gval ggrad ic X t 3
      (initStep dim nn gnb nq nb ns w val gval ggrad ic X t 2 (initStep dim nn gnb nq nb ns w val gval ggrad ic X t 1
      (initStep dim nn gnb nq nb ns w val gval ggrad ic X t 0 m)))))) from rfl]
    simp only [initStep]
    rw [setBlk_ne (by simp), setBlk_ne (by simp), setBlk_ne (by simp), setBlk_ne (by simp), putDjac,
      setBlk_ne (by simp), setBlk_ne (by simp), setBlk_ne (by simp), setBlk_ne (by simp), putCoords,
      setBlk_ne (by simp)]
  rw [show initMem dim nn gnb nq nb ns w val gval ggrad ic X m t 8 =
    initStep dim nn gnb nq nb ns w val gval ggrad ic X t 7
      (initMem dim nn gnb nq nb ns w val gval ggrad ic X m t 7) from rfl, initStep, setBlk_at hb hs Nat.one_pos]
  unfold l2Projection cAxB_to_C gemm
  rw [if_pos ⟨hb, hs⟩, if_pos rfl]
  refine congrArg (0 + ·) (loopSum_congr fun p hp => ?_)
  rw [e7 p hp s hs, e7' b hb p hp]

/-! ### what is left alone -/

theorem setBlk_view {m : SCell → K} {v : SView} {e n0 n1 n2 : ℕ} {F : ℕ → ℕ → ℕ → K} {c : SCell} (h : c.view ≠ v) :
    setBlk m v e n0 n1 n2 F c = m c := by
  simp [setBlk, h]

/-- results of the earlier kernels -/
def SView.kept : SView → Bool
  | .iMM | .djac | .ijac | .x | .vol => true
  | _ => false

theorem initMem_kept {dim nn gnb nq nb ns : ℕ} {w : ℕ → K} {val gval : ℕ → ℕ → K}
    {ggrad : ℕ → ℕ → ℕ → K} {ic : (ℕ → K) → ℕ → K} {X : ℕ → ℕ → K} {m : SCell → K} {t : ℕ} {c : SCell}
    (h : c.view.kept = true) (p : ℕ) : initMem dim nn gnb nq nb ns w val gval ggrad ic X m t p c = m c := by
  have hne : ∀ v : SView, v.kept = false → c.view ≠ v := by rintro v hv rfl; rw [h] at hv; exact absurd hv (by simp)
  induction p with
  | zero => rfl
  | succ p ih =>
    rw [initMem, initStep.eq_def]
    split <;>
      simp only [putDjac, putCoords, setBlk_view (K := K) (hne .xphys rfl), setBlk_view (K := K) (hne .coords rfl),
        setBlk_view (K := K) (hne .f rfl), setBlk_view (K := K) (hne .jacS rfl), setBlk_view (K := K) (hne .djacS rfl),
        setBlk_view (K := K) (hne .rhs rfl), setBlk_view (K := K) (hne .Uc rfl), ih]

theorem volMem_iMM {d : ℕ → Fin nt} {dim nn gnb nq : ℕ} {w : ℕ → K} {gval : ℕ → ℕ → K}
    {ggrad : ℕ → ℕ → ℕ → K} {X : ℕ → ℕ → K} {m : SCell → K} {t : ℕ} {c : SCell} (h : c.view = .iMM) (p : ℕ) :
    volMem dim nn gnb nq w gval ggrad X nt d m t p c = m c := by
  have hne : ∀ v : SView, v ≠ .iMM → c.view ≠ v := by rintro v hv rfl; exact hv h
  induction p with
  | zero => rfl
  | succ p ih =>
    rw [volMem, volStep.eq_def]
    split <;>
      simp only [putJac, putDjac, putCoords, setBlk_view (K := K) (hne .x (by simp)), setBlk_view (K := K) (hne .coords (by simp)),
        setBlk_view (K := K) (hne .jac (by simp)), setBlk_view (K := K) (hne .djac (by simp)), setBlk_view (K := K) (hne .ijac (by simp)),
        setBlk_view (K := K) (hne .slot (by simp)), setBlk_view (K := K) (hne .vol (by simp)), ih]

end DG.Dev
