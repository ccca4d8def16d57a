import Verif.Lemmas.SetupInit
import Verif.Lemmas.BoundsSetup
import Verif.Model.PostKernels

/-! The kernels of the post-processor, `Model/PostKernels.lean`. -/
namespace DG.Dev
open Kernel
variable {K : Type} [Field K] {nt : ℕ}

/-! ### eval state -/

section state
variable (nq nb ns : ℕ) (val : ℕ → ℕ → K)

/-- what phase `p` does to the memory of element `t` -/
def stateStep (t p : ℕ) (M : SCell → K) : SCell → K :=
  match p with
  | 0 => setBlk M .Uq t nq ns 1 fun _ _ _ => 0
  | 1 => setBlk M .Uq t nq ns 1 fun i j _ => 0 + loopSum nb fun p => (1 * val i p) * M ⟨.Uc, t, p, j, 0⟩
  | _ => M

/-- the memory of the team of element `t` after `p` phases -/
def stateMem (m : SCell → K) (t : ℕ) : ℕ → SCell → K
  | 0 => m
  | p + 1 => stateStep nq nb ns val t p (stateMem m t p)

end state

theorem state_computes {D : ℕ → ℕ → Fin nt} {ne nq nb ns : ℕ} {val : ℕ → ℕ → K} (m : SCell → K) :
    (stateKernel D ne nq nb ns val).Computes m
      (finalMem (fun t : Fin ne => stateMem nq nb ns val m t) 2 m) := by
  refine computes_of (k := stateKernel D ne nq nb ns val)
    (M := fun t : Fin ne => stateMem nq nb ns val m t) (fun _ => rfl) fun t p hp => ?_
  have hp : p < 2 := hp
  interval_cases p
  · exact phase_clear
  · refine phase_add (a := fun i p => pure (val i p)) (b := fun p j => Code.read ⟨.Uc, t, p, j, 0⟩)
      (av := fun i p => val i p) (bv := fun p j => stateMem nq nb ns val m t 1 ⟨.Uc, t, p, j, 0⟩) ?_ (fun _ _ _ => trivial)
      (fun p _ j => Code.Within.read (Or.inl ⟨by simp, rfl⟩)) (fun _ _ _ _ => rfl) (fun _ _ _ _ => rfl)
    intro i hi j hj
    rw [show stateMem nq nb ns val m t 1 = stateStep nq nb ns val t 0 m from rfl, stateStep, setBlk_at hi hj Nat.one_pos]

theorem stateMem_Uq {nq nb ns : ℕ} {val : ℕ → ℕ → K} {m : SCell → K} {t q s : ℕ} (hq : q < nq) (hs : s < ns) :
    stateMem nq nb ns val m t 2 ⟨.Uq, t, q, s, 0⟩ = loopSum nb fun p => (1 * val q p) * m ⟨.Uc, t, p, s, 0⟩ := by
  rw [show stateMem nq nb ns val m t 2 = stateStep nq nb ns val t 1 (stateStep nq nb ns val t 0 m) from rfl]
  simp only [stateStep]
  rw [setBlk_at hq hs Nat.one_pos, zero_add]
  refine congrArg (loopSum nb) (funext fun p => ?_)
  rw [setBlk_ne (by simp)]

theorem stateMem_ne {nq nb ns : ℕ} {val : ℕ → ℕ → K} {m : SCell → K} {t : ℕ} {c : SCell} (h : c.view ≠ .Uq) :
    stateMem nq nb ns val m t 2 c = m c := by
  rw [show stateMem nq nb ns val m t 2 = stateStep nq nb ns val t 1 (stateStep nq nb ns val t 0 m) from rfl]
  simp only [stateStep]
  rw [setBlk_view h, setBlk_view h]

/-! ### error of the elements -/

theorem run_errorSum {e nq ord is : ℕ} {w : ℕ → K} {m : SCell → K} :
    (Code.foldN 0 nq fun acc iq => (do
      let u ← Code.read ⟨.Uq, e, iq, is, 0⟩
      let x ← Code.read ⟨.f, e, iq, is, 0⟩
      let d ← Code.read ⟨.djacS, e, iq, 0, 0⟩
      pure (acc + (u - x) ^ ord * w iq * d) : Code SCell K K)).run m =
      (loopSum nq fun q => (m ⟨.Uq, e, q, is, 0⟩ - m ⟨.f, e, q, is, 0⟩) ^ ord * w q * m ⟨.djacS, e, q, 0, 0⟩, m) := by
  induction nq with
  | zero => rfl
  | succ n ih =>
    have hb : (Code.foldN 0 (n + 1) fun acc iq => (do
      let u ← Code.read ⟨.Uq, e, iq, is, 0⟩
      let x ← Code.read ⟨.f, e, iq, is, 0⟩
      let d ← Code.read ⟨.djacS, e, iq, 0, 0⟩
      pure (acc + (u - x) ^ ord * w iq * d) : Code SCell K K)).run m = ((Code.foldN 0 n fun acc iq => (do
      let u ← Code.read ⟨.Uq, e, iq, is, 0⟩
      let x ← Code.read ⟨.f, e, iq, is, 0⟩
      let d ← Code.read ⟨.djacS, e, iq, 0, 0⟩
      pure (acc + (u - x) ^ ord * w iq * d) : Code SCell K K)).bind fun acc => (do
      let u ← Code.read ⟨.Uq, e, n, is, 0⟩
      let x ← Code.read ⟨.f, e, n, is, 0⟩
      let d ← Code.read ⟨.djacS, e, n, 0, 0⟩
      pure (acc + (u - x) ^ ord * w n * d) : Code SCell K K)).run m := rfl
    rw [hb, Code.run_bind, ih, loopSum_eq, loopSum_eq, Finset.sum_range_succ]
    rfl

theorem phase_error {t nq ns ord : ℕ} {d : ℕ → Fin nt} {m : SCell → K} {w : ℕ → K} :
    PhaseIn t (fun _ => False) (fun j : Fin nt => teamFor d ns j (errorCode t nq ord w)) m
      (setBlk m .err t ns 1 1 fun s _ _ => loopSum nq fun q =>
        (m ⟨.Uq, t, q, s, 0⟩ - m ⟨.f, t, q, s, 0⟩) ^ ord * w q * m ⟨.djacS, t, q, 0, 0⟩) := by
  refine PhaseIn.loop (R := fun _ c => c.view ≠ .err ∧ c.e = t) (W := fun s c => c = ⟨.err, t, s, 0, 0⟩)
    (fun _ _ h => h.2) ?_ ?_ ?_ ?_ ?_
  · rintro _ _ rfl; rfl
  · intro s _
    refine Code.Within.bind (Code.Within.foldN fun acc i hi => ?_) fun s => Code.Within.write rfl
    exact Code.Within.bind (Code.Within.read (Or.inl ⟨by simp, rfl⟩)) fun _ =>
      Code.Within.bind (Code.Within.read (Or.inl ⟨by simp, rfl⟩)) fun _ =>
      Code.Within.bind (Code.Within.read (Or.inl ⟨by simp, rfl⟩)) fun _ => trivial
  · rintro s _ s' _ c rfl (h | h)
    · exact absurd rfl h.1
    · simp only [SCell.mk.injEq] at h; exact h.2.2.1
  · intro s hs
    exact Sets.after_load run_errorSum (Sets.write (setBlk_at hs Nat.one_pos Nat.one_pos))
  · intro c hc
    refine setBlk_rest ?_
    rintro ⟨i, hi, j, hj, k, hk, rfl⟩
    exact hc i hi (by simp; omega)

section error
variable (dim nn gnb nq ns ord : ℕ) (w : ℕ → K) (gval : ℕ → ℕ → K) (ggrad : ℕ → ℕ → ℕ → K)
  (ex : (ℕ → K) → ℕ → K) (X : ℕ → ℕ → K)

/-- what phase `p` does to the memory of element `t` -/
def errorStep (t p : ℕ) (M : SCell → K) : SCell → K :=
  match p with
  | 0 => setBlk (putCoords M t nn dim X) .xphys t nq dim 1 fun q d _ => 0 + loopSum gnb fun p => (1 * gval q p) * X p d
  | 1 => setBlk M .f t nq ns 1 fun q i _ => ex (cArr dim fun d => M ⟨.xphys, t, q, d, 0⟩) i
  | 2 => putDjac .jacS .djacS M t dim nn nq X ggrad
  | 3 => setBlk M .err t ns 1 1 fun s _ _ => loopSum nq fun q =>
        (M ⟨.Uq, t, q, s, 0⟩ - M ⟨.f, t, q, s, 0⟩) ^ ord * w q * M ⟨.djacS, t, q, 0, 0⟩
  | _ => M

/-- the memory of the team of element `t` after `p` phases -/
def errorMem (m : SCell → K) (t : ℕ) : ℕ → SCell → K
  | 0 => m
  | p + 1 => errorStep dim nn gnb nq ns ord w gval ggrad ex X t p (errorMem m t p)

end error

theorem error_computes {D : ℕ → ℕ → Fin nt} {ne dim nn gnb nq ns ord : ℕ} {w : ℕ → K} {gval : ℕ → ℕ → K}
    {ggrad : ℕ → ℕ → ℕ → K} {ex : (ℕ → K) → ℕ → K} {X : ℕ → ℕ → ℕ → K} (hnt : 0 < nt) (hg : gnb ≤ nn)
    (m : SCell → K) :
    (errorKernel D ne dim nn gnb nq ns ord w gval ggrad ex X).Computes m
      (finalMem (fun t : Fin ne => errorMem dim nn gnb nq ns ord w gval ggrad ex (X t) m t) 4 m) := by
  refine computes_of (k := errorKernel D ne dim nn gnb nq ns ord w gval ggrad ex X)
    (M := fun t : Fin ne => errorMem dim nn gnb nq ns ord w gval ggrad ex (X t) m t) (fun _ => rfl) fun t p hp => ?_
  have hp : p < 4 := hp
  interval_cases p
  · exact phase_coords_phys hnt hg (by simp)
  · exact phase_rows (by simp)
  · refine phase_djac (by simp) (by simp) (by simp) ?_
    intro i hi d hd
    rw [show errorMem dim nn gnb nq ns ord w gval ggrad ex (X t) m t 2 =
      errorStep dim nn gnb nq ns ord w gval ggrad ex (X t) t 1
        (errorStep dim nn gnb nq ns ord w gval ggrad ex (X t) t 0 m) from rfl]
    simp only [errorStep]
    rw [setBlk_ne (by simp), setBlk_ne (by simp), putCoords, setBlk_at hi hd Nat.one_pos]
  · exact phase_error

theorem errorMem_err {dim nn gnb nq ns ord : ℕ} {w : ℕ → K} {gval : ℕ → ℕ → K}
    {ggrad : ℕ → ℕ → ℕ → K} {ex : (ℕ → K) → ℕ → K} {X : ℕ → ℕ → K} {m : SCell → K} {t s : ℕ} (hs : s < ns) :
    errorMem dim nn gnb nq ns ord w gval ggrad ex X m t 4 ⟨.err, t, s, 0, 0⟩ = loopSum nq fun q =>
      (m ⟨.Uq, t, q, s, 0⟩ - ex (cArr dim fun d => 0 + loopSum gnb fun p => (1 * gval q p) * X p d) s) ^ ord * w q *
        detTo dim (jacOf dim nn X (ggrad q)) 0 := by
  rw [show errorMem dim nn gnb nq ns ord w gval ggrad ex X m t 4 =
    errorStep dim nn gnb nq ns ord w gval ggrad ex X t 3 (errorStep dim nn gnb nq ns ord w gval ggrad ex X t 2
    (errorStep dim nn gnb nq ns ord w gval ggrad ex X t 1
        (errorStep dim nn gnb nq ns ord w gval ggrad ex X t 0 m))) from rfl]
  simp only [errorStep]
  rw [setBlk_at hs Nat.one_pos Nat.one_pos, loopSum_eq, loopSum_eq]
  refine Finset.sum_congr rfl fun q hq => ?_
  have hq := Finset.mem_range.1 hq
  rw [putDjac, setBlk_at hq Nat.one_pos Nat.one_pos]
  refine congrArg (fun x => x ^ ord * w q * _) (congrArg₂ (· - ·) ?_ ?_)
  · rw [setBlk_ne (by simp), setBlk_ne (by simp), setBlk_ne (by simp), setBlk_ne (by simp), putCoords,
      setBlk_ne (by simp)]
  · rw [setBlk_ne (by simp), setBlk_ne (by simp), setBlk_at hq hs Nat.one_pos]
    refine congrArg (fun x => ex x s) ?_
    funext d
    unfold cArr
    split
    · next hd => exact setBlk_at hq hd Nat.one_pos
    · rfl

theorem errorMem_kept {dim nn gnb nq ns ord : ℕ} {w : ℕ → K} {gval : ℕ → ℕ → K}
    {ggrad : ℕ → ℕ → ℕ → K} {ex : (ℕ → K) → ℕ → K} {X : ℕ → ℕ → K} {m : SCell → K} {t : ℕ} {c : SCell}
    (h : c.view.lasting = true) (h' : c.view ≠ .err) (p : ℕ) :
    errorMem dim nn gnb nq ns ord w gval ggrad ex X m t p c = m c := by
  have hne : ∀ v : SView, v.lasting = false → c.view ≠ v := by rintro v hv rfl; rw [h] at hv; exact absurd hv (by simp)
  induction p with
  | zero => rfl
  | succ p ih =>
    rw [errorMem, errorStep.eq_def]
    split <;>
      simp only [putDjac, putCoords, setBlk_view (K := K) (hne .xphys rfl), setBlk_view (K := K) (hne .coords rfl),
        setBlk_view (K := K) (hne .f rfl), setBlk_view (K := K) (hne .jacS rfl), setBlk_view (K := K) (hne .djacS rfl),
        setBlk_view (K := K) h', ih]

/-! ### sums over the elements -/

section sums
variable (d : ℕ → Fin nt) (n : ℕ) (cell : ℕ → SCell) (dst : SCell)

/-- memory after the partial sums -/
def partMem (m : SCell → K) : SCell → K :=
  setBlk m .part 0 nt 1 1 fun l _ _ => ∑ i ∈ Finset.range n, if (d i).1 = l then m (cell i) else 0

/-- memory after the phases of `sumKernel` -/
def sumMem (m : SCell → K) : ℕ → SCell → K
  | 0 => m
  | 1 => partMem d n cell m
  | _ + 2 => Function.update (partMem d n cell m) dst
      (∑ l ∈ Finset.range nt, partMem d n cell m ⟨.part, 0, l, 0, 0⟩)

end sums

theorem sum_computes (hnt : 0 < nt) {d : ℕ → Fin nt} {n : ℕ} {cell : ℕ → SCell} {dst : SCell}
    (hc : ∀ i, (cell i).view ≠ .part) (hd : dst.view ≠ .part) (m : SCell → K) :
    (sumKernel d n cell dst).Computes m (sumMem d n cell dst m 2) := by
  have h0 : PhaseOK ((sumKernel (K := K) d n cell dst).code 0 0) (fun _ c => c.view ≠ .part)
      (fun j c => c = ⟨.part, 0, j, 0, 0⟩) (fun _ => False) m (partMem d n cell m) := by
    refine PhaseOK.each ?_ ?_ ?_ ?_
    · intro j
      refine Code.Within.bind (Code.Within.foldN fun acc i hi => ?_) fun s => Code.Within.write rfl
      split
      · exact Code.Within.bind (Code.Within.read (Or.inl (hc i))) fun _ => trivial
      · trivial
    · rintro j j' c rfl (h | h)
      · exact absurd rfl h
      · simp only [SCell.mk.injEq] at h
        exact Fin.ext h.2.2.1
    · intro j
      refine Sets.after_load (run_foldN_read (cell := cell) (p := fun i => d i = j)
        (f := fun _ x => x)) (Sets.write ?_)
      rw [partMem, setBlk_at j.2 Nat.one_pos Nat.one_pos]
      rw [pickSum_sum]
      refine Finset.sum_congr rfl fun iq _ => ?_
      simp only [Fin.ext_iff]
    · intro c hc
      refine setBlk_rest ?_
      rintro ⟨i, hi, j, hj, k, hk, rfl⟩
      exact hc ⟨i, hi⟩ (by simp; omega)
  have hrun : ∀ M : SCell → K, (Code.foldN 0 nt fun acc l => (do
          let v ← Code.read ⟨.part, 0, l, 0, 0⟩
          pure (acc + v) : Code SCell K K)).run M = (∑ l ∈ Finset.range nt, M ⟨.part, 0, l, 0, 0⟩, M) := by
    intro M
    have := run_foldN_read (n := nt) (cell := fun l => ⟨.part, 0, l, 0, 0⟩) (p := fun _ => True)
      (f := fun _ x => x) (m := M)
    simpa [pickSum_sum] using this
  have h1 : PhaseOK ((sumKernel (K := K) d n cell dst).code 0 1) (fun j c => j.1 = 0 ∧ c.view = .part)
      (fun j c => j.1 = 0 ∧ c = dst) (fun _ => False) (partMem d n cell m) (sumMem d n cell dst m 2) := by
    refine PhaseOK.lone hnt ?_ ?_ ?_
    · exact Code.Within.bind (Code.Within.foldN fun acc l hl =>
        Code.Within.bind (Code.Within.read (Or.inl rfl)) fun _ => trivial) fun _ => Code.Within.write rfl
    · refine Sets.after_load (hrun _) (Sets.write ?_)
      simp [sumMem]
    · intro c hc
      exact Function.update_of_ne hc _ _
  have hp : (sumKernel (K := K) d n cell dst).Phased (fun _ => some (0 : Fin 1))
      (fun _ p => match p with | 0 => fun _ c => c.view ≠ .part | _ => fun j c => j.1 = 0 ∧ c.view = .part)
      (fun _ p => match p with | 0 => fun j c => c = ⟨.part, 0, j, 0, 0⟩ | _ => fun j c => j.1 = 0 ∧ c = dst)
      (fun _ _ _ => False) (fun _ => sumMem d n cell dst m) m := by
    refine ⟨fun _ => rfl, ?_, ?_, ?_, fun _ _ _ _ h => h.elim⟩
    · intro t p hp
      obtain rfl : t = 0 := Subsingleton.elim _ _
      have hp : p < 2 := hp
      interval_cases p
      · exact h0
      · exact h1
    · intro t p j c _ _
      exact Or.inl (congrArg some (Subsingleton.elim _ _))
    · intro t p j c _ _
      exact congrArg some (Subsingleton.elim _ _)
  refine hp.computes (fun _ _ _ h => h) (fun _ _ _ => rfl) ?_
  intro c hc
  exact absurd hc (by simp)

theorem sumMem_dst {d : ℕ → Fin nt} {n : ℕ} {cell : ℕ → SCell} {dst : SCell} {m : SCell → K} :
    sumMem d n cell dst m 2 dst = loopSum n fun i => m (cell i) := by
  simp only [sumMem, Function.update_self, loopSum_eq]
  have : ∀ l ∈ Finset.range nt, partMem d n cell m ⟨.part, 0, l, 0, 0⟩ =
      ∑ i ∈ Finset.range n, if (d i).1 = l then m (cell i) else 0 := by
    intro l hl
    rw [partMem, setBlk_at (Finset.mem_range.1 hl) Nat.one_pos Nat.one_pos]
  rw [Finset.sum_congr rfl this, Finset.sum_comm]
  refine Finset.sum_congr rfl fun i _ => ?_
  rw [Finset.sum_ite_eq, if_pos (Finset.mem_range.2 (d i).2)]

theorem sumMem_ne {d : ℕ → Fin nt} {n : ℕ} {cell : ℕ → SCell} {dst : SCell} {m : SCell → K} {c : SCell}
    (h : c ≠ dst) (hv : c.view ≠ .part) : sumMem d n cell dst m 2 c = m c := by
  simp only [sumMem]
  rw [Function.update_of_ne h, partMem, setBlk_view hv]

/-! ### bounds -/

theorem state_in {ne nn dim nq nb ns : ℕ} (D : ℕ → ℕ → Fin nt) (val : ℕ → ℕ → K) (m : SCell → K) :
    (stateKernel D ne nq nb ns val).StaysIn (SInside ne nt nn dim nq nb ns) m := by
  refine staysIn_of_code (fun e p j _ => ?_) m
  match p with
  | 0 =>
    exact In.team fun i hi => In.write ⟨e.2, (div_mod_lt hi).1, (div_mod_lt hi).2, Nat.one_pos⟩
  | 1 =>
    exact In.team fun i hi => In.addProduct (fun _ _ => In.pure)
      (fun p hp => In.read ⟨e.2, hp, (div_mod_lt hi).2, Nat.one_pos⟩)
      ⟨e.2, (div_mod_lt hi).1, (div_mod_lt hi).2, Nat.one_pos⟩
  | _ + 2 =>
    exact trivial

theorem error_in {ne nn dim nq nb ns ord : ℕ} (D : ℕ → ℕ → Fin nt) {gnb : ℕ} (hg : gnb ≤ nn) (w : ℕ → K)
    (gval : ℕ → ℕ → K) (ggrad : ℕ → ℕ → ℕ → K) (ex : (ℕ → K) → ℕ → K) (X : ℕ → ℕ → ℕ → K) (m : SCell → K) :
    (errorKernel D ne dim nn gnb nq ns ord w gval ggrad ex X).StaysIn (SInside ne nt nn dim nq nb ns) m := by
  refine staysIn_of_code (fun e p j _ => ?_) m
  match p with
  | 0 =>
    exact In.zero (In.bind (In.coords e.2 _) fun _ => In.phys e.2 hg _ (Or.inr rfl) _)
  | 1 =>
    exact In.team fun iq hq => In.bind (In.loadRow fun i hi => ⟨e.2, hq, hi, Nat.one_pos⟩) fun _ =>
      In.forN fun s hs => In.write ⟨e.2, hq, hs, Nat.one_pos⟩
  | 2 =>
    exact In.team fun iq hq => In.djac e.2 hq (Or.inr ⟨rfl, rfl⟩) _
  | 3 =>
    exact In.team fun s hs => In.bind (In.foldN fun _ q hq =>
      In.bind (In.read ⟨e.2, hq, hs, Nat.one_pos⟩) fun _ => In.bind (In.read ⟨e.2, hq, hs, Nat.one_pos⟩) fun _ =>
      In.bind (In.read ⟨e.2, hq, Nat.one_pos, Nat.one_pos⟩) fun _ => In.pure) fun _ =>
      In.write ⟨e.2, hs, Nat.one_pos, Nat.one_pos⟩
  | _ + 4 =>
    exact trivial

theorem sum_in {d : ℕ → Fin nt} {n : ℕ} {cell : ℕ → SCell} {dst : SCell} (m : SCell → K) :
    (sumKernel d n cell dst).StaysIn
      (fun c => (∃ i < n, c = cell i) ∨ (∃ l < nt, c = ⟨.part, 0, l, 0, 0⟩) ∨ c = dst) m := by
  refine staysIn_of_code (fun e p j _ => ?_) m
  match p with
  | 0 =>
    exact In.bind (In.foldN fun _ i hi => In.ite (fun _ =>
      In.bind (In.read (Or.inl ⟨i, hi, rfl⟩)) fun _ => In.pure) fun _ => In.pure) fun _ =>
        In.write (Or.inr (Or.inl ⟨j, j.2, rfl⟩))
  | 1 =>
    exact In.zero (In.bind (In.foldN fun _ l hl => In.bind (In.read (Or.inr (Or.inl ⟨l, hl, rfl⟩))) fun _ => In.pure)
      fun _ => In.write (Or.inr (Or.inr rfl)))
  | _ + 2 =>
    exact trivial

end DG.Dev
