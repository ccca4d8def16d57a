import Verif.Lemmas.SetupKernels
import Verif.Lemmas.KernelSim
import Verif.Lemmas.Mass

/-! The kernel "iMM_helper" of `Model/SetupKernels.lean`. -/
namespace DG
variable {K : Type} [Zero K] [One K] [Add K] [Sub K] [Mul K] [Neg K] [Div K] [NatCast K]

/-- `A` and `A'` agree on the first `n` rows and columns -/
def SameBlock (n : ℕ) (A A' : ℕ → ℕ → K) : Prop := ∀ i < n, ∀ j < n, A i j = A' i j

theorem luStep_congr {n p : ℕ} (hp : p < n) {A A' : ℕ → ℕ → K} (h : SameBlock n A A') :
    SameBlock n (luStep n A p) (luStep n A' p) := by
  intro i hi j hj
  simp only [luStep, h i hi j hj, h i hi p hp, h p hp p hp, h p hp j hj]

theorem serialLU_congr {n : ℕ} {A A' : ℕ → ℕ → K} (h : SameBlock n A A') :
    SameBlock n (serialLU n A) (serialLU n A') := by
  have key : ∀ (l : List ℕ), (∀ p ∈ l, p < n) → ∀ A A' : ℕ → ℕ → K, SameBlock n A A' →
      SameBlock n (l.foldl (luStep n) A) (l.foldl (luStep n) A') := by
    intro l
    induction l with
    | nil => intro _ A A' h; exact h
    | cons p l ih =>
      intro hl A A' h
      exact ih (fun q hq => hl q (by simp [hq])) _ _ (luStep_congr (hl p (by simp)) h)
  exact key _ (fun p hp => List.mem_range.1 hp) _ _ h

theorem serialSolveLU_congr {n : ℕ} {M M' B B' : ℕ → ℕ → K} (hM : SameBlock n M M') (hB : SameBlock n B B') :
    SameBlock n (serialSolveLU n M B) (serialSolveLU n M' B') := by
  have key1 : ∀ (l : List ℕ), (∀ p ∈ l, p < n) → ∀ A A' : ℕ → ℕ → K, SameBlock n A A' →
      SameBlock n (l.foldl (fwdStep n M) A) (l.foldl (fwdStep n M') A') := by
    intro l
    induction l with
    | nil => intro _ A A' h; exact h
    | cons p l ih =>
      intro hl A A' h
      refine ih (fun q hq => hl q (by simp [hq])) _ _ ?_
      have hp := hl p (by simp)
      intro i hi j hj
      simp only [fwdStep, h i hi j hj, hM i hi p hp, h p hp j hj]
  have key2 : ∀ (l : List ℕ), (∀ p ∈ l, p < n) → ∀ A A' : ℕ → ℕ → K, SameBlock n A A' →
      SameBlock n (l.foldl (bwdStep n M) A) (l.foldl (bwdStep n M') A') := by
    intro l
    induction l with
    | nil => intro _ A A' h; exact h
    | cons p l ih =>
      intro hl A A' h
      refine ih (fun q hq => hl q (by simp [hq])) _ _ ?_
      have hp := hl p (by simp)
      intro i hi j hj
      simp only [bwdStep, h i hi j hj, hM i hi p hp, hM p hp p hp, h p hp j hj]
  exact key2 _ (fun p hp => List.mem_range.1 (List.mem_reverse.1 hp)) _ _
    (key1 _ (fun p hp => List.mem_range.1 hp) _ _ hB)

theorem identityTo_congr {n : ℕ} {B B' : ℕ → ℕ → K} (hB : SameBlock n B B') :
    SameBlock n (identityTo n B) (identityTo n B') := by
  intro i hi j hj
  simp only [identityTo, hB i hi j hj]

theorem invA_congr {n : ℕ} {A A' B B' : ℕ → ℕ → K} (hA : SameBlock n A A') (hB : SameBlock n B B') :
    SameBlock n (invA n A B) (invA n A' B') := by
  intro i hi j hj
  match n, hA, hB, hi, hj with
  | 0, _, _, hi, _ => omega
  | 1, hA, hB, hi, hj =>
    have h00 := hA 0 (by omega) 0 (by omega)
    have := hB i hi j hj
    simp only [invA, h00, this]
  | 2, hA, hB, hi, hj =>
    have h00 := hA 0 (by omega) 0 (by omega)
    have h01 := hA 0 (by omega) 1 (by omega)
    have h10 := hA 1 (by omega) 0 (by omega)
    have h11 := hA 1 (by omega) 1 (by omega)
    interval_cases i <;> interval_cases j <;> simp only [invA, h00, h01, h10, h11]
  | 3, hA, hB, hi, hj =>
    have h00 := hA 0 (by omega) 0 (by omega)
    have h01 := hA 0 (by omega) 1 (by omega)
    have h02 := hA 0 (by omega) 2 (by omega)
    have h10 := hA 1 (by omega) 0 (by omega)
    have h11 := hA 1 (by omega) 1 (by omega)
    have h12 := hA 1 (by omega) 2 (by omega)
    have h20 := hA 2 (by omega) 0 (by omega)
    have h21 := hA 2 (by omega) 1 (by omega)
    have h22 := hA 2 (by omega) 2 (by omega)
    interval_cases i <;> interval_cases j <;> simp only [invA, h00, h01, h02, h10, h11, h12, h20, h21, h22]
  | n + 4, hA, hB, hi, hj =>
    exact serialSolveLU_congr (serialLU_congr hA) (identityTo_congr hB) i hi j hj

theorem invA_large {n : ℕ} (hn : ¬ n ≤ 3) (A B : ℕ → ℕ → K) :
    invA n A B = serialSolveLU n (serialLU n A) (identityTo n B) := by
  match n, hn with
  | n + 4, _ => rfl

/-- sizes at most three: the output does not depend on the previous content -/
theorem invA_small {n : ℕ} (hn : n ≤ 3) (A B B' : ℕ → ℕ → K) : SameBlock n (invA n A B) (invA n A B') := by
  intro i hi j hj
  interval_cases n
  · omega
  · obtain rfl : i = 0 := by omega
    obtain rfl : j = 0 := by omega
    simp [invA]
  · interval_cases i <;> interval_cases j <;> simp only [invA]
  · interval_cases i <;> interval_cases j <;> simp only [invA]

namespace Dev
open Kernel
variable {nt : ℕ}

theorem PhaseIn.all {t : ℕ} (hnt : 0 < nt) {body : Code SCell K Unit} {R S : SCell → Prop} {M M' : SCell → K}
    (hR : ∀ c, R c → c.e = t) (hS : ∀ c, S c → c.e = t)
    (hw : body.Within3 R (fun _ => False) S) (hd : ∀ c, S c → ¬ R c)
    (ha : body.Agrees S M' M) (hs : Sets body M S M') (hr : ∀ c, ¬ S c → M' c = M c) :
    PhaseIn t S (fun _ : Fin nt => body) M M' :=
  haveI : Nonempty (Fin nt) := ⟨⟨0, hnt⟩⟩
  ⟨_, _, PhaseOK.all hw hd ha hs hr, fun _ _ h => hR _ h, fun _ _ h => h.elim, hS⟩

/-- the block of a view as `loadMat` returns it -/
def blockOf (m : SCell → K) (v : SView) (t n : ℕ) : ℕ → ℕ → K := fun i j =>
  if i < n ∧ j < n then m ⟨v, t, i, j, 0⟩ else 0

theorem blockOf_apply {m : SCell → K} {v : SView} {t n i j : ℕ} (hi : i < n) (hj : j < n) :
    blockOf m v t n i j = m ⟨v, t, i, j, 0⟩ := by simp [blockOf, hi, hj]

/-- cells of a block -/
def BlockCells (v : SView) (t n : ℕ) (c : SCell) : Prop := ∃ i < n, ∃ j < n, c = ⟨v, t, i, j, 0⟩

theorem setBlk_off {m : SCell → K} {v : SView} {t n : ℕ} {F : ℕ → ℕ → ℕ → K} {c : SCell} (h : ¬ BlockCells v t n c) :
    setBlk m v t n n 1 F c = m c := by
  refine setBlk_rest ?_
  rintro ⟨i, hi, j, hj, k, hk, rfl⟩
  exact h ⟨i, hi, j, hj, by simp; omega⟩

/-- loading one block and storing another -/
theorem phase_block_small {t n : ℕ} (hnt : 0 < nt) {m : SCell → K} {v v' : SView} (hv : v ≠ v')
    {F : (ℕ → ℕ → K) → ℕ → ℕ → K} :
    PhaseIn t (BlockCells v' t n) (fun _ : Fin nt => (do
        let A ← loadMat n n fun a b => ⟨v, t, a, b, 0⟩
        storeMat n n (fun a b => ⟨v', t, a, b, 0⟩) (F A) : Code SCell K Unit)) m
      (setBlk m v' t n n 1 fun a b _ => F (blockOf m v t n) a b) := by
  have hrun := run_loadMat (K := K) n n (fun a b => ⟨v, t, a, b, 0⟩) m
  refine PhaseIn.all hnt (R := BlockCells v t n) ?_ ?_ ?_ ?_ ?_ ?_ ?_
  · rintro c ⟨_, _, _, _, rfl⟩; rfl
  · rintro c ⟨_, _, _, _, rfl⟩; rfl
  · refine Code.Within3.bind (Code.Within.within3 (within_loadMat ?_)) fun A => ?_
    · intro i hi j hj; exact Or.inl ⟨i, hi, j, hj, rfl⟩
    · exact Code.Within3.forN fun i hi => Code.Within3.forN fun j hj => ⟨Or.inr ⟨i, hi, j, hj, rfl⟩, trivial⟩
  · rintro c ⟨i, _, j, _, rfl⟩ ⟨i', _, j', _, h⟩
    simp only [SCell.mk.injEq] at h
    exact hv h.1.symm
  · refine Code.Agrees.bind (Code.Agrees.of_within (rd := BlockCells v t n) (wr := fun _ => False)
      (within_loadMat ?_) (fun _ h => h.elim) _) ?_
    · intro i hi j hj; exact Or.inl ⟨i, hi, j, hj, rfl⟩
    · rw [hrun]
      exact Code.Agrees.forN fun i hi => Code.Agrees.forN fun j hj =>
        ⟨fun _ => (setBlk_at (m := m) (v := v') (e := t) (F := fun a b _ => F (blockOf m v t n) a b) hi hj
          Nat.one_pos).symm, trivial⟩
  · exact Sets.after_load hrun (sets_storeMat fun i hi j hj => setBlk_at hi hj (by omega))
  · intro c hc; exact setBlk_off hc

/-- all threads do one thing, the thread of rank 0 goes on -/
theorem PhaseIn.both {t : ℕ} (hnt : 0 < nt) {body lone : Code SCell K Unit} {W S : SCell → Prop}
    {M M' : SCell → K} (hW : ∀ c, W c → c.e = t) (hS : ∀ c, S c → c.e = t) (hd : ∀ c, S c → ¬ W c)
    (hw : body.Within3 (fun _ => False) (fun _ => False) S) (hl : lone.Within (fun _ => False) W)
    (ha : body.Agrees S M' M) (hs : Sets body M S M') (hs' : Sets lone (body.run M).2 W M')
    (hr : ∀ c, ¬ S c → ¬ W c → M' c = M c) :
    PhaseIn t S (fun j : Fin nt => (do body; rankZero j lone : Code SCell K Unit)) M M' := by
  have hrun : ∀ j : Fin nt, ((do body; rankZero j lone : Code SCell K Unit).run M).2 =
      ((rankZero j lone).run (body.run M).2).2 := fun j => by
    show ((body.bind fun _ => rankZero j lone).run M).2 = _
    rw [Code.run_bind]
  refine ⟨fun _ _ => False, fun j c => j.1 = 0 ∧ W c, ⟨?_, ?_, ?_, ?_, ?_, ?_, ?_⟩, fun _ _ h => h.elim,
    fun _ _ h => hW _ h.2, hS⟩
  · intro j
    refine Code.Within3.bind (f := fun _ => rankZero j lone) ?_ fun _ => ?_
    · refine (show ∀ {x : Code SCell K Unit}, x.Within3 (fun _ => False) (fun _ => False) S →
        x.Within3 _ _ S from ?_) hw
      intro x
      induction x with
      | ret a => intro _; trivial
      | load c k ih => intro h; exact h.1.elim (fun h => h.elim) fun h => h.elim
      | store c v k ih => intro h; exact ⟨h.1.elim (fun h => h.elim) Or.inr, ih h.2⟩
    · unfold rankZero Code.cond
      split
      · next hj => simpa [hj] using hl.within3
      · trivial
  · rintro j j' c ⟨h1, _⟩ (h2 | ⟨h2, _⟩)
    · exact h2.elim
    · exact Fin.ext (by omega)
  · intro j c hc
    exact ⟨fun h => h, fun h => hd c hc h.2⟩
  · rintro j c ⟨hj, hc⟩
    rw [hrun, rankZero, Code.cond, if_pos hj]
    exact (hs' c).1 hc
  · intro j
    refine Code.Agrees.bind (f := fun _ => rankZero j lone) ha ?_
    unfold rankZero Code.cond
    split
    · exact Code.Agrees.of_within hl (fun c h h' => hd c h' h) _
    · trivial
  · intro c hc
    refine ⟨⟨0, hnt⟩, ?_⟩
    rw [hrun, rankZero, Code.cond, if_pos rfl, (hs' c).2 (hd c hc)]
    exact (hs c).1 hc
  · intro c h1 h2
    exact hr c h2 fun h => h1 ⟨0, hnt⟩ ⟨rfl, h⟩

/-- the diagonal set to one by every thread, then another block replaced by the thread of rank 0 -/
theorem phase_identity {t n : ℕ} (hnt : 0 < nt) {m : SCell → K} {v u : SView} (huv : u ≠ v)
    {F : (ℕ → ℕ → K) → ℕ → ℕ → K} :
    PhaseIn t (fun c => ∃ i < n, c = ⟨v, t, i, i, 0⟩) (fun j : Fin nt => (do
        Code.forN n fun a => Code.forN n fun b => Code.cond (a = b) (Code.write ⟨v, t, a, b, 0⟩ 1)
        rankZero j do
          let A ← loadMat n n fun a b => ⟨u, t, a, b, 0⟩
          storeMat n n (fun a b => ⟨u, t, a, b, 0⟩) (F A) : Code SCell K Unit)) m
      (setBlk (setBlk m v t n n 1 fun a b _ => identityTo n (blockOf m v t n) a b) u t n n 1 fun a b _ =>
        F (blockOf m u t n) a b) := by
  have hM : ∀ i < n, (setBlk (setBlk m v t n n 1 fun a b _ => identityTo n (blockOf m v t n) a b) u t n n 1 fun a b _ =>
        F (blockOf m u t n) a b) ⟨v, t, i, i, 0⟩ = 1 := by
    intro i hi
    rw [setBlk_ne huv.symm, setBlk_at hi hi Nat.one_pos]
    simp [identityTo, hi]
  have hid : Sets (Code.forN n fun a => Code.forN n fun b => Code.cond (a = b) (Code.write ⟨v, t, a, b, 0⟩ 1) :
      Code SCell K Unit) m (fun c => ∃ i < n, c = ⟨v, t, i, i, 0⟩)
      (setBlk (setBlk m v t n n 1 fun a b _ => identityTo n (blockOf m v t n) a b) u t n n 1 fun a b _ =>
        F (blockOf m u t n) a b) := by
    refine Sets.mono (W := fun c => ∃ i < n, ∃ j < n, i = j ∧ c = (⟨v, t, i, j, 0⟩ : SCell))
      (Sets.forN fun i hi m1 _ => Sets.forN (W := fun j c => i = j ∧ c = (⟨v, t, i, j, 0⟩ : SCell))
        fun j hj m2 _ => ?_) ?_
    · unfold Code.cond
      split
      · next h =>
        subst h
        exact Sets.mono (Sets.write (hM i hi)) (fun c => by simp)
      · next h => exact Sets.mono Sets.nothing (fun c => by simp [h])
    · intro c
      constructor
      · rintro ⟨i, hi, _, _, rfl, rfl⟩; exact ⟨i, hi, rfl⟩
      · rintro ⟨i, hi, rfl⟩; exact ⟨i, hi, i, hi, rfl, rfl⟩
  refine PhaseIn.both hnt (W := BlockCells u t n) ?_ ?_ ?_ ?_ ?_ ?_ hid ?_ ?_
  · rintro c ⟨_, _, _, _, rfl⟩; rfl
  · rintro c ⟨_, _, rfl⟩; rfl
  · rintro c ⟨i, _, rfl⟩ ⟨i', _, j', _, h⟩
    simp only [SCell.mk.injEq] at h
    exact huv h.1.symm
  · refine Code.Within3.forN fun i hi => Code.Within3.forN fun j hj => ?_
    unfold Code.cond
    split
    · next h => subst h; exact ⟨Or.inr ⟨i, hi, rfl⟩, trivial⟩
    · trivial
  · refine Code.Within.bind (within_loadMat ?_) fun A => within_storeMat ?_
    · intro i hi j hj; exact Or.inr ⟨i, hi, j, hj, rfl⟩
    · intro i hi j hj; exact ⟨i, hi, j, hj, rfl⟩
  · refine Code.Agrees.forN fun i hi => Code.Agrees.forN fun j hj => ?_
    unfold Code.cond
    split
    · next h =>
      subst h
      exact ⟨fun _ => (hM i hi).symm, trivial⟩
    · trivial
  · refine Sets.after_load (run_loadMat _ _ _ _) (sets_storeMat fun i hi j hj => ?_)
    rw [setBlk_at hi hj Nat.one_pos]
    congr 1
    funext a b
    unfold blockOf
    split
    · rw [(hid _).2]
      rintro ⟨i, _, h⟩
      simp only [SCell.mk.injEq] at h
      exact huv h.1
    · rfl
  · intro c hc hu
    rw [setBlk_off hu]
    by_cases hb : BlockCells v t n c
    · obtain ⟨i, hi, j, hj, rfl⟩ := hb
      rw [setBlk_at hi hj Nat.one_pos]
      have hij : i ≠ j := by rintro rfl; exact hc ⟨i, hi, rfl⟩
      simp [identityTo, hij, blockOf, hi, hj]
    · exact setBlk_off hb

/-- the thread of rank 0 replaces a block using another one -/
theorem phase_block_two {t n : ℕ} (hnt : 0 < nt) {m : SCell → K} {v u : SView}
    {F : (ℕ → ℕ → K) → (ℕ → ℕ → K) → ℕ → ℕ → K} :
    PhaseIn t (fun _ => False) (fun j : Fin nt => rankZero j (do
        let A ← loadMat n n fun a b => ⟨u, t, a, b, 0⟩
        let B ← loadMat n n fun a b => ⟨v, t, a, b, 0⟩
        storeMat n n (fun a b => ⟨v, t, a, b, 0⟩) (F A B) : Code SCell K Unit)) m
      (setBlk m v t n n 1 fun a b _ => F (blockOf m u t n) (blockOf m v t n) a b) := by
  refine PhaseIn.lone hnt (R := BlockCells u t n) (W := BlockCells v t n) ?_ ?_ ?_ ?_ ?_
  · rintro c ⟨_, _, _, _, rfl⟩; rfl
  · rintro c ⟨_, _, _, _, rfl⟩; rfl
  · refine Code.Within.bind (within_loadMat ?_) fun A => Code.Within.bind (within_loadMat ?_) fun A => within_storeMat ?_
    · intro i hi j hj; exact Or.inl ⟨i, hi, j, hj, rfl⟩
    · intro i hi j hj; exact Or.inr ⟨i, hi, j, hj, rfl⟩
    · intro i hi j hj; exact ⟨i, hi, j, hj, rfl⟩
  · exact Sets.after_load (run_loadMat _ _ _ _) (Sets.after_load (run_loadMat _ _ _ _)
      (sets_storeMat fun i hi j hj => setBlk_at hi hj (by omega)))
  · intro c hc; exact setBlk_off hc

/-! ### the kernel -/

section mass
variable (dim nn nq nb : ℕ) (w : ℕ → K) (val : ℕ → ℕ → K) (ggrad : ℕ → ℕ → ℕ → K) (X : ℕ → ℕ → K)

/-- what phase `p` does to the memory of element `t` -/
def massStep (t p : ℕ) (M : SCell → K) : SCell → K :=
  match p with
  | 0 => putCoords M t nn dim X
  | 1 => putJac M t dim nn nq X ggrad
  | 2 => setBlk M .scr t nq nb 1 fun q i _ => val q i
  | 3 => setBlk M .scr t nq nb 1 fun q i _ => w q * M ⟨.djac, t, q, 0, 0⟩ * M ⟨.scr, t, q, i, 0⟩
  | 4 => setBlk M .MM t nb nb 1 fun _ _ _ => 0
  | 5 => setBlk M .MM t nb nb 1 fun i j _ => 0 + loopSum nq fun p => (1 * val p i) * M ⟨.scr, t, p, j, 0⟩
  | 6 => if nb ≤ 3 then setBlk M .iMM t nb nb 1 fun a b _ => invA nb (blockOf M .MM t nb) (fun _ _ => 0) a b
      else setBlk (setBlk M .iMM t nb nb 1 fun a b _ => identityTo nb (blockOf M .iMM t nb) a b) .MM t nb nb 1
        fun a b _ => serialLU nb (blockOf M .MM t nb) a b
  | 7 => if nb ≤ 3 then M else setBlk M .iMM t nb nb 1 fun a b _ =>
        serialSolveLU nb (blockOf M .MM t nb) (blockOf M .iMM t nb) a b
  | _ => M

/-- the memory of the team of element `t` after `p` phases -/
def massMem (m : SCell → K) (t : ℕ) : ℕ → SCell → K
  | 0 => m
  | p + 1 => massStep dim nn nq nb w val ggrad X t p (massMem m t p)

/-- cells written by several threads -/
def massShared (t p : ℕ) : SCell → Prop :=
  if p = 6 then if nb ≤ 3 then BlockCells .iMM t nb else fun c => ∃ i < nb, c = ⟨.iMM, t, i, i, 0⟩
  else fun _ => False

end mass

theorem mass_phase {D : ℕ → ℕ → Fin nt} {ne dim nn nq nb : ℕ} {w : ℕ → K} {val : ℕ → ℕ → K}
    {ggrad : ℕ → ℕ → ℕ → K} {X : ℕ → ℕ → ℕ → K} (hnt : 0 < nt) (M : SCell → K) (t : Fin ne) (p : ℕ) (hp : p < 8)
    (h1 : p = 1 → ∀ i < nn, ∀ d < dim, M ⟨.coords, t, i, d, 0⟩ = X t i d)
    (h5 : p = 5 → ∀ i < nb, ∀ j < nb, M ⟨.MM, t, i, j, 0⟩ = 0) :
    PhaseIn t (massShared nb t p) ((massKernel D ne dim nn nq nb w val ggrad X).code t p)
      M (massStep dim nn nq nb w val ggrad (X t) t p M) := by
  interval_cases p
  · show PhaseIn t (fun _ => False) (fun j : Fin nt => rankZero j (coordsCode t nn dim (X t))) M
      (putCoords M t nn dim (X t))
    exact phase_coords hnt
  · show PhaseIn t (fun _ => False) (fun j : Fin nt => teamFor (D 0) nq j fun iq => jacobianCode t dim nn iq (ggrad iq))
      M (putJac M t dim nn nq (X t) ggrad)
    exact phase_jac (h1 rfl)
  · show PhaseIn t (fun _ => False) (fun j : Fin nt => teamFor (D 1) (nq * nb) j fun i =>
      Code.write ⟨.scr, t, i / nb, i % nb, 0⟩ (val (i / nb) (i % nb))) M
      (setBlk M .scr t nq nb 1 fun q i _ => val q i)
    exact phase_entries (F := val) (fun _ => Code.Within.write rfl) fun _ _ _ h => Sets.write h
  · show PhaseIn t (fun _ => False) (fun j : Fin nt => teamFor (D 2) nq j fun iq => scaleRowCode .scr .djac t nb iq (w iq))
      M (setBlk M .scr t nq nb 1 fun q i _ => w q * M ⟨.djac, t, q, 0, 0⟩ * M ⟨.scr, t, q, i, 0⟩)
    exact phase_scale (by simp)
  · show PhaseIn t (fun _ => False) (fun j : Fin nt => teamFor (D 3) (nb * nb) j (clearEntry .MM t nb)) M
      (setBlk M .MM t nb nb 1 fun _ _ _ => 0)
    exact phase_clear
  · show PhaseIn t (fun _ => False) (fun j : Fin nt => teamFor (D 4) (nb * nb) j fun i =>
        addProduct nq (fun p => pure (val p (i / nb))) (fun p => Code.read ⟨.scr, t, p, i % nb, 0⟩)
          ⟨.MM, t, i / nb, i % nb, 0⟩) M
      (setBlk M .MM t nb nb 1 fun i j _ => 0 + loopSum nq fun p => (1 * val p i) * M ⟨.scr, t, p, j, 0⟩)
    exact phase_add (a := fun i p => pure (val p i)) (b := fun p j => Code.read ⟨.scr, t, p, j, 0⟩)
      (av := fun i p => val p i) (bv := fun p j => M ⟨.scr, t, p, j, 0⟩) (h5 rfl) (fun _ _ _ => trivial)
      (fun p _ j => Code.Within.read (Or.inl ⟨by simp, rfl⟩)) (fun _ _ _ _ => rfl) (fun _ _ _ _ => rfl)
  · show PhaseIn t (massShared nb t 6) (fun j : Fin nt => if nb ≤ 3 then do
        let A ← loadMat nb nb fun a b => ⟨.MM, t, a, b, 0⟩
        storeMat nb nb (fun a b => ⟨.iMM, t, a, b, 0⟩) (invA nb A fun _ _ => 0)
      else do
        Code.forN nb fun a => Code.forN nb fun b => Code.cond (a = b) (Code.write ⟨.iMM, t, a, b, 0⟩ 1)
        rankZero j do
          let A ← loadMat nb nb fun a b => ⟨.MM, t, a, b, 0⟩
          storeMat nb nb (fun a b => ⟨.MM, t, a, b, 0⟩) (serialLU nb A)) M
      (if nb ≤ 3 then setBlk M .iMM t nb nb 1 fun a b _ => invA nb (blockOf M .MM t nb) (fun _ _ => 0) a b
      else setBlk (setBlk M .iMM t nb nb 1 fun a b _ => identityTo nb (blockOf M .iMM t nb) a b) .MM t nb nb 1
        fun a b _ => serialLU nb (blockOf M .MM t nb) a b)
    by_cases h : nb ≤ 3
    · simp only [if_pos h, massShared, if_true]
      exact phase_block_small hnt (F := fun A => invA nb A fun _ _ => 0) (by simp)
    · simp only [if_neg h, massShared, if_true]
      exact phase_identity hnt (F := serialLU nb) (by simp)
  · show PhaseIn t (fun _ => False) (fun j : Fin nt => Code.cond (4 ≤ nb) (rankZero j do
        let A ← loadMat nb nb fun a b => ⟨.MM, t, a, b, 0⟩
        let B ← loadMat nb nb fun a b => ⟨.iMM, t, a, b, 0⟩
        storeMat nb nb (fun a b => ⟨.iMM, t, a, b, 0⟩) (serialSolveLU nb A B))) M
        (if nb ≤ 3 then M else setBlk M .iMM t nb nb 1 fun a b _ =>
        serialSolveLU nb (blockOf M .MM t nb) (blockOf M .iMM t nb) a b)
    by_cases h : nb ≤ 3
    · have h4 : ¬ 4 ≤ nb := by omega
      simp only [if_pos h, Code.cond, if_neg h4]
      exact PhaseIn.idle
    · have h4 : 4 ≤ nb := by omega
      simp only [if_neg h, Code.cond, if_pos h4]
      exact phase_block_two hnt

theorem mass_settles {D : ℕ → ℕ → Fin nt} {ne dim nn nq nb : ℕ} {w : ℕ → K} {val : ℕ → ℕ → K}
    {ggrad : ℕ → ℕ → ℕ → K} {X : ℕ → ℕ → ℕ → K} (hnt : 0 < nt) (m : SCell → K) :
    (massKernel D ne dim nn nq nb w val ggrad X).Settles m
      (finalMem (fun t : Fin ne => massMem dim nn nq nb w val ggrad (X t) m t) 8 m) := by
  refine settles_of (k := massKernel D ne dim nn nq nb w val ggrad X) (S := fun t => massShared nb t)
    (M := fun t : Fin ne => massMem dim nn nq nb w val ggrad (X t) m t) (fun _ => rfl) fun t p hp =>
      mass_phase hnt _ t p hp ?_ ?_
  · rintro rfl i hi d hd
    show putCoords m t nn dim (X t) _ = _
    exact setBlk_at hi hd Nat.one_pos
  · rintro rfl i hi j hj
    rw [show massMem dim nn nq nb w val ggrad (X t) m t 5 = massStep dim nn nq nb w val ggrad (X t) t 4
      (massMem dim nn nq nb w val ggrad (X t) m t 4) from rfl, massStep]
    rw [setBlk_at hi hj Nat.one_pos]

/-- the entries of `iMM` after the kernel -/
theorem massMem_iMM [DecidableEq K] {dim nn nq nb : ℕ} {w : ℕ → K} {val : ℕ → ℕ → K} {ggrad : ℕ → ℕ → ℕ → K}
    {X : ℕ → ℕ → K} {m : SCell → K} {t : ℕ} {B0 : ℕ → ℕ → K}
    (h0 : ∀ i < nb, ∀ j < nb, m ⟨.iMM, t, i, j, 0⟩ = B0 i j) (scr MM0 : ℕ → ℕ → K) {i j : ℕ} (hi : i < nb) (hj : j < nb) :
    massMem dim nn nq nb w val ggrad X m t 8 ⟨.iMM, t, i, j, 0⟩ =
      invMass nq nb w (fun q => detTo dim (jacOf dim nn X (ggrad q)) 0) val scr MM0 B0 i j := by
  have es : ∀ p, massMem dim nn nq nb w val ggrad X m t (p + 1) =
      massStep dim nn nq nb w val ggrad X t p (massMem dim nn nq nb w val ggrad X m t p) := fun _ => rfl
  have h2 : ∀ q < nq, massMem dim nn nq nb w val ggrad X m t 2 ⟨.djac, t, q, 0, 0⟩
      = detTo dim (jacOf dim nn X (ggrad q)) 0 := by
    intro q hq
    rw [show massMem dim nn nq nb w val ggrad X m t 2 = _ from es 1, massStep]
    rw [putJac, setBlk_ne (by simp), putDjac, setBlk_at hq Nat.one_pos Nat.one_pos]
  have h3 : ∀ q < nq, massMem dim nn nq nb w val ggrad X m t 3 ⟨.djac, t, q, 0, 0⟩
      = detTo dim (jacOf dim nn X (ggrad q)) 0 := by
    intro q hq
    rw [show massMem dim nn nq nb w val ggrad X m t 3 = _ from es 2, massStep]
    rw [setBlk_ne (by simp), h2 q hq]
  have h3' : ∀ q < nq, ∀ i < nb, massMem dim nn nq nb w val ggrad X m t 3 ⟨.scr, t, q, i, 0⟩ = val q i := by
    intro q hq i hi
    rw [show massMem dim nn nq nb w val ggrad X m t 3 = _ from es 2, massStep]
    exact setBlk_at hq hi Nat.one_pos
  have h4 : ∀ q < nq, ∀ i < nb, massMem dim nn nq nb w val ggrad X m t 4 ⟨.scr, t, q, i, 0⟩
      = w q * detTo dim (jacOf dim nn X (ggrad q)) 0 * val q i := by
    intro q hq i hi
    rw [show massMem dim nn nq nb w val ggrad X m t 4 = _ from es 3, massStep]
    rw [setBlk_at hq hi Nat.one_pos, h3 q hq, h3' q hq i hi]
  have h5 : ∀ q < nq, ∀ i < nb, massMem dim nn nq nb w val ggrad X m t 5 ⟨.scr, t, q, i, 0⟩
      = w q * detTo dim (jacOf dim nn X (ggrad q)) 0 * val q i := by
    intro q hq i hi
    rw [show massMem dim nn nq nb w val ggrad X m t 5 = _ from es 4, massStep]
    rw [setBlk_ne (by simp), h4 q hq i hi]
  have h6 : ∀ i < nb, ∀ j < nb, massMem dim nn nq nb w val ggrad X m t 6 ⟨.MM, t, i, j, 0⟩
      = massMatrix nq nb w (fun q => detTo dim (jacOf dim nn X (ggrad q)) 0) val scr MM0 i j := by
    intro i hi j hj
    rw [show massMem dim nn nq nb w val ggrad X m t 6 = _ from es 5, massStep]
    rw [setBlk_at hi hj Nat.one_pos]
    unfold massMatrix cATxB_to_C gemm
    rw [if_pos ⟨hi, hj⟩, if_pos rfl]
    refine congrArg (0 + ·) (loopSum_congr fun q hq => ?_)
    rw [h5 q hq j hj]
    simp only [scaleRows, hq, if_true, scaleVec, hj, copyTo, and_self]
  have h6i : ∀ i < nb, ∀ j < nb, massMem dim nn nq nb w val ggrad X m t 6 ⟨.iMM, t, i, j, 0⟩ = B0 i j := by
    intro i hi j hj
    rw [← h0 i hi j hj]
    rw [show massMem dim nn nq nb w val ggrad X m t 6 = massStep dim nn nq nb w val ggrad X t 5
      (massStep dim nn nq nb w val ggrad X t 4 (massStep dim nn nq nb w val ggrad X t 3
      (massStep dim nn nq nb w val ggrad X t 2 (massStep dim nn nq nb w val ggrad X t 1
      (massStep dim nn nq nb w val ggrad X t 0 m))))) from rfl]
    simp only [massStep]
    rw [setBlk_ne (by simp), setBlk_ne (by simp), setBlk_ne (by simp), setBlk_ne (by simp), putJac,
      setBlk_ne (by simp), putDjac, setBlk_ne (by simp), setBlk_ne (by simp), putCoords, setBlk_ne (by simp)]
  have hA : SameBlock nb (blockOf (massMem dim nn nq nb w val ggrad X m t 6) .MM t nb)
      (massMatrix nq nb w (fun q => detTo dim (jacOf dim nn X (ggrad q)) 0) val scr MM0) := by
    intro i hi j hj
    rw [blockOf_apply hi hj, h6 i hi j hj]
  generalize hM6 : massMem dim nn nq nb w val ggrad X m t 6 = M6 at *
  have e7 : massMem dim nn nq nb w val ggrad X m t 7 = massStep dim nn nq nb w val ggrad X t 6 M6 := by
    rw [← hM6]; rfl
  have e8 : massMem dim nn nq nb w val ggrad X m t 8 = massStep dim nn nq nb w val ggrad X t 7
    (massStep dim nn nq nb w val ggrad X t 6 M6) := by
    rw [← e7]; rfl
  rw [e8]
  by_cases h : nb ≤ 3
  · simp only [massStep, if_pos h]
    rw [setBlk_at hi hj Nat.one_pos, invMass]
    rw [invA_congr hA (B' := fun _ _ => 0) (fun _ _ _ _ => rfl) i hi j hj]
    exact invA_small h _ _ _ i hi j hj
  · simp only [massStep, if_neg h]
    rw [setBlk_at hi hj Nat.one_pos, invMass, invA_large h]
    refine serialSolveLU_congr ?_ ?_ i hi j hj
    · intro i hi j hj
      rw [blockOf_apply hi hj, setBlk_at hi hj Nat.one_pos]
      exact serialLU_congr hA i hi j hj
    · intro i hi j hj
      rw [blockOf_apply hi hj, setBlk_ne (by simp), setBlk_at hi hj Nat.one_pos]
      refine identityTo_congr ?_ i hi j hj
      intro i hi j hj
      rw [blockOf_apply hi hj, h6i i hi j hj]

end Dev
end DG
