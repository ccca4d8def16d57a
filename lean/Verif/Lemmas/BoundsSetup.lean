import Verif.Lemmas.Bounds
import Verif.Lemmas.SetupKernelsBase

/-! The kernels of the setup stay within the extents of their views. -/
namespace DG.Dev
open Kernel Code

variable {K : Type} [Field K] {nt : ℕ}

variable {P : SCell → Prop}

theorem In.loadRow {n : ℕ} {cell : ℕ → SCell} (h : ∀ i < n, P (cell i)) :
    In P (loadRow n cell : Code SCell K (ℕ → K)) :=
  In.foldN fun _ i hi => In.bind (In.read (h i hi)) fun _ => In.pure

theorem In.loadMat {r c : ℕ} {cell : ℕ → ℕ → SCell} (h : ∀ i < r, ∀ j < c, P (cell i j)) :
    In P (loadMat r c cell : Code SCell K (ℕ → ℕ → K)) :=
  In.foldN fun _ i hi => In.bind (In.loadRow (h i hi)) fun _ => In.pure

theorem In.storeMat {r c : ℕ} {cell : ℕ → ℕ → SCell} {A : ℕ → ℕ → K} (h : ∀ i < r, ∀ j < c, P (cell i j)) :
    In P (storeMat r c cell A) := In.forN fun i hi => In.forN fun j hj => In.write (h i hi j hj)

theorem In.dot {n : ℕ} {a b : ℕ → Code SCell K K} (ha : ∀ p < n, In P (a p)) (hb : ∀ p < n, In P (b p)) :
    In P (dotCode n a b) :=
  In.foldN fun _ p hp => In.bind (ha p hp) fun _ => In.bind (hb p hp) fun _ => In.pure

theorem In.serialProduct {r c n : ℕ} {a b : ℕ → ℕ → Code SCell K K} {dst : ℕ → ℕ → SCell}
    (ha : ∀ i < r, ∀ p < n, In P (a i p)) (hb : ∀ p < n, ∀ j < c, In P (b p j)) (hd : ∀ i < r, ∀ j < c, P (dst i j)) :
    In P (serialProduct r c n a b dst) :=
  In.forN fun i hi => In.forN fun j hj => In.bind (In.dot (ha i hi) fun p hp => hb p hp j hj) fun _ =>
    In.write (hd i hi j hj)

theorem In.addProduct {n : ℕ} {a b : ℕ → Code SCell K K} {dst : SCell} (ha : ∀ p < n, In P (a p))
    (hb : ∀ p < n, In P (b p)) (hd : P dst) : In P (addProduct n a b dst) :=
  In.bind (In.dot ha hb) fun _ => In.bind (In.read hd) fun _ => In.write hd

theorem In.team {d : ℕ → Fin nt} {n : ℕ} {j : Fin nt} {body : ℕ → Code SCell K Unit} (h : ∀ i < n, In P (body i)) :
    In P (teamFor d n j body) := In.forN fun i hi => In.cond fun _ => h i hi

theorem In.zero {j : Fin nt} {body : Code SCell K Unit} (h : In P body) : In P (rankZero j body) :=
  In.cond fun _ => h

theorem div_mod_lt {n c i : ℕ} (h : i < n * c) : i / c < n ∧ i % c < c := by
  have hc : 0 < c := Nat.pos_of_ne_zero (by rintro rfl; simp at h)
  exact ⟨(Nat.div_lt_iff_lt_mul hc).2 h, Nat.mod_lt _ hc⟩

section kernels
variable {ne nn dim nq nb ns : ℕ}
local notation "Q" => SInside ne nt nn dim nq nb ns

theorem In.coords {e : ℕ} (he : e < ne) (X : ℕ → ℕ → K) : In Q (coordsCode e nn dim X) :=
  In.storeMat fun _ hi _ hj => ⟨he, hi, hj, Nat.one_pos⟩

theorem In.phys {e gnb : ℕ} (he : e < ne) (hg : gnb ≤ nn) (v : SView) (hv : v = .x ∨ v = .xphys) (gval : ℕ → ℕ → K) :
    In Q (physCode v e nq dim gnb gval) :=
  In.serialProduct (fun _ _ _ _ => In.pure) (fun _ hp _ hj => In.read ⟨he, lt_of_lt_of_le hp hg, hj, Nat.one_pos⟩)
    fun _ hi _ hj => by rcases hv with rfl | rfl <;> exact ⟨he, hi, hj, Nat.one_pos⟩

theorem In.djac {e iq : ℕ} (he : e < ne) (hq : iq < nq) {vj vd : SView} (hv : (vj = .jac ∧ vd = .djac) ∨ (vj = .jacS ∧ vd = .djacS))
    (grad : ℕ → ℕ → K) : In Q (djacCode vj vd e dim nn iq grad) := by
  have h1 : ∀ i < dim, ∀ j < dim, Q ⟨vj, e, iq, i, j⟩ := fun i hi j hj => by
    rcases hv with ⟨rfl, rfl⟩ | ⟨rfl, rfl⟩ <;> exact ⟨he, hq, hi, hj⟩
  have h2 : Q ⟨vd, e, iq, 0, 0⟩ := by
    rcases hv with ⟨rfl, rfl⟩ | ⟨rfl, rfl⟩ <;> exact ⟨he, hq, Nat.one_pos, Nat.one_pos⟩
  exact In.bind (In.serialProduct (fun _ hi _ hp => In.read ⟨he, hp, hi, Nat.one_pos⟩) (fun _ _ _ _ => In.pure) h1) fun _ =>
    In.bind (In.loadMat h1) fun _ => In.write h2

theorem In.jacobian {e iq : ℕ} (he : e < ne) (hq : iq < nq) (grad : ℕ → ℕ → K) :
    In Q (jacobianCode e dim nn iq grad) :=
  In.bind (In.djac he hq (Or.inl ⟨rfl, rfl⟩) grad) fun _ =>
    In.bind (In.loadMat fun _ hi _ hj => ⟨he, hq, hi, hj⟩) fun _ => In.storeMat fun _ hi _ hj => ⟨he, hq, hi, hj⟩

theorem In.scaleRow {e iq n : ℕ} (v vd : SView) (w : K) (hd : Q ⟨vd, e, iq, 0, 0⟩) (hv : ∀ i < n, Q ⟨v, e, iq, i, 0⟩) :
    In Q (scaleRowCode v vd e n iq w) :=
  In.bind (In.read hd) fun _ => In.forN fun i hi => In.bind (In.read (hv i hi)) fun _ => In.write (hv i hi)

theorem mass_in (D : ℕ → ℕ → Fin nt) (w : ℕ → K) (val : ℕ → ℕ → K) (ggrad : ℕ → ℕ → ℕ → K) (X : ℕ → ℕ → ℕ → K)
    (m : SCell → K) : (massKernel D ne dim nn nq nb w val ggrad X).StaysIn Q m := by
  refine staysIn_of_code (fun e p j _ => ?_) m
  have hM : ∀ a < nb, ∀ b < nb, Q ⟨.MM, e, a, b, 0⟩ := fun a ha b hb => ⟨e.2, ha, hb, Nat.one_pos⟩
  have hI : ∀ a < nb, ∀ b < nb, Q ⟨.iMM, e, a, b, 0⟩ := fun a ha b hb => ⟨e.2, ha, hb, Nat.one_pos⟩
  match p with
  | 0 =>
    exact In.zero (In.coords e.2 _)
  | 1 =>
    exact In.team fun iq hq => In.jacobian e.2 hq _
  | 2 =>
    exact In.team fun i hi => In.write ⟨e.2, (div_mod_lt hi).1, (div_mod_lt hi).2, Nat.one_pos⟩
  | 3 =>
    exact In.team fun iq hq => In.scaleRow _ _ _ ⟨e.2, hq, Nat.one_pos, Nat.one_pos⟩ fun i hi =>
      ⟨e.2, hq, hi, Nat.one_pos⟩
  | 4 =>
    exact In.team fun i hi => In.write (hM _ (div_mod_lt hi).1 _ (div_mod_lt hi).2)
  | 5 =>
    exact In.team fun i hi => In.addProduct (fun _ _ => In.pure)
      (fun p hp => In.read ⟨e.2, hp, (div_mod_lt hi).2, Nat.one_pos⟩) (hM _ (div_mod_lt hi).1 _ (div_mod_lt hi).2)
  | 6 =>
    exact In.ite (fun _ => In.bind (In.loadMat hM) fun _ => In.storeMat hI) fun _ =>
      In.bind (In.forN fun a ha => In.forN fun b hb => In.cond fun _ => In.write (hI a ha b hb)) fun _ =>
        In.zero (In.bind (In.loadMat hM) fun _ => In.storeMat hM)
  | 7 =>
    exact In.cond fun _ => In.zero (In.bind (In.loadMat hM) fun _ => In.bind (In.loadMat hI) fun _ => In.storeMat hI)
  | _ + 8 =>
    exact trivial

theorem volume_in (D : ℕ → ℕ → Fin nt) {gnb : ℕ} (hg : gnb ≤ nn) (w : ℕ → K) (gval : ℕ → ℕ → K) (ggrad : ℕ → ℕ → ℕ → K)
    (X : ℕ → ℕ → ℕ → K) (m : SCell → K) : (volumeKernel D ne dim nn gnb nq w gval ggrad X).StaysIn Q m := by
  refine staysIn_of_code (fun e p j _ => ?_) m
  match p with
  | 0 =>
    exact In.zero (In.bind (In.coords e.2 _) fun _ => In.phys e.2 hg _ (Or.inl rfl) _)
  | 1 =>
    exact In.team fun iq hq => In.jacobian e.2 hq _
  | 2 =>
    exact In.bind (In.foldN fun _ iq hq => In.ite (fun _ =>
      In.bind (In.read ⟨e.2, hq, Nat.one_pos, Nat.one_pos⟩) fun _ => In.pure) fun _ => In.pure) fun _ =>
        In.write ⟨e.2, j.2, Nat.one_pos, Nat.one_pos⟩
  | 3 =>
    exact In.bind (In.foldN fun _ l hl => In.bind (In.read ⟨e.2, hl, Nat.one_pos, Nat.one_pos⟩) fun _ => In.pure)
      fun _ => In.write ⟨e.2, Nat.one_pos, Nat.one_pos, Nat.one_pos⟩
  | _ + 4 =>
    exact trivial

theorem init_in (D : ℕ → ℕ → Fin nt) {gnb : ℕ} (hg : gnb ≤ nn) (w : ℕ → K) (val gval : ℕ → ℕ → K)
    (ggrad : ℕ → ℕ → ℕ → K) (ic : (ℕ → K) → ℕ → K) (X : ℕ → ℕ → ℕ → K) (m : SCell → K) :
    (initKernel D ne dim nn gnb nq nb ns w val gval ggrad ic X).StaysIn Q m := by
  refine staysIn_of_code (fun e p j _ => ?_) m
  match p with
  | 0 =>
    exact In.zero (In.bind (In.coords e.2 _) fun _ => In.phys e.2 hg _ (Or.inr rfl) _)
  | 1 =>
    exact In.team fun iq hq => In.bind (In.loadRow fun i hi => ⟨e.2, hq, hi, Nat.one_pos⟩) fun _ =>
      In.forN fun s hs => In.write ⟨e.2, hq, hs, Nat.one_pos⟩
  | 2 =>
    exact In.team fun iq hq => In.djac e.2 hq (Or.inr ⟨rfl, rfl⟩) _
  | 3 =>
    exact In.team fun iq hq => In.scaleRow _ _ _ ⟨e.2, hq, Nat.one_pos, Nat.one_pos⟩ fun i hi =>
      ⟨e.2, hq, hi, Nat.one_pos⟩
  | 4 =>
    exact In.team fun i hi => In.write ⟨e.2, (div_mod_lt hi).1, (div_mod_lt hi).2, Nat.one_pos⟩
  | 5 =>
    exact In.team fun i hi => In.addProduct (fun _ _ => In.pure)
      (fun p hp => In.read ⟨e.2, hp, (div_mod_lt hi).2, Nat.one_pos⟩)
      ⟨e.2, (div_mod_lt hi).1, (div_mod_lt hi).2, Nat.one_pos⟩
  | 6 =>
    exact In.team fun i hi => In.write ⟨e.2, (div_mod_lt hi).1, (div_mod_lt hi).2, Nat.one_pos⟩
  | 7 =>
    exact In.team fun i hi => In.addProduct (fun p hp => In.read ⟨e.2, (div_mod_lt hi).1, hp, Nat.one_pos⟩)
      (fun p hp => In.read ⟨e.2, hp, (div_mod_lt hi).2, Nat.one_pos⟩)
      ⟨e.2, (div_mod_lt hi).1, (div_mod_lt hi).2, Nat.one_pos⟩
  | _ + 8 =>
    exact trivial

end kernels

/-! ### normals -/

theorem normals_in {nt np dim nf : ℕ} {X : ℕ → ℕ → ℕ → ℕ → K} {rest : ℕ → ℕ → Code NCell K Unit}
    (h : ∀ f < nf, ∀ j < nt, In (NInside nf np dim) (rest f j)) (m : NCell → K) :
    (normalsKernel nt np dim (dim - 1) nf X rest).StaysIn (NInside nf np dim) m := by
  refine staysIn_of_code (fun f p j hp => ?_) m
  have hp : p < np + 1 := hp
  refine In.bind (In.cond fun h0 => In.forN fun i hi => In.cond fun _ =>
    In.bind (In.read ⟨f.2, (div_mod_lt hi).1, (div_mod_lt hi).2, by omega⟩) fun _ =>
      In.write ⟨f.2, (div_mod_lt hi).1, (div_mod_lt hi).2, by omega⟩) fun _ =>
    In.bind (In.cond fun h1 => In.forN fun i hi => In.cond fun _ =>
      In.write ⟨f.2, (div_mod_lt hi).1, (div_mod_lt hi).2, h1⟩) fun _ => In.cond fun _ => h f f.2 j j.2

theorem grad_in {nf np dim f j k ip : ℕ} (hf : f < nf) (hj : j < dim) (hk : k < dim - 1) (hp : ip < np) :
    In (NInside nf np dim) (Code.read (.grad f j k ip) : Code NCell K K) := In.read ⟨hf, hj, hk, hp⟩

theorem normal_in {nf np dim f j ip : ℕ} (hf : f < nf) (hj : j < dim) (hp : ip < np) (v : K) :
    In (NInside nf np dim) (Code.write (.normal f ip j) v : Code NCell K Unit) := In.write ⟨hf, hp, hj⟩

theorem quadNormals_in (nt np nf nn : ℕ) (sign : ℕ → K) (coords grads : ℕ → ℕ → ℕ → K) (m : NCell → K) :
    (quadNormals nt np nf nn sign coords grads).StaysIn (NInside nf np 2) m := by
  refine normals_in (dim := 2) (fun f hf j _ => ?_) m
  refine In.forN fun ip hp => ?_
  refine In.bind (grad_in hf (by omega) (by omega) hp) fun _ => ?_
  refine In.bind (normal_in hf (by omega) hp _) fun _ => ?_
  refine In.bind (grad_in hf (by omega) (by omega) hp) fun _ => ?_
  exact normal_in hf (by omega) hp _

theorem hexNormals_in (nt np nf nn : ℕ) (sign : ℕ → K) (coords grads : ℕ → ℕ → ℕ → K) (m : NCell → K) :
    (hexNormals nt np nf nn sign coords grads).StaysIn (NInside nf np 3) m := by
  refine normals_in (dim := 3) (fun f hf j _ => ?_) m
  refine In.forN fun ip hp => ?_
  refine In.bind (grad_in hf (by omega) (by omega) hp) fun _ => ?_
  refine In.bind (grad_in hf (by omega) (by omega) hp) fun _ => ?_
  refine In.bind (grad_in hf (by omega) (by omega) hp) fun _ => ?_
  refine In.bind (grad_in hf (by omega) (by omega) hp) fun _ => ?_
  refine In.bind (grad_in hf (by omega) (by omega) hp) fun _ => ?_
  refine In.bind (grad_in hf (by omega) (by omega) hp) fun _ => ?_
  refine In.bind (normal_in hf (by omega) hp _) fun _ => ?_
  refine In.bind (normal_in hf (by omega) hp _) fun _ => ?_
  refine In.bind (normal_in hf (by omega) hp _) fun _ => ?_
  refine In.forN fun i hi => In.cond fun _ => In.bind (In.read ⟨hf, hp, hi⟩) fun _ => normal_in hf hi hp _

end DG.Dev
