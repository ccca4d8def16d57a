import Verif.Model.SetupKernels
import Verif.Lemmas.DeviceShared
import Verif.Lemmas.Kernels
import Verif.Lemmas.LinAlg

/-! Running the pieces of the kernels of `Model/SetupKernels.lean`. -/
namespace DG.Dev
open Kernel

section phases
variable {C V J : Type} [DecidableEq C]

/-- a phase in which every thread owns what it writes -/
theorem PhaseOK.each {code : J → Code C V Unit} {R W : J → C → Prop} {M M' : C → V}
    (hw : ∀ j, (code j).Within (R j) (W j))
    (he : ∀ j j' c, W j c → R j' c ∨ W j' c → j = j')
    (hs : ∀ j, Sets (code j) M (W j) M')
    (hr : ∀ c, (∀ j, ¬ W j c) → M' c = M c) :
    PhaseOK code R W (fun _ => False) M M' where
  within j := (hw j).within3
  excl := he
  shfree _ _ h := h.elim
  sets j c h := (hs j c).1 h
  agrees j := Code.Agrees.of_within (hw j) (fun _ _ h => h) _
  written _ h := h.elim
  rest c h _ := hr c h

/-- a phase in which every thread does the same -/
theorem PhaseOK.all [Nonempty J] {body : Code C V Unit} {R S : C → Prop} {M M' : C → V}
    (hw : body.Within3 R (fun _ => False) S) (hd : ∀ c, S c → ¬ R c)
    (ha : body.Agrees S M' M) (hs : Sets body M S M') (hr : ∀ c, ¬ S c → M' c = M c) :
    PhaseOK (fun _ : J => body) (fun _ => R) (fun _ _ => False) S M M' where
  within _ := hw
  excl _ _ _ h := h.elim
  shfree _ c h := ⟨hd c h, fun h => h⟩
  sets _ _ h := h.elim
  agrees _ := ha
  written c h := ⟨Classical.arbitrary J, (hs c).1 h⟩
  rest c _ h := hr c h

/-- code that only stores what it should agrees -/
theorem Code.Agrees.of_sets {n : ℕ} {f : ℕ → Code C V Unit} {S : C → Prop} {M M' : C → V}
    (h : ∀ i < n, ∀ m, (f i).Agrees S M' m) : (Code.forN n f).Agrees S M' M :=
  Code.Agrees.forN fun i hi => h i hi _

theorem Sets.cond_true {p : Prop} [Decidable p] {x : Code C V Unit} {m : C → V} {W : C → Prop} {val : C → V}
    (hp : p) (h : Sets x m W val) : Sets (Code.cond p x) m W val := by
  simpa [Code.cond, hp] using h

theorem Sets.nothing {m : C → V} {val : C → V} : Sets (Code.ret () : Code C V Unit) m (fun _ => False) val :=
  fun _ => ⟨fun h => h.elim, fun _ => rfl⟩

/-- from a memory that agrees on what is read and written -/
theorem Sets.congr {R W : C → Prop} {x : Code C V Unit} {m m' : C → V} {val : C → V} (hw : x.Within R W)
    (h : Sets x m W val) (hm : ∀ c, R c ∨ W c → m' c = m c) : Sets x m' W val := fun c =>
  ⟨fun hc => ((Code.run_congr hw hm).2.2 c (hm c (Or.inr hc))).trans ((h c).1 hc),
    fun hc => Code.run_frame hw hc⟩

end phases

variable {K : Type} [Zero K] [One K] [Add K] [Sub K] [Mul K] [Neg K] [Div K] [NatCast K] {nt : ℕ}

/-- a distributed loop -/
theorem PhaseOK.loop {d : ℕ → Fin nt} {n : ℕ} {body : ℕ → Code SCell K Unit} {R W : ℕ → SCell → Prop}
    {M M' : SCell → K} (hw : ∀ i < n, (body i).Within (R i) (W i))
    (he : ∀ i < n, ∀ i' < n, ∀ c, W i c → R i' c ∨ W i' c → i = i')
    (hs : ∀ i < n, Sets (body i) M (W i) M')
    (hr : ∀ c, (∀ i < n, ¬ W i c) → M' c = M c) :
    PhaseOK (fun j : Fin nt => teamFor d n j body) (fun j c => ∃ i < n, d i = j ∧ R i c)
      (fun j c => ∃ i < n, d i = j ∧ W i c) (fun _ => False) M M' := by
  refine PhaseOK.each ?_ ?_ ?_ ?_
  · intro j
    refine Code.Within.forN fun i hi => ?_
    unfold Code.cond
    split
    · next hj =>
      have := hw i hi
      refine (show ∀ {x : Code SCell K Unit}, x.Within (R i) (W i) → x.Within _ _ from ?_) this
      intro x
      induction x with
      | ret a => intro _; trivial
      | load c k ih =>
        intro h
        exact ⟨h.1.imp (fun h => ⟨i, hi, hj, h⟩) (fun h => ⟨i, hi, hj, h⟩), fun v => ih v (h.2 v)⟩
      | store c v k ih => intro h; exact ⟨⟨i, hi, hj, h.1⟩, ih h.2⟩
    · trivial
  · rintro j j' c ⟨i, hi, rfl, h1⟩ h2
    rcases h2 with ⟨i', hi', rfl, h2⟩ | ⟨i', hi', rfl, h2⟩
    · rw [he i hi i' hi' c h1 (Or.inl h2)]
    · rw [he i hi i' hi' c h1 (Or.inr h2)]
  · intro j
    refine Sets.mono (W := fun c => ∃ i < n, (d i = j ∧ W i c)) (Sets.forN ?_) (fun c => Iff.rfl)
    intro i hi m' hm'
    unfold Code.cond
    split
    · next hj =>
      refine Sets.mono (Sets.congr (hw i hi) (hs i hi) ?_) (fun c => by simp [hj])
      intro c hc
      refine hm' c ?_
      rintro ⟨i', hi', _, h'⟩
      have := he i' (by omega) i hi c h' hc
      omega
    · next hj => exact Sets.mono Sets.nothing (fun c => by simp [hj])
  · intro c hc
    exact hr c fun i hi h => hc (d i) ⟨i, hi, rfl, h⟩

/-- a phase in which only the thread of rank 0 does something -/
theorem PhaseOK.lone {body : Code SCell K Unit} {R W : SCell → Prop} {M M' : SCell → K}
    (hnt : 0 < nt) (hw : body.Within R W) (hs : Sets body M W M') (hr : ∀ c, ¬ W c → M' c = M c) :
    PhaseOK (fun j : Fin nt => rankZero j body) (fun j c => j.1 = 0 ∧ R c) (fun j c => j.1 = 0 ∧ W c)
      (fun _ => False) M M' := by
  refine PhaseOK.each ?_ ?_ ?_ ?_
  · intro j
    unfold rankZero Code.cond
    split
    · next hj => simpa [hj] using hw
    · trivial
  · rintro j j' c ⟨h1, _⟩ h2
    rcases h2 with ⟨h2, _⟩ | ⟨h2, _⟩ <;> exact Fin.ext (by omega)
  · intro j
    unfold rankZero Code.cond
    split
    · next hj => exact Sets.mono hs (fun c => by simp [hj])
    · next hj => exact Sets.mono Sets.nothing (fun c => by simp [hj])
  · intro c hc
    exact hr c fun h => hc ⟨0, hnt⟩ ⟨rfl, h⟩

/-! ### loads and sums -/

theorem run_loadRow (n : ℕ) (cell : ℕ → SCell) (m : SCell → K) :
    (loadRow n cell).run m = (fun i => if i < n then m (cell i) else 0, m) := by
  induction n with
  | zero => rfl
  | succ n ih =>
    have hb : (loadRow (n + 1) cell).run m =
        ((Code.load (cell n) fun v => Code.ret (fun i' => if i' = n then v else ((loadRow n cell).run m).1 i') :
          Code SCell K (ℕ → K)).run ((loadRow n cell).run m).2) :=
      (Code.run_bind _ _ _).trans rfl
    rw [hb, ih]
    show ((fun i' => if i' = n then m (cell n) else _), m) = _
    congr 1
    funext i
    by_cases h : i = n
    · subst h; simp
    · have : i < n + 1 ↔ i < n := by omega
      simp [h, this]

theorem run_loadMat (r c : ℕ) (cell : ℕ → ℕ → SCell) (m : SCell → K) :
    (loadMat r c cell).run m = (fun i j => if i < r ∧ j < c then m (cell i j) else 0, m) := by
  induction r with
  | zero => simp [loadMat, Code.foldN, Code.run]
  | succ r ih =>
    have hb : (loadMat (r + 1) c cell).run m =
        (((loadRow c (cell r)).bind fun v => Code.ret (fun i' => if i' = r then v else
          ((loadMat r c cell).run m).1 i') : Code SCell K (ℕ → ℕ → K)).run ((loadMat r c cell).run m).2) :=
      (Code.run_bind _ _ _).trans rfl
    rw [hb, ih, Code.run_bind, run_loadRow]
    show ((fun i' => if i' = r then _ else _), m) = _
    congr 1
    funext i j
    by_cases h : i = r
    · subst h; simp
    · have : i < r + 1 ↔ i < r := by omega
      simp [h, this]

theorem within_loadRow {n : ℕ} {cell : ℕ → SCell} {rd wr : SCell → Prop}
    (h : ∀ i < n, rd (cell i) ∨ wr (cell i)) : (loadRow n cell : Code SCell K (ℕ → K)).Within rd wr :=
  Code.Within.foldN fun _ i hi => Code.Within.bind (Code.Within.read (h i hi)) fun _ => trivial

theorem within_loadMat {r c : ℕ} {cell : ℕ → ℕ → SCell} {rd wr : SCell → Prop}
    (h : ∀ i < r, ∀ j < c, rd (cell i j) ∨ wr (cell i j)) :
    (loadMat r c cell : Code SCell K (ℕ → ℕ → K)).Within rd wr :=
  Code.Within.foldN fun _ i hi => Code.Within.bind (within_loadRow (h i hi)) fun _ => trivial

theorem sets_storeMat {r c : ℕ} {cell : ℕ → ℕ → SCell} {A : ℕ → ℕ → K} {m val : SCell → K}
    (h : ∀ i < r, ∀ j < c, val (cell i j) = A i j) :
    Sets (storeMat r c cell A) m (fun x => ∃ i < r, ∃ j < c, x = cell i j) val :=
  Sets.forN fun i hi _ _ => Sets.forN fun j hj _ _ => Sets.write (h i hi j hj)

theorem within_storeMat {r c : ℕ} {cell : ℕ → ℕ → SCell} {A : ℕ → ℕ → K} {rd wr : SCell → Prop}
    (h : ∀ i < r, ∀ j < c, wr (cell i j)) : (storeMat r c cell A).Within rd wr :=
  Code.Within.forN fun i hi => Code.Within.forN fun j hj => Code.Within.write (h i hi j hj)

theorem run_dotCode {n : ℕ} {a b : ℕ → Code SCell K K} {m : SCell → K} {av bv : ℕ → K}
    (ha : ∀ p < n, (a p).run m = (av p, m)) (hb : ∀ p < n, (b p).run m = (bv p, m)) :
    (dotCode n a b).run m = (loopSum n fun p => (1 * av p) * bv p, m) := by
  induction n with
  | zero => rfl
  | succ n ih =>
    have h1 := ih (fun p hp => ha p (by omega)) fun p hp => hb p (by omega)
    have hbd : (dotCode (n + 1) a b).run m =
        (((a n).bind fun x => (b n).bind fun y => Code.ret (((dotCode n a b).run m).1 + (1 * x) * y) :
          Code SCell K K).run ((dotCode n a b).run m).2) := (Code.run_bind _ _ _).trans rfl
    rw [hbd, h1, Code.run_bind, ha n (by omega), Code.run_bind, hb n (by omega)]
    simp only [loopSum, List.range_succ, List.foldl_append, List.foldl_cons, List.foldl_nil]
    rfl

theorem within_dotCode {n : ℕ} {a b : ℕ → Code SCell K K} {rd wr : SCell → Prop}
    (ha : ∀ p < n, (a p).Within rd wr) (hb : ∀ p < n, (b p).Within rd wr) : (dotCode n a b).Within rd wr :=
  Code.Within.foldN fun _ p hp => Code.Within.bind (ha p hp) fun _ =>
    Code.Within.bind (hb p hp) fun _ => trivial

/-- serial product: `av`, `bv` are the factors as read from every memory that agrees with `m` outside of the
output -/
theorem sets_serialProduct {r c n : ℕ} {a b : ℕ → ℕ → Code SCell K K} {dst : ℕ → ℕ → SCell}
    {m val : SCell → K} {av bv : ℕ → ℕ → K}
    (ha : ∀ i < r, ∀ p < n, ∀ m' : SCell → K, (∀ x, (¬ ∃ i < r, ∃ j < c, x = dst i j) → m' x = m x) →
      (a i p).run m' = (av i p, m'))
    (hb : ∀ p < n, ∀ j < c, ∀ m' : SCell → K, (∀ x, (¬ ∃ i < r, ∃ j < c, x = dst i j) → m' x = m x) →
      (b p j).run m' = (bv p j, m'))
    (hv : ∀ i < r, ∀ j < c, val (dst i j) = 0 + loopSum n fun p => (1 * av i p) * bv p j) :
    Sets (serialProduct r c n a b dst) m (fun x => ∃ i < r, ∃ j < c, x = dst i j) val := by
  refine Sets.forN fun i hi m1 hm1 => Sets.forN (W := fun j x => x = dst i j) fun j hj m2 hm2 => ?_
  have hm : ∀ x, (¬ ∃ i < r, ∃ j < c, x = dst i j) → m2 x = m x := by
    intro x hx
    rw [hm2 x fun ⟨j', hj', e⟩ => hx ⟨i, hi, j', by omega, e⟩]
    exact hm1 x fun ⟨i', hi', j', hj', e⟩ => hx ⟨i', by omega, j', hj', e⟩
  have hrun := run_dotCode (n := n) (a := a i) (b := fun p => b p j) (m := m2) (av := av i)
    (bv := fun p => bv p j) (fun p hp => ha i hi p hp m2 hm) (fun p hp => hb p hp j hj m2 hm)
  intro x
  have hx : ((dotCode n (a i) (fun p => b p j)).bind fun acc => Code.write (dst i j) (0 + acc) :
      Code SCell K Unit).run m2 = ((), Function.update m2 (dst i j)
        (0 + loopSum n fun p => (1 * av i p) * bv p j)) := by
    rw [Code.run_bind, hrun]; rfl
  show (_ → (((dotCode n (a i) (fun p => b p j)).bind fun acc => Code.write (dst i j) (0 + acc) :
      Code SCell K Unit).run m2).2 x = _) ∧ (_ → (((dotCode n (a i) (fun p => b p j)).bind fun acc =>
      Code.write (dst i j) (0 + acc) : Code SCell K Unit).run m2).2 x = _)
  rw [hx]
  refine ⟨?_, fun h => Function.update_of_ne h _ _⟩
  rintro rfl
  show Function.update m2 _ _ _ = _
  rw [Function.update_self, hv i hi j hj]

theorem within_serialProduct {r c n : ℕ} {a b : ℕ → ℕ → Code SCell K K} {dst : ℕ → ℕ → SCell}
    {rd wr : SCell → Prop} (ha : ∀ i < r, ∀ p < n, (a i p).Within rd wr)
    (hb : ∀ p < n, ∀ j < c, (b p j).Within rd wr) (hd : ∀ i < r, ∀ j < c, wr (dst i j)) :
    (serialProduct r c n a b dst).Within rd wr :=
  Code.Within.forN fun i hi => Code.Within.forN fun j hj =>
    Code.Within.bind (within_dotCode (ha i hi) fun p hp => hb p hp j hj) fun _ => Code.Within.write (hd i hi j hj)

theorem sets_addProduct {n : ℕ} {a b : ℕ → Code SCell K K} {dst : SCell} {m val : SCell → K} {av bv : ℕ → K}
    (ha : ∀ p < n, (a p).run m = (av p, m)) (hb : ∀ p < n, (b p).run m = (bv p, m))
    (hv : val dst = m dst + loopSum n fun p => (1 * av p) * bv p) :
    Sets (addProduct n a b dst) m (fun x => x = dst) val := by
  have hx : (addProduct n a b dst).run m = ((), Function.update m dst
      (m dst + loopSum n fun p => (1 * av p) * bv p)) := by
    show ((dotCode n a b).bind _).run m = _
    rw [Code.run_bind, run_dotCode ha hb]
    rfl
  intro x
  rw [hx]
  refine ⟨?_, fun h => Function.update_of_ne h _ _⟩
  rintro rfl
  show Function.update m _ _ _ = _
  rw [Function.update_self, hv]

theorem within_addProduct {n : ℕ} {a b : ℕ → Code SCell K K} {dst : SCell} {rd wr : SCell → Prop}
    (ha : ∀ p < n, (a p).Within rd wr) (hb : ∀ p < n, (b p).Within rd wr) (hd : wr dst) :
    (addProduct n a b dst).Within rd wr :=
  Code.Within.bind (within_dotCode ha hb) fun _ => Code.Within.bind (Code.Within.read (Or.inr hd)) fun _ =>
    Code.Within.write hd

end DG.Dev
