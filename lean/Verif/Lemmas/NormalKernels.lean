import Verif.Model.NormalKernels
import Verif.Lemmas.Kernels

/-! The kernel for the face normals with one thread per team. -/
namespace DG.Dev
open Kernel

section single
variable {C V T J : Type} [DecidableEq C] [DecidableEq T] [DecidableEq J] [Unique J]

/-- with one thread per team, a team works through its phases one after the other -/
theorem mids_single {k : Kernel C V T J} {rd wr : T → ℕ → J → C → Prop} (h : k.Safe rd wr) (m : C → V) (t : T)
    {p : ℕ} (hp : p < k.nph) :
    k.mids wr m t (p + 1) = ((k.code t p default).run (k.mids wr m t p)).2 := by
  funext c
  by_cases hw : wr t p default c
  · exact mids_written h hp hw
  · rw [mids_other fun j => by rw [Subsingleton.elim j default]; exact hw]
    exact (Code.run_frame (h.within t p default hp) hw).symm

end single

variable {K : Type} [Zero K] [One K] [Add K] [Sub K] [Mul K] [Neg K] [Div K] [NatCast K]

/-- the face a cell belongs to -/
def NCell.face : NCell → ℕ
  | .grad f _ _ _ => f
  | .normal f _ _ => f

/-- entry `(j, k)` of the products at point `ip` is one of the `m x n` entries -/
theorem entry_iff {m n j k : ℕ} (hn : 0 < n) : (∃ i < m * n, j = i / n ∧ k = i % n) ↔ j < m ∧ k < n := by
  constructor
  · rintro ⟨i, hi, rfl, rfl⟩
    exact ⟨Nat.div_lt_of_lt_mul (by rwa [Nat.mul_comm] at hi), Nat.mod_lt _ hn⟩
  · rintro ⟨hj, hk⟩
    refine ⟨j * n + k, ?_, ?_, ?_⟩
    · calc j * n + k < j * n + n := by omega
        _ = (j + 1) * n := by ring
        _ ≤ m * n := Nat.mul_le_mul_right _ hj
    · rw [Nat.mul_comm, Nat.mul_add_div hn, Nat.div_eq_of_lt hk, Nat.add_zero]
    · rw [Nat.mul_comm, Nat.mul_add_mod, Nat.mod_eq_of_lt hk]

theorem entry_inj {n i i' : ℕ} (h : i / n = i' / n) (h' : i % n = i' % n) : i = i' := by
  rw [← Nat.div_add_mod i n, h, h', Nat.div_add_mod]

/-- the entries at one point -/
def AtPoint (m n f ip : ℕ) (c : NCell) : Prop := ∃ j < m, ∃ k < n, c = .grad f j k ip

theorem atPoint_iff {m n f ip : ℕ} (hn : 0 < n) (c : NCell) :
    (∃ i < m * n, c = .grad f (i / n) (i % n) ip) ↔ AtPoint m n f ip c := by
  constructor
  · rintro ⟨i, hi, rfl⟩
    obtain ⟨h1, h2⟩ := (entry_iff hn).1 ⟨i, hi, rfl, rfl⟩
    exact ⟨_, h1, _, h2, rfl⟩
  · rintro ⟨j, hj, k, hk, rfl⟩
    obtain ⟨i, hi, h1, h2⟩ := (entry_iff (m := m) hn).2 ⟨hj, hk⟩
    exact ⟨i, hi, by rw [← h1, ← h2]⟩

theorem clearGrad_sets (m n f ip : ℕ) (hn : 0 < n) (mem : NCell → K) :
    Sets (clearGrad 1 0 m n f ip) mem (AtPoint m n f ip) (fun _ => 0) := by
  refine Sets.mono (Sets.forN (W := fun i c => c = .grad f (i / n) (i % n) ip) ?_) (atPoint_iff hn)
  intro i _ m' _
  unfold Code.cond
  rw [if_pos (Nat.mod_one i)]
  exact Sets.write rfl

theorem addGrad_sets (X : ℕ → ℕ → ℕ → K) (m n f ip : ℕ) (hn : 0 < n) (mem val : NCell → K)
    (hv : ∀ j k, val (.grad f j k ip) = mem (.grad f j k ip) + X j k ip) :
    Sets (addGrad X 1 0 m n f ip) mem (AtPoint m n f ip) val := by
  refine Sets.mono (Sets.forN (W := fun i c => c = .grad f (i / n) (i % n) ip) ?_) (atPoint_iff hn)
  intro i _ m' hm'
  unfold Code.cond
  rw [if_pos (Nat.mod_one i)]
  refine Sets.mono (Sets.bind (W := fun _ => False) (fun c => ⟨fun h => h.elim, fun _ => rfl⟩)
    (Sets.write ?_)) (fun c => by simp)
  show val _ = m' (.grad f (i / n) (i % n) ip) + _
  rw [hv, hm' _ ?_]
  rintro ⟨j, hj, hc⟩
  injection hc with _ h1 h2
  exact absurd (entry_inj h1 h2) (by omega)

/-- the memory of a face after `p` phases -/
def afterPhases (X : ℕ → ℕ → ℕ → K) (m n f p : ℕ) (mem : NCell → K) : NCell → K
  | .grad f' j k ip =>
    if f' = f ∧ j < m ∧ k < n then
      if ip + 1 < p then 0 + X j k ip else if ip + 1 = p then 0 else mem (.grad f' j k ip)
    else mem (.grad f' j k ip)
  | .normal f' ip j => mem (.normal f' ip j)

theorem sets_ext {α : Type} {x : Code NCell K α} {m m' : NCell → K} {W : NCell → Prop} {val : NCell → K}
    (h : Sets x m W val) (h1 : ∀ c, W c → m' c = val c) (h2 : ∀ c, ¬ W c → m' c = m c) : (x.run m).2 = m' := by
  funext c
  by_cases hc : W c
  · rw [(h c).1 hc, h1 c hc]
  · rw [(h c).2 hc, h2 c hc]

/-- adding the products at point `p - 1` -/
def addedPhases (X : ℕ → ℕ → ℕ → K) (m n f p : ℕ) (mem : NCell → K) : NCell → K
  | .grad f' j k ip =>
    if f' = f ∧ j < m ∧ k < n ∧ ip < p then 0 + X j k ip else mem (.grad f' j k ip)
  | .normal f' ip j => mem (.normal f' ip j)

theorem run_addGrad (X : ℕ → ℕ → ℕ → K) (m n f p : ℕ) (hn : 0 < n) (mem : NCell → K) :
    ((Code.cond (0 < p) (addGrad X 1 0 m n f (p - 1))).run (afterPhases X m n f p mem)).2
      = addedPhases X m n f p mem := by
  unfold Code.cond
  by_cases hp : 0 < p
  · rw [if_pos hp]
    refine sets_ext (addGrad_sets X m n f (p - 1) hn _ (fun c => afterPhases X m n f p mem c +
      (match c with | .grad _ j k ip => X j k ip | .normal _ _ _ => 0)) fun j k => rfl) ?_ ?_
    · rintro c ⟨j, hj, k, hk, rfl⟩
      have h1 : ¬ (p - 1 + 1 < p) := by omega
      have h2 : p - 1 + 1 = p := by omega
      have h3 : p - 1 < p := by omega
      simp [addedPhases, afterPhases, hj, hk, h1, h2, h3]
    · intro c hc
      cases c with
      | grad f' j k ip =>
        by_cases h : f' = f ∧ j < m ∧ k < n
        · obtain ⟨rfl, hj, hk⟩ := h
          have hne : ip ≠ p - 1 := fun he => hc ⟨j, hj, k, hk, by rw [he]⟩
          by_cases hlt : ip + 1 < p
          · have : ip < p := by omega
            simp [addedPhases, afterPhases, hj, hk, hlt, this]
          · have h1 : ¬ ip < p := by omega
            have h2 : ip + 1 ≠ p := by omega
            simp [addedPhases, afterPhases, hj, hk, hlt, h1, h2]
        · have h' : ¬ (f' = f ∧ j < m ∧ k < n ∧ ip < p) := fun ⟨a, b, c, _⟩ => h ⟨a, b, c⟩
          simp only [addedPhases, afterPhases, if_neg h, if_neg h']
      | normal f' ip j => rfl
  · rw [if_neg hp]
    have : p = 0 := by omega
    subst this
    funext c
    cases c with
    | grad f' j k ip => simp [addedPhases, afterPhases, Code.run]
    | normal f' ip j => rfl

theorem run_phase (X : ℕ → ℕ → ℕ → K) (m n f p : ℕ) (hn : 0 < n) (mem : NCell → K) :
    ((clearGrad 1 0 m n f p).run (addedPhases X m n f p mem)).2 = afterPhases X m n f (p + 1) mem := by
  refine sets_ext (clearGrad_sets m n f p hn _) ?_ ?_
  · rintro c ⟨j, hj, k, hk, rfl⟩
    simp [afterPhases, hj, hk]
  · intro c hc
    cases c with
    | grad f' j k ip =>
      by_cases h : f' = f ∧ j < m ∧ k < n
      · obtain ⟨rfl, hj, hk⟩ := h
        have hne : ip ≠ p := fun he => hc ⟨j, hj, k, hk, by rw [he]⟩
        by_cases hlt : ip < p
        · simp [addedPhases, afterPhases, hj, hk, hlt]
        · have h1 : ¬ ip + 1 < p + 1 := by omega
          have h2 : ip + 1 ≠ p + 1 := by omega
          simp [addedPhases, afterPhases, hj, hk, hlt, hne]
      · have h' : ¬ (f' = f ∧ j < m ∧ k < n ∧ ip < p) := fun ⟨a, b, c, _⟩ => h ⟨a, b, c⟩
        simp only [addedPhases, afterPhases, if_neg h, if_neg h']
    | normal f' ip j => rfl

/-- The kernel with one thread per team: what it needs of the code for the normals, and what it computes. -/
theorem normalsKernel_computes (np m n nf : ℕ) (hn : 0 < n) (X : ℕ → ℕ → ℕ → ℕ → K)
    (rest : ℕ → ℕ → Code NCell K Unit)
    (hw : ∀ f, (rest f 0).Within (fun _ => False) (fun c => c.face = f)) (mem : NCell → K) :
    ∃ m', (normalsKernel 1 np m n nf X rest).Computes mem m' ∧ ∀ f < nf, ∀ c, c.face = f →
      m' c = ((rest f 0).run (addedPhases (X f) m n f np mem)).2 c := by
  have hsafe : (normalsKernel 1 np m n nf X rest).Safe (fun _ _ _ _ => False)
      (fun (f : Fin nf) _ _ c => c.face = f) := by
    refine ⟨?_, fun _ _ _ _ _ _ _ _ => Subsingleton.elim _ _, ?_⟩
    · intro f p j _
      have hj : (j : ℕ) = 0 := by omega
      show Code.Within _ _ (Code.bind _ fun _ => Code.bind _ fun _ => _)
      have hc : ∀ (q : Prop) [Decidable q] (x : Code NCell K Unit) (rd wr : NCell → Prop),
          x.Within rd wr → (Code.cond q x).Within rd wr := by
        intro q _ x rd wr h
        unfold Code.cond
        split
        · exact h
        · trivial
      refine Code.Within.bind (hc _ _ _ _ (Code.Within.forN fun i _ => hc _ _ _ _
        (Code.Within.bind (Code.Within.read (Or.inr rfl)) fun _ => Code.Within.write rfl))) fun _ =>
        Code.Within.bind (hc _ _ _ _ (Code.Within.forN fun i _ => hc _ _ _ _ (Code.Within.write rfl))) fun _ =>
        hc _ _ _ _ ?_
      rw [hj]
      exact hw f
    · intro f f' p p' j j' c _ _ h1 h2
      have h2 : c.face = f' := h2.resolve_left id
      exact Fin.ext (h1.symm.trans h2)
  have hnph : (normalsKernel 1 np m n nf X rest).nph = np + 1 := rfl
  have hmid : ∀ (f : Fin nf) p, p ≤ np →
      (normalsKernel 1 np m n nf X rest).mids (fun (f : Fin nf) _ _ c => c.face = f) mem f p
        = afterPhases (X f) m n f p mem := by
    intro f p
    induction p with
    | zero =>
      intro _
      funext c
      cases c with
      | grad f' j k ip => simp [afterPhases, mids]
      | normal f' ip j => rfl
    | succ p ih =>
      intro hp
      rw [mids_single hsafe mem f (by rw [hnph]; omega), ih (by omega)]
      show ((Code.bind _ fun _ => Code.bind _ fun _ => _).run _).2 = _
      rw [Code.run_bind, Code.run_bind]
      have hd : ((default : Fin 1) : ℕ) = 0 := rfl
      rw [hd, run_addGrad _ _ _ _ _ hn]
      unfold Code.cond
      rw [if_pos (by omega : p < np), if_neg (by omega : ¬ p = np), run_phase _ _ _ _ _ hn]
      rfl
  have hlast : ∀ (f : Fin nf),
      (normalsKernel 1 np m n nf X rest).mids (fun (f : Fin nf) _ _ c => c.face = f) mem f (np + 1)
        = ((rest f 0).run (addedPhases (X f) m n f np mem)).2 := by
    intro f
    rw [mids_single hsafe mem f (by rw [hnph]; omega), hmid f np le_rfl]
    show ((Code.bind _ fun _ => Code.bind _ fun _ => _).run _).2 = _
    rw [Code.run_bind, Code.run_bind]
    have hd : ((default : Fin 1) : ℕ) = 0 := rfl
    rw [hd, run_addGrad _ _ _ _ _ hn]
    unfold Code.cond
    rw [if_neg (by omega : ¬ np < np), if_pos rfl]
    rfl
  refine ⟨fun c => if h : c.face < nf then
      (normalsKernel 1 np m n nf X rest).mids (fun (f : Fin nf) _ _ c => c.face = f) mem ⟨c.face, h⟩ (np + 1) c
    else mem c, hsafe.computes ?_ ?_ ?_, ?_⟩
  · intro t p j c _ hc
    have hlt : c.face < nf := by rw [hc]; exact t.2
    have : (⟨c.face, hlt⟩ : Fin nf) = t := Fin.ext hc
    simp only [dif_pos hlt, this]
    rfl
  · intro c hc
    have hlt : ¬ c.face < nf := fun h => hc ⟨c.face, h⟩ 0 0 (by rw [hnph]; omega) rfl
    simp only [dif_neg hlt]
  · rcases Nat.eq_zero_or_pos nf with h | h
    · right
      subst h
      funext c
      simp
    · exact Or.inl ⟨⟨0, h⟩⟩
  · intro f hf c hc
    subst hc
    simp only [dif_pos hf, hlast]

theorem normalsQuad_sets (sign : K) (np f : ℕ) (mem : NCell → K) :
    ∀ c, ((normalsQuadCode sign np f).run mem).2 c = match c with
      | .grad f' j k ip => mem (.grad f' j k ip)
      | .normal f' ip j => if f' = f ∧ ip < np ∧ j < 2 then
          (if j = 0 then sign * mem (.grad f 1 0 ip) else -1 * sign * mem (.grad f 0 0 ip))
        else mem (.normal f' ip j) := by
  have h : Sets (normalsQuadCode sign np f) mem (fun c => ∃ ip < np, c = .normal f ip 0 ∨ c = .normal f ip 1)
      (fun c => match c with
        | .grad f' j k ip => 0
        | .normal _ ip j => if j = 0 then sign * mem (.grad f 1 0 ip) else -1 * sign * mem (.grad f 0 0 ip)) := by
    refine Sets.forN (W := fun ip (c : NCell) => c = .normal f ip 0 ∨ c = .normal f ip 1) ?_
    intro ip _ m' hm' c
    have h1 : m' (.grad f 1 0 ip) = mem (.grad f 1 0 ip) := hm' _ (by rintro ⟨j, _, h | h⟩ <;> cases h)
    have h2 : m' (.grad f 0 0 ip) = mem (.grad f 0 0 ip) := hm' _ (by rintro ⟨j, _, h | h⟩ <;> cases h)
    show (_ → Function.update (Function.update m' (.normal f ip 0) (sign * m' (.grad f 1 0 ip))) (.normal f ip 1)
      (-1 * sign * m' (.grad f 0 0 ip)) c = _) ∧ (_ → Function.update (Function.update m' (.normal f ip 0)
        (sign * m' (.grad f 1 0 ip))) (.normal f ip 1) (-1 * sign * m' (.grad f 0 0 ip)) c = _)
    rw [h1, h2]
    constructor
    · rintro (rfl | rfl)
      · rw [Function.update_of_ne (by simp)]; simp
      · simp
    · intro hc
      push Not at hc
      rw [Function.update_of_ne hc.2, Function.update_of_ne hc.1]
  intro c
  cases c with
  | grad f' j k ip => exact (h _).2 (by rintro ⟨_, _, h | h⟩ <;> cases h)
  | normal f' ip j =>
    by_cases hc : f' = f ∧ ip < np ∧ j < 2
    · obtain ⟨rfl, hip, hj⟩ := hc
      rw [(h _).1 ⟨ip, hip, by rcases (by omega : j = 0 ∨ j = 1) with rfl | rfl <;> simp⟩]
      simp [hip, hj]
    · rw [(h _).2 ?_]
      · simp only [if_neg hc]
      · rintro ⟨ip', h1, h2 | h2⟩ <;> (injection h2 with a b c; subst a b c; exact hc ⟨rfl, h1, by omega⟩)

theorem normalsHex_sets (sign : K) (np f : ℕ) (mem : NCell → K) :
    ∀ c, ((normalsHexCode sign 1 0 np f).run mem).2 c = match c with
      | .grad f' j k ip => mem (.grad f' j k ip)
      | .normal f' ip j => if f' = f ∧ ip < np ∧ j < 3 then
          scaleVec 3 sign (cross (fun i => mem (.grad f i 0 ip)) (fun i => mem (.grad f i 1 ip)) fun _ => 0) j
        else mem (.normal f' ip j) := by
  have h : Sets (normalsHexCode sign 1 0 np f) mem
      (fun c => ∃ ip < np, c = .normal f ip 0 ∨ c = .normal f ip 1 ∨ c = .normal f ip 2)
      (fun c => match c with
        | .grad f' j k ip => 0
        | .normal _ ip j => scaleVec 3 sign (cross (fun i => mem (.grad f i 0 ip)) (fun i => mem (.grad f i 1 ip))
            fun _ => 0) j) := by
    refine Sets.forN (W := fun ip (c : NCell) => c = .normal f ip 0 ∨ c = .normal f ip 1 ∨ c = .normal f ip 2) ?_
    intro ip _ m' hm' c
    have hg : ∀ i k, m' (.grad f i k ip) = mem (.grad f i k ip) := fun i k => hm' _ (by
      rintro ⟨j, _, h | h | h⟩ <;> cases h)
    have hrun : ∀ (a : NCell → K), ((Code.forN 3 fun i => Code.cond (i % 1 = 0) do
          let v ← Code.read (.normal f ip i)
          Code.write (.normal f ip i) (sign * v) : Code NCell K Unit).run a).2
        = Function.update (Function.update (Function.update a (.normal f ip 0) (sign * a (.normal f ip 0)))
            (.normal f ip 1) (sign * a (.normal f ip 1))) (.normal f ip 2) (sign * a (.normal f ip 2)) := by
      intro a
      show Function.update (Function.update (Function.update a (.normal f ip 0) (sign * a (.normal f ip 0)))
            (.normal f ip 1) (sign * (Function.update a (.normal f ip 0) (sign * a (.normal f ip 0)))
              (.normal f ip 1))) (.normal f ip 2) (sign * (Function.update (Function.update a (.normal f ip 0)
              (sign * a (.normal f ip 0))) (.normal f ip 1) (sign * (Function.update a (.normal f ip 0)
                (sign * a (.normal f ip 0))) (.normal f ip 1))) (.normal f ip 2)) = _
      simp [Function.update_of_ne]
    have hall : ∀ (x : Code NCell K Unit), x = (do
        let a0 ← Code.read (.grad f 0 0 ip)
        let b0 ← Code.read (.grad f 0 1 ip)
        let a1 ← Code.read (.grad f 1 0 ip)
        let b1 ← Code.read (.grad f 1 1 ip)
        let a2 ← Code.read (.grad f 2 0 ip)
        let b2 ← Code.read (.grad f 2 1 ip)
        Code.write (.normal f ip 0) (a1 * b2 - a2 * b1)
        Code.write (.normal f ip 1) (a2 * b0 - a0 * b2)
        Code.write (.normal f ip 2) (a0 * b1 - a1 * b0)
        Code.forN 3 fun i => Code.cond (i % 1 = 0) do
          let v ← Code.read (.normal f ip i)
          Code.write (.normal f ip i) (sign * v)) → (x.run m').2 =
        Function.update (Function.update (Function.update m'
          (.normal f ip 0) (sign * (m' (.grad f 1 0 ip) * m' (.grad f 2 1 ip) - m' (.grad f 2 0 ip) * m' (.grad f 1 1 ip))))
          (.normal f ip 1) (sign * (m' (.grad f 2 0 ip) * m' (.grad f 0 1 ip) - m' (.grad f 0 0 ip) * m' (.grad f 2 1 ip))))
          (.normal f ip 2) (sign * (m' (.grad f 0 0 ip) * m' (.grad f 1 1 ip) - m' (.grad f 1 0 ip) * m' (.grad f 0 1 ip))) := by
      rintro x rfl
      refine (hrun (Function.update (Function.update (Function.update m'
          (.normal f ip 0) (m' (.grad f 1 0 ip) * m' (.grad f 2 1 ip) - m' (.grad f 2 0 ip) * m' (.grad f 1 1 ip)))
          (.normal f ip 1) (m' (.grad f 2 0 ip) * m' (.grad f 0 1 ip) - m' (.grad f 0 0 ip) * m' (.grad f 2 1 ip)))
          (.normal f ip 2) (m' (.grad f 0 0 ip) * m' (.grad f 1 1 ip) - m' (.grad f 1 0 ip) * m' (.grad f 0 1 ip)))).trans ?_
      funext c
      by_cases h0 : c = .normal f ip 0
      · subst h0; simp [Function.update]
      · by_cases h1 : c = .normal f ip 1
        · subst h1; simp [Function.update]
        · by_cases h2 : c = .normal f ip 2
          · subst h2; simp [Function.update]
          · simp [Function.update, h0, h1, h2]
    have := hall _ rfl
    rw [this]
    simp only [hg]
    constructor
    · rintro (rfl | rfl | rfl) <;> simp [scaleVec, cross, Function.update]
    · intro hc
      push Not at hc
      rw [Function.update_of_ne hc.2.2, Function.update_of_ne hc.2.1, Function.update_of_ne hc.1]
  intro c
  cases c with
  | grad f' j k ip => exact (h _).2 (by rintro ⟨_, _, h | h | h⟩ <;> cases h)
  | normal f' ip j =>
    by_cases hc : f' = f ∧ ip < np ∧ j < 3
    · obtain ⟨rfl, hip, hj⟩ := hc
      rw [(h _).1 ⟨ip, hip, by rcases (by omega : j = 0 ∨ j = 1 ∨ j = 2) with rfl | rfl | rfl <;> simp⟩]
      simp [hip, hj]
    · rw [(h _).2 ?_]
      · simp only [if_neg hc]
      · rintro ⟨ip', h1, h2 | h2 | h2⟩ <;> (injection h2 with a b c; subst a b c; exact hc ⟨rfl, h1, by omega⟩)

end DG.Dev
