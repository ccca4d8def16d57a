import Verif.Lemmas.RoundCalc
import Verif.Lemmas.BitsSetup

/-!
The setup in rounded arithmetic follows the exact setup: relations between families of computed values and exact ones.
-/
open Filter Topology
namespace DG

section rel
variable {ι : Type*} {X X' : ι → Type} {Y Y' : Type} {S : (∀ i, X i) → Y → Prop} {T : (∀ i, X' i) → Y' → Prop}

/-- if the exact computation succeeds, so do the others, with related results -/
def RS (S : (∀ i, X i) → Y → Prop) (o : ∀ i, Option (X i)) (o' : Option Y) : Prop :=
  ∀ y, o' = some y → ∃ x, (∀ i, o i = some (x i)) ∧ S x y

theorem RS.some {x : ∀ i, X i} {y : Y} (h : S x y) : RS S (fun i => some (x i)) (some y) := by
  intro y' e; cases e; exact ⟨x, fun _ => rfl, h⟩

theorem RS.none {o : ∀ i, Option (X i)} : RS S o none := fun _ h => by cases h

theorem RS.bind {o : ∀ i, Option (X i)} {o' : Option Y} {f : ∀ i, X i → Option (X' i)} {g : Y → Option Y'} (h : RS S o o')
    (hf : ∀ x y, S x y → o' = .some y → RS T (fun i => f i (x i)) (g y)) : RS T (fun i => (o i).bind (f i)) (o'.bind g) := by
  intro z hz
  obtain ⟨y, h1, h2⟩ := Option.bind_eq_some_iff.1 hz
  obtain ⟨x, h3, h4⟩ := h y h1
  obtain ⟨w, h5, h6⟩ := hf x y h4 h1 z h2
  exact ⟨w, fun i => by beta_reduce; rw [h3 i]; exact h5 i, h6⟩

theorem RS.map {o : ∀ i, Option (X i)} {o' : Option Y} {f : ∀ i, X i → X' i} {g : Y → Y'} (h : RS S o o')
    (hf : ∀ x y, S x y → T (fun i => f i (x i)) (g y)) : RS T (fun i => (o i).map (f i)) (o'.map g) := by
  intro z hz
  obtain ⟨y, h1, h2⟩ := Option.map_eq_some_iff.1 hz
  obtain ⟨x, h3, h4⟩ := h y h1
  subst h2
  exact ⟨fun i => f i (x i), fun i => by beta_reduce; rw [h3 i]; rfl, hf x y h4⟩

theorem RS.ite {c : Prop} [Decidable c] {a b : ∀ i, Option (X i)} {a' b' : Option Y} (h1 : RS S a a') (h2 : RS S b b') :
    RS S (fun i => if c then a i else b i) (if c then a' else b') := by
  by_cases h : c
  · simpa only [h, if_true] using h1
  · simpa only [h, if_false] using h2

theorem RS.foldlM {β : Type} {f : ∀ i, X i → β → Option (X i)} {g : Y → β → Option Y} : ∀ {l : List β} {x : ∀ i, X i} {y : Y},
    (∀ b ∈ l, ∀ x y, S x y → RS S (fun i => f i (x i) b) (g y b)) → S x y →
    RS S (fun i => l.foldlM (f i) (x i)) (l.foldlM g y)
  | [], _, _, _, h => by simpa using RS.some h
  | b :: l, x, y, hf, h => by
    simp only [List.foldlM_cons, Option.bind_eq_bind]
    exact (hf b List.mem_cons_self x y h).bind fun x' y' h' _ =>
      RS.foldlM (fun b hb => hf b (List.mem_cons_of_mem _ hb)) h'

theorem RS.foldl {β : Type} {f : ∀ i, X i → β → X i} {g : Y → β → Y} : ∀ {l : List β} {x : ∀ i, X i} {y : Y},
    (∀ b ∈ l, ∀ x y, S x y → S (fun i => f i (x i) b) (g y b)) → S x y →
    S (fun i => l.foldl (f i) (x i)) (l.foldl g y)
  | [], _, _, _, h => h
  | b :: l, x, y, hf, h => by
    simp only [List.foldl_cons]
    exact RS.foldl (fun b hb => hf b (List.mem_cons_of_mem _ hb)) (hf b List.mem_cons_self x y h)

/-- lists with related entries -/
def RL (S : (∀ i, X i) → Y → Prop) (L : ∀ i, List (X i)) (M : List Y) : Prop :=
  (∀ i, (L i).length = M.length) ∧ ∀ (j : ℕ) (y : Y), M[j]? = some y → ∃ x, (∀ i, (L i)[j]? = some (x i)) ∧ S x y

theorem RL.nil : RL S (fun _ => []) [] := ⟨fun _ => rfl, fun j y h => by simp at h⟩

theorem RL.cons {x : ∀ i, X i} {y : Y} {L : ∀ i, List (X i)} {M : List Y} (h : S x y) (hL : RL S L M) :
    RL S (fun i => x i :: L i) (y :: M) := by
  refine ⟨fun i => by simp [hL.1 i], fun j z hz => ?_⟩
  cases j with
  | zero => simp at hz; subst hz; exact ⟨x, fun i => rfl, h⟩
  | succ j => simp at hz; obtain ⟨w, h1, h2⟩ := hL.2 j z hz; exact ⟨w, fun i => by simpa using h1 i, h2⟩

theorem RL.uncons {L : ∀ i, List (X i)} {y : Y} {M : List Y} (h : RL S L (y :: M)) :
    ∃ x L', (L = fun i => x i :: L' i) ∧ S x y ∧ RL S L' M := by
  obtain ⟨x, h1, h2⟩ := h.2 0 y rfl
  refine ⟨x, fun i => (L i).tail, ?_, h2, ?_, ?_⟩
  · funext i
    have h3 := h1 i
    cases hL : L i with
    | nil => rw [hL] at h3; cases h3
    | cons a t => rw [hL] at h3; simp at h3; simp [h3, hL]
  · intro i; have := h.1 i; simp at this ⊢; omega
  · intro j z hz
    obtain ⟨w, h3, h4⟩ := h.2 (j + 1) z (by simpa using hz)
    exact ⟨w, fun i => by have := h3 i; simpa using this, h4⟩

theorem RL.replicate {x : ∀ i, X i} {y : Y} (n : ℕ) (h : S x y) :
    RL S (fun i => List.replicate n (x i)) (List.replicate n y) := by
  refine ⟨fun i => by simp, fun j z hz => ?_⟩
  rw [List.getElem?_replicate] at hz
  split at hz
  · rename_i hj; cases hz; exact ⟨x, fun i => by rw [List.getElem?_replicate, if_pos hj], h⟩
  · cases hz

theorem RL.setB {L : ∀ i, List (X i)} {M : List Y} (hL : RL S L M) (j : ℕ) {x : ∀ i, X i} {y : Y} (h : S x y) :
    RS (RL S) (fun i => DG.setB (L i) j (x i)) (DG.setB M j y) := by
  unfold DG.setB
  simp only [hL.1]
  refine RS.ite (RS.some ⟨fun i => by simp [hL.1 i], fun k z hz => ?_⟩) RS.none
  rw [List.getElem?_set] at hz
  split at hz
  · rename_i e
    subst e
    split at hz
    · rename_i hj
      cases hz
      exact ⟨x, fun i => by rw [List.getElem?_set_self (by rw [hL.1 i]; exact hj)], h⟩
    · cases hz
  · rename_i e
    obtain ⟨w, h1, h2⟩ := hL.2 k z hz
    exact ⟨w, fun i => by rw [List.getElem?_set_ne e]; exact h1 i, h2⟩

theorem RL.getD {L : ∀ i, List (X i)} {M : List Y} (hL : RL S L M) {d : ∀ i, X i} {d' : Y} (h : S d d') (j : ℕ) :
    S (fun i => ((L i)[j]?).getD (d i)) ((M[j]?).getD d') := by
  rcases lt_or_ge j M.length with hj | hj
  · obtain ⟨x, h1, h2⟩ := hL.2 j _ (List.getElem?_eq_getElem hj)
    rw [List.getElem?_eq_getElem hj]
    simp only [h1, Option.getD_some]
    exact h2
  · have : ∀ i, (L i)[j]? = Option.none := fun i => List.getElem?_eq_none (by rw [hL.1 i]; exact hj)
    simp only [this, List.getElem?_eq_none hj, Option.getD_none]
    exact h

theorem RL.get {L : ∀ i, List (X i)} {M : List Y} (hL : RL S L M) (j : ℕ) : RS S (fun i => (L i)[j]?) M[j]? :=
  fun y hy => hL.2 j y hy

theorem RL.map {L : ∀ i, List (X i)} {M : List Y} (hL : RL S L M) {f : ∀ i, X i → X' i} {g : Y → Y'}
    (hf : ∀ x y, S x y → T (fun i => f i (x i)) (g y)) : RL T (fun i => (L i).map (f i)) (M.map g) := by
  refine ⟨fun i => by simp [hL.1 i], fun j z hz => ?_⟩
  rw [List.getElem?_map] at hz
  obtain ⟨y, h1, h2⟩ := Option.map_eq_some_iff.1 hz
  obtain ⟨x, h3, h4⟩ := hL.2 j y h1
  subst h2
  exact ⟨fun i => f i (x i), fun i => by rw [List.getElem?_map, h3 i]; rfl, hf x y h4⟩

theorem RL.mapM {f : ∀ i, X i → Option (X' i)} {g : Y → Option Y'} : ∀ {M : List Y} {L : ∀ i, List (X i)}, RL S L M →
    (∀ x y, S x y → RS T (fun i => f i (x i)) (g y)) → RS (RL T) (fun i => (L i).mapM (f i)) (M.mapM g)
  | [], L, hL, _ => by
    have : L = fun _ => [] := funext fun i => List.length_eq_zero_iff.1 (hL.1 i)
    subst this
    simpa using RS.some RL.nil
  | y :: M, L, hL, hf => by
    obtain ⟨x, L', e, h1, h2⟩ := hL.uncons
    subst e
    simp only [List.mapM_cons, Option.bind_eq_bind, Option.pure_def]
    exact (hf x y h1).bind fun a b hab _ => (RL.mapM h2 hf).bind fun c d hcd _ => RS.some (RL.cons hab hcd)

theorem RS.mapM {β : Type} {f : ∀ i, β → Option (X' i)} {g : β → Option Y'} : ∀ {l : List β},
    (∀ b ∈ l, RS T (fun i => f i b) (g b)) → RS (RL T) (fun i => l.mapM (f i)) (l.mapM g)
  | [], _ => by simpa using RS.some RL.nil
  | b :: l, hf => by
    simp only [List.mapM_cons, Option.bind_eq_bind, Option.pure_def]
    exact (hf b List.mem_cons_self).bind fun a b hab _ =>
      (RS.mapM fun b hb => hf b (List.mem_cons_of_mem _ hb)).bind fun c d hcd _ => RS.some (RL.cons hab hcd)

end rel

/-! ### numbers -/

section num
variable {ι : Type*} {l : Filter ι} {A : ι → Arith}

/-- the computed numbers `a` follow the exact number `x` -/
def Fo (l : Filter ι) (A : ι → Arith) (a : ∀ i, (A i).K) (x : ℝ) : Prop := Tr l A a (fun _ => x) x

variable {a b : ∀ i, (A i).K} {x y : ℝ}

theorem Fo.add (hA : Fine l A) (ha : Fo l A a x) (hb : Fo l A b y) : Fo l A (fun i => a i + b i) (x + y) := Tr.add hA ha hb
theorem Fo.sub (hA : Fine l A) (ha : Fo l A a x) (hb : Fo l A b y) : Fo l A (fun i => a i - b i) (x - y) := Tr.sub hA ha hb
theorem Fo.mul (hA : Fine l A) (ha : Fo l A a x) (hb : Fo l A b y) : Fo l A (fun i => a i * b i) (x * y) := Tr.mul hA ha hb
theorem Fo.div (hA : Fine l A) (ha : Fo l A a x) (hb : Fo l A b y) (h0 : y ≠ 0) : Fo l A (fun i => a i / b i) (x / y) :=
  Tr.div hA ha hb h0
theorem Fo.neg (ha : Fo l A a x) : Fo l A (fun i => -a i) (-x) := Tr.neg ha
theorem Fo.zero : Fo l A (fun _ => 0) 0 := Tr.zero
theorem Fo.one : Fo l A (fun _ => 1) 1 := Tr.one
theorem Fo.nat (hA : Fine l A) (n : ℕ) : Fo l A (fun i => ((n : ℕ) : (A i).K)) n := Tr.nat hA n
theorem Fo.ofNat (hA : Fine l A) (n : ℕ) [n.AtLeastTwo] : Fo l A (fun i => (OfNat.ofNat n : (A i).K)) (OfNat.ofNat n) :=
  Tr.ofNat hA n
theorem Fo.lit (hA : Fine l A) (n : ℤ) (k : ℕ) : Fo l A (fun i => (DecLit.ofDec n k : (A i).K)) (DecLit.ofDec n k : ℝ) :=
  Tr.lit hA n k

/-- expressions of sums and products -/
macro "fo" hA:ident : tactic => `(tactic| repeat' first
  | assumption | exact Fo.zero | exact Fo.one | exact Fo.nat $hA _ | exact Fo.ofNat $hA _ | refine Fo.add $hA ?_ ?_ | refine Fo.sub $hA ?_ ?_
  | refine Fo.mul $hA ?_ ?_ | refine Fo.neg ?_)

theorem Fo.get0 {L : ∀ i, List (A i).K} {M : List ℝ} (hL : RL (Fo l A) L M) (j : ℕ) :
    Fo l A (fun i => DG.get0 (L i) j) (DG.get0 M j) := hL.getD Fo.zero j

theorem Fo.foldl (hA : Fine l A) {β : Type} {f : ∀ i, (A i).K → β → (A i).K} {g : ℝ → β → ℝ} : ∀ {L : List β}
    {a : ∀ i, (A i).K} {x : ℝ}, (∀ b ∈ L, ∀ a x, Fo l A a x → Fo l A (fun i => f i (a i) b) (g x b)) → Fo l A a x →
    Fo l A (fun i => L.foldl (f i) (a i)) (L.foldl g x)
  | [], _, _, _, h => h
  | b :: L, a, x, hf, h => by
    simp only [List.foldl_cons]
    exact Fo.foldl hA (fun b hb => hf b (List.mem_cons_of_mem _ hb)) (hf b List.mem_cons_self _ _ h)

theorem Fo.loop (hA : Fine l A) {n : ℕ} {F : ∀ i, ℕ → (A i).K} {G : ℕ → ℝ} (h : ∀ j < n, Fo l A (fun i => F i j) (G j)) :
    Fo l A (fun i => loopSum n (F i)) (loopSum n G) :=
  Fo.foldl hA (fun j hj _ _ hx => hx.add hA (h j (List.mem_range.1 hj))) Fo.zero

/-- pairs and triples -/
def P2 (l : Filter ι) (A : ι → Arith) (a : ∀ i, (A i).K × (A i).K) (x : ℝ × ℝ) : Prop :=
  Fo l A (fun i => (a i).1) x.1 ∧ Fo l A (fun i => (a i).2) x.2
def P3 (l : Filter ι) (A : ι → Arith) (a : ∀ i, (A i).K × (A i).K × (A i).K) (x : ℝ × ℝ × ℝ) : Prop :=
  Fo l A (fun i => (a i).1) x.1 ∧ Fo l A (fun i => (a i).2.1) x.2.1 ∧ Fo l A (fun i => (a i).2.2) x.2.2

end num
end DG
