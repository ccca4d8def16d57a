import Verif.Model.Utils
import Mathlib.Data.List.Sort
import Mathlib.Tactic.Ring
import Mathlib.Tactic.Linarith
import Mathlib.Data.List.Lex
import Mathlib.Data.Nat.Digits.Defs

/-!
C51 (command-line options), C52 (file names), C53 (sorted-range intersection), C54 (input check).
-/
namespace DG

/-! ### C51 -/

theorem findArg_eq_nil (o : String) (l : List String) : findArg o l = [] ↔ o ∉ l := by
  induction l with
  | nil => simp [findArg]
  | cons a as ih =>
    by_cases h : a = o
    · simp [findArg, h]
    · simp [findArg, h, ih, Ne.symm h]

theorem findArg_of_split (o : String) (pre post : List String) (h : o ∉ pre) :
    findArg o (pre ++ o :: post) = o :: post := by
  induction pre with
  | nil => simp [findArg]
  | cons a as ih =>
    have h1 : a ≠ o := fun e => h (by simp [e])
    have h2 : o ∉ as := fun e => h (by simp [e])
    simp [findArg, h1, ih h2]

/-- The existence check is true exactly when the flag is one of the arguments. -/
theorem C51_exists_iff (argv : List String) (o : String) :
    existOption argv o = true ↔ o ∈ argv := by
  have h := findArg_eq_nil o argv
  unfold existOption
  cases hf : findArg o argv with
  | nil => simpa [hf] using h.mp hf
  | cons a as => simp only [true_iff]; by_contra hc; rw [h.mpr hc] at hf; simp at hf

/-- The option lookup returns `v` exactly when `v` is the argument that follows the first
occurrence of the flag; in particular it returns nothing when the flag is absent or when its
first occurrence is the last argument. -/
theorem C51_get_option_iff (argv : List String) (o v : String) :
    getOption argv o = some v ↔
      ∃ pre post, argv = pre ++ o :: v :: post ∧ o ∉ pre := by
  constructor
  · intro h
    by_cases hm : o ∈ argv
    · obtain ⟨pre, post, rfl, hpre⟩ := List.eq_append_cons_of_mem hm
      rw [getOption, findArg_of_split _ _ _ hpre] at h
      cases post with
      | nil => simp at h
      | cons b bs => simp at h; subst h; exact ⟨pre, bs, rfl, hpre⟩
    · rw [getOption, (findArg_eq_nil o argv).mpr hm] at h
      simp at h
  · rintro ⟨pre, post, rfl, hpre⟩
    rw [getOption, findArg_of_split _ _ _ hpre]

/-- … and it returns nothing exactly when the flag is absent or only the last argument is the
flag. -/
theorem C51_get_option_none_iff (argv : List String) (o : String) :
    getOption argv o = none ↔ o ∉ argv ∨ ∃ pre, argv = pre ++ [o] ∧ o ∉ pre := by
  constructor
  · intro h
    by_cases hm : o ∈ argv
    · right
      obtain ⟨pre, post, rfl, hpre⟩ := List.eq_append_cons_of_mem hm
      rw [getOption, findArg_of_split _ _ _ hpre] at h
      cases post with
      | nil => exact ⟨pre, rfl, hpre⟩
      | cons b bs => simp at h
    · exact Or.inl hm
  · rintro (h | ⟨pre, rfl, hpre⟩)
    · rw [getOption, (findArg_eq_nil o argv).mpr h]
    · rw [getOption, findArg_of_split _ _ _ hpre]

/-- The program reads `input.toml` unless `-input` is given; if it is given it reads the argument
after its first occurrence; and it builds a string from a null pointer exactly when the first
`-input` is the last argument. -/
theorem C51_input_file (argv : List String) :
    ("-input" ∉ argv → inputFileName argv = some "input.toml") ∧
    (∀ pre v post, argv = pre ++ "-input" :: v :: post → "-input" ∉ pre →
      inputFileName argv = some v) ∧
    (inputFileName argv = none ↔ ∃ pre, argv = pre ++ ["-input"] ∧ "-input" ∉ pre) := by
  have he := C51_exists_iff argv "-input"
  refine ⟨fun h => ?_, fun pre v post h hp => ?_, ?_⟩
  · have : ¬ existOption argv "-input" = true := fun hh => h (he.mp hh)
    simp [inputFileName, this]
  · have : existOption argv "-input" = true := he.mpr (by simp [h])
    simp only [inputFileName, this, if_true]
    exact (C51_get_option_iff argv _ _).mpr ⟨pre, post, h, hp⟩
  · by_cases hx : existOption argv "-input" = true
    · simp only [inputFileName, hx, if_true, C51_get_option_none_iff]
      constructor
      · rintro (h | h)
        · exact absurd (he.mp hx) h
        · exact h
      · exact Or.inr
    · simp only [inputFileName, hx]
      simp only [Bool.false_eq_true, if_false, reduceCtorEq, false_iff, not_exists]
      rintro pre ⟨rfl, -⟩
      exact hx (he.mpr (by simp))

example : getOption ["dg", "-input", "a.toml", "-input", "b.toml"] "-input" = some "a.toml" := by
  decide
example : inputFileName ["dg", "-input"] = none := by decide

/-! ### C52 -/

/-- `printInt` writes decimal digits after an optional minus sign, and the number can be read
back from them. -/
theorem toDigits_inj {m n : ℕ} (h : Nat.toDigits 10 m = Nat.toDigits 10 n) : m = n := by
  have h1 := Nat.ofDigitChars_ten_toDigits (n := m)
  have h2 := Nat.ofDigitChars_ten_toDigits (n := n)
  rw [h] at h1
  omega

theorem padTo_toDigits_value (w n : ℕ) :
    Nat.ofDigitChars 10 (padTo w (Nat.toDigits 10 n)) 0 = n := by
  rw [padTo, Nat.ofDigitChars_append, Nat.ofDigitChars_replicate_zero]
  simp [Nat.ofDigitChars_ten_toDigits]

theorem minus_notMem_pad (w n : ℕ) : '-' ∉ padTo w (Nat.toDigits 10 n) := by
  intro h
  rcases List.mem_append.mp h with h | h
  · exact absurd (List.mem_replicate.mp h).2 (by decide)
  · have := Nat.isDigit_of_mem_toDigits (by decide) (by decide) h
    revert this; decide

theorem underscore_notMem_pad (w n : ℕ) : '_' ∉ padTo w (Nat.toDigits 10 n) := by
  intro h
  rcases List.mem_append.mp h with h | h
  · exact absurd (List.mem_replicate.mp h).2 (by decide)
  · exact Nat.underscore_not_in_toDigits h

/-- splitting a list at the first occurrence of a separator is unambiguous -/
theorem append_cons_inj {α : Type*} {x : α} {a b c d : List α} (ha : x ∉ a) (hc : x ∉ c)
    (h : a ++ x :: b = c ++ x :: d) : a = c ∧ b = d := by
  induction a generalizing c with
  | nil =>
    cases c with
    | nil => simpa using h
    | cons y ys =>
      simp at h; exact absurd h.1 (fun e => hc (by simp [e]))
  | cons y ys ih =>
    cases c with
    | nil => simp at h; exact absurd h.1 (fun e => ha (by simp [e]))
    | cons z zs =>
      simp at h
      have := ih (fun e => ha (by simp [e])) (fun e => hc (by simp [e])) h.2
      exact ⟨by rw [h.1, this.1], this.2⟩

theorem padTo_printInt_inj {w : ℕ} {i j : ℤ} (h : padTo w (printInt i) = padTo w (printInt j)) :
    i = j := by
  have neg (n : ℕ) : padTo w (printInt (Int.negSucc n)) =
      List.replicate (w - (Nat.toDigits 10 (n + 1)).length - 1) '0' ++
        '-' :: Nat.toDigits 10 (n + 1) := by
    simp [padTo, printInt, Nat.sub_sub]
  have nr : ∀ k, '-' ∉ List.replicate k '0' := fun k hk =>
    absurd (List.mem_replicate.mp hk).2 (by decide)
  cases i with
  | ofNat m =>
    cases j with
    | ofNat n =>
      have := congrArg (fun l => Nat.ofDigitChars 10 l 0) h
      simp only [printInt, padTo_toDigits_value] at this
      rw [this]
    | negSucc n =>
      rw [neg] at h
      exact absurd (h ▸ List.mem_append.mpr (Or.inr (List.mem_cons_self))) (minus_notMem_pad w m)
  | negSucc m =>
    cases j with
    | ofNat n =>
      rw [neg] at h
      exact absurd (h.symm ▸ List.mem_append.mpr (Or.inr (List.mem_cons_self)))
        (minus_notMem_pad w n)
    | negSucc n =>
      rw [neg, neg] at h
      have := (append_cons_inj (nr _) (nr _) h).2
      have := toDigits_inj this
      congr 1; omega

/-- File names built from different iteration numbers (any `int`, negative ones included) with
the same prefix and suffix are different. -/
theorem C52_distinct (pre suf : List Char) (i j : ℤ)
    (h : fnameWithIter pre suf i = fnameWithIter pre suf j) : i = j := by
  simp only [fnameWithIter, List.append_cancel_left_eq] at h
  exact padTo_printInt_inj (List.append_cancel_right h)

/-- File names built from an iteration and a sub-region number determine both. -/
theorem C52_distinct_sr (pre suf : List Char) (i j s t : ℕ)
    (h : fnameWithIterSr pre suf i s = fnameWithIterSr pre suf j t) : i = j ∧ s = t := by
  simp only [fnameWithIterSr, List.append_cancel_left_eq] at h
  have h1 := append_cons_inj (underscore_notMem_pad 8 i) (underscore_notMem_pad 8 j) h
  refine ⟨?_, ?_⟩
  · have := congrArg (fun l => Nat.ofDigitChars 10 l 0) h1.1
    simpa only [padTo_toDigits_value] using this
  · have := congrArg (fun l => Nat.ofDigitChars 10 l 0) (List.append_cancel_right (show
      padTo 3 (Nat.toDigits 10 s) ++ suf = padTo 3 (Nat.toDigits 10 t) ++ suf from h1.2))
    simpa only [padTo_toDigits_value] using this

/-- the `w` last decimal digits of a number, most significant first -/
def fixedDigits : ℕ → ℕ → List Char
  | 0, _ => []
  | w + 1, n => fixedDigits w (n / 10) ++ [Nat.digitChar (n % 10)]

theorem fixedDigits_length (w n : ℕ) : (fixedDigits w n).length = w := by
  induction w generalizing n with
  | zero => rfl
  | succ w ih => simp [fixedDigits, ih]

theorem fixedDigits_zero (w : ℕ) : fixedDigits w 0 = List.replicate w '0' := by
  induction w with
  | zero => rfl
  | succ w ih => simp only [fixedDigits, Nat.zero_div, ih, List.replicate_succ']; rfl

theorem padTo_toDigits_eq (w n : ℕ) (hn : n < 10 ^ w) (hw : 0 < w) :
    padTo w (Nat.toDigits 10 n) = fixedDigits w n := by
  induction w generalizing n with
  | zero => omega
  | succ w ih =>
    by_cases h10 : n < 10
    · rw [Nat.toDigits_of_lt_base h10, fixedDigits, Nat.div_eq_of_lt h10, fixedDigits_zero,
        Nat.mod_eq_of_lt h10]
      simp [padTo]
    · have hw' : 0 < w := by
        rcases Nat.eq_zero_or_pos w with rfl | h
        · simp at hn; omega
        · exact h
      have hlt : n / 10 < 10 ^ w := by
        rw [Nat.div_lt_iff_lt_mul (by norm_num)]; rw [pow_succ] at hn; exact hn
      rw [fixedDigits, ← ih (n / 10) hlt hw', Nat.toDigits_of_base_le (by norm_num) (by omega)]
      simp [padTo, Nat.toDigits_of_lt_base, Nat.mod_lt]

theorem digitChar_lt {a b : ℕ} (ha : a < 10) (hb : b < 10) (h : a < b) :
    Nat.digitChar a < Nat.digitChar b := by
  have : ∀ a ∈ List.range 10, ∀ b ∈ List.range 10, a < b → Nat.digitChar a < Nat.digitChar b := by
    decide +kernel
  exact this a (List.mem_range.mpr ha) b (List.mem_range.mpr hb) h

theorem lex_append_of_length {α : Type*} {r : α → α → Prop} {a b : List α}
    (h : List.Lex r a b) (hl : a.length = b.length) (c d : List α) :
    List.Lex r (a ++ c) (b ++ d) := by
  induction h with
  | nil => simp at hl
  | rel h => exact .rel h
  | cons _ ih => exact .cons (ih (by simpa using hl))

theorem lex_append_left {α : Type*} {r : α → α → Prop} (p : List α) {a b : List α}
    (h : List.Lex r a b) : List.Lex r (p ++ a) (p ++ b) := by
  induction p with
  | nil => exact h
  | cons x xs ih => exact .cons ih

theorem fixedDigits_lex (w m n : ℕ) (hn : n < 10 ^ w) (h : m < n) :
    List.Lex (· < ·) (fixedDigits w m) (fixedDigits w n) := by
  induction w generalizing m n with
  | zero => simp at hn; omega
  | succ w ih =>
    have hlt : n / 10 < 10 ^ w := by
      rw [Nat.div_lt_iff_lt_mul (by norm_num)]; rw [pow_succ] at hn; exact hn
    rw [fixedDigits, fixedDigits]
    rcases Nat.lt_or_ge (m / 10) (n / 10) with h1 | h1
    · exact lex_append_of_length (ih _ _ hlt h1) (by simp [fixedDigits_length]) _ _
    · have : m / 10 = n / 10 := le_antisymm (Nat.div_le_div_right h.le) h1
      rw [this]
      refine lex_append_left _ (.rel ?_)
      exact digitChar_lt (Nat.mod_lt _ (by norm_num)) (Nat.mod_lt _ (by norm_num)) (by omega)

/-- File names sort alphabetically (character-wise lexicographic order) in iteration order, for
all iterations of at most eight digits. -/
theorem C52_sorted (pre suf : List Char) (i j : ℕ) (hij : i < j) (hj : j < 10 ^ 8) :
    List.Lex (· < ·) (fnameWithIter pre suf i) (fnameWithIter pre suf j) := by
  refine lex_append_left _ (lex_append_left _ (lex_append_of_length ?_ ?_ _ _))
  · show List.Lex (· < ·) (padTo 8 (Nat.toDigits 10 i)) (padTo 8 (Nat.toDigits 10 j))
    rw [padTo_toDigits_eq 8 i (by omega) (by norm_num), padTo_toDigits_eq 8 j hj (by norm_num)]
    exact fixedDigits_lex 8 i j hj hij
  · show (padTo 8 (Nat.toDigits 10 i)).length = (padTo 8 (Nat.toDigits 10 j)).length
    rw [padTo_toDigits_eq 8 i (by omega) (by norm_num), padTo_toDigits_eq 8 j hj (by norm_num),
      fixedDigits_length, fixedDigits_length]

/-- Names with a sub-region number sort by iteration first and sub-region second. -/
theorem C52_sorted_sr (pre suf : List Char) (i j s t : ℕ)
    (hi : i < 10 ^ 8) (hj : j < 10 ^ 8) (hs : s < 10 ^ 3) (ht : t < 10 ^ 3)
    (h : i < j ∨ (i = j ∧ s < t)) :
    List.Lex (· < ·) (fnameWithIterSr pre suf i s) (fnameWithIterSr pre suf j t) := by
  refine lex_append_left _ (lex_append_left _ ?_)
  rw [padTo_toDigits_eq 8 i hi (by norm_num), padTo_toDigits_eq 8 j hj (by norm_num),
    padTo_toDigits_eq 3 s hs (by norm_num), padTo_toDigits_eq 3 t ht (by norm_num)]
  rcases h with h | ⟨rfl, h⟩
  · exact lex_append_of_length (fixedDigits_lex 8 i j hj h) (by simp [fixedDigits_length]) _ _
  · refine lex_append_left _ (lex_append_left _ ?_)
    exact lex_append_of_length (fixedDigits_lex 3 s t ht h) (by simp [fixedDigits_length]) _ _

/-- The eight-digit bound is needed: iteration 10⁸ sorts before iteration 99999999. -/
theorem C52_nine_digits_unsorted (pre suf : List Char) :
    List.Lex (· < ·) (fnameWithIter pre suf 100000000) (fnameWithIter pre suf 99999999) := by
  refine lex_append_left _ (lex_append_left _ ?_)
  have h1 : padTo 8 (printInt 100000000) = '1' :: "00000000".toList := by decide +kernel
  have h2 : padTo 8 (printInt 99999999) = '9' :: "9999999".toList := by decide +kernel
  rw [h1, h2]
  exact .rel (by decide)

example : fnameWithIter "sol".toList ".h5".toList 42 = "sol_00000042.h5".toList := by
  decide +kernel
example : fnameWithIterSr "sol".toList ".h5".toList 42 7 = "sol_00000042_007.h5".toList := by
  decide +kernel

/-! ### C53 -/

/-- Whatever the ranges, a positive answer exhibits a common element … -/
theorem C53_sound {α : Type*} [LinearOrder α] (l₁ l₂ : List α)
    (h : haveCommonElement l₁ l₂ = true) : ∃ x, x ∈ l₁ ∧ x ∈ l₂ := by
  induction l₁, l₂ using haveCommonElement.induct with
  | case1 => simp [haveCommonElement] at h
  | case2 => simp [haveCommonElement] at h
  | case3 a as b bs hab ih =>
    rw [haveCommonElement, if_pos hab] at h
    obtain ⟨x, h1, h2⟩ := ih h
    exact ⟨x, List.mem_cons_of_mem _ h1, h2⟩
  | case4 a as b bs hab hba ih =>
    rw [haveCommonElement, if_neg hab, if_pos hba] at h
    obtain ⟨x, h1, h2⟩ := ih h
    exact ⟨x, h1, List.mem_cons_of_mem _ h2⟩
  | case5 a as b bs hab hba =>
    have : a = b := le_antisymm (not_lt.mp hba) (not_lt.mp hab)
    exact ⟨a, by simp, by simp [this]⟩

/-- … and on two ranges sorted in non-decreasing order (repetitions allowed) the test is true
exactly when the ranges share an element. -/
theorem C53_sorted_iff {α : Type*} [LinearOrder α] (l₁ l₂ : List α)
    (h₁ : l₁.Pairwise (· ≤ ·)) (h₂ : l₂.Pairwise (· ≤ ·)) :
    haveCommonElement l₁ l₂ = true ↔ ∃ x, x ∈ l₁ ∧ x ∈ l₂ := by
  refine ⟨C53_sound l₁ l₂, ?_⟩
  induction l₁, l₂ using haveCommonElement.induct with
  | case1 => simp
  | case2 => simp
  | case3 a as b bs hab ih =>
    rintro ⟨x, hx1, hx2⟩
    rw [haveCommonElement, if_pos hab]
    refine ih (List.Pairwise.of_cons h₁) h₂ ⟨x, ?_, hx2⟩
    rcases List.mem_cons.mp hx1 with rfl | h
    · exfalso
      rcases List.mem_cons.mp hx2 with rfl | h'
      · exact lt_irrefl _ hab
      · exact absurd (List.rel_of_pairwise_cons h₂ h') (not_le.mpr hab)
    · exact h
  | case4 a as b bs hab hba ih =>
    rintro ⟨x, hx1, hx2⟩
    rw [haveCommonElement, if_neg hab, if_pos hba]
    refine ih h₁ (List.Pairwise.of_cons h₂) ⟨x, hx1, ?_⟩
    rcases List.mem_cons.mp hx2 with rfl | h
    · exfalso
      rcases List.mem_cons.mp hx1 with rfl | h'
      · exact lt_irrefl _ hba
      · exact absurd (List.rel_of_pairwise_cons h₁ h') (not_le.mpr hba)
    · exact h
  | case5 a as b bs hab hba =>
    intro _
    rw [haveCommonElement, if_neg hab, if_neg hba]

/-- Sortedness cannot be dropped. -/
theorem C53_unsorted_misses : ∃ l₁ l₂ : List ℕ,
    (∃ x, x ∈ l₁ ∧ x ∈ l₂) ∧ haveCommonElement l₁ l₂ = false :=
  ⟨[2, 1], [1], ⟨1, by simp, by simp⟩, by decide +kernel⟩

example : haveCommonElement [1, 3, 3, 7] [2, 3, 8] = true := by decide +kernel

/-! ### C54 -/

/-- Specification: the input has a section `sec` (a table) with a key `key`. -/
def HasKey (input : Toml) (sec key : String) : Prop :=
  ∃ kv kv' v, input = .table kv ∧ kv.lookup sec = some (.table kv') ∧ kv'.lookup key = some v

/-- Specification: the list of strings stored under `Boundaries.names`. -/
def BoundaryNames (input : Toml) (names : List String) : Prop :=
  ∃ kv kv', input = .table kv ∧ kv.lookup "Boundaries" = some (.table kv') ∧
    kv'.lookup "names" = some (.arr (names.map .str))

/-- Specification: boundary `b` has an entry that is a table with a `type`. -/
def BoundaryTyped (input : Toml) (b : String) : Prop :=
  ∃ kv kv' kv'' v, input = .table kv ∧ kv.lookup "Boundaries" = some (.table kv') ∧
    kv'.lookup b = some (.table kv'') ∧ kv''.lookup "type" = some v

/-- Specification: the input has an entry named `Boundaries`. -/
def HasBoundaries (input : Toml) : Prop := ∃ kv v, input = .table kv ∧
  kv.lookup "Boundaries" = some v

theorem at?_eq_some (v w : Toml) (k : String) :
    v.at? k = some w ↔ ∃ kv, v = .table kv ∧ kv.lookup k = some w := by
  cases v <;> simp [Toml.at?]

theorem contains_iff (v : Toml) (k : String) :
    v.contains k = true ↔ ∃ kv w, v = .table kv ∧ kv.lookup k = some w := by
  rw [Toml.contains, Option.isSome_iff_exists]
  constructor
  · rintro ⟨w, h⟩; obtain ⟨kv, h1, h2⟩ := (at?_eq_some _ _ _).mp h; exact ⟨kv, w, h1, h2⟩
  · rintro ⟨kv, w, h1, h2⟩; exact ⟨w, (at?_eq_some _ _ _).mpr ⟨kv, h1, h2⟩⟩

theorem hasKey_iff (input : Toml) (sec key : String) :
    (input.contains sec = true ∧ ((input.at? sec).getD .other).contains key = true) ↔
      HasKey input sec key := by
  constructor
  · rintro ⟨h1, h2⟩
    obtain ⟨kv, w, h3, h4⟩ := (contains_iff _ _).mp h1
    have h5 : input.at? sec = some w := (at?_eq_some _ _ _).mpr ⟨kv, h3, h4⟩
    rw [h5, Option.getD_some] at h2
    obtain ⟨kv', v, h6, h7⟩ := (contains_iff _ _).mp h2
    exact ⟨kv, kv', v, h3, h6 ▸ h4, h7⟩
  · rintro ⟨kv, kv', v, rfl, h2, h3⟩
    refine ⟨(contains_iff _ _).mpr ⟨kv, _, rfl, h2⟩, ?_⟩
    rw [show (Toml.table kv).at? sec = some (.table kv') from h2, Option.getD_some]
    exact (contains_iff _ _).mpr ⟨kv', v, rfl, h3⟩

theorem asStrs_iff (v : Toml) (names : List String) :
    v.asStrs = some names ↔ v = .arr (names.map .str) := by
  cases v with
  | arr xs =>
    simp only [Toml.asStrs, Toml.arr.injEq]
    induction xs generalizing names with
    | nil => cases names <;> simp [List.mapM_nil]
    | cons x xs ih =>
      rw [List.mapM_cons]
      cases x with
      | str s =>
        cases hm : xs.mapM Toml.asStr with
        | none =>
          simp only [Toml.asStr, Option.pure_def, Option.bind_eq_bind, Option.bind_some, hm,
            Option.bind_none, reduceCtorEq, false_iff]
          intro h
          cases names with
          | nil => simp at h
          | cons n ns =>
            simp only [List.map_cons, List.cons.injEq] at h
            have := (ih ns).mpr h.2
            rw [hm] at this; simp at this
        | some ys =>
          simp only [Toml.asStr, Option.pure_def, Option.bind_eq_bind, Option.bind_some, hm]
          cases names with
          | nil => simp
          | cons n ns =>
            have := ih ns
            rw [hm] at this
            simp only [Option.some.injEq] at this
            simp [this]
      | arr _ => cases names <;> simp [Toml.asStr]
      | table _ => cases names <;> simp [Toml.asStr]
      | other => cases names <;> simp [Toml.asStr]
  | str _ => simp [Toml.asStrs]
  | table _ => simp [Toml.asStrs]
  | other => simp [Toml.asStrs]

/-- The check accepts exactly the inputs that contain every required key and, when boundaries
are declared, a list of names each of which has a typed entry. -/
theorem C54_accepts_iff (input : Toml) :
    checkInputFile input = true ↔
      (∀ p ∈ [("Mesh", "file"), ("Numerics", "basis"), ("Numerics", "order"),
          ("Output", "prefix"), ("Stepper", "start"), ("Stepper", "end"),
          ("Stepper", "timestep"), ("Physics", "dim"), ("Equation", "name")],
        HasKey input p.1 p.2) ∧
      (HasBoundaries input →
        ∃ names, BoundaryNames input names ∧ ∀ b ∈ names, BoundaryTyped input b) := by
  have hb : HasBoundaries input ↔ input.contains "Boundaries" = true := by
    rw [contains_iff]; rfl
  have hn (names : List String) : BoundaryNames input names ↔
      (((input.at? "Boundaries").bind (Toml.at? "names")).bind Toml.asStrs) = some names := by
    constructor
    · rintro ⟨kv, kv', rfl, h2, h3⟩
      rw [show (Toml.table kv).at? "Boundaries" = some (.table kv') from h2, Option.bind_some,
        show (Toml.table kv').at? "names" = some _ from h3, Option.bind_some]
      exact (asStrs_iff _ _).mpr rfl
    · intro h
      obtain ⟨v, h1, h2⟩ := Option.bind_eq_some_iff.mp h
      obtain ⟨w, h3, h4⟩ := Option.bind_eq_some_iff.mp h1
      obtain ⟨kv, e1, e2⟩ := (at?_eq_some _ _ _).mp h3
      obtain ⟨kv', e3, e4⟩ := (at?_eq_some _ _ _).mp h4
      exact ⟨kv, kv', e1, e3 ▸ e2, by rw [e4, (asStrs_iff _ _).mp h2]⟩
  have ht (b : String) : BoundaryTyped input b ↔
      (input.contains "Boundaries" = true ∧
        ((input.at? "Boundaries").getD .other).contains b = true ∧
        ((((input.at? "Boundaries").getD .other).at? b).getD .other).contains "type" = true) := by
    constructor
    · rintro ⟨kv, kv', kv'', v, rfl, h2, h3, h4⟩
      have e1 : (Toml.table kv).at? "Boundaries" = some (.table kv') := h2
      have e2 : (Toml.table kv').at? b = some (.table kv'') := h3
      refine ⟨(contains_iff _ _).mpr ⟨kv, _, rfl, h2⟩, ?_, ?_⟩
      · rw [e1, Option.getD_some]; exact (contains_iff _ _).mpr ⟨kv', _, rfl, h3⟩
      · rw [e1, Option.getD_some, e2, Option.getD_some]
        exact (contains_iff _ _).mpr ⟨kv'', v, rfl, h4⟩
    · rintro ⟨h1, h2⟩
      obtain ⟨kv, w, rfl, e2⟩ := (contains_iff _ _).mp h1
      rw [show (Toml.table kv).at? "Boundaries" = some w from e2, Option.getD_some] at h2
      obtain ⟨kv', w', rfl, h5⟩ := (contains_iff _ _).mp h2.1
      have h6 := h2.2
      rw [show (Toml.table kv').at? b = some w' from h5, Option.getD_some] at h6
      obtain ⟨kv'', v, rfl, h8⟩ := (contains_iff _ _).mp h6
      exact ⟨kv, kv', kv'', v, rfl, e2, h5, h8⟩
  simp only [List.mem_cons, List.not_mem_nil, or_false, forall_eq_or_imp, forall_eq,
    ← hasKey_iff, hb, hn, ht, checkInputFile]
  generalize hB : input.contains "Boundaries" = cB
  generalize (((input.at? "Boundaries").bind (Toml.at? "names")).bind Toml.asStrs) = nm
  generalize input.contains "Mesh" = a1
  generalize input.contains "Numerics" = a2
  generalize input.contains "Output" = a3
  generalize input.contains "Stepper" = a4
  generalize input.contains "Physics" = a5
  generalize input.contains "Equation" = a6
  generalize ((input.at? "Mesh").getD .other).contains "file" = b1
  generalize ((input.at? "Numerics").getD .other).contains "basis" = b2
  generalize ((input.at? "Numerics").getD .other).contains "order" = b3
  generalize ((input.at? "Output").getD .other).contains "prefix" = b4
  generalize ((input.at? "Stepper").getD .other).contains "start" = b5
  generalize ((input.at? "Stepper").getD .other).contains "end" = b6
  generalize ((input.at? "Stepper").getD .other).contains "timestep" = b7
  generalize ((input.at? "Physics").getD .other).contains "dim" = b8
  generalize ((input.at? "Equation").getD .other).contains "name" = b9
  have key : (if cB = true then
      (match nm with
        | none => false
        | some names => names.all fun b =>
          !(!((input.at? "Boundaries").getD .other).contains b ||
            !((((input.at? "Boundaries").getD .other).at? b).getD .other).contains "type"))
      else true) = true ↔ (cB = true → ∃ names, nm = some names ∧ ∀ b ∈ names,
        cB = true ∧ ((input.at? "Boundaries").getD .other).contains b = true ∧
        ((((input.at? "Boundaries").getD .other).at? b).getD .other).contains "type" = true) := by
    cases cB with
    | false => simp
    | true =>
      cases nm with
      | none => simp
      | some names => simp [List.all_eq_true]
  rw [← key]
  cases a1 <;> cases b1 <;> try simp
  cases a2 <;> cases b2 <;> cases b3 <;> try simp
  cases a3 <;> cases b4 <;> try simp
  cases a4 <;> cases b5 <;> cases b6 <;> cases b7 <;> try simp
  cases a5 <;> cases b8 <;> try simp
  cases a6 <;> cases b9 <;> cases cB <;> cases nm <;> simp

/-- Every key a run cannot do without is checked, except the name and the data of the initial
condition and the name of the physics. -/
theorem C54_covers_except (input : Toml) (h : checkInputFile input = true)
    (p : String × String) (hp : p ∈ runRequiredKeys)
    (h1 : p ≠ ("InitialCondition", "name")) (h2 : p ≠ ("InitialCondition", "data"))
    (h3 : p ≠ ("Physics", "name")) : HasKey input p.1 p.2 := by
  have := ((C54_accepts_iff input).mp h).1
  simp only [runRequiredKeys, List.mem_cons, List.not_mem_nil, or_false] at hp
  rcases hp with rfl | rfl | rfl | rfl | rfl | rfl | rfl | rfl | rfl
  · exact this _ (by simp)
  · exact this _ (by simp)
  · exact this _ (by simp)
  · exact this _ (by simp)
  · exact absurd rfl h1
  · exact absurd rfl h3
  · exact this _ (by simp)
  · exact this _ (by simp)
  · exact absurd rfl h2

/-- The input used below: every key the check looks for, and nothing else. -/
def exInput : Toml := .table
  [("Mesh", .table [("file", .str "m.h5")]),
   ("Numerics", .table [("basis", .str "LagrangeQuad"), ("order", .other)]),
   ("Output", .table [("prefix", .str "sol/x")]),
   ("Stepper", .table [("start", .other), ("end", .other), ("timestep", .other)]),
   ("Physics", .table [("dim", .other)]),
   ("Equation", .table [("name", .str "Euler")]),
   ("Boundaries", .table [("names", .arr [.str "left"]), ("left", .table [("type", .other)])])]

/-- The three exceptions of `C54_covers_except` are real: an accepted input can miss all three
keys, and the run then throws. -/
theorem C54_not_covering : ∃ input, checkInputFile input = true ∧
    ¬ HasKey input "InitialCondition" "name" ∧ ¬ HasKey input "InitialCondition" "data" ∧
    ¬ HasKey input "Physics" "name" := by
  refine ⟨exInput, by decide +kernel, ?_, ?_, ?_⟩ <;>
  · rw [← hasKey_iff]; decide +kernel

/-- Altogether: of the keys a run cannot do without, the ones every accepted input is guaranteed
to contain are exactly those other than these three. -/
theorem C54_guaranteed_iff (p : String × String) (hp : p ∈ runRequiredKeys) :
    (∀ input, checkInputFile input = true → HasKey input p.1 p.2) ↔
      p ∉ [("InitialCondition", "name"), ("InitialCondition", "data"), ("Physics", "name")] := by
  constructor
  · intro h hm
    have hx : checkInputFile exInput = true := by decide +kernel
    have h' := h exInput hx
    rw [← hasKey_iff] at h'
    simp only [List.mem_cons, List.not_mem_nil, or_false] at hm
    rcases hm with rfl | rfl | rfl <;> revert h' <;> decide +kernel
  · intro hm input hi
    refine C54_covers_except input hi p hp ?_ ?_ ?_ <;>
    · rintro rfl; exact hm (by simp)

/-- A boundary without an entry is refused. -/
example : checkInputFile (.table
  [("Mesh", .table [("file", .str "m.h5")]),
   ("Numerics", .table [("basis", .str "LagrangeQuad"), ("order", .other)]),
   ("Output", .table [("prefix", .str "sol/x")]),
   ("Stepper", .table [("start", .other), ("end", .other), ("timestep", .other)]),
   ("Physics", .table [("dim", .other)]),
   ("Equation", .table [("name", .str "Euler")]),
   ("Boundaries", .table [("names", .arr [.str "left"])])]) = false := by decide +kernel

end DG
