import Verif.Model.Basis
import Verif.Lemmas.Loops
import Mathlib.LinearAlgebra.Lagrange
import Mathlib.Algebra.Polynomial.Derivative
import Mathlib.Tactic.Ring
import Mathlib.Tactic.FieldSimp
import Mathlib.Tactic.LinearCombination

/-! Closed forms of the basis routines. -/
namespace DG

open Polynomial Finset

variable {K : Type} [Field K]

theorem get0_set_self (a : List K) (i : ℕ) (v : K) (h : i < a.length) :
    get0 (a.set i v) i = v := by simp [get0, h]

theorem get0_map_range {n : ℕ} (f : ℕ → K) {i : ℕ} (h : i < n) :
    get0 ((List.range n).map f) i = f i := by simp [get0, h]

theorem get0_eq_of_lt (a : List K) (i : ℕ) (h : i < a.length) : a[i]? = some (get0 a i) := by
  simp [get0, h]

/-- the accumulating loops on one array entry -/
theorem accLoop (F : K → ℕ → K) (i : ℕ) : ∀ (l : List ℕ) (g : List K), i < g.length →
    l.foldlM (fun g j => if i = j then some g else setB g i (F (get0 g i) j)) g
      = some (g.set i (l.foldl (fun v j => if i = j then v else F v j) (get0 g i))) := by
  intro l
  induction l with
  | nil => intro g hi; simp [get0, hi]
  | cons j l ih =>
    intro g hi
    rw [List.foldlM_cons]
    by_cases hj : i = j
    · simp only [hj, if_true, List.foldl_cons, Option.bind_eq_bind, Option.bind_some]
      rw [← hj]; exact ih g hi
    · simp only [hj, if_false, List.foldl_cons]
      rw [setB_of_lt hi]
      simp only [Option.bind_eq_bind, Option.bind_some]
      rw [ih _ (by simpa using hi), get0_set_self _ _ _ hi, List.set_set]

theorem foldl_mul_skip (i : ℕ) (t : ℕ → K) (a : K) : ∀ n : ℕ,
    (List.range n).foldl (fun v j => if i = j then v else v * t j) a
      = a * ∏ j ∈ range n, (if i = j then 1 else t j) := by
  intro n
  induction n with
  | zero => simp
  | succ n ih =>
    rw [List.range_succ, List.foldl_append, ih, Finset.prod_range_succ]
    by_cases h : i = n
    · simp [h]
    · simp [h, mul_assoc]

theorem foldl_add_skip (i : ℕ) (t : ℕ → K) (a : K) : ∀ n : ℕ,
    (List.range n).foldl (fun v j => if i = j then v else v + t j) a
      = a + ∑ j ∈ range n, (if i = j then 0 else t j) := by
  intro n
  induction n with
  | zero => simp
  | succ n ih =>
    rw [List.range_succ, List.foldl_append, ih, Finset.sum_range_succ]
    by_cases h : i = n
    · simp [h]
    · simp [h, add_assoc]

/-- an outer loop that fills entry `i` in pass `i` -/
theorem fillOuter {α : Type _} (body : List α → ℕ → Option (List α)) (g : ℕ → α) (n : ℕ)
    (a : List α) (ha : a.length = n)
    (hb : ∀ i < n, body (fillTo g i a) i = some ((fillTo g i a).set i (g i))) :
    (List.range n).foldlM body a = some ((List.range n).map g) := by
  have := foldlM_range_state body (fun i => fillTo g i a) n (by
    intro i hi
    rw [hb i hi]
    have h1 := setB_fillTo g i a (by omega)
    have hl : i < (fillTo g i a).length := by simp [fillTo]; omega
    rw [setB_of_lt hl] at h1
    exact h1)
  rw [fillTo_zero, fillTo_full g n a ha] at this
  exact this

theorem fillTo_length {α : Type _} (g : ℕ → α) (i : ℕ) (a : List α) (h : i ≤ a.length) :
    (fillTo g i a).length = a.length := by simp [fillTo]; omega

theorem eval_basisDivisor (x a b : K) : (Lagrange.basisDivisor a b).eval x = (x - b) / (a - b) := by
  simp [Lagrange.basisDivisor, div_eq_inv_mul]

theorem derivative_basisDivisor (a b : K) :
    derivative (Lagrange.basisDivisor a b) = C (a - b)⁻¹ := by
  simp [Lagrange.basisDivisor]

/-- the Lagrange polynomials of the nodes `xn` -/
noncomputable def lagPoly (xn : List K) (i : ℕ) : K[X] :=
  Lagrange.basis (range xn.length) (get0 xn) i

theorem lagPoly_eval (xn : List K) (x : K) (i : ℕ) :
    ∏ j ∈ range xn.length, (if i = j then 1 else (x - get0 xn j) / (get0 xn i - get0 xn j))
      = (lagPoly xn i).eval x := by
  unfold lagPoly Lagrange.basis
  rw [eval_prod]
  rw [← Finset.prod_erase (range xn.length) (a := i) (by simp)]
  refine Finset.prod_congr rfl fun j hj => ?_
  have : i ≠ j := (Finset.ne_of_mem_erase hj).symm
  rw [if_neg this, eval_basisDivisor]

theorem lagrangeVal1D_eq (x : K) (xn phi : List K) (h : phi.length = xn.length) :
    lagrangeVal1D x xn phi
      = some ((List.range xn.length).map fun i : ℕ => (lagPoly xn i).eval x) := by
  unfold lagrangeVal1D
  refine fillOuter _ _ _ phi h fun i hi => ?_
  have hl : i < (fillTo (fun i => (lagPoly xn i).eval x) i phi).length := by
    rw [fillTo_length _ _ _ (by omega)]; omega
  rw [setB_of_lt hl, Option.bind_some]
  rw [accLoop (fun v j => v * ((x - get0 xn j) / (get0 xn i - get0 xn j))) i _ _ (by simpa using hl)]
  rw [get0_set_self _ _ _ hl, List.set_set, foldl_mul_skip, one_mul, lagPoly_eval]

theorem lagrangeGradProd_eq (x : K) (xn : List K) (i j : ℕ) (hj : j < xn.length) (hij : i ≠ j) :
    lagrangeGradProd x xn i j
      = (∏ k ∈ ((range xn.length).erase i).erase j,
          (Lagrange.basisDivisor (get0 xn i) (get0 xn k)).eval x) * (get0 xn i - get0 xn j)⁻¹ := by
  unfold lagrangeGradProd
  have h1 : ∀ (prod : K) (k : ℕ), (if i = k then prod
      else if j = k then prod * (1 / (get0 xn i - get0 xn k))
      else prod * ((x - get0 xn k) / (get0 xn i - get0 xn k)))
      = if i = k then prod else prod * (if j = k then 1 / (get0 xn i - get0 xn k)
          else (x - get0 xn k) / (get0 xn i - get0 xn k)) := by
    intro prod k; split_ifs <;> rfl
  simp only [h1]
  rw [foldl_mul_skip, one_mul, ← Finset.prod_erase (range xn.length) (a := i) (by simp)]
  have hmem : j ∈ (range xn.length).erase i := by simp [hj, Ne.symm hij]
  rw [← Finset.prod_erase_mul _ _ hmem]
  congr 1
  · refine Finset.prod_congr rfl fun k hk => ?_
    rw [Finset.mem_erase, Finset.mem_erase] at hk
    rw [if_neg (Ne.symm hk.2.1), if_neg (Ne.symm hk.1), eval_basisDivisor]
  · simp [hij]

theorem lagPoly_derivative_eval (x : K) (xn : List K) (i : ℕ) :
    (derivative (lagPoly xn i)).eval x
      = ∑ j ∈ range xn.length, (if i = j then 0 else lagrangeGradProd x xn i j) := by
  unfold lagPoly Lagrange.basis
  rw [derivative_prod_finset, eval_finsetSum]
  rw [← Finset.sum_erase (range xn.length) (a := i) (by simp)]
  refine Finset.sum_congr rfl fun j hj => ?_
  rw [Finset.mem_erase, Finset.mem_range] at hj
  rw [if_neg (Ne.symm hj.1), lagrangeGradProd_eq x xn i j hj.2 (Ne.symm hj.1),
    derivative_basisDivisor, eval_mul, eval_prod, eval_C]

theorem lagrangeGrad1D_eq (x : K) (xn g : List K) (h : g.length = xn.length) :
    lagrangeGrad1D x xn g
      = some ((List.range xn.length).map fun i : ℕ => (derivative (lagPoly xn i)).eval x) := by
  unfold lagrangeGrad1D
  refine fillOuter _ _ _ g h fun i hi => ?_
  have hl : i < (fillTo (fun i => (derivative (lagPoly xn i)).eval x) i g).length := by
    rw [fillTo_length _ _ _ (by omega)]; omega
  rw [setB_of_lt hl, Option.bind_some]
  rw [accLoop (fun v j => v + lagrangeGradProd x xn i j) i _ _ (by simpa using hl)]
  rw [get0_set_self _ _ _ hl, List.set_set, foldl_add_skip, zero_add, lagPoly_derivative_eval]

/-! ### Nested filling loops -/

theorem fill2 {α : Type _} (n : ℕ) (v : ℕ → ℕ → α) (f : ℕ → α) (a : List α)
    (ha : a.length = n * n) (hf : ∀ j < n, ∀ i < n, f (j * n + i) = v j i) :
    (List.range n).foldlM (fun a j =>
      (List.range n).foldlM (fun a i => setB a (j * n + i) (v j i)) a) a
      = some ((List.range (n * n)).map f) := by
  have := foldlM_range_state
    (fun a j => (List.range n).foldlM (fun a i => setB a (j * n + i) (v j i)) a)
    (fun j => fillTo f (j * n) a) n (by
      intro j hj
      have := foldlM_range_state (fun a i => setB a (j * n + i) (v j i))
        (fun i => fillTo f (j * n + i) a) n (by
          intro i hi
          have hlt : j * n + i < a.length := by
            rw [ha]
            calc j * n + i < j * n + n := by omega
              _ = (j + 1) * n := by ring
              _ ≤ n * n := Nat.mul_le_mul_right _ (by omega)
          rw [← hf j hj i hi]
          exact setB_fillTo f _ a hlt)
      rw [Nat.succ_mul]
      exact this)
  simp only [Nat.zero_mul, fillTo_zero] at this
  rw [this, fillTo_full f _ a ha]

theorem fill3 {α : Type _} (n : ℕ) (v : ℕ → ℕ → ℕ → α) (f : ℕ → α) (a : List α)
    (ha : a.length = n * n * n)
    (hf : ∀ k < n, ∀ j < n, ∀ i < n, f (k * n * n + j * n + i) = v k j i) :
    (List.range n).foldlM (fun a k =>
      (List.range n).foldlM (fun a j =>
        (List.range n).foldlM (fun a i => setB a (k * n * n + j * n + i) (v k j i)) a) a) a
      = some ((List.range (n * n * n)).map f) := by
  have := foldlM_range_state
    (fun a k => (List.range n).foldlM (fun a j =>
        (List.range n).foldlM (fun a i => setB a (k * n * n + j * n + i) (v k j i)) a) a)
    (fun k => fillTo f (k * n * n) a) n (by
      intro k hk
      have := foldlM_range_state
        (fun a j => (List.range n).foldlM (fun a i => setB a (k * n * n + j * n + i) (v k j i)) a)
        (fun j => fillTo f (k * n * n + j * n) a) n (by
          intro j hj
          have := foldlM_range_state (fun a i => setB a (k * n * n + j * n + i) (v k j i))
            (fun i => fillTo f (k * n * n + j * n + i) a) n (by
              intro i hi
              have hlt : k * n * n + j * n + i < a.length := by
                rw [ha]
                calc k * n * n + j * n + i < k * n * n + j * n + n := by omega
                  _ = k * n * n + (j + 1) * n := by ring
                  _ ≤ k * n * n + n * n := by
                      have := Nat.mul_le_mul_right n (by omega : j + 1 ≤ n); omega
                  _ = (k + 1) * (n * n) := by ring
                  _ ≤ n * (n * n) := Nat.mul_le_mul_right _ (by omega)
                  _ = n * n * n := by ring
              rw [← hf k hk j hj i hi]
              exact setB_fillTo f _ a hlt)
          have e : k * n * n + (j + 1) * n = k * n * n + j * n + n := by ring
          rw [e]
          exact this)
      have e : (k + 1) * n * n = k * n * n + n * n := by ring
      simp only [Nat.zero_mul, Nat.add_zero] at this
      rw [e]
      exact this)
  simp only [Nat.zero_mul, fillTo_zero] at this
  rw [this, fillTo_full f _ a ha]

theorem idx2_div {n j i : ℕ} (hi : i < n) : (j * n + i) / n = j := by
  rw [Nat.add_comm, Nat.add_mul_div_right _ _ (by omega), Nat.div_eq_of_lt hi]; simp
theorem idx2_mod {n j i : ℕ} (hi : i < n) : (j * n + i) % n = i := by
  rw [Nat.add_comm, Nat.add_mul_mod_self_right, Nat.mod_eq_of_lt hi]

theorem idx3 {n k j i : ℕ} (hj : j < n) (hi : i < n) :
    (k * n * n + j * n + i) / (n * n) = k ∧ (k * n * n + j * n + i) / n % n = j ∧
      (k * n * n + j * n + i) % n = i := by
  have e : k * n * n + j * n + i = (k * n + j) * n + i := by ring
  have h1 : (k * n * n + j * n + i) / n = k * n + j := by rw [e, idx2_div hi]
  refine ⟨?_, ?_, ?_⟩
  · rw [← Nat.div_div_eq_div_mul, h1, idx2_div hj]
  · rw [h1, idx2_mod hj]
  · rw [e, idx2_mod hi]

theorem tensorVal2D_eq (p : ℕ) (vx vy row : List K) (h : row.length = (p + 1) * (p + 1)) :
    tensorVal2D p vx vy row = some ((List.range ((p + 1) * (p + 1))).map fun m : ℕ =>
      get0 vx (m % (p + 1)) * get0 vy (m / (p + 1))) :=
  fill2 (p + 1) (fun j i => get0 vx i * get0 vy j) _ row h
    (fun j _ i hi => by simp only [idx2_div hi, idx2_mod hi])

theorem tensorGrad2D_eq (p : ℕ) (vx vy gx gy : List K) (row : List (K × K))
    (h : row.length = (p + 1) * (p + 1)) :
    tensorGrad2D p vx vy gx gy row = some ((List.range ((p + 1) * (p + 1))).map fun m : ℕ =>
      (get0 gx (m % (p + 1)) * get0 vy (m / (p + 1)),
       get0 vx (m % (p + 1)) * get0 gy (m / (p + 1)))) :=
  fill2 (p + 1) (fun j i => (get0 gx i * get0 vy j, get0 vx i * get0 gy j)) _ row h
    (fun j _ i hi => by simp only [idx2_div hi, idx2_mod hi])

theorem tensorVal3D_eq (p : ℕ) (vx vy vz row : List K)
    (h : row.length = (p + 1) * (p + 1) * (p + 1)) :
    tensorVal3D p vx vy vz row = some ((List.range ((p + 1) * (p + 1) * (p + 1))).map fun m : ℕ =>
      get0 vx (m % (p + 1)) * get0 vy (m / (p + 1) % (p + 1))
        * get0 vz (m / ((p + 1) * (p + 1)))) :=
  fill3 (p + 1) (fun k j i => get0 vx i * get0 vy j * get0 vz k) _ row h
    (fun k _ j hj i hi => by
      obtain ⟨h1, h2, h3⟩ := idx3 (n := p + 1) (k := k) hj hi
      simp only [h1, h2, h3])

theorem tensorGrad3D_eq (p : ℕ) (vx vy vz gx gy gz : List K) (row : List (K × K × K))
    (h : row.length = (p + 1) * (p + 1) * (p + 1)) :
    tensorGrad3D p vx vy vz gx gy gz row =
      some ((List.range ((p + 1) * (p + 1) * (p + 1))).map fun m : ℕ =>
      (get0 gx (m % (p + 1)) * get0 vy (m / (p + 1) % (p + 1)) * get0 vz (m / ((p + 1) * (p + 1))),
       get0 vx (m % (p + 1)) * get0 gy (m / (p + 1) % (p + 1)) * get0 vz (m / ((p + 1) * (p + 1))),
       get0 vx (m % (p + 1)) * get0 vy (m / (p + 1) % (p + 1))
        * get0 gz (m / ((p + 1) * (p + 1))))) :=
  fill3 (p + 1) (fun k j i => (get0 gx i * get0 vy j * get0 vz k,
           get0 vx i * get0 gy j * get0 vz k,
           get0 vx i * get0 vy j * get0 gz k)) _ row h
    (fun k _ j hj i hi => by
      obtain ⟨h1, h2, h3⟩ := idx3 (n := p + 1) (k := k) hj hi
      simp only [h1, h2, h3])

/-! ### Equidistant nodes -/

theorem equidistant1D_eq (a b : K) (n : ℕ) (hn : 2 ≤ n) (view : List K) :
    equidistant1D a b n view =
      some ((List.range n).map fun i : ℕ => a + (i : K) * ((b - a) / ((n : K) - 1))) := by
  unfold equidistant1D
  rw [if_neg (by omega)]
  simp only []
  refine foldlM_fill _ n _ ?_
  split
  · simp
  · rename_i h; simpa using h

theorem equidistantSegment_eq (p : ℕ) (hp : 0 < p) (view : List K) (hv : view.length = p + 1) :
    equidistantSegment p view =
      some ((List.range (p + 1)).map fun i : ℕ => -1 + (i : K) * (2 / (p : K))) := by
  unfold equidistantSegment
  rw [if_neg (by omega)]
  simp only []
  have := foldlM_range_state
    (fun (st : K × List K) i => (setB st.2 i st.1).map fun v => (st.1 + 2 / (p : K), v))
    (fun i => (-1 + (i : K) * (2 / (p : K)),
      fillTo (fun i : ℕ => -1 + (i : K) * (2 / (p : K))) i view)) (p + 1) (by
      intro i hi
      have := setB_fillTo (fun i : ℕ => -1 + (i : K) * (2 / (p : K))) i view (by omega)
      beta_reduce at this
      simp only []
      rw [this]
      simp only [Option.map_some, Option.some.injEq, Prod.mk.injEq, and_true]
      push_cast; ring)
  simp only [Nat.cast_zero, zero_mul, add_zero, fillTo_zero] at this
  rw [this, Option.map_some, fillTo_full _ _ view hv]

end DG
