import Verif.Props.Basis
import Verif.Props.Legendre
import Verif.Lemmas.Mass
import Verif.Model.Enums

/-!
The bases of the library as tensor products of one family of polynomials (Lagrange or Legendre).
-/
namespace DG
open Polynomial Finset

/-! ### Legendre values and gradients in closed form -/

section Leg
variable {K : Type} [Field K] [CharZero K]

theorem legendreVal1D_eq (p : ℕ) (hp : p ≤ 7) (x : K) (view : List K) (hv : view.length = p + 1) :
    legendreVal1D x p view = some ((List.range (p + 1)).map fun i : ℕ => (legPoly i).eval x) := by
  obtain ⟨phi, h1, h2, h3⟩ := C21_values p hp x view hv
  rw [h1]
  congr 1
  refine List.ext_getElem? fun i => ?_
  by_cases hi : i < p + 1
  · rw [h3 i (by omega)]; simp [hi]
  · rw [List.getElem?_eq_none (by omega), List.getElem?_eq_none (by simp; omega)]

theorem legendreGrad1D_eq (p : ℕ) (hp : p ≤ 7) (x : K) (view : List K) (hv : view.length = p + 1) :
    legendreGrad1D x p view =
      some ((List.range (p + 1)).map fun i : ℕ => (derivative (legPoly i)).eval x) := by
  obtain ⟨phi, h1, h2, h3⟩ := C21_gradients p hp x view hv
  rw [h1]
  congr 1
  refine List.ext_getElem? fun i => ?_
  by_cases hi : i < p + 1
  · rw [h3 i (by omega)]; simp [hi]
  · rw [List.getElem?_eq_none (by omega), List.getElem?_eq_none (by simp; omega)]

theorem replicate_one_eq {α : Type} (a : α) : List.replicate 1 a = [a] := rfl

theorem legPoly_zero_eval (x : K) : (legPoly (K := K) 0).eval x = 1 := by simp [legPoly]

theorem valuesLegendreQuad_eq (p : ℕ) (hp : p ≤ 7) (x y : K) (row : List K)
    (hr : row.length = (p + 1) * (p + 1)) :
    valuesLegendreQuad p x y row = some ((List.range ((p + 1) * (p + 1))).map fun m : ℕ =>
      (legPoly (m % (p + 1))).eval x * (legPoly (m / (p + 1))).eval y) := by
  by_cases h0 : p = 0
  · subst h0
    simp [valuesLegendreQuad, hr, legPoly]
  · unfold valuesLegendreQuad legendreVal2D
    rw [if_neg h0]
    simp only [legendreVal1D_eq p hp _ (List.replicate (p + 1) (0 : K)) (by simp), Option.bind_eq_bind,
      Option.bind_some]
    rw [tensorVal2D_eq p _ _ _ hr]
    congr 1
    refine List.map_congr_left fun m hm => ?_
    have hm' := List.mem_range.1 hm
    rw [get0_map_range _ (Nat.mod_lt _ (by omega)),
      get0_map_range _ ((Nat.div_lt_iff_lt_mul (by omega)).2 hm')]

theorem gradsLegendreQuad_eq (p : ℕ) (hp : p ≤ 7) (x y : K) (row : List (K × K))
    (hr : row.length = (p + 1) * (p + 1)) (h0 : p = 0 → row = [(0, 0)]) :
    gradsLegendreQuad p x y row = some ((List.range ((p + 1) * (p + 1))).map fun m : ℕ =>
      ((derivative (legPoly (m % (p + 1)))).eval x * (legPoly (m / (p + 1))).eval y,
       (legPoly (m % (p + 1))).eval x * (derivative (legPoly (m / (p + 1)))).eval y)) := by
  by_cases hp0 : p = 0
  · subst hp0
    simp [gradsLegendreQuad, h0 rfl, legPoly]
  · unfold gradsLegendreQuad legendreGrad2D
    rw [if_pos (by omega)]
    simp only [legendreVal1D_eq p hp _ (List.replicate (p + 1) (0 : K)) (by simp),
      legendreGrad1D_eq p hp _ (List.replicate (p + 1) (0 : K)) (by simp), Option.bind_eq_bind,
      Option.bind_some]
    rw [tensorGrad2D_eq p _ _ _ _ _ hr]
    congr 1
    refine List.map_congr_left fun m hm => ?_
    have hm' := List.mem_range.1 hm
    have h1 : m % (p + 1) < p + 1 := Nat.mod_lt _ (by omega)
    have h2 : m / (p + 1) < p + 1 := (Nat.div_lt_iff_lt_mul (by omega)).2 hm'
    simp only [get0_map_range _ h1, get0_map_range _ h2]

theorem valuesLegendreHex_eq (p : ℕ) (hp : p ≤ 7) (x y z : K) (row : List K)
    (hr : row.length = (p + 1) * (p + 1) * (p + 1)) :
    valuesLegendreHex p x y z row = some ((List.range ((p + 1) * (p + 1) * (p + 1))).map fun m : ℕ =>
      (legPoly (m % (p + 1))).eval x * (legPoly (m / (p + 1) % (p + 1))).eval y
        * (legPoly (m / ((p + 1) * (p + 1)))).eval z) := by
  by_cases h0 : p = 0
  · subst h0
    simp [valuesLegendreHex, hr, legPoly]
  · unfold valuesLegendreHex legendreVal3D
    rw [if_neg h0]
    simp only [legendreVal1D_eq p hp _ (List.replicate (p + 1) (0 : K)) (by simp), Option.bind_eq_bind,
      Option.bind_some]
    rw [tensorVal3D_eq p _ _ _ _ hr]
    congr 1
    refine List.map_congr_left fun m hm => ?_
    obtain ⟨h1, h2, h3⟩ := idx3_lt (List.mem_range.1 hm)
    rw [get0_map_range _ h1, get0_map_range _ h2, get0_map_range _ h3]

theorem gradsLegendreHex_eq (p : ℕ) (hp : p ≤ 7) (x y z : K) (row : List (K × K × K))
    (hr : row.length = (p + 1) * (p + 1) * (p + 1)) (h0 : p = 0 → row = [(0, 0, 0)]) :
    gradsLegendreHex p x y z row = some ((List.range ((p + 1) * (p + 1) * (p + 1))).map fun m : ℕ =>
      ((derivative (legPoly (m % (p + 1)))).eval x
          * (legPoly (m / (p + 1) % (p + 1))).eval y
          * (legPoly (m / ((p + 1) * (p + 1)))).eval z,
       (legPoly (m % (p + 1))).eval x
          * (derivative (legPoly (m / (p + 1) % (p + 1)))).eval y
          * (legPoly (m / ((p + 1) * (p + 1)))).eval z,
       (legPoly (m % (p + 1))).eval x
          * (legPoly (m / (p + 1) % (p + 1))).eval y
          * (derivative (legPoly (m / ((p + 1) * (p + 1))))).eval z)) := by
  by_cases hp0 : p = 0
  · subst hp0
    simp [gradsLegendreHex, h0 rfl, legPoly]
  · unfold gradsLegendreHex legendreGrad3D
    rw [if_pos (by omega)]
    simp only [legendreVal1D_eq p hp _ (List.replicate (p + 1) (0 : K)) (by simp),
      legendreGrad1D_eq p hp _ (List.replicate (p + 1) (0 : K)) (by simp), Option.bind_eq_bind,
      Option.bind_some]
    rw [tensorGrad3D_eq p _ _ _ _ _ _ _ hr]
    congr 1
    refine List.map_congr_left fun m hm => ?_
    obtain ⟨h1, h2, h3⟩ := idx3_lt (List.mem_range.1 hm)
    simp only [get0_map_range _ h1, get0_map_range _ h2, get0_map_range _ h3]

end Leg

/-! ### one family for both bases -/

/-- the two kinds of basis -/
inductive Fam | lagrange | legendre deriving DecidableEq

/-- one-dimensional polynomials of the basis of order `p` -/
noncomputable def famPoly (t : Fam) (p i : ℕ) : ℝ[X] :=
  match t with
  | .lagrange => lagPoly (nodesP p) i
  | .legendre => legPoly i

/-- orders for which all entries of the tables are set: Legendre is coded up to order 7 -/
def famOK (t : Fam) (p : ℕ) : Prop :=
  match t with
  | .lagrange => True
  | .legendre => p ≤ 7

/-- coefficients of the constant 1 in one direction -/
def famOne (t : Fam) (i : ℕ) : ℝ :=
  match t with
  | .lagrange => 1
  | .legendre => if i = 0 then 1 else 0

theorem lagPoly_zero_order : lagPoly (nodesP (K := ℝ) 0) 0 = 1 := by
  simp [lagPoly, nodesP]

theorem famOne_sum (t : Fam) (p : ℕ) :
    ∑ i ∈ range (p + 1), C (famOne t i) * famPoly t p i = 1 := by
  cases t with
  | lagrange =>
    by_cases hp : p = 0
    · subst hp; simp [famOne, famPoly, lagPoly_zero_order]
    · have := lagPoly_sum (nodesP_nodup (K := ℝ) p (by omega)) (nodesP_ne_nil p)
      rw [nodesP_length] at this
      simpa [famOne, famPoly] using this
  | legendre =>
    rw [Finset.sum_eq_single 0]
    · simp [famOne, famPoly, legPoly]
    · intro b _ hb; simp [famOne, hb]
    · simp

theorem famOne_eval (t : Fam) (p : ℕ) (x : ℝ) :
    ∑ i ∈ range (p + 1), famOne t i * (famPoly t p i).eval x = 1 := by
  have := congrArg (eval x) (famOne_sum t p)
  simpa [eval_finsetSum] using this

theorem famOne_deriv (t : Fam) (p : ℕ) (x : ℝ) :
    ∑ i ∈ range (p + 1), famOne t i * (derivative (famPoly t p i)).eval x = 0 := by
  have := congrArg (fun q => (derivative q).eval x) (famOne_sum t p)
  simpa [eval_finsetSum, derivative_sum] using this

/-! degrees -/

theorem legPoly_degree (n : ℕ) : (legPoly (K := ℝ) n).natDegree ≤ n ∧ (legPoly (K := ℝ) (n + 1)).natDegree ≤ n + 1 := by
  induction n with
  | zero => simp [legPoly]
  | succ n ih =>
    refine ⟨ih.2, ?_⟩
    rw [legPoly]
    refine (natDegree_C_mul_le _ _).trans ?_
    refine (natDegree_sub_le _ _).trans (max_le ?_ ?_)
    · rw [mul_assoc]
      refine (natDegree_C_mul_le _ _).trans ?_
      refine natDegree_mul_le.trans ?_
      have := ih.2
      simp only [natDegree_X]; omega
    · refine (natDegree_C_mul_le _ _).trans ?_
      have := ih.1; omega

theorem famPoly_degree (t : Fam) (p i : ℕ) (hi : i ≤ p) : (famPoly t p i).natDegree ≤ p := by
  cases t with
  | legendre => exact (legPoly_degree i).1.trans hi
  | lagrange =>
    by_cases hp : p = 0
    · subst hp
      obtain rfl : i = 0 := by omega
      simp [famPoly, lagPoly_zero_order]
    · unfold famPoly
      simp only [lagPoly]
      have h1 := injOn_of_nodup (nodesP_nodup (K := ℝ) p (by omega))
      have h2 := Lagrange.degree_basis (s := range (nodesP (K := ℝ) p).length) (v := get0 (nodesP (K := ℝ) p)) (i := i)
        h1 (by rw [nodesP_length]; simp; omega)
      rw [natDegree_le_iff_degree_le, h2, nodesP_length]
      simp


/-! independence on points -/

theorem integ_finset {ι : Type} (s : Finset ι) (f : ι → ℝ[X]) :
    integ (∑ i ∈ s, f i) = ∑ i ∈ s, integ (f i) := by
  classical
  induction s using Finset.induction_on with
  | empty => simp [integ]
  | insert a s ha ih => rw [Finset.sum_insert ha, Finset.sum_insert ha, integ_add, ih]

theorem legPoly_indep (n : ℕ) (c : ℕ → ℝ) (h : ∑ i ∈ range n, C (c i) * legPoly (K := ℝ) i = 0) :
    ∀ i < n, c i = 0 := by
  intro j hj
  have h1 : integ ((∑ i ∈ range n, C (c i) * legPoly (K := ℝ) i) * legPoly j) = 0 := by
    rw [h, zero_mul]; simp [integ]
  rw [Finset.sum_mul, integ_finset, Finset.sum_eq_single j] at h1
  · rw [mul_assoc, integ_C_mul] at h1
    have h2 : integ (legPoly (K := ℝ) j * legPoly j) = 2 / (2 * (j : ℝ) + 1) := (legIP_self j).1
    rw [h2] at h1
    have h3 : (2 : ℝ) / (2 * (j : ℝ) + 1) ≠ 0 := by positivity
    exact (mul_eq_zero.1 h1).resolve_right h3
  · intro b _ hb
    rw [mul_assoc, integ_C_mul]
    have : integ (legPoly (K := ℝ) b * legPoly j) = 0 := by
      change legIP b j = 0
      rcases Nat.lt_trichotomy b j with h | h | h
      · exact (legIP_lt b).1 j h
      · exact absurd h hb
      · rw [legIP_comm]; exact (legIP_lt j).1 b h
    rw [this, mul_zero]
  · intro h; simp at h; omega

theorem famPoly_indep (t : Fam) (p n : ℕ) (hn : p + 1 ≤ n) (x : ℕ → ℝ)
    (hx : ∀ i < n, ∀ j < n, x i = x j → i = j) :
    IndepOn n (p + 1) (fun q i => (famPoly t p i).eval (x q)) := by
  cases t with
  | lagrange =>
    by_cases hp : p = 0
    · subst hp
      refine indep_const n (by omega) _ fun q _ => ?_
      simp [famPoly, lagPoly_zero_order]
    · have h := indep_lagrange (nodesP (K := ℝ) p) (nodesP_nodup p (by omega)) n
        (by rw [nodesP_length]; exact hn) x hx
      rw [nodesP_length] at h
      exact h
  | legendre =>
    intro c hc
    set P : ℝ[X] := ∑ i ∈ range (p + 1), C (c i) * legPoly i with hP
    have hev : ∀ t, P.eval t = ∑ i ∈ range (p + 1), c i * (legPoly i).eval t := by
      intro t; rw [hP, eval_finsetSum]; exact Finset.sum_congr rfl fun i _ => by rw [eval_mul, eval_C]
    have hdeg : P.degree < n := by
      refine lt_of_le_of_lt (b := (p : WithBot ℕ)) ?_ (by exact_mod_cast (by omega : p < n))
      rw [← natDegree_le_iff_degree_le, hP]
      refine natDegree_sum_le_of_forall_le _ _ fun i hi => ?_
      refine (natDegree_C_mul_le _ _).trans ((legPoly_degree i).1.trans ?_)
      have := Finset.mem_range.1 hi; omega
    have hP0 : P = 0 := by
      have hinj : Set.InjOn x (range n : Finset ℕ) := by
        intro a ha b hb hab
        exact hx a (by simpa using ha) b (by simpa using hb) hab
      refine Polynomial.eq_zero_of_degree_lt_of_eval_index_eq_zero (range n) hinj ?_ ?_
      · rw [Finset.card_range]; exact hdeg
      · intro q hq
        rw [hev]; exact hc q (Finset.mem_range.1 hq)
    exact legPoly_indep (p + 1) c hP0

/-! ### the tables of the library in terms of the family -/

/-- basis type of the quadrilateral -/
def quadType : Fam → BasisType
  | .lagrange => .LagrangeQuad
  | .legendre => .LegendreQuad

/-- basis type of the hexahedron -/
def hexType : Fam → BasisType
  | .lagrange => .LagrangeHex
  | .legendre => .LegendreHex

theorem values_quad (t : Fam) (p : ℕ) (hp : famOK t p) (x y z : ℝ) (row : List ℝ)
    (hr : row.length = (p + 1) * (p + 1)) :
    basisValues (quadType t) p x y z row = some ((List.range ((p + 1) * (p + 1))).map fun m : ℕ =>
      (famPoly t p (m % (p + 1))).eval x * (famPoly t p (m / (p + 1))).eval y) := by
  cases t with
  | lagrange =>
    by_cases h0 : p = 0
    · subst h0
      simp [basisValues, quadType, valuesLagrangeQuad, hr, famPoly, lagPoly_zero_order]
    · exact valuesLagrangeQuad_eq p (by omega) x y row hr
  | legendre => exact valuesLegendreQuad_eq p hp x y row hr

theorem values_hex (t : Fam) (p : ℕ) (hp : famOK t p) (x y z : ℝ) (row : List ℝ)
    (hr : row.length = (p + 1) * (p + 1) * (p + 1)) :
    basisValues (hexType t) p x y z row = some ((List.range ((p + 1) * (p + 1) * (p + 1))).map fun m : ℕ =>
      (famPoly t p (m % (p + 1))).eval x * (famPoly t p (m / (p + 1) % (p + 1))).eval y
        * (famPoly t p (m / ((p + 1) * (p + 1)))).eval z) := by
  cases t with
  | lagrange =>
    by_cases h0 : p = 0
    · subst h0
      simp [basisValues, hexType, valuesLagrangeHex, hr, famPoly, lagPoly_zero_order]
    · exact valuesLagrangeHex_eq p (by omega) x y z row hr
  | legendre => exact valuesLegendreHex_eq p hp x y z row hr

end DG
