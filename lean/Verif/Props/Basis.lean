import Verif.Lemmas.Basis
import Mathlib.Analysis.Calculus.Deriv.Polynomial
import Mathlib.Algebra.Order.Field.Basic
import Mathlib.Tactic.Linarith
import Mathlib.Tactic.NormNum
import Mathlib.Algebra.BigOperators.Fin

/-! C18, C19, C20, C22: Lagrange bases, their gradients, equidistant nodes, tensor products. -/
namespace DG

open Polynomial Finset

section General
variable {K : Type} [Field K]

theorem sum_map_range (n : ℕ) (f : ℕ → K) : ((List.range n).map f).sum = ∑ i ∈ range n, f i := by
  induction n with
  | zero => simp
  | succ n ih => simp [List.range_succ, Finset.sum_range_succ, ih]

theorem injOn_of_nodup {xn : List K} (hd : xn.Nodup) :
    Set.InjOn (get0 xn) (range xn.length : Finset ℕ) := by
  intro i hi j hj h
  simp only [coe_range, Set.mem_Iio] at hi hj
  simp only [get0, List.getElem?_eq_getElem hi, List.getElem?_eq_getElem hj, Option.getD_some] at h
  exact (List.Nodup.getElem_inj_iff hd).1 h

theorem lagPoly_nodal {xn : List K} (hd : xn.Nodup) {i j : ℕ} (hi : i < xn.length)
    (hj : j < xn.length) : (lagPoly xn i).eval (get0 xn j) = if i = j then 1 else 0 := by
  unfold lagPoly
  by_cases h : i = j
  · subst h
    rw [if_pos rfl, Lagrange.eval_basis_self (injOn_of_nodup hd) (by simpa using hi)]
  · rw [if_neg h, Lagrange.eval_basis_of_ne h (by simpa using hj)]

theorem lagPoly_sum {xn : List K} (hd : xn.Nodup) (hne : xn ≠ []) :
    ∑ i ∈ range xn.length, lagPoly xn i = 1 := by
  unfold lagPoly
  refine Lagrange.sum_basis (injOn_of_nodup hd) ?_
  rw [Finset.nonempty_range_iff]
  simpa using hne

theorem lagPoly_reproduce {xn : List K} (hd : xn.Nodup) (q : K[X]) (hq : q.degree < xn.length) :
    ∑ i ∈ range xn.length, C (q.eval (get0 xn i)) * lagPoly xn i = q := by
  have := Lagrange.eq_interpolate (s := range xn.length) (v := get0 xn) (f := q)
    (injOn_of_nodup hd) (by simpa using hq)
  rw [Lagrange.interpolate_apply] at this
  exact this.symm

/-- **C18** (nodal).  On any list of distinct nodes, at node `k` the basis function `k` is 1 and
the others are 0. -/
theorem C18_nodal (xn : List K) (hd : xn.Nodup) (k : ℕ) (xk : K) (hk : xn[k]? = some xk)
    (view : List K) (hv : view.length = xn.length) :
    ∃ phi, lagrangeVal1D xk xn view = some phi ∧ phi.length = xn.length ∧
      ∀ j < xn.length, phi[j]? = some (if j = k then 1 else 0) := by
  have hkl : k < xn.length := by
    by_contra h
    rw [List.getElem?_eq_none (by omega)] at hk; simp at hk
  have hx : xk = get0 xn k := by simp [get0, hk]
  refine ⟨_, lagrangeVal1D_eq xk xn view hv, by simp, ?_⟩
  intro j hj
  rw [hx]
  simp [hj, lagPoly_nodal hd hj hkl]

/-- **C18** (partition of unity).  The basis functions sum to 1 at every point. -/
theorem C18_sum_one (xn : List K) (hd : xn.Nodup) (hne : xn ≠ []) (x : K)
    (view : List K) (hv : view.length = xn.length) :
    ∃ phi, lagrangeVal1D x xn view = some phi ∧ phi.sum = 1 := by
  refine ⟨_, lagrangeVal1D_eq x xn view hv, ?_⟩
  rw [sum_map_range, ← eval_finsetSum, lagPoly_sum hd hne, eval_one]

/-- **C18** (reproduction).  Every polynomial of degree less than the number of nodes is
reproduced at every point from its nodal values. -/
theorem C18_reproduces (xn : List K) (hd : xn.Nodup) (q : K[X]) (hq : q.degree < xn.length) (x : K)
    (view : List K) (hv : view.length = xn.length) :
    ∃ phi, lagrangeVal1D x xn view = some phi ∧
      ((xn.zip phi).map fun t => q.eval t.1 * t.2).sum = q.eval x := by
  refine ⟨_, lagrangeVal1D_eq x xn view hv, ?_⟩
  have e : (xn.zip ((List.range xn.length).map fun i : ℕ => (lagPoly xn i).eval x)).map
      (fun t => q.eval t.1 * t.2)
      = (List.range xn.length).map fun i : ℕ => q.eval (get0 xn i) * (lagPoly xn i).eval x := by
    apply List.ext_getElem
    · simp
    · intro i h1 h2
      simp at h1
      simp [get0, h1]
  rw [e, sum_map_range]
  conv_rhs => rw [← lagPoly_reproduce hd q hq, eval_finsetSum]
  refine Finset.sum_congr rfl fun i _ => ?_
  rw [eval_mul, eval_C]

/-- **C19**, algebraic form (any field).  Entry `i` of the gradient routine is the value at `x` of
the derivative of the polynomial whose values are entry `i` of the value routine. -/
theorem C19_polynomial_derivative (xn : List K) (view view' : List K)
    (hv : view.length = xn.length) (hv' : view'.length = xn.length) :
    ∃ P : ℕ → K[X], ∀ x : K, ∃ phi g,
      lagrangeVal1D x xn view = some phi ∧ lagrangeGrad1D x xn view' = some g ∧
      phi.length = xn.length ∧ g.length = xn.length ∧
      ∀ i < xn.length, phi[i]? = some ((P i).eval x) ∧ g[i]? = some ((derivative (P i)).eval x) :=
  ⟨lagPoly xn, fun x => ⟨_, _, lagrangeVal1D_eq x xn view hv, lagrangeGrad1D_eq x xn view' hv',
    by simp, by simp, fun i hi => by simp [hi]⟩⟩

/-- **C19** (gradients sum to zero). -/
theorem C19_grads_sum_zero (xn : List K) (hd : xn.Nodup) (hne : xn ≠ []) (x : K)
    (view : List K) (hv : view.length = xn.length) :
    ∃ g, lagrangeGrad1D x xn view = some g ∧ g.sum = 0 := by
  refine ⟨_, lagrangeGrad1D_eq x xn view hv, ?_⟩
  rw [sum_map_range, ← eval_finsetSum, ← derivative_sum, lagPoly_sum hd hne, derivative_one,
    eval_zero]

end General

/-- **C19** (real analysis form).  The gradient routine returns the derivative of the value
routine, at every point (nodes included). -/
theorem C19_is_derivative (xn view view' : List ℝ) (hv : view.length = xn.length)
    (hv' : view'.length = xn.length) (x : ℝ) :
    ∃ (phi : ℝ → List ℝ) (g : List ℝ), (∀ t, lagrangeVal1D t xn view = some (phi t)) ∧
      lagrangeGrad1D x xn view' = some g ∧
      ∀ i < xn.length, HasDerivAt (fun t => get0 (phi t) i) (get0 g i) x := by
  refine ⟨_, _, fun t => lagrangeVal1D_eq t xn view hv, lagrangeGrad1D_eq x xn view' hv', ?_⟩
  intro i hi
  simp only [get0_map_range _ hi]
  exact (lagPoly xn i).hasDerivAt x

example : lagrangeVal1D (1/2 : ℚ) [-1, 0, 1] [7, 7, 7] = some [-1/8, 3/4, 3/8] := by
  simp [lagrangeVal1D, get0, List.range_succ, setB]; norm_num
example : lagrangeGrad1D (0 : ℚ) [-1, 0, 1] [7, 7, 7] = some [-1/2, 0, 1/2] := by
  simp [lagrangeGrad1D, lagrangeGradProd, get0, List.range_succ, setB]; norm_num

/-! ## C20 -/

section Ordered
variable {K : Type} [Field K] [LinearOrder K] [IsStrictOrderedRing K]

theorem cast_sub_one_pos {n : ℕ} (hn : 2 ≤ n) : (0 : K) < (n : K) - 1 := by
  have : (2 : K) ≤ n := by exact_mod_cast hn
  linarith

/-- **C20**.  For two or more nodes the generator ignores the previous contents and size of the
view and returns exactly `n` nodes: the first is the left end, the last the right end, consecutive
nodes are `(b-a)/(n-1)` apart (so strictly increasing when `a < b`), and the list is symmetric when
`a = -b`.  With at most one node the first entry is set to 0. -/
theorem C20_equidistant_range (a b : K) (n : ℕ) (view : List K) :
    (n ≤ 1 → 0 < view.length → ∃ x, equidistant1D a b n view = some x ∧ x[0]? = some 0) ∧
    (2 ≤ n → ∃ x : List K, equidistant1D a b n view = some x ∧ x.length = n ∧
      x[0]? = some a ∧ x[n - 1]? = some b ∧
      (∀ i, i + 1 < n → get0 x (i + 1) - get0 x i = (b - a) / ((n : K) - 1)) ∧
      (a < b → x.Pairwise (· < ·)) ∧
      (a = -b → ∀ i < n, get0 x (n - 1 - i) = - get0 x i)) := by
  constructor
  · intro hn hv
    refine ⟨view.set 0 0, ?_, by simp [hv]⟩
    unfold equidistant1D
    rw [if_pos hn, setB_of_lt hv]
  · intro hn
    have hpos := cast_sub_one_pos (K := K) hn
    refine ⟨_, equidistant1D_eq a b n hn view, by simp, ?_, ?_, ?_, ?_, ?_⟩
    · simp [show 0 < n by omega]
    · have h1 : n - 1 < n := by omega
      have h2 : ((n - 1 : ℕ) : K) = (n : K) - 1 := by
        rw [Nat.cast_sub (by omega)]; simp
      simp [h1, h2]
      field_simp
      ring
    · intro i hi
      rw [get0_map_range _ hi, get0_map_range _ (by omega)]
      push_cast; ring
    · intro hab
      have hd : 0 < (b - a) / ((n : K) - 1) := div_pos (by linarith) hpos
      rw [List.pairwise_map]
      refine List.Pairwise.imp_of_mem ?_ (List.pairwise_lt_range (n := n))
      intro i j _ _ hij
      have : (i : K) < j := by exact_mod_cast hij
      have := mul_lt_mul_of_pos_right this hd
      linarith
    · intro hab i hi
      rw [get0_map_range _ (by omega), get0_map_range _ hi]
      have h2 : ((n - 1 - i : ℕ) : K) = (n : K) - 1 - i := by
        rw [Nat.cast_sub (by omega), Nat.cast_sub (by omega)]; simp
      rw [h2, hab]
      field_simp
      ring

/-- **C20**, the second generator (`Nodes::get_equidistant_nodes_segment`, used for output nodes)
returns the same nodes as the one used by the bases on `[-1,1]`, for every order. -/
theorem C20_generators_agree (p : ℕ) (hp : 0 < p) (view view' : List K) (hv : view.length = p + 1) :
    equidistantSegment p view = equidistant1D (-1 : K) 1 (p + 1) view' := by
  rw [equidistantSegment_eq p hp view hv, equidistant1D_eq _ _ _ (by omega)]
  congr 1
  refine List.map_congr_left fun i _ => ?_
  push_cast
  ring_nf

/-- **C20**, order 0: one node at the centre. -/
theorem C20_order_zero (view : List K) : equidistantSegment 0 view = some [0] := rfl

example : equidistant1D (-1 : ℚ) 1 5 [3] = some [-1, -1/2, 0, 1/2, 1] := by
  rw [equidistant1D_eq _ _ _ (by omega)]; simp [List.range_succ]; norm_num

/-- the nodes of the order-`p` basis are distinct -/
theorem basisNodes_eq (p : ℕ) (hp : 0 < p) :
    basisNodes (K := K) p = some ((List.range (p + 1)).map fun i : ℕ => -1 + (i : K) * (2 / (p : K))) := by
  unfold basisNodes
  rw [← C20_generators_agree p hp (List.replicate (p + 1) 0) _ (by simp),
    equidistantSegment_eq p hp _ (by simp)]

/-- nodes of the order-`p` basis -/
def nodesP (p : ℕ) : List K := (List.range (p + 1)).map fun i : ℕ => -1 + (i : K) * (2 / (p : K))

theorem nodesP_length (p : ℕ) : (nodesP (K := K) p).length = p + 1 := by simp [nodesP]

theorem nodesP_nodup (p : ℕ) (hp : 0 < p) : (nodesP (K := K) p).Nodup := by
  refine List.Nodup.map_on ?_ List.nodup_range
  intro i _ j _ h
  have hp' : (0 : K) < p := by exact_mod_cast hp
  have h2 : (2 / (p : K)) ≠ 0 := by positivity
  have : (i : K) = j := by
    have : (i : K) * (2 / p) = j * (2 / p) := by linarith
    exact mul_right_cancel₀ h2 this
  exact_mod_cast this

/-- **C18** for the segment basis of the library: for every order (0 included) and every point,
the `p+1` values sum to 1. -/
theorem C18_segment_sum_one (p : ℕ) (x : K) (row : List K) (hr : row.length = p + 1) :
    ∃ phi, valuesLagrangeSeg p x row = some phi ∧ phi.length = p + 1 ∧ phi.sum = 1 := by
  unfold valuesLagrangeSeg
  by_cases hp : p = 0
  · subst hp
    refine ⟨[1], ?_, rfl, by simp⟩
    rw [if_pos rfl, hr]; rfl
  · have hp' : 0 < p := by omega
    rw [if_neg hp, basisNodes_eq p hp', Option.bind_some]
    change ∃ phi, lagrangeVal1D x (nodesP p) row = some phi ∧ _
    have hl : row.length = (nodesP (K := K) p).length := by rw [nodesP_length, hr]
    have hne : nodesP (K := K) p ≠ [] := by
      intro h; have := nodesP_length (K := K) p; rw [h] at this; simp at this
    obtain ⟨phi, h1, h2⟩ := C18_sum_one _ (nodesP_nodup p hp') hne x row hl
    refine ⟨phi, h1, ?_, h2⟩
    rw [lagrangeVal1D_eq x _ row hl] at h1
    simp only [Option.some.injEq] at h1
    rw [← h1]; simp [nodesP]

/-! ## C22 -/

/-- 1D values and gradients of the order-`p` basis at a point -/
theorem val1D_nodesP (p : ℕ) (x : K) :
    lagrangeVal1D x (nodesP p) (List.replicate (p + 1) 0)
      = some ((List.range (p + 1)).map fun i : ℕ => (lagPoly (nodesP p) i).eval x) := by
  rw [lagrangeVal1D_eq x _ _ (by rw [nodesP_length]; simp), nodesP_length]

theorem grad1D_nodesP (p : ℕ) (x : K) :
    lagrangeGrad1D x (nodesP p) (List.replicate (p + 1) 0)
      = some ((List.range (p + 1)).map fun i : ℕ => (derivative (lagPoly (nodesP p) i)).eval x) := by
  rw [lagrangeGrad1D_eq x _ _ (by rw [nodesP_length]; simp), nodesP_length]

theorem valuesLagrangeQuad_eq (p : ℕ) (hp : 0 < p) (x y : K) (row : List K)
    (hr : row.length = (p + 1) * (p + 1)) :
    valuesLagrangeQuad p x y row = some ((List.range ((p + 1) * (p + 1))).map fun m : ℕ =>
      (lagPoly (nodesP p) (m % (p + 1))).eval x * (lagPoly (nodesP p) (m / (p + 1))).eval y) := by
  unfold valuesLagrangeQuad
  rw [if_neg (by omega), basisNodes_eq p hp, Option.bind_some]
  change lagrangeVal2D x y (nodesP p) p row = _
  unfold lagrangeVal2D
  simp only [val1D_nodesP, Option.bind_eq_bind, Option.bind_some]
  rw [tensorVal2D_eq p _ _ _ hr]
  congr 1
  refine List.map_congr_left fun m hm => ?_
  have hm' := List.mem_range.1 hm
  rw [get0_map_range _ (Nat.mod_lt _ (by omega)),
    get0_map_range _ ((Nat.div_lt_iff_lt_mul (by omega)).2 hm')]

theorem gradsLagrangeQuad_eq (p : ℕ) (hp : 0 < p) (x y : K) (row : List (K × K))
    (hr : row.length = (p + 1) * (p + 1)) :
    gradsLagrangeQuad p x y row = some ((List.range ((p + 1) * (p + 1))).map fun m : ℕ =>
      ((derivative (lagPoly (nodesP p) (m % (p + 1)))).eval x
          * (lagPoly (nodesP p) (m / (p + 1))).eval y,
       (lagPoly (nodesP p) (m % (p + 1))).eval x
          * (derivative (lagPoly (nodesP p) (m / (p + 1)))).eval y)) := by
  unfold gradsLagrangeQuad
  rw [if_pos hp, basisNodes_eq p hp, Option.bind_some]
  change lagrangeGrad2D x y (nodesP p) p row = _
  unfold lagrangeGrad2D
  simp only [val1D_nodesP, grad1D_nodesP, Option.bind_eq_bind, Option.bind_some]
  rw [tensorGrad2D_eq p _ _ _ _ _ hr]
  congr 1
  refine List.map_congr_left fun m hm => ?_
  have hm' := List.mem_range.1 hm
  have h1 : m % (p + 1) < p + 1 := Nat.mod_lt _ (by omega)
  have h2 : m / (p + 1) < p + 1 := (Nat.div_lt_iff_lt_mul (by omega)).2 hm'
  simp only [get0_map_range _ h1, get0_map_range _ h2]

theorem idx3_lt {n m : ℕ} (h : m < n * n * n) :
    m % n < n ∧ m / n % n < n ∧ m / (n * n) < n := by
  have hn : 0 < n := by
    rcases Nat.eq_zero_or_pos n with h0 | h0
    · subst h0; simp at h
    · exact h0
  refine ⟨Nat.mod_lt _ hn, Nat.mod_lt _ hn, ?_⟩
  rw [Nat.div_lt_iff_lt_mul (Nat.mul_pos hn hn)]
  calc m < n * n * n := h
    _ = n * (n * n) := by ring

theorem valuesLagrangeHex_eq (p : ℕ) (hp : 0 < p) (x y z : K) (row : List K)
    (hr : row.length = (p + 1) * (p + 1) * (p + 1)) :
    valuesLagrangeHex p x y z row = some ((List.range ((p + 1) * (p + 1) * (p + 1))).map fun m : ℕ =>
      (lagPoly (nodesP p) (m % (p + 1))).eval x * (lagPoly (nodesP p) (m / (p + 1) % (p + 1))).eval y
        * (lagPoly (nodesP p) (m / ((p + 1) * (p + 1)))).eval z) := by
  unfold valuesLagrangeHex
  rw [if_neg (by omega), basisNodes_eq p hp, Option.bind_some]
  change lagrangeVal3D x y z (nodesP p) p row = _
  unfold lagrangeVal3D
  simp only [val1D_nodesP, Option.bind_eq_bind, Option.bind_some]
  rw [tensorVal3D_eq p _ _ _ _ hr]
  congr 1
  refine List.map_congr_left fun m hm => ?_
  obtain ⟨h1, h2, h3⟩ := idx3_lt (List.mem_range.1 hm)
  rw [get0_map_range _ h1, get0_map_range _ h2, get0_map_range _ h3]

theorem gradsLagrangeHex_eq (p : ℕ) (hp : 0 < p) (x y z : K) (row : List (K × K × K))
    (hr : row.length = (p + 1) * (p + 1) * (p + 1)) :
    gradsLagrangeHex p x y z row = some ((List.range ((p + 1) * (p + 1) * (p + 1))).map fun m : ℕ =>
      ((derivative (lagPoly (nodesP p) (m % (p + 1)))).eval x
          * (lagPoly (nodesP p) (m / (p + 1) % (p + 1))).eval y
          * (lagPoly (nodesP p) (m / ((p + 1) * (p + 1)))).eval z,
       (lagPoly (nodesP p) (m % (p + 1))).eval x
          * (derivative (lagPoly (nodesP p) (m / (p + 1) % (p + 1)))).eval y
          * (lagPoly (nodesP p) (m / ((p + 1) * (p + 1)))).eval z,
       (lagPoly (nodesP p) (m % (p + 1))).eval x
          * (lagPoly (nodesP p) (m / (p + 1) % (p + 1))).eval y
          * (derivative (lagPoly (nodesP p) (m / ((p + 1) * (p + 1))))).eval z)) := by
  unfold gradsLagrangeHex
  rw [if_pos hp, basisNodes_eq p hp, Option.bind_some]
  change lagrangeGrad3D x y z (nodesP p) p row = _
  unfold lagrangeGrad3D
  simp only [val1D_nodesP, grad1D_nodesP, Option.bind_eq_bind, Option.bind_some]
  rw [tensorGrad3D_eq p _ _ _ _ _ _ _ hr]
  congr 1
  refine List.map_congr_left fun m hm => ?_
  obtain ⟨h1, h2, h3⟩ := idx3_lt (List.mem_range.1 hm)
  simp only [get0_map_range _ h1, get0_map_range _ h2, get0_map_range _ h3]

/-- summing over the 2D index is summing over both directions -/
theorem sum_idx2 (n : ℕ) (f g : ℕ → K) :
    ∑ m ∈ range (n * n), f (m % n) * g (m / n) = (∑ i ∈ range n, f i) * ∑ j ∈ range n, g j := by
  rcases Nat.eq_zero_or_pos n with h0 | hn
  · subst h0; simp
  rw [Finset.sum_mul_sum, ← Finset.sum_product']
  refine Finset.sum_nbij' (fun m => (m % n, m / n)) (fun q => q.2 * n + q.1) ?_ ?_ ?_ ?_ ?_
  · intro m hm
    simp only [mem_product, mem_range] at hm ⊢
    exact ⟨Nat.mod_lt _ hn, (Nat.div_lt_iff_lt_mul hn).2 hm⟩
  · intro q hq
    simp only [mem_product, mem_range] at hq ⊢
    calc q.2 * n + q.1 < q.2 * n + n := by omega
      _ = (q.2 + 1) * n := by ring
      _ ≤ n * n := Nat.mul_le_mul_right _ (by omega)
  · intro m _
    simp only []
    rw [Nat.mul_comm]; exact Nat.div_add_mod m n
  · intro q hq
    simp only [mem_product, mem_range] at hq
    simp only [idx2_mod hq.1, idx2_div hq.1]
  · intro m _; rfl

theorem sum_idx3 (n : ℕ) (f g h : ℕ → K) :
    ∑ m ∈ range (n * n * n), f (m % n) * g (m / n % n) * h (m / (n * n))
      = (∑ i ∈ range n, f i) * (∑ j ∈ range n, g j) * ∑ k ∈ range n, h k := by
  rcases Nat.eq_zero_or_pos n with h0 | hn
  · subst h0; simp
  rw [← sum_idx2 n f g, Finset.sum_mul_sum, ← Finset.sum_product']
  have hnn : 0 < n * n := Nat.mul_pos hn hn
  refine Finset.sum_nbij' (fun m => (m % (n * n), m / (n * n))) (fun q => q.2 * (n * n) + q.1)
    ?_ ?_ ?_ ?_ ?_
  · intro m hm
    simp only [mem_product, mem_range] at hm ⊢
    refine ⟨Nat.mod_lt _ hnn, (Nat.div_lt_iff_lt_mul hnn).2 ?_⟩
    calc m < n * n * n := hm
      _ = n * (n * n) := by ring
  · intro q hq
    simp only [mem_product, mem_range] at hq ⊢
    calc q.2 * (n * n) + q.1 < q.2 * (n * n) + n * n := by omega
      _ = (q.2 + 1) * (n * n) := by ring
      _ ≤ n * (n * n) := Nat.mul_le_mul_right _ (by omega)
      _ = n * n * n := by ring
  · intro m _
    simp only []
    rw [Nat.mul_comm]; exact Nat.div_add_mod m (n * n)
  · intro q hq
    simp only [mem_product, mem_range] at hq
    simp only [idx2_mod hq.1, idx2_div hq.1]
  · intro m _
    simp only []
    rw [Nat.mod_mul_left_mod, Nat.mod_mul_right_div_self]

theorem nodesP_ne_nil (p : ℕ) : nodesP (K := K) p ≠ [] := by
  intro h; have := nodesP_length (K := K) p; rw [h] at this; simp at this

theorem sum_lagPoly_eval (p : ℕ) (hp : 0 < p) (x : K) :
    ∑ i ∈ range (p + 1), (lagPoly (nodesP p) i).eval x = 1 := by
  have := lagPoly_sum (nodesP_nodup (K := K) p hp) (nodesP_ne_nil p)
  rw [nodesP_length] at this
  rw [← eval_finsetSum, this, eval_one]

/-- **C22** (product form, 2D).  The value of 2D basis function `j*(p+1)+i` is the product of the
value of 1D function `i` at `x` and of 1D function `j` at `y` (first direction fastest), for every
order and point; every entry of the row is set. -/
theorem C22_quad_product (p : ℕ) (x y : K) (row : List K) (hr : row.length = (p + 1) * (p + 1))
    (v1 : List K) (hv1 : v1.length = p + 1) :
    ∃ phi vx vy : List K, valuesLagrangeQuad p x y row = some phi ∧
      valuesLagrangeSeg p x v1 = some vx ∧ valuesLagrangeSeg p y v1 = some vy ∧
      phi.length = (p + 1) * (p + 1) ∧
      ∀ i ≤ p, ∀ j ≤ p, get0 phi (j * (p + 1) + i) = get0 vx i * get0 vy j := by
  by_cases hp : p = 0
  · subst hp
    refine ⟨[1], [1], [1], ?_, ?_, ?_, rfl, ?_⟩
    · simp only [valuesLagrangeQuad, if_true, hr]; rfl
    · simp only [valuesLagrangeSeg, if_true, hv1]; rfl
    · simp only [valuesLagrangeSeg, if_true, hv1]; rfl
    · intro i hi j hj
      obtain rfl : i = 0 := by omega
      obtain rfl : j = 0 := by omega
      simp [get0]
  · have hp' : 0 < p := by omega
    have hs : ∀ t : K, valuesLagrangeSeg p t v1
        = some ((List.range (p + 1)).map fun i : ℕ => (lagPoly (nodesP p) i).eval t) := by
      intro t
      unfold valuesLagrangeSeg
      rw [if_neg hp, basisNodes_eq p hp', Option.bind_some]
      change lagrangeVal1D t (nodesP p) v1 = _
      rw [lagrangeVal1D_eq t _ _ (by rw [nodesP_length]; exact hv1), nodesP_length]
    refine ⟨_, _, _, valuesLagrangeQuad_eq p hp' x y row hr, hs x, hs y, by simp, ?_⟩
    intro i hi j hj
    have hlt : j * (p + 1) + i < (p + 1) * (p + 1) := by
      calc j * (p + 1) + i < j * (p + 1) + (p + 1) := by omega
        _ = (j + 1) * (p + 1) := by ring
        _ ≤ (p + 1) * (p + 1) := Nat.mul_le_mul_right _ (by omega)
    rw [get0_map_range _ hlt, get0_map_range _ (by omega : i < p + 1),
      get0_map_range _ (by omega : j < p + 1), idx2_mod (by omega : i < p + 1),
      idx2_div (by omega : i < p + 1)]

/-- **C22** (product form, 3D).  The same with index `k*(p+1)²+j*(p+1)+i`. -/
theorem C22_hex_product (p : ℕ) (x y z : K) (row : List K)
    (hr : row.length = (p + 1) * (p + 1) * (p + 1)) (v1 : List K) (hv1 : v1.length = p + 1) :
    ∃ phi vx vy vz : List K, valuesLagrangeHex p x y z row = some phi ∧
      valuesLagrangeSeg p x v1 = some vx ∧ valuesLagrangeSeg p y v1 = some vy ∧
      valuesLagrangeSeg p z v1 = some vz ∧ phi.length = (p + 1) * (p + 1) * (p + 1) ∧
      ∀ i ≤ p, ∀ j ≤ p, ∀ k ≤ p, get0 phi (k * (p + 1) * (p + 1) + j * (p + 1) + i)
        = get0 vx i * get0 vy j * get0 vz k := by
  by_cases hp : p = 0
  · subst hp
    refine ⟨[1], [1], [1], [1], ?_, ?_, ?_, ?_, rfl, ?_⟩
    · simp only [valuesLagrangeHex, if_true, hr]; rfl
    · simp only [valuesLagrangeSeg, if_true, hv1]; rfl
    · simp only [valuesLagrangeSeg, if_true, hv1]; rfl
    · simp only [valuesLagrangeSeg, if_true, hv1]; rfl
    · intro i hi j hj k hk
      obtain rfl : i = 0 := by omega
      obtain rfl : j = 0 := by omega
      obtain rfl : k = 0 := by omega
      simp [get0]
  · have hp' : 0 < p := by omega
    have hs : ∀ t : K, valuesLagrangeSeg p t v1
        = some ((List.range (p + 1)).map fun i : ℕ => (lagPoly (nodesP p) i).eval t) := by
      intro t
      unfold valuesLagrangeSeg
      rw [if_neg hp, basisNodes_eq p hp', Option.bind_some]
      change lagrangeVal1D t (nodesP p) v1 = _
      rw [lagrangeVal1D_eq t _ _ (by rw [nodesP_length]; exact hv1), nodesP_length]
    refine ⟨_, _, _, _, valuesLagrangeHex_eq p hp' x y z row hr, hs x, hs y, hs z, by simp, ?_⟩
    intro i hi j hj k hk
    have hlt : k * (p + 1) * (p + 1) + j * (p + 1) + i < (p + 1) * (p + 1) * (p + 1) := by
      calc k * (p + 1) * (p + 1) + j * (p + 1) + i
            < k * (p + 1) * (p + 1) + j * (p + 1) + (p + 1) := by omega
        _ = k * (p + 1) * (p + 1) + (j + 1) * (p + 1) := by ring
        _ ≤ k * (p + 1) * (p + 1) + (p + 1) * (p + 1) := by
            have := Nat.mul_le_mul_right (p + 1) (by omega : j + 1 ≤ p + 1); omega
        _ = (k + 1) * ((p + 1) * (p + 1)) := by ring
        _ ≤ (p + 1) * ((p + 1) * (p + 1)) := Nat.mul_le_mul_right _ (by omega)
        _ = (p + 1) * (p + 1) * (p + 1) := by ring
    obtain ⟨h1, h2, h3⟩ := idx3 (n := p + 1) (k := k) (by omega : j < p + 1) (by omega : i < p + 1)
    rw [get0_map_range _ hlt, h1, h2, h3, get0_map_range _ (by omega : i < p + 1),
      get0_map_range _ (by omega : j < p + 1), get0_map_range _ (by omega : k < p + 1)]

/-- **C22** (partition of unity).  The tensor bases sum to 1 at every point, for every order. -/
theorem C22_sum_one (p : ℕ) (x y z : K) (row2 row3 : List K)
    (h2 : row2.length = (p + 1) * (p + 1)) (h3 : row3.length = (p + 1) * (p + 1) * (p + 1)) :
    (∃ phi, valuesLagrangeQuad p x y row2 = some phi ∧ phi.sum = 1) ∧
    (∃ phi, valuesLagrangeHex p x y z row3 = some phi ∧ phi.sum = 1) := by
  by_cases hp : p = 0
  · subst hp
    refine ⟨⟨[1], ?_, by simp⟩, ⟨[1], ?_, by simp⟩⟩
    · simp only [valuesLagrangeQuad, if_true, h2]; rfl
    · simp only [valuesLagrangeHex, if_true, h3]; rfl
  · have hp' : 0 < p := by omega
    refine ⟨⟨_, valuesLagrangeQuad_eq p hp' x y row2 h2, ?_⟩,
      ⟨_, valuesLagrangeHex_eq p hp' x y z row3 h3, ?_⟩⟩
    · rw [sum_map_range, sum_idx2 (p + 1) (fun i => (lagPoly (nodesP p) i).eval x)
        (fun j => (lagPoly (nodesP p) j).eval y), sum_lagPoly_eval p hp', sum_lagPoly_eval p hp',
        one_mul]
    · rw [sum_map_range, sum_idx3 (p + 1) (fun i => (lagPoly (nodesP p) i).eval x)
        (fun j => (lagPoly (nodesP p) j).eval y) (fun k => (lagPoly (nodesP p) k).eval z),
        sum_lagPoly_eval p hp', sum_lagPoly_eval p hp', sum_lagPoly_eval p hp', one_mul, one_mul]

theorem get0_nodesP (p i : ℕ) (hi : i < p + 1) :
    get0 (nodesP (K := K) p) i = -1 + (i : K) * (2 / (p : K)) := get0_map_range _ hi

/-- **C22** (nodal, 2D).  For every order `p ≥ 1`: `equidistantQuad` lists `(p+1)²` nodes, and at
node `m` of that list the 2D basis function `m` is 1 and the others are 0: basis functions and
nodes are numbered in the same way. -/
theorem C22_quad_nodal (p : ℕ) (hp : 0 < p) (xref : List (K × K))
    (hx : xref.length = (p + 1) * (p + 1)) :
    ∃ nodes : List (K × K), equidistantQuad p xref = some nodes ∧
      nodes.length = (p + 1) * (p + 1) ∧
      ∀ m X Y, nodes[m]? = some (X, Y) → ∀ row : List K, row.length = (p + 1) * (p + 1) →
        ∃ phi, valuesLagrangeQuad p X Y row = some phi ∧
          ∀ m' < (p + 1) * (p + 1), phi[m']? = some (if m' = m then 1 else 0) := by
  have hseg := equidistantSegment_eq (K := K) p hp (List.replicate (p + 1) 0) (by simp)
  have hn : equidistantQuad p xref = some ((List.range ((p + 1) * (p + 1))).map fun m : ℕ =>
      (get0 (nodesP (K := K) p) (m % (p + 1)), get0 (nodesP (K := K) p) (m / (p + 1)))) := by
    unfold equidistantQuad
    simp only [hseg, Option.bind_eq_bind, Option.bind_some]
    exact fill2 (p + 1) (fun j i => (get0 (nodesP (K := K) p) i, get0 (nodesP (K := K) p) j)) _ xref
      hx (fun j _ i hi => by simp only [idx2_div hi, idx2_mod hi])
  refine ⟨_, hn, by simp, ?_⟩
  intro m X Y hm row hrow
  have hml : m < (p + 1) * (p + 1) := by
    by_contra h
    rw [List.getElem?_eq_none (by simpa using h)] at hm; simp at hm
  simp [hml] at hm
  obtain ⟨rfl, rfl⟩ := hm
  refine ⟨_, valuesLagrangeQuad_eq p hp _ _ row hrow, ?_⟩
  intro m' hm'
  have a1 : m % (p + 1) < p + 1 := Nat.mod_lt _ (by omega)
  have a2 : m / (p + 1) < p + 1 := (Nat.div_lt_iff_lt_mul (by omega)).2 hml
  have b1 : m' % (p + 1) < p + 1 := Nat.mod_lt _ (by omega)
  have b2 : m' / (p + 1) < p + 1 := (Nat.div_lt_iff_lt_mul (by omega)).2 hm'
  have hnd := nodesP_nodup (K := K) p hp
  have hlen := nodesP_length (K := K) p
  simp only [List.getElem?_map, List.getElem?_range hm', Option.map_some,
    lagPoly_nodal hnd (by rw [hlen]; exact b1) (by rw [hlen]; exact a1),
    lagPoly_nodal hnd (by rw [hlen]; exact b2) (by rw [hlen]; exact a2)]
  congr 1
  by_cases h : m' = m
  · subst h; simp
  · rw [if_neg h]
    have : ¬ (m' % (p + 1) = m % (p + 1) ∧ m' / (p + 1) = m / (p + 1)) := by
      rintro ⟨e1, e2⟩
      apply h
      rw [← Nat.div_add_mod m' (p + 1), ← Nat.div_add_mod m (p + 1), e1, e2]
    by_cases e1 : m' % (p + 1) = m % (p + 1)
    · have e2 : m' / (p + 1) ≠ m / (p + 1) := fun e2 => this ⟨e1, e2⟩
      simp [e2]
    · simp [e1]

/-- **C22** (nodal, 3D). -/
theorem C22_hex_nodal (p : ℕ) (hp : 0 < p) (xref : List (K × K × K))
    (hx : xref.length = (p + 1) * (p + 1) * (p + 1)) :
    ∃ nodes : List (K × K × K), equidistantHex p xref = some nodes ∧
      nodes.length = (p + 1) * (p + 1) * (p + 1) ∧
      ∀ m X Y Z, nodes[m]? = some (X, Y, Z) →
        ∀ row : List K, row.length = (p + 1) * (p + 1) * (p + 1) →
        ∃ phi, valuesLagrangeHex p X Y Z row = some phi ∧
          ∀ m' < (p + 1) * (p + 1) * (p + 1), phi[m']? = some (if m' = m then 1 else 0) := by
  have hseg := equidistantSegment_eq (K := K) p hp (List.replicate (p + 1) 0) (by simp)
  have hn : equidistantHex p xref = some ((List.range ((p + 1) * (p + 1) * (p + 1))).map fun m : ℕ =>
      (get0 (nodesP (K := K) p) (m % (p + 1)), get0 (nodesP (K := K) p) (m / (p + 1) % (p + 1)),
        get0 (nodesP (K := K) p) (m / ((p + 1) * (p + 1))))) := by
    unfold equidistantHex
    simp only [hseg, Option.bind_eq_bind, Option.bind_some]
    exact fill3 (p + 1) (fun k j i => (get0 (nodesP (K := K) p) i, get0 (nodesP (K := K) p) j,
      get0 (nodesP (K := K) p) k)) _ xref hx (fun k _ j hj i hi => by
        obtain ⟨h1, h2, h3⟩ := idx3 (n := p + 1) (k := k) hj hi
        simp only [h1, h2, h3])
  refine ⟨_, hn, by simp, ?_⟩
  intro m X Y Z hm row hrow
  have hml : m < (p + 1) * (p + 1) * (p + 1) := by
    by_contra h
    rw [List.getElem?_eq_none (by simpa using h)] at hm; simp at hm
  simp [hml] at hm
  obtain ⟨rfl, rfl, rfl⟩ := hm
  refine ⟨_, valuesLagrangeHex_eq p hp _ _ _ row hrow, ?_⟩
  intro m' hm'
  obtain ⟨a1, a2, a3⟩ := idx3_lt hml
  obtain ⟨b1, b2, b3⟩ := idx3_lt hm'
  have hnd := nodesP_nodup (K := K) p hp
  have hlen := nodesP_length (K := K) p
  simp only [List.getElem?_map, List.getElem?_range hm', Option.map_some,
    lagPoly_nodal hnd (by rw [hlen]; exact b1) (by rw [hlen]; exact a1),
    lagPoly_nodal hnd (by rw [hlen]; exact b2) (by rw [hlen]; exact a2),
    lagPoly_nodal hnd (by rw [hlen]; exact b3) (by rw [hlen]; exact a3)]
  congr 1
  by_cases h : m' = m
  · subst h; simp
  · rw [if_neg h]
    by_cases e1 : m' % (p + 1) = m % (p + 1)
    · by_cases e2 : m' / (p + 1) % (p + 1) = m / (p + 1) % (p + 1)
      · by_cases e3 : m' / ((p + 1) * (p + 1)) = m / ((p + 1) * (p + 1))
        · exfalso; apply h
          have e4 : m' / (p + 1) = m / (p + 1) := by
            rw [← Nat.div_add_mod (m' / (p + 1)) (p + 1), ← Nat.div_add_mod (m / (p + 1)) (p + 1),
              Nat.div_div_eq_div_mul, Nat.div_div_eq_div_mul, e2, e3]
          rw [← Nat.div_add_mod m' (p + 1), ← Nat.div_add_mod m (p + 1), e1, e4]
        · simp [e3]
      · simp [e2]
    · simp [e1]

end Ordered

/-- **C22** (gradients, 2D).  For every order `p ≥ 1` (and for order 0 with the zero-initialised
gradient view the callers pass), both components of the 2D gradients are the partial derivatives of
the 2D values. -/
theorem C22_quad_gradients (p : ℕ) (x y : ℝ) (row : List ℝ) (hr : row.length = (p + 1) * (p + 1))
    (grow : List (ℝ × ℝ)) (hg : grow.length = (p + 1) * (p + 1))
    (h0 : p = 0 → grow = [(0, 0)]) :
    ∃ (phi : ℝ → ℝ → List ℝ) (g : List (ℝ × ℝ)),
      (∀ s t, valuesLagrangeQuad p s t row = some (phi s t)) ∧
      gradsLagrangeQuad p x y grow = some g ∧
      ∀ m < (p + 1) * (p + 1), ∃ gx gy, g[m]? = some (gx, gy) ∧
        HasDerivAt (fun s => get0 (phi s y) m) gx x ∧
        HasDerivAt (fun t => get0 (phi x t) m) gy y := by
  by_cases hp : p = 0
  · subst hp
    refine ⟨fun _ _ => [1], [(0, 0)], ?_, ?_, ?_⟩
    · intro s t; simp only [valuesLagrangeQuad, if_true, hr]; rfl
    · simp [gradsLagrangeQuad, h0 rfl]
    · intro m hm
      obtain rfl : m = 0 := by omega
      exact ⟨0, 0, rfl, hasDerivAt_const _ _, hasDerivAt_const _ _⟩
  · have hp' : 0 < p := by omega
    refine ⟨_, _, fun s t => valuesLagrangeQuad_eq p hp' s t row hr,
      gradsLagrangeQuad_eq p hp' x y grow hg, ?_⟩
    intro m hm
    refine ⟨_, _, by simp only [List.getElem?_map, List.getElem?_range hm, Option.map_some]; rfl, ?_, ?_⟩
    · simp only [get0_map_range _ hm]
      exact ((lagPoly (nodesP p) (m % (p + 1))).hasDerivAt x).mul_const _
    · simp only [get0_map_range _ hm]
      exact ((lagPoly (nodesP p) (m / (p + 1))).hasDerivAt y).const_mul _

/-- **C22** (gradients, 3D). -/
theorem C22_hex_gradients (p : ℕ) (x y z : ℝ) (row : List ℝ)
    (hr : row.length = (p + 1) * (p + 1) * (p + 1))
    (grow : List (ℝ × ℝ × ℝ)) (hg : grow.length = (p + 1) * (p + 1) * (p + 1))
    (h0 : p = 0 → grow = [(0, 0, 0)]) :
    ∃ (phi : ℝ → ℝ → ℝ → List ℝ) (g : List (ℝ × ℝ × ℝ)),
      (∀ s t u, valuesLagrangeHex p s t u row = some (phi s t u)) ∧
      gradsLagrangeHex p x y z grow = some g ∧
      ∀ m < (p + 1) * (p + 1) * (p + 1), ∃ gx gy gz, g[m]? = some (gx, gy, gz) ∧
        HasDerivAt (fun s => get0 (phi s y z) m) gx x ∧
        HasDerivAt (fun t => get0 (phi x t z) m) gy y ∧
        HasDerivAt (fun u => get0 (phi x y u) m) gz z := by
  by_cases hp : p = 0
  · subst hp
    refine ⟨fun _ _ _ => [1], [(0, 0, 0)], ?_, ?_, ?_⟩
    · intro s t u; simp only [valuesLagrangeHex, if_true, hr]; rfl
    · simp [gradsLagrangeHex, h0 rfl]
    · intro m hm
      obtain rfl : m = 0 := by omega
      exact ⟨0, 0, 0, rfl, hasDerivAt_const _ _, hasDerivAt_const _ _, hasDerivAt_const _ _⟩
  · have hp' : 0 < p := by omega
    refine ⟨_, _, fun s t u => valuesLagrangeHex_eq p hp' s t u row hr,
      gradsLagrangeHex_eq p hp' x y z grow hg, ?_⟩
    intro m hm
    refine ⟨_, _, _, by simp only [List.getElem?_map, List.getElem?_range hm, Option.map_some]; rfl,
      ?_, ?_, ?_⟩
    · simp only [get0_map_range _ hm]
      exact (((lagPoly (nodesP p) (m % (p + 1))).hasDerivAt x).mul_const _).mul_const _
    · simp only [get0_map_range _ hm]
      exact (((lagPoly (nodesP p) (m / (p + 1) % (p + 1))).hasDerivAt y).const_mul _).mul_const _
    · simp only [get0_map_range _ hm]
      exact ((lagPoly (nodesP p) (m / ((p + 1) * (p + 1)))).hasDerivAt z).const_mul _

example : valuesLagrangeQuad 1 (1/2 : ℚ) (-1) [0, 0, 0, 0] = some [1/4, 3/4, 0, 0] := by
  simp [valuesLagrangeQuad, basisNodes, equidistant1D, lagrangeVal2D, lagrangeVal1D, tensorVal2D,
    get0, List.range_succ, setB]
  norm_num

end DG
