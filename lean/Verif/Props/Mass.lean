import Verif.Lemmas.Mass
import Verif.Props.TensorQuad

/-! C29: mass matrices.  C30: L2 projection. -/
namespace DG
open Finset Matrix

section
variable {K : Type} [Field K] [LinearOrder K] [IsStrictOrderedRing K]

/-- **C29** (entries).  Entry `(i,j)` of the mass matrix is the quadrature of the product of basis
functions `i` and `j` weighted by the Jacobian, whatever the scratch memory held; it is symmetric. -/
theorem C29_symmetric (nq nb : ℕ) (w djac : ℕ → K) (B scr0 MM0 : ℕ → ℕ → K) (i j : ℕ)
    (hi : i < nb) (hj : j < nb) :
    massMatrix nq nb w djac B scr0 MM0 i j = ∑ q ∈ range nq, w q * djac q * (B q i * B q j) ∧
    massMatrix nq nb w djac B scr0 MM0 i j = massMatrix nq nb w djac B scr0 MM0 j i := by
  rw [massMatrix_entry _ _ _ _ _ _ _ _ _ hi hj, massMatrix_entry _ _ _ _ _ _ _ _ _ hj hi]
  exact ⟨rfl, Finset.sum_congr rfl fun q _ => by ring⟩

/-- **C29** (positive definite).  With positive weights and Jacobians and basis functions independent
on the quadrature points, `cᵀ M c > 0` for every `c ≠ 0`. -/
theorem C29_positive_definite (nq nb : ℕ) (w djac : ℕ → K) (B scr0 MM0 : ℕ → ℕ → K)
    (hw : ∀ q < nq, 0 < w q) (hj : ∀ q < nq, 0 < djac q) (hB : IndepOn nq nb B)
    (c : ℕ → K) (hc : ∃ i < nb, c i ≠ 0) :
    0 < ∑ i ∈ range nb, ∑ j ∈ range nb, c i * massMatrix nq nb w djac B scr0 MM0 i j * c j :=
  mass_pos nq nb w djac B scr0 MM0 hw hj hB nb le_rfl c hc

/-- Conversely independence on the points is needed: otherwise the form vanishes on some `c ≠ 0`. -/
theorem C29_needs_independence (nq nb : ℕ) (w djac : ℕ → K) (B scr0 MM0 : ℕ → ℕ → K) (hB : ¬ IndepOn nq nb B) :
    ∃ c : ℕ → K, (∃ i < nb, c i ≠ 0) ∧
      ∑ i ∈ range nb, ∑ j ∈ range nb, c i * massMatrix nq nb w djac B scr0 MM0 i j * c j = 0 := by
  unfold IndepOn at hB
  push Not at hB
  obtain ⟨c, h1, i, hi, hci⟩ := hB
  refine ⟨c, ⟨i, hi, hci⟩, ?_⟩
  rw [mass_quadratic _ _ _ le_rfl]
  exact Finset.sum_eq_zero fun q hq => by rw [h1 q (Finset.mem_range.1 hq)]; ring

/-- **C29** (first call).  On a fresh (zero-filled) store the matrix stored for the element is the
two-sided inverse of the mass matrix, for every number of basis functions, geometry and rule. -/
theorem C29_first_call_inverse (nq nb : ℕ) (h1 : 1 ≤ nb) (w djac : ℕ → K) (B scr0 MM0 : ℕ → ℕ → K)
    (hw : ∀ q < nq, 0 < w q) (hj : ∀ q < nq, 0 < djac q) (hB : IndepOn nq nb B) :
    toM nb nb (massMatrix nq nb w djac B scr0 MM0) *
        toM nb nb (invMass nq nb w djac B scr0 MM0 fun _ _ => 0) = 1 ∧
    toM nb nb (invMass nq nb w djac B scr0 MM0 fun _ _ => 0) *
        toM nb nb (massMatrix nq nb w djac B scr0 MM0) = 1 := by
  have hm := mass_minors nq nb w djac B scr0 MM0 hw hj hB
  by_cases h4 : 4 ≤ nb
  · exact (C27_inverse_large nb h4 _ _ fun q hq => hm (q + 1) hq).2 fun _ _ _ _ _ => rfl
  · exact C27_inverse_small nb h1 (by omega) _ _ (hm nb le_rfl)

/-- **C29** (any previous contents of the store, up to three basis functions). -/
theorem C29_any_store_small (nq nb : ℕ) (h1 : 1 ≤ nb) (h3 : nb ≤ 3) (w djac : ℕ → K)
    (B scr0 MM0 iMM0 : ℕ → ℕ → K)
    (hw : ∀ q < nq, 0 < w q) (hj : ∀ q < nq, 0 < djac q) (hB : IndepOn nq nb B) :
    toM nb nb (massMatrix nq nb w djac B scr0 MM0) * toM nb nb (invMass nq nb w djac B scr0 MM0 iMM0) = 1 ∧
    toM nb nb (invMass nq nb w djac B scr0 MM0 iMM0) * toM nb nb (massMatrix nq nb w djac B scr0 MM0) = 1 :=
  C27_inverse_small nb h1 h3 _ _ (mass_minors nq nb w djac B scr0 MM0 hw hj hB nb le_rfl)

/-- **C29** (reused store, four basis functions or more).  The stored matrix is the inverse exactly
when the off-diagonal entries of the store were zero on entry. -/
theorem C29_reused_store (nq nb : ℕ) (h4 : 4 ≤ nb) (w djac : ℕ → K) (B scr0 MM0 iMM0 : ℕ → ℕ → K)
    (hw : ∀ q < nq, 0 < w q) (hj : ∀ q < nq, 0 < djac q) (hB : IndepOn nq nb B) :
    (toM nb nb (massMatrix nq nb w djac B scr0 MM0) * toM nb nb (invMass nq nb w djac B scr0 MM0 iMM0) = 1 ∧
     toM nb nb (invMass nq nb w djac B scr0 MM0 iMM0) * toM nb nb (massMatrix nq nb w djac B scr0 MM0) = 1)
    ↔ ∀ i < nb, ∀ j < nb, i ≠ j → iMM0 i j = 0 :=
  C27_inverse_large nb h4 _ _ fun q hq => mass_minors nq nb w djac B scr0 MM0 hw hj hB (q + 1) hq

/-- **C29** (any previous contents of the store, complete).  The stored matrix is the inverse of the mass
matrix exactly when there are at most three basis functions or the off-diagonal entries of the store
were zero on entry. -/
theorem C29_store_iff (nq nb : ℕ) (h1 : 1 ≤ nb) (w djac : ℕ → K) (B scr0 MM0 iMM0 : ℕ → ℕ → K)
    (hw : ∀ q < nq, 0 < w q) (hj : ∀ q < nq, 0 < djac q) (hB : IndepOn nq nb B) :
    (toM nb nb (massMatrix nq nb w djac B scr0 MM0) * toM nb nb (invMass nq nb w djac B scr0 MM0 iMM0) = 1 ∧
     toM nb nb (invMass nq nb w djac B scr0 MM0 iMM0) * toM nb nb (massMatrix nq nb w djac B scr0 MM0) = 1)
    ↔ nb ≤ 3 ∨ ∀ i < nb, ∀ j < nb, i ≠ j → iMM0 i j = 0 := by
  by_cases h4 : 4 ≤ nb
  · rw [C29_reused_store nq nb h4 w djac B scr0 MM0 iMM0 hw hj hB]
    exact ⟨Or.inr, fun h => h.resolve_left (by omega)⟩
  · exact ⟨fun _ => Or.inl (by omega), fun _ =>
      C29_any_store_small nq nb h1 (by omega) w djac B scr0 MM0 iMM0 hw hj hB⟩

/-- **C29** (second call).  Recomputing the mass matrices into the store of the first call (same mesh,
same rule) gives the inverse again exactly when the inverse mass matrix is diagonal; with four or
more coupled basis functions the second computation is wrong. -/
theorem C29_second_call (nq nb : ℕ) (h4 : 4 ≤ nb) (w djac : ℕ → K) (B scr0 MM0 scr1 MM1 : ℕ → ℕ → K)
    (hw : ∀ q < nq, 0 < w q) (hj : ∀ q < nq, 0 < djac q) (hB : IndepOn nq nb B) :
    toM nb nb (massMatrix nq nb w djac B scr1 MM1) *
      toM nb nb (invMass nq nb w djac B scr1 MM1 (invMass nq nb w djac B scr0 MM0 fun _ _ => 0)) = 1
    ↔ ∀ i < nb, ∀ j < nb, i ≠ j → massMatrix nq nb w djac B scr0 MM0 i j = 0 := by
  have key := C29_reused_store nq nb h4 w djac B scr1 MM1
    (invMass nq nb w djac B scr0 MM0 fun _ _ => 0) hw hj hB
  obtain ⟨f1, f2⟩ := C29_first_call_inverse nq nb (by omega) w djac B scr0 MM0 hw hj hB
  have hI : (toM nb nb (massMatrix nq nb w djac B scr1 MM1) *
      toM nb nb (invMass nq nb w djac B scr1 MM1 (invMass nq nb w djac B scr0 MM0 fun _ _ => 0)) = 1)
      ↔ ∀ i < nb, ∀ j < nb, i ≠ j → (invMass nq nb w djac B scr0 MM0 fun _ _ => 0) i j = 0 := by
    rw [← key]
    exact ⟨fun h => ⟨h, mul_eq_one_comm.1 h⟩, fun h => h.1⟩
  rw [hI]
  -- a matrix is diagonal iff its inverse is
  have diag : ∀ A C : Matrix (Fin nb) (Fin nb) K, A * C = 1 → (∀ i j, i ≠ j → A i j = 0) →
      ∀ i j, i ≠ j → C i j = 0 := by
    intro A C hAC hA i j hij
    have h := congrFun (congrFun hAC i) j
    have h' := congrFun (congrFun hAC i) i
    rw [Matrix.mul_apply, Finset.sum_eq_single i (fun k _ hk => by rw [hA i k (Ne.symm hk), zero_mul]) (by simp)] at h h'
    rw [Matrix.one_apply_eq] at h'
    rw [Matrix.one_apply_ne hij] at h
    refine (mul_eq_zero.1 h).resolve_left fun h0 => ?_
    rw [h0, zero_mul] at h'
    exact zero_ne_one h'
  constructor
  · intro h i hi j hj' hij
    exact diag _ _ f2 (fun a b hab => h a a.2 b b.2 (fun h => hab (Fin.ext h))) ⟨i, hi⟩ ⟨j, hj'⟩
      (by simpa [Fin.ext_iff] using hij)
  · intro h i hi j hj' hij
    exact diag _ _ f1 (fun a b hab => h a a.2 b b.2 (fun h => hab (Fin.ext h))) ⟨i, hi⟩ ⟨j, hj'⟩
      (by simpa [Fin.ext_iff] using hij)

/-! ### C30 -/

theorem l2_entry (nq nb ns : ℕ) (iMM B : ℕ → ℕ → K) (djac w : ℕ → K) (f rhs0 U0 : ℕ → ℕ → K)
    (i s : ℕ) (hi : i < nb) (hs : s < ns) :
    l2Projection nq nb ns iMM B djac w f rhs0 U0 i s
      = ∑ j ∈ range nb, iMM i j * ∑ q ∈ range nq, w q * djac q * (B q j * f q s) := by
  unfold l2Projection
  rw [cAxB_entry _ _ _ _ _ _ _ _ _ hi hs, one_mul]
  refine Finset.sum_congr rfl fun j hj => ?_
  rw [cATxB_entry _ _ _ _ _ _ _ _ (Finset.mem_range.1 hj) hs]
  congr 1
  refine Finset.sum_congr rfl fun q hq => ?_
  rw [scaleRows_apply _ _ _ _ _ _ _ (Finset.mem_range.1 hq) hs]; ring

theorem inv_sum {nb : ℕ} {A C : ℕ → ℕ → K} (h : toM nb nb A * toM nb nb C = 1) (i j : ℕ) (hi : i < nb)
    (hj : j < nb) : ∑ k ∈ range nb, A i k * C k j = if i = j then 1 else 0 := by
  have := congrFun (congrFun h ⟨i, hi⟩) ⟨j, hj⟩
  rw [toM_mul] at this
  rw [this, Matrix.one_apply]
  simp [Fin.ext_iff]

variable (nq nb ns : ℕ) (w djac : ℕ → K) (B scr0 MM0 iMM : ℕ → ℕ → K)

/-- **C30** (reproduction).  When the stored matrix is the inverse of the mass matrix of the same rule,
projecting point values of a combination of the basis functions returns the coefficients, whatever
the scratch memory and the output held. -/
theorem C30_reproduces
    (hinv : toM nb nb iMM * toM nb nb (massMatrix nq nb w djac B scr0 MM0) = 1)
    (c f rhs0 U0 : ℕ → ℕ → K) (hf : ∀ q < nq, ∀ s < ns, f q s = ∑ k ∈ range nb, B q k * c k s)
    (i s : ℕ) (hi : i < nb) (hs : s < ns) :
    l2Projection nq nb ns iMM B djac w f rhs0 U0 i s = c i s := by
  rw [l2_entry _ _ _ _ _ _ _ _ _ _ _ _ hi hs]
  have h1 : ∀ j ∈ range nb, iMM i j * ∑ q ∈ range nq, w q * djac q * (B q j * f q s)
      = ∑ k ∈ range nb, iMM i j * massMatrix nq nb w djac B scr0 MM0 j k * c k s := by
    intro j hj
    have hj' := Finset.mem_range.1 hj
    have : ∑ q ∈ range nq, w q * djac q * (B q j * f q s)
        = ∑ k ∈ range nb, massMatrix nq nb w djac B scr0 MM0 j k * c k s := by
      have e : ∀ q ∈ range nq, w q * djac q * (B q j * f q s)
          = ∑ k ∈ range nb, w q * djac q * (B q j * B q k) * c k s := by
        intro q hq
        rw [hf q (Finset.mem_range.1 hq) s hs, Finset.mul_sum, Finset.mul_sum]
        exact Finset.sum_congr rfl fun k _ => by ring
      rw [Finset.sum_congr rfl e, Finset.sum_comm]
      refine Finset.sum_congr rfl fun k hk => ?_
      rw [massMatrix_entry _ _ _ _ _ _ _ _ _ hj' (Finset.mem_range.1 hk), Finset.sum_mul]
    rw [this, Finset.mul_sum]
    exact Finset.sum_congr rfl fun k _ => by ring
  rw [Finset.sum_congr rfl h1, Finset.sum_comm]
  simp only [← Finset.sum_mul]
  rw [Finset.sum_congr rfl fun k hk => by rw [inv_sum hinv i k hi (Finset.mem_range.1 hk)]]
  simp [hi]

/-- **C30** (idempotent).  Evaluating the projection at the points and projecting again changes nothing. -/
theorem C30_idempotent
    (hinv : toM nb nb iMM * toM nb nb (massMatrix nq nb w djac B scr0 MM0) = 1)
    (f rhs0 U0 rhs1 U1 Uq0 : ℕ → ℕ → K) (i s : ℕ) (hi : i < nb) (hs : s < ns) :
    l2Projection nq nb ns iMM B djac w
      (evaluateState nq nb ns B (l2Projection nq nb ns iMM B djac w f rhs0 U0) Uq0) rhs1 U1 i s
    = l2Projection nq nb ns iMM B djac w f rhs0 U0 i s :=
  C30_reproduces nq nb ns w djac B scr0 MM0 iMM hinv _ _ _ _
    (fun q hq s hs => by rw [evaluateState, cAxB_entry _ _ _ _ _ _ _ _ _ hq hs, one_mul]) i s hi hs

/-- **C30** (orthogonality).  The projection error is orthogonal to every basis function in the
quadrature inner product. -/
theorem C30_error_orthogonal
    (hinv : toM nb nb (massMatrix nq nb w djac B scr0 MM0) * toM nb nb iMM = 1)
    (f rhs0 U0 Uq0 : ℕ → ℕ → K) (j s : ℕ) (hj : j < nb) (hs : s < ns) :
    ∑ q ∈ range nq, w q * djac q *
      ((f q s - evaluateState nq nb ns B (l2Projection nq nb ns iMM B djac w f rhs0 U0) Uq0 q s) * B q j) = 0 := by
  set U := l2Projection nq nb ns iMM B djac w f rhs0 U0 with hU
  have e : ∀ q ∈ range nq, w q * djac q * ((f q s - evaluateState nq nb ns B U Uq0 q s) * B q j)
      = w q * djac q * (B q j * f q s) - ∑ k ∈ range nb, w q * djac q * (B q j * B q k) * U k s := by
    intro q hq
    rw [evaluateState, cAxB_entry _ _ _ _ _ _ _ _ _ (Finset.mem_range.1 hq) hs, one_mul]
    have : ∑ k ∈ range nb, w q * djac q * (B q j * B q k) * U k s
        = w q * djac q * (B q j * ∑ k ∈ range nb, B q k * U k s) := by
      rw [Finset.mul_sum, Finset.mul_sum]; exact Finset.sum_congr rfl fun k _ => by ring
    rw [this]; ring
  rw [Finset.sum_congr rfl e, Finset.sum_sub_distrib, Finset.sum_comm, sub_eq_zero]
  have e2 : ∑ k ∈ range nb, ∑ q ∈ range nq, w q * djac q * (B q j * B q k) * U k s
      = ∑ k ∈ range nb, massMatrix nq nb w djac B scr0 MM0 j k * U k s :=
    Finset.sum_congr rfl fun k hk => by
      rw [massMatrix_entry _ _ _ _ _ _ _ _ _ hj (Finset.mem_range.1 hk), Finset.sum_mul]
  rw [e2]
  have e3 : ∀ k ∈ range nb, massMatrix nq nb w djac B scr0 MM0 j k * U k s
      = ∑ l ∈ range nb, massMatrix nq nb w djac B scr0 MM0 j k * iMM k l
          * ∑ q ∈ range nq, w q * djac q * (B q l * f q s) := by
    intro k hk
    rw [hU, l2_entry _ _ _ _ _ _ _ _ _ _ _ _ (Finset.mem_range.1 hk) hs, Finset.mul_sum]
    exact Finset.sum_congr rfl fun l _ => by ring
  rw [Finset.sum_congr rfl e3, Finset.sum_comm]
  simp only [← Finset.sum_mul]
  have e4 : ∀ l ∈ range nb, (∑ k ∈ range nb, massMatrix nq nb w djac B scr0 MM0 j k * iMM k l)
      * ∑ q ∈ range nq, w q * djac q * (B q l * f q s)
      = (if j = l then 1 else 0) * ∑ q ∈ range nq, w q * djac q * (B q l * f q s) := fun l hl => by
    rw [inv_sum hinv j l hj (Finset.mem_range.1 hl)]
  rw [Finset.sum_congr rfl e4]
  simp [hj]

/-- **C30** (which rule).  The inverse mass matrices and the initial projection use the same rule
exactly for solution orders `p ≥ 1`. -/
theorem C30_same_rule (p : ℕ) :
    (quadGaussOrder (massRuleOrder p) = quadGaussOrder (projRuleOrder p) ↔ 1 ≤ p) ∧
    (gaussOrder (massRuleOrder p) = gaussOrder (projRuleOrder p) ↔ 1 ≤ p) := by
  unfold quadGaussOrder segGaussOrder gaussOrder massRuleOrder projRuleOrder
  omega

end

section
variable {K : Type} [Field K] [LinearOrder K] [IsStrictOrderedRing K]

/-- **C30** (order 0).  With piecewise constants the mass matrix uses a coarser rule (`w`,
`djac`) than the projection (`w'`, `djac'`): the projection of a constant `c` is `c` times the
ratio of the element's two quadrature volumes, hence the constant itself exactly when both rules
give the same volume. -/
theorem C30_order_zero (nq nq' ns : ℕ) (w djac w' djac' : ℕ → K) (B B' scr0 MM0 iMM0 rhs0 U0 : ℕ → ℕ → K)
    (hB : ∀ q < nq, B q 0 = 1) (hB' : ∀ q < nq', B' q 0 = 1)
    (hV : elementVolume nq w djac ≠ 0) (c : K) (hc : c ≠ 0) (f : ℕ → ℕ → K)
    (hf : ∀ q < nq', ∀ s < ns, f q s = c) (s : ℕ) (hs : s < ns) :
    l2Projection nq' 1 ns (invMass nq 1 w djac B scr0 MM0 iMM0) B' djac' w' f rhs0 U0 0 s
        = c * (elementVolume nq' w' djac' / elementVolume nq w djac) ∧
    (l2Projection nq' 1 ns (invMass nq 1 w djac B scr0 MM0 iMM0) B' djac' w' f rhs0 U0 0 s = c ↔
      elementVolume nq' w' djac' = elementVolume nq w djac) := by
  have e1 : invMass nq 1 w djac B scr0 MM0 iMM0 0 0 = 1 / elementVolume nq w djac := by
    have : massMatrix nq 1 w djac B scr0 MM0 0 0 = elementVolume nq w djac := by
      rw [massMatrix_entry _ _ _ _ _ _ _ _ _ Nat.one_pos Nat.one_pos, elementVolume, loopSum_eq]
      exact Finset.sum_congr rfl fun q hq => by rw [hB q (Finset.mem_range.1 hq)]; ring
    simp [invMass, invA, this]
  have e2 : l2Projection nq' 1 ns (invMass nq 1 w djac B scr0 MM0 iMM0) B' djac' w' f rhs0 U0 0 s
        = c * (elementVolume nq' w' djac' / elementVolume nq w djac) := by
    rw [l2_entry _ _ _ _ _ _ _ _ _ _ _ _ Nat.one_pos hs, Finset.sum_range_one, e1]
    have e3 : ∑ q ∈ range nq', w' q * djac' q * (B' q 0 * f q s) = elementVolume nq' w' djac' * c := by
      rw [elementVolume, loopSum_eq, Finset.sum_mul]
      exact Finset.sum_congr rfl fun q hq => by
        rw [hB' q (Finset.mem_range.1 hq), hf q (Finset.mem_range.1 hq) s hs]; ring
    rw [e3]; ring
  refine ⟨e2, ?_⟩
  rw [e2]
  constructor
  · intro h
    have h2 : elementVolume nq' w' djac' / elementVolume nq w djac = 1 :=
      mul_left_cancel₀ hc (by rw [h, mul_one])
    exact (div_eq_one_iff_eq hV).1 h2
  · intro h; rw [h, div_self hV, mul_one]

end

/-! ### the bases and rules of the library -/

/-- one-dimensional values of the order-`p` Lagrange basis at the points `x` -/
noncomputable def seg1 (p : ℕ) (x : ℕ → ℝ) : ℕ → ℕ → ℝ := fun q i =>
  get0 ((valuesLagrangeSeg p (x q) (List.replicate (p + 1) 0)).getD []) i

theorem seg1_indep (p n : ℕ) (hn : p + 1 ≤ n) (x : ℕ → ℝ) (hx : ∀ i < n, ∀ j < n, x i = x j → i = j) :
    IndepOn n (p + 1) (seg1 p x) := by
  by_cases hp : p = 0
  · subst hp
    refine indep_const n (by omega) _ fun q _ => ?_
    simp [seg1, valuesLagrangeSeg, get0]
  · have hp' : 0 < p := by omega
    have h := indep_lagrange (nodesP (K := ℝ) p) (nodesP_nodup p hp') n (by rw [nodesP_length]; exact hn) x hx
    rw [nodesP_length] at h
    intro c hc
    refine h c fun q hq => ?_
    rw [← hc q hq]
    refine Finset.sum_congr rfl fun i hi => ?_
    congr 1
    unfold seg1 valuesLagrangeSeg
    rw [if_neg hp, basisNodes_eq p hp', Option.bind_some]
    change _ = get0 ((lagrangeVal1D (x q) (nodesP p) _).getD []) i
    rw [val1D_nodesP, Option.getD_some, get0_map_range _ (Finset.mem_range.1 hi)]

theorem mapM_some {α β : Type} (f : α → Option β) (g : α → β) : ∀ l : List α, (∀ a ∈ l, f a = some (g a)) →
    l.mapM f = some (l.map g)
  | [], _ => rfl
  | a :: l, h => by
    rw [List.mapM_cons, h a (by simp), mapM_some f g l (fun b hb => h b (by simp [hb]))]; rfl

/-- points and weights of the table rules as functions -/
theorem seg_rule (order : ℕ) (h : order < 50) (h6 : order ≠ 36) (h7 : order ≠ 37) (x w : List ℝ)
    (hs : segmentGL (K := ℝ) order (List.replicate (order / 2 + 1) 0) (List.replicate (order / 2 + 1) 0) = some (x, w)) :
    (∀ i < order / 2 + 1, ∀ j < order / 2 + 1, get0 x i = get0 x j → i = j) ∧
    (∀ i < order / 2 + 1, 0 < get0 w i) := by
  obtain ⟨x', w', h1, hl1, hl2, hinc, -, -, hpos, -⟩ := C24_points_and_weights order h h6 h7
    (List.replicate (order / 2 + 1) 0) (List.replicate (order / 2 + 1) 0)
    (by rw [numQuadPoints_fst]; simp) (by rw [numQuadPoints_fst]; simp)
  rw [hs] at h1
  obtain ⟨rfl, rfl⟩ : x = x' ∧ w = w' := by simpa using h1
  rw [numQuadPoints_fst] at hl1 hl2
  refine ⟨fun i hi j hj hij => ?_, fun i hi => ?_⟩
  · have hnd : x.Nodup := hinc.imp fun h => ne_of_lt h
    have hi' : i < x.length := by omega
    have hj' : j < x.length := by omega
    simp only [get0, List.getElem?_eq_getElem hi', List.getElem?_eq_getElem hj', Option.getD_some] at hij
    exact (List.Nodup.getElem_inj_iff hnd).1 hij
  · have hi' : i < w.length := by omega
    rw [get0, List.getElem?_eq_getElem hi', Option.getD_some]
    exact hpos _ (List.getElem_mem hi')

/-- Specification: what C29 asks of one element, on a fresh store and for any contents of the scratch
memory. -/
def MassCorrect (nq nb : ℕ) (w djac : ℕ → ℝ) (B : ℕ → ℕ → ℝ) : Prop :=
  ∀ scr0 MM0 : ℕ → ℕ → ℝ,
    (∀ i < nb, ∀ j < nb,
      massMatrix nq nb w djac B scr0 MM0 i j = massMatrix nq nb w djac B scr0 MM0 j i) ∧
    (∀ c : ℕ → ℝ, (∃ i < nb, c i ≠ 0) →
      0 < ∑ i ∈ range nb, ∑ j ∈ range nb, c i * massMatrix nq nb w djac B scr0 MM0 i j * c j) ∧
    toM nb nb (massMatrix nq nb w djac B scr0 MM0) *
        toM nb nb (invMass nq nb w djac B scr0 MM0 fun _ _ => 0) = 1

theorem massCorrect (nq nb : ℕ) (h1 : 1 ≤ nb) (w djac : ℕ → ℝ) (B : ℕ → ℕ → ℝ)
    (hw : ∀ q < nq, 0 < w q) (hj : ∀ q < nq, 0 < djac q) (hB : IndepOn nq nb B) :
    MassCorrect nq nb w djac B := fun scr0 MM0 =>
  ⟨fun i hi j hj => (C29_symmetric nq nb w djac B scr0 MM0 i j hi hj).2,
   fun c hc => C29_positive_definite nq nb w djac B scr0 MM0 hw hj hB c hc,
   (C29_first_call_inverse nq nb h1 w djac B scr0 MM0 hw hj hB).1⟩

/-- **C29** (quadrilateral, Lagrange).  For every order `p ≤ 11` the rule and the basis table the solver
builds make the hypotheses above true: weights positive, basis functions independent on the points.
Hence on every element with positive Jacobians the mass matrix is symmetric positive definite and
the stored matrix of the first call is its inverse. -/
theorem C29_quad_lagrange (p : ℕ) (hp : p ≤ 11) :
    ∃ pts wts rows,
      quadGL (K := ℝ) (quadGaussOrder (massRuleOrder p)) (numQuadPoints (quadGaussOrder (massRuleOrder p)) 2 0).1
        (List.replicate (numQuadPoints (quadGaussOrder (massRuleOrder p)) 2 0).2 (0, 0))
        (List.replicate (numQuadPoints (quadGaussOrder (massRuleOrder p)) 2 0).2 0) = some (pts, wts) ∧
      valuesAt (fun pt row => valuesLagrangeQuad p pt.1 pt.2 row) pts (List.replicate ((p + 1) * (p + 1)) 0)
        = some rows ∧
      pts.length = (2 * p + 2) * (2 * p + 2) ∧
      (∀ q < pts.length, 0 < get0 wts q) ∧ IndepOn pts.length ((p + 1) * (p + 1)) (rowsView rows) ∧
      ∀ djac : ℕ → ℝ, (∀ q < pts.length, 0 < djac q) →
        MassCorrect pts.length ((p + 1) * (p + 1)) (get0 wts) djac (rowsView rows) := by
  set order := quadGaussOrder (massRuleOrder p) with ho
  have ho' : order = 4 * p + 3 := by rw [ho]; unfold quadGaussOrder segGaussOrder massRuleOrder; ring
  obtain ⟨x, w, pts, wts, h1, h2, h3, h4, h5, -⟩ := C26_quad_tensor order (by omega)
    (List.replicate (numQuadPoints order 2 0).2 (0, 0)) (List.replicate (numQuadPoints order 2 0).2 0)
    (by simp) (by simp)
  have hn : (numQuadPoints order 2 0).1 = 2 * p + 2 := by rw [numQuadPoints_fst]; omega
  have hn' : order / 2 + 1 = 2 * p + 2 := by omega
  have hnq : (numQuadPoints order 2 0).2 = (2 * p + 2) * (2 * p + 2) := by
    rw [(C25_sizes order 2 0).1]; simp only [hn']; ring
  rw [hn] at h1
  obtain ⟨hx, hw⟩ := seg_rule order (by omega) (by omega) (by omega) x w (by rw [hn']; exact h1)
  rw [hn'] at hx hw
  simp only [List.length_replicate, hnq] at h3 h4
  rw [hn] at h5
  set n := 2 * p + 2 with hnd
  -- the rows
  have hrow : ∀ pt ∈ pts, ∃ phi, valuesLagrangeQuad p pt.1 pt.2 (List.replicate ((p + 1) * (p + 1)) 0) = some phi ∧
      ∀ i ≤ p, ∀ j ≤ p, get0 phi (j * (p + 1) + i) = seg1 p (fun _ => pt.1) 0 i * seg1 p (fun _ => pt.2) 0 j := by
    intro pt _
    obtain ⟨phi, vx, vy, e1, e2, e3, -, e5⟩ := C22_quad_product p pt.1 pt.2
      (List.replicate ((p + 1) * (p + 1)) (0:ℝ)) (by simp) (List.replicate (p + 1) 0) (by simp)
    refine ⟨phi, e1, fun i hi j hj => ?_⟩
    rw [e5 i hi j hj]; simp [seg1, e2, e3]
  let g : ℝ × ℝ → List ℝ := fun pt => (valuesLagrangeQuad p pt.1 pt.2 (List.replicate ((p + 1) * (p + 1)) 0)).getD []
  have hg : ∀ pt ∈ pts, valuesLagrangeQuad p pt.1 pt.2 (List.replicate ((p + 1) * (p + 1)) 0) = some (g pt) := by
    intro pt hpt
    obtain ⟨phi, e, -⟩ := hrow pt hpt
    simp only [g, e, Option.getD_some]
  have hrows := mapM_some (fun pt : ℝ × ℝ => valuesLagrangeQuad p pt.1 pt.2 (List.replicate ((p + 1) * (p + 1)) 0))
    g pts hg
  have hind1 := seg1_indep p n (by omega) (get0 x) hx
  have hind : IndepOn pts.length ((p + 1) * (p + 1)) (rowsView (pts.map g)) := by
    rw [h3]
    refine IndepOn.kron _ _ _ hind1 hind1 ?_
    intro q1 hq1 q2 hq2 i hi j hj
    obtain ⟨xi, xj, wi, wj, a1, a2, a3, a4, a5, a6⟩ := h5 q1 hq1 q2 hq2
    have ex : get0 x q1 = xi := by simp [get0, a1]
    have ey : get0 x q2 = xj := by simp [get0, a2]
    have hmem : (xi, xj) ∈ pts := List.mem_of_getElem? a5
    obtain ⟨phi, e1, e2⟩ := hrow _ hmem
    have er : rowsView (pts.map g) (q2 * n + q1) = get0 phi := by
      funext m
      simp only [rowsView, List.getElem?_map, a5, Option.map_some, Option.getD_some, g, e1]
    rw [er, e2 i (by omega) j (by omega)]
    simp only [seg1, ex, ey]
  have hwp : ∀ q < pts.length, 0 < get0 wts q := by
    intro q hq
    rw [h3] at hq
    obtain ⟨xi, xj, wi, wj, a1, a2, a3, a4, a5, a6⟩ := h5 (q % n) (Nat.mod_lt _ (by omega)) (q / n)
      ((Nat.div_lt_iff_lt_mul (by omega)).2 hq)
    rw [Nat.div_add_mod' q n] at a6
    have e1 := hw (q % n) (Nat.mod_lt _ (by omega))
    have e2 := hw (q / n) ((Nat.div_lt_iff_lt_mul (by omega)).2 hq)
    rw [get0, a6, Option.getD_some]
    rw [get0, a3, Option.getD_some] at e1
    rw [get0, a4, Option.getD_some] at e2
    exact mul_pos e1 e2
  refine ⟨pts, wts, pts.map g, h2, hrows, h3, hwp, hind, ?_⟩
  intro djac hd
  exact massCorrect _ _ (Nat.mul_pos (by omega) (by omega)) _ _ _ hwp hd hind

/-- **C29** (hexahedron, Lagrange).  For every order `p ≤ 11` the rule and the basis table the solver
builds make the hypotheses above true: weights positive, basis functions independent on the points.
Hence on every element with positive Jacobians the mass matrix is symmetric positive definite and
the stored matrix of the first call is its inverse. -/
theorem C29_hex_lagrange (p : ℕ) (hp : p ≤ 11) :
    ∃ pts wts rows,
      hexGL (K := ℝ) (gaussOrder (massRuleOrder p)) (numQuadPoints (gaussOrder (massRuleOrder p)) 3 0).1
        (List.replicate (numQuadPoints (gaussOrder (massRuleOrder p)) 3 0).2 (0, 0, 0))
        (List.replicate (numQuadPoints (gaussOrder (massRuleOrder p)) 3 0).2 0) = some (pts, wts) ∧
      valuesAt (fun pt row => valuesLagrangeHex p pt.1 pt.2.1 pt.2.2 row) pts (List.replicate ((p + 1) * (p + 1) * (p + 1)) 0)
        = some rows ∧
      pts.length = (2 * p + 2) * (2 * p + 2) * (2 * p + 2) ∧
      (∀ q < pts.length, 0 < get0 wts q) ∧ IndepOn pts.length ((p + 1) * (p + 1) * (p + 1)) (rowsView rows) ∧
      ∀ djac : ℕ → ℝ, (∀ q < pts.length, 0 < djac q) →
        MassCorrect pts.length ((p + 1) * (p + 1) * (p + 1)) (get0 wts) djac (rowsView rows) := by
  set order := gaussOrder (massRuleOrder p) with ho
  have ho' : order = 4 * p + 3 := by rw [ho]; unfold gaussOrder massRuleOrder; ring
  obtain ⟨x, w, pts, wts, h1, h2, h3, h4, h5, -⟩ := C26_hex_tensor order (by omega)
    (List.replicate (numQuadPoints order 3 0).2 (0, 0, 0)) (List.replicate (numQuadPoints order 3 0).2 0)
    (by simp) (by simp)
  have hn : (numQuadPoints order 3 0).1 = 2 * p + 2 := by rw [numQuadPoints_fst]; omega
  have hn' : order / 2 + 1 = 2 * p + 2 := by omega
  have hnq : (numQuadPoints order 3 0).2 = (2 * p + 2) * (2 * p + 2) * (2 * p + 2) := by
    rw [(C25_sizes order 3 0).1]; simp only [hn']; ring
  rw [hn] at h1
  obtain ⟨hx, hw⟩ := seg_rule order (by omega) (by omega) (by omega) x w (by rw [hn']; exact h1)
  rw [hn'] at hx hw
  simp only [List.length_replicate, hnq] at h3 h4
  rw [hn] at h5
  set n := 2 * p + 2 with hnd
  -- the rows
  have hrow : ∀ pt ∈ pts, ∃ phi, valuesLagrangeHex p pt.1 pt.2.1 pt.2.2 (List.replicate ((p + 1) * (p + 1) * (p + 1)) 0) = some phi ∧
      ∀ i ≤ p, ∀ j ≤ p, ∀ k ≤ p, get0 phi (k * (p + 1) * (p + 1) + j * (p + 1) + i)
        = seg1 p (fun _ => pt.1) 0 i * seg1 p (fun _ => pt.2.1) 0 j * seg1 p (fun _ => pt.2.2) 0 k := by
    intro pt _
    obtain ⟨phi, vx, vy, vz, e1, e2, e3, e4, -, e5⟩ := C22_hex_product p pt.1 pt.2.1 pt.2.2
      (List.replicate ((p + 1) * (p + 1) * (p + 1)) (0:ℝ)) (by simp) (List.replicate (p + 1) 0) (by simp)
    refine ⟨phi, e1, fun i hi j hj k hk => ?_⟩
    rw [e5 i hi j hj k hk]; simp [seg1, e2, e3, e4]
  let g : ℝ × ℝ × ℝ → List ℝ := fun pt => (valuesLagrangeHex p pt.1 pt.2.1 pt.2.2 (List.replicate ((p + 1) * (p + 1) * (p + 1)) 0)).getD []
  have hg : ∀ pt ∈ pts, valuesLagrangeHex p pt.1 pt.2.1 pt.2.2 (List.replicate ((p + 1) * (p + 1) * (p + 1)) 0) = some (g pt) := by
    intro pt hpt
    obtain ⟨phi, e, -⟩ := hrow pt hpt
    simp only [g, e, Option.getD_some]
  have hrows := mapM_some (fun pt : ℝ × ℝ × ℝ => valuesLagrangeHex p pt.1 pt.2.1 pt.2.2 (List.replicate ((p + 1) * (p + 1) * (p + 1)) 0))
    g pts hg
  have hind1 := seg1_indep p n (by omega) (get0 x) hx
  have hind : IndepOn pts.length ((p + 1) * (p + 1) * (p + 1)) (rowsView (pts.map g)) := by
    rw [h3]
    have hind2 : IndepOn (n * n) ((p + 1) * (p + 1))
        (fun q m => seg1 p (get0 x) (q % n) (m % (p + 1)) * seg1 p (get0 x) (q / n) (m / (p + 1))) := by
      refine IndepOn.kron _ _ _ hind1 hind1 ?_
      intro q1 hq1 q2 hq2 i hi j hj
      simp only [idx2_div hq1, idx2_mod hq1, idx2_div hi, idx2_mod hi]
    have e3 : n * n * n = n * (n * n) := by ring
    have e4 : (p + 1) * (p + 1) * (p + 1) = (p + 1) * ((p + 1) * (p + 1)) := by ring
    rw [e3, e4]
    refine IndepOn.kron _ _ _ hind2 hind1 ?_
    intro q1 hq1 q2 hq2 i hi j hj
    have b1 : q1 % n < n := Nat.mod_lt _ (by omega)
    have b2 : q1 / n < n := (Nat.div_lt_iff_lt_mul (by omega)).2 hq1
    have b3 : i % (p + 1) < p + 1 := Nat.mod_lt _ (by omega)
    have b4 : i / (p + 1) < p + 1 := (Nat.div_lt_iff_lt_mul (by omega)).2 hi
    obtain ⟨xi, xj, xk, wi, wj, wk, a1, a2, a3, -, -, -, a5, a6⟩ := h5 (q1 % n) b1 (q1 / n) b2 q2 hq2
    have ei : q2 * n * n + q1 / n * n + q1 % n = q2 * (n * n) + q1 := by
      rw [add_assoc, Nat.div_add_mod' q1 n]; ring
    rw [ei] at a5
    have ex : get0 x (q1 % n) = xi := by simp [get0, a1]
    have ey : get0 x (q1 / n) = xj := by simp [get0, a2]
    have ez : get0 x q2 = xk := by simp [get0, a3]
    have hmem : (xi, xj, xk) ∈ pts := List.mem_of_getElem? a5
    obtain ⟨phi, e1, e2⟩ := hrow _ hmem
    have er : rowsView (pts.map g) (q2 * (n * n) + q1) = get0 phi := by
      funext m
      simp only [rowsView, List.getElem?_map, a5, Option.map_some, Option.getD_some, g, e1]
    have em : j * ((p + 1) * (p + 1)) + i
        = j * (p + 1) * (p + 1) + i / (p + 1) * (p + 1) + i % (p + 1) := by
      rw [add_assoc, Nat.div_add_mod' i (p + 1)]; ring
    rw [er, em, e2 _ (by omega) _ (by omega) j (by omega)]
    simp only [seg1, ex, ey, ez]
  have hwp : ∀ q < pts.length, 0 < get0 wts q := by
    intro q hq
    rw [h3] at hq
    obtain ⟨b1, b2, b3⟩ := idx3_lt hq
    obtain ⟨xi, xj, xk, wi, wj, wk, -, -, -, a1, a2, a3, a5, a6⟩ := h5 (q % n) b1 (q / n % n) b2 (q / (n * n)) b3
    have ei : q / (n * n) * n * n + q / n % n * n + q % n = q := by
      rw [← Nat.div_div_eq_div_mul, ← add_mul, Nat.div_add_mod', Nat.div_add_mod']
    rw [ei] at a6
    have e1 := hw _ b1
    have e2 := hw _ b2
    have e3 := hw _ b3
    rw [get0, a6, Option.getD_some]
    rw [get0, a1, Option.getD_some] at e1
    rw [get0, a2, Option.getD_some] at e2
    rw [get0, a3, Option.getD_some] at e3
    exact mul_pos (mul_pos e1 e2) e3
  refine ⟨pts, wts, pts.map g, h2, hrows, h3, hwp, hind, ?_⟩
  intro djac hd
  exact massCorrect _ _ (Nat.succ_le_of_lt (by positivity)) _ _ _ hwp hd hind

/-! Non-vacuity: a non-constant Jacobian on the order-1 quadrilateral. -/
example : ∃ pts wts rows, quadGL (K := ℝ) 7 4 (List.replicate 16 (0, 0)) (List.replicate 16 0) = some (pts, wts) ∧
    valuesAt (fun pt row => valuesLagrangeQuad 1 pt.1 pt.2 row) pts (List.replicate 4 0) = some rows ∧
    MassCorrect 16 4 (get0 wts) (fun q => (q : ℝ) + 1) (rowsView rows) := by
  obtain ⟨pts, wts, rows, h1, h2, h3, -, -, h4⟩ := C29_quad_lagrange 1 (by omega)
  refine ⟨pts, wts, rows, h1, h2, ?_⟩
  have := h4 (fun q => (q : ℝ) + 1) (fun q _ => by positivity)
  rwa [h3] at this

end DG
