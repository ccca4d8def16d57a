import Verif.Model.Normals
import Verif.Props.Basis
import Verif.Props.FaceNodes
import Verif.Lemmas.LinAlg

namespace DG
open Finset Polynomial

section
variable {K : Type} [Field K] [LinearOrder K] [IsStrictOrderedRing K]

/-- one-dimensional Lagrange function `i` of the order-`g` basis -/
noncomputable def ell (g i : ℕ) (x : K) : K := (lagPoly (nodesP g) i).eval x
/-- its derivative -/
noncomputable def ell' (g i : ℕ) (x : K) : K := (derivative (lagPoly (nodesP g) i)).eval x

theorem ell_nodal (g : ℕ) (hg : 0 < g) (i j : ℕ) (hi : i ≤ g) (hj : j ≤ g) :
    ell g i (-1 + (j : K) * (2 / (g : K))) = if i = j then 1 else 0 := by
  rw [← get0_nodesP g j (by omega)]
  exact lagPoly_nodal (nodesP_nodup g hg) (by rw [nodesP_length]; omega) (by rw [nodesP_length]; omega)

theorem ell_neg_one (g : ℕ) (hg : 0 < g) (i : ℕ) (hi : i ≤ g) :
    ell g i (-1 : K) = if i = 0 then 1 else 0 := by
  have := ell_nodal (K := K) g hg i 0 hi (by omega)
  simpa using this

theorem ell_one (g : ℕ) (hg : 0 < g) (i : ℕ) (hi : i ≤ g) :
    ell g i (1 : K) = if i = g then 1 else 0 := by
  have := ell_nodal (K := K) g hg i g hi le_rfl
  have hg' : (g : K) ≠ 0 := by exact_mod_cast (by omega : g ≠ 0)
  rw [show (-1 + (g : K) * (2 / (g : K))) = 1 by field_simp; ring] at this
  exact this

theorem nodesP_reflect (g : ℕ) (hg : 0 < g) (i : ℕ) (hi : i ≤ g) :
    get0 (nodesP (K := K) g) (g - i) = - get0 (nodesP (K := K) g) i := by
  rw [get0_nodesP g _ (by omega), get0_nodesP g i (by omega), Nat.cast_sub hi]
  have hg' : (g : K) ≠ 0 := by exact_mod_cast (by omega : g ≠ 0)
  field_simp; ring

theorem ell_neg (g : ℕ) (hg : 0 < g) (i : ℕ) (hi : i ≤ g) (x : K) :
    ell g i (-x) = ell g (g - i) x := by
  unfold ell
  rw [← lagPoly_eval, ← lagPoly_eval, nodesP_length, ← Finset.prod_range_reflect]
  refine Finset.prod_congr rfl fun j hj => ?_
  rw [Finset.mem_range] at hj
  have e : g + 1 - 1 - j = g - j := by omega
  rw [e]
  by_cases h : i = g - j
  · rw [if_pos h, if_pos (by omega)]
  · rw [if_neg h, if_neg (by omega), nodesP_reflect g hg j (by omega)]
    have := nodesP_reflect (K := K) g hg i hi
    rw [show get0 (nodesP (K := K) g) i = - get0 (nodesP (K := K) g) (g - i) by rw [this]; ring]
    rw [← neg_div_neg_eq]; congr 1 <;> ring

theorem sum_div_mod (n k : ℕ) (F : ℕ → ℕ → K) :
    ∑ m ∈ range (k * n), F (m % n) (m / n) = ∑ j ∈ range k, ∑ i ∈ range n, F i j := by
  rcases Nat.eq_zero_or_pos n with h | hn
  · subst h; simp
  induction k with
  | zero => simp
  | succ k ih =>
    rw [Nat.succ_mul, Finset.sum_range_add, ih, Finset.sum_range_succ]
    congr 1
    refine Finset.sum_congr rfl fun i hi => ?_
    rw [Finset.mem_range] at hi
    rw [idx2_div hi, idx2_mod hi]

theorem sum_div_mod3 (n : ℕ) (F : ℕ → ℕ → ℕ → K) :
    ∑ m ∈ range (n * n * n), F (m % n) (m / n % n) (m / (n * n))
      = ∑ k ∈ range n, ∑ j ∈ range n, ∑ i ∈ range n, F i j k := by
  have h1 := sum_div_mod n (n * n) (fun i q => F i (q % n) (q / n))
  simp only [Nat.div_div_eq_div_mul] at h1
  rw [h1]
  exact sum_div_mod n n (fun j k => ∑ i ∈ range n, F i j k)

/-! ### the element map -/

/-- Specification: image of the reference point `p` under the element map (the geometric basis of
order `g` applied to the element's node coordinates, by the code's own routines). -/
def physQuad (g : ℕ) (elem : ℕ → ℕ → K) (p : K × K) : ℕ → K :=
  refToPhys 2 (numBasisQuad g)
    ((valuesLagrangeQuad g p.1 p.2 (List.replicate (numBasisQuad g) 0)).getD []) elem

/-- Specification: same for a hexahedron. -/
def physHex (g : ℕ) (elem : ℕ → ℕ → K) (p : K × K × K) : ℕ → K :=
  refToPhys 3 (numBasisHex g)
    ((valuesLagrangeHex g p.1 p.2.1 p.2.2 (List.replicate (numBasisHex g) 0)).getD []) elem

theorem refToPhys_eq (dim nb : ℕ) (row : List K) (elem : ℕ → ℕ → K) (d : ℕ) (hd : d < dim) :
    refToPhys dim nb row elem d = ∑ m ∈ range nb, get0 row m * elem m d := by
  simp [refToPhys, cAxB_to_C, gemm, hd, loopSum_eq]

theorem physQuad_eq (g : ℕ) (hg : 0 < g) (elem : ℕ → ℕ → K) (p : K × K) (d : ℕ) (hd : d < 2) :
    physQuad g elem p d = ∑ j ∈ range (g + 1), ∑ i ∈ range (g + 1),
      ell g i p.1 * ell g j p.2 * elem (j * (g + 1) + i) d := by
  unfold physQuad
  rw [refToPhys_eq _ _ _ _ _ hd, valuesLagrangeQuad_eq g hg _ _ _ (by simp [numBasisQuad])]
  rw [← sum_div_mod (g + 1) (g + 1) (fun i j =>
    ell g i p.1 * ell g j p.2 * elem (j * (g + 1) + i) d)]
  refine Finset.sum_congr rfl fun m hm => ?_
  rw [Finset.mem_range] at hm
  have hm' : m < (g + 1) * (g + 1) := hm
  rw [Nat.mul_comm (m / (g + 1)), Nat.div_add_mod]
  simp [get0, hm', ell]

theorem physHex_eq (g : ℕ) (hg : 0 < g) (elem : ℕ → ℕ → K) (p : K × K × K) (d : ℕ) (hd : d < 3) :
    physHex g elem p d = ∑ k ∈ range (g + 1), ∑ j ∈ range (g + 1), ∑ i ∈ range (g + 1),
      ell g i p.1 * ell g j p.2.1 * ell g k p.2.2 * elem (hexNode g (i, j, k)) d := by
  unfold physHex
  rw [refToPhys_eq _ _ _ _ _ hd, valuesLagrangeHex_eq g hg _ _ _ _ (by simp [numBasisHex])]
  rw [← sum_div_mod3 (g + 1) (fun i j k =>
    ell g i p.1 * ell g j p.2.1 * ell g k p.2.2 * elem (hexNode g (i, j, k)) d)]
  refine Finset.sum_congr rfl fun m hm => ?_
  rw [Finset.mem_range] at hm
  have hm' : m < (g + 1) * (g + 1) * (g + 1) := hm
  have e : hexNode g (m % (g + 1), m / (g + 1) % (g + 1), m / ((g + 1) * (g + 1))) = m := by
    unfold hexNode
    have h1 := Nat.div_add_mod m (g + 1)
    have h2 := Nat.div_add_mod (m / (g + 1)) (g + 1)
    rw [Nat.div_div_eq_div_mul] at h2
    calc _ = (g + 1) * ((g + 1) * (m / ((g + 1) * (g + 1))) + m / (g + 1) % (g + 1)) + m % (g + 1) := by
            simp only []; ring
      _ = m := by rw [h2, h1]
  rw [e]
  simp [get0, hm', ell]

/-! ### restriction of the element map to a face -/

/-- lattice position of entry `t` of the node list of face `face` -/
def quadFaceLattice (face g t : ℕ) : ℕ × ℕ :=
  match face with
  | 0 => (t, 0)
  | 1 => (g, t)
  | 2 => (g - t, g)
  | _ => (0, g - t)

def quadNode (g : ℕ) (p : ℕ × ℕ) : ℕ := p.2 * (g + 1) + p.1

theorem faceNodesQuad_lattice (face g : ℕ) (hf : face < 4) (view : List ℤ)
    (hv : view.length = nodesPerFaceQuad g) :
    faceNodesQuad face g view = some ((List.range (g + 1)).map fun t =>
      ((quadNode g (quadFaceLattice face g t) : ℕ) : ℤ)) := by
  rw [faceNodesQuad_eq face g view hv]
  congr 1
  refine List.map_congr_left fun t ht => ?_
  have ht : t < g + 1 := List.mem_range.1 ht
  have hF : face = 0 ∨ face = 1 ∨ face = 2 ∨ face = 3 := by omega
  rcases hF with rfl | rfl | rfl | rfl <;>
    simp only [faceStrideQuad, quadFaceLattice, quadNode] <;>
    push_cast [Nat.cast_sub (show t ≤ g by omega)] <;> ring

theorem physQuad_face (g : ℕ) (hg : 0 < g) (elem : ℕ → ℕ → K) (face : ℕ) (hf : face < 4) (s : K)
    (d : ℕ) (hd : d < 2) :
    physQuad g elem (quadPt face 0 s) d
      = ∑ c ∈ range (g + 1), ell g c s * elem (quadNode g (quadFaceLattice face g c)) d := by
  rw [physQuad_eq g hg elem _ d hd]
  have hF : face = 0 ∨ face = 1 ∨ face = 2 ∨ face = 3 := by omega
  rcases hF with rfl | rfl | rfl | rfl
  · rw [quadPt_0_0, Finset.sum_eq_single 0]
    · refine Finset.sum_congr rfl fun c hc => ?_
      simp only [ell_neg_one g hg 0 (by omega), if_true, mul_one, quadNode, quadFaceLattice]
    · intro j hj hj0
      rw [Finset.mem_range] at hj
      refine Finset.sum_eq_zero fun i _ => ?_
      simp only [ell_neg_one g hg j (by omega), if_neg hj0, mul_zero, zero_mul]
    · simp
  · rw [quadPt_1_0]
    refine Finset.sum_congr rfl fun c hc => ?_
    rw [Finset.sum_eq_single g]
    · simp only [ell_one g hg g le_rfl, if_true, one_mul, quadNode, quadFaceLattice]
    · intro i hi hi0
      rw [Finset.mem_range] at hi
      simp only [ell_one g hg i (by omega), if_neg hi0, zero_mul]
    · simp
  · rw [quadPt_2_0, Finset.sum_eq_single g]
    · rw [← Finset.sum_range_reflect]
      refine Finset.sum_congr rfl fun c hc => ?_
      rw [Finset.mem_range] at hc
      have e : g + 1 - 1 - c = g - c := by omega
      simp only [e]
      rw [ell_neg g hg _ (by omega), show g - (g - c) = c by omega]
      simp only [ell_one g hg g le_rfl, if_true, mul_one, quadNode, quadFaceLattice]
    · intro j hj hj0
      rw [Finset.mem_range] at hj
      refine Finset.sum_eq_zero fun i _ => ?_
      simp only [ell_one g hg j (by omega), if_neg hj0, mul_zero, zero_mul]
    · simp
  · rw [quadPt_3_0, ← Finset.sum_range_reflect]
    refine Finset.sum_congr rfl fun c hc => ?_
    rw [Finset.mem_range] at hc
    have e : g + 1 - 1 - c = g - c := by omega
    simp only [e]
    rw [Finset.sum_eq_single 0]
    · rw [ell_neg g hg (g - c) (by omega) s, show g - (g - c) = c by omega]
      simp only [ell_neg_one g hg 0 (by omega), if_true, one_mul, quadNode, quadFaceLattice]
    · intro i hi hi0
      rw [Finset.mem_range] at hi
      simp only [ell_neg_one g hg i (by omega), if_neg hi0, zero_mul]
    · simp

/-- collapse of a sum against a nodal value -/
theorem sum_delta (n a : ℕ) (ha : a < n) (w : ℕ → K) (f : ℕ → K)
    (hw : ∀ i < n, w i = if i = a then 1 else 0) :
    ∑ i ∈ range n, w i * f i = f a := by
  rw [Finset.sum_eq_single a]
  · rw [hw a ha, if_pos rfl, one_mul]
  · intro i hi hia
    rw [hw i (Finset.mem_range.1 hi), if_neg hia, zero_mul]
  · intro h; exact absurd (Finset.mem_range.2 ha) h

theorem physHex_face (g : ℕ) (hg : 0 < g) (elem : ℕ → ℕ → K) (face : ℕ) (hf : face < 6) (s t : K)
    (d : ℕ) (hd : d < 3) :
    physHex g elem (hexPt face 0 (s, t)) d
      = ∑ r ∈ range (g + 1), ∑ c ∈ range (g + 1),
          ell g c s * ell g r t * elem (hexNode g (hexFaceLattice face g c r)) d := by
  rw [physHex_eq g hg elem _ d hd]
  have hw0 : ∀ i < g + 1, ell g i (-1 : K) = if i = 0 then 1 else 0 :=
    fun i hi => ell_neg_one g hg i (by omega)
  have hw1 : ∀ i < g + 1, ell g i (1 : K) = if i = g then 1 else 0 :=
    fun i hi => ell_one g hg i (by omega)
  have hF : face = 0 ∨ face = 1 ∨ face = 2 ∨ face = 3 ∨ face = 4 ∨ face = 5 := by omega
  rcases hF with rfl | rfl | rfl | rfl | rfl | rfl
  · rw [hexPt_0_0]
    have : ∀ k, (∑ j ∈ range (g + 1), ∑ i ∈ range (g + 1),
        ell g i t * ell g j s * ell g k (-1 : K) * elem (hexNode g (i, j, k)) d)
        = ell g k (-1 : K) * ∑ j ∈ range (g + 1), ∑ i ∈ range (g + 1),
            ell g i t * ell g j s * elem (hexNode g (i, j, k)) d := by
      intro k
      simp only [Finset.mul_sum]
      refine Finset.sum_congr rfl fun j _ => Finset.sum_congr rfl fun i _ => by ring
    simp only [this]
    rw [sum_delta (g + 1) 0 (by omega) _ _ hw0, Finset.sum_comm]
    refine Finset.sum_congr rfl fun r _ => Finset.sum_congr rfl fun c _ => ?_
    simp only [hexFaceLattice]; ring
  · rw [hexPt_1_0]
    refine Finset.sum_congr rfl fun k _ => ?_
    have : ∀ j, (∑ i ∈ range (g + 1),
        ell g i s * ell g j (-1 : K) * ell g k t * elem (hexNode g (i, j, k)) d)
        = ell g j (-1 : K) * ∑ i ∈ range (g + 1),
            ell g i s * ell g k t * elem (hexNode g (i, j, k)) d := by
      intro j
      simp only [Finset.mul_sum]
      refine Finset.sum_congr rfl fun i _ => by ring
    simp only [this]
    rw [sum_delta (g + 1) 0 (by omega) _ _ hw0]
    rfl
  · rw [hexPt_2_0]
    refine Finset.sum_congr rfl fun k _ => Finset.sum_congr rfl fun j _ => ?_
    simp only [mul_assoc]
    rw [sum_delta (g + 1) g (by omega) _ _ hw1]
    rfl
  · rw [hexPt_3_0]
    refine Finset.sum_congr rfl fun k _ => ?_
    have : ∀ j, (∑ i ∈ range (g + 1),
        ell g i (-s) * ell g j (1 : K) * ell g k t * elem (hexNode g (i, j, k)) d)
        = ell g j (1 : K) * ∑ i ∈ range (g + 1),
            ell g i (-s) * ell g k t * elem (hexNode g (i, j, k)) d := by
      intro j
      simp only [Finset.mul_sum]
      refine Finset.sum_congr rfl fun i _ => by ring
    simp only [this]
    rw [sum_delta (g + 1) g (by omega) _ _ hw1, ← Finset.sum_range_reflect]
    refine Finset.sum_congr rfl fun c hc => ?_
    rw [Finset.mem_range] at hc
    have e : g + 1 - 1 - c = g - c := by omega
    simp only [e]
    rw [ell_neg g hg _ (by omega), show g - (g - c) = c by omega]
    rfl
  · rw [hexPt_4_0]
    refine Finset.sum_congr rfl fun k _ => ?_
    have : ∀ j, (∑ i ∈ range (g + 1),
        ell g i (-1 : K) * ell g j (-s) * ell g k t * elem (hexNode g (i, j, k)) d)
        = ell g j (-s) * ell g k t * elem (hexNode g (0, j, k)) d := by
      intro j
      simp only [mul_assoc]
      rw [sum_delta (g + 1) 0 (by omega) _ _ hw0]
    simp only [this]
    rw [← Finset.sum_range_reflect]
    refine Finset.sum_congr rfl fun c hc => ?_
    rw [Finset.mem_range] at hc
    have e : g + 1 - 1 - c = g - c := by omega
    simp only [e]
    rw [ell_neg g hg _ (by omega), show g - (g - c) = c by omega]
    rfl
  · rw [hexPt_5_0]
    have : ∀ k, (∑ j ∈ range (g + 1), ∑ i ∈ range (g + 1),
        ell g i s * ell g j t * ell g k (1 : K) * elem (hexNode g (i, j, k)) d)
        = ell g k (1 : K) * ∑ j ∈ range (g + 1), ∑ i ∈ range (g + 1),
            ell g i s * ell g j t * elem (hexNode g (i, j, k)) d := by
      intro k
      simp only [Finset.mul_sum]
      refine Finset.sum_congr rfl fun j _ => Finset.sum_congr rfl fun i _ => by ring
    simp only [this]
    rw [sum_delta (g + 1) g (by omega) _ _ hw1]
    rfl

/-! ### closed forms of the normals -/

/-- tangent component computed for a quadrilateral face -/
noncomputable def tanQuad (g face : ℕ) (elem : ℕ → ℕ → K) (x : K) (d : ℕ) : K :=
  ∑ c ∈ range (g + 1), ell' g c x * elem (quadNode g (quadFaceLattice face g c)) d

theorem faceNormalQuad_eq (sign : K) (g : ℕ) (hg : 0 < g) (face : ℕ) (hf : face < 4)
    (elem : ℕ → ℕ → K) (x : K) :
    faceNormalQuad sign g face elem x
      = some (sign * tanQuad g face elem x 1, - (sign * tanQuad g face elem x 0)) := by
  unfold faceNormalQuad
  rw [faceNodesQuad_lattice face g hf _ (by simp), pointsOnFaceQuad_eq 0 0 (by omega)]
  simp only [Option.bind_eq_bind, Option.bind_some, List.map_cons, List.map_nil, quadPt_0_0,
    List.getElem?_cons_zero, gradsLagrangeSeg, if_pos hg]
  rw [basisNodes_eq g hg]
  simp only [Option.bind_some]
  have hn : ((List.range (g + 1)).map fun i : ℕ => -1 + (i : K) * (2 / (g : K))) = nodesP g := rfl
  rw [hn, show List.replicate (numBasisSeg g) (0 : K) = List.replicate (g + 1) 0 from rfl,
    grad1D_nodesP]
  simp only [Option.bind_some]
  have key : ∀ d < 2, cATxB_to_C 1 2 1 (nodesPerFaceQuad g)
      (extractNodes elem ((List.range (g + 1)).map fun t =>
        ((quadNode g (quadFaceLattice face g t) : ℕ) : ℤ)))
      (fun i _ => get0 ((List.range (g + 1)).map fun i : ℕ =>
        (derivative (lagPoly (nodesP (K := K) g) i)).eval x) i) (fun _ _ => 0) d 0
      = tanQuad g face elem x d := by
    intro d hd
    simp only [cATxB_to_C, gemm, hd, Nat.zero_lt_one, and_self, if_true, loopSum_eq, zero_add, one_mul,
      nodesPerFaceQuad, tanQuad]
    refine Finset.sum_congr rfl fun c hc => ?_
    rw [Finset.mem_range] at hc
    simp [extractNodes, get0, hc, ell', mul_comm]
  simp only [normalOnFaceQuad, key 0 (by omega), key 1 (by omega)]
  congr 2; ring

/-- first tangent component computed for a hexahedron face, at face coordinates `(a, b)` -/
noncomputable def tanHex1 (g face : ℕ) (elem : ℕ → ℕ → K) (a b : K) (d : ℕ) : K :=
  ∑ r ∈ range (g + 1), ∑ c ∈ range (g + 1),
    ell' g c a * ell g r b * elem (hexNode g (hexFaceLattice face g c r)) d
/-- second tangent component -/
noncomputable def tanHex2 (g face : ℕ) (elem : ℕ → ℕ → K) (a b : K) (d : ℕ) : K :=
  ∑ r ∈ range (g + 1), ∑ c ∈ range (g + 1),
    ell g c a * ell' g r b * elem (hexNode g (hexFaceLattice face g c r)) d

theorem faceNormalHex_eq (sign : K) (g : ℕ) (hg : 0 < g) (face : ℕ) (hf : face < 6)
    (elem : ℕ → ℕ → K) (s t : K) :
    ∃ n, faceNormalHex sign g face elem (s, t) = some n ∧
      n 0 = sign * (tanHex1 g face elem t s 1 * tanHex2 g face elem t s 2
              - tanHex1 g face elem t s 2 * tanHex2 g face elem t s 1) ∧
      n 1 = sign * (tanHex1 g face elem t s 2 * tanHex2 g face elem t s 0
              - tanHex1 g face elem t s 0 * tanHex2 g face elem t s 2) ∧
      n 2 = sign * (tanHex1 g face elem t s 0 * tanHex2 g face elem t s 1
              - tanHex1 g face elem t s 1 * tanHex2 g face elem t s 0) := by
  unfold faceNormalHex
  rw [faceNodesHex_lattice face g hf _ (by simp), pointsOnFaceHex_eq 0 0 (by omega)]
  simp only [Option.bind_eq_bind, Option.bind_some, List.map_cons, List.map_nil, hexPt_0_0,
    List.getElem?_cons_zero]
  rw [gradsLagrangeQuad_eq g hg _ _ _ (by simp [numBasisQuad])]
  simp only [Option.bind_some]
  refine ⟨_, rfl, ?_⟩
  set gr := (List.range ((g + 1) * (g + 1))).map fun m : ℕ =>
      ((derivative (lagPoly (nodesP (K := K) g) (m % (g + 1)))).eval t
          * (lagPoly (nodesP (K := K) g) (m / (g + 1))).eval s,
       (lagPoly (nodesP (K := K) g) (m % (g + 1))).eval t
          * (derivative (lagPoly (nodesP (K := K) g) (m / (g + 1)))).eval s) with hgr
  set co := extractNodes elem (((List.range (nodesPerFaceHex g)).map fun k =>
      hexNode g (hexFaceLattice face g (k % (g + 1)) (k / (g + 1)))).map Int.ofNat) with hco
  have hco' : ∀ m < (g + 1) * (g + 1), ∀ d, co m d
      = elem (hexNode g (hexFaceLattice face g (m % (g + 1)) (m / (g + 1)))) d := by
    intro m hm d
    simp [hco, extractNodes, nodesPerFaceHex, hm]
  have key1 : ∀ d < 3, cATxB_to_C 1 3 2 (nodesPerFaceHex g) co
      (fun i e => if e = 0 then ((gr[i]?).getD (0, 0)).1 else ((gr[i]?).getD (0, 0)).2)
      (fun _ _ => 0) d 0 = tanHex1 g face elem t s d := by
    intro d hd
    simp only [cATxB_to_C, gemm, hd, show (0:ℕ) < 2 by omega, and_self, if_true, loopSum_eq, zero_add,
      one_mul, nodesPerFaceHex, tanHex1]
    rw [← sum_div_mod (g + 1) (g + 1) (fun c r => ell' g c t * ell g r s
      * elem (hexNode g (hexFaceLattice face g c r)) d)]
    refine Finset.sum_congr rfl fun m hm => ?_
    rw [Finset.mem_range] at hm
    rw [hco' m hm]
    simp [hgr, hm, ell', ell, mul_comm]
  have key2 : ∀ d < 3, cATxB_to_C 1 3 2 (nodesPerFaceHex g) co
      (fun i e => if e = 0 then ((gr[i]?).getD (0, 0)).1 else ((gr[i]?).getD (0, 0)).2)
      (fun _ _ => 0) d 1 = tanHex2 g face elem t s d := by
    intro d hd
    simp only [cATxB_to_C, gemm, hd, show (1:ℕ) < 2 by omega, and_self, if_true, loopSum_eq, zero_add,
      one_mul, nodesPerFaceHex, tanHex2, one_ne_zero, if_false]
    rw [← sum_div_mod (g + 1) (g + 1) (fun c r => ell g c t * ell' g r s
      * elem (hexNode g (hexFaceLattice face g c r)) d)]
    refine Finset.sum_congr rfl fun m hm => ?_
    rw [Finset.mem_range] at hm
    rw [hco' m hm]
    simp [hgr, hm, ell', ell, mul_comm]
  refine ⟨?_, ?_, ?_⟩ <;>
    simp only [normalOnFaceHex, scaleVec, cross, show (0:ℕ) < 3 by omega, show (1:ℕ) < 3 by omega,
      show (2:ℕ) < 3 by omega, if_true] <;>
    simp only [key1 0 (by omega), key1 1 (by omega), key1 2 (by omega), key2 0 (by omega),
      key2 1 (by omega), key2 2 (by omega)]

/-! ### affine elements -/

/-- reproduction of affine functions in one direction -/
theorem sum_ell (g : ℕ) (hg : 0 < g) (x : K) : ∑ i ∈ range (g + 1), ell g i x = 1 :=
  sum_lagPoly_eval g hg x

theorem sum_node_ell (g : ℕ) (hg : 0 < g) (x : K) :
    ∑ i ∈ range (g + 1), (-1 + (i : K) * (2 / (g : K))) * ell g i x = x := by
  have h := lagPoly_reproduce (nodesP_nodup (K := K) g hg) X (by
    rw [nodesP_length, degree_X]; exact_mod_cast (by omega : 1 < g + 1))
  have := congrArg (fun q => q.eval x) h
  simp only [eval_finsetSum, eval_mul, eval_C, eval_X, nodesP_length] at this
  rw [← this]
  refine Finset.sum_congr rfl fun i hi => ?_
  rw [Finset.mem_range] at hi
  rw [get0_nodesP g i (by omega)]
  simp only [ell]
  rw [this]

end
end DG
