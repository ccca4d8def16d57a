import Verif.Lemmas.Family

/-! C21 on quadrilaterals and hexahedra: products of Legendre polynomials, and their gradients. -/
namespace DG
open Polynomial

theorem idx2_lt {p i j : ℕ} (hi : i ≤ p) (hj : j ≤ p) : j * (p + 1) + i < (p + 1) * (p + 1) := by
  calc j * (p + 1) + i < j * (p + 1) + (p + 1) := by omega
    _ = (j + 1) * (p + 1) := by ring
    _ ≤ (p + 1) * (p + 1) := Nat.mul_le_mul_right _ (by omega)

theorem idx3_parts {p i j k : ℕ} (hi : i ≤ p) (hj : j ≤ p) (hk : k ≤ p) :
    (k * (p + 1) + j) * (p + 1) + i < (p + 1) * (p + 1) * (p + 1) ∧
    ((k * (p + 1) + j) * (p + 1) + i) % (p + 1) = i ∧
    ((k * (p + 1) + j) * (p + 1) + i) / (p + 1) % (p + 1) = j ∧
    ((k * (p + 1) + j) * (p + 1) + i) / ((p + 1) * (p + 1)) = k := by
  have h1 := idx2_lt hj hk
  have hd : ((k * (p + 1) + j) * (p + 1) + i) / (p + 1) = k * (p + 1) + j := idx2_div (by omega)
  refine ⟨?_, idx2_mod (by omega), ?_, ?_⟩
  · calc (k * (p + 1) + j) * (p + 1) + i < (k * (p + 1) + j) * (p + 1) + (p + 1) := by omega
      _ = (k * (p + 1) + j + 1) * (p + 1) := by ring
      _ ≤ _ := Nat.mul_le_mul_right _ h1
  · rw [hd]; exact idx2_mod (by omega)
  · rw [← Nat.div_div_eq_div_mul, hd]; exact idx2_div (by omega)

/-- **C21** (quadrilaterals).  For every order `p ≤ 7` and every point, entry `j (p+1) + i` of the values is
`P_i(x) P_j(y)`, and the two components of that entry of the gradients are its partial derivatives. -/
theorem C21_quadrilateral (p : ℕ) (hp : p ≤ 7) (row : List ℝ) (hr : row.length = (p + 1) * (p + 1)) :
    ∃ (phi : ℝ → ℝ → List ℝ) (g : ℝ → ℝ → List (ℝ × ℝ)),
      (∀ x y, valuesLegendreQuad p x y row = some (phi x y)) ∧
      (∀ x y, gradsLegendreQuad p x y (List.replicate ((p + 1) * (p + 1)) (0, 0)) = some (g x y)) ∧
      ∀ x y, ∀ i ≤ p, ∀ j ≤ p,
        (phi x y)[j * (p + 1) + i]? = some ((legPoly i).eval x * (legPoly j).eval y) ∧
        ∃ gx gy, (g x y)[j * (p + 1) + i]? = some (gx, gy) ∧
          HasDerivAt (fun s => get0 (phi s y) (j * (p + 1) + i)) gx x ∧
          HasDerivAt (fun s => get0 (phi x s) (j * (p + 1) + i)) gy y := by
  refine ⟨_, _, fun x y => valuesLegendreQuad_eq p hp x y row hr, fun x y => gradsLegendreQuad_eq p hp x y _ (by simp)
    (fun h => by subst h; rfl), fun x y i hi j hj => ?_⟩
  have hlt := idx2_lt hi hj
  have hm : (j * (p + 1) + i) % (p + 1) = i := idx2_mod (by omega)
  have hd : (j * (p + 1) + i) / (p + 1) = j := idx2_div (by omega)
  refine ⟨by simp [hlt, hm, hd], _, _, by rw [List.getElem?_map, List.getElem?_range hlt]; rfl, ?_, ?_⟩
  · simp only [get0_map_range _ hlt, hm, hd]
    exact ((legPoly i).hasDerivAt x).mul_const _
  · simp only [get0_map_range _ hlt, hm, hd]
    exact ((legPoly j).hasDerivAt y).const_mul _

/-- **C21** (hexahedra).  For every order `p ≤ 7` and every point, entry `(k (p+1) + j) (p+1) + i` of the values
is `P_i(x) P_j(y) P_k(z)`, and the three components of that entry of the gradients are its partial
derivatives. -/
theorem C21_hexahedron (p : ℕ) (hp : p ≤ 7) (row : List ℝ) (hr : row.length = (p + 1) * (p + 1) * (p + 1)) :
    ∃ (phi : ℝ → ℝ → ℝ → List ℝ) (g : ℝ → ℝ → ℝ → List (ℝ × ℝ × ℝ)),
      (∀ x y z, valuesLegendreHex p x y z row = some (phi x y z)) ∧
      (∀ x y z, gradsLegendreHex p x y z (List.replicate ((p + 1) * (p + 1) * (p + 1)) (0, 0, 0)) = some (g x y z)) ∧
      ∀ x y z, ∀ i ≤ p, ∀ j ≤ p, ∀ k ≤ p,
        (phi x y z)[(k * (p + 1) + j) * (p + 1) + i]? =
          some ((legPoly i).eval x * (legPoly j).eval y * (legPoly k).eval z) ∧
        ∃ gx gy gz, (g x y z)[(k * (p + 1) + j) * (p + 1) + i]? = some (gx, gy, gz) ∧
          HasDerivAt (fun s => get0 (phi s y z) ((k * (p + 1) + j) * (p + 1) + i)) gx x ∧
          HasDerivAt (fun s => get0 (phi x s z) ((k * (p + 1) + j) * (p + 1) + i)) gy y ∧
          HasDerivAt (fun s => get0 (phi x y s) ((k * (p + 1) + j) * (p + 1) + i)) gz z := by
  refine ⟨_, _, fun x y z => valuesLegendreHex_eq p hp x y z row hr, fun x y z => gradsLegendreHex_eq p hp x y z _ (by simp)
    (fun h => by subst h; rfl), fun x y z i hi j hj k hk => ?_⟩
  obtain ⟨hlt, h1, h2, h3⟩ := idx3_parts hi hj hk
  refine ⟨by rw [List.getElem?_map, List.getElem?_range hlt]; simp only [Option.map_some, h1, h2, h3], _, _, _,
    by rw [List.getElem?_map, List.getElem?_range hlt]; rfl, ?_, ?_, ?_⟩
  · simp only [get0_map_range _ hlt, h1, h2, h3]
    exact (((legPoly i).hasDerivAt x).mul_const _).mul_const _
  · simp only [get0_map_range _ hlt, h1, h2, h3]
    exact (((legPoly j).hasDerivAt y).const_mul _).mul_const _
  · simp only [get0_map_range _ hlt, h1, h2, h3]
    exact ((legPoly k).hasDerivAt z).const_mul _

example : ∃ phi, valuesLegendreQuad 3 (1 / 2 : ℝ) 2 (List.replicate 16 0) = some phi ∧
    phi[2 * 4 + 1]? = some ((legPoly 1).eval (1 / 2) * (legPoly 2).eval 2) := by
  obtain ⟨phi, g, h1, -, h⟩ := C21_quadrilateral 3 (by norm_num) (List.replicate 16 0) (by simp)
  exact ⟨_, h1 _ _, (h _ _ 1 (by norm_num) 2 (by norm_num)).1⟩

end DG
