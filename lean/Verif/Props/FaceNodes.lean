import Verif.Props.Shape
import Mathlib.Tactic.IntervalCases

/-! C16: the local node list of a face. -/
namespace DG

theorem pushB_fillTo {α : Type} (g : ℕ → α) (i : ℕ) (a : List α) (h : i < a.length) :
    pushB (i, fillTo g i a) (g i) = some (i + 1, fillTo g (i + 1) a) := by
  simp [pushB, setB_fillTo g i a h]

/-- entry `k` of the list of a quadrilateral face -/
theorem faceNodesQuad_eq (face g : ℕ) (a : List ℤ) (ha : a.length = g + 1) :
    faceNodesQuad face g a = some ((List.range (g + 1)).map fun i : ℕ =>
      (faceStrideQuad face g).1 + (i : ℤ) * (faceStrideQuad face g).2) :=
  foldlM_fill _ _ a ha

/-- entry `k` of the list of a hexahedron face: row `k / (g+1)`, column `k % (g+1)` -/
theorem faceNodesHex_eq (face g : ℕ) (a : List ℤ) (ha : a.length = (g + 1) * (g + 1)) :
    faceNodesHex face g a = some ((List.range ((g + 1) * (g + 1))).map fun k =>
      (faceStrideHex face g).1 + ((k % (g + 1) : ℕ) : ℤ) * (faceStrideHex face g).2.1
        + ((k / (g + 1) : ℕ) : ℤ) * (faceStrideHex face g).2.2) := by
  set f : ℕ → ℤ := fun k => (faceStrideHex face g).1
    + ((k % (g + 1) : ℕ) : ℤ) * (faceStrideHex face g).2.1
        + ((k / (g + 1) : ℕ) : ℤ) * (faceStrideHex face g).2.2 with hf
  have hval : ∀ j i, i < g + 1 → f (j * (g + 1) + i) =
      (faceStrideHex face g).1 + (i : ℤ) * (faceStrideHex face g).2.1
        + (j : ℤ) * (faceStrideHex face g).2.2 := by
    intro j i hi
    have h1 : (j * (g + 1) + i) / (g + 1) = j := by
      rw [Nat.add_comm, Nat.add_mul_div_right _ _ (by omega), Nat.div_eq_of_lt hi]; simp
    have h2 : (j * (g + 1) + i) % (g + 1) = i := by
      rw [Nat.add_comm, Nat.add_mul_mod_self_right, Nat.mod_eq_of_lt hi]
    simp only [hf, h1, h2]
  have hrow : ∀ j < g + 1, (List.range (g + 1)).foldlM
        (fun (st : ℕ × List ℤ) (i : ℕ) => pushB st ((faceStrideHex face g).1
          + i * (faceStrideHex face g).2.1 + j * (faceStrideHex face g).2.2))
        (j * (g + 1), fillTo f (j * (g + 1)) a)
      = some ((j + 1) * (g + 1), fillTo f ((j + 1) * (g + 1)) a) := by
    intro j hj
    have := foldlM_range_state
        (fun (st : ℕ × List ℤ) (i : ℕ) => pushB st ((faceStrideHex face g).1
          + i * (faceStrideHex face g).2.1 + j * (faceStrideHex face g).2.2))
        (fun i => (j * (g + 1) + i, fillTo f (j * (g + 1) + i) a)) (g + 1) (by
          intro i hi
          have hlt : j * (g + 1) + i < a.length := by rw [ha]; nlinarith
          rw [← hval j i hi]
          exact pushB_fillTo f _ a hlt)
    rw [Nat.succ_mul]
    exact this
  have := foldlM_range_state
    (fun (st : ℕ × List ℤ) (j : ℕ) =>
      (List.range (g + 1)).foldlM
        (fun (st : ℕ × List ℤ) (i : ℕ) => pushB st ((faceStrideHex face g).1
          + i * (faceStrideHex face g).2.1 + j * (faceStrideHex face g).2.2)) st)
    (fun j => (j * (g + 1), fillTo f (j * (g + 1)) a)) (g + 1) hrow
  simp only [Nat.zero_mul, fillTo_zero] at this
  unfold faceNodesHex
  simp only []
  rw [this, Option.map_some, fillTo_full f _ a ha]

/-- Specification: lattice position `(i, j)` of the order-`g` square is on face `f`. -/
def LatticeSideQuad (f g i j : ℕ) : Prop :=
  match f with
  | 0 => j = 0
  | 1 => i = g
  | 2 => j = g
  | _ => i = 0

/-- Specification: lattice position `(i, j, k)` of the order-`g` cube is on face `f`
(bottom, front, right, back, left, top). -/
def LatticeSideHex (f g i j k : ℕ) : Prop :=
  match f with
  | 0 => k = 0
  | 1 => j = 0
  | 2 => i = g
  | 3 => j = g
  | 4 => i = 0
  | _ => k = g

/-- **C16** (quadrilateral).  For every face and geometric order, the node list of the face has
the advertised length, has no repetition, and consists of exactly the element nodes
`j*(g+1)+i` whose lattice position `(i,j)` is on that face. -/
theorem C16_quad_face_nodes (face g : ℕ) (hf : face < 4) (view : List ℤ)
    (hv : view.length = nodesPerFaceQuad g) :
    ∃ nodes : List ℕ, faceNodesQuad face g view = some (nodes.map Int.ofNat) ∧
      nodes.length = nodesPerFaceQuad g ∧ nodes.Nodup ∧
      (∀ m ∈ nodes, m < nodesPerElemQuad g) ∧
      ∀ i j, i ≤ g → j ≤ g → (j * (g + 1) + i ∈ nodes ↔ LatticeSideQuad face g i j) := by
  -- lattice position of entry `t`
  obtain ⟨pi, pj, hp, hle, hmem, hinj⟩ : ∃ pi pj : ℕ → ℕ,
      (∀ t < g + 1, (faceStrideQuad face g).1 + (t : ℤ) * (faceStrideQuad face g).2
        = ((pj t * (g + 1) + pi t : ℕ) : ℤ)) ∧
      (∀ t < g + 1, pi t ≤ g ∧ pj t ≤ g) ∧
      (∀ i j, i ≤ g → j ≤ g → ((∃ t < g + 1, pi t = i ∧ pj t = j) ↔ LatticeSideQuad face g i j)) ∧
      (∀ t < g + 1, ∀ s < g + 1, pi t = pi s → pj t = pj s → t = s) := by
    have hF : face = 0 ∨ face = 1 ∨ face = 2 ∨ face = 3 := by omega
    rcases hF with rfl | rfl | rfl | rfl
    · refine ⟨fun t => t, fun _ => 0, ?_, ?_, ?_, ?_⟩
      · intro t ht; simp [faceStrideQuad]
      · intro t ht; beta_reduce; omega
      · intro i j hi hj
        constructor
        · rintro ⟨t, _, _, h⟩; exact h.symm
        · intro h; exact ⟨i, by omega, rfl, h.symm⟩
      · intro t _ s _ h _; exact h
    · refine ⟨fun _ => g, fun t => t, ?_, ?_, ?_, ?_⟩
      · intro t ht; simp [faceStrideQuad]; ring
      · intro t ht; beta_reduce; omega
      · intro i j hi hj
        constructor
        · rintro ⟨t, _, h, _⟩; exact h.symm
        · intro h; exact ⟨j, by omega, h.symm, rfl⟩
      · intro t _ s _ _ h; exact h
    · refine ⟨fun t => g - t, fun _ => g, ?_, ?_, ?_, ?_⟩
      · intro t ht
        simp only [faceStrideQuad]
        rw [Nat.cast_add, Nat.cast_sub (by omega : t ≤ g)]; push_cast; ring
      · intro t ht; beta_reduce; omega
      · intro i j hi hj
        constructor
        · rintro ⟨t, _, _, h⟩; exact h.symm
        · intro h; exact ⟨g - i, by omega, by beta_reduce; omega, h.symm⟩
      · intro t _ s _ h _; beta_reduce at h; omega
    · refine ⟨fun _ => 0, fun t => g - t, ?_, ?_, ?_, ?_⟩
      · intro t ht
        simp only [faceStrideQuad]
        rw [Nat.cast_add, Nat.cast_mul, Nat.cast_sub (by omega : t ≤ g)]; push_cast; ring
      · intro t ht; beta_reduce; omega
      · intro i j hi hj
        constructor
        · rintro ⟨t, _, h, _⟩; exact h.symm
        · intro h; exact ⟨g - j, by omega, h.symm, by beta_reduce; omega⟩
      · intro t _ s _ _ h; beta_reduce at h; omega
  refine ⟨(List.range (g + 1)).map fun t => pj t * (g + 1) + pi t, ?_, ?_, ?_, ?_, ?_⟩
  · rw [faceNodesQuad_eq face g view hv, List.map_map]
    congr 1
    refine List.map_congr_left fun t ht => ?_
    exact hp t (List.mem_range.1 ht)
  · simp [nodesPerFaceQuad]
  · refine List.Nodup.map_on ?_ List.nodup_range
    intro t ht s hs h
    rw [List.mem_range] at ht hs
    obtain ⟨h1, h2⟩ := pair_inj (by have := hle t ht; omega) (by have := hle s hs; omega) h
    exact hinj t ht s hs h2 h1
  · intro m hm
    obtain ⟨t, ht, rfl⟩ := List.mem_map.1 hm
    obtain ⟨h1, h2⟩ := hle t (List.mem_range.1 ht)
    unfold nodesPerElemQuad
    nlinarith
  · intro i j hi hj
    rw [← hmem i j hi hj, List.mem_map]
    constructor
    · rintro ⟨t, ht, h⟩
      rw [List.mem_range] at ht
      obtain ⟨h1, h2⟩ := pair_inj (by have := hle t ht; omega) (by omega) h
      exact ⟨t, ht, h2, h1⟩
    · rintro ⟨t, ht, h1, h2⟩
      exact ⟨t, List.mem_range.2 ht, by rw [h1, h2]⟩

/-- lattice position of the node at row `s`, column `t` of the list of a hexahedron face -/
def hexFaceLattice (face g t s : ℕ) : ℕ × ℕ × ℕ :=
  match face with
  | 0 => (s, t, 0)
  | 1 => (t, 0, s)
  | 2 => (g, t, s)
  | 3 => (g - t, g, s)
  | 4 => (0, g - t, s)
  | _ => (t, s, g)

theorem hexFaceLattice_le {face g t s : ℕ} (ht : t ≤ g) (hs : s ≤ g) :
    (hexFaceLattice face g t s).1 ≤ g ∧ (hexFaceLattice face g t s).2.1 ≤ g ∧
      (hexFaceLattice face g t s).2.2 ≤ g := by
  unfold hexFaceLattice; split <;> refine ⟨?_, ?_, ?_⟩ <;> simp only [] <;> omega

theorem hexFaceLattice_inj {face g t s t' s' : ℕ} (ht : t ≤ g) (ht' : t' ≤ g)
    (h : hexFaceLattice face g t s = hexFaceLattice face g t' s') : t = t' ∧ s = s' := by
  unfold hexFaceLattice at h; split at h <;> simp only [Prod.mk.injEq] at h <;> omega

theorem hexFaceLattice_side {face g i j k : ℕ} (hf : face < 6) (hi : i ≤ g) (hj : j ≤ g)
    (hk : k ≤ g) : (∃ t s, t ≤ g ∧ s ≤ g ∧ hexFaceLattice face g t s = (i, j, k)) ↔
      LatticeSideHex face g i j k := by
  have hF : face = 0 ∨ face = 1 ∨ face = 2 ∨ face = 3 ∨ face = 4 ∨ face = 5 := by omega
  rcases hF with rfl | rfl | rfl | rfl | rfl | rfl <;>
    simp only [hexFaceLattice, LatticeSideHex, Prod.mk.injEq] <;> constructor
  · rintro ⟨t, s, _, _, _, _, h⟩; exact h.symm
  · intro h; exact ⟨j, i, hj, hi, rfl, rfl, h.symm⟩
  · rintro ⟨t, s, _, _, _, h, _⟩; exact h.symm
  · intro h; exact ⟨i, k, hi, hk, rfl, h.symm, rfl⟩
  · rintro ⟨t, s, _, _, h, _, _⟩; exact h.symm
  · intro h; exact ⟨j, k, hj, hk, h.symm, rfl, rfl⟩
  · rintro ⟨t, s, _, _, _, h, _⟩; exact h.symm
  · intro h; exact ⟨g - i, k, by omega, hk, by omega, h.symm, rfl⟩
  · rintro ⟨t, s, _, _, h, _, _⟩; exact h.symm
  · intro h; exact ⟨g - j, k, by omega, hk, h.symm, by omega, rfl⟩
  · rintro ⟨t, s, _, _, _, _, h⟩; exact h.symm
  · intro h; exact ⟨i, j, hi, hj, rfl, rfl, h.symm⟩

/-- node number of a lattice position of the hexahedron -/
def hexNode (g : ℕ) (p : ℕ × ℕ × ℕ) : ℕ := p.2.2 * ((g + 1) * (g + 1)) + p.2.1 * (g + 1) + p.1

theorem hexNode_inj {g : ℕ} {p q : ℕ × ℕ × ℕ} (hp : p.1 ≤ g ∧ p.2.1 ≤ g ∧ p.2.2 ≤ g)
    (hq : q.1 ≤ g ∧ q.2.1 ≤ g ∧ q.2.2 ≤ g) (h : hexNode g p = hexNode g q) : p = q := by
  unfold hexNode at h
  have e : (p.2.2 * (g + 1) + p.2.1) * (g + 1) + p.1 = (q.2.2 * (g + 1) + q.2.1) * (g + 1) + q.1 := by
    nlinarith
  obtain ⟨h1, h2⟩ := pair_inj (by omega) (by omega) e
  obtain ⟨h3, h4⟩ := pair_inj (by omega) (by omega) h1
  exact Prod.ext h2 (Prod.ext h4 h3)

theorem hexNode_lt {g : ℕ} {p : ℕ × ℕ × ℕ} (hp : p.1 ≤ g ∧ p.2.1 ≤ g ∧ p.2.2 ≤ g) :
    hexNode g p < nodesPerElemHex g := by
  obtain ⟨h1, h2, h3⟩ := hp
  unfold hexNode nodesPerElemHex
  have a : p.2.2 * ((g + 1) * (g + 1)) ≤ g * ((g + 1) * (g + 1)) := Nat.mul_le_mul_right _ h3
  have b : p.2.1 * (g + 1) ≤ g * (g + 1) := Nat.mul_le_mul_right _ h2
  nlinarith

theorem faceStrideHex_lattice (face g t s : ℕ) (hf : face < 6) (ht : t ≤ g) :
    (faceStrideHex face g).1 + (t : ℤ) * (faceStrideHex face g).2.1
        + (s : ℤ) * (faceStrideHex face g).2.2 = (hexNode g (hexFaceLattice face g t s) : ℤ) := by
  have hF : face = 0 ∨ face = 1 ∨ face = 2 ∨ face = 3 ∨ face = 4 ∨ face = 5 := by omega
  rcases hF with rfl | rfl | rfl | rfl | rfl | rfl <;>
    simp only [faceStrideHex, hexNode, hexFaceLattice] <;> push_cast [Nat.cast_sub ht] <;> ring

theorem faceNodesHex_lattice (face g : ℕ) (hf : face < 6) (view : List ℤ)
    (hv : view.length = nodesPerFaceHex g) :
    faceNodesHex face g view = some (((List.range (nodesPerFaceHex g)).map fun k =>
      hexNode g (hexFaceLattice face g (k % (g + 1)) (k / (g + 1)))).map Int.ofNat) := by
  rw [faceNodesHex_eq face g view hv, List.map_map]
  congr 1
  refine List.map_congr_left fun k hk => ?_
  have hk' : k < (g + 1) * (g + 1) := List.mem_range.1 hk
  obtain ⟨_, hc⟩ := div_mod_lt hk'
  exact faceStrideHex_lattice face g _ _ hf (by omega)

/-- **C16** (hexahedron).  For every face and geometric order, the node list of the face has the
advertised length, has no repetition, and consists of exactly the element nodes
`k*(g+1)²+j*(g+1)+i` whose lattice position `(i,j,k)` is on that face. -/
theorem C16_hex_face_nodes (face g : ℕ) (hf : face < 6) (view : List ℤ)
    (hv : view.length = nodesPerFaceHex g) :
    ∃ nodes : List ℕ, faceNodesHex face g view = some (nodes.map Int.ofNat) ∧
      nodes.length = nodesPerFaceHex g ∧ nodes.Nodup ∧
      (∀ m ∈ nodes, m < nodesPerElemHex g) ∧
      ∀ i j k, i ≤ g → j ≤ g → k ≤ g →
        (k * ((g + 1) * (g + 1)) + j * (g + 1) + i ∈ nodes ↔ LatticeSideHex face g i j k) := by
  refine ⟨_, faceNodesHex_lattice face g hf view hv, by simp, ?_, ?_, ?_⟩
  · refine List.Nodup.map_on ?_ List.nodup_range
    intro x hx y hy h
    have hx' : x < (g + 1) * (g + 1) := List.mem_range.1 hx
    have hy' : y < (g + 1) * (g + 1) := List.mem_range.1 hy
    obtain ⟨a1, a2⟩ := div_mod_lt hx'
    obtain ⟨b1, b2⟩ := div_mod_lt hy'
    have := hexNode_inj (hexFaceLattice_le (by omega) (by omega))
      (hexFaceLattice_le (by omega) (by omega)) h
    obtain ⟨c1, c2⟩ := hexFaceLattice_inj (by omega) (by omega) this
    rw [← Nat.div_add_mod x (g + 1), ← Nat.div_add_mod y (g + 1), c1, c2]
  · intro m hm
    obtain ⟨x, hx, rfl⟩ := List.mem_map.1 hm
    have hx' : x < (g + 1) * (g + 1) := List.mem_range.1 hx
    obtain ⟨a1, a2⟩ := div_mod_lt hx'
    exact hexNode_lt (hexFaceLattice_le (by omega) (by omega))
  · intro i j k hi hj hk
    rw [← hexFaceLattice_side hf hi hj hk, List.mem_map]
    constructor
    · rintro ⟨x, hx, h⟩
      have hx' : x < (g + 1) * (g + 1) := List.mem_range.1 hx
      obtain ⟨a1, a2⟩ := div_mod_lt hx'
      refine ⟨x % (g + 1), x / (g + 1), by omega, by omega, ?_⟩
      exact hexNode_inj (q := (i, j, k)) (hexFaceLattice_le (by omega) (by omega)) ⟨hi, hj, hk⟩ h
    · rintro ⟨t, s, ht, hs, h⟩
      refine ⟨s * (g + 1) + t, ?_, ?_⟩
      · rw [List.mem_range]; unfold nodesPerFaceHex; nlinarith
      · have h1 : (s * (g + 1) + t) / (g + 1) = s := by
          rw [Nat.add_comm, Nat.add_mul_div_right _ _ (by omega), Nat.div_eq_of_lt (by omega)]; simp
        have h2 : (s * (g + 1) + t) % (g + 1) = t := by
          rw [Nat.add_comm, Nat.add_mul_mod_self_right, Nat.mod_eq_of_lt (by omega)]
        rw [h1, h2, h]
        rfl

/-- **C16**, order of the list (hexahedron).  Entry `k` of the node list of a face is the element
node at the position where the orientation-0 placement of the face puts node `k` of the face (row
`k/(g+1)`, column `k%(g+1)` of the equidistant grid on `[-1,1]²`).  So the face geometry built
from the listed nodes is parametrised as orientation 0 of the face. -/
theorem C16_hex_list_order {K : Type} [Field K] [LinearOrder K] [IsStrictOrderedRing K]
    (face g : ℕ) (hf : face < 6) (hg : 0 < g) (view : List ℤ)
    (hv : view.length = nodesPerFaceHex g) :
    ∃ nodes : List ℕ, faceNodesHex face g view = some (nodes.map Int.ofNat) ∧
      ∀ r c, r ≤ g → c ≤ g → ∃ i j k, i ≤ g ∧ j ≤ g ∧ k ≤ g ∧
        nodes[r * (g + 1) + c]? = some (k * ((g + 1) * (g + 1)) + j * (g + 1) + i) ∧
        pointsOnFaceHex (K := K) face 0 [(-1 + 2 * (c : K) / g, -1 + 2 * (r : K) / g)] =
          some [(-1 + 2 * (i : K) / g, -1 + 2 * (j : K) / g, -1 + 2 * (k : K) / g)] := by
  refine ⟨_, faceNodesHex_lattice face g hf view hv, ?_⟩
  intro r c hr hc
  have hb := hexFaceLattice_le (face := face) hc hr
  refine ⟨(hexFaceLattice face g c r).1, (hexFaceLattice face g c r).2.1,
    (hexFaceLattice face g c r).2.2, hb.1, hb.2.1, hb.2.2, ?_, ?_⟩
  · have hlt : r * (g + 1) + c < nodesPerFaceHex g := by unfold nodesPerFaceHex; nlinarith
    have h1 : (r * (g + 1) + c) / (g + 1) = r := by
      rw [Nat.add_comm, Nat.add_mul_div_right _ _ (by omega), Nat.div_eq_of_lt (by omega)]; simp
    have h2 : (r * (g + 1) + c) % (g + 1) = c := by
      rw [Nat.add_comm, Nat.add_mul_mod_self_right, Nat.mod_eq_of_lt (by omega)]
    simp only [List.getElem?_map, List.getElem?_range hlt, Option.map_some, h1, h2]
    rfl
  · rw [pointsOnFaceHex_eq face 0 hf]
    simp only [List.map_cons, List.map_nil, Option.some.injEq, List.cons.injEq, and_true]
    have hg' : (g : K) ≠ 0 := by exact_mod_cast hg.ne'
    have hF : face = 0 ∨ face = 1 ∨ face = 2 ∨ face = 3 ∨ face = 4 ∨ face = 5 := by omega
    rcases hF with rfl | rfl | rfl | rfl | rfl | rfl <;>
      simp only [hexPt_0_0, hexPt_1_0, hexPt_2_0, hexPt_3_0, hexPt_4_0, hexPt_5_0,
        hexFaceLattice, Prod.mk.injEq] <;>
      (repeat' apply And.intro) <;> (try trivial) <;> push_cast [Nat.cast_sub hc] <;> field_simp <;> ring

/-- **C16**, order of the list (quadrilateral). -/
theorem C16_quad_list_order {K : Type} [Field K] [LinearOrder K] [IsStrictOrderedRing K]
    (face g : ℕ) (hf : face < 4) (hg : 0 < g) (view : List ℤ)
    (hv : view.length = nodesPerFaceQuad g) :
    ∃ nodes : List ℤ, faceNodesQuad face g view = some nodes ∧
      ∀ c, c ≤ g → ∃ i j, i ≤ g ∧ j ≤ g ∧ nodes[c]? = some ((j * (g + 1) + i : ℕ) : ℤ) ∧
        pointsOnFaceQuad (K := K) face 0 [-1 + 2 * (c : K) / g] =
          some [(-1 + 2 * (i : K) / g, -1 + 2 * (j : K) / g)] := by
  refine ⟨_, faceNodesQuad_eq face g view hv, ?_⟩
  intro c hc
  have hlt : c < g + 1 := by omega
  have hg' : (g : K) ≠ 0 := by exact_mod_cast hg.ne'
  simp only [List.getElem?_map, List.getElem?_range hlt, Option.map_some,
    pointsOnFaceQuad_eq face 0 hf, List.map_cons, List.map_nil, Option.some.injEq,
    List.cons.injEq, and_true]
  have hF : face = 0 ∨ face = 1 ∨ face = 2 ∨ face = 3 := by omega
  rcases hF with rfl | rfl | rfl | rfl <;>
    simp only [quadPt_0_0, quadPt_1_0, quadPt_2_0, quadPt_3_0, faceStrideQuad]
  · refine ⟨c, 0, hc, by omega, ?_, ?_⟩
    · push_cast; ring
    · simp
  · refine ⟨g, c, by omega, hc, ?_, ?_⟩
    · push_cast; ring
    · simp only [Prod.mk.injEq, and_true]; field_simp; ring
  · refine ⟨g - c, g, by omega, by omega, ?_, ?_⟩
    · push_cast [Nat.cast_sub hc]; ring
    · simp only [Prod.mk.injEq]; constructor <;> push_cast [Nat.cast_sub hc] <;> field_simp <;> ring
  · refine ⟨0, g - c, by omega, by omega, ?_, ?_⟩
    · push_cast [Nat.cast_sub hc]; ring
    · simp only [Prod.mk.injEq]; constructor <;> push_cast [Nat.cast_sub hc] <;> field_simp <;> ring

example : faceNodesHex 3 2 (List.replicate 9 0) = some [8, 7, 6, 17, 16, 15, 26, 25, 24] := by decide
example : faceNodesQuad 2 3 (List.replicate 4 0) = some [15, 14, 13, 12] := by decide

end DG
