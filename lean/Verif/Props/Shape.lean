import Verif.Lemmas.Shape
import Mathlib.Tactic.FieldSimp
import Mathlib.Tactic.NormNum
import Mathlib.Algebra.Order.Field.Basic
import Mathlib.Data.Rat.Defs
import Mathlib.Algebra.Order.Ring.Rat

/-!
C13–C16: face points, face orientations and face nodes of the reference quadrilateral and
hexahedron.
-/
namespace DG

/-! ## C13 -/

/-- **C13** (quadrilateral).  For both orientations and any number of points, the reordering is a
permutation of the point indices. -/
theorem C13_quad_permutation (npts orient : ℕ) (ho : orient < 2) (view : List ℤ)
    (hv : view.length = npts) :
    ∃ order : List ℕ, ptsOrderQuad orient npts view = some (order.map Int.ofNat) ∧
      order.Perm (List.range npts) := by
  refine ⟨(List.range npts).map fun i => if orient = 0 then i else npts - 1 - i, ?_, ?_⟩
  · rw [ptsOrderQuad_closed npts orient ho view hv, List.map_map]; rfl
  · refine perm_range_of_inj _ ?_ ?_
    · intro i hi; split <;> omega
    · intro i hi j hj h; split at h <;> omega

/-- **C13** (hexahedron).  For all eight orientations and any square number of points, the
reordering is a permutation of the point indices, and no assertion fails. -/
theorem C13_hex_permutation (n orient : ℕ) (hn : 0 < n) (ho : orient < 8) (view : List ℤ)
    (hv : view.length = n * n) :
    ∃ order : List ℕ, ptsOrderHex orient (n * n) view = some (order.map Int.ofNat) ∧
      order.Perm (List.range (n * n)) := by
  refine ⟨(List.range (n * n)).map fun i => dihIdx n orient i, ?_, ?_⟩
  · rw [ptsOrderHex_closed n orient hn ho view hv, List.map_map]; rfl
  · exact perm_range_of_inj _ (fun i hi => dihIdx_lt hi) (fun i hi j hj h => dihIdx_inj hi hj h)

/-- **C13**, the limits of the claim: a number of points that is not a positive perfect square
stops at an assertion, and an orientation outside `0..7` leaves the output unset. -/
theorem C13_hex_rejected (npts orient : ℕ) (view : List ℤ) :
    (ptsOrderHex orient npts view = none ↔ ¬ (view.length = npts ∧ 0 < npts ∧ ∃ n, n * n = npts)) ∧
    (8 ≤ orient → (∃ n, 0 < n ∧ n * n = npts) → view.length = npts →
      ptsOrderHex orient npts view = some view) := by
  have hsq : (Nat.sqrt npts * Nat.sqrt npts = npts) ↔ ∃ n, n * n = npts := by
    constructor
    · intro h; exact ⟨_, h⟩
    · rintro ⟨n, rfl⟩; rw [Nat.sqrt_eq]
  constructor
  · constructor
    · intro h hc
      obtain ⟨h1, h2, n, h3⟩ := hc
      subst h3
      have hn : 0 < n := by
        rcases Nat.eq_zero_or_pos n with h0 | h0
        · subst h0; simp at h2
        · exact h0
      by_cases ho : orient < 8
      · rw [ptsOrderHex_closed n orient hn ho view h1] at h; simp at h
      · obtain ⟨k, rfl⟩ : ∃ k, orient = k + 8 := ⟨orient - 8, by omega⟩
        unfold ptsOrderHex at h
        simp [Nat.sqrt_eq, h1, h2] at h
    · intro h
      unfold ptsOrderHex
      rw [if_neg]
      rintro ⟨h1, h2, h3⟩
      exact h ⟨h1, h2, hsq.1 h3⟩
  · rintro ho ⟨n, hn, rfl⟩ h1
    obtain ⟨k, rfl⟩ : ∃ k, orient = k + 8 := ⟨orient - 8, by omega⟩
    unfold ptsOrderHex
    have : 0 < n * n := Nat.mul_pos hn hn
    simp [Nat.sqrt_eq, h1, this]

example : ptsOrderHex 1 9 (List.replicate 9 0) = some [2, 5, 8, 1, 4, 7, 0, 3, 6] :=
  (ptsOrderHex_closed 3 1 (by omega) (by omega) _ rfl).trans (by decide)
example : ptsOrderHex 5 9 (List.replicate 9 7) = some [2, 1, 0, 5, 4, 3, 8, 7, 6] :=
  (ptsOrderHex_closed 3 5 (by omega) (by omega) _ rfl).trans (by decide)
example : ptsOrderHex 0 6 (List.replicate 6 7) = none := by
  refine (C13_hex_rejected 6 0 _).1.2 ?_
  rintro ⟨_, _, n, hn⟩
  have : n ≤ 2 := by by_contra h; have : 3 * 3 ≤ n * n := Nat.mul_le_mul (by omega) (by omega); omega
  have : n = 0 ∨ n = 1 ∨ n = 2 := by omega
  rcases this with rfl | rfl | rfl <;> simp at hn

/-! ## C14, C15: the geometry of a face -/

section Geometry
variable {K : Type} [Field K]

/-- one point of `pointsOnFaceQuad` -/
theorem pointsOnFaceQuad_get (face orient : ℕ) (hf : face < 4) :
    ∃ P : K → K × K, ∀ pts : List K, pointsOnFaceQuad face orient pts = some (pts.map P) := by
  have hF : face = 0 ∨ face = 1 ∨ face = 2 ∨ face = 3 := by omega
  rcases hF with rfl | rfl | rfl | rfl <;> exact ⟨_, fun _ => rfl⟩

theorem pointsOnFaceHex_get (face orient : ℕ) (hf : face < 6) :
    ∃ P : K × K → K × K × K,
      ∀ pts : List (K × K), pointsOnFaceHex face orient pts = some (pts.map P) := by
  have hF : face = 0 ∨ face = 1 ∨ face = 2 ∨ face = 3 ∨ face = 4 ∨ face = 5 := by omega
  rcases hF with rfl | rfl | rfl | rfl | rfl | rfl <;> exact ⟨_, fun _ => rfl⟩

/-- the parametrisation of a quadrilateral face, one point -/
def quadPt (face orient : ℕ) (x : K) : K × K :=
  (((pointsOnFaceQuad face orient [x]).getD []).head?).getD (0, 0)

/-- the parametrisation of a hexahedron face, one point -/
def hexPt (face orient : ℕ) (p : K × K) : K × K × K :=
  (((pointsOnFaceHex face orient [p]).getD []).head?).getD (0, 0, 0)

theorem pointsOnFaceQuad_eq (face orient : ℕ) (hf : face < 4) (pts : List K) :
    pointsOnFaceQuad face orient pts = some (pts.map (quadPt face orient)) := by
  obtain ⟨P, hP⟩ := pointsOnFaceQuad_get (K := K) face orient hf
  rw [hP]
  congr 1
  refine List.map_congr_left fun x _ => ?_
  simp [quadPt, hP]

theorem pointsOnFaceHex_eq (face orient : ℕ) (hf : face < 6) (pts : List (K × K)) :
    pointsOnFaceHex face orient pts = some (pts.map (hexPt face orient)) := by
  obtain ⟨P, hP⟩ := pointsOnFaceHex_get (K := K) face orient hf
  rw [hP]
  congr 1
  refine List.map_congr_left fun x _ => ?_
  simp [hexPt, hP]

variable [LinearOrder K] [IsStrictOrderedRing K]

theorem quadPt_0_0 (x : K) : quadPt 0 0 x = (x, -1) := by
  simp [quadPt, pointsOnFaceQuad, faceCornersQuad, cornerQuad]; constructor <;> ring
theorem quadPt_1_0 (x : K) : quadPt 1 0 x = (1, x) := by
  simp [quadPt, pointsOnFaceQuad, faceCornersQuad, cornerQuad]; ring
theorem quadPt_2_0 (x : K) : quadPt 2 0 x = (-x, 1) := by
  simp [quadPt, pointsOnFaceQuad, faceCornersQuad, cornerQuad]; ring
theorem quadPt_3_0 (x : K) : quadPt 3 0 x = (-1, -x) := by
  simp [quadPt, pointsOnFaceQuad, faceCornersQuad, cornerQuad]; constructor <;> ring

theorem quadPt_flip (face : ℕ) (hf : face < 4) (x : K) : quadPt face 1 x = quadPt face 0 (-x) := by
  have hF : face = 0 ∨ face = 1 ∨ face = 2 ∨ face = 3 := by omega
  rcases hF with rfl | rfl | rfl | rfl <;>
    simp [quadPt, pointsOnFaceQuad, faceCornersQuad, cornerQuad] <;> (try constructor) <;> ring

theorem hexPt_0_0 (x y : K) : hexPt 0 0 (x, y) = (y, x, -1) := by
  simp [hexPt, pointsOnFaceHex, faceCornersHex, cornerHex, orientCorners, List.range_succ]
  refine ⟨?_, ?_, ?_⟩ <;> ring
theorem hexPt_1_0 (x y : K) : hexPt 1 0 (x, y) = (x, -1, y) := by
  simp [hexPt, pointsOnFaceHex, faceCornersHex, cornerHex, orientCorners, List.range_succ]
  refine ⟨?_, ?_, ?_⟩ <;> ring
theorem hexPt_2_0 (x y : K) : hexPt 2 0 (x, y) = (1, x, y) := by
  simp [hexPt, pointsOnFaceHex, faceCornersHex, cornerHex, orientCorners, List.range_succ]
  refine ⟨?_, ?_, ?_⟩ <;> ring
theorem hexPt_3_0 (x y : K) : hexPt 3 0 (x, y) = (-x, 1, y) := by
  simp [hexPt, pointsOnFaceHex, faceCornersHex, cornerHex, orientCorners, List.range_succ]
  refine ⟨?_, ?_, ?_⟩ <;> ring
theorem hexPt_4_0 (x y : K) : hexPt 4 0 (x, y) = (-1, -x, y) := by
  simp [hexPt, pointsOnFaceHex, faceCornersHex, cornerHex, orientCorners, List.range_succ]
  refine ⟨?_, ?_, ?_⟩ <;> ring
theorem hexPt_5_0 (x y : K) : hexPt 5 0 (x, y) = (x, y, 1) := by
  simp [hexPt, pointsOnFaceHex, faceCornersHex, cornerHex, orientCorners, List.range_succ]
  refine ⟨?_, ?_, ?_⟩ <;> ring

/-- face coordinates in orientation 0 of the point with face coordinates `p` in orientation `o` -/
def unorient (o : ℕ) (p : K × K) : K × K :=
  match o with
  | 0 => p
  | 1 => (-p.2, p.1)
  | 2 => (-p.1, -p.2)
  | 3 => (p.2, -p.1)
  | 4 => (p.2, p.1)
  | 5 => (-p.1, p.2)
  | 6 => (-p.2, -p.1)
  | _ => (p.1, -p.2)

set_option maxHeartbeats 1600000 in
theorem hexPt_orient (face o : ℕ) (hf : face < 6) (ho : o < 8) (p : K × K) :
    hexPt face o p = hexPt face 0 (unorient o p) := by
  obtain ⟨x, y⟩ := p
  have hF : face = 0 ∨ face = 1 ∨ face = 2 ∨ face = 3 ∨ face = 4 ∨ face = 5 := by omega
  have hO : o = 0 ∨ o = 1 ∨ o = 2 ∨ o = 3 ∨ o = 4 ∨ o = 5 ∨ o = 6 ∨ o = 7 := by omega
  rcases hF with rfl | rfl | rfl | rfl | rfl | rfl <;>
  rcases hO with rfl | rfl | rfl | rfl | rfl | rfl | rfl | rfl <;>
  simp only [unorient, hexPt_0_0, hexPt_1_0, hexPt_2_0, hexPt_3_0, hexPt_4_0, hexPt_5_0] <;>
  simp [hexPt, pointsOnFaceHex, faceCornersHex, cornerHex, orientCorners, List.range_succ] <;>
  refine ⟨?_, ?_, ?_⟩ <;> ring

/-- **C14** (quadrilateral).  Let `pts` be any symmetric list of face points (`n` abscissae with
`pts[n-1-i] = -pts[i]`).  For every face and orientation, point `i` of the face seen with
orientation `o` is the reference-element point number `order_o(i)` of the face seen with
orientation 0. -/
theorem C14_quad_geometry (face o : ℕ) (hf : face < 4) (ho : o < 2) (n : ℕ) (x : ℕ → K)
    (sym : ∀ k < n, x (n - 1 - k) = - x k) (pts : List K) (hpts : pts = (List.range n).map x)
    (view : List ℤ) (hv : view.length = n) :
    ∃ order Po P0, ptsOrderQuad o n view = some order ∧
      pointsOnFaceQuad face o pts = some Po ∧ pointsOnFaceQuad face 0 pts = some P0 ∧
      ∀ i < n, ∃ (j : ℕ) (p : K × K),
        order[i]? = some (j : ℤ) ∧ Po[i]? = some p ∧ P0[j]? = some p := by
  refine ⟨_, _, _, ptsOrderQuad_closed n o ho view hv, pointsOnFaceQuad_eq face o hf pts,
    pointsOnFaceQuad_eq face 0 hf pts, ?_⟩
  intro i hi
  refine ⟨(if o = 0 then i else n - 1 - i), quadPt face o (x i), by simp [hi],
    by simp [hpts, hi], ?_⟩
  have hO : o = 0 ∨ o = 1 := by omega
  rcases hO with rfl | rfl
  · simp [hpts, hi]
  · have : n - 1 - i < n := by omega
    simp [hpts, this, sym i hi, quadPt_flip face hf]

/-- **C14** (hexahedron).  For every symmetric set of `n` abscissae `x`, with the face points
listed first direction fastest (`pts[r*n+c] = (x_c, x_r)`), every face and each of the eight
orientations: point `i` of the face seen with orientation `o` is the reference-element point
number `order_o(i)` of the face seen with orientation 0. -/
theorem C14_hex_geometry (face o : ℕ) (hf : face < 6) (ho : o < 8) (n : ℕ) (hn : 0 < n)
    (x : ℕ → K) (sym : ∀ k < n, x (n - 1 - k) = - x k) (pts : List (K × K))
    (hpts : ∀ r < n, ∀ c < n, pts[r * n + c]? = some (x c, x r))
    (view : List ℤ) (hv : view.length = n * n) :
    ∃ order Po P0, ptsOrderHex o (n * n) view = some order ∧
      pointsOnFaceHex face o pts = some Po ∧ pointsOnFaceHex face 0 pts = some P0 ∧
      ∀ i < n * n, ∃ (j : ℕ) (p : K × K × K),
        order[i]? = some (j : ℤ) ∧ Po[i]? = some p ∧ P0[j]? = some p := by
  refine ⟨_, _, _, ptsOrderHex_closed n o hn ho view hv, pointsOnFaceHex_eq face o hf pts,
    pointsOnFaceHex_eq face 0 hf pts, ?_⟩
  intro i hi
  obtain ⟨hr, hc⟩ := div_mod_lt hi
  obtain ⟨h1, h2⟩ := dihedral_lt (o := o) hr hc
  have hi' : pts[i]? = some (x (i % n), x (i / n)) := by
    have := hpts _ hr _ hc
    rwa [Nat.mul_comm, Nat.div_add_mod] at this
  refine ⟨dihIdx n o i, hexPt face o (x (i % n), x (i / n)), by simp [hi],
    by simp [hi'], ?_⟩
  have hj := hpts _ h1 _ h2
  rw [List.getElem?_map]
  unfold dihIdx
  rw [hj, Option.map_some, hexPt_orient face o hf ho]
  congr 2
  generalize i / n = r at *
  generalize i % n = c at *
  have hO : o = 0 ∨ o = 1 ∨ o = 2 ∨ o = 3 ∨ o = 4 ∨ o = 5 ∨ o = 6 ∨ o = 7 := by omega
  rcases hO with rfl | rfl | rfl | rfl | rfl | rfl | rfl | rfl <;>
    simp only [dihedral, unorient, sym r hr, sym c hc]

/-- the hypotheses of C14 are met by the two-point grid `±1/2` -/
example : ∃ order Po P0, ptsOrderHex 3 4 [0, 0, 0, 0] = some order ∧
    pointsOnFaceHex (K := ℚ) 2 3 [(-1/2, -1/2), (1/2, -1/2), (-1/2, 1/2), (1/2, 1/2)] = some Po ∧
    pointsOnFaceHex (K := ℚ) 2 0 [(-1/2, -1/2), (1/2, -1/2), (-1/2, 1/2), (1/2, 1/2)] = some P0 ∧
      ∀ i < 2 * 2, ∃ (j : ℕ) (p : ℚ × ℚ × ℚ),
        order[i]? = some (j : ℤ) ∧ Po[i]? = some p ∧ P0[j]? = some p := by
  refine C14_hex_geometry 2 3 (by omega) (by omega) 2 (by omega)
    (fun k => if k = 0 then -1/2 else 1/2) ?_ _ ?_ [0, 0, 0, 0] rfl
  · intro k hk
    have : k = 0 ∨ k = 1 := by omega
    rcases this with rfl | rfl <;> norm_num
  · intro r hr c hc
    have hr : r = 0 ∨ r = 1 := by omega
    have hc : c = 0 ∨ c = 1 := by omega
    rcases hr with rfl | rfl <;> rcases hc with rfl | rfl <;> norm_num

/-- Without the symmetry of the abscissae the claim of C14 fails: reversing the points is then not
the same as traversing the face backwards. -/
theorem C14_needs_symmetry :
    ∃ (pts : List ℚ) (order : List ℤ) (Po P0 : List (ℚ × ℚ)), ptsOrderQuad 1 2 [0, 0] = some order ∧
      pointsOnFaceQuad 0 1 pts = some Po ∧ pointsOnFaceQuad 0 0 pts = some P0 ∧
      pts.length = 2 ∧ order[0]? = some 1 ∧ Po[0]? ≠ P0[1]? := by
  refine ⟨[0, 1/2], _, _, _, ptsOrderQuad_closed 2 1 (by omega) [0, 0] rfl,
    pointsOnFaceQuad_eq 0 1 (by omega) _, pointsOnFaceQuad_eq 0 0 (by omega) _, rfl, by decide, ?_⟩
  simp only [List.map_cons, List.map_nil, quadPt_flip 0 (by omega : (0:ℕ) < 4), quadPt_0_0]
  norm_num

/-! ### C15 -/

/-- Specification: the side of the reference square carrying face `f` (faces run counter-clockwise
from the bottom). -/
def OnSideQuad (f : ℕ) (p : K × K) : Prop :=
  match f with
  | 0 => p.2 = -1
  | 1 => p.1 = 1
  | 2 => p.2 = 1
  | _ => p.1 = -1

/-- Specification: the side of the reference cube carrying face `f`
(bottom, front, right, back, left, top). -/
def OnSideHex (f : ℕ) (p : K × K × K) : Prop :=
  match f with
  | 0 => p.2.2 = -1
  | 1 => p.2.1 = -1
  | 2 => p.1 = 1
  | 3 => p.2.1 = 1
  | 4 => p.1 = -1
  | _ => p.2.2 = 1

/-- `[-1,1]` -/
def Ref (x : K) : Prop := -1 ≤ x ∧ x ≤ 1

theorem Ref.neg {x : K} (h : Ref x) : Ref (-x) :=
  ⟨by linarith [h.2], by linarith [h.1]⟩

theorem ref_one : Ref (1 : K) := ⟨by linarith [zero_lt_one (α := K)], le_refl _⟩
theorem ref_neg_one : Ref (-1 : K) := ⟨le_refl _, by linarith [zero_lt_one (α := K)]⟩

/-- **C15** (quadrilateral).  Every face and orientation: points of the reference face `[-1,1]`
are placed on that side of the reference square, inside the square, and different face points are
placed at different positions; only the face numbers `0..3` are accepted. -/
theorem C15_quad_on_face (face o : ℕ) (pts : List K) :
    (pointsOnFaceQuad face o pts = none ↔ 4 ≤ face) ∧
    (face < 4 → o < 2 → ∃ P : K → K × K, pointsOnFaceQuad face o pts = some (pts.map P) ∧
      (∀ x, OnSideQuad face (P x)) ∧
      (∀ x, Ref x → Ref (P x).1 ∧ Ref (P x).2) ∧
      (∀ x y, P x = P y → x = y)) := by
  constructor
  · constructor
    · intro h
      by_contra hf
      rw [pointsOnFaceQuad_eq face o (by omega)] at h
      simp at h
    · intro h
      obtain ⟨k, rfl⟩ : ∃ k, face = k + 4 := ⟨face - 4, by omega⟩
      rfl
  · intro hf ho
    refine ⟨quadPt face o, pointsOnFaceQuad_eq face o hf pts, ?_⟩
    have hF : face = 0 ∨ face = 1 ∨ face = 2 ∨ face = 3 := by omega
    have hO : o = 0 ∨ o = 1 := by omega
    rcases hF with rfl | rfl | rfl | rfl <;> rcases hO with rfl | rfl <;>
    refine ⟨fun x => ?_, fun x hx => ?_, fun x y h => ?_⟩ <;>
    (try have hx' := hx.neg) <;>
    simp only [quadPt_flip 0 (by omega : (0:ℕ) < 4), quadPt_flip 1 (by omega : (1:ℕ) < 4),
      quadPt_flip 2 (by omega : (2:ℕ) < 4), quadPt_flip 3 (by omega : (3:ℕ) < 4),
      quadPt_0_0, quadPt_1_0, quadPt_2_0, quadPt_3_0, Prod.mk.injEq, neg_inj, and_true,
      true_and, neg_neg] at * <;>
    first
      | rfl
      | assumption
      | exact ⟨ref_one, by assumption⟩
      | exact ⟨by assumption, ref_one⟩
      | exact ⟨ref_neg_one, by assumption⟩
      | exact ⟨by assumption, ref_neg_one⟩

theorem unorient_inj (o : ℕ) (p q : K × K) (h : unorient o p = unorient o q) : p = q := by
  obtain ⟨a, b⟩ := p
  obtain ⟨c, d⟩ := q
  unfold unorient at h
  split at h <;> simp only [Prod.mk.injEq, neg_inj] at h <;> simp [h.1, h.2]

theorem unorient_ref (o : ℕ) (p : K × K) (h1 : Ref p.1) (h2 : Ref p.2) :
    Ref (unorient o p).1 ∧ Ref (unorient o p).2 := by
  unfold unorient
  split <;> constructor <;> first | assumption | exact h1.neg | exact h2.neg

/-- **C15** (hexahedron).  Every face and orientation: points of the reference face `[-1,1]²` are
placed on that side of the reference cube, inside the cube, and different face points are placed
at different positions; only the face numbers `0..5` are accepted. -/
theorem C15_hex_on_face (face o : ℕ) (pts : List (K × K)) :
    (pointsOnFaceHex face o pts = none ↔ 6 ≤ face) ∧
    (face < 6 → o < 8 → ∃ P : K × K → K × K × K, pointsOnFaceHex face o pts = some (pts.map P) ∧
      (∀ p, OnSideHex face (P p)) ∧
      (∀ p : K × K, Ref p.1 → Ref p.2 → Ref (P p).1 ∧ Ref (P p).2.1 ∧ Ref (P p).2.2) ∧
      (∀ p q, P p = P q → p = q)) := by
  constructor
  · constructor
    · intro h
      by_contra hf
      rw [pointsOnFaceHex_eq face o (by omega)] at h
      simp at h
    · intro h
      obtain ⟨k, rfl⟩ : ∃ k, face = k + 6 := ⟨face - 6, by omega⟩
      rfl
  · intro hf ho
    refine ⟨hexPt face o, pointsOnFaceHex_eq face o hf pts, ?_⟩
    have base : (∀ p : K × K, OnSideHex face (hexPt face 0 p)) ∧
        (∀ p : K × K, Ref p.1 → Ref p.2 → Ref (hexPt face 0 p).1 ∧ Ref (hexPt face 0 p).2.1 ∧
          Ref (hexPt face 0 p).2.2) ∧
        (∀ p q : K × K, hexPt face 0 p = hexPt face 0 q → p = q) := by
      have hF : face = 0 ∨ face = 1 ∨ face = 2 ∨ face = 3 ∨ face = 4 ∨ face = 5 := by omega
      rcases hF with rfl | rfl | rfl | rfl | rfl | rfl <;>
      refine ⟨fun ⟨x, y⟩ => ?_, fun ⟨x, y⟩ h1 h2 => ?_, fun ⟨x, y⟩ ⟨x', y'⟩ h => ?_⟩ <;>
      (try have h1' := h1.neg) <;>
      simp only [hexPt_0_0, hexPt_1_0, hexPt_2_0, hexPt_3_0, hexPt_4_0, hexPt_5_0,
        Prod.mk.injEq, neg_inj] at * <;>
      first
        | rfl
        | exact ⟨by assumption, by assumption, ref_one⟩
        | exact ⟨by assumption, by assumption, ref_neg_one⟩
        | exact ⟨by assumption, ref_one, by assumption⟩
        | exact ⟨by assumption, ref_neg_one, by assumption⟩
        | exact ⟨ref_one, by assumption, by assumption⟩
        | exact ⟨ref_neg_one, by assumption, by assumption⟩
        | simp [h]
    refine ⟨fun p => ?_, fun p h1 h2 => ?_, fun p q h => ?_⟩
    · rw [hexPt_orient face o hf ho]; exact base.1 _
    · rw [hexPt_orient face o hf ho]
      obtain ⟨g1, g2⟩ := unorient_ref o p h1 h2
      exact base.2.1 _ g1 g2
    · rw [hexPt_orient face o hf ho, hexPt_orient face o hf ho] at h
      exact unorient_inj o p q (base.2.2 _ _ h)

end Geometry

example : pointsOnFaceHex (K := ℚ) 3 6 [(1/2, -1/3)] = some [(1/2 * 0 - 1/3, 1, -1/2)] := by
  rw [pointsOnFaceHex_eq 3 6 (by omega)]
  simp only [List.map_cons, List.map_nil, hexPt_orient 3 6 (by omega) (by omega), unorient, hexPt_3_0]
  norm_num

end DG
