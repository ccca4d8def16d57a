import Verif.Lemmas.RoundRel
import Verif.Props.Basis

/-!
The tables of the setup in rounded arithmetic: nodes, bases, rules, reference data.
-/
open Filter Topology
namespace DG

section
variable {ι : Type*} {l : Filter ι} {A : ι → Arith}

/-! ### bases -/

theorem nodes_follow (hA : Fine l A) (order : ℕ) (h0 : 0 < order) :
    RS (RL (Fo l A)) (fun i => basisNodes (K := (A i).K) order) (basisNodes order) := by
  unfold basisNodes equidistant1D
  have h1 : ¬ order + 1 ≤ 1 := by omega
  simp only [h1, if_false, List.length_replicate, ne_eq, not_true_eq_false]
  refine RS.foldlM (fun j _ L M hL => hL.setB j ?_) (RL.replicate _ Fo.zero)
  refine (Fo.one.neg).add hA ((Fo.nat hA j).mul hA (Fo.div hA (Fo.one.sub hA Fo.one.neg) ((Fo.nat hA _).sub hA Fo.one) ?_))
  push_cast
  have : (0 : ℝ) < order := by exact_mod_cast h0
  intro h; linarith

/-- the entries of the list are different -/
def Apart (xn : List ℝ) : Prop := ∀ i < xn.length, ∀ j < xn.length, i ≠ j → get0 xn i - get0 xn j ≠ 0

theorem nodes_apart {order : ℕ} (h0 : 0 < order) {xn : List ℝ} (h : basisNodes order = some xn) : Apart xn := by
  rw [basisNodes_eq order h0] at h
  cases h
  intro i hi j hj hij
  simp only [List.length_map, List.length_range] at hi hj
  have e : ∀ i < order + 1, get0 ((List.range (order + 1)).map fun i : ℕ => -1 + (i : ℝ) * (2 / (order : ℝ))) i =
      -1 + (i : ℝ) * (2 / (order : ℝ)) := by
    intro i hi
    unfold get0
    rw [List.getElem?_map, List.getElem?_range hi]; rfl
  rw [e i hi, e j hj]
  have h1 : (0 : ℝ) < order := by exact_mod_cast h0
  have h2 : ((i : ℝ) - j) ≠ 0 := sub_ne_zero.2 (by exact_mod_cast hij)
  have : -1 + (i : ℝ) * (2 / (order : ℝ)) - (-1 + (j : ℝ) * (2 / (order : ℝ))) = ((i : ℝ) - j) * (2 / order) := by ring
  rw [this]
  positivity

variable {x y z : ∀ i, (A i).K} {x' y' z' : ℝ} {XN : ∀ i, List (A i).K} {xn : List ℝ}

theorem lagrangeVal1D_follow (hA : Fine l A) (hx : Fo l A x x') (hn : RL (Fo l A) XN xn) (hap : Apart xn)
    {R : ∀ i, List (A i).K} {row : List ℝ} (hR : RL (Fo l A) R row) :
    RS (RL (Fo l A)) (fun i => lagrangeVal1D (x i) (XN i) (R i)) (lagrangeVal1D x' xn row) := by
  unfold lagrangeVal1D
  simp only [hn.1]
  refine RS.foldlM (fun j hj L M hL => ?_) hR
  refine (hL.setB j Fo.one).bind fun L M hL _ => ?_
  refine RS.foldlM (fun k hk L M hL => ?_) hL
  by_cases e : j = k
  · simp only [e, if_true]; exact RS.some hL
  · simp only [e, if_false]
    refine hL.setB j ((Fo.get0 hL j).mul hA (Fo.div hA (hx.sub hA (Fo.get0 hn k)) ((Fo.get0 hn j).sub hA (Fo.get0 hn k)) ?_))
    exact hap j (List.mem_range.1 hj) k (List.mem_range.1 hk) e

theorem lagrangeGrad1D_follow (hA : Fine l A) (hx : Fo l A x x') (hn : RL (Fo l A) XN xn) (hap : Apart xn)
    {R : ∀ i, List (A i).K} {row : List ℝ} (hR : RL (Fo l A) R row) :
    RS (RL (Fo l A)) (fun i => lagrangeGrad1D (x i) (XN i) (R i)) (lagrangeGrad1D x' xn row) := by
  unfold lagrangeGrad1D
  simp only [hn.1]
  refine RS.foldlM (fun j hj L M hL => ?_) hR
  refine (hL.setB j Fo.zero).bind fun L M hL _ => ?_
  refine RS.foldlM (fun k hk L M hL => ?_) hL
  by_cases e : j = k
  · simp only [e, if_true]; exact RS.some hL
  · simp only [e, if_false]
    refine hL.setB j ((Fo.get0 hL j).add hA ?_)
    unfold lagrangeGradProd
    simp only [hn.1]
    refine Fo.foldl hA (fun q hq a v ha => ?_) Fo.one
    have hq := List.mem_range.1 hq
    have hj := List.mem_range.1 hj
    by_cases e1 : j = q
    · simp only [e1, if_true]; exact ha
    · have d := hap j hj q hq e1
      by_cases e2 : k = q
      · simp only [e1, e2, if_true, if_false]
        exact ha.mul hA (Fo.one.div hA ((Fo.get0 hn j).sub hA (Fo.get0 hn q)) d)
      · simp only [e1, e2, if_false]
        exact ha.mul hA (Fo.div hA (hx.sub hA (Fo.get0 hn q)) ((Fo.get0 hn j).sub hA (Fo.get0 hn q)) d)

theorem legendreVal1D_follow (hA : Fine l A) (hx : Fo l A x x') (p : ℕ) {R : ∀ i, List (A i).K} {row : List ℝ}
    (hR : RL (Fo l A) R row) : RS (RL (Fo l A)) (fun i => legendreVal1D (x i) p (R i)) (legendreVal1D x' p row) := by
  unfold legendreVal1D
  simp only [Option.bind_eq_bind]
  have c : ∀ (n : ℕ) [n.AtLeastTwo], Fo l A (fun i => 1 / (OfNat.ofNat n : (A i).K)) (1 / (OfNat.ofNat n : ℝ)) :=
    fun n _ => Fo.one.div hA (Fo.ofNat hA n) (OfNat.ofNat_ne_zero n)
  have c2 := c 2
  have c8 := c 8
  have c16 := c 16
  have key : p = 0 ∨ p = 1 ∨ p = 2 ∨ p = 3 ∨ p = 4 ∨ p = 5 ∨ p = 6 ∨ p = 7 ∨ 8 ≤ p := by omega
  rcases key with rfl | rfl | rfl | rfl | rfl | rfl | rfl | rfl | h8
  case inr.inr.inr.inr.inr.inr.inr.inr =>
    have h1 : 1 ≤ p := by omega
    have h2 : 2 ≤ p := by omega
    have h3 : 3 ≤ p := by omega
    have h4 : 4 ≤ p := by omega
    have h5 : 5 ≤ p := by omega
    have h6 : 6 ≤ p := by omega
    have h7 : ¬ p = 7 := by omega
    simp only [h1, h2, h3, h4, h5, h6, h7, if_true, if_false]
    repeat' first
      | exact RS.some (by assumption)
      | refine RS.bind (S := RL (Fo l A)) (RL.setB (by assumption) _ (by fo hA)) fun _ _ _ _ => ?_
  all_goals
    simp +decide only [if_true, if_false, Option.bind_some]
    repeat' first
      | exact RS.some (by assumption)
      | refine RS.bind (S := RL (Fo l A)) (RL.setB (by assumption) _ (by fo hA)) fun _ _ _ _ => ?_
      | exact RL.setB (by assumption) _ (by fo hA)

theorem legendreGrad1D_follow (hA : Fine l A) (hx : Fo l A x x') (p : ℕ) {R : ∀ i, List (A i).K} {row : List ℝ}
    (hR : RL (Fo l A) R row) : RS (RL (Fo l A)) (fun i => legendreGrad1D (x i) p (R i)) (legendreGrad1D x' p row) := by
  unfold legendreGrad1D
  simp only [Option.bind_eq_bind]
  have c : ∀ (n : ℕ) [n.AtLeastTwo], Fo l A (fun i => 1 / (OfNat.ofNat n : (A i).K)) (1 / (OfNat.ofNat n : ℝ)) :=
    fun n _ => Fo.one.div hA (Fo.ofNat hA n) (OfNat.ofNat_ne_zero n)
  have c2 := c 2
  have c8 := c 8
  have c16 := c 16
  have key : p = 0 ∨ p = 1 ∨ p = 2 ∨ p = 3 ∨ p = 4 ∨ p = 5 ∨ p = 6 ∨ p = 7 ∨ 8 ≤ p := by omega
  rcases key with rfl | rfl | rfl | rfl | rfl | rfl | rfl | rfl | h8
  case inr.inr.inr.inr.inr.inr.inr.inr =>
    have h1 : 1 ≤ p := by omega
    have h2 : 2 ≤ p := by omega
    have h3 : 3 ≤ p := by omega
    have h4 : 4 ≤ p := by omega
    have h5 : 5 ≤ p := by omega
    have h6 : 6 ≤ p := by omega
    have h7 : ¬ p = 7 := by omega
    simp only [h1, h2, h3, h4, h5, h6, h7, if_true, if_false]
    repeat' first
      | exact RS.some (by assumption)
      | refine RS.bind (S := RL (Fo l A)) (RL.setB (by assumption) _ (by fo hA)) fun _ _ _ _ => ?_
  all_goals
    simp +decide only [if_true, if_false, Option.bind_some]
    repeat' first
      | exact RS.some (by assumption)
      | refine RS.bind (S := RL (Fo l A)) (RL.setB (by assumption) _ (by fo hA)) fun _ _ _ _ => ?_
      | exact RL.setB (by assumption) _ (by fo hA)

section tensor
variable {VX VY VZ GX GY GZ : ∀ i, List (A i).K} {vx vy vz gx gy gz : List ℝ}

theorem tensorVal2D_follow (hA : Fine l A) (p : ℕ) (h1 : RL (Fo l A) VX vx) (h2 : RL (Fo l A) VY vy)
    {R : ∀ i, List (A i).K} {row : List ℝ} (hR : RL (Fo l A) R row) :
    RS (RL (Fo l A)) (fun i => tensorVal2D p (VX i) (VY i) (R i)) (tensorVal2D p vx vy row) :=
  RS.foldlM (fun _ _ _ _ hL => RS.foldlM (fun _ _ _ _ hL => hL.setB _ ((Fo.get0 h1 _).mul hA (Fo.get0 h2 _))) hL) hR

theorem tensorGrad2D_follow (hA : Fine l A) (p : ℕ) (h1 : RL (Fo l A) VX vx) (h2 : RL (Fo l A) VY vy)
    (g1 : RL (Fo l A) GX gx) (g2 : RL (Fo l A) GY gy)
    {R : ∀ i, List ((A i).K × (A i).K)} {row : List (ℝ × ℝ)} (hR : RL (P2 l A) R row) :
    RS (RL (P2 l A)) (fun i => tensorGrad2D p (VX i) (VY i) (GX i) (GY i) (R i)) (tensorGrad2D p vx vy gx gy row) :=
  RS.foldlM (fun _ _ _ _ hL => RS.foldlM (fun _ _ _ _ hL => hL.setB _
    ⟨(Fo.get0 g1 _).mul hA (Fo.get0 h2 _), (Fo.get0 h1 _).mul hA (Fo.get0 g2 _)⟩) hL) hR

theorem tensorVal3D_follow (hA : Fine l A) (p : ℕ) (h1 : RL (Fo l A) VX vx) (h2 : RL (Fo l A) VY vy) (h3 : RL (Fo l A) VZ vz)
    {R : ∀ i, List (A i).K} {row : List ℝ} (hR : RL (Fo l A) R row) :
    RS (RL (Fo l A)) (fun i => tensorVal3D p (VX i) (VY i) (VZ i) (R i)) (tensorVal3D p vx vy vz row) :=
  RS.foldlM (fun _ _ _ _ hL => RS.foldlM (fun _ _ _ _ hL => RS.foldlM (fun _ _ _ _ hL => hL.setB _
    (((Fo.get0 h1 _).mul hA (Fo.get0 h2 _)).mul hA (Fo.get0 h3 _))) hL) hL) hR

theorem tensorGrad3D_follow (hA : Fine l A) (p : ℕ) (h1 : RL (Fo l A) VX vx) (h2 : RL (Fo l A) VY vy) (h3 : RL (Fo l A) VZ vz)
    (g1 : RL (Fo l A) GX gx) (g2 : RL (Fo l A) GY gy) (g3 : RL (Fo l A) GZ gz)
    {R : ∀ i, List ((A i).K × (A i).K × (A i).K)} {row : List (ℝ × ℝ × ℝ)} (hR : RL (P3 l A) R row) :
    RS (RL (P3 l A)) (fun i => tensorGrad3D p (VX i) (VY i) (VZ i) (GX i) (GY i) (GZ i) (R i))
      (tensorGrad3D p vx vy vz gx gy gz row) :=
  RS.foldlM (fun _ _ _ _ hL => RS.foldlM (fun _ _ _ _ hL => RS.foldlM (fun _ _ _ _ hL => hL.setB _
    ⟨((Fo.get0 g1 _).mul hA (Fo.get0 h2 _)).mul hA (Fo.get0 h3 _), ((Fo.get0 h1 _).mul hA (Fo.get0 g2 _)).mul hA (Fo.get0 h3 _),
     ((Fo.get0 h1 _).mul hA (Fo.get0 h2 _)).mul hA (Fo.get0 g3 _)⟩) hL) hL) hR

end tensor

/-- `Basis::get_values` at a point -/
theorem basisValues_follow (hA : Fine l A) (t : BasisType) (order : ℕ) (hx : Fo l A x x') (hy : Fo l A y y')
    (hz : Fo l A z z') {R : ∀ i, List (A i).K} {row : List ℝ} (hR : RL (Fo l A) R row) :
    RS (RL (Fo l A)) (fun i => basisValues t order (x i) (y i) (z i) (R i)) (basisValues t order x' y' z' row) := by
  have hone : RS (RL (Fo l A)) (fun i => some (List.replicate (R i).length 1)) (some (List.replicate row.length 1)) := by
    simp only [hR.1]
    exact RS.some (RL.replicate _ Fo.one)
  have hrep : ∀ n, RL (Fo l A) (fun i => List.replicate n 0) (List.replicate n 0) := fun n => RL.replicate n Fo.zero
  have nodes : order ≠ 0 → ∀ {f : ∀ i, List (A i).K → Option (List (A i).K)} {g : List ℝ → Option (List ℝ)},
      (∀ XN xn, RL (Fo l A) XN xn → Apart xn → RS (RL (Fo l A)) (fun i => f i (XN i)) (g xn)) →
      RS (RL (Fo l A)) (fun i => (basisNodes order).bind (f i)) ((basisNodes order).bind g) := fun h0 f g h =>
    (nodes_follow hA order (by omega)).bind fun XN xn hn e => h XN xn hn (nodes_apart (by omega) e)
  cases t with
  | LagrangeSeg =>
    unfold basisValues valuesLagrangeSeg
    by_cases h0 : order = 0
    · simpa only [h0, if_true] using hone
    · simp only [h0, if_false]
      exact nodes h0 fun XN xn hn ap => lagrangeVal1D_follow hA hx hn ap hR
  | LagrangeQuad =>
    unfold basisValues valuesLagrangeQuad
    by_cases h0 : order = 0
    · simpa only [h0, if_true] using hone
    · simp only [h0, if_false]
      refine nodes h0 fun XN xn hn ap => ?_
      unfold lagrangeVal2D
      simp only [Option.bind_eq_bind]
      exact (lagrangeVal1D_follow hA hx hn ap (hrep _)).bind fun _ _ a _ =>
        (lagrangeVal1D_follow hA hy hn ap (hrep _)).bind fun _ _ b _ => tensorVal2D_follow hA _ a b hR
  | LagrangeHex =>
    unfold basisValues valuesLagrangeHex
    by_cases h0 : order = 0
    · simpa only [h0, if_true] using hone
    · simp only [h0, if_false]
      refine nodes h0 fun XN xn hn ap => ?_
      unfold lagrangeVal3D
      simp only [Option.bind_eq_bind]
      exact (lagrangeVal1D_follow hA hx hn ap (hrep _)).bind fun _ _ a _ =>
        (lagrangeVal1D_follow hA hy hn ap (hrep _)).bind fun _ _ b _ =>
        (lagrangeVal1D_follow hA hz hn ap (hrep _)).bind fun _ _ c _ => tensorVal3D_follow hA _ a b c hR
  | LegendreSeg =>
    unfold basisValues valuesLegendreSeg
    exact RS.ite hone (legendreVal1D_follow hA hx order hR)
  | LegendreQuad =>
    unfold basisValues valuesLegendreQuad
    refine RS.ite hone ?_
    unfold legendreVal2D
    simp only [Option.bind_eq_bind]
    exact (legendreVal1D_follow hA hx order (hrep _)).bind fun _ _ a _ =>
        (legendreVal1D_follow hA hy order (hrep _)).bind fun _ _ b _ => tensorVal2D_follow hA _ a b hR
  | LegendreHex =>
    unfold basisValues valuesLegendreHex
    refine RS.ite hone ?_
    unfold legendreVal3D
    simp only [Option.bind_eq_bind]
    exact (legendreVal1D_follow hA hx order (hrep _)).bind fun _ _ a _ =>
        (legendreVal1D_follow hA hy order (hrep _)).bind fun _ _ b _ =>
        (legendreVal1D_follow hA hz order (hrep _)).bind fun _ _ c _ => tensorVal3D_follow hA _ a b c hR
  | _ => exact RS.none

theorem P2.zero : P2 l A (fun _ => (0, 0)) (0, 0) := ⟨Fo.zero, Fo.zero⟩
theorem P3.zero : P3 l A (fun _ => (0, 0, 0)) (0, 0, 0) := ⟨Fo.zero, Fo.zero, Fo.zero⟩

theorem gradsSeg_follow (hA : Fine l A) (order : ℕ) (hx : Fo l A x x') {R : ∀ i, List (A i).K} {row : List ℝ}
    (hR : RL (Fo l A) R row) :
    RS (RL (Fo l A)) (fun i => gradsLagrangeSeg order (x i) (R i)) (gradsLagrangeSeg order x' row) := by
  unfold gradsLagrangeSeg
  by_cases h0 : 0 < order
  · simp only [h0, if_true]
    exact (nodes_follow hA order h0).bind fun XN xn hn e => lagrangeGrad1D_follow hA hx hn (nodes_apart h0 e) hR
  · simpa only [h0, if_false] using RS.some hR

theorem gradsQuad_follow (hA : Fine l A) (order : ℕ) (hx : Fo l A x x') (hy : Fo l A y y')
    {R : ∀ i, List ((A i).K × (A i).K)} {row : List (ℝ × ℝ)} (hR : RL (P2 l A) R row) :
    RS (RL (P2 l A)) (fun i => gradsLagrangeQuad order (x i) (y i) (R i)) (gradsLagrangeQuad order x' y' row) := by
  have hrep : ∀ n, RL (Fo l A) (fun i => List.replicate n 0) (List.replicate n 0) := fun n => RL.replicate n Fo.zero
  unfold gradsLagrangeQuad
  by_cases h0 : 0 < order
  · simp only [h0, if_true]
    refine (nodes_follow hA order h0).bind fun XN xn hn e => ?_
    have ap := nodes_apart h0 e
    unfold lagrangeGrad2D
    simp only [Option.bind_eq_bind]
    exact (lagrangeVal1D_follow hA hx hn ap (hrep _)).bind fun _ _ a _ =>
        (lagrangeVal1D_follow hA hy hn ap (hrep _)).bind fun _ _ b _ =>
        (lagrangeGrad1D_follow hA hx hn ap (hrep _)).bind fun _ _ c _ =>
        (lagrangeGrad1D_follow hA hy hn ap (hrep _)).bind fun _ _ d _ => tensorGrad2D_follow hA _ a b c d hR
  · simpa only [h0, if_false] using RS.some hR

/-- entries of a gradient table -/
def FoG (l : Filter ι) (A : ι → Arith) (g : ∀ i, ℕ → ℕ → (A i).K) (g' : ℕ → ℕ → ℝ) : Prop :=
  ∀ n c, Fo l A (fun i => g i n c) (g' n c)

theorem grad1_follow {R : ∀ i, List (A i).K} {row : List ℝ} (hR : RL (Fo l A) R row) :
    FoG l A (fun i => grad1 (R i)) (grad1 row) := by
  intro n c
  match c with
  | 0 => exact Fo.get0 hR n
  | c + 1 => exact Fo.zero

theorem grad2_follow {R : ∀ i, List ((A i).K × (A i).K)} {row : List (ℝ × ℝ)} (hR : RL (P2 l A) R row) :
    FoG l A (fun i => grad2 (R i)) (grad2 row) := by
  intro n c
  match c with
  | 0 => exact (hR.getD P2.zero n).1
  | 1 => exact (hR.getD P2.zero n).2
  | c + 2 => exact Fo.zero

theorem grad3_follow {R : ∀ i, List ((A i).K × (A i).K × (A i).K)} {row : List (ℝ × ℝ × ℝ)} (hR : RL (P3 l A) R row) :
    FoG l A (fun i => grad3 (R i)) (grad3 row) := by
  intro n c
  match c with
  | 0 => exact (hR.getD P3.zero n).1
  | 1 => exact (hR.getD P3.zero n).2.1
  | 2 => exact (hR.getD P3.zero n).2.2
  | c + 3 => exact Fo.zero

/-- `Basis::get_grads` at a point -/
theorem basisGrads_follow (hA : Fine l A) (t : BasisType) (order nb : ℕ) {pt : ∀ i, (A i).K × (A i).K × (A i).K}
    {pt' : ℝ × ℝ × ℝ} (hp : P3 l A pt pt') :
    RS (FoG l A) (fun i => basisGrads t order nb (pt i)) (basisGrads t order nb pt') := by
  obtain ⟨hx, hy, hz⟩ := hp
  have hrep : ∀ n, RL (Fo l A) (fun i => List.replicate n 0) (List.replicate n 0) := fun n => RL.replicate n Fo.zero
  have hrep2 : ∀ n, RL (P2 l A) (fun i => List.replicate n (0, 0)) (List.replicate n (0, 0)) := fun n => RL.replicate n P2.zero
  have hrep3 : ∀ n, RL (P3 l A) (fun i => List.replicate n (0, 0, 0)) (List.replicate n (0, 0, 0)) :=
    fun n => RL.replicate n P3.zero
  cases t with
  | LagrangeSeg => exact (gradsSeg_follow hA order hx (hrep nb)).map fun _ _ => grad1_follow
  | LagrangeQuad => exact (gradsQuad_follow hA order hx hy (hrep2 nb)).map fun _ _ => grad2_follow
  | LagrangeHex =>
    refine RS.map (S := RL (P3 l A)) ?_ fun _ _ => grad3_follow
    unfold gradsLagrangeHex
    by_cases h0 : 0 < order
    · simp only [h0, if_true]
      refine (nodes_follow hA order h0).bind fun XN xn hn e => ?_
      have ap := nodes_apart h0 e
      unfold lagrangeGrad3D
      simp only [Option.bind_eq_bind]
      exact (lagrangeVal1D_follow hA hx hn ap (hrep _)).bind fun _ _ a _ =>
          (lagrangeVal1D_follow hA hy hn ap (hrep _)).bind fun _ _ b _ =>
          (lagrangeVal1D_follow hA hz hn ap (hrep _)).bind fun _ _ b' _ =>
          (lagrangeGrad1D_follow hA hx hn ap (hrep _)).bind fun _ _ c _ =>
          (lagrangeGrad1D_follow hA hy hn ap (hrep _)).bind fun _ _ d _ =>
          (lagrangeGrad1D_follow hA hz hn ap (hrep _)).bind fun _ _ d' _ => tensorGrad3D_follow hA _ a b b' c d d' (hrep3 nb)
    · simpa only [h0, if_false] using RS.some (hrep3 nb)
  | LegendreSeg =>
    refine RS.map (S := RL (Fo l A)) ?_ fun _ _ => grad1_follow
    unfold gradsLegendreSeg
    exact RS.ite (legendreGrad1D_follow hA hx order (hrep nb)) (RS.some (hrep nb))
  | LegendreQuad =>
    refine RS.map (S := RL (P2 l A)) ?_ fun _ _ => grad2_follow
    unfold gradsLegendreQuad
    refine RS.ite ?_ (RS.some (hrep2 nb))
    unfold legendreGrad2D
    simp only [Option.bind_eq_bind]
    exact (legendreVal1D_follow hA hx order (hrep _)).bind fun _ _ a _ =>
        (legendreVal1D_follow hA hy order (hrep _)).bind fun _ _ b _ =>
        (legendreGrad1D_follow hA hx order (hrep _)).bind fun _ _ c _ =>
        (legendreGrad1D_follow hA hy order (hrep _)).bind fun _ _ d _ => tensorGrad2D_follow hA _ a b c d (hrep2 nb)
  | LegendreHex =>
    refine RS.map (S := RL (P3 l A)) ?_ fun _ _ => grad3_follow
    unfold gradsLegendreHex
    refine RS.ite ?_ (RS.some (hrep3 nb))
    unfold legendreGrad3D
    simp only [Option.bind_eq_bind]
    exact (legendreVal1D_follow hA hx order (hrep _)).bind fun _ _ a _ =>
        (legendreVal1D_follow hA hy order (hrep _)).bind fun _ _ b _ =>
        (legendreVal1D_follow hA hz order (hrep _)).bind fun _ _ b' _ =>
        (legendreGrad1D_follow hA hx order (hrep _)).bind fun _ _ c _ =>
        (legendreGrad1D_follow hA hy order (hrep _)).bind fun _ _ d _ =>
        (legendreGrad1D_follow hA hz order (hrep _)).bind fun _ _ d' _ => tensorGrad3D_follow hA _ a b b' c d d' (hrep3 nb)
  | _ => exact RS.none

/-! ### rules -/

theorem writes_follow (hA : Fine l A) (ws : List (ℕ × ℤ)) {R : ∀ i, List (A i).K} {row : List ℝ} (hR : RL (Fo l A) R row) :
    RS (RL (Fo l A)) (fun i => applyWrites ws (R i)) (applyWrites ws row) :=
  RS.foldlM (fun _ _ _ _ hL => hL.setB _ (Fo.lit hA _ _)) hR

theorem glNodes_follow (hA : Fine l A) (order : ℕ) {R : ∀ i, List (A i).K} {row : List ℝ} (hR : RL (Fo l A) R row) :
    RS (RL (Fo l A)) (fun i => glNodes order (R i)) (glNodes order row) := by
  unfold glNodes
  cases glNodeWrites order with
  | none => exact RS.some hR
  | some ws => exact writes_follow hA ws hR

theorem glWeights_follow (hA : Fine l A) (order : ℕ) {R : ∀ i, List (A i).K} {row : List ℝ} (hR : RL (Fo l A) R row) :
    RS (RL (Fo l A)) (fun i => glWeights order (R i)) (glWeights order row) := by
  unfold glWeights
  cases glWeightWrites order with
  | none => exact RS.some hR
  | some ws => exact writes_follow hA ws hR

/-- points and weights of a rule -/
def FoRule (l : Filter ι) (A : ι → Arith) (r : ∀ i, List ((A i).K × (A i).K × (A i).K) × List (A i).K)
    (r' : List (ℝ × ℝ × ℝ) × List ℝ) : Prop :=
  RL (P3 l A) (fun i => (r i).1) r'.1 ∧ RL (Fo l A) (fun i => (r i).2) r'.2

theorem rule_follow (hA : Fine l A) (s : ShapeType) (order : ℕ) :
    RS (FoRule l A) (fun i => getQuadrature (K := (A i).K) s order) (getQuadrature s order) := by
  have hrep : ∀ n, RL (Fo l A) (fun i => List.replicate n 0) (List.replicate n 0) := fun n => RL.replicate n Fo.zero
  cases s with
  | Segment =>
    unfold getQuadrature
    refine RS.map (S := fun (r : ∀ i, List (A i).K × List (A i).K) (r' : List ℝ × List ℝ) =>
      RL (Fo l A) (fun i => (r i).1) r'.1 ∧ RL (Fo l A) (fun i => (r i).2) r'.2) ?_ fun r r' h =>
        ⟨h.1.map fun x y hx => ⟨hx, Fo.zero, Fo.zero⟩, h.2⟩
    unfold segmentGL
    simp only [Option.bind_eq_bind]
    exact (glNodes_follow hA _ (hrep _)).bind fun _ _ a _ => (glWeights_follow hA _ (hrep _)).bind fun _ _ b _ =>
      RS.some ⟨a, b⟩
  | Quadrilateral =>
    unfold getQuadrature
    refine RS.map (S := fun (r : ∀ i, List ((A i).K × (A i).K) × List (A i).K) (r' : List (ℝ × ℝ) × List ℝ) =>
      RL (P2 l A) (fun i => (r i).1) r'.1 ∧ RL (Fo l A) (fun i => (r i).2) r'.2) ?_ fun r r' h =>
        ⟨h.1.map fun x y hx => ⟨hx.1, hx.2, Fo.zero⟩, h.2⟩
    unfold quadGL
    simp only [Option.bind_eq_bind]
    refine (glNodes_follow hA _ (hrep _)).bind fun _ _ a _ => (glWeights_follow hA _ (hrep _)).bind fun _ _ b _ => ?_
    refine RS.bind (S := RL (P2 l A)) (RS.foldlM (fun _ _ _ _ hL => RS.foldlM (fun _ _ _ _ hL => hL.setB _
      ⟨Fo.get0 a _, Fo.get0 a _⟩) hL) (RL.replicate _ P2.zero)) fun _ _ c _ => ?_
    refine RS.bind (S := RL (Fo l A)) (RS.foldlM (fun _ _ _ _ hL => RS.foldlM (fun _ _ _ _ hL => hL.setB _
      ((Fo.get0 b _).mul hA (Fo.get0 b _))) hL) (hrep _)) fun _ _ d _ => ?_
    exact RS.some ⟨c, d⟩
  | Hexahedron =>
    unfold getQuadrature hexGL
    simp only [Option.bind_eq_bind]
    refine (glNodes_follow hA _ (hrep _)).bind fun _ _ a _ => (glWeights_follow hA _ (hrep _)).bind fun _ _ b _ => ?_
    refine RS.bind (S := RL (P3 l A)) (RS.foldlM (fun _ _ _ _ hL => RS.foldlM (fun _ _ _ _ hL => RS.foldlM (fun _ _ _ _ hL =>
      hL.setB _ ⟨Fo.get0 a _, Fo.get0 a _, Fo.get0 a _⟩) hL) hL) (RL.replicate _ P3.zero)) fun _ _ c _ => ?_
    refine RS.bind (S := RL (Fo l A)) (RS.foldlM (fun _ _ _ _ hL => RS.foldlM (fun _ _ _ _ hL => RS.foldlM (fun _ _ _ _ hL =>
      hL.setB _ (((Fo.get0 b _).mul hA (Fo.get0 b _)).mul hA (Fo.get0 b _))) hL) hL) (hrep _)) fun _ _ d _ => ?_
    exact RS.some ⟨c, d⟩
  | Triangle => exact RS.none

/-! ### reference data -/

theorem valueRows_follow (hA : Fine l A) (t : BasisType) (order nb : ℕ) {P : ∀ i, List ((A i).K × (A i).K × (A i).K)}
    {pts : List (ℝ × ℝ × ℝ)} (hP : RL (P3 l A) P pts) :
    RS (RL (RL (Fo l A))) (fun i => valueRows t order nb (P i)) (valueRows t order nb pts) := by
  unfold valueRows valuesAt
  exact hP.mapM fun x y h => basisValues_follow hA t order h.1 h.2.1 h.2.2 (RL.replicate nb Fo.zero)

theorem rowsView_follow {V : ∀ i, List (List (A i).K)} {v : List (List ℝ)} (hV : RL (RL (Fo l A)) V v) (q b : ℕ) :
    Fo l A (fun i => rowsView (V i) q b) (rowsView v q b) :=
  Fo.get0 (hV.getD RL.nil q) b

/-- tables of an element -/
structure FoRef (l : Filter ι) (A : ι → Arith) (r : ∀ i, RefData (A i).K) (r' : RefData ℝ) : Prop where
  nq : ∀ i, (r i).nq = r'.nq
  wts : ∀ q, Fo l A (fun i => (r i).wts q) (r'.wts q)
  val : ∀ q b, Fo l A (fun i => (r i).val q b) (r'.val q b)
  grad : ∀ q, FoG l A (fun i => (r i).grad q) (r'.grad q)
  gval : ∀ q, RL (Fo l A) (fun i => (r i).gval q) (r'.gval q)
  ggrad : ∀ q, FoG l A (fun i => (r i).ggrad q) (r'.ggrad q)

theorem FoG.zero : FoG l A (fun _ _ _ => 0) fun _ _ => 0 := fun _ _ => Fo.zero

/-- the same shape data, whatever the arithmetic -/
theorem RS.same {β : Type} {X' : ι → Type} {Y' : Type} {T : (∀ i, X' i) → Y' → Prop} {o : Option β}
    {f : ∀ i, β → Option (X' i)} {g : β → Option Y'}
    (h : ∀ b, o = Option.some b → RS T (fun i => f i b) (g b)) : RS T (fun i => o.bind (f i)) (o.bind g) := by
  cases o with
  | none => exact RS.none
  | some b => exact h b rfl

theorem volRef_follow (hA : Fine l A) (t gt : BasisType) (p gorder qorder : ℕ) :
    RS (FoRef l A) (fun i => volRef (K := (A i).K) t gt p gorder qorder) (volRef t gt p gorder qorder) := by
  unfold volRef
  simp only [Option.bind_eq_bind]
  refine RS.same fun sh _ => RS.same fun gsh _ => RS.same fun nb _ => RS.same fun gnb _ => ?_
  refine (rule_follow hA _ _).bind fun r r' hr _ => ?_
  refine (valueRows_follow hA t p nb hr.1).bind fun _ _ a _ => ?_
  refine (hr.1.mapM (f := fun i => basisGrads t p nb) (g := basisGrads t p nb) fun _ _ h => basisGrads_follow hA t p nb h).bind fun _ _ b _ => ?_
  refine (valueRows_follow hA gt gorder gnb hr.1).bind fun _ _ c _ => ?_
  refine (hr.1.mapM (f := fun i => basisGrads gt gorder gnb) (g := basisGrads gt gorder gnb) fun _ _ h => basisGrads_follow hA gt gorder gnb h).bind fun _ _ d _ => ?_
  exact RS.some ⟨fun i => hr.1.1 i, fun q => Fo.get0 hr.2 q, rowsView_follow a, fun q => b.getD FoG.zero q,
    fun q => c.getD RL.nil q, fun q => d.getD FoG.zero q⟩

theorem cornerQuad_follow (k : ℕ) : P2 l A (fun i => cornerQuad (K := (A i).K) k) (cornerQuad k) := by
  have n := Fo.one.neg (l := l) (A := A)
  have p := Fo.one (l := l) (A := A)
  exact ⟨RL.getD (.cons n (.cons p (.cons n (.cons p .nil)))) Fo.zero k, RL.getD (.cons n (.cons n (.cons p (.cons p .nil)))) Fo.zero k⟩

theorem cornerHex_follow (k : ℕ) : P3 l A (fun i => cornerHex (K := (A i).K) k) (cornerHex k) := by
  have n := Fo.one.neg (l := l) (A := A)
  have p := Fo.one (l := l) (A := A)
  exact ⟨RL.getD (.cons n (.cons p (.cons n (.cons p (.cons n (.cons p (.cons n (.cons p .nil)))))))) Fo.zero k,
    RL.getD (.cons n (.cons n (.cons p (.cons p (.cons n (.cons n (.cons p (.cons p .nil)))))))) Fo.zero k,
    RL.getD (.cons n (.cons n (.cons n (.cons n (.cons p (.cons p (.cons p (.cons p .nil)))))))) Fo.zero k⟩

theorem RS.sameMap {β : Type} {X' : ι → Type} {Y' : Type} {T : (∀ i, X' i) → Y' → Prop} {o : Option β}
    {f : ∀ i, β → X' i} {g : β → Y'} (h : ∀ b, T (fun i => f i b) (g b)) : RS T (fun i => o.map (f i)) (o.map g) := by
  cases o with
  | none => exact RS.none
  | some b => exact RS.some (h b)

theorem pointsQuad_follow (hA : Fine l A) (face orient : ℕ) {P : ∀ i, List (A i).K} {pts : List ℝ} (hP : RL (Fo l A) P pts) :
    RS (RL (P2 l A)) (fun i => pointsOnFaceQuad face orient (P i)) (pointsOnFaceQuad face orient pts) := by
  unfold pointsOnFaceQuad
  refine RS.sameMap fun b => hP.map fun x y hx => ?_
  have b1 := Fo.div hA (hx.add hA Fo.one) (Fo.ofNat hA 2) two_ne_zero
  have b0 := Fo.one.sub hA b1
  exact ⟨(b0.mul hA (cornerQuad_follow _).1).add hA (b1.mul hA (cornerQuad_follow _).1),
    (b0.mul hA (cornerQuad_follow _).2).add hA (b1.mul hA (cornerQuad_follow _).2)⟩

theorem pointsHex_follow (hA : Fine l A) (face orient : ℕ) {P : ∀ i, List ((A i).K × (A i).K)} {pts : List (ℝ × ℝ)}
    (hP : RL (P2 l A) P pts) :
    RS (RL (P3 l A)) (fun i => pointsOnFaceHex face orient (P i)) (pointsOnFaceHex face orient pts) := by
  unfold pointsOnFaceHex
  refine RS.sameMap fun b => hP.map fun x y hx => ?_
  have xb := Fo.div hA (hx.1.add hA Fo.one) (Fo.ofNat hA 2) two_ne_zero
  have yb := Fo.div hA (hx.2.add hA Fo.one) (Fo.ofNat hA 2) two_ne_zero
  have x1 := Fo.one.sub hA xb
  have y1 := Fo.one.sub hA yb
  have bl := RL.cons (x1.mul hA y1) (RL.cons (xb.mul hA y1) (RL.cons (xb.mul hA yb) (RL.cons (x1.mul hA yb) RL.nil)))
  refine RS.foldl (fun k _ a a' h => ?_) P3.zero
  have bj := bl.getD Fo.zero k
  have c := cornerHex_follow (l := l) (A := A) (((orientCorners orient b)[k]?).getD 0)
  exact ⟨h.1.add hA (bj.mul hA c.1), h.2.1.add hA (bj.mul hA c.2.1), h.2.2.add hA (bj.mul hA c.2.2)⟩

theorem points_follow (hA : Fine l A) (s : ShapeType) (face : ℕ) {P : ∀ i, List ((A i).K × (A i).K × (A i).K)}
    {pts : List (ℝ × ℝ × ℝ)} (hP : RL (P3 l A) P pts) :
    RS (RL (P3 l A)) (fun i => pointsOnFace s face (P i)) (pointsOnFace s face pts) := by
  unfold pointsOnFace
  cases s with
  | Quadrilateral =>
    exact (pointsQuad_follow hA face 0 (hP.map fun _ _ h => h.1)).map fun _ _ h => h.map fun _ _ h => ⟨h.1, h.2, Fo.zero⟩
  | Hexahedron => exact pointsHex_follow hA face 0 (hP.map fun _ _ h => ⟨h.1, h.2.1⟩)
  | _ => exact RS.none

/-- tables of the faces -/
structure FoFace (l : Filter ι) (A : ι → Arith) (r : ∀ i, FaceRef (A i).K) (r' : FaceRef ℝ) : Prop where
  nqf : ∀ i, (r i).nqf = r'.nqf
  wts : ∀ q, Fo l A (fun i => (r i).wts q) (r'.wts q)
  pts : RL (P3 l A) (fun i => (r i).pts) r'.pts
  val : ∀ f q b, Fo l A (fun i => (r i).val f q b) (r'.val f q b)

theorem faceRef_follow (hA : Fine l A) (t : BasisType) (p : ℕ) :
    RS (FoFace l A) (fun i => faceRef (K := (A i).K) t p) (faceRef t p) := by
  unfold faceRef
  simp only [Option.bind_eq_bind]
  refine RS.same fun sh _ => RS.same fun fsh _ => RS.same fun nb _ => ?_
  refine (rule_follow hA _ _).bind fun r r' hr _ => ?_
  refine (RS.mapM (f := fun i => faceRows t sh.1 p nb (r i).1) (g := faceRows t sh.1 p nb r'.1)
    fun f _ => (points_follow hA sh.1 f hr.1).bind fun _ _ h _ => valueRows_follow hA t p nb h).bind fun _ _ b _ => ?_
  exact RS.some ⟨fun i => hr.1.1 i, fun q => Fo.get0 hr.2 q, hr.1, fun f q c => rowsView_follow (b.getD RL.nil f) q c⟩

end
end DG
