import Verif.Lemmas.RoundTables

/-!
The setup of an element in rounded arithmetic: Jacobian, inverse mass matrix, normals, initial coefficients.
-/
open Filter Topology
namespace DG

section
variable {ι : Type*} {l : Filter ι} {A : ι → Arith}

/-- entries of a matrix -/
def FoM (l : Filter ι) (A : ι → Arith) (m n : ℕ) (M : ∀ i, ℕ → ℕ → (A i).K) (M' : ℕ → ℕ → ℝ) : Prop :=
  ∀ a < m, ∀ b < n, Fo l A (fun i => M i a b) (M' a b)

section gemm
variable {m n k : ℕ} {B C B0 : ∀ i, ℕ → ℕ → (A i).K} {B' C' B0' : ℕ → ℕ → ℝ} {c : ∀ i, (A i).K} {c' : ℝ}

theorem gemm_follow (hA : Fine l A) (hc : Fo l A c c') (hB : FoM l A m k B B') (hC : FoM l A k n C C') :
    FoM l A m n (fun i => gemm (c i) 0 m n k (B i) (C i) (B0 i)) (gemm c' 0 m n k B' C' B0') := by
  intro a ha b hb
  unfold gemm
  simp only [ha, hb, and_self, if_true]
  exact Fo.zero.add hA (Fo.loop hA fun p hp => (hc.mul hA (hB a ha p hp)).mul hA (hC p hp b hb))

theorem cAxB_follow (hA : Fine l A) (hc : Fo l A c c') (hB : FoM l A m k B B') (hC : FoM l A k n C C') :
    FoM l A m n (fun i => cAxB_to_C (c i) m n k (B i) (C i) (B0 i)) (cAxB_to_C c' m n k B' C' B0') :=
  gemm_follow hA hc hB hC

theorem cATxB_follow (hA : Fine l A) (hc : Fo l A c c') (hB : FoM l A k m B B') (hC : FoM l A k n C C') :
    FoM l A m n (fun i => cATxB_to_C (c i) m n k (B i) (C i) (B0 i)) (cATxB_to_C c' m n k B' C' B0') :=
  gemm_follow hA hc (fun a ha p hp => hB p hp a ha) hC

end gemm

section inv
variable {n : ℕ} {M I : ∀ i, ℕ → ℕ → (A i).K} {M' I' : ℕ → ℕ → ℝ}

theorem det_follow (hA : Fine l A) (hn : n = 2 ∨ n = 3) (hM : FoM l A n n M M') {d : ∀ i, (A i).K} {d' : ℝ} :
    Fo l A (fun i => detTo n (M i) (d i)) (detTo n M' d') := by
  rcases hn with rfl | rfl
  · have h := fun a (ha : a < 2) b (hb : b < 2) => hM a ha b hb
    have e00 := h 0 (by omega) 0 (by omega)
    have e01 := h 0 (by omega) 1 (by omega)
    have e10 := h 1 (by omega) 0 (by omega)
    have e11 := h 1 (by omega) 1 (by omega)
    unfold detTo
    fo hA
  · have h := fun a (ha : a < 3) b (hb : b < 3) => hM a ha b hb
    have e00 := h 0 (by omega) 0 (by omega)
    have e01 := h 0 (by omega) 1 (by omega)
    have e02 := h 0 (by omega) 2 (by omega)
    have e10 := h 1 (by omega) 0 (by omega)
    have e11 := h 1 (by omega) 1 (by omega)
    have e12 := h 1 (by omega) 2 (by omega)
    have e20 := h 2 (by omega) 0 (by omega)
    have e21 := h 2 (by omega) 1 (by omega)
    have e22 := h 2 (by omega) 2 (by omega)
    unfold detTo
    fo hA

theorem invA_small_follow (hA : Fine l A) (hn : n = 2 ∨ n = 3) (hM : FoM l A n n M M') (hd : detTo n M' 0 ≠ 0) :
    FoM l A n n (fun i => invA n (M i) (I i)) (invA n M' I') := by
  have hdet := det_follow hA hn hM (d := fun _ => 0) (d' := 0)
  rcases hn with rfl | rfl
  · have h := fun a (ha : a < 2) b (hb : b < 2) => hM a ha b hb
    have e00 := h 0 (by omega) 0 (by omega)
    have e01 := h 0 (by omega) 1 (by omega)
    have e10 := h 1 (by omega) 0 (by omega)
    have e11 := h 1 (by omega) 1 (by omega)
    intro a ha b hb
    have ka : a = 0 ∨ a = 1 := by omega
    have kb : b = 0 ∨ b = 1 := by omega
    rcases ka with rfl | rfl <;> rcases kb with rfl | rfl
    · exact e11.div hA hdet hd
    · exact e01.neg.div hA hdet hd
    · exact e10.neg.div hA hdet hd
    · exact e00.div hA hdet hd
  · have h := fun a (ha : a < 3) b (hb : b < 3) => hM a ha b hb
    have e00 := h 0 (by omega) 0 (by omega)
    have e01 := h 0 (by omega) 1 (by omega)
    have e02 := h 0 (by omega) 2 (by omega)
    have e10 := h 1 (by omega) 0 (by omega)
    have e11 := h 1 (by omega) 1 (by omega)
    have e12 := h 1 (by omega) 2 (by omega)
    have e20 := h 2 (by omega) 0 (by omega)
    have e21 := h 2 (by omega) 1 (by omega)
    have e22 := h 2 (by omega) 2 (by omega)
    intro a ha b hb
    have ka : a = 0 ∨ a = 1 ∨ a = 2 := by omega
    have kb : b = 0 ∨ b = 1 ∨ b = 2 := by omega
    rcases ka with rfl | rfl | rfl <;> rcases kb with rfl | rfl | rfl
    · exact Fo.div hA (by fo hA) hdet hd
    · exact Fo.div hA (by fo hA) hdet hd
    · exact Fo.div hA (by fo hA) hdet hd
    · exact Fo.div hA (by fo hA) hdet hd
    · exact Fo.div hA (by fo hA) hdet hd
    · exact Fo.div hA (by fo hA) hdet hd
    · exact Fo.div hA (by fo hA) hdet hd
    · exact Fo.div hA (by fo hA) hdet hd
    · exact Fo.div hA (by fo hA) hdet hd

theorem luStep_follow (hA : Fine l A) {p : ℕ} (hp : p < n) (hM : FoM l A n n M M') (h0 : M' p p ≠ 0) :
    FoM l A n n (fun i => luStep n (M i) p) (luStep n M' p) := by
  intro a ha b hb
  unfold luStep
  have q := (hM a ha p hp).div hA (hM p hp p hp) h0
  by_cases h1 : p < a
  · simp only [h1, ha, hb, and_self, if_true]
    by_cases h2 : b = p
    · simp only [h2, if_true]; exact q
    · simp only [h2, if_false]
      by_cases h3 : p < b
      · simp only [h3, if_true]
        exact (hM a ha b hb).sub hA (q.mul hA (hM p hp b hb))
      · simp only [h3, if_false]; exact hM a ha b hb
  · simp only [h1, false_and, if_false]; exact hM a ha b hb

theorem luIter_follow (hA : Fine l A) (hM : FoM l A n n M M') (minors : ∀ q < n, (toM (q + 1) (q + 1) M').det ≠ 0) :
    ∀ p ≤ n, FoM l A n n (fun i => (List.range p).foldl (luStep n) (M i)) ((List.range p).foldl (luStep n) M') := by
  have piv := pivots_ne_zero n M' minors
  intro p
  induction p with
  | zero => intro _; exact hM
  | succ p ih =>
    intro hp
    have := luStep_follow hA (p := p) (by omega) (ih (by omega)) (piv p (by omega))
    simpa only [List.range_succ, List.foldl_append, List.foldl_cons, List.foldl_nil] using this

/-- entry of the triangular factors -/
theorem fwd_follow (hA : Fine l A) (hM : FoM l A n n M M') (hI : FoM l A n n I I') :
    FoM l A n n (fun i => (List.range n).foldl (fwdStep n (M i)) (I i)) ((List.range n).foldl (fwdStep n M') I') := by
  refine RS.foldl (S := FoM l A n n) (fun p hp B B' hB => ?_) hI
  have hp := List.mem_range.1 hp
  intro a ha b hb
  unfold fwdStep
  by_cases h1 : p < a
  · simp only [h1, ha, and_self, if_true]
    exact (hB a ha b hb).sub hA ((hM a ha p hp).mul hA (hB p hp b hb))
  · simp only [h1, false_and, if_false]; exact hB a ha b hb

theorem bwd_follow (hA : Fine l A) (hM : FoM l A n n M M') (hd : ∀ p < n, M' p p ≠ 0) (hI : FoM l A n n I I') :
    FoM l A n n (fun i => (List.range n).reverse.foldl (bwdStep n (M i)) (I i)) ((List.range n).reverse.foldl (bwdStep n M') I') := by
  refine RS.foldl (S := FoM l A n n) (fun p hp B B' hB => ?_) hI
  have hp := List.mem_range.1 (List.mem_reverse.1 hp)
  intro a ha b hb
  unfold bwdStep
  have q := (hB p hp b hb).div hA (hM p hp p hp) (hd p hp)
  by_cases h1 : a = p
  · simp only [h1, hp, and_self, if_true]; exact q
  · simp only [h1, false_and, if_false]
    by_cases h2 : a < p
    · simp only [h2, hp, and_self, if_true]
      exact (hB a ha b hb).sub hA ((hM a ha p hp).mul hA q)
    · simp only [h2, false_and, if_false]; exact hB a ha b hb

/-- `Math::invA` -/
theorem invA_follow (hA : Fine l A) (hn : n = 1 ∨ 4 ≤ n) (hM : FoM l A n n M M')
    (minors : ∀ q < n, (toM (q + 1) (q + 1) M').det ≠ 0) (hI : FoM l A n n I I') :
    FoM l A n n (fun i => invA n (M i) (I i)) (invA n M' I') := by
  rcases hn with rfl | hn
  · have h := minors 0 (by omega)
    have h0 : M' 0 0 ≠ 0 := by
      intro e; apply h
      have : (toM 1 1 M').det = M' 0 0 := by rw [Matrix.det_fin_one]; rfl
      exact this.trans e
    intro a ha b hb
    have ea : a = 0 := by omega
    have eb : b = 0 := by omega
    subst ea; subst eb
    exact Fo.one.div hA (hM 0 (by omega) 0 (by omega)) h0
  · have e : ∀ {K : Type} [Zero K] [One K] [Add K] [Sub K] [Mul K] [Neg K] [Div K] [NatCast K] (M I : ℕ → ℕ → K),
        invA n M I = serialSolveLU n (serialLU n M) (identityTo n I) := by
      intro K _ _ _ _ _ _ _ _ M I
      match n, hn with
      | n + 4, _ => rfl
    simp only [e]
    have hLU := luIter_follow hA hM minors n le_rfl
    have piv := pivots_ne_zero n M' minors
    refine bwd_follow hA hLU (fun p hp => ?_) (fwd_follow hA hLU ?_)
    · have := luIter_row n M' p n (by omega) p
      show luIter n n M' p p ≠ 0
      rw [this]; exact piv p hp
    · intro a ha b hb
      unfold identityTo
      by_cases h : a = b
      · subst h; simp only [ha, and_self, if_true]; exact Fo.one
      · simp only [h, and_false, if_false]; exact hI a ha b hb

end inv

/-! ### geometry of an element -/

section elem
variable {r : ∀ i, RefData (A i).K} {r' : RefData ℝ} {dim nn : ℕ} {X : ∀ i, ℕ → ℕ → (A i).K} {X' : ℕ → ℕ → ℝ}

theorem jac_follow (hA : Fine l A) (hr : FoRef l A r r') (hX : FoM l A nn dim X X') (q : ℕ) {J0 : ∀ i, ℕ → ℕ → (A i).K}
    {J0' : ℕ → ℕ → ℝ} :
    FoM l A dim dim (fun i => cATxB_to_C 1 dim dim nn (X i) ((r i).ggrad q) (J0 i)) (cATxB_to_C 1 dim dim nn X' (r'.ggrad q) J0') :=
  cATxB_follow hA Fo.one hX fun a _ b _ => hr.ggrad q a b

theorem djac_follow (hA : Fine l A) (hd : dim = 2 ∨ dim = 3) (hr : FoRef l A r r') (hX : FoM l A nn dim X X') (q : ℕ) :
    Fo l A (fun i => setupDjac dim nn (r i) (X i) q) (setupDjac dim nn r' X' q) :=
  det_follow hA hd (jac_follow hA hr hX q)

theorem ijac_follow (hA : Fine l A) (hd : dim = 2 ∨ dim = 3) (hr : FoRef l A r r') (hX : FoM l A nn dim X X') (q : ℕ)
    (h0 : setupDjac dim nn r' X' q ≠ 0) :
    FoM l A dim dim (fun i => setupIjac dim nn (r i) (X i) q) (setupIjac dim nn r' X' q) :=
  invA_small_follow hA hd (jac_follow hA hr hX q) h0

theorem scaleRows_follow (hA : Fine l A) {nq n : ℕ} {w dj : ∀ i, ℕ → (A i).K} {w' dj' : ℕ → ℝ} {F : ∀ i, ℕ → ℕ → (A i).K}
    {F' : ℕ → ℕ → ℝ} (hw : ∀ q < nq, Fo l A (fun i => w i q) (w' q)) (hdj : ∀ q < nq, Fo l A (fun i => dj i q) (dj' q))
    (hF : FoM l A nq n F F') : FoM l A nq n (fun i => scaleRows nq n (w i) (dj i) (F i)) (scaleRows nq n w' dj' F') := by
  intro q hq b hb
  unfold scaleRows scaleVec
  simp only [hq, hb, if_true]
  exact ((hw q hq).mul hA (hdj q hq)).mul hA (hF q hq b hb)

/-- mass matrix and its inverse -/
theorem invMass_follow (hA : Fine l A) {nq nb : ℕ} (hn : nb = 1 ∨ 4 ≤ nb) {w dj : ∀ i, ℕ → (A i).K} {w' dj' : ℕ → ℝ}
    {B scr MM I : ∀ i, ℕ → ℕ → (A i).K} {B' scr' MM' I' : ℕ → ℕ → ℝ}
    (hw : ∀ q < nq, Fo l A (fun i => w i q) (w' q)) (hdj : ∀ q < nq, Fo l A (fun i => dj i q) (dj' q)) (hB : FoM l A nq nb B B')
    (hI : FoM l A nb nb I I')
    (minors : ∀ q < nb, (toM (q + 1) (q + 1) (massMatrix nq nb w' dj' B' scr' MM')).det ≠ 0) :
    FoM l A nb nb (fun i => invMass nq nb (w i) (dj i) (B i) (scr i) (MM i) (I i)) (invMass nq nb w' dj' B' scr' MM' I') := by
  refine invA_follow hA hn ?_ minors hI
  refine cATxB_follow hA Fo.one hB (scaleRows_follow hA hw hdj fun q hq b hb => ?_)
  unfold copyTo
  simp only [hq, hb, and_self, if_true]
  exact hB q hq b hb

theorem l2_follow (hA : Fine l A) {nq nb ns : ℕ} {w dj : ∀ i, ℕ → (A i).K} {w' dj' : ℕ → ℝ}
    {B I F R U : ∀ i, ℕ → ℕ → (A i).K} {B' I' F' R' U' : ℕ → ℕ → ℝ}
    (hw : ∀ q < nq, Fo l A (fun i => w i q) (w' q)) (hdj : ∀ q < nq, Fo l A (fun i => dj i q) (dj' q)) (hB : FoM l A nq nb B B')
    (hI : FoM l A nb nb I I') (hF : FoM l A nq ns F F') :
    FoM l A nb ns (fun i => l2Projection nq nb ns (I i) (B i) (dj i) (w i) (F i) (R i) (U i))
      (l2Projection nq nb ns I' B' dj' w' F' R' U') :=
  cAxB_follow hA Fo.one hI (cATxB_follow hA Fo.one hB (scaleRows_follow hA hw hdj hF))

theorem phys_follow (hA : Fine l A) (hX : FoM l A nn dim X X') {R : ∀ i, List (A i).K} {row : List ℝ} (hR : RL (Fo l A) R row) :
    ∀ d < dim, Fo l A (fun i => refToPhys dim nn (R i) (X i) d) (refToPhys dim nn row X' d) := fun d hd =>
  cAxB_follow hA Fo.one (B := fun i _ m => get0 (R i) m) (B' := fun _ m => get0 row m) (fun _ _ p _ => Fo.get0 hR p) hX 0 (by omega) d hd

/-! ### normals -/

theorem extract_follow {g : ℕ} {nodes : List ℤ} (hX : FoM l A nn dim X X')
    (hlt : ∀ i < g, ((nodes[i]?).getD 0).toNat < nn) :
    FoM l A g dim (fun i => extractNodes (X i) nodes) (extractNodes X' nodes) :=
  fun a ha b hb => hX _ (hlt a ha) b hb

theorem normalQuad_follow (hA : Fine l A) {sg : ∀ i, (A i).K} {sg' : ℝ} (hs : Fo l A sg sg') {g face : ℕ} (hf : face < 4)
    (hX : FoM l A (nodesPerElemQuad g) 2 X X') {x : ∀ i, (A i).K} {x' : ℝ} (hx : Fo l A x x') :
    RS (P2 l A) (fun i => faceNormalQuad (sg i) g face (X i) (x i)) (faceNormalQuad sg' g face X' x') := by
  unfold faceNormalQuad
  simp only [Option.bind_eq_bind]
  refine RS.same fun nodes hn => ?_
  refine (pointsQuad_follow hA 0 0 (RL.cons hx RL.nil)).bind fun st st' hst _ => ?_
  refine (hst.get 0).bind fun r r' hr _ => ?_
  refine (gradsSeg_follow hA g hr.1 (RL.replicate _ Fo.zero)).bind fun gr gr' hgr _ => ?_
  refine RS.some ?_
  have hE := extract_follow hX (faceNodesQuad_lt hf hn)
  have hxg := cATxB_follow hA (B0 := fun _ _ _ => 0) (B0' := fun _ _ => 0) Fo.one hE (C := fun i a _ => get0 (gr i) a) (C' := fun a _ => get0 gr' a) (n := 1)
    (fun a _ _ _ => Fo.get0 hgr a)
  exact ⟨hs.mul hA (hxg 1 (by omega) 0 (by omega)), (Fo.one.neg.mul hA hs).mul hA (hxg 0 (by omega) 0 (by omega))⟩

theorem cross_follow (hA : Fine l A) {a b : ∀ i, ℕ → (A i).K} {a' b' : ℕ → ℝ} (ha : ∀ j < 3, Fo l A (fun i => a i j) (a' j))
    (hb : ∀ j < 3, Fo l A (fun i => b i j) (b' j)) {c : ∀ i, ℕ → (A i).K} {c' : ℕ → ℝ} :
    ∀ j < 3, Fo l A (fun i => cross (a i) (b i) (c i) j) (cross a' b' c' j) := by
  have a0 := ha 0 (by omega)
  have a1 := ha 1 (by omega)
  have a2 := ha 2 (by omega)
  have b0 := hb 0 (by omega)
  have b1 := hb 1 (by omega)
  have b2 := hb 2 (by omega)
  intro j hj
  match j, hj with
  | 0, _ => unfold cross; fo hA
  | 1, _ => unfold cross; fo hA
  | 2, _ => unfold cross; fo hA

/-- entries of a vector -/
def FoV (l : Filter ι) (A : ι → Arith) (n : ℕ) (v : ∀ i, ℕ → (A i).K) (v' : ℕ → ℝ) : Prop := ∀ j < n, Fo l A (fun i => v i j) (v' j)

theorem normalHex_follow (hA : Fine l A) {sg : ∀ i, (A i).K} {sg' : ℝ} (hs : Fo l A sg sg') {g face : ℕ} (hf : face < 6)
    (hX : FoM l A (nodesPerElemHex g) 3 X X') {x : ∀ i, (A i).K × (A i).K} {x' : ℝ × ℝ} (hx : P2 l A x x') :
    RS (FoV l A 3) (fun i => faceNormalHex (sg i) g face (X i) (x i)) (faceNormalHex sg' g face X' x') := by
  unfold faceNormalHex
  simp only [Option.bind_eq_bind]
  refine RS.same fun nodes hn => ?_
  refine (pointsHex_follow hA 0 0 (RL.cons hx RL.nil)).bind fun st st' hst _ => ?_
  refine (hst.get 0).bind fun r r' hr _ => ?_
  refine (gradsQuad_follow hA g hr.1 hr.2.1 (RL.replicate _ P2.zero)).bind fun gr gr' hgr _ => ?_
  refine RS.some ?_
  have hE := extract_follow hX (faceNodesHex_lt hf hn)
  have hxg := cATxB_follow hA (B0 := fun _ _ _ => 0) (B0' := fun _ _ => 0) Fo.one hE (n := 2)
    (C := fun i a e => if e = 0 then (((gr i)[a]?).getD (0, 0)).1 else (((gr i)[a]?).getD (0, 0)).2)
    (C' := fun a e => if e = 0 then ((gr'[a]?).getD (0, 0)).1 else ((gr'[a]?).getD (0, 0)).2)
    (fun a _ e _ => by
      by_cases h : e = 0
      · simp only [h, if_true]; exact (hgr.getD P2.zero a).1
      · simp only [h, if_false]; exact (hgr.getD P2.zero a).2)
  have hcr := cross_follow hA (fun j hj => hxg j hj 0 (by omega)) (fun j hj => hxg j hj 1 (by omega)) (c := fun _ _ => 0) (c' := fun _ => 0)
  intro j hj
  unfold normalOnFaceHex scaleVec
  simp only [hj, if_true]
  exact hs.mul hA (hcr j hj)

/-- normals at the points of a face -/
theorem normals_follow (hA : Fine l A) (s : ShapeType) {sg : ∀ i, (A i).K} {sg' : ℝ} (hs : Fo l A sg sg') {g face : ℕ}
    (hf : face < shapeFaces s) (hX : FoM l A (shapeNodes s g) (shapeDim s) X X')
    {P : ∀ i, List ((A i).K × (A i).K × (A i).K)} {pts : List (ℝ × ℝ × ℝ)} (hP : RL (P3 l A) P pts) :
    RS (RL (FoV l A (shapeDim s))) (fun i => nodesNormals s g (sg i) face (X i) (P i)) (nodesNormals s g sg' face X' pts) := by
  cases s with
  | Quadrilateral =>
    unfold nodesNormals
    refine hP.mapM (T := FoV l A 2) fun x x' h => ?_
    refine (normalQuad_follow hA hs hf hX h.1).map fun n n' hn j hj => ?_
    have hj : j = 0 ∨ j = 1 := by omega
    rcases hj with rfl | rfl
    · simpa using hn.1
    · simpa using hn.2
  | Hexahedron =>
    unfold nodesNormals
    exact hP.mapM (T := FoV l A 3) fun x x' h => normalHex_follow hA hs hf hX ⟨h.1, h.2.1⟩
  | _ => exact RS.none

end elem
end
end DG
