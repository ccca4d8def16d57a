import Verif.Lemmas.Bits
import Verif.Model.Setup
import Verif.Props.Volume
import Verif.Props.FaceNodes

/-!
The setup without any law of arithmetic: what a rank computes for an element (a face) is the value of one
expression in the coordinates the mesh file gives for the nodes of that element, whatever the scratch
memory holds.
-/
namespace DG

theorem mapM_entry {ι β : Type} {f : ι → Option β} : ∀ {l : List ι} {l' : List β},
    l.mapM f = some l' → ∀ i : ℕ, l'[i]? = l[i]?.bind f := by
  intro l
  induction l with
  | nil => intro l' h i; simp at h; subst h; simp
  | cons a l ih =>
    intro l' h i
    rw [List.mapM_cons] at h
    obtain ⟨b, hb, h⟩ := Option.bind_eq_some_iff.mp h
    obtain ⟨l2, h2, h⟩ := Option.bind_eq_some_iff.mp h
    cases h
    cases i with
    | zero => simp [hb]
    | succ i => simpa using ih h2 i

/-! ### node numbers -/

theorem faceNodesQuad_lt {face g : ℕ} (hf : face < 4) {nodes : List ℤ}
    (h : faceNodesQuad face g (List.replicate (nodesPerFaceQuad g) 0) = some nodes) (i : ℕ)
    (hi : i < nodesPerFaceQuad g) : ((nodes[i]?).getD 0).toNat < nodesPerElemQuad g := by
  obtain ⟨l, h1, h2, _, h4, _⟩ := C16_quad_face_nodes face g hf _ (List.length_replicate (n := nodesPerFaceQuad g) (a := (0:ℤ)))
  rw [h] at h1
  cases h1
  rw [List.getElem?_map, List.getElem?_eq_getElem (by rw [h2]; exact hi)]
  exact h4 _ (List.getElem_mem _)

theorem faceNodesHex_lt {face g : ℕ} (hf : face < 6) {nodes : List ℤ}
    (h : faceNodesHex face g (List.replicate (nodesPerFaceHex g) 0) = some nodes) (i : ℕ)
    (hi : i < nodesPerFaceHex g) : ((nodes[i]?).getD 0).toNat < nodesPerElemHex g := by
  obtain ⟨l, h1, h2, _, h4, _⟩ := C16_hex_face_nodes face g hf _ (List.length_replicate (n := nodesPerFaceHex g) (a := (0:ℤ)))
  rw [h] at h1
  cases h1
  rw [List.getElem?_map, List.getElem?_eq_getElem (by rw [h2]; exact hi)]
  exact h4 _ (List.getElem_mem _)

variable {K : Type} [Zero K] [One K] [Add K] [Sub K] [Mul K] [Neg K] [Div K] [NatCast K]

/-! ### dense kernels -/

theorem luStep_bits {n : ℕ} {A A' : ℕ → ℕ → K} (h : ∀ i < n, ∀ j < n, A i j = A' i j) {p : ℕ}
    (hp : p < n) : ∀ i < n, ∀ j < n, luStep n A p i j = luStep n A' p i j := by
  intro i hi j hj
  unfold luStep
  rw [h i hi j hj, h i hi p hp, h p hp p hp, h p hp j hj]

theorem foldl_congr2 {n : ℕ} {f g : (ℕ → ℕ → K) → ℕ → ℕ → ℕ → K} :
    ∀ {l : List ℕ}, (∀ p ∈ l, ∀ A A' : ℕ → ℕ → K, (∀ i < n, ∀ j < n, A i j = A' i j) →
      ∀ i < n, ∀ j < n, f A p i j = g A' p i j) →
    ∀ {A A' : ℕ → ℕ → K}, (∀ i < n, ∀ j < n, A i j = A' i j) →
      ∀ i < n, ∀ j < n, l.foldl f A i j = l.foldl g A' i j
  | [], _, _, _, h => h
  | p :: l, hf, _, _, h => foldl_congr2 (l := l) (fun q hq => hf q (List.mem_cons_of_mem _ hq))
      (hf p List.mem_cons_self _ _ h)

theorem serialLU_bits {n : ℕ} {A A' : ℕ → ℕ → K} (h : ∀ i < n, ∀ j < n, A i j = A' i j) :
    ∀ i < n, ∀ j < n, serialLU n A i j = serialLU n A' i j := by
  unfold serialLU
  exact foldl_congr2 (f := luStep n) (g := luStep n) (l := List.range n)
    (fun p hp _ _ hA => luStep_bits hA (List.mem_range.1 hp)) h

theorem serialSolveLU_bits {n : ℕ} {M M' B B' : ℕ → ℕ → K} (hM : ∀ i < n, ∀ j < n, M i j = M' i j)
    (hB : ∀ i < n, ∀ j < n, B i j = B' i j) :
    ∀ i < n, ∀ j < n, serialSolveLU n M B i j = serialSolveLU n M' B' i j := by
  refine foldl_congr2 (fun p hp A A' hA i hi j hj => ?_)
    (foldl_congr2 (fun p hp A A' hA i hi j hj => ?_) hB)
  · have hp' : p < n := List.mem_range.1 (List.mem_reverse.1 hp)
    unfold bwdStep
    rw [hA i hi j hj, hA p hp' j hj, hM p hp' p hp', hM i hi p hp']
  · have hp' : p < n := List.mem_range.1 hp
    unfold fwdStep
    rw [hA i hi j hj, hA p hp' j hj, hM i hi p hp']

/-- the inverse depends on the entries of the matrix only -/
theorem invA_bits {n : ℕ} {A A' B B' : ℕ → ℕ → K} (h : ∀ i < n, ∀ j < n, A i j = A' i j)
    (hB : ∀ i < n, ∀ j < n, B i j = B' i j) :
    ∀ i < n, ∀ j < n, invA n A B i j = invA n A' B' i j := by
  match n with
  | 0 => intro i hi; omega
  | 1 =>
    intro i hi j hj
    have e := h 0 (by omega) 0 (by omega)
    have hb := hB i hi j hj
    simp only [invA, e, hb]
  | 2 =>
    intro i hi j hj
    have e00 := h 0 (by omega) 0 (by omega)
    have e01 := h 0 (by omega) 1 (by omega)
    have e10 := h 1 (by omega) 0 (by omega)
    have e11 := h 1 (by omega) 1 (by omega)
    have hI : i = 0 ∨ i = 1 := by omega
    have hJ : j = 0 ∨ j = 1 := by omega
    rcases hI with rfl | rfl <;> rcases hJ with rfl | rfl <;> simp only [invA, e00, e01, e10, e11]
  | 3 =>
    intro i hi j hj
    have e00 := h 0 (by omega) 0 (by omega)
    have e01 := h 0 (by omega) 1 (by omega)
    have e02 := h 0 (by omega) 2 (by omega)
    have e10 := h 1 (by omega) 0 (by omega)
    have e11 := h 1 (by omega) 1 (by omega)
    have e12 := h 1 (by omega) 2 (by omega)
    have e20 := h 2 (by omega) 0 (by omega)
    have e21 := h 2 (by omega) 1 (by omega)
    have e22 := h 2 (by omega) 2 (by omega)
    have hI : i = 0 ∨ i = 1 ∨ i = 2 := by omega
    have hJ : j = 0 ∨ j = 1 ∨ j = 2 := by omega
    rcases hI with rfl | rfl | rfl <;> rcases hJ with rfl | rfl | rfl <;>
      simp only [invA, e00, e01, e02, e10, e11, e12, e20, e21, e22]
  | n + 4 =>
    exact serialSolveLU_bits (serialLU_bits h) fun i hi j hj => by
      unfold identityTo
      rw [hB i hi j hj]

variable [DecidableEq K]

/-- a product depends on the entries of its second factor only -/
theorem cATxB_congr {c : K} {m n k : ℕ} {A A' B B' C : ℕ → ℕ → K}
    (hA : ∀ p < k, ∀ i < m, A p i = A' p i) (hB : ∀ p < k, ∀ j < n, B p j = B' p j) :
    cATxB_to_C c m n k A B C = cATxB_to_C c m n k A' B' C := by
  funext i j
  unfold cATxB_to_C gemm
  by_cases h : i < m ∧ j < n
  · rw [if_pos h, if_pos h]
    congr 1
    exact loopSum_congr fun p hp => by beta_reduce; rw [hA p hp i h.1, hB p hp j h.2]
  · rw [if_neg h, if_neg h]

theorem cATxB_entry_congr {c : K} {m n k : ℕ} {A A' B B' C C' : ℕ → ℕ → K}
    (hA : ∀ p < k, ∀ i < m, A p i = A' p i) (hB : ∀ p < k, ∀ j < n, B p j = B' p j) :
    ∀ i < m, ∀ j < n, cATxB_to_C c m n k A B C i j = cATxB_to_C c m n k A' B' C' i j := by
  intro i hi j hj
  unfold cATxB_to_C gemm
  simp only [hi, hj, and_self, if_true]
  congr 1
  exact loopSum_congr fun p hp => by beta_reduce; rw [hA p hp i hi, hB p hp j hj]

theorem cAxB_entry_congr {c : K} {m n k : ℕ} {A A' B B' C C' : ℕ → ℕ → K}
    (hA : ∀ i < m, ∀ p < k, A i p = A' i p) (hB : ∀ p < k, ∀ j < n, B p j = B' p j) :
    ∀ i < m, ∀ j < n, cAxB_to_C c m n k A B C i j = cAxB_to_C c m n k A' B' C' i j := by
  intro i hi j hj
  unfold cAxB_to_C gemm
  simp only [hi, hj, and_self, if_true]
  congr 1
  exact loopSum_congr fun p hp => by beta_reduce; rw [hA i hi p hp, hB p hp j hj]

/-- same nodes -/
def SameNodes (nn : ℕ) (X Y : ℕ → ℕ → K) : Prop := ∀ i < nn, ∀ d, X i d = Y i d

omit [DecidableEq K] in
theorem scaleRows_entry {nq n : ℕ} {w dj dj' : ℕ → K} {A A' : ℕ → ℕ → K}
    (hd : ∀ q < nq, dj q = dj' q) (hA : ∀ q < nq, ∀ i < n, A q i = A' q i) :
    ∀ q < nq, ∀ i < n, scaleRows nq n w dj A q i = scaleRows nq n w dj' A' q i := by
  intro q hq i hi
  unfold scaleRows scaleVec
  rw [if_pos hq, if_pos hq, if_pos hi, if_pos hi, hd q hq, hA q hq i hi]

theorem invMass_congr {nq nb : ℕ} {w dj dj' : ℕ → K} {B scr scr' MM MM' iM iM' : ℕ → ℕ → K}
    (hd : ∀ q < nq, dj q = dj' q) (hi : ∀ i < nb, ∀ j < nb, iM i j = iM' i j) :
    ∀ i < nb, ∀ j < nb, invMass nq nb w dj B scr MM iM i j = invMass nq nb w dj' B scr' MM' iM' i j :=
  invA_bits (cATxB_entry_congr (fun _ _ _ _ => rfl) (scaleRows_entry hd fun q hq i hi => by
    unfold copyTo; rw [if_pos ⟨hq, hi⟩, if_pos ⟨hq, hi⟩])) hi

theorem l2Projection_congr {nq nb ns : ℕ} {iM iM' B f f' rhs rhs' U U' : ℕ → ℕ → K} {dj dj' w : ℕ → K}
    (hi : ∀ i < nb, ∀ j < nb, iM i j = iM' i j) (hd : ∀ q < nq, dj q = dj' q)
    (hf : ∀ q < nq, ∀ s < ns, f q s = f' q s) :
    ∀ b < nb, ∀ s < ns, l2Projection nq nb ns iM B dj w f rhs U b s =
      l2Projection nq nb ns iM' B dj' w f' rhs' U' b s :=
  cAxB_entry_congr hi (cATxB_entry_congr (fun _ _ _ _ => rfl) (scaleRows_entry hd hf))

section nodes
variable {X Y : ℕ → ℕ → K}

theorem setupDjac_nodes {dim nn : ℕ} {ref : RefData K} (h : SameNodes nn X Y) (q : ℕ) :
    setupDjac dim nn ref X q = setupDjac dim nn ref Y q := by
  unfold setupDjac elementJacobian
  simp only
  rw [cATxB_congr (fun p hp i _ => h p hp i) (fun _ _ _ _ => rfl)]

theorem setupIjac_nodes {dim nn : ℕ} {ref : RefData K} (h : SameNodes nn X Y) (q : ℕ) :
    setupIjac dim nn ref X q = setupIjac dim nn ref Y q := by
  unfold setupIjac elementJacobian
  simp only
  rw [cATxB_congr (fun p hp i _ => h p hp i) (fun _ _ _ _ => rfl)]

theorem refToPhys_nodes {dim nb : ℕ} {row : List K} (h : SameNodes nb X Y) :
    refToPhys dim nb row X = refToPhys dim nb row Y := by
  funext d
  unfold refToPhys cAxB_to_C gemm
  by_cases hd : 0 < 1 ∧ d < dim
  · rw [if_pos hd, if_pos hd]
    congr 1
    exact loopSum_congr fun p hp => by rw [h p hp d]
  · rw [if_neg hd, if_neg hd]

theorem faceNormalQuad_nodes {sign : K} {g face : ℕ} (hf : face < 4)
    (h : SameNodes (nodesPerElemQuad g) X Y) (x : K) :
    faceNormalQuad sign g face X x = faceNormalQuad sign g face Y x := by
  unfold faceNormalQuad
  cases hn : faceNodesQuad face g (List.replicate (nodesPerFaceQuad g) 0) with
  | none => rfl
  | some nodes =>
    simp only [Option.bind_eq_bind, Option.bind_some]
    have e : ∀ grad : List K, normalOnFaceQuad sign (nodesPerFaceQuad g) grad (extractNodes X nodes) =
        normalOnFaceQuad sign (nodesPerFaceQuad g) grad (extractNodes Y nodes) := by
      intro grad
      unfold normalOnFaceQuad
      simp only
      rw [cATxB_congr (A := extractNodes X nodes) (A' := extractNodes Y nodes)
        (fun p hp i _ => h _ (faceNodesQuad_lt hf hn p hp) i) (fun _ _ _ _ => rfl)]
    simp only [e]

theorem faceNormalHex_nodes {sign : K} {g face : ℕ} (hf : face < 6)
    (h : SameNodes (nodesPerElemHex g) X Y) (x : K × K) :
    faceNormalHex sign g face X x = faceNormalHex sign g face Y x := by
  unfold faceNormalHex
  cases hn : faceNodesHex face g (List.replicate (nodesPerFaceHex g) 0) with
  | none => rfl
  | some nodes =>
    simp only [Option.bind_eq_bind, Option.bind_some]
    have e : ∀ grad : List (K × K), normalOnFaceHex sign (nodesPerFaceHex g) grad (extractNodes X nodes) =
        normalOnFaceHex sign (nodesPerFaceHex g) grad (extractNodes Y nodes) := by
      intro grad
      unfold normalOnFaceHex
      simp only
      rw [cATxB_congr (A := extractNodes X nodes) (A' := extractNodes Y nodes)
        (fun p hp i _ => h _ (faceNodesHex_lt hf hn p hp) i) (fun _ _ _ _ => rfl)]
    simp only [e]

end nodes

/-! ### the setup of a rank -/

/-- the normals of one face from the nodes of one element -/
def nodesNormals (s : ShapeType) (gorder : ℕ) (sign : K) (face : ℕ) (X : ℕ → ℕ → K)
    (pts : List (K × K × K)) : Option (List (ℕ → K)) :=
  match s with
  | .Quadrilateral => pts.mapM fun pt => (faceNormalQuad sign gorder face X pt.1).map fun n d =>
        if d = 0 then n.1 else if d = 1 then n.2 else 0
  | .Hexahedron => pts.mapM fun pt => faceNormalHex sign gorder face X (pt.1, pt.2.1)
  | _ => none

theorem nodesNormals_nodes {s : ShapeType} {gorder face : ℕ} {sign : K} {X Y : ℕ → ℕ → K}
    (hf : face < shapeFaces s) (h : SameNodes (shapeNodes s gorder) X Y) (pts : List (K × K × K)) :
    nodesNormals s gorder sign face X pts = nodesNormals s gorder sign face Y pts := by
  cases s with
  | Quadrilateral =>
    unfold nodesNormals
    simp only [faceNormalQuad_nodes hf h]
  | Hexahedron =>
    unfold nodesNormals
    simp only [faceNormalHex_nodes hf h]
  | Segment => rfl
  | Triangle => rfl

section world
variable {m : GMesh K} {nranks : ℕ} {part : List ℕ} {rms : ℕ → RankMesh K}

omit [DecidableEq K] in
theorem World.sameNodes (w : World m nranks part rms) {r : ℕ} (hr : r < nranks) {k e : ℕ}
    (hk : (rms r).l2gElem[k]? = some e) : SameNodes m.npe (elemCoords (rms r) k) (fileCoords m e) := by
  intro i hi d
  obtain ⟨enum, he, h⟩ := w.ranks r hr
  exact C56_element_coordinates m nranks part enum w.mesh w.parts he r hr _ h k e hk i hi d

theorem World.normalsOf (w : World m nranks part rms) {r : ℕ} (hr : r < nranks) {s : ShapeType}
    {gorder : ℕ} (hn : m.npe = shapeNodes s gorder)
    (hfaces : ∀ f ∈ m.faces, f.faceL < shapeFaces s ∧ f.faceR < shapeFaces s)
    {i a : ℕ} {f : IFace} (hi : (rms r).l2gFace[i]? = some a) (hf : IsFace m a f)
    (pts : List (K × K × K)) :
    (Owns part r f.elemL → faceNormals s gorder r (rms r) pts i =
      nodesNormals s gorder 1 f.faceL (fileCoords m f.elemL) pts) ∧
    (¬ Owns part r f.elemL → faceNormals s gorder r (rms r) pts i =
      nodesNormals s gorder (-1) f.faceR (fileCoords m f.elemR) pts) := by
  obtain ⟨f', row, a1, a2, a3, a4, a5, a6, a7, a8, a9, a10, a12⟩ := w.record hr hi
  unfold IsFace at a1 hf
  rw [hf] at a1
  cases a1
  have hmem := hfaces f (List.mem_of_getElem? hf)
  have key : ∀ (sg : K) (k fc e : ℕ), fc < shapeFaces s → (rms r).l2gElem[k]? = some e →
      nodesNormals s gorder sg fc (elemCoords (rms r) k) pts =
        nodesNormals s gorder sg fc (fileCoords m e) pts := by
    intro sg k fc e hfc hk
    exact nodesNormals_nodes hfc (by rw [← hn]; exact w.sameNodes hr hk) pts
  have hfn : ∀ (src : (ℕ × ℕ) × K),
      normalSource (K := K) r row.rankL row.rankR (row.elemL, row.faceL) (row.elemR, row.faceR) = some src →
      faceNormals s gorder r (rms r) pts i =
        nodesNormals s gorder src.2 src.1.2 (elemCoords (rms r) src.1.1) pts := by
    intro src hsrc
    unfold faceNormals
    rw [a2]
    simp only [Option.bind_eq_bind, Option.bind_some]
    rw [hsrc]
    cases s <;> rfl
  have huniq : ∀ {x : ℕ}, Owns part x f.elemL → row.rankL = x := fun hx => by
    unfold Owns at a3 hx
    rw [a3] at hx
    exact Option.some.inj hx
  constructor
  · intro ho
    have hL := huniq ho
    rw [hfn ((row.elemL, row.faceL), 1) (by unfold normalSource; rw [if_pos hL])]
    simp only
    rw [a6]
    exact key 1 _ _ _ hmem.1 (a10 hL)
  · intro ho
    have hL : row.rankL ≠ r := fun h => ho (h ▸ a3)
    have hR := a5.resolve_left hL
    rw [hfn ((row.elemR, row.faceR), -1) (by unfold normalSource; rw [if_neg hL, if_pos hR])]
    simp only
    rw [a8]
    exact key (-1) _ _ _ hmem.2 (a12 hR)

end world

variable [DecLit K]

/-- what a completed setup has stored -/
theorem buildGeom_some {t gt : BasisType} {p gorder rank : ℕ} {rm : RankMesh K}
    {scr MM0 : ℕ → ℕ → ℕ → K} {g : Geom K} (h : buildGeom t gt p gorder rank rm scr MM0 = some g) :
    ∃ sh nb, ∃ mass vol : RefData K, ∃ fr : FaceRef K, basisShape t = some sh ∧ shapeNumBasis sh.1 p = some nb ∧
      volRef (K := K) t gt p gorder (massRuleOrder p) = some mass ∧
      volRef (K := K) t gt p gorder p = some vol ∧ faceRef (K := K) t p = some fr ∧
      (∀ k q, g.djac k q = setupDjac (shapeDim sh.1) (shapeNodes sh.1 gorder) vol (elemCoords rm k) q) ∧
      (∀ k q, g.ijac k q = setupIjac (shapeDim sh.1) (shapeNodes sh.1 gorder) vol (elemCoords rm k) q) ∧
      (∀ k, g.iMM k = invMass mass.nq nb mass.wts
        (setupDjac (shapeDim sh.1) (shapeNodes sh.1 gorder) mass (elemCoords rm k)) mass.val
          (scr k) (MM0 k) fun _ _ => 0) ∧
      ∀ i < rm.numIFacesPart, ∃ l, faceNormals sh.1 gorder rank rm fr.pts i = some l ∧
        ∀ q, g.normals i q = (l[q]?).getD fun _ => 0 := by
  unfold buildGeom at h
  simp only [Option.bind_eq_bind] at h
  obtain ⟨sh, h1, h⟩ := Option.bind_eq_some_iff.1 h
  obtain ⟨nb, h2, h⟩ := Option.bind_eq_some_iff.1 h
  obtain ⟨mass, h3, h⟩ := Option.bind_eq_some_iff.1 h
  obtain ⟨vol, h4, h⟩ := Option.bind_eq_some_iff.1 h
  obtain ⟨fr, h5, h⟩ := Option.bind_eq_some_iff.1 h
  obtain ⟨ns, h6, h⟩ := Option.bind_eq_some_iff.1 h
  cases h
  refine ⟨sh, nb, mass, vol, fr, h1, h2, h3, h4, h5, fun _ _ => rfl, fun _ _ => rfl, fun _ => rfl, ?_⟩
  intro i hi
  have hl : ns.length = rm.numIFacesPart := by rw [mapM_length _ _ _ h6]; simp
  have hi' : i < ns.length := by omega
  refine ⟨ns[i], ?_, fun q => by simp only [List.getElem?_eq_getElem hi', Option.getD_some]⟩
  have := mapM_entry h6 i
  rw [List.getElem?_eq_getElem hi', List.getElem?_range hi] at this
  exact this.symm

/-- what a completed initialisation has stored -/
theorem initState_some {t gt : BasisType} {p gorder ns : ℕ} {rm : RankMesh K} {iMM : ℕ → ℕ → ℕ → K}
    {ic : (ℕ → K) → ℕ → K} {rhs0 U0 u : ℕ → ℕ → ℕ → K}
    (h : initState t gt p gorder ns rm iMM ic rhs0 U0 = some u) :
    ∃ sh gsh nb gnb, ∃ ref : RefData K, basisShape t = some sh ∧ basisShape gt = some gsh ∧
      shapeNumBasis sh.1 p = some nb ∧ shapeNumBasis gsh.1 gorder = some gnb ∧
      volRef (K := K) t gt p gorder (projRuleOrder p) = some ref ∧
      ∀ k, u k = l2Projection ref.nq nb ns (iMM k) ref.val
        (setupDjac (shapeDim sh.1) (shapeNodes sh.1 gorder) ref (elemCoords rm k)) ref.wts
        (fun q => ic (cArr (shapeDim sh.1)
          (refToPhys (shapeDim sh.1) gnb (ref.gval q) (elemCoords rm k)))) (rhs0 k) (U0 k) := by
  unfold initState at h
  simp only [Option.bind_eq_bind] at h
  obtain ⟨sh, h1, h⟩ := Option.bind_eq_some_iff.1 h
  obtain ⟨gsh, h2, h⟩ := Option.bind_eq_some_iff.1 h
  obtain ⟨nb, h3, h⟩ := Option.bind_eq_some_iff.1 h
  obtain ⟨gnb, h4, h⟩ := Option.bind_eq_some_iff.1 h
  obtain ⟨ref, h5, h⟩ := Option.bind_eq_some_iff.1 h
  cases h
  exact ⟨sh, gsh, nb, gnb, ref, h1, h2, h3, h4, h5, fun _ => rfl⟩

theorem shapeNumBasis_nodes {s : ShapeType} {g n : ℕ} (h : shapeNumBasis s g = some n) :
    n = shapeNodes s g := by
  cases s with
  | Segment => cases h; rfl
  | Quadrilateral => cases h; rfl
  | Hexahedron => cases h; rfl
  | Triangle => cases h

/-! ### the slot order of the tables -/

theorem foldlM_len {ι β : Type} {f : List β → ι → Option (List β)}
    (hf : ∀ v i v', f v i = some v' → v'.length = v.length) :
    ∀ {l : List ι} {v v' : List β}, l.foldlM f v = some v' → v'.length = v.length
  | [], v, v', h => by simp at h; rw [h]
  | i :: l, v, v', h => by
    rw [List.foldlM_cons] at h
    obtain ⟨u, h1, h2⟩ := Option.bind_eq_some_iff.1 h
    rw [foldlM_len hf h2, hf _ _ _ h1]

theorem setB_len {β : Type} {v v' : List β} {i : ℕ} {x : β} (h : setB v i x = some v') :
    v'.length = v.length := by
  unfold setB at h
  split at h
  · cases h; simp
  · cases h

omit [DecidableEq K] in
theorem quadRule_length {p : ℕ} {pw : List (K × K × K) × List K}
    (h : getQuadrature (K := K) .Quadrilateral p = some pw) : ∃ n, 0 < n ∧ pw.1.length = n * n := by
  unfold getQuadrature at h
  obtain ⟨q, hq, h⟩ := Option.map_eq_some_iff.1 h
  subst h
  unfold quadGL at hq
  simp only [Option.bind_eq_bind] at hq
  obtain ⟨x, _, hq⟩ := Option.bind_eq_some_iff.1 hq
  obtain ⟨w, _, hq⟩ := Option.bind_eq_some_iff.1 hq
  obtain ⟨a, ha, hq⟩ := Option.bind_eq_some_iff.1 hq
  obtain ⟨b, _, hq⟩ := Option.bind_eq_some_iff.1 hq
  cases hq
  have := foldlM_len (fun v j v' hv => foldlM_len (fun v i v' h => setB_len h) hv) ha
  refine ⟨quadGaussOrder p / 2 + 1, by omega, ?_⟩
  simp only [List.length_map]
  rw [this, List.length_replicate, (C25_sizes _ 2 0).1, pow_two]

theorem order_of_perm {order : List ℕ} {n : ℕ} (h : order.Perm (List.range n)) :
    (∀ i < n, (((order.map Int.ofNat)[i]?).getD 0).toNat < n) ∧
    ∀ i < n, ∀ j < n, (((order.map Int.ofNat)[i]?).getD 0).toNat = (((order.map Int.ofNat)[j]?).getD 0).toNat →
      i = j := by
  have hl : order.length = n := by rw [h.length_eq, List.length_range]
  have e : ∀ i (hi : i < n), (((order.map Int.ofNat)[i]?).getD 0).toNat = order[i]'(by omega) := by
    intro i hi
    rw [List.getElem?_map, List.getElem?_eq_getElem (by omega)]
    rfl
  have hnd : order.Nodup := h.nodup_iff.2 List.nodup_range
  constructor
  · intro i hi
    rw [e i hi]
    exact List.mem_range.1 (h.mem_iff.1 (List.getElem_mem _))
  · intro i hi j hj hij
    rw [e i hi, e j hj] at hij
    exact (List.Nodup.getElem_inj_iff hnd).1 hij

omit [DecidableEq K] in
/-- the tables of a setup that completed have a permutation of the points for every orientation -/
theorem buildDisc_orderOK {t gt : BasisType} {p gorder ns : ℕ} {vf : (ℕ → K) → ℕ → K}
    {nf : (ℕ → K) → (ℕ → K) → (ℕ → K) → ℕ → K} {d : Disc K}
    (h : buildDisc t gt p gorder ns vf nf = some d) :
    ∃ sh nb, basisShape t = some sh ∧ shapeNumBasis sh.1 p = some nb ∧ d.ns = ns ∧ d.nb = nb ∧
      d.nface = shapeFaces sh.1 ∧ OrderOK d (shapeOrients sh.1) := by
  unfold buildDisc at h
  simp only [Option.bind_eq_bind] at h
  obtain ⟨sh, h1, h⟩ := Option.bind_eq_some_iff.1 h
  obtain ⟨nb, h2, h⟩ := Option.bind_eq_some_iff.1 h
  obtain ⟨vol, h3, h⟩ := Option.bind_eq_some_iff.1 h
  obtain ⟨fr, h4, h⟩ := Option.bind_eq_some_iff.1 h
  cases h
  refine ⟨sh, nb, h1, h2, rfl, rfl, rfl, ?_⟩
  unfold faceRef at h4
  simp only [Option.bind_eq_bind] at h4
  rw [h1] at h4
  simp only [Option.bind_some] at h4
  obtain ⟨fsh, f1, h4⟩ := Option.bind_eq_some_iff.1 h4
  obtain ⟨nb', f2, h4⟩ := Option.bind_eq_some_iff.1 h4
  obtain ⟨pw, f3, h4⟩ := Option.bind_eq_some_iff.1 h4
  obtain ⟨val, f4, h4⟩ := Option.bind_eq_some_iff.1 h4
  cases h4
  intro o ho
  have hsh : (sh = (.Quadrilateral, some .Segment)) ∨ (sh = (.Hexahedron, some .Quadrilateral)) ∨ sh.2 = none := by
    unfold basisShape at h1
    cases t <;> simp at h1 <;> subst h1 <;> simp
  rcases hsh with rfl | rfl | hn
  · obtain ⟨order, o1, o2⟩ := C13_quad_permutation pw.1.length o ho
      (List.replicate pw.1.length 0) (by simp)
    have := order_of_perm o2
    simp only [facePtsOrder, o1, Option.getD_some]
    exact this
  · cases f1
    obtain ⟨n, n1, n2⟩ := quadRule_length f3
    obtain ⟨order, o1, o2⟩ := C13_hex_permutation n o n1 ho (List.replicate pw.1.length 0) (by simp [n2])
    rw [← n2] at o1 o2
    have := order_of_perm o2
    simp only [facePtsOrder, o1, Option.getD_some]
    exact this
  · rw [hn] at f1; cases f1

end DG
