import Verif.Spec.Main
import Verif.Props.ReadMesh
import Verif.Props.EulerDG
import Verif.Props.Convert
import Verif.Props.Stepper

/-!
Property C67: the solver executable as a whole.
-/
namespace DG
open Finset

/-! ### reading the mesh -/

/-- rows of six slots, counters counting sides -/
structure RevOK (n : ℕ) (faces : List IFace) (m : RevMap) : Prop where
  len : m.tbl.length = n
  rows : ∀ row ∈ m.tbl, row.length = 6
  clen : m.cnt.length = n
  cnt : ∀ e < n, m.cnt[e]? = some (sidesOf faces e)

theorem rev_write {m : RevMap} {n e v c : ℕ} (hl : m.tbl.length = n) (hr : ∀ row ∈ m.tbl, row.length = 6)
    (he : e < n) (hc : m.cnt[e]? = some c) (h6 : c < 6) :
    ∃ m', m.write e v = some m' ∧ m'.tbl.length = n ∧ (∀ row ∈ m'.tbl, row.length = 6) ∧ m'.cnt = m.cnt := by
  have h1 : e < m.tbl.length := by omega
  have hrow := hr _ (List.getElem_mem h1)
  refine ⟨⟨m.tbl.set e (m.tbl[e].set c v), m.cnt⟩, ?_, by simpa using hl, ?_, rfl⟩
  · unfold RevMap.write
    rw [List.getElem?_eq_getElem h1, hc]
    simp [setB, hrow, h6, h1]
  · intro row hmem
    rcases List.mem_or_eq_of_mem_set hmem with h | rfl
    · exact hr _ h
    · simpa using hrow

theorem rev_bump {m : RevMap} {n e c : ℕ} (he : e < n) (hl : m.cnt.length = n) (hc : m.cnt[e]? = some c) :
    m.bump e = some ⟨m.tbl, m.cnt.set e (c + 1)⟩ := by
  unfold RevMap.bump bumpB
  have h1 : e < m.cnt.length := by omega
  rw [hc]
  simp [setB, h1]

theorem rev_face {n : ℕ} {faces : List IFace} {f : IFace} {i : ℕ} {m : RevMap} (h : RevOK n faces m)
    (hL : f.elemL < n) (hR : f.elemR < n) (hcap : ∀ e < n, sidesOf (faces ++ [f]) e ≤ 6) :
    ∃ m', revFace m f i = some m' ∧ RevOK n (faces ++ [f]) m' := by
  have cL := hcap _ hL
  have cR := hcap _ hR
  rw [sidesOf_snoc] at cL cR
  simp only [if_true] at cL cR
  obtain ⟨m1, w1, l1, r1, e1⟩ := rev_write (v := i) h.len h.rows hL (h.cnt _ hL) (by omega)
  obtain ⟨m2, w2, l2, r2, e2⟩ := rev_write (v := i) l1 r1 hR (by rw [e1]; exact h.cnt _ hR) (by omega)
  have b1 := rev_bump (m := m2) (c := sidesOf faces f.elemL) hL (by rw [e2, e1]; exact h.clen) (by rw [e2, e1]; exact h.cnt _ hL)
  have hc : ∀ e < n, (m2.cnt.set f.elemL (sidesOf faces f.elemL + 1))[e]? =
      some (sidesOf faces e + if f.elemL = e then 1 else 0) := by
    intro e he
    have he' : e < m2.cnt.length := by rw [e2, e1, h.clen]; exact he
    by_cases hx : f.elemL = e
    · subst hx; rw [List.getElem?_set_self he']; simp
    · rw [List.getElem?_set_ne hx, e2, e1, h.cnt e he]; simp [hx]
  have b2 := rev_bump (m := ⟨m2.tbl, m2.cnt.set f.elemL (sidesOf faces f.elemL + 1)⟩) hR
    (by simp [e2, e1, h.clen]) (hc _ hR)
  refine ⟨⟨m2.tbl, (m2.cnt.set f.elemL (sidesOf faces f.elemL + 1)).set f.elemR
    ((sidesOf faces f.elemR + if f.elemL = f.elemR then 1 else 0) + 1)⟩, ?_, ?_⟩
  · unfold revFace
    rw [w1]
    simp only [Option.bind_eq_bind, Option.bind_some]
    rw [w2]
    simp only [Option.bind_some]
    rw [b1]
    simp only [Option.bind_some]
    exact b2
  · refine ⟨l2, r2, by simp [e2, e1, h.clen], fun e he => ?_⟩
    rw [sidesOf_snoc]
    show ((m2.cnt.set f.elemL (sidesOf faces f.elemL + 1)).set f.elemR _)[e]? = _
    have he' : e < (m2.cnt.set f.elemL (sidesOf faces f.elemL + 1)).length := by simp [e2, e1, h.clen, he]
    by_cases hx : f.elemR = e
    · subst hx; rw [List.getElem?_set_self he']; simp; omega
    · rw [List.getElem?_set_ne hx, hc e he]; simp [hx]

/-- The face loop of `read_mesh` does not leave its tables if no element has more than six sides (also if a
face joins an element to itself). -/
theorem readFaces_ok (n : ℕ) (data : List ℕ) (faces : List IFace)
    (hd : ∀ i f, faces[i]? = some f → readFace data i = some f)
    (hr : ∀ f ∈ faces, f.elemL < n ∧ f.elemR < n) (hcap : ∀ e < n, sidesOf faces e ≤ 6) :
    ∃ rev, readFaces n faces.length data = some (faces, rev) ∧ RevOK n faces rev := by
  unfold readFaces
  induction faces using List.reverseRecOn with
  | nil =>
    refine ⟨_, rfl, by simp [RevMap.empty], ?_, by simp [RevMap.empty], ?_⟩
    · intro row hrow
      simp only [RevMap.empty, List.mem_replicate] at hrow
      rw [hrow.2]; simp
    · intro e he
      simp [RevMap.empty, sidesOf, he]
  | append_singleton fs f ih =>
    have hmono : ∀ e, sidesOf fs e ≤ sidesOf (fs ++ [f]) e := by
      intro e; rw [sidesOf_snoc]; omega
    obtain ⟨rev, h1, h2⟩ := ih (fun i g h => hd i g (by
        have : i < fs.length := (List.getElem?_eq_some_iff.1 h).1
        rw [List.getElem?_append_left this]; exact h))
      (fun g hg => hr g (by simp [hg])) (fun e he => le_trans (hmono e) (hcap e he))
    have hf : readFace data fs.length = some f := hd _ _ (by simp)
    obtain ⟨hL, hR⟩ := hr f (by simp)
    obtain ⟨m', w1, w2⟩ := rev_face (i := fs.length) h2 hL hR hcap
    refine ⟨m', ?_, w2⟩
    rw [List.length_append, List.length_singleton, List.range_succ, List.foldlM_append, h1]
    simp [hf, w1]

theorem flatMap_get {τ β : Type} (w : ℕ) (F : τ → List β) (l : List τ) (hF : ∀ x ∈ l, (F x).length = w)
    (i j : ℕ) (hj : j < w) : (l.flatMap F)[w * i + j]? = l[i]?.bind fun x => (F x)[j]? := by
  induction l generalizing i with
  | nil => simp
  | cons x xs ih =>
    rw [List.flatMap_cons]
    have hx := hF x (by simp)
    cases i with
    | zero => simp only [Nat.mul_zero, Nat.zero_add]; rw [List.getElem?_append_left (by omega)]; simp
    | succ i =>
      rw [List.getElem?_append_right (by rw [hx]; nlinarith), hx]
      have : w * (i + 1) + j - w = w * i + j := by rw [Nat.mul_add, Nat.mul_one]; omega
      rw [this, ih (fun y hy => hF y (by simp [hy]))]
      simp

theorem readFace_of (faces : List IFace) (i : ℕ) (f : IFace) (h : faces[i]? = some f) :
    readFace (faces.flatMap fun f => [f.elemL, f.faceL, f.orientL, f.elemR, f.faceR, f.orientR]) i = some f := by
  have key : ∀ j < 6, (faces.flatMap fun f => [f.elemL, f.faceL, f.orientL, f.elemR, f.faceR, f.orientR])[6 * i + j]?
      = [f.elemL, f.faceL, f.orientL, f.elemR, f.faceR, f.orientR][j]? := by
    intro j hj
    rw [flatMap_get 6 _ faces (fun _ _ => rfl) i j hj, h]; rfl
  unfold readFace
  rw [key 0 (by omega), key 1 (by omega), key 2 (by omega), key 3 (by omega), key 4 (by omega), key 5 (by omega)]
  rfl

theorem bgroup_of (bs : List BFace) : BGroupOK (bs.length, bs.flatMap fun b => [b.elem, b.face, b.orient]) bs := by
  refine ⟨rfl, fun i b h => ?_⟩
  have key : ∀ j < 3, (bs.flatMap fun b => [b.elem, b.face, b.orient])[3 * i + j]? = [b.elem, b.face, b.orient][j]? := by
    intro j hj
    rw [flatMap_get 3 _ bs (fun _ _ => rfl) i j hj, h]; rfl
  exact ⟨key 0 (by omega), key 1 (by omega), key 2 (by omega)⟩

theorem bfacesOf_length (l : List BFace) (e : ℕ) : (bfacesOf l e).length = (l.filter fun b => b.elem == e).length := by
  unfold bfacesOf
  rw [List.length_map, ← List.countP_eq_length_filter, ← List.countP_eq_length_filter]
  conv_rhs => rw [← List.zipIdx_map_fst 0 l, List.countP_map]
  rfl

/-- A mesh file is read back as the mesh it stores. -/
theorem readMesh_of {K : Type} {m : GMesh K} {dim : ℕ} {mf : MeshFile K} (h : MeshFileOf m dim mf) (hm : MeshOK m)
    (hcap : ∀ e < m.numElems, sidesOf m.faces e ≤ 6) : ∃ rd, readMesh mf = some rd ∧ rd.mesh = m := by
  obtain ⟨rev, r1, -⟩ := readFaces_ok m.numElems mf.ifaceData m.faces
    (fun i f hf => by rw [h.faces]; exact readFace_of _ i f hf) hm.faces hcap
  obtain ⟨bss, hb1, hb2, hb3⟩ := h.bnd
  obtain ⟨st, b1, -⟩ := C11_boundary_faces m.numElems mf.bgroups bss (by
      rw [hb1, List.forall₂_map_left_iff]
      exact List.forall₂_same.2 fun bs _ => bgroup_of bs) hb2
    (fun e he => by rw [bfacesOf_length]; exact hb3 e he)
  have hc : readCoords mf.numNodes mf.dim mf.nodeCoords = some m.coord := by
    obtain ⟨c, c1, c2, c3⟩ := C11_coordinates mf.numNodes mf.dim mf.nodeCoords (by
      rw [h.coords, h.numNodes, h.fileDim]
      exact length_flatten_const dim _ h.rows)
    rw [c1]
    congr 1
    apply List.ext_getElem?
    intro i
    by_cases hi : i < mf.numNodes
    · obtain ⟨row, r1, r2, r3⟩ := c3 i hi
      have hi' : i < m.coord.length := by rw [← h.numNodes]; exact hi
      rw [r1, List.getElem?_eq_getElem hi']
      congr 1
      have hrl := h.rows _ (List.getElem_mem hi')
      apply List.ext_getElem?
      intro d
      by_cases hd : d < mf.dim
      · rw [(r3 d hd).1, h.coords]
        have := flatMap_get dim id m.coord h.rows i d (by rw [← h.fileDim]; exact hd)
        rw [List.flatMap_id, List.getElem?_eq_getElem hi'] at this
        rw [h.fileDim, Nat.mul_comm, this]
        rfl
      · rw [List.getElem?_eq_none (by omega), List.getElem?_eq_none (by rw [hrl, ← h.fileDim]; omega)]
    · rw [List.getElem?_eq_none (by omega), List.getElem?_eq_none (by rw [← h.numNodes]; omega)]
  refine ⟨⟨m, readEptr mf.numElems mf.npe, rev, st⟩, ?_, rfl⟩
  unfold readMesh
  rw [hc]
  simp only [Option.bind_eq_bind, Option.bind_some]
  rw [h.numElems, h.numFaces, r1]
  simp only [Option.bind_some]
  rw [b1]
  simp only [Option.bind_some]
  rw [h.npe, h.conn]

/-- sides of an element -/
theorem sides_le {K : Type} {m : GMesh K} (k : ℕ) (hL : ∀ f ∈ m.faces, f.faceL < k) (hR : ∀ f ∈ m.faces, f.faceR < k)
    (hn : (m.faces.flatMap fun f => [(f.elemL, f.faceL), (f.elemR, f.faceR)]).Nodup) (e : ℕ) : sidesOf m.faces e ≤ k := by
  have h1 : sidesOf m.faces e =
      ((m.faces.flatMap fun f => [(f.elemL, f.faceL), (f.elemR, f.faceR)]).filter fun x => x.1 == e).length := by
    clear hL hR hn
    unfold sidesOf
    induction m.faces with
    | nil => rfl
    | cons f fs ih =>
      rw [List.map_cons, List.sum_cons, ih, List.flatMap_cons, List.filter_append, List.length_append]
      congr 1
      by_cases a : f.elemL = e <;> by_cases b : f.elemR = e <;> simp [a, b]
  rw [h1]
  set L := (m.faces.flatMap fun f => [(f.elemL, f.faceL), (f.elemR, f.faceR)]).filter fun x => x.1 == e with hLdef
  have hnd : L.Nodup := hn.filter _
  have hmem : ∀ x ∈ L, x.1 = e ∧ x.2 < k := by
    intro x hx
    rw [hLdef, List.mem_filter, List.mem_flatMap] at hx
    obtain ⟨⟨f, hf, hx⟩, h2⟩ := hx
    refine ⟨by simpa using h2, ?_⟩
    simp only [List.mem_cons, List.not_mem_nil, or_false] at hx
    rcases hx with rfl | rfl
    · exact hL f hf
    · exact hR f hf
  have h2 : (L.map Prod.snd).Nodup := by
    refine List.Nodup.map_on ?_ hnd
    intro x hx y hy hxy
    exact Prod.ext ((hmem x hx).1.trans (hmem y hy).1.symm) hxy
  have h3 : (L.map Prod.snd).Subperm (List.range k) := by
    refine List.subperm_of_subset h2 ?_
    intro i hi
    obtain ⟨x, hx, rfl⟩ := List.mem_map.1 hi
    exact List.mem_range.2 (hmem x hx).2
  have := h3.length_le
  simpa using this

/-! ### the input file -/

theorem parse_quadrature (q : String)
    (hq : q ∈ ["GaussLegendre", "GaussLobatto", "TriangleDunavant", "TriangleGaussLegendre"]) :
    ∃ a, parseEnum quadratureTable
      [QuadratureType.GaussLegendre, .GaussLobatto, .TriangleDunavant, .TriangleGaussLegendre] q = some a := by
  simp only [List.mem_cons, List.not_mem_nil, or_false] at hq
  rcases hq with rfl | rfl | rfl | rfl <;> exact ⟨_, rfl⟩

theorem deck_solver {deck : Deck} {dim p : ℕ} {b : BasisType} {ph : Physics} {st : StepperType} {dt T : ℝ}
    (h : DeckAsks deck dim p b ph st dt T) (γ0 R0 : ℝ) :
    makeSolver deck.solver ph.icData γ0 R0 = some ⟨ph, st, dt, T, 0⟩ := by
  rw [C35_configuration]
  obtain ⟨hE, hE'⟩ := h.euler
  refine ⟨h.ic, by rw [hE']; exact hE, ?_, ?_, h.timestep, h.tend, rfl, rfl, ?_, ?_⟩
  · rcases h.flux with e | ⟨e, e'⟩
    · rw [e]; rfl
    · rw [e]; simp only [Option.getD_none]; rw [e']; rfl
  · rcases h.stepper with e | ⟨e, e'⟩
    · rw [e]; rfl
    · rw [e]; simp only [Option.getD_none]; rw [e']; rfl
  · rw [if_pos hE']
    rcases h.gamma with e | ⟨e, e'⟩
    · rw [e]; rfl
    · rw [e, e']; rfl
  · rw [if_pos hE']
    rcases h.gas with e | ⟨e, e'⟩
    · rw [e]; rfl
    · rw [e, e']; rfl

/-- the numerics of an input file -/
theorem params_of {order : Option ℕ} {basis quad : Option String} {p : ℕ} {b : BasisType} (ho : order = some p)
    (hbn : basis = some b.label)
    (hqd : ∀ q, quad = some q → q ∈ ["GaussLegendre", "GaussLobatto", "TriangleDunavant", "TriangleGaussLegendre"])
    (nb nb1 gnb : ℕ) (g : BasisType × ℕ × ℕ) (h1 : getNumBases b p = some nb)
    (h2 : getNumBases1d b p = some nb1) (h3 : geometricBasis b = some g) (h4 : getNumBases g.1 1 = some gnb)
    (hmax : nb ≤ 300) :
    ∃ num, makeNumParams nBasisMax order basis quad 1 = some num ∧ num.order = p ∧ num.basis = b ∧
      num.gbasis = g.1 := by
  have hb : parseEnum basisTable BasisType.members b.label = some b := (parse_basis b.label b).2 rfl
  obtain ⟨q, hq⟩ : ∃ q, parseEnum quadratureTable
      [QuadratureType.GaussLegendre, .GaussLobatto, .TriangleDunavant, .TriangleGaussLegendre]
      (quad.getD (if b = .TriangleLagrange then "TriangleDunavant" else "GaussLegendre")) = some q := by
    cases hd : quad with
    | some s => exact parse_quadrature s (hqd s hd)
    | none =>
      refine parse_quadrature _ ?_
      rw [Option.getD_none]
      split <;> simp
  refine ⟨⟨p, b, nb, nb1, 1, g.1, g.2.1, g.2.2, gnb, q⟩, ?_, rfl, rfl, rfl⟩
  unfold makeNumParams
  rw [ho, hbn]
  simp only [Option.bind_eq_bind, Option.bind_some]
  rw [hb]
  simp only [Option.bind_some]
  rw [h1]
  simp only [Option.bind_some]
  rw [h2]
  simp only [Option.bind_some]
  rw [if_pos (show nb ≤ nBasisMax from hmax), h3]
  simp only [Option.bind_some]
  rw [h4]
  simp only [Option.bind_some]
  rw [hq]
  rfl

theorem deck_params {deck : Deck} {dim p : ℕ} {b : BasisType} {ph : Physics} {st : StepperType} {dt T : ℝ}
    (h : DeckAsks deck dim p b ph st dt T) (nb nb1 gnb : ℕ) (g : BasisType × ℕ × ℕ) (h1 : getNumBases b p = some nb)
    (h2 : getNumBases1d b p = some nb1) (h3 : geometricBasis b = some g) (h4 : getNumBases g.1 1 = some gnb)
    (hmax : nb ≤ 300) :
    ∃ num, makeNumParams nBasisMax deck.order deck.basis deck.quad 1 = some num ∧ num.order = p ∧ num.basis = b ∧
      num.gbasis = g.1 := by
  exact params_of h.order h.basisName h.quad nb nb1 gnb g h1 h2 h3 h4 hmax

/-! ### the ranks -/

theorem part_single {K : Type} {m : GMesh K} {part : List ℕ} (hp : PartOK m 1 part) : List.replicate m.numElems 0 = part := by
  symm
  rw [List.eq_replicate_iff]
  exact ⟨hp.len, fun x hx => by have := hp.lt x hx; omega⟩

theorem LaunchOK.part_eq {K : Type} {m : GMesh K} {nranks : ℕ} {part : List ℕ} {env : ℕ → RankEnv K}
    (h : LaunchOK m nranks part env) (r : ℕ) (hr : r < nranks) :
    elemPartition nranks m.numElems (env r).metis = part := by
  unfold elemPartition
  by_cases h1 : nranks > 1
  · rw [if_pos h1]; exact h.metis r hr h1
  · obtain rfl : nranks = 1 := by omega
    rw [if_neg h1]; exact part_single h.parts

theorem myFaces_length (part : List ℕ) (r : ℕ) (faces : List IFace) :
    (myFaces part r faces).length = (faces.filter fun f => decide (Touches part r f)).length := by
  unfold myFaces
  rw [← List.countP_eq_length_filter, ← List.countP_eq_length_filter]
  conv_rhs => rw [← List.zipIdx_map_fst 0 faces, List.countP_map]
  rfl

/-- the partitions of all ranks -/
theorem LaunchOK.world {K : Type} {m : GMesh K} {nranks : ℕ} {part : List ℕ} {env : ℕ → RankEnv K}
    (h : LaunchOK m nranks part env) (hm : MeshOK m) :
    ∃ rms : ℕ → RankMesh K, World m nranks part rms ∧
      (∀ r < nranks, partition m nranks nranks part (env r).enum r = some (rms r)) ∧
      ∀ r < nranks, ∃ v, checkView (rms r) = some v := by
  have key : ∀ r, ∃ rm : RankMesh K, r < nranks → partition m nranks nranks part (env r).enum r = some rm ∧
      ∃ v, checkView rm = some v := by
    intro r
    by_cases hr : r < nranks
    · obtain ⟨rm, h1, h2⟩ := partition_spec m nranks part (env r).enum r hm h.parts (h.enum r) hr
      refine ⟨rm, fun _ => ⟨h1, ?_⟩⟩
      have hc := C12_debug_print_ub_iff m nranks part (env r).enum hm h.parts (h.enum r) r hr rm h1
      cases hv : checkView rm with
      | some v => exact ⟨v, rfl⟩
      | none =>
        have := hc.1 hv
        rw [h2.numIFacesPart, myFaces_length] at this
        exact absurd (h.busy r hr) (by omega)
    · obtain ⟨rm, -⟩ := partition_spec m nranks part (env 0).enum 0 hm h.parts (h.enum 0) h.pos
      exact ⟨rm, fun h => absurd h hr⟩
  choose rms h1 using key
  exact ⟨rms, ⟨hm, h.parts, fun r hr => ⟨_, h.enum r, (h1 r hr).1⟩⟩, fun r hr => (h1 r hr).1, fun r hr => (h1 r hr).2⟩

theorem iterations_of {T dt : ℝ} (hdt : 0 < dt) {n : ℕ} (h1 : (n : ℝ) * dt ≤ T) (h2 : T < ((n : ℝ) + 1) * dt)
    (hn : n < 2 ^ 31) : numIterations (T / dt) = some n := by
  have e : ⌊T / dt⌋ = (n : ℤ) := by
    rw [Int.floor_eq_iff]
    constructor
    · rw [le_div_iff₀ hdt]; exact_mod_cast h1
    · rw [div_lt_iff₀ hdt]; exact_mod_cast h2
  have h0 : 0 ≤ T / dt := div_nonneg (le_trans (by positivity) h1) hdt.le
  unfold numIterations
  rw [if_pos h0, e, if_pos ⟨by omega, by exact_mod_cast hn⟩]
  congr 1
  omega

theorem readInputs_ok {deck : Deck} {dim p : ℕ} {b : BasisType} {ph : Physics} {st : StepperType} {dt T : ℝ}
    (h : DeckAsks deck dim p b ph st dt T) (un : Unset) (nranks : ℕ) {num : NumParams}
    (hnum : makeNumParams nBasisMax deck.order deck.basis deck.quad 1 = some num) (hp : num.order = p) (hb : num.basis = b)
    {gb : BasisType} (hg : num.gbasis = gb) {sh : ShapeType × Option ShapeType} (hsh : basisShape b = some sh)
    (hdim : shapeDim sh.1 = dim) (fs : String → List String → Option (MeshFile ℝ)) {name : String}
    (hname : deck.meshFile = some name) {mf : MeshFile ℝ} (hmf : fs name deck.boundaries = some mf) {m : GMesh ℝ}
    {rd : ReadResult ℝ} (hrd : readMesh mf = some rd) (hrm : rd.mesh = m) {d : Disc ℝ}
    (hd : buildDisc b gb p 1 (dim + 2) (solverVolFlux dim ph un.vol) (solverNumFlux dim ph un.num) = some d) {n : ℕ}
    {steps : SolverSetup → Option ℕ} (hn : steps ⟨ph, st, dt, T, 0⟩ = some n) :
    readInputs deck fs un dim nranks steps = some ⟨num, m, mf.dim, nranks, ⟨ph, st, dt, T, 0⟩, d, n⟩ := by
  unfold readInputs
  simp only [Option.bind_eq_bind]
  rw [hnum, Option.bind_some, hname, Option.bind_some]
  have hpt : numPartitions deck.parts nranks = some nranks := by unfold numPartitions; rw [h.parts]; rfl
  rw [hpt, Option.bind_some, hmf, Option.bind_some, hrd, Option.bind_some, h.icData, Option.bind_some,
    deck_solver h, Option.bind_some, if_pos (show ph.icData.length ≤ initParamsMax from h.icSize), hb, hsh, Option.bind_some,
    if_pos hdim, hg, hp]
  simp only
  rw [hd, Option.bind_some, hn, Option.bind_some, hrm]

/-- writing the file and converting it, for ranks in the states `st` -/
theorem files_convert {K : Type} [Zero K] {m : GMesh K} {nranks : ℕ} {part : List ℕ} {env : ℕ → RankEnv K}
    (hl : LaunchOK m nranks part env) (hm : MeshOK m) (dim nb : ℕ) (rms : ℕ → RankMesh K)
    (hrms : ∀ r < nranks, partition m nranks nranks part (env r).enum r = some (rms r))
    (hu : AllNodesUsed m) (hrow : ∀ row ∈ m.coord, row.length = dim) (hc : 0 < m.coord.length) (hnpe : 0 < m.npe)
    (hdim : 0 < dim) (hnb : 0 < nb) (V : Coeffs K) (time : K) (st : ℕ → Option (RankState K))
    (hS : ∀ r < nranks, ∃ s, st r = some s ∧ s.time = time ∧
      ∀ i e : ℕ, (rms r).l2gElem[i]? = some e → ∀ j < nb, ∀ k < dim + 2, s.Uc i j k = V e j k)
    (ord : ℕ → List ℕ) (hord : ∀ i, (ord i).Perm (List.range nranks)) :
    ∃ f, ((List.range nranks).mapM fun r => (st r).map fun s => rankOut m dim nranks nb (dim + 2) s.time true (rms r) s.Uc).bind
        (fun outs => writeFile true outs ord) = some f ∧
      convert nranks f = some (serialFile m dim nb (dim + 2) time V) ∧
      ∀ r < nranks, ∃ s, readInCoefficients nranks f r newSolver = some s ∧ s.time = 0 ∧
        ∀ i e : ℕ, (rms r).l2gElem[i]? = some e → ∀ j < nb, ∀ k < dim + 2, s.uc i j k = some (V e j k) := by
  have key : ∀ r, ∃ s : RankState K, r < nranks → st r = some s ∧ s.time = time ∧
      ∀ i e : ℕ, (rms r).l2gElem[i]? = some e → ∀ j < nb, ∀ k < dim + 2, s.Uc i j k = V e j k := by
    intro r
    by_cases hr : r < nranks
    · obtain ⟨s, h⟩ := hS r hr
      exact ⟨s, fun _ => h⟩
    · obtain ⟨s, -⟩ := hS 0 hl.pos
      exact ⟨s, fun h => absurd h hr⟩
  choose S hS using key
  obtain ⟨f, h1, h2⟩ := convert_serialFile m dim nranks nb (dim + 2) time part (fun r => (env r).enum)
    rms (fun r => (S r).Uc) V hl.pos hm hl.parts hl.enum hrms hu hrow hc hnpe hdim hnb (by omega)
    (fun r hr i e hi j hj k hk => (hS r hr).2.2 i e hi j hj k hk) ord hord
  have hback : ∀ r < nranks, ∃ s, readInCoefficients nranks f r newSolver = some s ∧ s.time = 0 ∧
        ∀ i e : ℕ, (rms r).l2gElem[i]? = some e → ∀ j < nb, ∀ k < dim + 2, s.uc i j k = some (V e j k) := by
    obtain ⟨f', a1, a2⟩ := C45_coefficients_survive m dim nranks nb (dim + 2) time true part (fun r => (env r).enum)
      rms (fun r => (S r).Uc) hl.pos hm hl.parts hl.enum hrow hrms ord hord
    obtain ⟨f'', b1, -, b2⟩ := C46_time_is_not_restored m dim nranks nb (dim + 2) time true part (fun r => (env r).enum)
      rms (fun r => (S r).Uc) hl.pos hm hl.parts hl.enum hrow hrms ord hord
    rw [h1] at a1 b1; cases a1; cases b1
    intro r hr
    obtain ⟨s, s1, -, -, -, s2⟩ := a2 r hr
    obtain ⟨s', s1', s3, -⟩ := b2 r hr
    rw [s1] at s1'; cases s1'
    have res := result_of hm hl.parts (hl.enum r) hr (hrms r hr)
    refine ⟨s, s1, s3, fun i e hi j hj k hk => ?_⟩
    have hlt : i < (rms r).numElemsPart := by
      rw [res.numElemsPart, ← res.l2gElem]
      by_contra hc
      rw [List.getElem?_eq_none (by omega)] at hi
      cases hi
    rw [s2 i hlt j hj k hk, (hS r hr).2.2 i e hi j hj k hk]
  refine ⟨f, ?_, h2, hback⟩
  have hmap : ((List.range nranks).mapM fun r =>
      (st r).map fun s => rankOut m dim nranks nb (dim + 2) s.time true
        (rms r) s.Uc) =
      some (runOuts m dim nranks nb (dim + 2) time true (rms) fun r => (S r).Uc) := by
    unfold runOuts
    apply mapM_some
    intro r hr
    obtain ⟨a, b, -⟩ := hS r (List.mem_range.1 hr)
    rw [a, Option.map_some, b]
  rw [hmap]
  exact h1

/-- writing the file and converting it -/
theorem jobFile_convert {m : GMesh ℝ} {nranks : ℕ} {part : List ℕ} {env : ℕ → RankEnv}
    (hl : LaunchOK m nranks part env) (hm : MeshOK m) (dim nb : ℕ) (job : Job) (ranks : ℕ → RankReady)
    (hrms : ∀ r < nranks, partition m nranks nranks part (env r).enum r = some (ranks r).rm)
    (jm : job.mesh = m) (jd : job.fileDim = dim) (jn : job.disc.nb = nb)
    (hu : AllNodesUsed m) (hrow : ∀ row ∈ m.coord, row.length = dim) (hc : 0 < m.coord.length) (hnpe : 0 < m.npe)
    (hdim : 0 < dim) (hnb : 0 < nb) (V : Coeffs ℝ) (time : ℝ) (c : LoopConf)
    (hS : ∀ r < nranks, ∃ s, (c.proc r).st.2 = some s ∧ s.time = time ∧
      ∀ i e : ℕ, (ranks r).rm.l2gElem[i]? = some e → ∀ j < nb, ∀ k < dim + 2, s.Uc i j k = V e j k)
    (ord : ℕ → List ℕ) (hord : ∀ i, (ord i).Perm (List.range nranks)) :
    ∃ f, jobFile job ranks dim nranks ord c = some f ∧
      convert nranks f = some (serialFile m dim nb (dim + 2) time V) ∧
      ∀ r < nranks, ∃ s, readInCoefficients nranks f r newSolver = some s ∧ s.time = 0 ∧
        ∀ i e : ℕ, (ranks r).rm.l2gElem[i]? = some e → ∀ j < nb, ∀ k < dim + 2, s.uc i j k = some (V e j k) := by
  obtain ⟨f, h1, h2, h3⟩ := files_convert hl hm dim nb (fun r => (ranks r).rm) hrms hu hrow hc hnpe hdim hnb V time
    (fun r => (c.proc r).st.2) hS ord hord
  refine ⟨f, ?_, h2, h3⟩
  unfold jobFile
  rw [jm, jd, jn]
  exact h1

/-- what a rank has done when it is ready -/
theorem readyRank_some {job : Job} {un : Unset} {dim nranks : ℕ} {env : RankEnv} {r : ℕ} {q : RankReady}
    (h : readyRank job un dim nranks env r = some q) :
    partition job.mesh job.nparts nranks (elemPartition job.nparts job.mesh.numElems env.metis) env.enum r = some q.rm ∧
    buildGeom job.num.basis job.num.gbasis job.num.order 1 r q.rm env.scr env.MM0 = some q.geom ∧
    initState job.num.basis job.num.gbasis job.num.order 1 (dim + 2) q.rm q.geom.iMM
      (solverIC dim job.sol.physics un.ic) env.rhs0 env.U0 = some q.init := by
  unfold readyRank at h
  simp only [Option.bind_eq_bind, Option.bind_eq_some_iff, Option.some.injEq] at h
  obtain ⟨rm, h1, -, -, g, h2, u, h3, rfl⟩ := h
  exact ⟨h1, h2, h3⟩

/-! ### C67 -/

/-- Everything the program needs of its inputs (quadrilaterals): the input file asks for a run with an
implemented order of either basis, a uniform or vortex start in a gas with ratio of specific heats above
one, and a positive number of time steps below `2^31`; the mesh file stores a mesh of bilinear
quadrilaterals without collapsed sides or unused nodes; the textbook run is physically admissible. -/
structure QuadRunOK (deck : Deck) (fs : String → List String → Option (MeshFile ℝ)) (m : GMesh ℝ) (t : Fam) (p : ℕ)
    (ph : Physics) (start : (ℕ → ℝ) → ℕ → ℝ) (st : StepperType) (dt T : ℝ) (n : ℕ) : Prop where
  asks : DeckAsks deck 2 p (quadType t) ph st dt T
  file : ∃ name mf, deck.meshFile = some name ∧ fs name deck.boundaries = some mf ∧ MeshFileOf m 2 mf
  mesh : MeshOK m
  quads : QuadMesh m
  sides : SidesNonzero m
  used : AllNodesUsed m
  nodes : 0 < m.coord.length
  order : orderFine t p
  gas : 1 < ph.γ
  startOK : StartState ph 2 start
  step : 0 < dt
  before : (n : ℝ) * dt ≤ T
  after : T < ((n : ℝ) + 1) * dt
  count : n < 2 ^ 31
  admissible : RunAdmissible ph.γ (quadEuler t p ph.ftype ph.γ) m (quadGeom t p m) st.scheme dt
    (quadInit t p m start) n

/-- **C67** (the executable, quadrilaterals).  From the input file to the solution file: for every number
of ranks, every answer of the partitioner, every enumeration order of the hash tables, every content of
uninitialised memory, every interleaving of the ranks, every order of the parallel loops and of the
writes to the file,
* all ranks finish their setup;
* no rank fails in the time loop, and every execution can be continued to its end;
* at the end the solution file can be written and converted, and the converted file is the solution
  file of the mesh with the coefficients of the textbook discontinuous Galerkin run for the Euler
  equations with the requested basis, order, flux, gas, initial state, stepper and time step, stopped at
  the last step not after the requested final time; read back on the same number of ranks it gives every
  rank the coefficients of its elements, at time 0 (the time in the file is ignored). -/
theorem C67_program_quad (deck : Deck) (fs : String → List String → Option (MeshFile ℝ)) (m : GMesh ℝ) (t : Fam) (p : ℕ)
    (ph : Physics) (start : (ℕ → ℝ) → ℕ → ℝ) (st : StepperType) (dt T : ℝ) (n : ℕ)
    (h : QuadRunOK deck fs m t p ph start st dt T n)
    (nranks : ℕ) (part : List ℕ) (env : ℕ → RankEnv) (hl : LaunchOK m nranks part env) (un : Unset)
    (sched : ℕ → ℕ → List (FluxWrite ℝ) → List (FluxWrite ℝ)) (hsched : ∀ r k l, (sched r k l).Perm l)
    (ord : ℕ → List ℕ) (hord : ∀ i, (ord i).Perm (List.range nranks)) :
    mainDim deck = some (some 2) ∧ ∃ job, readJob deck fs un 2 nranks = some job ∧
      (∀ r < nranks, readyRank job un 2 nranks (env r) r ≠ none) ∧
      ∀ ranks : ℕ → RankReady, (∀ r < nranks, readyRank job un 2 nranks (env r) r = some (ranks r)) →
      ∀ c k, Proto.Exec (jobProg job ranks nranks sched) (jobInit job ranks) c k →
        (∀ r < nranks, (c.proc r).phase ≠ .failed ∧ (c.proc r).st.2 ≠ none) ∧
        (∃ c' k', Proto.Exec (jobProg job ranks nranks sched) c c' k' ∧ LoopDone job nranks c') ∧
        (LoopDone job nranks c → ∃ f g, jobFile job ranks 2 nranks ord c = some f ∧ convert nranks f = some g ∧
          g = serialFile m 2 ((p + 1) * (p + 1)) 4 (n * dt) (quadRun t p m ph start st.scheme dt n) ∧
          SerialFileOf m 2 ((p + 1) * (p + 1)) 4 (n * dt) (quadRun t p m ph start st.scheme dt n) g ∧
          ∀ r < nranks, ∃ s, readInCoefficients nranks f r newSolver = some s ∧ s.time = 0 ∧
            ∀ i e : ℕ, (ranks r).rm.l2gElem[i]? = some e → ∀ j < (p + 1) * (p + 1), ∀ k < 4,
              s.uc i j k = some (quadRun t p m ph start st.scheme dt n e j k)) := by
  obtain ⟨name, mf, hname, hmf, hof⟩ := h.file
  have hq := h.quads
  obtain ⟨rd, hrd, hrm⟩ := readMesh_of hof h.mesh fun e _ => le_trans
    (sides_le 4 (fun f hf => (hq.faceL f hf).1) (fun f hf => (hq.faceR f hf).1) hq.sides e) (by omega)
  have hmax : (p + 1) * (p + 1) ≤ 300 := by
    have := h.order.1
    calc (p + 1) * (p + 1) ≤ 12 * 12 := Nat.mul_le_mul (by omega) (by omega)
      _ ≤ 300 := by norm_num
  obtain ⟨num, n1, n2, n3, n4⟩ := deck_params h.asks ((p + 1) * (p + 1)) (p + 1) 4 (.LagrangeQuad, 4, 2)
    (by cases t <;> rfl) (by cases t <;> rfl) (by cases t <;> rfl) rfl hmax
  obtain ⟨rms, w, hparts, hview⟩ := hl.world h.mesh
  have hE := h.asks.euler.2
  obtain ⟨d, g, u, hd, hgu⟩ := C61_setup_succeeds m nranks part rms w hq t p 4 h.order
    (solverVolFlux 2 ph un.vol) (solverNumFlux 2 ph un.num) (solverIC 2 ph un.ic)
    (fun r => (env r).scr) (fun r => (env r).MM0) (fun r => (env r).rhs0) (fun r => (env r).U0)
  have hiter := iterations_of h.step h.before h.after h.count
  have hjob := readInputs_ok (steps := fun sol => numIterations (sol.tfinal / sol.dt)) h.asks un nranks n1 n2 n3 n4 (sh := (.Quadrilateral, some .Segment)) (by cases t <;> rfl) rfl
    fs hname hmf hrd hrm hd hiter
  refine ⟨by unfold mainDim; rw [h.asks.runDim]; rfl, _, hjob, ?_, ?_⟩
  · intro r hlt
    obtain ⟨v, hv⟩ := hview r hlt
    have : readyRank ⟨num, m, mf.dim, nranks, ⟨ph, st, dt, T, 0⟩, d, n⟩ un 2 nranks (env r) r = some ⟨rms r, g r, u r⟩ := by
      unfold readyRank
      simp only [Option.bind_eq_bind]
      rw [hl.part_eq r hlt, hparts r hlt, Option.bind_some, hv, Option.bind_some, n3, n4, n2, (hgu r hlt).1, Option.bind_some,
        (hgu r hlt).2, Option.bind_some]
    rw [this]; simp
  · clear hgu hview hparts w
    intro ranks hready c k hx
    have hrr := fun r hlt => readyRank_some (hready r hlt)
    simp only [n2, n3, n4] at hrr
    have hparts : ∀ r < nranks, partition m nranks nranks part (env r).enum r = some (ranks r).rm := fun r hlt => by
      rw [← (hrr r hlt).1, hl.part_eq r hlt]
    have w : World m nranks part fun r => (ranks r).rm := ⟨h.mesh, hl.parts, fun r hr => ⟨_, hl.enum r, hparts r hr⟩⟩
    have hr : RanksReady t p 4 (solverVolFlux 2 ph un.vol) (solverNumFlux 2 ph un.num) (solverIC 2 ph un.ic)
        nranks (fun r => (ranks r).rm) d (fun r => (ranks r).geom) (fun r => (ranks r).init) :=
      ⟨hd, fun r hr => ⟨_, _, (hrr r hr).2.1⟩, fun r hr => ⟨_, _, (hrr r hr).2.2⟩⟩
    obtain ⟨r1, c', k', r2, r3⟩ := C61_run_completes m nranks part _ w hq t p 4 h.order _ _ _ d _ _ hr st.scheme dt
      sched hsched n k c hx
    refine ⟨r1, ⟨c', k', r2, r3⟩, fun hdone => ?_⟩
    obtain ⟨f, f1, f2, f3⟩ := jobFile_convert hl h.mesh 2 ((p + 1) * (p + 1))
      ⟨num, m, mf.dim, nranks, ⟨ph, st, dt, T, 0⟩, d, n⟩ ranks hparts rfl hof.fileDim
      (hr.extents h.order).2 h.used hof.rows h.nodes (by rw [hq.npe]; omega) (by omega) (by positivity)
      (quadRun t p m ph start st.scheme dt n) (n * dt) c (fun r hlt => by
        obtain ⟨s, s1, s2, s3⟩ := C64_euler_quad m nranks part _ w hq h.sides t p h.order ph hE h.gas start h.startOK
          un.vol un.ic un.num d _ _ hr st.scheme dt sched hsched n k c hx r hlt n (hdone r hlt) h.admissible
        exact ⟨s, s1, s2, fun i e hi j hj k hk => s3 i e hi j hj k hk⟩) ord hord
    exact ⟨f, _, f1, f2, rfl, serialFile_spec _ _ _ _ _ _ (by omega), f3⟩

/-- Everything the program needs of its inputs (hexahedra): the input file asks for a run of order at most five (the
program has room for 300 basis functions), a uniform or vortex start in a gas with ratio of specific heats above
one, and a positive number of time steps below `2^31`; the mesh file stores a mesh of trilinear
hexahedra without degenerate faces or unused nodes; the textbook run is physically admissible. -/
structure HexRunOK (deck : Deck) (fs : String → List String → Option (MeshFile ℝ)) (m : GMesh ℝ) (t : Fam) (p : ℕ)
    (ph : Physics) (start : (ℕ → ℝ) → ℕ → ℝ) (st : StepperType) (dt T : ℝ) (n : ℕ) : Prop where
  asks : DeckAsks deck 3 p (hexType t) ph st dt T
  file : ∃ name mf, deck.meshFile = some name ∧ fs name deck.boundaries = some mf ∧ MeshFileOf m 3 mf
  mesh : MeshOK m
  hexes : HexMesh m
  areas : FacesNonzero m
  used : AllNodesUsed m
  nodes : 0 < m.coord.length
  order : orderFine t p
  small : p ≤ 5
  gas : 1 < ph.γ
  startOK : StartState ph 3 start
  step : 0 < dt
  before : (n : ℝ) * dt ≤ T
  after : T < ((n : ℝ) + 1) * dt
  count : n < 2 ^ 31
  admissible : RunAdmissible ph.γ (hexEuler t p ph.ftype ph.γ) m (hexGeom t p m) st.scheme dt
    (hexInit t p m start) n

/-- **C67** (the executable, hexahedra).  From the input file to the solution file: for every number
of ranks, every answer of the partitioner that cuts the mesh along flat faces only, every enumeration order of the hash tables, every content of
uninitialised memory, every interleaving of the ranks, every order of the parallel loops and of the
writes to the file,
* all ranks finish their setup;
* no rank fails in the time loop, and every execution can be continued to its end;
* at the end the solution file can be written and converted, and the converted file is the solution
  file of the mesh with the coefficients of the textbook discontinuous Galerkin run for the Euler
  equations with the requested basis, order, flux, gas, initial state, stepper and time step, stopped at
  the last step not after the requested final time; read back on the same number of ranks it gives every
  rank the coefficients of its elements, at time 0 (the time in the file is ignored). -/
theorem C67_program_hex (deck : Deck) (fs : String → List String → Option (MeshFile ℝ)) (m : GMesh ℝ) (t : Fam) (p : ℕ)
    (ph : Physics) (start : (ℕ → ℝ) → ℕ → ℝ) (st : StepperType) (dt T : ℝ) (n : ℕ)
    (h : HexRunOK deck fs m t p ph start st dt T n)
    (nranks : ℕ) (part : List ℕ) (env : ℕ → RankEnv) (hl : LaunchOK m nranks part env)
    (hcut : CutFlat m part) (un : Unset)
    (sched : ℕ → ℕ → List (FluxWrite ℝ) → List (FluxWrite ℝ)) (hsched : ∀ r k l, (sched r k l).Perm l)
    (ord : ℕ → List ℕ) (hord : ∀ i, (ord i).Perm (List.range nranks)) :
    mainDim deck = some (some 3) ∧ ∃ job, readJob deck fs un 3 nranks = some job ∧
      (∀ r < nranks, readyRank job un 3 nranks (env r) r ≠ none) ∧
      ∀ ranks : ℕ → RankReady, (∀ r < nranks, readyRank job un 3 nranks (env r) r = some (ranks r)) →
      ∀ c k, Proto.Exec (jobProg job ranks nranks sched) (jobInit job ranks) c k →
        (∀ r < nranks, (c.proc r).phase ≠ .failed ∧ (c.proc r).st.2 ≠ none) ∧
        (∃ c' k', Proto.Exec (jobProg job ranks nranks sched) c c' k' ∧ LoopDone job nranks c') ∧
        (LoopDone job nranks c → ∃ f g, jobFile job ranks 3 nranks ord c = some f ∧ convert nranks f = some g ∧
          g = serialFile m 3 ((p + 1) * (p + 1) * (p + 1)) 5 (n * dt) (hexRun t p m ph start st.scheme dt n) ∧
          SerialFileOf m 3 ((p + 1) * (p + 1) * (p + 1)) 5 (n * dt) (hexRun t p m ph start st.scheme dt n) g ∧
          ∀ r < nranks, ∃ s, readInCoefficients nranks f r newSolver = some s ∧ s.time = 0 ∧
            ∀ i e : ℕ, (ranks r).rm.l2gElem[i]? = some e → ∀ j < (p + 1) * (p + 1) * (p + 1), ∀ k < 5,
              s.uc i j k = some (hexRun t p m ph start st.scheme dt n e j k)) := by
  obtain ⟨name, mf, hname, hmf, hof⟩ := h.file
  have hq := h.hexes
  obtain ⟨rd, hrd, hrm⟩ := readMesh_of hof h.mesh fun e _ => le_trans
    (sides_le 6 (fun f hf => (hq.faceL f hf).1) (fun f hf => (hq.faceR f hf).1) hq.sides e) (by omega)
  have hmax : (p + 1) * (p + 1) * (p + 1) ≤ 300 := by
    have := h.small
    calc (p + 1) * (p + 1) * (p + 1) ≤ 6 * 6 * 6 :=
          Nat.mul_le_mul (Nat.mul_le_mul (by omega) (by omega)) (by omega)
      _ ≤ 300 := by norm_num
  obtain ⟨num, n1, n2, n3, n4⟩ := deck_params h.asks ((p + 1) * (p + 1) * (p + 1)) (p + 1) 8 (.LagrangeHex, 6, 8)
    (by cases t <;> rfl) (by cases t <;> rfl) (by cases t <;> rfl) rfl hmax
  obtain ⟨rms, w, hparts, hview⟩ := hl.world h.mesh
  have hE := h.asks.euler.2
  obtain ⟨d, g, u, hd, hgu⟩ := C63_setup_succeeds m nranks part rms w hq hcut t p 5 h.order
    (solverVolFlux 3 ph un.vol) (solverNumFlux 3 ph un.num) (solverIC 3 ph un.ic)
    (fun r => (env r).scr) (fun r => (env r).MM0) (fun r => (env r).rhs0) (fun r => (env r).U0)
  have hiter := iterations_of h.step h.before h.after h.count
  have hjob := readInputs_ok (steps := fun sol => numIterations (sol.tfinal / sol.dt)) h.asks un nranks n1 n2 n3 n4 (sh := (.Hexahedron, some .Quadrilateral)) (by cases t <;> rfl) rfl
    fs hname hmf hrd hrm hd hiter
  refine ⟨by unfold mainDim; rw [h.asks.runDim]; rfl, _, hjob, ?_, ?_⟩
  · intro r hlt
    obtain ⟨v, hv⟩ := hview r hlt
    have : readyRank ⟨num, m, mf.dim, nranks, ⟨ph, st, dt, T, 0⟩, d, n⟩ un 3 nranks (env r) r = some ⟨rms r, g r, u r⟩ := by
      unfold readyRank
      simp only [Option.bind_eq_bind]
      rw [hl.part_eq r hlt, hparts r hlt, Option.bind_some, hv, Option.bind_some, n3, n4, n2, (hgu r hlt).1, Option.bind_some,
        (hgu r hlt).2, Option.bind_some]
    rw [this]; simp
  · clear hgu hview hparts w
    intro ranks hready c k hx
    have hrr := fun r hlt => readyRank_some (hready r hlt)
    simp only [n2, n3, n4] at hrr
    have hparts : ∀ r < nranks, partition m nranks nranks part (env r).enum r = some (ranks r).rm := fun r hlt => by
      rw [← (hrr r hlt).1, hl.part_eq r hlt]
    have w : World m nranks part fun r => (ranks r).rm := ⟨h.mesh, hl.parts, fun r hr => ⟨_, hl.enum r, hparts r hr⟩⟩
    have hr : HexRanksReady t p 5 (solverVolFlux 3 ph un.vol) (solverNumFlux 3 ph un.num) (solverIC 3 ph un.ic)
        nranks (fun r => (ranks r).rm) d (fun r => (ranks r).geom) (fun r => (ranks r).init) :=
      ⟨hd, fun r hr => ⟨_, _, (hrr r hr).2.1⟩, fun r hr => ⟨_, _, (hrr r hr).2.2⟩⟩
    obtain ⟨r1, c', k', r2, r3⟩ := C63_run_completes m nranks part _ w hq hcut t p 5 h.order _ _ _ d _ _ hr st.scheme dt
      sched hsched n k c hx
    refine ⟨r1, ⟨c', k', r2, r3⟩, fun hdone => ?_⟩
    obtain ⟨f, f1, f2, f3⟩ := jobFile_convert hl h.mesh 3 ((p + 1) * (p + 1) * (p + 1))
      ⟨num, m, mf.dim, nranks, ⟨ph, st, dt, T, 0⟩, d, n⟩ ranks hparts rfl hof.fileDim
      (hr.extents h.order).2 h.used hof.rows h.nodes (by rw [hq.npe]; omega) (by omega) (by positivity)
      (hexRun t p m ph start st.scheme dt n) (n * dt) c (fun r hlt => by
        obtain ⟨s, s1, s2, s3⟩ := C64_euler_hex m nranks part _ w hq hcut h.areas t p h.order ph hE h.gas start h.startOK
          un.vol un.ic un.num d _ _ hr st.scheme dt sched hsched n k c hx r hlt n (hdone r hlt) h.admissible
        exact ⟨s, s1, s2, fun i e hi j hj k hk => s3 i e hi j hj k hk⟩) ord hord
    exact ⟨f, _, f1, f2, rfl, serialFile_spec _ _ _ _ _ _ (by omega), f3⟩

/-- **C67** (independence of the launch, quadrilaterals).  Two complete runs of the executable with the same
input file and mesh file, on any two numbers of ranks, partitions, schedules, and with any contents of
uninitialised memory: the converted solution files are identical. -/
theorem C67_launch_independent_quad (deck : Deck) (fs : String → List String → Option (MeshFile ℝ)) (m : GMesh ℝ)
    (t : Fam) (p : ℕ) (ph : Physics) (start : (ℕ → ℝ) → ℕ → ℝ) (st : StepperType) (dt T : ℝ) (n : ℕ)
    (h : QuadRunOK deck fs m t p ph start st dt T n)
    (nr₁ nr₂ : ℕ) (part₁ part₂ : List ℕ) (env₁ env₂ : ℕ → RankEnv) (hl₁ : LaunchOK m nr₁ part₁ env₁)
    (hl₂ : LaunchOK m nr₂ part₂ env₂) (un₁ un₂ : Unset)
    (sched₁ sched₂ : ℕ → ℕ → List (FluxWrite ℝ) → List (FluxWrite ℝ)) (hs₁ : ∀ r k l, (sched₁ r k l).Perm l)
    (hs₂ : ∀ r k l, (sched₂ r k l).Perm l) (ord₁ ord₂ : ℕ → List ℕ) (ho₁ : ∀ i, (ord₁ i).Perm (List.range nr₁))
    (ho₂ : ∀ i, (ord₂ i).Perm (List.range nr₂)) (job₁ job₂ : Job) (ranks₁ ranks₂ : ℕ → RankReady)
    (hj₁ : readJob deck fs un₁ 2 nr₁ = some job₁) (hj₂ : readJob deck fs un₂ 2 nr₂ = some job₂)
    (hr₁ : ∀ r < nr₁, readyRank job₁ un₁ 2 nr₁ (env₁ r) r = some (ranks₁ r))
    (hr₂ : ∀ r < nr₂, readyRank job₂ un₂ 2 nr₂ (env₂ r) r = some (ranks₂ r))
    (c₁ c₂ : LoopConf) (k₁ k₂ : ℕ) (hx₁ : Proto.Exec (jobProg job₁ ranks₁ nr₁ sched₁) (jobInit job₁ ranks₁) c₁ k₁)
    (hx₂ : Proto.Exec (jobProg job₂ ranks₂ nr₂ sched₂) (jobInit job₂ ranks₂) c₂ k₂)
    (hd₁ : LoopDone job₁ nr₁ c₁) (hd₂ : LoopDone job₂ nr₂ c₂) :
    ∃ f₁ f₂ g, jobFile job₁ ranks₁ 2 nr₁ ord₁ c₁ = some f₁ ∧ jobFile job₂ ranks₂ 2 nr₂ ord₂ c₂ = some f₂ ∧
      convert nr₁ f₁ = some g ∧ convert nr₂ f₂ = some g := by
  obtain ⟨-, j, a1, -, a2⟩ := C67_program_quad deck fs m t p ph start st dt T n h nr₁ part₁ env₁ hl₁ un₁ sched₁ hs₁ ord₁ ho₁
  obtain ⟨-, j', b1, -, b2⟩ := C67_program_quad deck fs m t p ph start st dt T n h nr₂ part₂ env₂ hl₂ un₂ sched₂ hs₂ ord₂ ho₂
  rw [hj₁] at a1; cases a1
  rw [hj₂] at b1; cases b1
  obtain ⟨f₁, g₁, x1, x2, x3, -⟩ := (a2 ranks₁ hr₁ c₁ k₁ hx₁).2.2 hd₁
  obtain ⟨f₂, g₂, y1, y2, y3, -⟩ := (b2 ranks₂ hr₂ c₂ k₂ hx₂).2.2 hd₂
  rw [x3] at x2; rw [y3] at y2
  exact ⟨f₁, f₂, _, x1, y1, x2, y2⟩

/-- **C67** (independence of the launch, hexahedra).  Two complete runs of the executable with the same
input file and mesh file, on any two numbers of ranks, partitions along flat faces, schedules, and with any contents of
uninitialised memory: the converted solution files are identical. -/
theorem C67_launch_independent_hex (deck : Deck) (fs : String → List String → Option (MeshFile ℝ)) (m : GMesh ℝ)
    (t : Fam) (p : ℕ) (ph : Physics) (start : (ℕ → ℝ) → ℕ → ℝ) (st : StepperType) (dt T : ℝ) (n : ℕ)
    (h : HexRunOK deck fs m t p ph start st dt T n)
    (nr₁ nr₂ : ℕ) (part₁ part₂ : List ℕ) (env₁ env₂ : ℕ → RankEnv) (hl₁ : LaunchOK m nr₁ part₁ env₁)
    (hl₂ : LaunchOK m nr₂ part₂ env₂) (hc₁ : CutFlat m part₁) (hc₂ : CutFlat m part₂) (un₁ un₂ : Unset)
    (sched₁ sched₂ : ℕ → ℕ → List (FluxWrite ℝ) → List (FluxWrite ℝ)) (hs₁ : ∀ r k l, (sched₁ r k l).Perm l)
    (hs₂ : ∀ r k l, (sched₂ r k l).Perm l) (ord₁ ord₂ : ℕ → List ℕ) (ho₁ : ∀ i, (ord₁ i).Perm (List.range nr₁))
    (ho₂ : ∀ i, (ord₂ i).Perm (List.range nr₂)) (job₁ job₂ : Job) (ranks₁ ranks₂ : ℕ → RankReady)
    (hj₁ : readJob deck fs un₁ 3 nr₁ = some job₁) (hj₂ : readJob deck fs un₂ 3 nr₂ = some job₂)
    (hr₁ : ∀ r < nr₁, readyRank job₁ un₁ 3 nr₁ (env₁ r) r = some (ranks₁ r))
    (hr₂ : ∀ r < nr₂, readyRank job₂ un₂ 3 nr₂ (env₂ r) r = some (ranks₂ r))
    (c₁ c₂ : LoopConf) (k₁ k₂ : ℕ) (hx₁ : Proto.Exec (jobProg job₁ ranks₁ nr₁ sched₁) (jobInit job₁ ranks₁) c₁ k₁)
    (hx₂ : Proto.Exec (jobProg job₂ ranks₂ nr₂ sched₂) (jobInit job₂ ranks₂) c₂ k₂)
    (hd₁ : LoopDone job₁ nr₁ c₁) (hd₂ : LoopDone job₂ nr₂ c₂) :
    ∃ f₁ f₂ g, jobFile job₁ ranks₁ 3 nr₁ ord₁ c₁ = some f₁ ∧ jobFile job₂ ranks₂ 3 nr₂ ord₂ c₂ = some f₂ ∧
      convert nr₁ f₁ = some g ∧ convert nr₂ f₂ = some g := by
  obtain ⟨-, j, a1, -, a2⟩ := C67_program_hex deck fs m t p ph start st dt T n h nr₁ part₁ env₁ hl₁ hc₁ un₁ sched₁ hs₁ ord₁ ho₁
  obtain ⟨-, j', b1, -, b2⟩ := C67_program_hex deck fs m t p ph start st dt T n h nr₂ part₂ env₂ hl₂ hc₂ un₂ sched₂ hs₂ ord₂ ho₂
  rw [hj₁] at a1; cases a1
  rw [hj₂] at b1; cases b1
  obtain ⟨f₁, g₁, x1, x2, x3, -⟩ := (a2 ranks₁ hr₁ c₁ k₁ hx₁).2.2 hd₁
  obtain ⟨f₂, g₂, y1, y2, y3, -⟩ := (b2 ranks₂ hr₂ c₂ k₂ hx₂).2.2 hd₂
  rw [x3] at x2; rw [y3] at y2
  exact ⟨f₁, f₂, _, x1, y1, x2, y2⟩

end DG
