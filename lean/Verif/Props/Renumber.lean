import Verif.Spec.Renumber
import Verif.Props.Post
import Verif.Props.Flip

/-!
Property C78: the numbers of elements, nodes and faces in the mesh file do not matter.
-/
namespace DG
open Finset

section
variable {σ ν : ℕ → ℕ} {m m' : GMesh ℝ} {d : Disc ℝ} {γ : ℝ} {G G' : Geom ℝ}

theorem Renumbered.lt (h : Renumbered σ ν m m') {e : ℕ} (he : e < m.numElems) : σ e < m.numElems := h.elems.mapsTo he

theorem Renumbered.inj (h : Renumbered σ ν m m') {e e' : ℕ} (he : e < m.numElems) (he' : e' < m.numElems) :
    σ e = σ e' ↔ e = e' := ⟨fun hs => h.elems.injOn he he' hs, fun hs => congrArg σ hs⟩

theorem Renumbered.mem' (h : Renumbered σ ν m m') {f' : IFace} (hf : f' ∈ m'.faces) : ∃ f ∈ m.faces, f' = f.renumber σ := by
  obtain ⟨f, h1, h2⟩ := List.mem_map.1 (h.faces.mem_iff.1 hf)
  exact ⟨f, h1, h2.symm⟩

/-- the coordinates of the nodes of an element are the same -/
theorem Renumbered.coords (h : Renumbered σ ν m m') (hm : MeshOK m) {e i : ℕ} (he : e < m.numElems) (hi : i < m.npe) :
    fileCoords m' (σ e) i = fileCoords m e i := by
  funext d
  have hlt : e * m.npe + i < m.eind.length := by
    rw [hm.eindLen]
    calc e * m.npe + i < (e + 1) * m.npe := by rw [Nat.add_mul]; omega
      _ ≤ _ := Nat.mul_le_mul_right _ he
  unfold fileCoords
  rw [h.npe, h.conn e he i hi, List.getElem?_eq_getElem hlt]
  simp only [Option.map_some, Option.getD_some]
  rw [h.coord _ (hm.nodes _ (List.getElem_mem hlt))]

theorem Renumbered.meshOK (h : Renumbered σ ν m m') (hm : MeshOK m) : MeshOK m' where
  eindLen := by rw [h.connLen, hm.eindLen, h.numElems, h.npe]
  nodes := by
    intro n' hn'
    obtain ⟨k, hk, rfl⟩ := List.getElem_of_mem hn'
    have hk' : k < m.numElems * m.npe := by rw [← hm.eindLen, ← h.connLen]; exact hk
    have hpos : 0 < m.npe := Nat.pos_of_ne_zero fun h0 => by simp [h0] at hk'
    obtain ⟨e, he, hσ⟩ := h.elems.surjOn (show k / m.npe < m.numElems from (Nat.div_lt_iff_lt_mul hpos).2 hk')
    have he : e < m.numElems := he
    have hi := Nat.mod_lt k hpos
    have hc := h.conn e he _ hi
    have hlt : e * m.npe + k % m.npe < m.eind.length := by
      rw [hm.eindLen]
      calc e * m.npe + k % m.npe < (e + 1) * m.npe := by rw [Nat.add_mul]; omega
        _ ≤ _ := Nat.mul_le_mul_right _ he
    rw [hσ, Nat.div_add_mod', List.getElem?_eq_getElem hk, List.getElem?_eq_getElem hlt] at hc
    rw [Option.some.inj hc, h.numNodes]
    exact h.nodes.mapsTo (hm.nodes _ (List.getElem_mem hlt))
  faces := by
    intro f' hf'
    obtain ⟨f, hf, rfl⟩ := h.mem' hf'
    rw [h.numElems]
    exact ⟨h.lt (hm.faces f hf).1, h.lt (hm.faces f hf).2⟩
  elemsFit := by rw [h.numElems]; exact hm.elemsFit
  nodesFit := by rw [h.numNodes]; exact hm.nodesFit
  facesFit := by rw [h.faces.length_eq, List.length_map]; exact hm.facesFit

theorem Renumbered.used (h : Renumbered σ ν m m') (hm : MeshOK m) (hu : AllNodesUsed m) : AllNodesUsed m' := by
  intro g hg
  rw [h.numNodes] at hg
  obtain ⟨n, hn, rfl⟩ := h.nodes.surjOn (show g < m.coord.length from hg)
  obtain ⟨k, hk, hkn⟩ := List.getElem_of_mem (hu n hn)
  have hk' : k < m.numElems * m.npe := by rw [← hm.eindLen]; exact hk
  have hpos : 0 < m.npe := Nat.pos_of_ne_zero fun h0 => by simp [h0] at hk'
  have hc := h.conn (k / m.npe) ((Nat.div_lt_iff_lt_mul hpos).2 hk') _ (Nat.mod_lt k hpos)
  rw [Nat.div_add_mod', List.getElem?_eq_getElem hk, hkn] at hc
  exact List.mem_of_getElem? hc

theorem Renumbered.sides (h : Renumbered σ ν m m') (hm : MeshOK m)
    (hn : (m.faces.flatMap fun f => [(f.elemL, f.faceL), (f.elemR, f.faceR)]).Nodup) :
    (m'.faces.flatMap fun f => [(f.elemL, f.faceL), (f.elemR, f.faceR)]).Nodup := by
  have h1 := h.faces.flatMap_right fun f : IFace => [(f.elemL, f.faceL), (f.elemR, f.faceR)]
  refine h1.nodup_iff.2 ?_
  have h2 : (m.faces.map (IFace.renumber σ)).flatMap (fun f => [(f.elemL, f.faceL), (f.elemR, f.faceR)]) =
      (m.faces.flatMap fun f => [(f.elemL, f.faceL), (f.elemR, f.faceR)]).map fun x => (σ x.1, x.2) := by
    rw [List.flatMap_map, List.map_flatMap]
    rfl
  rw [h2]
  have hlt : ∀ x ∈ m.faces.flatMap fun f => [(f.elemL, f.faceL), (f.elemR, f.faceR)], x.1 < m.numElems := by
    intro x hx
    obtain ⟨f, hf, hx⟩ := List.mem_flatMap.1 hx
    rcases List.mem_cons.1 hx with rfl | hx
    · exact (hm.faces f hf).1
    · rw [List.mem_singleton.1 hx]; exact (hm.faces f hf).2
  refine List.Nodup.map_on (fun x hx y hy hxy => ?_) hn
  simp only [Prod.mk.injEq] at hxy
  exact Prod.ext ((h.inj (hlt x hx) (hlt y hy)).1 hxy.1) hxy.2

/-! ### the scheme -/

/-- `U'` holds the coefficients of `U`, with the new numbers -/
def RenumberedIn (σ : ℕ → ℕ) (d : Disc ℝ) (ne : ℕ) (U' U : Coeffs ℝ) : Prop :=
  ∀ e < ne, ∀ b < d.nb, ∀ s < d.ns, U' (σ e) b s = U e b s

/-- the geometries of the two meshes -/
structure RenumberedGeom (σ : ℕ → ℕ) (m m' : GMesh ℝ) (G G' : Geom ℝ) (N N' : IFace → ℕ → ℕ → ℝ) : Prop where
  djac : ∀ e < m.numElems, G'.djac (σ e) = G.djac e
  ijac : ∀ e < m.numElems, G'.ijac (σ e) = G.ijac e
  iMM : ∀ e < m.numElems, G'.iMM (σ e) = G.iMM e
  normals : ∀ (g : ℕ) (f : IFace), m.faces[g]? = some f → G.normals g = N f
  normals' : ∀ (g : ℕ) (f : IFace), m'.faces[g]? = some f → G'.normals g = N' f
  same : ∀ f ∈ m.faces, N' (f.renumber σ) = N f

theorem RenumberedIn.vol {ne : ℕ} {U' U : Coeffs ℝ} (h : RenumberedIn σ d ne U' U) {e : ℕ} (he : e < ne) (q : ℕ) :
    volState d U' (σ e) q = volState d U e q := by
  funext s
  unfold volState
  split
  · rename_i hs
    exact Finset.sum_congr rfl fun b hb => by rw [h e he b (Finset.mem_range.1 hb) s hs]
  · rfl

theorem RenumberedIn.trace {ne : ℕ} {U' U : Coeffs ℝ} (h : RenumberedIn σ d ne U' U) {e : ℕ} (he : e < ne) (f j : ℕ) :
    traceState d U' (σ e) f j = traceState d U e f j := by
  funext s
  unfold traceState
  split
  · rename_i hs
    exact Finset.sum_congr rfl fun b hb => by rw [h e he b (Finset.mem_range.1 hb) s hs]
  · rfl

theorem faceSum_const (m : GMesh ℝ) (d : Disc ℝ) (G : Geom ℝ) (N : IFace → ℕ → ℕ → ℝ)
    (hN : ∀ (g : ℕ) (f : IFace), m.faces[g]? = some f → G.normals g = N f) (U : Coeffs ℝ) (e b s : ℕ) :
    (m.faces.zipIdx.map fun x => faceTerm d G U e b s x.2 x.1).sum =
      (m.faces.map fun f => faceTerm d { G with normals := fun _ => N f } U e b s 0 f).sum := by
  have h1 : m.faces.zipIdx.map (fun x => faceTerm d G U e b s x.2 x.1) =
      m.faces.zipIdx.map ((fun f => faceTerm d { G with normals := fun _ => N f } U e b s 0 f) ∘ Prod.fst) := by
    refine List.map_congr_left fun x hx => ?_
    have hx' := List.mem_zipIdx_iff_getElem?.1 hx
    simp only [Function.comp]
    unfold faceTerm meshFlux
    rw [hN _ _ hx']
  rw [h1, ← List.map_map, List.zipIdx_map_fst]

theorem rhs_renumber (h : Renumbered σ ν m m') (hm : MeshOK m) {N N' : IFace → ℕ → ℕ → ℝ}
    (hg : RenumberedGeom σ m m' G G' N N') (U' U : Coeffs ℝ) (hU : RenumberedIn σ d m.numElems U' U) :
    RenumberedIn σ d m.numElems (globalRHS d m' G' U') (globalRHS d m G U) := by
  intro e he b _ s _
  unfold globalRHS
  rw [hg.iMM e he]
  refine sum_congr rfl fun j _ => ?_
  congr 1
  unfold globalResidual
  congr 1
  · unfold volumeTerm
    rw [hg.ijac e he, hg.djac e he]
    refine sum_congr rfl fun q _ => sum_congr rfl fun i _ => ?_
    rw [hU.vol he]
  · rw [faceSum_const m d G N hg.normals, faceSum_const m' d G' N' hg.normals',
      (h.faces.map fun f => faceTerm d { G' with normals := fun _ => N' f } U' (σ e) j s 0 f).sum_eq, List.map_map]
    congr 1
    refine List.map_congr_left fun f hf => ?_
    simp only [Function.comp]
    obtain ⟨mL, mR⟩ := hm.faces f hf
    unfold faceTerm meshFlux
    simp only [hg.same f hf]
    simp only [IFace.renumber, h.inj mL he, h.inj mR he, hU.trace mL, hU.trace mR]

theorem stage_renumber {ne : ℕ} {U' U k k' : Coeffs ℝ} (h : RenumberedIn σ d ne U' U) (c : ℝ) (hk : RenumberedIn σ d ne k' k) :
    RenumberedIn σ d ne (fun e b s => U' e b s + c * k' e b s) (fun e b s => U e b s + c * k e b s) :=
  fun e he b hb s hs => by
    show U' (σ e) b s + c * k' (σ e) b s = U e b s + c * k e b s
    rw [h e he b hb s hs, hk e he b hb s hs]

theorem step_renumber {ne : ℕ} (st : Stepper) (dt : ℝ) (f f' : Coeffs ℝ → Coeffs ℝ)
    (hf : ∀ U' U, RenumberedIn σ d ne U' U → RenumberedIn σ d ne (f' U') (f U)) (U' U : Coeffs ℝ)
    (h : RenumberedIn σ d ne U' U) : RenumberedIn σ d ne (stepOf st dt f' U') (stepOf st dt f U) := by
  cases st with
  | FE =>
    intro e he b hb s hs
    simp only [stepOf, eulerStep]
    rw [h e he b hb s hs, hf U' U h e he b hb s hs]
  | RK4 =>
    have h1 := hf U' U h
    have h2 := hf _ _ (stage_renumber h (dt / 2) h1)
    have h3 := hf _ _ (stage_renumber h (dt / 2) h2)
    have h4 := hf _ _ (stage_renumber h dt h3)
    intro e he b hb s hs
    simp only [stepOf, rk4Step]
    rw [h e he b hb s hs, h1 e he b hb s hs, h2 e he b hb s hs, h3 e he b hb s hs, h4 e he b hb s hs]

theorem run_renumber (h : Renumbered σ ν m m') (hm : MeshOK m) {N N' : IFace → ℕ → ℕ → ℝ}
    (hg : RenumberedGeom σ m m' G G' N N') (st : Stepper) (dt : ℝ) (U' U : Coeffs ℝ)
    (hU : RenumberedIn σ d m.numElems U' U) (n : ℕ) :
    RenumberedIn σ d m.numElems ((stepOf st dt (globalRHS d m' G'))^[n] U') ((stepOf st dt (globalRHS d m G))^[n] U) := by
  induction n with
  | zero => exact hU
  | succ n ih =>
    rw [Function.iterate_succ_apply', Function.iterate_succ_apply']
    exact step_renumber st dt _ _ (fun U' U h1 => rhs_renumber h hm hg U' U h1) _ _ ih

theorem states_renumber (h : Renumbered σ ν m m') (hm : MeshOK m) {U' U : Coeffs ℝ}
    (hU : RenumberedIn σ d m.numElems U' U) (hA : StatesAdmissible γ d m U) : StatesAdmissible γ d m' U' := by
  constructor
  · intro e' he' q hq
    rw [h.numElems] at he'
    obtain ⟨e, he, rfl⟩ := h.elems.surjOn (show e' < m.numElems from he')
    rw [hU.vol he]
    exact hA.vol e he q hq
  · intro f' hf' i hi
    obtain ⟨f, hf, rfl⟩ := h.mem' hf'
    show Admissible d.dim γ (traceState d U' (σ f.elemL) f.faceL i)
    rw [hU.trace (hm.faces f hf).1]
    exact hA.left f hf i hi
  · intro f' hf' i hi
    obtain ⟨f, hf, rfl⟩ := h.mem' hf'
    show Admissible d.dim γ (traceState d U' (σ f.elemR) f.faceR i)
    rw [hU.trace (hm.faces f hf).2]
    exact hA.right f hf i hi

theorem admissible_renumber (h : Renumbered σ ν m m') (hm : MeshOK m) {N N' : IFace → ℕ → ℕ → ℝ}
    (hg : RenumberedGeom σ m m' G G' N N') (st : Stepper) (dt : ℝ) (U' U : Coeffs ℝ)
    (hU : RenumberedIn σ d m.numElems U' U) (n : ℕ) (hrun : RunAdmissible γ d m G st dt U n) :
    RunAdmissible γ d m' G' st dt U' n := by
  intro i hi
  have hag := run_renumber (d := d) h hm hg st dt U' U hU i
  have h1 := hrun i hi
  generalize (stepOf st dt (globalRHS d m G))^[i] U = V at *
  generalize (stepOf st dt (globalRHS d m' G'))^[i] U' = V' at *
  cases st with
  | FE => exact states_renumber h hm hag h1
  | RK4 =>
    obtain ⟨p1, p2, p3, p4⟩ := h1
    have k2 := stage_renumber hag (dt / 2) (rhs_renumber h hm hg V' V hag)
    have k3 := stage_renumber hag (dt / 2) (rhs_renumber h hm hg _ _ k2)
    have k4 := stage_renumber hag dt (rhs_renumber h hm hg _ _ k3)
    exact ⟨states_renumber h hm hag p1, states_renumber h hm k2 p2, states_renumber h hm k3 p3, states_renumber h hm k4 p4⟩

/-! ### quadrilaterals -/

section
variable {X Y : ℕ → ℕ → ℝ}

theorem quadMap_corners (h : ∀ i < 4, X i = Y i) : quadMap X = quadMap Y := by
  funext ξ η d
  simp only [quadMap, h 0 (by omega), h 1 (by omega), h 2 (by omega), h 3 (by omega)]

theorem quadXi_corners (h : ∀ i < 4, X i = Y i) : quadXi X = quadXi Y := by
  funext η d
  simp only [quadXi, h 0 (by omega), h 1 (by omega), h 2 (by omega), h 3 (by omega)]

theorem quadEta_corners (h : ∀ i < 4, X i = Y i) : quadEta X = quadEta Y := by
  funext η d
  simp only [quadEta, h 0 (by omega), h 1 (by omega), h 2 (by omega), h 3 (by omega)]

theorem quadDet_corners (h : ∀ i < 4, X i = Y i) : quadDet X = quadDet Y := by
  funext ξ η
  simp only [quadDet, quadXi_corners h, quadEta_corners h]

theorem quadInvJac_corners (h : ∀ i < 4, X i = Y i) : quadInvJac X = quadInvJac Y := by
  funext ξ η i j
  simp only [quadInvJac, quadXi_corners h, quadEta_corners h, quadDet_corners h]

theorem quadInvMass_corners (h : ∀ i < 4, X i = Y i) (t : Fam) (p : ℕ) : quadInvMass t p X = quadInvMass t p Y := by
  funext i j
  simp only [quadInvMass, quadMass, quadDet_corners h]

theorem side_corner (f : ℕ) : sideFrom f < 4 ∧ sideTo f < 4 := by
  unfold sideFrom sideTo
  constructor <;> split_ifs <;> omega

theorem sideNormal_corners (h : ∀ i < 4, X i = Y i) : sideNormal X = sideNormal Y := by
  funext f j
  simp only [sideNormal, h _ (side_corner f).1, h _ (side_corner f).2]

theorem hexMap_corners (h : ∀ i < 8, X i = Y i) : hexMap X = hexMap Y := by
  funext x d
  simp only [hexMap, h 0 (by omega), h 1 (by omega), h 2 (by omega), h 3 (by omega), h 4 (by omega), h 5 (by omega),
    h 6 (by omega), h 7 (by omega)]

theorem hexDer_corners (h : ∀ i < 8, X i = Y i) : hexDer X = hexDer Y := by
  funext x d i
  simp only [hexDer, h 0 (by omega), h 1 (by omega), h 2 (by omega), h 3 (by omega), h 4 (by omega), h 5 (by omega),
    h 6 (by omega), h 7 (by omega)]

theorem hexJac_corners (h : ∀ i < 8, X i = Y i) : hexJac X = hexJac Y := by
  funext x
  simp only [hexJac, hexDer_corners h]

theorem hexDet_corners (h : ∀ i < 8, X i = Y i) : hexDet X = hexDet Y := by
  funext x
  simp only [hexDet, hexJac_corners h]

theorem hexInvJac_corners (h : ∀ i < 8, X i = Y i) : hexInvJac X = hexInvJac Y := by
  funext x i j
  simp only [hexInvJac, hexJac_corners h]

theorem hexInvMass_corners (h : ∀ i < 8, X i = Y i) (t : Fam) (p : ℕ) : hexInvMass t p X = hexInvMass t p Y := by
  funext i j
  simp only [hexInvMass, hexMass, hexDet_corners h]

theorem face_corner (f k : ℕ) (hk : k < 4) : faceCorner f k < 8 := by
  have hK : k = 0 ∨ k = 1 ∨ k = 2 ∨ k = 3 := by omega
  unfold faceCorner
  rcases hK with rfl | rfl | rfl | rfl <;> split_ifs <;> simp

theorem faceNormal_corners (h : ∀ i < 8, X i = Y i) : faceNormal X = faceNormal Y := by
  funext f s j
  simp only [faceNormal, faceTan1, faceTan2, h _ (face_corner f 0 (by omega)), h _ (face_corner f 1 (by omega)),
    h _ (face_corner f 2 (by omega)), h _ (face_corner f 3 (by omega))]

end

theorem quadMesh_renumber (h : Renumbered σ ν m m') (hm : MeshOK m) (hq : QuadMesh m) : QuadMesh m' := by
  have hX : ∀ e < m.numElems, ∀ i < 4, fileCoords m' (σ e) i = fileCoords m e i :=
    fun e he i hi => h.coords hm he (by rw [hq.npe]; exact hi)
  refine ⟨by rw [h.npe]; exact hq.npe, ?_, ?_, ?_, h.sides hm hq.sides, ?_⟩
  · intro e' he'
    rw [h.numElems] at he'
    obtain ⟨e, he, rfl⟩ := h.elems.surjOn (show e' < m.numElems from he')
    rw [quadDet_corners (hX e he)]
    exact hq.det e he
  · intro f' hf'
    obtain ⟨f, hf, rfl⟩ := h.mem' hf'
    exact hq.faceL f hf
  · intro f' hf'
    obtain ⟨f, hf, rfl⟩ := h.mem' hf'
    exact hq.faceR f hf
  · intro f' hf'
    obtain ⟨f, hf, rfl⟩ := h.mem' hf'
    obtain ⟨mL, mR⟩ := hm.faces f hf
    simp only [IFace.renumber]
    rw [quadMap_corners (hX _ mL), quadMap_corners (hX _ mR)]
    exact hq.match_ f hf

theorem quadGeom_renumber (h : Renumbered σ ν m m') (hm : MeshOK m) (hq : QuadMesh m) (t : Fam) (p : ℕ) :
    RenumberedGeom σ m m' (quadGeom t p m) (quadGeom t p m') (fun f _ j => sideNormal (fileCoords m f.elemL) f.faceL j)
      (fun f _ j => sideNormal (fileCoords m' f.elemL) f.faceL j) := by
  have hX : ∀ e < m.numElems, ∀ i < 4, fileCoords m' (σ e) i = fileCoords m e i :=
    fun e he i hi => h.coords hm he (by rw [hq.npe]; exact hi)
  constructor
  · intro e he
    simp only [quadGeom, quadDet_corners (hX e he)]
  · intro e he
    simp only [quadGeom, quadInvJac_corners (hX e he)]
  · intro e he
    simp only [quadGeom, quadInvMass_corners (hX e he)]
  · intro g f hf
    simp only [quadGeom, faceAt_of hf]
  · intro g f hf
    simp only [quadGeom, faceAt_of hf]
  · intro f hf
    simp only [IFace.renumber, sideNormal_corners (hX _ (hm.faces f hf).1)]

theorem quadInit_renumber (h : Renumbered σ ν m m') (hm : MeshOK m) (hq : QuadMesh m) (t : Fam) (p : ℕ)
    (ic : (ℕ → ℝ) → ℕ → ℝ) (e : ℕ) (he : e < m.numElems) : quadInit t p m' ic (σ e) = quadInit t p m ic e := by
  have hX : ∀ i < 4, fileCoords m' (σ e) i = fileCoords m e i := fun i hi => h.coords hm he (by rw [hq.npe]; exact hi)
  funext b s
  simp only [quadInit, quadInvMass_corners hX, quadDet_corners hX, quadMap_corners hX]

/-! ### hexahedra -/

theorem hexMesh_renumber (h : Renumbered σ ν m m') (hm : MeshOK m) (hq : HexMesh m) : HexMesh m' := by
  have hX : ∀ e < m.numElems, ∀ i < 8, fileCoords m' (σ e) i = fileCoords m e i :=
    fun e he i hi => h.coords hm he (by rw [hq.npe]; exact hi)
  refine ⟨by rw [h.npe]; exact hq.npe, ?_, ?_, ?_, h.sides hm hq.sides, ?_, ?_⟩
  · intro e' he'
    rw [h.numElems] at he'
    obtain ⟨e, he, rfl⟩ := h.elems.surjOn (show e' < m.numElems from he')
    rw [hexDet_corners (hX e he)]
    exact hq.det e he
  · intro f' hf'
    obtain ⟨f, hf, rfl⟩ := h.mem' hf'
    exact hq.faceL f hf
  · intro f' hf'
    obtain ⟨f, hf, rfl⟩ := h.mem' hf'
    exact hq.faceR f hf
  · intro f' hf'
    obtain ⟨f, hf, rfl⟩ := h.mem' hf'
    exact hq.opposite f hf
  · intro f' hf'
    obtain ⟨f, hf, rfl⟩ := h.mem' hf'
    obtain ⟨mL, mR⟩ := hm.faces f hf
    simp only [IFace.renumber]
    rw [hexMap_corners (hX _ mL), hexMap_corners (hX _ mR)]
    exact hq.match_ f hf

theorem hexGeom_renumber (h : Renumbered σ ν m m') (hm : MeshOK m) (hq : HexMesh m) (t : Fam) (p : ℕ) :
    RenumberedGeom σ m m' (hexGeom t p m) (hexGeom t p m')
      (fun f q j => faceNormal (fileCoords m f.elemL) f.faceL ((facePt2 p q).2, (facePt2 p q).1) j)
      (fun f q j => faceNormal (fileCoords m' f.elemL) f.faceL ((facePt2 p q).2, (facePt2 p q).1) j) := by
  have hX : ∀ e < m.numElems, ∀ i < 8, fileCoords m' (σ e) i = fileCoords m e i :=
    fun e he i hi => h.coords hm he (by rw [hq.npe]; exact hi)
  constructor
  · intro e he
    simp only [hexGeom, hexDet_corners (hX e he)]
  · intro e he
    simp only [hexGeom, hexInvJac_corners (hX e he)]
  · intro e he
    simp only [hexGeom, hexInvMass_corners (hX e he)]
  · intro g f hf
    simp only [hexGeom, faceAt_of hf]
  · intro g f hf
    simp only [hexGeom, faceAt_of hf]
  · intro f hf
    simp only [IFace.renumber, faceNormal_corners (hX _ (hm.faces f hf).1)]

theorem hexInit_renumber (h : Renumbered σ ν m m') (hm : MeshOK m) (hq : HexMesh m) (t : Fam) (p : ℕ)
    (ic : (ℕ → ℝ) → ℕ → ℝ) (e : ℕ) (he : e < m.numElems) : hexInit t p m' ic (σ e) = hexInit t p m ic e := by
  have hX : ∀ i < 8, fileCoords m' (σ e) i = fileCoords m e i := fun i hi => h.coords hm he (by rw [hq.npe]; exact hi)
  funext b s
  simp only [hexInit, hexInvMass_corners hX, hexDet_corners hX, hexMap_corners hX]

end

/-! ### the scheme -/

/-- **C78** (scheme, quadrilaterals).  Element `σ e` of the renumbered mesh has, after any number of steps and whatever the
states, the coefficients of element `e`. -/
theorem C78_run_quad {σ ν : ℕ → ℕ} {m m' : GMesh ℝ} (h : Renumbered σ ν m m') (hm : MeshOK m) (hq : QuadMesh m) (t : Fam) (p : ℕ)
    (ph : Physics) (start : (ℕ → ℝ) → ℕ → ℝ) (st : Stepper) (dt : ℝ) (n : ℕ) :
    ∀ e < m.numElems, ∀ b < (p + 1) * (p + 1), ∀ s < 4,
      quadRun t p m' ph start st dt n (σ e) b s = quadRun t p m ph start st dt n e b s :=
  run_renumber (d := quadEuler t p ph.ftype ph.γ) h hm (quadGeom_renumber h hm hq t p) st dt _ _
    (fun e he b _ s _ => by rw [quadInit_renumber h hm hq t p start e he]) n

/-- **C78** (scheme, hexahedra). -/
theorem C78_run_hex {σ ν : ℕ → ℕ} {m m' : GMesh ℝ} (h : Renumbered σ ν m m') (hm : MeshOK m) (hq : HexMesh m) (t : Fam) (p : ℕ)
    (ph : Physics) (start : (ℕ → ℝ) → ℕ → ℝ) (st : Stepper) (dt : ℝ) (n : ℕ) :
    ∀ e < m.numElems, ∀ b < (p + 1) * (p + 1) * (p + 1), ∀ s < 5,
      hexRun t p m' ph start st dt n (σ e) b s = hexRun t p m ph start st dt n e b s :=
  run_renumber (d := hexEuler t p ph.ftype ph.γ) h hm (hexGeom_renumber h hm hq t p) st dt _ _
    (fun e he b _ s _ => by rw [hexInit_renumber h hm hq t p start e he]) n

/-! ### the executable -/

/-- **C78** (inputs, quadrilaterals).  If the program accepts and completes the run on `m` (`QuadRunOK`, C67), it does the
same with the renumbered mesh. -/
theorem C78_accepts_quad {deck deck' : Deck} {fs fs' : String → List String → Option (MeshFile ℝ)} {σ ν : ℕ → ℕ}
    {m m' : GMesh ℝ} {t : Fam} {p : ℕ} {ph : Physics} {start : (ℕ → ℝ) → ℕ → ℝ} {st : StepperType} {dt T : ℝ}
    {n : ℕ} (h : QuadRunOK deck fs m t p ph start st dt T n) (hs : Renumbered σ ν m m')
    (asks' : DeckAsks deck' 2 p (quadType t) ph st dt T)
    (file' : ∃ name mf, deck'.meshFile = some name ∧ fs' name deck'.boundaries = some mf ∧ MeshFileOf m' 2 mf) :
    QuadRunOK deck' fs' m' t p ph start st dt T n where
  asks := asks'
  file := file'
  mesh := hs.meshOK h.mesh
  quads := quadMesh_renumber hs h.mesh h.quads
  sides := by
    intro e' he' k hk
    rw [hs.numElems] at he'
    obtain ⟨e, he, rfl⟩ := hs.elems.surjOn (show e' < m.numElems from he')
    have hX : ∀ i < 4, fileCoords m' (σ e) i = fileCoords m e i :=
      fun i hi => hs.coords h.mesh he (by rw [h.quads.npe]; exact hi)
    rw [hX _ (side_corner k).1, hX _ (side_corner k).2]
    exact h.sides e he k hk
  used := hs.used h.mesh h.used
  nodes := by rw [hs.numNodes]; exact h.nodes
  order := h.order
  gas := h.gas
  startOK := h.startOK
  step := h.step
  before := h.before
  after := h.after
  count := h.count
  admissible := admissible_renumber hs h.mesh (quadGeom_renumber hs h.mesh h.quads t p) st.scheme dt _ _
    (fun e he b _ s _ => by rw [quadInit_renumber hs h.mesh h.quads t p start e he]) n h.admissible

/-- **C78** (inputs, hexahedra). -/
theorem C78_accepts_hex {deck deck' : Deck} {fs fs' : String → List String → Option (MeshFile ℝ)} {σ ν : ℕ → ℕ}
    {m m' : GMesh ℝ} {t : Fam} {p : ℕ} {ph : Physics} {start : (ℕ → ℝ) → ℕ → ℝ} {st : StepperType} {dt T : ℝ}
    {n : ℕ} (h : HexRunOK deck fs m t p ph start st dt T n) (hs : Renumbered σ ν m m')
    (asks' : DeckAsks deck' 3 p (hexType t) ph st dt T)
    (file' : ∃ name mf, deck'.meshFile = some name ∧ fs' name deck'.boundaries = some mf ∧ MeshFileOf m' 3 mf) :
    HexRunOK deck' fs' m' t p ph start st dt T n where
  asks := asks'
  file := file'
  mesh := hs.meshOK h.mesh
  hexes := hexMesh_renumber hs h.mesh h.hexes
  areas := by
    intro e' he'
    rw [hs.numElems] at he'
    obtain ⟨e, he, rfl⟩ := hs.elems.surjOn (show e' < m.numElems from he')
    rw [faceNormal_corners fun i hi => hs.coords h.mesh he (by rw [h.hexes.npe]; exact hi)]
    exact h.areas e he
  used := hs.used h.mesh h.used
  nodes := by rw [hs.numNodes]; exact h.nodes
  order := h.order
  small := h.small
  gas := h.gas
  startOK := h.startOK
  step := h.step
  before := h.before
  after := h.after
  count := h.count
  admissible := admissible_renumber hs h.mesh (hexGeom_renumber hs h.mesh h.hexes t p) st.scheme dt _ _
    (fun e he b _ s _ => by rw [hexInit_renumber hs h.mesh h.hexes t p start e he]) n h.admissible

theorem flatten_const_get {β : Type} (w : ℕ) (L : List (List β)) (h : ∀ b ∈ L, b.length = w) (n d : ℕ) (hd : d < w) :
    L.flatten[n * w + d]? = (L[n]?).bind fun r => r[d]? := by
  induction L generalizing n with
  | nil => simp
  | cons a L ih =>
    rw [List.flatten_cons]
    have ha := h a (by simp)
    cases n with
    | zero =>
      rw [Nat.zero_mul, Nat.zero_add, List.getElem?_append_left (by omega)]
      simp
    | succ n =>
      rw [List.getElem?_append_right (by rw [ha, Nat.add_mul]; omega), ha,
        show (n + 1) * w + d - w = n * w + d by rw [Nat.add_mul]; omega, ih fun b hb => h b (by simp [hb])]
      simp

theorem serialFile_renumber {σ ν : ℕ → ℕ} {m m' : GMesh ℝ} {dim nb ns : ℕ} {T : ℝ} {V V' : Coeffs ℝ}
    {g g' : SolFile ℝ} (hm : MeshOK m) (hs : Renumbered σ ν m m') (hrow : ∀ r ∈ m.coord, r.length = dim)
    (hrow' : ∀ r ∈ m'.coord, r.length = dim) (hg : SerialFileOf m dim nb ns T V g) (hg' : SerialFileOf m' dim nb ns T V' g')
    (hV : ∀ e < m.numElems, ∀ b < nb, ∀ s < ns, V' (σ e) b s = V e b s) : RenumberedFile σ ν g g' where
  numElems := by rw [hg.numElems, hg'.numElems, hs.numElems]
  numNodes := by rw [hg.numNodes, hg'.numNodes, hs.numNodes]
  npe := by rw [hg.npe, hg'.npe, hs.npe]
  dim := by rw [hg.dim, hg'.dim]
  numBasis := by rw [hg.numBasis, hg'.numBasis]
  numState := by rw [hg.numState, hg'.numState]
  time := by rw [hg.finalTime, hg'.finalTime]
  elemIDs := by rw [hg.elemIDs.1, hg'.elemIDs.1, hs.numElems]
  nodeIDs := by rw [hg.nodeIDs.1, hg'.nodeIDs.1, hs.numNodes]
  conn := by
    rw [hg.numElems, hg.npe, hg.numNodes, hg.connectivity.1, hg'.connectivity.1]
    intro e he i hi
    have hlt : e * m.npe + i < m.eind.length := by
      rw [hm.eindLen]
      calc e * m.npe + i < (e + 1) * m.npe := by rw [Nat.add_mul]; omega
        _ ≤ _ := Nat.mul_le_mul_right _ he
    refine ⟨m.eind[e * m.npe + i], hm.nodes _ (List.getElem_mem hlt), List.getElem?_eq_getElem hlt, ?_⟩
    rw [hs.conn e he i hi, List.getElem?_eq_getElem hlt]
    rfl
  coords := by
    rw [hg.numNodes, hg.dim, hg.coords.1, hg'.coords.1]
    intro k hk d hd
    have hlen := hrow _ (List.getElem_mem hk)
    refine ⟨m.coord[k][d]'(by omega), ?_, ?_⟩
    · rw [flatten_const_get dim _ hrow k d hd, List.getElem?_eq_getElem hk, Option.bind_some,
        List.getElem?_eq_getElem (by omega)]
    · rw [flatten_const_get dim _ hrow' (ν k) d hd, hs.coord k hk, List.getElem?_eq_getElem hk, Option.bind_some,
        List.getElem?_eq_getElem (by omega)]
  coeffs := by
    rw [hg.numElems, hg.numBasis, hg.numState]
    intro e he b hb s hsl
    refine ⟨V e b s, hg.coeffs e he b hb s hsl, ?_⟩
    rw [hg'.coeffs (σ e) (by rw [hs.numElems]; exact hs.lt he) b hb s hsl, hV e he b hb s hsl]

/-- **C78** (executable, quadrilaterals).  Two complete runs of the executable, on any numbers of ranks, partitions and
schedules, with input files that ask for the same run on two meshes that differ in the numbers of their elements, nodes and
faces (so also in what the ranks own, in the order of all loops and messages, and in the faces of every element): the
converted solution files hold the same connectivity, coordinates and coefficients, with the new numbers. -/
theorem C78_program_quad {deck deck' : Deck} {fs fs' : String → List String → Option (MeshFile ℝ)} {σ ν : ℕ → ℕ}
    {m m' : GMesh ℝ} {t : Fam} {p : ℕ} {ph : Physics} {start : (ℕ → ℝ) → ℕ → ℝ} {st : StepperType} {dt T : ℝ}
    {n : ℕ} (h : QuadRunOK deck fs m t p ph start st dt T n) (hs : Renumbered σ ν m m')
    (asks' : DeckAsks deck' 2 p (quadType t) ph st dt T)
    (file' : ∃ name mf, deck'.meshFile = some name ∧ fs' name deck'.boundaries = some mf ∧ MeshFileOf m' 2 mf)
    (nr nr' : ℕ) (part part' : List ℕ) (env env' : ℕ → RankEnv) (hl : LaunchOK m nr part env)
    (hl' : LaunchOK m' nr' part' env') (un un' : Unset)
    (sched sched' : ℕ → ℕ → List (FluxWrite ℝ) → List (FluxWrite ℝ)) (hsc : ∀ r k l, (sched r k l).Perm l)
    (hsc' : ∀ r k l, (sched' r k l).Perm l) (ord ord' : ℕ → List ℕ) (ho : ∀ i, (ord i).Perm (List.range nr))
    (ho' : ∀ i, (ord' i).Perm (List.range nr')) (job job' : Job) (ranks ranks' : ℕ → RankReady)
    (hj : readJob deck fs un 2 nr = some job) (hj' : readJob deck' fs' un' 2 nr' = some job')
    (hr : ∀ r < nr, readyRank job un 2 nr (env r) r = some (ranks r))
    (hr' : ∀ r < nr', readyRank job' un' 2 nr' (env' r) r = some (ranks' r))
    (c c' : LoopConf) (k k' : ℕ) (hx : Proto.Exec (jobProg job ranks nr sched) (jobInit job ranks) c k)
    (hx' : Proto.Exec (jobProg job' ranks' nr' sched') (jobInit job' ranks') c' k')
    (hd : LoopDone job nr c) (hd' : LoopDone job' nr' c') :
    ∃ f f' g g', jobFile job ranks 2 nr ord c = some f ∧ jobFile job' ranks' 2 nr' ord' c' = some f' ∧
      convert nr f = some g ∧ convert nr' f' = some g' ∧ RenumberedFile σ ν g g' := by
  have h' := C78_accepts_quad h hs asks' file'
  obtain ⟨-, j, a1, -, a2⟩ := C67_program_quad deck fs m t p ph start st dt T n h nr part env hl un sched hsc ord ho
  obtain ⟨-, j', b1, -, b2⟩ := C67_program_quad deck' fs' m' t p ph start st dt T n h' nr' part' env' hl' un' sched'
    hsc' ord' ho'
  rw [hj] at a1; cases a1
  rw [hj'] at b1; cases b1
  obtain ⟨f, g, x1, x2, -, x4, -⟩ := (a2 ranks hr c k hx).2.2 hd
  obtain ⟨f', g', y1, y2, -, y4, -⟩ := (b2 ranks' hr' c' k' hx').2.2 hd'
  obtain ⟨_, _, _, _, hof⟩ := h.file
  obtain ⟨_, _, _, _, hof'⟩ := file'
  exact ⟨f, f', g, g', x1, y1, x2, y2, serialFile_renumber h.mesh hs hof.rows hof'.rows x4 y4
    (C78_run_quad hs h.mesh h.quads t p ph start st.scheme dt n)⟩

/-- **C78** (executable, hexahedra). -/
theorem C78_program_hex {deck deck' : Deck} {fs fs' : String → List String → Option (MeshFile ℝ)} {σ ν : ℕ → ℕ}
    {m m' : GMesh ℝ} {t : Fam} {p : ℕ} {ph : Physics} {start : (ℕ → ℝ) → ℕ → ℝ} {st : StepperType} {dt T : ℝ}
    {n : ℕ} (h : HexRunOK deck fs m t p ph start st dt T n) (hs : Renumbered σ ν m m')
    (asks' : DeckAsks deck' 3 p (hexType t) ph st dt T)
    (file' : ∃ name mf, deck'.meshFile = some name ∧ fs' name deck'.boundaries = some mf ∧ MeshFileOf m' 3 mf)
    (nr nr' : ℕ) (part part' : List ℕ) (env env' : ℕ → RankEnv) (hl : LaunchOK m nr part env)
    (hl' : LaunchOK m' nr' part' env') (hc : CutFlat m part) (hc' : CutFlat m' part') (un un' : Unset)
    (sched sched' : ℕ → ℕ → List (FluxWrite ℝ) → List (FluxWrite ℝ)) (hsc : ∀ r k l, (sched r k l).Perm l)
    (hsc' : ∀ r k l, (sched' r k l).Perm l) (ord ord' : ℕ → List ℕ) (ho : ∀ i, (ord i).Perm (List.range nr))
    (ho' : ∀ i, (ord' i).Perm (List.range nr')) (job job' : Job) (ranks ranks' : ℕ → RankReady)
    (hj : readJob deck fs un 3 nr = some job) (hj' : readJob deck' fs' un' 3 nr' = some job')
    (hr : ∀ r < nr, readyRank job un 3 nr (env r) r = some (ranks r))
    (hr' : ∀ r < nr', readyRank job' un' 3 nr' (env' r) r = some (ranks' r))
    (c c' : LoopConf) (k k' : ℕ) (hx : Proto.Exec (jobProg job ranks nr sched) (jobInit job ranks) c k)
    (hx' : Proto.Exec (jobProg job' ranks' nr' sched') (jobInit job' ranks') c' k')
    (hd : LoopDone job nr c) (hd' : LoopDone job' nr' c') :
    ∃ f f' g g', jobFile job ranks 3 nr ord c = some f ∧ jobFile job' ranks' 3 nr' ord' c' = some f' ∧
      convert nr f = some g ∧ convert nr' f' = some g' ∧ RenumberedFile σ ν g g' := by
  have h' := C78_accepts_hex h hs asks' file'
  obtain ⟨-, j, a1, -, a2⟩ := C67_program_hex deck fs m t p ph start st dt T n h nr part env hl hc un sched hsc ord ho
  obtain ⟨-, j', b1, -, b2⟩ := C67_program_hex deck' fs' m' t p ph start st dt T n h' nr' part' env' hl' hc' un' sched'
    hsc' ord' ho'
  rw [hj] at a1; cases a1
  rw [hj'] at b1; cases b1
  obtain ⟨f, g, x1, x2, -, x4, -⟩ := (a2 ranks hr c k hx).2.2 hd
  obtain ⟨f', g', y1, y2, -, y4, -⟩ := (b2 ranks' hr' c' k' hx').2.2 hd'
  obtain ⟨_, _, _, _, hof⟩ := h.file
  obtain ⟨_, _, _, _, hof'⟩ := file'
  exact ⟨f, f', g, g', x1, y1, x2, y2, serialFile_renumber h.mesh hs hof.rows hof'.rows x4 y4
    (C78_run_hex hs h.mesh h.hexes t p ph start st.scheme dt n)⟩

/-! ### the reported error -/

theorem Renumbered.sum {σ ν : ℕ → ℕ} {m m' : GMesh ℝ} (h : Renumbered σ ν m m') (f g : ℕ → ℝ)
    (hfg : ∀ e < m.numElems, f (σ e) = g e) : ∑ e ∈ range m'.numElems, f e = ∑ e ∈ range m.numElems, g e := by
  rw [h.numElems]
  symm
  refine Finset.sum_nbij σ ?_ ?_ ?_ ?_
  · intro e he
    exact mem_range.2 (h.lt (mem_range.1 he))
  · intro e he e' he' hs
    exact h.elems.injOn (by simpa using he) (by simpa using he') hs
  · intro e he
    obtain ⟨e', h1, h2⟩ := h.elems.surjOn (show e < m.numElems by simpa using he)
    exact ⟨e', by simpa using h1, h2⟩
  · intro e he
    exact (hfg e (mem_range.1 he)).symm

/-- **C78** (post-processor, quadrilaterals).  The distance from the exact solution that the post-processor prints (C68) is
the same for both meshes. -/
theorem C78_error_quad {σ ν : ℕ → ℕ} {m m' : GMesh ℝ} (h : Renumbered σ ν m m') (hm : MeshOK m) (hq : QuadMesh m) (t : Fam) (p : ℕ)
    (ph : Physics) (start u : (ℕ → ℝ) → ℕ → ℝ) (st : Stepper) (dt : ℝ) (n : ℕ) (v : ℕ) (hv : v < 4) :
    quadDist t p m' u (quadRun t p m' ph start st dt n) v = quadDist t p m u (quadRun t p m ph start st dt n) v := by
  have hX : ∀ e < m.numElems, ∀ i < 4, fileCoords m' (σ e) i = fileCoords m e i :=
    fun e he i hi => h.coords hm he (by rw [hq.npe]; exact hi)
  unfold quadDist
  dsimp only
  congr 2
  · refine h.sum _ _ fun e he => sum_congr rfl fun q _ => ?_
    rw [quadDet_corners (hX e he), quadMap_corners (hX e he)]
    congr 3
    exact sum_congr rfl fun b hb => by rw [C78_run_quad h hm hq t p ph start st dt n e he b (mem_range.1 hb) v hv]
  · refine h.sum _ _ fun e he => sum_congr rfl fun q _ => ?_
    rw [quadDet_corners (hX e he)]

/-- **C78** (post-processor, hexahedra). -/
theorem C78_error_hex {σ ν : ℕ → ℕ} {m m' : GMesh ℝ} (h : Renumbered σ ν m m') (hm : MeshOK m) (hq : HexMesh m) (t : Fam) (p : ℕ)
    (ph : Physics) (start u : (ℕ → ℝ) → ℕ → ℝ) (st : Stepper) (dt : ℝ) (n : ℕ) (v : ℕ) (hv : v < 5) :
    hexDist t p m' u (hexRun t p m' ph start st dt n) v = hexDist t p m u (hexRun t p m ph start st dt n) v := by
  have hX : ∀ e < m.numElems, ∀ i < 8, fileCoords m' (σ e) i = fileCoords m e i :=
    fun e he i hi => h.coords hm he (by rw [hq.npe]; exact hi)
  unfold hexDist
  dsimp only
  congr 2
  · refine h.sum _ _ fun e he => sum_congr rfl fun q _ => ?_
    rw [hexDet_corners (hX e he), hexMap_corners (hX e he)]
    congr 3
    exact sum_congr rfl fun b hb => by rw [C78_run_hex h hm hq t p ph start st dt n e he b (mem_range.1 hb) v hv]
  · refine h.sum _ _ fun e he => sum_congr rfl fun q _ => ?_
    rw [hexDet_corners (hX e he)]

end DG
