import Verif.Lemmas.FrameGeom
import Verif.Props.Main

/-! Meshes, initial states and admissibility in another frame. -/
namespace DG
open Finset

variable {dim : ℕ} {F : Frame dim} {σ : ℕ → ℕ} {m m' : GMesh ℝ}

theorem Frame.point_add (F : Frame dim) (x y : ℕ → ℝ) (d : ℕ) :
    F.point (fun j => x j + y j) d = F.point x d + F.len * F.turn y d := by
  unfold Frame.point
  rw [F.turn_add]; ring

theorem Frame.point_congr (F : Frame dim) {x y : ℕ → ℝ} (h : ∀ j < dim, x j = y j) : F.point x = F.point y := by
  unfold Frame.point
  rw [F.turn_congr h]

/-- a rotation does not map a nonzero vector to zero -/
theorem Frame.turn_ne (F : Frame dim) {x : ℕ → ℝ} (h : ∃ j < dim, x j ≠ 0) : ∃ j < dim, F.turn x j ≠ 0 := by
  by_contra hc
  push Not at hc
  obtain ⟨j, hj, hx⟩ := h
  have h0 : inner' dim (F.turn x) (F.turn x) = 0 := by
    unfold inner'
    exact sum_eq_zero fun i hi => by rw [hc i (mem_range.1 hi), zero_mul]
  rw [F.inner_turn] at h0
  have h1 := inner_ne ⟨j, hj, hx⟩
  exact h1 h0

namespace SameMesh

theorem surj (h : SameMesh F σ m m') {e' : ℕ} (he : e' < m.numElems) : ∃ e < m.numElems, σ e = e' := by
  have h1 : ((range m.numElems).image σ) = range m.numElems := by
    apply Finset.eq_of_subset_of_card_le
    · intro x hx
      obtain ⟨e, he, rfl⟩ := mem_image.1 hx
      exact mem_range.2 (h.lt e (mem_range.1 he))
    · rw [Finset.card_image_of_injOn fun a ha b hb hab => h.inj a (mem_range.1 ha) b (mem_range.1 hb) hab]
  have h2 := mem_range.2 he
  rw [← h1] at h2
  obtain ⟨e, h3, h4⟩ := mem_image.1 h2
  exact ⟨e, mem_range.1 h3, h4⟩

theorem face (h : SameMesh F σ m m') {f' : IFace} (hf : f' ∈ m'.faces) : ∃ f ∈ m.faces, f.relabel σ = f' := by
  have := h.faces.mem_iff.1 hf
  exact List.mem_map.1 this

theorem nodup (h : SameMesh F σ m m') (hm : MeshOK m)
    (hn : (m.faces.flatMap fun f => [(f.elemL, f.faceL), (f.elemR, f.faceR)]).Nodup) :
    (m'.faces.flatMap fun f => [(f.elemL, f.faceL), (f.elemR, f.faceR)]).Nodup := by
  have h1 : (m'.faces.flatMap fun f => [(f.elemL, f.faceL), (f.elemR, f.faceR)]).Perm
      ((m.faces.flatMap fun f => [(f.elemL, f.faceL), (f.elemR, f.faceR)]).map fun x => (σ x.1, x.2)) := by
    refine (h.faces.flatMap_right _).trans ?_
    rw [List.flatMap_map, List.map_flatMap]
    exact .refl _
  rw [h1.nodup_iff]
  refine List.Nodup.map_on ?_ hn
  intro x hx y hy hxy
  have hlt : ∀ x ∈ (m.faces.flatMap fun f => [(f.elemL, f.faceL), (f.elemR, f.faceR)]), x.1 < m.numElems := by
    intro x hx
    obtain ⟨f, hf, hx⟩ := List.mem_flatMap.1 hx
    obtain ⟨hL, hR⟩ := hm.faces f hf
    simp only [List.mem_cons, List.not_mem_nil, or_false] at hx
    rcases hx with rfl | rfl
    · exact hL
    · exact hR
  have h2 := Prod.ext_iff.1 hxy
  exact Prod.ext (h.inj _ (hlt x hx) _ (hlt y hy) h2.1) h2.2

end SameMesh

/-! ### quadrilaterals -/

theorem SameMesh.cornersQ {F : Frame 2} (h : SameMesh F σ m m') (hn : m.npe = 4) {e : ℕ} (he : e < m.numElems) :
    CornersQ F (fileCoords m e) (fileCoords m' (σ e)) :=
  fun i hi d hd => h.corners e he i (by omega) d hd

theorem quadMesh_frame {F : Frame 2} (h : SameMesh F σ m m') (hm : MeshOK m) (hq : QuadMesh m) : QuadMesh m' where
  npe := by rw [h.npe, hq.npe]
  det := by
    intro e' he' ξ η h1 h2 h3 h4
    obtain ⟨e, he, rfl⟩ := h.surj (by rw [h.numElems] at he'; exact he')
    rw [quadDet_frame (h.cornersQ hq.npe he)]
    exact mul_pos (pow_pos F.len_pos _) (hq.det e he ξ η h1 h2 h3 h4)
  faceL := by
    intro f' hf'
    obtain ⟨f, hf, rfl⟩ := h.face hf'
    exact hq.faceL f hf
  faceR := by
    intro f' hf'
    obtain ⟨f, hf, rfl⟩ := h.face hf'
    exact hq.faceR f hf
  sides := h.nodup hm hq.sides
  match_ := by
    intro f' hf'
    obtain ⟨f, hf, rfl⟩ := h.face hf'
    obtain ⟨hL, hR⟩ := hm.faces f hf
    obtain ⟨shift, hs⟩ := hq.match_ f hf
    refine ⟨fun d => F.len * F.turn shift d, fun s d hd => ?_⟩
    show quadMap (fileCoords m' (σ f.elemL)) _ _ d = quadMap (fileCoords m' (σ f.elemR)) _ _ d + _
    rw [quadMap_frame (h.cornersQ hq.npe hL) _ _ hd, quadMap_frame (h.cornersQ hq.npe hR) _ _ hd, ← F.point_add]
    exact congrFun (F.point_congr fun j hj => hs s j hj) d

theorem sides_frame {F : Frame 2} (h : SameMesh F σ m m') (hq : QuadMesh m) (hs : SidesNonzero m) : SidesNonzero m' := by
  intro e' he' k hk
  obtain ⟨e, he, rfl⟩ := h.surj (by rw [h.numElems] at he'; exact he')
  obtain ⟨d, hd, hne⟩ := hs e he k hk
  have hto : sideTo k < 4 := by unfold sideTo; split_ifs <;> omega
  have hfr : sideFrom k < 4 := by unfold sideFrom; split_ifs <;> omega
  obtain ⟨j, hj, hj'⟩ := F.turn_ne (x := fun d => fileCoords m e (sideTo k) d + (-1) * fileCoords m e (sideFrom k) d)
    ⟨d, hd, fun hc => hne (by linarith)⟩
  refine ⟨j, hj, fun hc => hj' ?_⟩
  rw [h.cornersQ hq.npe he _ hto j hj, h.cornersQ hq.npe he _ hfr j hj] at hc
  rw [F.turn_add, F.turn_smul]
  unfold Frame.point at hc
  have hl := F.len_pos.ne'
  have : F.len * (F.turn (fileCoords m e (sideTo k)) j + -1 * F.turn (fileCoords m e (sideFrom k)) j) = 0 := by linarith
  exact (mul_eq_zero.1 this).resolve_left hl

theorem quadGeom_frame {F : Frame 2} (h : SameMesh F σ m m') (hm : MeshOK m) (hq : QuadMesh m) (t : Fam) (p : ℕ)
    (fl : NumericalFluxType) (γ : ℝ) :
    SameGeom F σ (quadEuler t p fl γ) m m' (quadGeom t p m) (quadGeom t p m')
      (fun f _ j => sideNormal (fileCoords m f.elemL) f.faceL j)
      (fun f _ j => sideNormal (fileCoords m' f.elemL) f.faceL j) where
  djac := fun e he q _ => quadDet_frame (h.cornersQ hq.npe he) _ _
  ijac := fun e he q _ i hi j hj => quadInvJac_frame (h.cornersQ hq.npe he) _ _ hi hj
  iMM := fun e he b _ j _ => quadInvMass_frame (h.cornersQ hq.npe he) t p b j
  normals := fun g f hf iq j => by simp only [quadGeom, faceAt, hf, Option.getD_some]
  normals' := fun g f hf iq j => by simp only [quadGeom, faceAt, hf, Option.getD_some]
  turn := fun f hf iq _ j hj => by
    rw [show (2 - 1 : ℕ) = 1 from rfl, pow_one]
    exact sideNormal_frame (h.cornersQ hq.npe (hm.faces f hf).1) (hq.faceL f hf).1 hj

theorem quadEuler_disc (t : Fam) (p : ℕ) (fl : NumericalFluxType) (γ : ℝ) : EulerDisc 2 fl γ (quadEuler t p fl γ) :=
  ⟨rfl, rfl, rfl, rfl⟩

theorem quadInit_frame {F : Frame 2} (h : SameMesh F σ m m') (hq : QuadMesh m) (t : Fam) (p : ℕ)
    {start start' : (ℕ → ℝ) → ℕ → ℝ} (hst : SameStart F start start') :
    SameCoeffs F σ m.numElems ((p + 1) * (p + 1)) (quadInit t p m start) (quadInit t p m' start') := by
  intro e he b hb s hs
  have hc := h.cornersQ hq.npe he
  unfold quadInit
  dsimp only
  rw [F.state_sum (range ((p + 1) * (p + 1))) fun j s => quadInvMass t p (fileCoords m e) b j * _]
  refine sum_congr rfl fun j _ => ?_
  rw [F.state_smul (quadInvMass t p (fileCoords m e) b j) fun s => ∑ q ∈ range _, _, quadInvMass_frame hc,
    F.state_sum, mul_assoc, mul_left_comm, mul_sum]
  congr 1
  refine sum_congr rfl fun q _ => ?_
  have e1 : ∀ (c k D : ℝ) (V : ℕ → ℝ), F.state (fun s => c * D * (k * V s)) s = c * D * k * F.state V s := by
    intro c k D V
    rw [← F.state_smul]
    congr 1
    funext s; ring
  rw [e1, quadDet_frame hc, hst (fun d => if d < 2 then quadMap (fileCoords m e) _ _ d else 0) _ (fun d hd => ?_) s hs]
  · have hl := F.len_pos.ne'
    field_simp
  · rw [if_pos hd, quadMap_frame hc _ _ hd]
    exact congrFun (F.point_congr fun j hj => by rw [if_pos hj]) d

/-! ### hexahedra -/

theorem SameMesh.cornersH {F : Frame 3} (h : SameMesh F σ m m') (hn : m.npe = 8) {e : ℕ} (he : e < m.numElems) :
    CornersH F (fileCoords m e) (fileCoords m' (σ e)) :=
  fun i hi d hd => h.corners e he i (by omega) d hd

theorem hexMesh_frame {F : Frame 3} (h : SameMesh F σ m m') (hm : MeshOK m) (hq : HexMesh m) : HexMesh m' where
  npe := by rw [h.npe, hq.npe]
  det := by
    intro e' he' ξ η ζ h1 h2 h3 h4 h5 h6
    obtain ⟨e, he, rfl⟩ := h.surj (by rw [h.numElems] at he'; exact he')
    rw [hexDet_frame (h.cornersH hq.npe he)]
    exact mul_pos (pow_pos F.len_pos _) (hq.det e he ξ η ζ h1 h2 h3 h4 h5 h6)
  faceL := by
    intro f' hf'
    obtain ⟨f, hf, rfl⟩ := h.face hf'
    exact hq.faceL f hf
  faceR := by
    intro f' hf'
    obtain ⟨f, hf, rfl⟩ := h.face hf'
    exact hq.faceR f hf
  sides := h.nodup hm hq.sides
  opposite := by
    intro f' hf'
    obtain ⟨f, hf, rfl⟩ := h.face hf'
    exact hq.opposite f hf
  match_ := by
    intro f' hf'
    obtain ⟨f, hf, rfl⟩ := h.face hf'
    obtain ⟨hL, hR⟩ := hm.faces f hf
    obtain ⟨shift, hs⟩ := hq.match_ f hf
    refine ⟨fun d => F.len * F.turn shift d, fun s d hd => ?_⟩
    show hexMap (fileCoords m' (σ f.elemL)) _ d = hexMap (fileCoords m' (σ f.elemR)) _ d + _
    rw [hexMap_frame (h.cornersH hq.npe hL) _ hd, hexMap_frame (h.cornersH hq.npe hR) _ hd, ← F.point_add]
    exact congrFun (F.point_congr fun j hj => hs s j hj) d

theorem areas_frame {F : Frame 3} (h : SameMesh F σ m m') (hq : HexMesh m) (hs : FacesNonzero m) : FacesNonzero m' := by
  intro e' he' k hk s h1 h2 h3 h4
  obtain ⟨e, he, rfl⟩ := h.surj (by rw [h.numElems] at he'; exact he')
  obtain ⟨j, hj, hj'⟩ := F.turn_ne (hs e he k hk s h1 h2 h3 h4)
  refine ⟨j, hj, ?_⟩
  rw [faceNormal_frame (h.cornersH hq.npe he) k s hj]
  exact mul_ne_zero (pow_ne_zero _ F.len_pos.ne') hj'

theorem hexGeom_frame {F : Frame 3} (h : SameMesh F σ m m') (hm : MeshOK m) (hq : HexMesh m) (t : Fam) (p : ℕ)
    (fl : NumericalFluxType) (γ : ℝ) :
    SameGeom F σ (hexEuler t p fl γ) m m' (hexGeom t p m) (hexGeom t p m')
      (fun f q j => faceNormal (fileCoords m f.elemL) f.faceL ((facePt2 p q).2, (facePt2 p q).1) j)
      (fun f q j => faceNormal (fileCoords m' f.elemL) f.faceL ((facePt2 p q).2, (facePt2 p q).1) j) where
  djac := fun e he q _ => hexDet_frame (h.cornersH hq.npe he) _
  ijac := fun e he q _ i hi j hj => hexInvJac_frame (h.cornersH hq.npe he) _ hi hj
  iMM := fun e he b _ j _ => hexInvMass_frame (h.cornersH hq.npe he) t p b j
  normals := fun g f hf iq j => by simp only [hexGeom, faceAt, hf, Option.getD_some]
  normals' := fun g f hf iq j => by simp only [hexGeom, faceAt, hf, Option.getD_some]
  turn := fun f hf iq _ j hj => by
    rw [show (3 - 1 : ℕ) = 2 from rfl]
    exact faceNormal_frame (h.cornersH hq.npe (hm.faces f hf).1) _ _ hj

theorem hexEuler_disc (t : Fam) (p : ℕ) (fl : NumericalFluxType) (γ : ℝ) : EulerDisc 3 fl γ (hexEuler t p fl γ) :=
  ⟨rfl, rfl, rfl, rfl⟩

theorem hexInit_frame {F : Frame 3} (h : SameMesh F σ m m') (hq : HexMesh m) (t : Fam) (p : ℕ)
    {start start' : (ℕ → ℝ) → ℕ → ℝ} (hst : SameStart F start start') :
    SameCoeffs F σ m.numElems ((p + 1) * (p + 1) * (p + 1)) (hexInit t p m start) (hexInit t p m' start') := by
  intro e he b hb s hs
  have hc := h.cornersH hq.npe he
  unfold hexInit
  dsimp only
  rw [F.state_sum (range ((p + 1) * (p + 1) * (p + 1))) fun j s => hexInvMass t p (fileCoords m e) b j * _]
  refine sum_congr rfl fun j _ => ?_
  rw [F.state_smul (hexInvMass t p (fileCoords m e) b j) fun s => ∑ q ∈ range _, _, hexInvMass_frame hc,
    F.state_sum, mul_assoc, mul_left_comm, mul_sum]
  congr 1
  refine sum_congr rfl fun q _ => ?_
  have e1 : ∀ (c k D : ℝ) (V : ℕ → ℝ), F.state (fun s => c * D * (k * V s)) s = c * D * k * F.state V s := by
    intro c k D V
    rw [← F.state_smul]
    congr 1
    funext s; ring
  rw [e1, hexDet_frame hc, hst (fun d => if d < 3 then hexMap (fileCoords m e) _ d else 0) _ (fun d hd => ?_) s hs]
  · have hl := F.len_pos.ne'
    field_simp
  · rw [if_pos hd, hexMap_frame hc _ hd]
    exact congrFun (F.point_congr fun j hj => by rw [if_pos hj]) d

/-! ### admissibility -/

theorem statesAdmissible_frame {fl : NumericalFluxType} {γ : ℝ} {d : Disc ℝ} {U U' : Coeffs ℝ}
    (hd : EulerDisc dim fl γ d) (h : SameMesh F σ m m') (hm : MeshOK m) (hU : SameCoeffs F σ m.numElems d.nb U U')
    (ha : StatesAdmissible γ d m U) : StatesAdmissible γ d m' U' where
  vol := by
    intro e' he' q hq
    obtain ⟨e, he, rfl⟩ := h.surj (by rw [h.numElems] at he'; exact he')
    rw [volState_frame hd hU he, hd.dim_eq]
    have := ha.vol e he q hq
    rw [hd.dim_eq] at this
    exact F.admissible_state this
  left := by
    intro f' hf' i hi
    obtain ⟨f, hf, rfl⟩ := h.face hf'
    show Admissible d.dim γ (traceState d U' (σ f.elemL) f.faceL i)
    rw [traceState_frame hd hU (hm.faces f hf).1, hd.dim_eq]
    have := ha.left f hf i hi
    rw [hd.dim_eq] at this
    exact F.admissible_state this
  right := by
    intro f' hf' i hi
    obtain ⟨f, hf, rfl⟩ := h.face hf'
    show Admissible d.dim γ (traceState d U' (σ f.elemR) f.faceR i)
    rw [traceState_frame hd hU (hm.faces f hf).2, hd.dim_eq]
    have := ha.right f hf i hi
    rw [hd.dim_eq] at this
    exact F.admissible_state this

theorem runAdmissible_frame {fl : NumericalFluxType} {γ : ℝ} {d : Disc ℝ} {U U' : Coeffs ℝ} {G G' : Geom ℝ}
    {N N' : IFace → ℕ → ℕ → ℝ} (hdim : 0 < dim) (hd : EulerDisc dim fl γ d) (hg : SameGeom F σ d m m' G G' N N')
    (h : SameMesh F σ m m') (hm : MeshOK m) (hU : SameCoeffs F σ m.numElems d.nb U U') (st : Stepper) (dt : ℝ) (n : ℕ)
    (ha : RunAdmissible γ d m G st dt U n) : RunAdmissible γ d m' G' st (dt * F.len / F.speed) U' n := by
  intro i hi
  have hA := ha i hi
  have hV := run_frame hdim hd hg h hm hU st dt i
  generalize (stepOf st dt (globalRHS d m G))^[i] U = V at hA hV
  generalize (stepOf st (dt * F.len / F.speed) (globalRHS d m' G'))^[i] U' = V' at hV ⊢
  cases st with
  | FE => exact statesAdmissible_frame hd h hm hV hA
  | RK4 =>
    have e2 : dt * F.len / F.speed / 2 = dt / 2 * F.len / F.speed := by ring
    obtain ⟨a1, a2, a3, a4⟩ := hA
    have k2 := stage_frame hdim hd hg h hm V V' V V' (dt / 2) hV hV
    have k3 := stage_frame hdim hd hg h hm _ _ V V' (dt / 2) k2 hV
    have k4 := stage_frame hdim hd hg h hm _ _ V V' dt k3 hV
    unfold StagesHold
    dsimp only
    simp only [e2]
    exact ⟨statesAdmissible_frame hd h hm hV a1, statesAdmissible_frame hd h hm k2 a2,
      statesAdmissible_frame hd h hm k3 a3, statesAdmissible_frame hd h hm k4 a4⟩

end DG
