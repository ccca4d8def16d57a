import Verif.Spec.Flip
import Verif.Props.Main

/-!
Property C74: which element of a face is listed first in the mesh file does not matter.
-/
namespace DG
open Finset

/-! ### fluxes -/

theorem rusanov_swap (dim : ℕ) (γ : ℝ) (UL UR N : ℕ → ℝ) (s : ℕ) :
    rusanovFlux dim γ UR UL (fun i => - N i) s = - rusanovFlux dim γ UL UR N s := by
  unfold rusanovFlux
  rw [eulerFlux_neg, eulerFlux_neg, inner_neg_neg, max_comm]
  ring

theorem numFlux_swap {dim : ℕ} {γ : ℝ} (fl : NumericalFluxType) (hγ : 1 < γ) {UL UR N : ℕ → ℝ}
    (hL : Admissible dim γ UL) (hR : Admissible dim γ UR)
    (hw : fl = .HLLC → waveSpeedL dim γ UL UR (unit dim N) < 0 ∨ 0 < waveSpeedR dim γ UL UR (unit dim N)) (s : ℕ)
    (hs : s < dim + 2) :
    eulerNumFlux fl dim γ UR UL (fun i => - N i) s = - eulerNumFlux fl dim γ UL UR N s := by
  cases fl with
  | LaxFriedrichs => exact rusanov_swap dim γ UL UR N s
  | HLLC =>
    show Real.sqrt _ * hllcFlux dim γ UR UL (unit dim fun i => - N i) s = - (Real.sqrt _ * hllcFlux dim γ UL UR (unit dim N) s)
    rw [inner_neg_neg, unit_neg, hllcFlux_swap hγ hL hR (hw rfl) s hs]
    ring

/-! ### the scheme -/

/-- the geometries of the two meshes: normals of flipped faces are reversed -/
structure FlippedGeom (d : Disc ℝ) (m m' : GMesh ℝ) (G G' : Geom ℝ) : Prop where
  djac : G'.djac = G.djac
  ijac : G'.ijac = G.ijac
  iMM : G'.iMM = G.iMM
  same : ∀ (g : ℕ) (f : IFace), m.faces[g]? = some f → m'.faces[g]? = some f → G'.normals g = G.normals g
  back : ∀ (g : ℕ) (f : IFace), m.faces[g]? = some f → m'.faces[g]? = some f.flip →
    (m'.faces[g]? = some f ∨ ∀ iq < d.nqf, ∀ j < d.dim, G'.normals g iq j = - G.normals g iq j)

theorem FlippedFaces.get {ok : IFace → Prop} {m m' : GMesh ℝ} (h : FlippedFaces ok m m') {g : ℕ} {f : IFace}
    (hf : m.faces[g]? = some f) : ∃ f', m'.faces[g]? = some f' ∧ (f' = f ∨ f' = f.flip ∧ ok f) := by
  have hF := h.faces
  rw [List.forall₂_iff_get] at hF
  obtain ⟨hl, hg⟩ := hF
  obtain ⟨h1, h2⟩ := List.getElem?_eq_some_iff.1 hf
  have h3 := hg g h1 (by omega)
  refine ⟨m'.faces[g]'(by omega), List.getElem?_eq_getElem _, ?_⟩
  simp only [List.get_eq_getElem, h2] at h3
  exact h3

theorem FlippedFaces.mem' {ok : IFace → Prop} {m m' : GMesh ℝ} (h : FlippedFaces ok m m') {f' : IFace}
    (hf : f' ∈ m'.faces) : ∃ f ∈ m.faces, f' = f ∨ f' = f.flip ∧ ok f := by
  have hF := h.faces
  obtain ⟨g, hg, rfl⟩ := List.getElem_of_mem hf
  rw [List.forall₂_iff_get] at hF
  obtain ⟨hl, hg'⟩ := hF
  have := hg' g (by omega) hg
  exact ⟨_, List.get_mem _ _, this⟩

theorem FlippedFaces.meshOK {ok : IFace → Prop} {m m' : GMesh ℝ} (h : FlippedFaces ok m m') (hm : MeshOK m) : MeshOK m' where
  eindLen := by rw [h.eind, h.numElems, h.npe]; exact hm.eindLen
  nodes := by rw [h.eind, h.coord]; exact hm.nodes
  faces := by
    intro f' hf'
    rw [h.numElems]
    obtain ⟨f, hf, rfl | ⟨rfl, -⟩⟩ := h.mem' hf'
    · exact hm.faces f' hf
    · exact ⟨(hm.faces f hf).2, (hm.faces f hf).1⟩
  elemsFit := by rw [h.numElems]; exact hm.elemsFit
  nodesFit := by rw [h.coord]; exact hm.nodesFit
  facesFit := by rw [← h.faces.length_eq]; exact hm.facesFit

theorem FlippedFaces.coords {ok : IFace → Prop} {m m' : GMesh ℝ} (h : FlippedFaces ok m m') : fileCoords m' = fileCoords m := by
  funext e i d
  unfold fileCoords
  rw [h.coord, h.eind, h.npe]

theorem FlippedFaces.sides {ok : IFace → Prop} {m m' : GMesh ℝ} (h : FlippedFaces ok m m')
    (hn : (m.faces.flatMap fun f => [(f.elemL, f.faceL), (f.elemR, f.faceR)]).Nodup) :
    (m'.faces.flatMap fun f => [(f.elemL, f.faceL), (f.elemR, f.faceR)]).Nodup := by
  have key : ∀ l l' : List IFace, List.Forall₂ (fun f f' => f' = f ∨ f' = f.flip ∧ ok f) l l' →
      (l'.flatMap fun f => [(f.elemL, f.faceL), (f.elemR, f.faceR)]).Perm
        (l.flatMap fun f => [(f.elemL, f.faceL), (f.elemR, f.faceR)]) := by
    intro l l' hl
    induction hl with
    | nil => exact .refl _
    | cons h1 _ ih =>
      rw [List.flatMap_cons, List.flatMap_cons]
      refine List.Perm.append ?_ ih
      rcases h1 with rfl | ⟨rfl, -⟩
      · exact .refl _
      · exact .swap _ _ _
  exact (key _ _ h.faces).nodup_iff.2 hn

section
variable {dim : ℕ} {ok : IFace → Prop} {m m' : GMesh ℝ} {d : Disc ℝ} {fl : NumericalFluxType} {γ : ℝ} {G G' : Geom ℝ}

theorem zipIdx_map_eq {β : Type} (l l' : List IFace) (k k' : ℕ → IFace → β) (n : ℕ) (hl : l.length = l'.length)
    (h : ∀ g f f', l[g]? = some f → l'[g]? = some f' → k (n + g) f = k' (n + g) f') :
    (l.zipIdx n).map (fun x => k x.2 x.1) = (l'.zipIdx n).map fun x => k' x.2 x.1 := by
  induction l generalizing l' n with
  | nil =>
    cases l' with
    | nil => rfl
    | cons _ _ => simp at hl
  | cons a l ih =>
    cases l' with
    | nil => simp at hl
    | cons b l' =>
      simp only [List.zipIdx_cons, List.map_cons]
      rw [ih l' (n + 1) (by simpa using hl) fun g f f' h1 h2 => by
        have := h (g + 1) f f' (by simpa using h1) (by simpa using h2)
        rwa [show n + (g + 1) = n + 1 + g by omega] at this]
      congr 1
      simpa using h 0 a b (by simp) (by simp)

theorem rhs_flip (hd : d.ns = d.dim + 2) (hnum : d.numFlux = eulerNumFlux fl d.dim γ) (hγ : 1 < γ) (h : FlippedFaces ok m m') (hm : MeshOK m)
    {norient : ℕ} (hc : Conforming d norient m) (ho : OrderOK d norient)
    (hg : FlippedGeom d m m' G G') (U V : Coeffs ℝ) (hUV : AgreeIn d m.numElems U V)
    (hV : StatesAdmissible γ d m V ∧ (fl = .HLLC → WavesSpread γ d m G V)) :
    AgreeIn d m.numElems (globalRHS d m' G' U) (globalRHS d m G V) := by
  obtain ⟨hA, hW⟩ := hV
  have hvs : ∀ e < m.numElems, ∀ q, volState d U e q = volState d V e q := by
    intro e he q
    funext s
    unfold volState
    split
    · rename_i hs
      exact Finset.sum_congr rfl fun b hb => by rw [hUV e he b (Finset.mem_range.1 hb) s hs]
    · rfl
  have hts : ∀ e < m.numElems, ∀ f j, traceState d U e f j = traceState d V e f j := by
    intro e he f j
    funext s
    unfold traceState
    split
    · rename_i hs
      exact Finset.sum_congr rfl fun b hb => by rw [hUV e he b (Finset.mem_range.1 hb) s hs]
    · rfl
  intro e he b hb s hs
  unfold globalRHS
  rw [hg.iMM]
  refine sum_congr rfl fun j _ => ?_
  congr 1
  unfold globalResidual
  congr 1
  · unfold volumeTerm
    rw [hg.ijac, hg.djac]
    refine sum_congr rfl fun q _ => sum_congr rfl fun i _ => ?_
    rw [hvs e he q]
  · congr 1
    refine zipIdx_map_eq m'.faces m.faces (fun g f => faceTerm d G' U e j s g f) (fun g f => faceTerm d G V e j s g f) 0
      h.faces.length_eq.symm fun g f' f hf' hf => ?_
    rw [Nat.zero_add]
    have hmem : f ∈ m.faces := List.mem_of_getElem? hf
    obtain ⟨mL, mR⟩ := hm.faces f hmem
    obtain ⟨f'', h1, h2⟩ := h.get hf
    rw [hf'] at h1
    obtain rfl : f' = f'' := Option.some.inj h1
    unfold faceTerm meshFlux
    by_cases hsame : f' = f
    · subst hsame
      rw [hg.same g f' hf hf']
      refine sum_congr rfl fun iq _ => ?_
      rw [hts _ mL, hts _ mR]
    · obtain ⟨rfl, -⟩ := h2.resolve_left hsame
      have hN := (hg.back g f hf hf').resolve_left fun hc => hsame (Option.some.inj (hf'.symm.trans hc))
      refine sum_congr rfl fun iq hq => ?_
      have hq' := mem_range.1 hq
      have e1 : cArr d.dim (G'.normals g iq) = fun i => - cArr d.dim (G.normals g iq) i := by
        funext i
        unfold cArr
        split_ifs with hi
        · exact hN iq hq' i hi
        · simp
      have a1 := (ho _ (hc.faceL f hmem).2).1 iq hq'
      have a2 := (ho _ (hc.faceR f hmem).2).1 iq hq'
      simp only [IFace.flip]
      rw [e1, hts _ mL, hts _ mR, hnum, numFlux_swap fl hγ (hA.left f hmem _ a1) (hA.right f hmem _ a2)
        (fun hfl => hW hfl g f hf iq hq') s (by rw [← hd]; exact hs)]
      by_cases c1 : f.elemL = e <;> by_cases c2 : f.elemR = e <;> simp only [c1, c2, if_true, if_false] <;> ring

theorem run_flip (hd : d.ns = d.dim + 2) (hnum : d.numFlux = eulerNumFlux fl d.dim γ) (hγ : 1 < γ) (h : FlippedFaces ok m m') (hm : MeshOK m)
    {norient : ℕ} (hc : Conforming d norient m) (ho : OrderOK d norient)
    (hg : FlippedGeom d m m' G G') (st : Stepper) (dt : ℝ) (U V : Coeffs ℝ) (hUV : AgreeIn d m.numElems U V) (n : ℕ)
    (hrun : RunAdmissible γ d m G st dt V n)
    (hw : fl = .HLLC → ∀ i < n, StagesHold st dt (globalRHS d m G) (WavesSpread γ d m G) ((stepOf st dt (globalRHS d m G))^[i] V)) :
    AgreeIn d m.numElems ((stepOf st dt (globalRHS d m' G'))^[n] U) ((stepOf st dt (globalRHS d m G))^[n] V) := by
  induction n with
  | zero => exact hUV
  | succ n ih =>
    rw [Function.iterate_succ_apply', Function.iterate_succ_apply']
    refine step_flux_congr st dt _ _ _ (fun U V h1 hP => rhs_flip hd hnum hγ h hm hc ho hg U V h1 hP) _ _
      (ih (fun i hi => hrun i (by omega)) fun hfl i hi => hw hfl i (by omega)) ?_
    have h1 := hrun n (by omega)
    have h2 := fun hfl => hw hfl n (by omega)
    cases st with
    | FE => exact ⟨h1, h2⟩
    | RK4 =>
      obtain ⟨p1, p2, p3, p4⟩ := h1
      exact ⟨⟨p1, fun hfl => (h2 hfl).1⟩, ⟨p2, fun hfl => (h2 hfl).2.1⟩, ⟨p3, fun hfl => (h2 hfl).2.2.1⟩,
        ⟨p4, fun hfl => (h2 hfl).2.2.2⟩⟩

theorem states_flip (h : FlippedFaces ok m m') (hm : MeshOK m) (U V : Coeffs ℝ) (hUV : AgreeIn d m.numElems U V)
    (hA : StatesAdmissible γ d m V) : StatesAdmissible γ d m' U := by
  have hvs : ∀ e < m.numElems, ∀ q, volState d U e q = volState d V e q := by
    intro e he q
    funext s
    unfold volState
    split
    · rename_i hs
      exact Finset.sum_congr rfl fun b hb => by rw [hUV e he b (Finset.mem_range.1 hb) s hs]
    · rfl
  have hts : ∀ e < m.numElems, ∀ f j, traceState d U e f j = traceState d V e f j := by
    intro e he f j
    funext s
    unfold traceState
    split
    · rename_i hs
      exact Finset.sum_congr rfl fun b hb => by rw [hUV e he b (Finset.mem_range.1 hb) s hs]
    · rfl
  constructor
  · intro e he q hq
    rw [h.numElems] at he
    rw [hvs e he]
    exact hA.vol e he q hq
  · intro f' hf' i hi
    obtain ⟨f, hf, rfl | ⟨rfl, -⟩⟩ := h.mem' hf'
    · rw [hts _ (hm.faces _ hf).1]; exact hA.left _ hf i hi
    · show Admissible d.dim γ (traceState d U f.elemR f.faceR i)
      rw [hts _ (hm.faces _ hf).2]; exact hA.right _ hf i hi
  · intro f' hf' i hi
    obtain ⟨f, hf, rfl | ⟨rfl, -⟩⟩ := h.mem' hf'
    · rw [hts _ (hm.faces _ hf).2]; exact hA.right _ hf i hi
    · show Admissible d.dim γ (traceState d U f.elemL f.faceL i)
      rw [hts _ (hm.faces _ hf).1]; exact hA.left _ hf i hi

theorem admissible_flip (hd : d.ns = d.dim + 2) (hnum : d.numFlux = eulerNumFlux fl d.dim γ) (hγ : 1 < γ)
    (h : FlippedFaces ok m m') (hm : MeshOK m) {norient : ℕ} (hc : Conforming d norient m) (ho : OrderOK d norient)
    (hg : FlippedGeom d m m' G G') (st : Stepper) (dt : ℝ) (U V : Coeffs ℝ) (hUV : AgreeIn d m.numElems U V) (n : ℕ)
    (hrun : RunAdmissible γ d m G st dt V n)
    (hw : fl = .HLLC → ∀ i < n, StagesHold st dt (globalRHS d m G) (WavesSpread γ d m G) ((stepOf st dt (globalRHS d m G))^[i] V)) :
    RunAdmissible γ d m' G' st dt U n := by
  intro i hi
  have hag := run_flip hd hnum hγ h hm hc ho hg st dt U V hUV i (fun j hj => hrun j (by omega)) fun hfl j hj => hw hfl j (by omega)
  have h1 := hrun i hi
  have h2 := fun hfl => hw hfl i hi
  generalize (stepOf st dt (globalRHS d m G))^[i] V = V' at *
  generalize (stepOf st dt (globalRHS d m' G'))^[i] U = U' at *
  cases st with
  | FE => exact states_flip h hm U' V' hag h1
  | RK4 =>
    obtain ⟨p1, p2, p3, p4⟩ := h1
    have add : ∀ (c : ℝ) (k k' : Coeffs ℝ), AgreeIn d m.numElems k k' →
        AgreeIn d m.numElems (fun e b s => U' e b s + c * k e b s) (fun e b s => V' e b s + c * k' e b s) :=
      fun c k k' hk e he b hb s hs => by
        show U' e b s + c * k e b s = V' e b s + c * k' e b s
        rw [hag e he b hb s hs, hk e he b hb s hs]
    have k2 := add (dt / 2) _ _ (rhs_flip hd hnum hγ h hm hc ho hg U' V' hag ⟨p1, fun hfl => (h2 hfl).1⟩)
    have k3 := add (dt / 2) _ _ (rhs_flip hd hnum hγ h hm hc ho hg _ _ k2 ⟨p2, fun hfl => (h2 hfl).2.1⟩)
    have k4 := add dt _ _ (rhs_flip hd hnum hγ h hm hc ho hg _ _ k3 ⟨p3, fun hfl => (h2 hfl).2.2.1⟩)
    exact ⟨states_flip h hm _ _ hag p1, states_flip h hm _ _ k2 p2, states_flip h hm _ _ k3 p3, states_flip h hm _ _ k4 p4⟩

end

/-! ### quadrilaterals -/

section
variable {ok : IFace → Prop} {m m' : GMesh ℝ}

theorem faceAt_of {g : ℕ} {f : IFace} (h : m.faces[g]? = some f) : faceAt m g = f := by
  unfold faceAt; rw [h]; rfl

theorem quadMesh_flip (h : FlippedFaces ok m m') (hq : QuadMesh m) : QuadMesh m' where
  npe := by rw [h.npe]; exact hq.npe
  det := by rw [h.numElems, h.coords]; exact hq.det
  faceL := by
    intro f' hf'
    obtain ⟨f, hf, rfl | ⟨rfl, -⟩⟩ := h.mem' hf'
    · exact hq.faceL _ hf
    · exact hq.faceR _ hf
  faceR := by
    intro f' hf'
    obtain ⟨f, hf, rfl | ⟨rfl, -⟩⟩ := h.mem' hf'
    · exact hq.faceR _ hf
    · exact hq.faceL _ hf
  sides := h.sides hq.sides
  match_ := by
    intro f' hf'
    rw [h.coords]
    obtain ⟨f, hf, rfl | ⟨rfl, -⟩⟩ := h.mem' hf'
    · exact hq.match_ _ hf
    · obtain ⟨sh, hs⟩ := hq.match_ f hf
      refine ⟨fun d => - sh d, fun s d hd => ?_⟩
      have := hs (-s) d hd
      rw [neg_neg] at this
      show quadMap (fileCoords m f.elemR) (sidePoint f.faceR s).1 (sidePoint f.faceR s).2 d =
        quadMap (fileCoords m f.elemL) (sidePoint f.faceL (-s)).1 (sidePoint f.faceL (-s)).2 d + - sh d
      rw [this]; ring

theorem quadGeom_flip (h : FlippedFaces ok m m') (hq : QuadMesh m) (t : Fam) (p : ℕ) (fl : NumericalFluxType) (γ : ℝ) :
    FlippedGeom (quadEuler t p fl γ) m m' (quadGeom t p m) (quadGeom t p m') where
  djac := by simp only [quadGeom, h.coords]
  ijac := by simp only [quadGeom, h.coords]
  iMM := by simp only [quadGeom, h.coords]
  same := by
    intro g f hf hf'
    simp only [quadGeom, h.coords, faceAt_of hf, faceAt_of hf']
  back := by
    intro g f hf hf'
    refine .inr fun iq _ j _ => ?_
    simp only [quadGeom, h.coords, faceAt_of hf, faceAt_of hf']
    exact hq.normals (List.mem_of_getElem? hf) j

theorem quadInit_flip (h : FlippedFaces ok m m') (t : Fam) (p : ℕ) (ic : (ℕ → ℝ) → ℕ → ℝ) :
    quadInit t p m' ic = quadInit t p m ic := by
  unfold quadInit; rw [h.coords]

/-! ### hexahedra -/

theorem hexMesh_flip (h : FlippedFaces ok m m') (hq : HexMesh m) : HexMesh m' where
  npe := by rw [h.npe]; exact hq.npe
  det := by rw [h.numElems, h.coords]; exact hq.det
  faceL := by
    intro f' hf'
    obtain ⟨f, hf, rfl | ⟨rfl, -⟩⟩ := h.mem' hf'
    · exact hq.faceL _ hf
    · exact hq.faceR _ hf
  faceR := by
    intro f' hf'
    obtain ⟨f, hf, rfl | ⟨rfl, -⟩⟩ := h.mem' hf'
    · exact hq.faceR _ hf
    · exact hq.faceL _ hf
  sides := h.sides hq.sides
  opposite := by
    intro f' hf'
    obtain ⟨f, hf, rfl | ⟨rfl, -⟩⟩ := h.mem' hf'
    · exact hq.opposite _ hf
    · have := hq.opposite _ hf
      show f.orientR < 4 ↔ 4 ≤ f.orientL
      omega
  match_ := by
    intro f' hf'
    rw [h.coords]
    obtain ⟨f, hf, rfl | ⟨rfl, -⟩⟩ := h.mem' hf'
    · exact hq.match_ _ hf
    · obtain ⟨sh, hs⟩ := hq.match_ f hf
      refine ⟨fun d => - sh d, fun s d hd => ?_⟩
      have := hs s d hd
      show hexMap (fileCoords m f.elemR) (facePoint f.faceR (turn f.orientR s)) d =
        hexMap (fileCoords m f.elemL) (facePoint f.faceL (turn f.orientL s)) d + - sh d
      rw [this]; ring

/-- the left side of the face is a parallelogram -/
def FlatLeft (m : GMesh ℝ) (f : IFace) : Prop := FlatFace (fileCoords m f.elemL) f.faceL

theorem hexGeom_flip (h : FlippedFaces (FlatLeft m) m m') (hq : HexMesh m) (t : Fam) (p : ℕ) (fl : NumericalFluxType) (γ : ℝ) :
    FlippedGeom (hexEuler t p fl γ) m m' (hexGeom t p m) (hexGeom t p m') where
  djac := by simp only [hexGeom, h.coords]
  ijac := by simp only [hexGeom, h.coords]
  iMM := by simp only [hexGeom, h.coords]
  same := by
    intro g f hf hf'
    simp only [hexGeom, h.coords, faceAt_of hf, faceAt_of hf']
  back := by
    intro g f hf hf'
    obtain ⟨f'', h1, h2⟩ := h.get hf
    rw [hf'] at h1
    obtain rfl : f.flip = f'' := Option.some.inj h1
    rcases h2 with h2 | ⟨-, hok⟩
    · exact .inl (by rw [hf', h2])
    refine .inr fun iq _ j hj => ?_
    simp only [hexGeom, h.coords, faceAt_of hf, faceAt_of hf']
    have hmem := List.mem_of_getElem? hf
    obtain ⟨sh, hs⟩ := hq.match_ f hmem
    exact flat_normals (hq.faceL f hmem).1 (hq.faceR f hmem).1 (hq.faceL f hmem).2 (hq.faceR f hmem).2 (hq.opposite f hmem)
      hok sh hs _ _ j hj

theorem hexInit_flip (h : FlippedFaces ok m m') (t : Fam) (p : ℕ) (ic : (ℕ → ℝ) → ℕ → ℝ) :
    hexInit t p m' ic = hexInit t p m ic := by
  unfold hexInit; rw [h.coords]

end

/-! ### the scheme -/

/-- **C74** (scheme, quadrilaterals).  Flipping any faces of the mesh changes no coefficient of the run - with the HLLC
flux provided its estimated waves never cross. -/
theorem C74_run_quad {m m' : GMesh ℝ} (hs : FlippedFaces (fun _ => True) m m') (hm : MeshOK m) (hq : QuadMesh m) (t : Fam) (p : ℕ)
    (ph : Physics) (hγ : 1 < ph.γ) (start : (ℕ → ℝ) → ℕ → ℝ) (st : Stepper) (dt : ℝ) (n : ℕ)
    (hrun : RunAdmissible ph.γ (quadEuler t p ph.ftype ph.γ) m (quadGeom t p m) st dt (quadInit t p m start) n)
    (hw : ph.ftype = .HLLC → ∀ i < n, StagesHold st dt (globalRHS (quadEuler t p ph.ftype ph.γ) m (quadGeom t p m))
      (WavesSpread ph.γ (quadEuler t p ph.ftype ph.γ) m (quadGeom t p m)) (quadRun t p m ph start st dt i)) :
    ∀ e < m.numElems, ∀ b < (p + 1) * (p + 1), ∀ s < 4,
      quadRun t p m' ph start st dt n e b s = quadRun t p m ph start st dt n e b s := by
  unfold quadRun at *
  exact run_flip rfl rfl hγ hs hm (hq.conforming t p 4 _ _) (quadDisc_order t p 4 _ _)
    (quadGeom_flip hs hq t p ph.ftype ph.γ) st dt _ _ (by rw [quadInit_flip hs]; exact fun _ _ _ _ _ _ => rfl) n hrun hw

/-- **C74** (scheme, hexahedra).  The flipped faces must be parallelograms (see C17). -/
theorem C74_run_hex {m m' : GMesh ℝ} (hs : FlippedFaces (FlatLeft m) m m') (hm : MeshOK m) (hq : HexMesh m) (t : Fam) (p : ℕ)
    (ph : Physics) (hγ : 1 < ph.γ) (start : (ℕ → ℝ) → ℕ → ℝ) (st : Stepper) (dt : ℝ) (n : ℕ)
    (hrun : RunAdmissible ph.γ (hexEuler t p ph.ftype ph.γ) m (hexGeom t p m) st dt (hexInit t p m start) n)
    (hw : ph.ftype = .HLLC → ∀ i < n, StagesHold st dt (globalRHS (hexEuler t p ph.ftype ph.γ) m (hexGeom t p m))
      (WavesSpread ph.γ (hexEuler t p ph.ftype ph.γ) m (hexGeom t p m)) (hexRun t p m ph start st dt i)) :
    ∀ e < m.numElems, ∀ b < (p + 1) * (p + 1) * (p + 1), ∀ s < 5,
      hexRun t p m' ph start st dt n e b s = hexRun t p m ph start st dt n e b s := by
  unfold hexRun at *
  exact run_flip rfl rfl hγ hs hm (hq.conforming t p 5 _ _) (hexDisc_order t p 5 _ _)
    (hexGeom_flip hs hq t p ph.ftype ph.γ) st dt _ _ (by rw [hexInit_flip hs]; exact fun _ _ _ _ _ _ => rfl) n hrun hw

/-! ### the executable -/

/-- **C74** (inputs, quadrilaterals).  If the program accepts and completes the run on `m` (`QuadRunOK`, C67), it does the
same with the mesh file of `m'`. -/
theorem C74_accepts_quad {deck deck' : Deck} {fs fs' : String → List String → Option (MeshFile ℝ)}
    {m m' : GMesh ℝ} {t : Fam} {p : ℕ} {ph : Physics} {start : (ℕ → ℝ) → ℕ → ℝ} {st : StepperType} {dt T : ℝ}
    {n : ℕ} (h : QuadRunOK deck fs m t p ph start st dt T n) (hs : FlippedFaces (fun _ => True) m m')
    (hw : ph.ftype = .HLLC → ∀ i < n, StagesHold st.scheme dt (globalRHS (quadEuler t p ph.ftype ph.γ) m (quadGeom t p m))
      (WavesSpread ph.γ (quadEuler t p ph.ftype ph.γ) m (quadGeom t p m)) (quadRun t p m ph start st.scheme dt i))
    (asks' : DeckAsks deck' 2 p (quadType t) ph st dt T)
    (file' : ∃ name mf, deck'.meshFile = some name ∧ fs' name deck'.boundaries = some mf ∧ MeshFileOf m' 2 mf) :
    QuadRunOK deck' fs' m' t p ph start st dt T n where
  asks := asks'
  file := file'
  mesh := hs.meshOK h.mesh
  quads := quadMesh_flip hs h.quads
  sides := by
    have := h.sides
    unfold SidesNonzero at *
    rw [hs.coords, hs.numElems]; exact this
  used := by
    have := h.used
    unfold AllNodesUsed at *
    rw [hs.coord, hs.eind]; exact this
  nodes := by rw [hs.coord]; exact h.nodes
  order := h.order
  gas := h.gas
  startOK := h.startOK
  step := h.step
  before := h.before
  after := h.after
  count := h.count
  admissible := admissible_flip rfl rfl h.gas hs h.mesh (h.quads.conforming t p 4 _ _) (quadDisc_order t p 4 _ _)
    (quadGeom_flip hs h.quads t p ph.ftype ph.γ) st.scheme dt _ _
    (by rw [quadInit_flip hs]; exact fun _ _ _ _ _ _ => rfl) n h.admissible hw

/-- **C74** (inputs, hexahedra). -/
theorem C74_accepts_hex {deck deck' : Deck} {fs fs' : String → List String → Option (MeshFile ℝ)}
    {m m' : GMesh ℝ} {t : Fam} {p : ℕ} {ph : Physics} {start : (ℕ → ℝ) → ℕ → ℝ} {st : StepperType} {dt T : ℝ}
    {n : ℕ} (h : HexRunOK deck fs m t p ph start st dt T n) (hs : FlippedFaces (FlatLeft m) m m')
    (hw : ph.ftype = .HLLC → ∀ i < n, StagesHold st.scheme dt (globalRHS (hexEuler t p ph.ftype ph.γ) m (hexGeom t p m))
      (WavesSpread ph.γ (hexEuler t p ph.ftype ph.γ) m (hexGeom t p m)) (hexRun t p m ph start st.scheme dt i))
    (asks' : DeckAsks deck' 3 p (hexType t) ph st dt T)
    (file' : ∃ name mf, deck'.meshFile = some name ∧ fs' name deck'.boundaries = some mf ∧ MeshFileOf m' 3 mf) :
    HexRunOK deck' fs' m' t p ph start st dt T n where
  asks := asks'
  file := file'
  mesh := hs.meshOK h.mesh
  hexes := hexMesh_flip hs h.hexes
  areas := by
    have := h.areas
    unfold FacesNonzero at *
    rw [hs.coords, hs.numElems]; exact this
  used := by
    have := h.used
    unfold AllNodesUsed at *
    rw [hs.coord, hs.eind]; exact this
  nodes := by rw [hs.coord]; exact h.nodes
  order := h.order
  small := h.small
  gas := h.gas
  startOK := h.startOK
  step := h.step
  before := h.before
  after := h.after
  count := h.count
  admissible := admissible_flip rfl rfl h.gas hs h.mesh (h.hexes.conforming t p 5 _ _) (hexDisc_order t p 5 _ _)
    (hexGeom_flip hs h.hexes t p ph.ftype ph.γ) st.scheme dt _ _
    (by rw [hexInit_flip hs]; exact fun _ _ _ _ _ _ => rfl) n h.admissible hw

theorem serialFile_congr {m m' : GMesh ℝ} {d nb ns : ℕ} {T : ℝ} {V V' : Coeffs ℝ} (hne : m'.numElems = m.numElems)
    (hnpe : m'.npe = m.npe) (hei : m'.eind = m.eind) (hco : m'.coord = m.coord)
    (h : ∀ e < m.numElems, ∀ b < nb, ∀ s < ns, V' e b s = V e b s) :
    serialFile m' d nb ns T V' = serialFile m d nb ns T V := by
  have hrow : (List.range m.numElems).map (coeffRow nb ns V') = (List.range m.numElems).map (coeffRow nb ns V) := by
    refine List.map_congr_left fun e he => ?_
    unfold coeffRow
    refine List.map_congr_left fun q hq => ?_
    have hq := List.mem_range.1 hq
    have hns : 0 < ns := by
      rcases Nat.eq_zero_or_pos ns with rfl | h0
      · simp at hq
      · exact h0
    exact h e (List.mem_range.1 he) _ ((Nat.div_lt_iff_lt_mul hns).2 hq) _ (Nat.mod_lt _ hns)
  unfold serialFile serialSets
  rw [hne, hnpe, hei, hco, hrow]

/-- **C74** (executable, quadrilaterals).  Two complete runs of the executable, on any numbers of ranks, partitions and
schedules, with input files that ask for the same run on two meshes that differ in which element of a face comes first (so
also in the directions of the normals, in what each rank calls left and right, and in the faces a rank owns): the
converted solution files are identical - with the HLLC flux provided its estimated waves never cross. -/
theorem C74_program_quad {deck deck' : Deck} {fs fs' : String → List String → Option (MeshFile ℝ)}
    {m m' : GMesh ℝ} {t : Fam} {p : ℕ} {ph : Physics} {start : (ℕ → ℝ) → ℕ → ℝ} {st : StepperType} {dt T : ℝ}
    {n : ℕ} (h : QuadRunOK deck fs m t p ph start st dt T n) (hs : FlippedFaces (fun _ => True) m m')
    (hw : ph.ftype = .HLLC → ∀ i < n, StagesHold st.scheme dt (globalRHS (quadEuler t p ph.ftype ph.γ) m (quadGeom t p m))
      (WavesSpread ph.γ (quadEuler t p ph.ftype ph.γ) m (quadGeom t p m)) (quadRun t p m ph start st.scheme dt i))
    (asks' : DeckAsks deck' 2 p (quadType t) ph st dt T)
    (file' : ∃ name mf, deck'.meshFile = some name ∧ fs' name deck'.boundaries = some mf ∧ MeshFileOf m' 2 mf)
    (nr nr' : ℕ) (part part' : List ℕ) (env env' : ℕ → RankEnv) (hl : LaunchOK m nr part env)
    (hl' : LaunchOK m' nr' part' env') (un un' : Unset)
    (sched sched' : ℕ → ℕ → List (FluxWrite ℝ) → List (FluxWrite ℝ)) (hsc : ∀ r k l, (sched r k l).Perm l)
    (hsc' : ∀ r k l, (sched' r k l).Perm l) (ord ord' : ℕ → List ℕ) (ho : ∀ i, (ord i).Perm (List.range nr))
    (ho' : ∀ i, (ord' i).Perm (List.range nr')) (job job' : Job) (ranks ranks' : ℕ → RankReady)
    (hj : readJob deck fs un 2 nr = some job) (hj' : readJob deck' fs' un' 2 nr' = some job')
    (hr : ∀ r < nr, readyRank job un 2 nr (env r) r = some (ranks r))
    (hr' : ∀ r < nr', readyRank job' un' 2 nr' (env' r) r = some (ranks' r))
    (c c' : LoopConf) (k k' : ℕ) (hx : Proto.Exec (jobProg job ranks nr sched) (jobInit job ranks) c k)
    (hx' : Proto.Exec (jobProg job' ranks' nr' sched') (jobInit job' ranks') c' k')
    (hd : LoopDone job nr c) (hd' : LoopDone job' nr' c') :
    ∃ f f' g, jobFile job ranks 2 nr ord c = some f ∧ jobFile job' ranks' 2 nr' ord' c' = some f' ∧
      convert nr f = some g ∧ convert nr' f' = some g := by
  have h' := C74_accepts_quad h hs hw asks' file'
  obtain ⟨-, j, a1, -, a2⟩ := C67_program_quad deck fs m t p ph start st dt T n h nr part env hl un sched hsc ord ho
  obtain ⟨-, j', b1, -, b2⟩ := C67_program_quad deck' fs' m' t p ph start st dt T n h' nr' part' env' hl' un' sched'
    hsc' ord' ho'
  rw [hj] at a1; cases a1
  rw [hj'] at b1; cases b1
  obtain ⟨f, g, x1, x2, x3, -⟩ := (a2 ranks hr c k hx).2.2 hd
  obtain ⟨f', g', y1, y2, y3, -⟩ := (b2 ranks' hr' c' k' hx').2.2 hd'
  refine ⟨f, f', g, x1, y1, x2, ?_⟩
  rw [y2, x3, y3]
  exact congrArg some (serialFile_congr hs.numElems hs.npe hs.eind hs.coord
    (C74_run_quad hs h.mesh h.quads t p ph h.gas start st.scheme dt n h.admissible hw))

/-- **C74** (executable, hexahedra).  The flipped faces must be parallelograms. -/
theorem C74_program_hex {deck deck' : Deck} {fs fs' : String → List String → Option (MeshFile ℝ)}
    {m m' : GMesh ℝ} {t : Fam} {p : ℕ} {ph : Physics} {start : (ℕ → ℝ) → ℕ → ℝ} {st : StepperType} {dt T : ℝ}
    {n : ℕ} (h : HexRunOK deck fs m t p ph start st dt T n) (hs : FlippedFaces (FlatLeft m) m m')
    (hw : ph.ftype = .HLLC → ∀ i < n, StagesHold st.scheme dt (globalRHS (hexEuler t p ph.ftype ph.γ) m (hexGeom t p m))
      (WavesSpread ph.γ (hexEuler t p ph.ftype ph.γ) m (hexGeom t p m)) (hexRun t p m ph start st.scheme dt i))
    (asks' : DeckAsks deck' 3 p (hexType t) ph st dt T)
    (file' : ∃ name mf, deck'.meshFile = some name ∧ fs' name deck'.boundaries = some mf ∧ MeshFileOf m' 3 mf)
    (nr nr' : ℕ) (part part' : List ℕ) (env env' : ℕ → RankEnv) (hl : LaunchOK m nr part env)
    (hl' : LaunchOK m' nr' part' env') (hc : CutFlat m part) (hc' : CutFlat m' part') (un un' : Unset)
    (sched sched' : ℕ → ℕ → List (FluxWrite ℝ) → List (FluxWrite ℝ)) (hsc : ∀ r k l, (sched r k l).Perm l)
    (hsc' : ∀ r k l, (sched' r k l).Perm l) (ord ord' : ℕ → List ℕ) (ho : ∀ i, (ord i).Perm (List.range nr))
    (ho' : ∀ i, (ord' i).Perm (List.range nr')) (job job' : Job) (ranks ranks' : ℕ → RankReady)
    (hj : readJob deck fs un 3 nr = some job) (hj' : readJob deck' fs' un' 3 nr' = some job')
    (hr : ∀ r < nr, readyRank job un 3 nr (env r) r = some (ranks r))
    (hr' : ∀ r < nr', readyRank job' un' 3 nr' (env' r) r = some (ranks' r))
    (c c' : LoopConf) (k k' : ℕ) (hx : Proto.Exec (jobProg job ranks nr sched) (jobInit job ranks) c k)
    (hx' : Proto.Exec (jobProg job' ranks' nr' sched') (jobInit job' ranks') c' k')
    (hd : LoopDone job nr c) (hd' : LoopDone job' nr' c') :
    ∃ f f' g, jobFile job ranks 3 nr ord c = some f ∧ jobFile job' ranks' 3 nr' ord' c' = some f' ∧
      convert nr f = some g ∧ convert nr' f' = some g := by
  have h' := C74_accepts_hex h hs hw asks' file'
  obtain ⟨-, j, a1, -, a2⟩ := C67_program_hex deck fs m t p ph start st dt T n h nr part env hl hc un sched hsc ord ho
  obtain ⟨-, j', b1, -, b2⟩ := C67_program_hex deck' fs' m' t p ph start st dt T n h' nr' part' env' hl' hc' un' sched'
    hsc' ord' ho'
  rw [hj] at a1; cases a1
  rw [hj'] at b1; cases b1
  obtain ⟨f, g, x1, x2, x3, -⟩ := (a2 ranks hr c k hx).2.2 hd
  obtain ⟨f', g', y1, y2, y3, -⟩ := (b2 ranks' hr' c' k' hx').2.2 hd'
  refine ⟨f, f', g, x1, y1, x2, ?_⟩
  rw [y2, x3, y3]
  exact congrArg some (serialFile_congr hs.numElems hs.npe hs.eind hs.coord
    (C74_run_hex hs h.mesh h.hexes t p ph h.gas start st.scheme dt n h.admissible hw))

end DG
