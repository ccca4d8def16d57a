import Verif.Lemmas.Frame

/-! The discontinuous Galerkin scheme in another frame. -/
namespace DG
open Finset

variable {dim : ℕ}

/-- what a face contributes, with its normal given directly -/
noncomputable def faceTermN (d : Disc ℝ) (N : ℕ → ℕ → ℝ) (U : Coeffs ℝ) (e b s : ℕ) (f : IFace) : ℝ :=
  ∑ iq ∈ range d.nqf,
    ((if f.elemR = e then d.faceBasis f.faceR (d.ptsOrder f.orientR iq) b else 0) -
     (if f.elemL = e then d.faceBasis f.faceL (d.ptsOrder f.orientL iq) b else 0)) *
    (d.numFlux (traceState d U f.elemL f.faceL (d.ptsOrder f.orientL iq))
      (traceState d U f.elemR f.faceR (d.ptsOrder f.orientR iq)) (cArr d.dim (N iq)) s * d.faceWts iq)

theorem sum_zipIdx_faces {β : Type} (l : List β) (h : β → ℝ) (k : ℕ → β → ℝ) (n : ℕ)
    (hk : ∀ g f, l[g]? = some f → k (n + g) f = h f) :
    ((l.zipIdx n).map fun x => k x.2 x.1).sum = (l.map h).sum := by
  induction l generalizing n with
  | nil => rfl
  | cons a l ih =>
    simp only [List.zipIdx_cons, List.map_cons, List.sum_cons]
    rw [ih (n + 1) fun g f hg => by
      have := hk (g + 1) f (by simpa using hg)
      rw [← this]; congr 1; omega]
    congr 1
    simpa using hk 0 a (by simp)

/-- The geometries `G`, `G'` of two meshes are the same up to a change of frame; `N f` is the normal of the face `f`. -/
structure SameGeom (F : Frame dim) (σ : ℕ → ℕ) (d : Disc ℝ) (m m' : GMesh ℝ) (G G' : Geom ℝ)
    (N N' : IFace → ℕ → ℕ → ℝ) : Prop where
  djac : ∀ e < m.numElems, ∀ q < d.nq, G'.djac (σ e) q = F.len ^ dim * G.djac e q
  ijac : ∀ e < m.numElems, ∀ q < d.nq, ∀ i < dim, ∀ j < dim,
    G'.ijac (σ e) q i j = F.len⁻¹ * F.turn (G.ijac e q i) j
  iMM : ∀ e < m.numElems, ∀ b < d.nb, ∀ j < d.nb, G'.iMM (σ e) b j = (F.len ^ dim)⁻¹ * G.iMM e b j
  normals : ∀ (g : ℕ) (f : IFace), m.faces[g]? = some f → ∀ iq j, G.normals g iq j = N f iq j
  normals' : ∀ (g : ℕ) (f : IFace), m'.faces[g]? = some f → ∀ iq j, G'.normals g iq j = N' f iq j
  turn : ∀ f ∈ m.faces, ∀ iq < d.nqf, ∀ j < dim, N' (f.relabel σ) iq j = F.len ^ (dim - 1) * F.turn (N f iq) j

/-- the discretisation of the Euler equations -/
structure EulerDisc (dim : ℕ) (f : NumericalFluxType) (γ : ℝ) (d : Disc ℝ) : Prop where
  dim_eq : d.dim = dim
  ns_eq : d.ns = dim + 2
  vol : d.volFlux = eulerDirFlux dim γ
  num : d.numFlux = eulerNumFlux f dim γ

/-- The coefficients `U'` are those of `U` in the new frame. -/
def SameCoeffs (F : Frame dim) (σ : ℕ → ℕ) (ne nb : ℕ) (U U' : Coeffs ℝ) : Prop :=
  ∀ e < ne, ∀ b < nb, ∀ s < dim + 2, U' (σ e) b s = F.state (U e b) s

/-- the flux is linear in the normal -/
theorem eulerFlux_axes (γ : ℝ) (U N : ℕ → ℝ) (s : ℕ) :
    ∑ j ∈ range dim, eulerFlux dim γ U (axis j) s * N j = eulerFlux dim γ U N s := by
  have hin : ∀ j ∈ range dim, inner' dim (vel U) (axis j) = vel U j := by
    intro j hj
    unfold inner' axis
    rw [sum_eq_single j]
    · simp
    · intro i _ hne; simp [hne]
    · intro h; exact absurd hj h
  unfold eulerFlux
  split_ifs with h1 h2
  · have : ∀ j ∈ range dim, U 0 * inner' dim (vel U) (axis j) * N j = U 0 * (vel U j * N j) := by
      intro j hj; rw [hin j hj]; ring
    rw [sum_congr rfl this, ← mul_sum]; rfl
  · have : ∀ j ∈ range dim, (U s * inner' dim (vel U) (axis j) + pressure dim γ U * axis j (s - 1)) * N j =
        U s * (vel U j * N j) + pressure dim γ U * (axis j (s - 1) * N j) := by
      intro j hj; rw [hin j hj]; ring
    rw [sum_congr rfl this, sum_add_distrib, ← mul_sum, ← mul_sum]
    congr 2
    unfold axis
    rw [sum_eq_single (s - 1)]
    · simp
    · intro i _ hne; rw [if_neg (Ne.symm hne), zero_mul]
    · intro h; exact absurd (mem_range.2 (by omega)) h
  · have : ∀ j ∈ range dim, (U (dim + 1) + pressure dim γ U) * inner' dim (vel U) (axis j) * N j =
        (U (dim + 1) + pressure dim γ U) * (vel U j * N j) := by
      intro j hj; rw [hin j hj]; ring
    rw [sum_congr rfl this, ← mul_sum]; rfl

theorem eulerFlux_congr_normal (γ : ℝ) (U : ℕ → ℝ) {N N' : ℕ → ℝ} (h : ∀ j < dim, N j = N' j) (s : ℕ) :
    eulerFlux dim γ U N s = eulerFlux dim γ U N' s := by
  rw [← eulerFlux_axes γ U N s, ← eulerFlux_axes γ U N' s]
  exact sum_congr rfl fun j hj => by rw [h j (mem_range.1 hj)]

section
variable {F : Frame dim} {σ : ℕ → ℕ} {m m' : GMesh ℝ} {d : Disc ℝ} {fl : NumericalFluxType} {γ : ℝ} {U U' : Coeffs ℝ}

theorem volState_frame (hd : EulerDisc dim fl γ d) (hU : SameCoeffs F σ m.numElems d.nb U U') {e : ℕ}
    (he : e < m.numElems) (q : ℕ) : volState d U' (σ e) q = F.state (volState d U e q) := by
  have e1 : F.state (volState d U e q) = F.state fun s => ∑ b ∈ range d.nb, d.volBasis q b * U e b s :=
    F.state_congr fun s hs => by unfold volState; rw [if_pos (by rw [hd.ns_eq]; exact hs)]
  rw [e1]
  funext s
  rw [F.state_sum (range d.nb) (fun b s => d.volBasis q b * U e b s)]
  unfold volState
  rw [hd.ns_eq]
  split_ifs with hs
  · exact sum_congr rfl fun b hb => by rw [hU e he b (mem_range.1 hb) s hs, F.state_smul]
  · symm
    apply sum_eq_zero
    intro b _
    unfold Frame.state
    rw [if_neg (by omega), if_neg (by omega), if_neg (by omega)]

theorem traceState_frame (hd : EulerDisc dim fl γ d) (hU : SameCoeffs F σ m.numElems d.nb U U') {e : ℕ}
    (he : e < m.numElems) (k j : ℕ) : traceState d U' (σ e) k j = F.state (traceState d U e k j) := by
  have e1 : F.state (traceState d U e k j) = F.state fun s => ∑ b ∈ range d.nb, d.faceBasis k j b * U e b s :=
    F.state_congr fun s hs => by unfold traceState; rw [if_pos (by rw [hd.ns_eq]; exact hs)]
  rw [e1]
  funext s
  rw [F.state_sum (range d.nb) (fun b s => d.faceBasis k j b * U e b s)]
  unfold traceState
  rw [hd.ns_eq]
  split_ifs with hs
  · exact sum_congr rfl fun b hb => by rw [hU e he b (mem_range.1 hb) s hs, F.state_smul]
  · symm
    apply sum_eq_zero
    intro b _
    unfold Frame.state
    rw [if_neg (by omega), if_neg (by omega), if_neg (by omega)]

variable {G G' : Geom ℝ} {N N' : IFace → ℕ → ℕ → ℝ}

theorem volumeTerm_frame (hdim : 0 < dim) (hd : EulerDisc dim fl γ d) (hg : SameGeom F σ d m m' G G' N N')
    (hU : SameCoeffs F σ m.numElems d.nb U U') {e : ℕ} (he : e < m.numElems) (b : ℕ) {s : ℕ} (hs : s < dim + 2) :
    volumeTerm d G' U' (σ e) b s =
      F.len ^ (dim - 1) * F.speed * F.state (fun s => volumeTerm d G U e b s) s := by
  have hl := F.len_pos
  have inner : ∀ (V : ℕ → ℝ) (I : ℕ → ℝ) (D w : ℝ) (s : ℕ), s < dim + 2 →
      ∑ j ∈ range dim, eulerDirFlux dim γ V (j * (dim + 2) + s) * I j * D * w = D * w * eulerFlux dim γ V I s := by
    intro V I D w s hs
    rw [← eulerFlux_axes γ V I s, mul_sum]
    refine sum_congr rfl fun j _ => ?_
    unfold eulerDirFlux
    rw [show (j * (dim + 2) + s) / (dim + 2) = j by
      rw [mul_comm, Nat.mul_add_div (by omega), Nat.div_eq_of_lt hs, Nat.add_zero],
      show (j * (dim + 2) + s) % (dim + 2) = s by
      rw [mul_comm, Nat.mul_add_mod, Nat.mod_eq_of_lt hs]]
    ring
  have e1 : F.state (fun s => volumeTerm d G U e b s) = F.state fun s => ∑ q ∈ range d.nq, ∑ i ∈ range dim,
      d.volGrad q b i * (G.djac e q * d.volWts q) * eulerFlux dim γ (volState d U e q) (G.ijac e q i) s := by
    refine F.state_congr fun s hs => ?_
    unfold volumeTerm
    rw [hd.dim_eq, hd.ns_eq, hd.vol]
    refine sum_congr rfl fun q _ => sum_congr rfl fun i _ => ?_
    rw [inner _ _ _ _ _ hs]; ring
  rw [e1, F.state_sum (range d.nq) fun q s => ∑ i ∈ range dim,
      d.volGrad q b i * (G.djac e q * d.volWts q) * eulerFlux dim γ (volState d U e q) (G.ijac e q i) s]
  unfold volumeTerm
  rw [hd.dim_eq, hd.ns_eq, hd.vol, mul_sum]
  refine sum_congr rfl fun q hq => ?_
  rw [F.state_sum (range dim) fun i s => d.volGrad q b i * (G.djac e q * d.volWts q) *
    eulerFlux dim γ (volState d U e q) (G.ijac e q i) s, mul_sum]
  refine sum_congr rfl fun i hi => ?_
  rw [F.state_smul (d.volGrad q b i * (G.djac e q * d.volWts q)) (eulerFlux dim γ (volState d U e q) (G.ijac e q i)),
    volState_frame hd hU he]
  have e2 : ∀ j ∈ range dim, eulerDirFlux dim γ (F.state (volState d U e q)) (j * (dim + 2) + s) * G'.ijac (σ e) q i j *
      G'.djac (σ e) q * d.volWts q = eulerDirFlux dim γ (F.state (volState d U e q)) (j * (dim + 2) + s) *
      (fun j => F.len⁻¹ * F.turn (G.ijac e q i) j) j * (F.len ^ dim * G.djac e q) * d.volWts q := by
    intro j hj
    rw [hg.ijac e he q (mem_range.1 hq) i (mem_range.1 hi) j (mem_range.1 hj), hg.djac e he q (mem_range.1 hq)]
  rw [sum_congr rfl e2, inner _ _ _ _ _ hs, F.eulerFlux_state γ F.len⁻¹ _ _ hs]
  have e3 : F.len ^ dim * F.len⁻¹ = F.len ^ (dim - 1) := by
    obtain ⟨k, rfl⟩ : ∃ k, dim = k + 1 := ⟨dim - 1, by omega⟩
    rw [pow_succ, Nat.add_sub_cancel]; field_simp
  rw [← e3]; ring

theorem faceTerm_frame (hd : EulerDisc dim fl γ d) (hg : SameGeom F σ d m m' G G' N N') (hs' : SameMesh F σ m m')
    (hm : MeshOK m) (hU : SameCoeffs F σ m.numElems d.nb U U') {e : ℕ} (he : e < m.numElems) (b : ℕ) {s : ℕ}
    (hs : s < dim + 2) {f : IFace} (hf : f ∈ m.faces) :
    faceTermN d (N' (f.relabel σ)) U' (σ e) b s (f.relabel σ) =
      F.len ^ (dim - 1) * F.speed * F.state (fun s => faceTermN d (N f) U e b s f) s := by
  have hl := F.len_pos
  obtain ⟨hL, hR⟩ := hm.faces f hf
  have iL : (σ f.elemL = σ e) ↔ f.elemL = e := ⟨fun h => hs'.inj _ hL _ he h, fun h => by rw [h]⟩
  have iR : (σ f.elemR = σ e) ↔ f.elemR = e := ⟨fun h => hs'.inj _ hR _ he h, fun h => by rw [h]⟩
  unfold faceTermN
  rw [F.state_sum (range d.nqf) fun iq s =>
    ((if f.elemR = e then d.faceBasis f.faceR (d.ptsOrder f.orientR iq) b else 0) -
     (if f.elemL = e then d.faceBasis f.faceL (d.ptsOrder f.orientL iq) b else 0)) *
    (d.numFlux (traceState d U f.elemL f.faceL (d.ptsOrder f.orientL iq))
      (traceState d U f.elemR f.faceR (d.ptsOrder f.orientR iq)) (cArr d.dim (N f iq)) s * d.faceWts iq), mul_sum]
  refine sum_congr rfl fun iq hiq => ?_
  have e1 : cArr d.dim (N' (f.relabel σ) iq) = fun j => F.len ^ (dim - 1) * F.turn (cArr d.dim (N f iq)) j := by
    funext j
    have e2 : F.turn (cArr d.dim (N f iq)) = F.turn (N f iq) :=
      F.turn_congr fun j hj => by unfold cArr; rw [if_pos (by rw [hd.dim_eq]; exact hj)]
    rw [e2]
    unfold cArr
    rw [hd.dim_eq]
    split_ifs with hj
    · exact hg.turn f hf iq (mem_range.1 hiq) j hj
    · unfold Frame.turn; rw [if_neg hj, mul_zero]
  have e3 : F.state (fun s =>
    ((if f.elemR = e then d.faceBasis f.faceR (d.ptsOrder f.orientR iq) b else 0) -
     (if f.elemL = e then d.faceBasis f.faceL (d.ptsOrder f.orientL iq) b else 0)) *
    (d.numFlux (traceState d U f.elemL f.faceL (d.ptsOrder f.orientL iq))
      (traceState d U f.elemR f.faceR (d.ptsOrder f.orientR iq)) (cArr d.dim (N f iq)) s * d.faceWts iq)) s =
    ((if f.elemR = e then d.faceBasis f.faceR (d.ptsOrder f.orientR iq) b else 0) -
     (if f.elemL = e then d.faceBasis f.faceL (d.ptsOrder f.orientL iq) b else 0)) * d.faceWts iq *
    F.state (eulerNumFlux fl dim γ (traceState d U f.elemL f.faceL (d.ptsOrder f.orientL iq))
      (traceState d U f.elemR f.faceR (d.ptsOrder f.orientR iq)) (cArr d.dim (N f iq))) s := by
    rw [← F.state_smul, hd.num]
    congr 1
    funext k; ring
  rw [e3, e1]
  simp only [IFace.relabel, iL, iR]
  rw [traceState_frame hd hU hL, traceState_frame hd hU hR, hd.num, F.numFlux_state fl γ (pow_pos hl _) _ _ _ hs]
  ring

theorem faceTerm_eq (d : Disc ℝ) (G : Geom ℝ) (U : Coeffs ℝ) (e b s g : ℕ) (f : IFace) (N : ℕ → ℕ → ℝ)
    (h : ∀ iq j, G.normals g iq j = N iq j) : faceTerm d G U e b s g f = faceTermN d N U e b s f := by
  have : G.normals g = N := by funext iq j; exact h iq j
  unfold faceTerm faceTermN meshFlux
  rw [this]

theorem rhs_frame (hdim : 0 < dim) (hd : EulerDisc dim fl γ d) (hg : SameGeom F σ d m m' G G' N N')
    (hs' : SameMesh F σ m m') (hm : MeshOK m) (hU : SameCoeffs F σ m.numElems d.nb U U') {e : ℕ} (he : e < m.numElems)
    {b : ℕ} (hb : b < d.nb) {s : ℕ} (hs : s < dim + 2) :
    globalRHS d m' G' U' (σ e) b s = F.speed / F.len * F.state (globalRHS d m G U e b) s := by
  have hl := F.len_pos
  have hres : ∀ j, globalResidual d m' G' U' (σ e) j s =
      F.len ^ (dim - 1) * F.speed * F.state (fun s => globalResidual d m G U e j s) s := by
    intro j
    have eF : ∀ s, (m.faces.zipIdx.map fun x => faceTerm d G U e j s x.2 x.1).sum =
        (m.faces.map fun f => faceTermN d (N f) U e j s f).sum := fun s =>
      sum_zipIdx_faces m.faces _ (fun g f => faceTerm d G U e j s g f) 0 fun g f hgf => by
        rw [Nat.zero_add]; exact faceTerm_eq d G U e j s g f (N f) (hg.normals g f hgf)
    have eF' : (m'.faces.zipIdx.map fun x => faceTerm d G' U' (σ e) j s x.2 x.1).sum =
        (m.faces.map fun f => faceTermN d (N' (f.relabel σ)) U' (σ e) j s (f.relabel σ)).sum := by
      rw [sum_zipIdx_faces m'.faces (fun f => faceTermN d (N' f) U' (σ e) j s f)
        (fun g f => faceTerm d G' U' (σ e) j s g f) 0 fun g f hgf => by
          rw [Nat.zero_add]; exact faceTerm_eq d G' U' (σ e) j s g f (N' f) (hg.normals' g f hgf)]
      rw [(hs'.faces.map fun f => faceTermN d (N' f) U' (σ e) j s f).sum_eq, List.map_map]
      rfl
    have eS : F.state (fun s => (m.faces.map fun f => faceTermN d (N f) U e j s f).sum) s =
        (m.faces.map fun f => F.state (fun s => faceTermN d (N f) U e j s f) s).sum := by
      generalize m.faces = l
      induction l with
      | nil =>
        have := F.state_smul 0 (fun _ => (0 : ℝ)) s
        simpa using this
      | cons a l ih =>
        simp only [List.map_cons, List.sum_cons]
        rw [← ih, ← F.state_add]
    unfold globalResidual
    rw [F.state_add (fun s => volumeTerm d G U e j s), volumeTerm_frame hdim hd hg hU he j hs, eF', mul_add]
    congr 1
    simp only [eF]
    rw [eS, ← List.sum_map_mul_left]
    congr 1
    refine List.map_congr_left fun f hf => ?_
    rw [faceTerm_frame hd hg hs' hm hU he j hs hf]
  unfold globalRHS
  rw [F.state_sum (range d.nb) fun j s => G.iMM e b j * globalResidual d m G U e j s, mul_sum]
  refine sum_congr rfl fun j hj => ?_
  rw [F.state_smul (G.iMM e b j) (fun s => globalResidual d m G U e j s), hres, hg.iMM e he b hb j (mem_range.1 hj)]
  have e3 : (F.len ^ dim)⁻¹ * F.len ^ (dim - 1) = F.len⁻¹ := by
    obtain ⟨k, rfl⟩ : ∃ k, dim = k + 1 := ⟨dim - 1, by omega⟩
    rw [pow_succ, Nat.add_sub_cancel]; field_simp
  rw [div_eq_mul_inv, ← e3]; ring

/-- one stage of either method -/
theorem stage_frame (hdim : 0 < dim) (hd : EulerDisc dim fl γ d) (hg : SameGeom F σ d m m' G G' N N')
    (hs' : SameMesh F σ m m') (hm : MeshOK m) (V V' W W' : Coeffs ℝ) (c : ℝ) (hV : SameCoeffs F σ m.numElems d.nb V V')
    (hW : SameCoeffs F σ m.numElems d.nb W W') :
    SameCoeffs F σ m.numElems d.nb (fun e b s => W e b s + c * globalRHS d m G V e b s)
      (fun e b s => W' e b s + c * F.len / F.speed * globalRHS d m' G' V' e b s) := by
  have hl := F.len_pos
  have hv := F.speed_pos
  intro e he b hb s hs
  show W' (σ e) b s + c * F.len / F.speed * globalRHS d m' G' V' (σ e) b s =
    F.state (fun s => W e b s + c * globalRHS d m G V e b s) s
  rw [F.state_add (W e b) fun s => c * globalRHS d m G V e b s, F.state_smul c (globalRHS d m G V e b),
    hW e he b hb s hs, rhs_frame hdim hd hg hs' hm hV he hb hs]
  field_simp

/-- one time step of either method, with the time step in the new unit of time -/
theorem step_frame (hdim : 0 < dim) (hd : EulerDisc dim fl γ d) (hg : SameGeom F σ d m m' G G' N N')
    (hs' : SameMesh F σ m m') (hm : MeshOK m) (hU : SameCoeffs F σ m.numElems d.nb U U') (st : Stepper) (dt : ℝ) :
    SameCoeffs F σ m.numElems d.nb (stepOf st dt (globalRHS d m G) U)
      (stepOf st (dt * F.len / F.speed) (globalRHS d m' G') U') := by
  have hl := F.len_pos
  have hv := F.speed_pos
  have key := stage_frame hdim hd hg hs' hm
  cases st with
  | FE => exact key U U' U U' dt hU hU
  | RK4 =>
    have k2 := key U U' U U' (dt / 2) hU hU
    have e2 : dt * F.len / F.speed / 2 = dt / 2 * F.len / F.speed := by ring
    have k3 := key _ _ U U' (dt / 2) k2 hU
    have k4 := key _ _ U U' dt k3 hU
    intro e he b hb s hs
    have r1 := rhs_frame hdim hd hg hs' hm hU he hb hs
    have r2 := rhs_frame hdim hd hg hs' hm k2 he hb hs
    have r3 := rhs_frame hdim hd hg hs' hm k3 he hb hs
    have r4 := rhs_frame hdim hd hg hs' hm k4 he hb hs
    show rk4Step _ _ U' (σ e) b s = F.state (rk4Step dt (globalRHS d m G) U e b) s
    unfold rk4Step
    simp only [e2]
    rw [e2] at *
    rw [r1, r2, r3, r4, hU e he b hb s hs]
    have hlin : ∀ (u a b c e : ℕ → ℝ), F.state (fun s => u s + dt / 6 * (a s + 2 * b s + 2 * c s + e s)) s =
        F.state u s + dt / 6 * (F.state a s + 2 * F.state b s + 2 * F.state c s + F.state e s) := by
      intro u a b c e
      rw [F.state_add u, F.state_smul (dt / 6) fun s => a s + 2 * b s + 2 * c s + e s,
        F.state_add (fun s => a s + 2 * b s + 2 * c s) e, F.state_add (fun s => a s + 2 * b s), F.state_add a,
        F.state_smul 2 b, F.state_smul 2 c]
    rw [hlin (U e b)]
    field_simp

/-- any number of time steps -/
theorem run_frame (hdim : 0 < dim) (hd : EulerDisc dim fl γ d) (hg : SameGeom F σ d m m' G G' N N')
    (hs' : SameMesh F σ m m') (hm : MeshOK m) (hU : SameCoeffs F σ m.numElems d.nb U U') (st : Stepper) (dt : ℝ) (n : ℕ) :
    SameCoeffs F σ m.numElems d.nb ((stepOf st dt (globalRHS d m G))^[n] U)
      ((stepOf st (dt * F.len / F.speed) (globalRHS d m' G'))^[n] U') := by
  induction n with
  | zero => exact hU
  | succ n ih =>
    rw [Function.iterate_succ_apply', Function.iterate_succ_apply']
    exact step_frame hdim hd hg hs' hm ih st dt

end
end DG
