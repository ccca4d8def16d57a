import Verif.Props.Solver

/-!
The time loop without any law of arithmetic: every number a rank computes for an element is the value
of one expression in the coefficients of the elements of the mesh, in which neither the ranks nor the
order of the flux loop occur.
-/
namespace DG

variable {K : Type} {α : Type}

/-! ### which face a slot belongs to -/

theorem zipIdx_flatMap_inj {ι κ : Type} {h : ι → List κ} {l : List ι} (hnd : (l.flatMap h).Nodup)
    {i j : ℕ} {a b : ι} (ha : l[i]? = some a) (hb : l[j]? = some b) {x : κ} (hxa : x ∈ h a)
    (hxb : x ∈ h b) : i = j := by
  rw [List.nodup_flatMap] at hnd
  obtain ⟨hi, rfl⟩ := List.getElem?_eq_some_iff.1 ha
  obtain ⟨hj, rfl⟩ := List.getElem?_eq_some_iff.1 hb
  by_contra hne
  rcases Nat.lt_or_gt_of_ne hne with hlt | hlt
  · exact List.pairwise_iff_getElem.1 hnd.2 i j hi hj hlt hxa hxb
  · exact List.pairwise_iff_getElem.1 hnd.2 j i hj hi hlt hxb hxa

/-- a side of the mesh belongs to one face, on one side of it -/
theorem Conforming.face_unique {d : Disc K} {norient : ℕ} {m : GMesh α} (hc : Conforming d norient m)
    {g g' : ℕ} {f f' : IFace} (hf : IsFace m g f) (hf' : IsFace m g' f') {x : ℕ × ℕ}
    (hx : x ∈ fSides f) (hx' : x ∈ fSides f') : g = g' ∧ f = f' := by
  have hg : g = g' := zipIdx_flatMap_inj (h := fSides) hc.sides hf hf' hx hx'
  subst hg
  unfold IsFace at hf hf'
  rw [hf] at hf'
  exact ⟨rfl, Option.some.inj hf'⟩

theorem Conforming.sides_ne {d : Disc K} {norient : ℕ} {m : GMesh α} (hc : Conforming d norient m)
    {g : ℕ} {f : IFace} (hf : IsFace m g f) : (f.elemL, f.faceL) ≠ (f.elemR, f.faceR) := by
  have := (List.nodup_flatMap.1 hc.sides).1 f (List.mem_of_getElem? hf)
  simpa using this

variable [Zero K] [One K] [Add K] [Sub K] [Mul K] [Neg K] [Div K] [NatCast K]

/-- weighted flux through point `iq` of face `g`, as computed -/
def meshFluxLoop (d : Disc K) (G : Geom K) (U : Coeffs K) (g : ℕ) (f : IFace) (iq s : ℕ) : K :=
  d.numFlux (cArr d.ns (traceLoop d U f.elemL f.faceL (d.ptsOrder f.orientL iq)))
    (cArr d.ns (traceLoop d U f.elemR f.faceR (d.ptsOrder f.orientR iq)))
    (cArr d.dim (G.normals g iq)) s * d.faceWts iq

/-- `v` is what the flux loops leave in slot `j` of element `e` -/
def SlotVal (d : Disc K) (m : GMesh α) (G : Geom K) (U : Coeffs K) (e j s : ℕ) (v : K) : Prop :=
  (∃ (g : ℕ) (f : IFace) (iq : ℕ), IsFace m g f ∧ iq < d.nqf ∧ e = f.elemL ∧
    j = f.faceL * d.nqf + d.ptsOrder f.orientL iq ∧ v = -1 * meshFluxLoop d G U g f iq s) ∨
  (∃ (g : ℕ) (f : IFace) (iq : ℕ), IsFace m g f ∧ iq < d.nqf ∧ e = f.elemR ∧
    j = f.faceR * d.nqf + d.ptsOrder f.orientR iq ∧ v = meshFluxLoop d G U g f iq s) ∨
  ((∀ f ∈ m.faces, (e, j / d.nqf) ∉ fSides f) ∧ v = 0)

theorem SlotVal.unique {d : Disc K} {norient : ℕ} {m : GMesh α} (hc : Conforming d norient m)
    (ho : OrderOK d norient) {G : Geom K} {U : Coeffs K} {e j s : ℕ} {v v' : K}
    (h : SlotVal d m G U e j s v) (h' : SlotVal d m G U e j s v') : v = v' := by
  have hL : ∀ {g f iq}, IsFace m g f → iq < d.nqf → j = f.faceL * d.nqf + d.ptsOrder f.orientL iq →
      j / d.nqf = f.faceL ∧ j % d.nqf = d.ptsOrder f.orientL iq ∧ f.orientL < norient := by
    intro g f iq hf hq hj
    have hn := (hc.faceL f (List.mem_of_getElem? hf)).2
    obtain ⟨e1, e2⟩ := slot_div (face := f.faceL) ((ho _ hn).1 iq hq)
    rw [hj]; exact ⟨e1, e2, hn⟩
  have hR : ∀ {g f iq}, IsFace m g f → iq < d.nqf → j = f.faceR * d.nqf + d.ptsOrder f.orientR iq →
      j / d.nqf = f.faceR ∧ j % d.nqf = d.ptsOrder f.orientR iq ∧ f.orientR < norient := by
    intro g f iq hf hq hj
    have hn := (hc.faceR f (List.mem_of_getElem? hf)).2
    obtain ⟨e1, e2⟩ := slot_div (face := f.faceR) ((ho _ hn).1 iq hq)
    rw [hj]; exact ⟨e1, e2, hn⟩
  have mL : ∀ {f : IFace}, e = f.elemL → j / d.nqf = f.faceL → (e, j / d.nqf) ∈ fSides f := by
    intro f h1 h2; rw [h1, h2]; simp [fSides]
  have mR : ∀ {f : IFace}, e = f.elemR → j / d.nqf = f.faceR → (e, j / d.nqf) ∈ fSides f := by
    intro f h1 h2; rw [h1, h2]; simp [fSides]
  rcases h with ⟨g, f, iq, a1, a2, a3, a4, a5⟩ | ⟨g, f, iq, a1, a2, a3, a4, a5⟩ | ⟨a1, a2⟩ <;>
  rcases h' with ⟨g', f', iq', b1, b2, b3, b4, b5⟩ | ⟨g', f', iq', b1, b2, b3, b4, b5⟩ | ⟨b1, b2⟩
  · obtain ⟨p1, p2, p3⟩ := hL a1 a2 a4
    obtain ⟨q1, q2, q3⟩ := hL b1 b2 b4
    obtain ⟨rfl, rfl⟩ := hc.face_unique a1 b1 (mL a3 p1) (mL b3 q1)
    have := (ho _ p3).2 iq a2 iq' b2 (by rw [← p2, ← q2])
    subst this
    rw [a5, b5]
  · obtain ⟨p1, p2, p3⟩ := hL a1 a2 a4
    obtain ⟨q1, q2, q3⟩ := hR b1 b2 b4
    obtain ⟨rfl, rfl⟩ := hc.face_unique a1 b1 (mL a3 p1) (mR b3 q1)
    exact absurd (by rw [← a3, ← b3, ← p1, ← q1]) (hc.sides_ne a1)
  · obtain ⟨p1, p2, p3⟩ := hL a1 a2 a4
    exact absurd (mL a3 p1) (b1 f (List.mem_of_getElem? a1))
  · obtain ⟨p1, p2, p3⟩ := hR a1 a2 a4
    obtain ⟨q1, q2, q3⟩ := hL b1 b2 b4
    obtain ⟨rfl, rfl⟩ := hc.face_unique a1 b1 (mR a3 p1) (mL b3 q1)
    exact absurd (by rw [← a3, ← b3, ← p1, ← q1]) (hc.sides_ne a1)
  · obtain ⟨p1, p2, p3⟩ := hR a1 a2 a4
    obtain ⟨q1, q2, q3⟩ := hR b1 b2 b4
    obtain ⟨rfl, rfl⟩ := hc.face_unique a1 b1 (mR a3 p1) (mR b3 q1)
    have := (ho _ p3).2 iq a2 iq' b2 (by rw [← p2, ← q2])
    subst this
    rw [a5, b5]
  · obtain ⟨p1, p2, p3⟩ := hR a1 a2 a4
    exact absurd (mR a3 p1) (b1 f (List.mem_of_getElem? a1))
  · obtain ⟨q1, q2, q3⟩ := hL b1 b2 b4
    exact absurd (mL b3 q1) (a1 f' (List.mem_of_getElem? b1))
  · obtain ⟨q1, q2, q3⟩ := hR b1 b2 b4
    exact absurd (mR b3 q1) (a1 f' (List.mem_of_getElem? b1))
  · rw [a2, b2]

open Classical in
/-- the slot values of the whole mesh -/
noncomputable def slotRef (d : Disc K) (m : GMesh α) (G : Geom K) (U : Coeffs K) (e j s : ℕ) : K :=
  if h : ∃ v, SlotVal d m G U e j s v then h.choose else 0

theorem SlotVal.eq_ref {d : Disc K} {norient : ℕ} {m : GMesh α} (hc : Conforming d norient m)
    (ho : OrderOK d norient) {G : Geom K} {U : Coeffs K} {e j s : ℕ} {v : K}
    (h : SlotVal d m G U e j s v) : v = slotRef d m G U e j s := by
  have hex : ∃ v, SlotVal d m G U e j s v := ⟨v, h⟩
  unfold slotRef
  rw [dif_pos hex]
  exact SlotVal.unique hc ho h hex.choose_spec

variable [DecidableEq K]

/-- the residual of the whole mesh, as computed -/
noncomputable def resRef (d : Disc K) (m : GMesh α) (G : Geom K) (U : Coeffs K) : Coeffs K :=
  fun e b s => cATxBpC_to_C 1 d.nb d.ns (d.nface * d.nqf) (faceBasisFlat d) (slotRef d m G U e)
    (fun b s => volumeIntegral d (fun iq is id => volumeFlux d G
      (evaluateState d.nq d.nb d.ns d.volBasis (U e) (fun _ _ => 0)) e iq is id) b s 0) b s

omit [DecidableEq K] in
theorem volumeIntegral_congr {d : Disc K} {F F' : ℕ → ℕ → ℕ → K} {b s : ℕ} {r r' : K} (hr : r = r')
    (h : ∀ q < d.nq, ∀ i < d.dim, F q s i = F' q s i) :
    volumeIntegral d F b s r = volumeIntegral d F' b s r' := by
  subst hr
  unfold volumeIntegral
  refine List.foldl_ext _ _ _ fun a q hq => List.foldl_ext _ _ _ fun a' i hi => ?_
  rw [h q (List.mem_range.1 hq) i (List.mem_range.1 hi)]

omit [DecidableEq K] in
theorem cArr_congr {n : ℕ} {f f' : ℕ → K} (h : ∀ i < n, f i = f' i) : cArr n f = cArr n f' := by
  funext i
  unfold cArr
  by_cases hi : i < n
  · rw [if_pos hi, if_pos hi, h i hi]
  · rw [if_neg hi, if_neg hi]

theorem evaluateState_entry {nq nb ns : ℕ} {B u u' x x' : ℕ → ℕ → K} {q s : ℕ} (hq : q < nq)
    (hs : s < ns) (h : ∀ b < nb, u b s = u' b s) :
    evaluateState nq nb ns B u x q s = evaluateState nq nb ns B u' x' q s := by
  unfold evaluateState cAxB_to_C gemm
  simp only [hq, hs, and_self, if_true]
  congr 1
  exact loopSum_congr fun b hb => by rw [h b hb]

section world
variable {m : GMesh α} {nranks : ℕ} {part : List ℕ} {rms : ℕ → RankMesh α}

/-- the residual computed by a rank is that of the whole mesh on its elements, bit for bit -/
theorem World.residualBits (w : World m nranks part rms) {d : Disc K} {norient : ℕ}
    (hc : Conforming d norient m) (ho : OrderOK d norient) {r : ℕ} (hr : r < nranks)
    {u U : Coeffs K} (hu : CoeffsRestrict d (rms r) u U) {g G : Geom K}
    (hg : GeomRestrict d (rms r) g G) {A : FaceArr (ℕ → ℕ → K)}
    (hT : BothT d m (rms r) A (traceLoop d U))
    (sched : List (FluxWrite K) → List (FluxWrite K)) (hsched : ∀ l, (sched l).Perm l)
    (vq0 Fe0 res0 : ℕ → ℕ → ℕ → K) (hcl : CleanSlots d r (rms r).rows Fe0) :
    ∃ res Fe, DG.residual d g (rms r) r sched u A vq0 Fe0 res0 = some (res, Fe) ∧
      CleanSlots d r (rms r).rows Fe ∧ CoeffsRestrict d (rms r) res (resRef d m G U) := by
  have hn := w.numIF hr
  have hex : ∀ i, ∃ F : ℕ → ℕ → K, i < (rms r).numIFacesPart → faceFlux d g A i = some F ∧
      ∀ g' f, (rms r).l2gFace[i]? = some g' → IsFace m g' f →
        ∀ iq < d.nqf, ∀ s, F iq s = meshFluxLoop d G U g' f iq s := by
    intro i
    by_cases hi : i < (rms r).numIFacesPart
    · have hi' : i < (rms r).l2gFace.length := by rw [← hn]; exact hi
      have hgi := List.getElem?_eq_getElem hi'
      obtain ⟨f, row, a1, _⟩ := w.record hr hgi
      obtain ⟨⟨BL, l1, l2⟩, BR, r1, r2⟩ := hT i _ f hgi a1
      refine ⟨_, fun _ => ⟨by unfold faceFlux; rw [l1, r1]; rfl, ?_⟩⟩
      intro g' f' hg' hf' iq hq s
      rw [hgi] at hg'
      cases hg'
      unfold IsFace at a1 hf'
      rw [a1] at hf'
      cases hf'
      unfold meshFluxLoop
      have e1 : cArr d.ns (BL iq) =
          cArr d.ns (traceLoop d U f.elemL f.faceL (d.ptsOrder f.orientL iq)) :=
        cArr_congr (l2 iq hq)
      have e2 : cArr d.ns (BR iq) =
          cArr d.ns (traceLoop d U f.elemR f.faceR (d.ptsOrder f.orientR iq)) :=
        cArr_congr (r2 iq hq)
      have e3 : cArr d.dim (g.normals i iq) = cArr d.dim (G.normals (rms r).l2gFace[i] iq) :=
        cArr_congr fun j hj => hg.normals i _ hgi iq hq j hj
      simp only [e1, e2, e3]
    · exact ⟨fun _ _ => 0, fun h => absurd h hi⟩
  choose F hF using hex
  have hrows := w.rowsOK hc hr
  have hl := w.rowsLen hr
  set Fq := (List.range (rms r).numIFacesPart).map F with hFq
  have hlen : (rms r).rows.length = Fq.length := by rw [hl, hFq]; simp
  have hm : (List.range (rms r).numIFacesPart).mapM (faceFlux d g A) = some Fq :=
    mapM_eq_map _ _ _ (fun i hi => (hF i (List.mem_range.1 hi)).1)
  have hb := fluxWrites_inB hrows ho Fq
  have hnd := fluxWrites_nodup hrows ho Fq hlen
  obtain ⟨Fe, h1, h2, h3⟩ := writeFluxes_spec d (rms r).numElemsPart (fluxWrites d r (rms r).rows Fq)
    Fe0 hb hnd
  have hclean : CleanSlots d r (rms r).rows Fe := by
    intro e j s hj hs hns
    rw [h3 _ _ _ (fun h => hns (side_of_key hrows ho Fq h))]
    exact hcl e j s hj hs hns
  -- slot by slot
  have hslot : ∀ k e : ℕ, (rms r).l2gElem[k]? = some e → ∀ j < d.nface * d.nqf, ∀ s < d.ns,
      Fe k j s = slotRef d m G U e j s := by
    intro k e hk j hj s hs
    apply SlotVal.eq_ref hc ho
    by_cases hin : (k, j / d.nqf) ∈ (rms r).rows.flatMap (localSides r)
    · obtain ⟨wr, hwr, hkey⟩ := List.mem_map.1 (key_of_side hrows ho Fq hlen hj hs hin)
      simp only [FluxWrite.key, Prod.mk.injEq] at hkey
      obtain ⟨k1, k2, k3⟩ := hkey
      have hv := h2 wr hwr
      obtain ⟨x, hx, iq, hq, hwx⟩ := mem_fluxWrites.1 hwr
      obtain ⟨i, hix⟩ := List.mem_iff_getElem?.1 hx
      rw [List.getElem?_zip_eq_some] at hix
      obtain ⟨hi1, hi2⟩ := hix
      have hi : i < (rms r).numIFacesPart := by
        rw [← hl]; exact (List.getElem?_eq_some_iff.1 hi1).1
      have hi' : i < (rms r).l2gFace.length := by rw [← hn]; exact hi
      have hgi := List.getElem?_eq_getElem hi'
      obtain ⟨f, row, a1, a2, a3, a4, a5, a6, a7, a8, a9, a10, a12⟩ := w.record hr hgi
      rw [hi1] at a2
      have a2 := Option.some.inj a2
      have hxF : x.2 = F i := by
        rw [hFq, List.getElem?_map, List.getElem?_range hi] at hi2
        exact (Option.some.inj hi2).symm
      have hval := (hF i hi).2 _ f hgi a1 iq hq s
      rcases mem_writesAt hwx with ⟨hk', s', hs', hw⟩ | ⟨hk', s', hs', hw⟩
      · left
        rw [hw] at k1 k2 k3 hv
        simp only at k1 k2 k3 hv
        subst k3
        rw [k1, k2] at hv
        refine ⟨_, f, iq, a1, hq, ?_, ?_, ?_⟩
        · rw [a2] at k1 hk'
          have := a10 hk'.symm
          rw [k1, hk] at this
          exact Option.some.inj this
        · rw [← k2, a2, a6, a7]
        · rw [hv, hxF, hval]
      · right; left
        rw [hw] at k1 k2 k3 hv
        simp only at k1 k2 k3 hv
        subst k3
        rw [k1, k2] at hv
        refine ⟨_, f, iq, a1, hq, ?_, ?_, ?_⟩
        · rw [a2] at k1 hk'
          have := a12 hk'.symm
          rw [k1, hk] at this
          exact Option.some.inj this
        · rw [← k2, a2, a8, a9]
        · rw [hv, hxF, hval]
    · right; right
      refine ⟨?_, hclean k j s hj hs hin⟩
      intro f hf hside
      apply hin
      refine w.sideLocal hr hk hf ?_
      simpa [fSides] using hside
  unfold DG.residual
  rw [hm]
  simp only [Option.bind_eq_bind, Option.bind_some]
  rw [writeFluxes_perm d _ _ _ Fe0 (hsched _) hb hnd, h1]
  simp only [Option.bind_some]
  refine ⟨_, _, rfl, hclean, ?_⟩
  intro k e hk b hb s hs
  have hkn : k < (rms r).numElemsPart := by
    rw [w.numElems hr]; exact (List.getElem?_eq_some_iff.1 hk).1
  simp only [hkn, hb, hs, and_self, if_true]
  unfold resRef cATxBpC_to_C gemm
  simp only [hkn, hb, hs, and_self, if_true]
  have hvol : volumeIntegral d (fun iq is id => volumeFlux d g
      (evaluateState d.nq d.nb d.ns d.volBasis (u k) (vq0 k)) k iq is id) b s 0 =
      volumeIntegral d (fun iq is id => volumeFlux d G
      (evaluateState d.nq d.nb d.ns d.volBasis (U e) (fun _ _ => 0)) e iq is id) b s 0 := by
    refine volumeIntegral_congr rfl fun q hq i hi => ?_
    unfold volumeFlux
    have : cArr d.ns (evaluateState d.nq d.nb d.ns d.volBasis (u k) (vq0 k) q) =
        cArr d.ns (evaluateState d.nq d.nb d.ns d.volBasis (U e) (fun _ _ => 0) q) :=
      cArr_congr fun s hs => evaluateState_entry hq hs fun b hb => hu k e hk b hb s hs
    rw [this]
    exact loopSum_congr fun j hj => by
      rw [hg.djac k e hk q hq, hg.ijac k e hk q hq i hi j hj]
  rw [hvol]
  congr 1
  exact loopSum_congr fun j hj => by rw [hslot k e hk j hj s hs]

end world

/-! ### stage updates -/

/-- the state of a rank is that of the whole mesh on the elements `φ k` -/
structure StateVia (d : Disc K) (ne : ℕ) (φ : ℕ → ℕ) (s S : RankState K) : Prop where
  Uc : Via d ne φ s.Uc S.Uc
  Uhold : Via d ne φ s.Uhold S.Uhold
  dU1 : Via d ne φ s.dU1 S.dU1
  dU2 : Via d ne φ s.dU2 S.dU2
  dU3 : Via d ne φ s.dU3 S.dU3
  dU4 : Via d ne φ s.dU4 S.dU4
  res : Via d ne φ s.res S.res
  time : s.time = S.time
  stage : s.stage = S.stage
  evals : s.evals = S.evals

theorem multInvMassAll_bits {d : Disc K} {ne ne' : ℕ} {φ : ℕ → ℕ} (hφ : ∀ k < ne, φ k < ne') {dt : K}
    {iMM M : ℕ → ℕ → ℕ → K} (hM : ∀ k < ne, ∀ i < d.nb, ∀ j < d.nb, iMM k i j = M (φ k) i j)
    {res R : Coeffs K} (hres : Via d ne φ res R) (x y : Coeffs K) :
    Via d ne φ (multInvMassAll d ne dt iMM res x) (multInvMassAll d ne' dt M R y) := by
  intro k hk b hb s hs
  unfold multInvMassAll multInvMass cAxB_to_C gemm
  simp only [hk, hφ k hk, hb, hs, and_self, if_true]
  congr 1
  exact loopSum_congr fun j hj => by rw [hM k hk b hb j hj, hres k hk j hj s hs]

omit [DecidableEq K] in
theorem axpy3_bits {d : Disc K} {ne ne' : ℕ} {φ : ℕ → ℕ} (hφ : ∀ k < ne, φ k < ne') (c : K)
    {a u A U : Coeffs K} (ha : Via d ne φ a A) (hu : Via d ne φ u U) (x y : Coeffs K) :
    Via d ne φ (axpy3 d ne c a u x) (axpy3 d ne' c A U y) := by
  intro k hk b hb s hs
  unfold axpy3
  rw [if_pos ⟨hk, hb, hs⟩, if_pos ⟨hφ k hk, hb, hs⟩, ha k hk b hb s hs, hu k hk b hb s hs]

theorem afterResidual_bits {d : Disc K} {ne ne' : ℕ} {φ : ℕ → ℕ} (hφ : ∀ k < ne, φ k < ne') {dt : K}
    {iMM M : ℕ → ℕ → ℕ → K} (hM : ∀ k < ne, ∀ i < d.nb, ∀ j < d.nb, iMM k i j = M (φ k) i j)
    (st : Stepper) {s S : RankState K} (h : StateVia d ne φ s S) :
    StateVia d ne φ (afterResidual d ne dt iMM st s) (afterResidual d ne' dt M st S) := by
  have hm := fun x y => multInvMassAll_bits (dt := dt) hφ hM h.res x y
  cases st with
  | FE =>
    exact ⟨axpy3_bits hφ 1 (hm _ _) h.Uc _ _, h.Uhold, h.dU1, h.dU2, h.dU3, h.dU4, h.res,
      by simp only [afterResidual, h.time], rfl, h.evals⟩
  | RK4 =>
    unfold afterResidual
    simp only [h.stage]
    split
    · exact ⟨axpy3_bits hφ _ (hm _ _) h.Uhold _ _, h.Uhold, hm _ _, h.dU2, h.dU3, h.dU4, h.res,
        by simp only [h.time], rfl, h.evals⟩
    · exact ⟨axpy3_bits hφ _ (hm _ _) h.Uhold _ _, h.Uhold, h.dU1, hm _ _, h.dU3, h.dU4, h.res,
        h.time, rfl, h.evals⟩
    · exact ⟨axpy3_bits hφ _ (hm _ _) h.Uhold _ _, h.Uhold, h.dU1, h.dU2, hm _ _, h.dU4, h.res,
        by simp only [h.time], rfl, h.evals⟩
    · have a1 := axpy3_bits hφ 2 h.dU3 (hm s.dU4 S.dU4) (multInvMassAll d ne dt iMM s.res s.dU4)
        (multInvMassAll d ne' dt M S.res S.dU4)
      have a2 := axpy3_bits hφ 2 h.dU2 a1 (axpy3 d ne 2 s.dU3 (multInvMassAll d ne dt iMM s.res s.dU4)
        (multInvMassAll d ne dt iMM s.res s.dU4)) (axpy3 d ne' 2 S.dU3
        (multInvMassAll d ne' dt M S.res S.dU4) (multInvMassAll d ne' dt M S.res S.dU4))
      have a3 := axpy3_bits hφ 1 h.dU1 a2 (axpy3 d ne 2 s.dU2
        (axpy3 d ne 2 s.dU3 (multInvMassAll d ne dt iMM s.res s.dU4)
          (multInvMassAll d ne dt iMM s.res s.dU4))
        (axpy3 d ne 2 s.dU3 (multInvMassAll d ne dt iMM s.res s.dU4)
          (multInvMassAll d ne dt iMM s.res s.dU4))) (axpy3 d ne' 2 S.dU2
        (axpy3 d ne' 2 S.dU3 (multInvMassAll d ne' dt M S.res S.dU4)
          (multInvMassAll d ne' dt M S.res S.dU4))
        (axpy3 d ne' 2 S.dU3 (multInvMassAll d ne' dt M S.res S.dU4)
          (multInvMassAll d ne' dt M S.res S.dU4)))
      have a4 := axpy3_bits hφ (1 / 6) a3 h.Uhold s.Uhold S.Uhold
      exact ⟨a4, a4, h.dU1, h.dU2, h.dU3, a3, h.res, h.time, rfl, h.evals⟩

/-! ### the whole run -/

/-- the state before residual number `t`, all elements together -/
noncomputable def stateRef (d : Disc K) (m : GMesh α) (G : Geom K) (dt : K) (st : Stepper)
    (U0 : Coeffs K) : ℕ → RankState K
  | 0 => beginStep st ⟨U0, 0, fun _ _ _ => 0, fun _ _ _ => 0, fun _ _ _ => 0, fun _ _ _ => 0,
      fun _ _ _ => 0, fun _ _ _ => 0, fun _ _ _ => 0, 0, 0⟩
  | t + 1 =>
    let S := stateRef d m G dt st U0 t
    let S' := afterResidual d m.numElems dt G.iMM st { S with res := resRef d m G S.Uc }
    { S' with evals := S'.evals + 1 }

/-- what holds on rank `r` before exchange number `t` -/
structure BitsInv (d : Disc K) (m : GMesh α) (part : List ℕ) (rm : RankMesh α) (r : ℕ)
    (S : RankState K) (x : FaceArr (ℕ → ℕ → K) × Option (RankState K)) (s : RankState K) : Prop where
  state : x.2 = some s
  own : OwnT d m part r rm x.1 (traceLoop d S.Uc)
  clean : CleanSlots d r rm.rows s.Fe
  via : StateVia d rm.numElemsPart (gElem rm) s S

section world
variable {m : GMesh α} {nranks : ℕ} {part : List ℕ} {rms : ℕ → RankMesh α}

theorem World.bitsStart (w : World m nranks part rms) {d : Disc K} {norient : ℕ}
    (hc : Conforming d norient m) (ho : OrderOK d norient) {G : Geom K} {st : Stepper} {dt : K}
    {Uc0 : ℕ → ℕ → ℕ → ℕ → K} {U0 : Coeffs K}
    (hu : ∀ r < nranks, CoeffsRestrict d (rms r) (Uc0 r) U0) {r : ℕ} (hr : r < nranks) :
    ∃ s, BitsInv d m part (rms r) r (stateRef d m G dt st U0 0) (solverStart d rms st Uc0 r) s := by
  have hb : (beginStep st (⟨Uc0 r, 0, fun _ _ _ => 0, fun _ _ _ => 0, fun _ _ _ => 0,
      fun _ _ _ => 0, fun _ _ _ => 0, fun _ _ _ => 0, fun _ _ _ => 0, 0, 0⟩ : RankState K)).Uc
      = Uc0 r := by cases st <;> rfl
  have hS : (stateRef d m G dt st U0 0).Uc = U0 := by cases st <;> rfl
  obtain ⟨A', h1, h2, h3⟩ := w.ownT hc ho hr (hu r hr) (fun _ _ _ => 0)
    ⟨List.replicate (rms r).numIFacesPart (fun _ _ => 0),
      List.replicate (rms r).numIFacesPart (fun _ _ => 0)⟩ ⟨by simp, by simp⟩
  have hs : solverStart d rms st Uc0 r = (A', some (beginStep st (⟨Uc0 r, 0, fun _ _ _ => 0,
      fun _ _ _ => 0, fun _ _ _ => 0, fun _ _ _ => 0, fun _ _ _ => 0, fun _ _ _ => 0,
      fun _ _ _ => 0, 0, 0⟩ : RankState K))) := by
    unfold solverStart
    simp only [hb, h1]
  have hv := (restrict_iff_via (d := d) (w.numElems hr) (Uc0 r) U0).1 (hu r hr)
  have hz : Via d (rms r).numElemsPart (gElem (rms r)) (fun _ _ _ => (0 : K)) (fun _ _ _ => 0) :=
    fun _ _ _ _ _ _ => rfl
  refine ⟨_, by rw [hs], ?_, ?_, ?_⟩
  · rw [hs, hS]; exact h3
  · intro e j σ _ _ _
    cases st <;> rfl
  · cases st
    · exact ⟨hv, hz, hz, hz, hz, hz, hz, rfl, rfl, rfl⟩
    · exact ⟨hv, hv, hz, hz, hz, hz, hz, rfl, rfl, rfl⟩

theorem World.gElem_lt (w : World m nranks part rms) {r : ℕ} (hr : r < nranks) {k : ℕ}
    (hk : k < (rms r).numElemsPart) : gElem (rms r) k < m.numElems := by
  rw [w.numElems hr] at hk
  have he := List.getElem?_eq_getElem hk
  have : ∀ e ∈ (rms r).l2gElem, e < m.numElems := by
    rw [(w.res hr).l2gElem]
    exact fun e he => (mem_owned.1 he).1
  have := this _ (List.getElem_mem hk)
  rw [gElem, he]; exact this

theorem World.bitsStep (w : World m nranks part rms) {d : Disc K} {norient : ℕ}
    (hc : Conforming d norient m) (ho : OrderOK d norient) {G : Geom K} {g : ℕ → Geom K}
    (hg : ∀ r < nranks, GeomRestrict d (rms r) (g r) G) {st : Stepper} {dt : K}
    {sched : ℕ → ℕ → List (FluxWrite K) → List (FluxWrite K)}
    (hsched : ∀ r k l, (sched r k l).Perm l) {S : RankState K}
    {x : ℕ → FaceArr (ℕ → ℕ → K) × Option (RankState K)}
    (hx : ∀ r < nranks, Sized (rms r) (x r).1)
    (hI : ∀ r < nranks, ∃ s, BitsInv d m part (rms r) r S (x r) s)
    {r : ℕ} (hr : r < nranks) :
    ∃ s, BitsInv d m part (rms r) r
      (let S' := afterResidual d m.numElems dt G.iMM st { S with res := resRef d m G S.Uc }
       { S' with evals := S'.evals + 1 })
      (syncStep rms (solverComp d g rms dt st sched) x r) s := by
  have hn := w.numElems hr
  obtain ⟨A', a1, a2, a3⟩ := w.bothT hx (fun r hr => (hI r hr).choose_spec.own) hr
  obtain ⟨s, hs⟩ := hI r hr
  have hu : CoeffsRestrict d (rms r) s.Uc S.Uc := (restrict_iff_via hn _ _).2 hs.via.Uc
  obtain ⟨res, Fe, r1, r2, r3⟩ := w.residualBits hc ho hr hu (hg r hr) a3 (sched r s.evals)
    (hsched r s.evals) (fun _ _ _ => 0) s.Fe s.res hs.clean
  set s1 : RankState K := { s with res := res, Fe := Fe } with hs1
  have hv1 : StateVia d (rms r).numElemsPart (gElem (rms r)) s1
      { S with res := resRef d m G S.Uc } :=
    ⟨hs.via.Uc, hs.via.Uhold, hs.via.dU1, hs.via.dU2, hs.via.dU3, hs.via.dU4,
      (restrict_iff_via hn _ _).1 r3, hs.via.time, hs.via.stage, hs.via.evals⟩
  have hM : ∀ k < (rms r).numElemsPart, ∀ i < d.nb, ∀ j < d.nb,
      (g r).iMM k i j = G.iMM (gElem (rms r) k) i j := by
    intro k hk i hi j hj
    have hk' : k < (rms r).l2gElem.length := by omega
    have he := List.getElem?_eq_getElem hk'
    rw [(hg r hr).iMM k _ he i hi j hj, gElem, he]; rfl
  have hupd := afterResidual_bits (dt := dt) (fun k hk => w.gElem_lt hr hk) hM st hv1
  set s2 := afterResidual d (rms r).numElemsPart dt (g r).iMM st s1 with hs2
  have hfe : s2.Fe = Fe := by
    rw [hs2]
    cases st
    · rfl
    · unfold afterResidual
      simp only
      split <;> rfl
  obtain ⟨A2, b1, b2, b3⟩ := w.ownT hc ho hr ((restrict_iff_via hn _ _).2 hupd.Uc)
    (fun _ _ _ => 0) A' a2
  have hround : solverRound d (g r) (rms r) r dt st (sched r) A' s =
      some (A2, { s2 with evals := s2.evals + 1 }) := by
    unfold solverRound
    rw [r1]
    simp only [Option.bind_eq_bind, Option.bind_some]
    rw [← hs1, ← hs2, b1]
    rfl
  have hstep : syncStep rms (solverComp d g rms dt st sched) x r =
      (A2, some { s2 with evals := s2.evals + 1 }) := by
    unfold syncStep
    rw [a1]
    simp only
    unfold solverComp
    simp only [hs.state, hround]
  refine ⟨_, by rw [hstep], by rw [hstep]; exact b3, ?_, ?_⟩
  · simp only [hfe]; exact r2
  · exact ⟨hupd.Uc, hupd.Uhold, hupd.dU1, hupd.dU2, hupd.dU3, hupd.dU4, hupd.res, hupd.time,
      hupd.stage, by simp only [hupd.evals]⟩

/-- any interleaving: the state of a rank after `t` exchanges -/
theorem World.bitsRun (w : World m nranks part rms) {d : Disc K} {norient : ℕ}
    (hc : Conforming d norient m) (ho : OrderOK d norient) {G : Geom K} {g : ℕ → Geom K}
    (hg : ∀ r < nranks, GeomRestrict d (rms r) (g r) G) {st : Stepper} {dt : K}
    {sched : ℕ → ℕ → List (FluxWrite K) → List (FluxWrite K)}
    (hsched : ∀ r k l, (sched r k l).Perm l) {Uc0 : ℕ → ℕ → ℕ → ℕ → K} {U0 : Coeffs K}
    (hu : ∀ r < nranks, CoeffsRestrict d (rms r) (Uc0 r) U0) {nsteps n : ℕ}
    {c : Proto.Conf (FaceArr (ℕ → ℕ → K) × Option (RankState K)) (List (ℕ → ℕ → K))}
    (hx : Proto.Exec (solverProg d g rms nranks dt st sched nsteps)
      (Proto.init (solverStart d rms st Uc0)) c n) {r : ℕ} (hr : r < nranks) :
    ∃ s, BitsInv d m part (rms r) r (stateRef d m G dt st U0 (c.proc r).round) (c.proc r).st s := by
  have hI := w.reach (solverComp_keeps d g rms dt st sched)
    (fun r _ => solverStart_sized d rms st Uc0 r) hx
  rw [(hI.ph r hr).1]
  generalize (c.proc r).round = t
  clear hI hx
  induction t generalizing r with
  | zero => exact w.bitsStart hc ho hu hr
  | succ t ih =>
    exact w.bitsStep hc ho hg hsched
      (w.sync_sized (solverComp_keeps d g rms dt st sched)
        (fun r _ => solverStart_sized d rms st Uc0 r) t) (fun r hr => ih hr) hr

end world
end DG
