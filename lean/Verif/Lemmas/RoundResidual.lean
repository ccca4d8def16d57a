import Verif.Lemmas.RoundCalc
import Verif.Lemmas.Bits
import Verif.Props.Mesh

/-!
The residual in rounded arithmetic follows the residual in exact arithmetic.
-/
open Set Filter Topology Asymptotics
namespace DG

/-! ### the residual of the whole mesh as computed, in exact arithmetic -/

theorem oneRank {α : Type} {m : GMesh α} (hm : MeshOK m) :
    ∃ rms, World m 1 (List.replicate m.numElems 0) rms := by
  have hp : PartOK m 1 (List.replicate m.numElems 0) := ⟨by simp, by
    intro p hp; rw [List.eq_of_mem_replicate hp]; omega⟩
  obtain ⟨rm, h⟩ := C01_partition_no_ub m 1 _ id hm hp (fun l => List.Perm.refl l) 0 (by omega)
  refine ⟨fun _ => rm, hm, hp, fun r hr => ⟨id, fun l => List.Perm.refl l, ?_⟩⟩
  rw [show r = 0 by omega]
  exact h

theorem resRef_real {α : Type} {m : GMesh α} (hm : MeshOK m) {d : Disc ℝ} {norient : ℕ}
    (hc : Conforming d norient m) (ho : OrderOK d norient) (G : Geom ℝ) (U : Coeffs ℝ) {e b s : ℕ}
    (he : e < m.numElems) (hb : b < d.nb) (hs : s < d.ns) :
    resRef d m G U e b s = globalResidual d m G U e b s := by
  obtain ⟨rms, w⟩ := oneRank hm
  have h0 : (0 : ℕ) < 1 := by omega
  have hu : CoeffsRestrict d (rms 0) (fun k => U (gElem (rms 0) k)) U := by
    intro k e hk b _ s _
    simp only [gElem, hk, Option.getD_some]
  set g : Geom ℝ := ⟨fun k => G.djac (gElem (rms 0) k), fun k => G.ijac (gElem (rms 0) k),
    fun k => G.iMM (gElem (rms 0) k), fun k => G.normals (((rms 0).l2gFace[k]?).getD 0)⟩ with hgdef
  have hg : GeomRestrict d (rms 0) g G := by
    refine ⟨?_, ?_, ?_, ?_⟩ <;> intro k e hk <;> intros <;> simp only [g, gElem, hk, Option.getD_some]
  obtain ⟨A, a1, a2, a3⟩ := w.ownT hc ho h0 hu (fun _ _ _ => 0)
    ⟨List.replicate (rms 0).numIFacesPart (fun _ _ => 0),
      List.replicate (rms 0).numIFacesPart (fun _ _ => 0)⟩ ⟨by simp, by simp⟩
  obtain ⟨A', b1, b2, b3⟩ := w.bothT (γ := Unit) (st := fun _ => (A, ())) (T := traceLoop d U)
    (fun r hr => by rw [show r = 0 by omega]; exact a2)
    (fun r hr => by rw [show r = 0 by omega]; exact a3) h0
  have b4 : BothTraces d m (rms 0) A' U := by
    intro i g f hi hf
    obtain ⟨⟨B, l1, l2⟩, B', r1, r2⟩ := b3 i g f hi hf
    exact ⟨⟨B, l1, fun iq hq s hs => by rw [l2 iq hq s hs, traceLoop_eq d U _ _ _ hs]⟩,
      B', r1, fun iq hq s hs => by rw [r2 iq hq s hs, traceLoop_eq d U _ _ _ hs]⟩
  obtain ⟨res, Fe, c1, -, c3⟩ := w.residualBits hc ho h0 hu hg b3 id (fun l => List.Perm.refl l)
    (fun _ _ _ => 0) (fun _ _ _ => 0) (fun _ _ _ => 0) (fun _ _ _ _ _ _ => rfl)
  obtain ⟨res', Fe', d1, -, d3⟩ := w.residual hc ho h0 hu hg b2 b4 id (fun l => List.Perm.refl l)
    (fun _ _ _ => 0) (fun _ _ _ => 0) (fun _ _ _ => 0) (fun _ _ _ _ _ _ => rfl)
  rw [c1] at d1
  obtain ⟨rfl, -⟩ := Prod.mk.inj (Option.some.inj d1)
  have hmem : e ∈ (rms 0).l2gElem := by
    rw [(w.res h0).l2gElem, mem_owned]
    exact ⟨he, by simp [he]⟩
  obtain ⟨k, hk⟩ := List.mem_iff_getElem?.1 hmem
  rw [← c3 k e hk b hb s hs, d3 k e hk b hb s hs]

/-! ### rounded arithmetic -/

/-- the tables and fluxes of a scheme -/
structure Tables (K : Type) where
  volBasis : ℕ → ℕ → K
  volGrad : ℕ → ℕ → ℕ → K
  volWts : ℕ → K
  faceBasis : ℕ → ℕ → ℕ → K
  faceWts : ℕ → K
  volFlux : (ℕ → K) → ℕ → K
  numFlux : (ℕ → K) → (ℕ → K) → (ℕ → K) → ℕ → K

/-- a scheme of the shape of `d` with other tables and fluxes -/
def withTables {K : Type} (d : Disc ℝ) (T : Tables K) : Disc K where
  dim := d.dim
  ns := d.ns
  nb := d.nb
  nq := d.nq
  nface := d.nface
  nqf := d.nqf
  ptsOrder := d.ptsOrder
  volBasis := T.volBasis
  volGrad := T.volGrad
  volWts := T.volWts
  faceBasis := T.faceBasis
  faceWts := T.faceWts
  volFlux := T.volFlux
  numFlux := T.numFlux

section
variable {α : Type} {ι : Type*} {l : Filter ι} {A : ι → Arith} {d : Disc ℝ} {m : GMesh α} {G : Geom ℝ}

/-- tables that follow those of `d` -/
structure TablesTr (l : Filter ι) (A : ι → Arith) (d : Disc ℝ) (T : ∀ i, Tables (A i).K) : Prop where
  volBasis : ∀ q < d.nq, ∀ b < d.nb, Tr l A (fun i => (T i).volBasis q b) (fun _ => d.volBasis q b) (d.volBasis q b)
  volGrad : ∀ q < d.nq, ∀ b < d.nb, ∀ j < d.dim,
    Tr l A (fun i => (T i).volGrad q b j) (fun _ => d.volGrad q b j) (d.volGrad q b j)
  volWts : ∀ q < d.nq, Tr l A (fun i => (T i).volWts q) (fun _ => d.volWts q) (d.volWts q)
  faceBasis : ∀ f < d.nface, ∀ q < d.nqf, ∀ b < d.nb,
    Tr l A (fun i => (T i).faceBasis f q b) (fun _ => d.faceBasis f q b) (d.faceBasis f q b)
  faceWts : ∀ q < d.nqf, Tr l A (fun i => (T i).faceWts q) (fun _ => d.faceWts q) (d.faceWts q)

/-- geometry that follows `G` -/
structure GeomTr (l : Filter ι) (A : ι → Arith) (d : Disc ℝ) (m : GMesh α) (G : Geom ℝ) (g : ∀ i, Geom (A i).K) :
    Prop where
  djac : ∀ e < m.numElems, ∀ q < d.nq, Tr l A (fun i => (g i).djac e q) (fun _ => G.djac e q) (G.djac e q)
  ijac : ∀ e < m.numElems, ∀ q < d.nq, ∀ j < d.dim, ∀ k < d.dim,
    Tr l A (fun i => (g i).ijac e q j k) (fun _ => G.ijac e q j k) (G.ijac e q j k)
  iMM : ∀ e < m.numElems, ∀ b < d.nb, ∀ c < d.nb,
    Tr l A (fun i => (g i).iMM e b c) (fun _ => G.iMM e b c) (G.iMM e b c)
  normals : ∀ f < m.faces.length, ∀ q < d.nqf, ∀ j < d.dim,
    Tr l A (fun i => (g i).normals f q j) (fun _ => G.normals f q j) (G.normals f q j)

/-- a vector of numbers that follow exact ones -/
def TrVec (l : Filter ι) (A : ι → Arith) (a : ∀ i, ℕ → (A i).K) (x : ι → ℕ → ℝ) (x0 : ℕ → ℝ) : Prop :=
  ∀ s, Tr l A (fun i => a i s) (fun i => x i s) (x0 s)

/-- coefficients that follow exact ones -/
def TrCoeffs (l : Filter ι) (A : ι → Arith) (d : Disc ℝ) (ne : ℕ) (U : ∀ i, Coeffs (A i).K) (X : ι → Coeffs ℝ)
    (X0 : Coeffs ℝ) : Prop :=
  ∀ e < ne, ∀ b < d.nb, ∀ s < d.ns, Tr l A (fun i => U i e b s) (fun i => X i e b s) (X0 e b s)

theorem TrVec.cArr {n : ℕ} {a : ∀ i, ℕ → (A i).K} {x : ι → ℕ → ℝ} {x0 : ℕ → ℝ}
    (h : ∀ s < n, Tr l A (fun i => a i s) (fun i => x i s) (x0 s)) :
    TrVec l A (fun i => cArr n (a i)) (fun i => cArr n (x i)) (cArr n x0) := by
  intro s
  unfold DG.cArr
  by_cases hs : s < n
  · simp only [hs, if_true]; exact h s hs
  · simp only [hs, if_false]; exact Tr.zero

theorem Arith.one_ne_zero (B : Arith) : (1 : B.K) ≠ 0 := by
  intro h
  have := B.one.2
  rw [h, B.zero.2] at this
  norm_num at this

theorem evaluateState_tr (hA : Fine l A) {nq nb ns q s : ℕ} (hq : q < nq) (hs : s < ns)
    {B u : ∀ i, ℕ → ℕ → (A i).K} {b x : ι → ℕ → ℕ → ℝ} {b0 x0 : ℕ → ℕ → ℝ} {z : ∀ i, ℕ → ℕ → (A i).K} {z' : ι → ℕ → ℕ → ℝ}
    {z0 : ℕ → ℕ → ℝ}
    (hB : ∀ k < nb, Tr l A (fun i => B i q k) (fun i => b i q k) (b0 q k))
    (hu : ∀ k < nb, Tr l A (fun i => u i k s) (fun i => x i k s) (x0 k s)) :
    Tr l A (fun i => evaluateState nq nb ns (B i) (u i) (z i) q s)
      (fun i => evaluateState nq nb ns (b i) (x i) (z' i) q s) (evaluateState nq nb ns b0 x0 z0 q s) := by
  unfold evaluateState cAxB_to_C gemm
  simp only [hq, hs, and_self, if_true, loopSum_eq]
  exact Tr.zero.add hA (Tr.loop hA fun k hk => (Tr.one.mul hA (hB k hk)).mul hA (hu k hk))

theorem traceLoop_tr (hA : Fine l A) {T : ∀ i, Tables (A i).K} (hT : TablesTr l A d T) {ne : ℕ}
    {U : ∀ i, Coeffs (A i).K} {X : ι → Coeffs ℝ} {X0 : Coeffs ℝ} (hU : TrCoeffs l A d ne U X X0) {e face j : ℕ}
    (he : e < ne) (hf : face < d.nface) (hj : j < d.nqf) :
    TrVec l A (fun i => cArr d.ns (traceLoop (withTables d (T i)) (U i) e face j)) (fun i => traceState d (X i) e face j)
      (traceState d X0 e face j) := by
  have key : TrVec l A (fun i => cArr d.ns (traceLoop (withTables d (T i)) (U i) e face j))
      (fun i => cArr d.ns (traceLoop d (X i) e face j)) (cArr d.ns (traceLoop d X0 e face j)) := by
    refine TrVec.cArr fun s hs => ?_
    unfold traceLoop
    simp only [loopSum_eq (K := ℝ)]
    exact Tr.zero.add hA (Tr.loop hA fun b hb => (Tr.one.mul hA (hT.faceBasis face hf j hj b hb)).mul hA (hU e he b hb s hs))
  have e1 : ∀ X : Coeffs ℝ, cArr d.ns (traceLoop d X e face j) = traceState d X e face j := by
    intro X
    funext s
    unfold cArr
    by_cases hs : s < d.ns
    · rw [if_pos hs, traceLoop_eq d X _ _ _ hs]
    · rw [if_neg hs, traceState, if_neg hs]
  simp only [e1] at key
  exact key

/-- the flux functions of the machine follow those of `d` where `good` holds in the limit -/
structure FluxTr (l : Filter ι) (A : ι → Arith) (d : Disc ℝ) (T : ∀ i, Tables (A i).K)
    (good : (ℕ → ℝ) → Prop) (good2 : (ℕ → ℝ) → (ℕ → ℝ) → (ℕ → ℝ) → Prop) : Prop where
  vol : ∀ {a : ∀ i, ℕ → (A i).K} {x : ι → ℕ → ℝ} {x0 : ℕ → ℝ}, TrVec l A a x x0 → good x0 →
    ∀ j < d.dim, ∀ s < d.ns, Tr l A (fun i => (T i).volFlux (a i) (j * d.ns + s)) (fun i => d.volFlux (x i) (j * d.ns + s))
      (d.volFlux x0 (j * d.ns + s))
  num : ∀ {a b n : ∀ i, ℕ → (A i).K} {x y : ι → ℕ → ℝ} {x0 y0 n0 : ℕ → ℝ}, TrVec l A a x x0 → TrVec l A b y y0 →
    TrVec l A n (fun _ => n0) n0 → good2 x0 y0 n0 → ∀ s < d.ns,
    Tr l A (fun i => (T i).numFlux (a i) (b i) (n i) s) (fun i => d.numFlux (x i) (y i) n0 s) (d.numFlux x0 y0 n0 s)

variable {norient : ℕ}

theorem slotRef_tr (hA : Fine l A) (hm : MeshOK m) (hc : Conforming d norient m) (ho : OrderOK d norient)
    {T : ∀ i, Tables (A i).K}
    (hT : TablesTr l A d T) {g : ∀ i, Geom (A i).K} (hG : GeomTr l A d m G g)
    {good : (ℕ → ℝ) → Prop} {good2 : (ℕ → ℝ) → (ℕ → ℝ) → (ℕ → ℝ) → Prop} (hF : FluxTr l A d T good good2)
    {U : ∀ i, Coeffs (A i).K} {X : ι → Coeffs ℝ} {X0 : Coeffs ℝ} (hU : TrCoeffs l A d m.numElems U X X0)
    (hgood : ∀ x ∈ m.faces.zipIdx, ∀ i < d.nqf, good2 (traceState d X0 x.1.elemL x.1.faceL (d.ptsOrder x.1.orientL i))
      (traceState d X0 x.1.elemR x.1.faceR (d.ptsOrder x.1.orientR i)) (cArr d.dim (G.normals x.2 i)))
    {e j s : ℕ} (hj : j < d.nface * d.nqf) (hs : s < d.ns) :
    Tr l A (fun i => slotRef (withTables d (T i)) m (g i) (U i) e j s) (fun i => slotRef d m G (X i) e j s)
      (slotRef d m G X0 e j s) := by
  have hcK : ∀ i, Conforming (withTables d (T i)) norient m := fun i => ⟨hc.faceL, hc.faceR, hc.sides⟩
  have hoK : ∀ i, OrderOK (withTables d (T i)) norient := fun i => ho
  -- the flux of a face
  have flux : ∀ (gi : ℕ) (f : IFace) (iq : ℕ), IsFace m gi f → iq < d.nqf →
      Tr l A (fun i => meshFluxLoop (withTables d (T i)) (g i) (U i) gi f iq s)
        (fun i => meshFluxLoop d G (X i) gi f iq s) (meshFluxLoop d G X0 gi f iq s) := by
    intro gi f iq hf hq
    have hfm := List.mem_of_getElem? hf
    have hx : (f, gi) ∈ m.faces.zipIdx := List.mem_zipIdx_iff_getElem?.2 hf
    have hgi : gi < m.faces.length := (List.getElem?_eq_some_iff.1 hf).1
    have e1 : ∀ (X : Coeffs ℝ), meshFluxLoop d G X gi f iq s = meshFlux d G X gi f iq s := by
      intro X
      unfold meshFluxLoop meshFlux
      have : ∀ e face j, cArr d.ns (traceLoop d X e face j) = traceState d X e face j := by
        intro e face j
        funext s
        unfold cArr
        by_cases hs : s < d.ns
        · rw [if_pos hs, traceLoop_eq d X _ _ _ hs]
        · rw [if_neg hs, traceState, if_neg hs]
      rw [this, this]
    simp only [e1]
    unfold meshFlux meshFluxLoop
    refine Tr.mul hA ?_ (hT.faceWts iq hq)
    refine hF.num (traceLoop_tr hA hT hU (hm.faces f hfm).1 (hc.faceL f hfm).1 ((ho _ (hc.faceL f hfm).2).1 iq hq))
      (traceLoop_tr hA hT hU (hm.faces f hfm).2 (hc.faceR f hfm).1 ((ho _ (hc.faceR f hfm).2).1 iq hq))
      (TrVec.cArr fun k hk => hG.normals gi hgi iq hq k hk) (hgood _ hx iq hq) s hs
  by_cases h1 : ∃ (gi : ℕ) (f : IFace) (iq : ℕ), IsFace m gi f ∧ iq < d.nqf ∧ e = f.elemL ∧
    j = f.faceL * d.nqf + d.ptsOrder f.orientL iq
  · obtain ⟨gi, f, iq, a1, a2, a3, a4⟩ := h1
    have r1 : ∀ Y : Coeffs ℝ, slotRef d m G Y e j s = -1 * meshFluxLoop d G Y gi f iq s := fun Y =>
      (SlotVal.eq_ref hc ho (Or.inl ⟨gi, f, iq, a1, a2, a3, a4, rfl⟩)).symm
    have r2 : ∀ i, slotRef (withTables d (T i)) m (g i) (U i) e j s =
        -1 * meshFluxLoop (withTables d (T i)) (g i) (U i) gi f iq s := fun i =>
      (SlotVal.eq_ref (hcK i) (hoK i) (Or.inl ⟨gi, f, iq, a1, a2, a3, a4, rfl⟩)).symm
    simp only [r1, r2]
    exact Tr.mul hA Tr.one.neg (flux gi f iq a1 a2)
  by_cases h2 : ∃ (gi : ℕ) (f : IFace) (iq : ℕ), IsFace m gi f ∧ iq < d.nqf ∧ e = f.elemR ∧
    j = f.faceR * d.nqf + d.ptsOrder f.orientR iq
  · obtain ⟨gi, f, iq, a1, a2, a3, a4⟩ := h2
    have r1 : ∀ Y : Coeffs ℝ, slotRef d m G Y e j s = meshFluxLoop d G Y gi f iq s := fun Y =>
      (SlotVal.eq_ref hc ho (Or.inr (Or.inl ⟨gi, f, iq, a1, a2, a3, a4, rfl⟩))).symm
    have r2 : ∀ i, slotRef (withTables d (T i)) m (g i) (U i) e j s =
        meshFluxLoop (withTables d (T i)) (g i) (U i) gi f iq s := fun i =>
      (SlotVal.eq_ref (hcK i) (hoK i) (Or.inr (Or.inl ⟨gi, f, iq, a1, a2, a3, a4, rfl⟩))).symm
    simp only [r1, r2]
    exact flux gi f iq a1 a2
  -- no face has this slot
  have r1 : ∀ Y : Coeffs ℝ, slotRef d m G Y e j s = 0 := by
    intro Y
    unfold slotRef
    split_ifs with h
    · rcases h.choose_spec with ⟨gi, f, iq, a1, a2, a3, a4, a5⟩ | ⟨gi, f, iq, a1, a2, a3, a4, a5⟩ | ⟨-, a5⟩
      · exact absurd ⟨gi, f, iq, a1, a2, a3, a4⟩ h1
      · exact absurd ⟨gi, f, iq, a1, a2, a3, a4⟩ h2
      · exact a5
    · rfl
  have r2 : ∀ i, slotRef (withTables d (T i)) m (g i) (U i) e j s = 0 := by
    intro i
    unfold slotRef
    split_ifs with h
    · rcases h.choose_spec with ⟨gi, f, iq, a1, a2, a3, a4, a5⟩ | ⟨gi, f, iq, a1, a2, a3, a4, a5⟩ | ⟨-, a5⟩
      · exact absurd ⟨gi, f, iq, a1, a2, a3, a4⟩ h1
      · exact absurd ⟨gi, f, iq, a1, a2, a3, a4⟩ h2
      · exact a5
    · rfl
  simp only [r1, r2]
  exact Tr.zero

theorem volumeIntegral_tr (hA : Fine l A) {T : ∀ i, Tables (A i).K} (hT : TablesTr l A d T)
    {F : ∀ i, ℕ → ℕ → ℕ → (A i).K} {X : ι → ℕ → ℕ → ℕ → ℝ} {X0 : ℕ → ℕ → ℕ → ℝ} {b s : ℕ} (hb : b < d.nb)
    (h : ∀ q < d.nq, ∀ j < d.dim, Tr l A (fun i => F i q s j) (fun i => X i q s j) (X0 q s j)) :
    Tr l A (fun i => volumeIntegral (withTables d (T i)) (F i) b s 0) (fun i => volumeIntegral d (X i) b s 0)
      (volumeIntegral d X0 b s 0) := by
  unfold volumeIntegral
  have main : ∀ n ≤ d.nq, Tr l A (fun i => (List.range n).foldl (fun acc iq =>
      (List.range d.dim).foldl (fun acc id => acc + (T i).volGrad iq b id * F i iq s id) acc) 0)
      (fun i => (List.range n).foldl (fun acc iq =>
      (List.range d.dim).foldl (fun acc id => acc + d.volGrad iq b id * X i iq s id) acc) 0)
      ((List.range n).foldl (fun acc iq =>
      (List.range d.dim).foldl (fun acc id => acc + d.volGrad iq b id * X0 iq s id) acc) 0) := by
    intro n
    induction n with
    | zero => intro _; simpa using Tr.zero
    | succ n ih =>
      intro hn
      simp only [List.range_succ, List.foldl_append, List.foldl_cons, List.foldl_nil]
      have h1 := Tr.fold hA (n := d.dim) (F := fun i j => (T i).volGrad n b j * F i n s j)
        (X := fun j i => d.volGrad n b j * X i n s j) (X0 := fun j => d.volGrad n b j * X0 n s j)
        (fun j hj => (hT.volGrad n (by omega) b hb j hj).mul hA (h n (by omega) j hj)) (ih (by omega))
      have e1 : ∀ (v : ℝ) (f : ℕ → ℝ), (List.range d.dim).foldl (fun acc j => acc + f j) v =
          v + ∑ j ∈ Finset.range d.dim, f j := by
        intro v f
        generalize d.dim = k
        induction k with
        | zero => simp
        | succ k ih => simp [List.range_succ, Finset.sum_range_succ, ih, add_assoc]
      simp only [← e1] at h1
      exact h1
  exact main d.nq le_rfl

/-- The residual in rounded arithmetic follows the exact residual. -/
theorem resRef_tr (hA : Fine l A) (hm : MeshOK m) (hc : Conforming d norient m) (ho : OrderOK d norient)
    {T : ∀ i, Tables (A i).K}
    (hT : TablesTr l A d T) {g : ∀ i, Geom (A i).K} (hG : GeomTr l A d m G g)
    {good : (ℕ → ℝ) → Prop} {good2 : (ℕ → ℝ) → (ℕ → ℝ) → (ℕ → ℝ) → Prop} (hF : FluxTr l A d T good good2)
    {U : ∀ i, Coeffs (A i).K} {X : ι → Coeffs ℝ} {X0 : Coeffs ℝ} (hU : TrCoeffs l A d m.numElems U X X0)
    (hvol : ∀ e < m.numElems, ∀ q < d.nq, good (volState d X0 e q))
    (hgood : ∀ x ∈ m.faces.zipIdx, ∀ i < d.nqf, good2 (traceState d X0 x.1.elemL x.1.faceL (d.ptsOrder x.1.orientL i))
      (traceState d X0 x.1.elemR x.1.faceR (d.ptsOrder x.1.orientR i)) (cArr d.dim (G.normals x.2 i))) :
    TrCoeffs l A d m.numElems (fun i => resRef (withTables d (T i)) m (g i) (U i)) (fun i => globalResidual d m G (X i))
      (globalResidual d m G X0) := by
  intro e he b hb s hs
  simp only [← resRef_real hm hc ho G _ he hb hs]
  unfold resRef cATxBpC_to_C gemm
  have k1 : ∀ i, (1 : (A i).K) ≠ 0 := fun i => (A i).one_ne_zero
  have k2 : ∀ i, b < (withTables d (T i)).nb ∧ s < (withTables d (T i)).ns := fun i => ⟨hb, hs⟩
  simp only [k1, k2, hb, hs, and_self, if_true, if_false, one_ne_zero, loopSum_eq (K := ℝ)]
  have k3 : ∀ i, (withTables d (T i)).nface * (withTables d (T i)).nqf = d.nface * d.nqf := fun _ => rfl
  simp only [k3]
  refine Tr.add hA ?_ (Tr.loop hA fun p hp => ?_)
  · refine volumeIntegral_tr hA hT hb fun q hq j hj => ?_
    unfold volumeFlux
    simp only [loopSum_eq (K := ℝ)]
    refine Tr.loop hA fun k hk => ?_
    refine ((Tr.mul hA ?_ (hG.ijac e he q hq j hj k hk)).mul hA (hG.djac e he q hq)).mul hA (hT.volWts q hq)
    have ev : TrVec l A (fun i => cArr d.ns (evaluateState d.nq d.nb d.ns (T i).volBasis (U i e) (fun _ _ => 0) q))
        (fun i => cArr d.ns (evaluateState d.nq d.nb d.ns d.volBasis (X i e) (fun _ _ => 0) q))
        (cArr d.ns (evaluateState d.nq d.nb d.ns d.volBasis (X0 e) (fun _ _ => 0) q)) :=
      TrVec.cArr fun s' hs' => evaluateState_tr hA hq hs' (b := fun _ => d.volBasis)
        (fun k hk => hT.volBasis q hq k hk) (fun k hk => hU e he k hk s' hs')
    refine hF.vol ev ?_ k hk s hs
    have e1 : cArr d.ns (evaluateState d.nq d.nb d.ns d.volBasis (X0 e) (fun _ _ => 0) q) = volState d X0 e q := by
      funext s'
      unfold cArr volState evaluateState cAxB_to_C gemm
      by_cases hs' : s' < d.ns
      · simp only [hq, hs', and_self, if_true, loopSum_eq, zero_add, one_mul]
      · simp only [hs', if_false]
    rw [e1]
    exact hvol e he q hq
  · refine (Tr.one.mul hA ?_).mul hA (slotRef_tr hA hm hc ho hT hG hF hU hgood hp hs)
    unfold faceBasisFlat
    have hn : 0 < d.nqf := by
      rcases Nat.eq_zero_or_pos d.nqf with h | h
      · have hp' : p < d.nface * d.nqf := hp
        rw [h] at hp'; simp at hp'
      · exact h
    exact hT.faceBasis _ ((Nat.div_lt_iff_lt_mul hn).2 hp) _ (Nat.mod_lt _ hn) b hb

end
end DG
