import Verif.Lemmas.RoundExact
import Verif.Lemmas.RoundWorld

/-!
A complete case - mesh file, setup and run - in rounded arithmetic.
-/
namespace DG

theorem MachineScheme.mono {A : Arith} {κ κ' : ℝ} (h : κ ≤ κ') {f : NumericalFluxType} {γ : ℝ} {d : Disc ℝ} {D : Disc A.K}
    (H : MachineScheme A κ f γ d D) : MachineScheme A κ' f γ d D := by
  obtain ⟨h1, h2, h3, h4, h5, h6, h7, a1, a2, a3, a4, a5, γ', j, j', c1, c2, c3⟩ := H
  exact ⟨h1, h2, h3, h4, h5, h6, h7, fun q hq b hb => (a1 q hq b hb).mono h, fun q hq b hb j hj => (a2 q hq b hb j hj).mono h,
    fun q hq => (a3 q hq).mono h, fun f hf q hq b hb => (a4 f hf q hq b hb).mono h, fun q hq => (a5 q hq).mono h,
    γ', j, j', c1.mono h, c2, c3⟩

/-- what the ranks compute, on every computer that is precise enough -/
theorem SetupIs.machine {sh : ShapeType} {t gt : BasisType} {p gorder nb ns nq nqf : ℕ} {m : GMesh ℝ} {ok : IFace → Prop}
    {ic : (ℕ → ℝ) → ℕ → ℝ} {G : Geom ℝ} {U : Coeffs ℝ} {mass vol proj : RefData ℝ} {fr : FaceRef ℝ}
    {N1 N2 : ℕ → ℕ → List (ℕ → ℝ)}
    (h : SetupIs sh t gt p gorder nb ns nq nqf m ok ic G U mass vol proj fr N1 N2)
    {fsh gfsh : Option ShapeType} (hsh : basisShape t = some (sh, fsh)) (hgsh : basisShape gt = some (sh, gfsh))
    (hnb : shapeNumBasis sh p = some nb) (hgnb : shapeNumBasis sh gorder = some (shapeNodes sh gorder))
    (hn : m.npe = shapeNodes sh gorder) (hf : ∀ f ∈ m.faces, f.faceL < shapeFaces sh ∧ f.faceR < shapeFaces sh)
    (κ : ℝ) {R : ∀ A : Arith, ((ℕ → A.K) → ℕ → A.K) → Prop} (hic : ComputesAll (shapeDim sh) ns R ic)
    {vf : (ℕ → ℝ) → ℕ → ℝ} {nf : (ℕ → ℝ) → (ℕ → ℝ) → (ℕ → ℝ) → ℕ → ℝ} {d : Disc ℝ}
    (hd : buildDisc t gt p gorder ns vf nf = some d) (f : NumericalFluxType) (γ : ℝ) :
    ∃ κ' u0 B : ℝ, 0 < u0 ∧ ∀ A : Arith, A.u ≤ u0 → B ≤ A.big → ∀ ic' : (ℕ → A.K) → ℕ → A.K, R A ic' →
      ∀ m' : GMesh A.K, MeshRead A κ (shapeDim sh) m m' →
      ∀ (γ' : A.K) (junk junk' : ℕ → A.K), A.Close κ γ' γ →
      ∃ D, buildDisc t gt p gorder ns (fun U => Fl.convFlux (shapeDim sh) γ' U junk') (machineNumFlux f (shapeDim sh) γ' junk) = some D ∧
        MachineScheme A κ' f γ d D ∧
        ∀ (nranks : ℕ) (part : List ℕ) (rms : ℕ → RankMesh A.K), World m' nranks part rms →
        (∀ f ∈ m.faces, part[f.elemL]? ≠ part[f.elemR]? → ok f) →
        ∀ r < nranks, ∀ scr MM0, ∃ g, buildGeom t gt p gorder r (rms r) scr MM0 = some g ∧ GeomClose A κ' d (rms r) g G ∧
          ∀ rhs0 Uin, ∃ u, initState t gt p gorder ns (rms r) g.iMM ic' rhs0 Uin = some u ∧ CoeffsClose A κ' d (rms r) u U := by
  obtain ⟨κ1, u0, B, hu0, H⟩ := setup_close h.exact κ hic
  have hde : some d = some
      { dim := shapeDim sh, ns := ns, nb := nb, nq := vol.nq, nface := shapeFaces sh,
        nqf := fr.nqf, volBasis := vol.val, volGrad := vol.grad, volWts := vol.wts,
        faceBasis := fr.val, faceWts := fr.wts,
        ptsOrder := fun o iq => (((facePtsOrder sh o fr.nqf)[iq]?).getD 0).toNat,
        volFlux := vf, numFlux := nf } := by
    rw [← hd]
    unfold DG.buildDisc
    rw [hsh]
    simp only [Option.bind_eq_bind, Option.bind_some, hnb, h.exact.volE, h.exact.faceE]
  cases hde
  refine ⟨max κ κ1, u0, B, hu0, ?_⟩
  have hκ : κ1 ≤ max κ κ1 := le_max_right _ _
  intro A hu hB ic' hic' m' hR γ' junk junk' hγ
  have hX : ∀ e < m.numElems, ∀ i < shapeNodes sh gorder, ∀ j < shapeDim sh,
      A.Close κ (fileCoords m' e i j) (fileCoords m e i j) := by rw [← hn]; exact hR.coords
  obtain ⟨mass', vol', proj', fr', M⟩ := H A hu hB ic' hic' (fileCoords m') hX
  refine ⟨_, M.buildDisc hsh hnb _ _, ?_, ?_⟩
  · refine ⟨rfl, rfl, rfl, M.nq, rfl, M.nqf, by simp only [M.nqf], ?_, ?_, ?_, ?_, ?_, γ', junk, junk', hγ.mono (le_max_left _ _), rfl, rfl⟩
    · exact fun q hq b hb => (M.val q hq b hb).mono hκ
    · exact fun q hq b hb j hj => (M.grad q hq b hb j hj).mono hκ
    · exact fun q hq => (M.wts q hq).mono hκ
    · exact fun f hf q hq b hb => (M.fval f hf q hq b hb).mono hκ
    · exact fun q hq => (M.fwts q hq).mono hκ
  · intro nranks part rms w hcut r hr scr MM0
    have M' : MachineSetup A κ1 sh t gt p gorder nb ns m'.numElems (fileCoords m) (fileCoords m') ic ic' mass vol proj fr N1 N2
        mass' vol' proj' fr' := by rw [hR.numElems]; exact M
    have hn' : m'.npe = shapeNodes sh gorder := hR.npe.trans hn
    have hlt : ∀ k e : ℕ, (rms r).l2gElem[k]? = some e → e < m.numElems := by
      intro k e hk; rw [← hR.numElems]; exact w.elem_lt' hr hk
    obtain ⟨g, g1, g2, g3, g4, g5, g6⟩ := M'.buildGeom hsh hnb w hn' (by rw [hR.faces]; exact hf) hr scr MM0
    refine ⟨g, g1, ⟨?_, ?_, ?_, ?_⟩, ?_⟩
    · intro k e hk q hq
      rw [← h.djac e (hlt k e hk) q (by rw [← h.nqE]; exact hq)]
      exact (g2 k e hk q hq).mono hκ
    · intro k e hk q hq i hi j hj
      rw [← h.ijac e (hlt k e hk) q (by rw [← h.nqE]; exact hq) i hi j hj]
      exact (g3 k e hk q hq i hi j hj).mono hκ
    · intro k e hk i hi j hj
      rw [← h.iMM e (hlt k e hk) i hi j hj]
      exact (g4 k e hk i hi j hj).mono hκ
    · intro i a hi q hq j hj
      obtain ⟨fc, row, a1, a2, a3, a4, a5, a6, a7, a8, a9, a10, a12⟩ := w.record hr hi
      have a1' : IsFace m a fc := by
        unfold IsFace at a1 ⊢
        rw [← hR.faces]; exact a1
      obtain ⟨b1, b2⟩ := g5 i a hi fc a1 q hq j hj
      have hq' : q < nqf := by rw [← h.nqfE]; exact hq
      by_cases ho : Owns part r fc.elemL
      · rw [← h.normalsL a fc a1' q hq' j hj]
        exact (b1 ho).mono hκ
      · have hcut' : part[fc.elemL]? ≠ part[fc.elemR]? := by
          intro e
          have c1 : part[fc.elemL]? = some row.rankL := a3
          have c2 : part[fc.elemR]? = some row.rankR := a4
          have hL : row.rankL ≠ r := by
            rintro rfl
            exact ho c1
          have hR : row.rankR = r := a5.resolve_left hL
          rw [c1, c2] at e
          exact hL ((Option.some.inj e).trans hR)
        rw [← h.normalsR a fc a1' (hcut fc (List.mem_of_getElem? a1') hcut') q hq' j hj]
        exact (b2 ho).mono hκ
    · intro rhs0 Uin
      obtain ⟨u, u1, u2⟩ := M'.initState hsh hgsh hnb hgnb w hn' hr (iMM := g.iMM) g6 rhs0 Uin
      refine ⟨u, u1, ?_⟩
      intro k e hk b hb s hs
      rw [← h.init e (hlt k e hk) b hb s hs]
      exact (u2 k e hk b hb s hs).mono hκ

/-- tables, geometry and start of a launched case against a textbook form `dE` of the scheme -/
theorem SetupIs.launched {sh : ShapeType} {t gt : BasisType} {p gorder nb ns nq nqf : ℕ} {m : GMesh ℝ} {ok : IFace → Prop}
    {ic : (ℕ → ℝ) → ℕ → ℝ} {G : Geom ℝ} {U : Coeffs ℝ} {mass vol proj : RefData ℝ} {fr : FaceRef ℝ}
    {N1 N2 : ℕ → ℕ → List (ℕ → ℝ)}
    (h : SetupIs sh t gt p gorder nb ns nq nqf m ok ic G U mass vol proj fr N1 N2)
    {fsh gfsh : Option ShapeType} (hsh : basisShape t = some (sh, fsh)) (hgsh : basisShape gt = some (sh, gfsh))
    (hnb : shapeNumBasis sh p = some nb) (hgnb : shapeNumBasis sh gorder = some (shapeNodes sh gorder))
    (hn : m.npe = shapeNodes sh gorder) (hf : ∀ f ∈ m.faces, f.faceL < shapeFaces sh ∧ f.faceR < shapeFaces sh)
    (κ : ℝ) {R : ∀ A : Arith, ((ℕ → A.K) → ℕ → A.K) → Prop} (hic : ComputesAll (shapeDim sh) ns R ic)
    {vf : (ℕ → ℝ) → ℕ → ℝ} {nf : (ℕ → ℝ) → (ℕ → ℝ) → (ℕ → ℝ) → ℕ → ℝ} {d : Disc ℝ}
    (hd : buildDisc t gt p gorder ns vf nf = some d) (f : NumericalFluxType) (γ : ℝ) :
    ∃ κ' u0 B : ℝ, 0 < u0 ∧ ∀ A : Arith, A.u ≤ u0 → B ≤ A.big → ∀ ic' : (ℕ → A.K) → ℕ → A.K, R A ic' →
      ∀ m' : GMesh A.K, MeshRead A κ (shapeDim sh) m m' →
      ∀ (γ' : A.K) (junk junk' : ℕ → A.K), A.Close κ γ' γ →
      ∀ (nranks : ℕ) (part : List ℕ) (rms : ℕ → RankMesh A.K) (D : Disc A.K) (g : ℕ → Geom A.K) (u : ℕ → Coeffs A.K),
        (∀ f ∈ m.faces, part[f.elemL]? ≠ part[f.elemR]? → ok f) →
        Launched t gt p gorder ns (fun U => Fl.convFlux (shapeDim sh) γ' U junk') (machineNumFlux f (shapeDim sh) γ' junk)
          ic' m' nranks part rms D g u →
        MachineScheme A κ' f γ d D ∧ ∀ r < nranks, GeomClose A κ' d (rms r) (g r) G ∧ CoeffsClose A κ' d (rms r) (u r) U := by
  obtain ⟨κ', u0, B, hu0, H⟩ := h.machine hsh hgsh hnb hgnb hn hf κ hic hd f γ
  refine ⟨κ', u0, B, hu0, ?_⟩
  intro A hu hB ic' hic' m' hR γ' junk junk' hγ nranks part rms D g u hcut L
  obtain ⟨D0, d1, d2, d3⟩ := H A hu hB ic' hic' m' hR γ' junk junk' hγ
  rw [L.disc] at d1
  cases d1
  refine ⟨d2, fun r hr => ?_⟩
  obtain ⟨scr, MM0, e1⟩ := L.geom r hr
  obtain ⟨rhs0, Uin, e2⟩ := L.init r hr
  obtain ⟨g0, g1, g2, g3⟩ := d3 nranks part rms L.world hcut r hr scr MM0
  rw [e1] at g1
  cases g1
  obtain ⟨u1, u2, u3⟩ := g3 rhs0 Uin
  rw [e2] at u2
  cases u2
  exact ⟨g2, u3⟩

section textbook
variable {α : Type} {A : Arith} {κ : ℝ} {norient : ℕ} {d dE : Disc ℝ} {f : NumericalFluxType} {γ : ℝ}

/-- the tables against another form of the scheme -/
theorem MachineScheme.textbook {D : Disc A.K} (H : MachineScheme A κ f γ d D) (ag : DiscAgree norient d dE) :
    MachineScheme A κ f γ { dE with ptsOrder := D.ptsOrder } D ∧ ∀ o < norient, ∀ i < dE.nqf, D.ptsOrder o i = dE.ptsOrder o i := by
  obtain ⟨h1, h2, h3, h4, h5, h6, h7, a1, a2, a3, a4, a5, γ', j, j', c1, c2, c3⟩ := H
  obtain ⟨e1, e2, e3, e4, e5, e6, hvb, hvg, hvw, hfb, hfw, hpo, hvf, hnf⟩ := ag
  refine ⟨⟨h1.trans e1, h2.trans e2, h3.trans e3, h4.trans e4, h5.trans e5, h6.trans e6, rfl, ?_, ?_, ?_, ?_, ?_, γ', j, j', c1, ?_, ?_⟩, ?_⟩
  · intro q hq b hb
    replace hq : q < d.nq := by rw [e4]; exact hq
    replace hb : b < d.nb := by rw [e3]; exact hb
    have := a1 q hq b hb
    rwa [hvb q hq b hb] at this
  · intro q hq b hb j hj
    replace hq : q < d.nq := by rw [e4]; exact hq
    replace hb : b < d.nb := by rw [e3]; exact hb
    replace hj : j < d.dim := by rw [e1]; exact hj
    have := a2 q hq b hb j hj
    rwa [hvg q hq b hb j hj] at this
  · intro q hq
    replace hq : q < d.nq := by rw [e4]; exact hq
    have := a3 q hq
    rwa [hvw q hq] at this
  · intro f hf q hq b hb
    replace hf : f < d.nface := by rw [e5]; exact hf
    replace hq : q < d.nqf := by rw [e6]; exact hq
    replace hb : b < d.nb := by rw [e3]; exact hb
    have := a4 f hf q hq b hb
    rwa [hfb f hf q hq b hb] at this
  · intro q hq
    replace hq : q < d.nqf := by rw [e6]; exact hq
    have := a5 q hq
    rwa [hfw q hq] at this
  · rw [c2, e1]
  · rw [c3, e1]
  · intro o ho i hi
    rw [h7]
    exact hpo o ho i (by rw [e6]; exact hi)

theorem GeomClose.textbook {rm : RankMesh α} {g : Geom A.K} {G : Geom ℝ} (H : GeomClose A κ d rm g G) (ag : DiscAgree norient d dE) :
    GeomClose A κ dE rm g G := by
  obtain ⟨a1, a2, a3, a4⟩ := H
  rw [ag.nq] at a1 a2
  rw [ag.dim] at a2 a4
  rw [ag.nb] at a3
  rw [ag.nqf] at a4
  exact ⟨a1, a2, a3, a4⟩

theorem CoeffsClose.textbook {rm : RankMesh α} {u : Coeffs A.K} {U : Coeffs ℝ} (H : CoeffsClose A κ d rm u U)
    (ag : DiscAgree norient d dE) : CoeffsClose A κ dE rm u U := by
  unfold CoeffsClose at H ⊢
  rw [ag.nb, ag.ns] at H
  exact H

end textbook

/-- what a rank holds - geometry `g2` and coefficients `u2` - is `g` and `u` wherever the scheme reads -/
def HoldsSetup {K α : Type} (d : Disc K) (rm : RankMesh α) (g : Geom K) (u : Coeffs K) (g2 : Geom K) (u2 : Coeffs K) : Prop :=
  (∀ e < rm.numElemsPart, (∀ q < d.nq, g2.djac e q = g.djac e q ∧ ∀ i < d.dim, ∀ j < d.dim, g2.ijac e q i j = g.ijac e q i j) ∧
    (∀ i < d.nb, ∀ j < d.nb, g2.iMM e i j = g.iMM e i j) ∧ ∀ b < d.nb, ∀ s < d.ns, u2 e b s = u e b s) ∧
  ∀ i < rm.numIFacesPart, ∀ q < d.nqf, ∀ j < d.dim, g2.normals i q j = g.normals i q j

/-- the run of a launched case against a textbook form `dE` of the scheme -/
theorem SetupIs.runHolds {sh : ShapeType} {t gt : BasisType} {p gorder nb ns nq nqf : ℕ} {m : GMesh ℝ} {ok : IFace → Prop}
    {ic : (ℕ → ℝ) → ℕ → ℝ} {G : Geom ℝ} {U : Coeffs ℝ} {mass vol proj : RefData ℝ} {fr : FaceRef ℝ}
    {N1 N2 : ℕ → ℕ → List (ℕ → ℝ)}
    (h : SetupIs sh t gt p gorder nb ns nq nqf m ok ic G U mass vol proj fr N1 N2)
    {fsh gfsh : Option ShapeType} (hsh : basisShape t = some (sh, fsh)) (hgsh : basisShape gt = some (sh, gfsh))
    (hnb : shapeNumBasis sh p = some nb) (hgnb : shapeNumBasis sh gorder = some (shapeNodes sh gorder))
    (hn : m.npe = shapeNodes sh gorder) (hf : ∀ f ∈ m.faces, f.faceL < shapeFaces sh ∧ f.faceR < shapeFaces sh)
    (κ : ℝ) {R : ∀ A : Arith, ((ℕ → A.K) → ℕ → A.K) → Prop} (hic : ComputesAll (shapeDim sh) ns R ic)
    {vf : (ℕ → ℝ) → ℕ → ℝ} {nf : (ℕ → ℝ) → (ℕ → ℝ) → (ℕ → ℝ) → ℕ → ℝ} {d dE : Disc ℝ}
    (hd : buildDisc t gt p gorder ns vf nf = some d) {norient : ℕ} (ag : DiscAgree norient d dE)
    (f : NumericalFluxType) (γ : ℝ) (hm : MeshOK m)
    (hdim : dE.dim = 2 ∨ dE.dim = 3) (hE : EulerScheme dE f γ) (hγ : 1 < γ) (hc : Conforming dE norient m) (ho : OrderOK dE norient)
    (hN : NormalsNonzero dE m G) (T : ℝ) (hT : 0 ≤ T) (y : ℝ → Coeffs ℝ)
    (hy : ExactSolution dE m.numElems T (fun _ => globalRHS dE m G) y)
    (hr : ∀ t ∈ Set.Icc 0 T, StatesRegular f γ dE m G (y t)) (hy0 : AgreeIn dE m.numElems (y 0) U) :
    ∃ C h0 u0 B : ℝ, 0 < h0 ∧ 0 < u0 ∧ ∀ A : Arith, A.u ≤ u0 → B ≤ A.big → ∀ ic' : (ℕ → A.K) → ℕ → A.K, R A ic' →
      ∀ m' : GMesh A.K, MeshRead A κ (shapeDim sh) m m' →
      ∀ (γ' : A.K) (junk junk' : ℕ → A.K), A.Close κ γ' γ →
      ∀ (nranks : ℕ) (part : List ℕ) (rms : ℕ → RankMesh A.K) (D : Disc A.K) (g : ℕ → Geom A.K) (u : ℕ → Coeffs A.K),
        (∀ f ∈ m.faces, part[f.elemL]? ≠ part[f.elemR]? → ok f) →
        Launched t gt p gorder ns (fun U => Fl.convFlux (shapeDim sh) γ' U junk') (machineNumFlux f (shapeDim sh) γ' junk)
          ic' m' nranks part rms D g u →
      ∀ (g2 : ℕ → Geom A.K) (u2 : ℕ → Coeffs A.K), (∀ r < nranks, HoldsSetup D (rms r) (g r) (u r) (g2 r) (u2 r)) →
      ∀ sched : ℕ → ℕ → List (FluxWrite A.K) → List (FluxWrite A.K), (∀ r k l, (sched r k l).Perm l) →
      ∀ (st : Stepper) (dt : A.K), A.fin dt → 0 < A.val dt → A.val dt ≤ h0 → C * A.u ≤ A.val dt →
      ∀ (nsteps k : ℕ) (c : Proto.Conf (FaceArr (ℕ → ℕ → A.K) × Option (RankState A.K)) (List (ℕ → ℕ → A.K))),
      Proto.Exec (solverProg D g2 rms nranks dt st sched nsteps) (Proto.init (solverStart D rms st u2)) c k →
      ∀ r < nranks, ∀ n : ℕ, (c.proc r).round = stagesOf st * n → n * A.val dt ≤ T →
      ∃ s, (c.proc r).st.2 = some s ∧
        ∀ i e : ℕ, (rms r).l2gElem[i]? = some e → ∀ b < dE.nb, ∀ v < dE.ns,
          A.fin (s.Uc i b v) ∧
          |A.val (s.Uc i b v) - (stepOf st (A.val dt) (globalRHS dE m G))^[n] U e b v| ≤ C * (A.u / A.val dt) ∧
          |A.val (s.Uc i b v) - y (n * A.val dt) e b v| ≤ C * (A.val dt + A.u / A.val dt) := by
  have hc' := ag.conforming hc
  have ho' := ag.orderOK ho
  have hE' : EulerScheme d f γ := by
    refine ⟨?_, ?_, ?_⟩
    · rw [ag.ns, ag.dim]; exact hE.vars
    · rw [ag.volFlux, ag.dim]; exact hE.vol
    · rw [ag.numFlux, ag.dim]; exact hE.num
  have hN' : NormalsNonzero d m G := by
    intro a ha i hi
    obtain ⟨j, hj, h⟩ := hN a ha i (by rw [← ag.nqf]; exact hi)
    exact ⟨j, by rw [ag.dim]; exact hj, h⟩
  obtain ⟨κ', u1, B1, hu1, H1⟩ := h.launched hsh hgsh hnb hgnb hn hf κ hic hd f γ
  obtain ⟨C, h0, u2, B2, hh0, hu2, H2⟩ := rounded_run_world m hm d (by rw [ag.dim]; exact hdim) f γ hE' hγ norient hc' ho' G hN' T hT
    y (ag.exactSolution hm hc' ho' hy) (fun t ht => ag.statesRegular hc' ho' (hr t ht)) κ'
  refine ⟨C, h0, min u1 u2, max B1 B2, hh0, lt_min hu1 hu2, ?_⟩
  intro A hu hB ic' hic' m' hR γ' junk junk' hγ' nranks part rms D g u hcut L g2 u2 h2 sched hs st dt hdt hdt0 hdt1 hdt2 nsteps k c hx r hrr n hn hnT
  obtain ⟨hD, hG⟩ := H1 A (hu.trans (min_le_left _ _)) ((le_max_left _ _).trans hB) ic' hic' m' hR γ' junk junk' hγ' nranks part rms D g u hcut L
  have hlt : ∀ r < nranks, ∀ k e : ℕ, (rms r).l2gElem[k]? = some e → e < m.numElems := by
    intro r hr k e hk; rw [← hR.numElems]; exact L.world.elem_lt' hr hk
  have elt : ∀ r < nranks, ∀ k e : ℕ, (rms r).l2gElem[k]? = some e → k < (rms r).numElemsPart :=
    fun r hr k e hk => by rw [L.world.numElems hr]; exact (List.getElem?_eq_some_iff.1 hk).1
  have flt : ∀ r < nranks, ∀ i a : ℕ, (rms r).l2gFace[i]? = some a → i < (rms r).numIFacesPart :=
    fun r hr k e hk => by rw [L.world.numIF hr]; exact (List.getElem?_eq_some_iff.1 hk).1
  have hG2 : ∀ r < nranks, GeomClose A κ' d (rms r) (g2 r) G := by
    intro r hr
    obtain ⟨o1, o2⟩ := h2 r hr
    obtain ⟨p1, p2, p3, p4⟩ := (hG r hr).1
    refine ⟨fun k e hk q hq => ?_, fun k e hk q hq i hi j hj => ?_, fun k e hk i hi j hj => ?_, fun i a hi q hq j hj => ?_⟩
    · rw [((o1 k (elt r hr k e hk)).1 q (by rw [hD.nq]; exact hq)).1]; exact p1 k e hk q hq
    · rw [((o1 k (elt r hr k e hk)).1 q (by rw [hD.nq]; exact hq)).2 i (by rw [hD.dim]; exact hi) j (by rw [hD.dim]; exact hj)]
      exact p2 k e hk q hq i hi j hj
    · rw [(o1 k (elt r hr k e hk)).2.1 i (by rw [hD.nb]; exact hi) j (by rw [hD.nb]; exact hj)]; exact p3 k e hk i hi j hj
    · rw [o2 i (flt r hr i a hi) q (by rw [hD.nqf]; exact hq) j (by rw [hD.dim]; exact hj)]; exact p4 i a hi q hq j hj
  have hU : ∀ r < nranks, CoeffsClose A κ' d (rms r) (u2 r) (y 0) := by
    intro r hr k e hk b hb v hv
    rw [((h2 r hr).1 k (elt r hr k e hk)).2.2 b (by rw [hD.nb]; exact hb) v (by rw [hD.ns]; exact hv), hy0 e (hlt r hr k e hk) b (by rw [← ag.nb]; exact hb) v (by rw [← ag.ns]; exact hv)]
    exact (hG r hr).2 k e hk b hb v hv
  obtain ⟨s, s1, s2⟩ := H2 A (hu.trans (min_le_right _ _)) ((le_max_right _ _).trans hB) D hD A.K m' hR.numElems hR.faces nranks part rms
    L.world g2 hG2 u2 hU sched hs st dt hdt hdt0 hdt1 hdt2 nsteps k c hx r hrr n hn hnT
  refine ⟨s, s1, fun i e hi b hb v hv => ?_⟩
  have hb' : b < d.nb := by rw [ag.nb]; exact hb
  have hv' : v < d.ns := by rw [ag.ns]; exact hv
  have he := hlt r hrr i e hi
  obtain ⟨c1, c2, c3⟩ := s2 i e hi b hb' v hv'
  refine ⟨c1, ?_, c3⟩
  have e1 := ag.run hm hc' ho' G st (A.val dt) (y 0) n e he b hb' v hv'
  have e2 : AgreeIn dE m.numElems ((stepOf st (A.val dt) (globalRHS dE m G))^[n] (y 0)) ((stepOf st (A.val dt) (globalRHS dE m G))^[n] U) := by
    clear c1 c2 c3 e1 hn hnT s2
    induction n with
    | zero => exact hy0
    | succ n ih =>
      rw [Function.iterate_succ_apply', Function.iterate_succ_apply']
      exact stepOf_agree st _ _ _ (rhs_agree hm) _ _ ih
  rw [e1, e2 e he b hb v hv] at c2
  exact c2


/-- the run of a launched case against a textbook form `dE` of the scheme -/
theorem SetupIs.run {sh : ShapeType} {t gt : BasisType} {p gorder nb ns nq nqf : ℕ} {m : GMesh ℝ} {ok : IFace → Prop}
    {ic : (ℕ → ℝ) → ℕ → ℝ} {G : Geom ℝ} {U : Coeffs ℝ} {mass vol proj : RefData ℝ} {fr : FaceRef ℝ}
    {N1 N2 : ℕ → ℕ → List (ℕ → ℝ)}
    (h : SetupIs sh t gt p gorder nb ns nq nqf m ok ic G U mass vol proj fr N1 N2)
    {fsh gfsh : Option ShapeType} (hsh : basisShape t = some (sh, fsh)) (hgsh : basisShape gt = some (sh, gfsh))
    (hnb : shapeNumBasis sh p = some nb) (hgnb : shapeNumBasis sh gorder = some (shapeNodes sh gorder))
    (hn : m.npe = shapeNodes sh gorder) (hf : ∀ f ∈ m.faces, f.faceL < shapeFaces sh ∧ f.faceR < shapeFaces sh)
    (κ : ℝ) {R : ∀ A : Arith, ((ℕ → A.K) → ℕ → A.K) → Prop} (hic : ComputesAll (shapeDim sh) ns R ic)
    {vf : (ℕ → ℝ) → ℕ → ℝ} {nf : (ℕ → ℝ) → (ℕ → ℝ) → (ℕ → ℝ) → ℕ → ℝ} {d dE : Disc ℝ}
    (hd : buildDisc t gt p gorder ns vf nf = some d) {norient : ℕ} (ag : DiscAgree norient d dE)
    (f : NumericalFluxType) (γ : ℝ) (hm : MeshOK m)
    (hdim : dE.dim = 2 ∨ dE.dim = 3) (hE : EulerScheme dE f γ) (hγ : 1 < γ) (hc : Conforming dE norient m) (ho : OrderOK dE norient)
    (hN : NormalsNonzero dE m G) (T : ℝ) (hT : 0 ≤ T) (y : ℝ → Coeffs ℝ)
    (hy : ExactSolution dE m.numElems T (fun _ => globalRHS dE m G) y)
    (hr : ∀ t ∈ Set.Icc 0 T, StatesRegular f γ dE m G (y t)) (hy0 : AgreeIn dE m.numElems (y 0) U) :
    ∃ C h0 u0 B : ℝ, 0 < h0 ∧ 0 < u0 ∧ ∀ A : Arith, A.u ≤ u0 → B ≤ A.big → ∀ ic' : (ℕ → A.K) → ℕ → A.K, R A ic' →
      ∀ m' : GMesh A.K, MeshRead A κ (shapeDim sh) m m' →
      ∀ (γ' : A.K) (junk junk' : ℕ → A.K), A.Close κ γ' γ →
      ∀ (nranks : ℕ) (part : List ℕ) (rms : ℕ → RankMesh A.K) (D : Disc A.K) (g : ℕ → Geom A.K) (u : ℕ → Coeffs A.K),
        (∀ f ∈ m.faces, part[f.elemL]? ≠ part[f.elemR]? → ok f) →
        Launched t gt p gorder ns (fun U => Fl.convFlux (shapeDim sh) γ' U junk') (machineNumFlux f (shapeDim sh) γ' junk)
          ic' m' nranks part rms D g u →
      ∀ sched : ℕ → ℕ → List (FluxWrite A.K) → List (FluxWrite A.K), (∀ r k l, (sched r k l).Perm l) →
      ∀ (st : Stepper) (dt : A.K), A.fin dt → 0 < A.val dt → A.val dt ≤ h0 → C * A.u ≤ A.val dt →
      ∀ (nsteps k : ℕ) (c : Proto.Conf (FaceArr (ℕ → ℕ → A.K) × Option (RankState A.K)) (List (ℕ → ℕ → A.K))),
      Proto.Exec (solverProg D g rms nranks dt st sched nsteps) (Proto.init (solverStart D rms st u)) c k →
      ∀ r < nranks, ∀ n : ℕ, (c.proc r).round = stagesOf st * n → n * A.val dt ≤ T →
      ∃ s, (c.proc r).st.2 = some s ∧
        ∀ i e : ℕ, (rms r).l2gElem[i]? = some e → ∀ b < dE.nb, ∀ v < dE.ns,
          A.fin (s.Uc i b v) ∧
          |A.val (s.Uc i b v) - (stepOf st (A.val dt) (globalRHS dE m G))^[n] U e b v| ≤ C * (A.u / A.val dt) ∧
          |A.val (s.Uc i b v) - y (n * A.val dt) e b v| ≤ C * (A.val dt + A.u / A.val dt) := by
  obtain ⟨C, h0, u0, B, hh0, hu0, H⟩ := h.runHolds hsh hgsh hnb hgnb hn hf κ hic hd ag f γ hm hdim hE hγ hc ho hN T hT y hy hr hy0
  refine ⟨C, h0, u0, B, hh0, hu0, ?_⟩
  intro A hu hB ic' hic' m' hR γ' junk junk' hγ' nranks part rms D g u hcut L
  exact H A hu hB ic' hic' m' hR γ' junk junk' hγ' nranks part rms D g u hcut L g u
    (fun r _ => ⟨fun _ _ => ⟨fun _ _ => ⟨rfl, fun _ _ _ _ => rfl⟩, fun _ _ _ _ => rfl, fun _ _ _ _ => rfl⟩, fun _ _ _ _ _ _ => rfl⟩)

end DG
