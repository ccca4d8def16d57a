import Verif.Lemmas.BitsSetup
import Verif.Lemmas.WorldExtend
import Verif.Spec.Bits

/-!
Property C80: reproducibility bit by bit.  The numbers of the program are any type with the operations of
the program; nothing is assumed about them (no associativity, no commutativity, no inverses), so the
theorems hold for IEEE doubles with any rounding, NaNs and signed zeros included.
-/
namespace DG

variable {K : Type} [Zero K] [One K] [Add K] [Sub K] [Mul K] [Neg K] [Div K] [NatCast K] [DecidableEq K]
variable {α : Type}

/-- **C80** (the time loop).  Two runs of a case - on any numbers of ranks, partitions, interleavings and
orders of the flux loops - in which a rank of the first and a rank of the second have completed the same
number of residual evaluations, at any moment of the runs: the coefficients of every element they both
have are the same bits, and so is the time. -/
theorem C80_time_loop (m : GMesh α) (d : Disc K) (norient : ℕ) (hc : Conforming d norient m)
    (ho : OrderOK d norient) (G : Geom K) (st : Stepper) (dt : K) (U0 : Coeffs K) (nsteps nsteps' : ℕ)
    (nranks : ℕ) (part : List ℕ) (rms : ℕ → RankMesh α) (w : World m nranks part rms)
    (g : ℕ → Geom K) (hg : ∀ r < nranks, GeomRestrict d (rms r) (g r) G)
    (sched : ℕ → ℕ → List (FluxWrite K) → List (FluxWrite K)) (hs : ∀ r k l, (sched r k l).Perm l)
    (Uc0 : ℕ → Coeffs K) (hu : ∀ r < nranks, CoeffsRestrict d (rms r) (Uc0 r) U0) (k : ℕ)
    (c : Proto.Conf (FaceArr (ℕ → ℕ → K) × Option (RankState K)) (List (ℕ → ℕ → K)))
    (hx : Proto.Exec (solverProg d g rms nranks dt st sched nsteps)
      (Proto.init (solverStart d rms st Uc0)) c k)
    (nranks' : ℕ) (part' : List ℕ) (rms' : ℕ → RankMesh α) (w' : World m nranks' part' rms')
    (g' : ℕ → Geom K) (hg' : ∀ r < nranks', GeomRestrict d (rms' r) (g' r) G)
    (sched' : ℕ → ℕ → List (FluxWrite K) → List (FluxWrite K)) (hs' : ∀ r k l, (sched' r k l).Perm l)
    (Uc0' : ℕ → Coeffs K) (hu' : ∀ r < nranks', CoeffsRestrict d (rms' r) (Uc0' r) U0) (k' : ℕ)
    (c' : Proto.Conf (FaceArr (ℕ → ℕ → K) × Option (RankState K)) (List (ℕ → ℕ → K)))
    (hx' : Proto.Exec (solverProg d g' rms' nranks' dt st sched' nsteps')
      (Proto.init (solverStart d rms' st Uc0')) c' k')
    (r : ℕ) (hr : r < nranks) (r' : ℕ) (hr' : r' < nranks')
    (hround : (c.proc r).round = (c'.proc r').round) :
    ∃ s s', (c.proc r).st.2 = some s ∧ (c'.proc r').st.2 = some s' ∧ s.time = s'.time ∧
      ∀ i i' e : ℕ, (rms r).l2gElem[i]? = some e → (rms' r').l2gElem[i']? = some e →
        ∀ b < d.nb, ∀ v < d.ns, s.Uc i b v = s'.Uc i' b v := by
  obtain ⟨s, h⟩ := w.bitsRun hc ho hg hs hu hx hr
  obtain ⟨s', h'⟩ := w'.bitsRun hc ho hg' hs' hu' hx' hr'
  rw [← hround] at h'
  refine ⟨s, s', h.state, h'.state, by rw [h.via.time, h'.via.time], ?_⟩
  intro i i' e hi hi' b hb v hv
  have e1 := (restrict_iff_via (w.numElems hr) _ _).2 h.via.Uc
  have e2 := (restrict_iff_via (w'.numElems hr') _ _).2 h'.via.Uc
  rw [e1 i e hi b hb v hv, e2 i' e hi' b hb v hv]

/-- **C80** (the run completes).  Whatever the numbers do and whatever geometry and coefficients each rank starts from, no rank makes an out-of-bounds access or fails in
the exchange, at any point of any execution, and every execution can be continued to the end. -/
theorem C80_run_completes (m : GMesh α) (d : Disc K) (norient : ℕ) (hc : Conforming d norient m)
    (ho : OrderOK d norient) (st : Stepper) (dt : K) (nsteps : ℕ)
    (nranks : ℕ) (part : List ℕ) (rms : ℕ → RankMesh α) (w : World m nranks part rms)
    (g : ℕ → Geom K)
    (sched : ℕ → ℕ → List (FluxWrite K) → List (FluxWrite K)) (hs : ∀ r k l, (sched r k l).Perm l)
    (Uc0 : ℕ → Coeffs K) (k : ℕ)
    (c : Proto.Conf (FaceArr (ℕ → ℕ → K) × Option (RankState K)) (List (ℕ → ℕ → K)))
    (hx : Proto.Exec (solverProg d g rms nranks dt st sched nsteps)
      (Proto.init (solverStart d rms st Uc0)) c k) :
    (∀ r < nranks, (c.proc r).phase ≠ .failed ∧ (c.proc r).st.2 ≠ none) ∧
    ∃ c' k', Proto.Exec (solverProg d g rms nranks dt st sched nsteps) c c' k' ∧
      ∀ r < nranks, (c'.proc r).round = stagesOf st * nsteps := by
  have hkeep := solverComp_keeps d g rms dt st sched
  have hsz : ∀ r < nranks, Sized (rms r) (solverStart d rms st Uc0 r).1 :=
    fun r _ => solverStart_sized d rms st Uc0 r
  refine ⟨?_, (C09_terminates m nranks part rms w _ hkeep _ hsz _ k c hx).2.2⟩
  intro r hr
  refine ⟨C09_no_error m nranks part rms w _ hkeep _ hsz _ k c hx r hr, ?_⟩
  obtain ⟨s, h⟩ := w.bitsRunP hc ho (G := extGeom m part rms g) (fun r hr => w.extRestrict d g hr) hs
    (U0 := extCoeffs part rms Uc0) (fun r hr => w.extCoeffsRestrict d Uc0 hr) hx hr
  rw [h.state]; simp

/-! ### setup -/

variable [DecLit K]

/-- **C80** (the setup).  Two ranks of any two launches of a case, whatever their scratch memory held: for
an element they both have, Jacobian determinants, inverse Jacobians, inverse mass matrix and initial
coefficients are the same bits; for a face they both have, the normals are the same bits if both ranks
have its left element, or if neither has. -/
theorem C80_setup (t gt : BasisType) (p gorder ns : ℕ) (vf : (ℕ → K) → ℕ → K)
    (nf : (ℕ → K) → (ℕ → K) → (ℕ → K) → ℕ → K) (ic : (ℕ → K) → ℕ → K) (m : GMesh K)
    (sh : ShapeType × Option ShapeType) (ht : basisShape t = some sh) (hgt : basisShape gt = some sh)
    (hm : MeshOfShape sh.1 gorder m)
    (nranks : ℕ) (part : List ℕ) (rms : ℕ → RankMesh K) (d : Disc K) (g : ℕ → Geom K) (u : ℕ → Coeffs K)
    (L : Launched t gt p gorder ns vf nf ic m nranks part rms d g u)
    (nranks' : ℕ) (part' : List ℕ) (rms' : ℕ → RankMesh K) (d' : Disc K) (g' : ℕ → Geom K) (u' : ℕ → Coeffs K)
    (L' : Launched t gt p gorder ns vf nf ic m nranks' part' rms' d' g' u')
    (r : ℕ) (hr : r < nranks) (r' : ℕ) (hr' : r' < nranks') :
    d = d' ∧
    (∀ k k' e : ℕ, (rms r).l2gElem[k]? = some e → (rms' r').l2gElem[k']? = some e →
      (∀ q, (g r).djac k q = (g' r').djac k' q) ∧ (∀ q i j, (g r).ijac k q i j = (g' r').ijac k' q i j) ∧
      (∀ i < d.nb, ∀ j < d.nb, (g r).iMM k i j = (g' r').iMM k' i j) ∧
      ∀ b < d.nb, ∀ s < ns, u r k b s = u' r' k' b s) ∧
    ∀ (i i' a : ℕ) (f : IFace), (rms r).l2gFace[i]? = some a → (rms' r').l2gFace[i']? = some a →
      IsFace m a f → (Owns part r f.elemL ↔ Owns part' r' f.elemL) →
      ∀ q j, (g r).normals i q j = (g' r').normals i' q j := by
  have hd : d = d' := by
    have h1 := L.disc
    rw [L'.disc] at h1
    exact (Option.some.inj h1).symm
  obtain ⟨sh1, nb, t1, t2, _, t3, _, _⟩ := buildDisc_orderOK L.disc
  rw [ht] at t1; cases t1
  obtain ⟨scr, MM0, hG⟩ := L.geom r hr
  obtain ⟨scr', MM0', hG'⟩ := L'.geom r' hr'
  obtain ⟨s1, n1, mass, vol, fr, a1, a2, a3, a4, a5, a6, a7, a8, a9⟩ := buildGeom_some hG
  obtain ⟨s2, n2, mass', vol', fr', b1, b2, b3, b4, b5, b6, b7, b8, b9⟩ := buildGeom_some hG'
  rw [ht] at a1 b1; cases a1; cases b1
  rw [t2] at a2 b2; cases a2; cases b2
  rw [a3] at b3; cases b3
  rw [a4] at b4; cases b4
  rw [a5] at b5; cases b5
  refine ⟨hd, ?_, ?_⟩
  · intro k k' e hk hk'
    have hsame : SameNodes (shapeNodes sh.1 gorder) (elemCoords (rms r) k) (elemCoords (rms' r') k') := by
      intro i hi c
      rw [← hm.npe] at hi
      rw [L.world.sameNodes hr hk i hi c, L'.world.sameNodes hr' hk' i hi c]
    have hi : ∀ i < nb, ∀ j < nb, (g r).iMM k i j = (g' r').iMM k' i j := by
      intro i hi j hj
      rw [a8, b8]
      exact invMass_congr (fun q _ => setupDjac_nodes hsame q) (fun _ _ _ _ => rfl) i hi j hj
    refine ⟨fun q => by rw [a6, b6, setupDjac_nodes hsame],
      fun q i j => by rw [a7, b7, setupIjac_nodes hsame], by rw [t3]; exact hi, ?_⟩
    intro b hb s hs
    rw [t3] at hb
    obtain ⟨rhs0, Uin, hI⟩ := L.init r hr
    obtain ⟨rhs0', Uin', hI'⟩ := L'.init r' hr'
    obtain ⟨p1, p2, p3, p4, ref, i1, i2, i3, i4, i5, i6⟩ := initState_some hI
    obtain ⟨q1, q2, q3, q4, ref', j1, j2, j3, j4, j5, j6⟩ := initState_some hI'
    rw [ht] at i1 j1; cases i1; cases j1
    rw [hgt] at i2 j2; cases i2; cases j2
    rw [t2] at i3 j3; cases i3; cases j3
    rw [i4] at j4; cases j4
    rw [i5] at j5; cases j5
    have hnn := shapeNumBasis_nodes i4
    subst hnn
    rw [i6, j6]
    refine l2Projection_congr hi (fun q _ => setupDjac_nodes hsame q) (fun q _ s _ => ?_) b hb s hs
    rw [refToPhys_nodes hsame]
  · intro i i' a f hi hi' hf hown q j
    have hfaces : ∀ f ∈ m.faces, f.faceL < shapeFaces sh.1 ∧ f.faceR < shapeFaces sh.1 :=
      fun f hf => ⟨(hm.faceL f hf).1, (hm.faceR f hf).1⟩
    have ci : i < (rms r).numIFacesPart := by
      rw [L.world.numIF hr]; exact (List.getElem?_eq_some_iff.1 hi).1
    have ci' : i' < (rms' r').numIFacesPart := by
      rw [L'.world.numIF hr']; exact (List.getElem?_eq_some_iff.1 hi').1
    obtain ⟨l, l1, l2⟩ := a9 i ci
    obtain ⟨l', l1', l2'⟩ := b9 i' ci'
    have N := L.world.normalsOf hr hm.npe hfaces hi hf fr.pts
    have N' := L'.world.normalsOf hr' hm.npe hfaces hi' hf fr.pts
    have hl : l = l' := by
      by_cases ho : Owns part r f.elemL
      · have e1 := N.1 ho
        have e2 := N'.1 (hown.1 ho)
        rw [l1] at e1; rw [l1'] at e2
        exact Option.some.inj (e1.trans e2.symm)
      · have e1 := N.2 ho
        have e2 := N'.2 (fun h => ho (hown.2 h))
        rw [l1] at e1; rw [l1'] at e2
        exact Option.some.inj (e1.trans e2.symm)
    rw [l2, l2', hl]

/-- geometry of the mesh, from the coordinates of the file -/
noncomputable def refGeom (s : ShapeType) (gorder nb : ℕ) (m : GMesh K) (mass vol : RefData K) (fr : FaceRef K) :
    Geom K where
  djac := fun e q => setupDjac (shapeDim s) (shapeNodes s gorder) vol (fileCoords m e) q
  ijac := fun e q => setupIjac (shapeDim s) (shapeNodes s gorder) vol (fileCoords m e) q
  iMM := fun e => invMass mass.nq nb mass.wts (setupDjac (shapeDim s) (shapeNodes s gorder) mass (fileCoords m e))
    mass.val (fun _ _ => 0) (fun _ _ => 0) fun _ _ => 0
  normals := fun a q => (((nodesNormals s gorder 1 (((m.faces[a]?).map (·.faceL)).getD 0)
    (fileCoords m (((m.faces[a]?).map (·.elemL)).getD 0)) fr.pts).getD [])[q]?).getD fun _ => 0

/-- what a launch holds is the restriction of one geometry and one initial state -/
theorem Launched.restrict {t gt : BasisType} {p gorder ns : ℕ} {vf : (ℕ → K) → ℕ → K}
    {nf : (ℕ → K) → (ℕ → K) → (ℕ → K) → ℕ → K} {ic : (ℕ → K) → ℕ → K} {m : GMesh K}
    {sh : ShapeType × Option ShapeType} (ht : basisShape t = some sh) (hgt : basisShape gt = some sh)
    (hm : MeshOfShape sh.1 gorder m) (d : Disc K) :
    ∃ (G : Geom K) (U0 : Coeffs K), ∀ nranks part rms g u,
      Launched t gt p gorder ns vf nf ic m nranks part rms d g u → NormalsShared nranks rms d g →
      ∀ r < nranks, GeomRestrict d (rms r) (g r) G ∧ CoeffsRestrict d (rms r) (u r) U0 := by
  by_cases hex : ∃ nranks part rms g u,
      Launched t gt p gorder ns vf nf ic m nranks part rms d g u ∧ 0 < nranks
  swap
  · refine ⟨⟨fun _ _ => 0, fun _ _ _ _ => 0, fun _ _ _ => 0, fun _ _ _ => 0⟩, fun _ _ _ => 0, ?_⟩
    intro nranks part rms g u L _ r hr
    exact absurd ⟨nranks, part, rms, g, u, L, by omega⟩ hex
  obtain ⟨N, P, R, gg, uu, L0, hN⟩ := hex
  obtain ⟨sh1, nb, t1, t2, t4, t3, _, _⟩ := buildDisc_orderOK L0.disc
  rw [ht] at t1; cases t1
  obtain ⟨scr, MM0, hG⟩ := L0.geom 0 hN
  obtain ⟨s1, n1, mass, vol, fr, a1, a2, a3, a4, a5, _, _, _, _⟩ := buildGeom_some hG
  rw [ht] at a1; cases a1
  rw [t2] at a2; cases a2
  obtain ⟨rhs0, Uin, hI⟩ := L0.init 0 hN
  obtain ⟨p1, p2, p3, p4, ref, i1, i2, i3, i4, i5, _⟩ := initState_some hI
  rw [ht] at i1; cases i1
  rw [hgt] at i2; cases i2
  rw [t2] at i3; cases i3
  have hnn := shapeNumBasis_nodes i4
  subst hnn
  refine ⟨refGeom sh.1 gorder nb m mass vol fr, fun e => l2Projection ref.nq nb ns
    ((refGeom sh.1 gorder nb m mass vol fr).iMM e) ref.val
    (setupDjac (shapeDim sh.1) (shapeNodes sh.1 gorder) ref (fileCoords m e)) ref.wts
    (fun q => ic (cArr (shapeDim sh.1) (refToPhys (shapeDim sh.1) (shapeNodes sh.1 gorder) (ref.gval q)
      (fileCoords m e)))) (fun _ _ => 0) (fun _ _ => 0), ?_⟩
  intro nranks part rms g u L hsh
  -- one rank
  have one : ∀ r < nranks, (∀ k e : ℕ, (rms r).l2gElem[k]? = some e →
      (∀ q, (g r).djac k q = (refGeom sh.1 gorder nb m mass vol fr).djac e q) ∧
      (∀ q, (g r).ijac k q = (refGeom sh.1 gorder nb m mass vol fr).ijac e q) ∧
      ∀ i < nb, ∀ j < nb, (g r).iMM k i j = (refGeom sh.1 gorder nb m mass vol fr).iMM e i j) ∧
      ∀ (i a : ℕ) (f : IFace), (rms r).l2gFace[i]? = some a → IsFace m a f → Owns part r f.elemL →
        ∀ q, (g r).normals i q = (refGeom sh.1 gorder nb m mass vol fr).normals a q := by
    intro r hr
    obtain ⟨scr', MM0', hG'⟩ := L.geom r hr
    obtain ⟨s2, n2, mass', vol', fr', b1, b2, b3, b4, b5, b6, b7, b8, b9⟩ := buildGeom_some hG'
    rw [ht] at b1; cases b1
    rw [t2] at b2; cases b2
    rw [a3] at b3; cases b3
    rw [a4] at b4; cases b4
    rw [a5] at b5; cases b5
    constructor
    · intro k e hk
      have hsame : SameNodes (shapeNodes sh.1 gorder) (elemCoords (rms r) k) (fileCoords m e) := by
        rw [← hm.npe]; exact L.world.sameNodes hr hk
      refine ⟨fun q => by rw [b6, setupDjac_nodes hsame]; rfl,
        fun q => by rw [b7, setupIjac_nodes hsame]; rfl, ?_⟩
      intro i hi j hj
      rw [b8]
      exact invMass_congr (fun q _ => setupDjac_nodes hsame q) (fun _ _ _ _ => rfl) i hi j hj
    · intro i a f hi hf ho q
      have ci : i < (rms r).numIFacesPart := by
        rw [L.world.numIF hr]; exact (List.getElem?_eq_some_iff.1 hi).1
      obtain ⟨l, l1, l2⟩ := b9 i ci
      have e1 := (L.world.normalsOf hr hm.npe
        (fun f hf => ⟨(hm.faceL f hf).1, (hm.faceR f hf).1⟩) hi hf fr.pts).1 ho
      rw [l1] at e1
      rw [l2]
      unfold IsFace at hf
      simp only [refGeom, hf, Option.map_some, Option.getD_some, ← e1]
  intro r hr
  obtain ⟨o1, o2⟩ := one r hr
  refine ⟨⟨fun k e hk q _ => (o1 k e hk).1 q, fun k e hk q _ i _ j _ => by rw [(o1 k e hk).2.1 q],
    fun k e hk => by rw [t3]; exact (o1 k e hk).2.2, ?_⟩, ?_⟩
  · intro i a hi q hq j hj
    obtain ⟨f, row, c1, c2, c3, c4, _⟩ := L.world.record hr hi
    have hR : row.rankL < nranks := L.world.parts.lt _ (List.mem_of_getElem? c3)
    obtain ⟨i', hi'⟩ := L.world.mem_l2gFace hR c1 (Or.inl c3)
    rw [hsh r hr row.rankL hR i i' a hi hi' q hq j hj, (one row.rankL hR).2 i' a f hi' c1 c3 q]
  · intro k e hk b hb s hs
    rw [t3] at hb; rw [t4] at hs
    obtain ⟨rhs0', Uin', hI'⟩ := L.init r hr
    obtain ⟨q1, q2, q3, q4, ref', j1, j2, j3, j4, j5, j6⟩ := initState_some hI'
    rw [ht] at j1; cases j1
    rw [hgt] at j2; cases j2
    rw [t2] at j3; cases j3
    rw [i4] at j4; cases j4
    rw [i5] at j5; cases j5
    have hsame : SameNodes (shapeNodes sh.1 gorder) (elemCoords (rms r) k) (fileCoords m e) := by
      rw [← hm.npe]; exact L.world.sameNodes hr hk
    rw [j6]
    refine l2Projection_congr (o1 k e hk).2.2 (fun q _ => setupDjac_nodes hsame q) (fun q _ s _ => ?_) b hb s hs
    rw [refToPhys_nodes hsame]

/-- **C80** (the whole case).  Two launches of a case, setup and time loop, on any numbers of ranks, any
partitions, interleavings, orders of the flux loops and contents of uninitialised memory, such that the two
ranks of every face hold the same normals: a rank of the first and a rank of the second that have completed
the same number of residual evaluations hold the same bits for every element they both have. -/
theorem C80_case (t gt : BasisType) (p gorder ns : ℕ) (vf : (ℕ → K) → ℕ → K)
    (nf : (ℕ → K) → (ℕ → K) → (ℕ → K) → ℕ → K) (ic : (ℕ → K) → ℕ → K) (m : GMesh K)
    (sh : ShapeType × Option ShapeType) (ht : basisShape t = some sh) (hgt : basisShape gt = some sh)
    (hm : MeshOfShape sh.1 gorder m) (st : Stepper) (dt : K) (nsteps nsteps' : ℕ)
    (nranks : ℕ) (part : List ℕ) (rms : ℕ → RankMesh K) (d : Disc K) (g : ℕ → Geom K) (u : ℕ → Coeffs K)
    (L : Launched t gt p gorder ns vf nf ic m nranks part rms d g u) (hn : NormalsShared nranks rms d g)
    (sched : ℕ → ℕ → List (FluxWrite K) → List (FluxWrite K)) (hs : ∀ r k l, (sched r k l).Perm l) (k : ℕ)
    (c : Proto.Conf (FaceArr (ℕ → ℕ → K) × Option (RankState K)) (List (ℕ → ℕ → K)))
    (hx : Proto.Exec (solverProg d g rms nranks dt st sched nsteps)
      (Proto.init (solverStart d rms st u)) c k)
    (nranks' : ℕ) (part' : List ℕ) (rms' : ℕ → RankMesh K) (d' : Disc K) (g' : ℕ → Geom K) (u' : ℕ → Coeffs K)
    (L' : Launched t gt p gorder ns vf nf ic m nranks' part' rms' d' g' u')
    (hn' : NormalsShared nranks' rms' d' g')
    (sched' : ℕ → ℕ → List (FluxWrite K) → List (FluxWrite K)) (hs' : ∀ r k l, (sched' r k l).Perm l) (k' : ℕ)
    (c' : Proto.Conf (FaceArr (ℕ → ℕ → K) × Option (RankState K)) (List (ℕ → ℕ → K)))
    (hx' : Proto.Exec (solverProg d' g' rms' nranks' dt st sched' nsteps')
      (Proto.init (solverStart d' rms' st u')) c' k')
    (r : ℕ) (hr : r < nranks) (r' : ℕ) (hr' : r' < nranks')
    (hround : (c.proc r).round = (c'.proc r').round) :
    ∃ s s', (c.proc r).st.2 = some s ∧ (c'.proc r').st.2 = some s' ∧ s.time = s'.time ∧
      ∀ i i' e : ℕ, (rms r).l2gElem[i]? = some e → (rms' r').l2gElem[i']? = some e →
        ∀ b < d.nb, ∀ v < ns, s.Uc i b v = s'.Uc i' b v := by
  have hd : d = d' := by
    have h1 := L.disc
    rw [L'.disc] at h1
    exact (Option.some.inj h1).symm
  subst hd
  obtain ⟨sh1, nb, t1, _, t4, _, t5, t6⟩ := buildDisc_orderOK L.disc
  rw [ht] at t1; cases t1
  have hc : Conforming d (shapeOrients sh.1) m :=
    ⟨fun f hf => by rw [t5]; exact hm.faceL f hf, fun f hf => by rw [t5]; exact hm.faceR f hf, hm.sides⟩
  obtain ⟨G, U0, H⟩ := Launched.restrict (p := p) (ns := ns) (vf := vf) (nf := nf) (ic := ic) ht hgt hm d
  have := C80_time_loop m d _ hc t6 G st dt U0 nsteps nsteps' nranks part rms L.world g
    (fun r hr => (H _ _ _ _ _ L hn r hr).1) sched hs u (fun r hr => (H _ _ _ _ _ L hn r hr).2) k c hx
    nranks' part' rms' L'.world g' (fun r hr => (H _ _ _ _ _ L' hn' r hr).1) sched' hs' u'
    (fun r hr => (H _ _ _ _ _ L' hn' r hr).2) k' c' hx' r hr r' hr' hround
  rw [t4] at this
  exact this

end DG
