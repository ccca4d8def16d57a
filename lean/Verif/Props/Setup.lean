import Verif.Lemmas.SetupGeom
import Verif.Props.FreeStream

/-!
Property C61: the whole program on meshes of bilinear quadrilaterals - setup of the tables, of the
geometry and of the initial state on every rank, then the time loop - computes the textbook
discontinuous Galerkin solution of `Spec/QuadDG.lean`, for every mesh, partition, number of ranks,
interleaving, polynomial order with tables and flux function.
-/
namespace DG
open Finset Polynomial

/-- What every rank holds after the setup: the tables `d` (the same on all ranks), its geometry and its
initial coefficients.  `scr`, `MM0`, `rhs0`, `Uin`: uninitialised scratch memory and `Uc` of each
rank. -/
structure RanksReady (t : Fam) (p ns : ℕ) (vf : (ℕ → ℝ) → ℕ → ℝ)
    (nf : (ℕ → ℝ) → (ℕ → ℝ) → (ℕ → ℝ) → ℕ → ℝ) (ic : (ℕ → ℝ) → ℕ → ℝ) (nranks : ℕ)
    (rms : ℕ → RankMesh ℝ) (d : Disc ℝ) (g : ℕ → Geom ℝ) (u : ℕ → Coeffs ℝ) : Prop where
  disc : buildDisc (quadType t) .LagrangeQuad p 1 ns vf nf = some d
  geom : ∀ r < nranks, ∃ scr MM0, buildGeom (quadType t) .LagrangeQuad p 1 r (rms r) scr MM0 = some (g r)
  init : ∀ r < nranks, ∃ rhs0 Uin,
    initState (quadType t) .LagrangeQuad p 1 ns (rms r) (g r).iMM ic rhs0 Uin = some (u r)

section
variable {m : GMesh ℝ} {nranks : ℕ} {part : List ℕ} {rms : ℕ → RankMesh ℝ} {t : Fam} {p ns : ℕ}
  {vf : (ℕ → ℝ) → ℕ → ℝ} {nf : (ℕ → ℝ) → (ℕ → ℝ) → (ℕ → ℝ) → ℕ → ℝ} {ic : (ℕ → ℝ) → ℕ → ℝ}
  {d : Disc ℝ} {g : ℕ → Geom ℝ} {u : ℕ → Coeffs ℝ}

/-- the geometry restricts along an agreement of tables -/
theorem GeomRestrict.agree {α : Type} {norient : ℕ} {d d' : Disc ℝ} (h : DiscAgree norient d d') {rm : RankMesh α}
    {g G : Geom ℝ} (hg : GeomRestrict d' rm g G) : GeomRestrict d rm g G where
  djac := by rw [h.nq]; exact hg.djac
  ijac := by rw [h.nq, h.dim]; exact hg.ijac
  iMM := by rw [h.nb]; exact hg.iMM
  normals := by rw [h.nqf, h.dim]; exact hg.normals

theorem RanksReady.agree (hr : RanksReady t p ns vf nf ic nranks rms d g u) (hp : orderFine t p) :
    DiscAgree 2 d (quadDisc t p ns vf nf) := by
  obtain ⟨d', h1, h2⟩ := buildDisc_quad t p ns hp vf nf
  have := hr.disc
  rw [h1] at this; cases this
  exact h2

theorem RanksReady.geomQ (hr : RanksReady t p ns vf nf ic nranks rms d g u) (w : World m nranks part rms)
    (hq : QuadMesh m) (hp : orderFine t p) (r : ℕ) (hlt : r < nranks) :
    GeomRestrict (quadDisc t p ns vf nf) (rms r) (g r) (quadGeom t p m) := by
  obtain ⟨scr, MM0, h⟩ := hr.geom r hlt
  obtain ⟨g', h1, h2⟩ := buildGeom_quad w hq t p ns hp vf nf hlt scr MM0
  rw [h] at h1; cases h1
  exact h2

theorem RanksReady.initQ (hr : RanksReady t p ns vf nf ic nranks rms d g u) (w : World m nranks part rms)
    (hq : QuadMesh m) (hp : orderFine t p) (r : ℕ) (hlt : r < nranks) :
    CoeffsRestrict (quadDisc t p ns vf nf) (rms r) (u r) (quadInit t p m ic) := by
  obtain ⟨rhs0, Uin, h⟩ := hr.init r hlt
  obtain ⟨u', h1, h2⟩ := initState_quad w hq t p ns hp vf nf hlt (g r) (hr.geomQ w hq hp r hlt) ic rhs0 Uin
  rw [h] at h1; cases h1
  exact h2

/-- the extents of the tables -/
theorem RanksReady.extents (hr : RanksReady t p ns vf nf ic nranks rms d g u) (hp : orderFine t p) :
    d.ns = ns ∧ d.nb = (p + 1) * (p + 1) := ⟨(hr.agree hp).ns, (hr.agree hp).nb⟩

theorem RanksReady.restrict (hr : RanksReady t p ns vf nf ic nranks rms d g u) (hp : orderFine t p)
    {rm : RankMesh ℝ} {a A : Coeffs ℝ} (h : CoeffsRestrict (quadDisc t p ns vf nf) rm a A) :
    CoeffsRestrict d rm a A := by
  unfold CoeffsRestrict
  rw [(hr.agree hp).nb, (hr.agree hp).ns]; exact h

end

/-! ### C61 -/

/-- **C61** (the two traces of a side).  At side point `i` the scheme combines the same physical point of
the left and of the right element (up to the translation of the side) when the mesh file gives the two
sides different orientations; when it gives them the same orientation, it combines each point with its
mirror image on the side. -/
theorem C61_traces_at_same_points (m : GMesh ℝ) (hq : QuadMesh m) (t : Fam) (p ns : ℕ) (hp : orderFine t p)
    (vf : (ℕ → ℝ) → ℕ → ℝ) (nf : (ℕ → ℝ) → (ℕ → ℝ) → (ℕ → ℝ) → ℕ → ℝ) (f : IFace) (hf : f ∈ m.faces) :
    ∃ shift : ℕ → ℝ, ∀ i < p + 1, ∀ d < 2,
      let D := quadDisc t p ns vf nf
      let pt := fun side j => sidePoint side (glX (2 * p + 1) j)
      quadMap (fileCoords m f.elemL) (pt f.faceL (D.ptsOrder f.orientL i)).1
        (pt f.faceL (D.ptsOrder f.orientL i)).2 d =
      quadMap (fileCoords m f.elemR)
        (pt f.faceR (D.ptsOrder f.orientR (if f.orientL = f.orientR then p - i else i))).1
        (pt f.faceR (D.ptsOrder f.orientR (if f.orientL = f.orientR then p - i else i))).2 d + shift d := by
  obtain ⟨sh, hs⟩ := hq.match_ f hf
  obtain ⟨t1, -, -, -⟩ := tables_fine p hp.1
  have rule := (gl_rule _ t1).2
  rw [show (2 * p + 1) / 2 + 1 = p + 1 by omega] at rule
  refine ⟨sh, fun i hi d hd => ?_⟩
  intro D pt
  have hL := (hq.faceL f hf).2
  have hR := (hq.faceR f hf).2
  have key : glX (2 * p + 1) (D.ptsOrder f.orientR (if f.orientL = f.orientR then p - i else i)) =
      - glX (2 * p + 1) (D.ptsOrder f.orientL i) := by
    have s1 := rule.symx i hi
    have s2 := rule.symx (p - i) (by omega)
    rw [show p + 1 - 1 - i = p - i by omega] at s1
    rw [show p + 1 - 1 - (p - i) = i by omega] at s2
    show glX (2 * p + 1) (if f.orientR = 0 then _ else _) = - glX (2 * p + 1) (if f.orientL = 0 then _ else _)
    have hl : f.orientL = 0 ∨ f.orientL = 1 := by omega
    have hr : f.orientR = 0 ∨ f.orientR = 1 := by omega
    rcases hl with h | h <;> rcases hr with h' | h' <;> rw [h, h'] <;> simp [s1]
    rw [show p - (p - i) = i by omega]
  have := hs (glX (2 * p + 1) (D.ptsOrder f.orientL i)) d hd
  simp only [pt]
  rw [key]
  exact this

/-- **C61** (the setup succeeds).  On every mesh of bilinear quadrilaterals, every partition and every
rank, for every order `p ≤ 11` of the Lagrange basis and `p ≤ 7` of the Legendre basis, the setup
completes, whatever the scratch memory holds. -/
theorem C61_setup_succeeds (m : GMesh ℝ) (nranks : ℕ) (part : List ℕ) (rms : ℕ → RankMesh ℝ)
    (w : World m nranks part rms) (hq : QuadMesh m) (t : Fam) (p ns : ℕ) (hp : orderFine t p)
    (vf : (ℕ → ℝ) → ℕ → ℝ) (nf : (ℕ → ℝ) → (ℕ → ℝ) → (ℕ → ℝ) → ℕ → ℝ) (ic : (ℕ → ℝ) → ℕ → ℝ)
    (scr MM0 rhs0 Uin : ℕ → ℕ → ℕ → ℕ → ℝ) :
    ∃ (d : Disc ℝ) (g : ℕ → Geom ℝ) (u : ℕ → Coeffs ℝ),
      buildDisc (quadType t) .LagrangeQuad p 1 ns vf nf = some d ∧
      ∀ r < nranks, buildGeom (quadType t) .LagrangeQuad p 1 r (rms r) (scr r) (MM0 r) = some (g r) ∧
        initState (quadType t) .LagrangeQuad p 1 ns (rms r) (g r).iMM ic (rhs0 r) (Uin r) = some (u r) := by
  obtain ⟨d, h1, -⟩ := buildDisc_quad t p ns hp vf nf
  have hg : ∀ r, ∃ g : Geom ℝ, r < nranks →
      buildGeom (quadType t) .LagrangeQuad p 1 r (rms r) (scr r) (MM0 r) = some g ∧
      GeomRestrict (quadDisc t p ns vf nf) (rms r) g (quadGeom t p m) := by
    intro r
    by_cases hr : r < nranks
    · obtain ⟨g, hg⟩ := buildGeom_quad w hq t p ns hp vf nf hr (scr r) (MM0 r)
      exact ⟨g, fun _ => hg⟩
    · exact ⟨⟨fun _ _ => 0, fun _ _ _ _ => 0, fun _ _ _ => 0, fun _ _ _ => 0⟩, fun h => absurd h hr⟩
  choose g hg using hg
  have hu : ∀ r, ∃ u : Coeffs ℝ, r < nranks →
      initState (quadType t) .LagrangeQuad p 1 ns (rms r) (g r).iMM ic (rhs0 r) (Uin r) = some u := by
    intro r
    by_cases hr : r < nranks
    · obtain ⟨u, hu, -⟩ := initState_quad w hq t p ns hp vf nf hr (g r) (hg r hr).2 ic (rhs0 r) (Uin r)
      exact ⟨u, fun _ => hu⟩
    · exact ⟨fun _ _ _ => 0, fun h => absurd h hr⟩
  choose u hu using hu
  exact ⟨d, g, u, h1, fun r hr => ⟨(hg r hr).1, hu r hr⟩⟩

/-- **C61** (the setup is the textbook one).  Tables: the basis functions of the family, their
derivatives and the tensor rules.  Geometry: determinant and inverse of the Jacobian of the bilinear
map given by the mesh file, inverse mass matrix, outward normal of the left element (also on the rank
that only has the right element).  Initial state: the projection of the initial condition. -/
theorem C61_setup_is_textbook (m : GMesh ℝ) (nranks : ℕ) (part : List ℕ) (rms : ℕ → RankMesh ℝ)
    (w : World m nranks part rms) (hq : QuadMesh m) (t : Fam) (p ns : ℕ) (hp : orderFine t p)
    (vf : (ℕ → ℝ) → ℕ → ℝ) (nf : (ℕ → ℝ) → (ℕ → ℝ) → (ℕ → ℝ) → ℕ → ℝ) (ic : (ℕ → ℝ) → ℕ → ℝ)
    (d : Disc ℝ) (g : ℕ → Geom ℝ) (u : ℕ → Coeffs ℝ)
    (hr : RanksReady t p ns vf nf ic nranks rms d g u) :
    DiscAgree 2 d (quadDisc t p ns vf nf) ∧
    ∀ r < nranks, GeomRestrict (quadDisc t p ns vf nf) (rms r) (g r) (quadGeom t p m) ∧
      CoeffsRestrict (quadDisc t p ns vf nf) (rms r) (u r) (quadInit t p m ic) :=
  ⟨hr.agree hp, fun r hlt => ⟨hr.geomQ w hq hp r hlt, hr.initQ w hq hp r hlt⟩⟩

/-- **C61** (the run).  After the setup, under every interleaving of the ranks and every order of the
parallel flux loops, a rank that has completed `n` time steps holds on its elements the coefficients
of the textbook scheme after `n` steps from the textbook initial state. -/
theorem C61_run_is_textbook (m : GMesh ℝ) (nranks : ℕ) (part : List ℕ) (rms : ℕ → RankMesh ℝ)
    (w : World m nranks part rms) (hq : QuadMesh m) (t : Fam) (p ns : ℕ) (hp : orderFine t p)
    (vf : (ℕ → ℝ) → ℕ → ℝ) (nf : (ℕ → ℝ) → (ℕ → ℝ) → (ℕ → ℝ) → ℕ → ℝ) (ic : (ℕ → ℝ) → ℕ → ℝ)
    (d : Disc ℝ) (g : ℕ → Geom ℝ) (u : ℕ → Coeffs ℝ)
    (hr : RanksReady t p ns vf nf ic nranks rms d g u) (st : Stepper) (dt : ℝ)
    (sched : ℕ → ℕ → List (FluxWrite ℝ) → List (FluxWrite ℝ))
    (hsched : ∀ r k l, (sched r k l).Perm l) (nsteps k : ℕ)
    (c : Proto.Conf (FaceArr (ℕ → ℕ → ℝ) × Option (RankState ℝ)) (List (ℕ → ℕ → ℝ)))
    (hx : Proto.Exec (solverProg d g rms nranks dt st sched nsteps)
      (Proto.init (solverStart d rms st u)) c k) (r : ℕ) (hlt : r < nranks) (n : ℕ)
    (hn : (c.proc r).round = stagesOf st * n) :
    ∃ s, (c.proc r).st.2 = some s ∧ s.time = n * dt ∧
      ∀ i e : ℕ, (rms r).l2gElem[i]? = some e → ∀ b < (p + 1) * (p + 1), ∀ v < ns,
        s.Uc i b v = ((stepOf st dt (globalRHS (quadDisc t p ns vf nf) m (quadGeom t p m)))^[n]
          (quadInit t p m ic)) e b v := by
  have ag := hr.agree hp
  have hc := ag.conforming (hq.conforming t p ns vf nf)
  have ho := ag.orderOK (quadDisc_order t p ns vf nf)
  obtain ⟨s, s1, s2, s3, -⟩ := C60_run_matches_serial m nranks part rms w d 2 hc ho (quadGeom t p m) g
    (fun r h => (hr.geomQ w hq hp r h).agree ag) st dt sched hsched (quadInit t p m ic) u
    (fun r h => hr.restrict hp (hr.initQ w hq hp r h)) nsteps k c hx r hlt n hn
  refine ⟨s, s1, s3, ?_⟩
  intro i e hi b hb v hv
  obtain ⟨e1, e2⟩ := hr.extents hp
  rw [s2 i e hi b (by rw [e2]; exact hb) v (by rw [e1]; exact hv)]
  exact ag.run w.mesh hc ho (quadGeom t p m) st dt (quadInit t p m ic) n e (w.elem_lt hlt hi) b
    (by rw [e2]; exact hb) v (by rw [e1]; exact hv)

/-- **C61** (the run completes).  No rank fails, and every execution can be continued until all ranks
have made all time steps. -/
theorem C61_run_completes (m : GMesh ℝ) (nranks : ℕ) (part : List ℕ) (rms : ℕ → RankMesh ℝ)
    (w : World m nranks part rms) (hq : QuadMesh m) (t : Fam) (p ns : ℕ) (hp : orderFine t p)
    (vf : (ℕ → ℝ) → ℕ → ℝ) (nf : (ℕ → ℝ) → (ℕ → ℝ) → (ℕ → ℝ) → ℕ → ℝ) (ic : (ℕ → ℝ) → ℕ → ℝ)
    (d : Disc ℝ) (g : ℕ → Geom ℝ) (u : ℕ → Coeffs ℝ)
    (hr : RanksReady t p ns vf nf ic nranks rms d g u) (st : Stepper) (dt : ℝ)
    (sched : ℕ → ℕ → List (FluxWrite ℝ) → List (FluxWrite ℝ))
    (hsched : ∀ r k l, (sched r k l).Perm l) (nsteps k : ℕ)
    (c : Proto.Conf (FaceArr (ℕ → ℕ → ℝ) × Option (RankState ℝ)) (List (ℕ → ℕ → ℝ)))
    (hx : Proto.Exec (solverProg d g rms nranks dt st sched nsteps)
      (Proto.init (solverStart d rms st u)) c k) :
    (∀ r < nranks, (c.proc r).phase ≠ .failed ∧ (c.proc r).st.2 ≠ none) ∧
    ∃ c' k', Proto.Exec (solverProg d g rms nranks dt st sched nsteps) c c' k' ∧
      ∀ r < nranks, (c'.proc r).round = stagesOf st * nsteps := by
  have ag := hr.agree hp
  exact C60_run_completes m nranks part rms w d 2 (ag.conforming (hq.conforming t p ns vf nf))
    (ag.orderOK (quadDisc_order t p ns vf nf)) (quadGeom t p m) g
    (fun r h => (hr.geomQ w hq hp r h).agree ag) st dt sched hsched (quadInit t p m ic) u
    (fun r h => hr.restrict hp (hr.initQ w hq hp r h)) nsteps k c hx

/-- **C61** (partition independence).  Two complete runs of the same case on different numbers of ranks,
with different partitions, schedules and scratch memory, hold the same coefficients of every element
of the mesh. -/
theorem C61_partition_independent (m : GMesh ℝ) (hq : QuadMesh m) (t : Fam) (p ns : ℕ) (hp : orderFine t p)
    (vf : (ℕ → ℝ) → ℕ → ℝ) (nf : (ℕ → ℝ) → (ℕ → ℝ) → (ℕ → ℝ) → ℕ → ℝ) (ic : (ℕ → ℝ) → ℕ → ℝ)
    (st : Stepper) (dt : ℝ) (nsteps : ℕ)
    (nranks : ℕ) (part : List ℕ) (rms : ℕ → RankMesh ℝ) (w : World m nranks part rms)
    (d : Disc ℝ) (g : ℕ → Geom ℝ) (u : ℕ → Coeffs ℝ) (hr : RanksReady t p ns vf nf ic nranks rms d g u)
    (sched : ℕ → ℕ → List (FluxWrite ℝ) → List (FluxWrite ℝ))
    (hsched : ∀ r k l, (sched r k l).Perm l) (k : ℕ)
    (c : Proto.Conf (FaceArr (ℕ → ℕ → ℝ) × Option (RankState ℝ)) (List (ℕ → ℕ → ℝ)))
    (hx : Proto.Exec (solverProg d g rms nranks dt st sched nsteps)
      (Proto.init (solverStart d rms st u)) c k)
    (hfin : ∀ r < nranks, (c.proc r).round = stagesOf st * nsteps)
    (nranks' : ℕ) (part' : List ℕ) (rms' : ℕ → RankMesh ℝ) (w' : World m nranks' part' rms')
    (d' : Disc ℝ) (g' : ℕ → Geom ℝ) (u' : ℕ → Coeffs ℝ)
    (hr' : RanksReady t p ns vf nf ic nranks' rms' d' g' u')
    (sched' : ℕ → ℕ → List (FluxWrite ℝ) → List (FluxWrite ℝ))
    (hsched' : ∀ r k l, (sched' r k l).Perm l) (k' : ℕ)
    (c' : Proto.Conf (FaceArr (ℕ → ℕ → ℝ) × Option (RankState ℝ)) (List (ℕ → ℕ → ℝ)))
    (hx' : Proto.Exec (solverProg d' g' rms' nranks' dt st sched' nsteps)
      (Proto.init (solverStart d' rms' st u')) c' k')
    (hfin' : ∀ r < nranks', (c'.proc r).round = stagesOf st * nsteps) :
    ∀ e < m.numElems, ∃ r < nranks, ∃ r' < nranks', ∃ (i i' : ℕ) (s s' : RankState ℝ),
      (rms r).l2gElem[i]? = some e ∧ (rms' r').l2gElem[i']? = some e ∧
      (c.proc r).st.2 = some s ∧ (c'.proc r').st.2 = some s' ∧
      s.time = s'.time ∧ ∀ b < (p + 1) * (p + 1), ∀ v < ns, s.Uc i b v = s'.Uc i' b v := by
  intro e he
  have find : ∀ (nr : ℕ) (pt : List ℕ) (rs : ℕ → RankMesh ℝ), World m nr pt rs →
      ∃ r < nr, ∃ i : ℕ, (rs r).l2gElem[i]? = some e := by
    intro nr pt rs w
    have hlt : e < pt.length := by rw [w.parts.len]; exact he
    have hr : pt[e] < nr := w.parts.lt _ (List.getElem_mem hlt)
    refine ⟨pt[e], hr, ?_⟩
    have : e ∈ (rs pt[e]).l2gElem := by
      rw [(w.res hr).l2gElem]
      exact mem_owned.2 ⟨he, List.getElem?_eq_getElem hlt⟩
    obtain ⟨i, hi, h⟩ := List.mem_iff_getElem.1 this
    exact ⟨i, by rw [List.getElem?_eq_getElem hi, h]⟩
  obtain ⟨r, h1, i, hi⟩ := find nranks part rms w
  obtain ⟨r', h1', i', hi'⟩ := find nranks' part' rms' w'
  obtain ⟨s, s1, s2, s3⟩ := C61_run_is_textbook m nranks part rms w hq t p ns hp vf nf ic d g u hr st dt
    sched hsched nsteps k c hx r h1 nsteps (hfin r h1)
  obtain ⟨s', t1, t2, t3⟩ := C61_run_is_textbook m nranks' part' rms' w' hq t p ns hp vf nf ic d' g' u' hr'
    st dt sched' hsched' nsteps k' c' hx' r' h1' nsteps (hfin' r' h1')
  refine ⟨r, h1, r', h1', i, i', s, s', hi, hi', s1, t1, by rw [s2, t2], ?_⟩
  intro b hb v hv
  rw [s3 i e hi b hb v hv, t3 i' e hi' b hb v hv]

/-! ### conservation -/

/-- coefficients of the function 1 -/
noncomputable def quadOne (t : Fam) (p b : ℕ) : ℝ := famOne t (b % (p + 1)) * famOne t (b / (p + 1))

theorem quadOne_sum (t : Fam) (p : ℕ) (F H : ℕ → ℝ) :
    ∑ b ∈ range ((p + 1) * (p + 1)), quadOne t p b * (F (b % (p + 1)) * H (b / (p + 1)))
      = (∑ i ∈ range (p + 1), famOne t i * F i) * ∑ j ∈ range (p + 1), famOne t j * H j := by
  have := sum_div_mod (K := ℝ) (p + 1) (p + 1) (fun i j => famOne t i * F i * (famOne t j * H j))
  rw [Finset.sum_mul_sum, Finset.sum_comm, ← this]
  exact Finset.sum_congr rfl fun b _ => by unfold quadOne; ring

theorem quadOne_phi (t : Fam) (p : ℕ) (x y : ℝ) :
    ∑ b ∈ range ((p + 1) * (p + 1)), quadOne t p b * phi t p b x y = 1 := by
  unfold phi
  rw [quadOne_sum t p (fun i => (famPoly t p i).eval x) (fun j => (famPoly t p j).eval y), famOne_eval,
    famOne_eval, one_mul]

theorem quadOne_dphi (t : Fam) (p : ℕ) (x y : ℝ) (i : ℕ) :
    ∑ b ∈ range ((p + 1) * (p + 1)), quadOne t p b * dphi t p b i x y = 0 := by
  unfold dphi
  split
  · rw [quadOne_sum t p (fun i => (derivative (famPoly t p i)).eval x) (fun j => (famPoly t p j).eval y),
      famOne_deriv, zero_mul]
  · rw [quadOne_sum t p (fun i => (famPoly t p i).eval x) (fun j => (derivative (famPoly t p j)).eval y),
      famOne_deriv, mul_zero]

/-- Integral of variable `v` of the coefficients `a` over the element with corners `X`, by the rule of
the mass matrix. -/
noncomputable def quadIntegral (t : Fam) (p : ℕ) (X : ℕ → ℕ → ℝ) (a : ℕ → ℕ → ℝ) (v : ℕ) : ℝ :=
  ∑ q ∈ range ((2 * p + 2) * (2 * p + 2)),
    glW (4 * p + 3) (q % (2 * p + 2)) * glW (4 * p + 3) (q / (2 * p + 2)) *
      quadDet X (glX (4 * p + 3) (q % (2 * p + 2))) (glX (4 * p + 3) (q / (2 * p + 2))) *
    ∑ b ∈ range ((p + 1) * (p + 1)),
      phi t p b (glX (4 * p + 3) (q % (2 * p + 2))) (glX (4 * p + 3) (q / (2 * p + 2))) * a b v

/-- **C61** (conservation).  The sum over all ranks and their elements of the integral of every
conserved variable is the same after `nsteps` steps as after the projection of the initial condition,
for every flux function. -/
theorem C61_run_conserves (m : GMesh ℝ) (nranks : ℕ) (part : List ℕ) (rms : ℕ → RankMesh ℝ)
    (w : World m nranks part rms) (hq : QuadMesh m) (t : Fam) (p ns : ℕ) (hp : orderFine t p)
    (vf : (ℕ → ℝ) → ℕ → ℝ) (nf : (ℕ → ℝ) → (ℕ → ℝ) → (ℕ → ℝ) → ℕ → ℝ) (ic : (ℕ → ℝ) → ℕ → ℝ)
    (d : Disc ℝ) (g : ℕ → Geom ℝ) (u : ℕ → Coeffs ℝ)
    (hr : RanksReady t p ns vf nf ic nranks rms d g u) (st : Stepper) (dt : ℝ)
    (sched : ℕ → ℕ → List (FluxWrite ℝ) → List (FluxWrite ℝ))
    (hsched : ∀ r k l, (sched r k l).Perm l) (nsteps k : ℕ)
    (c : Proto.Conf (FaceArr (ℕ → ℕ → ℝ) × Option (RankState ℝ)) (List (ℕ → ℕ → ℝ)))
    (hx : Proto.Exec (solverProg d g rms nranks dt st sched nsteps)
      (Proto.init (solverStart d rms st u)) c k)
    (hfin : ∀ r < nranks, (c.proc r).round = stagesOf st * nsteps) (v : ℕ) (hv : v < ns) :
    ∃ S : ℕ → RankState ℝ, (∀ r < nranks, (c.proc r).st.2 = some (S r)) ∧
      ∑ r ∈ range nranks, ∑ i ∈ range (rms r).numElemsPart,
        quadIntegral t p (elemCoords (rms r) i) ((S r).Uc i) v =
      ∑ r ∈ range nranks, ∑ i ∈ range (rms r).numElemsPart,
        quadIntegral t p (elemCoords (rms r) i) (u r i) v := by
  have ag := hr.agree hp
  obtain ⟨e1, e2⟩ := hr.extents hp
  have hc := ag.conforming (hq.conforming t p ns vf nf)
  have ho := ag.orderOK (quadDisc_order t p ns vf nf)
  have key := C38_run_conserves m nranks part rms w d 2 hc ho (quadOne t p)
    (by
      intro f hf j hj
      rw [← quadOne_phi t p (sidePoint f (glX (2 * p + 1) j)).1 (sidePoint f (glX (2 * p + 1) j)).2, e2]
      refine Finset.sum_congr rfl fun b hb => ?_
      rw [ag.faceBasis f hf j hj b (by rw [e2]; exact Finset.mem_range.1 hb)]
      rfl)
    (by
      intro q hq' i hi
      rw [← quadOne_dphi t p (glX (2 * p + 3) (q % (p + 2))) (glX (2 * p + 3) (q / (p + 2))) i, e2]
      refine Finset.sum_congr rfl fun b hb => ?_
      rw [ag.volGrad q hq' b (by rw [e2]; exact Finset.mem_range.1 hb) i hi]
      rfl)
    (quadGeom t p m) g (fun r h => (hr.geomQ w hq hp r h).agree ag) ((2 * p + 2) * (2 * p + 2))
    (fun e q => glW (4 * p + 3) (q % (2 * p + 2)) * glW (4 * p + 3) (q / (2 * p + 2)) *
      quadDet (fileCoords m e) (glX (4 * p + 3) (q % (2 * p + 2))) (glX (4 * p + 3) (q / (2 * p + 2))))
    (fun q b => phi t p b (glX (4 * p + 3) (q % (2 * p + 2))) (glX (4 * p + 3) (q / (2 * p + 2))))
    (fun q _ => by rw [e2]; exact quadOne_phi t p _ _)
    (by
      intro e he a ha j hj
      rw [e2] at ha hj ⊢
      have := quadInvMass_inv t p hp (fileCoords m e) (hq.det e he) a j ha hj
      rw [← this]
      refine Finset.sum_congr rfl fun b _ => ?_
      unfold quadMass
      rw [show 2 * (2 * p) + 3 = 4 * p + 3 by omega]
      rfl)
    (fun r i q => glW (4 * p + 3) (q % (2 * p + 2)) * glW (4 * p + 3) (q / (2 * p + 2)) *
      quadDet (elemCoords (rms r) i) (glX (4 * p + 3) (q % (2 * p + 2))) (glX (4 * p + 3) (q / (2 * p + 2))))
    (by
      intro r hlt i e hi q _
      have : ∀ a < 4, ∀ d, elemCoords (rms r) i a d = fileCoords m e a d := fun a ha d =>
        w.coords hlt hi a (by rw [hq.npe]; exact ha) d
      simp only [(quad_congr this).2.1])
    st dt sched hsched (quadInit t p m ic) u (fun r h => hr.restrict hp (hr.initQ w hq hp r h)) nsteps k c hx
    hfin v (by rw [e1]; exact hv)
  rw [e2] at key
  exact key

end DG
