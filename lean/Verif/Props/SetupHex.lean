import Verif.Lemmas.SetupHex
import Verif.Props.Setup

/-!
Property C63: the whole program on meshes of trilinear hexahedra computes the textbook discontinuous
Galerkin solution of `Spec/HexDG.lean`, for every mesh, every partition that cuts the mesh along
parallelogram faces only, every interleaving, polynomial order with tables and flux function.
-/
namespace DG
open Finset Polynomial

/-- What every rank holds after the setup: the tables `d` (the same on all ranks), its geometry and its
initial coefficients.  `scr`, `MM0`, `rhs0`, `Uin`: uninitialised scratch memory and `Uc` of each
rank. -/
structure HexRanksReady (t : Fam) (p ns : ℕ) (vf : (ℕ → ℝ) → ℕ → ℝ)
    (nf : (ℕ → ℝ) → (ℕ → ℝ) → (ℕ → ℝ) → ℕ → ℝ) (ic : (ℕ → ℝ) → ℕ → ℝ) (nranks : ℕ)
    (rms : ℕ → RankMesh ℝ) (d : Disc ℝ) (g : ℕ → Geom ℝ) (u : ℕ → Coeffs ℝ) : Prop where
  disc : buildDisc (hexType t) .LagrangeHex p 1 ns vf nf = some d
  geom : ∀ r < nranks, ∃ scr MM0, buildGeom (hexType t) .LagrangeHex p 1 r (rms r) scr MM0 = some (g r)
  init : ∀ r < nranks, ∃ rhs0 Uin,
    initState (hexType t) .LagrangeHex p 1 ns (rms r) (g r).iMM ic rhs0 Uin = some (u r)

section
variable {m : GMesh ℝ} {nranks : ℕ} {part : List ℕ} {rms : ℕ → RankMesh ℝ} {t : Fam} {p ns : ℕ}
  {vf : (ℕ → ℝ) → ℕ → ℝ} {nf : (ℕ → ℝ) → (ℕ → ℝ) → (ℕ → ℝ) → ℕ → ℝ} {ic : (ℕ → ℝ) → ℕ → ℝ}
  {d : Disc ℝ} {g : ℕ → Geom ℝ} {u : ℕ → Coeffs ℝ}

theorem HexRanksReady.agree (hr : HexRanksReady t p ns vf nf ic nranks rms d g u) (hp : orderFine t p) :
    DiscAgree 8 d (hexDisc t p ns vf nf) := by
  obtain ⟨d', h1, h2⟩ := buildDisc_hex t p ns hp vf nf
  have := hr.disc
  rw [h1] at this; cases this
  exact h2

theorem HexRanksReady.geomQ (hr : HexRanksReady t p ns vf nf ic nranks rms d g u) (w : World m nranks part rms)
    (hq : HexMesh m) (hcut : CutFlat m part) (hp : orderFine t p) (r : ℕ) (hlt : r < nranks) :
    GeomRestrict (hexDisc t p ns vf nf) (rms r) (g r) (hexGeom t p m) := by
  obtain ⟨scr, MM0, h⟩ := hr.geom r hlt
  obtain ⟨g', h1, h2⟩ := buildGeom_hex w hq hcut t p ns hp vf nf hlt scr MM0
  rw [h] at h1; cases h1
  exact h2

theorem HexRanksReady.initQ (hr : HexRanksReady t p ns vf nf ic nranks rms d g u) (w : World m nranks part rms)
    (hq : HexMesh m) (hcut : CutFlat m part) (hp : orderFine t p) (r : ℕ) (hlt : r < nranks) :
    CoeffsRestrict (hexDisc t p ns vf nf) (rms r) (u r) (hexInit t p m ic) := by
  obtain ⟨rhs0, Uin, h⟩ := hr.init r hlt
  obtain ⟨u', h1, h2⟩ := initState_hex w hq t p ns hp vf nf hlt (g r) (hr.geomQ w hq hcut hp r hlt) ic rhs0 Uin
  rw [h] at h1; cases h1
  exact h2

/-- the extents of the tables -/
theorem HexRanksReady.extents (hr : HexRanksReady t p ns vf nf ic nranks rms d g u) (hp : orderFine t p) :
    d.ns = ns ∧ d.nb = (p + 1) * (p + 1) * (p + 1) := ⟨(hr.agree hp).ns, (hr.agree hp).nb⟩

theorem HexRanksReady.restrict (hr : HexRanksReady t p ns vf nf ic nranks rms d g u) (hp : orderFine t p)
    {rm : RankMesh ℝ} {a A : Coeffs ℝ} (h : CoeffsRestrict (hexDisc t p ns vf nf) rm a A) :
    CoeffsRestrict d rm a A := by
  unfold CoeffsRestrict
  rw [(hr.agree hp).nb, (hr.agree hp).ns]; exact h

end

/-! ### faces -/

/-- With one part there is nothing to ask of the faces. -/
theorem cutFlat_one {m : GMesh ℝ} {part : List ℕ} (hm : MeshOK m) (hp : PartOK m 1 part) : CutFlat m part := by
  intro f hf h
  exfalso
  apply h
  have get : ∀ e < m.numElems, part[e]? = some 0 := by
    intro e he
    have hl : e < part.length := by rw [hp.len]; exact he
    have := hp.lt _ (List.getElem_mem hl)
    rw [List.getElem?_eq_getElem hl]
    congr 1; omega
  rw [get _ (hm.faces f hf).1, get _ (hm.faces f hf).2]

/-- **C63** (the two traces of a face).  The points of the left and of the right element that the scheme
combines at face point `i` are the same physical point, up to the translation of the face. -/
theorem C63_traces_at_same_points (m : GMesh ℝ) (hq : HexMesh m) (t : Fam) (p ns : ℕ) (hp : orderFine t p)
    (vf : (ℕ → ℝ) → ℕ → ℝ) (nf : (ℕ → ℝ) → (ℕ → ℝ) → (ℕ → ℝ) → ℕ → ℝ) (f : IFace) (hf : f ∈ m.faces) :
    ∃ shift : ℕ → ℝ, ∀ i < (p + 2) * (p + 2), ∀ d < 3,
      hexMap (fileCoords m f.elemL)
        (facePoint f.faceL (facePt2 p ((hexDisc t p ns vf nf).ptsOrder f.orientL i))) d =
      hexMap (fileCoords m f.elemR)
        (facePoint f.faceR (facePt2 p ((hexDisc t p ns vf nf).ptsOrder f.orientR i))) d + shift d := by
  obtain ⟨sh, hs⟩ := hq.match_ f hf
  obtain ⟨-, t2, -, -⟩ := tables_fine p hp.1
  have rule := gl_rule_odd _ t2
  refine ⟨sh, fun i hi d hd => ?_⟩
  have key : ∀ o < 8, facePt2 p ((hexDisc t p ns vf nf).ptsOrder o i) = turn o (facePt2 p i) := by
    intro o ho
    obtain ⟨hr, hc⟩ := div_mod_lt hi
    obtain ⟨h1, h2⟩ := dihedral_lt (o := o) hr hc
    rw [hexDisc_ptsOrder _ _ _ _ _ _ ho, turn_eq o ho]
    unfold dihIdx facePt2
    rw [idx2_div h2, idx2_mod h2]
    generalize i / (p + 2) = r at *
    generalize i % (p + 2) = c at *
    have hO : o = 0 ∨ o = 1 ∨ o = 2 ∨ o = 3 ∨ o = 4 ∨ o = 5 ∨ o = 6 ∨ o = 7 := by omega
    rcases hO with rfl | rfl | rfl | rfl | rfl | rfl | rfl | rfl <;>
      simp only [dihedral, unorient, rule.symx r hr, rule.symx c hc]
  rw [key _ (hq.faceL f hf).2, key _ (hq.faceR f hf).2]
  exact hs _ d hd

/-- **C63** (the normals).  On a face that is a parallelogram the normal the scheme uses at face point `q`
is the outward normal of the left element at that point: the cross product of the derivatives of the
face, times the area element. -/
theorem C63_normal_at_point (m : GMesh ℝ) (t : Fam) (p g : ℕ)
    (flat : FlatFace (fileCoords m (faceAt m g).elemL) (faceAt m g).faceL) (q j : ℕ) (o : ℕ) :
    (hexGeom t p m).normals g q j =
      faceNormal (fileCoords m (faceAt m g).elemL) (faceAt m g).faceL (turn o (facePt2 p q)) j :=
  faceNormal_flat _ _ flat _ _ _

/-! ### C63 -/

/-- **C63** (the setup succeeds).  On every mesh of trilinear hexahedra, every partition and every
rank, for every order `p ≤ 11` of the Lagrange basis and `p ≤ 7` of the Legendre basis, the setup
completes, whatever the scratch memory holds. -/
theorem C63_setup_succeeds (m : GMesh ℝ) (nranks : ℕ) (part : List ℕ) (rms : ℕ → RankMesh ℝ)
    (w : World m nranks part rms) (hq : HexMesh m) (hcut : CutFlat m part) (t : Fam) (p ns : ℕ) (hp : orderFine t p)
    (vf : (ℕ → ℝ) → ℕ → ℝ) (nf : (ℕ → ℝ) → (ℕ → ℝ) → (ℕ → ℝ) → ℕ → ℝ) (ic : (ℕ → ℝ) → ℕ → ℝ)
    (scr MM0 rhs0 Uin : ℕ → ℕ → ℕ → ℕ → ℝ) :
    ∃ (d : Disc ℝ) (g : ℕ → Geom ℝ) (u : ℕ → Coeffs ℝ),
      buildDisc (hexType t) .LagrangeHex p 1 ns vf nf = some d ∧
      ∀ r < nranks, buildGeom (hexType t) .LagrangeHex p 1 r (rms r) (scr r) (MM0 r) = some (g r) ∧
        initState (hexType t) .LagrangeHex p 1 ns (rms r) (g r).iMM ic (rhs0 r) (Uin r) = some (u r) := by
  obtain ⟨d, h1, -⟩ := buildDisc_hex t p ns hp vf nf
  have hg : ∀ r, ∃ g : Geom ℝ, r < nranks →
      buildGeom (hexType t) .LagrangeHex p 1 r (rms r) (scr r) (MM0 r) = some g ∧
      GeomRestrict (hexDisc t p ns vf nf) (rms r) g (hexGeom t p m) := by
    intro r
    by_cases hr : r < nranks
    · obtain ⟨g, hg⟩ := buildGeom_hex w hq hcut t p ns hp vf nf hr (scr r) (MM0 r)
      exact ⟨g, fun _ => hg⟩
    · exact ⟨⟨fun _ _ => 0, fun _ _ _ _ => 0, fun _ _ _ => 0, fun _ _ _ => 0⟩, fun h => absurd h hr⟩
  choose g hg using hg
  have hu : ∀ r, ∃ u : Coeffs ℝ, r < nranks →
      initState (hexType t) .LagrangeHex p 1 ns (rms r) (g r).iMM ic (rhs0 r) (Uin r) = some u := by
    intro r
    by_cases hr : r < nranks
    · obtain ⟨u, hu, -⟩ := initState_hex w hq t p ns hp vf nf hr (g r) (hg r hr).2 ic (rhs0 r) (Uin r)
      exact ⟨u, fun _ => hu⟩
    · exact ⟨fun _ _ _ => 0, fun h => absurd h hr⟩
  choose u hu using hu
  exact ⟨d, g, u, h1, fun r hr => ⟨(hg r hr).1, hu r hr⟩⟩

/-- **C63** (the setup is the textbook one).  Tables: the basis functions of the family, their
derivatives and the tensor rules.  Geometry: determinant and inverse of the Jacobian of the trilinear
map given by the mesh file, inverse mass matrix, outward normal of the left element (also on the rank
that only has the right element).  Initial state: the projection of the initial condition. -/
theorem C63_setup_is_textbook (m : GMesh ℝ) (nranks : ℕ) (part : List ℕ) (rms : ℕ → RankMesh ℝ)
    (w : World m nranks part rms) (hq : HexMesh m) (hcut : CutFlat m part) (t : Fam) (p ns : ℕ) (hp : orderFine t p)
    (vf : (ℕ → ℝ) → ℕ → ℝ) (nf : (ℕ → ℝ) → (ℕ → ℝ) → (ℕ → ℝ) → ℕ → ℝ) (ic : (ℕ → ℝ) → ℕ → ℝ)
    (d : Disc ℝ) (g : ℕ → Geom ℝ) (u : ℕ → Coeffs ℝ)
    (hr : HexRanksReady t p ns vf nf ic nranks rms d g u) :
    DiscAgree 8 d (hexDisc t p ns vf nf) ∧
    ∀ r < nranks, GeomRestrict (hexDisc t p ns vf nf) (rms r) (g r) (hexGeom t p m) ∧
      CoeffsRestrict (hexDisc t p ns vf nf) (rms r) (u r) (hexInit t p m ic) :=
  ⟨hr.agree hp, fun r hlt => ⟨hr.geomQ w hq hcut hp r hlt, hr.initQ w hq hcut hp r hlt⟩⟩

/-- **C63** (the run).  After the setup, under every interleaving of the ranks and every order of the
parallel flux loops, a rank that has completed `n` time steps holds on its elements the coefficients
of the textbook scheme after `n` steps from the textbook initial state. -/
theorem C63_run_is_textbook (m : GMesh ℝ) (nranks : ℕ) (part : List ℕ) (rms : ℕ → RankMesh ℝ)
    (w : World m nranks part rms) (hq : HexMesh m) (hcut : CutFlat m part) (t : Fam) (p ns : ℕ) (hp : orderFine t p)
    (vf : (ℕ → ℝ) → ℕ → ℝ) (nf : (ℕ → ℝ) → (ℕ → ℝ) → (ℕ → ℝ) → ℕ → ℝ) (ic : (ℕ → ℝ) → ℕ → ℝ)
    (d : Disc ℝ) (g : ℕ → Geom ℝ) (u : ℕ → Coeffs ℝ)
    (hr : HexRanksReady t p ns vf nf ic nranks rms d g u) (st : Stepper) (dt : ℝ)
    (sched : ℕ → ℕ → List (FluxWrite ℝ) → List (FluxWrite ℝ))
    (hsched : ∀ r k l, (sched r k l).Perm l) (nsteps k : ℕ)
    (c : Proto.Conf (FaceArr (ℕ → ℕ → ℝ) × Option (RankState ℝ)) (List (ℕ → ℕ → ℝ)))
    (hx : Proto.Exec (solverProg d g rms nranks dt st sched nsteps)
      (Proto.init (solverStart d rms st u)) c k) (r : ℕ) (hlt : r < nranks) (n : ℕ)
    (hn : (c.proc r).round = stagesOf st * n) :
    ∃ s, (c.proc r).st.2 = some s ∧ s.time = n * dt ∧
      ∀ i e : ℕ, (rms r).l2gElem[i]? = some e → ∀ b < (p + 1) * (p + 1) * (p + 1), ∀ v < ns,
        s.Uc i b v = ((stepOf st dt (globalRHS (hexDisc t p ns vf nf) m (hexGeom t p m)))^[n]
          (hexInit t p m ic)) e b v := by
  have ag := hr.agree hp
  have hc := ag.conforming (hq.conforming t p ns vf nf)
  have ho := ag.orderOK (hexDisc_order t p ns vf nf)
  obtain ⟨s, s1, s2, s3, -⟩ := C60_run_matches_serial m nranks part rms w d 8 hc ho (hexGeom t p m) g
    (fun r h => (hr.geomQ w hq hcut hp r h).agree ag) st dt sched hsched (hexInit t p m ic) u
    (fun r h => hr.restrict hp (hr.initQ w hq hcut hp r h)) nsteps k c hx r hlt n hn
  refine ⟨s, s1, s3, ?_⟩
  intro i e hi b hb v hv
  obtain ⟨e1, e2⟩ := hr.extents hp
  rw [s2 i e hi b (by rw [e2]; exact hb) v (by rw [e1]; exact hv)]
  exact ag.run w.mesh hc ho (hexGeom t p m) st dt (hexInit t p m ic) n e (w.elem_lt hlt hi) b
    (by rw [e2]; exact hb) v (by rw [e1]; exact hv)

/-- **C63** (the run completes).  No rank fails, and every execution can be continued until all ranks
have made all time steps. -/
theorem C63_run_completes (m : GMesh ℝ) (nranks : ℕ) (part : List ℕ) (rms : ℕ → RankMesh ℝ)
    (w : World m nranks part rms) (hq : HexMesh m) (hcut : CutFlat m part) (t : Fam) (p ns : ℕ) (hp : orderFine t p)
    (vf : (ℕ → ℝ) → ℕ → ℝ) (nf : (ℕ → ℝ) → (ℕ → ℝ) → (ℕ → ℝ) → ℕ → ℝ) (ic : (ℕ → ℝ) → ℕ → ℝ)
    (d : Disc ℝ) (g : ℕ → Geom ℝ) (u : ℕ → Coeffs ℝ)
    (hr : HexRanksReady t p ns vf nf ic nranks rms d g u) (st : Stepper) (dt : ℝ)
    (sched : ℕ → ℕ → List (FluxWrite ℝ) → List (FluxWrite ℝ))
    (hsched : ∀ r k l, (sched r k l).Perm l) (nsteps k : ℕ)
    (c : Proto.Conf (FaceArr (ℕ → ℕ → ℝ) × Option (RankState ℝ)) (List (ℕ → ℕ → ℝ)))
    (hx : Proto.Exec (solverProg d g rms nranks dt st sched nsteps)
      (Proto.init (solverStart d rms st u)) c k) :
    (∀ r < nranks, (c.proc r).phase ≠ .failed ∧ (c.proc r).st.2 ≠ none) ∧
    ∃ c' k', Proto.Exec (solverProg d g rms nranks dt st sched nsteps) c c' k' ∧
      ∀ r < nranks, (c'.proc r).round = stagesOf st * nsteps := by
  have ag := hr.agree hp
  exact C60_run_completes m nranks part rms w d 8 (ag.conforming (hq.conforming t p ns vf nf))
    (ag.orderOK (hexDisc_order t p ns vf nf)) (hexGeom t p m) g
    (fun r h => (hr.geomQ w hq hcut hp r h).agree ag) st dt sched hsched (hexInit t p m ic) u
    (fun r h => hr.restrict hp (hr.initQ w hq hcut hp r h)) nsteps k c hx

/-- **C63** (partition independence).  Two complete runs of the same case on different numbers of ranks,
with different partitions, schedules and scratch memory, hold the same coefficients of every element
of the mesh. -/
theorem C63_partition_independent (m : GMesh ℝ) (hq : HexMesh m) (t : Fam) (p ns : ℕ) (hp : orderFine t p)
    (vf : (ℕ → ℝ) → ℕ → ℝ) (nf : (ℕ → ℝ) → (ℕ → ℝ) → (ℕ → ℝ) → ℕ → ℝ) (ic : (ℕ → ℝ) → ℕ → ℝ)
    (st : Stepper) (dt : ℝ) (nsteps : ℕ)
    (nranks : ℕ) (part : List ℕ) (rms : ℕ → RankMesh ℝ) (w : World m nranks part rms)
    (hcut : CutFlat m part) (d : Disc ℝ) (g : ℕ → Geom ℝ) (u : ℕ → Coeffs ℝ) (hr : HexRanksReady t p ns vf nf ic nranks rms d g u)
    (sched : ℕ → ℕ → List (FluxWrite ℝ) → List (FluxWrite ℝ))
    (hsched : ∀ r k l, (sched r k l).Perm l) (k : ℕ)
    (c : Proto.Conf (FaceArr (ℕ → ℕ → ℝ) × Option (RankState ℝ)) (List (ℕ → ℕ → ℝ)))
    (hx : Proto.Exec (solverProg d g rms nranks dt st sched nsteps)
      (Proto.init (solverStart d rms st u)) c k)
    (hfin : ∀ r < nranks, (c.proc r).round = stagesOf st * nsteps)
    (nranks' : ℕ) (part' : List ℕ) (rms' : ℕ → RankMesh ℝ) (w' : World m nranks' part' rms') (hcut' : CutFlat m part')
    (d' : Disc ℝ) (g' : ℕ → Geom ℝ) (u' : ℕ → Coeffs ℝ)
    (hr' : HexRanksReady t p ns vf nf ic nranks' rms' d' g' u')
    (sched' : ℕ → ℕ → List (FluxWrite ℝ) → List (FluxWrite ℝ))
    (hsched' : ∀ r k l, (sched' r k l).Perm l) (k' : ℕ)
    (c' : Proto.Conf (FaceArr (ℕ → ℕ → ℝ) × Option (RankState ℝ)) (List (ℕ → ℕ → ℝ)))
    (hx' : Proto.Exec (solverProg d' g' rms' nranks' dt st sched' nsteps)
      (Proto.init (solverStart d' rms' st u')) c' k')
    (hfin' : ∀ r < nranks', (c'.proc r).round = stagesOf st * nsteps) :
    ∀ e < m.numElems, ∃ r < nranks, ∃ r' < nranks', ∃ (i i' : ℕ) (s s' : RankState ℝ),
      (rms r).l2gElem[i]? = some e ∧ (rms' r').l2gElem[i']? = some e ∧
      (c.proc r).st.2 = some s ∧ (c'.proc r').st.2 = some s' ∧
      s.time = s'.time ∧ ∀ b < (p + 1) * (p + 1) * (p + 1), ∀ v < ns, s.Uc i b v = s'.Uc i' b v := by
  intro e he
  have find : ∀ (nr : ℕ) (pt : List ℕ) (rs : ℕ → RankMesh ℝ), World m nr pt rs →
      ∃ r < nr, ∃ i : ℕ, (rs r).l2gElem[i]? = some e := by
    intro nr pt rs w
    have hlt : e < pt.length := by rw [w.parts.len]; exact he
    have hr : pt[e] < nr := w.parts.lt _ (List.getElem_mem hlt)
    refine ⟨pt[e], hr, ?_⟩
    have : e ∈ (rs pt[e]).l2gElem := by
      rw [(w.res hr).l2gElem]
      exact mem_owned.2 ⟨he, List.getElem?_eq_getElem hlt⟩
    obtain ⟨i, hi, h⟩ := List.mem_iff_getElem.1 this
    exact ⟨i, by rw [List.getElem?_eq_getElem hi, h]⟩
  obtain ⟨r, h1, i, hi⟩ := find nranks part rms w
  obtain ⟨r', h1', i', hi'⟩ := find nranks' part' rms' w'
  obtain ⟨s, s1, s2, s3⟩ := C63_run_is_textbook m nranks part rms w hq hcut t p ns hp vf nf ic d g u hr st dt
    sched hsched nsteps k c hx r h1 nsteps (hfin r h1)
  obtain ⟨s', t1, t2, t3⟩ := C63_run_is_textbook m nranks' part' rms' w' hq hcut' t p ns hp vf nf ic d' g' u' hr'
    st dt sched' hsched' nsteps k' c' hx' r' h1' nsteps (hfin' r' h1')
  refine ⟨r, h1, r', h1', i, i', s, s', hi, hi', s1, t1, by rw [s2, t2], ?_⟩
  intro b hb v hv
  rw [s3 i e hi b hb v hv, t3 i' e hi' b hb v hv]

/-! ### conservation -/

/-- coefficients of the function 1 -/
noncomputable def hexOne (t : Fam) (p b : ℕ) : ℝ :=
  famOne t (b % (p + 1)) * famOne t (b / (p + 1) % (p + 1)) * famOne t (b / ((p + 1) * (p + 1)))

theorem hexOne_sum (t : Fam) (p : ℕ) (F H G : ℕ → ℝ) :
    ∑ b ∈ range ((p + 1) * (p + 1) * (p + 1)),
        hexOne t p b * (F (b % (p + 1)) * H (b / (p + 1) % (p + 1)) * G (b / ((p + 1) * (p + 1))))
      = (∑ i ∈ range (p + 1), famOne t i * F i) * (∑ j ∈ range (p + 1), famOne t j * H j) *
        ∑ k ∈ range (p + 1), famOne t k * G k := by
  have h := sum_div_mod3 (K := ℝ) (p + 1)
    (fun i j k => famOne t i * F i * (famOne t j * H j) * (famOne t k * G k))
  have e : ∀ k, ∑ j ∈ range (p + 1), ∑ i ∈ range (p + 1),
      famOne t i * F i * (famOne t j * H j) * (famOne t k * G k)
      = (∑ i ∈ range (p + 1), famOne t i * F i) * (∑ j ∈ range (p + 1), famOne t j * H j) *
        (famOne t k * G k) := by
    intro k
    rw [Finset.sum_mul_sum, Finset.sum_comm, Finset.sum_mul]
    exact Finset.sum_congr rfl fun i _ => by rw [Finset.sum_mul]
  simp only [e] at h
  rw [← Finset.mul_sum] at h
  rw [← h]
  exact Finset.sum_congr rfl fun b _ => by unfold hexOne; ring

theorem hexOne_phi (t : Fam) (p : ℕ) (x : ℝ × ℝ × ℝ) :
    ∑ b ∈ range ((p + 1) * (p + 1) * (p + 1)), hexOne t p b * phi3 t p b x = 1 := by
  unfold phi3
  rw [hexOne_sum t p (fun i => (famPoly t p i).eval x.1) (fun j => (famPoly t p j).eval x.2.1)
    (fun k => (famPoly t p k).eval x.2.2), famOne_eval, famOne_eval, famOne_eval, one_mul, one_mul]

theorem hexOne_dphi (t : Fam) (p : ℕ) (x : ℝ × ℝ × ℝ) (i : ℕ) :
    ∑ b ∈ range ((p + 1) * (p + 1) * (p + 1)), hexOne t p b * dphi3 t p b i x = 0 := by
  unfold dphi3
  split
  · rw [hexOne_sum t p (fun i => (derivative (famPoly t p i)).eval x.1) (fun j => (famPoly t p j).eval x.2.1)
      (fun k => (famPoly t p k).eval x.2.2), famOne_deriv, zero_mul, zero_mul]
  split
  · rw [hexOne_sum t p (fun i => (famPoly t p i).eval x.1) (fun j => (derivative (famPoly t p j)).eval x.2.1)
      (fun k => (famPoly t p k).eval x.2.2), famOne_deriv, mul_zero, zero_mul]
  · rw [hexOne_sum t p (fun i => (famPoly t p i).eval x.1) (fun j => (famPoly t p j).eval x.2.1)
      (fun k => (derivative (famPoly t p k)).eval x.2.2), famOne_deriv, mul_zero]

/-- Integral of variable `v` of the coefficients `a` over the element with corners `X`, by the rule of
the mass matrix. -/
noncomputable def hexIntegral (t : Fam) (p : ℕ) (X : ℕ → ℕ → ℝ) (a : ℕ → ℕ → ℝ) (v : ℕ) : ℝ :=
  ∑ q ∈ range ((2 * p + 2) * (2 * p + 2) * (2 * p + 2)),
    wt3 (2 * p) q * hexDet X (volPt3 (2 * p) q) *
    ∑ b ∈ range ((p + 1) * (p + 1) * (p + 1)), phi3 t p b (volPt3 (2 * p) q) * a b v

/-- **C63** (conservation).  The sum over all ranks and their elements of the integral of every
conserved variable is the same after `nsteps` steps as after the projection of the initial condition,
for every flux function. -/
theorem C63_run_conserves (m : GMesh ℝ) (nranks : ℕ) (part : List ℕ) (rms : ℕ → RankMesh ℝ)
    (w : World m nranks part rms) (hq : HexMesh m) (hcut : CutFlat m part) (t : Fam) (p ns : ℕ) (hp : orderFine t p)
    (vf : (ℕ → ℝ) → ℕ → ℝ) (nf : (ℕ → ℝ) → (ℕ → ℝ) → (ℕ → ℝ) → ℕ → ℝ) (ic : (ℕ → ℝ) → ℕ → ℝ)
    (d : Disc ℝ) (g : ℕ → Geom ℝ) (u : ℕ → Coeffs ℝ)
    (hr : HexRanksReady t p ns vf nf ic nranks rms d g u) (st : Stepper) (dt : ℝ)
    (sched : ℕ → ℕ → List (FluxWrite ℝ) → List (FluxWrite ℝ))
    (hsched : ∀ r k l, (sched r k l).Perm l) (nsteps k : ℕ)
    (c : Proto.Conf (FaceArr (ℕ → ℕ → ℝ) × Option (RankState ℝ)) (List (ℕ → ℕ → ℝ)))
    (hx : Proto.Exec (solverProg d g rms nranks dt st sched nsteps)
      (Proto.init (solverStart d rms st u)) c k)
    (hfin : ∀ r < nranks, (c.proc r).round = stagesOf st * nsteps) (v : ℕ) (hv : v < ns) :
    ∃ S : ℕ → RankState ℝ, (∀ r < nranks, (c.proc r).st.2 = some (S r)) ∧
      ∑ r ∈ range nranks, ∑ i ∈ range (rms r).numElemsPart,
        hexIntegral t p (elemCoords (rms r) i) ((S r).Uc i) v =
      ∑ r ∈ range nranks, ∑ i ∈ range (rms r).numElemsPart,
        hexIntegral t p (elemCoords (rms r) i) (u r i) v := by
  have ag := hr.agree hp
  obtain ⟨e1, e2⟩ := hr.extents hp
  have hc := ag.conforming (hq.conforming t p ns vf nf)
  have ho := ag.orderOK (hexDisc_order t p ns vf nf)
  have key := C38_run_conserves m nranks part rms w d 8 hc ho (hexOne t p)
    (by
      intro f hf j hj
      rw [← hexOne_phi t p (facePoint f (facePt2 p j)), e2]
      refine Finset.sum_congr rfl fun b hb => ?_
      rw [ag.faceBasis f hf j hj b (by rw [e2]; exact Finset.mem_range.1 hb)]
      rfl)
    (by
      intro q hq' i hi
      rw [← hexOne_dphi t p (volPt3 p q) i, e2]
      refine Finset.sum_congr rfl fun b hb => ?_
      rw [ag.volGrad q hq' b (by rw [e2]; exact Finset.mem_range.1 hb) i hi]
      rfl)
    (hexGeom t p m) g (fun r h => (hr.geomQ w hq hcut hp r h).agree ag)
    ((2 * p + 2) * (2 * p + 2) * (2 * p + 2))
    (fun e q => wt3 (2 * p) q * hexDet (fileCoords m e) (volPt3 (2 * p) q))
    (fun q b => phi3 t p b (volPt3 (2 * p) q))
    (fun q _ => by rw [e2]; exact hexOne_phi t p _)
    (by
      intro e he a ha j hj
      rw [e2] at ha hj ⊢
      rw [← hexInvMass_inv t p hp (fileCoords m e) (hq.det e he) a j ha hj]
      rfl)
    (fun r i q => wt3 (2 * p) q * hexDet (elemCoords (rms r) i) (volPt3 (2 * p) q))
    (by
      intro r hlt i e hi q _
      have : ∀ a < 8, ∀ d, elemCoords (rms r) i a d = fileCoords m e a d := fun a ha d =>
        w.coords hlt hi a (by rw [hq.npe]; exact ha) d
      simp only [(hex_congr this).2.1])
    st dt sched hsched (hexInit t p m ic) u (fun r h => hr.restrict hp (hr.initQ w hq hcut hp r h)) nsteps k c hx
    hfin v (by rw [e1]; exact hv)
  rw [e2] at key
  exact key

end DG
