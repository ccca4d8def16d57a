import Verif.Lemmas.RoundCase
import Verif.Spec.MachineCase
import Verif.Props.Wellposed
import Verif.Props.FreeStreamQuad

/-!
C84: a complete case - mesh file, setup and run - in rounded arithmetic.
-/
namespace DG

section
variable {m : GMesh ℝ} {t : Fam} {p : ℕ}

theorem quad_shape (t : Fam) : basisShape (quadType t) = some (.Quadrilateral, some .Segment) := by cases t <;> rfl
theorem hex_shape (t : Fam) : basisShape (hexType t) = some (.Hexahedron, some .Quadrilateral) := by cases t <;> rfl

theorem QuadMesh.faceRange (hq : QuadMesh m) : ∀ f ∈ m.faces, f.faceL < shapeFaces .Quadrilateral ∧ f.faceR < shapeFaces .Quadrilateral :=
  fun f hf => ⟨(hq.faceL f hf).1, (hq.faceR f hf).1⟩

theorem HexMesh.faceRange (hq : HexMesh m) : ∀ f ∈ m.faces, f.faceL < shapeFaces .Hexahedron ∧ f.faceR < shapeFaces .Hexahedron :=
  fun f hf => ⟨(hq.faceL f hf).1, (hq.faceR f hf).1⟩

end

/-- **C84** (the setup completes, quadrilaterals).  For every mesh of bilinear quadrilaterals, every supported order and basis:
on every computer whose roundoff is small enough and whose range is large enough, whatever the rounding errors of the
coordinates in its mesh file, on every number of ranks and every partition, no rank fails in the setup, whatever its memory
held: in rounded arithmetic too, no pivot of a mass matrix vanishes. -/
theorem C84_setup_completes_quad (m : GMesh ℝ) (hq : QuadMesh m) (t : Fam) (p : ℕ) (hp : orderFine t p) (f : NumericalFluxType)
    (γ κ : ℝ) (ic : (ℕ → ℝ) → ℕ → ℝ) (ic' : ∀ A : Arith, (ℕ → A.K) → ℕ → A.K) (hic : Computes 2 4 ic' ic) :
    ∃ u0 B : ℝ, 0 < u0 ∧ ∀ A : Arith, A.u ≤ u0 → B ≤ A.big → ∀ m' : GMesh A.K, MeshRead A κ 2 m m' →
      ∀ γ' : A.K, A.Close κ γ' γ → ∀ junk junk' : ℕ → A.K,
      ∀ (nranks : ℕ) (part : List ℕ) (rms : ℕ → RankMesh A.K), World m' nranks part rms →
      ∃ D, buildDisc (quadType t) .LagrangeQuad p 1 4 (fun U => Fl.convFlux 2 γ' U junk') (machineNumFlux f 2 γ' junk) = some D ∧
        ∀ r < nranks, ∀ scr MM0, ∃ g, buildGeom (quadType t) .LagrangeQuad p 1 r (rms r) scr MM0 = some g ∧
          ∀ rhs0 Uin, ∃ u, initState (quadType t) .LagrangeQuad p 1 4 (rms r) g.iMM (ic' A) rhs0 Uin = some u := by
  obtain ⟨mass, vol, proj, fr, N1, N2, h⟩ := setupIs_quad hq t p 4 hp ic
  obtain ⟨d, hd, -⟩ := buildDisc_quad t p 4 hp (eulerDirFlux 2 γ) (eulerNumFlux f 2 γ)
  obtain ⟨_, u0, B, hu0, H⟩ := h.machine (quad_shape t) rfl rfl rfl hq.npe hq.faceRange κ hic.all hd f γ
  refine ⟨u0, B, hu0, fun A hu hB m' hR γ' hγ junk junk' nranks part rms w => ?_⟩
  obtain ⟨D, h1, -, h3⟩ := H A hu hB _ rfl m' hR γ' junk junk' hγ
  refine ⟨D, h1, fun r hr scr MM0 => ?_⟩
  obtain ⟨g, g1, -, g3⟩ := h3 nranks part rms w (fun _ _ _ => trivial) r hr scr MM0
  refine ⟨g, g1, fun rhs0 Uin => ?_⟩
  obtain ⟨u, u1, -⟩ := g3 rhs0 Uin
  exact ⟨u, u1⟩

/-- **C84** (the setup completes, hexahedra).  The same for trilinear hexahedra and partitions along parallelograms. -/
theorem C84_setup_completes_hex (m : GMesh ℝ) (hq : HexMesh m) (t : Fam) (p : ℕ) (hp : orderFine t p) (f : NumericalFluxType)
    (γ κ : ℝ) (ic : (ℕ → ℝ) → ℕ → ℝ) (ic' : ∀ A : Arith, (ℕ → A.K) → ℕ → A.K) (hic : Computes 3 5 ic' ic) :
    ∃ u0 B : ℝ, 0 < u0 ∧ ∀ A : Arith, A.u ≤ u0 → B ≤ A.big → ∀ m' : GMesh A.K, MeshRead A κ 3 m m' →
      ∀ γ' : A.K, A.Close κ γ' γ → ∀ junk junk' : ℕ → A.K,
      ∀ (nranks : ℕ) (part : List ℕ) (rms : ℕ → RankMesh A.K), World m' nranks part rms → CutFlat m part →
      ∃ D, buildDisc (hexType t) .LagrangeHex p 1 5 (fun U => Fl.convFlux 3 γ' U junk') (machineNumFlux f 3 γ' junk) = some D ∧
        ∀ r < nranks, ∀ scr MM0, ∃ g, buildGeom (hexType t) .LagrangeHex p 1 r (rms r) scr MM0 = some g ∧
          ∀ rhs0 Uin, ∃ u, initState (hexType t) .LagrangeHex p 1 5 (rms r) g.iMM (ic' A) rhs0 Uin = some u := by
  obtain ⟨mass, vol, proj, fr, N1, N2, h⟩ := setupIs_hex hq t p 5 hp ic
  obtain ⟨d, hd, -⟩ := buildDisc_hex t p 5 hp (eulerDirFlux 3 γ) (eulerNumFlux f 3 γ)
  obtain ⟨_, u0, B, hu0, H⟩ := h.machine (hex_shape t) rfl rfl rfl hq.npe hq.faceRange κ hic.all hd f γ
  refine ⟨u0, B, hu0, fun A hu hB m' hR γ' hγ junk junk' nranks part rms w hcut => ?_⟩
  obtain ⟨D, h1, -, h3⟩ := H A hu hB _ rfl m' hR γ' junk junk' hγ
  refine ⟨D, h1, fun r hr scr MM0 => ?_⟩
  obtain ⟨g, g1, -, g3⟩ := h3 nranks part rms w hcut r hr scr MM0
  refine ⟨g, g1, fun rhs0 Uin => ?_⟩
  obtain ⟨u, u1, -⟩ := g3 rhs0 Uin
  exact ⟨u, u1⟩

/-- **C84** (the setup is accurate, quadrilaterals).  There is a number `κ'` of roundoffs, the same for every computer that is
precise enough, such that after every launch - any number of ranks, partition and content of the memory - the tables differ
from those of the textbook scheme, the geometry of every rank from that of the mesh, and its initial coefficients from the
projection of the initial condition, by at most `κ'` roundoffs. -/
theorem C84_setup_accurate_quad (m : GMesh ℝ) (hq : QuadMesh m) (t : Fam) (p : ℕ) (hp : orderFine t p) (f : NumericalFluxType)
    (γ κ : ℝ) (ic : (ℕ → ℝ) → ℕ → ℝ) (ic' : ∀ A : Arith, (ℕ → A.K) → ℕ → A.K) (hic : Computes 2 4 ic' ic) :
    ∃ κ' u0 B : ℝ, 0 < u0 ∧ ∀ A : Arith, A.u ≤ u0 → B ≤ A.big → ∀ m' : GMesh A.K, MeshRead A κ 2 m m' →
      ∀ γ' : A.K, A.Close κ γ' γ →
      ∀ (nranks : ℕ) (part : List ℕ) (rms : ℕ → RankMesh A.K) (D : Disc A.K) (g : ℕ → Geom A.K) (u : ℕ → Coeffs A.K),
      MachineLaunch A (quadType t) .LagrangeQuad p 2 f γ' (ic' A) m' nranks part rms D g u →
      MachineScheme A κ' f γ { quadEuler t p f γ with ptsOrder := D.ptsOrder } D ∧
      (∀ o < 2, ∀ i < p + 1, D.ptsOrder o i = (quadEuler t p f γ).ptsOrder o i) ∧
      ∀ r < nranks, GeomClose A κ' (quadEuler t p f γ) (rms r) (g r) (quadGeom t p m) ∧
        CoeffsClose A κ' (quadEuler t p f γ) (rms r) (u r) (quadInit t p m ic) := by
  obtain ⟨mass, vol, proj, fr, N1, N2, h⟩ := setupIs_quad hq t p 4 hp ic
  obtain ⟨d, hd, ag⟩ := buildDisc_quad t p 4 hp (eulerDirFlux 2 γ) (eulerNumFlux f 2 γ)
  obtain ⟨κ', u0, B, hu0, H⟩ := h.launched (quad_shape t) rfl rfl rfl hq.npe hq.faceRange κ hic.all hd f γ
  refine ⟨κ', u0, B, hu0, ?_⟩
  rintro A hu hB m' hR γ' hγ nranks part rms D g u ⟨junk, junk', L⟩
  obtain ⟨h1, h2⟩ := H A hu hB _ rfl m' hR γ' junk junk' hγ nranks part rms D g u (fun _ _ _ => trivial) L
  obtain ⟨e1, e2⟩ := h1.textbook ag
  exact ⟨e1, e2, fun r hr => ⟨(h2 r hr).1.textbook ag, (h2 r hr).2.textbook ag⟩⟩

/-- **C84** (the setup is accurate, hexahedra). -/
theorem C84_setup_accurate_hex (m : GMesh ℝ) (hq : HexMesh m) (t : Fam) (p : ℕ) (hp : orderFine t p) (f : NumericalFluxType)
    (γ κ : ℝ) (ic : (ℕ → ℝ) → ℕ → ℝ) (ic' : ∀ A : Arith, (ℕ → A.K) → ℕ → A.K) (hic : Computes 3 5 ic' ic) :
    ∃ κ' u0 B : ℝ, 0 < u0 ∧ ∀ A : Arith, A.u ≤ u0 → B ≤ A.big → ∀ m' : GMesh A.K, MeshRead A κ 3 m m' →
      ∀ γ' : A.K, A.Close κ γ' γ →
      ∀ (nranks : ℕ) (part : List ℕ) (rms : ℕ → RankMesh A.K) (D : Disc A.K) (g : ℕ → Geom A.K) (u : ℕ → Coeffs A.K),
      CutFlat m part → MachineLaunch A (hexType t) .LagrangeHex p 3 f γ' (ic' A) m' nranks part rms D g u →
      MachineScheme A κ' f γ { hexEuler t p f γ with ptsOrder := D.ptsOrder } D ∧
      (∀ o < 8, ∀ i < (p + 2) * (p + 2), D.ptsOrder o i = (hexEuler t p f γ).ptsOrder o i) ∧
      ∀ r < nranks, GeomClose A κ' (hexEuler t p f γ) (rms r) (g r) (hexGeom t p m) ∧
        CoeffsClose A κ' (hexEuler t p f γ) (rms r) (u r) (hexInit t p m ic) := by
  obtain ⟨mass, vol, proj, fr, N1, N2, h⟩ := setupIs_hex hq t p 5 hp ic
  obtain ⟨d, hd, ag⟩ := buildDisc_hex t p 5 hp (eulerDirFlux 3 γ) (eulerNumFlux f 3 γ)
  obtain ⟨κ', u0, B, hu0, H⟩ := h.launched (hex_shape t) rfl rfl rfl hq.npe hq.faceRange κ hic.all hd f γ
  refine ⟨κ', u0, B, hu0, ?_⟩
  rintro A hu hB m' hR γ' hγ nranks part rms D g u hcut ⟨junk, junk', L⟩
  obtain ⟨h1, h2⟩ := H A hu hB _ rfl m' hR γ' junk junk' hγ nranks part rms D g u hcut L
  obtain ⟨e1, e2⟩ := h1.textbook ag
  exact ⟨e1, e2, fun r hr => ⟨(h2 r hr).1.textbook ag, (h2 r hr).2.textbook ag⟩⟩

/-- **C84** (the case, quadrilaterals).  A case for the Euler equations on a mesh of quadrilaterals whose textbook
semidiscrete equations, started from the projection of the initial condition, have a solution `y` on `[0, T]` through states
where the flux is well behaved.  There are constants `C`, `h0`, `u0`, `B`, such that for every computer of roundoff `u ≤ u0`
that does not overflow below `B`, every mesh file with coordinates within `κ` roundoffs, every launch (number of ranks,
partition, content of the memory), both steppers, every step size with `C u ≤ dt ≤ h0`, every interleaving of the ranks and
every order of the flux loops: a rank that has completed `n` steps holds finite numbers, which differ from the exact `n`-step
calculation by at most `C u/dt` and from the solution at time `n dt` by at most `C (dt + u/dt)`. -/
theorem C84_case_quad (m : GMesh ℝ) (hm : MeshOK m) (hq : QuadMesh m) (hs : SidesNonzero m) (t : Fam) (p : ℕ) (hp : orderFine t p)
    (f : NumericalFluxType) (γ : ℝ) (hγ : 1 < γ) (ic : (ℕ → ℝ) → ℕ → ℝ) (ic' : ∀ A : Arith, (ℕ → A.K) → ℕ → A.K)
    (hic : Computes 2 4 ic' ic) (T : ℝ) (hT : 0 ≤ T) (y : ℝ → Coeffs ℝ)
    (hy : ExactSolution (quadEuler t p f γ) m.numElems T (fun _ => globalRHS (quadEuler t p f γ) m (quadGeom t p m)) y)
    (hr : ∀ s ∈ Set.Icc 0 T, StatesRegular f γ (quadEuler t p f γ) m (quadGeom t p m) (y s))
    (hy0 : AgreeIn (quadEuler t p f γ) m.numElems (y 0) (quadInit t p m ic)) (κ : ℝ) :
    ∃ C h0 u0 B : ℝ, 0 < h0 ∧ 0 < u0 ∧ ∀ A : Arith, A.u ≤ u0 → B ≤ A.big → ∀ m' : GMesh A.K, MeshRead A κ 2 m m' →
      ∀ γ' : A.K, A.Close κ γ' γ →
      ∀ (nranks : ℕ) (part : List ℕ) (rms : ℕ → RankMesh A.K) (D : Disc A.K) (g : ℕ → Geom A.K) (u : ℕ → Coeffs A.K),
      MachineLaunch A (quadType t) .LagrangeQuad p 2 f γ' (ic' A) m' nranks part rms D g u →
      ∀ sched : ℕ → ℕ → List (FluxWrite A.K) → List (FluxWrite A.K), (∀ r k l, (sched r k l).Perm l) →
      ∀ (st : Stepper) (dt : A.K), A.fin dt → 0 < A.val dt → A.val dt ≤ h0 → C * A.u ≤ A.val dt →
      ∀ (nsteps k : ℕ) (c : Proto.Conf (FaceArr (ℕ → ℕ → A.K) × Option (RankState A.K)) (List (ℕ → ℕ → A.K))),
      Proto.Exec (solverProg D g rms nranks dt st sched nsteps) (Proto.init (solverStart D rms st u)) c k →
      ∀ r < nranks, ∀ n : ℕ, (c.proc r).round = stagesOf st * n → n * A.val dt ≤ T →
      ∃ s, (c.proc r).st.2 = some s ∧
        ∀ i e : ℕ, (rms r).l2gElem[i]? = some e → ∀ b < (p + 1) * (p + 1), ∀ v < 4,
          A.fin (s.Uc i b v) ∧
          |A.val (s.Uc i b v) - (stepOf st (A.val dt) (globalRHS (quadEuler t p f γ) m (quadGeom t p m)))^[n] (quadInit t p m ic) e b v|
            ≤ C * (A.u / A.val dt) ∧
          |A.val (s.Uc i b v) - y (n * A.val dt) e b v| ≤ C * (A.val dt + A.u / A.val dt) := by
  obtain ⟨mass, vol, proj, fr, N1, N2, h⟩ := setupIs_quad hq t p 4 hp ic
  obtain ⟨d, hd, ag⟩ := buildDisc_quad t p 4 hp (eulerDirFlux 2 γ) (eulerNumFlux f 2 γ)
  obtain ⟨C, h0, u0, B, hh0, hu0, H⟩ := h.run (quad_shape t) rfl rfl rfl hq.npe hq.faceRange κ hic.all hd (dE := quadEuler t p f γ) ag f γ hm
    (Or.inl rfl) (quadEuler_scheme t p f γ) hγ (hq.conforming t p 4 _ _) (quadDisc_order t p 4 _ _) (normals_nonzero hm hq hs t p 4 _ _)
    T hT y hy hr hy0
  refine ⟨C, h0, u0, B, hh0, hu0, ?_⟩
  rintro A hu hB m' hR γ' hγ nranks part rms D g u ⟨junk, junk', L⟩
  exact H A hu hB _ rfl m' hR γ' junk junk' hγ nranks part rms D g u (fun _ _ _ => trivial) L

/-- **C84** (the case, hexahedra).  The same for trilinear hexahedra and partitions along parallelograms. -/
theorem C84_case_hex (m : GMesh ℝ) (hm : MeshOK m) (hq : HexMesh m) (hs : FacesNonzero m) (t : Fam) (p : ℕ) (hp : orderFine t p)
    (f : NumericalFluxType) (γ : ℝ) (hγ : 1 < γ) (ic : (ℕ → ℝ) → ℕ → ℝ) (ic' : ∀ A : Arith, (ℕ → A.K) → ℕ → A.K)
    (hic : Computes 3 5 ic' ic) (T : ℝ) (hT : 0 ≤ T) (y : ℝ → Coeffs ℝ)
    (hy : ExactSolution (hexEuler t p f γ) m.numElems T (fun _ => globalRHS (hexEuler t p f γ) m (hexGeom t p m)) y)
    (hr : ∀ s ∈ Set.Icc 0 T, StatesRegular f γ (hexEuler t p f γ) m (hexGeom t p m) (y s))
    (hy0 : AgreeIn (hexEuler t p f γ) m.numElems (y 0) (hexInit t p m ic)) (κ : ℝ) :
    ∃ C h0 u0 B : ℝ, 0 < h0 ∧ 0 < u0 ∧ ∀ A : Arith, A.u ≤ u0 → B ≤ A.big → ∀ m' : GMesh A.K, MeshRead A κ 3 m m' →
      ∀ γ' : A.K, A.Close κ γ' γ →
      ∀ (nranks : ℕ) (part : List ℕ) (rms : ℕ → RankMesh A.K) (D : Disc A.K) (g : ℕ → Geom A.K) (u : ℕ → Coeffs A.K),
      CutFlat m part → MachineLaunch A (hexType t) .LagrangeHex p 3 f γ' (ic' A) m' nranks part rms D g u →
      ∀ sched : ℕ → ℕ → List (FluxWrite A.K) → List (FluxWrite A.K), (∀ r k l, (sched r k l).Perm l) →
      ∀ (st : Stepper) (dt : A.K), A.fin dt → 0 < A.val dt → A.val dt ≤ h0 → C * A.u ≤ A.val dt →
      ∀ (nsteps k : ℕ) (c : Proto.Conf (FaceArr (ℕ → ℕ → A.K) × Option (RankState A.K)) (List (ℕ → ℕ → A.K))),
      Proto.Exec (solverProg D g rms nranks dt st sched nsteps) (Proto.init (solverStart D rms st u)) c k →
      ∀ r < nranks, ∀ n : ℕ, (c.proc r).round = stagesOf st * n → n * A.val dt ≤ T →
      ∃ s, (c.proc r).st.2 = some s ∧
        ∀ i e : ℕ, (rms r).l2gElem[i]? = some e → ∀ b < (p + 1) * (p + 1) * (p + 1), ∀ v < 5,
          A.fin (s.Uc i b v) ∧
          |A.val (s.Uc i b v) - (stepOf st (A.val dt) (globalRHS (hexEuler t p f γ) m (hexGeom t p m)))^[n] (hexInit t p m ic) e b v|
            ≤ C * (A.u / A.val dt) ∧
          |A.val (s.Uc i b v) - y (n * A.val dt) e b v| ≤ C * (A.val dt + A.u / A.val dt) := by
  obtain ⟨mass, vol, proj, fr, N1, N2, h⟩ := setupIs_hex hq t p 5 hp ic
  obtain ⟨d, hd, ag⟩ := buildDisc_hex t p 5 hp (eulerDirFlux 3 γ) (eulerNumFlux f 3 γ)
  obtain ⟨C, h0, u0, B, hh0, hu0, H⟩ := h.run (hex_shape t) rfl rfl rfl hq.npe hq.faceRange κ hic.all hd (dE := hexEuler t p f γ) ag f γ hm
    (Or.inr rfl) (hexEuler_scheme t p f γ) hγ (hq.conforming t p 5 _ _) (hexDisc_order t p 5 _ _) (hex_normals_nonzero hm hq hs t p 5 hp _ _)
    T hT y hy hr hy0
  refine ⟨C, h0, u0, B, hh0, hu0, ?_⟩
  rintro A hu hB m' hR γ' hγ nranks part rms D g u hcut ⟨junk, junk', L⟩
  exact H A hu hB _ rfl m' hR γ' junk junk' hγ nranks part rms D g u hcut L

/-- **C84** (two computers).  Two launches of such a case, on two computers of different arithmetic (roundoffs `u`, `u'`), each
with its own mesh file, number of ranks, partition, order of the flux loops and interleaving, and with the same time step: the
coefficients of an element after `n` steps differ by at most `C (u + u')/dt`. -/
theorem C84_two_computers (m : GMesh ℝ) (hm : MeshOK m) (hq : QuadMesh m) (hs : SidesNonzero m) (t : Fam) (p : ℕ) (hp : orderFine t p)
    (f : NumericalFluxType) (γ : ℝ) (hγ : 1 < γ) (ic : (ℕ → ℝ) → ℕ → ℝ) (ic' : ∀ A : Arith, (ℕ → A.K) → ℕ → A.K)
    (hic : Computes 2 4 ic' ic) (T : ℝ) (hT : 0 ≤ T) (y : ℝ → Coeffs ℝ)
    (hy : ExactSolution (quadEuler t p f γ) m.numElems T (fun _ => globalRHS (quadEuler t p f γ) m (quadGeom t p m)) y)
    (hr : ∀ s ∈ Set.Icc 0 T, StatesRegular f γ (quadEuler t p f γ) m (quadGeom t p m) (y s))
    (hy0 : AgreeIn (quadEuler t p f γ) m.numElems (y 0) (quadInit t p m ic)) (κ : ℝ) :
    ∃ C h0 u0 B : ℝ, 0 < h0 ∧ 0 < u0 ∧ ∀ A A' : Arith, A.u ≤ u0 → B ≤ A.big → A'.u ≤ u0 → B ≤ A'.big →
      ∀ (st : Stepper) (dt : A.K) (dt' : A'.K), A.fin dt → A'.fin dt' → A'.val dt' = A.val dt → 0 < A.val dt → A.val dt ≤ h0 →
      C * A.u ≤ A.val dt → C * A'.u ≤ A.val dt →
      ∀ m1 : GMesh A.K, MeshRead A κ 2 m m1 → ∀ γ1 : A.K, A.Close κ γ1 γ →
      ∀ (nranks : ℕ) (part : List ℕ) (rms : ℕ → RankMesh A.K) (D : Disc A.K) (g : ℕ → Geom A.K) (u : ℕ → Coeffs A.K),
      MachineLaunch A (quadType t) .LagrangeQuad p 2 f γ1 (ic' A) m1 nranks part rms D g u →
      ∀ sched : ℕ → ℕ → List (FluxWrite A.K) → List (FluxWrite A.K), (∀ r k l, (sched r k l).Perm l) →
      ∀ (nsteps k : ℕ) (c : Proto.Conf (FaceArr (ℕ → ℕ → A.K) × Option (RankState A.K)) (List (ℕ → ℕ → A.K))),
      Proto.Exec (solverProg D g rms nranks dt st sched nsteps) (Proto.init (solverStart D rms st u)) c k →
      ∀ m2 : GMesh A'.K, MeshRead A' κ 2 m m2 → ∀ γ2 : A'.K, A'.Close κ γ2 γ →
      ∀ (nranks' : ℕ) (part' : List ℕ) (rms' : ℕ → RankMesh A'.K) (D' : Disc A'.K) (g' : ℕ → Geom A'.K) (u' : ℕ → Coeffs A'.K),
      MachineLaunch A' (quadType t) .LagrangeQuad p 2 f γ2 (ic' A') m2 nranks' part' rms' D' g' u' →
      ∀ sched' : ℕ → ℕ → List (FluxWrite A'.K) → List (FluxWrite A'.K), (∀ r k l, (sched' r k l).Perm l) →
      ∀ (nsteps' k' : ℕ) (c' : Proto.Conf (FaceArr (ℕ → ℕ → A'.K) × Option (RankState A'.K)) (List (ℕ → ℕ → A'.K))),
      Proto.Exec (solverProg D' g' rms' nranks' dt' st sched' nsteps') (Proto.init (solverStart D' rms' st u')) c' k' →
      ∀ r < nranks, ∀ r' < nranks', ∀ n : ℕ, (c.proc r).round = stagesOf st * n → (c'.proc r').round = stagesOf st * n →
      n * A.val dt ≤ T →
      ∃ s s', (c.proc r).st.2 = some s ∧ (c'.proc r').st.2 = some s' ∧
        ∀ i i' e : ℕ, (rms r).l2gElem[i]? = some e → (rms' r').l2gElem[i']? = some e → ∀ b < (p + 1) * (p + 1), ∀ v < 4,
          A.fin (s.Uc i b v) ∧ A'.fin (s'.Uc i' b v) ∧
          |A.val (s.Uc i b v) - A'.val (s'.Uc i' b v)| ≤ C * ((A.u + A'.u) / A.val dt) := by
  obtain ⟨C, h0, u0, B, hh0, hu0, H⟩ := C84_case_quad m hm hq hs t p hp f γ hγ ic ic' hic T hT y hy hr hy0 κ
  refine ⟨C, h0, u0, B, hh0, hu0, ?_⟩
  intro A A' hu hB hu' hB' st dt dt' hdt hdt' hde hdt0 hdt1 hC hC' m1 hm1 γ1 hγ1 nranks part rms D g u L sched hs nsteps k c hx
    m2 hm2 γ2 hγ2 nranks' part' rms' D' g' u' L' sched' hs' nsteps' k' c' hx' r hr r' hr' n hn hn' hnT
  obtain ⟨s, s1, s2⟩ := H A hu hB m1 hm1 γ1 hγ1 nranks part rms D g u L sched hs st dt hdt hdt0 hdt1 hC nsteps k c hx r hr n hn hnT
  obtain ⟨s', s1', s2'⟩ := H A' hu' hB' m2 hm2 γ2 hγ2 nranks' part' rms' D' g' u' L' sched' hs' st dt' hdt' (by rw [hde]; exact hdt0)
    (by rw [hde]; exact hdt1) (by rw [hde]; exact hC') nsteps' k' c' hx' r' hr' n hn' (by rw [hde]; exact hnT)
  refine ⟨s, s', s1, s1', ?_⟩
  intro i i' e hi hi' b hb v hv
  obtain ⟨a1, a2, -⟩ := s2 i e hi b hb v hv
  obtain ⟨b1, b2, -⟩ := s2' i' e hi' b hb v hv
  refine ⟨a1, b1, ?_⟩
  rw [hde, abs_sub_comm] at b2
  have := abs_sub_le (A.val (s.Uc i b v)) ((stepOf st (A.val dt) (globalRHS (quadEuler t p f γ) m (quadGeom t p m)))^[n]
    (quadInit t p m ic) e b v) (A'.val (s'.Uc i' b v))
  rw [add_div, mul_add]
  linarith

end DG
