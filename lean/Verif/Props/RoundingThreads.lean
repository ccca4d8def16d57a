import Verif.Props.RoundingSetup
import Verif.Props.BitsThreads
import Verif.Spec.MachineThreads

/-!
C84 down to the threads: a complete case in rounded arithmetic, in which every kernel of the setup and of the time loop
is executed by many threads under every interleaving of their single loads and stores.
-/
namespace DG.Dev
open Kernel

section run
variable {K : Type} [Zero K] [One K] [Add K] [Sub K] [Mul K] [Neg K] [Div K] [NatCast K] [DecidableEq K]
  [NeZero (1 : K)] {α : Type} {m : GMesh α} {nranks : ℕ} {part : List ℕ} {rms : ℕ → RankMesh α} {d : Disc K} {norient : ℕ}
  {g : ℕ → Geom K} {st : Stepper} {dt : K} {x : Executions K}

/-- a run of the threads is a run of the sequential loops with the same numbers -/
theorem threads_sequential (w : World m nranks part rms) (hc : Conforming d norient m) (ho : OrderOK d norient)
    (hx : x.OK d g rms dt st) (Uc0 : ℕ → Coeffs K) (nsteps k : ℕ) (c : Proto.Conf (DevState K) (List (ℕ → ℕ → K)))
    (he : Proto.Exec (deviceProg x d rms nranks dt st nsteps) (Proto.init (deviceInit x Uc0)) c k) :
    ∃ c1, Proto.Exec (solverProg d g rms nranks dt st (fun _ _ l => l) nsteps) (Proto.init (solverStart d rms st Uc0)) c1 k ∧
      ∀ r < nranks, (c1.proc r).round = (c.proc r).round ∧ ∃ s, (c1.proc r).st.2 = some s ∧ (c.proc r).st.time = s.time ∧
        ∀ i e : ℕ, (rms r).l2gElem[i]? = some e → ∀ b < d.nb, ∀ v < d.ns, (c.proc r).st.mem ⟨.Uc, i, b, v, 0⟩ = s.Uc i b v := by
  obtain ⟨c1, h1, h2⟩ := (run_sim w hc ho hx nsteps).exec_back (run_good (dt := dt) (st := st) w hc ho nsteps)
    (run_init w hc ho hx (fun r hr => w.extCoeffsRestrict d Uc0 hr)) he
  refine ⟨c1, h1, fun r hr => ⟨(h2.round r hr).symm, ?_⟩⟩
  obtain ⟨s, hs⟩ := h2.st r hr
  refine ⟨s, hs.state, hs.time, fun i e hi b hb v hv => ?_⟩
  have hlt : i < (rms r).numElemsPart := by
    rw [w.numElems hr]; exact (List.getElem?_eq_some_iff.1 hi).1
  exact hs.stages.Uc i hlt b hb v hv

end run

/-- what the threads of the setup leave in memory -/
theorem SetupRun.holdsSetup {K : Type} [Zero K] [One K] [Add K] [Sub K] [Mul K] [Neg K] [Div K] [NatCast K] [DecLit K]
    [DecidableEq K] {t gt : BasisType} {p gorder ns : ℕ} {vf : (ℕ → K) → ℕ → K}
    {nf : (ℕ → K) → (ℕ → K) → (ℕ → K) → ℕ → K} {ic : (ℕ → K) → ℕ → K} {m : GMesh K} {nranks : ℕ} {part : List ℕ}
    {rms : ℕ → RankMesh K} {D : Disc K} {g : ℕ → Geom K} {u : ℕ → Coeffs K}
    (L : Launched t gt p gorder ns vf nf ic m nranks part rms D g u) (hgt : basisShape gt = basisShape t)
    {r : ℕ} (hr : r < nranks) {mem : SCell → K} {nor : NCell → K} (S : SetupRun t gt p gorder ns r ic (rms r) mem nor) :
    HoldsSetup D (rms r) (g r) (u r) (readGeom mem nor) (readCoeffs mem) := by
  obtain ⟨_, _, _, _, t4, _, _, _⟩ := buildDisc_orderOK L.disc
  obtain ⟨scr, MM0, hg⟩ := L.geom r hr
  obtain ⟨rhs0, Uin, hu⟩ := L.init r hr
  obtain ⟨h1, h2⟩ := S.holds hgt L.disc hg hu
  exact ⟨fun e he => ⟨(h1 e he).1, (h1 e he).2.1, fun b hb s hs => (h1 e he).2.2 b hb s (by rw [← t4]; exact hs)⟩, h2⟩

instance (A : Arith) : NeZero (1 : A.K) := ⟨fun h => by
  have h1 := A.one.2
  rw [h, A.zero.2] at h1
  exact one_ne_zero h1.symm⟩


/-- **C84** (threads, quadrilaterals).  The statement of `C84_case_quad` for runs down to the single loads and stores: on every
rank the kernels of the setup and of the time loop are executed by any numbers of threads (the kernel of the normals by one
thread per face) under any interleavings, on whatever the memory held before.  No rank fails, every run can be continued to its
end, and the coefficients a rank holds in memory after `n` steps are finite and differ from the exact `n`-step calculation by
at most `C u/dt` and from the solution at time `n dt` by at most `C (dt + u/dt)`.  (The two ranks of a face may hold
different normals.) -/
theorem C84_threads_quad (m : GMesh ℝ) (hm : MeshOK m) (hq : QuadMesh m) (hs : SidesNonzero m) (t : Fam) (p : ℕ) (hp : orderFine t p)
    (f : NumericalFluxType) (γ : ℝ) (hγ : 1 < γ) (ic : (ℕ → ℝ) → ℕ → ℝ) (ic' : ∀ A : Arith, (ℕ → A.K) → ℕ → A.K)
    (hic : Computes 2 4 ic' ic) (T : ℝ) (hT : 0 ≤ T) (y : ℝ → Coeffs ℝ)
    (hy : ExactSolution (quadEuler t p f γ) m.numElems T (fun _ => globalRHS (quadEuler t p f γ) m (quadGeom t p m)) y)
    (hr : ∀ s ∈ Set.Icc 0 T, StatesRegular f γ (quadEuler t p f γ) m (quadGeom t p m) (y s))
    (hy0 : AgreeIn (quadEuler t p f γ) m.numElems (y 0) (quadInit t p m ic)) (κ : ℝ) :
    ∃ C h0 u0 B : ℝ, 0 < h0 ∧ 0 < u0 ∧ ∀ A : Arith, A.u ≤ u0 → B ≤ A.big → ∀ m' : GMesh A.K, MeshRead A κ 2 m m' →
      ∀ γ' : A.K, A.Close κ γ' γ →
      ∀ (nranks : ℕ) (part : List ℕ) (rms : ℕ → RankMesh A.K) (D : Disc A.K) (mem : ℕ → SCell → A.K) (nor : ℕ → NCell → A.K),
      ThreadLaunch A (quadType t) .LagrangeQuad p 2 f γ' (ic' A) m' nranks part rms D mem nor →
      ∀ (st : Stepper) (dt : A.K) (x : Executions A.K), x.OK D (fun r => readGeom (mem r) (nor r)) rms dt st →
      ∀ (nsteps k : ℕ) (c : Proto.Conf (DevState A.K) (List (ℕ → ℕ → A.K))),
      Proto.Exec (deviceProg x D rms nranks dt st nsteps) (Proto.init (deviceInit x fun r => readCoeffs (mem r))) c k →
      (∀ r < nranks, (c.proc r).phase ≠ .failed) ∧
      (∃ c' k', Proto.Exec (deviceProg x D rms nranks dt st nsteps) c c' k' ∧
        ∀ r < nranks, (c'.proc r).round = stagesOf st * nsteps) ∧
      (A.fin dt → 0 < A.val dt → A.val dt ≤ h0 → C * A.u ≤ A.val dt →
      ∀ r < nranks, ∀ n : ℕ, (c.proc r).round = stagesOf st * n → n * A.val dt ≤ T →
        ∀ i e : ℕ, (rms r).l2gElem[i]? = some e → ∀ b < (p + 1) * (p + 1), ∀ v < 4,
          A.fin ((c.proc r).st.mem ⟨.Uc, i, b, v, 0⟩) ∧
          |A.val ((c.proc r).st.mem ⟨.Uc, i, b, v, 0⟩) -
            (stepOf st (A.val dt) (globalRHS (quadEuler t p f γ) m (quadGeom t p m)))^[n] (quadInit t p m ic) e b v|
            ≤ C * (A.u / A.val dt) ∧
          |A.val ((c.proc r).st.mem ⟨.Uc, i, b, v, 0⟩) - y (n * A.val dt) e b v| ≤ C * (A.val dt + A.u / A.val dt)) := by
  obtain ⟨mass, vol, proj, fr, N1, N2, h⟩ := setupIs_quad hq t p 4 hp ic
  obtain ⟨d, hd, ag⟩ := buildDisc_quad t p 4 hp (eulerDirFlux 2 γ) (eulerNumFlux f 2 γ)
  have hc := hq.conforming t p 4 (eulerDirFlux 2 γ) (eulerNumFlux f 2 γ)
  have ho := quadDisc_order t p 4 (eulerDirFlux 2 γ) (eulerNumFlux f 2 γ)
  obtain ⟨κ1, u1, B1, hu1, H1⟩ := h.machine (quad_shape t) rfl rfl rfl hq.npe hq.faceRange κ hic.all hd f γ
  obtain ⟨C, h0, u0, B, hh0, hu0, H⟩ := h.runHolds (quad_shape t) rfl rfl rfl hq.npe hq.faceRange κ hic.all hd (dE := quadEuler t p f γ) ag f γ hm
    (Or.inl rfl) (quadEuler_scheme t p f γ) hγ hc ho (normals_nonzero hm hq hs t p 4 _ _) T hT y hy hr hy0
  refine ⟨C, h0, min u0 u1, max B B1, hh0, lt_min hu0 hu1, ?_⟩
  rintro A hu hB m' hR γ' hγ nranks part rms D mem nor ⟨w, ⟨junk, junk', hD⟩, S⟩ st dt x hx nsteps k c he
  obtain ⟨D', h1, hM, h3⟩ := H1 A (hu.trans (min_le_right _ _)) ((le_max_right _ _).trans hB) _ rfl m' hR γ' junk junk' hγ
  obtain rfl : D' = D := Option.some.inj (h1.symm.trans hD)
  have G0 : ∀ r, ∃ g, r < nranks → ∃ scr MM0, buildGeom (quadType t) .LagrangeQuad p 1 r (rms r) scr MM0 = some g ∧
      ∃ u rhs0 Uin, initState (quadType t) .LagrangeQuad p 1 4 (rms r) g.iMM (ic' A) rhs0 Uin = some u := by
    intro r
    by_cases hr : r < nranks
    · obtain ⟨g, g1, -, g3⟩ := h3 nranks part rms w (fun _ _ _ => trivial) r hr (fun _ _ _ => 0) (fun _ _ _ => 0)
      obtain ⟨u, u1, -⟩ := g3 (fun _ _ _ => 0) (fun _ _ _ => 0)
      exact ⟨g, fun _ => ⟨_, _, g1, u, _, _, u1⟩⟩
    · exact ⟨⟨fun _ _ => 0, fun _ _ _ _ => 0, fun _ _ _ => 0, fun _ _ _ => 0⟩, fun h => absurd h hr⟩
  choose g hg using G0
  have U0 : ∀ r, ∃ u : Coeffs A.K, r < nranks → ∃ rhs0 Uin,
      initState (quadType t) .LagrangeQuad p 1 4 (rms r) (g r).iMM (ic' A) rhs0 Uin = some u := by
    intro r
    by_cases hr : r < nranks
    · obtain ⟨_, _, -, u, rhs0, Uin, h⟩ := hg r hr
      exact ⟨u, fun _ => ⟨_, _, h⟩⟩
    · exact ⟨fun _ _ _ => 0, fun h => absurd h hr⟩
  choose u hu' using U0
  have L : Launched (quadType t) .LagrangeQuad p 1 4 (fun U => Fl.convFlux 2 γ' U junk') (machineNumFlux f 2 γ' junk)
      (ic' A) m' nranks part rms D' g u := ⟨w, hD, fun r hr => by
        obtain ⟨scr, MM0, e, -⟩ := hg r hr
        exact ⟨scr, MM0, e⟩, hu'⟩
  have hD' := hM.withTables
  have ho1 := ag.orderOK ho
  have hc1 := ag.conforming hc
  have hcD : Conforming D' 2 m' := by
    rw [← hD']
    exact ⟨by rw [hR.faces]; exact hc1.faceL, by rw [hR.faces]; exact hc1.faceR, by rw [hR.faces]; exact hc1.sides⟩
  have hoD : OrderOK D' 2 := by rw [← hD']; exact ho1
  obtain ⟨f1, f2⟩ := C70_run_completes w _ _ hcD hoD _ _ _ x hx _ nsteps k c he
  refine ⟨f1, f2, ?_⟩
  intro hdt hdt0 hdt1 hdt2 r hr n hn hnT i e hi b hb v hv
  obtain ⟨c1, e1, e2⟩ := threads_sequential w hcD hoD hx _ nsteps k c he
  obtain ⟨e3, s, e4, -, e5⟩ := e2 r hr
  obtain ⟨s', s1, s2⟩ := H A (hu.trans (min_le_left _ _)) ((le_max_left _ _).trans hB) _ rfl m' hR γ' junk junk' hγ nranks part rms D' g u
    (fun _ _ _ => trivial) L _ _ (fun r hr => (S r hr).some.holdsSetup L (by rw [quad_shape t]; rfl) hr) (fun _ _ l => l) (fun _ _ _ => .refl _) st dt hdt
    hdt0 hdt1 hdt2 nsteps k c1 e1 r hr n (e3.trans hn) hnT
  rw [e4] at s1
  cases s1
  rw [e5 i e hi b (by rw [hM.nb, ag.nb]; exact hb) v (by rw [hM.ns, ag.ns]; exact hv)]
  exact s2 i e hi b hb v hv

/-- **C84** (threads, hexahedra).  The same for trilinear hexahedra and partitions along parallelograms. -/
theorem C84_threads_hex (m : GMesh ℝ) (hm : MeshOK m) (hq : HexMesh m) (hs : FacesNonzero m) (t : Fam) (p : ℕ) (hp : orderFine t p)
    (f : NumericalFluxType) (γ : ℝ) (hγ : 1 < γ) (ic : (ℕ → ℝ) → ℕ → ℝ) (ic' : ∀ A : Arith, (ℕ → A.K) → ℕ → A.K)
    (hic : Computes 3 5 ic' ic) (T : ℝ) (hT : 0 ≤ T) (y : ℝ → Coeffs ℝ)
    (hy : ExactSolution (hexEuler t p f γ) m.numElems T (fun _ => globalRHS (hexEuler t p f γ) m (hexGeom t p m)) y)
    (hr : ∀ s ∈ Set.Icc 0 T, StatesRegular f γ (hexEuler t p f γ) m (hexGeom t p m) (y s))
    (hy0 : AgreeIn (hexEuler t p f γ) m.numElems (y 0) (hexInit t p m ic)) (κ : ℝ) :
    ∃ C h0 u0 B : ℝ, 0 < h0 ∧ 0 < u0 ∧ ∀ A : Arith, A.u ≤ u0 → B ≤ A.big → ∀ m' : GMesh A.K, MeshRead A κ 3 m m' →
      ∀ γ' : A.K, A.Close κ γ' γ →
      ∀ (nranks : ℕ) (part : List ℕ) (rms : ℕ → RankMesh A.K) (D : Disc A.K) (mem : ℕ → SCell → A.K) (nor : ℕ → NCell → A.K),
      CutFlat m part → ThreadLaunch A (hexType t) .LagrangeHex p 3 f γ' (ic' A) m' nranks part rms D mem nor →
      ∀ (st : Stepper) (dt : A.K) (x : Executions A.K), x.OK D (fun r => readGeom (mem r) (nor r)) rms dt st →
      ∀ (nsteps k : ℕ) (c : Proto.Conf (DevState A.K) (List (ℕ → ℕ → A.K))),
      Proto.Exec (deviceProg x D rms nranks dt st nsteps) (Proto.init (deviceInit x fun r => readCoeffs (mem r))) c k →
      (∀ r < nranks, (c.proc r).phase ≠ .failed) ∧
      (∃ c' k', Proto.Exec (deviceProg x D rms nranks dt st nsteps) c c' k' ∧
        ∀ r < nranks, (c'.proc r).round = stagesOf st * nsteps) ∧
      (A.fin dt → 0 < A.val dt → A.val dt ≤ h0 → C * A.u ≤ A.val dt →
      ∀ r < nranks, ∀ n : ℕ, (c.proc r).round = stagesOf st * n → n * A.val dt ≤ T →
        ∀ i e : ℕ, (rms r).l2gElem[i]? = some e → ∀ b < (p + 1) * (p + 1) * (p + 1), ∀ v < 5,
          A.fin ((c.proc r).st.mem ⟨.Uc, i, b, v, 0⟩) ∧
          |A.val ((c.proc r).st.mem ⟨.Uc, i, b, v, 0⟩) -
            (stepOf st (A.val dt) (globalRHS (hexEuler t p f γ) m (hexGeom t p m)))^[n] (hexInit t p m ic) e b v|
            ≤ C * (A.u / A.val dt) ∧
          |A.val ((c.proc r).st.mem ⟨.Uc, i, b, v, 0⟩) - y (n * A.val dt) e b v| ≤ C * (A.val dt + A.u / A.val dt)) := by
  obtain ⟨mass, vol, proj, fr, N1, N2, h⟩ := setupIs_hex hq t p 5 hp ic
  obtain ⟨d, hd, ag⟩ := buildDisc_hex t p 5 hp (eulerDirFlux 3 γ) (eulerNumFlux f 3 γ)
  have hc := hq.conforming t p 5 (eulerDirFlux 3 γ) (eulerNumFlux f 3 γ)
  have ho := hexDisc_order t p 5 (eulerDirFlux 3 γ) (eulerNumFlux f 3 γ)
  obtain ⟨κ1, u1, B1, hu1, H1⟩ := h.machine (hex_shape t) rfl rfl rfl hq.npe hq.faceRange κ hic.all hd f γ
  obtain ⟨C, h0, u0, B, hh0, hu0, H⟩ := h.runHolds (hex_shape t) rfl rfl rfl hq.npe hq.faceRange κ hic.all hd (dE := hexEuler t p f γ) ag f γ hm
    (Or.inr rfl) (hexEuler_scheme t p f γ) hγ hc ho (hex_normals_nonzero hm hq hs t p 5 hp _ _) T hT y hy hr hy0
  refine ⟨C, h0, min u0 u1, max B B1, hh0, lt_min hu0 hu1, ?_⟩
  rintro A hu hB m' hR γ' hγ nranks part rms D mem nor hcut ⟨w, ⟨junk, junk', hD⟩, S⟩ st dt x hx nsteps k c he
  obtain ⟨D', h1, hM, h3⟩ := H1 A (hu.trans (min_le_right _ _)) ((le_max_right _ _).trans hB) _ rfl m' hR γ' junk junk' hγ
  obtain rfl : D' = D := Option.some.inj (h1.symm.trans hD)
  have G0 : ∀ r, ∃ g, r < nranks → ∃ scr MM0, buildGeom (hexType t) .LagrangeHex p 1 r (rms r) scr MM0 = some g ∧
      ∃ u rhs0 Uin, initState (hexType t) .LagrangeHex p 1 5 (rms r) g.iMM (ic' A) rhs0 Uin = some u := by
    intro r
    by_cases hr : r < nranks
    · obtain ⟨g, g1, -, g3⟩ := h3 nranks part rms w hcut r hr (fun _ _ _ => 0) (fun _ _ _ => 0)
      obtain ⟨u, u1, -⟩ := g3 (fun _ _ _ => 0) (fun _ _ _ => 0)
      exact ⟨g, fun _ => ⟨_, _, g1, u, _, _, u1⟩⟩
    · exact ⟨⟨fun _ _ => 0, fun _ _ _ _ => 0, fun _ _ _ => 0, fun _ _ _ => 0⟩, fun h => absurd h hr⟩
  choose g hg using G0
  have U0 : ∀ r, ∃ u : Coeffs A.K, r < nranks → ∃ rhs0 Uin,
      initState (hexType t) .LagrangeHex p 1 5 (rms r) (g r).iMM (ic' A) rhs0 Uin = some u := by
    intro r
    by_cases hr : r < nranks
    · obtain ⟨_, _, -, u, rhs0, Uin, h⟩ := hg r hr
      exact ⟨u, fun _ => ⟨_, _, h⟩⟩
    · exact ⟨fun _ _ _ => 0, fun h => absurd h hr⟩
  choose u hu' using U0
  have L : Launched (hexType t) .LagrangeHex p 1 5 (fun U => Fl.convFlux 3 γ' U junk') (machineNumFlux f 3 γ' junk)
      (ic' A) m' nranks part rms D' g u := ⟨w, hD, fun r hr => by
        obtain ⟨scr, MM0, e, -⟩ := hg r hr
        exact ⟨scr, MM0, e⟩, hu'⟩
  have hD' := hM.withTables
  have ho1 := ag.orderOK ho
  have hc1 := ag.conforming hc
  have hcD : Conforming D' 8 m' := by
    rw [← hD']
    exact ⟨by rw [hR.faces]; exact hc1.faceL, by rw [hR.faces]; exact hc1.faceR, by rw [hR.faces]; exact hc1.sides⟩
  have hoD : OrderOK D' 8 := by rw [← hD']; exact ho1
  obtain ⟨f1, f2⟩ := C70_run_completes w _ _ hcD hoD _ _ _ x hx _ nsteps k c he
  refine ⟨f1, f2, ?_⟩
  intro hdt hdt0 hdt1 hdt2 r hr n hn hnT i e hi b hb v hv
  obtain ⟨c1, e1, e2⟩ := threads_sequential w hcD hoD hx _ nsteps k c he
  obtain ⟨e3, s, e4, -, e5⟩ := e2 r hr
  obtain ⟨s', s1, s2⟩ := H A (hu.trans (min_le_left _ _)) ((le_max_left _ _).trans hB) _ rfl m' hR γ' junk junk' hγ nranks part rms D' g u
    hcut L _ _ (fun r hr => (S r hr).some.holdsSetup L (by rw [hex_shape t]; rfl) hr) (fun _ _ l => l) (fun _ _ _ => .refl _) st dt hdt
    hdt0 hdt1 hdt2 nsteps k c1 e1 r hr n (e3.trans hn) hnT
  rw [e4] at s1
  cases s1
  rw [e5 i e hi b (by rw [hM.nb, ag.nb]; exact hb) v (by rw [hM.ns, ag.ns]; exact hv)]
  exact s2 i e hi b hb v hv

end DG.Dev
