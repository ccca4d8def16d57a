import Verif.Lemmas.RoundPost
import Verif.Props.MachineMain

/-!
C86: the post-processor on a computer, alone and after a run of the solver.
-/
namespace DG

open Finset

theorem refDist_quad {t : Fam} {p : ℕ} (hp : orderFine t p) {m : GMesh ℝ} {proj : RefData ℝ}
    (hproj : volRef (K := ℝ) (quadType t) .LagrangeQuad p 1 (projRuleOrder p) = some proj) {vw : ℕ → ℝ}
    (hvw : ∀ q < (p + 2) * (p + 2), vw q = glW (2 * p + 3) (q % (p + 2)) * glW (2 * p + 3) (q / (p + 2)))
    (u : (ℕ → ℝ) → ℕ → ℝ) (V : Coeffs ℝ) (v : ℕ) :
    refDist 2 4 ((p + 1) * (p + 1)) m.numElems proj (fileCoords m) ((p + 2) * (p + 2)) vw (quadGeom t p m).djac u V v = quadDist t p m u V v := by
  obtain ⟨_, _, _, t4⟩ := tables_fine p hp.1
  obtain ⟨ref, r1, r2, r3, r4⟩ := volRef_spec t p (2 * max p 1) hp.2 t4
  obtain rfl : ref = proj := Option.some.inj (r1.symm.trans hproj)
  unfold refDist quadDist
  rw [Finset.sum_product, r2]
  dsimp only
  congr 2
  · refine sum_congr rfl fun e _ => sum_congr rfl fun q hq => ?_
    have hq := mem_range.1 hq
    rw [(r4 q hq).1, setupDjac_quad r3 _ q hq]
    congr 3
    · exact sum_congr rfl fun b hb => by rw [((r4 q hq).2 b (mem_range.1 hb)).1]
    · congr 1
      funext d
      unfold cArr
      split
      · exact refToPhys_quad r3 _ q hq d ‹_›
      · rfl
  · exact sum_congr rfl fun e _ => sum_congr rfl fun q hq => by rw [hvw q (mem_range.1 hq)]; rfl

theorem refDist_hex {t : Fam} {p : ℕ} (hp : orderFine t p) {m : GMesh ℝ} {proj : RefData ℝ}
    (hproj : volRef (K := ℝ) (hexType t) .LagrangeHex p 1 (projRuleOrder p) = some proj) {vw : ℕ → ℝ}
    (hvw : ∀ q < (p + 2) * (p + 2) * (p + 2), vw q = wt3 p q)
    (u : (ℕ → ℝ) → ℕ → ℝ) (V : Coeffs ℝ) (v : ℕ) :
    refDist 3 8 ((p + 1) * (p + 1) * (p + 1)) m.numElems proj (fileCoords m) ((p + 2) * (p + 2) * (p + 2)) vw (hexGeom t p m).djac u V v =
      hexDist t p m u V v := by
  obtain ⟨_, _, _, t4⟩ := tables_fine p hp.1
  obtain ⟨ref, r1, r2, r3, r4⟩ := volRef_spec3 t p (2 * max p 1) hp.2 t4
  obtain rfl : ref = proj := Option.some.inj (r1.symm.trans hproj)
  unfold refDist hexDist
  rw [Finset.sum_product, r2]
  dsimp only
  congr 2
  · refine sum_congr rfl fun e _ => sum_congr rfl fun q hq => ?_
    have hq := mem_range.1 hq
    rw [(r4 q hq).1, setupDjac_hex r3 _ q hq]
    congr 3
    · exact sum_congr rfl fun b hb => by rw [((r4 q hq).2 b (mem_range.1 hb)).1]
    · congr 1
      funext d
      unfold cArr
      split
      · exact refToPhys_hex r3 _ q hq d ‹_›
      · rfl
  · exact sum_congr rfl fun e _ => sum_congr rfl fun q hq => by rw [hvw q (mem_range.1 hq)]; rfl

theorem refDist_lip (dim nn nb ne ns : ℕ) (proj : RefData ℝ) (X : ℕ → ℕ → ℕ → ℝ) (nq : ℕ) (vw : ℕ → ℝ) (dj : ℕ → ℕ → ℝ)
    (u : (ℕ → ℝ) → ℕ → ℝ) (hW : ∀ q < proj.nq, 0 < proj.wts q) (hJ : ∀ e < ne, ∀ q < proj.nq, 0 < setupDjac dim nn proj (X e) q) :
    ∃ L : ℝ, 0 ≤ L ∧ ∀ (V W : Coeffs ℝ) (δ : ℝ), 0 ≤ δ → (∀ e < ne, ∀ b < nb, ∀ v < ns, |V e b v - W e b v| ≤ δ) → ∀ v < ns,
      |refDist dim nn nb ne proj X nq vw dj u V v - refDist dim nn nb ne proj X nq vw dj u W v| ≤ L * δ := by
  set Φ : ℝ := ∑ q ∈ range proj.nq, ∑ b ∈ range nb, |proj.val q b| with hΦ
  have hΦ0 : 0 ≤ Φ := sum_nonneg fun _ _ => sum_nonneg fun _ _ => abs_nonneg _
  refine ⟨Real.sqrt ((∑ i ∈ range ne ×ˢ range proj.nq, proj.wts i.2 * setupDjac dim nn proj (X i.1) i.2) /
    ∑ e ∈ range ne, ∑ q ∈ range nq, vw q * dj e q) * Φ, mul_nonneg (Real.sqrt_nonneg _) hΦ0, fun V W δ hδ hVW v hv => ?_⟩
  unfold refDist
  rw [mul_assoc]
  refine wnorm_lip _ _ _ _ (Φ * δ) (mul_nonneg hΦ0 hδ) (fun i hi => ?_) (fun i hi => ?_) _
  · obtain ⟨h1, h2⟩ := mem_product.1 hi
    exact (mul_pos (hW _ (mem_range.1 h2)) (hJ _ (mem_range.1 h1) _ (mem_range.1 h2))).le
  · obtain ⟨h1, h2⟩ := mem_product.1 hi
    rw [sub_sub_sub_cancel_right, ← sum_sub_distrib]
    refine (abs_sum_le_sum_abs _ _).trans ?_
    calc ∑ b ∈ range nb, |V i.1 b v * proj.val i.2 b - W i.1 b v * proj.val i.2 b|
        ≤ ∑ b ∈ range nb, |proj.val i.2 b| * δ := by
          refine sum_le_sum fun b hb => ?_
          rw [← sub_mul, abs_mul, mul_comm]
          exact mul_le_mul_of_nonneg_left (hVW _ (mem_range.1 h1) b (mem_range.1 hb) v hv) (abs_nonneg _)
      _ = (∑ b ∈ range nb, |proj.val i.2 b|) * δ := by rw [sum_mul]
      _ ≤ Φ * δ := mul_le_mul_of_nonneg_right
          (single_le_sum (f := fun q => ∑ b ∈ range nb, |proj.val q b|) (fun _ _ => sum_nonneg fun _ _ => abs_nonneg _) h2) hδ

theorem proj_quad {m : GMesh ℝ} (hq : QuadMesh m) {t : Fam} {p : ℕ} (hp : orderFine t p) {proj : RefData ℝ}
    (hproj : volRef (K := ℝ) (quadType t) .LagrangeQuad p 1 (projRuleOrder p) = some proj) :
    proj.nq = (2 * max p 1 + 2) * (2 * max p 1 + 2) ∧ (∀ q < proj.nq, 0 < proj.wts q) ∧
      ∀ e < m.numElems, ∀ q < proj.nq, 0 < setupDjac 2 4 proj (fileCoords m e) q := by
  obtain ⟨_, t2, _, t4⟩ := tables_fine p hp.1
  obtain ⟨ref, r1, r2, r3, r4⟩ := volRef_spec t p (2 * max p 1) hp.2 t4
  obtain rfl : ref = proj := Option.some.inj (r1.symm.trans hproj)
  refine ⟨r2, fun q hqq => ?_, fun e he q hqq => ?_⟩
  · rw [r2] at hqq
    rw [(r4 q hqq).1]
    exact mul_pos ((gl_rule_odd _ t4).pos _ (prod_lt hqq).1) ((gl_rule_odd _ t4).pos _ (prod_lt hqq).2)
  · rw [r2] at hqq
    rw [setupDjac_quad r3 _ q hqq]
    obtain ⟨a1, a2⟩ := (gl_rule_odd _ t4).inside _ (prod_lt hqq).1
    obtain ⟨b1, b2⟩ := (gl_rule_odd _ t4).inside _ (prod_lt hqq).2
    exact hq.det e he _ _ a1 a2 b1 b2

theorem proj_hex {m : GMesh ℝ} (hq : HexMesh m) {t : Fam} {p : ℕ} (hp : orderFine t p) {proj : RefData ℝ}
    (hproj : volRef (K := ℝ) (hexType t) .LagrangeHex p 1 (projRuleOrder p) = some proj) :
    proj.nq = (2 * max p 1 + 2) * (2 * max p 1 + 2) * (2 * max p 1 + 2) ∧ (∀ q < proj.nq, 0 < proj.wts q) ∧
      ∀ e < m.numElems, ∀ q < proj.nq, 0 < setupDjac 3 8 proj (fileCoords m e) q := by
  obtain ⟨_, t2, _, t4⟩ := tables_fine p hp.1
  obtain ⟨ref, r1, r2, r3, r4⟩ := volRef_spec3 t p (2 * max p 1) hp.2 t4
  obtain rfl : ref = proj := Option.some.inj (r1.symm.trans hproj)
  refine ⟨r2, fun q hqq => ?_, fun e he q hqq => ?_⟩
  · rw [r2] at hqq
    rw [(r4 q hqq).1]
    exact wt3_pos _ t4 q hqq
  · rw [r2] at hqq
    rw [setupDjac_hex r3 _ q hqq]
    have hdet : DetPos3 (fileCoords m e) := hq.det e he
    exact hdet.at _ t4 q hqq

/-- **C86** (the post-processor on a computer, quadrilaterals).  A case for the Euler equations on a mesh of bilinear
quadrilaterals whose exact solution is uniform or the isentropic vortex, and a bound `M`.  There are constants `C`, `u0`, `B`
such that for every computer of roundoff `u ≤ u0` that does not overflow below `B`, every input file that asks for this case
with numbers read to within `κ` roundoffs, every number of ranks, every answer of the partitioner, every enumeration order of
the hash tables, every content of uninitialised memory, every solution file with finite coefficients up to `M`, and every
order of the parallel sums: every rank gets through, and the program prints for each variable a finite number within `C u` of
the distance of those coefficients from the exact solution. -/
theorem C86_post_quad (m : GMesh ℝ) (hq : QuadMesh m) (t : Fam) (p : ℕ) (hp : orderFine t p)
    (ph : Physics) (hγ : 1 < ph.γ) (start : (ℕ → ℝ) → ℕ → ℝ) (hst : StartState ph 2 start) (κ M : ℝ) :
    ∃ C u0 B : ℝ, 0 < u0 ∧ ∀ A : Arith, A.u ≤ u0 → B ≤ A.big →
      ∀ (deck : Fl.Deck A.K) (st : StepperType) (dt tend : A.K), DeckRead A κ deck 2 p (quadType t) ph st dt tend →
      ∀ (fs : String → List String → Option (MeshFile A.K)) (m' : GMesh A.K), MeshGiven A κ 2 deck fs m m' →
      ∀ (nranks : ℕ) (part : List ℕ) (env : ℕ → RankEnv A.K), LaunchOK m' nranks part env →
      ∀ (un : Fl.Unset A.K) (f : SolFile A.K) (V : Coeffs A.K), FileHolds f nranks part m'.numElems ((p + 1) * (p + 1)) 4 V →
      (∀ e < m.numElems, ∀ b < (p + 1) * (p + 1), ∀ v < 4, A.fin (V e b v) ∧ |A.val (V e b v)| ≤ M) →
      PostOutcome A deck fs un 2 nranks ((p + 2) * (p + 2)) ((2 * max p 1 + 2) * (2 * max p 1 + 2)) env f fun v N =>
        |N - quadDist t p m start (fun e b v => A.val (V e b v)) v| ≤ C * A.u := by
  rcases Nat.eq_zero_or_pos m.numElems with h0 | hne
  · refine ⟨0, 1, 0, one_pos, fun A _ _ deck st dt tend hdeck fs m' hgiven nranks part env hl => ?_⟩
    have h1 := launch_ranks hl
    have h2 := hl.pos
    have h3 := hgiven.2.1.numElems
    omega
  have hmax : (p + 1) * (p + 1) ≤ 300 := by
    have := hp.1
    calc (p + 1) * (p + 1) ≤ 12 * 12 := Nat.mul_le_mul (by omega) (by omega)
      _ ≤ 300 := by norm_num
  obtain ⟨mass, vol, proj, fr, N1, N2, h⟩ := setupIs_quad hq t p 4 hp start
  obtain ⟨d, hd, ag⟩ := buildDisc_quad t p 4 hp (eulerDirFlux 2 ph.γ) (eulerNumFlux ph.ftype 2 ph.γ)
  obtain ⟨_, t2, _, t4⟩ := tables_fine p hp.1
  obtain ⟨r2, hW, hJ⟩ := proj_quad hq hp h.exact.projE
  have hW' : ∀ q < (p + 2) * (p + 2), 0 < glW (2 * p + 3) (q % (p + 2)) * glW (2 * p + 3) (q / (p + 2)) := by
    intro q hqq
    exact mul_pos ((gl_rule_odd _ t2).pos _ (prod_lt hqq).1) ((gl_rule_odd _ t2).pos _ (prod_lt hqq).2)
  have hJ' : ∀ e < m.numElems, ∀ q < (p + 2) * (p + 2), 0 < (quadGeom t p m).djac e q := by
    intro e he q hqq
    obtain ⟨a1, a2⟩ := (gl_rule_odd _ t2).inside _ (prod_lt hqq).1
    obtain ⟨b1, b2⟩ := (gl_rule_odd _ t2).inside _ (prod_lt hqq).2
    exact hq.det e he _ _ a1 a2 b1 b2
  obtain ⟨C, u0, B, hC, hu0, H⟩ := SetupIs.post (dim := 2) h rfl (quad_shape t) rfl rfl rfl hq.npe hq.faceRange
    (nb1 := p + 1) (gnb := 4) (gg := (.LagrangeQuad, 4, 2))
    (by cases t <;> rfl) (by cases t <;> rfl) (by cases t <;> rfl) rfl rfl hmax
    (fun e _ => le_trans (sides_le 4 (fun f hf => (hq.faceL f hf).1) (fun f hf => (hq.faceR f hf).1) hq.sides e) (by omega))
    κ hst hd ag.nq ag.nb (vw := fun q => glW (2 * p + 3) (q % (p + 2)) * glW (2 * p + 3) (q / (p + 2)))
    (fun q hqq => ag.volWts q (by rw [ag.nq]; exact hqq)) hγ hne (by positivity) hW hJ hW' hJ' (max M 0) (le_max_right _ _)
  refine ⟨C, u0, B, hu0, ?_⟩
  intro A hu hB deck st dt tend hdeck fs m' hgiven nranks part env hl un f V hf hV
  have := H A hu hB deck st dt tend hdeck fs m' hgiven nranks part env hl (fun _ _ _ => trivial) un f V hf
    (fun e he b hb v hv => ⟨(hV e he b hb v hv).1, (hV e he b hb v hv).2.trans (le_max_left _ _)⟩)
  rw [r2] at this
  simpa only [show shapeNodes .Quadrilateral 1 = 4 from rfl, refDist_quad hp h.exact.projE (m := m) (fun _ _ => rfl)] using this

/-- **C86** (the post-processor on a computer, hexahedra).  The same for trilinear hexahedra, order at most
five, and partitions that cut the mesh along flat faces only. -/
theorem C86_post_hex (m : GMesh ℝ) (hq : HexMesh m) (t : Fam) (p : ℕ) (hp : orderFine t p)
    (hp5 : p ≤ 5) (ph : Physics) (hγ : 1 < ph.γ) (start : (ℕ → ℝ) → ℕ → ℝ) (hst : StartState ph 3 start) (κ M : ℝ) :
    ∃ C u0 B : ℝ, 0 < u0 ∧ ∀ A : Arith, A.u ≤ u0 → B ≤ A.big →
      ∀ (deck : Fl.Deck A.K) (st : StepperType) (dt tend : A.K), DeckRead A κ deck 3 p (hexType t) ph st dt tend →
      ∀ (fs : String → List String → Option (MeshFile A.K)) (m' : GMesh A.K), MeshGiven A κ 3 deck fs m m' →
      ∀ (nranks : ℕ) (part : List ℕ) (env : ℕ → RankEnv A.K), LaunchOK m' nranks part env → CutFlat m part →
      ∀ (un : Fl.Unset A.K) (f : SolFile A.K) (V : Coeffs A.K), FileHolds f nranks part m'.numElems ((p + 1) * (p + 1) * (p + 1)) 5 V →
      (∀ e < m.numElems, ∀ b < (p + 1) * (p + 1) * (p + 1), ∀ v < 5, A.fin (V e b v) ∧ |A.val (V e b v)| ≤ M) →
      PostOutcome A deck fs un 3 nranks ((p + 2) * (p + 2) * (p + 2)) ((2 * max p 1 + 2) * (2 * max p 1 + 2) * (2 * max p 1 + 2)) env f fun v N =>
        |N - hexDist t p m start (fun e b v => A.val (V e b v)) v| ≤ C * A.u := by
  rcases Nat.eq_zero_or_pos m.numElems with h0 | hne
  · refine ⟨0, 1, 0, one_pos, fun A _ _ deck st dt tend hdeck fs m' hgiven nranks part env hl => ?_⟩
    have h1 := launch_ranks hl
    have h2 := hl.pos
    have h3 := hgiven.2.1.numElems
    omega
  have hmax : (p + 1) * (p + 1) * (p + 1) ≤ 300 := by
    calc (p + 1) * (p + 1) * (p + 1) ≤ 6 * 6 * 6 :=
          Nat.mul_le_mul (Nat.mul_le_mul (by omega) (by omega)) (by omega)
      _ ≤ 300 := by norm_num
  obtain ⟨mass, vol, proj, fr, N1, N2, h⟩ := setupIs_hex hq t p 5 hp start
  obtain ⟨d, hd, ag⟩ := buildDisc_hex t p 5 hp (eulerDirFlux 3 ph.γ) (eulerNumFlux ph.ftype 3 ph.γ)
  obtain ⟨_, t2, _, t4⟩ := tables_fine p hp.1
  obtain ⟨r2, hW, hJ⟩ := proj_hex hq hp h.exact.projE
  have hJ' : ∀ e < m.numElems, ∀ q < (p + 2) * (p + 2) * (p + 2), 0 < (hexGeom t p m).djac e q := by
    intro e he q hqq
    have hdet : DetPos3 (fileCoords m e) := hq.det e he
    exact hdet.at _ t2 q hqq
  obtain ⟨C, u0, B, hC, hu0, H⟩ := SetupIs.post (dim := 3) h rfl (hex_shape t) rfl rfl rfl hq.npe hq.faceRange
    (nb1 := p + 1) (gnb := 8) (gg := (.LagrangeHex, 6, 8))
    (by cases t <;> rfl) (by cases t <;> rfl) (by cases t <;> rfl) rfl rfl hmax
    (fun e _ => le_trans (sides_le 6 (fun f hf => (hq.faceL f hf).1) (fun f hf => (hq.faceR f hf).1) hq.sides e) (by omega))
    κ hst hd ag.nq ag.nb (vw := wt3 p)
    (fun q hqq => ag.volWts q (by rw [ag.nq]; exact hqq)) hγ hne (by positivity) hW hJ (fun q hqq => wt3_pos _ t2 q hqq) hJ' (max M 0) (le_max_right _ _)
  refine ⟨C, u0, B, hu0, ?_⟩
  intro A hu hB deck st dt tend hdeck fs m' hgiven nranks part env hl hcut un f V hf hV
  have := H A hu hB deck st dt tend hdeck fs m' hgiven nranks part env hl hcut un f V hf
    (fun e he b hb v hv => ⟨(hV e he b hb v hv).1, (hV e he b hb v hv).2.trans (le_max_left _ _)⟩)
  rw [r2] at this
  simpa only [show shapeNodes .Hexahedron 1 = 8 from rfl, refDist_hex hp h.exact.projE (m := m) (fun _ _ => rfl)] using this

theorem job_mesh {A : Arith} {κ : ℝ} {deck : Fl.Deck A.K} {dim p : ℕ} {b : BasisType} {ph : Physics} {st : StepperType} {dt tend : A.K}
    (hdeck : DeckRead A κ deck dim p b ph st dt tend) {fs : String → List String → Option (MeshFile A.K)} {m : GMesh ℝ} {m' : GMesh A.K}
    (hg : MeshGiven A κ dim deck fs m m') (hcap : ∀ e < m.numElems, sidesOf m.faces e ≤ 6) {toInt : A.K → Option ℤ} {un : Fl.Unset A.K}
    {nranks : ℕ} {job : Fl.Job A.K} (h : Fl.readJob toInt deck fs un dim nranks = some job) : job.mesh = m' ∧ job.nparts = nranks := by
  obtain ⟨⟨name, mf, hname, hmf, hof⟩, hread, hm', -, -⟩ := hg
  obtain ⟨rd, hrd, hrm⟩ := readMesh_of hof hm' (by rw [hread.numElems, hread.faces]; exact hcap)
  have hpt : numPartitions deck.parts nranks = some nranks := by unfold numPartitions; rw [hdeck.parts]; rfl
  unfold Fl.readJob at h
  simp only [Option.bind_eq_bind] at h
  obtain ⟨num, -, h⟩ := Option.bind_eq_some_iff.mp h
  rw [hname, Option.bind_some, hpt, Option.bind_some, hmf, Option.bind_some, hrd, Option.bind_some] at h
  obtain ⟨data, -, h⟩ := Option.bind_eq_some_iff.mp h
  obtain ⟨sol, -, h⟩ := Option.bind_eq_some_iff.mp h
  split at h
  · obtain ⟨sh, -, h⟩ := Option.bind_eq_some_iff.mp h
    split at h
    · obtain ⟨disc, -, h⟩ := Option.bind_eq_some_iff.mp h
      obtain ⟨n, -, h⟩ := Option.bind_eq_some_iff.mp h
      rw [← Option.some.inj h]
      exact ⟨hrm, rfl⟩
    · cases h
  · cases h

/-- a bound on a solution -/
theorem solution_bound {α : Type} {m : GMesh α} {d : Disc ℝ} {G : Geom ℝ} {f : NumericalFluxType} {γ : ℝ} {norient : ℕ} (hm : MeshOK m)
    (hE : EulerScheme d f γ) (hγ : 1 < γ) (hc : Conforming d norient m) (ho : OrderOK d norient) (T : ℝ) (hT : 0 ≤ T) (y : ℝ → Coeffs ℝ)
    (hy : ExactSolution d m.numElems T (fun _ => globalRHS d m G) y)
    (hr : ∀ t ∈ Set.Icc 0 T, StatesRegular f γ d m G (y t)) :
    ∃ M : ℝ, 0 ≤ M ∧ ∀ t ∈ Set.Icc 0 T, ∀ e < m.numElems, ∀ b < d.nb, ∀ v < d.ns, |y t e b v| ≤ M := by
  obtain ⟨K, hK, H⟩ := solution_slow hm hE hγ hc ho T y hy hr
  set S : ℝ := ∑ e ∈ range m.numElems, ∑ b ∈ range d.nb, ∑ v ∈ range d.ns, |y 0 e b v| with hS
  have hS0 : 0 ≤ S := sum_nonneg fun _ _ => sum_nonneg fun _ _ => sum_nonneg fun _ _ => abs_nonneg _
  refine ⟨S + K * T, by positivity, fun t ht e he b hb v hv => ?_⟩
  have h1 := H 0 ⟨le_rfl, hT⟩ t ht e he b hb v hv
  have h2 : |y 0 e b v| ≤ S := by
    refine le_trans ?_ (single_le_sum (f := fun e => ∑ b ∈ range d.nb, ∑ v ∈ range d.ns, |y 0 e b v|)
      (fun _ _ => sum_nonneg fun _ _ => sum_nonneg fun _ _ => abs_nonneg _) (mem_range.2 he))
    refine le_trans ?_ (single_le_sum (f := fun b => ∑ v ∈ range d.ns, |y 0 e b v|)
      (fun _ _ => sum_nonneg fun _ _ => abs_nonneg _) (mem_range.2 hb))
    exact single_le_sum (f := fun v => |y 0 e b v|) (fun _ _ => abs_nonneg _) (mem_range.2 hv)
  have h3 : K * |t - 0| ≤ K * T := by
    rw [sub_zero, abs_of_nonneg ht.1]
    exact mul_le_mul_of_nonneg_left ht.2 hK
  have h4 : |y t e b v| ≤ |y t e b v - y 0 e b v| + |y 0 e b v| := by
    have := abs_add_le (y t e b v - y 0 e b v) (y 0 e b v)
    rwa [sub_add_cancel] at this
  linarith

theorem ProgramOutcome.mono {A : Arith} {C C' : ℝ} (hC : C ≤ C') {toInt : A.K → Option ℤ} {deck : Fl.Deck A.K}
    {fs : String → List String → Option (MeshFile A.K)} {un : Fl.Unset A.K} {dim nb nranks : ℕ}
    {m' : GMesh A.K} {env : ℕ → RankEnv A.K}
    {sched : ℕ → ℕ → List (FluxWrite A.K) → List (FluxWrite A.K)} {ord : ℕ → List ℕ} {dt tend : A.K} {run : ℕ → Coeffs ℝ} {y : ℝ → Coeffs ℝ}
    (hdt : 0 < A.val dt) (h : ProgramOutcome A C toInt deck fs un dim nb nranks m' env sched ord dt tend run y) :
    ProgramOutcome A C' toInt deck fs un dim nb nranks m' env sched ord dt tend run y := by
  have hu0 := A.u_nonneg
  have hq0 : 0 ≤ A.u / A.val dt := div_nonneg hu0 hdt.le
  have k1 := mul_le_mul_of_nonneg_right hC hu0
  have k2 := mul_le_mul_of_nonneg_right hC hq0
  have k3 := mul_le_mul_of_nonneg_right hC (show 0 ≤ A.val dt + A.u / A.val dt by linarith)
  obtain ⟨h1, job, h2, h3, h4, h5, h6⟩ := h
  refine ⟨h1, job, h2, by linarith, by linarith, h5, fun ranks hr c k hex => ?_⟩
  obtain ⟨g1, g2, g3⟩ := h6 ranks hr c k hex
  refine ⟨g1, g2, fun hd => ?_⟩
  obtain ⟨f, time, V, e1, e2, e3, e4, e5, e6⟩ := g3 hd
  exact ⟨f, time, V, e1, e2, e3, e4.trans k2, fun e he b hb v hv =>
    ⟨(e5 e he b hb v hv).1, (e5 e he b hb v hv).2.1.trans k2, (e5 e he b hb v hv).2.2.trans k3⟩, e6⟩

/-- the post-processor on a file near the exact solution -/
theorem file_post {A : Arith} {C1 C2 L My : ℝ} (hC1 : 0 ≤ C1) (hC2 : 0 ≤ C2) (hL : 0 ≤ L) {deck : Fl.Deck A.K}
    {fs : String → List String → Option (MeshFile A.K)} {dim nb nranks : ℕ}
    {m : GMesh ℝ} {m' : GMesh A.K} {part : List ℕ} {dt tend : A.K} {U : Coeffs ℝ} {y : ℝ → Coeffs ℝ}
    (hne : m'.numElems = m.numElems)
    (hdt0 : 0 < A.val dt) (hdt1 : A.val dt ≤ 1) (hdt2 : A.u ≤ A.val dt)
    (hMy : ∀ e < m.numElems, ∀ b < nb, ∀ v < dim + 2, |y (A.val tend) e b v| ≤ My)
    {dist : Coeffs ℝ → ℕ → ℝ}
    (hlip : ∀ (V W : Coeffs ℝ) (δ : ℝ), 0 ≤ δ → (∀ e < m.numElems, ∀ b < nb, ∀ v < dim + 2, |V e b v - W e b v| ≤ δ) → ∀ v < dim + 2,
      |dist V v - dist W v| ≤ L * δ) {nv ne : ℕ} {un' : Fl.Unset A.K} {env' : ℕ → RankEnv A.K}
    (hpost : ∀ (f : SolFile A.K) (V : Coeffs A.K), FileHolds f nranks part m'.numElems nb (dim + 2) V →
      (∀ e < m.numElems, ∀ b < nb, ∀ v < dim + 2, A.fin (V e b v) ∧ |A.val (V e b v)| ≤ My + C1 * 2) →
      PostOutcome A deck fs un' dim nranks nv ne env' f fun v N => |N - dist (fun e b v => A.val (V e b v)) v| ≤ C2 * A.u)
    {f : SolFile A.K} {V : Coeffs A.K} (hold : FileHolds f nranks part m'.numElems nb (dim + 2) V)
    (hV : ∀ e < m'.numElems, ∀ b < nb, ∀ v < dim + 2, A.fin (V e b v) ∧ |A.val (V e b v) - U e b v| ≤ C1 * (A.u / A.val dt) ∧
      |A.val (V e b v) - y (A.val tend) e b v| ≤ C1 * (A.val dt + A.u / A.val dt)) :
    PostOutcome A deck fs un' dim nranks nv ne env' f fun v N =>
      |N - dist U v| ≤ (C2 + L * C1) * (A.u / A.val dt) ∧
      |N - dist (y (A.val tend)) v| ≤ (C2 + L * C1) * (A.val dt + A.u / A.val dt) := by
  have hu0 := A.u_nonneg
  have hq0 : 0 ≤ A.u / A.val dt := div_nonneg hu0 hdt0.le
  have hq1 : A.u / A.val dt ≤ 1 := (div_le_one hdt0).2 hdt2
  have huq : A.u ≤ A.u / A.val dt := by
    rw [le_div_iff₀ hdt0]
    exact mul_le_of_le_one_right hu0 hdt1
  obtain ⟨jp, q1, q2, q3⟩ := hpost f V hold fun e he b hb v hv => by
    obtain ⟨v1, -, v3⟩ := hV e (by rw [hne]; exact he) b hb v hv
    refine ⟨v1, ?_⟩
    have h1 := hMy e he b hb v hv
    have h2 : C1 * (A.val dt + A.u / A.val dt) ≤ C1 * 2 := mul_le_mul_of_nonneg_left (by linarith) hC1
    have h4 := abs_add_le (A.val (V e b v) - y (A.val tend) e b v) (y (A.val tend) e b v)
    rw [sub_add_cancel] at h4
    linarith
  refine ⟨jp, q1, q2, fun qs hqs sums hsums Uq0 => ?_⟩
  obtain ⟨N, n1, n2⟩ := q3 qs hqs sums hsums Uq0
  refine ⟨N, n1, fun v hv => ⟨(n2 v hv).1, ?_, ?_⟩⟩
  · have h1 := (n2 v hv).2
    have h2 := hlip (fun e b v => A.val (V e b v)) (U) (C1 * (A.u / A.val dt)) (mul_nonneg hC1 hq0)
      (fun e he b hb v hv => (hV e (by rw [hne]; exact he) b hb v hv).2.1) v hv
    refine (abs_sub_le _ _ _).trans ((add_le_add h1 h2).trans ?_)
    have := mul_le_mul_of_nonneg_left huq hC2
    linarith
  · have h1 := (n2 v hv).2
    have h2 := hlip (fun e b v => A.val (V e b v)) (y (A.val tend)) (C1 * (A.val dt + A.u / A.val dt)) (mul_nonneg hC1 (by linarith))
      (fun e he b hb v hv => (hV e (by rw [hne]; exact he) b hb v hv).2.2) v hv
    refine (abs_sub_le _ _ _).trans ((add_le_add h1 h2).trans ?_)
    have := mul_le_mul_of_nonneg_left (show A.u ≤ A.val dt + A.u / A.val dt by linarith) hC2
    linarith

/-- the post-processor after the solver -/
theorem run_post {A : Arith} {κ C1 C2 L My : ℝ} (hC1 : 0 ≤ C1) (hC2 : 0 ≤ C2) (hL : 0 ≤ L) {toInt : A.K → Option ℤ} {deck : Fl.Deck A.K}
    {fs : String → List String → Option (MeshFile A.K)} {un : Fl.Unset A.K} {dim nb nranks p : ℕ} {b : BasisType} {ph : Physics}
    {st : StepperType} {m : GMesh ℝ} {m' : GMesh A.K} {env : ℕ → RankEnv A.K} {part : List ℕ}
    {sched : ℕ → ℕ → List (FluxWrite A.K) → List (FluxWrite A.K)} {ord : ℕ → List ℕ} {dt tend : A.K} {run : ℕ → Coeffs ℝ} {y : ℝ → Coeffs ℝ}
    (hrun : ProgramOutcome A C1 toInt deck fs un dim nb nranks m' env sched ord dt tend run y)
    (hdeck : DeckRead A κ deck dim p b ph st dt tend) (hgiven : MeshGiven A κ dim deck fs m m')
    (hcap : ∀ e < m.numElems, sidesOf m.faces e ≤ 6) (hl : LaunchOK m' nranks part env)
    (hdt0 : 0 < A.val dt) (hdt1 : A.val dt ≤ 1) (hdt2 : A.u ≤ A.val dt)
    (hMy : ∀ e < m.numElems, ∀ b < nb, ∀ v < dim + 2, |y (A.val tend) e b v| ≤ My)
    {dist : Coeffs ℝ → ℕ → ℝ}
    (hlip : ∀ (V W : Coeffs ℝ) (δ : ℝ), 0 ≤ δ → (∀ e < m.numElems, ∀ b < nb, ∀ v < dim + 2, |V e b v - W e b v| ≤ δ) → ∀ v < dim + 2,
      |dist V v - dist W v| ≤ L * δ) {nv ne : ℕ} {un' : Fl.Unset A.K} {env' : ℕ → RankEnv A.K}
    (hpost : ∀ (f : SolFile A.K) (V : Coeffs A.K), FileHolds f nranks part m'.numElems nb (dim + 2) V →
      (∀ e < m.numElems, ∀ b < nb, ∀ v < dim + 2, A.fin (V e b v) ∧ |A.val (V e b v)| ≤ My + C1 * 2) →
      PostOutcome A deck fs un' dim nranks nv ne env' f fun v N => |N - dist (fun e b v => A.val (V e b v)) v| ≤ C2 * A.u)
    {job : Fl.Job A.K} (hjob : Fl.readJob toInt deck fs un dim nranks = some job) {ranks : ℕ → Fl.RankReady A.K}
    (hranks : ∀ r < nranks, Fl.readyRank job un dim nranks (env r) r = some (ranks r)) {c : Fl.LoopConf A.K} {k : ℕ}
    (hexec : Proto.Exec (Fl.jobProg job ranks nranks sched) (Fl.jobInit job ranks) c k) (hdone : Fl.LoopDone job nranks c)
    {f : SolFile A.K} (hf : Fl.jobFile job ranks dim nranks ord c = some f) :
    PostOutcome A deck fs un' dim nranks nv ne env' f fun v N =>
      |N - dist (run job.nsteps) v| ≤ (C2 + L * C1) * (A.u / A.val dt) ∧
      |N - dist (y (A.val tend)) v| ≤ (C2 + L * C1) * (A.val dt + A.u / A.val dt) := by
  obtain ⟨-, job', hjob', -, -, -, H⟩ := hrun
  obtain rfl : job' = job := Option.some.inj (hjob'.symm.trans hjob)
  obtain ⟨-, -, H⟩ := H ranks hranks c k hexec
  obtain ⟨f', time, V, hf', -, -, -, hV, hback⟩ := H hdone
  obtain rfl : f' = f := Option.some.inj (hf'.symm.trans hf)
  obtain ⟨j1, j2⟩ := job_mesh hdeck hgiven hcap hjob
  have hold : FileHolds f' nranks part m'.numElems nb (dim + 2) V := by
    intro r hr
    obtain ⟨s, s1, s2, s3⟩ := hback r hr
    refine ⟨s, s1, s2, fun i e hi => s3 i e ?_⟩
    have hp := (machine_ready (hranks r hr)).1
    rw [j1, j2, hl.part_eq r hr] at hp
    rw [(result_of hgiven.2.2.1 hl.parts (hl.enum r) hr hp).l2gElem]
    exact hi
  exact file_post hC1 hC2 hL hgiven.2.1.numElems hdt0 hdt1 hdt2 hMy hlip hpost hold hV

/-- **C86** (solver and post-processor on a computer, quadrilaterals).  A case as in C85.  There are constants `C`, `h0`, `u0`,
`B`, such that for every computer, input file, mesh file and launch as in C85, every interleaving of the ranks of the solver, and
every launch of the post-processor on the file the solver has written, on as many ranks and the same partition: every rank gets
through, and the program prints for each variable a finite number, within `C u/dt` of the distance from the exact solution the
exact calculation of as many steps has, and within `C (dt + u/dt)` of the distance the solution of the semidiscrete equations
has at the final time. -/
theorem C86_run_post_quad (m : GMesh ℝ) (hm : MeshOK m) (hq : QuadMesh m) (hs : SidesNonzero m) (t : Fam) (p : ℕ) (hp : orderFine t p)
    (ph : Physics) (hγ : 1 < ph.γ) (start : (ℕ → ℝ) → ℕ → ℝ) (hst : StartState ph 2 start)
    (T T1 : ℝ) (hT : 0 ≤ T) (hT1 : T1 < T) (y : ℝ → Coeffs ℝ)
    (hy : ExactSolution (quadEuler t p ph.ftype ph.γ) m.numElems T
      (fun _ => globalRHS (quadEuler t p ph.ftype ph.γ) m (quadGeom t p m)) y)
    (hr : ∀ s ∈ Set.Icc 0 T, StatesRegular ph.ftype ph.γ (quadEuler t p ph.ftype ph.γ) m (quadGeom t p m) (y s))
    (hy0 : AgreeIn (quadEuler t p ph.ftype ph.γ) m.numElems (y 0) (quadInit t p m start)) (κ : ℝ) :
    ∃ C h0 u0 B : ℝ, 0 < h0 ∧ 0 < u0 ∧ ∀ A : Arith, A.u ≤ u0 → B ≤ A.big →
      ∀ toInt : A.K → Option ℤ, Truncates A toInt →
      ∀ (deck : Fl.Deck A.K) (st : StepperType) (dt tend : A.K), DeckRead A κ deck 2 p (quadType t) ph st dt tend →
      A.fin dt → 0 < A.val dt → A.val dt ≤ h0 → C * A.u ≤ A.val dt →
      A.fin tend → 0 ≤ A.val tend → A.val tend ≤ T1 → A.val tend ≤ (2 ^ 31 - 2) * A.val dt →
      ∀ (fs : String → List String → Option (MeshFile A.K)) (m' : GMesh A.K), MeshGiven A κ 2 deck fs m m' →
      ∀ (nranks : ℕ) (part : List ℕ) (env : ℕ → RankEnv A.K), LaunchOK m' nranks part env →
      ∀ un : Fl.Unset A.K,
      ∀ sched : ℕ → ℕ → List (FluxWrite A.K) → List (FluxWrite A.K), (∀ r k l, (sched r k l).Perm l) →
      ∀ ord : ℕ → List ℕ, (∀ i, (ord i).Perm (List.range nranks)) →
      ∀ job, Fl.readJob toInt deck fs un 2 nranks = some job →
      ∀ ranks : ℕ → Fl.RankReady A.K, (∀ r < nranks, Fl.readyRank job un 2 nranks (env r) r = some (ranks r)) →
      ∀ c k, Proto.Exec (Fl.jobProg job ranks nranks sched) (Fl.jobInit job ranks) c k → Fl.LoopDone job nranks c →
      ∀ f, Fl.jobFile job ranks 2 nranks ord c = some f →
      ∀ (env' : ℕ → RankEnv A.K) (un' : Fl.Unset A.K), LaunchOK m' nranks part env' →
      PostOutcome A deck fs un' 2 nranks ((p + 2) * (p + 2)) ((2 * max p 1 + 2) * (2 * max p 1 + 2)) env' f fun v N =>
        |N - quadDist t p m start (quadRun t p m ph start st.scheme (A.val dt) job.nsteps) v| ≤ C * (A.u / A.val dt) ∧
        |N - quadDist t p m start (y (A.val tend)) v| ≤ C * (A.val dt + A.u / A.val dt) := by
  have hcap : ∀ e < m.numElems, sidesOf m.faces e ≤ 6 := fun e _ =>
    le_trans (sides_le 4 (fun f hf => (hq.faceL f hf).1) (fun f hf => (hq.faceR f hf).1) hq.sides e) (by omega)
  obtain ⟨My, hMy0, hMy⟩ := solution_bound hm (quadEuler_scheme t p ph.ftype ph.γ) hγ (hq.conforming t p 4 _ _)
    (quadDisc_order t p 4 _ _) T hT y hy hr
  obtain ⟨mass, vol, proj, fr, N1, N2, h⟩ := setupIs_quad hq t p 4 hp start
  obtain ⟨-, hW, hJ⟩ := proj_quad hq hp h.exact.projE
  obtain ⟨L, hL, hlip⟩ := refDist_lip 2 4 ((p + 1) * (p + 1)) m.numElems (2 + 2) proj (fileCoords m) ((p + 2) * (p + 2))
    (fun q => glW (2 * p + 3) (q % (p + 2)) * glW (2 * p + 3) (q / (p + 2))) (quadGeom t p m).djac start hW hJ
  simp only [refDist_quad hp h.exact.projE (m := m) (fun _ _ => rfl)] at hlip
  obtain ⟨C1, h1, u1, B1, hh1, hu1, H1⟩ := C85_program_quad m hm hq hs t p hp ph hγ start hst T T1 hT hT1 y hy hr hy0 κ
  obtain ⟨C2, u2, B2, hu2, H2⟩ := C86_post_quad m hq t p hp ph hγ start hst κ (My + max C1 0 * 2)
  have hC1 : (0 : ℝ) ≤ max C1 0 := le_max_right _ _
  have hC2 : (0 : ℝ) ≤ max C2 0 := le_max_right _ _
  have hLC := mul_nonneg hL hC1
  refine ⟨max C1 0 + 1 + (max C2 0 + L * max C1 0), min h1 1, min u1 u2, max B1 B2, lt_min hh1 one_pos, lt_min hu1 hu2, ?_⟩
  intro A hu hB toInt htr deck st dt tend hdeck f1 hdt0 hdt1 hdt2 f2 ht0 ht1 ht2 fs m' hgiven nranks part env hl un sched hsched
    ord hord job hjob ranks hranks c k hex hdone f hf env' un' hl'
  have hu0 := A.u_nonneg
  have hq0 : 0 ≤ A.u / A.val dt := div_nonneg hu0 hdt0.le
  have k1 : C1 * A.u ≤ A.val dt :=
    le_trans (mul_le_mul_of_nonneg_right (by linarith [le_max_left C1 0]) hu0) hdt2
  have k2 : A.u ≤ A.val dt :=
    le_trans (le_of_eq_of_le (one_mul _).symm (mul_le_mul_of_nonneg_right (by linarith) hu0)) hdt2
  have out := H1 A (hu.trans (min_le_left _ _)) ((le_max_left _ _).trans hB) toInt htr deck st dt tend hdeck f1 hdt0
    (hdt1.trans (min_le_left _ _)) k1 f2 ht0 ht1 ht2 fs m' hgiven nranks part env hl un sched hsched ord hord
  have post := run_post (dim := 2) hC1 hC2 hL (out.mono (le_max_left _ _) hdt0) hdeck hgiven hcap hl hdt0
    (hdt1.trans (min_le_right _ _)) k2 (fun e he b hb v hv => hMy _ ⟨ht0, ht1.trans hT1.le⟩ e he b hb v hv) hlip
    (un' := un') (env' := env') (nv := ((p + 2) * (p + 2))) (ne := (2 * max p 1 + 2) * (2 * max p 1 + 2)) (fun f V hf hV => by
      obtain ⟨jp, q1, q2, q3⟩ := H2 A (hu.trans (min_le_right _ _)) ((le_max_right _ _).trans hB) deck st dt tend hdeck fs m' hgiven nranks
        part env' hl' un' f V hf hV
      refine ⟨jp, q1, q2, fun qs hqs sums hsums Uq0 => ?_⟩
      obtain ⟨N, n1, n2⟩ := q3 qs hqs sums hsums Uq0
      exact ⟨N, n1, fun v hv => ⟨(n2 v hv).1, (n2 v hv).2.trans (mul_le_mul_of_nonneg_right (le_max_left _ _) hu0)⟩⟩)
    hjob hranks hex hdone hf
  obtain ⟨jp, q1, q2, q3⟩ := post
  refine ⟨jp, q1, q2, fun qs hqs sums hsums Uq0 => ?_⟩
  obtain ⟨N, n1, n2⟩ := q3 qs hqs sums hsums Uq0
  exact ⟨N, n1, fun v hv => ⟨(n2 v hv).1, (n2 v hv).2.1.trans (mul_le_mul_of_nonneg_right (by linarith) hq0),
    (n2 v hv).2.2.trans (mul_le_mul_of_nonneg_right (by linarith) (by linarith))⟩⟩

/-- **C86** (solver and post-processor on a computer, hexahedra).  The same for trilinear hexahedra, order at most five, and
partitions that cut the mesh along flat faces only. -/
theorem C86_run_post_hex (m : GMesh ℝ) (hm : MeshOK m) (hq : HexMesh m) (hs : FacesNonzero m) (t : Fam) (p : ℕ) (hp : orderFine t p)
    (hp5 : p ≤ 5) (ph : Physics) (hγ : 1 < ph.γ) (start : (ℕ → ℝ) → ℕ → ℝ) (hst : StartState ph 3 start)
    (T T1 : ℝ) (hT : 0 ≤ T) (hT1 : T1 < T) (y : ℝ → Coeffs ℝ)
    (hy : ExactSolution (hexEuler t p ph.ftype ph.γ) m.numElems T
      (fun _ => globalRHS (hexEuler t p ph.ftype ph.γ) m (hexGeom t p m)) y)
    (hr : ∀ s ∈ Set.Icc 0 T, StatesRegular ph.ftype ph.γ (hexEuler t p ph.ftype ph.γ) m (hexGeom t p m) (y s))
    (hy0 : AgreeIn (hexEuler t p ph.ftype ph.γ) m.numElems (y 0) (hexInit t p m start)) (κ : ℝ) :
    ∃ C h0 u0 B : ℝ, 0 < h0 ∧ 0 < u0 ∧ ∀ A : Arith, A.u ≤ u0 → B ≤ A.big →
      ∀ toInt : A.K → Option ℤ, Truncates A toInt →
      ∀ (deck : Fl.Deck A.K) (st : StepperType) (dt tend : A.K), DeckRead A κ deck 3 p (hexType t) ph st dt tend →
      A.fin dt → 0 < A.val dt → A.val dt ≤ h0 → C * A.u ≤ A.val dt →
      A.fin tend → 0 ≤ A.val tend → A.val tend ≤ T1 → A.val tend ≤ (2 ^ 31 - 2) * A.val dt →
      ∀ (fs : String → List String → Option (MeshFile A.K)) (m' : GMesh A.K), MeshGiven A κ 3 deck fs m m' →
      ∀ (nranks : ℕ) (part : List ℕ) (env : ℕ → RankEnv A.K), LaunchOK m' nranks part env → CutFlat m part →
      ∀ un : Fl.Unset A.K,
      ∀ sched : ℕ → ℕ → List (FluxWrite A.K) → List (FluxWrite A.K), (∀ r k l, (sched r k l).Perm l) →
      ∀ ord : ℕ → List ℕ, (∀ i, (ord i).Perm (List.range nranks)) →
      ∀ job, Fl.readJob toInt deck fs un 3 nranks = some job →
      ∀ ranks : ℕ → Fl.RankReady A.K, (∀ r < nranks, Fl.readyRank job un 3 nranks (env r) r = some (ranks r)) →
      ∀ c k, Proto.Exec (Fl.jobProg job ranks nranks sched) (Fl.jobInit job ranks) c k → Fl.LoopDone job nranks c →
      ∀ f, Fl.jobFile job ranks 3 nranks ord c = some f →
      ∀ (env' : ℕ → RankEnv A.K) (un' : Fl.Unset A.K), LaunchOK m' nranks part env' →
      PostOutcome A deck fs un' 3 nranks ((p + 2) * (p + 2) * (p + 2)) ((2 * max p 1 + 2) * (2 * max p 1 + 2) * (2 * max p 1 + 2)) env' f fun v N =>
        |N - hexDist t p m start (hexRun t p m ph start st.scheme (A.val dt) job.nsteps) v| ≤ C * (A.u / A.val dt) ∧
        |N - hexDist t p m start (y (A.val tend)) v| ≤ C * (A.val dt + A.u / A.val dt) := by
  have hcap : ∀ e < m.numElems, sidesOf m.faces e ≤ 6 := fun e _ =>
    le_trans (sides_le 6 (fun f hf => (hq.faceL f hf).1) (fun f hf => (hq.faceR f hf).1) hq.sides e) (by omega)
  obtain ⟨My, hMy0, hMy⟩ := solution_bound hm (hexEuler_scheme t p ph.ftype ph.γ) hγ (hq.conforming t p 5 _ _)
    (hexDisc_order t p 5 _ _) T hT y hy hr
  obtain ⟨mass, vol, proj, fr, N1, N2, h⟩ := setupIs_hex hq t p 5 hp start
  obtain ⟨-, hW, hJ⟩ := proj_hex hq hp h.exact.projE
  obtain ⟨L, hL, hlip⟩ := refDist_lip 3 8 ((p + 1) * (p + 1) * (p + 1)) m.numElems (3 + 2) proj (fileCoords m) ((p + 2) * (p + 2) * (p + 2))
    (wt3 p) (hexGeom t p m).djac start hW hJ
  simp only [refDist_hex hp h.exact.projE (m := m) (fun _ _ => rfl)] at hlip
  obtain ⟨C1, h1, u1, B1, hh1, hu1, H1⟩ := C85_program_hex m hm hq hs t p hp hp5 ph hγ start hst T T1 hT hT1 y hy hr hy0 κ
  obtain ⟨C2, u2, B2, hu2, H2⟩ := C86_post_hex m hq t p hp hp5 ph hγ start hst κ (My + max C1 0 * 2)
  have hC1 : (0 : ℝ) ≤ max C1 0 := le_max_right _ _
  have hC2 : (0 : ℝ) ≤ max C2 0 := le_max_right _ _
  have hLC := mul_nonneg hL hC1
  refine ⟨max C1 0 + 1 + (max C2 0 + L * max C1 0), min h1 1, min u1 u2, max B1 B2, lt_min hh1 one_pos, lt_min hu1 hu2, ?_⟩
  intro A hu hB toInt htr deck st dt tend hdeck f1 hdt0 hdt1 hdt2 f2 ht0 ht1 ht2 fs m' hgiven nranks part env hl hcut un sched hsched
    ord hord job hjob ranks hranks c k hex hdone f hf env' un' hl'
  have hu0 := A.u_nonneg
  have hq0 : 0 ≤ A.u / A.val dt := div_nonneg hu0 hdt0.le
  have k1 : C1 * A.u ≤ A.val dt :=
    le_trans (mul_le_mul_of_nonneg_right (by linarith [le_max_left C1 0]) hu0) hdt2
  have k2 : A.u ≤ A.val dt :=
    le_trans (le_of_eq_of_le (one_mul _).symm (mul_le_mul_of_nonneg_right (by linarith) hu0)) hdt2
  have out := H1 A (hu.trans (min_le_left _ _)) ((le_max_left _ _).trans hB) toInt htr deck st dt tend hdeck f1 hdt0
    (hdt1.trans (min_le_left _ _)) k1 f2 ht0 ht1 ht2 fs m' hgiven nranks part env hl hcut un sched hsched ord hord
  have post := run_post (dim := 3) hC1 hC2 hL (out.mono (le_max_left _ _) hdt0) hdeck hgiven hcap hl hdt0
    (hdt1.trans (min_le_right _ _)) k2 (fun e he b hb v hv => hMy _ ⟨ht0, ht1.trans hT1.le⟩ e he b hb v hv) hlip
    (un' := un') (env' := env') (nv := ((p + 2) * (p + 2) * (p + 2))) (ne := (2 * max p 1 + 2) * (2 * max p 1 + 2) * (2 * max p 1 + 2)) (fun f V hf hV => by
      obtain ⟨jp, q1, q2, q3⟩ := H2 A (hu.trans (min_le_right _ _)) ((le_max_right _ _).trans hB) deck st dt tend hdeck fs m' hgiven nranks
        part env' hl' hcut un' f V hf hV
      refine ⟨jp, q1, q2, fun qs hqs sums hsums Uq0 => ?_⟩
      obtain ⟨N, n1, n2⟩ := q3 qs hqs sums hsums Uq0
      exact ⟨N, n1, fun v hv => ⟨(n2 v hv).1, (n2 v hv).2.trans (mul_le_mul_of_nonneg_right (le_max_left _ _) hu0)⟩⟩)
    hjob hranks hex hdone hf
  obtain ⟨jp, q1, q2, q3⟩ := post
  refine ⟨jp, q1, q2, fun qs hqs sums hsums Uq0 => ?_⟩
  obtain ⟨N, n1, n2⟩ := q3 qs hqs sums hsums Uq0
  exact ⟨N, n1, fun v hv => ⟨(n2 v hv).1, (n2 v hv).2.1.trans (mul_le_mul_of_nonneg_right (by linarith) hq0),
    (n2 v hv).2.2.trans (mul_le_mul_of_nonneg_right (by linarith) (by linarith))⟩⟩

end DG
