import Verif.Props.Rounding
import Verif.Props.WellposedUniform
import Verif.Props.FreeStreamQuad

/-!
Cases that meet the hypotheses of C83.
-/
namespace DG
variable {α : Type}

/-- a number of the machine near `x` -/
noncomputable def toBits (p : ℕ) (big x : ℝ) : (bits_round p big).arith.K := some ⟨roundBits p x, trivial⟩

theorem toBits_close (p : ℕ) (big : ℝ) {κ x : ℝ} (hx : |x| + 1 ≤ κ) :
    (bits_round p big).arith.Close κ (toBits p big x) x := by
  refine ⟨rfl, ?_⟩
  show |roundBits p x - x| ≤ κ * 2 ^ (-(p : ℤ))
  have h := (roundBits_rounds p x).1
  have h0 : (0 : ℝ) < 2 ^ (-(p : ℤ)) := zpow2_pos _
  have h1 : (2 : ℝ) ^ (-(p : ℤ)) ≤ 1 := zpow_le_one_of_nonpos₀ (by norm_num) (by omega)
  calc _ ≤ _ := h
    _ ≤ (|x| + 1) * 2 ^ (-(p : ℤ)) := by nlinarith
    _ ≤ κ * 2 ^ (-(p : ℤ)) := by gcongr

theorem bound4 (F : ℕ → ℕ → ℕ → ℕ → ℝ) (a b c e : ℕ) :
    ∃ κ : ℝ, 0 ≤ κ ∧ ∀ i < a, ∀ j < b, ∀ k < c, ∀ l < e, |F i j k l| ≤ κ := by
  obtain ⟨M, hM⟩ := Finset.exists_le ((((Finset.range a ×ˢ Finset.range b) ×ˢ Finset.range c) ×ˢ Finset.range e).image
    fun x => |F x.1.1.1 x.1.1.2 x.1.2 x.2|)
  refine ⟨max 0 M, le_max_left _ _, fun i hi j hj k hk l hl => le_max_of_le_right (hM _ ?_)⟩
  refine Finset.mem_image.2 ⟨(((i, j), k), l), ?_, rfl⟩
  simp [hi, hj, hk, hl]

/-- **C83** (rounded data).  For every case there is a `κ` such that in an arithmetic with operations rounded to `p` bits (any `p`, any range) the
hypotheses on the data hold if all tables, the geometry, the initial coefficients and the heat ratio are rounded to `p`
bits, on every number of ranks. -/
theorem C83_rounded_data (m : GMesh α) (d : Disc ℝ) (f : NumericalFluxType) (γ : ℝ) (G : Geom ℝ) (U : Coeffs ℝ) :
    ∃ κ : ℝ, ∀ (p : ℕ) (big : ℝ), ∃ A : Arith, A.u = 2 ^ (-(p : ℤ)) ∧ A.big = big ∧
      (∀ x : ℝ, ∃ a, A.Close (|x| + 1) a x) ∧ (∃ D, MachineScheme A κ f γ d D) ∧
      ∀ (nranks : ℕ) (part : List ℕ) (rms : ℕ → RankMesh α), World m nranks part rms →
        (∃ g : ℕ → Geom A.K, ∀ r < nranks, GeomClose A κ d (rms r) (g r) G) ∧
        ∃ u : ℕ → Coeffs A.K, ∀ r < nranks, CoeffsClose A κ d (rms r) (u r) U := by
  obtain ⟨k1, p1, h1⟩ := bound4 (fun q b _ _ => d.volBasis q b) d.nq d.nb 1 1
  obtain ⟨k2, p2, h2⟩ := bound4 (fun q b j _ => d.volGrad q b j) d.nq d.nb d.dim 1
  obtain ⟨k3, p3, h3⟩ := bound4 (fun q _ _ _ => d.volWts q) d.nq 1 1 1
  obtain ⟨k4, p4, h4⟩ := bound4 (fun f q b _ => d.faceBasis f q b) d.nface d.nqf d.nb 1
  obtain ⟨k5, p5, h5⟩ := bound4 (fun q _ _ _ => d.faceWts q) d.nqf 1 1 1
  obtain ⟨k6, p6, h6⟩ := bound4 (fun e q _ _ => G.djac e q) m.numElems d.nq 1 1
  obtain ⟨k7, p7, h7⟩ := bound4 G.ijac m.numElems d.nq d.dim d.dim
  obtain ⟨k8, p8, h8⟩ := bound4 (fun e i j _ => G.iMM e i j) m.numElems d.nb d.nb 1
  obtain ⟨k9, p9, h9⟩ := bound4 (fun f q j _ => G.normals f q j) m.faces.length d.nqf d.dim 1
  obtain ⟨k10, p10, h10⟩ := bound4 (fun e b s _ => U e b s) m.numElems d.nb d.ns 1
  refine ⟨k1 + k2 + k3 + k4 + k5 + k6 + k7 + k8 + k9 + k10 + |γ| + 1, ?_⟩
  intro p big
  have pγ := abs_nonneg γ
  refine ⟨(bits_round p big).arith, rfl, rfl, fun x => ⟨toBits p big x, toBits_close p big le_rfl⟩, ?_, ?_⟩
  · refine ⟨⟨d.dim, d.ns, d.nb, d.nq, d.nface, d.nqf, fun q b => toBits p big (d.volBasis q b),
      fun q b j => toBits p big (d.volGrad q b j), fun q => toBits p big (d.volWts q),
      fun f q b => toBits p big (d.faceBasis f q b), fun q => toBits p big (d.faceWts q), d.ptsOrder,
      fun U => Fl.convFlux d.dim (toBits p big γ) U fun _ => 0, machineNumFlux f d.dim (toBits p big γ) fun _ => 0⟩,
      rfl, rfl, rfl, rfl, rfl, rfl, rfl, ?_, ?_, ?_, ?_, ?_, toBits p big γ, fun _ => 0, fun _ => 0, ?_, rfl, rfl⟩
    · intro q hq b hb
      exact toBits_close p big (by have := h1 q hq b hb 0 one_pos 0 one_pos; beta_reduce at this; linarith)
    · intro q hq b hb j hj
      exact toBits_close p big (by have := h2 q hq b hb j hj 0 one_pos; beta_reduce at this; linarith)
    · intro q hq
      exact toBits_close p big (by have := h3 q hq 0 one_pos 0 one_pos 0 one_pos; beta_reduce at this; linarith)
    · intro f hf q hq b hb
      exact toBits_close p big (by have := h4 f hf q hq b hb 0 one_pos; beta_reduce at this; linarith)
    · intro q hq
      exact toBits_close p big (by have := h5 q hq 0 one_pos 0 one_pos 0 one_pos; beta_reduce at this; linarith)
    · exact toBits_close p big (by linarith)
  intro nranks part rms w
  have elem : ∀ r < nranks, ∀ k e : ℕ, (rms r).l2gElem[k]? = some e → e < m.numElems := by
    intro r hr k e hk
    have := List.mem_of_getElem? hk
    rw [(w.res hr).l2gElem] at this
    exact (mem_owned.1 this).1
  have face : ∀ r < nranks, ∀ i f : ℕ, (rms r).l2gFace[i]? = some f → f < m.faces.length := by
    intro r hr i f hi
    obtain ⟨enum, he, h⟩ := w.ranks r hr
    obtain ⟨F, hF, -⟩ := ((C04_interior_faces m nranks part enum w.mesh w.parts he r hr _ h).2.2.2 f).1
      (List.mem_of_getElem? hi)
    exact (List.getElem?_eq_some_iff.1 hF).1
  refine ⟨⟨fun r => ⟨fun k q => toBits p big (G.djac ((rms r).l2gElem.getD k 0) q),
      fun k q i j => toBits p big (G.ijac ((rms r).l2gElem.getD k 0) q i j),
      fun k i j => toBits p big (G.iMM ((rms r).l2gElem.getD k 0) i j),
      fun i q j => toBits p big (G.normals ((rms r).l2gFace.getD i 0) q j)⟩, ?_⟩, ?_⟩
  · intro r hr
    refine ⟨?_, ?_, ?_, ?_⟩
    · intro k e hk q hq
      have e1 : (rms r).l2gElem.getD k 0 = e := by simp only [List.getD, hk, Option.getD_some]
      simp only [e1]
      exact toBits_close p big (by
        have := h6 e (elem r hr k e hk) q hq 0 one_pos 0 one_pos; beta_reduce at this; linarith)
    · intro k e hk q hq i hi j hj
      have e1 : (rms r).l2gElem.getD k 0 = e := by simp only [List.getD, hk, Option.getD_some]
      simp only [e1]
      exact toBits_close p big (by have := h7 e (elem r hr k e hk) q hq i hi j hj; linarith)
    · intro k e hk i hi j hj
      have e1 : (rms r).l2gElem.getD k 0 = e := by simp only [List.getD, hk, Option.getD_some]
      simp only [e1]
      exact toBits_close p big (by
        have := h8 e (elem r hr k e hk) i hi j hj 0 one_pos; beta_reduce at this; linarith)
    · intro i f hi q hq j hj
      have e1 : (rms r).l2gFace.getD i 0 = f := by simp only [List.getD, hi, Option.getD_some]
      simp only [e1]
      exact toBits_close p big (by
        have := h9 f (face r hr i f hi) q hq j hj 0 one_pos; beta_reduce at this; linarith)
  · refine ⟨fun r k b s => toBits p big (U ((rms r).l2gElem.getD k 0) b s), ?_⟩
    intro r hr k e hk b hb s hs
    have e1 : (rms r).l2gElem.getD k 0 = e := by simp only [List.getD, hk, Option.getD_some]
    simp only [e1]
    exact toBits_close p big (by
      have := h10 e (elem r hr k e hk) b hb s hs 0 one_pos; beta_reduce at this; linarith)

/-- All hypotheses of `C83_rounded_run` are met by the vortex on `perMesh`, on two ranks: there are a solution and a `κ`, and
whatever the constants are, an arithmetic that rounds, data and a time step. -/
example : ∃ (T0 : ℝ) (y : ℝ → Coeffs ℝ) (κ : ℝ), 0 < T0 ∧ NormalsNonzero (quadEuler .legendre 0 vortexGas.ftype vortexGas.γ) perMesh
      (quadGeom .legendre 0 perMesh) ∧
    ExactSolution (quadEuler .legendre 0 vortexGas.ftype vortexGas.γ) 4 T0 (fun _ => globalRHS
      (quadEuler .legendre 0 vortexGas.ftype vortexGas.γ) perMesh (quadGeom .legendre 0 perMesh)) y ∧
    (∀ s ∈ Set.Icc 0 T0, StatesRegular vortexGas.ftype vortexGas.γ (quadEuler .legendre 0 vortexGas.ftype vortexGas.γ)
      perMesh (quadGeom .legendre 0 perMesh) (y s)) ∧
    ∀ C h0 u0 B : ℝ, 0 < h0 → 0 < u0 → ∃ A : Arith, 0 < A.u ∧ A.u ≤ u0 ∧ B ≤ A.big ∧
      (∃ D, MachineScheme A κ vortexGas.ftype vortexGas.γ (quadEuler .legendre 0 vortexGas.ftype vortexGas.γ) D) ∧
      (∃ rms, World perMesh 2 perPart rms ∧
        (∃ g : ℕ → Geom A.K, ∀ r < 2, GeomClose A κ (quadEuler .legendre 0 vortexGas.ftype vortexGas.γ) (rms r) (g r)
          (quadGeom .legendre 0 perMesh)) ∧
        ∃ u : ℕ → Coeffs A.K, ∀ r < 2, CoeffsClose A κ (quadEuler .legendre 0 vortexGas.ftype vortexGas.γ) (rms r) (u r) (y 0)) ∧
      ∃ dt : A.K, A.fin dt ∧ 0 < A.val dt ∧ A.val dt ≤ h0 ∧ C * A.u ≤ A.val dt := by
  obtain ⟨T0, hT, y, -, hy, hr, -⟩ := perWellposed
  obtain ⟨κ, H⟩ := C83_rounded_data perMesh (quadEuler .legendre 0 vortexGas.ftype vortexGas.γ) vortexGas.ftype vortexGas.γ
    (quadGeom .legendre 0 perMesh) (y 0)
  obtain ⟨rms, w⟩ := perWorld
  refine ⟨T0, y, κ, hT, normals_nonzero perMesh_ok perMesh_quad perMesh_sides .legendre 0 4 _ _, hy, hr, ?_⟩
  intro C h0 u0 B hh hu
  set q : ℝ := h0 / 4 / (|C| + h0 + 1) with hq
  have hq0 : 0 < q := by positivity
  obtain ⟨p, hp⟩ := exists_pow_lt_of_lt_one (lt_min hu hq0) (show (1 / 2 : ℝ) < 1 by norm_num)
  have hp' : (2 : ℝ) ^ (-(p : ℤ)) < min u0 q := by
    rw [zpow_neg, zpow_natCast, ← one_div, ← one_div_pow]; exact hp
  have hpos : (0 : ℝ) < 2 ^ (-(p : ℤ)) := zpow2_pos _
  obtain ⟨A, hA, hB, hx, hD, hw⟩ := H p B
  obtain ⟨dt, f1, f2⟩ := hx (h0 / 2)
  have hub : A.u ≤ q := by rw [hA]; exact hp'.le.trans (min_le_right _ _)
  have hqe : q * (|C| + h0 + 1) = h0 / 4 := by rw [hq]; field_simp
  have hu0 : 0 < A.u := by rw [hA]; exact hpos
  rw [abs_of_pos (by positivity : 0 < h0 / 2)] at f2
  have b1 : A.u * (|C| + h0 + 1) ≤ h0 / 4 := by rw [← hqe]; gcongr
  have b2 := abs_le.1 f2
  have b3 : 0 ≤ A.u * |C| := by positivity
  have b4 : C * A.u ≤ A.u * |C| := by rw [mul_comm]; gcongr; exact le_abs_self C
  have b5 : 0 < A.u * h0 := by positivity
  refine ⟨A, hu0, by rw [hA]; exact hp'.le.trans (min_le_left _ _), by rw [hB], hD, ⟨rms, w, hw 2 perPart rms w⟩, dt, f1, ?_, ?_, ?_⟩
  · linarith [b2.1]
  · linarith [b2.2]
  · linarith [b2.1]

end DG
