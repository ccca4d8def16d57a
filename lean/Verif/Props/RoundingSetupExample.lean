import Verif.Props.RoundingSetup
import Verif.Props.RoundingExample

/-!
Cases that meet the hypotheses of C84.
-/
namespace DG

/-- the mesh file of a computer: all coordinates rounded to `p` bits -/
noncomputable def roundMesh (p : ℕ) (big : ℝ) (m : GMesh ℝ) : GMesh (bits_round p big).arith.K :=
  ⟨m.numElems, m.npe, m.eind, m.coord.map fun row => row.map (toBits p big), m.faces⟩

theorem roundMesh_ok (p : ℕ) (big : ℝ) {m : GMesh ℝ} (h : MeshOK m) : MeshOK (roundMesh p big m) :=
  ⟨h.eindLen, by simpa [roundMesh] using h.nodes, h.faces, h.elemsFit, by simpa [roundMesh] using h.nodesFit, h.facesFit⟩

/-- **C84** (rounded files).  For every mesh there is a `κ` such that the file with all coordinates rounded to `p` bits is read
as this mesh by a computer that rounds to `p` bits, for any `p` and any range. -/
theorem C84_rounded_files (dim : ℕ) (m : GMesh ℝ) :
    ∃ κ : ℝ, ∀ (p : ℕ) (big : ℝ), MeshRead (bits_round p big).arith κ dim m (roundMesh p big m) := by
  obtain ⟨k, hk, h⟩ := bound4 (fun e i j _ => fileCoords m e i j) m.numElems m.npe dim 1
  refine ⟨k + 1, fun p big => ⟨rfl, rfl, rfl, ?_⟩⟩
  intro e he i hi j hj
  have h1 := h e he i hi j hj 0 one_pos
  beta_reduce at h1
  have hz : (bits_round p big).arith.Close (k + 1) 0 0 := by
    have := (bits_round p big).arith.zero
    refine ⟨this.1, ?_⟩
    rw [this.2, sub_zero, abs_zero]
    exact mul_nonneg (by linarith) (bits_round p big).arith.u_nonneg
  unfold fileCoords at h1 ⊢
  have e1 : (roundMesh p big m).npe = m.npe := rfl
  have e2 : (roundMesh p big m).eind = m.eind := rfl
  have e3 : (roundMesh p big m).coord = m.coord.map fun row => row.map (toBits p big) := rfl
  rw [e1, e2, e3]
  generalize (m.eind[e * m.npe + i]?).getD 0 = g at h1 ⊢
  rw [List.getElem?_map]
  cases hg : m.coord[g]? with
  | none => simpa [get0] using hz
  | some row =>
    rw [hg] at h1
    simp only [Option.map_some, Option.getD_some, get0, List.getElem?_map] at h1 ⊢
    cases hr : row[j]? with
    | none => simpa using hz
    | some x =>
      rw [hr] at h1
      simp only [Option.map_some, Option.getD_some] at h1 ⊢
      exact toBits_close p big (by linarith)

/-- the uniform initial condition with the values `n s / 10^k` (decimal numbers in the input file) -/
def decStart (n : ℕ → ℤ) (k : ℕ) (A : Arith) : (ℕ → A.K) → ℕ → A.K := fun _ s => DecLit.ofDec (n s) k

/-- **C84** (uniform initial conditions are computed). -/
theorem C84_uniform_computes (dim ns : ℕ) (n : ℕ → ℤ) (k : ℕ) :
    Computes dim ns (decStart n k) (fun _ s => (n s : ℝ) / 10 ^ k) := by
  intro κ X
  obtain ⟨M, hM, h⟩ := bound4 (fun s _ _ _ => (n s : ℝ) / 10 ^ k) ns 1 1 1
  refine ⟨M + 1, 1, M, one_pos, fun A hu hB x _ s hs => ?_⟩
  have h1 := h s hs 0 one_pos 0 one_pos 0 one_pos
  beta_reduce at h1
  obtain ⟨f1, f2, -⟩ := A.lit (n s) k (h1.trans hB)
  refine ⟨f1, f2.trans ?_⟩
  have h0 := A.u_nonneg
  nlinarith

/-- density 1, momentum (1, 0), energy 4 -/
def exDec (s : ℕ) : ℤ := if s = 0 then 1 else if s = 1 then 1 else if s = 3 then 4 else 0

theorem exDec_admissible : Admissible 2 (7 / 5) (fun s => (exDec s : ℝ) / 10 ^ 0) := by
  constructor
  · simp [exDec]
  · simp [exDec, pressure, internalEnergy, inner', vel, Finset.sum_range_succ]
    norm_num

/-- All hypotheses of `C84_case_quad` are met by a uniform flow on `perMesh`, two ranks, at every order and with both bases and
fluxes: there are a solution and a `κ`, and whatever the constants are, a computer, a mesh file, a launch on two ranks and a time step. -/
example (t : Fam) (p : ℕ) (hp : orderFine t p) (f : NumericalFluxType) :
    ∃ (T : ℝ) (y : ℝ → Coeffs ℝ) (κ : ℝ), 0 < T ∧ Computes 2 4 (decStart exDec 0) (fun _ s => (exDec s : ℝ) / 10 ^ 0) ∧
    ExactSolution (quadEuler t p f (7 / 5)) perMesh.numElems T (fun _ => globalRHS (quadEuler t p f (7 / 5)) perMesh (quadGeom t p perMesh)) y ∧
    (∀ s ∈ Set.Icc 0 T, StatesRegular f (7 / 5) (quadEuler t p f (7 / 5)) perMesh (quadGeom t p perMesh) (y s)) ∧
    AgreeIn (quadEuler t p f (7 / 5)) perMesh.numElems (y 0) (quadInit t p perMesh (fun _ s => (exDec s : ℝ) / 10 ^ 0)) ∧
    ∀ C h0 u0 B : ℝ, 0 < h0 → 0 < u0 → ∃ A : Arith, 0 < A.u ∧ A.u ≤ u0 ∧ B ≤ A.big ∧
      (∃ m' : GMesh A.K, MeshRead A κ 2 perMesh m' ∧ ∃ γ' : A.K, A.Close κ γ' (7 / 5) ∧ ∃ rms D g u,
        MachineLaunch A (quadType t) .LagrangeQuad p 2 f γ' (decStart exDec 0 A) m' 2 perPart rms D g u) ∧
      ∃ dt : A.K, A.fin dt ∧ 0 < A.val dt ∧ A.val dt ≤ h0 ∧ C * A.u ≤ A.val dt := by
  have hγ : (1 : ℝ) < 7 / 5 := by norm_num
  have hic := C84_uniform_computes 2 4 exDec 0
  have hreg := C82_uniform_regular_quad perMesh perMesh_ok perMesh_quad t p hp f (7 / 5) hγ _ exDec_admissible
    (fun _ s => (exDec s : ℝ) / 10 ^ 0) (fun _ _ _ => rfl)
  obtain ⟨T0, hT, y, h0, hy, hr⟩ := C82_solution_exists perMesh_ok (quadEuler_scheme t p f (7 / 5)) hγ
    (perMesh_quad.conforming t p 4 _ _) (quadDisc_order t p 4 _ _) _ hreg
  obtain ⟨k1, hk1⟩ := C84_rounded_files 2 perMesh
  have hk : ∀ (q : ℕ) (big : ℝ), MeshRead (bits_round q big).arith (max k1 3) 2 perMesh (roundMesh q big perMesh) := by
    intro q big
    obtain ⟨a, b, c, d⟩ := hk1 q big
    refine ⟨a, b, c, fun e he i hi j hj => ⟨(d e he i hi j hj).1, (d e he i hi j hj).2.trans ?_⟩⟩
    exact mul_le_mul_of_nonneg_right (le_max_left _ _) (bits_round q big).arith.u_nonneg
  obtain ⟨u1, B1, hu1, H⟩ := C84_setup_completes_quad perMesh perMesh_quad t p hp f (7 / 5) (max k1 3) _ _ hic
  refine ⟨T0, y, max k1 3, hT, hic, hy, hr, h0, ?_⟩
  intro C h0 u0 B hh hu
  set q : ℝ := h0 / 4 / (|C| + h0 + 1) with hq
  have hq0 : 0 < q := by positivity
  obtain ⟨n, hn⟩ := exists_pow_lt_of_lt_one (lt_min (lt_min hu hu1) hq0) (show (1 / 2 : ℝ) < 1 by norm_num)
  have hn' : (2 : ℝ) ^ (-(n : ℤ)) < min (min u0 u1) q := by
    rw [zpow_neg, zpow_natCast, ← one_div, ← one_div_pow]; exact hn
  have hpos : (0 : ℝ) < 2 ^ (-(n : ℤ)) := zpow2_pos _
  have hA : (bits_round n (max B B1)).arith.u = 2 ^ (-(n : ℤ)) := rfl
  have hB : (bits_round n (max B B1)).arith.big = max B B1 := rfl
  have hdt := toBits_close n (max B B1) (x := h0 / 2) le_rfl
  have hγ' : (bits_round n (max B B1)).arith.Close (max k1 3) (toBits n (max B B1) (7 / 5)) (7 / 5) :=
    toBits_close n (max B B1) ((show |(7 / 5 : ℝ)| + 1 ≤ 3 by rw [abs_of_pos (by norm_num)]; norm_num).trans (le_max_right _ _))
  have hm' := hk n (max B B1)
  have hok := roundMesh_ok n (max B B1) perMesh_ok
  generalize toBits n (max B B1) (h0 / 2) = dt at hdt
  generalize toBits n (max B B1) (7 / 5) = γ' at hγ'
  generalize roundMesh n (max B B1) perMesh = m' at hm' hok
  generalize (bits_round n (max B B1)).arith = A at *
  obtain ⟨f1, f2⟩ := hdt
  have hub : A.u ≤ q := by rw [hA]; exact hn'.le.trans (min_le_right _ _)
  have hqe : q * (|C| + h0 + 1) = h0 / 4 := by rw [hq]; field_simp
  have hu0 : 0 < A.u := by rw [hA]; exact hpos
  rw [abs_of_pos (by positivity : 0 < h0 / 2)] at f2
  have b1 : A.u * (|C| + h0 + 1) ≤ h0 / 4 := by rw [← hqe]; gcongr
  have b2 := abs_le.1 f2
  have b3 : 0 ≤ A.u * |C| := by positivity
  have b4 : C * A.u ≤ A.u * |C| := by rw [mul_comm]; gcongr; exact le_abs_self C
  have b5 : 0 < A.u * h0 := by positivity
  refine ⟨A, hu0, by rw [hA]; exact hn'.le.trans ((min_le_left _ _).trans (min_le_left _ _)), by rw [hB]; exact le_max_left _ _,
    ⟨m', hm', γ', hγ', ?_⟩, dt, f1, by linarith [b2.1], by linarith [b2.2], by linarith [b2.1]⟩
  have hpart : PartOK m' 2 perPart := ⟨by rw [hm'.numElems]; rfl, by decide⟩
  have hw : ∀ r, ∃ rm : RankMesh A.K, r < 2 → partition m' 2 2 perPart id r = some rm := by
    intro r
    by_cases hr : r < 2
    · obtain ⟨rm, h⟩ := C01_partition_no_ub m' 2 perPart id hok hpart enum_id_ok r hr
      exact ⟨rm, fun _ => h⟩
    · obtain ⟨rm, -⟩ := C01_partition_no_ub m' 2 perPart id hok hpart enum_id_ok 0 (by omega)
      exact ⟨rm, fun h => absurd h hr⟩
  choose rms hw using hw
  have w : World m' 2 perPart rms := ⟨hok, hpart, fun r hr => ⟨id, enum_id_ok, hw r hr⟩⟩
  obtain ⟨D, hD, hg⟩ := H A (by rw [hA]; exact hn'.le.trans ((min_le_left _ _).trans (min_le_right _ _)))
    (by rw [hB]; exact le_max_right _ _) m' hm' γ' hγ' (fun _ => 0) (fun _ => 0) 2 perPart rms w
  have hg' : ∀ r, ∃ (g : Geom A.K) (u : Coeffs A.K), r < 2 →
      buildGeom (quadType t) .LagrangeQuad p 1 r (rms r) (fun _ _ _ => 0) (fun _ _ _ => 0) = some g ∧
      initState (quadType t) .LagrangeQuad p 1 4 (rms r) g.iMM (decStart exDec 0 A) (fun _ _ _ => 0) (fun _ _ _ => 0) = some u := by
    intro r
    by_cases hr : r < 2
    · obtain ⟨g, h1, h2⟩ := hg r hr (fun _ _ _ => 0) (fun _ _ _ => 0)
      obtain ⟨u, h3⟩ := h2 (fun _ _ _ => 0) (fun _ _ _ => 0)
      exact ⟨g, u, fun _ => ⟨h1, h3⟩⟩
    · exact ⟨⟨fun _ _ => 0, fun _ _ _ _ => 0, fun _ _ _ => 0, fun _ _ _ => 0⟩, fun _ _ _ => 0, fun h => absurd h hr⟩
  choose g u hgu using hg'
  exact ⟨rms, D, g, u, fun _ => 0, fun _ => 0, w, hD, fun r hr => ⟨_, _, (hgu r hr).1⟩, fun r hr => ⟨_, _, (hgu r hr).2⟩⟩

end DG
