import Verif.Lemmas.RoundVortex
import Verif.Props.RoundingSetupExample

/-!
C84, continued: the vortex as initial condition of a case in rounded arithmetic.
-/
namespace DG

/-- **C84** (decimal numbers of the input deck are known). -/
theorem C84_decimals_known (n : ℤ) (k : ℕ) : Known (fun A => (DecLit.ofDec n k : A.K)) ((n : ℝ) / 10 ^ k) := by
  refine ⟨|(n : ℝ) / 10 ^ k| + 1, 1, |(n : ℝ) / 10 ^ k|, one_pos, fun A hu hB => ?_⟩
  obtain ⟨f1, f2, -⟩ := A.lit n k hB
  refine ⟨f1, f2.trans ?_⟩
  have h0 := A.u_nonneg
  nlinarith

noncomputable instance : HasLibm ℝ := ⟨Real.exp, fun x y => x ^ y, fun x n => x ^ n, Real.pi⟩

theorem cpow_inv {x y z : ℝ} (h : cpow x y = some z) : z = HasLibm.pow x y := (cpow_some h).2

/-- **C84** (same routines).  Over the reals the vortex routines, operation by operation, are those of `Model/Physics`. -/
theorem C84_same_vortex (data : List ℝ) (γ Rg t : ℝ) (x Uq U : ℕ → ℝ) :
    (vortex2 data γ Rg x t Uq = some U → Fl.vortex2 (fun i => data.getD i 0) γ Rg x t Uq = some U) ∧
    (vortex3 γ x t Uq = some U → Fl.vortex3 γ x t Uq = U) := by
  constructor
  · intro h
    unfold vortex2 at h
    obtain ⟨d0, h0, h⟩ := Option.bind_eq_some_iff.mp h
    obtain ⟨d1, h1, h⟩ := Option.bind_eq_some_iff.mp h
    obtain ⟨d2, h2, h⟩ := Option.bind_eq_some_iff.mp h
    obtain ⟨d3, h3, h⟩ := Option.bind_eq_some_iff.mp h
    obtain ⟨d4, h4, h⟩ := Option.bind_eq_some_iff.mp h
    have e0 : data.getD 0 0 = d0 := by simp [List.getD, h0]
    have e1 : data.getD 1 0 = d1 := by simp [List.getD, h1]
    have e2 : data.getD 2 0 = d2 := by simp [List.getD, h2]
    have e3 : data.getD 3 0 = d3 := by simp [List.getD, h3]
    have e4 : data.getD 4 0 = d4 := by simp [List.getD, h4]
    by_cases hR : Rg = 1
    · rw [if_pos hR] at h
      obtain ⟨Tb, g1, h⟩ := Option.bind_eq_some_iff.mp h
      obtain ⟨rg, g2, h⟩ := Option.bind_eq_some_iff.mp h
      obtain ⟨s, g3, h⟩ := Option.bind_eq_some_iff.mp h
      obtain ⟨r, g4, h⟩ := Option.bind_eq_some_iff.mp h
      obtain ⟨q, g5, h⟩ := Option.bind_eq_some_iff.mp h
      obtain ⟨Ts, g6, h⟩ := Option.bind_eq_some_iff.mp h
      obtain ⟨e, g7, h⟩ := Option.bind_eq_some_iff.mp h
      obtain ⟨rho, g8, h⟩ := Option.bind_eq_some_iff.mp h
      obtain ⟨a, g9, h⟩ := Option.bind_eq_some_iff.mp h
      obtain ⟨b, g10, h⟩ := Option.bind_eq_some_iff.mp h
      rw [cdiv_inv g10, cdiv_inv g9, cpow_inv g8, cdiv_inv g7, cdiv_inv g6, cdiv_inv g5, csqrt_inv g4, cdiv_inv g3, cpow_inv g2,
        cdiv_inv g1] at h
      unfold Fl.vortex2
      rw [if_pos hR]
      simp only [e0, e1, e2, e3, e4]
      rw [← h]
      rfl
    · rw [if_neg hR] at h; cases h
  · intro h
    unfold vortex3 at h
    obtain ⟨g1, k1, h⟩ := Option.bind_eq_some_iff.mp h
    obtain ⟨e1, k2, h⟩ := Option.bind_eq_some_iff.mp h
    obtain ⟨pw, k3, h⟩ := Option.bind_eq_some_iff.mp h
    obtain ⟨e2, k4, h⟩ := Option.bind_eq_some_iff.mp h
    obtain ⟨rho, k5, h⟩ := Option.bind_eq_some_iff.mp h
    obtain ⟨rKE, k6, h⟩ := Option.bind_eq_some_iff.mp h
    obtain ⟨a, k7, h⟩ := Option.bind_eq_some_iff.mp h
    rw [cdiv_inv k7, cdiv_inv k6, cpow_inv k5, cdiv_inv k4, cpow_inv k3, cdiv_inv k2, cdiv_inv k1] at h
    rw [← Option.some.inj h]
    rfl

/-- **C84** (the vortex is computed, two dimensions).  The routine of the program for the isentropic vortex, with parameters
and heat ratio known up to roundoff, computes the vortex of the specification at every point - also in the centre, where the
radius is the root of a number near zero. -/
theorem C84_vortex_computes (γ ρ u v P K : ℝ) (hγ : 1 < γ) (hρ : 0 < ρ) (hP : 0 < P)
    (hK : (γ - 1) * K ^ 2 * Real.exp 1 < 8 * γ * Real.pi ^ 2 * (P / ρ))
    (data : ∀ A : Arith, ℕ → A.K) (γ' : ∀ A : Arith, A.K) (h0 : Known (fun A => data A 0) ρ) (h1 : Known (fun A => data A 1) u)
    (h2 : Known (fun A => data A 2) v) (h3 : Known (fun A => data A 3) P) (h4 : Known (fun A => data A 4) K) (hg : Known γ' γ)
    (junk : ∀ A : Arith, ℕ → A.K) :
    Computes 2 4 (fun A x => (Fl.vortex2 (data A) (γ' A) 1 x 0 (junk A)).getD (junk A))
      (fun x => vortexState γ ρ u v P K (x 0) (x 1)) :=
  computes_of_follow fun κ X s hs => vortex2_follow sit_fine (data := fun i : Sit noData 1 1 2 κ _ => data i.A)
    (γ' := fun i => γ' i.A) (X := fun i => i.co 0 0) (fun i => junk i.A) hγ hρ hP hK (h0.fo sit_fine) (h1.fo sit_fine)
    (h2.fo sit_fine) (h3.fo sit_fine) (h4.fo sit_fine) (hg.fo sit_fine) (sit_point (by norm_num)) (sit_point (by norm_num)) hs

/-- **C84** (the vortex is computed, three dimensions). -/
theorem C84_vortex_computes_3d (γ : ℝ) (hγ : 1 < γ) (hγ3 : 25 * (γ - 1) * Real.exp 1 < 16 * Real.pi ^ 2)
    (γ' : ∀ A : Arith, A.K) (hg : Known γ' γ) (junk : ∀ A : Arith, ℕ → A.K) :
    Computes 3 5 (fun A x => Fl.vortex3 (γ' A) x 0 (junk A)) (fun x => vortexState3 γ (x 0) (x 2)) :=
  computes_of_follow fun κ X s hs => vortex3_follow sit_fine (γ' := fun i : Sit noData 1 1 3 κ _ => γ' i.A) (X := fun i => i.co 0 0)
    (fun i => junk i.A) hγ hγ3 (hg.fo sit_fine) (sit_point (by norm_num)) (sit_point (by norm_num)) hs

/-- the numbers of the input deck of `vortexGas` -/
def vortexDeck (s : ℕ) : ℤ := if s = 2 then 0 else 1

/-- The vortex of `perMesh` (order 0) meets the hypotheses of `C84_case_quad`: the routine computes it, its equations have a
solution through regular states. -/
example : ∃ T0 > 0, ∃ y : ℝ → Coeffs ℝ,
    Computes 2 4 (fun A x => (Fl.vortex2 (fun s => DecLit.ofDec (vortexDeck s) 0) (DecLit.ofDec 14 1) 1 x 0 fun _ => 0).getD fun _ => (0 : A.K))
      (fun x => vortexState vortexGas.γ 1 1 0 1 1 (x 0) (x 1)) ∧
    ExactSolution (quadEuler .legendre 0 vortexGas.ftype vortexGas.γ) perMesh.numElems T0 (fun _ => globalRHS
      (quadEuler .legendre 0 vortexGas.ftype vortexGas.γ) perMesh (quadGeom .legendre 0 perMesh)) y ∧
    (∀ s ∈ Set.Icc 0 T0, StatesRegular vortexGas.ftype vortexGas.γ (quadEuler .legendre 0 vortexGas.ftype vortexGas.γ)
      perMesh (quadGeom .legendre 0 perMesh) (y s)) ∧
    AgreeIn (quadEuler .legendre 0 vortexGas.ftype vortexGas.γ) perMesh.numElems (y 0)
      (quadInit .legendre 0 perMesh fun x => vortexState vortexGas.γ 1 1 0 1 1 (x 0) (x 1)) := by
  obtain ⟨T0, hT, y, h0, hy, hr, -⟩ := perWellposed
  refine ⟨T0, hT, y, ?_, hy, hr, agree_symm h0⟩
  have hd : ∀ s, Known (fun A => (DecLit.ofDec (vortexDeck s) 0 : A.K)) ((vortexDeck s : ℤ) : ℝ) := fun s => by
    simpa using C84_decimals_known (vortexDeck s) 0
  have hst := vortexGas_start
  refine C84_vortex_computes vortexGas.γ 1 1 0 1 1 (by norm_num [vortexGas]) one_pos one_pos ?_ _ _ (by simpa [vortexDeck] using hd 0)
    (by simpa [vortexDeck] using hd 1) (by simpa [vortexDeck] using hd 2) (by simpa [vortexDeck] using hd 3)
    (by simpa [vortexDeck] using hd 4) ?_ _
  · have h1 := Real.exp_one_lt_d9
    have h2 := Real.pi_gt_three
    norm_num [vortexGas]
    nlinarith
  · have := C84_decimals_known 14 1
    norm_num [vortexGas] at this ⊢
    exact this

end DG
