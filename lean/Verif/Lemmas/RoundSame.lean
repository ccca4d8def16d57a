import Verif.Lemmas.RoundFlux

/-!
The routines of `Model/FluxOps.lean` over the reals are those of `Model/Physics.lean` where the checked operations of the latter succeed.
-/

namespace DG

theorem cdiv_inv {x y z : ℝ} (h : cdiv x y = some z) : z = x / y := by
  unfold cdiv at h; split at h <;> simp_all
theorem csqrt_inv {x z : ℝ} (h : csqrt x = some z) : z = HasSqrt.sqrt x := by
  unfold csqrt at h; split at h
  · simp_all
  · exact (Option.some.inj h).symm

theorem getPressure_inv {dim : ℕ} {γ : ℝ} {U : ℕ → ℝ} {p : ℝ} (h : getPressure dim γ U = some p) :
    p = Fl.pressure dim γ U := by
  obtain ⟨r, h1, h2⟩ := Option.bind_eq_some_iff.mp h
  rw [cdiv_inv h1] at h2
  exact (Option.some.inj h2).symm

theorem convFlux_inv {dim : ℕ} {γ : ℝ} {U F X : ℕ → ℝ} (h : convFlux dim γ U F = some X) :
    X = Fl.convFlux dim γ U F := by
  match dim, h with
  | 0, h => cases h
  | 1, h => cases h
  | 2, h =>
    obtain ⟨r, h1, h⟩ := Option.bind_eq_some_iff.mp h
    obtain ⟨p, h2, h⟩ := Option.bind_eq_some_iff.mp h
    rw [cdiv_inv h1, getPressure_inv h2] at h
    rw [← Option.some.inj h]
    rfl
  | 3, h =>
    obtain ⟨r, h1, h⟩ := Option.bind_eq_some_iff.mp h
    obtain ⟨p, h2, h⟩ := Option.bind_eq_some_iff.mp h
    rw [cdiv_inv h1, getPressure_inv h2] at h
    rw [← Option.some.inj h]
    rfl
  | n + 4, h => cases h

theorem speed_inv {dim : ℕ} {γ : ℝ} {U : ℕ → ℝ} {a : ℝ} (h : eulerMaxWaveSpeed dim γ U = some a) :
    a = Fl.maxWaveSpeed dim γ U := by
  obtain ⟨r, h1, h⟩ := Option.bind_eq_some_iff.mp h
  obtain ⟨q, h2, h⟩ := Option.bind_eq_some_iff.mp h
  obtain ⟨p, h3, h⟩ := Option.bind_eq_some_iff.mp h
  obtain ⟨c, h4, h⟩ := Option.bind_eq_some_iff.mp h
  have e1 := cdiv_inv h1
  have e2 := csqrt_inv h2
  have e3 := getPressure_inv h3
  have e4 := csqrt_inv h4
  subst e1 e2 e3 e4
  exact (Option.some.inj h).symm

theorem lax_inv {dim : ℕ} {γ : ℝ} {UL UR N Fq F X : ℕ → ℝ} (h : laxFriedrichs dim γ UL UR N Fq F = some X) :
    X = Fl.laxFriedrichs dim γ UL UR N Fq F := by
  unfold laxFriedrichs laxFriedrichsWith at h
  obtain ⟨nm, h1, h⟩ := Option.bind_eq_some_iff.mp h
  obtain ⟨_, h2, h⟩ := Option.bind_eq_some_iff.mp h
  obtain ⟨F1, h3, h⟩ := Option.bind_eq_some_iff.mp h
  obtain ⟨F2, h4, h⟩ := Option.bind_eq_some_iff.mp h
  obtain ⟨a, h5, h⟩ := Option.bind_eq_some_iff.mp h
  obtain ⟨b, h6, h⟩ := Option.bind_eq_some_iff.mp h
  have e1 := csqrt_inv h1
  have e3 := convFlux_inv h3
  subst e1 e3
  have e4 := convFlux_inv h4
  have e5 := speed_inv h5
  have e6 := speed_inv h6
  subst e4 e5 e6
  rw [← Option.some.inj h]
  rfl

theorem hllcQ_inv {γ p P q : ℝ} (h : hllcQ γ p P = some q) : q = Fl.hllcQ γ p P := by
  obtain ⟨r, h1, h⟩ := Option.bind_eq_some_iff.mp h
  have e1 := cdiv_inv h1
  subst e1
  unfold Fl.hllcQ
  by_cases hc : 1 < p / P
  · rw [if_pos hc]
    rw [if_pos hc] at h
    obtain ⟨g, h2, h⟩ := Option.bind_eq_some_iff.mp h
    have e2 := cdiv_inv h2
    subst e2
    exact csqrt_inv h
  · rw [if_neg hc]
    rw [if_neg hc] at h
    exact (Option.some.inj h).symm

theorem fmax0_eq (x : ℝ) : Fl.fmax0 x = max 0 x := by
  unfold Fl.fmax0
  split
  · rw [max_eq_right (by linarith)]
  · rw [max_eq_left (by linarith)]

theorem hllc_inv {dim : ℕ} {γ : ℝ} {UL UR N F X : ℕ → ℝ} (h : hllc dim γ UL UR N F = some X) :
    Fl.hllc dim γ UL UR N F = some X := by
  unfold hllc at h
  obtain ⟨djac, h1, h⟩ := Option.bind_eq_some_iff.mp h
  obtain ⟨djac1, h2, h⟩ := Option.bind_eq_some_iff.mp h
  obtain ⟨rL1, h3, h⟩ := Option.bind_eq_some_iff.mp h
  obtain ⟨PL, h4, h⟩ := Option.bind_eq_some_iff.mp h
  obtain ⟨aL, h5, h⟩ := Option.bind_eq_some_iff.mp h
  obtain ⟨rR1, h6, h⟩ := Option.bind_eq_some_iff.mp h
  obtain ⟨PR, h7, h⟩ := Option.bind_eq_some_iff.mp h
  obtain ⟨aR, h8, h⟩ := Option.bind_eq_some_iff.mp h
  obtain ⟨qL, h9, h⟩ := Option.bind_eq_some_iff.mp h
  obtain ⟨qR, h10, h⟩ := Option.bind_eq_some_iff.mp h
  obtain ⟨sS, h11, h⟩ := Option.bind_eq_some_iff.mp h
  rw [← fmax0_eq] at h9 h10
  have e1 := csqrt_inv h1
  have e2 := cdiv_inv h2
  have e3 := cdiv_inv h3
  have e4 := getPressure_inv h4
  have e5 := csqrt_inv h5
  have e6 := cdiv_inv h6
  have e7 := getPressure_inv h7
  have e8 := csqrt_inv h8
  subst e1 e2 e3 e4 e5 e6 e7 e8
  have e9 := hllcQ_inv h9
  have e10 := hllcQ_inv h10
  subst e9 e10
  have e11 := cdiv_inv h11
  subst e11
  unfold Fl.hllc
  simp only
  split at h
  · rename_i hc
    rw [if_pos (show 0 ≤ (Fl.hllcWaves dim γ UL UR N).sL from hc), ← h]
    rfl
  · rename_i hc
    rw [if_neg (show ¬ 0 ≤ (Fl.hllcWaves dim γ UL UR N).sL from hc)]
    split at h
    · rename_i hc'
      rw [if_pos (show (Fl.hllcWaves dim γ UL UR N).sR ≤ 0 from hc'), ← h]
      rfl
    · rename_i hc'
      rw [if_neg (show ¬ (Fl.hllcWaves dim γ UL UR N).sR ≤ 0 from hc')]
      split at h
      · rename_i hq
        rw [if_pos (show (Fl.hllcWaves dim γ UL UR N).sL < 0 ∧ 0 ≤ (Fl.hllcWaves dim γ UL UR N).sStar from hq)]
        obtain ⟨c, k1, h⟩ := Option.bind_eq_some_iff.mp h
        obtain ⟨q, k2, h⟩ := Option.bind_eq_some_iff.mp h
        have e1 := cdiv_inv k1
        have e2 := cdiv_inv k2
        subst e1 e2
        rw [← h]
        rfl
      · rename_i hq
        rw [if_neg (show ¬ ((Fl.hllcWaves dim γ UL UR N).sL < 0 ∧ 0 ≤ (Fl.hllcWaves dim γ UL UR N).sStar) from hq)]
        split at h
        · rename_i hq
          rw [if_pos (show (Fl.hllcWaves dim γ UL UR N).sStar < 0 ∧ 0 < (Fl.hllcWaves dim γ UL UR N).sR from hq)]
          obtain ⟨c, k1, h⟩ := Option.bind_eq_some_iff.mp h
          obtain ⟨q, k2, h⟩ := Option.bind_eq_some_iff.mp h
          have e1 := cdiv_inv k1
          have e2 := cdiv_inv k2
          subst e1 e2
          rw [← h]
          rfl
        · cases h
end DG
