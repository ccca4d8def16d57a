import Verif.Lemmas.LipCalc
import Verif.Spec.EulerDG
import Verif.Props.HLLC

/-!
The fluxes of the Euler equations are Lipschitz continuous near admissible states (for HLLC: where its
three waves are in their order).
-/
open Set Filter Topology
namespace DG

section
variable {X : Type*} [PseudoMetricSpace X] {x : X}

/-- all components are Lipschitz continuous near `x` -/
def LipVec (U : X → ℕ → ℝ) (x : X) : Prop := ∀ s, LipAt (fun z => U z s) x

variable {U UL UR : X → ℕ → ℝ} {dim : ℕ} {γ : ℝ}

theorem LipVec.vel (hU : LipVec U x) (h0 : U x 0 ≠ 0) : LipVec (fun z => vel (U z)) x := fun s =>
  (hU (s + 1)).div (hU 0) h0

theorem LipVec.inner {a b : X → ℕ → ℝ} (ha : LipVec a x) (hb : LipVec b x) :
    LipAt (fun z => inner' dim (a z) (b z)) x :=
  LipAt.sum fun i _ => (ha i).mul (hb i)

theorem lipVec_const (N : ℕ → ℝ) : LipVec (fun _ : X => N) x := fun s => lipAt_const (N s) x

theorem LipVec.un (hU : LipVec U x) (h0 : U x 0 ≠ 0) (N : ℕ → ℝ) :
    LipAt (fun z => inner' dim (DG.vel (U z)) N) x := (hU.vel h0).inner (lipVec_const N)

theorem LipVec.pressure (hU : LipVec U x) (h0 : U x 0 ≠ 0) : LipAt (fun z => pressure dim γ (U z)) x := by
  unfold DG.pressure internalEnergy
  exact (lipAt_const _ _).mul ((hU _).sub (((lipAt_const _ _).mul (hU 0)).mul ((hU.vel h0).inner (hU.vel h0))))

theorem LipVec.sound (hU : LipVec U x) (hγ : 1 < γ) (h : Admissible dim γ (U x)) :
    LipAt (fun z => soundSpeed dim γ (U z)) x := by
  have := h.ρ_pos; have := h.p_pos
  unfold soundSpeed
  refine LipAt.sqrt (((lipAt_const _ _).mul (hU.pressure h.ρ_pos.ne')).div (hU 0) h.ρ_pos.ne') ?_
  positivity

theorem LipVec.maxSpeed (hU : LipVec U x) (hγ : 1 < γ) (h : Admissible dim γ (U x)) :
    LipAt (fun z => maxSpeed dim γ (U z)) x :=
  (LipAt.length fun i _ => hU.vel h.ρ_pos.ne' i).add (hU.sound hγ h)

theorem LipVec.eulerFlux (hU : LipVec U x) (h0 : U x 0 ≠ 0) (N : ℕ → ℝ) :
    LipVec (fun z => eulerFlux dim γ (U z) N) x := by
  intro s
  have hp := hU.pressure (dim := dim) (γ := γ) h0
  have hu := hU.un (dim := dim) h0 N
  unfold DG.eulerFlux
  by_cases hs : s = 0
  · simp only [hs, if_true]; exact (hU 0).mul hu
  · by_cases h1 : s < dim + 1
    · simp only [hs, h1, if_false, if_true]
      exact ((hU s).mul hu).add (hp.mul (lipAt_const _ _))
    · simp only [hs, h1, if_false]
      exact ((hU _).add hp).mul hu

theorem lip_rusanov (hL : LipVec UL x) (hR : LipVec UR x) (hγ : 1 < γ) (aL : Admissible dim γ (UL x))
    (aR : Admissible dim γ (UR x)) (N : ℕ → ℝ) : LipVec (fun z => rusanovFlux dim γ (UL z) (UR z) N) x := by
  intro s
  have fL := hL.eulerFlux (dim := dim) (γ := γ) aL.ρ_pos.ne' N s
  have fR := hR.eulerFlux (dim := dim) (γ := γ) aR.ρ_pos.ne' N s
  unfold rusanovFlux
  exact ((fL.add fR).div (lipAt_const _ _) two_ne_zero).sub
    ((((lipAt_const _ _).mul ((hL.maxSpeed hγ aL).max (hR.maxSpeed hγ aR))).div (lipAt_const _ _) two_ne_zero).mul
      ((hR s).sub (hL s)))

/-- the shock factor without case distinction -/
theorem shockFactor_max (hγ : 1 < γ) {pS p : ℝ} (hp : 0 < p) :
    shockFactor γ pS p = Real.sqrt (1 + (γ + 1) / (2 * γ) * (max (pS / p - 1) 0)) := by
  unfold shockFactor
  split_ifs with h
  · rw [max_eq_right (by rw [sub_nonpos, div_le_one hp]; exact h)]; simp
  · rw [max_eq_left]
    rw [sub_nonneg, one_le_div hp]; linarith

theorem lip_shock {pS p : X → ℝ} (hS : LipAt pS x) (hp : LipAt p x) (hγ : 1 < γ) (h : 0 < p x) :
    LipAt (fun z => shockFactor γ (pS z) (p z)) x := by
  have ev : ∀ᶠ z in 𝓝 x, 0 < p z := hp.continuousAt.eventually (lt_mem_nhds h)
  refine LipAt.congr (f := fun z => Real.sqrt (1 + (γ + 1) / (2 * γ) * (max (pS z / p z - 1) 0))) ?_
    (ev.mono fun z hz => shockFactor_max hγ hz)
  refine LipAt.sqrt ((lipAt_const _ _).add ((lipAt_const _ _).mul
    (((hS.div hp h.ne').sub (lipAt_const _ _)).max (lipAt_const _ _)))) ?_
  have : 0 ≤ (γ + 1) / (2 * γ) * (max (pS x / p x - 1) 0) := by positivity
  positivity

theorem lip_pvrs (hL : LipVec UL x) (hR : LipVec UR x) (hγ : 1 < γ) (aL : Admissible dim γ (UL x))
    (aR : Admissible dim γ (UR x)) (n : ℕ → ℝ) :
    LipAt (fun z => pvrsPressure (UL z 0) (inner' dim (vel (UL z)) n) (pressure dim γ (UL z)) (soundSpeed dim γ (UL z))
      (UR z 0) (inner' dim (vel (UR z)) n) (pressure dim γ (UR z)) (soundSpeed dim γ (UR z))) x := by
  have two : ∀ {f : X → ℝ}, LipAt f x → LipAt (fun z => f z / 2) x := fun h => h.div (lipAt_const _ _) two_ne_zero
  unfold pvrsPressure
  exact (lipAt_const _ _).max ((two ((hL.pressure aL.ρ_pos.ne').add (hR.pressure aR.ρ_pos.ne'))).sub
    (((two ((hR.un aR.ρ_pos.ne' n).sub (hL.un aL.ρ_pos.ne' n))).mul (two ((hL 0).add (hR 0)))).mul
      (two ((hL.sound hγ aL).add (hR.sound hγ aR)))))

theorem lip_waveL (hL : LipVec UL x) (hR : LipVec UR x) (hγ : 1 < γ) (aL : Admissible dim γ (UL x))
    (aR : Admissible dim γ (UR x)) (n : ℕ → ℝ) : LipAt (fun z => waveSpeedL dim γ (UL z) (UR z) n) x :=
  (hL.un aL.ρ_pos.ne' n).sub ((hL.sound hγ aL).mul
    (lip_shock (lip_pvrs hL hR hγ aL aR n) (hL.pressure aL.ρ_pos.ne') hγ aL.p_pos))

theorem lip_waveR (hL : LipVec UL x) (hR : LipVec UR x) (hγ : 1 < γ) (aL : Admissible dim γ (UL x))
    (aR : Admissible dim γ (UR x)) (n : ℕ → ℝ) : LipAt (fun z => waveSpeedR dim γ (UL z) (UR z) n) x :=
  (hR.un aR.ρ_pos.ne' n).add ((hR.sound hγ aR).mul
    (lip_shock (lip_pvrs hL hR hγ aL aR n) (hR.pressure aR.ρ_pos.ne') hγ aR.p_pos))

theorem lip_contact (hL : LipVec UL x) (hR : LipVec UR x) (hγ : 1 < γ) (aL : Admissible dim γ (UL x))
    (aR : Admissible dim γ (UR x)) (n : ℕ → ℝ) : LipAt (fun z => contactSpeed dim γ (UL z) (UR z) n) x := by
  have uL := hL.un (dim := dim) aL.ρ_pos.ne' n
  have uR := hR.un (dim := dim) aR.ρ_pos.ne' n
  have dL := (lip_waveL hL hR hγ aL aR n).sub uL
  have dR := (lip_waveR hL hR hγ aL aR n).sub uR
  unfold contactSpeed
  exact LipAt.div (((((hR.pressure aR.ρ_pos.ne').sub (hL.pressure aL.ρ_pos.ne')).add
    (((hL 0).mul uL).mul dL))).sub (((hR 0).mul uR).mul dR)) (((hL 0).mul dL).sub ((hR 0).mul dR))
    (contact_denom_neg hγ aL aR).ne

theorem lip_star {S Ss : X → ℝ} (hU : LipVec U x) (hS : LipAt S x) (hSs : LipAt Ss x) (h0 : U x 0 ≠ 0)
    (n : ℕ → ℝ) (h1 : S x - Ss x ≠ 0) (h2 : S x - inner' dim (vel (U x)) n ≠ 0) :
    LipVec (fun z => starState dim γ (U z) n (S z) (Ss z)) x := by
  intro s
  have hu := hU.un (dim := dim) h0 n
  have hc := (hS.sub hu).div (hS.sub hSs) h1
  unfold starState
  by_cases hs : s = 0
  · simp only [hs, if_true]; exact (hU 0).mul hc
  · by_cases h3 : s < dim + 1
    · simp only [hs, h3, if_false, if_true]
      exact ((hU 0).mul hc).mul ((hU.vel h0 _).add ((hSs.sub hu).mul (lipAt_const _ _)))
    · simp only [hs, h3, if_false]
      exact hc.mul ((hU _).add (((hU 0).mul (hSs.sub hu)).mul (hSs.add ((hU.pressure h0).div
        ((hU 0).mul (hS.sub hu)) (mul_ne_zero h0 h2)))))

/-- the HLLC flux as a sum over its waves -/
theorem hllc_waves {UL UR n : ℕ → ℝ} (hγ : 1 < γ) (aL : Admissible dim γ UL) (aR : Admissible dim γ UR)
    (h1 : waveSpeedL dim γ UL UR n < contactSpeed dim γ UL UR n)
    (h2 : contactSpeed dim γ UL UR n < waveSpeedR dim γ UL UR n) (s : ℕ) (hs : s < dim + 2) :
    hllcFlux dim γ UL UR n s = eulerFlux dim γ UL n s +
      min (waveSpeedL dim γ UL UR n) 0 *
        (starState dim γ UL n (waveSpeedL dim γ UL UR n) (contactSpeed dim γ UL UR n) s - UL s) +
      min (contactSpeed dim γ UL UR n) 0 *
        (starState dim γ UR n (waveSpeedR dim γ UL UR n) (contactSpeed dim γ UL UR n) s -
          starState dim γ UL n (waveSpeedL dim γ UL UR n) (contactSpeed dim γ UL UR n) s) +
      min (waveSpeedR dim γ UL UR n) 0 *
        (UR s - starState dim γ UR n (waveSpeedR dim γ UL UR n) (contactSpeed dim γ UL UR n) s) := by
  have g1 := waveSpeedL_lt (UR := UR) (n := n) hγ aL
  have g2 := waveSpeedR_gt (UL := UL) (n := n) hγ aR
  have hcp := contact_pressure (n := n) hγ aL aR
  unfold hllcFlux
  simp only
  set sL := waveSpeedL dim γ UL UR n
  set sR := waveSpeedR dim γ UL UR n
  set sS := contactSpeed dim γ UL UR n
  have fL := star_flux dim γ sL sS UL n s aL.ρ_pos.ne' (by linarith : sL - sS < 0).ne
      (by linarith : sL - inner' dim (vel UL) n < 0).ne
  have fR := star_flux dim γ sR sS UR n s aR.ρ_pos.ne' (by linarith : 0 < sR - sS).ne'
      (by linarith : 0 < sR - inner' dim (vel UR) n).ne'
  have eL : ∀ V : ℕ → ℝ, (if s < dim + 1 then V s else V (dim + 1)) = V s := by
    intro V
    split_ifs with h'
    · rfl
    · rw [show s = dim + 1 by omega]
  rw [eL] at fL fR
  -- the jump over the contact
  have key : eulerFlux dim γ UL n s + sL * (starState dim γ UL n sL sS s - UL s) +
      sS * (starState dim γ UR n sR sS s - starState dim γ UL n sL sS s) =
      eulerFlux dim γ UR n s + sR * (starState dim γ UR n sR sS s - UR s) := by
    rw [fL, fR, hcp]
    split_ifs <;> ring
  by_cases c1 : 0 ≤ sL
  · rw [if_pos c1, min_eq_right c1, min_eq_right (by linarith), min_eq_right (by linarith)]; ring
  rw [if_neg c1]
  push Not at c1
  by_cases c2 : sR ≤ 0
  · rw [if_pos c2, min_eq_left c1.le, min_eq_left (by linarith), min_eq_left c2, key]; ring
  rw [if_neg c2]
  push Not at c2
  by_cases c3 : 0 ≤ sS
  · rw [if_pos c3, min_eq_left c1.le, min_eq_right c3, min_eq_right c2.le]; ring
  · rw [if_neg c3, min_eq_left c1.le, min_eq_left (by linarith), min_eq_right c2.le, key]; ring

theorem LipVec.eventually_adm (hU : LipVec U x) (h : Admissible dim γ (U x)) :
    ∀ᶠ z in 𝓝 x, Admissible dim γ (U z) := by
  filter_upwards [(hU 0).continuousAt.eventually (lt_mem_nhds h.ρ_pos),
    (hU.pressure h.ρ_pos.ne').continuousAt.eventually (lt_mem_nhds h.p_pos)] with z h1 h2
  exact ⟨h1, h2⟩

theorem lip_ordered (hL : LipVec UL x) (hR : LipVec UR x) (hγ : 1 < γ) (aL : Admissible dim γ (UL x))
    (aR : Admissible dim γ (UR x)) (n : ℕ → ℝ)
    (h1 : waveSpeedL dim γ (UL x) (UR x) n < contactSpeed dim γ (UL x) (UR x) n)
    (h2 : contactSpeed dim γ (UL x) (UR x) n < waveSpeedR dim γ (UL x) (UR x) n) :
    ∀ᶠ z in 𝓝 x, waveSpeedL dim γ (UL z) (UR z) n < contactSpeed dim γ (UL z) (UR z) n ∧
      contactSpeed dim γ (UL z) (UR z) n < waveSpeedR dim γ (UL z) (UR z) n := by
  have cL := (lip_waveL hL hR hγ aL aR n).continuousAt
  have cS := (lip_contact hL hR hγ aL aR n).continuousAt
  have cR := (lip_waveR hL hR hγ aL aR n).continuousAt
  exact (cL.eventually_lt cS h1).and (cS.eventually_lt cR h2)

theorem lip_hllc (hL : LipVec UL x) (hR : LipVec UR x) (hγ : 1 < γ) (aL : Admissible dim γ (UL x))
    (aR : Admissible dim γ (UR x)) (n : ℕ → ℝ)
    (h1 : waveSpeedL dim γ (UL x) (UR x) n < contactSpeed dim γ (UL x) (UR x) n)
    (h2 : contactSpeed dim γ (UL x) (UR x) n < waveSpeedR dim γ (UL x) (UR x) n) (s : ℕ) (hs : s < dim + 2) :
    LipAt (fun z => hllcFlux dim γ (UL z) (UR z) n s) x := by
  have g1 := waveSpeedL_lt (UR := UR x) (n := n) hγ aL
  have g2 := waveSpeedR_gt (UL := UL x) (n := n) hγ aR
  have wL := lip_waveL hL hR hγ aL aR n
  have wR := lip_waveR hL hR hγ aL aR n
  have wS := lip_contact hL hR hγ aL aR n
  have tL := lip_star (dim := dim) (γ := γ) hL wL wS aL.ρ_pos.ne' n (sub_neg.2 h1).ne (sub_neg.2 g1).ne s
  have tR := lip_star (dim := dim) (γ := γ) hR wR wS aR.ρ_pos.ne' n (sub_pos.2 h2).ne' (sub_pos.2 g2).ne' s
  have z0 := lipAt_const (X := X) (0 : ℝ) x
  refine LipAt.congr ((((hL.eulerFlux (dim := dim) (γ := γ) aL.ρ_pos.ne' n s).add
      ((wL.min z0).mul (tL.sub (hL s)))).add ((wS.min z0).mul (tR.sub tL))).add ((wR.min z0).mul ((hR s).sub tR))) ?_
  filter_upwards [hL.eventually_adm aL, hR.eventually_adm aR, lip_ordered hL hR hγ aL aR n h1 h2] with z b1 b2 b3
  exact hllc_waves hγ b1 b2 b3.1 b3.2 s hs

end
end DG
