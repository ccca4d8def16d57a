import Verif.Lemmas.RoundRun
import Verif.Lemmas.RoundFlux

/-!
A time step in rounded arithmetic follows the exact step.
-/
open Set Filter Topology Asymptotics
namespace DG

section generic
variable {K : Type} {α : Type} [Zero K] [One K] [Add K] [Sub K] [Mul K] [Neg K] [Div K] [NatCast K] [DecidableEq K]

/-- the state between two time steps -/
def BetweenSteps (st : Stepper) (S : RankState K) : Prop := S.stage = 0 ∧ (st = .RK4 → S.Uhold = S.Uc)

theorem startP_between (st : Stepper) (U0 : Coeffs K) : BetweenSteps st (startP st U0) := by
  cases st
  · exact ⟨rfl, fun h => by cases h⟩
  · exact ⟨rfl, fun _ => rfl⟩

theorem startP_Uc (st : Stepper) (U0 : Coeffs K) : (startP st U0).Uc = U0 := by cases st <;> rfl

/-- the increment of a stage -/
noncomputable def incP (d : Disc K) (m : GMesh α) (part : List ℕ) (G : ℕ → Geom K) (dt : K) (V old : Coeffs K) :
    Coeffs K :=
  multInvMassAll d m.numElems dt (fun e => (G (rankOf part e)).iMM e)
    (fun e => resRef d m (G (rankOf part e)) V e) old

theorem next_FE (d : Disc K) (m : GMesh α) (part : List ℕ) (G : ℕ → Geom K) (dt : K) (S : RankState K) :
    (nextP d m part G dt .FE S).Uc = axpy3 d m.numElems 1 (incP d m part G dt S.Uc fun _ _ _ => 0) S.Uc S.Uc ∧
    BetweenSteps .FE (nextP d m part G dt .FE S) :=
  ⟨rfl, rfl, fun h => by cases h⟩

theorem next_RK4 (d : Disc K) (m : GMesh α) (part : List ℕ) (G : ℕ → Geom K) (dt : K) (S : RankState K)
    (hS : BetweenSteps .RK4 S) :
    ∃ U1 U2 U3 k1 k2 k3 k4 : Coeffs K, k1 = incP d m part G dt S.Uc S.dU1 ∧
      U1 = axpy3 d m.numElems (1 / 2) k1 S.Uc S.Uc ∧ k2 = incP d m part G dt U1 S.dU2 ∧
      U2 = axpy3 d m.numElems (1 / 2) k2 S.Uc U1 ∧ k3 = incP d m part G dt U2 S.dU3 ∧
      U3 = axpy3 d m.numElems 1 k3 S.Uc U2 ∧ k4 = incP d m part G dt U3 S.dU4 ∧
      (∃ a b c, a = axpy3 d m.numElems 2 k3 k4 k4 ∧ b = axpy3 d m.numElems 2 k2 a a ∧
        c = axpy3 d m.numElems 1 k1 b b ∧
        ((nextP d m part G dt .RK4)^[4] S).Uc = axpy3 d m.numElems (1 / 6) c S.Uc S.Uc) ∧
      BetweenSteps .RK4 ((nextP d m part G dt .RK4)^[4] S) := by
  obtain ⟨Uc, time, Uhold, dU1, dU2, dU3, dU4, res, Fe, stage, evals⟩ := S
  obtain ⟨h1, h2⟩ := hS
  have h3 := h2 rfl
  clear h2
  simp only at h1 h3
  subst h1 h3
  exact ⟨_, _, _, _, _, _, _, rfl, rfl, rfl, rfl, rfl, rfl, rfl, ⟨_, _, _, rfl, rfl, rfl, rfl⟩, rfl, fun _ => rfl⟩

end generic

section
variable {α : Type} {ι : Type*} {l : Filter ι} {A : ι → Arith} {d : Disc ℝ} {m : GMesh α} {G : Geom ℝ}

theorem TrCoeffs.to {ne : ℕ} {U : ∀ i, Coeffs (A i).K} {X X' : ι → Coeffs ℝ} {X0 X0' : Coeffs ℝ}
    (h : TrCoeffs l A d ne U X X0) (h1 : ∀ i, ∀ e < ne, ∀ b < d.nb, ∀ s < d.ns, X i e b s = X' i e b s)
    (h2 : ∀ e < ne, ∀ b < d.nb, ∀ s < d.ns, X0 e b s = X0' e b s) : TrCoeffs l A d ne U X' X0' :=
  fun e he b hb s hs => (h e he b hb s hs).to (fun i => h1 i e he b hb s hs) (h2 e he b hb s hs)

theorem axpy3_tr (hA : Fine l A) {ne : ℕ} {T : ∀ i, Tables (A i).K} {U V W : ∀ i, Coeffs (A i).K} {X Y : ι → Coeffs ℝ}
    {X0 Y0 : Coeffs ℝ} {c : ∀ i, (A i).K} {c0 : ℝ} (hc : Tr l A c (fun _ => c0) c0)
    (hU : TrCoeffs l A d ne U X X0) (hV : TrCoeffs l A d ne V Y Y0) :
    TrCoeffs l A d ne (fun i => axpy3 (withTables d (T i)) ne (c i) (U i) (V i) (W i))
      (fun i e b s => c0 * X i e b s + Y i e b s) (fun e b s => c0 * X0 e b s + Y0 e b s) := by
  intro e he b hb s hs
  have k : ∀ i, e < ne ∧ b < (withTables d (T i)).nb ∧ s < (withTables d (T i)).ns := fun i => ⟨he, hb, hs⟩
  unfold axpy3
  simp only [k, he, and_self, if_true]
  exact (hc.mul hA (hU e he b hb s hs)).add hA (hV e he b hb s hs)

variable {norient : ℕ}

/-- what is needed of the machine data, along a sequence of machines -/
structure MachineTr (l : Filter ι) (A : ι → Arith) (d : Disc ℝ) (m : GMesh α) (G : Geom ℝ) (T : ∀ i, Tables (A i).K)
    (part : ι → List ℕ) (g : ∀ i, ℕ → Geom (A i).K) (good : (ℕ → ℝ) → Prop)
    (good2 : (ℕ → ℝ) → (ℕ → ℝ) → (ℕ → ℝ) → Prop) : Prop where
  fine : Fine l A
  tables : TablesTr l A d T
  geom : ∀ e < m.numElems, GeomTr l A d m G (fun i => g i (rankOf (part i) e))
  flux : FluxTr l A d T good good2

/-- the limit states are good -/
def GoodAt (d : Disc ℝ) (m : GMesh α) (G : Geom ℝ) (good : (ℕ → ℝ) → Prop)
    (good2 : (ℕ → ℝ) → (ℕ → ℝ) → (ℕ → ℝ) → Prop) (X0 : Coeffs ℝ) : Prop :=
  (∀ e < m.numElems, ∀ q < d.nq, good (volState d X0 e q)) ∧
    ∀ x ∈ m.faces.zipIdx, ∀ i < d.nqf, good2 (traceState d X0 x.1.elemL x.1.faceL (d.ptsOrder x.1.orientL i))
      (traceState d X0 x.1.elemR x.1.faceR (d.ptsOrder x.1.orientR i)) (cArr d.dim (G.normals x.2 i))

variable {T : ∀ i, Tables (A i).K} {part : ι → List ℕ} {g : ∀ i, ℕ → Geom (A i).K} {good : (ℕ → ℝ) → Prop}
  {good2 : (ℕ → ℝ) → (ℕ → ℝ) → (ℕ → ℝ) → Prop}

theorem incP_tr (hM : MachineTr l A d m G T part g good good2) (hm : MeshOK m) (hc : Conforming d norient m)
    (ho : OrderOK d norient) {dt : ∀ i, (A i).K} {h : ι → ℝ} (hdt : Tr l A dt h 0)
    {U old : ∀ i, Coeffs (A i).K} {X : ι → Coeffs ℝ} {X0 : Coeffs ℝ} (hU : TrCoeffs l A d m.numElems U X X0)
    (hX : GoodAt d m G good good2 X0) :
    TrCoeffs l A d m.numElems (fun i => incP (withTables d (T i)) m (part i) (g i) (dt i) (U i) (old i))
      (fun i e b s => h i * globalRHS d m G (X i) e b s) (fun _ _ _ => 0) := by
  intro e he b hb s hs
  have k : ∀ i, b < (withTables d (T i)).nb ∧ s < (withTables d (T i)).ns := fun i => ⟨hb, hs⟩
  unfold incP multInvMassAll multInvMass cAxB_to_C gemm
  simp only [k, he, and_self, if_true]
  have h1 := Tr.zero.add hM.fine (Tr.loop hM.fine (n := d.nb)
    (F := fun i p => dt i * (g i (rankOf (part i) e)).iMM e b p *
      resRef (withTables d (T i)) m (g i (rankOf (part i) e)) (U i) e p s)
    (X := fun p i => h i * G.iMM e b p * globalResidual d m G (X i) e p s)
    (X0 := fun p => 0 * G.iMM e b p * globalResidual d m G X0 e p s)
    fun p hp => (hdt.mul hM.fine ((hM.geom e he).iMM e he b hb p hp)).mul hM.fine
      (resRef_tr hM.fine hm hc ho hM.tables (hM.geom e he) hM.flux hU hX.1 hX.2 e he p hp s hs))
  refine h1.to (fun i => ?_) (by simp)
  simp only [globalRHS, zero_add, Finset.mul_sum, mul_assoc]

/-- a time step in rounded arithmetic follows the exact step -/
theorem step_tr (hM : MachineTr l A d m G T part g good good2) (hm : MeshOK m) (hc : Conforming d norient m)
    (ho : OrderOK d norient) {dt : ∀ i, (A i).K} {h : ι → ℝ} (hdt : Tr l A dt h 0) (st : Stepper)
    {S : ∀ i, RankState (A i).K} (hS : ∀ i, BetweenSteps st (S i)) {X : ι → Coeffs ℝ} {X0 : Coeffs ℝ}
    (hU : TrCoeffs l A d m.numElems (fun i => (S i).Uc) X X0) (hX : GoodAt d m G good good2 X0) :
    TrCoeffs l A d m.numElems
      (fun i => ((nextP (withTables d (T i)) m (part i) (g i) (dt i) st)^[stagesOf st] (S i)).Uc)
      (fun i => stepOf st (h i) (globalRHS d m G) (X i)) X0 := by
  cases st with
  | FE =>
    have e1 : ∀ i, ((nextP (withTables d (T i)) m (part i) (g i) (dt i) .FE)^[stagesOf .FE] (S i)).Uc =
        axpy3 (withTables d (T i)) m.numElems 1 (incP (withTables d (T i)) m (part i) (g i) (dt i) (S i).Uc
          fun _ _ _ => 0) (S i).Uc (S i).Uc := fun i => (next_FE _ _ _ _ _ _).1
    simp only [e1]
    refine (axpy3_tr hM.fine Tr.one (incP_tr hM hm hc ho hdt hU hX) hU).to ?_ ?_
    · intro i e he b hb s hs
      simp only [stepOf, eulerStep]; ring
    · intro e he b hb s hs
      ring
  | RK4 =>
    choose U1 U2 U3 k1 k2 k3 k4 hk1 hU1 hk2 hU2 hk3 hU3 hk4 hfin hbet using fun i =>
      next_RK4 (withTables d (T i)) m (part i) (g i) (dt i) (S i) (hS i)
    choose a b c ha hb' hc' hres using hfin
    set F := globalRHS d m G with hF
    have half : Tr l A (fun _ => 1 / 2) (fun _ => 1 / 2) (1 / 2) := Tr.half hM.fine
    have two : Tr l A (fun _ => 2) (fun _ => 2) 2 := Tr.ofNat hM.fine 2
    have t1 : TrCoeffs l A d m.numElems k1 (fun i e b s => h i * F (X i) e b s) (fun _ _ _ => 0) := by
      rw [show k1 = _ from funext hk1]; exact incP_tr hM hm hc ho hdt hU hX
    have u1 : TrCoeffs l A d m.numElems U1 (fun i e b s => X i e b s + h i / 2 * F (X i) e b s) X0 := by
      rw [show U1 = _ from funext hU1]
      exact (axpy3_tr hM.fine half t1 hU).to (fun i e he b hb s hs => by ring) (fun e he b hb s hs => by ring)
    have t2 := incP_tr hM hm hc ho hdt (old := fun i => (S i).dU2) u1 hX
    rw [show (fun i => incP (withTables d (T i)) m (part i) (g i) (dt i) (U1 i) (S i).dU2) = k2 from
      (funext hk2).symm] at t2
    set Y1 : ι → Coeffs ℝ := fun i e b s => X i e b s + h i / 2 * F (X i) e b s with hY1
    have u2 : TrCoeffs l A d m.numElems U2 (fun i e b s => X i e b s + h i / 2 * F (Y1 i) e b s) X0 := by
      rw [show U2 = _ from funext hU2]
      exact (axpy3_tr hM.fine half t2 hU).to (fun i e he b hb s hs => by ring) (fun e he b hb s hs => by ring)
    have t3 := incP_tr hM hm hc ho hdt (old := fun i => (S i).dU3) u2 hX
    rw [show (fun i => incP (withTables d (T i)) m (part i) (g i) (dt i) (U2 i) (S i).dU3) = k3 from
      (funext hk3).symm] at t3
    set Y2 : ι → Coeffs ℝ := fun i e b s => X i e b s + h i / 2 * F (Y1 i) e b s with hY2
    have u3 : TrCoeffs l A d m.numElems U3 (fun i e b s => X i e b s + h i * F (Y2 i) e b s) X0 := by
      rw [show U3 = _ from funext hU3]
      exact (axpy3_tr hM.fine Tr.one t3 hU).to (fun i e he b hb s hs => by ring) (fun e he b hb s hs => by ring)
    have t4 := incP_tr hM hm hc ho hdt (old := fun i => (S i).dU4) u3 hX
    rw [show (fun i => incP (withTables d (T i)) m (part i) (g i) (dt i) (U3 i) (S i).dU4) = k4 from
      (funext hk4).symm] at t4
    set Y3 : ι → Coeffs ℝ := fun i e b s => X i e b s + h i * F (Y2 i) e b s with hY3
    have v1 := axpy3_tr hM.fine (T := T) (W := k4) two t3 t4
    rw [show (fun i => axpy3 (withTables d (T i)) m.numElems 2 (k3 i) (k4 i) (k4 i)) = a from
      (funext ha).symm] at v1
    have v2 := axpy3_tr hM.fine (T := T) (W := a) two t2 v1
    rw [show (fun i => axpy3 (withTables d (T i)) m.numElems 2 (k2 i) (a i) (a i)) = b from
      (funext hb').symm] at v2
    have v3 := axpy3_tr hM.fine (T := T) (W := b) Tr.one t1 v2
    rw [show (fun i => axpy3 (withTables d (T i)) m.numElems 1 (k1 i) (b i) (b i)) = c from
      (funext hc').symm] at v3
    have six : Tr l A (fun _ => 1 / 6) (fun _ => 1 / 6) (1 / 6) :=
      Tr.one.div hM.fine (Tr.ofNat hM.fine 6) (by norm_num)
    have v4 := axpy3_tr hM.fine (T := T) (W := fun i => (S i).Uc) six v3 hU
    simp only [stagesOf, hres]
    refine v4.to ?_ ?_
    · intro i e he b hb s hs
      simp only [stepOf, rk4Step, ← hF, hY1, hY2, hY3]; ring
    · intro e he b hb s hs
      ring

theorem between_step {K : Type} [Zero K] [One K] [Add K] [Sub K] [Mul K] [Neg K] [Div K] [NatCast K] [DecidableEq K]
    (D : Disc K) (part : List ℕ) (g : ℕ → Geom K) (dt : K) (st : Stepper) (S : RankState K)
    (hS : BetweenSteps st S) : BetweenSteps st ((nextP D m part g dt st)^[stagesOf st] S) := by
  cases st with
  | FE => exact (next_FE D m part g dt S).2
  | RK4 =>
    obtain ⟨_, _, _, _, _, _, _, _, _, _, _, _, _, _, _, h⟩ := next_RK4 D m part g dt S hS
    exact h

end
end DG
