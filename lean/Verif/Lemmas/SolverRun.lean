import Verif.Lemmas.SolverWorld
import Verif.Lemmas.Stepper

/-! The whole run: all ranks, all residual evaluations. -/
namespace DG
open Finset

variable {K : Type} {α : Type}

theorem mapM_length {ι β : Type} (f : ι → Option β) : ∀ (l : List ι) (l' : List β),
    l.mapM f = some l' → l'.length = l.length := by
  intro l
  induction l with
  | nil => intro l' h; simp at h; subst h; rfl
  | cons a l ih =>
    intro l' h
    rw [List.mapM_cons] at h
    obtain ⟨b, _, h⟩ := Option.bind_eq_some_iff.mp h
    obtain ⟨l'', h1, h⟩ := Option.bind_eq_some_iff.mp h
    cases h
    simp [ih l'' h1]

/-- global element of a local number -/
def gElem (rm : RankMesh α) (k : ℕ) : ℕ := (rm.l2gElem[k]?).getD 0

theorem restrict_iff_via {d : Disc K} {rm : RankMesh α} (hn : rm.numElemsPart = rm.l2gElem.length)
    (u U : Coeffs K) : CoeffsRestrict d rm u U ↔ Via d rm.numElemsPart (gElem rm) u U := by
  constructor
  · intro h k hk b hb s hs
    have hk' : k < rm.l2gElem.length := by omega
    have := List.getElem?_eq_getElem hk'
    rw [h k _ this b hb s hs, gElem, this]; rfl
  · intro h k e hk b hb s hs
    have hk' := (List.getElem?_eq_some_iff.1 hk).1
    rw [h k (by omega) b hb s hs, gElem, hk]; rfl

section ops
variable [Zero K] [One K] [Add K] [Sub K] [Mul K] [Neg K] [Div K] [NatCast K]

variable [DecidableEq K]

theorem constructFaceStates_len {d : Disc K} {ne rank : ℕ} {rows : List FaceRow}
    {Uq : ℕ → ℕ → ℕ → K} {U U' : FaceArr (ℕ → ℕ → K)}
    (h : constructFaceStates d ne rank rows Uq U = some U') :
    U'.L.length = U.L.length ∧ U'.R.length = U.R.length := by
  unfold constructFaceStates at h
  obtain ⟨L, h1, h⟩ := Option.bind_eq_some_iff.mp h
  obtain ⟨R, h2, h⟩ := Option.bind_eq_some_iff.mp h
  cases h
  refine ⟨?_, ?_⟩
  · simpa using mapM_length _ _ _ h1
  · simpa using mapM_length _ _ _ h2

theorem solverComp_keeps (d : Disc K) (g : ℕ → Geom K) (rms : ℕ → RankMesh α) (dt : K)
    (st : Stepper) (sched : ℕ → ℕ → List (FluxWrite K) → List (FluxWrite K)) :
    KeepsSizes (solverComp d g rms dt st sched) := by
  intro r U o
  unfold solverComp
  cases o with
  | none => exact ⟨rfl, rfl⟩
  | some s =>
    simp only
    cases h : solverRound d (g r) (rms r) r dt st (sched r) U s with
    | none => exact ⟨rfl, rfl⟩
    | some x =>
      simp only
      unfold solverRound at h
      obtain ⟨rF, _, h⟩ := Option.bind_eq_some_iff.mp h
      obtain ⟨U', h1, h⟩ := Option.bind_eq_some_iff.mp h
      cases h
      exact constructFaceStates_len h1

theorem solverStart_sized (d : Disc K) (rms : ℕ → RankMesh α) (st : Stepper)
    (Uc0 : ℕ → ℕ → ℕ → ℕ → K) (r : ℕ) : Sized (rms r) (solverStart d rms st Uc0 r).1 := by
  unfold solverStart
  simp only
  split
  · rename_i U h
    have := constructFaceStates_len h
    exact ⟨by simpa using this.1, by simpa using this.2⟩
  · exact ⟨by simp, by simp⟩

end ops

variable [Field K] [DecidableEq K]

/-- the coefficients of the serial scheme at which residual evaluation number `t` takes place -/
def serialAt (st : Stepper) (dt : K) (f : Coeffs K → Coeffs K) (U0 : Coeffs K) (t : ℕ) : Coeffs K :=
  rkStage dt f ((stepOf st dt f)^[t / stagesOf st] U0) (t % stagesOf st)

/-- what holds on rank `r` before exchange number `t` -/
structure RunInv (d : Disc K) (m : GMesh α) (part : List ℕ) (G : Geom K) (rm : RankMesh α) (r : ℕ)
    (st : Stepper) (dt : K) (U0 : Coeffs K) (t : ℕ)
    (x : FaceArr (ℕ → ℕ → K) × Option (RankState K)) (s : RankState K) : Prop where
  state : x.2 = some s
  own : OwnTraces d m part r rm x.1 (serialAt st dt (globalRHS d m G) U0 t)
  clean : CleanSlots d r rm.rows s.Fe
  evals : s.evals = t
  rel : StageRel d rm.numElemsPart (gElem rm) st dt (globalRHS d m G)
    ((stepOf st dt (globalRHS d m G))^[t / stagesOf st] U0) (((t / stagesOf st : ℕ) : K) * dt)
    (t % stagesOf st) s

section world
variable {m : GMesh α} {nranks : ℕ} {part : List ℕ} {rms : ℕ → RankMesh α}

theorem World.runStart (w : World m nranks part rms) {d : Disc K} {norient : ℕ}
    (hc : Conforming d norient m) (ho : OrderOK d norient) {G : Geom K} {st : Stepper} {dt : K}
    {Uc0 : ℕ → ℕ → ℕ → ℕ → K} {U0 : Coeffs K}
    (hu : ∀ r < nranks, CoeffsRestrict d (rms r) (Uc0 r) U0) {r : ℕ} (hr : r < nranks) :
    ∃ s, RunInv d m part G (rms r) r st dt U0 0 (solverStart d rms st Uc0 r) s := by
  have hb : (beginStep st (⟨Uc0 r, 0, fun _ _ _ => 0, fun _ _ _ => 0, fun _ _ _ => 0,
      fun _ _ _ => 0, fun _ _ _ => 0, fun _ _ _ => 0, fun _ _ _ => 0, 0, 0⟩ : RankState K)).Uc
      = Uc0 r := by cases st <;> rfl
  obtain ⟨A', h1, h2, h3⟩ := w.ownTraces hc ho hr (hu r hr) (fun _ _ _ => 0)
    ⟨List.replicate (rms r).numIFacesPart (fun _ _ => 0),
      List.replicate (rms r).numIFacesPart (fun _ _ => 0)⟩ ⟨by simp, by simp⟩
  have hs : solverStart d rms st Uc0 r = (A', some (beginStep st (⟨Uc0 r, 0, fun _ _ _ => 0,
      fun _ _ _ => 0, fun _ _ _ => 0, fun _ _ _ => 0, fun _ _ _ => 0, fun _ _ _ => 0,
      fun _ _ _ => 0, 0, 0⟩ : RankState K))) := by
    unfold solverStart
    simp only [hb, h1]
  have hv := (restrict_iff_via (d := d) (w.numElems hr) (Uc0 r) U0).1 (hu r hr)
  have hS : 0 < stagesOf st := by cases st <;> simp [stagesOf]
  refine ⟨_, by rw [hs], ?_, ?_, ?_, ?_⟩
  · rw [hs]
    simpa [serialAt, rkStage] using h3
  · intro e j σ _ _ _
    cases st <;> rfl
  · cases st <;> rfl
  · simp only [Nat.zero_div, Nat.zero_mod]
    refine ⟨hS, ?_, ?_, ?_, ?_, by omega, by omega, by omega⟩
    · cases st <;> rfl
    · cases st <;> simp [beginStep, rkNode]
    · rw [hb]; exact hv
    · rintro rfl; exact hv

theorem World.runStep [CharZero K] (w : World m nranks part rms) {d : Disc K} {norient : ℕ}
    (hc : Conforming d norient m) (ho : OrderOK d norient) {G : Geom K} {g : ℕ → Geom K}
    (hg : ∀ r < nranks, GeomRestrict d (rms r) (g r) G) {st : Stepper} {dt : K}
    {sched : ℕ → ℕ → List (FluxWrite K) → List (FluxWrite K)}
    (hsched : ∀ r k l, (sched r k l).Perm l) {U0 : Coeffs K} {t : ℕ}
    {x : ℕ → FaceArr (ℕ → ℕ → K) × Option (RankState K)}
    (hx : ∀ r < nranks, Sized (rms r) (x r).1)
    (hI : ∀ r < nranks, ∃ s, RunInv d m part G (rms r) r st dt U0 t (x r) s)
    {r : ℕ} (hr : r < nranks) :
    ∃ s, RunInv d m part G (rms r) r st dt U0 (t + 1)
      (syncStep rms (solverComp d g rms dt st sched) x r) s := by
  have hn := w.numElems hr
  obtain ⟨A', a1, a2, a3⟩ := w.bothTraces hx (fun r hr => (hI r hr).choose_spec.own) hr
  obtain ⟨s, hs⟩ := hI r hr
  have hu : CoeffsRestrict d (rms r) s.Uc (serialAt st dt (globalRHS d m G) U0 t) :=
    (restrict_iff_via hn _ _).2 hs.rel.Uc
  obtain ⟨res, Fe, r1, r2, r3⟩ := w.residual hc ho hr hu (hg r hr) a2 a3 (sched r s.evals)
    (hsched r s.evals) (fun _ _ _ => 0) s.Fe s.res hs.clean
  set s1 : RankState K := { s with res := res, Fe := Fe } with hs1
  have hrel1 : StageRel d (rms r).numElemsPart (gElem (rms r)) st dt (globalRHS d m G)
      ((stepOf st dt (globalRHS d m G))^[t / stagesOf st] U0) (((t / stagesOf st : ℕ) : K) * dt)
      (t % stagesOf st) s1 :=
    ⟨hs.rel.lt, hs.rel.stage, hs.rel.time, hs.rel.Uc, hs.rel.hold, hs.rel.dU1, hs.rel.dU2,
      hs.rel.dU3⟩
  have hM : ∀ k < (rms r).numElemsPart, ∀ i < d.nb, ∀ j < d.nb,
      (g r).iMM k i j = G.iMM (gElem (rms r) k) i j := by
    intro k hk i hi j hj
    have hk' : k < (rms r).l2gElem.length := by omega
    have he := List.getElem?_eq_getElem hk'
    rw [(hg r hr).iMM k _ he i hi j hj, gElem, he]; rfl
  have hupd := afterResidual_spec (R := globalResidual d m G) hM hrel1
    ((restrict_iff_via hn _ _).1 r3)
  set s2 := afterResidual d (rms r).numElemsPart dt (g r).iMM st s1 with hs2
  have hS : 0 < stagesOf st := by cases st <;> simp [stagesOf]
  -- the new stage
  have hrel2 : StageRel d (rms r).numElemsPart (gElem (rms r)) st dt (globalRHS d m G)
      ((stepOf st dt (globalRHS d m G))^[(t + 1) / stagesOf st] U0)
      ((((t + 1) / stagesOf st : ℕ) : K) * dt) ((t + 1) % stagesOf st) s2 := by
    by_cases hlt : t % stagesOf st + 1 < stagesOf st
    · have e1 : (t + 1) / stagesOf st = t / stagesOf st := by
        revert hlt; cases st <;> simp only [stagesOf] <;> omega
      have e2 : (t + 1) % stagesOf st = t % stagesOf st + 1 := by
        revert hlt; cases st <;> simp only [stagesOf] <;> omega
      rw [e1, e2]
      exact hupd.1 hlt
    · have hlt' : t % stagesOf st + 1 = stagesOf st := by
        have := Nat.mod_lt t hS; omega
      have e1 : (t + 1) / stagesOf st = t / stagesOf st + 1 := by
        revert hlt; cases st <;> simp only [stagesOf] <;> omega
      have e2 : (t + 1) % stagesOf st = 0 := by
        revert hlt; cases st <;> simp only [stagesOf] <;> omega
      rw [e1, e2, Function.iterate_succ_apply']
      have := hupd.2 hlt'
      have e3 : (((t / stagesOf st + 1 : ℕ) : K)) * dt = ((t / stagesOf st : ℕ) : K) * dt + dt := by
        push_cast; ring
      rw [e3]
      exact this
  have hfe : s2.Fe = Fe ∧ s2.evals = s.evals := by
    rw [hs2]
    cases st
    · exact ⟨rfl, rfl⟩
    · unfold afterResidual
      simp only
      split <;> exact ⟨rfl, rfl⟩
  have hu2 : CoeffsRestrict d (rms r) s2.Uc (serialAt st dt (globalRHS d m G) U0 (t + 1)) :=
    (restrict_iff_via hn _ _).2 hrel2.Uc
  obtain ⟨A2, b1, b2, b3⟩ := w.ownTraces hc ho hr hu2 (fun _ _ _ => 0) A' a2
  have hround : solverRound d (g r) (rms r) r dt st (sched r) A' s =
      some (A2, { s2 with evals := s2.evals + 1 }) := by
    unfold solverRound
    rw [r1]
    simp only [Option.bind_eq_bind, Option.bind_some]
    rw [← hs1, ← hs2, b1]
    rfl
  have hstep : syncStep rms (solverComp d g rms dt st sched) x r =
      (A2, some { s2 with evals := s2.evals + 1 }) := by
    unfold syncStep
    rw [a1]
    simp only
    unfold solverComp
    simp only [hs.state, hround]
  refine ⟨_, by rw [hstep], by rw [hstep]; exact b3, ?_, ?_, ?_⟩
  · simp only [hfe.1]; exact r2
  · simp only [hfe.2, hs.evals]
  · exact ⟨hrel2.lt, hrel2.stage, hrel2.time, hrel2.Uc, hrel2.hold, hrel2.dU1, hrel2.dU2, hrel2.dU3⟩

/-- the state of every rank before exchange number `t` of the lock-step run -/
theorem World.runInv [CharZero K] (w : World m nranks part rms) {d : Disc K} {norient : ℕ}
    (hc : Conforming d norient m) (ho : OrderOK d norient) {G : Geom K} {g : ℕ → Geom K}
    (hg : ∀ r < nranks, GeomRestrict d (rms r) (g r) G) {st : Stepper} {dt : K}
    {sched : ℕ → ℕ → List (FluxWrite K) → List (FluxWrite K)}
    (hsched : ∀ r k l, (sched r k l).Perm l) {Uc0 : ℕ → ℕ → ℕ → ℕ → K} {U0 : Coeffs K}
    (hu : ∀ r < nranks, CoeffsRestrict d (rms r) (Uc0 r) U0) (t : ℕ) {r : ℕ} (hr : r < nranks) :
    ∃ s, RunInv d m part G (rms r) r st dt U0 t
      (sync rms (solverComp d g rms dt st sched) (solverStart d rms st Uc0) t r) s := by
  induction t generalizing r with
  | zero => exact w.runStart hc ho hu hr
  | succ t ih =>
    exact w.runStep hc ho hg hsched
      (w.sync_sized (solverComp_keeps d g rms dt st sched)
        (fun r _ => solverStart_sized d rms st Uc0 r) t) (fun r hr => ih hr) hr

/-- the same for any interleaving -/
theorem World.run [CharZero K] (w : World m nranks part rms) {d : Disc K} {norient : ℕ}
    (hc : Conforming d norient m) (ho : OrderOK d norient) {G : Geom K} {g : ℕ → Geom K}
    (hg : ∀ r < nranks, GeomRestrict d (rms r) (g r) G) {st : Stepper} {dt : K}
    {sched : ℕ → ℕ → List (FluxWrite K) → List (FluxWrite K)}
    (hsched : ∀ r k l, (sched r k l).Perm l) {Uc0 : ℕ → ℕ → ℕ → ℕ → K} {U0 : Coeffs K}
    (hu : ∀ r < nranks, CoeffsRestrict d (rms r) (Uc0 r) U0) {nsteps n : ℕ}
    {c : Proto.Conf (FaceArr (ℕ → ℕ → K) × Option (RankState K)) (List (ℕ → ℕ → K))}
    (hx : Proto.Exec (solverProg d g rms nranks dt st sched nsteps)
      (Proto.init (solverStart d rms st Uc0)) c n) {r : ℕ} (hr : r < nranks) :
    ∃ s, RunInv d m part G (rms r) r st dt U0 (c.proc r).round (c.proc r).st s := by
  have hI := w.reach (solverComp_keeps d g rms dt st sched)
    (fun r _ => solverStart_sized d rms st Uc0 r) hx
  rw [(hI.ph r hr).1]
  exact w.runInv hc ho hg hsched hu _ hr

end world
end DG
