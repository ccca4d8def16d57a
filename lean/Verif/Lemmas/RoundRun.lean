import Verif.Lemmas.Bits

/-!
A parallel run in an arithmetic without laws, when the ranks have computed their geometric data
separately: the state of all ranks together.
-/
namespace DG
variable {K : Type} {α : Type} [Zero K] [One K] [Add K] [Sub K] [Mul K] [Neg K] [Div K] [NatCast K] [DecidableEq K]

/-- the rank that has the element -/
def rankOf (part : List ℕ) (e : ℕ) : ℕ := part.getD e 0

/-- one evaluation of the residual and the stage update, all elements together; `G r` is the geometry
according to rank `r` -/
noncomputable def nextP (d : Disc K) (m : GMesh α) (part : List ℕ) (G : ℕ → Geom K) (dt : K) (st : Stepper)
    (S : RankState K) : RankState K :=
  let S' := afterResidual d m.numElems dt (fun e => (G (rankOf part e)).iMM e) st
    { S with res := fun e => resRef d m (G (rankOf part e)) S.Uc e }
  { S' with evals := S'.evals + 1 }

/-- the state at the beginning -/
def startP (st : Stepper) (U0 : Coeffs K) : RankState K :=
  beginStep st ⟨U0, 0, fun _ _ _ => 0, fun _ _ _ => 0, fun _ _ _ => 0, fun _ _ _ => 0,
      fun _ _ _ => 0, fun _ _ _ => 0, fun _ _ _ => 0, 0, 0⟩

section world
variable {m : GMesh α} {nranks : ℕ} {part : List ℕ} {rms : ℕ → RankMesh α}

theorem World.rankOf_eq (w : World m nranks part rms) {r : ℕ} (hr : r < nranks) {k e : ℕ}
    (hk : (rms r).l2gElem[k]? = some e) : rankOf part e = r := by
  have hmem := List.mem_of_getElem? hk
  rw [(w.res hr).l2gElem] at hmem
  have := (mem_owned.1 hmem).2
  simp only [rankOf, List.getD, this, Option.getD_some]

theorem World.bitsStartP (w : World m nranks part rms) {d : Disc K} {norient : ℕ}
    (hc : Conforming d norient m) (ho : OrderOK d norient) {st : Stepper}
    {Uc0 : ℕ → ℕ → ℕ → ℕ → K} {U0 : Coeffs K}
    (hu : ∀ r < nranks, CoeffsRestrict d (rms r) (Uc0 r) U0) {r : ℕ} (hr : r < nranks) :
    ∃ s, BitsInv d m part (rms r) r (startP st U0) (solverStart d rms st Uc0 r) s :=
  w.bitsStart hc ho (G := ⟨fun _ _ => 0, fun _ _ _ _ => 0, fun _ _ _ => 0, fun _ _ _ => 0⟩) (dt := 0) hu hr

theorem World.bitsStepP (w : World m nranks part rms) {d : Disc K} {norient : ℕ}
    (hc : Conforming d norient m) (ho : OrderOK d norient) {G : ℕ → Geom K} {g : ℕ → Geom K}
    (hg : ∀ r < nranks, GeomRestrict d (rms r) (g r) (G r)) {st : Stepper} {dt : K}
    {sched : ℕ → ℕ → List (FluxWrite K) → List (FluxWrite K)}
    (hsched : ∀ r k l, (sched r k l).Perm l) {S : RankState K}
    {x : ℕ → FaceArr (ℕ → ℕ → K) × Option (RankState K)}
    (hx : ∀ r < nranks, Sized (rms r) (x r).1)
    (hI : ∀ r < nranks, ∃ s, BitsInv d m part (rms r) r S (x r) s)
    {r : ℕ} (hr : r < nranks) :
    ∃ s, BitsInv d m part (rms r) r (nextP d m part G dt st S)
      (syncStep rms (solverComp d g rms dt st sched) x r) s := by
  have hn := w.numElems hr
  obtain ⟨A', a1, a2, a3⟩ := w.bothT hx (fun r hr => (hI r hr).choose_spec.own) hr
  obtain ⟨s, hs⟩ := hI r hr
  have hu : CoeffsRestrict d (rms r) s.Uc S.Uc := (restrict_iff_via hn _ _).2 hs.via.Uc
  obtain ⟨res, Fe, r1, r2, r3⟩ := w.residualBits hc ho hr hu (hg r hr) a3 (sched r s.evals)
    (hsched r s.evals) (fun _ _ _ => 0) s.Fe s.res hs.clean
  have r3' : CoeffsRestrict d (rms r) res (fun e => resRef d m (G (rankOf part e)) S.Uc e) := by
    intro k e hk b hb v hv
    beta_reduce
    rw [r3 k e hk b hb v hv, w.rankOf_eq hr hk]
  set s1 : RankState K := { s with res := res, Fe := Fe } with hs1
  have hv1 : StateVia d (rms r).numElemsPart (gElem (rms r)) s1
      { S with res := fun e => resRef d m (G (rankOf part e)) S.Uc e } :=
    ⟨hs.via.Uc, hs.via.Uhold, hs.via.dU1, hs.via.dU2, hs.via.dU3, hs.via.dU4,
      (restrict_iff_via hn _ _).1 r3', hs.via.time, hs.via.stage, hs.via.evals⟩
  have hM : ∀ k < (rms r).numElemsPart, ∀ i < d.nb, ∀ j < d.nb,
      (g r).iMM k i j = (fun e => (G (rankOf part e)).iMM e) (gElem (rms r) k) i j := by
    intro k hk i hi j hj
    have hk' : k < (rms r).l2gElem.length := by omega
    have he := List.getElem?_eq_getElem hk'
    have e2 : gElem (rms r) k = (rms r).l2gElem[k] := by rw [gElem, he]; rfl
    rw [(hg r hr).iMM k _ he i hi j hj]
    simp only [e2]
    rw [w.rankOf_eq hr he]
  have hupd := afterResidual_bits (dt := dt) (M := fun e => (G (rankOf part e)).iMM e) (fun k hk => w.gElem_lt hr hk) hM st hv1
  set s2 := afterResidual d (rms r).numElemsPart dt (g r).iMM st s1 with hs2
  have hfe : s2.Fe = Fe := by
    rw [hs2]
    cases st
    · rfl
    · unfold afterResidual
      simp only
      split <;> rfl
  obtain ⟨A2, b1, b2, b3⟩ := w.ownT hc ho hr ((restrict_iff_via hn _ _).2 hupd.Uc)
    (fun _ _ _ => 0) A' a2
  have hround : solverRound d (g r) (rms r) r dt st (sched r) A' s =
      some (A2, { s2 with evals := s2.evals + 1 }) := by
    unfold solverRound
    rw [r1]
    simp only [Option.bind_eq_bind, Option.bind_some]
    rw [← hs1, ← hs2, b1]
    rfl
  have hstep : syncStep rms (solverComp d g rms dt st sched) x r =
      (A2, some { s2 with evals := s2.evals + 1 }) := by
    unfold syncStep
    rw [a1]
    simp only
    unfold solverComp
    simp only [hs.state, hround]
  refine ⟨_, by rw [hstep], by rw [hstep]; exact b3, ?_, ?_⟩
  · simp only [hfe]; exact r2
  · exact ⟨hupd.Uc, hupd.Uhold, hupd.dU1, hupd.dU2, hupd.dU3, hupd.dU4, hupd.res, hupd.time,
      hupd.stage, by simp only [hupd.evals, nextP]⟩

/-- any interleaving: the state of a rank after `t` exchanges -/
theorem World.bitsRunP (w : World m nranks part rms) {d : Disc K} {norient : ℕ}
    (hc : Conforming d norient m) (ho : OrderOK d norient) {G : ℕ → Geom K} {g : ℕ → Geom K}
    (hg : ∀ r < nranks, GeomRestrict d (rms r) (g r) (G r)) {st : Stepper} {dt : K}
    {sched : ℕ → ℕ → List (FluxWrite K) → List (FluxWrite K)}
    (hsched : ∀ r k l, (sched r k l).Perm l) {Uc0 : ℕ → ℕ → ℕ → ℕ → K} {U0 : Coeffs K}
    (hu : ∀ r < nranks, CoeffsRestrict d (rms r) (Uc0 r) U0) {nsteps n : ℕ}
    {c : Proto.Conf (FaceArr (ℕ → ℕ → K) × Option (RankState K)) (List (ℕ → ℕ → K))}
    (hx : Proto.Exec (solverProg d g rms nranks dt st sched nsteps)
      (Proto.init (solverStart d rms st Uc0)) c n) {r : ℕ} (hr : r < nranks) :
    ∃ s, BitsInv d m part (rms r) r ((nextP d m part G dt st)^[(c.proc r).round] (startP st U0))
      (c.proc r).st s := by
  have hI := w.reach (solverComp_keeps d g rms dt st sched)
    (fun r _ => solverStart_sized d rms st Uc0 r) hx
  rw [(hI.ph r hr).1]
  generalize (c.proc r).round = t
  clear hI hx
  induction t generalizing r with
  | zero => exact w.bitsStartP hc ho hu hr
  | succ t ih =>
    rw [Function.iterate_succ_apply']
    exact w.bitsStepP hc ho hg hsched
      (w.sync_sized (solverComp_keeps d g rms dt st sched)
        (fun r _ => solverStart_sized d rms st Uc0 r) t) (fun r hr => ih hr) hr

end world
end DG
