import Verif.Lemmas.SolverRun

/-!
Properties C36, C37, C59, C60: the residual on a rank, its independence of history and schedule, and
the whole distributed run against the serial scheme of `Spec/Solver.lean`.
-/
namespace DG
open Finset

variable {K : Type} {α : Type}

section bridge
variable [Zero K] [One K] [Add K] [Sub K] [Mul K] [Neg K] [Div K] [NatCast K]
variable {m : GMesh α} {nranks : ℕ} {part : List ℕ} {rms : ℕ → RankMesh α}

theorem World.owns_of_l2g (w : World m nranks part rms) {r : ℕ} (hr : r < nranks) {k e : ℕ}
    (hk : (rms r).l2gElem[k]? = some e) : Owns part r e := by
  have := List.mem_of_getElem? hk
  rw [(w.res hr).l2gElem] at this
  exact (mem_owned.1 this).2

/-- a local side is a side of the mesh -/
theorem World.globalSide (w : World m nranks part rms) {r : ℕ} (hr : r < nranks) {k face : ℕ}
    (h : (k, face) ∈ (rms r).rows.flatMap (localSides r)) :
    ∃ (e : ℕ) (f : IFace), (rms r).l2gElem[k]? = some e ∧ f ∈ m.faces ∧
      ((e, face) = (f.elemL, f.faceL) ∨ (e, face) = (f.elemR, f.faceR)) := by
  obtain ⟨row, hrow, hy⟩ := List.mem_flatMap.1 h
  obtain ⟨i, hi, rfl⟩ := List.mem_iff_getElem.1 hrow
  have hi' : i < (myFaces part r m.faces).length := by
    rw [← (w.res hr).numIFacesPart, ← w.rowsLen hr]; exact hi
  obtain ⟨e, h1, h2⟩ := w.localSide hr (List.getElem?_eq_getElem hi')
    (List.getElem?_eq_getElem hi) hy
  have hf := (w.rowAt hr (List.getElem?_eq_getElem hi')).2
  refine ⟨e, _, h1, List.mem_of_getElem? hf, ?_⟩
  simpa [fSides] using h2

/-- a side of the mesh whose element is on the rank is a local side -/
theorem World.sideLocal (w : World m nranks part rms) {r : ℕ} (hr : r < nranks) {k face e : ℕ}
    {f : IFace} (hk : (rms r).l2gElem[k]? = some e) (hf : f ∈ m.faces)
    (h : (e, face) = (f.elemL, f.faceL) ∨ (e, face) = (f.elemR, f.faceR)) :
    (k, face) ∈ (rms r).rows.flatMap (localSides r) := by
  obtain ⟨g, hg, rfl⟩ := List.mem_iff_getElem.1 hf
  have hfg : IsFace m g m.faces[g] := List.getElem?_eq_getElem hg
  have how := w.owns_of_l2g hr hk
  have htab := w.elemTab hr
  have ht : Owns part r m.faces[g].elemL ∨ Owns part r m.faces[g].elemR := by
    rcases h with h | h <;> simp only [Prod.mk.injEq] at h <;> rw [h.1] at how
    · exact Or.inl how
    · exact Or.inr how
  obtain ⟨i, hi⟩ := w.mem_l2gFace hr hfg ht
  obtain ⟨f', row, a1, a2, a3, a4, a5, a6, a7, a8, a9, a10, a12⟩ := w.record hr hi
  unfold IsFace at hfg a1
  rw [hfg] at a1
  cases a1
  refine List.mem_flatMap.2 ⟨row, List.mem_of_getElem? a2, ?_⟩
  unfold localSides
  rcases h with h | h <;> simp only [Prod.mk.injEq] at h <;> rw [h.1] at how hk
  · have hL : r = row.rankL := by unfold Owns at how a3; rw [how] at a3; exact Option.some.inj a3
    have := htab.inj hk (a10 hL.symm)
    simp [if_pos hL, this, a6, h.2]
  · have hR : r = row.rankR := by unfold Owns at how a4; rw [how] at a4; exact Option.some.inj a4
    have := htab.inj hk (a12 hR.symm)
    rw [if_pos hR]
    simp [this, a8, h.2]

theorem World.clean_of_boundary (w : World m nranks part rms) {d : Disc K} {r : ℕ} (hr : r < nranks)
    {Fe : ℕ → ℕ → ℕ → K} (h : BoundaryZero d m (rms r) Fe) : CleanSlots d r (rms r).rows Fe := by
  intro k j s hj hs hns
  have hq : 0 < d.nqf := by
    rcases Nat.eq_zero_or_pos d.nqf with h0 | h0
    · rw [h0, Nat.mul_zero] at hj; omega
    · exact h0
  have h1 : j / d.nqf < d.nface := Nat.div_lt_of_lt_mul (by rw [Nat.mul_comm]; exact hj)
  have h2 := h k (j / d.nqf) (j % d.nqf) s h1 (Nat.mod_lt _ hq) hs (by
    intro e f hk hf
    constructor
    · intro he; exact hns (w.sideLocal hr hk hf (Or.inl he))
    · intro he; exact hns (w.sideLocal hr hk hf (Or.inr he)))
  rwa [Nat.div_add_mod'] at h2

theorem World.boundary_of_clean (w : World m nranks part rms) {d : Disc K} {r : ℕ} (hr : r < nranks)
    {Fe : ℕ → ℕ → ℕ → K} (h : CleanSlots d r (rms r).rows Fe) : BoundaryZero d m (rms r) Fe := by
  intro k face j s hf hj hs hno
  have hlt : face * d.nqf + j < d.nface * d.nqf := by
    have h2 : (face + 1) * d.nqf ≤ d.nface * d.nqf := Nat.mul_le_mul_right _ hf
    have h3 : (face + 1) * d.nqf = face * d.nqf + d.nqf := Nat.succ_mul _ _
    omega
  refine h k _ s hlt hs ?_
  rw [(slot_div hj).1]
  intro hin
  obtain ⟨e, f, h1, h2, h3⟩ := w.globalSide hr hin
  obtain ⟨n1, n2⟩ := hno e f h1 h2
  rcases h3 with h | h
  · exact n1 h
  · exact n2 h

end bridge

variable [Field K] [DecidableEq K]

/-! ### C36 -/

/-- C36: the residual of a rank does not depend on what the work arrays held before: for the same
coefficients and face states, two evaluations with different previous contents of the residual, of
the freshly allocated point values, of the flux work array (zero on boundary sides, as it is
allocated and as every evaluation leaves it) and with a different order of the parallel flux loop give
the same residual; both evaluations stay in bounds. -/
theorem C36_residual_independent_of_history (m : GMesh α) (nranks : ℕ) (part : List ℕ)
    (rms : ℕ → RankMesh α) (w : World m nranks part rms) (d : Disc K) (norient : ℕ)
    (hc : Conforming d norient m) (ho : OrderOK d norient) (g : Geom K) (r : ℕ) (hr : r < nranks)
    (u : Coeffs K) (A : FaceArr (ℕ → ℕ → K)) (hA : Sized (rms r) A)
    (sched sched' : List (FluxWrite K) → List (FluxWrite K)) (hs : ∀ l, (sched l).Perm l)
    (hs' : ∀ l, (sched' l).Perm l) (vq0 vq0' Fe0 Fe0' res0 res0' : ℕ → ℕ → ℕ → K)
    (hF : BoundaryZero d m (rms r) Fe0) (hF' : BoundaryZero d m (rms r) Fe0') :
    ∃ res Fe res' Fe', residual d g (rms r) r sched u A vq0 Fe0 res0 = some (res, Fe) ∧
      residual d g (rms r) r sched' u A vq0' Fe0' res0' = some (res', Fe') ∧
      BoundaryZero d m (rms r) Fe ∧ BoundaryZero d m (rms r) Fe' ∧
      ∀ k < (rms r).numElemsPart, ∀ b < d.nb, ∀ s < d.ns, res k b s = res' k b s := by
  have hex : ∀ i, ∃ F : ℕ → ℕ → K, i < (rms r).numIFacesPart → faceFlux d g A i = some F := by
    intro i
    by_cases hi : i < (rms r).numIFacesPart
    · have h1 : i < A.L.length := by rw [hA.1]; exact hi
      have h2 : i < A.R.length := by rw [hA.2]; exact hi
      have : ∃ F, faceFlux d g A i = some F := by
        unfold faceFlux
        rw [List.getElem?_eq_getElem h1, List.getElem?_eq_getElem h2]
        exact ⟨_, rfl⟩
      exact ⟨this.choose, fun _ => this.choose_spec⟩
    · exact ⟨fun _ _ => 0, fun h => absurd h hi⟩
  choose F hFl using hex
  obtain ⟨res, Fe, h1, h2, h3⟩ := residual_spec d g (rms r) r norient sched hs u A vq0 Fe0 res0
    (w.rowsOK hc hr) ho (w.rowsLen hr) F hFl (w.clean_of_boundary hr hF)
  obtain ⟨res', Fe', h1', h2', h3'⟩ := residual_spec d g (rms r) r norient sched' hs' u A vq0' Fe0'
    res0' (w.rowsOK hc hr) ho (w.rowsLen hr) F hFl (w.clean_of_boundary hr hF')
  refine ⟨res, Fe, res', Fe', h1, h1', w.boundary_of_clean hr h2, w.boundary_of_clean hr h2', ?_⟩
  intro k hk b hb s hs
  rw [h3 k hk b hb s hs, h3' k hk b hb s hs]

/-! ### C37 -/

/-- C37: the parallel flux loop, in any order of its assignments: it stays in bounds, assigns no slot
twice, stores minus the flux of face `f` in the slot of the left element (if it is on the rank) for
the reference face and reoriented point of the face, plus the flux in that of the right element, and
leaves the slots of sides that belong to no mesh face alone. -/
theorem C37_scatter (m : GMesh α) (nranks : ℕ) (part : List ℕ) (rms : ℕ → RankMesh α)
    (w : World m nranks part rms) (d : Disc K) (norient : ℕ) (hc : Conforming d norient m)
    (ho : OrderOK d norient) (r : ℕ) (hr : r < nranks) (Fq : List (ℕ → ℕ → K))
    (hl : Fq.length = (rms r).numIFacesPart) (ws : List (FluxWrite K))
    (hp : ws.Perm (fluxWrites d r (rms r).rows Fq)) (Fe0 : ℕ → ℕ → ℕ → K) :
    ∃ Fe, writeFluxes d (rms r).numElemsPart ws Fe0 = some Fe ∧
      (ws.map fun x => (x.elem, x.slot, x.is)).Nodup ∧
      (∀ (i g : ℕ) (f : IFace) (F : ℕ → ℕ → K), (rms r).l2gFace[i]? = some g → IsFace m g f →
        Fq[i]? = some F → ∀ iq < d.nqf, ∀ s < d.ns, ∀ k : ℕ,
        ((rms r).l2gElem[k]? = some f.elemL →
          Fe k (f.faceL * d.nqf + d.ptsOrder f.orientL iq) s = - F iq s) ∧
        ((rms r).l2gElem[k]? = some f.elemR →
          Fe k (f.faceR * d.nqf + d.ptsOrder f.orientR iq) s = F iq s)) ∧
      ∀ k face j s : ℕ, face < d.nface → j < d.nqf → s < d.ns →
        (∀ (e : ℕ) (f : IFace), (rms r).l2gElem[k]? = some e → f ∈ m.faces →
          (e, face) ≠ (f.elemL, f.faceL) ∧ (e, face) ≠ (f.elemR, f.faceR)) →
        Fe k (face * d.nqf + j) s = Fe0 k (face * d.nqf + j) s := by
  have hrows := w.rowsOK hc hr
  have hlen : (rms r).rows.length = Fq.length := by rw [w.rowsLen hr, hl]
  have hb := fluxWrites_inB hrows ho Fq
  have hnd := fluxWrites_nodup hrows ho Fq hlen
  obtain ⟨Fe, h1, h2, h3⟩ := writeFluxes_spec d (rms r).numElemsPart (fluxWrites d r (rms r).rows Fq)
    Fe0 hb hnd
  refine ⟨Fe, ?_, (hp.map _).nodup_iff.2 hnd, ?_, ?_⟩
  · rw [writeFluxes_perm d _ _ ws Fe0 hp hb hnd]; exact h1
  · intro i g f F hi hf hFi iq hq s hs k
    obtain ⟨f', row, a1, a2, a3, a4, a5, a6, a7, a8, a9, a10, a12⟩ := w.record hr hi
    unfold IsFace at hf a1
    rw [hf] at a1
    cases a1
    have htab := w.elemTab hr
    have hzip : (row, F) ∈ (rms r).rows.zip Fq := by
      refine List.mem_iff_getElem?.2 ⟨i, ?_⟩
      rw [List.getElem?_zip_eq_some]; exact ⟨a2, hFi⟩
    have hmem : ∀ x, x ∈ fluxWritesAt d r row F iq → x ∈ fluxWrites d r (rms r).rows Fq := by
      intro x hx
      unfold fluxWrites
      exact List.mem_flatMap.2 ⟨_, hzip, List.mem_flatMap.2 ⟨iq, List.mem_range.2 hq, hx⟩⟩
    constructor
    · intro hk
      have how := w.owns_of_l2g hr hk
      have hL : r = row.rankL := by unfold Owns at how a3; rw [how] at a3; exact Option.some.inj a3
      have hke := htab.inj hk (a10 hL.symm)
      have := h2 ⟨row.elemL, row.faceL * d.nqf + d.ptsOrder row.orientL iq, s, -1 * F iq s⟩ (hmem _ (by
        unfold fluxWritesAt
        rw [if_pos hL]
        exact List.mem_append_left _ (List.mem_map.2 ⟨s, List.mem_range.2 hs, rfl⟩)))
      simp only [a6, a7, ← hke] at this
      rw [this]; ring
    · intro hk
      have how := w.owns_of_l2g hr hk
      have hR : r = row.rankR := by unfold Owns at how a4; rw [how] at a4; exact Option.some.inj a4
      have hke := htab.inj hk (a12 hR.symm)
      have := h2 ⟨row.elemR, row.faceR * d.nqf + d.ptsOrder row.orientR iq, s, F iq s⟩ (hmem _ (by
        unfold fluxWritesAt
        rw [if_pos hR]
        exact List.mem_append_right _ (List.mem_map.2 ⟨s, List.mem_range.2 hs, rfl⟩)))
      simp only [a8, a9, ← hke] at this
      exact this
  · intro k face j s hf hj hs hno
    refine h3 _ _ _ fun hkey => ?_
    have := side_of_key hrows ho Fq hkey
    rw [(slot_div hj).1] at this
    obtain ⟨e, f, g1, g2, g3⟩ := w.globalSide hr this
    obtain ⟨n1, n2⟩ := hno e f g1 g2
    rcases g3 with h | h
    · exact n1 h
    · exact n2 h

/-! ### C59 -/

/-- C59: one residual evaluation by all ranks.  If the coefficients on the ranks are those of the
global coefficients `U`, and every rank has computed its face states and completed the exchange under
any interleaving, then the residual it computes is the residual of the whole mesh on its elements. -/
theorem C59_residual_matches_serial (m : GMesh α) (nranks : ℕ) (part : List ℕ)
    (rms : ℕ → RankMesh α) (w : World m nranks part rms) (d : Disc K) (norient : ℕ)
    (hc : Conforming d norient m) (ho : OrderOK d norient) (G : Geom K) (g : ℕ → Geom K)
    (hg : ∀ r < nranks, GeomRestrict d (rms r) (g r) G) (U : Coeffs K) (u : ℕ → Coeffs K)
    (hu : ∀ r < nranks, CoeffsRestrict d (rms r) (u r) U)
    (A0 A : ℕ → FaceArr (ℕ → ℕ → K)) (hA0 : ∀ r < nranks, Sized (rms r) (A0 r))
    (Uq0 : ℕ → ℕ → ℕ → ℕ → K)
    (hA : ∀ r < nranks, faceStates d (rms r) r (u r) (Uq0 r) (A0 r) = some (A r)) (n : ℕ)
    (c : Proto.Conf (FaceArr (ℕ → ℕ → K) × Unit) (List (ℕ → ℕ → K)))
    (hx : Proto.Exec (exchangeProg rms nranks 1 (fun _ s => s))
      (Proto.init (fun r => (A r, ()))) c n)
    (r : ℕ) (hr : r < nranks) (hdone : (c.proc r).round = 1)
    (sched : List (FluxWrite K) → List (FluxWrite K)) (hs : ∀ l, (sched l).Perm l)
    (vq0 Fe0 res0 : ℕ → ℕ → ℕ → K) (hF : BoundaryZero d m (rms r) Fe0) :
    ∃ res Fe, residual d (g r) (rms r) r sched (u r) (c.proc r).st.1 vq0 Fe0 res0 = some (res, Fe) ∧
      ∀ k e : ℕ, (rms r).l2gElem[k]? = some e → ∀ b < d.nb, ∀ s < d.ns,
        res k b s = globalResidual d m G U e b s := by
  have hown : ∀ r < nranks, Sized (rms r) (A r) ∧ OwnTraces d m part r (rms r) (A r) U := by
    intro r hr
    obtain ⟨A', h1, h2, h3⟩ := w.ownTraces hc ho hr (hu r hr) (Uq0 r) (A0 r) (hA0 r hr)
    rw [hA r hr] at h1
    cases h1
    exact ⟨h2, h3⟩
  have hI := w.reach (comp := fun _ s => s) (st0 := fun r => (A r, ())) (fun _ _ _ => ⟨rfl, rfl⟩)
    (fun r hr => (hown r hr).1) hx
  have hS : (c.proc r).st = syncStep rms (fun _ s => s) (fun r => (A r, ())) r := by
    rw [(hI.ph r hr).1, hdone]; rfl
  obtain ⟨A', u1, u2, u3⟩ := w.bothTraces (st := fun r => (A r, ())) (fun r hr => (hown r hr).1)
    (fun r hr => (hown r hr).2) hr
  have hU : (c.proc r).st.1 = A' := by rw [hS]; unfold syncStep; rw [u1]
  rw [hU]
  obtain ⟨res, Fe, h1, _, h3⟩ := w.residual hc ho hr (hu r hr) (hg r hr) u2 u3 sched hs vq0 Fe0 res0
    (w.clean_of_boundary hr hF)
  exact ⟨res, Fe, h1, h3⟩

/-! ### C60 -/

/-- C60: the whole run, all ranks, any interleaving, any order of the parallel flux loops.  When a
rank has completed the residual evaluations of `n` time steps, it has made no out-of-bounds access,
its coefficients are those of the serial scheme after `n` steps on its elements, its time is `n * dt`,
and it has evaluated the residual once (Euler) or four times (Runge-Kutta) per step. -/
theorem C60_run_matches_serial [CharZero K] (m : GMesh α) (nranks : ℕ) (part : List ℕ)
    (rms : ℕ → RankMesh α) (w : World m nranks part rms) (d : Disc K) (norient : ℕ)
    (hc : Conforming d norient m) (ho : OrderOK d norient) (G : Geom K) (g : ℕ → Geom K)
    (hg : ∀ r < nranks, GeomRestrict d (rms r) (g r) G) (st : Stepper) (dt : K)
    (sched : ℕ → ℕ → List (FluxWrite K) → List (FluxWrite K))
    (hsched : ∀ r k l, (sched r k l).Perm l) (U0 : Coeffs K) (Uc0 : ℕ → Coeffs K)
    (hu : ∀ r < nranks, CoeffsRestrict d (rms r) (Uc0 r) U0) (nsteps k : ℕ)
    (c : Proto.Conf (FaceArr (ℕ → ℕ → K) × Option (RankState K)) (List (ℕ → ℕ → K)))
    (hx : Proto.Exec (solverProg d g rms nranks dt st sched nsteps)
      (Proto.init (solverStart d rms st Uc0)) c k) (r : ℕ) (hr : r < nranks) (n : ℕ)
    (hn : (c.proc r).round = stagesOf st * n) :
    ∃ s, (c.proc r).st.2 = some s ∧
      (∀ i e : ℕ, (rms r).l2gElem[i]? = some e → ∀ b < d.nb, ∀ v < d.ns,
        s.Uc i b v = ((stepOf st dt (globalRHS d m G))^[n] U0) e b v) ∧
      s.time = n * dt ∧ s.evals = stagesOf st * n := by
  obtain ⟨s, hs⟩ := w.run hc ho hg hsched hu hx hr
  have hS : 0 < stagesOf st := by cases st <;> simp [stagesOf]
  have e1 : (c.proc r).round / stagesOf st = n := by
    rw [hn, Nat.mul_comm]; exact Nat.mul_div_cancel _ hS
  have e2 : (c.proc r).round % stagesOf st = 0 := by rw [hn]; exact Nat.mul_mod_right _ _
  have hrel := hs.rel
  rw [e1, e2] at hrel
  refine ⟨s, hs.state, ?_, ?_, by rw [hs.evals, hn]⟩
  · exact (restrict_iff_via (w.numElems hr) _ _).2 hrel.Uc
  · rw [hrel.time]; simp [rkNode]

/-- C60: no rank ever makes an out-of-bounds access or fails in the exchange, at any point of any
execution; every execution can be continued to the end of the run. -/
theorem C60_run_completes [CharZero K] (m : GMesh α) (nranks : ℕ) (part : List ℕ)
    (rms : ℕ → RankMesh α) (w : World m nranks part rms) (d : Disc K) (norient : ℕ)
    (hc : Conforming d norient m) (ho : OrderOK d norient) (G : Geom K) (g : ℕ → Geom K)
    (hg : ∀ r < nranks, GeomRestrict d (rms r) (g r) G) (st : Stepper) (dt : K)
    (sched : ℕ → ℕ → List (FluxWrite K) → List (FluxWrite K))
    (hsched : ∀ r k l, (sched r k l).Perm l) (U0 : Coeffs K) (Uc0 : ℕ → Coeffs K)
    (hu : ∀ r < nranks, CoeffsRestrict d (rms r) (Uc0 r) U0) (nsteps k : ℕ)
    (c : Proto.Conf (FaceArr (ℕ → ℕ → K) × Option (RankState K)) (List (ℕ → ℕ → K)))
    (hx : Proto.Exec (solverProg d g rms nranks dt st sched nsteps)
      (Proto.init (solverStart d rms st Uc0)) c k) :
    (∀ r < nranks, (c.proc r).phase ≠ .failed ∧ (c.proc r).st.2 ≠ none) ∧
    ∃ c' k', Proto.Exec (solverProg d g rms nranks dt st sched nsteps) c c' k' ∧
      ∀ r < nranks, (c'.proc r).round = stagesOf st * nsteps := by
  have hkeep := solverComp_keeps d g rms dt st sched
  have hsz : ∀ r < nranks, Sized (rms r) (solverStart d rms st Uc0 r).1 :=
    fun r _ => solverStart_sized d rms st Uc0 r
  refine ⟨?_, (C09_terminates m nranks part rms w _ hkeep _ hsz _ k c hx).2.2⟩
  intro r hr
  refine ⟨C09_no_error m nranks part rms w _ hkeep _ hsz _ k c hx r hr, ?_⟩
  obtain ⟨s, hs⟩ := w.run hc ho hg hsched hu hx hr
  rw [hs.state]; simp

/-- C60: the result does not depend on how the mesh is partitioned, on the number of ranks, on the
interleaving or on the order of the flux loops: two runs of the same case, once finished, hold the
same coefficients for every element of the mesh. -/
theorem C60_partition_independent [CharZero K] (m : GMesh α) (d : Disc K) (norient : ℕ)
    (hc : Conforming d norient m) (ho : OrderOK d norient) (G : Geom K) (st : Stepper) (dt : K)
    (U0 : Coeffs K) (nsteps : ℕ)
    (nranks : ℕ) (part : List ℕ) (rms : ℕ → RankMesh α) (w : World m nranks part rms)
    (g : ℕ → Geom K) (hg : ∀ r < nranks, GeomRestrict d (rms r) (g r) G)
    (sched : ℕ → ℕ → List (FluxWrite K) → List (FluxWrite K))
    (hsched : ∀ r k l, (sched r k l).Perm l) (Uc0 : ℕ → Coeffs K)
    (hu : ∀ r < nranks, CoeffsRestrict d (rms r) (Uc0 r) U0) (k : ℕ)
    (c : Proto.Conf (FaceArr (ℕ → ℕ → K) × Option (RankState K)) (List (ℕ → ℕ → K)))
    (hx : Proto.Exec (solverProg d g rms nranks dt st sched nsteps)
      (Proto.init (solverStart d rms st Uc0)) c k)
    (hfin : ∀ r < nranks, (c.proc r).round = stagesOf st * nsteps)
    (nranks' : ℕ) (part' : List ℕ) (rms' : ℕ → RankMesh α) (w' : World m nranks' part' rms')
    (g' : ℕ → Geom K) (hg' : ∀ r < nranks', GeomRestrict d (rms' r) (g' r) G)
    (sched' : ℕ → ℕ → List (FluxWrite K) → List (FluxWrite K))
    (hsched' : ∀ r k l, (sched' r k l).Perm l) (Uc0' : ℕ → Coeffs K)
    (hu' : ∀ r < nranks', CoeffsRestrict d (rms' r) (Uc0' r) U0) (k' : ℕ)
    (c' : Proto.Conf (FaceArr (ℕ → ℕ → K) × Option (RankState K)) (List (ℕ → ℕ → K)))
    (hx' : Proto.Exec (solverProg d g' rms' nranks' dt st sched' nsteps)
      (Proto.init (solverStart d rms' st Uc0')) c' k')
    (hfin' : ∀ r < nranks', (c'.proc r).round = stagesOf st * nsteps) :
    ∀ e < m.numElems, ∃ r < nranks, ∃ r' < nranks', ∃ (i i' : ℕ) (s s' : RankState K),
      (rms r).l2gElem[i]? = some e ∧ (rms' r').l2gElem[i']? = some e ∧
      (c.proc r).st.2 = some s ∧ (c'.proc r').st.2 = some s' ∧
      s.time = s'.time ∧ ∀ b < d.nb, ∀ v < d.ns, s.Uc i b v = s'.Uc i' b v := by
  intro e he
  have find : ∀ (nr : ℕ) (pt : List ℕ) (rs : ℕ → RankMesh α), World m nr pt rs →
      ∃ r < nr, ∃ i : ℕ, (rs r).l2gElem[i]? = some e := by
    intro nr pt rs w
    have hlt : e < pt.length := by rw [w.parts.len]; exact he
    have hr : pt[e] < nr := w.parts.lt _ (List.getElem_mem hlt)
    refine ⟨pt[e], hr, ?_⟩
    have : e ∈ (rs pt[e]).l2gElem := by
      rw [(w.res hr).l2gElem]
      exact mem_owned.2 ⟨he, List.getElem?_eq_getElem hlt⟩
    obtain ⟨i, hi, h⟩ := List.mem_iff_getElem.1 this
    exact ⟨i, by rw [List.getElem?_eq_getElem hi, h]⟩
  obtain ⟨r, hr, i, hi⟩ := find nranks part rms w
  obtain ⟨r', hr', i', hi'⟩ := find nranks' part' rms' w'
  obtain ⟨s, s1, s2, s3, _⟩ := C60_run_matches_serial m nranks part rms w d norient hc ho G g hg st dt
    sched hsched U0 Uc0 hu nsteps k c hx r hr nsteps (hfin r hr)
  obtain ⟨s', t1, t2, t3, _⟩ := C60_run_matches_serial m nranks' part' rms' w' d norient hc ho G g' hg'
    st dt sched' hsched' U0 Uc0' hu' nsteps k' c' hx' r' hr' nsteps (hfin' r' hr')
  refine ⟨r, hr, r', hr', i, i', s, s', hi, hi', s1, t1, by rw [s3, t3], ?_⟩
  intro b hb v hv
  rw [s2 i e hi b hb v hv, t2 i' e hi' b hb v hv]

/-! ### non-vacuity: finite volumes (`p = 0`) for linear advection on the 2 × 2 mesh, two ranks -/

/-- one basis function, two points per face, upwind flux of `u_t + u_x + u_y = 0` for the faces of
the example (all normals point in the direction of the flow) -/
def exDisc : Disc ℚ where
  dim := 2
  ns := 1
  nb := 1
  nq := 1
  nface := 4
  nqf := 2
  volBasis := fun _ _ => 1
  volGrad := fun _ _ _ => 0
  volWts := fun _ => 4
  faceBasis := fun _ _ _ => 1
  faceWts := fun _ => 1
  ptsOrder := fun o i => if o = 0 then i else 1 - i
  volFlux := fun u i => u (i % 1)
  numFlux := fun uL _ n s => uL s * (n 0 + n 1)

/-- geometry of the unit squares: faces 0 and 1 are vertical, 2 and 3 horizontal -/
def exGeom : Geom ℚ where
  djac := fun _ _ => 1 / 4
  ijac := fun _ _ i j => if i = j then 2 else 0
  iMM := fun _ _ _ => 1
  normals := fun g _ j => if (g < 2 ∧ j = 0) ∨ (2 ≤ g ∧ j = 1) then 1 / 2 else 0

/-- its restriction to the ranks -/
def exGeomR (r : ℕ) : Geom ℚ where
  djac := fun _ _ => 1 / 4
  ijac := fun _ _ i j => if i = j then 2 else 0
  iMM := fun _ _ _ => 1
  normals := fun i => exGeom.normals (((exRms r).l2gFace[i]?).getD 0)

theorem exConforming : Conforming exDisc 2 exMesh where
  faceL := by decide
  faceR := by decide
  sides := by decide

theorem exOrder : OrderOK exDisc 2 := by
  intro o ho
  have : o = 0 ∨ o = 1 := by omega
  constructor
  · intro i hi
    simp only [exDisc] at hi ⊢
    rcases this with rfl | rfl <;> simp <;> omega
  · intro i hi j hj h
    simp only [exDisc] at hi hj h
    rcases this with rfl | rfl <;> simp at h <;> omega

theorem exGeomRestrict (r : ℕ) : GeomRestrict exDisc (exRms r) (exGeomR r) exGeom where
  djac := fun _ _ _ _ _ => rfl
  ijac := fun _ _ _ _ _ _ _ _ _ => rfl
  iMM := fun _ _ _ _ _ _ _ => rfl
  normals := by
    intro i f h q _ j _
    simp [exGeomR, h]

/-- initial coefficients: element `e` has value `e + 1` -/
def exU0 : Coeffs ℚ := fun e _ _ => e + 1

theorem exRestrict (r : ℕ) : CoeffsRestrict exDisc (exRms r)
    (fun k b s => exU0 (((exRms r).l2gElem[k]?).getD 0) b s) exU0 := by
  intro k e h b _ s _
  simp [h]

/-- All hypotheses of C60 hold for the example, a complete two-step Runge-Kutta run exists, and the
serial scheme it agrees with changes the state. -/
example : ∃ c k, Proto.Exec (solverProg exDisc exGeomR exRms 2 (1 / 10) .RK4 (fun _ _ => List.reverse) 2)
      (Proto.init (solverStart exDisc exRms .RK4
        (fun r k b s => exU0 (((exRms r).l2gElem[k]?).getD 0) b s))) c k ∧
    (∀ r < 2, (c.proc r).round = stagesOf .RK4 * 2) ∧
    ∃ s, (c.proc 0).st.2 = some s ∧ s.time = 1 / 5 ∧
      s.Uc 0 0 0 = ((stepOf .RK4 (1 / 10) (globalRHS exDisc exMesh exGeom))^[2] exU0) 1 0 0 := by
  obtain ⟨_, c, k, h1, h2⟩ := C60_run_completes exMesh 2 exPart exRms exWorld exDisc 2 exConforming
    exOrder exGeom exGeomR (fun r _ => exGeomRestrict r) .RK4 (1 / 10) (fun _ _ => List.reverse)
    (fun _ _ l => List.reverse_perm l) exU0 _ (fun r _ => exRestrict r) 2 0 _ Proto.Exec.refl
  refine ⟨c, k, h1, h2, ?_⟩
  obtain ⟨s, s1, s2, s3, _⟩ := C60_run_matches_serial exMesh 2 exPart exRms exWorld exDisc 2
    exConforming exOrder exGeom exGeomR (fun r _ => exGeomRestrict r) .RK4 (1 / 10)
    (fun _ _ => List.reverse) (fun _ _ l => List.reverse_perm l) exU0 _ (fun r _ => exRestrict r) 2 k c
    h1 0 (by omega) 2 (h2 0 (by omega))
  refine ⟨s, s1, by rw [s3]; norm_num, s2 0 1 (by decide) 0 (by decide) 0 (by decide)⟩

/-- the residual of element 1 (below right) of the example: it receives the flux of element 0 and
loses its own through its upper face -/
example : globalResidual exDisc exMesh exGeom exU0 1 0 0 = 1 - 2 := by
  norm_num [globalResidual, volumeTerm, faceTerm, meshFlux, traceState, exDisc, exMesh, exGeom, exU0,
    cArr, Finset.sum_range_succ, List.zipIdx]

end DG
