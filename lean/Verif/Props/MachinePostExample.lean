import Verif.Props.MachinePost
import Verif.Props.MachineMainExample

/-!
Cases that meet the hypotheses of C86.
-/
namespace DG

/-- the sum from left to right -/
def leftSum : ℕ → Fl.Reduction
  | 0 => .zero
  | n + 1 => .join (leftSum n) (.item n)

theorem leftSum_sums (n : ℕ) : (leftSum n).Sums n := by
  have h : (leftSum n).items = List.range n ∧ (leftSum n).zeros = 1 := by
    induction n with
    | zero => exact ⟨rfl, rfl⟩
    | succ n ih =>
      constructor
      · show (leftSum n).items ++ [n] = _
        rw [ih.1, List.range_succ]
      · show (leftSum n).zeros + 0 = 1
        rw [ih.2]
  exact ⟨by rw [h.1], by rw [h.2]; omega⟩

/-- There are orders of the sums, whatever the ranks. -/
theorem leftSums_ok {K : Type} (nranks nv ne : ℕ) (qs : ℕ → Fl.PostRank K) :
    PostSumsOK ⟨fun _ _ => leftSum nv, fun r => leftSum (qs r).rm.numElemsPart, leftSum nranks, fun _ _ _ => leftSum ne,
      fun r _ => leftSum (qs r).rm.numElemsPart, fun _ => leftSum nranks⟩ nranks nv ne qs :=
  ⟨fun _ _ _ _ => leftSum_sums _, fun _ _ => leftSum_sums _, leftSum_sums _, fun _ _ _ _ _ => leftSum_sums _,
    fun _ _ _ => leftSum_sums _, fun _ => leftSum_sums _⟩

/-- All hypotheses of `C86_run_post_quad` are met by the uniform flow on `perMesh` on computers of arbitrarily small roundoff: two ranks run
to the end and write the file, and two ranks of the post-processor read it; with sums from left to right they print numbers. -/
example (t : Fam) (p : ℕ) (hp : orderFine t p) (f : NumericalFluxType) (st : StepperType) :
    ∃ (T T1 : ℝ) (y : ℝ → Coeffs ℝ) (κ C : ℝ), T1 < T ∧ ∀ u0 B : ℝ, 0 < u0 → ∃ A : Arith, 0 < A.u ∧ A.u ≤ u0 ∧ B ≤ A.big ∧
      ∃ (toInt : _) (deck : Fl.Deck A.K) (dt tend : A.K), DeckRead A κ deck 2 p (quadType t) (breezeGas f) st dt tend ∧
        A.val dt ≤ A.val tend ∧ A.val tend ≤ T1 ∧
        ∃ fs m', MeshGiven A κ 2 deck fs perMesh m' ∧ ∃ env, LaunchOK m' 2 perPart env ∧ ∃ un sched ord job ranks c k sol,
          Fl.readJob toInt deck fs un 2 2 = some job ∧ (∀ r < 2, Fl.readyRank job un 2 2 (env r) r = some (ranks r)) ∧
          Proto.Exec (Fl.jobProg job ranks 2 sched) (Fl.jobInit job ranks) c k ∧ Fl.LoopDone job 2 c ∧
          Fl.jobFile job ranks 2 2 ord c = some sol ∧
          ∃ job' qs sums N, Fl.readPost deck fs un 2 2 = some job' ∧
            (∀ r < 2, Fl.postRank job' 2 2 (env r) sol r = some (qs r)) ∧ PostSumsOK sums 2 ((p + 2) * (p + 2)) ((2 * max p 1 + 2) * (2 * max p 1 + 2)) qs ∧
            Fl.postPrint job' un 2 (fun _ _ _ _ => 0) sums qs = some N ∧ ∀ v < 2 + 2, A.fin (N v) ∧
              |A.val (N v) - quadDist t p perMesh (fun _ s => (breezeGas f).icData.getD s 0) (y (A.val tend)) v| ≤
                C * (A.val dt + A.u / A.val dt) := by
  obtain ⟨T, T1, y, κ, hT, hT1, hst, hy, hr, hy0, H⟩ := breeze_case t p hp f st
  have hγ : 1 < (breezeGas f).γ := by norm_num [breezeGas]
  obtain ⟨C1, h1, u1, B1, hh1, hu1, H1⟩ := C85_program_quad perMesh perMesh_ok perMesh_quad perMesh_sides t p hp (breezeGas f) hγ _ hst T T1 hT hT1
    y hy hr hy0 κ
  obtain ⟨C2, h2, u2, B2, hh2, hu2, H2⟩ := C86_run_post_quad perMesh perMesh_ok perMesh_quad perMesh_sides t p hp (breezeGas f) hγ _ hst T T1 hT hT1
    y hy hr hy0 κ
  refine ⟨T, T1, y, κ, C2, hT1, fun u0 B hu0 => ?_⟩
  obtain ⟨A, a0, a1, a2, ⟨toInt, htr⟩, deck, dt, tend, hdeck, d1, d2, d3, d4, d5, d6, d7, d8, fs, m', hgiven, env, hl⟩ :=
    H (max C1 C2) (min h1 h2) (min u0 (min u1 u2)) (max B (max B1 B2)) (lt_min hh1 hh2) (lt_min hu0 (lt_min hu1 hu2))
  simp only [le_min_iff] at a1 d3
  simp only [max_le_iff] at a2
  have e1 := (mul_le_mul_of_nonneg_right (le_max_left C1 C2) a0.le).trans d4
  have e2 := (mul_le_mul_of_nonneg_right (le_max_right C1 C2) a0.le).trans d4
  have hord : ∀ i : ℕ, ((fun _ => List.range 2 : ℕ → List ℕ) i).Perm (List.range 2) := fun _ => List.Perm.refl _
  have hsched : ∀ (r k : ℕ) l, ((fun _ _ l => l : ℕ → ℕ → List (FluxWrite A.K) → List (FluxWrite A.K)) r k l).Perm l :=
    fun _ _ _ => List.Perm.refl _
  obtain ⟨-, job, hjob, -, -, hready, Hrun⟩ := H1 A a1.2.1 a2.2.1 toInt htr deck st dt tend hdeck d1 d2 d3.1 e1 d5 (d2.le.trans d6) d7 d8 fs m'
    hgiven 2 perPart env hl ⟨fun _ => 0, fun _ => 0, fun _ => 0, 0, 0⟩ _ hsched _ hord
  obtain ⟨q0, hq0⟩ := Option.ne_none_iff_exists'.1 (hready 0 (by omega))
  obtain ⟨q1, hq1⟩ := Option.ne_none_iff_exists'.1 (hready 1 (by omega))
  have hranks : ∀ r < 2, Fl.readyRank job ⟨fun _ => 0, fun _ => 0, fun _ => 0, 0, 0⟩ 2 2 (env r) r = some (if r = 0 then q0 else q1) := by
    intro r hr
    interval_cases r
    · exact hq0
    · exact hq1
  obtain ⟨-, ⟨c, k, hex, hdone⟩, -⟩ := Hrun _ hranks _ _ .refl
  obtain ⟨-, -, hfile⟩ := Hrun _ hranks c k hex
  obtain ⟨sol, -, -, hsol, -⟩ := hfile hdone
  obtain ⟨job', p1, p2, p3⟩ := H2 A a1.2.2 a2.2.2 toInt htr deck st dt tend hdeck d1 d2 d3.2 e2 d5 (d2.le.trans d6) d7 d8 fs m'
    hgiven 2 perPart env hl ⟨fun _ => 0, fun _ => 0, fun _ => 0, 0, 0⟩ _ hsched _ hord job hjob _ hranks c k hex hdone sol hsol env
    ⟨fun _ => 0, fun _ => 0, fun _ => 0, 0, 0⟩ hl
  obtain ⟨s0, hs0⟩ := Option.ne_none_iff_exists'.1 (p2 0 (by omega))
  obtain ⟨s1, hs1⟩ := Option.ne_none_iff_exists'.1 (p2 1 (by omega))
  have hqs : ∀ r < 2, Fl.postRank job' 2 2 (env r) sol r = some (if r = 0 then s0 else s1) := by
    intro r hr
    interval_cases r
    · exact hs0
    · exact hs1
  obtain ⟨N, n1, n2⟩ := p3 _ hqs _ (leftSums_ok 2 _ _ _) fun _ _ _ _ => 0
  exact ⟨A, a0, a1.1, a2.1, toInt, deck, dt, tend, hdeck, d6, d7, fs, m', hgiven, env, hl, _, _, _, job, _, c, k, sol, hjob, hranks, hex, hdone,
    hsol, job', _, _, N, p1, hqs, leftSums_ok 2 _ _ _, n1, fun v hv => ⟨(n2 v hv).1, (n2 v hv).2.2⟩⟩

/-- All hypotheses of `C86_run_post_hex` are met by the uniform flow on `slabMesh` on computers of arbitrarily small roundoff: two ranks run
to the end and write the file, and two ranks of the post-processor read it; with sums from left to right they print numbers. -/
example (t : Fam) (p : ℕ) (hp : orderFine t p) (hp5 : p ≤ 5) (f : NumericalFluxType) (st : StepperType) :
    ∃ (T T1 : ℝ) (y : ℝ → Coeffs ℝ) (κ C : ℝ), T1 < T ∧ ∀ u0 B : ℝ, 0 < u0 → ∃ A : Arith, 0 < A.u ∧ A.u ≤ u0 ∧ B ≤ A.big ∧
      ∃ (toInt : _) (deck : Fl.Deck A.K) (dt tend : A.K), DeckRead A κ deck 3 p (hexType t) (breezeGas3 f) st dt tend ∧
        A.val dt ≤ A.val tend ∧ A.val tend ≤ T1 ∧
        ∃ fs m', MeshGiven A κ 3 deck fs slabMesh m' ∧ ∃ env, LaunchOK m' 2 slabPart env ∧ ∃ un sched ord job ranks c k sol,
          Fl.readJob toInt deck fs un 3 2 = some job ∧ (∀ r < 2, Fl.readyRank job un 3 2 (env r) r = some (ranks r)) ∧
          Proto.Exec (Fl.jobProg job ranks 2 sched) (Fl.jobInit job ranks) c k ∧ Fl.LoopDone job 2 c ∧
          Fl.jobFile job ranks 3 2 ord c = some sol ∧
          ∃ job' qs sums N, Fl.readPost deck fs un 3 2 = some job' ∧
            (∀ r < 2, Fl.postRank job' 3 2 (env r) sol r = some (qs r)) ∧ PostSumsOK sums 2 ((p + 2) * (p + 2) * (p + 2)) ((2 * max p 1 + 2) * (2 * max p 1 + 2) * (2 * max p 1 + 2)) qs ∧
            Fl.postPrint job' un 3 (fun _ _ _ _ => 0) sums qs = some N ∧ ∀ v < 3 + 2, A.fin (N v) ∧
              |A.val (N v) - hexDist t p slabMesh (fun _ s => (breezeGas3 f).icData.getD s 0) (y (A.val tend)) v| ≤
                C * (A.val dt + A.u / A.val dt) := by
  obtain ⟨T, T1, y, κ, hT, hT1, _, hst, hy, hr, hy0, H⟩ := breeze_case3 t p hp hp5 f st
  have hγ : 1 < (breezeGas3 f).γ := by norm_num [breezeGas3]
  obtain ⟨C1, h1, u1, B1, hh1, hu1, H1⟩ := C85_program_hex slabMesh slabMesh_ok slabMesh_hex slabMesh_faces t p hp hp5 (breezeGas3 f) hγ _ hst T T1 hT hT1
    y hy hr hy0 κ
  obtain ⟨C2, h2, u2, B2, hh2, hu2, H2⟩ := C86_run_post_hex slabMesh slabMesh_ok slabMesh_hex slabMesh_faces t p hp hp5 (breezeGas3 f) hγ _ hst T T1 hT hT1
    y hy hr hy0 κ
  refine ⟨T, T1, y, κ, C2, hT1, fun u0 B hu0 => ?_⟩
  obtain ⟨A, a0, a1, a2, ⟨toInt, htr⟩, deck, dt, tend, hdeck, d1, d2, d3, d4, d5, d6, d7, d8, fs, m', hgiven, env, hl, hcut⟩ :=
    H (max C1 C2) (min h1 h2) (min u0 (min u1 u2)) (max B (max B1 B2)) (lt_min hh1 hh2) (lt_min hu0 (lt_min hu1 hu2))
  simp only [le_min_iff] at a1 d3
  simp only [max_le_iff] at a2
  have e1 := (mul_le_mul_of_nonneg_right (le_max_left C1 C2) a0.le).trans d4
  have e2 := (mul_le_mul_of_nonneg_right (le_max_right C1 C2) a0.le).trans d4
  have hord : ∀ i : ℕ, ((fun _ => List.range 2 : ℕ → List ℕ) i).Perm (List.range 2) := fun _ => List.Perm.refl _
  have hsched : ∀ (r k : ℕ) l, ((fun _ _ l => l : ℕ → ℕ → List (FluxWrite A.K) → List (FluxWrite A.K)) r k l).Perm l :=
    fun _ _ _ => List.Perm.refl _
  obtain ⟨-, job, hjob, -, -, hready, Hrun⟩ := H1 A a1.2.1 a2.2.1 toInt htr deck st dt tend hdeck d1 d2 d3.1 e1 d5 (d2.le.trans d6) d7 d8 fs m'
    hgiven 2 slabPart env hl hcut ⟨fun _ => 0, fun _ => 0, fun _ => 0, 0, 0⟩ _ hsched _ hord
  obtain ⟨q0, hq0⟩ := Option.ne_none_iff_exists'.1 (hready 0 (by omega))
  obtain ⟨q1, hq1⟩ := Option.ne_none_iff_exists'.1 (hready 1 (by omega))
  have hranks : ∀ r < 2, Fl.readyRank job ⟨fun _ => 0, fun _ => 0, fun _ => 0, 0, 0⟩ 3 2 (env r) r = some (if r = 0 then q0 else q1) := by
    intro r hr
    interval_cases r
    · exact hq0
    · exact hq1
  obtain ⟨-, ⟨c, k, hex, hdone⟩, -⟩ := Hrun _ hranks _ _ .refl
  obtain ⟨-, -, hfile⟩ := Hrun _ hranks c k hex
  obtain ⟨sol, -, -, hsol, -⟩ := hfile hdone
  obtain ⟨job', p1, p2, p3⟩ := H2 A a1.2.2 a2.2.2 toInt htr deck st dt tend hdeck d1 d2 d3.2 e2 d5 (d2.le.trans d6) d7 d8 fs m'
    hgiven 2 slabPart env hl hcut ⟨fun _ => 0, fun _ => 0, fun _ => 0, 0, 0⟩ _ hsched _ hord job hjob _ hranks c k hex hdone sol hsol env
    ⟨fun _ => 0, fun _ => 0, fun _ => 0, 0, 0⟩ hl
  obtain ⟨s0, hs0⟩ := Option.ne_none_iff_exists'.1 (p2 0 (by omega))
  obtain ⟨s1, hs1⟩ := Option.ne_none_iff_exists'.1 (p2 1 (by omega))
  have hqs : ∀ r < 2, Fl.postRank job' 3 2 (env r) sol r = some (if r = 0 then s0 else s1) := by
    intro r hr
    interval_cases r
    · exact hs0
    · exact hs1
  obtain ⟨N, n1, n2⟩ := p3 _ hqs _ (leftSums_ok 2 _ _ _) fun _ _ _ _ => 0
  exact ⟨A, a0, a1.1, a2.1, toInt, deck, dt, tend, hdeck, d6, d7, fs, m', hgiven, env, hl, _, _, _, job, _, c, k, sol, hjob, hranks, hex, hdone,
    hsol, job', _, _, N, p1, hqs, leftSums_ok 2 _ _ _, n1, fun v hv => ⟨(n2 v hv).1, (n2 v hv).2.2⟩⟩

end DG
