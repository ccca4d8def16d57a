import Verif.Props.RoundingThreads
import Verif.Props.BitsThreadsExample
import Verif.Props.RoundingSetupExample

/-!
The hypotheses of `C84_threads_quad` and `C84_threads_hex` are met.
-/
namespace DG.Dev
open Kernel

/-- **C84** (threads, the hypotheses are met).  Every launch in the sense of `C84_case_quad` and `C84_case_hex` - the example
of `Props/RoundingSetupExample.lean` is one - can be executed by any number `n > 0` of threads per team, on any memory in
which the inverse mass matrices are zero, and there are executions of the kernels of its time loop. -/
theorem C84_threads_launch (A : Arith) (t gt : BasisType) (p dim : ℕ) (hgt : basisShape gt = basisShape t)
    (f : NumericalFluxType) (γ' : A.K) (ic' : (ℕ → A.K) → ℕ → A.K)
    (m' : GMesh A.K) (sh : ShapeType × Option ShapeType) (ht : basisShape t = some sh) (hm : MeshOfShape sh.1 1 m')
    (nranks : ℕ) (part : List ℕ) (rms : ℕ → RankMesh A.K) (D : Disc A.K) (g : ℕ → Geom A.K)
    (u : ℕ → Coeffs A.K) (L : MachineLaunch A t gt p dim f γ' ic' m' nranks part rms D g u) (st : Stepper) (dt : A.K)
    (n : ℕ) (hn : 0 < n) (m0 : ℕ → SCell → A.K) (hm0 : ∀ r e i j, m0 r ⟨.iMM, e, i, j, 0⟩ = 0) (nm0 : ℕ → NCell → A.K) :
    ∃ (mem : ℕ → SCell → A.K) (nor : ℕ → NCell → A.K),
      ThreadLaunch A t gt p dim f γ' ic' m' nranks part rms D mem nor ∧
      (∀ r < nranks, ∃ S : SetupRun t gt p 1 (dim + 2) r ic' (rms r) (mem r) (nor r),
        S.n1 = n ∧ S.n2 = n ∧ S.n3 = n ∧ S.m0 = m0 r ∧ S.nm0 = nm0 r) ∧
      ∃ x : Executions A.K, x.OK D (fun r => readGeom (mem r) (nor r)) rms dt st := by
  obtain ⟨junk, junk', L⟩ := L
  have h : ∀ r, ∃ (mem : SCell → A.K) (nor : NCell → A.K), r < nranks →
      ∃ S : SetupRun t gt p 1 (dim + 2) r ic' (rms r) mem nor,
        S.n1 = n ∧ S.n2 = n ∧ S.n3 = n ∧ S.m0 = m0 r ∧ S.nm0 = nm0 r := by
    intro r
    by_cases hr : r < nranks
    · obtain ⟨scr, MM0, hg⟩ := L.geom r hr
      obtain ⟨rhs0, U0, hu⟩ := L.init r hr
      obtain ⟨mem, nor, S, s⟩ := setupRun_exists hg hu hgt hn hn hn (fun _ i => ⟨i % n, Nat.mod_lt _ hn⟩)
        (fun _ i => ⟨i % n, Nat.mod_lt _ hn⟩) (fun _ i => ⟨i % n, Nat.mod_lt _ hn⟩) (m0 r) (nm0 r) (fun e _ i j => hm0 r e i j)
      exact ⟨mem, nor, fun _ => ⟨S, s⟩⟩
    · exact ⟨fun _ => 0, fun _ => 0, fun h => absurd h hr⟩
  choose mem nor hS using h
  refine ⟨mem, nor, ⟨L.world, ⟨junk, junk', L.disc⟩, fun r hr => ⟨(hS r hr).choose⟩⟩, hS, ?_⟩
  obtain ⟨sh1, nb, t1, _, t4, _, t5, t6⟩ := buildDisc_orderOK L.disc
  rw [ht] at t1; cases t1
  have hc : Conforming D (shapeOrients sh.1) m' :=
    ⟨fun f hf => by rw [t5]; exact hm.faceL f hf, fun f hf => by rw [t5]; exact hm.faceR f hf, hm.sides⟩
  exact (C70_executions_exist L.world D _ hc t6 _ st dt).1

end DG.Dev
