import Verif.Props.PostKernels
import Verif.Props.MainExample

/-! A concrete case of C79: the program of `Props/MainExample.lean`. -/
namespace DG.Dev

/-- C79 applies: the kernels of the post-processor on two ranks can be run after one step of the vortex, and any
run prints its distance from the vortex. -/
example (un un' : Unset) : ∃ f job', ∃ qs : ℕ → PostRank, ∃ m0 m1 m2 m3 : ℕ → SCell → ℝ,
    readPost perDeck (fun _ _ => some perFile) un' 2 2 = some job' ∧
    (∀ r < 2, postRank job' 2 2 (twoRanks perPart (1 - r)) f r = some (qs r)) ∧
    (∀ r < 2, PostExec job' un' 2 (qs r) (m0 r) (m1 r) (m2 r) (m3 r)) ∧
    ∀ v < 4, printedNorm 2 m3 v = quadDist .legendre 0 perMesh
      (fun x => vortexState vortexGas.γ 1 1 0 1 1 (x 0) (x 1)) (quadRun .legendre 0 perMesh vortexGas
      (fun x => vortexState vortexGas.γ 1 1 0 1 1 (x 0) (x 1)) .FE (1 / 100) 1) v := by
  obtain ⟨job, ranks, c, f, h1, h2, ⟨k, h3⟩, h4, h5, -⟩ := perProgram un
  have hl' : LaunchOK perMesh 2 perPart fun r => twoRanks perPart (1 - r) :=
    ⟨perLaunch.pos, perLaunch.parts, fun _ _ _ => rfl, fun _ => twoRanks_enum _ _, perLaunch.busy⟩
  obtain ⟨job', p1, p2, p3⟩ := C79_post_quad _ _ _ _ _ _ _ _ _ _ _ perRun 2 perPart (twoRanks perPart) perLaunch un
    (fun _ _ l => l.reverse) (fun _ _ l => List.reverse_perm l) (fun _ => [1, 0]) (fun _ => by decide) job ranks h1 h2 c k h3 h4
    f h5 (fun r => twoRanks perPart (1 - r)) hl' un'
  have : ∀ r, ∃ q, r < 2 → postRank job' 2 2 (twoRanks perPart (1 - r)) f r = some q := by
    intro r
    by_cases hr : r < 2
    · obtain ⟨q, hq⟩ := Option.ne_none_iff_exists'.1 (p2 r hr)
      exact ⟨q, fun _ => hq⟩
    · exact ⟨(Option.ne_none_iff_exists'.1 (p2 0 (by omega))).choose, fun h => absurd h hr⟩
  choose qs hqs using this
  obtain ⟨⟨m1, m2, m3, hm⟩, hall⟩ := p3 qs hqs fun _ _ => 7
  exact ⟨f, job', qs, _, m1, m2, m3, p1, hqs, hm, hall m1 m2 m3 hm⟩

end DG.Dev
