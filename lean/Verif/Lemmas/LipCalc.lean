import Mathlib.Analysis.Calculus.ContDiff.RCLike
import Mathlib.Analysis.SpecialFunctions.Sqrt
import Mathlib.Analysis.InnerProductSpace.PiL2
import Mathlib.Topology.MetricSpace.Lipschitz

/-!
Functions that are Lipschitz continuous near a point: sums, products, quotients, roots, maxima.
-/
open Set Filter Topology
open scoped NNReal
namespace DG

/-- `f` is Lipschitz continuous near `x`. -/
def LipAt {X Y : Type*} [PseudoMetricSpace X] [PseudoMetricSpace Y] (f : X → Y) (x : X) : Prop :=
  ∃ K : ℝ≥0, ∃ s ∈ 𝓝 x, LipschitzOnWith K f s

section
variable {X Y Z : Type*} [PseudoMetricSpace X] [PseudoMetricSpace Y] [PseudoMetricSpace Z]

theorem LipAt.continuousAt {f : X → Y} {x : X} (h : LipAt f x) : ContinuousAt f x := by
  obtain ⟨K, s, hs, hf⟩ := h
  exact hf.continuousOn.continuousAt hs

theorem lipAt_of_lipschitz {f : X → Y} {K : ℝ≥0} (h : LipschitzWith K f) (x : X) : LipAt f x :=
  ⟨K, univ, univ_mem, h.lipschitzOnWith⟩

theorem lipAt_const (c : Y) (x : X) : LipAt (fun _ : X => c) x := lipAt_of_lipschitz (LipschitzWith.const c) x

theorem LipAt.comp {g : Y → Z} {f : X → Y} {x : X} (hg : LipAt g (f x)) (hf : LipAt f x) :
    LipAt (fun x => g (f x)) x := by
  obtain ⟨K, s, hs, h1⟩ := hg
  have hc := hf.continuousAt
  obtain ⟨L, t, ht, h2⟩ := hf
  refine ⟨K * L, t ∩ f ⁻¹' s, inter_mem ht (hc hs), ?_⟩
  exact h1.comp (h2.mono inter_subset_left) fun x hx => hx.2

theorem LipAt.congr {f g : X → Y} {x : X} (hf : LipAt f x) (h : g =ᶠ[𝓝 x] f) : LipAt g x := by
  obtain ⟨K, s, hs, h1⟩ := hf
  refine ⟨K, s ∩ {z | g z = f z}, inter_mem hs h, fun a ha b hb => ?_⟩
  rw [show g a = f a from ha.2, show g b = f b from hb.2]
  exact h1 ha.1 hb.1

theorem LipAt.prodMk {f : X → Y} {g : X → Z} {x : X} (hf : LipAt f x) (hg : LipAt g x) :
    LipAt (fun x => (f x, g x)) x := by
  obtain ⟨K, s, hs, h1⟩ := hf
  obtain ⟨L, t, ht, h2⟩ := hg
  exact ⟨max K L, s ∩ t, inter_mem hs ht, (h1.mono inter_subset_left).prodMk (h2.mono inter_subset_right)⟩

theorem LipAt.pi {ι : Type*} [Fintype ι] {W : ι → Type*} [∀ i, PseudoMetricSpace (W i)]
    {f : X → ∀ i, W i} {x : X} (h : ∀ i, LipAt (fun x => f x i) x) : LipAt f x := by
  choose K s hs hf using h
  refine ⟨∑ i, K i, ⋂ i, s i, (Filter.iInter_mem).2 hs, ?_⟩
  refine LipschitzOnWith.of_dist_le_mul fun a ha b hb => ?_
  refine (dist_pi_le_iff (by positivity)).2 fun i => ?_
  have h1 := (hf i).dist_le_mul a (mem_iInter.1 ha i) b (mem_iInter.1 hb i)
  refine h1.trans ?_
  have h2 : K i ≤ ∑ j, K j := Finset.single_le_sum (f := K) (fun j _ => zero_le) (Finset.mem_univ i)
  exact mul_le_mul_of_nonneg_right (by exact_mod_cast h2) dist_nonneg

end

/-- continuously differentiable functions -/
theorem lipAt_of_contDiffAt {V W : Type*} [NormedAddCommGroup V] [NormedSpace ℝ V] [NormedAddCommGroup W]
    [NormedSpace ℝ W] {f : V → W} {x : V} (h : ContDiffAt ℝ 1 f x) : LipAt f x := by
  obtain ⟨K, t, ht, h1⟩ := h.exists_lipschitzOnWith
  exact ⟨K, t, ht, h1⟩

section
variable {X : Type*} [PseudoMetricSpace X] {f g : X → ℝ} {x : X}

theorem LipAt.add (hf : LipAt f x) (hg : LipAt g x) : LipAt (fun x => f x + g x) x :=
  LipAt.comp (g := fun p : ℝ × ℝ => p.1 + p.2) (lipAt_of_contDiffAt (by fun_prop)) (hf.prodMk hg)

theorem LipAt.sub (hf : LipAt f x) (hg : LipAt g x) : LipAt (fun x => f x - g x) x :=
  LipAt.comp (g := fun p : ℝ × ℝ => p.1 - p.2) (lipAt_of_contDiffAt (by fun_prop)) (hf.prodMk hg)

theorem LipAt.mul (hf : LipAt f x) (hg : LipAt g x) : LipAt (fun x => f x * g x) x :=
  LipAt.comp (g := fun p : ℝ × ℝ => p.1 * p.2) (lipAt_of_contDiffAt (by fun_prop)) (hf.prodMk hg)

theorem LipAt.div (hf : LipAt f x) (hg : LipAt g x) (h : g x ≠ 0) : LipAt (fun x => f x / g x) x :=
  LipAt.comp (g := fun p : ℝ × ℝ => p.1 / p.2)
    (lipAt_of_contDiffAt (contDiffAt_fst.div contDiffAt_snd h)) (hf.prodMk hg)

theorem LipAt.sqrt (hf : LipAt f x) (h : f x ≠ 0) : LipAt (fun x => Real.sqrt (f x)) x :=
  LipAt.comp (g := Real.sqrt) (lipAt_of_contDiffAt (Real.contDiffAt_sqrt h)) hf

theorem LipAt.max (hf : LipAt f x) (hg : LipAt g x) : LipAt (fun x => Max.max (f x) (g x)) x :=
  LipAt.comp (g := fun p : ℝ × ℝ => Max.max p.1 p.2)
    (lipAt_of_lipschitz (LipschitzWith.max (LipschitzWith.prod_fst) (LipschitzWith.prod_snd)) _) (hf.prodMk hg)

theorem LipAt.min (hf : LipAt f x) (hg : LipAt g x) : LipAt (fun x => Min.min (f x) (g x)) x :=
  LipAt.comp (g := fun p : ℝ × ℝ => Min.min p.1 p.2)
    (lipAt_of_lipschitz (LipschitzWith.min (LipschitzWith.prod_fst) (LipschitzWith.prod_snd)) _) (hf.prodMk hg)

theorem LipAt.sum {ι : Type*} {s : Finset ι} {F : ι → X → ℝ} (h : ∀ i ∈ s, LipAt (F i) x) :
    LipAt (fun x => ∑ i ∈ s, F i x) x := by
  classical
  induction s using Finset.induction_on with
  | empty => simpa using lipAt_const (0 : ℝ) x
  | insert a s ha ih =>
    simp only [Finset.sum_insert ha]
    exact (h a (Finset.mem_insert_self _ _)).add (ih fun i hi => h i (Finset.mem_insert_of_mem hi))

/-- the Euclidean length of a vector -/
theorem LipAt.length {n : ℕ} {F : ℕ → X → ℝ} (h : ∀ i < n, LipAt (F i) x) :
    LipAt (fun x => Real.sqrt (∑ i ∈ Finset.range n, F i x * F i x)) x := by
  have h1 : LipAt (fun x => (fun i : Fin n => F i x)) x := LipAt.pi fun i => h i i.2
  let e := (EuclideanSpace.equiv (Fin n) ℝ).symm
  have h2 : LipAt (fun v : Fin n → ℝ => ‖e v‖) (fun i : Fin n => F i x) :=
    LipAt.comp (g := fun w => ‖w‖) (f := e) (lipAt_of_lipschitz lipschitzWith_one_norm _)
      (lipAt_of_lipschitz e.toContinuousLinearMap.lipschitz _)
  refine (LipAt.comp h2 h1).congr (Eventually.of_forall fun z => ?_)
  show Real.sqrt (∑ i ∈ Finset.range n, F i z * F i z) = ‖e fun i : Fin n => F i z‖
  rw [EuclideanSpace.norm_eq]
  congr 1
  rw [Finset.sum_range]
  refine Finset.sum_congr rfl fun i _ => ?_
  rw [Real.norm_eq_abs, sq_abs, sq]
  rfl

end
end DG
