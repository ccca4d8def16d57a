import Verif.Lemmas.LipFlux
import Verif.Lemmas.LipOrder
import Verif.Spec.Wellposed
import Verif.Props.TimeOrder

/-!
The right-hand side of the scheme for the Euler equations is Lipschitz continuous near regular states, and
these states form an open set.
-/
open Set Filter Topology
namespace DG
variable {α : Type} {d : Disc ℝ} {ne : ℕ} {f : NumericalFluxType} {γ : ℝ} {m : GMesh α} {G : Geom ℝ}
  {norient : ℕ} {u : Box d ne}

theorem lip_entry (e b s : ℕ) : LipAt (fun u : Box d ne => ofBox u e b s) u := by
  unfold ofBox
  by_cases h : e < ne ∧ b < d.nb ∧ s < d.ns
  · simp only [h, and_self, dite_true]
    exact lipAt_of_contDiffAt (by fun_prop)
  · simp only [h, dite_false]
    exact lipAt_const _ _

theorem lip_volState (e q : ℕ) : LipVec (fun u : Box d ne => volState d (ofBox u) e q) u := by
  intro s
  unfold volState
  by_cases h : s < d.ns
  · simp only [h, if_true]
    exact LipAt.sum fun b _ => (lipAt_const _ _).mul (lip_entry _ _ _)
  · simp only [h, if_false]
    exact lipAt_const _ _

theorem lip_traceState (e face j : ℕ) : LipVec (fun u : Box d ne => traceState d (ofBox u) e face j) u := by
  intro s
  unfold traceState
  by_cases h : s < d.ns
  · simp only [h, if_true]
    exact LipAt.sum fun b _ => (lipAt_const _ _).mul (lip_entry _ _ _)
  · simp only [h, if_false]
    exact lipAt_const _ _

theorem LipAt.listSum {X ι : Type*} [PseudoMetricSpace X] {x : X} {l : List ι} {F : ι → X → ℝ}
    (h : ∀ i ∈ l, LipAt (F i) x) : LipAt (fun x => (l.map fun i => F i x).sum) x := by
  induction l with
  | nil => simpa using lipAt_const (0 : ℝ) x
  | cons a l ih =>
    simp only [List.map_cons, List.sum_cons]
    exact (h a (by simp)).add (ih fun i hi => h i (by simp [hi]))

theorem lip_numFlux {X : Type*} [PseudoMetricSpace X] {x : X} {UL UR : X → ℕ → ℝ} {dim : ℕ}
    (hL : LipVec UL x) (hR : LipVec UR x) (hγ : 1 < γ) (aL : Admissible dim γ (UL x))
    (aR : Admissible dim γ (UR x)) (N : ℕ → ℝ)
    (hw : f = .HLLC → WavesOrdered dim γ (UL x) (UR x) (unit dim N)) {s : ℕ} (hs : s < dim + 2) :
    LipAt (fun z => eulerNumFlux f dim γ (UL z) (UR z) N s) x := by
  cases f with
  | LaxFriedrichs => exact lip_rusanov hL hR hγ aL aR N s
  | HLLC => exact (lipAt_const _ _).mul (lip_hllc hL hR hγ aL aR _ (hw rfl).1 (hw rfl).2 s hs)

/-- The right-hand side is Lipschitz continuous near regular states. -/
theorem lip_rhs (hE : EulerScheme d f γ) (hγ : 1 < γ) (hc : Conforming d norient m) (ho : OrderOK d norient)
    {u : Box d m.numElems} (h : StatesRegular f γ d m G (ofBox u)) :
    LipAt (boxRHS d m.numElems (fun _ => globalRHS d m G) 0) u := by
  refine LipAt.pi fun e => LipAt.pi fun b => LipAt.pi fun s => ?_
  have hs : (s : ℕ) < d.dim + 2 := lt_of_lt_of_eq s.2 hE.vars
  show LipAt (fun u => ∑ j ∈ Finset.range d.nb, G.iMM e b j * globalResidual d m G (ofBox u) e j s) u
  refine LipAt.sum fun j _ => (lipAt_const _ _).mul ?_
  unfold globalResidual
  refine LipAt.add ?_ (LipAt.listSum fun x hx => ?_)
  · unfold volumeTerm
    refine LipAt.sum fun q hq => LipAt.sum fun i _ => (lipAt_const _ _).mul (LipAt.sum fun k _ => ?_)
    refine (((LipAt.mul ?_ (lipAt_const _ _)).mul (lipAt_const _ _)).mul (lipAt_const _ _))
    rw [hE.vol]
    exact (lip_volState _ _).eulerFlux
      (h.admissible.vol e e.2 q (Finset.mem_range.1 hq)).ρ_pos.ne' _ _
  · unfold faceTerm
    have hx1 : x.1 ∈ m.faces := List.fst_mem_of_mem_zipIdx hx
    refine LipAt.sum fun i hi => (lipAt_const _ _).mul ?_
    have hi' := Finset.mem_range.1 hi
    unfold meshFlux
    refine LipAt.mul ?_ (lipAt_const _ _)
    rw [hE.num]
    exact lip_numFlux (lip_traceState _ _ _) (lip_traceState _ _ _) hγ
      (h.admissible.left _ hx1 _ ((ho _ (hc.faceL _ hx1).2).1 i hi'))
      (h.admissible.right _ hx1 _ ((ho _ (hc.faceR _ hx1).2).1 i hi')) _
      (fun hf => h.waves hf x hx i hi') hs

/-- Regular states form an open set. -/
theorem regular_open (hγ : 1 < γ) (hc : Conforming d norient m) (ho : OrderOK d norient) :
    IsOpen {u : Box d ne | StatesRegular f γ d m G (ofBox u)} := by
  rw [isOpen_iff_mem_nhds]
  intro u h
  have fin : ∀ n : ℕ, {i : ℕ | i < n}.Finite := fun n => Set.finite_lt_nat n
  have h1 : ∀ᶠ v in 𝓝 u, ∀ e ∈ {i | i < m.numElems}, ∀ q ∈ {i | i < d.nq},
      Admissible d.dim γ (volState d (ofBox v) e q) := by
    refine (eventually_all_finite (fin _)).2 fun e he => (eventually_all_finite (fin _)).2 fun q hq => ?_
    exact (lip_volState e q).eventually_adm (h.admissible.vol e he q hq)
  have h2 : ∀ᶠ v in 𝓝 u, ∀ x ∈ {x | x ∈ m.faces}, ∀ i ∈ {i | i < d.nqf},
      Admissible d.dim γ (traceState d (ofBox v) x.elemL x.faceL i) := by
    refine (eventually_all_finite (List.finite_toSet _)).2 fun x hx => (eventually_all_finite (fin _)).2 fun i hi => ?_
    exact (lip_traceState _ _ _).eventually_adm (h.admissible.left x hx i hi)
  have h3 : ∀ᶠ v in 𝓝 u, ∀ x ∈ {x | x ∈ m.faces}, ∀ i ∈ {i | i < d.nqf},
      Admissible d.dim γ (traceState d (ofBox v) x.elemR x.faceR i) := by
    refine (eventually_all_finite (List.finite_toSet _)).2 fun x hx => (eventually_all_finite (fin _)).2 fun i hi => ?_
    exact (lip_traceState _ _ _).eventually_adm (h.admissible.right x hx i hi)
  have h4 : ∀ᶠ v in 𝓝 u, f = .HLLC → ∀ x ∈ {x | x ∈ m.faces.zipIdx}, ∀ i ∈ {i | i < d.nqf},
      WavesOrdered d.dim γ (traceState d (ofBox v) x.1.elemL x.1.faceL (d.ptsOrder x.1.orientL i))
        (traceState d (ofBox v) x.1.elemR x.1.faceR (d.ptsOrder x.1.orientR i))
        (unit d.dim (cArr d.dim (G.normals x.2 i))) := by
    by_cases hf : f = .HLLC
    · refine Eventually.mono ((eventually_all_finite (List.finite_toSet _)).2 fun x hx =>
        (eventually_all_finite (fin _)).2 fun i hi => ?_) fun v hv _ => hv
      have hx1 : x.1 ∈ m.faces := List.fst_mem_of_mem_zipIdx hx
      have w := h.waves hf x hx i hi
      exact lip_ordered (lip_traceState _ _ _) (lip_traceState _ _ _) hγ
        (h.admissible.left _ hx1 _ ((ho _ (hc.faceL _ hx1).2).1 i hi))
        (h.admissible.right _ hx1 _ ((ho _ (hc.faceR _ hx1).2).1 i hi)) _ w.1 w.2
    · exact Eventually.of_forall fun v hv => absurd hv hf
  filter_upwards [h1, h2, h3, h4] with v b1 b2 b3 b4
  exact ⟨⟨fun e he q hq => b1 e he q hq, fun x hx i hi => b2 x hx i hi, fun x hx i hi => b3 x hx i hi⟩,
    fun hf x hx i hi => b4 hf x hx i hi⟩

end DG
