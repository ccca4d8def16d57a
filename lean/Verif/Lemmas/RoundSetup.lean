import Verif.Lemmas.RoundElem
import Verif.Lemmas.RoundUniform

/-!
The setup in rounded arithmetic, uniformly over all computers that are precise enough.
-/
open Filter Topology
namespace DG

/-! ### all computers at once -/

/-- statements that hold from some number of roundoffs on, on all computers that are precise enough -/
structure EvK {ι : Type*} (l : Filter ι) (Φ : ℝ → ι → Prop) : Prop where
  mono : ∀ i κ κ', κ ≤ κ' → Φ κ i → Φ κ' i
  ev : ∃ κ, ∀ᶠ i in l, Φ κ i

section ev
variable {ι : Type*} {l : Filter ι} {A : ι → Arith}

theorem Arith.Close.mono {A : Arith} {κ κ' x : ℝ} {a : A.K} (h : A.Close κ a x) (hk : κ ≤ κ') : A.Close κ' a x :=
  ⟨h.1, h.2.trans (mul_le_mul_of_nonneg_right hk A.u_nonneg)⟩

theorem EvK.fo {a : ∀ i, (A i).K} {x : ℝ} (h : Fo l A a x) : EvK l fun κ i => (A i).Close κ (a i) x := by
  refine ⟨fun i κ κ' hk h => h.mono hk, ?_⟩
  obtain ⟨C, hC⟩ := h.err.bound
  refine ⟨C, ?_⟩
  filter_upwards [h.fin, hC] with i c1 c2
  rw [Real.norm_eq_abs, Real.norm_of_nonneg (A i).u_nonneg] at c2
  exact ⟨c1, c2⟩

theorem EvK.and {Φ Ψ : ℝ → ι → Prop} (h : EvK l Φ) (h' : EvK l Ψ) : EvK l fun κ i => Φ κ i ∧ Ψ κ i := by
  refine ⟨fun i κ κ' hk hh => ⟨h.mono i κ κ' hk hh.1, h'.mono i κ κ' hk hh.2⟩, ?_⟩
  obtain ⟨κ, e⟩ := h.ev
  obtain ⟨κ', e'⟩ := h'.ev
  refine ⟨max κ κ', ?_⟩
  filter_upwards [e, e'] with i c1 c2
  exact ⟨h.mono i _ _ (le_max_left _ _) c1, h'.mono i _ _ (le_max_right _ _) c2⟩

theorem EvK.lt {n : ℕ} {Φ : ℕ → ℝ → ι → Prop} (h : ∀ j < n, EvK l (Φ j)) : EvK l fun κ i => ∀ j < n, Φ j κ i := by
  induction n with
  | zero => exact ⟨fun i κ κ' hk hh j hj => absurd hj (by omega), 0, Eventually.of_forall fun i j hj => absurd hj (by omega)⟩
  | succ n ih =>
    have h1 := (ih fun j hj => h j (by omega)).and (h n (by omega))
    refine ⟨fun i κ κ' hk hh j hj => (h j hj).mono i κ κ' hk (hh j hj), ?_⟩
    obtain ⟨κ, e⟩ := h1.ev
    refine ⟨κ, e.mono fun i hi j hj => ?_⟩
    rcases Nat.lt_succ_iff_lt_or_eq.1 hj with h | rfl
    · exact hi.1 j h
    · exact hi.2

theorem EvK.foM {m n : ℕ} {M : ∀ i, ℕ → ℕ → (A i).K} {M' : ℕ → ℕ → ℝ} (h : FoM l A m n M M') :
    EvK l fun κ i => ∀ a < m, ∀ b < n, (A i).Close κ (M i a b) (M' a b) :=
  EvK.lt fun a ha => EvK.lt fun b hb => EvK.fo (h a ha b hb)

/-- the other way round -/
theorem Fo.ofClose {a : ∀ i, (A i).K} {x κ : ℝ} (h : ∀ᶠ i in l, (A i).Close κ (a i) x) : Fo l A a x :=
  ⟨tendsto_const_nhds, h.mono fun i hi => hi.1,
    Asymptotics.IsBigO.of_bound κ (h.mono fun i hi => by
      rw [Real.norm_eq_abs, Real.norm_of_nonneg (A i).u_nonneg]; exact hi.2)⟩

end ev

/-- a computer with node coordinates of the elements within `κ` roundoffs of the exact ones, and further data -/
def Sit {P : Arith → Type} (R : ∀ A, P A → Prop) (ne nn dim : ℕ) (κ : ℝ) (X : ℕ → ℕ → ℕ → ℝ) : Type 1 :=
  {s : Σ A : Arith, (ℕ → ℕ → ℕ → A.K) × P A //
    (∀ e < ne, ∀ i < nn, ∀ j < dim, s.1.Close κ (s.2.1 e i j) (X e i j)) ∧ R s.1 s.2.2}

section sit
variable {P : Arith → Type} {R : ∀ A, P A → Prop} {ne nn dim : ℕ} {κ : ℝ} {X : ℕ → ℕ → ℕ → ℝ}

def Sit.A (s : Sit R ne nn dim κ X) : Arith := s.1.1
def Sit.co (s : Sit R ne nn dim κ X) : ℕ → ℕ → ℕ → s.A.K := s.1.2.1
def Sit.par (s : Sit R ne nn dim κ X) : P s.A := s.1.2.2

/-- more and more precise computers -/
def sitFilter {P : Arith → Type} (R : ∀ A, P A → Prop) (ne nn dim : ℕ) (κ : ℝ) (X : ℕ → ℕ → ℕ → ℝ) : Filter (Sit R ne nn dim κ X) :=
  comap (fun s => s.A.u) (𝓝 0) ⊓ comap (fun s => s.A.big) atTop

theorem sit_fine : Fine (sitFilter R ne nn dim κ X) (Sit.A (R := R) (ne := ne) (nn := nn) (dim := dim) (κ := κ) (X := X)) :=
  ⟨tendsto_comap.mono_left inf_le_left, tendsto_comap.mono_left inf_le_right⟩

theorem sit_coords {e : ℕ} (he : e < ne) :
    FoM (sitFilter R ne nn dim κ X) Sit.A nn dim (fun s => s.co e) (X e) :=
  fun i hi j hj => Fo.ofClose (κ := κ) (Eventually.of_forall fun s => s.2.1 e he i hi j hj)

theorem sit_eventually {P : Sit R ne nn dim κ X → Prop} (h : ∀ᶠ s in sitFilter R ne nn dim κ X, P s) :
    ∃ u0 B : ℝ, 0 < u0 ∧ ∀ s : Sit R ne nn dim κ X, s.A.u ≤ u0 → B ≤ s.A.big → P s := by
  obtain ⟨p, hp, q, hq, hpq⟩ := eventually_inf.1 h
  rw [mem_comap] at hp hq
  obtain ⟨U, hU, hUp⟩ := hp
  obtain ⟨V, hV, hVq⟩ := hq
  obtain ⟨ε, hε, hb⟩ := Metric.mem_nhds_iff.1 hU
  obtain ⟨B, hB⟩ := mem_atTop_sets.1 hV
  refine ⟨ε / 2, B, by positivity, fun s hu hbig => hpq s ⟨hUp ?_, hVq (hB _ hbig)⟩⟩
  apply hb
  rw [Metric.mem_ball, Real.dist_eq, sub_zero, abs_of_nonneg s.A.u_nonneg]
  linarith

end sit

/-- what is needed of the exact setup -/
structure ExactSetup (sh : ShapeType) (t gt : BasisType) (p gorder nb ne : ℕ) (X : ℕ → ℕ → ℕ → ℝ) (mass vol proj : RefData ℝ)
    (fr : FaceRef ℝ) (N1 N2 : ℕ → ℕ → List (ℕ → ℝ)) : Prop where
  dim : shapeDim sh = 2 ∨ shapeDim sh = 3
  nbs : nb = 1 ∨ 4 ≤ nb
  massE : volRef t gt p gorder (massRuleOrder p) = some mass
  volE : volRef t gt p gorder p = some vol
  projE : volRef t gt p gorder (projRuleOrder p) = some proj
  faceE : faceRef t p = some fr
  djac : ∀ e < ne, ∀ q < vol.nq, setupDjac (shapeDim sh) (shapeNodes sh gorder) vol (X e) q ≠ 0
  minors : ∀ e < ne, ∀ k < nb, (toM (k + 1) (k + 1) (massMatrix mass.nq nb mass.wts
    (setupDjac (shapeDim sh) (shapeNodes sh gorder) mass (X e)) mass.val (fun _ _ => 0) fun _ _ => 0)).det ≠ 0
  normals1 : ∀ e < ne, ∀ f < shapeFaces sh, nodesNormals sh gorder 1 f (X e) fr.pts = some (N1 e f)
  normals2 : ∀ e < ne, ∀ f < shapeFaces sh, nodesNormals sh gorder (-1) f (X e) fr.pts = some (N2 e f)

/-- the setup of the elements on a computer, within `κ` roundoffs of the exact one -/
structure MachineSetup (A : Arith) (κ : ℝ) (sh : ShapeType) (t gt : BasisType) (p gorder nb ns ne : ℕ) (X : ℕ → ℕ → ℕ → ℝ)
    (X' : ℕ → ℕ → ℕ → A.K) (ic : (ℕ → ℝ) → ℕ → ℝ) (ic' : (ℕ → A.K) → ℕ → A.K) (mass vol proj : RefData ℝ) (fr : FaceRef ℝ)
    (N1 N2 : ℕ → ℕ → List (ℕ → ℝ)) (mass' vol' proj' : RefData A.K) (fr' : FaceRef A.K) : Prop where
  massE : volRef t gt p gorder (massRuleOrder p) = some mass'
  volE : volRef t gt p gorder p = some vol'
  projE : volRef t gt p gorder (projRuleOrder p) = some proj'
  faceE : faceRef t p = some fr'
  nq : vol'.nq = vol.nq
  nqf : fr'.nqf = fr.nqf
  val : ∀ q < vol.nq, ∀ b < nb, A.Close κ (vol'.val q b) (vol.val q b)
  grad : ∀ q < vol.nq, ∀ b < nb, ∀ j < shapeDim sh, A.Close κ (vol'.grad q b j) (vol.grad q b j)
  wts : ∀ q < vol.nq, A.Close κ (vol'.wts q) (vol.wts q)
  fval : ∀ f < shapeFaces sh, ∀ q < fr.nqf, ∀ b < nb, A.Close κ (fr'.val f q b) (fr.val f q b)
  fwts : ∀ q < fr.nqf, A.Close κ (fr'.wts q) (fr.wts q)
  djac : ∀ e < ne, ∀ q < vol.nq, A.Close κ (setupDjac (shapeDim sh) (shapeNodes sh gorder) vol' (X' e) q)
    (setupDjac (shapeDim sh) (shapeNodes sh gorder) vol (X e) q)
  ijac : ∀ e < ne, ∀ q < vol.nq, ∀ i < shapeDim sh, ∀ j < shapeDim sh,
    A.Close κ (setupIjac (shapeDim sh) (shapeNodes sh gorder) vol' (X' e) q i j)
      (setupIjac (shapeDim sh) (shapeNodes sh gorder) vol (X e) q i j)
  iMM : ∀ e < ne, ∀ i < nb, ∀ j < nb,
    A.Close κ (invMass mass'.nq nb mass'.wts (setupDjac (shapeDim sh) (shapeNodes sh gorder) mass' (X' e)) mass'.val
        (fun _ _ => 0) (fun _ _ => 0) (fun _ _ => 0) i j)
      (invMass mass.nq nb mass.wts (setupDjac (shapeDim sh) (shapeNodes sh gorder) mass (X e)) mass.val
        (fun _ _ => 0) (fun _ _ => 0) (fun _ _ => 0) i j)
  init : ∀ e < ne, ∀ b < nb, ∀ s < ns,
    A.Close κ (l2Projection proj'.nq nb ns (invMass mass'.nq nb mass'.wts
        (setupDjac (shapeDim sh) (shapeNodes sh gorder) mass' (X' e)) mass'.val (fun _ _ => 0) (fun _ _ => 0) fun _ _ => 0)
        proj'.val (setupDjac (shapeDim sh) (shapeNodes sh gorder) proj' (X' e)) proj'.wts
        (fun q => ic' (cArr (shapeDim sh) (refToPhys (shapeDim sh) (shapeNodes sh gorder) (proj'.gval q) (X' e))))
        (fun _ _ => 0) (fun _ _ => 0) b s)
      (l2Projection proj.nq nb ns (invMass mass.nq nb mass.wts
        (setupDjac (shapeDim sh) (shapeNodes sh gorder) mass (X e)) mass.val (fun _ _ => 0) (fun _ _ => 0) fun _ _ => 0)
        proj.val (setupDjac (shapeDim sh) (shapeNodes sh gorder) proj (X e)) proj.wts
        (fun q => ic (cArr (shapeDim sh) (refToPhys (shapeDim sh) (shapeNodes sh gorder) (proj.gval q) (X e))))
        (fun _ _ => 0) (fun _ _ => 0) b s)
  normals1 : ∀ e < ne, ∀ f < shapeFaces sh, ∃ L, nodesNormals sh gorder 1 f (X' e) fr'.pts = some L ∧
    ∀ q < fr.nqf, ∀ j < shapeDim sh, A.Close κ ((L[q]?.getD fun _ => 0) j) (((N1 e f)[q]?.getD fun _ => 0) j)
  normals2 : ∀ e < ne, ∀ f < shapeFaces sh, ∃ L, nodesNormals sh gorder (-1) f (X' e) fr'.pts = some L ∧
    ∀ q < fr.nqf, ∀ j < shapeDim sh, A.Close κ ((L[q]?.getD fun _ => 0) j) (((N2 e f)[q]?.getD fun _ => 0) j)

section main
variable {ι : Type*} {l : Filter ι} {A : ι → Arith}

theorem ic_follow (hA : Fine l A) {dim ns : ℕ} {R : ∀ A : Arith, ((ℕ → A.K) → ℕ → A.K) → Prop} {ic : (ℕ → ℝ) → ℕ → ℝ}
    (h : ComputesAll dim ns R ic) {ic' : ∀ i, (ℕ → (A i).K) → ℕ → (A i).K} (hR : ∀ i, R (A i) (ic' i)) {x : ∀ i, ℕ → (A i).K} {X : ℕ → ℝ} (hx : ∀ j < dim, Fo l A (fun i => x i j) (X j)) :
    ∀ s < ns, Fo l A (fun i => ic' i (x i) s) (ic X s) := by
  obtain ⟨κ, hκ⟩ := (EvK.lt fun j hj => EvK.fo (hx j hj)).ev
  obtain ⟨κ', u0, B, hu0, H⟩ := h κ X
  intro s hs
  refine Fo.ofClose (κ := κ') ?_
  filter_upwards [hκ, hA.u.eventually (gt_mem_nhds hu0), hA.big.eventually_ge_atTop B] with i c1 c2 c3
  exact H (A i) (le_of_lt c2) c3 (ic' i) (hR i) (x i) c1 s hs

theorem Computes.all {dim ns : ℕ} {ic' : ∀ A : Arith, (ℕ → A.K) → ℕ → A.K} {ic : (ℕ → ℝ) → ℕ → ℝ} (h : Computes dim ns ic' ic) :
    ComputesAll dim ns (fun A f => f = ic' A) ic := by
  intro κ X
  obtain ⟨κ', u0, B, hu0, H⟩ := h κ X
  refine ⟨κ', u0, B, hu0, ?_⟩
  rintro A hu hB _ rfl
  exact H A hu hB

variable {sh : ShapeType} {t gt : BasisType} {p gorder nb ns ne : ℕ} {X : ℕ → ℕ → ℕ → ℝ} {mass vol proj : RefData ℝ}
  {fr : FaceRef ℝ} {N1 N2 : ℕ → ℕ → List (ℕ → ℝ)}

theorem setup_close (h : ExactSetup sh t gt p gorder nb ne X mass vol proj fr N1 N2) (κ : ℝ)
    {R : ∀ A : Arith, ((ℕ → A.K) → ℕ → A.K) → Prop} {ic : (ℕ → ℝ) → ℕ → ℝ} (hic : ComputesAll (shapeDim sh) ns R ic) :
    ∃ κ' u0 B : ℝ, 0 < u0 ∧ ∀ A : Arith, A.u ≤ u0 → B ≤ A.big → ∀ ic' : (ℕ → A.K) → ℕ → A.K, R A ic' → ∀ X' : ℕ → ℕ → ℕ → A.K,
      (∀ e < ne, ∀ i < shapeNodes sh gorder, ∀ j < shapeDim sh, A.Close κ (X' e i j) (X e i j)) →
      ∃ mass' vol' proj' fr', MachineSetup A κ' sh t gt p gorder nb ns ne X X' ic ic' mass vol proj fr N1 N2 mass' vol' proj' fr' := by
  set l := sitFilter R ne (shapeNodes sh gorder) (shapeDim sh) κ X with hl
  have hA : Fine l Sit.A := sit_fine
  obtain ⟨mass', m1, m2⟩ := volRef_follow hA t gt p gorder (massRuleOrder p) mass h.massE
  obtain ⟨vol', v1, v2⟩ := volRef_follow hA t gt p gorder p vol h.volE
  obtain ⟨proj', p1, p2⟩ := volRef_follow hA t gt p gorder (projRuleOrder p) proj h.projE
  obtain ⟨fr', f1, f2⟩ := faceRef_follow hA t p fr h.faceE
  have hX := fun e (he : e < ne) => sit_coords (R := R) (nn := shapeNodes sh gorder) (dim := shapeDim sh) (κ := κ) (X := X) he
  have hN1 : ∀ e < ne, ∀ f < shapeFaces sh, ∃ L : ∀ i : Sit R ne (shapeNodes sh gorder) (shapeDim sh) κ X, List (ℕ → i.A.K),
      (∀ i, nodesNormals sh gorder 1 f (i.co e) (fr' i).pts = some (L i)) ∧ RL (FoV l Sit.A (shapeDim sh)) L (N1 e f) :=
    fun e he f hf => normals_follow hA sh Fo.one hf (hX e he) f2.pts _ (h.normals1 e he f hf)
  have hN2 : ∀ e < ne, ∀ f < shapeFaces sh, ∃ L : ∀ i : Sit R ne (shapeNodes sh gorder) (shapeDim sh) κ X, List (ℕ → i.A.K),
      (∀ i, nodesNormals sh gorder (-1) f (i.co e) (fr' i).pts = some (L i)) ∧ RL (FoV l Sit.A (shapeDim sh)) L (N2 e f) :=
    fun e he f hf => normals_follow hA sh Fo.one.neg hf (hX e he) f2.pts _ (h.normals2 e he f hf)
  have hdj := fun {r : ∀ i : Sit R ne (shapeNodes sh gorder) (shapeDim sh) κ X, RefData i.A.K} {r' : RefData ℝ} (hr : FoRef l Sit.A r r') e
    (he : e < ne) q => djac_follow hA h.dim hr (hX e he) q
  have hiM : ∀ e < ne, FoM l Sit.A nb nb _ _ := fun e he =>
    invMass_follow hA h.nbs (nq := mass.nq) (scr := fun _ _ _ => 0) (MM := fun _ _ _ => 0) (I := fun _ _ _ => 0) (I' := fun _ _ => 0)
      (fun q _ => m2.wts q) (fun q _ => hdj m2 e he q) (fun q _ b _ => m2.val q b) (fun _ _ _ _ => Fo.zero) (h.minors e he)
  have hI : ∀ e < ne, FoM l Sit.A nb ns _ _ := fun e he =>
    l2_follow hA (nq := proj.nq) (R := fun _ _ _ => 0) (U := fun _ _ _ => 0) (R' := fun _ _ => 0) (U' := fun _ _ => 0)
      (fun q _ => p2.wts q) (fun q _ => hdj p2 e he q) (fun q _ b _ => p2.val q b) (hiM e he)
      (F := fun i q => i.par (cArr (shapeDim sh) (refToPhys (shapeDim sh) (shapeNodes sh gorder) ((proj' i).gval q) (i.co e))))
      (F' := fun q => ic (cArr (shapeDim sh) (refToPhys (shapeDim sh) (shapeNodes sh gorder) (proj.gval q) (X e))))
      (fun q _ s hs => ic_follow hA hic (ic' := fun i => i.par) (fun i => i.2.2) (fun j hj => by
        simp only [cArr, hj, if_true]
        exact phys_follow hA (hX e he) (p2.gval q) j hj) s hs)
  have kN : ∀ (sg : ∀ i : Sit R ne (shapeNodes sh gorder) (shapeDim sh) κ X, i.A.K) (N : ℕ → ℕ → List (ℕ → ℝ)),
      (∀ e < ne, ∀ f < shapeFaces sh, ∃ L : ∀ i : Sit R ne (shapeNodes sh gorder) (shapeDim sh) κ X, List (ℕ → i.A.K),
        (∀ i, nodesNormals sh gorder (sg i) f (i.co e) (fr' i).pts = some (L i)) ∧ RL (FoV l Sit.A (shapeDim sh)) L (N e f)) →
      EvK l fun κ' i => ∀ e < ne, ∀ f < shapeFaces sh, ∃ L, nodesNormals sh gorder (sg i) f (i.co e) (fr' i).pts = some L ∧
        ∀ q < fr.nqf, ∀ j < shapeDim sh, i.A.Close κ' ((L[q]?.getD fun _ => 0) j) (((N e f)[q]?.getD fun _ => 0) j) := by
    intro sg N hN
    refine EvK.lt fun e he => EvK.lt fun f hf => ?_
    obtain ⟨L, h1, h2⟩ := hN e he f hf
    have h3 : EvK l fun κ' (i : Sit R ne (shapeNodes sh gorder) (shapeDim sh) κ X) => ∀ q < fr.nqf, ∀ j < shapeDim sh,
        i.A.Close κ' (((L i)[q]?.getD fun _ => 0) j) (((N e f)[q]?.getD fun _ => 0) j) :=
      EvK.lt fun q _ => EvK.lt fun j hj => EvK.fo (h2.getD (d := fun _ _ => 0) (d' := fun _ => 0) (fun _ _ => Fo.zero) q j hj)
    refine ⟨?_, ?_⟩
    · rintro i k k' hk ⟨L, a1, a2⟩
      exact ⟨L, a1, fun q hq j hj => (a2 q hq j hj).mono hk⟩
    · obtain ⟨k, hk⟩ := h3.ev
      exact ⟨k, hk.mono fun i hi => ⟨L i, h1 i, hi⟩⟩
  have E := (((((((((((EvK.lt (n := vol.nq) fun q _ => EvK.lt (n := nb) fun b _ => EvK.fo (v2.val q b)).and
    (EvK.lt (n := vol.nq) fun q _ => EvK.lt (n := nb) fun b _ => EvK.lt (n := shapeDim sh) fun j _ => EvK.fo (v2.grad q b j))).and
    (EvK.lt (n := vol.nq) fun q _ => EvK.fo (v2.wts q))).and
    (EvK.lt (n := shapeFaces sh) fun f _ => EvK.lt (n := fr.nqf) fun q _ => EvK.lt (n := nb) fun b _ => EvK.fo (f2.val f q b))).and
    (EvK.lt (n := fr.nqf) fun q _ => EvK.fo (f2.wts q))).and
    (EvK.lt (n := ne) fun e he => EvK.lt (n := vol.nq) fun q _ => EvK.fo (hdj v2 e he q))).and
    (EvK.lt (n := ne) fun e he => EvK.lt (n := vol.nq) fun q hq => EvK.foM (ijac_follow hA h.dim v2 (hX e he) q (h.djac e he q hq)))).and
    (EvK.lt (n := ne) fun e he => EvK.foM (hiM e he))).and
    (EvK.lt (n := ne) fun e he => EvK.foM (hI e he))).and (kN (fun _ => 1) N1 hN1)).and (kN (fun _ => -1) N2 hN2))
  obtain ⟨κ', e1⟩ := E.ev
  obtain ⟨u0, B, hu0, H⟩ := sit_eventually e1
  refine ⟨κ', u0, B, hu0, fun A hu hB ic' hR X' hX' => ?_⟩
  obtain ⟨⟨⟨⟨⟨⟨⟨⟨⟨⟨c1, c2⟩, c3⟩, c4⟩, c5⟩, c6⟩, c7⟩, c8⟩, c9⟩, c10⟩, c11⟩ := H ⟨⟨A, X', ic'⟩, hX', hR⟩ hu hB
  set i : Sit R ne (shapeNodes sh gorder) (shapeDim sh) κ X := ⟨⟨A, X', ic'⟩, hX', hR⟩ with hi
  refine ⟨mass' i, vol' i, proj' i, fr' i, m1 i, v1 i, p1 i, f1 i, v2.nq i, f2.nqf i, c1, c2, c3, c4, c5, c6, c7, ?_, ?_, c10, c11⟩
  · rw [m2.nq i]; exact c8
  · rw [m2.nq i, p2.nq i]; exact c9

end main
end DG
