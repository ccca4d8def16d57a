import Verif.Props.Bits

/-!
A concrete case of the hypotheses of C80 with an arithmetic that has none of the usual laws: a doubly
periodic mesh of four distorted quadrilaterals, once on two ranks and once on one.
-/
namespace DG

/-- fixed-point numbers with rounding: `v` stands for `v / 65536`; results of 4 and more lose two bits -/
structure Sm where
  v : ℤ
deriving DecidableEq, Repr

namespace Sm
/-- rounding -/
def rnd (x : ℤ) : Sm := ⟨if -262144 < x ∧ x < 262144 then x else x / 4 * 4⟩
instance : Zero Sm := ⟨⟨0⟩⟩
instance : One Sm := ⟨⟨65536⟩⟩
instance : Add Sm := ⟨fun a b => rnd (a.v + b.v)⟩
instance : Sub Sm := ⟨fun a b => rnd (a.v - b.v)⟩
instance : Mul Sm := ⟨fun a b => rnd (a.v * b.v / 65536)⟩
instance : Neg Sm := ⟨fun a => ⟨-a.v⟩⟩
instance : Div Sm := ⟨fun a b => rnd (a.v * 65536 / b.v)⟩
instance : NatCast Sm := ⟨fun n => rnd (n * 65536)⟩
instance : DecLit Sm := ⟨fun n k => rnd (n * 65536 / 10 ^ k)⟩
end Sm

/-- addition is not associative, and `1 / 3 * 3` is not 1 -/
example : ((⟨262144⟩ : Sm) + ⟨2⟩) + ⟨2⟩ ≠ (⟨262144⟩ : Sm) + (⟨2⟩ + ⟨2⟩) ∧
    (1 : Sm) / ((3 : ℕ) : Sm) * ((3 : ℕ) : Sm) ≠ 1 := by decide

/-- 3 × 3 nodes, the middle one moved -/
def smMesh : GMesh Sm where
  numElems := 4
  npe := 4
  eind := [0, 1, 3, 4, 1, 2, 4, 5, 3, 4, 6, 7, 4, 5, 7, 8]
  coord := [[⟨0⟩, ⟨0⟩], [⟨65536⟩, ⟨0⟩], [⟨131072⟩, ⟨0⟩], [⟨0⟩, ⟨65536⟩], [⟨81920⟩, ⟨57344⟩], [⟨131072⟩, ⟨65536⟩],
    [⟨0⟩, ⟨131072⟩], [⟨65536⟩, ⟨131072⟩], [⟨131072⟩, ⟨131072⟩]]
  faces := [⟨0, 1, 0, 1, 3, 1⟩, ⟨2, 1, 0, 3, 3, 1⟩, ⟨0, 2, 0, 2, 0, 1⟩, ⟨1, 2, 0, 3, 0, 1⟩,
    ⟨1, 1, 0, 0, 3, 1⟩, ⟨3, 1, 0, 2, 3, 1⟩, ⟨2, 2, 0, 0, 0, 1⟩, ⟨3, 2, 0, 1, 0, 1⟩]

/-- a nonlinear volume flux -/
def smVF (U : ℕ → Sm) (i : ℕ) : Sm := U (i % 2) * U 0
/-- a numerical flux -/
def smNF (a b n : ℕ → Sm) (s : ℕ) : Sm := (a s * n 0 + b s * n 1) / ((2 : ℕ) : Sm)
/-- an initial condition -/
def smIC (x : ℕ → Sm) (s : ℕ) : Sm := x 0 + x 1 * ((s : ℕ) : Sm)

/-- the ranks of a launch -/
def smRms (nr : ℕ) (part : List ℕ) (r : ℕ) : RankMesh Sm :=
  (partition smMesh nr nr part id r).getD ⟨0, 0, 0, 0, [], [], [], [], [], [], [], [], []⟩

/-- an empty geometry -/
def smNone : Geom Sm := ⟨fun _ _ => 0, fun _ _ _ _ => 0, fun _ _ _ => 0, fun _ _ _ => 0⟩

/-- the geometry of a rank; its scratch memory held `x` everywhere -/
def smG (nr : ℕ) (part : List ℕ) (x : Sm) (r : ℕ) : Geom Sm :=
  (buildGeom .LagrangeQuad .LagrangeQuad 1 1 r (smRms nr part r) (fun _ _ _ => x) (fun _ _ _ => x)).getD smNone

/-- the initial coefficients of a rank; its scratch memory held `x` everywhere -/
def smU (nr : ℕ) (part : List ℕ) (x : Sm) (r : ℕ) : Coeffs Sm :=
  (initState .LagrangeQuad .LagrangeQuad 1 1 2 (smRms nr part r) (smG nr part x r).iMM smIC (fun _ _ _ => x)
    (fun _ _ _ => x)).getD fun _ _ _ => 0

/-- the tables -/
def smD : Disc Sm := (buildDisc .LagrangeQuad .LagrangeQuad 1 1 2 smVF smNF).getD
  ⟨0, 0, 0, 0, 0, 0, fun _ _ => 0, fun _ _ _ => 0, fun _ => 0, fun _ _ _ => 0, fun _ => 0, fun _ _ => 0,
    fun _ _ => 0, fun _ _ _ _ => 0⟩

theorem smMesh_ok : MeshOK smMesh where
  eindLen := rfl
  nodes := by decide
  faces := by decide
  elemsFit := by decide
  nodesFit := by decide
  facesFit := by decide

theorem smMesh_shape : MeshOfShape .Quadrilateral 1 smMesh where
  npe := rfl
  faceL := by decide
  faceR := by decide
  sides := by decide

theorem some_getD {β : Type} {o : Option β} {x : β} (h : o.isSome = true) : o = some (o.getD x) := by
  cases o with
  | none => cases h
  | some y => rfl

theorem smLaunched2 : Launched .LagrangeQuad .LagrangeQuad 1 1 2 smVF smNF smIC smMesh 2 [0, 1, 1, 0]
    (smRms 2 [0, 1, 1, 0]) smD (smG 2 [0, 1, 1, 0] ⟨77⟩) (smU 2 [0, 1, 1, 0] ⟨77⟩) where
  world := ⟨smMesh_ok, ⟨rfl, by decide⟩, fun r hr => ⟨id, enum_id_ok, some_getD
    ((by decide +kernel : ∀ r < 2, (partition smMesh 2 2 [0, 1, 1, 0] id r).isSome = true) r hr)⟩⟩
  disc := some_getD (by decide +kernel)
  geom := fun r hr => ⟨_, _, some_getD ((by decide +kernel : ∀ r < 2, (buildGeom .LagrangeQuad .LagrangeQuad 1 1 r
    (smRms 2 [0, 1, 1, 0] r) (fun _ _ _ => ⟨77⟩) (fun _ _ _ => ⟨77⟩)).isSome = true) r hr)⟩
  init := fun r hr => ⟨_, _, some_getD ((by decide +kernel : ∀ r < 2, (initState .LagrangeQuad .LagrangeQuad 1 1 2
    (smRms 2 [0, 1, 1, 0] r) (smG 2 [0, 1, 1, 0] ⟨77⟩ r).iMM smIC (fun _ _ _ => ⟨77⟩)
    (fun _ _ _ => ⟨77⟩)).isSome = true) r hr)⟩

theorem smLaunched1 : Launched .LagrangeQuad .LagrangeQuad 1 1 2 smVF smNF smIC smMesh 1 [0, 0, 0, 0]
    (smRms 1 [0, 0, 0, 0]) smD (smG 1 [0, 0, 0, 0] ⟨-5⟩) (smU 1 [0, 0, 0, 0] ⟨-5⟩) where
  world := ⟨smMesh_ok, ⟨rfl, by decide⟩, fun r hr => ⟨id, enum_id_ok, some_getD
    ((by decide +kernel : ∀ r < 1, (partition smMesh 1 1 [0, 0, 0, 0] id r).isSome = true) r hr)⟩⟩
  disc := some_getD (by decide +kernel)
  geom := fun r hr => ⟨_, _, some_getD ((by decide +kernel : ∀ r < 1, (buildGeom .LagrangeQuad .LagrangeQuad 1 1 r
    (smRms 1 [0, 0, 0, 0] r) (fun _ _ _ => ⟨-5⟩) (fun _ _ _ => ⟨-5⟩)).isSome = true) r hr)⟩
  init := fun r hr => ⟨_, _, some_getD ((by decide +kernel : ∀ r < 1, (initState .LagrangeQuad .LagrangeQuad 1 1 2
    (smRms 1 [0, 0, 0, 0] r) (smG 1 [0, 0, 0, 0] ⟨-5⟩ r).iMM smIC (fun _ _ _ => ⟨-5⟩)
    (fun _ _ _ => ⟨-5⟩)).isSome = true) r hr)⟩

/-- every face of the two-rank launch lies between the ranks; both compute the same normals -/
theorem smNormals2 : NormalsShared 2 (smRms 2 [0, 1, 1, 0]) smD (smG 2 [0, 1, 1, 0] ⟨77⟩) := by
  have hl : ∀ r < 2, (smRms 2 [0, 1, 1, 0] r).l2gFace = List.range 8 := by decide +kernel
  have hv : ∀ r < 2, ∀ r' < 2, ∀ a < 8, ∀ q < 2, ∀ j < 2, (smG 2 [0, 1, 1, 0] ⟨77⟩ r).normals a q j =
      (smG 2 [0, 1, 1, 0] ⟨77⟩ r').normals a q j := by decide +kernel
  have h1 : smD.nqf = 2 := by decide +kernel
  have h2 : smD.dim = 2 := by decide +kernel
  intro r hr r' hr' i i' a hi hi' q hq j hj
  rw [hl r hr, List.getElem?_eq_some_iff] at hi
  rw [hl r' hr', List.getElem?_eq_some_iff] at hi'
  obtain ⟨b, hi⟩ := hi
  obtain ⟨b', hi'⟩ := hi'
  rw [List.getElem_range] at hi hi'
  rw [List.length_range] at b
  subst hi; subst hi'
  exact hv r hr r' hr' _ b q (by rw [← h1]; exact hq) j (by rw [← h2]; exact hj)

theorem smNormals1 : NormalsShared 1 (smRms 1 [0, 0, 0, 0]) smD (smG 1 [0, 0, 0, 0] ⟨-5⟩) := by
  have hl : (smRms 1 [0, 0, 0, 0] 0).l2gFace = List.range 8 := by decide +kernel
  intro r hr r' hr' i i' a hi hi' q hq j hj
  obtain rfl : r = 0 := by omega
  obtain rfl : r' = 0 := by omega
  rw [hl, List.getElem?_eq_some_iff] at hi hi'
  obtain ⟨b, hi⟩ := hi
  obtain ⟨b', hi'⟩ := hi'
  rw [List.getElem_range] at hi hi'
  subst hi; subst hi'
  rfl

/-- C80 on the example: both launches complete ten Runge-Kutta steps, and element 3 has the same bits on
rank 0 of the first and on the only rank of the second. -/
example : ∃ c k c' k',
    Proto.Exec (solverProg smD (smG 2 [0, 1, 1, 0] ⟨77⟩) (smRms 2 [0, 1, 1, 0]) 2 ⟨3277⟩ .RK4
      (fun _ _ => List.reverse) 10) (Proto.init (solverStart smD (smRms 2 [0, 1, 1, 0]) .RK4
        (smU 2 [0, 1, 1, 0] ⟨77⟩))) c k ∧
    Proto.Exec (solverProg smD (smG 1 [0, 0, 0, 0] ⟨-5⟩) (smRms 1 [0, 0, 0, 0]) 1 ⟨3277⟩ .RK4
      (fun _ _ l => l) 10) (Proto.init (solverStart smD (smRms 1 [0, 0, 0, 0]) .RK4
        (smU 1 [0, 0, 0, 0] ⟨-5⟩))) c' k' ∧
    (c.proc 0).round = 40 ∧ (c'.proc 0).round = 40 ∧
    ∃ s s', (c.proc 0).st.2 = some s ∧ (c'.proc 0).st.2 = some s' ∧
      ∀ b < 4, ∀ v < 2, s.Uc 1 b v = s'.Uc 3 b v := by
  have ord : OrderOK smD 2 ∧ Conforming smD 2 smMesh ∧ smD.nb = 4 := by
    obtain ⟨sh, nb, a1, a2, _, a4, a5, a6⟩ := buildDisc_orderOK smLaunched1.disc
    cases a1
    cases a2
    exact ⟨a6, ⟨by rw [a5]; exact smMesh_shape.faceL, by rw [a5]; exact smMesh_shape.faceR,
      smMesh_shape.sides⟩, a4⟩
  obtain ⟨ho, hc, hnb⟩ := ord
  obtain ⟨_, c, k, hx, hf⟩ := C80_run_completes smMesh smD 2 hc ho .RK4 ⟨3277⟩ 10 2 _ _ smLaunched2.world _
    (fun _ _ => List.reverse) (fun _ _ l => List.reverse_perm l) _ 0 _ Proto.Exec.refl
  obtain ⟨_, c', k', hx', hf'⟩ := C80_run_completes smMesh smD 2 hc ho .RK4 ⟨3277⟩ 10 1 _ _ smLaunched1.world _
    (fun _ _ l => l) (fun _ _ l => List.Perm.refl l) _ 0 _ Proto.Exec.refl
  refine ⟨c, k, c', k', hx, hx', hf 0 (by omega), hf' 0 (by omega), ?_⟩
  obtain ⟨s, s', s1, s2, _, s4⟩ := C80_case .LagrangeQuad .LagrangeQuad 1 1 2 smVF smNF smIC smMesh _ rfl rfl
    smMesh_shape .RK4 ⟨3277⟩ 10 10 2 _ _ _ _ _ smLaunched2 smNormals2 _ (fun _ _ l => List.reverse_perm l) k c hx
    1 _ _ _ _ _ smLaunched1 smNormals1 _ (fun _ _ l => List.Perm.refl l) k' c' hx' 0 (by omega) 0 (by omega)
    (by rw [hf 0 (by omega), hf' 0 (by omega)])
  refine ⟨s, s', s1, s2, ?_⟩
  rw [hnb] at s4
  exact s4 1 3 3 (by decide +kernel) (by decide +kernel)

/-- the initial coefficients are not trivial -/
example : (smU 2 [0, 1, 1, 0] ⟨77⟩ 0 1 0 0).v ≠ 0 ∧ (smU 2 [0, 1, 1, 0] ⟨77⟩ 0 1 0 0) ≠
    (smU 2 [0, 1, 1, 0] ⟨77⟩ 0 0 0 0) := by decide +kernel

/-- The hypothesis on the normals says something: with one corner at odd coordinates and an arithmetic that
rounds down, the rank of the left element and the rank of the right element compute different normals for
their common face. -/
example :
    let m : GMesh Sm := { smMesh with coord := [[⟨0⟩, ⟨0⟩], [⟨65536⟩, ⟨0⟩], [⟨131072⟩, ⟨0⟩], [⟨0⟩, ⟨65536⟩],
      [⟨81921⟩, ⟨57345⟩], [⟨131072⟩, ⟨65536⟩], [⟨0⟩, ⟨131072⟩], [⟨65536⟩, ⟨131072⟩], [⟨131072⟩, ⟨131072⟩]] }
    faceNormalQuad 1 1 1 (fileCoords m 0) (0 : Sm) ≠ faceNormalQuad (-1) 1 3 (fileCoords m 1) 0 := by
  decide +kernel

end DG
