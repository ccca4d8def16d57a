import Mathlib.Algebra.Field.Rat
import Verif.Model.NormalKernels
import Verif.Lemmas.DeviceSched
import Verif.Lemmas.NormalKernels
import Verif.Lemmas.BitsSetup

/-!
Property C69, the kernel that precomputes the face normals: with one thread per team it computes the normals of
`Model/Normals.lean` (on which C57, C61 and C63 rest), under every interleaving of the teams; with more than one
thread per team it is not race free, and its outcome depends on the schedule.
-/
namespace DG.Dev
open Kernel

variable {K : Type} [Zero K] [One K] [Add K] [Sub K] [Mul K] [Neg K] [Div K] [NatCast K] [DecidableEq K]

/-- C69: quadrilaterals, one thread per team: under every interleaving of the teams of all faces the kernel is
free of races, ends, and stores at every face and point the normal of `normalOnFaceQuad`. -/
theorem C69_quad_normals_one_thread (np nf nn : ℕ) (sign : ℕ → K) (coords : ℕ → ℕ → ℕ → K) (grads : ℕ → List K)
    (mem : NCell → K) :
    ∃ m', (quadNormals 1 np nf nn sign coords fun ip l _ => get0 (grads ip) l).Computes mem m' ∧
      ∀ f < nf, ∀ ip < np, (m' (.normal f ip 0), m' (.normal f ip 1))
        = normalOnFaceQuad (sign f) nn (grads ip) (coords f) := by
  obtain ⟨m', h1, h2⟩ := normalsKernel_computes np 2 1 nf (by omega)
    (fun f => gradSum nn (coords f) fun ip l _ => get0 (grads ip) l) (fun f _ => normalsQuadCode (sign f) np f)
    (fun f => Code.Within.forN fun ip _ => Code.Within.bind (Code.Within.read (Or.inr rfl)) fun _ =>
      Code.Within.bind (Code.Within.write rfl) fun _ => Code.Within.bind (Code.Within.read (Or.inr rfl)) fun _ =>
        Code.Within.write rfl) mem
  refine ⟨m', h1, fun f hf ip hip => ?_⟩
  rw [h2 f hf (.normal f ip 0) rfl, h2 f hf (.normal f ip 1) rfl, normalsQuad_sets, normalsQuad_sets]
  simp [hip, addedPhases, gradSum, normalOnFaceQuad, cATxB_to_C, gemm]

/-- C69: hexahedra, one thread per team. -/
theorem C69_hex_normals_one_thread (np nf nn : ℕ) (sign : ℕ → K) (coords : ℕ → ℕ → ℕ → K)
    (grads : ℕ → List (K × K)) (mem : NCell → K) :
    ∃ m', (hexNormals 1 np nf nn sign coords fun ip l k => if k = 0 then (((grads ip)[l]?).getD (0, 0)).1
        else (((grads ip)[l]?).getD (0, 0)).2).Computes mem m' ∧
      ∀ f < nf, ∀ ip < np, ∀ j < 3, m' (.normal f ip j)
        = normalOnFaceHex (sign f) nn (grads ip) (coords f) j := by
  obtain ⟨m', h1, h2⟩ := normalsKernel_computes np 3 2 nf (by omega)
    (fun f => gradSum nn (coords f) fun ip l k => if k = 0 then (((grads ip)[l]?).getD (0, 0)).1
        else (((grads ip)[l]?).getD (0, 0)).2) (fun f j => normalsHexCode (sign f) 1 j np f)
    (fun f => Code.Within.forN fun ip _ => by
      have r : ∀ (c : NCell) {α : Type} (k : K → Code NCell K α), c.face = f →
          (∀ v, (k v).Within (fun _ => False) (fun c => c.face = f)) →
          ((Code.read c).bind k).Within (fun _ => False) (fun c => c.face = f) :=
        fun c _ k hc hk => Code.Within.bind (Code.Within.read (Or.inr hc)) hk
      have wr : ∀ (c : NCell) (v : K) {α : Type} (k : Unit → Code NCell K α), c.face = f →
          (∀ v, (k v).Within (fun _ => False) (fun c => c.face = f)) →
          ((Code.write c v).bind k).Within (fun _ => False) (fun c => c.face = f) :=
        fun c v _ k hc hk => Code.Within.bind (Code.Within.write hc) hk
      refine r _ _ rfl fun _ => r _ _ rfl fun _ => r _ _ rfl fun _ => r _ _ rfl fun _ => r _ _ rfl fun _ =>
        r _ _ rfl fun _ => wr _ _ _ rfl fun _ => wr _ _ _ rfl fun _ => wr _ _ _ rfl fun _ =>
        Code.Within.forN fun i _ => ?_
      unfold Code.cond
      split
      · exact r _ _ rfl fun _ => Code.Within.write rfl
      · trivial) mem
  refine ⟨m', h1, fun f hf ip hip j hj => ?_⟩
  rw [h2 f hf (.normal f ip j) rfl, normalsHex_sets]
  rcases (by omega : j = 0 ∨ j = 1 ∨ j = 2) with rfl | rfl | rfl <;>
    simp [hip, addedPhases, gradSum, normalOnFaceHex, cATxB_to_C, gemm, scaleVec, cross]

/-- C69: the launch of the kernel on a rank whose setup succeeds, one thread per team: under every interleaving of
the teams it is free of races, ends, and stores at every face and point the normals `buildGeom` holds, on which
C61-C68 and C80 rest. -/
theorem C69_normals_setup [DecLit K] {t gt : BasisType} {p gorder rank : ℕ} {rm : RankMesh K}
    {scr MM0 : ℕ → ℕ → ℕ → K} {g : Geom K} (h : buildGeom t gt p gorder rank rm scr MM0 = some g)
    {sh : ShapeType × Option ShapeType} (ht : basisShape t = some sh) {fr : FaceRef K}
    (hfr : faceRef t p = some fr) (mem : NCell → K) :
    ∃ m', (normalsLaunch sh.1 gorder rank 1 rm fr.pts).Computes mem m' ∧
      ∀ i < rm.numIFacesPart, ∀ q < fr.pts.length, ∀ j < shapeDim sh.1,
        m' (.normal i q j) = g.normals i q j := by
  obtain ⟨sh', nb, mass, vol, fr', a1, -, -, -, a5, -, -, -, hN⟩ := buildGeom_some h
  rw [ht] at a1; cases a1
  rw [hfr] at a5; cases a5
  cases hs : sh.1 with
  | Hexahedron =>
    rw [hs] at hN
    obtain ⟨m', h1, h2⟩ := C69_hex_normals_one_thread fr.pts.length rm.numIFacesPart (nodesPerFaceHex gorder)
      (fun i => (faceSource rank rm i).2)
      (fun i => extractNodes (elemCoords rm (faceSource rank rm i).1.1)
        ((faceNodesHex (faceSource rank rm i).1.2 gorder (List.replicate (nodesPerFaceHex gorder) 0)).getD []))
      (faceGrads gorder fr.pts) mem
    refine ⟨m', h1, fun i hi q hq j hj => ?_⟩
    rw [h2 i hi q hq j hj]
    obtain ⟨l, l1, l2⟩ := hN i hi
    rw [l2]
    unfold faceNormals at l1
    obtain ⟨row, r1, l1⟩ := Option.bind_eq_some_iff.1 l1
    obtain ⟨src, r2, l1⟩ := Option.bind_eq_some_iff.1 l1
    have hsrc : faceSource rank rm i = src := by
      unfold faceSource
      rw [r1, Option.bind_some, r2, Option.getD_some]
    have he := mapM_entry l1 q
    have hq' : q < l.length := by rw [mapM_length _ _ _ l1]; exact hq
    rw [List.getElem?_eq_getElem hq', List.getElem?_eq_getElem hq, Option.bind_some] at he
    rw [List.getElem?_eq_getElem hq', Option.getD_some, hsrc]
    have he := he.symm
    unfold faceNormalHex at he
    obtain ⟨nodes, e1, he⟩ := Option.bind_eq_some_iff.1 he
    obtain ⟨st, e2, he⟩ := Option.bind_eq_some_iff.1 he
    obtain ⟨pt, e3, he⟩ := Option.bind_eq_some_iff.1 he
    obtain ⟨grad, e4, he⟩ := Option.bind_eq_some_iff.1 he
    have hg : faceGrads gorder fr.pts q = grad := by
      unfold faceGrads
      rw [List.getElem?_eq_getElem hq, Option.bind_some, e2, Option.bind_some, e3, Option.bind_some, e4,
        Option.getD_some]
    rw [hg, e1, Option.getD_some, ← Option.some.inj he]
  | Quadrilateral =>
    rw [hs] at hN
    obtain ⟨m', h1, h2⟩ := C69_quad_normals_one_thread fr.pts.length rm.numIFacesPart (nodesPerFaceQuad gorder)
      (fun i => (faceSource rank rm i).2)
      (fun i => extractNodes (elemCoords rm (faceSource rank rm i).1.1)
        ((faceNodesQuad (faceSource rank rm i).1.2 gorder (List.replicate (nodesPerFaceQuad gorder) 0)).getD []))
      (segGrads gorder fr.pts) mem
    refine ⟨m', h1, fun i hi q hq j hj => ?_⟩
    obtain ⟨l, l1, l2⟩ := hN i hi
    rw [l2]
    unfold faceNormals at l1
    obtain ⟨row, r1, l1⟩ := Option.bind_eq_some_iff.1 l1
    obtain ⟨src, r2, l1⟩ := Option.bind_eq_some_iff.1 l1
    have hsrc : faceSource rank rm i = src := by
      unfold faceSource
      rw [r1, Option.bind_some, r2, Option.getD_some]
    have he := mapM_entry l1 q
    have hq' : q < l.length := by rw [mapM_length _ _ _ l1]; exact hq
    rw [List.getElem?_eq_getElem hq', List.getElem?_eq_getElem hq, Option.bind_some] at he
    rw [List.getElem?_eq_getElem hq', Option.getD_some]
    have h3 := h2 i hi q hq
    rw [hsrc] at h3
    obtain ⟨n, he, hn⟩ := Option.map_eq_some_iff.1 he.symm
    unfold faceNormalQuad at he
    obtain ⟨nodes, e1, he⟩ := Option.bind_eq_some_iff.1 he
    obtain ⟨st, e2, he⟩ := Option.bind_eq_some_iff.1 he
    obtain ⟨pt, e3, he⟩ := Option.bind_eq_some_iff.1 he
    obtain ⟨grad, e4, he⟩ := Option.bind_eq_some_iff.1 he
    have hg : segGrads gorder fr.pts q = grad := by
      unfold segGrads
      rw [List.getElem?_eq_getElem hq, Option.bind_some, e2, Option.bind_some, e3, Option.bind_some, e4,
        Option.getD_some]
    rw [hg, e1, Option.getD_some, Option.some.inj he] at h3
    rw [← hn]
    have hj' : j = 0 ∨ j = 1 := by
      have : j < 2 := hj
      omega
    rcases hj' with rfl | rfl
    · simp [← h3]
    · simp [← h3]
  | Segment =>
    obtain ⟨m', h1, -⟩ := C69_quad_normals_one_thread fr.pts.length rm.numIFacesPart (nodesPerFaceQuad gorder)
      (fun i => (faceSource rank rm i).2)
      (fun i => extractNodes (elemCoords rm (faceSource rank rm i).1.1)
        ((faceNodesQuad (faceSource rank rm i).1.2 gorder (List.replicate (nodesPerFaceQuad gorder) 0)).getD []))
      (segGrads gorder fr.pts) mem
    refine ⟨m', h1, fun i hi => ?_⟩
    obtain ⟨l, l1, -⟩ := hN i hi
    rw [hs] at l1
    unfold faceNormals at l1
    obtain ⟨row, -, l1⟩ := Option.bind_eq_some_iff.1 l1
    obtain ⟨src, -, l1⟩ := Option.bind_eq_some_iff.1 l1
    cases l1
  | Triangle =>
    obtain ⟨m', h1, -⟩ := C69_quad_normals_one_thread fr.pts.length rm.numIFacesPart (nodesPerFaceQuad gorder)
      (fun i => (faceSource rank rm i).2)
      (fun i => extractNodes (elemCoords rm (faceSource rank rm i).1.1)
        ((faceNodesQuad (faceSource rank rm i).1.2 gorder (List.replicate (nodesPerFaceQuad gorder) 0)).getD []))
      (segGrads gorder fr.pts) mem
    refine ⟨m', h1, fun i hi => ?_⟩
    obtain ⟨l, l1, -⟩ := hN i hi
    rw [hs] at l1
    unfold faceNormals at l1
    obtain ⟨row, -, l1⟩ := Option.bind_eq_some_iff.1 l1
    obtain ⟨src, -, l1⟩ := Option.bind_eq_some_iff.1 l1
    cases l1

/-- the side from (0, 0) to (0, 2), one point: the tangent is (0, 1), the normal (1, 0) -/
def raceQuad : Kernel NCell ℚ (Fin 1) (Fin 2) :=
  quadNormals 2 1 1 2 (fun _ => 1) (fun _ l j => if l = 1 ∧ j = 1 then 2 else 0)
    (fun _ l _ => if l = 0 then -1 / 2 else 1 / 2)

/-- the unit square, one point: the tangents are (1/2, 0, 0) and (0, 1/2, 0); seen from the right of the face
(`sign = -1`) the normal is (0, 0, -1/4) -/
def raceHex : Kernel NCell ℚ (Fin 1) (Fin 2) :=
  hexNormals 2 1 1 4 (fun _ => -1) (fun _ l j => if (l % 2 = 1 ∧ j = 0) ∨ (2 ≤ l ∧ j = 1) then 1 else 0)
    (fun _ l k => if k = 0 then (if l % 2 = 0 then -1 / 4 else 1 / 4) else (if l < 2 then -1 / 4 else 1 / 4))

/-- thread `j` makes `n` steps -/
def moves (j : Fin 2) (n : ℕ) : List (Fin 1 × Option (Fin 2)) := List.replicate n (0, some j)

/-- C69 (finding): quadrilaterals, two threads per team.  There is an execution in which the thread that does
not compute `xphys_grad(1, 0)` reads it too early, and the normal of a vertical side of length 2 comes out as
(0, 0) instead of (1, 0); there is an execution with the right result as well. -/
theorem C69_quad_normals_race :
    (∃ m', raceQuad.Ends (fun _ => 7) m' ∧ m' (.normal 0 0 0) = 0 ∧ m' (.normal 0 0 1) = 0) ∧
    (∃ m', raceQuad.Ends (fun _ => 7) m' ∧ m' (.normal 0 0 0) = 1 ∧ m' (.normal 0 0 1) = 0) := by
  constructor
  · have h : ((raceQuad.sched (moves 0 1 ++ moves 1 1 ++ [(0, none)] ++ moves 0 3 ++ moves 1 6 ++ moves 0 3 ++
        [(0, none)]) (raceQuad.init fun _ => 7)).map fun c => (c.phase 0, c.mem (.normal 0 0 0),
        c.mem (.normal 0 0 1))) = some (2, 0, 0) := by decide +kernel
    obtain ⟨c, h1, h2⟩ := Option.map_eq_some_iff.1 h
    simp only [Prod.mk.injEq] at h2
    exact ⟨c.mem, ⟨_, c, sched_steps h1, fun t => by rw [Subsingleton.elim t 0, h2.1]; rfl, rfl⟩, h2.2⟩
  · have h : ((raceQuad.sched (moves 0 1 ++ moves 1 1 ++ [(0, none)] ++ moves 1 2 ++ moves 0 6 ++ moves 1 4 ++
        [(0, none)]) (raceQuad.init fun _ => 7)).map fun c => (c.phase 0, c.mem (.normal 0 0 0),
        c.mem (.normal 0 0 1))) = some (2, 1, 0) := by decide +kernel
    obtain ⟨c, h1, h2⟩ := Option.map_eq_some_iff.1 h
    simp only [Prod.mk.injEq] at h2
    exact ⟨c.mem, ⟨_, c, sched_steps h1, fun t => by rw [Subsingleton.elim t 0, h2.1]; rfl, rfl⟩, h2.2⟩

/-- C69 (finding): hexahedra, two threads per team, on the right of a face.  If the second thread stores the
cross product after the first one has changed the sign of the entries it is responsible for, the normal comes
out with the wrong sign; there is an execution with the right result as well. -/
theorem C69_hex_normals_race :
    (∃ m', raceHex.Ends (fun _ => 7) m' ∧ m' (.normal 0 0 2) = 1 / 4) ∧
    (∃ m', raceHex.Ends (fun _ => 7) m' ∧ m' (.normal 0 0 2) = -1 / 4) := by
  constructor
  · have h : ((raceHex.sched (moves 0 3 ++ moves 1 3 ++ [(0, none)] ++ moves 0 6 ++ moves 1 6 ++ moves 0 13 ++
        moves 1 11 ++ [(0, none)]) (raceHex.init fun _ => 7)).map fun c => (c.phase 0, c.mem (.normal 0 0 2)))
        = some (2, 1 / 4) := by decide +kernel
    obtain ⟨c, h1, h2⟩ := Option.map_eq_some_iff.1 h
    simp only [Prod.mk.injEq] at h2
    exact ⟨c.mem, ⟨_, c, sched_steps h1, fun t => by rw [Subsingleton.elim t 0, h2.1]; rfl, rfl⟩, h2.2⟩
  · have h : ((raceHex.sched (moves 0 3 ++ moves 1 3 ++ [(0, none)] ++ moves 0 6 ++ moves 1 6 ++ moves 1 9 ++
        moves 0 13 ++ moves 1 2 ++ [(0, none)]) (raceHex.init fun _ => 7)).map fun c => (c.phase 0, c.mem (.normal 0 0 2)))
        = some (2, -1 / 4) := by decide +kernel
    obtain ⟨c, h1, h2⟩ := Option.map_eq_some_iff.1 h
    simp only [Prod.mk.injEq] at h2
    exact ⟨c.mem, ⟨_, c, sched_steps h1, fun t => by rw [Subsingleton.elim t 0, h2.1]; rfl, rfl⟩, h2.2⟩

end DG.Dev
