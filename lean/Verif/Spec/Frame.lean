import Verif.Spec.EulerDG

/-!
Specification: a change of coordinate axes (rotation and translation), of the units of length, velocity and density,
and of the numbering of the elements, nodes and faces of a mesh; what it does to points and states.
-/
namespace DG
open Finset

/-- A change of axes and units in `dim` dimensions: density values are multiplied by `dens`, velocities by `speed`,
lengths by `len`; `Q` rotates the axes, `shift` moves the origin. -/
structure Frame (dim : ℕ) where
  dens : ℝ
  speed : ℝ
  len : ℝ
  Q : ℕ → ℕ → ℝ
  shift : ℕ → ℝ
  dens_pos : 0 < dens
  speed_pos : 0 < speed
  len_pos : 0 < len
  /-- columns of the rotation are orthonormal -/
  orth : ∀ i < dim, ∀ j < dim, ∑ k ∈ range dim, Q k i * Q k j = if i = j then 1 else 0
  /-- it preserves the orientation of space -/
  rot : (Matrix.of fun i j : Fin dim => Q i j).det = 1

/-- the rotated vector -/
def Frame.turn {dim : ℕ} (F : Frame dim) (x : ℕ → ℝ) (d : ℕ) : ℝ :=
  if d < dim then ∑ j ∈ range dim, F.Q d j * x j else 0

/-- new coordinates of the point `x` -/
def Frame.point {dim : ℕ} (F : Frame dim) (x : ℕ → ℝ) (d : ℕ) : ℝ := F.len * F.turn x d + F.shift d

/-- new values of the state `U` = (density, momentum, energy) -/
def Frame.state {dim : ℕ} (F : Frame dim) (U : ℕ → ℝ) (s : ℕ) : ℝ :=
  if s = 0 then F.dens * U 0
  else if s < dim + 1 then F.dens * F.speed * F.turn (fun i => U (i + 1)) (s - 1)
  else if s = dim + 1 then F.dens * F.speed ^ 2 * U (dim + 1)
  else 0

/-- a face whose elements are renumbered by `σ` -/
def IFace.relabel (σ : ℕ → ℕ) (f : IFace) : IFace := { f with elemL := σ f.elemL, elemR := σ f.elemR }

/-- `m'` is the mesh `m` seen in the new frame: element `e` has become element `σ e`, its corners (in the same local
order) have the new coordinates, whatever their node numbers; the faces are the same, listed in any order. -/
structure SameMesh {dim : ℕ} (F : Frame dim) (σ : ℕ → ℕ) (m m' : GMesh ℝ) : Prop where
  numElems : m'.numElems = m.numElems
  npe : m'.npe = m.npe
  lt : ∀ e < m.numElems, σ e < m.numElems
  inj : ∀ e < m.numElems, ∀ e' < m.numElems, σ e = σ e' → e = e'
  corners : ∀ e < m.numElems, ∀ i < m.npe, ∀ d < dim,
    fileCoords m' (σ e) i d = F.point (fileCoords m e i) d
  faces : m'.faces.Perm (m.faces.map (IFace.relabel σ))

/-- The functions `start`, `start'` give the same physical state at every point, each in its own frame. -/
def SameStart {dim : ℕ} (F : Frame dim) (start start' : (ℕ → ℝ) → ℕ → ℝ) : Prop :=
  ∀ x x' : ℕ → ℝ, (∀ d < dim, x' d = F.point x d) → ∀ s < dim + 2, start' x' s = F.state (start x) s

end DG
