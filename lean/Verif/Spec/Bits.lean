import Verif.Model.Setup
import Verif.Spec.Solver
import Verif.Props.Exchange

/-!
Vocabulary of C80.  `K` is the type of the numbers of the program with the operations the program uses;
no law of arithmetic is assumed, so `K` may be the doubles of the machine.
-/
namespace DG

variable {K : Type} [Zero K] [One K] [Add K] [Sub K] [Mul K] [Neg K] [Div K] [NatCast K] [DecLit K]
  [DecidableEq K]

/-- One launch of a case: `nranks` ranks have partitioned the mesh and have completed the setup, with
whatever their scratch memory (`scr`, `MM0`, `rhs0`) and `Uc` (`Uin`) held.  `d`: the tables (the same on
every rank); `g r`, `u r`: geometry and initial coefficients of rank `r`. -/
structure Launched (t gt : BasisType) (p gorder ns : ℕ) (vf : (ℕ → K) → ℕ → K)
    (nf : (ℕ → K) → (ℕ → K) → (ℕ → K) → ℕ → K) (ic : (ℕ → K) → ℕ → K) (m : GMesh K) (nranks : ℕ)
    (part : List ℕ) (rms : ℕ → RankMesh K) (d : Disc K) (g : ℕ → Geom K) (u : ℕ → Coeffs K) : Prop where
  world : World m nranks part rms
  disc : buildDisc t gt p gorder ns vf nf = some d
  geom : ∀ r < nranks, ∃ scr MM0, buildGeom t gt p gorder r (rms r) scr MM0 = some (g r)
  init : ∀ r < nranks, ∃ rhs0 Uin, initState t gt p gorder ns (rms r) (g r).iMM ic rhs0 Uin = some (u r)

/-- The mesh consists of elements of the shape of the basis, of geometric order `gorder`, and of faces
that name existing reference faces and orientations; a side belongs to at most one face. -/
structure MeshOfShape {α : Type} (sh : ShapeType) (gorder : ℕ) (m : GMesh α) : Prop where
  npe : m.npe = shapeNodes sh gorder
  faceL : ∀ f ∈ m.faces, f.faceL < shapeFaces sh ∧ f.orientL < shapeOrients sh
  faceR : ∀ f ∈ m.faces, f.faceR < shapeFaces sh ∧ f.orientR < shapeOrients sh
  sides : (m.faces.flatMap fun f => [(f.elemL, f.faceL), (f.elemR, f.faceR)]).Nodup

/-- The two ranks of every face hold the same normals for it. -/
def NormalsShared {α : Type} (nranks : ℕ) (rms : ℕ → RankMesh α) (d : Disc K) (g : ℕ → Geom K) : Prop :=
  ∀ r < nranks, ∀ r' < nranks, ∀ i i' a : ℕ, (rms r).l2gFace[i]? = some a → (rms r').l2gFace[i']? = some a →
    ∀ q < d.nqf, ∀ j < d.dim, (g r).normals i q j = (g r').normals i' q j

end DG
