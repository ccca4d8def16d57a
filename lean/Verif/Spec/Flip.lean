import Verif.Spec.EulerDG

/-! Specification: meshes that differ in which element of a face is listed first. -/
namespace DG

/-- the same face, with its two elements listed in the other order -/
def IFace.flip (f : IFace) : IFace := ⟨f.elemR, f.faceR, f.orientR, f.elemL, f.faceL, f.orientL⟩

/-- `m'` is the mesh `m` with some faces flipped, of those that satisfy `ok`. -/
structure FlippedFaces (ok : IFace → Prop) (m m' : GMesh ℝ) : Prop where
  numElems : m'.numElems = m.numElems
  npe : m'.npe = m.npe
  eind : m'.eind = m.eind
  coord : m'.coord = m.coord
  faces : List.Forall₂ (fun f f' => f' = f ∨ f' = f.flip ∧ ok f) m.faces m'.faces

/-- At no point of a face does the estimated left wave of HLLC move right while the right one moves left. -/
def WavesSpread (γ : ℝ) (d : Disc ℝ) (m : GMesh ℝ) (G : Geom ℝ) (U : Coeffs ℝ) : Prop :=
  ∀ (g : ℕ) (f : IFace), m.faces[g]? = some f → ∀ i < d.nqf,
    waveSpeedL d.dim γ (traceState d U f.elemL f.faceL (d.ptsOrder f.orientL i))
      (traceState d U f.elemR f.faceR (d.ptsOrder f.orientR i)) (unit d.dim (cArr d.dim (G.normals g i))) < 0 ∨
    0 < waveSpeedR d.dim γ (traceState d U f.elemL f.faceL (d.ptsOrder f.orientL i))
      (traceState d U f.elemR f.faceR (d.ptsOrder f.orientR i)) (unit d.dim (cArr d.dim (G.normals g i)))

end DG
