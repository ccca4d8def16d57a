import Verif.Lemmas.RoundRun
import Verif.Spec.QuadDG

/-!
The geometric data and the coefficients the ranks hold, as data of the whole mesh.
-/
namespace DG
variable {K : Type} {α : Type}

/-- geometry of the mesh according to rank `r`; where the rank has none, the data of the rank that has -/
def extGeom (m : GMesh α) (part : List ℕ) (rms : ℕ → RankMesh α) (g : ℕ → Geom K) (r : ℕ) : Geom K where
  djac e := (g (rankOf part e)).djac ((rms (rankOf part e)).l2gElem.idxOf e)
  ijac e := (g (rankOf part e)).ijac ((rms (rankOf part e)).l2gElem.idxOf e)
  iMM e := (g (rankOf part e)).iMM ((rms (rankOf part e)).l2gElem.idxOf e)
  normals f :=
    if f ∈ (rms r).l2gFace then (g r).normals ((rms r).l2gFace.idxOf f)
    else (g (rankOf part (faceAt m f).elemL)).normals ((rms (rankOf part (faceAt m f).elemL)).l2gFace.idxOf f)

/-- the coefficients of all ranks -/
def extCoeffs (part : List ℕ) (rms : ℕ → RankMesh α) (u : ℕ → Coeffs K) : Coeffs K := fun e =>
  u (rankOf part e) ((rms (rankOf part e)).l2gElem.idxOf e)

theorem idxOf_some {l : List ℕ} (h : l.Nodup) {i x : ℕ} (hi : l[i]? = some x) : l.idxOf x = i := by
  obtain ⟨hl, rfl⟩ := List.getElem?_eq_some_iff.1 hi
  exact h.idxOf_getElem i hl

theorem getElem?_idxOf {l : List ℕ} {x : ℕ} (h : x ∈ l) : l[l.idxOf x]? = some x := by
  rw [List.getElem?_eq_getElem (List.idxOf_lt_length_iff.2 h), List.getElem_idxOf]

section world
variable {m : GMesh α} {nranks : ℕ} {part : List ℕ} {rms : ℕ → RankMesh α}

theorem World.nodupElem (w : World m nranks part rms) {r : ℕ} (hr : r < nranks) : (rms r).l2gElem.Nodup := by
  obtain ⟨enum, he, h⟩ := w.ranks r hr
  exact (C01_rank_elements m nranks part enum w.mesh w.parts he r hr _ h).1

theorem World.nodupFace (w : World m nranks part rms) {r : ℕ} (hr : r < nranks) : (rms r).l2gFace.Nodup := by
  obtain ⟨enum, he, h⟩ := w.ranks r hr
  exact (C04_interior_faces m nranks part enum w.mesh w.parts he r hr _ h).1

theorem World.rankOf_lt (w : World m nranks part rms) {e : ℕ} (he : e < m.numElems) : rankOf part e < nranks ∧
    e ∈ (rms (rankOf part e)).l2gElem := by
  have hl : e < part.length := by rw [w.parts.len]; exact he
  have h1 := List.getElem?_eq_getElem hl
  have h2 : rankOf part e = part[e] := by simp only [rankOf, List.getD, h1, Option.getD_some]
  have h3 : rankOf part e < nranks := by rw [h2]; exact w.parts.lt _ (List.getElem_mem hl)
  refine ⟨h3, ?_⟩
  rw [(w.res h3).l2gElem]
  exact mem_owned.2 ⟨he, by rw [h1, h2]⟩

theorem World.extRestrict (w : World m nranks part rms) (d : Disc K) (g : ℕ → Geom K) {r : ℕ} (hr : r < nranks) :
    GeomRestrict d (rms r) (g r) (extGeom m part rms g r) := by
  have key : ∀ k e : ℕ, (rms r).l2gElem[k]? = some e → rankOf part e = r ∧ (rms r).l2gElem.idxOf e = k :=
    fun k e hk => ⟨w.rankOf_eq hr hk, idxOf_some (w.nodupElem hr) hk⟩
  refine ⟨?_, ?_, ?_, ?_⟩
  · intro k e hk q _
    obtain ⟨h1, h2⟩ := key k e hk
    simp only [extGeom, h1, h2]
  · intro k e hk q _ i _ j _
    obtain ⟨h1, h2⟩ := key k e hk
    simp only [extGeom, h1, h2]
  · intro k e hk i _ j _
    obtain ⟨h1, h2⟩ := key k e hk
    simp only [extGeom, h1, h2]
  · intro i f hi q _ j _
    simp only [extGeom, List.mem_of_getElem? hi, if_true, idxOf_some (w.nodupFace hr) hi]

theorem World.extCoeffsRestrict (w : World m nranks part rms) (d : Disc K) (u : ℕ → Coeffs K) {r : ℕ} (hr : r < nranks) :
    CoeffsRestrict d (rms r) (u r) (extCoeffs part rms u) := by
  intro k e hk b _ s _
  simp only [extCoeffs, w.rankOf_eq hr hk, idxOf_some (w.nodupElem hr) hk]

end world

end DG
