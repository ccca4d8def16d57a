import Verif.Lemmas.WorldExtend
import Verif.Lemmas.RoundUniform

/-!
The geometric data and the coefficients the ranks hold, as data of the whole mesh.
-/
namespace DG
variable {K : Type} {α : Type}

section close
variable {A : Arith} {m : GMesh α} {nranks : ℕ} {part : List ℕ} {rms : ℕ → RankMesh α} {κ : ℝ} {d : Disc ℝ} {G : Geom ℝ}

theorem World.extClose (w : World m nranks part rms) {g : ℕ → Geom A.K}
    (hg : ∀ r < nranks, GeomClose A κ d (rms r) (g r) G) {r : ℕ} (hr : r < nranks) :
    GeomCloseAll A κ d m (extGeom m part rms g r) G := by
  refine ⟨?_, ?_, ?_, ?_⟩
  · intro e he q hq
    obtain ⟨h1, h2⟩ := w.rankOf_lt he
    exact (hg _ h1).djac _ e (getElem?_idxOf h2) q hq
  · intro e he q hq i hi j hj
    obtain ⟨h1, h2⟩ := w.rankOf_lt he
    exact (hg _ h1).ijac _ e (getElem?_idxOf h2) q hq i hi j hj
  · intro e he i hi j hj
    obtain ⟨h1, h2⟩ := w.rankOf_lt he
    exact (hg _ h1).iMM _ e (getElem?_idxOf h2) i hi j hj
  · intro f hf q hq j hj
    by_cases h : f ∈ (rms r).l2gFace
    · simp only [extGeom, h, if_true]
      exact (hg _ hr).normals _ f (getElem?_idxOf h) q hq j hj
    · simp only [extGeom, h, if_false]
      have hF : IsFace m f m.faces[f] := List.getElem?_eq_getElem hf
      have hfa : faceAt m f = m.faces[f] := by unfold faceAt; unfold IsFace at hF; rw [hF]; rfl
      have he := (w.mesh.faces _ (List.getElem_mem hf)).1
      obtain ⟨h1, h2⟩ := w.rankOf_lt he
      have ho : Owns part (rankOf part m.faces[f].elemL) m.faces[f].elemL := by
        rw [(w.res h1).l2gElem] at h2
        exact (mem_owned.1 h2).2
      obtain ⟨i, hi⟩ := w.mem_l2gFace h1 hF (Or.inl ho)
      rw [hfa]
      exact (hg _ h1).normals _ f (getElem?_idxOf (List.mem_of_getElem? hi)) q hq j hj

theorem World.extCoeffsClose (w : World m nranks part rms) {u : ℕ → Coeffs A.K} {U : Coeffs ℝ}
    (hu : ∀ r < nranks, CoeffsClose A κ d (rms r) (u r) U) :
    ∀ e < m.numElems, ∀ b < d.nb, ∀ s < d.ns, A.Close κ (extCoeffs part rms u e b s) (U e b s) := by
  intro e he b hb s hs
  obtain ⟨h1, h2⟩ := w.rankOf_lt he
  exact hu _ h1 _ e (getElem?_idxOf h2) b hb s hs

end close
end DG
