import Verif.Lemmas.Solver
import Verif.Props.Exchange
import Verif.Props.Mesh

/-! One residual evaluation by all ranks together is the residual of the whole mesh; a whole run is
the textbook integrator applied to it. -/
namespace DG
open Finset

variable {K : Type} {α : Type}

/-- two sides of a face -/
def fSides (f : IFace) : List (ℕ × ℕ) := [(f.elemL, f.faceL), (f.elemR, f.faceR)]

theorem flatMap_zipIdx {α γ : Type} (h : α → List γ) : ∀ (l : List α) (n : ℕ),
    (l.zipIdx n).flatMap (fun x => h x.1) = l.flatMap h := by
  intro l
  induction l with
  | nil => intro n; rfl
  | cons a l ih => intro n; simp [List.zipIdx_cons, ih]

section world
variable {m : GMesh α} {nranks : ℕ} {part : List ℕ} {rms : ℕ → RankMesh α}

/-- the local record of the `i`-th face of a rank -/
theorem World.record (w : World m nranks part rms) {r : ℕ} (hr : r < nranks) {i g : ℕ}
    (hi : (rms r).l2gFace[i]? = some g) :
    ∃ f row, IsFace m g f ∧ (rms r).rows[i]? = some row ∧
      Owns part row.rankL f.elemL ∧ Owns part row.rankR f.elemR ∧ (row.rankL = r ∨ row.rankR = r) ∧
      row.faceL = f.faceL ∧ row.orientL = f.orientL ∧ row.faceR = f.faceR ∧
      row.orientR = f.orientR ∧
      (row.rankL = r → (rms r).l2gElem[row.elemL]? = some f.elemL) ∧
      (row.rankR = r → (rms r).l2gElem[row.elemR]? = some f.elemR) := by
  obtain ⟨enum, he, h⟩ := w.ranks r hr
  obtain ⟨f, row, a1, a2, a3, a4, a5, a6, a7, a8, a9, a10, _, a12, _⟩ :=
    C05_face_record m nranks part enum w.mesh w.parts he r hr _ h i g hi
  exact ⟨f, row, a1, a2, a3, a4, a5, a6, a7, a8, a9, a10, a12⟩

theorem World.elemTab (w : World m nranks part rms) {r : ℕ} (hr : r < nranks) :
    IDTableOK (rms r).l2gElem := by
  obtain ⟨enum, he, h⟩ := w.ranks r hr
  exact (C02_id_translation m nranks part enum w.mesh w.parts he r hr _ h).1

theorem World.faceTab (w : World m nranks part rms) {r : ℕ} (hr : r < nranks) :
    IDTableOK (rms r).l2gFace := by
  obtain ⟨enum, he, h⟩ := w.ranks r hr
  exact (C02_id_translation m nranks part enum w.mesh w.parts he r hr _ h).2.2

theorem World.numElems (w : World m nranks part rms) {r : ℕ} (hr : r < nranks) :
    (rms r).numElemsPart = (rms r).l2gElem.length := by
  rw [(w.res hr).numElemsPart, (w.res hr).l2gElem]

theorem World.rowsLen (w : World m nranks part rms) {r : ℕ} (hr : r < nranks) :
    (rms r).rows.length = (rms r).numIFacesPart := by
  rw [(w.res hr).rows, (w.res hr).numIFacesPart]; simp [rowsOf]

theorem IDTableOK.inj {l : List ℕ} (h : IDTableOK l) {i j g : ℕ} (hi : l[i]? = some g)
    (hj : l[j]? = some g) : i = j := by
  obtain ⟨a1, a2⟩ := List.getElem?_eq_some_iff.1 hi
  obtain ⟨b1, b2⟩ := List.getElem?_eq_some_iff.1 hj
  rw [← h.localRoundTrip i a1, a2, ← b2, h.localRoundTrip j b1]

theorem World.rowAt (w : World m nranks part rms) {r : ℕ} (hr : r < nranks) {x : IFace × ℕ} {i : ℕ}
    (hx : (myFaces part r m.faces)[i]? = some x) :
    (rms r).l2gFace[i]? = some x.2 ∧ IsFace m x.2 x.1 := by
  constructor
  · rw [(w.res hr).l2gFace, List.getElem?_map, hx]; rfl
  · have := List.mem_of_getElem? hx
    simp only [myFaces, List.mem_filter] at this
    exact mem_zipIdx_lt this.1

theorem World.localSide (w : World m nranks part rms) {r : ℕ} (hr : r < nranks) {x : IFace × ℕ}
    {i : ℕ} (hx : (myFaces part r m.faces)[i]? = some x) {row : FaceRow}
    (hrow : (rms r).rows[i]? = some row) {y : ℕ × ℕ} (hy : y ∈ localSides r row) :
    ∃ e, (rms r).l2gElem[y.1]? = some e ∧ (e, y.2) ∈ fSides x.1 := by
  obtain ⟨hl, hf⟩ := w.rowAt hr hx
  obtain ⟨f, row', a1, a2, a3, a4, a5, a6, a7, a8, a9, a10, a12⟩ := w.record hr hl
  rw [hrow] at a2; cases a2
  unfold IsFace at hf a1
  rw [hf] at a1; cases a1
  unfold localSides at hy
  rcases List.mem_append.1 hy with hh | hh
  · by_cases hk : r = row.rankL
    · rw [if_pos hk] at hh
      obtain rfl := List.mem_singleton.1 hh
      exact ⟨_, a10 hk.symm, by simp [fSides, a6]⟩
    · rw [if_neg hk] at hh; cases hh
  · by_cases hk : r = row.rankR
    · rw [if_pos hk] at hh
      obtain rfl := List.mem_singleton.1 hh
      exact ⟨_, a12 hk.symm, by simp [fSides, a8]⟩
    · rw [if_neg hk] at hh; cases hh

section ops
variable [Zero K] [One K] [Add K] [Sub K] [Mul K] [Neg K] [Div K] [NatCast K]

theorem World.rowsOK (w : World m nranks part rms) {d : Disc K} {norient : ℕ}
    (hc : Conforming d norient m) {r : ℕ} (hr : r < nranks) :
    RowsOK d norient (rms r).numElemsPart r (rms r).rows := by
  have key : ∀ row ∈ (rms r).rows, ∃ (i g : ℕ) (f : IFace), (rms r).rows[i]? = some row ∧
      (rms r).l2gFace[i]? = some g ∧ IsFace m g f ∧ row.faceL = f.faceL ∧ row.orientL = f.orientL ∧
      row.faceR = f.faceR ∧ row.orientR = f.orientR ∧
      (row.rankL = r → (rms r).l2gElem[row.elemL]? = some f.elemL) ∧
      (row.rankR = r → (rms r).l2gElem[row.elemR]? = some f.elemR) := by
    intro row hrow
    obtain ⟨i, hi, rfl⟩ := List.mem_iff_getElem.1 hrow
    have hi' : i < (rms r).l2gFace.length := by
      rw [← w.numIF hr, ← w.rowsLen hr]; exact hi
    have hg := List.getElem?_eq_getElem hi'
    obtain ⟨f, row', a1, a2, a3, a4, a5, a6, a7, a8, a9, a10, a12⟩ := w.record hr hg
    rw [List.getElem?_eq_getElem hi] at a2
    cases a2
    exact ⟨i, _, f, List.getElem?_eq_getElem hi, hg, a1, a6, a7, a8, a9, a10, a12⟩
  refine ⟨?_, ?_, ?_⟩
  · intro row hrow hk
    obtain ⟨i, g, f, _, _, hf, b1, b2, _, _, b5, _⟩ := key row hrow
    have hfm : f ∈ m.faces := List.mem_of_getElem? hf
    refine ⟨?_, by rw [b1]; exact (hc.faceL f hfm).1, by rw [b2]; exact (hc.faceL f hfm).2⟩
    rw [w.numElems hr]
    exact (List.getElem?_eq_some_iff.1 (b5 hk.symm)).1
  · intro row hrow hk
    obtain ⟨i, g, f, _, _, hf, _, _, b1, b2, _, b5⟩ := key row hrow
    have hfm : f ∈ m.faces := List.mem_of_getElem? hf
    refine ⟨?_, by rw [b1]; exact (hc.faceR f hfm).1, by rw [b2]; exact (hc.faceR f hfm).2⟩
    rw [w.numElems hr]
    exact (List.getElem?_eq_some_iff.1 (b5 hk.symm)).1
  · have hs : (m.faces.zipIdx.flatMap fun x => fSides x.1).Nodup := by
      rw [flatMap_zipIdx]; exact hc.sides
    rw [List.nodup_flatMap] at hs
    have hsub : (myFaces part r m.faces).Sublist m.faces.zipIdx := List.filter_sublist
    have hpw := hs.2.sublist hsub
    have hlen : (rms r).rows.length = (myFaces part r m.faces).length := by
      rw [w.rowsLen hr, (w.res hr).numIFacesPart]
    have tab := w.elemTab hr
    rw [List.nodup_flatMap]
    constructor
    · intro row hrow
      obtain ⟨i, hi, rfl⟩ := List.mem_iff_getElem.1 hrow
      have hi' : i < (myFaces part r m.faces).length := by rw [← hlen]; exact hi
      have hx := List.getElem?_eq_getElem hi'
      have hnd := hs.1 _ (hsub.subset (List.getElem_mem hi'))
      obtain ⟨hl, hf⟩ := w.rowAt hr hx
      obtain ⟨f, row', a1, a2, a3, a4, a5, a6, a7, a8, a9, a10, a12⟩ := w.record hr hl
      rw [List.getElem?_eq_getElem hi] at a2
      cases a2
      unfold IsFace at hf a1
      rw [hf] at a1
      cases a1
      unfold localSides
      by_cases hL : r = (rms r).rows[i].rankL
      · by_cases hR : r = (rms r).rows[i].rankR
        · rw [if_pos hL, if_pos hR]
          simp only [List.singleton_append, List.nodup_cons, List.mem_singleton, List.not_mem_nil,
            not_false_eq_true, List.nodup_nil, and_true, Prod.mk.injEq, not_and]
          intro he hface
          have h1 := a10 hL.symm
          rw [he, a12 hR.symm] at h1
          simp only [fSides, List.nodup_cons, List.mem_singleton, Prod.mk.injEq] at hnd
          exact hnd.1 ⟨(Option.some.inj h1).symm, by rw [← a6, ← a8]; exact hface⟩
        · rw [if_neg hR]; split <;> simp
      · rw [if_neg hL]; split <;> simp
    · rw [List.pairwise_iff_getElem]
      intro i j hi hj hij
      have hi' : i < (myFaces part r m.faces).length := by rw [← hlen]; exact hi
      have hj' : j < (myFaces part r m.faces).length := by rw [← hlen]; exact hj
      have hdis := List.pairwise_iff_getElem.1 hpw i j hi' hj' hij
      intro y hy1 hy2
      obtain ⟨e1, h1, s1⟩ := w.localSide hr (List.getElem?_eq_getElem hi')
        (List.getElem?_eq_getElem hi) hy1
      obtain ⟨e2, h2, s2⟩ := w.localSide hr (List.getElem?_eq_getElem hj')
        (List.getElem?_eq_getElem hj) hy2
      rw [h1] at h2
      cases h2
      exact hdis s1 s2

end ops

end world

/-! ### face states -/

theorem mapM_exists {ι β : Type} (f : ι → Option β) (P : ι → β → Prop) : ∀ l : List ι,
    (∀ a ∈ l, ∃ b, f a = some b ∧ P a b) →
    ∃ l', l.mapM f = some l' ∧ l'.length = l.length ∧
      ∀ (i : ℕ) (a : ι), l[i]? = some a → ∃ b, l'[i]? = some b ∧ P a b := by
  intro l
  induction l with
  | nil => intro _; exact ⟨[], rfl, rfl, by simp⟩
  | cons a l ih =>
    intro h
    obtain ⟨b, hb, hP⟩ := h a (by simp)
    obtain ⟨l', h1, h2, h3⟩ := ih (fun x hx => h x (by simp [hx]))
    refine ⟨b :: l', ?_, by simp [h2], ?_⟩
    · rw [List.mapM_cons, hb, h1]; rfl
    · intro i x hx
      cases i with
      | zero => simp at hx; subst hx; exact ⟨b, rfl, hP⟩
      | succ i => simp at hx; simpa using h3 i x hx

/-- the block holds the trace `T` of element `e` on its face `face`, in the order of the face -/
def HoldsT (d : Disc K) (T : ℕ → ℕ → ℕ → ℕ → K) (e face orient : ℕ) (B : ℕ → ℕ → K) : Prop :=
  ∀ iq < d.nqf, ∀ s < d.ns, B iq s = T e face (d.ptsOrder orient iq) s

/-- the face states of a rank hold the traces of its own elements -/
def OwnT (d : Disc K) (m : GMesh α) (part : List ℕ) (r : ℕ) (rm : RankMesh α)
    (A : FaceArr (ℕ → ℕ → K)) (T : ℕ → ℕ → ℕ → ℕ → K) : Prop :=
  ∀ (i g : ℕ) (f : IFace), rm.l2gFace[i]? = some g → IsFace m g f →
    (Owns part r f.elemL → ∃ B, A.L[i]? = some B ∧ HoldsT d T f.elemL f.faceL f.orientL B) ∧
    (Owns part r f.elemR → ∃ B, A.R[i]? = some B ∧ HoldsT d T f.elemR f.faceR f.orientR B)

/-- the face states of a rank hold the traces of both elements of every face -/
def BothT (d : Disc K) (m : GMesh α) (rm : RankMesh α)
    (A : FaceArr (ℕ → ℕ → K)) (T : ℕ → ℕ → ℕ → ℕ → K) : Prop :=
  ∀ (i g : ℕ) (f : IFace), rm.l2gFace[i]? = some g → IsFace m g f →
    (∃ B, A.L[i]? = some B ∧ HoldsT d T f.elemL f.faceL f.orientL B) ∧
    (∃ B, A.R[i]? = some B ∧ HoldsT d T f.elemR f.faceR f.orientR B)

section ops
variable [Zero K] [One K] [Add K] [Sub K] [Mul K] [Neg K] [Div K] [NatCast K]

/-- state of element `e` at point `j` of its face `face`, the way the code adds it up -/
def traceLoop (d : Disc K) (u : Coeffs K) (e face j s : ℕ) : K :=
  0 + loopSum d.nb fun b => (1 * d.faceBasis face j b) * u e b s

variable [DecidableEq K]

theorem gatherSide_spec {d : Disc K} {norient ne elem face orient : ℕ} (ho : OrderOK d norient)
    (h1 : elem < ne) (h2 : face < d.nface) (h3 : orient < norient) (u : Coeffs K)
    (Uq0 : ℕ → ℕ → ℕ → K) (old : ℕ → ℕ → K) :
    ∃ B, gatherSide d ne elem face orient (fun e =>
      evaluateState (d.nface * d.nqf) d.nb d.ns (faceBasisFlat d) (u e) (Uq0 e)) old = some B ∧
      HoldsT d (traceLoop d u) elem face orient B := by
  refine ⟨_, if_pos ⟨h1, fun iq hq => slot_lt ho h3 h2 hq⟩, ?_⟩
  intro iq hq s hs
  simp only [hq, hs, and_self, if_true]
  obtain ⟨e1, e2⟩ := slot_div (face := face) ((ho _ h3).1 iq hq)
  unfold evaluateState cAxB_to_C gemm traceLoop
  rw [if_pos ⟨slot_lt ho h3 h2 hq, hs⟩, if_pos rfl]
  simp only [faceBasisFlat, e1, e2]

theorem faceStates_spec (d : Disc K) (rm : RankMesh α) (rank norient : ℕ) (u : Coeffs K)
    (Uq0 : ℕ → ℕ → ℕ → K) (U : FaceArr (ℕ → ℕ → K))
    (hr : RowsOK d norient rm.numElemsPart rank rm.rows) (ho : OrderOK d norient)
    (hl : rm.rows.length = rm.numIFacesPart) (hU : Sized rm U) :
    ∃ U', faceStates d rm rank u Uq0 U = some U' ∧ Sized rm U' ∧
      ∀ (i : ℕ) (row : FaceRow), rm.rows[i]? = some row →
        (rank = row.rankL → ∃ B, U'.L[i]? = some B ∧
          HoldsT d (traceLoop d u) row.elemL row.faceL row.orientL B) ∧
        (rank = row.rankR → ∃ B, U'.R[i]? = some B ∧
          HoldsT d (traceLoop d u) row.elemR row.faceR row.orientR B) := by
  have hrow : ∀ (l : List (ℕ → ℕ → K)), l.length = rm.numIFacesPart →
      ∀ x ∈ l.zipIdx, ∃ row, rm.rows[x.2]? = some row := by
    intro l hlen x hx
    have : x.2 < rm.rows.length := by
      have := (List.getElem?_eq_some_iff.1 (List.mem_zipIdx_iff_getElem?.1 hx)).1
      omega
    exact ⟨_, List.getElem?_eq_getElem this⟩
  obtain ⟨L, l1, l2, l3⟩ := mapM_exists (fun x : (ℕ → ℕ → K) × ℕ => do
      let row ← rm.rows[x.2]?
      if rank = row.rankL then
        gatherSide d rm.numElemsPart row.elemL row.faceL row.orientL
          (fun e => evaluateState (d.nface * d.nqf) d.nb d.ns (faceBasisFlat d) (u e) (Uq0 e)) x.1
      else some x.1)
    (fun x B => ∀ row, rm.rows[x.2]? = some row → rank = row.rankL →
      HoldsT d (traceLoop d u) row.elemL row.faceL row.orientL B) U.L.zipIdx (by
      intro x hx
      obtain ⟨row, h⟩ := hrow U.L hU.1 x hx
      simp only [h, Option.bind_eq_bind, Option.bind_some]
      by_cases hk : rank = row.rankL
      · obtain ⟨a1, a2, a3⟩ := hr.left row (List.mem_of_getElem? h) hk
        obtain ⟨B, hB, hT⟩ := gatherSide_spec ho a1 a2 a3 u Uq0 x.1
        refine ⟨B, by rw [if_pos hk]; exact hB, ?_⟩
        intro row' h' _
        rw [Option.some.inj h'] at hT; exact hT
      · refine ⟨x.1, by rw [if_neg hk], ?_⟩
        intro row' h' hk'
        cases h'; exact absurd hk' hk)
  obtain ⟨R, r1, r2, r3⟩ := mapM_exists (fun x : (ℕ → ℕ → K) × ℕ => do
      let row ← rm.rows[x.2]?
      if rank = row.rankR then
        gatherSide d rm.numElemsPart row.elemR row.faceR row.orientR
          (fun e => evaluateState (d.nface * d.nqf) d.nb d.ns (faceBasisFlat d) (u e) (Uq0 e)) x.1
      else some x.1)
    (fun x B => ∀ row, rm.rows[x.2]? = some row → rank = row.rankR →
      HoldsT d (traceLoop d u) row.elemR row.faceR row.orientR B) U.R.zipIdx (by
      intro x hx
      obtain ⟨row, h⟩ := hrow U.R hU.2 x hx
      simp only [h, Option.bind_eq_bind, Option.bind_some]
      by_cases hk : rank = row.rankR
      · obtain ⟨a1, a2, a3⟩ := hr.right row (List.mem_of_getElem? h) hk
        obtain ⟨B, hB, hT⟩ := gatherSide_spec ho a1 a2 a3 u Uq0 x.1
        refine ⟨B, by rw [if_pos hk]; exact hB, ?_⟩
        intro row' h' _
        rw [Option.some.inj h'] at hT; exact hT
      · refine ⟨x.1, by rw [if_neg hk], ?_⟩
        intro row' h' hk'
        cases h'; exact absurd hk' hk)
  refine ⟨⟨L, R⟩, ?_, ⟨?_, ?_⟩, ?_⟩
  · unfold faceStates constructFaceStates
    rw [l1, r1]; rfl
  · simpa [hU.1] using l2
  · simpa [hU.2] using r2
  · intro i row hi
    have hin : i < rm.numIFacesPart := by
      rw [← hl]; exact (List.getElem?_eq_some_iff.1 hi).1
    constructor
    · intro hk
      have hlt : i < U.L.length := by rw [hU.1]; exact hin
      obtain ⟨B, b1, b2⟩ := l3 i (U.L[i], i) (by simp [List.getElem?_eq_getElem hlt])
      exact ⟨B, b1, b2 row hi hk⟩
    · intro hk
      have hlt : i < U.R.length := by rw [hU.2]; exact hin
      obtain ⟨B, b1, b2⟩ := r3 i (U.R[i], i) (by simp [List.getElem?_eq_getElem hlt])
      exact ⟨B, b1, b2 row hi hk⟩

omit [DecidableEq K] in
theorem traceLoop_restrict {d : Disc K} {rm : RankMesh α} {u U : Coeffs K}
    (h : CoeffsRestrict d rm u U) {k e : ℕ} (hk : rm.l2gElem[k]? = some e) (face j : ℕ) {s : ℕ}
    (hs : s < d.ns) : traceLoop d u k face j s = traceLoop d U e face j s := by
  unfold traceLoop
  congr 1
  exact loopSum_congr fun b hb => by rw [h k e hk b hb s hs]

section world
variable {m : GMesh α} {nranks : ℕ} {part : List ℕ} {rms : ℕ → RankMesh α}

theorem World.ownT (w : World m nranks part rms) {d : Disc K} {norient : ℕ}
    (hc : Conforming d norient m) (ho : OrderOK d norient) {r : ℕ} (hr : r < nranks)
    {u U : Coeffs K} (hu : CoeffsRestrict d (rms r) u U) (Uq0 : ℕ → ℕ → ℕ → K)
    (A : FaceArr (ℕ → ℕ → K)) (hA : Sized (rms r) A) :
    ∃ A', faceStates d (rms r) r u Uq0 A = some A' ∧ Sized (rms r) A' ∧
      OwnT d m part r (rms r) A' (traceLoop d U) := by
  obtain ⟨A', h1, h2, h3⟩ := faceStates_spec d (rms r) r norient u Uq0 A (w.rowsOK hc hr) ho
    (w.rowsLen hr) hA
  refine ⟨A', h1, h2, ?_⟩
  intro i g f hi hf
  obtain ⟨f', row, a1, a2, a3, a4, a5, a6, a7, a8, a9, a10, a12⟩ := w.record hr hi
  unfold IsFace at hf a1
  rw [hf] at a1
  cases a1
  obtain ⟨hL, hR⟩ := h3 i row a2
  constructor
  · intro hown
    have hk : r = row.rankL := by
      unfold Owns at hown a3; rw [hown] at a3; exact Option.some.inj a3
    obtain ⟨B, b1, b2⟩ := hL hk
    refine ⟨B, b1, ?_⟩
    intro iq hq s hs
    rw [b2 iq hq s hs, traceLoop_restrict hu (a10 hk.symm) _ _ hs, a6, a7]
  · intro hown
    have hk : r = row.rankR := by
      unfold Owns at hown a4; rw [hown] at a4; exact Option.some.inj a4
    obtain ⟨B, b1, b2⟩ := hR hk
    refine ⟨B, b1, ?_⟩
    intro iq hq s hs
    rw [b2 iq hq s hs, traceLoop_restrict hu (a12 hk.symm) _ _ hs, a8, a9]

omit [DecidableEq K] in
theorem World.mem_l2gFace (w : World m nranks part rms) {r : ℕ} (hr : r < nranks) {g : ℕ} {f : IFace}
    (hf : IsFace m g f) (h : Owns part r f.elemL ∨ Owns part r f.elemR) :
    ∃ i : ℕ, (rms r).l2gFace[i]? = some g := by
  obtain ⟨enum, he, h'⟩ := w.ranks r hr
  have := ((C04_interior_faces m nranks part enum w.mesh w.parts he r hr _ h').2.2.2 g).2 ⟨f, hf, h⟩
  obtain ⟨i, hi, rfl⟩ := List.mem_iff_getElem.1 this
  exact ⟨i, List.getElem?_eq_getElem hi⟩

omit [DecidableEq K] in
theorem World.owners (w : World m nranks part rms) {g : ℕ} {f : IFace} (hf : IsFace m g f) :
    ∃ rl rr, Owns part rl f.elemL ∧ Owns part rr f.elemR ∧ rl < nranks ∧ rr < nranks := by
  obtain ⟨h1, h2⟩ := w.mesh.faces f (List.mem_of_getElem? hf)
  rw [← w.parts.len] at h1 h2
  exact ⟨_, _, List.getElem?_eq_getElem h1, List.getElem?_eq_getElem h2,
    w.parts.lt _ (List.getElem_mem h1), w.parts.lt _ (List.getElem_mem h2)⟩

omit [DecidableEq K] in
/-- the exchange gives every rank the traces of both elements of all its faces -/
theorem World.bothT (w : World m nranks part rms) {d : Disc K} {γ : Type}
    {st : ℕ → FaceArr (ℕ → ℕ → K) × γ} (hst : ∀ r < nranks, Sized (rms r) (st r).1) {T : ℕ → ℕ → ℕ → ℕ → K}
    (hown : ∀ r < nranks, OwnT d m part r (rms r) (st r).1 T) {r : ℕ} (hr : r < nranks) :
    ∃ A', DG.unpack (rms r) r (st r).1 ((rms r).nbrs.map (fun s => syncMsg rms st s r)) = some A' ∧
      Sized (rms r) A' ∧ BothT d m (rms r) A' T := by
  obtain ⟨A', h1, h2, h3⟩ := w.exchange_states hst r hr
  refine ⟨A', h1, h2, ?_⟩
  intro i g f hi hf
  obtain ⟨rl, rr, ol, or, hl, hrr⟩ := w.owners hf
  obtain ⟨hs, hd⟩ := h3 i g hi f hf rl rr ol or
  by_cases he : rl = rr
  · obtain ⟨e1, e2⟩ := hs he
    subst he
    have hrl : r = rl := by
      obtain ⟨f', row, a1, _, a3, a4, a5, _⟩ := w.record hr hi
      unfold IsFace at hf a1
      rw [hf] at a1
      cases a1
      unfold Owns at ol or a3 a4
      have e3 : rl = row.rankL := Option.some.inj (ol.symm.trans a3)
      have e4 : rl = row.rankR := Option.some.inj (or.symm.trans a4)
      rcases a5 with h | h
      · rw [e3, h]
      · rw [e4, h]
    subst hrl
    rw [e1, e2]
    obtain ⟨o1, o2⟩ := hown r hr i g f hi hf
    exact ⟨o1 ol, o2 or⟩
  · obtain ⟨il, hil⟩ := w.mem_l2gFace hl hf (Or.inl ol)
    obtain ⟨ir, hir⟩ := w.mem_l2gFace hrr hf (Or.inr or)
    obtain ⟨e1, e2, _⟩ := hd he il ir hil hir
    rw [e1, e2]
    exact ⟨(hown rl hl il g f hil hf).1 ol, (hown rr hrr ir g f hir hf).2 or⟩

end world

end ops

variable [Field K]

/-- the face states of a rank hold the traces of its own elements -/
def OwnTraces (d : Disc K) (m : GMesh α) (part : List ℕ) (r : ℕ) (rm : RankMesh α)
    (A : FaceArr (ℕ → ℕ → K)) (U : Coeffs K) : Prop := OwnT d m part r rm A (traceState d U)

/-- the face states of a rank hold the traces of both elements of every face -/
def BothTraces (d : Disc K) (m : GMesh α) (rm : RankMesh α)
    (A : FaceArr (ℕ → ℕ → K)) (U : Coeffs K) : Prop := BothT d m rm A (traceState d U)

theorem traceLoop_eq (d : Disc K) (u : Coeffs K) (e face j : ℕ) {s : ℕ} (hs : s < d.ns) :
    traceLoop d u e face j s = traceState d u e face j s := by
  unfold traceLoop traceState
  rw [if_pos hs, zero_add, loopSum_eq]
  simp only [one_mul]

/-! ### one residual by all ranks -/

variable [DecidableEq K]

omit [DecidableEq K] in
theorem traceState_restrict {d : Disc K} {rm : RankMesh α} {u U : Coeffs K}
    (h : CoeffsRestrict d rm u U) {k e : ℕ} (hk : rm.l2gElem[k]? = some e) (face j : ℕ) :
    traceState d u k face j = traceState d U e face j := by
  funext s
  unfold traceState
  by_cases hs : s < d.ns
  · rw [if_pos hs, if_pos hs]
    exact Finset.sum_congr rfl fun b hb => by rw [h k e hk b (Finset.mem_range.1 hb) s hs]
  · rw [if_neg hs, if_neg hs]

omit [DecidableEq K] in
theorem volumeTerm_restrict {d : Disc K} {rm : RankMesh α} {u U : Coeffs K} {g G : Geom K}
    (h : CoeffsRestrict d rm u U) (hg : GeomRestrict d rm g G) {k e : ℕ}
    (hk : rm.l2gElem[k]? = some e) (b s : ℕ) :
    volumeTerm d g u k b s = volumeTerm d G U e b s := by
  unfold volumeTerm
  refine Finset.sum_congr rfl fun q hq => Finset.sum_congr rfl fun i hi => ?_
  congr 1
  refine Finset.sum_congr rfl fun j hj => ?_
  have hv : volState d u k q = volState d U e q := by
    funext s
    unfold volState
    by_cases hs : s < d.ns
    · rw [if_pos hs, if_pos hs]
      exact Finset.sum_congr rfl fun b hb => by rw [h k e hk b (Finset.mem_range.1 hb) s hs]
    · rw [if_neg hs, if_neg hs]
  rw [hv, hg.djac k e hk q (Finset.mem_range.1 hq), hg.ijac k e hk q (Finset.mem_range.1 hq) i
    (Finset.mem_range.1 hi) j (Finset.mem_range.1 hj)]

section world
variable {m : GMesh α} {nranks : ℕ} {part : List ℕ} {rms : ℕ → RankMesh α}

theorem World.ownTraces (w : World m nranks part rms) {d : Disc K} {norient : ℕ}
    (hc : Conforming d norient m) (ho : OrderOK d norient) {r : ℕ} (hr : r < nranks)
    {u U : Coeffs K} (hu : CoeffsRestrict d (rms r) u U) (Uq0 : ℕ → ℕ → ℕ → K)
    (A : FaceArr (ℕ → ℕ → K)) (hA : Sized (rms r) A) :
    ∃ A', faceStates d (rms r) r u Uq0 A = some A' ∧ Sized (rms r) A' ∧
      OwnTraces d m part r (rms r) A' U := by
  obtain ⟨A', h1, h2, h3⟩ := w.ownT hc ho hr hu Uq0 A hA
  refine ⟨A', h1, h2, ?_⟩
  intro i g f hi hf
  obtain ⟨hL, hR⟩ := h3 i g f hi hf
  refine ⟨fun h => ?_, fun h => ?_⟩
  · obtain ⟨B, b1, b2⟩ := hL h
    exact ⟨B, b1, fun iq hq s hs => by rw [b2 iq hq s hs, traceLoop_eq d U _ _ _ hs]⟩
  · obtain ⟨B, b1, b2⟩ := hR h
    exact ⟨B, b1, fun iq hq s hs => by rw [b2 iq hq s hs, traceLoop_eq d U _ _ _ hs]⟩

omit [DecidableEq K] in
/-- the exchange gives every rank the traces of both elements of all its faces -/
theorem World.bothTraces (w : World m nranks part rms) {d : Disc K} {γ : Type}
    {st : ℕ → FaceArr (ℕ → ℕ → K) × γ} (hst : ∀ r < nranks, Sized (rms r) (st r).1) {U : Coeffs K}
    (hown : ∀ r < nranks, OwnTraces d m part r (rms r) (st r).1 U) {r : ℕ} (hr : r < nranks) :
    ∃ A', DG.unpack (rms r) r (st r).1 ((rms r).nbrs.map (fun s => syncMsg rms st s r)) = some A' ∧
      Sized (rms r) A' ∧ BothTraces d m (rms r) A' U := w.bothT hst hown hr

omit [DecidableEq K] in
theorem sum_filter_zero {ι : Type} (l : List ι) (p : ι → Bool) (h : ι → K)
    (hz : ∀ x ∈ l, p x = false → h x = 0) : ((l.filter p).map h).sum = (l.map h).sum := by
  induction l with
  | nil => rfl
  | cons a l ih =>
    have ih' := ih (fun x hx => hz x (by simp [hx]))
    by_cases hp : p a = true
    · simp [List.filter_cons, hp, ih']
    · have : p a = false := by simpa using hp
      simp [List.filter_cons, this, ih', hz a (by simp) this]

/-- the residual computed by a rank is the residual of the whole mesh on its elements -/
theorem World.residual (w : World m nranks part rms) {d : Disc K} {norient : ℕ}
    (hc : Conforming d norient m) (ho : OrderOK d norient) {r : ℕ} (hr : r < nranks)
    {u U : Coeffs K} (hu : CoeffsRestrict d (rms r) u U) {g G : Geom K}
    (hg : GeomRestrict d (rms r) g G) {A : FaceArr (ℕ → ℕ → K)} (_hA : Sized (rms r) A)
    (hT : BothTraces d m (rms r) A U)
    (sched : List (FluxWrite K) → List (FluxWrite K)) (hsched : ∀ l, (sched l).Perm l)
    (vq0 Fe0 res0 : ℕ → ℕ → ℕ → K) (hcl : CleanSlots d r (rms r).rows Fe0) :
    ∃ res Fe, residual d g (rms r) r sched u A vq0 Fe0 res0 = some (res, Fe) ∧
      CleanSlots d r (rms r).rows Fe ∧ CoeffsRestrict d (rms r) res (globalResidual d m G U) := by
  have hn := w.numIF hr
  have hex : ∀ i, ∃ F : ℕ → ℕ → K, i < (rms r).numIFacesPart → faceFlux d g A i = some F ∧
      ∀ g' f, (rms r).l2gFace[i]? = some g' → IsFace m g' f →
        ∀ iq < d.nqf, ∀ s, F iq s = meshFlux d G U g' f iq s := by
    intro i
    by_cases hi : i < (rms r).numIFacesPart
    · have hi' : i < (rms r).l2gFace.length := by rw [← hn]; exact hi
      have hgi := List.getElem?_eq_getElem hi'
      obtain ⟨f, row, a1, _⟩ := w.record hr hgi
      obtain ⟨⟨BL, l1, l2⟩, BR, r1, r2⟩ := hT i _ f hgi a1
      refine ⟨_, fun _ => ⟨by unfold faceFlux; rw [l1, r1]; rfl, ?_⟩⟩
      intro g' f' hg' hf' iq hq s
      rw [hgi] at hg'
      cases hg'
      unfold IsFace at a1 hf'
      rw [a1] at hf'
      cases hf'
      unfold meshFlux
      have e1 : cArr d.ns (BL iq) = traceState d U f.elemL f.faceL (d.ptsOrder f.orientL iq) := by
        funext s
        unfold cArr
        by_cases hs : s < d.ns
        · rw [if_pos hs, l2 iq hq s hs]
        · rw [if_neg hs, traceState, if_neg hs]
      have e2 : cArr d.ns (BR iq) = traceState d U f.elemR f.faceR (d.ptsOrder f.orientR iq) := by
        funext s
        unfold cArr
        by_cases hs : s < d.ns
        · rw [if_pos hs, r2 iq hq s hs]
        · rw [if_neg hs, traceState, if_neg hs]
      have e3 : cArr d.dim (g.normals i iq) = cArr d.dim (G.normals (rms r).l2gFace[i] iq) := by
        funext j
        unfold cArr
        by_cases hj : j < d.dim
        · rw [if_pos hj, if_pos hj, hg.normals i _ hgi iq hq j hj]
        · rw [if_neg hj, if_neg hj]
      simp only [e1, e2, e3]
    · exact ⟨fun _ _ => 0, fun h => absurd h hi⟩
  choose F hF using hex
  obtain ⟨res, Fe, h1, h2, h3⟩ := residual_spec d g (rms r) r norient sched hsched u A vq0 Fe0 res0
    (w.rowsOK hc hr) ho (w.rowsLen hr) F (fun i hi => (hF i hi).1) hcl
  refine ⟨res, Fe, h1, h2, ?_⟩
  intro k e hk b hb s hs
  have hkn : k < (rms r).numElemsPart := by
    rw [w.numElems hr]; exact (List.getElem?_eq_some_iff.1 hk).1
  rw [h3 k hkn b hb s hs, volumeTerm_restrict hu hg hk]
  unfold globalResidual
  congr 1
  have hown : Owns part r e := by
    have := List.mem_of_getElem? hk
    rw [(w.res hr).l2gElem] at this
    exact (mem_owned.1 this).2
  rw [← sum_filter_zero m.faces.zipIdx (fun f => decide (Touches part r f.1))]
  · congr 1
    change _ = (myFaces part r m.faces).map _
    have hlen : (rms r).rows.length = (myFaces part r m.faces).length := by
      rw [w.rowsLen hr, (w.res hr).numIFacesPart]
    apply List.ext_getElem
    · simp only [List.length_map, List.length_zip, List.length_range]
      rw [hlen, (w.res hr).numIFacesPart]; simp
    · intro i h1 h2
      simp only [List.length_map] at h2
      have hx := List.getElem?_eq_getElem h2
      obtain ⟨hl, hf⟩ := w.rowAt hr hx
      have hi : i < (rms r).numIFacesPart := by rw [(w.res hr).numIFacesPart]; exact h2
      obtain ⟨f', row, a1, a2, a3, a4, a5, a6, a7, a8, a9, a10, a12⟩ := w.record hr hl
      have hf0 := hf
      unfold IsFace at hf a1
      rw [hf] at a1
      cases a1
      simp only [List.getElem_map, List.getElem_zip, List.getElem_range]
      have hrow : (rms r).rows[i]'(by rw [hlen]; exact h2) = row := by
        have := List.getElem?_eq_getElem (l := (rms r).rows) (i := i) (by rw [hlen]; exact h2)
        rw [a2] at this
        exact (Option.some.inj this).symm
      rw [hrow]
      unfold localFaceTerm faceTerm
      refine Finset.sum_congr rfl fun iq hq => ?_
      rw [(hF i hi).2 _ _ hl hf0 iq (Finset.mem_range.1 hq) s, a6, a7, a8, a9]
      have tab := w.elemTab hr
      have cl : (r = row.rankL ∧ row.elemL = k) ↔ (myFaces part r m.faces)[i].1.elemL = e := by
        constructor
        · rintro ⟨hk1, hk2⟩
          have := a10 hk1.symm
          rw [hk2, hk] at this
          exact (Option.some.inj this).symm
        · intro he
          have hk1 : r = row.rankL := by
            unfold Owns at hown a3; rw [he, hown] at a3; exact Option.some.inj a3
          refine ⟨hk1, tab.inj (a10 hk1.symm) ?_⟩
          rw [he]; exact hk
      have cr : (r = row.rankR ∧ row.elemR = k) ↔ (myFaces part r m.faces)[i].1.elemR = e := by
        constructor
        · rintro ⟨hk1, hk2⟩
          have := a12 hk1.symm
          rw [hk2, hk] at this
          exact (Option.some.inj this).symm
        · intro he
          have hk1 : r = row.rankR := by
            unfold Owns at hown a4; rw [he, hown] at a4; exact Option.some.inj a4
          refine ⟨hk1, tab.inj (a12 hk1.symm) ?_⟩
          rw [he]; exact hk
      simp only [cl, cr]
  · intro x _ hx
    have hx : ¬ Touches part r x.1 := of_decide_eq_false hx
    unfold Touches at hx
    rw [not_or] at hx
    unfold faceTerm
    apply Finset.sum_eq_zero
    intro iq _
    have n1 : x.1.elemL ≠ e := by
      intro h; apply hx.1; rw [h]; exact hown
    have n2 : x.1.elemR ≠ e := by
      intro h; apply hx.2; rw [h]; exact hown
    rw [if_neg n1, if_neg n2]; ring

end world

end DG
