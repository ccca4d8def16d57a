import Verif.Lemmas.KernelRuns
import Verif.Lemmas.Solver

/-! The scatter kernel `construct_flux_state` and the copy kernels of the exchange. -/
namespace DG.Dev
open Kernel

variable {K : Type} [Zero K] [One K] [Add K] [Sub K] [Mul K] [Neg K] [Div K] [NatCast K]

/-- the cells written by iteration (row number `i`, point `q`) -/
def FluxCell (d : Disc K) (rank : ℕ) (row : FaceRow) (q : ℕ) (c : Cell) : Prop :=
  (rank = row.rankL ∧ ∃ s < d.ns,
    c = ⟨.FqElem, row.elemL, row.faceL * d.nqf + d.ptsOrder row.orientL q, s, 0⟩) ∨
  (rank = row.rankR ∧ ∃ s < d.ns,
    c = ⟨.FqElem, row.elemR, row.faceR * d.nqf + d.ptsOrder row.orientR q, s, 0⟩)

theorem fluxCell_side {d : Disc K} {norient ne rank : ℕ} {rows : List FaceRow}
    (hr : RowsOK d norient ne rank rows) (ho : OrderOK d norient) {row : FaceRow} (hrow : row ∈ rows)
    {q : ℕ} (hq : q < d.nqf) {c : Cell} (h : FluxCell d rank row q c) :
    ∃ F : ℕ → ℕ → K, ∃ w ∈ fluxWritesAt d rank row F q, w.elem = c.i ∧ w.slot = c.j := by
  refine ⟨fun _ _ => 0, ?_⟩
  unfold fluxWritesAt
  rcases h with ⟨hk, s, hs, rfl⟩ | ⟨hk, s, hs, rfl⟩
  · rw [if_pos hk]
    exact ⟨_, List.mem_append_left _ (List.mem_map.2 ⟨s, List.mem_range.2 hs, rfl⟩), rfl, rfl⟩
  · refine ⟨⟨row.elemR, row.faceR * d.nqf + d.ptsOrder row.orientR q, s, 0⟩,
      List.mem_append_right _ ?_, rfl, rfl⟩
    rw [if_pos hk]
    exact List.mem_map.2 ⟨s, List.mem_range.2 hs, rfl⟩

/-- different iterations write different cells -/
theorem fluxCell_inj {d : Disc K} {norient ne rank : ℕ} {rows : List FaceRow}
    (hr : RowsOK d norient ne rank rows) (ho : OrderOK d norient) {i i' q q' : ℕ} (hi : i < rows.length)
    (hi' : i' < rows.length) (hq : q < d.nqf) (hq' : q' < d.nqf) {c : Cell}
    (h : FluxCell d rank rows[i] q c) (h' : FluxCell d rank rows[i'] q' c) : i = i' ∧ q = q' := by
  obtain ⟨F, w, hw, e1, e2⟩ := fluxCell_side hr ho (List.getElem_mem hi) hq h
  obtain ⟨F', w', hw', e1', e2'⟩ := fluxCell_side hr ho (List.getElem_mem hi') hq' h'
  obtain ⟨-, s1, o, ho1, hm, hc⟩ := writesAt_side hr ho (List.getElem_mem hi) hq hw
  obtain ⟨-, s2, o', ho1', hm', hc'⟩ := writesAt_side hr ho (List.getElem_mem hi') hq' hw'
  rw [e1, e2] at s1 hc
  rw [e1', e2'] at s2 hc'
  rw [e2] at hm
  rw [e2'] at hm'
  have hs := List.nodup_flatMap.1 hr.sides
  have hii : i = i' := by
    by_contra hne
    have hp := List.pairwise_iff_getElem.1 hs.2
    rcases Nat.lt_or_gt_of_ne hne with hlt | hlt
    · exact hp i i' hi hi' hlt s1 s2
    · exact hp i' i hi' hi hlt s2 s1
  subst hii
  refine ⟨rfl, ?_⟩
  have hside := hs.1 _ (List.getElem_mem hi)
  have hoo : o = o' := by
    unfold localSides at hside
    rcases hc with ⟨c1, c2, c3⟩ | ⟨c1, c2, c3⟩ <;> rcases hc' with ⟨c1', c2', c3'⟩ | ⟨c1', c2', c3'⟩
    · rw [c3, c3']
    · rw [if_pos c2, if_pos c2'] at hside
      rw [c1] at c1'
      rw [c1'] at hside
      simp at hside
    · rw [if_pos c2, if_pos c2'] at hside
      rw [c1] at c1'
      rw [c1'] at hside
      simp at hside
    · rw [c3, c3']
  subst hoo
  exact (ho o ho1).2 q hq q' hq' (by rw [← hm, ← hm'])

/-- the view `Fq` as a list of blocks -/
def fqBlocks (n : ℕ) (m : Cell → K) : List (ℕ → ℕ → K) :=
  (List.range n).map fun i q s => m ⟨.Fq, i, q, s, 0⟩

/-- memory with `Fq_elem` replaced -/
def putFe (Fe : ℕ → ℕ → ℕ → K) (m : Cell → K) : Cell → K := fun c =>
  if c.view = .FqElem ∧ c.l = 0 then Fe c.i c.j c.k else m c

theorem fluxStateKernel_computes {d : Disc K} {norient ne rank : ℕ} {rows : List FaceRow}
    (hr : RowsOK d norient ne rank rows) (ho : OrderOK d norient) (m : Cell → K)
    (Fe : ℕ → ℕ → ℕ → K) (hFe : writeFluxes d ne (fluxWrites d rank rows (fqBlocks rows.length m))
      (fun e j s => m ⟨.FqElem, e, j, s, 0⟩) = some Fe) :
    (fluxStateKernel d rank rows).Computes m (putFe Fe m) := by
  have hlen : rows.length = (fqBlocks rows.length m).length := by simp [fqBlocks]
  obtain ⟨Fe', h1, h2, h3⟩ := writeFluxes_spec d ne (fluxWrites d rank rows (fqBlocks rows.length m))
    (fun e j s => m ⟨.FqElem, e, j, s, 0⟩) (fluxWrites_inB hr ho _) (fluxWrites_nodup hr ho _ hlen)
  rw [hFe] at h1
  cases h1
  have hmem : ∀ (i : ℕ) (hi : i < rows.length) (q : ℕ), q < d.nqf → ∀ w,
      w ∈ fluxWritesAt d rank rows[i] (fun q s => m ⟨.Fq, i, q, s, 0⟩) q →
      w ∈ fluxWrites d rank rows (fqBlocks rows.length m) := by
    intro i hi q hq w hw
    refine mem_fluxWrites.2 ⟨(rows[i], fun q s => m ⟨.Fq, i, q, s, 0⟩), ?_, q, hq, hw⟩
    refine List.mem_iff_getElem?.2 ⟨i, ?_⟩
    rw [List.getElem?_zip_eq_some]
    refine ⟨List.getElem?_eq_getElem hi, ?_⟩
    simp [fqBlocks, hi]
  refine rangeKernel_computes (rd := fun t c => c.view = .Fq)
    (wr := fun t => FluxCell d rank rows[t.1] t.2) ?_ ?_ ?_ ?_
  · intro t
    exact Code.Within.bind (within_cond fun hp => Code.Within.forN fun s hs =>
        Code.Within.bind (Code.Within.read (Or.inl rfl)) fun _ => Code.Within.write (Or.inl ⟨hp, s, hs, rfl⟩))
      fun _ => within_cond fun hp => Code.Within.forN fun s hs => within_copy (Or.inl rfl)
        (Or.inr ⟨hp, s, hs, rfl⟩)
  · rintro ⟨i, q⟩ ⟨i', q'⟩ c hw (h | h)
    · rcases hw with ⟨_, s, _, rfl⟩ | ⟨_, s, _, rfl⟩ <;> cases h
    · obtain ⟨a, b⟩ := fluxCell_inj hr ho i.2 i'.2 q.2 q'.2 hw h
      exact Prod.ext (Fin.ext a) (Fin.ext b)
  · rintro ⟨i, q⟩
    unfold fluxStateBody
    have hL : Sets (Code.cond (rank = rows[i].rankL) <| Code.forN d.ns fun is => do
        let v ← Code.read ⟨.Fq, i, q, is, 0⟩
        Code.write ⟨.FqElem, rows[i].elemL, rows[i].faceL * d.nqf + d.ptsOrder rows[i].orientL q, is, 0⟩
          (-1 * v)) m (fun c => rank = rows[i].rankL ∧ ∃ s < d.ns,
        c = ⟨.FqElem, rows[i].elemL, rows[i].faceL * d.nqf + d.ptsOrder rows[i].orientL q, s, 0⟩)
        (putFe Fe m) := by
      refine sets_cond fun hp => Sets.forN fun s hs m1 hm1 => ?_
      have hv : m1 ⟨.Fq, i, q, s, 0⟩ = m ⟨.Fq, i, q, s, 0⟩ := hm1 _ (by simp)
      intro c
      constructor
      · rintro rfl
        show (Function.update m1 _ (-1 * m1 _)) _ = _
        rw [Function.update_self, hv]
        have := h2 ⟨rows[i].elemL, rows[i].faceL * d.nqf + d.ptsOrder rows[i].orientL q, s,
          -1 * m ⟨.Fq, i, q, s, 0⟩⟩ (hmem i i.2 q q.2 _ (by
            unfold fluxWritesAt
            refine List.mem_append_left _ ?_
            rw [if_pos (show rank = rows[(i : ℕ)].rankL from hp)]
            exact List.mem_map.2 ⟨s, List.mem_range.2 hs, rfl⟩))
        simp only [putFe]
        rw [if_pos ⟨trivial, trivial⟩]
        exact this.symm
      · intro hc
        show (Function.update m1 _ (-1 * m1 _)) c = _
        exact Function.update_of_ne hc _ _
    refine Sets.bind hL ?_
    refine sets_cond fun hp => sets_copy1 (fun s hs => ?_) (fun i _ j _ => by simp)
    rw [(hL _).2 (by simp)]
    have := h2 ⟨rows[i].elemR, rows[i].faceR * d.nqf + d.ptsOrder rows[i].orientR q, s,
      m ⟨.Fq, i, q, s, 0⟩⟩ (hmem i i.2 q q.2 _ (by
        unfold fluxWritesAt
        refine List.mem_append_right _ ?_
        rw [if_pos (show rank = rows[(i : ℕ)].rankR from hp)]
        exact List.mem_map.2 ⟨s, List.mem_range.2 hs, rfl⟩))
    simp only [putFe]
    rw [if_pos ⟨trivial, trivial⟩]
    exact this
  · intro c hc
    unfold putFe
    split
    · rename_i hv
      have hcell : c = ⟨.FqElem, c.i, c.j, c.k, 0⟩ := by
        cases c; simp only at hv ⊢; rw [hv.1, hv.2]
      rw [h3 c.i c.j c.k ?_]
      · rw [← hcell]
      · intro hkey
        obtain ⟨w, hw, hk⟩ := List.mem_map.1 hkey
        obtain ⟨x, hx, q, hq, hw⟩ := mem_fluxWrites.1 hw
        obtain ⟨i, hi⟩ := List.mem_iff_getElem?.1 (List.of_mem_zip hx).1
        obtain ⟨hi, hxi⟩ := List.getElem?_eq_some_iff.1 hi
        refine hc (⟨i, hi⟩, ⟨q, hq⟩) ?_
        show FluxCell d rank rows[i] q c
        rw [hxi]
        simp only [FluxWrite.key, Prod.mk.injEq] at hk
        rcases mem_writesAt hw with ⟨hp, s, hs, rfl⟩ | ⟨hp, s, hs, rfl⟩
        · refine Or.inl ⟨hp, s, hs, ?_⟩
          rw [hcell]; simp only at hk ⊢; rw [hk.1, hk.2.1, hk.2.2]
        · refine Or.inr ⟨hp, s, hs, ?_⟩
          rw [hcell]; simp only at hk ⊢; rw [hk.1, hk.2.1, hk.2.2]
    · rfl

end DG.Dev
