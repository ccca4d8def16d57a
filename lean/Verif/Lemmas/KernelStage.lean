import Verif.Lemmas.KernelSim

/-! The stage updates of the time steppers as kernels. -/
namespace DG.Dev
open Kernel

variable {K : Type} [Zero K] [One K] [Add K] [Sub K] [Mul K] [Neg K] [Div K] [NatCast K] [DecidableEq K] [NeZero (1 : K)] {α : Type}

theorem invMass_sim (d : Disc K) (ne : ℕ) (dt : K) (iMM : ℕ → ℕ → ℕ → K) (dst : View) (hd : dst ≠ .res)
    (m : Cell → K) (res dU0 : ℕ → ℕ → ℕ → K) (hr : ViewIs m .res ne d.nb d.ns res) :
    ∃ m', (invMassKernel d ne dt iMM dst).Computes m m' ∧
      ViewIs m' dst ne d.nb d.ns (multInvMassAll d ne dt iMM res dU0) ∧ OnlyChanged (· = dst) m m' := by
  refine ⟨_, gemmKernel_computes true ne d.nb d.ns d.nb dt iMM .res dst (Ne.symm hd) m, ?_, ?_⟩
  · intro e he b hb s hs
    rw [put_in he hb hs (by omega), if_pos rfl]
    unfold multInvMassAll multInvMass cAxB_to_C gemm
    rw [if_pos he, if_pos ⟨hb, hs⟩, if_pos rfl]
    congr 1
    exact loopSum_congr fun p hp => by rw [hr e he p hp s hs]
  · intro c hc; exact put_other hc

theorem axpy_sim (d : Disc K) (ne : ℕ) (x : K) (a b dst : View) (m : Cell → K)
    (A B C : ℕ → ℕ → ℕ → K) (hA : ViewIs m a ne d.nb d.ns A) (hB : ViewIs m b ne d.nb d.ns B) :
    ∃ m', (axpyKernel ne d.nb d.ns x a b dst).Computes m m' ∧
      ViewIs m' dst ne d.nb d.ns (axpy3 d ne x A B C) ∧ OnlyChanged (· = dst) m m' := by
  refine ⟨_, axpyKernel_computes ne d.nb d.ns x a b dst m, ?_, ?_⟩
  · intro e he b hb s hs
    rw [put_in he hb hs (by omega), hA e he b hb s hs, hB e he b hb s hs]
    unfold axpy3
    rw [if_pos ⟨he, hb, hs⟩]
  · intro c hc; exact put_other hc

theorem copy_sim (d : Disc K) (ne : ℕ) (src dst : View) (m : Cell → K)
    (A : ℕ → ℕ → ℕ → K) (hA : ViewIs m src ne d.nb d.ns A) :
    ∃ m', (copyKernel ne d.nb d.ns src dst).Computes m m' ∧
      ViewIs m' dst ne d.nb d.ns A ∧ OnlyChanged (· = dst) m m' := by
  refine ⟨_, copyKernel_computes ne d.nb d.ns src dst m, ?_, ?_⟩
  · intro e he b hb s hs
    rw [put_in he hb hs (by omega), hA e he b hb s hs]
  · intro c hc; exact put_other hc

/-- the views of the time stepper -/
structure HoldsStages (d : Disc K) (ne : ℕ) (m : Cell → K) (s : RankState K) : Prop where
  Uc : ViewIs m .Uc ne d.nb d.ns s.Uc
  Uhold : ViewIs m .Uhold ne d.nb d.ns s.Uhold
  dU1 : ViewIs m .dU1 ne d.nb d.ns s.dU1
  dU2 : ViewIs m .dU2 ne d.nb d.ns s.dU2
  dU3 : ViewIs m .dU3 ne d.nb d.ns s.dU3
  dU4 : ViewIs m .dU4 ne d.nb d.ns s.dU4

/-- the views of the time stepper and the coefficients -/
def stageViews (v : View) : Prop :=
  v = .Uc ∨ v = .Uhold ∨ v = .dU ∨ v = .dU1 ∨ v = .dU2 ∨ v = .dU3 ∨ v = .dU4

omit [DecidableEq K] in
theorem OnlyChanged.trans {vs : View → Prop} {m m' m'' : Cell → K} {v : View} (h : OnlyChanged vs m m')
    (h' : OnlyChanged (· = v) m' m'') (hv : vs v) : OnlyChanged vs m m'' := fun c hc =>
  (h' c fun e => hc (by rw [e]; exact hv)).trans (h c hc)

omit [DecidableEq K] in
theorem OnlyChanged.one {vs : View → Prop} {m m' : Cell → K} {v : View}
    (h : OnlyChanged (· = v) m m') (hv : vs v) : OnlyChanged vs m m' := fun c hc =>
  h c fun e => hc (by rw [e]; exact hv)

omit [DecidableEq K] in
theorem HoldsStages.only {d : Disc K} {ne : ℕ} {m m' : Cell → K} {s : RankState K}
    (h : HoldsStages d ne m s) {vs : View → Prop} (ho : OnlyChanged vs m m')
    (hv : ∀ v, stageViews v → ¬ vs v) : HoldsStages d ne m' s :=
  ⟨ho.view (hv _ (by simp [stageViews])) h.Uc, ho.view (hv _ (by simp [stageViews])) h.Uhold,
    ho.view (hv _ (by simp [stageViews])) h.dU1, ho.view (hv _ (by simp [stageViews])) h.dU2,
    ho.view (hv _ (by simp [stageViews])) h.dU3, ho.view (hv _ (by simp [stageViews])) h.dU4⟩

theorem stage_sim (d : Disc K) (ne : ℕ) (dt : K) (iMM : ℕ → ℕ → ℕ → K) (st : Stepper) (m : Cell → K)
    (s : RankState K) (h : HoldsStages d ne m s) (hr : ViewIs m .res ne d.nb d.ns s.res) :
    ∃ m', stageUpdate Computes d ne dt iMM st s.stage m m' ∧
      HoldsStages d ne m' (afterResidual d ne dt iMM st s) ∧ OnlyChanged stageViews m m' := by
  cases st with
  | FE =>
    obtain ⟨m1, k1, v1, c1⟩ := invMass_sim d ne dt iMM .dU (by decide) m s.res (fun _ _ _ => 0) hr
    obtain ⟨m2, k2, v2, c2⟩ := axpy_sim d ne 1 .dU .Uc .Uc m1 _ s.Uc s.Uc v1 (c1.view (by decide) h.Uc)
    refine ⟨m2, ⟨m1, k1, k2⟩, ⟨v2, ?_, ?_, ?_, ?_, ?_⟩, ?_⟩
    · exact c2.view (by decide) (c1.view (by decide) h.Uhold)
    · exact c2.view (by decide) (c1.view (by decide) h.dU1)
    · exact c2.view (by decide) (c1.view (by decide) h.dU2)
    · exact c2.view (by decide) (c1.view (by decide) h.dU3)
    · exact c2.view (by decide) (c1.view (by decide) h.dU4)
    · exact (c1.one (by simp [stageViews])).trans c2 (by simp [stageViews])
  | RK4 =>
    have hcase : s.stage = 0 ∨ s.stage = 1 ∨ s.stage = 2 ∨ ∃ k, s.stage = k + 3 := by
      rcases hk : s.stage with _ | _ | _ | k
      · simp
      · simp
      · simp
      · exact Or.inr (Or.inr (Or.inr ⟨k, rfl⟩))
    unfold stageUpdate afterResidual
    rcases hcase with e | e | e | ⟨k, e⟩
    · rw [e]
      obtain ⟨m1, k1, v1, c1⟩ := invMass_sim d ne dt iMM .dU1 (by decide) m s.res s.dU1 hr
      obtain ⟨m2, k2, v2, c2⟩ := axpy_sim d ne (1 / 2) .dU1 .Uhold .Uc m1 _ s.Uhold s.Uc v1
        (c1.view (by decide) h.Uhold)
      refine ⟨m2, ⟨m1, k1, k2⟩, ⟨v2, ?_, c2.view (by decide) v1, ?_, ?_, ?_⟩, ?_⟩
      · exact c2.view (by decide) (c1.view (by decide) h.Uhold)
      · exact c2.view (by decide) (c1.view (by decide) h.dU2)
      · exact c2.view (by decide) (c1.view (by decide) h.dU3)
      · exact c2.view (by decide) (c1.view (by decide) h.dU4)
      · exact (c1.one (by simp [stageViews])).trans c2 (by simp [stageViews])
    · rw [e]
      obtain ⟨m1, k1, v1, c1⟩ := invMass_sim d ne dt iMM .dU2 (by decide) m s.res s.dU2 hr
      obtain ⟨m2, k2, v2, c2⟩ := axpy_sim d ne (1 / 2) .dU2 .Uhold .Uc m1 _ s.Uhold s.Uc v1
        (c1.view (by decide) h.Uhold)
      refine ⟨m2, ⟨m1, k1, k2⟩, ⟨v2, ?_, ?_, c2.view (by decide) v1, ?_, ?_⟩, ?_⟩
      · exact c2.view (by decide) (c1.view (by decide) h.Uhold)
      · exact c2.view (by decide) (c1.view (by decide) h.dU1)
      · exact c2.view (by decide) (c1.view (by decide) h.dU3)
      · exact c2.view (by decide) (c1.view (by decide) h.dU4)
      · exact (c1.one (by simp [stageViews])).trans c2 (by simp [stageViews])
    · rw [e]
      obtain ⟨m1, k1, v1, c1⟩ := invMass_sim d ne dt iMM .dU3 (by decide) m s.res s.dU3 hr
      obtain ⟨m2, k2, v2, c2⟩ := axpy_sim d ne 1 .dU3 .Uhold .Uc m1 _ s.Uhold s.Uc v1
        (c1.view (by decide) h.Uhold)
      refine ⟨m2, ⟨m1, k1, k2⟩, ⟨v2, ?_, ?_, ?_, c2.view (by decide) v1, ?_⟩, ?_⟩
      · exact c2.view (by decide) (c1.view (by decide) h.Uhold)
      · exact c2.view (by decide) (c1.view (by decide) h.dU1)
      · exact c2.view (by decide) (c1.view (by decide) h.dU2)
      · exact c2.view (by decide) (c1.view (by decide) h.dU4)
      · exact (c1.one (by simp [stageViews])).trans c2 (by simp [stageViews])
    · rw [e]
      obtain ⟨m1, k1, v1, c1⟩ := invMass_sim d ne dt iMM .dU4 (by decide) m s.res s.dU4 hr
      obtain ⟨m2, k2, v2, c2⟩ := axpy_sim d ne 2 .dU3 .dU4 .dU4 m1 s.dU3 _ _
        (c1.view (by decide) h.dU3) v1
      obtain ⟨m3, k3, v3, c3⟩ := axpy_sim d ne 2 .dU2 .dU4 .dU4 m2 s.dU2 _ _
        (c2.view (by decide) (c1.view (by decide) h.dU2)) v2
      obtain ⟨m4, k4, v4, c4⟩ := axpy_sim d ne 1 .dU1 .dU4 .dU4 m3 s.dU1 _ _
        (c3.view (by decide) (c2.view (by decide) (c1.view (by decide) h.dU1))) v3
      obtain ⟨m5, k5, v5, c5⟩ := axpy_sim d ne (1 / 6) .dU4 .Uhold .Uhold m4 _ s.Uhold s.Uhold v4
        (c4.view (by decide) (c3.view (by decide) (c2.view (by decide) (c1.view (by decide) h.Uhold))))
      obtain ⟨m6, k6, v6, c6⟩ := copy_sim d ne .Uhold .Uc m5 _ v5
      obtain ⟨m7, k7, v7, c7⟩ := copy_sim d ne .Uc .Uhold m6 _ v6
      refine ⟨m7, ⟨m1, k1, m2, k2, m3, k3, m4, k4, m5, k5, m6, k6, k7⟩, ⟨c7.view (by decide) v6, v7,
        ?_, ?_, ?_, ?_⟩, ?_⟩
      · exact c7.view (by decide) (c6.view (by decide) (c5.view (by decide) (c4.view (by decide)
          (c3.view (by decide) (c2.view (by decide) (c1.view (by decide) h.dU1))))))
      · exact c7.view (by decide) (c6.view (by decide) (c5.view (by decide) (c4.view (by decide)
          (c3.view (by decide) (c2.view (by decide) (c1.view (by decide) h.dU2))))))
      · exact c7.view (by decide) (c6.view (by decide) (c5.view (by decide) (c4.view (by decide)
          (c3.view (by decide) (c2.view (by decide) (c1.view (by decide) h.dU3))))))
      · exact c7.view (by decide) (c6.view (by decide) (c5.view (by decide) v4))
      · exact ((((((c1.one (by simp [stageViews])).trans c2 (by simp [stageViews])).trans c3
          (by simp [stageViews])).trans c4 (by simp [stageViews])).trans c5 (by simp [stageViews])).trans c6
          (by simp [stageViews])).trans c7 (by simp [stageViews])

/-! ### the copies of the exchange -/

omit [DecidableEq K] in
theorem packKernel_computes (d : Disc K) (rm : RankMesh α) (rank n cnt : ℕ) (gl : List ℕ) (m : Cell → K) :
    (packKernel d rm rank n cnt gl).Computes m (put (.sendBuf n) cnt d.nqf d.ns 1 (fun i j k _ =>
      if (ghostRow rm gl i).2.rankL = rank then m ⟨.UqL, (ghostRow rm gl i).1, j, k, 0⟩
      else m ⟨.UqR, (ghostRow rm gl i).1, j, k, 0⟩) m) := by
  refine rangeKernel_computes (rd := fun _ c => c.view = .UqL ∨ c.view = .UqR)
    (wr := fun (t : Fin cnt) c => ∃ j < d.nqf, ∃ k < d.ns, c = ⟨.sendBuf n, t, j, k, 0⟩) ?_ ?_ ?_ ?_
  · intro t
    unfold packBody
    split
    · exact Code.Within.forN fun j hj => Code.Within.forN fun k hk => within_copy (Or.inl (Or.inl rfl))
        ⟨j, hj, k, hk, rfl⟩
    · exact Code.Within.forN fun j hj => Code.Within.forN fun k hk => within_copy (Or.inl (Or.inr rfl))
        ⟨j, hj, k, hk, rfl⟩
  · rintro t t' c ⟨j, _, k, _, rfl⟩ (h | ⟨j', _, k', _, h⟩)
    · rcases h with h | h <;> cases h
    · simp only [Cell.mk.injEq] at h; exact Fin.ext h.2.1
  · intro t
    unfold packBody
    split
    · rename_i hp
      refine sets_copy2 (fun j hj k hk => ?_) (fun _ _ _ _ _ _ _ _ => by simp)
      rw [put_in t.2 hj hk (by omega), if_pos hp]
    · rename_i hp
      refine sets_copy2 (fun j hj k hk => ?_) (fun _ _ _ _ _ _ _ _ => by simp)
      rw [put_in t.2 hj hk (by omega), if_neg hp]
  · intro c hc
    refine put_out fun ⟨h, h0, h1, h2, h3⟩ => hc ⟨c.i, h0⟩ ⟨c.j, h1, c.k, h2, ?_⟩
    cases c; simp only at h h3 ⊢; subst h; congr 1; omega

/-- the view the unpacking loop writes for a face: the side that is not on the rank -/
def ghostSide (rank : ℕ) (row : FaceRow) : View := if row.rankL = rank then .UqR else .UqL

omit [DecidableEq K] in
theorem unpackKernel_computes (d : Disc K) (rm : RankMesh α) (rank n cnt : ℕ) (gl : List ℕ) (m m' : Cell → K)
    (hinj : ∀ i < cnt, ∀ i' < cnt, (ghostRow rm gl i).1 = (ghostRow rm gl i').1 → i = i')
    (hw : ∀ i < cnt, ∀ j < d.nqf, ∀ k < d.ns,
      m' ⟨ghostSide rank (ghostRow rm gl i).2, (ghostRow rm gl i).1, j, k, 0⟩ = m ⟨.ghostBuf n, i, j, k, 0⟩)
    (hn : ∀ c, (∀ i < cnt, ∀ j < d.nqf, ∀ k < d.ns,
      c ≠ ⟨ghostSide rank (ghostRow rm gl i).2, (ghostRow rm gl i).1, j, k, 0⟩) → m' c = m c) :
    (unpackKernel d rm rank n cnt gl).Computes m m' := by
  have hside : ∀ row, ghostSide rank row = .UqL ∨ ghostSide rank row = .UqR := by
    intro row; unfold ghostSide; split <;> simp
  refine rangeKernel_computes (rd := fun _ c => c.view = .ghostBuf n)
    (wr := fun (t : Fin cnt) c => ∃ j < d.nqf, ∃ k < d.ns,
      c = ⟨ghostSide rank (ghostRow rm gl t).2, (ghostRow rm gl t).1, j, k, 0⟩) ?_ ?_ ?_ ?_
  · intro t
    unfold unpackBody
    split
    · rename_i hp
      exact Code.Within.forN fun j hj => Code.Within.forN fun k hk => within_copy (Or.inl rfl)
        ⟨j, hj, k, hk, by rw [ghostSide, if_pos hp]⟩
    · rename_i hp
      exact Code.Within.forN fun j hj => Code.Within.forN fun k hk => within_copy (Or.inl rfl)
        ⟨j, hj, k, hk, by rw [ghostSide, if_neg hp]⟩
  · rintro t t' c ⟨j, _, k, _, rfl⟩ (h | ⟨j', _, k', _, h⟩)
    · simp only at h
      rcases hside (ghostRow rm gl t).2 with e | e <;> rw [e] at h <;> cases h
    · simp only [Cell.mk.injEq] at h; exact Fin.ext (hinj t t.2 t' t'.2 h.2.1)
  · intro t
    unfold unpackBody
    split
    · rename_i hp
      have hw' := hw t t.2
      simp only [ghostSide, if_pos hp] at hw' ⊢
      exact sets_copy2 (fun j hj k hk => hw' j hj k hk) (fun _ _ _ _ _ _ _ _ => by simp)
    · rename_i hp
      have hw' := hw t t.2
      simp only [ghostSide, if_neg hp] at hw' ⊢
      exact sets_copy2 (fun j hj k hk => hw' j hj k hk) (fun _ _ _ _ _ _ _ _ => by simp)
  · intro c hc
    exact hn c fun i hi j hj k hk h => hc ⟨i, hi⟩ ⟨j, hj, k, hk, h⟩

end DG.Dev
