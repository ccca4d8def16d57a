import Verif.Lemmas.KernelStage
import Verif.Lemmas.Exchange

/-! The packing and unpacking loops of the exchange as kernels. -/
namespace DG.Dev
open Kernel

variable {K : Type} [Zero K] [One K] [Add K] [Sub K] [Mul K] [Neg K] [Div K] [NatCast K] [NeZero (1 : K)] {α : Type}

omit [Zero K] [One K] [Add K] [Sub K] [Mul K] [Neg K] [Div K] [NatCast K] [NeZero (1 : K)] in
theorem packOne_some {rm : RankMesh α} {rank : ℕ} {U : FaceArr (ℕ → ℕ → K)} {gl : List ℕ} {i : ℕ}
    {B : ℕ → ℕ → K} (h : packOne rm rank U gl i = some B) :
    if (ghostRow rm gl i).2.rankL = rank then U.L[(ghostRow rm gl i).1]? = some B
    else U.R[(ghostRow rm gl i).1]? = some B := by
  unfold packOne at h
  obtain ⟨g, hg, h⟩ := Option.bind_eq_some_iff.mp h
  obtain ⟨row, hrow, h⟩ := Option.bind_eq_some_iff.mp h
  simp only [ghostRow, hg, Option.getD_some, hrow]
  split at h
  · rename_i hp; rw [if_pos hp]; exact h
  · rename_i hp; rw [if_neg hp]; exact h

/-- the views of the send buffers -/
def sendViews (v : View) : Prop := ∃ n, v = .sendBuf n

theorem pack_sim (d : Disc K) (rm : RankMesh α) (rank : ℕ) (U : FaceArr (ℕ → ℕ → K)) (m : Cell → K)
    (hL : BlocksAre m .UqL d.nqf d.ns U.L) (hR : BlocksAre m .UqR d.nqf d.ns U.R) (N : ℕ) :
    ∃ m', packAll Computes d rm rank N m m' ∧
      (∀ n < N, ∀ msg, pack rm rank U n = some msg → BlocksAre m' (.sendBuf n) d.nqf d.ns msg) ∧
      OnlyChanged sendViews m m' := by
  induction N with
  | zero => exact ⟨m, rfl, by omega, fun _ _ => rfl⟩
  | succ N ih =>
    obtain ⟨m1, h1, b1, c1⟩ := ih
    refine ⟨_, ⟨m1, h1, packKernel_computes d rm rank N _ _ m1⟩, ?_, ?_⟩
    · intro n hn msg hmsg i B hB j hj k hk
      by_cases hnN : n = N
      · subst hnN
        unfold pack at hmsg
        obtain ⟨c, hc, hmsg⟩ := Option.bind_eq_some_iff.mp hmsg
        obtain ⟨gl, hgl, hmsg⟩ := Option.bind_eq_some_iff.mp hmsg
        have := mapM_getElem? hmsg i
        rw [hB] at this
        obtain ⟨i', hi', hp⟩ := Option.bind_eq_some_iff.mp this.symm
        obtain ⟨hlt, hi''⟩ := List.getElem?_eq_some_iff.1 hi'
        simp only [List.getElem_range] at hi''
        subst hi''
        simp only [List.length_range] at hlt
        have hp' := packOne_some hp
        simp only [hc, hgl, Option.getD_some]
        rw [put_in hlt hj hk (by omega)]
        split at hp'
        · rename_i hq; rw [if_pos hq]
          exact (c1 _ (by simp [sendViews])).trans (hL _ B hp' j hj k hk)
        · rename_i hq; rw [if_neg hq]
          exact (c1 _ (by simp [sendViews])).trans (hR _ B hp' j hj k hk)
      · rw [put_other (by simpa using hnN)]
        exact b1 n (by omega) msg hmsg i B hB j hj k hk
    · intro c hc
      rw [put_other (fun h => hc ⟨N, h⟩)]
      exact c1 c hc

omit [Zero K] [One K] [Add K] [Sub K] [Mul K] [Neg K] [Div K] [NatCast K] [NeZero (1 : K)] in
theorem unpackOne_some {rm : RankMesh α} {rank : ℕ} {U U2 : FaceArr (ℕ → ℕ → K)} {gl : List ℕ}
    {buf : List (ℕ → ℕ → K)} {i : ℕ} (h : unpackOne rm rank gl buf U i = some U2) :
    ∃ B, buf[i]? = some B ∧
      if (ghostRow rm gl i).2.rankL = rank then U2.L = U.L ∧ U2.R = U.R.set (ghostRow rm gl i).1 B
      else U2.R = U.R ∧ U2.L = U.L.set (ghostRow rm gl i).1 B := by
  unfold unpackOne at h
  obtain ⟨g, hg, h⟩ := Option.bind_eq_some_iff.mp h
  obtain ⟨row, hrow, h⟩ := Option.bind_eq_some_iff.mp h
  obtain ⟨B, hB, h⟩ := Option.bind_eq_some_iff.mp h
  refine ⟨B, hB, ?_⟩
  simp only [ghostRow, hg, Option.getD_some, hrow]
  split at h
  · rename_i hp; rw [if_pos hp]
    obtain ⟨R, hs, h⟩ := Option.bind_eq_some_iff.mp h
    cases h
    unfold setB at hs
    split at hs
    · cases hs; exact ⟨rfl, rfl⟩
    · cases hs
  · rename_i hp; rw [if_neg hp]
    obtain ⟨R, hs, h⟩ := Option.bind_eq_some_iff.mp h
    cases h
    unfold setB at hs
    split at hs
    · cases hs; exact ⟨rfl, rfl⟩
    · cases hs

omit [Zero K] [One K] [Add K] [Sub K] [Mul K] [Neg K] [Div K] [NatCast K] [NeZero (1 : K)] in
theorem blocks_set {m m' : Cell → K} {v : View} {n1 n2 : ℕ} {L : List (ℕ → ℕ → K)} {i : ℕ}
    {B : ℕ → ℕ → K} (h : BlocksAre m v n1 n2 L)
    (hi : ∀ j < n1, ∀ k < n2, m' ⟨v, i, j, k, 0⟩ = B j k)
    (ho : ∀ i' ≠ i, ∀ j k, m' ⟨v, i', j, k, 0⟩ = m ⟨v, i', j, k, 0⟩) :
    BlocksAre m' v n1 n2 (L.set i B) := by
  intro i' B' hB j hj k hk
  by_cases e : i' = i
  · subst e
    rw [List.getElem?_set] at hB
    simp only [if_true] at hB
    split at hB
    · cases hB; exact hi j hj k hk
    · cases hB
  · rw [List.getElem?_set_ne (Ne.symm e)] at hB
    rw [ho i' e j k]
    exact h i' B' hB j hj k hk

theorem unpack_loop (d : Disc K) (rm : RankMesh α) (rank n : ℕ) (gl : List ℕ) (buf : List (ℕ → ℕ → K))
    (m : Cell → K) (hbuf : BlocksAre m (.ghostBuf n) d.nqf d.ns buf) (U : FaceArr (ℕ → ℕ → K))
    (hL : BlocksAre m .UqL d.nqf d.ns U.L) (hR : BlocksAre m .UqR d.nqf d.ns U.R) (cnt : ℕ)
    (hinj : ∀ i < cnt, ∀ i' < cnt, (ghostRow rm gl i).1 = (ghostRow rm gl i').1 → i = i')
    (U2 : FaceArr (ℕ → ℕ → K)) (h : (List.range cnt).foldlM (unpackOne rm rank gl buf) U = some U2) :
    ∃ m', (∀ i < cnt, ∀ j < d.nqf, ∀ k < d.ns,
        m' ⟨ghostSide rank (ghostRow rm gl i).2, (ghostRow rm gl i).1, j, k, 0⟩ = m ⟨.ghostBuf n, i, j, k, 0⟩) ∧
      (∀ c, (∀ i < cnt, ∀ j < d.nqf, ∀ k < d.ns,
        c ≠ ⟨ghostSide rank (ghostRow rm gl i).2, (ghostRow rm gl i).1, j, k, 0⟩) → m' c = m c) ∧
      BlocksAre m' .UqL d.nqf d.ns U2.L ∧ BlocksAre m' .UqR d.nqf d.ns U2.R := by
  classical
  induction cnt generalizing U2 with
  | zero => cases h; exact ⟨m, by omega, fun _ _ => rfl, hL, hR⟩
  | succ c ih =>
    rw [List.range_succ, List.foldlM_append] at h
    obtain ⟨U1, h1, h⟩ := Option.bind_eq_some_iff.mp h
    simp only [List.foldlM_cons, List.foldlM_nil, Option.pure_def, Option.bind_eq_bind,
      Option.bind_some] at h
    obtain ⟨U2', h2, h⟩ := Option.bind_eq_some_iff.mp h
    cases h
    obtain ⟨m1, w1, n1, l1, r1⟩ := ih (fun i hi i' hi' => hinj i (by omega) i' (by omega)) U1 h1
    obtain ⟨B, hB, hU⟩ := unpackOne_some h2
    set s := ghostSide rank (ghostRow rm gl c).2 with hs
    set lf := (ghostRow rm gl c).1 with hlf
    let m2 : Cell → K := fun x =>
      if x.view = s ∧ x.i = lf ∧ x.j < d.nqf ∧ x.k < d.ns ∧ x.l = 0 then m ⟨.ghostBuf n, c, x.j, x.k, 0⟩
      else m1 x
    have hin : ∀ j < d.nqf, ∀ k < d.ns, m2 ⟨s, lf, j, k, 0⟩ = m ⟨.ghostBuf n, c, j, k, 0⟩ :=
      fun j hj k hk => if_pos ⟨rfl, rfl, hj, hk, rfl⟩
    refine ⟨m2, ?_, ?_, ?_⟩
    · intro i hi j hj k hk
      by_cases e : i = c
      · subst e; exact hin j hj k hk
      · have : (ghostRow rm gl i).1 ≠ lf := fun h' => e (hinj i (by omega) c (by omega) h')
        exact (if_neg fun h' => this h'.2.1).trans (w1 i (by omega) j hj k hk)
    · intro x hx
      have : ¬ (x.view = s ∧ x.i = lf ∧ x.j < d.nqf ∧ x.k < d.ns ∧ x.l = 0) := by
        rintro ⟨e1, e2, hj, hk, e3⟩
        refine hx c (by omega) x.j hj x.k hk ?_
        cases x; simp only at e1 e2 e3 ⊢; rw [e1, e2, e3]
      exact (if_neg this).trans (n1 x fun i hi => hx i (by omega))
    · have hval : ∀ j < d.nqf, ∀ k < d.ns, m2 ⟨s, lf, j, k, 0⟩ = B j k := fun j hj k hk =>
        (hin j hj k hk).trans (hbuf c B hB j hj k hk)
      have hrow : ∀ v, ∀ i' ≠ lf, ∀ j k, m2 ⟨v, i', j, k, 0⟩ = m1 ⟨v, i', j, k, 0⟩ := fun v i' hi j k =>
        if_neg fun h' => hi h'.2.1
      have hside : ∀ v ≠ s, ∀ i j k, m2 ⟨v, i, j, k, 0⟩ = m1 ⟨v, i, j, k, 0⟩ := fun v hv i j k =>
        if_neg fun h' => hv h'.1
      by_cases hp : (ghostRow rm gl c).2.rankL = rank
      · rw [if_pos hp] at hU
        have e : s = .UqR := by rw [hs, ghostSide, if_pos hp]
        rw [hU.1, hU.2]
        refine ⟨fun i' B' hB' j hj k hk => ?_, ?_⟩
        · rw [hside _ (by rw [e]; decide)]; exact l1 i' B' hB' j hj k hk
        · exact blocks_set r1 (by rw [e] at hval; exact hval) (hrow _)
      · rw [if_neg hp] at hU
        have e : s = .UqL := by rw [hs, ghostSide, if_neg hp]
        rw [hU.1, hU.2]
        refine ⟨?_, fun i' B' hB' j hj k hk => ?_⟩
        · exact blocks_set l1 (by rw [e] at hval; exact hval) (hrow _)
        · rw [hside _ (by rw [e]; decide)]; exact r1 i' B' hB' j hj k hk

/-- the face states -/
def faceViews (v : View) : Prop := v = .UqL ∨ v = .UqR

theorem unpack_sim (d : Disc K) (rm : RankMesh α) (ht : TablesOK rm) (rank : ℕ)
    (U U' : FaceArr (ℕ → ℕ → K)) (bufs : List (List (ℕ → ℕ → K))) (m : Cell → K)
    (hL : BlocksAre m .UqL d.nqf d.ns U.L) (hR : BlocksAre m .UqR d.nqf d.ns U.R)
    (hb : ∀ (n : ℕ) buf, bufs[n]? = some buf → BlocksAre m (.ghostBuf n) d.nqf d.ns buf)
    (h : unpack rm rank U bufs = some U') :
    ∃ m', unpackAll Computes d rm rank rm.nbrs.length m m' ∧
      BlocksAre m' .UqL d.nqf d.ns U'.L ∧ BlocksAre m' .UqR d.nqf d.ns U'.R ∧
      OnlyChanged faceViews m m' := by
  unfold unpack at h
  generalize rm.nbrs.length = N at h ⊢
  induction N generalizing U' with
  | zero => cases h; exact ⟨m, rfl, hL, hR, fun _ _ => rfl⟩
  | succ N ih =>
    rw [List.range_succ, List.foldlM_append] at h
    obtain ⟨U1, h1, h⟩ := Option.bind_eq_some_iff.mp h
    simp only [List.foldlM_cons, List.foldlM_nil, Option.pure_def] at h
    obtain ⟨U2, h2, h⟩ := Option.bind_eq_some_iff.mp h
    cases h
    obtain ⟨m1, k1, l1, r1, c1⟩ := ih U1 h1
    obtain ⟨c, hc, h2⟩ := Option.bind_eq_some_iff.mp h2
    obtain ⟨gl, hgl, h2⟩ := Option.bind_eq_some_iff.mp h2
    obtain ⟨buf, hbuf, h2⟩ := Option.bind_eq_some_iff.mp h2
    have hcl : c = gl.length := by
      have := ht.cnt N gl hgl; rw [hc] at this; exact Option.some.inj this
    have hinj : ∀ i < c, ∀ i' < c, (ghostRow rm gl i).1 = (ghostRow rm gl i').1 → i = i' := by
      intro i hi i' hi' e
      rw [hcl] at hi hi'
      simp only [ghostRow, List.getElem?_eq_getElem hi, List.getElem?_eq_getElem hi', Option.getD_some] at e
      have hm : ∀ (a : ℕ) (ha : a < gl.length), gl[a] ∈ rm.l2gFace := fun a ha =>
        ht.mem _ (List.mem_flatten.2 ⟨gl, List.mem_of_getElem? hgl, List.getElem_mem ha⟩)
      have g1 := ht.tab.globalRoundTrip _ (hm i hi)
      have g2 := ht.tab.globalRoundTrip _ (hm i' hi')
      rw [e, g2] at g1
      have hnd : gl.Nodup := (List.nodup_flatten.1 ht.nodup).1 gl (List.mem_of_getElem? hgl)
      exact (hnd.getElem_inj_iff.1 (Option.some.inj g1)).symm
    obtain ⟨m2, w2, n2, l2, r2⟩ := unpack_loop d rm rank N gl buf m1
      (c1.blocks (by simp [faceViews]) (hb N buf hbuf)) U1 l1 r1 c hinj U' h2
    refine ⟨m2, ⟨m1, k1, ?_⟩, l2, r2, ?_⟩
    · have e1 : c = (rm.nFacesPerNbr[N]?).getD 0 := by rw [hc]; rfl
      have e2 : gl = (rm.ghosts[N]?).getD [] := by rw [hgl]; rfl
      have := unpackKernel_computes d rm rank N c gl m1 m2 hinj w2 n2
      subst e1 e2
      exact this
    · intro x hx
      rw [n2 x fun i hi j hj k hk e => hx ?_]
      · exact c1 x hx
      · rw [e]
        show faceViews (ghostSide rank _)
        unfold ghostSide; split <;> simp [faceViews]

end DG.Dev
