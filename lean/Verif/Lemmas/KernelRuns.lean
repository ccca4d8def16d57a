import Verif.Lemmas.Kernels

/-! What every kernel of `Model/Kernels.lean` computes. -/
namespace DG.Dev
open Kernel

variable {K : Type} [Zero K] [One K] [Add K] [Sub K] [Mul K] [Neg K] [Div K] [NatCast K]

/-- the memory with the entries of a view below the given extents replaced -/
def put (v : View) (n0 n1 n2 n3 : ℕ) (f : ℕ → ℕ → ℕ → ℕ → K) (m : Cell → K) : Cell → K := fun c =>
  if c.view = v ∧ c.i < n0 ∧ c.j < n1 ∧ c.k < n2 ∧ c.l < n3 then f c.i c.j c.k c.l else m c

theorem put_in {v : View} {n0 n1 n2 n3 : ℕ} {f : ℕ → ℕ → ℕ → ℕ → K} {m : Cell → K} {i j k l : ℕ}
    (h0 : i < n0) (h1 : j < n1) (h2 : k < n2) (h3 : l < n3) :
    put v n0 n1 n2 n3 f m ⟨v, i, j, k, l⟩ = f i j k l := if_pos ⟨rfl, h0, h1, h2, h3⟩

theorem put_other {v : View} {n0 n1 n2 n3 : ℕ} {f : ℕ → ℕ → ℕ → ℕ → K} {m : Cell → K} {c : Cell}
    (h : c.view ≠ v) : put v n0 n1 n2 n3 f m c = m c := if_neg fun hc => h hc.1

theorem put_out {v : View} {n0 n1 n2 n3 : ℕ} {f : ℕ → ℕ → ℕ → ℕ → K} {m : Cell → K} {c : Cell}
    (h : ¬ (c.view = v ∧ c.i < n0 ∧ c.j < n1 ∧ c.k < n2 ∧ c.l < n3)) :
    put v n0 n1 n2 n3 f m c = m c := if_neg h

/-! ### kernels with one iteration per entry -/

theorem fillKernel_computes (v : View) (n0 n1 n2 : ℕ) (x : K) (m : Cell → K) :
    (fillKernel v n0 n1 n2 x).Computes m (put v n0 n1 n2 1 (fun _ _ _ _ => x) m) := by
  refine rangeKernel_computes (rd := fun _ _ => False)
    (wr := fun t c => c = ⟨v, t.1, t.2.1, t.2.2, 0⟩) ?_ ?_ ?_ ?_
  · intro t; exact Code.Within.write rfl
  · rintro ⟨a, b, c⟩ ⟨a', b', c'⟩ x rfl h
    simpa [Fin.ext_iff] using h
  · intro t
    exact Sets.write (put_in t.1.2 t.2.1.2 t.2.2.2 (by omega))
  · intro c hc
    refine put_out fun ⟨h, h0, h1, h2, h3⟩ => hc ⟨⟨c.i, h0⟩, ⟨c.j, h1⟩, ⟨c.k, h2⟩⟩ ?_
    cases c
    simp only at h h3 ⊢
    subst h
    congr 1
    omega

theorem axpyKernel_computes (n0 n1 n2 : ℕ) (x : K) (a b dst : View) (m : Cell → K) :
    (axpyKernel n0 n1 n2 x a b dst).Computes m
      (put dst n0 n1 n2 1 (fun i j k _ => x * m ⟨a, i, j, k, 0⟩ + m ⟨b, i, j, k, 0⟩) m) := by
  refine rangeKernel_computes
    (rd := fun t c => c = ⟨a, t.1, t.2.1, t.2.2, 0⟩ ∨ c = ⟨b, t.1, t.2.1, t.2.2, 0⟩)
    (wr := fun t c => c = ⟨dst, t.1, t.2.1, t.2.2, 0⟩) ?_ ?_ ?_ ?_
  · intro t
    exact Code.Within.bind (Code.Within.read (Or.inl (Or.inl rfl))) fun _ =>
      Code.Within.bind (Code.Within.read (Or.inl (Or.inr rfl))) fun _ => Code.Within.write rfl
  · rintro ⟨p, q, r⟩ ⟨p', q', r'⟩ x rfl h
    rcases h with (h | h) | h <;> simp [Fin.ext_iff] at h ⊢ <;> omega
  · intro t c
    constructor
    · rintro rfl
      rw [put_in t.1.2 t.2.1.2 t.2.2.2 (by omega)]
      show (Function.update m _ _) _ = _
      simp
    · intro hc
      show (Function.update m _ _) c = _
      exact Function.update_of_ne hc _ _
  · intro c hc
    refine put_out fun ⟨h, h0, h1, h2, h3⟩ => hc ⟨⟨c.i, h0⟩, ⟨c.j, h1⟩, ⟨c.k, h2⟩⟩ ?_
    cases c
    simp only at h h3 ⊢
    subst h
    congr 1
    omega

theorem copyKernel_computes (n0 n1 n2 : ℕ) (src dst : View) (m : Cell → K) :
    (copyKernel n0 n1 n2 src dst).Computes m
      (put dst n0 n1 n2 1 (fun i j k _ => m ⟨src, i, j, k, 0⟩) m) := by
  refine rangeKernel_computes
    (rd := fun t c => c = ⟨src, t.1, t.2.1, t.2.2, 0⟩)
    (wr := fun t c => c = ⟨dst, t.1, t.2.1, t.2.2, 0⟩) ?_ ?_ ?_ ?_
  · intro t
    exact within_copy (Or.inl rfl) rfl
  · rintro ⟨p, q, r⟩ ⟨p', q', r'⟩ x rfl h
    rcases h with h | h <;> simp [Fin.ext_iff] at h ⊢ <;> omega
  · intro t
    exact Sets.copy (put_in t.1.2 t.2.1.2 t.2.2.2 (by omega))
  · intro c hc
    refine put_out fun ⟨h, h0, h1, h2, h3⟩ => hc ⟨⟨c.i, h0⟩, ⟨c.j, h1⟩, ⟨c.k, h2⟩⟩ ?_
    cases c
    simp only at h h3 ⊢
    subst h
    congr 1
    omega

/-! ### the matrix products -/

theorem run_gemmEntry (L : ℕ) (x : K) (a : ℕ → K) (b : ℕ → Cell) (c : Cell) (m : Cell → K) :
    ((gemmEntry L x a b c).run m).2 =
      Function.update m c (m c + loopSum L fun p => (x * a p) * m (b p)) := by
  have hf : ∀ n, (Code.foldN (0 : K) n fun acc p => do
      let v ← Code.read (b p)
      pure (acc + (x * a p) * v)).run m = (loopSum n (fun p => (x * a p) * m (b p)), m) := by
    intro n
    induction n with
    | zero => rfl
    | succ n ih =>
      refine (Code.run_bind _ _ _).trans ?_
      rw [ih]
      show (loopSum n (fun p => (x * a p) * m (b p)) + (x * a n) * m (b n), m) = _
      simp [loopSum, List.range_succ]
  refine (congrArg Prod.snd (Code.run_bind _ _ _)).trans ?_
  rw [hf]
  rfl

theorem within_gemmEntry {L : ℕ} {x : K} {a : ℕ → K} {b : ℕ → Cell} {c : Cell} {rd wr : Cell → Prop}
    (hb : ∀ p < L, rd (b p)) (hc : wr c) : (gemmEntry L x a b c).Within rd wr :=
  Code.Within.bind (Code.Within.foldN fun _ i hi => Code.Within.bind (Code.Within.read (Or.inl (hb i hi)))
    fun _ => trivial) fun _ => Code.Within.bind (Code.Within.read (Or.inr hc)) fun _ => Code.Within.write hc

theorem gemmKernel_computes (ow : Bool) (ne M N L : ℕ) (x : K) (A : ℕ → ℕ → ℕ → K) (B C : View)
    (hBC : B ≠ C) (m : Cell → K) :
    (gemmKernel ow ne M N L x A B C).Computes m
      (put C ne M N 1 (fun e i j _ => (if ow then 0 else m ⟨C, e, i, j, 0⟩) +
        loopSum L fun p => (x * A e i p) * m ⟨B, e, p, j, 0⟩) m) := by
  set k := gemmKernel ow ne M N L x A B C with hk
  let rd : Fin ne → ℕ → Fin M × Fin N → Cell → Prop := fun e _ ij c => ∃ p, c = ⟨B, e, p, ij.2, 0⟩
  let wr : Fin ne → ℕ → Fin M × Fin N → Cell → Prop := fun e _ ij c => c = ⟨C, e, ij.1, ij.2, 0⟩
  have hsafe : k.Safe rd wr := by
    refine ⟨?_, ?_, ?_⟩
    · intro e p ij _
      show (if ow ∧ p = 0 then _ else _ : Code Cell K Unit).Within _ _
      split
      · exact Code.Within.write rfl
      · exact within_gemmEntry (fun p _ => ⟨p, rfl⟩) rfl
    · rintro e p ⟨i, j⟩ ⟨i', j'⟩ c _ rfl h
      rcases h with ⟨q, h⟩ | h
      · simp only [Cell.mk.injEq] at h; exact absurd h.1.symm hBC
      · simpa [wr, Fin.ext_iff] using h
    · rintro e e' p p' ⟨i, j⟩ ⟨i', j'⟩ c _ _ rfl h
      rcases h with ⟨q, h⟩ | h
      · simp only [Cell.mk.injEq] at h; exact absurd h.1.symm hBC
      · simp only [wr, Cell.mk.injEq] at h; exact Fin.ext h.2.1
  have hB : ∀ (e : Fin ne) (n : ℕ) (c : Cell), c.view = B → k.mids wr m e n c = m c := by
    intro e n
    induction n with
    | zero => intro c _; rfl
    | succ n ih =>
      intro c hc
      rw [mids_other, ih c hc]
      rintro j rfl
      exact hBC hc.symm
  refine hsafe.computes ?_ ?_ ?_
  · rintro e p ⟨i, j⟩ c _ rfl
    rw [put_in e.2 i.2 j.2 (by omega)]
    cases ow
    · have hn : k.nph = 1 := rfl
      rw [hn, mids_written (j := (i, j)) hsafe (by rw [hn]; omega) rfl]
      have : k.code e 0 (i, j) = gemmEntry L x (fun p => A e i p) (fun p => ⟨B, e, p, j, 0⟩) ⟨C, e, i, j, 0⟩ := by
        simp [hk, gemmKernel]
      rw [this, run_gemmEntry]
      simp [mids]
    · have hn : k.nph = 2 := rfl
      rw [hn, mids_written (j := (i, j)) hsafe (by rw [hn]; omega) rfl]
      have h1 : k.code e 1 (i, j) = gemmEntry L x (fun p => A e i p) (fun p => ⟨B, e, p, j, 0⟩) ⟨C, e, i, j, 0⟩ := by
        simp [hk, gemmKernel]
      have h0 : k.code e 0 (i, j) = Code.write ⟨C, e, i, j, 0⟩ 0 := by simp [hk, gemmKernel]
      rw [h1, run_gemmEntry]
      have h2 : k.mids wr m e 1 ⟨C, e, i, j, 0⟩ = 0 := by
        rw [mids_written (j := (i, j)) hsafe (by rw [hn]; omega) rfl, h0]
        simp [Code.write, Code.run]
      simp only [Function.update_self, h2, if_true]
      congr 2
      funext q
      rw [hB e 1 _ rfl]
  · intro c hc
    refine put_out fun ⟨h, h0, h1, h2, h3⟩ => hc ⟨c.i, h0⟩ 0 (⟨c.j, h1⟩, ⟨c.k, h2⟩) ?_ ?_
    · cases ow
      · exact Nat.one_pos
      · exact Nat.two_pos
    · cases c
      simp only at h h3 ⊢
      subst h
      show _ = Cell.mk _ _ _ _ _
      congr 1
      omega
  · rcases isEmpty_or_nonempty (Fin ne) with he | he
    · refine Or.inr (funext fun c => put_out fun h => he.false ⟨c.i, h.2.1⟩)
    · exact Or.inl he

/-! ### loops of assignments -/

theorem sets_loop1 {m m' : Cell → K} {n : ℕ} {cell : ℕ → Cell} {v : ℕ → K}
    (h : ∀ i < n, m' (cell i) = v i) :
    Sets (Code.forN n fun i => Code.write (cell i) (v i)) m (fun c => ∃ i < n, c = cell i) m' :=
  Sets.forN fun i hi _ _ => Sets.write (h i hi)

theorem sets_copy1 {m m' : Cell → K} {n : ℕ} {src dst : ℕ → Cell}
    (h : ∀ i < n, m' (dst i) = m (src i)) (hd : ∀ i < n, ∀ j < n, src i ≠ dst j) :
    Sets (Code.forN n fun i => copyCell (src i) (dst i)) m (fun c => ∃ i < n, c = dst i) m' :=
  Sets.forN fun i hi _ hm => Sets.copy ((h i hi).trans (hm _ fun ⟨j, hj, hc⟩ => hd i hi j (by omega) hc).symm)

theorem sets_copy2 {m m' : Cell → K} {n n' : ℕ} {src dst : ℕ → ℕ → Cell}
    (h : ∀ i < n, ∀ j < n', m' (dst i j) = m (src i j))
    (hd : ∀ i < n, ∀ j < n', ∀ i' < n, ∀ j' < n', src i j ≠ dst i' j') :
    Sets (Code.forN n fun i => Code.forN n' fun j => copyCell (src i j) (dst i j)) m
      (fun c => ∃ i < n, ∃ j < n', c = dst i j) m' :=
  Sets.forN fun i hi _ hm => sets_copy1
    (fun j hj => (h i hi j hj).trans
      (hm _ fun ⟨i', hi', j', hj', hc⟩ => hd i hi j hj i' (by omega) j' hj' hc).symm)
    fun j hj j' hj' => hd i hi j hj i hi j' hj'

/-! ### the kernels of the residual -/

theorem volumeFluxKernel_computes (d : Disc K) (g : Geom K) (ne : ℕ) (m : Cell → K) :
    (volumeFluxKernel d g ne).Computes m
      (put .uqVol ne d.nq d.ns 1 (fun _ _ _ _ => 0) (put .vgUq ne d.nq d.ns d.dim
        (fun e q s i => volumeFlux d g (fun q s => m ⟨.uqVol, e, q, s, 0⟩) e q s i) m)) := by
  set m' := put .uqVol ne d.nq d.ns 1 (fun _ _ _ _ => 0) (put .vgUq ne d.nq d.ns d.dim
        (fun e q s i => volumeFlux d g (fun q s => m ⟨.uqVol, e, q, s, 0⟩) e q s i) m) with hm'
  refine rangeKernel_computes (rd := fun _ _ => False)
    (wr := fun t c => (∃ s < d.ns, c = ⟨.uqVol, t.1, t.2, s, 0⟩) ∨
      ∃ i < d.dim, ∃ s < d.ns, c = ⟨.vgUq, t.1, t.2, s, i⟩) ?_ ?_ ?_ ?_
  · intro t
    refine Code.Within.bind (within_loadArr fun s hs => Or.inr (Or.inl ⟨s, hs, rfl⟩)) fun _ => ?_
    refine Code.Within.bind (Code.Within.forN fun s hs => Code.Within.write (Or.inl ⟨s, hs, rfl⟩)) fun _ => ?_
    exact Code.Within.forN fun i hi => Code.Within.forN fun s hs => Code.Within.write
      (Or.inr ⟨i, hi, s, hs, rfl⟩)
  · rintro ⟨e, q⟩ ⟨e', q'⟩ c hw (h | h)
    · exact h.elim
    · rcases hw with ⟨s, hs, rfl⟩ | ⟨i, hi, s, hs, rfl⟩ <;> rcases h with ⟨s', hs', h⟩ | ⟨i', hi', s', hs', h⟩ <;>
        simp_all [Fin.ext_iff]
  · rintro ⟨e, q⟩
    have h : Sets (volumeFluxBody d g e q) m (fun c => False ∨ (∃ s < d.ns, c = ⟨.uqVol, e, q, s, 0⟩) ∨
      ∃ i < d.dim, ∃ s < d.ns, c = ⟨.vgUq, e, q, s, i⟩) m' := by
      unfold volumeFluxBody
      refine Sets.bind (x := loadArr d.ns fun is => ⟨.uqVol, e, q, is, 0⟩) ?_ ?_
      · intro c; rw [run_loadArr]; exact ⟨fun h => h.elim, fun _ => rfl⟩
      · rw [run_loadArr]
        refine Sets.bind (x := Code.forN d.ns fun is => Code.write (⟨.uqVol, e, q, is, 0⟩ : Cell) 0) ?_ ?_
        · exact sets_loop1 fun s hs => put_in e.2 q.2 hs (by omega)
        · refine Sets.forN fun i hi _ _ => sets_loop1 fun s hs => ?_
          rw [hm', put_other (by simp), put_in e.2 q.2 hs hi]
          rfl
    exact h.mono fun c => by simp
  · intro c hc
    simp only [not_or, not_exists, not_and] at hc
    rw [hm', put_out, put_out]
    · rintro ⟨h, h0, h1, h2, h3⟩
      refine (hc (⟨c.i, h0⟩, ⟨c.j, h1⟩)).2 c.l h3 c.k h2 ?_
      cases c; simp only at h ⊢; subst h; rfl
    · rintro ⟨h, h0, h1, h2, h3⟩
      refine (hc (⟨c.i, h0⟩, ⟨c.j, h1⟩)).1 c.k h2 ?_
      cases c; simp only at h h3 ⊢; subst h; congr 1; omega

theorem volumeIntegralKernel_computes (d : Disc K) (ne : ℕ) (m : Cell → K) :
    (volumeIntegralKernel d ne).Computes m (put .res ne d.nb d.ns 1 (fun e b s _ =>
      volumeIntegral d (fun q s i => m ⟨.vgUq, e, q, s, i⟩) b s (m ⟨.res, e, b, s, 0⟩)) m) := by
  set m' := put .res ne d.nb d.ns 1 (fun e b s _ =>
      volumeIntegral d (fun q s i => m ⟨.vgUq, e, q, s, i⟩) b s (m ⟨.res, e, b, s, 0⟩)) m with hm'
  refine rangeKernel_computes (rd := fun _ c => c.view = .vgUq)
    (wr := fun (t : Fin ne) c => ∃ b < d.nb, ∃ s < d.ns, c = ⟨.res, t, b, s, 0⟩) ?_ ?_ ?_ ?_
  · intro t
    exact Code.Within.forN fun b hb => Code.Within.forN fun s hs => Code.Within.forN fun q _ =>
      Code.Within.forN fun i _ => Code.Within.bind (Code.Within.read (Or.inl rfl)) fun _ =>
      Code.Within.bind (Code.Within.read (Or.inr ⟨b, hb, s, hs, rfl⟩)) fun _ =>
      Code.Within.write ⟨b, hb, s, hs, rfl⟩
  · rintro e e' c ⟨b, hb, s, hs, rfl⟩ (h | ⟨b', hb', s', hs', h⟩)
    · cases h
    · simp only [Cell.mk.injEq] at h; exact Fin.ext h.2.1
  · intro e
    refine Sets.forN fun b hb m1 hm1 => Sets.forN fun s hs m2 hm2 => ?_
    have hv : ∀ q s i, m2 ⟨.vgUq, e, q, s, i⟩ = m ⟨.vgUq, e, q, s, i⟩ := fun q s i => by
      rw [hm2 _ (by simp), hm1 _ (by simp)]
    have hr : m2 ⟨.res, e, b, s, 0⟩ = m ⟨.res, e, b, s, 0⟩ := by
      rw [hm2, hm1]
      · rintro ⟨b', hb', s', hs', h⟩
        simp only [Cell.mk.injEq] at h; omega
      · rintro ⟨s', hs', h⟩
        simp only [Cell.mk.injEq] at h; omega
    have hrun := run_forN_rmw (c0 := ⟨.res, e, b, s, 0⟩) (m := m2) (n := d.nq)
      (h := fun acc q => (List.range d.dim).foldl (fun acc i => acc + d.volGrad q b i * m ⟨.vgUq, e, q, s, i⟩) acc)
      (f := fun iq => Code.forN d.dim fun id => do
        let F ← Code.read ⟨.vgUq, e, iq, s, id⟩
        let r ← Code.read ⟨.res, e, b, s, 0⟩
        Code.write ⟨.res, e, b, s, 0⟩ (r + d.volGrad iq b id * F)) (by
        intro q _ m3 hm3
        refine run_forN_rmw (c0 := ⟨.res, e, b, s, 0⟩) (m := m3) (n := d.dim)
          (h := fun acc i => acc + d.volGrad q b i * m ⟨.vgUq, e, q, s, i⟩) ?_
        intro i _ m4 hm4
        show Function.update m4 _ (m4 _ + d.volGrad q b i * m4 _) = _
        rw [hm4 ⟨.vgUq, e, q, s, i⟩ (by simp), hm3 _ (by simp), hv])
    intro c
    rw [hrun]
    constructor
    · rintro rfl
      rw [Function.update_self, hr, hm', put_in e.2 hb hs (by omega)]
      rfl
    · intro hc; exact Function.update_of_ne hc _ _
  · intro c hc
    refine put_out fun ⟨h, h0, h1, h2, h3⟩ => hc ⟨c.i, h0⟩ ⟨c.j, h1, c.k, h2, ?_⟩
    cases c; simp only at h h3 ⊢; subst h; congr 1; omega

theorem faceFluxKernel_computes (d : Disc K) (g : Geom K) (nf : ℕ) (m : Cell → K) :
    (faceFluxKernel d g nf).Computes m (put .Fq nf d.nqf d.ns 1 (fun i q s _ =>
      d.numFlux (cArr d.ns fun s => m ⟨.UqL, i, q, s, 0⟩) (cArr d.ns fun s => m ⟨.UqR, i, q, s, 0⟩)
        (cArr d.dim (g.normals i q)) s * d.faceWts q) m) := by
  set m' := put .Fq nf d.nqf d.ns 1 (fun i q s _ =>
      d.numFlux (cArr d.ns fun s => m ⟨.UqL, i, q, s, 0⟩) (cArr d.ns fun s => m ⟨.UqR, i, q, s, 0⟩)
        (cArr d.dim (g.normals i q)) s * d.faceWts q) m with hm'
  refine rangeKernel_computes (rd := fun t c => c.view = .UqL ∨ c.view = .UqR)
    (wr := fun t c => ∃ s < d.ns, c = ⟨.Fq, t.1, t.2, s, 0⟩) ?_ ?_ ?_ ?_
  · intro t
    exact Code.Within.bind (within_loadArr fun _ _ => Or.inl (Or.inl rfl)) fun _ =>
      Code.Within.bind (within_loadArr fun _ _ => Or.inl (Or.inr rfl)) fun _ =>
      Code.Within.forN fun s hs => Code.Within.write ⟨s, hs, rfl⟩
  · rintro ⟨e, q⟩ ⟨e', q'⟩ c ⟨s, hs, rfl⟩ (h | ⟨s', hs', h⟩)
    · rcases h with h | h <;> cases h
    · simp only [Cell.mk.injEq] at h; exact Prod.ext (Fin.ext h.2.1) (Fin.ext h.2.2.1)
  · rintro ⟨e, q⟩
    have h : Sets (faceFluxBody d g e q) m (fun c => False ∨ False ∨ ∃ s < d.ns, c = ⟨.Fq, e, q, s, 0⟩) m' := by
      unfold faceFluxBody
      refine Sets.bind (x := loadArr d.ns fun is => ⟨.UqL, e, q, is, 0⟩) ?_ ?_
      · intro c; rw [run_loadArr]; exact ⟨fun h => h.elim, fun _ => rfl⟩
      · rw [run_loadArr]
        refine Sets.bind (x := loadArr d.ns fun is => ⟨.UqR, e, q, is, 0⟩) ?_ ?_
        · intro c; rw [run_loadArr]; exact ⟨fun h => h.elim, fun _ => rfl⟩
        · rw [run_loadArr]
          exact sets_loop1 fun s hs => by rw [hm', put_in e.2 q.2 hs (by omega)]
    exact h.mono fun c => by simp
  · intro c hc
    refine put_out fun ⟨h, h0, h1, h2, h3⟩ => hc (⟨c.i, h0⟩, ⟨c.j, h1⟩) ⟨c.k, h2, ?_⟩
    cases c; simp only at h h3 ⊢; subst h; congr 1; omega

theorem sets_cond {p : Prop} [Decidable p] {x : Code Cell K Unit} {m m' : Cell → K} {W : Cell → Prop}
    (h : p → Sets x m W m') : Sets (Code.cond p x) m (fun c => p ∧ W c) m' := by
  unfold Code.cond
  split
  · exact (h ‹_›).mono fun c => by simp [*]
  · intro c; exact ⟨fun hc => absurd hc.1 ‹_›, fun _ => rfl⟩

theorem within_cond {p : Prop} [Decidable p] {x : Code Cell K Unit} {rd wr : Cell → Prop}
    (h : p → x.Within rd wr) : (Code.cond p x).Within rd wr := by
  unfold Code.cond
  split
  · exact h ‹_›
  · exact trivial

/-- memory after `construct_face_states` -/
def putFaces (d : Disc K) (rank : ℕ) (rows : List FaceRow) (m : Cell → K) : Cell → K := fun c =>
  if c.j < d.nqf ∧ c.k < d.ns ∧ c.l = 0 then
    match c.view, rows[c.i]? with
    | .UqL, some row => if rank = row.rankL then
        m ⟨.Uq, row.elemL, row.faceL * d.nqf + d.ptsOrder row.orientL c.j, c.k, 0⟩ else m c
    | .UqR, some row => if rank = row.rankR then
        m ⟨.Uq, row.elemR, row.faceR * d.nqf + d.ptsOrder row.orientR c.j, c.k, 0⟩ else m c
    | _, _ => m c
  else m c

theorem faceStateKernel_computes (d : Disc K) (rank : ℕ) (rows : List FaceRow) (m : Cell → K) :
    (faceStateKernel d rank rows).Computes m (putFaces d rank rows m) := by
  refine rangeKernel_computes (rd := fun t c => c.view = .Uq)
    (wr := fun t c => (rank = rows[t.1].rankL ∧ ∃ s < d.ns, c = ⟨.UqL, t.1, t.2, s, 0⟩) ∨
      (rank = rows[t.1].rankR ∧ ∃ s < d.ns, c = ⟨.UqR, t.1, t.2, s, 0⟩)) ?_ ?_ ?_ ?_
  · intro t
    exact Code.Within.bind (within_cond fun hp => Code.Within.forN fun s hs => within_copy (Or.inl rfl)
        (Or.inl ⟨hp, s, hs, rfl⟩)) fun _ =>
      within_cond fun hp => Code.Within.forN fun s hs => within_copy (Or.inl rfl) (Or.inr ⟨hp, s, hs, rfl⟩)
  · rintro ⟨e, q⟩ ⟨e', q'⟩ c hw (h | h)
    · rcases hw with ⟨_, s, hs, rfl⟩ | ⟨_, s, hs, rfl⟩ <;> cases h
    · rcases hw with ⟨_, s, hs, rfl⟩ | ⟨_, s, hs, rfl⟩ <;> rcases h with ⟨_, s', hs', h⟩ | ⟨_, s', hs', h⟩ <;>
        simp_all [Fin.ext_iff]
  · rintro ⟨e, q⟩
    have hrow : rows[(e : ℕ)]? = some rows[e] := List.getElem?_eq_getElem e.2
    unfold faceStateBody
    have h1 : Sets (Code.cond (rank = rows[e].rankL) <| Code.forN d.ns fun is =>
        copyCell ⟨.Uq, rows[e].elemL, rows[e].faceL * d.nqf + d.ptsOrder rows[e].orientL q, is, 0⟩
          ⟨.UqL, e, q, is, 0⟩) m (fun c => rank = rows[e].rankL ∧ ∃ s < d.ns, c = ⟨.UqL, e, q, s, 0⟩)
        (putFaces d rank rows m) := by
      refine sets_cond fun hp => sets_copy1 (fun s hs => ?_) (fun i _ j _ => by simp)
      simp only [putFaces]
      rw [if_pos ⟨q.2, hs, trivial⟩, hrow]
      exact if_pos hp
    refine Sets.bind h1 ?_
    refine sets_cond fun hp => sets_copy1 (fun s hs => ?_) (fun i _ j _ => by simp)
    rw [(h1 _).2 (by simp)]
    simp only [putFaces]
    rw [if_pos ⟨q.2, hs, trivial⟩, hrow]
    exact if_pos hp
  · intro c hc
    unfold putFaces
    split
    · rename_i h
      split
      · rename_i row hv hrow
        split
        · rename_i hp
          obtain ⟨hi, hrow⟩ := List.getElem?_eq_some_iff.1 hrow
          refine absurd (Or.inl ⟨?_, c.k, h.2.1, ?_⟩) (hc (⟨c.i, hi⟩, ⟨c.j, h.1⟩))
          · show rank = rows[c.i].rankL; rw [hrow]; exact hp
          · cases c; simp only at hv h ⊢; subst hv; rw [h.2.2]
        · rfl
      · rename_i row hv hrow
        split
        · rename_i hp
          obtain ⟨hi, hrow⟩ := List.getElem?_eq_some_iff.1 hrow
          refine absurd (Or.inr ⟨?_, c.k, h.2.1, ?_⟩) (hc (⟨c.i, hi⟩, ⟨c.j, h.1⟩))
          · show rank = rows[c.i].rankR; rw [hrow]; exact hp
          · cases c; simp only at hv h ⊢; subst hv; rw [h.2.2]
        · rfl
      · rfl
    · rfl

end DG.Dev
