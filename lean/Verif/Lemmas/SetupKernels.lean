import Verif.Lemmas.SetupKernelsBase

/-! The phases of the kernels of `Model/SetupKernels.lean`. -/
namespace DG.Dev
open Kernel

variable {K : Type} [Zero K] [One K] [Add K] [Sub K] [Mul K] [Neg K] [Div K] [NatCast K] {nt : ℕ}

/-- the block `n0 x n1 x n2` of a view of element `e` replaced -/
def setBlk (m : SCell → K) (v : SView) (e n0 n1 n2 : ℕ) (F : ℕ → ℕ → ℕ → K) : SCell → K := fun c =>
  if c.view = v ∧ c.e = e ∧ c.i < n0 ∧ c.j < n1 ∧ c.k < n2 then F c.i c.j c.k else m c

theorem setBlk_at {m : SCell → K} {v : SView} {e n0 n1 n2 : ℕ} {F : ℕ → ℕ → ℕ → K} {i j k : ℕ} (hi : i < n0)
    (hj : j < n1) (hk : k < n2) : setBlk m v e n0 n1 n2 F ⟨v, e, i, j, k⟩ = F i j k := by
  simp [setBlk, hi, hj, hk]

theorem setBlk_ne {m : SCell → K} {v v' : SView} {e e' n0 n1 n2 : ℕ} {F : ℕ → ℕ → ℕ → K} {i j k : ℕ} (h : v' ≠ v) :
    setBlk m v e n0 n1 n2 F ⟨v', e', i, j, k⟩ = m ⟨v', e', i, j, k⟩ := by
  simp [setBlk, h]

theorem setBlk_rest {m : SCell → K} {v : SView} {e n0 n1 n2 : ℕ} {F : ℕ → ℕ → ℕ → K} {c : SCell}
    (h : ¬ ∃ i < n0, ∃ j < n1, ∃ k < n2, c = ⟨v, e, i, j, k⟩) : setBlk m v e n0 n1 n2 F c = m c := by
  unfold setBlk
  rw [if_neg]
  rintro ⟨h1, h2, h3, h4, h5⟩
  refine h ⟨c.i, h3, c.j, h4, c.k, h5, ?_⟩
  cases c
  subst h1 h2
  rfl

/-- a phase of the team of element `t` that accesses nothing of other elements -/
def PhaseIn (t : ℕ) (S : SCell → Prop) (code : Fin nt → Code SCell K Unit) (M M' : SCell → K) : Prop :=
  ∃ rd wr, PhaseOK code rd wr S M M' ∧ (∀ j c, rd j c → c.e = t) ∧ (∀ j c, wr j c → c.e = t) ∧
    ∀ c, S c → c.e = t

theorem PhaseIn.loop {t : ℕ} {d : ℕ → Fin nt} {n : ℕ} {body : ℕ → Code SCell K Unit} {R W : ℕ → SCell → Prop}
    {M M' : SCell → K} (hR : ∀ i c, R i c → c.e = t) (hW : ∀ i c, W i c → c.e = t)
    (hw : ∀ i < n, (body i).Within (R i) (W i))
    (he : ∀ i < n, ∀ i' < n, ∀ c, W i c → R i' c ∨ W i' c → i = i')
    (hs : ∀ i < n, Sets (body i) M (W i) M')
    (hr : ∀ c, (∀ i < n, ¬ W i c) → M' c = M c) :
    PhaseIn t (fun _ => False) (fun j : Fin nt => teamFor d n j body) M M' :=
  ⟨_, _, PhaseOK.loop hw he hs hr, fun _ _ ⟨i, _, _, h⟩ => hR i _ h, fun _ _ ⟨i, _, _, h⟩ => hW i _ h,
    fun _ h => h.elim⟩

theorem PhaseIn.lone {t : ℕ} {body : Code SCell K Unit} {R W : SCell → Prop} {M M' : SCell → K}
    (hnt : 0 < nt) (hR : ∀ c, R c → c.e = t) (hW : ∀ c, W c → c.e = t)
    (hw : body.Within R W) (hs : Sets body M W M') (hr : ∀ c, ¬ W c → M' c = M c) :
    PhaseIn t (fun _ => False) (fun j : Fin nt => rankZero j body) M M' :=
  ⟨_, _, PhaseOK.lone hnt hw hs hr, fun _ _ h => hR _ h.2, fun _ _ h => hW _ h.2, fun _ h => h.elim⟩

/-- nothing happens -/
theorem PhaseIn.idle {t : ℕ} {M : SCell → K} :
    PhaseIn t (fun _ => False) (fun _ : Fin nt => (Code.ret () : Code SCell K Unit)) M M :=
  ⟨fun _ _ => False, fun _ _ => False, PhaseOK.each (fun _ => trivial) (fun _ _ _ h => h.elim)
    (fun _ => Sets.nothing) (fun _ _ => rfl), fun _ _ h => h.elim, fun _ _ h => h.elim, fun _ h => h.elim⟩

/-- the owner of a cell -/
def elemOwner (ne : ℕ) (c : SCell) : Option (Fin ne) := if h : c.e < ne then some ⟨c.e, h⟩ else none

theorem elemOwner_of {ne : ℕ} {t : Fin ne} {c : SCell} (h : c.e = t) : elemOwner ne c = some t := by
  unfold elemOwner
  rw [dif_pos (by rw [h]; exact t.2)]
  simp [h]

/-- a kernel given by its phases -/
theorem phased_of {ne : ℕ} {k : Kernel SCell K (Fin ne) (Fin nt)} {S : Fin ne → ℕ → SCell → Prop}
    {M : Fin ne → ℕ → SCell → K} {m : SCell → K} (h0 : ∀ t, M t 0 = m)
    (h : ∀ t : Fin ne, ∀ p < k.nph, PhaseIn t (S t p) (k.code t p) (M t p) (M t (p + 1))) :
    ∃ rd wr, k.Phased (elemOwner ne) rd wr S M m := by
  classical
  have h' : ∀ t : Fin ne, ∀ p, ∃ rw : (Fin nt → SCell → Prop) × (Fin nt → SCell → Prop), p < k.nph →
      PhaseOK (k.code t p) rw.1 rw.2 (S t p) (M t p) (M t (p + 1)) ∧ (∀ j c, rw.1 j c → c.e = t) ∧
      (∀ j c, rw.2 j c → c.e = t) ∧ ∀ c, S t p c → c.e = t := by
    intro t p
    by_cases hp : p < k.nph
    · obtain ⟨rd, wr, hx⟩ := h t p hp
      exact ⟨(rd, wr), fun _ => hx⟩
    · exact ⟨(fun _ _ => False, fun _ _ => False), fun h => absurd h hp⟩
  choose f hf using h'
  refine ⟨fun t p => (f t p).1, fun t p => (f t p).2, ⟨h0, fun t p hp => (hf t p hp).1, ?_, ?_, ?_⟩⟩
  · intro t p j c hp hc
    exact Or.inl (elemOwner_of ((hf t p hp).2.1 j c hc))
  · intro t p j c hp hc
    exact elemOwner_of ((hf t p hp).2.2.1 j c hc)
  · intro t p c hp hc
    exact elemOwner_of ((hf t p hp).2.2.2 c hc)

/-- the memory after the kernel -/
def finalMem {ne : ℕ} (M : Fin ne → ℕ → SCell → K) (nph : ℕ) (m : SCell → K) : SCell → K := fun c =>
  if h : c.e < ne then M ⟨c.e, h⟩ nph c else m c

theorem settles_of {ne : ℕ} {k : Kernel SCell K (Fin ne) (Fin nt)} {S : Fin ne → ℕ → SCell → Prop}
    {M : Fin ne → ℕ → SCell → K} {m : SCell → K} (h0 : ∀ t, M t 0 = m)
    (h : ∀ t : Fin ne, ∀ p < k.nph, PhaseIn t (S t p) (k.code t p) (M t p) (M t (p + 1))) :
    k.Settles m (finalMem M k.nph m) := by
  obtain ⟨rd, wr, hp⟩ := phased_of h0 h
  refine hp.settles ?_ ?_
  · intro t c hc
    unfold elemOwner at hc
    unfold finalMem
    split at hc
    · next hlt => rw [dif_pos hlt]; rw [Option.some.inj hc]
    · exact absurd hc (by simp)
  · intro c hc
    unfold elemOwner at hc
    unfold finalMem
    split at hc
    · exact absurd hc (by simp)
    · next hlt => rw [dif_neg hlt]

theorem computes_of {ne : ℕ} {k : Kernel SCell K (Fin ne) (Fin nt)} 
    {M : Fin ne → ℕ → SCell → K} {m : SCell → K} (h0 : ∀ t, M t 0 = m)
    (h : ∀ t : Fin ne, ∀ p < k.nph, PhaseIn t (fun _ => False) (k.code t p) (M t p) (M t (p + 1))) :
    k.Computes m (finalMem M k.nph m) := by
  obtain ⟨rd, wr, hp⟩ := phased_of (S := fun _ _ _ => False) h0 h
  refine hp.computes (fun _ _ _ h => h) ?_ ?_
  · intro t c hc
    unfold elemOwner at hc
    unfold finalMem
    split at hc
    · next hlt => rw [dif_pos hlt]; rw [Option.some.inj hc]
    · exact absurd hc (by simp)
  · intro c hc
    unfold elemOwner at hc
    unfold finalMem
    split at hc
    · exact absurd hc (by simp)
    · next hlt => rw [dif_neg hlt]

/-! ### pieces -/

theorem Sets.after_load {α : Type} {x : Code SCell K α} {f : α → Code SCell K Unit} {m : SCell → K} {a : α}
    (hx : x.run m = (a, m)) {W : SCell → Prop} {val : SCell → K} (h : Sets (f a) m W val) :
    Sets (x.bind f) m W val := by
  intro c
  rw [Code.run_bind, hx]
  exact h c

/-- the Jacobian of an element at a point -/
def jacOf (dim nn : ℕ) (X g : ℕ → ℕ → K) : ℕ → ℕ → K := fun i j =>
  if i < dim ∧ j < dim then 0 + loopSum nn fun p => (1 * X p i) * g p j else 0

/-- cells of the Jacobian and its determinant -/
def DjacCells (vj vd : SView) (e dim iq : ℕ) (c : SCell) : Prop :=
  (∃ i < dim, ∃ j < dim, c = ⟨vj, e, iq, i, j⟩) ∨ c = ⟨vd, e, iq, 0, 0⟩

/-- cells of the coordinates -/
def CoordCells (e : ℕ) (c : SCell) : Prop := c.view = .coords ∧ c.e = e

theorem sets_djacCode {vj vd : SView} (hjc : vj ≠ .coords) {e dim nn iq : ℕ} {X g : ℕ → ℕ → K} {m val : SCell → K}
    (hX : ∀ p < nn, ∀ i < dim, m ⟨.coords, e, p, i, 0⟩ = X p i)
    (hv1 : ∀ i < dim, ∀ j < dim, val ⟨vj, e, iq, i, j⟩ = jacOf dim nn X g i j)
    (hv2 : val ⟨vd, e, iq, 0, 0⟩ = detTo dim (jacOf dim nn X g) 0) :
    Sets (djacCode vj vd e dim nn iq g) m (DjacCells vj vd e dim iq) val := by
  have h1 : Sets (serialProduct dim dim nn (fun i p => Code.read ⟨.coords, e, p, i, 0⟩)
      (fun p j => pure (g p j)) fun i j => ⟨vj, e, iq, i, j⟩) m
      (fun x => ∃ i < dim, ∃ j < dim, x = (⟨vj, e, iq, i, j⟩ : SCell)) val := by
    refine sets_serialProduct (av := fun i p => X p i) (bv := g) ?_ ?_ ?_
    · intro i hi p hp m' hm'
      have : m' ⟨.coords, e, p, i, 0⟩ = X p i := by
        rw [hm' _ (by rintro ⟨_, _, _, _, h⟩; simp only [SCell.mk.injEq] at h; exact hjc h.1.symm), hX p hp i hi]
      show (m' ⟨.coords, e, p, i, 0⟩, m') = _
      rw [this]
    · intro p _ j _ m' _
      rfl
    · intro i hi j hj
      rw [hv1 i hi j hj]
      simp [jacOf, hi, hj]
  refine Sets.bind h1 (Sets.after_load (run_loadMat _ _ _ _) (Sets.write ?_))
  rw [hv2]
  congr 1
  funext i j
  by_cases hij : i < dim ∧ j < dim
  · rw [if_pos hij, (h1 _).1 ⟨i, hij.1, j, hij.2, rfl⟩, hv1 i hij.1 j hij.2]
  · rw [if_neg hij]; simp [jacOf, hij]

theorem within_djacCode {vj vd : SView} {e dim nn iq : ℕ} {g : ℕ → ℕ → K} {wr : SCell → Prop}
    (h : ∀ c, DjacCells vj vd e dim iq c → wr c) : (djacCode vj vd e dim nn iq g).Within (CoordCells e) wr := by
  refine Code.Within.bind (within_serialProduct ?_ ?_ ?_) fun _ => Code.Within.bind (within_loadMat ?_) fun _ =>
    Code.Within.write (h _ (Or.inr rfl))
  · intro i _ p _; exact Code.Within.read (Or.inl ⟨rfl, rfl⟩)
  · intro _ _ _ _; trivial
  · intro i hi j hj; exact h _ (Or.inl ⟨i, hi, j, hj, rfl⟩)
  · intro i hi j hj; exact Or.inr (h _ (Or.inl ⟨i, hi, j, hj, rfl⟩))

/-- cells of the Jacobian, its determinant and its inverse -/
def JacCells (e dim iq : ℕ) (c : SCell) : Prop :=
  DjacCells .jac .djac e dim iq c ∨ ∃ i < dim, ∃ j < dim, c = ⟨.ijac, e, iq, i, j⟩

theorem sets_jacobianCode {e dim nn iq : ℕ} {X g : ℕ → ℕ → K} {m val : SCell → K}
    (hX : ∀ p < nn, ∀ i < dim, m ⟨.coords, e, p, i, 0⟩ = X p i)
    (hv1 : ∀ i < dim, ∀ j < dim, val ⟨.jac, e, iq, i, j⟩ = jacOf dim nn X g i j)
    (hv2 : val ⟨.djac, e, iq, 0, 0⟩ = detTo dim (jacOf dim nn X g) 0)
    (hv3 : ∀ i < dim, ∀ j < dim, val ⟨.ijac, e, iq, i, j⟩ = invA dim (jacOf dim nn X g) (fun _ _ => 0) i j) :
    Sets (jacobianCode e dim nn iq g) m (JacCells e dim iq) val := by
  have h1 := sets_djacCode (vj := .jac) (vd := .djac) (by simp) hX hv1 hv2
  refine Sets.bind h1 (Sets.after_load (run_loadMat _ _ _ _) (sets_storeMat ?_))
  intro i hi j hj
  rw [hv3 i hi j hj]
  congr 1
  funext a b
  by_cases hij : a < dim ∧ b < dim
  · rw [if_pos hij, (h1 _).1 (Or.inl ⟨a, hij.1, b, hij.2, rfl⟩), hv1 a hij.1 b hij.2]
  · rw [if_neg hij]; simp [jacOf, hij]

theorem within_jacobianCode {e dim nn iq : ℕ} {g : ℕ → ℕ → K} :
    (jacobianCode e dim nn iq g).Within (CoordCells e) (JacCells e dim iq) := by
  refine Code.Within.bind (within_djacCode fun c => Or.inl) fun _ => Code.Within.bind (within_loadMat ?_) fun _ =>
    within_storeMat ?_
  · intro i hi j hj; exact Or.inr (Or.inl (Or.inl ⟨i, hi, j, hj, rfl⟩))
  · intro i hi j hj; exact Or.inr ⟨i, hi, j, hj, rfl⟩

/-! ### phases -/

/-- the node coordinates -/
def putCoords (m : SCell → K) (t nn dim : ℕ) (X : ℕ → ℕ → K) : SCell → K :=
  setBlk m .coords t nn dim 1 fun i d _ => X i d

/-- Jacobians and determinants -/
def putDjac (vj vd : SView) (m : SCell → K) (t dim nn nq : ℕ) (X : ℕ → ℕ → K) (g : ℕ → ℕ → ℕ → K) : SCell → K :=
  setBlk (setBlk m vj t nq dim dim fun q => jacOf dim nn X (g q)) vd t nq 1 1
    fun q _ _ => detTo dim (jacOf dim nn X (g q)) 0

/-- Jacobians, determinants and inverses -/
def putJac (m : SCell → K) (t dim nn nq : ℕ) (X : ℕ → ℕ → K) (g : ℕ → ℕ → ℕ → K) : SCell → K :=
  setBlk (putDjac .jac .djac m t dim nn nq X g) .ijac t nq dim dim fun q => invA dim (jacOf dim nn X (g q)) fun _ _ => 0

theorem phase_coords {t nn dim : ℕ} (hnt : 0 < nt) {m : SCell → K} {X : ℕ → ℕ → K} :
    PhaseIn t (fun _ => False) (fun j : Fin nt => rankZero j (coordsCode t nn dim X)) m (putCoords m t nn dim X) := by
  refine PhaseIn.lone (R := fun _ => False) (W := fun x => ∃ i < nn, ∃ j < dim, x = ⟨.coords, t, i, j, 0⟩)
    hnt (fun _ h => h.elim) ?_ ?_ ?_ ?_
  · rintro c ⟨i, _, j, _, rfl⟩; rfl
  · exact within_storeMat fun i hi j hj => ⟨i, hi, j, hj, rfl⟩
  · exact sets_storeMat fun i hi j hj => setBlk_at hi hj (by omega)
  · intro c hc
    refine setBlk_rest ?_
    rintro ⟨i, hi, j, hj, k, hk, rfl⟩
    exact hc ⟨i, hi, j, hj, by simp; omega⟩

theorem phase_coords_phys {t nn gnb dim nq : ℕ} (hnt : 0 < nt) (hg : gnb ≤ nn) {m : SCell → K} {X : ℕ → ℕ → K} {gval : ℕ → ℕ → K}
    {v : SView} (hv : v ≠ .coords) :
    PhaseIn t (fun _ => False)
      (fun j : Fin nt => rankZero j (do coordsCode t nn dim X; physCode v t nq dim gnb gval)) m
      (setBlk (putCoords m t nn dim X) v t nq dim 1 fun q d _ => 0 + loopSum gnb fun p => (1 * gval q p) * X p d) := by
  have hc : Sets (coordsCode t nn dim X) m (fun x => ∃ i < nn, ∃ j < dim, x = ⟨.coords, t, i, j, 0⟩)
      (setBlk (putCoords m t nn dim X) v t nq dim 1 fun q d _ => 0 + loopSum gnb fun p => (1 * gval q p) * X p d) :=
    sets_storeMat fun i hi j hj => by rw [setBlk_ne hv.symm]; exact setBlk_at hi hj (by omega)
  refine PhaseIn.lone (R := fun _ => False) (W := fun x => (∃ i < nn, ∃ j < dim, x = ⟨.coords, t, i, j, 0⟩) ∨
    ∃ i < nq, ∃ j < dim, x = ⟨v, t, i, j, 0⟩)
    hnt (fun _ h => h.elim) ?_ ?_ ?_ ?_
  · rintro c (⟨i, _, j, _, rfl⟩ | ⟨i, _, j, _, rfl⟩) <;> rfl
  · refine Code.Within.bind (within_storeMat fun i hi j hj => Or.inl ⟨i, hi, j, hj, rfl⟩) fun _ =>
      within_serialProduct ?_ ?_ ?_
    · intro _ _ _ _; trivial
    · intro p hp j hj; exact Code.Within.read (Or.inr (Or.inl ⟨p, by omega, j, hj, rfl⟩))
    · intro i hi j hj; exact Or.inr ⟨i, hi, j, hj, rfl⟩
  · refine Sets.bind hc (sets_serialProduct (av := gval) (bv := X) ?_ ?_ ?_)
    · intro _ _ _ _ _ _; rfl
    · intro p hp j hj m' hm'
      have : m' ⟨.coords, t, p, j, 0⟩ = X p j := by
        rw [hm' _ (by rintro ⟨_, _, _, _, h⟩; simp only [SCell.mk.injEq] at h; exact hv h.1.symm)]
        rw [(hc _).1 ⟨p, by omega, j, hj, rfl⟩, setBlk_ne hv.symm]
        exact setBlk_at (by omega) hj (by omega)
      show (m' ⟨.coords, t, p, j, 0⟩, m') = _
      rw [this]
    · intro i hi j hj; exact setBlk_at hi hj (by omega)
  · intro c hc
    rw [setBlk_rest, putCoords, setBlk_rest]
    · rintro ⟨i, hi, j, hj, k, hk, rfl⟩
      exact hc (Or.inl ⟨i, hi, j, hj, by simp; omega⟩)
    · rintro ⟨i, hi, j, hj, k, hk, rfl⟩
      exact hc (Or.inr ⟨i, hi, j, hj, by simp; omega⟩)

theorem jacCells_i {e dim iq iq' : ℕ} {c : SCell} (h : JacCells e dim iq c)
    (h' : CoordCells e c ∨ JacCells e dim iq' c) : iq = iq' := by
  rcases h with (⟨i, _, j, _, rfl⟩ | rfl) | ⟨i, _, j, _, rfl⟩ <;>
    rcases h' with h' | (⟨i', _, j', _, h'⟩ | h') | ⟨i', _, j', _, h'⟩ <;> simp_all [CoordCells]

theorem phase_jac {t nn dim nq : ℕ} {d : ℕ → Fin nt} {m : SCell → K} {X : ℕ → ℕ → K} {g : ℕ → ℕ → ℕ → K}
    (hX : ∀ p < nn, ∀ i < dim, m ⟨.coords, t, p, i, 0⟩ = X p i) :
    PhaseIn t (fun _ => False) (fun j : Fin nt => teamFor d nq j fun iq => jacobianCode t dim nn iq (g iq)) m
      (putJac m t dim nn nq X g) := by
  refine PhaseIn.loop (R := fun _ => CoordCells t) (W := JacCells t dim) (fun _ _ h => h.2) ?_ ?_ ?_ ?_ ?_
  · rintro i c ((⟨_, _, _, _, rfl⟩ | rfl) | ⟨_, _, _, _, rfl⟩) <;> rfl
  · intro i _; exact within_jacobianCode
  · intro i _ i' _ c h h'; exact jacCells_i h h'
  · intro q hq
    refine sets_jacobianCode hX ?_ ?_ ?_
    · intro i hi j hj
      rw [putJac, setBlk_ne (by simp), putDjac, setBlk_ne (by simp), setBlk_at hq hi hj]
    · rw [putJac, setBlk_ne (by simp), putDjac, setBlk_at hq (by omega) (by omega)]
    · intro i hi j hj
      rw [putJac, setBlk_at hq hi hj]
  · intro c hc
    rw [putJac, setBlk_rest, putDjac, setBlk_rest, setBlk_rest]
    · rintro ⟨i, hi, j, hj, k, hk, rfl⟩
      exact hc i hi (Or.inl (Or.inl ⟨j, hj, k, hk, rfl⟩))
    · rintro ⟨i, hi, j, hj, k, hk, rfl⟩
      exact hc i hi (Or.inl (Or.inr (by simp; omega)))
    · rintro ⟨i, hi, j, hj, k, hk, rfl⟩
      exact hc i hi (Or.inr ⟨j, hj, k, hk, rfl⟩)

theorem phase_djac {vj vd : SView} (hjc : vj ≠ .coords) (hdc : vd ≠ .coords) (hjd : vj ≠ vd) {t nn dim nq : ℕ} {d : ℕ → Fin nt} {m : SCell → K} {X : ℕ → ℕ → K} {g : ℕ → ℕ → ℕ → K}
    (hX : ∀ p < nn, ∀ i < dim, m ⟨.coords, t, p, i, 0⟩ = X p i) :
    PhaseIn t (fun _ => False) (fun j : Fin nt => teamFor d nq j fun iq => djacCode vj vd t dim nn iq (g iq)) m
      (putDjac vj vd m t dim nn nq X g) := by
  refine PhaseIn.loop (R := fun _ => CoordCells t) (W := DjacCells vj vd t dim) (fun _ _ h => h.2) ?_ ?_ ?_ ?_ ?_
  · rintro i c (⟨_, _, _, _, rfl⟩ | rfl) <;> rfl
  · intro i _; exact within_djacCode fun _ h => h
  · intro i _ i' _ c h h'; 
    rcases h with ⟨i, _, j, _, rfl⟩ | rfl <;> rcases h' with h' | ⟨i', _, j', _, h'⟩ | h' <;>
      simp_all [CoordCells]
  · intro q hq
    refine sets_djacCode hjc hX ?_ ?_
    · intro i hi j hj
      rw [putDjac, setBlk_ne hjd, setBlk_at hq hi hj]
    · rw [putDjac, setBlk_at hq (by omega) (by omega)]
  · intro c hc
    rw [putDjac, setBlk_rest, setBlk_rest]
    · rintro ⟨i, hi, j, hj, k, hk, rfl⟩
      exact hc i hi (Or.inl ⟨j, hj, k, hk, rfl⟩)
    · rintro ⟨i, hi, j, hj, k, hk, rfl⟩
      exact hc i hi (Or.inr (by simp; omega))

/-- rows scaled -/
theorem phase_scale {t n nq : ℕ} {d : ℕ → Fin nt} {m : SCell → K} {v vd : SView} (hv : v ≠ vd) {w : ℕ → K} :
    PhaseIn t (fun _ => False) (fun j : Fin nt => teamFor d nq j fun iq => scaleRowCode v vd t n iq (w iq)) m
      (setBlk m v t nq n 1 fun q i _ => w q * m ⟨vd, t, q, 0, 0⟩ * m ⟨v, t, q, i, 0⟩) := by
  refine PhaseIn.loop (R := fun q c => c = ⟨vd, t, q, 0, 0⟩) (W := fun q c => ∃ i < n, c = ⟨v, t, q, i, 0⟩)
    ?_ ?_ ?_ ?_ ?_ ?_
  · rintro _ _ rfl; rfl
  · rintro _ _ ⟨_, _, rfl⟩; rfl
  · intro q _
    refine Code.Within.bind (Code.Within.read (Or.inl rfl)) fun _ => Code.Within.forN fun i hi =>
      Code.Within.bind (Code.Within.read (Or.inr ⟨i, hi, rfl⟩)) fun _ => Code.Within.write ⟨i, hi, rfl⟩
  · rintro q _ q' _ c ⟨i, _, rfl⟩ (h | ⟨i', _, h⟩)
    · simp only [SCell.mk.injEq] at h; exact absurd h.1 hv
    · simp only [SCell.mk.injEq] at h; exact h.2.2.1
  · intro q hq
    refine Sets.after_load (a := m ⟨vd, t, q, 0, 0⟩) rfl (Sets.forN fun i hi m' hm' => ?_)
    refine Sets.after_load (a := m ⟨v, t, q, i, 0⟩) ?_ (Sets.write (setBlk_at hq hi (by omega)))
    show (m' ⟨v, t, q, i, 0⟩, m') = _
    rw [hm']
    rintro ⟨i', hi', h⟩
    simp only [SCell.mk.injEq] at h
    omega
  · intro c hc
    refine setBlk_rest ?_
    rintro ⟨i, hi, j, hj, k, hk, rfl⟩
    exact hc i hi ⟨j, hj, by simp; omega⟩

theorem div_mod_inj {n i i' : ℕ} (h1 : i / n = i' / n) (h2 : i % n = i' % n) : i = i' := by
  rw [← Nat.div_add_mod i n, ← Nat.div_add_mod i' n, h1, h2]

/-- a distributed loop that stores one entry of an `r x c` matrix per iteration, reading cells of other views -/
theorem phase_entries {t r c : ℕ} {d : ℕ → Fin nt} {m : SCell → K} {v : SView} {F : ℕ → ℕ → K}
    {body : ℕ → Code SCell K Unit}
    (hw : ∀ i, (body i).Within (fun x => x.view ≠ v ∧ x.e = t) (fun x => x = ⟨v, t, i / c, i % c, 0⟩))
    (hs : ∀ i < r * c, ∀ val : SCell → K, val ⟨v, t, i / c, i % c, 0⟩ = F (i / c) (i % c) →
      Sets (body i) m (fun x => x = ⟨v, t, i / c, i % c, 0⟩) val) :
    PhaseIn t (fun _ => False) (fun j : Fin nt => teamFor d (r * c) j body) m
      (setBlk m v t r c 1 fun a b _ => F a b) := by
  refine PhaseIn.loop (R := fun _ x => x.view ≠ v ∧ x.e = t) (W := fun i x => x = ⟨v, t, i / c, i % c, 0⟩)
    (fun _ _ h => h.2) ?_ (fun i _ => hw i) ?_ ?_ ?_
  · rintro _ _ rfl; rfl
  · rintro i _ i' _ x rfl (h | h)
    · exact absurd rfl h.1
    · simp only [SCell.mk.injEq] at h
      exact div_mod_inj h.2.2.1 h.2.2.2.1
  · intro i hi
    have hc : 0 < c := Nat.pos_of_ne_zero (by rintro rfl; simp at hi)
    exact hs i hi _ (setBlk_at (Nat.div_lt_of_lt_mul (by rwa [Nat.mul_comm])) (Nat.mod_lt _ hc) (by omega))
  · intro x hx
    refine setBlk_rest ?_
    rintro ⟨i, hi, j, hj, k, hk, rfl⟩
    refine hx (i * c + j) ?_ ?_
    · calc i * c + j < i * c + c := by omega
        _ = (i + 1) * c := by ring
        _ ≤ r * c := Nat.mul_le_mul_right _ hi
    · have hc : 0 < c := by omega
      simp only [SCell.mk.injEq, true_and]
      rw [Nat.add_comm, Nat.add_mul_div_right _ _ hc, Nat.div_eq_of_lt hj, Nat.add_mul_mod_self_right,
        Nat.mod_eq_of_lt hj]
      omega

theorem phase_clear {t r c : ℕ} {d : ℕ → Fin nt} {m : SCell → K} {v : SView} :
    PhaseIn t (fun _ => False) (fun j : Fin nt => teamFor d (r * c) j (clearEntry v t c)) m
      (setBlk m v t r c 1 fun _ _ _ => 0) :=
  phase_entries (F := fun _ _ => 0) (fun _ => Code.Within.write rfl) fun _ _ _ h => Sets.write h

/-- products added to a matrix that was cleared; the factors are read from other views or are constants -/
theorem phase_add {t r c n : ℕ} {d : ℕ → Fin nt} {m : SCell → K} {v : SView}
    {a b : ℕ → ℕ → Code SCell K K} {av bv : ℕ → ℕ → K}
    (hz : ∀ i < r, ∀ j < c, m ⟨v, t, i, j, 0⟩ = 0)
    (ha : ∀ i, ∀ p < n, (a i p).Within (fun x => x.view ≠ v ∧ x.e = t) (fun _ => False))
    (hb : ∀ p < n, ∀ j, (b p j).Within (fun x => x.view ≠ v ∧ x.e = t) (fun _ => False))
    (hav : ∀ i < r, ∀ p < n, (a i p).run m = (av i p, m)) (hbv : ∀ p < n, ∀ j < c, (b p j).run m = (bv p j, m)) :
    PhaseIn t (fun _ => False) (fun jj : Fin nt => teamFor d (r * c) jj fun i =>
        addProduct n (a (i / c)) (fun p => b p (i % c)) ⟨v, t, i / c, i % c, 0⟩) m
      (setBlk m v t r c 1 fun i j _ => 0 + loopSum n fun p => (1 * av i p) * bv p j) := by
  have mono : ∀ {R W W' : SCell → Prop} {x : Code SCell K K}, (∀ c, W c → W' c) → x.Within R W → x.Within R W' := by
    intro R W W' x hW
    induction x with
    | ret => intro _; trivial
    | load c k ih => intro h; exact ⟨h.1.imp id (hW c), fun v => ih v (h.2 v)⟩
    | store c v k ih => intro h; exact ⟨hW c h.1, ih h.2⟩
  refine phase_entries (F := fun i j => 0 + loopSum n fun p => (1 * av i p) * bv p j) ?_ ?_
  · intro i
    exact within_addProduct (fun p hp => mono (fun _ h => h.elim) (ha _ p hp))
      (fun p hp => mono (fun _ h => h.elim) (hb p hp _)) rfl
  · intro i hi val hval
    have hc : 0 < c := Nat.pos_of_ne_zero (by rintro rfl; simp at hi)
    have h1 : i / c < r := Nat.div_lt_of_lt_mul (by rwa [Nat.mul_comm])
    have h2 : i % c < c := Nat.mod_lt _ hc
    exact sets_addProduct (fun p hp => hav _ h1 p hp) (fun p hp => hbv p hp _ h2) (by rw [hval, hz _ h1 _ h2])

end DG.Dev
