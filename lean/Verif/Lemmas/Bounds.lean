import Verif.Spec.Bounds
import Verif.Lemmas.Kernels
import Verif.Lemmas.SolverWorld

/-! Every load and store of the kernels stays within the extents of its view. -/
namespace DG.Dev
open Kernel Code

section machine
variable {C V T J : Type} [DecidableEq C] [DecidableEq T] [DecidableEq J]

/-- code that stays in `P` -/
abbrev In {α : Type} (P : C → Prop) (x : Code C V α) : Prop := x.Within (fun _ => False) P

theorem staysIn_of_code {k : Kernel C V T J} {P : C → Prop} (h : ∀ t p j, p < k.nph → In P (k.code t p j))
    (m : C → V) : k.StaysIn P m := by
  intro n c hs
  have inv : ∀ t j, c.phase t < k.nph → In P (c.codes t j) := by
    generalize hc0 : k.init m = c0 at hs
    induction hs with
    | refl => subst hc0; exact fun t j hp => h t 0 j hp
    | tail hs hstep ih =>
      have ih := ih hc0
      cases hstep with
      | load t j x f hp he =>
        intro t' j' hp'
        simp only [setCode]
        split
        · next hh => have := ih t j hp; rw [he] at this; exact this.2 _
        · exact ih t' j' hp'
      | store t j x v f hp he =>
        intro t' j' hp'
        simp only [setCode]
        split
        · have := ih t j hp; rw [he] at this; exact this.2
        · exact ih t' j' hp'
      | barrier t hp he =>
        intro t' j' hp'
        simp only at hp' ⊢
        by_cases ht : t' = t
        · subst ht
          rw [Function.update_self] at hp' ⊢
          exact h _ _ _ hp'
        · rw [Function.update_of_ne ht] at hp' ⊢
          exact ih t' j' hp'
  intro t j x hx
  rcases hx with ⟨hp, f, he⟩ | ⟨hp, v, f, he⟩
  · have := inv t j hp
    rw [he] at this
    exact this.1.resolve_left id
  · have := inv t j hp
    rw [he] at this
    exact this.1

theorem In.read {P : C → Prop} {c : C} (h : P c) : In P (Code.read c : Code C V V) := Within.read (Or.inr h)
theorem In.write {P : C → Prop} {c : C} {v : V} (h : P c) : In P (Code.write c v : Code C V Unit) := Within.write h
theorem In.bind {α β : Type} {P : C → Prop} {x : Code C V α} {f : α → Code C V β} (h : In P x)
    (hf : ∀ a, In P (f a)) : In P (x >>= f) := Within.bind h hf
theorem In.forN {P : C → Prop} {f : ℕ → Code C V Unit} {n : ℕ} (h : ∀ i < n, In P (f i)) : In P (Code.forN n f) :=
  Within.forN h
theorem In.foldN {α : Type} {P : C → Prop} {a : α} {f : α → ℕ → Code C V α} {n : ℕ}
    (h : ∀ b, ∀ i < n, In P (f b i)) : In P (Code.foldN a n f) := Within.foldN h
theorem In.pure {α : Type} {P : C → Prop} {a : α} : In P (pure a : Code C V α) := trivial
theorem In.cond {P : C → Prop} {p : Prop} [Decidable p] {x : Code C V Unit} (h : p → In P x) :
    In P (Code.cond p x) := by
  unfold Code.cond
  split
  · next hp => exact h hp
  · trivial
theorem In.ite {α : Type} {P : C → Prop} {p : Prop} [Decidable p] {x y : Code C V α} (h : p → In P x)
    (h' : ¬ p → In P y) : In P (if p then x else y) := by
  split
  · next hp => exact h hp
  · next hp => exact h' hp

end machine

variable {K : Type} [Field K] {α : Type}

theorem In.copy {P : Cell → Prop} {src dst : Cell} (h : P src) (h' : P dst) :
    In P (copyCell src dst : Code Cell K Unit) := In.bind (In.read h) fun _ => In.write h'

theorem In.loadArr {P : Cell → Prop} {n : ℕ} {cell : ℕ → Cell} (h : ∀ i < n, P (cell i)) :
    In P (loadArr n cell : Code Cell K (ℕ → K)) :=
  In.foldN fun _ i hi => In.bind (In.read (h i hi)) fun _ => In.pure

theorem range_in {T : Type} [DecidableEq T] {P : Cell → Prop} {body : T → Code Cell K Unit} (h : ∀ t, In P (body t))
    (m : Cell → K) : (rangeKernel body).StaysIn P m := staysIn_of_code (fun t _ _ _ => h t) m

section kernels
variable {d : Disc K} {rm : RankMesh α} {m : Cell → K}

/-- views of the shape of the coefficients -/
def CoefView (v : View) : Prop :=
  v = .Uc ∨ v = .res ∨ v = .dU ∨ v = .dU1 ∨ v = .dU2 ∨ v = .dU3 ∨ v = .dU4 ∨ v = .Uhold

theorem coef_inside {v : View} (h : CoefView v) {i j k : ℕ} (hi : i < rm.numElemsPart) (hj : j < d.nb) (hk : k < d.ns) :
    Inside d rm ⟨v, i, j, k, 0⟩ := by
  rcases h with rfl | rfl | rfl | rfl | rfl | rfl | rfl | rfl <;> exact ⟨hi, hj, hk, Nat.one_pos⟩

theorem fill_in {v : View} (h : CoefView v) (c : K) :
    (fillKernel v rm.numElemsPart d.nb d.ns c).StaysIn (Inside d rm) m :=
  range_in (fun t => In.write (coef_inside h t.1.2 t.2.1.2 t.2.2.2)) m

theorem axpy_in {a b dst : View} (ha : CoefView a) (hb : CoefView b) (hd : CoefView dst) (c : K) :
    (axpyKernel rm.numElemsPart d.nb d.ns c a b dst).StaysIn (Inside d rm) m :=
  range_in (fun t => In.bind (In.read (coef_inside ha t.1.2 t.2.1.2 t.2.2.2)) fun _ =>
    In.bind (In.read (coef_inside hb t.1.2 t.2.1.2 t.2.2.2)) fun _ =>
      In.write (coef_inside hd t.1.2 t.2.1.2 t.2.2.2)) m

theorem copy_in {a dst : View} (ha : CoefView a) (hd : CoefView dst) :
    (copyKernel (K := K) rm.numElemsPart d.nb d.ns a dst).StaysIn (Inside d rm) m :=
  range_in (fun t => In.copy (coef_inside ha t.1.2 t.2.1.2 t.2.2.2) (coef_inside hd t.1.2 t.2.1.2 t.2.2.2)) m

theorem gemm_in {ow : Bool} {ne M N L : ℕ} {al : K} {A : ℕ → ℕ → ℕ → K} {B C : View} {P : Cell → Prop}
    (hB : ∀ e < ne, ∀ p < L, ∀ j < N, P ⟨B, e, p, j, 0⟩) (hC : ∀ e < ne, ∀ i < M, ∀ j < N, P ⟨C, e, i, j, 0⟩) :
    (gemmKernel ow ne M N L al A B C).StaysIn P m := by
  refine staysIn_of_code (fun e p ij _ => ?_) m
  exact In.ite (fun _ => In.write (hC e e.2 ij.1 ij.1.2 ij.2 ij.2.2)) fun _ =>
    In.bind (In.foldN fun _ p hp => In.bind (In.read (hB e e.2 p hp ij.2 ij.2.2)) fun _ => In.pure) fun _ =>
      In.bind (In.read (hC e e.2 ij.1 ij.1.2 ij.2 ij.2.2)) fun _ => In.write (hC e e.2 ij.1 ij.1.2 ij.2 ij.2.2)

theorem evalVol_in (B : ℕ → ℕ → K) :
    (evalKernel rm.numElemsPart d.nq d.ns d.nb B .uqVol).StaysIn (Inside d rm) m :=
  gemm_in (fun _ he _ hp _ hj => coef_inside (Or.inl rfl) he hp hj) fun _ he _ hi _ hj => ⟨he, hi, hj, Nat.one_pos⟩

theorem evalFace_in (B : ℕ → ℕ → K) :
    (evalKernel rm.numElemsPart (d.nface * d.nqf) d.ns d.nb B .Uq).StaysIn (Inside d rm) m :=
  gemm_in (fun _ he _ hp _ hj => coef_inside (Or.inl rfl) he hp hj) fun _ he _ hi _ hj => ⟨he, hi, hj, Nat.one_pos⟩

theorem faceIntegral_in : (faceIntegralKernel d rm.numElemsPart).StaysIn (Inside d rm) m :=
  gemm_in (fun _ he _ hp _ hj => ⟨he, hp, hj, Nat.one_pos⟩) fun _ he _ hi _ hj =>
    coef_inside (Or.inr (Or.inl rfl)) he hi hj

theorem invMass_in {dst : View} (h : CoefView dst) (dt : K) (iMM : ℕ → ℕ → ℕ → K) :
    (invMassKernel d rm.numElemsPart dt iMM dst).StaysIn (Inside d rm) m :=
  gemm_in (fun _ he _ hp _ hj => coef_inside (Or.inr (Or.inl rfl)) he hp hj) fun _ he _ hi _ hj =>
    coef_inside h he hi hj

theorem volumeFlux_in (g : Geom K) : (volumeFluxKernel d g rm.numElemsPart).StaysIn (Inside d rm) m :=
  range_in (fun t => In.bind (In.loadArr fun i hi => ⟨t.1.2, t.2.2, hi, Nat.one_pos⟩) fun _ =>
    In.bind (In.forN fun i hi => In.write ⟨t.1.2, t.2.2, hi, Nat.one_pos⟩) fun _ =>
      In.forN fun i hi => In.forN fun j hj => In.write ⟨t.1.2, t.2.2, hj, hi⟩) m

theorem volumeIntegral_in : (volumeIntegralKernel d rm.numElemsPart).StaysIn (Inside d rm) m :=
  range_in (fun t => In.forN fun b hb => In.forN fun s hs => In.forN fun q hq => In.forN fun i hi =>
    In.bind (In.read ⟨t.2, hq, hs, hi⟩) fun _ =>
      In.bind (In.read (coef_inside (Or.inr (Or.inl rfl)) t.2 hb hs)) fun _ =>
        In.write (coef_inside (Or.inr (Or.inl rfl)) t.2 hb hs)) m

theorem faceState_in {rank norient : ℕ} (hr : RowsOK d norient rm.numElemsPart rank rm.rows) (ho : OrderOK d norient)
    (hlen : rm.rows.length = rm.numIFacesPart) : (faceStateKernel d rank rm.rows).StaysIn (Inside d rm) m :=
  range_in (fun t => In.bind (In.cond fun h => In.forN fun s hs => by
      obtain ⟨h1, h2, h3⟩ := hr.left _ (List.getElem_mem _) h
      exact In.copy ⟨h1, slot_lt ho h3 h2 t.2.2, hs, Nat.one_pos⟩ ⟨lt_of_lt_of_eq t.1.2 hlen, t.2.2, hs, Nat.one_pos⟩) fun _ =>
    In.cond fun h => In.forN fun s hs => by
      obtain ⟨h1, h2, h3⟩ := hr.right _ (List.getElem_mem _) h
      exact In.copy ⟨h1, slot_lt ho h3 h2 t.2.2, hs, Nat.one_pos⟩ ⟨lt_of_lt_of_eq t.1.2 hlen, t.2.2, hs, Nat.one_pos⟩) m

theorem fluxState_in {rank norient : ℕ} (hr : RowsOK d norient rm.numElemsPart rank rm.rows) (ho : OrderOK d norient)
    (hlen : rm.rows.length = rm.numIFacesPart) : (fluxStateKernel d rank rm.rows).StaysIn (Inside d rm) m :=
  range_in (fun t => In.bind (In.cond fun h => In.forN fun s hs => by
      obtain ⟨h1, h2, h3⟩ := hr.left _ (List.getElem_mem _) h
      exact In.bind (In.read ⟨lt_of_lt_of_eq t.1.2 hlen, t.2.2, hs, Nat.one_pos⟩) fun _ =>
        In.write ⟨h1, slot_lt ho h3 h2 t.2.2, hs, Nat.one_pos⟩) fun _ =>
    In.cond fun h => In.forN fun s hs => by
      obtain ⟨h1, h2, h3⟩ := hr.right _ (List.getElem_mem _) h
      exact In.copy ⟨lt_of_lt_of_eq t.1.2 hlen, t.2.2, hs, Nat.one_pos⟩ ⟨h1, slot_lt ho h3 h2 t.2.2, hs, Nat.one_pos⟩) m

theorem faceFlux_in (g : Geom K) (hlen : rm.rows.length = rm.numIFacesPart) :
    (faceFluxKernel d g rm.rows.length).StaysIn (Inside d rm) m :=
  range_in (fun t => In.bind (In.loadArr fun i hi => ⟨lt_of_lt_of_eq t.1.2 hlen, t.2.2, hi, Nat.one_pos⟩) fun _ =>
    In.bind (In.loadArr fun i hi => ⟨lt_of_lt_of_eq t.1.2 hlen, t.2.2, hi, Nat.one_pos⟩) fun _ =>
      In.forN fun i hi => In.write ⟨lt_of_lt_of_eq t.1.2 hlen, t.2.2, hi, Nat.one_pos⟩) m

/-- ghost face `i` of neighbour `n` is a face of the rank -/
theorem ghost_lt (ht : TablesOK rm) {n i : ℕ} (hn : n < rm.nbrs.length) (hi : i < (rm.nFacesPerNbr[n]?).getD 0) :
    i < ((rm.ghosts[n]?).getD []).length ∧ (ghostRow rm ((rm.ghosts[n]?).getD []) i).1 < rm.rows.length := by
  have h1 : n < rm.ghosts.length := by rw [ht.len]; exact hn
  have h2 := List.getElem?_eq_getElem h1
  rw [ht.cnt n _ h2] at hi
  rw [h2]
  simp only [Option.getD_some] at hi ⊢
  refine ⟨hi, ?_⟩
  rw [ht.rows]
  show searchLocal ((rm.ghosts[n][i]?).getD 0) rm.l2gFace < _
  rw [List.getElem?_eq_getElem hi, Option.getD_some]
  exact ht.local_lt (ht.mem _ (List.mem_flatten.2 ⟨_, List.getElem_mem h1, List.getElem_mem hi⟩))

theorem buf_inside {n i j k : ℕ} (hn : n < rm.nbrs.length) (hi : i < (rm.nFacesPerNbr[n]?).getD 0) (hj : j < d.nqf)
    (hk : k < d.ns) : Inside d rm ⟨.sendBuf n, i, j, k, 0⟩ ∧ Inside d rm ⟨.ghostBuf n, i, j, k, 0⟩ := by
  unfold Inside
  simp only [viewExtents, if_pos hn]
  exact ⟨⟨hi, hj, hk, Nat.one_pos⟩, hi, hj, hk, Nat.one_pos⟩

theorem pack_in (ht : TablesOK rm) (hlen : rm.rows.length = rm.numIFacesPart) {n : ℕ} (hn : n < rm.nbrs.length)
    (rank : ℕ) : (packKernel d rm rank n ((rm.nFacesPerNbr[n]?).getD 0) ((rm.ghosts[n]?).getD [])).StaysIn
      (Inside d rm) m := by
  refine range_in (fun i => ?_) m
  have hg := (ghost_lt ht hn i.2).2
  rw [hlen] at hg
  exact In.ite (fun _ => In.forN fun j hj => In.forN fun k hk =>
      In.copy ⟨hg, hj, hk, Nat.one_pos⟩ (buf_inside hn i.2 hj hk).1) fun _ =>
    In.forN fun j hj => In.forN fun k hk => In.copy ⟨hg, hj, hk, Nat.one_pos⟩ (buf_inside hn i.2 hj hk).1

theorem unpack_in (ht : TablesOK rm) (hlen : rm.rows.length = rm.numIFacesPart) {n : ℕ} (hn : n < rm.nbrs.length)
    (rank : ℕ) : (unpackKernel d rm rank n ((rm.nFacesPerNbr[n]?).getD 0) ((rm.ghosts[n]?).getD [])).StaysIn
      (Inside d rm) m := by
  refine range_in (fun i => ?_) m
  have hg := (ghost_lt ht hn i.2).2
  rw [hlen] at hg
  exact In.ite (fun _ => In.forN fun j hj => In.forN fun k hk =>
      In.copy (buf_inside hn i.2 hj hk).2 ⟨hg, hj, hk, Nat.one_pos⟩) fun _ =>
    In.forN fun j hj => In.forN fun k hk => In.copy (buf_inside hn i.2 hj hk).2 ⟨hg, hj, hk, Nat.one_pos⟩

end kernels
end DG.Dev
