import Verif.Spec.Solver
import Verif.Spec.Mesh
import Verif.Lemmas.SolverRun

/-! The scheme only reads the tables inside their extents. -/
namespace DG
open Finset

variable {K : Type} [Field K] {α : Type}

/-- two discretisations with the same extents, flux functions and table entries -/
structure DiscAgree (norient : ℕ) (d d' : Disc K) : Prop where
  dim : d.dim = d'.dim
  ns : d.ns = d'.ns
  nb : d.nb = d'.nb
  nq : d.nq = d'.nq
  nface : d.nface = d'.nface
  nqf : d.nqf = d'.nqf
  volBasis : ∀ q < d.nq, ∀ b < d.nb, d.volBasis q b = d'.volBasis q b
  volGrad : ∀ q < d.nq, ∀ b < d.nb, ∀ i < d.dim, d.volGrad q b i = d'.volGrad q b i
  volWts : ∀ q < d.nq, d.volWts q = d'.volWts q
  faceBasis : ∀ f < d.nface, ∀ j < d.nqf, ∀ b < d.nb, d.faceBasis f j b = d'.faceBasis f j b
  faceWts : ∀ j < d.nqf, d.faceWts j = d'.faceWts j
  ptsOrder : ∀ o < norient, ∀ i < d.nqf, d.ptsOrder o i = d'.ptsOrder o i
  volFlux : d.volFlux = d'.volFlux
  numFlux : d.numFlux = d'.numFlux

theorem DiscAgree.conforming {norient : ℕ} {d d' : Disc K} (h : DiscAgree norient d d') {m : GMesh α}
    (hc : Conforming d' norient m) : Conforming d norient m where
  faceL := by rw [h.nface]; exact hc.faceL
  faceR := by rw [h.nface]; exact hc.faceR
  sides := hc.sides

theorem DiscAgree.orderOK {norient : ℕ} {d d' : Disc K} (h : DiscAgree norient d d')
    (ho : OrderOK d' norient) : OrderOK d norient := by
  intro o hlt
  obtain ⟨h1, h2⟩ := ho o hlt
  rw [← h.nqf] at h1 h2
  constructor
  · intro i hi
    rw [h.ptsOrder o hlt i hi]; exact h1 i hi
  · intro i hi j hj e
    rw [h.ptsOrder o hlt i hi, h.ptsOrder o hlt j hj] at e
    exact h2 i hi j hj e

theorem DiscAgree.rhs {norient : ℕ} {d d' : Disc K} (h : DiscAgree norient d d') {m : GMesh α}
    (hm : MeshOK m) (hc : Conforming d norient m) (ho : OrderOK d norient) (G : Geom K) (U V : Coeffs K)
    (hU : AgreeIn d m.numElems U V) :
    AgreeIn d m.numElems (globalRHS d m G U) (globalRHS d' m G V) := by
  obtain ⟨e1, e2, e3, e4, e5, e6, hvb, hvg, hvw, hfb, hfw, hpo, hvf, hnf⟩ := h
  have hvs : ∀ e < m.numElems, ∀ q < d.nq, volState d U e q = volState d' V e q := by
    intro e he q hq
    funext s
    unfold volState
    rw [← e2, ← e3]
    split
    · rename_i hs
      exact Finset.sum_congr rfl fun b hb => by
        rw [hvb q hq b (Finset.mem_range.1 hb), hU e he b (Finset.mem_range.1 hb) s hs]
    · rfl
  have hts : ∀ e < m.numElems, ∀ f < d.nface, ∀ j < d.nqf, traceState d U e f j = traceState d' V e f j := by
    intro e he f hf j hj
    funext s
    unfold traceState
    rw [← e2, ← e3]
    split
    · rename_i hs
      exact Finset.sum_congr rfl fun b hb => by
        rw [hfb f hf j hj b (Finset.mem_range.1 hb), hU e he b (Finset.mem_range.1 hb) s hs]
    · rfl
  intro e he b hb s hs
  unfold globalRHS
  rw [← e3]
  refine Finset.sum_congr rfl fun j hj => ?_
  have hj' := Finset.mem_range.1 hj
  congr 1
  unfold globalResidual
  congr 1
  · unfold volumeTerm
    rw [← e4, ← e1, ← e2, ← hvf]
    refine Finset.sum_congr rfl fun q hq => Finset.sum_congr rfl fun i hi => ?_
    have hq' := Finset.mem_range.1 hq
    rw [hvg q hq' j hj' i (Finset.mem_range.1 hi), hvs e he q hq', hvw q hq']
  · congr 1
    refine List.map_congr_left fun x hx => ?_
    have hf : x.1 ∈ m.faces := List.mem_of_getElem? (mem_zipIdx_lt hx)
    obtain ⟨mL, mR⟩ := hm.faces _ hf
    obtain ⟨cL, oL⟩ := hc.faceL _ hf
    obtain ⟨cR, oR⟩ := hc.faceR _ hf
    unfold faceTerm meshFlux
    rw [← e6, ← e1, ← hnf]
    refine Finset.sum_congr rfl fun iq hq => ?_
    have hq' := Finset.mem_range.1 hq
    have a1 := (ho _ oL).1 iq hq'
    have a2 := (ho _ oR).1 iq hq'
    rw [← hpo _ oL iq hq', ← hpo _ oR iq hq', hfb _ cL _ a1 j hj', hfb _ cR _ a2 j hj',
      hts _ mL _ cL _ a1, hts _ mR _ cR _ a2, hfw iq hq']

theorem stepOf_agree {d : Disc K} {ne : ℕ} (st : Stepper) (dt : K) (f f' : Coeffs K → Coeffs K)
    (hf : ∀ U V, AgreeIn d ne U V → AgreeIn d ne (f U) (f' V)) (U V : Coeffs K) (h : AgreeIn d ne U V) :
    AgreeIn d ne (stepOf st dt f U) (stepOf st dt f' V) := by
  cases st with
  | FE =>
    intro e he b hb s hs
    simp only [stepOf, eulerStep]
    rw [h e he b hb s hs, hf U V h e he b hb s hs]
  | RK4 =>
    have add : ∀ (c : K) (k k' : Coeffs K), AgreeIn d ne k k' →
        AgreeIn d ne (fun e b s => U e b s + c * k e b s) (fun e b s => V e b s + c * k' e b s) :=
      fun c k k' hk e he b hb s hs => by
        show U e b s + c * k e b s = V e b s + c * k' e b s
        rw [h e he b hb s hs, hk e he b hb s hs]
    have h1 := hf U V h
    have h2 := hf _ _ (add (dt / 2) _ _ h1)
    have h3 := hf _ _ (add (dt / 2) _ _ h2)
    have h4 := hf _ _ (add dt _ _ h3)
    intro e he b hb s hs
    simp only [stepOf, rk4Step]
    rw [h e he b hb s hs, h1 e he b hb s hs, h2 e he b hb s hs, h3 e he b hb s hs, h4 e he b hb s hs]

theorem DiscAgree.run {norient : ℕ} {d d' : Disc K} (h : DiscAgree norient d d') {m : GMesh α}
    (hm : MeshOK m) (hc : Conforming d norient m) (ho : OrderOK d norient) (G : Geom K) (st : Stepper)
    (dt : K) (U : Coeffs K) (n : ℕ) :
    AgreeIn d m.numElems ((stepOf st dt (globalRHS d m G))^[n] U) ((stepOf st dt (globalRHS d' m G))^[n] U) := by
  induction n with
  | zero => exact fun _ _ _ _ _ _ => rfl
  | succ n ih =>
    rw [Function.iterate_succ_apply', Function.iterate_succ_apply']
    exact stepOf_agree st dt _ _ (fun U V hUV => h.rhs hm hc ho G U V hUV) _ _ ih

end DG
