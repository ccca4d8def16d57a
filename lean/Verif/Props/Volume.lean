import Verif.Model.Setup
import Verif.Props.Mesh
import Verif.Props.Mass
import Verif.Props.Normals

/-! C56: volumes.  C58: element Jacobians.  C49: error norms. -/
namespace DG
open Finset

/-! ### sums over the ranks -/

theorem loopSum_list {K : Type} [Field K] (l : List ℕ) (f : ℕ → K) :
    loopSum l.length (fun k => f ((l[k]?).getD 0)) = (l.map f).sum := by
  rw [loopSum_eq, Finset.sum_range]
  rw [← List.sum_ofFn]
  congr 1
  refine List.ext_getElem (by simp) fun i h1 h2 => ?_
  have hi : i < l.length := by simpa using h2
  simp [List.getElem?_eq_getElem hi]

theorem sum_filter_ite {K : Type} [Field K] (l : List ℕ) (p : ℕ → Bool) (f : ℕ → K) :
    ((l.filter p).map f).sum = (l.map fun e => if p e then f e else 0).sum := by
  induction l with
  | nil => rfl
  | cons a l ih => by_cases h : p a <;> simp [h, ih]

/-- summing a quantity of the elements over the elements of every rank is summing it over the mesh -/
theorem rank_sum {α K : Type} [Field K] (m : GMesh α) (nranks : ℕ) (part : List ℕ) (enum : ℕ → List ℕ → List ℕ)
    (hm : MeshOK m) (hp : PartOK m nranks part) (he : ∀ r, EnumOK (enum r)) (rms : ℕ → RankMesh α)
    (h : ∀ r < nranks, partition m nranks nranks part (enum r) r = some (rms r)) (f : ℕ → K) :
    allreduceSum nranks (fun r => loopSum (rms r).numElemsPart fun k => f (((rms r).l2gElem[k]?).getD 0))
      = ∑ e ∈ range m.numElems, f e := by
  rw [allreduceSum, loopSum_eq]
  have e1 : ∀ r ∈ range nranks, (loopSum (rms r).numElemsPart fun k => f (((rms r).l2gElem[k]?).getD 0))
      = ∑ e ∈ range m.numElems, if part[e]? = some r then f e else 0 := by
    intro r hr
    have res := result_of hm hp (he _) (Finset.mem_range.1 hr) (h r (Finset.mem_range.1 hr))
    rw [res.numElemsPart, res.l2gElem, loopSum_list]
    unfold ownedElems
    rw [sum_filter_ite, sum_map_range]
    refine Finset.sum_congr rfl fun e _ => by simp
  rw [Finset.sum_congr rfl e1, Finset.sum_comm]
  refine Finset.sum_congr rfl fun e he' => ?_
  have hl : e < part.length := by rw [hp.len]; exact Finset.mem_range.1 he'
  rw [List.getElem?_eq_getElem hl]
  have hlt := hp.lt _ (List.getElem_mem hl)
  simp [hlt]

/-! ### C56 -/

section
variable {K : Type} [Zero K] [One K] [Add K] [Sub K] [Mul K] [Neg K] [Div K] [NatCast K]

/-- Specification: coordinate `d` of node `i` of element `e` of the mesh file. -/
def fileCoords (m : GMesh K) (e : ℕ) : ℕ → ℕ → K := fun i d =>
  get0 ((m.coord[(m.eind[e * m.npe + i]?).getD 0]?).getD []) d

/-- **C56** (coordinates).  The coordinates a rank uses for its local element `k` are those the mesh file
gives for the nodes of that element. -/
theorem C56_element_coordinates (m : GMesh K) (nranks : ℕ) (part : List ℕ) (enum : List ℕ → List ℕ)
    (hm : MeshOK m) (hp : PartOK m nranks part) (he : EnumOK enum) (r : ℕ) (hr : r < nranks)
    (rm : RankMesh K) (h : partition m nranks nranks part enum r = some rm)
    (k e : ℕ) (hk : rm.l2gElem[k]? = some e) (i : ℕ) (hi : i < m.npe) (d : ℕ) :
    elemCoords rm k i d = fileCoords m e i d := by
  obtain ⟨row, ln, g, a1, -, a3, a4, -, a6, -⟩ := C03_connectivity m nranks part enum hm hp he r hr rm h k e hk i hi
  unfold elemCoords fileCoords
  rw [a1, Option.getD_some, a3, Option.getD_some, a4, Option.getD_some, a6]

end

section
variable {K : Type} [Field K] [LinearOrder K] [IsStrictOrderedRing K]

/-- Specification: the quadrature of the determinant of `∂x_d/∂ξ_c = Σ_n x_n^d ∂φ_n/∂ξ_c`. -/
noncomputable def volumeOf (dim nn nq : ℕ) (grads : ℕ → ℕ → ℕ → K) (w : ℕ → K) (coords : ℕ → ℕ → K) : K :=
  ∑ q ∈ range nq, w q *
    (Matrix.of fun d c : Fin dim => ∑ n ∈ range nn, coords n d * grads q n c).det

theorem elemDjac_eq (dim nn : ℕ) (h1 : 1 ≤ dim) (h3 : dim ≤ 3) (grads : ℕ → ℕ → ℕ → K) (coords : ℕ → ℕ → K)
    (jac0 : ℕ → ℕ → ℕ → K) (djac0 : ℕ → K) (q : ℕ) :
    elemDjac dim nn grads coords jac0 djac0 q
      = (Matrix.of fun d c : Fin dim => ∑ n ∈ range nn, coords n d * grads q n c).det := by
  unfold elemDjac elementJacobian
  simp only
  rw [((C27_det dim _ _).1 ⟨h1, h3⟩)]
  congr 1
  ext d c
  simp only [toM, Matrix.of_apply]
  rw [cATxB_entry _ _ _ _ _ _ _ _ d.2 c.2]

/-- **C56** (element volume).  In one to three dimensions the volume of an element is the quadrature of the
Jacobian determinant, whatever the Jacobian views held. -/
theorem C56_element_volume (dim nn nq : ℕ) (h1 : 1 ≤ dim) (h3 : dim ≤ 3) (grads : ℕ → ℕ → ℕ → K) (w : ℕ → K)
    (coords : ℕ → ℕ → K) (jac0 : ℕ → ℕ → ℕ → K) (djac0 : ℕ → K) :
    elementVolume nq w (elemDjac dim nn grads coords jac0 djac0) = volumeOf dim nn nq grads w coords := by
  unfold elementVolume volumeOf
  rw [loopSum_eq]
  exact Finset.sum_congr rfl fun q _ => by rw [elemDjac_eq dim nn h1 h3]

/-- **C56** (mesh volume).  The volume every rank obtains from the reduction is the sum over all elements
of the mesh file: it does not depend on the number of ranks, the partition or the hash order. -/
theorem C56_mesh_volume (dim nq : ℕ) (h1 : 1 ≤ dim) (h3 : dim ≤ 3) (m : GMesh K) (nranks : ℕ) (part : List ℕ)
    (enum : ℕ → List ℕ → List ℕ) (hm : MeshOK m) (hp : PartOK m nranks part) (he : ∀ r, EnumOK (enum r))
    (rms : ℕ → RankMesh K) (h : ∀ r < nranks, partition m nranks nranks part (enum r) r = some (rms r))
    (grads : ℕ → ℕ → ℕ → K) (w : ℕ → K) (jac0 : ℕ → ℕ → ℕ → ℕ → K) (djac0 : ℕ → ℕ → K) :
    allreduceSum nranks (fun r => rankVolume dim m.npe nq grads w (rms r) (jac0 r) (djac0 r))
      = ∑ e ∈ range m.numElems, volumeOf dim m.npe nq grads w (fileCoords m e) := by
  rw [← rank_sum m nranks part enum hm hp he rms h (fun e => volumeOf dim m.npe nq grads w (fileCoords m e))]
  unfold allreduceSum
  rw [loopSum_eq, loopSum_eq]
  refine Finset.sum_congr rfl fun r hr => ?_
  have hr' := Finset.mem_range.1 hr
  unfold rankVolume localVolume
  rw [loopSum_eq, loopSum_eq]
  refine Finset.sum_congr rfl fun k hk => ?_
  rw [C56_element_volume dim _ nq h1 h3]
  have hlen := (C01_rank_elements m nranks part (enum r) hm hp (he r) r hr' (rms r) (h r hr')).2.1
  have hk' : k < (rms r).l2gElem.length := by rw [← hlen]; exact Finset.mem_range.1 hk
  have hk2 := List.getElem?_eq_getElem hk'
  have hco := C56_element_coordinates m nranks part (enum r) hm hp (he r) r hr' (rms r) (h r hr') k _ hk2
  rw [hk2, Option.getD_some]
  unfold volumeOf
  refine Finset.sum_congr rfl fun q _ => ?_
  congr 3
  ext d c
  exact Finset.sum_congr rfl fun n hn => by rw [hco n (Finset.mem_range.1 hn)]

/-! ### C58 -/

/-- **C58** (inverse and determinant).  In one to three dimensions: entry `(d,c)` of the Jacobian is
`Σ_n x_n^d ∂φ_n/∂ξ_c`, `djac` is its determinant and, when it is not zero, `ijac` is its two-sided inverse,
whatever the three views held. -/
theorem C58_jacobian_inverse (dim nn : ℕ) (h1 : 1 ≤ dim) (h3 : dim ≤ 3) (coords grad jac0 ijac0 : ℕ → ℕ → K)
    (djac0 : K) :
    (∀ d < dim, ∀ c < dim, (elementJacobian dim nn coords grad jac0 djac0 ijac0).1 d c
      = ∑ n ∈ range nn, coords n d * grad n c) ∧
    (elementJacobian dim nn coords grad jac0 djac0 ijac0).2.1
      = (toM dim dim (elementJacobian dim nn coords grad jac0 djac0 ijac0).1).det ∧
    ((elementJacobian dim nn coords grad jac0 djac0 ijac0).2.1 ≠ 0 →
      toM dim dim (elementJacobian dim nn coords grad jac0 djac0 ijac0).1 *
        toM dim dim (elementJacobian dim nn coords grad jac0 djac0 ijac0).2.2 = 1 ∧
      toM dim dim (elementJacobian dim nn coords grad jac0 djac0 ijac0).2.2 *
        toM dim dim (elementJacobian dim nn coords grad jac0 djac0 ijac0).1 = 1) := by
  have hdet := (C27_det dim (elementJacobian dim nn coords grad jac0 djac0 ijac0).1 djac0).1 ⟨h1, h3⟩
  refine ⟨fun d hd c hc => cATxB_entry _ _ _ _ _ _ _ _ hd hc, hdet, fun hne => ?_⟩
  exact C27_inverse_small dim h1 h3 _ ijac0 (by rw [← hdet]; exact hne)

end

/-- **C58** (quadrilateral).  The Jacobian stored at a point is the derivative of the map from the
reference square to the physical element at that point, for every geometric order, node positions and
point. -/
theorem C58_quad_jacobian_is_derivative (g : ℕ) (hg : 0 < g) (elem : ℕ → ℕ → ℝ) (x y : ℝ)
    (jac0 ijac0 : ℕ → ℕ → ℝ) (djac0 : ℝ) :
    ∃ gr, gradsLagrangeQuad g x y (List.replicate (numBasisQuad g) (0, 0)) = some gr ∧
      ∀ d < 2,
        HasDerivAt (fun s => physQuad g elem (s, y) d)
          ((elementJacobian 2 (numBasisQuad g) elem (grad2 gr) jac0 djac0 ijac0).1 d 0) x ∧
        HasDerivAt (fun t => physQuad g elem (x, t) d)
          ((elementJacobian 2 (numBasisQuad g) elem (grad2 gr) jac0 djac0 ijac0).1 d 1) y := by
  obtain ⟨phi, gr, h1, h2, h3⟩ := C22_quad_gradients g x y (List.replicate (numBasisQuad g) 0)
    (by simp [numBasisQuad]) (List.replicate (numBasisQuad g) (0, 0)) (by simp [numBasisQuad]) (by omega)
  refine ⟨gr, h2, fun d hd => ?_⟩
  have hp : ∀ s t, physQuad g elem (s, t) d = ∑ m ∈ range (numBasisQuad g), get0 (phi s t) m * elem m d := by
    intro s t
    unfold physQuad
    rw [refToPhys_eq _ _ _ _ _ hd, h1]; rfl
  obtain ⟨j0, -⟩ := C58_jacobian_inverse 2 (numBasisQuad g) (by omega) (by omega) elem (grad2 gr) jac0 ijac0 djac0
  constructor
  · rw [j0 d hd 0 (by omega)]
    simp only [hp]
    refine HasDerivAt.fun_sum fun m hm => ?_
    obtain ⟨gx, gy, e1, e2, e3⟩ := h3 m (Finset.mem_range.1 hm)
    have e : elem m d * grad2 gr m 0 = gx * elem m d := by simp [grad2, e1, mul_comm]
    rw [e]; exact e2.mul_const _
  · rw [j0 d hd 1 (by omega)]
    simp only [hp]
    refine HasDerivAt.fun_sum fun m hm => ?_
    obtain ⟨gx, gy, e1, e2, e3⟩ := h3 m (Finset.mem_range.1 hm)
    have e : elem m d * grad2 gr m 1 = gy * elem m d := by simp [grad2, e1, mul_comm]
    rw [e]; exact e3.mul_const _

/-- **C58** (hexahedron). -/
theorem C58_hex_jacobian_is_derivative (g : ℕ) (hg : 0 < g) (elem : ℕ → ℕ → ℝ) (x y z : ℝ)
    (jac0 ijac0 : ℕ → ℕ → ℝ) (djac0 : ℝ) :
    ∃ gr, gradsLagrangeHex g x y z (List.replicate (numBasisHex g) (0, 0, 0)) = some gr ∧
      ∀ d < 3,
        HasDerivAt (fun s => physHex g elem (s, y, z) d)
          ((elementJacobian 3 (numBasisHex g) elem (grad3 gr) jac0 djac0 ijac0).1 d 0) x ∧
        HasDerivAt (fun t => physHex g elem (x, t, z) d)
          ((elementJacobian 3 (numBasisHex g) elem (grad3 gr) jac0 djac0 ijac0).1 d 1) y ∧
        HasDerivAt (fun u => physHex g elem (x, y, u) d)
          ((elementJacobian 3 (numBasisHex g) elem (grad3 gr) jac0 djac0 ijac0).1 d 2) z := by
  obtain ⟨phi, gr, h1, h2, h3⟩ := C22_hex_gradients g x y z (List.replicate (numBasisHex g) 0)
    (by simp [numBasisHex]) (List.replicate (numBasisHex g) (0, 0, 0)) (by simp [numBasisHex]) (by omega)
  refine ⟨gr, h2, fun d hd => ?_⟩
  have hp : ∀ s t u, physHex g elem (s, t, u) d
      = ∑ m ∈ range (numBasisHex g), get0 (phi s t u) m * elem m d := by
    intro s t u
    unfold physHex
    rw [refToPhys_eq _ _ _ _ _ hd, h1]; rfl
  obtain ⟨j0, -⟩ := C58_jacobian_inverse 3 (numBasisHex g) (by omega) (by omega) elem (grad3 gr) jac0 ijac0 djac0
  refine ⟨?_, ?_, ?_⟩
  · rw [j0 d hd 0 (by omega)]
    simp only [hp]
    refine HasDerivAt.fun_sum fun m hm => ?_
    obtain ⟨gx, gy, gz, e1, e2, e3, e4⟩ := h3 m (Finset.mem_range.1 hm)
    have e : elem m d * grad3 gr m 0 = gx * elem m d := by simp [grad3, e1, mul_comm]
    rw [e]; exact e2.mul_const _
  · rw [j0 d hd 1 (by omega)]
    simp only [hp]
    refine HasDerivAt.fun_sum fun m hm => ?_
    obtain ⟨gx, gy, gz, e1, e2, e3, e4⟩ := h3 m (Finset.mem_range.1 hm)
    have e : elem m d * grad3 gr m 1 = gy * elem m d := by simp [grad3, e1, mul_comm]
    rw [e]; exact e3.mul_const _
  · rw [j0 d hd 2 (by omega)]
    simp only [hp]
    refine HasDerivAt.fun_sum fun m hm => ?_
    obtain ⟨gx, gy, gz, e1, e2, e3, e4⟩ := h3 m (Finset.mem_range.1 hm)
    have e : elem m d * grad3 gr m 2 = gz * elem m d := by simp [grad3, e1, mul_comm]
    rw [e]; exact e4.mul_const _

/-! ### C49 -/

/-- **C49** (even orders).  Let `D e s q` be the difference to the exact solution on element `e`, with
weights `w` and Jacobians `dj e` and total volume `V > 0`.  For every even order, the reported number is
`(Σ_e Σ_q |D|^ord w dj / V)^(1/ord)`: it does not depend on the partition, is non-negative, and vanishes
exactly when the difference vanishes at every quadrature point.  For odd orders and the un-normalised
variant see `C49_every_order`. -/
theorem C49_even_order {α : Type} (m : GMesh α) (nranks : ℕ) (part : List ℕ) (enum : ℕ → List ℕ → List ℕ)
    (hm : MeshOK m) (hp : PartOK m nranks part) (he : ∀ r, EnumOK (enum r)) (rms : ℕ → RankMesh α)
    (h : ∀ r < nranks, partition m nranks nranks part (enum r) r = some (rms r))
    (ord : ℕ) (heven : Even ord) (hord : 0 < ord) (nq : ℕ) (w : ℕ → ℝ) (hw : ∀ q < nq, 0 < w q)
    (dj : ℕ → ℕ → ℝ) (hdj : ∀ e < m.numElems, ∀ q < nq, 0 < dj e q) (u uex : ℕ → ℕ → ℝ)
    (vol : ℕ → ℝ) (hV : 0 < ∑ e ∈ range m.numElems, vol e) :
    let gl := fun r k => ((rms r).l2gElem[k]?).getD 0
    let res := errorNorm nranks ord (fun r => (rms r).numElemsPart)
      (fun r k => elemError nq ord w (dj (gl r k)) (u (gl r k)) (uex (gl r k)))
      (fun r => totVolPart true (localVolume (rms r).numElemsPart fun k => vol (gl r k)))
    res = ((∑ e ∈ range m.numElems, ∑ q ∈ range nq, |u e q - uex e q| ^ ord * (w q * dj e q))
            / ∑ e ∈ range m.numElems, vol e) ^ ((1 : ℝ) / ord) ∧
    0 ≤ res ∧ (res = 0 ↔ ∀ e < m.numElems, ∀ q < nq, u e q = uex e q) := by
  intro gl res
  have hres : res = ((∑ e ∈ range m.numElems, ∑ q ∈ range nq, |u e q - uex e q| ^ ord * (w q * dj e q))
            / ∑ e ∈ range m.numElems, vol e) ^ ((1 : ℝ) / ord) := by
    simp only [res, errorNorm, totVolPart, if_true, localVolume, gl]
    rw [rank_sum m nranks part enum hm hp he rms h (fun e => elemError nq ord w (dj e) (u e) (uex e)),
      rank_sum m nranks part enum hm hp he rms h vol]
    congr 2
    refine Finset.sum_congr rfl fun e _ => ?_
    rw [elemError, loopSum_eq]
    exact Finset.sum_congr rfl fun q _ => by rw [heven.pow_abs]; ring
  have hnn : ∀ e ∈ range m.numElems, 0 ≤ ∑ q ∈ range nq, |u e q - uex e q| ^ ord * (w q * dj e q) := by
    intro e he'
    refine Finset.sum_nonneg fun q hq => mul_nonneg (by positivity) ?_
    exact (mul_pos (hw q (Finset.mem_range.1 hq)) (hdj e (Finset.mem_range.1 he') q (Finset.mem_range.1 hq))).le
  have hS : 0 ≤ ∑ e ∈ range m.numElems, ∑ q ∈ range nq, |u e q - uex e q| ^ ord * (w q * dj e q) :=
    Finset.sum_nonneg hnn
  refine ⟨hres, ?_, ?_⟩
  · rw [hres]; exact Real.rpow_nonneg (div_nonneg hS hV.le) _
  · rw [hres, Real.rpow_eq_zero (div_nonneg hS hV.le) (by positivity), div_eq_zero_iff]
    constructor
    · intro h0
      have h0 := h0.resolve_right hV.ne'
      rw [Finset.sum_eq_zero_iff_of_nonneg hnn] at h0
      intro e he' q hq
      have h1 := h0 e (Finset.mem_range.2 he')
      rw [Finset.sum_eq_zero_iff_of_nonneg] at h1
      · have h2 := h1 q (Finset.mem_range.2 hq)
        have hp := (mul_pos (hw q hq) (hdj e he' q hq)).ne'
        have := pow_eq_zero_iff (by omega) |>.1 ((mul_eq_zero.1 h2).resolve_right hp)
        exact sub_eq_zero.1 (abs_eq_zero.1 this)
      · intro q hq
        exact mul_nonneg (by positivity) (mul_pos (hw q (Finset.mem_range.1 hq)) (hdj e he' q (Finset.mem_range.1 hq))).le
    · intro h0
      left
      refine Finset.sum_eq_zero fun e he' => Finset.sum_eq_zero fun q hq => ?_
      rw [h0 e (Finset.mem_range.1 he') q (Finset.mem_range.1 hq), sub_self, abs_zero, zero_pow (by omega), zero_mul]

/-- **C49** (negation, un-normalised).  Without normalisation every rank contributes 1 to the divisor: the
reported number is the `ord`-th root of the integral divided by the number of ranks. -/
theorem C49_unnormalised_depends_on_ranks (nranks ord : ℕ) (ne : ℕ → ℕ) (err : ℕ → ℕ → ℝ) (vol : ℕ → ℝ) :
    errorNorm nranks ord ne err (fun r => totVolPart false (vol r))
      = (allreduceSum nranks (fun r => loopSum (ne r) (err r)) / nranks) ^ ((1 : ℝ) / ord) := by
  unfold errorNorm
  congr 2
  simp [allreduceSum, totVolPart, loopSum_eq]

/-- **C49** (every order, both variants).  What the program reports for any order: the `ord`-th root of the
*signed* sum `Σ_e Σ_q (u - u_exact)^ord w dj`, divided by the total volume, or, un-normalised, by the
number of ranks; hence the un-normalised number depends on the number of ranks, and the normalised one
not on the partition. -/
theorem C49_every_order {α : Type} (m : GMesh α) (nranks : ℕ) (part : List ℕ) (enum : ℕ → List ℕ → List ℕ)
    (hm : MeshOK m) (hp : PartOK m nranks part) (he : ∀ r, EnumOK (enum r)) (rms : ℕ → RankMesh α)
    (h : ∀ r < nranks, partition m nranks nranks part (enum r) r = some (rms r))
    (ord : ℕ) (nq : ℕ) (w : ℕ → ℝ) (dj : ℕ → ℕ → ℝ) (u uex : ℕ → ℕ → ℝ) (vol : ℕ → ℝ) (norm : Bool) :
    let gl := fun r k => ((rms r).l2gElem[k]?).getD 0
    errorNorm nranks ord (fun r => (rms r).numElemsPart)
      (fun r k => elemError nq ord w (dj (gl r k)) (u (gl r k)) (uex (gl r k)))
      (fun r => totVolPart norm (localVolume (rms r).numElemsPart fun k => vol (gl r k)))
    = ((∑ e ∈ range m.numElems, ∑ q ∈ range nq, (u e q - uex e q) ^ ord * (w q * dj e q))
            / if norm then ∑ e ∈ range m.numElems, vol e else nranks) ^ ((1 : ℝ) / ord) := by
  intro gl
  have e1 : ∀ d : ℝ, (allreduceSum nranks fun r => loopSum (rms r).numElemsPart fun k =>
        elemError nq ord w (dj (gl r k)) (u (gl r k)) (uex (gl r k))) / d
      = (∑ e ∈ range m.numElems, ∑ q ∈ range nq, (u e q - uex e q) ^ ord * (w q * dj e q)) / d := by
    intro d
    rw [rank_sum m nranks part enum hm hp he rms h (fun e => elemError nq ord w (dj e) (u e) (uex e))]
    congr 1
    refine Finset.sum_congr rfl fun e _ => ?_
    rw [elemError, loopSum_eq]
    exact Finset.sum_congr rfl fun q _ => by ring
  cases norm
  · rw [C49_unnormalised_depends_on_ranks, e1]; simp
  · simp only [errorNorm, totVolPart, if_true, localVolume]
    rw [e1, rank_sum m nranks part enum hm hp he rms h vol]

/-- **C49** (negation, odd orders).  For every odd order there is one element, with positive weights and
Jacobians, where the solution differs from the exact one at every point and the reported error is 0. -/
theorem C49_odd_order_cancels (ord : ℕ) (hodd : Odd ord) :
    ∃ (nq : ℕ) (w djac uq uex : ℕ → ℝ), 0 < nq ∧ (∀ q, 0 < w q) ∧ (∀ q, 0 < djac q) ∧ (∀ q < nq, uq q ≠ uex q) ∧
      errorNorm 1 ord (fun _ => 1) (fun _ _ => elemError nq ord w djac uq uex) (fun _ => 1) = 0 := by
  refine ⟨2, fun _ => 1, fun _ => 1, fun q => if q = 0 then 1 else -1, fun _ => 0, by omega, fun _ => one_pos,
    fun _ => one_pos, ?_, ?_⟩
  · intro q _; by_cases h : q = 0 <;> simp [h]
  · have ho : ord ≠ 0 := by rintro rfl; simp at hodd
    unfold errorNorm allreduceSum elemError
    simp only [loopSum_eq, Finset.sum_range_succ, Finset.sum_range_zero]
    simp [hodd.neg_one_pow, ho]

/-! Non-vacuity: a mesh over ℝ with two ranks, and a curved element map. -/
example : MeshOK ({ exMesh with coord := exMesh.coord.map (·.map fun n : ℕ => (n : ℝ)) } : GMesh ℝ) where
  eindLen := exMesh_ok.eindLen
  nodes := by intro g hg; have := exMesh_ok.nodes g hg; simpa using this
  faces := exMesh_ok.faces
  elemsFit := exMesh_ok.elemsFit
  nodesFit := by have := exMesh_ok.nodesFit; simpa using this
  facesFit := exMesh_ok.facesFit

end DG
