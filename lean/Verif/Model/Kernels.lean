import Verif.Model.Device
import Verif.Model.Solver

/-!
The kernels of a residual evaluation and of a stage update, as programs for the machine of
`Model/Device.lean`: `Solver::get_residual` (src/solver/base.cpp 401-561), the functors of
`src/solver/flux_functors_impl.h`, `src/solver/tools.cpp` 7-65 and 124-138, `evaluate_state`
(src/solver/helpers.cpp 185-197), the copy loops of `communicate_face_solution`
(src/memory/memory_network.cpp 68-100, 142-173), `Math::fill`, `cApB_to_B`, `cApB_to_C`
(src/math/linear_algebra.cpp 65-90).

Views that kernels write are memory cells; data that no kernel of a time step writes (connectivity,
basis tables, weights, Jacobians, inverse mass matrices, normals, point orders) are constants.
-/
namespace DG.Dev

/-- The views written during a run (base.cpp 415-598, stepper.cpp 57-69; `sendBuf n`, `ghostBuf n` =
`Uq_local_array[n]`, `Uq_ghost_array[n]`; `uqVol` and `vgUq` are local to `get_element_residuals`). -/
inductive View where
  | Uc | uqVol | vgUq | Uq | UqL | UqR | Fq | FqElem | res
  | dU | dU1 | dU2 | dU3 | dU4 | Uhold
  | sendBuf (n : ℕ) | ghostBuf (n : ℕ)
deriving DecidableEq

/-- An entry of a view; views of rank 3 have `l = 0`. (the views of solver/base.h 46-62) -/
structure Cell where
  view : View
  i : ℕ
  j : ℕ
  k : ℕ
  l : ℕ := 0
deriving DecidableEq

variable {K : Type} [Zero K] [One K] [Add K] [Sub K] [Mul K] [Neg K] [Div K] [NatCast K]

/-- `for (i < n) a[i] = view(...)` into a local C array of length `n` (e.g. flux_functors_impl.h 61-66 and 210-215) -/
def loadArr (n : ℕ) (cell : ℕ → Cell) : Code Cell K (ℕ → K) :=
  .foldN (fun _ => 0) n fun a i => do
    let v ← Code.read (cell i)
    pure (Function.update a i v)

/-- `for (i < n) for (j < n') dst(i, j) = src(i, j)` and simpler copies (memory_network.cpp 87-97, 160-170 and solver/base.cpp 299-325) -/
def copyCell (src dst : Cell) : Code Cell K Unit := do
  let v ← Code.read src
  Code.write dst v

/-- A range kernel: one iteration per element of `T`. (`parallel_for` over a range, e.g. solver/base.cpp 299, 342, memory_network.cpp 74, 149) -/
def rangeKernel {T : Type} (body : T → Code Cell K Unit) : Kernel Cell K T Unit :=
  ⟨1, fun t _ _ => body t⟩

/-! ### the kernels -/

/-- `Math::fill` of a view of rank 3, linear_algebra.cpp 65-69 (KokkosBlas::fill: one iteration per
entry). -/
def fillKernel (v : View) (n0 n1 n2 : ℕ) (c : K) : Kernel Cell K (Fin n0 × Fin n1 × Fin n2) Unit :=
  rangeKernel fun t => Code.write ⟨v, t.1, t.2.1, t.2.2, 0⟩ c

/-- one entry of a `TeamGemm`: `C(i, j) += sum_p (alpha * A(i, p)) * B(p, j)` (linear_algebra.cpp 184-241) -/
def gemmEntry (L : ℕ) (α : K) (a : ℕ → K) (b : ℕ → Cell) (c : Cell) : Code Cell K Unit := do
  let acc ← Code.foldN (0 : K) L fun acc p => do
    let v ← Code.read (b p)
    pure (acc + (α * a p) * v)
  let old ← Code.read c
  Code.write c (old + acc)

/-- One `TeamGemm` per element (KokkosBatched, external; see `gemm` in Model/LinAlg.lean):
the team clears the output, waits, and adds the products, one thread per entry (`overwrite`), or only adds
the products (`beta = 1`).  `A` is a constant table, `B` and `C` are views.
(linear_algebra.cpp 184-241, called in solver/tools.cpp 19-140 and solver/helpers.cpp 188-197) -/
def gemmKernel (overwrite : Bool) (ne M N L : ℕ) (α : K) (A : ℕ → ℕ → ℕ → K) (B C : View) :
    Kernel Cell K (Fin ne) (Fin M × Fin N) where
  nph := if overwrite then 2 else 1
  code e p ij :=
    if overwrite ∧ p = 0 then Code.write ⟨C, e, ij.1, ij.2, 0⟩ 0
    else gemmEntry L α (fun p => A e ij.1 p) (fun p => ⟨B, e, p, ij.2, 0⟩) ⟨C, e, ij.1, ij.2, 0⟩

/-- `evaluate_state`, helpers.cpp 185-197, with basis table `B` (nq x nb). -/
def evalKernel (ne nq ns nb : ℕ) (B : ℕ → ℕ → K) (dst : View) : Kernel Cell K (Fin ne) (Fin nq × Fin ns) :=
  gemmKernel true ne nq ns nb 1 (fun _ => B) .Uc dst

/-- `VolumeFluxesFunctor::operator()`, flux_functors_impl.h 46-113. -/
def volumeFluxBody (d : Disc K) (g : Geom K) (ie iq : ℕ) : Code Cell K Unit := do
  let U ← loadArr d.ns fun is => ⟨.uqVol, ie, iq, is, 0⟩
  let gF1 := d.volFlux U
  -- `F` is initialised with 0 and not written by the flux function
  Code.forN d.ns fun is => Code.write ⟨.uqVol, ie, iq, is, 0⟩ 0
  Code.forN d.dim fun id => Code.forN d.ns fun is =>
    Code.write ⟨.vgUq, ie, iq, is, id⟩
      (loopSum d.dim fun id2 => gF1 (id2 * d.ns + is) * g.ijac ie iq id id2 * g.djac ie iq * d.volWts iq)
/-- its launch, base.cpp 456-461 -/
def volumeFluxKernel (d : Disc K) (g : Geom K) (ne : ℕ) : Kernel Cell K (Fin ne × Fin d.nq) Unit :=
  rangeKernel fun t => volumeFluxBody d g t.1 t.2

/-- `calculate_volume_flux_integral`, solver/tools.cpp 7-35: every `+=` is a load and a store. -/
def volumeIntegralBody (d : Disc K) (e : ℕ) : Code Cell K Unit :=
  Code.forN d.nb fun ib => Code.forN d.ns fun is => Code.forN d.nq fun iq => Code.forN d.dim fun id => do
    let F ← Code.read ⟨.vgUq, e, iq, is, id⟩
    let r ← Code.read ⟨.res, e, ib, is, 0⟩
    Code.write ⟨.res, e, ib, is, 0⟩ (r + d.volGrad iq ib id * F)
/-- its launch, solver/tools.cpp 19 -/
def volumeIntegralKernel (d : Disc K) (ne : ℕ) : Kernel Cell K (Fin ne) Unit :=
  rangeKernel fun t => volumeIntegralBody d t

/-- `construct_face_states`, base.cpp 301-326, iteration (iface, iq). -/
def faceStateBody (d : Disc K) (rank : ℕ) (row : FaceRow) (iface iq : ℕ) : Code Cell K Unit := do
  Code.cond (rank = row.rankL) <|
    Code.forN d.ns fun is =>
      copyCell ⟨.Uq, row.elemL, row.faceL * d.nqf + d.ptsOrder row.orientL iq, is, 0⟩ ⟨.UqL, iface, iq, is, 0⟩
  Code.cond (rank = row.rankR) <|
    Code.forN d.ns fun is =>
      copyCell ⟨.Uq, row.elemR, row.faceR * d.nqf + d.ptsOrder row.orientR iq, is, 0⟩ ⟨.UqR, iface, iq, is, 0⟩
/-- its launch, base.cpp 299-302 -/
def faceStateKernel (d : Disc K) (rank : ℕ) (rows : List FaceRow) :
    Kernel Cell K (Fin rows.length × Fin d.nqf) Unit :=
  rangeKernel fun t => faceStateBody d rank rows[t.1] t.1 t.2

/-- memory_network.cpp 77-98, iteration `i` for neighbour number `n`: `row` is the record of local face
`lf`. -/
def packBody (d : Disc K) (rank n : ℕ) (row : FaceRow) (lf i : ℕ) : Code Cell K Unit :=
  if row.rankL = rank then
    Code.forN d.nqf fun j => Code.forN d.ns fun k => copyCell ⟨.UqL, lf, j, k, 0⟩ ⟨.sendBuf n, i, j, k, 0⟩
  else
    Code.forN d.nqf fun j => Code.forN d.ns fun k => copyCell ⟨.UqR, lf, j, k, 0⟩ ⟨.sendBuf n, i, j, k, 0⟩

/-- memory_network.cpp 151-171, iteration `i` for neighbour number `n`. -/
def unpackBody (d : Disc K) (rank n : ℕ) (row : FaceRow) (lf i : ℕ) : Code Cell K Unit :=
  if row.rankL = rank then
    Code.forN d.nqf fun j => Code.forN d.ns fun k => copyCell ⟨.ghostBuf n, i, j, k, 0⟩ ⟨.UqR, lf, j, k, 0⟩
  else
    Code.forN d.nqf fun j => Code.forN d.ns fun k => copyCell ⟨.ghostBuf n, i, j, k, 0⟩ ⟨.UqL, lf, j, k, 0⟩

/-- local face and record of ghost face `i` in the list `gl` (memory_network.cpp 77-82, 152-157); the
record of a face that does not exist is given as zeros -/
def ghostRow {α : Type} (rm : RankMesh α) (gl : List ℕ) (i : ℕ) : ℕ × FaceRow :=
  let lf := searchLocal (gl[i]?.getD 0) rm.l2gFace
  (lf, (rm.rows[lf]?).getD ⟨0, 0, 0, 0, 0, 0, 0, 0⟩)

/-- the packing loop for neighbour number `n` with ghost faces `gl`, memory_network.cpp 74-99;
`cnt` = `h_num_faces_per_rank_boundary(n)` -/
def packKernel {α : Type} (d : Disc K) (rm : RankMesh α) (rank n cnt : ℕ) (gl : List ℕ) :
    Kernel Cell K (Fin cnt) Unit :=
  rangeKernel fun i => packBody d rank n (ghostRow rm gl i).2 (ghostRow rm gl i).1 i

/-- the unpacking loop for neighbour number `n`, memory_network.cpp 149-172 -/
def unpackKernel {α : Type} (d : Disc K) (rm : RankMesh α) (rank n cnt : ℕ) (gl : List ℕ) :
    Kernel Cell K (Fin cnt) Unit :=
  rangeKernel fun i => unpackBody d rank n (ghostRow rm gl i).2 (ghostRow rm gl i).1 i

/-- `InteriorFacesFluxFunctor::operator()`, flux_functors_impl.h 168-260. -/
def faceFluxBody (d : Disc K) (g : Geom K) (iface iq : ℕ) : Code Cell K Unit := do
  let UL ← loadArr d.ns fun is => ⟨.UqL, iface, iq, is, 0⟩
  let UR ← loadArr d.ns fun is => ⟨.UqR, iface, iq, is, 0⟩
  let F := d.numFlux UL UR (cArr d.dim (g.normals iface iq))
  Code.forN d.ns fun is => Code.write ⟨.Fq, iface, iq, is, 0⟩ (F is * d.faceWts iq)
/-- its launch, base.cpp 549-553 -/
def faceFluxKernel (d : Disc K) (g : Geom K) (nf : ℕ) : Kernel Cell K (Fin nf × Fin d.nqf) Unit :=
  rangeKernel fun t => faceFluxBody d g t.1 t.2

/-- `construct_flux_state`, base.cpp 344-373, iteration (iface, iq). -/
def fluxStateBody (d : Disc K) (rank : ℕ) (row : FaceRow) (iface iq : ℕ) : Code Cell K Unit := do
  Code.cond (rank = row.rankL) <|
    Code.forN d.ns fun is => do
      let v ← Code.read ⟨.Fq, iface, iq, is, 0⟩
      Code.write ⟨.FqElem, row.elemL, row.faceL * d.nqf + d.ptsOrder row.orientL iq, is, 0⟩ (-1 * v)
  Code.cond (rank = row.rankR) <|
    Code.forN d.ns fun is =>
      copyCell ⟨.Fq, iface, iq, is, 0⟩ ⟨.FqElem, row.elemR, row.faceR * d.nqf + d.ptsOrder row.orientR iq, is, 0⟩
/-- its launch, base.cpp 342-345 -/
def fluxStateKernel (d : Disc K) (rank : ℕ) (rows : List FaceRow) :
    Kernel Cell K (Fin rows.length × Fin d.nqf) Unit :=
  rangeKernel fun t => fluxStateBody d rank rows[t.1] t.1 t.2

/-- `calculate_face_flux_integral`, solver/tools.cpp 37-65. -/
def faceIntegralKernel (d : Disc K) (ne : ℕ) : Kernel Cell K (Fin ne) (Fin d.nb × Fin d.ns) :=
  gemmKernel false ne d.nb d.ns (d.nface * d.nqf) 1 (fun _ i p => faceBasisFlat d p i) .FqElem .res

/-- `mult_inv_mass_matrix`, solver/tools.cpp 124-138, result in view `dst`. -/
def invMassKernel (d : Disc K) (ne : ℕ) (dt : K) (iMM : ℕ → ℕ → ℕ → K) (dst : View) :
    Kernel Cell K (Fin ne) (Fin d.nb × Fin d.ns) :=
  gemmKernel true ne d.nb d.ns d.nb dt iMM .res dst

/-- `Math::cApB_to_C` (linear_algebra.cpp 83-90) on views of one shape, and `cApB_to_B` (75-81) when
`dst = b`: one iteration per entry. -/
def axpyKernel (n0 n1 n2 : ℕ) (c : K) (a b dst : View) : Kernel Cell K (Fin n0 × Fin n1 × Fin n2) Unit :=
  rangeKernel fun t => do
    let x ← Code.read ⟨a, t.1, t.2.1, t.2.2, 0⟩
    let y ← Code.read ⟨b, t.1, t.2.1, t.2.2, 0⟩
    Code.write ⟨dst, t.1, t.2.1, t.2.2, 0⟩ (c * x + y)

/-- `Kokkos::deep_copy` between views of one shape (stepper.cpp 78, 136) -/
def copyKernel (n0 n1 n2 : ℕ) (src dst : View) : Kernel Cell K (Fin n0 × Fin n1 × Fin n2) Unit :=
  rangeKernel fun t => copyCell ⟨src, t.1, t.2.1, t.2.2, 0⟩ ⟨dst, t.1, t.2.1, t.2.2, 0⟩

/-! ### sequences of kernels

Kernels are launched one after the other on one execution space instance, which runs them in order. -/

/-- What a launch of a kernel may do to the memory (`Kernel.Ends`: there is an execution; or
`Kernel.Computes` of Spec/Device.lean: all executions). (the launches of solver/base.cpp 401-561 and stepper.cpp 17-142) -/
abbrev Launch (K : Type) := ∀ {T J : Type} [DecidableEq T] [DecidableEq J],
  Kernel Cell K T J → (Cell → K) → (Cell → K) → Prop

/-- one after the other (consecutive statements of solver/base.cpp 401-561 and stepper.cpp 17-142) -/
def Then (R S : (Cell → K) → (Cell → K) → Prop) : (Cell → K) → (Cell → K) → Prop :=
  fun m m' => ∃ x, R m x ∧ S x m'

/-- `get_residual` up to the exchange: base.cpp 405-406, 436-467, 504-509. -/
def beforeExchange (run : Launch K) (d : Disc K) (g : Geom K) (rank ne : ℕ) (rows : List FaceRow) :
    (Cell → K) → (Cell → K) → Prop :=
  Then (run (fillKernel .res ne d.nb d.ns 0)) <|
  Then (run (evalKernel ne d.nq d.ns d.nb d.volBasis .uqVol)) <|
  Then (run (volumeFluxKernel d g ne)) <|
  Then (run (volumeIntegralKernel d ne)) <|
  Then (run (evalKernel ne (d.nface * d.nqf) d.ns d.nb (faceBasisFlat d) .Uq)) <|
  run (faceStateKernel d rank rows)

/-- the packing loops of the first `n` neighbours, memory_network.cpp 68-100 -/
def packAll {α : Type} (run : Launch K) (d : Disc K) (rm : RankMesh α) (rank : ℕ) :
    ℕ → (Cell → K) → (Cell → K) → Prop
  | 0 => Eq
  | n + 1 => Then (packAll run d rm rank n)
      (run (packKernel d rm rank n ((rm.nFacesPerNbr[n]?).getD 0) ((rm.ghosts[n]?).getD [])))

/-- the unpacking loops of the first `n` neighbours, memory_network.cpp 142-174 -/
def unpackAll {α : Type} (run : Launch K) (d : Disc K) (rm : RankMesh α) (rank : ℕ) :
    ℕ → (Cell → K) → (Cell → K) → Prop
  | 0 => Eq
  | n + 1 => Then (unpackAll run d rm rank n)
      (run (unpackKernel d rm rank n ((rm.nFacesPerNbr[n]?).getD 0) ((rm.ghosts[n]?).getD [])))

/-- `get_residual` after the exchange: base.cpp 544-560. -/
def afterExchange (run : Launch K) (d : Disc K) (g : Geom K) (rank ne : ℕ) (rows : List FaceRow) :
    (Cell → K) → (Cell → K) → Prop :=
  Then (run (faceFluxKernel d g rows.length)) <|
  Then (run (fluxStateKernel d rank rows)) <|
  run (faceIntegralKernel d ne)

/-- `take_time_step` from the return of a `get_residual` to the next one (of the next time step, after
the last stage); FE: stepper.cpp 29-52, RK4: 84-98, 100-113, 114-125, 127-136 and 78. -/
def stageUpdate (run : Launch K) (d : Disc K) (ne : ℕ) (dt : K) (iMM : ℕ → ℕ → ℕ → K) (st : Stepper)
    (stage : ℕ) : (Cell → K) → (Cell → K) → Prop :=
  match st with
  | .FE =>
    Then (run (invMassKernel d ne dt iMM .dU)) <|
    run (axpyKernel ne d.nb d.ns 1 .dU .Uc .Uc)
  | .RK4 =>
    match stage with
    | 0 =>
      Then (run (invMassKernel d ne dt iMM .dU1)) <|
      run (axpyKernel ne d.nb d.ns (1 / 2) .dU1 .Uhold .Uc)
    | 1 =>
      Then (run (invMassKernel d ne dt iMM .dU2)) <|
      run (axpyKernel ne d.nb d.ns (1 / 2) .dU2 .Uhold .Uc)
    | 2 =>
      Then (run (invMassKernel d ne dt iMM .dU3)) <|
      run (axpyKernel ne d.nb d.ns 1 .dU3 .Uhold .Uc)
    | _ =>
      Then (run (invMassKernel d ne dt iMM .dU4)) <|
      Then (run (axpyKernel ne d.nb d.ns 2 .dU3 .dU4 .dU4)) <|
      Then (run (axpyKernel ne d.nb d.ns 2 .dU2 .dU4 .dU4)) <|
      Then (run (axpyKernel ne d.nb d.ns 1 .dU1 .dU4 .dU4)) <|
      Then (run (axpyKernel ne d.nb d.ns (1 / 6) .dU4 .Uhold .Uhold)) <|
      Then (run (copyKernel ne d.nb d.ns .Uhold .Uc)) <|
      run (copyKernel ne d.nb d.ns .Uc .Uhold)

end DG.Dev
