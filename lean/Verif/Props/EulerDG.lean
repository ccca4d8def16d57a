import Verif.Spec.EulerDG
import Verif.Props.FreeStreamQuad
import Verif.Props.Vortex
import Verif.Props.SetupHex

/-!
Property C64: with Euler physics the whole program is the textbook scheme with the textbook fluxes and
initial states, as long as the textbook run stays physically admissible.
-/
namespace DG
open Finset

/-! ### fluxes -/

theorem solverVolFlux_eq (dim : ℕ) (hd : dim = 2 ∨ dim = 3) (ph : Physics) (hE : ph.ptype = .Euler)
    (junk : (ℕ → ℝ) → ℕ → ℝ) (U : ℕ → ℝ) (hU : U 0 ≠ 0) (k : ℕ) (hk : k < dim * (dim + 2)) :
    solverVolFlux dim ph junk U k = eulerDirFlux dim ph.γ U k := by
  obtain ⟨Fq, h1, h2⟩ := C33_flux dim hd ph.γ U (junk U) hU
  have : solverVolFlux dim ph junk U = Fq := by
    unfold solverVolFlux getConvFluxInterior; rw [hE]; simp [h1]
  rw [this]
  have hs : k % (dim + 2) < dim + 2 := Nat.mod_lt _ (by omega)
  have hj : k / (dim + 2) < dim := (Nat.div_lt_iff_lt_mul (by omega)).2 hk
  unfold eulerDirFlux
  rw [← h2 _ _ hs, Finset.sum_eq_single (k / (dim + 2))]
  · have : k % (dim + 2) + k / (dim + 2) * (dim + 2) = k := by rw [mul_comm]; exact Nat.mod_add_div _ _
    simp [axis, this]
  · intro j _ hne; simp [axis, hne]
  · intro h; exact absurd (Finset.mem_range.2 hj) h

theorem solverNumFlux_eq (dim : ℕ) (hd : dim = 2 ∨ dim = 3) (ph : Physics) (hE : ph.ptype = .Euler) (hγ : 1 < ph.γ)
    (junk : (ℕ → ℝ) → (ℕ → ℝ) → (ℕ → ℝ) → (ℕ → ℝ) × (ℕ → ℝ)) (UL UR N : ℕ → ℝ)
    (hL : Admissible dim ph.γ UL) (hR : Admissible dim ph.γ UR) (hN : inner' dim N N ≠ 0) (s : ℕ) (hs : s < dim + 2) :
    solverNumFlux dim ph junk UL UR N s = eulerNumFlux ph.ftype dim ph.γ UL UR N s := by
  obtain ⟨c1, c2, -⟩ := C35_flux dim hd ph hE UL UR N (junk UL UR N).1 (junk UL UR N).2
  unfold solverNumFlux eulerNumFlux
  cases hf : ph.ftype with
  | LaxFriedrichs =>
    rw [c1 hf]
    obtain ⟨F, hF⟩ := C31_defined dim hd ph.γ hγ UL UR N (junk UL UR N).1 (junk UL UR N).2 hL hR hN
    obtain ⟨-, -, -, -, aL, aR, eL, eR, h⟩ := laxFriedrichs_spec hF
    have hp := hL.p_pos
    have hp' := hR.p_pos
    rw [eulerMaxWaveSpeed_eq dim ph.γ UL hL.ρ_pos (by positivity)] at eL
    rw [eulerMaxWaveSpeed_eq dim ph.γ UR hR.ρ_pos (by positivity)] at eR
    obtain rfl := Option.some_inj.mp eL
    obtain rfl := Option.some_inj.mp eR
    rw [hF, Option.getD_some, h s hs]
    show _ = rusanovFlux dim ph.γ UL UR N s
    unfold rusanovFlux maxSpeed; ring
  | HLLC =>
    rw [c2 hf]
    obtain ⟨F, hF, h⟩ := hllc_spec dim ph.γ hγ UL UR N (junk UL UR N).2 hL hR hN
    rw [hF, Option.getD_some, h s hs]

/-! ### initial states -/

/-- the temperature in the vortex of the three-dimensional program is positive -/
theorem vortex3_temp {γ : ℝ} (hγ : 1 < γ) (h : 25 * (γ - 1) * Real.exp 1 < 16 * Real.pi ^ 2) (X Z : ℝ) :
    0 < 1 - (γ - 1) / 2 * (5 * Real.sqrt 2 / (4 * Real.pi) * Real.exp ((1 - (X ^ 2 + Z ^ 2)) / 2)) ^ 2 := by
  have hpi := Real.pi_pos
  have hexp : Real.exp ((1 - (X ^ 2 + Z ^ 2)) / 2) ^ 2 ≤ Real.exp 1 := by
    rw [← Real.exp_nat_mul]
    exact Real.exp_le_exp.2 (by push_cast; nlinarith [sq_nonneg X, sq_nonneg Z])
  have e1 : (γ - 1) / 2 * (5 * Real.sqrt 2 / (4 * Real.pi) * Real.exp ((1 - (X ^ 2 + Z ^ 2)) / 2)) ^ 2 =
      25 * (γ - 1) / (16 * Real.pi ^ 2) * Real.exp ((1 - (X ^ 2 + Z ^ 2)) / 2) ^ 2 := by
    rw [mul_pow, div_pow, mul_pow, mul_pow, Real.sq_sqrt (by norm_num)]
    field_simp; ring
  have e2 : 25 * (γ - 1) / (16 * Real.pi ^ 2) * Real.exp ((1 - (X ^ 2 + Z ^ 2)) / 2) ^ 2 ≤
      25 * (γ - 1) / (16 * Real.pi ^ 2) * Real.exp 1 :=
    mul_le_mul_of_nonneg_left hexp (div_nonneg (by linarith) (by positivity))
  have e3 : 25 * (γ - 1) / (16 * Real.pi ^ 2) * Real.exp 1 < 1 := by
    rw [div_mul_eq_mul_div, div_lt_one (by positivity)]; exact h
  rw [e1]; linarith

theorem solverIC_eq (ph : Physics) (hγ : 1 < ph.γ) (junk : (ℕ → ℝ) → ℕ → ℝ) (dim : ℕ) (W : (ℕ → ℝ) → ℕ → ℝ)
    (h : StartState ph dim W) (x : ℕ → ℝ) (s : ℕ) (hs : s < dim + 2) : solverIC dim ph junk x s = W x s := by
  cases h with
  | uniform _ hd hic hlen =>
    rcases hd with rfl | rfl <;> unfold solverIC callIC <;> simp [hic, setUniform, hlen, hs]
  | vortex hic hR ρ u v P K rest hdata hρ hP hK =>
    have hdef : ∃ U, vortex2 ph.icData ph.γ 1 x 0 (junk x) = some U :=
      C34_defined ph.icData ph.γ ρ u v P K 0 x (junk x) hγ (by rw [hdata]; rfl) (by rw [hdata]; rfl)
        (by rw [hdata]; rfl) (by rw [hdata]; rfl) (by rw [hdata]; rfl) hρ hP hK
    obtain ⟨U, hU⟩ := hdef
    obtain ⟨r', u', v', P', K', e0, e1, e2, e3, e4, -, -, -, -, -, -, e⟩ := vortex2_some hU
    rw [hdata] at e0 e1 e2 e3 e4
    obtain rfl : ρ = r' := by simpa using e0
    obtain rfl : u = u' := by simpa using e1
    obtain rfl : v = v' := by simpa using e2
    obtain rfl : P = P' := by simpa using e3
    obtain rfl : K = K' := by simpa using e4
    have : solverIC 2 ph junk x = U := by
      unfold solverIC callIC; simp [hic, hR, hU]
    rw [this, e]
    simp only [mul_zero, sub_zero]
    have hexp : Real.exp ((1 - (x 0 ^ 2 + x 1 ^ 2)) / 2) = Real.exp (1 / 2 * (1 - (x 0 ^ 2 + x 1 ^ 2))) := by
      congr 1; ring
    have hS : s = 0 ∨ s = 1 ∨ s = 2 ∨ s = 3 := by omega
    rcases hS with rfl | rfl | rfl | rfl <;> simp [vOut2, vortexState, vR, vT, vK, hexp]
    ring
  | vortex3 hic hγ3 =>
    have hγ0 : 0 < ph.γ := by linarith
    have hexp : Real.exp ((1 - ((10 * (x 0 - 1 / 2)) ^ 2 + (10 * (x 2 - 1 / 2)) ^ 2)) / 2) =
        Real.exp (1 / 2 * (1 - ((10 * (x 0 - 1 / 2)) ^ 2 + (10 * (x 2 - 1 / 2)) ^ 2))) := by congr 1; ring
    have hT := vortex3_temp hγ hγ3 (10 * (x 0 - 1 / 2)) (10 * (x 2 - 1 / 2))
    rw [hexp] at hT
    have hvT : vT ph.γ k3 (1 / ph.γ) (10 * (x 0 - 1 / 2)) (10 * (x 2 - 1 / 2)) * ph.γ =
        1 - (ph.γ - 1) / 2 * (5 * Real.sqrt 2 / (4 * Real.pi) * Real.exp (1 / 2 * (1 - ((10 * (x 0 - 1 / 2)) ^ 2 +
          (10 * (x 2 - 1 / 2)) ^ 2)))) ^ 2 := by
      unfold vT vK k3; field_simp
    have hU := vortex3_eq ph.γ x 0 (junk x) hγ0.ne' (by linarith) (by rw [hvT]; exact hT)
    have : solverIC 3 ph junk x = vOut3 ph.γ k3 (10 * (x 0 - 1 / 2)) (10 * (x 2 - 1 / 2)) (junk x) := by
      unfold solverIC callIC; simp only [hic]; rw [hU, Option.getD_some]
    rw [this]
    have hvR : vR ph.γ k3 (1 / ph.γ) (1 / ph.γ) (10 * (x 0 - 1 / 2)) (10 * (x 2 - 1 / 2)) =
        (vT ph.γ k3 (1 / ph.γ) (10 * (x 0 - 1 / 2)) (10 * (x 2 - 1 / 2)) * ph.γ) ^ (1 / (ph.γ - 1)) := by
      unfold vR; congr 1; field_simp
    have hK : vK k3 (10 * (x 0 - 1 / 2)) (10 * (x 2 - 1 / 2)) = 5 * Real.sqrt 2 / (4 * Real.pi) *
        Real.exp ((1 - ((10 * (x 0 - 1 / 2)) ^ 2 + (10 * (x 2 - 1 / 2)) ^ 2)) / 2) := by rw [hexp]; rfl
    have hS : s = 0 ∨ s = 1 ∨ s = 2 ∨ s = 3 ∨ s = 4 := by omega
    rw [← hexp, ← hK] at hvT
    unfold vortexState3
    simp only [← hK, ← hvT]
    rw [← hvR]
    rcases hS with rfl | rfl | rfl | rfl | rfl
    · rfl
    · rfl
    · rfl
    · rfl
    · simp only [OfNat.ofNat_ne_zero, OfNat.ofNat_ne_one, if_false, Nat.reduceEqDiff]
      unfold vOut3
      simp only
      field_simp

/-! ### the right-hand side only evaluates the fluxes at the states of the scheme -/

theorem rhs_flux_congr {d : Disc ℝ} {m : GMesh ℝ} {norient : ℕ} (hm : MeshOK m) (hc : Conforming d norient m)
    (ho : OrderOK d norient) (G : Geom ℝ) (vf : (ℕ → ℝ) → ℕ → ℝ) (nf : (ℕ → ℝ) → (ℕ → ℝ) → (ℕ → ℝ) → ℕ → ℝ) (γ : ℝ)
    (hvf : ∀ U, Admissible d.dim γ U → ∀ k < d.dim * d.ns, vf U k = d.volFlux U k)
    (hnf : ∀ UL UR N, Admissible d.dim γ UL → Admissible d.dim γ UR → inner' d.dim N N ≠ 0 → ∀ s < d.ns,
      nf UL UR N s = d.numFlux UL UR N s)
    (hn : NormalsNonzero d m G) (U V : Coeffs ℝ) (hUV : AgreeIn d m.numElems U V) (hV : StatesAdmissible γ d m V) :
    AgreeIn d m.numElems (globalRHS { d with volFlux := vf, numFlux := nf } m G U) (globalRHS d m G V) := by
  set d' : Disc ℝ := { d with volFlux := vf, numFlux := nf } with hd'
  have hvs : ∀ e < m.numElems, ∀ q, volState d' U e q = volState d V e q := by
    intro e he q
    funext s
    show (if s < d.ns then ∑ b ∈ range d.nb, d.volBasis q b * U e b s else 0) = volState d V e q s
    unfold volState
    split
    · rename_i hs
      exact Finset.sum_congr rfl fun b hb => by rw [hUV e he b (Finset.mem_range.1 hb) s hs]
    · rfl
  have hts : ∀ e < m.numElems, ∀ f j, traceState d' U e f j = traceState d V e f j := by
    intro e he f j
    funext s
    show (if s < d.ns then ∑ b ∈ range d.nb, d.faceBasis f j b * U e b s else 0) = traceState d V e f j s
    unfold traceState
    split
    · rename_i hs
      exact Finset.sum_congr rfl fun b hb => by rw [hUV e he b (Finset.mem_range.1 hb) s hs]
    · rfl
  intro e he b hb s hs
  show ∑ j ∈ range d.nb, G.iMM e b j * globalResidual d' m G U e j s = globalRHS d m G V e b s
  unfold globalRHS
  refine Finset.sum_congr rfl fun j hj => ?_
  congr 1
  unfold globalResidual
  congr 1
  · show ∑ q ∈ range d.nq, ∑ i ∈ range d.dim, d.volGrad q j i *
      ∑ j ∈ range d.dim, vf (volState d' U e q) (j * d.ns + s) * G.ijac e q i j * G.djac e q * d.volWts q = _
    unfold volumeTerm
    refine Finset.sum_congr rfl fun q hq => Finset.sum_congr rfl fun i hi => ?_
    congr 1
    refine Finset.sum_congr rfl fun k hk => ?_
    rw [hvs e he q, hvf _ (hV.vol e he q (Finset.mem_range.1 hq))]
    have hk' := Finset.mem_range.1 hk
    calc k * d.ns + s < k * d.ns + d.ns := by omega
      _ = (k + 1) * d.ns := by ring
      _ ≤ d.dim * d.ns := Nat.mul_le_mul_right _ hk'
  · congr 1
    refine List.map_congr_left fun x hx => ?_
    have hget := mem_zipIdx_lt hx
    have hf : x.1 ∈ m.faces := List.mem_of_getElem? hget
    obtain ⟨mL, mR⟩ := hm.faces _ hf
    obtain ⟨cL, oL⟩ := hc.faceL _ hf
    obtain ⟨cR, oR⟩ := hc.faceR _ hf
    show ∑ iq ∈ range d.nqf,
      ((if x.1.elemR = e then d.faceBasis x.1.faceR (d.ptsOrder x.1.orientR iq) j else 0) -
       (if x.1.elemL = e then d.faceBasis x.1.faceL (d.ptsOrder x.1.orientL iq) j else 0)) *
        (nf (traceState d' U x.1.elemL x.1.faceL (d.ptsOrder x.1.orientL iq))
          (traceState d' U x.1.elemR x.1.faceR (d.ptsOrder x.1.orientR iq))
          (cArr d.dim (G.normals x.2 iq)) s * d.faceWts iq) = _
    unfold faceTerm meshFlux
    refine Finset.sum_congr rfl fun iq hq => ?_
    have hq' := Finset.mem_range.1 hq
    have a1 := (ho _ oL).1 iq hq'
    have a2 := (ho _ oR).1 iq hq'
    rw [hts _ mL, hts _ mR, hnf _ _ _ (hV.left _ hf _ a1) (hV.right _ hf _ a2) ?_ s hs]
    have hlt : x.2 < m.faces.length := by
      by_contra h
      rw [List.getElem?_eq_none (by omega)] at hget
      exact absurd hget (by simp)
    obtain ⟨jj, hjj, hne⟩ := hn x.2 hlt iq hq'
    exact inner_ne ⟨jj, hjj, by simp [cArr, hjj, hne]⟩

/-- one step, and the whole run -/
theorem step_flux_congr {d : Disc ℝ} {ne : ℕ} (st : Stepper) (dt : ℝ) (f f' : Coeffs ℝ → Coeffs ℝ)
    (P : Coeffs ℝ → Prop) (hf : ∀ U V, AgreeIn d ne U V → P V → AgreeIn d ne (f U) (f' V)) (U V : Coeffs ℝ)
    (h : AgreeIn d ne U V) (hP : StagesHold st dt f' P V) : AgreeIn d ne (stepOf st dt f U) (stepOf st dt f' V) := by
  cases st with
  | FE =>
    have h1 := hf U V h hP
    intro e he b hb s hs
    simp only [stepOf, eulerStep]
    rw [h e he b hb s hs, h1 e he b hb s hs]
  | RK4 =>
    obtain ⟨p1, p2, p3, p4⟩ := hP
    have add : ∀ (c : ℝ) (k k' : Coeffs ℝ), AgreeIn d ne k k' →
        AgreeIn d ne (fun e b s => U e b s + c * k e b s) (fun e b s => V e b s + c * k' e b s) :=
      fun c k k' hk e he b hb s hs => by
        show U e b s + c * k e b s = V e b s + c * k' e b s
        rw [h e he b hb s hs, hk e he b hb s hs]
    have h1 := hf U V h p1
    have h2 := hf _ _ (add (dt / 2) _ _ h1) p2
    have h3 := hf _ _ (add (dt / 2) _ _ h2) p3
    have h4 := hf _ _ (add dt _ _ h3) p4
    intro e he b hb s hs
    simp only [stepOf, rk4Step]
    rw [h e he b hb s hs, h1 e he b hb s hs, h2 e he b hb s hs, h3 e he b hb s hs, h4 e he b hb s hs]

theorem run_flux_congr {d : Disc ℝ} {m : GMesh ℝ} {norient : ℕ} (hm : MeshOK m) (hc : Conforming d norient m)
    (ho : OrderOK d norient) (G : Geom ℝ) (vf : (ℕ → ℝ) → ℕ → ℝ) (nf : (ℕ → ℝ) → (ℕ → ℝ) → (ℕ → ℝ) → ℕ → ℝ) (γ : ℝ)
    (hvf : ∀ U, Admissible d.dim γ U → ∀ k < d.dim * d.ns, vf U k = d.volFlux U k)
    (hnf : ∀ UL UR N, Admissible d.dim γ UL → Admissible d.dim γ UR → inner' d.dim N N ≠ 0 → ∀ s < d.ns,
      nf UL UR N s = d.numFlux UL UR N s)
    (hn : NormalsNonzero d m G) (st : Stepper) (dt : ℝ) (U V : Coeffs ℝ) (hUV : AgreeIn d m.numElems U V) (n : ℕ)
    (hrun : RunAdmissible γ d m G st dt V n) :
    AgreeIn d m.numElems ((stepOf st dt (globalRHS { d with volFlux := vf, numFlux := nf } m G))^[n] U)
      ((stepOf st dt (globalRHS d m G))^[n] V) := by
  induction n with
  | zero => exact hUV
  | succ n ih =>
    rw [Function.iterate_succ_apply', Function.iterate_succ_apply']
    exact step_flux_congr st dt _ _ _ (fun U V h hP => rhs_flux_congr hm hc ho G vf nf γ hvf hnf hn U V h hP) _ _
      (ih fun i hi => hrun i (by omega)) (hrun n (by omega))

/-! ### C64 -/

/-- **C64** (quadrilaterals).  The whole program with Euler physics, either numerical flux and either time
stepper, started from a uniform state or the isentropic vortex on a mesh of bilinear quadrilaterals: as
long as the textbook run is admissible, a rank that has completed `n` steps holds on its elements the
coefficients of the textbook scheme for the Euler equations, whatever memory contained. -/
theorem C64_euler_quad (m : GMesh ℝ) (nranks : ℕ) (part : List ℕ) (rms : ℕ → RankMesh ℝ)
    (w : World m nranks part rms) (hq : QuadMesh m) (hs : SidesNonzero m) (t : Fam) (p : ℕ) (hp : orderFine t p)
    (ph : Physics) (hE : ph.ptype = .Euler) (hγ : 1 < ph.γ) (start : (ℕ → ℝ) → ℕ → ℝ)
    (hstart : StartState ph 2 start) (junkV junkI : (ℕ → ℝ) → ℕ → ℝ)
    (junkN : (ℕ → ℝ) → (ℕ → ℝ) → (ℕ → ℝ) → (ℕ → ℝ) × (ℕ → ℝ))
    (d : Disc ℝ) (g : ℕ → Geom ℝ) (u : ℕ → Coeffs ℝ)
    (hr : RanksReady t p 4 (solverVolFlux 2 ph junkV) (solverNumFlux 2 ph junkN) (solverIC 2 ph junkI)
      nranks rms d g u) (st : Stepper) (dt : ℝ)
    (sched : ℕ → ℕ → List (FluxWrite ℝ) → List (FluxWrite ℝ))
    (hsched : ∀ r k l, (sched r k l).Perm l) (nsteps k : ℕ)
    (c : Proto.Conf (FaceArr (ℕ → ℕ → ℝ) × Option (RankState ℝ)) (List (ℕ → ℕ → ℝ)))
    (hx : Proto.Exec (solverProg d g rms nranks dt st sched nsteps)
      (Proto.init (solverStart d rms st u)) c k) (r : ℕ) (hlt : r < nranks) (n : ℕ)
    (hn : (c.proc r).round = stagesOf st * n)
    (hadm : RunAdmissible ph.γ (quadEuler t p ph.ftype ph.γ) m (quadGeom t p m) st dt (quadInit t p m start) n) :
    ∃ s, (c.proc r).st.2 = some s ∧ s.time = n * dt ∧
      ∀ i e : ℕ, (rms r).l2gElem[i]? = some e → ∀ b < (p + 1) * (p + 1), ∀ v < 4,
        s.Uc i b v = ((stepOf st dt (globalRHS (quadEuler t p ph.ftype ph.γ) m (quadGeom t p m)))^[n]
          (quadInit t p m start)) e b v := by
  obtain ⟨s, s1, s2, s3⟩ := C61_run_is_textbook m nranks part rms w hq t p 4 hp _ _ _ d g u hr st dt sched hsched
    nsteps k c hx r hlt n hn
  refine ⟨s, s1, s2, fun i e hi b hb v hv => ?_⟩
  rw [s3 i e hi b hb v hv]
  refine run_flux_congr (d := quadEuler t p ph.ftype ph.γ) w.mesh (hq.conforming t p 4 _ _) (quadDisc_order t p 4 _ _)
    (quadGeom t p m) (solverVolFlux 2 ph junkV) (solverNumFlux 2 ph junkN) ph.γ
    (fun U hU k hk => solverVolFlux_eq 2 (Or.inl rfl) ph hE junkV U hU.ρ_pos.ne' k hk)
    (fun UL UR N hL hR hN s hs => solverNumFlux_eq 2 (Or.inl rfl) ph hE hγ junkN UL UR N hL hR hN s hs)
    (normals_nonzero w.mesh hq hs t p 4 _ _) st dt _ _ ?_ n hadm e (w.elem_lt hlt hi) b hb v hv
  intro e _ b _ v hv
  unfold quadInit
  simp only [fun x => solverIC_eq ph hγ junkI 2 start hstart x v hv]

/-- No face of an element is degenerate: the normal does not vanish at inner points of the faces. -/
def FacesNonzero (m : GMesh ℝ) : Prop :=
  ∀ e < m.numElems, ∀ k < 6, ∀ s : ℝ × ℝ, -1 < s.1 → s.1 < 1 → -1 < s.2 → s.2 < 1 →
    ∃ j < 3, faceNormal (fileCoords m e) k s j ≠ 0

theorem hex_normals_nonzero {m : GMesh ℝ} (hm : MeshOK m) (hq : HexMesh m) (hs : FacesNonzero m) (t : Fam) (p ns : ℕ)
    (hp : orderFine t p) (vf : (ℕ → ℝ) → ℕ → ℝ) (nf : (ℕ → ℝ) → (ℕ → ℝ) → (ℕ → ℝ) → ℕ → ℝ) :
    NormalsNonzero (hexDisc t p ns vf nf) m (hexGeom t p m) := by
  intro g hg iq hiq
  have hiq' : iq < (p + 2) * (p + 2) := hiq
  have hat : faceAt m g = m.faces[g] := by unfold faceAt; rw [List.getElem?_eq_getElem hg]; rfl
  have hmem : m.faces[g] ∈ m.faces := List.getElem_mem hg
  obtain ⟨-, t2, -, -⟩ := tables_fine p hp.1
  have rule := gl_rule_odd _ t2
  obtain ⟨hr, hc⟩ := div_mod_lt hiq'
  have b1 := rule.inside _ hr
  have b2 := rule.inside _ hc
  obtain ⟨j, hj, hne⟩ := hs _ (hm.faces _ hmem).1 _ (hq.faceL _ hmem).1 ((facePt2 p iq).2, (facePt2 p iq).1)
    b1.1 b1.2 b2.1 b2.2
  refine ⟨j, hj, ?_⟩
  show faceNormal (fileCoords m (faceAt m g).elemL) (faceAt m g).faceL ((facePt2 p iq).2, (facePt2 p iq).1) j ≠ 0
  rw [hat]; exact hne

/-- **C64** (hexahedra).  The same for meshes of trilinear hexahedra, partitioned along parallelograms. -/
theorem C64_euler_hex (m : GMesh ℝ) (nranks : ℕ) (part : List ℕ) (rms : ℕ → RankMesh ℝ)
    (w : World m nranks part rms) (hq : HexMesh m) (hcut : CutFlat m part) (hs : FacesNonzero m) (t : Fam) (p : ℕ)
    (hp : orderFine t p)
    (ph : Physics) (hE : ph.ptype = .Euler) (hγ : 1 < ph.γ) (start : (ℕ → ℝ) → ℕ → ℝ)
    (hstart : StartState ph 3 start) (junkV junkI : (ℕ → ℝ) → ℕ → ℝ)
    (junkN : (ℕ → ℝ) → (ℕ → ℝ) → (ℕ → ℝ) → (ℕ → ℝ) × (ℕ → ℝ))
    (d : Disc ℝ) (g : ℕ → Geom ℝ) (u : ℕ → Coeffs ℝ)
    (hr : HexRanksReady t p 5 (solverVolFlux 3 ph junkV) (solverNumFlux 3 ph junkN) (solverIC 3 ph junkI)
      nranks rms d g u) (st : Stepper) (dt : ℝ)
    (sched : ℕ → ℕ → List (FluxWrite ℝ) → List (FluxWrite ℝ))
    (hsched : ∀ r k l, (sched r k l).Perm l) (nsteps k : ℕ)
    (c : Proto.Conf (FaceArr (ℕ → ℕ → ℝ) × Option (RankState ℝ)) (List (ℕ → ℕ → ℝ)))
    (hx : Proto.Exec (solverProg d g rms nranks dt st sched nsteps)
      (Proto.init (solverStart d rms st u)) c k) (r : ℕ) (hlt : r < nranks) (n : ℕ)
    (hn : (c.proc r).round = stagesOf st * n)
    (hadm : RunAdmissible ph.γ (hexEuler t p ph.ftype ph.γ) m (hexGeom t p m) st dt (hexInit t p m start) n) :
    ∃ s, (c.proc r).st.2 = some s ∧ s.time = n * dt ∧
      ∀ i e : ℕ, (rms r).l2gElem[i]? = some e → ∀ b < (p + 1) * (p + 1) * (p + 1), ∀ v < 5,
        s.Uc i b v = ((stepOf st dt (globalRHS (hexEuler t p ph.ftype ph.γ) m (hexGeom t p m)))^[n]
          (hexInit t p m start)) e b v := by
  obtain ⟨s, s1, s2, s3⟩ := C63_run_is_textbook m nranks part rms w hq hcut t p 5 hp _ _ _ d g u hr st dt sched hsched
    nsteps k c hx r hlt n hn
  refine ⟨s, s1, s2, fun i e hi b hb v hv => ?_⟩
  rw [s3 i e hi b hb v hv]
  refine run_flux_congr (d := hexEuler t p ph.ftype ph.γ) w.mesh (hq.conforming t p 5 _ _) (hexDisc_order t p 5 _ _)
    (hexGeom t p m) (solverVolFlux 3 ph junkV) (solverNumFlux 3 ph junkN) ph.γ
    (fun U hU k hk => solverVolFlux_eq 3 (Or.inr rfl) ph hE junkV U hU.ρ_pos.ne' k hk)
    (fun UL UR N hL hR hN s hs => solverNumFlux_eq 3 (Or.inr rfl) ph hE hγ junkN UL UR N hL hR hN s hs)
    (hex_normals_nonzero w.mesh hq hs t p 5 hp _ _) st dt _ _ ?_ n hadm e (w.elem_lt hlt hi) b hb v hv
  intro e _ b _ v hv
  unfold hexInit
  simp only [fun x => solverIC_eq ph hγ junkI 3 start hstart x v hv]

end DG
