import Verif.Props.BitsThreads
import Verif.Props.BitsExample

/-!
The hypotheses of C80 at the level of threads are met: the setup of a rank can be executed by any numbers of threads,
and the case of `Props/BitsExample.lean` runs to its end.
-/
namespace DG.Dev
open Kernel

section general
variable {K : Type} [Zero K] [One K] [Add K] [Sub K] [Mul K] [Neg K] [Div K] [NatCast K] [DecidableEq K] [DecLit K]

omit [Zero K] [One K] [Add K] [Sub K] [Mul K] [Neg K] [Div K] [NatCast K] [DecidableEq K] [DecLit K] in
theorem Kernel.Settles.runs {C T J : Type} [DecidableEq C] [DecidableEq T] [DecidableEq J] {k : Kernel C K T J}
    {m m' : C → K} (h : k.Settles m m') : k.Ends m m' := by
  obtain ⟨N, hN⟩ := h.ends
  obtain ⟨_, n, c, h1, h2⟩ := hN 0 _ (.refl _)
  exact ⟨n, c, h1, h2, h.result n c h1 h2⟩

/-- Whenever the setup succeeds, it can be executed by any numbers of threads with any distribution of the loops, on
any memory. -/
theorem setupRun_exists {t gt : BasisType} {p gorder ns rank : ℕ} {ic : (ℕ → K) → ℕ → K} {rm : RankMesh K}
    {scr MM0 rhs0 U0 : ℕ → ℕ → ℕ → K} {g : Geom K} {u : ℕ → ℕ → ℕ → K}
    (hg : buildGeom t gt p gorder rank rm scr MM0 = some g)
    (hu : initState t gt p gorder ns rm g.iMM ic rhs0 U0 = some u) (hgt : basisShape gt = basisShape t)
    {n1 n2 n3 : ℕ} (h1 : 0 < n1) (h2 : 0 < n2) (h3 : 0 < n3)
    (D1 : ℕ → ℕ → Fin n1) (D2 : ℕ → ℕ → Fin n2) (D3 : ℕ → ℕ → Fin n3) (m0 : SCell → K) (nm0 : NCell → K)
    (hm0 : ∀ e < rm.numElemsPart, ∀ i j, m0 ⟨.iMM, e, i, j, 0⟩ = 0) :
    ∃ mem nor, ∃ S : SetupRun t gt p gorder ns rank ic rm mem nor, S.n1 = n1 ∧ S.n2 = n2 ∧ S.n3 = n3 ∧
      S.m0 = m0 ∧ S.nm0 = nm0 := by
  obtain ⟨k1, sh, nb, e1, hsh, hnb, m1, s1, r1, -⟩ :=
    C75_inverse_mass t gt p gorder rank rm scr MM0 g hg h1 D1 m0 hm0
  obtain ⟨k2, sh', gnb, ref, e2, hsh', -, href, m2, s2, r2, v2, i2, -⟩ :=
    C75_volume_data_bits t gt p gorder rank rm scr MM0 g hg hgt h2 D2 m1
  obtain ⟨k3, sh'', nb', e3, hsh'', hnb', f3⟩ := C75_initial_state t gt p gorder ns rm g.iMM ic rhs0 U0 u hu hgt h3 D3
  rw [hsh] at hsh' hsh''
  obtain rfl := Option.some.inj hsh'
  obtain rfl := Option.some.inj hsh''
  rw [hnb] at hnb'
  obtain rfl := Option.some.inj hnb'
  obtain ⟨m3, c3, -⟩ := f3 m2 fun e he i hi j hj => by rw [i2, r1 e he i hi j hj]
  obtain ⟨sh1, nb1, mass, vol, fr, a1, -, -, -, a5, -⟩ := buildGeom_some hg
  obtain ⟨nm, d1, -⟩ := C69_normals_setup hg hsh a5 nm0
  exact ⟨m3, nm, ⟨n1, n2, n3, D1, D2, D3, k1, k2, k3, sh, fr, m0, m1, m1, m2, m2, nm0, h1, h2, h3, e1, e2, e3, hsh, a5,
    hm0, s1.runs, fun _ _ _ => rfl, s2.runs, (d1.ends_iff).2 rfl, fun _ _ _ _ _ _ => rfl, (c3.ends_iff).2 rfl⟩,
    rfl, rfl, rfl, rfl, rfl⟩

end general

instance : NeZero (1 : Sm) := ⟨by decide⟩

/-- memory of a launch before the setup: the inverse mass matrices are zero, everything else holds `x` -/
def smMem (x : Sm) : SCell → Sm := fun c => if c.view = .iMM then 0 else x

/-- a launch of the threads: on every rank `n` threads per team -/
theorem smSetup {nr : ℕ} {part : List ℕ} {x : Sm} {rms : ℕ → RankMesh Sm} {g : ℕ → Geom Sm} {u : ℕ → Coeffs Sm}
    (L : Launched .LagrangeQuad .LagrangeQuad 1 1 2 smVF smNF smIC smMesh nr part rms smD g u)
    (hsh : NormalsShared nr rms smD g) (n : ℕ) (hn : 0 < n) (D : ℕ → ℕ → Fin n) :
    ∃ (mem : ℕ → SCell → Sm) (nor : ℕ → NCell → Sm),
      (∀ r < nr, ∃ S : SetupRun .LagrangeQuad .LagrangeQuad 1 1 2 r smIC (rms r) (mem r) (nor r), S.n1 = n ∧
        S.m0 = smMem x) ∧
      NormalsShared nr rms smD fun r => readGeom (mem r) (nor r) := by
  have h : ∀ r, ∃ (mem : SCell → Sm) (nor : NCell → Sm), r < nr →
      ∃ S : SetupRun .LagrangeQuad .LagrangeQuad 1 1 2 r smIC (rms r) mem nor, S.n1 = n ∧ S.m0 = smMem x := by
    intro r
    by_cases hr : r < nr
    · obtain ⟨scr, MM0, hg⟩ := L.geom r hr
      obtain ⟨rhs0, U0, hu⟩ := L.init r hr
      obtain ⟨mem, nor, S, s1, -, -, s2, -⟩ := setupRun_exists hg hu rfl hn hn hn D D D (smMem x) (fun _ => x)
        (by intro e _ i j; rfl)
      exact ⟨mem, nor, fun _ => ⟨S, s1, s2⟩⟩
    · exact ⟨fun _ => 0, fun _ => 0, fun h => absurd h hr⟩
  choose mem nor hS using h
  refine ⟨mem, nor, hS, ?_⟩
  have hold : ∀ r < nr, ∀ i a : ℕ, (rms r).l2gFace[i]? = some a → ∀ q < smD.nqf, ∀ j < smD.dim,
      nor r (.normal i q j) = (g r).normals i q j := by
    intro r hr i a hi
    obtain ⟨scr, MM0, hg⟩ := L.geom r hr
    obtain ⟨rhs0, U0, hu⟩ := L.init r hr
    refine ((hS r hr).choose.holds rfl L.disc hg hu).2 i ?_
    rw [L.world.numIF hr]; exact (List.getElem?_eq_some_iff.1 hi).1
  intro r hr r' hr' i i' a hi hi' q hq j hj
  show nor r _ = nor r' _
  rw [hold r hr i a hi q hq j hj, hold r' hr' i' a hi' q hq j hj]
  exact hsh r hr r' hr' i i' a hi hi' q hq j hj

theorem smConforming : Conforming smD 2 smMesh ∧ OrderOK smD 2 ∧ smD.nb = 4 := by
  obtain ⟨sh, nb, a1, a2, _, a4, a5, a6⟩ := buildDisc_orderOK smLaunched1.disc
  cases a1
  cases a2
  exact ⟨⟨by rw [a5]; exact smMesh_shape.faceL, by rw [a5]; exact smMesh_shape.faceR, smMesh_shape.sides⟩, a6, a4⟩

/-- C80 on the example, down to the threads, with an arithmetic without laws: two ranks with three threads per team in
the setup and memory full of 77, and one rank with one thread and memory full of -5; both runs complete ten
Runge-Kutta steps, and element 3 has the same bits. -/
example : ∃ (mem mem' : ℕ → SCell → Sm) (nor nor' : ℕ → NCell → Sm) (x x' : Executions Sm) (c c' : _) (k k' : ℕ),
    (∀ r < 2, ∃ S : SetupRun .LagrangeQuad .LagrangeQuad 1 1 2 r smIC (smRms 2 [0, 1, 1, 0] r) (mem r) (nor r),
      S.n1 = 3 ∧ S.m0 = smMem ⟨77⟩) ∧
    (∀ r < 1, ∃ S : SetupRun .LagrangeQuad .LagrangeQuad 1 1 2 r smIC (smRms 1 [0, 0, 0, 0] r) (mem' r) (nor' r),
      S.n1 = 1 ∧ S.m0 = smMem ⟨-5⟩) ∧
    Proto.Exec (deviceProg x smD (smRms 2 [0, 1, 1, 0]) 2 ⟨3277⟩ .RK4 10)
      (Proto.init (deviceInit x fun r => readCoeffs (mem r))) c k ∧
    Proto.Exec (deviceProg x' smD (smRms 1 [0, 0, 0, 0]) 1 ⟨3277⟩ .RK4 10)
      (Proto.init (deviceInit x' fun r => readCoeffs (mem' r))) c' k' ∧
    (c.proc 0).round = 40 ∧ (c'.proc 0).round = 40 ∧
    ∀ b < 4, ∀ v < 2, (c.proc 0).st.mem ⟨.Uc, 1, b, v, 0⟩ = (c'.proc 0).st.mem ⟨.Uc, 3, b, v, 0⟩ := by
  obtain ⟨mem, nor, S, hn⟩ := smSetup (x := ⟨77⟩) smLaunched2 smNormals2 3 (by omega)
    fun p i => ⟨(p + i) % 3, Nat.mod_lt _ (by omega)⟩
  obtain ⟨mem', nor', S', hn'⟩ := smSetup (x := ⟨-5⟩) smLaunched1 smNormals1 1 (by omega) fun _ _ => 0
  obtain ⟨hc, ho, hnb⟩ := smConforming
  obtain ⟨x, hx⟩ := (C70_executions_exist smLaunched2.world smD 2 hc ho (fun r => readGeom (mem r) (nor r)) .RK4
    ⟨3277⟩).1
  obtain ⟨x', hx'⟩ := (C70_executions_exist smLaunched1.world smD 2 hc ho (fun r => readGeom (mem' r) (nor' r)) .RK4
    ⟨3277⟩).1
  obtain ⟨_, c, k, he, hf⟩ := C80_threads_completes .LagrangeQuad .LagrangeQuad 1 1 2 smVF smNF smIC smMesh _ rfl rfl
    smMesh_shape .RK4 ⟨3277⟩ 10 2 _ _ smD ⟨_, _, smLaunched2⟩ mem nor x hx 0 _ .refl
  obtain ⟨_, c', k', he', hf'⟩ := C80_threads_completes .LagrangeQuad .LagrangeQuad 1 1 2 smVF smNF smIC smMesh _ rfl
    rfl smMesh_shape .RK4 ⟨3277⟩ 10 1 _ _ smD ⟨_, _, smLaunched1⟩ mem' nor' x' hx'
    0 _ .refl
  refine ⟨mem, mem', nor, nor', x, x', c, c', k, k', S, S', he, he', hf 0 (by omega), hf' 0 (by omega), ?_⟩
  have h := (C80_threads_case .LagrangeQuad .LagrangeQuad 1 1 2 smVF smNF smIC smMesh _ rfl rfl smMesh_shape .RK4
    ⟨3277⟩ 10 10 2 _ _ smD ⟨_, _, smLaunched2⟩ mem nor (fun r hr => ⟨(S r hr).choose⟩) hn x hx k c he 1 _ _
    ⟨_, _, smLaunched1⟩ mem' nor' (fun r hr => ⟨(S' r hr).choose⟩) hn' x' hx' k' c' he' 0 (by omega) 0 (by omega)
    (by rw [hf 0 (by omega), hf' 0 (by omega)])).2
  rw [hnb] at h
  exact h 1 3 3 (by decide +kernel) (by decide +kernel)

end DG.Dev
