import Verif.Model.Enums
import Verif.Model.Setup
import Verif.Lemmas.Basis
import Verif.Props.Legendre
import Verif.Props.Basis
import Verif.Props.Physics
import Verif.Props.HLLC

/-! C35, C50, C55: configuration names, dispatch and size tables. -/
namespace DG

/-! ### C50 -/

theorem allEnums_ok : ∀ T ∈ allEnums, T.names.length = T.ids.length ∧ T.names.Nodup := by
  simp [allEnums, physicsTypeTable, stepperTypeTable, numericalFluxTable, icTable, basisTable,
    quadratureTable, nodeTable, normTable, shapeTable, schemeTable, initTable]

theorem enumFromString_eq (T : EnumTable) (s : String) (i : ℕ) :
    enumFromString T s = some i ↔ T.names[i]? = some s ∧ ∀ j < i, T.names[j]? ≠ some s := by
  unfold enumFromString
  simp only
  constructor
  · intro h
    split at h
    · simp at h
    · rename_i hne
      obtain rfl := Option.some_inj.mp h
      have hlt : T.names.findIdx (· == s) < T.names.length :=
        lt_of_le_of_ne List.findIdx_le_length hne
      have := List.findIdx_getElem (w := hlt)
      refine ⟨by rw [List.getElem?_eq_getElem hlt]; simpa using this, fun j hj e => ?_⟩
      have h2 := List.not_of_lt_findIdx hj
      rw [List.getElem?_eq_getElem (by omega)] at e
      simp only [Option.some.injEq] at e
      simp [e] at h2
  · rintro ⟨h1, h2⟩
    have hlt : i < T.names.length := by
      by_contra hh
      rw [List.getElem?_eq_none (by omega)] at h1; simp at h1
    have hi : T.names.findIdx (· == s) = i := by
      rw [List.findIdx_eq hlt]
      rw [List.getElem?_eq_getElem hlt] at h1
      refine ⟨by simpa using h1, fun j hj => ?_⟩
      have := h2 j hj
      rw [List.getElem?_eq_getElem (by omega)] at this
      simpa using this
    rw [hi, if_neg (by omega)]

/-- C50: for every configuration enumeration each enumerator has a name, and reading that name gives
the enumerator back. -/
theorem C50_enumerator_round_trip (T : EnumTable) (hT : T ∈ allEnums) (v : ℕ) (hv : v < T.ids.length) :
    ∃ s, enumToString T v = some s ∧ enumFromString T s = some v := by
  obtain ⟨hl, hn⟩ := allEnums_ok T hT
  have hv' : v < T.names.length := by omega
  refine ⟨T.names[v], List.getElem?_eq_getElem hv', ?_⟩
  rw [enumFromString_eq]
  refine ⟨List.getElem?_eq_getElem hv', fun j hj e => ?_⟩
  rw [List.getElem?_eq_getElem (by omega)] at e
  have := (hn.getElem_inj_iff (hi := by omega) (hj := hv')).mp (Option.some_inj.mp e)
  omega

/-- C50: every accepted string is the name of the enumerator it is mapped to, which is a valid
enumerator. -/
theorem C50_name_round_trip (T : EnumTable) (hT : T ∈ allEnums) (s : String) (v : ℕ)
    (h : enumFromString T s = some v) : v < T.ids.length ∧ enumToString T v = some s := by
  obtain ⟨hl, -⟩ := allEnums_ok T hT
  have h1 := ((enumFromString_eq T s v).mp h).1
  refine ⟨?_, h1⟩
  by_contra hh
  rw [List.getElem?_eq_none (by omega)] at h1; simp at h1

/-- C50: distinct enumerators have distinct names. -/
theorem C50_distinct_names (T : EnumTable) (hT : T ∈ allEnums) (v w : ℕ) (s : String)
    (hv : enumToString T v = some s) (hw : enumToString T w = some s) : v = w := by
  obtain ⟨-, hn⟩ := allEnums_ok T hT
  have hv' : v < T.names.length := by
    by_contra hh
    simp [enumToString, List.getElem?_eq_none (show T.names.length ≤ v by omega)] at hv
  exact (List.getElem?_inj hv' hn).mp (hv.trans hw.symm)

/-- C50: a string is rejected exactly when it is not one of the names. -/
theorem C50_unknown_rejected (T : EnumTable) (s : String) :
    enumFromString T s = none ↔ s ∉ T.names := by
  unfold enumFromString
  simp only
  rw [ite_eq_left_iff]
  constructor
  · intro h
    have : T.names.findIdx (· == s) = T.names.length := by
      by_contra hne; simpa using h hne
    rw [List.findIdx_eq_length] at this
    intro hm; simpa using this s hm
  · intro h hne
    exact absurd (List.findIdx_eq_length.mpr fun x hx => by
      simp only [beq_eq_false_iff_ne]; rintro rfl; exact h hx) hne

/-- C50: the accepted names are the identifiers used in the source, except for the two time steppers
which are named `FE` and `RK4`. -/
theorem C50_names_are_identifiers (T : EnumTable) (hT : T ∈ allEnums) :
    T.names = T.ids ∨ (T.ids = ["ForwardEuler", "RungeKutta4"] ∧ T.names = ["FE", "RK4"]) := by
  fin_cases hT <;> first | exact Or.inl rfl | exact Or.inr ⟨rfl, rfl⟩

example : enumFromString icTable "Sphere" = some 2 ∧ enumFromString icTable "sphere" = none := by
  decide

/-! ### C35 -/

/-- the name of an initial condition in the input deck -/
def ICType.label : ICType → String
  | .Uniform => "Uniform" | .Gaussian => "Gaussian" | .Sphere => "Sphere"
  | .IsentropicVortex => "IsentropicVortex"
/-- the name of a physics in the input deck -/
def PhysicsType.label : PhysicsType → String
  | .Euler => "Euler" | .NavierStokes => "NavierStokes"
/-- the name of a numerical flux in the input deck -/
def NumericalFluxType.label : NumericalFluxType → String
  | .LaxFriedrichs => "LaxFriedrichs" | .HLLC => "HLLC"
/-- the name of a time stepper in the input deck -/
def StepperType.label : StepperType → String
  | .ForwardEuler => "FE" | .RungeKutta4 => "RK4"

theorem parseEnum_iff {α : Type} (T : EnumTable) (members : List α) (label : α → String)
    (hl : T.names = members.map label) (hn : T.names.Nodup) (s : String) (a : α) (hm : members.Nodup)
    (ha : a ∈ members) : parseEnum T members s = some a ↔ s = label a := by
  unfold parseEnum
  constructor
  · intro h
    obtain ⟨i, h1, h2⟩ := Option.bind_eq_some_iff.mp h
    have := ((enumFromString_eq T s i).mp h1).1
    rw [hl, List.getElem?_map, h2] at this
    simpa using this.symm
  · rintro rfl
    obtain ⟨i, hi, rfl⟩ := List.getElem_of_mem ha
    have h1 : enumFromString T (label members[i]) = some i := by
      rw [enumFromString_eq]
      have e : T.names[i]? = some (label members[i]) := by
        rw [hl, List.getElem?_map, List.getElem?_eq_getElem hi]; rfl
      refine ⟨e, fun j hj e' => ?_⟩
      have hj' : j < T.names.length := by rw [hl, List.length_map]; omega
      have := (List.getElem?_inj hj' hn).mp (e'.trans e.symm)
      omega
    rw [h1]; simp

theorem parse_ic (s : String) (a : ICType) :
    parseEnum icTable ICType.members s = some a ↔ s = a.label :=
  parseEnum_iff _ _ _ rfl (by simp [icTable]) s a (by decide) (by cases a <;> decide)
theorem parse_physics (s : String) (a : PhysicsType) :
    parseEnum physicsTypeTable PhysicsType.members s = some a ↔ s = a.label :=
  parseEnum_iff _ _ _ rfl (by simp [physicsTypeTable]) s a (by decide) (by cases a <;> decide)
theorem parse_flux (s : String) (a : NumericalFluxType) :
    parseEnum numericalFluxTable NumericalFluxType.members s = some a ↔ s = a.label :=
  parseEnum_iff _ _ _ rfl (by simp [numericalFluxTable]) s a (by decide) (by cases a <;> decide)
theorem parse_stepper (s : String) (a : StepperType) :
    parseEnum stepperTypeTable StepperType.members s = some a ↔ s = a.label :=
  parseEnum_iff _ _ _ rfl (by simp [stepperTypeTable]) s a (by decide) (by cases a <;> decide)

/-- C35: the solver constructor succeeds with setup `st` exactly when the deck names the initial
condition, physics, flux (or nothing: Lax-Friedrichs) and stepper (or nothing: FE) of `st` and gives a
time step and an end time; a missing or unknown name, step or end time is therefore rejected. The
start time of the deck is not used: the solver starts at time 0. -/
theorem C35_configuration (inp : SolverInput) (data : List ℝ) (γ0 R0 : ℝ) (st : SolverSetup) :
    makeSolver inp data γ0 R0 = some st ↔
      inp.icName = some st.physics.ic.label ∧ inp.physName = some st.physics.ptype.label ∧
      inp.fluxName.getD "LaxFriedrichs" = st.physics.ftype.label ∧
      inp.stepperName.getD "FE" = st.stepper.label ∧
      inp.timestep = some st.dt ∧ inp.tend = some st.tfinal ∧ st.time = 0 ∧
      st.physics.icData = data ∧
      st.physics.γ = (if st.physics.ptype = .Euler then inp.gamma.getD (14 / 10) else γ0) ∧
      st.physics.R = (if st.physics.ptype = .Euler then inp.gasConstant.getD (28705 / 100) else R0) := by
  unfold makeSolver
  simp only [Option.bind_eq_bind, Option.pure_def, Option.bind_eq_some_iff, parse_ic, parse_physics,
    parse_flux, parse_stepper, Option.some.injEq]
  constructor
  · rintro ⟨_, h1, _, h2, pt, rfl, ft, h3, ic, rfl, sp, h4, dt, h5, tf, h6, rfl⟩
    exact ⟨h1, h2, h3, h4, h5, h6, rfl, rfl, rfl, rfl⟩
  · rintro ⟨h1, h2, h3, h4, h5, h6, h7, h8, h9, h10⟩
    obtain ⟨⟨pt, ft, ic, d, γ, R⟩, sp, dt, tf, t⟩ := st
    simp only at h1 h2 h3 h4 h5 h6 h7 h8 h9 h10
    exact ⟨_, h1, _, h2, pt, rfl, ft, h3, ic, rfl, sp, h4, dt, h5, tf, h6, by
      rw [h7, h8, h9, h10]⟩

/-- a complete deck is accepted -/
example : ∃ st, makeSolver ⟨some "IsentropicVortex", some "Euler", some "HLLC", none, none, some "RK4",
    some (1/100), some 1, none⟩ [1, 2] 0 0 = some st ∧ st.stepper = .RungeKutta4 ∧
    st.physics.γ = 14 / 10 :=
  ⟨⟨⟨.Euler, .HLLC, .IsentropicVortex, [1, 2], 14/10, 28705/100⟩, .RungeKutta4, 1/100, 1, 0⟩, by
    rw [C35_configuration]
    exact ⟨rfl, rfl, rfl, rfl, rfl, rfl, rfl, rfl, rfl, rfl⟩, rfl, rfl⟩

/-- a misspelt name is rejected -/
example (inp : SolverInput) (h : inp.fluxName = some "hllc") (data : List ℝ) (γ0 R0 : ℝ) :
    makeSolver inp data γ0 R0 = none := by
  cases e : makeSolver inp data γ0 R0 with
  | none => rfl
  | some st =>
    have := ((C35_configuration inp data γ0 R0 st).mp e).2.2.1
    rw [h] at this
    cases hf : st.physics.ftype <;> simp [hf, NumericalFluxType.label] at this

/-- the initial conditions that exist in `dim` dimensions -/
def icSupported (dim : ℕ) (ic : ICType) : Prop :=
  (dim = 2 ∧ ic ≠ .Sphere) ∨ (dim = 3 ∧ ic ≠ .Gaussian)

/-- C35: "Uniform" sets every state variable to the number given in the deck. -/
theorem C35_uniform (dim : ℕ) (hd : dim = 2 ∨ dim = 3) (ph : Physics) (hic : ph.ic = .Uniform)
    (hlen : dim + 2 ≤ ph.icData.length) (x Uq : ℕ → ℝ) (t : ℝ) :
    ∃ U, callIC dim ph x t Uq = some U ∧ ∀ k < dim + 2, ph.icData[k]? = some (U k) := by
  have key : ∀ k < dim + 2, ph.icData[k]? = some (ph.icData.getD k 0) := fun k hk => by
    rw [List.getD_eq_getElem?_getD, List.getElem?_eq_getElem (by omega)]; rfl
  rcases hd with rfl | rfl <;> simp only [callIC, hic, setUniform, hlen, if_true] <;>
    exact ⟨_, rfl, fun k hk => by rw [key k hk, if_pos (by omega)]⟩

/-- C35: a deck with too few numbers for "Uniform" makes the routine read past the data. -/
theorem C35_uniform_too_short (dim : ℕ) (hd : dim = 2 ∨ dim = 3) (ph : Physics)
    (hic : ph.ic = .Uniform) (hlen : ph.icData.length < dim + 2) (x Uq : ℕ → ℝ) (t : ℝ) :
    callIC dim ph x t Uq = none := by
  rcases hd with rfl | rfl <;> simp [callIC, hic, setUniform, show ¬ (_ ≤ _) from not_le.mpr hlen]

/-- C35: "IsentropicVortex" selects the vortex of the dimension, "Gaussian" (2D) and "Sphere" (3D)
the pointwise formulas of those names. -/
theorem C35_selects_routine (ph : Physics) (x Uq : ℕ → ℝ) (t : ℝ) :
    (ph.ic = .IsentropicVortex → callIC 2 ph x t Uq = vortex2 ph.icData ph.γ ph.R x t Uq ∧
      callIC 3 ph x t Uq = vortex3 ph.γ x t Uq) ∧
    (ph.ic = .Gaussian → 4 ≤ ph.icData.length → ∃ U, callIC 2 ph x t Uq = some U ∧ ∀ k < 4,
      U k = ph.icData.getD k 0 * Real.sin (30 * x 0 * x 0 * x 1) * (x 0 + 1) * (x 1 + 1)) ∧
    (ph.ic = .Sphere → 5 ≤ ph.icData.length → ∃ U, callIC 3 ph x t Uq = some U ∧ ∀ k < 5,
      U k = (Real.tanh (2 * Real.pi * (1 / 2 - Real.sqrt (x 0 ^ 2 + x 1 ^ 2 + x 2 ^ 2))) + 1) / 2) := by
  refine ⟨fun h => by simp [callIC, h], fun h hl => ?_, fun h hl => ?_⟩
  · simp only [callIC, h, setGaussian, hl, if_true]
    exact ⟨_, rfl, fun k hk => if_pos hk⟩
  · simp only [callIC, h, setSphere, hl, if_true]
    refine ⟨_, rfl, fun k hk => ?_⟩
    rw [if_pos hk, ← sq, ← sq, ← sq]
    rw [show Real.pi * (1 / 2 - Real.sqrt (x 0 ^ 2 + x 1 ^ 2 + x 2 ^ 2)) / (1 / 2)
      = 2 * Real.pi * (1 / 2 - Real.sqrt (x 0 ^ 2 + x 1 ^ 2 + x 2 ^ 2)) by ring]
    ring

/-- two results agree on the first `n` entries (and are defined together) -/
def AgreeN (n : ℕ) (A B : Option (ℕ → ℝ)) : Prop :=
  ∀ W, A = some W → ∃ W', B = some W' ∧ ∀ k < n, W' k = W k

theorem agreeN_bind {α : Type} {n : ℕ} {o : Option α} {f g : α → Option (ℕ → ℝ)}
    (h : ∀ a, AgreeN n (f a) (g a)) : AgreeN n (o >>= f) (o >>= g) := by
  cases o with
  | none => intro W hW; simp at hW
  | some a => exact h a

theorem vortex2_indep (data : List ℝ) (γ Rg : ℝ) (x : ℕ → ℝ) (t : ℝ) (U V : ℕ → ℝ) :
    AgreeN 4 (vortex2 data γ Rg x t U) (vortex2 data γ Rg x t V) := by
  unfold vortex2
  refine agreeN_bind fun _ => agreeN_bind fun _ => agreeN_bind fun _ => agreeN_bind fun _ =>
    agreeN_bind fun _ => ?_
  split
  · refine agreeN_bind fun _ => agreeN_bind fun _ => agreeN_bind fun _ => agreeN_bind fun _ =>
      agreeN_bind fun _ => agreeN_bind fun _ => agreeN_bind fun _ => agreeN_bind fun _ =>
      agreeN_bind fun _ => agreeN_bind fun _ => ?_
    rintro W ⟨⟩
    refine ⟨_, rfl, fun k hk => ?_⟩
    interval_cases k <;> rfl
  · rintro W ⟨⟩

theorem vortex3_indep (γ : ℝ) (x : ℕ → ℝ) (t : ℝ) (U V : ℕ → ℝ) :
    AgreeN 5 (vortex3 γ x t U) (vortex3 γ x t V) := by
  unfold vortex3
  refine agreeN_bind fun _ => agreeN_bind fun _ => agreeN_bind fun _ => agreeN_bind fun _ =>
    agreeN_bind fun _ => agreeN_bind fun _ => agreeN_bind fun _ => ?_
  rintro W ⟨⟩
  refine ⟨_, rfl, fun k hk => ?_⟩
  interval_cases k <;> rfl

/-- C35: an initial condition that exists in this dimension determines all state variables: nothing
of what the array held before survives. -/
theorem C35_sets_all (dim : ℕ) (ph : Physics) (h : icSupported dim ph.ic) (x U V W : ℕ → ℝ)
    (t : ℝ) (hW : callIC dim ph x t U = some W) :
    ∃ W', callIC dim ph x t V = some W' ∧ ∀ k < dim + 2, W' k = W k := by
  have hu : ∀ n, AgreeN n (setUniform n ph.icData U) (setUniform n ph.icData V) := by
    intro n W hW
    unfold setUniform at hW ⊢
    split at hW
    · obtain rfl := Option.some_inj.mp hW
      rename_i hh
      exact ⟨_, if_pos hh, fun k hk => by simp [hk]⟩
    · simp at hW
  have hg : ∀ n, AgreeN n (setGaussian n ph.icData x U) (setGaussian n ph.icData x V) := by
    intro n W hW
    unfold setGaussian at hW ⊢
    split at hW
    · obtain rfl := Option.some_inj.mp hW
      rename_i hh
      exact ⟨_, if_pos hh, fun k hk => by simp [hk]⟩
    · simp at hW
  have hs : ∀ n, AgreeN n (setSphere n ph.icData x U) (setSphere n ph.icData x V) := by
    intro n W hW
    unfold setSphere at hW ⊢
    simp only at hW ⊢
    split at hW
    · obtain rfl := Option.some_inj.mp hW
      rename_i hh
      exact ⟨_, if_pos hh, fun k hk => by simp [hk]⟩
    · simp at hW
  rcases h with ⟨rfl, h⟩ | ⟨rfl, h⟩ <;> cases hic : ph.ic <;> simp only [callIC, hic] at hW h ⊢
  · exact hu 4 W hW
  · exact hg 4 W hW
  · exact absurd rfl h
  · exact vortex2_indep _ _ _ _ _ U V W hW
  · exact hu 5 W hW
  · exact absurd rfl h
  · exact hs 5 W hW
  · exact vortex3_indep _ _ _ U V W hW

/-- C35 (what fails): an initial condition that does not exist in this dimension is not rejected, the
call succeeds and leaves the array as it was, for every content. -/
theorem C35_unsupported_not_rejected (dim : ℕ) (hd : dim = 2 ∨ dim = 3) (ph : Physics)
    (h : ¬ icSupported dim ph.ic) (x U : ℕ → ℝ) (t : ℝ) : callIC dim ph x t U = some U := by
  rcases hd with rfl | rfl <;> cases hic : ph.ic <;> simp [icSupported, hic] at h <;> simp [callIC, hic]

/-- C35 (complete): whenever the call succeeds for one content of the array, the state variables it
returns are independent of the content exactly when the condition exists in this dimension. -/
theorem C35_sets_all_iff (dim : ℕ) (hd : dim = 2 ∨ dim = 3) (ph : Physics) (x : ℕ → ℝ) (t : ℝ)
    (hdef : ∃ U W, callIC dim ph x t U = some W) :
    (∃ W : ℕ → ℝ, ∀ U, ∃ W', callIC dim ph x t U = some W' ∧ ∀ k < dim + 2, W' k = W k) ↔
      icSupported dim ph.ic := by
  constructor
  · rintro ⟨W, h⟩
    by_contra hc
    obtain ⟨A, hA, hA'⟩ := h fun _ => 0
    obtain ⟨B, hB, hB'⟩ := h fun _ => 1
    rw [C35_unsupported_not_rejected dim hd ph hc] at hA hB
    obtain rfl := Option.some_inj.mp hA
    obtain rfl := Option.some_inj.mp hB
    have a := hA' 0 (by omega)
    have b := hB' 0 (by omega)
    simp only at a b
    rw [← a] at b
    exact one_ne_zero b
  · intro h
    obtain ⟨U, W, hW⟩ := hdef
    exact ⟨W, fun V => C35_sets_all dim ph h x U V W t hW⟩

/-- C35: the exact solution used for the error is the initial-condition routine at the given time, and
a message is printed exactly when that routine does not exist in this dimension. -/
theorem C35_exact_is_ic (dim : ℕ) (hd : dim = 2 ∨ dim = 3) (ph : Physics) (x U : ℕ → ℝ) (t : ℝ) :
    ∃ msg : Bool, callExact dim ph x t U = (callIC dim ph x t U).map (·, msg) ∧
      (msg = true ↔ ¬ icSupported dim ph.ic) := by
  rcases hd with rfl | rfl <;> cases hic : ph.ic <;> simp [callIC, callExact, hic, icSupported]

example : icSupported 2 .Gaussian ∧ ¬ icSupported 3 .Gaussian := by simp [icSupported]

/-- C35: with Euler physics the flux name selects the numerical flux of that name with the configured
heat ratio, and whichever is named, equal states give the physical flux. -/
theorem C35_flux (dim : ℕ) (hd : dim = 2 ∨ dim = 3) (ph : Physics) (hE : ph.ptype = .Euler)
    (UL UR N Fq0 F0 : ℕ → ℝ) :
    (ph.ftype = .LaxFriedrichs → getConvFluxNumerical dim ph UL UR N Fq0 F0
      = laxFriedrichs dim ph.γ UL UR N Fq0 F0) ∧
    (ph.ftype = .HLLC → getConvFluxNumerical dim ph UL UR N Fq0 F0 = hllc dim ph.γ UL UR N F0) ∧
    (∀ U, 1 < ph.γ → Admissible dim ph.γ U → inner' dim N N ≠ 0 →
      ∃ F, getConvFluxNumerical dim ph U U N Fq0 F0 = some F ∧
        ∀ s < dim + 2, F s = eulerFlux dim ph.γ U N s) := by
  have hLF : ph.ftype = .LaxFriedrichs → ∀ UL UR, getConvFluxNumerical dim ph UL UR N Fq0 F0
      = laxFriedrichs dim ph.γ UL UR N Fq0 F0 := by
    intro h UL UR
    have e1 : (fun U F : ℕ → ℝ => (getConvFluxInterior dim ph U F).map Prod.fst)
        = convFlux dim ph.γ := by
      funext U F
      simp [getConvFluxInterior, hE, Option.map_map, Function.comp_def]
    have e2 : getMaxWaveSpeed dim ph = eulerMaxWaveSpeed dim ph.γ := by
      funext U; simp [getMaxWaveSpeed, hE]
    simp only [getConvFluxNumerical, h, e1, e2]
    rfl
  refine ⟨fun h => hLF h UL UR, fun h => by simp [getConvFluxNumerical, h], fun U hγ hU hN => ?_⟩
  cases hf : ph.ftype with
  | LaxFriedrichs =>
    rw [hLF hf]
    obtain ⟨F, hF⟩ := C31_defined dim hd ph.γ hγ U U N Fq0 F0 hU hU hN
    exact ⟨F, hF, C31_consistent dim ph.γ U N Fq0 F0 F hF⟩
  | HLLC =>
    simp only [getConvFluxNumerical, hf]
    obtain ⟨F, hF⟩ := C32_no_failure dim ph.γ hγ U U N F0 hU hU hN
    exact ⟨F, hF, C32_consistent dim ph.γ hγ U N F0 F hU hN hF⟩

/-- C35 (what fails): "NavierStokes" is accepted as a physics name, but its interior flux leaves the
output as it was and the Lax-Friedrichs flux has no defined result. -/
theorem C35_navier_stokes_not_rejected (dim : ℕ) (ph : Physics) (h : ph.ptype = .NavierStokes)
    (U F : ℕ → ℝ) : getConvFluxInterior dim ph U F = some (F, true) ∧ getMaxWaveSpeed dim ph U = none := by
  simp [getConvFluxInterior, getMaxWaveSpeed, h]

/-! ### C55 -/

/-- the order up to which the basis routine sets every function (Legendre formulas stop at 7) -/
def orderOk (t : BasisType) (p : ℕ) : Prop :=
  (t = .LegendreSeg ∨ t = .LegendreQuad ∨ t = .LegendreHex) → p ≤ 7

section
variable {K : Type} [Field K] [CharZero K]

theorem basisNodes_len (p : ℕ) : ∃ xn : List K, basisNodes p = some xn ∧ xn.length = p + 1 := by
  unfold basisNodes
  by_cases hp : p = 0
  · subst hp; exact ⟨[0], rfl, rfl⟩
  · exact ⟨_, equidistant1D_eq _ _ _ (by omega) _, by simp⟩

/-- C55: the announced number of basis functions is the size of the row the basis routine fills: with
a row of that size the routine succeeds, keeps the size, and every entry of the result is determined
by the point (nothing of the old row survives). -/
theorem C55_fills (t : BasisType) (p nb : ℕ) (x y z : K) (hnb : getNumBases t p = some nb)
    (hs : (basisShape t).isSome) (hp : orderOk t p) :
    ∃ phi : List K, phi.length = nb ∧ ∀ row : List K, row.length = nb →
      basisValues t p x y z row = some phi := by
  obtain ⟨xn, hxn, hxl⟩ := basisNodes_len (K := K) p
  have hrep : (List.replicate (p + 1) (0 : K)).length = xn.length := by simp [hxl]
  have hrep' : (List.replicate (p + 1) (0 : K)).length = p + 1 := by simp
  have hone : ∀ (n : ℕ) (row : List K), row.length = n → List.replicate row.length (1 : K)
      = List.replicate n 1 := fun n row h => by rw [h]
  have hpp : 0 < p → ¬ p = 0 := fun h => by omega
  cases t <;> simp [basisShape] at hs <;> simp only [getNumBases, Option.some.injEq, reduceCtorEq] at hnb <;>
    subst hnb <;> rcases Nat.eq_zero_or_pos p with rfl | h0
  · exact ⟨[1], rfl, fun row hr => by simp [basisValues, valuesLagrangeSeg, hr]⟩
  · refine ⟨_, ?_, fun row hr => by
      simp only [basisValues, valuesLagrangeSeg, hpp h0, if_false, hxn, Option.bind_some]
      exact lagrangeVal1D_eq x xn row (by omega)⟩
    simp [hxl]
  · exact ⟨[1], rfl, fun row hr => by simp [basisValues, valuesLagrangeQuad, hr]⟩
  · refine ⟨_, ?_, fun row hr => by
      simp only [basisValues, valuesLagrangeQuad, hpp h0, if_false, hxn, Option.bind_some,
        lagrangeVal2D, lagrangeVal1D_eq _ _ _ hrep, Option.bind_eq_bind]
      exact tensorVal2D_eq p _ _ row hr⟩
    simp
  · exact ⟨[1], rfl, fun row hr => by simp [basisValues, valuesLagrangeHex, hr]⟩
  · refine ⟨_, ?_, fun row hr => by
      simp only [basisValues, valuesLagrangeHex, hpp h0, if_false, hxn, Option.bind_some,
        lagrangeVal3D, lagrangeVal1D_eq _ _ _ hrep, Option.bind_eq_bind]
      exact tensorVal3D_eq p _ _ _ row hr⟩
    simp
  · exact ⟨[1], rfl, fun row hr => by simp [basisValues, valuesLegendreQuad, hr]⟩
  · obtain ⟨vx, h1, -⟩ := C21_values p (hp (by simp)) x _ hrep'
    obtain ⟨vy, h2, -⟩ := C21_values p (hp (by simp)) y _ hrep'
    refine ⟨_, ?_, fun row hr => by
      simp only [basisValues, valuesLegendreQuad, hpp h0, if_false, legendreVal2D, h1, h2,
        Option.bind_some, Option.bind_eq_bind]
      exact tensorVal2D_eq p _ _ row hr⟩
    simp
  · exact ⟨[1], rfl, fun row hr => by simp [basisValues, valuesLegendreHex, hr]⟩
  · obtain ⟨vx, h1, -⟩ := C21_values p (hp (by simp)) x _ hrep'
    obtain ⟨vy, h2, -⟩ := C21_values p (hp (by simp)) y _ hrep'
    obtain ⟨vz, h3, -⟩ := C21_values p (hp (by simp)) z _ hrep'
    refine ⟨_, ?_, fun row hr => by
      simp only [basisValues, valuesLegendreHex, hpp h0, if_false, legendreVal3D, h1, h2, h3,
        Option.bind_some, Option.bind_eq_bind]
      exact tensorVal3D_eq p _ _ _ row hr⟩
    simp

/-- if a sequence of in-place updates succeeds, the update of index `n` succeeded on an array of the
same length -/
theorem foldlM_step_some {α : Type} (f : List α → ℕ → Option (List α))
    (hf : ∀ a i b, f a i = some b → b.length = a.length) :
    ∀ (l : List ℕ) (a b : List α), l.foldlM f a = some b →
      b.length = a.length ∧ ∀ i ∈ l, ∃ a' b', a'.length = a.length ∧ f a' i = some b' := by
  intro l
  induction l with
  | nil => intro a b h; simp at h; subst h; simp
  | cons x xs ih =>
    intro a b h
    rw [List.foldlM_cons] at h
    obtain ⟨c, h1, h2⟩ := Option.bind_eq_some_iff.mp h
    obtain ⟨h3, h4⟩ := ih c b h2
    have h5 := hf a x c h1
    refine ⟨by omega, fun i hi => ?_⟩
    rcases List.mem_cons.mp hi with rfl | hi
    · exact ⟨a, c, rfl, h1⟩
    · obtain ⟨a', b', h6, h7⟩ := h4 i hi
      exact ⟨a', b', by omega, h7⟩

theorem setB_some {α : Type} {a b : List α} {i : ℕ} {v : α} (h : setB a i v = some b) :
    i < a.length ∧ b.length = a.length := by
  unfold setB at h
  split at h
  · obtain rfl := Option.some_inj.mp h; simp_all
  · simp at h

theorem tensorVal2D_len {p : ℕ} {vx vy row out : List K} (h : tensorVal2D p vx vy row = some out) :
    (p + 1) * (p + 1) ≤ row.length := by
  have step : ∀ j, ∀ a i (b : List K), setB a (j * (p + 1) + i) (get0 vx i * get0 vy j) = some b →
      b.length = a.length := fun j a i b h => (setB_some h).2
  obtain ⟨-, h2⟩ := foldlM_step_some _ (fun a j b h => (foldlM_step_some _ (step j) _ _ _ h).1) _ _ _ h
  obtain ⟨a, b, ha, h3⟩ := h2 p (by simp)
  obtain ⟨-, h4⟩ := foldlM_step_some _ (step p) _ _ _ h3
  obtain ⟨a', b', ha', h5⟩ := h4 p (by simp)
  have := (setB_some h5).1
  rw [Nat.succ_mul]; omega

theorem tensorVal3D_len {p : ℕ} {vx vy vz row out : List K}
    (h : tensorVal3D p vx vy vz row = some out) : (p + 1) * (p + 1) * (p + 1) ≤ row.length := by
  have step : ∀ k j, ∀ a i (b : List K), setB a (k * (p + 1) * (p + 1) + j * (p + 1) + i)
      (get0 vx i * get0 vy j * get0 vz k) = some b → b.length = a.length :=
    fun k j a i b h => (setB_some h).2
  have step2 : ∀ k, ∀ a j (b : List K), (List.range (p + 1)).foldlM (fun row i =>
        setB row (k * (p + 1) * (p + 1) + j * (p + 1) + i) (get0 vx i * get0 vy j * get0 vz k)) a
      = some b → b.length = a.length :=
    fun k a j b h => (foldlM_step_some _ (step k j) _ _ _ h).1
  obtain ⟨-, h2⟩ := foldlM_step_some _ (fun a k b h => (foldlM_step_some _ (step2 k) _ _ _ h).1) _ _ _ h
  obtain ⟨a, b, ha, h3⟩ := h2 p (by simp)
  obtain ⟨-, h4⟩ := foldlM_step_some _ (step2 p) _ _ _ h3
  obtain ⟨a', b', ha', h5⟩ := h4 p (by simp)
  obtain ⟨-, h6⟩ := foldlM_step_some _ (step p p) _ _ _ h5
  obtain ⟨a2, b2, ha2, h7⟩ := h6 p (by simp)
  have := (setB_some h7).1
  have e : (p + 1) * (p + 1) * (p + 1) = p * (p + 1) * (p + 1) + p * (p + 1) + p + 1 := by ring
  omega

theorem lagrangeVal1D_len {x : K} {xn phi out : List K} (h : lagrangeVal1D x xn phi = some out) :
    xn.length ≤ phi.length := by
  have step : ∀ i, ∀ a j (b : List K), (if i = j then some a else setB a i
      (get0 a i * ((x - get0 xn j) / (get0 xn i - get0 xn j)))) = some b → b.length = a.length := by
    intro i a j b h
    split at h
    · obtain rfl := Option.some_inj.mp h; rfl
    · exact (setB_some h).2
  unfold lagrangeVal1D at h
  obtain ⟨-, h2⟩ := foldlM_step_some _ (fun a i b h => by
    obtain ⟨c, h3, h4⟩ := Option.bind_eq_some_iff.mp h
    rw [(foldlM_step_some _ (step i) _ _ _ h4).1, (setB_some h3).2]) _ _ _ h
  by_contra hc
  obtain ⟨a, b, ha, h3⟩ := h2 (xn.length - 1) (by simp; omega)
  obtain ⟨c, h4, -⟩ := Option.bind_eq_some_iff.mp h3
  have := (setB_some h4).1
  omega

/-- C55: the announced number is also necessary: for positive orders a shorter row makes the basis
routine write outside of it. -/
theorem C55_no_smaller (t : BasisType) (p nb : ℕ) (h0 : 0 < p) (x y z : K)
    (hnb : getNumBases t p = some nb) (row : List K) (hr : row.length < nb) :
    basisValues t p x y z row = none := by
  rw [Option.eq_none_iff_forall_ne_some]
  intro out h
  obtain ⟨xn, hxn, hxl⟩ := basisNodes_len (K := K) p
  have hpp : ¬ p = 0 := by omega
  cases t <;> simp only [getNumBases, Option.some.injEq, reduceCtorEq] at hnb <;> subst hnb <;>
    simp only [basisValues, reduceCtorEq] at h
  · simp only [valuesLagrangeSeg, hpp, if_false, hxn, Option.bind_some] at h
    have := lagrangeVal1D_len h; omega
  · simp only [valuesLagrangeQuad, hpp, if_false, hxn, Option.bind_some, lagrangeVal2D,
      Option.bind_eq_bind] at h
    obtain ⟨vx, -, h⟩ := Option.bind_eq_some_iff.mp h
    obtain ⟨vy, -, h⟩ := Option.bind_eq_some_iff.mp h
    have := tensorVal2D_len h; omega
  · simp only [valuesLagrangeHex, hpp, if_false, hxn, Option.bind_some, lagrangeVal3D,
      Option.bind_eq_bind] at h
    obtain ⟨vx, -, h⟩ := Option.bind_eq_some_iff.mp h
    obtain ⟨vy, -, h⟩ := Option.bind_eq_some_iff.mp h
    obtain ⟨vz, -, h⟩ := Option.bind_eq_some_iff.mp h
    have := tensorVal3D_len h; omega
  · simp only [valuesLegendreQuad, hpp, if_false, legendreVal2D, Option.bind_eq_bind] at h
    obtain ⟨vx, -, h⟩ := Option.bind_eq_some_iff.mp h
    obtain ⟨vy, -, h⟩ := Option.bind_eq_some_iff.mp h
    have := tensorVal2D_len h; omega
  · simp only [valuesLegendreHex, hpp, if_false, legendreVal3D, Option.bind_eq_bind] at h
    obtain ⟨vx, -, h⟩ := Option.bind_eq_some_iff.mp h
    obtain ⟨vy, -, h⟩ := Option.bind_eq_some_iff.mp h
    obtain ⟨vz, -, h⟩ := Option.bind_eq_some_iff.mp h
    have := tensorVal3D_len h; omega

example : getNumBases .LegendreHex 3 = some 64 ∧ orderOk .LegendreHex 3 ∧
    (basisShape .LegendreHex).isSome := by
  simp [getNumBases, orderOk, basisShape]

end

/-- C55: whenever both the table and the basis object know the basis, they agree on the number of
functions. -/
theorem C55_table_agrees (t : BasisType) (p nb : ℕ) (sh : ShapeType) (f : Option ShapeType)
    (h1 : getNumBases t p = some nb) (h2 : basisShape t = some (sh, f)) : shapeNumBasis sh p = some nb := by
  cases t <;> simp [getNumBases, basisShape] at h1 h2 <;> obtain ⟨rfl, -⟩ := h2 <;>
    simp [shapeNumBasis, numBasisSeg, numBasisQuad, numBasisHex, h1]

/-- the name of a basis in the input deck -/
def BasisType.label : BasisType → String
  | .LagrangeSeg => "LagrangeSeg" | .LagrangeQuad => "LagrangeQuad" | .LagrangeHex => "LagrangeHex"
  | .LegendreSeg => "LegendreSeg" | .LegendreQuad => "LegendreQuad" | .LegendreHex => "LegendreHex"
  | .LagrangeGLL1D => "LagrangeGLL1D" | .LagrangeGLL2D => "LagrangeGLL2D"
  | .LagrangeGLL3D => "LagrangeGLL3D" | .LagrangeGL2D => "LagrangeGL2D"
  | .LagrangeGL3D => "LagrangeGL3D" | .TriangleLagrange => "TriangleLagrange"

theorem parse_basis (s : String) (a : BasisType) :
    parseEnum basisTable BasisType.members s = some a ↔ s = a.label :=
  parseEnum_iff _ _ _ rfl (by simp [basisTable]) s a (by decide) (by cases a <;> decide)

/-- C55: what the numerics constructor accepts and announces. -/
theorem C55_params (nbMax : ℕ) (o : Option ℕ) (b q : Option String) (g : ℕ) (P : NumParams)
    (h : makeNumParams nbMax o b q g = some P) :
    o = some P.order ∧ P.gorder = g ∧ b = some P.basis.label ∧ getNumBases P.basis P.order = some P.nb ∧ P.nb ≤ nbMax ∧
    getNumBases P.gbasis g = some P.gnb ∧
    (P.basis ≠ .TriangleLagrange → P.nb = P.nb1d ^ (P.nface / 2) ∧
      ∃ sh, basisShape P.gbasis = some sh) := by
  unfold makeNumParams at h
  obtain ⟨order, ho, h⟩ := Option.bind_eq_some_iff.mp h
  obtain ⟨name, hn, h⟩ := Option.bind_eq_some_iff.mp h
  obtain ⟨basis, hb, h⟩ := Option.bind_eq_some_iff.mp h
  obtain ⟨nb, hnb, h⟩ := Option.bind_eq_some_iff.mp h
  obtain ⟨nb1, hnb1, h⟩ := Option.bind_eq_some_iff.mp h
  split at h
  · rename_i hle
    obtain ⟨⟨gb, nf, no⟩, hg, h⟩ := Option.bind_eq_some_iff.mp h
    obtain ⟨gnb, hgn, h⟩ := Option.bind_eq_some_iff.mp h
    obtain ⟨qq, hq, h⟩ := Option.bind_eq_some_iff.mp h
    obtain rfl := Option.some_inj.mp h
    refine ⟨ho, rfl, by rw [hn, (parse_basis name basis).mp hb], hnb, hle, hgn, fun ht => ?_⟩
    cases basis <;> simp [getNumBases, getNumBases1d, geometricBasis] at hnb hnb1 hg ht <;>
      obtain ⟨rfl, rfl, rfl⟩ := hg <;> subst hnb hnb1 <;> simp [basisShape] <;> ring
  · simp at h

example : ∃ P, makeNumParams 300 (some 3) (some "LegendreHex") none 1 = some P ∧ P.nb = 64 ∧
    P.quad = .GaussLegendre := ⟨_, rfl, rfl, rfl⟩

/-- C55: the numbers of faces and of face orientations the numerics constructor announces are those of the
shape the basis object uses: two faces per direction, and as many orientations as a face - a cube with
one direction less - has symmetries. -/
theorem C55_faces (nbMax : ℕ) (o : Option ℕ) (b q : Option String) (g : ℕ) (P : NumParams)
    (h : makeNumParams nbMax o b q g = some P) (ht : P.basis ≠ .TriangleLagrange) :
    ∃ sh f dim, basisShape P.gbasis = some (sh, f) ∧ dim = shapeDim sh ∧
      P.nface = 2 * dim ∧ P.nface = shapeFaces sh ∧
      P.norient = 2 ^ (dim - 1) * (dim - 1).factorial ∧ P.norient = shapeOrients sh ∧
      (∀ sh' f', basisShape P.basis = some (sh', f') → sh' = sh) := by
  unfold makeNumParams at h
  obtain ⟨order, ho, h⟩ := Option.bind_eq_some_iff.mp h
  obtain ⟨name, hn, h⟩ := Option.bind_eq_some_iff.mp h
  obtain ⟨basis, hb, h⟩ := Option.bind_eq_some_iff.mp h
  obtain ⟨nb, hnb, h⟩ := Option.bind_eq_some_iff.mp h
  obtain ⟨nb1, hnb1, h⟩ := Option.bind_eq_some_iff.mp h
  split at h
  · obtain ⟨⟨gb, nf, no⟩, hg, h⟩ := Option.bind_eq_some_iff.mp h
    obtain ⟨gnb, hgn, h⟩ := Option.bind_eq_some_iff.mp h
    obtain ⟨qq, hq, h⟩ := Option.bind_eq_some_iff.mp h
    obtain rfl := Option.some_inj.mp h
    cases basis <;> simp [geometricBasis] at hg ht <;>
      obtain ⟨rfl, rfl, rfl⟩ := hg <;>
      simp [basisShape, shapeDim, shapeFaces, shapeOrients, Nat.factorial]
  · simp at h

example : ∃ P, makeNumParams 300 (some 2) (some "LagrangeHex") none 1 = some P ∧ P.nface = 6 ∧ P.norient = 8 :=
  ⟨_, rfl, rfl, rfl⟩

/-- C55 (what fails): the GLL, GL and triangle bases are accepted by the configuration and have
announced sizes, but the basis object has no routine for them; the 1D Legendre basis has a routine but
is rejected by the configuration. -/
theorem C55_unmatched (t : BasisType) : ((∀ p, (getNumBases t p).isSome) ∧ basisShape t = none ↔
      t ∈ [BasisType.LagrangeGLL1D, .LagrangeGLL2D, .LagrangeGLL3D, .LagrangeGL2D, .LagrangeGL3D,
        .TriangleLagrange]) ∧
    ((∀ p, getNumBases t p = none) ∧ (basisShape t).isSome ↔ t = .LegendreSeg) := by
  cases t <;> simp [getNumBases, basisShape]

/-- C55: the announced number of Gauss points is the one the quadrature object allocates. -/
theorem C55_quadrature (order dim nq0 : ℕ) :
    getNumQuad .GaussLegendre dim order = (numQuadPoints order dim nq0).2 := by
  simp only [getNumQuad, numQuadPoints]
  congr 1
  rcases Nat.even_or_odd' order with ⟨k, rfl | rfl⟩
  · rw [if_neg (by omega), if_pos (by omega)]
  · rw [if_pos (by omega)]; omega

/-- C55: the post-processing counts fit: with `m` cells per direction (`m` the order, at least 1),
every corner of every sub-cell is one of the announced points, there are `m^d` sub-cells and each has
`2^d` corners. -/
theorem C55_solfile (t : BasisType) (p np nc nv : ℕ) (h : solfileParams t p = some (np, nc, nv))
    (ht : t ≠ .TriangleLagrange) :
    let m := max p 1
    ∃ d, (d = 2 ∨ d = 3) ∧ nc = m ^ d ∧ nv = 2 ^ d ∧ np = (m + 1) ^ d ∧
      ∀ i j k a b c, i < m → j < m → k < (if d = 3 then m else 1) → a ≤ 1 → b ≤ 1 → c ≤ (d - 2) →
        (i + a) + (m + 1) * (j + b) + (m + 1) ^ 2 * (k + c) < np := by
  have key2 : ∀ m i j a b : ℕ, i < m → j < m → a ≤ 1 → b ≤ 1 →
      (i + a) + (m + 1) * (j + b) < (m + 1) ^ 2 := by
    intro m i j a b h1 h2 h3 h4
    have : (m + 1) * (j + b) ≤ (m + 1) * m := Nat.mul_le_mul_left _ (by omega)
    nlinarith
  have key3 : ∀ m i j k a b c : ℕ, i < m → j < m → k < m → a ≤ 1 → b ≤ 1 → c ≤ 1 →
      (i + a) + (m + 1) * (j + b) + (m + 1) ^ 2 * (k + c) < (m + 1) ^ 3 := by
    intro m i j k a b c h1 h2 h3 h4 h5 h6
    have h7 := key2 m i j a b h1 h2 h4 h5
    have h8 : (m + 1) ^ 2 * (k + c) ≤ (m + 1) ^ 2 * m := Nat.mul_le_mul_left _ (by omega)
    have h9 : (m + 1) ^ 3 = (m + 1) ^ 2 * m + (m + 1) ^ 2 := by ring
    omega
  have c2 : ∀ (hp : np = (max p 1 + 1) ^ 2) (hc : nc = max p 1 ^ 2) (hv : nv = 4), _ :=
    fun hp hc hv => (⟨2, Or.inl rfl, hc, by rw [hv]; norm_num, hp, by
      intro i j k a b c h1 h2 h3 h4 h5 h6
      obtain rfl : c = 0 := by omega
      obtain rfl : k = 0 := by simp at h3; exact h3
      rw [hp]; simpa using key2 _ i j a b h1 h2 h4 h5⟩ :
      ∃ d, (d = 2 ∨ d = 3) ∧ nc = max p 1 ^ d ∧ nv = 2 ^ d ∧ np = (max p 1 + 1) ^ d ∧
      ∀ i j k a b c, i < max p 1 → j < max p 1 → k < (if d = 3 then max p 1 else 1) → a ≤ 1 → b ≤ 1 →
        c ≤ (d - 2) → (i + a) + (max p 1 + 1) * (j + b) + (max p 1 + 1) ^ 2 * (k + c) < np)
  have c3 : ∀ (hp : np = (max p 1 + 1) ^ 3) (hc : nc = max p 1 ^ 3) (hv : nv = 8), _ :=
    fun hp hc hv => (⟨3, Or.inr rfl, hc, by rw [hv]; norm_num, hp, by
      intro i j k a b c h1 h2 h3 h4 h5 h6
      rw [hp]; exact key3 _ i j k a b c h1 h2 (by simpa using h3) h4 h5 (by omega)⟩ :
      ∃ d, (d = 2 ∨ d = 3) ∧ nc = max p 1 ^ d ∧ nv = 2 ^ d ∧ np = (max p 1 + 1) ^ d ∧
      ∀ i j k a b c, i < max p 1 → j < max p 1 → k < (if d = 3 then max p 1 else 1) → a ≤ 1 → b ≤ 1 →
        c ≤ (d - 2) → (i + a) + (max p 1 + 1) * (j + b) + (max p 1 + 1) ^ 2 * (k + c) < np)
  cases t <;> simp only [solfileParams, Option.some.injEq, Prod.mk.injEq, reduceCtorEq] at h ht <;>
    first
    | exact c2 h.1.symm h.2.1.symm h.2.2.symm
    | exact c3 h.1.symm h.2.1.symm h.2.2.symm
    | exact absurd rfl ht

example : solfileParams .LagrangeQuad 0 = some (4, 1, 4) := rfl

end DG
