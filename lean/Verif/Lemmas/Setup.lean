import Verif.Lemmas.Family
import Verif.Model.Setup
import Verif.Props.Mass
import Verif.Props.Shape

/-! Closed forms of the reference tables of the setup: rules, basis values and gradients. -/
namespace DG
open Finset Polynomial

/-! ### the one-dimensional rules -/

/-- points of the tabulated rule of order `o` -/
noncomputable def glX (o : ℕ) : ℕ → ℝ :=
  get0 ((segmentGL (K := ℝ) o (List.replicate (o / 2 + 1) 0) (List.replicate (o / 2 + 1) 0)).getD ([], [])).1

/-- weights of the tabulated rule of order `o` -/
noncomputable def glW (o : ℕ) : ℕ → ℝ :=
  get0 ((segmentGL (K := ℝ) o (List.replicate (o / 2 + 1) 0) (List.replicate (o / 2 + 1) 0)).getD ([], [])).2

/-- a rule with `n` distinct points inside the segment, symmetric, with positive weights -/
structure RuleOK (n : ℕ) (x w : ℕ → ℝ) : Prop where
  inj : ∀ i < n, ∀ j < n, x i = x j → i = j
  inside : ∀ i < n, -1 < x i ∧ x i < 1
  pos : ∀ i < n, 0 < w i
  symx : ∀ i < n, x (n - 1 - i) = - x i
  symw : ∀ i < n, w (n - 1 - i) = w i

/-- orders of the tables that are complete -/
def tableOK (o : ℕ) : Prop := o < 50 ∧ o ≠ 36 ∧ o ≠ 37

theorem gl_rule (o : ℕ) (h : tableOK o) :
    segmentGL (K := ℝ) o (List.replicate (o / 2 + 1) 0) (List.replicate (o / 2 + 1) 0)
      = some ((List.range (o / 2 + 1)).map (glX o), (List.range (o / 2 + 1)).map (glW o)) ∧
    RuleOK (o / 2 + 1) (glX o) (glW o) := by
  obtain ⟨h1, h2, h3⟩ := h
  obtain ⟨x, w, e, lx, lw, hinc, hin, hsx, hpos, hsw⟩ := C24_points_and_weights o h1 h2 h3
    (List.replicate (o / 2 + 1) 0) (List.replicate (o / 2 + 1) 0)
    (by rw [numQuadPoints_fst]; simp) (by rw [numQuadPoints_fst]; simp)
  rw [numQuadPoints_fst] at lx lw
  have ex : glX o = get0 x := by unfold glX; rw [e]; rfl
  have ew : glW o = get0 w := by unfold glW; rw [e]; rfl
  refine ⟨by rw [e, ex, ew, ← list_eq_range x lx, ← list_eq_range w lw], ?_⟩
  obtain ⟨i1, i2⟩ := seg_rule o h1 h2 h3 x w e
  rw [ex, ew]
  have gx : ∀ i (hi : i < x.length), get0 x i = x[i] := fun i hi => by
    simp [get0, List.getElem?_eq_getElem hi]
  have gw : ∀ i (hi : i < w.length), get0 w i = w[i] := fun i hi => by
    simp [get0, List.getElem?_eq_getElem hi]
  refine ⟨i1, fun i hi => ?_, i2, fun i hi => ?_, fun i hi => ?_⟩
  · rw [gx i (by omega)]; exact hin _ (List.getElem_mem _)
  · rw [gx i (by omega), gx _ (by omega)]
    have h4 : x.reverse[i]? = (x.map (- ·))[i]? := by rw [hsx]
    rw [List.getElem?_reverse (by omega), List.getElem?_map, List.getElem?_eq_getElem (by omega),
      List.getElem?_eq_getElem (by omega)] at h4
    simp only [Option.map_some, Option.some.injEq] at h4
    rw [← h4]; congr 1; omega
  · rw [gw i (by omega), gw _ (by omega)]
    have h4 : w.reverse[i]? = w[i]? := by rw [hsw]
    rw [List.getElem?_reverse (by omega), List.getElem?_eq_getElem (by omega),
      List.getElem?_eq_getElem (by omega)] at h4
    simp only [Option.some.injEq] at h4
    rw [← h4]; congr 1; omega

/-- quadrature of a polynomial by the tabulated rule -/
theorem gl_exact (o : ℕ) (h : tableOK o) (q : ℝ[X]) (hq : q.natDegree ≤ o) :
    |∑ i ∈ range (o / 2 + 1), glW o i * q.eval (glX o i) - ∫ x in (-1:ℝ)..1, q.eval x|
      ≤ 1 / 10 ^ 30 * coeffSum q := by
  obtain ⟨h1, h2, h3⟩ := h
  obtain ⟨x, w, e, he⟩ := C23_exact o h1 h2 h3
    (List.replicate (o / 2 + 1) 0) (List.replicate (o / 2 + 1) 0)
    (by rw [numQuadPoints_fst]; simp) (by rw [numQuadPoints_fst]; simp)
  have hr := (gl_rule o ⟨h1, h2, h3⟩).1
  rw [hr] at e
  have := Option.some.inj e
  simp only [Prod.mk.injEq] at this
  have h5 := he q hq
  rw [← this.1, ← this.2] at h5
  have e2 : quadSum ((List.range (o / 2 + 1)).map (glW o)) ((List.range (o / 2 + 1)).map (glX o))
      (fun x => q.eval x) = ∑ i ∈ range (o / 2 + 1), glW o i * q.eval (glX o i) :=
    quadSumOn_range _ _ _ _
  rwa [e2] at h5

/-! ### the rules of the shapes -/

theorem list_sq_eq {α : Type} {n : ℕ} (l : List α) (hl : l.length = n * n) (F : ℕ → ℕ → α)
    (h : ∀ i < n, ∀ j < n, l[j * n + i]? = some (F i j)) :
    l = (List.range (n * n)).map fun k : ℕ => F (k % n) (k / n) := by
  refine List.ext_getElem? fun k => ?_
  by_cases hk : k < n * n
  · obtain ⟨hr, hc⟩ := div_mod_lt hk
    have := h _ hc _ hr
    rw [Nat.div_add_mod'] at this
    rw [this]; simp [hk]
  · rw [List.getElem?_eq_none (by omega), List.getElem?_eq_none (by simp; omega)]

theorem list_cube_eq {α : Type} {n : ℕ} (l : List α) (hl : l.length = n * n * n)
    (F : ℕ → ℕ → ℕ → α)
    (h : ∀ i < n, ∀ j < n, ∀ k < n, l[k * n * n + j * n + i]? = some (F i j k)) :
    l = (List.range (n * n * n)).map fun k : ℕ => F (k % n) (k / n % n) (k / (n * n)) := by
  refine List.ext_getElem? fun k => ?_
  by_cases hk : k < n * n * n
  · have hn : 0 < n := by rcases Nat.eq_zero_or_pos n with h0 | h0 <;> simp_all
    have h1 : k % n < n := Nat.mod_lt _ hn
    have h2 : k / n % n < n := Nat.mod_lt _ hn
    have h3 : k / (n * n) < n := by
      rw [Nat.div_lt_iff_lt_mul (Nat.mul_pos hn hn)]; rw [mul_comm n (n * n)]; exact hk
    have := h _ h1 _ h2 _ h3
    have e : k / (n * n) * n * n + k / n % n * n + k % n = k := by
      rw [← Nat.div_div_eq_div_mul]
      have a1 := Nat.div_add_mod' (k / n) n
      have a2 := Nat.div_add_mod' k n
      calc k / n / n * n * n + k / n % n * n + k % n = (k / n / n * n + k / n % n) * n + k % n := by ring
        _ = k := by rw [a1, a2]
    rw [e] at this
    rw [this]; simp [hk]
  · rw [List.getElem?_eq_none (by omega), List.getElem?_eq_none (by simp; omega)]

theorem getQuadrature_seg (p : ℕ) (h : tableOK (2 * p + 1)) :
    getQuadrature (K := ℝ) .Segment p =
      some ((List.range (p + 1)).map (fun i : ℕ => (glX (2 * p + 1) i, 0, 0)),
        (List.range (p + 1)).map (glW (2 * p + 1))) := by
  have hr := (gl_rule _ h).1
  have e : (2 * p + 1) / 2 + 1 = p + 1 := by omega
  rw [e] at hr
  unfold getQuadrature
  have e2 : (numQuadPoints (segGaussOrder p) 1 0).2 = p + 1 := by
    rw [(C25_sizes _ 1 0).1]; simp only [segGaussOrder, pow_one]; omega
  simp only [e2]
  simp only [segGaussOrder]
  rw [hr]
  simp only [Option.map_some, List.map_map]
  rfl

theorem getQuadrature_quad (p : ℕ) (h : tableOK (2 * p + 3)) :
    getQuadrature (K := ℝ) .Quadrilateral p =
      some ((List.range ((p + 2) * (p + 2))).map (fun k : ℕ =>
          (glX (2 * p + 3) (k % (p + 2)), glX (2 * p + 3) (k / (p + 2)), 0)),
        (List.range ((p + 2) * (p + 2))).map fun k : ℕ =>
          glW (2 * p + 3) (k % (p + 2)) * glW (2 * p + 3) (k / (p + 2))) := by
  have hr := (gl_rule _ h).1
  have e : (2 * p + 3) / 2 + 1 = p + 2 := by omega
  rw [e] at hr
  have eo : quadGaussOrder p = 2 * p + 3 := rfl
  have e1 : (numQuadPoints (2 * p + 3) 2 0).1 = p + 2 := by rw [numQuadPoints_fst]; omega
  have e2 : (numQuadPoints (2 * p + 3) 2 0).2 = (p + 2) * (p + 2) := by
    rw [(C25_sizes _ 2 0).1]; simp only [e]; ring
  obtain ⟨x, w, pts, wts, h1, h2, h3, h4, h5, -⟩ := C26_quad_tensor (2 * p + 3) h.1
    (List.replicate ((p + 2) * (p + 2)) (0, 0)) (List.replicate ((p + 2) * (p + 2)) 0)
    (by simp [e2]) (by simp [e2])
  rw [e1, hr] at h1
  have h1' := Option.some.inj h1
  simp only [Prod.mk.injEq] at h1'
  obtain ⟨rfl, rfl⟩ := h1'
  simp only [getQuadrature, eo, e1, e2]
  rw [e1] at h2 h5
  rw [h2]
  simp only [List.length_replicate] at h3 h4
  have hp : pts = (List.range ((p + 2) * (p + 2))).map fun k : ℕ =>
      (glX (2 * p + 3) (k % (p + 2)), glX (2 * p + 3) (k / (p + 2))) := by
    refine list_sq_eq pts h3 (fun i j => (glX (2 * p + 3) i, glX (2 * p + 3) j)) fun i hi j hj => ?_
    obtain ⟨xi, xj, wi, wj, a1, a2, -, -, a5, -⟩ := h5 i hi j hj
    simp [hi, hj] at a1 a2
    rw [a5, a1, a2]
  have hw : wts = (List.range ((p + 2) * (p + 2))).map fun k : ℕ =>
      glW (2 * p + 3) (k % (p + 2)) * glW (2 * p + 3) (k / (p + 2)) := by
    refine list_sq_eq wts h4 (fun i j => glW (2 * p + 3) i * glW (2 * p + 3) j) fun i hi j hj => ?_
    obtain ⟨xi, xj, wi, wj, -, -, a1, a2, -, a5⟩ := h5 i hi j hj
    simp [hi, hj] at a1 a2
    rw [a5, a1, a2]
  rw [hp, hw]
  simp only [Option.map_some, List.map_map]
  rfl

theorem getQuadrature_hex (p : ℕ) (h : tableOK (2 * p + 3)) :
    getQuadrature (K := ℝ) .Hexahedron p =
      some ((List.range ((p + 2) * (p + 2) * (p + 2))).map (fun k : ℕ =>
          (glX (2 * p + 3) (k % (p + 2)), glX (2 * p + 3) (k / (p + 2) % (p + 2)),
            glX (2 * p + 3) (k / ((p + 2) * (p + 2))))),
        (List.range ((p + 2) * (p + 2) * (p + 2))).map fun k : ℕ =>
          glW (2 * p + 3) (k % (p + 2)) * glW (2 * p + 3) (k / (p + 2) % (p + 2))
            * glW (2 * p + 3) (k / ((p + 2) * (p + 2)))) := by
  have hr := (gl_rule _ h).1
  have e : (2 * p + 3) / 2 + 1 = p + 2 := by omega
  rw [e] at hr
  have eo : gaussOrder p = 2 * p + 3 := by unfold gaussOrder; ring
  have e1 : (numQuadPoints (2 * p + 3) 3 0).1 = p + 2 := by rw [numQuadPoints_fst]; omega
  have e2 : (numQuadPoints (2 * p + 3) 3 0).2 = (p + 2) * (p + 2) * (p + 2) := by
    rw [(C25_sizes _ 3 0).1]; simp only [e]; ring
  obtain ⟨x, w, pts, wts, h1, h2, h3, h4, h5, -⟩ := C26_hex_tensor (2 * p + 3) h.1
    (List.replicate ((p + 2) * (p + 2) * (p + 2)) (0, 0, 0))
    (List.replicate ((p + 2) * (p + 2) * (p + 2)) 0)
    (by simp [e2]) (by simp [e2])
  rw [e1, hr] at h1
  have h1' := Option.some.inj h1
  simp only [Prod.mk.injEq] at h1'
  obtain ⟨rfl, rfl⟩ := h1'
  simp only [getQuadrature, eo, e1, e2]
  rw [e1] at h2 h5
  rw [h2]
  simp only [List.length_replicate] at h3 h4
  have hp : pts = (List.range ((p + 2) * (p + 2) * (p + 2))).map fun k : ℕ =>
      (glX (2 * p + 3) (k % (p + 2)), glX (2 * p + 3) (k / (p + 2) % (p + 2)),
        glX (2 * p + 3) (k / ((p + 2) * (p + 2)))) := by
    refine list_cube_eq pts h3 (fun i j k => (glX (2 * p + 3) i, glX (2 * p + 3) j,
      glX (2 * p + 3) k)) fun i hi j hj k hk => ?_
    obtain ⟨xi, xj, xk, wi, wj, wk, a1, a2, a3, -, -, -, a5, -⟩ := h5 i hi j hj k hk
    simp [hi, hj, hk] at a1 a2 a3
    rw [a5, a1, a2, a3]
  have hw : wts = (List.range ((p + 2) * (p + 2) * (p + 2))).map fun k : ℕ =>
      glW (2 * p + 3) (k % (p + 2)) * glW (2 * p + 3) (k / (p + 2) % (p + 2))
        * glW (2 * p + 3) (k / ((p + 2) * (p + 2))) := by
    refine list_cube_eq wts h4 (fun i j k => glW (2 * p + 3) i * glW (2 * p + 3) j *
      glW (2 * p + 3) k) fun i hi j hj k hk => ?_
    obtain ⟨xi, xj, xk, wi, wj, wk, -, -, -, a1, a2, a3, -, a5⟩ := h5 i hi j hj k hk
    simp [hi, hj, hk] at a1 a2 a3
    rw [a5, a1, a2, a3]
  rw [hp, hw]

/-! ### basis tables -/

theorem grads_quad (t : Fam) (p : ℕ) (hp : famOK t p) (pt : ℝ × ℝ × ℝ) :
    basisGrads (quadType t) p ((p + 1) * (p + 1)) pt = some (grad2
      ((List.range ((p + 1) * (p + 1))).map fun m : ℕ =>
        ((derivative (famPoly t p (m % (p + 1)))).eval pt.1 * (famPoly t p (m / (p + 1))).eval pt.2.1,
         (famPoly t p (m % (p + 1))).eval pt.1 * (derivative (famPoly t p (m / (p + 1)))).eval pt.2.1))) := by
  cases t with
  | lagrange =>
    by_cases h0 : p = 0
    · subst h0
      simp [basisGrads, quadType, gradsLagrangeQuad, famPoly, lagPoly_zero_order]
    · simp only [basisGrads, quadType]
      rw [gradsLagrangeQuad_eq p (by omega) _ _ _ (by simp)]
      rfl
  | legendre =>
    simp only [basisGrads, quadType]
    rw [gradsLegendreQuad_eq p hp _ _ _ (by simp) (by rintro rfl; simp)]
    rfl

theorem grads_hex (t : Fam) (p : ℕ) (hp : famOK t p) (pt : ℝ × ℝ × ℝ) :
    basisGrads (hexType t) p ((p + 1) * (p + 1) * (p + 1)) pt = some (grad3
      ((List.range ((p + 1) * (p + 1) * (p + 1))).map fun m : ℕ =>
        ((derivative (famPoly t p (m % (p + 1)))).eval pt.1
          * (famPoly t p (m / (p + 1) % (p + 1))).eval pt.2.1
          * (famPoly t p (m / ((p + 1) * (p + 1)))).eval pt.2.2,
         (famPoly t p (m % (p + 1))).eval pt.1
          * (derivative (famPoly t p (m / (p + 1) % (p + 1)))).eval pt.2.1
          * (famPoly t p (m / ((p + 1) * (p + 1)))).eval pt.2.2,
         (famPoly t p (m % (p + 1))).eval pt.1
          * (famPoly t p (m / (p + 1) % (p + 1))).eval pt.2.1
          * (derivative (famPoly t p (m / ((p + 1) * (p + 1))))).eval pt.2.2))) := by
  cases t with
  | lagrange =>
    by_cases h0 : p = 0
    · subst h0
      simp [basisGrads, hexType, gradsLagrangeHex, famPoly, lagPoly_zero_order]
    · simp only [basisGrads, hexType]
      rw [gradsLagrangeHex_eq p (by omega) _ _ _ _ (by simp)]
      rfl
  | legendre =>
    simp only [basisGrads, hexType]
    rw [gradsLegendreHex_eq p hp _ _ _ _ (by simp) (by rintro rfl; simp)]
    rfl

theorem values_quad_rows (t : Fam) (p : ℕ) (hp : famOK t p) (pts : List (ℝ × ℝ × ℝ)) :
    valueRows (quadType t) p ((p + 1) * (p + 1)) pts = some (pts.map fun pt =>
      (List.range ((p + 1) * (p + 1))).map fun m : ℕ =>
        (famPoly t p (m % (p + 1))).eval pt.1 * (famPoly t p (m / (p + 1))).eval pt.2.1) := by
  unfold valueRows valuesAt
  exact mapM_some _ _ _ fun pt _ => values_quad t p hp _ _ _ _ (by simp)

theorem values_hex_rows (t : Fam) (p : ℕ) (hp : famOK t p) (pts : List (ℝ × ℝ × ℝ)) :
    valueRows (hexType t) p ((p + 1) * (p + 1) * (p + 1)) pts = some (pts.map fun pt =>
      (List.range ((p + 1) * (p + 1) * (p + 1))).map fun m : ℕ =>
        (famPoly t p (m % (p + 1))).eval pt.1 * (famPoly t p (m / (p + 1) % (p + 1))).eval pt.2.1
          * (famPoly t p (m / ((p + 1) * (p + 1)))).eval pt.2.2) := by
  unfold valueRows valuesAt
  exact mapM_some _ _ _ fun pt _ => values_hex t p hp _ _ _ _ (by simp)

/-- closed form of the volume tables of a quadrilateral -/
theorem volRef_quad (t : Fam) (p g qo : ℕ) (hp : famOK t p) (ho : tableOK (2 * qo + 3)) :
    ∃ ref, volRef (K := ℝ) (quadType t) .LagrangeQuad p g qo = some ref ∧
      ref.nq = (qo + 2) * (qo + 2) ∧
      ∀ q < (qo + 2) * (qo + 2),
        ref.wts q = glW (2 * qo + 3) (q % (qo + 2)) * glW (2 * qo + 3) (q / (qo + 2)) ∧
        (∀ b < (p + 1) * (p + 1),
          ref.val q b = (famPoly t p (b % (p + 1))).eval (glX (2 * qo + 3) (q % (qo + 2)))
            * (famPoly t p (b / (p + 1))).eval (glX (2 * qo + 3) (q / (qo + 2))) ∧
          ref.grad q b 0 = (derivative (famPoly t p (b % (p + 1)))).eval (glX (2 * qo + 3) (q % (qo + 2)))
            * (famPoly t p (b / (p + 1))).eval (glX (2 * qo + 3) (q / (qo + 2))) ∧
          ref.grad q b 1 = (famPoly t p (b % (p + 1))).eval (glX (2 * qo + 3) (q % (qo + 2)))
            * (derivative (famPoly t p (b / (p + 1)))).eval (glX (2 * qo + 3) (q / (qo + 2)))) ∧
        ∀ b < (g + 1) * (g + 1),
          get0 (ref.gval q) b = (famPoly .lagrange g (b % (g + 1))).eval (glX (2 * qo + 3) (q % (qo + 2)))
            * (famPoly .lagrange g (b / (g + 1))).eval (glX (2 * qo + 3) (q / (qo + 2))) ∧
          ref.ggrad q b 0 = (derivative (famPoly .lagrange g (b % (g + 1)))).eval (glX (2 * qo + 3) (q % (qo + 2)))
            * (famPoly .lagrange g (b / (g + 1))).eval (glX (2 * qo + 3) (q / (qo + 2))) ∧
          ref.ggrad q b 1 = (famPoly .lagrange g (b % (g + 1))).eval (glX (2 * qo + 3) (q % (qo + 2)))
            * (derivative (famPoly .lagrange g (b / (g + 1)))).eval (glX (2 * qo + 3) (q / (qo + 2))) := by
  have es : basisShape (quadType t) = some (.Quadrilateral, some .Segment) := by cases t <;> rfl
  have eg : basisShape .LagrangeQuad = some (.Quadrilateral, some .Segment) := rfl
  have en : ∀ p, shapeNumBasis .Quadrilateral p = some ((p + 1) * (p + 1)) := fun _ => rfl
  have hg : famOK .lagrange g := trivial
  unfold volRef
  rw [es, eg]
  simp only [Option.bind_eq_bind, Option.bind_some, en]
  rw [getQuadrature_quad qo ho]
  simp only [Option.bind_some]
  rw [values_quad_rows t p hp, mapM_some _ _ _ fun pt _ => grads_quad t p hp pt,
    show BasisType.LagrangeQuad = quadType .lagrange from rfl,
    values_quad_rows .lagrange g hg, mapM_some _ _ _ fun pt _ => grads_quad .lagrange g hg pt]
  simp only [Option.bind_some]
  refine ⟨_, rfl, by simp, fun q hq => ⟨?_, fun b hb => ⟨?_, ?_, ?_⟩, fun b hb => ⟨?_, ?_, ?_⟩⟩⟩
  · simp [get0, hq]
  all_goals simp [get0, rowsView, grad2, hq, hb]

/-- closed form of the volume tables of a hexahedron -/
theorem volRef_hex (t : Fam) (p g qo : ℕ) (hp : famOK t p) (ho : tableOK (2 * qo + 3)) :
    ∃ ref, volRef (K := ℝ) (hexType t) .LagrangeHex p g qo = some ref ∧
      ref.nq = (qo + 2) * (qo + 2) * (qo + 2) ∧
      ∀ q < (qo + 2) * (qo + 2) * (qo + 2),
        ref.wts q = glW (2 * qo + 3) (q % (qo + 2)) * glW (2 * qo + 3) (q / (qo + 2) % (qo + 2))
          * glW (2 * qo + 3) (q / ((qo + 2) * (qo + 2))) ∧
        (∀ b < (p + 1) * (p + 1) * (p + 1),
          ref.val q b = (famPoly t p (b % (p + 1))).eval (glX (2 * qo + 3) (q % (qo + 2)))
            * (famPoly t p (b / (p + 1) % (p + 1))).eval (glX (2 * qo + 3) (q / (qo + 2) % (qo + 2)))
            * (famPoly t p (b / ((p + 1) * (p + 1)))).eval (glX (2 * qo + 3) (q / ((qo + 2) * (qo + 2)))) ∧
          ref.grad q b 0 = (derivative (famPoly t p (b % (p + 1)))).eval (glX (2 * qo + 3) (q % (qo + 2)))
            * (famPoly t p (b / (p + 1) % (p + 1))).eval (glX (2 * qo + 3) (q / (qo + 2) % (qo + 2)))
            * (famPoly t p (b / ((p + 1) * (p + 1)))).eval (glX (2 * qo + 3) (q / ((qo + 2) * (qo + 2)))) ∧
          ref.grad q b 1 = (famPoly t p (b % (p + 1))).eval (glX (2 * qo + 3) (q % (qo + 2)))
            * (derivative (famPoly t p (b / (p + 1) % (p + 1)))).eval (glX (2 * qo + 3) (q / (qo + 2) % (qo + 2)))
            * (famPoly t p (b / ((p + 1) * (p + 1)))).eval (glX (2 * qo + 3) (q / ((qo + 2) * (qo + 2)))) ∧
          ref.grad q b 2 = (famPoly t p (b % (p + 1))).eval (glX (2 * qo + 3) (q % (qo + 2)))
            * (famPoly t p (b / (p + 1) % (p + 1))).eval (glX (2 * qo + 3) (q / (qo + 2) % (qo + 2)))
            * (derivative (famPoly t p (b / ((p + 1) * (p + 1))))).eval (glX (2 * qo + 3) (q / ((qo + 2) * (qo + 2))))) ∧
        ∀ b < (g + 1) * (g + 1) * (g + 1),
          get0 (ref.gval q) b = (famPoly .lagrange g (b % (g + 1))).eval (glX (2 * qo + 3) (q % (qo + 2)))
            * (famPoly .lagrange g (b / (g + 1) % (g + 1))).eval (glX (2 * qo + 3) (q / (qo + 2) % (qo + 2)))
            * (famPoly .lagrange g (b / ((g + 1) * (g + 1)))).eval (glX (2 * qo + 3) (q / ((qo + 2) * (qo + 2)))) ∧
          ref.ggrad q b 0 = (derivative (famPoly .lagrange g (b % (g + 1)))).eval (glX (2 * qo + 3) (q % (qo + 2)))
            * (famPoly .lagrange g (b / (g + 1) % (g + 1))).eval (glX (2 * qo + 3) (q / (qo + 2) % (qo + 2)))
            * (famPoly .lagrange g (b / ((g + 1) * (g + 1)))).eval (glX (2 * qo + 3) (q / ((qo + 2) * (qo + 2)))) ∧
          ref.ggrad q b 1 = (famPoly .lagrange g (b % (g + 1))).eval (glX (2 * qo + 3) (q % (qo + 2)))
            * (derivative (famPoly .lagrange g (b / (g + 1) % (g + 1)))).eval (glX (2 * qo + 3) (q / (qo + 2) % (qo + 2)))
            * (famPoly .lagrange g (b / ((g + 1) * (g + 1)))).eval (glX (2 * qo + 3) (q / ((qo + 2) * (qo + 2)))) ∧
          ref.ggrad q b 2 = (famPoly .lagrange g (b % (g + 1))).eval (glX (2 * qo + 3) (q % (qo + 2)))
            * (famPoly .lagrange g (b / (g + 1) % (g + 1))).eval (glX (2 * qo + 3) (q / (qo + 2) % (qo + 2)))
            * (derivative (famPoly .lagrange g (b / ((g + 1) * (g + 1))))).eval (glX (2 * qo + 3) (q / ((qo + 2) * (qo + 2)))) := by
  have es : basisShape (hexType t) = some (.Hexahedron, some .Quadrilateral) := by cases t <;> rfl
  have eg : basisShape .LagrangeHex = some (.Hexahedron, some .Quadrilateral) := rfl
  have en : ∀ p, shapeNumBasis .Hexahedron p = some ((p + 1) * (p + 1) * (p + 1)) := fun _ => rfl
  have hg : famOK .lagrange g := trivial
  unfold volRef
  rw [es, eg]
  simp only [Option.bind_eq_bind, Option.bind_some, en]
  rw [getQuadrature_hex qo ho]
  simp only [Option.bind_some]
  rw [values_hex_rows t p hp, mapM_some _ _ _ fun pt _ => grads_hex t p hp pt,
    show BasisType.LagrangeHex = hexType .lagrange from rfl,
    values_hex_rows .lagrange g hg, mapM_some _ _ _ fun pt _ => grads_hex .lagrange g hg pt]
  simp only [Option.bind_some]
  refine ⟨_, rfl, by simp, fun q hq => ⟨?_, fun b hb => ⟨?_, ?_, ?_, ?_⟩, fun b hb => ⟨?_, ?_, ?_, ?_⟩⟩⟩
  · simp [get0, hq]
  all_goals simp [get0, rowsView, grad3, hq, hb]

/-- closed form of the face tables of a quadrilateral -/
theorem faceRef_quad (t : Fam) (p : ℕ) (hp : famOK t p) (ho : tableOK (2 * p + 1)) :
    ∃ fr, faceRef (K := ℝ) (quadType t) p = some fr ∧ fr.nqf = p + 1 ∧
      fr.pts = (List.range (p + 1)).map (fun i : ℕ => (glX (2 * p + 1) i, 0, 0)) ∧
      (∀ q < p + 1, fr.wts q = glW (2 * p + 1) q) ∧
      ∀ f < 4, ∀ q < p + 1, ∀ b < (p + 1) * (p + 1),
        fr.val f q b = (famPoly t p (b % (p + 1))).eval (quadPt f 0 (glX (2 * p + 1) q)).1
            * (famPoly t p (b / (p + 1))).eval (quadPt f 0 (glX (2 * p + 1) q)).2 := by
  have es : basisShape (quadType t) = some (.Quadrilateral, some .Segment) := by cases t <;> rfl
  have en : ∀ p, shapeNumBasis .Quadrilateral p = some ((p + 1) * (p + 1)) := fun _ => rfl
  unfold faceRef
  rw [es]
  simp only [Option.bind_eq_bind, Option.bind_some, en]
  rw [getQuadrature_seg p ho]
  simp only [Option.bind_some]
  have hrow : ∀ f ∈ List.range (shapeFaces .Quadrilateral), faceRows (quadType t) .Quadrilateral p
      ((p + 1) * (p + 1)) ((List.range (p + 1)).map (fun i : ℕ => (glX (2 * p + 1) i, (0:ℝ), (0:ℝ)))) f =
      some ((List.range (p + 1)).map fun i : ℕ => (List.range ((p + 1) * (p + 1))).map fun m : ℕ =>
        (famPoly t p (m % (p + 1))).eval (quadPt f 0 (glX (2 * p + 1) i)).1
          * (famPoly t p (m / (p + 1))).eval (quadPt f 0 (glX (2 * p + 1) i)).2) := by
    intro f hf
    have hf' : f < 4 := List.mem_range.1 hf
    unfold faceRows pointsOnFace
    simp only
    rw [pointsOnFaceQuad_eq f 0 hf']
    simp only [Option.map_some, Option.bind_some]
    rw [values_quad_rows t p hp]
    simp [List.map_map, Function.comp_def]
  rw [mapM_some _ _ _ hrow]
  simp only [Option.bind_some]
  refine ⟨_, rfl, by simp, rfl, fun q hq => ?_, fun f hf q hq b hb => ?_⟩
  · simp [get0, hq]
  · simp [rowsView, get0, shapeFaces, hf, hq, hb]

/-- closed form of the face tables of a hexahedron -/
theorem faceRef_hex (t : Fam) (p : ℕ) (hp : famOK t p) (ho : tableOK (2 * p + 3)) :
    ∃ fr, faceRef (K := ℝ) (hexType t) p = some fr ∧ fr.nqf = (p + 2) * (p + 2) ∧
      fr.pts = (List.range ((p + 2) * (p + 2))).map (fun k : ℕ =>
          (glX (2 * p + 3) (k % (p + 2)), glX (2 * p + 3) (k / (p + 2)), 0)) ∧
      (∀ q < (p + 2) * (p + 2),
        fr.wts q = glW (2 * p + 3) (q % (p + 2)) * glW (2 * p + 3) (q / (p + 2))) ∧
      ∀ f < 6, ∀ q < (p + 2) * (p + 2), ∀ b < (p + 1) * (p + 1) * (p + 1),
        fr.val f q b =
          (famPoly t p (b % (p + 1))).eval
              (hexPt f 0 (glX (2 * p + 3) (q % (p + 2)), glX (2 * p + 3) (q / (p + 2)))).1
            * (famPoly t p (b / (p + 1) % (p + 1))).eval
              (hexPt f 0 (glX (2 * p + 3) (q % (p + 2)), glX (2 * p + 3) (q / (p + 2)))).2.1
            * (famPoly t p (b / ((p + 1) * (p + 1)))).eval
              (hexPt f 0 (glX (2 * p + 3) (q % (p + 2)), glX (2 * p + 3) (q / (p + 2)))).2.2 := by
  have es : basisShape (hexType t) = some (.Hexahedron, some .Quadrilateral) := by cases t <;> rfl
  have en : ∀ p, shapeNumBasis .Hexahedron p = some ((p + 1) * (p + 1) * (p + 1)) := fun _ => rfl
  unfold faceRef
  rw [es]
  simp only [Option.bind_eq_bind, Option.bind_some, en]
  rw [getQuadrature_quad p ho]
  simp only [Option.bind_some]
  have hrow : ∀ f ∈ List.range (shapeFaces .Hexahedron), faceRows (hexType t) .Hexahedron p
      ((p + 1) * (p + 1) * (p + 1)) ((List.range ((p + 2) * (p + 2))).map (fun k : ℕ =>
          (glX (2 * p + 3) (k % (p + 2)), glX (2 * p + 3) (k / (p + 2)), (0:ℝ)))) f =
      some ((List.range ((p + 2) * (p + 2))).map fun q : ℕ =>
        (List.range ((p + 1) * (p + 1) * (p + 1))).map fun b : ℕ =>
          (famPoly t p (b % (p + 1))).eval
              (hexPt f 0 (glX (2 * p + 3) (q % (p + 2)), glX (2 * p + 3) (q / (p + 2)))).1
            * (famPoly t p (b / (p + 1) % (p + 1))).eval
              (hexPt f 0 (glX (2 * p + 3) (q % (p + 2)), glX (2 * p + 3) (q / (p + 2)))).2.1
            * (famPoly t p (b / ((p + 1) * (p + 1)))).eval
              (hexPt f 0 (glX (2 * p + 3) (q % (p + 2)), glX (2 * p + 3) (q / (p + 2)))).2.2) := by
    intro f hf
    have hf' : f < 6 := List.mem_range.1 hf
    unfold faceRows pointsOnFace
    simp only
    rw [pointsOnFaceHex_eq f 0 hf']
    simp only [Option.bind_some]
    rw [values_hex_rows t p hp]
    simp [List.map_map, Function.comp_def]
  rw [mapM_some _ _ _ hrow]
  simp only [Option.bind_some]
  refine ⟨_, rfl, by simp, rfl, fun q hq => ?_, fun f hf q hq b hb => ?_⟩
  · simp [get0, hq]
  · simp [rowsView, get0, shapeFaces, hf, hq, hb]

end DG
