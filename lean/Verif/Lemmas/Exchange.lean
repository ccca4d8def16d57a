import Verif.Model.Network
import Verif.Props.Mesh

/-! Lemmas on `pack` and `unpack`. -/
namespace DG

variable {α β : Type}

/-- `false` = left array, `true` = right array -/
def FaceArr.get (U : FaceArr β) (b : Bool) : List β := if b then U.R else U.L

/-- one write of the unpacking loop: side, face, value -/
def wr (U : FaceArr β) (w : Bool × ℕ × β) : Option (FaceArr β) :=
  if w.1 then (setB U.R w.2.1 w.2.2).map (fun R => { U with R := R })
  else (setB U.L w.2.1 w.2.2).map (fun L => { U with L := L })

theorem eq_not_of_ne {a b : Bool} (h : a ≠ b) : a = !b := by
  cases a <;> cases b <;> simp at h ⊢

theorem wr_spec (U : FaceArr β) (w : Bool × ℕ × β) (h : w.2.1 < (U.get w.1).length) :
    ∃ U', wr U w = some U' ∧ U'.get w.1 = (U.get w.1).set w.2.1 w.2.2 ∧
      U'.get (!w.1) = U.get (!w.1) := by
  obtain ⟨b, i, v⟩ := w
  cases b
  · refine ⟨{ U with L := U.L.set i v }, ?_, rfl, rfl⟩
    have h' : i < U.L.length := h
    simp only [wr, Bool.false_eq_true, if_false, setB_of_lt h', Option.map_some]
  · refine ⟨{ U with R := U.R.set i v }, ?_, rfl, rfl⟩
    have h' : i < U.R.length := h
    simp only [wr, if_true, setB_of_lt h', Option.map_some]

theorem foldlM_wr : ∀ (ws : List (Bool × ℕ × β)) (U : FaceArr β),
    (∀ w ∈ ws, ∀ b, w.2.1 < (U.get b).length) → (ws.map (fun w => w.2.1)).Nodup →
    ∃ U', ws.foldlM wr U = some U' ∧ (∀ b, (U'.get b).length = (U.get b).length) ∧
      (∀ w ∈ ws, (U'.get w.1)[w.2.1]? = some w.2.2 ∧
        (U'.get (!w.1))[w.2.1]? = (U.get (!w.1))[w.2.1]?) ∧
      ∀ i, i ∉ ws.map (fun w => w.2.1) → ∀ b, (U'.get b)[i]? = (U.get b)[i]? := by
  intro ws
  induction ws with
  | nil => intro U _ _; exact ⟨U, rfl, fun _ => rfl, by simp, by simp⟩
  | cons w ws ih =>
    intro U hlt hnd
    obtain ⟨U1, h1, h2, h3⟩ := wr_spec U w (hlt w (by simp) _)
    have hlen : ∀ b, (U1.get b).length = (U.get b).length := by
      intro b
      by_cases hb : b = w.1
      · subst hb; rw [h2]; simp
      · have : b = !w.1 := eq_not_of_ne hb
        rw [this, h3]
    have hnd' : (w.2.1 :: ws.map (fun w => w.2.1)).Nodup := hnd
    rw [List.nodup_cons] at hnd'
    obtain ⟨U', g1, g2, g3, g4⟩ := ih U1
      (fun w' hw' b => by rw [hlen]; exact hlt w' (by simp [hw']) b) hnd'.2
    have hne : ∀ i, i ≠ w.2.1 → ∀ b, (U1.get b)[i]? = (U.get b)[i]? := by
      intro i hi b
      by_cases hb : b = w.1
      · subst hb; rw [h2, List.getElem?_set_ne (Ne.symm hi)]
      · have : b = !w.1 := eq_not_of_ne hb
        rw [this, h3]
    refine ⟨U', ?_, fun b => by rw [g2, hlen], ?_, ?_⟩
    · rw [List.foldlM_cons, h1]; exact g1
    · intro w' hw'
      rcases List.mem_cons.1 hw' with rfl | hmem
      · rw [g4 _ hnd'.1, g4 _ hnd'.1, h2, h3]
        refine ⟨?_, rfl⟩
        exact List.getElem?_set_self (hlt w' (by simp) _)
      · refine ⟨(g3 w' hmem).1, ?_⟩
        rw [(g3 w' hmem).2]
        apply hne
        intro h
        apply hnd'.1
        rw [← h]
        exact List.mem_map.2 ⟨w', hmem, rfl⟩
    · intro i hi b
      simp only [List.map_cons, List.mem_cons, not_or] at hi
      rw [g4 i hi.2, hne i hi.1]

theorem foldlM_range'_eq {σ τ : Type} (f : σ → ℕ → Option σ) (g : σ → τ → Option σ) :
    ∀ (l : List τ) (o : ℕ) (s : σ),
    (∀ s i (h : i < l.length), f s (o + i) = g s l[i]) →
    (List.range' o l.length).foldlM f s = l.foldlM g s := by
  intro l
  induction l with
  | nil => intro o s _; rfl
  | cons x xs ih =>
    intro o s h
    rw [List.length_cons, List.range'_succ, List.foldlM_cons, List.foldlM_cons]
    have h0 := h s 0 (by simp)
    simp only [Nat.add_zero, List.getElem_cons_zero] at h0
    rw [h0]
    congr 1
    funext s'
    apply ih
    intro s'' i hi
    have := h s'' (i + 1) (by simp; omega)
    rw [List.getElem_cons_succ] at this
    rw [← this]
    congr 1
    omega

theorem foldlM_range_eq {σ τ : Type} (f : σ → ℕ → Option σ) (g : σ → τ → Option σ) (l : List τ)
    (s : σ) (n : ℕ) (hn : n = l.length) (h : ∀ s i (h : i < l.length), f s i = g s l[i]) :
    (List.range n).foldlM f s = l.foldlM g s := by
  subst hn
  rw [List.range_eq_range']
  apply foldlM_range'_eq
  intro s i hi
  rw [Nat.zero_add]
  exact h s i hi

theorem foldlM_flatten {σ τ : Type} (g : σ → τ → Option σ) : ∀ (ls : List (List τ)) (s : σ),
    ls.foldlM (fun s l => l.foldlM g s) s = ls.flatten.foldlM g s := by
  intro ls
  induction ls with
  | nil => intro s; rfl
  | cons l ls ih =>
    intro s
    rw [List.foldlM_cons, List.flatten_cons, List.foldlM_append]
    congr 1
    funext s'
    exact ih s'

/-- What `pack` / `unpack` need to know about a rank's tables. -/
structure TablesOK (rm : RankMesh α) : Prop where
  len : rm.ghosts.length = rm.nbrs.length
  cnt : ∀ (k : ℕ) gl, rm.ghosts[k]? = some gl → rm.nFacesPerNbr[k]? = some gl.length
  nodup : rm.ghosts.flatten.Nodup
  mem : ∀ g ∈ rm.ghosts.flatten, g ∈ rm.l2gFace
  rows : rm.rows.length = rm.l2gFace.length
  tab : IDTableOK rm.l2gFace

/-- does the code see rank `r` on the left of local face `lf`? -/
def isLeft (rm : RankMesh α) (r lf : ℕ) : Bool := (rm.rows[lf]?.map (fun x => x.rankL)) == some r

theorem TablesOK.local_lt {rm : RankMesh α} (h : TablesOK rm) {g : ℕ} (hg : g ∈ rm.l2gFace) :
    searchLocal g rm.l2gFace < rm.l2gFace.length :=
  (List.getElem?_eq_some_iff.1 (h.tab.globalRoundTrip g hg)).1

theorem packOne_spec {rm : RankMesh α} (h : TablesOK rm) (r : ℕ) (U : FaceArr β)
    (hU : ∀ b, (U.get b).length = rm.l2gFace.length) (gl : List ℕ) (i g : ℕ)
    (hg : gl[i]? = some g) (hgm : g ∈ rm.l2gFace) :
    packOne rm r U gl i = (U.get (!isLeft rm r (searchLocal g rm.l2gFace)))[searchLocal g rm.l2gFace]? ∧
      ∃ v, packOne rm r U gl i = some v := by
  have hlt := h.local_lt hgm
  have hrow : rm.rows[searchLocal g rm.l2gFace]? = some (rm.rows[searchLocal g rm.l2gFace]'(by
      rw [h.rows]; exact hlt)) := List.getElem?_eq_getElem _
  have key : packOne rm r U gl i
      = (U.get (!isLeft rm r (searchLocal g rm.l2gFace)))[searchLocal g rm.l2gFace]? := by
    unfold packOne isLeft
    rw [hg]
    simp only [Option.bind_eq_bind, Option.bind_some, hrow, Option.map_some]
    by_cases hL : (rm.rows[searchLocal g rm.l2gFace]'(by rw [h.rows]; exact hlt)).rankL = r
    · simp [hL, FaceArr.get]
    · simp [hL, FaceArr.get]
  refine ⟨key, ?_⟩
  rw [key]
  exact ⟨_, List.getElem?_eq_getElem (by rw [hU]; exact hlt)⟩

theorem mapM_range_spec {τ : Type} (f : ℕ → Option τ) (n : ℕ) (h : ∀ i < n, ∃ v, f i = some v) :
    ∃ l, (List.range n).mapM f = some l ∧ l.length = n ∧ ∀ i < n, l[i]? = f i := by
  induction n with
  | zero => exact ⟨[], rfl, rfl, by omega⟩
  | succ n ih =>
    obtain ⟨l, h1, h2, h3⟩ := ih (fun i hi => h i (by omega))
    obtain ⟨v, hv⟩ := h n (by omega)
    refine ⟨l ++ [v], ?_, by simp [h2], ?_⟩
    · rw [List.range_succ, List.mapM_append, h1]
      simp [hv]
    · intro i hi
      rcases Nat.lt_succ_iff_lt_or_eq.1 hi with hi | rfl
      · rw [List.getElem?_append_left (by omega), h3 i hi]
      · rw [List.getElem?_append_right (by omega), h2, hv]; simp

theorem pack_spec {rm : RankMesh α} (h : TablesOK rm) (r : ℕ) (U : FaceArr β)
    (hU : ∀ b, (U.get b).length = rm.l2gFace.length) (k : ℕ) (gl : List ℕ)
    (hk : rm.ghosts[k]? = some gl) :
    ∃ msg, pack rm r U k = some msg ∧ msg.length = gl.length ∧
      ∀ i g : ℕ, gl[i]? = some g → msg[i]? =
        (U.get (!isLeft rm r (searchLocal g rm.l2gFace)))[searchLocal g rm.l2gFace]? := by
  have hmem : ∀ i g : ℕ, gl[i]? = some g → g ∈ rm.l2gFace := by
    intro i g hg
    exact h.mem g (List.mem_flatten.2 ⟨gl, List.mem_of_getElem? hk, List.mem_of_getElem? hg⟩)
  obtain ⟨l, h1, h2, h3⟩ := mapM_range_spec (packOne rm r U gl) gl.length (by
    intro i hi
    have hg := List.getElem?_eq_getElem hi
    exact (packOne_spec h r U hU gl i _ hg (hmem i _ hg)).2)
  refine ⟨l, ?_, h2, ?_⟩
  · unfold pack
    rw [h.cnt k gl hk, hk]
    exact h1
  · intro i g hg
    rw [h3 i (List.getElem?_eq_some_iff.1 hg).1]
    exact (packOne_spec h r U hU gl i g hg (hmem i g hg)).1

theorem unpackOne_eq_wr (rm : RankMesh α) (r : ℕ) (gl : List ℕ) (buf : List β) (U : FaceArr β)
    (i g : ℕ) (v : β) (row : FaceRow) (hg : gl[i]? = some g) (hv : buf[i]? = some v)
    (hrow : rm.rows[searchLocal g rm.l2gFace]? = some row) :
    unpackOne rm r gl buf U i
      = wr U (isLeft rm r (searchLocal g rm.l2gFace), searchLocal g rm.l2gFace, v) := by
  unfold unpackOne
  rw [hg, hv]
  simp only [Option.bind_eq_bind, Option.bind_some, hrow]
  by_cases hL : row.rankL = r
  · have : isLeft rm r (searchLocal g rm.l2gFace) = true := by simp [isLeft, hrow, hL]
    rw [if_pos hL, this]
    simp only [wr, if_true]
    rw [Option.map_eq_bind]; rfl
  · have : isLeft rm r (searchLocal g rm.l2gFace) = false := by simp [isLeft, hrow, hL]
    rw [if_neg hL, this]
    simp only [wr, Bool.false_eq_true, if_false]
    rw [Option.map_eq_bind]; rfl

theorem unpack_spec {rm : RankMesh α} (h : TablesOK rm) (r : ℕ) (U : FaceArr β)
    (hU : ∀ b, (U.get b).length = rm.l2gFace.length) (bufs : List (List β))
    (hb : bufs.length = rm.nbrs.length)
    (hbl : ∀ (k : ℕ) gl buf, rm.ghosts[k]? = some gl → bufs[k]? = some buf →
      buf.length = gl.length) :
    ∃ U', unpack rm r U bufs = some U' ∧ (∀ b, (U'.get b).length = rm.l2gFace.length) ∧
      (∀ (k : ℕ) gl, rm.ghosts[k]? = some gl → ∀ i g lf : ℕ, gl[i]? = some g →
        rm.l2gFace[lf]? = some g → ∀ b, (U'.get b)[lf]? =
          if b = isLeft rm r lf then bufs[k]?.bind (fun buf => buf[i]?) else (U.get b)[lf]?) ∧
      ∀ lf g : ℕ, rm.l2gFace[lf]? = some g → g ∉ rm.ghosts.flatten →
        ∀ b, (U'.get b)[lf]? = (U.get b)[lf]? := by
  classical
  let W1 : ℕ × β → Bool × ℕ × β := fun gv =>
    (isLeft rm r (searchLocal gv.1 rm.l2gFace), searchLocal gv.1 rm.l2gFace, gv.2)
  let W : List (List (Bool × ℕ × β)) := (rm.ghosts.zip bufs).map (fun gb => (gb.1.zip gb.2).map W1)
  have hWlen : W.length = rm.nbrs.length := by simp [W, h.len, hb]
  have hun : unpack rm r U bufs = W.flatten.foldlM wr U := by
    rw [← foldlM_flatten]
    unfold unpack
    apply foldlM_range_eq _ _ W U _ hWlen.symm
    intro s k hk
    have hk' : k < rm.nbrs.length := by omega
    have hgk : rm.ghosts[k]? = some (rm.ghosts[k]'(by rw [h.len]; exact hk')) :=
      List.getElem?_eq_getElem _
    have hbk : bufs[k]? = some (bufs[k]'(by rw [hb]; exact hk')) := List.getElem?_eq_getElem _
    have hlen := hbl k _ _ hgk hbk
    rw [h.cnt k _ hgk, hgk, hbk]
    simp only [Option.bind_eq_bind, Option.bind_some]
    have hWk : W[k] = ((rm.ghosts[k]'(by rw [h.len]; exact hk')).zip
        (bufs[k]'(by rw [hb]; exact hk'))).map W1 := by
      simp [W]
    rw [hWk]
    apply foldlM_range_eq
    · simp [hlen]
    · intro s' i hi
      have hi1 : i < (rm.ghosts[k]'(by rw [h.len]; exact hk')).length := by simp at hi; omega
      have hi2 : i < (bufs[k]'(by rw [hb]; exact hk')).length := by omega
      have hgm : (rm.ghosts[k]'(by rw [h.len]; exact hk'))[i] ∈ rm.l2gFace :=
        h.mem _ (List.mem_flatten.2 ⟨_, List.getElem_mem _, List.getElem_mem hi1⟩)
      have hlt := h.local_lt hgm
      rw [List.getElem_map, List.getElem_zip]
      exact unpackOne_eq_wr rm r _ _ s' i _ _ _ (List.getElem?_eq_getElem hi1)
        (List.getElem?_eq_getElem hi2) (List.getElem?_eq_getElem (by rw [h.rows]; exact hlt))
  have hidx : W.flatten.map (fun w => w.2.1)
      = rm.ghosts.flatten.map (fun g => searchLocal g rm.l2gFace) := by
    rw [List.map_flatten, List.map_flatten]
    congr 1
    apply List.ext_getElem
    · simp [W, h.len, hb]
    · intro k h1 h2
      simp only [List.length_map] at h2
      have hk' : k < rm.nbrs.length := by rw [← h.len]; exact h2
      have hlen := hbl k _ _ (List.getElem?_eq_getElem h2)
        (List.getElem?_eq_getElem (by rw [hb]; exact hk'))
      simp only [W, List.getElem_map, List.getElem_zip, List.map_map]
      have : ((fun w : Bool × ℕ × β => w.2.1) ∘ W1)
          = (fun g => searchLocal g rm.l2gFace) ∘ Prod.fst := by funext x; rfl
      simp only [Function.comp_apply, List.map_map]
      rw [this, ← List.map_map, List.map_fst_zip (by omega)]
  have hnd : (W.flatten.map (fun w => w.2.1)).Nodup := by
    rw [hidx]
    apply List.Nodup.map_on _ h.nodup
    intro x hx y hy hxy
    have h1 := h.tab.globalRoundTrip x (h.mem x hx)
    have h2 := h.tab.globalRoundTrip y (h.mem y hy)
    rw [hxy, h2] at h1
    exact (Option.some.inj h1).symm
  obtain ⟨U', u1, u2, u3, u4⟩ := foldlM_wr W.flatten U (by
    intro w hw b
    have : w.2.1 ∈ W.flatten.map (fun w => w.2.1) := List.mem_map.2 ⟨w, hw, rfl⟩
    rw [hidx] at this
    obtain ⟨g, hg, hgw⟩ := List.mem_map.1 this
    rw [hU, ← hgw]
    exact h.local_lt (h.mem g hg)) hnd
  refine ⟨U', by rw [hun]; exact u1, fun b => by rw [u2, hU], ?_, ?_⟩
  · intro k gl hk i g lf hi hlf b
    have hkl := (List.getElem?_eq_some_iff.1 hk).1
    have hil := (List.getElem?_eq_some_iff.1 hi).1
    have hkb : k < bufs.length := by rw [hb, ← h.len]; exact hkl
    have hbk : bufs[k]? = some bufs[k] := List.getElem?_eq_getElem hkb
    have hlen := hbl k gl _ hk hbk
    have hbi : bufs[k][i]? = some (bufs[k][i]'(by omega)) := List.getElem?_eq_getElem _
    have hs : searchLocal g rm.l2gFace = lf := by
      obtain ⟨hlf', rfl⟩ := List.getElem?_eq_some_iff.1 hlf
      exact h.tab.localRoundTrip lf hlf'
    have hmem : (isLeft rm r lf, lf, bufs[k][i]'(by omega)) ∈ W.flatten := by
      rw [List.mem_flatten]
      refine ⟨(gl.zip bufs[k]).map W1, ?_, ?_⟩
      · apply List.mem_map.2
        refine ⟨(gl, bufs[k]), ?_, rfl⟩
        apply List.mem_of_getElem? (i := k)
        rw [List.getElem?_zip_eq_some]
        exact ⟨hk, hbk⟩
      · apply List.mem_map.2
        refine ⟨(g, bufs[k][i]'(by omega)), ?_, ?_⟩
        · apply List.mem_of_getElem? (i := i)
          rw [List.getElem?_zip_eq_some]
          exact ⟨hi, hbi⟩
        · simp only [W1, hs]
    obtain ⟨v1, v2⟩ := u3 _ hmem
    rw [hbk]
    simp only [Option.bind_some]
    rw [hbi]
    by_cases hbL : b = isLeft rm r lf
    · rw [if_pos hbL, hbL]; exact v1
    · rw [if_neg hbL]
      have : b = !isLeft rm r lf := eq_not_of_ne hbL
      rw [this]; exact v2
  · intro lf g hlf hg b
    apply u4
    rw [hidx]
    intro hmem
    obtain ⟨g', hg', he⟩ := List.mem_map.1 hmem
    have := h.tab.globalRoundTrip g' (h.mem g' hg')
    rw [he, hlf] at this
    exact hg (by rw [Option.some.inj this]; exact hg')

end DG
