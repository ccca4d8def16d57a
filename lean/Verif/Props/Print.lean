import Verif.Lemmas.Print

/-!
Property C71: what the printing functions put out, whatever the interleaving of the ranks.
-/
namespace DG.Pr

/-- Specification: the opening lines, the ranks one after the other, the closing line. -/
def spoken (n : ℕ) (head : List String) (block : ℕ → List String) : List String :=
  head ++ (List.range n).flatMap (fun r => ("Rank " ++ toString r ++ " says:") :: block r) ++
    ["------------------------------ The Ranks Have Spoken ------------------------------"]

/-- who speaks in phase `p` -/
def speaker (n p : ℕ) : ℕ := if 2 ≤ p ∧ p < n + 2 then p - 2 else 0

theorem framed_speaker {n : ℕ} (hn : 0 < n) (head : List String) (block : ℕ → List String) :
    (∀ q < (framed n head block).nph, speaker n q < (framed n head block).nranks) ∧
    ∀ q < (framed n head block).nph, ∀ r < (framed n head block).nranks, r ≠ speaker n q →
      (framed n head block).lines r q = [] := by
  constructor
  · intro q _
    show speaker n q < n
    unfold speaker
    split <;> omega
  · intro q _ r hr hne
    simp only [framed]
    unfold speaker at hne
    by_cases h1 : q = 1
    · rw [if_neg (by omega)] at hne
      rw [if_pos h1, if_neg hne]
    · rw [if_neg h1]
      by_cases h2 : 2 ≤ q ∧ q < n + 2
      · rw [if_pos h2] at hne
        rw [if_pos h2, if_neg (Ne.symm hne)]
      · rw [if_neg h2] at hne
        rw [if_neg h2, if_neg hne]
        split <;> rfl

theorem framed_all (n : ℕ) (hn : 0 < n) (head : List String) (block : ℕ → List String) :
    ((List.range (framed n head block).nph).map fun q => (framed n head block).lines (speaker n q) q).flatten
      = spoken n head block := by
  have h0 : (framed n head block).lines (speaker n 0) 0 = [] := by simp [framed]
  have h1 : (framed n head block).lines (speaker n 1) 1 = head := by simp [framed, speaker]
  have h2 : ∀ r < n, (framed n head block).lines (speaker n (r + 2)) (r + 2)
      = ("Rank " ++ toString r ++ " says:") :: block r := by
    intro r hr
    simp [framed, speaker, hr]
  have h3 : (framed n head block).lines (speaker n (n + 2)) (n + 2) = [closing] := by simp [framed, speaker]
  show ((List.range (n + 3)).map fun q => (framed n head block).lines (speaker n q) q).flatten = _
  rw [List.range_succ, List.map_append, List.flatten_append, List.map_singleton, h3]
  have h4 : List.range (n + 2) = [0, 1] ++ (List.range n).map (· + 2) := by
    rw [Nat.add_comm n 2, List.range_add]
    congr 1
    refine List.map_congr_left fun x _ => Nat.add_comm 2 x
  rw [h4, List.map_append, List.flatten_append, List.map_map]
  have h5 : (List.range n).map ((fun q => (framed n head block).lines (speaker n q) q) ∘ (· + 2))
      = (List.range n).map fun r => ("Rank " ++ toString r ++ " says:") :: block r :=
    List.map_congr_left fun r hr => h2 r (List.mem_range.1 hr)
  rw [h5]
  simp [h0, h1, spoken, closing, List.flatMap]

/-- C71: every execution of a printing function on all ranks that has come to its end has printed the opening
lines, then the blocks of rank 0, 1, 2, ... one after the other and not mixed, then the closing line. -/
theorem C71_in_order (n : ℕ) (hn : 0 < n) (head : List String) (block : ℕ → List String) (k : ℕ)
    (c : Conf String) (hx : (framed n head block).Steps k (framed n head block).init c)
    (hd : (framed n head block).Done c) : c.out = spoken n head block := by
  obtain ⟨s, hi⟩ := inv_steps (by show 0 < n + 3; omega) hx
  obtain ⟨h1, h2⟩ := framed_speaker hn head block
  rw [out_done hi hd _ h1 h2, framed_all n hn]

/-- C71: at any moment before (also if the program is killed there) the output is a beginning of that text. -/
theorem C71_at_any_moment (n : ℕ) (hn : 0 < n) (head : List String) (block : ℕ → List String) (k : ℕ)
    (c : Conf String) (hx : (framed n head block).Steps k (framed n head block).init c) :
    c.out <+: spoken n head block := by
  obtain ⟨s, hi⟩ := inv_steps (by show 0 < n + 3; omega) hx
  obtain ⟨h1, h2⟩ := framed_speaker hn head block
  rw [← framed_all n hn head block]
  exact out_prefix hi _ h1 h2

/-- C71: no execution deadlocks at a barrier: from every moment the function can be continued to its return on all
ranks, and no execution is longer than a fixed number of steps. -/
theorem C71_completes (n : ℕ) (head : List String) (block : ℕ → List String) :
    ∃ N, ∀ k (c : Conf String), (framed n head block).Steps k (framed n head block).init c →
      k ≤ N ∧ ∃ k' c', (framed n head block).Steps k' c c' ∧ (framed n head block).Done c' := by
  have h : 0 < (framed n head block).nph := by show 0 < n + 3; omega
  refine ⟨left (framed n head block) (framed n head block).init, fun k c hx => ⟨?_, completes h hx⟩⟩
  have := left_steps h hx
  omega

theorem rowText_eq (n : ℕ) (entry : ℕ → String) :
    rowText n entry = String.join ((List.range n).map fun k => entry k ++ "  ") := by
  unfold rowText String.join
  rw [List.foldl_map]
  refine congrFun (congrFun (congrArg _ ?_) _) _
  funext s k
  rw [String.append_assoc]

/-- C71: what a call of `print` on every rank prints: `data r` is the text of the datum of rank `r`. -/
theorem C71_print (n : ℕ) (hn : 0 < n) (data : ℕ → String) (k : ℕ) (c : Conf String)
    (hx : (print n data).Steps k (print n data).init c) (hd : (print n data).Done c) :
    c.out = ["--------------------------------- The Ranks Speak! --------------------------------"] ++
      (List.range n).flatMap (fun r => ["Rank " ++ toString r ++ " says:", data r]) ++
      ["------------------------------ The Ranks Have Spoken ------------------------------"] :=
  C71_in_order n hn _ _ k c hx hd

/-- C71: what a call of `print_3d_view` prints: every entry of every rank's view once, in index order, one line per
pair of first indices. -/
theorem C71_print_3d_view (n : ℕ) (hn : 0 < n) (v : ℕ → View3) (k : ℕ) (c : Conf String)
    (hx : (print3d n v).Steps k (print3d n v).init c) (hd : (print3d n v).Done c) :
    c.out = ["--------------------------------- The Ranks Speak! --------------------------------"] ++
      (List.range n).flatMap (fun r => ("Rank " ++ toString r ++ " says:") ::
        (List.range (v r).n0).flatMap fun i => ["(" ++ toString i ++ ", :, :)"] ++
          ((List.range (v r).n1).map fun j =>
            String.join ((List.range (v r).n2).map fun l => (v r).entry i j l ++ "  ")) ++ [""]) ++
      ["------------------------------ The Ranks Have Spoken ------------------------------"] := by
  have h := C71_in_order n hn _ _ k c hx hd
  simp only [spoken, View3.text, rowText_eq] at h
  exact h

/-- C71: what `print_view` of a one-dimensional view prints: the entries of every rank in one line. -/
theorem C71_print_view_1 (n : ℕ) (hn : 0 < n) (v : ℕ → View1) (k : ℕ) (c : Conf String)
    (hx : (printView1 n v).Steps k (printView1 n v).init c) (hd : (printView1 n v).Done c) :
    c.out = ["--------------------------------- The Ranks Speak! --------------------------------"] ++
      (List.range n).flatMap (fun r => ("Rank " ++ toString r ++ " says:") ::
        [String.join ((List.range (v r).n0).map fun i => (v r).entry i ++ "  ")]) ++
      ["------------------------------ The Ranks Have Spoken ------------------------------"] := by
  have h := C71_in_order n hn _ _ k c hx hd
  simp only [spoken, View1.text, rowText_eq] at h
  exact h

/-- C71: what `print_view` of a two-dimensional view prints: one line per row and an empty line. -/
theorem C71_print_view_2 (n : ℕ) (hn : 0 < n) (v : ℕ → View2) (k : ℕ) (c : Conf String)
    (hx : (printView2 n v).Steps k (printView2 n v).init c) (hd : (printView2 n v).Done c) :
    c.out = ["--------------------------------- The Ranks Speak! --------------------------------"] ++
      (List.range n).flatMap (fun r => ("Rank " ++ toString r ++ " says:") ::
        (((List.range (v r).n0).map fun i =>
          String.join ((List.range (v r).n1).map fun j => (v r).entry i j ++ "  ")) ++ [""])) ++
      ["------------------------------ The Ranks Have Spoken ------------------------------"] := by
  have h := C71_in_order n hn _ _ k c hx hd
  simp only [spoken, View2.text, rowText_eq] at h
  exact h

/-- C71: what `print_view` of a three-dimensional view prints: in addition to `print_3d_view` the shape of the view
of rank 0. -/
theorem C71_print_view_3 (n : ℕ) (hn : 0 < n) (v : ℕ → View3) (k : ℕ) (c : Conf String)
    (hx : (printView3 n v).Steps k (printView3 n v).init c) (hd : (printView3 n v).Done c) :
    c.out = ["--------------------------------- The Ranks Speak! --------------------------------",
      "View Shape [" ++ toString (v 0).n0 ++ ", " ++ toString (v 0).n1 ++ ", " ++ toString (v 0).n2 ++ "]"] ++
      (List.range n).flatMap (fun r => ("Rank " ++ toString r ++ " says:") ::
        (List.range (v r).n0).flatMap fun i => ["(" ++ toString i ++ ", :, :)"] ++
          ((List.range (v r).n1).map fun j =>
            String.join ((List.range (v r).n2).map fun l => (v r).entry i j l ++ "  ")) ++ [""]) ++
      ["------------------------------ The Ranks Have Spoken ------------------------------"] := by
  have h := C71_in_order n hn _ _ k c hx hd
  simp only [spoken, View3.text, rowText_eq] at h
  exact h

/-- C71: what `print_view` of a four-dimensional view prints. -/
theorem C71_print_view_4 (n : ℕ) (hn : 0 < n) (v : ℕ → View4) (k : ℕ) (c : Conf String)
    (hx : (printView4 n v).Steps k (printView4 n v).init c) (hd : (printView4 n v).Done c) :
    c.out = ["--------------------------------- The Ranks Speak! --------------------------------"] ++
      (List.range n).flatMap (fun r => ("Rank " ++ toString r ++ " says:") ::
        (List.range (v r).n0).flatMap fun i => ["(" ++ toString i ++ ", :, :, :)"] ++
          ((List.range (v r).n1).flatMap fun j => ((List.range (v r).n2).map fun l =>
            String.join ((List.range (v r).n3).map fun q => (v r).entry i j l q ++ "  ")) ++ [""]) ++ [""]) ++
      ["------------------------------ The Ranks Have Spoken ------------------------------"] := by
  have h := C71_in_order n hn _ _ k c hx hd
  simp only [spoken, View4.text, rowText_eq] at h
  exact h

/-- C71: what `print_4d_view` of a four-dimensional view prints. -/
theorem C71_print_4d_view (n : ℕ) (hn : 0 < n) (v : ℕ → View4) (k : ℕ) (c : Conf String)
    (hx : (print4d n v).Steps k (print4d n v).init c) (hd : (print4d n v).Done c) :
    c.out = ["--------------------------------- The Ranks Speak! --------------------------------"] ++
      (List.range n).flatMap (fun r => ("Rank " ++ toString r ++ " says:") ::
        (List.range (v r).n0).flatMap fun i => ["(" ++ toString i ++ ", :, :)"] ++
          ((List.range (v r).n1).flatMap fun j => ((List.range (v r).n2).map fun l =>
            String.join ((List.range (v r).n3).map fun q => (v r).entry i j l q ++ "  ")) ++ [""]) ++ [""]) ++
      ["------------------------------ The Ranks Have Spoken ------------------------------"] := by
  have h := C71_in_order n hn _ _ k c hx hd
  simp only [spoken, View4.text, rowText_eq] at h
  exact h

/-- C71: the post-processor: every line is printed by every rank, all copies of the line of one variable before
the first of the next variable. -/
theorem C71_post_lines (n ns : ℕ) (line : ℕ → String) (k : ℕ) (c : Conf String)
    (hx : (printErrors n ns line).Steps k (printErrors n ns line).init c) (hd : (printErrors n ns line).Done c) :
    c.out = (List.range ns).flatMap fun v => List.replicate n (line v) := by
  obtain ⟨s, hi⟩ := inv_steps (by show 0 < ns + 1; omega) hx
  have hs : ∀ q < ns + 1, s q = if q = 0 then [] else List.replicate n (line (q - 1)) := by
    intro q hq
    obtain ⟨g, h1, h2⟩ := done_out hi hd q hq
    by_cases h0 : q = 0
    · subst h0
      have := h1.talker (t := n) (fun r hr _ => by simp [printErrors])
      have h3 : (printErrors n ns line).lines n 0 = [] := by simp [printErrors]
      rw [if_pos rfl]
      have h4 := this.1
      simp only [h3] at h4
      exact (List.append_eq_nil_iff.1 h4.symm).1
    · rw [if_neg h0]
      have hl : ∀ r < n, (printErrors n ns line).lines r q = [line (q - 1)] := by
        intro r _
        have : 1 ≤ q ∧ q ≤ ns := by omega
        simp [printErrors, this]
      obtain ⟨h3, _, h5⟩ := h1.common hl
      have : ((List.range n).filter fun r => (g r).length = 1) = [] := by
        rw [List.filter_eq_nil_iff]
        intro r hr
        rw [h2 r (List.mem_range.1 hr)]
        simp
      have h5' : (s q).length + ((List.range n).filter fun r => (g r).length = 1).length = n := h5
      rw [this] at h5'
      rw [h3]
      congr 1
  rw [hi.out]
  show ((List.range (ns + 1)).map s).flatten = _
  rw [List.range_succ_eq_map, List.map_cons, List.flatten_cons, hs 0 (by omega), if_pos rfl, List.nil_append,
    List.map_map, List.flatMap]
  congr 1
  refine List.map_congr_left fun v hv => ?_
  have := List.mem_range.1 hv
  simp [hs (v + 1) (by omega)]

/-- Two ranks: an execution exists, and its output is this. -/
example : ∃ k c, (print 2 fun r => if r = 0 then "a" else "b").Steps k (print 2 fun r => if r = 0 then "a" else "b").init c ∧
    (print 2 fun r => if r = 0 then "a" else "b").Done c ∧
    c.out = ["--------------------------------- The Ranks Speak! --------------------------------",
      "Rank 0 says:", "a", "Rank 1 says:", "b",
      "------------------------------ The Ranks Have Spoken ------------------------------"] := by
  obtain ⟨N, h⟩ := C71_completes 2 [opening] fun r => [if r = 0 then "a" else "b"]
  obtain ⟨_, k, c, h1, h2⟩ := h 0 _ (.refl _)
  refine ⟨k, c, h1, h2, ?_⟩
  rw [C71_print 2 (by omega) _ k c h1 h2]
  decide

end DG.Pr
