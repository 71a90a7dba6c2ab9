import Verif.Model.Peaks
import Verif.Spec.Peaks
/-!
# C11: threshold search and peak splitting
-/
namespace Verif.Peaks

/-- **C11** The indices are exactly those above threshold, increasing, with the corresponding samples;
no failure. -/
theorem aboveThreshold_spec (wf : List ℚ) (thr : ℚ) :
    ∃ idx w, indicesAndWfAboveThreshold wf thr = .ok (idx, w) ∧
      (∀ i, i ∈ idx ↔ ∃ x, wf[i]? = some x ∧ thr < x) ∧
      idx.Pairwise (· < ·) ∧
      w.length = idx.length ∧ (∀ k i : Nat, idx[k]? = some i → w[k]? = wf[i]?) ∧
      w = wf.filter (fun x => decide (thr < x)) := by
  have hmem : ∀ i, i ∈ whereIdx (fun x => decide (thr < x)) wf ↔ ∃ x, wf[i]? = some x ∧ thr < x := by
    intro i; rw [whereIdx_mem]; simp
  obtain ⟨ys, h1, h2, h3⟩ := npTake_ok wf (whereIdx (fun x => decide (thr < x)) wf) (by
    intro i hi
    obtain ⟨x, hx, _⟩ := (hmem i).1 hi
    exact (List.getElem?_eq_some_iff.1 hx).1)
  refine ⟨_, ys, by simp only [indicesAndWfAboveThreshold, h1], hmem, whereIdx_sorted _ _, h2, h3, ?_⟩
  clear h1 hmem
  induction wf generalizing ys with
  | nil => simp [whereIdx_nil] at h2; simp [h2]
  | cons a wf ih =>
    rw [whereIdx_cons] at h2 h3
    by_cases ha : thr < a
    · simp only [ha, decide_true, if_true, List.cons_append, List.nil_append] at h2 h3
      cases ys with
      | nil => simp at h2
      | cons y ys =>
        have h0 := h3 0 0 (by simp)
        simp at h0
        subst h0
        rw [List.filter_cons_of_pos (by simpa using ha)]
        congr 1
        apply ih ys
        · simpa using h2
        · intro k i hk
          simpa using h3 (k + 1) (i + 1) (by simp [hk])
    · simp only [ha, decide_false, List.nil_append, Bool.false_eq_true, if_false] at h2 h3
      rw [List.filter_cons_of_neg (by simpa using ha)]
      apply ih ys
      · simpa using h2
      · intro k i hk
        simpa using h3 k (i + 1) (by simp [hk])

example : indicesAndWfAboveThreshold [1, 5, 2, 7, 3] 2 = .ok ([1, 3, 4], [5, 7, 3]) := by decide +kernel

/-! Splitting -/

private theorem npSplitFrom_cons {α : Type} (a : α) (xs : List α) (prev : Nat) (cs : List Nat) :
    npSplitFrom (a :: xs) (prev + 1) (cs.map (· + 1)) = npSplitFrom xs prev cs := by
  induction cs generalizing prev with
  | nil => simp [npSplitFrom]
  | cons c cs ih =>
    simp only [List.map_cons, npSplitFrom, ih, pySlice, List.drop_succ_cons]
    simp

private theorem npSplit_cons {α : Type} (a : α) (xs : List α) (cs : List Nat) :
    ∃ hd tl, npSplit xs cs = hd :: tl ∧ npSplit (a :: xs) (cs.map (· + 1)) = (a :: hd) :: tl := by
  cases cs with
  | nil => exact ⟨xs, [], by simp [npSplit, npSplitFrom], by simp [npSplit, npSplitFrom]⟩
  | cons c cs =>
    refine ⟨pySlice 0 c xs, npSplitFrom xs c cs, rfl, ?_⟩
    simp only [npSplit, List.map_cons, npSplitFrom, npSplitFrom_cons]
    simp [pySlice]

private theorem split_single (a : Nat) (stride : Nat) : splitInPeaks [a] stride = [[a]] := by
  simp [splitInPeaks, npDiff, whereIdx_nil, npSplit, npSplitFrom]

private theorem split_cons_cons (a b : Nat) (t : List Nat) (stride : Nat) :
    ∃ hd tl, splitInPeaks (b :: t) stride = hd :: tl ∧ splitInPeaks (a :: b :: t) stride =
      if a + stride < b then [a] :: hd :: tl else (a :: hd) :: tl := by
  have hdiff : npDiff (a :: b :: t) = ((b : Int) - a) :: npDiff (b :: t) := by simp [npDiff]
  by_cases h : a + stride < b
  · have hd : (stride : Int) < (b : Int) - a := by omega
    obtain ⟨hd', tl', e1, e2⟩ : ∃ hd tl, splitInPeaks (b :: t) stride = hd :: tl ∧
        splitInPeaks (a :: b :: t) stride = [a] :: hd :: tl := by
      simp only [splitInPeaks, hdiff, whereIdx_cons, hd, decide_true, if_true, List.cons_append,
        List.nil_append, List.map_cons, npSplit, npSplitFrom, Nat.zero_add]
      rw [npSplitFrom_cons]
      cases hsp : npSplitFrom (b :: t) 0 (List.map (fun x => x + 1)
          (whereIdx (fun d => decide ((stride : Int) < d)) (npDiff (b :: t)))) with
      | nil =>
        obtain ⟨hd', tl', h1, _⟩ := npSplit_cons a (b :: t) (List.map (fun x => x + 1)
          (whereIdx (fun d => decide ((stride : Int) < d)) (npDiff (b :: t))))
        rw [npSplit, hsp] at h1; cases h1
      | cons hd' tl' => exact ⟨hd', tl', rfl, by simp [pySlice]⟩
    exact ⟨hd', tl', e1, by simp [h, e2]⟩
  · have hd : ¬ (stride : Int) < (b : Int) - a := by omega
    obtain ⟨hd', tl', h1, h2⟩ := npSplit_cons a (b :: t) (List.map (fun x => x + 1)
      (whereIdx (fun d => decide ((stride : Int) < d)) (npDiff (b :: t))))
    refine ⟨hd', tl', h1, ?_⟩
    simp only [splitInPeaks, hdiff, whereIdx_cons, hd, decide_false, Bool.false_eq_true, if_false,
      List.nil_append, h, h2]

/-- **C11** Splitting a non-empty sequence gives a grouping of it. -/
theorem splitInPeaks_grouping (idx : List Nat) (stride : Nat) (h : idx ≠ []) :
    IsGrouping idx stride (splitInPeaks idx stride) := by
  have key : ∀ (t : List Nat) (a : Nat), ∃ hd tl, splitInPeaks (a :: t) stride = (a :: hd) :: tl ∧
      IsGrouping (a :: t) stride (splitInPeaks (a :: t) stride) := by
    intro t
    induction t with
    | nil =>
      intro a
      refine ⟨[], [], split_single a stride, ?_⟩
      rw [split_single]
      exact ⟨by simp, by simp, by simp, by simp⟩
    | cons b t ih =>
      intro a
      obtain ⟨hd, tl, h1, ⟨g1, g2, g3, g4⟩⟩ := ih b
      obtain ⟨hd', tl', h1', h2⟩ := split_cons_cons a b t stride
      rw [h1] at h1' g1 g2 g3 g4
      obtain ⟨rfl, rfl⟩ := List.cons.inj h1'
      by_cases hab : a + stride < b
      · rw [if_pos hab] at h2
        refine ⟨[], (b :: hd) :: tl, h2, ?_⟩
        rw [h2]
        refine ⟨by simp only [List.flatten_cons] at g1 ⊢; simp [g1], ?_, ?_, ?_⟩
        · intro p hp
          rcases List.mem_cons.1 hp with rfl | hp
          · simp
          · exact g2 p hp
        · intro p hp
          rcases List.mem_cons.1 hp with rfl | hp
          · simp
          · exact g3 p hp
        · refine List.IsChain.cons_cons ?_ g4
          intro x hx y hy
          simp at hx hy
          subst hx hy
          exact hab
      · rw [if_neg hab] at h2
        refine ⟨b :: hd, tl, h2, ?_⟩
        rw [h2]
        refine ⟨by simp only [List.flatten_cons] at g1 ⊢; simp [← g1], ?_, ?_, ?_⟩
        · intro p hp
          rcases List.mem_cons.1 hp with rfl | hp
          · simp
          · exact g2 p (List.mem_cons_of_mem _ hp)
        · intro p hp
          rcases List.mem_cons.1 hp with rfl | hp
          · exact List.IsChain.cons_cons (by omega) (g3 _ List.mem_cons_self)
          · exact g3 p (List.mem_cons_of_mem _ hp)
        · cases tl with
          | nil => exact List.IsChain.singleton _
          | cons q tl =>
            cases g4 with
            | cons_cons h5 h6 =>
              refine List.IsChain.cons_cons ?_ h6
              intro x hx y hy
              exact h5 x (by simpa using hx) y hy
  cases idx with
  | nil => exact absurd rfl h
  | cons a t => obtain ⟨_, _, _, h⟩ := key t a; exact h

/-- **C11** An empty sequence gives one empty piece (as `np.split` does). -/
theorem splitInPeaks_nil (stride : Nat) : splitInPeaks [] stride = [[]] := by
  simp [splitInPeaks, npDiff, whereIdx_nil, npSplit, npSplitFrom]

/-- **C11** There is only one grouping: any other way of satisfying the definition is the same. -/
theorem grouping_unique {idx : List Nat} {stride : Nat} {ps qs : List (List Nat)}
    (hp : IsGrouping idx stride ps) (hq : IsGrouping idx stride qs) : ps = qs := by
  -- the first pieces agree: otherwise one would contain a cut of the other
  have first : ∀ (p q : List Nat) (pr qr : List (List Nat)), p ≠ [] → q ≠ [] →
      p.IsChain (fun a b => b ≤ a + stride) → (∀ x ∈ qr, x ≠ []) →
      (q :: qr).IsChain (Apart stride) → p ++ pr.flatten = q ++ qr.flatten → p.length ≤ q.length := by
    intro p
    induction p with
    | nil => intro q pr qr h; exact absurd rfl h
    | cons a p ih =>
      intro q pr qr _ hq hin hne hacr heq
      cases q with
      | nil => exact absurd rfl hq
      | cons b q =>
        simp only [List.cons_append, List.cons.injEq] at heq
        obtain ⟨rfl, heq⟩ := heq
        cases p with
        | nil => simp
        | cons a' p =>
          cases q with
          | nil =>
            exfalso
            cases qr with
            | nil => simp at heq
            | cons q2 qr =>
              cases q2 with
              | nil => exact hne [] List.mem_cons_self rfl
              | cons b' q2 =>
                simp only [List.cons_append, List.nil_append, List.flatten_cons, List.cons.injEq] at heq
                cases hacr with
                | cons_cons h5 _ =>
                  have := h5 a (by simp) b' (by simp)
                  cases hin with
                  | cons_cons h7 _ => omega
          | cons b' q =>
            have := ih (b' :: q) pr qr (by simp) (by simp) (by cases hin with | cons_cons _ h => exact h) hne ?_ heq
            · simpa using this
            · cases qr with
              | nil => exact List.IsChain.singleton _
              | cons q2 qr =>
                cases hacr with
                | cons_cons h5 h6 => exact List.IsChain.cons_cons (fun x hx y hy => h5 x (by simpa using hx) y hy) h6
  induction ps generalizing idx qs with
  | nil =>
    cases qs with
    | nil => rfl
    | cons q qs =>
      have h1 := hp.cover; have h2 := hq.cover
      simp at h1
      rw [h1] at h2
      simp at h2
      exact absurd h2.1 (hq.nonempty q List.mem_cons_self)
  | cons p ps ih =>
    cases qs with
    | nil =>
      have h1 := hp.cover; have h2 := hq.cover
      simp at h2
      rw [h2] at h1
      simp at h1
      exact absurd h1.1 (hp.nonempty p List.mem_cons_self)
    | cons q qs =>
      have e : p ++ ps.flatten = q ++ qs.flatten := by
        have h1 := hp.cover; have h2 := hq.cover
        simp only [List.flatten_cons] at h1 h2
        rw [h1, h2]
      have l1 := first p q ps qs (hp.nonempty p List.mem_cons_self) (hq.nonempty q List.mem_cons_self)
        (hp.inside p List.mem_cons_self) (fun x hx => hq.nonempty x (List.mem_cons_of_mem _ hx)) hq.across e
      have l2 := first q p qs ps (hq.nonempty q List.mem_cons_self) (hp.nonempty p List.mem_cons_self)
        (hq.inside q List.mem_cons_self) (fun x hx => hp.nonempty x (List.mem_cons_of_mem _ hx)) hp.across e.symm
      obtain ⟨e1, e2⟩ := List.append_inj e (by omega)
      subst e1
      congr 1
      refine ih (idx := ps.flatten) ?_ ?_
      · exact ⟨rfl, fun x hx => hp.nonempty x (List.mem_cons_of_mem _ hx),
          fun x hx => hp.inside x (List.mem_cons_of_mem _ hx), hp.across.tail⟩
      · exact ⟨e2.symm, fun x hx => hq.nonempty x (List.mem_cons_of_mem _ hx),
          fun x hx => hq.inside x (List.mem_cons_of_mem _ hx), hq.across.tail⟩

example : splitInPeaks [3, 4, 6, 10, 11, 15] 2 = [[3, 4, 6], [10, 11], [15]] := by decide

/-- For an increasing sequence all the samples of different pieces are more than `stride` apart. -/
theorem grouping_pairwise {idx : List Nat} {stride : Nat} {ps : List (List Nat)}
    (hp : IsGrouping idx stride ps) (hs : idx.Pairwise (· < ·)) :
    ps.Pairwise fun p q => ∀ a ∈ p, ∀ b ∈ q, a + stride < b := by
  have hsub : ∀ p ∈ ps, p.Pairwise (· < ·) := by
    intro p h
    have hs := hs
    rw [← hp.cover] at hs
    exact (List.pairwise_flatten.1 hs).1 p h
  have hchain : ps.IsChain fun p q => p ≠ [] ∧ q ≠ [] ∧ ∀ a ∈ p, ∀ b ∈ q, a + stride < b := by
    have : ∀ qs : List (List Nat), (∀ p ∈ qs, p.Pairwise (· < ·)) → (∀ p ∈ qs, p ≠ []) →
        qs.IsChain (Apart stride) → qs.IsChain fun p q => p ≠ [] ∧ q ≠ [] ∧ ∀ a ∈ p, ∀ b ∈ q, a + stride < b := by
      intro qs
      induction qs with
      | nil => intros; exact List.IsChain.nil
      | cons p qs ih =>
        intro h1 h2 h3
        cases qs with
        | nil => exact List.IsChain.singleton _
        | cons q qs =>
          cases h3 with
          | cons_cons h5 h6 =>
            refine List.IsChain.cons_cons ⟨h2 _ (by simp), h2 _ (by simp), ?_⟩
              (ih (fun x hx => h1 x (List.mem_cons_of_mem _ hx)) (fun x hx => h2 x (List.mem_cons_of_mem _ hx)) h6)
            intro a ha b hb
            have hpn : p ≠ [] := h2 p (by simp)
            have h7 := h5 (p.getLast hpn) (List.getLast_mem_getLast? hpn)
            have hqn : q ≠ [] := h2 q (by simp)
            have h8 := h7 (q.head hqn) (List.head_mem_head? hqn)
            have ha' : a ≤ p.getLast hpn := by
              have hpw := h1 p (by simp)
              rw [← List.dropLast_append_getLast hpn] at ha hpw
              rcases List.mem_append.1 ha with h | h
              · exact Nat.le_of_lt ((List.pairwise_append.1 hpw).2.2 a h _ (by simp))
              · simp at h; omega
            have hb' : q.head hqn ≤ b := by
              cases q with
              | nil => exact absurd rfl hqn
              | cons c q =>
                rcases List.mem_cons.1 hb with rfl | h
                · simp
                · exact Nat.le_of_lt ((List.pairwise_cons.1 (h1 (c :: q) (by simp))).1 b h)
            omega
    exact this ps hsub hp.nonempty hp.across
  have htr : Trans (fun p q : List Nat => p ≠ [] ∧ q ≠ [] ∧ ∀ a ∈ p, ∀ b ∈ q, a + stride < b)
      (fun p q : List Nat => p ≠ [] ∧ q ≠ [] ∧ ∀ a ∈ p, ∀ b ∈ q, a + stride < b)
      (fun p q : List Nat => p ≠ [] ∧ q ≠ [] ∧ ∀ a ∈ p, ∀ b ∈ q, a + stride < b) := by
    refine ⟨?_⟩
    rintro p q r ⟨h1, h2, h3⟩ ⟨_, h5, h6⟩
    refine ⟨h1, h5, fun a ha b hb => ?_⟩
    have := h3 a ha _ (List.head_mem h2)
    have := h6 _ (List.head_mem h2) b hb
    omega
  exact (hchain.pairwise).imp fun h => h.2.2

end Verif.Peaks
