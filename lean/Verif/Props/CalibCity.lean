import Verif.Spec.CalibCity
import Verif.Props.Calib
import Verif.Props.BlrPmts
/-!
# C113: the histograms of the calibration cities
-/
namespace Verif.CalibCity
open Verif Verif.Calib Verif.CalibCity.Spec

/-! ### The accumulators -/

/-- The sum of the histograms of several events from an accumulator. -/
def fold (a : Hist) (hs : List Hist) : Except PyErr Hist := hs.foldlM addHist a

theorem fold_cons (a h : Hist) (hs : List Hist) : fold a (h :: hs) = match addHist a h with
    | .error e => .error e
    | .ok b => fold b hs := by
  unfold fold
  rw [List.foldlM_cons]
  cases addHist a h <;> rfl

theorem fold_same {ns : Nat} : ∀ (hs : List Hist) (a : Hist), a.length = ns → (∀ h ∈ hs, h.length = ns) →
    fold a hs = .ok (hs.foldl (fun acc h => List.zipWith (List.zipWith (· + ·)) acc h) a) := by
  intro hs
  induction hs with
  | nil => intro a _ _; rfl
  | cons h hs ih =>
    intro a ha hl
    have e : addHist a h = .ok (List.zipWith (List.zipWith (· + ·)) a h) := by
      unfold addHist
      rw [if_pos (by rw [ha, hl h (List.mem_cons_self ..)])]
    rw [fold_cons, e]
    dsimp only
    rw [ih _ (by rw [List.length_zipWith, ha, hl h (List.mem_cons_self ..)]; simp) (fun x hx => hl x (List.mem_cons_of_mem _ hx))]
    rfl

/-- The row of an event in the tables of Run. -/
def runRow (e : Event) : Int × Int × Int := (e.run, e.number, e.time)

theorem loop_cons {W : Type} (process : Event → Except PyErr W) (branches : List (W → Except PyErr Hist)) (e : Event) (es : List Event) (rows : List (Int × Int × Int)) (accs : List Hist) :
    loop process branches (e :: es) rows accs = match process e with
      | .error err => (rows, .error err)
      | .ok w => match (branches.zip accs).mapM (accumulate w) with
        | .error err => (rows, .error err)
        | .ok accs' => loop process branches es (rows ++ [runRow e]) accs' := rfl

theorem accumulate_ok {W : Type} {w : W} {x : (W → Except PyErr Hist) × Hist} {b : Hist} (h : accumulate w x = .ok b) : ∃ y, x.1 w = .ok y ∧ addHist x.2 y = .ok b := by
  unfold accumulate at h
  cases hx : x.1 w with
  | error e => rw [hx] at h; cases h
  | ok y => rw [hx] at h; exact ⟨y, rfl, h⟩

theorem loop_ok {W : Type} {process : Event → Except PyErr W} {branches : List (W → Except PyErr Hist)} : ∀ {es : List Event} {rows rows' : List (Int × Int × Int)} {accs accs' : List Hist}, branches.length = accs.length →
    loop process branches es rows accs = (rows', .ok accs') →
    ∃ ws, List.Forall₂ (fun e w => process e = .ok w) es ws ∧ rows' = rows ++ es.map runRow ∧ accs'.length = accs.length ∧
      ∀ (i : Nat) (b : W → Except PyErr Hist) (a : Hist), branches[i]? = some b → accs[i]? = some a → ∃ hs a', List.Forall₂ (fun w h => b w = .ok h) ws hs ∧ accs'[i]? = some a' ∧ fold a hs = .ok a' := by
  intro es
  induction es with
  | nil =>
    intro rows rows' accs accs' _ h
    obtain ⟨rfl, h2⟩ := Prod.mk.inj h
    obtain rfl := Except.ok.inj h2
    exact ⟨[], .nil, by simp, rfl, fun i b a _ ha => ⟨[], a, .nil, ha, rfl⟩⟩
  | cons e es ih =>
    intro rows rows' accs accs' hl h
    rw [loop_cons] at h
    cases hp : process e with
    | error err => rw [hp] at h; cases h
    | ok w =>
      rw [hp] at h
      dsimp only at h
      cases hm : (branches.zip accs).mapM (accumulate w) with
      | error err => rw [hm] at h; cases h
      | ok mid =>
        rw [hm] at h
        dsimp only at h
        obtain ⟨m1, m2⟩ := Blr.mapM_ok_get hm
        have hml : mid.length = accs.length := by rw [m1, List.length_zip, hl, Nat.min_self]
        obtain ⟨ws, w1, w2, w3, w4⟩ := ih (by rw [hml, hl]) h
        refine ⟨w :: ws, .cons hp w1, by rw [w2]; simp, by rw [w3, hml], fun i b a hb ha => ?_⟩
        obtain ⟨c, hc, hacc⟩ := m2 i (b, a) (by rw [List.getElem?_zip_eq_some]; exact ⟨hb, ha⟩)
        obtain ⟨y, hy, hadd⟩ := accumulate_ok hacc
        obtain ⟨hs, a', h1, h2, h3⟩ := w4 i b c hb hc
        refine ⟨y :: hs, a', .cons hy h1, h2, ?_⟩
        rw [fold_cons]
        dsimp only at hadd
        rw [hadd]
        exact h3

/-- A run that goes wrong among the events: the rows are those of the events before. -/
theorem loop_error {W : Type} {process : Event → Except PyErr W} {branches : List (W → Except PyErr Hist)} : ∀ {es : List Event} {rows rows' : List (Int × Int × Int)} {accs : List Hist} {err : PyErr},
    loop process branches es rows accs = (rows', .error err) → ∃ k < es.length, rows' = rows ++ (es.take k).map runRow := by
  intro es
  induction es with
  | nil => intro rows rows' accs err h; cases h
  | cons e es ih =>
    intro rows rows' accs err h
    rw [loop_cons] at h
    cases hp : process e with
    | error err' => rw [hp] at h; obtain ⟨rfl, _⟩ := Prod.mk.inj h; exact ⟨0, by simp, by simp⟩
    | ok w =>
      rw [hp] at h
      dsimp only at h
      cases hm : (branches.zip accs).mapM (accumulate w) with
      | error err' => rw [hm] at h; obtain ⟨rfl, _⟩ := Prod.mk.inj h; exact ⟨0, by simp, by simp⟩
      | ok mid =>
        rw [hm] at h
        obtain ⟨k, hk, hr⟩ := ih h
        exact ⟨k + 1, by simpa using hk, by rw [hr]; simp⟩

/-- A run goes on while the events are processed and their histograms have the rows of the accumulators. -/
theorem loop_works {W : Type} {process : Event → Except PyErr W} {branches : List (W → Except PyErr Hist)} {ns : Nat} : ∀ (es : List Event) (rows : List (Int × Int × Int)) (accs : List Hist), (∀ a ∈ accs, a.length = ns) →
    (∀ e ∈ es, ∃ w, process e = .ok w ∧ ∀ b ∈ branches, ∃ h, b w = .ok h ∧ h.length = ns) → ∃ rows' accs', loop process branches es rows accs = (rows', .ok accs') := by
  intro es
  induction es with
  | nil => intro rows accs _ _; exact ⟨rows, accs, rfl⟩
  | cons e es ih =>
    intro rows accs ha he
    obtain ⟨w, hw, hb⟩ := he e (List.mem_cons_self ..)
    rw [loop_cons, hw]
    dsimp only
    have key : ∀ (bs : List (W → Except PyErr Hist)) (as : List Hist), (∀ b ∈ bs, ∃ h, b w = .ok h ∧ h.length = ns) → (∀ a ∈ as, a.length = ns) →
        ∃ out, (bs.zip as).mapM (accumulate w) = .ok out ∧ ∀ a ∈ out, a.length = ns := by
      intro bs
      induction bs with
      | nil => intro as _ _; exact ⟨[], rfl, by simp⟩
      | cons b bs ihb =>
        intro as h1 h2
        cases as with
        | nil => exact ⟨[], rfl, by simp⟩
        | cons a as =>
          obtain ⟨y, hy, hyl⟩ := h1 b (List.mem_cons_self ..)
          obtain ⟨out, ho, hol⟩ := ihb as (fun b hb => h1 b (List.mem_cons_of_mem _ hb)) (fun a ha => h2 a (List.mem_cons_of_mem _ ha))
          have hal := h2 a (List.mem_cons_self ..)
          have hacc : accumulate w (b, a) = .ok (List.zipWith (List.zipWith (· + ·)) a y) := by
            unfold accumulate
            dsimp only
            rw [hy]
            dsimp only
            unfold addHist
            rw [if_pos (by rw [hal, hyl])]
          refine ⟨List.zipWith (List.zipWith (· + ·)) a y :: out, ?_, ?_⟩
          · rw [List.zip_cons_cons, List.mapM_cons, hacc]
            simp only [bind, Except.bind, ho, pure, Except.pure]
          · intro x hx
            rcases List.mem_cons.1 hx with rfl | hx
            · rw [List.length_zipWith, hal, hyl, Nat.min_self]
            · exact hol x hx
    obtain ⟨out, ho, hol⟩ := key branches accs hb ha
    rw [ho]
    exact ih _ _ hol fun e h => he e (List.mem_cons_of_mem _ h)

/-! ### The bins -/

theorem edges_grid {a b w : ℚ} {edges : List ℚ} (hw : 0 < w) (h : binEdges a b w = .ok edges) (hne : edges ≠ []) : Bins a b w (edges.length - 1) ∧ edges = grid a w (edges.length - 1) := by
  unfold binEdges at h
  rw [if_neg hw.ne'] at h
  obtain rfl := Except.ok.inj h
  rw [List.length_map, List.length_range]
  have hpos : 0 < ⌈(b - a) / w⌉.toNat := by
    rcases Nat.eq_zero_or_pos ⌈(b - a) / w⌉.toNat with h0 | h0
    · exact absurd (by rw [h0]; rfl) hne
    · exact h0
  obtain ⟨m, hm⟩ : ∃ m : Nat, ⌈(b - a) / w⌉ = (m : Int) + 1 := ⟨⌈(b - a) / w⌉.toNat - 1, by omega⟩
  have hm' : ⌈(b - a) / w⌉.toNat = m + 1 := by omega
  rw [hm']
  have h1 := Int.le_ceil ((b - a) / w)
  have h2 := Int.ceil_lt_add_one ((b - a) / w)
  rw [hm] at h1 h2
  push_cast at h1 h2
  rw [div_le_iff₀ hw] at h1
  have h3 : (m : ℚ) < (b - a) / w := by linarith
  rw [lt_div_iff₀ hw] at h3
  refine ⟨⟨?_, ?_⟩, rfl⟩
  · rw [Nat.add_sub_cancel]; linarith
  · rw [Nat.add_sub_cancel]; linarith

theorem centres_grid (a w : ℚ) (n : Nat) : centres (grid a w n) = centresOf a w n := by
  unfold centres
  apply List.ext_getElem?
  intro i
  rw [List.getElem?_zipWith, List.getElem?_tail]
  unfold grid centresOf
  by_cases hi : i < n
  · rw [List.getElem?_map, List.getElem?_map, List.getElem?_map, List.getElem?_range (by omega), List.getElem?_range (by omega), List.getElem?_range hi]
    simp only [Option.map_some]
    push_cast
    congr 1
    ring
  · rw [List.getElem?_map, List.getElem?_map, List.getElem?_map, List.getElem?_eq_none (l := List.range n) (by simpa using hi), List.getElem?_eq_none (l := List.range (n + 1)) (i := i + 1) (by simpa using hi)]
    cases (List.range (n + 1))[i]? <;> rfl

theorem bin_iff {a w : ℚ} {n k : Nat} (hw : 0 < w) (hk : k < n) (x : ℚ) : Voxels.histBin (grid a w n) x = some k ↔ InBin a w n k x := by
  rw [histBin_grid hw]
  unfold InBin
  exact ⟨fun h => h.2, fun h => ⟨hk, h⟩⟩

theorem histogram_ok {edges : List ℚ} {wfs : List (List ℚ)} {h : Hist} (hh : histogram edges wfs = .ok h) : h = binWaveforms edges wfs ∧ wfs.length ≠ 0 := by
  unfold histogram at hh
  split at hh
  · cases hh
  · split at hh
    · cases hh
    · exact ⟨(Except.ok.inj hh).symm, ‹_›⟩

theorem histogram_works {a w : ℚ} (hw : 0 < w) (n : Nat) {wfs : List (List ℚ)} (hl : wfs.length ≠ 0) : histogram (grid a w n) wfs = .ok (binWaveforms (grid a w n) wfs) := by
  unfold histogram
  rw [if_neg hl, if_neg]
  rw [Bool.not_eq_true, List.any_eq_false]
  intro p hp
  obtain ⟨i, hi⟩ := List.getElem?_of_mem hp
  rw [List.getElem?_zip_eq_some, List.getElem?_tail] at hi
  obtain ⟨h1, h2⟩ := hi
  unfold grid at h1 h2
  rw [List.getElem?_map, Option.map_eq_some_iff] at h1 h2
  obtain ⟨x, hx, e1⟩ := h1
  obtain ⟨y, hy, e2⟩ := h2
  obtain ⟨_, hx⟩ := List.getElem?_eq_some_iff.1 hx
  obtain ⟨_, hy⟩ := List.getElem?_eq_some_iff.1 hy
  rw [List.getElem_range] at hx hy
  subst hx hy
  rw [decide_eq_true_eq, ← e1, ← e2]
  push_cast
  nlinarith

/-- The sum of the histograms of several events counts the values of all of them. -/
theorem counts_sum {E : Type} {a w : ℚ} {ns n : Nat} (hw : 0 < w) (es : List E) (vals : E → List (List ℚ)) (hl : ∀ e ∈ es, (vals e).length = ns) :
    Counts a w ns n es (fun e s => (vals e).getD s []) (sumHistograms ns n (es.map fun e => binWaveforms (grid a w n) (vals e))) := by
  have hg : (grid a w n).length - 1 = n := by simp [grid]
  obtain ⟨⟨h1, h2⟩, h3⟩ := sumHistograms_spec ns n (es.map fun e => binWaveforms (grid a w n) (vals e)) (by
    intro h hh
    obtain ⟨e, he, rfl⟩ := List.mem_map.1 hh
    refine ⟨by simp [binWaveforms, hl e he], fun r hr => ?_⟩
    simp only [binWaveforms, List.mem_map] at hr
    obtain ⟨wf, _, rfl⟩ := hr
    rw [List.length_map, List.length_range, hg])
  refine ⟨h1, fun s hs => ?_⟩
  obtain ⟨row, hrow⟩ : ∃ row, (sumHistograms ns n (es.map fun e => binWaveforms (grid a w n) (vals e)))[s]? = some row := ⟨_, List.getElem?_eq_getElem (by omega)⟩
  have hlen := h2 row (List.mem_of_getElem? hrow)
  refine ⟨row, hrow, hlen, fun k hk => ?_⟩
  have hb := h3 s k
  unfold binOf at hb
  rw [List.getD_eq_getElem?_getD (l := sumHistograms _ _ _), hrow, Option.getD_some, List.getD_eq_getElem?_getD, List.getElem?_eq_getElem (by omega), Option.getD_some] at hb
  rw [List.getElem?_eq_getElem (by omega), hb, List.map_map]
  congr 2
  apply List.map_congr_left
  intro e he
  show ((binWaveforms (grid a w n) (vals e)).getD s []).getD k 0 = _
  have hse : s < (vals e).length := by rw [hl e he]; exact hs
  rw [List.getD_eq_getElem?_getD (l := binWaveforms _ _)]
  unfold binWaveforms
  rw [List.getElem?_map, List.getElem?_eq_getElem hse, Option.map_some, Option.getD_some, List.getD_eq_getElem?_getD, List.getElem?_map, List.getElem?_range (by rw [hg]; exact hk), Option.map_some, Option.getD_some]
  beta_reduce
  rw [List.getD_eq_getElem?_getD, List.getElem?_eq_getElem hse, Option.getD_some, List.countP_eq_length_filter]
  unfold inBin
  congr 1
  apply List.filter_congr
  intro x _
  have := bin_iff hw hk (a := a) x
  by_cases hx : InBin a w n k x
  · simp [hx, this.2 hx]
  · have hn : Voxels.histBin (grid a w n) x ≠ some k := fun h => hx (this.1 h)
    simp [hx, hn]

/-! ### The histograms of the output -/

theorem writeHists_ok {ns : Nat} {cs : List ℚ} : ∀ {l : List (String × Hist)} {out res : List (String × List ℚ × Hist)}, writeHists ns cs l out = (res, .ok ()) → res = out ++ l.map (fun x => (x.1, cs, x.2)) ∧ (l ≠ [] → ns * cs.length ≠ 0) := by
  intro l
  induction l with
  | nil =>
    intro out res h
    obtain ⟨rfl, _⟩ := Prod.mk.inj h
    simp
  | cons x l ih =>
    intro out res h
    obtain ⟨name, hi⟩ := x
    unfold writeHists at h
    split at h
    · cases h
    · split at h
      · cases h
      · obtain ⟨h1, _⟩ := ih h
        refine ⟨by rw [h1]; simp, fun _ => ‹_›⟩

theorem writeHists_works {ns : Nat} {cs : List ℚ} (hn : ns * cs.length ≠ 0) : ∀ (l : List (String × Hist)) (out : List (String × List ℚ × Hist)), (∀ x ∈ l, x.2.flatten.length = ns * cs.length) → ∃ res, writeHists ns cs l out = (res, .ok ()) := by
  intro l
  induction l with
  | nil => intro out _; exact ⟨out, rfl⟩
  | cons x l ih =>
    intro out h
    obtain ⟨name, hi⟩ := x
    unfold writeHists
    rw [if_neg hn, if_neg (by rw [Ne, not_not]; exact h _ (List.mem_cons_self ..))]
    exact ih _ fun x hx => h x (List.mem_cons_of_mem _ hx)

theorem sum_flatten {ns n : Nat} {h : Hist} (h1 : h.length = ns) (h2 : ∀ r ∈ h, r.length = n) : h.flatten.length = ns * n := by
  subst h1
  induction h with
  | nil => simp
  | cons r h ih =>
    rw [List.flatten_cons, List.length_append, ih (fun r hr => h2 r (List.mem_cons_of_mem _ hr)), h2 r (List.mem_cons_self ..), List.length_cons]
    ring

/-- What a job that ends well has written: the rows of its events, and for each accumulator the counts of its values. `vals i w` are the values of the accumulator `i` for the waveforms `w`. -/
theorem produce_ok {W : Type} {process : Event → Except PyErr W} {branches : List (String × (W → Except PyErr Hist))} {ns : Nat} {a b w : ℚ} {edges : List ℚ} {es : List Event} {o : Out} (hw : 0 < w)
    (he : binEdges a b w = .ok edges) (hbr : branches ≠ []) (h : produce process branches ns edges es = (o, .ok ())) :
    0 < ns ∧ ∃ nb, 0 < nb ∧ Bins a b w nb ∧ edges = grid a w nb ∧ o.rows = es.map (fun e => (e.run, e.number, e.time)) ∧
      ∃ ws, List.Forall₂ (fun e w => process e = .ok w) es ws ∧ o.hists.length = branches.length ∧
        ∀ (i : Nat) (name : String) (f : W → Except PyErr Hist), branches[i]? = some (name, f) → ∃ hist, o.hists[i]? = some (name, centresOf a w nb, hist) ∧
          ∃ hs, List.Forall₂ (fun w h => f w = .ok h) ws hs ∧ fold (zeros ns nb) hs = .ok hist := by
  unfold produce at h
  cases hl : loop process (branches.map Prod.snd) es [] (branches.map fun _ => zeros ns (centres edges).length) with
  | mk rows res =>
    rw [hl] at h
    cases res with
    | error e => cases h
    | ok accs =>
      dsimp only at h
      obtain ⟨ws, w1, w2, w3, w4⟩ := loop_ok (by simp) hl
      cases hwr : writeHists ns (centres edges) ((branches.map Prod.fst).zip accs) [] with
      | mk hs r =>
        rw [hwr] at h
        obtain ⟨rfl, h2⟩ := Prod.mk.inj h
        subst h2
        obtain ⟨h3, h4⟩ := writeHists_ok hwr
        rw [List.length_map] at w3
        have hz : (branches.map Prod.fst).zip accs ≠ [] := by
          intro h0
          have h1 := congrArg List.length h0
          rw [List.length_zip, List.length_map, w3, Nat.min_self, List.length_nil] at h1
          exact hbr (List.length_eq_zero_iff.1 h1)
        have hne : ns * (centres edges).length ≠ 0 := h4 hz
        have hc : (centres edges).length ≠ 0 := fun h => hne (by rw [h, Nat.mul_zero])
        have hns : ns ≠ 0 := fun h => hne (by rw [h, Nat.zero_mul])
        have hed : edges ≠ [] := by rintro rfl; exact hc rfl
        obtain ⟨hb, hg⟩ := edges_grid hw he hed
        generalize edges.length - 1 = nb at hb hg
        subst hg
        rw [centres_grid] at *
        have hcl : (centresOf a w nb).length = nb := by simp [centresOf]
        rw [hcl] at hc
        refine ⟨Nat.pos_of_ne_zero hns, nb, Nat.pos_of_ne_zero hc, hb, rfl, ?_, ws, w1, ?_, fun i name f hi => ?_⟩
        · show rows = _
          rw [w2]; rfl
        · show hs.length = _
          rw [h3, List.nil_append, List.length_map, List.length_zip, List.length_map, w3, Nat.min_self]
        · obtain ⟨ys, a', y1, y2, y3⟩ := w4 i f (zeros ns nb) (by rw [List.getElem?_map, hi]; rfl) (by rw [List.getElem?_map, hi, Option.map_some, hcl])
          refine ⟨a', ?_, ys, y1, y3⟩
          show hs[i]? = _
          rw [h3, List.nil_append, List.getElem?_map, (List.getElem?_zip_eq_some (z := (name, a'))).2 ⟨by rw [List.getElem?_map, hi]; rfl, y2⟩]
          rfl

/-- C113: a job that fails after its set-up has in the tables of Run the events before the one that failed, and then no histogram; or all of them, when what fails is the writing. -/
theorem produce_error {W : Type} {process : Event → Except PyErr W} {branches : List (String × (W → Except PyErr Hist))} {ns : Nat} {edges : List ℚ} {es : List Event} {o : Out} {err : PyErr}
    (h : produce process branches ns edges es = (o, .error err)) :
    (∃ k < es.length, o = ⟨(es.take k).map (fun e => (e.run, e.number, e.time)), []⟩) ∨ o.rows = es.map fun e => (e.run, e.number, e.time) := by
  unfold produce at h
  cases hl : loop process (branches.map Prod.snd) es [] (branches.map fun _ => zeros ns (centres edges).length) with
  | mk rows res =>
    rw [hl] at h
    cases res with
    | error e =>
      obtain ⟨k, hk, hr⟩ := loop_error hl
      obtain ⟨rfl, _⟩ := Prod.mk.inj h
      exact .inl ⟨k, hk, by rw [hr]; rfl⟩
    | ok accs =>
      obtain ⟨ws, w1, w2, w3, w4⟩ := loop_ok (by simp) hl
      dsimp only at h
      cases hwr : writeHists ns (centres edges) ((branches.map Prod.fst).zip accs) [] with
      | mk hs r =>
        rw [hwr] at h
        obtain ⟨rfl, _⟩ := Prod.mk.inj h
        exact .inr (by show rows = _; rw [w2]; rfl)

/-- A job ends well when the events are processed and their histograms have the right shape. -/
theorem produce_works {W : Type} {process : Event → Except PyErr W} {branches : List (String × (W → Except PyErr Hist))} {ns nb : Nat} {edges : List ℚ} {es : List Event} (hns : 0 < ns) (hnb : 0 < nb) (hc : (centres edges).length = nb)
    (he : ∀ e ∈ es, ∃ w, process e = .ok w ∧ ∀ b ∈ branches, ∃ h, b.2 w = .ok h ∧ h.length = ns ∧ ∀ r ∈ h, r.length = nb) : ∃ o, produce process branches ns edges es = (o, .ok ()) := by
  obtain ⟨rows, accs, hl⟩ := loop_works (process := process) (branches := branches.map Prod.snd) (ns := ns) es [] (branches.map fun _ => zeros ns (centres edges).length)
    (by intro a ha; obtain ⟨_, _, rfl⟩ := List.mem_map.1 ha; simp [zeros]) (by
      intro e h
      obtain ⟨w, h1, h2⟩ := he e h
      refine ⟨w, h1, fun b hb => ?_⟩
      obtain ⟨x, hx, rfl⟩ := List.mem_map.1 hb
      obtain ⟨y, y1, y2, _⟩ := h2 x hx
      exact ⟨y, y1, y2⟩)
  obtain ⟨ws, w1, _, w3, w4⟩ := loop_ok (by simp) hl
  have hacc : ∀ x ∈ accs, x.flatten.length = ns * nb := by
    intro x hx
    obtain ⟨i, hx⟩ := List.getElem?_of_mem hx
    have hil : i < branches.length := by
      have := (List.getElem?_eq_some_iff.1 hx).1
      rw [w3, List.length_map] at this
      exact this
    have hbi : branches[i]? = some branches[i] := List.getElem?_eq_getElem hil
    obtain ⟨hs, a', y1, y2, y3⟩ := w4 i branches[i].2 (zeros ns nb) (by rw [List.getElem?_map, hbi]; rfl) (by rw [List.getElem?_map, hbi, Option.map_some, hc])
    rw [hx] at y2
    obtain rfl := Option.some.inj y2
    have hall : ∀ h ∈ hs, h.length = ns ∧ ∀ r ∈ h, r.length = nb := by
      intro h hh
      obtain ⟨k, hk⟩ := List.getElem?_of_mem hh
      have l1 := y1.length_eq
      have l2 := w1.length_eq
      obtain ⟨hk2, rfl⟩ := List.getElem?_eq_some_iff.1 hk
      have q1 := (List.forall₂_iff_get.1 y1).2 k (by omega) hk2
      have q2 := (List.forall₂_iff_get.1 w1).2 k (by omega) (by omega)
      simp only [List.get_eq_getElem] at q1 q2
      obtain ⟨w, z1, z2⟩ := he (es[k]'(by omega)) (List.getElem_mem _)
      rw [q2] at z1
      obtain rfl := Except.ok.inj z1
      obtain ⟨h', v1, v2⟩ := z2 branches[i] (List.getElem_mem _)
      rw [q1] at v1
      obtain rfl := Except.ok.inj v1
      exact v2
    rw [fold_same (ns := ns) hs _ (by simp [zeros]) (fun h hh => (hall h hh).1)] at y3
    obtain rfl := Except.ok.inj y3
    obtain ⟨⟨q1, q2⟩, _⟩ := sumHistograms_spec ns nb hs hall
    exact sum_flatten q1 q2
  obtain ⟨res, hres⟩ := writeHists_works (ns := ns) (cs := centres edges) (by rw [hc]; exact Nat.mul_ne_zero hns.ne' hnb.ne') ((branches.map Prod.fst).zip accs) [] (by
    intro x hx
    rw [hc]
    exact hacc x.2 (List.of_mem_zip hx).2)
  unfold produce
  rw [hl]
  dsimp only
  rw [hres]
  exact ⟨_, rfl⟩

/-- The edges of bins that are at least one. -/
theorem edges_works {a b w : ℚ} (hw : 0 < w) (hb : a + w < b) : ∃ nb, 0 < nb ∧ binEdges a b w = .ok (grid a w nb) := by
  have hc2 : (1 : ℚ) < (b - a) / w := by rw [lt_div_iff₀ hw]; linarith
  have hce : (1 : Int) < ⌈(b - a) / w⌉ := Int.lt_ceil.2 (by exact_mod_cast hc2)
  refine ⟨⌈(b - a) / w⌉.toNat - 1, by omega, ?_⟩
  unfold binEdges grid
  rw [if_neg hw.ne', Nat.sub_add_cancel (by omega)]

end Verif.CalibCity
