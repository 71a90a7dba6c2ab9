import Verif.Spec.Hits
import Verif.Lemmas.Lists
import Mathlib.Algebra.BigOperators.Group.List.Lemmas
/-!
# C22, C23, C24: hits share, merge and threshold energy without losing it
-/
namespace Verif.Hits

theorem EPSILON_pos : 0 < EPSILON := by unfold EPSILON; positivity

/-! ### C22: sharing the energy of a slice -/

/-- **C22** Energy is shared in proportion to the charge, and adds up to the shared energy up to the documented epsilon. -/
theorem eFromQ_spec (qs : List ℚ) (e : ℚ) (h : qs.sum + EPSILON ≠ 0) :
    (eFromQ qs e).length = qs.length ∧
    (∀ (i j : Nat) (qi qj ei ej : ℚ), qs[i]? = some qi → qs[j]? = some qj → (eFromQ qs e)[i]? = some ei → (eFromQ qs e)[j]? = some ej →
      ei * qj = ej * qi) ∧
    (eFromQ qs e).sum = e - e * EPSILON / (qs.sum + EPSILON) := by
  refine ⟨by simp [eFromQ], ?_, ?_⟩
  · intro i j qi qj ei ej h1 h2 h3 h4
    simp only [eFromQ, List.getElem?_map, h1, h2, Option.map_some, Option.some.injEq] at h3 h4
    subst h3 h4
    ring
  · have : (eFromQ qs e).sum = qs.sum * e / (qs.sum + EPSILON) := by
      simp only [eFromQ]
      have : (fun q => q * e / (qs.sum + EPSILON)) = fun q => q * (e / (qs.sum + EPSILON)) := by funext q; ring
      rw [this, List.sum_map_mul_right, List.map_id']
      ring
    rw [this]
    field_simp
    ring

theorem sum_ge_thr {qs : List ℚ} {thr : ℚ} (ht : 0 < thr) (h : ∀ q ∈ qs, thr ≤ q) (hne : qs ≠ []) : thr ≤ qs.sum := by
  cases qs with
  | nil => exact absurd rfl hne
  | cons q qs =>
    have : 0 ≤ qs.sum := List.sum_nonneg fun x hx => ht.le.trans (h x (List.mem_cons_of_mem _ hx))
    have := h q List.mem_cons_self
    rw [List.sum_cons]; linarith

/-- **C22** No SiPM above threshold: one NN hit with the full energy of the slice. -/
theorem sipmsAboveThreshold_none (sipms : List (ℚ × ℚ × ℚ)) (thr energy : ℚ) (h : ∀ s ∈ sipms, s.2.2 < thr) :
    sipmsAboveThreshold sipms thr energy = [(NN, NN, NN, energy)] := by
  have : sipms.filter (fun s => decide (thr ≤ s.2.2)) = [] := by
    rw [List.filter_eq_nil_iff]; intro s hs; simpa using h s hs
  simp [sipmsAboveThreshold, this]

/-- **C22** Otherwise the hits are exactly the SiPMs with charge at least the threshold, in order, with their positions
and charges; energies are proportional to the charges, and (for a positive threshold) they add up to the energy of the
slice up to a fraction `EPSILON / thr` of it. -/
theorem sipmsAboveThreshold_some (sipms : List (ℚ × ℚ × ℚ)) (thr energy : ℚ) (h : ∃ s ∈ sipms, thr ≤ s.2.2) :
    (sipmsAboveThreshold sipms thr energy).map (fun r => (r.1, r.2.1, r.2.2.1)) = sipms.filter (fun s => decide (thr ≤ s.2.2)) ∧
    (∀ r ∈ sipmsAboveThreshold sipms thr energy, ∀ r' ∈ sipmsAboveThreshold sipms thr energy,
      r.2.2.2 * r'.2.2.1 = r'.2.2.2 * r.2.2.1) ∧
    (0 < thr → |((sipmsAboveThreshold sipms thr energy).map (·.2.2.2)).sum - energy| ≤ |energy| * EPSILON / thr) := by
  set sel := sipms.filter fun s => decide (thr ≤ s.2.2) with hsel
  have hne : sel ≠ [] := by
    obtain ⟨s, hs, hq⟩ := h
    intro hc
    have : s ∈ sel := List.mem_filter.2 ⟨hs, by simpa using hq⟩
    rw [hc] at this; cases this
  set Q := (sel.map fun s => s.2.2).sum + EPSILON with hQ
  have heq : sipmsAboveThreshold sipms thr energy =
      sel.map fun s => (s.1, s.2.1, s.2.2, s.2.2 * energy / Q) := by
    have hem : sel.isEmpty = false := by cases hs : sel with | nil => exact absurd hs hne | cons => rfl
    simp only [sipmsAboveThreshold, ← hsel, hem, eFromQ, List.map_map, ← hQ, Bool.false_eq_true, if_false]
    rw [List.zipWith_map_right, List.zipWith_self]
    rfl
  rw [heq]
  refine ⟨by simp [List.map_map, Function.comp_def], ?_, ?_⟩
  · intro r hr r' hr'
    obtain ⟨s, _, rfl⟩ := List.mem_map.1 hr
    obtain ⟨s', _, rfl⟩ := List.mem_map.1 hr'
    simp only
    ring
  · intro ht
    have hq : thr ≤ (sel.map fun s => s.2.2).sum := by
      apply sum_ge_thr ht
      · intro q hq
        obtain ⟨s, hs, rfl⟩ := List.mem_map.1 hq
        simpa using (List.mem_filter.1 hs).2
      · simpa using hne
    have hpos : 0 < Q := by have := EPSILON_pos; linarith
    have hs := (eFromQ_spec (sel.map fun s => s.2.2) energy (by rw [← hQ]; exact hpos.ne')).2.2
    have : (sel.map fun s => (s.1, s.2.1, s.2.2, s.2.2 * energy / Q)).map (·.2.2.2) = eFromQ (sel.map fun s => s.2.2) energy := by
      simp [eFromQ, List.map_map, Function.comp_def, hQ]
    rw [this, hs, ← hQ]
    rw [show energy - energy * EPSILON / Q - energy = -(energy * EPSILON / Q) by ring, abs_neg, abs_div, abs_mul,
      abs_of_pos EPSILON_pos, abs_of_pos hpos]
    apply div_le_div_of_nonneg_left (mul_nonneg (abs_nonneg _) EPSILON_pos.le) ht
    have := EPSILON_pos; linarith

/-- With a threshold of zero (or below) the energy may be lost altogether: all charges zero. -/
theorem zero_threshold_loses_energy :
    ((sipmsAboveThreshold [(0, 0, 0), (1, 0, 0)] 0 100).map (·.2.2.2)).sum = 0 := by decide +kernel

/-- Energies of the slices of the selected peaks. -/
def sliceEnergies (peaks : List (Bool × List Slice)) : List ℚ := (peaks.filter (·.1)).flatMap fun p => p.2.map Slice.e

theorem total_append (col : Hit → Fl) (a b : List Hit) : total col (a ++ b) = total col a + total col b := by
  simp [total]

/-- The hits of one slice carry its energy. -/
theorem slice_total (info peakNo : Nat) (s : Slice) (thr : ℚ) (ht : 0 < thr) :
    |total Hit.e ((sipmsAboveThreshold s.sipms thr s.e).map fun r =>
      { info := info, npeak := peakNo, x := r.1, y := r.2.1, z := s.z, q := r.2.2.1, e := some r.2.2.2, ec := none, extra := none }) - s.e|
      ≤ |s.e| * EPSILON / thr := by
  have e1 : total Hit.e ((sipmsAboveThreshold s.sipms thr s.e).map fun r =>
      { info := info, npeak := peakNo, x := r.1, y := r.2.1, z := s.z, q := r.2.2.1, e := some r.2.2.2, ec := none, extra := none }) =
      ((sipmsAboveThreshold s.sipms thr s.e).map (·.2.2.2)).sum := by
    simp [total, List.map_map, Function.comp_def]
  rw [e1]
  by_cases h : ∃ r ∈ s.sipms, thr ≤ r.2.2
  · exact (sipmsAboveThreshold_some s.sipms thr s.e h).2.2 ht
  · rw [sipmsAboveThreshold_none s.sipms thr s.e (fun r hr => by
      by_contra hc; exact h ⟨r, hr, not_lt.1 hc⟩)]
    have : 0 ≤ |s.e| * EPSILON / thr := div_nonneg (mul_nonneg (abs_nonneg _) EPSILON_pos.le) ht.le
    simpa using this

/-- **C22** The hits of an event carry the energy of all the slices of all the selected peaks, and nothing else (up to
the fraction `EPSILON / thr`). -/
theorem sipmsAsHits_energy (info : Nat) (thr : ℚ) (ht : 0 < thr) (peaks : List (Bool × List Slice)) :
    |total Hit.e (sipmsAsHits info thr peaks) - (sliceEnergies peaks).sum| ≤ ((sliceEnergies peaks).map (|·|)).sum * EPSILON / thr := by
  have slices : ∀ (k : Nat) (ss : List Slice),
      |total Hit.e (ss.flatMap fun s => (sipmsAboveThreshold s.sipms thr s.e).map fun r =>
        { info := info, npeak := k, x := r.1, y := r.2.1, z := s.z, q := r.2.2.1, e := some r.2.2.2, ec := none, extra := none }) -
        (ss.map Slice.e).sum| ≤ ((ss.map Slice.e).map (|·|)).sum * EPSILON / thr := by
    intro k ss
    induction ss with
    | nil => simp [total]
    | cons s ss ih =>
      rw [List.flatMap_cons, total_append, List.map_cons, List.sum_cons, List.map_cons, List.sum_cons]
      have h1 := slice_total info k s thr ht
      have h2 := abs_add_le (total Hit.e ((sipmsAboveThreshold s.sipms thr s.e).map fun r =>
        { info := info, npeak := k, x := r.1, y := r.2.1, z := s.z, q := r.2.2.1, e := some r.2.2.2, ec := none, extra := none }) - s.e)
        (total Hit.e (ss.flatMap fun s => (sipmsAboveThreshold s.sipms thr s.e).map fun r =>
        { info := info, npeak := k, x := r.1, y := r.2.1, z := s.z, q := r.2.2.1, e := some r.2.2.2, ec := none, extra := none }) -
        (ss.map Slice.e).sum)
      rw [add_sub_add_comm]
      refine h2.trans ((add_le_add h1 ih).trans (le_of_eq ?_))
      ring
  have peaksFrom : ∀ n, |total Hit.e ((peaks.zipIdx n).flatMap fun ((passed, ss), peakNo) =>
      if !passed then [] else
      ss.flatMap fun s => (sipmsAboveThreshold s.sipms thr s.e).map fun r =>
        { info := info, npeak := peakNo, x := r.1, y := r.2.1, z := s.z, q := r.2.2.1, e := some r.2.2.2, ec := none, extra := none }) -
      (sliceEnergies peaks).sum| ≤ ((sliceEnergies peaks).map (|·|)).sum * EPSILON / thr := by
    induction peaks with
    | nil => intro n; simp [total, sliceEnergies]
    | cons p ps ih =>
      intro n
      obtain ⟨passed, ss⟩ := p
      rw [List.zipIdx_cons, List.flatMap_cons, total_append]
      cases passed with
      | false =>
        simp only [Bool.not_false, if_true]
        have : sliceEnergies ((false, ss) :: ps) = sliceEnergies ps := by simp [sliceEnergies]
        rw [this]
        simpa [total] using ih (n + 1)
      | true =>
        have e2 : sliceEnergies ((true, ss) :: ps) = ss.map Slice.e ++ sliceEnergies ps := by simp [sliceEnergies]
        rw [e2, List.sum_append, List.map_append, List.sum_append, add_sub_add_comm]
        refine (abs_add_le _ _).trans ?_
        have h1 := slices n ss
        have h2 := ih (n + 1)
        simp only [Bool.not_true, Bool.false_eq_true, if_false]
        refine (add_le_add h1 h2).trans (le_of_eq ?_)
        ring
  exact peaksFrom 0

example : (sipmsAboveThreshold [(0, 0, 5), (10, 0, 2), (20, 0, 15)] 5 100).map (fun r => (r.1, r.2.1, r.2.2.1)) =
    [(0, 0, 5), (20, 0, 15)] := by decide +kernel
example : ∃ s ∈ [((0 : ℚ), (0 : ℚ), (5 : ℚ)), (10, 0, 2)], 5 ≤ s.2.2 := by decide +kernel
example : ([5, 15] : List ℚ).sum + EPSILON ≠ 0 := by decide +kernel

/-! ### C23: merging NN hits -/

theorem Fl.add_zero' (a : Fl) : Fl.add a (some 0) = a := by cases a <;> simp [Fl.add]
theorem Fl.zero_add' (a : Fl) : Fl.add (some 0) a = a := by cases a <;> simp [Fl.add]
theorem Fl.add_comm' (a b : Fl) : Fl.add a b = Fl.add b a := by cases a <;> cases b <;> simp [Fl.add, add_comm]
theorem Fl.add_assoc' (a b c : Fl) : Fl.add (Fl.add a b) c = Fl.add a (Fl.add b c) := by
  cases a <;> cases b <;> cases c <;> simp [Fl.add, add_assoc]

theorem mem_candidates {sp : Bool} {hits : List Hit} {nn h : Hit} : h ∈ candidates sp hits nn ↔ h ∈ hits ∧ Eligible sp nn h := by
  unfold candidates Eligible
  cases sp <;> simp

theorem inClosest_iff {sp : Bool} {hits : List Hit} {nn h : Hit} (hm : h ∈ hits) :
    inClosest sp hits nn h = true ↔ Nearest sp hits nn h := by
  have hel : (!sp || h.npeak == nn.npeak) = true ↔ Eligible sp nn h := by unfold Eligible; cases sp <;> simp
  unfold inClosest Nearest
  rw [Bool.and_eq_true, hel]
  constructor
  · rintro ⟨h1, h2⟩
    refine ⟨hm, h1, ?_⟩
    intro h' hm' he'
    cases hmin : minDz (candidates sp hits nn) nn with
    | none => rw [hmin] at h2; simp at h2
    | some m =>
      rw [hmin] at h2
      simp only [Option.any_some, isclose, decide_eq_true_eq] at h2
      have hmm := List.min?_eq_some_iff.1 hmin
      have hle : m ≤ |h'.z - nn.z| := hmm.2 _ (List.mem_map.2 ⟨h', mem_candidates.2 ⟨hm', he'⟩, rfl⟩)
      have hm0 : 0 ≤ m := by
        obtain ⟨k, _, hk⟩ := List.mem_map.1 hmm.1
        rw [← hk]; exact abs_nonneg _
      have h3 := (abs_le.1 h2).2
      rw [abs_of_nonneg hm0] at h3
      have h4 : 1 / 10 ^ 5 * m ≤ 1 / 10 ^ 5 * |h'.z - nn.z| := by
        apply mul_le_mul_of_nonneg_left hle; norm_num
      linarith
  · rintro ⟨_, h1, h2⟩
    refine ⟨h1, ?_⟩
    have hc : h ∈ candidates sp hits nn := mem_candidates.2 ⟨hm, h1⟩
    cases hmin : minDz (candidates sp hits nn) nn with
    | none =>
      simp only [minDz, List.min?_eq_none_iff, List.map_eq_nil_iff] at hmin
      rw [hmin] at hc; cases hc
    | some m =>
      have hmm := List.min?_eq_some_iff.1 hmin
      obtain ⟨k, hk, hkm⟩ := List.mem_map.1 hmm.1
      obtain ⟨hk1, hk2⟩ := mem_candidates.1 hk
      have h3 := h2 k hk1 hk2
      have hle : m ≤ |h.z - nn.z| := hmm.2 _ (List.mem_map.2 ⟨h, hc, rfl⟩)
      simp only [Option.any_some, isclose, decide_eq_true_eq]
      rw [hkm] at h3
      have hm0 : 0 ≤ m := by rw [← hkm]; exact abs_nonneg _
      rw [abs_of_nonneg hm0, abs_of_nonneg (by linarith)]
      linarith

/-- What hit `h` receives from the NN hit `nn`, in the words of the specification. -/
def received (col : Hit → Fl) (sp : Bool) (real : List Hit) (nn h : Hit) : Fl :=
  if Nearest sp real nn h then
    Fl.div (Fl.mul (col nn) (col h)) (total col (real.filter fun h' => decide (Nearest sp real nn h')))
  else some 0

/-- Everything hit `h` receives from the NN hits. -/
def gain (col : Hit → Fl) (sp : Bool) (real nns : List Hit) (h : Hit) : Fl :=
  nns.foldl (fun c nn => Fl.add c (received col sp real nn h)) (some 0)

theorem addCorrections_eq (col : Hit → Fl) (sp : Bool) (real : List Hit) (nn : Hit) (f : Hit → Fl) :
    addCorrections col sp real (real.map f) nn = real.map fun h => Fl.add (f h) (received col sp real nn h) := by
  have hclosest : real.filter (inClosest sp real nn) = real.filter fun h' => decide (Nearest sp real nn h') := by
    apply List.filter_congr
    intro h hm
    rw [Bool.eq_iff_iff, inClosest_iff hm, decide_eq_true_eq]
  unfold addCorrections
  split
  · rename_i hc
    apply List.map_congr_left
    intro h hm
    have : ¬ Nearest sp real nn h := by
      rintro ⟨_, h1, _⟩
      have := mem_candidates.2 ⟨hm, h1⟩
      rw [List.isEmpty_iff.1 hc] at this; cases this
    simp [received, this, Fl.add_zero']
  · rw [List.zipWith_map_right, List.zipWith_self]
    apply List.map_congr_left
    intro h hm
    by_cases hn : Nearest sp real nn h
    · have : inClosest sp real nn h = true := (inClosest_iff hm).2 hn
      simp only [this, if_true, received, hn, correction, hclosest]
      simp [nansum, total, List.map_map, Function.comp_def]
    · have : ¬ inClosest sp real nn h = true := fun hc => hn ((inClosest_iff hm).1 hc)
      simp [this, received, hn, Fl.add_zero']

theorem foldl_addCorrections (col : Hit → Fl) (sp : Bool) (real nns : List Hit) :
    nns.foldl (addCorrections col sp real) (real.map fun _ => some 0) = real.map (gain col sp real nns) := by
  have : ∀ f : Hit → Fl, nns.foldl (addCorrections col sp real) (real.map f) =
      real.map fun h => nns.foldl (fun c nn => Fl.add c (received col sp real nn h)) (f h) := by
    induction nns with
    | nil => intro f; rfl
    | cons nn nns ih => intro f; rw [List.foldl_cons, addCorrections_eq, ih]; rfl
  exact this _

/-- **C23** The merged hits are the non-NN hits in their original order; nothing changes but the energies, to which
each NN hit contributes in favour of its nearest hits, in proportion to their energies. -/
theorem mergeNN_formula (sp hasEc : Bool) (hits : List Hit) :
    mergeNN sp hasEc hits = (hits.filter fun h => !h.isNN).map fun h =>
      { h with
        e := Fl.add h.e (gain Hit.e sp (hits.filter fun h => !h.isNN) (hits.filter Hit.isNN) h)
        ec := if hasEc then Fl.add h.ec (gain Hit.ec sp (hits.filter fun h => !h.isNN) (hits.filter Hit.isNN) h) else h.ec } := by
  unfold mergeNN
  split
  · rename_i hn
    have hall : ∀ h ∈ hits, h.isNN = false := by
      intro h hm
      simp only [Bool.not_eq_true', List.any_eq_false] at hn
      simpa [Hit.isNN] using hn h hm
    have h1 : hits.filter (fun h => !h.isNN) = hits := by
      rw [List.filter_eq_self]; intro h hm; simp [hall h hm]
    have h2 : hits.filter Hit.isNN = [] := by
      rw [List.filter_eq_nil_iff]; intro h hm; simp [hall h hm]
    rw [h1, h2]
    symm
    conv_rhs => rw [← List.map_id hits]
    apply List.map_congr_left
    intro h _
    simp [gain, Fl.add_zero']
  · simp only [Hit.isNN]
    rw [foldl_addCorrections, foldl_addCorrections]
    cases hasEc
    · simp only [Bool.false_eq_true, if_false, List.zipWith_map_right, List.zipWith_self]
      rfl
    · simp only [if_true, List.zipWith_map_right, List.zipWith_map_left, List.zipWith_self]
      rfl

/-- **C23** No NN hit is left, the others keep their order and all their other columns. -/
theorem mergeNN_same_hits (sp hasEc : Bool) (hits : List Hit) :
    List.Forall₂ (fun h r => SameHit h r ∧ (hasEc = false → r.ec = h.ec)) (hits.filter fun h => !h.isNN) (mergeNN sp hasEc hits) ∧
    ∀ r ∈ mergeNN sp hasEc hits, r.isNN = false := by
  rw [mergeNN_formula]
  constructor
  · rw [List.forall₂_map_right_iff, List.forall₂_same]
    intro h _
    refine ⟨⟨rfl, rfl, rfl, rfl, rfl, rfl, rfl⟩, ?_⟩
    intro hec; simp [hec]
  · intro r hr
    obtain ⟨h, hh, rfl⟩ := List.mem_map.1 hr
    have := (List.mem_filter.1 hh).2
    simpa [Hit.isNN] using this

theorem foldl_Fl_add_some {ι : Type} (xs : List ι) (f : ι → Fl) (g : ι → ℚ) (h : ∀ x ∈ xs, f x = some (g x)) (c : ℚ) :
    xs.foldl (fun c x => Fl.add c (f x)) (some c) = some (c + (xs.map g).sum) := by
  induction xs generalizing c with
  | nil => simp
  | cons x xs ih =>
    rw [List.foldl_cons, h x List.mem_cons_self, show Fl.add (some c) (some (g x)) = some (c + g x) from rfl, ih (fun y hy => h y (List.mem_cons_of_mem _ hy))]
    simp [add_assoc]

/-- All NN hits can be merged as far as column `col` is concerned: all values are numbers and for each NN hit the
nearest hits have some energy. -/
def Mergeable (col : Hit → Fl) (sp : Bool) (hits : List Hit) : Prop :=
  (∀ h ∈ hits, (col h).isSome) ∧
  ∀ nn ∈ hits, nn.isNN = true →
    total col ((hits.filter fun h => !h.isNN).filter fun h => decide (Nearest sp (hits.filter fun h => !h.isNN) nn h)) ≠ 0

theorem sum_filter_ite {ι : Type} (xs : List ι) (p : ι → Prop) [DecidablePred p] (f : ι → ℚ) :
    ((xs.filter fun x => decide (p x)).map f).sum = (xs.map fun x => if p x then f x else 0).sum := by
  induction xs with
  | nil => rfl
  | cons x xs ih => by_cases h : p x <;> simp [List.filter_cons, h, ih]

theorem sum_comm {ι κ : Type} (xs : List ι) (ys : List κ) (f : ι → κ → ℚ) :
    (xs.map fun x => (ys.map fun y => f x y).sum).sum = (ys.map fun y => (xs.map fun x => f x y).sum).sum := by
  induction xs with
  | nil => simp
  | cons x xs ih =>
    simp only [List.map_cons, List.sum_cons, ih]
    rw [List.sum_map_add]

theorem gain_total (col : Hit → Fl) (sp : Bool) (hits : List Hit) (hm : Mergeable col sp hits) :
    ((hits.filter fun h => !h.isNN).map fun h =>
      (Fl.add (col h) (gain col sp (hits.filter fun h => !h.isNN) (hits.filter Hit.isNN) h)).getD 0).sum = total col hits := by
  set real := hits.filter fun h => !h.isNN with hreal
  set nns := hits.filter Hit.isNN with hnns
  let v : Hit → ℚ := fun h => (col h).getD 0
  have hv : ∀ h ∈ hits, col h = some (v h) := by
    intro h hh
    obtain ⟨a, ha⟩ := Option.isSome_iff_exists.1 (hm.1 h hh)
    simp [v, ha]
  let T : Hit → ℚ := fun nn => total col (real.filter fun h' => decide (Nearest sp real nn h'))
  have hT : ∀ nn ∈ nns, T nn ≠ 0 := by
    intro nn hnn
    obtain ⟨h1, h2⟩ := List.mem_filter.1 hnn
    exact hm.2 nn h1 h2
  let c : Hit → Hit → ℚ := fun h nn => if Nearest sp real nn h then v nn * v h / T nn else 0
  have hrec : ∀ h ∈ real, ∀ nn ∈ nns, received col sp real nn h = some (c h nn) := by
    intro h hh nn hnn
    unfold received
    by_cases hn : Nearest sp real nn h
    · rw [if_pos hn, hv nn (List.mem_filter.1 hnn).1, hv h (List.mem_filter.1 hh).1]
      have := hT nn hnn
      simp only [Fl.mul, Fl.div]
      rw [if_neg this]
      simp [c, hn, T]
    · simp [hn, c]
  have hgain : ∀ h ∈ real, (Fl.add (col h) (gain col sp real nns h)).getD 0 = v h + (nns.map (c h)).sum := by
    intro h hh
    rw [gain, foldl_Fl_add_some nns _ (c h) (hrec h hh), hv h (List.mem_filter.1 hh).1]
    simp [Fl.add]
  rw [List.map_congr_left hgain, List.sum_map_add, sum_comm]
  have hnn : (nns.map fun nn => (real.map fun h => c h nn).sum).sum = (nns.map v).sum := by
    congr 1
    apply List.map_congr_left
    intro nn hmem
    have e1 : (real.map fun h => c h nn).sum = ((real.filter fun h => decide (Nearest sp real nn h)).map fun h => v nn * v h / T nn).sum := by
      rw [sum_filter_ite]
    have e2 : (fun h => v nn * v h / T nn) = fun h => v h * (v nn / T nn) := by funext h; ring
    rw [e1, e2, List.sum_map_mul_right]
    have e3 : ((real.filter fun h => decide (Nearest sp real nn h)).map v).sum = T nn := by
      simp [T, total, v]
    rw [e3]
    have := hT nn hmem
    field_simp
  rw [hnn]
  simp only [total]
  have : ∀ l : List Hit, ((l.filter fun h => !h.isNN).map v).sum + ((l.filter Hit.isNN).map v).sum = (l.map v).sum := by
    intro l
    induction l with
    | nil => simp
    | cons h l ih =>
      cases hh : h.isNN with
      | true => simp only [List.filter_cons, hh]; simp; linarith
      | false => simp only [List.filter_cons, hh]; simp; linarith
  exact this hits

/-- **C23** Merging conserves the total energy, whenever each NN hit has nearest hits with some energy. -/
theorem mergeNN_conserves_E (sp hasEc : Bool) (hits : List Hit) (h : Mergeable Hit.e sp hits) :
    total Hit.e (mergeNN sp hasEc hits) = total Hit.e hits := by
  rw [← gain_total Hit.e sp hits h, mergeNN_formula]
  simp [total, List.map_map, Function.comp_def]

/-- **C23** Same for the corrected energy. -/
theorem mergeNN_conserves_Ec (sp : Bool) (hits : List Hit) (h : Mergeable Hit.ec sp hits) :
    total Hit.ec (mergeNN sp true hits) = total Hit.ec hits := by
  rw [← gain_total Hit.ec sp hits h, mergeNN_formula]
  simp [total, List.map_map, Function.comp_def]

theorem gain_perm (col : Hit → Fl) (sp : Bool) (real : List Hit) {nns nns' : List Hit} (hp : nns.Perm nns') (h : Hit) :
    gain col sp real nns h = gain col sp real nns' h := by
  unfold gain
  apply hp.foldl_eq'
  intro a _ b _ c
  rw [Fl.add_assoc', Fl.add_assoc', Fl.add_comm' (received col sp real a h)]

/-- **C23** The order of the NN hits, and their position among the others, does not matter. -/
theorem mergeNN_order (sp hasEc : Bool) (hits hits' : List Hit)
    (h1 : (hits.filter fun h => !h.isNN) = hits'.filter fun h => !h.isNN)
    (h2 : (hits.filter Hit.isNN).Perm (hits'.filter Hit.isNN)) : mergeNN sp hasEc hits = mergeNN sp hasEc hits' := by
  rw [mergeNN_formula, mergeNN_formula, h1]
  apply List.map_congr_left
  intro h _
  rw [gain_perm Hit.e sp _ h2, gain_perm Hit.ec sp _ h2]

/-- **C23** An NN hit without eligible hits is dropped, without consequences for the others. -/
theorem mergeNN_drops (sp hasEc : Bool) (pre post : List Hit) (nn : Hit) (h : nn.isNN = true)
    (hno : ∀ h ∈ pre ++ post, h.isNN = false → ¬ Eligible sp nn h) :
    mergeNN sp hasEc (pre ++ nn :: post) = mergeNN sp hasEc (pre ++ post) := by
  rw [mergeNN_order sp hasEc (pre ++ nn :: post) (nn :: (pre ++ post))]
  · rw [mergeNN_formula, mergeNN_formula]
    have e1 : (nn :: (pre ++ post)).filter (fun h => !h.isNN) = (pre ++ post).filter fun h => !h.isNN := by
      rw [List.filter_cons_of_neg (by simp [h])]
    have e2 : (nn :: (pre ++ post)).filter Hit.isNN = nn :: (pre ++ post).filter Hit.isNN := by
      rw [List.filter_cons_of_pos h]
    rw [e1, e2]
    apply List.map_congr_left
    intro k hk
    have hnear : ¬ Nearest sp ((pre ++ post).filter fun h => !h.isNN) nn k := by
      rintro ⟨_, h1, _⟩
      obtain ⟨hk1, hk2⟩ := List.mem_filter.1 hk
      exact hno k hk1 (by simpa using hk2) h1
    simp only [gain, List.foldl_cons, received, hnear, if_false, Fl.zero_add']
  · simp [h]
  · simp only [List.filter_append, List.filter_cons, h, if_true]
    exact List.perm_middle

/-- The corrected energy of an NN hit may be NaN (no correction is defined at its position); merging then makes the
corrected energy of the receiving hits NaN as well. -/
theorem nan_spreads :
    (mergeNN true true [⟨0, 0, 0, 0, 1, 5, some 10, some 11, none⟩, ⟨0, 0, NN, NN, 2, NN, some 1, none, none⟩]).map Hit.ec = [none] := by
  decide +kernel

/-- An instance with two receiving hits at the same distance. -/
def exampleHits : List Hit :=
  [⟨0, 0, 0, 0, 1, 5, some 10, some 11, some 1⟩, ⟨0, 0, NN, NN, 2, NN, some 3, some 3, none⟩,
   ⟨0, 0, 10, 0, 3, 7, some 20, some 22, some 2⟩, ⟨0, 1, 10, 0, 2, 9, some 4, some 4, some 3⟩]

example : (mergeNN true true exampleHits).map (fun h => (h.e, h.ec)) =
    [(some 11, some 12), (some 22, some 24), (some 4, some 4)] := by decide +kernel
example : Mergeable Hit.e true exampleHits := by
  constructor
  · decide +kernel
  · decide +kernel
example : (∀ h ∈ exampleHits, h.isNN = false → ¬ Eligible true ⟨0, 5, NN, NN, 2, NN, some 3, some 3, none⟩ h) := by decide +kernel

/-! ### C24: charge threshold -/

theorem mem_insertKey {z k : ℚ} {ks : List ℚ} : k ∈ insertKey z ks ↔ k = z ∨ k ∈ ks := by
  induction ks with
  | nil => simp [insertKey]
  | cons a ks ih =>
    simp only [insertKey]
    split
    · simp
    · split
      · rename_i h; subst h; simp
      · simp [ih]; tauto

theorem insertKey_sorted {z : ℚ} {ks : List ℚ} (h : ks.Pairwise (· < ·)) : (insertKey z ks).Pairwise (· < ·) := by
  induction ks with
  | nil => simp [insertKey]
  | cons a ks ih =>
    have h' := List.pairwise_cons.1 h
    simp only [insertKey]
    split
    · rename_i hz
      rw [List.pairwise_cons]
      refine ⟨?_, h⟩
      intro b hb
      rcases List.mem_cons.1 hb with rfl | hb
      · exact hz
      · exact hz.trans (h'.1 b hb)
    · split
      · exact h
      · rename_i h1 h2
        rw [List.pairwise_cons]
        refine ⟨?_, ih h'.2⟩
        intro b hb
        rcases mem_insertKey.1 hb with rfl | hb
        · exact lt_of_le_of_ne (not_lt.1 h1) (Ne.symm h2)
        · exact h'.1 b hb

theorem groupKeys_spec (hits : List Hit) : (groupKeys hits).Pairwise (· < ·) ∧ ∀ z, z ∈ groupKeys hits ↔ ∃ h ∈ hits, h.z = z := by
  induction hits with
  | nil => simp [groupKeys]
  | cons h hits ih =>
    simp only [groupKeys, List.foldr_cons] at ih ⊢
    refine ⟨insertKey_sorted ih.1, ?_⟩
    intro z
    rw [mem_insertKey, ih.2 z]
    simp only [List.mem_cons, exists_eq_or_imp]
    constructor
    · rintro (rfl | h) <;> tauto
    · rintro (rfl | h) <;> tauto

/-- What thresholding must make of the hits `slice` of one z slice. -/
structure SliceResult (th : ℚ) (slice out : List Hit) : Prop where
  /-- survivors: exactly the hits reaching the threshold, in order, unchanged but for the energies -/
  kept : (∃ h ∈ slice, th ≤ h.q) → List.Forall₂ SameHit (slice.filter fun h => decide (th ≤ h.q)) out
  /-- energies are proportional to the charge -/
  proportional : (∃ h ∈ slice, th ≤ h.q) → ∃ f fc : ℚ, ∀ h ∈ out, h.e = some (h.q * f) ∧ h.ec = some (h.q * fc)
  /-- nothing survives: one NN hit with everything -/
  nn : (∀ h ∈ slice, h.q < th) → ∃ h, out = [h] ∧ h.isNN = true ∧ h.x = NN ∧ h.y = NN ∧
    h.e = some (total Hit.e slice) ∧ h.ec = some (total Hit.ec slice) ∧
    ∃ first ∈ slice.head?, h.info = first.info ∧ h.npeak = first.npeak ∧ h.z = first.z
  /-- all energies are numbers -/
  numbers : ∀ h ∈ out, h.e.isSome ∧ h.ec.isSome
  /-- the totals are conserved up to epsilon -/
  energy : |total Hit.e out - total Hit.e slice| ≤ EPSILON * (1 + |total Hit.e slice| / th)
  energyc : |total Hit.ec out - total Hit.ec slice| ≤ EPSILON * (1 + |total Hit.ec slice| / th)

theorem nansum_eq_total (col : Hit → Fl) (hits : List Hit) : nansum (hits.map col) = total col hits := by
  simp [nansum, total, List.map_map, Function.comp_def]

theorem renormalised {th q e : ℚ} (ht : 0 < th) (hq : th ≤ q) :
    |q / (q + EPSILON) * (e + EPSILON) - e| ≤ EPSILON * (1 + |e| / th) := by
  have hp := EPSILON_pos
  have hq0 : 0 < q := lt_of_lt_of_le ht hq
  have hqe : 0 < q + EPSILON := by linarith
  have e1 : q / (q + EPSILON) * (e + EPSILON) - e = EPSILON * ((q - e) / (q + EPSILON)) := by field_simp; ring
  rw [e1, abs_mul, abs_of_pos hp]
  apply mul_le_mul_of_nonneg_left _ hp.le
  rw [abs_div, abs_of_pos hqe]
  have h1 : |q - e| ≤ q + |e| := by
    have := abs_sub q e
    rwa [abs_of_pos hq0] at this
  have h2 : |e| / (q + EPSILON) ≤ |e| / th := div_le_div_of_nonneg_left (abs_nonneg e) ht (by linarith)
  calc |q - e| / (q + EPSILON) ≤ (q + |e|) / (q + EPSILON) := div_le_div_of_nonneg_right h1 hqe.le
    _ = q / (q + EPSILON) + |e| / (q + EPSILON) := add_div ..
    _ ≤ 1 + |e| / th := by
      apply add_le_add _ h2
      rw [div_le_one hqe]; linarith

theorem applyThreshold_spec (th : ℚ) (ht : 0 < th) (slice : List Hit) (hne : slice ≠ []) :
    ∃ out, applyThreshold th slice = .ok out ∧ SliceResult th slice out := by
  by_cases hs : ∃ h ∈ slice, th ≤ h.q
  · set kept := slice.filter fun h => decide (th ≤ h.q) with hk
    have hkne : kept ≠ [] := by
      obtain ⟨h, hm, hq⟩ := hs
      intro hc
      have : h ∈ kept := List.mem_filter.2 ⟨hm, by simpa using hq⟩
      rw [hc] at this; cases this
    have hem : kept.isEmpty = false := by cases hs : kept with | nil => exact absurd hs hkne | cons => rfl
    set qsum := (kept.map Hit.q).sum + EPSILON with hqs
    have hsum : th ≤ (kept.map Hit.q).sum := by
      apply sum_ge_thr ht
      · intro q hq
        obtain ⟨h, hh, rfl⟩ := List.mem_map.1 hq
        simpa using (List.mem_filter.1 hh).2
      · simpa using hkne
    refine ⟨_, by simp only [applyThreshold, ← hk, hem]; rfl, ?_⟩
    rw [nansum_eq_total, nansum_eq_total, ← hqs]
    have tot : ∀ (E : ℚ), (kept.map fun h => h.q / qsum * (E + EPSILON)).sum = (kept.map Hit.q).sum / qsum * (E + EPSILON) := by
      intro E
      have : (fun h : Hit => h.q / qsum * (E + EPSILON)) = fun h => h.q * ((E + EPSILON) / qsum) := by funext h; ring
      rw [this, List.sum_map_mul_right]; ring
    refine ⟨fun _ => ?_, fun _ => ⟨(total Hit.e slice + EPSILON) / qsum, (total Hit.ec slice + EPSILON) / qsum, ?_⟩, fun h => ?_, ?_, ?_, ?_⟩
    · rw [List.forall₂_map_right_iff, List.forall₂_same]
      exact fun h _ => ⟨rfl, rfl, rfl, rfl, rfl, rfl, rfl⟩
    · intro h hh
      obtain ⟨k, _, rfl⟩ := List.mem_map.1 hh
      constructor <;> simp only [Option.some.injEq] <;> ring
    · obtain ⟨k, hk1, hk2⟩ := hs
      exact absurd (h k hk1) (not_lt.2 hk2)
    · intro h hh
      obtain ⟨k, _, rfl⟩ := List.mem_map.1 hh
      simp
    · have := renormalised (e := total Hit.e slice) ht hsum
      rw [← hqs, ← tot] at this
      simpa [total, List.map_map, Function.comp_def] using this
    · have := renormalised (e := total Hit.ec slice) ht hsum
      rw [← hqs, ← tot] at this
      simpa [total, List.map_map, Function.comp_def] using this
  · have hno : ∀ h ∈ slice, h.q < th := fun h hm => by by_contra hc; exact hs ⟨h, hm, not_lt.1 hc⟩
    have hk : slice.filter (fun h => decide (th ≤ h.q)) = [] := by
      rw [List.filter_eq_nil_iff]; intro h hm; simpa using hno h hm
    cases slice with
    | nil => exact absurd rfl hne
    | cons first rest =>
      refine ⟨_, by simp only [applyThreshold, hk]; rfl, ?_⟩
      rw [nansum_eq_total, nansum_eq_total]
      have hpos : ∀ E : ℚ, 0 ≤ EPSILON * (1 + |E| / th) := fun E =>
        mul_nonneg EPSILON_pos.le (add_nonneg zero_le_one (div_nonneg (abs_nonneg _) ht.le))
      refine ⟨fun h => absurd h hs, fun h => absurd h hs, fun _ => ⟨_, rfl, by simp [Hit.isNN], rfl, rfl, rfl, rfl, first, by simp⟩, ?_, ?_, ?_⟩
      · simp
      · have := hpos (total Hit.e (first :: rest))
        simpa [total] using this
      · have := hpos (total Hit.ec (first :: rest))
        simpa [total] using this

/-- **C24** Thresholding works slice by slice: the slices are those of the input, in increasing z, and each is turned
into what `SliceResult` says. -/
theorem thresholdHits_spec (th : ℚ) (ht : 0 < th) (hits : List Hit) :
    ∃ (zs : List ℚ) (outs : List (List Hit)), thresholdHits th hits = .ok outs.flatten ∧
      zs.Pairwise (· < ·) ∧ (∀ z, z ∈ zs ↔ ∃ h ∈ hits, h.z = z) ∧
      List.Forall₂ (fun z out => SliceResult th (hits.filter fun h => decide (h.z = z)) out) zs outs := by
  have hg := groupKeys_spec hits
  have hok : ∀ z ∈ groupKeys hits, ∃ out, applyThreshold th (hits.filter fun h => decide (h.z = z)) = .ok out := by
    intro z hz
    obtain ⟨h, hm, hz'⟩ := (hg.2 z).1 hz
    have hne : (hits.filter fun h => decide (h.z = z)) ≠ [] := by
      intro hc
      have : h ∈ hits.filter fun h => decide (h.z = z) := List.mem_filter.2 ⟨hm, by simpa using hz'⟩
      rw [hc] at this; cases this
    obtain ⟨out, h1, _⟩ := applyThreshold_spec th ht _ hne
    exact ⟨out, h1⟩
  obtain ⟨outs, houts⟩ := mapM_ok hok
  refine ⟨groupKeys hits, outs, by simp [thresholdHits, not_le.2 ht, houts], hg.1, hg.2, ?_⟩
  have hf := mapM_ok_iff.1 houts
  have : ∀ zs outs, (∀ z ∈ zs, z ∈ groupKeys hits) → List.Forall₂ (fun z out => applyThreshold th (hits.filter fun h => decide (h.z = z)) = .ok out) zs outs →
      List.Forall₂ (fun z out => SliceResult th (hits.filter fun h => decide (h.z = z)) out) zs outs := by
    intro zs outs hz hf
    induction hf with
    | nil => exact .nil
    | @cons z out zs outs h1 _ ih =>
      refine .cons ?_ (ih fun z' hz' => hz z' (List.mem_cons_of_mem _ hz'))
      obtain ⟨h, hm, hz'⟩ := (hg.2 z).1 (hz z List.mem_cons_self)
      have hne : (hits.filter fun h => decide (h.z = z)) ≠ [] := by
        intro hc
        have : h ∈ hits.filter fun h => decide (h.z = z) := List.mem_filter.2 ⟨hm, by simpa using hz'⟩
        rw [hc] at this; cases this
      obtain ⟨out', h2, h3⟩ := applyThreshold_spec th ht _ hne
      rw [h1] at h2
      cases h2
      exact h3
  exact this _ _ (fun z hz => hz) hf

/-- **C24** A threshold of zero or below leaves the hits alone. -/
theorem thresholdHits_nonpos (th : ℚ) (ht : th ≤ 0) (hits : List Hit) : thresholdHits th hits = .ok hits := by
  simp [thresholdHits, ht]

example : (thresholdHits 5 exampleHits).toOption.map (List.map fun h => (h.z, h.q)) =
    some [(1, 5), (2, 9), (3, 7)] := by decide +kernel
example : (thresholdHits 8 exampleHits).toOption.map (List.map fun h => (h.z, h.q)) =
    some [(1, NN), (2, 9), (3, NN)] := by decide +kernel

/-- The slices partition the energy of the event. -/
theorem total_slices (col : Hit → Fl) (hits : List Hit) (zs : List ℚ) (hs : zs.Pairwise (· < ·))
    (hz : ∀ h ∈ hits, h.z ∈ zs) :
    (zs.map fun z => total col (hits.filter fun h => decide (h.z = z))).sum = total col hits := by
  induction hits with
  | nil => simp [total]
  | cons h hits ih =>
    have ih' := ih fun k hk => hz k (List.mem_cons_of_mem _ hk)
    have e1 : ∀ z, total col ((h :: hits).filter fun h => decide (h.z = z)) =
        (if h.z = z then (col h).getD 0 else 0) + total col (hits.filter fun h => decide (h.z = z)) := by
      intro z
      by_cases hc : h.z = z <;> simp [List.filter_cons, hc, total]
    simp only [e1]
    rw [List.sum_map_add, ih']
    have hmem := hz h List.mem_cons_self
    have hone : ∀ zs : List ℚ, zs.Pairwise (· < ·) → h.z ∈ zs → (zs.map fun z => if h.z = z then (col h).getD 0 else 0).sum = (col h).getD 0 := by
      intro zs hs hm
      induction zs with
      | nil => cases hm
      | cons z zs ihz =>
        rw [List.pairwise_cons] at hs
        rw [List.map_cons, List.sum_cons]
        by_cases hc : h.z = z
        · have : (zs.map fun z => if h.z = z then (col h).getD 0 else 0).sum = 0 := by
            apply List.sum_eq_zero
            intro x hx
            obtain ⟨z', hz', rfl⟩ := List.mem_map.1 hx
            have := hs.1 z' hz'
            rw [if_neg (by rw [hc]; exact this.ne)]
          rw [this, if_pos hc, add_zero]
        · rw [if_neg hc, zero_add]
          exact ihz hs.2 ((List.mem_cons.1 hm).resolve_left hc)
    rw [hone zs hs hmem]
    simp [total]

/-- **C24** The total energy of the event is conserved up to epsilon (per slice). -/
theorem thresholdHits_total (th : ℚ) (ht : 0 < th) (hits : List Hit) :
    ∃ (out : List Hit) (zs : List ℚ), thresholdHits th hits = .ok out ∧ (∀ z, z ∈ zs ↔ ∃ h ∈ hits, h.z = z) ∧ zs.Nodup ∧
      |total Hit.e out - total Hit.e hits| ≤
        EPSILON * (zs.map fun z => 1 + |total Hit.e (hits.filter fun h => decide (h.z = z))| / th).sum ∧
      |total Hit.ec out - total Hit.ec hits| ≤
        EPSILON * (zs.map fun z => 1 + |total Hit.ec (hits.filter fun h => decide (h.z = z))| / th).sum := by
  obtain ⟨zs, outs, h1, h2, h3, h4⟩ := thresholdHits_spec th ht hits
  have hz : ∀ h ∈ hits, h.z ∈ zs := fun h hm => (h3 _).2 ⟨h, hm, rfl⟩
  have key : ∀ (col : Hit → Fl), (∀ z out, SliceResult th (hits.filter fun h => decide (h.z = z)) out →
      |total col out - total col (hits.filter fun h => decide (h.z = z))| ≤
        EPSILON * (1 + |total col (hits.filter fun h => decide (h.z = z))| / th)) →
      |total col outs.flatten - (zs.map fun z => total col (hits.filter fun h => decide (h.z = z))).sum| ≤
        EPSILON * (zs.map fun z => 1 + |total col (hits.filter fun h => decide (h.z = z))| / th).sum := by
    intro col hcol
    clear h1 h2 h3 hz
    induction h4 with
    | nil => simp [total]
    | @cons z out zs outs hr _ ih =>
      rw [List.flatten_cons, total_append, List.map_cons, List.sum_cons, add_sub_add_comm, List.map_cons, List.sum_cons, mul_add]
      exact (abs_add_le _ _).trans (add_le_add (hcol z out hr) ih)
  have k1 := key Hit.e fun z out h => h.energy
  have k2 := key Hit.ec fun z out h => h.energyc
  rw [total_slices Hit.e hits zs h2 hz] at k1
  rw [total_slices Hit.ec hits zs h2 hz] at k2
  exact ⟨_, zs, h1, h3, h2.imp fun h => h.ne, k1, k2⟩

/-- **C24** Thresholding and merging (what the cities do): the hits returned all reach the threshold, none is NN, and when
all NN hits can be merged the total energy is that of the input up to the epsilon of the threshold. -/
theorem hitsThresholder_spec (th : ℚ) (ht : 0 < th) (sp : Bool) (hits : List Hit) :
    ∃ (mid out : List Hit) (zs : List ℚ), thresholdHits th hits = .ok mid ∧ hitsThresholder th sp hits = .ok out ∧
      (∀ h ∈ out, th ≤ h.q) ∧ (∀ h ∈ out, h.isNN = false) ∧
      (∀ z, z ∈ zs ↔ ∃ h ∈ hits, h.z = z) ∧ zs.Nodup ∧
      (Mergeable Hit.e sp mid → |total Hit.e out - total Hit.e hits| ≤
        EPSILON * (zs.map fun z => 1 + |total Hit.e (hits.filter fun h => decide (h.z = z))| / th).sum) := by
  obtain ⟨mid, zs, h1, h2, h3, h4, _⟩ := thresholdHits_total th ht hits
  obtain ⟨zs', outs, g1, g2, g3, g4⟩ := thresholdHits_spec th ht hits
  have hmid : mid = outs.flatten := by rw [h1] at g1; cases g1; rfl
  have hq : ∀ h ∈ mid, h.isNN = false → th ≤ h.q := by
    rw [hmid]
    clear g1 g2 g3 hmid
    induction g4 with
    | nil => simp
    | @cons z out zs outs hr _ ih =>
      intro h hh hn
      rw [List.flatten_cons, List.mem_append] at hh
      rcases hh with hh | hh
      · by_cases hs : ∃ k ∈ hits.filter (fun h => decide (h.z = z)), th ≤ k.q
        · have hf := hr.kept hs
          obtain ⟨i, hi⟩ := List.mem_iff_getElem?.1 hh
          have hlt : i < out.length := (List.getElem?_eq_some_iff.1 hi).1
          have hl := hf.length_eq
          have hk := List.getElem?_eq_getElem (l := (hits.filter fun h => decide (h.z = z)).filter fun h => decide (th ≤ h.q)) (i := i) (by omega)
          have hs := forall₂_getElem? hf i _ _ hk hi
          have hm := List.mem_of_getElem? hk
          have := (List.mem_filter.1 hm).2
          rw [← hs.2.2.2.2.2.1]
          simpa using this
        · obtain ⟨k, hk, hk2, _⟩ := hr.nn fun k hk => by by_contra hc; exact hs ⟨k, hk, not_lt.1 hc⟩
          rw [hk] at hh
          rw [List.mem_singleton.1 hh] at hn
          rw [hn] at hk2; cases hk2
      · exact ih h hh hn
  refine ⟨mid, mergeNN sp true mid, zs, h1, by simp [hitsThresholder, h1], ?_, (mergeNN_same_hits sp true mid).2, h2, h3, ?_⟩
  · intro h hh
    rw [mergeNN_formula] at hh
    obtain ⟨k, hk, rfl⟩ := List.mem_map.1 hh
    obtain ⟨hk1, hk2⟩ := List.mem_filter.1 hk
    exact hq k hk1 (by simpa using hk2)
  · intro hm
    rw [mergeNN_conserves_E sp true mid hm]
    exact h4

example : ∃ mid, thresholdHits 6 exampleHits = .ok mid ∧ Mergeable Hit.e false mid :=
  ⟨((thresholdHits 6 exampleHits).toOption.getD []), by decide +kernel, by decide +kernel, by decide +kernel⟩

end Verif.Hits
