import Verif.Model.Filters
import Verif.Props.PMaps
import Verif.Lemmas.Lists
/-!
# C31, C32: filters of events
-/
namespace Verif.Filters
open Verif.Core Verif.PMaps Verif.Peaks

/-! ### Specification -/

/-- A number is inside a closed range. -/
def Within (r : ℚ × ℚ) (x : ℚ) : Prop := r.1 ≤ x ∧ x ≤ r.2

/-- A peak as built by the constructor. -/
def Built (p : Peak) : Prop := LengthsMatch p.times.length p.pmts.wfs.ncols p.sipms.wfs.ncols

/-- `h` is the largest sample of the PMT sum. -/
def IsHeight (p : Peak) (h : ℚ) : Prop := h ∈ p.pmts.wfs.sumSensors ∧ ∀ x ∈ p.pmts.wfs.sumSensors, x ≤ h

/-- The energy of a peak above a threshold: the samples of the PMT sum above it. -/
def energyOf (p : Peak) (thr : ℚ) : ℚ := (p.pmts.wfs.sumSensors.filter fun x => decide (thr < x)).sum

/-- The width of a peak above a threshold: the widths of the samples from the first to the last above the threshold. -/
def IsWidth (p : Peak) (thr w : ℚ) : Prop :=
  ((∀ x ∈ p.pmts.wfs.sumSensors, x ≤ thr) ∧ w = 0) ∨
  ∃ first last, w = chargeIn p.widths first (last + 1) ∧ first ≤ last ∧
    (∃ x, p.pmts.wfs.sumSensors[first]? = some x ∧ thr < x) ∧ (∃ x, p.pmts.wfs.sumSensors[last]? = some x ∧ thr < x) ∧
    ∀ (i : Nat) (x : ℚ), p.pmts.wfs.sumSensors[i]? = some x → thr < x → first ≤ i ∧ i ≤ last

/-- A peak satisfies the criteria: energy, width, height and (if asked) number of SiPMs. -/
def Satisfies (thr : ℚ) (e w h : ℚ × ℚ) (n : Option (ℚ × ℚ)) (p : Peak) : Prop :=
  Within e (energyOf p thr) ∧ (∃ x, IsWidth p thr x ∧ Within w x) ∧ (∃ x, IsHeight p x ∧ Within h x) ∧
  ∀ r, n = some r → Within r (p.sipms.ids.length : ℚ)

/-! ### C31 -/

theorem height_ok {p : Peak} (hp : Built p) : ∃ h, p.height = .ok h ∧ IsHeight p h := by
  obtain ⟨_, i, h, t, h1, _, h2, _, h3, _, _⟩ := total_energy_height p hp
  exact ⟨h, h1, List.mem_of_getElem? h2, h3⟩

theorem height_unique {p : Peak} {h h' : ℚ} (a : IsHeight p h) (b : IsHeight p h') : h = h' := le_antisymm (b.2 h a.1) (a.2 h' b.1)

theorem width_is (p : Peak) (thr : ℚ) : IsWidth p thr (p.widthAbove thr) := widthAbove_spec p thr

theorem width_unique {p : Peak} {thr w w' : ℚ} (a : IsWidth p thr w) (b : IsWidth p thr w') : w = w' := by
  rcases a with ⟨h1, rfl⟩ | ⟨f, l, rfl, _, ⟨x, hx, hxt⟩, ⟨y, hy, hyt⟩, hall⟩
  · rcases b with ⟨_, rfl⟩ | ⟨f', l', _, _, ⟨x, hx, hxt⟩, _, _⟩
    · rfl
    · exact absurd (h1 x (List.mem_of_getElem? hx)) (not_le.2 hxt)
  · rcases b with ⟨h1, rfl⟩ | ⟨f', l', rfl, _, ⟨x', hx', hxt'⟩, ⟨y', hy', hyt'⟩, hall'⟩
    · exact absurd (h1 x (List.mem_of_getElem? hx)) (not_le.2 hxt)
    · have := hall f' x' hx' hxt'
      have := hall' f x hx hxt
      have := hall l' y' hy' hyt'
      have := hall' l y hy hyt
      rw [show f = f' by omega, show l = l' by omega]

theorem contains_iff (m : MinMax) (x : ℚ) : m.contains x = true ↔ Within (m.min, m.max) x := by simp [MinMax.contains, Within]

/-- **C31** A peak is valid iff it satisfies all the criteria; for S1 no number of SiPMs is asked. -/
theorem valid_peak (thr : ℚ) (e w h : MinMax) (n : Option MinMax) (p : Peak) (hp : Built p) :
    ∃ b, validPeak thr e w h n p = .ok b ∧
      (b = true ↔ Satisfies thr (e.min, e.max) (w.min, w.max) (h.min, h.max) (n.map fun n => (n.min, n.max)) p) := by
  obtain ⟨x, hx, hx'⟩ := height_ok hp
  refine ⟨_, by simp only [validPeak, hx]; rfl, ?_⟩
  rw [Bool.and_eq_true, Bool.and_eq_true, Bool.and_eq_true, contains_iff, contains_iff, contains_iff, (energyAbove_eq p thr).1]
  constructor
  · rintro ⟨⟨⟨h1, h2⟩, h3⟩, h4⟩
    refine ⟨h1, ⟨_, width_is p thr, h2⟩, ⟨x, hx', h3⟩, ?_⟩
    intro r hr
    cases n with
    | none => cases hr
    | some m => cases hr; exact (contains_iff m _).1 h4
  · rintro ⟨h1, ⟨y, h2, h2'⟩, ⟨z, h3, h3'⟩, h4⟩
    refine ⟨⟨⟨h1, ?_⟩, ?_⟩, ?_⟩
    · rw [width_unique (width_is p thr) h2]; exact h2'
    · rw [height_unique hx' h3]; exact h3'
    · cases n with
      | none => rfl
      | some m => exact (contains_iff m _).2 (h4 _ rfl)

/-- **C31** A selector exists iff the nine ranges are ordered, and it has those ranges. -/
theorem selector_exists (c : SelectorConf) :
    ((∀ r ∈ [c.s1n, c.s1e, c.s1w, c.s1h, c.s2n, c.s2e, c.s2w, c.s2h, c.nsi], r.1 ≤ r.2) →
      Selector.mk? c = .ok ⟨⟨c.s1n.1, c.s1n.2⟩, ⟨c.s1e.1, c.s1e.2⟩, ⟨c.s1w.1, c.s1w.2⟩, ⟨c.s1h.1, c.s1h.2⟩, c.s1Ethr,
        ⟨c.s2n.1, c.s2n.2⟩, ⟨c.s2e.1, c.s2e.2⟩, ⟨c.s2w.1, c.s2w.2⟩, ⟨c.s2h.1, c.s2h.2⟩, ⟨c.nsi.1, c.nsi.2⟩, c.s2Ethr⟩) ∧
    (¬ (∀ r ∈ [c.s1n, c.s1e, c.s1w, c.s1h, c.s2n, c.s2e, c.s2w, c.s2h, c.nsi], r.1 ≤ r.2) → Selector.mk? c = .error .assertion) := by
  simp only [List.mem_cons, List.not_mem_nil, or_false, forall_eq_or_imp, forall_eq]
  constructor
  · rintro ⟨h1, h2, h3, h4, h5, h6, h7, h8, h9⟩
    simp only [Selector.mk?, MinMax.mk?, if_pos h1, if_pos h2, if_pos h3, if_pos h4, if_pos h5, if_pos h6, if_pos h7, if_pos h8, if_pos h9]
    rfl
  · intro h
    by_cases h1 : c.s1n.1 ≤ c.s1n.2
    swap
    · simp only [Selector.mk?, MinMax.mk?, if_neg h1]; rfl
    by_cases h2 : c.s1e.1 ≤ c.s1e.2
    swap
    · simp only [Selector.mk?, MinMax.mk?, if_pos h1, if_neg h2]; rfl
    by_cases h3 : c.s1w.1 ≤ c.s1w.2
    swap
    · simp only [Selector.mk?, MinMax.mk?, if_pos h1, if_pos h2, if_neg h3]; rfl
    by_cases h4 : c.s1h.1 ≤ c.s1h.2
    swap
    · simp only [Selector.mk?, MinMax.mk?, if_pos h1, if_pos h2, if_pos h3, if_neg h4]; rfl
    by_cases h5 : c.s2n.1 ≤ c.s2n.2
    swap
    · simp only [Selector.mk?, MinMax.mk?, if_pos h1, if_pos h2, if_pos h3, if_pos h4, if_neg h5]; rfl
    by_cases h6 : c.s2e.1 ≤ c.s2e.2
    swap
    · simp only [Selector.mk?, MinMax.mk?, if_pos h1, if_pos h2, if_pos h3, if_pos h4, if_pos h5, if_neg h6]; rfl
    by_cases h7 : c.s2w.1 ≤ c.s2w.2
    swap
    · simp only [Selector.mk?, MinMax.mk?, if_pos h1, if_pos h2, if_pos h3, if_pos h4, if_pos h5, if_pos h6, if_neg h7]; rfl
    by_cases h8 : c.s2h.1 ≤ c.s2h.2
    swap
    · simp only [Selector.mk?, MinMax.mk?, if_pos h1, if_pos h2, if_pos h3, if_pos h4, if_pos h5, if_pos h6, if_pos h7, if_neg h8]; rfl
    by_cases h9 : c.nsi.1 ≤ c.nsi.2
    · exact absurd ⟨h1, h2, h3, h4, h5, h6, h7, h8, h9⟩ h
    · simp only [Selector.mk?, MinMax.mk?, if_pos h1, if_pos h2, if_pos h3, if_pos h4, if_pos h5, if_pos h6, if_pos h7, if_pos h8, if_neg h9]; rfl

theorem selectS_spec (thr : ℚ) (e w h : MinMax) (n : Option MinMax) (ps : List Peak) (hps : ∀ p ∈ ps, Built p) :
    ∃ fs, ps.mapM (validPeak thr e w h n) = .ok fs ∧
      List.Forall₂ (fun p (b : Bool) => b = true ↔ Satisfies thr (e.min, e.max) (w.min, w.max) (h.min, h.max) (n.map fun n => (n.min, n.max)) p) ps fs := by
  induction ps with
  | nil => exact ⟨[], rfl, .nil⟩
  | cons p ps ih =>
    obtain ⟨fs, h1, h2⟩ := ih fun q hq => hps q (List.mem_cons_of_mem _ hq)
    obtain ⟨b, h3, h4⟩ := valid_peak thr e w h n p (hps p List.mem_cons_self)
    refine ⟨b :: fs, ?_, .cons h4 h2⟩
    rw [List.mapM_cons, h3, h1]; rfl

/-- **C31** One flag per peak, in order: the peak satisfies the criteria of its kind.  The event passes iff the numbers of flagged S1s and of flagged S2s
are within their ranges. -/
theorem pmap_filter (c : SelectorConf) (s : Selector) (hs : Selector.mk? c = .ok s) (s1s s2s : List Peak) (h1 : ∀ p ∈ s1s, Built p) (h2 : ∀ p ∈ s2s, Built p) :
    ∃ out, pmapFilter s s1s s2s = .ok out ∧
      List.Forall₂ (fun p (b : Bool) => b = true ↔ Satisfies c.s1Ethr c.s1e c.s1w c.s1h none p) s1s out.s1Peaks ∧
      List.Forall₂ (fun p (b : Bool) => b = true ↔ Satisfies c.s2Ethr c.s2e c.s2w c.s2h (some c.nsi) p) s2s out.s2Peaks ∧
      (out.passed = true ↔ Within c.s1n (out.s1Peaks.count true) ∧ Within c.s2n (out.s2Peaks.count true)) := by
  have hc : ∀ r ∈ [c.s1n, c.s1e, c.s1w, c.s1h, c.s2n, c.s2e, c.s2w, c.s2h, c.nsi], r.1 ≤ r.2 := by
    by_contra hcon
    rw [(selector_exists c).2 hcon] at hs
    cases hs
  rw [(selector_exists c).1 hc] at hs
  cases hs
  have hout : ∀ f1 f2, s1s.mapM (validPeak c.s1Ethr ⟨c.s1e.1, c.s1e.2⟩ ⟨c.s1w.1, c.s1w.2⟩ ⟨c.s1h.1, c.s1h.2⟩ none) = .ok f1 →
      s2s.mapM (validPeak c.s2Ethr ⟨c.s2e.1, c.s2e.2⟩ ⟨c.s2w.1, c.s2w.2⟩ ⟨c.s2h.1, c.s2h.2⟩ (some ⟨c.nsi.1, c.nsi.2⟩)) = .ok f2 → ∀ s1n s2n : MinMax,
      pmapFilter ⟨s1n, ⟨c.s1e.1, c.s1e.2⟩, ⟨c.s1w.1, c.s1w.2⟩, ⟨c.s1h.1, c.s1h.2⟩, c.s1Ethr,
        s2n, ⟨c.s2e.1, c.s2e.2⟩, ⟨c.s2w.1, c.s2w.2⟩, ⟨c.s2h.1, c.s2h.2⟩, ⟨c.nsi.1, c.nsi.2⟩, c.s2Ethr⟩ s1s s2s =
        .ok ⟨s1n.contains (countTrue f1) && s2n.contains (countTrue f2), f1, f2⟩ := by
    intro f1 f2 e1 e2 _ _
    simp only [pmapFilter, Selector.selectS1, Selector.selectS2, e1, e2]
  obtain ⟨f1, e1, g1⟩ := selectS_spec c.s1Ethr ⟨c.s1e.1, c.s1e.2⟩ ⟨c.s1w.1, c.s1w.2⟩ ⟨c.s1h.1, c.s1h.2⟩ none s1s h1
  obtain ⟨f2, e2, g2⟩ := selectS_spec c.s2Ethr ⟨c.s2e.1, c.s2e.2⟩ ⟨c.s2w.1, c.s2w.2⟩ ⟨c.s2h.1, c.s2h.2⟩ (some ⟨c.nsi.1, c.nsi.2⟩) s2s h2
  refine ⟨_, hout f1 f2 e1 e2 _ _, g1, g2, ?_⟩
  have hcount : ∀ l : List Bool, countTrue l = l.count true := by
    intro l
    rw [countTrue, List.count]
    apply List.countP_congr
    intro b _; simp
  simp only [Bool.and_eq_true, contains_iff, hcount]

/-- **C31** Combining two outputs is an error when they have different lengths; otherwise it is the conjunction (disjunction) element by element. -/
theorem combine_outputs (a b : SelectorOutput) :
    ((a.s1Peaks.length ≠ b.s1Peaks.length ∨ a.s2Peaks.length ≠ b.s2Peaks.length) →
      a.and b = .error .valueError ∧ a.or b = .error .valueError) ∧
    (a.s1Peaks.length = b.s1Peaks.length → a.s2Peaks.length = b.s2Peaks.length →
      ∃ x y, a.and b = .ok x ∧ a.or b = .ok y ∧
        (x.passed = true ↔ a.passed = true ∧ b.passed = true) ∧ (y.passed = true ↔ a.passed = true ∨ b.passed = true) ∧
        x.s1Peaks.length = a.s1Peaks.length ∧ x.s2Peaks.length = a.s2Peaks.length ∧ y.s1Peaks.length = a.s1Peaks.length ∧ y.s2Peaks.length = a.s2Peaks.length ∧
        ∀ i : Nat, (x.s1Peaks[i]? = some true ↔ a.s1Peaks[i]? = some true ∧ b.s1Peaks[i]? = some true) ∧
          (x.s2Peaks[i]? = some true ↔ a.s2Peaks[i]? = some true ∧ b.s2Peaks[i]? = some true) ∧
          (y.s1Peaks[i]? = some true ↔ a.s1Peaks[i]? = some true ∨ b.s1Peaks[i]? = some true) ∧
          (y.s2Peaks[i]? = some true ↔ a.s2Peaks[i]? = some true ∨ b.s2Peaks[i]? = some true)) := by
  constructor
  · intro h
    exact ⟨by simp only [SelectorOutput.and, SelectorOutput.combine, if_pos h], by simp only [SelectorOutput.or, SelectorOutput.combine, if_pos h]⟩
  · intro h1 h2
    have hn : ¬ (a.s1Peaks.length ≠ b.s1Peaks.length ∨ a.s2Peaks.length ≠ b.s2Peaks.length) := by simp [h1, h2]
    have hand : ∀ (u v : List Bool) (i : Nat), (List.zipWith Bool.and u v)[i]? = some true ↔ u[i]? = some true ∧ v[i]? = some true := by
      intro u v i
      rw [List.getElem?_zipWith]
      cases u[i]? <;> cases v[i]? <;> simp
    have hor : ∀ (u v : List Bool) (i : Nat), u.length = v.length → ((List.zipWith Bool.or u v)[i]? = some true ↔ u[i]? = some true ∨ v[i]? = some true) := by
      intro u v i hl
      rw [List.getElem?_zipWith]
      by_cases hi : i < u.length
      · rw [List.getElem?_eq_getElem hi, List.getElem?_eq_getElem (show i < v.length by omega)]; simp
      · rw [List.getElem?_eq_none (by omega), List.getElem?_eq_none (show v.length ≤ i by omega)]; simp
    refine ⟨_, _, by simp only [SelectorOutput.and, SelectorOutput.combine, if_neg hn]; rfl, by simp only [SelectorOutput.or, SelectorOutput.combine, if_neg hn]; rfl,
      by simp, by simp, by simp [h1], by simp [h2], by simp [h1], by simp [h2], fun i => ⟨hand _ _ i, hand _ _ i, hor _ _ i h1, hor _ _ i h2⟩⟩

/-! ### C32 -/

/-- A peak satisfies the trigger: width, charge and height in ranges open on the left. -/
def Fires (t : TriggerParams) (p : Peak) : Prop :=
  (∃ w, IsWidth p 0 w ∧ t.width.min < w ∧ w ≤ t.width.max) ∧ (t.charge.min < energyOf p 0 ∧ energyOf p 0 ≤ t.charge.max) ∧
  ∃ h, IsHeight p h ∧ t.height.min < h ∧ h ≤ t.height.max

theorem accepts_spec (t : TriggerParams) (p : Peak) (hp : Built p) : ∃ b, t.accepts p = .ok b ∧ (b = true ↔ Fires t p) := by
  obtain ⟨x, hx, hx'⟩ := height_ok hp
  refine ⟨_, by simp only [TriggerParams.accepts, hx]; rfl, ?_⟩
  simp only [Bool.and_eq_true, decide_eq_true_eq]
  rw [show p.totalEnergy = energyOf p 0 from (energyAbove_eq p 0).1, show p.width = p.widthAbove 0 from rfl]
  constructor
  · rintro ⟨⟨h1, h2⟩, h3⟩
    exact ⟨⟨_, width_is p 0, h1⟩, h2, x, hx', h3⟩
  · rintro ⟨⟨w, h1, h1'⟩, h2, y, h3, h3'⟩
    refine ⟨⟨?_, h2⟩, ?_⟩
    · rw [width_unique (width_is p 0) h1]; exact h1'
    · rw [height_unique hx' h3]; exact h3'

open Classical in
/-- Number of peaks of a list that satisfy the trigger. -/
noncomputable def nFires (t : TriggerParams) (ps : List Peak) : Nat := ps.countP fun p => decide (Fires t p)

open Classical in
theorem nFires_cons (t : TriggerParams) (p : Peak) (ps : List Peak) : nFires t (p :: ps) = nFires t ps + if Fires t p then 1 else 0 := by
  simp [nFires, List.countP_cons]

theorem nFires_append (t : TriggerParams) (ps qs : List Peak) : nFires t (ps ++ qs) = nFires t ps + nFires t qs := by
  simp [nFires]

theorem triggerPeaks_spec (t : TriggerParams) (ps : List Peak) (hps : ∀ p ∈ ps, Built p) (n : Int) :
    triggerPeaks t ps n = .ok (if n < t.minChannels ∧ t.minChannels ≤ n + nFires t ps then none else some (n + nFires t ps)) := by
  induction ps generalizing n with
  | nil =>
    rw [triggerPeaks, if_neg (by simp [nFires])]
    simp [nFires]
  | cons p ps ih =>
    have ih' := fun n => ih (fun q hq => hps q (List.mem_cons_of_mem _ hq)) n
    obtain ⟨b, hb, hb'⟩ := accepts_spec t p (hps p List.mem_cons_self)
    rw [triggerPeaks, hb, nFires_cons]
    cases b with
    | false =>
      have hf : ¬ Fires t p := fun h => by simpa using hb'.2 h
      simp only [if_neg hf, Nat.add_zero]
      exact ih' n
    | true =>
      simp only [if_pos (hb'.1 rfl)]
      split
      · rename_i heq
        rw [if_pos (by omega)]
      · rename_i hne
        rw [ih' (n + 1)]
        congr 1
        push_cast
        split
        · rw [if_pos (by omega)]
        · rw [if_neg (by omega)]; congr 1; omega

theorem triggerChannels_spec (t : TriggerParams) (data : List (Nat × List Peak)) (hd : ∀ c ∈ data, ∀ p ∈ c.2, Built p) (n : Int) :
    triggerChannels t data n = .ok (decide (n < t.minChannels ∧ t.minChannels ≤ n + nFires t (data.flatMap Prod.snd))) := by
  induction data generalizing n with
  | nil =>
    have : ¬ (n < t.minChannels ∧ t.minChannels ≤ n + nFires t []) := by simp [nFires]
    simp only [triggerChannels, List.flatMap_nil, this, decide_false]
  | cons c data ih =>
    obtain ⟨ch, ps⟩ := c
    rw [triggerChannels, triggerPeaks_spec t ps (hd _ List.mem_cons_self), List.flatMap_cons, nFires_append]
    split
    · rename_i e h; cases h
    · rename_i h
      split at h
      · rename_i hc
        congr 1
        symm
        simp only [decide_eq_true_eq]
        push_cast
        omega
      · cases h
    · rename_i m h
      split at h
      · cases h
      · rename_i hc
        cases h
        rw [ih fun c hc => hd c (List.mem_cons_of_mem _ hc)]
        congr 1
        rw [decide_eq_decide]
        push_cast
        omega

/-- **C32** What the trigger does for every event: it passes iff the number of *peaks* satisfying the trigger, over all channels, reaches a required
multiplicity that is positive. -/
theorem trigger_counts_peaks (t : TriggerParams) (data : List (Nat × List Peak)) (hd : ∀ c ∈ data, ∀ p ∈ c.2, Built p) :
    triggerFilter t data = .ok (decide (0 < t.minChannels ∧ t.minChannels ≤ nFires t (data.flatMap Prod.snd))) := by
  rw [triggerFilter, triggerChannels_spec t data hd 0]
  simp

open Classical in
/-- Number of channels with some peak that satisfies the trigger. -/
noncomputable def nChannels (t : TriggerParams) (data : List (Nat × List Peak)) : Nat := data.countP fun c => decide (∃ p ∈ c.2, Fires t p)

/-- **C32** (partial) When no channel has more than one satisfying peak, and the required multiplicity is positive, the event passes iff the number of
*channels* with a satisfying peak reaches it.  Missing: events with several satisfying peaks in one channel and a multiplicity of zero, where the code does not
do this (`trigger_counts_one_channel_twice`, `trigger_zero_never_fires`). -/
theorem trigger_channels_partial (t : TriggerParams) (ht : 0 < t.minChannels) (data : List (Nat × List Peak)) (hd : ∀ c ∈ data, ∀ p ∈ c.2, Built p)
    (h1 : ∀ c ∈ data, nFires t c.2 ≤ 1) :
    triggerFilter t data = .ok true ↔ t.minChannels ≤ nChannels t data := by
  have : nFires t (data.flatMap Prod.snd) = nChannels t data := by
    clear hd
    induction data with
    | nil => rfl
    | cons c data ih =>
      rw [List.flatMap_cons, nFires_append, ih fun c hc => h1 c (List.mem_cons_of_mem _ hc)]
      have hc := h1 c List.mem_cons_self
      simp only [nChannels, List.countP_cons]
      rw [add_comm]
      congr 1
      by_cases hex : ∃ p ∈ c.2, Fires t p
      · have : 0 < nFires t c.2 := by
          rw [nFires, List.countP_pos_iff]; simpa using hex
        simp only [hex, decide_true, if_true]
        omega
      · have : nFires t c.2 = 0 := by
          rw [nFires, List.countP_eq_zero]
          intro p hp
          simp only [decide_eq_true_eq]
          exact fun hf => hex ⟨p, hp, hf⟩
        simp only [hex, decide_false]
        simpa using this
  rw [trigger_counts_peaks t data hd, this]
  simp [ht]

/-- A passing event never has fewer satisfying peaks than required, and failing events have fewer channels than required: the trigger never misses. -/
theorem trigger_never_misses (t : TriggerParams) (ht : 0 < t.minChannels) (data : List (Nat × List Peak)) (hd : ∀ c ∈ data, ∀ p ∈ c.2, Built p)
    (h : t.minChannels ≤ nChannels t data) : triggerFilter t data = .ok true := by
  have : nChannels t data ≤ nFires t (data.flatMap Prod.snd) := by
    clear hd h
    induction data with
    | nil => exact le_refl _
    | cons c data ih =>
      rw [List.flatMap_cons, nFires_append]
      simp only [nChannels, List.countP_cons] at ih ⊢
      by_cases hex : ∃ p ∈ c.2, Fires t p
      · have : 0 < nFires t c.2 := by
          rw [nFires, List.countP_pos_iff]; simpa using hex
        simp only [hex, decide_true, if_true]
        omega
      · simp only [hex, decide_false]
        simp only [Bool.false_eq_true, if_false]
        omega
  rw [trigger_counts_peaks t data hd]
  simp [ht]
  omega

/-- Scaling by a positive ratio: a peak fires iff its charge and height divided by the ratio are in the configured ranges. -/
theorem select_trigger (n : Int) (ratio : ℚ) (hr : 0 < ratio) (height charge width : ℚ × ℚ) (h1 : height.1 ≤ height.2) (h2 : charge.1 ≤ charge.2) (h3 : width.1 ≤ width.2) :
    selectTrigger n ratio height charge width =
      .ok ⟨n, ⟨charge.1 * ratio, charge.2 * ratio⟩, ⟨height.1 * ratio, height.2 * ratio⟩, ⟨width.1, width.2⟩⟩ := by
  have h4 : charge.1 * ratio ≤ charge.2 * ratio := mul_le_mul_of_nonneg_right h2 hr.le
  have h5 : height.1 * ratio ≤ height.2 * ratio := mul_le_mul_of_nonneg_right h1 hr.le
  simp only [selectTrigger, MinMax.mk?, MinMax.mul, if_pos h1, if_pos h2, if_pos h3]
  simp only [bind, Except.bind, if_pos h4, if_pos h5]; rfl

/-! ### Cases -/

def samplePeak (xs : List ℚ) : Peak := ⟨xs, xs.map fun _ => 1, ⟨[0], ⟨[xs], xs.length⟩⟩, ⟨[7, 9], ⟨[xs, xs], xs.length⟩⟩⟩
def sampleConf : SelectorConf := ⟨(1, 1), (3, 10), (1, 5), (2, 9), 1/2, (1, 2), (3, 10), (1, 5), (2, 9), (2, 3), 1/2⟩

example : Built (samplePeak [1, 3, 1]) := by simp [Built, LengthsMatch, samplePeak]
example : (Selector.mk? sampleConf).toOption.isSome = true := by decide +kernel
example : (do let s ← Selector.mk? sampleConf; pmapFilter s [samplePeak [1, 3, 1], samplePeak [1, 1]] [samplePeak [2, 2], samplePeak [8, 8]]) =
    .ok ⟨true, [true, false], [true, false]⟩ := by decide +kernel
example : (⟨true, [true, false], [true]⟩ : SelectorOutput).and ⟨false, [true, true], [true]⟩ = .ok ⟨false, [true, false], [true]⟩ := rfl
def sampleTrigger (n : Int) : TriggerParams := ⟨n, ⟨3, 10⟩, ⟨2, 9⟩, ⟨1, 5⟩⟩
example : triggerFilter (sampleTrigger 2) [(0, [samplePeak [1, 3, 1]]), (1, [samplePeak [1, 1]]), (5, [samplePeak [4, 3]])] = .ok true := by decide +kernel
example : ∀ c ∈ [(0, [samplePeak [1, 3, 1]]), (1, [samplePeak [1, 1]]), (5, [samplePeak [4, 3]])], nFires (sampleTrigger 2) c.2 ≤ 1 := by
  intro c hc
  have : c.2.length = 1 := by
    simp only [List.mem_cons, List.not_mem_nil, or_false] at hc
    rcases hc with rfl | rfl | rfl <;> rfl
  exact List.countP_le_length.trans this.le
example : selectTrigger 2 2 (1, 2) (3, 4) (5, 6) = .ok ⟨2, ⟨3 * 2, 4 * 2⟩, ⟨1 * 2, 2 * 2⟩, ⟨5, 6⟩⟩ :=
  select_trigger 2 2 (by norm_num) _ _ _ (by norm_num) (by norm_num) (by norm_num)

/-- The code violates the documented behaviour: with two channels required, two peaks of only one channel fire the trigger. -/
theorem trigger_counts_one_channel_twice :
    triggerFilter (sampleTrigger 2) [(0, [samplePeak [1, 3, 1], samplePeak [4, 3]]), (1, [])] = .ok true := by decide +kernel

/-- A required multiplicity that is not positive never fires. -/
theorem trigger_zero_never_fires (t : TriggerParams) (ht : t.minChannels ≤ 0) (data : List (Nat × List Peak)) (hd : ∀ c ∈ data, ∀ p ∈ c.2, Built p) :
    triggerFilter t data = .ok false := by
  rw [trigger_counts_peaks t data hd]
  simp [ht]

end Verif.Filters
