import Verif.Spec.DiomiraEvent
import Verif.Props.BlrPmts
import Verif.Props.PeakBuild
import Verif.Props.PeakSearch
import Verif.Props.Filters
import Verif.Props.Sampling
import Verif.Props.Wfm
import Verif.Props.FeeSim
import Verif.Props.WfIO
/-!
# C111: the events of diomira
-/
namespace Verif.DiomiraEvent
open Verif Verif.Core Verif.PMaps Verif.Peaks Spec

/-! ### Setup -/

/-- C111: without a trigger everything passes. -/
theorem setup_none (pmts : List LoadDb.PmtRow) (c : TriggerConf) : setup pmts none c = .ok none := rfl

/-- C111: a type that is not "S2" is an error before any event. -/
theorem setup_other (j : Job) (type : String) (h : type ≠ "S2") (es : List Event) : diomira j (some type) es = (⟨[], [], [], [], []⟩, .error .valueError) := by
  simp [diomira, setup, h, Out.empty]

theorem setup_ok {pmts : List LoadDb.PmtRow} {type : Option String} {c : TriggerConf} {t : Trigger} (h : setup pmts type c = .ok (some t)) :
    type = some "S2" ∧ t = ⟨⟨c.minChannels, ⟨c.charge.1 * c.ratio, c.charge.2 * c.ratio⟩, ⟨c.height.1 * c.ratio, c.height.2 * c.ratio⟩, ⟨c.width.1, c.width.2⟩⟩, ⟨c.time.1, c.time.2⟩, ⟨c.length.1, c.length.2⟩⟩ ∧
      (∃ ids, Blr.icIds pmts c.channels = .ok ids) ∧ ∀ ch ∈ c.channels, ch ∈ Blr.activeChannels pmts := by
  have hmk : ∀ {a b : ℚ} {m : MinMax}, MinMax.mk? a b = .ok m → m = ⟨a, b⟩ := by
    intro a b m hm
    unfold MinMax.mk? at hm
    split at hm
    · exact (Except.ok.inj hm).symm
    · cases hm
  unfold setup at h
  cases type with
  | none => simp at h
  | some s =>
    by_cases hs : s = "S2"
    · subst hs
      simp only [ne_eq, not_true_eq_false, if_false] at h
      cases hf : Filters.selectTrigger c.minChannels c.ratio c.height c.charge c.width with
      | error e => rw [hf] at h; cases h
      | ok f =>
        rw [hf] at h
        simp only [setupSearch] at h
        have hfe : f = ⟨c.minChannels, ⟨c.charge.1 * c.ratio, c.charge.2 * c.ratio⟩, ⟨c.height.1 * c.ratio, c.height.2 * c.ratio⟩, ⟨c.width.1, c.width.2⟩⟩ := by
          unfold Filters.selectTrigger at hf
          cases h1 : MinMax.mk? c.height.1 c.height.2 with
          | error e => rw [h1] at hf; cases hf
          | ok a =>
          cases h2 : MinMax.mk? c.charge.1 c.charge.2 with
          | error e => rw [h1, h2] at hf; cases hf
          | ok b =>
          cases h3 : MinMax.mk? c.width.1 c.width.2 with
          | error e => rw [h1, h2, h3] at hf; cases hf
          | ok w =>
          have e1 := hmk h1
          have e2 := hmk h2
          have e3 := hmk h3
          subst e1 e2 e3
          rw [h1, h2, h3] at hf
          simp only [bind, Except.bind, MinMax.mul] at hf
          cases h4 : MinMax.mk? (c.charge.1 * c.ratio) (c.charge.2 * c.ratio) with
          | error e => rw [h4] at hf; cases hf
          | ok b' =>
          cases h5 : MinMax.mk? (c.height.1 * c.ratio) (c.height.2 * c.ratio) with
          | error e => rw [h4, h5] at hf; cases hf
          | ok a' =>
          rw [h4, h5] at hf
          rw [← hmk h4, ← hmk h5]
          exact (Except.ok.inj hf).symm
        cases h1 : Blr.icIds pmts c.channels with
        | error e => rw [h1] at h; cases h
        | ok ids =>
        cases h2 : MinMax.mk? c.time.1 c.time.2 with
        | error e => rw [h1, h2] at h; cases h
        | ok a =>
        cases h3 : MinMax.mk? c.length.1 c.length.2 with
        | error e => rw [h1, h2, h3] at h; cases h
        | ok b =>
        rw [h1, h2, h3] at h
        simp only at h
        split at h
        · cases h
        · rename_i hact
          refine ⟨rfl, ?_, ⟨ids, rfl⟩, fun ch hch => ?_⟩
          · rw [← hmk h2, ← hmk h3, ← hfe]; exact (Option.some.inj (Except.ok.inj h)).symm
          · by_contra h'; exact hact ⟨ch, hch, h'⟩
    · simp [hs] at h

/-! ### The peaks of a waveform -/

theorem index_above (wf : List ℚ) (thr : ℚ) : ∃ w, indicesAndWfAboveThreshold wf thr = .ok (above thr wf, w) := by
  obtain ⟨idx, w, h1, h2, h3, _⟩ := aboveThreshold_spec wf thr
  refine ⟨w, ?_⟩
  rw [h1]
  congr 2
  have hs : (above thr wf).Pairwise (· < ·) := List.Pairwise.filter _ List.pairwise_lt_range
  refine List.Perm.eq_of_pairwise (le := (· < ·)) (fun a b _ _ h h' => absurd h (Nat.lt_asymm h')) h3 hs ?_
  refine (List.perm_ext_iff_of_nodup (h3.imp Nat.ne_of_lt) (hs.imp Nat.ne_of_lt)).2 fun i => ?_
  rw [h2]
  simp only [above, List.mem_filter, List.mem_range, decide_eq_true_eq]
  constructor
  · rintro ⟨x, hx, ht⟩
    refine ⟨(List.getElem?_eq_some_iff.1 hx).1, ?_⟩
    rw [List.getD_eq_getElem?_getD, hx]; exact ht
  · rintro ⟨hi, ht⟩
    exact ⟨wf[i], List.getElem?_eq_getElem hi, by rwa [List.getD_eq_getElem _ _ hi] at ht⟩

theorem binsOf_length (lo hi k : Nat) (wf : List ℚ) : (binsOf lo hi k wf).length = (hi - lo + k - 1) / k := by simp [binsOf]

theorem binsOf_get (lo hi k : Nat) (wf : List ℚ) {b : Nat} (h : b < (hi - lo + k - 1) / k) : (binsOf lo hi k wf).getD b 0 = chargeIn wf (lo + k * b) (min hi (lo + k * (b + 1))) := by
  rw [List.getD_eq_getElem?_getD, binsOf, List.getElem?_map, List.getElem?_range h]; rfl

theorem chargeIn_succ (xs : List ℚ) {p q : Nat} (h : p ≤ q) : chargeIn xs p (q + 1) = chargeIn xs p q + xs.getD q 0 := by
  rw [chargeIn_eq, chargeIn_eq]
  by_cases hq : q < xs.length
  · have : pySlice p (q + 1) xs = pySlice p q xs ++ [xs[q]] := by
      unfold pySlice
      rw [show q + 1 - p = q - p + 1 by omega, List.take_succ, List.getElem?_drop, show p + (q - p) = q by omega, List.getElem?_eq_getElem hq, Option.toList_some]
    rw [this, List.sum_append, List.getD_eq_getElem _ _ hq]; simp
  · have : pySlice p (q + 1) xs = pySlice p q xs := by
      unfold pySlice
      rw [List.take_of_length_le (by rw [List.length_drop]; omega), List.take_of_length_le (by rw [List.length_drop]; omega)]
    rw [this, List.getD_eq_default _ _ (by omega), add_zero]

theorem chargeIn_self (xs : List ℚ) (p : Nat) : chargeIn xs p p = 0 := by
  rw [chargeIn_eq]; simp [pySlice]

/-- The widths of some consecutive groups of samples of the same width. -/
theorem widths_between {lo hi k n p q : Nat} (w : ℚ) (hk : 0 < k) (hn : hi ≤ n) (hpq : p ≤ q) (hq : q < (hi - lo + k - 1) / k) :
    chargeIn (binsOf lo hi k (List.replicate n w)) p (q + 1) = ((min hi (lo + k * (q + 1)) : Nat) - (lo + k * p : Nat) : ℚ) * w := by
  have hlt : ∀ b, b < (hi - lo + k - 1) / k → lo + k * b < hi := by
    intro b hb
    have : k * (b + 1) ≤ hi - lo + k - 1 := by
      have h1 := Nat.mul_le_mul_left k (Nat.succ_le_of_lt hb)
      have h2 := Nat.mul_div_le (hi - lo + k - 1) k
      exact le_trans h1 h2
    rw [Nat.mul_add, Nat.mul_one] at this
    omega
  have hbin : ∀ b, b < (hi - lo + k - 1) / k → (binsOf lo hi k (List.replicate n w)).getD b 0 = ((min hi (lo + k * (b + 1)) : Nat) - (lo + k * b : Nat) : ℚ) * w := by
    intro b hb
    rw [binsOf_get _ _ _ _ hb]
    have := hlt b hb
    have hm : lo + k * b ≤ min hi (lo + k * (b + 1)) := by
      rw [Nat.mul_add, Nat.mul_one]; omega
    rw [chargeIn_replicate _ _ _ _ hm (by omega)]
  induction q with
  | zero =>
    have : p = 0 := by omega
    subst this
    rw [chargeIn_succ _ le_rfl, chargeIn_self, zero_add, hbin 0 hq]
  | succ q ih =>
    rw [chargeIn_succ _ hpq, hbin (q + 1) hq]
    by_cases hp : p = q + 1
    · subst hp
      rw [chargeIn_self, zero_add]
    · rw [ih (by omega) (by omega)]
      have := hlt (q + 1) hq
      rw [show min hi (lo + k * (q + 1)) = lo + k * (q + 1) by omega]
      push_cast; ring

theorem sumSensors_one (r : List ℚ) : (⟨[r], r.length⟩ : Mat).sumSensors = r := by
  apply List.ext_getElem?
  intro i
  simp only [Mat.sumSensors]
  by_cases h : i < r.length
  · simp [List.getElem?_range h, h]
  · simp [h]

theorem fires_iff {c : TriggerConf} {pmts : List LoadDb.PmtRow} {type : Option String} {t : Trigger} (hs : setup pmts type c = .ok (some t)) (hk : 0 < c.rebin) {wf : List ℚ} {piece : List Nat} {peak : Peak} {first last : Nat}
    (h1 : piece.head? = some first) (h2 : piece.getLast? = some last) (h3 : first ≤ last) (h4 : last < wf.length)
    (h5 : peak.pmts.wfs = ⟨[binsOf first (last + 1) c.rebin wf], peak.times.length⟩) (h6 : peak.widths = binsOf first (last + 1) c.rebin (List.replicate wf.length 25))
    (h7 : peak.times.length = (binsOf first (last + 1) c.rebin wf).length) :
    Filters.Fires t.filter peak ↔ Spec.Fires c wf piece := by
  obtain ⟨_, rfl, _, _⟩ := setup_ok hs
  have hsum : peak.pmts.wfs.sumSensors = binsOf first (last + 1) c.rebin wf := by
    rw [h5, h7, sumSensors_one]
  have hw : ∀ w, Filters.IsWidth peak 0 w ↔ Lasts c.rebin wf first last w := by
    intro w
    unfold Filters.IsWidth Lasts
    rw [hsum, h6]
    refine or_congr Iff.rfl ⟨?_, ?_⟩
    · rintro ⟨p, q, rfl, hpq, g1, g2, g3⟩
      refine ⟨p, q, hpq, g1, g2, g3, ?_⟩
      obtain ⟨x, hx, _⟩ := g2
      have hq := (List.getElem?_eq_some_iff.1 hx).1
      rw [binsOf_length] at hq
      rw [widths_between 25 hk (by omega) hpq hq, mul_comm]
    · rintro ⟨p, q, hpq, g1, g2, g3, rfl⟩
      refine ⟨p, q, ?_, hpq, g1, g2, g3⟩
      obtain ⟨x, hx, _⟩ := g2
      have hq := (List.getElem?_eq_some_iff.1 hx).1
      rw [binsOf_length] at hq
      rw [widths_between 25 hk (by omega) hpq hq, mul_comm]
  unfold Filters.Fires Spec.Fires
  simp only [hw, Filters.energyOf, Filters.IsHeight, hsum]
  constructor
  · rintro ⟨g1, g2, h, ⟨g3, g4⟩, g5⟩
    exact ⟨first, last, h1, h2, g1, g2, h, g3, g4, g5⟩
  · rintro ⟨f, l, e1, e2, g1, g2, h, g3, g4, g5⟩
    rw [h1] at e1; rw [h2] at e2
    cases e1; cases e2
    exact ⟨g1, g2, h, ⟨g3, g4⟩, g5⟩

theorem forall₂_countP {α β : Type} {R : α → β → Prop} {p : α → Bool} {q : β → Bool} (h : ∀ a b, R a b → p a = q b) : ∀ {l : List α} {m : List β}, List.Forall₂ R l m → l.countP p = m.countP q := by
  intro l m hf
  induction hf with
  | nil => rfl
  | cons hr _ ih => rw [List.countP_cons, List.countP_cons, ih, h _ _ hr]

/-- The peaks found in a waveform with some sample above the lowest height. -/
theorem findS2_spec {c : TriggerConf} {pmts : List LoadDb.PmtRow} {type : Option String} {t : Trigger} (hs : setup pmts type c = .ok (some t)) (hk : 0 < c.rebin) {wf : List ℚ} (hne : ∃ x ∈ wf, c.height.1 < x) :
    ∃ pieces peaks, Pieces c wf pieces ∧ findS2 c t wf = .ok peaks ∧ (∀ p ∈ peaks, Filters.Built p) ∧ Filters.nFires t.filter peaks = Spec.nFires c wf pieces := by
  have hs' := setup_ok hs
  obtain ⟨w, hw⟩ := index_above wf c.height.1
  have hmem : ∀ i, i ∈ above c.height.1 wf ↔ i < wf.length ∧ c.height.1 < wf.getD i 0 := by
    intro i; simp [above]
  have hnil : above c.height.1 wf ≠ [] := by
    obtain ⟨x, hx, hlt⟩ := hne
    obtain ⟨i, hi, rfl⟩ := List.mem_iff_getElem.1 hx
    intro h
    have := (hmem i).2 ⟨hi, by rwa [List.getD_eq_getElem _ _ hi]⟩
    rw [h] at this; cases this
  obtain ⟨pieces, peaks, h1, h2, h3⟩ := findPeaks_bins ⟨[wf], wf.length⟩ (above c.height.1 wf) t.time t.length c.stride c.rebin [0] 25 40 hnil
    (List.Pairwise.filter _ List.pairwise_lt_range) (fun i hi => ((hmem i).1 hi).1) (by intro r hr; simp at hr; rw [hr]) rfl hk
  refine ⟨pieces, peaks, h1, by unfold findS2; rw [hw]; exact h2, ?_, ?_⟩
  · intro p hp
    obtain ⟨i, hi, rfl⟩ := List.mem_iff_getElem.1 hp
    obtain ⟨hl, hg⟩ := List.forall₂_iff_get.1 h3
    obtain ⟨first, last, g1, g2, g3, g4, g5, g9, g6, g7, g8⟩ := hg i (by omega) hi
    rw [List.get_eq_getElem] at g5 g6 g8
    simp only [List.get_eq_getElem] at g6
    refine ⟨(show 0 < peaks[i].times.length from g5).ne', ?_, Or.inr ?_⟩
    · rw [g6]
    · rw [g8]; rfl
  · unfold Filters.nFires Spec.nFires
    have hcc : ∀ (a b : List Nat → Bool) (l : List (List Nat)), l.countP (fun p => a p && b p) = (l.filter a).countP b := by
      intro a b l
      rw [List.countP_filter]
      exact List.countP_congr fun x _ => by rw [Bool.and_comm]
    rw [hcc]
    symm
    have e : pieces.filter (inWindow c.time.1 c.time.2 c.length.1 c.length.2 25) = pieces.filter (inWindow t.time.min t.time.max t.length.min t.length.max 25) := by rw [hs'.2.1]
    rw [e]
    refine forall₂_countP ?_ h3
    rintro piece peak ⟨first, last, g1, g2, g3, g4, g5, g9, g6, g7, g8⟩
    have hlen : peak.times.length = (binsOf first (last + 1) c.rebin wf).length := by
      rw [← g9, g7, binsOf_length, binsOf_length]
    rw [decide_eq_decide]
    exact (fires_iff hs hk g1 g2 g3 g4 g6 g7 hlen).symm

/-- A waveform without samples above the lowest height cannot be searched. -/
theorem findS2_empty {c : TriggerConf} {t : Trigger} {wf : List ℚ} (h : ∀ x ∈ wf, x ≤ c.height.1) : findS2 c t wf = .error .indexError := by
  obtain ⟨w, hw⟩ := index_above wf c.height.1
  have hnil : above c.height.1 wf = [] := by
    rw [List.eq_nil_iff_forall_not_mem]
    intro i hi
    simp only [above, List.mem_filter, List.mem_range, decide_eq_true_eq] at hi
    rw [List.getD_eq_getElem _ _ hi.1] at hi
    exact absurd (h _ (List.getElem_mem hi.1)) (not_le.2 hi.2)
  unfold findS2
  rw [hw, hnil]
  exact findPeaks_empty _ _ _ _ _ _ _ _ _

/-! ### The decision -/

theorem triggerLoop_total {β : Type} {peaks : List ℚ → Except PyErr β} : ∀ (l : List (Int × List ℚ)) (d : List (Int × β)), (∀ x ∈ l, ∃ v, peaks x.2 = .ok v) → ∃ out, Blr.triggerLoop peaks l d = .ok out := by
  intro l
  induction l with
  | nil => intro d _; exact ⟨d, rfl⟩
  | cons x l ih =>
    intro d h
    obtain ⟨v, hv⟩ := h x List.mem_cons_self
    obtain ⟨out, ho⟩ := ih (Blr.setKey d x.1 v) fun y hy => h y (List.mem_cons_of_mem _ hy)
    exact ⟨out, by rw [Blr.triggerLoop, hv]; exact ho⟩

theorem triggerLoop_fails {β : Type} {peaks : List ℚ → Except PyErr β} {e : PyErr} : ∀ (l : List (Int × List ℚ)) (d : List (Int × β)), (∀ x ∈ l, (∃ v, peaks x.2 = .ok v) ∨ peaks x.2 = .error e) → (∃ x ∈ l, peaks x.2 = .error e) →
    Blr.triggerLoop peaks l d = .error e := by
  intro l
  induction l with
  | nil => rintro d _ ⟨x, hx, _⟩; cases hx
  | cons x l ih =>
    rintro d h ⟨y, hy, hye⟩
    rw [Blr.triggerLoop]
    rcases h x List.mem_cons_self with ⟨v, hv⟩ | hv
    · rw [hv]
      refine ih _ (fun z hz => h z (List.mem_cons_of_mem _ hz)) ⟨y, ?_, hye⟩
      rcases List.mem_cons.1 hy with rfl | hy
      · rw [hv] at hye; cases hye
      · exact hy
    · rw [hv]

theorem zip_snd_take {α β : Type} : ∀ (l : List α) (m : List β), l.length ≤ m.length → (l.zip m).map Prod.snd = m.take l.length
  | [], _, _ => by simp
  | _ :: _, [], h => by simp at h
  | _ :: l, b :: m, h => by
    rw [List.zip_cons_cons, List.map_cons, List.length_cons, List.take_succ_cons, zip_snd_take l m (by simpa using h)]

theorem emulate_eq {β : Type} {c : TriggerConf} {pmts : List LoadDb.PmtRow} {type : Option String} {t : Trigger} (hs : setup pmts type c = .ok (some t)) (hn : c.channels.Nodup) (tan : ℚ → ℚ) (peaks : List ℚ → Except PyErr β) {rwfs cwfs : List (List ℚ)}
    (hd : Blr.deconvPmt tan pmts c.nBaseline (!c.channels.isEmpty) rwfs = .ok cwfs) :
    ∃ ids : List Int, Blr.emulateTrigger tan peaks pmts c.channels c.nBaseline rwfs = Blr.triggerLoop peaks (ids.zip cwfs) [] ∧ ids.length = c.channels.length ∧ ids.Nodup ∧ c.channels.length ≤ cwfs.length := by
  obtain ⟨_, _, ⟨ids, hi⟩, hact⟩ := setup_ok hs
  obtain ⟨hnd, he⟩ := Blr.icIds_ok hi
  have hmem : ∀ ch ∈ c.channels, ch ∈ pmts.map (·.channel) := fun ch hc => Blr.active_mem (hact ch hc)
  have he' : ids = c.channels.map fun ch => (((pmts.map (·.channel)).idxOf ch : Nat) : Int) := by
    rw [he]
    exact List.map_congr_left fun ch hc => by rw [if_pos (hmem ch hc)]
  have hlen : ids.length = c.channels.length := by rw [he', List.length_map]
  refine ⟨ids, ?_, hlen, ?_, ?_⟩
  · unfold Blr.emulateTrigger
    rw [hi]
    dsimp only
    rw [if_neg (by rintro ⟨ch, h1, h2⟩; exact h2 (hact ch h1))]
    have hemp : ids.isEmpty = c.channels.isEmpty := by rw [he']; cases c.channels <;> rfl
    rw [hemp, hd]
  · rw [he']
    refine List.Nodup.map_on ?_ hn
    intro a ha b hb hab
    have := Int.ofNat.inj hab
    exact (List.idxOf_inj (hmem a ha)).1 this
  · obtain ⟨l1, l2, _⟩ := Blr.deconvPmt_spec hd
    rw [l1, l2]
    by_cases hemp : c.channels = []
    · rw [hemp]; simp
    · have : (!c.channels.isEmpty) = true := by simp [hemp]
      rw [if_pos this]
      have hsub : c.channels ⊆ Blr.activeChannels pmts := hact
      have := (List.subperm_of_subset hn hsub).length_le
      unfold Blr.activeChannels at this
      rw [List.length_map] at this
      exact this

theorem emulate_error {β : Type} {c : TriggerConf} {pmts : List LoadDb.PmtRow} {type : Option String} {t : Trigger} (hs : setup pmts type c = .ok (some t)) (tan : ℚ → ℚ) (peaks : List ℚ → Except PyErr β) {rwfs : List (List ℚ)} {e : PyErr}
    (hd : Blr.deconvPmt tan pmts c.nBaseline (!c.channels.isEmpty) rwfs = .error e) : Blr.emulateTrigger tan peaks pmts c.channels c.nBaseline rwfs = .error e := by
  obtain ⟨_, _, ⟨ids, hi⟩, hact⟩ := setup_ok hs
  obtain ⟨hnd, he⟩ := Blr.icIds_ok hi
  unfold Blr.emulateTrigger
  rw [hi]
  dsimp only
  rw [if_neg (by rintro ⟨ch, h1, h2⟩; exact h2 (hact ch h1))]
  have hemp : ids.isEmpty = c.channels.isEmpty := by rw [he]; cases c.channels <;> rfl
  rw [hemp, hd]

/-- C111: the decision of a trigger "S2" when each of the first waveforms, as many as trigger channels, has some sample above the lowest height once restored: the event passes if the number of pieces that
satisfy the trigger, in all of them, reaches the number of channels asked, which must be positive. -/
theorem trigger_decision {c : TriggerConf} {pmts : List LoadDb.PmtRow} {type : Option String} {t : Trigger} (hs : setup pmts type c = .ok (some t)) (hn : c.channels.Nodup) (hk : 0 < c.rebin) (tan : ℚ → ℚ)
    {rwfs : List (List Int)} {cwfs : List (List ℚ)} (hd : Blr.deconvPmt tan pmts c.nBaseline (!c.channels.isEmpty) (rwfs.map fun w => w.map fun n : Int => (n : ℚ)) = .ok cwfs)
    (hne : ∀ wf ∈ cwfs.take c.channels.length, ∃ x ∈ wf, c.height.1 < x) :
    ∃ pieces : List (List (List Nat)), List.Forall₂ (Pieces c) (cwfs.take c.channels.length) pieces ∧
      triggerPass tan pmts c (some t) rwfs = .ok (decide (0 < c.minChannels ∧ c.minChannels ≤ (((cwfs.take c.channels.length).zip pieces).map fun x => Spec.nFires c x.1 x.2).sum)) := by
  obtain ⟨ids, h1, h2, h3, h4⟩ := emulate_eq hs hn tan (findS2 c t) hd
  have hzip : (ids.zip cwfs).map Prod.snd = cwfs.take c.channels.length := by
    rw [zip_snd_take _ _ (by omega), h2]
  have hx : ∀ x ∈ ids.zip cwfs, ∃ y ∈ x.2, c.height.1 < y := fun x hx => hne x.2 (hzip ▸ List.mem_map.2 ⟨x, hx, rfl⟩)
  obtain ⟨out, ho⟩ := triggerLoop_total (peaks := findS2 c t) (ids.zip cwfs) [] fun x hxm => by
    obtain ⟨_, peaks, _, h, _⟩ := findS2_spec hs hk (hx x hxm)
    exact ⟨peaks, h⟩
  have hz : ((ids.zip cwfs).map Prod.fst).Nodup := h3.sublist (Blr.zip_fst_sublist _ _)
  obtain ⟨vs, e, hf⟩ := Blr.triggerLoop_spec ho (by simpa using hz)
  rw [List.nil_append] at e
  subst e
  -- the pieces of each waveform
  have key : ∀ (l : List (Int × List ℚ)) (vs : List (Int × List Peak)), List.Forall₂ (fun x v => x.1 = v.1 ∧ findS2 c t x.2 = .ok v.2) l vs → (∀ x ∈ l, ∃ y ∈ x.2, c.height.1 < y) →
      ∃ pieces, List.Forall₂ (Pieces c) (l.map Prod.snd) pieces ∧ (∀ v ∈ vs, ∀ p ∈ v.2, Filters.Built p) ∧
        Filters.nFires t.filter (vs.flatMap Prod.snd) = (((l.map Prod.snd).zip pieces).map fun x => Spec.nFires c x.1 x.2).sum := by
    intro l vs hf
    induction hf with
    | nil => intro _; exact ⟨[], List.Forall₂.nil, by simp, by simp [Filters.nFires]⟩
    | @cons x v l vs hxv _ ih =>
      intro hne
      obtain ⟨ps, g1, g2, g3⟩ := ih fun y hy => hne y (List.mem_cons_of_mem _ hy)
      obtain ⟨pieces, peaks, k1, k2, k3, k4⟩ := findS2_spec hs hk (hne x List.mem_cons_self)
      have hv : peaks = v.2 := Except.ok.inj (k2.symm.trans hxv.2)
      subst hv
      refine ⟨pieces :: ps, List.Forall₂.cons k1 g1, ?_, ?_⟩
      · intro w hw
        rcases List.mem_cons.1 hw with rfl | hw
        · exact k3
        · exact g2 w hw
      · rw [List.flatMap_cons, Filters.nFires_append, k4, g3]
        simp
  obtain ⟨pieces, g1, g2, g3⟩ := key _ _ hf hx
  rw [hzip] at g1 g3
  refine ⟨pieces, g1, ?_⟩
  unfold triggerPass
  dsimp only
  rw [h1, ho]
  dsimp only
  rw [Filters.trigger_counts_peaks]
  · have ht : t.filter.minChannels = c.minChannels := by rw [(setup_ok hs).2.1]
    have hfl : (out.map fun p => (p.1.toNat, p.2)).flatMap Prod.snd = out.flatMap Prod.snd := by rw [List.flatMap_map]
    rw [hfl, g3, ht]
  · intro v hv
    obtain ⟨u, hu, rfl⟩ := List.mem_map.1 hv
    exact g2 u hu

/-- C111 (finding): a trigger "S2" fails with `IndexError` if one of the waveforms it looks at has no sample above the lowest height, whatever the others have: the event is not rejected, the job ends. -/
theorem trigger_quiet {c : TriggerConf} {pmts : List LoadDb.PmtRow} {type : Option String} {t : Trigger} (hs : setup pmts type c = .ok (some t)) (hn : c.channels.Nodup) (hk : 0 < c.rebin) (tan : ℚ → ℚ)
    {rwfs : List (List Int)} {cwfs : List (List ℚ)} (hd : Blr.deconvPmt tan pmts c.nBaseline (!c.channels.isEmpty) (rwfs.map fun w => w.map fun n : Int => (n : ℚ)) = .ok cwfs)
    (hq : ∃ wf ∈ cwfs.take c.channels.length, ∀ x ∈ wf, x ≤ c.height.1) : triggerPass tan pmts c (some t) rwfs = .error .indexError := by
  obtain ⟨ids, h1, h2, h3, h4⟩ := emulate_eq hs hn tan (findS2 c t) hd
  have hzip : (ids.zip cwfs).map Prod.snd = cwfs.take c.channels.length := by
    rw [zip_snd_take _ _ (by omega), h2]
  unfold triggerPass
  dsimp only
  rw [h1, triggerLoop_fails (e := .indexError)]
  · intro x _
    by_cases h : ∀ y ∈ x.2, y ≤ c.height.1
    · exact Or.inr (findS2_empty h)
    · push Not at h
      obtain ⟨_, peaks, _, h, _⟩ := findS2_spec hs hk h
      exact Or.inl ⟨peaks, h⟩
  · obtain ⟨wf, hw, hle⟩ := hq
    rw [← hzip] at hw
    obtain ⟨x, hx, rfl⟩ := List.mem_map.1 hw
    exact ⟨x, hx, findS2_empty hle⟩

end Verif.DiomiraEvent
