import Verif.Props.Blr
import Mathlib.Data.List.Basic
import Mathlib.Data.List.Nodup
/-!
# C86: restoration of the baselines of the PMTs; C87: emulation of the trigger
-/
namespace Verif.Blr
open Spec

theorem mapM_ok_get {α β : Type} {f : α → Except PyErr β} : ∀ {l : List α} {out : List β}, l.mapM f = .ok out → out.length = l.length ∧ ∀ (i : Nat) (a : α), l[i]? = some a → ∃ b, out[i]? = some b ∧ f a = .ok b := by
  intro l
  induction l with
  | nil =>
    intro out h
    cases h
    exact ⟨rfl, fun i a h => by cases h⟩
  | cons x l ih =>
    intro out h
    rw [List.mapM_cons] at h
    cases hx : f x with
    | error e => rw [hx] at h; cases h
    | ok b =>
      rw [hx] at h
      cases hl : l.mapM f with
      | error e => rw [hl] at h; cases h
      | ok bs =>
        rw [hl] at h
        cases h
        obtain ⟨h1, h2⟩ := ih hl
        refine ⟨by rw [List.length_cons, List.length_cons, h1], fun i a hi => ?_⟩
        cases i with
        | zero => cases hi; exact ⟨b, rfl, hx⟩
        | succ i => exact h2 i a hi

/-- The mean of the samples that are not zero. -/
theorem zmean_shift {xs : List ℚ} {d : ℚ} (h : ∀ x ∈ xs, x ≠ 0 ∧ x + d ≠ 0) (hne : xs ≠ []) : Calib.zmean (xs.map (· + d)) = Calib.zmean xs + d := by
  have e1 : xs.filter (· ≠ 0) = xs := List.filter_eq_self.2 fun x hx => by simpa using (h x hx).1
  have e2 : (xs.map (· + d)).filter (· ≠ 0) = xs.map (· + d) := List.filter_eq_self.2 fun x hx => by
    obtain ⟨y, hy, rfl⟩ := List.mem_map.1 hx
    simpa using (h y hy).2
  have hs : (xs.map (· + d)).sum = xs.sum + xs.length * d := by
    clear e1 e2 hne h
    induction xs with
    | nil => simp
    | cons x xs ih => rw [List.map_cons, List.sum_cons, ih, List.sum_cons, List.length_cons]; push_cast; ring
  have hl : (xs.length : ℚ) ≠ 0 := by
    rw [Nat.cast_ne_zero]
    exact fun h => hne (List.length_eq_zero_iff.1 h)
  unfold Calib.zmean
  rw [e1, e2, if_neg (by simpa using hne), if_neg (by simpa using hne), hs, List.length_map]
  field_simp

/-- The pedestal does not depend on an offset of the waveform (if no sample in the range is zero). -/
theorem pedestal_offset {n : Nat} {rwf : List ℚ} {d : ℚ} (h : ∀ x ∈ rwf.take n, x ≠ 0 ∧ x + d ≠ 0) (hn : 0 < n) : subtractPedestal n (rwf.map (· + d)) = subtractPedestal n rwf := by
  unfold subtractPedestal
  by_cases hne : rwf.take n = []
  · have : rwf = [] := by
      rcases List.take_eq_nil_iff.1 hne with h | h
      · omega
      · exact h
    rw [this]; rfl
  · rw [← List.map_take, zmean_shift h hne, List.map_map]
    refine List.map_congr_left fun x _ => ?_
    show _ + d - (x + d) = _
    ring

/-- C86: there must be one waveform for each PMT used. -/
theorem deconvPmt_assertion (tan : ℚ → ℚ) (pmts : List LoadDb.PmtRow) (n : Nat) (mask : Bool) (rwfs : List (List ℚ))
    (h : rwfs.length ≠ (if mask then pmts.filter fun p => decide (Active p) else pmts).length) : deconvPmt tan pmts n mask rwfs = .error .assertion := by
  exact if_pos (show rwfs.length ≠ (selected mask pmts).length from h)

/-- C86: the i-th result is the restored waveform of the i-th PMT (among the active ones, with `mask`), with its own coefficients and pedestal. -/
theorem deconvPmt_spec {tan : ℚ → ℚ} {pmts : List LoadDb.PmtRow} {n : Nat} {mask : Bool} {rwfs out : List (List ℚ)} (h : deconvPmt tan pmts n mask rwfs = .ok out) :
    out.length = rwfs.length ∧ rwfs.length = (if mask then pmts.filter fun p => decide (Active p) else pmts).length ∧
    ∀ (i : Nat) (rwf : List ℚ) (p : LoadDb.PmtRow), rwfs[i]? = some rwf → (if mask then pmts.filter fun p => decide (Active p) else pmts)[i]? = some p →
      ∃ cc cb cwf, p.coeffC = some cc ∧ p.coeffBlr = some cb ∧ out[i]? = some cwf ∧ deconvolve tan cc cb 5 5000 (rwf.map fun x => Calib.zmean (rwf.take n) - x) = .ok cwf := by
  have hsel : selected mask pmts = (if mask then pmts.filter fun p => decide (Active p) else pmts) := rfl
  unfold deconvPmt at h
  split at h
  · cases h
  · rename_i hl
    rw [not_not] at hl
    obtain ⟨h1, h2⟩ := mapM_ok_get h
    rw [List.length_zip, List.length_map, ← hl, min_self] at h1
    refine ⟨h1, hl.trans (by rw [hsel]), fun i rwf p hr hp => ?_⟩
    rw [← hsel] at hp
    obtain ⟨cwf, hc, hd⟩ := h2 i (rwf, p.coeffC, p.coeffBlr) (by rw [List.getElem?_zip_eq_some]; exact ⟨hr, by rw [List.getElem?_map, hp]; rfl⟩)
    unfold deconvolveRow at hd
    cases hcc : p.coeffC with
    | none => rw [hcc] at hd; cases hd
    | some cc =>
      cases hcb : p.coeffBlr with
      | none => rw [hcc, hcb] at hd; cases hd
      | some cb =>
        rw [hcc, hcb] at hd
        exact ⟨cc, cb, cwf, rfl, rfl, hc, hd⟩

/-- C86: it works for enough samples and good coefficients. -/
theorem deconvPmt_works {tan : ℚ → ℚ} {pmts : List LoadDb.PmtRow} {n : Nat} {mask : Bool} {rwfs : List (List ℚ)} (hl : rwfs.length = (if mask then pmts.filter fun p => decide (Active p) else pmts).length)
    (hs : ∀ rwf ∈ rwfs, 400 ≤ rwf.length) (hp : ∀ p ∈ pmts, (mask = true → Active p) → ∃ cc cb, p.coeffC = some cc ∧ p.coeffBlr = some cb ∧ 0 < cc ∧ cc < 1 ∧ cb ≠ 0) :
    ∃ out, deconvPmt tan pmts n mask rwfs = .ok out := by
  have hall : ∀ x ∈ rwfs.zip ((selected mask pmts).map fun p => (p.coeffC, p.coeffBlr)), ∃ y, deconvolveRow tan n 5 x = .ok y := by
    rintro ⟨rwf, c⟩ hx
    obtain ⟨p, hpm, rfl⟩ := List.mem_map.1 (List.of_mem_zip hx).2
    have hm : p ∈ pmts ∧ (mask = true → Active p) := by
      unfold selected at hpm
      split at hpm
      · obtain ⟨h1, h2⟩ := List.mem_filter.1 hpm
        exact ⟨h1, fun _ => of_decide_eq_true h2⟩
      · rename_i hf
        exact ⟨hpm, fun h => absurd h hf⟩
    obtain ⟨cc, cb, e1, e2, h1, h2, h3⟩ := hp p hm.1 hm.2
    obtain ⟨out, ho, -⟩ := (deconvolve_errors tan cc cb 5 5000 (subtractPedestal n rwf)).2.2.2 h3 (by simpa [subtractPedestal] using hs _ (List.of_mem_zip hx).1) h1 h2
    exact ⟨out, by simp only [deconvolveRow, e1, e2]; exact ho⟩
  have key : ∀ l : List (List ℚ × Option ℚ × Option ℚ), (∀ x ∈ l, ∃ y, deconvolveRow tan n 5 x = .ok y) → ∃ out, l.mapM (deconvolveRow tan n 5) = .ok out := by
    intro l
    induction l with
    | nil => intro _; exact ⟨[], rfl⟩
    | cons x l ih =>
      intro h
      obtain ⟨y, hy⟩ := h x (List.mem_cons_self ..)
      obtain ⟨ys, hys⟩ := ih fun x hx => h x (List.mem_cons_of_mem _ hx)
      exact ⟨y :: ys, by rw [List.mapM_cons, hy, hys]; rfl⟩
  obtain ⟨out, ho⟩ := key _ hall
  exact ⟨out, (if_neg (not_not.2 (show rwfs.length = (selected mask pmts).length from hl))).trans ho⟩

/-- C86: an offset in a waveform has no effect (if no sample of the baseline is zero with or without it). -/
theorem deconvPmt_offset {tan : ℚ → ℚ} {pmts : List LoadDb.PmtRow} {n : Nat} {mask : Bool} {rwfs : List (List ℚ)} {d : ℚ} (hn : 0 < n) (h : ∀ rwf ∈ rwfs, ∀ x ∈ rwf.take n, x ≠ 0 ∧ x + d ≠ 0) :
    deconvPmt tan pmts n mask (rwfs.map fun rwf => rwf.map (· + d)) = deconvPmt tan pmts n mask rwfs := by
  unfold deconvPmt
  rw [List.length_map]
  split
  · rfl
  · rename_i hl
    clear hl
    generalize (selected mask pmts).map (fun p => (p.coeffC, p.coeffBlr)) = cs
    induction rwfs generalizing cs with
    | nil => rfl
    | cons r rwfs ih =>
      cases cs with
      | nil => rfl
      | cons c cs =>
        have hr : deconvolveRow tan n 5 (r.map (· + d), c) = deconvolveRow tan n 5 (r, c) := by
          unfold deconvolveRow
          dsimp only
          rw [pedestal_offset (h r (List.mem_cons_self ..)) hn]
        rw [List.map_cons, List.zip_cons_cons, List.zip_cons_cons, List.mapM_cons, List.mapM_cons, hr, ih fun x hx => h x (List.mem_cons_of_mem _ hx)]

/-- C86: `cwf_from_rwf` restores the waveforms of the events asked, one by one. -/
theorem cwfFromRwf_spec {tan : ℚ → ℚ} {rwfs out : List (List (List ℚ))} {events : List Nat} {coeffs : List (ℚ × ℚ)} {n : Nat} {thr : ℚ} (h : cwfFromRwf tan rwfs events coeffs n thr = .ok out) :
    out.length = events.length ∧ ∀ (k e : Nat), events[k]? = some e → ∃ evt cwfs, rwfs[e]? = some evt ∧ out[k]? = some cwfs ∧ cwfs.length = min evt.length coeffs.length ∧
      ∀ (i : Nat) (rwf : List ℚ) (c : ℚ × ℚ), evt[i]? = some rwf → coeffs[i]? = some c →
        ∃ cwf, cwfs[i]? = some cwf ∧ deconvolve tan c.1 c.2 thr 5000 (rwf.map fun x => Calib.zmean (rwf.take n) - x) = .ok cwf := by
  obtain ⟨h1, h2⟩ := mapM_ok_get h
  refine ⟨h1, fun k e he => ?_⟩
  obtain ⟨cwfs, hc, hd⟩ := h2 k e he
  unfold cwfEvent at hd
  cases hr : rwfs[e]? with
  | none => rw [hr] at hd; cases hd
  | some evt =>
    rw [hr] at hd
    obtain ⟨g1, g2⟩ := mapM_ok_get hd
    refine ⟨evt, cwfs, rfl, hc, by rw [g1, List.length_zip], fun i rwf c hi hci => ?_⟩
    exact g2 i (rwf, c) (by rw [List.getElem?_zip_eq_some]; exact ⟨hi, hci⟩)

/-! ### The trigger -/

theorem setKey_new {β : Type} {d : List (Int × β)} {k : Int} {v : β} (h : k ∉ d.map Prod.fst) : setKey d k v = d ++ [(k, v)] := by
  unfold setKey; rw [if_neg h]

theorem triggerLoop_spec {β : Type} {peaks : List ℚ → Except PyErr β} : ∀ {l : List (Int × List ℚ)} {d out : List (Int × β)}, triggerLoop peaks l d = .ok out → (d.map Prod.fst ++ l.map Prod.fst).Nodup →
    ∃ vs, out = d ++ vs ∧ List.Forall₂ (fun x v => x.1 = v.1 ∧ peaks x.2 = .ok v.2) l vs := by
  intro l
  induction l with
  | nil =>
    intro d out h _
    cases h
    exact ⟨[], by simp, List.Forall₂.nil⟩
  | cons x l ih =>
    intro d out h hn
    rw [triggerLoop] at h
    cases hp : peaks x.2 with
    | error e => rw [hp] at h; cases h
    | ok v =>
      rw [hp] at h
      have hx : x.1 ∉ d.map Prod.fst := by
        intro hm
        exact (List.disjoint_of_nodup_append hn) hm (by simp)
      dsimp only at h
      rw [setKey_new hx] at h
      obtain ⟨vs, e, hf⟩ := ih h (by
        rw [List.map_append, List.append_assoc]
        simpa using hn)
      exact ⟨(x.1, v) :: vs, by rw [e, List.append_assoc]; rfl, List.Forall₂.cons ⟨rfl, hp⟩ hf⟩

theorem zip_fst_sublist {α β : Type} (l : List α) : ∀ m : List β, ((l.zip m).map Prod.fst).Sublist l := by
  induction l with
  | nil => intro m; simp
  | cons a l ih =>
    intro m
    cases m with
    | nil => simp
    | cons b m => exact (ih m).cons₂ a

theorem icIds_ok {pmts : List LoadDb.PmtRow} {channels ids : List Int} (h : icIds pmts channels = .ok ids) :
    (pmts.map (·.channel)).Nodup ∧ ids = channels.map fun c => if c ∈ pmts.map (·.channel) then (((pmts.map (·.channel)).idxOf c : Nat) : Int) else -1 := by
  unfold icIds at h
  split at h
  · rename_i hn; exact ⟨hn, (Except.ok.inj h).symm⟩
  · cases h

theorem active_mem {pmts : List LoadDb.PmtRow} {c : Int} (h : c ∈ activeChannels pmts) : c ∈ pmts.map (·.channel) := by
  obtain ⟨p, hp, rfl⟩ := List.mem_map.1 h
  exact List.mem_map.2 ⟨p, (List.mem_filter.1 hp).1, rfl⟩

/-- C87: a channel that is masked, or does not exist, cannot be in the trigger. -/
theorem trigger_masked {β : Type} (tan : ℚ → ℚ) (peaks : List ℚ → Except PyErr β) (pmts : List LoadDb.PmtRow) (channels : List Int) (n : Nat) (rwfs : List (List ℚ)) (hc : (pmts.map (·.channel)).Nodup)
    {c : Int} (h : c ∈ channels) (ha : ¬ ∃ p ∈ pmts, p.channel = c ∧ Active p) : emulateTrigger tan peaks pmts channels n rwfs = .error .valueError := by
  unfold emulateTrigger icIds
  rw [if_pos hc]
  dsimp only
  rw [if_pos]
  refine ⟨c, h, fun hm => ha ?_⟩
  obtain ⟨p, hp, rfl⟩ := List.mem_map.1 hm
  obtain ⟨h1, h2⟩ := List.mem_filter.1 hp
  exact ⟨p, h1, rfl, of_decide_eq_true h2⟩

/-- What `emulate_trigger` gives: the k-th trigger channel gets the peaks of the k-th waveform. -/
theorem trigger_result {β : Type} {tan : ℚ → ℚ} {peaks : List ℚ → Except PyErr β} {pmts : List LoadDb.PmtRow} {channels : List Int} {n : Nat} {rwfs : List (List ℚ)} {out : List (Int × β)}
    (h : emulateTrigger tan peaks pmts channels n rwfs = .ok out) (hn : channels.Nodup) :
    ∃ cwfs, deconvPmt tan pmts n (!channels.isEmpty) rwfs = .ok cwfs ∧
      ∀ (k : Nat) (c : Int) (cwf : List ℚ), channels[k]? = some c → cwfs[k]? = some cwf →
        ∃ (i : Nat) (v : β), (pmts.map (·.channel))[i]? = some c ∧ out[k]? = some ((i : Int), v) ∧ peaks cwf = .ok v := by
  unfold emulateTrigger at h
  cases hi : icIds pmts channels with
  | error e => rw [hi] at h; cases h
  | ok ids =>
    obtain ⟨hnd, he⟩ := icIds_ok hi
    rw [hi] at h
    dsimp only at h
    split at h
    · cases h
    · rename_i hact
      have hmem : ∀ c ∈ channels, c ∈ pmts.map (·.channel) := fun c hc => active_mem (by by_contra h'; exact hact ⟨c, hc, h'⟩)
      have he' : ids = channels.map fun c => (((pmts.map (·.channel)).idxOf c : Nat) : Int) := by
        rw [he]
        exact List.map_congr_left fun c hc => by rw [if_pos (hmem c hc)]
      have hidn : ids.Nodup := by
        rw [he']
        refine List.Nodup.map_on ?_ hn
        intro a ha b hb hab
        have := Int.ofNat.inj hab
        exact (List.idxOf_inj (hmem a ha)).1 this
      have hemp : ids.isEmpty = channels.isEmpty := by rw [he']; cases channels <;> rfl
      rw [hemp] at h
      cases hd : deconvPmt tan pmts n (!channels.isEmpty) rwfs with
      | error e => rw [hd] at h; cases h
      | ok cwfs =>
        rw [hd] at h
        dsimp only at h
        have hz : ((ids.zip cwfs).map Prod.fst).Nodup := by
          exact hidn.sublist (zip_fst_sublist _ _)
        obtain ⟨vs, e, hf⟩ := triggerLoop_spec h (by simpa using hz)
        rw [List.nil_append] at e
        subst e
        refine ⟨cwfs, rfl, fun k c cwf hk hcw => ?_⟩
        have hid : ids[k]? = some (((pmts.map (·.channel)).idxOf c : Nat) : Int) := by rw [he', List.getElem?_map, hk]; rfl
        have hzk : (ids.zip cwfs)[k]? = some ((((pmts.map (·.channel)).idxOf c : Nat) : Int), cwf) := by rw [List.getElem?_zip_eq_some]; exact ⟨hid, hcw⟩
        obtain ⟨hk1, hk2⟩ := List.getElem?_eq_some_iff.1 hzk
        have hk3 : k < out.length := by rw [← hf.length_eq]; exact hk1
        have hg := List.forall₂_iff_get.1 hf
        have := hg.2 k hk1 hk3
        rw [List.get_eq_getElem, List.get_eq_getElem, hk2] at this
        refine ⟨(pmts.map (·.channel)).idxOf c, (out[k]).2, ?_, ?_, this.2⟩
        · rw [List.getElem?_eq_getElem (List.idxOf_lt_length_of_mem (hmem c (List.mem_of_getElem? hk))), List.getElem_idxOf]
        · rw [List.getElem?_eq_getElem hk3]
          exact congrArg some (Prod.ext this.1.symm rfl)

/-- C87 (partial): if the trigger channels are those of the first PMTs, in order, and all the PMTs are active, each one gets the peaks of its own restored waveform. -/
theorem trigger_own_partial {β : Type} {tan : ℚ → ℚ} {peaks : List ℚ → Except PyErr β} {pmts : List LoadDb.PmtRow} {channels : List Int} {n : Nat} {rwfs : List (List ℚ)} {out : List (Int × β)}
    (h : emulateTrigger tan peaks pmts channels n rwfs = .ok out) (ha : ∀ p ∈ pmts, Active p) (m : Nat) (hm : channels = (pmts.map (·.channel)).take m) {k : Nat} (hk : k < channels.length) :
    ∃ (p : LoadDb.PmtRow) (rwf : List ℚ) (cc cb : ℚ) (cwf : List ℚ) (v : β), pmts[k]? = some p ∧ rwfs[k]? = some rwf ∧ p.coeffC = some cc ∧ p.coeffBlr = some cb ∧
      deconvolve tan cc cb 5 5000 (rwf.map fun x => Calib.zmean (rwf.take n) - x) = .ok cwf ∧ peaks cwf = .ok v ∧ out[k]? = some ((k : Int), v) := by
  have hnd : (pmts.map (·.channel)).Nodup := by
    unfold emulateTrigger at h
    cases hi : icIds pmts channels with
    | error e => rw [hi] at h; cases h
    | ok ids => exact (icIds_ok hi).1
  obtain ⟨cwfs, hd, hr⟩ := trigger_result h (by rw [hm]; exact hnd.sublist (List.take_sublist _ _))
  obtain ⟨l1, l2, hs⟩ := deconvPmt_spec hd
  have hsel : (if (!channels.isEmpty) = true then pmts.filter fun p => decide (Active p) else pmts) = pmts := by
    split
    · exact List.filter_eq_self.2 fun p hp => decide_eq_true (ha p hp)
    · rfl
  rw [hsel] at l2 hs
  have hk' := hk
  rw [hm, List.length_take, List.length_map] at hk
  obtain ⟨p, hp⟩ : ∃ p, pmts[k]? = some p := ⟨_, List.getElem?_eq_getElem (by omega)⟩
  obtain ⟨rwf, hrw⟩ : ∃ r, rwfs[k]? = some r := ⟨_, List.getElem?_eq_getElem (by omega)⟩
  obtain ⟨cc, cb, cwf, e1, e2, e3, e4⟩ := hs k rwf p hrw hp
  have hch : channels[k]? = some p.channel := by rw [hm, List.getElem?_take_of_lt (by omega), List.getElem?_map, hp]; rfl
  obtain ⟨i, v, h1, h2, h3⟩ := hr k p.channel cwf hch e3
  have hik : i = k := by
    have hk2 : (pmts.map (·.channel))[k]? = some p.channel := by rw [List.getElem?_map, hp]; rfl
    obtain ⟨i1, i2⟩ := List.getElem?_eq_some_iff.1 h1
    obtain ⟨k1, k2⟩ := List.getElem?_eq_some_iff.1 hk2
    exact (List.Nodup.getElem_inj_iff hnd).1 (i2.trans k2.symm)
  subst hik
  exact ⟨p, rwf, cc, cb, cwf, v, hp, hrw, e1, e2, e4, h3, h2⟩

/-- C87 (finding): if a PMT is masked and the events have a waveform for every PMT, every event is an AssertionError (for any valid choice of the trigger channels). -/
theorem trigger_inactive {β : Type} (tan : ℚ → ℚ) (peaks : List ℚ → Except PyErr β) {pmts : List LoadDb.PmtRow} {channels : List Int} (n : Nat) {rwfs : List (List ℚ)} (hn : (pmts.map (·.channel)).Nodup)
    (hc : channels ≠ []) (hv : ∀ c ∈ channels, ∃ p ∈ pmts, p.channel = c ∧ Active p) (hl : rwfs.length = pmts.length) (hi : ∃ p ∈ pmts, ¬ Active p) : emulateTrigger tan peaks pmts channels n rwfs = .error .assertion := by
  unfold emulateTrigger icIds
  rw [if_pos hn]
  dsimp only
  rw [if_neg, deconvPmt_assertion]
  · rw [if_pos]
    · rw [hl]
      obtain ⟨p, hp, hpa⟩ := hi
      intro he
      exact hpa (of_decide_eq_true (List.length_filter_eq_length_iff.1 he.symm p hp))
    · cases channels with
      | nil => exact absurd rfl hc
      | cons => rfl
  · rintro ⟨c, hc1, hc2⟩
    obtain ⟨p, hp, rfl, ha⟩ := hv c hc1
    exact hc2 (List.mem_map.2 ⟨p, List.mem_filter.2 ⟨hp, decide_eq_true ha⟩, rfl⟩)

/-! ### Examples -/

def exPmt (sensor channel : Int) (active : Nat) : LoadDb.PmtRow := ⟨sensor, channel, none, active, 0, 0, some (1 / 2), some (1 / 2), 1, none, none, none, none⟩

def exPmts : List LoadDb.PmtRow := [exPmt 0 10 1, exPmt 1 11 1]

/-- A flat waveform and one with a pulse. -/
def exFlat : List ℚ := List.replicate 403 7

def exSignal : List ℚ := List.replicate 400 7 ++ [3, 3, 3]

example : (deconvPmt one exPmts 100 true [exFlat, exSignal]).map (·.map (·.drop 399)) = .ok [[0, 0, 0, 0], [0, 5 / 2, 1, 1]] := by decide +kernel

example : deconvPmt one (exPmt 2 12 0 :: exPmts) 100 true [exFlat, exFlat, exSignal] = .error .assertion := by decide +kernel

example : deconvPmt one exPmts 100 true [exFlat.map (· + 1000), exSignal.map (· + 1000)] = deconvPmt one exPmts 100 true [exFlat, exSignal] := by
  have := deconvPmt_offset (tan := one) (pmts := exPmts) (n := 100) (mask := true) (rwfs := [exFlat, exSignal]) (d := 1000) (by decide) (by decide +kernel)
  exact this

/-- C87 (finding): the property is false in general. A trigger on the second PMT only looks at the waveform of the first one: the signal of the second is not seen. -/
theorem trigger_other_waveform : (emulateTrigger one (fun w => .ok (w.getD 400 0)) exPmts [11] 100 [exFlat, exSignal]) = .ok [(1, 0)] ∧
    (emulateTrigger one (fun w => .ok (w.getD 400 0)) exPmts [11] 100 [exSignal, exFlat]) = .ok [(1, 5 / 2)] := by decide +kernel

example : (emulateTrigger one (fun w => .ok (w.getD 400 0)) exPmts [10, 11] 100 [exFlat, exSignal]) = .ok [(0, 0), (1, 5 / 2)] := by decide +kernel

example : emulateTrigger one (fun _ => (.ok 0 : Except PyErr ℚ)) (exPmt 2 12 0 :: exPmts) [10] 100 [exFlat, exFlat, exSignal] = .error .assertion :=
  trigger_inactive _ _ _ (by decide) (by decide) (by decide) (by decide +kernel) (by decide)

example : emulateTrigger one (fun _ => (.ok 0 : Except PyErr ℚ)) (exPmt 2 12 0 :: exPmts) [12] 100 [exFlat, exFlat] = .error .valueError :=
  trigger_masked _ _ _ _ _ _ (by decide) (c := 12) (by decide) (by decide)

example : (cwfFromRwf one [[exFlat, exSignal], [exSignal]] [1, 0] [(1 / 2, 1 / 2), (1 / 2, 1 / 2)] 100 5).map (·.map (·.map (·.drop 400))) = .ok [[[5 / 2, 1, 1]], [[0, 0, 0], [5 / 2, 1, 1]]] := by decide +kernel

end Verif.Blr
