import Verif.Props.DiomiraEvent
import Verif.Props.S2Light
/-!
# C111: what diomira stores
-/
namespace Verif.DiomiraEvent
open Verif Verif.Core Verif.PMaps Spec

theorem wrap16 {n : Int} (h : Fits16 n) : WfIO.wrap 16 n = n := by
  unfold Fits16 at h
  unfold WfIO.wrap
  norm_num
  omega

theorem nearest_eq {x : ℚ} {n : Int} (h : Nearest x n) : Sampling.roundEven x = n := by
  obtain ⟨h1, h2⟩ := h
  have hf := Int.floor_le x
  have hl := Int.lt_floor_add_one x
  have hb := abs_le.1 h1
  have hn : n = ⌊x⌋ ∨ n = ⌊x⌋ + 1 := by
    have a1 : (n : ℚ) < (⌊x⌋ : ℚ) + 2 := by linarith [hb.1]
    have a2 : (⌊x⌋ : ℚ) - 1 < n := by linarith [hb.2]
    have b1 : n < ⌊x⌋ + 2 := by exact_mod_cast a1
    have b2 : ⌊x⌋ - 1 < n := by exact_mod_cast a2
    omega
  unfold Sampling.roundEven
  rcases hn with e | e
  · rw [e] at hb h2 ⊢
    split
    · rfl
    · rename_i hc
      have he : x - ⌊x⌋ = 1 / 2 := by linarith [hb.2]
      rw [if_neg (by rw [he]; norm_num), if_pos (h2 (by rw [he]; norm_num))]
  · rw [e] at hb h2 ⊢
    push_cast at hb h2
    have hge : 1 / 2 ≤ x - ⌊x⌋ := by linarith [hb.1]
    rw [if_neg (by linarith)]
    split
    · rfl
    · rename_i hc
      have he : x - ⌊x⌋ = 1 / 2 := by linarith
      have hev := h2 (by rw [show x - ((⌊x⌋ : ℚ) + 1) = -(1 / 2) by linarith]; norm_num)
      rw [if_neg (by omega)]

theorem rounded (wf : List ℚ) : Rounded wf (wf.map toInt16) := by
  refine ⟨List.length_map _, fun k x n hx hn hf => ?_⟩
  rw [List.getElem?_map, hx]
  show some (WfIO.wrap 16 (Sampling.roundEven x)) = some n
  rw [nearest_eq hn, wrap16 hf]

theorem truncate_eq {x : ℚ} {n : Int} (h1 : |x - n| < 1) (h2 : |(n : ℚ)| ≤ |x|) : WfIO.truncate x = n := by
  have hb := abs_lt.1 h1
  unfold WfIO.truncate
  split
  · rename_i h0
    rw [abs_of_nonneg h0] at h2
    have := (abs_le.1 h2).2
    rw [Int.floor_eq_iff]
    exact ⟨this, by linarith [hb.2]⟩
  · rename_i h0
    rw [abs_of_neg (not_le.1 h0)] at h2
    have := (abs_le.1 h2).1
    rw [Int.ceil_eq_iff]
    exact ⟨by linarith [hb.1], by linarith⟩

theorem truncated (wf : List ℚ) : Truncated wf (wf.map (WfIO.convert 16)) := by
  refine ⟨List.length_map _, fun k x n hx h1 h2 hf => ?_⟩
  rw [List.getElem?_map, hx]
  show some (WfIO.wrap 16 (WfIO.truncate x)) = some n
  rw [truncate_eq h1 h2, wrap16 hf]

/-- C111: the waveforms of the PMTs: one for each of the input, simulated with the gain of the PMT that has its position in the database (in units of that of the electronics), its resolution and its low frequency noise;
what is stored are the nearest integers. -/
theorem pmts_spec {env : Env} {pmts : List LoadDb.PmtRow} {draws : PmtDraws} {rd : List (List ℚ)} {raw blr : List (List Int)} (h : simulatePmts env pmts draws rd = .ok (raw, blr)) :
    raw.length = rd.length ∧ blr.length = rd.length ∧ ∀ (i : Nat) (r : List ℚ), rd[i]? = some r →
      ∃ p l w a b, pmts[i]? = some p ∧ draws.low i = .ok l ∧
        Fee.simulatePmt env.spe env.decimate env.toAdc env.offset (env.elec i) (|p.adcToPes| / env.unit) (if p.adcToPes = 0 then 0 else p.sigma.getD 0 / |p.adcToPes|) (draws.each i) l r = .ok w ∧
        raw[i]? = some a ∧ blr[i]? = some b ∧ Rounded w.1 a ∧ Rounded w.2 b := by
  unfold simulatePmts at h
  cases hm : rd.zipIdx.mapM (pmtStep env pmts draws) with
  | error e => rw [hm] at h; cases h
  | ok out =>
    rw [hm] at h
    obtain ⟨rfl, rfl⟩ := Prod.mk.inj (Except.ok.inj h)
    obtain ⟨hl, hg⟩ := Blr.mapM_ok_get hm
    rw [List.length_zipIdx] at hl
    refine ⟨by simp [hl], by simp [hl], fun i r hr => ?_⟩
    obtain ⟨w, hw, hs⟩ := hg i (r, i) (by rw [List.getElem?_zipIdx, hr]; simp)
    unfold pmtStep at hs
    dsimp only at hs
    cases hp : pmts[i]? with
    | none => rw [hp] at hs; cases hs
    | some p =>
      rw [hp] at hs
      dsimp only at hs
      cases hlow : draws.low i with
      | error e => rw [hlow] at hs; cases hs
      | ok l =>
        rw [hlow] at hs
        refine ⟨p, l, w, w.1.map toInt16, w.2.map toInt16, rfl, rfl, ?_, by rw [List.getElem?_map, hw]; rfl, by rw [List.getElem?_map, hw]; rfl, rounded _, rounded _⟩
        have hpe : peResolution (p.sigma.getD 0) |p.adcToPes| = if p.adcToPes = 0 then 0 else p.sigma.getD 0 / |p.adcToPes| := by
          unfold peResolution
          by_cases h0 : p.adcToPes = 0 <;> simp [h0]
        rw [← hpe]
        exact hs

/-- C111: more waveforms than PMTs in the database is an error. -/
theorem pmts_many {env : Env} {pmts : List LoadDb.PmtRow} {draws : PmtDraws} {rd : List (List ℚ)} (h : pmts.length < rd.length) : ∃ e, simulatePmts env pmts draws rd = .error e := by
  cases hs : simulatePmts env pmts draws rd with
  | error e => exact ⟨e, rfl⟩
  | ok w =>
    obtain ⟨_, _, g⟩ := pmts_spec (raw := w.1) (blr := w.2) hs
    obtain ⟨p, _, _, _, _, hp, _⟩ := g pmts.length rd[pmts.length] (List.getElem?_eq_getElem h)
    simp at hp

/-! ### SiPMs -/

theorem fluctuate_get : ∀ (rd ds : List (List ℚ)) (rs : List ℚ), ds.length = rd.length → rs.length = rd.length →
    (fluctuate rd ds rs).length = rd.length ∧ ∀ (i : Nat) (r d : List ℚ) (x : ℚ), rd[i]? = some r → ds[i]? = some d → rs[i]? = some x → (fluctuate rd ds rs)[i]? = some (Detsim.chargeFluctuation r d x) := by
  intro rd
  induction rd with
  | nil => intro ds rs _ _; exact ⟨by simp [fluctuate], by simp⟩
  | cons a rd ih =>
    intro ds rs h1 h2
    match ds, rs, h1, h2 with
    | b :: ds, c :: rs, h1, h2 =>
      obtain ⟨g1, g2⟩ := ih ds rs (by simpa using h1) (by simpa using h2)
      refine ⟨by simp [fluctuate, g1], ?_⟩
      intro i r d x hr hd hx
      cases i with
      | zero =>
        simp only [List.getElem?_cons_zero, Option.some.injEq] at hr hd hx
        subst hr hd hx
        rfl
      | succ i =>
        simp only [List.getElem?_cons_succ] at hr hd hx
        rw [fluctuate, List.getElem?_cons_succ]
        exact g2 i r d x hr hd hx

theorem fluctuation_get {r d : List ℚ} (res : ℚ) (hl : d.length = r.length) : (Detsim.chargeFluctuation r d res).length = r.length ∧
    ∀ (j : Nat) (a b : ℚ), r[j]? = some a → d[j]? = some b → (Detsim.chargeFluctuation r d res)[j]? = some (fluctuated res a b) := by
  by_cases h : res = 0
  · subst h
    unfold Detsim.chargeFluctuation fluctuated
    rw [if_pos rfl]
    refine ⟨rfl, fun j a b ha _ => ?_⟩
    rw [if_pos rfl]
    exact ha
  · obtain ⟨h1, _, h3⟩ := Detsim.charge_fluctuation_spec r d res hl h
    refine ⟨h1, fun j a b ha hb => ?_⟩
    rw [h3 j a b ha hb, fluctuated, if_neg h]

open Classical in
/-- C111: the waveforms of the SiPMs: each sample is the charge that arrives, after its fluctuation and in ADC counts, plus the noise; those not near enough to one above the threshold of the SiPM are zero. The
threshold is `cut` photoelectrons over the baseline. -/
theorem sipms_spec {s : Sampling.Sampler} {sigma : List ℚ} {cut : ℚ} {padding : Int} {cols : Nat} {d : SipmDraws} {rd out : List (List ℚ)} (h : simulateSipms s sigma cut padding cols d rd = .ok out)
    (ha : s.adcToPes.length = rd.length) (hb : s.baselines.length = rd.length) (hs : sigma.length = rd.length) (hc : List.Forall₂ (fun r c => c.length = r.length) rd d.charge) :
    s.active.length = rd.length ∧ out.length = rd.length ∧ ∀ (i : Nat) (r : List ℚ), rd[i]? = some r → ∃ w o adc base, out[i]? = some o ∧ w.length = r.length ∧ o.length = r.length ∧ s.adcToPes[i]? = some adc ∧ s.baselines[i]? = some base ∧
      (∀ j < r.length, ∃ x, w[j]? = some x ∧ SipmSample s sigma d rd i j x ∧ o[j]? = some (if Wfm.Kept w (cut * adc + base) padding j then x else 0)) := by
  have hcl : d.charge.length = rd.length := hc.length_eq.symm
  have hrs : (List.zipWith peResolution sigma s.adcToPes).length = rd.length := by simp [hs, ha]
  obtain ⟨f1, f2⟩ := fluctuate_get rd d.charge _ hcl hrs
  unfold simulateSipms Wfm.toAdc Wfm.scaleRows at h
  rw [if_neg (by rw [not_not]; exact ha.trans f1.symm)] at h
  dsimp only at h
  split at h
  · cases h
  · rename_i hlen
    rw [not_not] at hlen
    have ho := Except.ok.inj h
    clear h
    generalize hm : List.zipWith (fun r c => List.map (fun x => x * c) r) (fluctuate rd d.charge (List.zipWith peResolution sigma s.adcToPes)) s.adcToPes = m at *
    have hml : m.length = rd.length := by rw [← hm]; simp [f1, ha]
    have hsl : (Sampling.sample s d.bins d.dev).length = rd.length := by
      have := congrArg List.length hlen
      simpa [hml] using this.symm
    have hact : s.active.length = rd.length := by simpa [Sampling.sample] using hsl
    have hzl : (List.zipWith (fun a b => List.zipWith (· + ·) a b) m (Sampling.sample s d.bins d.dev)).length = rd.length := by simp [hml, hsl]
    obtain ⟨n1, n2⟩ := Wfm.noise_suppression (List.zipWith (fun a b => List.zipWith (· + ·) a b) m (Sampling.sample s d.bins d.dev)) (sipmThresholds s cut) (List.replicate m.length padding)
      (by rw [hzl]; simp [sipmThresholds, ha, hb]) (by rw [hzl]; simp [hml])
    rw [ho] at n1 n2
    refine ⟨hact, n1.trans hzl, fun i r hr => ?_⟩
    have hi : i < rd.length := (List.getElem?_eq_some_iff.1 hr).1
    have get : ∀ {β : Type} (l : List β), l.length = rd.length → ∃ x, l[i]? = some x := fun l hl => ⟨l[i]'(by omega), List.getElem?_eq_getElem (by omega)⟩
    obtain ⟨adc, hadc⟩ := get s.adcToPes ha
    obtain ⟨base, hbase⟩ := get s.baselines hb
    obtain ⟨sg, hsg⟩ := get sigma hs
    obtain ⟨c, hch⟩ := get d.charge hcl
    obtain ⟨noise, hn⟩ := get (Sampling.sample s d.bins d.dev) hsl
    have hcr : c.length = r.length := by
      obtain ⟨_, g⟩ := List.forall₂_iff_get.1 hc
      have := g i hi (by omega)
      rw [List.getElem?_eq_getElem hi] at hr
      rw [List.getElem?_eq_getElem (by omega)] at hch
      simp only [List.get_eq_getElem] at this
      rw [Option.some.inj hr, Option.some.inj hch] at this
      exact this
    have hfl := f2 i r c (peResolution sg adc) hr hch (by rw [List.getElem?_zipWith, hsg, hadc])
    obtain ⟨q1, q2⟩ := fluctuation_get (peResolution sg adc) hcr
    have hmi : m[i]? = some ((Detsim.chargeFluctuation r c (peResolution sg adc)).map fun x => x * adc) := by
      rw [← hm, List.getElem?_zipWith, hfl, hadc]
    have hnl : noise.length = r.length := by
      have := congrArg (fun l => l[i]?) hlen
      simp only [List.getElem?_map, hmi, hn, Option.map_some, Option.some.injEq, List.length_map, q1] at this
      exact this.symm
    have hwi : (List.zipWith (fun a b => List.zipWith (· + ·) a b) m (Sampling.sample s d.bins d.dev))[i]? = some (List.zipWith (· + ·) ((Detsim.chargeFluctuation r c (peResolution sg adc)).map fun x => x * adc) noise) := by
      rw [List.getElem?_zipWith, hmi, hn]
    have hoi := n2 i _ (cut * adc + base) padding hwi (by unfold sipmThresholds; rw [List.getElem?_zipWith, hadc, hbase]) (by rw [List.getElem?_replicate, if_pos (by omega)])
    generalize hw : List.zipWith (· + ·) ((Detsim.chargeFluctuation r c (peResolution sg adc)).map fun x => x * adc) noise = w at *
    have hwl : w.length = r.length := by rw [← hw]; simp [q1, hnl]
    obtain ⟨s1, s2⟩ := Wfm.suppress_exact w (cut * adc + base) padding
    refine ⟨w, _, adc, base, hoi, hwl, s1.trans hwl, hadc, hbase, fun j hj => ?_⟩
    obtain ⟨x, hx⟩ : ∃ x, w[j]? = some x := ⟨w[j]'(by omega), List.getElem?_eq_getElem (by omega)⟩
    refine ⟨x, hx, ?_, s2 j _ hx⟩
    have hrj : r[j]? = some (r[j]'hj) := List.getElem?_eq_getElem hj
    have hcj : c[j]? = some (c[j]'(by omega)) := List.getElem?_eq_getElem (by omega)
    have hnj : noise[j]? = some (noise[j]'(by omega)) := List.getElem?_eq_getElem (by omega)
    refine ⟨adc, sg, _, _, _, hadc, hsg, by rw [List.getD_eq_getElem?_getD, hr]; exact hrj, by rw [List.getD_eq_getElem?_getD, hch]; exact hcj, by rw [List.getD_eq_getElem?_getD, hn]; exact hnj, ?_⟩
    have he := q2 j _ _ hrj hcj
    rw [← hw, List.getElem?_zipWith, List.getElem?_map, he, hnj] at hx
    have hpe : peResolution sg adc = if adc = 0 then 0 else sg / adc := by
      unfold peResolution
      by_cases h0 : adc = 0 <;> simp [h0]
    rw [← hpe]
    exact (Option.some.inj hx).symm

/-! ### The run -/

/-- The rows an event adds to the output. -/
theorem event_ok {j : Job} {t : Option Trigger} {e : Event} {o o' : Out} (h : event j t e o = (o', .ok ())) :
    ∃ r, Processed j t e r ∧ o'.triggers = o.triggers ++ [(e.number, r.sipm.isSome)] ∧
      o'.numbers = o.numbers ++ ((passing (e, r)).toList.map fun x => x.1) ∧ o'.pmtrwf = o.pmtrwf ++ ((passing (e, r)).toList.map fun x => x.2.1) ∧
      o'.pmtblr = o.pmtblr ++ ((passing (e, r)).toList.map fun x => x.2.2.1) ∧ o'.sipmrwf = o.sipmrwf ++ ((passing (e, r)).toList.map fun x => x.2.2.2) := by
  unfold event at h
  cases hs : simulatePmts j.env j.pmts e.draws e.pmt with
  | error err => rw [hs] at h; cases h
  | ok w =>
    rw [hs] at h
    dsimp only at h
    cases ht : triggerPass j.tan j.pmts j.conf t w.1 with
    | error err => rw [ht] at h; cases h
    | ok b =>
      rw [ht] at h
      dsimp only at h
      cases b with
      | false =>
        rw [if_neg (by simp)] at h
        obtain ⟨rfl, _⟩ := Prod.mk.inj h
        exact ⟨⟨w.1, w.2, none⟩, ⟨hs, ht, by simp⟩, rfl, by simp [passing], by simp [passing], by simp [passing], by simp [passing]⟩
      | true =>
        rw [if_pos rfl] at h
        unfold passed at h
        cases hp : simulateSipms j.sampler j.sigma j.cut j.padding j.cols e.sipmDraws e.sipm with
        | error err => rw [hp] at h; cases h
        | ok s =>
          rw [hp] at h
          obtain ⟨rfl, _⟩ := Prod.mk.inj h
          refine ⟨⟨w.1, w.2, some (s.map fun r => r.map (WfIO.convert 16))⟩, ⟨hs, ht, ?_⟩, rfl, rfl, rfl, rfl, rfl⟩
          intro s' hs'
          obtain rfl := Option.some.inj hs'
          refine ⟨s, hp, ?_⟩
          rw [List.forall₂_map_right_iff]
          exact List.forall₂_same.2 fun r _ => truncated r

theorem events_ok {j : Job} {t : Option Trigger} : ∀ {es : List Event} {o o' : Out}, events j t es o = (o', .ok ()) →
    ∃ rs, List.Forall₂ (Processed j t) es rs ∧ ∃ n : Out, Written es rs n ∧
      o' = ⟨o.triggers ++ n.triggers, o.numbers ++ n.numbers, o.pmtrwf ++ n.pmtrwf, o.pmtblr ++ n.pmtblr, o.sipmrwf ++ n.sipmrwf⟩ := by
  intro es
  induction es with
  | nil =>
    intro o o' h
    obtain ⟨rfl, _⟩ := Prod.mk.inj h
    exact ⟨[], List.Forall₂.nil, ⟨[], [], [], [], []⟩, by simp [Written], by simp⟩
  | cons e es ih =>
    intro o o' h
    have hd : events j t (e :: es) o = match event j t e o with
      | (o', .error err) => (o', .error err)
      | (o', .ok _) => events j t es o' := rfl
    rw [hd] at h
    cases he : event j t e o with
    | mk o1 res =>
      rw [he] at h
      cases res with
      | error err => cases h
      | ok u =>
        dsimp only at h
        obtain ⟨r, hr, e1, e2, e3, e4, e5⟩ := event_ok he
        obtain ⟨rs, hrs, n, ⟨w1, w2, w3, w4, w5⟩, ho⟩ := ih h
        refine ⟨r :: rs, List.Forall₂.cons hr hrs, ⟨(e.number, r.sipm.isSome) :: n.triggers, ((passing (e, r)).toList.map fun x => x.1) ++ n.numbers, ((passing (e, r)).toList.map fun x => x.2.1) ++ n.pmtrwf,
          ((passing (e, r)).toList.map fun x => x.2.2.1) ++ n.pmtblr, ((passing (e, r)).toList.map fun x => x.2.2.2) ++ n.sipmrwf⟩, ?_, ?_⟩
        · refine ⟨by simp [w1], ?_, ?_, ?_, ?_⟩
          · cases hp : passing (e, r) <;> simp [hp, w2]
          · cases hp : passing (e, r) <;> simp [hp, w3]
          · cases hp : passing (e, r) <;> simp [hp, w4]
          · cases hp : passing (e, r) <;> simp [hp, w5]
        · rw [ho, e1, e2, e3, e4, e5]
          simp

/-- C111: a job that ends without error has the decision of the trigger for every event of the input, in order, and for those that pass, and only for them, its number and the waveforms of that event, in the same order. -/
theorem run_spec {j : Job} {type : Option String} {es : List Event} {o : Out} (h : diomira j type es = (o, .ok ())) :
    ∃ t rs, setup j.pmts type j.conf = .ok t ∧ List.Forall₂ (Processed j t) es rs ∧ Written es rs o := by
  unfold diomira at h
  cases hs : setup j.pmts type j.conf with
  | error e => rw [hs] at h; cases h
  | ok t =>
    rw [hs] at h
    obtain ⟨rs, h1, n, h2, h3⟩ := events_ok h
    refine ⟨t, rs, rfl, h1, ?_⟩
    rw [h3]
    simpa [Out.empty] using h2

/-- C111: without a trigger every event passes and is written. -/
theorem no_trigger {j : Job} {es : List Event} {o : Out} (h : diomira j none es = (o, .ok ())) : o.triggers = es.map (fun e => (e.number, true)) ∧ o.numbers = es.map fun e => e.number := by
  have hs : setup j.pmts none j.conf = .ok none := rfl
  unfold diomira at h
  rw [hs] at h
  dsimp only at h
  suffices H : ∀ (es : List Event) (o o' : Out), events j none es o = (o', .ok ()) → o'.triggers = o.triggers ++ es.map (fun e => (e.number, true)) ∧ o'.numbers = o.numbers ++ es.map fun e => e.number by
    have := H es .empty o h
    simpa [Out.empty] using this
  intro es
  induction es with
  | nil =>
    intro o o' h
    obtain ⟨rfl, _⟩ := Prod.mk.inj h
    simp
  | cons e es ih =>
    intro o o' h
    have hd : events j none (e :: es) o = match event j none e o with
      | (o', .error err) => (o', .error err)
      | (o', .ok _) => events j none es o' := rfl
    rw [hd] at h
    cases he : event j none e o with
    | mk o1 res =>
      rw [he] at h
      cases res with
      | error err => cases h
      | ok u =>
        dsimp only at h
        obtain ⟨i1, i2⟩ := ih o1 o' h
        obtain ⟨r, ⟨_, ht, _⟩, e1, e2, _⟩ := event_ok he
        have hb : r.sipm.isSome = true := (Except.ok.inj ht).symm
        obtain ⟨s, hsome⟩ := Option.isSome_iff_exists.1 hb
        rw [i1, i2, e1, e2]
        simp [passing, hsome]

/-- Going on after some events. -/
theorem events_append {j : Job} {t : Option Trigger} : ∀ (as bs : List Event) {o o' : Out}, events j t as o = (o', .ok ()) → events j t (as ++ bs) o = events j t bs o' := by
  intro as
  induction as with
  | nil => intro bs o o' h; obtain ⟨rfl, _⟩ := Prod.mk.inj h; rfl
  | cons e es ih =>
    intro bs o o' h
    have hd : ∀ l, events j t (e :: l) o = match event j t e o with
      | (o', .error err) => (o', .error err)
      | (o', .ok _) => events j t l o' := fun _ => rfl
    rw [hd] at h
    rw [List.cons_append, hd]
    cases he : event j t e o with
    | mk o1 res =>
      rw [he] at h
      cases res with
      | error err => cases h
      | ok u => exact ih bs h

/-- C111 (finding): an event in which a waveform that the trigger looks at is quiet ends the job: what was written for the events before it stays, and neither it nor any event after it is in the output. -/
theorem quiet_ends {j : Job} {t : Trigger} {type : Option String} (hs : setup j.pmts type j.conf = .ok (some t)) (hn : j.conf.channels.Nodup) (hk : 0 < j.conf.rebin) {before after : List Event} {e : Event} {o : Out}
    (hb : diomira j type before = (o, .ok ())) {raw blr : List (List Int)} (hr : simulatePmts j.env j.pmts e.draws e.pmt = .ok (raw, blr)) {cwfs : List (List ℚ)}
    (hd : Blr.deconvPmt j.tan j.pmts j.conf.nBaseline (!j.conf.channels.isEmpty) (raw.map fun w => w.map fun n : Int => (n : ℚ)) = .ok cwfs)
    (hq : ∃ wf ∈ cwfs.take j.conf.channels.length, ∀ x ∈ wf, x ≤ j.conf.height.1) : diomira j type (before ++ e :: after) = (o, .error .indexError) := by
  unfold diomira at hb ⊢
  rw [hs] at hb ⊢
  dsimp only at hb ⊢
  rw [events_append _ _ hb]
  unfold events event
  rw [hr]
  dsimp only
  rw [trigger_quiet hs hn hk j.tan hd hq]

/-- C111: if the job fails in an event, the events before it are complete in the output; of that event there are no waveforms, and its decision is there only if it passed and what failed are its SiPMs. -/
theorem run_error {j : Job} {type : Option String} {t : Option Trigger} (hs : setup j.pmts type j.conf = .ok t) {es : List Event} {o : Out} {err : PyErr} (h : diomira j type es = (o, .error err)) :
    ∃ before e after rs n, es = before ++ e :: after ∧ List.Forall₂ (Processed j t) before rs ∧ Written before rs n ∧
      ((o = n ∧ (simulatePmts j.env j.pmts e.draws e.pmt = .error err ∨ ∃ raw blr, simulatePmts j.env j.pmts e.draws e.pmt = .ok (raw, blr) ∧ triggerPass j.tan j.pmts j.conf t raw = .error err)) ∨
       (o = ⟨n.triggers ++ [(e.number, true)], n.numbers, n.pmtrwf, n.pmtblr, n.sipmrwf⟩ ∧ simulateSipms j.sampler j.sigma j.cut j.padding j.cols e.sipmDraws e.sipm = .error err ∧
        ∃ raw blr, simulatePmts j.env j.pmts e.draws e.pmt = .ok (raw, blr) ∧ triggerPass j.tan j.pmts j.conf t raw = .ok true)) := by
  -- the event that fails
  have key : ∀ (es : List Event) (o0 : Out), events j t es o0 = (o, .error err) → ∃ before e after n, es = before ++ e :: after ∧ events j t before o0 = (n, .ok ()) ∧ event j t e n = (o, .error err) := by
    intro es
    induction es with
    | nil => intro o0 h; cases (Prod.mk.inj h).2
    | cons e es ih =>
      intro o0 h
      have hd : ∀ l, events j t (e :: l) o0 = match event j t e o0 with
        | (o', .error err) => (o', .error err)
        | (o', .ok _) => events j t l o' := fun _ => rfl
      rw [hd] at h
      cases he : event j t e o0 with
      | mk o1 res =>
        rw [he] at h
        cases res with
        | error err' =>
          dsimp only at h
          rw [h] at he
          exact ⟨[], e, es, o0, rfl, rfl, he⟩
        | ok u =>
          dsimp only at h
          obtain ⟨before, e', after, n, h1, h2, h3⟩ := ih o1 h
          exact ⟨e :: before, e', after, n, by rw [h1]; rfl, by rw [hd, he]; exact h2, h3⟩
  unfold diomira at h
  rw [hs] at h
  obtain ⟨before, e, after, n, h1, h2, h3⟩ := key es .empty h
  obtain ⟨rs, g1, m, g2, g3⟩ := events_ok h2
  have hn : Written before rs n := by rw [g3]; simpa [Out.empty] using g2
  refine ⟨before, e, after, rs, n, h1, g1, hn, ?_⟩
  unfold event at h3
  cases hp : simulatePmts j.env j.pmts e.draws e.pmt with
  | error e' =>
    rw [hp] at h3
    obtain ⟨rfl, h'⟩ := Prod.mk.inj h3
    exact Or.inl ⟨rfl, Or.inl (by rw [Except.error.inj h'])⟩
  | ok w =>
    rw [hp] at h3
    dsimp only at h3
    cases ht : triggerPass j.tan j.pmts j.conf t w.1 with
    | error e' =>
      rw [ht] at h3
      obtain ⟨rfl, h'⟩ := Prod.mk.inj h3
      exact Or.inl ⟨rfl, Or.inr ⟨w.1, w.2, rfl, by rw [ht, Except.error.inj h']⟩⟩
    | ok b =>
      rw [ht] at h3
      dsimp only at h3
      cases b with
      | false => rw [if_neg (by simp)] at h3; cases (Prod.mk.inj h3).2
      | true =>
        rw [if_pos rfl] at h3
        unfold passed at h3
        cases hq : simulateSipms j.sampler j.sigma j.cut j.padding j.cols e.sipmDraws e.sipm with
        | ok s => rw [hq] at h3; cases (Prod.mk.inj h3).2
        | error e' =>
          rw [hq] at h3
          obtain ⟨rfl, h'⟩ := Prod.mk.inj h3
          exact Or.inr ⟨rfl, by rw [Except.error.inj h'], w.1, w.2, rfl, ht⟩

theorem mk_iff (a b : ℚ) : (∃ m, MinMax.mk? a b = .ok m) ↔ a ≤ b := by
  unfold MinMax.mk?
  split <;> simp_all

/-- C111: the parameters of a trigger "S2" are checked before any event: ranges that are not reversed and channels that are in the database and active, and only those, are accepted. -/
theorem setup_iff (pmts : List LoadDb.PmtRow) (c : TriggerConf) (hn : (pmts.map (·.channel)).Nodup) (hr : 0 ≤ c.ratio) :
    (∃ t, setup pmts (some "S2") c = .ok (some t)) ↔
      (c.height.1 ≤ c.height.2 ∧ c.charge.1 ≤ c.charge.2 ∧ c.width.1 ≤ c.width.2 ∧ c.time.1 ≤ c.time.2 ∧ c.length.1 ≤ c.length.2 ∧ ∀ ch ∈ c.channels, ∃ p ∈ pmts, p.channel = ch ∧ p.active ≠ 0) := by
  have hact : (∃ ch ∈ c.channels, ch ∉ Blr.activeChannels pmts) ↔ ¬ ∀ ch ∈ c.channels, ∃ p ∈ pmts, p.channel = ch ∧ p.active ≠ 0 := by
    unfold Blr.activeChannels
    push Not
    refine exists_congr fun ch => and_congr_right fun _ => ?_
    simp only [List.mem_map, List.mem_filter, decide_eq_true_eq, not_exists, not_and]
    exact ⟨fun h p hp hc => by by_contra h0; exact h p ⟨hp, h0⟩ hc, fun h p hp hc => hp.2 (h p hp.1 hc)⟩
  have hsel : (∃ f, Filters.selectTrigger c.minChannels c.ratio c.height c.charge c.width = .ok f) ↔ c.height.1 ≤ c.height.2 ∧ c.charge.1 ≤ c.charge.2 ∧ c.width.1 ≤ c.width.2 := by
    have hm : ∀ {a b : ℚ}, a ≤ b → MinMax.mk? a b = .ok ⟨a, b⟩ := fun {a b} h => by unfold MinMax.mk?; rw [if_pos h]
    constructor
    · rintro ⟨f, hf⟩
      unfold Filters.selectTrigger at hf
      cases h1 : MinMax.mk? c.height.1 c.height.2 with
      | error e => rw [h1] at hf; cases hf
      | ok a =>
      cases h2 : MinMax.mk? c.charge.1 c.charge.2 with
      | error e => rw [h1, h2] at hf; cases hf
      | ok b =>
      cases h3 : MinMax.mk? c.width.1 c.width.2 with
      | error e => rw [h1, h2, h3] at hf; cases hf
      | ok w => exact ⟨(mk_iff _ _).1 ⟨a, h1⟩, (mk_iff _ _).1 ⟨b, h2⟩, (mk_iff _ _).1 ⟨w, h3⟩⟩
    · rintro ⟨h1, h2, h3⟩
      unfold Filters.selectTrigger MinMax.mul
      rw [hm h1, hm h2, hm h3]
      simp only [Bind.bind, Except.bind]
      rw [hm (mul_le_mul_of_nonneg_right h2 hr)]
      dsimp only
      rw [hm (mul_le_mul_of_nonneg_right h1 hr)]
      exact ⟨_, rfl⟩
  unfold setup
  simp only [ne_eq, not_true_eq_false, if_false]
  cases hs : Filters.selectTrigger c.minChannels c.ratio c.height c.charge c.width with
  | error e =>
    have hno : ¬ (c.height.1 ≤ c.height.2 ∧ c.charge.1 ≤ c.charge.2 ∧ c.width.1 ≤ c.width.2) := fun h => by
      obtain ⟨f, hf⟩ := hsel.2 h
      rw [hs] at hf
      cases hf
    constructor
    · rintro ⟨t, ht⟩; cases ht
    · rintro ⟨h1, h2, h3, _⟩; exact absurd ⟨h1, h2, h3⟩ hno
  | ok f =>
    have hyes := hsel.1 ⟨f, hs⟩
    dsimp only
    unfold setupSearch
    have hid : ∃ ids, Blr.icIds pmts c.channels = .ok ids := by unfold Blr.icIds; rw [if_pos hn]; exact ⟨_, rfl⟩
    obtain ⟨ids, hid⟩ := hid
    rw [hid]
    dsimp only
    have hmt := mk_iff c.time.1 c.time.2
    have hml := mk_iff c.length.1 c.length.2
    cases ht : MinMax.mk? c.time.1 c.time.2 with
    | error e => rw [ht] at hmt; simp at hmt; simp; intros; linarith
    | ok t =>
      rw [ht] at hmt
      cases hl : MinMax.mk? c.length.1 c.length.2 with
      | error e => rw [hl] at hml; simp at hml; simp; intros; linarith
      | ok l =>
        rw [hl] at hml
        dsimp only
        by_cases ha : ∀ ch ∈ c.channels, ∃ p ∈ pmts, p.channel = ch ∧ p.active ≠ 0
        · rw [if_neg (fun h => hact.1 h ha)]
          exact ⟨fun _ => ⟨hyes.1, hyes.2.1, hyes.2.2, hmt.1 ⟨_, rfl⟩, hml.1 ⟨_, rfl⟩, ha⟩, fun _ => ⟨_, rfl⟩⟩
        · rw [if_pos (hact.2 ha)]
          constructor
          · rintro ⟨t, h⟩; cases h
          · rintro ⟨_, _, _, _, _, h⟩; exact absurd h ha

/-! ### Examples -/

/-- Waveforms without photoelectrons and with a given low frequency noise: raw waveforms 7 + noise. -/
def exDraws (lows : List (List ℚ)) : PmtDraws := ⟨fun _ => ⟨[], List.replicate 403 0, List.replicate 403 0⟩, fun i => .ok (lows.getD i [])⟩

def exEnv : Env := ⟨[1, 1], id, 2, 7, 1, fun _ => Fee.exE⟩

/-- A range that nothing leaves. -/
def exAll : ℚ × ℚ := (-1000, 100000)

def exConf : TriggerConf := ⟨[10, 11], 2, 1, (1 / 2, 100000), exAll, exAll, 100, (0, 1000000), (0, 1000000), 4, 1⟩

def exSampler : Sampling.Sampler := ⟨[[1], [1]], [0], [1, 2], [1, 1], [10, 20]⟩

def exJob : Job := ⟨exEnv, Blr.one, Blr.exPmts, exConf, exSampler, [1, 0], 1 / 2, 0, 3⟩

/-- Noise with a pulse, and without. -/
def exPulse : List ℚ := List.replicate 400 0 ++ [-4, -4, -4]

def exNone : List ℚ := List.replicate 403 0

def exEvent (n : Int) (lows : List (List ℚ)) : Event := ⟨n, [exNone, exNone], [[0, 1, 0], [0, 0, 2]], exDraws lows, ⟨[[0, 3 / 2, 0], [0, 0, 2]], [[0, 0, 0], [0, 0, 0]], none⟩⟩

example : (setup exJob.pmts (some "S2") exJob.conf).toOption.isSome = true := by decide +kernel

/-- The simulation gives the noise; the pulse is in both PMTs, in one, in none. -/
theorem ex_pulse : simulatePmts exEnv Blr.exPmts (exDraws [exPulse, exPulse]) [exNone, exNone] = .ok ([List.replicate 400 7 ++ [3, 3, 3], List.replicate 400 7 ++ [3, 3, 3]], [List.replicate 403 0, List.replicate 403 0]) := by decide +kernel

example : simulateSipms exSampler [1, 0] (1 / 2) 0 3 ⟨[[0, 3 / 2, 0], [0, 0, 2]], [[0, 0, 0], [0, 0, 0]], none⟩ [[0, 1, 0], [0, 0, 2]] = .ok [[0, 16, 0], [0, 0, 42]] := by decide +kernel

example : toInt16 (5 / 2) = 2 ∧ toInt16 (-7 / 2) = -4 ∧ toInt16 40000 = -25536 ∧ WfIO.convert 16 (-7 / 2) = -3 := by decide +kernel

example : Nearest (5 / 2) 2 := by unfold Nearest; decide +kernel

/-- The same job, with three pulses. -/
def exJob3 : Job := { exJob with conf := { exConf with minChannels := 3 } }

/-- The summary of an output: the decisions, the events written and their SiPMs. -/
def exSummary (x : Out × Except PyErr Unit) : List (Int × Bool) × List Int × List (List (List Int)) × Option PyErr := (x.1.triggers, x.1.numbers, x.1.sipmrwf, match x.2 with
  | .ok _ => none
  | .error e => some e)

/-- Without a trigger both events are written; with one that asks for two pulses only the first; if a PMT of an event is quiet (the second one has the pulse in only one PMT) the job ends there, the third event is lost. -/
theorem ex_runs : exSummary (diomira exJob none [exEvent 1 [exPulse, exPulse], exEvent 2 [exPulse, exNone]]) = ([(1, true), (2, true)], [1, 2], [[[0, 16, 0], [0, 0, 42]], [[0, 16, 0], [0, 0, 42]]], none) ∧
    exSummary (diomira exJob (some "S2") [exEvent 1 [exPulse, exPulse], exEvent 2 [exPulse, exNone], exEvent 3 [exPulse, exPulse]]) = ([(1, true)], [1], [[[0, 16, 0], [0, 0, 42]]], some .indexError) ∧
    exSummary (diomira exJob3 (some "S2") [exEvent 1 [exPulse, exPulse]]) = ([(1, false)], [], [], none) := by refine ⟨?_, ?_, ?_⟩ <;> decide +kernel

end Verif.DiomiraEvent
