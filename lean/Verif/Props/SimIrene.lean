import Verif.Spec.SimIrene
import Verif.Props.DiomiraChain
/-!
# C132: from the simulated buffers to irene, through diomira
-/
namespace Verif.SimIrene
open Verif.DiomiraEvent Verif.DiomiraEvent.Spec
open Verif.IreneRun (Irene Sound IsPmap ireneRun)
open Verif.SimChain (ItemOf DetsimItem)
open Verif.DiomiraChain (Fits passedItem diomira_read diomira_to_irene)

theorem raw_length {env : Env} {pmts : List LoadDb.PmtRow} {draws : PmtDraws} {rd : List (List ℚ)} {raw blr : List (List Int)} (h : simulatePmts env pmts draws rd = .ok (raw, blr)) {n : Nat}
    (hd : ∀ k < rd.length, (draws.each k).daq.length = n) (hl : ∀ k < rd.length, ∀ l, draws.low k = .ok l → l.length = n) : ∀ w ∈ raw, w.length = n := by
  intro w hw
  obtain ⟨h1, _, h3⟩ := pmts_spec h
  obtain ⟨k, hk⟩ := List.mem_iff_getElem?.1 hw
  have hlt : k < rd.length := h1 ▸ (List.getElem?_eq_some_iff.1 hk).1
  obtain ⟨p, l, x, a, b, _, g2, g3, g4, _, g6, _⟩ := h3 k rd[k] (List.getElem?_eq_getElem hlt)
  rw [hk] at g4
  cases g4
  rw [g6.1]
  unfold Fee.simulatePmt at g3
  cases hf : Fee.signalFee (env.elec k) (draws.each k).fee (env.decimate (Fee.spePulseFromVector env.spe (Detsim.chargeFluctuation rd[k] (draws.each k).charge (if p.adcToPes = 0 then 0 else p.sigma.getD 0 / |p.adcToPes|)) (|p.adcToPes| / env.unit))) with
  | error e => rw [hf] at g3; cases g3
  | ok fee =>
    rw [hf] at g3
    dsimp only at g3
    split at g3
    · cases g3
    · rename_i hne
      push Not at hne
      cases hp : Fee.signalLpf (env.elec k) (env.decimate (Fee.spePulseFromVector env.spe (Detsim.chargeFluctuation rd[k] (draws.each k).charge (if p.adcToPes = 0 then 0 else p.sigma.getD 0 / |p.adcToPes|)) (|p.adcToPes| / env.unit))) with
      | error e => rw [hp] at g3; cases g3
      | ok lpf =>
        rw [hp] at g3
        cases g3
        have e1 := hl k hlt l g2
        have e2 := hd k hlt
        simp only [List.length_zipWith]
        omega

theorem fits {j : Job} {c : Irene} {t : Option Trigger} {i : Sources.WfItem Mat Unit} {d : PmtDraws × SipmDraws} {r : Done} (hj : SameSipms j c) (hi : ItemSized c i) (hd : DrawsSized c.n i d)
    (h : Processed j t ⟨i.event, i.pmt.rows, i.sipm.rows, d.1, d.2⟩ r) : Fits c r := by
  obtain ⟨h1, _, h3⟩ := h
  refine ⟨?_, raw_length h1 hd.daq hd.low, ?_⟩
  · rw [(pmts_spec h1).1]
    exact hi.pmts
  · intro s hs
    obtain ⟨w, hw, hf⟩ := h3 s hs
    obtain ⟨_, l2, l3⟩ := sipms_spec hw (hj.gains.trans hi.sipms.symm) (hj.baselines.trans hi.sipms.symm) (hj.sigmas.trans hi.sipms.symm) hd.charge
    dsimp only at l2 l3
    refine ⟨by rw [← hf.length_eq, l2, hi.sipms], ?_⟩
    intro v hv
    obtain ⟨k, hk⟩ := List.mem_iff_getElem?.1 hv
    have hlt : k < w.length := hf.length_eq ▸ (List.getElem?_eq_some_iff.1 hk).1
    have hlr : k < i.sipm.rows.length := l2 ▸ hlt
    obtain ⟨_, o, _, _, q1, _, q3, _⟩ := l3 k i.sipm.rows[k] (List.getElem?_eq_getElem hlr)
    have hks := (List.getElem?_eq_some_iff.1 hk)
    have ht := List.forall₂_iff_get.1 hf |>.2 k hlt hks.1
    have e1 : s.get ⟨k, hks.1⟩ = v := hks.2
    have e2 : w.get ⟨k, hlt⟩ = o := by
      have := List.getElem?_eq_getElem hlt
      rw [q1] at this
      exact (Option.some.inj this).symm
    rw [e1, e2] at ht
    rw [ht.1, q3]
    exact hi.samples _ (List.getElem_mem _)

theorem processed_same {j : Job} {t : Option Trigger} {e : Event} {a b : Done} (ha : Processed j t e a) (hb : Processed j t e b) : a.raw = b.raw ∧ a.sipm.isSome = b.sipm.isSome := by
  have e1 := ha.1.symm.trans hb.1
  have hraw : a.raw = b.raw := (Prod.mk.inj (Except.ok.inj e1)).1
  have q1 := ha.2.1
  rw [hraw, hb.2.1] at q1
  exact ⟨hraw, (Except.ok.inj q1).symm⟩

/-- The events of diomira and their number are those of what it reads. -/
theorem events_numbers (draws : Sources.WfItem Mat Unit → PmtDraws × SipmDraws) (items : List (Sources.WfItem Mat Unit)) :
    (diomiraEvents draws items).map (fun e => e.1.number) = items.map fun i => i.event := by
  unfold diomiraEvents
  rw [List.map_map]
  rfl

/-- C132. Whatever diomira reads (events with different numbers and the sizes of irene), if it processes it to its end and some event passes the trigger, then irene gets, with different numbers, exactly the events that
pass, each with its own number, time and simulated waveforms; it processes them to the end, each has its row in the table of flags, and the PMaps are read by the next city with the number and time of the event. -/
theorem through_diomira {items : List (Sources.WfItem Mat Unit)} (hn : (items.map fun i => i.event).Nodup) {j : Job} {type : Option String} {draws : Sources.WfItem Mat Unit → PmtDraws × SipmDraws} {c : Irene}
    (hc : Sound c) (hj : SameSipms j c) (hi : ∀ i ∈ items, ItemSized c i) (hd : ∀ i ∈ items, DrawsSized c.n i (draws i)) {o : Out}
    (h : diomira j type ((diomiraEvents draws items).map Prod.fst) = (o, .ok ())) (hp : ∃ x ∈ o.triggers, x.2 = true) (run : Int) :
    ∃ rows pms out, DiomiraChain.nextSource run (diomiraEvents draws items) o = ⟨rows, none⟩ ∧ (rows.map fun i => i.event).Sublist (items.map fun i => i.event) ∧ (rows.map fun i => i.event).Nodup ∧
      (∀ i ∈ rows, ∃ it ∈ items, Passed j type draws run it i) ∧
      (∀ it ∈ items, ∀ t r, setup j.pmts type j.conf = .ok t → Processed j t ⟨it.event, it.pmt.rows, it.sipm.rows, (draws it).1, (draws it).2⟩ r → r.sipm ≠ none → ∃ i ∈ rows, Passed j type draws run it i) ∧
      List.Forall₂ (IsPmap c) (rows.map DiomiraChain.toRaw) pms ∧ ireneRun c run (rows.map DiomiraChain.toRaw) = .ok out ∧
      out.indices = (rows.zip pms).map (fun x => (x.1.event, x.2.isSome)) ∧
      Sources.pmapFromFiles [out.file] = ⟨(IreneRun.withPeaks (rows.map DiomiraChain.toRaw) pms).map (IreneRun.item run), none⟩ := by
  have hfit : ∀ t e r, setup j.pmts type j.conf = .ok t → e ∈ diomiraEvents draws items → Processed j t e.1 r → Fits c r := by
    intro t e r _ he hpr
    obtain ⟨i, hmem, rfl⟩ := List.mem_map.1 he
    exact fits hj (hi i hmem) (hd i hmem) hpr
  obtain ⟨pms, out, k1, k2, k3, k4, k5⟩ := diomira_to_irene h run (by rw [events_numbers]; exact hn) hc hp hfit
  obtain ⟨t, rs, h1, h2, h3, h4⟩ := diomira_read h run
  have hsome : ∃ r ∈ rs, r.sipm ≠ none := by
    by_contra hno
    push Not at hno
    rw [h4 hno] at k1
    cases k1
  have hsrc := h3 hsome
  refine ⟨((diomiraEvents draws items).zip rs).filterMap (passedItem run), pms, out, hsrc, ?_⟩
  rw [hsrc] at k2 k3 k4 k5
  have hsub := DiomiraChain.passed_numbers run (diomiraEvents draws items) rs
  rw [events_numbers] at hsub
  have hevs : ∀ x ∈ (diomiraEvents draws items).zip rs, Processed j t x.1.1 x.2 := by
    intro x hx
    obtain ⟨k, hk⟩ := List.mem_iff_getElem?.1 hx
    rw [List.getElem?_zip_eq_some] at hk
    have hk1 := List.getElem?_eq_some_iff.1 hk.1
    have hk2 := List.getElem?_eq_some_iff.1 hk.2
    have hpp := List.forall₂_iff_get.1 h2 |>.2 k hk1.1 hk2.1
    have a1 : (diomiraEvents draws items).get ⟨k, hk1.1⟩ = x.1 := hk1.2
    have a2 : rs.get ⟨k, hk2.1⟩ = x.2 := hk2.2
    rwa [a1, a2] at hpp
  have hpass : ∀ x ∈ (diomiraEvents draws items).zip rs, ∀ it ∈ items, x.1 = (⟨it.event, it.pmt.rows, it.sipm.rows, (draws it).1, (draws it).2⟩, it.timestamp) → ∀ i, passedItem run x = some i →
      Passed j type draws run it i := by
    intro x hx it _ hit i hxi
    have hpr := hevs x hx
    unfold passedItem at hxi
    cases hs : x.2.sipm with
    | none => rw [hs] at hxi; cases hxi
    | some s =>
      rw [hs] at hxi
      cases hxi
      rw [hit] at hpr
      refine ⟨?_, ?_, rfl, t, x.2, h1, hpr, rfl, hs⟩
      · dsimp only; rw [hit]
      · dsimp only; rw [hit]
  refine ⟨hsub, hsub.nodup hn, ?_, ?_, k2, k3, k4, k5⟩
  · intro i hmem
    obtain ⟨x, hx, hxi⟩ := List.mem_filterMap.1 hmem
    obtain ⟨it, hit, he⟩ := List.mem_map.1 (List.of_mem_zip hx).1
    exact ⟨it, hit, hpass x hx it hit he.symm i hxi⟩
  · intro it hit t' r ht hr hns
    rw [h1] at ht
    cases ht
    have hmem : ((⟨it.event, it.pmt.rows, it.sipm.rows, (draws it).1, (draws it).2⟩ : Event), it.timestamp) ∈ diomiraEvents draws items := List.mem_map.2 ⟨it, hit, rfl⟩
    obtain ⟨k, hk⟩ := List.mem_iff_getElem?.1 hmem
    have hlt : k < rs.length := h2.length_eq ▸ (List.getElem?_eq_some_iff.1 hk).1
    have hx : ((⟨it.event, it.pmt.rows, it.sipm.rows, (draws it).1, (draws it).2⟩, it.timestamp), rs[k]) ∈ (diomiraEvents draws items).zip rs :=
      List.mem_of_getElem? (i := k) (List.getElem?_zip_eq_some.2 ⟨hk, List.getElem?_eq_getElem hlt⟩)
    have hpr := hevs _ hx
    obtain ⟨_, hs⟩ := processed_same hpr hr
    cases hss : rs[k].sipm with
    | none =>
      rw [hss] at hs
      cases hrr : r.sipm with
      | none => exact absurd hrr hns
      | some s => rw [hrr] at hs; cases hs
    | some s =>
      have hpi : passedItem run ((⟨it.event, it.pmt.rows, it.sipm.rows, (draws it).1, (draws it).2⟩, it.timestamp), rs[k]) = some ⟨rs[k].raw, s, run, it.event, it.timestamp, none, none⟩ := by
        unfold passedItem
        dsimp only
        rw [hss]
        rfl
      exact ⟨_, List.mem_filterMap.2 ⟨_, hx, hpi⟩, hpass _ hx it hit rfl _ hpi⟩

/-- The sensors and samples of a file of buffy. -/
theorem sized_of_holds {rows rows' : List Buffers.Resp} {db db' : List Nat} {w w' last last' : ℚ} {s s' : Int} {len len' : Nat} {c : Irene} {i : Sources.WfItem Mat Unit}
    (h : SimChain.Holds rows db w last s len i.pmt) (h' : SimChain.Holds rows' db' w' last' s' len' i.sipm) (h1 : db.length = c.pmts.length) (h2 : db'.length = c.sipms.length) (h3 : len' = c.nSipm) : ItemSized c i :=
  ⟨h.2.1.trans h1, h'.2.1.trans h2, fun r hr => (SimChain.holds_rows h' r hr).trans h3⟩

/-- C132. From buffy to irene: the simulated events with response are read by diomira as their triggers (C129) and, if diomira ends and some of them passes its trigger, irene gets exactly those that pass: each is one
trigger of one simulated event, all with different numbers, and it processes them to the end. -/
theorem buffy_to_irene {p : BuffyEvent.Pars} {m : Nat} (hp : p.Good m) (k : Nat) (hk : p.maxTime = k * p.pmtW) (hlen : p.bufferLen ≤ p.maxTime) (run : Nat) (evs : List BuffyEvent.Event)
    (hseen : ∀ ev ∈ evs, BuffyEvent.Seen p ev ∨ ev.pmt = [] ∨ ev.sipm = []) (hnum : (evs.map BuffyEvent.Event.number).Nodup)
    (htrg : ∃ ev ∈ evs, BuffyEvent.Seen p ev ∧ ∃ n, BuffyEvent.Trigger p ev n) {j : Job} {type : Option String} {draws : Sources.WfItem Mat Unit → PmtDraws × SipmDraws} {c : Irene} (hc : Sound c) (hj : SameSipms j c)
    (hpmts : p.pmtDb.length = c.pmts.length) (hsipms : p.sipmDb.length = c.sipms.length) (hsamples : ⌊p.bufferLen / p.sipmW⌋.toNat = c.nSipm) :
    ∃ t, BuffyEvent.run p run evs = .ok t ∧ (SimChain.nextSource [t]).exc = none ∧ ∀ o, (∀ i ∈ (SimChain.nextSource [t]).items, DrawsSized c.n i (draws i)) →
      diomira j type ((diomiraEvents draws (SimChain.nextSource [t]).items).map Prod.fst) = (o, .ok ()) → (∃ x ∈ o.triggers, x.2 = true) →
      ∃ rows pms out, DiomiraChain.nextSource run (diomiraEvents draws (SimChain.nextSource [t]).items) o = ⟨rows, none⟩ ∧ (rows.map fun i => i.event).Nodup ∧
        (∀ i ∈ rows, ∃ ev ∈ evs, BuffyEvent.Seen p ev ∧ ∃ q n it, ItemOf p m run ev q n it ∧ Passed j type draws run it i) ∧
        (∀ ev ∈ evs, BuffyEvent.Seen p ev → ∀ ns : List Int, ns.Pairwise (· < ·) → (∀ n, n ∈ ns ↔ BuffyEvent.Trigger p ev n) → ∀ (q : Nat) n, ns[q]? = some n → ∃ it, ItemOf p m run ev q n it ∧
          ∀ tr r, setup j.pmts type j.conf = .ok tr → Processed j tr ⟨it.event, it.pmt.rows, it.sipm.rows, (draws it).1, (draws it).2⟩ r → r.sipm ≠ none → ∃ i ∈ rows, Passed j type draws run it i) ∧
        List.Forall₂ (IsPmap c) (rows.map DiomiraChain.toRaw) pms ∧ ireneRun c run (rows.map DiomiraChain.toRaw) = .ok out ∧
        out.indices = (rows.zip pms).map (fun x => (x.1.event, x.2.isSome)) ∧
        Sources.pmapFromFiles [out.file] = ⟨(IreneRun.withPeaks (rows.map DiomiraChain.toRaw) pms).map (IreneRun.item run), none⟩ := by
  obtain ⟨t, ht, h1, _⟩ := SimChain.buffy_read hp k hk hlen run evs hseen hnum
  obtain ⟨he, ⟨hd, _⟩, hi, ha⟩ := h1 htrg
  refine ⟨t, ht, he, fun o hdr ho hpass => ?_⟩
  have hsz : ∀ i ∈ (SimChain.nextSource [t]).items, ItemSized c i := by
    intro i hmem
    obtain ⟨ev, _, _, q, n, h⟩ := hi i hmem
    exact sized_of_holds h.pmt h.sipm hpmts hsipms hsamples
  obtain ⟨rows, pms, out, r1, _, r3, r4, r5, r6⟩ := through_diomira hd hc hj hsz hdr ho hpass run
  refine ⟨rows, pms, out, r1, r3, ?_, ?_, r6⟩
  · intro i hmem
    obtain ⟨it, hit, hps⟩ := r4 i hmem
    obtain ⟨ev, hev, hs, q, n, h⟩ := hi it hit
    exact ⟨ev, hev, hs, q, n, it, h, hps⟩
  · intro ev hev hs ns n1 n2 q n hq
    obtain ⟨it, hit, h⟩ := ha ev hev hs ns n1 n2 q n hq
    exact ⟨it, h, fun tr r a b c => r5 it hit tr r a b c⟩

/-- The sensors and samples of a file of detsim. -/
theorem detsim_sizes {p : DetsimEvent.Pars} {m k run : Nat} {T : List (ℚ × ℚ × ℚ) → List (List ℚ)} {d : DetsimEvent.Draws} {ev : DetsimEvent.Event} {pmt sipm : List (List ℚ)} {q n : Nat} {i : Sources.WfItem Mat Unit}
    (h : DetsimEvent.IsEvent p m k T d ev pmt sipm) (hi : DetsimItem p m run ev pmt sipm q n i) :
    (i.pmt.rows.length = p.npmt ∧ ∀ r ∈ i.pmt.rows, r.length = ⌊p.bufferLen / p.pmtW⌋.toNat) ∧ i.pmt.ncols = ⌊p.bufferLen / p.pmtW⌋.toNat ∧
    (i.sipm.rows.length = p.ltSipm.nsens ∧ ∀ r ∈ i.sipm.rows, r.length = ⌊p.bufferLen / p.sipmW⌋.toNat) := by
  obtain ⟨_, _, _, _, _, _, _, _, _, _, _, _, _, _, hsim⟩ := h
  obtain ⟨b, hb, s1, s2⟩ := hi.waveforms
  have key : ∀ {rows : List (List ℚ)} {start : Int} {len : Nat} {a a' : Mat}, Buffers.IsWindow rows start len a → SimChain.Stored a a' → a'.rows.length = rows.length ∧ ∀ r ∈ a'.rows, r.length = len := by
    intro rows start len a a' hw hs
    refine ⟨hs.2.length_eq.symm.trans hw.2.1, fun r hr => ?_⟩
    obtain ⟨x, hx⟩ := List.mem_iff_getElem?.1 hr
    have hlt : x < a.rows.length := hs.2.length_eq ▸ (List.getElem?_eq_some_iff.1 hx).1
    have hlr : x < rows.length := hw.2.1 ▸ hlt
    obtain ⟨out, o1, o2, _⟩ := hw.2.2 x rows[x] (List.getElem?_eq_getElem hlr)
    have hxs := List.getElem?_eq_some_iff.1 hx
    have hf := List.forall₂_iff_get.1 hs.2 |>.2 x hlt hxs.1
    have e1 : a'.rows.get ⟨x, hxs.1⟩ = r := hxs.2
    have e2 : a.rows.get ⟨x, hlt⟩ = out := by
      have := List.getElem?_eq_getElem hlt
      rw [o1] at this
      exact (Option.some.inj this).symm
    rw [e1, e2] at hf
    exact hf.length_eq.symm.trans o2
  obtain ⟨a1, a2⟩ := key hb.pmt s1
  obtain ⟨a3, a4⟩ := key hb.sipm s2
  exact ⟨⟨a1.trans hsim.pmt.1, a2⟩, s1.1.trans hb.pmt.1, a3.trans hsim.sipm.1, a4⟩

/-- C132. The same from detsim to irene. -/
theorem detsim_to_irene {p : DetsimEvent.Pars} {m k : Nat} {T : List (ℚ × ℚ × ℚ) → List (List ℚ)} (hp : p.Good m k T) (hlen : p.bufferLen ≤ p.maxTime) (run : Nat)
    (evs : List (DetsimEvent.Event × DetsimEvent.Draws)) (hv : ∀ x ∈ evs, DetsimEvent.Valid p x.2 x.1) (hnum : (evs.map (·.1.number)).Nodup)
    {j : Job} {type : Option String} {draws : Sources.WfItem Mat Unit → PmtDraws × SipmDraws} {c : Irene} (hc : Sound c) (hj : SameSipms j c)
    (hpmts : p.npmt = c.pmts.length) (hsipms : p.ltSipm.nsens = c.sipms.length) (hsamples : ⌊p.bufferLen / p.sipmW⌋.toNat = c.nSipm) :
    ∃ t, DetsimEvent.run p run evs = .ok t ∧ ∀ o, (∀ i ∈ (SimChain.nextSource [t]).items, DrawsSized c.n i (draws i)) →
      diomira j type ((diomiraEvents draws (SimChain.nextSource [t]).items).map Prod.fst) = (o, .ok ()) → (∃ x ∈ o.triggers, x.2 = true) →
      ∃ rows pms out, DiomiraChain.nextSource run (diomiraEvents draws (SimChain.nextSource [t]).items) o = ⟨rows, none⟩ ∧ (rows.map fun i => i.event).Nodup ∧
        (∀ i ∈ rows, ∃ x ∈ evs, ∃ pmt sipm q n it, DetsimEvent.IsEvent p m k T x.2 x.1 pmt sipm ∧ DetsimItem p m run x.1 pmt sipm q n it ∧ Passed j type draws run it i) ∧
        (∀ it ∈ (SimChain.nextSource [t]).items, ∀ tr r, setup j.pmts type j.conf = .ok tr → Processed j tr ⟨it.event, it.pmt.rows, it.sipm.rows, (draws it).1, (draws it).2⟩ r → r.sipm ≠ none → ∃ i ∈ rows, Passed j type draws run it i) ∧
        List.Forall₂ (IsPmap c) (rows.map DiomiraChain.toRaw) pms ∧ ireneRun c run (rows.map DiomiraChain.toRaw) = .ok out ∧
        out.indices = (rows.zip pms).map (fun x => (x.1.event, x.2.isSome)) ∧
        Sources.pmapFromFiles [out.file] = ⟨(IreneRun.withPeaks (rows.map DiomiraChain.toRaw) pms).map (IreneRun.item run), none⟩ := by
  obtain ⟨t, ht, _, _, ⟨hd, _⟩, hi, _⟩ := SimChain.detsim_read hp hlen run evs hv hnum
  refine ⟨t, ht, fun o hdr ho hpass => ?_⟩
  have hsz : ∀ i ∈ (SimChain.nextSource [t]).items, ItemSized c i := by
    intro i hmem
    obtain ⟨x, _, pmt, sipm, q, n, h1, h2⟩ := hi i hmem
    obtain ⟨⟨a1, _⟩, _, a3, a4⟩ := detsim_sizes h1 h2
    exact ⟨a1.trans hpmts, a3.trans hsipms, fun r hr => (a4 r hr).trans hsamples⟩
  obtain ⟨rows, pms, out, r1, _, r3, r4, r5, r6⟩ := through_diomira hd hc hj hsz hdr ho hpass run
  refine ⟨rows, pms, out, r1, r3, ?_, r5, r6⟩
  intro i hmem
  obtain ⟨it, hit, hps⟩ := r4 i hmem
  obtain ⟨x, hx, pmt, sipm, q, n, h1, h2⟩ := hi it hit
  exact ⟨x, hx, pmt, sipm, q, n, it, h1, h2, hps⟩

/-- C129. hypathia processes the file of detsim to its end: each trigger has its row in the table of flags, and the PMaps found are read by the next city with the number and time of their trigger. -/
theorem detsim_to_hypathia {p : DetsimEvent.Pars} {m k : Nat} {T : List (ℚ × ℚ × ℚ) → List (List ℚ)} (hp : p.Good m k T) (hlen : p.bufferLen ≤ p.maxTime) (run : Nat)
    (evs : List (DetsimEvent.Event × DetsimEvent.Draws)) (hv : ∀ x ∈ evs, DetsimEvent.Valid p x.2 x.1) (hnum : (evs.map (·.1.number)).Nodup)
    {c : IreneRun.Hypathia} (hc : IreneRun.SoundHypathia c ⌊p.bufferLen / p.pmtW⌋.toNat) (hpmts : c.pmts.length = p.npmt)
    (hsim : SimChain.SimulatesSipms c p.ltSipm.nsens ⌊p.bufferLen / p.sipmW⌋.toNat) :
    ∃ t pms out, DetsimEvent.run p run evs = .ok t ∧
      (∀ i ∈ (SimChain.nextSource [t]).items, ∃ x ∈ evs, ∃ pmt sipm q n, DetsimEvent.IsEvent p m k T x.2 x.1 pmt sipm ∧ DetsimItem p m run x.1 pmt sipm q n i) ∧
      IreneRun.hypathiaRun c run ((SimChain.nextSource [t]).items.map SimChain.toRaw) = .ok out ∧
      List.Forall₂ (fun (i : Sources.WfItem Mat Unit) pm => PmapBuild.hypathiaEvent c.conf c.fluct c.simSipm c.stride c.pmts c.sipms i.pmt i.sipm.rows c.nSipm = .ok pm) (SimChain.nextSource [t]).items pms ∧
      out.indices = ((SimChain.nextSource [t]).items.zip pms).map (fun x => (x.1.event, x.2.isSome)) ∧
      Sources.pmapFromFiles [out.file] = ⟨(IreneRun.withPeaks ((SimChain.nextSource [t]).items.map SimChain.toRaw) pms).map (IreneRun.item run), none⟩ := by
  obtain ⟨t, ht, _, _, ⟨hd, _⟩, hi, _⟩ := SimChain.detsim_read hp hlen run evs hv hnum
  obtain ⟨pms, out, o1, o2, o3, _, o5⟩ := IreneRun.hypathia_run hc (raws := (SimChain.nextSource [t]).items.map SimChain.toRaw) (by
    intro r hr
    obtain ⟨i, hmem, rfl⟩ := List.mem_map.1 hr
    obtain ⟨x, _, pmt, sipm, q, n, h1, h2⟩ := hi i hmem
    obtain ⟨⟨a1, a2⟩, a3, a4, a5⟩ := detsim_sizes h1 h2
    refine ⟨?_, ?_, a3, ?_⟩
    · rw [hpmts]; exact a1
    · intro row hrow
      rw [a2 row hrow]
      exact a3.symm
    · exact hsim _ a4 a5) (by
    rw [List.map_map]; exact hd) run
  refine ⟨t, pms, out, ht, hi, o2, ?_, ?_, o5⟩
  · rw [List.forall₂_map_left_iff] at o1
    exact o1
  · rw [o3, List.zip_map_left, List.map_map]
    rfl

/-! ### A case: the event with two triggers of `BuffyEvent`, whose pulses diomira sees -/

/-- The electronics of the example, with 403 samples. -/
def exEnv : Env := ⟨[1, 1], fun w => (w ++ List.replicate 403 0).take 403, 2, 7, 1, fun _ => Fee.exE⟩

def exJob : Job := ⟨exEnv, Blr.one, Blr.exPmts, exConf, ⟨[[1], [1], [1]], [0], [1, 2, 3], [1, 1, 1], [10, 20, 30]⟩, [1, 0, 0], 1 / 2, 0, 4⟩

def exDrawn (_ : Sources.WfItem Mat Unit) : PmtDraws × SipmDraws := (exDraws [exPulse, exPulse], ⟨[[0, 0, 0, 0], [0, 3, 0, 0], [0, 0, 0, 0]], [[0, 0, 0, 0], [0, 0, 0, 0], [0, 0, 0, 0]], none⟩)

/-- irene with three SiPMs of four samples. -/
def exIrene : Irene := ⟨fun x => x, ⟨⟨⟨0, 395⟩, ⟨1, 10⟩, 4, 1⟩, ⟨⟨0, 395⟩, ⟨1, 200⟩, 4, 150⟩, 1, 150, (Peaks.selectWfsAboveTimeIntegratedThr · 1), 5, 5⟩, 100, 10, 1, PmapBuild.exPmts,
  [PmapBuild.exSipmRow 1000 1, PmapBuild.exSipmRow 1001 1, PmapBuild.exSipmRow 1002 1], 403, 4⟩

theorem ex_sound : Sound exIrene where
  flags := by
    refine ⟨IreneRun.case_sound.flags.1, ?_⟩
    intro p hp
    simp only [exIrene, List.mem_cons, List.not_mem_nil, or_false] at hp
    rcases hp with rfl | rfl | rfl <;> decide
  ids := ⟨IreneRun.case_sound.ids.1, by decide, by decide⟩
  conf := ⟨by decide, by decide, by decide, by decide, by decide⟩
  selection := Peaks.selectWfs_isSelection 1 _
  rows := fun m hm _ idx m' h => IreneRun.integrated_rows hm h
  samples := by decide
  maw := by decide
  coeffs := IreneRun.case_sound.coeffs
  few1 := by decide
  few2 := by decide

example : SameSipms exJob exIrene := ⟨rfl, rfl, rfl⟩
example : BuffyEvent.exPars.pmtDb.length = exIrene.pmts.length ∧ BuffyEvent.exPars.sipmDb.length = exIrene.sipms.length ∧ ⌊BuffyEvent.exPars.bufferLen / BuffyEvent.exPars.sipmW⌋.toNat = exIrene.nSipm := by decide +kernel
example : ∃ n, BuffyEvent.Trigger BuffyEvent.exPars BuffyEvent.exEv n := by
  by_contra hno
  push Not at hno
  obtain ⟨t, ht, _, h⟩ := SimChain.buffy_read BuffyEvent.exPars_good 16 (by norm_num [BuffyEvent.exPars]) (by norm_num [BuffyEvent.exPars]) 3 [BuffyEvent.exEv] (by simp [BuffyEvent.exEv_seen]) (by simp)
  have := h (by simpa using fun _ n => hno n)
  have he : (BuffyEvent.run BuffyEvent.exPars 3 [BuffyEvent.exEv]).toOption.map (fun t => (SimChain.nextSource [t]).exc) = some none := by decide +kernel
  rw [ht] at he
  simp only [Except.toOption, Option.map_some] at he
  rw [this] at he
  cases he

theorem ex_items : ∀ i ∈ (SimChain.nextSource [SimChain.exTables]).items, i.pmt.rows.length = 2 ∧ i.sipm.rows.map List.length = [4, 4, 4] := by decide +kernel

example : ∀ i ∈ (SimChain.nextSource [SimChain.exTables]).items, DrawsSized exIrene.n i (exDrawn i) ∧ ItemSized exIrene i := by
  intro i hi
  obtain ⟨h1, h2⟩ := ex_items i hi
  have h3 : i.sipm.rows.length = 3 := by simpa using congrArg List.length h2
  have h4 : ∀ r ∈ i.sipm.rows, r.length = 4 := fun r hr => by
    have : r.length ∈ i.sipm.rows.map List.length := List.mem_map_of_mem hr
    rw [h2] at this
    simpa using this
  refine ⟨⟨fun k _ => List.length_replicate, fun k hk l hl => ?_, ?_⟩, h1, h3, h4⟩
  · rw [h1] at hk
    cases hl
    interval_cases k <;> decide +kernel
  · rw [List.forall₂_iff_get]
    refine ⟨h3, fun k hk hk' => ?_⟩
    have : k < 3 := h3 ▸ hk
    rw [h4 _ (List.get_mem _ _)]
    interval_cases k <;> rfl

/-- Both triggers pass, and irene gets them. -/
theorem ex_run : exSummary (diomira exJob none ((diomiraEvents exDrawn (SimChain.nextSource [SimChain.exTables]).items).map Prod.fst)) =
    ([(14, true), (15, true)], [14, 15], [[[0, 0, 0, 0], [0, 62, 0, 0], [0, 0, 0, 0]], [[0, 0, 0, 0], [0, 0, 0, 0], [0, 63, 0, 0]]], none) := by decide +kernel

end Verif.SimIrene
