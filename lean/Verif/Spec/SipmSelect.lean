import Verif.Spec.PmapBuild
/-!
# Vocabulary for the SiPM selections
-/
namespace Verif.SipmSelect
open Verif.Peaks Verif.PMaps Verif.PmapBuild

/-- The sample is over the threshold (never, if it is infinite). -/
def Over (t : Option ℚ) (x : ℚ) : Prop := ∃ v, t = some v ∧ v < x

instance (t : Option ℚ) (x : ℚ) : Decidable (Over t x) :=
  match t with
  | none => isFalse (by rintro ⟨v, h, _⟩; cases h)
  | some v => if h : v < x then isTrue ⟨v, rfl, h⟩ else isFalse (by rintro ⟨w, e, h'⟩; cases e; exact h h')

/-- The charge of the samples over the threshold. -/
def chargeOver (t : Option ℚ) (r : List ℚ) : ℚ := (r.filter fun x => decide (Over t x)).sum

/-- The waveform with the other samples set to zero. -/
def onlyOver (t : Option ℚ) (r : List ℚ) : List ℚ := r.map fun x => if Over t x then x else 0

/-- The SiPMs of an S2 selected with thresholds: exactly the active SiPMs of the table whose bins over their threshold `thr` add up to at least `minCharge`, in the order of the table and identified by
their position in it, with the other bins set to zero. -/
def ThresholdPart (c : Config) (thr : Nat → Option ℚ) (minCharge : ℚ) (sipms : List LoadDb.SipmRow) (rows : List (List Int)) (piece : List Nat) (peak : Peak) : Prop :=
  ∃ first last, piece.head? = some first ∧ piece.getLast? = some last ∧ peak.sipms.ids.Pairwise (· < ·) ∧ peak.sipms.wfs.rows.length = peak.sipms.ids.length ∧
    (∀ j, j ∈ peak.sipms.ids ↔ ∃ s r, sipms[j]? = some s ∧ rows[j]? = some r ∧ s.active ≠ 0 ∧
      minCharge ≤ chargeOver (thr j) (binsOf (first / c.ratio) (last / c.ratio + 1) (c.s2.rebin / c.ratio) (sipmWf s r))) ∧
    ∀ (k j : Nat) s r, peak.sipms.ids[k]? = some j → sipms[j]? = some s → rows[j]? = some r →
      peak.sipms.wfs.rows[k]? = some (onlyOver (thr j) (binsOf (first / c.ratio) (last / c.ratio + 1) (c.s2.rebin / c.ratio) (sipmWf s r)))

/-- The SiPMs of an S2 without selection: all the active ones, with all their bins. -/
def AllPart (c : Config) (sipms : List LoadDb.SipmRow) (rows : List (List Int)) (piece : List Nat) (peak : Peak) : Prop :=
  ∃ first last, piece.head? = some first ∧ piece.getLast? = some last ∧ peak.sipms.ids = (activeSipms sipms rows).map Prod.snd ∧
    peak.sipms.wfs.rows = (activeSipms sipms rows).map fun x => binsOf (first / c.ratio) (last / c.ratio + 1) (c.s2.rebin / c.ratio) (sipmWf x.1.1 x.1.2)

/-- `result` is the PMap of an event as C102 says, the SiPMs of the S2s being described by `part`. -/
def IsPmap (tan : ℚ → ℚ) (c : Config) (nb nMaw : Nat) (thrMaw : ℚ) (pmts : List LoadDb.PmtRow) (rwf : List (List ℚ)) (n : Nat) (part : List Nat → Peak → Prop)
    (result : Except PyErr (Option (List Peak × List Peak))) : Prop :=
  ∃ ys : List (List ℚ × List ℚ), List.Forall₂ (PmtWf tan nb) (activePmts pmts rwf) ys ∧
    ∃ s1 s2, s1 = samplesOver n (fun j => (ys.map fun y => if chargeIn y.1 (j + 1 - nMaw) (j + 1) / nMaw + thrMaw ≤ y.1.getD j 0 then y.2.getD j 0 else 0).sum) c.thr1 ∧
      s2 = samplesOver n (fun j => (ys.map fun y => y.2.getD j 0).sum) c.thr2 ∧
      (s1 = [] ∨ s2 = [] → result = .ok none) ∧
      (s1 ≠ [] → s2 ≠ [] → ∃ s1s s2s, result = .ok (some (s1s, s2s)) ∧
        Found c.s1 c.w s1 (fun piece peak => PmtPart ((activePmts pmts rwf).map fun x => x.1.sensor.toNat) (ys.map Prod.snd) c.w piece peak ∧ peak.sipms = Responses.empty) s1s ∧
        Found c.s2 c.w s2 (fun piece peak => PmtPart ((activePmts pmts rwf).map fun x => x.1.sensor.toNat) (ys.map Prod.snd) c.w piece peak ∧ part piece peak) s2s)

end Verif.SipmSelect
