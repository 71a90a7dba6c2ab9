import Verif.Model.SignalNoise
import Verif.Spec.HitBuilder
import Verif.Spec.Sampling
import Verif.Props.PMaps
/-!
# Vocabulary for the signal to noise of the SiPMs (property C128)
-/
namespace Verif.SignalNoise
open Verif.PMaps (Peak)
open Verif.Sampling (Sampler DarkModel darkExpectation)

/-- `v` is `q / sqrt(q + d)`, with the dark level `d` (`none`: infinite), in floating point arithmetic. -/
def IsRatio (sqrt : ℚ → ℚ) (q : ℚ) (d : Option ℚ) : Val → Prop
  | .num v => (d = none ∧ v = 0) ∨ ∃ d', d = some d' ∧ 0 < q + d' ∧ v = q / sqrt (q + d')
  | .inf pos => ∃ d', d = some d' ∧ q + d' = 0 ∧ q ≠ 0 ∧ (pos = true ↔ 0 < q)
  | .nan => ∃ d', d = some d' ∧ (q + d' < 0 ∨ q = 0 ∧ d' = 0)

/-- The root is positive for positive numbers. -/
def PositiveRoot (sqrt : ℚ → ℚ) : Prop := ∀ x, 0 < x → 0 < sqrt x

/-- The root of this number is exact. -/
def ExactAt (sqrt : ℚ → ℚ) (x : ℚ) : Prop := 0 ≤ sqrt x ∧ sqrt x * sqrt x = x

/-- `r` is the integer nearest to `w`, the even one if there are two. -/
def Nearest (w : ℚ) (r : Int) : Prop := |w - r| ≤ 1 / 2 ∧ (|w - r| = 1 / 2 → r % 2 = 0)

/-- The dark levels of all the sensors for `n` samples. -/
def DarkLevels (s : Sampler) (n : Int) (dark : List (Option ℚ)) : Prop := 1 ≤ n ∧ darkExpectation s (n - 1).toNat .threshold = .ok dark

/-- Everything of the peak can be used: bins of more than half a ns, a positive width of the peak, SiPMs of the database with a positive (or infinite) dark level for each width, and charges that are not negative. -/
structure Usable (s : Sampler) (p : Peak) : Prop where
  valid : PMaps.ValidPeak p
  sipms : p.sipms.ids ≠ []
  bins : ∀ w ∈ p.widths, 1 / 2 < w
  whole : 1 / 2 < p.width
  charges : ∀ r ∈ p.sipms.wfs.rows, ∀ q ∈ r, 0 ≤ q
  levels : ∀ w, (w ∈ p.widths ∨ w = p.width) → ∃ dark, DarkLevels s (sampleWidth w) dark ∧ ∀ i ∈ p.sipms.ids, ∃ d, dark[i]? = some d ∧ ∀ d', d = some d' → 0 < d'

/-- A hit with a charge: that of one SiPM in one slice of a selected S2 (rebinned), at the position of the SiPM, with its signal to noise as charge, of at least the threshold. -/
def SnHit (sqrt : ℚ → ℚ) (s : Sampler) (b : HitBuilder.Builder) (tRef : ℚ) (selected : List (Peak × Nat)) (r : HitBuilder.Row) : Prop :=
  ∃ x ∈ selected, ∃ p, Peaks.rebinPeak x.1 b.rebin = .ok p ∧ r.npeak = x.2 ∧
    ∃ (j k i : Nat) (t w q : ℚ) (row : List ℚ) (dark : List (Option ℚ)) (d : Option ℚ),
      p.times[j]? = some t ∧ p.widths[j]? = some w ∧ p.sipms.ids[k]? = some i ∧ p.sipms.wfs.rows[k]? = some row ∧ row[j]? = some q ∧
      DarkLevels s (sampleWidth w) dark ∧ dark[i]? = some d ∧ IsRatio sqrt q d (.num r.q) ∧ b.qThr ≤ r.q ∧ b.xys[i]? = some (r.x, r.y) ∧ r.z = (t - tRef) * b.driftV

/-- The position of a peak: the first one that the reconstruction `reco` finds for the positions of its SiPMs (in `xys`, by number) and their signal to noise in the whole peak, or the mark of no position if it fails. -/
def SnPosition (sqrt : ℚ → ℚ) (s : Sampler) (xys : List (ℚ × ℚ)) (reco : List (ℚ × ℚ) → List ℚ → Except PyErr (List (ℚ × ℚ))) (p : Peak) (pos : ℚ × ℚ) : Prop :=
  ∃ (dark : List (Option ℚ)) (qs : List ℚ) (cs : List (ℚ × ℚ)), DarkLevels s (sampleWidth p.width) dark ∧ qs.length = p.sipms.ids.length ∧ cs.length = p.sipms.ids.length ∧
    (∀ (k i : Nat) (row : List ℚ) (q : ℚ), p.sipms.ids[k]? = some i → p.sipms.wfs.rows[k]? = some row → qs[k]? = some q → ∃ d, dark[i]? = some d ∧ IsRatio sqrt row.sum d (.num q)) ∧
    (∀ (k i : Nat), p.sipms.ids[k]? = some i → cs[k]? = xys[i]?) ∧
    ((∃ rest, reco cs qs = .ok (pos :: rest)) ∨ ∃ e, reco cs qs = .error e ∧ KrEvent.RecoFailure e ∧ pos = (-999999, -999999))

end Verif.SignalNoise
