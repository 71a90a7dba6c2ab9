import Verif.Model.Beersheba
import Verif.Spec.Esmeralda
import Verif.Spec.Deconv
import Verif.Spec.DeconvSlice
/-!
# Vocabulary for the events of beersheba (property C124)
-/
namespace Verif.Beersheba
open Verif.Esmeralda (InHit)

/-- The correction can be applied: no temporal correction, a reference energy that is not 0, and bins with positive energy (or without energy). -/
structure MapOk (c : Cfg) : Prop where
  nearest : KrApply.Nearest c.pick
  noTemp : c.applyTemp = false
  norm : ∃ n, KrApply.normalization c.krmap c.method c.xy = .ok (some n) ∧ n ≠ 0
  bins : ∀ b ∈ c.krmap, ∀ mu, b.mu = some mu → 0 < mu
  keV : 0 < c.keV
  mev : 0 < c.mev

/-- `ec` is the corrected energy of the hit: divided by that of the nearest bin of the map, times 41.55 keV, in MeV. -/
def IsCorrected (c : Cfg) (h : InHit) (ec : ℚ) : Prop :=
  ∃ b mu, KrApply.IsNearestBin c.krmap ⟨h.z, h.x, h.y, h.e⟩ b mu ∧ ec = h.e / mu * (4155 / 100 * c.keV) / c.mev

/-- The position along the drift that is written. -/
def driftZ (c : Cfg) (h : InHit) : ℚ := if c.applyZ = true then h.z * Wfm.median c.dvs else h.z

/-- The columns of a hit of the input in the output, but the energies. -/
def inCols (c : Cfg) (h : InHit) : Nat × Nat × ℚ × ℚ × ℚ × ℚ := (h.info, h.npeak, h.x, h.y, driftZ c h, h.q)

/-- The columns of a hit of the output, but the energies. -/
def outCols (h : Hits.Hit) : Nat × Nat × ℚ × ℚ × ℚ × ℚ := (h.info, h.npeak, h.x, h.y, h.z, h.q)

/-- Every hit has some hit over the threshold to which its energy may go: in the same peak, if asked for. -/
def Receivers (c : Cfg) (hits : List InHit) : Prop := ∀ h ∈ hits, ∃ k ∈ hits, c.threshold ≤ k.q ∧ (c.samePeak = true → k.npeak = h.npeak)

/-- The energy, corrected or not. -/
def energyIn (column : Nat) (h : Hits.Hit) : ℚ := if column = 0 then h.e.getD 0 else h.ec.getD 0

/-- Two sensors of the same peak with charge over the cut, at different places but not farther than the diagonal. -/
def Partners (cut dx dy : ℚ) (a b : Hits.Hit) : Prop :=
  a.npeak = b.npeak ∧ cut < a.q ∧ cut < b.q ∧ (a.x ≠ b.x ∨ a.y ≠ b.y) ∧ (a.x - b.x) ^ 2 + (a.y - b.y) ^ 2 ≤ dx ^ 2 + dy ^ 2
instance (cut dx dy : ℚ) (a b : Hits.Hit) : Decidable (Partners cut dx dy a b) := by unfold Partners; infer_instance

end Verif.Beersheba
