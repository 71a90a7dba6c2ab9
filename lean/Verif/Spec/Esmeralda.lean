import Verif.Model.Esmeralda
import Verif.Spec.KrApply
import Verif.Spec.Hits
/-!
# Vocabulary for the events of esmeralda
-/
namespace Verif.Esmeralda

/-- The hit is inside the fiducial radius. -/
def Inside (c : Cfg) (h : InHit) : Prop := h.x ^ 2 + h.y ^ 2 < c.fiducialR ^ 2
instance (c : Cfg) (h : InHit) : Decidable (Inside c h) := by unfold Inside; infer_instance

/-- The hit is written: it is inside and its charge reaches the threshold. -/
def Survives (c : Cfg) (h : InHit) : Prop := Inside c h ∧ c.threshold ≤ h.q
instance (c : Cfg) (h : InHit) : Decidable (Survives c h) := by unfold Survives; infer_instance

/-- The position along the drift that is written. -/
def driftZ (c : Cfg) (h : InHit) : ℚ := if c.applyZ = true then h.z * Wfm.median c.dvs else h.z

/-- The correction can be applied: no temporal correction, a reference energy that is not 0, and bins with positive energy (or without energy). -/
structure MapOk (c : Cfg) : Prop where
  nearest : KrApply.Nearest c.pick
  noTemp : c.applyTemp = false
  norm : ∃ n, KrApply.normalization c.krmap c.method c.xy = .ok (some n) ∧ n ≠ 0
  bins : ∀ b ∈ c.krmap, ∀ mu, b.mu = some mu → 0 < mu
  keV : 0 < c.keV
  mev : 0 < c.mev

/-- `ec` is the corrected energy of the hit: divided by that of the nearest bin of the map, times 41.55 keV, in MeV. -/
def IsCorrected (c : Cfg) (h : InHit) (ec : ℚ) : Prop :=
  ∃ b mu, KrApply.IsNearestBin c.krmap ⟨h.z, h.x, h.y, h.e⟩ b mu ∧ ec = h.e / mu * (4155 / 100 * c.keV) / c.mev

/-- What identifies a hit: everything but its energies and the topology. -/
structure Ident where
  info : Nat
  npeak : Nat
  x : ℚ
  y : ℚ
  z : ℚ
  q : ℚ
deriving DecidableEq, Repr

/-- The identity of a hit of the input in the output; positions are rounded to 5 decimals by the topology. -/
def inIdent (c : Cfg) (rounded : Bool) (h : InHit) : Ident :=
  if rounded then ⟨h.info, h.npeak, Sampling.round5 h.x, Sampling.round5 h.y, Sampling.round5 (driftZ c h), h.q⟩
  else ⟨h.info, h.npeak, h.x, h.y, driftZ c h, h.q⟩

/-- The identity of a hit of the output. -/
def outIdent (r : OutRow) : Ident := ⟨r.info, r.npeak, r.x, r.y, r.z, r.q⟩

/-- Sum of numbers that may be missing. -/
def sumOf (xs : List (Option ℚ)) : ℚ := (xs.map fun x => x.getD 0).sum

/-- The order of the hits in the output: by Z, then X, then Y. -/
def Sorted (rows : List OutRow) : Prop := rows.Pairwise fun a b => a.z < b.z ∨ (a.z = b.z ∧ (a.x < b.x ∨ (a.x = b.x ∧ a.y ≤ b.y)))

/-- Every hit inside has some hit that survives to which its energy may go: in the same peak, if asked for. -/
def Receivers (c : Cfg) (hits : List InHit) : Prop :=
  ∀ h ∈ hits, Inside c h → ∃ k ∈ hits, Survives c k ∧ (c.samePeak = true → k.npeak = h.npeak)

end Verif.Esmeralda
