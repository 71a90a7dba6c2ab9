import Verif.Model.KrMap
/-!
# Vocabulary of the properties of krypton maps
-/
namespace Verif.KrMap

/-- A value is in the bin number `n` of a range divided in `bins` equal parts, closed on the left. -/
def InPart (range : ℚ × ℚ) (bins n : Nat) (v : ℚ) : Prop :=
  range.1 + n * ((range.2 - range.1) / bins) ≤ v ∧ v < range.1 + (n + 1) * ((range.2 - range.1) / bins)

instance (range : ℚ × ℚ) (bins n : Nat) (v : ℚ) : Decidable (InPart range bins n v) := by unfold InPart; infer_instance

/-- The centre of the bin. -/
def centre (range : ℚ × ℚ) (bins n : Nat) : ℚ := range.1 + (n + 1 / 2) * ((range.2 - range.1) / bins)

/-- The energies of the events of a bin, in their order: those in the bin and with the energy in its range. -/
def energies (c : Config) (evts : List Evt) (k i j : Nat) : List ℚ :=
  (evts.filter fun e => decide (InPart c.dt c.ndt k e.dt ∧ InPart c.xy c.nxy i e.x ∧ InPart c.xy c.nxy j e.y ∧ c.s2e.1 ≤ e.s2e ∧ e.s2e < c.s2e.2)).map Evt.s2e

/-- All the bins, in order. -/
def cells (nk ni nj : Nat) : List (Nat × Nat × Nat) :=
  (List.range nk).flatMap fun k => (List.range ni).flatMap fun i => (List.range nj).map fun j => (k, i, j)

/-- The value of a neighbour when a bin is visited: already regularized if it is before. -/
def seen (ni nj : Nat) (mu out : List (Option ℚ)) (k i j : Nat) (p : Nat × Nat) : Option ℚ :=
  if flat ni nj k p.1 p.2 < flat ni nj k i j then value ni nj out k p.1 p.2 else value ni nj mu k p.1 p.2

/-- The bin is not in the border of its slice. -/
def Inside (ni nj i j : Nat) : Prop := 1 ≤ i ∧ i + 1 < ni ∧ 1 ≤ j ∧ j + 1 < nj

end Verif.KrMap
