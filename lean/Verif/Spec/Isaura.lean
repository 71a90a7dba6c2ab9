import Verif.Model.Isaura
import Verif.Spec.Esmeralda
/-!
# Vocabulary for the events of isaura (property C123)
-/
namespace Verif.Isaura
open Verif.Esmeralda (Ident)

/-- The identity of a hit of the input in the output: its energy is also its charge; positions are rounded to 5 decimals by the topology. -/
def ident (rounded : Bool) (h : InHit) : Ident :=
  if rounded then ⟨h.info, h.npeak, Sampling.round5 h.x, Sampling.round5 h.y, Sampling.round5 h.z, h.e⟩ else ⟨h.info, h.npeak, h.x, h.y, h.z, h.e⟩

/-- The columns that a table needs to be read: those of the old format, or, if it has `Xpeak`, also those of a file that went through the topology. -/
def Readable (cols : List String) : Prop :=
  (∀ c ∈ ["event", "npeak", "X", "Y", "Z", "E"], c ∈ cols) ∧ ("Xpeak" ∈ cols → ∀ c ∈ ["time", "Ypeak", "Ec", "track_id", "Ep"], c ∈ cols)

end Verif.Isaura
