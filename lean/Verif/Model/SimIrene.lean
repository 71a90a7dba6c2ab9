import Verif.Model.SimChain
import Verif.Model.DiomiraChain
/-!
# Model of the way of the simulated buffers through diomira
-/
namespace Verif.SimIrene
open Verif.DiomiraEvent (Event PmtDraws SipmDraws)

/-- The events of diomira (diomira.py:137-153) for what it reads from the files of buffy or detsim, with their times; `draws` is what is drawn at random for each. -/
def diomiraEvents (draws : Sources.WfItem Mat Unit → PmtDraws × SipmDraws) (items : List (Sources.WfItem Mat Unit)) : List (Event × ℚ) :=
  items.map fun i => (⟨i.event, i.pmt.rows, i.sipm.rows, (draws i).1, (draws i).2⟩, i.timestamp)

end Verif.SimIrene
