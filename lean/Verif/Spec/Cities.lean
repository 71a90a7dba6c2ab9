import Verif.Spec.Dataflow
/-!
# What a run of a city leaves in its output

`table i row run` is the content of the table written by the sink `i`: one row per item that the sink received, in order, `row` being what the writer takes of the item.
-/
namespace Verif.Cities
open Verif.Dataflow

/-- The table of the writer `i`. -/
def table {α β : Type} (i : Nat) (row : α → Option β) (r : Run α) : List β := (received i r.trace).filterMap row

/-- The futures of the component `i`. -/
def futures {α : Type} (i : Nat) (r : Run α) : List (Res α) := results i r.trace

end Verif.Cities
