import Verif.Model.Dataflow
/-!
# Vocabulary for the dataflow properties

Only lists, traces and the identities of the components: nothing about generator states.
-/
namespace Verif.Dataflow

/-- Component which an event is about. -/
def Ev.id {α : Type} : Ev α → Nat
  | .recv i _ => i
  | .result i _ => i
  | .closed i => i

/-- Items handed to component `i`, in order. -/
def received {α : Type} (i : Nat) (tr : List (Ev α)) : List α :=
  tr.filterMap fun
    | .recv j x => if j = i then some x else none
    | _ => none

/-- Values to which the future of component `i` was set, in order (a future must be set once). -/
def results {α : Type} (i : Nat) (tr : List (Ev α)) : List (Res α) :=
  tr.filterMap fun
    | .result j v => if j = i then some v else none
    | _ => none

/-- Number of times component `i` was closed. -/
def timesClosed {α : Type} (i : Nat) (tr : List (Ev α)) : Nat :=
  (tr.filter fun | .closed j => j == i | _ => false).length

mutual
/-- Identities of the components of a network. -/
def Net.ids {α : Type} : Net α → List Nat
  | .sink i _ => [i]
  | .reduce i _ _ => [i]
  | .count i => [i]
  | .map i _ t => i :: t.ids
  | .mapIn i _ t => i :: t.ids
  | .flatmap i _ t => i :: t.ids
  | .flatmapIn i _ t => i :: t.ids
  | .filter i _ t => i :: t.ids
  | .countFilter i _ t => i :: t.ids
  | .spy i _ t => i :: t.ids
  | .branch i s d => i :: (s.ids ++ d.ids)
  | .fork i ts => i :: ts.ids
  | .slice i _ _ _ _ t => i :: t.ids
/-- Identities of the components of all targets of a fork. -/
def Nets.ids {α : Type} : Nets α → List Nat
  | .nil => []
  | .cons t ts => t.ids ++ ts.ids
end

/-- Python's `xs[start:stop:step]` for `0 ≤ start`, `0 ≤ stop` (or None), `step ≥ 1`: the elements at
the indices `start, start + step, start + 2 step, ...` below `stop`. -/
def pySlice {α : Type} (start : Nat) (stop : Option Nat) (step : Nat) (xs : List α) : List α :=
  (xs.zipIdx.filter fun p =>
    decide (start ≤ p.2) && decide ((p.2 - start) % step = 0) && stop.all (fun b => decide (p.2 < b))).map Prod.fst

/-- Left fold of an update that may raise; a raising update leaves the accumulator as it was, and is
the last one applied. -/
def foldUpd {α : Type} (upd : α → α → Except Exc α) : α → List α → α
  | a, [] => a
  | a, x :: xs => match upd a x with
    | .ok a' => foldUpd upd a' xs
    | .error _ => a

/-- Outcome of a run with one more component closed at the very end. -/
def Run.andClosed {α : Type} (r : Run α) (i : Nat) : Run α :=
  { r with trace := r.trace ++ [.closed i] }

mutual
/-- The network has no `args/out` component that writes into the item it receives (writers behind a
plain `map`/`flatmap` write into another object). -/
def Net.readOnly {α : Type} : Net α → Bool
  | .sink _ _ => true
  | .reduce _ _ _ => true
  | .count _ => true
  | .map _ _ _ => true
  | .mapIn _ _ _ => false
  | .flatmap _ _ _ => true
  | .flatmapIn _ _ _ => false
  | .filter _ _ t => t.readOnly
  | .countFilter _ _ t => t.readOnly
  | .spy _ _ t => t.readOnly
  | .branch _ s d => s.readOnly && d.readOnly
  | .fork _ ts => ts.readOnly
  | .slice _ _ _ _ _ t => t.readOnly
/-- Same, for all targets of a fork. -/
def Nets.readOnly {α : Type} : Nets α → Bool
  | .nil => true
  | .cons t ts => t.readOnly && ts.readOnly
end

/-- The events of a trace that concern the components listed in `ids`. -/
def only {α : Type} (ids : List Nat) (tr : List (Ev α)) : List (Ev α) :=
  tr.filter fun e => decide (e.id ∈ ids)

/-- The hand-overs of items to one of the components listed in `ids`, in order. -/
def deliveries {α : Type} (ids : List Nat) (tr : List (Ev α)) : List (Ev α) :=
  tr.filter fun
    | .recv j _ => decide (j ∈ ids)
    | _ => false

/-- `t` is the `k`-th target (from 0) of a fork. -/
inductive Target {α : Type} : Net α → Nat → Nets α → Prop where
  | head {t ts} : Target t 0 (.cons t ts)
  | tail {t k t' ts} : Target t k ts → Target t (k + 1) (.cons t' ts)

/-- `Part c n`: `c` is one of the (sub)networks out of which `n` is built: `n` itself, the target of a
component of `n`, a side branch, a fork target... at any depth. -/
inductive Part {α : Type} (c : Net α) : Net α → Prop where
  | refl : Part c c
  | map {i op t} : Part c t → Part c (.map i op t)
  | mapIn {i op t} : Part c t → Part c (.mapIn i op t)
  | flatmap {i op t} : Part c t → Part c (.flatmap i op t)
  | flatmapIn {i op t} : Part c t → Part c (.flatmapIn i op t)
  | filter {i p t} : Part c t → Part c (.filter i p t)
  | countFilter {i p t} : Part c t → Part c (.countFilter i p t)
  | spy {i eff t} : Part c t → Part c (.spy i eff t)
  | branchSide {i a b} : Part c a → Part c (.branch i a b)
  | branchDown {i a b} : Part c b → Part c (.branch i a b)
  | fork {i ts t k} : Target t k ts → Part c t → Part c (.fork i ts)
  | slice {i a b g ca t} : Part c t → Part c (.slice i a b g ca t)

/-- Identity of the first component of a network. -/
def Net.root {α : Type} : Net α → Nat
  | .sink i _ => i
  | .reduce i _ _ => i
  | .count i => i
  | .map i _ _ => i
  | .mapIn i _ _ => i
  | .flatmap i _ _ => i
  | .flatmapIn i _ _ => i
  | .filter i _ _ => i
  | .countFilter i _ _ => i
  | .spy i _ _ => i
  | .branch i _ _ => i
  | .fork i _ => i
  | .slice i _ _ _ _ _ => i

end Verif.Dataflow
