/-!
# Model of `invisible_cities/dataflow/dataflow.py`

A network of coroutines is modelled as a tree of generators.  `Net` is the static description of the
generators (user functions, wiring); `St n` is the run-time state (local variables) of the live
generators of network `n`.  `send` is `generator.send(item)`, `close` is `generator.close()`.  What
an outside observer can see is a trace of events:

* `recv i x`    the user-visible callee `i` (sink effect, spy operation, reduce update, counter,
                counting predicate) was handed the item `x`;
* `result i v`  the future of component `i` was resolved to `v` (`future.set_result`);
* `closed i`    generator `i` terminated: all of its `finally` clauses have run.

Exceptions are values.  User functions are arbitrary functions that may raise.  In Python a generator
out of which an exception escapes is finished, and no component of dataflow.py catches an exception
raised by its target (the only `except` is in `push`).  Hence a live generator only has live targets,
which is why `St` needs no "finished" flag: `send` returns either the next state or the exception.

Simplifications, all deliberate:
* the graph is a tree: one generator object is not shared by two upstream generators;
* one universal item type `α` (Python is dynamically typed);
* items are mutable dictionaries in IC: the components with `args/out` write *in place*, so `send`
  also returns the item as left by the callee; plain `map`/`flatmap` hand over a new object; sink and
  spy effects are assumed not to modify the item;
* closing is assumed not to raise.
-/
namespace Verif.Dataflow

/-- Exceptions that may travel through a pipeline.  `stop` is `StopPipeline`
(dataflow.py:289), `err n` is any other exception raised by a user function. -/
inductive Exc where
  | stop
  | err (code : Nat)
deriving DecidableEq, Repr

/-- Value of a future (dataflow.py:147 `PassedFailed`, :260 reduce, :271 count). -/
inductive Res (α : Type) where
  | val (a : α)
  | num (n : Nat)
  | passedFailed (nPassed nFailed : Nat)
deriving DecidableEq, Repr

/-- Observable events. -/
inductive Ev (α : Type) where
  | recv (id : Nat) (x : α)
  | result (id : Nat) (v : Res α)
  | closed (id : Nat)
deriving DecidableEq, Repr

mutual
/-- A generator together with everything downstream of it.  The first `Nat` is an identity used only
to label events.
* `sink`        dataflow.py:237-250 (`stop_when`, :281-286, is a sink whose effect raises)
* `reduce`      dataflow.py:252-261
* `count`       dataflow.py:263-271
* `map`         dataflow.py:59-63 (no args/out);  `mapIn` dataflow.py:64-82 (args/out, in place)
* `flatmap`     dataflow.py:94-99;  `flatmapIn` dataflow.py:100-119: `op` yields a list of results,
                each result is an update of the item
* `filter`      dataflow.py:124-144 (with `args`, the predicate projects the item)
* `countFilter` dataflow.py:149-187
* `spy`         dataflow.py:190-198
* `branch`      dataflow.py:200-209
* `fork`        dataflow.py:212-222
* `slice`       dataflow.py:326-354, with `start`, `stop` (`none` = None) and `gap` = step - 1 -/
inductive Net (α : Type) where
  | sink (id : Nat) (eff : α → Option Exc)
  | reduce (id : Nat) (upd : α → α → Except Exc α) (init : α)
  | count (id : Nat)
  | map (id : Nat) (op : α → Except Exc α) (t : Net α)
  | mapIn (id : Nat) (op : α → Except Exc α) (t : Net α)
  | flatmap (id : Nat) (op : α → Except Exc (List α)) (t : Net α)
  | flatmapIn (id : Nat) (op : α → Except Exc (List (α → α))) (t : Net α)
  | filter (id : Nat) (p : α → Except Exc Bool) (t : Net α)
  | countFilter (id : Nat) (p : α → Except Exc Bool) (t : Net α)
  | spy (id : Nat) (eff : α → Option Exc) (t : Net α)
  | branch (id : Nat) (side down : Net α)
  | fork (id : Nat) (targets : Nets α)
  | slice (id : Nat) (start : Nat) (stop : Option Nat) (gap : Nat) (closeAll : Bool) (t : Net α)
/-- The targets of a fork, in order. -/
inductive Nets (α : Type) where
  | nil
  | cons (t : Net α) (ts : Nets α)
end

/-- The targets of a fork given as a list. -/
def Nets.ofList {α : Type} : List (Net α) → Nets α
  | [] => .nil
  | t :: ts => .cons t (Nets.ofList ts)

/-- Run-time state of a `slice` generator: `skip` more items are swallowed before the next one is
handed on; `left` more items (`none`: without limit) are to be handed on.  (dataflow.py:340-353: the
loop variables of the three `for` loops; `skip = 0, left = some 0` is the final `while True: yield`.)
-/
structure SliceSt where
  skip : Nat
  left : Option Nat
deriving DecidableEq, Repr

mutual
/-- Run-time state of the live generators of a network: accumulator of `reduce`, counter of `count`,
`(n_passed, n_failed)` of `count_filter`, loop variables of `slice`; the others have no local state
of their own, only that of their targets. -/
inductive St {α : Type} : Net α → Type where
  | sink {i eff} : St (.sink i eff)
  | reduce {i upd a₀} (acc : α) : St (.reduce i upd a₀)
  | count {i} (n : Nat) : St (.count i)
  | map {i op t} (s : St t) : St (.map i op t)
  | mapIn {i op t} (s : St t) : St (.mapIn i op t)
  | flatmap {i op t} (s : St t) : St (.flatmap i op t)
  | flatmapIn {i op t} (s : St t) : St (.flatmapIn i op t)
  | filter {i p t} (s : St t) : St (.filter i p t)
  | countFilter {i p t} (nPassed nFailed : Nat) (s : St t) : St (.countFilter i p t)
  | spy {i eff t} (s : St t) : St (.spy i eff t)
  | branch {i a b} (sa : St a) (sb : St b) : St (.branch i a b)
  | fork {i ts} (ss : Sts ts) : St (.fork i ts)
  | slice {i a b g ca t} (st : SliceSt) (s : St t) : St (.slice i a b g ca t)
/-- States of the targets of a fork. -/
inductive Sts {α : Type} : Nets α → Type where
  | nil : Sts .nil
  | cons {t ts} (s : St t) (ss : Sts ts) : Sts (.cons t ts)
end

/-- `(stop - start + step - 1) // step` on Python ints (dataflow.py:337), as the number of iterations
of `range(...)` (a negative argument gives an empty range). -/
def sliceIterations (start stop gap : Nat) : Nat :=
  (((stop : Int) - start + gap) / ((gap : Int) + 1)).toNat

/-- State of a primed `slice` generator (`next(coroutine)`, dataflow.py:32; :341-348): the extra
`yield` when `stop <= start`, then `start` yields, then the stopper loop. -/
def sliceInit (start : Nat) (stop : Option Nat) (gap : Nat) : SliceSt :=
  match stop with
  | none => ⟨start, none⟩
  | some b => if b ≤ start then ⟨1 + start, some (sliceIterations start b gap)⟩
              else ⟨start, some (sliceIterations start b gap)⟩

mutual
/-- State of freshly primed generators (`coroutine` decorator, dataflow.py:28-34). -/
def init {α : Type} : (n : Net α) → St n
  | .sink _ _ => .sink
  | .reduce _ _ a => .reduce a
  | .count _ => .count 0
  | .map _ _ t => .map (init t)
  | .mapIn _ _ t => .mapIn (init t)
  | .flatmap _ _ t => .flatmap (init t)
  | .flatmapIn _ _ t => .flatmapIn (init t)
  | .filter _ _ t => .filter (init t)
  | .countFilter _ _ t => .countFilter 0 0 (init t)
  | .spy _ _ t => .spy (init t)
  | .branch _ s d => .branch (init s) (init d)
  | .fork _ ts => .fork (inits ts)
  | .slice _ a b g _ t => .slice (sliceInit a b g) (init t)
/-- Same, for the targets of a fork. -/
def inits {α : Type} : (ts : Nets α) → Sts ts
  | .nil => .nil
  | .cons t ts => .cons (init t) (inits ts)
end

mutual
/-- `generator.close()` on a live generator: `GeneratorExit` is raised at the `yield`, so the
`finally` clauses and `closing(target)` context managers run (dataflow.py:23-26 and each component).
Order: `branch` closes downstream, then sideways (`with closing(sideways), closing(downstream)` exits
in reverse order, :204); `fork` closes its targets in order (:220-222); `countFilter` closes its
target before resolving its future (:156-167). -/
def close {α : Type} : (n : Net α) → St n → List (Ev α)
  | .sink i _, _ => [.closed i]
  | .reduce i _ _, .reduce a => [.result i (.val a), .closed i]
  | .count i, .count n => [.result i (.num n), .closed i]
  | .map i _ t, .map s => close t s ++ [.closed i]
  | .mapIn i _ t, .mapIn s => close t s ++ [.closed i]
  | .flatmap i _ t, .flatmap s => close t s ++ [.closed i]
  | .flatmapIn i _ t, .flatmapIn s => close t s ++ [.closed i]
  | .filter i _ t, .filter s => close t s ++ [.closed i]
  | .countFilter i _ t, .countFilter np nf s =>
    close t s ++ [.result i (.passedFailed np nf), .closed i]
  | .spy i _ t, .spy s => close t s ++ [.closed i]
  | .branch i a b, .branch sa sb => close b sb ++ close a sa ++ [.closed i]
  | .fork i ts, .fork ss => closes ts ss ++ [.closed i]
  | .slice i _ _ _ _ t, .slice _ s => close t s ++ [.closed i]
/-- `for t in targets: t.close()` (dataflow.py:221-222). -/
def closes {α : Type} : (ts : Nets α) → Sts ts → List (Ev α)
  | .nil, _ => []
  | .cons t ts, .cons s ss => close t s ++ closes ts ss
end

/-- What `generator.send(x)` does: the item as left by in-place writers, the events, and either the
next state or the exception that escaped (the generator is then finished, everything it had to close
has been closed). -/
structure Out (α σ : Type) where
  item : α
  evs  : List (Ev α)
  next : Except Exc σ

/-- Send items one after the other until one raises: the inner `for result in op(...)` loop of
`flatmap` (dataflow.py:98-99). -/
def sendList {α σ : Type} (snd : σ → α → Out α σ) (s : σ) : List α → List (Ev α) × Except Exc σ
  | [] => ([], .ok s)
  | y :: ys =>
    let r := snd s y
    match r.next with
    | .error e => (r.evs, .error e)
    | .ok s' =>
      let q := sendList snd s' ys
      (r.evs ++ q.1, q.2)

/-- The inner loop of `flatmap` with `args/out` (dataflow.py:113-119): each result is written into
the same item, which is then sent. -/
def sendUpd {α σ : Type} (snd : σ → α → Out α σ) (s : σ) (x : α) : List (α → α) → Out α σ
  | [] => ⟨x, [], .ok s⟩
  | u :: us =>
    let r := snd s (u x)
    match r.next with
    | .error e => ⟨r.item, r.evs, .error e⟩
    | .ok s' =>
      let q := sendUpd snd s' r.item us
      ⟨q.item, r.evs ++ q.evs, q.next⟩

/-- Resume a `slice` generator up to its next `yield` (dataflow.py:340-353) when it has to swallow
`st.skip` more items and to pass `st.left` more: if both loops are over it raises `StopPipeline`
(`close_all`, :351) or stays in the final `while True: yield`. -/
def sliceResume {α : Type} (i a : Nat) (b : Option Nat) (gap : Nat) (ca : Bool) (t : Net α)
    (item : α) (st : SliceSt) (s : St t) (evs : List (Ev α)) : Out α (St (.slice i a b gap ca t)) :=
  if st.skip = 0 ∧ st.left = some 0 ∧ ca = true then
    ⟨item, evs ++ close t s ++ [.closed i], .error .stop⟩
  else ⟨item, evs, .ok (.slice st s)⟩

mutual
/-- `generator.send(x)`, component by component (lines as in `Net`). -/
def send {α : Type} : (n : Net α) → St n → α → Out α (St n)
  | .sink i eff, _, x =>
    match eff x with
    | none   => ⟨x, [.recv i x], .ok .sink⟩
    | some e => ⟨x, [.recv i x, .closed i], .error e⟩
  | .reduce i upd _, .reduce a, x =>
    match upd a x with
    | .ok a'   => ⟨x, [.recv i x], .ok (.reduce a')⟩
    | .error e => ⟨x, [.recv i x, .result i (.val a), .closed i], .error e⟩
  | .count i, .count n, x => ⟨x, [.recv i x], .ok (.count (n + 1))⟩
  | .map i op t, .map s, x =>
    match op x with
    | .error e => ⟨x, close t s ++ [.closed i], .error e⟩
    | .ok y =>
      let r := send t s y
      match r.next with
      | .ok s'   => ⟨x, r.evs, .ok (.map s')⟩
      | .error e => ⟨x, r.evs ++ [.closed i], .error e⟩
  | .mapIn i op t, .mapIn s, x =>
    match op x with
    | .error e => ⟨x, close t s ++ [.closed i], .error e⟩
    | .ok y =>
      let r := send t s y
      match r.next with
      | .ok s'   => ⟨r.item, r.evs, .ok (.mapIn s')⟩
      | .error e => ⟨r.item, r.evs ++ [.closed i], .error e⟩
  | .flatmap i op t, .flatmap s, x =>
    match op x with
    | .error e => ⟨x, close t s ++ [.closed i], .error e⟩
    | .ok ys =>
      let r := sendList (send t) s ys
      match r.2 with
      | .ok s'   => ⟨x, r.1, .ok (.flatmap s')⟩
      | .error e => ⟨x, r.1 ++ [.closed i], .error e⟩
  | .flatmapIn i op t, .flatmapIn s, x =>
    match op x with
    | .error e => ⟨x, close t s ++ [.closed i], .error e⟩
    | .ok us =>
      let r := sendUpd (send t) s x us
      match r.next with
      | .ok s'   => ⟨r.item, r.evs, .ok (.flatmapIn s')⟩
      | .error e => ⟨r.item, r.evs ++ [.closed i], .error e⟩
  | .filter i p t, .filter s, x =>
    match p x with
    | .error e => ⟨x, close t s ++ [.closed i], .error e⟩
    | .ok false => ⟨x, [], .ok (.filter s)⟩
    | .ok true =>
      let r := send t s x
      match r.next with
      | .ok s'   => ⟨r.item, r.evs, .ok (.filter s')⟩
      | .error e => ⟨r.item, r.evs ++ [.closed i], .error e⟩
  | .countFilter i p t, .countFilter np nf s, x =>
    match p x with
    | .error e =>
      ⟨x, .recv i x :: (close t s ++ [.result i (.passedFailed np nf), .closed i]), .error e⟩
    | .ok false => ⟨x, [.recv i x], .ok (.countFilter np (nf + 1) s)⟩
    | .ok true =>
      let r := send t s x
      match r.next with
      | .ok s'   => ⟨r.item, .recv i x :: r.evs, .ok (.countFilter (np + 1) nf s')⟩
      | .error e =>
        ⟨r.item, .recv i x :: (r.evs ++ [.result i (.passedFailed (np + 1) nf), .closed i]), .error e⟩
  | .spy i eff t, .spy s, x =>
    match eff x with
    | some e => ⟨x, .recv i x :: (close t s ++ [.closed i]), .error e⟩
    | none =>
      let r := send t s x
      match r.next with
      | .ok s'   => ⟨r.item, .recv i x :: r.evs, .ok (.spy s')⟩
      | .error e => ⟨r.item, .recv i x :: (r.evs ++ [.closed i]), .error e⟩
  | .branch i a b, .branch sa sb, x =>
    let r := send a sa x
    match r.next with
    | .error e => ⟨r.item, r.evs ++ close b sb ++ [.closed i], .error e⟩
    | .ok sa' =>
      let q := send b sb r.item
      match q.next with
      | .ok sb'  => ⟨q.item, r.evs ++ q.evs, .ok (.branch sa' sb')⟩
      | .error e => ⟨q.item, r.evs ++ q.evs ++ close a sa' ++ [.closed i], .error e⟩
  | .fork i ts, .fork s, x =>
    let r := sends ts s x
    match r.2.2 with
    | .ok s'         => ⟨r.1, r.2.1, .ok (.fork s')⟩
    | .error (e, cl) => ⟨r.1, r.2.1 ++ cl ++ [.closed i], .error e⟩
  | .slice i a b gap ca t, .slice ⟨skip, left⟩ s, x =>
    match skip, left with
    | k + 1, l => sliceResume i a b gap ca t x ⟨k, l⟩ s []
    | 0, some 0 => ⟨x, [], .ok (.slice ⟨0, some 0⟩ s)⟩
    | 0, l =>
      let r := send t s x
      match r.next with
      | .error e => ⟨r.item, r.evs ++ [.closed i], .error e⟩
      | .ok s' => sliceResume i a b gap ca t r.item ⟨gap, l.map (· - 1)⟩ s' r.evs
/-- `for t in targets: t.send(value)` (dataflow.py:218-222); returns the item, the events of the
sends, and either the new states or the exception together with the events of the `finally` clause,
which closes all targets in order: the ones already served, (the raising one is finished: no-op), and
the ones not yet served. -/
def sends {α : Type} : (ts : Nets α) → Sts ts → α →
    α × List (Ev α) × Except (Exc × List (Ev α)) (Sts ts)
  | .nil, _, x => (x, [], .ok .nil)
  | .cons t ts, .cons s ss, x =>
    let r := send t s x
    match r.next with
    | .error e => (r.item, r.evs, .error (e, closes ts ss))
    | .ok s' =>
      let q := sends ts ss r.item
      match q.2.2 with
      | .ok ss'        => (q.1, r.evs ++ q.2.1, .ok (.cons s' ss'))
      | .error (e, cl) => (q.1, r.evs ++ q.2.1, .error (e, close t s' ++ cl))
end

/-- What a run leaves behind: the trace, the exception that escaped from `push` (if any) and the
number of items taken from the source. -/
structure Run (α : Type) where
  trace    : List (Ev α)
  exc      : Option Exc
  consumed : Nat

/-- `push(source, pipe)` (dataflow.py:291-302) from a given state of the pipe: send every item; on
`StopPipeline` leave the loop; close the pipe (a no-op if it is finished).  Any other exception
propagates to the caller. -/
def pushFrom {α : Type} (n : Net α) (s : St n) : List α → Run α
  | [] => ⟨close n s, none, 0⟩
  | x :: xs =>
    let r := send n s x
    match r.next with
    | .ok s' =>
      let q := pushFrom n s' xs
      ⟨r.evs ++ q.trace, q.exc, q.consumed + 1⟩
    | .error .stop => ⟨r.evs, none, 1⟩
    | .error e     => ⟨r.evs, some e, 1⟩

/-- `push(source, pipe)` on a freshly built pipe. -/
def push {α : Type} (source : List α) (n : Net α) : Run α := pushFrom n (init n) source

/-- `pipe(*pieces)` with a sink at the end (dataflow.py:305-313): `functools.reduce(apply,
reversed(pieces))`. -/
def pipe {α : Type} (pieces : List (Net α → Net α)) (last : Net α) : Net α :=
  pieces.foldr (fun piece downstream => piece downstream) last

/-- `pipe(*pieces)` without a sink at the end (dataflow.py:314-317): a component awaiting its sink. -/
def pipeOpen {α : Type} (pieces : List (Net α → Net α)) : Net α → Net α :=
  fun downstream => pipe pieces downstream

/-- `slice(*args, close_all)` (dataflow.py:326-337): validation of the arguments, defaults, and the
component.  `none` stands for Python's `None`. -/
def mkSlice {α : Type} (id : Nat) (start stop step : Option Int) (closeAll : Bool) :
    Except String (Net α → Net α) :=
  if start.any (· < 0) then .error "ValueError: slice requires start >= 0"
  else if stop.any (· < 0) then .error "ValueError: slice requires stop >= 0"
  else if step.any (· ≤ 0) then .error "ValueError: slice requires step > 0"
  else .ok (.slice id (start.getD 0).toNat (stop.map Int.toNat) ((step.getD 1) - 1).toNat closeAll)

/-- `stop_when(predicate)` (dataflow.py:281-286). -/
def stopWhen {α : Type} (id : Nat) (p : α → Bool) : Net α :=
  .sink id fun x => if p x then some .stop else none

/-- `spy_count()` (dataflow.py:276-278): a branch into a `count` sink. -/
def spyCount {α : Type} (branchId countId : Nat) : Net α → Net α :=
  .branch branchId (.count countId)

end Verif.Dataflow
