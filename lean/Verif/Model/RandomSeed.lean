import Verif.Base
/-!
# Model of `fix_random_seed` (invisible_cities/core/core_functions.py:353-360)

Code that uses the global random generator is modelled by `Prog`: draws, explicit reseeding,
exceptions, `try/except`, and `with fix_random_seed(seed): body`.  The generator is arbitrary: a set of
states `S`, a seeding function and a step function.
-/
namespace Verif.RandomSeed

/-- Programs acting on the global random state. -/
inductive Prog (V : Type) where
  | done
  | raise (e : PyErr)
  | draw (k : V → Prog V)
  | reseed (seed : Nat) (k : Prog V)
  | tryExcept (body handler k : Prog V)
  | withFixed (seed : Nat) (body k : Prog V)

/-- A pseudo random generator (`numpy.random` global state). -/
structure Gen (S V : Type) where
  seeded : Nat → S
  next : S → V × S

/-- What running a program does: the numbers drawn, the exception that escapes, the final state. -/
structure Outcome (S V : Type) where
  drawn : List V
  exc : Option PyErr
  state : S

/-- Execution.  `withFixed` is core_functions.py:353-360: `state = get_state()`, `seed(seed)`, the body
(the `yield`), and in any case (`finally`) `set_state(state)`; an exception of the body then propagates
through the context manager. -/
def run {S V : Type} (g : Gen S V) : Prog V → S → Outcome S V
  | .done, s => ⟨[], none, s⟩
  | .raise e, s => ⟨[], some e, s⟩
  | .draw k, s =>
    let o := run g (k (g.next s).1) (g.next s).2
    ⟨(g.next s).1 :: o.drawn, o.exc, o.state⟩
  | .reseed n k, _ => run g k (g.seeded n)
  | .tryExcept body handler k, s =>
    let o := run g body s
    match o.exc with
    | none => let q := run g k o.state; ⟨o.drawn ++ q.drawn, q.exc, q.state⟩
    | some _ =>
      let h := run g handler o.state
      match h.exc with
      | some e => ⟨o.drawn ++ h.drawn, some e, h.state⟩
      | none => let q := run g k h.state; ⟨o.drawn ++ h.drawn ++ q.drawn, q.exc, q.state⟩
  | .withFixed n body k, s =>
    let saved := s
    let o := run g body (g.seeded n)
    match o.exc with
    | some e => ⟨o.drawn, some e, saved⟩
    | none => let q := run g k saved; ⟨o.drawn ++ q.drawn, q.exc, q.state⟩

end Verif.RandomSeed
