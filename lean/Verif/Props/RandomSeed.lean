import Verif.Model.RandomSeed
/-!
# C47: fixing the random seed is transparent to the caller
-/
namespace Verif.RandomSeed
variable {S V : Type}

/-- **C47** Whatever the body does (draw, reseed, raise, nest other blocks), after the block the global
state is the one before it, and the exception of the body, if any, escapes. -/
theorem state_restored (g : Gen S V) (seed : Nat) (body : Prog V) (s : S) :
    (run g (.withFixed seed body .done) s).state = s ∧
    (run g (.withFixed seed body .done) s).exc = (run g body (g.seeded seed)).exc := by
  simp only [run]
  split <;> simp_all

/-- **C47** The body sees the generator seeded with `seed`, independently of what was drawn before. -/
theorem body_reproducible (g : Gen S V) (seed : Nat) (body : Prog V) (s s' : S) :
    (run g (.withFixed seed body .done) s).drawn = (run g (.withFixed seed body .done) s').drawn ∧
    (run g (.withFixed seed body .done) s).drawn = (run g body (g.seeded seed)).drawn := by
  simp only [run]
  split <;> simp

/-- All uses of the generator are inside `with fix_random_seed` blocks. -/
def Guarded : Prog V → Prop
  | .done => True
  | .raise _ => True
  | .draw _ => False
  | .reseed _ _ => False
  | .tryExcept body handler k => Guarded body ∧ Guarded handler ∧ Guarded k
  | .withFixed _ _ k => Guarded k

/-- **C47** A program that uses randomness only inside such blocks leaves the state alone, and what it
draws does not depend on it. -/
theorem guarded_transparent (g : Gen S V) (p : Prog V) (hp : Guarded p) (s s' : S) :
    (run g p s).state = s ∧ (run g p s).drawn = (run g p s').drawn ∧ (run g p s).exc = (run g p s').exc := by
  induction p generalizing s s' with
  | done => simp [run]
  | raise e => simp [run]
  | draw k => exact absurd hp (by simp [Guarded])
  | reseed n k => exact absurd hp (by simp [Guarded])
  | tryExcept body handler k ihb ihh ihk =>
    simp only [Guarded] at hp
    obtain ⟨b1, b2, b3⟩ := ihb hp.1 s s'
    obtain ⟨b1', _, _⟩ := ihb hp.1 s' s
    obtain ⟨h1, h2, h3⟩ := ihh hp.2.1 s s'
    obtain ⟨h1', _, _⟩ := ihh hp.2.1 s' s
    obtain ⟨k1, k2, k3⟩ := ihk hp.2.2 s s'
    simp only [run, b1, b1', ← b2, ← b3]
    cases (run g body s).exc with
    | none => simp [k1, k2, k3]
    | some e =>
      simp only [h1, h1', ← h2, ← h3]
      cases (run g handler s).exc with
      | none => simp [k1, k2, k3]
      | some e => simp [h1]
  | withFixed n body k _ ihk =>
    obtain ⟨k1, k2, k3⟩ := ihk hp s s'
    simp only [run]
    cases (run g body (g.seeded n)).exc with
    | none => simp [k1, k2, k3]
    | some e => simp

/-- **C47** (nesting) A block inside a block does not disturb the draws of the outer one: after it the
outer block goes on with the number it would have drawn next. -/
theorem nested_transparent (g : Gen S V) (seed seed' : Nat) (inner : Prog V) (k : V → Prog V) (s : S)
    (h : (run g inner (g.seeded seed')).exc = none) :
    (run g (.withFixed seed (.withFixed seed' inner (.draw k)) .done) s).drawn =
      (run g inner (g.seeded seed')).drawn ++ (run g (.withFixed seed (.draw k) .done) s).drawn := by
  simp only [run, h]
  split <;> simp

/-- A linear congruential toy generator: nested blocks and an exception. -/
def toy : Gen Nat Nat := ⟨fun n => n, fun s => (s, s * 5 + 1)⟩
example : Guarded (Prog.withFixed 3 (.draw fun x : Nat => .draw fun y => .raise .valueError) (.done) : Prog Nat) := by
  simp [Guarded]
example : (run toy (.withFixed 3 (.draw fun _ => .withFixed 9 (.draw fun _ => .raise .keyError) .done) .done) 77).state = 77 ∧
    (run toy (.withFixed 3 (.draw fun _ => .withFixed 9 (.draw fun _ => .done) (.draw fun _ => .done)) .done) 77).drawn = [3, 9, 16] := by
  decide

end Verif.RandomSeed
