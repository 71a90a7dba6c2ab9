import Verif.Model.Dorothea
import Verif.Spec.KrEvent
import Verif.Props.Filters
/-!
# Vocabulary for dorothea (property C127)
-/
namespace Verif.Dorothea
open Verif.PMaps (Peak ValidPeak Responses)

/-- The event is as irene writes it: consistent peaks, and not too many for the columns of the kdst. -/
structure Good (i : Chain.Input) : Prop where
  s1s : ∀ p ∈ i.s1s, ValidPeak p
  s2s : ∀ p ∈ i.s2s, ValidPeak p
  few : i.s1s.length ≤ 65535 ∧ i.s2s.length ≤ 65535

/-- The calculation of the charges of the SiPMs gives something for a peak with SiPMs. -/
def GivesCharges (c : Cfg) : Prop := ∀ p qs, ValidPeak p → p.sipms ≠ Responses.empty → c.kr.charges p = .ok qs → qs ≠ []

/-- The selector accepts the event, and the S1s and S2s with these flags. -/
def Accepted (c : Cfg) (i : Chain.Input) (f1 f2 : List Bool) : Prop := Filters.pmapFilter c.selector i.s1s i.s2s = .ok ⟨true, f1, f2⟩

/-- The selector rejects the event. -/
def Rejected (c : Cfg) (i : Chain.Input) : Prop := ∃ f1 f2, Filters.pmapFilter c.selector i.s1s i.s2s = .ok ⟨false, f1, f2⟩

/-- The position of the S2 is found, with a number of SiPMs that can be stored. -/
def Located (c : Cfg) (p : Peak) : Prop := ∃ k, KrEvent.IsReco c.kr p (some k) ∧ 0 ≤ k.nsipm ∧ k.nsipm ≤ 65535

/-- The rows of an accepted event: one for each pair of a selected S1 and a selected S2 (S1 by S1), or one for each selected S2 if no S1 is selected, with the quantities of its peaks. -/
structure IsKdst (c : Cfg) (i : Chain.Input) (f1 f2 : List Bool) (rows : List KrEvent.Row) : Prop where
  number : rows.length = max (KrEvent.selected f1 i.s1s).length 1 * (KrEvent.selected f2 i.s2s).length
  events : ∀ r ∈ rows, r.event = i.event ∧ r.time = i.ts / 1000
  noS1 : ∀ (j : Nat) p2, (KrEvent.selected f2 i.s2s)[j]? = some p2 → KrEvent.selected f1 i.s1s = [] →
    ∃ r k, rows[j]? = some r ∧ r.event = i.event ∧ r.s1Peak = 65535 ∧ r.s2Peak = j ∧ (∀ a, r.s1 a = none) ∧ r.dt = none ∧ r.z = none ∧
      KrEvent.IsReco c.kr p2 (some k) ∧ KrEvent.S2Values c.kr p2 (some k) r.s2 r.nsipm
  pair : ∀ (j : Nat) p2, (KrEvent.selected f2 i.s2s)[j]? = some p2 → ∀ (n : Nat) p1, (KrEvent.selected f1 i.s1s)[n]? = some p1 →
    ∃ r k, rows[n * (KrEvent.selected f2 i.s2s).length + j]? = some r ∧ r.event = i.event ∧ r.s1Peak = n ∧ r.s2Peak = j ∧ KrEvent.S1Values p1 r.s1 ∧
      KrEvent.IsReco c.kr p2 (some k) ∧ KrEvent.S2Values c.kr p2 (some k) r.s2 r.nsipm ∧ KrEvent.PairValues c.kr p1 p2 (some k) r.dt r.z

/-- What is written for an event that is processed: nothing if it is rejected, its rows if it is accepted. -/
def IsWritten (c : Cfg) (i : Chain.Input) (w : Option (List KrEvent.Row)) : Prop :=
  (w = none ∧ Rejected c i) ∨ ∃ f1 f2 rows, w = some rows ∧ Accepted c i f1 f2 ∧ IsKdst c i f1 f2 rows

/-- The event can be processed: it is rejected, or it has selected S2s and all of them are located. -/
def Processable (c : Cfg) (i : Chain.Input) : Prop :=
  Rejected c i ∨ ∃ f1 f2, Accepted c i f1 f2 ∧ KrEvent.selected f2 i.s2s ≠ [] ∧ ∀ p ∈ KrEvent.selected f2 i.s2s, Located c p

end Verif.Dorothea
