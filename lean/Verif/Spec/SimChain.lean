import Verif.Model.SimChain
import Verif.Spec.BuffyEvent
import Verif.Spec.DetsimEvent
/-!
# Vocabulary for the files of simulated buffers (property C129)
-/
namespace Verif.SimChain
open Verif.Buffers (maxSubevt)
open Verif.BuffyEvent (chargeOf lastEdge)

/-- The integer of 16 bits that a number becomes: its integer part, up to multiples of 65536. -/
def Int16Of (x y : ℚ) : Prop := ∃ (k q : Int), y = k ∧ -32768 ≤ k ∧ k < 32768 ∧ (if 0 ≤ x then ⌊x⌋ else ⌈x⌉) = k + 65536 * q

/-- One matrix is made of the samples of another, as integers of 16 bits. -/
def Stored (m m' : Mat) : Prop := m'.ncols = m.ncols ∧ List.Forall₂ (List.Forall₂ Int16Of) m.rows m'.rows

/-- One matrix holds, in 16 bits, the charges of some sensors in consecutive samples from `start`. -/
def Holds (rows : List Buffers.Resp) (db : List Nat) (w last : ℚ) (start : Int) (len : Nat) (m : Mat) : Prop :=
  m.ncols = len ∧ m.rows.length = db.length ∧ ∀ (i s : Nat), db[i]? = some s → ∃ row, m.rows[i]? = some row ∧ row.length = len ∧
    ∀ (j : Nat) (y : ℚ), row[j]? = some y → Int16Of (chargeOf rows s w last (start + j)) y

/-- What the next city gets of the `j`-th trigger, in the PMT sample `n`, of an event of buffy. -/
structure ItemOf (p : BuffyEvent.Pars) (m run : Nat) (ev : BuffyEvent.Event) (j : Nat) (n : Int) (i : Sources.WfItem Mat Unit) : Prop where
  nth : ∃ ns : List Int, ns.Pairwise (· < ·) ∧ (∀ n, n ∈ ns ↔ BuffyEvent.Trigger p ev n) ∧ ns[j]? = some n
  run : i.runNumber = run
  event : i.event = ((ev.number * maxSubevt p.maxTime p.bufferLen + j : Nat) : Int)
  time : i.timestamp = if 0 ≤ ev.timestamp + n * p.pmtW then (⌊ev.timestamp + n * p.pmtW⌋ : ℚ) else (⌈ev.timestamp + n * p.pmtW⌉ : ℚ)
  pmt : Holds ev.pmt p.pmtDb p.pmtW (lastEdge p ev p.pmtW) (n / (m : Int) * m - ⌊p.preTrigger / p.pmtW⌋) ⌊p.bufferLen / p.pmtW⌋.toNat i.pmt
  sipm : Holds ev.sipm p.sipmDb p.sipmW (lastEdge p ev p.sipmW) (n / (m : Int) - ⌊p.preTrigger / p.sipmW⌋) ⌊p.bufferLen / p.sipmW⌋.toNat i.sipm
  trigger : i.triggerType = none ∧ i.triggerChannels = none

/-- The same for a trigger, in the PMT sample `n`, of an event of detsim with the waveforms `pmt` and `sipm`. -/
structure DetsimItem (p : DetsimEvent.Pars) (m run : Nat) (ev : DetsimEvent.Event) (pmt sipm : List (List ℚ)) (j n : Nat) (i : Sources.WfItem Mat Unit) : Prop where
  nth : ∃ ns : List Nat, ns.Pairwise (· < ·) ∧ (∀ n, n ∈ ns ↔ DetsimEvent.Trigger p pmt n) ∧ ns[j]? = some n
  run : i.runNumber = run
  event : i.event = ((ev.number * maxSubevt p.maxTime p.bufferLen + j : Nat) : Int)
  time : i.timestamp = if 0 ≤ ev.timestamp + n * p.pmtW then (⌊ev.timestamp + n * p.pmtW⌋ : ℚ) else (⌈ev.timestamp + n * p.pmtW⌉ : ℚ)
  waveforms : ∃ b, DetsimEvent.IsBuffer p m ev.timestamp pmt sipm n (ev.timestamp + n * p.pmtW) b ∧ Stored b.1 i.pmt ∧ Stored b.2 i.sipm

end Verif.SimChain
