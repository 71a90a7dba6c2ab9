import Verif.Props.Cities
/-!
# Accounting of events in detsim and buffy
-/
namespace Verif.Cities
open Verif.Dataflow

section sim
variable {I A E W L M B : Type}

/-- The hits of an event of detsim after the removal of the delayed hits and the selection of the candidates of S1. -/
def detHits (d : DetFns I A E W) (x : SimItem I A E W L M B) : I := d.candidates (d.delayed x.event x.input)

/-- The hits in the active volume. -/
def detActive (d : DetFns I A E W) (x : SimItem I A E W L M B) : A := d.active (detHits d x)

/-- The simulated electrons. -/
def detElectrons (d : DetFns I A E W) (x : SimItem I A E W L M B) : E := d.simulate (detActive d x)

/-- There are photons. -/
def detLit (d : DetFns I A E W) (x : SimItem I A E W L M B) : Bool := decide (d.photons (detElectrons d x) > 0)

/-- The binned waveforms. -/
def detWfs (d : DetFns I A E W) (x : SimItem I A E W L M B) : W := d.waveforms (detHits d x) (detElectrons d x)

/-- There is a pulse in the waveforms. -/
def anyPulse (f : BufFns W L M B) (w : W) : Bool := decide (f.npulses (f.find w) > 0)

theorem detsim_step (d : DetFns I A E W) (f : BufFns W L M B) (x : SimItem I A E W L M B) : step (detsimPipe d f) x =
    (let y : SimItem I A E W L M B := { x with input := detHits d x, active := some (detActive d x), passedActive := some (d.anyEnergy (detActive d x)) }
     let z : SimItem I A E W L M B := { y with electrons := some (detElectrons d x), enough := some (detLit d x) }
     let u : SimItem I A E W L M B := { z with wfs := some (detWfs d x), pulses := some (f.find (detWfs d x)), signal := some (anyPulse f (detWfs d x)) }
     let v : SimItem I A E W L M B := { u with times := some (f.times (f.find (detWfs d x)) x.time (detWfs d x)), buffers := some (f.buffers (f.find (detWfs d x)) (detWfs d x)) }
     if d.anyEnergy (detActive d x) then
       if detLit d x then
         if anyPulse f (detWfs d x) then some (v, [(2, x), (8, y), (9, y), (13, z), (14, z), (43, u), (44, u), (49, v), (16, v)])
         else some (u, [(2, x), (8, y), (9, y), (13, z), (14, z), (43, u), (44, u)])
       else some (z, [(2, x), (8, y), (9, y), (13, z), (14, z)])
     else some (y, [(2, x), (8, y), (9, y)])) := by
  cases h1 : d.anyEnergy (detActive d x) <;> cases h2 : detLit d x <;> cases h3 : anyPulse f (detWfs d x) <;> unfold detActive detHits at h1 <;>
  unfold detLit detElectrons detActive detHits at h2 <;> unfold anyPulse detWfs detElectrons detActive detHits at h3 <;>
  simp [detsimPipe, buffersPipe, pipe, spyCount, mapField, writer, need, step, steps, Nets.ofList, h1, h2, h3, SimItem.activeRow, SimItem.darkRow, SimItem.signalRow, SimItem.bufferRow,
    SimItem.number, SimItem.timesArgs, SimItem.wfArgs, detWfs, detElectrons, detActive, detHits]

/-- **C69** detsim, for any events, range and functions.  `Filters/active_hits` has a row for every event of the range, `Filters/dark_events` one for every event with energy in the active volume, `Filters/signal` one
for every event that moreover has photons; the buffers and the list of event numbers have exactly the events that pass the three filters, in the order of the source; the counters agree. -/
theorem detsim_accounts (d : DetFns I A E W) (f : BufFns W L M B) (start : Nat) (stop : Option Nat) (gap : Nat) (xs : List (SimItem I A E W L M B)) :
    (push xs (detsim d f start stop gap)).exc = none ∧
    table 8 SimItem.activeRow (push xs (detsim d f start stop gap)) = (pySlice start stop (gap + 1) xs).map (fun x => (x.event, d.anyEnergy (detActive d x))) ∧
    table 13 SimItem.darkRow (push xs (detsim d f start stop gap)) = ((pySlice start stop (gap + 1) xs).filter (fun x => d.anyEnergy (detActive d x))).map (fun x => (x.event, detLit d x)) ∧
    table 43 SimItem.signalRow (push xs (detsim d f start stop gap)) = ((pySlice start stop (gap + 1) xs).filter (fun x => d.anyEnergy (detActive d x) && detLit d x)).map (fun x => (x.event, anyPulse f (detWfs d x))) ∧
    table 49 (SimItem.bufferRow false) (push xs (detsim d f start stop gap)) = ((pySlice start stop (gap + 1) xs).filter (fun x => d.anyEnergy (detActive d x) && detLit d x && anyPulse f (detWfs d x))).map
      (fun x => (x.event, f.times (f.find (detWfs d x)) x.time (detWfs d x), f.buffers (f.find (detWfs d x)) (detWfs d x))) ∧
    table 16 SimItem.number (push xs (detsim d f start stop gap)) = ((pySlice start stop (gap + 1) xs).filter (fun x => d.anyEnergy (detActive d x) && detLit d x && anyPulse f (detWfs d x))).map (fun x => x.event) ∧
    futures 2 (push xs (detsim d f start stop gap)) = [.num (pySlice start stop (gap + 1) xs).length] ∧
    futures 14 (push xs (detsim d f start stop gap)) = [.passedFailed ((pySlice start stop (gap + 1) xs).countP (fun x => d.anyEnergy (detActive d x) && detLit d x)) ((pySlice start stop (gap + 1) xs).countP (fun x => d.anyEnergy (detActive d x) && !detLit d x))] := by
  have hs : (detsimPipe d f).Sums := by
    simp [detsimPipe, buffersPipe, pipe, spyCount, mapField, writer, filterSome, Net.Sums, Nets.Sums, Nets.ofList]
  have hi : (detsim d f start stop gap).ids.Nodup := by
    simp [detsim, detsimPipe, buffersPipe, pipe, spyCount, mapField, writer, filterSome, Net.ids, Nets.ids, Nets.ofList]
  have hstep := detsim_step (L := L) (M := M) (B := B) d f
  obtain ⟨h1, h2⟩ := sliced_run 0 start stop gap true (detsimPipe d f) hs xs (by intro x _; rw [hstep]; cases c0 : d.anyEnergy (detActive d x) <;> cases c1 : detLit d x <;> cases c2 : anyPulse f (detWfs d x) <;> simp [*])
  refine ⟨h1, ?_, ?_, ?_, ?_, ?_, ?_, ?_⟩
  · exact table_of_feeds_all 8 _ _ (h2 8) (by intro x; rw [feeds, hstep]; cases c0 : d.anyEnergy (detActive d x) <;> cases c1 : detLit d x <;> cases c2 : anyPulse f (detWfs d x) <;> simp [*, SimItem.activeRow])
  · exact table_of_feeds 13 _ _ _ (h2 13) (by intro x; rw [feeds, hstep]; cases c0 : d.anyEnergy (detActive d x) <;> cases c1 : detLit d x <;> cases c2 : anyPulse f (detWfs d x) <;> simp [*, SimItem.darkRow])
  · exact table_of_feeds 43 _ _ _ (h2 43) (by intro x; rw [feeds, hstep]; cases c0 : d.anyEnergy (detActive d x) <;> cases c1 : detLit d x <;> cases c2 : anyPulse f (detWfs d x) <;> simp [*, SimItem.signalRow])
  · exact table_of_feeds 49 _ _ _ (h2 49) (by intro x; rw [feeds, hstep]; cases c0 : d.anyEnergy (detActive d x) <;> cases c1 : detLit d x <;> cases c2 : anyPulse f (detWfs d x) <;> simp [*, SimItem.bufferRow])
  · exact table_of_feeds 16 _ _ _ (h2 16) (by intro x; rw [feeds, hstep]; cases c0 : d.anyEnergy (detActive d x) <;> cases c1 : detLit d x <;> cases c2 : anyPulse f (detWfs d x) <;> simp [*, SimItem.number])
  · have := count_of_feeds 2 (fun _ => true) hi (.slice (.branchSide .refl)) (h2 2) (by intro x; rw [feeds, hstep]; cases c0 : d.anyEnergy (detActive d x) <;> cases c1 : detLit d x <;> cases c2 : anyPulse f (detWfs d x) <;> simp [*])
    rw [List.countP_true] at this
    exact this
  · exact countFilter_of_feeds 14 _ _ (fun x => d.anyEnergy (detActive d x)) (fun x => detLit d x) hi (.slice (.branchDown (.mapIn (.mapIn (.mapIn (.mapIn (.branchDown (.countFilter (.mapIn (.mapIn (.branchDown .refl))))))))))) (h2 14) (by intro x; rw [feeds, hstep]; cases c0 : d.anyEnergy (detActive d x) <;> cases c1 : detLit d x <;> cases c2 : anyPulse f (detWfs d x) <;> simp [*, gave, need])

/-- Both kinds of sensors have a response. -/
def detected (pmtEmpty sipmEmpty : I → Bool) (x : SimItem I A E W L M B) : Bool := !(pmtEmpty x.input || sipmEmpty x.input)

theorem buffy_step (pmtEmpty sipmEmpty : I → Bool) (bin : I → W) (f : BufFns W L M B) (order : W → B → B) (x : SimItem I A E W L M B) :
    step (buffyPipe pmtEmpty sipmEmpty bin f order) x =
    (let y : SimItem I A E W L M B := { x with eventPassed := some (detected pmtEmpty sipmEmpty x) }
     let u : SimItem I A E W L M B := { y with wfs := some (bin x.input), pulses := some (f.find (bin x.input)), signal := some (anyPulse f (bin x.input)) }
     let v : SimItem I A E W L M B := { u with times := some (f.times (f.find (bin x.input)) x.time (bin x.input)), buffers := some (f.buffers (f.find (bin x.input)) (bin x.input)),
                                               ordered := some (order (bin x.input) (f.buffers (f.find (bin x.input)) (bin x.input))) }
     if detected pmtEmpty sipmEmpty x then
       if anyPulse f (bin x.input) then some (v, [(2, x), (5, y), (6, y), (43, u), (44, u), (49, v), (16, v)])
       else some (u, [(2, x), (5, y), (6, y), (43, u), (44, u)])
     else some (y, [(2, x), (5, y), (6, y)])) := by
  cases h1 : pmtEmpty x.input <;> cases h2 : sipmEmpty x.input <;> cases h3 : anyPulse f (bin x.input) <;> unfold anyPulse at h3 <;>
  simp [detected, buffyPipe, buffersPipe, pipe, spyCount, mapField, writer, need, step, steps, Nets.ofList, h1, h2, h3, SimItem.respRow, SimItem.signalRow, SimItem.bufferRow,
    SimItem.number, SimItem.timesArgs, SimItem.orderArgs]

/-- **C69** buffy, for any events, range and functions.  `Filters/detected_events` has a row for every event of the range and `Filters/signal` one for every event with a response in both planes; the buffers, in the order of the
sensors, and the list of event numbers have exactly the events that pass both filters, in the order of the source; the counters agree. -/
theorem buffy_accounts (pmtEmpty sipmEmpty : I → Bool) (bin : I → W) (f : BufFns W L M B) (order : W → B → B) (start : Nat) (stop : Option Nat) (gap : Nat) (xs : List (SimItem I A E W L M B)) :
    (push xs (buffy pmtEmpty sipmEmpty bin f order start stop gap)).exc = none ∧
    table 5 SimItem.respRow (push xs (buffy pmtEmpty sipmEmpty bin f order start stop gap)) = (pySlice start stop (gap + 1) xs).map (fun x => (x.event, detected pmtEmpty sipmEmpty x)) ∧
    table 43 SimItem.signalRow (push xs (buffy pmtEmpty sipmEmpty bin f order start stop gap)) = ((pySlice start stop (gap + 1) xs).filter (fun x => detected pmtEmpty sipmEmpty x)).map (fun x => (x.event, anyPulse f (bin x.input))) ∧
    table 49 (SimItem.bufferRow true) (push xs (buffy pmtEmpty sipmEmpty bin f order start stop gap)) = ((pySlice start stop (gap + 1) xs).filter (fun x => detected pmtEmpty sipmEmpty x && anyPulse f (bin x.input))).map
      (fun x => (x.event, f.times (f.find (bin x.input)) x.time (bin x.input), order (bin x.input) (f.buffers (f.find (bin x.input)) (bin x.input)))) ∧
    table 16 SimItem.number (push xs (buffy pmtEmpty sipmEmpty bin f order start stop gap)) = ((pySlice start stop (gap + 1) xs).filter (fun x => detected pmtEmpty sipmEmpty x && anyPulse f (bin x.input))).map (fun x => x.event) ∧
    futures 2 (push xs (buffy pmtEmpty sipmEmpty bin f order start stop gap)) = [.num (pySlice start stop (gap + 1) xs).length] ∧
    futures 6 (push xs (buffy pmtEmpty sipmEmpty bin f order start stop gap)) = [.passedFailed ((pySlice start stop (gap + 1) xs).countP (fun x => detected pmtEmpty sipmEmpty x)) ((pySlice start stop (gap + 1) xs).countP (fun x => !detected pmtEmpty sipmEmpty x))] := by
  have hs : (buffyPipe (A := A) (E := E) pmtEmpty sipmEmpty bin f order).Sums := by
    simp [buffyPipe, buffersPipe, pipe, spyCount, mapField, writer, filterSome, Net.Sums, Nets.Sums, Nets.ofList]
  have hi : (buffy (A := A) (E := E) pmtEmpty sipmEmpty bin f order start stop gap).ids.Nodup := by
    simp [buffy, buffyPipe, buffersPipe, pipe, spyCount, mapField, writer, filterSome, Net.ids, Nets.ids, Nets.ofList]
  have hstep := buffy_step (A := A) (E := E) pmtEmpty sipmEmpty bin f order
  obtain ⟨h1, h2⟩ := sliced_run 0 start stop gap true (buffyPipe pmtEmpty sipmEmpty bin f order) hs xs (by intro x _; rw [hstep]; cases c0 : detected pmtEmpty sipmEmpty x <;> cases c1 : anyPulse f (bin x.input) <;> simp [*])
  refine ⟨h1, ?_, ?_, ?_, ?_, ?_, ?_⟩
  · exact table_of_feeds_all 5 _ _ (h2 5) (by intro x; rw [feeds, hstep]; cases c0 : detected pmtEmpty sipmEmpty x <;> cases c1 : anyPulse f (bin x.input) <;> simp [*, SimItem.respRow])
  · exact table_of_feeds 43 _ _ _ (h2 43) (by intro x; rw [feeds, hstep]; cases c0 : detected pmtEmpty sipmEmpty x <;> cases c1 : anyPulse f (bin x.input) <;> simp [*, SimItem.signalRow])
  · exact table_of_feeds 49 _ _ _ (h2 49) (by intro x; rw [feeds, hstep]; cases c0 : detected pmtEmpty sipmEmpty x <;> cases c1 : anyPulse f (bin x.input) <;> simp [*, SimItem.bufferRow])
  · exact table_of_feeds 16 _ _ _ (h2 16) (by intro x; rw [feeds, hstep]; cases c0 : detected pmtEmpty sipmEmpty x <;> cases c1 : anyPulse f (bin x.input) <;> simp [*, SimItem.number])
  · have := count_of_feeds 2 (fun _ => true) hi (.slice (.branchSide .refl)) (h2 2) (by intro x; rw [feeds, hstep]; cases c0 : detected pmtEmpty sipmEmpty x <;> cases c1 : anyPulse f (bin x.input) <;> simp [*])
    rw [List.countP_true] at this
    exact this
  · exact countFilter_of_feeds 6 _ _ (fun _ => true) (fun x => detected pmtEmpty sipmEmpty x) hi (.slice (.branchDown (.mapIn (.branchDown .refl)))) (h2 6) (by intro x; rw [feeds, hstep]; cases c0 : detected pmtEmpty sipmEmpty x <;> cases c1 : anyPulse f (bin x.input) <;> simp [*, gave, need])

/-- Non-vacuity: the hits are numbers; active those above 2, a photon for each unit above 3, a pulse for each number above 10. -/
def exampleDet : DetFns (List Nat) (List Nat) Nat (List Nat) where
  delayed := fun _ h => h
  candidates := fun h => h
  active := fun h => h.filter (2 < ·)
  anyEnergy := fun a => decide (a.length > 0)
  simulate := fun a => (a.map (· - 3)).sum
  photons := fun e => e
  waveforms := fun h e => h ++ [e]

def exampleBuf : BufFns (List Nat) (List Nat) Nat (List Nat) where
  find := fun w => w.filter (10 < ·)
  npulses := fun l => l.length
  times := fun _ t _ => t.toNat
  buffers := fun l _ => l

example : table 13 SimItem.darkRow (push [(⟨1, 10, [3, 12], none, none, none, none, none, none, none, none, none, none, none⟩ : SimItem (List Nat) (List Nat) Nat (List Nat) (List Nat) Nat (List Nat)), ⟨2, 20, [1], none, none, none, none, none, none, none, none, none, none, none⟩, ⟨3, 30, [], none, none, none, none, none, none, none, none, none, none, none⟩, ⟨4, 40, [2, 3], none, none, none, none, none, none, none, none, none, none, none⟩] (detsim exampleDet exampleBuf 0 none 0)) = [(1, true), (4, false)] ∧
    table 49 (SimItem.bufferRow false) (push [(⟨1, 10, [3, 12], none, none, none, none, none, none, none, none, none, none, none⟩ : SimItem (List Nat) (List Nat) Nat (List Nat) (List Nat) Nat (List Nat)), ⟨2, 20, [1], none, none, none, none, none, none, none, none, none, none, none⟩, ⟨3, 30, [], none, none, none, none, none, none, none, none, none, none, none⟩, ⟨4, 40, [2, 3], none, none, none, none, none, none, none, none, none, none, none⟩] (detsim exampleDet exampleBuf 0 none 0)) = [(1, 10, [12])] ∧
    table 43 SimItem.signalRow (push [(⟨1, 10, [3, 12], none, none, none, none, none, none, none, none, none, none, none⟩ : SimItem (List Nat) (List Nat) Nat (List Nat) (List Nat) Nat (List Nat)), ⟨2, 20, [1], none, none, none, none, none, none, none, none, none, none, none⟩, ⟨3, 30, [], none, none, none, none, none, none, none, none, none, none, none⟩, ⟨4, 40, [2, 3], none, none, none, none, none, none, none, none, none, none, none⟩] (buffy List.isEmpty (fun _ => false) (fun i => i) exampleBuf (fun _ b => b.reverse) 0 none 0)) = [(1, true), (2, false), (4, false)] := by
  refine ⟨?_, ?_, ?_⟩
  · rw [(detsim_accounts exampleDet exampleBuf 0 none 0 _).2.2.1]; rfl
  · rw [(detsim_accounts exampleDet exampleBuf 0 none 0 _).2.2.2.2.1]; rfl
  · rw [(buffy_accounts _ _ _ exampleBuf _ 0 none 0 _).2.2.1]; rfl

end sim
end Verif.Cities
