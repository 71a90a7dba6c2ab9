import Verif.Model.PMaps
import Verif.Model.PMapsIO
/-!
# Model of point-like events: `KrEvent` (`evm/event_model.py`) and `build_pointlike_event` (`cities/components.py`)

Simplifications: the attributes of a cluster that need square roots or angles (`R`, `Phi`, `Xrms`, `Yrms`) are given with the
cluster, and the rms of a peak is an arbitrary function.  A column of unsigned 16-bit integers refuses Python integers
outside its range (`OverflowError`, the behaviour of NumPy 2).
-/
namespace Verif.KrEvent
open Verif.PMaps

/-- A float of the event: `none` is NaN. -/
abbrev Val := Option ℚ

/-- `NN` (types/ic_types.py:8). -/
def NN : ℚ := -999999

/-- Attributes of an S1 (event_model.py:324-327). -/
inductive S1Attr where
  | w | h | e | t
deriving DecidableEq, Repr

/-- Attributes of an S2 with one number per S2 (event_model.py:330-346), except `Nsipm`. -/
inductive S2Attr where
  | w | h | e | q | t | qmax | x | y | r | phi | xrms | yrms | zrms
deriving DecidableEq, Repr

/-- `KrEvent` (event_model.py:319-346).  The attributes are lists, except that `qmax` can become a number: `none` here. -/
structure KrEvent where
  event : Int
  time : ℚ
  nS1 : Nat
  nS2 : Nat
  s1 : S1Attr → List Val
  s2 : S2Attr → Option (List Val)
  nsipm : List Int
  dt : List (List Val)
  z : List (List Val)

/-- `KrEvent.__init__` followed by `nS1 = 0` and `nS2 = 0` (event_model.py:321-346, components.py:975-987). -/
def KrEvent.new (event : Int) (time : ℚ) : KrEvent :=
  ⟨event, time, 0, 0, fun _ => [], fun _ => some [], [], [], []⟩

/-- The attributes replaced by `[nan]` when there is no S2 (event_model.py:353-359): `Xrms` and `Yrms` are not among them. -/
def defaultedS2 : S2Attr → Bool
  | .w | .h | .e | .t | .q | .x | .y | .r | .phi | .zrms => true
  | .qmax | .xrms | .yrms => false

/-- The S2 attributes after `fill_defaults` (event_model.py:353-359). -/
def fillS2 (ev : KrEvent) (a : S2Attr) : Option (List Val) :=
  if ev.nS2 = 0 then (if a = .qmax then none else if defaultedS2 a then some [none] else ev.s2 a) else ev.s2 a

/-- The S1 attributes after `fill_defaults` (event_model.py:349-351). -/
def fillS1 (ev : KrEvent) (a : S1Attr) : List Val := if ev.nS1 = 0 then [none] else ev.s1 a

/-- `Z` or `DT` after `fill_defaults` (event_model.py:361-363). -/
def fillZ (ev : KrEvent) (z : List (List Val)) : List (List Val) :=
  if ev.nS1 = 0 ∨ ev.nS2 = 0 then List.replicate (max ev.nS2 1) (List.replicate (max ev.nS1 1) none) else z

/-- `fill_defaults` (event_model.py:348-363). -/
def fillDefaults (ev : KrEvent) : KrEvent :=
  { ev with s1 := fillS1 ev, s2 := fillS2 ev, dt := fillZ ev ev.dt, z := fillZ ev ev.z }

/-- A row of the table (evm/nh5.py:125-155). -/
structure Row where
  event : Int
  time : ℚ
  s1Peak : Nat
  s2Peak : Nat
  nS1 : Nat
  nS2 : Nat
  s1 : S1Attr → Val
  s2 : S2Attr → Val
  nsipm : Nat
  dt : Val
  z : Val

/-- `xs[i]` of a list. -/
def item {α : Type} (xs : List α) (i : Nat) : Except PyErr α :=
  match xs[i]? with
  | some x => .ok x
  | none => .error .indexError

/-- `xs[i]` where `xs` may be a number. -/
def itemOf {α : Type} (xs : Option (List α)) (i : Nat) : Except PyErr α :=
  match xs with
  | some xs => item xs i
  | none => .error .typeError

/-- Assignment of a Python integer to a `UInt16` column. -/
def toU16 (n : Int) : Except PyErr Nat := if 0 ≤ n ∧ n ≤ 65535 then .ok n.toNat else .error (.other "OverflowError")

/-- `overflow_protection(i, u16max, ...) if n else u16max` (event_model.py:377-378). -/
def peakNumber (n i : Nat) : Nat := if n = 0 then 65535 else PMapsIO.storedPeakNumber i

/-- The body of the double loop (event_model.py:375-404): one row, the columns being set in this order. -/
def makeRow (ev : KrEvent) (i j : Nat) : Except PyErr Row := do
  let nS1 ← toU16 ev.nS1
  let nS2 ← toU16 ev.nS2
  let s1w ← item (ev.s1 .w) i
  let s1h ← item (ev.s1 .h) i
  let s1e ← item (ev.s1 .e) i
  let s1t ← item (ev.s1 .t) i
  let s2w ← itemOf (ev.s2 .w) j
  let s2h ← itemOf (ev.s2 .h) j
  let s2e ← itemOf (ev.s2 .e) j
  let s2q ← itemOf (ev.s2 .q) j
  let s2t ← itemOf (ev.s2 .t) j
  let qmax ← itemOf (ev.s2 .qmax) j
  let nsipm ← item ev.nsipm j
  let nsipm ← toU16 nsipm
  let dts ← item ev.dt j
  let dt ← item dts i
  let zs ← item ev.z j
  let z ← item zs i
  let zrms ← itemOf (ev.s2 .zrms) j
  let x ← itemOf (ev.s2 .x) j
  let y ← itemOf (ev.s2 .y) j
  let r ← itemOf (ev.s2 .r) j
  let phi ← itemOf (ev.s2 .phi) j
  let xrms ← itemOf (ev.s2 .xrms) j
  let yrms ← itemOf (ev.s2 .yrms) j
  pure { event := ev.event, time := ev.time, s1Peak := peakNumber ev.nS1 i, s2Peak := peakNumber ev.nS2 j,
         nS1 := nS1, nS2 := nS2,
         s1 := fun a => match a with | .w => s1w | .h => s1h | .e => s1e | .t => s1t
         s2 := fun a => match a with
           | .w => s2w | .h => s2h | .e => s2e | .q => s2q | .t => s2t | .qmax => qmax | .x => x | .y => y | .r => r
           | .phi => phi | .xrms => xrms | .yrms => yrms | .zrms => zrms
         nsipm := nsipm, dt := dt, z := z }

/-- The pairs of indices of the double loop (event_model.py:369-374). -/
def pairs (ev : KrEvent) : List (Nat × Nat) :=
  (List.range (max ev.nS1 1)).flatMap fun i => (List.range (max ev.nS2 1)).map fun j => (i, j)

/-- The double loop: the rows appended and the exception, if any. -/
def storePairs (ev : KrEvent) : List (Nat × Nat) → List Row × Option PyErr
  | [] => ([], none)
  | (i, j) :: rest => match makeRow ev i j with
    | .error e => ([], some e)
    | .ok r => (r :: (storePairs ev rest).1, (storePairs ev rest).2)

/-- `KrEvent.store` (event_model.py:365-404). -/
def store (ev : KrEvent) : List Row × Option PyErr := storePairs (fillDefaults ev) (pairs ev)

/-! ### `build_pointlike_event` -/

/-- What `build_pointlike_event` reads from a cluster. -/
structure Cluster where
  nsipm : Int
  q : ℚ
  x : ℚ
  y : ℚ
  xrms : ℚ
  yrms : ℚ
  r : ℚ
  phi : ℚ

/-- `NNN()` (types/ic_types.py:14-17). -/
def nnn : Cluster := ⟨-999999, NN, NN, NN, NN, NN, NN, NN⟩

/-- The subclasses of `XYRecoFail` (core/exceptions.py:17-33). -/
def isXYRecoFail : PyErr → Bool
  | .other n => ["XYRecoFail", "SipmEmptyList", "SipmEmptyListAboveQthr", "ClusterEmptyList", "SipmZeroCharge",
      "SipmZeroChargeAboveQthr"].contains n
  | _ => false

/-- What the builder depends on (components.py:965-972): drift velocity, positions of the SiPMs, `sipm_charge_array` with
`single_point = True`, reconstruction algorithm and rms of a peak, the last three arbitrary. -/
structure Builder where
  driftV : ℚ
  xys : List (ℚ × ℚ)
  charges : Peak → Except PyErr (List ℚ)
  reco : List (ℚ × ℚ) → List ℚ → Except PyErr (List Cluster)
  rms : Peak → ℚ

/-- `units.mus / units.ns` (core/system_of_units.py). -/
def mus : ℚ := 1000

/-- `sipm_xys[peak.sipms.ids]` (components.py:998): the ids of `SiPMResponses.build_empty_instance()` are an empty array of floats,
which NumPy does not accept as indices. -/
def positions (xys : List (ℚ × ℚ)) (r : Responses) : Except PyErr (List (ℚ × ℚ)) :=
  if r = Responses.empty then .error .indexError else npTake xys r.ids

/-- `compute_z_and_dt` (components.py:958-962). -/
def zOf (tS2 driftV tS1 : ℚ) : ℚ := (tS2 - tS1) * driftV
def dtOf (tS2 tS1 : ℚ) : ℚ := (tS2 - tS1) * (1 / mus)

/-- The quantities of an S1 (components.py:981-985). -/
def addS1 (ev : KrEvent) (p : Peak) : Except PyErr KrEvent :=
  match p.height, p.timeAtMaxEnergy with
  | .error e, _ => .error e
  | _, .error e => .error e
  | .ok h, .ok t => .ok { ev with
      nS1 := ev.nS1 + 1
      s1 := fun a => ev.s1 a ++ [some (match a with | .w => p.width | .h => h | .e => p.totalEnergy | .t => t)] }

/-- The loop over the S1s (components.py:978-985): `zip` of the flags and the peaks. -/
def addS1s (ev : KrEvent) : List (Bool × Peak) → Except PyErr KrEvent
  | [] => .ok ev
  | (passed, p) :: rest => if !passed then addS1s ev rest else match addS1 ev p with
    | .error e => .error e
    | .ok ev => addS1s ev rest

/-- Cluster, `Z`, `DT` and `Zrms` of an S2 (components.py:1001-1011). -/
structure S2Reco where
  c : Cluster
  z : List Val
  dt : List Val
  zrms : ℚ

/-- The `try` block (components.py:1001-1011); an empty list of clusters is an `IndexError`. -/
def recoS2 (b : Builder) (ev : KrEvent) (p : Peak) (tS2 : ℚ) (xys : List (ℚ × ℚ)) (qs : List ℚ) : Except PyErr S2Reco :=
  match b.reco xys qs with
  | .error e => if isXYRecoFail e then
      .ok ⟨nnn, List.replicate ev.nS1 (some NN), List.replicate ev.nS1 (some NN), NN⟩ else .error e
  | .ok [] => .error .indexError
  | .ok (c :: _) => .ok ⟨c, (ev.s1 .t).map (Option.map (zOf tS2 b.driftV)), (ev.s1 .t).map (Option.map (dtOf tS2)), b.rms p / mus⟩

/-- `max(qs)` of Python. -/
def pyMax : List ℚ → Except PyErr ℚ
  | [] => .error .valueError
  | x :: xs => .ok (xs.foldl max x)

/-- The quantities of an S2 (components.py:992-1024). -/
def addS2 (b : Builder) (ev : KrEvent) (p : Peak) : Except PyErr KrEvent := do
  let h ← p.height
  let t ← p.timeAtMaxEnergy
  let xys ← positions b.xys p.sipms
  let qs ← b.charges p
  let r ← recoS2 b ev p t xys qs
  let qmax ← pyMax qs
  pure { ev with
    nS2 := ev.nS2 + 1
    s2 := fun a => (ev.s2 a).map (· ++ [some (match a with
      | .w => p.width / mus | .h => h | .e => p.totalEnergy | .q => r.c.q | .t => t | .qmax => qmax | .x => r.c.x | .y => r.c.y
      | .r => r.c.r | .phi => r.c.phi | .xrms => r.c.xrms | .yrms => r.c.yrms | .zrms => r.zrms)])
    nsipm := ev.nsipm ++ [r.c.nsipm]
    dt := ev.dt ++ [r.dt]
    z := ev.z ++ [r.z] }

/-- The loop over the S2s (components.py:989-1024). -/
def addS2s (b : Builder) (ev : KrEvent) : List (Bool × Peak) → Except PyErr KrEvent
  | [] => .ok ev
  | (passed, p) :: rest => if !passed then addS2s b ev rest else match addS2 b ev p with
    | .error e => .error e
    | .ok ev => addS2s b ev rest

/-- `build_pointlike_event` (components.py:974-1026). -/
def build (b : Builder) (s1flags s2flags : List Bool) (s1s s2s : List Peak) (event : Int) (timestamp : ℚ) : Except PyErr KrEvent :=
  match addS1s (KrEvent.new event (timestamp * (1 / 1000))) (s1flags.zip s1s) with
  | .error e => .error e
  | .ok ev => addS2s b ev (s2flags.zip s2s)

end Verif.KrEvent
