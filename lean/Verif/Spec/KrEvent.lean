import Verif.Model.KrEvent
/-!
# Specification of the storage of point-like events (property C42)
-/
namespace Verif.KrEvent
open Verif.PMaps

/-- The exception is one of those of a reconstruction of the position that fails: `XYRecoFail` and its subclasses. -/
def RecoFailure (e : PyErr) : Prop :=
  e = .other "XYRecoFail" ∨ e = .other "SipmEmptyList" ∨ e = .other "SipmEmptyListAboveQthr" ∨ e = .other "ClusterEmptyList" ∨ e = .other "SipmZeroCharge" ∨ e = .other "SipmZeroChargeAboveQthr"

/-- The event has one value per S1 and per S2 in every attribute. -/
structure Complete (ev : KrEvent) : Prop where
  s1 : ∀ a, (ev.s1 a).length = ev.nS1
  s2 : ∀ a, ∃ l, ev.s2 a = some l ∧ l.length = ev.nS2
  nsipm : ev.nsipm.length = ev.nS2
  dt : ev.dt.length = ev.nS2 ∧ ∀ l ∈ ev.dt, l.length = ev.nS1
  z : ev.z.length = ev.nS2 ∧ ∀ l ∈ ev.z, l.length = ev.nS1

/-- The numbers of peaks fit in 16 bits. -/
def Fits (ev : KrEvent) : Prop := ev.nS1 ≤ 65535 ∧ ev.nS2 ≤ 65535

/-- The numbers of SiPMs can be stored. -/
def SipmsOk (ev : KrEvent) : Prop := ∀ n ∈ ev.nsipm, 0 ≤ n ∧ n ≤ 65535

/-- The row of the pair formed by the S1 number `i` and the S2 number `j` of the event: the quantities of that S1, those of that S2,
and the drift time and z of the pair; without S1, the S1 number is the largest one and the quantities that need an S1 are NaN. -/
structure IsRowOf (ev : KrEvent) (i j : Nat) (r : Row) : Prop where
  event : r.event = ev.event ∧ r.time = ev.time
  counts : r.nS1 = ev.nS1 ∧ r.nS2 = ev.nS2
  s1 : 0 < ev.nS1 → r.s1Peak = i ∧ ∀ a, (ev.s1 a)[i]? = some (r.s1 a)
  noS1 : ev.nS1 = 0 → r.s1Peak = 65535 ∧ (∀ a, r.s1 a = none) ∧ r.dt = none ∧ r.z = none
  s2 : r.s2Peak = j ∧ (∀ a, ∃ l, ev.s2 a = some l ∧ l[j]? = some (r.s2 a)) ∧ ev.nsipm[j]? = some (r.nsipm : Int)
  pair : 0 < ev.nS1 → (∃ l, ev.dt[j]? = some l ∧ l[i]? = some r.dt) ∧ ∃ l, ev.z[j]? = some l ∧ l[i]? = some r.z

/-- The peaks accepted by the flags. -/
def selected (flags : List Bool) (peaks : List Peak) : List Peak := ((flags.zip peaks).filter fun x => x.1).map Prod.snd

/-- The result of the reconstruction of an S2. -/
inductive IsReco (b : Builder) (p : Peak) : Option Cluster → Prop where
  | found {xys qs c cs} : positions b.xys p.sipms = .ok xys → b.charges p = .ok qs → b.reco xys qs = .ok (c :: cs) → IsReco b p (some c)
  | failed {xys qs e} : positions b.xys p.sipms = .ok xys → b.charges p = .ok qs → b.reco xys qs = .error e → RecoFailure e →
      IsReco b p none

/-- The quantities of an S1 peak. -/
def S1Values (p : Peak) (s1 : S1Attr → Val) : Prop :=
  s1 .w = some p.width ∧ (∃ h, p.height = .ok h ∧ s1 .h = some h) ∧ s1 .e = some p.totalEnergy ∧
    ∃ t, p.timeAtMaxEnergy = .ok t ∧ s1 .t = some t

/-- The quantities of an S2 peak with its reconstruction; times in microseconds. -/
def S2Values (b : Builder) (p : Peak) (reco : Option Cluster) (s2 : S2Attr → Val) (nsipm : Int) : Prop :=
  s2 .w = some (p.width / 1000) ∧ (∃ h, p.height = .ok h ∧ s2 .h = some h) ∧ s2 .e = some p.totalEnergy ∧
  (∃ t, p.timeAtMaxEnergy = .ok t ∧ s2 .t = some t) ∧
  (∃ qs q, b.charges p = .ok qs ∧ q ∈ qs ∧ (∀ q' ∈ qs, q' ≤ q) ∧ s2 .qmax = some q) ∧
  match reco with
  | some c => s2 .q = some c.q ∧ s2 .x = some c.x ∧ s2 .y = some c.y ∧ s2 .r = some c.r ∧ s2 .phi = some c.phi ∧
      s2 .xrms = some c.xrms ∧ s2 .yrms = some c.yrms ∧ s2 .zrms = some (b.rms p / 1000) ∧ nsipm = c.nsipm
  | none => (∀ a ∈ [S2Attr.q, .x, .y, .r, .phi, .xrms, .yrms, .zrms], s2 a = some (-999999)) ∧ nsipm = -999999

/-- The drift time (microseconds) and z of a pair of peaks. -/
def PairValues (b : Builder) (s1 s2 : Peak) (reco : Option Cluster) (dt z : Val) : Prop :=
  match reco with
  | some _ => ∃ t1 t2, s1.timeAtMaxEnergy = .ok t1 ∧ s2.timeAtMaxEnergy = .ok t2 ∧ dt = some ((t2 - t1) / 1000) ∧ z = some ((t2 - t1) * b.driftV)
  | none => dt = some (-999999) ∧ z = some (-999999)

end Verif.KrEvent
