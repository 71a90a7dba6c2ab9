import Verif.Model.Zemrude
import Verif.Spec.Selection
import Verif.Spec.KrMap
import Verif.Spec.KrApply
import Verif.Spec.TimeEvol
/-!
# Specification of `zemrude` (property C105)
-/
namespace Verif.Zemrude

/-- The columns of the selection, by their names: the energy is the corrected one. -/
def selCols (k : Kr) : Selection.Row :=
  { event := k.event, time := some k.time, zrms := some k.zrms, dt := some k.dt, ec := k.ec, s2t := some k.s2t, r := some k.r, nsipm := some k.nsipm }

/-- The columns of the map: the energy is that of the S2, not corrected. -/
def mapCols (k : Kr) : KrMap.Evt := { x := k.x, y := k.y, dt := k.dt, s2e := k.s2e, time := k.time }

/-- The columns of a correction: the position is x, y and drift time. -/
def hitCols (k : Kr) : KrApply.Hit := { dt := k.dt, x := k.x, y := k.y, e := k.s2e }

/-- The columns of the time evolution. -/
def sliceCols (k : Kr) : TimeEvol.Row :=
  { event := k.event, time := k.time, x := some k.x, y := some k.y, dt := k.dt, s1e := k.s1e, s2e := k.s2e, ec := k.ec, ec2 := k.ec2 }

/-- The columns of a map used in a correction. -/
def binCols (o : KrMap.Out) : KrApply.Bin := { k := o.k, dt := o.dt, x := o.x, y := o.y, mu := o.fit.mu }

/-- The energy of the nearest bin of a map that is not NaN corrects the energy of `k`, in keV. -/
def CorrectedBy (krmap : List KrApply.Bin) (k : Kr) (e : Option ℚ) : Prop :=
  ∃ b mu, KrApply.IsNearestBin krmap (hitCols k) b mu ∧ e = some (k.s2e / mu * (4155 / 100))

/-- The map of the events of a table: one row per bin, in order, with its centre; the number of events, as the fit counts them, of those in the bin; and, if
the fit of their energies has a value, that value (the others may be filled with those of the neighbours). -/
structure IsMap (fit : List ℚ → KrMap.Fit) (c : KrMap.Config) (rows : List Kr) (krmap : List KrMap.Out) : Prop where
  bins : (krmap.map fun o => (o.k, o.i, o.j)) = (KrMap.cells c.ndt c.nxy c.nxy).map fun p => ((p.1 : Int), (p.2.1 : Int), (p.2.2 : Int))
  value : ∀ o ∈ krmap, ∃ k i j : Nat, o.k = k ∧ o.i = i ∧ o.j = j ∧
    o.dt = KrMap.centre c.dt c.ndt k ∧ o.x = KrMap.centre c.xy c.nxy i ∧ o.y = KrMap.centre c.xy c.nxy j ∧
    (KrMap.energies c (rows.map mapCols) k i j = [] → o.fit.nevents = none) ∧
    (KrMap.energies c (rows.map mapCols) k i j ≠ [] → o.fit.nevents = (fit (KrMap.energies c (rows.map mapCols) k i j)).nevents ∧
      ∀ m, (fit (KrMap.energies c (rows.map mapCols) k i j)).mu = some m → o.fit.mu = some m)

/-- The metadata of a map of a table. -/
structure IsMeta (c : KrMap.Config) (rows : List Kr) (m : Meta) : Prop where
  extent : m.extent = rows.length
  rmax : ∃ k ∈ rows, m.rmax = some k.r ∧ ∀ k' ∈ rows, k'.r ≤ k.r
  zmax : ∃ k ∈ rows, m.zmax = some k.z ∧ ∀ k' ∈ rows, k'.z ≤ k.z
  sizes : m.binDt = (c.dt.2 - c.dt.1) / c.ndt ∧ m.binXY = (c.xy.2 - c.xy.1) / c.nxy
  dtbins : m.dtbins.Nodup ∧ ∀ n, n ∈ m.dtbins ↔ ∃ k : Nat, k < c.ndt ∧ n = k
  xbins : m.xbins.Nodup ∧ ∀ n, n ∈ m.xbins ↔ ∃ k : Nat, k < c.nxy ∧ n = k
  ybins : m.ybins.Nodup ∧ ∀ n, n ∈ m.ybins ↔ ∃ k : Nat, k < c.nxy ∧ n = k

/-- The requirements of a configuration: bins and slices that are not empty. -/
structure Good (c : Config) : Prop where
  xy : c.map.xy.1 < c.map.xy.2
  dt : c.map.dt.1 < c.map.dt.2
  nxy : 0 < c.map.nxy
  ndt : 0 < c.map.ndt
  hours : 0 < c.sliceHours

/-- A map that can correct energies: the reference exists and is not 0, and no bin is 0. -/
def Usable (c : Config) (krmap : List KrApply.Bin) : Prop :=
  (∃ n, KrApply.normalization krmap c.norm c.region = .ok (some n) ∧ n ≠ 0) ∧ ∀ b ∈ krmap, b.mu ≠ some 0

end Verif.Zemrude
