import Verif.Model.Esmeralda
/-!
# Model of what isaura does with an event (`invisible_cities/cities/isaura.py`, `cities/components.py`)

The hits of beersheba go, as they are read, to the topology that it shares with esmeralda (`Model/Esmeralda`), with the energy `E` instead of `Ec`.  The accounting of events in a run is in `Model/Cities`.
-/
namespace Verif.Isaura

/-! ### The columns of the table of hits -/

/-- `DataFrame.assign` of one column: at the end, if it is new. -/
def assign (cols : List String) (c : String) : List String := if c ∈ cols then cols else cols ++ [c]

/-- `df.loc[:, names]`: `KeyError` if one of the columns is missing. -/
def select (cols names : List String) : Except PyErr (List String) :=
  if names.all fun c => cols.contains c then .ok names else .error .keyError

/-- The columns of the table of `create_deconvolution_df` (beersheba.py:259, 268-273). -/
def imageColumns : List String := ["event", "npeak", "X", "Y", "Z", "E"]

/-- The columns of /DECO/Events as beersheba writes them: `apply_deconvolution` adds those of the peak (beersheba.py:228) and `event_info_adder` the time (beersheba.py:96-97, 512). -/
def decoColumns : List String := assign (assign (assign (assign imageColumns "npeak") "Xpeak") "Ypeak") "time"

/-- The columns of the hits given by `dhits_from_files` for a table with these columns (components.py:742-746): `dhits.E` raises `AttributeError` if there is no `E`. -/
def readColumns (cols : List String) : Except PyErr (List String) :=
  if "E" ∈ cols then
    if "Xpeak" ∈ assign cols "Q" then select (assign cols "Q") ["event", "time", "npeak", "Xpeak", "Ypeak", "X", "Y", "Z", "Q", "E", "Ec", "track_id", "Ep"]
    else select (assign cols "Q") ["event", "npeak", "X", "Y", "Z", "Q", "E"]
  else .error .attributeError

/-! ### An event -/

/-- A row of /DECO/Events.  `info`: the columns that are not used. -/
structure InHit where
  info : Nat
  npeak : Nat
  x : ℚ
  y : ℚ
  z : ℚ
  e : ℚ
deriving DecidableEq, Repr

/-- The hit as it reaches the topology: `Q` is `E` (components.py:742) and so are `Ec` and `Ep` (`Efield_copier` with `HitEnergy.E`, components.py:1438-1442, isaura.py:103-107). -/
def toHit (h : InHit) : Hits.Hit := ⟨h.info, h.npeak, h.x, h.y, h.z, h.e, some h.e, some h.e, none⟩

/-- The configuration of the topology; the other parameters of esmeralda are not used. -/
def cfg (p : Paolina.Params) : Esmeralda.Cfg := ⟨fun _ _ => 0, 1, 1, [], [], false, .maximum, none, false, 0, 0, false, p⟩

/-- An event in isaura (isaura.py:109-117). -/
def isauraEvent (p : Paolina.Params) (event : Int) (hits : List InHit) : Esmeralda.Result := Esmeralda.topology (cfg p) event (hits.map toHit)

end Verif.Isaura
