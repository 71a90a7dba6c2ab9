import Verif.Model.Tracks
/-!
# Model of `drop_end_point_voxels` (`invisible_cities/reco/paolina_functions.py:332-417`)

The code works on a deep copy of the voxels and mutates the copies in place; the model threads the current list of voxels.  The energies of the
dropped voxels and of their hits are set to NaN in the code; the model keeps for them the values they had when dropped.
-/
namespace Verif.Tracks
open Verif.Voxels

/-- Parameters of `drop_end_point_voxels`.  `paths` stands for `shortest_paths` and `dist` for the distance between points (`np.linalg.norm`): they are
arbitrary functions. -/
structure DropParams where
  threshold : ℚ
  minVoxels : Nat
  contiguity : Contiguity
  paths : List Node → Table Node
  dist : Point → Point → ℚ

/-- `np.isclose(a, b)` with the default tolerances. -/
def isclose (a b : ℚ) : Bool := decide (|a - b| ≤ 1 / 10 ^ 8 + 1 / 10 ^ 5 * |b|)

/-- `min` of a sequence: `ValueError` if empty. -/
def pyMin : List ℚ → Except PyErr ℚ
  | [] => .error .valueError
  | x :: xs => .ok (npMin (x :: xs))

def Node.pos (v : Node) : Point := ⟨v.vox.x, v.vox.y, v.vox.z⟩
def hitPos (h : PHit) : Point := ⟨h.x, h.y, h.z⟩

/-- The energy of a voxel selected by `close` grows by a factor (paolina_functions.py:357-358). -/
def shareEnergy (close : Node → Bool) (k : ℚ) (v : Node) : Node :=
  if close v then { v with vox := { v.vox with e := v.vox.e + k * v.vox.e } } else v

/-- The branch of `drop_voxel` for voxels without hits (paolina_functions.py:350-359).  Simplification: when the energies of the closest voxels add up to
zero the code divides by zero; the model raises `ZeroDivisionError` (with numpy floats the energies become NaN or infinite). -/
def dropWithoutHits (p : DropParams) (voxels : List Node) (the : Node) : Except PyErr (List Node) :=
  let nbs := voxels.filter fun v => neighbours the.vox v.vox
  match pyMin (nbs.map fun v => p.dist the.pos v.pos) with
  | .error e => .error e
  | .ok minDist =>
    let close := fun v : Node => neighbours the.vox v.vox && isclose (p.dist the.pos v.pos) minDist
    let sumEn := ((voxels.filter close).map fun v => v.vox.e).sum
    if sumEn = 0 then .error .zeroDivision
    else .ok (voxels.map (shareEnergy close (the.vox.e / sumEn)))

/-- The hits of `v` selected by `close`, scaled by `k` (paolina_functions.py:380-383). -/
def scaleHits (close : PHit → Bool) (k : ℚ) (v : Node) : Node :=
  { v with vox := { v.vox with hits := v.vox.hits.map fun h => { h with e := if close h then h.e * k else h.e } } }

/-- `v.E = v.hits[e_type].sum()` (paolina_functions.py:387). -/
def recompute (v : Node) : Node := { v with vox := { v.vox with e := (v.vox.hits.map PHit.e).sum } }

/-- The branch of `drop_voxel` for voxels with hits (paolina_functions.py:361-387).  Same simplification as above for a zero total. -/
def dropWithHits (p : DropParams) (voxels : List Node) (the : Node) : Except PyErr (List Node) :=
  match averagePosition the.vox.hits with
  | .error e => .error e
  | .ok bary =>
    let nbs := voxels.filter fun v => neighbours the.vox v.vox
    match nbs.mapM fun v => pyMin (v.vox.hits.map fun h => p.dist (hitPos h) bary) with
    | .error e => .error e
    | .ok mins =>
      match pyMin mins with
      | .error e => .error e
      | .ok minDist =>
        let close := fun h : PHit => isclose (p.dist (hitPos h) bary) minDist
        let totalE := (nbs.map fun v => ((v.vox.hits.filter close).map PHit.e).sum).sum
        if totalE = 0 then .error .zeroDivision
        else .ok (voxels.map fun v => recompute (if neighbours the.vox v.vox then scaleHits close (1 + the.vox.e / totalE) v else v))

/-- `drop_voxel` (paolina_functions.py:343-387), always called with the default contiguity (line 413). -/
def dropVoxel (p : DropParams) (voxels : List Node) (the : Node) : Except PyErr (List Node) :=
  if the.vox.hits.length = 0 then dropWithoutHits p voxels the else dropWithHits p voxels the

/-- `mod_voxels` and `dropped_voxels` (paolina_functions.py:393-394). -/
structure DState where
  voxels : List Node
  dropped : List Node
deriving DecidableEq, Repr

/-- The body of the loop over the extremes (paolina_functions.py:405-415); the second component tells whether something was modified.  An extreme that is no
longer among the voxels has NaN energy, which is not below the threshold. -/
def tryDrop (p : DropParams) (st : DState) (id : Nat) : Except PyErr (DState × Bool) :=
  match st.voxels.find? fun v => v.id == id with
  | none => .ok (st, false)
  | some extreme =>
    if extreme.vox.e < p.threshold then
      if 1 < st.voxels.countP fun v => neighbours extreme.vox v.vox p.contiguity then
        match dropVoxel p (st.voxels.filter fun v => v.id != id) extreme with
        | .error e => .error e
        | .ok voxels => .ok (⟨voxels, st.dropped ++ [extreme]⟩, true)
      else .ok (st, false)
    else .ok (st, false)

/-- The loop over the tracks (paolina_functions.py:401-415). -/
def passTracks (p : DropParams) : List (List Node) → DState → Bool → Except PyErr (DState × Bool)
  | [], st, m => .ok (st, m)
  | t :: ts, st, m =>
    if t.length < p.minVoxels then passTracks p ts st m
    else
      match findExtremaAndLength (p.paths t) with
      | .error e => .error e
      | .ok (none, _) => .error .attributeError
      | .ok (some (a, b), _) =>
        match tryDrop p st a.id with
        | .error e => .error e
        | .ok (st1, m1) =>
          match tryDrop p st1 b.id with
          | .error e => .error e
          | .ok (st2, m2) => passTracks p ts st2 (m || m1 || m2)

/-- How a call ends. -/
inductive DropOutcome where
  | done (kept dropped : List Node)
  | raises (e : PyErr)
  | neverEnds
deriving DecidableEq, Repr

/-- The `while modified` loop (paolina_functions.py:396-417). -/
def dropLoop (p : DropParams) (st : DState) : DropOutcome :=
  match passTracks p (makeTrackGraphs st.voxels p.contiguity) st false with
  | .error e => .raises e
  | .ok (st', modified) =>
    if modified then
      if st'.voxels.length < st.voxels.length then dropLoop p st' else .neverEnds
    else .done st'.voxels st'.dropped
termination_by st.voxels.length

/-- `drop_end_point_voxels` (paolina_functions.py:332-417); no voxels is an `IndexError` (line 341). -/
def dropEndPointVoxels (p : DropParams) (voxels : List Node) : DropOutcome :=
  if voxels.isEmpty then .raises .indexError else dropLoop p ⟨voxels, []⟩

end Verif.Tracks
