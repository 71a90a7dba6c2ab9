import Verif.Base
import Verif.Model.Frame
import Mathlib.Data.Rat.Defs
import Mathlib.Algebra.Order.Ring.Rat
import Mathlib.Tactic.NormNum
/-!
# Model of the clustering of hits (`invisible_cities/reco/hits_functions.py`, `hits_clusterizer` of `cities/components.py`)

`DBSCAN(...).fit_predict` of scikit-learn is modelled after the loop of `sklearn/cluster/_dbscan_inner.pyx`.
Numbers are exact rationals.
-/
namespace Verif.Clusters
open Verif.Frame (groupBy)

/-- A hit: the columns that are read, and the others. -/
structure Hit (α : Type) where
  event : Int
  x : ℚ
  y : ℚ
  z : ℚ
  rest : α
deriving DecidableEq, Repr

/-- `coords[:, :2] /= scale_xy; coords[:, 2] /= scale_z` (hits_functions.py:275-279, of columns of floats), for scales different from 0. -/
def coords {α : Type} (scaleXY scaleZ : ℚ) (h : Hit α) : ℚ × ℚ × ℚ :=
  (h.x / scaleXY, h.y / scaleXY, h.z / scaleZ)

/-- Square of the Euclidean distance. -/
def dist2 (p q : ℚ × ℚ × ℚ) : ℚ :=
  (p.1 - q.1) ^ 2 + (p.2.1 - q.2.1) ^ 2 + (p.2.2 - q.2.2) ^ 2

/-- `radius_neighbors` of scikit-learn with `eps=1.8` (hits_functions.py:283): the points at a distance not larger
than 1.8 from point `i`, itself included, by increasing position (the real order is not documented). -/
def neighbours (pts : List (ℚ × ℚ × ℚ)) (i : Nat) : List Nat :=
  (List.range pts.length).filter fun j => decide (dist2 (pts.getD i (0, 0, 0)) (pts.getD j (0, 0, 0)) ≤ (9 / 5) ^ 2)

/-- The `while True` loop of `dbscan_inner`, on the pending points: takes the last pushed, and if it has no label
gives it the label and, if it is a core point, pushes its neighbours without label.  `fuel` bounds the number of iterations. -/
def search (core : Nat → Bool) (nb : Nat → List Nat) (c : Int) : Nat → List Int → List Nat → List Int
  | 0, labels, _ => labels
  | _ + 1, labels, [] => labels
  | fuel + 1, labels, i :: stack =>
    if labels.getD i 0 = -1 then
      let labels := labels.set i c
      search core nb c fuel labels
        (if core i then ((nb i).filter fun v => labels.getD v 0 = -1).reverse ++ stack else stack)
    else search core nb c fuel labels stack

/-- Number of iterations that is always enough. -/
def enough (n : Nat) (nb : Nat → List Nat) : Nat := ((List.range n).map fun i => (nb i).length).sum + 2

/-- One round of the loop over the points of `dbscan_inner`: the labels and the number of clusters. -/
def round (n : Nat) (core : Nat → Bool) (nb : Nat → List Nat) (st : List Int × Int) (i : Nat) : List Int × Int :=
  if st.1.getD i 0 ≠ -1 ∨ core i = false then st
  else (search core nb st.2 (enough n nb) st.1 [i], st.2 + 1)

/-- `dbscan_inner`: the labels of `n` points. -/
def dbscanInner (n : Nat) (core : Nat → Bool) (nb : Nat → List Nat) : List Int :=
  ((List.range n).foldl (round n core nb) (List.replicate n (-1), 0)).1

/-- `DBSCAN(eps=1.8, min_samples=min_samples).fit_predict` (hits_functions.py:283). -/
def dbscan (minSamples : Int) (pts : List (ℚ × ℚ × ℚ)) : List Int :=
  dbscanInner pts.length (fun i => decide (minSamples ≤ (neighbours pts i).length)) (neighbours pts)

/-- `tag_hits_in_event` (hits_functions.py:247-286): the hits with their label.  DBSCAN refuses coordinates that are
not finite (a scale of 0) and numbers of samples below 1. -/
def tagEvent {α : Type} (minSamples : Int) (scaleXY scaleZ : ℚ) (hits : List (Hit α)) : Except PyErr (List (Hit α × Int)) :=
  if minSamples < 1 ∨ scaleXY = 0 ∨ scaleZ = 0 then .error .valueError
  else .ok (hits.zip (dbscan minSamples (hits.map (coords scaleXY scaleZ))))

/-- `cluster_tagger` (hits_functions.py:289-323), the function given by `hits_clusterizer` (components.py:1780-1807), on a
table of hits with their labels in the index.  `groupby('event').apply` joins the events in increasing order; `set_index` puts the index of the input on the joined table, in the order of the input. -/
def clusterTagger {ι α : Type} (minSamples : Int) (scaleXY scaleZ : ℚ) (df : List (ι × Hit α)) : Except PyErr (List (ι × Hit α × Int)) :=
  if df = [] then .ok []
  else
    ((groupBy (fun h : Hit α => [h.event]) (df.map Prod.snd)).mapM fun g => tagEvent minSamples scaleXY scaleZ g.2).map
      fun parts => (df.map Prod.fst).zip parts.flatten

end Verif.Clusters
