import Verif.Model.CityArgs
import Verif.Spec.CityConfig
import Verif.Spec.Components
/-!
# Specification of C110: the parameters that a job stores
-/
namespace Verif.CityArgs
open Verif.Components Verif.CityConfig

/-- Dictionaries: distinct keys, not empty and without dots; the dictionaries inside exist. -/
structure Good (h : Heap) : Prop where
  keys : ∀ o ∈ h, (o.map Prod.fst).Nodup ∧ ∀ k ∈ o.map Prod.fst, k ≠ "" ∧ '.' ∉ k.toList
  closed : ∀ o ∈ h, ∀ k b, (k, Value.ref b) ∈ o → b < h.length

/-- The text of a value: `str` of it. -/
def shown : Value → String
  | .none => "None"
  | .int n => toString n
  | .seq _ t => t
  | .leaf t => t
  | .ref _ => ""

/-- The parameter with a path of keys from a dictionary, and its text. -/
inductive Param (h : Heap) : Nat → List String → String → Prop where
  | here {a k v} : (k, v) ∈ h.getD a [] → (∀ b, v ≠ .ref b) → Param h a [k] (shown v)
  | inside {a k b p s} : (k, .ref b) ∈ h.getD a [] → Param h b p s → Param h a (k :: p) s

/-- The dictionary that some keys lead to. -/
inductive Leads (h : Heap) : Nat → List String → Nat → Prop where
  | here {a} : Leads h a [] a
  | step {a k b p c} : (k, .ref b) ∈ h.getD a [] → Leads h b p c → Leads h a (k :: p) c

/-- No dictionary is in two places of the configuration (as in one that is read from a file). -/
def Separate (h : Heap) (a : Nat) : Prop := ∀ p q b, Leads h a p b → Leads h a q b → p = q

/-- A row of the table of a configuration. -/
def rowOf (path : List String) (s : String) : List TableIO.Cell :=
  [.text (cut (String.ofList (dotted (path.map String.toList)))), .text (cut s)]

/-- The output of a city has some parameters as its configuration, and no others. -/
def Stores (g : TableIO.File) (city : String) (P : List String → String → Prop) : Prop :=
  ∃ t, g.get ("config", city) = some t ∧ ∀ r, r ∈ t.rows ↔ ∃ path s, P path s ∧ r = rowOf path s

/-- What beersheba stores: its parameters without three of them, with the name of the file of the PSFs expanded and with those of the satellites in two places. -/
def BeershebaStored (expand : String → String) (h : Heap) (a : Nat) (path : List String) (s : String) : Prop :=
  (Param h a path s ∧ ∀ k r, path = "deconv_params" :: k :: r → k ∉ ["psf_fname", "satellite_params", "q_cut", "drop_dist", "cluster_size"]) ∨
  (path = ["deconv_params", "psf_fname"] ∧ ∃ old, Param h a path old ∧ s = expand old) ∨
  (∃ r, path = "deconv_params" :: "satellite_params" :: r ∧ Param h a ("satellite_params" :: r) s)

end Verif.CityArgs
