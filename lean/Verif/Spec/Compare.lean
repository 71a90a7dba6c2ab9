import Verif.Model.Compare
/-!
# Vocabulary for the comparisons of results
-/
namespace Verif.Compare

/-- Two floats agree: numbers that differ by no more than a tolerance, the same infinity, or, if wanted, two `nan`. -/
def AgreeNum (tol : ℚ → ℚ → ℚ) (nanOk : Prop) (a b : Val) : Prop :=
  (∃ x y, a = .num x ∧ b = .num y ∧ |x - y| ≤ tol x y) ∨ (a = .pinf ∧ b = .pinf) ∨ (a = .ninf ∧ b = .ninf) ∨ (nanOk ∧ a = .nan ∧ b = .nan)

/-- The same with texts, which have to be the same. -/
def Agree (tol : ℚ → ℚ → ℚ) (a b : Val) : Prop := AgreeNum tol False a b ∨ ∃ s, a = .str s ∧ b = .str s

/-- Close in the sense of pytest: one part in a million, or 10⁻¹². -/
def Approx (a b : Val) : Prop := Agree (fun _ y => max (|y| / 1000000) (1 / 1000000000000)) a b

/-- The same positions of two lists are related. -/
def Pointwise {α : Type} (R : α → α → Prop) (l m : List α) : Prop := l.length = m.length ∧ ∀ (i : Nat) (a b : α), l[i]? = some a → m[i]? = some b → R a b

/-- Two arrays with the same shape and related values. -/
def SameArr (R : Val → Val → Prop) (a b : Arr) : Prop := a.shape = b.shape ∧ Pointwise R a.vals b.vals

/-- The values of two columns agree: floats within the tolerance (`nan` with `nan`), anything else exactly. -/
def SameValues (rtol atol : ℚ) (g e : Column) : Prop :=
  g.sub = e.sub ∧ Pointwise (fun a b => if g.dtype.kind = .f then AgreeNum (fun _ y => atol + rtol * |y|) True a b else a = b) g.vals e.vals

/-- Two peaks are taken for the same. -/
def SamePeak (a b : Peak) : Prop :=
  SameArr Approx a.times b.times ∧
  (a.pmts.ids = b.pmts.ids ∧ Val.nan ∉ a.pmts.ids.vals) ∧ SameArr Approx a.pmts.wfs b.pmts.wfs ∧
  (a.sipms.ids = b.sipms.ids ∧ Val.nan ∉ a.sipms.ids.vals) ∧ SameArr Approx a.sipms.wfs b.sipms.wfs

/-- The value in a row (by label) of a column (by name) of a data frame. -/
def HasCell (d : Df) (name : String) (label : Int) (t : Dtype) (v : Val) : Prop := ∃ s, (name, s) ∈ d.cols ∧ s.dtype = t ∧ ∃ i : Nat, d.index[i]? = some label ∧ s.vals[i]? = some v

/-- A data frame: no repeated names or labels, columns with one value per row. -/
def Df.Good (d : Df) : Prop := d.index.Nodup ∧ (d.cols.map Prod.fst).Nodup ∧ ∀ p ∈ d.cols, p.2.vals.length = d.index.length

end Verif.Compare
