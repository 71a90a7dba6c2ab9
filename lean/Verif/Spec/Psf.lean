import Verif.Model.Psf
/-!
# Vocabulary of the properties of point spread functions
-/
namespace Verif.Psf

/-- A position in the table of the PSFs: the bin and the sector. -/
def Cell.At (c : Cell) (xr yr x y z : ℚ) : Prop := c.xr = xr ∧ c.yr = yr ∧ c.zr = 0 ∧ c.x = x ∧ c.y = y ∧ c.z = z

/-- A value is in the bin number `k` of the edges: closed on the left, open on the right except for the last bin. -/
def InBin (edges : List ℚ) (k : Nat) (v : ℚ) : Prop :=
  ∃ a b, edges[k]? = some a ∧ edges[k + 1]? = some b ∧ a ≤ v ∧ (v < b ∨ (v = b ∧ k + 2 = edges.length))

/-- The centre of the bin number `k`. -/
def IsCentre (edges : List ℚ) (k : Nat) (c : ℚ) : Prop := ∃ a b, edges[k]? = some a ∧ edges[k + 1]? = some b ∧ c = (a + b) / 2

/-- The points of one sector in one of the tables that are accumulated. -/
structure Chunk where
  x : ℚ
  y : ℚ
  z : ℚ
  pts : List Point

/-- Entries and charge of a key in a table. -/
def entriesAt (t : List Cell) (k : List ℚ) : Nat := ((t.filter fun c => decide (c.key = k)).map Cell.nevt).sum
def chargeAt (t : List Cell) (k : List ℚ) : ℚ := ((t.filter fun c => decide (c.key = k)).map fun c => c.factor * (c.nevt : ℚ)).sum

/-- `ps` are the points of all the chunks of the sector that are in a bin. -/
def Sample (ex ey : List ℚ) (chunks : List Chunk) (x y z : ℚ) (i j : Nat) (ps : List Point) : Prop :=
  ∃ keep : Chunk → Point → Bool, (∀ ch p, keep ch p = true ↔ (ch.x = x ∧ ch.y = y ∧ ch.z = z) ∧ InBin ex i p.1 ∧ InBin ey j p.2.1) ∧
    ps = chunks.flatMap fun ch => ch.pts.filter (keep ch)

/-- The position of a row relative to its peak, with its normalized charge. -/
def relative (r : Norm) : Option Point := r.xpeak.bind fun xp => r.ypeak.map fun yp => (r.x - xp, r.y - yp, r.normQ)

/-- The points of one file, for each slice and sector (see `slices_in_z`, `peak_prepared` and `sectors_in_xy`). -/
def fileChunks (c : Config) (db : List (ℚ × ℚ)) (hits : List Hit) : List Chunk :=
  (splitZ c.zbins hits).flatMap fun s => (splitXY c.xsectors c.ysectors (process ((c.xrange.2 - c.xrange.1) / 2) ((c.yrange.2 - c.yrange.1) / 2) db s.2)).map
    fun t => ⟨t.1, t.2.1, s.1, t.2.2.filterMap relative⟩

end Verif.Psf
