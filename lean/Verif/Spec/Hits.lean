import Verif.Model.Hits
/-!
# Vocabulary for the properties of hits
-/
namespace Verif.Hits

/-- A hit is a non-hit: it has no position and no charge, only energy. -/
def Hit.isNN (h : Hit) : Bool := h.q == NN

/-- Total of a column over a collection of hits. -/
def total (col : Hit → Fl) (hits : List Hit) : ℚ := (hits.map fun h => (col h).getD 0).sum

/-- `h` may receive the energy of `nn`. -/
def Eligible (samePeak : Bool) (nn h : Hit) : Prop := samePeak = true → h.npeak = nn.npeak
instance (sp : Bool) (nn h : Hit) : Decidable (Eligible sp nn h) := by unfold Eligible; infer_instance

/-- `h` is one of the hits of `hits` closest in z to `nn` among those eligible; distances that differ by less than
the tolerance of `np.isclose` (1e-8 plus 1e-5 of the distance) count as equal. -/
def Nearest (samePeak : Bool) (hits : List Hit) (nn h : Hit) : Prop :=
  h ∈ hits ∧ Eligible samePeak nn h ∧
    ∀ h' ∈ hits, Eligible samePeak nn h' → |h.z - nn.z| ≤ |h'.z - nn.z| + (1 / 10 ^ 8 + 1 / 10 ^ 5 * |h'.z - nn.z|)
instance (sp : Bool) (hits : List Hit) (nn h : Hit) : Decidable (Nearest sp hits nn h) := by unfold Nearest; infer_instance

/-- The two hits agree in everything but their energies. -/
def SameHit (a b : Hit) : Prop :=
  a.info = b.info ∧ a.npeak = b.npeak ∧ a.x = b.x ∧ a.y = b.y ∧ a.z = b.z ∧ a.q = b.q ∧ a.extra = b.extra

end Verif.Hits
