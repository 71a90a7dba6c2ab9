import Verif.Model.ShortestPaths
/-!
# Vocabulary for the distances along a track
-/
namespace Verif.ShortestPaths
variable {α K : Type} [AddCommMonoid K] [LinearOrder K]

/-- A chain of linked nodes from one to another, with the sum of the lengths of its links. -/
inductive Chain (nodes : List α) (adj : α → α → Bool) (w : α → α → K) (a : α) : α → K → Prop where
  | here : a ∈ nodes → Chain nodes adj w a a 0
  | step {b c : α} {l : K} : Chain nodes adj w a b l → c ∈ nodes → adj b c = true → Chain nodes adj w a c (l + w b c)

/-- `d` is the length of the shortest chain. -/
def IsDistance (nodes : List α) (adj : α → α → Bool) (w : α → α → K) (a b : α) (d : K) : Prop :=
  Chain nodes adj w a b d ∧ ∀ l, Chain nodes adj w a b l → d ≤ l

/-- Any two nodes are joined by a chain. -/
def Connected (nodes : List α) (adj : α → α → Bool) (w : α → α → K) : Prop := ∀ a ∈ nodes, ∀ b ∈ nodes, ∃ l, Chain nodes adj w a b l

/-- The order of the voxels: by x, then by y, then by z. -/
def Before (a b : Tracks.Node) : Prop := a.vox.x < b.vox.x ∨ (a.vox.x = b.vox.x ∧ (a.vox.y < b.vox.y ∨ (a.vox.y = b.vox.y ∧ a.vox.z ≤ b.vox.z)))

end Verif.ShortestPaths
