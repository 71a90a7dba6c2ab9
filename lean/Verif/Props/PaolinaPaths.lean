import Verif.Props.ShortestPaths
/-!
# C50 and C119: the reconstruction of the tracks with the distances of Dijkstra's algorithm
-/
namespace Verif.ShortestPaths
open Verif.Tracks Verif.Voxels Verif.Paolina

/-- The links of a track are those among its voxels. -/
theorem adj_track {vs t : List Node} (hn : vs.Nodup) (hg : Grid vs) (ht : t ∈ makeTrackGraphs vs .corner) {a b : Node} (hA : a ∈ t) (hB : b ∈ t) :
    (trackGraph t .corner).adj a b = (trackGraph vs .corner).adj a b := by
  have hT := (tracks_good hn .corner t ht).2
  have hsub : ∀ a ∈ t, a ∈ vs := fun a hA => ((tracks_partition vs hn .corner).1.mem_iff).1 (List.mem_flatten.2 ⟨t, ht, hA⟩)
  obtain ⟨_, s, hs⟩ := hg
  by_cases hab : a = b
  · subst hab
    have h1 : ∀ us : List Node, us.Nodup → (trackGraph us .corner).adj a a = false := by
      intro us hus
      cases h : (trackGraph us .corner).adj a a with
      | false => rfl
      | true => exact absurd rfl (graph_ne hus h)
    rw [h1 t hT, h1 vs hn]
  · have h1 := adj_linked (voxels := t) (s := s) (fun v hv => hs v (hsub v hv)) (c := .corner) hab
    have h2 := adj_linked (voxels := vs) (s := s) hs (c := .corner) hab
    unfold Adj Linked at h1 h2
    have m1 : a ∈ (trackGraph t .corner).nodes ∧ b ∈ (trackGraph t .corner).nodes := ⟨hA, hB⟩
    have m2 : a ∈ (trackGraph vs .corner).nodes ∧ b ∈ (trackGraph vs .corner).nodes := ⟨hsub a hA, hsub b hB⟩
    rw [Bool.eq_iff_iff]
    constructor
    · intro h
      exact (h2.2 ⟨hsub a hA, hsub b hB, (h1.1 ⟨m1.1, m1.2, h⟩).2.2⟩).2.2
    · intro h
      exact (h1.2 ⟨hA, hB, (h2.1 ⟨m2.1, m2.2, h⟩).2.2⟩).2.2

theorem chain_mono {t : List Node} {adj adj' : Node → Node → Bool} {w : Node → Node → ℚ} (h : ∀ a ∈ t, ∀ b ∈ t, adj a b = true → adj' a b = true) {a b : Node} {l : ℚ}
    (hc : Chain t adj w a b l) : Chain t adj' w a b l ∧ b ∈ t := by
  induction hc with
  | here ha => exact ⟨.here ha, ha⟩
  | step _ hm ha ih => exact ⟨.step ih.1 hm (h _ ih.2 _ hm ha), hm⟩

/-- **C119**: the distances found by the algorithm fulfil the contract that the reconstruction of tracks asks for: for every track of the voxels of an event the table is complete, symmetric, null from a voxel to itself and positive otherwise. -/
theorem paths_contract {w : Node → Node → ℚ} (hs : ∀ a b, w a b = w b a)
    (hw : ∀ a b : Node, (a.vox.x, a.vox.y, a.vox.z) ≠ (b.vox.x, b.vox.y, b.vox.z) → 0 < w a b) : GoodPaths (trackPaths w) := by
  intro vs hn hg t ht
  have hT := (tracks_good hn .corner t ht).2
  have hsub : ∀ a ∈ t, a ∈ vs := fun a hA => ((tracks_partition vs hn .corner).1.mem_iff).1 (List.mem_flatten.2 ⟨t, ht, hA⟩)
  have hw' : ∀ a ∈ t, ∀ b ∈ t, (trackGraph t .corner).adj a b = true → 0 < w a b := by
    intro a hA b hB h
    refine hw a b fun he => graph_ne hT h ?_
    exact List.inj_on_of_nodup_map hg.1 (hsub a hA) (hsub b hB) he
  have hc : Connected t (trackGraph t .corner).adj w := by
    intro a hA b hB
    obtain ⟨l, hl⟩ := track_connected hn (c := .corner) hs ht a hA b hB
    exact ⟨l, (chain_mono (fun a hA b hB h => by rw [adj_track hn hg ht hA hB]; exact h) hl).1⟩
  obtain ⟨table, dist, h1, _, h3, _, h5, h6, h7⟩ := connected_table hT (graph_symm t .corner) hs hw' hc
  refine ⟨dist, ?_, h5, h6, h7⟩
  have : trackPaths w t = table := by unfold trackPaths; rw [h1]
  rw [this]
  exact h3

/-- **C50**: with these distances every event with positive energies is reconstructed. -/
theorem extract_dijkstra {w : Node → Node → ℚ} (hs : ∀ a b, w a b = w b a)
    (hw : ∀ a b : Node, (a.vox.x, a.vox.y, a.vox.z) ≠ (b.vox.x, b.vox.y, b.vox.z) → 0 < w a b) {p : Params} (hp : p.Ok) (hpaths : p.paths = trackPaths w)
    (hscan : ∀ r, p.scanRadius = some r → 0 ≤ r) (event : Int) {hits : List EHit} (hu : Usable hits) :
    ∃ rows outs oom, extract p event hits = .returns rows outs oom :=
  extract_succeeds hp (by rw [hpaths]; exact paths_contract hs hw) hscan event hu

/-- A distance (that of the taxi driver), with rational values. -/
def taxi (a b : Node) : ℚ := |a.vox.x - b.vox.x| + |a.vox.y - b.vox.y| + |a.vox.z - b.vox.z|

theorem taxi_symm (a b : Node) : taxi a b = taxi b a := by
  unfold taxi
  rw [abs_sub_comm a.vox.x, abs_sub_comm a.vox.y, abs_sub_comm a.vox.z]

theorem taxi_pos (a b : Node) (h : (a.vox.x, a.vox.y, a.vox.z) ≠ (b.vox.x, b.vox.y, b.vox.z)) : 0 < taxi a b := by
  unfold taxi
  by_contra hc
  have h1 := abs_nonneg (a.vox.x - b.vox.x)
  have h2 := abs_nonneg (a.vox.y - b.vox.y)
  have h3 := abs_nonneg (a.vox.z - b.vox.z)
  have e1 : |a.vox.x - b.vox.x| = 0 := by linarith
  have e2 : |a.vox.y - b.vox.y| = 0 := by linarith
  have e3 : |a.vox.z - b.vox.z| = 0 := by linarith
  rw [abs_eq_zero, sub_eq_zero] at e1 e2 e3
  exact h (by rw [e1, e2, e3])

def taxiParams : Params :=
  { dx := 10, dy := 10, dz := 10, strict := true, threshold := 5, minVoxels := 3, blobRadius := 12, scanRadius := none, maxHits := 100
    paths := trackPaths taxi, dist := fun a b => |a.x - b.x|, diag := fun _ => 17, rad := fun x y => |x| + |y| }

example : GoodPaths taxiParams.paths := paths_contract taxi_symm taxi_pos
example : taxiParams.Ok := ⟨by decide +kernel, by decide +kernel, by decide +kernel⟩
example : (rowsOf (extract taxiParams 7 caseHits)).map (fun r => (r.id, r.energy, r.nHits, r.nVoxels, decide (20 < r.length))) = [(0, 81, 3, 3, true), (1, 8, 1, 1, false)] := by decide +kernel

end Verif.ShortestPaths
