import Verif.Model.DetsimS1
import Verif.Props.S2Light
/-!
# Electrons of the detector simulation (C59)
-/
namespace Verif.Detsim

/-- What is simulated for one hit: the hit, the draw of the number of electrons and the lifetimes of the electrons. -/
structure HitSim where
  hit : MCHit
  ion : IonDraw
  lifetimes : List ℚ

/-- The number of electrons of a hit: Poisson while the variance is below one, a rounded normal otherwise, never negative. -/
def HitSim.created (wi fano : ℚ) (s : HitSim) : Nat :=
  if s.hit.energy / wi * fano < 1 then s.ion.poisson else (Sampling.roundEven s.ion.normal).toNat

/-- The number of those that live longer than the drift. -/
def HitSim.reached (wi fano dv : ℚ) (s : HitSim) : Nat :=
  ((s.lifetimes.take (s.created wi fano)).filter fun l => decide (s.hit.z / dv < l)).length

theorem reached_le (wi fano dv : ℚ) (s : HitSim) : s.reached wi fano dv ≤ s.created wi fano :=
  le_trans (List.length_filter_le _ _) (by rw [List.length_take]; exact min_le_left _ _)

theorem repeat_eq (sims : List HitSim) (f : HitSim → Nat) :
    repeatHits (sims.map (·.hit)) (sims.map f) = sims.flatMap fun s => List.replicate (f s) s.hit := by
  unfold repeatHits
  rw [List.zipWith_map, List.zipWith_self, List.flatMap]

theorem counts_eq (wi fano dv : ℚ) (sims : List HitSim) :
    ((List.range (sims.map (·.hit)).length).map fun i : Nat => driftElectrons (((sims.map (·.hit)).map (·.z)).getD i 0) dv
      (((sims.map (·.lifetimes)).getD i []).take (ionElectrons wi fano (((sims.map (·.hit)).map (·.energy)).getD i 0) ((sims.map (·.ion)).getD i ⟨0, 0⟩)))) =
    sims.map fun s => s.reached wi fano dv := by
  apply List.ext_getElem?
  intro i
  by_cases h : i < sims.length
  · rw [List.getElem?_map, List.getElem?_range (by simpa using h), List.getElem?_map, List.getElem?_eq_getElem h]
    simp only [Option.map_some, List.getD_eq_getElem?_getD, List.getElem?_map, List.getElem?_eq_getElem h, Option.getD_some]
    rfl
  · rw [List.getElem?_eq_none (by simpa using h), List.getElem?_eq_none (by simpa using h)]

/-- The result of the simulation, in terms of the hits. -/
theorem simulate_eq (sq : ℚ → ℚ) (wi fano dt dl dv : ℚ) (sims : List HitSim) (draws : List ElDraw) (h : sims ≠ []) :
    simulateElectrons sq wi fano dt dl dv (sims.map (·.hit)) (sims.map (·.ion)) (sims.map (·.lifetimes)) draws =
      .ok (List.zipWith (diffuse sq dt dl dv) (sims.flatMap fun s => List.replicate (s.reached wi fano dv) s.hit) draws) := by
  unfold simulateElectrons
  rw [if_neg (by simpa using h), counts_eq, repeat_eq]

/-- **C59** (number of electrons).  The simulation of an event gives one electron for each one that reaches the EL plane, at most as many as
were created; an event without hits is an error. -/
theorem electrons_count (sq : ℚ → ℚ) (wi fano dt dl dv : ℚ) (sims : List HitSim) (draws : List ElDraw)
    (hd : draws.length = (sims.map fun s => s.reached wi fano dv).sum) {out : List ElElectron}
    (h : simulateElectrons sq wi fano dt dl dv (sims.map (·.hit)) (sims.map (·.ion)) (sims.map (·.lifetimes)) draws = .ok out) :
    out.length = (sims.map fun s => s.reached wi fano dv).sum ∧ out.length ≤ (sims.map fun s => s.created wi fano).sum := by
  have hne : sims ≠ [] := by rintro rfl; simp [simulateElectrons] at h
  rw [simulate_eq _ _ _ _ _ _ _ _ hne] at h
  rw [← Except.ok.inj h, List.length_zipWith, hd]
  have hl : (sims.flatMap fun s => List.replicate (s.reached wi fano dv) s.hit).length = (sims.map fun s => s.reached wi fano dv).sum := by
    simp [List.length_flatMap]
  rw [hl, Nat.min_self]
  refine ⟨rfl, ?_⟩
  apply List.sum_le_sum
  intro s _
  exact reached_le wi fano dv s

/-- **C59** (provenance).  The electrons come in the order of the hits: the `k`-th electron of a hit is displaced from it, by the diffusion of its
drift, by what was drawn for it; its time is that of the hit plus that of its own drift. -/
theorem electrons_of_hit (sq : ℚ → ℚ) (wi fano dt dl dv : ℚ) (before : List HitSim) (s : HitSim) (after : List HitSim) (draws : List ElDraw)
    {out : List ElElectron} (h : simulateElectrons sq wi fano dt dl dv ((before ++ s :: after).map (·.hit)) ((before ++ s :: after).map (·.ion))
      ((before ++ s :: after).map (·.lifetimes)) draws = .ok out) {k : Nat} (hk : k < s.reached wi fano dv) {d : ElDraw}
    (hd : draws[(before.map fun s => s.reached wi fano dv).sum + k]? = some d) :
    ∃ e, out[(before.map fun s => s.reached wi fano dv).sum + k]? = some e ∧ ∃ z : ℚ, z = max s.hit.z 0 ∧
      e.x = s.hit.x + sq z * dt * d.gx ∧ e.y = s.hit.y + sq z * dt * d.gy ∧ e.z = z + sq z * dl * d.gz ∧
      e.t = s.hit.time + e.z / dv ∧ e.ph = Sampling.roundEven d.photons := by
  rw [simulate_eq _ _ _ _ _ _ _ _ (by simp)] at h
  refine ⟨diffuse sq dt dl dv s.hit d, ?_, max s.hit.z 0, rfl, ?_⟩
  · rw [← Except.ok.inj h, List.getElem?_zipWith, hd]
    have hl : (before.flatMap fun s => List.replicate (s.reached wi fano dv) s.hit).length = (before.map fun s => s.reached wi fano dv).sum := by
      simp [List.length_flatMap]
    have : ((before ++ s :: after).flatMap fun s => List.replicate (s.reached wi fano dv) s.hit)[(before.map fun s => s.reached wi fano dv).sum + k]? =
        some s.hit := by
      rw [List.flatMap_append, List.getElem?_append_right (by omega), hl, Nat.add_sub_cancel_left, List.flatMap_cons,
        List.getElem?_append_left (by simpa using hk), List.getElem?_replicate, if_pos hk]
    rw [this]
  · have hz : clipZ s.hit.z = max s.hit.z 0 := by
      unfold clipZ
      by_cases h : s.hit.z < 0
      · rw [if_pos h, max_eq_right h.le]
      · rw [if_neg h, max_eq_left (not_lt.1 h)]
    simp only [diffuse, hz]
    refine ⟨trivial, trivial, trivial, by ring, trivial⟩

/-- Two hits, the second behind the EL plane; one of the three electrons of the first is lost on the way. -/
def simsDemo : List HitSim :=
  [⟨⟨1, 2, 4, 30, 100, "ACTIVE"⟩, ⟨3, 0⟩, [9, 1, 7]⟩, ⟨⟨5, 6, -1, 1000, 200, "ACTIVE"⟩, ⟨0, 6 / 5⟩, [8]⟩]

example : simsDemo.map (fun s => (s.created 10 (1 / 10), s.reached 10 (1 / 10) 2)) = [(3, 2), (1, 1)] ∧
    simulateElectrons (fun z => z / 2) 10 (1 / 10) 1 (1 / 2) 2 (simsDemo.map (·.hit)) (simsDemo.map (·.ion)) (simsDemo.map (·.lifetimes))
      [⟨0, 0, 0, 7⟩, ⟨1, -1, 2, 13 / 2⟩, ⟨3, 3, 3, 9⟩] =
    .ok [⟨1, 2, 4, 102, 7⟩, ⟨3, 0, 6, 103, 6⟩, ⟨5, 6, 0, 200, 9⟩] := by decide +kernel

/-- **C59** (no diffusion).  Without diffusion every electron arrives under its hit, at the time of the hit plus the drift. -/
theorem electrons_no_diffusion (sq : ℚ → ℚ) (dv : ℚ) (h : MCHit) (d : ElDraw) (hz : 0 ≤ h.z) :
    let e := diffuse sq 0 0 dv h d
    e.x = h.x ∧ e.y = h.y ∧ e.z = h.z ∧ e.t = h.time + h.z / dv := by
  simp only [diffuse, clipZ, if_neg (not_lt.2 hz)]
  refine ⟨by ring, by ring, by ring, by ring⟩

example : (0 : ℚ) ≤ (⟨1, 2, 4, 30, 100, "ACTIVE"⟩ : MCHit).z := by decide +kernel

/-- **C59** (finding).  The longitudinal diffusion of a hit near the EL plane can put an electron before its own hit; when that is before the beginning
of the buffer of the event its light goes to the end of the waveform. -/
theorem diffusion_before_buffer : ∃ (hit : MCHit) (d : ElDraw) (tmin len : ℚ) (e : ElElectron), 0 ≤ hit.z ∧
    e = diffuse (fun z => z) 0 1 1 hit d ∧ e.t < hit.time ∧
    bufferTimes 1 4 1 1 1000 [hit.time] [e.t, 9] = .ok (tmin, len) ∧
    createWfs ⟨1, 1, 1, fun _ _ _ => some [3]⟩ 1 1 len tmin [⟨e.x, e.y, e.t, e.ph⟩] = .ok [[0, 0, 0, 0, 0, 0, 0, 0, 0, 0, 0, 3]] := by
  refine ⟨⟨0, 0, 1, 30, 0, "ACTIVE"⟩, ⟨0, 0, -2, 1⟩, 0, 12, ⟨0, 0, -1, -1, 1⟩, by decide +kernel, by decide +kernel, by decide +kernel,
    by decide +kernel, by decide +kernel⟩

end Verif.Detsim
