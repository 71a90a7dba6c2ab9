import Verif.Spec.KrApply
import Verif.Props.PaolinaTracks
import Verif.Lemmas.Lists
/-!
# C75: application of krypton maps
-/
namespace Verif.KrApply

theorem firstNearest_spec : Nearest firstNearest := by
  intro pts q hne
  rw [firstNearest]
  cases h : argmin (pts.map fun p => dist2 p q) with
  | error e =>
    cases hp : pts.map fun p => dist2 p q with
    | nil => exact absurd (List.map_eq_nil_iff.1 hp) hne
    | cons a l =>
      rw [hp, argmin] at h
      split at h
      · cases h
      · split at h <;> cases h
  | ok n =>
    obtain ⟨m, h1, h2, _⟩ := argmin_spec h
    rw [List.getElem?_map, Option.map_eq_some_iff] at h1
    obtain ⟨p, hp, rfl⟩ := h1
    exact ⟨p, hp, fun p' hp' => h2 _ (List.mem_map_of_mem hp')⟩

/-- The bin used for a point. -/
theorem picked {pick : List (ℚ × ℚ × ℚ) → ℚ × ℚ × ℚ → Nat} (hp : Nearest pick) (krmap : List Bin) (hne : valid krmap ≠ []) (h : Hit) :
    ∃ b mu, (valid krmap)[pick ((valid krmap).map Bin.point) (h.dt, h.x, h.y)]? = some b ∧ b.mu = some mu ∧ IsNearestBin krmap h b mu := by
  obtain ⟨p, h1, h2⟩ := hp ((valid krmap).map Bin.point) (h.dt, h.x, h.y) (by simpa using hne)
  rw [List.getElem?_map, Option.map_eq_some_iff] at h1
  obtain ⟨b, hb, rfl⟩ := h1
  obtain ⟨hm, hv⟩ := List.mem_filter.1 (List.mem_of_getElem? hb)
  obtain ⟨mu, hmu⟩ := Option.isSome_iff_exists.1 hv
  refine ⟨b, mu, hb, hmu, hm, hmu, ?_⟩
  intro b' hb' hv'
  exact h2 b'.point (List.mem_map_of_mem (List.mem_filter.2 ⟨hb', Option.isSome_iff_ne_none.2 hv'⟩))

theorem valid_valid (krmap : List Bin) : valid (valid krmap) = valid krmap := by
  rw [valid, valid, List.filter_filter]
  simp

/-- **C75** Whatever the method, with a normalization that is not 0 and a unit, the corrected energy of each point is its energy over the energy of the nearest bin that is not NaN, times 41.55 keV:
the normalization has no effect.  Each point is corrected on its own. -/
theorem corrected_energy {pick : List (ℚ × ℚ × ℚ) → ℚ × ℚ × ℚ → Nat} (hp : Nearest pick) (keV : ℚ) (krmap : List Bin) (m : Method) (xy : Option Region) (n : ℚ)
    (hn : normalization krmap m xy = .ok (some n)) (hn0 : n ≠ 0) (hz : ∀ b ∈ krmap, b.mu ≠ some 0) (u : ℚ) (hu : u ≠ 0) (hits : List Hit) :
    ∃ ec, apply3D pick keV krmap m xy (some u) hits = .ok ec ∧
      List.Forall₂ (fun h e => ∃ b mu, IsNearestBin krmap h b mu ∧ e = some (h.e / mu * (4155 / 100 * keV) / u)) hits ec := by
  have hvn : normalization (valid krmap) m xy = .ok (some n) := by
    rw [← hn]
    cases m <;> cases xy <;> simp only [normalization, valid_valid]
  have hne : valid krmap ≠ [] := by
    intro h0
    rw [normalization.eq_def] at hn
    rw [h0] at hn
    cases m <;> cases xy <;> simp [mus, max?, mean?, median?, anode, inRegion] at hn
  rw [apply3D, hvn]
  simp only [if_neg hne]
  refine ⟨_, rfl, ?_⟩
  rw [List.forall₂_map_right_iff, List.forall₂_same]
  intro h _
  obtain ⟨b, mu, h1, h2, h3⟩ := picked hp krmap hne h
  refine ⟨b, mu, h3, ?_⟩
  have hmu : mu ≠ 0 := by
    intro h0
    exact hz b h3.1 (by rw [h3.2.1, h0])
  simp only [correctOne, h1, Option.bind_some, h2, fdiv, fmul, if_neg hmu, if_neg hn0, if_neg hu]
  congr 1
  field_simp

example : apply3D firstNearest (1/1000) [⟨0, 5, 0, 0, some 100⟩, ⟨0, 5, 10, 0, none⟩, ⟨1, 15, 10, 0, some 50⟩] .maximum none (some 1) [⟨6, 2, 1, 200⟩, ⟨40, 9, 0, 100⟩] =
    .ok [some (831 / 10000), some (831 / 10000)] := by decide +kernel

/-- **C75** Without a unit the energy is referred to the normalization. -/
theorem corrected_pes {pick : List (ℚ × ℚ × ℚ) → ℚ × ℚ × ℚ → Nat} (hp : Nearest pick) (keV : ℚ) (krmap : List Bin) (m : Method) (xy : Option Region) (n : ℚ)
    (hn : normalization krmap m xy = .ok (some n)) (hz : ∀ b ∈ krmap, b.mu ≠ some 0) (hits : List Hit) :
    ∃ ec, apply3D pick keV krmap m xy none hits = .ok ec ∧ List.Forall₂ (fun h e => ∃ b mu, IsNearestBin krmap h b mu ∧ e = some (h.e * (n / mu))) hits ec := by
  have hvn : normalization (valid krmap) m xy = .ok (some n) := by
    rw [← hn]
    cases m <;> cases xy <;> simp only [normalization, valid_valid]
  have hne : valid krmap ≠ [] := by
    intro h0
    rw [normalization.eq_def] at hn
    rw [h0] at hn
    cases m <;> cases xy <;> simp [mus, max?, mean?, median?, anode, inRegion] at hn
  rw [apply3D, hvn]
  simp only [if_neg hne]
  refine ⟨_, rfl, ?_⟩
  rw [List.forall₂_map_right_iff, List.forall₂_same]
  intro h _
  obtain ⟨b, mu, h1, h2, h3⟩ := picked hp krmap hne h
  refine ⟨b, mu, h3, ?_⟩
  have hmu : mu ≠ 0 := by
    intro h0
    exact hz b h3.1 (by rw [h3.2.1, h0])
  simp only [correctOne, h1, Option.bind_some, h2, fdiv, fmul, if_neg hmu]

example : apply3D firstNearest (1/1000) [⟨0, 5, 0, 0, some 100⟩, ⟨1, 15, 10, 0, some 50⟩] .meanChamber none none [⟨6, 2, 1, 200⟩] = .ok [some 150] := by decide +kernel

/-- **C75** A normalization that cannot be computed (no valid bins in the anode or in the region) or that is 0 makes every energy NaN, although the result would not depend on it. -/
theorem useless_normalization {pick : List (ℚ × ℚ × ℚ) → ℚ × ℚ × ℚ → Nat} (keV : ℚ) (krmap : List Bin) (m : Method) (xy : Option Region) (hne : valid krmap ≠ []) (u : Option ℚ) (hits : List Hit)
    (hn : normalization krmap m xy = .ok none ∨ (normalization krmap m xy = .ok (some 0) ∧ u ≠ none)) :
    ∃ ec, apply3D pick keV krmap m xy u hits = .ok ec ∧ ec = hits.map fun _ => none := by
  have hvn : normalization (valid krmap) m xy = normalization krmap m xy := by
    cases m <;> cases xy <;> simp only [normalization, valid_valid]
  rw [apply3D, hvn]
  rcases hn with hn | ⟨hn, hu⟩
  · rw [hn]
    simp only [if_neg hne]
    refine ⟨_, rfl, ?_⟩
    apply List.map_congr_left
    intro h _
    cases u <;> simp [correctOne, fdiv, fmul]
  · rw [hn]
    simp only [if_neg hne]
    refine ⟨_, rfl, ?_⟩
    apply List.map_congr_left
    intro h _
    cases u with
    | none => exact absurd rfl hu
    | some u =>
      simp only [correctOne]
      generalize fmul (some h.e) _ = w
      cases w <;> simp [fdiv, fmul]

example : apply3D firstNearest (1/1000) [⟨1, 5, 0, 0, some 100⟩] .meanAnode none (some 1) [⟨6, 2, 1, 200⟩] = .ok [none] := by decide +kernel

/-- **C75** The reference energy: maximum, mean or median of the bins that are not NaN, of the whole map or of its first slice, in the whole plane or in a region (closed below). -/
theorem normalization_spec (krmap : List Bin) (m : Method) (r : Region) :
    normalization krmap m (some r) = .ok (if reference krmap m r = [] then none else
      if m = .maximum then some (Voxels.npMax (reference krmap m r))
      else if m ∈ [.meanChamber, .meanAnode, .meanRegionChamber, .meanRegionAnode] then some ((reference krmap m r).sum / (reference krmap m r).length)
      else some (Wfm.median (reference krmap m r))) := by
  have hf : ∀ (p : Bin → Bool) (l : List Bin), ((l.filter fun b => b.mu.isSome).filter p).filterMap Bin.mu = (l.filter p).filterMap Bin.mu := by
    intro p l
    induction l with
    | nil => rfl
    | cons b l ih =>
      cases hb : b.mu with
      | none =>
        rw [List.filter_cons, if_neg (by simp [hb]), ih, List.filter_cons]
        split
        · rw [List.filterMap_cons, hb]
        · rfl
      | some v =>
        rw [List.filter_cons, if_pos (by simp [hb]), List.filter_cons, List.filter_cons]
        split
        · rw [List.filterMap_cons, List.filterMap_cons, hb, ih]
        · exact ih
  have h0 : mus (valid krmap) = (krmap.filter fun _ => true).filterMap Bin.mu := by
    rw [mus, ← hf]; simp [valid]
  have h1 : mus (anode (valid krmap)) = (krmap.filter fun b => decide (b.k = 0)).filterMap Bin.mu := by rw [mus, anode, valid, hf]
  have h2 : mus (inRegion r (valid krmap)) = (krmap.filter fun b => Psf.within b.x r.xlow r.xhigh && Psf.within b.y r.ylow r.yhigh).filterMap Bin.mu := by rw [mus, inRegion, valid, hf]
  have h3 : mus (anode (inRegion r (valid krmap))) = (krmap.filter fun b => decide (b.k = 0) && (Psf.within b.x r.xlow r.xhigh && Psf.within b.y r.ylow r.yhigh)).filterMap Bin.mu := by
    rw [mus, anode, inRegion, List.filter_filter, valid, hf]
  have e2 : (fun b : Bin => Psf.within b.x r.xlow r.xhigh && Psf.within b.y r.ylow r.yhigh) = fun b => decide ((r.xlow ≤ b.x ∧ b.x < r.xhigh) ∧ r.ylow ≤ b.y ∧ b.y < r.yhigh) := by
    funext b
    simp [Psf.within, Bool.decide_and, Bool.and_assoc]
  rw [e2] at h2
  have e3 : (fun b : Bin => decide (b.k = 0) && (Psf.within b.x r.xlow r.xhigh && Psf.within b.y r.ylow r.yhigh)) = fun b => decide (b.k = 0 ∧ (r.xlow ≤ b.x ∧ b.x < r.xhigh) ∧ r.ylow ≤ b.y ∧ b.y < r.yhigh) := by
    funext b
    simp [Psf.within, Bool.decide_and, Bool.and_assoc]
  rw [e3] at h3
  cases m <;> simp [normalization, reference, h0, h1, h2, h3, max?, mean?, median?, List.filter_true]

example : normalization [⟨0, 5, 0, 0, some 100⟩, ⟨0, 5, 4, 0, some 60⟩, ⟨0, 5, 10, 0, none⟩, ⟨1, 15, 2, 0, some 50⟩] .meanRegionAnode (some ⟨0, 5, -1, 1⟩) = .ok (some 80) := by decide +kernel

/-- **C75** Without limits the methods of a region raise `TypeError`. -/
theorem region_without_limits (krmap : List Bin) (m : Method) (h : m ∈ [Method.meanRegionChamber, .medianRegionChamber, .meanRegionAnode, .medianRegionAnode]) :
    normalization krmap m none = .error .typeError := by
  cases m <;> first | rfl | simp at h

example : Method.meanRegionAnode ∈ [Method.meanRegionChamber, .medianRegionChamber, .meanRegionAnode, .medianRegionAnode] := by decide

/-! ### The corrector of hits -/

/-- **C75** The corrector of hits: positions, energies and order are kept, the corrected energy is that of the nearest bin to (Z, X, Y), with Z before its conversion, and Z is multiplied by the median of the
drift velocities if asked. -/
theorem corrected_hits {pick : List (ℚ × ℚ × ℚ) → ℚ × ℚ × ℚ → Nat} (hp : Nearest pick) (keV mev : ℚ) (krmap : List Bin) (dvs : List ℚ) (m : Method) (xy : Option Region) (applyZ : Bool) (n : ℚ)
    (hn : normalization krmap m xy = .ok (some n)) (hn0 : n ≠ 0) (hz : ∀ b ∈ krmap, b.mu ≠ some 0) (hu : mev ≠ 0) (rows : List HitRow) :
    ∃ out, (correctHits pick keV mev krmap dvs false m xy applyZ rows).2 = .ok out ∧
      List.Forall₂ (fun r o => o.x = r.x ∧ o.y = r.y ∧ o.e = r.e ∧ o.z = (if applyZ then r.z * Wfm.median dvs else r.z) ∧
        ∃ b mu, IsNearestBin krmap ⟨r.z, r.x, r.y, r.e⟩ b mu ∧ o.ec = some (r.e / mu * (4155 / 100 * keV) / mev)) rows out := by
  obtain ⟨ec, h1, h2⟩ := corrected_energy hp keV krmap m xy n hn hn0 hz mev hu (rows.map fun r => ⟨r.z, r.x, r.y, r.e⟩)
  rw [correctHits, correctRows, h1]
  simp only [Bool.false_eq_true, if_false]
  rw [List.forall₂_map_left_iff] at h2
  have hzip : List.Forall₂ (fun (r o : HitRow) => o.x = r.x ∧ o.y = r.y ∧ o.e = r.e ∧ o.z = r.z ∧
      ∃ b mu, IsNearestBin krmap ⟨r.z, r.x, r.y, r.e⟩ b mu ∧ o.ec = some (r.e / mu * (4155 / 100 * keV) / mev)) rows ((rows.zip ec).map fun p => { p.1 with ec := p.2 }) := by
    clear h1
    induction h2 with
    | nil => exact .nil
    | cons h _ ih => exact .cons ⟨rfl, rfl, rfl, rfl, h⟩ ih
  cases applyZ with
  | false =>
    refine ⟨_, rfl, hzip.imp ?_⟩
    intro r o h
    simpa using h
  | true =>
    refine ⟨_, rfl, ?_⟩
    simp only [if_true]
    rw [List.forall₂_map_right_iff]
    refine hzip.imp ?_
    rintro r o ⟨g1, g2, g3, g4, g5⟩
    exact ⟨g1, g2, g3, by rw [g4], g5⟩

example : (correctHits firstNearest (1/1000) 1 [⟨0, 5, 0, 0, some 100⟩, ⟨1, 15, 10, 0, some 50⟩] [2, 3, 1] false .maximum none true [⟨0, 0, 4, 200, none⟩]).2.toOption =
    some [⟨0, 0, 8, 200, some (831 / 10000)⟩] := by decide +kernel

/-- **C75** With the temporal correction it always raises `AttributeError`, after having modified the input. -/
theorem temporal_correction_fails (pick : List (ℚ × ℚ × ℚ) → ℚ × ℚ × ℚ → Nat) (keV mev : ℚ) (krmap : List Bin) (dvs : List ℚ) (m : Method) (xy : Option Region) (applyZ : Bool) (rows : List HitRow) :
    ∃ e, (correctHits pick keV mev krmap dvs true m xy applyZ rows).2 = .error e ∧ ((∃ out, correctRows pick keV mev krmap m xy rows = .ok out) → e = .attributeError) := by
  rw [correctHits]
  cases h : correctRows pick keV mev krmap m xy rows with
  | error e => exact ⟨e, rfl, fun ⟨out, ho⟩ => by cases ho⟩
  | ok out => exact ⟨.attributeError, rfl, fun _ => rfl⟩

example : (correctHits firstNearest (1/1000) 1 [⟨0, 5, 0, 0, some 100⟩] [2, 3, 1] true .maximum none true [⟨0, 0, 4, 200, none⟩]) = ([⟨0, 0, 8, 200, some (831 / 10000)⟩], .error .attributeError) := by decide +kernel

/-- **C75** The documentation says that the input is not modified, but the result is the input: calling it twice converts Z twice. -/
theorem input_modified : (correctHits firstNearest (1/1000) 1 [⟨0, 5, 0, 0, some 100⟩] [2] false .maximum none true [⟨0, 0, 4, 200, none⟩]).1 ≠ [⟨0, 0, 4, 200, none⟩] ∧
    (correctHits firstNearest (1/1000) 1 [⟨0, 5, 0, 0, some 100⟩] [2] false .maximum none true (correctHits firstNearest (1/1000) 1 [⟨0, 5, 0, 0, some 100⟩] [2] false .maximum none true [⟨0, 0, 4, 200, none⟩]).1).1 =
      [⟨0, 0, 16, 200, some (831 / 10000)⟩] := by decide +kernel

end Verif.KrApply
