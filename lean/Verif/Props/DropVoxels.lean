import Verif.Model.DropVoxels
import Verif.Lemmas.Lists
import Mathlib.Logic.Relation
import Mathlib.Data.List.Perm.Basic
import Mathlib.Algebra.BigOperators.Group.List.Basic
import Mathlib.Tactic.Ring
import Mathlib.Tactic.FieldSimp
import Mathlib.Tactic.Linarith
/-!
# C30: dropping the end-point voxels
-/
namespace Verif.Tracks
open Verif.Voxels

/-! ### Specification -/

/-- What `drop_end_point_voxels` never changes in a voxel: everything but the energies. -/
def shape (v : Node) : Node :=
  { v with vox := { v.vox with e := 0, hits := v.vox.hits.map fun h => { h with e := 0 } } }

/-- The total energy of some voxels. -/
def totalEnergy (vs : List Node) : ℚ := (vs.map fun v => v.vox.e).sum

/-- Voxels made from hits: each has hits and its energy is theirs. -/
def FromHits (vs : List Node) : Prop := ∀ v ∈ vs, v.vox.hits ≠ [] ∧ v.vox.e = (v.vox.hits.map PHit.e).sum

/-- Voxels without hits. -/
def NoHits (vs : List Node) : Prop := ∀ v ∈ vs, v.vox.hits = []

/-- `a` and `b` are the extremes found in some track of `vs` with at least the minimal number of voxels. -/
def ExtremeOf (p : DropParams) (vs : List Node) (id : Nat) : Prop :=
  ∃ t ∈ makeTrackGraphs vs p.contiguity, p.minVoxels ≤ t.length ∧
    ∃ a b len, findExtremaAndLength (p.paths t) = .ok (some (a, b), len) ∧ (id = a.id ∨ id = b.id)

/-! ### Sums -/

theorem sum_map_add' {α : Type} (l : List α) (f g : α → ℚ) : (l.map fun x => f x + g x).sum = (l.map f).sum + (l.map g).sum := by
  induction l with
  | nil => simp
  | cons x xs ih => simp only [List.map_cons, List.sum_cons, ih]; ring

theorem sum_map_mul' {α : Type} (l : List α) (f : α → ℚ) (k : ℚ) : (l.map fun x => f x * k).sum = (l.map f).sum * k := by
  induction l with
  | nil => simp
  | cons x xs ih => simp only [List.map_cons, List.sum_cons, ih]; ring

theorem sum_filter_if {α : Type} (l : List α) (c : α → Bool) (f : α → ℚ) :
    (l.map fun x => if c x then f x else 0).sum = ((l.filter c).map f).sum := by
  induction l with
  | nil => simp
  | cons x xs ih =>
    by_cases h : c x
    · simp [h, ih]
    · simp [h, ih]

/-! ### One voxel -/

theorem dropVoxel_shape {p : DropParams} {vs vs' : List Node} {the : Node} (h : dropVoxel p vs the = .ok vs') : vs'.map shape = vs.map shape := by
  unfold dropVoxel at h
  split at h
  · simp only [dropWithoutHits] at h
    split at h
    · cases h
    · split at h
      · cases h
      · cases h
        rw [List.map_map]
        apply List.map_congr_left
        intro v _
        simp only [Function.comp, shareEnergy]
        split <;> rfl
  · simp only [dropWithHits] at h
    split at h
    · cases h
    · split at h
      · cases h
      · split at h
        · cases h
        · split at h
          · cases h
          · cases h
            rw [List.map_map]
            apply List.map_congr_left
            intro v _
            simp only [Function.comp]
            split
            · simp [recompute, scaleHits, shape]
            · rfl

theorem dropVoxel_length {p : DropParams} {vs vs' : List Node} {the : Node} (h : dropVoxel p vs the = .ok vs') : vs'.length = vs.length := by
  have := congrArg List.length (dropVoxel_shape h)
  simpa using this

/-- The energy of the dropped voxel goes to the hits of the others. -/
theorem dropVoxel_fromHits {p : DropParams} {vs vs' : List Node} {the : Node} (hvs : FromHits vs) (hthe : the.vox.hits ≠ [])
    (h : dropVoxel p vs the = .ok vs') : FromHits vs' ∧ totalEnergy vs' = totalEnergy vs + the.vox.e := by
  unfold dropVoxel at h
  rw [if_neg (by simpa using hthe)] at h
  simp only [dropWithHits] at h
  split at h
  · cases h
  rename_i bary _
  split at h
  · cases h
  split at h
  · cases h
  rename_i minDist _
  split at h
  · cases h
  rename_i htot
  cases h
  generalize hclose : (fun h : PHit => isclose (p.dist (hitPos h) bary) minDist) = close at htot ⊢
  generalize hT : ((vs.filter fun v => neighbours the.vox v.vox).map fun v => ((v.vox.hits.filter close).map PHit.e).sum).sum = T at htot ⊢
  constructor
  · intro v hv
    obtain ⟨w, hw, rfl⟩ := List.mem_map.1 hv
    refine ⟨?_, rfl⟩
    have := (hvs w hw).1
    split
    · simpa [recompute, scaleHits] using this
    · simpa [recompute] using this
  · have key : ∀ v ∈ vs, (recompute (if neighbours the.vox v.vox then scaleHits close (1 + the.vox.e / T) v else v)).vox.e =
        v.vox.e + (if neighbours the.vox v.vox then ((v.vox.hits.filter close).map PHit.e).sum else 0) * (the.vox.e / T) := by
      intro v hv
      rw [(hvs v hv).2]
      split
      · simp only [recompute, scaleHits, List.map_map, Function.comp_def]
        rw [← sum_filter_if, ← sum_map_mul', ← sum_map_add']
        congr 1
        apply List.map_congr_left
        intro h _
        split <;> ring
      · simp [recompute]
    simp only [totalEnergy, List.map_map, Function.comp_def]
    rw [List.map_congr_left key, sum_map_add', sum_map_mul', sum_filter_if, hT]
    field_simp

theorem dropVoxel_noHits {p : DropParams} {vs vs' : List Node} {the : Node} (hvs : NoHits vs) (hthe : the.vox.hits = [])
    (h : dropVoxel p vs the = .ok vs') : NoHits vs' ∧ totalEnergy vs' = totalEnergy vs + the.vox.e := by
  unfold dropVoxel at h
  rw [if_pos (by simp [hthe])] at h
  simp only [dropWithoutHits] at h
  split at h
  · cases h
  rename_i minDist _
  split at h
  · cases h
  rename_i htot
  cases h
  generalize (fun v : Node => neighbours the.vox v.vox && isclose (p.dist the.pos v.pos) minDist) = close at htot ⊢
  generalize hT : ((vs.filter close).map fun v => v.vox.e).sum = T at htot ⊢
  constructor
  · intro v hv
    obtain ⟨w, hw, rfl⟩ := List.mem_map.1 hv
    have := hvs w hw
    unfold shareEnergy
    split
    · simpa using this
    · simpa using this
  · have key : ∀ v ∈ vs, (shareEnergy close (the.vox.e / T) v).vox.e =
        v.vox.e + (if close v then v.vox.e else 0) * (the.vox.e / T) := by
      intro v _
      unfold shareEnergy
      split
      · ring
      · ring
    simp only [totalEnergy, List.map_map, Function.comp_def]
    rw [List.map_congr_left key, sum_map_add', sum_map_mul', sum_filter_if, hT]
    field_simp

/-! ### One extreme -/

/-- A voxel is dropped. -/
structure Drop (p : DropParams) (id : Nat) (st st' : DState) (ext : Node) : Prop where
  mem : ext ∈ st.voxels
  id_eq : ext.id = id
  low : ext.vox.e < p.threshold
  count : 1 < st.voxels.countP fun v => neighbours ext.vox v.vox p.contiguity
  moved : dropVoxel p (st.voxels.filter fun v => v.id != id) ext = .ok st'.voxels
  dropped : st'.dropped = st.dropped ++ [ext]

theorem tryDrop_cases {p : DropParams} {st st' : DState} {id : Nat} {m : Bool} (h : tryDrop p st id = .ok (st', m)) :
    (st' = st ∧ m = false ∧ ∀ v, (st.voxels.find? fun v => v.id == id) = some v →
      ¬ (v.vox.e < p.threshold ∧ 1 < st.voxels.countP fun w => neighbours v.vox w.vox p.contiguity)) ∨
    (m = true ∧ ∃ ext, Drop p id st st' ext) := by
  unfold tryDrop at h
  split at h
  · rename_i hf
    cases h
    exact Or.inl ⟨rfl, rfl, fun v hv => by rw [hf] at hv; cases hv⟩
  · rename_i ext hf
    split at h
    · rename_i hlow
      split at h
      · rename_i hc
        split at h
        · cases h
        · rename_i vs' hd
          cases h
          right
          exact ⟨rfl, ext, List.mem_of_find?_eq_some hf, by simpa using List.find?_some hf, hlow, hc, hd, rfl⟩
      · rename_i hc
        cases h
        exact Or.inl ⟨rfl, rfl, fun v hv => by rw [hf] at hv; cases hv; exact fun hh => hc hh.2⟩
    · rename_i hc
      cases h
      exact Or.inl ⟨rfl, rfl, fun v hv => by rw [hf] at hv; cases hv; exact fun hh => hc hh.1⟩

theorem Drop.length_lt {p : DropParams} {id : Nat} {st st' : DState} {ext : Node} (h : Drop p id st st' ext) : st'.voxels.length < st.voxels.length := by
  rw [dropVoxel_length h.moved]
  apply List.length_filter_lt_length_iff_exists.2
  exact ⟨ext, h.mem, by simp [h.id_eq]⟩

/-- An invariant kept by every drop is kept by a pass; a pass that says it modified something made the list shorter, and one that says it did not left the
state as it was. -/
theorem passTracks_spec {p : DropParams} (I : DState → Prop) {ts : List (List Node)}
    (hstep : ∀ t ∈ ts, p.minVoxels ≤ t.length → ∀ a b len, findExtremaAndLength (p.paths t) = .ok (some (a, b), len) →
      ∀ id, (id = a.id ∨ id = b.id) → ∀ st st' ext, I st → Drop p id st st' ext → I st') :
    ∀ {st st' : DState} {m m' : Bool}, I st → passTracks p ts st m = .ok (st', m') →
      I st' ∧ st'.voxels.length ≤ st.voxels.length ∧ (m' = true → m = true ∨ st'.voxels.length < st.voxels.length) ∧
      (m' = false → m = false ∧ st' = st ∧ ∀ t ∈ ts, p.minVoxels ≤ t.length → ∃ a b len, findExtremaAndLength (p.paths t) = .ok (some (a, b), len) ∧
        ∀ id, (id = a.id ∨ id = b.id) → ∀ v, (st.voxels.find? fun v => v.id == id) = some v →
          ¬ (v.vox.e < p.threshold ∧ 1 < st.voxels.countP fun w => neighbours v.vox w.vox p.contiguity)) := by
  induction ts with
  | nil =>
    intro st st' m m' hI h
    rw [passTracks] at h
    cases h
    exact ⟨hI, le_refl _, fun h => Or.inl h, fun h => ⟨h, rfl, fun t ht => by cases ht⟩⟩
  | cons t ts ih =>
    intro st st' m m' hI h
    have ih' := @ih fun t' ht' => hstep t' (List.mem_cons_of_mem _ ht')
    rw [passTracks] at h
    split at h
    · rename_i hlt
      obtain ⟨h1, h2, h3, h4⟩ := ih' hI h
      refine ⟨h1, h2, h3, fun hm => ?_⟩
      obtain ⟨h5, h6, h7⟩ := h4 hm
      refine ⟨h5, h6, fun t' ht' hmin => ?_⟩
      rcases List.mem_cons.1 ht' with rfl | ht'
      · omega
      · exact h7 t' ht' hmin
    · rename_i hge
      split at h
      · cases h
      · cases h
      · rename_i a b len hext
        split at h
        · cases h
        · rename_i st1 m1 hd1
          split at h
          · cases h
          · rename_i st2 m2 hd2
            have hs := hstep t List.mem_cons_self (by omega) a b len hext
            rcases tryDrop_cases hd1 with ⟨e1, f1, g1⟩ | ⟨f1, ext1, D1⟩
            · subst e1 f1
              rcases tryDrop_cases hd2 with ⟨e2, f2, g2⟩ | ⟨f2, ext2, D2⟩
              · subst e2 f2
                obtain ⟨h1, h2, h3, h4⟩ := ih' hI h
                refine ⟨h1, h2, fun hm => by simpa using h3 hm, fun hm => ?_⟩
                obtain ⟨h5, h6, h7⟩ := h4 hm
                refine ⟨by simpa using h5, h6, fun t' ht' hmin => ?_⟩
                rcases List.mem_cons.1 ht' with rfl | ht'
                · refine ⟨a, b, len, hext, ?_⟩
                  rintro id (rfl | rfl)
                  · exact g1
                  · exact g2
                · exact h7 t' ht' hmin
              · subst f2
                have hI2 := hs b.id (Or.inr rfl) _ _ _ hI D2
                obtain ⟨h1, h2, h3, h4⟩ := ih' hI2 h
                have := D2.length_lt
                exact ⟨h1, by omega, fun _ => Or.inr (by omega), fun hm => by simpa using (h4 hm).1⟩
            · subst f1
              have hI1 := hs a.id (Or.inl rfl) _ _ _ hI D1
              have l1 := D1.length_lt
              have hI2 : I st2 ∧ st2.voxels.length ≤ st1.voxels.length := by
                rcases tryDrop_cases hd2 with ⟨e2, f2, g2⟩ | ⟨f2, ext2, D2⟩
                · subst e2; exact ⟨hI1, le_refl _⟩
                · exact ⟨hs b.id (Or.inr rfl) _ _ _ hI1 D2, D2.length_lt.le⟩
              obtain ⟨h1, h2, h3, h4⟩ := ih' hI2.1 h
              exact ⟨h1, by omega, fun _ => Or.inr (by omega), fun hm => by simpa using (h4 hm).1⟩

/-- An invariant of the whole loop; `J` holds at the beginning of every pass. -/
theorem dropLoop_inv {p : DropParams} (I : DState → Prop)
    (hstep : ∀ s, I s → ∀ id, ExtremeOf p s.voxels id → ∀ st st' ext, I st → Drop p id st st' ext → I st') :
    ∀ {st : DState} {kept dropped : List Node}, I st → dropLoop p st = .done kept dropped →
      I ⟨kept, dropped⟩ ∧ ∀ t ∈ makeTrackGraphs kept p.contiguity, p.minVoxels ≤ t.length → ∃ a b len, findExtremaAndLength (p.paths t) = .ok (some (a, b), len) ∧
        ∀ id, (id = a.id ∨ id = b.id) → ∀ v, (kept.find? fun v => v.id == id) = some v →
          ¬ (v.vox.e < p.threshold ∧ 1 < kept.countP fun w => neighbours v.vox w.vox p.contiguity) := by
  intro st
  induction st using dropLoop.induct p with
  | case1 st e he => intro k d _ h; rw [dropLoop] at h; simp only [he] at h; cases h
  | case2 st st' hlt hp ih =>
    intro k d hI h
    rw [dropLoop] at h
    simp only [hp, if_pos, hlt] at h
    refine ih ?_ h
    exact (passTracks_spec I (fun t ht hm a b len hx id hid => hstep st hI id ⟨t, ht, hm, a, b, len, hx, hid⟩) hI hp).1
  | case3 st st' hlt hp =>
    intro k d hI h
    rw [dropLoop] at h
    simp only [hp, hlt] at h
    cases h
  | case4 st st' m hp hm =>
    intro k d hI h
    rw [dropLoop] at h
    simp only [hp, hm] at h
    cases h
    have := (passTracks_spec I (fun t ht hm a b len hx id hid => hstep st hI id ⟨t, ht, hm, a, b, len, hx, hid⟩) hI hp)
    have h4 := this.2.2.2 (by simpa using hm)
    obtain ⟨_, e, h5⟩ := h4
    subst e
    exact ⟨hI, h5⟩

theorem dropLoop_ends {p : DropParams} (st : DState) : dropLoop p st ≠ .neverEnds := by
  induction st using dropLoop.induct p with
  | case1 st e he => rw [dropLoop]; simp [he]
  | case2 st st' hlt hp ih => rw [dropLoop]; simpa only [hp, if_pos, hlt] using ih
  | case3 st st' hlt hp =>
    exfalso
    have := (passTracks_spec (fun _ => True) (fun _ _ _ _ _ _ _ _ _ _ _ _ _ _ => trivial) trivial hp).2.2.1 rfl
    rcases this with h | h
    · cases h
    · exact hlt h
  | case4 st st' m hp hm => rw [dropLoop]; simp [hp, hm]

theorem dropEnd_loop {p : DropParams} {vs kept dropped : List Node} (h : dropEndPointVoxels p vs = .done kept dropped) :
    vs ≠ [] ∧ dropLoop p ⟨vs, []⟩ = .done kept dropped := by
  unfold dropEndPointVoxels at h
  split at h
  · cases h
  · rename_i hv; exact ⟨by simpa using hv, h⟩

theorem shape_id (v : Node) : (shape v).id = v.id := rfl

theorem ids_of_shape {vs ws : List Node} (h : vs.map shape = ws.map shape) : vs.map Node.id = ws.map Node.id := by
  have := congrArg (List.map Node.id) h
  simpa [List.map_map, Function.comp_def, shape_id] using this

/-- With distinct identities a drop moves exactly the dropped voxel. -/
theorem Drop.perm {p : DropParams} {id : Nat} {st st' : DState} {ext : Node} (hid : (st.voxels.map Node.id).Nodup) (h : Drop p id st st' ext) :
    ((st'.voxels ++ st'.dropped).map shape).Perm ((st.voxels ++ st.dropped).map shape) := by
  have e : st.voxels.filter (fun v => v.id != id) = st.voxels.erase ext := by
    have hn : st.voxels.Nodup := List.Nodup.of_map _ hid
    rw [hn.erase_eq_filter]
    apply List.filter_congr
    intro v hv
    rw [← h.id_eq]
    by_cases hve : v = ext
    · simp [hve]
    · have : v.id ≠ ext.id := fun he => hve (List.inj_on_of_nodup_map hid hv h.mem he)
      have h1 : (v.id != ext.id) = true := by simpa using this
      have h2 : (v != ext) = true := by simpa using hve
      rw [h1, h2]
  have hs := dropVoxel_shape h.moved
  rw [e] at hs
  rw [h.dropped, List.map_append, List.map_append, List.map_append, hs, List.map_cons, List.map_nil]
  have hp : (st.voxels.map shape).Perm (shape ext :: (st.voxels.erase ext).map shape) := (List.perm_cons_erase h.mem).map shape
  calc (st.voxels.erase ext).map shape ++ (st.dropped.map shape ++ [shape ext])
      = ((st.voxels.erase ext).map shape ++ st.dropped.map shape) ++ [shape ext] := by rw [List.append_assoc]
    List.Perm _ ([shape ext] ++ ((st.voxels.erase ext).map shape ++ st.dropped.map shape)) := List.perm_append_comm
    List.Perm _ _ := (hp.symm.append_right _)

theorem Drop.ids {p : DropParams} {id : Nat} {st st' : DState} {ext : Node} (hid : (st.voxels.map Node.id).Nodup) (h : Drop p id st st' ext) :
    (st'.voxels.map Node.id).Nodup := by
  rw [ids_of_shape (dropVoxel_shape h.moved)]
  exact hid.sublist (List.filter_sublist.map _)

theorem energy_without {vs : List Node} {ext : Node} {id : Nat} (hid : (vs.map Node.id).Nodup) (hm : ext ∈ vs) (he : ext.id = id) :
    totalEnergy (vs.filter fun v => v.id != id) + ext.vox.e = totalEnergy vs := by
  induction vs with
  | nil => cases hm
  | cons v vs ih =>
    rw [List.map_cons, List.nodup_cons] at hid
    by_cases hv : v.id = id
    · have hext : ext = v := by
        rcases List.mem_cons.1 hm with h | h
        · exact h
        · exact absurd (List.mem_map.2 ⟨ext, h, he.trans hv.symm⟩) hid.1
      have : vs.filter (fun v => v.id != id) = vs := by
        rw [List.filter_eq_self]
        intro w hw
        simp only [bne_iff_ne, ne_eq]
        intro hwi
        exact hid.1 (List.mem_map.2 ⟨w, hw, hwi.trans hv.symm⟩)
      rw [List.filter_cons, if_neg (by simp [hv]), this, hext]
      simp [totalEnergy]
      ring
    · have hm' : ext ∈ vs := by
        rcases List.mem_cons.1 hm with h | h
        · exact absurd (h ▸ he) hv
        · exact h
      rw [List.filter_cons, if_pos (by simp [hv])]
      have := ih hid.2 hm'
      simp only [totalEnergy, List.map_cons, List.sum_cons] at this ⊢
      linarith

/-! ### C30 -/

/-- The loop ends. -/
theorem drop_terminates (p : DropParams) (vs : List Node) : dropEndPointVoxels p vs ≠ .neverEnds := by
  unfold dropEndPointVoxels
  split
  · simp
  · exact dropLoop_ends _

/-- The kept and the dropped voxels are those of the input: same positions, sizes, identities and hits, and only energies change. -/
theorem drop_partition {p : DropParams} {vs kept dropped : List Node} (hid : (vs.map Node.id).Nodup)
    (h : dropEndPointVoxels p vs = .done kept dropped) : ((kept ++ dropped).map shape).Perm (vs.map shape) := by
  obtain ⟨_, h⟩ := dropEnd_loop h
  have := dropLoop_inv (p := p) (fun st => (st.voxels.map Node.id).Nodup ∧ ((st.voxels ++ st.dropped).map shape).Perm (vs.map shape))
    (fun s _ id _ st st' ext hI hD => ⟨hD.ids hI.1, (hD.perm hI.1).trans hI.2⟩) ⟨hid, by simp⟩ h
  exact this.1.2

/-- The voxels that are kept are never empty. -/
theorem drop_keeps {p : DropParams} {vs kept dropped : List Node} (hid : (vs.map Node.id).Nodup)
    (h : dropEndPointVoxels p vs = .done kept dropped) : kept ≠ [] := by
  obtain ⟨hne, h⟩ := dropEnd_loop h
  have := dropLoop_inv (p := p) (fun st => (st.voxels.map Node.id).Nodup ∧ st.voxels ≠ []) (fun s _ id _ st st' ext hI hD => by
    refine ⟨hD.ids hI.1, ?_⟩
    intro he
    have hl := dropVoxel_length hD.moved
    rw [he, List.length_nil, eq_comm, List.length_eq_zero_iff, List.filter_eq_nil_iff] at hl
    have hall : ∀ v ∈ st.voxels, v = ext := fun v hv => List.inj_on_of_nodup_map hI.1 hv hD.mem (by
      have := hl v hv
      simp at this
      rw [this, hD.id_eq])
    have hlen : st.voxels.length ≤ 1 := by
      have hn : st.voxels.Nodup := List.Nodup.of_map _ hI.1
      rw [List.eq_replicate_of_mem hall] at hn
      exact List.nodup_replicate.1 hn
    have := hD.count
    have := List.countP_le_length (p := fun v : Node => neighbours ext.vox v.vox p.contiguity) (l := st.voxels)
    omega) ⟨hid, hne⟩ h
  exact this.1.2

/-- The total energy of voxels made from hits is the same after dropping: the energy of each dropped voxel goes to hits of the others, and the voxels kept have
still the energy of their hits. -/
theorem drop_conserves_hits {p : DropParams} {vs kept dropped : List Node} (hid : (vs.map Node.id).Nodup) (hv : FromHits vs)
    (h : dropEndPointVoxels p vs = .done kept dropped) : FromHits kept ∧ totalEnergy kept = totalEnergy vs := by
  obtain ⟨_, h⟩ := dropEnd_loop h
  have := dropLoop_inv (p := p) (fun st => (st.voxels.map Node.id).Nodup ∧ FromHits st.voxels ∧ totalEnergy st.voxels = totalEnergy vs)
    (fun s _ id _ st st' ext hI hD => by
      obtain ⟨h1, h2⟩ := dropVoxel_fromHits (fun v hv => hI.2.1 v (List.mem_filter.1 hv).1) (hI.2.1 ext hD.mem).1 hD.moved
      refine ⟨hD.ids hI.1, h1, ?_⟩
      rw [h2, ← hI.2.2]
      exact energy_without hI.1 hD.mem hD.id_eq) ⟨hid, hv, rfl⟩ h
  exact this.1.2

/-- The total energy of voxels without hits is the same after dropping. -/
theorem drop_conserves_voxels {p : DropParams} {vs kept dropped : List Node} (hid : (vs.map Node.id).Nodup) (hv : NoHits vs)
    (h : dropEndPointVoxels p vs = .done kept dropped) : totalEnergy kept = totalEnergy vs := by
  obtain ⟨_, h⟩ := dropEnd_loop h
  have := dropLoop_inv (p := p) (fun st => (st.voxels.map Node.id).Nodup ∧ NoHits st.voxels ∧ totalEnergy st.voxels = totalEnergy vs)
    (fun s _ id _ st st' ext hI hD => by
      obtain ⟨h1, h2⟩ := dropVoxel_noHits (fun v hv => hI.2.1 v (List.mem_filter.1 hv).1) (hI.2.1 ext hD.mem) hD.moved
      refine ⟨hD.ids hI.1, h1, ?_⟩
      rw [h2, ← hI.2.2]
      exact energy_without hI.1 hD.mem hD.id_eq) ⟨hid, hv, rfl⟩ h
  exact this.1.2.2

/-- Each dropped voxel had, when it was dropped, an energy below the threshold, and was an extreme of a track with at least `min_vxls` voxels of a
collection made of voxels of the input. -/
theorem drop_reason {p : DropParams} {vs kept dropped : List Node} (h : dropEndPointVoxels p vs = .done kept dropped) :
    ∀ d ∈ dropped, d.vox.e < p.threshold ∧ ∃ ws, (ws.map shape).Sublist (vs.map shape) ∧ ExtremeOf p ws d.id := by
  obtain ⟨_, h⟩ := dropEnd_loop h
  have := dropLoop_inv (p := p) (fun st => (st.voxels.map shape).Sublist (vs.map shape) ∧
      ∀ d ∈ st.dropped, d.vox.e < p.threshold ∧ ∃ ws, (ws.map shape).Sublist (vs.map shape) ∧ ExtremeOf p ws d.id)
    (fun s hs id hext st st' ext hI hD => by
      constructor
      · rw [dropVoxel_shape hD.moved]
        exact (List.filter_sublist.map _).trans hI.1
      · intro d hd
        rw [hD.dropped, List.mem_append, List.mem_singleton] at hd
        rcases hd with hd | rfl
        · exact hI.2 d hd
        · exact ⟨hD.low, s.voxels, hs.1, by rw [hD.id_eq]; exact hext⟩) ⟨List.Sublist.refl _, fun d hd => by cases hd⟩ h
  exact this.1.2

/-- When the loop ends, the extremes of every track with at least `min_vxls` voxels have an energy not below the threshold, or no other voxel is their
neighbour. -/
theorem drop_final {p : DropParams} {vs kept dropped : List Node} (hid : (vs.map Node.id).Nodup) (h : dropEndPointVoxels p vs = .done kept dropped) :
    ∀ v ∈ kept, ExtremeOf p kept v.id → p.threshold ≤ v.vox.e ∨ (kept.countP fun w => neighbours v.vox w.vox p.contiguity) ≤ 1 := by
  obtain ⟨_, h⟩ := dropEnd_loop h
  obtain ⟨hn, hf⟩ := dropLoop_inv (p := p) (fun st => (st.voxels.map Node.id).Nodup) (fun s _ id _ st st' ext hI hD => hD.ids hI) hid h
  rintro v hv ⟨t, ht, hm, a, b, len, hx, hab⟩
  obtain ⟨a', b', len', hx', hf⟩ := hf t ht hm
  rw [hx] at hx'
  cases hx'
  have hfind : (kept.find? fun w => w.id == v.id) = some v := by
    cases hc : kept.find? fun w => w.id == v.id with
    | none => rw [List.find?_eq_none] at hc; exact absurd (hc v hv) (by simp)
    | some w =>
      have h1 := List.mem_of_find?_eq_some hc
      have h2 : w.id = v.id := by simpa using List.find?_some hc
      exact congrArg some (List.inj_on_of_nodup_map hn h1 hv h2)
  have := hf v.id hab v hfind
  by_contra hc
  push Not at hc
  exact this ⟨hc.1, hc.2⟩

/-- Nothing happens when all the tracks are shorter than `min_vxls`. -/
theorem drop_short {p : DropParams} {vs : List Node} (hne : vs ≠ []) (hshort : ∀ t ∈ makeTrackGraphs vs p.contiguity, t.length < p.minVoxels) :
    dropEndPointVoxels p vs = .done vs [] := by
  have : ∀ ts : List (List Node), (∀ t ∈ ts, t.length < p.minVoxels) → passTracks p ts ⟨vs, []⟩ false = .ok (⟨vs, []⟩, false) := by
    intro ts
    induction ts with
    | nil => intro _; rfl
    | cons t ts ih =>
      intro h
      rw [passTracks, if_pos (h t List.mem_cons_self)]
      exact ih fun t' ht' => h t' (List.mem_cons_of_mem _ ht')
  unfold dropEndPointVoxels
  rw [if_neg (by simpa using hne), dropLoop]
  simp [this _ hshort]

/-- A collection without voxels is an error. -/
theorem drop_empty (p : DropParams) : dropEndPointVoxels p [] = .raises .indexError := rfl

/-! ### Cases -/

def lineDist (a b : Point) : ℚ := |a.x - b.x|
def linePaths (t : List Node) : Table Node := t.map fun v => (v, t.map fun w => (w, lineDist v.pos w.pos))
def lineParams : DropParams := ⟨10, 3, .corner, linePaths, lineDist⟩
def lineVoxel (i : Nat) (e : ℚ) : Node := ⟨i, ⟨i, 0, 0, e, 1, 1, 1, [⟨i, 0, 0, e, i⟩]⟩⟩
def bareVoxel (i : Nat) (e : ℚ) : Node := ⟨i, ⟨i, 0, 0, e, 1, 1, 1, []⟩⟩

example : dropEndPointVoxels lineParams [lineVoxel 0 5, lineVoxel 1 20, lineVoxel 2 30, lineVoxel 3 30] =
    .done [lineVoxel 1 25 , lineVoxel 2 30, lineVoxel 3 30] [lineVoxel 0 5] := by decide +kernel
example : FromHits [lineVoxel 0 5, lineVoxel 1 20, lineVoxel 2 30, lineVoxel 3 30] := by
  intro v hv
  simp only [List.mem_cons, List.not_mem_nil, or_false] at hv
  rcases hv with rfl | rfl | rfl | rfl <;> simp [lineVoxel]
example : ([lineVoxel 0 5, lineVoxel 1 20, lineVoxel 2 30, lineVoxel 3 30].map Node.id).Nodup := by decide
example : dropEndPointVoxels lineParams [bareVoxel 0 5, bareVoxel 1 20, bareVoxel 2 30, bareVoxel 3 30] =
    .done [bareVoxel 1 25 , bareVoxel 2 30, bareVoxel 3 30] [bareVoxel 0 5] := by decide +kernel
example : NoHits [bareVoxel 0 5, bareVoxel 1 20, bareVoxel 2 30, bareVoxel 3 30] := by
  intro v hv
  simp only [List.mem_cons, List.not_mem_nil, or_false] at hv
  rcases hv with rfl | rfl | rfl | rfl <;> simp [bareVoxel]
example : ∀ t ∈ makeTrackGraphs [lineVoxel 0 5, lineVoxel 1 20] lineParams.contiguity, t.length < lineParams.minVoxels := by decide +kernel
/-- The extremes of what is kept: the hypothesis of `drop_final` is met. -/
example : ExtremeOf lineParams [lineVoxel 1 25 , lineVoxel 2 30, lineVoxel 3 30] 1 :=
  ⟨[lineVoxel 1 25 , lineVoxel 2 30, lineVoxel 3 30], by decide +kernel, by decide, lineVoxel 1 25, lineVoxel 3 30, 2, by decide +kernel, Or.inl rfl⟩

/-- `min_vxls` is checked once for the two extremes: a track with exactly `min_vxls = 3` voxels can end up with only one. -/
theorem drop_below_minimum : dropEndPointVoxels lineParams [lineVoxel 0 5, lineVoxel 1 20, lineVoxel 2 8] =
    .done [lineVoxel 1 33] [lineVoxel 0 5, lineVoxel 2 8] := by decide +kernel

/-- A voxel without hits among voxels with hits: its energy is lost at the next drop, since the energies are recomputed from the hits. -/
theorem drop_mixed_loses_energy : ∃ kept dropped,
    dropEndPointVoxels lineParams [bareVoxel 0 5, lineVoxel 1 20, lineVoxel 2 30, lineVoxel 3 30, lineVoxel 4 7] = .done kept dropped ∧
      totalEnergy kept = 87 ∧ totalEnergy [bareVoxel 0 5, lineVoxel 1 20, lineVoxel 2 30, lineVoxel 3 30, lineVoxel 4 7] = 92 :=
  ⟨[lineVoxel 1 20, lineVoxel 2 30, lineVoxel 3 37], [bareVoxel 0 5, lineVoxel 4 7], by decide +kernel, by decide +kernel, by decide +kernel⟩

end Verif.Tracks
