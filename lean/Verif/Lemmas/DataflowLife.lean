import Verif.Lemmas.DataflowLocal
/-! Helper lemmas: life cycle of one component, and what its future is set to. -/
namespace Verif.Dataflow
variable {α : Type}

/-- Only hand-overs of items to component `i`. -/
def Recvs (i : Nat) (evs : List (Ev α)) : Prop := ∃ xs : List α, evs = xs.map (Ev.recv i)

theorem Recvs.nil (i : Nat) : Recvs (α := α) i [] := ⟨[], rfl⟩
theorem Recvs.append {i : Nat} {a b : List (Ev α)} (ha : Recvs i a) (hb : Recvs i b) : Recvs i (a ++ b) := by
  obtain ⟨xs, rfl⟩ := ha; obtain ⟨ys, rfl⟩ := hb; exact ⟨xs ++ ys, by simp⟩
theorem Recvs.one (i : Nat) (x : α) : Recvs i [.recv i x] := ⟨[x], rfl⟩

theorem IsOwn.recvs {i : Nat} {x : α} {o : List (Ev α)} (h : IsOwn i x o) : Recvs i o := by
  rcases h with rfl | rfl
  · exact .nil i
  · exact .one i x

/-- The component at the root of `n`: receives items, then its future is set (if it has one), then it
is closed; all that once. -/
structure Life (n : Net α) : Prop where
  close : ∀ S, IsFin n.root (only [n.root] (Dataflow.close n S))
  ok : ∀ S x S', (send n S x).next = .ok S' → Recvs n.root (only [n.root] (send n S x).evs)
  err : ∀ S x e, (send n S x).next = .error e →
    ∃ a b, only [n.root] (send n S x).evs = a ++ b ∧ Recvs n.root a ∧ IsFin n.root b

theorem Life.act {n : Net α} (h : Life n) {s evs out} (ha : Act n s evs out) :
    (∀ S, out = some S → Recvs n.root (only [n.root] evs)) ∧
    (out = none → ∃ a b, only [n.root] evs = a ++ b ∧ Recvs n.root a ∧ IsFin n.root b) := by
  induction ha with
  | idle s => exact ⟨fun _ _ => by simpa [only] using Recvs.nil _, by simp⟩
  | close s => exact ⟨by simp, fun _ => ⟨[], _, rfl, .nil _, h.close s⟩⟩
  | fail s x e he => exact ⟨by simp, fun _ => h.err s x e he⟩
  | step s x s' evs out hn _ ih =>
    refine ⟨fun S hS => ?_, fun ho => ?_⟩
    · rw [only_append]; exact (h.ok _ _ _ hn).append (ih.1 S hS)
    · obtain ⟨a, b, hab, hr, hf⟩ := ih.2 ho
      exact ⟨_ ++ a, b, by rw [only_append, hab, List.append_assoc], (h.ok _ _ _ hn).append hr, hf⟩

theorem only_fin {i : Nat} {fin : List (Ev α)} (h : IsFin i fin) : only [i] fin = fin := by
  rcases h with rfl | ⟨v, rfl⟩ <;> simp [only, Ev.id]
theorem only_own {i : Nat} {x : α} {o : List (Ev α)} (h : IsOwn i x o) : only [i] o = o := by
  rcases h with rfl | rfl <;> simp [only, Ev.id]

theorem only_root_of_notMem {i : Nat} {ids : List Nat} {evs : List (Ev α)} (h : EvsIn ids evs) (hi : i ∉ ids) :
    only [i] evs = [] := only_none h (fun j hj h' => by simp at h'; exact hi (h' ▸ hj))

theorem Unary.life {n t : Net α} {i sel} (u : Unary n i t sel) (hr : n.root = i) (hn : n.ids.Nodup) : Life n := by
  rw [u.ids, List.nodup_cons] at hn
  refine ⟨?_, ?_, ?_⟩ <;> rw [hr]
  · intro S
    obtain ⟨fin, h, hf⟩ := u.close S
    rw [h, only_append, only_root_of_notMem ((Dataflow.inIds t).1 _) hn.1, only_fin hf]; exact hf
  · intro S x S' h
    obtain ⟨own, evs, h, ho, ha⟩ := u.ok S x S' h
    rw [h, only_append, only_own ho, only_root_of_notMem ((Dataflow.inIds t).act ha) hn.1, List.append_nil]
    exact ho.recvs
  · intro S x e h
    obtain ⟨own, evs, fin, h, ho, hf, ha⟩ := u.err S x e h
    refine ⟨own, fin, ?_, ho.recvs, hf⟩
    rw [h, only_append, only_append, only_own ho, only_root_of_notMem ((Dataflow.inIds t).act ha) hn.1,
      only_fin hf, List.append_nil]

theorem only_closed (i : Nat) : only [i] [Ev.closed (α := α) i] = [.closed i] := by simp [only, Ev.id]

theorem life (n : Net α) (hn : n.ids.Nodup) : Life n := by
  cases n with
  | sink i eff =>
    refine ⟨?_, ?_, ?_⟩
    · intro S; simpa [close, only, Ev.id, Net.root] using IsFin.closed i
    · intro S x S' h; simp only [send] at h ⊢
      cases ho : eff x <;> simp [ho] at h ⊢
      simpa [only, Ev.id, Net.root] using Recvs.one i x
    · intro S x e h; simp only [send] at h ⊢
      cases ho : eff x <;> simp [ho] at h ⊢
      exact ⟨[.recv i x], [.closed i], by simp [only, Ev.id, Net.root], .one i x, .closed i⟩
  | reduce i upd a0 =>
    refine ⟨?_, ?_, ?_⟩
    · intro S; cases S; simpa [close, only, Ev.id, Net.root] using IsFin.res i _
    · intro S x S' h; cases S; simp only [send] at h ⊢
      split at h
      · rename_i h1; simpa [h1, only, Ev.id, Net.root] using Recvs.one i x
      · simp at h
    · intro S x e h; cases S; rename_i a; simp only [send] at h ⊢
      split at h
      · simp at h
      · rename_i h1
        exact ⟨[.recv i x], [.result i (.val a), .closed i], by simp [h1, only, Ev.id, Net.root], .one i x, .res i _⟩
  | count i =>
    refine ⟨?_, ?_, ?_⟩
    · intro S; cases S; simpa [close, only, Ev.id, Net.root] using IsFin.res i _
    · intro S x S' h; cases S; simp only [send] at h ⊢
      simpa [only, Ev.id, Net.root] using Recvs.one i x
    · intro S x e h; cases S; simp [send] at h
  | map i op t => exact (unary_map i op t).life rfl hn
  | mapIn i op t => exact (unary_mapIn i op t).life rfl hn
  | flatmap i op t => exact (unary_flatmap i op t).life rfl hn
  | flatmapIn i op t => exact (unary_flatmapIn i op t).life rfl hn
  | filter i op t => exact (unary_filter i op t).life rfl hn
  | countFilter i op t => exact (unary_countFilter i op t).life rfl hn
  | spy i op t => exact (unary_spy i op t).life rfl hn
  | slice i a b g ca t => exact (unary_slice i a b g ca t).life rfl hn
  | branch i a b =>
    simp only [Net.ids, List.nodup_cons, List.mem_append, not_or] at hn
    have ca : ∀ s, only [i] (close a s) = [] := fun s => only_root_of_notMem ((inIds a).1 s) hn.1.1
    have cb : ∀ s, only [i] (close b s) = [] := fun s => only_root_of_notMem ((inIds b).1 s) hn.1.2
    have sa : ∀ s x, only [i] (send a s x).evs = [] := fun s x => only_root_of_notMem ((inIds a).2 s x) hn.1.1
    have sb : ∀ s x, only [i] (send b s x).evs = [] := fun s x => only_root_of_notMem ((inIds b).2 s x) hn.1.2
    refine ⟨?_, ?_, ?_⟩
    · intro S; cases S; simp only [close, Net.root, only_append, ca, cb, only_closed]; exact .closed i
    · intro S x S' h; cases S; simp only [send] at h ⊢
      split at h
      · simp at h
      · split at h
        · rename_i h1 _ _ h2; simp only [h1, h2, Net.root, only_append, sa, sb]; exact .nil i
        · simp at h
    · intro S x e h; cases S; simp only [send] at h ⊢
      refine ⟨[], [.closed i], ?_, .nil _, .closed i⟩
      split at h
      · rename_i h1; simp [h1, Net.root, only_append, sa, cb, only_closed]
      · split at h
        · simp at h
        · rename_i h1 _ _ h2; simp [h1, h2, Net.root, only_append, sa, sb, ca, only_closed]
  | fork i ts =>
    simp only [Net.ids, List.nodup_cons] at hn
    refine ⟨?_, ?_, ?_⟩
    · intro S; cases S
      simp only [close, Net.root, only_append, only_root_of_notMem ((inIdsS ts).1 _) hn.1, only_closed]; exact .closed i
    · intro S x S' h; cases S; simp only [send] at h ⊢
      split at h
      · rename_i h1
        simp only [h1, Net.root, only_root_of_notMem ((inIdsS ts).2 _ _).1 hn.1]; exact .nil i
      · simp at h
    · intro S x e h; cases S; simp only [send] at h ⊢
      refine ⟨[], [.closed i], ?_, .nil _, .closed i⟩
      split at h
      · simp at h
      · rename_i h1
        simp [h1, Net.root, only_append, only_root_of_notMem ((inIdsS ts).2 _ _).1 hn.1,
          only_root_of_notMem (((inIdsS ts).2 _ _).2 _ _ h1) hn.1, only_closed]

theorem root_mem (n : Net α) : n.root ∈ n.ids := by
  cases n <;> simp [Net.root, Net.ids]

mutual
/-- Every component is the root of a part. -/
theorem part_of_mem : (n : Net α) → (i : Nat) → i ∈ n.ids → ∃ c, Part c n ∧ c.root = i
  | .sink j e, i, h => ⟨_, .refl, by simp [Net.ids, Net.root] at h ⊢; exact h.symm⟩
  | .reduce j u a, i, h => ⟨_, .refl, by simp [Net.ids, Net.root] at h ⊢; exact h.symm⟩
  | .count j, i, h => ⟨_, .refl, by simp [Net.ids, Net.root] at h ⊢; exact h.symm⟩
  | .map j op t, i, h => by
    simp only [Net.ids, List.mem_cons] at h
    rcases h with rfl | h
    · exact ⟨_, .refl, rfl⟩
    · obtain ⟨c, hp, hr⟩ := part_of_mem t i h; exact ⟨c, .map hp, hr⟩
  | .mapIn j op t, i, h => by
    simp only [Net.ids, List.mem_cons] at h
    rcases h with rfl | h
    · exact ⟨_, .refl, rfl⟩
    · obtain ⟨c, hp, hr⟩ := part_of_mem t i h; exact ⟨c, .mapIn hp, hr⟩
  | .flatmap j op t, i, h => by
    simp only [Net.ids, List.mem_cons] at h
    rcases h with rfl | h
    · exact ⟨_, .refl, rfl⟩
    · obtain ⟨c, hp, hr⟩ := part_of_mem t i h; exact ⟨c, .flatmap hp, hr⟩
  | .flatmapIn j op t, i, h => by
    simp only [Net.ids, List.mem_cons] at h
    rcases h with rfl | h
    · exact ⟨_, .refl, rfl⟩
    · obtain ⟨c, hp, hr⟩ := part_of_mem t i h; exact ⟨c, .flatmapIn hp, hr⟩
  | .filter j op t, i, h => by
    simp only [Net.ids, List.mem_cons] at h
    rcases h with rfl | h
    · exact ⟨_, .refl, rfl⟩
    · obtain ⟨c, hp, hr⟩ := part_of_mem t i h; exact ⟨c, .filter hp, hr⟩
  | .countFilter j op t, i, h => by
    simp only [Net.ids, List.mem_cons] at h
    rcases h with rfl | h
    · exact ⟨_, .refl, rfl⟩
    · obtain ⟨c, hp, hr⟩ := part_of_mem t i h; exact ⟨c, .countFilter hp, hr⟩
  | .spy j op t, i, h => by
    simp only [Net.ids, List.mem_cons] at h
    rcases h with rfl | h
    · exact ⟨_, .refl, rfl⟩
    · obtain ⟨c, hp, hr⟩ := part_of_mem t i h; exact ⟨c, .spy hp, hr⟩
  | .slice j a b g ca t, i, h => by
    simp only [Net.ids, List.mem_cons] at h
    rcases h with rfl | h
    · exact ⟨_, .refl, rfl⟩
    · obtain ⟨c, hp, hr⟩ := part_of_mem t i h; exact ⟨c, .slice hp, hr⟩
  | .branch j a b, i, h => by
    simp only [Net.ids, List.mem_cons, List.mem_append] at h
    rcases h with rfl | h | h
    · exact ⟨_, .refl, rfl⟩
    · obtain ⟨c, hp, hr⟩ := part_of_mem a i h; exact ⟨c, .branchSide hp, hr⟩
    · obtain ⟨c, hp, hr⟩ := part_of_mem b i h; exact ⟨c, .branchDown hp, hr⟩
  | .fork j ts, i, h => by
    simp only [Net.ids, List.mem_cons] at h
    rcases h with rfl | h
    · exact ⟨_, .refl, rfl⟩
    · obtain ⟨c, t, k, hk, hp, hr⟩ := part_of_memS ts i h; exact ⟨c, .fork hk hp, hr⟩
theorem part_of_memS : (ts : Nets α) → (i : Nat) → i ∈ ts.ids → ∃ c t k, Target t k ts ∧ Part c t ∧ c.root = i
  | .nil, i, h => by simp [Nets.ids] at h
  | .cons t ts, i, h => by
    simp only [Nets.ids, List.mem_append] at h
    rcases h with h | h
    · obtain ⟨c, hp, hr⟩ := part_of_mem t i h; exact ⟨c, t, 0, .head, hp, hr⟩
    · obtain ⟨c, t', k, hk, hp, hr⟩ := part_of_memS ts i h; exact ⟨c, t', k + 1, .tail hk, hp, hr⟩
end

theorem part_nodup {c n : Net α} (hp : Part c n) (hn : n.ids.Nodup) : c.ids.Nodup := by
  induction hp with
  | refl => exact hn
  | map _ ih | mapIn _ ih | flatmap _ ih | flatmapIn _ ih | filter _ ih | countFilter _ ih | spy _ ih | slice _ ih =>
    simp only [Net.ids, List.nodup_cons] at hn; exact ih hn.2
  | branchSide _ ih => simp only [Net.ids, List.nodup_cons, List.nodup_append] at hn; exact ih hn.2.1
  | branchDown _ ih => simp only [Net.ids, List.nodup_cons, List.nodup_append] at hn; exact ih hn.2.2.1
  | fork hk _ ih => simp only [Net.ids, List.nodup_cons] at hn; exact ih (hk.nodup hn.2)

/-- Events of one component in a run: items received, then the future (if any), then closed. -/
theorem life_run {n : Net α} (hn : n.ids.Nodup) {i : Nat} (hi : i ∈ n.ids) (xs : List α) :
    ∃ (ys : List α) (fin : List (Ev α)), only [i] (push xs n).trace = ys.map (Ev.recv i) ++ fin ∧ IsFin i fin := by
  obtain ⟨c, hp, rfl⟩ := part_of_mem n i hi
  obtain ⟨ys, hy⟩ := local_run hp hn xs
  have hc := (life c (part_nodup hp hn)).act (Act.pushFrom ys (init c))
  obtain ⟨a, b, hab, ⟨zs, rfl⟩, hf⟩ := hc.2 rfl
  refine ⟨zs, b, ?_, hf⟩
  rw [← hab, ← push, ← hy, only_only]
  simpa using root_mem c

theorem results_only (i : Nat) (tr : List (Ev α)) : results i (only [i] tr) = results i tr := by
  simp only [results, only, List.filterMap_filter]
  congr 1; funext e; cases e <;> simp [Ev.id]

theorem received_only (i : Nat) (tr : List (Ev α)) : received i (only [i] tr) = received i tr := by
  simp only [received, only, List.filterMap_filter]
  congr 1; funext e; cases e <;> simp [Ev.id]

theorem timesClosed_only (i : Nat) (tr : List (Ev α)) : timesClosed i (only [i] tr) = timesClosed i tr := by
  simp only [timesClosed, only, List.filter_filter]
  congr 2; funext e; cases e <;> simp [Ev.id]

theorem received_append (i : Nat) (a b : List (Ev α)) : received i (a ++ b) = received i a ++ received i b := by
  simp [received]
theorem results_append (i : Nat) (a b : List (Ev α)) : results i (a ++ b) = results i a ++ results i b := by
  simp [results]

theorem results_none {i : Nat} {ids : List Nat} {a : List (Ev α)} (h : EvsIn ids a) (hi : i ∉ ids) : results i a = [] := by
  rw [← results_only, only_root_of_notMem h hi]; rfl
theorem received_none {i : Nat} {ids : List Nat} {a : List (Ev α)} (h : EvsIn ids a) (hi : i ∉ ids) : received i a = [] := by
  rw [← received_only, only_root_of_notMem h hi]; rfl

theorem results_ids {c : Net α} {i : Nat} (h : i ∈ c.ids) (tr : List (Ev α)) :
    results i (only c.ids tr) = results i tr := by
  rw [← results_only, only_only (by simpa using h), results_only]
theorem received_ids {c : Net α} {i : Nat} (h : i ∈ c.ids) (tr : List (Ev α)) :
    received i (only c.ids tr) = received i tr := by
  rw [← received_only, only_only (by simpa using h), received_only]

end Verif.Dataflow
