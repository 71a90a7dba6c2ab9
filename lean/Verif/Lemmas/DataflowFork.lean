import Verif.Lemmas.DataflowOps
/-! Helper lemmas: forks and branches with read-only targets. -/
namespace Verif.Dataflow
variable {α : Type}

theorem sliceResume_item (i a b g ca) (t : Net α) (x : α) (st s evs) :
    (sliceResume i a b g ca t x st s evs).item = x := by
  unfold sliceResume; split <;> rfl

mutual
/-- A read-only network leaves the item as it was. -/
theorem send_item : (n : Net α) → n.readOnly = true → ∀ s x, (send n s x).item = x
  | .sink i eff, _, s, x => by simp only [send]; split <;> rfl
  | .reduce i u a, _, .reduce _, x => by simp only [send]; split <;> rfl
  | .count i, _, .count _, x => by simp only [send]
  | .map i op t, _, .map s, x => by
    simp only [send]; split
    · rfl
    · split <;> rfl
  | .mapIn _ _ _, h, _, _ => by simp [Net.readOnly] at h
  | .flatmap i op t, _, .flatmap s, x => by
    simp only [send]; split
    · rfl
    · split <;> rfl
  | .flatmapIn _ _ _, h, _, _ => by simp [Net.readOnly] at h
  | .filter i p t, h, .filter s, x => by
    have ih := send_item t (by simpa [Net.readOnly] using h) s x
    simp only [send]; split
    · rfl
    · rfl
    · split <;> exact ih
  | .countFilter i p t, h, .countFilter _ _ s, x => by
    have ih := send_item t (by simpa [Net.readOnly] using h) s x
    simp only [send]; split
    · rfl
    · rfl
    · split <;> exact ih
  | .spy i p t, h, .spy s, x => by
    have ih := send_item t (by simpa [Net.readOnly] using h) s x
    simp only [send]; split
    · rfl
    · split <;> exact ih
  | .branch i a b, h, .branch sa sb, x => by
    simp only [Net.readOnly, Bool.and_eq_true] at h
    have iha := send_item a h.1 sa x
    have ihb := send_item b h.2 sb x
    simp only [send]; split
    · exact iha
    · rw [iha]; split <;> exact ihb
  | .fork i ts, h, .fork ss, x => by
    have ih := sends_item ts (by simpa [Net.readOnly] using h) ss x
    simp only [send]; split <;> exact ih
  | .slice i a b g ca t, h, .slice st s, x => by
    have ih := send_item t (by simpa [Net.readOnly] using h) s x
    rcases sliceCases st with ⟨k, l, rfl⟩ | rfl | ⟨l, hl, rfl⟩
    · rw [send_slice_skip, sliceResume_item]
    · rw [send_slice_done]
    · rw [send_slice_pass _ _ _ _ _ _ _ _ _ hl]
      split
      · exact ih
      · rw [sliceResume_item]; exact ih
theorem sends_item : (ts : Nets α) → ts.readOnly = true → ∀ ss x, (sends ts ss x).1 = x
  | .nil, _, _, x => by simp [sends]
  | .cons t ts, h, .cons s ss, x => by
    simp only [Nets.readOnly, Bool.and_eq_true] at h
    have ih := send_item t h.1 s x
    have ihs := sends_item ts h.2 ss x
    simp only [sends]; split
    · exact ih
    · rw [ih]; split <;> exact ihs
end

/-- One item through a fork of read-only targets, nobody raising. -/
theorem sends_ok_all {ts : Nets α} (hr : ts.readOnly = true) (hn : ts.ids.Nodup) :
    ∀ {ss x ss'}, (sends ts ss x).2.2 = .ok ss' → ∀ {t s k}, TargetSt t s k ts ss →
      ∃ s', (send t s x).next = .ok s' ∧ TargetSt t s' k ts ss' ∧
        only t.ids (sends ts ss x).2.1 = (send t s x).evs := by
  intro ss x ss' hs t s k h
  induction h with
  | @head ts ss =>
    simp only [Nets.ids, List.nodup_append] at hn
    simp only [Nets.readOnly, Bool.and_eq_true] at hr
    simp only [sends] at hs ⊢
    cases h1 : (send t s x).next with
    | error e => simp [h1] at hs
    | ok s' =>
      simp only [h1] at hs ⊢
      cases h2 : (sends ts ss (send t s x).item).2.2 with
      | error e => simp [h2] at hs
      | ok q =>
        simp only [h2, Except.ok.injEq] at hs ⊢
        subst hs
        refine ⟨s', rfl, .head, ?_⟩
        rw [only_append, only_self ((inIds t).2 s x),
          only_none ((inIdsS ts).2 ss _).1 (fun j hb ha => hn.2.2 j ha j hb rfl), List.append_nil]
  | @tail k t' ts s0 ss h ih =>
    simp only [Nets.ids, List.nodup_append] at hn
    simp only [Nets.readOnly, Bool.and_eq_true] at hr
    have hitem := send_item t' hr.1 s0 x
    simp only [sends] at hs ⊢
    cases h1 : (send t' s0 x).next with
    | error e => simp [h1] at hs
    | ok s' =>
      simp only [h1, hitem] at hs ⊢
      cases h2 : (sends ts ss x).2.2 with
      | error e => simp [h2] at hs
      | ok q =>
        simp only [h2, Except.ok.injEq] at hs ⊢
        subst hs
        obtain ⟨s'', a1, a2, a3⟩ := ih hr.2 hn.2.1 h2
        refine ⟨s'', a1, .tail a2, ?_⟩
        rw [only_append, a3,
          only_none ((inIds t').2 s0 x) (fun j hb ha => hn.2.2 j hb j (h.target.ids_sub j ha) rfl), List.nil_append]

/-- One item through a fork of read-only targets, target `j` raising. -/
theorem sends_err_all : (ts : Nets α) → ts.readOnly = true → ts.ids.Nodup →
    ∀ {ss x e cl}, (sends ts ss x).2.2 = .error (e, cl) →
      ∃ j, (∃ t s, TargetSt t s j ts ss ∧ (send t s x).next = .error e) ∧
        ∀ {t s k}, TargetSt t s k ts ss →
          (k < j → ∃ s', (send t s x).next = .ok s' ∧
            only t.ids ((sends ts ss x).2.1 ++ cl) = (send t s x).evs ++ close t s') ∧
          (k = j → (send t s x).next = .error e ∧ only t.ids ((sends ts ss x).2.1 ++ cl) = (send t s x).evs) ∧
          (j < k → only t.ids ((sends ts ss x).2.1 ++ cl) = close t s)
  | .nil, _, _, ss, x, e, cl, hs => by simp [sends] at hs
  | .cons t0 ts, hr, hn, .cons s0 ss, x, e, cl, hs => by
    simp only [Nets.ids, List.nodup_append] at hn
    simp only [Nets.readOnly, Bool.and_eq_true] at hr
    have hitem := send_item t0 hr.1 s0 x
    have hd0 : ∀ j ∈ ts.ids, j ∉ t0.ids := fun j hb ha => hn.2.2 j ha j hb rfl
    simp only [sends] at hs ⊢
    cases h1 : (send t0 s0 x).next with
    | error e' =>
      simp only [h1, Except.error.injEq, Prod.mk.injEq] at hs ⊢
      obtain ⟨rfl, rfl⟩ := hs
      refine ⟨0, ⟨t0, s0, .head, h1⟩, ?_⟩
      intro t s k hk
      refine ⟨by omega, ?_, ?_⟩
      · rintro rfl
        cases hk
        refine ⟨h1, ?_⟩
        rw [only_append, only_self ((inIds t0).2 s0 x), only_none ((inIdsS ts).1 ss) hd0, List.append_nil]
      · intro hk0
        cases hk with
        | head => omega
        | tail hk =>
          have hd : ∀ j ∈ t0.ids, j ∉ t.ids := fun j hb ha => hn.2.2 j hb j (hk.target.ids_sub j ha) rfl
          rw [only_append, only_none ((inIds t0).2 s0 x) hd, closes_target hk hn.2.1, List.nil_append]
    | ok s' =>
      simp only [h1, hitem] at hs ⊢
      cases h2 : (sends ts ss x).2.2 with
      | ok q => simp [h2] at hs
      | error q =>
        obtain ⟨e', cl'⟩ := q
        simp only [h2, Except.error.injEq, Prod.mk.injEq] at hs ⊢
        obtain ⟨rfl, rfl⟩ := hs
        obtain ⟨j, ⟨tj, sj, htj, hej⟩, ih⟩ := sends_err_all ts hr.2 hn.2.1 h2
        refine ⟨j + 1, ⟨tj, sj, .tail htj, hej⟩, ?_⟩
        intro t s k hk
        cases hk with
        | head =>
          refine ⟨fun _ => ⟨s', h1, ?_⟩, by omega, by omega⟩
          simp only [only_append]
          rw [only_self ((inIds t0).2 s0 x), only_none ((inIdsS ts).2 ss _).1 hd0,
            only_none (((inIdsS ts).2 ss _).2 _ _ h2) hd0, only_self ((inIds t0).1 s')]
          simp
        | @tail k _ _ _ _ hk =>
          have hd : ∀ j ∈ t0.ids, j ∉ t.ids := fun j hb ha => hn.2.2 j hb j (hk.target.ids_sub j ha) rfl
          have hno1 := only_none ((inIds t0).2 s0 x) hd
          have hno2 := only_none ((inIds t0).1 s') hd
          obtain ⟨a1, a2, a3⟩ := ih hk
          simp only [only_append, hno1, hno2, List.nil_append] at a1 a2 a3 ⊢
          exact ⟨fun h => a1 (by omega), fun h => a2 (by omega), fun h => a3 (by omega)⟩

/-- A run through a fork of read-only targets. -/
theorem pushFrom_fork {i : Nat} {ts : Nets α} (hr : ts.readOnly = true) (hn : (Net.fork i ts).ids.Nodup)
    (xs : List α) : ∀ ss : Sts ts,
    ((pushFrom (.fork i ts) (.fork ss) xs).consumed = xs.length ∧
      (pushFrom (.fork i ts) (.fork ss) xs).exc = none ∧
      ∀ {t s k}, TargetSt t s k ts ss →
        only t.ids (pushFrom (.fork i ts) (.fork ss) xs).trace = (pushFrom t s xs).trace) ∨
    (∃ j tj sj, TargetSt tj sj j ts ss ∧
      (pushFrom (.fork i ts) (.fork ss) xs).exc = (pushFrom tj sj xs).exc ∧
      (pushFrom (.fork i ts) (.fork ss) xs).consumed = (pushFrom tj sj xs).consumed ∧
      0 < (pushFrom (.fork i ts) (.fork ss) xs).consumed ∧
      ∀ {t s k}, TargetSt t s k ts ss →
        only t.ids (pushFrom (.fork i ts) (.fork ss) xs).trace =
          (pushFrom t s (xs.take (if k ≤ j then (pushFrom (.fork i ts) (.fork ss) xs).consumed
            else (pushFrom (.fork i ts) (.fork ss) xs).consumed - 1))).trace) := by
  have hn' := hn
  simp only [Net.ids, List.nodup_cons] at hn'
  have e0 : ∀ {t s k ss}, TargetSt t s k ts ss → only t.ids [Ev.closed (α := α) i] = [] := fun h =>
    only_none (ids' := [i]) (by simp [EvsIn, Ev.id]) (by simpa using fun h' => hn'.1 (h.target.ids_sub _ h'))
  induction xs with
  | nil =>
    intro ss
    left
    refine ⟨rfl, rfl, ?_⟩
    intro t s k h
    simp only [pushFrom, close]
    rw [only_append, e0 h, closes_target h hn'.2, List.append_nil]
  | cons x xs ih =>
    intro ss
    cases h1 : (sends ts ss x).2.2 with
    | ok ss' =>
      have hsend : (send (.fork i ts) (.fork ss) x).next = .ok (.fork ss') := by simp [send, h1]
      have hevs : (send (.fork i ts) (.fork ss) x).evs = (sends ts ss x).2.1 := by simp [send, h1]
      rw [pushFrom_cons_ok _ _ _ _ _ hsend, hevs]
      rcases ih ss' with ⟨a1, a2, a3⟩ | ⟨j, tj, sj, b1, b2, b3, b4, b5⟩
      · left
        refine ⟨by simp [a1], a2, ?_⟩
        intro t s k h
        obtain ⟨s', c1, c2, c3⟩ := sends_ok_all hr hn'.2 h1 h
        rw [only_append, c3, a3 c2, pushFrom_cons_ok _ _ _ _ _ c1]
      · right
        -- the raising target had state `sj'` before `x`
        have : ∃ sj', TargetSt tj sj' j ts ss ∧ (send tj sj' x).next = .ok sj := by
          have hex : ∀ {ts : Nets α} {ss ss' : Sts ts} {j sj}, TargetSt tj sj j ts ss' → ∃ s, TargetSt tj s j ts ss := by
            intro ts ss ss' j sj h
            induction h with
            | head => cases ss; exact ⟨_, .head⟩
            | tail _ ih => cases ss; obtain ⟨s, hs⟩ := ih; exact ⟨s, .tail hs⟩
          obtain ⟨s, hs⟩ := hex (ss := ss) b1
          obtain ⟨s', c1, c2, _⟩ := sends_ok_all hr hn'.2 h1 hs
          have huniq : ∀ {ts : Nets α} {ss : Sts ts} {j s1 s2}, TargetSt tj s1 j ts ss → TargetSt tj s2 j ts ss → s1 = s2 := by
            intro ts ss j s1 s2 h1 h2
            induction h1 with
            | head => cases h2; rfl
            | tail _ ih => cases h2; exact ih (by assumption)
          exact ⟨s, hs, by rw [huniq b1 c2]; exact c1⟩
        obtain ⟨sj', hs', hok⟩ := this
        refine ⟨j, tj, sj', hs', ?_, ?_, by simp, ?_⟩
        · rw [pushFrom_cons_ok _ _ _ _ _ hok]; exact b2
        · rw [pushFrom_cons_ok _ _ _ _ _ hok]; simp [b3]
        · intro t s k h
          obtain ⟨s', c1, c2, c3⟩ := sends_ok_all hr hn'.2 h1 h
          rw [only_append, c3, b5 c2]
          set m := (pushFrom (.fork i ts) (.fork ss') xs).consumed with hm
          simp only [Nat.add_sub_cancel]
          split
          · rw [List.take_succ_cons, pushFrom_cons_ok _ _ _ _ _ c1]
          · obtain ⟨m', hm'⟩ : ∃ m', m = m' + 1 := ⟨m - 1, by omega⟩
            rw [hm', Nat.add_sub_cancel, List.take_succ_cons, pushFrom_cons_ok _ _ _ _ _ c1]
    | error q =>
      obtain ⟨e, cl⟩ := q
      have hsend : (send (.fork i ts) (.fork ss) x).next = .error e := by simp [send, h1]
      have hevs : (send (.fork i ts) (.fork ss) x).evs = (sends ts ss x).2.1 ++ cl ++ [.closed i] := by simp [send, h1]
      rw [pushFrom_cons_err _ _ _ _ _ hsend, hevs]
      right
      obtain ⟨j, ⟨tj, sj, htj, hej⟩, hall⟩ := sends_err_all ts hr hn'.2 h1
      refine ⟨j, tj, sj, htj, ?_, ?_, by simp, ?_⟩
      · rw [pushFrom_cons_err _ _ _ _ _ hej]
      · rw [pushFrom_cons_err _ _ _ _ _ hej]
      · intro t s k h
        obtain ⟨a1, a2, a3⟩ := hall h
        rw [only_append, e0 h, List.append_nil]
        rcases Nat.lt_trichotomy k j with hlt | rfl | hgt
        · obtain ⟨s', c1, c2⟩ := a1 hlt
          rw [if_pos (by omega), c2, List.take_succ_cons, pushFrom_cons_ok _ _ _ _ _ c1]; simp [pushFrom]
        · obtain ⟨c1, c2⟩ := a2 rfl
          rw [if_pos (by omega), c2, List.take_succ_cons, pushFrom_cons_err _ _ _ _ _ c1]
        · rw [if_neg (by omega), a3 hgt]; simp [pushFrom]

end Verif.Dataflow
