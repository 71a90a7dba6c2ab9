import Verif.Spec.McInfo
import Verif.Lemmas.Tables
import Verif.Props.Sources
/-!
# C61: the Monte Carlo information of the selected events is copied; C62: the configurations stay linked to their events
-/
namespace Verif.McInfo
open Verif.PMapsIO (unique)

theorem eventNumbers_spec {g : Group} {nums : List Int} (h : eventNumbers g = .ok nums) (e : Int) : e ∈ nums ↔ InFile g e := by
  unfold eventNumbers at h
  cases hp : g.particles with
  | none => rw [hp] at h; cases h
  | some ps =>
    rw [hp] at h
    have hk := Sources.groupKeys_spec (ps.map Row.event)
    rw [show eventIds (some ps) = .ok (Sources.groupKeys (ps.map Row.event)) from rfl] at h
    unfold InFile
    rw [hp, show rowsOf (some ps) = ps from rfl]
    cases hg : Sources.groupKeys (ps.map Row.event) with
    | nil =>
      rw [hg] at h
      have hps : ps = [] := by
        cases ps with
        | nil => rfl
        | cons r rs =>
          have := (hk.2 r.event).2 (List.mem_cons_self)
          rw [hg] at this
          cases this
      rw [if_pos hps]
      change eventIds g.response = .ok nums at h
      cases hr : g.response with
      | none => rw [hr] at h; cases h
      | some rs =>
        rw [hr] at h
        cases h
        rw [(Sources.groupKeys_spec _).2]
        simp [rowsOf]
    | cons a as =>
      rw [hg] at h
      have hps : ps ≠ [] := by
        rintro rfl
        cases hg
      rw [if_neg hps]
      cases h
      rw [← hg, hk.2]
      simp

/-- What one file adds to the output. -/
theorem copyOne_spec {o o' : Out} {evts copied : List Int} {f : File} (h : copyOne o evts f = .ok (o', copied)) :
    o'.hits = o.hits ++ wantedRows evts Group.hits f ∧ o'.particles = o.particles ++ wantedRows evts Group.particles f ∧
    o'.response = o.response ++ wantedRows evts Group.response f ∧ o'.generators = o.generators ++ wantedRows evts Group.generators f ∧
    (∀ n, n ∈ copied ↔ n ∈ evts ∧ ∃ g, f.mc = some g ∧ ∃ e, Corresponds f g n e) := by
  unfold copyOne at h
  cases hg : f.mc with
  | none =>
    rw [hg] at h
    cases h
    simp [wantedRows, hg]
  | some g =>
    rw [hg] at h
    change (match safeCopy o evts f.eventMap g with
      | .error e => .error e
      | .ok (o1, copied, nexus) => match copyFile o1 g nexus with
        | .error e => .error e
        | .ok o2 => .ok (o2, copied)) = Except.ok (o', copied) at h
    cases hs : safeCopy o evts f.eventMap g with
    | error e => rw [hs] at h; cases h
    | ok r =>
      obtain ⟨o1, c1, nexus⟩ := r
      rw [hs] at h
      change (match copyFile o1 g nexus with
        | .error e => .error e
        | .ok o2 => .ok (o2, c1)) = Except.ok (o', copied) at h
      have hkey : (o1.hits = o.hits ∧ o1.particles = o.particles ∧ o1.response = o.response ∧ o1.generators = o.generators) ∧
          (∀ e, e ∈ nexus ↔ Wanted evts f g e) ∧ (∀ n, n ∈ c1 ↔ n ∈ evts ∧ ∃ e, Corresponds f g n e) := by
        unfold safeCopy at hs
        cases hm : f.eventMap with
        | some m =>
          rw [hm] at hs
          cases hs
          refine ⟨⟨rfl, rfl, rfl, rfl⟩, fun e => ?_, fun n => ?_⟩
          · simp only [Wanted, Corresponds, hm, List.mem_map, List.mem_filter, decide_eq_true_eq]
            constructor
            · rintro ⟨⟨a, b⟩, ⟨h1, h2⟩, rfl⟩; exact ⟨a, h2, h1⟩
            · rintro ⟨a, h2, h1⟩; exact ⟨(a, e), ⟨h1, h2⟩, rfl⟩
          · simp only [Corresponds, hm, List.mem_map, List.mem_filter, decide_eq_true_eq]
            constructor
            · rintro ⟨⟨a, b⟩, ⟨h1, h2⟩, rfl⟩; exact ⟨h2, b, h1⟩
            · rintro ⟨h2, b, h1⟩; exact ⟨(n, b), ⟨h1, h2⟩, rfl⟩
        | none =>
          rw [hm] at hs
          change (match eventNumbers g with
            | .error e => .error e
            | .ok nums => .ok (o, Sources.groupKeys (evts.filter fun e => decide (e ∈ nums)), Sources.groupKeys (evts.filter fun e => decide (e ∈ nums)))) =
              Except.ok (o1, c1, nexus) at hs
          cases hn : eventNumbers g with
          | error e => rw [hn] at hs; cases hs
          | ok nums =>
            rw [hn] at hs
            cases hs
            refine ⟨⟨rfl, rfl, rfl, rfl⟩, fun e => ?_, fun n => ?_⟩
            · rw [(Sources.groupKeys_spec _).2, List.mem_filter, decide_eq_true_eq, eventNumbers_spec hn]
              simp only [Wanted, Corresponds, hm]
              constructor
              · rintro ⟨h1, h2⟩; exact ⟨e, h1, rfl, h2⟩
              · rintro ⟨n, h1, rfl, h2⟩; exact ⟨h1, h2⟩
            · rw [(Sources.groupKeys_spec _).2, List.mem_filter, decide_eq_true_eq, eventNumbers_spec hn]
              simp only [Corresponds, hm]
              constructor
              · rintro ⟨h1, h2⟩; exact ⟨h1, n, rfl, h2⟩
              · rintro ⟨h1, e, rfl, h2⟩; exact ⟨h1, h2⟩
      obtain ⟨⟨e1, e2, e3, e4⟩, hnex, hcop⟩ := hkey
      have hrows : ∀ tbl : Group → Option (List Row), ofEvents nexus (rowsOf (tbl g)) = wantedRows evts tbl f := by
        intro tbl
        unfold ofEvents wantedRows
        rw [hg]
        apply List.filter_congr
        intro r _
        rw [Bool.eq_iff_iff]
        simp [hnex]
      cases hc : copyFile o1 g nexus with
      | error e => rw [hc] at h; cases h
      | ok o2 =>
        rw [hc] at h
        cases h
        unfold copyFile at hc
        cases hl : lastIndex o1 with
        | error e => rw [hl] at hc; cases hc
        | ok i =>
          rw [hl] at hc
          cases hc
          refine ⟨?_, ?_, ?_, ?_, fun n => ?_⟩
          · rw [← hrows, ← e1]; rfl
          · rw [← hrows, ← e2]; rfl
          · rw [← hrows, ← e3]; rfl
          · rw [← hrows, ← e4]; rfl
          · rw [hcop]
            constructor
            · rintro ⟨h1, h2⟩; exact ⟨h1, g, rfl, h2⟩
            · rintro ⟨h1, _, hw, h2⟩; cases hw; exact ⟨h1, h2⟩

theorem copyLoop_spec {evts : List Int} : ∀ {files : List File} {o o' : Out} {c copied : List Int}, copyLoop evts files o c = .ok (o', copied) →
    o'.hits = o.hits ++ files.flatMap (wantedRows evts Group.hits) ∧ o'.particles = o.particles ++ files.flatMap (wantedRows evts Group.particles) ∧
    o'.response = o.response ++ files.flatMap (wantedRows evts Group.response) ∧ o'.generators = o.generators ++ files.flatMap (wantedRows evts Group.generators) ∧
    (∀ n, n ∈ copied ↔ n ∈ c ∨ (n ∈ evts ∧ ∃ f ∈ files, ∃ g, f.mc = some g ∧ ∃ e, Corresponds f g n e)) := by
  intro files
  induction files with
  | nil =>
    intro o o' c copied h
    cases h
    simp
  | cons f fs ih =>
    intro o o' c copied h
    change (match copyOne o evts f with
      | .error e => .error e
      | .ok (o', c') => copyLoop evts fs o' (c ++ c')) = Except.ok (o', copied) at h
    cases h1 : copyOne o evts f with
    | error e => rw [h1] at h; cases h
    | ok r =>
      obtain ⟨o1, c1⟩ := r
      rw [h1] at h
      obtain ⟨a1, a2, a3, a4, a5⟩ := copyOne_spec h1
      obtain ⟨b1, b2, b3, b4, b5⟩ := ih h
      refine ⟨by rw [b1, a1, List.flatMap_cons, List.append_assoc], by rw [b2, a2, List.flatMap_cons, List.append_assoc],
        by rw [b3, a3, List.flatMap_cons, List.append_assoc], by rw [b4, a4, List.flatMap_cons, List.append_assoc], fun n => ?_⟩
      rw [b5, List.mem_append, a5]
      constructor
      · rintro ((h | ⟨h1, g, h2, h3⟩) | ⟨h1, f', h2, h3⟩)
        · exact .inl h
        · exact .inr ⟨h1, f, List.mem_cons_self, g, h2, h3⟩
        · exact .inr ⟨h1, f', List.mem_cons_of_mem _ h2, h3⟩
      · rintro (h | ⟨he, f', h2, h3⟩)
        · exact .inl (.inl h)
        · rcases List.mem_cons.1 h2 with hf | h2
          · obtain ⟨g, h4, h5⟩ := h3
            rw [hf] at h4 h5
            exact .inl (.inr ⟨he, g, h4, h5⟩)
          · exact .inr ⟨he, f', h2, h3⟩

/-- **C61**: after a copy the output has, in each of the four tables of events, what it had followed by the rows of the wanted events of each file, in the order of the
files and of their rows; nothing else. -/
theorem copied_rows {files : List File} {o o' : Out} {evts : List Int} (h : written files o evts = .ok o') :
    o'.hits = o.hits ++ files.flatMap (wantedRows evts Group.hits) ∧ o'.particles = o.particles ++ files.flatMap (wantedRows evts Group.particles) ∧
    o'.response = o.response ++ files.flatMap (wantedRows evts Group.response) ∧
    o'.generators = o.generators ++ files.flatMap (wantedRows evts Group.generators) := by
  unfold written at h
  cases hl : copyLoop evts files o [] with
  | error e => rw [hl] at h; cases h
  | ok r =>
    rw [hl] at h
    cases h
    obtain ⟨h1, h2, h3, h4, _⟩ := copyLoop_spec (o' := r.1) (copied := r.2) hl
    exact ⟨h1, h2, h3, h4⟩

/-- **C61**: a copy ends well exactly when each of the requested events was found in some file; otherwise `MCEventNotFound` is raised. -/
theorem all_found_or_raises {files : List File} {o o' : Out} {evts : List Int} (h : written files o evts = .ok o') :
    ((∀ n ∈ evts, ∃ f ∈ files, ∃ g, f.mc = some g ∧ ∃ e, Corresponds f g n e) → copyMcInfo files o evts = .ok o') ∧
    (¬ (∀ n ∈ evts, ∃ f ∈ files, ∃ g, f.mc = some g ∧ ∃ e, Corresponds f g n e) → copyMcInfo files o evts = .error notFound) := by
  unfold written at h
  unfold copyMcInfo
  cases hl : copyLoop evts files o [] with
  | error e => rw [hl] at h; cases h
  | ok r =>
    rw [hl] at h
    cases h
    have hc := (copyLoop_spec (o' := r.1) (copied := r.2) hl).2.2.2.2
    have hiff : (evts.all fun e => decide (e ∈ r.2)) = true ↔ ∀ n ∈ evts, ∃ f ∈ files, ∃ g, f.mc = some g ∧ ∃ e, Corresponds f g n e := by
      simp only [List.all_eq_true, decide_eq_true_eq]
      constructor
      · intro h n hn
        rcases (hc n).1 (h n hn) with hx | hx
        · cases hx
        · exact hx.2
      · intro h n hn
        exact (hc n).2 (.inr ⟨hn, h n hn⟩)
    exact ⟨fun h => if_pos (hiff.2 h), fun h => if_neg fun hh => h (hiff.1 hh)⟩

/-- Two files, the second with an event map that sends two events of the output to one simulated event. -/
def exampleFiles : List File :=
  [{ mc := some { particles := some [⟨0, 1⟩, ⟨0, 2⟩, ⟨3, 3⟩], hits := some [⟨0, 1⟩, ⟨3, 4⟩, ⟨5, 6⟩], configuration := some ⟨false, [(0, 7), (0, 8)]⟩ } },
   { mc := none },
   { mc := some { hits := some [⟨10, 1⟩, ⟨11, 5⟩], configuration := some ⟨true, [(4, 9)]⟩, mapping := some ⟨true, [(4, 10), (4, 11)]⟩ },
     eventMap := some [(100, 10), (101, 10), (110, 11)] }]

example : (written exampleFiles {} [3, 100, 101]).toOption.map (fun o => (o.hits, o.particles, o.mapping, o.configuration)) =
    some ([⟨3, 4⟩, ⟨10, 1⟩], [⟨3, 3⟩], some [(0, 3), (1, 10)], [(0, 7), (0, 8), (1, 9)]) := rfl
example : (copyMcInfo exampleFiles {} [3, 100]).toOption.isSome = true ∧
    (match copyMcInfo exampleFiles {} [3, 5] with | .error e => e == notFound | .ok _ => false) = true := by decide

/-! ### C62 -/

theorem unique_const {α : Type} [DecidableEq α] (k : α) (xs : List α) (h : ∀ x ∈ xs, x = k) (hne : xs ≠ []) : unique xs = [k] := by
  cases xs with
  | nil => exact absurd rfl hne
  | cons x xs =>
    obtain rfl : x = k := h x List.mem_cons_self
    have hrec : ∀ ys : List α, (∀ y ∈ ys, y = x) → PMapsIO.uniqueFrom [x] ys = [] := by
      intro ys
      induction ys with
      | nil => intro _; rfl
      | cons y ys ih =>
        intro hy
        obtain rfl : y = x := hy y List.mem_cons_self
        change (if y ∈ [y] then PMapsIO.uniqueFrom [y] ys else y :: PMapsIO.uniqueFrom (y :: [y]) ys) = []
        rw [if_pos List.mem_cons_self]
        exact ih fun z hz => hy z (List.mem_cons_of_mem _ hz)
    change (if x ∈ [] then PMapsIO.uniqueFrom [] xs else x :: PMapsIO.uniqueFrom [x] xs) = [x]
    rw [if_neg (List.not_mem_nil), hrec xs fun y hy => h y (List.mem_cons_of_mem _ hy)]

theorem reindex_one {α : Type} (first : Int) {t : ITable α} (h : OneIndex t) : reindex first t = t.rows.map fun r => (first, r.2) := by
  unfold reindex
  rcases h with h | ⟨k, h⟩
  · rw [h]; rfl
  · cases hi : t.indexed with
    | false => rfl
    | true =>
      rw [if_pos rfl]
      cases hr : t.rows with
      | nil => rfl
      | cons r rs =>
        have hu : renumbering first (r :: rs) = [(k, first)] := by
          unfold renumbering
          rw [unique_const k ((r :: rs).map Prod.fst) (by
            intro x hx
            obtain ⟨y, hy, rfl⟩ := List.mem_map.1 hx
            exact h y (hr ▸ hy)) (by simp)]
          simp
        rw [hu]
        change replaceIndex k first (r :: rs) = _
        apply List.map_congr_left
        intro x hx
        rw [if_pos (h x (hr ▸ hx))]

theorem safeCopy_ok (o : Out) (evts : List Int) {f : File} {g : Group} (hr : Readable f g) :
    ∃ o1 c, safeCopy o evts f.eventMap g = .ok (o1, c, lookedFor evts f g) ∧ o1.mapping = o.mapping ∧ o1.configuration = o.configuration := by
  unfold safeCopy lookedFor
  cases hm : f.eventMap with
  | some m => exact ⟨_, _, rfl, rfl, rfl⟩
  | none =>
    rcases hr with h | ⟨nums, h⟩
    · exact absurd hm h
    · rw [h]
      refine ⟨_, _, congrArg Except.ok (congrArg (Prod.mk _) (congrArg (Prod.mk _) (congrArg _ ?_))), rfl, rfl⟩
      apply List.filter_congr
      intro e _
      rw [Bool.eq_iff_iff]
      simp [eventNumbers_spec h]

theorem mem_lookedFor {evts : List Int} {f : File} {g : Group} (e : Int) : e ∈ lookedFor evts f g ↔ Wanted evts f g e := by
  unfold lookedFor Wanted Corresponds
  cases hm : f.eventMap with
  | some m =>
    simp only [List.mem_map, List.mem_filter, decide_eq_true_eq]
    constructor
    · rintro ⟨⟨a, b⟩, ⟨h1, h2⟩, rfl⟩; exact ⟨a, h2, h1⟩
    · rintro ⟨a, h2, h1⟩; exact ⟨(a, e), ⟨h1, h2⟩, rfl⟩
  | none =>
    simp only [(Sources.groupKeys_spec _).2, List.mem_filter, decide_eq_true_eq]
    constructor
    · rintro ⟨h1, h2⟩; exact ⟨e, h1, rfl, h2⟩
    · rintro ⟨n, h1, rfl, h2⟩; exact ⟨h1, h2⟩

theorem mapping_rows (evts : List Int) (f : File) (g : Group) (first : Int) (h : ∀ t, g.mapping = some t → OneIndex t) :
    reindex first (mappingOf (lookedFor evts f g) g.mapping) = (mappedEvents evts f g).map fun e => (first, e) := by
  unfold mappedEvents mappingOf
  cases hm : g.mapping with
  | none =>
    rw [reindex_one first (.inl rfl)]
    simp only [List.map_map]
    rfl
  | some t =>
    have ho : OneIndex (⟨t.indexed, t.rows.filter fun r => decide (r.2 ∈ lookedFor evts f g)⟩ : ITable Int) := by
      rcases h t hm with h | ⟨k, h⟩
      · exact .inl h
      · exact .inr ⟨k, fun r hr => h r (List.mem_filter.1 hr).1⟩
    rw [reindex_one first ho]
    simp only [List.filter_map, List.map_map]
    congr 1
    apply List.filter_congr
    intro r _
    rw [Bool.eq_iff_iff]
    simp [mem_lookedFor]

theorem config_rows (g : Group) (first : Int) (h : ∀ t, g.configuration = some t → OneIndex t) :
    configRows first g.configuration = (configOf g).map fun c => (first, c) := by
  unfold configRows configOf
  cases hc : g.configuration with
  | none => rfl
  | some t => simp [reindex_one first (h t hc)]

theorem copyOne_linked (evts : List Int) {o : Out} {f : File} {g : Group} {k : Int} (hg : f.mc = some g) (hl : lastIndex o = .ok (k - 1)) (hr : Readable f g)
    (hm : ∀ t, g.mapping = some t → OneIndex t) (hc : ∀ t, g.configuration = some t → OneIndex t) (hne : mappedEvents evts f g ≠ []) :
    ∃ o' c, copyOne o evts f = .ok (o', c) ∧ lastIndex o' = .ok k ∧
      rowsOf o'.mapping = rowsOf o.mapping ++ (mappedEvents evts f g).map (fun e => (k, e)) ∧
      o'.configuration = o.configuration ++ (configOf g).map fun c => (k, c) := by
  obtain ⟨o1, c, hs, h1, h2⟩ := safeCopy_ok o evts hr
  have hl1 : lastIndex o1 = .ok (k - 1) := by rw [← hl]; unfold lastIndex; rw [h1]
  have hk : k - 1 + 1 = k := by omega
  refine ⟨writeTables o1 g (lookedFor evts f g) k, c, ?_, ?_, ?_, ?_⟩
  · unfold copyOne
    rw [hg]
    change (match safeCopy o evts f.eventMap g with
      | .error e => Except.error e
      | .ok (o1, copied, nexus) => match copyFile o1 g nexus with
        | .error e => Except.error e
        | .ok o2 => Except.ok (o2, copied)) = _
    rw [hs]
    change (match copyFile o1 g (lookedFor evts f g) with
        | .error e => Except.error e
        | .ok o2 => Except.ok (o2, c)) = _
    unfold copyFile
    rw [hl1]
    change Except.ok (writeTables o1 g (lookedFor evts f g) (k - 1 + 1), c) = _
    rw [hk]
  · unfold lastIndex
    rw [show (writeTables o1 g (lookedFor evts f g) k).mapping = some (rowsOf o1.mapping ++ reindex k (mappingOf (lookedFor evts f g) g.mapping)) from rfl,
      mapping_rows evts f g k hm]
    cases hx : (mappedEvents evts f g).map (fun e => (k, e)) with
    | nil => exact absurd (List.map_eq_nil_iff.1 hx) hne
    | cons a as =>
      have hlast : (rowsOf o1.mapping ++ a :: as).getLast? = (a :: as).getLast? := by rw [List.getLast?_append]; simp [List.getLast?_cons]
      change (match (rowsOf o1.mapping ++ a :: as).getLast? with
        | none => Except.error PyErr.indexError
        | some r => .ok r.1) = .ok k
      rw [hlast]
      cases hz : (a :: as).getLast? with
      | none => simp at hz
      | some z =>
        have := List.mem_of_getLast? hz
        rw [← hx] at this
        obtain ⟨e, _, rfl⟩ := List.mem_map.1 this
        rfl
  · rw [show (writeTables o1 g (lookedFor evts f g) k).mapping = some (rowsOf o1.mapping ++ reindex k (mappingOf (lookedFor evts f g) g.mapping)) from rfl,
      mapping_rows evts f g k hm, h1]
    rfl
  · rw [show (writeTables o1 g (lookedFor evts f g) k).configuration = o1.configuration ++ configRows k g.configuration from rfl, config_rows g k hc, h2]

theorem copyLoop_linked (evts : List Int) : ∀ (files : List File) (o : Out) (c : List Int) (k : Nat), lastIndex o = .ok ((k : Int) - 1) →
    (∀ fg ∈ mcFiles files, Readable fg.1 fg.2 ∧ (∀ t, fg.2.mapping = some t → OneIndex t) ∧ (∀ t, fg.2.configuration = some t → OneIndex t) ∧
      mappedEvents evts fg.1 fg.2 ≠ []) →
    ∃ o' c', copyLoop evts files o c = .ok (o', c') ∧
      rowsOf o'.mapping = rowsOf o.mapping ++ ((mcFiles files).zipIdx k).flatMap (fun p => (mappedEvents evts p.1.1 p.1.2).map fun e => ((p.2 : Int), e)) ∧
      o'.configuration = o.configuration ++ ((mcFiles files).zipIdx k).flatMap (fun p => (configOf p.1.2).map fun c => ((p.2 : Int), c)) := by
  intro files
  induction files with
  | nil => intro o c k _ _; exact ⟨o, c, rfl, by simp [mcFiles], by simp [mcFiles]⟩
  | cons f fs ih =>
    intro o c k hl h
    have hstep : ∀ o1 c1, copyOne o evts f = .ok (o1, c1) → copyLoop evts (f :: fs) o c = copyLoop evts fs o1 (c ++ c1) := by
      intro o1 c1 h1
      change (match copyOne o evts f with
        | .error e => Except.error e
        | .ok (o', c') => copyLoop evts fs o' (c ++ c')) = _
      rw [h1]
    cases hg : f.mc with
    | none =>
      have hmf : mcFiles (f :: fs) = mcFiles fs := by simp [mcFiles, hg]
      rw [hmf] at h ⊢
      have h1 : copyOne o evts f = .ok (o, []) := by unfold copyOne; rw [hg]
      rw [hstep _ _ h1]
      exact ih o _ k hl h
    | some g =>
      have hmf : mcFiles (f :: fs) = (f, g) :: mcFiles fs := by simp [mcFiles, hg]
      rw [hmf] at h ⊢
      obtain ⟨a1, a2, a3, a4⟩ := h (f, g) List.mem_cons_self
      obtain ⟨o1, c1, h1, h2, h3, h4⟩ := copyOne_linked evts hg hl a1 a2 a3 a4
      rw [hstep _ _ h1]
      obtain ⟨o', c', b1, b2, b3⟩ := ih o1 (c ++ c1) (k + 1) (by rw [h2]; congr 1; push_cast; omega) fun fg hfg => h fg (List.mem_cons_of_mem _ hfg)
      refine ⟨o', c', b1, ?_, ?_⟩
      · rw [b2, h3, List.append_assoc, List.zipIdx_cons, List.flatMap_cons]
      · rw [b3, h4, List.append_assoc, List.zipIdx_cons, List.flatMap_cons]

/-- **C62** (partial: for files that were not merged before, each with some wanted event): the copy to a new output ends, and the events and the configuration of the `k`-th file
with Monte Carlo information, and only they, have the file index `k`. -/
theorem linked_partial (files : List File) (evts : List Int)
    (h : ∀ fg ∈ mcFiles files, Readable fg.1 fg.2 ∧ (∀ t, fg.2.mapping = some t → OneIndex t) ∧ (∀ t, fg.2.configuration = some t → OneIndex t) ∧
      mappedEvents evts fg.1 fg.2 ≠ []) :
    ∃ o', written files {} evts = .ok o' ∧
      rowsOf o'.mapping = (mcFiles files).zipIdx.flatMap (fun p => (mappedEvents evts p.1.1 p.1.2).map fun e => ((p.2 : Int), e)) ∧
      o'.configuration = (mcFiles files).zipIdx.flatMap (fun p => (configOf p.1.2).map fun c => ((p.2 : Int), c)) := by
  obtain ⟨o', c', h1, h2, h3⟩ := copyLoop_linked evts files {} [] 0 rfl h
  exact ⟨o', by unfold written; rw [h1], h2, h3⟩

/-! The indices of a file that was merged before. -/

/-- The successive replacements give each row the new index of its original index when no new index is the original index of a later replacement. -/
theorem replaceAll_spec {α : Type} : ∀ (subs : List (Int × Int)) (rows : List (Int × α)), (subs.map Prod.fst).Nodup →
    subs.Pairwise (fun a b => a.2 ≠ b.1) →
    replaceAll subs rows = rows.map fun r => ((((subs.find? fun s => s.1 == r.1).map Prod.snd).getD r.1), r.2) := by
  intro subs
  induction subs with
  | nil => intro rows _ _; simp [replaceAll]
  | cons s subs ih =>
    intro rows hn hp
    obtain ⟨a, b⟩ := s
    change replaceAll subs (replaceIndex a b rows) = _
    rw [ih _ (List.nodup_cons.1 hn).2 (List.pairwise_cons.1 hp).2]
    unfold replaceIndex
    rw [List.map_map]
    apply List.map_congr_left
    intro r _
    simp only [Function.comp_apply]
    by_cases hr : r.1 = a
    · rw [if_pos hr]
      have hnone : subs.find? (fun s => s.1 == b) = none := by
        rw [List.find?_eq_none]
        intro s hs
        have := (List.pairwise_cons.1 hp).1 s hs
        simpa using fun h => this h.symm
      simp [hnone, hr]
    · rw [if_neg hr]
      have : ¬ ((a == r.1) = true) := by simpa using fun h : a = r.1 => hr h.symm
      simp [this]

/-- **C62** (partial: when no new index is an original index that comes later): merged files keep different indices for different sources. -/
theorem reindex_injective_partial {α : Type} (first : Int) (t : ITable α) (hi : t.indexed = true)
    (h : (renumbering first t.rows).Pairwise fun a b => a.2 ≠ b.1) :
    ∃ ν : Int → Int, reindex first t = t.rows.map (fun r => (ν r.1, r.2)) ∧
      ∀ r ∈ t.rows, ∀ s ∈ t.rows, ν r.1 = ν s.1 → r.1 = s.1 := by
  have hfst : (renumbering first t.rows).map Prod.fst = unique (t.rows.map Prod.fst) := by
    unfold renumbering
    rw [List.map_map]
    exact List.zipIdx_map_fst 0 _
  refine ⟨fun i => (((renumbering first t.rows).find? fun s => s.1 == i).map Prod.snd).getD i, ?_, ?_⟩
  · unfold reindex
    rw [if_pos hi, replaceAll_spec _ _ (by rw [hfst]; exact PMapsIO.unique_nodup _) h]
  · intro r hr s hs he
    have hfind : ∀ x ∈ t.rows, ∃ k : Nat, (unique (t.rows.map Prod.fst))[k]? = some x.1 ∧
        (((renumbering first t.rows).find? fun s => s.1 == x.1).map Prod.snd).getD x.1 = first + k := by
      intro x hx
      have hmem : x.1 ∈ unique (t.rows.map Prod.fst) := PMapsIO.mem_unique.2 (List.mem_map.2 ⟨x, hx, rfl⟩)
      cases hf : (renumbering first t.rows).find? fun s => s.1 == x.1 with
      | none =>
        rw [← hfst] at hmem
        obtain ⟨y, hy, hyx⟩ := List.mem_map.1 hmem
        have := List.find?_eq_none.1 hf y hy
        simp [hyx] at this
      | some y =>
        have h1 := List.mem_of_find?_eq_some hf
        have h2 : y.1 = x.1 := by simpa using List.find?_some hf
        unfold renumbering at h1
        obtain ⟨⟨z, k⟩, hz, rfl⟩ := List.mem_map.1 h1
        have hz' := List.mem_zipIdx_iff_getElem?.1 hz
        exact ⟨k, by rw [← h2]; exact hz', rfl⟩
    obtain ⟨k, hk1, hk2⟩ := hfind r hr
    obtain ⟨l, hl1, hl2⟩ := hfind s hs
    simp only [hk2, hl2] at he
    have : k = l := by omega
    subst this
    rw [hk1] at hl1
    exact Option.some.inj hl1

example : ∀ fg ∈ mcFiles exampleFiles, Readable fg.1 fg.2 ∧ (∀ t, fg.2.mapping = some t → OneIndex t) ∧ (∀ t, fg.2.configuration = some t → OneIndex t) ∧
    mappedEvents [3, 100] fg.1 fg.2 ≠ [] := by
  intro fg hfg
  have hmc : mcFiles exampleFiles = [(exampleFiles[0], (exampleFiles[0]).mc.get rfl), (exampleFiles[2], (exampleFiles[2]).mc.get rfl)] := rfl
  rw [hmc] at hfg
  rcases List.mem_cons.1 hfg with rfl | hfg
  · exact ⟨.inr ⟨[0, 3], rfl⟩, (fun t ht => by cases ht), (fun t ht => by cases ht; exact .inl rfl), by decide⟩
  · rcases List.mem_cons.1 hfg with rfl | hfg
    · exact ⟨.inl (fun h => by cases h), (fun t ht => by cases ht; exact .inr ⟨4, by decide⟩), (fun t ht => by cases ht; exact .inr ⟨4, by decide⟩), by decide⟩
    · cases hfg
example : (renumbering 0 [((0 : Int), 'a'), (1, 'b'), (0, 'c'), (2, 'd')]).Pairwise (fun a b => a.2 ≠ b.1) ∧
    reindex 0 ⟨true, [((0 : Int), 'a'), (1, 'b'), (0, 'c'), (2, 'd')]⟩ = [(0, 'a'), (1, 'b'), (0, 'c'), (2, 'd')] := by decide

/-- Not in general: a file merged before (indices 0 and 1) and copied after another one loses the distinction between its sources. -/
theorem merged_files_collapse : ∃ (files : List File) (evts : List Int) (o : Out), written files {} evts = .ok o ∧
    o.configuration = [(0, 7), (2, 8), (2, 9)] ∧ o.mapping = some [(0, 1), (2, 2), (2, 3)] ∧ copyMcInfo files {} evts = .ok o :=
  ⟨[{ mc := some { particles := some [⟨1, 0⟩], configuration := some ⟨false, [(0, 7)]⟩ } },
    { mc := some { particles := some [⟨2, 0⟩, ⟨3, 0⟩], configuration := some ⟨true, [(0, 8), (1, 9)]⟩, mapping := some ⟨true, [(0, 2), (1, 3)]⟩ } }],
    [1, 2, 3], { particles := [⟨1, 0⟩, ⟨2, 0⟩, ⟨3, 0⟩], configuration := [(0, 7), (2, 8), (2, 9)], mapping := some [(0, 1), (2, 2), (2, 3)] }, rfl, rfl, rfl, rfl⟩

/-- Nor when only some of the sources of a merged file have wanted events: the event 3, of the source 1 whose configuration is 9, is linked to the configuration 8. -/
theorem wrong_configuration : ∃ (files : List File) (evts : List Int) (o : Out), copyMcInfo files {} evts = .ok o ∧
    files.length = 1 ∧ o.configuration = [(0, 8), (1, 9)] ∧ o.mapping = some [(0, 3)] ∧
    (∀ f ∈ files, ∀ g, f.mc = some g → ∀ t, g.mapping = some t → t.rows = [(0, 2), (1, 3)]) :=
  ⟨[{ mc := some { particles := some [⟨2, 0⟩, ⟨3, 0⟩], configuration := some ⟨true, [(0, 8), (1, 9)]⟩, mapping := some ⟨true, [(0, 2), (1, 3)]⟩ } }],
    [3], { particles := [⟨3, 0⟩], configuration := [(0, 8), (1, 9)], mapping := some [(0, 3)] }, rfl, rfl, rfl, rfl, by
      intro f hf g hg t ht
      rw [List.mem_singleton.1 hf] at hg
      cases hg
      cases ht
      rfl⟩

/-- A first file without wanted events makes the copy of the next one fail, although all the requested events exist. -/
theorem unwanted_first_file_fails (e n : Int) (h : e ≠ n) :
    copyMcInfo [{ mc := some { particles := some [⟨n, 0⟩] } }, { mc := some { particles := some [⟨e, 0⟩] } }] {} [e] = .error .indexError := by
  have h1 : copyOne {} [e] { mc := some { particles := some [⟨n, 0⟩] } } = .ok ({ mapping := some [] }, []) := by
    simp [copyOne, safeCopy, eventNumbers, eventIds, Sources.groupKeys, unique, PMapsIO.uniqueFrom, Sources.insertSorted, h, copyFile, lastIndex, writeTables, reindex,
      mappingOf, rowsOf, ofEvents, configRows]
  have h2 : copyOne { mapping := some [] } [e] { mc := some { particles := some [⟨e, 0⟩] } } = .error .indexError := by
    simp [copyOne, safeCopy, eventNumbers, eventIds, Sources.groupKeys, unique, PMapsIO.uniqueFrom, Sources.insertSorted, copyFile, lastIndex]
  simp [copyMcInfo, copyLoop, h1, h2]

/-- A later file without wanted events shares its file index with the next one: two configurations for the events of the last file. -/
theorem unwanted_file_shares_index : ∃ (files : List File) (evts : List Int) (o : Out), copyMcInfo files {} evts = .ok o ∧
    o.configuration = [(0, 7), (1, 8), (1, 9)] ∧ o.mapping = some [(0, 1), (1, 3)] :=
  ⟨[{ mc := some { particles := some [⟨1, 0⟩], configuration := some ⟨false, [(0, 7)]⟩ } },
    { mc := some { particles := some [⟨2, 0⟩], configuration := some ⟨false, [(0, 8)]⟩ } },
    { mc := some { particles := some [⟨3, 0⟩], configuration := some ⟨false, [(0, 9)]⟩ } }],
    [1, 3], { particles := [⟨1, 0⟩, ⟨3, 0⟩], configuration := [(0, 7), (1, 8), (1, 9)], mapping := some [(0, 1), (1, 3)] }, rfl, rfl, rfl⟩

/-- The string map is copied without the identifiers that the labels of the hits refer to: two different maps give the same output. -/
theorem string_map_loses_ids (o : Out) (g : Group) (evts : List Int) (first : Int) (names : List String) (ids ids' : List Nat)
    (h : ids.length = names.length) (h' : ids'.length = names.length) :
    writeTables o { g with strings := some (ids.zip names) } evts first = writeTables o { g with strings := some (ids'.zip names) } evts first := by
  unfold writeTables rowsOf
  simp [List.map_snd_zip, h, h']

end Verif.McInfo
