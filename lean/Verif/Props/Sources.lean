import Verif.Spec.Sources
import Verif.Props.PMapsIO
/-!
# C56: the sources give every event of every file, once, in order, with its own data
-/
namespace Verif.Sources
open Verif.PMapsIO (unique)

/-! ### Generators over files -/

theorem fromFiles_none {φ α : Type} (f : φ → Gen α) (files : List φ) :
    (fromFiles f files).exc = none ↔ ∀ p ∈ files, (f p).exc = none := by
  induction files with
  | nil => simp [fromFiles]
  | cons p ps ih =>
    cases h : (f p).exc with
    | none => simp [fromFiles, h, ih]
    | some e => simp [fromFiles, h]

theorem fromFiles_items {φ α : Type} (f : φ → Gen α) (files : List φ) (h : ∀ p ∈ files, (f p).exc = none) :
    (fromFiles f files).items = (files.map fun p => (f p).items).flatten := by
  induction files with
  | nil => rfl
  | cons p ps ih =>
    have hp := h p List.mem_cons_self
    simp only [fromFiles, hp, List.map_cons, List.flatten_cons]
    rw [ih (fun q hq => h q (List.mem_cons_of_mem _ hq))]

theorem fromFiles_stops {φ α : Type} (f : φ → Gen α) (pre post : List φ) (bad : φ) (e : PyErr) (h : ∀ p ∈ pre, (f p).exc = none) (hb : (f bad).exc = some e) :
    (fromFiles f (pre ++ bad :: post)).exc = some e ∧
    (fromFiles f (pre ++ bad :: post)).items = (fromFiles f pre).items ++ (f bad).items := by
  induction pre with
  | nil => simp [fromFiles, hb]
  | cons p ps ih =>
    have hp := h p List.mem_cons_self
    obtain ⟨a, b⟩ := ih (fun q hq => h q (List.mem_cons_of_mem _ hq))
    simp only [List.cons_append, fromFiles, hp, a, b, List.append_assoc, and_self]

/-! ### Nodes -/

theorem getRunNumber_ok {r : Option Run} {n : Int} : getRunNumber r = .ok n ↔ HasRun r n := by
  unfold getRunNumber HasRun
  cases r with
  | none => simp
  | some g =>
    have hf : ∀ l : List Int, firstRow l = .ok n ↔ ∃ l', l = n :: l' := by
      intro l; cases l <;> simp [firstRow]
    cases h1 : g.runInfo with
    | some l => simp [h1, hf]
    | none =>
      cases h2 : g.RunInfo with
      | some l => simp [h1, h2, hf]
      | none => simp [h1, h2]

theorem getEventInfo_ok {r : Option Run} {evs : List (Int × ℚ)} : getEventInfo r = .ok evs ↔ HasEvents r evs := by
  unfold getEventInfo HasEvents
  cases r with
  | none => simp
  | some g => cases h : g.events <;> simp [h]

theorem getEventInfo_error {r : Option Run} {e : PyErr} (h : getEventInfo r = .error e) :
    e = noSuchNode ∧ (r = none ∨ ∃ g, r = some g ∧ g.events = none) := by
  unfold getEventInfo at h
  cases r with
  | none => simp at h; exact ⟨h.symm, .inl rfl⟩
  | some g => cases h' : g.events with
    | none => simp [h'] at h; exact ⟨h.symm, .inr ⟨g, rfl, h'⟩⟩
    | some l => simp [h'] at h

theorem getRunNumber_error {r : Option Run} {e : PyErr} (h : getRunNumber r = .error e) :
    (e = noSuchNode ∧ (r = none ∨ ∃ g, r = some g ∧ g.runInfo = none ∧ g.RunInfo = none)) ∨
    (e = .indexError ∧ ∃ g, r = some g ∧ (g.runInfo = some [] ∨ g.runInfo = none ∧ g.RunInfo = some [])) := by
  unfold getRunNumber at h
  cases r with
  | none => simp at h; exact .inl ⟨h.symm, .inl rfl⟩
  | some g =>
    cases h1 : g.runInfo with
    | some l => cases l with
      | nil => simp [h1, firstRow] at h; exact .inr ⟨h.symm, g, rfl, .inl h1⟩
      | cons => simp [h1, firstRow] at h
    | none => cases h2 : g.RunInfo with
      | some l => cases l with
        | nil => simp [h1, h2, firstRow] at h; exact .inr ⟨h.symm, g, rfl, .inr ⟨h1, h2⟩⟩
        | cons => simp [h1, h2, firstRow] at h
      | none => simp [h1, h2] at h; exact .inl ⟨h.symm, .inr ⟨g, rfl, h1, h2⟩⟩

theorem noSuchNode_ne_index : noSuchNode ≠ .indexError := by decide
theorem noSuchNode_ne_type : noSuchNode ≠ .typeError := by decide

theorem chain_const : ∀ (l : List Nat), ((l.zip l.tail).any fun x => x.2 != x.1) = false ↔ ∀ a ∈ l, ∀ b ∈ l, a = b
  | [] => by simp
  | [a] => by simp
  | a :: b :: l => by
    have ih := chain_const (b :: l)
    simp only [List.tail_cons, List.zip_cons_cons, List.any_cons, Bool.or_eq_false_iff] at ih ⊢
    rw [show ((b :: l).zip l).any (fun x => x.2 != x.1) = false ↔ _ from ih]
    constructor
    · rintro ⟨h1, h2⟩
      have hab : b = a := by simpa using h1
      subst hab
      intro x hx y hy
      have hx' : x ∈ b :: l := by rcases List.mem_cons.1 hx with rfl | h; exacts [List.mem_cons_self, h]
      have hy' : y ∈ b :: l := by rcases List.mem_cons.1 hy with rfl | h; exacts [List.mem_cons_self, h]
      exact h2 x hx' y hy'
    · intro h
      refine ⟨?_, fun x hx y hy => h x (List.mem_cons_of_mem _ hx) y (List.mem_cons_of_mem _ hy)⟩
      simpa using h b (by simp) a (by simp)

theorem checkLengths_ok (ls : List (Option Nat)) : checkLengths ls = .ok () ↔ ∀ a b, some a ∈ ls → some b ∈ ls → a = b := by
  unfold checkLengths
  have hm : ∀ a, a ∈ ls.filterMap id ↔ some a ∈ ls := by intro a; simp
  have hc := chain_const (ls.filterMap id)
  simp only [hm] at hc
  by_cases h : ((ls.filterMap id).zip (ls.filterMap id).tail).any (fun x => x.2 != x.1) = true
  · rw [if_pos h]
    simp only [reduceCtorEq, false_iff]
    intro h'
    have := hc.2 (fun a ha b hb => h' a b ha hb)
    rw [h] at this; cases this
  · rw [if_neg h]
    simp only [true_iff]
    intro a b ha hb
    exact hc.1 (by simpa using h) a ha b hb

theorem checkLengths_error {ls : List (Option Nat)} {e : PyErr} (h : checkLengths ls = .error e) : e = invalidFile := by
  unfold checkLengths at h
  split at h
  · exact (Except.error.inj h).symm
  · cases h

/-! ### Waveforms -/

theorem zipRepeat_get {α β : Type} (xs : List α) (o : Option (List β)) (k : Nat) (x : α × Option β) (h : (zipRepeat xs o)[k]? = some x) :
    xs[k]? = some x.1 ∧ Entry o k x.2 := by
  cases o with
  | none =>
    simp only [zipRepeat, List.getElem?_map, Option.map_eq_some_iff] at h
    obtain ⟨a, h1, rfl⟩ := h
    exact ⟨h1, .inl ⟨rfl, rfl⟩⟩
  | some l =>
    simp only [zipRepeat, List.getElem?_map, Option.map_eq_some_iff, List.getElem?_zip_eq_some] at h
    obtain ⟨⟨a, b⟩, ⟨h1, h2⟩, rfl⟩ := h
    exact ⟨h1, .inr ⟨l, b, rfl, h2, rfl⟩⟩

theorem zipRepeat_length {α β : Type} (xs : List α) (o : Option (List β)) (h : ∀ l, o = some l → l.length = xs.length) : (zipRepeat xs o).length = xs.length := by
  cases o with
  | none => simp [zipRepeat]
  | some l => simp [zipRepeat, h l rfl]

theorem wfItems_spec {W C : Type} (f : WfFile W C) (run : Int) (pmts sipms : List W) (evs : List (Int × ℚ)) (h1 : pmts.length = evs.length) (h2 : sipms.length = evs.length)
    (h3 : ∀ l, f.trigger = some l → l.length = evs.length) (h4 : ∀ l, f.channels = some l → l.length = evs.length) :
    (wfItems run pmts sipms evs f.trigger f.channels).length = evs.length ∧
    ∀ k x, (wfItems run pmts sipms evs f.trigger f.channels)[k]? = some x → KthItem f run pmts sipms evs k x := by
  have l1 : (pmts.zip (sipms.zip evs)).length = evs.length := by simp [h1, h2]
  have l2 : (zipRepeat (pmts.zip (sipms.zip evs)) f.trigger).length = evs.length := by
    rw [zipRepeat_length _ _ (fun l hl => by rw [h3 l hl, l1]), l1]
  refine ⟨?_, ?_⟩
  · rw [wfItems, List.length_map, zipRepeat_length _ _ (fun l hl => by rw [h4 l hl, l2]), l2]
  · intro k x hx
    rw [wfItems, List.getElem?_map, Option.map_eq_some_iff] at hx
    obtain ⟨y, hy, rfl⟩ := hx
    obtain ⟨a, b⟩ := zipRepeat_get _ _ _ _ hy
    obtain ⟨c, d⟩ := zipRepeat_get _ _ _ _ a
    rw [List.getElem?_zip_eq_some] at c
    obtain ⟨c1, c2⟩ := c
    rw [List.getElem?_zip_eq_some] at c2
    exact ⟨c1, c2.1, c2.2, rfl, d, b⟩

theorem wfTables_ok {W C : Type} {t : WfType} {f : WfFile W C} {pmts sipms : List W} (h1 : getPmtWfs t f = .ok pmts) (h2 : getSipmWfs t f = .ok sipms) :
    t ≠ .other ∧ wfTables f t = (some pmts, some sipms) := by
  cases t <;> simp only [getPmtWfs, getSipmWfs, node] at h1 h2
  · cases hp : f.pmtrwf <;> cases hs : f.sipmrwf <;> simp_all [wfTables]
  · cases hp : f.pmtrd <;> cases hs : f.sipmrd <;> simp_all [wfTables]
  · cases h1

theorem skipNode_exc {α : Type} {e : PyErr} (h : (skipNode e : Gen α).exc = none) : e = noSuchNode ∧ (skipNode e : Gen α).items = [] := by
  unfold skipNode at *
  by_cases he : e = noSuchNode
  · rw [if_pos he]; exact ⟨he, rfl⟩
  · rw [if_neg he] at h; cases h

theorem wfTables_error {W C : Type} {t : WfType} {f : WfFile W C} (h : getPmtWfs t f = .error noSuchNode ∨ getSipmWfs t f = .error noSuchNode) :
    t ≠ .other ∧ ((wfTables f t).1 = none ∨ (wfTables f t).2 = none) := by
  cases t <;> simp only [getPmtWfs, getSipmWfs, node] at h
  · cases hp : f.pmtrwf <;> cases hs : f.sipmrwf <;> simp_all [wfTables]
  · cases hp : f.pmtrd <;> cases hs : f.sipmrd <;> simp_all [wfTables]
  · rcases h with h | h <;> exact absurd (Except.error.inj h) (by decide)

/-- A file whose contribution raises nothing. -/
theorem wfFile_block {W C : Type} (t : WfType) (f : WfFile W C) (h : (wfFile t f).exc = none) : WfBlock t f (wfFile t f).items := by
  unfold wfFile at *
  cases he : getEventInfo f.run with
  | error e =>
    simp only [he] at h ⊢
    obtain ⟨_, hi⟩ := skipNode_exc h
    refine .inl ⟨?_, hi⟩
    obtain ⟨_, hr | ⟨g, hg, hgn⟩⟩ := getEventInfo_error he
    · exact .inl hr
    · exact .inr (.inl ⟨g, hg, .inl hgn⟩)
  | ok evs =>
    cases hr : getRunNumber f.run with
    | error e =>
      simp only [he, hr] at h ⊢
      obtain ⟨hn, hi⟩ := skipNode_exc h
      refine .inl ⟨?_, hi⟩
      rcases getRunNumber_error hr with ⟨_, hr | ⟨g, hg, hgn⟩⟩ | ⟨hx, _⟩
      · exact .inl hr
      · exact .inr (.inl ⟨g, hg, .inr hgn⟩)
      · rw [hn] at hx; exact absurd hx noSuchNode_ne_index
    | ok run =>
      cases hp : getPmtWfs t f with
      | error e =>
        simp only [he, hr, hp] at h ⊢
        obtain ⟨rfl, hi⟩ := skipNode_exc h
        refine .inl ⟨.inr (.inr ?_), hi⟩
        obtain ⟨a, b⟩ := wfTables_error (.inl hp)
        exact ⟨a, ⟨run, getRunNumber_ok.1 hr⟩, b⟩
      | ok pmts =>
        cases hs : getSipmWfs t f with
        | error e =>
          simp only [he, hr, hp, hs] at h ⊢
          obtain ⟨rfl, hi⟩ := skipNode_exc h
          refine .inl ⟨.inr (.inr ?_), hi⟩
          obtain ⟨a, b⟩ := wfTables_error (.inr hs)
          exact ⟨a, ⟨run, getRunNumber_ok.1 hr⟩, b⟩
        | ok sipms =>
          simp only [he, hr, hp, hs] at h ⊢
          unfold wfCheck at *
          cases hc : checkLengths [some pmts.length, some sipms.length, some evs.length, f.trigger.map List.length, f.channels.map List.length] with
          | error e => simp only [hc] at h; cases h
          | ok _ =>
            simp only [hc] at h ⊢
            have hl := (checkLengths_ok _).1 hc
            have h1 : pmts.length = evs.length := hl _ _ (by simp) (by simp)
            have h2 : sipms.length = evs.length := hl _ _ (by simp) (by simp)
            have h3 : ∀ l, f.trigger = some l → l.length = evs.length := fun l hlt => hl _ _ (by simp [hlt]) (by simp)
            have h4 : ∀ l, f.channels = some l → l.length = evs.length := fun l hlt => hl _ _ (by simp [hlt]) (by simp)
            obtain ⟨ht, htab⟩ := wfTables_ok hp hs
            obtain ⟨w1, w2⟩ := wfItems_spec f run pmts sipms evs h1 h2 h3 h4
            exact .inr ⟨run, pmts, sipms, evs, ⟨ht, getRunNumber_ok.1 hr, getEventInfo_ok.1 he, htab, h1, h2, h3, h4⟩, w1, w2⟩

theorem skip_none {α : Type} : (skipNode noSuchNode : Gen α) = ⟨[], none⟩ := by simp [skipNode]

theorem getPmtWfs_cases {W C : Type} {t : WfType} (f : WfFile W C) (ht : t ≠ .other) :
    getPmtWfs t f = node (wfTables f t).1 ∧ getSipmWfs t f = node (wfTables f t).2 := by
  cases t <;> simp_all [getPmtWfs, getSipmWfs, wfTables]

/-- A file without some node, or with tables of equal length, raises nothing. -/
theorem wfFile_fine {W C : Type} (t : WfType) (f : WfFile W C) (h : Lacking t f ∨ ∃ run pmts sipms evs, Aligned t f run pmts sipms evs) :
    (wfFile t f).exc = none := by
  have ev : ∀ e, getEventInfo f.run = .error e → (wfFile t f).exc = none := by
    intro e he
    unfold wfFile
    rw [he, (getEventInfo_error he).1]
    simp only [skip_none]
  rcases h with h | ⟨run, pmts, sipms, evs, h⟩
  · rcases h with h | ⟨g, hg, h⟩ | ⟨ht, ⟨n, hn⟩, h⟩
    · exact ev noSuchNode (by rw [h]; rfl)
    · cases he : getEventInfo f.run with
      | error e => exact ev e he
      | ok evs =>
        rcases h with h | ⟨h1, h2⟩
        · rw [hg] at he; simp [getEventInfo, h] at he
        · unfold wfFile
          rw [he, hg]
          simp only [getRunNumber, h1, h2, skip_none]
    · cases he : getEventInfo f.run with
      | error e => exact ev e he
      | ok evs =>
        unfold wfFile
        rw [he, getRunNumber_ok.2 hn, (getPmtWfs_cases f ht).1, (getPmtWfs_cases f ht).2]
        cases h1 : (wfTables f t).1 with
        | none => simp only [node, skip_none]
        | some pm =>
          rcases h with h | h
          · rw [h1] at h; cases h
          · rw [h]; simp only [node, skip_none]
  · unfold wfFile
    rw [getEventInfo_ok.2 h.events, getRunNumber_ok.2 h.run, (getPmtWfs_cases f h.type).1, (getPmtWfs_cases f h.type).2, h.tables]
    simp only [node, wfCheck]
    have hl : checkLengths [some pmts.length, some sipms.length, some evs.length, f.trigger.map List.length, f.channels.map List.length] = .ok () := by
      rw [checkLengths_ok]
      have key : ∀ a, some a ∈ [some pmts.length, some sipms.length, some evs.length, f.trigger.map List.length, f.channels.map List.length] → a = evs.length := by
        intro a ha
        simp only [List.mem_cons, Option.some.injEq, List.not_mem_nil, or_false] at ha
        rcases ha with rfl | rfl | rfl | ha | ha
        · exact h.pmts
        · exact h.sipms
        · rfl
        · obtain ⟨l, hl, rfl⟩ := Option.map_eq_some_iff.1 ha.symm
          exact h.trigger l hl
        · obtain ⟨l, hl, rfl⟩ := Option.map_eq_some_iff.1 ha.symm
          exact h.channels l hl
      intro a b ha hb
      rw [key a ha, key b hb]
    rw [hl]

/-- **C56** `wf_from_files` raises nothing exactly when every file lacks some node or has tables of equal length; then it gives, file after file, the events of the
latter ones, in order, each with its own waveforms, number, timestamp and trigger. -/
theorem wf_from_files {W C : Type} (t : WfType) (files : List (WfFile W C)) :
    ((wfFromFiles t files).exc = none ↔ ∀ f ∈ files, Lacking t f ∨ ∃ run pmts sipms evs, Aligned t f run pmts sipms evs) ∧
    ((wfFromFiles t files).exc = none → ∃ blocks, List.Forall₂ (WfBlock t) files blocks ∧ (wfFromFiles t files).items = blocks.flatten) := by
  refine ⟨?_, ?_⟩
  · rw [wfFromFiles, fromFiles_none]
    constructor
    · intro h f hf
      rcases wfFile_block t f (h f hf) with ⟨h1, _⟩ | ⟨run, pmts, sipms, evs, h1, _⟩
      · exact .inl h1
      · exact .inr ⟨run, pmts, sipms, evs, h1⟩
    · exact fun h f hf => wfFile_fine t f (h f hf)
  · intro h
    rw [wfFromFiles, fromFiles_none] at h
    refine ⟨files.map fun f => (wfFile t f).items, ?_, fromFiles_items _ _ h⟩
    rw [List.forall₂_map_right_iff, List.forall₂_same]
    exact fun f hf => wfFile_block t f (h f hf)

/-- **C56** The first file whose tables have different lengths: `InvalidInputFileStructure` after the events of the files before, and none of its own. -/
theorem wf_misaligned {W C : Type} (t : WfType) (pre post : List (WfFile W C)) (f : WfFile W C) (run : Int) (pmts sipms : List W) (evs : List (Int × ℚ))
    (hpre : ∀ f ∈ pre, Lacking t f ∨ ∃ run pmts sipms evs, Aligned t f run pmts sipms evs)
    (ht : t ≠ .other) (hr : HasRun f.run run) (he : HasEvents f.run evs) (htab : wfTables f t = (some pmts, some sipms))
    (hbad : ¬ Aligned t f run pmts sipms evs) :
    (wfFromFiles t (pre ++ f :: post)).exc = some invalidFile ∧ (wfFromFiles t (pre ++ f :: post)).items = (wfFromFiles t pre).items := by
  have hb : wfFile t f = ⟨[], some invalidFile⟩ := by
    unfold wfFile
    rw [getEventInfo_ok.2 he, getRunNumber_ok.2 hr, (getPmtWfs_cases f ht).1, (getPmtWfs_cases f ht).2, htab]
    simp only [node, wfCheck]
    cases hc : checkLengths [some pmts.length, some sipms.length, some evs.length, f.trigger.map List.length, f.channels.map List.length] with
    | error e => rw [checkLengths_error hc]
    | ok _ =>
      exfalso; apply hbad
      have hl := (checkLengths_ok _).1 hc
      exact ⟨ht, hr, he, htab, hl _ _ (by simp) (by simp), hl _ _ (by simp) (by simp), fun l hlt => hl _ _ (by simp [hlt]) (by simp), fun l hlt => hl _ _ (by simp [hlt]) (by simp)⟩
  obtain ⟨a, b⟩ := fromFiles_stops (wfFile t) pre post f invalidFile (fun p hp => wfFile_fine t p (hpre p hp)) (by rw [hb])
  refine ⟨a, ?_⟩
  rw [hb, List.append_nil] at b
  exact b

/-- Waveforms are represented by numbers; the second file has no `Run` group, the third has a waveform less. -/
def exWf : WfFile Nat Nat := ⟨some ⟨some [7], none, some [(4, 1), (9, 2)]⟩, some [10, 11], some [20, 21], none, none, some [5, 6], none⟩
def exWf2 : WfFile Nat Nat := ⟨none, some [10, 11], some [20, 21], none, none, none, none⟩
def exWf3 : WfFile Nat Nat := ⟨some ⟨none, some [8], some [(4, 1), (9, 2)]⟩, some [10, 11], some [20], none, none, none, none⟩

example : Aligned .rwf exWf 7 [10, 11] [20, 21] [(4, 1), (9, 2)] ∧ Lacking .rwf exWf2 ∧ HasRun exWf3.run 8 ∧
    HasEvents exWf3.run [(4, 1), (9, 2)] ∧ wfTables exWf3 .rwf = (some [10, 11], some [20]) ∧ ¬ Aligned .rwf exWf3 8 [10, 11] [20] [(4, 1), (9, 2)] ∧
    ((wfFromFiles .rwf [exWf, exWf2, exWf]).items.map fun x => (x.event, x.pmt, x.triggerType)) = [(4, 10, some 5), (9, 11, some 6), (4, 10, some 5), (9, 11, some 6)] ∧
    (wfFromFiles .rwf [exWf, exWf3]).exc = some invalidFile := by
  refine ⟨⟨by decide, ⟨_, rfl, .inl ⟨[], rfl⟩⟩, ⟨_, rfl, rfl⟩, rfl, rfl, rfl, ?_, ?_⟩, .inl rfl, ⟨_, rfl, .inr ⟨rfl, [], rfl⟩⟩, ⟨_, rfl, rfl⟩, rfl, fun h => absurd h.sipms (by decide), by decide, by decide⟩
  · intro l hl; simp [exWf] at hl; subst hl; rfl
  · intro l hl; simp [exWf] at hl

/-! ### PMaps -/

theorem lazyItems_ok {t : PMapsIO.Tables} : ∀ {es : List Int} {out : List (Int × PMapsIO.PMap)}, es.mapM (PMapsIO.lazyItem t) = .ok out →
    lazyItems t es = ⟨out, none⟩
  | [], out, h => by
    have : out = [] := by simpa using (mapM_ok_iff.1 h)
    subst this; rfl
  | e :: es, out, h => by
    have hf := mapM_ok_iff.1 h
    cases hf with
    | cons h1 h2 =>
      have := lazyItems_ok (mapM_ok_iff.2 h2)
      simp only [lazyItems, h1, this]

/-- The event number of an item of the lazy reader is the one it was asked for. -/
theorem lazyItem_event {t : PMapsIO.Tables} {e : Int} {x : Int × PMapsIO.PMap} (h : PMapsIO.lazyItem t e = .ok x) : x.1 = e := by
  unfold PMapsIO.lazyItem at h
  cases hh : (t.ofEvent e).events.head? with
  | none => rw [hh] at h; cases h
  | some e' =>
    rw [hh] at h
    simp only at h
    have he : e' = e := by
      have hm := List.mem_of_mem_head? hh
      simp only [PMapsIO.Tables.events, PMapsIO.Tables.ofEvent, List.mem_append, List.mem_map, List.mem_filter, beq_iff_eq] at hm
      rcases hm with ⟨r, ⟨_, hr⟩, rfl⟩ | ⟨r, ⟨_, hr⟩, rfl⟩ <;> exact hr
    cases hp : PMapsIO.pmapOfRows (t.ofEvent e) with
    | error err => rw [hp] at h; cases h
    | ok pm => rw [hp] at h; injection h with h; rw [← h]; exact he

/-- The loop on the rows of `Run/events` and the items of the lazy reader of the same events: no mismatch. -/
theorem pmapLoop_spec (run : Int) (t : PMapsIO.Tables) : ∀ (evs : List (Int × ℚ)),
    (pmapLoop run (lazyItems t (evs.map Prod.fst)).exc evs (lazyItems t (evs.map Prod.fst)).items).exc = (lazyItems t (evs.map Prod.fst)).exc ∧
    ∃ done, done <+: evs ∧ List.Forall₂ (fun (ev : Int × ℚ) (x : PmapItem) => x.event = ev.1 ∧ x.timestamp = ev.2 ∧ x.runNumber = run ∧
        PMapsIO.lazyItem t ev.1 = .ok (ev.1, x.pmap)) done
      (pmapLoop run (lazyItems t (evs.map Prod.fst)).exc evs (lazyItems t (evs.map Prod.fst)).items).items ∧
      ((lazyItems t (evs.map Prod.fst)).exc = none → done = evs)
  | [] => ⟨rfl, [], List.nil_prefix, .nil, fun _ => rfl⟩
  | (e, ts) :: evs => by
    obtain ⟨a, done, b, c, d⟩ := pmapLoop_spec run t evs
    cases h : PMapsIO.lazyItem t e with
    | error err =>
      have : lazyItems t (((e, ts) :: evs).map Prod.fst) = ⟨[], some err⟩ := by simp [lazyItems, h]
      rw [this]
      exact ⟨rfl, [], List.nil_prefix, .nil, fun h => by cases h⟩
    | ok x =>
      have hx := lazyItem_event h
      obtain ⟨e', pm⟩ := x
      simp only at hx
      subst hx
      have : lazyItems t (((e', ts) :: evs).map Prod.fst) = ⟨(e', pm) :: (lazyItems t (evs.map Prod.fst)).items, (lazyItems t (evs.map Prod.fst)).exc⟩ := by
        simp [lazyItems, h]
      rw [this]
      simp only [pmapLoop, ne_eq, not_true_eq_false, if_false]
      refine ⟨a, (e', ts) :: done, by simpa using b, .cons ⟨rfl, rfl, rfl, h⟩ c, fun hn => by rw [d hn]⟩

/-- **C56** Any file of PMaps with a run number and `Run/events`: what is given is, for the first events of `Run/events` in order, the PMap that the reader makes of the rows of
that event, with its own number and timestamp; all of them when nothing is raised.  The check of the event numbers in the loop never fails. -/
theorem pmap_file (f : PmapFile) (run : Int) (evs : List (Int × ℚ)) (t : PMapsIO.Tables) (hr : HasRun f.run run) (he : HasEvents f.run evs) (ht : f.pmaps = some t) :
    (evs ≠ [] → (pmapFile f).exc = (match PMapsIO.checkIntegrity (evs.map Prod.fst) t with | .error e => some e | .ok () => (lazyItems t (evs.map Prod.fst)).exc)) ∧
    ∃ done, done <+: evs ∧ ((pmapFile f).exc = none → done = evs) ∧
      List.Forall₂ (fun (ev : Int × ℚ) (x : PmapItem) => x.event = ev.1 ∧ x.timestamp = ev.2 ∧ x.runNumber = run ∧
        PMapsIO.lazyItem t ev.1 = .ok (ev.1, x.pmap)) done (pmapFile f).items := by
  unfold pmapFile
  rw [getRunNumber_ok.2 hr, getEventInfo_ok.2 he, ht]
  simp only [lazyGen]
  cases hc : PMapsIO.checkIntegrity (evs.map Prod.fst) t with
  | error e =>
    cases evs with
    | nil => exact ⟨fun h => absurd rfl h, [], List.nil_prefix, fun _ => rfl, .nil⟩
    | cons ev evs =>
      refine ⟨fun _ => rfl, [], List.nil_prefix, ?_, .nil⟩
      simp only [pmapLoop, reduceCtorEq, false_implies]
  | ok _ =>
    obtain ⟨a, done, b, c, d⟩ := pmapLoop_spec run t evs
    exact ⟨fun _ => a, done, b, fun h => d (by rw [← a]; exact h), c⟩

/-- A written file. -/
theorem pmapFile_written {f : PmapFile} {run : Int} {evs : List (Int × ℚ × PMapsIO.PMap)} (h : Written f run evs) :
    pmapFile f = ⟨evs.map fun x => ⟨PMapsIO.expected x.2.2, run, x.1, x.2.1⟩, none⟩ := by
  obtain ⟨t, ht, hst⟩ := h.tables
  have hg : ∀ x ∈ evs.map (fun x => (x.1, x.2.2)), PMapsIO.GoodPMap x.2 := by
    intro x hx; obtain ⟨y, hy, rfl⟩ := List.mem_map.1 hx; exact (h.good y hy).1
  have hp : ∀ x ∈ evs.map (fun x => (x.1, x.2.2)), x.2.HasPeaks := by
    intro x hx; obtain ⟨y, hy, rfl⟩ := List.mem_map.1 hx; exact (h.good y hy).2
  have hfst : (evs.map (fun x => (x.1, x.2.2))).map Prod.fst = evs.map Prod.fst := by simp
  have hfst' : (evs.map (fun x => (x.1, x.2.1))).map Prod.fst = evs.map Prod.fst := by simp
  have hl := PMapsIO.roundtrip_lazy (evs.map fun x => (x.1, x.2.2)) hg (by rw [hfst]; exact h.distinct) hp t hst 0 none
  rw [Option.getD_none, Nat.zero_add, pySlice_all _ le_rfl, hfst, List.map_map] at hl
  unfold PMapsIO.loadLazy at hl
  unfold pmapFile
  rw [getRunNumber_ok.2 h.run, getEventInfo_ok.2 h.events, ht]
  simp only [lazyGen, hfst']
  cases hc : PMapsIO.checkIntegrity (evs.map Prod.fst) t with
  | error e => rw [hc] at hl; cases hl
  | ok _ =>
    rw [hc] at hl
    simp only [Option.getD_none, Nat.zero_add, pySlice_all _ le_rfl] at hl
    have hi := lazyItems_ok hl
    simp only [hi]
    clear hi hl hc hst ht h hg hp hfst hfst'
    induction evs with
    | nil => rfl
    | cons x evs ih => simp only [List.map_cons, pmapLoop, Function.comp, ne_eq, not_true_eq_false, if_false] at ih ⊢; rw [ih]

/-- **C56** Files written by irene are read back entirely: one item per event, file after file and in order, with its PMap, run number, event number and timestamp. -/
theorem pmap_from_files (files : List (PmapFile × Int × List (Int × ℚ × PMapsIO.PMap))) (h : ∀ x ∈ files, Written x.1 x.2.1 x.2.2) :
    pmapFromFiles (files.map Prod.fst) =
      ⟨(files.map fun x => x.2.2.map fun y => (⟨PMapsIO.expected y.2.2, x.2.1, y.1, y.2.1⟩ : PmapItem)).flatten, none⟩ := by
  have hn : ∀ p ∈ files.map Prod.fst, (pmapFile p).exc = none := by
    intro p hp
    obtain ⟨x, hx, rfl⟩ := List.mem_map.1 hp
    rw [pmapFile_written (h x hx)]
  have h1 := (fromFiles_none pmapFile _).2 hn
  have h2 := fromFiles_items pmapFile _ hn
  have h3 : ((files.map Prod.fst).map fun p => (pmapFile p).items) =
      files.map fun x => x.2.2.map fun y => (⟨PMapsIO.expected y.2.2, x.2.1, y.1, y.2.1⟩ : PmapItem) := by
    rw [List.map_map]
    apply List.map_congr_left
    intro x hx
    simp only [Function.comp, pmapFile_written (h x hx)]
  rw [h3] at h2
  unfold pmapFromFiles
  cases hg : fromFiles pmapFile (files.map Prod.fst) with
  | mk items exc => rw [hg] at h1 h2; simp only at h1 h2; rw [h1, h2]

/-- A file with a `Run` group and events but without PMaps is not skipped, although the code has an `except NoSuchNodeError: continue` for it: the generator has
not started when that `try` is left (components.py:594-597). -/
theorem pmap_missing_raises (f : PmapFile) (run : Int) (evs : List (Int × ℚ)) (hr : HasRun f.run run) (he : HasEvents f.run evs) (hn : evs ≠ []) (ht : f.pmaps = none) (files : List PmapFile) :
    pmapFromFiles (f :: files) = ⟨[], some noSuchNode⟩ := by
  have : pmapFile f = ⟨[], some noSuchNode⟩ := by
    unfold pmapFile
    rw [getRunNumber_ok.2 hr, getEventInfo_ok.2 he, ht]
    cases evs with
    | nil => exact absurd rfl hn
    | cons ev evs => rfl
  simp only [pmapFromFiles, fromFiles, this]

theorem exWritten : Written ⟨some ⟨some [7], none, some [(17, 1), (4, 2)]⟩, some (PMapsIO.allTables PMapsIO.exEvs)⟩ 7
    [(17, 1, ⟨[PMapsIO.exS1], [PMapsIO.exS2a, PMapsIO.exS2b]⟩), (4, 2, ⟨[], [PMapsIO.exS2b]⟩)] := by
  refine ⟨⟨_, rfl, .inl ⟨[], rfl⟩⟩, ⟨_, rfl, rfl⟩, ⟨_, rfl, ?_⟩, ?_, by decide⟩
  · exact (PMapsIO.storeAll_good PMapsIO.exEvs _ PMapsIO.exEvs_good.1).trans rfl
  · intro x hx
    simp only [List.mem_cons, List.not_mem_nil, or_false] at hx
    rcases hx with rfl | rfl
    · exact ⟨PMapsIO.exEvs_good.1 _ (List.mem_cons_self), PMapsIO.exEvs_good.2.2 _ (List.mem_cons_self)⟩
    · exact ⟨PMapsIO.exEvs_good.1 _ (List.mem_cons_of_mem _ List.mem_cons_self), PMapsIO.exEvs_good.2.2 _ (List.mem_cons_of_mem _ List.mem_cons_self)⟩

example : HasRun (some ⟨some [7], none, some [(17, 1)]⟩) 7 ∧ HasEvents (some ⟨some [7], none, some [(17, 1)]⟩) [(17, 1)] :=
  ⟨⟨_, rfl, .inl ⟨[], rfl⟩⟩, ⟨_, rfl, rfl⟩⟩

/-! ### Hits -/

/-- The groups of rows with each of the keys, put together, are the rows with those keys. -/
theorem perm_groups {R κ : Type} [DecidableEq κ] (key : R → κ) : ∀ (ks : List κ) (rows : List R), ks.Nodup → (∀ r ∈ rows, key r ∈ ks) →
    ((ks.map fun k => rows.filter fun r => key r == k).flatten).Perm rows
  | [], rows, _, h => by
    cases rows with
    | nil => simp
    | cons r rows => exact absurd (h r List.mem_cons_self) (by simp)
  | k :: ks, rows, hn, h => by
    rw [List.nodup_cons] at hn
    have ih := perm_groups key ks (rows.filter fun r => !(key r == k)) hn.2 (by
      intro r hr
      obtain ⟨h1, h2⟩ := List.mem_filter.1 hr
      rcases List.mem_cons.1 (h r h1) with he | he
      · simp [he] at h2
      · exact he)
    have e : (ks.map fun k' => (rows.filter fun r => !(key r == k)).filter fun r => key r == k') = ks.map fun k' => rows.filter fun r => key r == k' := by
      apply List.map_congr_left
      intro k' hk'
      rw [List.filter_filter]
      apply List.filter_congr
      intro r _
      by_cases hr : key r = k'
      · have : key r ≠ k := by rintro rfl; rw [hr] at hn; exact hn.1 hk'
        simp [hr]
        rintro rfl; exact hn.1 hk'
      · simp [hr]
    rw [e] at ih
    rw [List.map_cons, List.flatten_cons]
    exact (List.Perm.append_left _ ih).trans (List.filter_append_perm _ _)

theorem skipNodeOrIndex_exc {α : Type} {e : PyErr} (h : (skipNodeOrIndex e : Gen α).exc = none) : (skipNodeOrIndex e : Gen α).items = [] := by
  unfold skipNodeOrIndex at *
  by_cases he : e = noSuchNode ∨ e = .indexError
  · rw [if_pos he]
  · rw [if_neg he] at h; cases h

theorem run_skipped {α : Type} {r : Option Run} {e : PyErr} (h : getRunNumber r = .error e) : (skipNodeOrIndex e : Gen α) = ⟨[], none⟩ := by
  rcases getRunNumber_error h with ⟨h, _⟩ | ⟨h, _⟩ <;> simp [skipNodeOrIndex, h]

theorem events_skipped {α : Type} {r : Option Run} {e : PyErr} (h : getEventInfo r = .error e) : (skipNodeOrIndex e : Gen α) = ⟨[], none⟩ := by
  simp [skipNodeOrIndex, (getEventInfo_error h).1]

theorem no_run {r : Option Run} {e : PyErr} (h : getRunNumber r = .error e) : ¬ ∃ n, HasRun r n := by
  rintro ⟨n, hn⟩; rw [getRunNumber_ok.2 hn] at h; cases h

theorem no_events {r : Option Run} {e : PyErr} (h : getEventInfo r = .error e) : ¬ ∃ evs, HasEvents r evs := by
  rintro ⟨n, hn⟩; rw [getEventInfo_ok.2 hn] at h; cases h

theorem node_cases {α : Type} (o : Option α) : (o = none ∧ node o = .error noSuchNode) ∨ ∃ x, o = some x ∧ node o = .ok x := by
  cases o with
  | none => exact .inl ⟨rfl, rfl⟩
  | some x => exact .inr ⟨x, rfl, rfl⟩

/-- What one file gives. -/
theorem hitsFile_cases {R K : Type} (evR : R → Int) (evK : K → Int) (f : HitsFile R K) :
    (HitsLacking f ∧ hitsFile evR evK f = ⟨[], none⟩) ∨
    ∃ hits kdst run evs, HitsNodes f hits kdst run evs ∧ hitsFile evR evK f = hitsCheck evR evK hits kdst run evs := by
  unfold hitsFile
  rcases node_cases f.hits with ⟨h1, h2⟩ | ⟨hits, h1, h2⟩
  · exact .inl ⟨.inl h1, by rw [h2]; simp only [skip_none]⟩
  rcases node_cases f.kdst with ⟨k1, k2⟩ | ⟨kdst, k1, k2⟩
  · exact .inl ⟨.inr (.inl k1), by rw [h2, k2]; simp only [skip_none]⟩
  cases hr : getRunNumber f.run with
  | error e => exact .inl ⟨.inr (.inr (.inl (no_run hr))), by rw [h2, k2]; simp only [run_skipped hr]⟩
  | ok run => cases he : getEventInfo f.run with
    | error e => exact .inl ⟨.inr (.inr (.inr (no_events he))), by rw [h2, k2]; simp only [events_skipped he]⟩
    | ok evs => exact .inr ⟨hits, kdst, run, evs, ⟨h1, k1, getRunNumber_ok.1 hr, getEventInfo_ok.1 he⟩, by rw [h2, k2]⟩

theorem hitsCheck_cases {R K : Type} (evR : R → Int) (evK : K → Int) (hits : List R) (kdst : List K) (run : Int) (evs : List (Int × ℚ)) :
    (evs.length = (unique (kdst.map evK)).length ∧ hitsCheck evR evK hits kdst run evs = ⟨evs.map (hitsItem evR evK hits kdst run), none⟩) ∨
    (evs.length ≠ (unique (kdst.map evK)).length ∧ hitsCheck evR evK hits kdst run evs = ⟨[], some invalidFile⟩) := by
  unfold hitsCheck
  have hc := checkLengths_ok [some evs.length, some (unique (kdst.map evK)).length]
  by_cases h : evs.length = (unique (kdst.map evK)).length
  · refine .inl ⟨h, ?_⟩
    rw [hc.2 (by
      intro a b ha hb
      simp only [List.mem_cons, Option.some.injEq, List.not_mem_nil, or_false] at ha hb
      rcases ha with rfl | rfl <;> rcases hb with rfl | rfl <;> simp [h])]
  · refine .inr ⟨h, ?_⟩
    cases hk : checkLengths [some evs.length, some (unique (kdst.map evK)).length] with
    | error e => simp only [checkLengths_error hk]
    | ok _ => exact absurd (hc.1 hk _ _ (by simp) (by simp)) h

theorem hitsItem_spec {R K : Type} (evR : R → Int) (evK : K → Int) (hits : List R) (kdst : List K) (run : Int) (ev : Int × ℚ) :
    ItemOf evR evK hits kdst run ev (hitsItem evR evK hits kdst run ev) := by
  refine ⟨rfl, rfl, rfl, rfl, rfl, ?_⟩
  simp [hitsItem]

/-- **C56** `hits_and_kdst_from_files` raises nothing exactly when every complete file has as many rows in `Run/events` as different events in the kdst; then it gives,
file after file, one item per row of `Run/events` in order, with exactly the hits and the kdst rows of that event; a warning for the events without hits. -/
theorem hits_from_files {R K : Type} (evR : R → Int) (evK : K → Int) (files : List (HitsFile R K)) :
    ((hitsAndKdstFromFiles evR evK files).exc = none ↔ ∀ f ∈ files, ∀ hits kdst run evs, HitsNodes f hits kdst run evs → evs.length = (unique (kdst.map evK)).length) ∧
    ((hitsAndKdstFromFiles evR evK files).exc = none →
      ∃ blocks, List.Forall₂ (HitsBlock evR evK) files blocks ∧ (hitsAndKdstFromFiles evR evK files).items = blocks.flatten) := by
  have key : ∀ f : HitsFile R K, (hitsFile evR evK f).exc = none ↔ ∀ hits kdst run evs, HitsNodes f hits kdst run evs → evs.length = (unique (kdst.map evK)).length := by
    intro f
    rcases hitsFile_cases evR evK f with ⟨h1, h2⟩ | ⟨hits, kdst, run, evs, h1, h2⟩
    · rw [h2]
      simp only [true_iff]
      intro hits kdst run evs hn
      rcases h1 with h | h | h | h
      · rw [hn.hits] at h; cases h
      · rw [hn.kdst] at h; cases h
      · exact absurd ⟨run, hn.run⟩ h
      · exact absurd ⟨evs, hn.events⟩ h
    · rw [h2]
      rcases hitsCheck_cases evR evK hits kdst run evs with ⟨c1, c2⟩ | ⟨c1, c2⟩
      · rw [c2]
        simp only [true_iff]
        intro hits' kdst' run' evs' hn
        have e1 := hn.kdst
        rw [h1.kdst] at e1
        obtain rfl := Option.some.inj e1
        obtain ⟨g, hg, hge⟩ := hn.events
        obtain ⟨g', hg', hge'⟩ := h1.events
        rw [hg] at hg'
        obtain rfl := Option.some.inj hg'
        rw [hge] at hge'
        obtain rfl := Option.some.inj hge'
        exact c1
      · rw [c2]
        simp only [reduceCtorEq, false_iff]
        intro h
        exact c1 (h hits kdst run evs h1)
  refine ⟨?_, ?_⟩
  · rw [hitsAndKdstFromFiles, fromFiles_none]
    exact forall₂_congr fun f _ => key f
  · intro h
    rw [hitsAndKdstFromFiles, fromFiles_none] at h
    refine ⟨files.map fun f => (hitsFile evR evK f).items, ?_, fromFiles_items _ _ h⟩
    rw [List.forall₂_map_right_iff, List.forall₂_same]
    intro f hf
    have hfe := h f hf
    rcases hitsFile_cases evR evK f with ⟨h1, h2⟩ | ⟨hits, kdst, run, evs, h1, h2⟩
    · rw [h2]; exact .inl ⟨h1, rfl⟩
    · rw [h2] at hfe ⊢
      rcases hitsCheck_cases evR evK hits kdst run evs with ⟨c1, c2⟩ | ⟨c1, c2⟩
      · rw [c2]
        refine .inr ⟨hits, kdst, run, evs, h1, c1, ?_⟩
        rw [List.forall₂_map_right_iff, List.forall₂_same]
        exact fun ev _ => hitsItem_spec evR evK hits kdst run ev
      · rw [c2] at hfe; cases hfe

/-- **C56** When the events of `Run/events` are different and contain those of the hits, every hit is in exactly one item; when moreover each of them has kdst
rows, the check of the lengths is enough for every kdst row to be in exactly one item. -/
theorem hits_partition {R K : Type} (evR : R → Int) (evK : K → Int) (hits : List R) (kdst : List K) (run : Int) (evs : List (Int × ℚ)) (items : List (HitsItem R K))
    (hi : List.Forall₂ (ItemOf evR evK hits kdst run) evs items) (hd : (evs.map Prod.fst).Nodup) :
    ((∀ r ∈ hits, evR r ∈ evs.map Prod.fst) → ((items.map (·.hits)).flatten).Perm hits) ∧
    (evs.length = (unique (kdst.map evK)).length → (∀ ev ∈ evs, ∃ k ∈ kdst, evK k = ev.1) → ((items.map (·.kdst)).flatten).Perm kdst) := by
  have e1 : items.map (·.hits) = (evs.map Prod.fst).map fun e => hits.filter fun r => evR r == e := by
    rw [List.map_map]
    clear hd
    induction hi with
    | nil => rfl
    | cons h _ ih => rw [List.map_cons, List.map_cons, ih, h.2.2.2.1]; rfl
  have e2 : items.map (·.kdst) = (evs.map Prod.fst).map fun e => kdst.filter fun k => evK k == e := by
    rw [List.map_map]
    clear hd e1
    induction hi with
    | nil => rfl
    | cons h _ ih => rw [List.map_cons, List.map_cons, ih, h.2.2.2.2.1]; rfl
  refine ⟨?_, ?_⟩
  · intro hc
    rw [e1]
    exact perm_groups evR _ hits hd hc
  · intro hl hk
    rw [e2]
    apply perm_groups evK _ kdst hd
    have hsub : evs.map Prod.fst ⊆ unique (kdst.map evK) := by
      intro e he
      obtain ⟨ev, hev, rfl⟩ := List.mem_map.1 he
      obtain ⟨k, hk1, hk2⟩ := hk ev hev
      rw [PMapsIO.mem_unique]
      exact List.mem_map.2 ⟨k, hk1, hk2⟩
    have hperm : (evs.map Prod.fst).Perm (unique (kdst.map evK)) :=
      (List.subperm_of_subset hd hsub).perm_of_length_le (by rw [List.length_map, hl])
    intro k hk'
    rw [hperm.mem_iff, PMapsIO.mem_unique]
    exact List.mem_map.2 ⟨k, hk', rfl⟩

/-- Hits are pairs of event and value; the event 9 has no hits. -/
def exHits : HitsFile (Int × Nat) (Int × Nat) := ⟨some ⟨some [7], none, some [(4, 1), (9, 2)]⟩, some [(4, 1), (4, 2)], some [(4, 7), (9, 8), (4, 9)]⟩

example : HitsNodes exHits [(4, 1), (4, 2)] [(4, 7), (9, 8), (4, 9)] 7 [(4, 1), (9, 2)] ∧ (unique ([(4, 7), (9, 8), (4, 9)].map (Prod.fst (α := Int) (β := Nat)))).length = 2 ∧
    ((hitsAndKdstFromFiles Prod.fst Prod.fst [exHits]).items.map fun x => (x.event, x.hits, x.kdst, x.warned)) =
      [(4, [(4, 1), (4, 2)], [(4, 7), (4, 9)], false), (9, [], [(9, 8)], true)] :=
  ⟨⟨rfl, rfl, ⟨_, rfl, .inl ⟨[], rfl⟩⟩, ⟨_, rfl, rfl⟩⟩, by decide, by decide⟩

/-- (limit) The check compares numbers of events, not the events: a file whose hits belong to events that are not in `Run/events` is accepted, and its hits are lost. -/
theorem hits_of_other_events_lost : ∃ f : HitsFile (Int × Nat) (Int × Nat), HitsNodes f [(5, 1)] [(5, 7)] 7 [(4, 1)] ∧
    (hitsAndKdstFromFiles Prod.fst Prod.fst [f]).exc = none ∧
    ((hitsAndKdstFromFiles Prod.fst Prod.fst [f]).items.map fun x => (x.event, x.hits, x.kdst)) = [(4, [], [])] :=
  ⟨⟨some ⟨some [7], none, some [(4, 1)]⟩, some [(5, 1)], some [(5, 7)]⟩, ⟨rfl, rfl, ⟨_, rfl, .inl ⟨[], rfl⟩⟩, ⟨_, rfl, rfl⟩⟩, by decide, by decide⟩

/-! ### Generic dst -/

/-- **C56** `dst_from_files` never raises for missing nodes and gives one item per complete file, in order, with the whole dst and all the events and timestamps. -/
theorem dst_from_files {D : Type} (files : List (DstFile D)) :
    (dstFromFiles files).exc = none ∧
    ∃ blocks, (dstFromFiles files).items = blocks.flatten ∧ List.Forall₂ (fun f b =>
      (b = [] ∧ (f.dst = none ∨ (¬ ∃ n, HasRun f.run n) ∨ ¬ ∃ evs, HasEvents f.run evs)) ∨
      ∃ x, b = [x] ∧ f.dst = some x.dst ∧ HasRun f.run x.runNumber ∧ HasEvents f.run (x.events.zip x.timestamps) ∧ x.events.length = x.timestamps.length) files blocks := by
  have key : ∀ f : DstFile D, (dstFile f).exc = none ∧ (((dstFile f).items = [] ∧ (f.dst = none ∨ (¬ ∃ n, HasRun f.run n) ∨ ¬ ∃ evs, HasEvents f.run evs)) ∨
      ∃ x, (dstFile f).items = [x] ∧ f.dst = some x.dst ∧ HasRun f.run x.runNumber ∧ HasEvents f.run (x.events.zip x.timestamps) ∧ x.events.length = x.timestamps.length) := by
    intro f
    unfold dstFile
    rcases node_cases f.dst with ⟨h1, h2⟩ | ⟨d, h1, h2⟩
    · rw [h2]
      simp only [skipNodeOrIndex, true_or, if_true]
      exact ⟨trivial, .inl ⟨trivial, .inl h1⟩⟩
    rw [h2]
    cases hr : getRunNumber f.run with
    | error e =>
      simp only [run_skipped hr]
      exact ⟨trivial, .inl ⟨trivial, .inr (.inl (no_run hr))⟩⟩
    | ok run =>
      cases he : getEventInfo f.run with
      | error e =>
        simp only [events_skipped he]
        exact ⟨trivial, .inl ⟨trivial, .inr (.inr (no_events he))⟩⟩
      | ok evs =>
        refine ⟨rfl, .inr ⟨_, rfl, h1, getRunNumber_ok.1 hr, ?_, by simp⟩⟩
        have : (evs.map Prod.fst).zip (evs.map Prod.snd) = evs := by
          induction evs with
          | nil => rfl
          | cons a as _ => rw [List.zip_map', List.map_id']
        simp only [this]
        exact getEventInfo_ok.1 he
  refine ⟨(fromFiles_none _ _).2 fun f _ => (key f).1, _, fromFiles_items _ _ fun f _ => (key f).1, ?_⟩
  rw [List.forall₂_map_right_iff, List.forall₂_same]
  exact fun f _ => (key f).2

example : (dstFromFiles [⟨some ⟨some [7], none, some [(4, 1), (9, 2)]⟩, some 'a'⟩, ⟨none, some 'b'⟩, ⟨some ⟨none, some [8], some []⟩, some 'c'⟩]).items =
    [⟨'a', 7, [4, 9], [1, 2]⟩, ⟨'c', 8, [], []⟩] := by decide +kernel

/-! ### Deconvolved hits -/

theorem dhitsLoop_spec {R K : Type} (evR : R → Int) (evK : K → Int) (patch : R → R) (hits : List R) (kdst : Option (List K)) (run : Int) (evs : List (Int × ℚ)) : ∀ es : List Int,
    (((dhitsLoop evR evK patch hits kdst run evs es).exc = none ↔ ∀ e ∈ es, ∃ ts, (e, ts) ∈ evs) ∧
     ((dhitsLoop evR evK patch hits kdst run evs es).exc = none ∨ (dhitsLoop evR evK patch hits kdst run evs es).exc = some .indexError)) ∧
    ∃ done, done <+: es ∧ ((dhitsLoop evR evK patch hits kdst run evs es).exc = none → done = es) ∧
      List.Forall₂ (DItemOf evR evK patch hits kdst run evs) done (dhitsLoop evR evK patch hits kdst run evs es).items
  | [] => ⟨⟨by simp [dhitsLoop], .inl rfl⟩, [], List.nil_prefix, fun _ => rfl, .nil⟩
  | e :: es => by
    obtain ⟨⟨a1, a2⟩, done, b, c, d⟩ := dhitsLoop_spec evR evK patch hits kdst run evs es
    cases h : (evs.filter fun x => x.1 == e).head? with
    | none =>
      have hne : ¬ ∃ ts, (e, ts) ∈ evs := by
        rintro ⟨ts, hts⟩
        rw [List.head?_eq_none_iff, List.filter_eq_nil_iff] at h
        exact h _ hts (by simp)
      have : dhitsLoop evR evK patch hits kdst run evs (e :: es) = ⟨[], some .indexError⟩ := by simp only [dhitsLoop, h]
      rw [this]
      refine ⟨⟨?_, .inr rfl⟩, [], List.nil_prefix, ?_, .nil⟩
      rotate_left
      · simp
      simp only [reduceCtorEq, false_iff]
      intro hall
      exact hne (hall e List.mem_cons_self)
    | some x =>
      have hx := List.mem_filter.1 (List.mem_of_mem_head? h)
      have hxe : x.1 = e := by simpa using hx.2
      have hmem : (e, x.2) ∈ evs := by rw [← hxe]; exact hx.1
      simp only [dhitsLoop, h]
      refine ⟨⟨?_, a2⟩, e :: done, by simpa using b, fun hn => by rw [c hn], .cons ⟨rfl, rfl, rfl, rfl, hmem⟩ d⟩
      rw [a1]
      simp only [List.forall_mem_cons]
      exact ⟨fun h => ⟨⟨_, hmem⟩, h⟩, fun h => h.2⟩

/-- **C56** A file of deconvolved hits with a run number and events: one item per event of the hits, in order of appearance, with its hits (`Q = E`), its kdst rows and a timestamp of
`Run/events` for that event; the items together hold every hit exactly once.  When some event is not in `Run/events`, `IndexError`, after the events before it. -/
theorem dhits_file {R K : Type} (evR : R → Int) (evK : K → Int) (patch : R → R) (f : HitsFile R K) (hits : List R) (run : Int) (evs : List (Int × ℚ))
    (hh : f.hits = some hits) (hr : HasRun f.run run) (he : HasEvents f.run evs) :
    ((dhitsFile evR evK patch f).exc = none ↔ ∀ r ∈ hits, ∃ ts, (evR r, ts) ∈ evs) ∧
    ((dhitsFile evR evK patch f).exc = none ∨ (dhitsFile evR evK patch f).exc = some .indexError) ∧
    (∃ done, done <+: unique (hits.map evR) ∧ ((dhitsFile evR evK patch f).exc = none → done = unique (hits.map evR)) ∧
      List.Forall₂ (DItemOf evR evK patch hits f.kdst run evs) done (dhitsFile evR evK patch f).items) ∧
    ((dhitsFile evR evK patch f).exc = none → (((dhitsFile evR evK patch f).items.map (·.hits)).flatten).Perm (hits.map patch)) := by
  have hf : dhitsFile evR evK patch f = dhitsLoop evR evK patch hits f.kdst run evs (unique (hits.map evR)) := by
    unfold dhitsFile
    rw [hh, getRunNumber_ok.2 hr, getEventInfo_ok.2 he]
    rfl
  rw [hf]
  obtain ⟨⟨a1, a2⟩, done, b, c, d⟩ := dhitsLoop_spec evR evK patch hits f.kdst run evs (unique (hits.map evR))
  refine ⟨?_, a2, ⟨done, b, c, d⟩, ?_⟩
  · rw [a1]
    simp only [PMapsIO.mem_unique, List.forall_mem_map]
  · intro hn
    obtain rfl := c hn
    have e1 : ((dhitsLoop evR evK patch hits f.kdst run evs (unique (hits.map evR))).items.map (·.hits)) =
        ((unique (hits.map evR)).map fun e => hits.filter fun r => evR r == e).map (List.map patch) := by
      rw [List.map_map]
      generalize (dhitsLoop evR evK patch hits f.kdst run evs (unique (hits.map evR))).items = items at d
      generalize unique (hits.map evR) = es at d
      clear b c a1 a2 hn hf
      induction d with
      | nil => rfl
      | cons h _ ih => rw [List.map_cons, List.map_cons, ih, h.2.2.1]; rfl
    rw [e1, ← List.map_flatten]
    apply List.Perm.map
    apply perm_groups evR _ hits (PMapsIO.unique_nodup _)
    intro r hr'
    rw [PMapsIO.mem_unique]
    exact List.mem_map_of_mem hr'

/-- **C56** All the files of deconvolved hits: the items are those of the files in order, up to the first file that raises. -/
theorem dhits_from_files {R K : Type} (evR : R → Int) (evK : K → Int) (patch : R → R) (files : List (HitsFile R K)) (h : (dhitsFromFiles evR evK patch files).exc = none) :
    (dhitsFromFiles evR evK patch files).items = (files.map fun f => (dhitsFile evR evK patch f).items).flatten ∧
    ∀ f ∈ files, (f.hits = none ∨ ¬ ∃ n, HasRun f.run n) → (dhitsFile evR evK patch f).items = [] := by
  rw [dhitsFromFiles, fromFiles_none] at h
  refine ⟨fromFiles_items _ _ h, ?_⟩
  intro f hf hl
  unfold dhitsFile
  rcases node_cases f.hits with ⟨h1, h2⟩ | ⟨hits, h1, h2⟩
  · rw [h2]; simp only [skip_none]
  · rw [h2]
    rcases hl with hl | hl
    · rw [h1] at hl; cases hl
    · cases hr : getRunNumber f.run with
      | ok n => exact absurd ⟨n, getRunNumber_ok.1 hr⟩ hl
      | error e => simp only [run_skipped hr]

/-- Hits are (event, E, Q). -/
def exDhits : HitsFile (Int × Nat × Nat) (Int × Nat) := ⟨some ⟨some [7], none, some [(4, 1), (9, 2)]⟩, some [(9, 1, 0), (4, 2, 0), (9, 3, 0)], some [(4, 7), (9, 8), (4, 9)]⟩

example : (dhitsFromFiles Prod.fst Prod.fst (fun r => (r.1, r.2.1, r.2.1)) [exDhits]) =
      ⟨[⟨[(9, 1, 1), (9, 3, 3)], some [(9, 8)], 7, 9, 2⟩, ⟨[(4, 2, 2)], some [(4, 7), (4, 9)], 7, 4, 1⟩], none⟩ ∧
    exDhits.hits = some [(9, 1, 0), (4, 2, 0), (9, 3, 0)] ∧ HasRun exDhits.run 7 ∧ HasEvents exDhits.run [(4, 1), (9, 2)] :=
  ⟨by decide +kernel, rfl, ⟨_, rfl, .inl ⟨[], rfl⟩⟩, ⟨_, rfl, rfl⟩⟩

/-- **C56** Unlike the other readers, a file of deconvolved hits that has hits and a run number but not the table of events is not skipped: the reading stops there with `NoSuchNodeError`. -/
theorem dhits_without_events {R K : Type} (evR : R → Int) (evK : K → Int) (patch : R → R) (f : HitsFile R K) (hits : List R) (run : Int)
    (hh : f.hits = some hits) (hr : HasRun f.run run) (he : ¬ ∃ evs, HasEvents f.run evs) (rest : List (HitsFile R K)) :
    dhitsFromFiles evR evK patch (f :: rest) = ⟨[], some noSuchNode⟩ := by
  have hg : getEventInfo f.run = .error noSuchNode := by
    obtain ⟨r, hr', _⟩ := hr
    rw [hr'] at he ⊢
    cases h : r.events with
    | some evs => exact absurd ⟨evs, r, rfl, h⟩ he
    | none => simp only [getEventInfo, h]
  have hf : dhitsFile evR evK patch f = ⟨[], some noSuchNode⟩ := by
    unfold dhitsFile
    rw [hh, getRunNumber_ok.2 hr, hg]
    rfl
  simp only [dhitsFromFiles, fromFiles, hf]

example : dhitsFromFiles Prod.fst Prod.fst (fun r => (r.1, r.2.1, r.2.1)) [{ exDhits with run := some ⟨some [7], none, none⟩ }, exDhits] = ⟨[], some noSuchNode⟩ := by decide +kernel

/-! ### Monte Carlo -/

theorem insertSorted_perm (x : Int) : ∀ l, (insertSorted x l).Perm (x :: l)
  | [] => .refl _
  | y :: ys => by
    simp only [insertSorted]
    split
    · exact .refl _
    · exact ((insertSorted_perm x ys).cons y).trans (.swap x y ys)

theorem insertSorted_sorted (x : Int) : ∀ l, l.Pairwise (· ≤ ·) → (insertSorted x l).Pairwise (· ≤ ·)
  | [], _ => by simp [insertSorted]
  | y :: ys, h => by
    simp only [insertSorted]
    have h' := List.pairwise_cons.1 h
    split
    · rename_i hxy
      refine List.pairwise_cons.2 ⟨?_, h⟩
      intro z hz
      rcases List.mem_cons.1 hz with rfl | hz
      · exact hxy
      · exact le_trans hxy (h'.1 z hz)
    · rename_i hxy
      refine List.pairwise_cons.2 ⟨?_, insertSorted_sorted x ys h'.2⟩
      intro z hz
      rcases List.mem_cons.1 ((insertSorted_perm x ys).mem_iff.1 hz) with rfl | hz
      · omega
      · exact h'.1 z hz

theorem groupKeys_spec (es : List Int) : (groupKeys es).Pairwise (· < ·) ∧ ∀ e, e ∈ groupKeys es ↔ e ∈ es := by
  have hp : ∀ l : List Int, (l.foldr insertSorted []).Perm l ∧ (l.foldr insertSorted []).Pairwise (· ≤ ·) := by
    intro l
    induction l with
    | nil => exact ⟨.refl _, .nil⟩
    | cons x l ih => exact ⟨(insertSorted_perm x _).trans (ih.1.cons x), insertSorted_sorted x _ ih.2⟩
  obtain ⟨h1, h2⟩ := hp (unique es)
  refine ⟨?_, fun e => ?_⟩
  · have hn : (groupKeys es).Nodup := h1.nodup_iff.2 (PMapsIO.unique_nodup es)
    exact (List.Pairwise.and h2 hn).imp fun ⟨a, b⟩ => lt_of_le_of_ne a b
  · rw [groupKeys, h1.mem_iff, PMapsIO.mem_unique]

/-- **C56** `MC_hits_from_files` never raises for missing hits; each file gives its events in increasing order, each once, with exactly its hits in order; together, every hit once. -/
theorem mc_hits_from_files {R : Type} (evR : R → Int) (files : List (Option (List R))) :
    (mcHitsFromFiles evR files).exc = none ∧
    ∃ blocks, (mcHitsFromFiles evR files).items = blocks.flatten ∧ List.Forall₂ (fun (f : Option (List R)) b =>
      (b.map Prod.fst).Pairwise (· < ·) ∧ (∀ x ∈ b, x.2 = (f.getD []).filter (fun r => evR r == x.1) ∧ x.2 ≠ []) ∧
      ((b.map Prod.snd).flatten).Perm (f.getD [])) files blocks := by
  have key : ∀ f : Option (List R), (mcHitsFile evR f).exc = none := by intro f; cases f <;> rfl
  refine ⟨(fromFiles_none _ _).2 fun f _ => key f, _, fromFiles_items _ _ fun f _ => key f, ?_⟩
  rw [List.forall₂_map_right_iff, List.forall₂_same]
  intro f _
  cases f with
  | none => simp [mcHitsFile]
  | some hits =>
    obtain ⟨h1, h2⟩ := groupKeys_spec (hits.map evR)
    simp only [mcHitsFile, Option.getD_some, List.map_map, Function.comp_def, List.map_id']
    refine ⟨h1, ?_, ?_⟩
    · intro x hx
      obtain ⟨e, he, rfl⟩ := List.mem_map.1 hx
      refine ⟨rfl, ?_⟩
      rw [h2] at he
      obtain ⟨r, hr, rfl⟩ := List.mem_map.1 he
      exact List.ne_nil_of_mem (List.mem_filter.2 ⟨hr, by simp⟩)
    · exact perm_groups evR _ hits (h1.imp ne_of_lt) fun r hr => (h2 _).2 (List.mem_map_of_mem hr)

example : mcHitsFromFiles Prod.fst [some [(9, 'a'), (4, 'b'), (9, 'c')], none] = ⟨[(4, [(4, 'b')]), (9, [(9, 'a'), (9, 'c')])], none⟩ := by decide

/-- **C56** `mcsensors_from_file`: when the PMTs of each file are in the database, one item per event of the file, in order; every response of the event is given once, to the PMTs when its sensor is a PMT of
the database and to the SiPMs otherwise; an event without responses gives none.  Otherwise `SensorIDMismatch` before any event of that file. -/
theorem mc_sensors_from_file {R : Type} (evR : R → Int) (idR : R → Nat) (db : List Nat) (files : List (SnsFile R)) :
    ((mcSensorsFromFile evR idR db files).exc = none ↔ ∀ f ∈ files, ∀ ids, f.pmtIds = some ids → ∀ i ∈ ids, i ∈ db) ∧
    ((mcSensorsFromFile evR idR db files).exc = none →
      ∃ blocks, (mcSensorsFromFile evR idR db files).items = blocks.flatten ∧ List.Forall₂ (fun (f : SnsFile R) b =>
        List.Forall₂ (fun e x => x.event = e ∧ (x.pmts ++ x.sipms).Perm (f.resp.filter fun r => evR r == e) ∧ (∀ r ∈ x.pmts, idR r ∈ db) ∧ (∀ r ∈ x.sipms, idR r ∉ db) ∧
          x.pmts.Sublist f.resp ∧ x.sipms.Sublist f.resp) f.events b) files blocks) := by
  have key : ∀ f : SnsFile R, (snsFile evR idR db f).exc = none ↔ ∀ ids, f.pmtIds = some ids → ∀ i ∈ ids, i ∈ db := by
    intro f
    unfold snsFile
    cases hp : f.pmtIds with
    | none => simp
    | some ids =>
      by_cases h : ∀ i ∈ ids, i ∈ db
      · rw [if_pos (by simpa using h)]; simpa using h
      · rw [if_neg (by simpa using h)]
        simp only [reduceCtorEq, false_iff]
        intro h'
        exact h (h' ids rfl)
  refine ⟨?_, ?_⟩
  · rw [mcSensorsFromFile, fromFiles_none]
    exact forall₂_congr fun f _ => key f
  · intro h
    rw [mcSensorsFromFile, fromFiles_none] at h
    refine ⟨_, fromFiles_items _ _ h, ?_⟩
    rw [List.forall₂_map_right_iff, List.forall₂_same]
    intro f hf
    have hfe := h f hf
    unfold snsFile at hfe ⊢
    split at hfe
    · rename_i hc
      rw [if_pos hc]
      simp only
      rw [List.forall₂_map_right_iff, List.forall₂_same]
      intro e _
      refine ⟨rfl, ?_, ?_, ?_, List.filter_sublist.trans List.filter_sublist, List.filter_sublist.trans List.filter_sublist⟩
      · exact List.filter_append_perm _ _
      · intro r hr
        simpa using (List.mem_filter.1 hr).2
      · intro r hr
        simpa using (List.mem_filter.1 hr).2
    · cases hfe

example : mcSensorsFromFile Prod.fst Prod.snd [0, 1] [⟨[(3, 0), (3, 1007), (5, 1)], some [0, 1], [3, 4, 5]⟩] =
    ⟨[⟨3, [(3, 0)], [(3, 1007)]⟩, ⟨4, [], []⟩, ⟨5, [(5, 1)], []⟩], none⟩ ∧
    (mcSensorsFromFile Prod.fst Prod.snd [0, 1] [⟨[((3 : Int), 0)], some [0, 2], [3]⟩]).exc = some (.other "SensorIDMismatch") := by decide

end Verif.Sources
