import Verif.Spec.Binning
import Verif.Props.McInfoOld
import Verif.Lemmas.Lists
import Mathlib.Control.Monad.Basic
/-!
# C108: the sampling widths of a simulation
-/
namespace Verif.Binning

theorem has_iff (a s : Text) : has a s = true ↔ a <:+: s := by simp [has]

theorem firsts_cons (seen : List Text) (k v : Text) (rest : List (Text × Text)) :
    firsts seen ((k, v) :: rest) = if k ∈ seen then firsts seen rest else (k, v) :: firsts (k :: seen) rest := rfl

theorem f2_right {α β : Type} {R : α → β → Prop} {l : List α} {m : List β} (h : List.Forall₂ R l m) {b : β} (hb : b ∈ m) : ∃ a ∈ l, R a b := by
  induction h with
  | nil => cases hb
  | cons h1 _ ih =>
    rcases List.mem_cons.1 hb with rfl | hb
    · exact ⟨_, List.mem_cons_self, h1⟩
    · obtain ⟨a, ha, hr⟩ := ih hb
      exact ⟨a, List.mem_cons_of_mem _ ha, hr⟩

theorem f2_left {α β : Type} {R : α → β → Prop} {l : List α} {m : List β} (h : List.Forall₂ R l m) {a : α} (ha : a ∈ l) : ∃ b ∈ m, R a b := by
  induction h with
  | nil => cases ha
  | cons h1 _ ih =>
    rcases List.mem_cons.1 ha with rfl | ha
    · exact ⟨_, List.mem_cons_self, h1⟩
    · obtain ⟨b, hb, hr⟩ := ih ha
      exact ⟨b, List.mem_cons_of_mem _ hb, hr⟩

theorem mapM_error_mem {α β : Type} {g : α → Except PyErr β} {l : List α} {e : PyErr} (h : l.mapM g = .error e) : ∃ x ∈ l, g x = .error e := by
  induction l with
  | nil => cases h
  | cons x l ih =>
    rw [List.mapM_cons] at h
    cases hx : g x with
    | error e' =>
      rw [hx] at h
      cases h
      exact ⟨x, List.mem_cons_self, hx⟩
    | ok y =>
      rw [hx] at h
      cases hl : l.mapM g with
      | error e' =>
        rw [hl] at h
        cases h
        obtain ⟨z, hz, hz2⟩ := ih hl
        exact ⟨z, List.mem_cons_of_mem _ hz, hz2⟩
      | ok ys => rw [hl] at h; cases h

theorem mem_firsts (r : Text × Text) : ∀ (l : List (Text × Text)) (seen : List Text),
    r ∈ firsts seen l ↔ r.1 ∉ seen ∧ FirstRow l r := by
  intro l
  induction l with
  | nil =>
    intro seen
    constructor
    · intro h; cases h
    · rintro ⟨_, a, b, h, _⟩; simp at h
  | cons x l ih =>
    obtain ⟨k, v⟩ := x
    intro seen
    unfold firsts
    by_cases hk : k ∈ seen
    · rw [if_pos hk, ih]
      refine and_congr_right fun hs => ⟨?_, ?_⟩
      · rintro ⟨a, b, rfl, h⟩
        refine ⟨(k, v) :: a, b, rfl, ?_⟩
        intro hm
        rcases List.mem_cons.1 hm with h1 | h1
        · exact hs (h1 ▸ hk)
        · exact h h1
      · rintro ⟨a, b, he, h⟩
        cases a with
        | nil =>
          have : (k, v) = r := by simpa using (List.cons.inj he).1
          exact absurd (this ▸ hk) hs
        | cons y a =>
          obtain ⟨h1, h2⟩ := List.cons.inj he
          exact ⟨a, b, h2, fun hm => h (List.mem_cons_of_mem _ hm)⟩
    · rw [if_neg hk, List.mem_cons, ih]
      constructor
      · rintro (rfl | ⟨h1, a, b, rfl, h⟩)
        · exact ⟨hk, [], l, rfl, by simp⟩
        · rw [List.mem_cons, not_or] at h1
          refine ⟨h1.2, (k, v) :: a, b, rfl, ?_⟩
          intro hm
          rcases List.mem_cons.1 hm with h3 | h3
          · exact h1.1 h3
          · exact h h3
      · rintro ⟨hs, a, b, he, h⟩
        cases a with
        | nil => exact .inl (List.cons.inj he).1.symm
        | cons y a =>
          obtain ⟨h1, h2⟩ := List.cons.inj he
          refine .inr ⟨?_, a, b, h2, fun hm => h (List.mem_cons_of_mem _ hm)⟩
          rw [List.mem_cons, not_or]
          refine ⟨fun h3 => h ?_, hs⟩
          rw [List.map_cons, ← h1, h3]
          exact List.mem_cons_self

theorem firsts_nodup : ∀ (l : List (Text × Text)) (seen : List Text), ((firsts seen l).map Prod.fst).Nodup := by
  intro l
  induction l with
  | nil => intro seen; exact List.nodup_nil
  | cons x l ih =>
    obtain ⟨k, v⟩ := x
    intro seen
    unfold firsts
    by_cases hk : k ∈ seen
    · rw [if_pos hk]; exact ih seen
    · rw [if_neg hk, List.map_cons, List.nodup_cons]
      refine ⟨?_, ih _⟩
      intro hm
      obtain ⟨r, hr, he⟩ := List.mem_map.1 hm
      exact ((mem_firsts r l (k :: seen)).1 hr).1 (by rw [he]; exact List.mem_cons_self)

theorem firsts_filter (q : Text → Bool) : ∀ (l : List (Text × Text)) (seen : List Text),
    (firsts seen l).filter (fun r => q r.1) = firsts seen (l.filter fun r => q r.1) := by
  intro l
  induction l with
  | nil => intro seen; rfl
  | cons x l ih =>
    obtain ⟨k, v⟩ := x
    intro seen
    by_cases hq : q k = true
    · rw [List.filter_cons, if_pos hq]
      unfold firsts
      by_cases hk : k ∈ seen
      · rw [if_pos hk, if_pos hk, ih]
      · rw [if_neg hk, if_neg hk, List.filter_cons, if_pos hq, ih]
    · rw [List.filter_cons, if_neg hq]
      have hmore : ∀ (m : List (Text × Text)) (s : List Text), (∀ r ∈ m, q r.1 = true) → firsts (k :: s) m = firsts s m := by
        intro m
        induction m with
        | nil => intro s _; rfl
        | cons y m ihm =>
          obtain ⟨k', v'⟩ := y
          intro s hs
          have hne : k' ≠ k := by
            rintro rfl
            exact hq (hs _ List.mem_cons_self)
          have hperm : ∀ (t : List (Text × Text)) (s s' : List Text), (∀ z, z ∈ s ↔ z ∈ s') → firsts s t = firsts s' t := by
            intro t
            induction t with
            | nil => intro _ _ _; rfl
            | cons y t iht =>
              obtain ⟨k2, v2⟩ := y
              intro s s' he
              unfold firsts
              rw [iht s s' he, iht (k2 :: s) (k2 :: s') (fun z => by simp [he z])]
              by_cases h : k2 ∈ s
              · rw [if_pos h, if_pos ((he _).1 h)]
              · rw [if_neg h, if_neg (fun h' => h ((he _).2 h'))]
          unfold firsts
          have h3 := ihm s fun r hr => hs r (List.mem_cons_of_mem _ hr)
          have h4 := ihm (k' :: s) fun r hr => hs r (List.mem_cons_of_mem _ hr)
          rw [hperm m (k' :: k :: s) (k :: k' :: s) (fun z => by simp [or_left_comm]), h3, h4]
          by_cases hm : k' ∈ s
          · rw [if_pos hm, if_pos (List.mem_cons_of_mem _ hm)]
          · rw [if_neg hm, if_neg (by simp [hm, hne])]
      rw [firsts_cons]
      by_cases hk : k ∈ seen
      · rw [if_pos hk, ih]
      · rw [if_neg hk, List.filter_cons, if_neg hq, ih, hmore _ _ fun r hr => (List.mem_filter.1 hr).2]

theorem firsts_self : ∀ (l : List (Text × Text)) (seen : List Text), (l.map Prod.fst).Nodup → (∀ r ∈ l, r.1 ∉ seen) → firsts seen l = l := by
  intro l
  induction l with
  | nil => intro _ _ _; rfl
  | cons x l ih =>
    obtain ⟨k, v⟩ := x
    intro seen hn hs
    rw [List.map_cons, List.nodup_cons] at hn
    unfold firsts
    rw [if_neg (hs _ List.mem_cons_self), ih _ hn.2]
    intro r hr hm
    rcases List.mem_cons.1 hm with h | h
    · exact hn.1 (List.mem_map.2 ⟨r, hr, h⟩)
    · exact hs r (List.mem_cons_of_mem _ hr) h

theorem firsts_append : ∀ (l m : List (Text × Text)) (seen : List Text), (∀ r ∈ m, r.1 ∈ seen ∨ r.1 ∈ l.map Prod.fst) →
    firsts seen (l ++ m) = firsts seen l := by
  intro l
  induction l with
  | nil =>
    intro m
    induction m with
    | nil => intro _ _; rfl
    | cons x m ih =>
      obtain ⟨k, v⟩ := x
      intro seen h
      have hk : k ∈ seen := (h _ List.mem_cons_self).resolve_right (by simp)
      change firsts seen ((k, v) :: m) = _
      unfold firsts
      rw [if_pos hk]
      exact ih seen fun r hr => h r (List.mem_cons_of_mem _ hr)
  | cons x l ih =>
    obtain ⟨k, v⟩ := x
    intro m seen h
    rw [List.cons_append]
    unfold firsts
    by_cases hk : k ∈ seen
    · rw [if_pos hk, if_pos hk, ih m seen]
      intro r hr
      rcases h r hr with h1 | h1
      · exact .inl h1
      · rcases List.mem_cons.1 h1 with h2 | h2
        · exact .inl (by rw [h2]; exact hk)
        · exact .inr h2
    · rw [if_neg hk, if_neg hk, ih m (k :: seen)]
      intro r hr
      rcases h r hr with h1 | h1
      · exact .inl (List.mem_cons_of_mem _ h1)
      · rcases List.mem_cons.1 h1 with h2 | h2
        · exact .inl (by rw [h2]; exact List.mem_cons_self)
        · exact .inr h2

theorem firstRow_filter (q : Text → Bool) (l : List (Text × Text)) (r : Text × Text) :
    FirstRow (l.filter fun x => q x.1) r ↔ FirstRow l r ∧ q r.1 = true := by
  have h1 := mem_firsts r (l.filter fun x => q x.1) []
  have h2 := mem_firsts r l []
  rw [← firsts_filter q l []] at h1
  simp only [List.not_mem_nil, not_false_iff, true_and] at h1 h2
  rw [← h1, List.mem_filter, h2]

theorem mem_binningRows (config : List (Text × Text)) (r : Text × Text) :
    r ∈ binningRows config ↔ FirstRow config r ∧ "binning".toList <:+: r.1 := by
  unfold binningRows
  rw [mem_firsts, firstRow_filter (fun k => has "binning".toList k), has_iff]
  simp

theorem words_space (s : Text) : words (' ' :: s) = words s := by
  unfold words
  have h := List.splitOnP_append_cons (p := fun c : Char => c == ' ') [] s (sep := ' ') (by decide)
  rw [List.nil_append] at h
  rw [h]
  simp

theorem words_spaces {s0 : Text} (h : Spaces s0) (s : Text) : words (s0 ++ s) = words s := by
  induction s0 with
  | nil => rfl
  | cons c s0 ih =>
    rw [h c List.mem_cons_self, List.cons_append, words_space]
    exact ih fun d hd => h d (List.mem_cons_of_mem _ hd)

theorem words_word {x rest : Text} (h : Word x) (hr : rest = [] ∨ ∃ t, rest = ' ' :: t) : words (x ++ rest) = x :: words rest := by
  have hx : ∀ c ∈ x, (c == ' ') = false := by
    intro c hc
    rw [beq_eq_false_iff_ne]
    rintro rfl
    exact h.2 hc
  have h1 : List.splitOnP (fun c : Char => c == ' ') x = [x] := List.splitOnP_eq_singleton hx
  rcases hr with rfl | ⟨t, rfl⟩
  · rw [List.append_nil]
    unfold words
    rw [h1]
    simp [h.1]
  · rw [words_space]
    unfold words
    rw [List.splitOnP_append_cons x t (by decide), h1]
    simp [h.1]

theorem first_word (v : Text) : Spaces v ∨ ∃ s0 x rest, v = s0 ++ x ++ rest ∧ Spaces s0 ∧ Word x ∧ (rest = [] ∨ ∃ t, rest = ' ' :: t) := by
  induction v with
  | nil => exact Or.inl fun c h => by cases h
  | cons c v ih =>
    by_cases hc : c = ' '
    · subst hc
      rcases ih with h | ⟨s0, x, rest, rfl, h0, h1, h2⟩
      · refine Or.inl fun d hd => ?_
        rcases List.mem_cons.1 hd with rfl | hd
        · rfl
        · exact h d hd
      · refine Or.inr ⟨' ' :: s0, x, rest, rfl, fun d hd => ?_, h1, h2⟩
        rcases List.mem_cons.1 hd with rfl | hd
        · rfl
        · exact h0 d hd
    · rcases ih with h | ⟨s0, x, rest, rfl, h0, h1, h2⟩
      · refine Or.inr ⟨[], [c], v, rfl, (fun d hd => by cases hd), ⟨by simp, by simpa using fun h => hc h.symm⟩, ?_⟩
        cases v with
        | nil => exact Or.inl rfl
        | cons d v => exact Or.inr ⟨v, by rw [h d List.mem_cons_self]⟩
      · cases s0 with
        | nil =>
          refine Or.inr ⟨[], c :: x, rest, rfl, (fun d hd => by cases hd), ⟨by simp, ?_⟩, h2⟩
          intro hm
          rcases List.mem_cons.1 hm with h | h
          · exact hc h.symm
          · exact h1.2 h
        | cons d s0 =>
          refine Or.inr ⟨[], [c], (d :: s0) ++ x ++ rest, rfl, (fun d hd => by cases hd), ⟨by simp, by simpa using fun h => hc h.symm⟩, Or.inr ⟨s0 ++ x ++ rest, ?_⟩⟩
          rw [h0 d List.mem_cons_self]; rfl

theorem words_nil {v : Text} (h : Spaces v) : words v = [] := by
  have := words_spaces h []
  rw [List.append_nil] at this
  rw [this]
  rfl

/-- Two words at least: the text starts with them. -/
theorem words_two (v x u : Text) : (∃ r, words v = x :: u :: r) ↔
    ∃ s0 s1 rest, v = s0 ++ x ++ s1 ++ u ++ rest ∧ Spaces s0 ∧ Word x ∧ Spaces s1 ∧ s1 ≠ [] ∧ Word u ∧ (rest = [] ∨ ∃ t, rest = ' ' :: t) := by
  constructor
  · rintro ⟨r, h⟩
    rcases first_word v with h0 | ⟨s0, x', rest, rfl, h1, h2, h3⟩
    · rw [words_nil h0] at h; cases h
    · rw [List.append_assoc, words_spaces h1, words_word h2 h3] at h
      obtain ⟨e1, h'⟩ := List.cons.inj h
      subst e1
      rcases first_word rest with h0 | ⟨s1, u', rest', e2, k1, k2, k3⟩
      · rw [words_nil h0] at h'; cases h'
      · subst e2
        rw [List.append_assoc, words_spaces k1, words_word k2 k3] at h'
        obtain ⟨e3, _⟩ := List.cons.inj h'
        subst e3
        refine ⟨s0, s1, rest', by simp, h1, h2, k1, ?_, k2, k3⟩
        rintro rfl
        rcases h3 with h3 | ⟨t, h3⟩
        · exact k2.1 (List.append_eq_nil_iff.1 (List.append_eq_nil_iff.1 h3).1).2
        · cases u' with
          | nil => exact k2.1 rfl
          | cons d u' =>
            have : d = ' ' := by simpa using (List.cons.inj h3).1
            subst this
            exact k2.2 List.mem_cons_self
  · rintro ⟨s0, s1, rest, rfl, h1, h2, h3, h4, h5, h6⟩
    refine ⟨words rest, ?_⟩
    rw [List.append_assoc, List.append_assoc, List.append_assoc, words_spaces h1, words_word h2, words_spaces h3, words_word h5 h6]
    cases s1 with
    | nil => exact absurd rfl h4
    | cons c s1 => exact Or.inr ⟨s1 ++ (u ++ rest), by rw [h3 c List.mem_cons_self]; rfl⟩

theorem isWidth_words (float unit : Text → Option ℚ) (v : Text) (w : ℚ) :
    IsWidth float unit v w ↔ ∃ x u rest a b, words v = x :: u :: rest ∧ float x = some a ∧ unit u = some b ∧ w = a * b := by
  constructor
  · rintro ⟨s0, x, s1, u, rest, a, b, h1, h2, h3, h4, h5, h6, h7, h8, h9, h10⟩
    obtain ⟨r, hr⟩ := (words_two v x u).2 ⟨s0, s1, rest, h1, h2, h3, h4, h5, h6, h7⟩
    exact ⟨x, u, r, a, b, hr, h8, h9, h10⟩
  · rintro ⟨x, u, r, a, b, hr, h8, h9, h10⟩
    obtain ⟨s0, s1, rest, h1, h2, h3, h4, h5, h6, h7⟩ := (words_two v x u).1 ⟨r, hr⟩
    exact ⟨s0, x, s1, u, rest, a, b, h1, h2, h3, h4, h5, h6, h7, h8, h9, h10⟩

theorem width_iff (float unit : Text → Option ℚ) (n : Nat) (v : Text) (w : ℚ) :
    width float unit n v = .ok w ↔ IsWidth float unit v w := by
  rw [isWidth_words]
  unfold width
  cases hw : words v with
  | nil =>
    by_cases hn : n ≤ 1 <;> simp [hn]
  | cons x rest =>
    cases hx : float x with
    | none => simp [hx]
    | some a =>
      cases rest with
      | nil => by_cases hn : n ≤ 1 <;> simp [hx, hn]
      | cons u rest =>
        cases hu : unit u with
        | none => simp [hx, hu]
        | some b => simp [hx, hu, eq_comm]

theorem binRow_iff (float unit : Text → Option ℚ) (n : Nat) (r : Text × Text) (b : Text × ℚ) :
    binRow float unit n r = .ok b ↔ b.1 = McInfo.stripBinning r.1 ∧ IsWidth float unit r.2 b.2 := by
  rw [← width_iff float unit n]
  unfold binRow
  cases h : width float unit n r.2 with
  | error e => simp
  | ok w =>
    obtain ⟨b1, b2⟩ := b
    simp [eq_comm]

/-- **C108**: the widths of a simulation are those of the first row of each parameter with the word *binning*, the number times its unit, under the name of the parameter stripped, the geometries apart. -/
theorem binning_spec (float unit : Text → Option ℚ) (config : List (Text × Text)) (bins : List (Text × ℚ))
    (h : sensorBinning float unit false config = .ok bins) (name : Text) (w : ℚ) :
    (name, w) ∈ bins ↔ ∃ r, FirstRow config r ∧ "binning".toList <:+: r.1 ∧ IsWidth float unit r.2 w ∧ name = McInfo.stripBinning r.1 ∧ ¬ "Geom".toList <:+: name := by
  unfold sensorBinning at h
  change (match (binningRows config).mapM (binRow float unit (maxWords (binningRows config))) with
    | .error e => .error e
    | .ok bins => .ok (bins.filter fun b => !has "Geom".toList b.1)) = Except.ok bins at h
  cases hm : (binningRows config).mapM (binRow float unit (maxWords (binningRows config))) with
  | error e => rw [hm] at h; cases h
  | ok bs =>
    rw [hm] at h
    cases h
    have hf := (mapM_ok_iff ..).1 hm
    rw [List.mem_filter]
    constructor
    · rintro ⟨h1, h2⟩
      obtain ⟨r, hr, hrb⟩ := f2_right hf h1
      obtain ⟨h3, h4⟩ := (binRow_iff ..).1 hrb
      obtain ⟨h5, h6⟩ := (mem_binningRows ..).1 hr
      refine ⟨r, h5, h6, h4, h3, ?_⟩
      rw [← has_iff]
      simpa using h2
    · rintro ⟨r, h1, h2, h3, rfl, h4⟩
      obtain ⟨b, hb, hrb⟩ := f2_left hf ((mem_binningRows ..).2 ⟨h1, h2⟩)
      have hrb' := (binRow_iff float unit (maxWords (binningRows config)) r (McInfo.stripBinning r.1, w)).2 ⟨rfl, h3⟩
      rw [hrb] at hrb'
      cases hrb'
      refine ⟨hb, ?_⟩
      rw [← has_iff] at h4
      simpa using h4

/-- A table of units. -/
def unitEx (u : Text) : Option ℚ := if u = "ns".toList then some 1 else if u = "mus".toList then some 1000 else none

/-- Some numbers. -/
def floatEx (u : Text) : Option ℚ := if u = "1".toList then some 1 else if u = "25".toList then some 25 else if u = "-2".toList then some (-2) else none

/-- A table of a merged file. -/
def configEx : List (Text × Text) := [("seed".toList, "7".toList), ("PmtR11410_binning".toList, "25 ns".toList), ("SiPM_binning".toList, "1 mus".toList),
  ("Geom_binning".toList, "1 ns".toList), ("PmtR11410_binning".toList, "1 ns".toList)]

example : sensorBinning floatEx unitEx false configEx = .ok [("PmtR11410".toList, 25), ("SiPM".toList, 1000)] := by decide +kernel

/-- **C108**: the widths are found exactly when each parameter with the word *binning* is, the first time, a number and a unit. -/
theorem binning_works (float unit : Text → Option ℚ) (config : List (Text × Text)) :
    (∃ bins, sensorBinning float unit false config = .ok bins) ↔
      ∀ r, FirstRow config r → "binning".toList <:+: r.1 → ∃ w, IsWidth float unit r.2 w := by
  have hs : sensorBinning float unit false config = (match (binningRows config).mapM (binRow float unit (maxWords (binningRows config))) with
    | .error e => .error e
    | .ok bins => .ok (bins.filter fun b => !has "Geom".toList b.1)) := rfl
  rw [hs]
  constructor
  · rintro ⟨bins, h⟩ r h1 h2
    cases hm : (binningRows config).mapM (binRow float unit (maxWords (binningRows config))) with
    | error e => rw [hm] at h; cases h
    | ok bs =>
      obtain ⟨b, _, hb⟩ := f2_left ((mapM_ok_iff ..).1 hm) ((mem_binningRows ..).2 ⟨h1, h2⟩)
      exact ⟨b.2, ((binRow_iff ..).1 hb).2⟩
  · intro h
    obtain ⟨bs, hbs⟩ : ∃ bs, (binningRows config).mapM (binRow float unit (maxWords (binningRows config))) = .ok bs := by
      generalize maxWords (binningRows config) = n
      have hall : ∀ r ∈ binningRows config, ∃ b, binRow float unit n r = .ok b := by
        intro r hr
        obtain ⟨h1, h2⟩ := (mem_binningRows ..).1 hr
        obtain ⟨w, hw⟩ := h r h1 h2
        exact ⟨(McInfo.stripBinning r.1, w), (binRow_iff ..).2 ⟨rfl, hw⟩⟩
      generalize binningRows config = l at hall
      induction l with
      | nil => exact ⟨[], rfl⟩
      | cons x l ih =>
        obtain ⟨b, hb⟩ := hall x List.mem_cons_self
        obtain ⟨bs, hbs⟩ := ih fun r hr => hall r (List.mem_cons_of_mem _ hr)
        exact ⟨b :: bs, (mapM_ok_iff ..).2 (.cons hb ((mapM_ok_iff ..).1 hbs))⟩
    rw [hbs]
    exact ⟨_, rfl⟩

example : sensorBinning floatEx unitEx false [("Pmt_binning".toList, "25".toList)] = .error .keyError ∧
    sensorBinning floatEx unitEx false [("Pmt_binning".toList, "25 s".toList)] = .error .attributeError ∧
    sensorBinning floatEx unitEx false [("Pmt_binning".toList, "x ns".toList)] = .error .valueError ∧
    sensorBinning floatEx unitEx false [("Pmt_binning".toList, "25".toList), ("SiPM_binning".toList, "1 mus".toList)] = .error .typeError := by decide +kernel

/-- **C108**: the parameters of the files merged after the first one are ignored, whatever their values. -/
theorem merged_ignored (float unit : Text → Option ℚ) (c c' : List (Text × Text))
    (h : ∀ r ∈ c', "binning".toList <:+: r.1 → r.1 ∈ c.map Prod.fst) :
    sensorBinning float unit false (c ++ c') = sensorBinning float unit false c := by
  have : binningRows (c ++ c') = binningRows c := by
    unfold binningRows
    rw [List.filter_append, firsts_append]
    intro r hr
    obtain ⟨h1, h2⟩ := List.mem_filter.1 hr
    obtain ⟨x, hx, hxr⟩ := List.mem_map.1 (h r h1 ((has_iff ..).1 h2))
    exact .inr (List.mem_map.2 ⟨x, List.mem_filter.2 ⟨hx, by simpa only [hxr] using h2⟩, hxr⟩)
  unfold sensorBinning loadConfiguration
  simp only [Bool.false_eq_true, if_false, this]

example : sensorBinning floatEx unitEx false ([("Pmt_binning".toList, "25 ns".toList)] ++ [("Pmt_binning".toList, "nothing".toList)]) =
    .ok [("Pmt".toList, 25)] := by decide +kernel

theorem hasThen_iff (a b s : Text) : hasThen a b s = true ↔ Follows a b s := by
  unfold hasThen Follows
  rw [List.any_eq_true]
  constructor
  · rintro ⟨i, hi, h⟩
    rw [Bool.and_eq_true, decide_eq_true_eq, has_iff] at h
    obtain ⟨⟨t, ht⟩, q, r, hq⟩ := h
    refine ⟨s.take i, q, r, ?_⟩
    have h1 : s.drop (i + a.length) = t := by
      rw [← List.drop_drop, ← ht, List.drop_left]
    rw [h1] at hq
    calc s = s.take i ++ s.drop i := (List.take_append_drop i s).symm
      _ = s.take i ++ (a ++ t) := by rw [ht]
      _ = _ := by rw [← hq]; simp [List.append_assoc]
  · rintro ⟨p, q, r, rfl⟩
    refine ⟨p.length, List.mem_range.2 (by simp; omega), ?_⟩
    rw [Bool.and_eq_true, decide_eq_true_eq, has_iff]
    have h1 : (p ++ a ++ q ++ b ++ r).drop p.length = a ++ (q ++ b ++ r) := by
      simp [List.append_assoc]
    refine ⟨?_, ?_⟩
    · rw [h1]; exact List.prefix_append _ _
    · rw [← List.drop_drop, h1, List.drop_left]
      exact ⟨q, r, rfl⟩

/-- **C108**: the parameters of the files of the old format are renamed by the sensors in them, the PMTs before. -/
theorem oldKey_spec (k : Text) :
    (Follows "Pmt".toList "_binning".toList k → oldKey k = "PmtR11410_binning".toList) ∧
    (¬ Follows "Pmt".toList "_binning".toList k → Follows "SiPM".toList "_binning".toList k → oldKey k = "SiPM_binning".toList) ∧
    (¬ Follows "Pmt".toList "_binning".toList k → ¬ Follows "SiPM".toList "_binning".toList k → oldKey k = k) := by
  unfold oldKey
  rw [← hasThen_iff, ← hasThen_iff]
  refine ⟨fun h => if_pos h, fun h1 h2 => ?_, fun h1 h2 => ?_⟩
  · rw [if_neg h1, if_pos h2]
  · rw [if_neg h1, if_neg h2]

example : oldKey "/Geometry/PmtR11410/time_binning".toList = "PmtR11410_binning".toList ∧ oldKey "/Geometry/SiPMSensl/time_binning".toList = "SiPM_binning".toList ∧
    oldKey "/binning".toList = "/binning".toList := by decide

/-- **C108**: the widths of a file of the old format are those of a file of the new format with the parameters renamed. -/
theorem old_is_renamed (float unit : Text → Option ℚ) (config : List (Text × Text)) :
    sensorBinning float unit true config = sensorBinning float unit false (config.map fun r => (oldKey r.1, r.2)) := by
  have : binningRows (firsts [] (config.map fun r => (oldKey r.1, r.2))) = binningRows (config.map fun r => (oldKey r.1, r.2)) := by
    unfold binningRows
    rw [firsts_filter (fun k => has "binning".toList k), firsts_self _ _ (firsts_nodup _ _) (by simp)]
  unfold sensorBinning loadConfiguration
  simp only [Bool.false_eq_true, if_false, if_true, this]

example : sensorBinning floatEx unitEx true [("/G/PmtR11410/time_binning".toList, "25 ns".toList), ("/G/SiPMSensl/time_binning".toList, "1 mus".toList)] =
    .ok [("PmtR11410".toList, 25), ("SiPM".toList, 1000)] := by decide +kernel

theorem headFilter {q : Text × ℚ → Bool} {l : List (Text × ℚ)} {b : Text × ℚ} :
    (l.filter q).head? = some b ↔ ∃ a c, l = a ++ b :: c ∧ q b = true ∧ ∀ x ∈ a, ¬ q x = true := by
  rw [List.head?_filter, List.find?_eq_some_iff_append]
  constructor
  · rintro ⟨h1, a, c, h2, h3⟩
    exact ⟨a, c, h2, h1, fun x hx => by have := h3 x hx; simpa using this⟩
  · rintro ⟨a, c, h2, h1, h3⟩
    exact ⟨h1, a, c, h2, fun x hx => by have := h3 x hx; simpa using this⟩

theorem widthOf_iff (name : Text) (bins : List (Text × ℚ)) (w : ℚ) :
    widthOf name bins = .ok w ↔ ∃ n, FirstNamed (fun m => name <:+: m) bins (n, w) := by
  have hb : ∀ b, (bins.filter fun b => has name b.1).head? = some b ↔ FirstNamed (fun m => name <:+: m) bins b := by
    intro b
    rw [headFilter]
    simp only [has_iff]
    rfl
  unfold widthOf
  cases h : (bins.filter fun b => has name b.1).head? with
  | none =>
    refine ⟨fun h => (by cases h), ?_⟩
    rintro ⟨n, hn⟩
    rw [← hb, h] at hn
    cases hn
  | some b =>
    constructor
    · intro hw
      cases hw
      exact ⟨b.1, (hb b).1 h⟩
    · rintro ⟨n, hn⟩
      rw [← hb, h] at hn
      cases hn
      rfl

/-- **C108**: the widths of the PMTs and of the SiPMs are those of the first types with these words, when all widths are positive. -/
theorem planeWidths_spec (bins : List (Text × ℚ)) (p s : ℚ) :
    planeWidths bins = .ok (p, s) ↔ (∀ b ∈ bins, 0 < b.2) ∧ (∃ n, FirstNamed (fun m => "Pmt".toList <:+: m) bins (n, p)) ∧
      ∃ n, FirstNamed (fun m => "SiPM".toList <:+: m) bins (n, s) := by
  rw [← widthOf_iff, ← widthOf_iff]
  unfold planeWidths
  by_cases h : bins = [] ∨ ∃ b ∈ bins, b.2 ≤ 0
  · rw [if_pos h]
    refine ⟨fun h => (by cases h), ?_⟩
    rintro ⟨h1, h2, _⟩
    rcases h with rfl | ⟨b, hb, hb2⟩
    · cases h2
    · exact absurd (h1 b hb) (not_lt.2 hb2)
  · rw [if_neg h]
    have hpos : ∀ b ∈ bins, 0 < b.2 := fun b hb => not_le.1 fun hle => h (.inr ⟨b, hb, hle⟩)
    cases hp : widthOf "Pmt".toList bins with
    | error e => simp
    | ok p' =>
      cases hs : widthOf "SiPM".toList bins with
      | error e => simp
      | ok s' => simp; exact fun _ _ n w hb => hpos (n, w) hb

/-- **C108**: no widths, or one not positive, is the lack of a node; otherwise it is the lack of one of the two planes. -/
theorem planeWidths_errors (bins : List (Text × ℚ)) :
    (planeWidths bins = .error noNode ↔ bins = [] ∨ ∃ b ∈ bins, b.2 ≤ 0) ∧
    (planeWidths bins = .error .indexError ↔ bins ≠ [] ∧ (∀ b ∈ bins, 0 < b.2) ∧
      ((∀ b ∈ bins, ¬ "Pmt".toList <:+: b.1) ∨ ∀ b ∈ bins, ¬ "SiPM".toList <:+: b.1)) := by
  have hn : ∀ name : Text, (∃ w, widthOf name bins = .ok w) ∨ (widthOf name bins = .error .indexError ∧ ∀ b ∈ bins, ¬ name <:+: b.1) := by
    intro name
    unfold widthOf
    cases h : (bins.filter fun b => has name b.1).head? with
    | some b => exact .inl ⟨_, rfl⟩
    | none =>
      refine .inr ⟨rfl, fun b hb hc => ?_⟩
      rw [List.head?_eq_none_iff, List.filter_eq_nil_iff] at h
      exact h b hb ((has_iff ..).2 hc)
  have hw : ∀ (name : Text) (w : ℚ), widthOf name bins = .ok w → ¬ ∀ b ∈ bins, ¬ name <:+: b.1 := by
    intro name w hw hall
    obtain ⟨n, a, c, hb, hc, _⟩ := (widthOf_iff ..).1 hw
    exact hall _ (by rw [hb]; simp) hc
  by_cases h : bins = [] ∨ ∃ b ∈ bins, b.2 ≤ 0
  · have : planeWidths bins = .error noNode := by unfold planeWidths; rw [if_pos h]
    rw [this]
    refine ⟨⟨fun _ => h, fun _ => rfl⟩, fun h => (by cases h), ?_⟩
    rintro ⟨h1, h2, _⟩
    rcases h with h | ⟨b, hb, hb2⟩
    · exact absurd h h1
    · exact absurd (h2 b hb) (not_lt.2 hb2)
  · have hpos : ∀ b ∈ bins, 0 < b.2 := fun b hb => not_le.1 fun hle => h (.inr ⟨b, hb, hle⟩)
    have hne : bins ≠ [] := fun h' => h (.inl h')
    unfold planeWidths
    rw [if_neg h]
    rcases hn "Pmt".toList with ⟨p, hp⟩ | ⟨hp, hp2⟩
    · rcases hn "SiPM".toList with ⟨s, hs⟩ | ⟨hs, hs2⟩
      · rw [hp, hs]
        refine ⟨⟨fun h => (by cases h), fun h' => absurd h' h⟩, fun h => (by cases h), ?_⟩
        rintro ⟨_, _, h3 | h3⟩
        · exact absurd h3 (hw _ _ hp)
        · exact absurd h3 (hw _ _ hs)
      · rw [hp, hs]
        exact ⟨⟨fun h => (by cases h), fun h' => absurd h' h⟩, fun _ => ⟨hne, hpos, .inr hs2⟩, fun _ => rfl⟩
    · rw [hp]
      exact ⟨⟨fun h => (by cases h), fun h' => absurd h' h⟩, fun _ => ⟨hne, hpos, .inl hp2⟩, fun _ => rfl⟩

example : planeWidths [("SiPM".toList, 1000), ("PmtR11410".toList, 25), ("SiPMb".toList, 7)] = .ok (25, 1000) ∧
    planeWidths [("SiPM".toList, 1000), ("PmtR11410".toList, 0)] = .error noNode ∧
    planeWidths [("SiPM".toList, 1000)] = .error .indexError := by decide +kernel

/-- **C108**: the widths of a set of files are those of the first one with widths; those before must lack them. -/
theorem firstWidths_spec (float unit : Text → Option ℚ) (files : List McFile) (w : ℚ × ℚ) :
    firstWidths float unit files = .ok w ↔ ∃ a f b, files = a ++ f :: b ∧ fileWidths float unit f = .ok w ∧
      ∀ x ∈ a, fileWidths float unit x = .error noNode := by
  induction files with
  | nil =>
    refine ⟨fun h => (by cases h), ?_⟩
    rintro ⟨a, f, b, h, _⟩
    simp at h
  | cons g files ih =>
    unfold firstWidths
    cases hg : fileWidths float unit g with
    | ok w' =>
      constructor
      · intro h
        cases h
        exact ⟨[], g, files, rfl, hg, by simp⟩
      · rintro ⟨a, f, b, h, h1, h2⟩
        cases a with
        | nil => cases h; rw [hg] at h1; exact h1
        | cons y a =>
          obtain ⟨rfl, _⟩ := List.cons.inj h
          have := h2 g List.mem_cons_self
          rw [hg] at this
          cases this
    | error e =>
      by_cases he : e = noNode
      · simp only [he, if_true]
        rw [ih]
        constructor
        · rintro ⟨a, f, b, rfl, h1, h2⟩
          refine ⟨g :: a, f, b, rfl, h1, ?_⟩
          intro x hx
          rcases List.mem_cons.1 hx with rfl | hx
          · rw [hg, he]
          · exact h2 x hx
        · rintro ⟨a, f, b, h, h1, h2⟩
          cases a with
          | nil => cases h; rw [hg] at h1; cases h1
          | cons y a =>
            obtain ⟨_, rfl⟩ := List.cons.inj h
            exact ⟨a, f, b, rfl, h1, fun x hx => h2 x (List.mem_cons_of_mem _ hx)⟩
      · simp only [he, if_false]
        refine ⟨fun h => (by cases h), ?_⟩
        rintro ⟨a, f, b, h, h1, h2⟩
        cases a with
        | nil => cases h; rw [hg] at h1; cases h1
        | cons y a =>
          obtain ⟨rfl, _⟩ := List.cons.inj h
          have := h2 g List.mem_cons_self
          rw [hg] at this
          cases this
          exact absurd rfl he

theorem binning_no_node (float unit : Text → Option ℚ) (old : Bool) (config : List (Text × Text)) :
    sensorBinning float unit old config ≠ .error noNode := by
  unfold sensorBinning
  cases hm : (binningRows (loadConfiguration old config)).mapM (binRow float unit (maxWords (binningRows (loadConfiguration old config)))) with
  | ok bs => intro h; cases h
  | error e =>
    intro h
    obtain ⟨r, _, hr⟩ := mapM_error_mem hm
    have he : e = noNode := by simpa using h
    subst he
    unfold binRow width at hr
    cases hw : (words r.2)[0]? with
    | none =>
      simp only [hw] at hr
      by_cases hn : maxWords (binningRows (loadConfiguration old config)) ≤ 1
      · simp only [hn, if_true] at hr; cases hr
      · simp only [hn, if_false] at hr; cases hr
    | some a =>
      simp only [hw] at hr
      cases hx : float a with
      | none => simp only [hx] at hr; cases hr
      | some x =>
        simp only [hx] at hr
        cases hw1 : (words r.2)[1]? with
        | none =>
          simp only [hw1] at hr
          by_cases hn : maxWords (binningRows (loadConfiguration old config)) ≤ 1
          · simp only [hn, if_true] at hr; cases hr
          · simp only [hn, if_false] at hr; cases hr
        | some u =>
          simp only [hw1] at hr
          cases hu : unit u with
          | none => simp only [hu] at hr; cases hr
          | some y => simp only [hu] at hr; cases hr

/-- **C108**: a file lacks the widths when it has no configuration, or no widths in it, or one that is not positive. -/
theorem fileWidths_lacks (float unit : Text → Option ℚ) (f : McFile) :
    fileWidths float unit f = .error noNode ↔ f.config = none ∨ ∃ bins, fileBinning float unit f = .ok bins ∧ (bins = [] ∨ ∃ b ∈ bins, b.2 ≤ 0) := by
  have hu : fileBinning float unit f ≠ .error noNode ∨ f.config = none := by
    cases hc : f.config with
    | none => exact .inr rfl
    | some c =>
      left
      unfold fileBinning
      rw [hc]
      exact binning_no_node float unit f.old c
  unfold fileWidths
  cases h : fileBinning float unit f with
  | error e =>
    constructor
    · intro he
      cases he
      exact .inl (hu.resolve_left fun hc => hc h)
    · rintro (hc | ⟨bins, hb, _⟩)
      · unfold fileBinning at h
        rw [hc] at h
        cases h
        rfl
      · cases hb
  | ok bins =>
    change planeWidths bins = .error noNode ↔ _
    rw [(planeWidths_errors bins).1]
    constructor
    · intro h'; exact .inr ⟨bins, rfl, h'⟩
    · rintro (hc | ⟨bins', hb, h'⟩)
      · unfold fileBinning at h
        rw [hc] at h
        cases h
      · cases hb; exact h'

/-- **C108**: the lack of widths of a file is the only error that is skipped. -/
theorem firstWidths_stops (float unit : Text → Option ℚ) (a b : List McFile) (f : McFile) (e : PyErr)
    (ha : ∀ x ∈ a, fileWidths float unit x = .error noNode) (hf : fileWidths float unit f = .error e) (he : e ≠ noNode) :
    firstWidths float unit (a ++ f :: b) = .error e := by
  induction a with
  | nil =>
    change firstWidths float unit (f :: b) = _
    unfold firstWidths
    rw [hf]
    simp only [he, if_false]
  | cons x a ih =>
    rw [List.cons_append]
    unfold firstWidths
    rw [ha x List.mem_cons_self]
    simp only [if_true]
    exact ih fun y hy => ha y (List.mem_cons_of_mem _ hy)

/-- Three files: without configuration, with it, and with other widths. -/
def filesEx : List McFile := [⟨false, none, [], []⟩, ⟨false, some configEx, [], []⟩,
  ⟨false, some [("Pmt_binning".toList, "1 ns".toList), ("SiPM_binning".toList, "1 ns".toList)], [], []⟩]

/-- Not the widths of each file: those of a later file with others are ignored; and a file whose widths cannot be read stops the search. -/
example : firstWidths floatEx unitEx filesEx = .ok (25, 1000) ∧
    firstWidths floatEx unitEx (⟨false, some [("SiPM_binning".toList, "1 ns".toList)], [], []⟩ :: filesEx) = .error .indexError := by decide +kernel

theorem firstRow_unique {c : List (Text × Text)} {r r' : Text × Text} (h : FirstRow c r) (h' : FirstRow c r') (he : r.1 = r'.1) : r = r' := by
  have h1 := (mem_firsts r c []).2 ⟨by simp, h⟩
  have h2 := (mem_firsts r' c []).2 ⟨by simp, h'⟩
  exact List.inj_on_of_nodup_map (firsts_nodup c []) h1 h2 he

/-- The names of the widths are different when the names of the types are not damaged. -/
theorem clean_nodup {float unit : Text → Option ℚ} {config : List (Text × Text)} {bins : List (Text × ℚ)} (hc : CleanConfig config)
    (h : sensorBinning float unit false config = .ok bins) : (bins.map Prod.fst).Nodup := by
  unfold sensorBinning at h
  change (match (binningRows config).mapM (binRow float unit (maxWords (binningRows config))) with
    | .error e => .error e
    | .ok bins => .ok (bins.filter fun b => !has "Geom".toList b.1)) = Except.ok bins at h
  cases hm : (binningRows config).mapM (binRow float unit (maxWords (binningRows config))) with
  | error e => rw [hm] at h; cases h
  | ok bs =>
    rw [hm] at h
    cases h
    have hf := (mapM_ok_iff ..).1 hm
    clear hm
    refine List.Nodup.sublist (List.Sublist.map _ List.filter_sublist) ?_
    have hk : ((binningRows config).map Prod.fst).Nodup := firsts_nodup _ _
    have hcl : ∀ r ∈ binningRows config, ∃ n, CleanName n ∧ r.1 = n ++ "_binning".toList := by
      intro r hr
      obtain ⟨⟨a, b, hab, _⟩, h2⟩ := (mem_binningRows ..).1 hr
      exact hc r (by rw [hab]; simp) h2
    generalize maxWords (binningRows config) = n at hf
    generalize binningRows config = l at hf hk hcl
    induction hf with
    | nil => exact List.nodup_nil
    | @cons r b l bs hrb hf ih =>
      rw [List.map_cons, List.nodup_cons] at hk ⊢
      refine ⟨?_, ih hk.2 fun r hr => hcl r (List.mem_cons_of_mem _ hr)⟩
      intro hm
      obtain ⟨b', hb', he⟩ := List.mem_map.1 hm
      obtain ⟨r', hr', hrb'⟩ := f2_right hf hb'
      obtain ⟨m, hm1, hm2⟩ := hcl r List.mem_cons_self
      obtain ⟨m', hm1', hm2'⟩ := hcl r' (List.mem_cons_of_mem _ hr')
      rw [((binRow_iff ..).1 hrb).1, ((binRow_iff ..).1 hrb').1, hm2, hm2', McInfo.strip_binning_partial _ hm1.ne hm1.head hm1.last,
        McInfo.strip_binning_partial _ hm1'.ne hm1'.head hm1'.last] at he
      exact hk.1 (List.mem_map.2 ⟨r', hr', by rw [hm2, hm2', he]⟩)

/-- **C108**: in a clean configuration, the width of a type is that of its parameter. -/
theorem clean_binning {float unit : Text → Option ℚ} {config : List (Text × Text)} {bins : List (Text × ℚ)} (hc : CleanConfig config)
    (h : sensorBinning float unit false config = .ok bins) (name : Text) (w : ℚ) :
    (name, w) ∈ bins ↔ CleanName name ∧ ∃ v, FirstRow config (name ++ "_binning".toList, v) ∧ IsWidth float unit v w := by
  rw [binning_spec float unit config bins h]
  constructor
  · rintro ⟨⟨k, v⟩, ⟨a, b, hab, hfr⟩, h2, h3, rfl, h5⟩
    obtain ⟨n, hn, he⟩ := hc (k, v) (by rw [hab]; simp) h2
    change k = _ at he
    subst he
    change CleanName (McInfo.stripBinning (n ++ _)) ∧ _
    rw [McInfo.strip_binning_partial n hn.ne hn.head hn.last]
    exact ⟨hn, v, ⟨a, b, hab, hfr⟩, h3⟩
  · rintro ⟨hn, v, hr, hw⟩
    refine ⟨_, hr, ⟨name ++ "_".toList, [], by simp⟩, hw, ?_, hn.geom⟩
    exact (McInfo.strip_binning_partial name hn.ne hn.head hn.last).symm

example : CleanName "SiPM".toList ∧ CleanName "PmtR11410".toList := by
  constructor <;> exact ⟨by decide, by decide, by decide, by decide⟩

/-- **C108**: in a file of the 2020 format with a clean configuration, the time of each row of the response is its bin times the width of the type of its sensor. -/
theorem response_times (float unit : Text → Option ℚ) (f : McFile) (config : List (Text × Text)) (ids : Option (List Nat)) (run : Option Nat)
    (hold : f.old = false) (hcfg : f.config = some config) (hc : CleanConfig config)
    (hw : ∀ r, FirstRow config r → "binning".toList <:+: r.1 → ∃ w, IsWidth float unit r.2 w)
    (hp : (f.positions.map Prod.fst).Nodup) (hin : ∀ r ∈ f.response, r.sensor ∈ f.positions.map Prod.fst) :
    ∃ rows, loadResponse float unit f ids run = .ok rows ∧
      List.Forall₂ (fun (r : McInfo.SnsRow) (t : McInfo.TimeRow) => t.event = r.event ∧ t.sensor = r.sensor ∧ t.charge = r.charge ∧
        ∃ name, (r.sensor, name) ∈ f.positions ∧ t.name = String.ofList name ∧
          ((∃ v w, CleanName name ∧ FirstRow config (name ++ "_binning".toList, v) ∧ IsWidth float unit v w ∧ t.time = some (w * r.bin)) ∨
            ((¬ (CleanName name ∧ ∃ v, FirstRow config (name ++ "_binning".toList, v))) ∧ t.time = none))) f.response rows := by
  obtain ⟨bins, hb⟩ := (binning_works float unit config).2 hw
  have hfb : fileBinning float unit f = .ok bins := by unfold fileBinning; rw [hcfg, hold]; exact hb
  refine ⟨times f.response bins f.positions, ?_, ?_⟩
  · unfold loadResponse newResponse
    rw [hold, hfb]
    rfl
  · have hinj : Function.Injective String.ofList := fun a b h => by simpa using congrArg String.toList h
    have hn : ((bins.map fun b => (String.ofList b.1, b.2)).map Prod.fst).Nodup := by
      rw [List.map_map]
      have := List.Nodup.map hinj (clean_nodup hc hb)
      rwa [List.map_map] at this
    have hpos : ((f.positions.map fun x => (x.1, String.ofList x.2)).map Prod.fst) = f.positions.map Prod.fst := by
      rw [List.map_map]; rfl
    have h := McInfo.times_of_bins f.response (bins.map fun b => (String.ofList b.1, b.2)) (f.positions.map fun x => (x.1, String.ofList x.2)) hn
      (by rw [hpos]; exact hp) (by rw [hpos]; exact hin)
    refine List.Forall₂.imp ?_ h
    rintro r t ⟨h1, h2, h3, h4, h5⟩
    refine ⟨h1, h2, h3, ?_⟩
    obtain ⟨⟨s, name⟩, hx, hxe⟩ := List.mem_map.1 h4
    obtain ⟨hs, hname⟩ := Prod.mk.inj hxe
    change s = _ at hs
    change String.ofList name = _ at hname
    subst hs
    refine ⟨name, hx, hname.symm, ?_⟩
    rcases h5 with ⟨w, hw1, hw2⟩ | ⟨hno, ht⟩
    · obtain ⟨⟨m, w'⟩, hm, hme⟩ := List.mem_map.1 hw1
      obtain ⟨e1, e2⟩ := Prod.mk.inj hme
      change w' = w at e2
      subst e2
      have : m = name := hinj (by rw [hname]; exact e1)
      subst this
      obtain ⟨a, v, b, c⟩ := (clean_binning hc hb m w').1 hm
      exact .inl ⟨v, w', a, b, c, hw2⟩
    · refine .inr ⟨?_, ht⟩
      rintro ⟨hcl, v, hv⟩
      obtain ⟨w, hw⟩ := hw _ hv ⟨name ++ "_".toList, [], by simp⟩
      have := (clean_binning hc hb name w).2 ⟨hcl, v, hv, hw⟩
      apply hno
      rw [← hname, List.map_map]
      exact List.mem_map.2 ⟨(name, w), this, rfl⟩

/-- A file with two sensors. -/
def fileEx : McFile := ⟨false, some configEx, [⟨0, 1000, 3, 1⟩, ⟨0, 2, 4, 2⟩, ⟨1, 7, 1, 1⟩], [(2, "PmtR11410".toList), (1000, "SiPM".toList), (7, "Other".toList)]⟩

example : loadResponse floatEx unitEx fileEx none none =
    .ok [⟨0, 1000, "SiPM", some 3000, 1⟩, ⟨0, 2, "PmtR11410", some 100, 2⟩, ⟨1, 7, "Other", none, 1⟩] := by decide +kernel

/-- **C108**: in a file of the old format the PMTs are those of the database; all other sensors have the first width that is not of a PMT. -/
theorem old_response_times (float unit : Text → Option ℚ) (f : McFile) (bins : List (Text × ℚ)) (ids : List Nat) (run : Nat) (p s : Text × ℚ)
    (hold : f.old = true) (hr : run ≠ 0) (hb : fileBinning float unit f = .ok bins) (hn : (bins.map Prod.fst).Nodup)
    (hpm : FirstNamed (fun m => "Pmt".toList <:+: m) bins p) (hsm : FirstNamed (fun m => ¬ "Pmt".toList <:+: m) bins s)
    (hp : (f.positions.map Prod.fst).Nodup) (hin : ∀ r ∈ f.response, r.sensor ∈ f.positions.map Prod.fst) :
    ∃ rows, loadResponse float unit f (some ids) (some run) = .ok rows ∧
      List.Forall₂ (fun (r : McInfo.SnsRow) (t : McInfo.TimeRow) => t.event = r.event ∧ t.sensor = r.sensor ∧ t.charge = r.charge ∧
        (r.sensor ∈ ids → t.name = String.ofList p.1 ∧ t.time = some (p.2 * r.bin)) ∧
        (r.sensor ∉ ids → t.name = String.ofList s.1 ∧ t.time = some (s.2 * r.bin))) f.response rows := by
  have h1 : (bins.filter fun b => has "Pmt".toList b.1).head? = some p := by
    rw [headFilter]; simp only [has_iff]; exact hpm
  have h2 : (bins.filter fun b => !has "Pmt".toList b.1).head? = some s := by
    obtain ⟨a, c, e1, e2, e3⟩ := hsm
    rw [headFilter]
    refine ⟨a, c, e1, ?_, fun x hx => ?_⟩
    · have : ¬ has "Pmt".toList s.1 = true := fun hh => e2 ((has_iff ..).1 hh)
      simpa using this
    · have := not_not.1 (e3 x hx)
      rw [(has_iff ..).2 this]
      simp
  have hpb : p ∈ bins := by obtain ⟨a, c, e, _⟩ := hpm; rw [e]; simp
  have hsb : s ∈ bins := by obtain ⟨a, c, e, _⟩ := hsm; rw [e]; simp
  obtain ⟨k, rfl⟩ := Nat.exists_eq_succ_of_ne_zero hr
  refine ⟨times f.response bins (f.positions.map fun x => (x.1, if x.1 ∈ ids then p.1 else s.1)), ?_, ?_⟩
  · unfold loadResponse oldResponse oldPositions
    rw [hold]
    simp only [if_true, hb, h1, h2]
    by_cases hnil : f.positions = [] <;> simp [hnil]
  · have hinj : Function.Injective String.ofList := fun a b h => by simpa using congrArg String.toList h
    have hnb : ((bins.map fun b => (String.ofList b.1, b.2)).map Prod.fst).Nodup := by
      rw [List.map_map]
      have := List.Nodup.map hinj hn
      rwa [List.map_map] at this
    have hpos : (((f.positions.map fun x => (x.1, if x.1 ∈ ids then p.1 else s.1)).map fun x => (x.1, String.ofList x.2)).map Prod.fst) = f.positions.map Prod.fst := by
      rw [List.map_map, List.map_map]; rfl
    have h := McInfo.times_of_bins f.response (bins.map fun b => (String.ofList b.1, b.2))
      ((f.positions.map fun x => (x.1, if x.1 ∈ ids then p.1 else s.1)).map fun x => (x.1, String.ofList x.2)) hnb
      (by rw [hpos]; exact hp) (by rw [hpos]; exact hin)
    refine List.Forall₂.imp ?_ h
    rintro r t ⟨g1, g2, g3, g4, g5⟩
    have hname : t.name = String.ofList (if r.sensor ∈ ids then p.1 else s.1) := by
      rw [List.map_map] at g4
      obtain ⟨x, hx, hxe⟩ := List.mem_map.1 g4
      obtain ⟨e1, e2⟩ := Prod.mk.inj hxe
      change x.1 = r.sensor at e1
      rw [← e2, ← e1]
    have key : ∀ b ∈ bins, t.name = String.ofList b.1 → t.time = some (b.2 * r.bin) := by
      intro b hbm he
      rcases g5 with ⟨w, hw1, hw2⟩ | ⟨hno, _⟩
      · obtain ⟨c, hc, hce⟩ := List.mem_map.1 hw1
        obtain ⟨e1, e2⟩ := Prod.mk.inj hce
        have : c = b := List.inj_on_of_nodup_map hn hc hbm (hinj (by rw [e1, he]))
        rw [hw2, ← e2, this]
      · rw [List.map_map] at hno
        exact absurd (List.mem_map.2 ⟨b, hbm, he.symm⟩) hno
    refine ⟨g1, g2, g3, fun hi => ?_, fun hi => ?_⟩
    · rw [if_pos hi] at hname
      exact ⟨hname, key p hpb hname⟩
    · rw [if_neg hi] at hname
      exact ⟨hname, key s hsb hname⟩

/-- An old file. -/
def oldEx : McFile := ⟨true, some [("/G/PmtR11410/time_binning".toList, "25 ns".toList), ("/G/SiPMSensl/time_binning".toList, "1 mus".toList)],
  [⟨0, 1000, 3, 1⟩, ⟨0, 2, 4, 2⟩], [(2, []), (1000, [])]⟩

example : loadResponse floatEx unitEx oldEx (some [0, 1, 2]) (some 5) =
    .ok [⟨0, 1000, "SiPM", some 3000, 1⟩, ⟨0, 2, "PmtR11410", some 100, 2⟩] := by decide +kernel

/-- **C108**: a file of the old format needs a database and a run number, and 0 is not one. -/
theorem old_needs_run (float unit : Text → Option ℚ) (f : McFile) (ids : Option (List Nat)) (run : Option Nat) (hold : f.old = true)
    (h : ids = none ∨ run = none ∨ run = some 0) : loadResponse float unit f ids run = .error .assertion := by
  unfold loadResponse oldResponse
  rw [hold]
  rcases h with rfl | rfl | rfl
  · rfl
  · cases ids <;> rfl
  · cases ids <;> rfl

example : loadResponse floatEx unitEx oldEx (some [0, 1, 2]) (some 0) = .error .assertion := by decide +kernel

end Verif.Binning
