import Verif.Spec.Selection
/-!
# C76: selection of krypton events
-/
namespace Verif.Selection

theorem nunique_eq (df : List Row) : nunique df = numEvents df := by
  rw [nunique, numEvents, List.card_toFinset]

theorem nunique_eq_zero {df : List Row} : nunique df = 0 ↔ df = [] := by
  rw [nunique_eq, numEvents, Finset.card_eq_zero, List.toFinset_eq_empty_iff, List.map_eq_nil_iff]

theorem inside_some {v : Option ℚ} {lo hi : ℚ} : inside v (some lo) (some hi) = true ↔ Between lo v hi := by
  cases v <;> simp [inside, Between]

theorem inside_band {c : Cuts} {r : Row} : inside (r.zrms.map (· ^ 2)) (r.dt.map c.bandLow) (r.dt.map c.bandUpp) = true ↔ InBand c r := by
  cases h1 : r.zrms <;> cases h2 : r.dt <;> simp [inside, InBand, h1, h2]

theorem cut_nil (col low high : Row → Option ℚ) : cut col low high [] = .error .zeroDivision := rfl

theorem cut_ok (col low high : Row → Option ℚ) {df : List Row} (h : df ≠ []) :
    cut col low high df = .ok (df.filter fun r => inside (col r) (low r) (high r), (nunique (df.filter fun r => inside (col r) (low r) (high r)) : ℚ) / nunique df) := by
  rw [cut, eff, if_neg (mt nunique_eq_zero.1 h)]
  rfl

/-- The rows of events with one time. -/
def singles (df : List Row) : List Row := df.filter fun r => decide (r.event ∈ ((df.map Row.event).dedup).filter fun e => decide (countTime df e = 1))

theorem cutSingle_nil : cutSingle [] = .error .zeroDivision := rfl

theorem cutSingle_ok {df : List Row} (h : df ≠ []) : cutSingle df = .ok (singles df, (nunique (singles df) : ℚ) / nunique df) := by
  rw [cutSingle, singles, eff, if_neg (mt nunique_eq_zero.1 h)]
  rfl

theorem kept_filter (p : Row → Bool) (P : Row → Prop) (hp : ∀ r, p r = true ↔ P r) (df : List Row) : Kept P df (df.filter p) :=
  ⟨List.filter_sublist, fun r => by rw [List.mem_filter, hp]⟩

theorem mem_singles {df : List Row} {r : Row} : r ∈ singles df ↔ r ∈ df ∧ countTime df r.event = 1 := by
  rw [singles, List.mem_filter]
  simp only [List.mem_filter, List.mem_dedup, decide_eq_true_eq]
  constructor
  · rintro ⟨h1, h2, h3⟩; exact ⟨h1, h3⟩
  · rintro ⟨h1, h3⟩; exact ⟨h1, List.mem_map_of_mem h1, h3⟩

/-- The six tables before the last one. -/
def t1 (c : Cuts) (k : List Row) : List Row := k.filter fun r => inside (r.zrms.map (· ^ 2)) (r.dt.map c.bandLow) (r.dt.map c.bandUpp)
def t2 (c : Cuts) (k : List Row) : List Row := (t1 c k).filter fun r => inside r.ec (some c.xraysLow) (some c.xraysHigh)
def t3 (c : Cuts) (k : List Row) : List Row := (t2 c k).filter fun r => inside r.s2t (some c.s2tLow) (some c.s2tHigh)
def t4 (c : Cuts) (k : List Row) : List Row := singles (t3 c k)
def t5 (c : Cuts) (k : List Row) : List Row := (t4 c k).filter fun r => inside r.r (some 0) (some c.rMax)
def t6 (c : Cuts) (k : List Row) : List Row := (t5 c k).filter fun r => inside r.dt (some c.dtLow) (some c.dtHigh)
def t7 (c : Cuts) (k : List Row) : List Row := (t6 c k).filter fun r => inside r.nsipm (some c.nsipmLow) (some c.nsipmHigh)

theorem ne_nil_of_sublist {a b : List Row} (h : a.Sublist b) (ha : a ≠ []) : b ≠ [] := by
  rintro rfl
  exact ha (List.sublist_nil.1 h)

theorem t21 (c : Cuts) (k : List Row) : (t2 c k).Sublist (t1 c k) := List.filter_sublist
theorem t32 (c : Cuts) (k : List Row) : (t3 c k).Sublist (t2 c k) := List.filter_sublist
theorem t43 (c : Cuts) (k : List Row) : (t4 c k).Sublist (t3 c k) := List.filter_sublist
theorem t54 (c : Cuts) (k : List Row) : (t5 c k).Sublist (t4 c k) := List.filter_sublist
theorem t65 (c : Cuts) (k : List Row) : (t6 c k).Sublist (t5 c k) := List.filter_sublist
theorem t76 (c : Cuts) (k : List Row) : (t7 c k).Sublist (t6 c k) := List.filter_sublist
theorem t10 (c : Cuts) (k : List Row) : (t1 c k).Sublist k := List.filter_sublist

theorem apply_ok (c : Cuts) (k : List Row) (h6 : t6 c k ≠ []) :
    applySelections c k = .ok (t7 c k, ⟨nunique (t1 c k) / nunique k, nunique (t2 c k) / nunique (t1 c k), nunique (t4 c k) / nunique (t3 c k), nunique (t3 c k) / nunique (t2 c k),
      nunique (t5 c k) / nunique (t4 c k), nunique (t6 c k) / nunique (t5 c k), nunique (t7 c k) / nunique (t6 c k), nunique (t7 c k) / nunique k⟩) := by
  have h5 := ne_nil_of_sublist (t65 c k) h6
  have h4 := ne_nil_of_sublist (t54 c k) h5
  have h3 := ne_nil_of_sublist (t43 c k) h4
  have h2 := ne_nil_of_sublist (t32 c k) h3
  have h1 := ne_nil_of_sublist (t21 c k) h2
  have h0 := ne_nil_of_sublist (t10 c k) h1
  rw [applySelections, cut_ok _ _ _ h0]
  show (do
    let x ← cut Row.ec (fun _ => some c.xraysLow) (fun _ => some c.xraysHigh) (t1 c k)
    _) = _
  rw [cut_ok _ _ _ h1]
  show (do
    let x ← cut Row.s2t (fun _ => some c.s2tLow) (fun _ => some c.s2tHigh) (t2 c k)
    _) = _
  rw [cut_ok _ _ _ h2]
  show (do
    let x ← cutSingle (t3 c k)
    _) = _
  rw [cutSingle_ok h3]
  show (do
    let x ← cut Row.r (fun _ => some 0) (fun _ => some c.rMax) (t4 c k)
    _) = _
  rw [cut_ok _ _ _ h4]
  show (do
    let x ← cut Row.dt (fun _ => some c.dtLow) (fun _ => some c.dtHigh) (t5 c k)
    _) = _
  rw [cut_ok _ _ _ h5]
  show (do
    let x ← cut Row.nsipm (fun _ => some c.nsipmLow) (fun _ => some c.nsipmHigh) (t6 c k)
    _) = _
  rw [cut_ok _ _ _ h6]
  show (do
    let x ← eff k (t7 c k)
    _) = _
  rw [eff, if_neg (mt nunique_eq_zero.1 h0)]
  rfl

theorem apply_error (c : Cuts) (k : List Row) (h6 : t6 c k = []) : applySelections c k = .error .zeroDivision := by
  rw [applySelections]
  by_cases h0 : k = []
  · rw [h0, cut_nil]; rfl
  rw [cut_ok _ _ _ h0]
  show (do
    let x ← cut Row.ec (fun _ => some c.xraysLow) (fun _ => some c.xraysHigh) (t1 c k)
    _) = _
  by_cases h1 : t1 c k = []
  · rw [h1, cut_nil]; rfl
  rw [cut_ok _ _ _ h1]
  show (do
    let x ← cut Row.s2t (fun _ => some c.s2tLow) (fun _ => some c.s2tHigh) (t2 c k)
    _) = _
  by_cases h2 : t2 c k = []
  · rw [h2, cut_nil]; rfl
  rw [cut_ok _ _ _ h2]
  show (do
    let x ← cutSingle (t3 c k)
    _) = _
  by_cases h3 : t3 c k = []
  · rw [h3, cutSingle_nil]; rfl
  rw [cutSingle_ok h3]
  show (do
    let x ← cut Row.r (fun _ => some 0) (fun _ => some c.rMax) (t4 c k)
    _) = _
  by_cases h4 : t4 c k = []
  · rw [h4, cut_nil]; rfl
  rw [cut_ok _ _ _ h4]
  show (do
    let x ← cut Row.dt (fun _ => some c.dtLow) (fun _ => some c.dtHigh) (t5 c k)
    _) = _
  by_cases h5 : t5 c k = []
  · rw [h5, cut_nil]; rfl
  rw [cut_ok _ _ _ h5]
  show (do
    let x ← cut Row.nsipm (fun _ => some c.nsipmLow) (fun _ => some c.nsipmHigh) (t6 c k)
    _) = _
  rw [h6, cut_nil]; rfl

theorem kept_t3 (c : Cuts) (k : List Row) : Kept (Before c) k (t3 c k) := by
  refine ⟨(t32 c k).trans ((t21 c k).trans (t10 c k)), fun r => ?_⟩
  rw [t3, List.mem_filter, t2, List.mem_filter, t1, List.mem_filter, inside_some, inside_some, inside_band, Before, and_assoc, and_assoc]

/-- Exactly one element satisfies a condition. -/
theorem filter_one {α : Type} (p : α → Bool) (l : List α) (a : α) (ha : a ∈ l) (hp : p a = true) :
    (l.filter p).length = 1 ↔ ∃ pre post, l = pre ++ a :: post ∧ ∀ x ∈ pre ++ post, p x = false := by
  constructor
  · intro h
    obtain ⟨pre, post, rfl⟩ := List.append_of_mem ha
    refine ⟨pre, post, rfl, ?_⟩
    rw [List.filter_append, List.filter_cons, if_pos hp, List.length_append, List.length_cons] at h
    have h1 : pre.filter p = [] := List.eq_nil_of_length_eq_zero (by omega)
    have h2 : post.filter p = [] := List.eq_nil_of_length_eq_zero (by omega)
    rw [List.filter_eq_nil_iff] at h1 h2
    intro x hx
    rcases List.mem_append.1 hx with hx | hx
    · simpa using h1 x hx
    · simpa using h2 x hx
  · rintro ⟨pre, post, rfl, h⟩
    have h1 : pre.filter p = [] := List.filter_eq_nil_iff.2 fun x hx => by simp [h x (List.mem_append_left _ hx)]
    have h2 : post.filter p = [] := List.filter_eq_nil_iff.2 fun x hx => by simp [h x (List.mem_append_right _ hx)]
    rw [List.filter_append, List.filter_cons, if_pos hp, h1, h2]
    rfl

theorem alone_iff (c : Cuts) (k : List Row) (ht : ∀ r ∈ k, r.time ≠ none) (r : Row) (hr : r ∈ t3 c k) : countTime (t3 c k) r.event = 1 ↔ Alone c k r := by
  classical
  have hb := ((kept_t3 c k).2 r).1 hr
  have h3 : t3 c k = k.filter fun r => decide (Before c r) := by
    rw [t3, t2, t1, List.filter_filter, List.filter_filter]
    apply List.filter_congr
    intro r _
    rw [Bool.eq_iff_iff]
    rw [decide_eq_true_iff, Bool.and_eq_true, Bool.and_eq_true, inside_some, inside_some, inside_band, Before]
    tauto
  rw [countTime, h3, List.filter_filter, filter_one _ _ r hb.1 (by simpa [hb.2, Option.isSome_iff_ne_none] using ht r hb.1), Alone]
  constructor
  · rintro ⟨pre, post, rfl, h⟩
    refine ⟨pre, post, rfl, fun x hx he hbx => ?_⟩
    have := h x hx
    simp [he, hbx] at this
    exact ht x (by simp only [List.mem_append, List.mem_cons] at hx ⊢; tauto) this
  · rintro ⟨pre, post, rfl, h⟩
    refine ⟨pre, post, rfl, fun x hx => ?_⟩
    by_cases he : x.event = r.event
    · simp [h x hx he]
    · simp [he]

theorem kept_t4 (c : Cuts) (k : List Row) (ht : ∀ r ∈ k, r.time ≠ none) : Kept (fun r => Before c r ∧ Alone c k r) k (t4 c k) := by
  refine ⟨(t43 c k).trans (kept_t3 c k).1, fun r => ?_⟩
  rw [t4, mem_singles]
  constructor
  · rintro ⟨h1, h2⟩
    have := ((kept_t3 c k).2 r).1 h1
    exact ⟨this.1, this.2, (alone_iff c k ht r h1).1 h2⟩
  · rintro ⟨h1, h2, h3⟩
    have := ((kept_t3 c k).2 r).2 ⟨h1, h2⟩
    exact ⟨this, (alone_iff c k ht r this).2 h3⟩

theorem kept_t6 (c : Cuts) (k : List Row) (ht : ∀ r ∈ k, r.time ≠ none) :
    Kept (fun r => (Before c r ∧ Alone c k r) ∧ Between 0 r.r c.rMax ∧ Between c.dtLow r.dt c.dtHigh) k (t6 c k) := by
  refine ⟨(t65 c k).trans ((t54 c k).trans (kept_t4 c k ht).1), fun r => ?_⟩
  rw [t6, List.mem_filter, t5, List.mem_filter, (kept_t4 c k ht).2, inside_some, inside_some, and_assoc, and_assoc]

theorem single_events (c : Cuts) (k : List Row) (ht : ∀ r ∈ k, r.time ≠ none) : ((t4 c k).map Row.event).Nodup := by
  rw [List.nodup_iff_count_le_one]
  intro e
  by_contra hc
  push Not at hc
  have h1 : (t4 c k).countP (fun r => decide (r.event = e)) = ((t4 c k).map Row.event).count e := by
    rw [List.count, List.countP_map]
    rfl
  rw [← h1, List.countP_eq_length_filter] at hc
  obtain ⟨r, hr⟩ := List.exists_mem_of_ne_nil ((t4 c k).filter fun r => decide (r.event = e)) (by intro h; rw [h] at hc; simp at hc)
  have hre : r.event = e := by simpa using (List.mem_filter.1 hr).2
  have h2 := (mem_singles.1 (List.mem_filter.1 hr).1).2
  have h3 : ((t4 c k).filter fun r => decide (r.event = e)).length ≤ countTime (t3 c k) r.event := by
    rw [countTime, hre]
    have h4 : (t3 c k).filter (fun r => decide (r.event = e) && r.time.isSome) = (t3 c k).filter fun r => decide (r.event = e) := by
      apply List.filter_congr
      intro x hx
      have := ht x (((kept_t3 c k).2 x).1 hx).1
      simp [Option.isSome_iff_ne_none, this]
    rw [h4]
    exact ((t43 c k).filter _).length_le
  omega

/-- **C76** The rows selected are, in their order, those that meet the first requirements (diffusion band, energy, time of the S2), are the only ones of their event that do so, and meet the last ones (radius,
drift time, number of SiPMs); in particular each event is selected at most once. -/
theorem selected_rows (c : Cuts) (k : List Row) (ht : ∀ r ∈ k, r.time ≠ none) (out : List Row) (e : Effs) (h : applySelections c k = .ok (out, e)) :
    Kept (fun r => (Before c r ∧ Alone c k r) ∧ After c r) k out ∧ (out.map Row.event).Nodup := by
  have h6 : t6 c k ≠ [] := by
    intro h6
    rw [apply_error c k h6] at h
    cases h
  rw [apply_ok c k h6] at h
  obtain ⟨rfl, _⟩ := Prod.mk.inj (Except.ok.inj h)
  refine ⟨⟨(t76 c k).trans (kept_t6 c k ht).1, fun r => ?_⟩, (single_events c k ht).sublist (((t76 c k).trans ((t65 c k).trans (t54 c k))).map _)⟩
  rw [t7, List.mem_filter, (kept_t6 c k ht).2, inside_some]
  simp only [After]
  tauto

/-- **C76** The selection succeeds if and only if some row is left before the cut in the number of SiPMs; otherwise, it raises `ZeroDivisionError`. -/
theorem selection_succeeds (c : Cuts) (k : List Row) (ht : ∀ r ∈ k, r.time ≠ none) :
    ((∃ r ∈ k, (Before c r ∧ Alone c k r) ∧ Between 0 r.r c.rMax ∧ Between c.dtLow r.dt c.dtHigh) → ∃ out e, applySelections c k = .ok (out, e)) ∧
    ((¬ ∃ r ∈ k, (Before c r ∧ Alone c k r) ∧ Between 0 r.r c.rMax ∧ Between c.dtLow r.dt c.dtHigh) → applySelections c k = .error .zeroDivision) := by
  constructor
  · rintro ⟨r, h1, h2⟩
    have : r ∈ t6 c k := ((kept_t6 c k ht).2 r).2 ⟨h1, h2⟩
    exact ⟨_, _, apply_ok c k (List.ne_nil_of_mem this)⟩
  · intro h
    apply apply_error
    rw [List.eq_nil_iff_forall_not_mem]
    intro r hr
    obtain ⟨h1, h2⟩ := ((kept_t6 c k ht).2 r).1 hr
    exact h ⟨r, h1, h2⟩

/-- **C76** Each efficiency is the fraction of the events that enter its cut that pass it, with the cuts in the order band, energy, time of the S2, one row, radius, drift time, number of SiPMs. -/
theorem efficiencies_spec (c : Cuts) (k : List Row) (ht : ∀ r ∈ k, r.time ≠ none) (out : List Row) (e : Effs) (h : applySelections c k = .ok (out, e)) :
    ∃ l1 l2 l3 l4 l5 l6, Kept (InBand c) k l1 ∧ Kept (fun r => Between c.xraysLow r.ec c.xraysHigh) l1 l2 ∧ Kept (fun r => Between c.s2tLow r.s2t c.s2tHigh) l2 l3 ∧
      Kept (Alone c k) l3 l4 ∧ Kept (fun r => Between 0 r.r c.rMax) l4 l5 ∧ Kept (fun r => Between c.dtLow r.dt c.dtHigh) l5 l6 ∧ Kept (fun r => Between c.nsipmLow r.nsipm c.nsipmHigh) l6 out ∧
      e.band = numEvents l1 / numEvents k ∧ e.xrays = numEvents l2 / numEvents l1 ∧ e.s2t = numEvents l3 / numEvents l2 ∧ e.single = numEvents l4 / numEvents l3 ∧
      e.rmax = numEvents l5 / numEvents l4 ∧ e.dt = numEvents l6 / numEvents l5 ∧ e.nsipm = numEvents out / numEvents l6 ∧ e.total = numEvents out / numEvents k := by
  have h6 : t6 c k ≠ [] := by
    intro h6
    rw [apply_error c k h6] at h
    cases h
  rw [apply_ok c k h6] at h
  obtain ⟨rfl, rfl⟩ := Prod.mk.inj (Except.ok.inj h)
  refine ⟨t1 c k, t2 c k, t3 c k, t4 c k, t5 c k, t6 c k, kept_filter _ _ (fun r => inside_band) _, kept_filter _ _ (fun r => inside_some) _, kept_filter _ _ (fun r => inside_some) _, ⟨t43 c k, fun r => ?_⟩,
    kept_filter _ _ (fun r => inside_some) _, kept_filter _ _ (fun r => inside_some) _, kept_filter _ _ (fun r => inside_some) _, ?_⟩
  · rw [t4, mem_singles]
    exact and_congr_right fun hr => alone_iff c k ht r hr
  · simp [nunique_eq]

/-- **C76** The product of the efficiencies is the total one, and all are between 0 and 1. -/
theorem efficiencies_multiply (c : Cuts) (k : List Row) (out : List Row) (e : Effs) (h : applySelections c k = .ok (out, e)) :
    e.total = e.band * e.xrays * e.s2t * e.single * e.rmax * e.dt * e.nsipm ∧
    ∀ x ∈ [e.band, e.xrays, e.s2t, e.single, e.rmax, e.dt, e.nsipm, e.total], 0 ≤ x ∧ x ≤ 1 := by
  have h6 : t6 c k ≠ [] := by
    intro h6
    rw [apply_error c k h6] at h
    cases h
  have h5 := ne_nil_of_sublist (t65 c k) h6
  have h4 := ne_nil_of_sublist (t54 c k) h5
  have h3 := ne_nil_of_sublist (t43 c k) h4
  have h2 := ne_nil_of_sublist (t32 c k) h3
  have h1 := ne_nil_of_sublist (t21 c k) h2
  have h0 := ne_nil_of_sublist (t10 c k) h1
  rw [apply_ok c k h6] at h
  obtain ⟨rfl, rfl⟩ := Prod.mk.inj (Except.ok.inj h)
  have hq : ∀ {l : List Row}, l ≠ [] → (nunique l : ℚ) ≠ 0 := fun hl => by
    exact_mod_cast mt nunique_eq_zero.1 hl
  have hle : ∀ {a b : List Row}, a.Sublist b → 0 ≤ (nunique a : ℚ) / nunique b ∧ (nunique a : ℚ) / nunique b ≤ 1 := by
    intro a b hab
    refine ⟨by positivity, div_le_one_of_le₀ ?_ (by positivity)⟩
    rw [nunique_eq, nunique_eq, numEvents, numEvents]
    exact_mod_cast Finset.card_le_card (fun x hx => by
      rw [List.mem_toFinset] at hx ⊢
      exact (hab.map _).subset hx)
  refine ⟨?_, ?_⟩
  · have := hq h0; have := hq h1; have := hq h2; have := hq h3; have := hq h4; have := hq h5; have := hq h6
    show (nunique (t7 c k) : ℚ) / nunique k = _
    simp only
    field_simp
  · intro x hx
    simp only [List.mem_cons, List.not_mem_nil, or_false] at hx
    rcases hx with rfl | rfl | rfl | rfl | rfl | rfl | rfl | rfl
    · exact hle (t10 c k)
    · exact hle (t21 c k)
    · exact hle (t32 c k)
    · exact hle (t43 c k)
    · exact hle (t54 c k)
    · exact hle (t65 c k)
    · exact hle (t76 c k)
    · exact hle ((t76 c k).trans ((t65 c k).trans ((t54 c k).trans ((t43 c k).trans ((t32 c k).trans ((t21 c k).trans (t10 c k)))))))

/-- A table with an event of two rows left by the first cuts, one with a row outside the band and one too far. -/
def exampleRows : List Row :=
  [⟨1, some 0, some 2, some 10, some 41, some 600, some 50, some 20⟩, ⟨2, some 1, some 2, some 10, some 41, some 600, some 50, some 20⟩, ⟨2, some 1, some 3, some 12, some 41, some 601, some 50, some 20⟩,
   ⟨3, some 2, some 2, some 10, some 41, some 600, some 50, some 20⟩, ⟨3, some 2, some 9, some 10, some 41, some 600, some 50, some 20⟩, ⟨4, some 3, some 2, some 10, some 41, some 600, some 500, some 20⟩]

def exampleCuts : Cuts := ⟨fun _ => 1, fun dt => dt, 40, 43, 590, 610, 450, 0, 1000, 10, 30⟩

example : (applySelections exampleCuts exampleRows).toOption.map Prod.fst = some [⟨1, some 0, some 2, some 10, some 41, some 600, some 50, some 20⟩, ⟨3, some 2, some 2, some 10, some 41, some 600, some 50, some 20⟩] := by decide +kernel

example : (applySelections exampleCuts exampleRows).toOption.map Prod.snd = some ⟨1, 1, 3/4, 1, 2/3, 1, 1, 1/2⟩ := by decide +kernel

example : ∀ r ∈ exampleRows, r.time ≠ none := by decide

/-- **C76** A time that is NaN is not counted: both rows of the event are selected. -/
theorem null_time_selects_two : (applySelections exampleCuts [⟨1, some 0, some 2, some 10, some 41, some 600, some 50, some 20⟩, ⟨1, none, some 2, some 10, some 41, some 600, some 50, some 20⟩]).toOption.map
    (fun p => p.1.map Row.event) = some [1, 1] := by decide +kernel

end Verif.Selection
