import Verif.Spec.Compare
import Verif.Props.ShortestPaths
import Mathlib.Tactic.Linarith
import Mathlib.Tactic.Positivity
import Mathlib.Tactic.NormNum
import Mathlib.Tactic.FieldSimp
import Mathlib.Tactic.Ring
/-!
# C120: comparisons of results
-/
namespace Verif.Compare
open Verif (PyErr)
open Verif.ShortestPaths (lookup_mem lookup_of_mem lookup_none)

theorem all2_iff {α : Type} {p : α → α → Bool} : ∀ {l m : List α}, all2 p l m = true ↔ Pointwise (fun a b => p a b = true) l m := by
  intro l
  induction l with
  | nil =>
    intro m
    cases m with
    | nil => simp [all2, Pointwise]
    | cons b m => simp [all2, Pointwise]
  | cons a l ih =>
    intro m
    cases m with
    | nil => simp [all2, Pointwise]
    | cons b m =>
      rw [all2, Bool.and_eq_true, ih]
      constructor
      · rintro ⟨h, h1, h2⟩
        refine ⟨by simp [h1], fun i x y hx hy => ?_⟩
        cases i with
        | zero => simp at hx hy; subst hx hy; exact h
        | succ i => exact h2 i x y (by simpa using hx) (by simpa using hy)
      · rintro ⟨h1, h2⟩
        exact ⟨h2 0 a b rfl rfl, by simpa using h1, fun i x y hx hy => h2 (i + 1) x y (by simpa using hx) (by simpa using hy)⟩

theorem pointwise_congr {α : Type} {R S : α → α → Prop} {l m : List α} (h : ∀ a b, R a b ↔ S a b) : Pointwise R l m ↔ Pointwise S l m := by
  unfold Pointwise
  simp only [h]

theorem pointwise_self {α : Type} {R : α → α → Prop} {l : List α} (h : ∀ a ∈ l, R a a) : Pointwise R l l := by
  refine ⟨rfl, fun i a b h1 h2 => ?_⟩
  rw [h1] at h2
  cases h2
  exact h a (List.mem_of_getElem? h1)

theorem pointwise_symm {α : Type} {R S : α → α → Prop} {l m : List α} (h : ∀ a b, R a b → S b a) (hl : Pointwise R l m) : Pointwise S m l :=
  ⟨hl.1.symm, fun i a b h1 h2 => h b a (hl.2 i b a h2 h1)⟩

theorem pointwise_eq {α : Type} {l m : List α} : Pointwise (fun a b => a = b) l m ↔ l = m := by
  constructor
  · rintro ⟨h1, h2⟩
    refine List.ext_getElem? fun i => ?_
    rcases Nat.lt_or_ge i l.length with h | h
    · have hm : i < m.length := h1 ▸ h
      rw [List.getElem?_eq_getElem h, List.getElem?_eq_getElem hm]
      rw [h2 i _ _ (List.getElem?_eq_getElem h) (List.getElem?_eq_getElem hm)]
    · rw [List.getElem?_eq_none h, List.getElem?_eq_none (h1 ▸ h)]
  · rintro rfl
    exact pointwise_self fun _ _ => rfl

/-! ### Values -/

/-- **C120**: what `approx` means. -/
theorem approx_iff (a b : Val) : approx a b = true ↔ Approx a b := by
  unfold approx approxVal Approx Agree AgreeNum
  cases a <;> cases b <;> simp
  case num.num x y =>
    constructor
    · rintro (rfl | h)
      · rw [sub_self, abs_zero]
        exact .inr (by positivity)
      · rw [abs_sub_comm, div_eq_inv_mul, show (1000000 : ℚ) = 10 ^ 6 by norm_num, show (1000000000000 : ℚ) = 10 ^ 12 by norm_num]
        exact h
    · intro h
      right
      rw [abs_sub_comm, div_eq_inv_mul, show (1000000 : ℚ) = 10 ^ 6 by norm_num, show (1000000000000 : ℚ) = 10 ^ 12 by norm_num] at h
      exact h
  case str.str s t => exact eq_comm

/-- **C120**: what `exactly` means: the same value, and not `nan`. -/
theorem exactly_iff (a b : Val) : exactly a b = true ↔ a = b ∧ a ≠ .nan := by
  unfold exactly approxVal
  cases a <;> cases b <;> simp
  case num.num x y =>
    intro h
    rw [sub_eq_zero] at h
    exact h.symm

theorem isclose_iff (rtol atol : ℚ) (n : Bool) (a b : Val) : isclose rtol atol n a b = true ↔ AgreeNum (fun _ y => atol + rtol * |y|) (n = true) a b := by
  unfold isclose AgreeNum
  cases a <;> cases b <;> simp

/-- **C120**: whatever is close for `approx` is close for `np.allclose`. -/
theorem approx_allclose {a b : Val} (h : approx a b = true) (hs : ∀ s, a ≠ .str s) : allclose a b = true := by
  rw [approx_iff] at h
  unfold allclose
  rw [isclose_iff]
  rcases h with (⟨x, y, h1, h2, h3⟩ | h | h | h) | ⟨s, h1, h2⟩
  · refine .inl ⟨x, y, h1, h2, h3.trans (max_le ?_ ?_)⟩
    · have := abs_nonneg y
      norm_num
      linarith
    · have := abs_nonneg y
      norm_num
      linarith
  · exact .inr (.inl h)
  · exact .inr (.inr (.inl h))
  · exact absurd h.1 id
  · exact absurd h1 (hs s)

/-! ### Tables -/

theorem checkValues_iff (rtol atol : ℚ) (g e : Column) : checkValues rtol atol g e = true ↔ SameValues rtol atol g e := by
  unfold checkValues SameValues
  rw [Bool.and_eq_true, decide_eq_true_eq]
  refine and_congr_right fun _ => ?_
  split
  · rw [all2_iff]
    refine pointwise_congr fun a b => ?_
    rw [isclose_iff]
    simp
  · rw [all2_iff]
    refine pointwise_congr fun a b => ?_
    simp [same]

theorem perm_of_subset {l m : List String} (hl : l.Nodup) (hlen : l.length = m.length) (h : ∀ x ∈ l, x ∈ m) : l.Perm m :=
  (List.subperm_of_subset hl h).perm_of_length_le hlen.ge

/-- **C120**: two tables are taken for equal exactly if they have the same number of rows and the same names of columns, in any order, and each column has the same kind of values, with the same shape in each row, floats within the tolerances (relative to the expected ones) and
`nan` where the other has `nan`, anything else exactly. -/
theorem tables_spec (rtol atol : ℚ) (n m : Nat) (gs es : List (String × Column)) (hg : (gs.map Prod.fst).Nodup) (he : (es.map Prod.fst).Nodup) :
    tablesEq rtol atol (.cols n gs) (.cols m es) = true ↔ n = m ∧ (gs.map Prod.fst).Perm (es.map Prod.fst) ∧
      ∀ name g e, (name, g) ∈ gs → (name, e) ∈ es → g.dtype.kind = e.dtype.kind ∧ SameValues rtol atol g e := by
  unfold tablesEq shapeOf
  simp only [Bool.and_eq_true, decide_eq_true_eq, Prod.mk.injEq, List.all_eq_true]
  constructor
  · rintro ⟨⟨h1, h2⟩, h3⟩
    refine ⟨h1, ?_, ?_⟩
    · refine perm_of_subset hg (by simpa using h2) fun x hx => ?_
      obtain ⟨p, hp, rfl⟩ := List.mem_map.1 hx
      have := h3 p hp
      unfold checkColumn at this
      cases hl : es.lookup p.1 with
      | none => rw [hl] at this; cases this
      | some e => exact List.mem_map.2 ⟨_, lookup_mem hl, rfl⟩
    · intro name g e h4 h5
      have := h3 _ h4
      unfold checkColumn at this
      dsimp only at this
      rw [lookup_of_mem he h5] at this
      dsimp only at this
      rw [Bool.and_eq_true, decide_eq_true_eq, checkValues_iff] at this
      exact this
  · rintro ⟨h1, h2, h3⟩
    refine ⟨⟨h1, by simpa using h2.length_eq⟩, fun p hp => ?_⟩
    obtain ⟨q, hq, hqe⟩ := List.mem_map.1 (h2.mem_iff.1 (List.mem_map.2 ⟨p, hp, rfl⟩))
    unfold checkColumn
    rw [lookup_of_mem he (u := p.1) (x := q.2) (by rw [← hqe]; exact hq)]
    dsimp only
    rw [Bool.and_eq_true, decide_eq_true_eq, checkValues_iff]
    exact h3 p.1 p.2 q.2 hp (by rw [← hqe]; exact hq)

/-- **C120**: plain arrays need exactly the same type too; a table with columns is never equal to a plain array. -/
theorem arrays_spec (rtol atol : ℚ) (n m : Nat) (g e : Column) (cs : List (String × Column)) :
    (tablesEq rtol atol (.array n g) (.array m e) = true ↔ n = m ∧ g.dtype = e.dtype ∧ SameValues rtol atol g e) ∧
    tablesEq rtol atol (.array n g) (.cols m cs) = false ∧ (cs ≠ [] → tablesEq rtol atol (.cols n cs) (.array m e) = false) := by
  refine ⟨?_, ?_, ?_⟩
  · unfold tablesEq shapeOf
    simp only [Bool.and_eq_true, decide_eq_true_eq, Prod.mk.injEq, checkValues_iff, and_true]
  · simp [tablesEq]
  · intro h
    cases cs with
    | nil => exact absurd rfl h
    | cons c cs => simp [tablesEq]

/-- **C120**: a table is equal to itself, whatever it contains (`nan` too), with its columns in any order. -/
theorem tables_self (rtol atol : ℚ) (hr : 0 ≤ rtol) (ha : 0 ≤ atol) (n : Nat) (gs es : List (String × Column)) (hg : (gs.map Prod.fst).Nodup) (hp : gs.Perm es)
    (hf : ∀ p ∈ gs, p.2.dtype.kind = .f → ∀ s, Val.str s ∉ p.2.vals) : tablesEq rtol atol (.cols n gs) (.cols n es) = true := by
  have he : (es.map Prod.fst).Nodup := (hp.map Prod.fst).nodup_iff.1 hg
  rw [tables_spec rtol atol n n gs es hg he]
  refine ⟨rfl, hp.map _, fun name g e h1 h2 => ?_⟩
  have e1 := lookup_of_mem hg (hp.mem_iff.2 h2)
  rw [lookup_of_mem hg h1] at e1
  injection e1 with e1
  subst e1
  refine ⟨rfl, rfl, pointwise_self fun a hA => ?_⟩
  split
  · rename_i hk
    cases a with
    | nan => exact .inr (.inr (.inr ⟨trivial, rfl, rfl⟩))
    | pinf => exact .inr (.inl ⟨rfl, rfl⟩)
    | ninf => exact .inr (.inr (.inl ⟨rfl, rfl⟩))
    | num q =>
      refine .inl ⟨q, q, rfl, rfl, ?_⟩
      rw [sub_self, abs_zero]
      positivity
    | str s => exact absurd hA (hf _ h1 hk s)
  · rfl

/-- **C120**: without tolerances equal tables have the same values in every column. -/
theorem tables_exact (n m : Nat) (gs es : List (String × Column)) (hg : (gs.map Prod.fst).Nodup) (he : (es.map Prod.fst).Nodup)
    (h : tablesEq 0 0 (.cols n gs) (.cols m es) = true) : ∀ name g e, (name, g) ∈ gs → (name, e) ∈ es → g.vals = e.vals := by
  rw [tables_spec 0 0 n m gs es hg he] at h
  intro name g e h1 h2
  obtain ⟨_, _, h3⟩ := h.2.2 name g e h1 h2
  refine pointwise_eq.1 ⟨h3.1, fun i a b ha hb => ?_⟩
  have := h3.2 i a b ha hb
  split at this
  · rcases this with ⟨x, y, rfl, rfl, hxy⟩ | ⟨rfl, rfl⟩ | ⟨rfl, rfl⟩ | ⟨_, rfl, rfl⟩
    · simp only [zero_mul, add_zero, abs_nonpos_iff, sub_eq_zero] at hxy
      rw [hxy]
    · rfl
    · rfl
    · rfl
  · exact this

/-- **C120**: with an absolute tolerance only, which of the two is the expected one does not matter. -/
theorem tables_symm (atol : ℚ) (n m : Nat) (gs es : List (String × Column)) (hg : (gs.map Prod.fst).Nodup) (he : (es.map Prod.fst).Nodup)
    (h : tablesEq 0 atol (.cols n gs) (.cols m es) = true) : tablesEq 0 atol (.cols m es) (.cols n gs) = true := by
  rw [tables_spec 0 atol n m gs es hg he] at h
  rw [tables_spec 0 atol m n es gs he hg]
  obtain ⟨h1, h2, h3⟩ := h
  refine ⟨h1.symm, h2.symm, fun name e g k1 k2 => ?_⟩
  obtain ⟨g1, g2, g3⟩ := h3 name g e k2 k1
  refine ⟨g1.symm, g2.symm, pointwise_symm (fun a b hab => ?_) g3⟩
  rw [← g1]
  split at hab
  · rename_i hk
    rw [if_pos hk]
    rcases hab with ⟨x, y, h1, h2, hxy⟩ | ⟨h1, h2⟩ | ⟨h1, h2⟩ | ⟨_, h1, h2⟩
    · exact .inl ⟨y, x, h2, h1, by rw [abs_sub_comm]; simpa using hxy⟩
    · exact .inr (.inl ⟨h2, h1⟩)
    · exact .inr (.inr (.inl ⟨h2, h1⟩))
    · exact .inr (.inr (.inr ⟨trivial, h2, h1⟩))
  · rename_i hk
    rw [if_neg hk]
    exact hab.symm

/-! ### PMaps -/

theorem arr_approx_iff (a b : Arr) : approxArr approx a b = true ↔ SameArr Approx a b := by
  unfold approxArr SameArr
  rw [Bool.and_eq_true, decide_eq_true_eq, all2_iff]
  exact and_congr_right fun _ => pointwise_congr approx_iff

theorem arr_exact_iff (a b : Arr) : approxArr exactly a b = true ↔ a = b ∧ Val.nan ∉ a.vals := by
  unfold approxArr
  rw [Bool.and_eq_true, decide_eq_true_eq, all2_iff, pointwise_congr exactly_iff]
  constructor
  · rintro ⟨h1, h2, h3⟩
    have hv : a.vals = b.vals := pointwise_eq.1 ⟨h2, fun i x y hx hy => (h3 i x y hx hy).1⟩
    refine ⟨?_, fun hn => ?_⟩
    · cases a; cases b; simp_all
    · obtain ⟨i, hi⟩ := List.getElem?_of_mem hn
      exact (h3 i _ _ hi (hv ▸ hi)).2 rfl
  · rintro ⟨rfl, hn⟩
    exact ⟨rfl, pointwise_self fun x hx => ⟨rfl, fun h => hn (h ▸ hx)⟩⟩

theorem peak_iff (a b : Peak) : peakEq a b = true ↔ SamePeak a b := by
  unfold peakEq srEq SamePeak
  simp only [Bool.and_eq_true, arr_approx_iff, arr_exact_iff]
  constructor
  · rintro ⟨⟨h1, h2, h3⟩, h4, h5⟩
    exact ⟨h1, h2, h3, h4, h5⟩
  · rintro ⟨h1, h2, h3, h4, h5⟩
    exact ⟨⟨h1, h2, h3⟩, h4, h5⟩

/-- **C120**: two PMaps are taken for equal exactly if they have as many S1 and as many S2, and one by one the peaks have close times, the same sensors in the same order and close waveforms. -/
theorem pmap_spec (a b : PMap) : pmapEq a b = true ↔ Pointwise SamePeak a.s1s b.s1s ∧ Pointwise SamePeak a.s2s b.s2s := by
  unfold pmapEq
  rw [Bool.and_eq_true, all2_iff, all2_iff, pointwise_congr peak_iff, pointwise_congr peak_iff]

/-- **C120**: the widths of the bins are not compared: two PMaps that differ only in them are taken for equal exactly when the PMap is equal to itself. -/
theorem pmap_widths (a b : PMap) (f : Peak → Arr) (h : pmapEq a b = true) :
    pmapEq a ⟨b.s1s.map fun p => ⟨p.times, f p, p.pmts, p.sipms⟩, b.s2s.map fun p => ⟨p.times, f p, p.pmts, p.sipms⟩⟩ = true := by
  rw [pmap_spec] at h ⊢
  have key : ∀ {l m : List Peak}, Pointwise SamePeak l m → Pointwise SamePeak l (m.map fun p => ⟨p.times, f p, p.pmts, p.sipms⟩) := by
    rintro l m ⟨h1, h2⟩
    refine ⟨by simpa using h1, fun i x y hx hy => ?_⟩
    rw [List.getElem?_map] at hy
    cases hm : m[i]? with
    | none => rw [hm] at hy; cases hy
    | some z =>
      rw [hm] at hy
      injection hy with hy
      subst hy
      exact h2 i x z hx hm
  exact ⟨key h.1, key h.2⟩

theorem approx_self (a : Val) : Approx a a ↔ a ≠ .nan := by
  rw [← approx_iff]
  cases a <;> simp [approx, approxVal]

theorem arr_self (a : Arr) : SameArr Approx a a ↔ Val.nan ∉ a.vals := by
  constructor
  · rintro ⟨_, _, h⟩ hn
    obtain ⟨i, hi⟩ := List.getElem?_of_mem hn
    exact (approx_self _).1 (h i _ _ hi hi) rfl
  · intro hn
    exact ⟨rfl, pointwise_self fun x hx => (approx_self x).2 fun h => hn (h ▸ hx)⟩

/-- **C120**: a PMap is equal to itself exactly if there is no `nan` in it. -/
theorem pmap_self (a : PMap) : pmapEq a a = true ↔ ∀ p ∈ a.s1s ++ a.s2s, Val.nan ∉ p.times.vals ∧ Val.nan ∉ p.pmts.ids.vals ∧ Val.nan ∉ p.pmts.wfs.vals ∧ Val.nan ∉ p.sipms.ids.vals ∧ Val.nan ∉ p.sipms.wfs.vals := by
  have one : ∀ p : Peak, SamePeak p p ↔ Val.nan ∉ p.times.vals ∧ Val.nan ∉ p.pmts.ids.vals ∧ Val.nan ∉ p.pmts.wfs.vals ∧ Val.nan ∉ p.sipms.ids.vals ∧ Val.nan ∉ p.sipms.wfs.vals := by
    intro p
    unfold SamePeak
    simp only [arr_self, true_and]
  have lst : ∀ l : List Peak, Pointwise SamePeak l l ↔ ∀ p ∈ l, SamePeak p p := by
    intro l
    constructor
    · rintro ⟨_, h⟩ p hp
      obtain ⟨i, hi⟩ := List.getElem?_of_mem hp
      exact h i _ _ hi hi
    · exact pointwise_self
  rw [pmap_spec, lst, lst]
  simp only [List.mem_append, ← one]
  constructor
  · rintro ⟨h1, h2⟩ p (hp | hp)
    · exact h1 p hp
    · exact h2 p hp
  · intro h
    exact ⟨fun p hp => h p (.inl hp), fun p hp => h p (.inr hp)⟩

/-! ### Hits and clusters -/

/-- **C120**: two hits are taken for equal exactly if position and energy are close for `approx`. -/
theorem bhit_spec (a b : BHit) (hs : ∀ s, a.x ≠ .str s ∧ a.y ≠ .str s ∧ a.z ≠ .str s) : bhitEq a b = true ↔ Approx a.x b.x ∧ Approx a.y b.y ∧ Approx a.z b.z ∧ Approx a.e b.e := by
  unfold bhitEq
  simp only [Bool.and_eq_true, ← approx_iff, all2, and_true]
  constructor
  · rintro ⟨⟨⟨⟨_, h1⟩, h2⟩, h3⟩, h4⟩
    exact ⟨h2, h3, h4, h1⟩
  · rintro ⟨h1, h2, h3, h4⟩
    have k1 := approx_allclose h1 fun s => (hs s).1
    have k2 := approx_allclose h2 fun s => (hs s).2.1
    have k3 := approx_allclose h3 fun s => (hs s).2.2
    exact ⟨⟨⟨⟨⟨⟨k1, k2, k3⟩, ⟨k1, k2, k3⟩⟩, h4⟩, h1⟩, h2⟩, h3⟩

/-- **C120**: the time of simulated hits is compared too; their labels are not. -/
theorem mchit_spec (a b : BHit) (ta tb : Val) : mchitEq a b ta tb = true ↔ bhitEq a b = true ∧ Approx ta tb := by
  unfold mchitEq
  rw [Bool.and_eq_true, approx_iff]

/-- **C120**: for clusters: the same number of sensors, close charge and position (and what is computed from them), and the variances only within one part in 10⁵ or 10⁻⁸; their energy and their z are not compared. -/
theorem cluster_spec (a b : Cluster) (hs : ∀ s, a.x ≠ .str s ∧ a.y ≠ .str s) : clusterEq a b = true ↔
    Approx a.x b.x ∧ Approx a.y b.y ∧ AgreeNum (fun _ y => 1 / 100000000 + 1 / 100000 * |y|) False a.varx b.varx ∧ AgreeNum (fun _ y => 1 / 100000000 + 1 / 100000 * |y|) False a.vary b.vary ∧
    (a.nsipm = b.nsipm ∧ a.nsipm ≠ .nan) ∧ Approx a.q b.q ∧ Approx a.xrms b.xrms ∧ Approx a.yrms b.yrms ∧ Approx a.r b.r ∧ Approx a.phi b.phi := by
  have hv : ∀ x y : Val, allclose x y = true ↔ AgreeNum (fun _ y => 1 / 100000000 + 1 / 100000 * |y|) False x y := by
    intro x y
    unfold allclose
    rw [isclose_iff, show (1 / 10 ^ 5 : ℚ) = 1 / 100000 by norm_num, show (1 / 10 ^ 8 : ℚ) = 1 / 100000000 by norm_num]
    simp [AgreeNum]
  unfold clusterEq
  simp only [Bool.and_eq_true, ← approx_iff, ← hv, all2, and_true, exactly_iff]
  constructor
  · rintro ⟨⟨⟨⟨⟨⟨⟨⟨⟨⟨_, h1, h2⟩, _⟩, h3⟩, h4⟩, h5⟩, h6⟩, h7⟩, h8⟩, h9⟩, h10⟩
    exact ⟨h5, h6, h1, h2, h3, h4, h7, h8, h9, h10⟩
  · rintro ⟨h5, h6, h1, h2, h3, h4, h7, h8, h9, h10⟩
    have k1 := approx_allclose h5 fun s => (hs s).1
    have k2 := approx_allclose h6 fun s => (hs s).2
    exact ⟨⟨⟨⟨⟨⟨⟨⟨⟨⟨⟨k1, k2⟩, h1, h2⟩, k1, k2⟩, h3⟩, h4⟩, h5⟩, h6⟩, h7⟩, h8⟩, h9⟩, h10⟩

/-- **C120**: reconstructed hits: as hits and as clusters, with close corrected energy and position of the peak and the same number of peak; the other energies and the track are not compared. -/
theorem hit_spec (a b : Hit) : hitEq a b = true ↔
    bhitEq a.bhit b.bhit = true ∧ clusterEq a.cluster b.cluster = true ∧ Approx a.ec b.ec ∧ Approx a.xpeak b.xpeak ∧ Approx a.ypeak b.ypeak ∧ a.npeak = b.npeak ∧ a.npeak ≠ .nan := by
  unfold hitEq
  simp only [Bool.and_eq_true, approx_iff, exactly_iff, and_assoc]

/-! ### Data frames -/

theorem lookup_zip {l : List Int} (hl : l.Nodup) {vs : List Val} {i : Nat} {k : Int} {v : Val} (h1 : l[i]? = some k) (h2 : vs[i]? = some v) : (l.zip vs).lookup k = some v := by
  induction l generalizing vs i with
  | nil => simp at h1
  | cons a l ih =>
    rw [List.nodup_cons] at hl
    cases vs with
    | nil => simp at h2
    | cons b vs =>
      rw [List.zip_cons_cons, List.lookup_cons]
      cases i with
      | zero =>
        simp at h1 h2
        subst h1 h2
        simp
      | succ i =>
        have h1' : l[i]? = some k := by simpa using h1
        have : k ≠ a := by
          rintro rfl
          exact hl.1 (List.mem_of_getElem? h1')
        have : (k == a) = false := by simpa using this
        rw [this]
        exact ih hl.2 h1' (by simpa using h2)

theorem reorder_spec {old new : List Int} (ho : old.Nodup) (hp : old.Perm new) {vs : List Val} (hv : vs.length = old.length) {i j : Nat} {k : Int} {v : Val}
    (h1 : old[i]? = some k) (h2 : vs[i]? = some v) (h3 : new[j]? = some k) : (reorder old new vs)[j]? = some v := by
  unfold reorder
  split
  · rename_i he
    subst he
    have hi : i < old.length := (List.getElem?_eq_some_iff.1 h1).1
    have hj : j < old.length := (List.getElem?_eq_some_iff.1 h3).1
    have : i = j := by
      refine (List.Nodup.getElem_inj_iff ho (hi := hi) (hj := hj)).1 ?_
      rw [(List.getElem?_eq_some_iff.1 h1).2, (List.getElem?_eq_some_iff.1 h3).2]
    subst this
    exact h2
  · rw [List.getElem?_map, h3, Option.map_some, lookup_zip ho h1 h2]
    rfl

theorem reorder_length {old new : List Int} (hp : old.Perm new) {vs : List Val} (hv : vs.length = old.length) : (reorder old new vs).length = new.length := by
  unfold reorder
  split
  · rename_i he; rw [hv, he]
  · simp

theorem frames_iff (p : Val → Val → Bool) (d1 d2 : Df) (g1 : d1.Good) (g2 : d2.Good) : framesEq p d1 d2 = true ↔ d1.index.Perm d2.index ∧ (d1.cols.map Prod.fst).Perm (d2.cols.map Prod.fst) ∧
    (∀ name s t, (name, s) ∈ d1.cols → (name, t) ∈ d2.cols → s.dtype = t.dtype) ∧
    ∀ name label t u a b, HasCell d1 name label t a → HasCell d2 name label u b → p a b = true := by
  obtain ⟨n1, m1, l1⟩ := g1
  obtain ⟨n2, m2, l2⟩ := g2
  unfold framesEq
  simp only [Bool.and_eq_true, decide_eq_true_eq, List.all_eq_true]
  constructor
  · rintro ⟨⟨⟨h1, h2⟩, _⟩, h3⟩
    have col : ∀ name s t, (name, s) ∈ d1.cols → (name, t) ∈ d2.cols → s.dtype = t.dtype ∧ Pointwise (fun a b => p a b = true) (reorder d1.index d2.index s.vals) t.vals := by
      intro name s t hs ht
      have := h3 _ ht
      unfold seriesEq at this
      dsimp only at this
      rw [lookup_of_mem m1 hs] at this
      dsimp only at this
      rw [Bool.and_eq_true, decide_eq_true_eq, all2_iff] at this
      exact this
    refine ⟨h1, h2, fun name s t hs ht => (col name s t hs ht).1, ?_⟩
    rintro name label t u a b ⟨s, hs, _, i, hi, ha⟩ ⟨s', hs', _, j, hj, hb⟩
    exact (col name s s' hs hs').2.2 j a b (reorder_spec n1 h1 (l1 _ hs) hi ha hj) hb
  · rintro ⟨h1, h2, h3, h4⟩
    refine ⟨⟨⟨h1, h2⟩, .inr n1⟩, fun c hc => ?_⟩
    obtain ⟨q, hq, hqe⟩ := List.mem_map.1 (h2.mem_iff.2 (List.mem_map.2 ⟨c, hc, rfl⟩))
    have hq' : (c.1, q.2) ∈ d1.cols := by rw [← hqe]; exact hq
    unfold seriesEq
    rw [lookup_of_mem m1 hq']
    dsimp only
    rw [Bool.and_eq_true, decide_eq_true_eq, all2_iff]
    refine ⟨h3 c.1 q.2 c.2 hq' hc, ?_, ?_⟩
    · rw [reorder_length h1 (l1 _ hq), l2 _ hc]
    · intro j a b ha hb
      have hj : j < d2.index.length := by
        rw [← l2 _ hc]
        exact (List.getElem?_eq_some_iff.1 hb).1
      have hk := List.getElem?_eq_getElem hj
      have hmem : d2.index[j] ∈ d1.index := h1.mem_iff.2 (List.getElem_mem hj)
      obtain ⟨i, hi⟩ := List.getElem?_of_mem hmem
      have hi' : i < q.2.vals.length := by
        rw [l1 _ hq]
        exact (List.getElem?_eq_some_iff.1 hi).1
      have hv := List.getElem?_eq_getElem hi'
      have := reorder_spec n1 h1 (l1 _ hq) hi hv hk
      rw [ha] at this
      injection this with this
      exact h4 c.1 d2.index[j] q.2.dtype c.2.dtype a b ⟨q.2, hq', rfl, i, hi, by rw [this]; exact hv⟩ ⟨c.2, hc, rfl, j, hk, hb⟩

/-- **C120**: two data frames are equal exactly if they have the same labels of rows and the same columns, each in any order, and under each label and name the same value of the same type (`nan` included). -/
theorem df_equal_spec (d1 d2 : Df) (g1 : d1.Good) (g2 : d2.Good) : dfEqual d1 d2 = true ↔ d1.index.Perm d2.index ∧ (d1.cols.map Prod.fst).Perm (d2.cols.map Prod.fst) ∧
    (∀ name s t, (name, s) ∈ d1.cols → (name, t) ∈ d2.cols → s.dtype = t.dtype) ∧
    ∀ name label t u a b, HasCell d1 name label t a → HasCell d2 name label u b → a = b := by
  unfold dfEqual
  rw [frames_iff same d1 d2 g1 g2]
  simp only [same, decide_eq_true_eq]

/-- **C120**: for close data frames numbers may differ by one part in 10⁵ of the largest or by 10⁻⁸; this does not depend on which one comes first. -/
theorem df_close_spec (d1 d2 : Df) (g1 : d1.Good) (g2 : d2.Good) : (dfClose d1 d2 = true ↔ d1.index.Perm d2.index ∧ (d1.cols.map Prod.fst).Perm (d2.cols.map Prod.fst) ∧
    (∀ name s t, (name, s) ∈ d1.cols → (name, t) ∈ d2.cols → s.dtype = t.dtype) ∧
    ∀ name label t u a b, HasCell d1 name label t a → HasCell d2 name label u b → a = b ∨ ∃ x y, a = .num x ∧ b = .num y ∧ |x - y| ≤ max (max |x| |y| / 100000) (1 / 100000000)) ∧
    dfClose d1 d2 = dfClose d2 d1 := by
  have hc : ∀ a b, pdClose a b = true ↔ a = b ∨ ∃ x y, a = .num x ∧ b = .num y ∧ |x - y| ≤ max (max |x| |y| / 100000) (1 / 100000000) := by
    intro a b
    have e1 : ∀ x y : ℚ, 1 / 10 ^ 5 * max |x| |y| = max |x| |y| / 100000 := fun x y => by rw [one_div, div_eq_inv_mul]; norm_num
    have e2 : (1 / 10 ^ 8 : ℚ) = 1 / 100000000 := by norm_num
    unfold pdClose
    cases a <;> cases b <;> simp only [e1, e2] <;> simp
    case num.num x y =>
      rintro rfl
      rw [sub_self, abs_zero]
      exact .inr (by norm_num)
  have sym : ∀ a b, pdClose a b = true → pdClose b a = true := by
    intro a b h
    rw [hc] at h ⊢
    rcases h with h | ⟨x, y, h1, h2, h3⟩
    · exact .inl h.symm
    · exact .inr ⟨y, x, h2, h1, by rw [abs_sub_comm, max_comm |y|]; exact h3⟩
  have half : ∀ d1 d2 : Df, d1.Good → d2.Good → dfClose d1 d2 = true → dfClose d2 d1 = true := by
    intro d1 d2 g1 g2 h
    unfold dfClose at *
    rw [frames_iff pdClose _ _ g1 g2] at h
    rw [frames_iff pdClose _ _ g2 g1]
    exact ⟨h.1.symm, h.2.1.symm, fun n s t hs ht => (h.2.2.1 n t s ht hs).symm, fun n l t u a b ha hb => sym _ _ (h.2.2.2 n l u t b a hb ha)⟩
  refine ⟨?_, ?_⟩
  · unfold dfClose
    rw [frames_iff pdClose d1 d2 g1 g2]
    simp only [hc]
  · cases h : dfClose d1 d2 with
    | true => exact (half d1 d2 g1 g2 h).symm
    | false =>
      cases h' : dfClose d2 d1 with
      | false => rfl
      | true => rw [half d2 d1 g2 g1 h'] at h; cases h

/-! ### Sequences -/

/-- **C120**: what `all_elements_close` decides, for a positive first element: that no element is below the first by more than the tolerance, or that none differs from it by more than the absolute tolerance.  There is no upper limit in the first case, so that it is not a
test of closeness. -/
theorem all_close_spec (x0 : ℚ) (xs : List ℚ) (tRel tAbs : ℚ) (h0 : 0 < x0) (hr : 0 ≤ tRel) (ha : 0 ≤ tAbs) :
    allElementsClose (x0 :: xs) tRel tAbs = .ok true ↔ (∀ x ∈ xs, x0 - tRel * x0 ≤ x) ∨ ∀ x ∈ xs, |x0 - x| ≤ tAbs := by
  have rel : ∀ x, relExceeds x0 x tRel = false ↔ x0 - tRel * x0 ≤ x := by
    intro x
    unfold relExceeds
    rw [if_neg h0.ne', decide_eq_false_iff_not, not_lt, div_le_iff₀ h0]
    constructor <;> intro h <;> linarith
  unfold allElementsClose
  simp only [Except.ok.injEq, Bool.or_eq_true, Bool.not_eq_true', List.any_eq_false, List.mem_cons, forall_eq_or_imp]
  constructor
  · rintro (⟨_, h⟩ | ⟨_, h⟩)
    · exact .inl fun x hx => (rel x).1 (by simpa using h x hx)
    · exact .inr fun x hx => by simpa using h x hx
  · rintro (h | h)
    · refine .inl ⟨?_, fun x hx => by simpa using (rel x).2 (h x hx)⟩
      have := (rel x0).2 (by have := mul_nonneg hr h0.le; linarith)
      simpa using this
    · exact .inr ⟨by simpa using ha, fun x hx => by simpa using h x hx⟩

/-- **C120**: for a negative first element it is the same with the signs changed; with a first element 0 any elements that are not negative pass. -/
theorem all_close_other (x0 : ℚ) (xs : List ℚ) (tRel tAbs : ℚ) (hr : 0 ≤ tRel) (ha : 0 ≤ tAbs) :
    (x0 < 0 → (allElementsClose (x0 :: xs) tRel tAbs = .ok true ↔ (∀ x ∈ xs, x ≤ x0 - tRel * x0) ∨ ∀ x ∈ xs, |x0 - x| ≤ tAbs)) ∧
    (x0 = 0 → (allElementsClose (x0 :: xs) tRel tAbs = .ok true ↔ (∀ x ∈ xs, 0 ≤ x) ∨ ∀ x ∈ xs, |x| ≤ tAbs)) ∧ allElementsClose [] tRel tAbs = .error .indexError := by
  refine ⟨fun h0 => ?_, fun h0 => ?_, rfl⟩
  · have rel : ∀ x, relExceeds x0 x tRel = false ↔ x ≤ x0 - tRel * x0 := by
      intro x
      unfold relExceeds
      rw [if_neg h0.ne, decide_eq_false_iff_not, not_lt, div_le_iff_of_neg h0]
      constructor <;> intro h <;> linarith
    unfold allElementsClose
    simp only [Except.ok.injEq, Bool.or_eq_true, Bool.not_eq_true', List.any_eq_false, List.mem_cons, forall_eq_or_imp]
    constructor
    · rintro (⟨_, h⟩ | ⟨_, h⟩)
      · exact .inl fun x hx => (rel x).1 (by simpa using h x hx)
      · exact .inr fun x hx => by simpa using h x hx
    · rintro (h | h)
      · refine .inl ⟨?_, fun x hx => by simpa using (rel x).2 (h x hx)⟩
        have := (rel x0).2 (by have := mul_nonpos_of_nonneg_of_nonpos hr h0.le; linarith)
        simpa using this
      · exact .inr ⟨by simpa using ha, fun x hx => by simpa using h x hx⟩
  · subst h0
    unfold allElementsClose relExceeds
    simp only [Except.ok.injEq, Bool.or_eq_true, Bool.not_eq_true', List.any_eq_false, List.mem_cons, forall_eq_or_imp, if_true, zero_sub, abs_neg]
    simp [ha]

/-- **C120**: the four relative differences: each is the difference over its norm (twice that for the mean of the two), and exchanging the two values changes the sign and exchanges first and second. -/
theorem relative_spec (x y : ℚ) :
    (∀ d, relativeDifference .first x y = .ok d ↔ x ≠ 0 ∧ d * x = x - y) ∧ (∀ d, relativeDifference .second x y = .ok d ↔ relativeDifference .first y x = .ok (-d)) ∧
    (∀ d, relativeDifference .sumof x y = .ok d ↔ x + y ≠ 0 ∧ d * (x + y) = x - y) ∧ (∀ d, relativeDifference .mean x y = .ok d ↔ x + y ≠ 0 ∧ d * ((x + y) / 2) = x - y) ∧
    (∀ d, relativeDifference .mean x y = .ok d ↔ relativeDifference .mean y x = .ok (-d)) := by
  have e1 : ∀ x y d, relativeDifference .first x y = .ok d ↔ x ≠ 0 ∧ d * x = x - y := by
    intro x y d
    unfold relativeDifference
    by_cases h : x = 0
    · simp [h]
    · simp only [h, if_false, Except.ok.injEq, ne_eq, not_false_iff, true_and]
      rw [div_eq_iff h]
      exact eq_comm
  have e4 : ∀ x y d, relativeDifference .mean x y = .ok d ↔ x + y ≠ 0 ∧ d * ((x + y) / 2) = x - y := by
    intro x y d
    unfold relativeDifference
    by_cases h : x + y = 0
    · simp [h]
    · simp only [h, if_false, Except.ok.injEq, ne_eq, not_false_iff, true_and]
      rw [div_eq_iff h]
      constructor <;> intro h <;> linarith
  refine ⟨e1 x y, fun d => ?_, fun d => ?_, e4 x y, fun d => ?_⟩
  · rw [e1]
    unfold relativeDifference
    by_cases h : y = 0
    · simp [h]
    · simp only [h, if_false, Except.ok.injEq, ne_eq, not_false_iff, true_and]
      rw [div_eq_iff h]
      constructor <;> intro h <;> linarith
  · unfold relativeDifference
    by_cases h : x + y = 0
    · simp [h]
    · simp only [h, if_false, Except.ok.injEq, ne_eq, not_false_iff, true_and]
      rw [div_eq_iff h]
      exact eq_comm
  · rw [e4, e4, add_comm y x]
    refine and_congr_right fun _ => ?_
    constructor <;> intro h <;> linarith

/-! ### Cases -/

example : approx (.num (1000001 / 1000000)) (.num 1) = true ∧ approx (.num (1000002 / 1000000)) (.num 1) = false ∧ exactly (.num 1) (.num 1) = true ∧ exactly .nan .nan = false := by decide +kernel

/-- A column of floats and one of integers. -/
def exG : List (String × Column) := [("e", ⟨⟨.f, 8⟩, [], [.num 1, .nan, .pinf]⟩), ("n", ⟨⟨.i, 4⟩, [], [.num 1, .num 2, .num 3]⟩)]
/-- The same columns in another order, with slightly different floats and longer integers. -/
def exE : List (String × Column) := [("n", ⟨⟨.i, 8⟩, [], [.num 1, .num 2, .num 3]⟩), ("e", ⟨⟨.f, 8⟩, [], [.num (10000000001 / 10000000000), .nan, .pinf]⟩)]

example : (exG.map Prod.fst).Nodup ∧ (exE.map Prod.fst).Nodup ∧ tablesEq (1 / 10 ^ 7) 0 (.cols 3 exG) (.cols 3 exE) = true ∧ tablesEq 0 0 (.cols 3 exG) (.cols 3 exE) = false ∧
    tablesEq 0 (1 / 10 ^ 7) (.cols 3 exG) (.cols 3 exE) = true ∧ tablesEq (1 / 10 ^ 7) 0 (.cols 3 exG) (.cols 4 exE) = false ∧ tablesEq 0 0 (.cols 3 exG) (.cols 3 exG.reverse) = true := by decide +kernel
/-- The size of the integers matters for plain arrays, not for columns. -/
example : tablesEq 0 0 (.array 1 ⟨⟨.i, 4⟩, [], [.num 1]⟩) (.array 1 ⟨⟨.i, 8⟩, [], [.num 1]⟩) = false ∧ tablesEq 0 0 (.array 1 ⟨⟨.i, 4⟩, [], [.num 1]⟩) (.array 1 ⟨⟨.i, 4⟩, [], [.num 1]⟩) = true ∧
    tablesEq 0 0 (.cols 1 [("a", ⟨⟨.i, 4⟩, [], [.num 1]⟩)]) (.cols 1 [("a", ⟨⟨.i, 8⟩, [], [.num 1]⟩)]) = true := by decide +kernel
/-- With a relative tolerance the order of the two matters. -/
example : tablesEq (1 / 10) 0 (.cols 1 [("a", ⟨⟨.f, 8⟩, [], [.num 90]⟩)]) (.cols 1 [("a", ⟨⟨.f, 8⟩, [], [.num 100]⟩)]) = true ∧
    tablesEq (1 / 10) 0 (.cols 1 [("a", ⟨⟨.f, 8⟩, [], [.num 100]⟩)]) (.cols 1 [("a", ⟨⟨.f, 8⟩, [], [.num 90]⟩)]) = false := by decide +kernel

def exPeak (w : ℚ) : Peak := ⟨⟨[2], [.num 1, .num 2]⟩, ⟨[2], [.num w, .num w]⟩, ⟨⟨[1], [.num 7]⟩, ⟨[1, 2], [.num 3, .num 4]⟩⟩, ⟨⟨[0], []⟩, ⟨[0, 2], []⟩⟩⟩
/-- Two PMaps that differ only in the widths of the bins. -/
example : pmapEq ⟨[exPeak 1], [exPeak 1]⟩ ⟨[exPeak 1], [exPeak 25]⟩ = true ∧ pmapEq ⟨[exPeak 1], []⟩ ⟨[], [exPeak 1]⟩ = false := by decide +kernel

example : bhitEq ⟨.num 1, .num 2, .num 3, .num 4⟩ ⟨.num 1, .num 2, .num 3, .num (4000001 / 1000000)⟩ = true ∧ bhitEq ⟨.num 1, .num 2, .num 3, .num 4⟩ ⟨.num 1, .num 2, .num 4, .num 4⟩ = false := by decide +kernel
example : clusterEq ⟨.num 3, .num 4, .num 1, .num 1, .num 7, .num 10, .num 1, .num 1, .num 5, .num 1⟩ ⟨.num 3, .num 4, .num 1, .num 1, .num 7, .num 10, .num 1, .num 1, .num 5, .num 1⟩ = true ∧
    clusterEq ⟨.num 3, .num 4, .num 1, .num 1, .num 7, .num 10, .num 1, .num 1, .num 5, .num 1⟩ ⟨.num 3, .num 4, .num 1, .num 1, .num 8, .num 10, .num 1, .num 1, .num 5, .num 1⟩ = false := by decide +kernel

def exD1 : Df := ⟨[0, 1], [("a", ⟨⟨.f, 8⟩, [.num 1, .nan]⟩), ("b", ⟨⟨.i, 8⟩, [.num 5, .num 6]⟩)]⟩
def exD2 : Df := ⟨[1, 0], [("b", ⟨⟨.i, 8⟩, [.num 6, .num 5]⟩), ("a", ⟨⟨.f, 8⟩, [.nan, .num (1000001 / 1000000)]⟩)]⟩
example : exD1.Good ∧ exD2.Good := by
  refine ⟨⟨by decide, by decide, ?_⟩, ⟨by decide, by decide, ?_⟩⟩ <;> (intro p hp; simp [exD1, exD2] at hp; rcases hp with rfl | rfl <;> rfl)
example : dfClose exD1 exD2 = true ∧ dfEqual exD1 exD2 = false ∧ dfEqual exD1 exD1 = true ∧ dfEqual exD2 exD2 = true := by decide +kernel

/-- Elements that are not close at all. -/
example : (allElementsClose [1, 1000] (1 / 1000) (1 / 10 ^ 6)).toOption = some true ∧ (allElementsClose [1000, 1] (1 / 1000) (1 / 10 ^ 6)).toOption = some false ∧
    (allElementsClose [0, 5, 7] (1 / 1000) (1 / 10 ^ 6)).toOption = some true ∧ (allElementsClose [-1, -1000] (1 / 1000) (1 / 10 ^ 6)).toOption = some true := by decide +kernel
example : (relativeDifference .first 2 1).toOption = some (1 / 2) ∧ (relativeDifference .second 2 1).toOption = some 1 ∧ (relativeDifference .sumof 2 1).toOption = some (1 / 3) ∧
    (relativeDifference .mean 2 1).toOption = some (2 / 3) ∧ (relativeDifference .sumof 1 (-1)).toOption = none := by decide +kernel

end Verif.Compare
