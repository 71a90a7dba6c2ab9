import Verif.Spec.WfIO
import Mathlib.Tactic
/-!
# C100 Files of waveforms, histograms and run information
-/
namespace Verif.WfIO
open Verif Verif.Spec.WfIO

theorem get_mem {f : File} {k : Key} {n : Node} (h : f.get k = some n) : k ∈ f.nodes.map Prod.fst := by
  unfold File.get at h
  rw [Option.map_eq_some_iff] at h
  obtain ⟨m, hm, rfl⟩ := h
  have h1 := List.find?_some hm
  simp only [decide_eq_true_eq] at h1
  exact h1 ▸ List.mem_map_of_mem (List.mem_of_find?_eq_some hm)

theorem get_append {f : File} {k k' : Key} {n : Node} (h : k' ∉ f.nodes.map Prod.fst) :
    ({ f with nodes := f.nodes ++ [(k', n)] } : File).get k = if k = k' then some n else f.get k := by
  unfold File.get
  simp only [List.find?_append]
  by_cases hk : k = k'
  · subst hk
    have : f.nodes.find? (fun m => decide (m.1 = k)) = none := by
      rw [List.find?_eq_none]
      intro m hm
      simp only [decide_eq_true_eq]
      intro h'
      exact h (h' ▸ List.mem_map_of_mem hm)
    simp [this]
  · have : ¬ k' = k := fun h => hk h.symm
    simp [hk, this]

theorem get_create {f : File} {k k' : Key} {n : Node} :
    (create f k' n).1.get k = if k' ∉ f.nodes.map Prod.fst ∧ k = k' then some n else f.get k := by
  unfold create
  split
  · rename_i h
    simp [h]
  · rename_i h
    rw [get_append h]
    simp [h]

theorem get_create_kept {f : File} {k k' : Key} {m n : Node} (h : f.get k = some n) : (create f k' m).1.get k = some n := by
  rw [get_create, if_neg]
  · exact h
  · rintro ⟨h1, rfl⟩
    exact h1 (get_mem h)

theorem nodes_openGroup (f : File) (g : Option String) : (openGroup f g).nodes = f.nodes := by
  unfold openGroup
  split
  · rfl
  · split <;> rfl

theorem get_openGroup (f : File) (g : Option String) (k : Key) : (openGroup f g).get k = f.get k := by
  unfold File.get
  rw [nodes_openGroup]

theorem get_setNode (f : File) (k k' : Key) (n : Node) :
    ({ f with nodes := f.nodes.map (setNode k' n) } : File).get k = if k = k' then (f.get k).map fun _ => n else f.get k := by
  unfold File.get
  simp only
  induction f.nodes with
  | nil => simp
  | cons m t ih =>
    by_cases hk : k = k'
    · subst hk
      by_cases hm : m.1 = k
      · simp [-List.find?_map, -Option.map_map, setNode, hm]
      · simp only [if_true] at ih
        simp [-List.find?_map, -Option.map_map, setNode, hm, ih]
    · have hk' : ¬ k' = k := fun h => hk h.symm
      simp only [hk, if_false] at ih
      by_cases hm : m.1 = k'
      · have hm2 : ¬ m.1 = k := fun h => hk (h ▸ hm)
        simp [-List.find?_map, -Option.map_map, setNode, hm, hk', hk, ih]
      · by_cases hm2 : m.1 = k
        · simp [-List.find?_map, -Option.map_map, setNode, hm2, hk]
        · simp [-List.find?_map, -Option.map_map, setNode, hm, hm2, ih, hk]

theorem get_rwf_kept {f : File} {k : Key} {n : Node} (h : f.get k = some n) (g : Option String) (name : String) (s l : Nat) :
    (rwfWriter f g name s l).1.get k = some n := get_create_kept (by rw [get_openGroup, h])

theorem get_hist_kept {f : File} {k : Key} {n : Node} (h : f.get k = some n) (g name : String) (s : Nat) (b : List ℚ) :
    (histWriter f g name s b).1.get k = some n := by
  have h1 : (create (openGroup f (some g)) (some g, name) (.earray 32 s b.length [])).1.get k = some n := get_create_kept (by rw [get_openGroup, h])
  unfold histWriter
  split
  · rename_i f' _ heq
    rw [heq] at h1
    exact get_create_kept h1
  · rename_i f' _ heq
    rw [heq] at h1
    exact h1

theorem get_table_kept {f : File} {k : Key} {n : Node} (h : f.get k = some n) (g name : String) (r : List (Int × Int)) :
    (makeTable f g name r).1.get k = some n := get_create_kept (by rw [get_openGroup, h])

theorem get_run_kept {f : File} {k : Key} {n : Node} (h : f.get k = some n) : (runAndEventWriter f).1.get k = some n := by
  unfold runAndEventWriter
  split
  · exact h
  · have h1 : (create { f with groups := f.groups ++ ["Run"] } (some "Run", "runInfo") (.table [signed 32] [])).1.get k = some n :=
      get_create_kept h
    split
    · rename_i f' _ heq
      rw [heq] at h1
      exact get_create_kept h1
    · rename_i f' _ heq
      rw [heq] at h1
      exact h1

theorem get_appendRow_array {f : File} {k k' : Key} {n : Node} (h : f.get k = some n) (hn : ∀ r rs, n ≠ .table r rs) (row : List Int) :
    (appendRow f k' row).1.get k = some n := by
  unfold appendRow
  split
  · rename_i r rs heq
    split
    · rw [get_setNode, if_neg]
      · exact h
      · rintro rfl
        rw [heq] at h
        exact hn _ _ (Option.some.inj h).symm
    · exact h
  · exact h

theorem get_event_array {f : File} {k : Key} {n : Node} (h : f.get k = some n) (hn : ∀ r rs, n ≠ .table r rs) (a b c : Int) :
    (writeRunAndEvent f a b c).1.get k = some n := by
  unfold writeRunAndEvent
  have h1 := get_appendRow_array h hn (k' := (some "Run", "runInfo")) [a]
  split
  · rename_i f' _ heq
    rw [heq] at h1
    exact get_appendRow_array h1 hn _
  · rename_i f' _ heq
    rw [heq] at h1
    exact h1

theorem get_write {f : File} {k k' : Key} {b r c : Nat} {evs : List (List Int)} (h : f.get k = some (.earray b r c evs)) (a : NdArray) :
    (writeArray f k' a).1.get k = some (.earray b r c (if k' = k ∧ a.data.length = r * c then evs ++ [a.data.map (convert b)] else evs)) := by
  unfold writeArray
  by_cases hk : k' = k
  · subst hk
    simp only [h, true_and]
    split
    · rw [get_setNode]
      simp [h]
    · exact h
  · simp only [hk, false_and, if_false]
    split
    · split
      · rw [get_setNode, if_neg (fun h => hk h.symm)]
        exact h
      · exact h
    · exact h

/-- An array of the file holds, in order, exactly what was written to it: all the arrays with the right number of elements given to its writer, one event each,
after the events that it had.  Nothing that is done on other nodes changes it, whatever calls fail. -/
theorem array_history {f : File} {k : Key} {b r c : Nat} {evs : List (List Int)} (h : f.get k = some (.earray b r c evs)) (ops : List Op) :
    (run f ops).get k = some (.earray b r c (evs ++ (writtenTo k (r * c) ops).map fun data => data.map (convert b))) := by
  induction ops generalizing f evs with
  | nil => simpa [run, writtenTo] using h
  | cons op ops ih =>
    have hstep : ∀ f' : File, (run f' (op :: ops)) = run (step f' op).1 ops := fun _ => rfl
    rw [hstep]
    cases op with
    | openRwf g name n l => exact ih (get_rwf_kept h g name n l)
    | openHist g name n bc => exact ih (get_hist_kept h g name n bc)
    | openTable g name rg => exact ih (get_table_kept h g name rg)
    | openRun => exact ih (get_run_kept h)
    | row k' rw' => exact ih (get_appendRow_array h (by intros; simp) rw')
    | event a e t => exact ih (get_event_array h (by intros; simp) a e t)
    | write k' a =>
      rw [show (step f (.write k' a)).1 = (writeArray f k' a).1 from rfl, ih (get_write h a)]
      by_cases hw : k' = k ∧ a.data.length = r * c
      · simp [writtenTo, hw]
      · simp [writtenTo, hw]

/-- An array with another number of elements is refused and nothing changes. -/
theorem wrong_size {f : File} {k : Key} {b r c : Nat} {evs : List (List Int)} (h : f.get k = some (.earray b r c evs)) (a : NdArray)
    (hl : a.data.length ≠ r * c) : writeArray f k a = (f, .error .valueError) := by
  unfold writeArray
  simp [h, hl]

theorem truncate_int (n : Int) : truncate n = n := by
  unfold truncate; split <;> simp

/-- The conversion of a sample: an integer that fits is kept; a number that is not an integer loses its fraction, towards zero. -/
theorem convert_spec {bits : Nat} (hb : 0 < bits) (x : ℚ) (h : Fits bits (truncate x)) :
    |(convert bits x : ℚ) - x| < 1 ∧ |(convert bits x : ℚ)| ≤ |x| ∧ ((∃ n : Int, x = n) → (convert bits x : ℚ) = x) := by
  have hp : (2 : Int) ^ bits = 2 * 2 ^ (bits - 1) := by
    rw [← pow_succ']; congr 1; omega
  have hw : convert bits x = truncate x := by
    unfold convert wrap
    rw [Int.emod_eq_of_lt]
    · ring
    · have := h.1; linarith
    · have := h.2; linarith
  rw [hw]
  refine ⟨?_, ?_, ?_⟩
  · unfold truncate
    split
    · rw [abs_sub_comm, abs_of_nonneg] <;> linarith [Int.floor_le x, Int.lt_floor_add_one x]
    · rw [abs_of_nonneg] <;> linarith [Int.le_ceil x, Int.ceil_lt_add_one x]
  · unfold truncate
    split
    · rename_i h0
      have : (0 : ℚ) ≤ (⌊x⌋ : ℚ) := by exact_mod_cast Int.floor_nonneg.mpr h0
      rw [abs_of_nonneg this, abs_of_nonneg h0]
      exact Int.floor_le x
    · rename_i h0
      have h0 := not_le.mp h0
      have : (⌈x⌉ : ℚ) ≤ 0 := by
        have : ⌈x⌉ ≤ 0 := Int.ceil_le.mpr (by simpa using h0.le)
        exact_mod_cast this
      rw [abs_of_nonpos this, abs_of_neg h0]
      linarith [Int.le_ceil x]
  · rintro ⟨n, rfl⟩
    rw [truncate_int]

example : Fits 16 (truncate (-13 / 4)) ∧ convert 16 (-13 / 4) = -3 := by
  refine ⟨?_, by decide +kernel⟩
  unfold Fits
  have : truncate (-13 / 4) = -3 := by decide +kernel
  rw [this]; norm_num

/-- Values from 32768 on come back negative. -/
theorem wraps : convert 16 32768 = -32768 ∧ convert 16 65535 = -1 := by decide +kernel

/-- The `n`-th event of an array, sensor by sensor and sample by sample, is the `n`-th array written, converted; if the samples
are integers that fit, it is the same. -/
theorem round_trip {f : File} {k : Key} {b r c : Nat} (h : f.get k = some (.earray b r c [])) (ops : List Op) (n : Nat) (a : NdArray) (ha : IsMatrix a r c)
    (hn : (writtenTo k (r * c) ops)[n]? = some a.data) (s t : Nat) :
    (run f ops).sample k n s t = (entry a s t).map (convert b) ∧
    (0 < b → ∀ v : Int, entry a s t = some (v : ℚ) → Fits b v → (run f ops).sample k n s t = some v) := by
  have key : (run f ops).sample k n s t = (entry a s t).map (convert b) := by
    unfold File.sample entry
    rw [array_history h ops, ha.1]
    simp only [List.nil_append, List.getElem?_map, hn]
    by_cases hst : s < r ∧ t < c <;> simp [hst]
  refine ⟨key, fun hb v hv hf => ?_⟩
  rw [key, hv]
  simp only [Option.map_some, Option.some.injEq]
  have := (convert_spec hb (v : ℚ) (by rwa [truncate_int])).2.2 ⟨v, rfl⟩
  exact_mod_cast this

/-- Two arrays interleaved. -/
def sampleOps : List Op :=
  [.openRwf (some "RD") "pmtrwf" 2 3, .openRwf (some "RD") "sipmrwf" 1 2, .write (some "RD", "pmtrwf") ⟨[2, 3], [1, 2, 3, 4, 5, 6]⟩,
    .write (some "RD", "sipmrwf") ⟨[1, 2], [7, 8]⟩, .write (some "RD", "pmtrwf") ⟨[3], [1, 2, 3]⟩, .write (some "RD", "pmtrwf") ⟨[2, 3], [-1, -2, -3, -4, -5, -6]⟩]

example : run empty sampleOps = ⟨["RD"], [((some "RD", "pmtrwf"), .earray 16 2 3 [[1, 2, 3, 4, 5, 6], [-1, -2, -3, -4, -5, -6]]),
    ((some "RD", "sipmrwf"), .earray 16 1 2 [[7, 8]])]⟩ := by decide +kernel

example : (run empty sampleOps).sample (some "RD", "pmtrwf") 1 0 2 = some (-3) := by decide +kernel

/-- An array with its axes swapped has the right number of elements: it is accepted, and sensor 0 of the file holds the first samples of several sensors. -/
theorem transposed_accepted :
    ∃ f : File, f.get (none, "pmtrwf") = some (.earray 16 2 3 []) ∧
      (writeArray f (none, "pmtrwf") ⟨[3, 2], [10, 20, 11, 21, 12, 22]⟩).2 = .ok () ∧
      (writeArray f (none, "pmtrwf") ⟨[3, 2], [10, 20, 11, 21, 12, 22]⟩).1.sample (none, "pmtrwf") 0 0 1 = some 20 :=
  ⟨⟨[], [((none, "pmtrwf"), .earray 16 2 3 [])]⟩, rfl, by rfl, by decide +kernel⟩

/-- A writer of waveforms can be made for a node exactly if the file does not have it: then the node is an empty array of 16 bits with the shape asked for,
in a group that exists, and the rest of the file is as it was. -/
theorem new_rwf (f : File) (g : Option String) (name : String) (n l : Nat) :
    ((rwfWriter f g name n l).2 = .ok () ↔ (g, name) ∉ f.nodes.map Prod.fst) ∧
    ((g, name) ∉ f.nodes.map Prod.fst → (rwfWriter f g name n l).1.nodes = f.nodes ++ [((g, name), .earray 16 n l [])]) ∧
    (∀ s, s ∈ (rwfWriter f g name n l).1.groups ↔ s ∈ f.groups ∨ g = some s) := by
  refine ⟨?_, ?_, ?_⟩
  · unfold rwfWriter create
    rw [nodes_openGroup]
    split <;> simp_all
  · intro h
    unfold rwfWriter create
    rw [nodes_openGroup, if_neg h]
  · intro s
    have : (rwfWriter f g name n l).1.groups = (openGroup f g).groups := by
      unfold rwfWriter create
      split <;> rfl
    rw [this]
    unfold openGroup
    cases g with
    | none => simp
    | some x =>
      simp only [Option.some.injEq]
      split
      · constructor
        · exact Or.inl
        · rintro (h | rfl) <;> assumption
      · simp [eq_comm]

theorem bins_name (name : String) : name ++ "_bins" ≠ name := by
  intro h
  have := congrArg String.length h
  simp only [String.length_append] at this
  have h5 : "_bins".length = 5 := by decide
  omega

/-- A writer of histograms on a file with neither of its nodes makes an empty array of 32 bits with one column for each bin, and stores the centres of the bins as they were given. -/
theorem new_hist (f : File) (g name : String) (n : Nat) (bins : List ℚ) (h1 : (some g, name) ∉ f.nodes.map Prod.fst)
    (h2 : (some g, name ++ "_bins") ∉ f.nodes.map Prod.fst) :
    (histWriter f g name n bins).2 = .ok () ∧ g ∈ (histWriter f g name n bins).1.groups ∧
    (histWriter f g name n bins).1.nodes =
      f.nodes ++ [((some g, name), .earray 32 n bins.length []), ((some g, name ++ "_bins"), .carray bins)] := by
  have hc : create (openGroup f (some g)) (some g, name) (.earray 32 n bins.length []) =
      ({ openGroup f (some g) with nodes := f.nodes ++ [((some g, name), .earray 32 n bins.length [])] }, .ok ()) := by
    unfold create
    rw [nodes_openGroup, if_neg h1]
  have hne := bins_name name
  have hg : g ∈ (openGroup f (some g)).groups := by
    unfold openGroup
    simp only
    split <;> simp_all
  unfold histWriter
  rw [hc]
  simp only
  unfold create
  rw [if_neg]
  · exact ⟨rfl, hg, by simp⟩
  · simp only [List.map_append, List.map_cons, List.map_nil, List.mem_append, List.mem_singleton, not_or]
    refine ⟨h2, ?_⟩
    simp only [Prod.mk.injEq, true_and]
    exact hne

example : (histWriter empty "HIST" "pmt" 2 [1 / 2, 3 / 2, 5 / 2]).1 =
    ⟨["HIST"], [((some "HIST", "pmt"), .earray 32 2 3 []), ((some "HIST", "pmt_bins"), .carray [1 / 2, 3 / 2, 5 / 2])]⟩ := by decide +kernel

end Verif.WfIO
