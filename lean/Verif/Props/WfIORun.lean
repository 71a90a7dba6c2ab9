import Verif.Props.WfIO
/-!
# C100 The tables of runs and events
-/
namespace Verif.WfIO
open Verif Verif.Spec.WfIO

theorem get_appendRow_other {f : File} {k k' : Key} (h : k ≠ k') (row : List Int) : (appendRow f k' row).1.get k = f.get k := by
  unfold appendRow
  split
  · split
    · rw [get_setNode, if_neg h]
    · rfl
  · rfl

theorem get_write_table {f : File} {k k' : Key} {rg : List (Int × Int)} {rows : List (List Int)} (h : f.get k = some (.table rg rows)) (a : NdArray) :
    (writeArray f k' a).1.get k = some (.table rg rows) := by
  unfold writeArray
  split
  · rename_i b r c evs heq
    split
    · rw [get_setNode, if_neg]
      · exact h
      · rintro rfl
        rw [heq] at h
        simp at h
    · exact h
  · exact h

theorem appendRow_fits {f : File} {k : Key} {rg : List (Int × Int)} {rows : List (List Int)} (h : f.get k = some (.table rg rows)) (row : List Int)
    (hf : (row.zip rg).all (fun vr => decide (vr.2.1 ≤ vr.1) && decide (vr.1 ≤ vr.2.2)) = true) :
    (appendRow f k row).2 = .ok () ∧ (appendRow f k row).1.get k = some (.table rg (rows ++ [row])) := by
  unfold appendRow
  simp only [h, hf, if_true, true_and]
  rw [get_setNode]
  simp [h]

theorem event_step {f : File} {rows evs : List (List Int)} (h1 : f.get (some "Run", "runInfo") = some (.table [signed 32] rows))
    (h2 : f.get (some "Run", "events") = some (.table [signed 64, unsigned 64] evs)) (x : Int × Int × Int) (hx : FitsEvent x) :
    (writeRunAndEvent f x.1 x.2.1 x.2.2).2 = .ok () ∧
    (writeRunAndEvent f x.1 x.2.1 x.2.2).1.get (some "Run", "runInfo") = some (.table [signed 32] (rows ++ [[x.1]])) ∧
    (writeRunAndEvent f x.1 x.2.1 x.2.2).1.get (some "Run", "events") = some (.table [signed 64, unsigned 64] (evs ++ [[x.2.1, x.2.2]])) := by
  obtain ⟨hr, he, ht0, ht1⟩ := hx
  unfold Fits at hr he
  norm_num at hr he ht1
  have a1 := appendRow_fits h1 [x.1] (by simp [signed]; omega)
  have h2' : (appendRow f (some "Run", "runInfo") [x.1]).1.get (some "Run", "events") = some (.table [signed 64, unsigned 64] evs) := by
    rw [get_appendRow_other (by decide)]; exact h2
  have a2 := appendRow_fits h2' [x.2.1, x.2.2] (by simp [signed, unsigned]; omega)
  have heq : appendRow f (some "Run", "runInfo") [x.1] = ((appendRow f (some "Run", "runInfo") [x.1]).1, .ok ()) := by
    rw [← a1.1]
  unfold writeRunAndEvent
  rw [heq]
  simp only
  refine ⟨a2.1, ?_, a2.2⟩
  rw [get_appendRow_other (by decide)]
  exact a1.2

theorem history {f : File} {rows evs : List (List Int)} (h1 : f.get (some "Run", "runInfo") = some (.table [signed 32] rows))
    (h2 : f.get (some "Run", "events") = some (.table [signed 64, unsigned 64] evs)) (ops : List Op) (hh : ∀ op ∈ ops, byHand op = false)
    (hf : ∀ x ∈ eventsOf ops, FitsEvent x) :
    (run f ops).get (some "Run", "runInfo") = some (.table [signed 32] (rows ++ (eventsOf ops).map fun x => [x.1])) ∧
    (run f ops).get (some "Run", "events") = some (.table [signed 64, unsigned 64] (evs ++ (eventsOf ops).map fun x => [x.2.1, x.2.2])) := by
  induction ops generalizing f rows evs with
  | nil => simpa [run, eventsOf] using ⟨h1, h2⟩
  | cons op ops ih =>
    have hstep : (run f (op :: ops)) = run (step f op).1 ops := rfl
    rw [hstep]
    have hh' : ∀ op ∈ ops, byHand op = false := fun o ho => hh o (List.mem_cons_of_mem _ ho)
    have hop := hh op (by simp)
    cases op with
    | openRwf g name n l => exact ih (get_rwf_kept h1 g name n l) (get_rwf_kept h2 g name n l) hh' hf
    | openHist g name n bc => exact ih (get_hist_kept h1 g name n bc) (get_hist_kept h2 g name n bc) hh' hf
    | openTable g name rg => exact ih (get_table_kept h1 g name rg) (get_table_kept h2 g name rg) hh' hf
    | openRun => exact ih (get_run_kept h1) (get_run_kept h2) hh' hf
    | row k' rw' =>
      simp only [byHand, decide_eq_false_iff_not, not_or] at hop
      refine ih ?_ ?_ hh' hf
      · rw [show step f (.row k' rw') = appendRow f k' rw' from rfl, get_appendRow_other (fun h => hop.1 h.symm)]; exact h1
      · rw [show step f (.row k' rw') = appendRow f k' rw' from rfl, get_appendRow_other (fun h => hop.2 h.symm)]; exact h2
    | event a e t =>
      have hx : FitsEvent (a, e, t) := hf _ (by simp [eventsOf])
      have := event_step h1 h2 (a, e, t) hx
      have := ih this.2.1 this.2.2 hh' (fun x hx => hf x (by simp [eventsOf, hx]))
      simpa [eventsOf, step] using this
    | write k' a => exact ih (get_write_table h1 a) (get_write_table h2 a) hh' hf

theorem run_tables (f : File) (hg : "Run" ∉ f.groups) (hn1 : (some "Run", "runInfo") ∉ f.nodes.map Prod.fst) (hn2 : (some "Run", "events") ∉ f.nodes.map Prod.fst)
    (ops : List Op) (hh : ∀ op ∈ ops, byHand op = false) (hf : ∀ x ∈ eventsOf ops, FitsEvent x) :
    (runAndEventWriter f).2 = .ok () ∧
    (run f (.openRun :: ops)).get (some "Run", "runInfo") = some (.table [signed 32] ((eventsOf ops).map fun x => [x.1])) ∧
    (run f (.openRun :: ops)).get (some "Run", "events") = some (.table [signed 64, unsigned 64] ((eventsOf ops).map fun x => [x.2.1, x.2.2])) := by
  have hr : runAndEventWriter f = ({ groups := f.groups ++ ["Run"], nodes := (f.nodes ++ [((some "Run", "runInfo"), .table [signed 32] [])]) ++
      [((some "Run", "events"), .table [signed 64, unsigned 64] [])] }, .ok ()) := by
    have hc : create { f with groups := f.groups ++ ["Run"] } (some "Run", "runInfo") (.table [signed 32] []) =
        ({ groups := f.groups ++ ["Run"], nodes := f.nodes ++ [((some "Run", "runInfo"), .table [signed 32] [])] }, .ok ()) := by
      unfold create
      rw [if_neg hn1]
    unfold runAndEventWriter
    rw [if_neg hg, hc]
    simp only
    unfold create
    rw [if_neg]
    simp only [List.map_append, List.map_cons, List.map_nil, List.mem_append, List.mem_singleton, not_or]
    exact ⟨hn2, by decide⟩
  have hn3 : (some "Run", "events") ∉ (f.nodes ++ [(((some "Run", "runInfo") : Key), Node.table [signed 32] [])]).map Prod.fst := by
    simp only [List.map_append, List.map_cons, List.map_nil, List.mem_append, List.mem_singleton, not_or]
    exact ⟨hn2, by decide⟩
  have g1 : (runAndEventWriter f).1.get (some "Run", "runInfo") = some (.table [signed 32] []) := by
    rw [hr]
    have := get_append (f := ⟨f.groups ++ ["Run"], f.nodes ++ [(((some "Run", "runInfo") : Key), Node.table [signed 32] [])]⟩) (k := (some "Run", "runInfo"))
      (n := Node.table [signed 64, unsigned 64] []) hn3
    simp only at this
    rw [this, if_neg (by decide)]
    have := get_append (f := ⟨f.groups ++ ["Run"], f.nodes⟩) (k := (some "Run", "runInfo")) (n := Node.table [signed 32] []) hn1
    simp only at this
    rw [this, if_pos trivial]
  have g2 : (runAndEventWriter f).1.get (some "Run", "events") = some (.table [signed 64, unsigned 64] []) := by
    rw [hr]
    have := get_append (f := ⟨f.groups ++ ["Run"], f.nodes ++ [(((some "Run", "runInfo") : Key), Node.table [signed 32] [])]⟩) (k := (some "Run", "events"))
      (n := Node.table [signed 64, unsigned 64] []) hn3
    simp only at this
    rw [this, if_pos trivial]
  have := history g1 g2 ops hh hf
  simp only [List.nil_append] at this
  exact ⟨by rw [hr], this.1, this.2⟩

/-- The tables of the run have one row for each event written, in order: the run number in one, the number and the time of the event in the other, so
that their rows correspond; whatever else is written to the file. -/
theorem run_and_events (f : File) (hg : "Run" ∉ f.groups) (hn1 : (some "Run", "runInfo") ∉ f.nodes.map Prod.fst) (hn2 : (some "Run", "events") ∉ f.nodes.map Prod.fst)
    (ops : List Op) (hh : ∀ op ∈ ops, byHand op = false) (hf : ∀ x ∈ eventsOf ops, FitsEvent x) :
    (runAndEventWriter f).2 = .ok () ∧
    readRunAndEvent (run f (.openRun :: ops)) = .ok ((eventsOf ops).map fun x => [x.1], (eventsOf ops).map fun x => [x.2.1, x.2.2]) := by
  obtain ⟨h0, h1, h2⟩ := run_tables f hg hn1 hn2 ops hh hf
  refine ⟨h0, ?_⟩
  unfold readRunAndEvent
  simp only [h1, h2]

theorem appendRow_refused {f : File} {k : Key} {rg : List (Int × Int)} {rows : List (List Int)} (h : f.get k = some (.table rg rows)) (row : List Int)
    (hf : ¬ (row.zip rg).all (fun vr => decide (vr.2.1 ≤ vr.1) && decide (vr.1 ≤ vr.2.2)) = true) :
    appendRow f k row = (f, .error (.other "OverflowError")) := by
  unfold appendRow
  simp only [h]
  rw [if_neg hf]

/-- C100. An event whose numbers do not fit in the tables (run of 32 bits, event of 64, time of 64 without sign) is an `OverflowError`, and it has no row in the table of events; its run has one in the
other table if it is not the number that does not fit. -/
theorem event_refused (f : File) (hg : "Run" ∉ f.groups) (hn1 : (some "Run", "runInfo") ∉ f.nodes.map Prod.fst) (hn2 : (some "Run", "events") ∉ f.nodes.map Prod.fst)
    (ops : List Op) (hh : ∀ op ∈ ops, byHand op = false) (hf : ∀ x ∈ eventsOf ops, FitsEvent x) (r e t : Int) (hx : ¬ FitsEvent (r, e, t)) :
    (step (run f (.openRun :: ops)) (.event r e t)).2 = .error (.other "OverflowError") ∧
    (¬ Fits 32 r → readRunAndEvent (step (run f (.openRun :: ops)) (.event r e t)).1 = .ok ((eventsOf ops).map fun x => [x.1], (eventsOf ops).map fun x => [x.2.1, x.2.2])) ∧
    (Fits 32 r → readRunAndEvent (step (run f (.openRun :: ops)) (.event r e t)).1 = .ok (((eventsOf ops).map fun x => [x.1]) ++ [[r]], (eventsOf ops).map fun x => [x.2.1, x.2.2])) := by
  obtain ⟨_, h1, h2⟩ := run_tables f hg hn1 hn2 ops hh hf
  unfold FitsEvent at hx
  dsimp only at hx
  generalize run f (.openRun :: ops) = g at h1 h2
  change (writeRunAndEvent g r e t).2 = _ ∧ (_ → readRunAndEvent (writeRunAndEvent g r e t).1 = _) ∧ (_ → readRunAndEvent (writeRunAndEvent g r e t).1 = _)
  by_cases hr : Fits 32 r
  · have hr' := hr
    unfold Fits at hr'
    norm_num at hr'
    have a1 := appendRow_fits h1 [r] (by simp [signed]; omega)
    have h2' : (appendRow g (some "Run", "runInfo") [r]).1.get (some "Run", "events") = some (.table [signed 64, unsigned 64] ((eventsOf ops).map fun x => [x.2.1, x.2.2])) := by
      rw [get_appendRow_other (by decide)]; exact h2
    have heq : appendRow g (some "Run", "runInfo") [r] = ((appendRow g (some "Run", "runInfo") [r]).1, .ok ()) := by rw [← a1.1]
    have hw : writeRunAndEvent g r e t = ((appendRow g (some "Run", "runInfo") [r]).1, .error (.other "OverflowError")) := by
      unfold writeRunAndEvent
      rw [heq]
      dsimp only
      refine appendRow_refused h2' [e, t] ?_
      intro hc
      apply hx
      refine ⟨hr, ?_⟩
      simp [signed, unsigned] at hc
      unfold Fits
      norm_num
      omega
    rw [hw]
    refine ⟨rfl, fun hn => absurd hr hn, fun _ => ?_⟩
    unfold readRunAndEvent
    dsimp only
    rw [a1.2, h2']
  · have hw : writeRunAndEvent g r e t = (g, .error (.other "OverflowError")) := by
      unfold writeRunAndEvent
      rw [appendRow_refused h1 [r]]
      intro hc
      apply hr
      simp [signed] at hc
      unfold Fits
      norm_num
      omega
    rw [hw]
    refine ⟨rfl, fun _ => ?_, fun hn => absurd hn hr⟩
    unfold readRunAndEvent
    dsimp only
    rw [h1, h2]

example : ¬ FitsEvent (8000, 1, 2 ^ 64) ∧ ¬ FitsEvent (2 ^ 31, 1, 5) ∧ Fits 32 8000 := by
  unfold FitsEvent Fits
  norm_num

example : readRunAndEvent (run empty (.openRun :: [.event 8000 1 100, .openRwf none "pmtrd" 1 1, .event 8000 7 200, .write (none, "pmtrd") ⟨[1, 1], [4]⟩])) =
    .ok ([[8000], [8000]], [[1, 100], [7, 200]]) := by rfl

example : ∀ x ∈ eventsOf [.event 8000 1 100, .event 8000 7 200], FitsEvent x := by
  simp [eventsOf, FitsEvent, Fits]

/-- A second writer of the tables of the run is refused, also when only the group exists. -/
theorem run_group_exists (f : File) (h : "Run" ∈ f.groups) : runAndEventWriter f = (f, .error (.other "NodeError")) := by
  simp [runAndEventWriter, h]

/-- The map of events can be made after the tables of the run, but not before. -/
theorem order_of_tables :
    (makeTable (runAndEventWriter empty).1 "Run" "eventMap" [signed 64, signed 64]).2 = .ok () ∧
    (runAndEventWriter (makeTable empty "Run" "eventMap" [signed 64, signed 64]).1).2 = .error (.other "NodeError") := by
  constructor <;> rfl

/-- An event whose number does not fit leaves a row of the run without its event. -/
theorem rows_out_of_step :
    (step (run empty [.openRun]) (.event 1 (2 ^ 63) 5)).2 = .error (.other "OverflowError") ∧
    readRunAndEvent (run empty [.openRun, .event 1 (2 ^ 63) 5, .event 1 2 6]) = .ok ([[1], [1]], [[2, 6]]) := by
  constructor <;> rfl

end Verif.WfIO
