import Verif.Props.IreneRun
/-!
# Runs of irene and hypathia with an event that fails (C126)
-/
namespace Verif.IreneRun
open Verif.PMaps (Peak)

theorem cityRun_fails {W V : Type} (f : W → V → Except PyErr (Option (List Peak × List Peak))) (run : Int) {a b : List (Raw W V)} {r : Raw W V} {e : PyErr}
    (ha : ∀ x ∈ a, ∃ p, f x.pmt x.sipm = .ok p) (hr : f r.pmt r.sipm = .error e) : cityRun f run (a ++ r :: b) = .error e := by
  have key : (a ++ r :: b).mapM (runEvent f) = .error e := by
    induction a with
    | nil =>
      rw [List.nil_append, List.mapM_cons]
      unfold runEvent
      rw [hr]
      rfl
    | cons x xs ih =>
      obtain ⟨p, hp⟩ := ha x List.mem_cons_self
      rw [List.cons_append, List.mapM_cons, ih fun y hy => ha y (List.mem_cons_of_mem _ hy)]
      unfold runEvent
      rw [hp]
      rfl
  unfold cityRun
  rw [key]

/-- **C126**: the first event of irene whose PMap cannot be made (waveforms of a wrong size, for example) ends the run with its exception; it is not skipped. -/
theorem irene_fails (c : Irene) (run : Int) {a b : List IreneRaw} {r : IreneRaw} {e : PyErr} (ha : ∀ x ∈ a, ∃ p, c.pmap x.pmt x.sipm = .ok p)
    (hr : c.pmap r.pmt r.sipm = .error e) : ireneRun c run (a ++ r :: b) = .error e := cityRun_fails _ _ ha hr

/-- **C126**: and the same in hypathia. -/
theorem hypathia_fails (c : Hypathia) (run : Int) {a b : List (Raw Mat (List (List ℚ)))} {r : Raw Mat (List (List ℚ))} {e : PyErr} (ha : ∀ x ∈ a, ∃ p, c.pmap x.pmt x.sipm = .ok p)
    (hr : c.pmap r.pmt r.sipm = .error e) : hypathiaRun c run (a ++ r :: b) = .error e := cityRun_fails _ _ ha hr

/-- Waveforms without PMTs after a good event: the run ends with the `IndexError` of the second. -/
example : hypathiaRun caseHypathia 0 [⟨4, 100, PmapBuild.exMc, []⟩, ⟨5, 101, ⟨[], 0⟩, []⟩, ⟨6, 102, PmapBuild.exMc, []⟩] = .error .indexError := by
  refine hypathia_fails caseHypathia 0 (a := [⟨4, 100, PmapBuild.exMc, []⟩]) (fun x hx => ?_) (by rfl)
  rw [List.mem_singleton.1 hx]
  have h : (caseHypathia.pmap PmapBuild.exMc []).toOption.isSome = true := by decide +kernel
  dsimp only
  cases h' : caseHypathia.pmap PmapBuild.exMc [] with
  | ok p => exact ⟨p, rfl⟩
  | error e => rw [h'] at h; cases h

end Verif.IreneRun
