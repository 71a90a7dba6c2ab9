import Verif.Model.XY
import Verif.Props.Core
import Verif.Lemmas.Lists
/-!
# C25, C26: barycenter and corona
-/
namespace Verif.XY
open Verif.Core

/-- Total charge. -/
def charge (sipms : List Sipm) : ℚ := (sipms.map Sipm.q).sum

/-- `c` summarises the SiPMs `g`: total charge, number, charge-weighted mean position and variance. -/
structure Summary (g : List Sipm) (c : Cluster) : Prop where
  q : c.q = charge g
  n : c.nsipm = g.length
  x : c.x * c.q = (g.map fun s => s.q * s.x).sum
  y : c.y * c.q = (g.map fun s => s.q * s.y).sum
  vx : c.vx * c.q = (g.map fun s => s.q * (s.x - c.x) ^ 2).sum
  vy : c.vy * c.q = (g.map fun s => s.q * (s.y - c.y) ^ 2).sum

/-! ### C25 -/

theorem dot_map (g : List Sipm) (f : Sipm → ℚ) : dot (g.map f) (g.map Sipm.q) = (g.map fun s => s.q * f s).sum := by
  induction g with
  | nil => rfl
  | cons s g ih => simp only [List.map_cons, dot_cons, ih, List.sum_cons]; ring

theorem thresholdCheck_ok {sipms above : List Sipm} {thr : ℚ} (h : thresholdCheck sipms thr = .ok above) :
    above = (sipms.filter fun s => decide (thr ≤ s.q)) ∧ charge above ≠ 0 ∧ above ≠ [] := by
  simp only [thresholdCheck] at h
  split at h; · cases h
  split at h; · cases h
  split at h; · cases h
  split at h; · cases h
  rename_i h1 h2
  cases h
  exact ⟨rfl, h2, by simpa using h1⟩

theorem barycenter_ok {sipms above : List Sipm} {thr : ℚ} (h : thresholdCheck sipms thr = .ok above) :
    ∃ c, barycenter sipms thr = .ok [c] ∧ Summary above c ∧ charge above ≠ 0 ∧ above ≠ [] := by
  have hq : charge above ≠ 0 ∧ above ≠ [] := (thresholdCheck_ok h).2
  have hw : (above.map Sipm.q).sum ≠ 0 := hq.1
  have ex := wmv_eq (above.map Sipm.x) (above.map Sipm.q) (by simp) hw
  have ey := wmv_eq (above.map Sipm.y) (above.map Sipm.q) (by simp) hw
  refine ⟨_, by simp only [barycenter, h, ex, ey]; rfl, ?_, hq⟩
  have key : ∀ (f : Sipm → ℚ), dot ((above.map f).map fun x => (x - dot (above.map f) (above.map Sipm.q) / (above.map Sipm.q).sum) ^ 2) (above.map Sipm.q) =
      (above.map fun s => s.q * (f s - dot (above.map f) (above.map Sipm.q) / (above.map Sipm.q).sum) ^ 2).sum := by
    intro f
    rw [List.map_map]
    exact dot_map above _
  refine ⟨rfl, rfl, ?_, ?_, ?_, ?_⟩
  · simp only; rw [div_mul_cancel₀ _ hw, dot_map]
  · simp only; rw [div_mul_cancel₀ _ hw, dot_map]
  · simp only; rw [div_mul_cancel₀ _ hw, key]
  · simp only; rw [div_mul_cancel₀ _ hw, key]

/-- **C25** The documented failures, in the order in which they are checked; otherwise one cluster, which summarises
exactly the SiPMs with charge at least the threshold. -/
theorem barycenter_spec (sipms : List Sipm) (thr : ℚ) :
    (sipms = [] → barycenter sipms thr = .error (.other "SipmEmptyList")) ∧
    (sipms ≠ [] → charge sipms = 0 → barycenter sipms thr = .error (.other "SipmZeroCharge")) ∧
    (charge sipms ≠ 0 → (∀ s ∈ sipms, s.q < thr) → barycenter sipms thr = .error (.other "SipmEmptyListAboveQthr")) ∧
    (charge sipms ≠ 0 → (∃ s ∈ sipms, thr ≤ s.q) → charge (sipms.filter fun s => decide (thr ≤ s.q)) = 0 →
      barycenter sipms thr = .error (.other "SipmZeroChargeAboveQthr")) ∧
    (charge sipms ≠ 0 → charge (sipms.filter fun s => decide (thr ≤ s.q)) ≠ 0 →
      ∃ c, barycenter sipms thr = .ok [c] ∧ Summary (sipms.filter fun s => decide (thr ≤ s.q)) c) := by
  have ne_of_charge : ∀ {l : List Sipm}, charge l ≠ 0 → ¬ l.length = 0 := by
    intro l h hc
    rw [List.length_eq_zero_iff] at hc
    subst hc; exact h rfl
  refine ⟨?_, ?_, ?_, ?_, ?_⟩
  · rintro rfl; rfl
  · intro h1 h2
    have h1' : ¬ sipms.length = 0 := by simpa using h1
    have h2' : (sipms.map Sipm.q).sum = 0 := h2
    simp [barycenter, thresholdCheck, h1, h2']
  · intro h1 h2
    have h3 : (sipms.filter fun s => decide (thr ≤ s.q)) = [] := by
      rw [List.filter_eq_nil_iff]; intro s hs; simpa using h2 s hs
    have h1' : ¬ (sipms.map Sipm.q).sum = 0 := h1
    simp [barycenter, thresholdCheck, ne_of_charge h1, h1', h3]
  · rintro h1 ⟨s, hs, hq⟩ h2
    have h3 : ¬ (sipms.filter fun s => decide (thr ≤ s.q)).length = 0 := by
      intro hc
      have : s ∈ sipms.filter fun s => decide (thr ≤ s.q) := List.mem_filter.2 ⟨hs, by simpa using hq⟩
      rw [List.length_eq_zero_iff.1 hc] at this; cases this
    have h1' : ¬ (sipms.map Sipm.q).sum = 0 := h1
    have h2' : ((sipms.filter fun s => decide (thr ≤ s.q)).map Sipm.q).sum = 0 := h2
    simp only [barycenter, thresholdCheck, ne_of_charge h1, h1', h3, h2', if_true, if_false]
  · intro h1 h2
    have h : thresholdCheck sipms thr = .ok (sipms.filter fun s => decide (thr ≤ s.q)) := by
      have h1' : ¬ (sipms.map Sipm.q).sum = 0 := h1
      have h2' : ¬ ((sipms.filter fun s => decide (thr ≤ s.q)).map Sipm.q).sum = 0 := h2
      simp only [thresholdCheck, ne_of_charge h1, h1', ne_of_charge h2, h2', if_false]
    obtain ⟨c, hc, hs, _⟩ := barycenter_ok h
    exact ⟨c, hc, hs⟩

theorem sum_sq_nonneg (g : List Sipm) (hq : ∀ s ∈ g, 0 ≤ s.q) (f : Sipm → ℚ) : 0 ≤ (g.map fun s => s.q * f s ^ 2).sum := by
  apply List.sum_nonneg
  intro x hx
  obtain ⟨s, hs, rfl⟩ := List.mem_map.1 hx
  exact mul_nonneg (hq s hs) (sq_nonneg _)

/-- **C25** For non-negative charges (e.g. a non-negative threshold) the position is inside the bounding box of the
SiPMs above threshold and the variances are non-negative. -/
theorem summary_bounds {g : List Sipm} {c : Cluster} (h : Summary g c) (hq : ∀ s ∈ g, 0 ≤ s.q) (hne : charge g ≠ 0) :
    (∀ lo hi, (∀ s ∈ g, lo ≤ s.x ∧ s.x ≤ hi) → lo ≤ c.x ∧ c.x ≤ hi) ∧
    (∀ lo hi, (∀ s ∈ g, lo ≤ s.y ∧ s.y ≤ hi) → lo ≤ c.y ∧ c.y ≤ hi) ∧ 0 ≤ c.vx ∧ 0 ≤ c.vy := by
  have hpos : 0 < c.q := by
    rw [h.q]
    apply lt_of_le_of_ne _ (Ne.symm hne)
    apply List.sum_nonneg
    intro x hx; obtain ⟨s, hs, rfl⟩ := List.mem_map.1 hx; exact hq s hs
  have box : ∀ (f : Sipm → ℚ) (m : ℚ), m * c.q = (g.map fun s => s.q * f s).sum →
      ∀ lo hi, (∀ s ∈ g, lo ≤ f s ∧ f s ≤ hi) → lo ≤ m ∧ m ≤ hi := by
    intro f m hm lo hi hb
    have h1 : lo * c.q ≤ m * c.q := by
      rw [hm, h.q, charge, ← List.sum_map_mul_left]
      apply List.sum_le_sum
      intro s hs
      have := mul_le_mul_of_nonneg_left (hb s hs).1 (hq s hs)
      linarith
    have h2 : m * c.q ≤ hi * c.q := by
      rw [hm, h.q, charge, ← List.sum_map_mul_left]
      apply List.sum_le_sum
      intro s hs
      have := mul_le_mul_of_nonneg_left (hb s hs).2 (hq s hs)
      linarith
    exact ⟨le_of_mul_le_mul_right h1 hpos, le_of_mul_le_mul_right h2 hpos⟩
  refine ⟨box Sipm.x c.x h.x, box Sipm.y c.y h.y, ?_, ?_⟩
  · have := sum_sq_nonneg g hq fun s => s.x - c.x
    rw [← h.vx] at this
    exact nonneg_of_mul_nonneg_left this hpos
  · have := sum_sq_nonneg g hq fun s => s.y - c.y
    rw [← h.vy] at this
    exact nonneg_of_mul_nonneg_left this hpos

/-- A pattern of four SiPMs, one below threshold. -/
def exampleSipms : List Sipm := [⟨0, 0, 10⟩, ⟨10, 0, 30⟩, ⟨10, 10, 10⟩, ⟨50, 50, 1⟩]

example : barycenter exampleSipms 5 = .ok [⟨50, 8, 2, 16, 16, 3⟩] := by decide +kernel
example : charge exampleSipms ≠ 0 ∧ charge (exampleSipms.filter fun s => decide (5 ≤ s.q)) ≠ 0 := by decide +kernel
example : charge [⟨0, 0, 1⟩, ⟨0, 0, -2⟩, ⟨0, 0, -1⟩] ≠ 0 ∧
    charge ([⟨0, 0, 1⟩, ⟨0, 0, -2⟩, ⟨0, 0, -1⟩].filter fun s => decide (-1 ≤ s.q)) = 0 := by decide +kernel

/-! ### C26 -/

/-- Koenig-Huygens: moments about any point. -/
theorem moment (g : List Sipm) (f : Sipm → ℚ) (m t : ℚ) (hm : m * charge g = (g.map fun s => s.q * f s).sum) :
    (g.map fun s => s.q * (f s - t) ^ 2).sum = (g.map fun s => s.q * (f s - m) ^ 2).sum + (m - t) ^ 2 * charge g := by
  have expand : ∀ t, (g.map fun s => s.q * (f s - t) ^ 2).sum =
      (g.map fun s => s.q * f s ^ 2).sum - 2 * t * (g.map fun s => s.q * f s).sum + t ^ 2 * charge g := by
    intro t
    clear hm
    induction g with
    | nil => simp [charge]
    | cons s g ih => simp only [charge, List.map_cons, List.sum_cons] at ih ⊢; rw [ih]; ring
  rw [expand t, expand m, ← hm]
  ring

/-- The barycenter of SiPMs in a disc lies in the disc. -/
theorem summary_in_disc {g : List Sipm} {c : Cluster} (h : Summary g c) (hq : ∀ s ∈ g, 0 ≤ s.q) (hne : charge g ≠ 0) (x y r : ℚ)
    (hd : ∀ s ∈ g, nearby x y r s.x s.y = true) : (c.x - x) ^ 2 + (c.y - y) ^ 2 ≤ r ^ 2 := by
  have hnn : 0 ≤ charge g := by
    apply List.sum_nonneg
    intro x hx; obtain ⟨s, hs, rfl⟩ := List.mem_map.1 hx; exact hq s hs
  have hpos : 0 < charge g := lt_of_le_of_ne hnn (Ne.symm hne)
  have mx := moment g Sipm.x c.x x (by rw [← h.q]; exact h.x)
  have my := moment g Sipm.y c.y y (by rw [← h.q]; exact h.y)
  have nx := sum_sq_nonneg g hq fun s => s.x - c.x
  have ny := sum_sq_nonneg g hq fun s => s.y - c.y
  have hle : (g.map fun s => s.q * (s.x - x) ^ 2).sum + (g.map fun s => s.q * (s.y - y) ^ 2).sum ≤ r ^ 2 * charge g := by
    rw [← List.sum_map_add, charge, ← List.sum_map_mul_left]
    apply List.sum_le_sum
    intro s hs
    have h1 := hd s hs
    simp only [nearby, decide_eq_true_eq] at h1
    have := mul_le_mul_of_nonneg_left h1 (hq s hs)
    linarith
  have : ((c.x - x) ^ 2 + (c.y - y) ^ 2) * charge g ≤ r ^ 2 * charge g := by linarith
  exact le_of_mul_le_mul_right this hpos

/-- An iteration that goes on: what it found and what it left. -/
theorem coronaStep_next {p : CoronaParams} {sipms rest : List Sipm} {cs : List Cluster} (h : coronaStep p sipms = .next cs rest) :
    ∃ (near : List Sipm) (lm : ℚ × ℚ), near = sipms.filter (fun s => nearby lm.1 lm.2 p.newLmRadius s.x s.y) ∧
      rest = sipms.filter (fun s => !nearby lm.1 lm.2 p.newLmRadius s.x s.y) ∧
      (cs = [] ∨ (∃ c, cs = [c] ∧ Summary (near.filter fun s => decide (0 ≤ s.q)) c ∧ barycenter near = .ok [c]) ∧
        p.msipm - (if p.considerMasked then countMasked lm.1 lm.2 p.newLmRadius p.all else 0 : Int) ≤ near.length) := by
  unfold coronaStep at h
  cases h1 : argmax (sipms.map Sipm.q) with
  | error e => simp [h1] at h
  | ok i =>
    cases h2 : sipms[i]? with
    | none => simp [h1, h2] at h
    | some hot =>
      simp only [h1, h2] at h
      split at h
      · cases h
      · cases h3 : barycenter (sipms.filter fun s => nearby hot.x hot.y p.lmRadius s.x s.y) with
        | error e => simp [h3] at h
        | ok l =>
          cases l with
          | nil => simp [h3] at h
          | cons lm l =>
            simp only [h3] at h
            by_cases hm : p.msipm - (if p.considerMasked then (countMasked lm.x lm.y p.newLmRadius p.all : Int) else 0) ≤
                (sipms.filter fun s => nearby lm.x lm.y p.newLmRadius s.x s.y).length
            · rw [if_pos hm] at h
              cases h4 : barycenter (sipms.filter fun s => nearby lm.x lm.y p.newLmRadius s.x s.y) with
              | error e => simp [h4] at h
              | ok cs' =>
                simp only [h4, Step.next.injEq] at h
                obtain ⟨rfl, rfl⟩ := h
                refine ⟨_, (lm.x, lm.y), rfl, rfl, Or.inr ⟨?_, hm⟩⟩
                cases h5 : thresholdCheck (sipms.filter fun s => nearby lm.x lm.y p.newLmRadius s.x s.y) 0 with
                | error e => simp [barycenter, h5] at h4
                | ok above =>
                  obtain ⟨c, hc, hsum, _⟩ := barycenter_ok h5
                  rw [h4] at hc
                  cases hc
                  refine ⟨c, rfl, ?_, h4⟩
                  have : above = (sipms.filter fun s => nearby lm.x lm.y p.newLmRadius s.x s.y).filter fun s => decide (0 ≤ s.q) := (thresholdCheck_ok h5).1
                  rw [← this]; exact hsum
            · rw [if_neg hm] at h
              simp only [Step.next.injEq] at h
              obtain ⟨rfl, rfl⟩ := h
              exact ⟨_, (lm.x, lm.y), rfl, rfl, Or.inl rfl⟩

/-- The groups of SiPMs behind the clusters `cs`: disjoint parts of `sipms`. -/
structure Clustering (p : CoronaParams) (sipms : List Sipm) (cs : List Cluster) (groups : List (List Sipm)) (rest : List Sipm) : Prop where
  /-- the groups and the rest are a partition of the SiPMs -/
  partition : (groups.flatten ++ rest).Perm sipms
  /-- each cluster is the barycenter of its group -/
  clusters : List.Forall₂ (fun g c => barycenter g = .ok [c] ∧ Summary (g.filter fun s => decide (0 ≤ s.q)) c) groups cs
  /-- each group is made of all the SiPMs near some point that have not been used before, and has enough of them -/
  enough : ∀ g ∈ groups, ∃ x y, (∀ s ∈ g, nearby x y p.newLmRadius s.x s.y = true) ∧
    p.msipm ≤ g.length + (if p.considerMasked then countMasked x y p.newLmRadius p.all else 0 : Int)

theorem filter_perm (l : List Sipm) (f : Sipm → Bool) : (l.filter f ++ l.filter fun s => !f s).Perm l :=
  List.filter_append_perm f l

theorem coronaLoop_returns {p : CoronaParams} : ∀ (n : Nat) (sipms : List Sipm) (found cs : List Cluster), sipms.length ≤ n →
    coronaLoop p sipms found = .returns cs → ∃ new groups rest, cs = found ++ new ∧ cs ≠ [] ∧ Clustering p sipms new groups rest := by
  intro n
  induction n with
  | zero =>
    intro sipms found cs hn h
    have : sipms = [] := by simpa using hn
    subst this
    rw [coronaLoop] at h
    have hs : coronaStep p [] = .leave := rfl
    simp only [hs] at h
    split at h
    · cases h
    · cases h
      rename_i hl
      exact ⟨[], [], [], by simp, by simpa using hl, ⟨by simp, .nil, by simp⟩⟩
  | succ n ih =>
    intro sipms found cs hn h
    rw [coronaLoop] at h
    cases hs : coronaStep p sipms with
    | leave =>
      simp only [hs] at h
      split at h
      · cases h
      · cases h
        rename_i hl
        exact ⟨[], [], sipms, by simp, by simpa using hl, ⟨by simp, .nil, by simp⟩⟩
    | raises e => simp [hs] at h
    | next c rest =>
      simp only [hs] at h
      split at h
      · rename_i hlt
        obtain ⟨new, groups, rest', h1, h2, h3⟩ := ih rest (found ++ c) cs (by omega) h
        obtain ⟨near, lm, hnear, hrest, hc⟩ := coronaStep_next hs
        have hp : (near ++ rest).Perm sipms := by rw [hnear, hrest]; exact filter_perm ..
        rcases hc with rfl | ⟨⟨c', rfl, hsum, hb⟩, hen⟩
        · refine ⟨new, groups, near ++ rest', by simpa using h1, h2, ⟨?_, h3.clusters, h3.enough⟩⟩
          have : (groups.flatten ++ (near ++ rest')).Perm (near ++ (groups.flatten ++ rest')) := by
            rw [← List.append_assoc, ← List.append_assoc]
            exact List.Perm.append_right _ List.perm_append_comm
          exact this.trans ((List.Perm.append_left near h3.partition).trans hp)
        · refine ⟨c' :: new, near :: groups, rest', by simpa using h1, h2, ⟨?_, .cons ⟨hb, hsum⟩ h3.clusters, ?_⟩⟩
          · rw [List.flatten_cons, List.append_assoc]
            exact (List.Perm.append_left near h3.partition).trans hp
          · intro g hg
            rcases List.mem_cons.1 hg with rfl | hg
            · refine ⟨lm.1, lm.2, ?_, by linarith⟩
              intro s hs
              rw [hnear] at hs
              exact (List.mem_filter.1 hs).2
            · exact h3.enough g hg
      · cases h

/-- **C26** When `corona` returns, it returns at least one cluster, and the clusters are the barycenters of disjoint
groups of the SiPMs above threshold, each large enough. -/
theorem corona_returns (p : CoronaParams) (sipms : List Sipm) (cs : List Cluster) (h : corona p sipms = .returns cs) :
    cs ≠ [] ∧ ∃ groups rest, Clustering p (sipms.filter fun s => decide (p.qthr ≤ s.q)) cs groups rest := by
  unfold corona at h
  split at h; · cases h
  split at h; · cases h
  cases ht : thresholdCheck sipms p.qthr with
  | error e => simp [ht] at h
  | ok above =>
    simp only [ht] at h
    obtain ⟨new, groups, rest, h1, h2, h3⟩ := coronaLoop_returns above.length above [] cs le_rfl h
    simp only [List.nil_append] at h1
    subst h1
    refine ⟨h2, groups, rest, ?_⟩
    have : above = sipms.filter fun s => decide (p.qthr ≤ s.q) := (thresholdCheck_ok ht).1
    rw [← this]; exact h3

/-- SiPMs within a distance `d` of a point. -/
def within (x y d : ℚ) (l : List Sipm) : List Sipm := l.filter fun s => decide ((s.x - x) ^ 2 + (s.y - y) ^ 2 ≤ d ^ 2)

/-- SiPMs beyond a distance `d` of a point. -/
def beyond (x y d : ℚ) (l : List Sipm) : List Sipm := l.filter fun s => decide (d ^ 2 < (s.x - x) ^ 2 + (s.y - y) ^ 2)

/-- Inactive SiPMs within a distance `d` of a point. -/
def maskedWithin (x y d : ℚ) (l : List DbSipm) : Nat :=
  l.countP fun s => decide ((s.x - x) ^ 2 + (s.y - y) ^ 2 ≤ d ^ 2 ∧ s.active = false)

/-- The algorithm as documented: rounds that start from a hottest SiPM, until none reaches `Qlm`. -/
inductive Rounds (p : CoronaParams) : List Sipm → List Cluster → Prop where
  /-- no SiPM left with charge at least `Qlm` -/
  | done {l : List Sipm} : (∀ s ∈ l, s.q < p.qlm) → Rounds p l []
  /-- the cluster around the new local maximum `m` is accepted -/
  | accepted {l : List Sipm} {hot : Sipm} {m c : Cluster} {cs : List Cluster} :
      hot ∈ l → (∀ s ∈ l, s.q ≤ hot.q) → p.qlm ≤ hot.q →
      Summary ((within hot.x hot.y p.lmRadius l).filter fun s => decide (0 ≤ s.q)) m →
      p.msipm ≤ (within m.x m.y p.newLmRadius l).length + (if p.considerMasked then maskedWithin m.x m.y p.newLmRadius p.all else 0 : Nat) →
      Summary ((within m.x m.y p.newLmRadius l).filter fun s => decide (0 ≤ s.q)) c →
      Rounds p (beyond m.x m.y p.newLmRadius l) cs → Rounds p l (c :: cs)
  /-- too few SiPMs around the new local maximum `m`: they are discarded -/
  | rejected {l : List Sipm} {hot : Sipm} {m : Cluster} {cs : List Cluster} :
      hot ∈ l → (∀ s ∈ l, s.q ≤ hot.q) → p.qlm ≤ hot.q →
      Summary ((within hot.x hot.y p.lmRadius l).filter fun s => decide (0 ≤ s.q)) m →
      (within m.x m.y p.newLmRadius l).length + (if p.considerMasked then maskedWithin m.x m.y p.newLmRadius p.all else 0 : Nat) < p.msipm →
      Rounds p (beyond m.x m.y p.newLmRadius l) cs → Rounds p l cs

theorem within_eq (x y d : ℚ) (l : List Sipm) : within x y d l = l.filter fun s => nearby x y d s.x s.y := rfl

theorem beyond_eq (x y d : ℚ) (l : List Sipm) : beyond x y d l = l.filter fun s => !nearby x y d s.x s.y := by
  unfold beyond
  apply List.filter_congr
  intro s _
  simp only [nearby]
  rw [← decide_not, decide_eq_decide, not_le]

theorem maskedWithin_eq (x y d : ℚ) (l : List DbSipm) : maskedWithin x y d l = countMasked x y d l := by
  unfold maskedWithin countMasked
  rw [List.countP_eq_length_filter]
  congr 1
  apply List.filter_congr
  intro s _
  simp [nearby]

theorem barycenter_summary {l : List Sipm} {cs : List Cluster} (h : barycenter l = .ok cs) :
    ∃ c, cs = [c] ∧ Summary (l.filter fun s => decide (0 ≤ s.q)) c := by
  cases h5 : thresholdCheck l 0 with
  | error e => simp [barycenter, h5] at h
  | ok above =>
    obtain ⟨c, hc, hsum, _⟩ := barycenter_ok h5
    rw [h] at hc
    cases hc
    exact ⟨c, rfl, by rw [← (thresholdCheck_ok h5).1]; exact hsum⟩

theorem coronaLoop_rounds {p : CoronaParams} : ∀ (n : Nat) (sipms : List Sipm) (found cs : List Cluster), sipms.length ≤ n →
    coronaLoop p sipms found = .returns cs → ∃ new, cs = found ++ new ∧ Rounds p sipms new := by
  intro n
  induction n with
  | zero =>
    intro sipms found cs hn h
    have : sipms = [] := by simpa using hn
    subst this
    rw [coronaLoop] at h
    have hs : coronaStep p [] = .leave := rfl
    simp only [hs] at h
    split at h
    · cases h
    · cases h
      exact ⟨[], by simp, .done (by simp)⟩
  | succ n ih =>
    intro sipms found cs hn h
    rw [coronaLoop] at h
    by_cases hne : sipms = []
    · subst hne
      have hs : coronaStep p [] = .leave := rfl
      simp only [hs] at h
      split at h
      · cases h
      · cases h
        exact ⟨[], by simp, .done (by simp)⟩
    · obtain ⟨i, h1⟩ := argmax_ok (xs := sipms.map Sipm.q) (by simpa using hne)
      obtain ⟨m, hm1, hm2, _⟩ := argmax_spec h1
      rw [List.getElem?_map, Option.map_eq_some_iff] at hm1
      obtain ⟨hot, h2, rfl⟩ := hm1
      have hmem : hot ∈ sipms := List.mem_of_getElem? h2
      have hmax : ∀ s ∈ sipms, s.q ≤ hot.q := fun s hs => hm2 _ (List.mem_map.2 ⟨s, hs, rfl⟩)
      unfold coronaStep at h
      simp only [h1, h2] at h
      by_cases hhot : hot.q < p.qlm
      · simp only [hhot, if_true] at h
        split at h
        · cases h
        · cases h
          exact ⟨[], by simp, .done fun s hs => (hmax s hs).trans_lt hhot⟩
      · simp only [hhot, if_false] at h
        cases h3 : barycenter (sipms.filter fun s => nearby hot.x hot.y p.lmRadius s.x s.y) with
        | error e => simp [h3] at h
        | ok l =>
          obtain ⟨lm, rfl, hlm⟩ := barycenter_summary h3
          simp only [h3] at h
          by_cases hm : p.msipm - (if p.considerMasked then (countMasked lm.x lm.y p.newLmRadius p.all : Int) else 0) ≤
              (sipms.filter fun s => nearby lm.x lm.y p.newLmRadius s.x s.y).length
          · rw [if_pos hm] at h
            cases h4 : barycenter (sipms.filter fun s => nearby lm.x lm.y p.newLmRadius s.x s.y) with
            | error e => simp [h4] at h
            | ok cs' =>
              obtain ⟨c, rfl, hc⟩ := barycenter_summary h4
              simp only [h4] at h
              split at h
              · obtain ⟨new, hnew, hr⟩ := ih _ _ _ (by omega) h
                refine ⟨c :: new, by simpa using hnew, .accepted hmem hmax (not_lt.1 hhot) hlm ?_ hc (by rw [beyond_eq]; exact hr)⟩
                rw [within_eq, maskedWithin_eq]
                split at hm <;> simp_all
              · cases h
          · rw [if_neg hm] at h
            simp only at h
            split at h
            · obtain ⟨new, hnew, hr⟩ := ih _ _ _ (by omega) h
              refine ⟨new, by simpa using hnew, .rejected hmem hmax (not_lt.1 hhot) hlm ?_ (by rw [beyond_eq]; exact hr)⟩
              rw [within_eq, maskedWithin_eq]
              split at hm <;> simp_all
            · cases h

/-- **C26** A result of `corona` is the outcome of the documented rounds on the SiPMs above threshold. -/
theorem corona_follows_documentation (p : CoronaParams) (sipms : List Sipm) (cs : List Cluster) (h : corona p sipms = .returns cs) :
    Rounds p (sipms.filter fun s => decide (p.qthr ≤ s.q)) cs := by
  unfold corona at h
  split at h; · cases h
  split at h; · cases h
  cases ht : thresholdCheck sipms p.qthr with
  | error e => simp [ht] at h
  | ok above =>
    simp only [ht] at h
    obtain ⟨new, h1, h2⟩ := coronaLoop_rounds above.length above [] cs le_rfl h
    simp only [List.nil_append] at h1
    subst h1
    rw [← (thresholdCheck_ok ht).1]; exact h2

theorem charge_append (a b : List Sipm) : charge (a ++ b) = charge a + charge b := by simp [charge]

/-- **C26** Charges of the clusters add up to at most the charge above threshold, numbers of SiPMs to at most their
number (for a non-negative threshold). -/
theorem corona_totals (p : CoronaParams) (hq : 0 ≤ p.qthr) (sipms : List Sipm) (cs : List Cluster) (h : corona p sipms = .returns cs) :
    (cs.map Cluster.q).sum ≤ charge (sipms.filter fun s => decide (p.qthr ≤ s.q)) ∧
    (cs.map Cluster.nsipm).sum ≤ (sipms.filter fun s => decide (p.qthr ≤ s.q)).length := by
  obtain ⟨hne, groups, rest, hc⟩ := corona_returns p sipms cs h
  clear hne h
  set above := sipms.filter fun s => decide (p.qthr ≤ s.q) with ha
  have hpos : ∀ s ∈ above, 0 ≤ s.q := by
    intro s hs
    have := (List.mem_filter.1 hs).2
    exact hq.trans (by simpa using this)
  have hg : ∀ g ∈ groups, ∀ s ∈ g, 0 ≤ s.q := by
    intro g hg s hs
    apply hpos
    apply hc.partition.subset
    exact List.mem_append_left _ (List.mem_flatten.2 ⟨g, hg, hs⟩)
  have hrest : 0 ≤ charge rest := by
    apply List.sum_nonneg
    intro x hx
    obtain ⟨s, hs, rfl⟩ := List.mem_map.1 hx
    exact hpos s (hc.partition.subset (List.mem_append_right _ hs))
  have hch : charge groups.flatten + charge rest = charge above := by
    rw [← charge_append]
    exact (hc.partition.map Sipm.q).sum_eq
  have hlen : groups.flatten.length + rest.length = above.length := by
    rw [← List.length_append]; exact hc.partition.length_eq
  have hsums : (cs.map Cluster.q).sum = charge groups.flatten ∧ (cs.map Cluster.nsipm).sum = groups.flatten.length := by
    have := hc.clusters
    clear hch hlen hc
    induction this with
    | nil => exact ⟨rfl, rfl⟩
    | @cons g c gs cs hgc _ ih =>
      obtain ⟨i1, i2⟩ := ih fun g' hg' => hg g' (List.mem_cons_of_mem _ hg')
      have hf : g.filter (fun s => decide (0 ≤ s.q)) = g := by
        rw [List.filter_eq_self]; intro s hs; simpa using hg g List.mem_cons_self s hs
      have hs := hgc.2
      rw [hf] at hs
      rw [List.map_cons, List.sum_cons, List.map_cons, List.sum_cons, i1, i2, hs.q, hs.n, List.flatten_cons, charge_append, List.length_append]
      exact ⟨rfl, rfl⟩
  rw [hsums.1, hsums.2]
  exact ⟨by linarith, by omega⟩

theorem barycenter_pos {l : List Sipm} (hq : ∀ s ∈ l, 0 ≤ s.q) (hs : ∃ s ∈ l, 0 < s.q) :
    ∃ c, barycenter l = .ok [c] ∧ Summary l c ∧ charge l ≠ 0 := by
  have hf : l.filter (fun s => decide (0 ≤ s.q)) = l := by
    rw [List.filter_eq_self]; intro s hs; simpa using hq s hs
  have hpos : charge l ≠ 0 := by
    obtain ⟨s, hs, hs0⟩ := hs
    have : s.q ≤ charge l := by
      have hle := List.single_le_sum (l := l.map Sipm.q) (by
        intro x hx; obtain ⟨k, hk, rfl⟩ := List.mem_map.1 hx; exact hq k hk) s.q (List.mem_map.2 ⟨s, hs, rfl⟩)
      exact hle
    linarith
  have := (barycenter_spec l 0).2.2.2.2 hpos (by rw [hf]; exact hpos)
  rw [hf] at this
  obtain ⟨c, h1, h2⟩ := this
  exact ⟨c, h1, h2, hpos⟩

theorem coronaLoop_ends {p : CoronaParams} (hr : 0 ≤ p.lmRadius) (hr2 : p.lmRadius ≤ p.newLmRadius) :
    ∀ (n : Nat) (sipms : List Sipm) (found : List Cluster), sipms.length ≤ n → (∀ s ∈ sipms, 0 ≤ s.q) → (0 < p.qlm ∨ ∀ s ∈ sipms, 0 < s.q) →
      (∃ cs, coronaLoop p sipms found = .returns cs) ∨ coronaLoop p sipms found = .raises (.other "ClusterEmptyList") := by
  intro n
  induction n with
  | zero =>
    intro sipms found hn _ _
    have : sipms = [] := by simpa using hn
    subst this
    rw [coronaLoop]
    have hs : coronaStep p [] = .leave := rfl
    simp only [hs]
    split
    · exact Or.inr rfl
    · exact Or.inl ⟨_, rfl⟩
  | succ n ih =>
    intro sipms found hn hq hlm
    rw [coronaLoop]
    have step : coronaStep p sipms = .leave ∨ ∃ cs rest, coronaStep p sipms = .next cs rest ∧ rest.length < sipms.length := by
      unfold coronaStep
      cases h1 : argmax (sipms.map Sipm.q) with
      | error e => exact Or.inl rfl
      | ok i =>
        cases h2 : sipms[i]? with
        | none => left; simp only [h2]
        | some hot =>
          by_cases hhot : hot.q < p.qlm
          · left; simp only [h2, hhot, if_true]
          · right
            simp only [h2, hhot, if_false]
            have hmem : hot ∈ sipms := List.mem_of_getElem? h2
            have hhq : 0 < hot.q := by
              rcases hlm with hlm | hlm
              · exact lt_of_lt_of_le hlm (not_lt.1 hhot)
              · exact hlm hot hmem
            have hself : nearby hot.x hot.y p.lmRadius hot.x hot.y = true := by
              simp only [nearby, decide_eq_true_eq, sub_self]
              have := sq_nonneg p.lmRadius
              simpa using this
            obtain ⟨lm, hb, hsum, hch⟩ := barycenter_pos (l := sipms.filter fun s => nearby hot.x hot.y p.lmRadius s.x s.y)
              (fun s hs => hq s (List.mem_filter.1 hs).1) ⟨hot, List.mem_filter.2 ⟨hmem, hself⟩, hhq⟩
            have hdisc := summary_in_disc hsum (fun s hs => hq s (List.mem_filter.1 hs).1) hch hot.x hot.y p.lmRadius
              (fun s hs => (List.mem_filter.1 hs).2)
            have hnear : nearby lm.x lm.y p.newLmRadius hot.x hot.y = true := by
              simp only [nearby, decide_eq_true_eq]
              have h3 : p.lmRadius ^ 2 ≤ p.newLmRadius ^ 2 := by nlinarith
              nlinarith
            have hshort : (sipms.filter fun s => !nearby lm.x lm.y p.newLmRadius s.x s.y).length < sipms.length := by
              apply List.length_filter_lt_length_iff_exists.2
              exact ⟨hot, hmem, by simp [hnear]⟩
            simp only [hb]
            by_cases hm : p.msipm - (if p.considerMasked then (countMasked lm.x lm.y p.newLmRadius p.all : Int) else 0) ≤
                (sipms.filter fun s => nearby lm.x lm.y p.newLmRadius s.x s.y).length
            · rw [if_pos hm]
              obtain ⟨c, hb2, _⟩ := barycenter_pos (l := sipms.filter fun s => nearby lm.x lm.y p.newLmRadius s.x s.y)
                (fun s hs => hq s (List.mem_filter.1 hs).1) ⟨hot, List.mem_filter.2 ⟨hmem, hnear⟩, hhq⟩
              simp only [hb2]
              exact ⟨_, _, rfl, hshort⟩
            · rw [if_neg hm]
              exact ⟨_, _, rfl, hshort⟩
    rcases step with hs | ⟨cs, rest, hs, hlt⟩
    · simp only [hs]
      split
      · exact Or.inr rfl
      · exact Or.inl ⟨_, rfl⟩
    · simp only [hs, hlt, if_true]
      obtain ⟨near, lm, _, hrest, _⟩ := coronaStep_next hs
      have hsub : ∀ s ∈ rest, s ∈ sipms := by rw [hrest]; exact fun s h => (List.mem_filter.1 h).1
      exact ih rest _ (by omega) (fun s h => hq s (hsub s h)) (hlm.imp id fun h s hs => h s (hsub s hs))

/-- **C26, part.** For parameters as documented (`new_lm_radius` at least `lm_radius`, a non-negative charge threshold and a positive
threshold for local maxima), `corona` ends for every pattern of SiPMs: it returns clusters, raises `ClusterEmptyList`, or one of the
failures of the threshold check. -/
theorem corona_ends_partial (p : CoronaParams) (hr : 0 ≤ p.lmRadius) (hr2 : p.lmRadius ≤ p.newLmRadius) (hq : 0 ≤ p.qthr)
    (hlm : 0 < p.qlm ∨ 0 < p.qthr) (sipms : List Sipm) :
    (∃ cs, corona p sipms = .returns cs) ∨ corona p sipms = .raises (.other "ClusterEmptyList") ∨
    ∃ e, thresholdCheck sipms p.qthr = .error e ∧ corona p sipms = .raises e := by
  unfold corona
  rw [if_neg (not_not.2 hr), if_neg (not_not.2 (hr.trans hr2))]
  cases ht : thresholdCheck sipms p.qthr with
  | error e => exact Or.inr (Or.inr ⟨e, rfl, rfl⟩)
  | ok above =>
    have hab : above = sipms.filter fun s => decide (p.qthr ≤ s.q) := (thresholdCheck_ok ht).1
    have hge : ∀ s ∈ above, p.qthr ≤ s.q := by
      rw [hab]; intro s hs; simpa using (List.mem_filter.1 hs).2
    rcases coronaLoop_ends hr hr2 above.length above [] le_rfl (fun s hs => hq.trans (hge s hs))
      (hlm.imp id fun h s hs => lt_of_lt_of_le h (hge s hs)) with h | h
    · exact Or.inl h
    · exact Or.inr (Or.inl h)

/-- **C26** The outcome `neverEnds` is a fixed point of the iteration: from some state on, every iteration leaves
the same SiPMs to the next one. -/
theorem neverEnds_fixed {p : CoronaParams} : ∀ (n : Nat) (sipms : List Sipm) (found : List Cluster), sipms.length ≤ n →
    coronaLoop p sipms found = .neverEnds → ∃ stuck cs, (∀ s ∈ stuck, s ∈ sipms) ∧ coronaStep p stuck = .next cs stuck := by
  intro n
  induction n with
  | zero =>
    intro sipms found hn h
    have : sipms = [] := by simpa using hn
    subst this
    rw [coronaLoop] at h
    have hs : coronaStep p [] = .leave := rfl
    simp only [hs] at h
    split at h <;> cases h
  | succ n ih =>
    intro sipms found hn h
    rw [coronaLoop] at h
    cases hs : coronaStep p sipms with
    | leave => simp only [hs] at h; split at h <;> cases h
    | raises e => simp [hs] at h
    | next c rest =>
      simp only [hs] at h
      obtain ⟨near, lm, _, hrest, _⟩ := coronaStep_next hs
      split at h
      · obtain ⟨stuck, cs, h1, h2⟩ := ih rest _ (by omega) h
        refine ⟨stuck, cs, fun s hs => ?_, h2⟩
        have := h1 s hs
        rw [hrest] at this
        exact (List.mem_filter.1 this).1
      · rename_i hlt
        have : rest = sipms := by
          have hsub : rest.Sublist sipms := by rw [hrest]; exact List.filter_sublist
          exact hsub.eq_of_length_le (not_lt.1 hlt)
        subst this
        exact ⟨rest, c, fun s h => h, hs⟩

/-- The full claim (termination for all parameters allowed by the assertions) is false: with `lm_radius` larger than
`new_lm_radius` the new local maximum may have no SiPM around, nothing is discarded and the loop never ends. -/
theorem corona_may_never_end :
    corona ⟨[], 1, 1, 20, 1, 1, false⟩ [⟨0, 0, 10⟩, ⟨10, 0, 10⟩] = .neverEnds := by decide +kernel

/-- Nor is `ClusterEmptyList` the only failure: with a zero threshold for local maxima and SiPMs without charge, the
clusters already found are lost in an exception. -/
theorem zero_charge_loses_clusters :
    corona ⟨[], 0, 0, 1, 1, 1, false⟩ [⟨0, 0, 10⟩, ⟨100, 0, 0⟩] = .raises (.other "SipmZeroCharge") := by decide +kernel

/-- Typical parameters of the documentation (3x3 blocks, pitch 10 mm), on two separate deposits. -/
example : corona ⟨[⟨0, 10, false⟩], 1, 5, 15, 15, 3, true⟩ [⟨0, 0, 10⟩, ⟨10, 0, 30⟩, ⟨10, 10, 10⟩, ⟨100, 0, 10⟩, ⟨100, 10, 5⟩, ⟨110, 0, 5⟩, ⟨300, 0, 7⟩] =
    .returns [⟨50, 8, 2, 16, 16, 3⟩, ⟨20, 205 / 2, 5 / 2, 75 / 4, 75 / 4, 3⟩] := by decide +kernel

end Verif.XY
