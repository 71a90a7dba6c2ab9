import Verif.Props.LightTables
/-!
# Light tables as functions of the position (C60)
-/
namespace Verif.Detsim

theorem sorted_countP {xs : List ℚ} (hs : xs.Pairwise (· ≤ ·)) (v : ℚ) :
    ∀ (i : Nat) (x : ℚ), xs[i]? = some x → (x < v ↔ i < xs.countP fun e => decide (e < v)) := by
  induction xs with
  | nil => intro i x h; simp at h
  | cons a xs ih =>
    intro i x h
    obtain ⟨h1, h2⟩ := List.pairwise_cons.1 hs
    by_cases ha : a < v
    · rw [List.countP_cons_of_pos (by simpa using ha)]
      cases i with
      | zero => simp at h; subst h; simp [ha]
      | succ i =>
        rw [ih h2 i x (by simpa using h)]
        omega
    · rw [List.countP_cons_of_neg (by simpa using ha)]
      have h0 : (xs.countP fun e => decide (e < v)) = 0 := List.countP_eq_zero.2 (fun y hy hpy => ha (lt_of_le_of_lt (h1 y hy) (by simpa using hpy)))
      rw [h0]
      cases i with
      | zero => simp at h; subst h; simp [not_lt.1 ha]
      | succ i =>
        have hx := List.mem_of_getElem? (show xs[i]? = some x by simpa using h)
        simp only [Nat.not_lt_zero, iff_false]
        exact fun hpx => ha (lt_of_le_of_lt (h1 x hx) hpx)

/-- `a` is a nearest element of `c` to `x`. -/
def Nearest (c : List ℚ) (x a : ℚ) : Prop := a ∈ c ∧ ∀ b ∈ c, |x - a| ≤ |x - b|

theorem mids_get {c : List ℚ} {i : Nat} {a b : ℚ} (ha : c[i]? = some a) (hb : c[i + 1]? = some b) :
    (List.zipWith (fun b a => (b + a) / 2) c.tail c.dropLast)[i]? = some ((b + a) / 2) := by
  have hl := (List.getElem?_eq_some_iff.1 hb).1
  rw [List.getElem?_zipWith, List.getElem?_tail, hb, List.getElem?_dropLast, if_pos (by omega), ha]

theorem mids_sorted {c : List ℚ} (hc : c.Pairwise (· < ·)) :
    (List.zipWith (fun b a => (b + a) / 2) c.tail c.dropLast).Pairwise (· ≤ ·) := by
  rw [List.pairwise_iff_getElem]
  intro i j hi hj hij
  simp only [List.length_zipWith, List.length_tail, List.length_dropLast, Nat.min_self] at hi hj
  have hp := List.pairwise_iff_getElem.1 hc
  simp only [List.getElem_zipWith, List.getElem_tail, List.getElem_dropLast]
  have h1 := hp i j (by omega) (by omega) hij
  have h2 := hp (i + 1) (j + 1) (by omega) (by omega) (by omega)
  linarith

/-- The label given to a value inside the edges is a nearest centre. -/
theorem cutLabel_nearest {c : List ℚ} {range : Option (ℚ × ℚ)} {e : List ℚ} (h : Core.binedgesFromBincenters c range = .ok e) {x : ℚ}
    (h1 : e.headD 0 ≤ x) (h2 : x ≤ e.getLastD 0) : ∃ a, cutLabel e c x = some a ∧ Nearest c x a := by
  have hacc := (Core.binedges_accepts c range).1 ⟨e, h⟩
  obtain ⟨hne, hsort, hr⟩ := hacc
  obtain ⟨lo, hi, f, l, hf, hl, hnone, hsome, he⟩ := Core.binedges_shape h
  have hf0 : c[0]? = some f := by rw [← List.head?_eq_getElem?]; exact hf
  have hlo : lo ≤ f := by
    cases range with
    | none => exact (hnone rfl).1.le
    | some r => obtain ⟨a, b⟩ := r; have h3 := hsome _ rfl; obtain ⟨rfl, rfl⟩ := Prod.mk.inj h3; exact ((hr _ _ rfl).2 f (List.mem_of_getElem? hf0)).1
  have hp := List.pairwise_iff_getElem.1 hsort
  have hlow : e.headD 0 = lo := by rw [he]; rfl
  have hhigh : e.getLastD 0 = hi := by rw [he, List.getLastD_eq_getLast?, List.getLast?_append]; rfl
  rw [hlow] at h1
  rw [hhigh] at h2
  unfold cutLabel
  by_cases hx : e.head? = some x
  · rw [if_pos hx]
    have hxl : lo = x := by rw [he] at hx; simpa using hx
    refine ⟨f, hf0, List.mem_of_getElem? hf0, ?_⟩
    intro b hb
    obtain ⟨j, hj, rfl⟩ := List.getElem_of_mem hb
    obtain ⟨h0, h0'⟩ := List.getElem?_eq_some_iff.1 hf0
    have hfj : f ≤ c[j] := by
      by_cases hj0 : j = 0
      · subst hj0; rw [h0']
      · have := hp 0 j h0 hj (by omega); rw [h0'] at this; exact this.le
    rw [abs_of_nonpos (by linarith), abs_of_nonpos (by linarith)]
    linarith
  · rw [if_neg hx]
    have hlx : lo < x := lt_of_le_of_ne h1 (fun hc => hx (by rw [he, hc]; rfl))
    set M := List.zipWith (fun b a => (b + a) / 2) c.tail c.dropLast with hM
    have hMl : M.length = c.length - 1 := by rw [hM]; simp
    have hcount : (e.countP fun v => decide (v < x)) = (M.countP fun v => decide (v < x)) + 1 := by
      rw [he, List.countP_append, List.countP_cons_of_pos (by simpa using hlx), List.countP_cons_of_neg (by simpa using h2)]
      simp
    rw [hcount]
    have hkM : (M.countP fun v => decide (v < x)) ≤ M.length := List.countP_le_length
    have hcp : 0 < c.length := List.length_pos_iff.2 hne
    have hel : e.length = c.length + 1 := by rw [he]; simp [hMl]; omega
    have hspec := sorted_countP (mids_sorted hsort) x
    rw [← hM] at hspec
    generalize (M.countP fun v => decide (v < x)) = k at hkM hspec
    simp only
    rw [if_pos (by omega)]
    have hk : k < c.length := by omega
    refine ⟨c[k], List.getElem?_eq_getElem hk, List.getElem_mem hk, ?_⟩
    intro b hb
    obtain ⟨j, hj, rfl⟩ := List.getElem_of_mem hb
    rcases Nat.lt_trichotomy j k with hjk | rfl | hjk
    · have h3 : M[k - 1]? = some ((c[k] + c[k - 1]) / 2) :=
        mids_get (List.getElem?_eq_getElem (by omega)) (by rw [show k - 1 + 1 = k by omega]; exact List.getElem?_eq_getElem hk)
      have h4 := (hspec _ _ h3).2 (by omega)
      have h5 : c[j] ≤ c[k - 1] := by
        by_cases hjj : j = k - 1
        · subst hjj; exact le_refl _
        · exact (hp j (k - 1) hj (by omega) (by omega)).le
      have h6 := hp j k hj hk hjk
      rw [abs_of_nonneg (show 0 ≤ x - c[j] by linarith), abs_le]
      constructor <;> linarith
    · exact le_refl _
    · have h3 : M[k]? = some ((c[k + 1] + c[k]) / 2) :=
        mids_get (List.getElem?_eq_getElem hk) (List.getElem?_eq_getElem (by omega))
      have h4 : ¬ ((c[k + 1] + c[k]) / 2 < x) := fun hc => by have := (hspec _ _ h3).1 hc; omega
      have h5 : c[k + 1] ≤ c[j] := by
        by_cases hjj : j = k + 1
        · subst hjj; exact le_refl _
        · exact (hp (k + 1) j (by omega) hj (by omega)).le
      have h6 := hp k j hk hj hjk
      rw [abs_of_nonpos (show x - c[j] ≤ 0 by linarith), abs_le]
      constructor <;> linarith

theorem uniq_sorted (xs : List ℚ) : (uniq xs).Pairwise (· < ·) := by
  have h1 : (uniq xs).Pairwise (· ≤ ·) := List.pairwise_insertionSort _ _
  have h2 : (uniq xs).Nodup := (List.perm_insertionSort (· ≤ ·) xs.dedup).nodup_iff.2 (List.nodup_dedup _)
  exact List.Pairwise.imp₂ (fun a b hab hne => lt_of_le_of_ne hab hne) h1 h2

theorem mem_uniq {xs : List ℚ} {x : ℚ} : x ∈ uniq xs ↔ x ∈ xs := by
  unfold uniq
  rw [(List.perm_insertionSort (· ≤ ·) xs.dedup).mem_iff, List.mem_dedup]

/-- The edges with the range extended to the active radius always exist, and cover it. -/
theorem ext_edges {c : List ℚ} (hc : c ≠ []) (hs : c.Pairwise (· < ·)) {R : ℚ} (hR : 0 < R) :
    ∃ e, Core.binedgesFromBincenters c (some (extRange c R)) = .ok e ∧ ∀ x, |x| ≤ R → e.headD 0 ≤ x ∧ x ≤ e.getLastD 0 := by
  have hbound : ∀ x ∈ c, c.headD 0 ≤ x ∧ x ≤ c.getLastD 0 := by
    intro x hx
    have hp := List.pairwise_iff_getElem.1 hs
    obtain ⟨j, hj, rfl⟩ := List.getElem_of_mem hx
    have h0 : c.headD 0 = c[0] := by cases c with | nil => exact absurd rfl hc | cons a c => rfl
    have hl : c.getLastD 0 = c[c.length - 1] := by
      rw [List.getLastD_eq_getLast?, List.getLast?_eq_getElem?, List.getElem?_eq_getElem (by omega)]; rfl
    rw [h0, hl]
    constructor
    · by_cases h : j = 0
      · subst h; exact le_refl _
      · exact (hp 0 j (by omega) hj (by omega)).le
    · by_cases h : j = c.length - 1
      · subst h; exact le_refl _
      · exact (hp j (c.length - 1) hj (by omega) (by omega)).le
  obtain ⟨e, he⟩ := (Core.binedges_accepts c (some (extRange c R))).2 ⟨hc, hs, by
    intro lo hi hr
    have hr := Option.some.inj hr
    unfold extRange at hr
    obtain ⟨rfl, rfl⟩ := Prod.mk.inj hr
    refine ⟨lt_of_le_of_lt (min_le_right _ _) (lt_of_lt_of_le (show -R < R by linarith) (le_max_right _ _)), ?_⟩
    intro x hx
    exact ⟨le_trans (min_le_left _ _) (hbound x hx).1, le_trans (hbound x hx).2 (le_max_left _ _)⟩⟩
  refine ⟨e, he, ?_⟩
  intro x hx
  obtain ⟨hx1, hx2⟩ := abs_le.1 hx
  obtain ⟨_, h1, h2, _⟩ := Core.binedges_valid _ _ _ he
  simp only [extRange] at h1 h2
  rw [List.getLastD_eq_getLast?, h2]
  have : e.headD 0 = min (c.headD 0) (-R) := by rw [List.headD_eq_head?_getD, h1]; rfl
  rw [this]
  exact ⟨le_trans (min_le_right _ _) hx1, le_trans hx2 (le_max_right _ _)⟩

/-- **C60** (light table as a function).  For a table with points and a positive active radius the function never fails and gives one row per position.
Outside the active radius or the range in `z` of the table the values are zero; elsewhere they are those of the point of the table whose
coordinates are, each, nearest to those of the position, and zero if the table does not have that point. -/
theorem light_function {t : LTFun} (hrows : t.rows ≠ []) (hR : 0 < t.activeR) (ps : List (ℚ × ℚ × ℚ)) :
    ∃ out, t.eval ps = .ok out ∧ out.length = ps.length ∧ ∀ (i : Nat) (p : ℚ × ℚ × ℚ), ps[i]? = some p → ∃ v, out[i]? = some v ∧
      (t.activeR * t.activeR < p.1 * p.1 + p.2.1 * p.2.1 ∨ (∀ r ∈ t.rows, p.2.2 < r.1.2.2) ∨ (∀ r ∈ t.rows, r.1.2.2 < p.2.2) →
        v = List.replicate t.nsens 0) ∧
      (p.1 * p.1 + p.2.1 * p.2.1 ≤ t.activeR * t.activeR → (∃ r ∈ t.rows, r.1.2.2 ≤ p.2.2) → (∃ r ∈ t.rows, p.2.2 ≤ r.1.2.2) →
        ∃ a b c, Nearest (t.rows.map fun r => r.1.1) p.1 a ∧ Nearest (t.rows.map fun r => r.1.2.1) p.2.1 b ∧
          Nearest (t.rows.map fun r => r.1.2.2) p.2.2 c ∧
          ((∀ r ∈ t.rows, r.1 ≠ (a, b, c)) → v = List.replicate t.nsens 0) ∧
          ((∃ r ∈ t.rows, r.1 = (a, b, c)) → ∃ r ∈ t.rows, r.1 = (a, b, c) ∧ v = r.2)) := by
  have hne : ∀ f : (ℚ × ℚ × ℚ) × List ℚ → ℚ, uniq (t.rows.map f) ≠ [] := by
    intro f hc
    cases hr : t.rows with
    | nil => exact hrows hr
    | cons r rs =>
      have : f r ∈ uniq (t.rows.map f) := mem_uniq.2 (by rw [hr]; simp)
      rw [hc] at this; cases this
  have hnear : ∀ (f : (ℚ × ℚ × ℚ) × List ℚ → ℚ) (x a : ℚ), Nearest (uniq (t.rows.map f)) x a → Nearest (t.rows.map f) x a :=
    fun f x a h => ⟨mem_uniq.1 h.1, fun b hb => h.2 b (mem_uniq.2 hb)⟩
  obtain ⟨ex, hex, hcx⟩ := ext_edges (c := t.xs) (hne _) (uniq_sorted _) hR
  obtain ⟨ey, hey, hcy⟩ := ext_edges (c := t.ys) (hne _) (uniq_sorted _) hR
  obtain ⟨ez, hez⟩ := (Core.binedges_accepts t.zs none).2 ⟨hne _, uniq_sorted _, by rintro lo hi hc; cases hc⟩
  obtain ⟨_, hz1, hz2, _⟩ := Core.binedges_valid _ _ _ hez
  simp only at hz1 hz2
  have hzh : ez.headD 0 = t.zs.headD 0 := by rw [List.headD_eq_head?_getD, List.headD_eq_head?_getD, hz1]
  have hzl : ez.getLastD 0 = t.zs.getLastD 0 := by rw [List.getLastD_eq_getLast?, List.getLastD_eq_getLast?, hz2]
  have hsz := List.pairwise_iff_getElem.1 (uniq_sorted (t.rows.map fun r => r.1.2.2))
  have hz0 : 0 < t.zs.length := List.length_pos_iff.2 (hne _)
  have hz0' : t.zs.headD 0 = t.zs[0] := by
    rw [List.headD_eq_head?_getD, List.head?_eq_getElem?, List.getElem?_eq_getElem hz0]; rfl
  have hzl' : t.zs.getLastD 0 = t.zs[t.zs.length - 1] := by
    rw [List.getLastD_eq_getLast?, List.getLast?_eq_getElem?, List.getElem?_eq_getElem (by omega)]; rfl
  have hzmem : ∀ r ∈ t.rows, t.zs.headD 0 ≤ r.1.2.2 ∧ r.1.2.2 ≤ t.zs.getLastD 0 := by
    intro r hr
    have hm : r.1.2.2 ∈ t.zs := mem_uniq.2 (List.mem_map.2 ⟨r, hr, rfl⟩)
    obtain ⟨j, hj, hjj⟩ := List.getElem_of_mem hm
    rw [hz0', hzl', ← hjj]
    constructor
    · by_cases h : j = 0
      · subst h; exact le_refl _
      · exact (hsz 0 j hz0 hj (by omega)).le
    · by_cases h : j = t.zs.length - 1
      · subst h; exact le_refl _
      · exact (hsz j (t.zs.length - 1) hj (show _ < t.zs.length by omega) (by omega)).le
  have hzr : ∀ v, v ∈ t.zs → ∃ r ∈ t.rows, r.1.2.2 = v := by
    intro v hv
    obtain ⟨r, hr, hrv⟩ := List.mem_map.1 (mem_uniq.1 hv)
    exact ⟨r, hr, hrv⟩
  refine ⟨ps.map (t.valueAt ex ey ez), by unfold LTFun.eval; rw [hex, hey, hez], by simp, ?_⟩
  intro i p hp
  refine ⟨t.valueAt ex ey ez p, by rw [List.getElem?_map, hp]; rfl, ?_, ?_⟩
  · intro hout
    unfold LTFun.valueAt
    rw [if_neg]
    rintro ⟨h1, h2, h3⟩
    rw [hzh] at h2
    rw [hzl] at h3
    rcases hout with h | h | h
    · linarith
    · obtain ⟨r, hr, hrv⟩ := hzr _ (show t.zs[0] ∈ t.zs from List.getElem_mem _)
      have := h r hr
      rw [hz0', ← hrv] at h2
      linarith
    · obtain ⟨r, hr, hrv⟩ := hzr _ (show t.zs[t.zs.length - 1] ∈ t.zs from List.getElem_mem _)
      have := h r hr
      rw [hzl', ← hrv] at h3
      linarith
  · intro hin ⟨r1, hr1, hr1z⟩ ⟨r2, hr2, hr2z⟩
    have hzlo : ez.headD 0 ≤ p.2.2 := by rw [hzh]; exact le_trans (hzmem r1 hr1).1 hr1z
    have hzhi : p.2.2 ≤ ez.getLastD 0 := by rw [hzl]; exact le_trans hr2z (hzmem r2 hr2).2
    have hpx : |p.1| ≤ t.activeR ∧ |p.2.1| ≤ t.activeR := by
      constructor <;> rw [abs_le] <;> constructor <;> by_contra hc <;> nlinarith [mul_self_nonneg p.1, mul_self_nonneg p.2.1]
    obtain ⟨a, ha, hna⟩ := cutLabel_nearest hex (hcx p.1 hpx.1).1 (hcx p.1 hpx.1).2
    obtain ⟨b, hb, hnb⟩ := cutLabel_nearest hey (hcy p.2.1 hpx.2).1 (hcy p.2.1 hpx.2).2
    obtain ⟨c, hc, hnc⟩ := cutLabel_nearest hez hzlo hzhi
    have hv : t.valueAt ex ey ez p = t.lookup (some a) (some b) (some c) := by
      unfold LTFun.valueAt
      rw [if_pos ⟨hin, hzlo, hzhi⟩, ha, hb, hc]
    have hlk : t.lookup (some a) (some b) (some c) = match t.rows.find? fun r => decide (r.1 = (a, b, c)) with
      | some r => r.2
      | none => List.replicate t.nsens 0 := rfl
    rw [hv]
    refine ⟨a, b, c, hnear _ _ _ hna, hnear _ _ _ hnb, hnear _ _ _ hnc, ?_, ?_⟩
    · intro hnone
      rw [hlk, (List.find?_eq_none (p := fun r : (ℚ × ℚ × ℚ) × List ℚ => decide (r.1 = (a, b, c)))).2 (fun r hr => by simpa using hnone r hr)]
    · rintro ⟨r, hr, hrk⟩
      rw [hlk]
      cases hf : t.rows.find? fun r => decide (r.1 = (a, b, c)) with
      | none => rw [List.find?_eq_none] at hf; exact absurd (by simpa using hrk) (hf r hr)
      | some r' =>
        have h1 := List.find?_some hf
        exact ⟨r', List.mem_of_find?_eq_some hf, by simpa using h1, rfl⟩

/-- A table with two points in `x`, one in `y` and `z`. -/
def funDemo : LTFun := ⟨[((0, 0, 1), [5, 6]), ((10, 0, 1), [7, 8])], 20, 2⟩

example : funDemo.rows ≠ [] ∧ 0 < funDemo.activeR ∧
    funDemo.eval [(4, 3, 1), (5, 0, 1), (6, 0, 1), (19, 0, 1), (21, 0, 1), (0, 0, 2)] =
      .ok [[5, 6], [5, 6], [7, 8], [7, 8], [0, 0], [0, 0]] := by
  refine ⟨by decide +kernel, by decide +kernel, ?_⟩
  decide +kernel

end Verif.Detsim
