import Verif.Spec.TableIO
import Verif.Lemmas.Tables
/-!
# C39, C40, C41: tables
-/
namespace Verif.TableIO
open Verif.PMapsIO (unique mem_unique unique_nodup)

/-! ### Files -/

theorem get_set_same (f : File) (k : String × String) (t : Table) : (f.set k t).get k = some t := by
  induction f with
  | nil => simp [File.set, File.get]
  | cons x xs ih =>
    simp only [File.set]
    split
    · simp [File.get]
    · rename_i h
      simp only [File.get, List.find?_cons, h] at ih ⊢
      exact ih

theorem get_set_other (f : File) (k k' : String × String) (t : Table) (hk : k' ≠ k) :
    (f.set k t).get k' = f.get k' := by
  induction f with
  | nil => simp [File.set, File.get, hk.symm]
  | cons x xs ih =>
    simp only [File.set]
    split
    · rename_i h
      have hx : x.1 = k := by simpa using h
      have h1 : (k == k') = false := by simpa using hk.symm
      have h2 : (x.1 == k') = false := by rw [hx]; exact h1
      simp [File.get, List.find?_cons, h1, h2]
    · simp only [File.get, List.find?_cons] at ih ⊢
      split
      · rfl
      · exact ih

theorem get_set_id (f : File) (k : String × String) (t : Table) (h : f.get k = some t) (k' : String × String) :
    (f.set k t).get k' = f.get k' := by
  by_cases hk : k' = k
  · subst hk; rw [get_set_same, h]
  · exact get_set_other f k k' t hk

/-! ### Columns -/

theorem dtypeOf_eq {cols : List (String × DType)} (hnd : (cols.map Prod.fst).Nodup) {n : String} {t : DType} :
    dtypeOf cols n = some t ↔ (n, t) ∈ cols := by
  unfold dtypeOf
  constructor
  · intro h
    obtain ⟨c, hc, rfl⟩ := Option.map_eq_some_iff.1 h
    have h1 : c.1 = n := by simpa using List.find?_some hc
    have h2 := List.mem_of_find?_eq_some hc
    rw [← h1]; exact h2
  · intro h
    obtain ⟨c, hc⟩ : ∃ c, cols.find? (fun c => c.1 == n) = some c := by
      rw [← Option.isSome_iff_exists, List.find?_isSome]
      exact ⟨(n, t), h, by simp⟩
    have h1 : c.1 = n := by simpa using List.find?_some hc
    have : c = (n, t) := List.inj_on_of_nodup_map hnd (List.mem_of_find?_eq_some hc) h h1
    rw [hc, this]; rfl

theorem cellOf_eq {cols : List (String × DType)} (hnd : (cols.map Prod.fst).Nodup) {row : List Cell}
    {i : Nat} {c : String × DType} {x : Cell} (hc : cols[i]? = some c) (hx : row[i]? = some x) :
    cellOf cols row c.1 = some x := by
  unfold cellOf
  have hmem : (c.1, x) ∈ (cols.map Prod.fst).zip row := by
    refine List.mem_iff_getElem?.2 ⟨i, ?_⟩
    rw [List.getElem?_zip_eq_some]
    simp [hc, hx]
  obtain ⟨y, hy⟩ : ∃ y, ((cols.map Prod.fst).zip row).find? (fun x => x.1 == c.1) = some y := by
    rw [← Option.isSome_iff_exists, List.find?_isSome]
    exact ⟨_, hmem, by simp⟩
  have h1 : y.1 = c.1 := by simpa using List.find?_some hy
  have h2 := List.mem_of_find?_eq_some hy
  obtain ⟨j, hj⟩ := List.mem_iff_getElem?.1 h2
  rw [List.getElem?_zip_eq_some] at hj
  have hi' : (cols.map Prod.fst)[i]? = some c.1 := by simp [hc]
  have hij : j = i := by
    have hj1 := hj.1
    rw [h1] at hj1
    obtain ⟨hjl, hje⟩ := List.getElem?_eq_some_iff.1 hj1
    obtain ⟨hil, hie⟩ := List.getElem?_eq_some_iff.1 hi'
    exact (List.Nodup.getElem_inj_iff hnd).1 (hje.trans hie.symm)
  subst hij
  have : y.2 = x := by
    have := hj.2
    rw [hx] at this
    injection this with this
    exact this.symm
  rw [hy]
  simp [this]

theorem castCell_stored {t : DType} {x y : Cell} (h : castCell t x = .ok y) : Stored t x y := by
  cases t <;> cases x <;> simp_all [castCell, Stored, eq_comm]

theorem check_iff {cols tcols : List (String × DType)} (hnd : (tcols.map Prod.fst).Nodup) :
    checkCastability cols tcols = .ok () ↔ SameNames cols tcols ∧
      ∀ c ∈ cols, ∀ t, (c.1, t) ∈ tcols → c.2 = .obj ∨ c.2.rank ≤ t.rank := by
  unfold checkCastability
  have hs : ((∀ c ∈ cols.map Prod.fst, c ∈ tcols.map Prod.fst) ∧ (∀ c ∈ tcols.map Prod.fst, c ∈ cols.map Prod.fst))
      ↔ SameNames cols tcols :=
    ⟨fun h n => ⟨h.1 n, h.2 n⟩, fun h => ⟨fun n => (h n).1, fun n => (h n).2⟩⟩
  by_cases hsn : SameNames cols tcols
  · rw [if_neg (not_not_intro (hs.2 hsn))]
    have hall : cols.all (castable tcols) = true ↔ ∀ c ∈ cols, ∀ t, (c.1, t) ∈ tcols → c.2 = .obj ∨ c.2.rank ≤ t.rank := by
      rw [List.all_eq_true]
      refine forall₂_congr fun c hc => ?_
      have : c.1 ∈ tcols.map Prod.fst := (hsn c.1).1 (List.mem_map_of_mem hc)
      obtain ⟨⟨n, t⟩, ht, hn⟩ := List.mem_map.1 this
      simp only at hn
      subst hn
      have hd := (dtypeOf_eq hnd).2 ht
      unfold castable
      rw [hd]
      have huniq : ∀ t', (c.1, t') ∈ tcols → t' = t := by
        intro t' ht'
        have := (dtypeOf_eq hnd).2 ht'
        rw [hd] at this
        injection this with this
        exact this.symm
      constructor
      · intro h t' ht'
        rw [huniq t' ht']
        by_cases ho : c.2 = .obj
        · exact Or.inl ho
        · simp only [ho, if_false, decide_eq_true_eq] at h
          exact Or.inr h
      · intro h
        rcases h t ht with ho | hr
        · simp [ho]
        · by_cases ho : c.2 = .obj
          · simp [ho]
          · simp [ho, hr]
    by_cases hc : cols.all (castable tcols) = true
    · rw [if_pos hc]; exact ⟨fun _ => ⟨hsn, hall.1 hc⟩, fun _ => rfl⟩
    · rw [if_neg hc]
      constructor
      · intro h; cases h
      · intro h; exact absurd (hall.2 h.2) hc
  · rw [if_pos (fun h => hsn (hs.1 h))]
    constructor
    · intro h; cases h
    · intro h; exact absurd h.1 hsn

theorem check_error {cols tcols : List (String × DType)} {e : PyErr} (h : checkCastability cols tcols = .error e) :
    e = .other "TableMismatch" := by
  unfold checkCastability at h
  split at h
  · injection h with h; exact h.symm
  · split at h
    · cases h
    · injection h with h; exact h.symm

theorem col_of_name {cols : List (String × DType)} {n : String} (h : n ∈ cols.map Prod.fst) :
    ∃ (i : Nat) (c : String × DType), cols[i]? = some c ∧ c.1 = n := by
  obtain ⟨c, hc, rfl⟩ := List.mem_map.1 h
  obtain ⟨i, hi⟩ := List.mem_iff_getElem?.1 hc
  exact ⟨i, c, hi, rfl⟩

/-- the conversion of a row of an accepted dataframe -/
theorem castRow_ok {df : DF} (hg : GoodDF df) {tcols : List (String × DType)} (hnd : (tcols.map Prod.fst).Nodup)
    (hacc : Accepted tcols df) {row : List Cell} (hrow : row ∈ df.rows) :
    ∃ nrow, castRow df.cols tcols row = .ok nrow ∧ nrow.length = tcols.length ∧ ∀ name t, (name, t) ∈ tcols →
      ∃ x y, cellOf df.cols row name = some x ∧ cellOf tcols nrow name = some y ∧ Stored t x y := by
  have hcell : ∀ tc ∈ tcols, ∃ x y, cellOf df.cols row tc.1 = some x ∧ castColumn df.cols row tc = .ok y ∧
      Stored tc.2 x y := by
    rintro ⟨n, t⟩ htc
    obtain ⟨i, c, hc, hcn⟩ := col_of_name ((hacc.1 n).2 (List.mem_map_of_mem (f := Prod.fst) htc))
    have hlt : i < row.length := by
      rw [hg.lengths row hrow]; exact (List.getElem?_eq_some_iff.1 hc).1
    have hx := List.getElem?_eq_getElem hlt
    have hcx := cellOf_eq hg.names hc hx
    subst hcn
    have hfit := hacc.2 c (List.mem_of_getElem? hc) t htc
    have htyp := hg.typed row hrow i c _ hc hx
    have hns := hg.not_str c (List.mem_of_getElem? hc)
    obtain ⟨y, hy⟩ : ∃ y, castCell t row[i] = .ok y := by
      cases hxx : row[i] with
      | num x =>
        cases t <;> simp [castCell]
      | text s =>
        have ho : c.2 = .obj := htyp.2 ⟨s, hxx⟩
        rw [ho] at hfit
        cases t <;> simp_all [castCell, Fits]
    refine ⟨row[i], y, hcx, ?_, castCell_stored hy⟩
    unfold castColumn
    simp only
    rw [hcx]
    exact hy
  obtain ⟨nrow, hnrow⟩ := mapM_ok (f := castColumn df.cols row) (xs := tcols)
    (fun tc h => by obtain ⟨_, y, _, hy, _⟩ := hcell tc h; exact ⟨y, hy⟩)
  have hf := mapM_ok_iff.1 hnrow
  refine ⟨nrow, hnrow, hf.length_eq.symm, ?_⟩
  intro name t hmem
  obtain ⟨x, y, h1, h2, h3⟩ := hcell (name, t) hmem
  obtain ⟨i, hi⟩ := List.mem_iff_getElem?.1 hmem
  have hlt : i < nrow.length := by rw [← hf.length_eq]; exact (List.getElem?_eq_some_iff.1 hi).1
  have := forall₂_getElem? hf i _ _ hi (List.getElem?_eq_getElem hlt)
  rw [h2] at this
  injection this with this
  refine ⟨x, y, h1, ?_, h3⟩
  have hc := cellOf_eq hnd hi (List.getElem?_eq_getElem hlt)
  rw [this]
  exact hc

theorem castRows_ok {df : DF} (hg : GoodDF df) {tcols : List (String × DType)} (hnd : (tcols.map Prod.fst).Nodup)
    (hacc : Accepted tcols df) : ∃ new, df.rows.mapM (castRow df.cols tcols) = .ok new ∧ RowsOf df tcols new := by
  obtain ⟨new, hnew⟩ := mapM_ok (f := castRow df.cols tcols) (xs := df.rows)
    (fun row h => by obtain ⟨y, hy, _⟩ := castRow_ok hg hnd hacc h; exact ⟨y, hy⟩)
  refine ⟨new, hnew, ?_⟩
  have hf := mapM_ok_iff.1 hnew
  unfold RowsOf
  rw [List.forall₂_iff_zip] at hf ⊢
  refine ⟨hf.1, fun {a b} hab => ?_⟩
  obtain ⟨y, hy, h1, h2⟩ := castRow_ok hg hnd hacc (List.of_mem_zip hab).1
  have := hf.2 hab
  rw [hy] at this
  injection this with this
  subst this
  exact ⟨h1, h2⟩

theorem castRows_error {df : DF} (hg : GoodDF df) {tcols : List (String × DType)} (hnd : (tcols.map Prod.fst).Nodup)
    (hck : checkCastability df.cols tcols = .ok ()) (hacc : ¬ Accepted tcols df) (hne : df.rows ≠ []) :
    df.rows.mapM (castRow df.cols tcols) = .error .valueError := by
  obtain ⟨hs, hk⟩ := (check_iff hnd).1 hck
  obtain ⟨c, hc, t, ht, hfit⟩ : ∃ c ∈ df.cols, ∃ t, (c.1, t) ∈ tcols ∧ ¬ Fits c.2 t := by
    by_contra hcon
    push Not at hcon
    exact hacc ⟨hs, hcon⟩
  have hobj : c.2 = .obj := by
    rcases hk c hc t ht with h | h
    · exact h
    · by_contra ho
      exact hfit (by cases hc2 : c.2 <;> cases t <;> simp_all [Fits, DType.rank])
  -- every row fails, with a value error
  have hrow : ∀ row ∈ df.rows, castRow df.cols tcols row = .error .valueError := by
    intro row hrow
    have hcellerr : ∀ tc ∈ tcols, castColumn df.cols row tc = .error .valueError ∨ ∃ y, castColumn df.cols row tc = .ok y := by
      rintro ⟨n, u⟩ htc
      obtain ⟨i, c', hc', hcn⟩ := col_of_name ((hs n).2 (List.mem_map_of_mem (f := Prod.fst) htc))
      have hlt : i < row.length := by
        rw [hg.lengths row hrow]; exact (List.getElem?_eq_some_iff.1 hc').1
      have hcx := cellOf_eq hg.names hc' (List.getElem?_eq_getElem hlt)
      subst hcn
      unfold castColumn
      simp only
      rw [hcx]
      simp only
      cases row[i] <;> cases u <;> simp [castCell]
    have hbad : castColumn df.cols row (c.1, t) = .error .valueError := by
      obtain ⟨i, hi⟩ := List.mem_iff_getElem?.1 hc
      have hlt : i < row.length := by
        rw [hg.lengths row hrow]; exact (List.getElem?_eq_some_iff.1 hi).1
      have hcx := cellOf_eq hg.names hi (List.getElem?_eq_getElem hlt)
      obtain ⟨s, hs'⟩ := (hg.typed row hrow i c _ hi (List.getElem?_eq_getElem hlt)).1 hobj
      unfold castColumn
      simp only
      rw [hcx, hs']
      rw [hobj] at hfit
      cases t <;> simp_all [castCell, Fits]
    unfold castRow
    have : ∀ (l : List (String × DType)), (∀ tc ∈ l, castColumn df.cols row tc = .error .valueError ∨
        ∃ y, castColumn df.cols row tc = .ok y) → (c.1, t) ∈ l → l.mapM (castColumn df.cols row) = .error .valueError := by
      intro l
      induction l with
      | nil => simp
      | cons a l ih =>
        intro h1 h2
        rw [List.mapM_cons]
        rcases h1 a (by simp) with ha | ⟨y, ha⟩
        · rw [ha]; rfl
        · rw [ha]
          rcases List.mem_cons.1 h2 with rfl | h2
          · rw [hbad] at ha; cases ha
          · rw [ih (fun b hb => h1 b (by simp [hb])) h2]; rfl
    exact this tcols hcellerr ht
  obtain ⟨r, rs, hr⟩ := List.exists_cons_of_ne_nil hne
  rw [hr, List.mapM_cons, hrow r (by rw [hr]; simp)]
  rfl

/-! ### C39: one write -/

/-- **C39** A dataframe with the columns of the table, in any order, and types that fit is appended, in order,
after the existing rows; the columns of the table do not change, nor does any other node. -/
theorem write_appends (f : File) (df : DF) (k : String × String) (strLen : Nat) (t : Table) (hg : GoodDF df)
    (hk : f.get k = some t) (hnd : (t.cols.map Prod.fst).Nodup) (hacc : Accepted t.cols df) :
    ∃ new, RowsOf df t.cols new ∧ (dfWriter f df k strLen none).2 = .ok () ∧
      (dfWriter f df k strLen none).1.get k = some ⟨t.cols, t.rows ++ new, t.index⟩ ∧
      ∀ k', k' ≠ k → (dfWriter f df k strLen none).1.get k' = f.get k' := by
  obtain ⟨new, hnew, hro⟩ := castRows_ok hg hnd hacc
  refine ⟨new, hro, ?_⟩
  have hck : checkCastability df.cols t.cols = .ok () := by
    rw [check_iff hnd]
    refine ⟨hacc.1, fun c hc u hu => ?_⟩
    have := hacc.2 c hc u hu
    have hns := hg.not_str c hc
    cases hc2 : c.2 <;> cases u <;> simp_all [Fits, DType.rank]
  by_cases h0 : df.rows.length ≠ 0
  · have : dfWriter f df k strLen none = (f.set k ⟨t.cols, t.rows ++ new, t.index⟩, .ok ()) := by
      simp only [dfWriter, openTable, hk]
      rw [if_pos h0, hck]
      simp only
      rw [hnew]
      rfl
    rw [this]
    exact ⟨rfl, get_set_same _ _ _, fun k' h => get_set_other _ _ _ _ h⟩
  · have hnil : df.rows = [] := by simpa using h0
    have hn : new = [] := by
      unfold RowsOf at hro
      rw [hnil] at hro
      cases hro; rfl
    subst hn
    have : dfWriter f df k strLen none = (f.set k t, .ok ()) := by
      simp only [dfWriter, openTable, hk]
      rw [if_neg h0]
      rfl
    rw [this]
    exact ⟨rfl, by rw [get_set_same]; simp, fun k' h => get_set_other _ _ _ _ h⟩

/-- **C39** A dataframe with rows and other columns or types is rejected, and the file is left as it was. -/
theorem write_rejected (f : File) (df : DF) (k : String × String) (strLen : Nat) (t : Table) (hg : GoodDF df)
    (hk : f.get k = some t) (hnd : (t.cols.map Prod.fst).Nodup) (hacc : ¬ Accepted t.cols df) (hne : df.rows ≠ [])
    (idx : Option (List String)) :
    (∃ e, (dfWriter f df k strLen idx).2 = .error e ∧
      (¬ SameNames df.cols t.cols → e = .other "TableMismatch")) ∧
    ∀ k', (dfWriter f df k strLen idx).1.get k' = f.get k' := by
  have h0 : df.rows.length ≠ 0 := by simpa using hne
  cases hck : checkCastability df.cols t.cols with
  | error e =>
    have he := check_error hck
    have : dfWriter f df k strLen idx = (f.set k t, .error e) := by
      simp only [dfWriter, openTable, hk]
      rw [if_pos h0, hck]
    rw [this]
    exact ⟨⟨e, rfl, fun _ => he⟩, fun k' => get_set_id f k t hk k'⟩
  | ok u =>
    have hr := castRows_error hg hnd hck hacc hne
    have : dfWriter f df k strLen idx = (f.set k t, .error .valueError) := by
      simp only [dfWriter, openTable, hk]
      rw [if_pos h0, hck]
      simp only
      rw [hr]
    rw [this]
    exact ⟨⟨_, rfl, fun h => absurd ((check_iff hnd).1 hck).1 h⟩, fun k' => get_set_id f k t hk k'⟩

/-- **C39** (quirk) A dataframe without rows is never rejected, whatever its columns, and changes nothing. -/
theorem write_no_rows (f : File) (cols : List (String × DType)) (k : String × String) (strLen : Nat) (t : Table)
    (hk : f.get k = some t) :
    (dfWriter f ⟨cols, []⟩ k strLen none).2 = .ok () ∧
    ∀ k', (dfWriter f ⟨cols, []⟩ k strLen none).1.get k' = f.get k' := by
  have : dfWriter f ⟨cols, []⟩ k strLen none = (f.set k t, .ok ()) := by
    simp only [dfWriter, openTable, hk]
    simp [flagIndex]
  rw [this]
  exact ⟨rfl, fun k' => get_set_id f k t hk k'⟩

theorem makeTabledef_names (cols : List (String × DType)) (n : Nat) :
    (makeTabledef cols n).map Prod.fst = cols.map Prod.fst := by
  unfold makeTabledef
  rw [List.map_map]
  refine List.map_congr_left fun c _ => ?_
  simp only [Function.comp]
  split <;> rfl

/-- **C39** The first write creates the table with the columns of the dataframe, in its order, and its rows. -/
theorem first_write (f : File) (df : DF) (k : String × String) (strLen : Nat) (hg : GoodDF df)
    (hk : f.get k = none) :
    ∃ cols new, cols.map Prod.fst = df.cols.map Prod.fst ∧ RowsOf df cols new ∧
      (dfWriter f df k strLen none).2 = .ok () ∧
      (dfWriter f df k strLen none).1.get k = some ⟨cols, new, none⟩ ∧
      ∀ k', k' ≠ k → (dfWriter f df k strLen none).1.get k' = f.get k' := by
  have hnames := makeTabledef_names df.cols strLen
  have hnd : ((makeTabledef df.cols strLen).map Prod.fst).Nodup := by rw [hnames]; exact hg.names
  have hacc : Accepted (makeTabledef df.cols strLen) df := by
    refine ⟨fun n => by rw [hnames], ?_⟩
    intro c hc t ht
    unfold makeTabledef at ht
    obtain ⟨c', hc', hce⟩ := List.mem_map.1 ht
    have hfst : c'.1 = c.1 := by
      split at hce
      · injection hce
      · rw [hce]
    have : c' = c := List.inj_on_of_nodup_map hg.names hc' hc hfst
    subst this
    split at hce
    · rename_i ho
      injection hce with _ h2
      rw [ho, ← h2]; trivial
    · rename_i ho
      have h2 : c'.2 = t := by rw [hce]
      rw [← h2]
      cases hc2 : c'.2
      · trivial
      · trivial
      · trivial
      · trivial
      · exact absurd hc2 ho
      · trivial
  obtain ⟨new, hnew, hro⟩ := castRows_ok hg hnd hacc
  refine ⟨makeTabledef df.cols strLen, new, hnames, hro, ?_⟩
  have hck : checkCastability df.cols (makeTabledef df.cols strLen) = .ok () := by
    rw [check_iff hnd]
    refine ⟨hacc.1, fun c hc u hu => ?_⟩
    have := hacc.2 c hc u hu
    have hns := hg.not_str c hc
    cases hc2 : c.2 <;> cases u <;> simp_all [Fits, DType.rank]
  by_cases h0 : df.rows.length ≠ 0
  · have : dfWriter f df k strLen none = (f.set k ⟨makeTabledef df.cols strLen, [] ++ new, none⟩, .ok ()) := by
      simp only [dfWriter, openTable, hk]
      rw [if_pos h0, hck]
      simp only
      rw [hnew]
      rfl
    rw [this]
    exact ⟨rfl, get_set_same _ _ _, fun k' h => get_set_other _ _ _ _ h⟩
  · have hnil : df.rows = [] := by simpa using h0
    have hn : new = [] := by
      unfold RowsOf at hro
      rw [hnil] at hro
      cases hro; rfl
    subst hn
    have : dfWriter f df k strLen none = (f.set k ⟨makeTabledef df.cols strLen, [], none⟩, .ok ()) := by
      simp only [dfWriter, openTable, hk]
      rw [if_neg h0]
      rfl
    rw [this]
    exact ⟨rfl, get_set_same _ _ _, fun k' h => get_set_other _ _ _ _ h⟩

/-! ### C39: any history -/

open Classical in
/-- **C39** After any sequence of writes to a node, the table has its original columns, and its original rows
followed by those of the accepted dataframes in order of writing. -/
theorem writes_history (k : String × String) (strLen : Nat) (dfs : List DF) :
    ∀ (f : File) (t : Table), (∀ df ∈ dfs, GoodDF df) → f.get k = some t → (t.cols.map Prod.fst).Nodup →
    ∃ news : List (List (List Cell)),
      List.Forall₂ (fun df new => if Accepted t.cols df then RowsOf df t.cols new else new = []) dfs news ∧
      (writeAll f k strLen dfs).get k = some ⟨t.cols, t.rows ++ news.flatten, t.index⟩ ∧
      ∀ k', k' ≠ k → (writeAll f k strLen dfs).get k' = f.get k' := by
  induction dfs with
  | nil => intro f t _ hk _; exact ⟨[], .nil, by simp [writeAll, hk], by simp [writeAll]⟩
  | cons df dfs ih =>
    intro f t hg hk hnd
    have hw : writeAll f k strLen (df :: dfs) = writeAll (dfWriter f df k strLen none).1 k strLen dfs := rfl
    rw [hw]
    by_cases hacc : Accepted t.cols df
    · obtain ⟨new, h1, _, h3, h4⟩ := write_appends f df k strLen t (hg df (by simp)) hk hnd hacc
      obtain ⟨news, hn1, hn2, hn3⟩ := ih _ ⟨t.cols, t.rows ++ new, t.index⟩ (fun d hd => hg d (by simp [hd])) h3 hnd
      refine ⟨new :: news, .cons (by rw [if_pos hacc]; exact h1) hn1, ?_, ?_⟩
      · rw [hn2]; simp
      · intro k' hk'; rw [hn3 k' hk', h4 k' hk']
    · have hsame : ∀ k', (dfWriter f df k strLen none).1.get k' = f.get k' := by
        by_cases hne : df.rows = []
        · have := (write_no_rows f df.cols k strLen t hk).2
          have hd : df = ⟨df.cols, []⟩ := by cases df; simp_all
          rw [hd]; exact this
        · exact (write_rejected f df k strLen t (hg df (by simp)) hk hnd hacc hne none).2
      obtain ⟨news, hn1, hn2, hn3⟩ := ih _ t (fun d hd => hg d (by simp [hd])) ((hsame k).trans hk) hnd
      refine ⟨[] :: news, .cons (by rw [if_neg hacc]) hn1, ?_, ?_⟩
      · rw [hn2]; simp
      · intro k' hk'; rw [hn3 k' hk', hsame k']

/-- **C39** (quirk) A wrong column to index raises `KeyError`, but the rows have already been written. -/
theorem bad_index_column_writes_rows (f : File) (df : DF) (k : String × String) (strLen : Nat) (t : Table)
    (hg : GoodDF df) (hk : f.get k = some t) (hnd : (t.cols.map Prod.fst).Nodup) (hacc : Accepted t.cols df)
    (idx : List String) (hidx : ¬ ∀ c ∈ idx, c ∈ df.cols.map Prod.fst) :
    (dfWriter f df k strLen (some idx)).2 = .error .keyError ∧
    (dfWriter f df k strLen (some idx)).1 = (dfWriter f df k strLen none).1 := by
  obtain ⟨new, hnew, hro⟩ := castRows_ok hg hnd hacc
  have hck : checkCastability df.cols t.cols = .ok () := by
    rw [check_iff hnd]
    refine ⟨hacc.1, fun c hc u hu => ?_⟩
    have := hacc.2 c hc u hu
    have hns := hg.not_str c hc
    cases hc2 : c.2 <;> cases u <;> simp_all [Fits, DType.rank]
  simp only [dfWriter, openTable, hk]
  by_cases h0 : df.rows.length ≠ 0
  · rw [if_pos h0, if_pos h0, hck]
    simp only
    rw [hnew]
    simp only [flagIndex, if_neg hidx]
    exact ⟨trivial, trivial⟩
  · rw [if_neg h0, if_neg h0]
    simp only [flagIndex, if_neg hidx]
    exact ⟨trivial, trivial⟩

/-- **C39** Flagging existing columns only changes the attribute. -/
theorem good_index_column (f : File) (df : DF) (k : String × String) (strLen : Nat) (t t' : Table)
    (hk : (dfWriter f df k strLen none).1.get k = some t) (hok : (dfWriter f df k strLen none).2 = .ok ())
    (idx : List String) (hidx : ∀ c ∈ idx, c ∈ df.cols.map Prod.fst)
    (ht' : (dfWriter f df k strLen (some idx)).1.get k = some t') :
    (dfWriter f df k strLen (some idx)).2 = .ok () ∧ t' = { t with index := some idx } := by
  have key : ∀ t0 : Table, flagIndex f k t0 df.cols none = (f.set k t0, .ok ()) ∧
      flagIndex f k t0 df.cols (some idx) = (f.set k { t0 with index := some idx }, .ok ()) := by
    intro t0
    refine ⟨rfl, ?_⟩
    simp only [flagIndex]
    rw [if_pos hidx]
  have fin : ∀ t0 : Table, ((f.set k t0, (.ok () : Except PyErr Unit)).1.get k = some t) →
      ((f.set k { t0 with index := some idx }, (.ok () : Except PyErr Unit)).1.get k = some t') →
      t' = { t with index := some idx } := by
    intro t0 h1 h2
    simp only at h1 h2
    rw [get_set_same] at h1 h2
    injection h1 with h1
    injection h2 with h2
    rw [← h2, ← h1]
  simp only [dfWriter] at hk hok ht' ⊢
  by_cases h0 : df.rows.length ≠ 0
  · rw [if_pos h0] at hk hok ht' ⊢
    cases hck : checkCastability df.cols (openTable f df k strLen).cols with
    | error e => rw [hck] at hok; cases hok
    | ok u =>
      rw [hck] at hk hok ht'
      simp only at hk hok ht' ⊢
      cases hr : df.rows.mapM (castRow df.cols (openTable f df k strLen).cols) with
      | error e => rw [hr] at hok; cases hok
      | ok rows =>
        rw [hr] at hk ht'
        simp only at hk ht' ⊢
        rw [(key _).1] at hk
        rw [(key _).2] at ht' ⊢
        exact ⟨rfl, fin _ hk ht'⟩
  · rw [if_neg h0] at hk ht' ⊢
    rw [(key _).1] at hk
    rw [(key _).2] at ht' ⊢
    exact ⟨rfl, fin _ hk ht'⟩

/-- **C39** Reading without a list of events gives the columns and all the rows of the table; with a list, the
rows of these events in the same order. -/
theorem load_spec (f : File) (k : String × String) (t : Table) (hk : f.get k = some t) :
    loadDst f k none = .ok ⟨t.cols, t.rows⟩ ∧
    ("event" ∈ t.cols.map Prod.fst → ∀ evts, ∃ rows, loadDst f k (some evts) = .ok ⟨t.cols, rows⟩ ∧
      rows.Sublist t.rows ∧
      ∀ row, row ∈ rows ↔ row ∈ t.rows ∧ ∃ x ∈ evts, cellOf t.cols row "event" = some (.num x)) := by
  refine ⟨by simp only [loadDst, hk], fun h evts => ?_⟩
  refine ⟨t.rows.filter (rowInEvents t.cols evts), ?_, List.filter_sublist, ?_⟩
  · simp only [loadDst, hk]; rw [if_pos h]
  · intro row
    rw [List.mem_filter]
    refine and_congr_right fun _ => ?_
    unfold rowInEvents
    split
    · rename_i x hx; rw [hx]; simp
    · rename_i hx
      constructor
      · intro h; cases h
      · rintro ⟨x, _, hx'⟩; exact absurd hx' (hx x)

/-- Hypotheses are met: a table with an event column and text, and dataframes in several orders. -/
def exDF : DF := ⟨[("event", .int), ("name", .obj), ("q", .float)],
  [[.num 1, .text "abcdef", .num (1/2)], [.num 2, .text "x", .num 3]]⟩
def exDF2 : DF := ⟨[("q", .int), ("event", .uint), ("name", .obj)], [[.num 9, .num 7, .text "hello"]]⟩
def exDF3 : DF := ⟨[("q", .float), ("event", .float), ("name", .obj)], [[.num 9, .num 7, .text "hello"]]⟩

example : (writeAll [] ("G", "T") 4 [exDF, exDF2, exDF3, exDF2]).get ("G", "T") =
    some ⟨[("event", .int), ("name", .str 4), ("q", .float)],
      [[.num 1, .text "abcd", .num (1/2)], [.num 2, .text "x", .num 3], [.num 7, .text "hell", .num 9],
       [.num 7, .text "hell", .num 9]], none⟩ := by decide +kernel

theorem exDF_good : GoodDF exDF ∧ GoodDF exDF2 := by
  have aux : ∀ df : DF, (df.cols.map Prod.fst).Nodup → (∀ row ∈ df.rows, row.length = df.cols.length) →
      (∀ c ∈ df.cols, match c.2 with | .str _ => False | _ => True) →
      (∀ row ∈ df.rows, ∀ p ∈ df.cols.zip row, (p.1.2 = .obj ↔ match p.2 with | .text _ => True | _ => False)) →
      GoodDF df := by
    intro df h1 h2 h3 h4
    refine ⟨h1, h2, ?_, ?_⟩
    · intro c hc n hn
      have := h3 c hc
      rw [hn] at this; exact this
    · intro row hr i c x hc hx
      have hm : (c, x) ∈ df.cols.zip row :=
        List.mem_iff_getElem?.2 ⟨i, by rw [List.getElem?_zip_eq_some]; exact ⟨hc, hx⟩⟩
      rw [h4 row hr _ hm]
      cases x <;> simp
  refine ⟨aux _ (by decide) (by decide) ?_ ?_, aux _ (by decide) (by decide) ?_ ?_⟩
  · intro c hc; simp [exDF] at hc; rcases hc with rfl | rfl | rfl <;> trivial
  · intro row hr p hp
    simp [exDF] at hr
    rcases hr with rfl | rfl <;> simp [exDF] at hp <;> rcases hp with rfl | rfl | rfl <;> simp
  · intro c hc; simp [exDF2] at hc; rcases hc with rfl | rfl | rfl <;> trivial
  · intro row hr p hp
    simp [exDF2] at hr
    subst hr
    simp [exDF2] at hp
    rcases hp with rfl | rfl | rfl <;> simp

example : Accepted [("event", .int), ("name", .str 4), ("q", .float)] exDF2 ∧
    ¬ Accepted [("event", .int), ("name", .str 4), ("q", .float)] exDF3 := by
  constructor
  · refine ⟨fun n => by simp [exDF2]; tauto, ?_⟩
    intro c hc t ht
    simp [exDF2] at hc
    rcases hc with rfl | rfl | rfl <;> simp at ht <;> subst ht <;> simp [Fits, DType.rank]
  · intro h
    have := h.2 ("event", .float) (by simp [exDF3]) .int (by simp)
    simp [Fits, DType.rank] at this

example : loadDst (writeAll [] ("G", "T") 4 [exDF, exDF2]) ("G", "T") (some [7, 1]) =
    .ok ⟨[("event", .int), ("name", .str 4), ("q", .float)],
      [[.num 1, .text "abcd", .num (1/2)], [.num 7, .text "hell", .num 9]]⟩ := by decide +kernel

/-! ### C40 -/

/-- A history of decisions recorded by one filter. -/
def recordAll (f : Filter) (ds : List (Int × Bool)) : Filter :=
  ds.foldl (fun f d => writeEventPassed f d.1 d.2) f

/-- **C40** One record per call, in order, nothing lost. -/
theorem records_complete (ds : List (Int × Bool)) : ∀ (f : Filter),
    recordAll f ds = ⟨f.name, f.records ++ ds⟩ := by
  induction ds with
  | nil => intro f; simp [recordAll]
  | cons d ds ih =>
    intro f
    have : recordAll f (d :: ds) = recordAll (writeEventPassed f d.1 d.2) ds := rfl
    rw [this, ih]
    simp [writeEventPassed]

theorem filterValue_iff {g : Filter} (h : (g.records.map Prod.fst).Nodup) (e : Int) :
    filterValue g e = true ↔ (e, true) ∈ g.records := by
  unfold filterValue
  constructor
  · intro hv
    split at hv
    · rename_i r hr
      have h1 : r.1 = e := by simpa using List.find?_some hr
      have h2 := List.mem_of_find?_eq_some hr
      rw [← h1, ← hv]; exact h2
    · cases hv
  · intro hm
    obtain ⟨r, hr⟩ : ∃ r, g.records.find? (fun r => r.1 == e) = some r := by
      rw [← Option.isSome_iff_exists, List.find?_isSome]
      exact ⟨_, hm, by simp⟩
    have h1 : r.1 = e := by simpa using List.find?_some hr
    have : r = (e, true) := List.inj_on_of_nodup_map h (List.mem_of_find?_eq_some hr) hm h1
    rw [hr, this]

/-- **C40** When no filter recorded an event twice, the reader gives exactly one row for each event recorded by
some filter, with one flag per filter in order, true iff this filter recorded the event as passed (in
particular false when it did not record the event). -/
theorem reader_spec (fs : List Filter) (hne : fs ≠ []) (hnd : ∀ g ∈ fs, (g.records.map Prod.fst).Nodup) :
    ∃ rows, eventFilterReader fs = .ok rows ∧ (rows.map Prod.fst).Nodup ∧
      (∀ e, e ∈ rows.map Prod.fst ↔ ∃ g ∈ fs, ∃ b, (e, b) ∈ g.records) ∧
      ∀ e flags, (e, flags) ∈ rows → List.Forall₂ (fun g b => b = true ↔ (e, true) ∈ g.records) fs flags := by
  obtain ⟨f, rest, rfl⟩ := List.exists_cons_of_ne_nil hne
  simp only [eventFilterReader]
  have hmemfst : ∀ (g : Filter) e, e ∈ g.records.map Prod.fst ↔ ∃ b, (e, b) ∈ g.records := by
    intro g e; simp
  split
  · rename_i hsame
    have hsame' : ∀ g ∈ f :: rest, g.records.map Prod.fst = f.records.map Prod.fst := by
      intro g hg
      rcases List.mem_cons.1 hg with rfl | hg
      · rfl
      · exact hsame g hg
    have hfst : (f.records.zipIdx.map fun x => (x.1.1, (f :: rest).map fun g => (g.records.map Prod.snd).getD x.2 false)).map
        Prod.fst = f.records.map Prod.fst := by
      rw [List.map_map]
      rw [show (Prod.fst ∘ fun x : (Int × Bool) × Nat => (x.1.1, (f :: rest).map fun g => (g.records.map Prod.snd).getD x.2 false))
        = Prod.fst ∘ Prod.fst from rfl, ← List.map_map]
      congr 1
      simp
    refine ⟨_, rfl, ?_, ?_, ?_⟩
    · rw [hfst]; exact hnd f (by simp)
    · intro e
      rw [hfst]
      constructor
      · intro h; exact ⟨f, by simp, (hmemfst f e).1 h⟩
      · rintro ⟨g, hg, h⟩; rw [← hsame' g hg]; exact (hmemfst g e).2 h
    · intro e flags hmem
      obtain ⟨⟨r, i⟩, hx, hxe⟩ := List.mem_map.1 hmem
      injection hxe with h1 h2
      subst h1 h2
      rw [List.forall₂_map_right_iff, List.forall₂_same]
      intro g hg
      have hi := List.mk_mem_zipIdx_iff_getElem?.1 hx
      have hfi : (f.records.map Prod.fst)[i]? = some r.1 := by simp [hi]
      rw [← hsame' g hg] at hfi
      obtain ⟨q, hq, hq1⟩ : ∃ q, g.records[i]? = some q ∧ q.1 = r.1 := by
        rw [List.getElem?_map, Option.map_eq_some_iff] at hfi
        exact hfi
      have hq2 : (g.records.map Prod.snd).getD i false = q.2 := by
        simp [List.getD_eq_getElem?_getD, hq]
      simp only
      rw [hq2, ← hq1]
      constructor
      · intro h; rw [← h]; exact List.mem_of_getElem? hq
      · intro h
        have := List.inj_on_of_nodup_map (hnd g hg) (List.mem_of_getElem? hq) h rfl
        rw [this]
  · try rw [if_pos hnd]
    refine ⟨_, rfl, ?_, ?_, ?_⟩
    · rw [List.map_map]
      rw [show (Prod.fst ∘ fun e : Int => (e, (f :: rest).map fun g => filterValue g e)) = id from rfl, List.map_id]
      exact unique_nodup _
    · intro e
      rw [List.map_map]
      rw [show (Prod.fst ∘ fun e : Int => (e, (f :: rest).map fun g => filterValue g e)) = id from rfl, List.map_id,
        mem_unique, List.mem_flatMap]
      refine exists_congr fun g => and_congr_right fun _ => hmemfst g e
    · intro e flags hmem
      obtain ⟨e', _, hxe⟩ := List.mem_map.1 hmem
      injection hxe with h1 h2
      subst h1 h2
      rw [List.forall₂_map_right_iff, List.forall₂_same]
      intro g hg
      exact filterValue_iff (hnd g hg) e'

example : eventFilterReader [recordAll ⟨"a", []⟩ [(1, true), (2, false), (3, true)], recordAll ⟨"b", []⟩ [(3, true), (1, true)]] =
    .ok [(1, [true, true]), (2, [false, false]), (3, [true, true])] := by decide

/-- **C40** (limit) When an event is recorded twice by a filter and the filters differ, the records cannot be
read. -/
theorem repeated_event_unreadable :
    eventFilterReader [⟨"a", [(1, true), (1, false)]⟩, ⟨"b", [(1, true)]⟩] = .error (.other "InvalidIndexError") := by
  decide

/-! ### C41 -/

/-- The trigger data of the events of a run. -/
def storeAllTriggers (t : TriggerTables) (evs : List (Option Int × Option (List Int))) : TriggerTables :=
  evs.foldl (fun t e => (storeTrigger t e.1 e.2).1) t

/-- **C41** (partial) Events with a trigger type different from zero and as many channels as the node get one
row in each of the two nodes, in order.  Missing: events with trigger type zero, see `type_zero_lost`. -/
theorem one_row_per_event_partial (evs : List (Int × List Int)) : ∀ (t : TriggerTables),
    (∀ e ∈ evs, e.1 ≠ 0 ∧ e.2.length = t.nSensors) →
    storeAllTriggers t (evs.map fun e => (some e.1, some e.2)) =
      ⟨t.types ++ evs.map Prod.fst, t.channels ++ evs.map Prod.snd, t.nSensors⟩ := by
  induction evs with
  | nil => intro t _; simp [storeAllTriggers]
  | cons e evs ih =>
    intro t h
    obtain ⟨h1, h2⟩ := h e (by simp)
    have : storeAllTriggers t ((e :: evs).map fun e => (some e.1, some e.2)) =
        storeAllTriggers (storeTrigger t (some e.1) (some e.2)).1 (evs.map fun e => (some e.1, some e.2)) := rfl
    rw [this]
    have hs : storeTrigger t (some e.1) (some e.2) =
        (⟨t.types ++ [e.1], t.channels ++ [e.2], t.nSensors⟩, .ok ()) := by
      simp only [storeTrigger]
      rw [if_pos h1]
      simp [h2]
    rw [hs]
    simp only
    rw [ih ⟨t.types ++ [e.1], t.channels ++ [e.2], t.nSensors⟩ (fun x hx => h x (by simp [hx]))]
    simp

/-- **C41** Absent data write nothing: files without trigger information keep empty nodes. -/
theorem no_trigger_no_rows (n : Nat) (t : TriggerTables) :
    storeAllTriggers t (List.replicate n (none, none)) = t := by
  induction n with
  | zero => rfl
  | succ n ih => rw [List.replicate_succ]; exact ih

/-- **C41** (the code violates the property) An event with trigger type 0 has channels but no type: from then on
the two nodes are out of step. -/
theorem type_zero_lost (t : TriggerTables) (c : List Int) (hc : c.length = t.nSensors) :
    storeTrigger t (some 0) (some c) = (⟨t.types, t.channels ++ [c], t.nSensors⟩, .ok ()) := by
  simp [storeTrigger, hc]

/-- **C41** Channels of another width than the node are refused and not stored (the type is), so every stored row has the width
of the node. -/
theorem wrong_width_refused (t : TriggerTables) (ty : Option Int) (c : List Int) :
    (c.length ≠ t.nSensors → (storeTrigger t ty (some c)).2 = .error .valueError ∧ (storeTrigger t ty (some c)).1.channels = t.channels) ∧
    ∀ chs, (∀ r ∈ t.channels, r.length = t.nSensors) →
      ∀ r ∈ (storeTrigger t ty chs).1.channels, r.length = (storeTrigger t ty chs).1.nSensors := by
  constructor
  · intro hc
    rcases ty with _ | x
    · simp [storeTrigger, hc]
    · by_cases hx : x = 0 <;> simp [storeTrigger, hc, hx]
  · intro chs hw r hr
    rcases chs with _ | c'
    · rcases ty with _ | x
      · simp only [storeTrigger] at hr ⊢; exact hw r hr
      · by_cases hx : x = 0 <;> simp [storeTrigger, hx] at hr ⊢ <;> exact hw r hr
    · by_cases hc : c'.length = t.nSensors
      · have h3 : r ∈ t.channels ∨ r = c' → r.length = t.nSensors := by
          rintro (h | rfl)
          · exact hw r h
          · exact hc
        rcases ty with _ | x
        · simp [storeTrigger, hc] at hr ⊢; exact h3 hr
        · by_cases hx : x = 0 <;> simp [storeTrigger, hc, hx] at hr ⊢ <;> exact h3 hr
      · rcases ty with _ | x
        · simp [storeTrigger, hc] at hr ⊢; exact hw r hr
        · by_cases hx : x = 0 <;> simp [storeTrigger, hc, hx] at hr ⊢ <;> exact hw r hr

example : (storeTrigger ⟨[], [], 2⟩ (some 5) (some [1, 0, 1])).2 = .error .valueError ∧ ([1, 0, 1] : List Int).length ≠ 2 := by decide
example : storeAllTriggers ⟨[], [], 2⟩ [(some 5, some [1, 0]), (some 0, some [0, 1]), (some 7, some [1, 1])] =
    ⟨[5, 7], [[1, 0], [0, 1], [1, 1]], 2⟩ := by decide

end Verif.TableIO
