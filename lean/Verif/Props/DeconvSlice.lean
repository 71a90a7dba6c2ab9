import Verif.Spec.DeconvSlice
import Verif.Props.DeconvInput
import Verif.Props.DeconvImage
import Verif.Props.DeconvEnergy
import Verif.Props.BlrPmts
import Verif.Lemmas.Tables
/-!
# C112: the slices of beersheba
-/
namespace Verif.DeconvSlice
open Verif Verif.Deconv Verif.DeconvInput Spec
open Verif.PMapsIO (unique mem_unique unique_nodup)
open Verif.Voxels (npMin npMax)
open Verif.Buffers (arange)

/-! ### Blocks -/

theorem block_get {α β : Type} (f : α → List β) (w : Nat) : ∀ (l : List α), (∀ a ∈ l, (f a).length = w) → ∀ (i j : Nat), j < w → (l.flatMap f)[i * w + j]? = (l[i]?).bind fun a => (f a)[j]? := by
  intro l
  induction l with
  | nil => intro _ i j _; simp
  | cons a l ih =>
    intro h i j hj
    have ha : (f a).length = w := h a List.mem_cons_self
    rw [List.flatMap_cons]
    cases i with
    | zero => rw [Nat.zero_mul, Nat.zero_add, List.getElem?_append_left (by omega)]; rfl
    | succ i =>
      rw [List.getElem?_append_right (by rw [ha, Nat.succ_mul]; omega), ha, show (i + 1) * w + j - w = i * w + j by rw [Nat.succ_mul]; omega, ih (fun b hb => h b (List.mem_cons_of_mem _ hb)) i j hj]
      rfl

theorem block_length {α β : Type} (f : α → List β) (w : Nat) : ∀ (l : List α), (∀ a ∈ l, (f a).length = w) → (l.flatMap f).length = l.length * w := by
  intro l
  induction l with
  | nil => intro _; simp
  | cons a l ih =>
    intro h
    rw [List.flatMap_cons, List.length_append, h a List.mem_cons_self, ih fun b hb => h b (List.mem_cons_of_mem _ hb), List.length_cons, Nat.succ_mul, Nat.add_comm]

theorem values_get (im : Img) {i j : Nat} (hi : i < im.h) (hj : j < im.w) : im.values[i * im.w + j]? = some (im.px i j) := by
  unfold Img.values Img.positions
  rw [List.getElem?_map, block_get _ im.w _ (fun a _ => by simp) i j hj]
  simp [hi, hj]

theorem values_length (im : Img) : im.values.length = im.h * im.w := by
  unfold Img.values Img.positions
  rw [List.length_map, block_length _ im.w _ (fun a _ => by simp), List.length_range]

theorem product_two (gx gy : List ℚ) : product [gx, gy] = gx.flatMap fun a => gy.map fun b => [a, b] := by
  unfold product product product
  congr 1
  funext a
  induction gy with
  | nil => simp
  | cons b gy ih => rw [List.flatMap_cons, List.map_append, ih]; rfl

theorem product_get (gx gy : List ℚ) {i j : Nat} (hi : i < gx.length) (hj : j < gy.length) : (product [gx, gy])[i * gy.length + j]? = some [gx.getD i 0, gy.getD j 0] := by
  rw [product_two, block_get _ gy.length _ (fun a _ => by simp) i j hj]
  simp [hi, hj]

theorem product_length (gx gy : List ℚ) : (product [gx, gy]).length = gx.length * gy.length := by
  rw [product_two, block_length _ gy.length _ (fun a _ => by simp)]

/-! ### The PSF -/

theorem nearest_first {table : List ℚ} {v a : ℚ} (h : findNearest table v = .ok a) : First table v a := by
  obtain ⟨h1, h2⟩ := find_nearest table v
  by_cases hn : table = []
  · rw [h1 hn] at h; cases h
  · obtain ⟨i, b, hb, h3, h4, h5⟩ := h2 hn
    rw [hb] at h
    obtain rfl := Except.ok.inj h
    exact ⟨i, h3, h4, fun i' hi b hb => h5 i' b hi hb⟩

theorem nearest_total {table : List ℚ} (v : ℚ) (h : table ≠ []) : ∃ a, findNearest table v = .ok a := by
  obtain ⟨_, h2⟩ := find_nearest table v
  obtain ⟨_, b, hb, _⟩ := h2 h
  exact ⟨b, hb⟩

theorem unique_const {l : List ℚ} {v : ℚ} (hne : l ≠ []) (h : ∀ x ∈ l, x = v) : unique l = [v] := by
  have h1 : ∀ x ∈ unique l, x = v := fun x hx => h x (mem_unique.1 hx)
  have hnd := unique_nodup l
  cases l with
  | nil => exact absurd rfl hne
  | cons a l =>
    cases hu : unique (a :: l) with
    | nil =>
      have : a ∈ unique (a :: l) := mem_unique.2 List.mem_cons_self
      rw [hu] at this
      cases this
    | cons b t =>
      rw [hu] at h1 hnd
      have hb := h1 b List.mem_cons_self
      cases t with
      | nil => rw [hb]
      | cons c t =>
        have hc := h1 c (by simp)
        rw [hb, hc] at hnd
        simp at hnd

/-- C112: the PSF of a slice whose hits have the position of one peak. -/
theorem psf_spec {c : Conf} {hits : List Hit} {x y z : ℚ} (hne : hits ≠ []) (hx : ∀ h ∈ hits, h.xpeak = x) (hy : ∀ h ∈ hits, h.ypeak = y) (ht : c.psfs ≠ []) :
    ∃ psf, selectPsf c hits z = .ok psf ∧ PsfOf c.psfs c.joint x y z psf := by
  have hn : ∀ {f : PsfRow → ℚ}, c.psfs.map f ≠ [] := fun {f} => by simpa using ht
  have ux : unique (hits.map Hit.xpeak) = [x] := unique_const (by simpa using hne) (by rintro _ h; obtain ⟨a, ha, rfl⟩ := List.mem_map.1 h; exact hx a ha)
  have uy : unique (hits.map Hit.ypeak) = [y] := unique_const (by simpa using hne) (by rintro _ h; obtain ⟨a, ha, rfl⟩ := List.mem_map.1 h; exact hy a ha)
  obtain ⟨z0, hz0⟩ := nearest_total (if c.joint = true then z else 0) (hn (f := PsfRow.z))
  obtain ⟨x0, hx0⟩ := nearest_total x (hn (f := PsfRow.x))
  obtain ⟨y0, hy0⟩ := nearest_total y (hn (f := PsfRow.y))
  unfold selectPsf nearestOf
  rw [ux, uy, hz0]
  dsimp only
  rw [hx0]
  dsimp only
  rw [hy0]
  refine ⟨_, rfl, z0, x0, y0, nearest_first hz0, nearest_first hx0, nearest_first hy0, ?_⟩
  apply List.filter_congr
  intro p _
  rw [Bool.eq_iff_iff]
  simp [and_assoc]

/-- C112: a slice with hits of peaks at different positions fails, if the table has another number of rows (and more than one). -/
theorem psf_mixed {c : Conf} {hits : List Hit} {z : ℚ} (h2 : 2 ≤ (unique (hits.map Hit.xpeak)).length) (h1 : 2 ≤ c.psfs.length) (hd : (unique (hits.map Hit.xpeak)).length ≠ c.psfs.length) :
    selectPsf c hits z = .error .valueError := by
  have hn : c.psfs.map PsfRow.z ≠ [] := by
    intro h
    have := congrArg List.length h
    simp at this
    rw [this] at h1
    simp at h1
  obtain ⟨z0, hz0⟩ := nearest_total (if c.joint = true then z else 0) hn
  unfold selectPsf
  rw [hz0]
  dsimp only
  have : nearestOf (c.psfs.map PsfRow.x) (unique (hits.map Hit.xpeak)) = .error .valueError := by
    generalize hu : unique (hits.map Hit.xpeak) = u at *
    generalize hp : c.psfs.map PsfRow.x = t
    have hl : t.length = c.psfs.length := by rw [← hp, List.length_map]
    match u, h2 with
    | a :: b :: u, _ =>
      unfold nearestOf
      dsimp only
      rw [if_neg (by rw [hl]; exact hd)]
      match t, hl with
      | [], hl => rfl
      | [a'], hl => rw [← hl] at h1; simp at h1
      | a' :: b' :: t, _ => rfl
  rw [this]

theorem distinct_eq (l : List ℚ) : (unique l).length = distinct l := by
  unfold distinct
  rw [← List.toFinset_card_of_nodup (unique_nodup l)]
  congr 1
  ext x
  simp [mem_unique]

/-- C112: the PSF as an image; a table that is not a full grid is an error. -/
theorem kernel_spec (psf : List PsfRow) (value : PsfRow → ℚ) :
    (distinct (psf.map fun p => p.xr) * distinct (psf.map fun p => p.yr) = psf.length → ∃ k, reshapePsf psf (psf.map value) = .ok k ∧ Kernel psf value k) ∧
    (distinct (psf.map fun p => p.xr) * distinct (psf.map fun p => p.yr) ≠ psf.length → reshapePsf psf (psf.map value) = .error .valueError) := by
  unfold reshapePsf
  simp only [show (fun p : PsfRow => p.xr) = PsfRow.xr from rfl, show (fun p : PsfRow => p.yr) = PsfRow.yr from rfl, distinct_eq, List.length_map]
  refine ⟨fun h => ?_, fun h => if_pos h⟩
  rw [if_neg (by rw [not_not]; exact h)]
  refine ⟨_, rfl, rfl, rfl, h, fun i j p _ _ hp => ?_⟩
  dsimp only at hp ⊢
  rw [List.getD_eq_getElem?_getD, List.getElem?_map, hp]
  rfl

/-! ### The image -/

/-- C112: a slice, with interpolation: its pixels are at the points of the detector near its hits, each point once, and their values are those of the deconvolution of the interpolated charge (as a fraction of that of the peak) with the PSF
of the slice, and then, when the diffusion is deconvolved apart, with the gaussian for its `z`. -/
theorem slice_spec {c : Conf} {gx gy : List ℚ} {total : ℚ} {hits : List Hit} {z : ℚ} {out : List Pixel} (h : slice c [gx, gy] total hits z = .ok out) (hm : c.method ≠ .nointerpolation) (hne : hits ≠ []) (hw : 0 < c.widths.1 ∧ 0 < c.widths.2) :
    ∃ psf f image k im, selectPsf c hits z = .ok psf ∧
      (∃ pts vals, pts = product [DeconvInput.Spec.axis (hits.map fun h => h.row.x) c.widths.1, DeconvInput.Spec.axis (hits.map fun h => h.row.y) c.widths.2] ∧
        vals = pts.map (fun p => DeconvInput.Spec.charge [hits.map fun h => h.row.x, hits.map fun h => h.row.y] (hits.map fun h => h.row.q / total) (DeconvInput.Spec.inBox [c.widths.1, c.widths.2] p)) ∧ c.griddata c.method pts vals = .ok f) ∧
      image.h = (near gx (hits.map fun h => h.row.x) c.widths.1).length ∧ image.w = (near gy (hits.map fun h => h.row.y) c.widths.2).length ∧
      (∀ i j a b, (near gx (hits.map fun h => h.row.x) c.widths.1)[i]? = some a → (near gy (hits.map fun h => h.row.y) c.widths.2)[j]? = some b → image.px i j = max ((f [a, b]).getD 0) 0) ∧
      Kernel psf (fun p => p.factor) k ∧
      (if c.joint = true then im = richardsonLucy image k c.satellites c.iterations c.tol
        else ∃ g k', c.gauss z = .ok g ∧ Kernel psf (fun p => g (p.xr, p.yr)) k' ∧ im = richardsonLucy (richardsonLucy image k c.satellites c.iterations c.tol) k' c.satellites c.iterationsG c.tol) ∧
      out.length = image.h * image.w ∧
      ∀ i j a b, (near gx (hits.map fun h => h.row.x) c.widths.1)[i]? = some a → (near gy (hits.map fun h => h.row.y) c.widths.2)[j]? = some b → out[i * image.w + j]? = some ⟨im.px i j, a, b⟩ := by
  have hfit : DeconvInput.Spec.Fit [c.widths.1, c.widths.2] [gx, gy] [hits.map fun h => h.row.x, hits.map fun h => h.row.y] (hits.map fun h => h.row.q / total) :=
    ⟨rfl, rfl, by simp, by simpa using hne, by simp [hw]⟩
  obtain ⟨hin, _, _⟩ := input_interpolated c.griddata c.method hm _ _ _ _ hfit _ _ rfl rfl
  have hz2 : ([hits.map fun h => h.row.x, hits.map fun h => h.row.y].zip [c.widths.1, c.widths.2]).map (fun p => DeconvInput.Spec.axis p.1 p.2) =
      [DeconvInput.Spec.axis (hits.map fun h => h.row.x) c.widths.1, DeconvInput.Spec.axis (hits.map fun h => h.row.y) c.widths.2] := rfl
  have hreg : DeconvInput.Spec.regions [gx, gy] [hits.map fun h => h.row.x, hits.map fun h => h.row.y] [c.widths.1, c.widths.2] = [near gx (hits.map fun h => h.row.x) c.widths.1, near gy (hits.map fun h => h.row.y) c.widths.2] := rfl
  rw [hz2, hreg] at hin
  have hlx : axisLength (hits.map fun h => h.row.x) c.widths.1 gx = (near gx (hits.map fun h => h.row.x) c.widths.1).length := by unfold axisLength near; rw [← inside_region (_, _, _)]
  have hly : axisLength (hits.map fun h => h.row.y) c.widths.2 gy = (near gy (hits.map fun h => h.row.y) c.widths.2).length := by unfold axisLength near; rw [← inside_region (_, _, _)]
  unfold slice coords at h
  cases hp : selectPsf c hits z with
  | error e => rw [hp] at h; cases h
  | ok psf =>
    rw [hp] at h
    dsimp only at h
    rw [hin] at h
    generalize hpts : product [DeconvInput.Spec.axis (hits.map fun h => h.row.x) c.widths.1, DeconvInput.Spec.axis (hits.map fun h => h.row.y) c.widths.2] = pts at *
    cases hg : c.griddata c.method pts (pts.map fun p => DeconvInput.Spec.charge [hits.map fun h => h.row.x, hits.map fun h => h.row.y] (hits.map fun h => h.row.q / total) (DeconvInput.Spec.inBox [c.widths.1, c.widths.2] p)) with
    | error e => rw [hg] at h; cases h
    | ok f =>
      rw [hg] at h
      simp only [Except.map, List.getD_cons_zero, List.getD_cons_succ] at h
      cases hk : reshapePsf psf (psf.map PsfRow.factor) with
      | error e => rw [hk] at h; cases h
      | ok k =>
        rw [hk] at h
        dsimp only at h
        rw [hlx, hly] at h
        generalize hX : near gx (hits.map fun h => h.row.x) c.widths.1 = X at *
        generalize hY : near gy (hits.map fun h => h.row.y) c.widths.2 = Y at *
        have hker : Kernel psf (fun p => p.factor) k := by
          by_cases hd : distinct (psf.map fun p => p.xr) * distinct (psf.map fun p => p.yr) = psf.length
          · obtain ⟨k', h1, h2⟩ := (kernel_spec psf (fun p => p.factor)).1 hd
            rw [hk] at h1
            obtain rfl := Except.ok.inj h1
            exact h2
          · have := (kernel_spec psf (fun p => p.factor)).2 hd
            rw [hk] at this
            cases this
        have himg : ∀ i j a b, X[i]? = some a → Y[j]? = some b → (toImg X.length Y.length ((product [X, Y]).map fun p => max ((f p).getD 0) 0)).px i j = max ((f [a, b]).getD 0) 0 := by
          intro i j a b ha hb
          have hi := (List.getElem?_eq_some_iff.1 ha).1
          have hj := (List.getElem?_eq_some_iff.1 hb).1
          unfold toImg
          dsimp only
          rw [List.getD_eq_getElem?_getD, List.getElem?_map, product_get X Y hi hj]
          simp only [List.getD_eq_getElem?_getD, ha, hb, Option.getD_some, Option.map_some]
        have hout : ∀ im : Img, im.h = X.length → im.w = Y.length → (pixels im (product [X, Y])).length = X.length * Y.length ∧
            ∀ i j a b, X[i]? = some a → Y[j]? = some b → (pixels im (product [X, Y]))[i * Y.length + j]? = some ⟨im.px i j, a, b⟩ := by
          intro im h1 h2
          unfold pixels
          refine ⟨by rw [List.length_zipWith, values_length, product_length, h1, h2, Nat.min_self], fun i j a b ha hb => ?_⟩
          have hi := (List.getElem?_eq_some_iff.1 ha).1
          have hj := (List.getElem?_eq_some_iff.1 hb).1
          have hv := values_get im (i := i) (j := j) (by omega) (by omega)
          rw [h2] at hv
          rw [List.getElem?_zipWith, hv, product_get X Y hi hj]
          simp only [List.getD_cons_zero, List.getD_cons_succ]
          rw [List.getD_eq_getElem?_getD, List.getD_eq_getElem?_getD, ha, hb]
          rfl
        generalize hI : toImg X.length Y.length ((product [X, Y]).map fun p => max ((f p).getD 0) 0) = image at *
        have hIh : image.h = X.length := by rw [← hI]; rfl
        have hIw : image.w = Y.length := by rw [← hI]; rfl
        have hrl : ∀ (im k : Img) (n : Nat), (richardsonLucy im k c.satellites n c.tol).h = im.h ∧ (richardsonLucy im k c.satellites n c.tol).w = im.w := by
          intro im k n
          obtain ⟨m, _, h1, _⟩ := Deconv.richardson_lucy im k c.satellites n c.tol
          rw [h1]
          exact iterates_shape im k c.satellites m
        obtain ⟨r1, r2⟩ := hrl image k c.iterations
        by_cases hj : c.joint = true
        · rw [if_pos hj] at h
          obtain rfl := Except.ok.inj h
          obtain ⟨o1, o2⟩ := hout _ (r1.trans hIh) (r2.trans hIw)
          exact ⟨psf, f, image, k, _, rfl, ⟨pts, _, rfl, rfl, hg⟩, hIh, hIw, himg, hker, by rw [if_pos hj], by rw [o1, hIh, hIw], by rw [hIw]; exact o2⟩
        · rw [if_neg hj] at h
          unfold second at h
          cases hgz : c.gauss z with
          | error e => rw [hgz] at h; cases h
          | ok g =>
            rw [hgz] at h
            dsimp only at h
            cases hk' : reshapePsf psf (psf.map fun p => g (p.xr, p.yr)) with
            | error e => rw [hk'] at h; cases h
            | ok k' =>
              rw [hk'] at h
              obtain rfl := Except.ok.inj h
              have hker' : Kernel psf (fun p => g (p.xr, p.yr)) k' := by
                by_cases hd : distinct (psf.map fun p => p.xr) * distinct (psf.map fun p => p.yr) = psf.length
                · obtain ⟨k'', h1, h2⟩ := (kernel_spec psf (fun p => g (p.xr, p.yr))).1 hd
                  rw [hk'] at h1
                  obtain rfl := Except.ok.inj h1
                  exact h2
                · have := (kernel_spec psf (fun p => g (p.xr, p.yr))).2 hd
                  rw [hk'] at this
                  cases this
              obtain ⟨q1, q2⟩ := hrl (richardsonLucy image k c.satellites c.iterations c.tol) k' c.iterationsG
              obtain ⟨o1, o2⟩ := hout _ (q1.trans (r1.trans hIh)) (q2.trans (r2.trans hIw))
              exact ⟨psf, f, image, k, _, rfl, ⟨pts, _, rfl, rfl, hg⟩, hIh, hIw, himg, hker, by rw [if_neg hj]; exact ⟨g, k', rfl, hker', rfl⟩, by rw [o1, hIh, hIw], by rw [hIw]; exact o2⟩

end Verif.DeconvSlice
