import Verif.Model.Detsim
import Verif.Model.Sampling
import Verif.Model.Voxels
/-!
# Model of `detsim/detsim_waveforms.py`, `detsim/simulate_s1.py` and `detsim/simulate_electrons.py`

The values drawn by the generators of random numbers are arguments.  `quad(s1_times_pdf, t0, t1)[0]`, the fraction of the scintillation
in one bin, is a function of the number of the bin.  The square root is a function argument.
-/
namespace Verif.Detsim

/-- The edges of the S1 waveform (detsim_waveforms.py:35). -/
def s1Edges (start buffer bin : ℚ) : List ℚ := Buffers.arange start (start + buffer + bin) bin

/-- `np.histogram(hit_times, bins=bins, weights=pes)[0]` (detsim_waveforms.py:36): hits are pairs of a time and a weight. -/
def s1Hist (edges : List ℚ) (hits : List (ℚ × ℚ)) : List ℚ :=
  (List.range (edges.length - 1)).map fun b : Nat => ((hits.filter fun h => decide (Voxels.histBin edges h.1 = some b)).map (·.2)).sum

/-- The discrete distribution of times `p` (detsim_waveforms.py:41-43): `frac i` in the first bins, up to `limit` (2 µs), zero after.
`int(buffer_length/bin_width)+1` entries. -/
def s1Pdf (frac : Nat → ℚ) (limit buffer bin : ℚ) : List ℚ :=
  (List.range (⌊buffer / bin⌋.toNat + 1)).map fun i : Nat => if i < (Buffers.arange 0 (min limit buffer + bin) bin).length - 1 then frac i else 0

/-- `xs += ys` for 1-D arrays: the lengths are equal or the second is 1 (broadcasting), otherwise `ValueError`. -/
def addInPlace (xs ys : List ℚ) : Except PyErr (List ℚ) :=
  if ys.length = xs.length then .ok (List.zipWith (· + ·) xs ys)
  else if ys.length = 1 then .ok (xs.map (· + ys.getD 0 0))
  else .error .valueError

/-- `wfs[pmt, idx:] += (wf[idx] * p[:-idx-1])` (detsim_waveforms.py:48). -/
def s1Step (wf p : List ℚ) (out : List ℚ) (idx : Nat) : Except PyErr (List ℚ) :=
  match addInPlace (out.drop idx) ((p.take (p.length - (idx + 1))).map (wf.getD idx 0 * ·)) with
  | .error e => .error e
  | .ok tail => .ok (out.take idx ++ tail)

/-- The waveform of one PMT (detsim_waveforms.py:46-48). -/
def s1Row (p wf : List ℚ) : Except PyErr (List ℚ) :=
  (whereIdx (fun v => decide (0 < v)) wf).foldlM (s1Step wf p) (List.replicate wf.length 0)

/-- `generate_s1_waveform` (detsim_waveforms.py:15-49): one list of weights per PMT, each with one weight per hit.  `np.stack` of nothing
and weights of another length are `ValueError`s. -/
def s1Waveform (frac : Nat → ℚ) (limit : ℚ) (pes : List (List ℚ)) (times : List ℚ) (buffer bin start : ℚ) : Except PyErr (List (List ℚ)) :=
  if pes = [] ∨ ¬ (∀ w ∈ pes, w.length = times.length) then .error .valueError
  else pes.mapM fun w => s1Row (s1Pdf frac limit buffer bin) (s1Hist (s1Edges start buffer bin) (times.zip w))

/-- `compute_s1_pes_at_pmts` (simulate_s1.py:46-66): `photons[:, np.newaxis] * lt(xs, ys, zs)`, transposed; the light table gives one
row per hit. -/
def s1Pes (photons : List ℚ) (table : List (List ℚ)) (npmt : Nat) : List (List ℚ) :=
  (List.range npmt).map fun k : Nat => List.zipWith (fun n row => n * row.getD k 0) photons table

/-! ### Electrons -/

/-- What is drawn for a hit by `generate_ionization_electrons`: the Poisson and the normal value (one of them is used). -/
structure IonDraw where
  poisson : Nat
  normal : ℚ

/-- `generate_ionization_electrons` (simulate_electrons.py:7-36) for one hit. -/
def ionElectrons (wi fano energy : ℚ) (d : IonDraw) : Nat :=
  if energy / wi * fano < 1 then d.poisson else (Sampling.roundEven d.normal).toNat

/-- `drift_electrons` (simulate_electrons.py:39-63) for one hit: the electrons whose lifetime, drawn, is longer than the drift. -/
def driftElectrons (z dv : ℚ) (lifetimes : List ℚ) : Nat := (lifetimes.filter fun l => decide (z / dv < l)).length

/-- What is drawn for one electron: standard deviations in `x`, `y`, `z` and the number of photons. -/
structure ElDraw where
  gx : ℚ
  gy : ℚ
  gz : ℚ
  photons : ℚ

/-- An electron at the EL: position, time and photons. -/
structure ElElectron where
  x : ℚ
  y : ℚ
  z : ℚ
  t : ℚ
  ph : Int
deriving DecidableEq, Repr

/-- `substitute z<0 to z=0` (simulate_electrons.py:92-94). -/
def clipZ (z : ℚ) : ℚ := if z < 0 then 0 else z

/-- One diffused electron (simulate_electrons.py:88-101, cities/detsim.py:109-112). -/
def diffuse (sq : ℚ → ℚ) (dt dl dv : ℚ) (h : MCHit) (d : ElDraw) : ElElectron :=
  ⟨h.x + sq (clipZ h.z) * dt * d.gx, h.y + sq (clipZ h.z) * dt * d.gy, clipZ h.z + sq (clipZ h.z) * dl * d.gz,
    (clipZ h.z + sq (clipZ h.z) * dl * d.gz) / dv + h.time, Sampling.roundEven d.photons⟩

/-- `np.repeat(hits, n)`. -/
def repeatHits (hits : List MCHit) (n : List Nat) : List MCHit := (List.zipWith (fun h k => List.replicate k h) hits n).flatten

/-- `simulate_ielectrons` (cities/detsim.py:106-113): per hit the draw of the number of electrons and the lifetimes of the electrons,
and per surviving electron its own draw.  `np.vectorize` on no hits is a `ValueError` (simulate_electrons.py:58-63). -/
def simulateElectrons (sq : ℚ → ℚ) (wi fano dt dl dv : ℚ) (hits : List MCHit) (ions : List IonDraw) (lifetimes : List (List ℚ))
    (draws : List ElDraw) : Except PyErr (List ElElectron) :=
  if hits = [] then .error .valueError
  else .ok (List.zipWith (diffuse sq dt dl dv)
    (repeatHits hits ((List.range hits.length).map fun i : Nat =>
      driftElectrons ((hits.map (·.z)).getD i 0) dv ((lifetimes.getD i []).take (ionElectrons wi fano ((hits.map (·.energy)).getD i 0) (ions.getD i ⟨0, 0⟩))))) draws)

end Verif.Detsim
