# Formal model of next-exp/IC in Lean 4 — design

## Approach

* `lean/Verif/Model/*.lean`   — executable, total, shallow models of the Python functions, one file per
  Python module, branch by branch.  Exceptions are values (`Except Err α`).  Every definition cites the
  file and lines it models.
* `lean/Verif/Spec/*.lean`    — the small, model-independent vocabulary used by the property statements.
* `lean/Verif/Lemmas/*.lean`  — helper lemmas (nothing in here is a claim).
* `lean/Verif/Props/*.lean`   — the property theorems, each with a non-vacuity `example` beside it.

Numbers: Python ints are `Int`/`Nat`; NumPy floats are modelled as exact rationals `ℚ` (idealisation:
no rounding, no NaN/inf; where the code's behaviour *depends* on a literal epsilon, the epsilon is kept).
Arrays are `List`, 2-D arrays `List (List ℚ)` (rows = sensors); dataframes are lists of row structures;
dictionaries are association lists with Python's insertion-order/overwrite semantics.

## Trusted base

* Lean 4.33.0 kernel; axioms allowed: `propext`, `Classical.choice`, `Quot.sound` (checked with
  `#print axioms`; no others are used).
* The reading of the Python source into the model (the source is not executed here).
* The behaviour of NumPy/pandas/PyTables/networkx primitives, as re-implemented in the model
  (each such primitive is listed in the comment of its model definition).
* Not modelled: floating-point rounding, HDF5 storage, compression, databases, random number streams
  (only their state discipline), plotting, multi-processing, Cython-specific typing.

## Per-property plan

| id | modelled | proof idea |
|----|----------|-----------|
| C01 | coroutine networks as a tree of live/dead generators, `send`/`close`/`push` with an event trace and exceptions | equational: trace of `push xs (map f t)` = trace of `push (xs.map f) t`, by induction on the source, simulation between the two networks |
| C02 | same | induction over targets and source; prefix theorem for StopPipeline |
| C03 | same | invariant "closed events emitted + live nodes = nodes", by mutual induction |
| C04 | same, futures as `result` events | invariant relating accumulator to the received log |
| C05 | generator of `slice` as state machine | refinement to an index-based definition of Python slicing |
| C06 | dict layer on top (association lists, in-place update threaded through the network) | get/set laws |
| C07 | `in_range`, `minmax` | order reasoning |
| C08 | `_rebin_array` | induction on blocks |
| C09 | `binedges_from_bincenters`, `shift_to_bin_centers` | order reasoning on ℚ |
| C10 | `find_nearest`, `weighted_mean_and_var` | induction, convexity |
| C11 | `np.where`, `np.diff`, `np.split`, `split_in_peaks` | induction; uniqueness |
| C12 | `select_peaks`, `find_peaks` | from C11 |
| C13 | `rebin_times_and_waveforms` | sums over tilings |
| C14 | `pick_slice_and_rebin`, `build_peak` | integer division arithmetic |
| C15 | `_check_valid_input` | case analysis; negation witness for the wrong exception |
| C16 | `_Peak` properties | monotonicity |
| C17 | `get_even_slices`, `get_threshold_slices`, `rebin_peak` | loop invariant of the cumulative sums |
| C18 | `Configuration` as a state machine, include tree interpreter | induction over operation histories; refinement to a log |
| C19 | `type_check` on a value/type syntax, signature checker, one-shot wrapper | structural induction; negation witness for later calls and tuples |
| C20 | `event_range` + `slice` | case analysis + C05 |
| C21 | `city` file handling, `dict_to_string` | induction on nested dictionaries |
| C22–C24 | `hits_functions` | sums over lists, ε kept as a positive parameter |
| C25–C26 | `xy_algorithms` | convexity; loop with fuel, termination measure, divergence witness |
| C27–C30 | `paolina_functions` | sums over fibres; reachability; arg-max folds; loop measure |
| C31–C32 | filters | boolean/counting logic |
| C33–C34 | `wfm_functions` | list surgery |
| C35–C37 | detsim buffers | from C11; slicing arithmetic; Euclidean division |
| C38, C48 | `pmaps_io` row encoding / decoding, overflow protection | round trip on tables, injectivity of the peak number |
| C39 | `df_writer`, `load_dst` as a state machine over tables | induction over histories of writes |
| C40 | `event_filter_io` | counting; order of the rows |
| C41 | `store_trigger` | induction over events; negation witness for trigger type 0 |
| C42 | `KrEvent` constructor and `store` | index arithmetic of the S1 x S2 table |
| C43 | `calib_functions` windows | list arithmetic; sums over disjoint windows |
| C44 | `random_sampling` | sums, monotone cdf |
| C45 | `s2_waveforms_c`, `sensor_functions`, hit selectors of the detsim city | sums over windows of a buffer |
| C46, C57 | `deconv_functions`, beersheba | sums, connected components, iteration invariants |
| C47 | RNG state discipline of `fix_random_seed` | bracket lemma over bodies |
| C49 | `create_timestamp` | order reasoning |
| C50 | `track_blob_info_creator_extractor`, `make_event_summary` | composition of C27, C28, C29 and C30; permutations of rows; totality of the drop loop |
| C51, C52 | `sensor_order`, `bin_sensors`, `first_and_last_times` | scatter/gather of rows, histogram sums |
| C53 | `sipms_as_hits`, `try_global_reco` | composition of C17, C22, C25 |
| C54 | `calib_sensors_functions` | order statistics, linear maps |
| C55 | the pipe of irene, on the clean-flow theorem of the dataflow model | event sets of every writer |
| C56 | the file sources of `components` | generators as lists ending in a result or an exception |
| C58, C59 | S1 waveforms, electrons | sums, provenance of each item |
| C60 | light tables | grid search; bins of distances |
| C61, C62 | copy of the MC tables when merging files | loop over files, renumbering of `file_index` |
| C63 | MC files previous to 2020 | left merge and back fill by induction over rows |
| C64, C65 | dictionary of MC hits, times of the sensor response | grouping; joins |
| C66-C71 | pipelines of dorothea, sophronia, beersheba, esmeralda, isaura, detsim, buffy, diomira, isidora, phyllis, trude, berenice | deliveries of one item through the network (`step`), then induction over the source |
| C72, C73 | `psf_functions`, eutropia | keyed sums (`groupby`) as functions of the multiset of rows; partition of consecutive intervals |
| C74 | `icaros/krmap_functions` (map, regularization) | grid search; keyed sums; fixed-point characterization of the in-place loop by induction over the visits |
| C75 | `icaros/correction_functions`, `hits_corrector` | nearest-bin contract as hypothesis; algebra of the correction; case analysis of the methods |
| C76 | `icaros/selection_functions` | chain of nested filters; telescoping of the efficiencies |
| C77 | `get_time_evol`, `select_lifetime_region` | `arange`/`digitize` search, groups of a key, partition of the rows |
| C78 | `reco/corrections` | grid search, induction over the points of the interpolation, uniqueness of sorted permutations (median under scaling) |
| C79 | `profileX`, `profileY`, `profileXY`: selection, digitization and groups, over ℚ with squared deviations | the groups are the sets of points of each bin (specified by arithmetic, without digitize), partition of the selected points |
| C80 | `fixed_parameters`: signature, checks and the closure with its mutable array, as a state machine of calls | acceptance by counting (Nodup, subperm); position of each value; independence of the history by induction on the calls; composition |
| C81 | `fit`, `get_errors`, `get_chi2_and_pvalue`, with `curve_fit` as an arbitrary function | the selection as a filter; algebra of chi-squared |
| C82 | `DataPMT`, `DataSiPM`: the joins of the SQL queries over lists of rows, with NULL | characterization of the rows of the join; uniqueness by lengths; order by the sort |
| C83 | `SiPMNoise` | the sorted rows are the grid sensors x bins (uniqueness of the sorted permutation), then reshape |
| C84 | `RadioactivityData` | fold of the largest version in each group |
| C85 | `deconvolve_signal` over ℚ, the square root compared exactly, the tangent of the filter design a parameter | recursions of the filter and the accumulator; uniqueness and commutation of high-pass filters; telescoping sum; geometric decay |
| C86 | `deconv_pmt`, `cwf_from_rwf` | one row at a time |
| C87 | `emulate_trigger` (type S2), the peak search a parameter | partial: false in general (`trigger_other_waveform`) |
| C88 | `sierpe/fee.py`, filters as difference equations over ℚ | lists as power series: the convolution is the product, responses are equal up to N coefficients, division by an invertible series |
| C89 | `simulate_pmt_response`, the decimation of scipy and the draws as parameters | sample by sample |
| C90 | `low_frequency_noise`, the cosine and the draws as parameters | index arithmetic of the flattened arrays |
| C91, C92, C93 | `hits_from_df`, the classes of hits and voxels and their storage | dictionary updates over sorted groups; induction over histories of writes |
| C94 | tables of parameters as a state machine with the row under construction | invariant over histories with failed calls |
| C95, C96 | `spe_response`, with fuel for the search | first index; unimodality of the Poisson areas; convolutions as sums over distances |
| C97 | `cluster_tagger` and DBSCAN (loop of scikit-learn) | invariants of the search and of the loop over points; join of groups by event |
| C98 | `deconvolution_input`, `interpolate_signal` | N-dimensional histogram on arbitrary edges; `griddata` as parameter |
| C99 | Seeds of fits; gaussian, square root, search of peaks, fits and data base as parameters | exact conditions of the bounds, centroid by `argmax_spec`, windows by slices |
| C100 | Files as lists of nodes; calls as operations on them | induction on the sequence of calls; conversion of samples by modular arithmetic |
| C101 | Files on disk that can be missing or corrupted; `pd.concat` by names of columns | rows as functions of the names; induction on the list of files |
| C102 | Mask, restoration, calibration, thresholds and peak search of irene (and hypathia) composed on the tables of sensors; random simulations are parameters | composition of the theorems of C11-C14, C54, C82, C86 along the list of (sensor, row) pairs of the active sensors |
| C103 | `select_cutting_algorithm` and the functions it returns, thresholds with infinity, on top of the event of irene (C102) | the selection with a threshold per row, positions of the active SiPMs in the table, composition with C102; inversion of the building of the peaks for the failures |
| C104 | `hit_builder` (components.py:1061-1169) with arbitrary reconstructions; the loop over peaks and slices; energies with `e_from_q` | induction over the peaks, pointwise relation of slices and blocks of hits, sums of blocks |
| C105 | the whole pipe of `zemrude` over wide rows, composed from the models of the selection, map, correction and time evolution; the output file as a list of tables | composition of the theorems of C74-C77; case analysis on what fails |
| C106 | the end of `city`: `write_city_configuration`, `copy_cities_configuration`, `index_tables` over the files of `Model/TableIO`, and chains of cities | induction on the tables of the group and on the chain |
| C107 | the stages of buffy put together over the models of C35-C37, C51, C52 (`Model/BuffyEvent`); the charge of a sample defined from the rows of the response | composition; the bins of the two planes related by integer division |
| C108 | Tables of configuration, words of texts, renaming of old parameters, first rows, plane widths, response with times. | Induction on the rows for the first ones (`firsts`), equivalences with small specifications, and C65 for the join of widths, positions and response. |
| C109 | the stages of detsim put together over the models of C35-C37, C45, C58, C59 (`Model/DetsimEvent`), with the values drawn as arguments; the mean of each sample defined from hits and electrons | composition; each stage keeps "waveforms given by a function of sensor and sample" |
| C110 | dictionaries as objects of a heap with references (`Model/CityArgs`): get, set, pop, copy; the operations of diomira, beersheba and detsim on their arguments; the end of the job of C106 | paths of keys through the heap; frame lemma for dictionaries that do not reach the changed one; invariants over sequences of calls |
| C111 | model of the set-up of the trigger, the S2 search and decision of an event, the waveforms of PMTs and SiPMs and the loop of events (`Model/DiomiraEvent`, over `Model/Fee`, `Blr`, `Peaks`, `Filters`, `Sampling`, `Wfm`, `WfIO`) | decision as a count of pieces specified from the samples; rounding and truncation; induction over the events for complete and failed runs |
| C112 | model of the grid of the detector, the choice of the PSF, the image of the PSF, the slice, the peak and the event (`Model/DeconvSlice`, over `Model/DeconvInput`, `Deconv`) | composition of the specifications of the image (C98), the iterations (C57) and the sharing of the energy (C46), induction over slices and peaks |
| C113 | the three calibration cities from the events to the histograms in the file: bins, integration, accumulators with NumPy broadcasting, writers | loop invariant over the events; counts as sums of the counts of a separate specification of bins and windows |
| C114 | `loadDB` as the list of the states of the file, with a server that changes at each question; the program; the check of the intervals of runs | invariant over the tables; sorted lists without repetitions with the same members are equal |
| C115 | the three regular expressions on lists of characters, greedy and from left to right | induction on the lines of a rendered statement; matches cannot start in the text of a line nor straddle its end |
| C116 | fits of the lifetime and of the drift velocity: seeds, functions, transformation of parameters, over any ordered field with exp/log/sqrt and the minimisation as parameters; theorems for the real functions | algebra, `Real.log`, `HasDerivAt` |
| C117 | toy waveforms: samples as lists of optional rationals (`none` is NaN), random numbers and electronics as parameters; trapezoid and tooth written down separately | element-wise lemmas on assignment of slices, induction on sensors |
| C118 | files as records of optional tables, columns by name; composed with the models of the corrections (C78) and of the light-table function (C60) | case analysis, `light_function`, columns by name as a relation |
| C119 | Dijkstra as in networkx (heap of candidates, `dist`, `seen`) over any ordered commutative monoid; sorting by position; `make_tracks` | invariant of the main loop (finished nodes have shortest chains, candidates bound the rest); uniqueness of a sorted permutation; composition with C28 and C29 |
| C120 | the assertions as Booleans over values with `nan` and infinities | pointwise relations; permutations of names and labels |
| C121 | the stages of esmeralda composed from the models of C75, C24, C23 and C50 | permutations of identities; positivity of the energies after threshold and merging |
| C122 | the stages of sophronia composed from the models of C31, C42, C17, C53, C23, C75 and C97 | relation between hits found, merged, corrected and written; conservation of the energy by peaks and by merging |
| C123 | the topology of C121 with the energy E, and the columns of the table of hits as lists of names | the lemmas of C121 on the topology; columns by cases |
| C124 | the stages of the city composed for one event, on the models of C46, C112 and C121 | composition of the specifications of the stages (`lowThreshold_spec`, `sensors_spec`, `DeconvSlice.event_spec`) |
| C125 | the tables of the output file of sophronia built from what it writes for each event (C122), read with the reader of C56, and the events of C121 and C124 on them | rows of an event are those with its number (induction on the accepted events); energy by composition of C122 and C124 |
| C126 | the events of irene and hypathia (C120) one after the other, with the filters and tables of `compute_and_write_pmaps`, the file read with the reader of C56, and the events of C122 on it | shape of the peaks of each event from the stages of C120 (so that they can be stored), induction on the events, energy by composition with C122 |
| C127 | an event of dorothea as the selector (C31), the point-like event and its storage (C42), and the run as a recursion that stops at the first exception and keeps what was written | exact condition from C31 and C42 in both directions; induction on the events for the run; energy of irene through C126 |
| C128 | the ratio with its not finite values, the number of samples of a width, the two modes of `sipm_charge_array` and the hit builder with them | exact description of the values (both directions), comparison of squares for the monotony, and C53 (hits, energy) and C44 (dark levels) for the rest |
| C129 | the tables of C107 and C109 with the types of the columns of the file, read by the model of `wf_from_files` (C56), and the run of hypathia (C126) on it | rows and items position by position, from `run_spec` of both cities; the conversion by its residue modulo 65536; sizes and different numbers give the conditions of C126 |
| C130 | the tables that the job of C111 writes, read by the model of `wf_from_files` (C56), and the run of irene (C126) on it | induction on the events in step with what was done with each; sizes and different numbers give the conditions of C126 |
| C131 | the readers of hits, particles, response, generators, configuration, widths, positions and times for both formats, and the copy of an old file | case analysis of the copy; the rows from C63 (`old_rows_partial`), the times commute with the selection of events |
| C132 | the events that diomira reads of the files of C129, and irene on its file (C130) | composition of C129, C111, C130 and C126; the lengths of the waveforms from those of the noise, which the electronics compare |

(The list grows with the model.)

## What is modelled

| Lean module | Python code |
|---|---|
| `Model/Dataflow`, `DataflowArgs` | dataflow/dataflow.py (all components; not the multiprocessing or the graph drawing helpers) |
| `Model/Core` | core/core_functions.py (in_range, rebin, bin edges, nearest, weighted averages, overflow protection ...), types/ic_types.py minmax |
| `Model/RandomSeed` | core/core_functions.py fix_random_seed |
| `Model/Configure` | core/configure.py (configuration object, includes, type checks, argument checks) |
| `Model/Components` | cities/components.py: city, event_range, dict_to_string, timestamps |
| `Model/Sources` | cities/components.py: sources of events |
| `Model/PmapFlow` | cities/components.py: compute_and_write_pmaps, cities/irene.py |
| `Model/Peaks`, `PMaps`, `PMapsIO` | reco/peak_functions.py, evm/pmaps.py, reco/pmaps_functions.py, io/pmaps_io.py |
| `Model/Hits`, `HitBuilder` | reco/hits_functions.py, components.sipms_as_hits and related |
| `Model/XY` | reco/xy_algorithms.py |
| `Model/Voxels`, `Tracks`, `DropVoxels`, `Paolina` | reco/paolina_functions.py and the topology part of components.py |
| `Model/Filters` | filters/s1s2_filter.py, filters/trigger_filters.py |
| `Model/Wfm` | reco/wfm_functions.py |
| `Model/Calib` | calib/calib_functions.py, calib/calib_sensors_functions.py |
| `Model/Buffers` | detsim/buffer_functions.py, detsim/sensor_utils.py |
| `Model/Detsim`, `DetsimS1`, `LightTables` | detsim/*: electrons, S1 and S2 waveforms, sensors, light tables |
| `Model/Sampling` | core/random_sampling.py |
| `Model/Deconv` | reco/deconv_functions.py, cities/beersheba.py |
| `Model/KrEvent` | evm/event_model.py KrEvent, the kr part of components.py |
| `Model/McInfo` | io/mcinfo_io.py (copy, old format, hits dictionary, times), components.copy_mc_info |
| `Model/Cities` | the pipelines (arguments of `push`) of twelve cities, components.compute_and_write_tracks_info, calculate_and_save_buffers; the functions they apply are parameters |
| `Model/Frame` | pandas: groupby of several columns, first, ffill, bfill |
| `Model/Psf` | reco/psf_functions.py, cities/eutropia.py |
| `Model/KrMap` | icaros/krmap_functions.py: maps (fits are parameters) |
| `Model/KrApply` | icaros/correction_functions.py (scipy search as parameter), `hits_corrector` |
| `Model/Selection` | icaros/selection_functions.py |
| `Model/TimeEvol` | icaros/krmap_functions.py (slices; fits not modelled), `select_lifetime_region` |
| `Model/Corrections` | reco/corrections.py (exponential as parameter) |
| `Model/Profile` | core/fit_functions.py `profileX`, `profileY`, `profileXY`; the deviations are squared |
| `Model/FixedPars` | core/fit_functions.py `fixed_parameters`, `fit`, `get_errors`, `get_chi2_and_pvalue` (not the p-value); `curve_fit` is a parameter |
| `Model/LoadDb` | database/load_db.py `DataPMT`, `DataSiPM`, `SiPMNoise`, `RadioactivityData`; rows with the same key have no order in SQL; the cache, `DetectorGeo` and `PMTLowFrequencyNoise` are not modelled here |
| `Model/Blr` | sierpe/blr.pyx, cities/components.py `deconv_pmt`, reco/wfm_functions.py `cwf_from_rwf`, cities/diomira.py `emulate_trigger`; floating point is not modelled, a NULL coefficient (NaN in the code) is an error |
| `Model/Fee` | sierpe/fee.py (`SPE`, pulses, `filter_fee`, `filter_sfee_lpf`, `filter_cleaner`, `signal_*`), detsim/sensor_functions.py `simulate_pmt_response`, sierpe/low_frequency_noise.py, database/load_db.py `PMTLowFrequencyNoise`; the Butterworth filter of order 4 and `daq_decimator` are parameters, the constants of `FEE.__init__` are not modelled |
| `Model/HitsIO` | io/hits_io.py, io/voxels_io.py, evm/event_model.py `Cluster`, `Hit`, `HitCollection`, `Voxel`, `VoxelCollection`, `TrackCollection.store` |
| `Model/ChannelParams` | io/channel_param_io.py |
| `Model/SpeResponse` | calib/spe_response.py (not `binned_gaussian_spectrum`), core/stat_functions.py `poisson_factor` |
| `Model/Clusters` | hits_functions.py `tag_hits_in_event`, `cluster_tagger` (exact arithmetic; neighbours by increasing position) |
| `Model/DeconvInput` | deconv_functions.py `deconvolution_input`, `interpolate_signal` (scipy's griddata as parameter) |
| `Model/Seeds` | calib_functions.py (`seeds_db`, `poisson_mu_seed`, `sensor_values`, `pedestal_values`, `compute_seeds_from_spectrum`, `seeds_and_bounds`), stat_functions.py (`poisson_sigma`), fit_functions.py (check of the errors in `fit`) |
| `Model/WfIO` | rwf_io.py (`rwf_writer`), histogram_io.py, run_and_event_io.py, table_io.py |
| `Model/DstLoad` | dst_io.py (`load_dst`, `load_dsts`), dst_functions.py, pmaps_functions.py (`pmap_event_id_selection`), core_functions.py (`dict_map`, `dict_filter_by_key`, `dict_filter_by_value`, `df_map`) |
| `Model/PmapBuild` | `get_pmap`, `build_pmap`, `sensor_masker`, `zero_suppress_wfs`, `rebin_pmts`, `pmts_sum`, steps of irene and hypathia | NULL gains of SiPMs are 0; identifiers of PMTs not negative; random simulations are parameters |
| `Model/SipmSelect` | `components.py` `get_actual_sipm_thr`, `select_cutting_algorithm`, `threshold_sipm_selection`, `pyrrha_sipm_selection`, `no_cut_sipm_selection` |
| `Model/ClusterHits` | `hit_builder.build_hits`, `Hit`, `Cluster.empty` | reconstructions and charges arbitrary functions; exact arithmetic |
| `Model/Zemrude` | `zemrude`, `apply_correctionmap_inplace_kdst`, `compute_metadata`, `save_map`, `load_map` | libraries as parameters (`Env`); columns without NaN; no plots |
| `Model/CityConfig` | components.py:151-154, 207-217, 247-270 (`city` after the call, `index_tables`, `write_city_configuration`, `copy_cities_configuration`) |
| `Model/BuffyEvent` | buffy.py:65-98, 127-138; components.py:1388-1430 (an event and a run of buffy) |
| `Model/Binning` | `get_sensor_binning`, `load_mcconfiguration`, `load_mcsensor_positions`, `load_mcsensor_response_df` (`io/mcinfo_io.py`), `pmt_and_sipm_bin_width` (`detsim/sensor_utils.py`), `pmt_and_sipm_bin_width_safe_` (`cities/buffy.py`) |
| `Model/DetsimEvent` | `cities/detsim.py` (detsim, create_s2_waveform), `detsim/detsim_waveforms.py` s1_waveforms_creator | random values as arguments; one event at a time |
| `Model/CityArgs` | `cities/components.py` city (the arguments are stored after the call), operations on dictionaries of `cities/diomira.py`, `cities/beersheba.py`, `cities/detsim.py` | the rest of each city is an argument; that the other cities only read their dictionaries is by inspection |
| `Model/DiomiraEvent` | `cities/diomira.py` select_trigger_filter, emulate_trigger, simulate_pmt_response, the loop; `components.py` simulate_sipm_response, compute_pe_resolution | the dictionaries of parameters as values; a NULL `Sigma` is 0; draws are inputs; conversions out of 16 bits keep the low bits |
| `Model/DeconvSlice` | `cities/beersheba.py` deconvolve_signal (det_grid, deconvolve_hits, apply_deconvolution), event_info_adder; `reco/deconv_functions.py` deconvolve, find_nearest | two dimensions; `griddata` and the normal density are inputs; a charge of peak of zero gives zeros, not NaN |
| `Model/CalibCity` | `cities/phyllis.py`, `cities/trude.py`, `cities/berenice.py`, `hist_writer` of `io/histogram_io.py`, `sipm_processing` as called by trude | the copy of the table of sensors; 32-bit counts |
| `Model/DbCopy` | `database/download.py` (loadDB, copy_all_rows, main), `database/check_gain_update.py` | SQLite (a parameter), conversion of values by the type of the column, the names of the files |
| `Model/SqlConvert` | `create_table_sqlite` | blanks that are not ASCII |
| `Model/LifetimeFit` | `lin_seed`, `expo_seed`, `select_fit_variables`, `get_function_and_seed_lt`, `transform_parameters`, `polynom`, `expo`, `sigmoid`, `gauss_seed`, `quick_gauss_fit`, `compute_drift_v`, `poisson_sigma` | values finite (infinite results are `none`); `curve_fit` is a parameter |
| `Model/ToyWaveform` | `square_waveform`, `sawteeth_waveform`, `waveform_generator`, `deconv_simple` | exact arithmetic; times are naturals; `simulate_pmt_response` is a parameter with rows of one sample every 25 ns |
| `Model/ParamFiles` | `read_maps`, `apply_all_correction`, `read_lighttable`, `create_lighttable_function` from a file, `compute_scintillation_photons` | text to number and Poisson draws are parameters; repeated `sensor` parameter is an error |
| `Model/ShortestPaths` | `shortest_paths` with `nx.all_pairs_dijkstra_path_length`, `find_extrema_and_length`, `find_extrema`, `length`, `voxels_within_radius`, `make_tracks`, `Blob`, `Track` | exact arithmetic; lengths of links are parameters (norms are not rational) |
| `Model/Compare` | `exactly`, `all_elements_close`, `relative_difference`, `assert_*` of `core/testing_utils.py`, with `approx` of pytest, `assert_allclose`/`assert_equal`/`np.allclose` of numpy and `assert_frame_equal` of pandas | exact arithmetic; roots and angles of clusters are fields; frames without repeated columns |
| `Model/Esmeralda` | `hit_dropper`, `Efield_copier`, the selection and `compute_and_write_tracks_info` for one event | exact arithmetic; the columns not used are one field; the distance along links is any positive symmetric function |
| `Model/Sophronia` | `sophronia` for one event: selector, point-like branch, hits branch with merge, corrections and clusters; the call of `rebin_peak` with its arguments | exact arithmetic; the global reconstruction is any function; an exception stops the event |
| `Model/Isaura` | `isaura` for one event; columns of `create_deconvolution_df`, `apply_deconvolution`, `event_info_adder` and `dhits_from_files` | exact arithmetic; the columns not used are one field |
| `Model/Beersheba` | `beersheba` for one event (pipeline at beersheba.py:531-549) | exact arithmetic; position of the peak as a function of the peak; what is written before a stage that fails is not kept |
| `Model/Chain` | run of sophronia over events, its output file, and its hits as input of esmeralda and beersheba | columns not used by the next city are left out; energies that are not numbers are 0 (excluded in the theorems) |
| `Model/IreneRun` | run of irene and of hypathia over events: filters, `s12_indices`, `empty_pmap`, the tables of the pmaps and of the events | trigger and MC tables are left out (modelled elsewhere) |
| `Model/Dorothea` | event and run of dorothea, its tables, and what is written before an exception | MC and database tables are left out |
| `Model/SignalNoise` | `signal_to_noise`, `sipm_charge_array` for `SiPMCharge.signal_to_noise` and the hits built with it | the square root is a parameter; values that are not finite are not followed into the hits; the recursion limit of Python for widths of about a thousand samples is left out |
| `Model/SimChain` | `buffer_writer` (types of the stored values) and `wf_from_files` on its file | times out of the range of the column are not modelled |
| `Model/DiomiraChain` | the tables of diomira's file and `wf_from_files` on it | /RD/pmtblr and /Filters/trigger are left out: no city reads them; diomira writes no group Trigger |
| `Model/McConvert` | `load_mchits_df`, `load_mcparticles_df`, `load_mcsensor_response_df`, `load_mcgenerators`, `load_mcsensor_positions`, `copy_mc_info` of an old file to a new output | numbers are not rounded to the types of the columns; strings longer than the columns of the output (100 or 300) and tables of other names are not modelled |
| `Model/SimIrene` | the events of diomira from what `wf_from_files` gives | the random numbers of each event are given |
| `Model/TableIO` | io/dst_io.py, io/event_filter_io.py, io/trigger_io.py |

Not modelled: floating-point rounding; HDF5 files (a table is a list of rows), compression and attributes; databases and their SQL; the random number streams
themselves (only that each draw is some number, or the state discipline of C47); the minimisation of `curve_fit` (a parameter of the model);
the interpolation of correction maps, `deconvolution_input` (interpolation and `histogramdd` of images), plots, command line and logging.  The distances of
`np.linalg.norm` are arbitrary functions, or are compared through their squares; `nx.all_pairs_dijkstra_path_length` is an arbitrary table with the contract
stated in the hypotheses.  Pinned versions read for library behaviour: numpy 2.4.6, pandas 3.0.3, pytables 3.11.1, networkx 3.6.1.  With NumPy 2 a Python int out of the range
of a `UInt16` column raises `OverflowError`: the model assumes that.

## Discrepancies found (each with a machine-checked witness)

For a property of the list that the code violates, either the statement in `properties.jsonl` says so, or the theorem is `..._partial`.

* C05, C06: `slice` with stop <= start and `close_all` consumes start+1 items; `out` names zip with the results and silently drop the surplus.
* C07, C12: negative factor on a degenerate `minmax`; `find_peaks` on no samples raises IndexError; padding with zero times in short peaks.
* C15: an empty peak raises AttributeError instead of ValueError.  C17: the last slice of a threshold rebin can be below threshold.
* C18, C19, C21: `push_file` is not popped when reading fails; types are checked only on the first call, tuples of any length; dotted keys collide when flattened.
* C22, C23: a slice with zero threshold and no charge loses its energy; NaN energies of NN hits spread.
* C26: corona may never end, or lose the clusters found, for some radii and thresholds.
* C27, C50: hits whose energies cancel (or are zero) are in no voxel and vanish from the output; without usable energies the hits outside the map vanish too; equal rows inflate the
  overlap of the blobs; one hit without energy makes the averages of the event summary NaN.
* C28-C30: voxels of different sizes make tracks depend on the order; all-zero distances give no extremes; `min_vxls` is checked once per pair of extremes; voxels with and without hits mixed lose energy.
* C32: the trigger counts peaks, not channels; multiplicity 0 never fires.  C33: padding is asymmetric and the last sample is never kept.  C34: `n = 0` selects all sensors, negative radius removes all.
* C36, C37: buffers misaligned if the pre-trigger is not a multiple of the SiPM width; more triggers than the numbering allows when max_time is not a multiple of the bin width.
* C38, C48: events without peaks make the PMap file unreadable; repeated sensor ids break the round trip; peak numbers from 65535 merge.
* C39-C42: wrong columns accepted in an empty dataframe; a wrong index column raises after writing; repeated events make filters unreadable; trigger type 0 is dropped; Kr events without S2 or with a failed reconstruction cannot be stored.
* C43: `filter_limits` can cut a window; a window ending at the end of the buffer is kept but refused later; dark and light windows can overlap.  C44: division by zero for sensors without distribution.
* C45, C58, C59: S2 light is lost when a gap partition is not a whole number of bins; electrons before the buffer wrap to its end; S1 fails if the buffer is not a whole number of bins.
* C46, C57: no big cluster is a TypeError; positions confused with labels; hits of one sensor are never neighbours; a peak without pixels above the cut loses its energy; several small regions are all removed while a single one is kept.
* C51, C60: an unsorted database swaps waveforms; light tables whose first distance is not in the first bin fail, PMT tables are transposed when not square.
* C53, C56: an event without selected S2 raises; files with events but no PMAPS group raise; hits of events absent from Run/events are silently lost.
* C61, C62: a merged file copied after another collapses into one `file_index`; mapping and configuration disagree when only some sources of a merged file are selected; a first MC file without
  selected events raises IndexError, a later one shares its index with the next file; the string map is copied without `name_id`.
* C63-C65: in files previous to 2020 an event without rows gets a copy of the last row of the previous event; `cast_mchits_to_dict` keeps one hit per number; `strip("_binning")` strips characters.
* C72, C73: one peak without charge zeroes the PSF of its bins; different numbers of bins raise ValueError; hits repeated in a position lose charge; sectors whose rounded centres coincide are merged;
  a sensor not at the lowest z of its peak is counted twice.
* C74: with pandas 3, `regularize_map` raises ValueError as soon as there is a NaN to fill (read-only values); the filling depends on the order of the visits.
* C75: `hits_corrector` with `apply_temp=True` always raises AttributeError (`maps.ts` does not exist); it modifies its input although the documentation denies it; the normalization method has no effect with a unit, except for spoiling every energy when it is NaN or 0; points outside the map get the nearest bin at any distance.
* C76: with no row left before the last cut `apply_selections` raises ZeroDivisionError; rows with a NaN time escape the requirement of one row per event.
* C78: the `region` strategy with a rectangle that has rows but no columns of the map gives NaN instead of the documented ValueError (`len` of a data frame counts rows); one NaN bin in the region makes the normalization, and every energy, NaN.
* C79: the default range of the profiles leaves out the points at the maximum; `profileXY` ignores `drop_nan` and fills with 0 the empty bins (as if the average were 0) and fails with `ValueError` if nothing is selected, e.g. with one point and the default ranges.
* C80: a function with several free parameters called with only one value does not fail: numpy copies it to all of them.
* C82: a SiPM without a gain valid for the run disappears from the table (a PMT stays, with conversion 0), a gain, mask, position or channel with NULL as last run is never valid (in the other tables it means no end), two masks valid for a sensor duplicate it, sensor 100 is in no table, and of the columns in `fillna` only `adc_to_pes` exists, so that the unknown sigmas stay unknown.
* C83: for the run 0 the sensors are those of run 3012 but the noise is that of run 0; the noise of a sensor can be given to another one if the numbers of rows agree.
* C84: an efficiency newer than all the activities is not used by default.
* C85: `accum_discharge_length` has no effect on the result (`discharge_length`); an accumulator that reaches thr_trigger / coeff_blr is not discharged any more, so that after a large signal the result stays above the threshold although the waveform is quiet (`runoff`; the docstring says that the discharge avoids runoffs).
* C86: a baseline sample equal to zero is not part of the pedestal.
* C87: `emulate_trigger` gives the ids of the trigger PMTs to `deconv_pmt` as `mask`, where only their truth value counts: all the active PMTs are deconvolved and the k-th trigger channel gets the waveform of the k-th PMT (`trigger_other_waveform`); if any PMT is masked every event is an AssertionError (`trigger_inactive`).
* C88: `spe_pulse_from_vector` drops the photoelectrons of the last samples (`pulses_lost`).
* C90: the query of the frequencies has no order, while the width of the intervals is that of the first two rows; the run 0 is not replaced.
* C91-C93: `hits_from_df` keeps only the last time of an event and drops NaN times; energies `NN` are replaced by charges; collections of voxels read from a file have zero energy; `TrackCollection.store` loses the event of all but the first voxel of a track.
* C94: a parameter not given takes the value left by a failed call; the covariance is read as a parameter.  C95, C96: no gaussians at all when the area without photons is small; the convolved spectrum is shifted unless zero is the centre of a bin.
* C97: `cluster_tagger` puts the index of the input on a table sorted by event: if the hits are not sorted by event, the index of a hit goes to another one.
* C98: with `nointerpolation` the coordinates given for the cells at the border of the region are displaced by a quarter of the spacing (the edges of the first and last cells are the points themselves), and hits beyond the last point of the detector grid are lost.
* C99: with a free pedestal (`'gau' in func`) `seeds_and_bounds` pairs the bounds as (mean min, mean max) and (deviation min, deviation max) instead of (mean min, deviation min) and (mean max, deviation max): the deviation is asked to be larger than the maximum of the mean (`transposed_bounds`).
* C99: if the peak is closer to the first bin than the half width, the slice starts at a negative index and the fit has no data (`window_lost`); an empty bin in the window makes `fit` raise `ValueError` since the square root of its content is its error (`empty_bin_raises`); `seeds_db` uses the number of the channel as a position in the table (`seeds_by_position`).
* C100: samples beyond 16 bits are stored wrapped (`wraps`); a transposed array is accepted (`transposed_accepted`); an event number that does not fit leaves the tables of the run out of step (`rows_out_of_step`).
* C101: `load_dsts(ignore_errors=True)` leaves unreadable files out of the result (`load_ignoring`).
* C102: hypathia masks "pmt" after "rwf" and "ccwfs" were made from it, so that inactive PMTs are summed and, with `pmt_ids` of the active ones only, every selected peak raises `ValueError` (`hypathia_inactive` and the example after it).
* C103: with individual thresholds (`irene_individual_inactive`) or pyrrha (`pyrrha_inactive`) irene and hypathia fail in every event with an S2 as soon as a SiPM of the run is inactive: thresholds and positions are those of all the SiPMs of the table, waveforms those of the active ones. Without `detector_db` among the parameters (its default) an individual threshold, a fraction, is used as a number of photoelectrons (`type_ignored`).
* C105: `file_out` is created with the compression asked for, but `save_map` creates it again with `to_hdf(mode = 'w')`, so the tables are not compressed; a job that fails has already destroyed the previous map; `event_range` and `run_number` of the configuration are ignored (the run number of all the rows is that of the first file).
* C106: a job whose input was already processed by a city of the same name ends with `NodeError` after writing its output (`finish_repeated`); only the history of the first of `files_in` is kept; an argument of more than 300 characters (such as a list of many `files_in`) is cut without a warning (`cut_spec`).
* C108: different widths in merged files (or in later files of a list) are ignored without notice (`merged_ignored`, `firstWidths_spec`); the "safe" search of widths is stopped by any file with widths of only one plane (`firstWidths_stops`); an old file cannot be read with run number 0 (`old_needs_run`).
* C109: the times of the triggers of detsim are counted from the beginning of the data of the event, which is not recorded (`start_not_recorded`); an electron that diffusion puts before it gives light at the end of the data, and a trigger there (`early_light`).
* C110: `diomira` (trigger S2) removes `n_baseline` from `s2_params`, and `beersheba` removes `q_cut`, `drop_dist` and `cluster_size` from `deconv_params`, before the configuration is stored: they are not in the output file (`diomira_stores`, `beersheba_stores`), and a second call with the same dictionaries is a `KeyError` (`diomira_once`, `beersheba_once`).
* C111: a trigger S2 whose waveform has no sample above `min_height` ends diomira with IndexError (the search of peaks fails on an empty list of indices) instead of rejecting the event; the rest of the input is lost (`trigger_quiet`, `quiet_ends`, `ex_runs`). The threshold of the search is not scaled by `data_mc_ratio` while the height of the filter is. PMT waveforms are rounded, those of SiPMs truncated.
* C112: in the mode `separate` the PSF is that nearest to z = 0; a slice whose hits have different peak positions is a ValueError unless there are as many as rows in the table (`psf_mixed`), a PSF that is not a full grid too, and either ends the event and the job (`event_fails`, `ex_event`). The order of the rows of the table decides the image of the PSF (`kernel_spec`): it is not sorted.
* C113: four of the six modes of trude (those that calibrate) are accepted and fail in the first event with a TypeError, as the functions are called without gains (`trude_calibrate`). phyllis in `gain_nodeconv` keeps only the active PMTs although its accumulators have all of them: it fails in the first event if some is inactive (`phyllis_inactive`), unless exactly one is active: then NumPy gives that histogram to all the PMTs, silently (`phyllis_one`). The last bin ends before `max_bin`: values between them are lost. The histograms are written at the end: a failing event loses all of them (`failed_job`).
* C114: `loadDB` removes the local copy before it connects to the server: without network the copy is lost (`unreachable_server`); an interrupted download may leave an empty table, which readers take as a table without sensors. The tables are read one by one: a copy may be of no state of the server (example). The check of an update compares only the intervals of runs: it says nothing of the gains, and the sensor 100 is in neither group (`check_blind`).
* C115: with two indices (KEY) in a table the second one is left in the statement, without a comma before it (`convert_two_keys`): SQLite refuses it.
* C116: `lin_seed` never gives a negative slope, so the seed of the linear fit of energies that decay has the wrong sign; `expo_seed` gives the right lifetime only when the shortest drift time is 0.
* C117: `sawteeth_waveform` subtracts `t_rise + 2 t_flat` per tooth although a tooth lasts `2 t_rise + t_flat`, so the generator fails unless both agree; the last sample of the fall of `square_waveform` has the noise of two draws; `t_rise = 0` gives NaN; `deconv_simple` multiplies the first sample by the coefficient twice.
* C118: a gap or an active radius of 0 given by the user is silently replaced by that of the file; a time evolution that cannot be read is silently dropped.
* C119: `make_tracks` gives blobs of null energy to tracks whose voxels have no hits, whereas `blob_energies` gives that of the voxels.
* C120: `all_elements_close` does not take the absolute value of the relative difference: [1, 1000] are "all close"; `assert_Peak_equality` does not compare the widths of the bins; `assert_tables_equality` does not see the size of the integers.
* C121: `out_of_map` of esmeralda is never set by hits outside of the map (after the threshold all have energy), only by events with more than `max_num_hits` hits. The fiducial cut removes the NN hits of the input before they are merged, with their energy (`input_NN_lost`); sophronia leaves none.
* C122: an event accepted by the selector without any selected S2 raises in sophronia (`no_s2_fails`); a failed global reconstruction of a selected S2 raises `OverflowError` when the point-like rows are stored, before any hit; `apply_temp = True` stops at the first event with hits (`temporal_fails`); with `same_peak` the energy of an S2 without hits of charge is lost (`dim_peak_lost`); `sipms_as_hits` exchanges `rebin_slices` and `rebin_method` (`rebin_names_exchanged`), harmless only because sophronia calls it positionally.
* C123: `dhits_from_files` asks a table with `Xpeak` for the columns `Ec`, `track_id` and `Ep`, and beersheba writes `Xpeak` without them: isaura raises `KeyError` on the output of the current beersheba (`beersheba_refused`).
* C124: with three distances (`drop_dist` of 3) an event with a peak without a cluster of more than `cluster_size` hits does not reach the filter of events without hits: `TypeError` (`three_distances_fail`).
* C125: the file that sophronia writes from inputs that repeat an accepted event number is refused by esmeralda and beersheba (`repeated_refused`); an accepted event without hits is skipped without a warning if no other event of its file has hits (`lone_event_skipped`).
* C127: an accepted event that has no selected S2, an S2 without SiPMs or an S2 whose position is not found ends the run of dorothea; its flag is in the filter but it is not in Run/events (`event_fails`, `dorothea_run`).
* C128: a masked SiPM without charge has NaN as signal to noise (`masked_value`); when the sum of the noise of a SiPM leaves the bins its dark level is infinite and any charge gives zero (`noise_out_of_range`).
* C129: a sample with 32768 photoelectrons or more is stored as a negative number (`wraps`); the file of a simulation without triggers is an `IndexError` for the next city (`buffy_read`, `detsim_read`): `wf_from_files` only expects missing nodes.
* C130: the file of a job of diomira in which no event passes the trigger is an `IndexError` for the next city (`diomira_read`).
* C131: labels of hits are cut to 13 characters (`copied_rows`, `SameHit.label`); a copy without database has no times (`no_database_no_times`).

Known from reading, not modelled: `print_every` writes the key "index" in place; `components.calibrate_with_maw` calls a function that does not exist (`csf.subtract_baseline_maw_and_calibrate`);
sophronia passes two rebin parameters swapped twice.
