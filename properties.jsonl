{"id": "C01", "title": "A dataflow pipe is the composition of its pieces", "statement": "Pushing a source through pipe(map(f), ..., sink) makes the sink see exactly what it would see if the transformed source had been pushed directly into it: map(f) in front of any downstream network is equivalent to mapping the source, filter(p) to filtering it, flatmap(f) to concatenating f over it, spy(op) to leaving it unchanged; order is preserved and nothing is duplicated or lost, including when some downstream component raises StopPipeline or another exception half way.", "quantifier": "every source sequence, every downstream network (any nesting of fork/branch/slice/count/reduce/sinks), every f / predicate", "why_tests_cant": "The claim ranges over all networks and all streams; a test fixes one graph and one stream, and the interesting cases are the ones in which a downstream component stops in the middle.", "anchors": ["invisible_cities/dataflow/dataflow.py: map, filter, flatmap, spy, pipe, push"]}
{"id": "C02", "title": "fork and branch deliver every item to every target in the declared order", "statement": "Every target of a fork receives every item pushed, in source order, and for one item earlier-listed targets receive it before later ones; branch(side) delivers each item to the side network and then downstream. If a target raises StopPipeline on an item, targets listed before it have received that item, targets after it have not, and nobody receives any later item.", "quantifier": "every source, every list of targets, every position of the raising target", "why_tests_cant": "Quantifies over all graphs and over the point in the stream in which a target raises.", "anchors": ["invisible_cities/dataflow/dataflow.py: fork, branch, implicit_pipes, stop_when, push"]}
{"id": "C03", "title": "Every component is closed exactly once however the run ends", "statement": "When push returns or raises, every component of the network has been closed exactly once: after exhausting the source, after StopPipeline, and after an arbitrary exception raised by any user function at any item; nothing is sent to a component after it was closed.", "quantifier": "every network, every source, every point at which an exception or StopPipeline may be raised", "why_tests_cant": "The writers and futures depend on close (flush, set_result); tests exercise a handful of crash points, the claim is about all of them.", "anchors": ["invisible_cities/dataflow/dataflow.py: closing, fork, branch, push, coroutine"]}
{"id": "C04", "title": "Futures report exactly what was received", "statement": "The future of reduce(update, initial) resolves once, to the left fold of update over the items that reached it; count() resolves to the number of items that reached it; count_filter(pred) resolves to (n_passed, n_failed) with n_passed the number of items satisfying pred, n_failed the others and n_passed + n_failed the number of items that reached the filter. This holds also when the run is cut short by StopPipeline.", "quantifier": "every network containing such components, every source, every stop point", "why_tests_cant": "Counters are incremented around a send that may raise; all interleavings of raise and increment are needed.", "anchors": ["invisible_cities/dataflow/dataflow.py: reduce, count, count_filter, spy_count, push"]}
{"id": "C05", "title": "slice selects exactly the Python slice of the stream", "statement": "slice(start, stop, step) passes downstream exactly the items stream[start:stop:step]; negative start/stop or non-positive step are rejected with ValueError. With close_all=True the pipeline is stopped right after the items of the slice have been seen, so that pushing any longer (even infinite) source consumes only a bounded prefix and delivers the same items.", "quantifier": "every start/stop (possibly None)/step, every stream length", "why_tests_cant": "Boundary arithmetic ((stop-start+step-1)//step and the extra yields) over all integers and stream lengths.", "anchors": ["invisible_cities/dataflow/dataflow.py: slice"]}
{"id": "C06", "title": "args/out route values in dictionaries and nothing else", "statement": "map(op, args=a, out=o) calls op with the values of the keys a in order, stores the result(s) under the keys o and leaves every other key of the item unchanged; item=k means args=out=k and may not be combined with args/out (ValueError). A plain string in a pipe picks that key. Since items are updated in place, what a fork target or side branch writes into an item is visible to targets served later for the same item, and only to these.", "quantifier": "every item dictionary, every argument and output name list, every op", "why_tests_cant": "Ranges over all dictionaries and name lists including overlapping args/out and aliasing between branches.", "anchors": ["invisible_cities/dataflow/dataflow.py: map, flatmap, filter, sink, string_to_pick, fork, branch"]}
{"id": "C07", "title": "Range selection has the documented boundaries", "statement": "in_range(data, lo, hi, left_closed, right_closed) is True exactly for the elements inside the interval with the requested open/closed ends (default [lo, hi)), so consecutive default ranges [a,b) and [b,c) partition [a,c). minmax rejects min > max; contains is the closed interval; shifting or scaling by a positive factor commutes with contains; a negative factor is rejected. center and bracket are its centre and width: it contains the points at most half of bracket away from center.", "quantifier": "every array, every pair of bounds, every combination of closedness", "why_tests_cant": "Boundary behaviour for all values; partitions over all bounds.", "anchors": ["invisible_cities/core/core_functions.py: in_range", "invisible_cities/types/ic_types.py: minmax"]}
{"id": "C08", "title": "Array rebinning conserves the content", "statement": "rebin_array(arr, stride, sum, remainder) returns floor(n/stride) bins, each the method applied to consecutive disjoint blocks of stride samples in order, plus, with remainder=True and when stride does not divide n, one last bin with the remaining samples; hence with remainder=True the total sum is conserved and without it exactly the trailing n mod stride samples are dropped.", "quantifier": "every array, every positive stride, every method", "why_tests_cant": "Holds for all lengths and strides.", "anchors": ["invisible_cities/core/core_functions.py: _rebin_array", "invisible_cities/core/core_functions_c.pyx: rebin_array"]}
{"id": "C09", "title": "Bin edges built from bin centres are valid edges", "statement": "binedges_from_bincenters accepts exactly strictly increasing centres inside the given range (else ValueError), returns n+1 edges starting and ending at the range, non-decreasing, with every centre inside its bin; shift_to_bin_centers returns the midpoints, n-1 of them, each inside its bin, and it inverts it for equally spaced centres whose range extends half a bin.", "quantifier": "every sequence of centres and every range", "why_tests_cant": "For-all over real sequences.", "anchors": ["invisible_cities/core/core_functions.py: binedges_from_bincenters, shift_to_bin_centers"]}
{"id": "C10", "title": "find_nearest and weighted averages stay within the data", "statement": "find_nearest returns an element of the array at minimal distance from the value, the first such one on ties. The weighted mean of data with non-negative weights of positive total lies between the smallest and largest data value, the variance is non-negative and equals the weighted mean of squares minus the square of the mean, both invariant under rescaling of the weights and a shift of the data moves the mean only.", "quantifier": "every non-empty array and weights", "why_tests_cant": "For-all over real arrays.", "anchors": ["invisible_cities/core/core_functions.py: find_nearest, weighted_mean_and_var"]}
{"id": "C11", "title": "Threshold search and peak splitting partition the samples", "statement": "indices_and_wf_above_threshold returns exactly the indices with wf > thr, increasing, with the corresponding samples; split_in_peaks cuts any index sequence into consecutive pieces whose concatenation is the input, neighbours inside a piece differ by at most stride and neighbours across a cut by more than stride; consequently the pieces are the unique such maximal decomposition.", "quantifier": "every waveform, threshold, every index sequence and stride", "why_tests_cant": "For-all over sequences; maximality is a global statement.", "anchors": ["invisible_cities/reco/peak_functions.py: indices_and_wf_above_threshold, split_in_peaks"]}
{"id": "C12", "title": "Found peaks respect the search window and are disjoint and ordered", "statement": "Every peak returned by find_peaks corresponds to one piece of the split whose first and last sample times are in the time window and whose extent is within the length range, every such piece produces a peak, and different peaks use disjoint sample ranges separated by more than stride, in increasing time order. An empty index sequence raises IndexError.", "quantifier": "every waveform, index sequence, window and length parameters", "why_tests_cant": "Completeness (no valid piece is lost) and disjointness are for-all statements.", "anchors": ["invisible_cities/reco/peak_functions.py: select_peaks, find_peaks"]}
{"id": "C13", "title": "Rebinning times and waveforms conserves charge and width", "statement": "rebin_times_and_waveforms conserves for each sensor the summed waveform and the total bin width whenever the slices tile the range; each rebinned time is the average of the times of its slice weighted with the positive part of the summed charge (plain average if nothing is positive), hence lies between the first and last time of the slice; stride < 2 returns the input unchanged.", "quantifier": "every waveform matrix, time axis, stride and tiling", "why_tests_cant": "Conservation laws for all sizes, including last partial bins.", "anchors": ["invisible_cities/reco/peak_functions.py: rebin_times_and_waveforms"]}
{"id": "C14", "title": "PMT and SiPM samples of an S2 stay synchronised", "statement": "For an S2 built with SiPMs, when rebin_stride is a multiple of the SiPM/PMT sample ratio, the number of PMT bins equals the number of SiPM bins for any start/end index (so peak construction never fails on a shape mismatch), bin k of both covers the same time interval, and padding does not change the PMT charge.", "quantifier": "every index range, ratio and rebin stride multiple of it", "why_tests_cant": "Integer ceil/floor arithmetic for all start offsets modulo the ratio.", "anchors": ["invisible_cities/reco/peak_functions.py: pick_slice_and_rebin, build_peak, build_pmt_responses, build_sipm_responses"]}
{"id": "C15", "title": "Peak construction validates shapes", "statement": "Building an S1/S2 raises ValueError if there are no samples or if the PMT (or non-empty SiPM) waveforms do not have as many samples as times, and succeeds otherwise; a peak that exists therefore has matching lengths.", "quantifier": "every combination of lengths", "why_tests_cant": "All combinations incl. the chained comparison; includes the empty case.", "anchors": ["invisible_cities/evm/pmaps.py: _Peak._check_valid_input, _SensorResponses"]}
{"id": "C16", "title": "Peak summary quantities are consistent", "statement": "energy_above_threshold is the sum of summed PMT samples strictly above threshold, is antitone in the threshold for non-negative thresholds, total_energy is the sum of the positive samples and at least height when positive; width_above_threshold is the sum of bin widths from the first to the last sample above threshold, is antitone in the threshold and never exceeds the total width. rms_above_threshold is the standard deviation of the times of the samples above threshold weighted with their energy, and 0 if they are fewer than two or have no energy.", "quantifier": "every peak and every pair of thresholds", "why_tests_cant": "Monotonicity over all pairs of thresholds.", "anchors": ["invisible_cities/evm/pmaps.py: _Peak.energy_above_threshold, width_above_threshold, total_energy"]}
{"id": "C17", "title": "Peak rebinning by stride or threshold tiles the peak", "statement": "get_even_slices and get_threshold_slices return consecutive, disjoint, non-empty slices that together cover all samples of the peak; with the threshold method every slice but the last integrates at least the threshold, and so does the last one (unless it is the only slice) when samples are non-negative; rebin_peak therefore conserves energy per sensor, sensor ids and total width; stride <= 1 returns the same peak.", "quantifier": "every peak and every stride or threshold", "why_tests_cant": "Tiling for all sizes and charge patterns, last-slice merging included.", "anchors": ["invisible_cities/reco/pmaps_functions.py: get_even_slices, get_threshold_slices, rebin_peak, rebin_peak_to_slices"]}
{"id": "C18", "title": "The configuration keeps the last value and the complete override history", "statement": "After any sequence of assignments coming from a tree of included files and from the command line, each key holds the last value assigned, attributed to the file which assigned it; the history of the key lists all the previous values with their files in order; command line values override any file; the namespace view is read-only; after an include the attribution returns to the including file.", "quantifier": "every sequence of assignments / nested includes / CLI options", "why_tests_cant": "A statement about histories of arbitrary length and include nesting.", "anchors": ["invisible_cities/core/configure.py: Configuration, make_config_file_reader, configure"]}
{"id": "C19", "title": "Argument checking accepts exactly the well-typed calls", "statement": "Calling a function decorated with check_annotations raises ValueError iff some parameter without default is missing, there are too many positional arguments or some supplied value does not match its annotation (int accepts integers, float accepts floats and integers, bool only booleans, Union any alternative, Sequence/Mapping elementwise), and only warns for unknown keywords; otherwise the function is called with the same arguments.", "quantifier": "every signature, every call", "why_tests_cant": "For-all over recursive type expressions and values; and over histories of calls.", "anchors": ["invisible_cities/core/configure.py: type_check, compare_signature_to_values, check_annotations"]}
{"id": "C20", "title": "The event range selects the requested events", "statement": "For the event_range of the configuration: unset processes only the first event, n processes events [0,n), (a,b) processes [a,b), all processes everything, (a,last) processes from a on (None may stand for a missing bound); any other specification is rejected with ValueError. In all accepted cases the events processed are exactly those and the pipeline stops after the last.", "quantifier": "every specification and every number of events in the input", "why_tests_cant": "For-all over specifications; combined with the slice component.", "anchors": ["invisible_cities/cities/components.py: event_range, city, print_every", "invisible_cities/dataflow/dataflow.py: slice"]}
{"id": "C21", "title": "City inputs are de-duplicated in order and configuration flattening is lossless", "statement": "The list of files processed by a city contains each matching file once, in the order of first appearance; a pattern without match raises FileNotFoundError. dict_to_string flattens a nested dictionary so that each leaf value appears under its dotted path, nothing else appears, provided keys contain no dots.", "quantifier": "every list of patterns, every nested dictionary", "why_tests_cant": "For-all over nested structures.", "anchors": ["invisible_cities/cities/components.py: city, dict_to_string"]}
{"id": "C22", "title": "Slice energy is shared among hits without loss", "statement": "sipms_above_threshold keeps exactly the SiPMs with charge >= threshold, in order, and (for a positive threshold) shares the slice energy among them proportionally to their charge so that hit energies add up to the slice energy (up to the documented epsilon in the denominator); if none is above threshold a single NN hit carries the full slice energy. With a threshold of zero a slice without charge loses its energy.", "quantifier": "every charge vector, threshold and energy", "why_tests_cant": "Conservation over all inputs.", "anchors": ["invisible_cities/reco/hits_functions.py: e_from_q, sipms_above_threshold"]}
{"id": "C23", "title": "Merging NN hits removes them and conserves energy", "statement": "merge_NN_hits returns the non-NN hits in their original order with all but the energy columns unchanged; the energy of each NN hit is added to the closest non-NN hits (same peak if requested), proportionally to their energies; total energy is conserved whenever each NN hit has a candidate whose closest hits have non-zero energy; an NN hit without candidates is dropped; the result does not depend on the order of the NN hits.", "quantifier": "every hit collection, same_peak or not", "why_tests_cant": "Conservation and order-independence over all collections.", "anchors": ["invisible_cities/reco/hits_functions.py: merge_NN_hits"]}
{"id": "C24", "title": "Thresholding hits conserves the energy of each slice", "statement": "threshold_hits keeps, slice by slice, exactly the hits with charge >= th, redistributing the energy of the slice among them proportionally to the charge, the total of E and Ec of the slice being conserved (up to epsilon); slices with no surviving hits yield a single NN hit with all the energy; threshold <= 0 is the identity.", "quantifier": "every hit collection and threshold", "why_tests_cant": "Conservation over all collections.", "anchors": ["invisible_cities/reco/hits_functions.py: apply_threshold, threshold_hits, empty_hit"]}
{"id": "C25", "title": "The barycenter cluster is a faithful summary", "statement": "barycenter fails with the documented exception in exactly the documented situations (checked in order: no SiPMs, zero charge, none above threshold, zero charge above threshold); otherwise returns one cluster whose charge is the sum over the SiPMs with charge >= Qthr, whose count is their number and (for non-negative charges) whose position lies inside their bounding box, with non-negative variances.", "quantifier": "every set of SiPMs and threshold", "why_tests_cant": "For-all; includes error precedence.", "anchors": ["invisible_cities/reco/xy_algorithms.py: threshold_check, barycenter"]}
{"id": "C26", "title": "Corona terminates and forms disjoint clusters", "statement": "corona terminates for every input; the clusters are made of disjoint sets of SiPMs, so their charges add up to at most the total charge above threshold and the numbers of SiPMs to at most the number of SiPMs; each cluster has at least msipm minus the masked neighbours SiPMs; if no cluster is formed ClusterEmptyList is raised. A returned result is the outcome of the documented rounds: each starts from a hottest remaining SiPM with charge at least Qlm, and they end when none is left.", "quantifier": "every SiPM pattern and every parameter set allowed by the assertions", "why_tests_cant": "Termination and disjointness over an unbounded loop.", "anchors": ["invisible_cities/reco/xy_algorithms.py: corona, discard_sipms, get_nearby_sipm_inds, count_masked"]}
{"id": "C27", "title": "Voxelisation conserves energy and assigns each hit once", "statement": "voxelize_hits puts each hit in exactly one voxel of the grid covering the bounding box (each hit's coordinates are within half a voxel size of the centre of its voxel), the energy of a voxel is the sum of the energies of its hits, so total energy is conserved; voxels have no repeated positions; no hits raises NoHits.", "quantifier": "every hit collection and voxel size", "why_tests_cant": "For-all over real coordinates; conservation.", "anchors": ["invisible_cities/reco/paolina_functions.py: voxelize_hits, bounding_box"]}
{"id": "C28", "title": "Tracks partition the voxels into connected components", "statement": "make_track_graphs returns tracks such that each voxel is in exactly one track, two voxels are in the same track iff there is a chain of neighbouring voxels linking them; for voxels of a common size the neighbour relation is symmetric; a larger contiguity only merges tracks.", "quantifier": "every voxel collection and contiguity", "why_tests_cant": "Reachability over arbitrary graphs.", "anchors": ["invisible_cities/reco/paolina_functions.py: neighbours, make_track_graphs, connected_component_subgraphs"]}
{"id": "C29", "title": "Track extremes realise the track length and the leading blob is first", "statement": "find_extrema_and_length returns a pair of voxels of the track whose distance is the maximum over all pairs (the track length); a single-voxel track has both extremes equal and zero length; no voxels raises NoVoxels. Of the two blobs the more energetic is returned first (E1 >= E2), with energy, hits and centre belonging to the same extreme.", "quantifier": "every distance table / track / radius", "why_tests_cant": "Maximum over all pairs; ordering for all inputs.", "anchors": ["invisible_cities/reco/paolina_functions.py: find_extrema_and_length, blob_energies_hits_and_centres, energy_of_voxels_within_radius"]}
{"id": "C30", "title": "Dropping end-point voxels terminates and conserves voxels and energy", "statement": "drop_end_point_voxels terminates for every input; the surviving and the dropped voxels are a partition of the input voxels and only energies change; when all voxels come from hits (energy = sum of their hits), or none has hits, the total energy is conserved; something is always kept; a dropped voxel had energy below threshold when dropped and was an extreme of a track with at least min_vxls voxels; at the end the extremes of such tracks are not below threshold or have no other neighbour. (min_vxls is only checked once per pair of extremes, so a track can shrink below it.)", "quantifier": "every voxel collection, threshold and min_vxls", "why_tests_cant": "While loop over mutated state; termination and conservation.", "anchors": ["invisible_cities/reco/paolina_functions.py: drop_end_point_voxels"]}
{"id": "C31", "title": "The S1/S2 filter accepts exactly the peaks and events in range", "statement": "A peak is flagged valid iff width, height, energy (and, for S2, number of SiPMs) are inside their closed ranges; the event passes iff the number of valid S1s and of valid S2s are inside [min,max]; combining two selector outputs with & / | is the elementwise and / or.", "quantifier": "every PMap and every selector parameters", "why_tests_cant": "Boundary and counting logic for all peaks.", "anchors": ["invisible_cities/filters/s1s2_filter.py: S12Selector, S12SelectorOutput, pmap_filter"]}
{"id": "C32", "title": "The trigger fires on the required channel multiplicity", "statement": "TriggerFilter passes an event iff the number of trigger channels having at least one valid peak (charge, height, width in range) reaches min_number_channels.", "quantifier": "every event and every trigger configuration", "why_tests_cant": "Counting logic over all events (several peaks in one channel, zero requirement...).", "anchors": ["invisible_cities/filters/trigger_filters.py: TriggerFilter"]}
{"id": "C33", "title": "Zero suppression only removes samples away from the signal", "statement": "suppress_wf(wf, thr, padding) returns a waveform of the same length equal to wf at each sample within padding samples (before and after) of a sample above threshold and zero elsewhere; it is idempotent-safe: it never changes the value of a retained sample.", "quantifier": "every waveform, threshold and padding", "why_tests_cant": "Boundary arithmetic at both ends for all waveforms.", "anchors": ["invisible_cities/reco/wfm_functions.py: suppress_wf, noise_suppression"]}
{"id": "C34", "title": "SiPM selection and padding only adds or removes the sensors specified", "statement": "Killing isolated SiPMs removes exactly the selected sensors without another selected sensor within the given distance; circular padding returns a superset of the selection made of the sensors within the radius of some selected one, monotone in selection and radius; charge threshold selection keeps exactly the sensors satisfying the criterion.", "quantifier": "every sensor layout, selection and radius", "why_tests_cant": "Set-level statements over all geometries.", "anchors": ["invisible_cities/reco/wfm_functions.py: kill_isolated_sipms, apply_circular_padding, charge_threshold_method, top_n_method"]}
{"id": "C35", "title": "Candidate triggers are separated by more than the stand-off", "statement": "find_signal_start returns increasing bin indices, each above threshold, any two differing by more than stand_off; the first is the first bin above threshold and each bin above threshold belongs to a group (with gaps at most stand_off) started by one of them; no bin above threshold gives no trigger.", "quantifier": "every summed waveform, threshold and stand-off", "why_tests_cant": "For-all over waveforms.", "anchors": ["invisible_cities/detsim/buffer_functions.py: find_signal_start"]}
{"id": "C36", "title": "Output buffers always have the configured length and alignment", "statement": "For each trigger, buffer_calculator returns PMT and SiPM buffers of exactly buffer_len//pmt_width and buffer_len//sipm_width samples for every sensor, whatever the position of the trigger in the data, padded with zeros (for the PMTs, as long as the trigger is not closer to the start of the data than its offset inside the SiPM bin minus the samples after the trigger); the trigger sample is located at the pre-trigger position (corrected by the offset to the SiPM bin), and PMT and SiPM buffers start at the same time when the pre-trigger is a whole number of SiPM samples and the SiPM width a multiple of the PMT width; otherwise they differ by the difference between the two roundings of the pre-trigger.", "quantifier": "every trigger position, data length, buffer parameters with pre_trigger <= buffer_len", "why_tests_cant": "Slicing and padding arithmetic for all positions.", "anchors": ["invisible_cities/detsim/buffer_functions.py: buffer_calculator, pad_safe"]}
{"id": "C37", "title": "Output event numbers are unique", "statement": "The event numbers given to the triggers found in the nexus events (event number times the maximum number of sub-events plus the trigger index) are different for different (event, trigger) pairs provided that no event has more triggers than the maximum, the original event is recovered by integer division, and the rows of the four output tables correspond to each other; the number of triggers found in an event never exceeds the maximum when max_time is a multiple of the PMT bin width.", "quantifier": "every sequence of events and trigger multiplicities", "why_tests_cant": "Injectivity over all pairs.", "anchors": ["invisible_cities/cities/components.py: calculate_and_save_buffers / buffer event numbering", "invisible_cities/detsim/buffer_functions.py: find_signal_start"]}
{"id": "C38", "title": "Writing and reading PMaps is a round trip", "statement": "Reading back PMaps written with pmap_writer gives, for each event with at least one peak, the same S1s and S2s in order, with the same times, widths, PMT and SiPM ids and waveforms; the reader gives the same whether lazily or eagerly.", "quantifier": "every sequence of events with arbitrary peaks", "why_tests_cant": "Round trip over all data, multiplicities and ids.", "anchors": ["invisible_cities/io/pmaps_io.py: store_peak, store_pmap, load_pmaps, load_pmaps_as_df, build_pmaps..."]}
{"id": "C39", "title": "Appending dataframes keeps one consistent table", "statement": "Any sequence of df_writer calls on a node results in a table containing the rows in order of writing with the columns of the first one (columns may come in another order); a dataframe with different columns is rejected leaving the table unchanged; load_dst returns the rows written, or those of the events in the requested list.", "quantifier": "every sequence of writes", "why_tests_cant": "History statement over arbitrary write sequences.", "anchors": ["invisible_cities/io/dst_io.py: df_writer, load_dst, store_pandas_as_tables"]}
{"id": "C40", "title": "Event filter records are complete", "statement": "The event filter writer appends one (event, flag) record per call to the table of its filter. Reading the filters of a set of tables gives, for every event recorded, one flag per filter: the one written for that event, and False in a filter that has no record of it.", "quantifier": "every sequence of filter decisions", "why_tests_cant": "History statement.", "anchors": ["invisible_cities/io/event_filter_io.py: event_filter_writer, event_filter_reader"]}
{"id": "C41", "title": "Trigger data are stored one row per event", "statement": "Writing trigger type and channels for a sequence of events produces tables with one row per event in order, so that they can be zipped again with the event table.", "quantifier": "every sequence of trigger values", "why_tests_cant": "Holds only if no value is silently skipped; all values needed.", "anchors": ["invisible_cities/io/trigger_io.py: store_trigger", "invisible_cities/cities/components.py: check_lengths, wf_from_files"]}
{"id": "C42", "title": "Kr events are stored as all S1-S2 combinations", "statement": "Storing a KrEvent writes exactly max(nS1,1)*max(nS2,1) rows, one per (S1,S2) pair, S1 major, with the columns of each peak; missing peaks are filled with the documented defaults.", "quantifier": "every number of S1s and S2s including zero", "why_tests_cant": "All multiplicities.", "anchors": ["invisible_cities/evm/event_model.py: KrEvent.store"]}
{"id": "C43", "title": "Integration windows partition LED windows correctly", "statement": "Integrating a waveform between limits gives for each window the sum of its samples, dark windows do not overlap with the light windows, and filtering the limits keeps only complete [start, stop) pairs inside the buffer in order.", "quantifier": "every waveform and every limits", "why_tests_cant": "Index arithmetic for all limits.", "anchors": ["invisible_cities/calib/calib_functions.py: spaced_integrals, integral_limits, filter_limits"]}
{"id": "C44", "title": "Noise sampling distributions are proper", "statement": "normalize_distribution returns weights adding up to one in the same proportions, or the same weights when the total is zero. The noise threshold of a sensor is infinite exactly when its (masked) distribution is zero; otherwise it is the first bin whose cumulative probability reaches the requested fraction (IndexError only if the total is below it), so the probability at or below it is at least the fraction, the one strictly below is less, and it is monotone in the fraction. Sampling gives zeros for masked sensors and, for the others, the baseline plus the gain times the drawn bin plus the drawn deviation. pad_pdfs continues an even binning as far as it fits in [-100, 100] and pads the distributions with zeros. The distribution of the sum of several samples gives each bin exactly the pairs of bins adding up to it and loses only the sums out of range. The expected dark noise is zero for masked sensors; the threshold model never fails and is infinite for active sensors without distribution; the mean model raises ZeroDivisionError exactly when there is one of those.", "quantifier": "every set of sensors, distributions, masks, bins, fractions, draws and numbers of samples", "why_tests_cant": "For-all over distributions.", "anchors": ["invisible_cities/core/random_sampling.py: normalize_distribution, inverse_cdf_index, inverse_cdf, pad_pdfs, general_thresholds, NoiseSampler (sample, compute_thresholds, dark_expectation, multi_sample_distributions)"]}
{"id": "C45", "title": "Waveform spreading and S2 histograms conserve photons inside the buffer", "statement": "Spreading an electron-time histogram over nsmear bins conserves the total up to what falls outside the buffer; the S2 waveform of each sensor holds, bin by bin, exactly the light emitted during the bin, and in total all the light the sensor sees, whenever every electron arrives after the beginning of the waveform, the buffer is the one computed for the event (not truncated by the maximum length) and a partition of the EL gap lasts at most one bin or a whole number of bins. Light after the end of the buffer is dropped; the hits simulated are those of the wanted volumes, within the maximum time of the first one. Charge fluctuation never gives negative charge nor charge to empty samples.", "quantifier": "every light table, set of electrons, bin width, buffer, hits and random draws", "why_tests_cant": "Boundary handling for all times.", "anchors": ["invisible_cities/detsim/s2_waveforms_c.pyx: spread_histogram, create_wfs", "invisible_cities/cities/detsim.py: filter_hits_after_max_time, hits_selector, buffer_times_and_length_getter", "invisible_cities/detsim/sensor_functions.py: charge_fluctuation, convert_channel_id_to_IC_id"]}
{"id": "C46", "title": "Deconvolution cuts conserve energy", "statement": "The charge cut (cut_over_Q, cut_and_redistribute_df) keeps in each peak exactly the hits above the cut, in order, and shares the total of each redistributed column of the peak among them in proportion to their values, so the total is unchanged (a column whose kept values add up to zero becomes non finite). drop_isolated with two distances never fails and keeps exactly the sensors that have another sensor, at another place, within the distance. With three distances (nhits >= 1, distinct row labels) it keeps exactly the hits of clusters (connected components of hits closer than the box diagonal) of more than nhits hits, and raises TypeError exactly when some peak has no such cluster. Peaks and events are independent of each other.", "quantifier": "every table of hits, cut, distances, number of hits and order of iteration over Python sets", "why_tests_cant": "Conservation and component-level statements.", "anchors": ["invisible_cities/reco/deconv_functions.py: cut_and_redistribute_df, drop_isolated_sensors, drop_isolated_clusters", "invisible_cities/cities/beersheba.py: cut_over_Q, drop_isolated"]}
{"id": "C47", "title": "Fixing the random seed is transparent to the caller", "statement": "Code run inside fix_random_seed(seed) sees the generator seeded with seed and after the block, whether it ends normally or with an exception, the global random state is the one before the block, also for nested blocks.", "quantifier": "every body (draws, nesting, exceptions)", "why_tests_cant": "Quantifies over all bodies and crash points.", "anchors": ["invisible_cities/core/core_functions.py: fix_random_seed"]}
{"id": "C48", "title": "Overflow protection clips and the stored peak number fits", "statement": "overflow_protection(value, upper) returns min(value, upper) and warns exactly when value > upper; used for the peak number written in PMaps it makes the stored number always representable, and different peaks below the limit keep different numbers.", "quantifier": "every value and bound", "why_tests_cant": "For-all; interplay with round trip.", "anchors": ["invisible_cities/core/core_functions.py: overflow_protection", "invisible_cities/io/pmaps_io.py: store_peak"]}
{"id": "C49", "title": "Simulated timestamps are ordered like the events", "statement": "create_timestamp gives event n a time within its own period n/rate .. (n+1)/rate, so timestamps are strictly increasing with the event number whatever the random draws; a zero rate is replaced by 0.5 Hz and a negative one by its absolute value.", "quantifier": "every rate, every event number, every random draw in [0,1)", "why_tests_cant": "Monotonicity for every random outcome.", "anchors": ["invisible_cities/cities/components.py: create_timestamp"]}
{"id": "C50", "title": "The topology of an event accounts for every hit", "statement": "For an event with at most max_num_hits hits, some of them inside the correction map and those with positive energy, and positive voxel sizes, track_blob_info_creator_extractor returns every hit exactly once (position rounded to 5 decimals); the flag is true iff some hit is outside the map; there is at least one track; tracks are numbered 0, 1, ... in the order of decreasing energy; the number of hits, energy, limits and energy-weighted averages of a track are those of the hits returned with its track_id, and every other hit returned has track_id -1 and no energy; the energies of the tracks add up to the energy of the hits inside the map; the first blob has at least the energy of the second, blobs are made of hits of the track within the blob radius, the overlap is the energy of the common hits (rows all different). The call succeeds for all such hits. With more hits than max_num_hits all hits are returned without track and the flag is set. make_event_summary gives no row without hits, and otherwise the number of hits and tracks, total energy, limits and averages within the limits. (Found: when no hit has positive energy the hits outside the map are dropped from the output; hits of zero energy alone in a voxel are dropped; repeated rows inflate the overlap; one hit without Ec makes the averages of the summary NaN; energies adding up to zero raise ZeroDivisionError.)", "quantifier": "every hit collection, every distance table and every parameters with positive voxel sizes", "why_tests_cant": "Partition and conservation through voxelisation, a while loop that drops voxels and connected components, for all hits.", "anchors": ["invisible_cities/cities/components.py: track_blob_info_creator_extractor, make_event_summary, sort_hits", "invisible_cities/reco/paolina_functions.py: get_track_energy, round_hits_positions_in_place, drop_end_point_voxels"]}
{"id": "C51", "title": "Waveforms are written in the row of their sensor", "statement": "sensor_order returns, for each plane, one row per sensor of the database in the order of the database: the waveform of that sensor (converted to integers) if the sensor is in the response and zeros otherwise, given that database and response are sorted by sensor id, which the binning guarantees for the response.", "quantifier": "every database, set of responding sensors and waveforms", "why_tests_cant": "For-all over databases and responses.", "anchors": ["invisible_cities/detsim/sensor_utils.py: sensor_order", "invisible_cities/detsim/buffer_functions.py: bin_sensors"]}
{"id": "C52", "title": "Binning the sensor response conserves charge", "statement": "bin_sensors returns bins that are multiples of the width covering from t_min to min(t_max, t_min+max_buffer); sample k of a sensor is the sum of its charges with time in bin k; the waveform adds up to all the charge in the range covered; with the times given by first_and_last_times and no cut by max_buffer no charge is lost; one waveform per sensor with signal sorted by id.", "quantifier": "every response, bin width > 0, time range", "why_tests_cant": "For-all over responses and widths.", "anchors": ["invisible_cities/detsim/buffer_functions.py: bin_sensors, weighted_histogram", "invisible_cities/detsim/sensor_utils.py: first_and_last_times"]}
{"id": "C53", "title": "The hits of an event are those of its selected S2s", "statement": "The hit builder of sophronia (sipms_as_hits) gives, for each S2 accepted by the selector and in order, the hits of each slice of the rebinned S2: one per SiPM with charge at or above the threshold, at the position of the SiPM in the database, or one hit without position when there is none; npeak is the position of the S2 in the PMap and z is drift velocity times the time since the first selected S1 (or since the start of the first selected S2 when no S1 is selected). The hits of an S2 add up to the energy seen by the PMTs in that S2, and no hit belongs to a rejected S2.", "quantifier": "every PMap, selector output, rebinning, charge function, threshold > 0 and reconstruction algorithm", "why_tests_cant": "For-all over events; conservation through rebinning and sharing.", "anchors": ["invisible_cities/cities/components.py: sipms_as_hits, get_s1_time, try_global_reco", "invisible_cities/reco/pmaps_functions.py: rebin_peak", "invisible_cities/reco/hits_functions.py: sipms_above_threshold"]}
{"id": "C54", "title": "Calibration of waveforms", "statement": "subtract_baseline leaves zero samples at zero and subtracts from the others the mean, median or mode of the non-zero (mode: positive) samples, so that with the mean each waveform adds up to zero; the mode is the smallest of the most frequent positive values; calibrate_wfs divides by the gain and gives zeros for sensors with gain <= 0, and refuses a number of gains that is neither one nor that of the sensors; calibrate_pmts gives the calibrated waveforms, the ones restricted to samples at least thr_maw above the moving average of the last n_maw samples, and their sums over sensors.", "quantifier": "every set of waveforms, gains, baseline mode, moving average length and threshold", "why_tests_cant": "For-all over waveforms and gains.", "anchors": ["invisible_cities/calib/calib_sensors_functions.py: subtract_baseline, mode, means, medians, calibrate_wfs, calibrate_pmts, pmt_subtract_maw, sipm_processing"]}
{"id": "C55", "title": "Every event is accounted for in the production of PMaps", "statement": "For a run of irene (and of any city that uses compute_and_write_pmaps) in which no user function raises: each event of the event range has exactly one row in the filter of S1/S2 indices, in input order, with passed = both index sets are non-empty; the events that pass have one row in the filter of empty PMaps, with passed = the PMap has an S1 or an S2; a PMap, a row of Run/events and a row of the trigger tables are written exactly for the events that pass both, in the same order and under the same event number; the counters (events in, over threshold, full PMap, events out) are the numbers of these events; nothing is written for an event that fails.", "quantifier": "every list of events, event range, waveform functions, calibration (or none), peak search, and continuation of the pipe", "why_tests_cant": "For-all over event sequences and over the outcomes of the user functions.", "anchors": ["invisible_cities/cities/components.py: compute_and_write_pmaps, check_nonempty_indices, check_empty_pmap", "invisible_cities/cities/irene.py: irene"]}
{"id": "C56", "title": "The sources give every event of every file, once and in order", "statement": "The sources of the cities give, file after file and in order, exactly one item per event of each complete file, with that event's own data (waveforms, trigger, PMap, hits, kdst rows, sensor responses), number, timestamp and run number. Files that lack a node are skipped without stopping the others; files whose tables have different numbers of events raise InvalidInputFileStructure before any of their events. For hits, deconvolved hits and MC hits, every row of a file is in exactly one item when Run/events lists the events once. (True preconditions found: a file with events but without the PMAPS group is not skipped but raises NoSuchNodeError; hits of events absent from Run/events are lost silently; a deconvolved event absent from Run/events raises IndexError.)", "quantifier": "every list of files, with any of the nodes missing and any number of rows", "why_tests_cant": "For-all over file lists and contents.", "anchors": ["invisible_cities/cities/components.py: wf_from_files, pmap_from_files, hits_and_kdst_from_files, dst_from_files, MC_hits_from_files, dhits_from_files, mcsensors_from_file, check_lengths, length_of, get_run_number"]}
{"id": "C57", "title": "The deconvolution keeps the energy of each peak and its satellite killer leaves no satellite", "statement": "Each deconvolved hit is a pixel above the cut of the image of one slice of one peak, at that pixel's position, with the z of the slice and the number of the peak; the energies of the hits of a peak add up to the energy of the peak's hits (up to the rounding to six decimals), whenever a pixel of the peak passes the cut. richardson_lucy starts from a uniform image, applies at each step the formula of the update and the removal of satellites, stops at the first converged iterate or at the requested number of iterations, gives no negative pixel from non negative input, conserves at each update the charge of the pixels reached by the blurred iterate (odd-sided response functions), and a pixel set to zero stays zero. A pixel is masked as a satellite exactly when it passes the cut, its 8-connected region has fewer pixels than the maximum and there is more than one region; after the removal (absolute positive cut) no region smaller than the maximum is left. find_nearest returns the first element at the smallest distance.", "quantifier": "every event, image, response function, cut, number of iterations and threshold; every deconvolution of a slice", "why_tests_cant": "Conservation over all images and iterations and statements about connected regions.", "anchors": ["invisible_cities/reco/deconv_functions.py: generate_satellite_mask, collect_component_sizes, richardson_lucy, find_nearest", "invisible_cities/cities/beersheba.py: deconvolve_signal (apply_deconvolution), create_deconvolution_df, distribute_energy"]}
{"id": "C58", "title": "S1 waveforms hold the scintillation of the hits inside the buffer", "statement": "With a buffer of a whole number of bins, bin b of the S1 waveform of a PMT holds, for every hit of the buffer in an earlier or the same bin a, its photoelectrons times the fraction of the scintillation after b-a bins; hits outside the buffer give nothing, and the total per hit is its photoelectrons times the part of the scintillation that fits before the end of the buffer.", "quantifier": "every set of hits and weights, time distribution, buffer and bin width", "why_tests_cant": "Boundary handling for every hit time and every buffer.", "anchors": ["invisible_cities/detsim/detsim_waveforms.py: generate_s1_waveform", "invisible_cities/detsim/simulate_s1.py: compute_s1_pes_at_pmts"]}
{"id": "C59", "title": "Ionization electrons: numbers and provenance", "statement": "For any random draws, the simulation gives one electron per electron of a hit that survives the drift (never more than were created), in the order of the hits; each is displaced from its own hit by its own draw scaled with the diffusion of the drift of that hit (hits behind the EL plane count as z = 0), and arrives at the time of the hit plus its own drift time. Without diffusion it arrives exactly under the hit.", "quantifier": "every list of hits and every outcome of the random generators", "why_tests_cant": "All outcomes of the random generators and all hits.", "anchors": ["invisible_cities/detsim/simulate_electrons.py: generate_ionization_electrons, drift_electrons, diffuse_electrons", "invisible_cities/cities/detsim.py: ielectron_simulator"]}
{"id": "C60", "title": "Light tables give the values of the right entry", "statement": "The light table of the SiPMs gives, for every position inside the active radius, the row whose bin of distances contains the distance to the sensor, and no light beyond the last row, outside the active radius or for unknown sensors; that of the PMTs the value of the table point nearest to the centre of the bin of the position; the function built from a table the values of the point with the nearest coordinates, and zero outside the active radius or the z range. The look-up never fails for regular tables.", "quantifier": "every table, position and sensor", "why_tests_cant": "All positions, including the boundaries of the bins and of the active region.", "anchors": ["invisible_cities/detsim/light_tables_c.pyx: LT_SiPM, LT_PMT", "invisible_cities/detsim/light_tables.py: create_lighttable_function"]}
{"id": "C61", "title": "Monte Carlo information of the selected events is copied", "statement": "When a city copies the Monte Carlo information of the events it selected from its input files, the tables of hits, particles, sensor response and generators of the output have exactly the rows of the simulated events that correspond to the selected ones (through the event map when there is one), in the order of the files and rows, after what the output already had, each once; and if some selected event is in no input file MCEventNotFound is raised.", "quantifier": "every list of input files, output content and list of selected events", "why_tests_cant": "All combinations of files, event maps and selections.", "anchors": ["invisible_cities/cities/components.py: copy_mc_info", "invisible_cities/io/mcinfo_io.py: copy_mc_info, read_mc_tables, write_mctables, safe_copy_nexus_eventmap, get_event_numbers_in_file"]}
{"id": "C62", "title": "Merged configurations stay linked to their events", "statement": "In an output that merges several simulation files, each event of the mapping table points (through file_index) to the configuration of the file the event came from, and different source files have different indices.", "quantifier": "every list of input files (merged or not) and selection of events", "why_tests_cant": "All histories of merges.", "anchors": ["invisible_cities/io/mcinfo_io.py: write_mctables, check_last_merge_index, copy_mc_info", "invisible_cities/cities/components.py: copy_mc_info"]}
{"id": "C63", "title": "Rows of old simulation files belong to the right event", "statement": "Reading a file of the format previous to 2020, each row of hits, particles or sensor data is given exactly once, with the event whose extent contains the row; tables and extents that do not match are refused; reading the hits event by event gives for every event the rows of its extent.", "quantifier": "every table and every non-decreasing list of extents", "why_tests_cant": "All extents, including those of events without rows.", "anchors": ["invisible_cities/io/mcinfo_io.py: load_mchits_dfold, load_mcparticles_dfold, load_mcsensors_dfold, read_mcinfo_evt, _read_mchit_info"]}
{"id": "C64", "title": "The dictionary of Monte Carlo hits has every hit of each event", "statement": "The dictionary made from the dataframe of Monte Carlo hits has, for each event, all its hits.", "quantifier": "every dataframe of hits", "why_tests_cant": "All repetitions of hit numbers among the particles of an event.", "anchors": ["invisible_cities/io/mcinfo_io.py: cast_mchits_to_dict"]}
{"id": "C65", "title": "Times of the simulated sensor response", "statement": "Converting the bins of the sensor response into times keeps every row of a sensor with a position, in order, with its charge and with the time bin times the width given in the configuration for the type of the sensor; the type is the name of the parameter without the suffix _binning.", "quantifier": "every response, table of positions and configuration", "why_tests_cant": "All names of sensors and all configurations.", "anchors": ["invisible_cities/io/mcinfo_io.py: convert_timebin_to_time, get_sensor_binning"]}
{"id": "C66", "title": "dorothea and sophronia account for every event", "statement": "For a run of dorothea or sophronia in which no function raises: Filters/s12_selector has exactly one row, (event number, decision), for every event of the event range, in the order of the source; DST/Events, Run/events and evtnum_list have exactly the events whose decision is True; events_in and events_out and the selection counts are the lengths of these tables. In sophronia Filters/valid_hit has one row for every selected event and RECO/Events has the hits (merged, corrected, clustered, in this order) of exactly the selected events with at least one hit that is not NN: an event without valid hits stays in DST/Events, Run/events and evtnum_list.", "quantifier": "for all finite sources of events, event ranges (start, stop, step) and all (total) functions of selection, reconstruction, corrections and clustering", "why_tests_cant": "A test runs a couple of files with one configuration; that no event is lost or counted twice must hold for any source, range and outcome of the selections.", "anchors": ["invisible_cities/cities/dorothea.py:dorothea", "invisible_cities/cities/sophronia.py:sophronia", "invisible_cities/dataflow/dataflow.py:push"]}
{"id": "C67", "title": "beersheba accounts for every event", "statement": "For a run of beersheba in which no function raises: CHITS/lowTh receives the corrected hits above threshold of every event of the range; Filters/nohits has one row for every event of the range, True when hits are left after the charge cut and the removal of isolated sensors; DECO/Events, Run/events and evtnum_list have exactly the events with True, in the order of the source; DST/Events has the kdst of exactly those of them that have one; events_in, events_out and events_pass agree with the tables.", "quantifier": "for all finite sources of events, event ranges and all (total) correction, threshold, cut and deconvolution functions", "why_tests_cant": "Tests compare the output of a small file with a reference; the accounting must hold whatever the events and cuts.", "anchors": ["invisible_cities/cities/beersheba.py:beersheba"]}
{"id": "C68", "title": "esmeralda and isaura account for every event", "statement": "For a run of esmeralda or isaura in which no function raises: every event of the range is in Run/events, in evtnum_list and in the table of the filter of hits (high_th_select or hits_select); Summary/Events, the written hits and Filters/topology_select have exactly the events with hits; Tracking/Tracks exactly those that also have tracks; events_in = events_out = number of events of the range. isaura writes the kdst of the events that have one, esmeralda hands the kdst of every event to the writer.", "quantifier": "for all finite sources of events, event ranges and all (total) functions of hits and tracks", "why_tests_cant": "Tests run fixed files; the accounting must hold for every combination of events without hits, without tracks or without kdst.", "anchors": ["invisible_cities/cities/esmeralda.py:esmeralda", "invisible_cities/cities/isaura.py:isaura", "invisible_cities/cities/components.py:compute_and_write_tracks_info"]}
{"id": "C69", "title": "detsim and buffy account for every event", "statement": "For a run of detsim or buffy in which no function raises: the first filter table (active_hits, detected_events) has one row for every event of the range; each next filter table (dark_events, signal) has one row for every event that passed the previous filters; the buffers are written for, and evtnum_list has, exactly the events that pass all filters, in the order of the source, with the times and the buffers of that event (in buffy those ordered by sensor); the counters agree with the tables.", "quantifier": "for all finite sources of events, event ranges and all (total) simulation functions", "why_tests_cant": "Tests run small files in which most filters never fire.", "anchors": ["invisible_cities/cities/detsim.py:detsim", "invisible_cities/cities/buffy.py:buffy", "invisible_cities/cities/components.py:calculate_and_save_buffers"]}
{"id": "C70", "title": "diomira and isidora account for every event", "statement": "For a run of diomira in which no function raises: Filters/trigger has one row for every event of the range; RD/pmtrwf, RD/pmtblr, RD/sipmrwf, Run/events and evtnum_list have exactly the triggered events in the order of the source, so that row k of each is the same event; the counters agree. isidora writes every event of the range to BLR/pmtcwf, BLR/sipmrwf, Run/events and evtnum_list, in order.", "quantifier": "for all finite sources of events, event ranges, trigger decisions and (total) simulation functions", "why_tests_cant": "The alignment of the waveform tables with Run/events is by row number and must hold for every pattern of triggers.", "anchors": ["invisible_cities/cities/diomira.py:diomira", "invisible_cities/cities/isidora.py:isidora"]}
{"id": "C71", "title": "Calibration histograms are sums over the events of the range", "statement": "For a run of phyllis, trude or berenice in which no function raises, each histogram written is the sum, over exactly the events of the range, of the histograms of the processed waveforms of the event (light and dark integrals of the processed waveforms; raw, mode-calibrated and median-calibrated waveforms), the accumulators being independent of each other; Run/events has the events of the range and events_in their number.", "quantifier": "for all finite sources of events, event ranges, bins and (total) processing functions", "why_tests_cant": "Tests compare one file with a reference; that no event is dropped, repeated or added to another histogram must hold for all runs.", "anchors": ["invisible_cities/cities/phyllis.py:phyllis", "invisible_cities/cities/trude.py:trude", "invisible_cities/cities/berenice.py:berenice", "invisible_cities/dataflow/dataflow.py:reduce"]}
{"id": "C72", "title": "Accumulated point spread functions are weighted averages", "statement": "The table of eutropia has exactly one row for each bin of relative position and for each slice in z and sector in x, y with hits; the row has the number of points of all the files and events that fall in the bin (closed on the left; the last bin also on the right), slice and sector, and the average of their normalized charges (0 without points), whatever the division of the hits in files and their order; each hit between the first and last limits of z belongs to exactly one slice and each peak in the area to exactly one sector. Preconditions: equal numbers of bins in x and y (otherwise ValueError) and no peak without charge (its NaN zeroes the bins of its file and sector). Sectors whose centres round to the same hundredths are merged.", "quantifier": "every list of files of hits, limits of slices and sectors, ranges and bin size", "why_tests_cant": "The accumulation must not depend on how the data are distributed in files, slices and sectors: all partitions and orders.", "anchors": ["invisible_cities/cities/eutropia.py: eutropia, z_splitter, xy_splitter, df_builder, combine_psfs", "invisible_cities/reco/psf_functions.py: create_psf"]}
{"id": "C73", "title": "Hits prepared for the point spread function", "statement": "Each peak (event, time, npeak) is prepared independently: it has one row for each position with a hit and one for each sensor of the database in the rectangle around the peak at the lowest z of the peak, without repetitions; the charge is that of the hit or 0; the normalized charge is the fraction of the charge of the peak and adds up to 1; all rows have the position of the peak. Preconditions: all the hits of the peak have the same peak position, no two hits have the same X, Y and Z (the charge of the second one would be lost) and the total charge is not 0 (all would be NaN). A sensor with signal above the lowest z gets a second row without charge.", "quantifier": "every table of hits, database of sensors and range", "why_tests_cant": "All positions of hits relative to sensors, orders of rows and groups.", "anchors": ["invisible_cities/reco/psf_functions.py: add_empty_sensors_and_normalize_q, hdst_psf_processing"]}
{"id": "C74", "title": "Krypton maps have every bin, with the fit of its events", "statement": "compute_3D_map gives exactly one row for each bin (k, i, j), in the order of the indices, with the coordinates of the centre of the bin and the result of the fit function on the energies of the events of the bin (closed on the left), in their order, or NaN without events; each event inside the ranges is counted in exactly one bin; the regularization only changes the values that are NaN, are not in the border and have, when visited row by row, at most three NaN neighbours, which become the average of the other neighbours. In pandas 3 (the version of manage.sh) the values are read-only and any NaN that should be filled makes compute_3D_map raise ValueError. The result of the regularization depends on the order of the visits: a map and its mirror image are filled differently.", "quantifier": "every table of events, ranges, numbers of bins and fit function; every map with NaNs", "why_tests_cant": "All distributions of events and NaNs over the bins; regularization is a sequential update in place.", "anchors": ["invisible_cities/icaros/krmap_functions.py: create_empty_map, fit_map, merge_maps, include_coordinates, regularize_map, compute_3D_map, get_median, gaussian_fit"]}
{"id": "C75", "title": "Application of krypton maps", "statement": "With a unit of energy, apply_3Dmap gives for each point its energy divided by the energy of the nearest bin of the map that is not NaN (in drift time, x and y, at any distance) times 41.55 keV, whatever the normalization method, provided that the normalization is finite and not 0 and no bin is 0; without a unit, the energy times the normalization over the energy of that bin. The normalization is the maximum, mean or median of the valid bins of the chamber, the anode slice or a half-open region of them; region methods without limits raise TypeError; a normalization that is NaN (no valid bins) or 0 makes all the energies NaN. The corrector of hits keeps order, positions and energies, uses the Z before its conversion, and multiplies Z by the median drift velocity if asked; against its documentation it modifies its input, and with temporal correction it always fails (AttributeError).", "quantifier": "every map, method, region, unit, list of points and nearest neighbour search that meets its contract", "why_tests_cant": "All maps with NaNs and ties between bins; independence of the method of normalization is universal.", "anchors": ["invisible_cities/icaros/correction_functions.py: normalization, apply_3Dmap, apply_correctionmap_inplace_hits", "invisible_cities/cities/components.py: hits_corrector"]}
{"id": "C76", "title": "Selection of krypton events", "statement": "apply_selections gives, in their order, the rows that are inside the diffusion band, the range of corrected energy and the trigger time window, are the only row of their event that is, and are inside the radius, the drift time range and the range of SiPMs (all ranges closed below and open above; NaN is outside); so each event appears at most once. Each efficiency is the fraction of the different events that enter its cut and pass it, all are between 0 and 1, and their product is the total one. If no row is left before the last cut it raises ZeroDivisionError. Precondition: no time is NaN (a row without time is not counted, and two rows of an event could be selected).", "quantifier": "every table and limits", "why_tests_cant": "All combinations of rows per event and of failed cuts.", "anchors": ["invisible_cities/icaros/selection_functions.py: eff_of_selection, select_var_inrange, select_1S1_1S2, apply_selections"]}
{"id": "C77", "title": "Time evolution by slices", "statement": "get_time_evol splits the events in consecutive slices of slice_hours (closed on the left) counted from the first event and gives one row for each slice with events, in order of time; each event is analysed in exactly one slice, with the rows in their order. The row has the time of the first event of the slice, the number of different events, the rate (events over the time between the first and the last, not finite if it is null) and the averages of the S2 energy (all rows) and of the S1 energy (rows with drift time in its range). If the rows of an event have the same time, the numbers of events add up to the total. Without rows it raises ValueError, with a null duration ZeroDivisionError. select_lifetime_region keeps the rows inside a square (closed on the left) or a circle (closed), and drops those without a position.", "quantifier": "every table of events, duration of slices, region", "why_tests_cant": "All distributions of times relative to the limits of the slices.", "anchors": ["invisible_cities/icaros/krmap_functions.py: get_time_evol, get_time_evol_single_slice", "invisible_cities/icaros/lifetime_vdrift_functions.py: select_lifetime_region"]}
{"id": "C78", "title": "Corrections with maps", "statement": "The coefficient of a position is that of its bin (closed on the left) and NaN outside of the map. The correction factor of a hit is the normalization over the coefficient of the bin, times the exponential of z over the lifetime of the bin, each coefficient multiplied by its time evolution: the linear interpolation (constant outside) of the parameter over its average weighted with the inverse of the uncertainties, which is 1 if the parameter is constant; it is NaN outside of any of the maps. The factors of the strategies max, mean, median and region do not depend on the units of the map. The region is that of the bins with centre in a rectangle or circle; it raises ValueError without options or, for circles and rectangles without rows, without bins, but a rectangle with rows and no columns, or with a NaN bin, silently gives NaN. The custom strategy without a value raises ValueError; time corrections without table raise TimeEvolutionTableMissing.", "quantifier": "every map, strategy, options, time evolution and list of hits", "why_tests_cant": "All positions relative to the bins, maps with NaNs, times relative to the table; invariance under scaling.", "anchors": ["invisible_cities/reco/corrections.py: maps_coefficient_getter, time_coefs_corr, get_normalization_factor, apply_all_correction_single_maps, get_df_to_z_converter"]}
{"id": "C79", "title": "Profiles", "statement": "profileX gives, for each bin (closed on the left) of the given range in x that has points with y in its range, in order, the centre of the bin and the average of y in it, with the deviation of the values (std) or of the average, NaN with only one value; with drop_nan=False the other bins are also given, with NaN. Each selected point is in exactly one bin. profileY is profileX of the reflected points. profileXY gives the same for each bin of a grid, with 0 in the empty bins and for the deviation of a single value, and raises ValueError if no point is selected. Without a range in x, that between the minimum and the maximum of x is used (open above, so that the points at the maximum are left out).", "quantifier": "every set of points, number of bins, ranges and options", "why_tests_cant": "the points and the bins are arbitrary and the values on the borders of a bin matter", "anchors": ["invisible_cities/core/fit_functions.py: profileX, profileY, profileXY"]}
{"id": "C80", "title": "Functions with fixed parameters", "statement": "fixed_parameters(fn, name=value, ...) raises ValueError unless at least one name is given, all the names are parameters of fn (not its first argument) with values other than NaN, and some parameter is left free. The function it returns has as arguments the first one and the free parameters, in order; called with one value for each free parameter it is fn called with the fixed parameters in their values and the k-th free one in the k-th value, whatever the previous calls (also failed ones). Called with a single value it is copied to all the free parameters; with any other number of values it raises ValueError. Fixing more parameters of the result is the same as fixing all at once.", "quantifier": "every function, set of fixed parameters and history of calls", "why_tests_cant": "the wrapper keeps mutable state between calls, so that all the histories matter", "anchors": ["invisible_cities/core/fit_functions.py: fixed_parameters"]}
{"id": "C81", "title": "Range and quality of a fit", "statement": "fit in a range is the fit of the points whose x is in the range (closed on the left): the others, and their uncertainties, have no effect. It raises ValueError before minimizing if and only if uncertainties are given and one of those in the range is not positive. The values and the covariance are those of the minimization of these points, the errors are the roots of the diagonal of the covariance, and the reduced chi-squared is the sum of squared residuals over squared uncertainties (1 if not given) over the number of points in the range minus the number of parameters; it is not negative and is 0 exactly if the function passes by all the points, if there are more points than parameters.", "quantifier": "every set of points, range and minimizer", "why_tests_cant": "the data and the result of the minimizer are arbitrary", "anchors": ["invisible_cities/core/fit_functions.py: fit, get_errors, get_chi2_and_pvalue"]}
{"id": "C82", "title": "Tables of sensors", "statement": "DataPMT has a row for each sensor below 100 whose position (named PMT...) and channel are valid for the run, and DataSiPM one for each sensor above 100 whose position, channel and gain are, in the order of the sensors, if at most one row of each table is valid for each sensor or channel. The position, the channel, the gain (in absolute value for the PMTs; 0 if there is none), the noise and the coefficients are those valid for the run, and Active is 0 exactly if a mask is valid for the sensor. If all the sigmas of the SiPMs are unknown, or all are 0, they are 2.24. The sign of the run is ignored and the run 0 is the run 3012.", "quantifier": "every contents of the database and run", "why_tests_cant": "the contents of the database are arbitrary: overlapping runs, missing rows and unknown values", "anchors": ["invisible_cities/database/load_db.py: DataPMT, DataSiPM"]}
{"id": "C83", "title": "Noise of the SiPMs", "statement": "If for the run each sensor with a baseline has one probability for each energy bin, and no other sensor has any, SiPMNoise gives the energies in order, the baselines in the order of the sensors, and the matrix of probabilities of each sensor and bin in the same orders, whatever the order of the rows. If the number of probabilities is not that of baselines times that of bins it raises ValueError. (If only the numbers agree, the noise of a sensor is silently given to another; the run 0 is not replaced.)", "quantifier": "every contents of the database and run", "why_tests_cant": "the order and the completeness of the tables are arbitrary", "anchors": ["invisible_cities/database/load_db.py: SiPMNoise"]}
{"id": "C84", "title": "Versions of the radioactivity data", "statement": "RadioactivityData(version) gives, for each volume and isotope with some version not above the one asked, exactly one entry with the value of the largest of these versions, for the activities and for the efficiencies; by default the version is the largest one of the activities (also for the efficiencies).", "quantifier": "every contents of the tables and version", "why_tests_cant": "the histories of versions are arbitrary", "anchors": ["invisible_cities/database/load_db.py: RadioactivityData"]}
{"id": "C85", "title": "Restoration of the baseline of a waveform", "statement": "deconvolve_signal gives as many samples as it takes (at least 400 are needed: IndexError). The first is that of the waveform after the cleaning high-pass filter y, the others are (1 + c/2) y[n] plus c times an accumulator, which adds the samples and is discharged (it decays by 1 - c, and is emptied when it is not above 1) when the sample is below thr_trigger times the rms of the first 400 samples and the accumulator is below thr_trigger / c. So a sample depends only on the ones up to it and the first 400. If the waveform is a signal that starts at zero seen through an AC coupling with constant c/2, the result is exactly that signal (after the cleaning filter) as long as the accumulator is not discharged. After the signal, if the accumulator is below its threshold and the waveform stays below the trigger, the baseline is restored in a number of samples that depends only on the parameters.", "quantifier": "every waveform, coefficients and thresholds", "why_tests_cant": "exact inversion for every signal and time, and the behaviour of a recursive filter with discharge", "anchors": ["invisible_cities/sierpe/blr.pyx: deconvolve_signal"]}
{"id": "C86", "title": "Restoration of the baselines of the PMTs", "statement": "deconv_pmt wants one waveform for each PMT used (the active ones, or all of them without mask; AssertionError otherwise) and its i-th result is the restoration, with the coefficients of the i-th of these PMTs and the default threshold, of the pedestal of the i-th waveform (the mean of its samples different from zero among the first n_baseline) minus it. So an offset in the waveforms has no effect if no sample of the baseline is zero with or without it. cwf_from_rwf does the same for each of the events asked, in their order.", "quantifier": "every table of PMTs, waveforms and n_baseline", "why_tests_cant": "the correspondence between waveforms and coefficients must hold for every mask", "anchors": ["invisible_cities/cities/components.py: deconv_pmt", "invisible_cities/reco/wfm_functions.py: cwf_from_rwf"]}
{"id": "C87", "title": "The trigger looks at its own channels", "statement": "emulate_trigger gives, for each channel of the trigger, under the index of its PMT, the peaks found in the restored waveform of that PMT; a channel that is masked or does not exist is a ValueError.", "quantifier": "every table of PMTs, choice of trigger channels and waveforms", "why_tests_cant": "all choices of channels and masks", "anchors": ["invisible_cities/cities/diomira.py: emulate_trigger"]}
{"id": "C88", "title": "Pulses and filters of the electronics", "statement": "The pulse of a photoelectron (SPE) with slope and flat top of whole numbers of nanoseconds has area pmt_gain times the charge of the electron. spe_pulse is that pulse displaced to t0; spe_pulse_from_vector has the length of the vector and is the sum of the pulses of the photoelectrons, times norm, except those in the last samples (as many as the length of the pulse minus one), which give no signal. The filters are the response of their difference equation (the only one): linear, causal and with delays respected; the product of the coefficients of two filters is their cascade, so that signal_v_fee is A2 times the two low-pass filters, one after the other, of ZC times the low frequencies plus A1 times the high frequencies of the signal plus noise (low and high frequencies add up to the signal), signal_v_lpf is GAIN times the two low-pass filters, and signal_clean is the cleaning filter of deconvolve_signal.", "quantifier": "every signal, parameters of the electronics, coefficients of the low-pass filter of order 4 and noise", "why_tests_cant": "identities between recursive filters for all signals", "anchors": ["invisible_cities/sierpe/fee.py: SPE, spe_pulse, spe_pulse_train, spe_pulse_from_vector, filter_fee, filter_sfee_lpf, signal_v_fee, signal_v_lpf, signal_clean"]}
{"id": "C89", "title": "Simulated waveforms of the PMTs", "statement": "simulate_pmt_response gives for each PMT, from its own photoelectrons, conversion, resolution, electronics and noise, a raw waveform that is the offset minus the signal of the electronics in ADC counts and the noise, plus the low frequency noise, and a waveform without coupling nor noise; the low frequency noise must have the length of the waveform (ValueError).", "quantifier": "every photoelectron counts, constants and values drawn at random", "why_tests_cant": "one PMT after another, for any numbers drawn", "anchors": ["invisible_cities/detsim/sensor_functions.py: simulate_pmt_response"]}
{"id": "C90", "title": "Low frequency noise", "statement": "low_frequency_noise gives for each PMT the noise of the box of its sensor (IndexError if it has none), so that the PMTs in a box have the same noise: the sum over the frequencies of oscillations with the magnitudes drawn for that box, the frequencies being common to the boxes and each phase used once. The frequencies are drawn in intervals with the width of the first step around those of the table valid for the run; with fewer than two frequencies it is an IndexError.", "quantifier": "every table of boxes and frequencies and values drawn at random", "why_tests_cant": "the pairing of flattened arrays must hold for every number of boxes and frequencies", "anchors": ["invisible_cities/sierpe/low_frequency_noise.py: low_frequency_noise, buffer_and_limits, frequency_contribution", "invisible_cities/database/load_db.py: PMTLowFrequencyNoise"]}
{"id": "C91", "title": "Reading hits", "statement": "hits_from_df (and load_hits, load_hits_skipping_NN) gives one entry per event that has hits, in increasing order of the events. If all the rows of an event have the same time, its hits are all its rows in order (without those with charge NN, on request), each with the values of its row: Q is E in tables without charge, Xpeak and Ypeak are -1000, Ec, track_id and Ep are -1 and the time is -1 if there are no such columns, Qc is 0, and an energy NN is replaced by the charge. In general only the hits of the largest time of the event that has hits are read, and rows whose time is NaN are not read (finding).", "quantifier": "every table of hits, with any of the optional columns and any mixture of events and times", "why_tests_cant": "rows of the events can be interleaved in any way; the groups overwrite each other", "anchors": ["invisible_cities/io/hits_io.py: hits_from_df, load_hits, load_hits_skipping_NN", "invisible_cities/evm/event_model.py: Cluster, Hit, HitCollection"]}
{"id": "C92", "title": "Files of hits are a round trip", "statement": "Hits stored with HitCollection.store for events with different numbers are read back by load_hits: each event with hits, with its time and its hits in order with the same positions, charge, energies and peak number (65535 if larger). Events without hits are not in the file; Qc, the track number and Ep are lost (read as 0, 0 and -1).", "quantifier": "every sequence of collections of hits with different events", "why_tests_cant": "for all sequences of stored collections", "anchors": ["invisible_cities/evm/event_model.py: HitCollection.store", "invisible_cities/evm/nh5.py: HitsTable", "invisible_cities/io/hits_io.py: load_hits"]}
{"id": "C93", "title": "Files of voxels and tracks", "statement": "Whatever the sequence of calls to the writer of true_voxels_writer, load_voxels gives for each event all the voxels written for it, in order, and no event without voxels; the energy of the collections read is always zero (finding). TrackCollection.store appends one row per voxel of each track in order, with the number of the voxel and its values; event, time and track number are right only in the row of the first voxel of each track, and zeros in the others (finding).", "quantifier": "every sequence of writes, events repeated or not, and every collection of tracks", "why_tests_cant": "all histories of writes", "anchors": ["invisible_cities/io/voxels_io.py: true_voxels_writer, load_voxels", "invisible_cities/evm/event_model.py: Voxel, VoxelCollection, TrackCollection.store"]}
{"id": "C94", "title": "Parameters of the sensors are read as they were stored", "statement": "The table of channel_param_writer has the columns SensorID, the parameters in their order and the covariance if asked. After any sequence of calls of the writers of a file, with errors or not, each table has one row per accepted call of its own writer, in order, with the sensor and the values given; a call with an unknown parameter is a KeyError and adds no row; a parameter not given is zero unless an earlier call failed (then it can take the value of the failed call: finding). all_channel_value_reader, subset_param_reader and generator_param_reader give for each row the sensor and the value and error of each parameter; single_channel_value_reader those of the only row of the sensor, and exits if there is none or several. A file without the table makes the readers exit; a table that exists cannot be created again. With a covariance generator_param_reader gives rows of the matrix as its value and error, or IndexError if it has one row (finding).", "quantifier": "every sequence of calls of the writers, including failed ones, and every set of parameters", "why_tests_cant": "state left by failed calls, all histories", "anchors": ["invisible_cities/io/channel_param_io.py: create_param_table, store_fit_values, make_table_dictionary, channel_param_writer, basic_param_reader, generator_param_reader, subset_param_reader, all_channel_value_reader, single_channel_value_reader, parameters_and_errors"]}
{"id": "C95", "title": "Spectra of single photons", "statement": "number_of_gaussians gives the first number of photons whose gaussian has area not above the minimum, with the areas before it; it ends for a positive minimum, never for a negative one, and if the area without photons exceeds the minimum it counts exactly the gaussians that exceed it (otherwise it is 0 although others may exceed it: finding). poisson_scaled_gaussians requires exactly one of n_gaussians and min_integral (ValueError) and gives at each energy the sum, from the first gaussian on, of the Poisson areas times the gaussians centred at the pedestal plus the gain for each photon, with the variances added, and no light at negative energies except for the pedestal; without gaussians it is the number 0. scaled_dark_pedestal is the dark spectrum with the probability of no photons plus the gaussians from one photon. The number of gaussians used is reported.", "quantifier": "every set of parameters and energies", "why_tests_cant": "an infinite search; sums of any number of gaussians", "anchors": ["invisible_cities/calib/spe_response.py: number_of_gaussians, suppress_negative_energy_contribution, set_n_gaussians, poisson_scaled_gaussians, scaled_dark_pedestal", "invisible_cities/core/stat_functions.py: poisson_factor"]}
{"id": "C96", "title": "Spectra by convolution of the dark spectrum", "statement": "get_padding makes as many bins not above zero as above zero. dark_convolution gives at each bin the dark spectrum with the probability of no photons plus, for each number of photons counted by number_of_gaussians, its area times the normalised dark spectrum convolved that many times with the spectrum of one photon, where distances are counted in bins from the last bin not above zero and each convolution keeps only the padded range; with equally spaced bins, one of them centred at zero, those distances are the energies. If zero is not the centre of a bin the spectra are shifted (finding).", "quantifier": "every binning, dark spectrum and parameters, any number of photons", "why_tests_cant": "alignment of repeated truncated convolutions for every length", "anchors": ["invisible_cities/calib/spe_response.py: get_padding, dark_convolution"]}
{"id": "C97", "title": "Clusters of hits", "statement": "hits_clusterizer labels the hits of each event alone: dense hits (with at least min_samples hits, itself included, at a distance not larger than 1.8 in units of scale_xy and scale_z) have the same label exactly when a chain of close dense hits joins them; any other hit near a dense one has the label of the first such cluster; the rest have -1; the labels are 0, 1, 2... by the first dense hit of each cluster. Every hit is in the result once; hits given by increasing event keep their place and index. Numbers of samples below 1 or null scales are a ValueError.", "quantifier": "all tables of hits of any number of events, all positions, scales and numbers of samples", "why_tests_cant": "Connectivity over arbitrary chains of hits and the interplay of several events cannot be exhausted by examples", "anchors": ["invisible_cities/reco/hits_functions.py: tag_hits_in_event, cluster_tagger", "invisible_cities/cities/components.py: hits_clusterizer"]}
{"id": "C98", "title": "The input of the deconvolution", "statement": "deconvolution_input keeps the charge: with interpolation, every hit is in one box of an array of boxes of the size of the sample width around the hits, each box has the charge of its hits, so all the charge is there, and the result has a non-negative number for each point of the detector grid in the region of the hits (up to 3/2 sample widths around them); without interpolation, the result has a cell for each of those points with the charge of the hits closest to it, at the middle of the cell, and all the charge if the hits are between points of the grid. Without hits a ValueError is raised.", "quantifier": "all numbers of dimensions, hits, charges, sample widths and detector grids", "why_tests_cant": "Boundaries of bins depend on arbitrary real positions and grids", "anchors": ["invisible_cities/reco/deconv_functions.py: deconvolution_input, interpolate_signal"]}
{"id": "C99", "title": "Seeds and bounds of the calibration fits", "statement": "seeds_and_bounds returns one lower and one upper bound for each seed: total of the spectrum, mu, gain and its deviation, and with a free pedestal also its mean and deviation before the gain. The seed of mu is the fitted value, or 0.001 if that is negative. With the pedestal fixed the seeds are within the bounds exactly if the total is not negative, mu <= 10000, 0 <= gain <= 10000 and 0.001 <= deviation <= 10000. With the pedestal free the bounds are paired (mean min, deviation min) and (mean max, deviation max): the exact condition for the seeds to be accepted is proved, and that they are refused in an ordinary case (finding). The gain from the data base is that of the row at the position of the channel. Without the data base the peak of one photoelectron starts at the highest found peak strictly between the limits of the type of sensor, or at the first bin half way between them, or at the last bin; the fit uses the bins from the half width before to the half width after; no data if there is no room before (finding); a bin without counts in the window is an error (finding); the gain is the distance to the pedestal and its deviation is positive. The spectrum of a PMT is searched with the pedestal removed, so that the bins under zero add up to zero; the fit of mu sees exactly the bins from -5 to 5 (SiPM) or under zero (PMT), with errors that are not zero.", "quantifier": "every spectrum, bins, pedestal, data base, results of the searches and fits, with the gaussian and the square root arbitrary", "why_tests_cant": "The tests fix one spectrum of each type; the pairing of the bounds, the window at the border of the histogram and empty bins depend on the data.", "anchors": ["invisible_cities/calib/calib_functions.py:seeds_and_bounds", "invisible_cities/calib/calib_functions.py:compute_seeds_from_spectrum", "invisible_cities/calib/calib_functions.py:poisson_mu_seed", "invisible_cities/calib/calib_functions.py:pedestal_values", "invisible_cities/calib/calib_functions.py:sensor_values", "invisible_cities/calib/calib_functions.py:seeds_db", "invisible_cities/core/stat_functions.py:poisson_sigma"]}
{"id": "C100", "title": "Files of waveforms, histograms and run information", "statement": "After any sequence of calls on an output file, each array of waveforms (16 bits) or histograms (32 bits) holds exactly the arrays given to its writer with the right number of elements, in order, one event each; calls on other nodes and calls that fail change nothing in it. The element (event, sensor, sample) read back is the one written without its fraction, and the same if it is an integer that fits; larger values come back wrapped (finding). An array with another number of elements is refused; one with the axes swapped is accepted and stored scrambled (finding). A writer can be made exactly for a node that does not exist. The centres of the bins of a histogram are stored once, as given. The tables of the run have one row for each event written, in order, so that the rows of runs and events correspond; they cannot be made if the group exists already. An event whose numbers do not fit is refused with an exception and has no row in the table of events; if its run fits, it leaves a row of the run without event (finding).", "quantifier": "every sequence of openings and writings on a file, any number of nodes, events, sensors and samples", "why_tests_cant": "Tests write a few events to a single array; what holds for all interleavings of writers and all values is a statement about histories.", "anchors": ["invisible_cities/io/rwf_io.py:rwf_writer", "invisible_cities/io/histogram_io.py:hist_writer", "invisible_cities/io/run_and_event_io.py:run_and_event_writer", "invisible_cities/io/run_and_event_io.py:read_run_and_event", "invisible_cities/io/table_io.py:make_table"]}
{"id": "C101", "title": "Tables of several files and selections of events", "statement": "load_dsts gives the rows of all the files in the order of the files, each with its own values under the names of the columns and no value in the columns that its file does not have; without ignore_errors it succeeds exactly if there is some file and all can be read. With ignore_errors the files that are missing, corrupted or without the table are left out (the result is that of the others), and it is an error if none can be read; a table without a column of events cannot be read by a list of events even so. Reading by a list of events is the same as reading everything and selecting: the rows of those events, in order. dst_event_id_selection returns a table without a column of events whole. pmap_event_id_selection and the functions on dictionaries keep exactly the items they should, with their values and in their order.", "quantifier": "every list of files in any state, any tables, columns and lists of events", "why_tests_cant": "Tests load two files of the same format; heterogeneous columns, unreadable files and their combinations are not enumerable.", "anchors": ["invisible_cities/io/dst_io.py:load_dst", "invisible_cities/io/dst_io.py:load_dsts", "invisible_cities/reco/dst_functions.py:dst_event_id_selection", "invisible_cities/reco/pmaps_functions.py:pmap_event_id_selection", "invisible_cities/core/core_functions.py:dict_filter_by_key", "invisible_cities/core/core_functions.py:dict_map"]}
{"id": "C102", "title": "The PMap of an event", "statement": "The PMap that irene makes of an event is made of the active sensors of the run only: the masker keeps, in the order of the table, the rows of the active sensors (an array with another number of rows is an IndexError); each PMT waveform is restored with its own coefficients and calibrated with its own gain; the S2 samples are those where the sum of the calibrated waveforms is over its threshold and the S1 samples those where the sum of the parts over the moving average is; without samples of one kind the event has no PMap; otherwise there is one S1 (S2) per group of samples in the S1 (S2) window, its PMT identifiers are those of the active PMTs in order, the charge of each is that of its own waveform between the first and the last sample of the group, and the SiPMs of an S2 are what the selection makes of the calibrated waveforms of the active SiPMs in the samples the group touches, added up in bins, each identified by its position in the table. In hypathia, if all the PMTs of the run are active, the same holds with the rebinned (charge of each PMT conserved) and fluctuated waveforms; with an inactive PMT no event gives a PMap with peaks.", "quantifier": "all tables of sensors with flags 0/1, waveforms, thresholds, windows, strides, rebinning and selection of SiPMs; any simulation that keeps the shape", "why_tests_cant": "The pairing of identifiers, gains, coefficients and rows must be right for every pattern of active sensors; tests use a few files of a few runs.", "anchors": [{"file": "invisible_cities/cities/components.py", "symbol": "build_pmap"}, {"file": "invisible_cities/cities/components.py", "symbol": "sensor_masker"}, {"file": "invisible_cities/cities/components.py", "symbol": "zero_suppress_wfs"}, {"file": "invisible_cities/cities/components.py", "symbol": "compute_and_write_pmaps"}, {"file": "invisible_cities/reco/peak_functions.py", "symbol": "get_pmap"}, {"file": "invisible_cities/cities/irene.py", "symbol": "irene"}, {"file": "invisible_cities/cities/hypathia.py", "symbol": "hypathia"}, {"file": "invisible_cities/cities/hypathia.py", "symbol": "rebin_pmts"}]}
{"id": "C103", "title": "The selection of SiPMs that the configuration asks for", "statement": "With `threshold` and a common threshold, in an event of irene with any pattern of active SiPMs, the SiPMs of every S2 are exactly the active ones whose bins over thr_sipm add up to at least thr_sipm_s2, in the order of the table and identified by their position in it, with the other bins set to zero. With individual thresholds the same holds with the threshold of each SiPM (the quantile of its own noise) if all the SiPMs of the run are active; with an inactive one no event has a PMap with an S2 (ValueError). With `no_cut` every S2 has all the active SiPMs with all their bins. With `pyrrha` the selection is the one of C34 if the table has as many SiPMs as waveforms; with inactive SiPMs it fails as soon as some SiPM passes the first selection. An unknown algorithm, or an unknown type of threshold for a detector, is a ValueError before any event; without a detector among the parameters the type is ignored.", "quantifier": "all tables of sensors, waveforms, thresholds, noise distributions and parameters of the algorithms", "why_tests_cant": "The thresholds have to be matched with the waveforms of the active SiPMs for every pattern of active SiPMs, bins and thresholds; tests use one run and one set of thresholds.", "anchors": [{"file": "invisible_cities/cities/components.py", "symbol": "select_cutting_algorithm"}, {"file": "invisible_cities/cities/components.py", "symbol": "threshold_sipm_selection"}, {"file": "invisible_cities/cities/components.py", "symbol": "get_actual_sipm_thr"}, {"file": "invisible_cities/cities/components.py", "symbol": "pyrrha_sipm_selection"}, {"file": "invisible_cities/cities/components.py", "symbol": "no_cut_sipm_selection"}, {"file": "invisible_cities/reco/wfm_functions.py", "symbol": "zero_wfs_below_threshold"}, {"file": "invisible_cities/reco/wfm_functions.py", "symbol": "charge_threshold_method"}]}
{"id": "C104", "title": "hit_builder makes, slice by slice, one hit per cluster sharing the energy of the slice, or one hit without position that carries it", "statement": "The hits built from a PMap with a reconstruction of each slice (the builder that uses a clustering algorithm) carry the event number and the event time in ms, and are those of the selected S2s, in the order of the PMap, each with the number of its peak in the PMap (counting the peaks that were not selected) and the overall position of the peak. For every slice of the rebinned peak, in order: if the reconstruction of the slice gives clusters there is one hit per cluster, in order, with its position, variances, charge and number of SiPMs, z equal to the drift time from the reference S1 times the drift velocity, and energies proportional to the charges of the clusters that add up to the energy of the slice up to the epsilon of the division; if the reconstruction fails there is one hit with NN position and charge that carries the energy of the slice. So the energy of the hits of a peak is that of the peak up to the epsilon, whatever fails. An event whose reference time exists always gives its hits (with raw charges and a reconstruction that fails only with the errors of its own), and an event with a selected S1 and no selected S2 gives no hits. With the barycenter of the SiPMs that reach a positive threshold there is exactly one hit per slice, at their barycenter. (Slice energies and cluster charges are taken to be non-negative: an energy of exactly -999999 is replaced by the charge.)", "quantifier": "every PMap, selection, rebinning, global and per-slice reconstruction (as arbitrary functions), charges, event number and timestamp", "why_tests_cant": "tests run one file with one configuration and look at a few hits; conservation of energy and the pairing of peaks, slices and clusters must hold for every PMap and every way the reconstructions can fail", "anchors": [{"file": "invisible_cities/cities/components.py", "symbol": "hit_builder"}, {"file": "invisible_cities/cities/components.py", "symbol": "try_global_reco"}, {"file": "invisible_cities/reco/hits_functions.py", "symbol": "e_from_q"}, {"file": "invisible_cities/reco/xy_algorithms.py", "symbol": "barycenter"}, {"file": "invisible_cities/evm/event_model.py", "symbol": "Hit"}]}
{"id": "C105", "title": "zemrude writes the map, efficiencies, metadata and time evolution of one and the same selection of events, in a file that is always new", "statement": "From the krypton tables of all the input files, put one after another, zemrude corrects the energy of every row with the nearest bin of the preliminary map; selects with those energies the rows that pass the cuts (those of C76); and writes in the output file exactly four tables: the efficiencies of that selection (the total one is the fraction of the events of all the files that are selected, and the product of the others), the map of the selected rows (one row per bin with its centre, the number of events and the fit of the energies of the rows in the bin; only bins without a value can be filled with their neighbours), the metadata (maximum radius and z, sizes and indices of the bins, number of rows), and the time evolution of the same rows, once per slice of time with events, with the run number of the first file, the preliminary energies and the energies corrected with the new map. Loading the file gives back the four tables. Nothing of what the file had before remains. If anything fails, e.g. no row is selected, the file is left empty and no map can be loaded, even if there was one before.", "quantifier": "all input tables, preliminary maps, cuts, binnings, fit functions, previous contents of the output file", "why_tests_cant": "tests compare the output of one job with a reference; that the four tables refer to the same events, with the energies of the right map, and that a failed job never leaves a mixture of an old and a new map, must hold for all inputs and failures", "anchors": [{"file": "invisible_cities/cities/zemrude.py", "symbol": "zemrude"}, {"file": "invisible_cities/cities/zemrude.py", "symbol": "concatenated_dsts_from_files"}, {"file": "invisible_cities/icaros/correction_functions.py", "symbol": "apply_correctionmap_inplace_kdst"}, {"file": "invisible_cities/icaros/correction_functions.py", "symbol": "load_map"}, {"file": "invisible_cities/icaros/krmap_functions.py", "symbol": "compute_metadata"}, {"file": "invisible_cities/icaros/krmap_functions.py", "symbol": "save_map"}]}
{"id": "C106", "title": "The output of a city carries its configuration and the history of its input", "statement": "When a city ends, its output file has the tables it wrote, unchanged, a table /config/<city> with every argument of the city (the keys joined by dots, the value as text, each cut at 300 characters) and nothing else, and an identical copy of every table of /config of its first input file; the columns flagged by the writers are indexed, and no other. So, after any chain of cities with different names, the last file has the configuration of all of them. If the input was already processed by a city of the same name the job ends with NodeError, with the data and the new configuration written, the history incomplete and nothing indexed.", "quantifier": "every configuration, every content of the input and of the output files, and chains of cities of any length", "why_tests_cant": "the history is an invariant of chains of any length and of arbitrary files; a test runs one or two cities on one file", "anchors": [{"file": "invisible_cities/cities/components.py", "symbol": "write_city_configuration"}, {"file": "invisible_cities/cities/components.py", "symbol": "copy_cities_configuration"}, {"file": "invisible_cities/cities/components.py", "symbol": "index_tables"}, {"file": "invisible_cities/cities/components.py", "symbol": "city"}]}
{"id": "C107", "title": "The buffers of buffy hold the charge seen by each sensor around each trigger", "statement": "For every event with a response in both planes, buffy finds as triggers exactly the PMT samples whose summed charge exceeds the threshold with none like it in the buffer length before; for each of them, in order, it writes the time (timestamp plus that of the sample) and a buffer with one row per sensor of the database, of exactly the samples of the buffer, whose sample j is the charge of that sensor (0 if it saw none) in the j-th sample from the start, which is the pre-trigger before the SiPM sample of the trigger. If the event is not longer than max_time no charge is lost, and with a pre-trigger of whole SiPM samples both planes start at the same time. A run over events with different numbers never fails, gives different numbers to all the buffers and every trigger is in the tables. It is required that a SiPM sample is a whole number of PMT samples and that the buffer has room for the pre-trigger and one SiPM sample.", "quantifier": "every sensor response, configuration and list of events", "why_tests_cant": "it is about arbitrary responses going through seven stages of binning, search, slicing and ordering; a test fixes one file", "anchors": [{"file": "invisible_cities/cities/buffy.py", "symbol": "buffy"}, {"file": "invisible_cities/cities/components.py", "symbol": "calculate_and_save_buffers"}, {"file": "invisible_cities/detsim/buffer_functions.py", "symbol": "buffer_calculator"}, {"file": "invisible_cities/detsim/sensor_utils.py", "symbol": "sensor_order"}]}
{"id": "C108", "title": "Sampling widths of a simulation and times of the sensor response", "statement": "The sampling width reported for each type of sensor of a simulated file is the value of the first row of its binning parameter, the number times its unit (geometries excluded); rows merged later with the same parameter never change it; files of the old format behave as those of the new one with the parameters renamed; the widths are available exactly when every such parameter is a number and a known unit. The widths of the two planes of a city are those of the first file with positive widths for both planes, files without widths being skipped and any other failure stopping the search. In the response loaded with times every row is kept, in order, with time = bin x width of the type of its sensor (old files: PMTs of the database, all others the first non-PMT width), given one position per sensor and undamaged type names.", "quantifier": "all configurations, all texts of parameters, all number and unit parsers, all lists of files, all responses and positions", "why_tests_cant": "Tests load a few reference files with the two usual parameters; duplicates, mixtures of formats and damaged values are unbounded.", "anchors": [{"file": "invisible_cities/io/mcinfo_io.py", "symbol": "get_sensor_binning"}, {"file": "invisible_cities/io/mcinfo_io.py", "symbol": "load_mcconfiguration"}, {"file": "invisible_cities/io/mcinfo_io.py", "symbol": "load_mcsensor_response_df"}, {"file": "invisible_cities/detsim/sensor_utils.py", "symbol": "pmt_and_sipm_bin_width"}, {"file": "invisible_cities/cities/buffy.py", "symbol": "pmt_and_sipm_bin_width_safe_"}]}
{"id": "C109", "title": "The buffers of detsim hold the light of the hits and electrons around each trigger", "statement": "For every event with hits, detsim uses those less than max_time after the first one, in the active volume or the buffer; without energy in the active volume, or without light in the EL, the event gives nothing. Otherwise the waveforms go from the SiPM sample of the first hit used to the one in which the last electron leaves the EL gap, or max_time; each PMT sample is a Poisson value of the mean S1 (photons of each hit by the table by the fraction of scintillation) plus one of the mean S2 (light of the partitions of the gap crossed then, shared among as many samples as one lasts), and each SiPM sample one of its mean S2. The triggers are the samples with summed PMT charge above threshold and none like it in the buffer length before; each is written with its time and the waveforms of both planes from the pre-trigger before its SiPM sample. A run over such events never fails and, with different event numbers, all the buffers have different numbers and each trigger has one row at the same place of the four tables. Required: a SiPM sample is a whole number of PMT samples and max_time of SiPM samples, room in the buffer for the pre-trigger and one SiPM sample, tables without negative values, no electron before the beginning of the data.", "quantifier": "every list of hits, every value drawn, every light table and configuration within the requirements", "why_tests_cant": "it is about arbitrary hits and random draws going through a dozen stages; tests run a few files with a fixed seed", "anchors": [{"file": "invisible_cities/cities/detsim.py", "symbol": "detsim"}, {"file": "invisible_cities/detsim/detsim_waveforms.py", "symbol": "s1_waveforms_creator"}, {"file": "invisible_cities/detsim/s2_waveforms_c.pyx", "symbol": "create_wfs"}, {"file": "invisible_cities/cities/components.py", "symbol": "calculate_and_save_buffers"}]}
{"id": "C110", "title": "What a job stores as its configuration, and what is left of the dictionaries it was given", "statement": "When a job ends, the table config/<city> of its output has a row for each parameter, at any depth of the dictionaries, as they are at that moment. detsim works on copies of its dictionaries: it leaves those it is given as they were, stores exactly the parameters given, and any number of calls with the same arguments have the same result; so do the cities that only read their dictionaries. diomira with trigger S2 stores all its parameters but s2_params.n_baseline. beersheba stores all its parameters but deconv_params.q_cut, drop_dist and cluster_size, with psf_fname expanded and the satellite parameters also inside deconv_params. After a call of these two that ends, any other with the same arguments raises KeyError.", "quantifier": "every configuration with keys without dots and no dictionary in two places, every file, any number of calls", "why_tests_cant": "it depends on the configuration as it is after the city has run; tests compare a few values of the table of one city", "anchors": [{"file": "invisible_cities/cities/components.py", "symbol": "city"}, {"file": "invisible_cities/cities/diomira.py", "symbol": "emulate_trigger"}, {"file": "invisible_cities/cities/beersheba.py", "symbol": "beersheba"}, {"file": "invisible_cities/cities/detsim.py", "symbol": "detsim"}]}
{"id": "C111", "title": "The events of diomira: what is decided and what is stored", "statement": "A job of diomira that ends without error has, for every event of its input and in order, the number of the event and the decision of the trigger, and for those that pass and only for them, in the same order, the number and the waveforms simulated for that event. If it fails in an event, everything written for the events before it stays, no waveform of that event or of a later one is written, and its decision is there only when it passed and what failed is the simulation of its SiPMs. Each raw waveform of a PMT is simulated with the gain (absolute value, in units of that of the electronics), the resolution and the electronics of the PMT that has its position in the database, and both it and its restored version are stored rounded to the nearest integer (the even one of two); each SiPM sample is the charge after its fluctuation, in ADC counts, plus the noise of the SiPM, zero when it is not near a sample over `thr` photoelectrons above the baseline, and is stored without its fraction. The trigger is set up before any event: no type passes everything, a type that is not S2 is a ValueError, and S2 is accepted if and only if no range is reversed and every channel is in the database and active. With S2 an event passes if and only if the number of pieces (groups of samples above min_height, cut where they are more than the stride apart, in the windows of time and length) whose charge, height and width are in their ranges, in all the waveforms looked at, reaches the number of channels asked, which must be positive; charge and height, but not the threshold of the search, are scaled by data_mc_ratio. Finding: if one of the waveforms looked at has no sample above min_height, the event is not rejected: the job ends with IndexError, and all later events are lost.", "quantifier": "every list of events, with whatever is drawn for them, every database, configuration of the trigger and simulation", "why_tests_cant": "the decision depends on all the samples of all the waveforms, on six ranges and on the grouping; a run has any number of events and can fail in any of them", "anchors": [{"file": "invisible_cities/cities/diomira.py", "symbol": "diomira"}, {"file": "invisible_cities/cities/diomira.py", "symbol": "emulate_trigger"}, {"file": "invisible_cities/cities/diomira.py", "symbol": "simulate_pmt_response"}, {"file": "invisible_cities/cities/components.py", "symbol": "simulate_sipm_response"}]}
{"id": "C112", "title": "The hits of a deconvolved event of beersheba", "statement": "The deconvolution of an event is done peak by peak and slice of z by slice, both in increasing order. A slice is deconvolved from the charges of its hits as a fraction of the charge of their peak, so multiplying all the charges of the event by a number changes nothing; its PSF is made of the rows of the table with the z nearest to the slice (nearest to 0 when the diffusion is deconvolved apart) and the x and the y nearest to the position of the peak, the first of the table when there are ties, put in an image of as many rows as different xr and columns as different yr in the order of the table; with interpolation the image has one pixel per point of the detector (bins inside the extremes of the SiPMs) up to 3/2 widths away from the hits, with the interpolated charge there, not negative; apart from it a second deconvolution uses the gaussian of that z in the points of the PSF. The output has the pixels above the cut, in order, with the time of the event in microseconds, the number of the event and of the peak, the position of the first hit of the peak, and the part of the energy of the peak that the value of the pixel is of those of all its pixels above the cut, rounded to six decimals: the energies of a peak add up to that of its hits up to half a unit of the sixth decimal per pixel. If a slice fails, the event fails.", "quantifier": "every list of hits, table of PSFs, configuration, interpolation and diffusion", "why_tests_cant": "the number of peaks and slices is not bounded, the PSF depends on ties in a table of any size, and the sum of the energies needs all the slices", "anchors": [{"file": "invisible_cities/cities/beersheba.py", "symbol": "deconvolve_signal"}, {"file": "invisible_cities/cities/beersheba.py", "symbol": "create_deconvolution_df"}, {"file": "invisible_cities/cities/beersheba.py", "symbol": "distribute_energy"}, {"file": "invisible_cities/cities/beersheba.py", "symbol": "event_info_adder"}, {"file": "invisible_cities/reco/deconv_functions.py", "symbol": "deconvolve"}, {"file": "invisible_cities/reco/deconv_functions.py", "symbol": "find_nearest"}]}
{"id": "C113", "title": "The histograms of the calibration cities", "statement": "phyllis, trude and berenice, for any sequence of events: when the job ends well, Run has the row of each event, in order, and each count of each histogram is the number of values of that sensor, over all the events of the range, that fall in the bin, where the values are: in pmt_spe/sipm_spe the sums of the processed waveform in each window of light, in pmt_dark/sipm_dark in each dark window (as wide, ending two microseconds before the light), in berenice's adc, mode and median the samples without the mode, and the samples without mode or median divided by the gain of the SiPM (zero if not positive). The processed waveform of phyllis is restored by PMT with its coefficients (and minus its moving average in gain_maw) or without its mode (gain_nodeconv); that of trude without its mode or median. The bins start at min_bin with the width given, the last one having both ends and ending before max_bin; the file keeps their centres. The jobs end well for events of the shape of the first file with windows inside the waveforms. A failing event leaves the rows before it and no histogram at all; a wrong bin width leaves no file. trude with one of the four calibrating modes fails with a TypeError in the first event; phyllis in gain_nodeconv fails in the first event if some PMT is inactive, except when exactly one is active: then all the PMTs get the same histogram.", "quantifier": "any event sequences, waveforms, modes, bins, windows and tables of sensors", "why_tests_cant": "tests run a few events and compare with a stored file: the counts are sums over an unbounded sequence of events, and the failing combinations of mode and database are not in any test", "anchors": [{"file": "invisible_cities/cities/phyllis.py", "symbol": "phyllis"}, {"file": "invisible_cities/cities/phyllis.py", "symbol": "mode_subtractor"}, {"file": "invisible_cities/cities/trude.py", "symbol": "trude"}, {"file": "invisible_cities/cities/berenice.py", "symbol": "berenice"}, {"file": "invisible_cities/reco/calib_functions.py", "symbol": "bin_waveforms"}, {"file": "invisible_cities/io/histogram_io.py", "symbol": "hist_writer"}]}
{"id": "C114", "title": "The local copies of the databases", "statement": "At any moment of a download, whatever the server does meanwhile and whenever the program is interrupted, the local file has the first tables of the list, whole, each with the rows that the server had when they were asked for, and at most one more table, without rows: never a table with part of its rows. When the download ends well all the tables are there; if the server does not change they are its tables. It ends well if every table exists, its statement is understood by SQLite and its rows fit. The result does not depend on the old file, which is removed first: if the server cannot be reached the old copy is lost; if the file cannot be removed and has the first table nothing is written. Without arguments the four databases are downloaded in order, the first failure ends the program and the later files are not touched; with a name only its file is written (NEXT100DB with two more tables); an unknown name is a KeyError and no file is touched. The check of an update passes exactly when the server and the copy have the same intervals of runs for the sensors of each kind (for run numbers below 10^7), and reports the last run in which one starts; it does not depend on the values (gains, noise) nor on the sensor 100.", "quantifier": "any contents and history of the server, old files, failures and interruption points", "why_tests_cant": "a test cannot interrupt the download at every point nor change the server meanwhile; the test of the repository only creates the tables", "anchors": [{"file": "invisible_cities/database/download.py", "symbol": "loadDB"}, {"file": "invisible_cities/database/download.py", "symbol": "copy_all_rows"}, {"file": "invisible_cities/database/check_gain_update.py", "symbol": "check_minrun_maxrun"}]}
{"id": "C115", "title": "The statement that creates a table in the local copy", "statement": "For any table of MySQL whose lines (columns, primary key) may have comments with any text, quotes included, and any options after ENGINE: without indices the statement for SQLite is that of MySQL without the comments and without ENGINE and what follows; with one index (KEY) its line is removed too, with the comma before it. With two indices the second one stays after the last column, without a comma.", "quantifier": "any names, types, comments, indices and options (in one line each, without another ENGINE)", "why_tests_cant": "regular expressions are applied to the text of any table of the server; the tests have the tables of today", "anchors": [{"file": "invisible_cities/database/download.py", "symbol": "create_table_sqlite"}]}
{"id": "C116", "title": "The fits of the lifetime and of the drift velocity", "statement": "lin_seed is the line through the corner of the smallest x and the smallest y and that of the largest ones (the mean of y if all x are equal): its slope is never negative, exact for points on a line that does not decrease, of the opposite sign for one that decreases (so the seed of the linear fit of decaying energies grows: finding). expo_seed is the value at the smallest x and, for energies that decay with lifetime tau between drift times t0 and t1, the lifetime tau t1/(t1-t0): exact only if the shortest drift time is 0 (finding); ValueError if the first or the last value is not positive; infinite when they are equal. For energies that decay with a lifetime the log-linear fit starts at the exact line and transform_parameters gives back the energy and the lifetime, with errors and covariance propagated to first order. The drift velocity is 1192.37 over the inflection of the sigmoid fitted to the histogram of drift times, with its relative error, NaN when the fit does not converge; quick_gauss_fit starts from a gaussian as high as the histogram and refuses fits in which some parameter did not move.", "quantifier": "any data, order, edges, seeds and results of the minimisation", "why_tests_cant": "the tests have a few generated samples; exactness, signs and error propagation hold for all data", "anchors": [{"file": "invisible_cities/reco/krmap_functions.py", "symbol": "lin_seed"}, {"file": "invisible_cities/reco/krmap_functions.py", "symbol": "expo_seed"}, {"file": "invisible_cities/reco/krmap_functions.py", "symbol": "transform_parameters"}, {"file": "invisible_cities/icaros/lifetime_vdrift_functions.py", "symbol": "compute_drift_v"}, {"file": "invisible_cities/icaros/krmap_functions.py", "symbol": "quick_gauss_fit"}, {"file": "invisible_cities/core/fit_functions.py", "symbol": "sigmoid"}]}
{"id": "C117", "title": "The toy waveforms", "statement": "square_waveform exists exactly when t_pre + 2 t_rise + t_flat < t_tot (AssertionError otherwise); it has t_tot samples and, with t_rise > 0, sample i is the trapezoid (0 up to t_pre, linear rise to q in t_rise samples, t_flat samples at q, linear fall, 0) plus noise times one random number, except the last sample of the fall, which gets two (finding); with t_rise = 0 it has a NaN (finding). sawteeth_waveform has three equal teeth after t_pre zeros; it has t_tot + 3 (t_rise - t_flat) samples, so only when rise and flat last the same it has the requested length (finding), and is a ValueError when t_tot < t_pre + 3 (t_rise + 2 t_flat). waveform_generator gives for each sensor the corrected and raw responses of the electronics to one such waveform, each plus the pedestal, in rows of t_tot/25 samples; a random start is below a third of the total time and drawn for each sensor; with a signal that fits after any start and t_tot a multiple of 25 it works for any number of sensors, and with sawteeth whose rise and flat part differ in 9 ns or more it always fails (finding). deconv_simple adds to each sample (minus the mean) the coefficient times the sum of the samples up to it, the first one multiplied by the coefficient once more (finding), and does not depend on the pedestal.", "quantifier": "any waveform parameters, random numbers, electronics, pedestal, number of sensors and waveform", "why_tests_cant": "the tests compare a few waveforms with fixed parameters; shape, lengths and failures hold for all parameters and random draws", "anchors": [{"file": "invisible_cities/sierpe/waveform_generator.py", "symbol": "square_waveform"}, {"file": "invisible_cities/sierpe/waveform_generator.py", "symbol": "sawteeth_waveform"}, {"file": "invisible_cities/sierpe/waveform_generator.py", "symbol": "waveform_generator"}, {"file": "invisible_cities/sierpe/waveform_generator.py", "symbol": "deconv_simple"}]}
{"id": "C118", "title": "Files of correction maps and of light tables", "statement": "read_maps reads a map exactly when the file has the tables chi2, e0, e0u, lt, ltu and mapinfo (KeyError otherwise), each into its field; the time evolution is there exactly for runs of data (run number > 0) in which it can be read, and a problem with it is never reported; with the map of a simulation the correction in time raises TimeEvolutionTableMissing even if the file has that table, and without the correction in time the factors depend only on e0, lt and the binning. read_lighttable works exactly when the configuration has the gap and the radius once, as numbers; they are those of the file unless the user gives others that are not null (a null one is ignored without a warning: finding), and it warns exactly when those of the user are used and differ. The function made from a light-table file gives for each position one value per sensor column of the file (neither coordinates nor the total): zero beyond the radius in force or outside the range in z, elsewhere those of the row with the nearest value of each coordinate, zero if the file has no such row; without a column z the same for x and y; one z is used for all positions and other lengths are refused. The number of scintillation photons of each hit is drawn with mean energy/ws, one per hit; ValueError exactly if a mean is negative.", "quantifier": "any contents of the files, user parameters, positions and random numbers", "why_tests_cant": "the tests use two files of one detector; which tables and columns go where has to hold for every file", "anchors": [{"file": "invisible_cities/reco/corrections.py", "symbol": "read_maps"}, {"file": "invisible_cities/reco/corrections.py", "symbol": "apply_all_correction"}, {"file": "invisible_cities/detsim/light_tables.py", "symbol": "read_lighttable"}, {"file": "invisible_cities/detsim/light_tables.py", "symbol": "create_lighttable_function"}, {"file": "invisible_cities/detsim/simulate_s1.py", "symbol": "compute_scintillation_photons"}]}
{"id": "C119", "title": "Distances along a track, its extremes, its length and its blobs", "statement": "shortest_paths gives one row per voxel in the order of the positions, and in each row, in the same order, exactly the voxels that can be reached with the length of the shortest chain of links to each of them, for links of any length not negative. The result does not depend on the order in which the voxels come, nor do the extremes or the length, when the positions differ. In a connected track the distances are symmetric, null from a voxel to itself, obey the triangle inequality and are never shorter than the straight line; find_extrema gives two voxels at the greatest distance along the track and length that distance; a single voxel is both extremes with length 0; KeyError when the voxels are not connected and NoVoxels when there are none. make_tracks always succeeds for different voxels at different places: one track per group of connected voxels, with the energy of its voxels, and two blobs around two voxels the farthest apart, each with the hits around it and their energy, that of more energy first (voxels without hits give blobs of null energy: finding).", "quantifier": "any finite set of voxels, links and lengths of links; any order of the voxels", "why_tests_cant": "the tests compare a few tracks, and the algorithm and its ties depend on the order of the nodes", "anchors": [{"file": "invisible_cities/reco/paolina_functions.py", "symbol": "shortest_paths"}, {"file": "invisible_cities/reco/paolina_functions.py", "symbol": "find_extrema_and_length"}, {"file": "invisible_cities/reco/paolina_functions.py", "symbol": "find_extrema"}, {"file": "invisible_cities/reco/paolina_functions.py", "symbol": "length"}, {"file": "invisible_cities/reco/paolina_functions.py", "symbol": "voxels_within_radius"}, {"file": "invisible_cities/reco/paolina_functions.py", "symbol": "make_tracks"}, {"file": "invisible_cities/evm/event_model.py", "symbol": "Blob"}, {"file": "invisible_cities/evm/event_model.py", "symbol": "Track"}]}
{"id": "C120", "title": "Comparisons of results", "statement": "assert_tables_equality passes exactly if the two tables have as many rows and the same names of columns (in any order), and each column has the same kind of values (not the same size: finding) with the same shape, floats within atol + rtol times the expected value and nan or infinities in the same places, the others exactly; plain arrays need exactly the same type; a table is always equal to itself, with zero tolerances equality means the same values, and with an absolute tolerance only it is symmetric. assert_PMap_equality passes exactly if there are as many S1 and as many S2, and one by one times and waveforms are close and the sensors the same; the widths of the bins are never compared (finding), and a PMap is equal to itself exactly if it has no nan. assert_bhit_equality, assert_MChit_equality, assert_cluster_equality and assert_hit_equality pass exactly if the fields they name are close, the counts equal. assert_dataframes_equal and assert_dataframes_close pass exactly if labels and names are the same in any order and each cell has the same type and the same (or close) value. all_elements_close has no upper limit for elements of the sign of the first one, so that it accepts [1, 1000] (finding). relative_difference divides by the norm asked for and changes sign when the arguments are exchanged.", "quantifier": "any tables, arrays, PMaps, hits, data frames, sequences and tolerances", "why_tests_cant": "these functions are the ones with which the tests decide; what they accept for every input cannot be seen from the results they accept", "anchors": [{"file": "invisible_cities/core/testing_utils.py", "symbol": "assert_tables_equality"}, {"file": "invisible_cities/core/testing_utils.py", "symbol": "assert_PMap_equality"}, {"file": "invisible_cities/core/testing_utils.py", "symbol": "assert_hit_equality"}, {"file": "invisible_cities/core/testing_utils.py", "symbol": "assert_cluster_equality"}, {"file": "invisible_cities/core/testing_utils.py", "symbol": "assert_dataframes_equal"}, {"file": "invisible_cities/core/testing_utils.py", "symbol": "assert_dataframes_close"}, {"file": "invisible_cities/core/testing_utils.py", "symbol": "all_elements_close"}, {"file": "invisible_cities/core/testing_utils.py", "symbol": "exactly"}, {"file": "invisible_cities/core/core_functions.py", "symbol": "relative_difference"}]}
{"id": "C121", "title": "The events of esmeralda", "statement": "With a map of corrections that can be applied (bins with positive energy, a reference that is not 0, no temporal correction), a positive threshold, positive sizes of voxels and energies that are not negative, esmeralda processes every event. The hits written are exactly those of the input inside the fiducial radius with a charge that reaches the threshold, once each, with their charge, peak and position (Z times the median drift velocity if asked; rounded to 5 decimals unless there are more than max_num_hits), sorted by Z, X, Y, with positive energies. If every hit inside has a hit over the threshold (of its peak if same_peak) to give its energy to, the energy and the corrected energy of the hits written add up to those of all the hits inside, up to the documented epsilon. With at most max_num_hits hits there is at least a track, the energies of the tracks add up to the corrected energy written, tracks are numbered by decreasing energy and have the hits and the energy of the hits written with their number, the other hits have number -1 and no energy Ep; with more, there are no tracks and the event fails topology_select. The summary has one row with the numbers of tracks and hits and the corrected energy written. An event without hits left only leaves a False in high_th_select. The flag ave_out_of_map is only set by events with too many hits (finding: the threshold gives an energy to every hit), and the energy of NN hits of the input is lost since they are outside of the fiducial radius (finding).", "quantifier": "any hits, maps, thresholds, radii and parameters of the topology", "why_tests_cant": "tests compare a few events with a reference file; that no hit and no energy is lost along the six stages has to hold for every event", "anchors": [{"file": "invisible_cities/cities/esmeralda.py", "symbol": "esmeralda"}, {"file": "invisible_cities/cities/esmeralda.py", "symbol": "hit_dropper"}, {"file": "invisible_cities/cities/components.py", "symbol": "compute_and_write_tracks_info"}, {"file": "invisible_cities/cities/components.py", "symbol": "hits_corrector"}, {"file": "invisible_cities/cities/components.py", "symbol": "hits_thresholder"}, {"file": "invisible_cities/cities/components.py", "symbol": "Efield_copier"}]}
{"id": "C122", "title": "The events of sophronia", "statement": "An event rejected by the S1/S2 selector leaves only its flag. An event that is accepted and processed has at least one selected S2, and all of them are reconstructed; its point-like rows are one per pair of a selected S1 and a selected S2 (per S2 if no S1 is selected), with the quantities of the peaks. The hits written are exactly those with charge found in the selected S2s (SiPMs over the threshold in each rebinned slice), in order, with their event, time, peak, positions and charge, and z times the median drift velocity if the corrections ask for it; the flag of valid hits tells if there is any. If every slice has PMT energy, all hits written have a positive energy, which adds up to the PMT energy of all the selected S2s, or, if NN hits are merged in the same peak, that of each S2 with hits to the PMT energy of that S2, up to the documented epsilon. With a map, Ec is the energy divided by that of the bin nearest to the hit, times 41.55 keV; with clustering parameters the labels are a density clustering of the hits written. The positional call of the city rebins as configured. Every event whose selected S2s have SiPMs of the database and are reconstructed is processed, if the map can be applied and the clustering parameters are valid. Findings: an event accepted without any selected S2 raises; with temporal corrections no event with hits is processed; the energy of an S2 without hits of charge is lost if same_peak; the builder of hits exchanges the two parameters of the rebinning, so that calling it with the names of its documentation always raises.", "quantifier": "All configurations of the city, lists of peaks, selector ranges, reconstruction functions, maps, clustering parameters.", "why_tests_cant": "The unit tests compare a reference file; conservation of energy, the correspondence between the hits found and written and the absence of exceptions must hold for every event.", "anchors": [{"file": "invisible_cities/cities/sophronia.py", "symbol": "sophronia"}, {"file": "invisible_cities/cities/components.py", "symbol": "build_pointlike_event"}, {"file": "invisible_cities/cities/components.py", "symbol": "sipms_as_hits"}, {"file": "invisible_cities/cities/components.py", "symbol": "hits_merger"}, {"file": "invisible_cities/cities/components.py", "symbol": "hits_corrector"}, {"file": "invisible_cities/cities/components.py", "symbol": "hits_clusterizer"}, {"file": "invisible_cities/cities/sophronia.py", "symbol": "count_valid_hits"}]}
{"id": "C123", "title": "The events of isaura", "statement": "With positive sizes of voxels and positive energies, isaura processes every event. The hits written are those of the input, once each, with their peak, their energy as Q, E and Ec and their position (rounded to 5 decimals unless there are more than max_num_hits), sorted by Z, X, Y. With at most max_num_hits hits there is at least a track, the energies of the tracks add up to the energy of the event, tracks are numbered by decreasing energy and have the hits and the energy of the hits written with their number, and the other hits have number -1 and no energy Ep; with more, there are no tracks and the event fails topology_select. The summary has one row with the numbers of tracks and hits, the energy and the limits of the hits. A table of deconvolved hits can be read exactly if it has the columns event, npeak, X, Y, Z, E and, if it has Xpeak, also time, Ypeak, Ec, track_id and Ep. Finding: the tables that beersheba writes have Xpeak and not Ec, track_id and Ep, so isaura raises KeyError on the output of beersheba.", "quantifier": "any hits, sets of columns and parameters of the topology", "why_tests_cant": "tests compare a few events of stored files with a reference; that no hit and no energy is lost has to hold for every event, and the stored files need not have the columns written by the current code", "anchors": [{"file": "invisible_cities/cities/isaura.py", "symbol": "isaura"}, {"file": "invisible_cities/cities/components.py", "symbol": "compute_and_write_tracks_info"}, {"file": "invisible_cities/cities/components.py", "symbol": "dhits_from_files"}, {"file": "invisible_cities/cities/components.py", "symbol": "Efield_copier"}, {"file": "invisible_cities/cities/beersheba.py", "symbol": "create_deconvolution_df"}, {"file": "invisible_cities/cities/beersheba.py", "symbol": "deconvolve_signal"}]}
{"id": "C124", "title": "The events of beersheba", "statement": "With a positive threshold, a map of corrections with positive energies and hits of energy not negative: the hits written in /CHITS/lowTh are exactly those of the input with charge that reaches the threshold, once each, with their peak, position and charge, and positive energies; if every hit has one to give its energy to, the sums of the energy and of the corrected energy are those of all the hits. With two distances the event goes on exactly if two of those hits, in the same peak, have charge over the cut and are not farther than the diagonal; otherwise the event is filtered. The deconvolved hits of each peak share all the energy of the hits of the peak over the threshold, up to the rounding to six decimals, and each of them has the event, the time, the position of the peak, and the peak and Z of a hit over the cut; with interpolation it is a point of the detector at most 3/2 bins beyond such hits. Finding: with three distances, an event with a peak without a large enough cluster is not filtered, the city stops with TypeError.", "quantifier": "any hits, maps, cuts, order of the Python sets and parameters of the deconvolution", "why_tests_cant": "tests compare a few events of stored files with a reference; that no hit over the threshold and no energy is lost through four stages that drop hits has to hold for every event and configuration", "anchors": [{"file": "invisible_cities/cities/beersheba.py", "symbol": "beersheba"}, {"file": "invisible_cities/cities/beersheba.py", "symbol": "deconvolve_signal"}, {"file": "invisible_cities/cities/beersheba.py", "symbol": "cut_over_Q"}, {"file": "invisible_cities/cities/beersheba.py", "symbol": "drop_isolated"}, {"file": "invisible_cities/cities/components.py", "symbol": "hits_corrector"}, {"file": "invisible_cities/cities/components.py", "symbol": "hits_thresholder"}]}
{"id": "C125", "title": "From the pmaps to the deconvolved hits, through the file of sophronia", "statement": "If the events accepted by sophronia have different numbers, the next city (esmeralda or beersheba) gets from its files exactly those events, once each and in order, each with its own hits and rows of the kdst and its time (and a warning if it has no hits), except those of files without any hit, which are skipped. esmeralda processes all of them. The hits that beersheba writes over its threshold are SiPMs found in the selected S2s of the pmap, with their position, peak and charge; and if energies may go to any hit of the event and all peaks with hits are deconvolved, the energy of the deconvolved hits is the energy of the selected S2s seen by the PMTs, up to the rounding to six decimals and the documented epsilons. Findings: a file of sophronia with two accepted events with the same number (from different input files) is refused by the next city; an accepted event without hits is given or skipped depending on the other events of the file.", "quantifier": "any pmaps, number of events and files, and configurations of the cities", "why_tests_cant": "each city is tested on its own with stored files; that what one writes is what the next one needs, for any event and configuration, and that no energy is lost in the whole chain, is a property of the composition", "anchors": [{"file": "invisible_cities/cities/sophronia.py", "symbol": "sophronia"}, {"file": "invisible_cities/cities/components.py", "symbol": "hits_and_kdst_from_files"}, {"file": "invisible_cities/io/kdst_io.py", "symbol": "kr_writer"}, {"file": "invisible_cities/io/run_and_event_io.py", "symbol": "run_and_event_writer"}, {"file": "invisible_cities/cities/beersheba.py", "symbol": "beersheba"}, {"file": "invisible_cities/cities/esmeralda.py", "symbol": "esmeralda"}]}
{"id": "C126", "title": "A run of irene or hypathia, and its file for the next city", "statement": "Over events with waveforms of the right sizes and different numbers, irene (any selection of its SiPMs it can be configured with) and hypathia (with all PMTs active) end without errors; an event whose PMap cannot be made ends the run with its exception. s12_indices has one row per event, telling if it has samples over both thresholds; empty_pmap one row per event with them, telling if it has any peak; and from the file, or from the files of several runs, the next city reads exactly the events with peaks, in order, each with its number, its time and its own peaks. The energy of the S2s that sophronia reads is the charge of the calibrated waveforms of the PMTs in their pieces; and the energy of the hits of an accepted event of sophronia is that charge in the selected S2s, up to the epsilon of its division.", "quantifier": "any number of events and files, waveforms, and configuration with valid sizes", "why_tests_cant": "the tests of the city compare its output for a stored file; that no waveform makes it fail or mix events, and that the energy is preserved from the waveforms to the hits, holds for all inputs only by proof over the composition of the stages", "anchors": [{"file": "invisible_cities/cities/irene.py", "symbol": "irene"}, {"file": "invisible_cities/cities/hypathia.py", "symbol": "hypathia"}, {"file": "invisible_cities/cities/components.py", "symbol": "compute_and_write_pmaps"}, {"file": "invisible_cities/cities/components.py", "symbol": "build_pmap"}, {"file": "invisible_cities/cities/components.py", "symbol": "pmap_from_files"}, {"file": "invisible_cities/io/pmaps_io.py", "symbol": "pmap_writer"}]}
{"id": "C127", "title": "Dorothea: selection, kdst and what a failing run leaves behind", "statement": "dorothea processes an event of consistent peaks if and only if the selector rejects it, or it has selected S2s and the position of all of them is found. The filter has a row per event with its flag, true exactly if the numbers of selected S1s and S2s are in their ranges; the kdst has, event after event, a row for each pair of selected S1 and S2 (for each S2 if no S1 is selected) of the accepted events, with the quantities of its peaks; Run/events has the accepted events. If an event cannot be processed the run stops there: everything before it is in the file, its flag and maybe some of its rows too, but it is not in Run/events. On the events of irene the energy of a row is at least the charge of the calibrated waveforms of the PMTs in the piece of its S2, and exactly that if no sample of the peak is negative. Findings: an accepted event without selected S2s (if none are required), with an S2 without SiPMs or one whose position is not found ends the whole run.", "quantifier": "any events of consistent peaks, selections, reconstruction algorithms and run lengths", "why_tests_cant": "the tests run the city on stored files where all S2s can be reconstructed; which events stop the run and what is left in the file then depend on the whole history of the run", "anchors": [{"file": "invisible_cities/cities/dorothea.py", "symbol": "dorothea"}, {"file": "invisible_cities/cities/components.py", "symbol": "build_pointlike_event"}, {"file": "invisible_cities/cities/components.py", "symbol": "peak_classifier"}, {"file": "invisible_cities/evm/event_model.py", "symbol": "KrEvent.store"}, {"file": "invisible_cities/io/kdst_io.py", "symbol": "kr_writer"}, {"file": "invisible_cities/io/event_filter_io.py", "symbol": "event_filter_writer"}]}
{"id": "C128", "title": "Charge of the SiPMs as signal to noise", "statement": "With sipm_charge_type signal_to_noise the charge of a SiPM is q / sqrt(q + d), with q its own charge and d its own dark level (99 % quantile of the sum of as many samples of noise as the width has microseconds, the width rounded to the ns and up to whole microseconds): for the whole peak its total charge and the width of the peak, by slices the charge and the width of each time bin. It is defined exactly if the width is of more than half a ns and the sensor has noise data; a value does not depend on the other sensors, has the sign of the charge, grows with the charge, decreases with the noise and is never over the root of the charge. If the charges are not negative and the dark levels are positive, sophronia builds the hits of every event: each one with a charge is a SiPM of a slice with its signal to noise, over the threshold, and the hits of each S2 have its energy but for the epsilon of the division. Findings: a masked SiPM without charge gives NaN; if the sum of the noise leaves the range of the bins the dark level is infinite and the signal to noise is zero whatever the charge.", "quantifier": "any noise data, sensors, charges, widths and peaks, and any square root that is positive for positive numbers (exact where the comparison needs it)", "why_tests_cant": "the tests compare with stored numbers of a few slices; the dependence on each sensor and width and what the hits keep are statements about all peaks and noise tables", "anchors": [{"file": "invisible_cities/core/random_sampling.py", "symbol": "NoiseSampler.signal_to_noise"}, {"file": "invisible_cities/core/random_sampling.py", "symbol": "NoiseSampler.dark_expectation"}, {"file": "invisible_cities/evm/pmaps.py", "symbol": "S2.sipm_charge_array"}, {"file": "invisible_cities/cities/components.py", "symbol": "sipms_as_hits"}]}
{"id": "C129", "title": "From the simulated buffers to diomira and hypathia, through the file of buffy or detsim", "statement": "The file that buffy or detsim leaves is read by diomira and hypathia as exactly one event per trigger of each simulated event, with the run number, an event number (that of the simulated event times the maximum number of triggers, plus the position of the trigger) different from all the others (and in increasing order if the simulated events are), the time of the trigger without its decimals, and in each sample of each sensor the charge that C107 and C109 say, as an integer of 16 bits: exact for whole numbers of photoelectrons below 32768. Several files come one after the other. hypathia processes such a file to its end, and the city after it reads the PMaps with the number and time of their triggers. Findings: 32768 photoelectrons or more in a sample wrap to a negative number without an error; a file without triggers is an IndexError for the next city.", "quantifier": "any simulated events, parameters, sensors and files within the conditions of C107 and C109", "why_tests_cant": "the tests of the cities compare stored files of a few events; that nothing is lost, repeated or moved between cities is a statement about all events", "anchors": [{"file": "invisible_cities/io/rwf_io.py", "symbol": "buffer_writer"}, {"file": "invisible_cities/io/run_and_event_io.py", "symbol": "run_and_event_writer"}, {"file": "invisible_cities/cities/components.py", "symbol": "wf_from_files"}, {"file": "invisible_cities/cities/components.py", "symbol": "calculate_and_save_buffers"}, {"file": "invisible_cities/cities/hypathia.py", "symbol": "hypathia"}]}
{"id": "C130", "title": "From diomira to irene, through the file", "statement": "The file that a job of diomira leaves is read by irene and the calibration cities as exactly the events that pass the trigger, in their order, each with the run number, its own number and time and its own simulated waveforms of PMTs and SiPMs; no other event appears. irene processes that file to its end if the waveforms have the sizes of its configuration and the events have different numbers, and the city after it reads the PMap that C126 says of the stored waveforms with the number and time of the event. Finding: if no event passes the trigger, the file is an IndexError for the next city.", "quantifier": "any job, trigger, events and random draws with which diomira ends, any sound configuration of irene", "why_tests_cant": "the tests run each city on a stored file of a few events; that what one city leaves is what the next gets, event by event, is a statement about all jobs", "anchors": [{"file": "invisible_cities/cities/diomira.py", "symbol": "diomira"}, {"file": "invisible_cities/io/rwf_io.py", "symbol": "rwf_writer"}, {"file": "invisible_cities/io/run_and_event_io.py", "symbol": "run_and_event_writer"}, {"file": "invisible_cities/cities/components.py", "symbol": "wf_from_files"}, {"file": "invisible_cities/cities/irene.py", "symbol": "irene"}]}
{"id": "C131", "title": "Simulated files of the old format and their copies read the same", "statement": "Copying the simulated information of a file of the format previous to 2020 (of some events, or of all) gives a file of the 2020 format from which the same readers get the same: exactly the hits, particles, sensor response and generators of those events, in order, each row with the event in whose extent it is and with all its columns (those that the old format lacks are NaN); the same configuration and sampling widths; and, if the copy is made with the database, the same sensors and the same times of the response, without needing the database again. The mapping has the events, linked to the configuration. The copy is made whenever the tables can be read. Findings: the labels of the hits lose what follows their 13th character, although the old format has up to 20; a copy made without the database has no sensors (a warning), and then the times of its response are silently none at all.", "quantifier": "every file of the old format, selection of events, database and configuration", "why_tests_cant": "the tests compare two stored files; that nothing is lost or moved to another event is a statement about all tables and extents", "anchors": [{"file": "invisible_cities/io/mcinfo_io.py", "symbol": "copy_mc_info"}, {"file": "invisible_cities/io/mcinfo_io.py", "symbol": "read_mc_tables"}, {"file": "invisible_cities/io/mcinfo_io.py", "symbol": "load_mchits_df"}, {"file": "invisible_cities/io/mcinfo_io.py", "symbol": "load_mcparticles_df"}, {"file": "invisible_cities/io/mcinfo_io.py", "symbol": "load_mcsensor_response_df"}, {"file": "invisible_cities/io/mcinfo_io.py", "symbol": "load_mcsensor_positions"}]}
{"id": "C132", "title": "From the simulated buffers to the PMaps, through diomira and irene", "statement": "Of the triggers of the simulated events of buffy or detsim, irene gets exactly those that pass the trigger of diomira: each event it reads is one trigger of one simulated event, with its number and time, and with the waveforms that diomira simulates from its buffers; none appears twice, and none that passes is missing. If diomira reaches the end of its job and some event passes, irene processes them all, each has its row in the table of flags, and the city after it reads the PMaps with the number and time of the trigger. The sizes that irene needs follow from those of the buffers, of the random numbers and of the tables of sensors.", "quantifier": "any simulated events, parameters of the cities, random draws of the right sizes and trigger of diomira", "why_tests_cant": "the tests run each city alone on stored files; that three cities one after the other lose, repeat or mix up no event is a statement about all inputs", "anchors": [{"file": "invisible_cities/cities/buffy.py", "symbol": "buffy"}, {"file": "invisible_cities/cities/detsim.py", "symbol": "detsim"}, {"file": "invisible_cities/cities/diomira.py", "symbol": "diomira"}, {"file": "invisible_cities/cities/irene.py", "symbol": "irene"}, {"file": "invisible_cities/cities/components.py", "symbol": "wf_from_files"}]}
