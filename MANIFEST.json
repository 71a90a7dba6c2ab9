{
 "claims": [
  {
   "property": "C01",
   "status": "proved",
   "theorems": [
    "Verif.Dataflow.pipe_composition",
    "Verif.Dataflow.pipe_assoc",
    "Verif.Dataflow.push_map",
    "Verif.Dataflow.push_map_raising",
    "Verif.Dataflow.push_filter_raising",
    "Verif.Dataflow.push_flatmap_raising",
    "Verif.Dataflow.push_spy_received"
   ],
   "note": "any number of stages in front of an arbitrary network; raising user functions included"
  },
  {
   "property": "C02",
   "status": "proved",
   "theorems": [
    "Verif.Dataflow.fork_delivery",
    "Verif.Dataflow.fork_order",
    "Verif.Dataflow.branch_delivery",
    "Verif.Dataflow.branch_order"
   ],
   "note": "arbitrary read-only targets; targets that write into the item are covered by C06"
  },
  {
   "property": "C03",
   "status": "proved",
   "theorems": [
    "Verif.Dataflow.closed_exactly_once",
    "Verif.Dataflow.push_stopWhen"
   ],
   "note": "every component of every network, every source, any raising user function"
  },
  {
   "property": "C04",
   "status": "proved",
   "theorems": [
    "Verif.Dataflow.reduce_future",
    "Verif.Dataflow.count_future",
    "Verif.Dataflow.countFilter_future",
    "Verif.Dataflow.countFilter_total"
   ],
   "note": "the component may sit anywhere in any network"
  },
  {
   "property": "C05",
   "status": "proved",
   "theorems": [
    "Verif.Dataflow.slice_selects",
    "Verif.Dataflow.slice_rejects",
    "Verif.Dataflow.slice_accepts",
    "Verif.Dataflow.slice_closeAll_consumed"
   ],
   "note": ""
  },
  {
   "property": "C06",
   "status": "proved",
   "theorems": [
    "Verif.Dataflow.map_one_out",
    "Verif.Dataflow.map_many_out",
    "Verif.Dataflow.map_missing_key",
    "Verif.Dataflow.map_short_result_silent",
    "Verif.Dataflow.item_means_both",
    "Verif.Dataflow.inPlace_seen_by_later_targets",
    "Verif.Dataflow.plain_map_not_seen",
    "Verif.Dataflow.branch_inPlace_seen_downstream",
    "Verif.Dataflow.map_args_run",
    "Verif.Dataflow.map_plain_run"
   ],
   "note": "map_short_result_silent records that a result of the wrong length is silently truncated by zip; string_to_pick is a plain map with itemgetter"
  },
  {
   "property": "C07",
   "status": "proved",
   "theorems": [
    "Verif.Core.inRange_spec",
    "Verif.Core.inRange_partition",
    "Verif.Core.minmax_exists",
    "Verif.Core.minmax_shift",
    "Verif.Core.minmax_scale",
    "Verif.Core.minmax_scale_negative",
    "Verif.Core.minmax_center"
   ],
   "note": "exact rationals instead of floats; a negative factor is rejected unless the interval is a point (then it is accepted)"
  },
  {
   "property": "C08",
   "status": "proved",
   "theorems": [
    "Verif.Core.rebinArray_blocks",
    "Verif.Core.rebinArray_sum",
    "Verif.Core.rebinArray_sum_no_remainder"
   ],
   "note": "exact rationals, natural strides"
  },
  {
   "property": "C09",
   "status": "proved",
   "theorems": [
    "Verif.Core.binedges_accepts",
    "Verif.Core.binedges_rejects",
    "Verif.Core.binedges_valid",
    "Verif.Core.shift_midpoints",
    "Verif.Core.centers_of_edges"
   ],
   "note": "exact rationals"
  },
  {
   "property": "C10",
   "status": "proved",
   "theorems": [
    "Verif.Core.findNearest_spec",
    "Verif.Core.weightedMeanAndVar_bounds",
    "Verif.Core.weightedMeanAndVar_formula",
    "Verif.Core.weightedMeanAndVar_invariance",
    "Verif.Core.weighted_unbiased"
   ],
   "note": "exact rationals, default (biased) variance"
  },
  {
   "property": "C100",
   "status": "proved",
   "theorems": [
    "Verif.WfIO.array_history",
    "Verif.WfIO.wrong_size",
    "Verif.WfIO.convert_spec",
    "Verif.WfIO.wraps",
    "Verif.WfIO.round_trip",
    "Verif.WfIO.transposed_accepted",
    "Verif.WfIO.new_rwf",
    "Verif.WfIO.new_hist",
    "Verif.WfIO.run_and_events",
    "Verif.WfIO.run_group_exists",
    "Verif.WfIO.order_of_tables",
    "Verif.WfIO.rows_out_of_step",
    "Verif.WfIO.event_refused"
   ],
   "note": "sizes of arrays not zero"
  },
  {
   "property": "C101",
   "status": "proved",
   "theorems": [
    "Verif.DstLoad.concat_spec",
    "Verif.DstLoad.load_all",
    "Verif.DstLoad.load_ignoring",
    "Verif.DstLoad.nothing_read",
    "Verif.DstLoad.no_events_column",
    "Verif.DstLoad.read_then_select",
    "Verif.DstLoad.event_selection",
    "Verif.DstLoad.pmap_selection",
    "Verif.DstLoad.dict_functions",
    "Verif.DstLoad.df_map",
    "Verif.DstLoad.left_out"
   ],
   "note": "types of the joined columns not modelled"
  },
  {
   "property": "C102",
   "status": "proved",
   "theorems": [
    "Verif.PmapBuild.boolMask_spec",
    "Verif.PmapBuild.maskSensors_spec",
    "Verif.PmapBuild.irene_pmap",
    "Verif.PmapBuild.rebinPmts_spec",
    "Verif.PmapBuild.hypathia_pmap",
    "Verif.PmapBuild.hypathia_inactive"
   ],
   "note": "Random simulations of hypathia are parameters; NULL gains of SiPMs are 0 in the model. Finding: hypathia masks the PMTs too late (hypathia_inactive)."
  },
  {
   "property": "C103",
   "status": "proved",
   "theorems": [
    "Verif.SipmSelect.irene_common",
    "Verif.SipmSelect.irene_individual",
    "Verif.SipmSelect.irene_no_cut",
    "Verif.SipmSelect.irene_individual_inactive",
    "Verif.SipmSelect.pyrrha_select",
    "Verif.SipmSelect.pyrrha_inactive",
    "Verif.SipmSelect.type_ignored",
    "Verif.SipmSelect.unknown_rejected",
    "Verif.SipmSelect.thresholdSel_mismatch"
   ],
   "note": "findings: individual thresholds and pyrrha do not work with inactive SiPMs (one threshold / position per SiPM of the table, one waveform per active SiPM); without detector_db the type of threshold is ignored"
  },
  {
   "property": "C104",
   "status": "proved",
   "theorems": [
    "Verif.ClusterHits.build_spec",
    "Verif.ClusterHits.peak_energy",
    "Verif.ClusterHits.build_no_s2",
    "Verif.ClusterHits.build_succeeds",
    "Verif.ClusterHits.bary_slice",
    "Verif.ClusterHits.bary_charge"
   ],
   "note": "reconstructions are arbitrary functions; real arithmetic; energies and cluster charges non-negative"
  },
  {
   "property": "C105",
   "status": "proved",
   "theorems": [
    "Verif.Zemrude.process_spec",
    "Verif.Zemrude.zemrude_saves",
    "Verif.Zemrude.zemrude_fails",
    "Verif.Zemrude.no_events_fails",
    "Verif.Zemrude.select_whole",
    "Verif.Zemrude.dfWriter_appends"
   ],
   "note": "nearest neighbour, fits and energy estimators are arbitrary functions (the first with its contract); input columns without NaN; control plots not modelled"
  },
  {
   "property": "C106",
   "status": "proved",
   "theorems": [
    "Verif.CityConfig.finish_ok",
    "Verif.CityConfig.finish_repeated",
    "Verif.CityConfig.chain_history",
    "Verif.CityConfig.conf_rows",
    "Verif.CityConfig.cut_spec",
    "Verif.CityConfig.missing_index"
   ],
   "note": "order of the copied tables and file names are not modelled; a repeated city is a stated failure"
  },
  {
   "property": "C107",
   "status": "proved",
   "theorems": [
    "Verif.BuffyEvent.event_spec",
    "Verif.BuffyEvent.no_response",
    "Verif.BuffyEvent.whole_event",
    "Verif.BuffyEvent.planes_aligned",
    "Verif.BuffyEvent.run_spec"
   ],
   "note": "composition of the models of C35-C37, C51 and C52; exact arithmetic"
  },
  {
   "property": "C108",
   "status": "proved",
   "theorems": [
    "Verif.Binning.binning_spec",
    "Verif.Binning.binning_works",
    "Verif.Binning.merged_ignored",
    "Verif.Binning.oldKey_spec",
    "Verif.Binning.old_is_renamed",
    "Verif.Binning.planeWidths_spec",
    "Verif.Binning.planeWidths_errors",
    "Verif.Binning.firstWidths_spec",
    "Verif.Binning.fileWidths_lacks",
    "Verif.Binning.firstWidths_stops",
    "Verif.Binning.clean_binning",
    "Verif.Binning.response_times",
    "Verif.Binning.old_response_times",
    "Verif.Binning.old_needs_run"
   ],
   "note": "findings: widths of merged or later files are silently ignored; an unreadable file stops the search of widths; run number 0 fails an assertion"
  },
  {
   "property": "C109",
   "status": "proved",
   "theorems": [
    "Verif.DetsimEvent.no_energy",
    "Verif.DetsimEvent.no_light",
    "Verif.DetsimEvent.event_spec",
    "Verif.DetsimEvent.run_spec",
    "Verif.DetsimEvent.start_not_recorded",
    "Verif.DetsimEvent.early_light"
   ],
   "note": "composition of the models of C35-C37, C45, C58, C59; the values drawn are arguments; findings: the beginning of the data is not recorded, electrons before it wrap to the end"
  },
  {
   "property": "C11",
   "status": "proved",
   "theorems": [
    "Verif.Peaks.aboveThreshold_spec",
    "Verif.Peaks.splitInPeaks_grouping",
    "Verif.Peaks.splitInPeaks_nil",
    "Verif.Peaks.grouping_unique"
   ],
   "note": "np.where/np.diff/np.split re-implemented on lists; natural indices and stride"
  },
  {
   "property": "C110",
   "status": "proved",
   "theorems": [
    "Verif.CityArgs.plain_stores",
    "Verif.CityArgs.detsim_stores",
    "Verif.CityArgs.detsim_again",
    "Verif.CityArgs.diomira_stores",
    "Verif.CityArgs.diomira_once",
    "Verif.CityArgs.diomira_none",
    "Verif.CityArgs.beersheba_stores",
    "Verif.CityArgs.beersheba_once",
    "Verif.CityArgs.beersheba_dims",
    "Verif.CityArgs.beersheba_arguments"
   ],
   "note": "The statement says what the code does; the parameters lost are a finding."
  },
  {
   "property": "C111",
   "status": "proved",
   "theorems": [
    "Verif.DiomiraEvent.run_spec",
    "Verif.DiomiraEvent.run_error",
    "Verif.DiomiraEvent.pmts_spec",
    "Verif.DiomiraEvent.pmts_many",
    "Verif.DiomiraEvent.sipms_spec",
    "Verif.DiomiraEvent.setup_none",
    "Verif.DiomiraEvent.setup_other",
    "Verif.DiomiraEvent.setup_iff",
    "Verif.DiomiraEvent.trigger_decision",
    "Verif.DiomiraEvent.trigger_quiet",
    "Verif.DiomiraEvent.quiet_ends",
    "Verif.DiomiraEvent.ex_runs",
    "Verif.DiomiraEvent.no_trigger"
   ],
   "note": "run_spec and run_error: the output; pmts_spec and sipms_spec: what is stored; trigger_decision: the S2 decision; quiet_ends: the finding"
  },
  {
   "property": "C112",
   "status": "proved",
   "theorems": [
    "Verif.DeconvSlice.grid_spec",
    "Verif.DeconvSlice.psf_spec",
    "Verif.DeconvSlice.psf_mixed",
    "Verif.DeconvSlice.kernel_spec",
    "Verif.DeconvSlice.slice_spec",
    "Verif.DeconvSlice.event_spec",
    "Verif.DeconvSlice.event_positions",
    "Verif.DeconvSlice.event_energy",
    "Verif.DeconvSlice.event_fails",
    "Verif.DeconvSlice.event_empty",
    "Verif.DeconvSlice.event_scale",
    "Verif.DeconvSlice.ex_event",
    "Verif.DeconvSlice.ex_separate",
    "Verif.DeconvSlice.grid_both"
   ],
   "note": "two dimensions; griddata and the normal density are inputs of the model"
  },
  {
   "property": "C113",
   "status": "proved",
   "theorems": [
    "Verif.CalibCity.phyllis_spec",
    "Verif.CalibCity.phyllis_works",
    "Verif.CalibCity.phyllis_inactive",
    "Verif.CalibCity.phyllis_one",
    "Verif.CalibCity.trude_spec",
    "Verif.CalibCity.trude_works",
    "Verif.CalibCity.trude_calibrate",
    "Verif.CalibCity.berenice_spec",
    "Verif.CalibCity.berenice_works",
    "Verif.CalibCity.berenice_gains",
    "Verif.CalibCity.failed_job",
    "Verif.CalibCity.no_width"
   ],
   "note": "exact arithmetic"
  },
  {
   "property": "C114",
   "status": "proved",
   "theorems": [
    "Verif.DbCopy.any_time",
    "Verif.DbCopy.whole_copy",
    "Verif.DbCopy.same_server",
    "Verif.DbCopy.download_works",
    "Verif.DbCopy.fresh_start",
    "Verif.DbCopy.unreachable_server",
    "Verif.DbCopy.not_removed",
    "Verif.DbCopy.load_order",
    "Verif.DbCopy.unknown_database",
    "Verif.DbCopy.one_database",
    "Verif.DbCopy.check_runs",
    "Verif.DbCopy.check_blind"
   ],
   "note": "the statement that creates a table is C115; SQLite and the server are parameters"
  },
  {
   "property": "C115",
   "status": "proved",
   "theorems": [
    "Verif.SqlConvert.convert_plain",
    "Verif.SqlConvert.convert_key",
    "Verif.SqlConvert.convert_two_keys"
   ],
   "note": "ASCII blanks"
  },
  {
   "property": "C116",
   "status": "proved",
   "theorems": [
    "Verif.LifetimeFit.line_through_corners",
    "Verif.LifetimeFit.no_data_no_seed",
    "Verif.LifetimeFit.line_exact",
    "Verif.LifetimeFit.polynom_powers",
    "Verif.LifetimeFit.expo_seed_decay",
    "Verif.LifetimeFit.loglin_exact",
    "Verif.LifetimeFit.expo_seed_ends",
    "Verif.LifetimeFit.linear_seed_grows",
    "Verif.LifetimeFit.transform_errors",
    "Verif.LifetimeFit.fit_functions",
    "Verif.LifetimeFit.sigmoid_shape",
    "Verif.LifetimeFit.gauss_seed_height",
    "Verif.LifetimeFit.quick_gauss",
    "Verif.LifetimeFit.bins_by_number",
    "Verif.LifetimeFit.drift_velocity"
   ],
   "note": "The minimisation, exp, log and the square root are parameters of the model; the theorems on lifetimes are for Real.exp and Real.log."
  },
  {
   "property": "C117",
   "status": "proved",
   "theorems": [
    "Verif.ToyWaveform.square_fits",
    "Verif.ToyWaveform.square_trapezoid",
    "Verif.ToyWaveform.square_without_rise",
    "Verif.ToyWaveform.sawteeth_spec",
    "Verif.ToyWaveform.sawteeth_length",
    "Verif.ToyWaveform.generate_spec",
    "Verif.ToyWaveform.generate_square_works",
    "Verif.ToyWaveform.generate_sawteeth_fails",
    "Verif.ToyWaveform.deconv_simple_spec",
    "Verif.ToyWaveform.deconv_simple_pedestal"
   ],
   "note": "findings: length of sawteeth, double noise, NaN without rise, first sample of deconv_simple"
  },
  {
   "property": "C118",
   "status": "proved",
   "theorems": [
    "Verif.ParamFiles.read_maps",
    "Verif.ParamFiles.read_maps_fails",
    "Verif.ParamFiles.simulation_without_time",
    "Verif.ParamFiles.factors_without_time",
    "Verif.ParamFiles.read_light",
    "Verif.ParamFiles.light_file",
    "Verif.ParamFiles.light_file_s2",
    "Verif.ParamFiles.light_file_lengths",
    "Verif.ParamFiles.scintillation_spec"
   ],
   "note": "finding: null gap or radius of the user ignored"
  },
  {
   "property": "C119",
   "status": "proved",
   "theorems": [
    "Verif.ShortestPaths.dijkstra_spec",
    "Verif.ShortestPaths.paths_spec",
    "Verif.ShortestPaths.paths_reproducible",
    "Verif.ShortestPaths.extremes_longest",
    "Verif.ShortestPaths.extremes_exist",
    "Verif.ShortestPaths.extremes_fail",
    "Verif.ShortestPaths.distances_metric",
    "Verif.ShortestPaths.length_at_least",
    "Verif.ShortestPaths.within_spec",
    "Verif.ShortestPaths.track_connected",
    "Verif.ShortestPaths.track_table",
    "Verif.ShortestPaths.make_tracks_spec",
    "Verif.ShortestPaths.paths_contract"
   ],
   "note": "every graph, any ordered lengths; exact arithmetic"
  },
  {
   "property": "C12",
   "status": "proved",
   "theorems": [
    "Verif.Peaks.findPeaks_spec",
    "Verif.Peaks.findPeaks_empty",
    "Verif.Peaks.grouping_pairwise"
   ],
   "note": "index increasing and within the waveform, rebin stride multiple of the ratio when SiPMs are used"
  },
  {
   "property": "C120",
   "status": "proved",
   "theorems": [
    "Verif.Compare.approx_iff",
    "Verif.Compare.exactly_iff",
    "Verif.Compare.approx_allclose",
    "Verif.Compare.tables_spec",
    "Verif.Compare.arrays_spec",
    "Verif.Compare.tables_self",
    "Verif.Compare.tables_exact",
    "Verif.Compare.tables_symm",
    "Verif.Compare.pmap_spec",
    "Verif.Compare.pmap_widths",
    "Verif.Compare.pmap_self",
    "Verif.Compare.bhit_spec",
    "Verif.Compare.mchit_spec",
    "Verif.Compare.cluster_spec",
    "Verif.Compare.hit_spec",
    "Verif.Compare.df_equal_spec",
    "Verif.Compare.df_close_spec",
    "Verif.Compare.all_close_spec",
    "Verif.Compare.all_close_other",
    "Verif.Compare.relative_spec"
   ],
   "note": "library comparisons re-implemented from their sources; exact arithmetic"
  },
  {
   "property": "C121",
   "status": "proved",
   "theorems": [
    "Verif.Esmeralda.event_ends",
    "Verif.Esmeralda.event_rejected",
    "Verif.Esmeralda.event_hits",
    "Verif.Esmeralda.event_energy",
    "Verif.Esmeralda.event_topology",
    "Verif.Esmeralda.event_summary",
    "Verif.Esmeralda.event_temporal",
    "Verif.Esmeralda.input_NN_lost",
    "Verif.Rounding.five_decimals"
   ],
   "note": ""
  },
  {
   "property": "C122",
   "status": "proved",
   "theorems": [
    "Verif.Sophronia.event_rejected",
    "Verif.Sophronia.event_hits",
    "Verif.Sophronia.event_energy",
    "Verif.Sophronia.event_corrected",
    "Verif.Sophronia.event_clusters",
    "Verif.Sophronia.event_kdst",
    "Verif.Sophronia.no_s2_fails",
    "Verif.Sophronia.temporal_fails",
    "Verif.Sophronia.rebin_in_city",
    "Verif.Sophronia.rebin_names_exchanged",
    "Verif.Sophronia.event_ends",
    "Verif.Sophronia.dim_peak_lost"
   ],
   "note": "whole event of sophronia; findings as theorems"
  },
  {
   "property": "C123",
   "status": "proved",
   "theorems": [
    "Verif.Isaura.event_ends",
    "Verif.Isaura.event_hits",
    "Verif.Isaura.event_topology",
    "Verif.Isaura.event_summary",
    "Verif.Isaura.readable_iff",
    "Verif.Isaura.beersheba_refused"
   ],
   "note": "whole event of isaura and the columns of its input; finding beersheba_refused"
  },
  {
   "property": "C124",
   "status": "proved",
   "theorems": [
    "Verif.Beersheba.event_hits",
    "Verif.Beersheba.event_passed",
    "Verif.Beersheba.event_energy",
    "Verif.Beersheba.event_sources",
    "Verif.Beersheba.event_positions",
    "Verif.Beersheba.three_distances_fail",
    "Verif.Beersheba.event_total"
   ],
   "note": "whole event of beersheba; finding three_distances_fail whole event of beersheba; finding three_distances_fail"
  },
  {
   "property": "C125",
   "status": "proved",
   "theorems": [
    "Verif.Chain.read_back",
    "Verif.Chain.repeated_refused",
    "Verif.Chain.esmeralda_ends",
    "Verif.Chain.beersheba_sources",
    "Verif.Chain.deconvolved_energy",
    "Verif.Chain.lone_event_skipped"
   ],
   "note": "sophronia file to esmeralda and beersheba; findings repeated_refused, lone_event_skipped"
  },
  {
   "property": "C126",
   "status": "proved",
   "theorems": [
    "Verif.IreneRun.irene_event",
    "Verif.IreneRun.algorithm_rows",
    "Verif.IreneRun.irene_run",
    "Verif.IreneRun.irene_files",
    "Verif.IreneRun.hypathia_run",
    "Verif.IreneRun.irene_for_sophronia",
    "Verif.IreneRun.waveforms_to_hits",
    "Verif.IreneRun.through_sophronia",
    "Verif.IreneRun.waveforms_to_deconvolved",
    "Verif.IreneRun.irene_fails",
    "Verif.IreneRun.hypathia_fails"
   ],
   "note": "whole run of irene/hypathia, file to sophronia, energy from waveforms to hits"
  },
  {
   "property": "C127",
   "status": "proved",
   "theorems": [
    "Verif.Dorothea.event_flag",
    "Verif.Dorothea.event_processed",
    "Verif.Dorothea.event_fails",
    "Verif.Dorothea.dorothea_run",
    "Verif.Dorothea.irene_for_dorothea"
   ],
   "note": "whole run of dorothea, also when it fails"
  },
  {
   "property": "C128",
   "status": "proved",
   "theorems": [
    "Verif.SignalNoise.signal_iff",
    "Verif.SignalNoise.signal_errors",
    "Verif.SignalNoise.own_sensor",
    "Verif.SignalNoise.ratio_sign",
    "Verif.SignalNoise.ratio_monotone",
    "Verif.SignalNoise.width_iff",
    "Verif.SignalNoise.width_accepted",
    "Verif.SignalNoise.point_value",
    "Verif.SignalNoise.slices_value",
    "Verif.SignalNoise.one_bin",
    "Verif.SignalNoise.usable_values",
    "Verif.SignalNoise.sn_hits",
    "Verif.SignalNoise.masked_value",
    "Verif.SignalNoise.noise_out_of_range",
    "Verif.SignalNoise.sn_city_hits"
   ],
   "note": "charges as signal to noise and the hits built with them"
  },
  {
   "property": "C129",
   "status": "proved",
   "theorems": [
    "Verif.SimChain.buffy_read",
    "Verif.SimChain.detsim_read",
    "Verif.SimChain.buffy_to_hypathia",
    "Verif.SimChain.files_in_order",
    "Verif.SimChain.int16_exact",
    "Verif.SimChain.int16_unique",
    "Verif.SimChain.wraps",
    "Verif.SimIrene.detsim_to_hypathia"
   ],
   "note": "The conversion to 16 bits and the file without triggers are stated as they are in the code."
  },
  {
   "property": "C13",
   "status": "proved",
   "theorems": [
    "Verif.Peaks.rebin_conserves",
    "Verif.Peaks.rebin_default",
    "Verif.Peaks.rebin_identity",
    "Verif.Peaks.rebin_times"
   ],
   "note": "exact rationals"
  },
  {
   "property": "C130",
   "status": "proved",
   "theorems": [
    "Verif.DiomiraChain.diomira_read",
    "Verif.DiomiraChain.diomira_to_irene"
   ],
   "note": "the file of diomira as the next city gets it; irene on it; IndexError when no event passes"
  },
  {
   "property": "C131",
   "status": "proved",
   "theorems": [
    "Verif.McConvert.converted",
    "Verif.McConvert.convert_ok",
    "Verif.McConvert.copied_rows",
    "Verif.McConvert.no_database_no_times",
    "Verif.McConvert.old_configuration",
    "Verif.McConvert.old_sensors"
   ],
   "note": "copies of old files read as the files; rows and columns; times"
  },
  {
   "property": "C132",
   "status": "proved",
   "theorems": [
    "Verif.SimIrene.through_diomira",
    "Verif.SimIrene.buffy_to_irene",
    "Verif.SimIrene.detsim_to_irene"
   ],
   "note": "buffy or detsim, diomira and irene in a row"
  },
  {
   "property": "C14",
   "status": "proved",
   "theorems": [
    "Verif.Peaks.s2_synchronised",
    "Verif.Peaks.selectWfs_isSelection",
    "Verif.Peaks.peak_without_sipms"
   ],
   "note": "the SiPM selection algorithm is any function returning existing sensors and their waveforms"
  },
  {
   "property": "C15",
   "status": "partial",
   "theorems": [
    "Verif.PMaps.peak_validation_partial",
    "Verif.PMaps.empty_peak_wrong_exception",
    "Verif.PMaps.peak_exists_lengths",
    "Verif.PMaps.responses_validation"
   ],
   "note": "the code violates the property for zero samples: AttributeError instead of ValueError (typo __name in the message), proved as empty_peak_wrong_exception"
  },
  {
   "property": "C16",
   "status": "proved",
   "theorems": [
    "Verif.PMaps.energyAbove_eq",
    "Verif.PMaps.energyAbove_antitone",
    "Verif.PMaps.total_energy_height",
    "Verif.PMaps.widthAbove_spec",
    "Verif.PMaps.widthAbove_antitone",
    "Verif.PMaps.varAbove_nonneg",
    "Verif.PMaps.varAbove_formula"
   ],
   "note": "exact rationals; the rms is represented by its square"
  },
  {
   "property": "C17",
   "status": "proved",
   "theorems": [
    "Verif.PMaps.evenSlices_tile",
    "Verif.PMaps.thresholdSlices_tile",
    "Verif.PMaps.thresholdSlices_above",
    "Verif.PMaps.rebinPeak_conserves",
    "Verif.PMaps.rebinPeak_bins"
   ],
   "note": "exact rationals; counter-example for negative samples beside the theorem"
  },
  {
   "property": "C18",
   "status": "proved",
   "theorems": [
    "Verif.Configure.configure_spec",
    "Verif.Configure.cli_overrides",
    "Verif.Configure.namespace_readonly"
   ],
   "note": "Configuration scripts are sequences of assignments, includes and reads; scripts that catch an exception of an include are excluded (NoTry), with a counter-example beside the theorem: a failed include is not popped from the file stack."
  },
  {
   "property": "C19",
   "status": "partial",
   "theorems": [
    "Verif.Configure.typeCheck_conforms_partial",
    "Verif.Configure.checkedCall_spec_partial",
    "Verif.Configure.later_calls_unchecked",
    "Verif.Configure.wrong_shape_type_error",
    "Verif.Configure.tuple_length_unchecked"
   ],
   "note": "The full claim is false of the code: only the first call is checked, some ill-shaped values raise TypeError instead of ValueError, tuple lengths are unchecked; each is a theorem."
  },
  {
   "property": "C20",
   "status": "proved",
   "theorems": [
    "Verif.Components.eventRange_selects",
    "Verif.Components.eventRange_received",
    "Verif.Components.eventRange_rejects",
    "Verif.Components.Means.unique",
    "Verif.Components.parseErElem_means"
   ],
   "note": "specifications as written in a configuration, over any number of events; composed with the slice component of the dataflow model"
  },
  {
   "property": "C21",
   "status": "proved",
   "theorems": [
    "Verif.Components.cityFiles_spec",
    "Verif.Components.cityFiles_missing",
    "Verif.Components.cityFiles_one",
    "Verif.Components.FirstAppearances.unique",
    "Verif.Components.dictToString_spec",
    "Verif.Components.dictToString_lossless",
    "Verif.Components.dotted_keys_collide"
   ],
   "note": "with a witness that keys containing dots collide"
  },
  {
   "property": "C22",
   "status": "proved",
   "theorems": [
    "Verif.Hits.eFromQ_spec",
    "Verif.Hits.sipmsAboveThreshold_none",
    "Verif.Hits.sipmsAboveThreshold_some",
    "Verif.Hits.sipmsAsHits_energy",
    "Verif.Hits.zero_threshold_loses_energy"
   ],
   "note": "exact rationals, the epsilon is in the statement; witness for a zero threshold"
  },
  {
   "property": "C23",
   "status": "proved",
   "theorems": [
    "Verif.Hits.mergeNN_formula",
    "Verif.Hits.mergeNN_same_hits",
    "Verif.Hits.mergeNN_conserves_E",
    "Verif.Hits.mergeNN_conserves_Ec",
    "Verif.Hits.mergeNN_order",
    "Verif.Hits.mergeNN_drops",
    "Verif.Hits.nan_spreads"
   ],
   "note": "energies without NaN for the conservation theorems, NaN corrected energies in nan_spreads"
  },
  {
   "property": "C24",
   "status": "proved",
   "theorems": [
    "Verif.Hits.thresholdHits_spec",
    "Verif.Hits.thresholdHits_total",
    "Verif.Hits.thresholdHits_nonpos",
    "Verif.Hits.hitsThresholder_spec"
   ],
   "note": "slices as pandas groups by npeak and Z"
  },
  {
   "property": "C25",
   "status": "proved",
   "theorems": [
    "Verif.XY.barycenter_spec",
    "Verif.XY.summary_bounds"
   ],
   "note": "distances compared through squares"
  },
  {
   "property": "C26",
   "status": "partial",
   "theorems": [
    "Verif.XY.corona_returns",
    "Verif.XY.corona_follows_documentation",
    "Verif.XY.corona_totals",
    "Verif.XY.corona_ends_partial",
    "Verif.XY.neverEnds_fixed",
    "Verif.XY.corona_may_never_end",
    "Verif.XY.zero_charge_loses_clusters"
   ],
   "note": "termination is false for lm_radius > new_lm_radius and for zero thresholds an undocumented exception loses the clusters (both machine-checked); proved for the documented parameters"
  },
  {
   "property": "C27",
   "status": "proved",
   "theorems": [
    "Verif.Voxels.voxelize_no_hits",
    "Verif.Voxels.voxelize_spec",
    "Verif.Voxels.voxelize_disjoint",
    "Verif.Voxels.voxelize_energy",
    "Verif.Voxels.voxelize_each_hit",
    "Verif.Voxels.voxelize_all_hits",
    "Verif.Voxels.cancelling_hits_lost"
   ],
   "note": "exact rationals, positive voxel dimensions; hits of a cell whose energies cancel are in no voxel (machine-checked witness)"
  },
  {
   "property": "C28",
   "status": "proved",
   "theorems": [
    "Verif.Tracks.tracks_partition",
    "Verif.Tracks.same_track_iff",
    "Verif.Tracks.neighbours_symm",
    "Verif.Tracks.tracks_mono",
    "Verif.Tracks.contiguity_on_grid",
    "Verif.Tracks.different_sizes_depend_on_order"
   ],
   "note": "networkx connected components modelled as its breadth-first search"
  },
  {
   "property": "C29",
   "status": "proved",
   "theorems": [
    "Verif.Tracks.extrema_trivial",
    "Verif.Tracks.extrema_spec",
    "Verif.Tracks.extrema_degenerate",
    "Verif.Tracks.track_length",
    "Verif.Tracks.blobs_spec",
    "Verif.Tracks.blobs_order",
    "Verif.Tracks.highestNode_spec"
   ],
   "note": "The distance table is arbitrary; networkx Dijkstra enters through its contract (Shortest). When all the distances are zero no extremes are found (extrema_degenerate)."
  },
  {
   "property": "C30",
   "status": "proved",
   "theorems": [
    "Verif.Tracks.drop_terminates",
    "Verif.Tracks.drop_partition",
    "Verif.Tracks.drop_keeps",
    "Verif.Tracks.drop_conserves_hits",
    "Verif.Tracks.drop_conserves_voxels",
    "Verif.Tracks.drop_reason",
    "Verif.Tracks.drop_final",
    "Verif.Tracks.drop_short",
    "Verif.Tracks.drop_empty",
    "Verif.Tracks.drop_below_minimum",
    "Verif.Tracks.drop_mixed_loses_energy",
    "Verif.Paolina.drop_succeeds"
   ],
   "note": "Distances and shortest paths are arbitrary functions. drop_below_minimum: min_vxls is checked once per pair of extremes; drop_mixed_loses_energy: energy is lost when voxels with and without hits are mixed."
  },
  {
   "property": "C31",
   "status": "proved",
   "theorems": [
    "Verif.Filters.valid_peak",
    "Verif.Filters.selector_exists",
    "Verif.Filters.pmap_filter",
    "Verif.Filters.combine_outputs"
   ],
   "note": ""
  },
  {
   "property": "C32",
   "status": "partial",
   "theorems": [
    "Verif.Filters.trigger_channels_partial",
    "Verif.Filters.trigger_counts_peaks",
    "Verif.Filters.trigger_never_misses",
    "Verif.Filters.trigger_counts_one_channel_twice",
    "Verif.Filters.trigger_zero_never_fires",
    "Verif.Filters.select_trigger"
   ],
   "note": "The code counts peaks, not channels, and never fires with a required multiplicity of zero: the property holds when no channel has two valid peaks and the multiplicity is positive; what the code does is proved for every event (trigger_counts_peaks)."
  },
  {
   "property": "C33",
   "status": "partial",
   "theorems": [
    "Verif.Wfm.suppress_partial",
    "Verif.Wfm.suppress_exact",
    "Verif.Wfm.suppress_no_padding",
    "Verif.Wfm.suppress_idempotent",
    "Verif.Wfm.noise_suppression",
    "Verif.Wfm.noise_suppression_single",
    "Verif.Wfm.suppress_misses_last",
    "Verif.Wfm.suppress_misses_end",
    "Verif.Wfm.noise_suppression_loses_sensors",
    "Verif.Wfm.adc_roundtrip"
   ],
   "note": "The code keeps padding samples before the signal but padding - 1 after it, and never the last sample of the waveform: suppress_exact states what is kept for every input, suppress_partial the part of the property that holds."
  },
  {
   "property": "C34",
   "status": "proved",
   "theorems": [
    "Verif.Wfm.kill_isolated",
    "Verif.Wfm.circular_padding",
    "Verif.Wfm.padding_superset",
    "Verif.Wfm.padding_monotone",
    "Verif.Wfm.padding_negative",
    "Verif.Wfm.charge_threshold",
    "Verif.Wfm.charge_threshold_mismatch",
    "Verif.Wfm.median_selection",
    "Verif.Wfm.median_spec",
    "Verif.Wfm.median_selects_uniform",
    "Verif.Wfm.top_n",
    "Verif.Wfm.top_zero_selects_all",
    "Verif.Wfm.spatial_selection",
    "Verif.Wfm.top_n_unreachable"
   ],
   "note": "padding_superset needs a radius that is not negative; top_n needs n > 0 (n = 0 selects everything); top_n cannot be chosen through spatial_selection_method."
  },
  {
   "property": "C35",
   "status": "proved",
   "theorems": [
    "Verif.Buffers.findSignalStart_spec",
    "Verif.Buffers.triggers_apart",
    "Verif.Buffers.first_trigger",
    "Verif.Buffers.triggers_cover",
    "Verif.Buffers.no_signal_no_trigger",
    "Verif.Buffers.signal_finder_apart"
   ],
   "note": "The triggers are characterised exactly."
  },
  {
   "property": "C36",
   "status": "proved",
   "theorems": [
    "Verif.Buffers.cut_window",
    "Verif.Buffers.generateSlice_spec",
    "Verif.Buffers.buffers_aligned",
    "Verif.Buffers.buffers_offset",
    "Verif.Buffers.positionSignal_each",
    "Verif.Buffers.buffers_misaligned",
    "Verif.Buffers.negative_stop_longer",
    "Verif.Buffers.no_sensors_width"
   ],
   "note": "Findings: buffers of the two planes start at different times when pre_trigger is not a multiple of the SiPM width; a negative slice end gives longer PMT buffers when pre_trigger is (almost) buffer_len and the trigger is near the start of the data; without SiPM waveforms the width is that of the padding plus one."
  },
  {
   "property": "C37",
   "status": "proved",
   "theorems": [
    "Verif.Buffers.writeBuffers_spec",
    "Verif.Buffers.tables_aligned",
    "Verif.Buffers.event_numbers_unique",
    "Verif.Buffers.nexus_event_recovered",
    "Verif.Buffers.triggers_bounded",
    "Verif.Buffers.nBins_bounded",
    "Verif.Buffers.checkMaxTime_spec",
    "Verif.Buffers.triggerTimes_spec",
    "Verif.Buffers.too_many_triggers",
    "Verif.Buffers.trigger_row",
    "Verif.Buffers.row_trigger",
    "Verif.Buffers.rows_in_order"
   ],
   "note": "Finding: when max_time is not a multiple of the PMT bin width an event can have more triggers than max_subevt and event numbers repeat."
  },
  {
   "property": "C38",
   "status": "proved",
   "theorems": [
    "Verif.PMapsIO.write_succeeds",
    "Verif.PMapsIO.read_refused_iff",
    "Verif.PMapsIO.roundtrip_eager",
    "Verif.PMapsIO.roundtrip_lazy",
    "Verif.PMapsIO.lazy_eq_eager",
    "Verif.PMapsIO.expected_id",
    "Verif.PMapsIO.event_without_peaks_blocks_reading",
    "Verif.PMapsIO.repeated_ids_break_roundtrip"
   ],
   "note": "Round trip for all sequences of events with distinct numbers and good peaks (distinct sensor ids fitting the columns, at most 65536 peaks of a kind). S1 SiPMs are not stored; an event without peaks makes the file unreadable; repeated sensor ids break the round trip. Old file formats not modelled; Float32 rounding idealised."
  },
  {
   "property": "C39",
   "status": "proved",
   "theorems": [
    "Verif.TableIO.first_write",
    "Verif.TableIO.write_appends",
    "Verif.TableIO.write_rejected",
    "Verif.TableIO.write_no_rows",
    "Verif.TableIO.writes_history",
    "Verif.TableIO.bad_index_column_writes_rows",
    "Verif.TableIO.good_index_column",
    "Verif.TableIO.load_spec"
   ],
   "note": "History theorem over any sequence of writes. Quirks: an empty dataframe with other columns is accepted silently; a wrong index column raises after the rows are written."
  },
  {
   "property": "C40",
   "status": "proved",
   "theorems": [
    "Verif.TableIO.records_complete",
    "Verif.TableIO.reader_spec",
    "Verif.TableIO.repeated_event_unreadable"
   ],
   "note": "Reader modelled as outer join on event; repeated events in differing filters cannot be read."
  },
  {
   "property": "C41",
   "status": "partial",
   "theorems": [
    "Verif.TableIO.one_row_per_event_partial",
    "Verif.TableIO.no_trigger_no_rows",
    "Verif.TableIO.type_zero_lost",
    "Verif.TableIO.wrong_width_refused"
   ],
   "note": "Violated for trigger type 0 (dropped as false): type_zero_lost."
  },
  {
   "property": "C42",
   "status": "partial",
   "theorems": [
    "Verif.KrEvent.store_rows_partial",
    "Verif.KrEvent.build_spec",
    "Verif.KrEvent.build_store_partial",
    "Verif.KrEvent.store_no_s2",
    "Verif.KrEvent.store_failed_reco",
    "Verif.KrEvent.build_no_sipms"
   ],
   "note": "build_spec: the event holds one entry per selected S1 and S2 with the peak's own features. store_rows_partial/build_store_partial: writing produces max(1,nS1)·nS2 rows, row (i,j) carrying S1 i and S2 j, when nS2>0 and every number of SiPMs fits the uint16 column. Missing: the row-count claim fails for an event without S2 (store_no_s2: TypeError) and after a failed XY reconstruction (store_failed_reco: OverflowError); an S2 without SiPM data cannot be built at all (build_no_sipms)."
  },
  {
   "property": "C43",
   "status": "partial",
   "theorems": [
    "Verif.Calib.integrate_spec",
    "Verif.Calib.integrate_refused",
    "Verif.Calib.filterLimits_spec_partial",
    "Verif.Calib.filterLimits_inside",
    "Verif.Calib.filterLimits_cuts_window",
    "Verif.Calib.limits_are_windows",
    "Verif.Calib.dark_light_disjoint",
    "Verif.Calib.dark_light_overlap",
    "Verif.Calib.windowsOf_spec",
    "Verif.Calib.calibration_integrals",
    "Verif.Calib.last_window_refused",
    "Verif.Calib.sumHistograms_spec",
    "Verif.Calib.accumulated_bins",
    "Verif.Calib.accumulated_total"
   ],
   "note": "Integrals and histograms for all inputs. The filter keeps whole windows only when the first half of the limits is not after the end of the buffer and the second half not before its start (filterLimits_cuts_window: otherwise a window can be cut); dark and light windows are disjoint when 2*width+gap <= period (dark_light_overlap otherwise); a window ending at the end of the buffer is kept by the filter but refused by the integration."
  },
  {
   "property": "C44",
   "status": "proved",
   "theorems": [
    "Verif.Sampling.normalize_distribution",
    "Verif.Sampling.threshold_spec",
    "Verif.Sampling.threshold_monotone",
    "Verif.Sampling.threshold_fraction",
    "Verif.Sampling.compute_thresholds",
    "Verif.Sampling.sample_spec",
    "Verif.Sampling.pad_pdfs_spec",
    "Verif.Sampling.padRow_spec",
    "Verif.Sampling.conv_spec",
    "Verif.Sampling.conv_total",
    "Verif.Sampling.conv_symmetric",
    "Verif.Sampling.multi_step",
    "Verif.Sampling.dark_threshold",
    "Verif.Sampling.dark_mean"
   ],
   "note": "Exact arithmetic over the rationals; the draws are arguments; fftconvolve is the exact convolution."
  },
  {
   "property": "C45",
   "status": "proved",
   "theorems": [
    "Verif.Detsim.spread_bins",
    "Verif.Detsim.spread_total",
    "Verif.Detsim.spread_conserves",
    "Verif.Detsim.raw_bins",
    "Verif.Detsim.create_wfs_bins",
    "Verif.Detsim.s2_light_conserved",
    "Verif.Detsim.buffer_times",
    "Verif.Detsim.event_light_conserved",
    "Verif.Detsim.fractional_smear_loses_light",
    "Verif.Detsim.early_electron_wraps",
    "Verif.Detsim.early_electron_raises",
    "Verif.Detsim.delayed_hits",
    "Verif.Detsim.delayed_hits_total",
    "Verif.Detsim.select_hits_text",
    "Verif.Detsim.select_hits_table",
    "Verif.Detsim.charge_fluctuation_spec",
    "Verif.Detsim.charge_fluctuation_zero",
    "Verif.Detsim.channel_to_ic"
   ],
   "note": "the findings (fractional number of bins per partition loses light; electrons before the buffer wrap to its end or raise) are theorems; exact rationals"
  },
  {
   "property": "C46",
   "status": "proved",
   "theorems": [
    "Verif.Deconv.cut_and_redistribute",
    "Verif.Deconv.drop_isolated_sensors",
    "Verif.Deconv.drop_isolated_clusters",
    "Verif.Deconv.zero_nhits_uses_positions",
    "Verif.Deconv.cut_over_Q",
    "Verif.Deconv.cut_over_Q_conserves",
    "Verif.Deconv.drop_isolated_two",
    "Verif.Deconv.drop_isolated_three",
    "Verif.Deconv.drop_isolated_parameters"
   ],
   "note": "Finding: with three distances a peak without big clusters raises TypeError; with nhits = 0 positions are confused with labels."
  },
  {
   "property": "C47",
   "status": "proved",
   "theorems": [
    "Verif.RandomSeed.state_restored",
    "Verif.RandomSeed.body_reproducible",
    "Verif.RandomSeed.guarded_transparent",
    "Verif.RandomSeed.nested_transparent"
   ],
   "note": "generator abstract: any state machine"
  },
  {
   "property": "C48",
   "status": "proved",
   "theorems": [
    "Verif.Core.overflowProtection_spec",
    "Verif.PMapsIO.storedPeakNumber_spec",
    "Verif.PMapsIO.storedPeakNumber_inj",
    "Verif.PMapsIO.rows_carry_number",
    "Verif.PMapsIO.peaks_beyond_limit_merge"
   ],
   "note": "Beyond 65535 all the peaks share the number 65535."
  },
  {
   "property": "C49",
   "status": "proved",
   "theorems": [
    "Verif.Components.effectiveRate_spec",
    "Verif.Components.timestamp_in_period",
    "Verif.Components.timestamp_increasing"
   ],
   "note": "the random draw is a parameter"
  },
  {
   "property": "C50",
   "status": "proved",
   "theorems": [
    "Verif.Paolina.extract_hits",
    "Verif.Paolina.extract_flag",
    "Verif.Paolina.extract_tracks",
    "Verif.Paolina.extract_track_id",
    "Verif.Paolina.extract_energy",
    "Verif.Paolina.extract_too_many",
    "Verif.Paolina.extract_geometry",
    "Verif.Paolina.extract_voxel_size",
    "Verif.Paolina.extract_blobs",
    "Verif.Paolina.extract_succeeds",
    "Verif.Paolina.summary_empty",
    "Verif.Paolina.summary_spec",
    "Verif.Paolina.summary_out_of_map",
    "Verif.Paolina.summary_zero",
    "Verif.Paolina.sortHits_spec",
    "Verif.Paolina.extract_no_hits",
    "Verif.Paolina.early_return_loses_hits",
    "Verif.Paolina.all_out_of_map_lost",
    "Verif.Paolina.zero_energy_hit_lost",
    "Verif.Paolina.equal_rows_overlap",
    "Verif.Paolina.extract_extremes",
    "Verif.ShortestPaths.extract_dijkstra"
   ],
   "note": "shortest paths, distances, diagonals and radii are arbitrary functions; the findings are the last four theorems and summary_out_of_map."
  },
  {
   "property": "C51",
   "status": "proved",
   "theorems": [
    "Verif.Buffers.orderPlane_spec",
    "Verif.Buffers.response_sorted",
    "Verif.Buffers.unsorted_db_swaps",
    "Verif.Buffers.fractional_charge_truncated"
   ],
   "note": "The order of the database query (order by SensorID) is an assumption. Findings: an unsorted database would exchange waveforms; fractional charges are truncated."
  },
  {
   "property": "C52",
   "status": "proved",
   "theorems": [
    "Verif.Buffers.bins_spec",
    "Verif.Buffers.sensorIds_spec",
    "Verif.Buffers.waveform_sample",
    "Verif.Buffers.waveform_total",
    "Verif.Buffers.waveform_all",
    "Verif.Buffers.firstAndLast_spec"
   ],
   "note": "Exact arithmetic."
  },
  {
   "property": "C53",
   "status": "proved",
   "theorems": [
    "Verif.HitBuilder.build_spec",
    "Verif.HitBuilder.build_energy",
    "Verif.HitBuilder.build_succeeds",
    "Verif.HitBuilder.build_no_s2",
    "Verif.HitBuilder.build_no_sipms"
   ],
   "note": "Full loop over a PMap, with the rebinned peaks of C17 and the hits of C22; the charge function and the reconstruction are arbitrary. build_succeeds is for raw charges. Findings: an event with S1 but no selected S2 (build_no_s2: ValueError) or with a selected S2 without SiPM data (build_no_sipms: IndexError) cannot be processed."
  },
  {
   "property": "C54",
   "status": "proved",
   "theorems": [
    "Verif.Calib.baseline_subtraction",
    "Verif.Calib.mean_sums_to_zero",
    "Verif.Calib.median_baseline",
    "Verif.Calib.mode_baseline",
    "Verif.Calib.calibration_spec",
    "Verif.Calib.subtract_and_calibrate",
    "Verif.Calib.maw_get",
    "Verif.Calib.calibrate_pmts_spec",
    "Verif.Calib.subtract_maw_spec"
   ],
   "note": "Exact arithmetic; scipy's mode not modelled."
  },
  {
   "property": "C55",
   "status": "proved",
   "theorems": [
    "Verif.PmapFlow.pmaps_accounting",
    "Verif.PmapFlow.irene_accounting"
   ],
   "note": "The functions on waveforms are parameters that must not raise on the events that reach them; writers are sinks that do not raise. pmaps_accounting holds for any continuation of the pipe that raises nothing."
  },
  {
   "property": "C56",
   "status": "proved",
   "theorems": [
    "Verif.Sources.wf_from_files",
    "Verif.Sources.wf_misaligned",
    "Verif.Sources.pmap_file",
    "Verif.Sources.pmap_from_files",
    "Verif.Sources.pmap_missing_raises",
    "Verif.Sources.hits_from_files",
    "Verif.Sources.hits_partition",
    "Verif.Sources.hits_of_other_events_lost",
    "Verif.Sources.dst_from_files",
    "Verif.Sources.dhits_file",
    "Verif.Sources.dhits_from_files",
    "Verif.Sources.mc_hits_from_files",
    "Verif.Sources.mc_sensors_from_file",
    "Verif.Sources.dhits_without_events"
   ],
   "note": "Files are records of optional nodes, dataframes are lists of rows; PMap files are those of the PMap writer (round trip C38). pmap_missing_raises and hits_of_other_events_lost are limits found. Reading of HDF5, dtypes and the string map of MC labels are not modelled."
  },
  {
   "property": "C57",
   "status": "proved",
   "theorems": [
    "Verif.Deconv.satellite_mask",
    "Verif.Deconv.kill_leaves_no_satellites",
    "Verif.Deconv.richardson_lucy",
    "Verif.Deconv.richardson_lucy_nonneg",
    "Verif.Deconv.zero_stays_zero",
    "Verif.Deconv.richardson_lucy_no_satellites",
    "Verif.Deconv.lucy_conserves",
    "Verif.Deconv.create_df",
    "Verif.Deconv.distribute_energy",
    "Verif.Deconv.deconvolved_hits",
    "Verif.Deconv.deconvolution_conserves",
    "Verif.Deconv.total_pos_of_abs",
    "Verif.Deconv.apply_deconvolution",
    "Verif.Deconv.find_nearest",
    "Verif.Deconv.peak_without_pixels_is_lost",
    "Verif.Deconv.richardson_lucy_steps",
    "Verif.Rounding.six_decimals"
   ],
   "note": "The deconvolution of a slice is a parameter of apply_deconvolution; richardson_lucy is modelled in two dimensions with exact convolution. Finding: a peak none of whose pixels passes the cut loses its energy silently."
  },
  {
   "property": "C58",
   "status": "proved",
   "theorems": [
    "Verif.Detsim.s1_bins",
    "Verif.Detsim.s1_total",
    "Verif.Detsim.s1_fractional_buffer",
    "Verif.Detsim.s1_pes"
   ],
   "note": "quad is a function of the bin; the finding (a buffer that is not a whole number of bins raises) is a theorem"
  },
  {
   "property": "C59",
   "status": "proved",
   "theorems": [
    "Verif.Detsim.electrons_count",
    "Verif.Detsim.electrons_of_hit",
    "Verif.Detsim.reached_le",
    "Verif.Detsim.electrons_no_diffusion",
    "Verif.Detsim.diffusion_before_buffer"
   ],
   "note": "random draws and the square root are arguments"
  },
  {
   "property": "C60",
   "status": "proved",
   "theorems": [
    "Verif.Detsim.sipm_lookup",
    "Verif.Detsim.sipm_offset_table",
    "Verif.Detsim.grid_covers",
    "Verif.Detsim.pmt_lookup",
    "Verif.Detsim.pmt_rectangular_table",
    "Verif.Detsim.cutLabel_nearest",
    "Verif.Detsim.light_function"
   ],
   "note": "the nearest-neighbour interpolation of scipy is a function argument; reading the files is not modelled"
  },
  {
   "property": "C61",
   "status": "proved",
   "theorems": [
    "Verif.McInfo.copied_rows",
    "Verif.McInfo.all_found_or_raises"
   ],
   "note": "For files of the 2020 format; rows are the event and an opaque number. With an event map that sends several selected events to one simulated event its rows are copied once."
  },
  {
   "property": "C62",
   "status": "partial",
   "theorems": [
    "Verif.McInfo.linked_partial",
    "Verif.McInfo.reindex_injective_partial",
    "Verif.McInfo.merged_files_collapse",
    "Verif.McInfo.wrong_configuration",
    "Verif.McInfo.unwanted_first_file_fails",
    "Verif.McInfo.unwanted_file_shares_index",
    "Verif.McInfo.string_map_loses_ids"
   ],
   "note": "Proved when every source file is unmerged and has some selected event. Otherwise false, with machine-checked witnesses: merged files copied after another collapse into one index, indices of mapping and configuration differ when only some of the sources of a merged file are selected, a first file without selected events makes the copy fail with IndexError, later ones share the index with the next file."
  },
  {
   "property": "C63",
   "status": "partial",
   "theorems": [
    "Verif.McInfo.old_rows_blocks",
    "Verif.McInfo.old_rows_partial",
    "Verif.McInfo.empty_event_gets_a_row",
    "Verif.McInfo.old_rows_refused",
    "Verif.McInfo.read_hits_events"
   ],
   "note": "Proved when every event has rows; an event without rows gets a copy of the last row of the previous one (empty_event_gets_a_row); the exact result in all cases is old_rows_blocks."
  },
  {
   "property": "C64",
   "status": "partial",
   "theorems": [
    "Verif.McInfo.cast_event",
    "Verif.McInfo.cast_hits_partial",
    "Verif.McInfo.cast_loses_hits"
   ],
   "note": "Proved when the hits of each event have different numbers; of several hits with the same number (which different particles may have) only the first is kept."
  },
  {
   "property": "C65",
   "status": "partial",
   "theorems": [
    "Verif.McInfo.times_of_bins",
    "Verif.McInfo.no_position_no_row",
    "Verif.McInfo.strip_binning_partial",
    "Verif.McInfo.strip_binning_wrong"
   ],
   "note": "The times are proved; the name of the type is right when it neither starts nor ends with a character of \"_binning\" (str.strip removes characters, not the suffix)."
  },
  {
   "property": "C66",
   "status": "proved",
   "theorems": [
    "Verif.Cities.dorothea_accounts",
    "Verif.Cities.sophronia_accounts"
   ],
   "note": "User functions are total parameters; print_every and the copies after the run are not modelled."
  },
  {
   "property": "C67",
   "status": "proved",
   "theorems": [
    "Verif.Cities.beersheba_accounts"
   ],
   "note": "User functions are total parameters."
  },
  {
   "property": "C68",
   "status": "proved",
   "theorems": [
    "Verif.Cities.esmeralda_accounts",
    "Verif.Cities.isaura_accounts"
   ],
   "note": "User functions are total parameters."
  },
  {
   "property": "C69",
   "status": "proved",
   "theorems": [
    "Verif.Cities.detsim_accounts",
    "Verif.Cities.buffy_accounts"
   ],
   "note": "User functions are total parameters; the four waveform components of detsim and the three binning components of buffy are one function each."
  },
  {
   "property": "C70",
   "status": "proved",
   "theorems": [
    "Verif.Cities.diomira_accounts",
    "Verif.Cities.isidora_accounts"
   ],
   "note": "User functions are total parameters."
  },
  {
   "property": "C71",
   "status": "proved",
   "theorems": [
    "Verif.Cities.lightDark_accounts",
    "Verif.Cities.berenice_accounts"
   ],
   "note": "Sum of histograms as in Verif.Calib.sumHistograms (its entries: Verif.Calib.sumHistograms_spec)."
  },
  {
   "property": "C72",
   "status": "proved",
   "theorems": [
    "Verif.Psf.accumulate_spec",
    "Verif.Psf.accumulate_order",
    "Verif.Psf.accumulated_average",
    "Verif.Psf.eutropia_table",
    "Verif.Psf.eutropia_nothing",
    "Verif.Psf.slices_in_z",
    "Verif.Psf.sectors_in_xy",
    "Verif.Psf.narrow_sectors_collapse",
    "Verif.Psf.chargeless_event_spoils_bin",
    "Verif.Psf.different_bins_fail",
    "Verif.Rounding.two_decimals"
   ],
   "note": ""
  },
  {
   "property": "C73",
   "status": "proved",
   "theorems": [
    "Verif.Psf.peak_prepared",
    "Verif.Psf.peaks_independent",
    "Verif.Psf.repeated_position_loses_charge",
    "Verif.Psf.sensor_twice",
    "Verif.Psf.chargeless_peak"
   ],
   "note": "under the preconditions of the statement, each with a witness of its necessity"
  },
  {
   "property": "C74",
   "status": "proved",
   "theorems": [
    "Verif.KrMap.map_rows",
    "Verif.KrMap.one_bin",
    "Verif.KrMap.regularize_spec",
    "Verif.KrMap.isolated_hole",
    "Verif.KrMap.fill_not_symmetric",
    "Verif.KrMap.regularize_readonly",
    "Verif.KrMap.compute_spec",
    "Verif.KrMap.gaussian_value",
    "Verif.KrMap.map_density",
    "Verif.KrMap.compute_refused"
   ],
   "note": ""
  },
  {
   "property": "C75",
   "status": "proved",
   "theorems": [
    "Verif.KrApply.firstNearest_spec",
    "Verif.KrApply.corrected_energy",
    "Verif.KrApply.corrected_pes",
    "Verif.KrApply.useless_normalization",
    "Verif.KrApply.normalization_spec",
    "Verif.KrApply.region_without_limits",
    "Verif.KrApply.corrected_hits",
    "Verif.KrApply.temporal_correction_fails",
    "Verif.KrApply.input_modified"
   ],
   "note": "the nearest neighbour search of scipy is a parameter with a contract"
  },
  {
   "property": "C76",
   "status": "proved",
   "theorems": [
    "Verif.Selection.selected_rows",
    "Verif.Selection.selection_succeeds",
    "Verif.Selection.efficiencies_spec",
    "Verif.Selection.efficiencies_multiply",
    "Verif.Selection.null_time_selects_two"
   ],
   "note": ""
  },
  {
   "property": "C77",
   "status": "proved",
   "theorems": [
    "Verif.TimeEvol.slices_spec",
    "Verif.TimeEvol.slices_errors",
    "Verif.TimeEvol.single_spec",
    "Verif.TimeEvol.events_conserved",
    "Verif.TimeEvol.region_spec"
   ],
   "note": "parameters that come from fits are not modelled"
  },
  {
   "property": "C78",
   "status": "proved",
   "theorems": [
    "Verif.Corrections.coefficient_inside",
    "Verif.Corrections.coefficient_outside",
    "Verif.Corrections.interp_spec",
    "Verif.Corrections.timeFactor_spec",
    "Verif.Corrections.constant_evolution",
    "Verif.Corrections.normalization_simple",
    "Verif.Corrections.normalization_region",
    "Verif.Corrections.region_without_columns",
    "Verif.Corrections.normalization_scaled",
    "Verif.Corrections.factor_inside",
    "Verif.Corrections.factor_outside",
    "Verif.Corrections.missing_table",
    "Verif.Corrections.factor_scaled",
    "Verif.Corrections.toZ_spec"
   ],
   "note": "the exponential is a parameter"
  },
  {
   "property": "C79",
   "status": "proved",
   "theorems": [
    "Verif.Profile.profile_dropped",
    "Verif.Profile.profile_full",
    "Verif.Profile.profile_partition",
    "Verif.Profile.default_range",
    "Verif.Profile.profileY_spec",
    "Verif.Profile.profileXY_spec",
    "Verif.Profile.empty_bins_are_zero"
   ],
   "note": "Exact numbers; the deviations are given by their squares. The documentation says that the default range is that of the data, and the code leaves out the points at the maximum (part of the statement)."
  },
  {
   "property": "C80",
   "status": "proved",
   "theorems": [
    "Verif.FixedPars.fixed_accepts",
    "Verif.FixedPars.fixed_call",
    "Verif.FixedPars.fixed_call_wrong",
    "Verif.FixedPars.history_independent",
    "Verif.FixedPars.fixed_twice"
   ],
   "note": "Parameter names are different, as Python requires; NaN is a value of its own. The docstring and the attribute n_gaussians are not modelled."
  },
  {
   "property": "C81",
   "status": "proved",
   "theorems": [
    "Verif.FixedPars.fit_range",
    "Verif.FixedPars.fit_sigma",
    "Verif.FixedPars.fit_result",
    "Verif.FixedPars.fit_chi2"
   ],
   "note": "curve_fit is an arbitrary function of the points (any result or error); the errors are given by their squares and the p-value is not modelled; one-dimensional uncertainties."
  },
  {
   "property": "C82",
   "status": "proved",
   "theorems": [
    "Verif.LoadDb.pmt_rows",
    "Verif.LoadDb.pmt_sensors",
    "Verif.LoadDb.pmt_single",
    "Verif.LoadDb.run_number",
    "Verif.LoadDb.sipm_rows",
    "Verif.LoadDb.sipm_sensors",
    "Verif.LoadDb.sipm_single",
    "Verif.LoadDb.repeated_rows"
   ],
   "note": "The queries are modelled as joins of lists with NULL; the cache and SQLite itself are not modelled. repeated_rows shows what happens without the hypothesis of a single valid row."
  },
  {
   "property": "C83",
   "status": "proved",
   "theorems": [
    "Verif.LoadDb.noise_spec",
    "Verif.LoadDb.noise_incomplete",
    "Verif.LoadDb.noise_run_zero"
   ],
   "note": "."
  },
  {
   "property": "C84",
   "status": "proved",
   "theorems": [
    "Verif.LoadDb.version_spec",
    "Verif.LoadDb.version_default",
    "Verif.LoadDb.version_efficiency"
   ],
   "note": "The order of the entries (that of GROUP BY) is not part of the statement."
  },
  {
   "property": "C85",
   "status": "proved",
   "theorems": [
    "Verif.Blr.deconvolve_errors",
    "Verif.Blr.deconvolve_spec",
    "Verif.Blr.charging_formula",
    "Verif.Blr.inverts_coupling",
    "Verif.Blr.causal",
    "Verif.Blr.restored",
    "Verif.Blr.discharge_length",
    "Verif.Blr.runoff"
   ],
   "note": "Over ℚ; the tangent of the filter design is a parameter with 1 + tan ≠ 0. inverts_coupling assumes c > 0, restored 0 < c ≤ 1 and a positive threshold. discharge_length and runoff are findings."
  },
  {
   "property": "C86",
   "status": "proved",
   "theorems": [
    "Verif.Blr.deconvPmt_assertion",
    "Verif.Blr.deconvPmt_spec",
    "Verif.Blr.deconvPmt_works",
    "Verif.Blr.deconvPmt_offset",
    "Verif.Blr.cwfFromRwf_spec"
   ],
   "note": "."
  },
  {
   "property": "C87",
   "status": "partial",
   "theorems": [
    "Verif.Blr.trigger_own_partial",
    "Verif.Blr.trigger_result",
    "Verif.Blr.trigger_masked",
    "Verif.Blr.trigger_inactive",
    "Verif.Blr.trigger_other_waveform"
   ],
   "note": "False in general (trigger_other_waveform): the k-th trigger channel gets the k-th waveform (trigger_result). True if the trigger channels are those of the first PMTs in order and all are active."
  },
  {
   "property": "C88",
   "status": "proved",
   "theorems": [
    "Verif.Fee.spe_area",
    "Verif.Fee.spe_length",
    "Verif.Fee.pulse_spec",
    "Verif.Fee.pulse_out",
    "Verif.Fee.train_area",
    "Verif.Fee.pulses_spec",
    "Verif.Fee.pulses_lost",
    "Verif.Fee.lfilter_spec",
    "Verif.Fee.lfilter_error",
    "Verif.Fee.response_unique",
    "Verif.Fee.lfilter_iff",
    "Verif.Fee.cascade",
    "Verif.Fee.response_linear",
    "Verif.Fee.response_take",
    "Verif.Fee.response_delay",
    "Verif.Fee.lpf_spec",
    "Verif.Fee.fee_spec",
    "Verif.Fee.low_plus_high",
    "Verif.Fee.clean_eq"
   ],
   "note": "Over ℚ; the Butterworth filters of first order are functions of the tangent of the prewarping, the one of order 4 is any filter whose first denominator coefficient is not zero."
  },
  {
   "property": "C89",
   "status": "proved",
   "theorems": [
    "Verif.Fee.simulate_spec",
    "Verif.Fee.simulate_length",
    "Verif.Fee.simulate_each"
   ],
   "note": "The decimation and the values drawn are parameters."
  },
  {
   "property": "C90",
   "status": "proved",
   "theorems": [
    "Verif.Fee.box_noise",
    "Verif.Fee.low_noise",
    "Verif.Fee.low_noise_error",
    "Verif.Fee.limits_spec",
    "Verif.Fee.low_rows"
   ],
   "note": "The cosine and the values drawn are parameters."
  },
  {
   "property": "C91",
   "status": "proved",
   "theorems": [
    "Verif.HitsIO.hitsFromDf_spec",
    "Verif.HitsIO.event_complete",
    "Verif.HitsIO.mkHit_spec",
    "Verif.HitsIO.hitOf_unique",
    "Verif.HitsIO.keys_sorted",
    "Verif.HitsIO.loadHits_spec",
    "Verif.HitsIO.two_times_lost",
    "Verif.HitsIO.energy_nn_replaced"
   ],
   "note": "The obligatory columns hold numbers; only times can be NaN."
  },
  {
   "property": "C92",
   "status": "proved",
   "theorems": [
    "Verif.HitsIO.hits_round_trip",
    "Verif.HitsIO.read_hit_wf"
   ],
   "note": ""
  },
  {
   "property": "C93",
   "status": "proved",
   "theorems": [
    "Verif.HitsIO.voxels_round_trip",
    "Verif.HitsIO.voxels_energy_lost",
    "Verif.HitsIO.storeTracks_spec",
    "Verif.HitsIO.tracks_event_lost"
   ],
   "note": "A row of PyTables is set to its defaults after each append."
  },
  {
   "property": "C94",
   "status": "proved",
   "theorems": [
    "Verif.ChannelParams.columns_spec",
    "Verif.ChannelParams.newTable_good",
    "Verif.ChannelParams.store_accepted",
    "Verif.ChannelParams.store_rejected",
    "Verif.ChannelParams.history",
    "Verif.ChannelParams.missing_default",
    "Verif.ChannelParams.failed_call_leaks",
    "Verif.ChannelParams.allChannelValueReader_spec",
    "Verif.ChannelParams.tables_independent",
    "Verif.ChannelParams.generatorParamReader_spec",
    "Verif.ChannelParams.subsetParamReader_spec",
    "Verif.ChannelParams.singleChannelValueReader_spec",
    "Verif.ChannelParams.createParamTable_spec",
    "Verif.ChannelParams.covariance_as_parameter",
    "Verif.ChannelParams.covariance_one_parameter"
   ],
   "note": "Numbers are exact (the columns have 32-bit floats)."
  },
  {
   "property": "C95",
   "status": "proved",
   "theorems": [
    "Verif.Spe.number_iff",
    "Verif.Spe.number_exact",
    "Verif.Spe.number_terminates",
    "Verif.Spe.number_diverges",
    "Verif.Spe.large_mean_no_gaussians",
    "Verif.Spe.mode_spec",
    "Verif.Spe.sumOfGaussians_spec",
    "Verif.Spe.sumOfGaussians_terminates",
    "Verif.Spe.scaledDarkPedestal_spec"
   ],
   "note": "The exponential and the gaussian are parameters."
  },
  {
   "property": "C96",
   "status": "proved",
   "theorems": [
    "Verif.Spe.getPadding_spec",
    "Verif.Spe.darkConvolution_spec",
    "Verif.Spe.darkConvolution_terminates",
    "Verif.Spe.distance_is_energy",
    "Verif.Spe.shifted_bins"
   ],
   "note": "The exponential and the gaussian are parameters; the sum of the dark spectrum is not zero."
  },
  {
   "property": "C97",
   "status": "proved",
   "theorems": [
    "Verif.Clusters.event_clusters",
    "Verif.Clusters.event_refused",
    "Verif.Clusters.tagger_events",
    "Verif.Clusters.tagger_sorted",
    "Verif.Clusters.tagger_misplaced",
    "Verif.Clusters.tagger_empty",
    "Verif.Clusters.tagger_refused"
   ],
   "note": "DBSCAN is modelled after the loop of scikit-learn. When the hits are not given by increasing event the index of a hit goes to another one (tagger_misplaced)."
  },
  {
   "property": "C98",
   "status": "proved",
   "theorems": [
    "Verif.DeconvInput.input_interpolated",
    "Verif.DeconvInput.input_pixels",
    "Verif.DeconvInput.border_displaced",
    "Verif.DeconvInput.inner_cell",
    "Verif.DeconvInput.charge_lost",
    "Verif.DeconvInput.input_empty"
   ],
   "note": "scipy's griddata is a parameter. Without interpolation the positions of the cells at the border of the region are not the points of the grid (border_displaced)."
  },
  {
   "property": "C99",
   "status": "proved",
   "theorems": [
    "Verif.Seeds.pedestal_removed",
    "Verif.Seeds.mu_seed",
    "Verif.Seeds.seeds_fixed_pedestal",
    "Verif.Seeds.seeds_free_pedestal",
    "Verif.Seeds.transposed_bounds",
    "Verif.Seeds.seeds_by_position",
    "Verif.Seeds.other_sensor",
    "Verif.Seeds.centroid_spec",
    "Verif.Seeds.window",
    "Verif.Seeds.window_lost",
    "Verif.Seeds.empty_bin_raises",
    "Verif.Seeds.gain_seeds",
    "Verif.Seeds.mu_data"
   ],
   "note": "gaussian, root, searches and fits are parameters; the transposed bounds are a finding"
  }
 ]
}