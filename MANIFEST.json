{
 "claims": [
  {
   "property": "C01",
   "status": "proved",
   "theorems": [
    "DP3.BaselineIndices.baselineIndex_lt",
    "DP3.BaselineIndices.baselineIndex_comm",
    "DP3.BaselineIndices.baseline_baselineIndex",
    "DP3.BaselineIndices.baselineIndex_injective",
    "DP3.BaselineIndices.baselineIndex_baseline"
   ],
   "note": "Rounding of the floating point square root is not modelled."
  },
  {
   "property": "C02",
   "status": "proved",
   "theorems": [
    "DP3.BaselineIndices.baselineList_spec",
    "DP3.BaselineIndices.baselineList_getElem"
   ],
   "note": ""
  },
  {
   "property": "C03",
   "status": "proved",
   "theorems": [
    "DP3.Chain.chainRequired_iff",
    "DP3.Chain.split_required_iff"
   ],
   "note": ""
  },
  {
   "property": "C04",
   "status": "proved",
   "theorems": [
    "DP3.Chain.runsWith_iff",
    "DP3.Chain.runsWith_chainRequired",
    "DP3.Chain.not_runsWith_of_missing",
    "DP3.Chain.makeMainSteps_runs"
   ],
   "note": "Includes nested Split steps."
  },
  {
   "property": "C05",
   "status": "proved",
   "theorems": [
    "DP3.Chain.setChain_toldToWrite",
    "DP3.Chain.setChain_sameOutputs",
    "DP3.Chain.chainProvided_iff",
    "DP3.Chain.makeMainSteps_nothing_unwritten"
   ],
   "note": "Includes nested Split steps and the output step added at the end."
  },
  {
   "property": "C06",
   "status": "partial",
   "theorems": [
    "DP3.BdaBuffer.capacity_and_pool_sizes",
    "DP3.BdaBuffer.capacity_constant",
    "DP3.BdaBuffer.addRow_refused_iff",
    "DP3.BdaBuffer.rows_overlap_without_pool",
    "DP3.BdaBuffer.rows_consecutive_partial",
    "DP3.BdaBuffer.rows_consecutive_of_flags_or_weights",
    "DP3.BdaBuffer.consecutive_disjoint"
   ],
   "note": "Everything holds except the placement of rows added while no pool is enabled: there the rows overlap (negation proved with a witness)."
  },
  {
   "property": "C07",
   "status": "proved",
   "theorems": [
    "DP3.BdaBuffer.addRow_getData",
    "DP3.BdaBuffer.addRow_getFlags",
    "DP3.BdaBuffer.addRow_getWeights",
    "DP3.BdaBuffer.getData_stable"
   ],
   "note": ""
  },
  {
   "property": "C08",
   "status": "proved",
   "theorems": [
    "DP3.Averager.average_spec",
    "DP3.Averager.channel_in_one_bin"
   ],
   "note": "Weights in a field, data in a vector space over it; floats and output time/exposure not modelled."
  },
  {
   "property": "C09",
   "status": "proved",
   "theorems": [
    "DP3.Averager.run_chunks",
    "DP3.Averager.run_noAvg"
   ],
   "note": "State machine process/finish over the whole input stream."
  },
  {
   "property": "C10",
   "status": "proved",
   "theorems": [
    "DP3.BdaAverager.rows_of_baseline",
    "DP3.BdaAverager.channel_in_one_group",
    "DP3.BdaAverager.outputChannels_bounds",
    "DP3.BdaAverager.outputChannels_out_of_bounds",
    "DP3.BdaAverager.timeFactor_pos",
    "DP3.BdaAverager.small_request_fails"
   ],
   "note": "For regular slot times and size requests that fit a row; too small requests and bad minchannels values fail (witnesses)."
  },
  {
   "property": "C11",
   "status": "partial",
   "theorems": [
    "DP3.BdaAverager.rows_of_baseline",
    "DP3.BdaAverager.uvw_mean_partial",
    "DP3.BdaAverager.uvw_not_mean"
   ],
   "note": "Weights and weighted means proved for non-negative weights; UVW mean is false for rows without weight (witness) and proved otherwise."
  },
  {
   "property": "C12",
   "status": "proved",
   "theorems": [
    "DP3.BdaExpander.run_slots",
    "DP3.BdaExpander.run_division"
   ],
   "note": "Rows not before the start time, positive intervals; incomplete slots are dropped by finish (as in the code)."
  },
  {
   "property": "C13",
   "status": "proved",
   "theorems": [
    "DP3.Interpolate.run_spec"
   ],
   "note": "Window walk, finish flush, kernel table indexing and flag handling; equals interpolation over the whole stream."
  },
  {
   "property": "C14",
   "status": "proved",
   "theorems": [
    "DP3.Interpolate.schedule_independent",
    "DP3.Interpolate.schedule_completes"
   ],
   "note": "Every order of samples and every interleaving of cell reads and result writes."
  },
  {
   "property": "C15",
   "status": "proved",
   "theorems": [
    "DP3.Lane.delivered_once",
    "DP3.Lane.single_consumer",
    "DP3.Lane.not_stuck",
    "DP3.Lane.exec_bounded",
    "DP3.Lane.empty_read_buffer"
   ],
   "note": "All interleavings, one producer and any number of consumers, read buffers of at least one element; a zero-size read buffer reports the end at once (empty_read_buffer). The contract of aocommon::Lane (external) is assumed."
  },
  {
   "property": "C16",
   "status": "proved",
   "theorems": [
    "DP3.Upsample.run_spec",
    "DP3.Upsample.run_times",
    "DP3.Upsample.run_regular",
    "DP3.Upsample.exposure_sum",
    "DP3.Upsample.empty_stream",
    "DP3.Upsample.triple_overlap",
    "DP3.Upsample.equal_times"
   ],
   "note": "Times over an ordered field with the real tolerance of 0.4 fine intervals. Witnesses show that the hypotheses (non-empty, increasing, no triple overlap) are needed."
  },
  {
   "property": "C17",
   "status": "proved",
   "theorems": [
    "DP3.MsReader.run_regular",
    "DP3.MsReader.run_irregular",
    "DP3.MsReader.run_ends",
    "DP3.MsReader.last_slot_lost",
    "DP3.MsReader.time_goes_back"
   ],
   "note": "Exact arithmetic. last_slot_lost shows that the exception near the last time is real, time_goes_back that the order hypothesis is needed."
  },
  {
   "property": "C18",
   "status": "proved",
   "theorems": [
    "DP3.MsReader.flagInfinityNan_flags",
    "DP3.MsReader.flagInfinityNan_uniform",
    "DP3.MsReader.flagInfinityNan_counts",
    "DP3.MsReader.flags_without_data"
   ],
   "note": "Holds when data and flags are read; flags_without_data shows that it does not when only flags are read."
  },
  {
   "property": "C19",
   "status": "proved",
   "theorems": [
    "DP3.MultiMsReader.process_spec",
    "DP3.MultiMsReader.process_rejects",
    "DP3.MultiMsReader.axis_spec",
    "DP3.MultiMsReader.times_differ"
   ],
   "note": "Reading of the single measurement sets is covered by C17. times_differ: the times of the measurement sets are not compared."
  },
  {
   "property": "C20",
   "status": "proved",
   "theorems": [
    "DP3.PreFlaggerExpr.parse_eval",
    "DP3.PreFlaggerExpr.expr_eval"
   ],
   "note": "Grammar with three levels as specification; all token lists of the grammar."
  },
  {
   "property": "C21",
   "status": "proved",
   "theorems": [
    "DP3.PreFlaggerExpr.parse_accepts",
    "DP3.PreFlaggerExpr.accepted_evaluates"
   ],
   "note": "Acceptance is equivalent to membership in the grammar."
  },
  {
   "property": "C22",
   "status": "partial",
   "theorems": [
    "DP3.PreFlaggerSet.process_spec_partial",
    "DP3.PreFlaggerSet.empty_channels"
   ],
   "note": "Holds when every channel or frequency selection matches a channel of the data; otherwise such a selection is ignored (witness). Values derived by casacore (sidereal time, azimuth, elevation) are inputs."
  },
  {
   "property": "C23",
   "status": "partial",
   "theorems": [
    "DP3.PreFlaggerSet.modes_partial",
    "DP3.PreFlaggerSet.set_misses",
    "DP3.PreFlaggerSet.clear_flags"
   ],
   "note": "Holds when all correlations of a visibility have equal flags; clear flags selected visibilities that are invalid (witnesses)."
  },
  {
   "property": "C24",
   "status": "proved",
   "theorems": [
    "DP3.BaselineSelection.apply_symmetric",
    "DP3.BaselineSelection.apply_spec",
    "DP3.BaselineSelection.apply_rejects",
    "DP3.BaselineSelection.applyVec_spec",
    "DP3.BaselineSelection.makeRanges_spec"
   ],
   "note": "Pattern matching and the casacore MSSelection result are inputs; lengths are any symmetric function."
  },
  {
   "property": "C25",
   "status": "proved",
   "theorems": [
    "DP3.DPInfo.run_bookkept",
    "DP3.DPInfo.remove_spec",
    "DP3.DPInfo.select_baselines",
    "DP3.DPInfo.setAntennas_rejects"
   ],
   "note": "By induction over all call sequences."
  },
  {
   "property": "C26",
   "status": "partial",
   "theorems": [
    "DP3.DPInfo.update_channels",
    "DP3.DPInfo.update_rejects",
    "DP3.DPInfo.update_regular",
    "DP3.DPInfo.centre_partial",
    "DP3.DPInfo.centre_off"
   ],
   "note": "Counts and sums proved in general. The averaged frequency is the centre of its bin exactly if the first and last channel of the bin have the same width (centre_partial); otherwise the code is off (centre_off)."
  },
  {
   "property": "C27",
   "status": "partial",
   "theorems": [
    "DP3.Filter.filter_partial",
    "DP3.Filter.empty_selection"
   ],
   "note": "Proved for every shape, channel range and selection with at least one baseline; a selection without baselines lets all baselines through (empty_selection, proved for all inputs)."
  },
  {
   "property": "C28",
   "status": "proved",
   "theorems": [
    "DP3.Filter.createIdMap_spec",
    "DP3.Filter.addToMS_spec"
   ],
   "note": "QUALITY_BASELINE_STATISTIC (two antenna columns) is not modelled."
  },
  {
   "property": "C29",
   "status": "proved",
   "theorems": [
    "DP3.MadFlagger.clipWindow_spec",
    "DP3.MadFlagger.windowChannels_spec"
   ],
   "note": "Window sizes and the channels of the frequency window, as a multiset, for every odd window and channel."
  },
  {
   "property": "C30",
   "status": "partial",
   "theorems": [
    "DP3.MadFlagger.run_partial",
    "DP3.MadFlagger.offsets_take",
    "DP3.MadFlagger.short_input"
   ],
   "note": "Proved for at least as many time slots as the window; short_input proves that the code fails (reads outside timeEntries) for every shorter input."
  },
  {
   "property": "C31",
   "status": "partial",
   "theorems": [
    "DP3.MadFlagger.corr_partial",
    "DP3.MadFlagger.corr_outside",
    "DP3.MadFlagger.corr_wrong"
   ],
   "note": "The code violates it: the list is indexed by its own values. corr_partial covers lists that are reorderings of 0..n-1; corr_outside shows an out-of-range read for any other list with a too large value, such as [0,3]."
  },
  {
   "property": "C32",
   "status": "proved",
   "theorems": [
    "DP3.SolveData.regular_spec",
    "DP3.SolveData.regular_each_once",
    "DP3.SolveData.channels_partition",
    "DP3.SolveData.countAntenna_spec",
    "DP3.SolveData.nSolutionVisibilities_spec"
   ],
   "note": "All shapes; the stored cells are given exactly, in order, including the absence of out-of-range writes."
  },
  {
   "property": "C33",
   "status": "proved",
   "theorems": [
    "DP3.SolveData.solutionIndex_spec",
    "DP3.SolveData.limit_spec"
   ],
   "note": "For at least one requested solution per direction."
  },
  {
   "property": "C34",
   "status": "proved",
   "theorems": [
    "DP3.SolveData.resample_spec",
    "DP3.SolveData.nSubsteps_spec"
   ],
   "note": "For full solution intervals, which DDECal guarantees by padding, and numbers of solutions dividing the interval, which the settings require."
  },
  {
   "property": "C35",
   "status": "proved",
   "theorems": [
    "DP3.BdaSolverBuffer.interval_rows",
    "DP3.BdaSolverBuffer.every_row"
   ],
   "note": "Any sequence of AppendAndWeight, AdvanceInterval and GetDone calls; a row of a past interval is undefined behaviour (assert only)."
  },
  {
   "property": "C36",
   "status": "proved",
   "theorems": [
    "DP3.BdaSolverBuffer.done_prefix",
    "DP3.BdaSolverBuffer.done_prompt"
   ],
   "note": "Also: the first buffer kept always has a row of the current or a later interval."
  },
  {
   "property": "C37",
   "status": "partial",
   "theorems": [
    "DP3.BdaSolverBuffer.complete_partial",
    "DP3.BdaSolverBuffer.complete_not_final",
    "DP3.BdaSolverBuffer.accepted_order",
    "DP3.BdaSolverBuffer.disorder_refused"
   ],
   "note": "Holds for rows ordered per baseline; without that the claim is false: the ordering check accepts a row that goes back by one interval (complete_not_final)."
  },
  {
   "property": "C38",
   "status": "proved",
   "theorems": [
    "DP3.Constraints.antenna_mean",
    "DP3.Constraints.antenna_other",
    "DP3.Constraints.antenna_idempotent",
    "DP3.Constraints.antenna_overlap"
   ],
   "note": "For disjoint sets (the settings do not exclude overlapping ones, for which antenna_overlap shows that the claim fails)."
  },
  {
   "property": "C39",
   "status": "proved",
   "theorems": [
    "DP3.Constraints.interval_mean",
    "DP3.Constraints.initialize_ok"
   ],
   "note": "All factors that Initialize accepts."
  },
  {
   "property": "C40",
   "status": "partial",
   "theorems": [
    "DP3.SolverBase.makeFinite1_spec",
    "DP3.SolverBase.makeFinite2_partial",
    "DP3.SolverBase.makeFinite4_partial",
    "DP3.SolverBase.wrong_polarisation"
   ],
   "note": "Holds for one polarisation. For two and four polarisations the code uses the amplitude of the first polarisation for all of them; proved what it does, and the violation with a witness."
  },
  {
   "property": "C41",
   "status": "proved",
   "theorems": [
    "DP3.Clustering.group_spec",
    "DP3.Clustering.group_partition",
    "DP3.Clustering.group_close",
    "DP3.Clustering.group_apart"
   ],
   "note": "Positions and distance are parameters; group_close and group_apart assume that the mean position of a single source is that source."
  },
  {
   "property": "C42",
   "status": "proved",
   "theorems": [
    "DP3.StringTools.expand_denotes",
    "DP3.StringTools.expand_other",
    "DP3.StringTools.expand_unchanged",
    "DP3.StringTools.repeat_zero",
    "DP3.StringTools.range_overflow",
    "DP3.StringTools.dots_quote"
   ],
   "note": "For every list of items of the notation (text, quoted text, ranges with prefix and suffix, sub-arrays, repetitions with and without parentheses, nested without bound). Semicolons inside parentheses are not in the notation. repeat_zero, range_overflow and dots_quote show what happens just outside it."
  },
  {
   "property": "C43",
   "status": "proved",
   "theorems": [
    "DP3.ParamSet.subset_value",
    "DP3.ParamSet.subset_keeps",
    "DP3.ParamSet.subtract_value",
    "DP3.ParamSet.adopt_value",
    "DP3.ParamSet.adopt_self",
    "DP3.ParamSet.arguments_last",
    "DP3.ParamSet.arguments_other",
    "DP3.ParamSet.remove_value",
    "DP3.ParamSet.add_value",
    "DP3.ParamSet.run_sorted"
   ],
   "note": "Both comparison modes; ASCII keys; the mutex is not modelled."
  },
  {
   "property": "C44",
   "status": "partial",
   "theorems": [
    "DP3.ParamSet.unused_spec_partial",
    "DP3.ParamSet.unused_nocase"
   ],
   "note": "Holds after every history in the case-sensitive mode (the default). In the case-insensitive mode it fails: unused_nocase."
  },
  {
   "property": "C45",
   "status": "proved",
   "theorems": [
    "DP3.ParamValue.split_iff",
    "DP3.ParamValue.split_blank",
    "DP3.ParamValue.split_throws",
    "DP3.ParamValue.vector_spec",
    "DP3.ParamValue.vector_single"
   ],
   "note": "split_iff is an equivalence for every string, so unbalanced strings throw."
  },
  {
   "property": "C46",
   "status": "proved",
   "theorems": [
    "DP3.ParmGrid.cell_id_inverse",
    "DP3.ParmGrid.cell_location_inverse",
    "DP3.ParmGrid.cell_id_wraps"
   ],
   "note": "With more than 2^32 cells ids are not unique (cell_id_wraps)."
  },
  {
   "property": "C47",
   "status": "partial",
   "theorems": [
    "DP3.ParmGrid.toDomains_cells_partial",
    "DP3.ParmGrid.toDomains_overrun"
   ],
   "note": "Proved if y has not more cells than x; otherwise the code writes behind its buffers (toDomains_overrun)."
  },
  {
   "property": "C48",
   "status": "proved",
   "theorems": [
    "DP3.ParmGrid.find_sound",
    "DP3.ParmGrid.find_inside",
    "DP3.ParmGrid.find_outside",
    "DP3.ParmGrid.locate_inside",
    "DP3.ParmGrid.locate_outside",
    "DP3.ParmGrid.regular_cell",
    "DP3.ParmGrid.regular_length",
    "DP3.ParmGrid.regular_valid"
   ],
   "note": "For exact comparison of values, any bias and any search hint; find_sound also for any near."
  },
  {
   "property": "C49",
   "status": "partial",
   "theorems": [
    "DP3.Transfer.transfer_channels_partial",
    "DP3.Transfer.transfer_strict_partial",
    "DP3.Transfer.transfer_overrun",
    "DP3.Transfer.block_inside",
    "DP3.Transfer.transfer_rows",
    "DP3.Transfer.transfer_descending",
    "DP3.Transfer.flag_transfer_edges"
   ],
   "note": "Proved for ascending frequencies, with the read behind the end of the frequencies giving any value. Missing: the code does that read in every normal case (transfer_overrun), descending frequencies (transfer_descending) and the edges of FlagTransfer for channels of different widths (flag_transfer_edges) are wrong."
  },
  {
   "property": "C50",
   "status": "partial",
   "theorems": [
    "DP3.UvwFlagger.process_exact",
    "DP3.UvwFlagger.process_row_exact",
    "DP3.UvwFlagger.process_bda_rows",
    "DP3.UvwFlagger.range_read",
    "DP3.UvwFlagger.ranges_read",
    "DP3.UvwFlagger.uvw_flagged_partial",
    "DP3.UvwFlagger.uvw_flagged_row_partial",
    "DP3.UvwFlagger.negative_uv_range"
   ],
   "note": "Proved from the strings of the settings to the flags and counters, for regular and BDA buffers. Missing: ranges of the uv distance in metres that start below zero; the code squares them and does not flag as asked (negative_uv_range). The square root and the conversion of numbers are parameters; another phase centre is not modelled."
  },
  {
   "property": "C51",
   "status": "proved",
   "theorems": [
    "DP3.NullStokes.process_spec",
    "DP3.NullStokes.process_ub",
    "DP3.NullStokes.two_correlations"
   ],
   "note": "Complex values in a field with 2 \u2260 0 and i\u00b2 = -1. Holds for data with four correlations; the code does not check that, process_ub and two_correlations show what happens otherwise."
  },
  {
   "property": "C52",
   "status": "proved",
   "theorems": [
    "DP3.StationValues.assign_spec",
    "DP3.StationValues.parse_spec",
    "DP3.StationValues.parse_missing_colon"
   ],
   "note": "Pattern matching and the parsing of the pattern list and value are parameters here; see C78 for the matching."
  },
  {
   "property": "C53",
   "status": "proved",
   "theorems": [
    "DP3.FlagCounter.run_spec",
    "DP3.FlagCounter.run_out_of_range",
    "DP3.FlagCounter.threads_sum"
   ],
   "note": "Counters are unbounded naturals (int64_t in the code)."
  },
  {
   "property": "C54",
   "status": "partial",
   "theorems": [
    "DP3.Chain.updater_misses_fields",
    "DP3.Chain.updater_finds_fields_partial"
   ],
   "note": "Violated by the code when the input weights come from the WEIGHT column: negation proved with a witness, the rest proved."
  },
  {
   "property": "C55",
   "status": "proved",
   "theorems": [
    "DP3.BdaExpander.weight_conserved",
    "DP3.BdaExpander.run_slots",
    "DP3.BdaExpander.buildMapping_spec"
   ],
   "note": "Weights over the rationals."
  },
  {
   "property": "C56",
   "status": "proved",
   "theorems": [
    "DP3.MsReader.channels_in_band",
    "DP3.MsReader.channels_spec"
   ],
   "note": "Values of the two expressions are inputs of the model."
  },
  {
   "property": "C57",
   "status": "proved",
   "theorems": [
    "DP3.MsReader.select_spec",
    "DP3.MsReader.nTimes_grid"
   ],
   "note": "Exact arithmetic; slots exactly on the grid."
  },
  {
   "property": "C58",
   "status": "proved",
   "theorems": [
    "DP3.MultiMsReader.fill_increasing",
    "DP3.MultiMsReader.sort_increasing"
   ],
   "note": "Frequency comparison exact (the code allows a relative difference of 1e-5)."
  },
  {
   "property": "C59",
   "status": "proved",
   "theorems": [
    "DP3.PreFlaggerExpr.lex_written",
    "DP3.PreFlaggerExpr.expr_spelling"
   ],
   "note": "ASCII; every token followed by a blank."
  },
  {
   "property": "C60",
   "status": "proved",
   "theorems": [
    "DP3.DPInfo.setTimes_spec",
    "DP3.DPInfo.update_times"
   ],
   "note": "Over an ordered field with floor."
  },
  {
   "property": "C61",
   "status": "partial",
   "theorems": [
    "DP3.DPInfo.axisRun_sized",
    "DP3.DPInfo.select_spec",
    "DP3.DPInfo.select_rejects",
    "DP3.DPInfo.bandwidth_partial",
    "DP3.DPInfo.bandwidth_stale"
   ],
   "note": "Selection proved in general. The total bandwidth is stale after a selection (bandwidth_stale) and right otherwise (bandwidth_partial)."
  },
  {
   "property": "C62",
   "status": "partial",
   "theorems": [
    "DP3.DPInfo.lengths_partial",
    "DP3.DPInfo.autos_partial",
    "DP3.DPInfo.caches_stale",
    "DP3.DPInfo.autos_empty"
   ],
   "note": "Proved when the antennas are set once; a second setAntennas leaves stale caches (caches_stale) and without baselines the code dereferences an end iterator (autos_empty)."
  },
  {
   "property": "C63",
   "status": "partial",
   "theorems": [
    "DP3.MadFlagger.flag_partial",
    "DP3.MadFlagger.stale_median"
   ],
   "note": "Proved for unflagged windows of maximum size; stale_median shows the dependence on the buffer's old contents otherwise."
  },
  {
   "property": "C64",
   "status": "partial",
   "theorems": [
    "DP3.MadFlagger.median_partial",
    "DP3.MadFlagger.median_even",
    "DP3.MadFlagger.nthDescend_contract",
    "DP3.MadFlagger.nthSort_contract"
   ],
   "note": "Proved for odd sizes; median_even gives a conforming nth_element for which an even size yields another value."
  },
  {
   "property": "C65",
   "status": "partial",
   "theorems": [
    "DP3.MadFlagger.auto_partial",
    "DP3.MadFlagger.auto_missed"
   ],
   "note": "Proved when correlations are flagged together; auto_missed is a counterexample otherwise."
  },
  {
   "property": "C66",
   "status": "partial",
   "theorems": [
    "DP3.SolveData.bda_partial",
    "DP3.SolveData.bdaSolutionIndex_spec",
    "DP3.SolveData.bda_weights",
    "DP3.SolveData.bda_limited"
   ],
   "note": "Proved without weights; bda_weights proves an out-of-range read for all inputs with weights, bda_limited is a counterexample for an interval with fewer rows than solutions."
  },
  {
   "property": "C67",
   "status": "partial",
   "theorems": [
    "DP3.SolveData.applyBlocks_partial",
    "DP3.SolveData.chanBlockIndex_partial",
    "DP3.SolveData.blocks_differ"
   ],
   "note": "Proved for rows without averaging and for numbers of channels that are multiples of the number of blocks; blocks_differ is a counterexample for ten channels in three blocks averaged by two."
  },
  {
   "property": "C68",
   "status": "proved",
   "theorems": [
    "DP3.SolverTools.weigh_eq"
   ],
   "note": "All even batch sizes."
  },
  {
   "property": "C69",
   "status": "partial",
   "theorems": [
    "DP3.SolverTools.assignAndWeight_spec",
    "DP3.SolverTools.bda_same",
    "DP3.SolverTools.weighted_finite",
    "DP3.SolverTools.bad_weight"
   ],
   "note": "Finiteness needs weights whose square root is finite; a negative or non-finite weight of an unflagged sample gives non-finite data (bad_weight)."
  },
  {
   "property": "C70",
   "status": "proved",
   "theorems": [
    "DP3.Constraints.reference_spec",
    "DP3.Constraints.reference_ratio"
   ],
   "note": "Exact field arithmetic, non-finite values as none."
  },
  {
   "property": "C71",
   "status": "proved",
   "theorems": [
    "DP3.KernelSmoother.smooth_ranges",
    "DP3.KernelSmoother.constant_kept",
    "DP3.KernelSmoother.within_range",
    "DP3.KernelSmoother.zero_weight_ignored",
    "DP3.KernelSmoother.kernel_nonneg",
    "DP3.KernelSmoother.constraint_within_range",
    "DP3.KernelSmoother.series_indices"
   ],
   "note": "exp is any non-negative function; bandwidths not negative."
  },
  {
   "property": "C72",
   "status": "partial",
   "theorems": [
    "DP3.KernelSmoother.smooth_untruncated",
    "DP3.KernelSmoother.truncation_partial",
    "DP3.KernelSmoother.truncation_too_narrow"
   ],
   "note": "Holds without truncation, and with truncation when the kernel is at most half as wide as the window assumes; false in general (truncation_too_narrow)."
  },
  {
   "property": "C73",
   "status": "partial",
   "theorems": [
    "DP3.KernelSmoother.kernel_symmetric_partial",
    "DP3.KernelSmoother.epanechnikov_asymmetric"
   ],
   "note": "False for the Epanechnikov kernel: the code has (1-x)^2 instead of 1-x^2."
  },
  {
   "property": "C74",
   "status": "partial",
   "theorems": [
    "DP3.SolverBase.running_is_mean_and_variance",
    "DP3.SolverBase.stall_needs_iterations",
    "DP3.SolverBase.default_never_stalls",
    "DP3.SolverBase.stall_uninitialised",
    "DP3.SolverBase.stall_stale"
   ],
   "note": "Holds when stall detection is called in every iteration. It is only called when the constraints are satisfied, so that a solve whose first iteration did not satisfy them uses uninitialised values or those of an earlier solve (proved)."
  },
  {
   "property": "C75",
   "status": "partial",
   "theorems": [
    "DP3.SolverBase.solve_terminates",
    "DP3.SolverBase.unconverged_partial",
    "DP3.SolverBase.stalled_looks_converged",
    "DP3.SolverBase.min_above_max"
   ],
   "note": "Termination and bounds for all settings. The last part holds without stall detection; a stalled solve reports fewer iterations than the maximum although it did not converge (proved with a witness)."
  },
  {
   "property": "C76",
   "status": "partial",
   "theorems": [
    "DP3.SolverBase.scale_independent",
    "DP3.SolverBase.scale_independent4",
    "DP3.SolverBase.scalar_as_diagonal",
    "DP3.SolverBase.step_size_taken_out",
    "DP3.SolverBase.scalar_as_matrix",
    "DP3.SolverBase.nothing_is_converged"
   ],
   "note": "Full-Jones solvers given scalar matrices have half of the step magnitude of the scalar solver (proved), against the comment in the code. Step size for the not phase-only step; scale for 1 and 4 polarisations."
  },
  {
   "property": "C77",
   "status": "proved",
   "theorems": [
    "DP3.FlagCounter.station_counts",
    "DP3.FlagCounter.station_fraction"
   ],
   "note": "The ratio is given as numerator and denominator."
  },
  {
   "property": "C78",
   "status": "proved",
   "theorems": [
    "DP3.StationValues.pattern_means_glob"
   ],
   "note": "std::regex is modelled for the operators the conversion produces (literal, escaped dot, dot, star)."
  },
  {
   "property": "C79",
   "status": "partial",
   "theorems": [
    "DP3.StringTools.strToLong_spec",
    "DP3.StringTools.strToInt_spec",
    "DP3.StringTools.strToInt16_spec",
    "DP3.StringTools.strToUlong_spec",
    "DP3.StringTools.strToUint32_spec",
    "DP3.StringTools.strToUint16_spec",
    "DP3.StringTools.strToBool_spec",
    "DP3.StringTools.strToInt_digits",
    "DP3.StringTools.getUint32_partial",
    "DP3.ParamValue.intVector_spec",
    "DP3.ParamValue.missing_element"
   ],
   "note": "The property is false in two places. ParameterValue::getUint32 returns an int32_t, so numbers from 2^31 on become negative (getUint32_partial states it for smaller ones). With a C library that does not set EINVAL, such as glibc, an empty text is read as 0 (missing_element)."
  },
  {
   "property": "C80",
   "status": "proved",
   "theorems": [
    "DP3.ParamValue.string_spec",
    "DP3.ParamValue.string_unclosed"
   ],
   "note": "Every string is either a sequence of such parts or such a sequence followed by an open quote."
  },
  {
   "property": "C81",
   "status": "proved",
   "theorems": [
    "DP3.ParamSet.read_last",
    "DP3.ParamSet.read_other",
    "DP3.ParamSet.read_sorted",
    "DP3.ParamSet.final_newline",
    "DP3.ParamSet.write_read",
    "DP3.ParamSet.equal_in_value",
    "DP3.ParamSet.double_equal",
    "DP3.ParamSet.missing_key",
    "DP3.ParamSet.leading_text"
   ],
   "note": "Well-formedness is an explicit grammar (Line.WF). Texts outside it (unquoted equal sign in a value, double equal sign, missing key, text before the first key) are shown by concrete witnesses."
  },
  {
   "property": "C82",
   "status": "partial",
   "theorems": [
    "DP3.ParmGrid.doSubset_cells",
    "DP3.ParmGrid.subset_cells_partial",
    "DP3.ParmGrid.subset_hole",
    "DP3.ParmGrid.compress_cells",
    "DP3.ParmGrid.regularAxis_wf"
   ],
   "note": "Proved unless the end of the interval lies in a hole between cells; then a cell too many is taken (subset_hole)."
  },
  {
   "property": "C83",
   "status": "partial",
   "theorems": [
    "DP3.ParmGrid.combine_spec_partial",
    "DP3.ParmGrid.combine_fits",
    "DP3.ParmGrid.combine_overrun",
    "DP3.ParmGrid.makeAxis_cells",
    "DP3.ParmGrid.makeAxis_hole",
    "DP3.ParmGrid.checkIntervals_iff",
    "DP3.ParmGrid.gapless_no_hole"
   ],
   "note": "The failure by an exception does not hold: combine reads behind the cells of an axis when the overlap is less than half a cell (combine_overrun). Axes with holes are not covered; makeAxis_hole shows that they lose them."
  },
  {
   "property": "C84",
   "status": "proved",
   "theorems": [
    "DP3.ParmGrid.setup_sound",
    "DP3.ParmGrid.setup_boxes",
    "DP3.ParmGrid.gridOf_permuted",
    "DP3.ParmGrid.locateGrid_inside",
    "DP3.ParmGrid.locateGrid_outside",
    "DP3.ParmGrid.iterator_visits",
    "DP3.ParmGrid.rectangle_spec"
   ],
   "note": "Exact comparison of values."
  },
  {
   "property": "C85",
   "status": "proved",
   "theorems": [
    "DP3.ParmGrid.intersect_points",
    "DP3.ParmGrid.intersects_iff",
    "DP3.ParmGrid.intersects_not_empty",
    "DP3.ParmGrid.contains_iff",
    "DP3.ParmGrid.unite_smallest"
   ],
   "note": "Exact comparison of values."
  },
  {
   "property": "C86",
   "status": "partial",
   "theorems": [
    "DP3.Transfer.slot_used",
    "DP3.Transfer.slot_covers",
    "DP3.Transfer.target_rows",
    "DP3.Transfer.target_rows_any",
    "DP3.Transfer.target_rows_wrong",
    "DP3.Transfer.source_gap"
   ],
   "note": "Proved for consecutive row numbers and a source without gaps; target_rows_any says for which row numbers it holds. Violated: after an earlier removal of baselines other rows are written, a time slot that is missing in the target is undefined behaviour, and behind a time slot that is missing in the source the wrong time slots are used. Times in an ordered field; the tolerance of the checks is zero in slot_covers."
  },
  {
   "property": "C87",
   "status": "partial",
   "theorems": [
    "DP3.HybridSolver.performed_le",
    "DP3.HybridSolver.hybrid_budget_partial",
    "DP3.HybridSolver.hybrid_reports_converged_iff",
    "DP3.HybridSolver.hybrid_unconverged",
    "DP3.HybridSolver.solve_restores_maxima",
    "DP3.HybridSolver.stop_on_convergence",
    "DP3.HybridSolver.stop_only_on_convergence",
    "DP3.HybridSolver.one_iteration_exceeds",
    "DP3.HybridSolver.minimum_exceeds",
    "DP3.HybridSolver.converged_reported_as_not",
    "DP3.HybridSolver.stalled_reported_as_converged",
    "DP3.HybridSolver.three_stages_exceed"
   ],
   "note": "The budget is proved for the two stages of the solver factory with a maximum of at least two and no minimum above one; the exact condition for a reported number within the maximum is given. The rest is false: counterexamples for a maximum of one, for a minimum, for three stages (wrap-around), for a last stage that converges in its last iteration (reported as unconverged), and for one that stalls (reported as converged)."
  },
  {
   "property": "C88",
   "status": "proved",
   "theorems": [
    "DP3.IterSolver.threads_irrelevant",
    "DP3.IterSolver.own_solution_irrelevant",
    "DP3.IterSolver.exact_solutions_kept",
    "DP3.IterSolver.succeeds_iff",
    "DP3.IterSolver.empty_block_undefined"
   ],
   "note": "For all three solvers and all visibility types, in exact arithmetic, for layouts as documented in SolveData.h. A channel block without visibilities reads out of range (succeeds_iff)."
  },
  {
   "property": "C89",
   "status": "proved",
   "theorems": [
    "DP3.IterSolver.scalarFull_leastSquares",
    "DP3.IterSolver.scalarDuo_leastSquares",
    "DP3.IterSolver.scalarUni_leastSquares",
    "DP3.IterSolver.diagonalFull_leastSquares",
    "DP3.IterSolver.diagonalDuo_leastSquares",
    "DP3.IterSolver.fullJones_leastSquares",
    "DP3.IterSolver.scalarFull_nan_iff",
    "DP3.IterSolver.scalarDuo_nan_iff",
    "DP3.IterSolver.scalarUni_nan_iff"
   ],
   "note": "Exact arithmetic in any ordered field; the NaN of the diagonal and full Jones solvers is covered as leaving the value free."
  },
  {
   "property": "C90",
   "status": "partial",
   "theorems": [
    "DP3.ApplyCal.full_data",
    "DP3.ApplyCal.diag_data",
    "DP3.ApplyCal.scalar_eq_diag",
    "DP3.ApplyCal.full_weights",
    "DP3.ApplyCal.diag_weights",
    "DP3.ApplyCal.weights_kept",
    "DP3.ApplyCal.invert_spec",
    "DP3.ApplyCal.invert_none_iff",
    "DP3.ApplyCal.full_round_trip",
    "DP3.ApplyCal.diag_round_trip",
    "DP3.ApplyCal.baseApply_spec",
    "DP3.ApplyCal.zero_weight_gives_nan",
    "DP3.ApplyCal.weights_updated_per_direction"
   ],
   "note": "Proved over an ordered field; the weights formula holds for positive weights. It fails in the code for zero weights with full Jones gains (NaN, zero_weight_gives_nan), and with usemodeldata the weights are updated once per direction (weights_updated_per_direction)."
  },
  {
   "property": "C91",
   "status": "proved",
   "theorems": [
    "DP3.ApplyCal.times_exact",
    "DP3.ApplyCal.after_last_time_undefined"
   ],
   "note": "For H5Parm input (times at the centre of the intervals), exact arithmetic, std::round exact on integers."
  },
  {
   "property": "C92",
   "status": "proved",
   "theorems": [
    "DP3.ApplyCal.correctionLoop_spec",
    "DP3.ApplyCal.full_not_finite",
    "DP3.ApplyCal.diag_not_finite",
    "DP3.ApplyCal.model_data_own_gains",
    "DP3.ApplyCal.loop_spec"
   ],
   "note": "Thread order is any permutation of the samples; increments of the counters are taken as atomic, which incrChannel in the code is not (see Findings)."
  },
  {
   "property": "C93",
   "status": "proved",
   "theorems": [
    "DP3.StationAdder.splitPattern_spec",
    "DP3.StationAdder.matching_iff",
    "DP3.StationAdder.matching_valid",
    "DP3.StationAdder.stations_spec",
    "DP3.StationAdder.stations_accepted",
    "DP3.StationAdder.diameter_spec"
   ],
   "note": "The match of a name with a pattern (std::regex) and the distances to the centre are parameters."
  },
  {
   "property": "C94",
   "status": "proved",
   "theorems": [
    "DP3.StationAdder.take_outside",
    "DP3.StationAdder.take_auto",
    "DP3.StationAdder.baselines_old",
    "DP3.StationAdder.baselines_sound",
    "DP3.StationAdder.baselines_distinct",
    "DP3.StationAdder.baselines_complete",
    "DP3.StationAdder.baselines_between"
   ],
   "note": "Antenna numbers of the old baselines are below the number of antennas."
  },
  {
   "property": "C95",
   "status": "partial",
   "theorems": [
    "DP3.StationAdder.newPoint_flag",
    "DP3.StationAdder.newPoint_good",
    "DP3.StationAdder.newPoint_flagged",
    "DP3.StationAdder.newPoint_not_finite",
    "DP3.StationAdder.between_superstations",
    "DP3.StationAdder.newUvw_spec",
    "DP3.StationAdder.lookup_rowEntry",
    "DP3.StationAdder.process_spec",
    "DP3.StationAdder.process_total",
    "DP3.StationAdder.conjugate_not_transposed",
    "DP3.StationAdder.unweighted_mean_of_means",
    "DP3.StationAdder.sum_of_sums",
    "DP3.StationAdder.minpoints_per_step",
    "DP3.StationAdder.auto_from_cross_not_real"
   ],
   "note": "Proved per correlation over an ordered field. The orientation is wrong in the code for XY and YX (conjugate_not_transposed); means between superstations are only right with useweights, average and minpoints 1 (witnesses)."
  },
  {
   "property": "C96",
   "status": "proved",
   "theorems": [
    "DP3.AntennaFlagger.outliers_not_finite",
    "DP3.AntennaFlagger.outliers_stable",
    "DP3.AntennaFlagger.outliers_reason",
    "DP3.AntennaFlagger.outliers_by_value",
    "DP3.AntennaFlagger.median_not_flagged",
    "DP3.AntennaFlagger.single_not_flagged"
   ],
   "note": "Median and standard deviation are parameters; values in a linear ordered field, none for values that are not finite."
  },
  {
   "property": "C97",
   "status": "proved",
   "theorems": [
    "DP3.AntennaFlagger.badAntennas_iff",
    "DP3.AntennaFlagger.badAntennas_lt",
    "DP3.AntennaFlagger.zero_scale_all_bad",
    "DP3.AntennaFlagger.groupStats_spec",
    "DP3.AntennaFlagger.flagBaselines_spec",
    "DP3.AntennaFlagger.findOrder_accepts"
   ],
   "note": "The statistics of one baseline (ComputeStatistics) are inputs; the logarithm, the median and the standard deviation are parameters."
  },
  {
   "property": "C98",
   "status": "proved",
   "theorems": [
    "DP3.Clipper.rowIndices_spec",
    "DP3.Clipper.rowIndices_defined",
    "DP3.Clipper.predictFlags_spec",
    "DP3.Clipper.run_spec",
    "DP3.Clipper.flags_kept",
    "DP3.Clipper.inserted_slot_fails",
    "DP3.Clipper.unsorted_rows"
   ],
   "note": "The predicted amplitudes are inputs. The failing cases are theorems of their own."
  },
  {
   "property": "C99",
   "status": "proved",
   "theorems": [
    "DP3.DPBuffer.step_refines",
    "DP3.DPBuffer.run_refines",
    "DP3.DPBuffer.copy_fields",
    "DP3.DPBuffer.dataNames_spec",
    "DP3.DPBuffer.combine_spec",
    "DP3.DPBuffer.combine_inverse",
    "DP3.DPBuffer.combine_empty_name",
    "DP3.DPBuffer.moveData_self_loses"
   ],
   "note": "A tensor is one value; an assert that does not hold is an error. The BDA version of Combine is not modelled."
  },
  {
   "property": "C100",
   "status": "proved",
   "theorems": [
    "DP3.DPBuffer.solution_roundtrip",
    "DP3.DPBuffer.solution_other"
   ],
   "note": "Values of any type."
  },
  {
   "property": "C101",
   "status": "proved",
   "theorems": [
    "DP3.AoFlagger.run_spec",
    "DP3.AoFlagger.windows_spec",
    "DP3.AoFlagger.samples_spec"
   ],
   "note": "The strategy of the library is any function of the baseline and the data in the window. Flag counts per baseline and channel together; threads are not modelled."
  },
  {
   "property": "C102",
   "status": "proved",
   "theorems": [
    "DP3.Rotation.wrap_spec",
    "DP3.Rotation.rebuild_fit",
    "DP3.Rotation.fit_rebuild",
    "DP3.Rotation.constrain_spec",
    "DP3.Rotation.project_idempotent",
    "DP3.Rotation.cancelling_diagonal",
    "DP3.Rotation.rotation_spec",
    "DP3.Rotation.apply_spec",
    "DP3.Rotation.results_describe",
    "DP3.Rotation.apply_idempotent",
    "DP3.Rotation.index_spec"
   ],
   "note": "Over the real and complex numbers of Mathlib, with the exact arg, cos and sin. Infinite values are not modelled."
  },
  {
   "property": "C103",
   "status": "partial",
   "theorems": [
    "DP3.Rotation.limit_spec",
    "DP3.Rotation.apply_weights",
    "DP3.Rotation.weights_one_solution_partial",
    "DP3.Rotation.weights_sticky",
    "DP3.Rotation.diverged_misplaced",
    "DP3.Rotation.rotationWeights_spec",
    "DP3.Rotation.rotationWeights_one_partial",
    "DP3.Rotation.rotationWeights_wrong",
    "DP3.Rotation.diagonalWeights_spec",
    "DP3.Rotation.equal_antennas_diverge",
    "DP3.Rotation.invalid_antennas_diverge"
   ],
   "note": "The code violates it: values are never limited (limit_spec); the second amplitude is compared with the mean of the first (equal_antennas_diverge); NaN antennas count in the mean (invalid_antennas_diverge); negative weights stay for the rest of the solve (weights_sticky); with several sub-solutions the weights of the rotation and the negative weights are at the wrong places (rotationWeights_wrong, diverged_misplaced). What the code does is proved in general, the property for one sub-solution."
  },
  {
   "property": "C104",
   "status": "partial",
   "theorems": [
    "DP3.Rotation.samples_spec",
    "DP3.Rotation.faraday_scalar_partial",
    "DP3.Rotation.faraday_diagonal",
    "DP3.Rotation.faraday_again",
    "DP3.Rotation.faraday_rotation",
    "DP3.Rotation.faraday_form",
    "DP3.Rotation.faraday_limit",
    "DP3.Rotation.faraday_recovers",
    "DP3.Rotation.faradayWeights_spec",
    "DP3.Rotation.faradaySubWeights_spec",
    "DP3.Rotation.faradaySubWeights_wrong",
    "DP3.Rotation.measureWeights_spec"
   ],
   "note": "The code violates it: with a diagonal with different values the solutions of the form that is fitted change (faraday_diagonal), and so do its own solutions (faraday_again); only half the documented range is searched (faraday_limit); SetSubSolutionWeights gives too few weights with two polarizations (faradaySubWeights_wrong). Without a limit the rotation measure is found (faraday_recovers). For one antenna and sub-solution; the loop over these is not modelled."
  },
  {
   "property": "C105",
   "status": "partial",
   "theorems": [
    "DP3.PhaseLine.cost_spec",
    "DP3.PhaseLine.unwrapAndFit_least",
    "DP3.PhaseLine.unwrapAndFit_none",
    "DP3.PhaseLine.unwrapAndFit_exact",
    "DP3.PhaseLine.fitSlope_exact",
    "DP3.PhaseLine.fitSlope_bound",
    "DP3.PhaseLine.fitSlope_recovers",
    "DP3.PhaseLine.minDelta_spec",
    "DP3.PhaseLine.getRange_spec",
    "DP3.PhaseLine.fitSlopeAuto_recovers",
    "DP3.PhaseLine.getRange_undefined",
    "DP3.PhaseLine.fitSlope_signs"
   ],
   "note": "Proved for positive x values. With x values of both signs the range is wrong (fitSlope_signs), and close x values give undefined behaviour (getRange_undefined). That a slope is also found with noise is not proved."
  },
  {
   "property": "C106",
   "status": "partial",
   "theorems": [
    "DP3.Tec.cost_spec",
    "DP3.Tec.fitBeta_mean",
    "DP3.Tec.fitBeta_exact",
    "DP3.Tec.fitBeta_short",
    "DP3.Tec.best1_spec",
    "DP3.Tec.ternary1_mem",
    "DP3.Tec.ternary2_mem",
    "DP3.Tec.ternary2_beta",
    "DP3.Tec.best2_index",
    "DP3.Tec.fit_range",
    "DP3.Tec.fit_ignores",
    "DP3.Tec.fit_filter",
    "DP3.Tec.fit_none",
    "DP3.Tec.beta_used",
    "DP3.Tec.fit1_recovers",
    "DP3.Tec.fit1_grid",
    "DP3.Tec.grid_unique",
    "DP3.Tec.fit1_worst",
    "DP3.Tec.fit2_recovers",
    "DP3.Tec.fit2_grid",
    "DP3.Tec.fit2_zero",
    "DP3.Tec.exData_fit2"
   ],
   "note": "The code violates it: the sum of weights is not reset between the iterations for beta, so the mean residual is only partly removed (fitBeta_short); the value of beta on input is used (beta_used); the window of the TEC only fit is chosen with a free offset, and the fit of opposite phases is the worst one (fit1_worst). Recovery is proved on the grid, and between grid points if the phases near the best grid point do not wrap."
  },
  {
   "property": "C107",
   "status": "partial",
   "theorems": [
    "DP3.Tec.apply_spec",
    "DP3.Tec.apply_modulus",
    "DP3.Tec.apply_weight",
    "DP3.Tec.apply_error",
    "DP3.Tec.apply_ignores",
    "DP3.Tec.apply_reference",
    "DP3.Tec.apply_missing"
   ],
   "note": "Proved but for antennas without any finite solution: these get a TEC of 4.73, error 0 and finite solutions; only their weight is zero (apply_missing)."
  },
  {
   "property": "C108",
   "status": "partial",
   "theorems": [
    "DP3.Tec.parmdb_describes",
    "DP3.Tec.h5_describes_tec",
    "DP3.Tec.h5_describes_iff",
    "DP3.Tec.h5_wrong",
    "DP3.Tec.station_ignores",
    "DP3.Tec.station_few",
    "DP3.Tec.station_few_wrong"
   ],
   "note": "The code violates it: the phase in the H5Parm is minus alpha instead of minus beta (h5_wrong); a station with at most one usable cell gets values zero while its solution stays (station_few_wrong). The ParmDB values are right (parmdb_describes)."
  },
  {
   "property": "C109",
   "status": "partial",
   "theorems": [
    "DP3.GainCal.step_best",
    "DP3.GainCal.step_phase",
    "DP3.GainCal.step_amplitude",
    "DP3.GainCal.step_flag",
    "DP3.GainCal.step_keep",
    "DP3.GainCal.step_schedule",
    "DP3.GainCal.step_fixed",
    "DP3.GainCal.step_scale",
    "DP3.GainCal.step_rotate",
    "DP3.GainCal.step_race"
   ],
   "note": "Proved but for the schedule: the two gains of a station share one flag, and if one has no data the order of the tasks decides the gain of other stations (step_race). The flags and the gains of stations with data in all gains do not depend on it in one step (step_schedule)."
  },
  {
   "property": "C110",
   "status": "proved",
   "theorems": [
    "DP3.GainCal.full_best",
    "DP3.GainCal.full_fixed",
    "DP3.GainCal.full_flag",
    "DP3.GainCal.full_phase"
   ],
   "note": "Complex numbers are exact. Singular normal equations are an exact zero determinant, as in the code."
  },
  {
   "property": "C111",
   "status": "partial",
   "theorems": [
    "DP3.GainCal.doStep_status",
    "DP3.GainCal.change_eq",
    "DP3.GainCal.doStep_fixed",
    "DP3.GainCal.doStep_fixed_full",
    "DP3.GainCal.doStep_mode",
    "DP3.GainCal.phase_violated",
    "DP3.GainCal.stalled_stays",
    "DP3.GainCal.stalled_moves",
    "DP3.GainCal.steps_converged",
    "DP3.GainCal.calibrate_cells",
    "DP3.GainCal.extrapolate_fixed"
   ],
   "note": "The code violates it: solutions that are NOTCONVERGED in phase mode do not have modulus one (phase_violated); STALLED cells are still stepped while other cells iterate, so their solution depends on these (stalled_moves). All else is proved, without the TEC modes."
  },
  {
   "property": "C112",
   "status": "proved",
   "theorems": [
    "DP3.GainCal.init_propagates",
    "DP3.GainCal.init_all_flagged",
    "DP3.GainCal.init_equal",
    "DP3.GainCal.init_equal_full",
    "DP3.GainCal.average_eq"
   ],
   "note": "With no station flagged at the start, as GainCal clears the flags. In the first interval with propagation the start is one, as the constructor sets the gains."
  },
  {
   "property": "C113",
   "status": "partial",
   "theorems": [
    "DP3.GainCal.fill_used",
    "DP3.GainCal.fill_unused",
    "DP3.GainCal.fill_explains",
    "DP3.GainCal.fill_residual",
    "DP3.GainCal.jones_of",
    "DP3.GainCal.fill_explains_full",
    "DP3.GainCal.fill_explains_jones",
    "DP3.GainCal.fill_full_violated"
   ],
   "note": "Proved for scalar and diagonal gains, and for Jones matrices if the weights of a row are equal. For Jones matrices with weights by correlation the code violates it: the weights multiply elements of the model before the matrix product (fill_full_violated)."
  },
  {
   "property": "C114",
   "status": "proved",
   "theorems": [
    "DP3.PhaseShift.shift_data",
    "DP3.PhaseShift.shift_inSpace",
    "DP3.PhaseShift.shift_length",
    "DP3.PhaseShift.shift_norm",
    "DP3.PhaseShift.shift_rest",
    "DP3.PhaseShift.shift_info",
    "DP3.PhaseShift.rotate_inSpace",
    "DP3.PhaseShift.rotate_shift",
    "DP3.PhaseShift.phasors_back",
    "DP3.PhaseShift.chain_single",
    "DP3.PhaseShift.chain_back"
   ],
   "note": "Real numbers; directions are taken as right ascension and declination in one frame."
  },
  {
   "property": "C115",
   "status": "partial",
   "theorems": [
    "DP3.Simulator.predict_points",
    "DP3.Simulator.predict_perm",
    "DP3.Simulator.predict_add",
    "DP3.Simulator.predict_auto",
    "DP3.Simulator.predict_hermitian",
    "DP3.Simulator.predict_shift",
    "DP3.Simulator.relative_violated"
   ],
   "note": "Proved for point sources and Gaussians with an absolute orientation. For a Gaussian with a relative orientation the model depends on the phase centre (relative_violated). Shifting and predicting commute without correction for smearing, which is relative to the phase centre by intent. The beam is not modelled."
  },
  {
   "property": "C116",
   "status": "partial",
   "theorems": [
    "DP3.Simulator.smear_point",
    "DP3.Simulator.smear_gaussian",
    "DP3.Simulator.channelMean_eq",
    "DP3.Simulator.timeMean_eq",
    "DP3.Simulator.delay_speed",
    "DP3.Simulator.earthRotation_eq",
    "DP3.Simulator.sinc_close",
    "DP3.Simulator.predict_stokesI",
    "DP3.Simulator.time_smear_missing",
    "DP3.Simulator.time_smear_violated"
   ],
   "note": "The code violates it in one case: a point source predicted with all correlations gets no smearing in time unless smearing in frequency is on as well (time_smear_violated); there the fast prediction of Stokes I differs. All other cases are proved."
  },
  {
   "property": "C117",
   "status": "proved",
   "theorems": [
    "DP3.Simulator.amplitude_eq",
    "DP3.Simulator.amplitude_transform",
    "DP3.Simulator.profile_half",
    "DP3.Simulator.amplitude_le",
    "DP3.Simulator.gaussian_point",
    "DP3.Simulator.amplitude_turn",
    "DP3.Simulator.amplitude_quarter",
    "DP3.Simulator.amplitude_round",
    "DP3.Simulator.amplitude_center"
   ],
   "note": "The transform is on the plane tangent to the sky at the source, which is the approximation of the code. gaussian_point leaves out the case of C116 in which point sources are not smeared."
  },
  {
   "property": "C118",
   "status": "partial",
   "theorems": [
    "DP3.Simulator.stokes_log",
    "DP3.Simulator.stokes_linear",
    "DP3.Simulator.stokes_ref",
    "DP3.Simulator.stokes_rm",
    "DP3.Simulator.stokes_rest",
    "DP3.Simulator.modPi_range",
    "DP3.Simulator.factor_eq",
    "DP3.Simulator.rm_reference_partial",
    "DP3.Simulator.rm_linear_violated"
   ],
   "note": "Q and U of the catalogue are reproduced with logarithmic spectral terms or none. With ordinary terms the code computes the fraction with the logarithmic formula and the model has another Q and U (rm_linear_violated)."
  },
  {
   "property": "C119",
   "status": "partial",
   "theorems": [
    "DP3.Simulator.patch_ra",
    "DP3.Simulator.patch_partial",
    "DP3.Simulator.patch_single",
    "DP3.Simulator.patch_violated",
    "DP3.Simulator.patch_nan"
   ],
   "note": "The code violates it: the declination is the arcsine of the mean z, not divided by the length of the mean vector, so that it is too near the equator (patch_violated), or not a number with fluxes of both signs (patch_nan). Proved are the right ascension and the case in which all sources are in one direction."
  },
  {
   "property": "C120",
   "status": "proved",
   "theorems": [
    "DP3.UvwSplit.split_total",
    "DP3.UvwSplit.split_exact",
    "DP3.UvwSplit.split_sound",
    "DP3.UvwSplit.split_baseline",
    "DP3.UvwSplit.split_forest",
    "DP3.UvwSplit.split_linear"
   ],
   "note": "Coordinates are elements of a commutative group: exact arithmetic."
  },
  {
   "property": "C121",
   "status": "partial",
   "theorems": [
    "DP3.UvwSplit.selection_bottleneck",
    "DP3.UvwSplit.selected_exact",
    "DP3.UvwSplit.selected_only",
    "DP3.UvwSplit.selected_sound",
    "DP3.UvwSplit.selected_robust",
    "DP3.UvwSplit.selected_colocated"
   ],
   "note": "Proved if the two antennas of a baseline are at different positions. For antennas at one position the code violates it: an autocorrelation may be selected and count for the early exit (selected_colocated)."
  },
  {
   "property": "C122",
   "status": "partial",
   "theorems": [
    "DP3.SkyText.nextValue_iff",
    "DP3.SkyText.line_values",
    "DP3.SkyText.last_column",
    "DP3.SkyText.no_column",
    "DP3.SkyText.column_value",
    "DP3.SkyText.column_order",
    "DP3.SkyText.format_columns",
    "DP3.SkyText.default_format",
    "DP3.SkyText.format_ends",
    "DP3.SkyText.vector_values",
    "DP3.SkyText.vector_single",
    "DP3.SkyText.tab_shift",
    "DP3.SkyText.empty_format"
   ],
   "note": "Proved for separators that are not blank, and for values that are not empty. An empty value between tabs or spaces is not seen, and shifts the next ones (tab_shift). An empty format is refused although blanks stand for the default (empty_format)."
  },
  {
   "property": "C123",
   "status": "partial",
   "theorems": [
    "DP3.SkyText.position_value",
    "DP3.SkyText.minus_zero",
    "DP3.SkyText.position_gap"
   ],
   "note": "Proved unless the degrees or hours are a zero with a minus sign. There the code violates it: the sign is lost, so that no declination between -1 and 0 degrees can be given this way."
  },
  {
   "property": "C124",
   "status": "partial",
   "theorems": [
    "DP3.SkyModel.read_ok_iff",
    "DP3.SkyModel.read_sources",
    "DP3.SkyModel.patch_unknown",
    "DP3.SkyModel.patch_info",
    "DP3.SkyModel.patch_defined_once",
    "DP3.SkyModel.patch_defined_twice",
    "DP3.SkyModel.patch_names",
    "DP3.SkyModel.make_patches",
    "DP3.SkyModel.make_patches_iff",
    "DP3.SkyModel.all_sources_once",
    "DP3.SkyModel.patch_list",
    "DP3.SkyModel.select_refused",
    "DP3.SkyModel.source_list",
    "DP3.SkyModel.numbered_injective",
    "DP3.SkyModel.one_patch_per_component",
    "DP3.SkyModel.cluster_components",
    "DP3.SkyModel.cluster_proximate",
    "DP3.SkyModel.check_any",
    "DP3.SkyModel.is_polarized",
    "DP3.SkyModel.average_between",
    "DP3.SkyModel.average_wraps"
   ],
   "note": "Proved for patches that one line defines. A patch that two lines define never gets the flux and position of its sources (patch_defined_twice). The position of a cluster is wrong for right ascensions on both sides of zero (average_wraps)."
  },
  {
   "property": "C125",
   "status": "partial",
   "theorems": [
    "DP3.DemixTimes.run_expected",
    "DP3.DemixTimes.configured",
    "DP3.DemixTimes.chunk_independent",
    "DP3.DemixTimes.results",
    "DP3.DemixTimes.no_room_violated",
    "DP3.DemixTimes.threads_violated",
    "DP3.DemixTimes.short_violated"
   ],
   "note": "Proved for data with at least timestep times, and for propagatesolutions with one thread. Fewer times than timestep/ntimechunk are accessed out of bounds (no_room_violated), propagated solutions depend on the number of threads (threads_violated), and settings that fit are refused for short data (short_violated)."
  },
  {
   "property": "C126",
   "status": "partial",
   "theorems": [
    "DP3.Demix.mem_pairs",
    "DP3.Demix.factor_value",
    "DP3.Demix.average_mixed",
    "DP3.Demix.mix_self",
    "DP3.Demix.factors_mix",
    "DP3.Demix.subtract_exact",
    "DP3.Demix.flagged_unchanged",
    "DP3.Demix.zero_weight_violated",
    "DP3.Demix.projection_annihilates",
    "DP3.Demix.projection_orthogonal",
    "DP3.Demix.single_invertible",
    "DP3.Demix.deproject_mixed",
    "DP3.Demix.deproject_target",
    "DP3.Demix.deproject_nothing",
    "DP3.Demix.singular_violated",
    "DP3.Demix.merge_baselines"
   ],
   "note": "Proved for cells with weight, and for deprojected directions that are independent. Without averaging, a visibility with weight 0 and no flag becomes not-a-number (zero_weight_violated); directions without a model that coincide are silently not deprojected (singular_violated). Arithmetic is exact."
  },
  {
   "property": "C127",
   "status": "proved",
   "theorems": [
    "DP3.Estimate.makeIndex_slice",
    "DP3.Estimate.equations_gradient",
    "DP3.Estimate.equations_stationary",
    "DP3.Estimate.equations_singular",
    "DP3.Estimate.equations_same",
    "DP3.Estimate.iteration_cursors",
    "DP3.Estimate.estimate_iterates",
    "DP3.Estimate.step_descends",
    "DP3.Estimate.apply_gains",
    "DP3.Estimate.subtract_model",
    "DP3.Estimate.dense_apart",
    "DP3.Estimate.subtractSources_sum"
   ],
   "note": "The least squares solver of casacore is a parameter; what makeNorm accumulates is modelled as the sums it is documented to form. Numbers are those of a ring or an ordered field, without rounding."
  },
  {
   "property": "C128",
   "status": "proved",
   "theorems": [
    "DP3.Robust.costFunc_eq",
    "DP3.Robust.gradFunc_derivative",
    "DP3.Robust.costFunc_zero",
    "DP3.Robust.costFunc_le",
    "DP3.Robust.gradFunc_bounded",
    "DP3.Robust.gradFunc_phase",
    "DP3.Robust.robust_same"
   ],
   "note": "The loops are those of C127, which the two functions repeat line by line; they are modelled once. The L-BFGS solver of libdirac is not modelled. Real numbers are exact."
  },
  {
   "property": "C129",
   "status": "partial",
   "theorems": [
    "DP3.BdaMs.write_read",
    "DP3.BdaMs.write_read_ordered",
    "DP3.BdaMs.write_tables",
    "DP3.BdaMs.read_unflagged",
    "DP3.BdaMs.flags_lost",
    "DP3.BdaMs.read_channels",
    "DP3.BdaMs.channels_merged",
    "DP3.BdaMs.time_axis",
    "DP3.BdaMs.frequency_reference_lost"
   ],
   "note": "Proved for rows in time order, with flags excepted: the reader never reads FLAG, so all flags come back false (flags_lost), though its documentation says they are read. Baselines with as many but different channels get the channels of the first (channels_merged). The frequency reference of the windows is written from a variable that is never assigned, since the windows of the input are not copied (frequency_reference_lost)."
  },
  {
   "property": "C130",
   "status": "partial",
   "theorems": [
    "DP3.BdaMs.copy_read",
    "DP3.BdaMs.copy_rows",
    "DP3.BdaMs.copy_fails",
    "DP3.BdaMs.unknown_baseline"
   ],
   "note": "Proved for rows in time order (copy_read). If a row is skipped and a later one is not, the row numbers have a gap and the writer addresses a row that does not exist: a copy that succeeds has no gap (copy_rows), and a concrete case throws (copy_fails). A row whose antenna pair is not in BDA_FACTORS is silently delivered as baseline 0 (unknown_baseline)."
  },
  {
   "property": "C131",
   "status": "proved",
   "theorems": [
    "DP3.DdeCal.forwarded",
    "DP3.DdeCal.forwarded_subtracted",
    "DP3.DdeCal.succeeds_iff",
    "DP3.DdeCal.announced_fits"
   ],
   "note": "For direction names without duplicates; the solver and the model steps are arbitrary functions. With duplicate names see same_name_fails (finding)."
  },
  {
   "property": "C132",
   "status": "partial",
   "theorems": [
    "DP3.DdeCal.stations_partial",
    "DP3.DdeCal.unused_antennas_fail"
   ],
   "note": "Proved if the map to used antennas is the identity. Otherwise the code reads the solutions of antenna number a at position a instead of at the position of the used antenna: then some access is always beyond the end of the solutions (unused_antennas_fail), for every run."
  },
  {
   "property": "C133",
   "status": "partial",
   "theorems": [
    "DP3.DdeCal.solver_calls",
    "DP3.DdeCal.solver_time",
    "DP3.DdeCal.time_right_partial",
    "DP3.DdeCal.time_wrong",
    "DP3.DdeCal.solver_weights",
    "DP3.DdeCal.weights_right_partial",
    "DP3.DdeCal.weights_wrong",
    "DP3.DdeCal.solver_flags",
    "DP3.DdeCal.min_vis_other_interval"
   ],
   "note": "Time and weights are proved for intervals of one time slot, and given in closed form for all others, where they are wrong: the accumulation adds the old time twice (time_wrong) and scales the antenna weights again for each slot (weights_wrong). Flags are proved with one interval per set; with several (IDGPredict) the visibilities of all intervals of the set are counted (min_vis_other_interval)."
  },
  {
   "property": "C134",
   "status": "proved",
   "theorems": [
    "DP3.DdeCal.walk_block",
    "DP3.DdeCal.channel_blocks"
   ],
   "note": ""
  },
  {
   "property": "C135",
   "status": "partial",
   "theorems": [
    "DP3.DdeCal.solver_start",
    "DP3.DdeCal.initial_time_partial",
    "DP3.DdeCal.initial_time_wrong",
    "DP3.DdeCal.unit_start",
    "DP3.DdeCal.final_weights"
   ],
   "note": "Proved, except for the time of initial solutions, which is right only for intervals of one time slot: for longer ones the sum that C133 describes is used without division by the number of slots (initial_time_wrong)."
  },
  {
   "property": "C136",
   "status": "partial",
   "theorems": [
    "DP3.SolWriter.solver_results_spec",
    "DP3.SolWriter.kinds_spec",
    "DP3.SolWriter.prepare_spec",
    "DP3.SolWriter.last_solution_dropped",
    "DP3.SolWriter.bda_solint_zero"
   ],
   "note": "Proved in exact arithmetic for every positive solution interval. With solint=0 BdaDdeCal passes an interval of zero slots and the time in the file is the start of the observation (bda_solint_zero). The cut at the end has no margin for rounding: with any lower end time the last solution is missing (last_solution_dropped)."
  },
  {
   "property": "C137",
   "status": "partial",
   "theorems": [
    "DP3.SolWriter.constraint_results_spec_partial",
    "DP3.SolWriter.freqs_spec",
    "DP3.SolWriter.time_axis_wrong",
    "DP3.SolWriter.results_lost",
    "DP3.SolWriter.freqs_nan"
   ],
   "note": "Proved if all (sub)intervals are kept and, for direction-dependent intervals, if all constraints have the same number of results. Otherwise: the time axis has the number of all substeps but there are values for the kept ones only (time_axis_wrong); nothing is written if the first constraint has no results (results_lost); blocks without channels get a frequency that is not a number (freqs_nan)."
  },
  {
   "property": "C138",
   "status": "proved",
   "theorems": [
    "DP3.BdaDdeCal.solver_calls",
    "DP3.BdaDdeCal.row_once",
    "DP3.BdaDdeCal.calls_needed",
    "DP3.BdaDdeCal.unit_start"
   ],
   "note": "For directions with different names; names of sub-steps must not be in the input."
  },
  {
   "property": "C139",
   "status": "partial",
   "theorems": [
    "DP3.BdaDdeCal.forwarded",
    "DP3.BdaDdeCal.subtracted_partial",
    "DP3.BdaDdeCal.sub_solutions"
   ],
   "note": "Proved for one solution per direction. With more, ApplySolutions ignores them when it looks up the solution of a station and uses those of another station (sub_solutions); DDECal throws in this case. Which channel block is used is C67."
  },
  {
   "property": "C140",
   "status": "partial",
   "theorems": [
    "DP3.BdaDdeCal.flags_partial",
    "DP3.BdaDdeCal.flags_of",
    "DP3.BdaDdeCal.flags_change"
   ],
   "note": "True without limits on UVW coordinates. With limits the flags are set in the forwarded buffer (flags_of, flags_change), contrary to the comment in process and to DDECal."
  },
  {
   "property": "C141",
   "status": "proved",
   "theorems": [
    "DP3.BdaDdeCal.only_predict"
   ],
   "note": ""
  },
  {
   "property": "C142",
   "status": "partial",
   "theorems": [
    "DP3.BdaDdeCal.antenna_weights_partial",
    "DP3.BdaDdeCal.rowWeight_mean",
    "DP3.BdaDdeCal.autocorrelation_bias",
    "DP3.BdaDdeCal.no_rows"
   ],
   "note": "Proved without autocorrelations and for antennas with rows. Autocorrelations do not contribute to the sum but count twice in the denominator (autocorrelation_bias); an antenna without rows in an interval gets 0/0 (no_rows)."
  },
  {
   "property": "C143",
   "status": "partial",
   "theorems": [
    "DP3.BdaDdeCal.succeeds",
    "DP3.BdaDdeCal.same_name_ub"
   ],
   "note": "Proved for directions with different names. Two directions that start with the same patch get the same name, and the results of the second are written beyond the end of the queue (same_name_ub)."
  },
  {
   "property": "C144",
   "status": "proved",
   "theorems": [
    "DP3.DirectSolver.scalar_least_squares",
    "DP3.DirectSolver.diagonal_least_squares",
    "DP3.DirectSolver.full_least_squares"
   ],
   "note": "For an exact linear solver that minimizes residuals (C146) and without autocorrelations, which SolveData leaves out."
  },
  {
   "property": "C145",
   "status": "partial",
   "theorems": [
    "DP3.DirectSolver.scalar_exact_partial",
    "DP3.DirectSolver.diagonal_exact_partial",
    "DP3.DirectSolver.full_exact_partial",
    "DP3.DirectSolver.zero_first"
   ],
   "note": "True if the first element of the first direction is not zero. If it is, all directions of the antenna become NaN although the solve succeeded (zero_first)."
  },
  {
   "property": "C146",
   "status": "proved",
   "theorems": [
    "DP3.DirectSolver.make_minimizes",
    "DP3.DirectSolver.normal_equations",
    "DP3.DirectSolver.normal_minimizes",
    "DP3.DirectSolver.normal_succeeds",
    "DP3.DirectSolver.normal_columns"
   ],
   "note": "With one right-hand side, the only case in which the type can be selected. With more, the normal equations use other distances between columns than QR and SVD (normal_columns)."
  },
  {
   "property": "C147",
   "status": "proved",
   "theorems": [
    "DP3.ImagePredict.wgridder_stream",
    "DP3.ImagePredict.wgridder_named",
    "DP3.ImagePredict.ascending",
    "DP3.ImagePredict.same_label"
   ],
   "note": "The gridder is a function of the facet, the term, the coordinates and the frequency. For labels that are different; of facets with the same label only the last is kept (same_label)."
  },
  {
   "property": "C148",
   "status": "partial",
   "theorems": [
    "DP3.ImagePredict.idg_stream_partial",
    "DP3.ImagePredict.idg_single",
    "DP3.ImagePredict.aterms_depend"
   ],
   "note": "Proved without aterms, and with aterms if one time slot is kept. With aterms the result depends on the number of kept time slots (aterms_depend), as the aterms are those of the middle of these."
  },
  {
   "property": "C149",
   "status": "partial",
   "theorems": [
    "DP3.ImagePredict.planes_partial",
    "DP3.ImagePredict.first_plane",
    "DP3.ImagePredict.leftover"
   ],
   "note": "True if no facet is smaller than one before it. The vector is resized but not cleared, so a smaller facet gets pixels of the previous facet as Q, U and V (leftover)."
  },
  {
   "property": "C150",
   "status": "partial",
   "theorems": [
    "DP3.ImagePredict.facet_place_partial",
    "DP3.ImagePredict.facet_misplaced"
   ],
   "note": "True if the width and height modulo four are 0 or 3. Otherwise the image is padded by a pixel on both sides, which the shift does not include: everything is one pixel off (facet_misplaced). The padding function is in aocommon and modelled as centring."
  },
  {
   "property": "C151",
   "status": "partial",
   "theorems": [
    "DP3.ImagePredict.w_covered_partial",
    "DP3.ImagePredict.w_grows",
    "DP3.ImagePredict.negative_w"
   ],
   "note": "True for positive w. Negative w are not considered (negative_w). Coordinates are in metres, while the limits are in wavelengths (the TODO at steps/IDGPredict.cc:202)."
  },
  {
   "property": "C152",
   "status": "proved",
   "theorems": [
    "DP3.DynSpec.spectra_complete",
    "DP3.DynSpec.extra_slot"
   ],
   "note": "The sub-steps are functions. More than ntime buffers write outside the tensor (extra_slot). Pixels of missing time slots are not initialized by the code."
  },
  {
   "property": "C153",
   "status": "partial",
   "theorems": [
    "DP3.DynSpec.flux_partial",
    "DP3.DynSpec.flux_divided",
    "DP3.DynSpec.stokes_right",
    "DP3.DynSpec.averaged_seen",
    "DP3.DynSpec.averaged_sum",
    "DP3.DynSpec.not_average"
   ],
   "note": "True for one baseline. The code divides by the sum of weights and by the number of baselines, so all fluxes are too small by the number of baselines (flux_divided, not_average), and smaller when samples are flagged, as their weights are in the sum (averaged_seen). The conversion to Stokes parameters is right (stokes_right)."
  },
  {
   "property": "C154",
   "status": "partial",
   "theorems": [
    "DP3.DynSpec.forwarded_partial",
    "DP3.DynSpec.forwarded_subtracted"
   ],
   "note": "True without subtraction. With subtraction the model is subtracted from the forwarded data too (forwarded_subtracted)."
  },
  {
   "property": "C155",
   "status": "partial",
   "theorems": [
    "DP3.DynSpec.obsId_partial",
    "DP3.DynSpec.obsId_underscore"
   ],
   "note": "True for names without an underscore. For every name of the format, the ID is followed by the underscore (obsId_underscore)."
  },
  {
   "property": "C156",
   "status": "proved",
   "theorems": [
    "DP3.ScaleData.scale_right",
    "DP3.ScaleData.factor_unique",
    "DP3.ScaleData.refused"
   ],
   "note": "Pattern matching and the square root are functions; numbers are exact. A station without used tiles gives a factor that is not finite."
  },
  {
   "property": "C157",
   "status": "partial",
   "theorems": [
    "DP3.ScaleData.bda_partial",
    "DP3.ScaleData.bda_outside",
    "DP3.ScaleData.bda_spill"
   ],
   "note": "True if all rows have as many channels as the factors, which are made for the channels of the first baseline. A row that was averaged in frequency also changes the next row (bda_spill), and the last row writes outside the buffer (bda_outside); an assert is the only check."
  },
  {
   "property": "C158",
   "status": "partial",
   "theorems": [
    "DP3.WscWriter.parts_partial",
    "DP3.WscWriter.one_part",
    "DP3.WscWriter.start_outside"
   ],
   "note": "True if the first channel is selected. With startchan > 0 the channel numbers of the input are used as indices in the frequencies of the selected channels, so memory outside the vector is read (start_outside)."
  },
  {
   "property": "C159",
   "status": "proved",
   "theorems": [
    "DP3.WscWriter.rows_right"
   ],
   "note": "The writer itself is in schaapcommon and is not modelled."
  },
  {
   "property": "C160",
   "status": "partial",
   "theorems": [
    "DP3.InitialSol.read_right_partial",
    "DP3.InitialSol.diagonal_shifted",
    "DP3.InitialSol.diagonal_outside",
    "DP3.InitialSol.full_refused"
   ],
   "note": "True if the file has full Jones solutions and the mode too, or if the mode has at most two values per solution. A mode with four values (full Jones, rotation, leakage) and a file with diagonal solutions gets the values of the next antenna as off-diagonal elements (diagonal_shifted) and reads outside of memory (diagonal_outside). A full Jones file is refused for other modes (full_refused). Values of the file (schaapcommon) are a function."
  },
  {
   "property": "C161",
   "status": "partial",
   "theorems": [
    "DP3.InitialSol.name_partial",
    "DP3.InitialSol.name_inj",
    "DP3.InitialSol.faraday_refused",
    "DP3.InitialSol.name_exists"
   ],
   "note": "True for all modes but Faraday rotation, which is shown as 'faraday' and accepted as 'faradayrotation' only (faraday_refused)."
  },
  {
   "property": "C162",
   "status": "partial",
   "theorems": [
    "DP3.BdaGroup.grouped_partial"
   ],
   "note": "The predict step is any function that gives one result per baseline; times are exact rationals; data that come in complete rounds only (see C163 for other data)."
  },
  {
   "property": "C163",
   "status": "partial",
   "theorems": [
    "DP3.BdaGroup.incomplete_reported",
    "DP3.BdaGroup.repeated_ub"
   ],
   "note": "A baseline that comes twice instead of another is not noticed: repeated_ub."
  },
  {
   "property": "C164",
   "status": "partial",
   "theorems": [
    "DP3.BdaGroup.predicted_late"
   ],
   "note": "The property is false: the time is half an interval late for every row with a positive interval."
  },
  {
   "property": "C165",
   "status": "partial",
   "theorems": [
    "DP3.BdaGroup.freqs_partial",
    "DP3.BdaGroup.freqs_wrong",
    "DP3.BdaGroup.interval_wrong"
   ],
   "note": "Holds for frequencies after BdaAverager; false for other data and for the integration time."
  },
  {
   "property": "C166",
   "status": "partial",
   "theorems": [
    "DP3.BdaGroup.add_accumulates",
    "DP3.BdaGroup.add_wrong"
   ],
   "note": "The property is false; add_accumulates says what the program does, for streams of one baseline."
  },
  {
   "property": "C167",
   "status": "partial",
   "theorems": [
    "DP3.PredictStep.beam_partial",
    "DP3.PredictStep.beam_age",
    "DP3.PredictStep.plain_threads",
    "DP3.PredictStep.other_ranges_wrong"
   ],
   "note": "The division by StaticFor is assumed to be the same for all time slots and without empty ranges (the library is not in the repository); other_ranges_wrong says that this is needed. Simulator and beam are abstract; sums are exact."
  },
  {
   "property": "C168",
   "status": "partial",
   "theorems": [
    "DP3.PredictStep.direction_late"
   ],
   "note": "The property is false for every positive interval."
  },
  {
   "property": "C169",
   "status": "partial",
   "theorems": [
    "DP3.PredictStep.operation_main",
    "DP3.PredictStep.operation_named_partial",
    "DP3.PredictStep.named_uncorrected",
    "DP3.PredictStep.h5_all",
    "DP3.PredictStep.h5_named_wrong"
   ],
   "note": "Holds without outputmodelname; with it, holds only without solutions."
  },
  {
   "property": "C170",
   "status": "partial",
   "theorems": [
    "DP3.PredictStep.copy_four",
    "DP3.PredictStep.copy_fewer"
   ],
   "note": "Holds for four correlations, false for fewer."
  },
  {
   "property": "C171",
   "status": "partial",
   "theorems": [
    "DP3.PredictStep.weights_not_checked"
   ],
   "note": "The property is false."
  },
  {
   "property": "C172",
   "status": "proved",
   "theorems": [
    "DP3.DdeSettings.prepare_accepts",
    "DP3.DdeSettings.prepare_result",
    "DP3.DdeSettings.step_no_ub",
    "DP3.DdeSettings.prepare_ub"
   ],
   "note": "The function itself reads the largest element of an empty list without directions (prepare_ub); the steps refuse that first."
  },
  {
   "property": "C173",
   "status": "proved",
   "theorems": [
    "DP3.DdeSettings.solution_direction",
    "DP3.DdeSettings.factors_per_solution",
    "DP3.DdeSettings.count_solutions",
    "DP3.DdeSettings.count_wraps"
   ],
   "note": "Counts are summed in 32 bits; from 2^32 solutions on the number wraps (count_wraps)."
  },
  {
   "property": "C174",
   "status": "partial",
   "theorems": [
    "DP3.DdeSettings.reused_partial",
    "DP3.DdeSettings.reused_accepted",
    "DP3.DdeSettings.reused_refused",
    "DP3.DdeSettings.reused_wrong",
    "DP3.DdeSettings.reused_same_name",
    "DP3.DdeSettings.withoutPrefix_spec"
   ],
   "note": "Which model data are used is proved, and that patterns without a match are refused. Not true: a pattern of which all matches belong to an earlier pattern is refused too (reused_wrong), and names with different prefixes can get the same name (reused_same_name)."
  },
  {
   "property": "C175",
   "status": "partial",
   "theorems": [
    "DP3.DdeSettings.core_set",
    "DP3.DdeSettings.core_mono",
    "DP3.DdeSettings.core_negative",
    "DP3.DdeSettings.core_ignored"
   ],
   "note": "The set is proved. Not true: with antennaconstraint the core constraint is ignored without a message (core_ignored), and a negative distance counts as its opposite (core_negative)."
  },
  {
   "property": "C176",
   "status": "partial",
   "theorems": [
    "DP3.DdeSettings.groups_partial",
    "DP3.DdeSettings.groups_refused",
    "DP3.DdeSettings.groups_shrink"
   ],
   "note": "The sets are proved, for names that are in the data, and the refusal for too few different names. Not true: unknown names are left out after the test, so sets of one or no antenna occur (groups_shrink)."
  },
  {
   "property": "C177",
   "status": "partial",
   "theorems": [
    "DP3.DdeSettings.averaging_partial",
    "DP3.DdeSettings.averaging_unused_refused"
   ],
   "note": "Proved when all antennas are used. Not true otherwise: the factors are made for all antennas and compared with the number of used antennas, so any setting is refused (averaging_unused_refused)."
  },
  {
   "property": "C178",
   "status": "partial",
   "theorems": [
    "DP3.DdeSettings.smoothing_partial",
    "DP3.DdeSettings.smoothing_same",
    "DP3.DdeSettings.smoothing_refused",
    "DP3.DdeSettings.smoothing_scaled",
    "DP3.DdeSettings.smoothing_single",
    "DP3.DdeSettings.smoothing_negative"
   ],
   "note": "Proved for a positive distance, at least two antennas and no other antenna at the place of the reference antenna. Not true: one antenna gets factor zero and so a kernel of infinite scale (smoothing_single), and negative distances and zero factors are not refused (smoothing_negative)."
  },
  {
   "property": "C179",
   "status": "proved",
   "theorems": [
    "DP3.TecDelay.wrap_spec",
    "DP3.TecDelay.wrap_id"
   ],
   "note": "In exact numbers."
  },
  {
   "property": "C180",
   "status": "partial",
   "theorems": [
    "DP3.TecDelay.search_best",
    "DP3.TecDelay.search_noiseless_partial",
    "DP3.TecDelay.search_on_grid",
    "DP3.TecDelay.search_misses",
    "DP3.TecDelay.normal_least",
    "DP3.TecDelay.perfect_iff",
    "DP3.TecDelay.ex_solver",
    "DP3.TecDelay.isCos_real"
   ],
   "note": "Proved: the result is at most the cost of the fit for any grid point, and it is perfect when the difference to some grid point does not wrap, in particular for values on the grid with any offset. Not true without an offset: search_misses gives noiseless phases within the range that are not found, for any least squares solver. Missing: off-grid values with an offset."
  },
  {
   "property": "C181",
   "status": "proved",
   "theorems": [
    "DP3.TecDelay.results_describe",
    "DP3.TecDelay.flagged_no_weight",
    "DP3.TecDelay.perfect_kept",
    "DP3.TecDelay.search_no_offset"
   ],
   "note": "For one antenna and direction; the search is a function (modelled in C180). That the search gives b = 0 when no offset is fitted is proved separately (search_no_offset). The division by the reference antenna is C70 (Constraints)."
  },
  {
   "property": "C182",
   "status": "proved",
   "theorems": [
    "DP3.ApplyBeam.select_spec",
    "DP3.ApplyBeam.select_unique",
    "DP3.ApplyBeam.matchFrom_complete",
    "DP3.ApplyBeam.matchFrom_spec"
   ],
   "note": ""
  },
  {
   "property": "C183",
   "status": "partial",
   "theorems": [
    "DP3.ApplyBeam.skip_stations_partial",
    "DP3.ApplyBeam.skip_unknown_refused",
    "DP3.ApplyBeam.skip_wrong_station",
    "DP3.ApplyBeam.skip_all_homogeneous"
   ],
   "note": "Proved if the antennas are the first stations of a telescope with different stations; false otherwise, with counterexamples."
  },
  {
   "property": "C184",
   "status": "partial",
   "theorems": [
    "DP3.ApplyBeam.metadata_right_partial",
    "DP3.ApplyBeam.corrected_unique",
    "DP3.ApplyBeam.undo_checked",
    "DP3.ApplyBeam.setBeam_corrected",
    "DP3.ApplyBeam.mirrored_direction",
    "DP3.ApplyBeam.model_data_metadata",
    "DP3.ApplyBeam.skipped_not_recorded"
   ],
   "note": "Proved for steps on the data without skipped stations, when different directions differ in their first two coordinates; false otherwise, with three counterexamples."
  },
  {
   "property": "C185",
   "status": "proved",
   "theorems": [
    "DP3.ApplyBeam.arrayFactor_scalar",
    "DP3.ApplyBeam.addBeam_spec"
   ],
   "note": ""
  },
  {
   "property": "C186",
   "status": "partial",
   "theorems": [
    "DP3.ApplyBeam.weights_restored_partial",
    "DP3.ApplyBeam.applyWeights_diag",
    "DP3.ApplyBeam.weights_not_restored"
   ],
   "note": "Proved for diagonal beams; false for other beams, with a counterexample."
  },
  {
   "property": "C187",
   "status": "proved",
   "theorems": [
    "DP3.ParmEval.evalPoly_spec",
    "DP3.ParmEval.mapping_spec",
    "DP3.ParmEval.mapping_borders",
    "DP3.ParmEval.nearest_unique",
    "DP3.ParmEval.result_coeff",
    "DP3.ParmEval.evalRow_spec",
    "DP3.ParmEval.evalLoop_spec",
    "DP3.ParmEval.find_nearest"
   ],
   "note": ""
  },
  {
   "property": "C188",
   "status": "partial",
   "theorems": [
    "DP3.ParmEval.rescale_spec",
    "DP3.ParmEval.rescale_ok",
    "DP3.ParmEval.scale2_spec",
    "DP3.ParmEval.pascal_choose",
    "DP3.ParmEval.create_same_partial",
    "DP3.ParmEval.default_not_on_domain",
    "DP3.ParmEval.rescale_overrun"
   ],
   "note": "Proved for at most ten coefficients per axis; the result before the solve grid is set is on another scale, with a counterexample; more coefficients are read behind a table."
  },
  {
   "property": "C189",
   "status": "partial",
   "theorems": [
    "DP3.ParmEval.perturbed_partial",
    "DP3.ParmEval.perturbation_nonzero",
    "DP3.ParmEval.perturbed_masked"
   ],
   "note": "Proved without a solvable mask; with a mask out of bounds reads occur for every cell."
  },
  {
   "property": "C190",
   "status": "partial",
   "theorems": [
    "DP3.ParmEval.result_single",
    "DP3.ParmEval.result_multi_partial",
    "DP3.ParmEval.outside_differs"
   ],
   "note": "Proved for one ParmValue, and for more if all centers are inside of cells; false outside, with a counterexample."
  },
  {
   "property": "C191",
   "status": "partial",
   "theorems": [
    "DP3.ParmEval.add_scalars_partial",
    "DP3.ParmEval.add_coeff_partial",
    "DP3.ParmEval.add_scalars_fits",
    "DP3.ParmEval.errors_overrun",
    "DP3.ParmEval.grid_not_checked"
   ],
   "note": "Proved for the values; false for errors and for solve grids that do not match, with counterexamples."
  },
  {
   "property": "C192",
   "status": "proved",
   "theorems": [
    "DP3.ParmEval.set_get",
    "DP3.ParmEval.replace_read",
    "DP3.ParmEval.perturbations_current"
   ],
   "note": ""
  },
  {
   "property": "C193",
   "status": "partial",
   "theorems": [
    "DP3.CalParms.settings_inherited_partial",
    "DP3.CalParms.interpolation_not_inherited",
    "DP3.CalParms.interpolation_default",
    "DP3.CalParms.step_prefixes",
    "DP3.CalParms.h5_directory"
   ],
   "note": "Holds for all settings but interpolation, usemodeldata and soltab, for which a sub step uses its own value or the default; an empty list of steps is undefined."
  },
  {
   "property": "C194",
   "status": "partial",
   "theorems": [
    "DP3.CalParms.gains_read_partial",
    "DP3.CalParms.phases_not_read",
    "DP3.CalParms.fullJones_unchecked"
   ],
   "note": "Needs a real part or amplitude for element 0:0 and element 0:1 for off-diagonal ones; with phases only, the values are not found because of a wrong name."
  },
  {
   "property": "C195",
   "status": "partial",
   "theorems": [
    "DP3.CalParms.antenna_values_partial",
    "DP3.CalParms.patch_hides_values",
    "DP3.CalParms.common_mixed"
   ],
   "note": "For ParmDBs where all names of the expression have one form; a direction sorting before phase_center, or a mixture of common and other names, hides values."
  },
  {
   "property": "C196",
   "status": "partial",
   "theorems": [
    "DP3.CalParms.buffer_solution_partial",
    "DP3.CalParms.other_direction",
    "DP3.CalParms.shape_unchecked"
   ],
   "note": "The only solution is applied for any direction; only the first channel is checked, and a remainder of the division is not noticed."
  },
  {
   "property": "C197",
   "status": "partial",
   "theorems": [
    "DP3.CalParms.h5_direction_partial",
    "DP3.CalParms.single_direction",
    "DP3.CalParms.model_direction_partial",
    "DP3.CalParms.nested_direction"
   ],
   "note": "A table with a single direction accepts any name; model data of a step with a dot in its name, or of a column, are refused."
  },
  {
   "property": "C198",
   "status": "proved",
   "theorems": [
    "DP3.MsOutput.updates_outside",
    "DP3.MsOutput.updates_inside",
    "DP3.MsOutput.written_values",
    "DP3.MsOutput.updates_ok"
   ],
   "note": "If all channels are written the first one has to be 0, which holds for a measurement set read by MsReader."
  },
  {
   "property": "C199",
   "status": "partial",
   "theorems": [
    "DP3.MsOutput.flags_read_back",
    "DP3.MsOutput.flagRow_consistent",
    "DP3.MsOutput.flags_read_other",
    "DP3.MsOutput.inconsistent_unflags"
   ],
   "note": "The other channels keep their flags if the row flag agreed with the flags before; otherwise clearing it unflags channels that were not selected (inconsistent_unflags)."
  },
  {
   "property": "C200",
   "status": "proved",
   "theorems": [
    "DP3.MsOutput.new_rows",
    "DP3.MsOutput.new_flags_read"
   ],
   "note": "For complete buffers with the same number of baselines."
  },
  {
   "property": "C201",
   "status": "partial",
   "theorems": [
    "DP3.MsOutput.passed_on_partial",
    "DP3.MsOutput.passed_on_unflagged",
    "DP3.MsOutput.update_new_partial",
    "DP3.MsOutput.compressed_passed_on",
    "DP3.MsOutput.selected_channels_fail",
    "DP3.MsOutput.selected_channels_fail_data"
   ],
   "note": "With compression flagged values are replaced in the buffer that is passed on; when the first selected channel is not 0, the update of the new measurement set always throws."
  },
  {
   "property": "C202",
   "status": "proved",
   "theorems": [
    "DP3.MsOutput.output_choice",
    "DP3.MsOutput.history_never"
   ],
   "note": "history_never: the flag to write the history of an update is false for every name."
  },
  {
   "property": "C203",
   "status": "proved",
   "theorems": [
    "DP3.MsOutput.chunks_split",
    "DP3.MsOutput.chunks_none"
   ],
   "note": "For times other than 0, which marks a chunk that did not start."
  },
  {
   "property": "C204",
   "status": "partial",
   "theorems": [
    "DP3.MsOutput.chunk_names_differ",
    "DP3.MsOutput.chunk_name_partial",
    "DP3.MsOutput.padded_length",
    "DP3.MsOutput.chunk_name_directory"
   ],
   "note": "A name without extension in a directory with a dot gives another directory."
  },
  {
   "property": "C205",
   "status": "proved",
   "theorems": [
    "DP3.MsOutput.thread_result",
    "DP3.MsOutput.thread_prefix",
    "DP3.MsOutput.thread_progress",
    "DP3.MsOutput.thread_ends"
   ],
   "note": "The queue of aocommon (not in the checkout) is assumed to be first in first out with the given capacity."
  },
  {
   "property": "C206",
   "status": "partial",
   "theorems": [
    "DP3.MsOutput.global_weights",
    "DP3.MsOutput.auto_weight",
    "DP3.MsOutput.auto_weight_kept",
    "DP3.MsOutput.auto_weights_defined_partial",
    "DP3.MsOutput.auto_weight_use",
    "DP3.MsOutput.auto_weight_undefined"
   ],
   "note": "With autoweight the data have to be read as well, which is not required if no step needs them; forceautoweight alone switches it on."
  },
  {
   "property": "C207",
   "status": "proved",
   "theorems": [
    "DP3.MsOutput.beam_round_trip",
    "DP3.MsOutput.beam_untouched",
    "DP3.MsOutput.beam_last"
   ],
   "note": "For runs that read and write the same column."
  },
  {
   "property": "C208",
   "status": "partial",
   "theorems": [
    "DP3.GainCalStep.intervals_spec",
    "DP3.GainCalStep.gaincal_run_partial",
    "DP3.GainCalStep.solint_zero"
   ],
   "note": "Proved for solint > 0 (and for solint = 0 without applysolution). With solint=0 and applysolution=true the vector of buffers has size 0 when the first buffer is put in it: solint_zero."
  },
  {
   "property": "C209",
   "status": "proved",
   "theorems": [
    "DP3.GainCalStep.parmdb_times",
    "DP3.GainCalStep.slot_in_interval",
    "DP3.GainCalStep.h5_times"
   ],
   "note": "Times in an ordered field. All ntime buffers have to come: for fewer, the H5Parm is guarded by an assert only."
  },
  {
   "property": "C210",
   "status": "partial",
   "theorems": [
    "DP3.GainCalStep.cells_cover",
    "DP3.GainCalStep.channel_in_cell",
    "DP3.GainCalStep.cellFreq_regular",
    "DP3.GainCalStep.nearest_cell_partial",
    "DP3.GainCalStep.last_cell_wins"
   ],
   "note": "The H5Parm claim fails if the last cell has fewer channels: last_cell_wins shows a channel of which the nearest frequency is that of another cell."
  },
  {
   "property": "C211",
   "status": "partial",
   "theorems": [
    "DP3.GainCalStep.applycal_gets_partial",
    "DP3.GainCalStep.applycal_gets_phase",
    "DP3.GainCalStep.phases_not_applied",
    "DP3.GainCalStep.old_phases_stay"
   ],
   "note": "Proved for a ParmDB that is empty before. In a ParmDB with earlier solutions of another mode the claim fails: phases_not_applied."
  },
  {
   "property": "C212",
   "status": "partial",
   "theorems": [
    "DP3.GainCalStep.tables_partial",
    "DP3.GainCalStep.amplitude_table",
    "DP3.GainCalStep.phase_table",
    "DP3.GainCalStep.h5_values"
   ],
   "note": "Not for scalaramplitude (phases in the table with amplitudes) and tecandphase (TEC in the table with phases)."
  },
  {
   "property": "C213",
   "status": "proved",
   "theorems": [
    "DP3.Lbfgs.predicted_eq",
    "DP3.Lbfgs.gradient_is_derivative"
   ],
   "note": "Real arithmetic, Real.log. The minimiser is in libdirac, which is not in the repository."
  },
  {
   "property": "C214",
   "status": "proved",
   "theorems": [
    "DP3.Lbfgs.cost_minimum"
   ],
   "note": "Real arithmetic. A batch without visibilities is guarded by an assert only (see findings)."
  },
  {
   "property": "C215",
   "status": "proved",
   "theorems": [
    "DP3.Lbfgs.indices_in_bounds",
    "DP3.Lbfgs.split_merge",
    "DP3.Lbfgs.merge_unknowns"
   ],
   "note": "MergeSolutions is modelled for the values of one channel block."
  },
  {
   "property": "C216",
   "status": "partial",
   "theorems": [
    "DP3.LowRank.correlation_least_squares_partial",
    "DP3.LowRank.correlation_hermitian_partial",
    "DP3.LowRank.zero_model"
   ],
   "note": "Needs model values that are not zero: one zero model value between other ones gives NaN (zero_model)."
  },
  {
   "property": "C217",
   "status": "partial",
   "theorems": [
    "DP3.LowRank.weights_bounds",
    "DP3.LowRank.weight_of_equal"
   ],
   "note": "The last part fails: with k equal visibilities the weight is proportional to 1/k, whatever the weights of the data are (weight_of_equal)."
  },
  {
   "property": "C218",
   "status": "partial",
   "theorems": [
    "DP3.LowRank.correlation_exact",
    "DP3.LowRank.approximate_exact",
    "DP3.LowRank.exact_kept_partial",
    "DP3.LowRank.first_zero"
   ],
   "note": "Proved if the present solutions have the true products of gains where an element has not the full weight, so for all present solutions if all elements have weight 1. Convergence from other solutions with missing elements is not proved. If the first gain is 0 all solutions become NaN (first_zero)."
  },
  {
   "property": "C219",
   "status": "partial",
   "theorems": [
    "DP3.LowRank.directions_partial",
    "DP3.LowRank.order_stale"
   ],
   "note": "The order is that of the data of the first solve: later orders are appended to the vector and not used (order_stale)."
  },
  {
   "property": "C220",
   "status": "partial",
   "theorems": [
    "DP3.LowRank.iteration_parallel",
    "DP3.LowRank.iteration_immediate",
    "DP3.LowRank.flat_first",
    "DP3.LowRank.wrong_channel_block"
   ],
   "note": "With step size 1 the new solutions of the first channel block are subtracted in all channel blocks: flat_first, wrong_channel_block."
  },
  {
   "property": "C221",
   "status": "partial",
   "theorems": [
    "DP3.LowRank.previously_converged",
    "DP3.LowRank.never_converges",
    "DP3.LowRank.goes_on"
   ],
   "note": "Only the last part holds. For every course of iterations the loop does the maximum number of iterations and reports no convergence: never_converges."
  },
  {
   "property": "C222",
   "status": "proved",
   "theorems": [
    "DP3.AntennaSolver.expansion",
    "DP3.AntennaSolver.cost"
   ],
   "note": "Exact arithmetic. GSL and the weights, which the solver gets in the data, are not modelled."
  },
  {
   "property": "C223",
   "status": "partial",
   "theorems": [
    "DP3.AntennaSolver.transposed_partial",
    "DP3.AntennaSolver.transposed_first",
    "DP3.AntennaSolver.exact_stationary",
    "DP3.AntennaSolver.gradient_wrong"
   ],
   "note": "True for the gains of second antennas and for exact solutions. For first antennas the code has diag(U^H M g2^H) instead of diag(U (M g2^H)^H): transposed_first gives the difference, and gradient_wrong is a case in which the direction that should be steepest ascent goes down."
  },
  {
   "property": "C224",
   "status": "partial",
   "theorems": [
    "DP3.AntennaSolver.jtj_symmetric",
    "DP3.AntennaSolver.jtj_nonneg",
    "DP3.AntennaSolver.jtj_partial",
    "DP3.AntennaSolver.jtj_wrong"
   ],
   "note": "Symmetric and positive semidefinite for all inputs. Equal to the product of the derivatives for models without cross terms and changes in which no two antennas share a visibility. jtj_wrong: the matrix sees a common change of phases, which has no effect, and does not see an opposite one."
  },
  {
   "property": "C225",
   "status": "partial",
   "theorems": [
    "DP3.AntennaSolver.in_bounds_partial",
    "DP3.AntennaSolver.ends_iff",
    "DP3.AntennaSolver.later_solution_ends"
   ],
   "note": "True if all visibilities have the solution. Vectors have elements for the visibilities of the solution, but are indexed with the index among all visibilities, so that every solution but the first one of a direction ends the program."
  },
  {
   "property": "C226",
   "status": "partial",
   "theorems": [
    "DP3.AntennaSolver.never_converges",
    "DP3.AntennaSolver.goes_on"
   ],
   "note": "has_converged is declared again in the loop: convergence neither ends the loop nor is in the result. When the loop does end is proved."
  },
  {
   "property": "C227",
   "status": "partial",
   "theorems": [
    "DP3.LowRank.prepared_least_squares_partial",
    "DP3.LowRank.flagged_not_finite",
    "DP3.LowRank.weights_wrong"
   ],
   "note": "Data and model are multiplied by the weights and weighted again, so that weights are to the third power; a flagged visibility has data and model zero, of which the solver divides one by the other, so that all solutions become not finite."
  },
  {
   "property": "C228",
   "status": "proved",
   "theorems": [
    "DP3.PhaseSlope.sliding_spec",
    "DP3.PhaseSlope.window_has",
    "DP3.PhaseSlope.break_spec",
    "DP3.PhaseSlope.pieceWise_spec"
   ],
   "note": "The line fit is a parameter. That the break is at the largest distance is not stated; the part of the data from the break on may have no channels."
  },
  {
   "property": "C229",
   "status": "proved",
   "theorems": [
    "DP3.PhaseSlope.median_spec"
   ],
   "note": "Exact arithmetic: with rounding, the difference of the sum and all weights may be larger than half of the sum only if that is zero."
  },
  {
   "property": "C230",
   "status": "partial",
   "theorems": [
    "DP3.PhaseSlope.wrap_turn",
    "DP3.PhaseSlope.least_squares",
    "DP3.PhaseSlope.line_none_iff",
    "DP3.PhaseSlope.plain_weighted",
    "DP3.PhaseSlope.single_weight_wrong"
   ],
   "note": "Least squares for all inputs. Not always finite: line_none_iff says when, for instance when one channel in a window has weight; then all channels that use the window become NaN, also in the approximate stage of the TEC constraint."
  },
  {
   "property": "C231",
   "status": "partial",
   "theorems": [
    "DP3.PhaseSlope.line_recovered_partial",
    "DP3.PhaseSlope.inner_flagged_wrong"
   ],
   "note": "Needs a weight in the second or third quarter of the window, as the median is over these only. inner_flagged_wrong is a window without, in which the slope has the wrong sign."
  },
  {
   "property": "C232",
   "status": "partial",
   "theorems": [
    "DP3.PhaseSlope.counts_natural_partial",
    "DP3.PhaseSlope.largest_count",
    "DP3.PhaseSlope.fractions_lost_wrong"
   ],
   "note": "The sums of weights are kept in integers: proved for natural weights. Weights below one are lost, and then the first quarter is always chosen."
  },
  {
   "property": "C233",
   "status": "proved",
   "theorems": [
    "DP3.SolverChoice.stage_polarizations",
    "DP3.SolverChoice.stage_constraints",
    "DP3.SolverChoice.stage_iterations",
    "DP3.SolverChoice.no_null"
   ],
   "note": "Arguments of constraints are not modelled here."
  },
  {
   "property": "C234",
   "status": "partial",
   "theorems": [
    "DP3.SolverChoice.full_solves_partial",
    "DP3.SolverChoice.iterative_solves_partial",
    "DP3.SolverChoice.not_full_throws",
    "DP3.SolverChoice.gpu_throws"
   ],
   "note": "True for full data without a GPU, and for other data with the iterative algorithm in modes with one or two polarizations. In all other cases in which a solver is created with other data it throws std::logic_error at the first solution interval, and so does the GPU solver always."
  },
  {
   "property": "C235",
   "status": "partial",
   "theorems": [
    "DP3.SolverChoice.gpu_refused_partial",
    "DP3.SolverChoice.gpu_ignored",
    "DP3.SolverChoice.gpu_throws"
   ],
   "note": "Refused without CUDA in modes with two polarizations. Ignored in all other modes. With CUDA, the solver is created for full data only but is the one for dual data, so that it always throws when it has to solve."
  },
  {
   "property": "C236",
   "status": "partial",
   "theorems": [
    "DP3.SolverChoice.model_weights_partial",
    "DP3.SolverChoice.hybrid_unweighted_wrong"
   ],
   "note": "True but for the hybrid solver, which has no constraints itself, so that the constraints of its stages keep the weights without the model."
  },
  {
   "property": "C237",
   "status": "proved",
   "theorems": [
    "DP3.Aartfaac.read_block",
    "DP3.Aartfaac.metadata_block"
   ],
   "note": "Skips of negative numbers of blocks are not modelled."
  },
  {
   "property": "C238",
   "status": "partial",
   "theorems": [
    "DP3.Aartfaac.all_blocks_partial",
    "DP3.Aartfaac.all_blocks_wrong",
    "DP3.Aartfaac.nTimesteps_iff"
   ],
   "note": "True with ntimes up to the number of blocks, or when all headers and remaining bytes together are smaller than the data of one block. In all other cases the reader throws after the last block, because the file size is divided by the size of a block without header."
  },
  {
   "property": "C239",
   "status": "partial",
   "theorems": [
    "DP3.Aartfaac.mode_checked_partial",
    "DP3.Aartfaac.magic_not_checked"
   ],
   "note": "The correlation mode is checked. The magic number is compared with itself."
  },
  {
   "property": "C240",
   "status": "partial",
   "theorems": [
    "DP3.Aartfaac.frequency_step_partial",
    "DP3.Aartfaac.frequencies_shifted",
    "DP3.Aartfaac.times_shifted",
    "DP3.Aartfaac.exposure_weight"
   ],
   "note": "Distances of channels, exposures and weights are right. The frequencies for the next steps are one channel above those in the table, and the times in the meta data are Unix times but those of buffers are not."
  },
  {
   "property": "C241",
   "status": "partial",
   "theorems": [
    "DP3.Aartfaac.flag_iff_partial",
    "DP3.Aartfaac.flagged_zero",
    "DP3.Aartfaac.imaginary_not_flagged",
    "DP3.Aartfaac.delay_keeps"
   ],
   "note": "True for real parts. A channel in which only imaginary parts are not finite is not flagged, and has both parts not finite in the buffer."
  },
  {
   "property": "C242",
   "status": "partial",
   "theorems": [
    "DP3.Aartfaac.output_info_partial",
    "DP3.Aartfaac.fields_needed",
    "DP3.Aartfaac.process_undefined"
   ],
   "note": "The meta data of the output are right. But the reader uses those of its input, which are empty, so that the first block of every file leads to a read past the end. Data, flags and UVW have to be asked for too."
  },
  {
   "property": "C243",
   "status": "proved",
   "theorems": [
    "DP3.Aartfaac.parse_file",
    "DP3.Aartfaac.positions",
    "DP3.Aartfaac.antenna_positions"
   ],
   "note": "The division of lines into tokens, and the conversion of text to numbers, are not modelled."
  },
  {
   "property": "C244",
   "status": "partial",
   "theorems": [
    "DP3.Aartfaac.count_checked_partial",
    "DP3.Aartfaac.mode_refused",
    "DP3.Aartfaac.missing_undefined",
    "DP3.Aartfaac.empty_accepted",
    "DP3.Aartfaac.position_undefined_iff"
   ],
   "note": "Wrong numbers of antennas and modes are refused. A file without the array of the antenna field, such as an empty one or one that does not exist, leads to undefined behaviour, and so does a number of values with remainder 1 or 2 by 6."
  },
  {
   "property": "C245",
   "status": "proved",
   "theorems": [
    "DP3.FlagReport.pages_spec",
    "DP3.FlagReport.table",
    "DP3.FlagReport.percentage_nearest"
   ],
   "note": "Column widths are not modelled."
  },
  {
   "property": "C246",
   "status": "partial",
   "theorems": [
    "DP3.FlagReport.fully_flagged_partial",
    "DP3.FlagReport.no_data_wrong"
   ],
   "note": "True if there are visibilities. When no time slot was processed, all baselines are listed, and a quotient that is not a number is converted to an integer."
  },
  {
   "property": "C247",
   "status": "partial",
   "theorems": [
    "DP3.FlagReport.warnings_partial",
    "DP3.FlagReport.no_warnings",
    "DP3.FlagReport.warning_text_wrong",
    "DP3.FlagReport.total_sum"
   ],
   "note": "The right channels are shown, but each percentage is followed by the same number as a duration in seconds or milliseconds."
  },
  {
   "property": "C248",
   "status": "partial",
   "theorems": [
    "DP3.FlagReport.save_name",
    "DP3.FlagReport.save_name_here",
    "DP3.FlagReport.save_name_collision"
   ],
   "note": "Names that differ after the first dot only give the same tables."
  },
  {
   "property": "C249",
   "status": "proved",
   "theorems": [
    "DP3.SvpInput.receive_chunks",
    "DP3.SvpInput.messages_received",
    "DP3.SvpInput.message_incomplete",
    "DP3.SvpInput.empty_message_error"
   ],
   "note": "The socket is a list of non-empty chunks. Sizes of 2^31 bytes and more, that do not fit in the int of ReceiveBytes, are not modelled; empty messages, which the meta data of zero antennas or channels have, are always an error."
  },
  {
   "property": "C250",
   "status": "partial",
   "theorems": [
    "DP3.SvpInput.alma_flags_lost",
    "DP3.SvpInput.alma_message"
   ],
   "note": "Violated: the flags are received into a copy of the flags of the buffer, which is dropped, and the flags of the buffer are set to false. No buffer ever has a flag. Proved besides: what process does with a complete message."
  },
  {
   "property": "C251",
   "status": "partial",
   "theorems": [
    "DP3.SvpInput.data_values",
    "DP3.SvpInput.data_incomplete",
    "DP3.SvpInput.data_one",
    "DP3.SvpInput.data_three",
    "DP3.SvpInput.data_other_bits",
    "DP3.SvpInput.alma_message"
   ],
   "note": "Proved for two and four correlations, 16 and 32 bits. Violated otherwise: one correlation writes behind the end of the data, the third of three is not stored, and for other numbers of bits, in builds without assertions, the buffer is sent on without data."
  },
  {
   "property": "C252",
   "status": "partial",
   "theorems": [
    "DP3.SvpInput.meta_received",
    "DP3.SvpInput.meta_accepted",
    "DP3.SvpInput.meta_truncated",
    "DP3.SvpInput.meta_empty_ub",
    "DP3.SvpInput.meta_short_ub"
   ],
   "note": "Proved: complete meta data are received, and no truncated meta data are accepted. Violated: when the stream ends before the number of antennas, indeterminate numbers are used for sizes of vectors before the check."
  },
  {
   "property": "C253",
   "status": "partial",
   "theorems": [
    "DP3.SvpInput.lofar_stream",
    "DP3.SvpInput.alma_short_silent",
    "DP3.SvpInput.aartfaac_throws"
   ],
   "note": "Proved for LOFAR. Violated for ALMA, where a stream that ends between time slots or inside a header ends the run normally, and for AARTFAAC, that is accepted in the meta data and then always refused. More time slots than announced are accepted for LOFAR."
  },
  {
   "property": "C254",
   "status": "proved",
   "theorems": [
    "DP3.SvpInput.baselines_complete",
    "DP3.SvpInput.baselines_length",
    "DP3.SvpInput.baselines_nodup",
    "DP3.SvpInput.baseline_row",
    "DP3.SvpInput.mem_baselines_alma",
    "DP3.SvpInput.mem_baselines_other"
   ],
   "note": "Sizes are natural numbers without overflow."
  },
  {
   "property": "C255",
   "status": "partial",
   "theorems": [
    "DP3.ParmTables.Registry.registry_safe",
    "DP3.ParmTables.Registry.open_shares",
    "DP3.ParmTables.Registry.closed_when_last",
    "DP3.ParmTables.Registry.new_when_closed",
    "DP3.ParmTables.Registry.open_new_is_old",
    "DP3.ParmTables.Registry.step_inv"
   ],
   "note": "Proved: sharing, counting and the reuse of entries, for all sequences. Violated: forceNew is not used when the table is open, so that the old values remain. Table names are compared as texts: two spellings of one path are two tables."
  },
  {
   "property": "C256",
   "status": "proved",
   "theorems": [
    "DP3.ParmTables.step_refines",
    "DP3.ParmTables.run_refines",
    "DP3.ParmTables.load_spec",
    "DP3.ParmTables.stored_values_read",
    "DP3.ParmTables.getNameId_spec",
    "DP3.ParmTables.inv_fresh"
   ],
   "note": "For all sequences of operations without clearTables (that is C257), by refinement to a map from names to lists of values. Locking and several processes are not modelled."
  },
  {
   "property": "C257",
   "status": "partial",
   "theorems": [
    "DP3.ParmTables.clear_breaks",
    "DP3.ParmTables.clear_keeps_defaults",
    "DP3.ParmTables.broken_step"
   ],
   "note": "Violated: the keyword UNIQUE_ID is not reset, so that the check of the row number of a new name fails for ever and no new parameter can be stored; default values in the map remain."
  },
  {
   "property": "C258",
   "status": "partial",
   "theorems": [
    "DP3.ParmTables.update_row",
    "DP3.ParmTables.update_after_delete",
    "DP3.ParmTables.update_loses_domain"
   ],
   "note": "Proved while nothing is deleted. Violated: after a deletion the row number is that of another value, which is overwritten; a changed domain is not stored if the shape is the same."
  },
  {
   "property": "C259",
   "status": "partial",
   "theorems": [
    "DP3.ParmTables.name_twice"
   ],
   "note": "Violated: a name that did not exist when both looked it up is entered twice; the values of the second are not found by the name."
  },
  {
   "property": "C260",
   "status": "proved",
   "theorems": [
    "DP3.ParmTables.default_spec",
    "DP3.ParmTables.search_spec",
    "DP3.ParmTables.parent_spec"
   ],
   "note": "For all sequences without clearTables (C257)."
  },
  {
   "property": "C261",
   "status": "partial",
   "theorems": [
    "DP3.ImageStep.perImage_spec",
    "DP3.ImageStep.images_spec",
    "DP3.ImageStep.last_slots_lost",
    "DP3.ImageStep.processAll_spec"
   ],
   "note": "Proved: lengths of groups, and the contents of the images. Violated: the time slots behind the last complete group are in no image, as finish does nothing with them. WSClean is not modelled."
  },
  {
   "property": "C262",
   "status": "partial",
   "theorems": [
    "DP3.ImageStep.antenna_names",
    "DP3.ImageStep.antenna_names_wrong",
    "DP3.ImageStep.sorted_at"
   ],
   "note": "Proved: an antenna has the right name exactly if all antennas before it are in some baseline. Violated otherwise: the names are those of the used antennas, while the numbers count all antennas."
  },
  {
   "property": "C263",
   "status": "partial",
   "theorems": [
    "DP3.ImageStep.names_sorted",
    "DP3.ImageStep.names_distinct",
    "DP3.ImageStep.names_of_run",
    "DP3.ImageStep.names_unsorted",
    "DP3.ImageStep.names_equal"
   ],
   "note": "Proved with a prefix: all names are different, and sorted for up to 100000 images. Violated: without fitsprefix all images have the same name, and image 100000 sorts before image 99999."
  },
  {
   "property": "C264",
   "status": "partial",
   "theorems": [
    "DP3.PreFlagRanges.day_range",
    "DP3.PreFlagRanges.day_around",
    "DP3.PreFlagRanges.abs_range",
    "DP3.PreFlagRanges.rel_around",
    "DP3.PreFlagRanges.fillTimes_union",
    "DP3.PreFlagRanges.split_dots",
    "DP3.PreFlagRanges.split_pm",
    "DP3.PreFlagRanges.long_ranges"
   ],
   "note": "Proved for values within a day and widths up to half a day. Violated beyond: 12h+-13h does not match noon, 1h..26h matches one hour only, and 25h..26h also matches the first hour of the day; none of them is refused. MVAngle and MVTime are taken as given readers."
  },
  {
   "property": "C265",
   "status": "partial",
   "theorems": [
    "DP3.PreFlagRanges.channels_spec",
    "DP3.PreFlagRanges.channel_refused",
    "DP3.PreFlagRanges.selectRange_get",
    "DP3.PreFlagRanges.channel_negative"
   ],
   "note": "Proved for expressions with values from 0 to below 2^32 - 1. Violated: a negative value, such as nchan-100 for fewer channels, is converted to an unsigned number, which is undefined behaviour. The parser of expressions is taken as a given function."
  },
  {
   "property": "C266",
   "status": "partial",
   "theorems": [
    "DP3.PreFlagRanges.freq_units",
    "DP3.PreFlagRanges.freq_units_pm",
    "DP3.PreFlagRanges.handleFreqRanges_spec",
    "DP3.PreFlagRanges.freq_reversed"
   ],
   "note": "Proved: units, bounds and union of the ranges. Violated: a reversed range is accepted and selects nothing, so that the criterion is dropped. The reader of numbers and units is a given function."
  },
  {
   "property": "C267",
   "status": "partial",
   "theorems": [
    "DP3.Transfer.antennas_accepted",
    "DP3.Transfer.antennas_other",
    "DP3.Transfer.antennas_refused",
    "DP3.Transfer.antennas_overrun"
   ],
   "note": "Proved: exactly which lists are accepted. Violated: any stations are accepted if there are as many; a part of the stations is refused unless they are the first ones; a source with more stations reads behind the names of the target."
  },
  {
   "property": "C268",
   "status": "partial",
   "theorems": [
    "DP3.Transfer.rest_of_target"
   ],
   "note": "Proved: kept in place, and zero if there were no data. Violated: with outputbuffername the new array has the shape of the main data and is not filled, so that the other baselines have no defined value. Stated for equal numbers of channels."
  },
  {
   "property": "C269",
   "status": "partial",
   "theorems": [
    "DP3.UpdateStorage.replaced_partial",
    "DP3.UpdateStorage.compressed_iff",
    "DP3.UpdateStorage.not_asked",
    "DP3.UpdateStorage.replaced_uncompressed",
    "DP3.UpdateStorage.kept_compressed"
   ],
   "note": "Proved for new columns if the bit rate is not zero and the flags are read. Violated: flagged values are lost in existing columns that are not compressed, or if the bit rate is zero; they are kept in a compressed column if no step reads the flags (the update does not ask for them), or if the column was compressed before and no manager is named."
  },
  {
   "property": "C270",
   "status": "partial",
   "theorems": [
    "DP3.UpdateStorage.data_rate",
    "DP3.UpdateStorage.weight_rate",
    "DP3.UpdateStorage.unknown_manager"
   ],
   "note": "Proved for data. Violated: weights follow the bit rate of the data, so that weightbitrate=0 gives 16 bits and databitrate=0 leaves them uncompressed; an unknown name is ignored. The writer of new measurement sets does both right."
  },
  {
   "property": "C271",
   "status": "partial",
   "theorems": [
    "DP3.FastPredict.one_reference",
    "DP3.FastPredict.fast_reference_partial",
    "DP3.FastPredict.fast_moving"
   ],
   "note": "Proved for the normal prediction, and for the fast one with a fixed phase centre. Violated: with a moving phase centre the fast prediction uses the direction with right ascension and declination zero for all time slots, because the reference is copied to the plan in updateInfo only."
  },
  {
   "property": "C272",
   "status": "partial",
   "theorems": [
    "DP3.FastPredict.baselines_once",
    "DP3.FastPredict.baselines_again"
   ],
   "note": "Proved if the information is given once. Violated otherwise: the list of baselines is not cleared."
  },
  {
   "property": "C273",
   "status": "proved",
   "theorems": [
    "DP3.FastPredict.copy_stokesI",
    "DP3.FastPredict.copy_all"
   ],
   "note": "One visibility; the loops over baselines and channels are the same for each. With one correlation first and last are the same."
  },
  {
   "property": "C274",
   "status": "partial",
   "theorems": [
    "DP3.MakeSteps.rows_steps",
    "DP3.MakeSteps.rows_main_partial",
    "DP3.MakeSteps.rows_final_wrong"
   ],
   "note": "Proved for the output steps in the list of steps, and for the whole chain if no new measurement set is written before its last step. Violated otherwise: the output step at the end with an empty name or . updates the input, with row numbers of the measurement set that was written, also after averaging."
  },
  {
   "property": "C275",
   "status": "partial",
   "theorems": [
    "DP3.MakeSteps.compatible_partial",
    "DP3.MakeSteps.main_compatible_partial",
    "DP3.MakeSteps.first_unchecked",
    "DP3.MakeSteps.column_wrong",
    "DP3.MakeSteps.bda_out_first"
   ],
   "note": "Proved that created chains fit if the first step can process the input and no column is read for BDA data. Violated: the first step is not checked; a column reader for BDA data says that it outputs regular data; an output step for BDA data in the list of steps is refused unless it is the first one."
  },
  {
   "property": "C276",
   "status": "proved",
   "theorems": [
    "DP3.MakeSteps.type_of_name",
    "DP3.MakeSteps.type_given",
    "DP3.MakeSteps.known_name",
    "DP3.MakeSteps.unknown_refused"
   ],
   "note": "A build with all optional parts."
  },
  {
   "property": "C277",
   "status": "partial",
   "theorems": [
    "DP3.MakeSteps.msout_made_partial",
    "DP3.MakeSteps.msout_ignored"
   ],
   "note": "Proved if the list of steps does not end with an output step. Violated otherwise: a null step and the writer for WSClean are output steps too, and a named output is then ignored."
  },
  {
   "property": "C278",
   "status": "partial",
   "theorems": [
    "DP3.Cluster.longest_mount",
    "DP3.Cluster.no_mount",
    "DP3.Cluster.add_mount_partial",
    "DP3.Cluster.trailing_slash",
    "DP3.Cluster.auto_disk"
   ],
   "note": "Proved for mount points that start with a slash and file names that do not start with two. Violated: files in a mount point with a slash at its end are not found; a disk of which the name starts with auto, like /autodata, makes an assertion fail."
  },
  {
   "property": "C279",
   "status": "proved",
   "theorems": [
    "DP3.Cluster.nodes_by_name",
    "DP3.Cluster.nodes_by_fs",
    "DP3.Cluster.nodes_complete",
    "DP3.Cluster.duplicate_refused"
   ],
   "note": "Reading of parsets is left out."
  },
  {
   "property": "C280",
   "status": "partial",
   "theorems": [
    "DP3.Vds.times_read",
    "DP3.Vds.times_exact_partial",
    "DP3.Vds.times_drift"
   ],
   "note": "Proved if numbers are written with all their digits. Violated otherwise: the step is written with six digits, while the differences are relative to the exact step, so times drift, by more for later slots."
  },
  {
   "property": "C281",
   "status": "partial",
   "theorems": [
    "DP3.Vds.bands_summary",
    "DP3.Vds.bands_ranges",
    "DP3.Vds.times_combined",
    "DP3.Vds.all_empty"
   ],
   "note": "Proved for parts with individual frequencies or with ranges, and for times if some part has data. Violated: if all parts are empty, the check compares with zero instead of the initial value, and a range from 1e30 to 0 is written."
  },
  {
   "property": "C282",
   "status": "partial",
   "theorems": [
    "DP3.Vds.freq_partial",
    "DP3.Vds.freq_wrong",
    "DP3.Vds.field_partial",
    "DP3.Vds.fields_wrong"
   ],
   "note": "Proved if rows of DATA_DESCRIPTION have the spectral window of their own number and there is one field. Violated otherwise: the spectral window identifier is not used, and the direction of field i is taken from element i of its own list."
  },
  {
   "property": "C283",
   "status": "proved",
   "theorems": [
    "DP3.Units.pretty_value",
    "DP3.Units.pretty_range",
    "DP3.Units.pretty_si"
   ],
   "note": "Without the rounding to a number of digits."
  },
  {
   "property": "C284",
   "status": "proved",
   "theorems": [
    "DP3.Units.memory_refused",
    "DP3.Units.memory_bounds",
    "DP3.Units.memory_default"
   ],
   "note": "Over an ordered field; the memory of the system is a parameter."
  },
  {
   "property": "C285",
   "status": "proved",
   "theorems": [
    "DP3.ParmCache.flush_writes"
   ],
   "note": "For one ParmDB."
  },
  {
   "property": "C286",
   "status": "partial",
   "theorems": [
    "DP3.ParmCache.flush_atomic_partial",
    "DP3.ParmCache.flush_released"
   ],
   "note": "Proved for at most one dirty value set. Violated otherwise: the ParmDBLocker is a temporary object, so its lock is released before the first write, and each write takes and releases its own lock."
  },
  {
   "property": "C287",
   "status": "partial",
   "theorems": [
    "DP3.ParmSet.addParm_id",
    "DP3.ParmSet.addParm_db_partial",
    "DP3.ParmSet.addParm_other_db"
   ],
   "note": "Proved for names, and for ParmDBs if the name is new. Violated if two ParmDBs have the same name: the parameter of the first one is used for both, without an error."
  },
  {
   "property": "C288",
   "status": "proved",
   "theorems": [
    "DP3.ParmSet.getValues_new"
   ],
   "note": "Including that the loop over ParmDBs does not stop too early when some parameters have default values only."
  }
 ]
}
