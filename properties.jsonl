{"id": "C01", "title": "Baseline numbering is a bijection", "statement": "For an array of n antennas and either ordering, ComputeBaselineIndex maps every antenna pair (in either argument order) to a number below ComputeNBaselines(n); different unordered pairs get different numbers, and ComputeBaseline(index) returns exactly the pair (smaller antenna first) that has that number.", "quantifier": "every antenna count n, both orderings, every pair of antennas below n, every index below the number of baselines", "why_tests_cant": "A unit test fixes a few antenna counts; the square-root inversion can only be trusted when it is shown for every index of every n.", "anchors": ["common/baseline_indices.h: ComputeNBaselines, ComputeBaselineIndex, ComputeBaseline"]}
{"id": "C02", "title": "Baseline list of an antenna is complete", "statement": "ComputeBaselineList(a, n, order) returns n distinct baseline numbers, and a baseline number is in the list exactly when the pair it stands for contains antenna a.", "quantifier": "every antenna count, antenna below it, and ordering", "why_tests_cant": "Tests list a few antennas for one n; completeness is a statement over all baselines.", "anchors": ["common/baseline_indices.h: ComputeBaselineList", "antennaflagger/Flagger.cc"]}
{"id": "C03", "title": "The reader loads exactly the fields the chain needs", "statement": "The set of fields (data, flags, weights, uvw) that GetChainRequiredFields reports for a step chain contains a field exactly when some step requires it and no earlier step in the chain provides it without requiring it.", "quantifier": "every step chain of any length with arbitrary required/provided field sets", "why_tests_cant": "Tests use a handful of concrete chains; the rule must hold for any user-written step list.", "anchors": ["base/DP3.cc: GetChainRequiredFields", "common/Fields.h: UpdateRequirements"]}
{"id": "C04", "title": "No step ever misses a required field", "statement": "If the reader loads the fields reported by GetChainRequiredFields, then at its turn every step of the chain finds each field it requires either loaded by the reader or provided by an earlier step; dropping any one reported field breaks this for some step.", "quantifier": "every step chain, every step position in it", "why_tests_cant": "It is a statement about all chains and all positions at once.", "anchors": ["base/DP3.cc: GetChainRequiredFields", "steps/Step.h: getRequiredFields, getProvidedFields"]}
{"id": "C05", "title": "Every modified field is written by the next output step", "statement": "SetChainProvidedFields tells each output step to write exactly the fields that were provided by the steps after the previous output step (or, for the first one, by the initial set or the steps before it); the value returned is exactly what was provided after the last output step.", "quantifier": "every step chain with any number of output steps and any initial field set", "why_tests_cant": "Wrongly dropped or repeated writes depend on the pattern of output steps in user chains, which is unbounded.", "anchors": ["base/DP3.cc: SetChainProvidedFields", "steps/OutputStep.h: SetFieldsToWrite"]}
{"id": "C06", "title": "Rows of a BDA buffer never overlap and never exceed the capacity", "statement": "After any sequence of AddRow, AddData, RemoveData and Clear calls on a BdaBuffer, the slices of its rows are consecutive and disjoint, together they occupy GetNumberOfElements elements, and that number plus GetRemainingCapacity equals the capacity given at construction; an AddRow that does not fit is refused and changes nothing.", "quantifier": "every call sequence, every row shape, every subset of enabled fields", "why_tests_cant": "Only finitely many sequences can be run; the invariant is over all call histories.", "anchors": ["base/BdaBuffer.cc: AddRow, Clear", "base/BdaBuffer.h: Row, GetRemainingCapacity"]}
{"id": "C07", "title": "Data written to a BDA buffer row stays with that row", "statement": "The data, flags and weights passed to a successful AddRow are read back unchanged through GetData/GetFlags/GetWeights of that row after any number of later AddRow calls, successful or refused.", "quantifier": "every sequence of later calls, every row index", "why_tests_cant": "Aliasing between rows appears only for particular sequences of sizes.", "anchors": ["base/BdaBuffer.cc: AddRow, GetData, GetFlags, GetWeights"]}
{"id": "C08", "title": "Averaging keeps the weighted mean and total weight", "statement": "When the Averager step averages, a sample it emits is flagged exactly when the unflagged input samples of its time/channel bin have total weight zero, or are fewer than minpoints, or fewer than minperc percent of the bin. An unflagged output sample has as weight the total weight and as value the weighted mean of the unflagged input samples of its bin; a flagged one has those of all input samples of its bin. Every input channel is in exactly one bin and the UVW coordinates are the mean over the time slots.", "quantifier": "every input stream, every time/frequency averaging factor, every flag pattern and weights", "why_tests_cant": "Partial bins, flagged points and empty bins combine without bound.", "anchors": ["steps/Averager.cc: process, average, finish"]}
{"id": "C09", "title": "Averaging in time loses no time slot", "statement": "For N input time slots and a time averaging factor T the Averager emits exactly ceil(N/T) buffers, the i-th built from input slots i*T up to min((i+1)*T,N), in order, the last one possibly partial and emitted by finish().", "quantifier": "every N and T", "why_tests_cant": "A test runs a few N and T; the end-of-stream flush is the classic place where data are lost.", "anchors": ["steps/Averager.cc: process, finish", "base/DPInfo.cc: update"]}
{"id": "C10", "title": "Baseline-dependent averaging covers every input sample exactly once", "statement": "For every baseline the rows emitted by BdaAverager, in order of emission, are built from consecutive disjoint groups of input time slots that together are all input time slots; each output channel is built from consecutive disjoint non-empty groups of input channels that together are all input channels.", "quantifier": "every number of time slots of a regular time axis, every per-baseline time factor and channel count, every interleaving of buffer-size requests that can hold a row", "why_tests_cant": "Time factors differ per baseline, so which rows share a buffer and when partial groups are flushed depends on the whole history.", "anchors": ["steps/BDAAverager.cc: process, AddBaseline, finish, BaselineBuffer"]}
{"id": "C11", "title": "Baseline-dependent averaging keeps the weighted mean and total weight", "statement": "Each output visibility of a BdaAverager row carries the sum of the weights of its unflagged inputs and their weighted mean, and the row's UVW is the mean of the input UVWs of its time slots.", "quantifier": "every input stream, flag pattern and weights", "why_tests_cant": "The claim quantifies over all flag patterns, including fully flagged ones (where the code deviates: UVW stays an un-normalised sum).", "anchors": ["steps/BDAAverager.cc: process, AddBaseline"]}
{"id": "C12", "title": "Expanding BDA data emits every complete time slot once, in order", "statement": "BdaExpander passes on regular buffers for time slots 0,1,2,... in increasing order without gaps or repeats, each only after every baseline has delivered a row covering that slot, and whatever the grouping of the same rows into BDA buffers, the same time slots have been passed on at the end.", "quantifier": "every sequence of BDA rows and every division of it into buffers", "why_tests_cant": "Arrival orders of long and short rows are unbounded.", "anchors": ["steps/BdaExpander.cc: process, finish, CopyData"]}
{"id": "C13", "title": "Interpolation in a sliding window equals whole-stream interpolation", "statement": "The Interpolate step emits every input time slot once and in order; each flagged sample is replaced by the kernel-weighted mean of exactly the unflagged input samples whose time slot and channel are within half a window of it (or flagged and zeroed when there are none or one of them is not finite), unflagged finite samples are emitted unchanged and unflagged non-finite samples are emitted as flagged zeros.", "quantifier": "every stream length, window size, and flag pattern", "why_tests_cant": "Window warm-up and end-of-stream flush interact with flags for every length.", "anchors": ["steps/Interpolate.cc: process, finish, interpolateTimestep, interpolateSample, sendFrontBufferToNextStep"]}
{"id": "C14", "title": "Interpolation result does not depend on thread scheduling", "statement": "The samples of a time slot may be handed to worker threads in any order and interleaving; the interpolated time slot is the same.", "quantifier": "every order of the work list and every interleaving of the reads and writes of the tasks", "why_tests_cant": "Races show up only under particular schedules.", "anchors": ["steps/Interpolate.cc: interpolationThread, interpolateSample", "common/buffered_lane.h"]}
{"id": "C15", "title": "Buffered lanes lose, duplicate and reorder nothing", "statement": "Elements written through a lane_write_buffer with one producer are received through lane_read_buffer exactly once in order of writing, and after write_end the reader is told the end only after all elements were delivered, for any buffer sizes on both sides.", "quantifier": "every element sequence, every pair of buffer sizes, every interleaving of producer and consumer", "why_tests_cant": "Interleavings of producer and consumer cannot be enumerated.", "anchors": ["common/buffered_lane.h: lane_write_buffer, lane_read_buffer"]}
{"id": "C16", "title": "Upsampling yields one buffer per fine time slot", "statement": "For a non-empty input whose slots start on the fine time grid (within a fifth of a fine interval), with increasing starts and non-consecutive slots not overlapping, the Upsample step with factor T emits buffers at strictly increasing times, every fine time covered by an input slot exactly once; where two consecutive slots cover a fine time the later slot's copy is emitted unless that slot is fully flagged. A regular input of N slots gives N*T buffers.", "quantifier": "every N >= 1, T, every overlap offset, every pattern of fully flagged slots", "why_tests_cant": "Overlap resolution depends on the offset between consecutive slots.", "anchors": ["steps/Upsample.cc: process, finish"]}
{"id": "C17", "title": "The MS reader delivers a gap-free time axis", "statement": "MsReader emits one buffer for every multiple of the interval from the first to the last time, whichever time slots exist in the MS. A slot present in the MS is emitted once with its own rows, at its time up to the tolerance, and an absent one is emitted without rows, fully flagged. For irregular slot times the emitted times still increase by at most one interval, in MS order, and no slot is left out that lies between the first time and the last time (minus the tolerance). Reading ends.", "quantifier": "every set of present and missing time slots, every jitter up to the tolerance, and every irregular sequence of times with spacing above the tolerance", "why_tests_cant": "The interplay of missing slots, jitter and early slots shifts the grid for the rest of the observation; tests use a handful of regular measurement sets.", "anchors": ["steps/MsReader.cc: process", "base/DPInfo.cc: setTimes"]}
{"id": "C18", "title": "Non-finite or partially flagged visibilities are flagged completely", "statement": "After reading data and flags, the flags of all correlations of a visibility are equal, and they are set exactly when one of its correlations was flagged in the input or one of its values is not finite.", "quantifier": "every data and flag pattern and correlation count", "why_tests_cant": "Flag patterns are unbounded; the early exit must be shown harmless.", "anchors": ["steps/MsReader.cc: FlagInfinityNan"]}
{"id": "C19", "title": "Joining several measurement sets puts every band in its own channel range", "statement": "MultiMsReader places the channels of the i-th MS directly after those of the preceding ones in data, flags and weights alike, at the positions where the output frequency axis lists that MS's frequencies; channels of a missing MS are zero, flagged and have zero weight.", "quantifier": "every number of MSs, channel counts and pattern of missing MSs", "why_tests_cant": "Patterns of missing bands and channel counts are unbounded.", "anchors": ["steps/MultiMsReader.cc: process, GetWeights, FillBands, HandleBands"]}
{"id": "C20", "title": "PreFlagger expressions follow the documented operator precedence", "statement": "For every expression built from set names with NOT, AND, OR and parentheses, the evaluation done by PreFlagger equals its value as a boolean formula where NOT binds strongest, then AND, then OR.", "quantifier": "every expression of every depth and every truth assignment to the sets", "why_tests_cant": "Expressions are unbounded trees.", "anchors": ["steps/PreFlagger.cc: PSet::exprToRpn, PSet::process", "steps/PreFlagger.h: Oper"]}
{"id": "C21", "title": "An accepted PreFlagger expression never underflows the evaluation stack", "statement": "Whatever token sequence is given, when the expression parser accepts it, evaluating the resulting reverse-Polish list never pops an empty stack and ends with exactly one result; every other sequence is rejected with an error.", "quantifier": "every token sequence, well-formed or not", "why_tests_cant": "Malformed user input is unbounded.", "anchors": ["steps/PreFlagger.cc: PSet::exprToRpn, PSet::process"]}
{"id": "C22", "title": "PreFlagger selections are the conjunction of their criteria", "statement": "A visibility is selected by a PreFlagger set exactly when it fulfils all given criteria (time, baseline, uv-distance, azimuth/elevation, channel, amplitude/phase/real/imaginary range and the sub-expression), evaluated per visibility, and a set without any criterion selects nothing.", "quantifier": "every combination of criteria and every visibility; includes channel criteria that select no channel", "why_tests_cant": "The product of criteria, baselines, channels and times is unbounded; the code deviates when a channel or frequency selection is empty.", "anchors": ["steps/PreFlagger.cc: PSet::process, PSet::updateInfo, flagChannels"]}
{"id": "C23", "title": "PreFlagger modes change only the visibilities they name", "statement": "Mode set flags the selected visibilities, clear unflags them, setcomplement and clearcomplement do so for the unselected ones; all other visibilities keep their flags, and the flag counters increase by the number of visibilities changed.", "quantifier": "every mode, selection and prior flag pattern", "why_tests_cant": "All flag patterns times all selections.", "anchors": ["steps/PreFlagger.cc: process, setFlags, clearFlags"]}
{"id": "C24", "title": "Baseline selection is symmetric and is the conjunction of its criteria", "statement": "BaselineSelection::apply selects baseline (i,j) exactly when it selects (j,i), and a baseline of the data is selected exactly when it satisfies the antenna patterns, the correlation type and a length range, each when given.", "quantifier": "every antenna list, baseline list, pattern list, correlation type and length ranges", "why_tests_cant": "Combinations of criteria and arrays are unbounded.", "anchors": ["base/BaselineSelection.cc: apply, handleBLVector, handleCorrType, handleLength"]}
{"id": "C25", "title": "Removing unused antennas keeps every baseline's antennas", "statement": "After DPInfo::RemoveUnusedAntennas the antenna list holds exactly the antennas that occur in a baseline, in their original order, and every baseline still refers to the antennas (name, diameter, position) it referred to before; before and after, antennaUsed() and antennaMap() agree with the baselines, whatever calls were made.", "quantifier": "every antenna list, baseline list and sequence of setAntennas, SelectBaselines, RemoveUnusedAntennas and queries", "why_tests_cant": "Index renumbering must be right for every pattern of removed antennas and every call order.", "anchors": ["base/DPInfo.cc: setAntennas, setAntUsed, SelectBaselines, RemoveUnusedAntennas"]}
{"id": "C26", "title": "Channel averaging keeps the frequency coverage", "statement": "After DPInfo::update with channel factor C (clipped to the number of channels, refused if it does not divide it) there are nchan/C channels; each averaged width, resolution and effective bandwidth is the sum over its bin, so the totals and the total bandwidth are kept; for contiguous input channels each averaged channel is centred on its bin.", "quantifier": "every channel count, factor and contiguous frequency axis", "why_tests_cant": "The centre is wrong only for bins whose first and last channel differ in width, which no test has.", "anchors": ["base/DPInfo.cc: update, setChannels"]}
{"id": "C27", "title": "Filtering copies exactly the selected baselines and channels", "statement": "The Filter step's output sample (b,c,p) is the input sample (b-th selected baseline, start channel + c, p) for data, flags, weights, and likewise for UVW and row numbers, and a selection that matches no baseline does not let baselines through.", "quantifier": "every shape, start channel, channel count and baseline selection", "why_tests_cant": "Pointer arithmetic over all shapes; the code deviates for an empty selection.", "anchors": ["steps/Filter.cc: updateInfo, process"]}
{"id": "C28", "title": "Removing stations keeps the subtables consistent", "statement": "When the Filter step removes stations from the output MS, the id map sends each removed id to -1 and each kept id to the number of kept ids below it; the ANTENNA table keeps the rows of the kept stations in order; rows of removed stations disappear from the other subtables and every remaining row still refers to the same antenna (and every element failure to the same antenna field).", "quantifier": "every number of ids, every set of removed stations and every content of the subtables", "why_tests_cant": "All subsets of removed stations and a two-level renumbering.", "anchors": ["steps/Filter.cc: addToMS, createIdMap, renumberSubTable"]}
{"id": "C29", "title": "MAD flagger windows are mirrored at the band edges", "statement": "For every channel the frequency window used by MADFlagger holds, for each offset within half a window, the channel at that offset, reflected at the first or last channel when it falls outside the band, and never an index outside the band.", "quantifier": "every number of channels, every odd window not larger than it, every channel", "why_tests_cant": "Edge cases occur for every pair of window and channel count.", "anchors": ["steps/MadFlagger.cc: computeFactors, getExprValues"]}
{"id": "C30", "title": "MAD flagger passes on every time slot once and in order", "statement": "For any number of time slots and any time window, MADFlagger emits each input buffer exactly once in input order, and the median of time slot t uses the slots within half a time window of t, reflected at the first and last slot.", "quantifier": "every number of time slots N and odd window not larger than N", "why_tests_cant": "Ring-buffer wrap-around for every N and window.", "anchors": ["steps/MadFlagger.cc: process, finish, flag"]}
{"id": "C31", "title": "MAD flagger uses the correlations the user listed", "statement": "When a list of correlations is given, MADFlagger bases its decision on exactly the listed correlations that exist in the data (the first one when none does).", "quantifier": "every list of correlation numbers", "why_tests_cant": "All user lists; the code indexes the list by its own values and deviates, even reading outside the list.", "anchors": ["steps/MadFlagger.cc: updateInfo"]}
{"id": "C32", "title": "Solver data hold every cross-correlation visibility exactly once", "statement": "For regular data every (time, cross-correlation baseline, channel) triple is stored in exactly one place of exactly one channel block of SolveData with its data, model data and antenna pair, no auto-correlation is stored, and channel blocks are consecutive ranges covering all channels.", "quantifier": "every number of times, baselines, channels, channel blocks and antenna lists", "why_tests_cant": "Index arithmetic over all shapes.", "anchors": ["ddecal/gain_solvers/SolveData.cc: SolveData(std::vector<DPBuffer>&&, ...)"]}
{"id": "C33", "title": "Solution intervals of every direction are used in order and completely", "statement": "For regular data the solution used for a time step and direction lies within that direction's own range of solutions, does not decrease with time, starts at the first, and every solution of the direction is used by at least one time step; numbers of time steps per solution differ by at most one.", "quantifier": "every number of time steps and requested solutions per direction", "why_tests_cant": "Rounding must be right for every ratio.", "anchors": ["ddecal/gain_solvers/SolveData.cc: SolutionStartIndices, LimitNSolutionsPerDirection"]}
{"id": "C34", "title": "Upsampled solutions are the ones that were used to calibrate", "statement": "SolutionResampler assigns to each substep, antenna, direction and polarisation exactly the solution that SolveData used for the time steps in that substep.", "quantifier": "every solution interval, every list of per-direction counts dividing it, every substep", "why_tests_cant": "Two independently written index formulas must agree everywhere.", "anchors": ["ddecal/SolutionResampler.cc: MapResampledToOriginal, Upsample", "ddecal/gain_solvers/SolveData.cc"]}
{"id": "C35", "title": "The BDA solver buffer hands out every row once, in its own interval", "statement": "Every row appended to a BdaSolverBuffer is returned by GetIntervalRows for exactly the solution interval that contains the row's central time, and for no other, over any sequence of appends and interval advances that never appends rows of past intervals.", "quantifier": "every history of AppendAndWeight and AdvanceInterval calls", "why_tests_cant": "Histories are unbounded.", "anchors": ["ddecal/gain_solvers/BdaSolverBuffer.cc: AppendAndWeight, AdvanceInterval", "ddecal/gain_solvers/BdaSolverBuffer.h: GetIntervalRows, RelativeIndex"]}
{"id": "C36", "title": "The BDA solver buffer returns input buffers in order and exactly once", "statement": "Concatenating the results of all GetDone calls gives a prefix of the appended buffers in order of appending; a buffer is in it only when none of its rows belongs to the current or a later interval.", "quantifier": "every history of calls", "why_tests_cant": "Histories are unbounded.", "anchors": ["ddecal/gain_solvers/BdaSolverBuffer.cc: AdvanceInterval", "ddecal/gain_solvers/BdaSolverBuffer.h: GetDone"]}
{"id": "C37", "title": "A complete solution interval stays complete", "statement": "Once IntervalIsComplete reported true, no later accepted append adds a row to the current solution interval.", "quantifier": "every history of accepted appends", "why_tests_cant": "Depends on ordering of all later rows; the code's ordering check is too weak by one interval.", "anchors": ["ddecal/gain_solvers/BdaSolverBuffer.h: IntervalIsComplete", "ddecal/gain_solvers/BdaSolverBuffer.cc: AppendAndWeight"]}
{"id": "C38", "title": "Antenna constraint gives all antennas of a set the same mean solution", "statement": "After AntennaConstraint::Apply all antennas of a set have, per channel, direction and polarisation, the mean of the finite solutions of the set before; antennas in no set are unchanged; applying it twice equals applying it once.", "quantifier": "every collection of disjoint antenna sets, every solution array, every pattern of non-finite solutions", "why_tests_cant": "All solution arrays and sets.", "anchors": ["ddecal/constraints/AntennaConstraint.h: Apply"]}
{"id": "C39", "title": "Antenna-interval constraint averages consecutive sub-solutions of one antenna and direction", "statement": "After AntennaIntervalConstraint::Apply the sub-solutions of an antenna and direction are constant over consecutive groups of the antenna's averaging factor (the last group possibly shorter), equal to the mean of the finite members of the group, and no group spans two directions.", "quantifier": "every averaging factor, number of sub-solutions per direction and solution values", "why_tests_cant": "Group boundaries for every combination of factors.", "anchors": ["ddecal/constraints/AntennaIntervalConstraint.cc: Apply"]}
{"id": "C40", "title": "Non-finite solutions are replaced by the average amplitude", "statement": "After MakeSolutionsFinite every solution is finite, finite ones are unchanged, and each replaced value is the mean amplitude of the finite solutions of that channel block for the same polarisation (identity when none is finite).", "quantifier": "every solution vector and every pattern of non-finite values, for 1, 2 and 4 polarisations", "why_tests_cant": "All patterns; for 2 and 4 polarisations the code uses the first polarisation for all.", "anchors": ["ddecal/gain_solvers/SolverBase.cc: MakeSolutionsFinite1Pol, MakeSolutionsFinite2Pol, MakeSolutionsFinite4Pol"]}
{"id": "C41", "title": "Source clustering is a partition", "statement": "ProximityClustering::Group puts every source in exactly one group, produces no empty group, and every member is within the maximum distance of the group's first source.", "quantifier": "every list of source positions and every maximum distance", "why_tests_cant": "All inputs.", "anchors": ["common/ProximityClustering.cc: Group, GroupSource"]}
{"id": "C42", "title": "Parset values: range and repeat expansion denote the written list", "statement": "Expanding a vector string of integers with a..b ranges and n*v repeats gives the list that the notation denotes, with surrounding text kept and nothing else changed.", "quantifier": "every list of items", "why_tests_cant": "User-written strings are unbounded.", "anchors": ["common/StringTools.cc: expandArrayString, expandRangeString, expandMultString"]}
{"id": "C43", "title": "Parset keys: the last assignment wins and subsets are exact", "statement": "Adopting one parameter set into another makes every adopted key have the adopted value and leaves all other keys as they were; makeSubset(prefix) has exactly the keys with that prefix, with the prefix replaced, and their values; subtractSubset removes exactly those.", "quantifier": "every parameter set, prefix and key", "why_tests_cant": "All parameter sets.", "anchors": ["common/ParameterSetImpl.cc: adoptCollection, makeSubset, subtractSubset, merge"]}
{"id": "C44", "title": "Unused parset keys are reported exactly", "statement": "After any sequence of lookups, unusedKeys lists exactly the keys of the parameter set that were never asked for.", "quantifier": "every parameter set and sequence of lookups", "why_tests_cant": "All lookup histories.", "anchors": ["common/ParameterSetImpl.cc: findKV, unusedKeys"]}
{"id": "C45", "title": "Parset vectors split only at top-level commas", "statement": "Splitting a parset vector value separates it exactly at the commas that are outside quotes, brackets and parentheses; joining the pieces with commas gives back the value up to surrounding whitespace.", "quantifier": "every string", "why_tests_cant": "All strings including unbalanced ones.", "anchors": ["common/ParameterValue.cc: splitValue", "common/StringTools.cc: skipQuoted, skipBalanced"]}
{"id": "C46", "title": "Grid cell ids and locations are inverse", "statement": "For a grid of nx by ny cells, at most 2^32 of them, getCellId and getCellLocation are inverse bijections between the locations of the grid and the ids below nx*ny.", "quantifier": "every grid size with at most 2^32 cells and every location or id", "why_tests_cant": "All sizes and locations; ids are 32-bit numbers, so that the limit cannot be reached by tests.", "anchors": ["parmdb/Grid.h: getCellId, getCellLocation"]}
{"id": "C47", "title": "Converting domains of a grid reads and writes only valid memory", "statement": "Grid::toDomains produces exactly one box per cell, box (x,y) having the x-th x-interval and the y-th y-interval.", "quantifier": "every pair of axes", "why_tests_cant": "Memory safety for all sizes; the code allocates the y-buffers with the x-size and overruns them when ny > nx.", "anchors": ["parmdb/Grid.cc: toDomains"]}
{"id": "C48", "title": "Locating a value on a regular or ordered axis finds the containing cell", "statement": "Axis::find returns the cell whose interval contains the value (with the bias chosen by the caller at a boundary), and reports not found exactly for values outside the axis.", "quantifier": "every axis and value", "why_tests_cant": "All axes and values.", "anchors": ["parmdb/Axis.cc: find"]}
{"id": "C49", "title": "Flag transfer copies each coarse channel's flags to the fine channels inside it", "statement": "Transfer gives each target channel the value of the first source channel whose upper edge lies above the target channel's frequency, for the selected baselines, and leaves all else unchanged, without reading outside the frequency list.", "quantifier": "every pair of frequency axes and baseline map", "why_tests_cant": "All axes; the code reads one element past the end of the frequency list whenever the last fine channel lies inside the last coarse one.", "anchors": ["steps/Transfer.cc: TransferSingleTimeSlot", "steps/FlagTransfer.cc: process"]}
{"id": "C50", "title": "UVW flagger flags exactly the visibilities in a given range", "statement": "UVWFlagger sets a flag exactly when the baseline's uv distance, u, v or w in metres, or that of the channel in wavelengths, lies strictly inside one of the given ranges; it never clears a flag.", "quantifier": "every set of ranges, uvw and channel frequencies", "why_tests_cant": "All ranges and coordinates.", "anchors": ["steps/UVWFlagger.cc: doFlag, testUVWm, testUVWl, fillUVW"]}
{"id": "C51", "title": "NullStokes zeroes the requested Stokes parameters and keeps the others", "statement": "After NullStokes every requested Stokes parameter of every visibility is zero and every Stokes parameter that was not requested is unchanged.", "quantifier": "every visibility and every combination of settings", "why_tests_cant": "All values and all 16 combinations in sequence.", "anchors": ["steps/NullStokes.cc: MakeStokesIZero, MakeStokesQZero, MakeStokesUZero, MakeStokesVZero, process"]}
{"id": "C52", "title": "Station values: the last matching pattern decides", "statement": "Assigning a value to station patterns changes exactly the stations whose last matching pattern in the list is not a negated one, and parsing a list of such assignments lets later items override earlier ones.", "quantifier": "every station list, pattern list, and value list", "why_tests_cant": "All lists.", "anchors": ["common/ValuePerStationParsing.h: AssignStationValues, ParseValuePerStation"]}
{"id": "C53", "title": "Flag counts add up and do not depend on the division over threads", "statement": "Summing thread-private flag counters gives, per baseline, channel and correlation, the same counts as one counter receiving all increments in any order.", "quantifier": "every multiset of increments and every division over threads", "why_tests_cant": "All schedules.", "anchors": ["base/FlagCounter.cc: add", "base/FlagCounter.h: incrBaseline, incrChannel, incrCorrelation"]}
{"id": "C54", "title": "An update step finds every field it writes", "statement": "When the reader loads the fields that the chain reports, every update step (output to the input measurement set) finds in its buffer all fields that it writes.", "quantifier": "every user step list, every choice of output columns and input weight column", "why_tests_cant": "Depends on the combination of column names, chain contents and the order in which set-up functions run; a test sees only a few combinations. (The code violates it when the input weights come from the WEIGHT column.)", "anchors": ["base/DP3.cc: MakeMainSteps", "steps/MSUpdater.cc: SetFieldsToWrite, getRequiredFields, updateInfo, process"]}
{"id": "C55", "title": "Expanding BDA data distributes each averaged weight over the samples it covers", "statement": "When no two rows of a baseline cover the same time slot, BdaExpander copies the value and flag of an averaged sample to every time slot and channel it covers, and the weights it gives to those samples add up to the weight of the averaged sample.", "quantifier": "every sequence of rows and their division into buffers, every channel grouping", "why_tests_cant": "Depends on time factor, channel grouping and the order in which rows of other baselines arrive.", "anchors": ["steps/BdaExpander.cc: CopyData, updateInfo, process"]}
{"id": "C56", "title": "A channel selection stays inside the band", "statement": "An accepted start channel and number of channels give a non-empty range inside the band; for whole numbers it starts at the given channel and holds the given number of channels or all that remain (also for 0), and only a start outside the band is rejected.", "quantifier": "every start, count and number of channels", "why_tests_cant": "The boundary cases depend on three numbers; tests try a few.", "anchors": ["steps/MsReader.cc: ParseChannelSelection"]}
{"id": "C57", "title": "Selecting a time range gives exactly the grid times in it", "statement": "With starttime and endtime given, the reader emits exactly the times of the MS's time grid between them, both included, including times for which the MS has no slot, with the rows of the MS where it has one; and the number of times announced to other steps is the number emitted.", "quantifier": "every grid, set of present slots, start and end time", "why_tests_cant": "Off-by-one errors depend on the relation between grid, range and missing slots; tests fix one grid.", "anchors": ["steps/MsReader.cc: ParseTimeSelection, SkipFirstTimes, process", "base/DPInfo.cc: setTimes"]}
{"id": "C58", "title": "Joining measurement sets gives an increasing frequency axis", "statement": "When a measurement set is missing and the others are accepted, the joined frequency axis is strictly increasing; and when measurement sets with disjoint frequency ranges are put in order by frequency, the joined axis is strictly increasing and holds all of them.", "quantifier": "every number and order of measurement sets, channel counts and missing ones", "why_tests_cant": "The check compares each band with a frequency accumulated over all earlier bands, present and missing.", "anchors": ["steps/MultiMsReader.cc: FillBands, SortBands, HandleBands"]}
{"id": "C59", "title": "PreFlagger expressions: the spelling of operators does not matter", "statement": "An expression with a blank after every operator, parenthesis and set name is read as these tokens, whether operators are written as words in any case or as single or double symbols; two spellings of the same expression give the same selection.", "quantifier": "every expression and spelling", "why_tests_cant": "Expressions and letter cases are unbounded.", "anchors": ["steps/PreFlagger.cc: PSet::exprToRpn"]}
{"id": "C60", "title": "Time averaging keeps the observation's start and covers it", "statement": "DPInfo::setTimes counts the time slots such that the last slot's centre is within half an interval of the last time; DPInfo::update with a time factor keeps the start of the first slot, multiplies the interval, and gives the smallest number of slots that covers the input slots.", "quantifier": "every first and last time, interval, number of slots and factor", "why_tests_cant": "Rounding and half-interval shifts have to be right for every remainder.", "anchors": ["base/DPInfo.cc: setTimes, update"]}
{"id": "C61", "title": "Channel selections compose and keep the metadata consistent", "statement": "After any sequence of DPInfo::SelectChannels calls channel i is the original channel startchan()+i, with its frequency, width, resolution and effective bandwidth; a selection outside of the axis is refused; and totalBW() is the sum of the effective bandwidths of the remaining channels.", "quantifier": "every axis and every sequence of channel selections, averagings and channel settings", "why_tests_cant": "Tests select once and do not look at the total bandwidth, which is left at its old value.", "anchors": ["base/DPInfo.cc: SelectChannels, update, setChannels", "steps/MSWriter.cc: UpdateSpw"]}
{"id": "C62", "title": "Baseline lengths and autocorrelation indices always match the current baselines", "statement": "Whatever calls were made before, getBaselineLengths() gives for each baseline the distance of its two antennas and getAutoCorrIndex() gives for each antenna the baseline of its autocorrelation or -1.", "quantifier": "every sequence of setAntennas, SelectBaselines, RemoveUnusedAntennas and queries", "why_tests_cant": "The values are cached; a stale cache shows only for particular call orders.", "anchors": ["base/DPInfo.cc: getBaselineLengths, getAutoCorrIndex, setAntennas"]}
{"id": "C63", "title": "MADFlagger decides on the median of its window", "statement": "MADFlagger flags a sample if and only if one of the tested correlations is flagged already or its amplitude exceeds the median of the unflagged amplitudes in its window by more than the threshold times the median of their absolute differences from it; the decision depends on nothing else.", "quantifier": "every window, every set of flags, every history of earlier samples handled by the same thread", "why_tests_cant": "The dependence on leftovers of earlier samples shows only with particular flags and particular histories.", "anchors": ["steps/MadFlagger.cc: computeFactors, flagBaseline"]}
{"id": "C64", "title": "Median returns the median", "statement": "common::Median returns the middle value of an odd number of values and the mean of the two middle values of an even number, for every implementation of std::nth_element the C++ standard allows, and only reorders the vector.", "quantifier": "every vector, every conforming nth_element", "why_tests_cant": "A test sees one library implementation and a few vectors.", "anchors": ["common/Median.h: Median"]}
{"id": "C65", "title": "MADFlagger applies autocorrelation flags", "statement": "With applyautocorr, a sample of a cross-correlation in the given range of baseline lengths is flagged in all correlations as soon as the autocorrelation of one of its antennas is flagged in that channel; nothing else gets flagged.", "quantifier": "every set of flags and antennas, with or without autocorrelations", "why_tests_cant": "Combinations of missing autocorrelations and partially flagged samples.", "anchors": ["steps/MadFlagger.cc: flag"]}
{"id": "C66", "title": "Solver data of BDA rows", "statement": "For BDA data every channel of every cross-correlation row of the current solution interval is stored exactly once in the channel block of the channel, with data, antennas and model data, and for each direction with the solution, within that direction's range of requested solutions, whose part of the interval contains the central time of the row; this holds with and without weights.", "quantifier": "every list of rows with any numbers of channels, blocks, directions and solutions", "why_tests_cant": "Row layouts are unbounded; the weighted case and intervals with few rows are not tested.", "anchors": ["ddecal/gain_solvers/SolveData.cc: SolveData(const BdaSolverBuffer&, ...)"]}
{"id": "C67", "title": "A channel of BDA data uses the same channel block everywhere", "statement": "The channel block whose solutions are applied to an averaged channel when subtracting, and to which its weights are added, is the channel block in which the channel was used for solving.", "quantifier": "every number of channels of the band, of averaged channels and of channel blocks", "why_tests_cant": "Three separately written formulas have to agree for every combination.", "anchors": ["ddecal/gain_solvers/SolveData.cc", "ddecal/gain_solvers/BdaSolverBuffer.cc: ApplySolutions", "steps/BdaDdeCal.cc: DetermineChannelBlocks, GetChanBlockIndex"]}
{"id": "C68", "title": "Weigh multiplies every visibility with its own weight", "statement": "Weigh writes, for every visibility, its real and imaginary part times the weight with the same index, for every number of visibilities and every SIMD width, also when input and output are the same array.", "quantifier": "every number of values, all data and weights, every even batch size", "why_tests_cant": "The batch size depends on the processor the tests run on; sizes and remainders are unbounded.", "anchors": ["ddecal/gain_solvers/SolverTools.cc: Weigh"]}
{"id": "C69", "title": "A sample that cannot be used contributes nothing to a solve, everything else is weighted", "statement": "If one correlation of a sample is flagged, or its data or the model data of one direction is not finite, then the data and the model data of all directions given to the solver are zero for all correlations; else they are the values times the square root of their own weight (or the weight itself in linear mode). BDA and regular data are treated the same. Everything given to a solver is finite.", "quantifier": "every number of correlations and directions, all values, flags and weights", "why_tests_cant": "Combinations of non-finite values over correlations and directions are unbounded.", "anchors": ["ddecal/gain_solvers/SolverTools.cc: AssignAndWeight", "ddecal/gain_solvers/BdaSolverBuffer.cc: AppendAndWeight"]}
{"id": "C70", "title": "Referencing to an antenna keeps the ratios between antennas", "statement": "ApplyReferenceAntenna chooses per polarisation the first antenna with more than 20% finite solutions (the first antenna if there is none), sets its solutions to one and divides all other solutions by those it had; ratios between antennas do not change where the reference solution is finite and non-zero.", "quantifier": "every solution array, every pattern of non-finite solutions", "why_tests_cant": "All arrays and patterns; the loops update in place.", "anchors": ["ddecal/constraints/Constraint.cc: ApplyReferenceAntenna"]}
{"id": "C71", "title": "Smoothing stays within the data", "statement": "KernelSmoother::Smooth keeps a constant series, gives no value outside the range of the input values that have a weight, and ignores channels without weight; SmoothnessConstraint::Apply ignores non-finite solutions and uses the weights and factors of the right antenna and sub-solution.", "quantifier": "every frequency grid, kernel, bandwidth, truncation setting, weights and data", "why_tests_cant": "All grids, kernels and weights.", "anchors": ["ddecal/constraints/KernelSmoother.h: Smooth, Kernel", "ddecal/constraints/SmoothnessConstraint.cc: Apply"]}
{"id": "C72", "title": "Truncation of the smoothing kernel is only an optimisation", "statement": "Smooth gives for each channel the average over all channels weighted with the kernel, also when channels outside the window of the truncated kernel are skipped.", "quantifier": "every sorted frequency grid, bandwidth and kernel size factor", "why_tests_cant": "Needs grids wide enough that channels are skipped; the window of the code is half as wide as the kernel.", "anchors": ["ddecal/constraints/KernelSmoother.h: Smooth"]}
{"id": "C73", "title": "Smoothing kernels are symmetric", "statement": "KernelSmoother::Kernel gives the same value for a distance and its opposite, for every kernel type.", "quantifier": "every kernel type, bandwidth and distance", "why_tests_cant": "All distances; the Epanechnikov kernel is not used by any step, and not tested for negative distances.", "anchors": ["ddecal/constraints/KernelSmoother.h: Kernel"]}
{"id": "C74", "title": "Stall detection uses the mean and variance of all step magnitudes of this solve", "statement": "After each iteration of a solve the values that stall detection uses are the mean of the step magnitudes so far in that solve and the sum of their squared deviations, whatever earlier solves did; with the default stepsigma and at most 100 iterations it never ends a solve.", "quantifier": "every sequence of step magnitudes and every earlier state", "why_tests_cant": "All sequences; the running update is only right by an algebraic identity, and it depends on constraints being satisfied in the first iteration.", "anchors": ["ddecal/gain_solvers/SolverBase.cc: DetectStall", "ddecal/gain_solvers/SolverBase.h: ReachedStoppingCriterion"]}
{"id": "C75", "title": "A solve ends, and unconverged solves are recognisable", "statement": "Every solve ends after at least the minimum and at most the maximum number of iterations, does not go on once converged with constraints satisfied, and reports more iterations than the maximum exactly when it did not converge.", "quantifier": "every sequence of step magnitudes and constraint outcomes and all settings", "why_tests_cant": "All iteration histories; stalled solves and the flagging of unconverged solutions interact.", "anchors": ["ddecal/gain_solvers/SolverBase.cc: MakeResult", "ddecal/gain_solvers/SolverBase.h: ReachedStoppingCriterion", "ddecal/gain_solvers/ScalarSolver.cc: Solve", "steps/DDECal.cc: flag_unconverged"]}
{"id": "C76", "title": "The convergence criterion is scale independent", "statement": "The step magnitude does not change when all solutions are scaled, does not depend on the step size, and is for diagonal and full-Jones solvers given scalar solutions the same as for the scalar solver.", "quantifier": "all solutions, scale factors and step sizes", "why_tests_cant": "All values; the comment in the code claims it for all polarisations.", "anchors": ["ddecal/gain_solvers/SolverBase.cc: AssignSolutions, Step"]}
{"id": "C77", "title": "The flag ratio of a station covers exactly its baselines", "statement": "The flagged fraction FlagCounter reports for a station is the number of flagged points over all baselines the station takes part in, each baseline counted once (also an autocorrelation), divided by the number of points of those baselines; it is at most one when no baseline has more flags than points.", "quantifier": "every baseline table, station, and table of counts", "why_tests_cant": "All baseline tables.", "anchors": ["base/FlagCounter.cc: showStation"]}
{"id": "C78", "title": "Station patterns have the usual glob meaning", "statement": "The regular expression made from a station pattern matches a name exactly when the pattern matches the name with * standing for any text, ? for any single character and every other character, including the dot, for itself.", "quantifier": "every pattern without other regular expression characters, and every name", "why_tests_cant": "All patterns and names.", "anchors": ["common/StringTools.cc: PatternToRegex", "common/ValuePerStationParsing.h"]}
{"id": "C79", "title": "Integers in a parset are read exactly or refused", "statement": "Reading an integer of a given type gives the number that is written (decimal with optional sign, or hexadecimal with 0x), ignoring surrounding whitespace; anything else, and any number outside the range of the type, is refused. A value for a uint32 is the number written.", "quantifier": "every string and integer type", "why_tests_cant": "All strings, including ones at the edge of each range.", "anchors": ["common/StringTools.cc: strToLong, strToInt, strToInt16, strToUlong, strToUint32, strToUint16, strToBool", "common/ParameterValue.h: getUint32", "common/ParameterValue.cc: getIntVector"]}
{"id": "C80", "title": "Quotes are removed from string values and nothing else", "statement": "The string value of a parset value is the text with the enclosing quotes of every quoted part removed, the contents of the quoted parts and everything outside kept; a quote that is not closed is refused.", "quantifier": "every sequence of quoted and unquoted parts", "why_tests_cant": "All strings and nestings of the two kinds of quotes.", "anchors": ["common/ParameterValue.cc: getString"]}
{"id": "C81", "title": "A parset file means what is written", "statement": "Reading a file of lines 'key = value' with comments, blank lines, quoted parts, trailing backslashes and continuation lines never throws and gives every key (with the prefix) the value of its last assignment, joined over its lines, without comments and surrounding whitespace; other keys keep their values. A missing final newline does not matter. Writing a set and reading it again gives the same set.", "quantifier": "every well-formed file, prefix, comparison mode and earlier parameter set", "why_tests_cant": "All texts; the reader is a hand-written character scanner.", "anchors": ["common/ParameterSetImpl.cc: readStream, addMerge, writeStream", "common/StringTools.cc: lskipws, rskipws, skipQuoted"]}
{"id": "C82", "title": "A part of an axis has exactly the requested cells", "statement": "Axis::subset between two values gives an axis with exactly the cells that overlap with the interval, in order, and the index of the first of them; without such cells the default axis. Axis::compress gives a cell for each group of cells, from the start of the first to the end of the last cell of the group.", "quantifier": "every regular or ordered axis, interval and factor", "why_tests_cant": "All axes, with edges before, on and behind cell boundaries.", "anchors": ["parmdb/Axis.cc: subset, doSubset, compress"]}
{"id": "C83", "title": "Combining axes keeps the cells of both", "statement": "If Axis::combine succeeds for two axes without holes, the result has no holes, the cells of both axes are at the indices given, and the only other cell is that of the hole between both. It succeeds whenever both axes are parts of a common axis, and fails with an exception otherwise. checkIntervals tells whether the cells of both axes in the range of the other agree.", "quantifier": "every pair of axes", "why_tests_cant": "All pairs of axes and ways in which they overlap.", "anchors": ["parmdb/Axis.cc: combine, add, makeAxis, checkIntervals"]}
{"id": "C84", "title": "The grid of a list of domains has these domains as cells", "statement": "A grid made of domains has exactly the given domains as its cells, in order; the domains of a grid, in any order when sorting is asked for, give its axes back. locate finds the cell that contains a point and raises an exception if there is none. CellIterator visits each cell of a rectangle once, row by row.", "quantifier": "every list of domains, grid, point and rectangle", "why_tests_cant": "All lists of domains, including those that do not form a grid.", "anchors": ["parmdb/Grid.cc: GridRep::setup, GridRep::GridRep", "parmdb/Grid.h: locate, CellIterator", "parmdb/Box.h: operator<"]}
{"id": "C85", "title": "Operations on boxes agree with the points of the boxes", "statement": "The points strictly inside Box::intersect are those inside both boxes; intersects tells whether there are such points; contains tells whether all points of a box are in another; unite is the smallest box with the points of both.", "quantifier": "every pair of boxes and every point", "why_tests_cant": "All boxes and points.", "anchors": ["parmdb/Box.cc: unite, intersect", "parmdb/Box.h: intersects, contains, empty"]}
{"id": "C86", "title": "Transfer uses the source time slot that contains the target time slot", "statement": "When the source interval is a whole number of target intervals and both start at the same time, the k-th processed buffer receives the data of the source time slot that contains it; behind the end of the source the last one is kept; the receiving rows are those of the selected baselines, or there is an exception.", "quantifier": "every number of time slots, factor, interval, start time and baseline selection", "why_tests_cant": "All lengths of the observation and factors; a test has one.", "anchors": ["steps/Transfer.cc: process, updateInfo", "steps/FlagTransfer.cc: process"]}
{"id": "C87", "title": "The hybrid solver keeps to the maximum number of iterations", "statement": "A call of the hybrid solver, that runs a direction solver with at most a sixth of the iterations and then an iterative solver, performs in total at most the configured maximum number of iterations; a number of iterations above the maximum is reported exactly when the last stage did not converge; and the limits set on the stages during a call do not influence later calls.", "quantifier": "All maxima, all courses of convergence and stalling of the stages, all sequences of stages.", "why_tests_cant": "The count depends on when each stage converges or stalls; a test runs a few problems with one maximum.", "anchors": ["ddecal/gain_solvers/HybridSolver.cc: AddSolver, Solve, RunSolver", "ddecal/gain_solvers/SolverBase.h: ReachedStoppingCriterion", "ddecal/gain_solvers/SolverBase.cc: MakeResult", "ddecal/SolverFactory.cc: CreateSolver"]}
{"id": "C88", "title": "An iteration of the iterative solvers is independent of threads and keeps exact solutions", "statement": "One iteration of the scalar, diagonal and full Jones iterative solvers gives the same next solutions however the visibilities are divided over threads; the next solution of an antenna, direction and interval does not depend on its own present value; and solutions with which the predicted visibilities equal the data stay what they are, wherever the next solution is not NaN.", "quantifier": "All data, model data, solutions, numbers of antennas and directions, numbers of solutions per direction and divisions over threads.", "why_tests_cant": "A test compares found solutions with a tolerance for one simulated observation; independence of the division and of the present value is not visible there.", "anchors": ["ddecal/gain_solvers/IterativeScalarSolver.cc: PerformIteration, SolveDirection, AddOrSubtractDirection", "ddecal/gain_solvers/IterativeDiagonalSolver.cc: PerformIteration, SolveDirection", "ddecal/gain_solvers/IterativeFullJonesSolver.cc: PerformIteration, SolveDirection, AddOrSubtractDirection", "ddecal/gain_solvers/SolveData.h: DiagonalAddOrSubtractDirection"]}
{"id": "C89", "title": "An iteration of the iterative solvers gives least squares solutions", "statement": "For each antenna, direction and solution interval, the next solution of the scalar, diagonal and full Jones iterative solvers minimizes the sum of the squared differences between the data and the visibilities predicted by the sum over the directions of J1 M J2^H, when all other solutions have their present values. It is the only minimum where it is not NaN, and a scalar solution is NaN exactly when the sum does not depend on it.", "quantifier": "All data, model data, solutions, numbers of antennas and directions, numbers of solutions per direction and divisions over threads.", "why_tests_cant": "Optimality is a statement about all alternative solutions; tests check a few converged results within a tolerance.", "anchors": ["ddecal/gain_solvers/IterativeScalarSolver.cc: PerformIteration, SolveDirection, AddOrSubtractDirection", "ddecal/gain_solvers/IterativeDiagonalSolver.cc: AddNormToDenominator, PerformIteration, SolveDirection", "ddecal/gain_solvers/IterativeFullJonesSolver.cc: PerformIteration, SolveDirection, AddOrSubtractDirection"]}
{"id": "C90", "title": "Applying gains is A V B\u1d34 with the weights of its variances", "statement": "ApplyCal's static functions ApplyFull, ApplyDiag and ApplyScalar (and base::apply) replace a visibility matrix by A V B\u1d34 for finite gains, a diagonal or scalar gain acting as the full matrix it stands for; applying gains and then their inverses restores data and flags; with updateweights the weights become the inverses of the variances of the elements of A V B\u1d34; without it they stay.", "quantifier": "All gain matrices, data, flags and weights (positive for the weights formula).", "why_tests_cant": "The variance formula and the equivalence of the three kernels are identities over all complex matrices; tests check a few values with tolerance.", "anchors": ["steps/ApplyCal.cc:112-263", "base/Apply.cc:13-72", "steps/OneApplyCal.cc:527-560"]}
{"id": "C91", "title": "ApplyCal uses for each buffer the gains of its own time", "statement": "For a regular input stream, whatever timeslotsperparmupdate, each buffer processed by OneApplyCal is corrected with the gains computed for exactly its own time; the index in the gains never runs past them, also for the last, shorter group.", "quantifier": "All intervals, start times, numbers of time slots, group sizes and stream lengths.", "why_tests_cant": "Depends on the interplay of buffer times, last time of the input and group size over a whole stream; tests run one length and group size.", "anchors": ["steps/OneApplyCal.cc:66-68", "steps/OneApplyCal.cc:412-417", "steps/OneApplyCal.cc:562-588"]}
{"id": "C92", "title": "ApplyCal corrects each sample once with its own antennas' gains and flags where gains are not finite", "statement": "CorrectionLoop changes each baseline and channel exactly once, with the gains of its two antennas at that channel and time step, in any order of the threads; where a gain is not finite the data and weights stay, all correlations are flagged, and the counters of baseline and channel increase by the number of samples that were not flagged before; model data of a direction get the gains of that direction.", "quantifier": "All buffers, gain tables, baseline lists and thread orders.", "why_tests_cant": "Requires all interleavings of threads and all patterns of non-finite gains.", "anchors": ["steps/OneApplyCal.cc:510-560", "steps/ApplyCal.cc:119-129"]}
{"id": "C93", "title": "Superstations consist of the stations that their patterns say", "statement": "A station is part of a superstation of StationAdder iff some pattern matches it and the last that does is not a removing one (! or ^). updateInfo accepts a record iff the names are new and different and no station is in two superstations; superstations without stations are left out; the diameter is the smallest that covers all stations.", "quantifier": "All antenna names, records, patterns and matchers.", "why_tests_cant": "Order of patterns and overlap between superstations give unboundedly many records.", "anchors": ["steps/StationAdder.cc:60-160"]}
{"id": "C94", "title": "The new baselines of superstations use every baseline once and in the right order", "statement": "StationAdder keeps the old baselines and adds baselines of an antenna with a superstation, none twice; its rows are all different earlier baselines between the antenna and a station of the superstation, conjugated iff the station is the first antenna; every baseline with a station of a superstation is used; between two superstations every pair of stations contributes, oriented as the superstations; autocorrelations follow autocorr and sumauto.", "quantifier": "All lists of baselines and superstations.", "why_tests_cant": "Induction over superstations, whose new baselines are input for later ones.", "anchors": ["steps/StationAdder.cc:161-238"]}
{"id": "C95", "title": "The data of a superstation are the weighted mean of the unflagged data of its stations", "statement": "In the new baselines of StationAdder each point is the (weighted) mean or sum of the unflagged points, in the orientation of the new baseline, with the sum of their weights; it is flagged iff fewer than minpoints are unflagged or their weight is zero; the coordinates are the weighted mean with the sign of the orientation; old baselines are unchanged; a baseline between superstations is the mean over all pairs of stations.", "quantifier": "All data, flags, weights and settings.", "why_tests_cant": "Sums over arbitrary sets of baselines in two steps; tests check one small array with equal values.", "anchors": ["steps/StationAdder.cc:274-451"]}
{"id": "C96", "title": "The outlier search of the antenna flagger is sound, stable and fair", "statement": "FindOutliers flags every value that is not finite and keeps the number of values. With at least as many iterations as values, no unflagged value lies outside median \u00b1 sigma * stddev of the data in which all flagged values are replaced by the median. A finite value is only flagged if it was outside these limits for the values flagged before. Equal values get equal flags, whatever the order of the values. A value equal to the median is never flagged.", "quantifier": "all lists of values, sigmas, numbers of iterations and median / standard deviation functions", "why_tests_cant": "The iteration changes its own input; tests use a few arrays with clear outliers, and cannot show that the loop reaches a fixed point or does not depend on the order of the antennas.", "anchors": ["antennaflagger/Flagger.cc:20-58"]}
{"id": "C97", "title": "The antenna flagger flags exactly the baselines with a bad antenna", "statement": "updateInfo accepts exactly the complete list of baselines in column-major or row-major order. An antenna is bad iff both its statistics are outliers in its station, or both statistics of its station are outliers for XX and YY. The statistics of an antenna come from all baselines with that antenna, each once. process sets all flags of the baselines with a bad antenna and no other flags. If the overall median of the imaginary parts is zero, all antennas are flagged.", "quantifier": "all numbers of stations, antennas per station and correlations, both baseline orders, all statistics and flags", "why_tests_cant": "The relation between antenna pairs and baseline numbers is computed with square roots or sums; tests look at one number of antennas.", "anchors": ["antennaflagger/Flagger.cc:84-253", "steps/AntennaFlagger.cc:19-134", "common/baseline_indices.h"]}
{"id": "C98", "title": "The clipper flags what is predicted to be too bright, at the right baseline, channel and time", "statement": "For buffers whose row numbers increase: buffer number k keeps its flags and gets in addition those of the prediction for buffer (k / timestep) * timestep. A point is flagged by a prediction iff its baseline is one of the filtered ones and the predicted amplitude of channel (channel / freqstep) * freqstep exceeds amplmax, in the same or (flagallcorrelations) any correlation. If the row numbers do not increase, the search stays in range but can hit another baseline; a prediction for a time slot without row numbers (inserted by the reader) fails.", "quantifier": "all sequences of buffers, selections of baselines, time steps, frequency steps, numbers of channels (also no multiple of the step) and amplitudes", "why_tests_cant": "The flags are kept in a member between the predictions and are copied by two nested index translations; tests use one selection and one frequency step.", "anchors": ["steps/Clipper.cc:104-182", "steps/Filter.cc:165-200", "steps/MsReader.cc:236-253"]}
{"id": "C99", "title": "Named data buffers behave as a map, also when data move between buffers, and Combine uses them right", "statement": "Every sequence of GetData writes, AddData, RemoveData, TakeData, CopyData, MoveData, Copy, move assignment and Combine on any number of DPBuffers acts as the same operations on a map from (buffer, name) to data, with the main data under the empty name, and fails in the same cases. GetDataNames gives the existing names in order, each once. Combine adds or subtracts the named data, removes the name and changes nothing else; adding and subtracting the same data restores the data. An empty buffer name in Combine zeroes the data and removes all extra data; MoveData to the same name of the same buffer removes the data.", "quantifier": "all sequences of operations, numbers of buffers, names and data", "why_tests_cant": "Aliasing between source and target, moved-from data and the special empty name multiply; tests move between two distinct buffers.", "anchors": ["base/DPBuffer.h:149-205", "base/DPBuffer.cc:76-156", "steps/Combine.cc:56-77"]}
{"id": "C100", "title": "Solutions stored in a DPBuffer come back for the right direction", "statement": "After SetSolution, GetSolution of a direction gives for each channel, antenna and polarization the value at [antenna][direction][polarization] of the stored array (of the last direction with that name). Directions that were not stored keep their previous solutions or give an exception.", "quantifier": "all numbers of channels, antennas, directions and polarizations, all direction names", "why_tests_cant": "The order of the axes changes between storing and reading; symmetric test data hide a swap.", "anchors": ["base/DPBuffer.cc:158-206"]}
{"id": "C101", "title": "AOFlagger flags every time slot by all windows it is in, and counts new flags once", "statement": "The AOFlagger step gives every time slot to the next step once and in order, with unchanged data. With window size n and overlap m the strategy is run on windows [jn, jn+n+2m) and a last one with what remains; every slot is in a window, and a point gets all four flags iff its baseline is used, its first correlation was not flagged and the strategy flags it in a window it is in; other flags stay. The flag counts are the numbers of newly flagged points, also where windows overlap. The quality statistics, however, take the overlaps again for every window.", "quantifier": "all numbers of time slots, window sizes, overlaps, strategies, flags and data", "why_tests_cant": "The outcome depends on how the number of slots relates to window and overlap; a test with one window sees neither the overlaps nor the last window.", "anchors": ["steps/AOFlaggerStep.cc:227-256", "steps/AOFlaggerStep.cc:269-353", "steps/AOFlaggerStep.cc:355-431"]}
{"id": "C102", "title": "The rotation constraints project the solutions, and their results describe these", "statement": "RotationConstraint makes every solution a rotation; RotationAndDiagonalConstraint makes every solution that is not NaN a diagonal, of the kind that the mode asks for, times a rotation with an angle in [-pi/2, pi/2), and leaves NaN solutions. Solutions of this form whose diagonal does not cancel (a + b != 0) do not change, so that applying a constraint again changes nothing, also with a rotation reference. With a reference the first valid antenna has angle 0. The stored angle, amplitudes and phases give exactly the constrained solution of that antenna, sub-solution and channel block. If a + b = 0 the rotation is lost.", "quantifier": "all solutions, numbers of antennas, sub-solutions and channel blocks, modes", "why_tests_cant": "Angles are only known modulo pi and the sign of the diagonal changes with them; tests use a few angles.", "anchors": ["ddecal/constraints/RotationConstraint.h:29-45", "ddecal/constraints/RotationConstraint.cc:34-54", "ddecal/constraints/RotationAndDiagonalConstraint.cc:64-107", "ddecal/constraints/RotationAndDiagonalConstraint.cc:218-232", "ddecal/constraints/RotationAndDiagonalConstraint.cc:244-354"]}
{"id": "C103", "title": "The weights of rotation solutions belong to their antenna and are negative exactly for diverged solutions", "statement": "SetWeights gives every result the weight of its antenna and channel block. Amplitudes that are more than a factor five from the mean amplitude of the valid antennas are limited, and then, and for NaN solutions, the weights of the channel block (or the antenna) are negative in the result of the last iteration.", "quantifier": "all solutions, weights, numbers of antennas, sub-solutions and channel blocks", "why_tests_cant": "The layouts of the axes agree for a single sub-solution, which is what tests use.", "anchors": ["ddecal/constraints/RotationAndDiagonalConstraint.cc:22-39", "ddecal/constraints/RotationAndDiagonalConstraint.cc:178-211", "ddecal/constraints/RotationAndDiagonalConstraint.cc:234-354", "ddecal/constraints/RotationConstraint.cc:26-32"]}
{"id": "C104", "title": "The Faraday constraint finds the rotation measure and keeps solutions that have one", "statement": "FaradayConstraint finds the rotation measure of solutions that are gains times Faraday rotations, whatever the gains are, within the documented range [-faradaylimit, faradaylimit]. It makes every solution a diagonal of the kind of the mode and the Faraday rotation of the found rotation measure, and does not change solutions that are of this form. The weights of all results are those of their antenna, sub-solution and channel block.", "quantifier": "all solutions, frequencies, weights, limits, modes", "why_tests_cant": "Angles are doubled for the fit, so that the unit of the limit is easily lost; tests use diagonals with equal values, or no limit.", "anchors": ["ddecal/constraints/FaradayConstraint.cc:17-185", "docs/schemas/DDECal.yml:282-294"]}
{"id": "C105", "title": "Fitting a line through wrapped phases finds the slope", "statement": "FitSlope finds a line through all phases with weight, if there is one in the searched range, and exactly the slope of the line if no other slope has the same phases; the slope that it returns is in the range but for two wraps of the smallest x value. Each single fit is the least squares solution for the phases unwrapped to within pi of the given line. The range covers every slope with less than half a wrap between the closest neighbours.", "quantifier": "all samples, weights, ranges", "why_tests_cant": "Tests use one regular grid of positive x values.", "anchors": ["common/PhaseLineFitter.h:33-187"]}
{"id": "C106", "title": "The TEC fitter finds the TEC of phases that follow the model", "statement": "PhaseFitter finds alpha (and beta) of phases that are alpha/nu (+ beta) wrapped: exactly on its grid, and within the accuracy of the search around the best grid point. The fitted cost is between 0 and pi, zero exactly for a perfect fit; channels without weight and the order of the channels have no influence; alpha stays in the documented range; the value of beta on input is not used; the mean residual is the offset.", "quantifier": "all frequencies, phases, weights", "why_tests_cant": "The fit is a search with wraps over 256 points; tests use one TEC value and uniform weights.", "anchors": ["base/PhaseFitter.cc:11-200", "base/PhaseFitter.h:60-140"]}
{"id": "C107", "title": "The TEC constraint gives solutions that are described by the TEC and phase that it reports", "statement": "After TecConstraint::Apply every solution has modulus one and phase -8.44797245e9 tec/nu + phase for the reported values. The reported error is zero exactly if all finite solutions with weight have that phase; the reported weight is the sum of the weights of the finite channel blocks; channel blocks that are not finite have no influence; the reference antenna has TEC and phase zero. An antenna without finite solution is reported as such.", "quantifier": "all solutions, frequencies, weights, modes", "why_tests_cant": "The indices of antenna and sub-solution are combined; tests have one direction and no missing solutions.", "anchors": ["ddecal/constraints/TecConstraint.cc:74-134"]}
{"id": "C108", "title": "The TEC and phase that GainCal writes describe its solutions", "statement": "In the modes tec and tecandphase of GainCal the values written in a ParmDB and in an H5Parm describe the solutions that are applied, and flagged frequency cells have no influence.", "quantifier": "all stations, frequency cells, solutions", "why_tests_cant": "No unit test reads the values back; the two formats are written by different code.", "anchors": ["steps/GainCal.cc:693-739", "steps/GainCal.cc:1013-1041", "steps/GainCal.cc:1266-1274"]}
{"id": "C109", "title": "Each gain step of GainCal is the best for the gains of the other stations", "statement": "In the scalar and diagonal modes a step gives each gain of an unflagged station the one value with the smallest squared residual given the other gains; in phase mode the one of modulus one, in amplitude mode the modulus of the best. A station is flagged exactly if one of its gains has no data. Gains that explain the visibilities stay; a common phase stays. The result does not depend on the order in which threads handle the gains.", "quantifier": "all stations, channels, times, visibilities, models, gains, schedules", "why_tests_cant": "Tests calibrate one data set with one result; the least squares property and the schedule are not visible in it.", "anchors": ["base/GainCalAlgorithm.cc:345-396"]}
{"id": "C110", "title": "Each full Jones step of GainCal is the best for the matrices of the other stations", "statement": "A step gives each unflagged station the one Jones matrix with the smallest squared residual given the others, if its normal equations are regular, and flags the station if they are singular. Matrices that explain the visibilities stay.", "quantifier": "all stations, channels, times, visibilities, models, Jones matrices", "why_tests_cant": "Products of complex matrices written out by element; tests compare one data set.", "anchors": ["base/GainCalAlgorithm.cc:210-343"]}
{"id": "C111", "title": "The status of the iterations of GainCal says what the solutions are", "statement": "CONVERGED means that the last step changed the gains by at most the tolerance, or that all stations are flagged; true gains are CONVERGED at once; a converged cell stays as it is; cells do not influence each other but for the number of iterations; phase solutions have modulus one and amplitude solutions are not negative.", "quantifier": "all data, settings, numbers of iterations and cells", "why_tests_cant": "The iterations have extrapolation, stalling detection and a mean of two steps; tests see only end results.", "anchors": ["base/GainCalAlgorithm.cc:183-208", "base/GainCalAlgorithm.cc:415-547", "steps/GainCal.cc:640-760"]}
{"id": "C112", "title": "GainCal starts a solution interval with the solutions of the previous one, or with the right amplitude", "statement": "With propagation the gains of unflagged stations are kept, and flagged stations start with the mean modulus of the others; if all were flagged the start is as without propagation. Without propagation the start is the exact solution if the visibilities are a multiple of the model.", "quantifier": "all gains, flags, visibilities, models", "why_tests_cant": "Tests check one interval with one set of flags.", "anchors": ["base/GainCalAlgorithm.cc:88-181", "base/GainCalAlgorithm.cc:400-413"]}
{"id": "C113", "title": "GainCal solves for the weighted data of the unflagged crosscorrelations", "statement": "The arrays of the solver contain each correlation of each used baseline, time and channel at its place, and its conjugate at the place of the stations in the other order, with the root of its weight; all else is zero. Jones values for which the data are exactly the corrupted model are a solution, whatever the weights, and the solution that is applied is their Jones matrix.", "quantifier": "all baselines, flags, weights, data with 1, 2 or 4 correlations", "why_tests_cant": "Index arithmetic over six axes in two layouts; tests have equal weights.", "anchors": ["steps/GainCal.cc:549-611", "steps/GainCal.cc:791-816"]}
{"id": "C114", "title": "PhaseShift turns the phase centre and nothing else", "statement": "The step multiplies each visibility by the phase of the difference in delay between the old and the new phase centre over the baseline, gives the baseline the coordinates of the same vector for the new centre, and leaves amplitudes, weights and flags alone. A chain of shifts is the last shift; shifting to the original centre gives the original data. The phasors that the step hands out undo it.", "quantifier": "all phase centres, coordinates, frequencies, visibilities, chains of shifts", "why_tests_cant": "Tests compare with one shift and a tolerance; rotations compose, and signs and orders of the axes matter for all directions.", "anchors": ["steps/PhaseShift.cc:54-147", "steps/PhaseShift.cc:196-212", "base/Simulate.cc:229-252"]}
{"id": "C115", "title": "A predicted sky is the sum of its sources, and does not depend on the phase centre or on the threads", "statement": "The model is the sum over the sources of the coherency and the phase of the delay relative to the phase centre; it does not depend on the order of the sources or on their division over threads; models of two skies add; the other direction of a baseline has the conjugate transpose; autocorrelations are zero. Predicting and shifting the phase centre commute.", "quantifier": "all sources, baselines, frequencies, phase centres, divisions over threads", "why_tests_cant": "Tests predict one sky with tolerance for one phase centre; the equivalence is over all directions.", "anchors": ["base/Simulator.cc:105-281", "base/Simulator.cc:283-467", "base/Simulator.h:35-60", "steps/OnePredict.cc:592-662"]}
{"id": "C116", "title": "Smearing of the model is the mean over channel and integration, and Stokes I is predicted as all correlations are", "statement": "With correction for smearing, the value is the mean of the phase factor over the channel width and over the integration with the delay changing at the speed given by the rotation of the earth. For sources without polarization the fast prediction of Stokes I gives the same data as the prediction of all correlations.", "quantifier": "all sources, baselines, frequencies, widths, integration times", "why_tests_cant": "Tests compare with a measured value with smearing for one case; the branch for time smearing alone is not compared.", "anchors": ["base/Simulator.cc:157-281", "base/Simulator.cc:472-508", "steps/OnePredict.cc:312-327", "steps/OnePredict.cc:437-457", "sky_model/SkyModelFunctions.cc:265-284"]}
{"id": "C117", "title": "A Gaussian source is the Fourier transform of an ellipse on the sky", "statement": "The amplitude is the normalised transform of a Gaussian with the axes as full widths at half maximum and the position angle from north to east at the source. It is at most one, is one without extent, does not change by half a turn, and for a round source not by the angle.", "quantifier": "all axes, angles, directions, baselines, frequencies", "why_tests_cant": "Tests compare a few numbers; the orientation is lost for the symmetric cases.", "anchors": ["base/Simulator.cc:283-467", "base/GaussianSource.h:52-58"]}
{"id": "C118", "title": "Spectra and rotation measures give the catalogue values at the reference", "statement": "Stokes I is the power law or the polynomial of the spectral terms and equals the catalogue at the reference frequency. With a rotation measure the polarized fraction is constant and the angle linear in the square of the wavelength. Q and U given for a reference wavelength are the Q and U of the model at that wavelength.", "quantifier": "all spectral terms, frequencies, rotation measures, Q, U", "why_tests_cant": "Tests have one source with known numbers; reading and prediction are tested apart.", "anchors": ["base/PointSource.cc:51-99", "sky_model/ReadSkyModel.cc:636-670", "sky_model/SkyModelFunctions.cc:29-87"]}
{"id": "C119", "title": "A patch is in the direction of the flux weighted mean of its sources", "statement": "The direction of a patch is that of the sum of the unit vectors of its sources weighted with their flux.", "quantifier": "all directions, fluxes", "why_tests_cant": "Tests have patches of one or two near sources; the error is second order in their distance.", "anchors": ["sky_model/PatchInfo.cc:20-28", "sky_model/PatchInfo.h:84-87", "sky_model/ReadSkyModel.cc:932-937"]}
{"id": "C120", "title": "Coordinates of stations reproduce those of the baselines", "statement": "Splitting the coordinates of baselines into those of stations always ends. If the coordinates belong to positions, every baseline gets its own coordinates back, also if the array falls apart in groups without common baselines. Baselines that are used are reproduced whatever the coordinates are; none is used twice or needlessly. Rotating before or after splitting is the same.", "quantifier": "all arrays and lists of baselines, in any order and direction; all coordinates", "why_tests_cant": "Tests split a few small arrays; the order and direction of baselines and the number of groups are arbitrary.", "anchors": ["base/Simulate.cc:26-84", "base/Simulate.cc:205-231"]}
{"id": "C121", "title": "With averaging by baseline the coordinates of stations come from the longest baselines", "statement": "The ends of every baseline are linked by selected baselines that are at least as long. Each selected baseline is reproduced exactly, even if coordinates are of different times; the others have no influence. If the coordinates belong to positions every baseline is reproduced.", "quantifier": "all arrays, positions, lists of baselines, orders of equal lengths", "why_tests_cant": "Tests have one array of a few antennas without autocorrelations; a spanning tree of the longest baselines is a global property.", "anchors": ["base/Simulate.cc:86-203"]}
{"id": "C122", "title": "A line of a sky model means what its format says", "statement": "A format has exactly the columns that were written, with their defaults, fixed values and separators. A line has the values that were written: separators between quotes or brackets do not split, blanks around values do not count, empty or missing values get their default, fixed values take no text. A field has the value of its column, wherever that column is.", "quantifier": "all formats, lines, orders of columns, blanks, nesting of quotes and brackets", "why_tests_cant": "Tests read a few files with one style of format; quoting, nesting, blanks, defaults and order combine without bound.", "anchors": ["sky_model/ReadSkyModel.cc:161-352", "sky_model/ReadSkyModel.cc:368-442", "sky_model/ReadSkyModel.cc:679-700"]}
{"id": "C123", "title": "A position in separate columns has the sign that was written", "statement": "Hours or degrees, minutes and seconds in separate columns give the position that is meant: the sign before the hours or degrees is that of the whole.", "quantifier": "all values of the three columns, each of which may be empty", "why_tests_cant": "The case that goes wrong is a single value of the degrees, zero with a minus sign.", "anchors": ["sky_model/ReadSkyModel.cc:456-520"]}
{"id": "C124", "title": "A sky model keeps every source, once, in the patch it was given", "statement": "A sky model has exactly the sources of its lines. A patch has the flux and the mean position of its sources, or those of its line if it has none. Making patches gives each source to exactly one patch, in order. A selection has the patches that match, once. Splitting patches into one per component, or clustering them by proximity, keeps every component and gives distinct names.", "quantifier": "all sky models, orders of lines, names, selections, groups", "why_tests_cant": "Tests read a few well-formed files; definitions that are repeated, sources between other patches and names that collide are not in them.", "anchors": ["sky_model/ReadSkyModel.cc:817-845", "sky_model/ReadSkyModel.cc:918-938", "sky_model/SkyModel.cc:18-120", "sky_model/SkyModelFunctions.cc:89-298"]}
{"id": "C125", "title": "Demixing gives the same result for every chunk size and order of threads", "statement": "The output of the demixer has one time per timestep input times, each with the sources subtracted for the solution of its own demixtimestep group, and the solutions are stored in the order of their groups. The result does not depend on ntimechunk or on the order in which threads take the groups, and no buffer is accessed out of bounds.", "quantifier": "all numbers of times, averaging factors, chunk sizes, thread schedules, solvers", "why_tests_cant": "Tests demix a few times with one chunk size and few threads; the last partial groups and chunks, and the schedules of threads, are unbounded.", "anchors": ["steps/Demixer.cc:180-188", "steps/Demixer.cc:366-443", "steps/Demixer.cc:518-669", "steps/Demixer.cc:915-1156", "steps/MultiResultStep.cc:17-33"]}
{"id": "C126", "title": "Demixing subtracts the sources exactly, whatever the averaging", "statement": "The mixing factor from one direction to another is the weighted mean of the phase shift between them over the unflagged visibilities of a cell, so that averages of a sum of sources are the sum of the sources with their factors. Subtracting sources with their right visibilities leaves the other sources, and the target as if it had been alone. Deprojection removes the directions without a model from the equations. Baselines that are not selected keep the averaged data.", "quantifier": "all numbers of directions, averaging factors, flags, weights, phases, sources", "why_tests_cant": "Tests demix simulated data of a few sources with a tolerance; the identities hold for every averaging, flagging and number of directions.", "anchors": ["steps/Demixer.cc:671-886", "steps/Demixer.cc:1042-1144", "base/SubtractMixed.cc:14-72", "steps/Averager.cc:245-313"]}
{"id": "C127", "title": "The equations of the demixer are the gradient of its least squares problem", "statement": "The equations that estimate() gives to the solver in each iteration describe the weighted sum, over the unflagged cross-correlations and all target directions, of the squared difference between data and the mixed sources with the gains applied: the known side is minus half its gradient, the normal matrix half its second derivative up to terms of the residual. A step that solves them goes downhill, gains that explain the data are a stationary point, flagged data and autocorrelations have no influence, every iteration sees the same data. Afterwards exactly the terms of the subtracted sources in the same prediction are taken from the cross-correlations.", "quantifier": "all numbers of directions, stations, baselines, channels; all strides of the cursors; all data, flags, weights, mixing factors and gains", "why_tests_cant": "Tests run a demix and compare with stored results; a wrong sign of one of 16 derivatives or a cursor that is not reset only slows down convergence or hides in noise.", "anchors": ["base/EstimateMixed.cc:23-286", "base/Apply.cc:13-72", "base/SubtractMixed.cc:14-74", "base/Cursor.h:19-94", "steps/Demixer.cc:1046-1143"]}
{"id": "C128", "title": "The robust demixing cost and its gradient belong together", "statement": "With uselbfgssolver the demixer minimizes the sum over the unflagged cross-correlations and target directions of log(1 + w r^2 / nu) for the real and the imaginary part of the residual. The gradient function is its derivative in every direction; the cost is zero exactly where the gains explain the data; it is at most the least squares cost over nu; a component of the gradient is bounded whatever the observed values; flagged data and autocorrelations have no influence.", "quantifier": "all numbers of directions, stations, baselines, channels; all data, flags, weights >= 0, mixing factors, gains and nu > 0", "why_tests_cant": "A gradient that does not belong to the cost makes the line search of L-BFGS stall without an error; tests only run one small case with the optional library.", "anchors": ["base/EstimateMixedLBFGS.cc:61-452"]}
{"id": "C129", "title": "BDA data that is written to a measurement set can be read back", "statement": "MSBDAWriter followed by MSBDAReader gives the rows that were written: the reader finds the antennas, averaging factors, time interval and channels of every baseline, and delivers the rows in order with their times, exposure, UVW, baseline, visibilities, weights, flags and row numbers; every row refers to the spectral window of its baseline; the row flag is set exactly when all flags are.", "quantifier": "all numbers of baselines, channels, correlations, rows and buffers; all averaging factors; all values", "why_tests_cant": "The tables use ids that only have to agree with each other (windows per channel count, a map from antenna pairs to baselines, a pool of limited size, buffers of nbaselines rows); tests use one layout with one buffer.", "anchors": ["steps/MSBDAWriter.cc:73-155", "steps/MSBDAWriter.cc:317-460", "steps/MSBDAReader.cc:109-322", "base/DPInfo.cc:138-203"]}
{"id": "C130", "title": "Copying a BDA measurement set keeps its rows", "statement": "A run that only reads a BDA measurement set and writes it copies all rows, to the same place: rows in time order are all copied; rows that the reader skips since they end before their predecessor are left out with a warning and the remaining rows are written; every row belongs to the baseline of its antennas.", "quantifier": "all measurement sets, in any order of rows", "why_tests_cant": "The reader hands out row numbers of the input and the writer uses these in the output; this only matters when a row is skipped, which no test does.", "anchors": ["steps/MSBDAReader.cc:137-172", "steps/MSBDAWriter.cc:88-155"]}
{"id": "C131", "title": "DDECal forwards every buffer once, in order and with the right data", "statement": "A run of DDECal gives the next step every input buffer once and in order, with its own time, weights and flags, also when buffers were flagged for solving or padded; the visibilities are the input, the sum of the models, or the input minus the models with the solutions of the interval of this buffer applied, and model data are removed or kept as configured; the run succeeds exactly when the reused model data are present and there are not more intervals than announced.", "quantifier": "all numbers of buffers, interval lengths, intervals per set, directions, modes, solvers and data", "why_tests_cant": "Buffers are collected in two levels of lists, padded, flagged, emptied of their models and given back when a set is complete or at the end; tests use a few lengths with whole intervals.", "anchors": ["steps/DDECal.cc:561-837", "steps/DDECal.cc:988-1142"]}
{"id": "C132", "title": "DDECal subtracts the model with the solutions of the stations of each baseline", "statement": "The solutions that are applied to the model of a baseline, for subtraction or for kept model data, are those that were solved for the two stations of the baseline.", "quantifier": "all baselines, antennas, also with antennas that are on no baseline", "why_tests_cant": "Solutions are stored per used antenna; without unused antennas their numbers are those of all antennas, and tests have no unused antennas.", "anchors": ["steps/DDECal.cc:272-280", "steps/DDECal.cc:1031-1075"]}
{"id": "C133", "title": "The solver gets the mean time, normalized antenna weights and the right flags of its interval", "statement": "For every interval, DDECal hands to the solver the mean of the times of the interval, antenna weights that are the mean of the weights of the unflagged visibilities, and flags in which a channel block is flagged as a whole exactly when the fraction of its usable visibilities in the interval is below the minimum.", "quantifier": "all times, weights, flags, interval lengths and intervals per set", "why_tests_cant": "The values are accumulated over time slots and only go to constraints and initial solutions; tests with these use one time slot per interval or do not check the values.", "anchors": ["steps/DDECal.cc:533-559", "steps/DDECal.cc:928-968", "steps/DDECal.cc:611-701"]}
{"id": "C134", "title": "Channel blocks of DDECal partition the channels", "statement": "The channel blocks of DDECal are those of the solver data; every channel is in exactly one block, which is the one that the loops over the channels use; with a requested size of s channels, blocks have at least s and fewer than 2 s channels.", "quantifier": "all numbers of channels and requested sizes", "why_tests_cant": "Blocks are computed in three places, with rounding of two divisions; tests use sizes that divide the number of channels.", "anchors": ["steps/DDECal.cc:268-270", "steps/DDECal.cc:300-321", "steps/DDECal.cc:937-943", "ddecal/gain_solvers/SolveData.cc:107-118"]}
{"id": "C135", "title": "Solves start from the right values and results get the right weights", "statement": "Every solve starts from the solutions of the previous interval if these are to be propagated (and converged, if requested), else from the initial solutions for the time of the interval, else from unit matrices; the result is stored for this interval; final weights are not negative, and zero for what is to be flagged as unconverged.", "quantifier": "all settings, intervals, stations, directions and polarizations", "why_tests_cant": "The previous interval can be in another set of buffers, and the time that is used for initial solutions is only visible with a time dependent file.", "anchors": ["steps/DDECal.cc:483-531", "steps/DDECal.cc:703-751"]}
{"id": "C136", "title": "The solution file of DDECal has the right solution for every time slot", "statement": "In every table of the solution file each time slot of the measurement set lies in exactly one time range, given by its centre; the values for this range are, per channel block, antenna, direction and polarization, the solutions that were calculated for the slot, also if directions have different solution intervals. The number of values is the product of the sizes of the axes, no time range is beyond the end of the measurement set, and there is a table of phases and one of amplitudes exactly if the mode solves for them.", "quantifier": "all numbers of slots, intervals, directions, numbers of solutions per direction, antennas, blocks and modes", "why_tests_cant": "The last interval is incomplete, directions are resampled with different factors and the cut of the time axis is a comparison of floating point times; tests use a few sizes.", "anchors": ["ddecal/SolutionWriter.cc:45-65", "ddecal/SolutionWriter.cc:81-269", "ddecal/SolutionResampler.cc:43-83", "ddecal/Settings.cc:244-290", "steps/BdaDdeCal.cc:845-852", "steps/DDECal.cc:977-983"]}
{"id": "C137", "title": "Results of constraints are written completely", "statement": "If constraints produce results (such as TEC values), the solution file has one table for each result of each constraint; values and weights for each time slot are those that were calculated for it, the number of values and weights is the product of the sizes of the axes, and the frequency of a block is the mean of its channels.", "quantifier": "all numbers of intervals, directions, solutions per direction, constraints, results and axes", "why_tests_cant": "The combination of direction-dependent intervals with several constraints and incomplete intervals is not tested.", "anchors": ["ddecal/SolutionWriter.cc:271-395", "ddecal/SolutionResampler.cc:85-179"]}
{"id": "C138", "title": "BdaDdeCal solves every interval once, with its rows and their models", "statement": "For every stream of BDA buffers, and whatever the delays of the sub-steps that predict the models, BdaDdeCal calls the solver once for every interval from the first up to that of the last row, in order. A call contains exactly the rows whose centre is in the interval, with weighted data and with the weighted models of all directions for that very row; zero where a flag is set. Its time is the middle of the interval. It starts from the previous solutions if these are to be propagated, otherwise from unit matrices, and the results are stored for that interval with the weights that the settings ask for.", "quantifier": "all buffers, distributions of rows over buffers, delays of the sub-steps, settings and solvers", "why_tests_cant": "Models arrive in a queue with a different delay per direction and rows of one interval are spread over buffers; tests use a few predictable streams.", "anchors": ["steps/BdaDdeCal.cc:396-489", "steps/BdaDdeCal.cc:510-803", "ddecal/gain_solvers/BdaSolverBuffer.cc:29-204"]}
{"id": "C139", "title": "BdaDdeCal forwards every buffer once with the model subtracted", "statement": "The next step gets every buffer, once and in order, with its own rows and weights. With subtraction its data are those of the input minus the models of all directions, to which the solutions of both stations of the baseline for the direction, the channel and the interval of the row are applied; otherwise the data of the input. Models are removed, or kept with the solutions applied.", "quantifier": "all buffers, delays, settings, solvers and numbers of solutions per direction", "why_tests_cant": "A buffer can have rows of several intervals and is kept until the last of these is solved; tests check one shape.", "anchors": ["steps/BdaDdeCal.cc:732-737", "steps/BdaDdeCal.cc:805-829", "ddecal/gain_solvers/BdaSolverBuffer.cc:206-270"]}
{"id": "C140", "title": "BdaDdeCal forwards the flags of the input", "statement": "The flags of the buffers that BdaDdeCal gives to the next step are those of the input; limits on UVW coordinates only leave visibilities out of the solve.", "quantifier": "all buffers and settings", "why_tests_cant": "Flags and solver flags coincide in tests without UVW limits.", "anchors": ["steps/BdaDdeCal.cc:408-414", "steps/BdaDdeCal.cc:442-449", "steps/UVWFlagger.cc:192-243"]}
{"id": "C141", "title": "BdaDdeCal with onlypredict forwards the sum of the models", "statement": "With onlypredict there is no solve; every buffer is forwarded once and in order with the sum of the models of all directions as its data and without the models, or with its own data and all models if these are kept.", "quantifier": "all buffers, delays and directions", "why_tests_cant": "Directions complete at different times; tests use one direction or no delay.", "anchors": ["steps/BdaDdeCal.cc:491-518"]}
{"id": "C142", "title": "Antenna weights of BdaDdeCal are the mean weights of the rows of the antenna", "statement": "The weight of an antenna for a channel block that the constraints get is a finite number: the mean over the rows of the interval with that antenna of the mean weight of the row, divided by the number of antennas; flagged visibilities count as zero. Equal weights of all visibilities give equal weights of all antennas.", "quantifier": "all intervals, rows, flags and weights", "why_tests_cant": "Normalization over rows of different lengths, autocorrelations and missing antennas; tests have all baselines in every interval.", "anchors": ["steps/BdaDdeCal.cc:586-655"]}
{"id": "C143", "title": "BdaDdeCal accepts every orderly BDA stream", "statement": "If the rows are of known baselines, start at or after the start of the observation, the start times of the rows of each baseline are in order and no row has less channels than there are channel blocks, then a run of BdaDdeCal throws no exception and has no undefined behaviour, whatever the delays of the sub-steps and the distribution of rows over buffers.", "quantifier": "all such streams, delays, settings and solvers", "why_tests_cant": "Failures depend on the interleaving of baselines and buffers.", "anchors": ["steps/BdaDdeCal.cc:396-538", "steps/BdaDdeCal.cc:780-829", "ddecal/gain_solvers/BdaSolverBuffer.cc:133-166"]}
{"id": "C144", "title": "An iteration of a direct solver is a least-squares fit per antenna", "statement": "An iteration of the scalar, the diagonal or the full-Jones solver gives each antenna the solutions (a scalar, a diagonal matrix or a full matrix for each direction) that minimize the sum, over all visibilities and correlations of the channel block, of the squared difference between the data and the sum over the directions of J1 M J2^H, with the solutions of all other antennas as they were; or NaN. No matrix is accessed outside its size.", "quantifier": "all visibilities, baselines, numbers of antennas and directions, current solutions, and linear solvers that minimize residuals", "why_tests_cant": "The equations are written element by element into packed matrices with a different layout for each kind of solution; tests check convergence on one simulated set.", "anchors": ["ddecal/gain_solvers/ScalarSolver.cc:96-199", "ddecal/gain_solvers/DiagonalSolver.cc:99-223", "ddecal/gain_solvers/FullJonesSolver.cc:124-263", "ddecal/gain_solvers/SolverBase.h:29-59"]}
{"id": "C145", "title": "Correct solutions are kept by an iteration of a direct solver", "statement": "If the data are exactly what the current solutions predict and the visibilities of an antenna determine its solutions, the next solutions of that antenna are the current ones.", "quantifier": "all visibilities, solutions, antennas and directions; every linear solver that succeeds for independent equations", "why_tests_cant": "Fixed points need exact data; tests accept approximate convergence.", "anchors": ["ddecal/gain_solvers/ScalarSolver.cc:153-175", "ddecal/gain_solvers/DiagonalSolver.cc:161-187", "ddecal/gain_solvers/FullJonesSolver.cc:213-240"]}
{"id": "C146", "title": "Every linear solver minimizes the residuals", "statement": "Whichever type is selected, a linear solver that reports success returns the least-squares solution; the normal equations have a solution if the columns are independent. QR refuses systems with less rows than columns.", "quantifier": "all matrices, sizes and right-hand sides; LAPACK routines that do what they are documented to do", "why_tests_cant": "Depends on the storage of triangles and columns; tests use one well-conditioned system.", "anchors": ["ddecal/linear_solvers/LLSSolver.cc:15-26", "ddecal/linear_solvers/QRSolver.h:35-51", "ddecal/linear_solvers/SVDSolver.h:35-56", "ddecal/linear_solvers/NormalEquationsSolver.h:33-64"]}
{"id": "C147", "title": "WGridderPredict predicts every time slot from its own coordinates", "statement": "For every stream and number of kept time slots, the step after WGridderPredict gets every buffer once and in order, and is then finished. The predicted visibilities of a facet are the sum over the spectral terms of the visibility of the term for the coordinates and frequency of that time slot, baseline and channel, times (frequency / reference frequency - 1)^term, in XX and YY, and zero in XY and YX. They are stored under the label of the facet, or the sum of all facets becomes the data. The gridder gets increasing frequencies also if those of the channels decrease.", "quantifier": "all streams, buffer sizes, numbers of facets, terms, channels and baselines, and contents of memory", "why_tests_cant": "Channel reversal uses views with negative strides, and the number of kept time slots depends on the memory of the computer; tests use one of each.", "anchors": ["steps/WGridderPredict.cc:246-313", "steps/WGridderPredict.cc:331-445"]}
{"id": "C148", "title": "IDGPredict predicts every time slot from its own coordinates", "statement": "For every stream and number of kept time slots, the step after IDGPredict gets every buffer once and in order, and is then finished. Its data are the sum over facets and spectral terms of the visibility of the term for that time slot, baseline, channel and correlation, times (frequency / reference frequency - 1)^term. The result does not depend on the number of kept time slots. No memory is accessed outside the data of the terms.", "quantifier": "all streams, buffer sizes, numbers of facets, terms, channels and baselines", "why_tests_cant": "Terms are combined through pointers that run through all time slots; tests use one term or compare with a tolerance.", "anchors": ["steps/IDGPredict.cc:237-277", "steps/IDGPredict.cc:407-426", "steps/IDGPredict.cc:462-612"]}
{"id": "C149", "title": "IDG gets unpolarized images", "statement": "The image that IDG gets for a facet and a spectral term has the pixels of the facet as its first plane (Stokes I), and zeros in the planes of Q, U and V.", "quantifier": "all lists of facets of all sizes", "why_tests_cant": "Depends on the sizes of facets before it; tests use facets of one size.", "anchors": ["steps/IDGPredict.cc:306", "steps/IDGPredict.cc:312-346"]}
{"id": "C150", "title": "A facet is predicted at its place in the image", "statement": "The shift that WGridderPredict gives to the gridder is the coordinate of the pixel in the middle of the facet, with respect to the middle pixel of the model image.", "quantifier": "all image and facet sizes and offsets", "why_tests_cant": "Depends on the size of the image modulo four; the test image is aligned.", "anchors": ["steps/WGridderPredict.cc:163-201", "steps/WGridderPredict.cc:215-224", "steps/WGridderPredict.cc:349-356"]}
{"id": "C151", "title": "IDG is initialized for the largest w", "statement": "Before a prediction IDG is initialized with a maximum that is not smaller than the absolute w of any baseline within the maximum baseline length.", "quantifier": "all coordinates and earlier maxima", "why_tests_cant": "Depends on the coordinates of later time slots.", "anchors": ["steps/IDGPredict.cc:428-460"]}
{"id": "C152", "title": "Every time slot has its own place in the dynamic spectra", "statement": "For every stream of at most ntime buffers, DynSpec writes nothing outside its tensor and forwards each buffer. In the file of each source, the pixel of a time, channel and Stokes parameter holds the value computed from the buffer of that time slot for that source; pixels of time slots that did not come hold nothing.", "quantifier": "all streams, sizes, sources and sub-steps", "why_tests_cant": "Needs all sizes and the layout of the file; the only test checks an empty source list.", "anchors": ["steps/DynSpec.cc:170-175", "steps/DynSpec.cc:211-269", "steps/DynSpec.cc:296-347", "common/DynSpecFitsWriter.h:107-116"]}
{"id": "C153", "title": "A dynamic spectrum is the flux of the source", "statement": "If each baseline sees the same source after the sub-steps, the pixels of a dynamic spectrum are the absolute Stokes parameters of the source: the weighted average over the baselines that are not flagged, converted to I, Q, U and V.", "quantifier": "all numbers of baselines, weights, flags and sources", "why_tests_cant": "No test computes a spectrum; the unit in the file is Jansky.", "anchors": ["steps/DynSpec.cc:246-260", "steps/DynSpec.cc:271-294", "docs/schemas/DynSpec.yml:1-4"]}
{"id": "C154", "title": "DynSpec does not change the data", "statement": "The step after DynSpec gets each buffer as DynSpec got it, as DynSpec says that it provides no fields.", "quantifier": "all streams and settings", "why_tests_cant": "No test looks at the forwarded buffers.", "anchors": ["steps/DynSpec.cc:214-228", "steps/DynSpec.cc:267", "steps/DynSpec.h:44"]}
{"id": "C155", "title": "The file of a dynamic spectrum has the observation ID", "statement": "If the name of the measurement set is L<id>_<rest>, the keyword OBSID in the file is <id>.", "quantifier": "all names", "why_tests_cant": "No test writes a file.", "anchors": ["steps/DynSpec.cc:311-319"]}
{"id": "C156", "title": "ScaleData uses the first pattern and the size of each station", "statement": "ScaleData multiplies each visibility by the root of the product of the factors of its stations. The factor of a station is the polynomial in MHz of the first pattern that matches its name, or else the default polynomial, times nominal over used tiles if scalesize is true, or is not given and the default is used. It refuses lists of different lengths, and a table with another number of antennas.", "quantifier": "all settings, stations, tables and frequencies", "why_tests_cant": "Depends on the order of patterns and on the table of tiles; tests use fixed patterns.", "anchors": ["steps/ScaleData.cc:44-62", "steps/ScaleData.cc:66-160", "steps/ScaleData.cc:188-194", "steps/ScaleData.cc:221-248", "docs/schemas/ScaleData.yml:8-21"]}
{"id": "C157", "title": "ScaleData scales each visibility of BDA data once", "statement": "For BDA data each visibility of each row is multiplied once, by the factor of its baseline at the frequency of its channel, and no other memory is changed.", "quantifier": "all buffers and numbers of channels per row", "why_tests_cant": "The test has one channel in all rows.", "anchors": ["steps/ScaleData.cc:196-214"]}
{"id": "C158", "title": "The reordered files divide the channels", "statement": "WSCleanWriter divides the channels into parts of chanperfile channels, in order, the last with what remains; each channel is in one part, and the band of a part has the frequencies of its channels.", "quantifier": "all selections of channels and values of chanperfile", "why_tests_cant": "Depends on the selection of channels; there is no test with startchan.", "anchors": ["steps/WSCleanWriter.cc:61-104", "base/DPInfo.cc:364-404"]}
{"id": "C159", "title": "The reordered files have the rows of the cross-correlations", "statement": "For each time slot WSCleanWriter writes a row for every baseline between different antennas, in order, once, with the antennas of that baseline, and no rows for autocorrelations.", "quantifier": "all lists of baselines", "why_tests_cant": "Needs all lists of baselines.", "anchors": ["steps/WSCleanWriter.cc:141-171"]}
{"id": "C160", "title": "Initial solutions go to the right sub-solution", "statement": "When DDECal starts from a solution file, every sub-solution of a direction gets the value of the file for its own direction, antenna, channel block and polarization: the product of the solution tables for diagonal or scalar solutions, or the matrix for full Jones solutions. Every value of the solution vector is set and nothing outside is read or written. A file that does not fit the calibration mode is refused.", "quantifier": "all numbers of directions, sub-solutions, antennas, channel blocks and polarizations", "why_tests_cant": "Integration tests use one shape of file per mode, and none has a file of diagonal solutions for a full Jones mode.", "anchors": ["ddecal/InitialSolutions.cc:113-202", "steps/DDECal.cc:384-385", "steps/DDECal.cc:495-504"]}
{"id": "C161", "title": "Mode names that are shown are accepted", "statement": "The name of a calibration mode that DP3 shows is a name that it accepts for that mode, and different modes have different names.", "quantifier": "all modes", "why_tests_cant": "A test would list the modes by hand and miss one, as it does now.", "anchors": ["base/CalType.cc:10-48", "base/CalType.cc:50-90"]}
{"id": "C162", "title": "Grouped prediction gives each BDA row the prediction of its own baseline and time", "statement": "When the rows of a BDA stream come, per averaging, in rounds in which each baseline with that averaging has one row at the same time, then the grouppredict step passes on all buffers in order with all their rows; each round causes one prediction for the baselines of the group, with the coordinates of the rows of that round, and each row gets the part of that prediction that belongs to its baseline, also when the rows of a round are divided over several buffers.", "quantifier": "all BDA infos, all streams of buffers that consist of rounds, all predict functions", "why_tests_cant": "The order of rows, the division over buffers and the interleaving of groups are unbounded; tests use one averaging pattern.", "anchors": ["steps/BdaGroupPredict.cc:101-150", "steps/BdaGroupPredict.cc:189-265"]}
{"id": "C163", "title": "Grouped prediction reports incomplete data", "statement": "If the grouppredict step finishes without an error then, for each averaging, the rows of the stream come in complete rounds: as many rows as there are baselines with that averaging, with times that follow each other within a millisecond. A baseline that is missing is reported as an error.", "quantifier": "all BDA infos, all streams, all predict functions", "why_tests_cant": "Missing rows can occur at any place of a stream of any length.", "anchors": ["steps/BdaGroupPredict.cc:101-125", "steps/BdaGroupPredict.cc:238-274"]}
{"id": "C164", "title": "Grouped prediction is made for the time of the row", "statement": "The grouppredict step predicts a row for its centroid time. (False: it predicts for the end of the interval, which matters for the beam.)", "quantifier": "all streams of one baseline", "why_tests_cant": "Tests of the step do not use the beam.", "anchors": ["steps/BdaGroupPredict.cc:104", "base/BdaBuffer.h:33"]}
{"id": "C165", "title": "Grouped prediction uses the frequencies and integration time of the baselines", "statement": "The frequencies and the integration time that are used for a group are those of each of its baselines. Proved for frequencies after the BDA averaging of DP3; false for other data with equally many channels, and false for the integration time, which is that of the unaveraged data.", "quantifier": "all BDA infos", "why_tests_cant": "Any pattern of averaging is possible.", "anchors": ["steps/BdaGroupPredict.cc:55-73", "steps/BDAAverager.cc:174-187"]}
{"id": "C166", "title": "Grouped prediction with operation add adds the model to the data of the row", "statement": "With operation add the grouppredict step gives the data of each row plus its model. (False: it gives the sum of all models so far; the data of the row have no effect.)", "quantifier": "all streams of one baseline, all models", "why_tests_cant": "Tests use the operation replace.", "anchors": ["steps/BdaGroupPredict.cc:76-80", "steps/BdaGroupPredict.cc:113-147", "steps/OnePredict.cc:506-532"]}
{"id": "C167", "title": "Predicted visibilities do not depend on the number of threads", "statement": "For any division of the sources into consecutive ranges for threads, and any order in which the threads finish, each time slot gets the sum over all components, each with the beam values of its own patch, as evaluated at the last update of the beam. When times do not decrease, the beam is evaluated for a time at most half a beam interval from the time slot.", "quantifier": "all patch lists, all divisions into ranges, all orders, all lists of times, all additive beams", "why_tests_cant": "The number of threads, the sizes of patches and the number of time slots are unbounded; the caches of the threads depend on the whole history.", "anchors": ["steps/OnePredict.cc:545-668", "steps/OnePredict.cc:678-714", "sky_model/SkyModelFunctions.cc:125-144", "base/PredictBuffer.h:21-37"]}
{"id": "C168", "title": "The beam of a prediction is computed for one time", "statement": "The direction of a patch and the telescope are for the same time when the beam is evaluated. (False with a positive beam_interval: the telescope is half an interval later than the direction.)", "quantifier": "all positive intervals, all times", "why_tests_cant": "The error is a rotation of the sky of half an interval, which tests with beam_interval zero cannot see.", "anchors": ["steps/OnePredict.cc:466-486", "steps/OnePredict.cc:636-649", "steps/OnePredict.cc:690-710"]}
{"id": "C169", "title": "The operation of a prediction gives the right data", "statement": "Replace gives the corrected model, add the data plus the corrected model and subtract the data minus the corrected model, for one prediction and for the chain of directions of an H5Parm; with outputmodelname the result goes to that buffer and the main data are kept. (With outputmodelname it is false when solutions are applied: they have no effect.)", "quantifier": "all data, all models, all numbers of directions, all operations", "why_tests_cant": "Combinations of operations, directions, names and solutions are unbounded.", "anchors": ["steps/OnePredict.cc:505-537", "steps/H5ParmPredict.cc:64-116", "steps/OneApplyCal.cc:527-538", "base/DPBuffer.h:201-205"]}
{"id": "C170", "title": "Unpolarized models are copied to the first and last correlation", "statement": "An unpolarized model goes to the first and last of four correlations and the others are zero. (With fewer correlations the copy writes outside the data.)", "quantifier": "all numbers of baselines and channels", "why_tests_cant": "Sizes are unbounded, and the assertion is not in release builds.", "anchors": ["steps/OnePredict.cc:437-457"]}
{"id": "C171", "title": "Updating weights is refused when the operation is not replace", "statement": "A prediction that adds or subtracts and applies solutions that update weights is refused. (False: the check reads another key.)", "quantifier": "all parsets", "why_tests_cant": "The key that is read is never set.", "anchors": ["steps/OnePredict.cc:167-171", "steps/OnePredict.cc:186-196"]}
{"id": "C172", "title": "Solutions per direction are accepted exactly when they fit", "statement": "DDECal accepts solutions_per_direction exactly when there are at most as many counts as directions, all are positive divisors of solint, more than one solution is only asked with a non-zero solint, and the number of smoothness_dd_factors is zero or the number of directions. The result has the given counts, and one for each other direction; nothing undefined happens.", "quantifier": "every list of counts, solution interval, number of factors and number of directions", "why_tests_cant": "All combinations of settings.", "anchors": ["ddecal/Settings.cc: Settings::PrepareSubSolutionsPerDirection", "steps/DDECal.cc: updateInfo"]}
{"id": "C173", "title": "Every solution has the smoothness factor of its direction", "statement": "After the settings are accepted, the vectors of solution directions and of expanded smoothness factors have one element per solution, solution i of direction d belongs to direction d and has the factor of direction d, and the smoothness constraint accepts the factors.", "quantifier": "every accepted list of counts with fewer than 2^32 solutions, every list of factors", "why_tests_cant": "All lists of counts and factors.", "anchors": ["ddecal/Settings.cc: GetSolutionToDirectionVector, GetExpandedSmoothnessDdFactors, GetNSolutions", "ddecal/constraints/SmoothnessConstraint.cc: SetDdSmoothingFactors"]}
{"id": "C174", "title": "Reused model data are those that match a pattern", "statement": "With reusemodel the model data of earlier steps that match at least one pattern are used, each once, under the name after the first period; a setting is refused if and only if a pattern matches nothing, and different model data get different names.", "quantifier": "every list of patterns and every set of model data names", "why_tests_cant": "All patterns and names.", "anchors": ["ddecal/Settings.cc: Settings::GetReusedDirections"]}
{"id": "C175", "title": "The core constraint holds for the antennas near the first antenna", "statement": "With coreconstraint the antennas within the given distance of the first used antenna, with that antenna, are constrained to the same solution; a larger distance gives a larger set; the constraint also holds when groups of antennas are given, and an invalid distance is refused.", "quantifier": "every set of positions and every distance", "why_tests_cant": "All positions and distances.", "anchors": ["ddecal/SolverFactory.cc: DetermineCoreAntennas, InitializeSolverConstraints"]}
{"id": "C176", "title": "Groups of the antenna constraint are the named antennas", "statement": "Every group of antennaconstraint becomes the set of the antennas with these names; a group that constrains fewer than two antennas is refused.", "quantifier": "every list of groups and every list of antenna names", "why_tests_cant": "All names and groups.", "anchors": ["ddecal/SolverFactory.cc: InitializeAntennaConstraint", "ddecal/Settings.cc: ReadAntennaConstraint"]}
{"id": "C177", "title": "Averaging factors per antenna are accepted when they can be applied", "statement": "antenna_averaging_factors are accepted exactly when all are positive and at most the largest number of solutions of a direction, also when some antennas of the data take no part in a baseline.", "quantifier": "every list of factors, antennas and counts", "why_tests_cant": "All combinations.", "anchors": ["ddecal/SolverFactory.cc: AddConstraints", "ddecal/constraints/AntennaIntervalConstraint.cc: Initialize", "steps/DDECal.cc: updateInfo"]}
{"id": "C178", "title": "Nearer antennas are smoothed more", "statement": "With smoothnessrefdistance an antenna gets the factor reference distance over distance to the reference antenna, so nearer antennas get larger factors, and the reference antenna gets the factor of the nearest antenna; antenna_smoothness_factors multiply these; invalid settings are refused and kernels have a finite scale.", "quantifier": "every set of positions, reference antenna, distance and factors", "why_tests_cant": "All positions and settings.", "anchors": ["ddecal/SolverFactory.cc: CalculateAntennaSmoothnessFactors", "ddecal/constraints/SmoothnessConstraint.cc: Apply"]}
{"id": "C179", "title": "Phases of the TEC and delay fit are wrapped to one turn", "statement": "Wrap gives for every phase a phase in [-pi, pi) that differs from it by whole turns, and keeps phases in that range.", "quantifier": "every phase", "why_tests_cant": "All real phases.", "anchors": ["ddecal/constraints/TecOffsetDelayFitting.cc: Wrap"]}
{"id": "C180", "title": "The grid search of TEC, offset and delay finds data without noise", "statement": "TecOffsetDelayGridSearch is guaranteed to find the global minimum of the cost when the phases are those of values a, b (zero if not fitted) and c within the searched range, without noise.", "quantifier": "all frequencies, weights, and values within the range of max_wraps", "why_tests_cant": "All values and frequencies.", "anchors": ["ddecal/constraints/TecOffsetDelayFitting.cc: TecOffsetDelayGridSearch, TecOffsetDelayCost", "ddecal/constraints/TecOffsetDelayFitting.h: documentation"]}
{"id": "C181", "title": "The results of the TEC, offset and delay constraint describe the solutions", "statement": "The constraint replaces the solutions of an antenna and direction by phases in [-pi, pi) that are, up to whole turns, -8.44797245e9 TEC / frequency + offset + 2 pi frequency delay with the TEC, offset and delay it writes; solutions that are not finite have no weight in the fit and the weight of the results is the sum of the weights of the others; phases that can be fitted perfectly are kept when the search finds them.", "quantifier": "all solutions, weights and frequencies", "why_tests_cant": "All phases and weights.", "anchors": ["ddecal/constraints/TecOffsetDelayConstraint.cc: Apply, Initialize"]}
{"id": "C182", "title": "The beam of an antenna is that of the station with its name", "statement": "When the stations of the telescope differ, the indices that are selected for the antennas of the data are, in the order of the telescope, stations with exactly the names of the antennas; the selection is refused only if no such stations exist. With different names the selection is unique.", "quantifier": "for all telescopes with stations that differ and all lists of antenna names", "why_tests_cant": "A test has one measurement set; the greedy search must be complete for every subset of the stations.", "anchors": ["base/Telescope.cc:17-49", "steps/ApplyBeam.cc:333-334"]}
{"id": "C183", "title": "skipstations skips the stations with these names", "statement": "The step uses a unit beam for an antenna if and only if its name is in skipstations, and refuses unknown names. (True if the antennas of the data are the first stations of the telescope. False otherwise: the indices of skipped stations are those of the telescope and are compared with antenna numbers; for a telescope with equal stations everything is skipped, also for unknown names.)", "quantifier": "for all telescopes, antennas, names, modes and directions", "why_tests_cant": "The tests use data with all stations of the telescope.", "anchors": ["steps/ApplyBeam.cc:96-169", "steps/ApplyBeam.cc:336-345", "base/Telescope.cc:17-49"]}
{"id": "C184", "title": "The beam correction in the metadata is the one of the data", "statement": "After any sequence of accepted applybeam steps on raw data, the data are the raw data corrected for the mode and direction in the metadata (raw data for mode none), whatever corrections came before; a step with invert=false is accepted only for data that have the correction that it removes. (False for steps with usemodeldata and invert, which set the metadata of the data while only model data change; for skipped stations, which are not recorded; and for a direction that is mirrored in the equator, as only two coordinates of the direction vector are compared.)", "quantifier": "for all sequences of steps, responses that have an inverse, baselines, channels and data", "why_tests_cant": "Each test has one or two steps with one direction.", "anchors": ["steps/ApplyBeam.cc:56-169", "steps/ApplyBeam.cc:240-346", "steps/ApplyBeam.cc:381-462", "steps/SetBeam.cc:28-65"]}
{"id": "C185", "title": "The scalar array factor is the array factor", "statement": "For unpolarised data and an array factor that is equal for both polarisations, computing and adding the scalar array factor gives the same as computing and adding the matrix beam in mode array_factor, with any skipped stations, inverted or not; adding the beam to a model adds what the step would make of the data.", "quantifier": "for all responses, stations, skipped stations, baselines and data", "why_tests_cant": "Tests compare a few numbers with a tolerance.", "anchors": ["steps/ApplyBeam.cc:138-158", "steps/ApplyBeam.cc:171-206", "steps/ApplyBeam.cc:469-527"]}
{"id": "C186", "title": "Undoing a beam correction restores the weights", "statement": "With updateweights, a correction followed by a step with invert=false restores positive weights. (True for a diagonal beam; false for others, because the weights of a correction are for data with independent elements.)", "quantifier": "for all diagonal beams with an inverse and all positive weights", "why_tests_cant": "Tests look at weights after one correction.", "anchors": ["steps/ApplyBeam.cc:83-86", "steps/ApplyCal.cc:231-263"]}
{"id": "C187", "title": "A parameter polynomial is evaluated on the scale of its cell", "statement": "The result of a parameter of coefficients for a cell of the predict grid is the sum of c(i,j) x^i y^j, with the coefficients of the cell of the domain grid to which the center belongs (the one that contains it, otherwise the next or the last one), and x and y the center on the scale of that cell, from zero at its start till one at its end. The borders of an axis mapping are exactly the places where the mapped cell changes.", "quantifier": "for all polynomials, domain grids with ordered cells and predict grids", "why_tests_cant": "Tests evaluate a few low order polynomials on small grids.", "anchors": ["parmdb/Parm.cc:281-316", "parmdb/AxisMapping.cc:12-30"]}
{"id": "C188", "title": "Default polynomials are the same function after the solve grid is set", "statement": "Rescaling a polynomial to another domain gives the same function of the axes; hence the result of a parameter that only has a default value does not change when its solve grid is set. (True for polynomials of at most ten coefficients per axis and with respect to the domain of the default; false for the result before the solve grid is set, which is evaluated on the scale of the default grid of all numbers.)", "quantifier": "for all polynomials, old and new domains and positions", "why_tests_cant": "Tests use a few coefficients and one domain.", "anchors": ["parmdb/ParmValue.cc:72-155", "parmdb/ParmValue.cc:235-266"]}
{"id": "C189", "title": "A perturbed result is the result of the perturbed coefficient", "statement": "The i-th perturbed result is the result plus the i-th perturbation times the power of the position that belongs to the i-th solvable coefficient; perturbations are never zero if the setting is not. (True without a solvable mask; with a mask that excludes a coefficient, the array of perturbations is shorter than the coefficients and is read behind its end.)", "quantifier": "for all sets whose polynomials have the same shape, grids, and perturbations", "why_tests_cant": "Tests have no solvable mask with perturbations.", "anchors": ["parmdb/Parm.cc:178-197", "parmdb/Parm.cc:317-369"]}
{"id": "C190", "title": "A scalar parameter has the value of the cell that contains the predict cell", "statement": "The result of a scalar parameter for a cell of the predict grid is the value of the cell that contains its center, whatever the division of the values over ParmValues is; outside of all cells it is that of the nearest cell. (True for one ParmValue; for more ParmValues only inside of the cells, outside an exception is thrown.)", "quantifier": "for all grids with ordered cells, values, numbers of ParmValues and predict grids", "why_tests_cant": "Tests have few grids; the loops over parts with hints depend on all borders.", "anchors": ["parmdb/Parm.cc:372-473", "parmdb/AxisMapping.cc:12-30"]}
{"id": "C191", "title": "Extending a parameter keeps its values and continues them", "statement": "When a solve grid outside of the domain is set, the grid is the combined one, every old cell keeps its value and every other cell has the value of the nearest old cell; solutions can then be set for all cells of the solve grid. (True for the values if the axes can be combined; the errors are not extended, so that setting an error at a new cell writes out of bounds, and a solve grid inside of the domain with other cells is not refused.)", "quantifier": "for all grids without holes and values", "why_tests_cant": "Tests extend one or two grids.", "anchors": ["parmdb/ParmValue.cc:219-405", "parmdb/Axis.cc:181-286"]}
{"id": "C192", "title": "The coefficients that are set are read back", "statement": "After setCoeff succeeds, getCoeff with the same location gives exactly the new values; coefficients outside of the solvable mask, other scalars, and all other ParmValues are unchanged, and the perturbations are those of the first value of the parameter.", "quantifier": "for all sets, solve grids, locations, masks and values", "why_tests_cant": "Tests set all coefficients of one cell.", "anchors": ["parmdb/Parm.cc:48-197"]}
{"id": "C193", "title": "Sub steps of applycal inherit the settings of the step", "statement": "A sub step of applycal has the settings it would have if each setting that it lacks were copied from the step: own settings win, then those of the step, then the defaults.", "quantifier": "all parameter sets, prefixes, ParmDB paths", "why_tests_cant": "The settings are read one by one, each with its own fallback; tests use a few of them, and a setting that is not inherited shows only as other values in the corrected data.", "anchors": ["steps/ApplyCal.cc:49-78", "steps/OneApplyCal.cc:40-150", "docs/schemas/ApplyCal.yml"]}
{"id": "C194", "title": "All gains of a ParmDB are read", "statement": "If the values of a ParmDB are gains, all given as amplitude and phase or all as real and imaginary part, applycal with gain or fulljones reads every one of them, for the diagonal and, if there are any, the off-diagonal elements.", "quantifier": "all sets of names with values and default values", "why_tests_cant": "The representation is found by trying names in a fixed order; tests have ParmDBs of the common forms only, and parameters that are not read are simply not applied.", "anchors": ["steps/OneApplyCal.cc:232-347", "steps/OneApplyCal.cc:195-200"]}
{"id": "C195", "title": "Each antenna gets its own parameter values", "statement": "The values that applycal uses for an antenna are those that the ParmDB has for it, otherwise the default of that antenna, otherwise the default of the parameter; without any, gains are zero (flagged) and anything else is an error.", "quantifier": "all ParmDBs, antennas, sizes of the domain", "why_tests_cant": "The name is put together from the first name of a map and a pattern; it depends on the names of other antennas and directions, of which tests have few.", "anchors": ["steps/OneApplyCal.cc:628-711"]}
{"id": "C196", "title": "Solutions of the buffer are those of the direction", "statement": "When applycal takes solutions from the buffer, it applies the ones of the direction that was asked for, with the number of channels of the data and two or four values for each antenna; anything else is an error.", "quantifier": "all solutions in a buffer, directions, numbers of channels and antennas", "why_tests_cant": "Tests have buffers with one well formed solution.", "anchors": ["steps/OneApplyCal.cc:421-470"]}
{"id": "C197", "title": "Solutions of an H5Parm are those of the direction", "statement": "When applycal takes solutions from an H5Parm for a direction, or for model data of the form step.patch, the solutions are those of that direction of the table; an unknown direction is an error.", "quantifier": "all lists of directions, all names of directions and model data", "why_tests_cant": "Tests use a table with two directions and model data of one step.", "anchors": ["steps/OneApplyCal.cc:169-181", "steps/OneApplyCal.cc:499-505", "steps/OneApplyCal.cc:751-762"]}
{"id": "C198", "title": "An update changes only the rows, channels and fields that were processed", "statement": "When a measurement set is updated, rows that were not read and channels that were not selected keep their data, weights and flags; in the selected channels each field that is written has the values of the buffer, with those of flagged correlations replaced if the column is compressed; nothing fails if the selection is within the measurement set.", "quantifier": "all tables, selections of channels, sequences of buffers, sets of fields that are written", "why_tests_cant": "Damage outside of the selection depends on the combination of selected channels, rows, and fields; tests compare only a few selections.", "anchors": ["steps/MSUpdater.cc:170-230", "steps/MSUpdater.cc:363-430"]}
{"id": "C199", "title": "The flags that are read after an update are those that were written", "statement": "After an update, reading a row gives the written flags in the selected channels; the flags of other channels read the same as before, and the flag of a row never says more than its flags do.", "quantifier": "all tables, selections of channels, flags", "why_tests_cant": "FLAG_ROW is combined with FLAG when reading; a wrong row flag shows only for rows that are fully flagged before or after.", "anchors": ["steps/MSUpdater.cc:363-385", "steps/MsReader.cc:301-321"]}
{"id": "C200", "title": "A new measurement set has every buffer, in order", "statement": "A new measurement set has one row for each baseline of each buffer, in the order of the input, with the data, weights and flags of that baseline; the row is flagged if and only if all its flags are set, and the flags are read back as they were written.", "quantifier": "all sequences of buffers, with and without compression", "why_tests_cant": "Tests write a few times; an error in the row numbers or row flags for other numbers of baselines or buffers stays unseen.", "anchors": ["steps/MSWriter.cc:182-208", "steps/MSWriter.cc:706-753"]}
{"id": "C201", "title": "A step after writing sees the same buffer, and can update what was written", "statement": "Writing a measurement set leaves the data, weights and flags for the next steps as they are; an update of the new measurement set later in the same run changes the rows of the same buffer.", "quantifier": "all buffers, with and without compression, all later values", "why_tests_cant": "Needs several output steps in one run, with compression or a selection of channels.", "anchors": ["steps/MSWriter.cc:182-208", "steps/MSWriter.cc:706-726", "steps/MSWriter.cc:215-240", "steps/MSUpdater.cc:170-230", "base/DPInfo.cc:395-410"]}
{"id": "C202", "title": "The name of the output decides between update and new", "statement": "The input is updated if no name, a dot, or its own name is given; the last written measurement set is updated if its name is given; in any other case a new one is written.", "quantifier": "all names, any function that makes them absolute", "why_tests_cant": "Tests use a few names.", "anchors": ["base/DP3.cc:107-165"]}
{"id": "C203", "title": "Chunks split the data by time", "statement": "With a chunk duration, each buffer is in one of the measurement sets, in order; the buffers of one are within the duration from its first one, and the next starts with the first buffer that is not. Without a duration there is one.", "quantifier": "all sequences of buffers with increasing times, all durations", "why_tests_cant": "Depends on the rounding of times and on gaps; tests have one duration that is a multiple of the interval.", "anchors": ["steps/MSWriter.cc:159-180"]}
{"id": "C204", "title": "Chunks have different names, in the same directory", "statement": "The name of a chunk is the given name with a number of at least three digits before the extension, in the same directory, and different for each chunk.", "quantifier": "all names, all numbers", "why_tests_cant": "Tests use a name with an extension and less than ten chunks.", "anchors": ["steps/MSWriter.cc:147-157"]}
{"id": "C205", "title": "Writing in a thread gives the same measurement sets", "statement": "Whatever the timing of both threads, when writing has finished the measurement sets are those that would be written without a thread; the threads never block each other, and finish.", "quantifier": "all sequences of writes and chunks, all interleavings", "why_tests_cant": "A race shows only for some timings.", "anchors": ["steps/MSWriter.cc:164-180", "steps/MSWriter.cc:210-213", "steps/MSWriter.cc:814-835", "steps/MSWriter.h:234"]}
{"id": "C206", "title": "Weights that are read are usable", "statement": "Without weights for each channel, the weights of the row are used with 1 for zero; with autoweight the weights follow the radiometer equation with the auto-correlations of both antennas, and baselines without them keep theirs.", "quantifier": "all weights, auto-correlations, baselines, 1, 2 or 4 correlations", "why_tests_cant": "The combination of feeds for each correlation is easily exchanged; tests have equal values.", "anchors": ["steps/MsReader.cc:943-1009", "steps/MsReader.cc:718-724", "docs/schemas/Input.yml:97-101"]}
{"id": "C207", "title": "The correction for the beam is remembered", "statement": "The mode and direction of the beam that a run records in a column are those that the next run reads from it, whatever the column had before; a column that was never corrected gets no keywords.", "quantifier": "all sequences of runs, modes and directions", "why_tests_cant": "Needs several runs on the same column.", "anchors": ["steps/MSWriter.cc:640-660", "steps/MsReader.cc:656-671"]}
{"id": "C208", "title": "GainCal: solution intervals, buffers and writes", "statement": "GainCal makes one solution of every `solint` time slots (fewer for the last interval) with exactly the data of these slots; all buffers are passed on in their order, each corrected with the solution of its own interval if applysolution is set and unchanged otherwise; every solution is written once and in order, in a ParmDB in parts of timeslotsperparmupdate solutions which start at the time of their first interval.", "quantifier": "all settings with a known solint, all solvers with a state, all sequences of buffers of any length", "why_tests_cant": "Tests use a few numbers of time slots; whether buffers, solutions and writes stay in step for all combinations of solint, timeslotsperparmupdate and observation length is an invariant over the whole run.", "anchors": ["steps/GainCal.cc:381-496 process", "steps/GainCal.cc:1307-1353 finish", "steps/GainCal.cc:165-206"]}
{"id": "C209", "title": "GainCal: time axes of the solutions", "statement": "For an observation of which all time slots are processed, the time intervals in the ParmDB, over all writes, are one for each solution and in their order; the interval that has the middle of a time slot is that of the solution made with its data. The H5Parm has as many times as solutions, and the time nearest to a time slot is that of its solution.", "quantifier": "all numbers of time slots, solint, timeslotsperparmupdate > 0, positive intervals", "why_tests_cant": "The last interval and the last part can be shorter; tests check one case.", "anchors": ["steps/GainCal.cc:1153-1187", "steps/GainCal.cc:957-964", "steps/GainCal.cc:483-490"]}
{"id": "C210", "title": "GainCal: frequency cells", "statement": "For every setting of nchan, the cells cover all channels, the solver of each cell has exactly the channels of the cell and every channel has a place in it; the cell of the ParmDB with the frequency of a channel is that of its solution; in an H5Parm the nearest frequency is that of the cell of a channel if all cells have the same number of channels.", "quantifier": "all settings, numbers of channels and regular frequencies", "why_tests_cant": "The number of channels of the last cell comes from a modulo expression that tests check for a few values only.", "anchors": ["steps/GainCal.cc:208-285", "steps/GainCal.cc:1153-1178", "steps/GainCal.cc:558-587"]}
{"id": "C211", "title": "Solutions of GainCal in a ParmDB are what applycal gets", "statement": "For every mode of GainCal, applycal with the matching correction gets, for each antenna that was used, the values that GainCal wrote to the ParmDB; amplitudes are 1 if only phases were solved for, and phases 0 if only amplitudes were.", "quantifier": "all modes, sets of antennas with different names without colon, and values", "why_tests_cant": "The names are made in one step and taken apart by patterns and detection rules in another one; tests run them for one mode and antenna set.", "anchors": ["steps/GainCal.cc:825-908", "steps/GainCal.cc:1133-1305", "steps/OneApplyCal.cc:232-347", "steps/OneApplyCal.cc:610-703"]}
{"id": "C212", "title": "Tables of GainCal in an H5Parm", "statement": "The tables that GainCal makes in an H5Parm have the quantity of which they have the name; the value of each time, frequency cell, antenna and polarization is at its place for axes in that order, and its weight is 0 if and only if the value is not finite.", "quantifier": "all modes, all sizes of axes", "why_tests_cant": "Tests look at one mode; index arithmetic for all sizes and the choice of quantity for all modes are not enumerated.", "anchors": ["steps/GainCal.cc:910-1080", "steps/GainCal.cc:1082-1131"]}
{"id": "C213", "title": "LBFGS solver: the gradient is the derivative of the cost", "statement": "In the full Jones, diagonal and scalar modes, the gradient that the LBFGS solver gives to the minimiser is the derivative of the cost that it gives, in every direction in the space of unknowns: d/dt cost(u + t v) at t = 0 is the sum of gradient(u)_i v_i. The residual in the cost is that of the measurement equation, data minus the sum over directions of J_p M J_q^H.", "quantifier": "all modes, numbers of antennas and directions, lists of visibilities with antennas in range, robust nu > 0, all unknowns and all directions", "why_tests_cant": "A wrong sign or conjugate in the gradient slows down or misleads the minimiser without any error; tests check only that one solve comes near the true solution.", "anchors": ["ddecal/gain_solvers/LBFGSSolver.cc:52-163", "ddecal/gain_solvers/LBFGSSolver.cc:165-280", "ddecal/gain_solvers/LBFGSSolver.cc:282-386"]}
{"id": "C214", "title": "LBFGS solver: minimum of the cost", "statement": "For a batch with at least one visibility the cost is never negative, it is 0 if and only if every visibility equals its prediction from the solutions, and the gradient is then 0.", "quantifier": "all modes, sizes, visibilities and unknowns, nu > 0", "why_tests_cant": "Holds over a continuous space of solutions.", "anchors": ["ddecal/gain_solvers/LBFGSSolver.cc:52-86", "ddecal/gain_solvers/LBFGSSolver.cc:165-198", "ddecal/gain_solvers/LBFGSSolver.cc:282-313"]}
{"id": "C215", "title": "LBFGS solver: unknowns and solutions", "statement": "Every index that the gradient loops add to is below the number of solutions; splitting solutions into unknowns and merging them gives the same solutions; the solution that the cost uses for an index is the one at that index in the list of solutions, before and after minimisation.", "quantifier": "all modes, sizes and solutions", "why_tests_cant": "Index arithmetic for all sizes.", "anchors": ["ddecal/gain_solvers/LBFGSSolver.cc:495-523", "ddecal/gain_solvers/LBFGSSolver.cc:56-75", "ddecal/gain_solvers/LBFGSSolver.cc:129-153"]}
{"id": "C216", "title": "Low rank solver: matrix of correlations", "statement": "Every element of the matrix that the low rank solver makes for a direction is finite and is the weighted least squares estimate of the product of a gain with a conjugated gain, from all finite elements of visibilities of that solution with these antennas and polarizations (conjugated for the reverse order); it is the only one if these have weight; the matrix is Hermitian.", "quantifier": "all lists of visibilities with nonnegative weights, all solution indices, rows and columns", "why_tests_cant": "Eight accumulations with hand written index pairs; tests use data for which the cross elements are small.", "anchors": ["ddecal/gain_solvers/DiagonalLowRankSolver.cc:17-33", "ddecal/gain_solvers/DiagonalLowRankSolver.cc:249-322"]}
{"id": "C217", "title": "Low rank solver: weights of the elements", "statement": "The weights of the elements of the matrix are between 0 and 1, an element without data has weight 0, and more data or data of higher weight do not lower the weight of an element.", "quantifier": "all lists of visibilities", "why_tests_cant": "The weight is a formula of sums over data; only solutions are tested.", "anchors": ["ddecal/gain_solvers/DiagonalLowRankSolver.cc:24-31", "ddecal/gain_solvers/DiagonalLowRankSolver.cc:313-324"]}
{"id": "C218", "title": "Low rank solver: exact data", "statement": "If the data are exact for gains g, the solution for a direction is g up to one phase, with the first value real and positive; in particular true solutions are kept.", "quantifier": "all numbers of antennas, weights and missing data; all numbers of iterations > 0; all random start vectors that are not orthogonal to g", "why_tests_cant": "Holds over a continuous space of gains; tests look at one random set with a tolerance.", "anchors": ["ddecal/gain_solvers/DiagonalLowRankSolver.cc:39-73", "ddecal/gain_solvers/DiagonalLowRankSolver.cc:326-364"]}
{"id": "C219", "title": "Low rank solver: order of directions", "statement": "In every solve each direction is in the order once; with step size 1 they are in order of decreasing power of the model data of that solve.", "quantifier": "all numbers of directions, channel blocks, visibilities and solves", "why_tests_cant": "Tests do one solve with a solver.", "anchors": ["ddecal/gain_solvers/DiagonalLowRankSolver.cc:80-87", "ddecal/gain_solvers/DiagonalLowRankSolver.cc:139-164"]}
{"id": "C220", "title": "Low rank solver: residual of each direction", "statement": "With step size below 1 every direction is solved for with the data minus all other directions with their present solutions. With step size 1 those directions that were solved for in the iteration are subtracted with their new solutions of the same channel block.", "quantifier": "all numbers of directions, visibilities and channel blocks; all functions that solve for a direction", "why_tests_cant": "Tests have gains that are the same or converge in each channel block; the wrong block slows the solver down only.", "anchors": ["ddecal/gain_solvers/DiagonalLowRankSolver.cc:201-247"]}
{"id": "C221", "title": "Low rank solver: convergence", "statement": "The loop stops after the first iteration that converged with satisfied constraints (and not before the minimum number), the result says so, and constraints are told whether the solutions had converged before.", "quantifier": "all limits and all courses of iterations", "why_tests_cant": "Tests check that the number of iterations is the maximum + 1, which is also the result for a solver that does not converge.", "anchors": ["ddecal/gain_solvers/DiagonalLowRankSolver.cc:105-136", "ddecal/gain_solvers/SolverBase.h:274-285", "ddecal/gain_solvers/SolverBase.cc:192-204"]}
{"id": "C222", "title": "The antenna solver minimizes the squared differences of data and model with gains, with exact derivatives", "statement": "For a direction, the antenna solver makes GSL minimize the sum over visibilities of the squared difference of the data and the model multiplied by the gain of the first antenna and the conjugated gain of the second one, per polarization. The first and second derivatives in a direction that it gives to GSL are those of this function.", "quantifier": "for all visibilities, gains, changes of the gains and step lengths", "why_tests_cant": "There is no unit test of this solver; a test would compare derivatives by finite differences in a few points only.", "anchors": ["ddecal/gain_solvers/DiagonalAntennaSolver.cc:385-450", "ddecal/gain_solvers/DiagonalAntennaSolver.cc:535-577"]}
{"id": "C223", "title": "The gradient of the antenna solver is that of its cost", "statement": "The product with the transposed derivative that the antenna solver gives to GSL is the transpose of the derivative, so that GSL's gradient is that of the cost, and solutions with which the model is equal to the data are kept.", "quantifier": "for all visibilities, gains, vectors of residuals and changes of gains", "why_tests_cant": "An iterative solver may find a solution for the data of a test with a wrong gradient; only the equality for all vectors shows that it is the transpose.", "anchors": ["ddecal/gain_solvers/DiagonalAntennaSolver.cc:452-491", "ddecal/gain_solvers/DiagonalAntennaSolver.cc:41-55"]}
{"id": "C224", "title": "The normal matrix of the antenna solver is the product of the transposed derivative and the derivative", "statement": "The matrix that the antenna solver gives to GSL is symmetric and positive semidefinite, and its quadratic form is the squared length of the derivative in a direction.", "quantifier": "for all visibilities, gains and changes of gains", "why_tests_cant": "A wrong matrix changes the steps, not the point where iterations end; tests see only the latter.", "anchors": ["ddecal/gain_solvers/DiagonalAntennaSolver.cc:493-533", "ddecal/gain_solvers/DiagonalAntennaSolver.cc:57-107"]}
{"id": "C225", "title": "The antenna solver stays within the vectors of GSL for every solution of a direction", "statement": "For every solution of a direction, the functions of the antenna solver use only elements that the vectors allocated by GSL have, and the function sets all of them.", "quantifier": "for all lists of visibilities and their solution indices", "why_tests_cant": "It depends on the order and number of visibilities per solution; tests have a few.", "anchors": ["ddecal/gain_solvers/DiagonalAntennaSolver.cc:317-383", "ddecal/gain_solvers/DiagonalAntennaSolver.cc:16-32", "ddecal/gain_solvers/SolveData.cc:347-360"]}
{"id": "C226", "title": "The antenna solver stops when solutions have converged and says so", "statement": "The loop of the antenna solver ends after the first iteration that has converged solutions and satisfied constraints, or stalls, or is the last one allowed, and the number of iterations in the result tells whether solutions converged.", "quantifier": "for all sequences of outcomes of the iterations", "why_tests_cant": "A test sees only the solutions, which are the same when the loop goes on for too long.", "anchors": ["ddecal/gain_solvers/DiagonalAntennaSolver.cc:171-205", "ddecal/gain_solvers/SolverBase.h:274-285"]}
{"id": "C227", "title": "The low rank solver uses flags and weights of the data as DDECal prepares them", "statement": "With the data as DDECal prepares them, the correlation that the low rank solver finds for a pair of antennas is the least squares solution with the weights of the data, and flagged visibilities do not influence the solutions.", "quantifier": "for all visibilities, flags, weights, data and model values", "why_tests_cant": "The preparation and the solver are tested separately, the solver with data that are not flagged and have equal weights.", "anchors": ["ddecal/gain_solvers/SolverTools.cc:81-167", "steps/DDECal.cc:643-647", "ddecal/gain_solvers/SolveData.cc:146-177", "ddecal/gain_solvers/DiagonalLowRankSolver.cc:17-33", "ddecal/gain_solvers/DiagonalLowRankSolver.cc:249-322"]}
{"id": "C228", "title": "Piece-wise phase fits give every channel the line of a window that has it", "statement": "A sliding fit gives every channel the value of the line that is fitted to the window with the channel in its middle, or at the edges to the first or last window. A fit with a break does so for the channels before and from the break. A fit in pieces uses a window that has the channel. All windows are in the data, and nothing but the channels of the data is written.", "quantifier": "for all numbers of channels, window sizes, fits of lines, data and contents of the output", "why_tests_cant": "Tests use a few numbers of channels and window sizes; errors at the edges or for windows larger than the data show only for other ones.", "anchors": ["ddecal/constraints/PieceWisePhaseFitter.h:60-176", "ddecal/constraints/PieceWisePhaseFitter.h:206-223", "ddecal/constraints/PieceWisePhaseFitter.h:359-376"]}
{"id": "C229", "title": "The weighted median is a value with at most half of the weight on each side", "statement": "The weighted median of values with non-negative weights is one of the values, of which at most half of the weight is smaller and at most half is larger. If there is any weight, it is a value that has weight. Nothing outside the list is read.", "quantifier": "for all non-empty lists of values with non-negative weights", "why_tests_cant": "Ties, zero weights and weight sums at exactly a half are what matters; tests have a few lists.", "anchors": ["ddecal/constraints/PieceWisePhaseFitter.h:178-204"]}
{"id": "C230", "title": "The line of a window is the weighted least squares fit to the phases", "statement": "The offset and slope that fitSlope gives have the smallest weighted sum of squares of all lines, for values that are equal to the phases up to a turn. They are finite.", "quantifier": "for all phases, frequencies and non-negative weights", "why_tests_cant": "A test compares with known lines, not with all other lines, and does not try all combinations of zero weights.", "anchors": ["ddecal/constraints/PieceWisePhaseFitter.h:233-282", "ddecal/constraints/PieceWisePhaseFitter.h:297-357", "ddecal/constraints/TecConstraint.cc:136-190"]}
{"id": "C231", "title": "The fit recovers a line from phases that are wrapped", "statement": "When the phases with a weight are those of a line, wrapped, that changes by less than half a turn in the window, fitSlope gives this line up to a number of turns, whatever the offset, and independent of the values without weight.", "quantifier": "for all offsets, slopes, frequencies, weights and values without weight between -pi and pi", "why_tests_cant": "Where the wrap falls depends on the offset; tests try a few offsets.", "anchors": ["ddecal/constraints/PieceWisePhaseFitter.h:297-357", "ddecal/constraints/TecConstraint.cc:159-178"]}
{"id": "C232", "title": "The first guess for the phases of a window is the quarter turn with the most weight", "statement": "fitSlope first wraps the phases to the centre of the quarter of a turn which has the largest sum of weights.", "quantifier": "for all phases and non-negative weights", "why_tests_cant": "The line that is fitted in the end mostly does not depend on the first guess, so that tests do not see it.", "anchors": ["ddecal/constraints/PieceWisePhaseFitter.h:240-256", "ddecal/constraints/PieceWisePhaseFitter.h:302-317"]}
{"id": "C233", "title": "The solver that DDECal creates fits the mode", "statement": "A solver that is created, and every stage of a hybrid one, has as many polarizations as the mode, solves for phases only exactly in the phase modes, and has the general constraints that are set followed by those of the mode. The first stage of a hybrid solver has a sixth of the iterations but at least one. Creation gives a solver or throws.", "quantifier": "for all modes, algorithms, uses of data, numbers of iterations, settings of constraints and ways to build DP3", "why_tests_cant": "There are thousands of combinations, and the check of the number of polarizations is an assert; tests create a few solvers.", "anchors": ["ddecal/SolverFactory.cc:49-340", "ddecal/SolverFactory.cc:504-528", "base/CalType.h:37-61"]}
{"id": "C234", "title": "A solver that is created can solve the data for which it was created", "statement": "When a solver is created for settings, the data that DDECal makes for these settings are ones for which the solver has a function Solve; settings that cannot work are refused when the solver is created.", "quantifier": "for all modes, algorithms, uses of data and ways to build DP3", "why_tests_cant": "Unit tests call a solver with the type of data it has, not with the one that DDECal makes for the settings.", "anchors": ["ddecal/SolverFactory.cc:49-174", "ddecal/gain_solvers/SolverBase.h:205-227", "steps/DDECal.cc:653-702", "steps/BdaDdeCal.cc:648-674"]}
{"id": "C235", "title": "A request for a GPU is honoured or refused", "statement": "With usegpu=true a solver is created that uses the GPU and works, or an exception tells that there is none.", "quantifier": "for all modes, algorithms, uses of data and ways to build DP3", "why_tests_cant": "Tests of the GPU solver construct it themselves, and need a GPU.", "anchors": ["ddecal/SolverFactory.cc:86-109", "ddecal/SolverFactory.cc:49-84", "ddecal/SolverFactory.cc:148-174"]}
{"id": "C236", "title": "Model weights reach all constraints of the solver", "statement": "With model_weighted_constraints, every constraint that is applied while solving gets the weights that follow from the model.", "quantifier": "for all modes, algorithms and settings of constraints", "why_tests_cant": "Tests of constraints set weights themselves, and tests of the solvers use no constraint that has weights.", "anchors": ["ddecal/gain_solvers/SolverBase.cc:437-442", "ddecal/gain_solvers/HybridSolver.h:57-62", "steps/DDECal.cc:616-621", "steps/DDECal.cc:653-702", "ddecal/SolverFactory.cc:504-528"]}
{"id": "C237", "title": "An AARTFAAC file gives the block at its position", "statement": "After any sequence of skips, seeks, reads and reads of meta data, ReadTimestep returns the header and data of the block whose number is BlockPos and goes to the next one, and throws exactly when there is no such block. ReadMetadata returns the header of that block, and changes nothing.", "quantifier": "for all files, sizes of blocks and sequences of calls", "why_tests_cant": "There is no test of this class; a test would try a few sequences.", "anchors": ["aartfaac/File.h:69-96"]}
{"id": "C238", "title": "All time steps of an AARTFAAC file are read", "statement": "Without ntimes the reader sends every block of the file to the next step, and then finishes; with ntimes it sends at most that many. The number of time steps that it reports is that of the file.", "quantifier": "for all files, numbers of blocks, sizes and settings of ntimes", "why_tests_cant": "Whether it holds depends on the ratio of the sizes of file and headers, which is different for small files in a test and large ones.", "anchors": ["aartfaac/File.h:98-100", "aartfaac/File.h:79-87", "steps/AartfaacReader.cc:193-231"]}
{"id": "C239", "title": "Files that are no AARTFAAC files are refused", "statement": "A file that does not start with the magic number, or has another correlation mode than 15, is refused with a message.", "quantifier": "for all headers", "why_tests_cant": "A test with valid files always passes.", "anchors": ["aartfaac/PacketHeader.h:78", "aartfaac/PacketHeader.h:117-139", "aartfaac/PacketHeader.h:166"]}
{"id": "C240", "title": "The meta data of AARTFAAC input are consistent", "statement": "The channel frequencies that the next steps get are those in the spectral window table, and the times in the meta data are those of the buffers. The exposure is the integration time in the header of the block, and weights are its product with the channel width.", "quantifier": "for all headers and channels", "why_tests_cant": "There is no reference to compare the frequencies with, and both are plausible by themselves.", "anchors": ["steps/AartfaacReader.cc:82-91", "steps/AartfaacReader.cc:158-165", "steps/AartfaacReader.cc:196-202", "steps/AartfaacReader.cc:228-230", "steps/AartfaacReader.cc:243-256", "aartfaac/File.h:24-26"]}
{"id": "C241", "title": "AARTFAAC data that are not finite are flagged", "statement": "Channels with a visibility that is not finite are flagged for all polarizations and set to zero; others are not flagged and only change phase by the delay correction.", "quantifier": "for all visibilities, angles and numbers of polarizations", "why_tests_cant": "Values that are not finite are rare in data for tests, and in the imaginary part only even more so.", "anchors": ["steps/AartfaacReader.cc:203-213", "steps/AartfaacReader.cc:128-146", "steps/AartfaacReader.cc:218-223"]}
{"id": "C242", "title": "The AARTFAAC reader stays within its arrays", "statement": "Processing a block reads and writes only elements that exist, whatever fields the other steps need. The meta data for other steps have all pairs of antennas in the order of the file.", "quantifier": "for all headers, fields that are needed and blocks", "why_tests_cant": "Reads past the end need not be visible in a test, and there is none for this reader.", "anchors": ["steps/AartfaacReader.cc:172-223", "steps/AartfaacReader.cc:128-131", "steps/AartfaacReader.cc:348-352", "steps/AartfaacReader.cc:96-112", "steps/Step.cc:57-69", "base/DPInfo.cc:31-60"]}
{"id": "C243", "title": "Antenna positions are those in the AARTFAAC configuration", "statement": "All arrays of a well-formed configuration file are found under their name or band and name, with the values of the file to which the offsets are added. The antennas get the first of their two positions in the field that belongs to the mode, and another number of antennas than in the header is refused.", "quantifier": "for all well-formed files, numbers of arrays and dimensions, modes and numbers of antennas", "why_tests_cant": "Tests parse one file with four antennas.", "anchors": ["aartfaac/AntennaConfig.h:63-149", "aartfaac/AntennaConfig.h:196-258", "steps/AartfaacReader.cc:77", "steps/AartfaacReader.cc:92-112", "base/DPInfo.cc:258-260"]}
{"id": "C244", "title": "Bad AARTFAAC configurations are refused", "statement": "When the configuration does not give a position for each antenna in the file, or the mode does not exist, an exception is thrown.", "quantifier": "for all files and modes", "why_tests_cant": "Tests use a valid configuration file.", "anchors": ["aartfaac/AntennaConfig.h:136-149", "aartfaac/AntennaConfig.h:100-115", "base/RcuMode.h:85-108"]}
{"id": "C245", "title": "The table of flagged baselines is complete", "statement": "The table has pages of 15 antennas, in which each antenna that occurs in a baseline is once and in order. Each pair of these has one cell, which has the percentage, rounded to the nearest, of the flagged visibilities of all baselines between them, and is empty when there are none. No element outside the vectors is read.", "quantifier": "for all sets of baselines, numbers of antennas and counts", "why_tests_cant": "The loops that pass used antennas stop only if there are enough; tests compare the output for one set of baselines.", "anchors": ["base/FlagCounter.cc:143-244"]}
{"id": "C246", "title": "The list of fully flagged baselines is right", "statement": "The list has exactly the pairs of antennas for which there is a baseline, and all visibilities of all baselines between them are flagged, once and with the smaller antenna first.", "quantifier": "for all sets of baselines and counts", "why_tests_cant": "Tests have one baseline per pair of antennas and at least one time slot.", "anchors": ["base/FlagCounter.cc:149", "base/FlagCounter.cc:216-221", "base/FlagCounter.cc:258-265"]}
{"id": "C247", "title": "Warnings tell which channels are flagged too much", "statement": "A warning is shown exactly for channels of which at least warnperc percent is flagged, with the percentage. The total is the sum over channels.", "quantifier": "for all counts and percentages", "why_tests_cant": "Tests do not set warnperc.", "anchors": ["base/FlagCounter.cc:271-317", "base/FlagCounter.cc:342-356"]}
{"id": "C248", "title": "Saved percentages have a name of their own", "statement": "The tables with percentages are in the given path or that of the Measurement Set, and their names consist of the names of the Measurement Set and the step. Different Measurement Sets have different tables.", "quantifier": "for all names of Measurement Sets, paths and steps", "why_tests_cant": "Tests use one Measurement Set.", "anchors": ["base/FlagCounter.cc:36-59", "base/FlagCounter.cc:72-74", "base/FlagCounter.cc:375", "base/FlagCounter.cc:399"]}
{"id": "C249", "title": "Messages from a socket do not depend on chunks", "statement": "However the operating system cuts the stream into chunks, receiving messages of given sizes gives exactly the bytes that were sent for each, and leaves the bytes behind the last one. When the stream ends inside a message, this and all later ones are errors.", "quantifier": "for all messages, all ways to cut the stream, and all bytes behind them", "why_tests_cant": "The chunks depend on the scheduling of sender and receiver; a test sees one of them.", "anchors": ["steps/SVPInput.cc:556-597"]}
{"id": "C250", "title": "Flags that are sent are set in the buffer", "statement": "When the sender gives flags for a time slot, the visibilities of the buffer are flagged according to them.", "quantifier": "for all streams of ALMA data", "why_tests_cant": "The step needs a server, so no test of it exists.", "anchors": ["steps/SVPInput.cc:74-98", "steps/SVPInput.cc:207-213"]}
{"id": "C251", "title": "Visibilities from a socket are stored where they belong", "statement": "The visibility of a baseline, channel and correlation is the pair of 16 or 32 bit integers at its place in the message, divided by the scale factor; incomplete messages are refused, and other formats too.", "quantifier": "for all numbers of baselines, channels and correlations, and all messages", "why_tests_cant": "The loops treat correlations one by one, for two and four of them.", "anchors": ["steps/SVPInput.cc:100-187"]}
{"id": "C252", "title": "Meta data from a socket are complete", "statement": "Meta data that are sent properly are received as sent, with nothing behind them taken from the stream. Streams that end before the last item are refused with an exception.", "quantifier": "for all streams", "why_tests_cant": "There are about twenty items of which only the last result is tested.", "anchors": ["steps/SVPInput.cc:238-327", "steps/SVPInput.cc:401", "steps/SVPInput.h:32-35"]}
{"id": "C253", "title": "A socket that closes too early is noticed", "statement": "All complete time slots are sent to the next step, with the right times, and the run ends with an exception exactly when there are fewer than announced. Each telescope that is accepted can be processed.", "quantifier": "for all streams and numbers of time slots", "why_tests_cant": "Requires a server that fails at each possible moment.", "anchors": ["steps/SVPInput.cc:60-71", "steps/SVPInput.cc:188-205", "steps/SVPInput.cc:250-262"]}
{"id": "C254", "title": "The baselines of socket input are complete", "statement": "Each pair of different antennas is one baseline, in one order only; auto-correlations are there except for ALMA. The vectors of antennas are filled completely and not overrun.", "quantifier": "for all numbers of antennas", "why_tests_cant": "The size is calculated apart from the loops that fill the vectors.", "anchors": ["steps/SVPInput.cc:342-369"]}
{"id": "C255", "title": "ParmDB objects share open tables safely", "statement": "However ParmDB objects are opened, copied, assigned and destroyed, objects for one table name share one set of open tables, which is closed when the last object is destroyed and not before; nothing that was deleted is used and no destructor throws. A table asked for as a new one is new.", "quantifier": "for all sequences of opening, copying, assigning and destroying", "why_tests_cant": "The registry reuses entries in an order that depends on the history of all objects in the process.", "anchors": ["parmdb/ParmDB.cc:97-165", "parmdb/ParmDB.h:33-37", "parmdb/ParmDBCasa.cc:48-52"]}
{"id": "C256", "title": "Parameter values are read as they were stored", "statement": "Values of a parameter that are read back for a domain are those that were put for this parameter last, and those of no other parameter, whatever is put and deleted in between.", "quantifier": "for all sequences of putting, replacing and deleting values", "why_tests_cant": "Values are linked to names by row numbers that deletions could shift.", "anchors": ["parmdb/ParmDBCasa.cc:285-369", "parmdb/ParmDBCasa.cc:385-494", "parmdb/ParmDBCasa.cc:647-674"]}
{"id": "C257", "title": "A ParmDB can be used after its tables are cleared", "statement": "After clearTables a ParmDB is like a new one: it has no values and no default values, and new ones can be stored and read.", "quantifier": "for all contents before, and everything stored afterwards", "why_tests_cant": "Only visible with a sequence of calls that no test makes.", "anchors": ["parmdb/ParmDBCasa.cc:149-155", "parmdb/ParmDBCasa.cc:530-560"]}
{"id": "C258", "title": "Updating a value replaces that value", "statement": "A value that was read and is put again, replaces the stored value it was read from, with its domain, and no other one.", "quantifier": "for all tables, and all deletions between reading and putting", "why_tests_cant": "Row numbers are kept outside the table.", "anchors": ["parmdb/ParmDBCasa.cc:407-446", "parmdb/ParmDBCasa.cc:647-674"]}
{"id": "C259", "title": "A parameter has one name entry", "statement": "When two users of one ParmDB store values of the same new parameter, both sets of values can be read.", "quantifier": "for all orders in which the users read and store", "why_tests_cant": "Needs two ParmSets on one ParmDB.", "anchors": ["parmdb/ParmDBCasa.cc:448-494", "parmdb/ParmSet.cc:22-97"]}
{"id": "C260", "title": "The default value is that of the most specific category", "statement": "The default value of a parameter is the one stored for its own name, else the one of the longest prefix of its name, cut at a colon, that has one, else the given value; changes of default values have effect at once.", "quantifier": "for all names, and all sequences of changes", "why_tests_cant": "The values are kept in a map that is filled on first use.", "anchors": ["parmdb/ParmDB.cc:40-69", "parmdb/ParmDBCasa.cc:562-645", "parmdb/ParmDBCasa.cc:676-698"]}
{"id": "C261", "title": "Each time slot is imaged once", "statement": "The image step makes images of consecutive groups of time slots, of which the length is the cadence rounded to whole time slots. Each time slot is in exactly one image, baseline by baseline, with weight zero where data are flagged, and is sent on unchanged.", "quantifier": "for all cadences, numbers of time slots, baselines and data", "why_tests_cant": "The step needs WSClean, and no test of it looks at what is given to it.", "anchors": ["steps/ImageStep.cc:33-47", "steps/ImageStep.cc:74-118", "steps/ImageStep.cc:161-190"]}
{"id": "C262", "title": "Antennas of an image have their own names", "statement": "The antenna numbers in the rows of the in-memory measurement set refer to the names of these antennas in its list of names.", "quantifier": "for all lists of antennas and baselines", "why_tests_cant": "Test data use all antennas.", "anchors": ["steps/ImageStep.cc:138", "steps/ImageStep.cc:170-171", "base/DPInfo.cc:273-291", "base/DPInfo.cc:454-461"]}
{"id": "C263", "title": "Images have different, sorted names", "statement": "The images of a run get different names that sort in the order of the images.", "quantifier": "for all prefixes and numbers of images", "why_tests_cant": "A wrong order shows after 100000 images only, and equal names leave one image.", "anchors": ["steps/ImageStep.cc:98-100", "steps/ImageStep.cc:192-201"]}
{"id": "C264", "title": "Time ranges of the preflagger match what they say", "statement": "A range a..b of times of the day, azimuths or elevations matches what lies between a and b, over midnight if b is before a. A range c+-p matches what differs less than p from c on the circle of a day. Ranges of absolute and relative times match without wrapping, and are refused if they end before they start. A list of ranges matches what one of them matches.", "quantifier": "for all texts, values and times", "why_tests_cant": "The tests use a few ranges within a day; the wrapping has many cases.", "anchors": ["steps/PreFlagger.cc:602-610", "steps/PreFlagger.cc:957-1011", "steps/PreFlagger.cc:1013-1035"]}
{"id": "C265", "title": "Channel selection of the preflagger", "statement": "A channel is selected exactly if it is in one of the given channel numbers or ranges, if there are any, and in one of the frequency ranges, if there are any. Numbers beyond the last channel do no harm; ranges without start or end or in reverse are refused.", "quantifier": "for all lists of channel expressions and frequency ranges, and all channels", "why_tests_cant": "Combinations of lists with values at and behind the last channel are too many for tests.", "anchors": ["steps/PreFlagger.cc:331-392"]}
{"id": "C266", "title": "Frequency ranges and their units", "statement": "Each value of a frequency range has its own unit, or else that of the other value, or else MHz; a..b selects the frequencies between them and c+-w those less than w from c. Ranges that make no sense are refused.", "quantifier": "for all numbers, units and frequencies", "why_tests_cant": "The test uses one combination of units.", "anchors": ["steps/PreFlagger.cc:1072-1138"]}
{"id": "C267", "title": "Transfer refuses a source with other stations", "statement": "The transfer step accepts a source measurement set exactly if its stations are stations of the target; otherwise there is an exception.", "quantifier": "for all lists of stations", "why_tests_cant": "The tests use one pair of measurement sets.", "anchors": ["steps/Transfer.cc:268-287"]}
{"id": "C268", "title": "Transfer leaves the rest of the data defined", "statement": "Baselines that are not transferred keep their data, or are zero in a new array.", "quantifier": "for all selections of baselines, data, and names of the result", "why_tests_cant": "The contents of new memory differ from run to run.", "anchors": ["steps/Transfer.cc:219-234", "base/DPBuffer.cc:119-123"]}
{"id": "C269", "title": "An update replaces flagged values exactly in compressed columns", "statement": "When data or weights are updated, flagged values are replaced (by NaN or zero) if the column is stored with Dysco, as they would spoil the range of the compression, and are kept in all other columns.", "quantifier": "for all storage managers of old and new columns, settings, sets of written fields, flags and values", "why_tests_cant": "A test has one measurement set and one way of storage, and looks at data that are not flagged.", "anchors": ["steps/MSUpdater.cc:72-168", "steps/MSUpdater.cc:181-222", "steps/MSUpdater.cc:240-246"]}
{"id": "C270", "title": "An update follows the settings of the storage manager", "statement": "A new column of data or weights is compressed exactly if Dysco is asked for and the bit rate of that column is not zero; an unknown storage manager is refused.", "quantifier": "for all settings and measurement sets", "why_tests_cant": "Settings are not tested in combination.", "anchors": ["steps/MSUpdater.cc:83-93", "base/StManParsetKeys.h:48-51", "base/StManParsetKeys.h:96-108", "base/StManParsetKeys.h:128-144"]}
{"id": "C271", "title": "A prediction follows a moving phase centre", "statement": "Each time slot is predicted with the phase centre at its time as phase reference, by the normal and by the fast prediction.", "quantifier": "for all phase centres, fixed or moving, and all time slots", "why_tests_cant": "Test data have a fixed phase centre.", "anchors": ["steps/FastPredict.cc:280-310", "steps/FastPredict.cc:417-440", "steps/FastPredict.cc:626-635", "steps/FastPredict.cc:675-743", "steps/OnePredict.cc:284-307", "steps/OnePredict.cc:487-496", "steps/OnePredict.cc:584-587"]}
{"id": "C272", "title": "A prediction is made for the baselines of the measurement set", "statement": "Each baseline is predicted for its own pair of antennas, as given by the last information that the step got.", "quantifier": "for all lists of baselines, given any number of times", "why_tests_cant": "Tests set the information of a step once.", "anchors": ["steps/FastPredict.cc:412-415", "steps/OnePredict.cc:279-282"]}
{"id": "C273", "title": "The fast prediction fills all correlations", "statement": "Unpolarized sources give Stokes I in the parallel hands and zero in the cross hands, and polarized ones give all correlations, for any number of correlations.", "quantifier": "for all numbers of correlations and predicted values", "why_tests_cant": "Tests have four correlations.", "anchors": ["steps/FastPredict.cc:568-603", "steps/FastPredict.cc:643-651"]}
{"id": "C274", "title": "An update uses the row numbers of the measurement set that is updated", "statement": "When a chain updates a measurement set, the row numbers in the buffers belong to that measurement set.", "quantifier": "for all lists of steps, with any number of output steps, and all names of measurement sets", "why_tests_cant": "Tests have at most one output step before the last one.", "anchors": ["base/DP3.cc:107-165", "base/DP3.cc:498-547", "base/DP3.cc:562-617", "steps/MSWriter.cc:205-226", "steps/MSUpdater.cc:257-264"]}
{"id": "C275", "title": "A chain is created exactly if its steps fit together", "statement": "If a chain of steps is created, each step can process the type of data that it gets, and chains of which all steps can do so are created.", "quantifier": "for all lists of steps and both types of input", "why_tests_cant": "Tests make few combinations of steps for regular and BDA data.", "anchors": ["base/DP3.cc:141-161", "base/DP3.cc:586-602", "steps/Step.h:136-139", "steps/MsColumnReader.h:51", "steps/MSBDAWriter.h:22-38"]}
{"id": "C276", "title": "A step has the type of its name without number", "statement": "A step for which no type is given has the type of its name without the digits at its end, in lower case; other types are refused.", "quantifier": "for all names and types", "why_tests_cant": "Tests use few names.", "anchors": ["base/DP3.cc:167-270", "base/DP3.cc:577-595"]}
{"id": "C277", "title": "A named output is always made", "statement": "If the user specifies the name of an output, it is written or updated.", "quantifier": "for all lists of steps and names", "why_tests_cant": "Tests end with few types of steps.", "anchors": ["base/DP3.cc:103-106", "base/DP3.cc:531-547", "steps/NullStep.h:15", "steps/WSCleanWriter.h:29"]}
{"id": "C278", "title": "The file system of a file is that of the longest mount point", "statement": "A node gives for a file the file system of the longest mount point that contains it, else the root file system, else none, for all mount points that can be specified.", "quantifier": "for all lists of mount points and all absolute file names", "why_tests_cant": "Tests have few mount points.", "anchors": ["common/NodeDesc.cc:48-108"]}
{"id": "C279", "title": "The maps of a cluster description fit its nodes", "statement": "Node names in a cluster are distinct, each node that was added is found by its name, duplicates are refused where they are not allowed, and a file system is mapped to the nodes that have it.", "quantifier": "for all sequences of added nodes", "why_tests_cant": "Tests have few nodes.", "anchors": ["common/ClusterDesc.cc:87-125", "common/ClusterDesc.cc:138-142", "common/ClusterDesc.cc:156-188"]}
{"id": "C280", "title": "Times in a description of a data set are the same after writing and reading", "statement": "The start and end times of the time slots in a VDS file are read as they were given.", "quantifier": "for all start times, steps and lists of times", "why_tests_cant": "Tests have few time slots and round steps.", "anchors": ["common/VdsPartDesc.cc:22-53", "common/VdsPartDesc.cc:55-94"]}
{"id": "C281", "title": "A combined description covers its parts", "statement": "The global description has each band of each part, with its start and end frequency, and the time range of the parts with data; it is refused if no part has data.", "quantifier": "for all lists of parts and bands", "why_tests_cant": "Tests combine few parts.", "anchors": ["common/VdsMaker.cc:305-373", "common/VdsPartDesc.cc:142-151"]}
{"id": "C282", "title": "The description of a measurement set has its bands and fields", "statement": "The bands are those of the spectral windows to which the data belong, and there is a direction for each field.", "quantifier": "for all tables of data descriptions, spectral windows and fields", "why_tests_cant": "Test data have one spectral window and one field.", "anchors": ["common/VdsMaker.cc:51-85"]}
{"id": "C283", "title": "A value printed with a unit prefix is the value", "statement": "The number printed, times the power of ten of the SI prefix printed, is the value; the number has one to three digits before the point unless the value is out of the range of the prefixes.", "quantifier": "for all values", "why_tests_cant": "Tests print a few values.", "anchors": ["common/PrettyUnits.cc:17-31"]}
{"id": "C284", "title": "The memory to use respects what the user gives", "statement": "A percentage outside 0 to 100 is refused. The memory is positive, at most the given amount and the given percentage, with clip at most that of the system; by default it is all but half of it or 2 GB.", "quantifier": "for all amounts, percentages and systems", "why_tests_cant": "Tests depend on the memory of the machine.", "anchors": ["common/Memory.cc:19-54"]}
{"id": "C285", "title": "A flush of the parameter cache writes what changed", "statement": "Each value set that is dirty is written once, others are not written, and none is dirty afterwards.", "quantifier": "for all sets of values", "why_tests_cant": "Tests flush few parameters.", "anchors": ["parmdb/ParmCache.cc:43-52"]}
{"id": "C286", "title": "A flush of the parameter cache is done under one lock", "statement": "From the first write to the last, the lock on the ParmDB is not released, so that another process does not see a part of the values.", "quantifier": "for all sets of values", "why_tests_cant": "Tests do not have another process.", "anchors": ["parmdb/ParmCache.cc:43-52", "parmdb/ParmDBLocker.cc:13-29"]}
{"id": "C287", "title": "The id of a parameter in a ParmSet is that of its name and ParmDB", "statement": "addParm returns the id of a parameter with the given name in the given ParmDB; names are unique, and ids given before stay the same.", "quantifier": "for all sequences of additions", "why_tests_cant": "Tests use one ParmDB.", "anchors": ["parmdb/ParmSet.cc:14-38"]}
{"id": "C288", "title": "Each new parameter gets its values once", "statement": "getValues fills each parameter that was added since the last call, once and from its own ParmDB, and leaves the others as they are.", "quantifier": "for all sequences of additions and numbers of values present", "why_tests_cant": "Tests have few parameters in one ParmDB.", "anchors": ["parmdb/ParmSet.cc:47-91"]}
