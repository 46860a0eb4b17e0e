# Formal model of DP3 in Lean 4

This directory holds a Lean 4 model of parts of DP3 (`/repo`, C++), the
properties a DP3 user relies on (`properties.jsonl`), and machine-checked proofs.

## Layout

* `lean/Verif/<Topic>/Model.lean`: definitions that follow the C++ code, each with the file and lines it models.
* `lean/Verif/<Topic>/Spec.lean` (or the head of `Props.lean`): small specifications written without the model's helpers.
* `lean/Verif/<Topic>/Lemmas.lean`: helper lemmas.
* `lean/Verif/<Topic>/Props.lean`: the property theorems, each followed by a concrete example that meets its hypotheses.
* `MANIFEST.json`: property -> theorem names and status.
* `seeded/LOG.jsonl`: record of deliberately broken models and which theorems caught them.

## Trusted base

* Lean 4.33.0 kernel, and the standard axioms `propext`, `Classical.choice`, `Quot.sound` only.
  No `sorry`, no added axioms, no `native_decide`/`bv_decide`.
* The reading of the C++ code: the model was transcribed by hand from `/repo` at the pinned commit; nothing was compiled or run.
* Conventions used throughout:
  * Floating point numbers are modelled by elements of an (ordered) field, so rounding is not modelled. Comparisons with a tolerance are modelled as exact comparisons or as parameters, as stated at each definition.
  * Machine integers are modelled by `Nat`/`Int` without overflow unless a definition says otherwise.
  * Reads or writes outside an array, and other undefined behaviour, are explicit outcomes (`none` or a constructor) where the code can reach them.
  * Logging, timers and I/O to casacore tables are not modelled; a measurement set is a list of time slots.
  * Threads: work distribution is modelled by arbitrary orders/interleavings where a property speaks about it.

## Modelled code

Generated from the citations in the Lean files. The lines cited by the definitions of a topic are modelled, with the simplifications that the header of its model and the comment of each definition state; the other lines of these files are not modelled.

* `aartfaac/AntennaConfig.h` (Aartfaac): definitions cite 145 of 270 lines
* `aartfaac/File.h` (Aartfaac): definitions cite 68 of 136 lines
* `aartfaac/PacketHeader.h` (Aartfaac): definitions cite 28 of 173 lines
* `antennaflagger/Flagger.cc` (AntennaFlagger): definitions cite 201 of 257 lines
* `base/Apply.cc` (ApplyCal, Estimate): definitions cite 60 of 76 lines
* `base/BaselineSelection.cc` (BaselineSelection): definitions cite 193 of 355 lines
* `base/BdaBuffer.cc` (BdaAverager, BdaBuffer, BdaDdeCal, BdaMs): definitions cite 150 of 224 lines
* `base/BdaBuffer.h` (BdaAverager, BdaBuffer, BdaDdeCal, BdaGroup, BdaMs, ScaleData): definitions cite 65 of 247 lines
* `base/CalType.cc` (InitialSol): definitions cite 80 of 93 lines
* `base/CalType.h` (InitialSol, Rotation, SolWriter, SolverChoice): definitions cite 46 of 66 lines
* `base/Cursor.h` (Estimate): definitions cite 32 of 178 lines
* `base/CursorUtilCasa.h` (Estimate): definitions cite 9 of 33 lines
* `base/DP3.cc` (BdaMs, Chain, MakeSteps, MsOutput, SvpInput): definitions cite 327 of 630 lines
* `base/DPBuffer.cc` (DPBuffer, DdeCal, ImagePredict, Transfer): definitions cite 125 of 209 lines
* `base/DPBuffer.h` (DPBuffer, DynSpec, ImagePredict, PredictStep): definitions cite 219 of 317 lines
* `base/DPInfo.cc` (Aartfaac, BdaMs, DPInfo, DemixTimes, ImageStep, MsReader, WscWriter): definitions cite 387 of 515 lines
* `base/DPInfo.h` (Aartfaac, BdaGroup, BdaMs, DPInfo, PhaseShift): definitions cite 86 of 402 lines
* `base/Direction.h` (FastPredict, PhaseShift): definitions cite 14 of 36 lines
* `base/EstimateMixed.cc` (Estimate): definitions cite 236 of 290 lines
* `base/EstimateMixedLBFGS.cc` (Robust): definitions cite 373 of 487 lines
* `base/FlagCounter.cc` (FlagCounter, FlagReport): definitions cite 185 of 415 lines
* `base/FlagCounter.h` (ApplyCal, FlagCounter): definitions cite 11 of 109 lines
* `base/GainCalAlgorithm.cc` (GainCal): definitions cite 493 of 550 lines
* `base/GainCalAlgorithm.h` (GainCal): definitions cite 35 of 124 lines
* `base/GaussianSource.h` (Simulator): definitions cite 7 of 67 lines
* `base/PhaseFitter.cc` (Tec): definitions cite 171 of 201 lines
* `base/PhaseFitter.h` (Tec): definitions cite 11 of 290 lines
* `base/PointSource.cc` (Simulator): definitions cite 49 of 113 lines
* `base/PointSource.h` (Simulator): definitions cite 9 of 91 lines
* `base/PredictBuffer.h` (PredictStep): definitions cite 17 of 62 lines
* `base/RcuMode.h` (Aartfaac): definitions cite 32 of 151 lines
* `base/Simulate.cc` (PhaseShift, UvwSplit): definitions cite 227 of 260 lines
* `base/Simulator.cc` (PhaseShift, Simulator): definitions cite 398 of 555 lines
* `base/Simulator.h` (Simulator): definitions cite 26 of 218 lines
* `base/StManParsetKeys.h` (UpdateStorage): definitions cite 66 of 172 lines
* `base/Stokes.h` (Simulator): definitions cite 6 of 29 lines
* `base/SubtractMixed.cc` (Demix, Estimate): definitions cite 61 of 78 lines
* `base/Telescope.cc` (ApplyBeam): definitions cite 33 of 53 lines
* `common/ClusterDesc.cc` (Cluster): definitions cite 75 of 209 lines
* `common/ClusterDesc.h` (Cluster): definitions cite 3 of 105 lines
* `common/DynSpecFitsWriter.h` (DynSpec): definitions cite 7 of 260 lines
* `common/Fields.h` (Chain): definitions cite 21 of 134 lines
* `common/Median.h` (MadFlagger): definitions cite 15 of 36 lines
* `common/Memory.cc` (Units): definitions cite 36 of 58 lines
* `common/NodeDesc.cc` (Cluster): definitions cite 60 of 127 lines
* `common/ParameterSetImpl.cc` (ParamSet): definitions cite 230 of 661 lines
* `common/ParameterSetImpl.h` (ParamSet): definitions cite 2 of 544 lines
* `common/ParameterValue.cc` (ParamValue, StringTools): definitions cite 124 of 328 lines
* `common/ParameterValue.h` (StringTools): definitions cite 1 of 134 lines
* `common/PhaseLineFitter.h` (PhaseLine): definitions cite 125 of 192 lines
* `common/PrettyUnits.cc` (Units): definitions cite 7 of 35 lines
* `common/ProximityClustering.cc` (Clustering): definitions cite 52 of 84 lines
* `common/StringTools.cc` (ParamSet, StationValues, StringTools): definitions cite 385 of 564 lines
* `common/StringTools.h` (ParamSet): definitions cite 14 of 172 lines
* `common/ValuePerStationParsing.h` (StationValues): definitions cite 55 of 104 lines
* `common/VdsMaker.cc` (Vds): definitions cite 74 of 398 lines
* `common/VdsPartDesc.cc` (Vds): definitions cite 51 of 155 lines
* `common/baseline_indices.h` (BaselineIndices): definitions cite 48 of 136 lines
* `common/buffered_lane.h` (Lane): definitions cite 14 of 110 lines
* `ddecal/InitialSolutions.cc` (InitialSol): definitions cite 90 of 231 lines
* `ddecal/Settings.cc` (DdeSettings, InitialSol, SolWriter, SolverChoice): definitions cite 187 of 492 lines
* `ddecal/Settings.h` (SolverChoice): definitions cite 1 of 243 lines
* `ddecal/SolutionResampler.cc` (SolWriter, SolveData): definitions cite 183 of 202 lines
* `ddecal/SolutionWriter.cc` (SolWriter): definitions cite 346 of 399 lines
* `ddecal/SolverFactory.cc` (DdeSettings, HybridSolver, SolWriter, SolverChoice): definitions cite 420 of 584 lines
* `ddecal/constraints/AntennaConstraint.h` (Constraints): definitions cite 38 of 86 lines
* `ddecal/constraints/AntennaIntervalConstraint.cc` (Constraints, DdeSettings): definitions cite 84 of 98 lines
* `ddecal/constraints/Constraint.cc` (Constraints): definitions cite 31 of 40 lines
* `ddecal/constraints/Constraint.h` (DdeSettings): definitions cite 2 of 155 lines
* `ddecal/constraints/FaradayConstraint.cc` (Rotation): definitions cite 127 of 188 lines
* `ddecal/constraints/FaradayConstraint.h` (Rotation): definitions cite 4 of 55 lines
* `ddecal/constraints/KernelSmoother.h` (KernelSmoother): definitions cite 105 of 186 lines
* `ddecal/constraints/PieceWisePhaseFitter.h` (PhaseSlope): definitions cite 253 of 408 lines
* `ddecal/constraints/RotationAndDiagonalConstraint.cc` (Rotation): definitions cite 263 of 358 lines
* `ddecal/constraints/RotationAndDiagonalConstraint.h` (Rotation): definitions cite 40 of 105 lines
* `ddecal/constraints/RotationConstraint.cc` (Rotation): definitions cite 28 of 57 lines
* `ddecal/constraints/RotationConstraint.h` (Rotation): definitions cite 16 of 54 lines
* `ddecal/constraints/SmoothnessConstraint.cc` (DdeSettings, KernelSmoother): definitions cite 43 of 101 lines
* `ddecal/constraints/TecConstraint.cc` (Tec): definitions cite 61 of 193 lines
* `ddecal/constraints/TecOffsetDelayConstraint.cc` (TecDelay): definitions cite 48 of 128 lines
* `ddecal/constraints/TecOffsetDelayFitting.cc` (TecDelay): definitions cite 121 of 448 lines
* `ddecal/constraints/TecOffsetDelayFitting.h` (TecDelay): definitions cite 8 of 108 lines
* `ddecal/gain_solvers/BdaSolverBuffer.cc` (BdaDdeCal, BdaSolverBuffer, SolveData, SolverTools): definitions cite 239 of 274 lines
* `ddecal/gain_solvers/BdaSolverBuffer.h` (BdaDdeCal, BdaSolverBuffer, SolveData): definitions cite 69 of 220 lines
* `ddecal/gain_solvers/DiagonalAntennaSolver.cc` (AntennaSolver): definitions cite 324 of 580 lines
* `ddecal/gain_solvers/DiagonalAntennaSolver.h` (SolverChoice): definitions cite 1 of 112 lines
* `ddecal/gain_solvers/DiagonalLowRankSolver.cc` (LowRank): definitions cite 271 of 367 lines
* `ddecal/gain_solvers/DiagonalLowRankSolver.h` (SolverChoice): definitions cite 1 of 112 lines
* `ddecal/gain_solvers/DiagonalSolver.cc` (DirectSolver): definitions cite 112 of 227 lines
* `ddecal/gain_solvers/DiagonalSolver.h` (SolverChoice): definitions cite 2 of 47 lines
* `ddecal/gain_solvers/FullJonesSolver.cc` (DirectSolver): definitions cite 139 of 267 lines
* `ddecal/gain_solvers/FullJonesSolver.h` (SolverChoice): definitions cite 2 of 44 lines
* `ddecal/gain_solvers/HybridSolver.cc` (HybridSolver, SolverChoice): definitions cite 47 of 65 lines
* `ddecal/gain_solvers/HybridSolver.h` (SolverChoice): definitions cite 10 of 93 lines
* `ddecal/gain_solvers/IterativeDiagonalSolver.cc` (Cx, IterSolver): definitions cite 138 of 228 lines
* `ddecal/gain_solvers/IterativeDiagonalSolver.h` (SolverChoice): definitions cite 2 of 44 lines
* `ddecal/gain_solvers/IterativeDiagonalSolverCuda.h` (SolverChoice): definitions cite 1 of 142 lines
* `ddecal/gain_solvers/IterativeFullJonesSolver.cc` (Cx, IterSolver): definitions cite 146 of 229 lines
* `ddecal/gain_solvers/IterativeFullJonesSolver.h` (SolverChoice): definitions cite 1 of 51 lines
* `ddecal/gain_solvers/IterativeScalarSolver.cc` (Cx, HybridSolver, IterSolver): definitions cite 183 of 237 lines
* `ddecal/gain_solvers/IterativeScalarSolver.h` (SolverChoice): definitions cite 2 of 54 lines
* `ddecal/gain_solvers/LBFGSSolver.cc` (Lbfgs): definitions cite 369 of 636 lines
* `ddecal/gain_solvers/LBFGSSolver.h` (SolverChoice): definitions cite 13 of 91 lines
* `ddecal/gain_solvers/ScalarSolver.cc` (DirectSolver, SolverBase): definitions cite 163 of 203 lines
* `ddecal/gain_solvers/ScalarSolver.h` (SolverChoice): definitions cite 2 of 44 lines
* `ddecal/gain_solvers/SolveData.cc` (AntennaSolver, DirectSolver, LowRank, SolveData): definitions cite 283 of 368 lines
* `ddecal/gain_solvers/SolveData.h` (Cx, DirectSolver, IterSolver, SolveData): definitions cite 84 of 254 lines
* `ddecal/gain_solvers/SolverBase.cc` (DirectSolver, HybridSolver, LowRank, SolverBase, SolverChoice): definitions cite 178 of 446 lines
* `ddecal/gain_solvers/SolverBase.h` (BdaDdeCal, Cx, DdeCal, DirectSolver, HybridSolver, LowRank, SolverBase, SolverChoice): definitions cite 82 of 367 lines
* `ddecal/gain_solvers/SolverTools.cc` (DdeCal, LowRank, SolverTools): definitions cite 138 of 170 lines
* `ddecal/linear_solvers/LLSSolver.cc` (DirectSolver): definitions cite 12 of 45 lines
* `ddecal/linear_solvers/LLSSolver.h` (DirectSolver): definitions cite 7 of 53 lines
* `ddecal/linear_solvers/NormalEquationsSolver.h` (DirectSolver): definitions cite 33 of 75 lines
* `ddecal/linear_solvers/QRSolver.h` (DirectSolver): definitions cite 25 of 61 lines
* `ddecal/linear_solvers/SVDSolver.h` (DirectSolver): definitions cite 22 of 66 lines
* `parmdb/Axis.cc` (ParmEval, ParmGrid): definitions cite 343 of 470 lines
* `parmdb/Axis.h` (ParmGrid): definitions cite 10 of 216 lines
* `parmdb/AxisMapping.cc` (ParmEval): definitions cite 38 of 71 lines
* `parmdb/AxisMapping.h` (ParmEval): definitions cite 3 of 173 lines
* `parmdb/Box.cc` (ParmGrid): definitions cite 18 of 84 lines
* `parmdb/Box.h` (ParmGrid): definitions cite 29 of 151 lines
* `parmdb/Grid.cc` (ParmEval, ParmGrid): definitions cite 120 of 263 lines
* `parmdb/Grid.h` (ParmEval, ParmGrid): definitions cite 32 of 255 lines
* `parmdb/Parm.cc` (ParmEval): definitions cite 309 of 477 lines
* `parmdb/ParmCache.cc` (ParmCache): definitions cite 10 of 56 lines
* `parmdb/ParmDB.cc` (ParmTables): definitions cite 101 of 169 lines
* `parmdb/ParmDB.h` (ParmTables): definitions cite 5 of 302 lines
* `parmdb/ParmDBCasa.cc` (GainCalStep, ParmCache, ParmTables): definitions cite 379 of 729 lines
* `parmdb/ParmDBLocker.cc` (ParmCache): definitions cite 17 of 33 lines
* `parmdb/ParmMap.h` (ParmTables): definitions cite 3 of 84 lines
* `parmdb/ParmSet.cc` (ParmCache, ParmSet, ParmTables): definitions cite 75 of 120 lines
* `parmdb/ParmSet.h` (ParmSet): definitions cite 37 of 132 lines
* `parmdb/ParmValue.cc` (ParmEval): definitions cite 246 of 409 lines
* `parmdb/ParmValue.h` (ParmEval): definitions cite 11 of 263 lines
* `pythondp3/pyfitters.cc` (Tec): definitions cite 3 of 223 lines
* `sky_model/Patch.h` (SkyModel): definitions cite 7 of 70 lines
* `sky_model/PatchInfo.cc` (Simulator): definitions cite 9 of 39 lines
* `sky_model/PatchInfo.h` (Simulator, SkyModel): definitions cite 15 of 106 lines
* `sky_model/ReadSkyModel.cc` (Simulator, SkyModel, SkyText): definitions cite 537 of 993 lines
* `sky_model/SkyModel.cc` (SkyModel): definitions cite 82 of 123 lines
* `sky_model/SkyModel.h` (SkyModel): definitions cite 10 of 59 lines
* `sky_model/SkyModelFunctions.cc` (PredictStep, Simulator, SkyModel): definitions cite 225 of 306 lines
* `sky_model/SkyModelSelection.cc` (SkyModel): definitions cite 7 of 41 lines
* `sky_model/Source.h` (Simulator, SkyModel): definitions cite 27 of 116 lines
* `sky_model/SourceInfo.h` (Simulator): definitions cite 6 of 125 lines
* `steps/AOFlaggerStep.cc` (AoFlagger): definitions cite 212 of 449 lines
* `steps/AartfaacReader.cc` (Aartfaac): definitions cite 112 of 359 lines
* `steps/AntennaFlagger.cc` (AntennaFlagger): definitions cite 42 of 155 lines
* `steps/ApplyBeam.cc` (ApplyBeam): definitions cite 416 of 531 lines
* `steps/ApplyBeam.h` (ApplyBeam): definitions cite 7 of 173 lines
* `steps/ApplyCal.cc` (ApplyCal, CalParms): definitions cite 176 of 267 lines
* `steps/Averager.cc` (Averager, Demix, DemixTimes): definitions cite 179 of 341 lines
* `steps/BDAAverager.cc` (BdaAverager, BdaGroup): definitions cite 211 of 419 lines
* `steps/BDAAverager.h` (MakeSteps): definitions cite 2 of 168 lines
* `steps/BDAResultStep.h` (BdaDdeCal): definitions cite 21 of 61 lines
* `steps/BdaDdeCal.cc` (BdaDdeCal, DdeSettings, SolWriter, SolveData, SolverChoice): definitions cite 662 of 954 lines
* `steps/BdaDdeCal.h` (BdaDdeCal, MakeSteps): definitions cite 52 of 240 lines
* `steps/BdaExpander.cc` (BdaExpander): definitions cite 133 of 267 lines
* `steps/BdaExpander.h` (BdaExpander, MakeSteps): definitions cite 9 of 102 lines
* `steps/BdaGroupPredict.cc` (BdaGroup): definitions cite 123 of 277 lines
* `steps/BdaGroupPredict.h` (BdaGroup, MakeSteps): definitions cite 24 of 109 lines
* `steps/Clipper.cc` (Clipper): definitions cite 90 of 188 lines
* `steps/Combine.cc` (DPBuffer): definitions cite 22 of 115 lines
* `steps/Combine.h` (MakeSteps): definitions cite 4 of 72 lines
* `steps/DDECal.cc` (DdeCal, DdeSettings, LowRank, SolverBase, SolverChoice): definitions cite 826 of 1147 lines
* `steps/DDECal.h` (DdeCal): definitions cite 86 of 216 lines
* `steps/Demixer.cc` (Demix, DemixTimes, Estimate): definitions cite 661 of 1289 lines
* `steps/Demixer.h` (DemixTimes): definitions cite 73 of 215 lines
* `steps/DynSpec.cc` (DynSpec): definitions cite 190 of 350 lines
* `steps/DynSpec.h` (DynSpec): definitions cite 43 of 113 lines
* `steps/FastPredict.cc` (FastPredict): definitions cite 89 of 751 lines
* `steps/FastPredict.h` (FastPredict): definitions cite 12 of 242 lines
* `steps/Filter.cc` (Filter): definitions cite 198 of 302 lines
* `steps/Filter.h` (Filter): definitions cite 8 of 168 lines
* `steps/FlagTransfer.cc` (Transfer): definitions cite 43 of 236 lines
* `steps/GainCal.cc` (GainCal, GainCalStep, Tec): definitions cite 832 of 1357 lines
* `steps/H5ParmPredict.cc` (PredictStep): definitions cite 28 of 134 lines
* `steps/IDGPredict.cc` (ImagePredict): definitions cite 211 of 713 lines
* `steps/ImageStep.cc` (ImageStep): definitions cite 133 of 204 lines
* `steps/ImageStep.h` (ImageStep): definitions cite 12 of 101 lines
* `steps/InputStep.h` (Chain): definitions cite 1 of 84 lines
* `steps/Interpolate.cc` (Interpolate): definitions cite 158 of 222 lines
* `steps/MSBDAReader.cc` (BdaMs): definitions cite 218 of 354 lines
* `steps/MSBDAWriter.cc` (BdaMs, MakeSteps): definitions cite 228 of 464 lines
* `steps/MSBDAWriter.h` (BdaMs, Chain, MakeSteps): definitions cite 7 of 92 lines
* `steps/MSUpdater.cc` (Chain, MakeSteps, MsOutput, UpdateStorage): definitions cite 249 of 433 lines
* `steps/MSUpdater.h` (Chain, MakeSteps): definitions cite 1 of 103 lines
* `steps/MSWriter.cc` (MakeSteps, MsOutput): definitions cite 141 of 851 lines
* `steps/MSWriter.h` (Chain, MakeSteps, MsOutput): definitions cite 3 of 270 lines
* `steps/MadFlagger.cc` (MadFlagger): definitions cite 230 of 514 lines
* `steps/MadFlagger.h` (MadFlagger): definitions cite 12 of 151 lines
* `steps/MsColumnReader.cc` (MakeSteps): definitions cite 44 of 126 lines
* `steps/MsColumnReader.h` (MakeSteps): definitions cite 1 of 66 lines
* `steps/MsReader.cc` (MsOutput, MsReader): definitions cite 379 of 1013 lines
* `steps/MsReader.h` (MsReader): definitions cite 5 of 258 lines
* `steps/MultiMsReader.cc` (MultiMsReader): definitions cite 237 of 469 lines
* `steps/MultiResultStep.cc` (DemixTimes): definitions cite 17 of 35 lines
* `steps/NullStep.h` (Chain, MakeSteps): definitions cite 9 of 49 lines
* `steps/NullStokes.cc` (NullStokes): definitions cite 42 of 110 lines
* `steps/OneApplyCal.cc` (ApplyCal, CalParms, PredictStep): definitions cite 527 of 782 lines
* `steps/OneApplyCal.h` (CalParms): definitions cite 37 of 162 lines
* `steps/OnePredict.cc` (BdaGroup, FastPredict, PredictStep, Simulator): definitions cite 300 of 722 lines
* `steps/OnePredict.h` (FastPredict, PredictStep): definitions cite 13 of 259 lines
* `steps/OutputStep.h` (Chain): definitions cite 5 of 49 lines
* `steps/PhaseShift.cc` (PhaseShift): definitions cite 99 of 216 lines
* `steps/PhaseShift.h` (PhaseShift): definitions cite 5 of 110 lines
* `steps/PreFlagger.cc` (PreFlagRanges, PreFlaggerExpr, PreFlaggerSet): definitions cite 828 of 1147 lines
* `steps/PreFlagger.h` (PreFlaggerExpr, PreFlaggerSet): definitions cite 10 of 299 lines
* `steps/Predict.h` (MakeSteps): definitions cite 2 of 115 lines
* `steps/SVPInput.cc` (SvpInput): definitions cite 372 of 601 lines
* `steps/SVPInput.h` (SvpInput): definitions cite 24 of 124 lines
* `steps/ScaleData.cc` (ScaleData): definitions cite 159 of 252 lines
* `steps/ScaleData.h` (MakeSteps): definitions cite 2 of 103 lines
* `steps/SetBeam.cc` (ApplyBeam): definitions cite 38 of 69 lines
* `steps/Split.cc` (Chain, MakeSteps): definitions cite 23 of 149 lines
* `steps/Split.h` (Chain, MakeSteps): definitions cite 1 of 71 lines
* `steps/StationAdder.cc` (StationAdder): definitions cite 310 of 592 lines
* `steps/Step.h` (Aartfaac, Chain, MakeSteps): definitions cite 17 of 181 lines
* `steps/Transfer.cc` (Transfer): definitions cite 121 of 315 lines
* `steps/UVWFlagger.cc` (BdaDdeCal, UvwFlagger): definitions cite 243 of 418 lines
* `steps/UVWFlagger.h` (MakeSteps): definitions cite 2 of 152 lines
* `steps/Upsample.cc` (Upsample): definitions cite 79 of 172 lines
* `steps/WGridderPredict.cc` (ImagePredict): definitions cite 194 of 482 lines
* `steps/WSCleanWriter.cc` (MakeSteps, WscWriter): definitions cite 72 of 218 lines
* `steps/WSCleanWriter.h` (Chain, MakeSteps): definitions cite 2 of 76 lines

Not modelled at all (outside tests and external libraries):

* `antennaflagger/`: Flagger.h
* `base/`: Apply.h, Baseline.h, BaselineSelection.h, ComponentInfo.{cc,h}, DP3.h, EstimateMixed.h, GaussianSource.cc, IDGConfiguration.h, MS.{cc,h}, Main.cc, ModelComponent.h, ModelComponentVisitor.h, ParsetAterms.h, PredictModel.h, ProgressMeter.{cc,h}, Simulate.h, Stokes.cc, SubtableWriter.{cc,h}, SubtractMixed.h, Telescope.h, UVWCalculator.{cc,h}, msoverview.cc
* `common/`: DataConvert.{cc,h}, DataFormat.h, Epsilon.h, Fields.cc, KVpair.h, Memory.h, NodeDesc.h, ParameterRecord.{cc,h}, ParameterSet.{cc,h}, PrettyUnits.h, ProximityClustering.h, StreamUtil.h, Timer.h, TypeNames.{cc,h,tcc}, Types.h, VdsDesc.{cc,h}, VdsMaker.h, VdsPartDesc.h
* `ddecal/`: InitialSolutions.h, SolutionResampler.h, SolutionWriter.h, Solutions.h, SolverFactory.h
* `ddecal/constraints/`: AmplitudeOnlyConstraint.h, AntennaIntervalConstraint.h, ConstraintResult.h, KLFitter.{cc,h}, PiercePoint.{cc,h}, PolarizationLeakageConstraint.{cc,h}, ScreenConstraint.{cc,h}, ScreenFitter.{cc,h}, SmoothnessConstraint.h, TecConstraint.h, TecOffsetDelayConstraint.h
* `ddecal/gain_solvers/`: IterativeDiagonalSolverCuda.cc, SolverTools.h
* `ddecal/gain_solvers/kernels/`: Common.h, Complex.h, IterativeDiagonal.h, MatrixComplex2x2.h
* `parmdb/`: Parm.h, ParmCache.h, ParmDBCasa.h, ParmDBLocker.h, ParmDBMeta.{cc,h}, ParmFacade.{cc,h}, ParmFacadeLocal.{cc,h}, ParmFacadeRep.{cc,h}
* `pythondp3/`: PyDpBuffer.{cc,h}, PyDpInfo.cc, PyEveryBeam.cc, PyFields.cc, PyStep.{cc,h}, parameterset.cc, pydp3.cc, utils.h
* `sky_model/`: Patch.cc, ReadSkyModel.h, SkyModelCache.h, SkyModelFunctions.h, SkyModelSelection.h, Source.cc, SourceInfo.cc
* `steps/`: AOFlaggerStep.h, AartfaacReader.h, AntennaFlagger.h, ApplyCal.h, Averager.h, Clipper.h, Counter.{cc,h}, DummyStep.{cc,h}, FlagTransfer.h, GainCal.h, H5ParmPredict.h, IDGImager.{cc,h}, IDGPredict.h, InputStep.cc, Interpolate.h, MSBDAReader.h, MultiMsReader.h, MultiResultStep.h, NullStokes.h, Predict.cc, ResultStep.{cc,h}, SagecalPredict.{cc,h}, SetBeam.h, StationAdder.h, Step.cc, Transfer.h, Upsample.h, WGridderPredict.h

The libraries casacore, aocommon, schaapcommon, AOFlagger, EveryBeam, xtensor and Boost are not modelled; where their functions are used, a definition says what is assumed.

## Axioms per theorem

From `#print axioms` for every theorem of the manifest; names without the prefix `DP3.`.

* none (27 theorems): AntennaSolver.goes_on, ApplyBeam.matchFrom_complete, Clipper.inserted_slot_fails, DdeSettings.reused_same_name, DdeSettings.reused_wrong, HybridSolver.converged_reported_as_not, HybridSolver.minimum_exceeds, HybridSolver.one_iteration_exceeds, HybridSolver.stalled_reported_as_converged, HybridSolver.three_stages_exceed, InitialSol.faraday_refused, InitialSol.name_exists, InitialSol.name_inj, InitialSol.name_partial, MadFlagger.auto_missed, MsOutput.auto_weight_use, MsOutput.output_choice, MsReader.flags_without_data, ParamSet.subset_keeps, ParamValue.vector_single, ParmGrid.cell_id_wraps, ParmTables.clear_keeps_defaults, PreFlaggerSet.clear_flags, PreFlaggerSet.set_misses, SolverChoice.gpu_ignored, SvpInput.empty_message_error, Transfer.source_gap
* propext (61 theorems): Aartfaac.count_checked_partial, Aartfaac.empty_accepted, Aartfaac.magic_not_checked, Aartfaac.mode_checked_partial, Aartfaac.mode_refused, Chain.chainProvided_iff, Chain.setChain_sameOutputs, Clipper.flags_kept, Clipper.unsorted_rows, DPBuffer.combine_empty_name, DPInfo.autos_empty, DPInfo.caches_stale, DdeSettings.count_wraps, DdeSettings.groups_shrink, DynSpec.obsId_partial, FastPredict.baselines_again, FastPredict.baselines_once, FastPredict.fast_moving, FastPredict.fast_reference_partial, FastPredict.one_reference, FlagReport.no_warnings, GainCalStep.amplitude_table, GainCalStep.phase_table, GainCalStep.tables_partial, HybridSolver.solve_restores_maxima, HybridSolver.stop_on_convergence, InitialSol.full_refused, Lane.empty_read_buffer, LowRank.previously_converged, LowRank.wrong_channel_block, MadFlagger.corr_outside, MadFlagger.corr_wrong, MakeSteps.type_given, MsOutput.beam_round_trip, MsOutput.beam_untouched, MsOutput.compressed_passed_on, MsOutput.history_never, MsOutput.inconsistent_unflags, MsOutput.passed_on_partial, MsOutput.thread_prefix, MsOutput.thread_result, MsOutput.written_values, ParamSet.adopt_self, ParamSet.final_newline, ParamValue.split_blank, ParmTables.update_after_delete, ParmTables.update_loses_domain, ParmTables.update_row, PreFlagRanges.split_dots, PreFlagRanges.split_pm, PredictStep.operation_main, SkyModel.is_polarized, SkyText.vector_single, SolverChoice.hybrid_unweighted_wrong, SolverChoice.iterative_solves_partial, SolverChoice.model_weights_partial, SolverChoice.stage_iterations, StationAdder.splitPattern_spec, StringTools.expand_other, SvpInput.meta_empty_ub, Vds.all_empty
* propext, Quot.sound (219 theorems): Aartfaac.delay_keeps, Aartfaac.exposure_weight, Aartfaac.flag_iff_partial, Aartfaac.flagged_zero, Aartfaac.imaginary_not_flagged, Aartfaac.missing_undefined, Aartfaac.times_shifted, AntennaFlagger.badAntennas_lt, AntennaFlagger.findOrder_accepts, AntennaFlagger.outliers_by_value, AntennaFlagger.outliers_not_finite, AntennaFlagger.outliers_reason, AntennaFlagger.outliers_stable, AoFlagger.samples_spec, AoFlagger.windows_spec, ApplyBeam.addBeam_spec, ApplyBeam.arrayFactor_scalar, ApplyBeam.select_unique, ApplyBeam.setBeam_corrected, ApplyBeam.skip_all_homogeneous, ApplyCal.diag_not_finite, ApplyCal.loop_spec, ApplyCal.scalar_eq_diag, BaselineIndices.baselineIndex_comm, BaselineSelection.makeRanges_spec, BdaAverager.channel_in_one_group, BdaAverager.timeFactor_pos, BdaBuffer.consecutive_disjoint, BdaDdeCal.rowWeight_mean, BdaDdeCal.same_name_ub, BdaDdeCal.unit_start, BdaSolverBuffer.accepted_order, BdaSolverBuffer.disorder_refused, Chain.chainRequired_iff, Chain.makeMainSteps_nothing_unwritten, Chain.makeMainSteps_runs, Chain.not_runsWith_of_missing, Chain.runsWith_chainRequired, Chain.runsWith_iff, Chain.setChain_toldToWrite, Chain.split_required_iff, Chain.updater_finds_fields_partial, Chain.updater_misses_fields, Clipper.rowIndices_defined, Clipper.rowIndices_spec, Cluster.duplicate_refused, Cluster.longest_mount, Cluster.no_mount, Cluster.nodes_by_fs, Cluster.nodes_by_name, Cluster.nodes_complete, Clustering.group_apart, Clustering.group_close, Clustering.group_spec, Constraints.initialize_ok, DPBuffer.combine_inverse, DPBuffer.combine_spec, DPBuffer.copy_fields, DPInfo.bandwidth_partial, DPInfo.update_rejects, DdeCal.announced_fits, DdeCal.final_weights, DdeCal.unit_start, DdeCal.walk_block, DdeSettings.averaging_unused_refused, DdeSettings.core_ignored, DdeSettings.core_negative, DdeSettings.count_solutions, DdeSettings.groups_refused, DdeSettings.prepare_ub, DdeSettings.reused_accepted, DdeSettings.reused_partial, DdeSettings.reused_refused, DdeSettings.smoothing_refused, DdeSettings.smoothing_same, DdeSettings.smoothing_scaled, DdeSettings.solution_direction, DdeSettings.step_no_ub, DdeSettings.withoutPrefix_spec, Demix.merge_baselines, DemixTimes.short_violated, DemixTimes.threads_violated, Estimate.equations_same, Estimate.iteration_cursors, FastPredict.copy_all, FastPredict.copy_stokesI, FlagReport.percentage_nearest, FlagReport.total_sum, FlagReport.warning_text_wrong, FlagReport.warnings_partial, GainCalStep.solint_zero, HybridSolver.stop_only_on_convergence, ImagePredict.facet_misplaced, ImagePredict.facet_place_partial, ImagePredict.first_plane, ImagePredict.planes_partial, ImageStep.antenna_names_wrong, ImageStep.names_distinct, ImageStep.names_unsorted, ImageStep.sorted_at, IterSolver.succeeds_iff, KernelSmoother.series_indices, KernelSmoother.smooth_untruncated, KernelSmoother.zero_weight_ignored, Lbfgs.predicted_eq, LowRank.flat_first, MadFlagger.auto_partial, MadFlagger.clipWindow_spec, MadFlagger.offsets_take, MadFlagger.short_input, MakeSteps.type_of_name, MsOutput.auto_weight, MsOutput.auto_weights_defined_partial, MsOutput.beam_last, MsOutput.chunks_none, MsOutput.flagRow_consistent, MsOutput.flags_read_back, MsOutput.flags_read_other, MsOutput.new_flags_read, MsOutput.selected_channels_fail, MsOutput.selected_channels_fail_data, MsOutput.updates_inside, MsOutput.updates_ok, MsOutput.updates_outside, MultiMsReader.process_rejects, MultiMsReader.sort_increasing, NullStokes.process_ub, ParamValue.string_spec, ParamValue.string_unclosed, ParmCache.flush_atomic_partial, ParmCache.flush_released, ParmCache.flush_writes, ParmEval.rescale_ok, ParmGrid.cell_id_inverse, ParmGrid.contains_iff, ParmGrid.intersect_points, ParmGrid.iterator_visits, ParmGrid.regular_length, ParmGrid.toDomains_cells_partial, ParmGrid.toDomains_overrun, ParmGrid.unite_smallest, ParmSet.addParm_db_partial, ParmSet.addParm_other_db, ParmTables.broken_step, ParmTables.inv_fresh, ParmTables.parent_spec, PhaseSlope.wrap_turn, PreFlaggerExpr.accepted_evaluates, PreFlaggerExpr.parse_accepts, PreFlaggerExpr.parse_eval, PredictStep.copy_fewer, PredictStep.h5_all, PredictStep.h5_named_wrong, PredictStep.named_uncorrected, PredictStep.operation_named_partial, PredictStep.plain_threads, PredictStep.weights_not_checked, ScaleData.bda_outside, ScaleData.factor_unique, SkyModel.source_list, SkyText.nextValue_iff, SolWriter.kinds_spec, SolWriter.prepare_spec, SolveData.chanBlockIndex_partial, SolveData.channels_partition, SolveData.nSolutionVisibilities_spec, SolveData.nSubsteps_spec, SolveData.resample_spec, SolverBase.makeFinite2_partial, SolverBase.nothing_is_converged, SolverBase.stall_uninitialised, SolverChoice.full_solves_partial, SolverChoice.gpu_refused_partial, SolverChoice.gpu_throws, SolverChoice.no_null, SolverChoice.not_full_throws, SolverChoice.stage_constraints, SolverChoice.stage_polarizations, SolverTools.assignAndWeight_spec, SolverTools.bad_weight, SolverTools.bda_same, SolverTools.weigh_eq, SolverTools.weighted_finite, StationAdder.matching_iff, StationAdder.newPoint_flag, StationAdder.newPoint_flagged, StationAdder.newPoint_good, StationAdder.newPoint_not_finite, StationAdder.newUvw_spec, StationAdder.stations_spec, StationAdder.take_auto, StationAdder.take_outside, StationValues.parse_missing_colon, StringTools.getUint32_partial, StringTools.strToBool_spec, SvpInput.aartfaac_throws, SvpInput.alma_flags_lost, SvpInput.alma_short_silent, SvpInput.baseline_row, SvpInput.baselines_length, SvpInput.data_incomplete, SvpInput.data_other_bits, SvpInput.mem_baselines_alma, SvpInput.mem_baselines_other, SvpInput.message_incomplete, SvpInput.meta_accepted, SvpInput.receive_chunks, Transfer.antennas_accepted, Transfer.antennas_other, Transfer.block_inside, Units.memory_refused, Upsample.empty_stream, UvwFlagger.process_bda_rows, Vds.bands_summary, Vds.freq_partial, Vds.times_combined, WscWriter.parts_partial, WscWriter.rows_right, WscWriter.start_outside
* propext, Classical.choice, Quot.sound (939 theorems): all others

## Plan per property

* **C01** Baseline numbering is a bijection. BaselineIndices: the three formulas over Nat (floor of the real square root modelled by `Nat.sqrt`, integer division as in C++); round trip in both directions for all n, by monotonicity of triangular numbers.
* **C02** Baseline list of an antenna is complete. Same module; list as `map`; membership characterised through C01.
* **C03** The reader loads exactly the fields the chain needs. Fields: a field set is a record of four booleans; the backward fold over the chain; specification by quantification over positions in the chain; induction on the chain.
* **C04** No step ever misses a required field. Same module; availability defined by a forward run of the chain, independently of the backward fold.
* **C05** Every modified field is written by the next output step. Same module; forward fold over chain with output steps; specification by positions.
* **C06** Rows of a BDA buffer never overlap and never exceed the capacity. BdaBuffer: state with rows, pools as lists, remaining capacity; all operations as a step function; invariant over operation lists; rows added while no pool is enabled overlap (witness), _partial otherwise.
* **C07** Data written to a BDA buffer row stays with that row. Same module; per-row read-back as invariant over later operations.
* **C08** Averaging keeps the weighted mean and total weight. Averager: accumulate/average/finish over a linearly ordered field; flat sample positions; spec is a sum over the bin.
* **C09** Averaging in time loses no time slot. Same module; state machine over the input list, output = map over chunks.
* **C10** Baseline-dependent averaging covers every input sample exactly once. BdaAverager: per-baseline accumulators, time counter, output queue; spec chunks the input stream.
* **C11** Baseline-dependent averaging keeps the weighted mean and total weight. Same module; weight/mean spec; UVW claim fails for fully flagged rows: negation proved with a witness and the rest as _partial.
* **C12** Expanding BDA data emits every complete time slot once, in order. BdaExpander: map from slot index to set of present baselines; emission loop; invariant over rows.
* **C13** Interpolation in a sliding window equals whole-stream interpolation. Interpolate: deque of slots, position counter, deferred flag reset; refinement to a batch specification.
* **C14** Interpolation result does not depend on thread scheduling. Same module; threads take samples in any order, in any number of interleaved pieces; samples commute, so every schedule gives the same slot.
* **C15** Buffered lanes lose, duplicate and reorder nothing. Lane: producer buffer, lane queue and several consumer buffers as a transition system with nondeterministic interleaving; invariant written = received ++ in flight; no deadlock; bounded executions.
* **C16** Upsampling yields one buffer per fine time slot. Upsample: state machine over times in an ordered field; empty stream, triple overlap and equal times shown with witnesses.
* **C17** The MS reader delivers a gap-free time axis. MsReader: walk over the slots with the tolerance and time correction as in the code; invariants over the emission loop; exact arithmetic.
* **C18** Non-finite or partially flagged visibilities are flagged completely. MsReader: flag scan with early exit over the flat arrays, with counters.
* **C19** Joining several measurement sets puts every band in its own channel range. MultiMsReader: loops with a running channel offset over cubes as functions; the frequency axis is built by a separate function and compared by position.
* **C20** PreFlagger expressions follow the documented operator precedence. PreFlaggerExpr: tokens, shunting-yard, RPN evaluation; expression trees and printer are the specification.
* **C21** An accepted PreFlagger expression never underflows the evaluation stack. Same module; invariant linking the two stacks to an arity count.
* **C22** PreFlagger selections are the conjunction of their criteria. PreFlaggerSet: pset evaluation with narrowing; pointwise predicate as specification; empty channel selection: negation with a witness, _partial with the hypothesis.
* **C23** PreFlagger modes change only the visibilities they name. Same module; mode semantics and counters.
* **C24** Baseline selection is symmetric and is the conjunction of its criteria. BaselineSelection: matrices as Bool-valued functions; matching of name patterns is a parameter.
* **C25** Removing unused antennas keeps every baseline's antennas. model `DPInfo/Antennas.lean`; invariant over all call sequences (`run_bookkept`), then the renumbering (`remove_spec`).
* **C26** Channel averaging keeps the frequency coverage. model `DPInfo/Channels.lean`; bin sums by induction; `centre_partial` gives the exact condition under which the averaged channel is centred, `centre_off` a counterexample.
* **C27** Filtering copies exactly the selected baselines and channels. model `Filter/Model.lean` with flat arrays and offsets as in the code; `filter_partial`; counterexample `empty_selection`.
* **C28** Removing stations keeps the subtables consistent. model `Filter/Model.lean`; `createIdMap_spec` by induction over the removed ids; `addToMS_spec` relates every row to the row it refers to.
* **C29** MAD flagger windows are mirrored at the band edges. MadFlagger: window clipping and the two channel ranges; the visited channels are a permutation of the reflected offsets.
* **C30** MAD flagger passes on every time slot once and in order. MadFlagger: ring buffer of time slots with process and finish; invariant that the ring holds the last window slots; emissions compared one by one with the reflected window. Failure for short input proved for all inputs.
* **C31** MAD flagger uses the correlations the user listed. MadFlagger: list indexing with explicit out-of-range outcome; negation with witnesses, and the lists for which it is right.
* **C32** Solver data hold every cross-correlation visibility exactly once. SolveData: the writes of the constructor into allocated channel blocks with explicit bounds; the resulting cells are computed exactly.
* **C33** Solution intervals of every direction are used in order and completely. SolveData: solutionIndex; time steps of a solution as an interval between rounded-up quotients.
* **C34** Upsampled solutions are the ones that were used to calibrate. SolveData: number of substeps, MapResampledToOriginal and the constraint upsampling compared with solutionIndex.
* **C35** The BDA solver buffer hands out every row once, in its own interval. model of the whole BdaSolverBuffer state machine (Verif.BdaSolverBuffer); invariant over all call sequences.
* **C36** The BDA solver buffer returns input buffers in order and exactly once. same invariant: returned ++ done ++ inside = given.
* **C37** A complete solution interval stays complete. proved for ordered rows from the same invariant; counterexample for what the check accepts.
* **C38** Antenna constraint gives all antennas of a set the same mean solution. Verif.Constraints: full model of Apply on solution arrays; mean, frame and idempotence for disjoint sets.
* **C39** Antenna-interval constraint averages consecutive sub-solutions of one antenna and direction. model of the while loop with the running index; loop invariant gives the group mean.
* **C40** Non-finite solutions are replaced by the average amplitude. SolverBase: MakeSolutionsFinite as a fold and a map per channel block; values that are not finite are `none`. Partial: first polarisation is used for all.
* **C41** Source clustering is a partition. Source clustering is a partition. `Clustering`: the greedy loop of ProximityClustering with positions, distance and mean as parameters; partition and separation by induction on the sources.
* **C42** Parset values: range and repeat expansion denote the written list. Model: `StringTools/Model.lean`, expandMultString and expandRangeString as loops over a split string with fuel. Proof: an abstract syntax of array strings with its text and its denotation; scanning lemmas by induction over the syntax; the two passes reach the text of the denotation. Strings without repetitions and ranges are unchanged.
* **C43** Parset keys: the last assignment wins and subsets are exact. ParamSet: the sorted map as a list in order, with std::map operations written out, for both comparison modes; statements about the value of every key (`value`), keys the same up to case (`SameKey`). Invariant: sorted after every history (`run_sorted`).
* **C44** Unused parset keys are reported exactly. ParamSet: the list of asked keys; induction over histories of all operations. Partial: in the case-insensitive mode it is false (`unused_nocase`).
* **C45** Parset vectors split only at top-level commas. Model: `ParamValue/Model.lean`, splitValue with its three counters and quote skipping. Proof: equal to a splitter that reads one character at a time, whose result is characterised by the places (quote, depth) of all prefixes.
* **C46** Grid cell ids and locations are inverse. ParmGrid/GridProps.lean: Euclidean division, with the conversion of the id to 32 bits modelled.
* **C47** Converting domains of a grid reads and writes only valid memory. ParmGrid/GridProps.lean: both buffers of toDomains have the size of the x axis; the theorem needs ny <= nx and the overrun otherwise is proved too.
* **C48** Locating a value on a regular or ordered axis finds the containing cell. ParmGrid/AxisProps.lean: find equals (number of cells before the value, whether a cell contains it), by induction over the cells, for any hint.
* **C49** Flag transfer copies each coarse channel's flags to the fine channels inside it. Verif/Transfer: cubes as lists of rows; the two nested loops of TransferSingleTimeSlot with the out-of-range read as a parameter; induction over both loops with an invariant on the copied channels.
* **C50** UVW flagger flags exactly the visibilities in a given range. Verif/UvwFlagger: fillUVW, testUVWm, testUVWl, doFlag and both process functions on flat flag lists with out-of-range writes as undefined behaviour; induction over ranges, channels and baselines; the range strings refine a declarative reading.
* **C51** NullStokes zeroes the requested Stokes parameters and keeps the others. NullStokes. `NullStokes`: the four update rules on a flat list of complex values over a field; the loop over the array with an explicit out-of-bounds outcome.
* **C52** Station values: the last matching pattern decides. Station values: the last matching pattern decides. `StationValues`: AssignStationValues and ParseValuePerStation as folds; the meaning (last pattern about a station) is stated independently.
* **C53** Flag counts add up and do not depend on the division over threads. Flag counts. `FlagCounter`: counters as lists, threads as a list of private counters, `add`; equality with one counter that gets all increments.
* **C54** An update step finds every field it writes. Chain: `updateInfo` of the update step as a second pass over the chain after the reader's fields were fixed; violated when the input weights come from WEIGHT (witness), _partial otherwise.
* **C55** Expanding BDA data distributes each averaged weight. BdaExpander: same run as C12, contents of the emitted elements; sums over slots and channels.
* **C56** A channel selection stays inside the band. MsReader: integer arithmetic on rounded values.
* **C57** Selecting a time range gives exactly the grid times in it. MsReader: `skipFirstTimes` and rounding of the end time, composed with the walk of C17.
* **C58** Joining measurement sets gives an increasing frequency axis. MultiMsReader: the loop of FillBands with its running frequency; merge sort for SortBands.
* **C59** PreFlagger expressions: the spelling of operators does not matter. PreFlaggerExpr: scanner on character lists; a relation giving the spellings of each token.
* **C60** Time averaging keeps the observation's start and covers it. model `DPInfo/Channels.lean`; `setTimes_spec`, `update_times` over an ordered field with a floor.
* **C61** Channel selections compose and keep the metadata consistent. model `DPInfo/Channels.lean`; `select_spec` by induction over the selections; `bandwidth_partial` and the counterexample `bandwidth_stale`.
* **C62** Baseline lengths and autocorrelation indices always match the current baselines. model `DPInfo/Antennas.lean`; freshness of both caches is an invariant of all calls but `setAntennas`; counterexamples `caches_stale`, `autos_empty`.
* **C63** MADFlagger decides on the median of its window. MadFlagger: computeFactors and the loop over correlations with an arbitrary conforming nth_element; partial, counterexample for flagged windows.
* **C64** Median returns the median. MadFlagger: common::Median with the standard's contract of nth_element; order statistics by uniqueness of sorting.
* **C65** MADFlagger applies autocorrelation flags. MadFlagger: flags of one channel after the autocorrelation loop.
* **C66** Solver data of BDA rows. SolveData: the constructor for BDA data; partial, two failures proved.
* **C67** A channel of BDA data uses the same channel block everywhere. SolveData: blocks of SolveData, ApplySolutions (frequencies as exact numbers, equal channel widths) and GetChanBlockIndex; partial, counterexample.
* **C68** Weigh multiplies every visibility with its own weight. model of Weigh with the batch loop and the remainder loop (Verif.SolverTools); equals the pointwise product.
* **C69** A sample that cannot be used contributes nothing to a solve, everything else is weighted. model of AssignAndWeight and of the BDA weighting for one baseline and channel; both refine one specification; finiteness under usable weights.
* **C70** Referencing to an antenna keeps the ratios between antennas. model of the in-place loops; closed form per polarisation, then the ratio theorem.
* **C71** Smoothing stays within the data. Verif.KernelSmoother: model with the moving window; every output is a weighted mean over a list of channels.
* **C72** Truncation of the smoothing kernel is only an optimisation. window invariant: channels outside have zero kernel if the kernel is narrow enough; counterexample otherwise.
* **C73** Smoothing kernels are symmetric. case analysis; counterexample for Epanechnikov.
* **C74** Stall detection uses the mean and variance of all step magnitudes of this solve. SolverBase: Welford update by induction over the magnitudes; stall criterion bounded by the inequality of sums of squares. Partial: uninitialised and stale members.
* **C75** A solve ends, and unconverged solves are recognisable. SolverBase: the solve loop with the outcome of each iteration as an arbitrary function; termination by induction. Partial: stalled solves.
* **C76** The convergence criterion is scale independent. SolverBase: AssignSolutions as folds over (old, new) pairs. Partial: full-Jones counts off-diagonal elements.
* **C77** The flag ratio of a station covers exactly its baselines. Flag ratio per station. `FlagCounter`: showStation accumulation; per station sum over the baselines that use it.
* **C78** Station patterns have the usual glob meaning. Station patterns. `StationValues`: PatternToRegex on characters, a parser and matcher for the produced regular expressions, and an inductive glob relation; equivalence for all patterns.
* **C79** Integers in a parset are read exactly or refused. Model: `StringTools/Model.lean` strToLong and the range checks, with strtol as digit scanning. Proof: equivalence with an independent description of integer literals (positional value). Partial: getUint32 has a signed result type, and the empty text depends on the C library.
* **C80** Quotes are removed from string values and nothing else. Model: `ParamValue/Model.lean` getString. Proof: induction over the parts.
* **C81** A parset file means what is written. ParamSet/ReadProps: readStream character by character (with fuel, shown to suffice); files given by a grammar (`Line`, `Rest`) with its text and its meaning (`denote`); the scanner is shown to go through the parts of a line, then induction over lines.
* **C82** A part of an axis has exactly the requested cells. ParmGrid/SubsetProps.lean: the cells that overlap with an interval are consecutive (filter = take/drop by counts); regular axes via closed forms. Partial because of holes.
* **C83** Combining axes keeps the cells of both. ParmGrid/CombineProps.lean: the checked overlap is a common part of both cell lists that reaches the end of one of them; joining lists without holes. Partial because of a read out of range in axes that do not fit.
* **C84** The grid of a list of domains has these domains as cells. ParmGrid/GridProps.lean: the checks of setup are equivalent to the domains being a product of cells; sorted permutations are unique.
* **C85** Operations on boxes agree with the points of the boxes. ParmGrid/BoxProps.lean: order arguments on points.
* **C86** Transfer uses the source time slot that contains the target time slot. Verif/Transfer: the counter and the held source buffer as a state machine; induction over the calls gives slot min(k/factor, n-1); arithmetic for the containment.
* **C87** The hybrid solver keeps to the maximum number of iterations. Verif/HybridSolver: the stopping criterion, iteration count, MakeResult and the loop over stages; a stage is its course of convergence and stalling; the loop invariant gives the first iteration at which it may stop, arithmetic gives the budget; counterexamples by evaluation.
* **C88** An iteration of the iterative solvers is independent of threads and keeps exact solutions. Verif/IterSolver: PerformIteration as one skeleton with a kernel of formulas per solver and visibility type; accumulators as functions; sums over threads equal sums over all visibilities by induction and permutation; exact solutions follow from C89.
* **C89** An iteration of the iterative solvers gives least squares solutions. Verif/IterSolver: the misfit as function of one solution is a quadratic whose coefficients are the accumulated numerator and denominator (law of each kernel, by ring identities on 2x2 complex matrices); completing the square gives the unique minimum, for full Jones with positive semidefinite forms.
* **C90** Applying gains is A V Bᴴ with the weights of its variances. Model: `ApplyCal/Model.lean`, the kernels over an ordered field, gains as `Option` (not finite = none), weights as finite, infinite or NaN (`Flt`). Specification: `A V Bᴴ` and `variance`, the sum over the elements of `V` of their variance times the squared size of their coefficient. Round trips by algebra. Failing cases with witnesses.
* **C91** ApplyCal uses for each buffer the gains of its own time. Model: the times of OneApplyCal as state machine (`timeProcess`), with `std::clamp` with exchanged limits as undefined behaviour. Invariant: the current gains are for `m` consecutive times from number `s`, and the time step is the number of the buffer minus `s`. Induction over the stream.
* **C92** ApplyCal corrects each sample once with its own antennas' gains and flags where gains are not finite. Model: `correctionLoop` as fold over a list of (baseline, channel), any permutation of the loop order; the result is shown to be pointwise, and the counters to be counts.
* **C93** Superstations consist of the stations that their patterns say. Model: `StationAdder/Model.lean`, patterns as fold over a list of booleans, the record as fold with errors. Induction over the patterns from the end; invariant over the record.
* **C94** The new baselines of superstations use every baseline once and in the right order. Model: `takeBaseline`, `addBaseline`, `superstation`, `allBaselines` with `newbl` as function. Invariant over the baselines (rows of an antenna are the entries of the baselines so far that belong to it), then invariant over the superstations.
* **C95** The data of a superstation are the weighted mean of the unflagged data of its stations. Model: per point accumulation with flagged and unflagged parts, values `Option` (not finite). Specification by sums over the unflagged points. The two-step mean is shown equal to the one-step mean; failing cases with witnesses.
* **C96** The outlier search of the antenna flagger is sound, stable and fair. FindOutliers as a state of (flag, value) pairs; each pass only adds flags, so that either nothing changes or the number of flags grows; the invariant is that the values are the data with the median in place of flagged ones. Independence of the order: every pass is a map whose limits do not depend on the order.
* **C97** The antenna flagger flags exactly the baselines with a bad antenna. Index arithmetic station * antennas per station + antenna over the flattened lists; the fold over correlations is an exists; the baselines of an antenna by the theorem baselineList_spec of BaselineIndices; the nested flagging loops are one fold over the flattened list of baseline numbers.
* **C98** The clipper flags what is predicted to be too bright, at the right baseline, channel and time. Row search as recursion over the rest of the row numbers; the three nested assignment loops as folds of point updates, each point being written for one predicted channel only; the time steps by an invariant on the counter modulo the time step.
* **C99** Named data buffers behave as a map, also when data move between buffers, and Combine uses them right. The std::map of extra data is an ordered association list; each operation is shown to act on the abstract map (buffer, name) -> data, with the order of the keys as invariant; sequences by induction.
* **C100** Solutions stored in a DPBuffer come back for the right direction. The fold over the directions: the last assignment to a name wins; then index arithmetic for [antenna][direction][polarization].
* **C101** AOFlagger flags every time slot by all windows it is in, and counts new flags once. Induction over the time slots with an invariant for the buffer, the output and the counts after j full windows; flags of several windows combine to the disjunction of their masks.
* **C102** The rotation constraints project the solutions, and their results describe these. The constraints over the real numbers: angles modulo pi with Real.Angle, the product of a diagonal and a rotation has ll = (a+b)e^{i phi}; then invariants for the loops over antennas and over (sub-solution, channel block), with injective indices.
* **C103** The weights of rotation solutions belong to their antenna and are negative exactly for diverged solutions. The exact set of indices whose weights become -1 as an invariant of the loops; the property follows for one sub-solution and is refuted otherwise.
* **C104** The Faraday constraint finds the rotation measure and keeps solutions that have one. Rotation/FaradayModel.lean over the real and complex numbers with the fitter of C105; half of what is claimed follows from the fit of a rotation (C102), the rest is refuted in general, not only for an example.
* **C105** Fitting a line through wrapped phases finds the slope. PhaseLine: fmod by floor and ceiling; circular distance; least squares by completing the square; the search by a fold with the smallest cost; a line through all phases has cost zero, and two such slopes differ by a multiple of 2 pi over the distance of any two x values.
* **C106** The TEC fitter finds the TEC of phases that follow the model. base/PhaseFitter.cc with real numbers (exact `fmod`, cost, searches with their iteration limits). The cost is characterised by `SamePhase`; the searches by invariants on their intervals; exact recovery on grid points by irrationality of pi for rational frequencies; violations by concrete data.
* **C107** The TEC constraint gives solutions that are described by the TEC and phase that it reports. `TecConstraint::Apply` on top of the fitter and of `ReferenceAntenna`; statements are about the exponential of the reported values. The antenna without data is a violation.
* **C108** The TEC and phase that GainCal writes describe its solutions. The fit of a station in GainCal and the conversions in both writers; what values describe is defined by the exponential. The H5Parm phase is a violation with witness.
* **C109** Each gain step of GainCal is the best for the gains of the other stations. The loops over pointers are modelled with flat memories and turned into sums over the elements of an unknown (`sums_eq`); least squares by completing the square. The schedule is a parameter `sees`; the violation is a concrete data set.
* **C110** Each full Jones step of GainCal is the best for the matrices of the other stations. The written-out matrix products are sums over equations (`wSum_eq`, `tSum_eq`); least squares in two unknowns per column with the normal equations.
* **C111** The status of the iterations of GainCal says what the solutions are. State machine of `doStep` and `relax` with real numbers; a change 0/0 has no result in the model. The loop of `calibrate` without TEC fits.
* **C112** GainCal starts a solution interval with the solutions of the previous one, or with the right amplitude. `init` on optional gains (not finite = none); the mean by induction over the unknowns; the start with equal gains composed with the fixed point theorems.
* **C113** GainCal solves for the weighted data of the unflagged crosscorrelations. Writes as a list of (address, value); addresses are injective (mixed radix). Exact data composed with the definitions of explaining gains. Weights by correlation are a violation for Jones matrices.
* **C114** PhaseShift turns the phase centre and nothing else. Directions as unit vectors in space; the Euler matrices are changes of basis (`times_coords`), so that a chain telescopes; real and complex analysis from Mathlib.
* **C115** A predicted sky is the sum of its sources, and does not depend on the phase centre or on the threads. Buffers as functions; induction over the sources gives the sum, then permutations. The shift is a factor common to all sources. Violation by a Gaussian with a baseline along the line of sight.
* **C116** Smearing of the model is the mean over channel and integration, and Stokes I is predicted as all correlations are. Means as interval integrals, `Real.sinc`, the derivative of the delay for a baseline that turns around the pole. Violation by a source that makes one turn in an integration.
* **C117** A Gaussian source is the Fourier transform of an ellipse on the sky. The Gaussian integral of Mathlib in two dimensions; the rest is algebra on the exponent.
* **C118** Spectra and rotation measures give the catalogue values at the reference. Horner sums are polynomials; `calcRMParam` composed with `stokesAt`. Violation by a concrete linear spectrum.
* **C119** A patch is in the direction of the flux weighted mean of its sources. Induction over the sources gives the sums; violations by concrete patches around the pole.
* **C120** Coordinates of stations reproduce those of the baselines. Invariant of the three loops: what is known, linked and exact; the number of known antennas bounds the loops. Positions and result agree along links.
* **C121** With averaging by baseline the coordinates of stations come from the longest baselines. Groups are the classes of links (`SelInv`); each selected baseline between antennas removes one class, which justifies the early exit and shows by counting that the breadth first search uses all of them.
* **C122** A line of a sky model means what its format says. Texts with matching quotes and brackets are an inductive predicate; the scan accepts exactly these (`scan_sound`, with a count of open brackets). Lines and formats are rendered with arbitrary blanks and read back by induction over the columns.
* **C123** A position in separate columns has the sign that was written. Case analysis over the columns that are there; rational arithmetic. A double with a sign is a pair of sign and size, as a zero can be negative.
* **C124** A sky model keeps every source, once, in the patch it was given. An invariant over the lines that were read describes the map of patches by the last line that defines each, and the map of sums by the first line for each (`inv_step`). The update of the patches is a fold over entries with distinct numbers. Patches made for names are the classes of the sources by patch; with all names these are a permutation of the sources.
* **C125** Demixing gives the same result for every chunk size and order of threads. The averaging, factors, solver and subtraction are arbitrary functions. Within a chunk an invariant (`Mid`) says that the buffers hold the complete groups of the times since the last chunk and the averagers the rest; the loop over slots writes disjoint parts (`slots_spec`), so that a permutation of the slots gives the same result; over chunks the result is the one expected for the times before (`Between`).
* **C126** Demixing subtracts the sources exactly, whatever the averaging. The loops over direction pairs are folds over a list of distinct pairs with a running number; an invariant gives each entry of the buffers (`addPair_fold`, `fillPair_fold`). The averages and factors are sums over the same visibilities, so exchanging sums gives the mixing equation. The deprojection is matrix algebra over ℂ with the inverse of Mathlib, which is 0 for singular matrices as in the code.
* **C127** The equations of the demixer are the gradient of its least squares problem. The five nested loops with their cursors are folds; induction over each loop shows that they visit the places of a plain comprehension and leave the cursors at a known distance (`src_fold` to `iteration_eq`). The coefficients of an equation applied to a step are the first order term of the prediction, by ring for each correlation; summing over the data gives the gradient. The loops of `apply` and `subtract` are treated with an invariant on the written places.
* **C128** The robust demixing cost and its gradient belong together. Cost and gradient are sums over the equations of C127. The prediction is a polynomial in the step (`predicted_moved`), so the derivative of each logarithm is elementary (`log_deriv`) and the sum follows by induction.
* **C129** BDA data that is written to a measurement set can be read back. Invariant on the windows after n baselines (`WinInv`), then the written tables are explicit (`openWriter_ok`, `writeBuffers_ok`). The reader loop is compared with the list of rows that do not end before their predecessor (`readLoop_eq`), whose capacity and ordering checks never fail; buffers are glued by induction on the number of calls. Violations by concrete witnesses evaluated in the kernel.
* **C130** Copying a BDA measurement set keeps its rows. The row numbers of all delivered rows increase strictly (`readLoop_rowNr`, `readBuffers_rowNr`), and a successful writer has all of them below the number of rows (`writeBuffers_length`); an increasing list of n numbers below n is 0..n-1.
* **C131** DDECal forwards every buffer once, in order and with the right data. State after n buffers since the last set is explicit (`Filled`, invariant over `prepare`); `doSolve` on such a state is described per interval (`solveOne_spec`, `solveAll_spec`) and its output per buffer (`post_eq`); strong induction over complete sets (`run_spec_aux`, `runSpec_append`). Progress by the same induction (`run_ok_aux`).
* **C132** DDECal subtracts the model with the solutions of the stations of each baseline. From C131 with the map of antennas. For the violation: an increasing map of the used antennas onto 0..n-1 that is not the identity has an antenna with a number of at least n (induction upwards), whose access is out of bounds.
* **C133** The solver gets the mean time, normalized antenna weights and the right flags of its interval. The calls are explicit by C131 (`IsCall`); the sums are given in closed form by induction from the right (`timeSum_eq`, `antWeights_eq`); visibility counts are counts over a list of visibilities (`visCount_eq`); each channel is in one block by C134.
* **C134** Channel blocks of DDECal partition the channels. Induction over the channels for the counted block; arithmetic of floors for the sizes.
* **C135** Solves start from the right values and results get the right weights. From the explicit calls of C131, with the solutions of earlier intervals unchanged by later ones (`other` in `RunSpec`); index arithmetic for the unit matrices.
* **C136** The solution file of DDECal has the right solution for every time slot. The kept times are explicit by induction over the loop (`timesFrom_eq`); the upsampled solutions are those of the first slot of each substep (`upsample_spec`, from C34), and all slots of a substep have the same solution (`slotSolution_substep`); indices in concatenated lists of equal lengths (`flatten_get`).
* **C137** Results of constraints are written completely. Upsampled results are compared with the original ones per substep (`upsampleConstraints_spec`), in one statement for both cases of `Write`; tables from concatenation over time (`column`, `constraintTable_spec`). Frequencies: the slices of the channels concatenate to all channels (`blocks_partition`).
* **C138** BdaDdeCal solves every interval once, with its rows and their models. BdaDdeCal: queue of input buffers, solver buffer and solves as a state machine with arbitrary delays of the sub-steps; the queue is the list of inputs with the models that came out so far (`queueOf`), the solver buffer refines the bookkeeping of C35-C37; invariant over all calls, the bounds of the loops are shown to be enough. `solver_calls`, `row_once`, `calls_needed`.
* **C139** BdaDdeCal forwards every buffer once with the model subtracted. BdaDdeCal: same machine; the buffers inside are the inputs with the solutions so far applied (`staged`), those outside the final ones. `forwarded`, `subtracted_partial`; false for several solutions per direction.
* **C140** BdaDdeCal forwards the flags of the input. BdaDdeCal: flags of the output; true without UVW limits only.
* **C141** BdaDdeCal with onlypredict forwards the sum of the models. BdaDdeCal: `onlypredict` branch of the same machine.
* **C142** Antenna weights of BdaDdeCal are the mean weights of the rows of the antenna. BdaDdeCal: the accumulation loops as sums over rows; mean proved without autocorrelations.
* **C143** BdaDdeCal accepts every orderly BDA stream. BdaDdeCal: success as a second invariant (the current interval is not beyond the last row of any baseline).
* **C144** An iteration of a direct solver is a least-squares fit per antenna. Direct solvers: the loops as lists of bounds-checked assignments with running positions; every assignment lands at its own place, so the system is a list of rows in a permuted order (`filled`); the residual is the misfit of the visibilities of the antenna, the other visibilities are constant.
* **C145** Correct solutions are kept by an iteration of a direct solver. Direct solvers: the misfit of exact data is zero, a minimizer predicts the same, and these are determined; false for a zero first element.
* **C146** Every linear solver minimizes the residuals. Linear solvers: LAPACK routines as parameters with their documented effect; orthogonality of the residual implies minimality.
* **C147** WGridderPredict predicts every time slot from its own coordinates. WGridderPredict: buffering as a recursive function over the stream; the gridder writes through views whose indices are integers; each write lands at its own place with its own frequency.
* **C148** IDGPredict predicts every time slot from its own coordinates. IDGPredict: same buffering; the loops of CorrectVisibilities with running pointers and bounds; invariant on the pointers. False with aterms.
* **C149** IDG gets unpolarized images. IDGPredict: the vector of the images as a list that is resized; true for facets of increasing size.
* **C150** A facet is predicted at its place in the image. WGridderPredict: integer arithmetic of padding and offsets.
* **C151** IDG is initialized for the largest w. IDGPredict: the running maximum as a fold.
* **C152** Every time slot has its own place in the dynamic spectra. DynSpec: the column-major tensor as memory with locations; the location is injective, so the fold over slots fills it.
* **C153** A dynamic spectrum is the flux of the source. DynSpec: sums over baselines; the code divides twice. True for one baseline only.
* **C154** DynSpec does not change the data. DynSpec: the buffers of the model run. False with subtraction.
* **C155** The file of a dynamic spectrum has the observation ID. DynSpec: the string operations on lists of characters.
* **C156** ScaleData uses the first pattern and the size of each station. ScaleData: the loops over patterns, rows of the table and stations; Horner equals the sum of powers; counting equals the sum over the rows of a station.
* **C157** ScaleData scales each visibility of BDA data once. ScaleData: rows as windows in memory; the product of the factors of the windows that cover an element.
* **C158** The reordered files divide the channels. WSCleanWriter: well-founded recursion over the parts; an inductive predicate for the division.
* **C159** The reordered files have the rows of the cross-correlations. WSCleanWriter: the loop over baselines.
* **C160** Initial solutions go to the right sub-solution. Modelled: `InitialSolutions::Read` as loops that write the vector of a channel block; tensors are read in row-major memory, also beyond a dimension. Proved by an invariant on the places that are written. Partial: a file of diagonal solutions with a mode of four values reads the next antenna and outside the tensor.
* **C161** Mode names that are shown are accepted. Modelled: both functions of base/CalType.cc. By cases on the mode.
* **C162** Grouped prediction gives each BDA row the prediction of its own baseline and time. Grouped prediction gives each BDA row its prediction. Modelled: `BdaGroupPredict`: the groups, `ProcessRow`, `Flush`, the queue, `finish`; pointers are (buffer, row) pairs and a write to a buffer that has left the queue is `ub`. Proof: invariant with ghost lists of done and pending rows; per group the pending rows are a strict prefix of the current round. Theorem `grouped_partial`.
* **C163** Grouped prediction reports incomplete data. Grouped prediction reports incomplete data. Proof: invariant for any input that counts written rows; at the end all rows are written, so no rows are pending. Theorems `incomplete_reported`, `repeated_ub` (gap: a repeated baseline).
* **C164** Grouped prediction is made for the time of the row. The time of grouped prediction. False; theorem `predicted_late`, from C162 for streams of one baseline.
* **C165** Grouped prediction uses the frequencies and integration time of the baselines. Frequencies and integration time of groups. Modelled: `MakeSteps`, the frequencies of `BdaAverager`. Theorems `freqs_partial`, `freqs_wrong`, `interval_wrong`.
* **C166** Grouped prediction with operation add adds the model to the data of the row. Grouped prediction with operation add. False; theorems `add_accumulates`, `add_wrong`, from C162 with the operation of `OnePredict::process`.
* **C167** Predicted visibilities do not depend on the number of threads. Prediction over threads with cached beam values. Modelled: `makeSourceList`, `PredictSourceRange`, `addBeamToData`, `PredictBuffer::Resize`, `PredictWithSourceParallelization`; visibilities are a commutative group, applying the beam is additive, caches are lists and an index outside is `none`. Proof: loop invariant per range (model plus beam of the current patch is the sum so far), cache invariant per thread, induction over times. Theorems `beam_partial`, `beam_age`, `plain_threads`, `other_ranges_wrong`.
* **C168** The beam of a prediction is computed for one time. Time of telescope and direction. False; theorem `direction_late`.
* **C169** The operation of a prediction gives the right data. Operations. Modelled: `OnePredict::process` after the prediction with taken and restored main data, the sub step that applies solutions to the main data, the chain of `H5ParmPredict`. Theorems `operation_main`, `operation_named_partial`, `named_uncorrected`, `h5_all`, `h5_named_wrong`.
* **C170** Unpolarized models are copied to the first and last correlation. `CopyPredictBufferToData` with memory as a list. Theorems `copy_four`, `copy_fewer`.
* **C171** Updating weights is refused when the operation is not replace. The check of `SetApplyCal`. False; theorem `weights_not_checked`.
* **C172** Solutions per direction are accepted exactly when they fit. DdeSettings: `prepare` with the tests in order; equivalence with a declarative description (`Fits`).
* **C173** Every solution has the smoothness factor of its direction. DdeSettings: induction over the directions; the expanded factors are the factors of the solution directions.
* **C174** Reused model data are those that match a pattern. DdeSettings: the first matching pattern of each name; counterexamples for shadowed patterns and equal names.
* **C175** The core constraint holds for the antennas near the first antenna. DdeSettings: membership of the set over any ordered field; the sets do not depend on the core distance when groups are given.
* **C176** Groups of the antenna constraint are the named antennas. DdeSettings: membership in terms of the first antenna with a name.
* **C177** Averaging factors per antenna are accepted when they can be applied. DdeSettings: `initInterval` on the factors of all antennas and the number of used ones.
* **C178** Nearer antennas are smoothed more. DdeSettings: factors over an ordered field with a monotone root; the real square root is an instance.
* **C179** Phases of the TEC and delay fit are wrapped to one turn. TecDelay: `fmod` with truncation over an ordered field with floor.
* **C180** The grid search of TEC, offset and delay finds data without noise. TecDelay: the search as a fold with a best cost; the least squares fit of GSL by its defining equations; counterexample with a finite set of reachable fits.
* **C181** The results of the TEC, offset and delay constraint describe the solutions. TecDelay: `applyOne` and the units of the results.
* **C182** The beam of an antenna is that of the station with its name. model of `SelectStationIndices`; the greedy loop finds a selection if the names are a sublist of the names of the telescope, and any selection makes them a sublist.
* **C183** skipstations skips the stations with these names. model of `ComputeBeam` with the layout of its result; proved for antennas that are a prefix of the stations; two counterexamples.
* **C184** The beam correction in the metadata is the one of the data. invariant `Corrected` over lists of steps (apply after undo), uniqueness of the corrected data, and counterexamples.
* **C185** The scalar array factor is the array factor. both calculations are modelled with their index arithmetic and are shown to be equal by cases on what is finite.
* **C186** Undoing a beam correction restores the weights. the weights of a diagonal beam in closed form; a counterexample with an upper triangular beam.
* **C187** A parameter polynomial is evaluated on the scale of its cell. model of `AxisMapping` and of the Horner loops; the loops are the sum over the powers, the index is the unique cell that the center belongs to.
* **C188** Default polynomials are the same function after the solve grid is set. the loops over the triangle of Pascal are the binomial theorem; function equality of the polynomials before and after.
* **C189** A perturbed result is the result of the perturbed coefficient. model of the result with the perturbation array; linearity of the polynomial; theorem that a mask with an unsolvable coefficient gives an out of bounds read.
* **C190** A scalar parameter has the value of the cell that contains the predict cell. model of `getResultScalar` and `fillArrayPV` as a list of writes; every element is written, with the value of the cell that contains its center.
* **C191** Extending a parameter keeps its values and continues them. the copy loops give the element at the nearest old index, which is the nearest old cell in the combined axis of C83.
* **C192** The coefficients that are set are read back. model of `setCoeff` and `getCoeff` with masks; the compacted index is the rank in the mask.
* **C193** Sub steps of applycal inherit the settings of the step. CalParms: the settings of ApplyCal/OneApplyCal as lookups in a parameter set with the prefix of the sub step and of the step; proved: equal to the settings with all missing ones filled in from the step, provided interpolation, usemodeldata and soltab are given for the sub step or not at all.
* **C194** All gains of a ParmDB are read. CalParms: detection of representation and kind, and expressions; proved by prefix reasoning over all lists of names. Missing: ParmDBs with phases only, for which the code throws or reads the defaults (phases_not_read).
* **C195** Each antenna gets its own parameter values. CalParms: lookup of the values of a ParmDB for an expression and antenna; proved for uniform names; counterexamples for others.
* **C196** Solutions of the buffer are those of the direction. CalParms: choice and check of the solution; soundness of an accepted solution, with counterexamples for what is not checked.
* **C197** Solutions of an H5Parm are those of the direction. CalParms: index of the direction; sound and complete for tables with several directions and for step names without a dot.
* **C198** An update changes only the rows, channels and fields that were processed. MsOutput: the main table as a list of rows, putSlice/put of casacore on a list of channels; invariants over all buffers of a run.
* **C199** The flags that are read after an update are those that were written. MsOutput: readFlags after update; proved for all rows in the selection, for other channels under consistency of FLAG_ROW, which is preserved. A row with FLAG_ROW set and FLAG clear loses its flags in other channels.
* **C200** A new measurement set has every buffer, in order. MsOutput: appending rows; position of baseline i of buffer k is k * nbl + i, by induction over the buffers.
* **C201** A step after writing sees the same buffer, and can update what was written. MsOutput: the buffer after writeBuffer, and update with its row numbers. Missing: compression with flags, and a first channel other than 0, for both of which the statement is false.
* **C202** The name of the output decides between update and new. MsOutput: makeOutput, with the conversion to absolute names as a parameter.
* **C203** Chunks split the data by time. MsOutput: fold over the buffers, with the invariant that the current chunk is within the duration from its start.
* **C204** Chunks have different names, in the same directory. MsOutput: names as lists of characters, decimal digits with Nat.digits; injective in the number for any name.
* **C205** Writing in a thread gives the same measurement sets. MsOutput: small step semantics of both threads; invariant written ++ taken ++ queued, progress and a decreasing measure.
* **C206** Weights that are read are usable. MsOutput: weights for one channel over an ordered field; missing: data that were not read (undefined).
* **C207** The correction for the beam is remembered. MsOutput: keywords of a column as optional values; round trip over any sequence of runs.
* **C208** GainCal: solution intervals, buffers and writes. State machine of process and finish with an invariant over all buffers; the solver is any function of its state and the buffers. Negative result for solint=0 with applysolution.
* **C209** GainCal: time axes of the solutions. Concatenation of the axes of all writes (C208) is shown to be the list of intervals; membership of the middle of a slot in an interval is equivalent to the index of its solution.
* **C210** GainCal: frequency cells. Closed form of the cells by induction; arithmetic of regular frequencies; counterexample for a short last cell in an H5Parm.
* **C211** Solutions of GainCal in a ParmDB are what applycal gets. Model of the names that are written, composed with the model of applycal of C194 and C195. Negative result for a ParmDB that was used before.
* **C212** Tables of GainCal in an H5Parm. Enumeration of the modes (finite type) for the quantities; induction over the axes for the index of a value. Negative results for two modes.
* **C213** LBFGS solver: the gradient is the derivative of the cost. Cost and gradient loops as lists of additions to the gradient; the residual along a line is a polynomial of degree two, its linear term is matched with the additions per mode; HasDerivAt of Mathlib for log and sums.
* **C214** LBFGS solver: minimum of the cost. Sum of nonnegative logarithms; norm of a residual is 0 iff the residual is.
* **C215** LBFGS solver: unknowns and solutions. List lemmas on take, drop and zipWith; arithmetic for the indices.
* **C216** Low rank solver: matrix of correlations. The calls of AddToCorrelation are a permutation of an independently stated list of what the data say about an element; sums and a quadratic identity give the minimum.
* **C217** Low rank solver: weights of the elements. Bounds from the maximum of a finite set; closed form of the variance for equal visibilities contradicts the last part.
* **C218** Low rank solver: exact data. The power method on a matrix of rank one gives the factor in one step; the term of the next approximation is again the same matrix (invariant over all approximations).
* **C219** Low rank solver: order of directions. Insertion sort with the comparison of the code; induction over the solves.
* **C220** Low rank solver: residual of each direction. Invariant of the residual over the directions, for any solve function; index arithmetic of the flattened tensor gives the channel block that is used.
* **C221** Low rank solver: convergence. State of the variables before the loop, which the shadowing declarations in the loop leave as they are; induction over the loop.
* **C222** The antenna solver minimizes the squared differences of data and model with gains, with exact derivatives. Model in AntennaSolver/Model.lean: PenaltyFunction, PenaltyDerivative and PenaltyVV write eight numbers per visibility into a vector with bounds. Lemmas.lean has the effect of the loops per element. The exact expansion of second order is shown per element, and the cost as a sum over visibilities.
* **C223** The gradient of the antenna solver is that of its cost. The inner product of the result of PenaltyTransposedDerivative with a change is computed by induction over visibilities, and compared with the inner product with the derivative. Counterexample by computation.
* **C224** The normal matrix of the antenna solver is the product of the transposed derivative and the derivative. The form of the matrix is computed per visibility (form_add), which gives a sum of squared norms; symmetry per element. Counterexample by computation.
* **C225** The antenna solver stays within the vectors of GSL for every solution of a direction. The loop over visibilities succeeds iff all indices fit (forSolution_eq); counting shows that they fit iff the visibilities of the solution are the first ones.
* **C226** The antenna solver stops when solutions have converged and says so. The loop with the two variables of the name has_converged as in the code; induction over iterations. Uses the model of ReachedStoppingCriterion in LowRank.
* **C227** The low rank solver uses flags and weights of the data as DDECal prepares them. LowRank/Prepared.lean joins the models of AssignAndWeight (SolverTools) and of the correlation matrix (LowRank), for one direction.
* **C228** Piece-wise phase fits give every channel the line of a window that has it. Model in PhaseSlope/Model.lean (exact arithmetic, output as a function of the channel, every write in the order of the code). A lemma on folds of writes (foldl_write) says which write is last; arithmetic on the window positions does the rest (Windows.lean).
* **C229** The weighted median is a value with at most half of the weight on each side. Invariant of the loop: the sorted list is the part before, the value and the part after, of which the sum is the prefix sum. Sortedness gives that smaller values are in the part before.
* **C230** The line of a window is the weighted least squares fit to the phases. The cost is a quadratic form in offset and slope; completing the square. The spread of the frequencies is itself a cost, which is zero iff all frequencies with weight are equal.
* **C231** The fit recovers a line from phases that are wrapped. The median has weight (C229), so it is on the line up to turns; all values within half a turn of it then have the same number of turns, so that the cost of the line is zero and C230 gives that it is the result.
* **C232** The first guess for the phases of a window is the quarter turn with the most weight. Induction over the samples for the counts; the choice by cases.
* **C233** The solver that DDECal creates fits the mode. Model in SolverChoice/Model.lean: the functions of SolverFactory.cc with settings and build options as arguments. Every stage is made by createStage (each_stage); cases over modes and algorithms.
* **C234** A solver that is created can solve the data for which it was created. The type of data of the Solve that each class has is compared with the data that the step makes; cases.
* **C235** A request for a GPU is honoured or refused. From the cases of createDiagonal; the other functions do not look at the setting.
* **C236** Model weights reach all constraints of the solver. SetDdConstraintWeights uses the own constraints of the solver, of which the hybrid one has none.
* **C237** An AARTFAAC file gives the block at its position. Model in Aartfaac/Model.lean: the file is a list of bytes with a position. Invariant: the position in the stream is that of the block; induction over calls.
* **C238** All time steps of an AARTFAAC file are read. Induction over the calls of process; file size divided by block size is N + (1536 N + rest) / B.
* **C239** Files that are no AARTFAAC files are refused. Cases of Check.
* **C240** The meta data of AARTFAAC input are consistent. Values that are not finite are absent options; algebra of the formulas.
* **C241** AARTFAAC data that are not finite are flagged. A sum is finite exactly when all terms are; the rotation has determinant one.
* **C242** The AARTFAAC reader stays within its arrays. updateInfo only sets the output, so that lookups in the input fail; pairs from the properties of BaselineIndices.
* **C243** Antenna positions are those in the AARTFAAC configuration. Model in Aartfaac/Config.lean on tokens. Tokens of a well-formed file are defined from its arrays, and the parser is proved to invert this by induction over dimensions, values and arrays.
* **C244** Bad AARTFAAC configurations are refused. Cases; the remainder by induction over six values at a time.
* **C245** The table of flagged baselines is complete. Model in FlagReport/Model.lean. Counts as sums over baselines by induction; the scan over antennas takes the next used ones, and induction over pages.
* **C246** The list of fully flagged baselines is right. A sum of counts that are at most n is the maximum exactly if all are n.
* **C247** Warnings tell which channels are flagged too much. Cases; arithmetic.
* **C248** Saved percentages have a name of their own. Text as lists of characters; takeWhile and dropWhile of names without dots and slashes.
* **C249** Messages from a socket do not depend on chunks. Model of the loop over `read` with a list of chunks (SvpInput/Model.lean); proved equal to taking bytes of the concatenation, by induction over the chunks.
* **C250** Flags that are sent are set in the buffer. Model of `process` for ALMA with a decoder as parameter; the negation is proved for all streams.
* **C251** Visibilities from a socket are stored where they belong. The writes through a pointer are modelled as writes in the flat array that can be out of bounds; the contents after the loops are proved by induction over baselines and channels.
* **C252** Meta data from a socket are complete. The twenty receive calls are modelled one by one with what is kept when they fail. A specification `Parts` has the messages; received = sent is proved in both directions.
* **C253** A socket that closes too early is noticed. Runs of `process` by induction over the blocks of the stream.
* **C254** The baselines of socket input are complete. Lists of pairs by induction over the number of antennas.
* **C255** ParmDB objects share open tables safely. Model of the registry with numbered reps (ParmTables/Registry.lean); an invariant over all sequences of operations, with the reference count equal to the number of objects and a bijection of names and entries.
* **C256** Parameter values are read as they were stored. Model of the tables NAMES and main with row numbers (ParmTables/Model.lean), refinement to a map by name, by induction over operations.
* **C257** A ParmDB can be used after its tables are cleared. The negation is proved: an invariant of the broken state is kept by all operations.
* **C258** Updating a value replaces that value. Row numbers of values proved right while nothing is deleted; two witnesses otherwise.
* **C259** A parameter has one name entry. The negation by a witness for two ParmSets.
* **C260** The default value is that of the most specific category. Model of the map and of the search by prefixes; the invariant that the map is empty or equals the table.
* **C261** Each time slot is imaged once. Model of the step with its two counters (ImageStep/Model.lean); the state after any list of buffers is proved by induction from the end, from which the contents of each row follow.
* **C262** Antennas of an image have their own names. Sorted lists of distinct numbers: element a is at position a exactly if all smaller ones are there.
* **C263** Images have different, sorted names. Decimal digits by recursion; lexicographic order equals the order of the values for lists of the same length.
* **C264** Time ranges of the preflagger match what they say. Texts are lists of characters, split at the first separator; values are rationals. The circle of a day is stated with integer multiples of 86400, of which only -1, 0 and 1 can count (PreFlagRanges/Props.lean).
* **C265** Channel selection of the preflagger. Induction over the list of elements, for any earlier selection; then the conjunction with the frequency selection.
* **C266** Frequency ranges and their units. The unit is the longest tail of letters; all four cases of given units. The union by induction over the ranges.
* **C267** Transfer refuses a source with other stations. The check as a comparison of lists; it is the prefix relation (Transfer/Check.lean).
* **C268** Transfer leaves the rest of the data defined. Elements without value are `none`; the theorem on the rows of a transfer is used for arrays of such elements.
* **C269** An update replaces flagged values exactly in compressed columns. The choice of the storage manager as a function, with an exact condition for Dysco; the loop over the flags by induction, with no flags if they were not read (UpdateStorage).
* **C270** An update follows the settings of the storage manager. From the exact condition for Dysco.
* **C271** A prediction follows a moving phase centre. A state with the reference of the step and that of the plan; induction over the time slots shows what each is predicted with (FastPredict).
* **C272** A prediction is made for the baselines of the measurement set. Same state; the baselines are carried along.
* **C273** The fast prediction fills all correlations. Two assignments to a list of zeros.
* **C274** An update uses the row numbers of the measurement set that is updated. The loop over the names as a function that carries the last step and the current measurement set, and a walk along the chain that carries to which measurement set row numbers belong; induction over the names (MakeSteps).
* **C275** A chain is created exactly if its steps fit together. Same loop; accepts, outputs and what a step really processes and passes on for each class of steps; induction over the names.
* **C276** A step has the type of its name without number. Lists of characters; the table of MakeSingleStep.
* **C277** A named output is always made. Cases of makeMain.
* **C278** The file system of a file is that of the longest mount point. Positions of slashes as a sorted list; the slash behind a mount point is among those that are looked at, because their number is that of its parts; the search from the end then finds the longest (Cluster).
* **C279** The maps of a cluster description fit its nodes. Invariant of the three members, by induction over the nodes that are added.
* **C280** Times in a description of a data set are the same after writing and reading. Writing and reading as functions of the start and step; induction over the slots, with arbitrary loss of digits (Vds).
* **C281** A combined description covers its parts. The loop over bands with its index; induction over the bands with those before as prefix. Fold for the times.
* **C282** The description of a measurement set has its bands and fields. Lists of rows; access outside an array is an outcome.
* **C283** A value printed with a unit prefix is the value. The loop as recursion on the prefixes that are left; induction (Units).
* **C284** The memory to use respects what the user gives. Cases on what is given (Units).
* **C285** A flush of the parameter cache writes what changed. Events of a flush; induction over the value sets (ParmCache).
* **C286** A flush of the parameter cache is done under one lock. No unlock event between two write events; induction over the value sets.
* **C287** The id of a parameter in a ParmSet is that of its name and ParmDB. Fold of addParm over requests; invariant that names are unique (ParmSet).
* **C288** Each new parameter gets its values once. Invariant that ParmDBs are unique and known; the number to do is at least the number of parameters in the ParmDBs that are left.

## Findings

Places where the code does not do what its documentation or a user would expect, each shown by a theorem about the model with concrete values.
* Updating a measurement set whose weights were read from WEIGHT writes weights that no step asked the reader for (`Chain`, C54).
* Rows of a BDA buffer created without a memory pool for a field are accepted although their positions overlap those of other rows (`BdaBuffer`, C06).
* Averager: a fully flagged bin gets the mean and weight of its flagged samples (`Averager`, C08).
* BDA averager: the UVW of a fully flagged row is not averaged, the flags of the output are always false, and `minchannels` of 0 or more than the number of channels is not handled (`BdaAverager`, C11).
* BDA expander: time slots for which not all baselines arrived are dropped silently at the end (`BdaExpander`, C12).
* Lane: a buffered lane with read buffer size 0 reports the end of the data at once (`Lane.empty_read_buffer`, C15).
* Upsample: an empty input stream makes `finish` use a null buffer (`Upsample.empty_stream`); three overlapping input slots duplicate a time (`triple_overlap`); two input slots with equal times lose a slot (`equal_times`) (C16).
* Interpolate replaces non-finite visibilities that are not flagged (C13).
* MsReader: when the last slot is early by less than the time tolerance, it is not read (`MsReader.last_slot_lost`, C17).
* MsReader: after two slots that are out of time order the emitted times go back, because the second is compared with the first, skipped one (`MsReader.time_goes_back`, C17).
* MsReader: when flags are read without visibilities, partially flagged visibilities stay partially flagged (`MsReader.flags_without_data`, C18).
* MultiMsReader does not compare the times of the measurement sets: irregular sets with equal first time, last time and interval are joined although their slots are at different times (`MultiMsReader.times_differ`, C19).
* PreFlagger: a channel or frequency selection that matches no channel of the data is ignored, so that with a time criterion the whole time slot is flagged (`PreFlaggerSet.empty_channels`, C22).
* PreFlagger looks only at the flag of the first correlation: partially flagged visibilities are not completed by mode set (`PreFlaggerSet.set_misses`); mode clear flags, and counts, selected visibilities that were not flagged but have zero weight or non-finite data (`PreFlaggerSet.clear_flags`, C23).
* **C26 / `DPInfo::update`**: the averaged channel frequency is the mean of the first and last channel frequency of the bin, which is not the centre of the bin if these two channels differ in width (`centre_off`).
* **C61 / `DPInfo::SelectChannels`**: the total bandwidth is not updated, so after a channel selection (`msin.nchan`, `filter`) `MSWriter` writes the `TOTAL_BANDWIDTH` of the unselected axis (`bandwidth_stale`). An averaging afterwards repairs it.
* **C62 / `DPInfo::setAntennas`**: the cached baseline lengths and autocorrelation indices are not cleared. With the steps madflagger, stationadder, madflagger the second `MadFlagger` gets the lengths of the old baselines only (`caches_stale`), and indexes outside of them.
* **C62 / `DPInfo::getAutoCorrIndex`**: without baselines an end iterator is dereferenced (`autos_empty`).
* **C27 / `Filter::updateInfo`, `process`**: an empty list of selected baselines is taken as "no baseline selection", so a selection that matches no baseline lets all baselines through (`empty_selection`).
* `MadFlagger::updateInfo` (steps/MadFlagger.cc:138-143) indexes `itsFlagCorr` with its own values: `correlations=[0,3]` reads outside the vector (`MadFlagger.corr_outside`), `[2,1,1]` uses correlation 1 only (`corr_wrong`).
* `MadFlagger::finish` with fewer time slots than the time window shortens `itsTimeWindow` but not the per-baseline windows, so that entries outside `timeEntries` are read (`MadFlagger.short_input`).
* `MadFlagger::computeFactors` takes the medians over the whole temporary buffer, of which only the first `np` elements belong to the window; with flagged samples the decision depends on what earlier windows left there (`MadFlagger.stale_median`).
* `common::Median` reads `*target` after a second `nth_element` over the whole range, which the standard allows to move that element: an even number of values need not give the median (`MadFlagger.median_even`).
* The `applyautocorr` loop of MADFlagger tests correlation 0 only: a sample with only that correlation flagged is not extended (`MadFlagger.auto_missed`).
* The BDA constructor of SolveData reads `weights_.shape()[2]` of a two-dimensional tensor (SolveData.cc:255) whenever weights are requested (the low-rank solver): `SolveData.bda_weights`.
* The BDA constructor of SolveData limits the solutions per direction by the number of rows; with fewer rows than solutions the start indices of the directions differ from those of the solver and of the solution writer (`SolveData.bda_limited`).
* For BDA data, SolveData, ApplySolutions and GetChanBlockIndex assign averaged channels to channel blocks with three different roundings: ten channels in three blocks averaged by two gives three different assignments (`SolveData.blocks_differ`), so that a channel is corrected with the solutions of another block.
* BdaSolverBuffer::AppendAndWeight: the check for ordered rows compares with the last *complete* interval of the baseline, so a row that goes back by one solution interval is accepted and can be added to an interval that IntervalIsComplete already reported complete (C37, `complete_not_final`).
* AssignAndWeight / AppendAndWeight look at flags, data and model data but not at the weights: a negative or non-finite weight of an unflagged sample gives the solver non-finite data (C69, `bad_weight`).
* KernelSmoother::Smooth with truncation moves the window borders at half the bandwidth, but the (3 sigma) kernel reaches the whole bandwidth: channels with non-zero kernel are skipped, so truncation changes the result (C72, `truncation_too_narrow`).
* KernelSmoother::Kernel: the Epanechnikov kernel is computed as 3/4 (1-x)^2 instead of 3/4 (1-x^2), which is not symmetric (C73).
* AntennaConstraint: antenna sets that overlap are accepted by the settings; antennas of one set then end with different solutions (`antenna_overlap`).
* MakeSolutionsFinite2Pol/4Pol (SolverBase.cc:354, 385) add `std::abs(iter[0])` for every polarisation, so that the other polarisations get the mean amplitude of the first; with full Jones the off-diagonal elements become as large as the diagonal (`wrong_polarisation`).
* DetectStall (SolverBase.cc:63-86) is only called when the constraints are satisfied and resets its members only in iteration 1: when the constraints are not satisfied in the first iteration it uses uninitialised or stale members (`stall_uninitialised`, `stall_stale`). With the default stepsigma 0.1 it cannot trigger within 101 iterations, maxiter being 50 by default (`default_never_stalls`).
* A stalled solve returns iteration + 1, which is not above the maximum, and so `flagunconverged` (DDECal.cc:720-739) does not flag it (`stalled_looks_converged`).
* AssignSolutions (SolverBase.cc:240-243) claims that full-Jones solvers given scalar matrices use the same number of iterations as the scalar solver; the magnitude is half (`scalar_as_matrix`). With no comparable solution the magnitude is 0 and the solve has "converged" (`nothing_is_converged`).
* **NullStokes does not check the number of correlations** (NullStokes.cc process): with two correlations it combines values of neighbouring channels (`NullStokes.two_correlations`), and when the array size is not a multiple of four it reads past the end (`process_ub`).
* `ParameterValue::getUint32` (common/ParameterValue.h:59) returns `int32_t`: values from 2^31 on come out negative (`StringTools.getUint32_partial`).
* strToLong (common/StringTools.cc:90-110) accepts an empty text as 0 with glibc, as `strtol` does not set EINVAL there: `[1,,2]` is read as 1,0,2 (`ParamValue.missing_element`).
* strToBool (common/StringTools.cc:77-88) looks at the first character only: `nonsense` is false (`StringTools.strToBool_spec`).
* expandMultString: `0*v` leaves an empty element (`[1,0*2]` becomes `[1,]`, `StringTools.repeat_zero`).
* expandRangeString: a range that ends at the largest int overflows the loop variable (`StringTools.range_overflow`); a quote directly after `..` is skipped over, so the closing quote is taken as an opening one (`StringTools.dots_quote`).
* ParameterSetImpl: in the case-insensitive mode a key that was asked for in another case is still reported by unusedKeys, because itsAskedParms compares exactly (`ParamSet.unused_nocase`).
* ParameterSetImpl::readStream: an unquoted equal sign in a value makes a second key: `a=b=c` in a file gives a="" and b="c", whereas the argument `a=b=c` on the command line gives a="b=c" (`ParamSet.equal_in_value`).
* ParameterSetImpl::readStream: `a==b` gives the key `=b` (the length nonbl-stval+1 wraps around), and `=5` gives the key `=` instead of the exception for an empty key (`ParamSet.double_equal`, `missing_key`).
* ParameterSetImpl::readStream: text before the first key is silently put in front of the value of that key (`ParamSet.leading_text`).
* `Grid::toDomains` (parmdb/Grid.cc:236-259) allocates the buffers of the y values with the size of the x axis; it writes behind their end for every grid with more cells in y than in x (`ParmGrid.toDomains_overrun`).
* `Axis::combine` (parmdb/Axis.cc:208-240) reads behind the cells of an axis, instead of raising its exception on a mismatch, when the axes overlap by less than half a cell: [0,4) and [3,7) (`ParmGrid.combine_overrun`).
* `Axis::subset` (parmdb/Axis.cc:331-350) includes the cell behind a hole when the end of the interval lies in the hole (`ParmGrid.subset_hole`), and `Axis::makeAxis` turns cells of equal width with holes between them into a regular axis without holes, so with other cells (`ParmGrid.makeAxis_hole`).
* `Grid::getCellId` (parmdb/Grid.h:136-138) returns a 32-bit number: ids of grids with more than 2^32 cells are not unique (`ParmGrid.cell_id_wraps`).
* `Transfer::TransferSingleTimeSlot` (steps/Transfer.cc:148) and the same loop of `FlagTransfer::process` read one element behind the target frequencies whenever the last target channel is inside the source, because the bound is compared after the read (`Transfer.transfer_overrun`).
* Transfer and FlagTransfer with descending frequencies copy all target channels from the first source channel (`Transfer.transfer_descending`); FlagTransfer uses half of the width of the first channel for all edges (`Transfer.flag_transfer_edges`).
* UVWFlagger squares both ends of ranges of the uv distance in metres, also a negative start (steps/UVWFlagger.cc:363-370): `uvmrange=3+-5`, so -2 to 8, flags distances from 2 to 8 only (`UvwFlagger.negative_uv_range`).
* UVWFlagger::handleCenter reads the frame of `phasecenter=ra,dec,frame` into a variable that is not used (steps/UVWFlagger.cc:401-410): the direction is always J2000 (by reading; not modelled).
* HybridSolver::RunSolver subtracts the accumulated number of iterations instead of those of the stage (ddecal/gain_solvers/HybridSolver.cc:55-56): with three stages that converge the remaining number wraps around and the maximum is exceeded (`HybridSolver.three_stages_exceed`). The solver factory only makes two stages.
* The hybrid solver with `maxiter=1` performs two iterations (`HybridSolver.one_iteration_exceeds`), because each stage does at least one; with a minimum number of iterations each stage does that many (`minimum_exceeds`).
* The hybrid solver reports maximum+1 iterations, so not converged, when the first stage does not converge and the second converges in the last available iteration (`HybridSolver.converged_reported_as_not`), and reports convergence when the last stage stalls (`stalled_reported_as_converged`), which makes DDECal treat the solutions as converged.
* The iterative solvers read SolutionIndex(direction, 0) for a channel block without visibilities (e.g. IterativeScalarSolver.cc:135), outside the table (`IterSolver.empty_block_undefined`).
* ApplyCal.cc:231-263 (ApplyWeights): a zero weight gives an infinite variance, and infinity times an exact zero of a gain matrix is NaN. With full Jones gains that have exact zeros (for instance the unit matrix) a zero weight in one correlation makes all weights of the sample NaN (`zero_weight_gives_nan`); the diagonal kernel keeps them.
* OneApplyCal.cc:510-512: with usemodeldata and updateweights the weights of the main data are divided by the gains of every direction in turn (`weights_updated_per_direction`); likewise a non-finite gain of one direction flags the main data.
* OneApplyCal.cc:538-559 with ApplyCal.cc:123-126: threads over baselines call FlagCounter::incrChannel for the same channel without synchronisation, a data race by which counts may be lost. The theorem on counters takes increments as atomic.
* OneApplyCal.cc:104-107: the fallback for `interpolation` reads the key with `prefix` twice instead of `defaultPrefix`, so that a value given for the parent step is ignored when there are sub-steps.
* OneApplyCal.cc:576-580: for a buffer after the last time of the input std::clamp is called with its upper limit 0 below its lower limit 1, which is undefined (`after_last_time_undefined`).
* StationAdder.cc:348-380: for a baseline in the other order each correlation is conjugated but XY and YX are not exchanged, so that the cross polarisations of superstations mix conj(XY) with XY instead of conj(YX) (`conjugate_not_transposed`).
* StationAdder.cc:400-427: with useweights=false (and average) a baseline between superstations is a mean of means with equal weights (`unweighted_mean_of_means`); with average=false and useweights the data are multiplied with the weights twice (`sum_of_sums`); minpoints counts baselines of the intermediate step (`minpoints_per_step`).
* StationAdder.cc:202-203: with autocorr and sumauto=false only the cross-correlations in the order in which they are in the data are added, so that the autocorrelation is not Hermitian, and its coordinates are not zero (`auto_from_cross_not_real`).
* StationAdder.cc:424-426: with average and only zero weights the data of the new baseline become NaN (0/0), though flagged (`newPoint_not_finite`).
* `antennaflagger/Flagger.cc:84-107` (GroupStats) adds with `+=` to a tensor that is made without initial value; this is only right if the tensor library zeroes its memory, which cannot be checked here. The model starts from zero.
* `antennaflagger/Flagger.cc:60-82`: the statistics ignore the flags of the buffer, so that samples that were already flagged count for the decision which antennas are bad.
* `antennaflagger/Flagger.cc:166-180`: the station medians are divided by the overall median. If that is zero (e.g. the imaginary parts of real data, or a time slot of zeros), all quotients are infinite or NaN and all antennas are flagged (`zero_scale_all_bad`).
* `antennaflagger/Flagger.cc:109-130`: with one antenna per station (as updateInfo uses for telescopes other than AARTFAAC) the comparison within stations never flags a finite value (`single_not_flagged`).
* `steps/Clipper.cc:117-133`: time slots that MsReader inserts have no row numbers (`steps/MsReader.cc:240`). If the clipper has to predict for such a slot, the list of row indices is empty while the prediction has rows, and the assignment at line 171 has different shapes (`inserted_slot_fails`).
* `steps/Clipper.cc:126-133` needs increasing row numbers. For a measurement set that the reader has to sort in time, row numbers refer to the unsorted table, and the flags can go to another baseline (`unsorted_rows`). The search itself never goes beyond the end (`rowIndices_defined`).
* `steps/Clipper.cc:23-24`: `timestep=0` and `freqstep=0` lead to a division by zero; they are not checked.
* `steps/Combine.cc:19-22`: an empty `buffername` is accepted. Subtract then subtracts the main data from itself, and RemoveData("") removes all extra data (`combine_empty_name`).
* `base/DPBuffer.cc:141-156`: MoveData from a name to the same name of the same buffer removes the data instead of keeping them (`moveData_self_loses`).
* `steps/AOFlaggerStep.cc:425-430`: the quality statistics of every window include its overlaps, so that with m slots overlap 2m slots per full window are counted again in the statistics (`samples_spec`).
* `steps/AOFlaggerStep.cc:394`: the strategy runs without the flags of the input; only the first correlation decides whether a point was flagged before (`newFlags`), flags of only the other correlations are ignored.
* `ddecal/constraints/RotationAndDiagonalConstraint.cc:22-39`: `Limit` returns at once for values out of range and multiplies and divides values in range by 1.2, so that it never changes a value; its comment says the opposite (`limit_spec`).
* `ddecal/constraints/RotationAndDiagonalConstraint.cc:310`: the second amplitude is compared with the mean of the first (`equal_antennas_diverge`), and antennas with NaN count as zero in the mean (`invalid_antennas_diverge`).
* `ddecal/constraints/RotationAndDiagonalConstraint.cc:234-242`: SetChannelWeights leaves the sub-solutions out of the index; with more than one sub-solution the wrong weights become negative (`diverged_misplaced`). `RotationAndDiagonalConstraint.cc:183-186` and `RotationConstraint.cc:26-32` copy the weights in the order (sub-solution, antenna, channel) to an array in the order (antenna, sub-solution, channel) (`rotationWeights_wrong`).
* `ddecal/constraints/RotationAndDiagonalConstraint.cc:343-351`: the weights are only set at the start of a solve (`steps/DDECal.cc:616-621`), so that a divergence in any iteration makes the weights negative, also if the last iteration is fine (`weights_sticky`).
* `ddecal/constraints/RotationConstraint.h:29-38`: for a diagonal (a, -a) the fitted rotation is 0 whatever the rotation is (`cancelling_diagonal`).
* `ddecal/constraints/FaradayConstraint.cc:32-39`: the fitter works on twice the angle, but the limit is compared with its slopes without doubling it: only rotation measures up to about faradaylimit/2 are searched, where the documentation says [-faradaylimit, faradaylimit] (`faraday_limit`).
* `ddecal/constraints/FaradayConstraint.cc:163-183`: the diagonal is fitted as diagonal times rotation, but stored as rotation times diagonal: with different values the solution changes (`faraday_diagonal`), and each application multiplies the difference of the two values by cos(2 phi) (`faraday_again`).
* `ddecal/constraints/FaradayConstraint.cc:86-104`: SetSubSolutionWeights does not repeat the weights for the polarizations, as SetWeights does: too few weights, at the wrong places (`faradaySubWeights_wrong`). `FaradayConstraint.cc:109` asserts the number of directions where that of sub-solutions is meant (by reading).
* `common/PhaseLineFitter.h:101-103`: max_abs_x is the last value whenever that is positive, also if the first is more negative (`fitSlope_signs`). `PhaseLineFitter.h:112`: the conversion to int is undefined for x values that are relatively closer than 2^-31, before the bounds are applied (`getRange_undefined`).
* `fitTEC2ModelBeta` (base/PhaseFitter.cc:27-45) does not reset `weightSum` in its iterations, so that steps are 1, 1/2 and 1/3 of the mean residual (`fitBeta_short`).
* `FitDataToTEC1Model` chooses its window with a free phase offset (base/PhaseFitter.cc:138-158); for opposite phases the search stops at the highest possible cost (`fit1_worst`).
* The documentation that the input value of beta is not used (base/PhaseFitter.h:119-120) is false (`beta_used`); the overload `FitDataToTEC2Model()` (base/PhaseFitter.h:87-90) passes an uninitialised value.
* TecConstraint: an antenna without finite solution has TEC 4.73 and error 0 (`apply_missing`).
* GainCal.cc:1034 writes minus alpha as the phase in an H5Parm in mode tecandphase; GainCal.cc:1273 writes minus beta in a ParmDB (`h5_wrong`).
* GainCal.cc:733-739: a station with at most one usable cell has TEC 0, but its solution in that cell stays as it is and is applied (`station_few_wrong`).
* ScreenConstraint.h:30-31 has 8.4479745e9 where all other code has 8.44797245e9.
* GainCalAlgorithm.cc:354-380: the tasks of both polarizations of a station read and write one flag; if one has no data, the gain of other stations depends on the schedule (`step_race`).
* GainCal in phase mode: solutions that are not converged are a mean of two steps and do not have modulus one, but are applied (`phase_violated`); a ParmDB stores only their phase.
* GainCal.cc:645: STALLED cells are stepped on, without the mean of two steps, while other cells iterate (`stalled_moves`).
* GainCal.cc:589-608: with weights that differ by correlation the weighted model is not a matrix model, and true Jones matrices are not a solution in mode fulljones (`fill_full_violated`).
* GainCalAlgorithm.cc:433 and 539-544: `sstep` and `threestep` are local, so that the branch without extrapolation after a previous one is dead; the status FAILED is never given.
* GainCal: the documented caltype `scalar` throws "Unhandled mode"; `minblperant` is documented but not used; fillMatrices checks the flag of the first correlation only.
* GainCal.cc:585-587: `incrementWeight` is called in a parallel loop over channels for the same algorithm if it has more than one channel: a data race.
* Simulator.cc:217 and 258: with correcttimesmearing and without correctfreqsmearing, point sources in full polarization are not smeared at all, while Stokes I only and Gaussians are (`time_smear_violated`).
* OnePredict.cc:443: the number of correlations is only checked by an assert; a release build writes out of bounds for data with 1 or 2 correlations.
* Gaussians with a relative orientation depend on the phase centre of the data (`relative_violated`); the constructor GaussianSource(direction) leaves the flag for it uninitialised.
* PatchInfo.h:87: the declination of a patch is asin(z/flux) of a mean vector that is not normalised: too near the equator for extended patches, not a number for mixed signs (`patch_violated`, `patch_nan`).
* ReadSkyModel.cc:645-658: calcRMParam ignores LogarithmicSI (`rm_linear_violated`).
* PhaseShift takes the numbers of the phase centre without looking at its frame, while OnePredict converts to J2000; with three values it throws although the code after it handles a frame.
* Simulate.cc:163: autocorrelations are selected for antennas without a group and count for the early exit. With two antennas at one position a baseline can be left out, and its stations get coordinates that differ by the length of another baseline (`selected_colocated`).
* ReadSkyModel.cc:508: the sign of a position in separate columns is taken from the value of the degrees, so that it is lost for `-0`. With whole degrees no declination between -1 and 0 degrees can be given (`minus_zero`, `position_gap`).
* ReadSkyModel.cc:692: blanks after a separator are skipped even if the separator is a blank, so that an empty value between tabs shifts all values after it (`tab_shift`).
* ReadSkyModel.cc:234: for an empty format `end - 1` wraps around, so that it is refused instead of standing for the default format as a format of blanks does (`empty_format`).
* ReadSkyModel.cc:825: `patchSumInfo.insert` keeps the number of the first line for a patch, while `patch_lut_` has that of the last (SkyModel.cc:72): a patch that is defined twice never gets the flux and position of its sources (`patch_defined_twice`).
* SkyModelFunctions.cc:198-214: clusterProximateSources takes the mean of right ascensions without unwrapping, so that a cluster around zero is placed on the other side of the sky (`average_wraps`). The brightness of the new patches stays 0.
* SkyModelFunctions.cc:109-112: a patch without sources makes the selection of all patches throw (`make_patches_iff`); so do duplicate names.
* Demixer.cc:188 and 366-389: the number of output buffers of a chunk is computed from the given timestep, the averaging from the smaller number of times: for fewer than timestep/ntimechunk times it is 0 and the first output is written out of bounds (`no_room_violated`).
* Demixer.cc:889-897 and 946-1028: with propagatesolutions a slot starts from the last solution of the same thread, which is not that of the slot before when there are more threads (`threads_violated`). The documentation gives true as the default of propagatesolutions, the code false.
* Demixer.cc:185: timestep=0 divides by zero. Demixer.cc:195-222: the names of othersources are looked up in the sky model as well, which throws if they are not in it and otherwise violates the assertion on the number of patches.
* Demixer.cc:855-859: if the columns of the directions to deproject are dependent, the inverse is replaced by 0, so that nothing is deprojected and no message is given (`singular_violated`).
* Demixer.cc:790-793 divides by the weight of the averaged visibility: without averaging an unflagged visibility with weight 0 becomes not-a-number and is flagged (`zero_weight_violated`).
* EstimateMixed.cc: the normal matrix is singular for any data, because the phase common to all gains of a direction has no influence (`equations_singular`); the solution depends on the singular value decomposition of casacore, which the call at line 276 asks for.
* `MSBDAReader` never reads the FLAG column: it passes a null pointer for the flags, so all flags of BDA data are cleared on reading, while its class documentation says they are read (C129, `flags_lost`).
* `MSBDAWriter` omits SPECTRAL_WINDOW when copying subtables and then looks for the frequency reference in that empty table: MEAS_FREQ_REF is written from an uninitialized `int` and the name of the window is lost, for every input (C129, `frequency_reference_lost`).
* `MSBDAReader` keeps the row numbers of the input when it skips a row that is out of order; `MSBDAWriter` writes to these row numbers in its own table, so that a skipped row ends the run with an exception instead of a warning (C130, `copy_fails`).
* `MSBDAReader` looks up the baseline of a row with `operator[]`: a row of an antenna pair that BDA_FACTORS does not list is delivered as baseline 0 (C130, `unknown_baseline`).
* `MSBDAReader` takes the data column from `msin.data_column`, while its documentation and `MsReader` use `msin.datacolumn` (steps/MSBDAReader.cc:61; read, not modelled).
* DDECal adds the accumulated time twice: `average_time_ += average_time_ + time` (steps/DDECal.cc:967). For intervals of more than one slot the solver gets a time that is not the mean, and `InitialSolutions` is read at this sum without division (C133, C135: `time_wrong`, `initial_time_wrong`).
* DDECal multiplies the accumulated antenna weights by the normalization factor at every time slot (steps/DDECal.cc:958-963), so that early slots of an interval hardly count (C133, `weights_wrong`).
* DDECal counts visibilities for `minvisratio` over all intervals of a set, so that with `IDGPredict` the flags of one interval decide about the others (C133, `min_vis_other_interval`).
* DDECal uses antenna numbers instead of used antenna numbers when it applies solutions to the model (steps/DDECal.cc:1034-1042): with an unused antenna before a used one, `subtract` and `keepmodel` read beyond the end of the solutions (C132, `unused_antennas_fail`).
* Directions that start with the same patch get the same name in DDECal (steps/DDECal.cc:166-167), hence the same model data: without subtraction the second direction has none (C131, `same_name_fails`).
* `SolutionResampler::Upsample` takes the number of results from the first constraint (ddecal/SolutionResampler.cc:91-92). With direction-dependent solution intervals and a constraint without results before the one of the mode, e.g. smoothness with `mode=tec`, no solutions are written at all (C137, `results_lost`).
* `WriteConstraintResults` uses the number of all (upsampled) intervals for the time axis and the weights, but the kept times for the values (ddecal/SolutionWriter.cc:295, 306-307, 317, 338). They differ if direction-dependent intervals are used and the number of slots is not a multiple of the solution interval (C137, `time_axis_wrong`).
* `BdaDdeCal` passes `solint` to the solution writer also if it is zero (steps/BdaDdeCal.cc:848), which gives solution times at the start of the observation (C136, `bda_solint_zero`).
* The margin of `GetSolutionTimes` (ddecal/SolutionWriter.cc:50-59) is taken from the centre of the last slot (`lastTime`), not from the end of the measurement set, so that an interval that consists of the last slot is kept only if two floating point times are equal after rounding (C136, `last_solution_dropped`).
* `BdaDdeCal` ignores `modelnextsteps`: the chain that `InitializeModelStepChain` attaches is replaced by the result step in the next statement, and it is not called for predict steps (steps/BdaDdeCal.cc:100-105, 113-132). Not modelled.
* BdaDdeCal with solutions_per_direction larger than one and subtract or keepmodel applies solutions of other stations (ddecal/gain_solvers/BdaSolverBuffer.cc:235-267 uses `antenna * n_directions + direction`); DDECal throws instead (DDECal.cc:1083) (C139, `sub_solutions`).
* BdaDdeCal forwards the flags of its UVW flagger (steps/BdaDdeCal.cc:408-414), contrary to its comment at lines 442-443 and to DDECal (C140, `flags_change`).
* BdaDdeCal: autocorrelations count twice in the denominator of the antenna weights and not in the sum; an antenna without rows gets 0/0 (steps/BdaDdeCal.cc:586-635) (C142).
* BdaDdeCal: two directions that start with the same patch have the same name (steps/BdaDdeCal.cc:131), and ExtractResults writes beyond the end of the queue (lines 466-477) (C143, `same_name_ub`).
* ScalarSolver, DiagonalSolver and FullJonesSolver treat a solution whose first element is exactly zero as a failed solve and set NaN for all directions of the antenna (ScalarSolver.cc:168, DiagonalSolver.cc:179, FullJonesSolver.cc:227) (C145, `zero_first`).
* FullJonesSolver always uses the QR solver, whatever `llssolver` says (ddecal/gain_solvers/FullJonesSolver.cc:220-222); NormalEquationsSolver uses other column distances than the other solvers for more than one right-hand side (latent; C146, `normal_columns`).
* IDGPredict::StartIDG resizes `image_data` without clearing it: a facet that is smaller than the previous one gets pixels of the previous facet in its Q, U and V planes (steps/IDGPredict.cc:337-339) (C149, `leftover`).
* WGridderPredict: for an image whose width or height is 1 or 2 modulo 4 the padding moves the image by one pixel, which l_shift and m_shift ignore (steps/WGridderPredict.cc:349-356; also lines 134-140) (C150, `facet_misplaced`).
* WGridderPredict reads `buffersize` with getBool (steps/WGridderPredict.cc:66), so every value that starts with 1 keeps one time slot, and 2 is refused.
* IDGPredict with aterms: the result depends on the number of buffered time slots and so on the memory of the computer (steps/IDGPredict.cc:532-533) (C148, `aterms_depend`). InitializeUVWs ignores negative w (steps/IDGPredict.cc:441) (C151).
* DynSpec::process divides the weighted sum by the number of baselines as well as by the sum of weights (xt::mean instead of xt::sum, steps/DynSpec.cc:255-256), so all fluxes in the FITS file are too small by the number of baselines; weights of flagged samples are in the sum of weights (C153, `flux_divided`, `averaged_seen`).
* DynSpec subtracts the model from the buffer that it forwards, while getProvidedFields is empty (steps/DynSpec.cc:225) (C154, `forwarded_subtracted`). Its OBSID keyword ends with an underscore, as the second argument of substr is a length (steps/DynSpec.cc:316) (C155, `obsId_underscore`).
* ScaleData with BDA data that were averaged in frequency multiplies memory after the row, in the next row or outside the buffer; only an assert checks the size (steps/ScaleData.cc:200-208) (C157, `bda_spill`, `bda_outside`).
* WSCleanWriter with msin.startchan or filter.startchan > 0 reads channel frequencies outside the vector: startchan() is a channel of the input, chanFreqs() holds the selected channels only (steps/WSCleanWriter.cc:65, 75-76) (C158, `start_outside`).
* **Diagonal initial solutions with a full Jones mode read out of bounds** (ddecal/InitialSolutions.cc:147-151, 164, 185-195): the product of the solution tables has two polarizations, but the loop reads as many as the solver has. With four, antenna `a` gets the diagonal of antenna `a+1` as its lower row, and the last one reads past the end. Theorems `diagonal_shifted`, `diagonal_outside` (C160).
* **Faraday rotation is shown with a name that is not accepted** (base/CalType.cc:41, 81). Theorem `faraday_refused` (C161).
* **Grouped prediction is half an interval late** (steps/BdaGroupPredict.cc:104): the time of a BDA row is its centroid (base/BdaBuffer.h:33), and half an interval is added to it, so the beam is evaluated for the end of the interval. Theorem `predicted_late` (C164).
* **Grouped prediction with operation add or subtract does not use the data** (steps/BdaGroupPredict.cc:113-147): the data of a row are not copied to the buffer of the group, which holds the previous result; with add the models accumulate over time. Theorem `add_accumulates` (C166).
* **Grouped prediction smears with the unaveraged integration time** (steps/BdaGroupPredict.cc:55): the group gets a copy of the info of the whole stream. Theorem `interval_wrong` (C165).
* **A repeated baseline in a BDA stream makes grouped prediction write to a buffer that was passed on** (steps/BdaGroupPredict.cc:117-147): completeness is a counter. Theorem `repeated_ub` (C163).
* **The beam of predictions mixes two times** (steps/OnePredict.cc:466-486, 636-649): the telescope is set to the time plus half of `beam_interval`, but the directions are converted to ITRF with the time of the buffer. Theorem `direction_late` (C168).
* **Solutions are silently not applied with outputmodelname** (steps/OnePredict.cc:505-537): the main data were taken, and the sub step corrects the main data, which then have no baselines. With h5parmpredict only the last direction is kept, with the main data added. Theorems `named_uncorrected`, `h5_named_wrong` (C169).
* **Unpolarized predictions write outside the data with fewer than four correlations** (steps/OnePredict.cc:437-452): only an assertion guards it. Theorem `copy_fewer` (C170).
* **The check on updating weights never fires** (steps/OnePredict.cc:190-193): the prefix already ends with `applycal.`. Theorem `weights_not_checked` (C171).
* DDECal, `reusemodel`: because of the `break` a pattern whose matches all belong to an earlier pattern, as the second one in `[*,p.a]`, has no matches and is refused with the message that it did not match any model data (Settings.cc:455-484, `DdeSettings.reused_wrong`). Model data `p.a` and `q.a` both get the name `a` (`reused_same_name`).
* DDECal: `coreconstraint` is ignored without any message when `antennaconstraint` is given too (SolverFactory.cc:551-558, `DdeSettings.core_ignored`); a negative `coreconstraint` is squared (`core_negative`).
* DDECal, `antenna_averaging_factors`: the factors are made for all antennas of the input (DDECal.cc:193, BdaDdeCal.cc:198), while the constraint is initialized with the number of used antennas (DDECal.cc:369-373). With an antenna that is in no baseline (after a filter without `remove`) every setting is refused with the message that the number of values is incorrect (`DdeSettings.averaging_unused_refused`).
* DDECal, `smoothnessrefdistance`: with a single (used) antenna its factor is 0 and the kernel scale is 1/0 (SolverFactory.cc:484, SmoothnessConstraint.cc:84-90, `DdeSettings.smoothing_single`); a negative distance and a zero in `antenna_smoothness_factors` are not refused (`smoothing_negative`).
* Mode tecanddelay: the documentation of `TecOffsetDelayGridSearch` (TecOffsetDelayFitting.h:79-92) guarantees that the global minimum is found for data without noise. Without an offset this is not so: with relative frequencies 1, 4/3, 5/3, `max_wraps` 1, a = -10/3 pi and c = -2 pi, no grid point and no refinement leads to a perfect fit (`TecDelay.search_misses`). In a numerical experiment about half of random values were missed; with an offset none were.
* ApplyBeam skips wrong stations when the data do not have all stations of the telescope: skipped stations are indices of the telescope (ApplyBeam.cc:341-343), and are compared with the position in the antennas of the data (ApplyBeam.cc:119 and 140, also 481). With a homogeneous telescope any name skips all stations (C183).
* ApplyBeam with `usemodeldata=true` and `invert=true` (the default) marks the data as corrected, while only model data are corrected (ApplyBeam.cc:273-278); a later applybeam then undoes a correction that was never made (C184).
* ApplyBeam with `invert=false` compares two of the three coordinates of the direction vector, named ra and dec (ApplyBeam.cc:292-300); the mirrored direction, with opposite declination, is accepted (C184).
* A beam without inverse is only detected by an assert (ApplyBeam.cc:130-132); in a release build the step goes on, and a zero array factor gives data that are not finite and are not flagged.
* A parameter of coefficients that only has a default value is evaluated on the scale of the default grid (all numbers) before setSolveGrid is called, not on the domain that the default is scaled to; the result changes when the solve grid is set (ParmValue.cc:235-266, Parm.cc:281-316, C188).
* Perturbed results of a parameter with a solvable mask read out of bounds: perturbations only exist for the solvable coefficients, but are read with the index of all coefficients (Parm.cc:186-197 and 317-369, C189).
* A scalar parameter with more than one ParmValue throws for a predict cell outside of its domain, while one with a single ParmValue takes the nearest value (Parm.cc:372-473, C190).
* ParmValueSet::addValues extends the values, but leaves errors with the old shape (ParmValue.cc:340 and 54-60); setCoeff with errors then writes out of bounds at a new cell (Parm.cc:157-160, C191). checkGrid only asserts, so that a solve grid with other cells is accepted in a release build (C191).
* ParmCache::flush makes an unnamed `ParmDBLocker(*itsParmSet, true);` (ParmCache.cc:44), which is destroyed at once: nothing is locked during the writes.
* `OneApplyCal`: `interpolation`, `usemodeldata` and `soltab` of a step are not inherited by its sub steps (steps/OneApplyCal.cc:104-107 uses the own prefix also for the default), although the documentation says so for all parameters (`interpolation_not_inherited`). A list `steps=[]`, the default value in the documentation, takes the first element of an empty vector.
* `OneApplyCal::updateInfo` looks for `Phase:0:0:Ampl*` instead of `Gain:0:0:Phase*` (steps/OneApplyCal.cc:260): a ParmDB with gain phases only is refused, or if there is a default for the real part the phases are silently not applied (`phases_not_read`).
* `OneApplyCal`: updating the weights with full Jones matrices that are not inverted is refused in the constructor, but not when the full Jones matrices are detected in the ParmDB later (`fullJones_unchecked`).
* `OneApplyCal::updateParmsParmDB`: gains of another direction, whose name sorts before `phase_center`, hide all gains of the phase center: all gains are zero (`patch_hides_values`).
* `OneApplyCal`: with solutions in the buffer, the only solution is applied for any direction name, and only the number of values of the first channel is checked (`other_direction`, `shape_unchecked`); an H5Parm with one direction accepts any direction name (`single_direction`).
* `MakeOutputStep` never lets `MSUpdater` write its history: `outName` is set to `currentMSName` before both are compared (base/DP3.cc:155-156), while steps/MSUpdater.h:27 says an entry is added (`history_never`).
* `MSUpdater` after `MSWriter` in one run, with the first selected channel other than 0, always throws: the start channel still is that of the input (`selected_channels_fail`).
* `MSWriter` with Dysco compression replaces flagged data and weights in the buffer that later steps get (steps/MSWriter.cc:713-726), `MSUpdater` replaces them in a copy (`compressed_passed_on`).
* `MSUpdater` with Dysco compression does not require flags, so that flagged data are not replaced if no other step needs flags (steps/MSUpdater.cc:240-246; third part of `written_values`).
* `MSUpdater` clears FLAG_ROW if one of the written flags is clear, without setting the flags of the other channels: for a row with FLAG_ROW set but FLAG clear, channels outside the selection become unflagged (`inconsistent_unflags`).
* `MSWriter::InsertNumberInFilename` takes the last dot of the whole path: `./my` gives `-000./my` (`chunk_name_directory`).
* `MsReader` does not require data for `autoweight`: when no step reads them the weights are calculated from an empty array (`auto_weight_undefined`). `forceautoweight` alone switches `autoweight` on (`auto_weight_use`), the documentation says it has to be set as well.
* The TIME_RANGE of the OBSERVATION table of each chunk that `MSWriter` writes is that of the whole run. A weight column that does not exist is silently replaced by WEIGHT (steps/MsReader.cc:637-652), the warning is only for a column without values.
* `gaincal` with `solint=0` and `applysolution=true` writes outside of `itsBuffers`, which gets its size before `solint` is replaced by the number of time slots (steps/GainCal.cc:165-167 and 201-203; `solint_zero`, C208).
* `gaincal` with `caltype=scalaramplitude` and an H5Parm writes phases in the table `amplitude000` (steps/GainCal.cc:1067-1071; `amplitude_table`, C212).
* `gaincal` with an H5Parm and a number of channels that is not a multiple of `nchan`: the mean frequency of the short last cell can be the nearest one for channels of the cell before it, so that applycal with nearest interpolation takes the wrong solution for these channels (steps/GainCal.cc:227-236; `last_cell_wins`, C210).
* `gaincal` with `diagonalphase` in a ParmDB that had solutions of `diagonal`: the old names stay, and applycal reads the default real and imaginary parts, so that nothing is corrected and nothing is reported (steps/GainCal.cc:825-894, steps/OneApplyCal.cc:256-272; `phases_not_applied`, C211).
* `gaincal` with `tec` or `tecandphase` removes only values of `TEC:*`; earlier values of `CommonScalarPhase` stay (steps/GainCal.cc:896-908; `old_phases_stay`, C211).
* Not modelled, by reading: `fillMatrices` of GainCal adds to the total weight of a solver from several threads without synchronisation in the TEC modes with more than one channel (steps/GainCal.cc:558-587).
* Not modelled, by reading: an LBFGS batch without visibilities (a channel block with fewer visibilities than minibatches) is only guarded by an assert; in a release build the cost is 0/0 (ddecal/gain_solvers/LBFGSSolver.cc:404-409).
* The low rank solver declares `constraints_satisfied` and `has_converged` again in its loop, so that the stopping criterion and the result always get `false`: it always does the maximum number of iterations and reports that it did not converge (ddecal/gain_solvers/DiagonalLowRankSolver.cc:106-136; `never_converges`, C221).
* The low rank solver with step size 1 subtracts, in every channel block, the new solutions of the first channel block (ddecal/gain_solvers/DiagonalLowRankSolver.cc:239-245; `wrong_channel_block`, C220). By reading: other threads write to the tensor at the same time.
* The order of directions of the low rank solver is made again in each solve but appended to the vector, so that the order of the first solution interval is used for all; the vector grows without end (ddecal/gain_solvers/DiagonalLowRankSolver.cc:84-86 and 160-163; `order_stale`, C219).
* The low rank solver uses the variance of an element, divided by the largest one, as its weight: elements with more data get less weight, and the weights of the data cancel if they are equal (ddecal/gain_solvers/DiagonalLowRankSolver.cc:313-324; `weight_of_equal`, C217).
* The low rank solver gets NaN for all antennas if one model value is exactly 0 and others of the same element are not (ddecal/gain_solvers/DiagonalLowRankSolver.cc:22-31; `zero_model`, C216), or if the gain of the first antenna is 0 (ddecal/gain_solvers/DiagonalLowRankSolver.cc:359; `first_zero`, C218).
* Not modelled, by reading: with step size 1 the low rank solver solves only for the first `iteration + 1` directions, but the tensor for the new solutions of all directions is assigned; its values for the other directions are not set in the first iterations (ddecal/gain_solvers/DiagonalLowRankSolver.cc:89-90, 219-221 and 120-128).
* DiagonalAntennaSolver.cc:481-482: the contribution of the first antenna to the transposed derivative is diag(U^H M g2^H) instead of diag(U (M g2^H)^H); the gradient GSL uses is wrong (C223).
* DiagonalAntennaSolver.cc:525-531: the normal matrix is not J^T J; cross terms lack a conjugation and there is coupling of polarizations that J does not have (C224).
* DiagonalAntennaSolver.cc:322-333, 407, 446, 478, 573: vectors are sized for the visibilities of a solution but indexed over all visibilities (C225).
* DiagonalAntennaSolver.cc:191: has_converged is shadowed, so that the solver never stops for convergence nor reports it (C226); constraint results are not returned either.
* DiagonalAntennaSolver.cc:222: Weight() is used, but weights are stored only for the low rank solver (DDECal.cc:644-647, SolveData.cc:92): with step size above 0.99 an empty tensor is read (by reading, not modelled).
* SolverTools.cc:136-143 with DiagonalLowRankSolver.cc:17-33: in linear mode the data and the model are multiplied by the weights, and the solver weighs again; a flagged visibility gives 0/0 (C227).
* SolveData.cc:255: weights_ has two dimensions, but shape()[2] is read for BDA data with the low rank solver (by reading, not modelled).
* fitSlope with weights divides by the spread of the frequencies without a check (PieceWisePhaseFitter.h:350-354): a window in which only one channel has weight gives NaN for all channels that use it (C230).
* fitSlope with weights adds weights to integer counts (PieceWisePhaseFitter.h:302-312), so that weights below one are lost (C232).
* fitSlope with weights takes the median over the inner half of the window only (PieceWisePhaseFitter.h:320-329): when that is flagged, the phases are wrapped around zero, and a line through pi is fitted with a wrong slope (C231).
* The GPU solver is created for full data, but its template argument is the one for dual data (SolverFactory.cc:92-95), so that Solve of SolverBase is called, which throws: usegpu=true never works (C234, C235).
* usegpu=true is ignored without a message in scalar, TEC and full Jones modes (SolverFactory.cc:49-84, 148-174) (C235).
* datause=dual or single with another algorithm than directioniterative, or with a full Jones mode, is accepted, and throws a logic_error at the first solution interval (SolverBase.h:205-227) (C234).
* model_weighted_constraints has no effect with the hybrid solver: SetDdConstraintWeights is called for the hybrid solver, whose list of constraints is empty (SolverBase.cc:437-442, DDECal.cc:659-692) (C236).
* AartfaacReader::process uses getInfoIn() for antennas and frequencies (AartfaacReader.cc:130, 216-217), but its updateInfo only sets the output info and never calls Step::updateInfo, so that the input info is that of an empty DPInfo: the first block of any file makes it read past the end of empty vectors (C242).
* HasMore and NTimesteps of AARTFAAC files divide the size of the file by the size of the data of a block, without the header of 1536 bytes (File.h:98-100). With N blocks of B bytes the reader throws at the end as soon as 1536 N >= B (C238).
* PacketHeader::Check compares the magic number with itself (PacketHeader.h:78, 118) (C239).
* AartfaacReader adds half a channel twice (AartfaacReader.cc:86, 89), so that frequencies in the meta data are one channel width above those in the spectral window table; setTimes gets Unix times whereas buffers have casacore times (AartfaacReader.cc:158, 228-230) (C240).
* AartfaacReader tests only real parts for finite values (AartfaacReader.cc:206-207) (C241).
* AartfaacReader::axes_ is never set, but written to the antenna field table (AartfaacReader.cc:280, AartfaacReader.h:62); not part of the model.
* AntennaConfig::GetArray dereferences the end iterator when an array is missing, e.g. when the file does not exist (AntennaConfig.h:136-138) (C244).
* With zero time slots FlagCounter::showBaseline lists all baselines as fully flagged, and converts 0/0 to int (FlagCounter.cc:212, 218, 237) (C246).
* Warnings of FlagCounter print the percentage also as a duration, e.g. 50.0% (   50  s) (FlagCounter.cc:251, 313, 351-356) (C247).
* Tables with flag percentages of L1.SB001.MS and L1.SB002.MS have the same name, so that one replaces the other (FlagCounter.cc:54-57, 375) (C248).
* steps/SVPInput.cc:85: `auto flags = buffer->GetFlags()` copies, so flags that are received are lost (C250); line 213 would overwrite them anyway.
* steps/SVPInput.cc:112-125: with one correlation `data_pointer[1]` of the last visibility is behind the end of the data; with three the third is not stored (C251).
* steps/SVPInput.cc:266-325: only the result of the last receive is tested; the numbers of channels and antennas are indeterminate when the stream ends early, and are used for sizes (C252). Zero antennas use antenna_positions_[0] (line 401).
* steps/SVPInput.cc:203-205, 254: AARTFAAC is accepted as telescope but cannot be processed; for ALMA a stream that ends early is not noticed (C253).
* steps/SVPInput.cc:546: strcpy of the socket name into sun_path (108 bytes) without a check; line 483 uses the end time as interval of the source table; axes_ (SVPInput.h:43) is never set.
* parmdb/ParmDBCasa.cc:149-155: `clearTables` removes the rows, but keeps the keyword UNIQUE_ID and the map of default values: no new parameter can be stored afterwards (C257).
* parmdb/ParmDBCasa.cc:659: deleting values shifts the row numbers that ParmValues objects keep; a later update overwrites the value of another domain or parameter (C258).
* parmdb/ParmDBCasa.cc:420: updating a value of the same shape does not store a changed domain (C258).
* parmdb/ParmDBCasa.cc:458-459, parmdb/ParmSet.cc:22: a name id of -1 from an earlier look up leads to a second entry of the same name (C259).
* parmdb/ParmDB.cc:99-104: `forceNew` is ignored when the table is open already (C255).
* steps/ImageStep.cc:118: time slots of an incomplete last group are never imaged (C261).
* steps/ImageStep.cc:138, 170-171: names of used antennas go with numbers of all antennas; after a baseline selection without removal of antennas the names are wrong (C262).
* steps/ImageStep.cc:98-99: without fitsprefix all images get the prefix of the options and replace each other (C263).
* steps/PreFlagger.cc:988-999: a time range is brought back to the day only once and only on one side: 12h+-13h does not match noon, 1h..26h matches one hour (C264).
* steps/PreFlagger.cc:350, 360, 364: a negative channel expression is converted to unsigned, which is undefined behaviour (C265).
* steps/PreFlagger.cc:1107-1113: a frequency range with the end before the start is not refused and selects nothing (C266).
* steps/Transfer.cc:273-286: stations are compared only if their number differs, by position, and past the end of the names of the target (C267).
* steps/Transfer.cc:219-229: a new output buffer is not filled for baselines that are not transferred (C268).
* steps/Transfer.cc:205-208: row numbers minus the first one are used as baseline numbers; wrong after an earlier baseline filter, and undefined for missing time slots, which have no row numbers (C86).
* steps/MSUpdater.cc:187-198, 209-218, 240-246: with dysco the flags are used but not required, so flagged values are not replaced if no step reads flags (C269).
* steps/MSUpdater.cc:86-88: dysco_weight_bit_rate is not looked at, so weightbitrate=0 compresses the weights with 16 bits (C270).
* steps/MSUpdater.cc:83-91: an unknown storage manager name is ignored; GetStorageManagerClassName, which would refuse it, is not called (C270).
* steps/FastPredict.cc:294, 633: the phase reference of the plan is set in updateInfo only, so a moving phase centre is not followed; the reference is then the default direction (C271).
* steps/FastPredict.cc:412-415, steps/OnePredict.cc:279-282: baselines_ is not cleared when information is set again (C272).
* base/DP3.cc:540, 568: the name of the last measurement set written is local to MakeStepsFromParset, so an output at the end named . updates the input with the row numbers of the measurement set that was written by an earlier step; metaChanged has been cleared by the writer (C274).
* base/DP3.cc:597: whether the first step accepts the data of the input is not checked (C275).
* steps/MsColumnReader.h:51: outputs() is not overridden, so for BDA data the chain continues as if data were regular (C275).
* steps/MSBDAWriter.h: accepts() is not overridden, so an intermediate output step for BDA data is always refused (C275).
* base/DP3.cc:532: a chain that ends with a null step or a WSClean writer ignores msout, although the comment at 104 says that a named output is always created (C277).
* common/NodeDesc.cc:95-97: a mount point with a slash at its end never matches (C278).
* common/NodeDesc.cc:52-55: /auto is removed from /autodata too, so an assertion fails (C278).
* common/VdsPartDesc.cc:70: StepTime is written with six digits, so start and end times drift when they are read (C280).
* common/VdsMaker.cc:356: startTime is never zero, so a combination of only empty data sets is not refused (C281).
* common/VdsMaker.cc:63: the row of DATA_DESCRIPTION is used as row of SPECTRAL_WINDOW (C282).
* common/VdsMaker.cc:81-83: the direction of field i is taken from element i of the directions of that field, outside the array for the second field (C282).
* parmdb/ParmCache.cc:44: the ParmDBLocker has no name and is destroyed at once, so a flush is not done under one lock (C286).
* parmdb/ParmSet.cc:16-19: parameters are identified by name only, so with two ParmDBs that have the same name the second is ignored (C287).
