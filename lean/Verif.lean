import Verif.ApplyCal.Props
import Verif.BaselineIndices.Props
import Verif.Chain.Props
import Verif.BdaBuffer.Props
import Verif.Averager.Props
import Verif.BdaAverager.Props
import Verif.BdaExpander.Props
import Verif.Interpolate.Props
import Verif.Lane.Props
import Verif.Upsample.Props
import Verif.MsReader.Props
import Verif.MultiMsReader.Props
import Verif.PreFlaggerExpr.Props
import Verif.PreFlaggerSet.Props
import Verif.BaselineSelection.Props
import Verif.DPInfo.Props
import Verif.Filter.Props
import Verif.MadFlagger.Props
import Verif.SolveData.BdaProps
import Verif.BdaSolverBuffer.Props
import Verif.SolverTools.Props
import Verif.Constraints.Props
import Verif.KernelSmoother.Props
import Verif.SolverBase.Props
import Verif.Clustering.Props
import Verif.NullStokes.Props
import Verif.FlagCounter.Props
import Verif.StationValues.Props
import Verif.StringTools.Props
import Verif.ParamValue.Props
import Verif.ParamSet.Props
import Verif.ParmGrid.Props
import Verif.Tec.Props
import Verif.Tec.Recover
import Verif.Tec.Grid
import Verif.Tec.Constraint
import Verif.GainCal.Fill
import Verif.Transfer.Check
import Verif.UvwFlagger.Props
import Verif.Cx.Basic
import Verif.IterSolver.Props
import Verif.HybridSolver.Props
import Verif.StationAdder.DataProps
import Verif.AntennaFlagger.Props
import Verif.Clipper.Props
import Verif.DPBuffer.Props
import Verif.AoFlagger.Props
import Verif.Rotation.Props
import Verif.PhaseLine.RangeProps
import Verif.Rotation.Faraday
import Verif.PhaseShift.Props
import Verif.Simulator.Props
import Verif.Simulator.Smear
import Verif.Simulator.Gauss
import Verif.Simulator.Spectrum
import Verif.Simulator.Patch
import Verif.UvwSplit.Props
import Verif.SkyModel.Model
import Verif.SkyModel.Spec
import Verif.SkyModel.Lemmas
import Verif.SkyModel.Props
import Verif.SkyText.Props
import Verif.DemixTimes.Props
import Verif.Demix.Props
import Verif.Estimate.Props
import Verif.Robust.Props
import Verif.BdaMs.Props
import Verif.DdeCal.Props
import Verif.SolWriter.Props
import Verif.BdaDdeCal.Props
import Verif.DirectSolver.Props
import Verif.ImagePredict.Props
import Verif.DynSpec.Props
import Verif.ScaleData.Props
import Verif.WscWriter.Props
import Verif.InitialSol.Props
import Verif.BdaGroup.Props
import Verif.PredictStep.Props
import Verif.DdeSettings.Props
import Verif.TecDelay.Props
import Verif.ApplyBeam.Props
import Verif.ParmEval.Props
import Verif.CalParms.Props
import Verif.MsOutput.Props
import Verif.GainCalStep.Props
import Verif.Lbfgs.Props
import Verif.LowRank.Props
import Verif.LowRank.Prepared
import Verif.AntennaSolver.Props
import Verif.PhaseSlope.Props
import Verif.SolverChoice.Props
import Verif.Aartfaac.Props
import Verif.Aartfaac.ConfigProps
import Verif.FlagReport.Props
import Verif.SvpInput.StreamProps
import Verif.ParmTables.Props
import Verif.ParmTables.RegistryProps
import Verif.ImageStep.Props
import Verif.PreFlagRanges.Props
import Verif.UpdateStorage.Props
import Verif.FastPredict.Props
import Verif.MakeSteps.Props
import Verif.Cluster.Props
import Verif.Vds.Props
import Verif.Units.Props
import Verif.ParmCache.Props
import Verif.ParmSet.Props
