import Verif.Props.GridProps
import Verif.Props.ObjectProps
import Verif.Model.Polarization
import Verif.Model.Dft
import Verif.Lemmas.PmlClosed
import Verif.Model.Core
import Verif.Lemmas.WF
import Verif.Props.YeeProps
import Verif.Props.SourceProps
import Verif.Props.MaterialGridProps
import Verif.Lemmas.PolCell
import Verif.Lemmas.NodeStep
import Verif.Props.LinearProps
import Verif.Props.MediumProps
import Verif.Props.LocalProps
import Verif.Props.LayerProps
import Verif.Props.SymProps
import Verif.Props.DftProps
import Verif.Props.TfsfProps
import Verif.Props.IncidentFluxProps
import Verif.Props.ProfileProps
import Verif.Model.Sim
import Verif.Props.InterpProps
import Verif.Props.EveryProps
import Verif.Props.FluxHistoryProps
import Verif.Props.SurfDomainProps
import Verif.Props.CylFluxProps
import Verif.Props.FarPhaseProps
import Verif.Props.InstantProps
import Verif.Model.Names
import Verif.Props.NameProps
import Verif.Props.ClockProps
import Verif.Props.SimProps
import Verif.Lemmas.AvgRecord
import Verif.Lemmas.Bare
import Verif.Lemmas.CoreOps
import Verif.Lemmas.CoreReal
import Verif.Lemmas.DftSum
import Verif.Lemmas.Incident
import Verif.Lemmas.Layer
import Verif.Lemmas.Linear
import Verif.Lemmas.Local
import Verif.Lemmas.LocalStep
import Verif.Lemmas.Loops
import Verif.Lemmas.MatGrid
import Verif.Lemmas.MediumAlg
import Verif.Lemmas.Mirror
import Verif.Lemmas.MonSafe
import Verif.Lemmas.Narrow
import Verif.Lemmas.NoUB
import Verif.Lemmas.Node
import Verif.Lemmas.Paint
import Verif.Lemmas.PmlOutside
import Verif.Lemmas.PmlReal
import Verif.Lemmas.PolGrid
import Verif.Lemmas.Reach
import Verif.Lemmas.ReachInv
import Verif.Lemmas.Round
import Verif.Lemmas.SimKeep
import Verif.Lemmas.SimUpdate
import Verif.Lemmas.SrcLemmas
import Verif.Lemmas.SrcPulse
import Verif.Lemmas.Std
import Verif.Lemmas.StepReal
import Verif.Lemmas.SurfRecord
import Verif.Lemmas.Swap
import Verif.Lemmas.SwapMake
import Verif.Lemmas.TfsfReal
import Verif.Lemmas.Throws
import Verif.Lemmas.Upd
import Verif.Model.Base
import Verif.Model.Grid
import Verif.Model.Materials
import Verif.Model.Monitors
import Verif.Model.Object
import Verif.Model.Pml
import Verif.Model.Profiles
import Verif.Model.Scalar
import Verif.Model.Sources
import Verif.Model.Tfsf
import Verif.Model.TimeMonitors
import Verif.Model.Timer
import Verif.Model.Vec
import Verif.Model.Yee
import Verif.Props.FarFieldProps
import Verif.Props.FluxProps
import Verif.Props.SafetyProps
import Verif.Spec.DftSpec
import Verif.Spec.FarFieldSpec
import Verif.Spec.FluxSpec
import Verif.Spec.HistorySpec
import Verif.Spec.IncidentSpec
import Verif.Spec.InterpSpec
import Verif.Spec.LinearSpec
import Verif.Spec.LocalSpec
import Verif.Spec.MaterialSpec
import Verif.Spec.MediumSpec
import Verif.Spec.MirrorSpec
import Verif.Spec.ProfileSpec
import Verif.Spec.ReachSpec
import Verif.Spec.RecordSpec
import Verif.Spec.SourceSpec
import Verif.Spec.SpectrumSpec
import Verif.Spec.SwapSpec
import Verif.Spec.YeeSpec
import Verif.Lemmas.NodeRecord
import Verif.Lemmas.SimCore
import Verif.Lemmas.WatchRun
import Verif.Props.HistoryProps
import Verif.Props.PointProps
import Verif.Spec.PointSpec
import Verif.Spec.WatchSpec
import Verif.Lemmas.FileLog
import Verif.Lemmas.Orderly
import Verif.Lemmas.OutputStep
import Verif.Props.OutputProps
import Verif.Spec.OutputSpec
import Verif.Lemmas.Restart
import Verif.Lemmas.SimPhys
import Verif.Props.RestartFalse
import Verif.Props.RestartProps
import Verif.Spec.RestartSpec
import Verif.Lemmas.Energy
import Verif.Props.EnergyProps
import Verif.Spec.EnergySpec
import Verif.Model.Recenter
import Verif.Props.RecenterProps
import Verif.Props.SphereProps
import Verif.Spec.CircleSpec
import Verif.Spec.RecenterSpec
import Verif.Lemmas.Cover
import Verif.Props.CoverProps
import Verif.Spec.CoverSpec
import Verif.Lemmas.Rename
import Verif.Props.RenameProps
import Verif.Spec.RenameSpec
import Verif.Lemmas.FileClean
import Verif.Lemmas.FileFrame
import Verif.Lemmas.FileInv
import Verif.Lemmas.FileKeep
import Verif.Lemmas.FileTrack
import Verif.Lemmas.Tree
import Verif.Model.Output
import Verif.Props.FileProps
import Verif.Spec.FileSpec
import Verif.Props.FileFalse
import Verif.Props.SpectraFileProps
import Verif.Lemmas.Driven
import Verif.Props.DrivenProps
import Verif.Props.PulseProps
import Verif.Spec.DrivenSpec
import Verif.Lemmas.Converge
import Verif.Props.ConvergeCases
import Verif.Props.ConvergeProps
import Verif.Spec.ConvergeSpec
import Verif.Lemmas.Dispersive
import Verif.Lemmas.Diverge
import Verif.Props.DispersiveProps
import Verif.Props.DivergeProps
import Verif.Spec.DispersiveSpec
import Verif.Lemmas.Double
import Verif.Lemmas.Plain
import Verif.Lemmas.Rounded
import Verif.Lemmas.RoundedRun
import Verif.Lemmas.RoundedStep
import Verif.Props.RoundedExample
import Verif.Props.RoundedGridProps
import Verif.Props.RoundedProps
import Verif.Spec.RoundSpec
import Verif.Lemmas.DivergeDebye
import Verif.Props.DivergeDebyeProps
import Verif.Props.TotalErrorCases
import Verif.Props.TotalErrorProps
import Verif.Spec.TotalSpec
import Verif.Lemmas.RenameAny
import Verif.Props.RenameOrderProps
import Verif.Lemmas.RecipFilter
import Verif.Lemmas.RecipRun
import Verif.Lemmas.RecipSeries
import Verif.Lemmas.Series
import Verif.Props.ReciprocityProps
import Verif.Spec.ReciprocitySpec
import Verif.Lemmas.DebyePair
import Verif.Lemmas.Window
import Verif.Lemmas.WindowMake
import Verif.Lemmas.WindowStep
import Verif.Props.WindowProps
import Verif.Spec.WindowSpec
import Verif.Lemmas.NanSpread
import Verif.Lemmas.Number
import Verif.Lemmas.NumberMake
import Verif.Lemmas.NumberRun
import Verif.Lemmas.NumberStep
import Verif.Props.NumberProps
import Verif.Spec.NumberSpec
import Verif.Lemmas.Delay
import Verif.Lemmas.DelayRun
import Verif.Props.DelayProps
import Verif.Spec.DelaySpec
import Verif.Lemmas.RoundedDriven
import Verif.Lemmas.RoundedDrivenRun
import Verif.Lemmas.RoundedDrivenStep
import Verif.Lemmas.RoundedPulse
import Verif.Props.RoundedDrivenExample
import Verif.Props.RoundedDrivenProps
import Verif.Props.RoundedSignalProps
import Verif.Spec.RoundSourceSpec
import Verif.Lemmas.FilterChain
import Verif.Lemmas.PoleKin
import Verif.Lemmas.PoleWave
import Verif.Props.PoleProps
import Verif.Spec.PoleSpec
import Verif.Lemmas.DivergeThree
import Verif.Props.DivergeThreeProps
import Verif.Lemmas.Currents
import Verif.Lemmas.CurrentsMake
import Verif.Props.CurrentProps
import Verif.Spec.CurrentSpec
import Verif.Lemmas.DrivenWave
import Verif.Props.DrivenWaveCases
import Verif.Props.DrivenWaveProps
import Verif.Props.TotalDrivenProps
import Verif.Spec.DrivenWaveSpec
import Verif.Props.TotalDrivenCases
import Verif.Lemmas.Polar
import Verif.Lemmas.PolarStep
import Verif.Props.PolarCases
import Verif.Props.PolarProps
import Verif.Spec.PolarSpec
import Verif.Lemmas.Resonance
import Verif.Props.ResonanceCases
import Verif.Props.ResonanceProps
import Verif.Spec.ResonanceSpec
import Verif.Lemmas.Layout
import Verif.Lemmas.Subtract
import Verif.Spec.SubtractSpec
import Verif.Props.SubtractProps
import Verif.Lemmas.RawMaterials
import Verif.Model.RawMaterials
import Verif.Props.RawMaterialProps
import Verif.Lemmas.GridWindow
import Verif.Props.FresnelProps
import Verif.Props.PlaneWaveProps
import Verif.Spec.PlaneWaveSpec
import Verif.Lemmas.MatterWave
import Verif.Lemmas.PolarWindow
import Verif.Props.PermittivityProps
import Verif.Spec.ResponseSpec
import Verif.Props.ReversalProps
import Verif.Spec.ReversalSpec
import Verif.Lemmas.LorentzBound
import Verif.Lemmas.LorentzRun
import Verif.Lemmas.LorentzStep
import Verif.Props.LorentzWaveCases
import Verif.Props.LorentzWaveProps
import Verif.Spec.LorentzWaveSpec
import Verif.Lemmas.FileResults
import Verif.Lemmas.SpectraWave
import Verif.Props.ResultProps
import Verif.Props.SpectraWaveCases
import Verif.Props.SpectraWaveProps
import Verif.Spec.ResultSpec
import Verif.Spec.SpectraWaveSpec
import Verif.Lemmas.FluxWave
import Verif.Lemmas.LineNorm
import Verif.Props.FluxWaveCases
import Verif.Props.FluxWaveProps
import Verif.Spec.FluxWaveSpec
import Verif.Props.BoxWaveCases
import Verif.Props.BoxWaveProps
import Verif.Lemmas.Poynting
import Verif.Props.PoyntingCases
import Verif.Props.PoyntingProps
import Verif.Spec.PoyntingSpec
import Verif.Lemmas.Potential
import Verif.Props.PulseCases
import Verif.Lemmas.LineError
import Verif.Lemmas.LineStable
import Verif.Lemmas.Scatter
import Verif.Props.IncidentProps
import Verif.Props.ScatterCases
import Verif.Props.ScatterProps
import Verif.Spec.ScatterSpec
import Verif.Lemmas.Lit
import Verif.Props.LitCases
import Verif.Props.LitProps
import Verif.Spec.LitSpec
import Verif.Props.ForceCases
import Verif.Props.ForceProps
import Verif.Props.ForceWaveProps
import Verif.Spec.ForceWaveSpec
import Verif.Lemmas.Momentum
import Verif.Props.MomentumCases
import Verif.Props.MomentumProps
import Verif.Spec.MomentumSpec
import Verif.Lemmas.CrossSection
import Verif.Props.CrossCases
import Verif.Props.CrossProps
import Verif.Spec.CrossSpec
import Verif.Props.LitSpectraCases
import Verif.Props.LitSpectraProps
import Verif.Lemmas.LitPolar
import Verif.Props.LitPolarCases
import Verif.Props.LitPolarProps
import Verif.Spec.LitPolarSpec
import Verif.Props.LitMetalCases
import Verif.Props.LitMetalProps
import Verif.Props.LitMetalForce
import Verif.Props.LitOrderProps
import Verif.Props.FlowOrderProps
