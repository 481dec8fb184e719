import Verif.Model.Builder
import Verif.Model.BuilderViews
import Verif.Model.Cache
import Verif.Model.CaseSummary
import Verif.Model.CommandLine
import Verif.Model.Components
import Verif.Model.DeviceControl
import Verif.Model.Devices
import Verif.Model.Disk
import Verif.Model.Dumps
import Verif.Model.EquationModel
import Verif.Model.Execute
import Verif.Model.Expr
import Verif.Model.FromPath
import Verif.Model.Glm
import Verif.Model.GlmExecute
import Verif.Model.GlmInclude
import Verif.Model.GlmObjects
import Verif.Model.GlmReader
import Verif.Model.Homotopy
import Verif.Model.HourlyRun
import Verif.Model.Islands
import Verif.Model.Labels
import Verif.Model.LineImpedance
import Verif.Model.LineReader
import Verif.Model.LoadFactor
import Verif.Model.LoadNames
import Verif.Model.Loader
import Verif.Model.Newton
import Verif.Model.Placement
import Verif.Model.Ratings
import Verif.Model.Raw
import Verif.Model.RawNetwork
import Verif.Model.RawText
import Verif.Model.Report
import Verif.Model.Residuals
import Verif.Model.Results
import Verif.Model.Segment
import Verif.Model.SeriesRun
import Verif.Model.Stamper
import Verif.Model.Start
import Verif.Model.Summary
import Verif.Model.Text
import Verif.Model.ThreePhase
import Verif.Model.TimeSeries
import Verif.Model.UnbalancedLine
import Verif.Spec.Balance
import Verif.Spec.Balanced
import Verif.Spec.Cache
import Verif.Spec.ChargeSupply
import Verif.Spec.Checked
import Verif.Spec.Circuit
import Verif.Spec.Clock
import Verif.Spec.Converge
import Verif.Spec.Disk
import Verif.Spec.Dumps
import Verif.Spec.Exchange
import Verif.Spec.Glm
import Verif.Spec.GlmBuses
import Verif.Spec.GlmCircuit
import Verif.Spec.GlmDevices
import Verif.Spec.GlmFile
import Verif.Spec.GlmFlow
import Verif.Spec.GlmInclude
import Verif.Spec.GlmJoined
import Verif.Spec.GlmSound
import Verif.Spec.GlmStarts
import Verif.Spec.GlmSupply
import Verif.Spec.Grid
import Verif.Spec.HourlyRun
import Verif.Spec.InfeasibilityBalance
import Verif.Spec.Islands
import Verif.Spec.Join
import Verif.Spec.Kirchhoff
import Verif.Spec.LineCharge
import Verif.Spec.LineFlow
import Verif.Spec.LineLaw
import Verif.Spec.LineReader
import Verif.Spec.LineSound
import Verif.Spec.LineSupply
import Verif.Spec.Linear
import Verif.Spec.LinearSolve
import Verif.Spec.LoadNames
import Verif.Spec.Loader
import Verif.Spec.Margin
import Verif.Spec.Network
import Verif.Spec.NewtonStep
import Verif.Spec.Numbers
import Verif.Spec.Optimization
import Verif.Spec.Raw
import Verif.Spec.RawPowerFlow
import Verif.Spec.RawSupply
import Verif.Spec.RawText
import Verif.Spec.Report
import Verif.Spec.Resistive
import Verif.Spec.Results
import Verif.Spec.Summary
import Verif.Spec.Superposition
import Verif.Spec.Symmetry
import Verif.Spec.TimeSeries
import Verif.Spec.Units
import Verif.Spec.Unknowns
import Verif.Lemmas.Assembly
import Verif.Lemmas.Balanced
import Verif.Lemmas.Builder
import Verif.Lemmas.Cache
import Verif.Lemmas.ChargeSupply
import Verif.Lemmas.Converge
import Verif.Lemmas.DebugPass
import Verif.Lemmas.Diff
import Verif.Lemmas.Dumps
import Verif.Lemmas.Exchange
import Verif.Lemmas.Expr
import Verif.Lemmas.Feeder
import Verif.Lemmas.FuseNet
import Verif.Lemmas.Glm
import Verif.Lemmas.GlmAccept
import Verif.Lemmas.GlmAcceptRead
import Verif.Lemmas.GlmBuses
import Verif.Lemmas.GlmDevices
import Verif.Lemmas.GlmExecute
import Verif.Lemmas.GlmFile
import Verif.Lemmas.GlmFlow
import Verif.Lemmas.GlmFlowDevices
import Verif.Lemmas.GlmFlowNetwork
import Verif.Lemmas.GlmInclude
import Verif.Lemmas.GlmInner
import Verif.Lemmas.GlmObjects
import Verif.Lemmas.GlmRun
import Verif.Lemmas.GlmSound
import Verif.Lemmas.GlmStarts
import Verif.Lemmas.GlmSturdy
import Verif.Lemmas.GlmSupply
import Verif.Lemmas.Gradient
import Verif.Lemmas.GradientNetwork
import Verif.Lemmas.HourlyRun
import Verif.Lemmas.Islands
import Verif.Lemmas.Jacobian
import Verif.Lemmas.Join
import Verif.Lemmas.Kirchhoff
import Verif.Lemmas.KirchhoffElement
import Verif.Lemmas.KirchhoffNetwork
import Verif.Lemmas.Light
import Verif.Lemmas.LightMethod
import Verif.Lemmas.LineAccept
import Verif.Lemmas.LineCharge
import Verif.Lemmas.LineImpedance
import Verif.Lemmas.LineLaw
import Verif.Lemmas.LineMatrices
import Verif.Lemmas.LinePlaces
import Verif.Lemmas.LineReader
import Verif.Lemmas.LineSupply
import Verif.Lemmas.LineWires
import Verif.Lemmas.Linear
import Verif.Lemmas.LinearOpt
import Verif.Lemmas.LoadFill
import Verif.Lemmas.LoadNames
import Verif.Lemmas.Margin
import Verif.Lemmas.NetworkBelow
import Verif.Lemmas.NetworkPlaced
import Verif.Lemmas.Newton
import Verif.Lemmas.NewtonLocal
import Verif.Lemmas.NewtonMethod
import Verif.Lemmas.NewtonStamper
import Verif.Lemmas.NewtonStep
import Verif.Lemmas.Numbers
import Verif.Lemmas.OptUnique
import Verif.Lemmas.Optimization
import Verif.Lemmas.OptimizationRows
import Verif.Lemmas.Physics
import Verif.Lemmas.Placement
import Verif.Lemmas.Ratings
import Verif.Lemmas.Raw
import Verif.Lemmas.RawCase
import Verif.Lemmas.RawCheck
import Verif.Lemmas.RawCsv
import Verif.Lemmas.RawFields
import Verif.Lemmas.RawFile
import Verif.Lemmas.RawFlow
import Verif.Lemmas.RawInvariants
import Verif.Lemmas.RawRecords
import Verif.Lemmas.RawRun
import Verif.Lemmas.RawSections
import Verif.Lemmas.RawSupply
import Verif.Lemmas.RawUnique
import Verif.Lemmas.RawVersion
import Verif.Lemmas.Realize
import Verif.Lemmas.Reciprocity
import Verif.Lemmas.Report
import Verif.Lemmas.Resistive
import Verif.Lemmas.RowsBelow
import Verif.Lemmas.Segment
import Verif.Lemmas.Skew
import Verif.Lemmas.Stamper
import Verif.Lemmas.StamperBuild
import Verif.Lemmas.Start
import Verif.Lemmas.Summary
import Verif.Lemmas.Superposition
import Verif.Lemmas.Symmetry
import Verif.Lemmas.Text
import Verif.Lemmas.ThreePhase
import Verif.Lemmas.TimeSeries
import Verif.Lemmas.Transformer
import Verif.Lemmas.Twin
import Verif.Lemmas.TwinEquations
import Verif.Lemmas.Units
import Verif.Lemmas.WellPlaced
import Verif.Lemmas.ZeroCheck
import Verif.Props.Accuracy
import Verif.Props.Assembly
import Verif.Props.Balance
import Verif.Props.Balanced
import Verif.Props.BuilderViews
import Verif.Props.Cache
import Verif.Props.CaseSummary
import Verif.Props.ChargeSupply
import Verif.Props.Checked
import Verif.Props.CommandLine
import Verif.Props.Converge
import Verif.Props.Declared
import Verif.Props.DeviceControl
import Verif.Props.DeviceStamps
import Verif.Props.Devices
import Verif.Props.Disk
import Verif.Props.Dumps
import Verif.Props.EquationModel
import Verif.Props.Exchange
import Verif.Props.Execute
import Verif.Props.FromPath
import Verif.Props.Glm
import Verif.Props.GlmAcceptance
import Verif.Props.GlmCarson
import Verif.Props.GlmExecute
import Verif.Props.GlmFile
import Verif.Props.GlmFlow
import Verif.Props.GlmInclude
import Verif.Props.GlmNominal
import Verif.Props.GlmNumbers
import Verif.Props.GlmObjects
import Verif.Props.GlmRun
import Verif.Props.GlmStarts
import Verif.Props.GlmTransformers
import Verif.Props.GlmUnits
import Verif.Props.Homotopy
import Verif.Props.HourlyRun
import Verif.Props.Infeasibility
import Verif.Props.InfeasibilityBalance
import Verif.Props.InfeasibilityLinear
import Verif.Props.Islands
import Verif.Props.Join
import Verif.Props.Kirchhoff
import Verif.Props.Labels
import Verif.Props.Light
import Verif.Props.LightFar
import Verif.Props.LineAcceptance
import Verif.Props.LineBuilt
import Verif.Props.LineCarson
import Verif.Props.LineCharge
import Verif.Props.LineImpedance
import Verif.Props.LineLaws
import Verif.Props.LineReader
import Verif.Props.LineSupply
import Verif.Props.Linear
import Verif.Props.Lines
import Verif.Props.LoadNames
import Verif.Props.Loader
import Verif.Props.Margin
import Verif.Props.Matrix
import Verif.Props.Newton
import Verif.Props.Optimization
import Verif.Props.Placement
import Verif.Props.Ratings
import Verif.Props.Raw
import Verif.Props.RawExecute
import Verif.Props.RawLimits
import Verif.Props.RawLoading
import Verif.Props.RawLoads
import Verif.Props.RawPowerFlow
import Verif.Props.RawQuantities
import Verif.Props.RawRun
import Verif.Props.RawText
import Verif.Props.RawTextFaults
import Verif.Props.RawTransformers
import Verif.Props.Report
import Verif.Props.Residuals
import Verif.Props.Results
import Verif.Props.SeriesRun
import Verif.Props.SharedNames
import Verif.Props.SolveAgain
import Verif.Props.Stamps
import Verif.Props.Start
import Verif.Props.Summary
import Verif.Props.Superposition
import Verif.Props.Symmetry
import Verif.Props.TimeSeries
import Verif.Props.Transformers
import Verif.Props.Unique
import Verif.Props.Units
