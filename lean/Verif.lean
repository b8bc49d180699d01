import Verif.Props.Temporal
import Verif.Props.Scenario
import Verif.Props.Combination
import Verif.Props.ArrayParam
import Verif.Props.Timestep
import Verif.Props.Storage
import Verif.Props.VirtualStorage
import Verif.Props.Values
import Verif.Props.Topology
import Verif.Props.Lp
import Verif.Props.Columns
import Verif.Props.Factors
import Verif.Props.Solver
import Verif.Props.SolverCases
import Verif.Props.Exclusivity
import Verif.Props.Curves
import Verif.Props.Profiles
import Verif.Props.AggFuncs
import Verif.Props.Hydropower
import Verif.Props.Aggregator
import Verif.Props.Memory
import Verif.Props.Stepping
import Verif.Props.Multi
import Verif.Props.Params
import Verif.Props.Variables
import Verif.Props.Simulation
import Verif.Props.SimulationCases
import Verif.Props.SimulationRolling
import Verif.Props.Activation
import Verif.Props.Schema
import Verif.Props.SchemaMetrics
import Verif.Props.SchemaCases
import Verif.Props.SchemaLimits
import Verif.Props.SchemaVirtual
import Verif.Props.SchemaVirtualCases
import Verif.Model.SchemaParams
import Verif.Spec.SchemaPieces
import Verif.Props.SchemaLicences
import Verif.Props.SchemaLicencesCases
import Verif.Props.SchemaPieces
import Verif.Props.SchemaReports
import Verif.Props.SchemaReportsCases
import Verif.Props.OutputsCases
import Verif.Props.Merit
import Verif.Props.MeritCases
import Verif.Props.SchemaMerit
import Verif.Props.SchemaMeritCases
import Verif.Props.ParamRun
import Verif.Props.ParamRunCases
import Verif.Props.Ipm
import Verif.Props.IpmCases
import Verif.Props.IpmLp
import Verif.Props.IpmLpCases
import Verif.Props.IpmReady
import Verif.Props.Whole
import Verif.Props.WholeCases
import Verif.Props.Typed
import Verif.Props.TypedCases
import Verif.Props.Tables
import Verif.Props.TablesArray
import Verif.Props.TablesCases
import Verif.Props.Timeseries
import Verif.Props.TimeseriesRefs
import Verif.Props.TimeseriesCases
import Verif.Spec.Choice
import Verif.Lemmas.ChoiceLp
import Verif.Lemmas.ChoiceCreate
import Verif.Lemmas.ChoiceTwin
import Verif.Lemmas.Choice
import Verif.Props.Choice
import Verif.Model.Kinds
import Verif.Spec.Kinds
import Verif.Lemmas.Kinds
import Verif.Lemmas.KindsNow
import Verif.Lemmas.KindsQueue
import Verif.Lemmas.KindsFlag
import Verif.Lemmas.KindsLocal
import Verif.Lemmas.KindsMain
import Verif.Lemmas.KindsRun
import Verif.Props.Kinds
import Verif.Model.V1
import Verif.Spec.V1
import Verif.Lemmas.V1Names
import Verif.Lemmas.V1Verdict
import Verif.Lemmas.V1Loops
import Verif.Lemmas.V1Owned
import Verif.Lemmas.V1Keep
import Verif.Lemmas.V1Books
import Verif.Lemmas.V1Means
import Verif.Props.V1
import Verif.Props.V1Cases
import Verif.Model.V1Scenario
import Verif.Props.V1Scenario
import Verif.Props.SchemaSplit
import Verif.Props.V1Split
import Verif.Model.Backends
import Verif.Props.Backends
import Verif.Props.BackendsCases
import Verif.Model.Load
import Verif.Spec.Load
import Verif.Spec.LoadOk
import Verif.Lemmas.Load
import Verif.Lemmas.LoadMade
import Verif.Lemmas.LoadDoc
import Verif.Lemmas.LoadReads
import Verif.Lemmas.LoadCurves
import Verif.Lemmas.LoadHolds
import Verif.Lemmas.LoadTold
import Verif.Lemmas.LoadStory
import Verif.Props.Load
import Verif.Props.LoadOk
import Verif.Props.LoadCases
import Verif.Model.Hdf
import Verif.Spec.Hdf
import Verif.Lemmas.Hdf
import Verif.Lemmas.HdfRun
import Verif.Props.Hdf
import Verif.Props.HdfCases
import Verif.Model.Document
import Verif.Spec.Document
import Verif.Lemmas.Document
import Verif.Lemmas.DocumentMetrics
import Verif.Props.Document
import Verif.Props.DocumentCases
import Verif.Props.DocumentLicences
import Verif.Props.DocumentPieces
import Verif.Props.DocumentPiecesCases
import Verif.Props.DocumentGroups
import Verif.Lemmas.WholeTops
import Verif.Lemmas.DocumentVirtual
import Verif.Props.DocumentLicencesCases
import Verif.Model.MultiDocument
import Verif.Spec.MultiDocument
import Verif.Lemmas.MultiDocument
import Verif.Props.MultiDocument
import Verif.Props.MultiDocumentCases
import Verif.Props.V1Types
import Verif.Model.Visit
import Verif.Spec.Rename
import Verif.Lemmas.RenameFrag
import Verif.Lemmas.RenameNet
import Verif.Lemmas.RenameBuild
import Verif.Lemmas.RenameRun
import Verif.Lemmas.RenamePlace
import Verif.Lemmas.Visit
import Verif.Props.Rename
import Verif.Props.RenameCases
import Verif.Model.Files
import Verif.Spec.Files
import Verif.Lemmas.Files
import Verif.Props.Files
import Verif.Props.FilesCases
import Verif.Props.DocumentData
import Verif.Model.Python
import Verif.Spec.Python
import Verif.Lemmas.Python
import Verif.Props.Python
import Verif.Props.PythonCases
import Verif.Props.Visitors
import Verif.Props.VisitorsCases
import Verif.Model.V1Model
import Verif.Props.V1Model
import Verif.Props.V1ModelCases
import Verif.Props.RenameDocument
import Verif.Props.RenameDocumentCases
import Verif.Props.Cli
import Verif.Props.CliCases
import Verif.Props.Reorder
import Verif.Props.ReorderCases
import Verif.Props.Settings
import Verif.Props.SettingsCases
import Verif.Spec.ReorderRun
import Verif.Lemmas.ReorderRun
import Verif.Props.ReorderRun
import Verif.Props.ReorderRunCases
import Verif.Spec.Statics
import Verif.Props.Statics
import Verif.Props.StaticsCases
import Verif.Props.DocumentIndex
import Verif.Spec.Insert
import Verif.Lemmas.Insert
import Verif.Props.Insert
import Verif.Props.InsertCases
