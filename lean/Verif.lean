import Verif.Props.JsonPointerCodec
import Verif.Props.JsonPointerResolve
import Verif.Props.Paths
import Verif.Props.Pmod
import Verif.Props.MapPath
import Verif.Props.Coords
import Verif.Props.Target
import Verif.Props.Expand
import Verif.Props.Sheet
import Verif.Props.CallSpec
import Verif.Props.Parse
import Verif.Props.ExpMoves
import Verif.Props.ParseCase
import Verif.Props.Filters
import Verif.Props.Elementwise
import Verif.Props.DoLasso
import Verif.Props.DoLassoErrors
import Verif.Props.Encased
import Verif.Props.Redim
import Verif.Props.Utils
import Verif.Props.Backend
import Verif.Props.Units
import Verif.Props.SchemaPaths
import Verif.Props.Codec
import Verif.Model.Pandel
import Verif.Spec.Pandel
import Verif.Lemmas.Pandel
import Verif.Props.Pandel
import Verif.Props.PandelRules
import Verif.Model.PandelHeap
import Verif.Spec.PandelHeap
import Verif.Lemmas.PandelHeap
import Verif.Props.PandelHeap
import Verif.Spec.XlrefWritten
import Verif.Lemmas.ParseSound
import Verif.Props.ParseSound
import Verif.Props.Recursive
import Verif.Props.WholeRef
import Verif.Model.Pstep
import Verif.Spec.Pstep
import Verif.Lemmas.Pstep
import Verif.Props.Pstep
import Verif.Lemmas.PmodHeap
import Verif.Spec.PstepPaths
import Verif.Lemmas.PstepTree
import Verif.Lemmas.PstepTags
import Verif.Props.PstepPaths
import Verif.Model.Components
import Verif.Spec.Components
import Verif.Lemmas.Components
import Verif.Props.Components
import Verif.Spec.PstepAssign
import Verif.Lemmas.PstepAssign
import Verif.Lemmas.PstepGraft
import Verif.Props.PstepAssign
import Verif.Py.Url
import Verif.Model.Urls
import Verif.Spec.Urls
import Verif.Lemmas.Urls
import Verif.Lemmas.UrlPaths
import Verif.Lemmas.UrlWalk
import Verif.Lemmas.UrlOpen
import Verif.Props.Urls
import Verif.Model.LassoRun
import Verif.Spec.LassoRun
import Verif.Lemmas.LassoRun
import Verif.Props.LassoRun
import Verif.Spec.Reference
import Verif.Props.Reference
import Verif.Props.Table
import Verif.Model.Visitor
import Verif.Spec.Visitor
import Verif.Lemmas.Visitor
import Verif.Props.Visitor
import Verif.Props.SharedDefaults
import Verif.Model.Frame
import Verif.Spec.Frame
import Verif.Props.Frame
import Verif.Model.Eval
import Verif.Props.Eval
import Verif.Model.SheetCache
import Verif.Spec.SheetCache
import Verif.Props.SheetCache
import Verif.Model.Console
import Verif.Spec.Console
import Verif.Props.Console
import Verif.Model.PstepTuples
import Verif.Spec.PstepTuples
import Verif.Lemmas.PstepTuples
import Verif.Props.PstepTuples
import Verif.Model.PstepDf
import Verif.Spec.PstepDf
import Verif.Props.PstepDf
import Verif.Model.Stages
import Verif.Spec.Stages
import Verif.Props.Stages
import Verif.Py.Sort
import Verif.Model.Plugins
import Verif.Props.Plugins
import Verif.Model.Vba
import Verif.Spec.Vba
import Verif.Props.Vba
import Verif.Model.Assemblies
import Verif.Spec.Assemblies
import Verif.Props.Assemblies
import Verif.Model.SeriesMerge
import Verif.Spec.SeriesMerge
import Verif.Props.SeriesMerge
import Verif.Model.Combined
import Verif.Spec.Combined
import Verif.Props.Combined
import Verif.Spec.CombinedErrors
import Verif.Props.CombinedErrors
import Verif.Model.NormPaths
import Verif.Spec.NormPaths
import Verif.Lemmas.NormPaths
import Verif.Props.NormPaths
import Verif.Props.ConvPath
import Verif.Spec.Drives
import Verif.Props.Drives
import Verif.Spec.IntText
import Verif.Props.IntText
import Verif.Props.UrlPath
import Verif.Model.PmodEq
import Verif.Spec.PmodEq
import Verif.Props.PmodEq
import Verif.Model.FrameMerge
import Verif.Spec.FrameMerge
import Verif.Props.FrameMerge
import Verif.Model.DictFilters
import Verif.Spec.DictFilters
import Verif.Props.DictFilters
import Verif.Props.SortFilter
import Verif.Spec.Truth
import Verif.Lemmas.Truth
import Verif.Model.PyTypes
import Verif.Spec.PyTypes
import Verif.Props.PyTypes
import Verif.Spec.BuildGiven
import Verif.Props.BuildGiven
import Verif.Model.Operations
import Verif.Spec.Operations
import Verif.Props.Operations
import Verif.Model.SheetNames
import Verif.Props.SheetNames
import Verif.Model.Dates
import Verif.Spec.Dates
import Verif.Props.Dates
import Verif.Model.MakerHistory
import Verif.Spec.MakerHistory
import Verif.Props.MakerHistory
import Verif.Model.BuildIter
import Verif.Spec.BuildIter
import Verif.Props.BuildIter
import Verif.Model.MakeDirs
import Verif.Spec.MakeDirs
import Verif.Props.MakeDirs
import Verif.Props.CloseFails
import Verif.Props.PmodShared
import Verif.Props.StepSchema
import Verif.Props.CompRun
import Verif.Props.UniqueNames
import Verif.Props.Recurring
import Verif.Props.FactoryBooks
import Verif.Props.LassoDesk
import Verif.Props.PointerHeap
import Verif.Props.SetMany
import Verif.Props.DiveFrame
import Verif.Props.ErrorPaths
import Verif.Props.Turned
import Verif.Props.SecondOrder
import Verif.Props.FilterArgs
import Verif.Props.ErrorsOnce
import Verif.Props.Modifiers
import Verif.Props.Shifted
import Verif.Props.StepNames
import Verif.Props.StepData
import Verif.Props.HeaderTable
import Verif.Props.VisitPandas
import Verif.Props.VisitPandasErrors
import Verif.Model.WithBlock
import Verif.Props.WithBlock
import Verif.Model.RecurringRun
import Verif.Spec.RecurringDesk
import Verif.Lemmas.RecurringDesk
import Verif.Props.RecurringDesk
import Verif.Spec.SheetsOnce
import Verif.Lemmas.SheetsOnce
import Verif.Props.SheetsOnce
import Verif.Model.FactoryThreads
import Verif.Spec.FactoryThreads
import Verif.Lemmas.FactoryThreads
import Verif.Lemmas.FactoryAlone
import Verif.Props.FactoryThreads
import Verif.Model.SharedSpecs
import Verif.Spec.SharedSpecs
import Verif.Props.SharedSpecs
import Verif.Model.InPlace
import Verif.Spec.InPlace
import Verif.Lemmas.InPlace
import Verif.Lemmas.DocEq
import Verif.Props.InPlace
import Verif.Model.SheetThreads
import Verif.Spec.SheetThreads
import Verif.Lemmas.SheetThreads
import Verif.Props.SheetThreads
import Verif.Model.RedimArgs
import Verif.Spec.WrittenFilter
import Verif.Props.WrittenFilter
import Verif.Model.StepShown
import Verif.Spec.StepShown
import Verif.Props.StepShown
import Verif.Spec.WrittenPipe
import Verif.Props.WrittenPipe
import Verif.Model.PipeLeft
import Verif.Props.PlainLasso
import Verif.Props.TurnedLasso
import Verif.Props.ShiftedLasso
import Verif.Spec.WholeTable
import Verif.Props.WholeTable
import Verif.Spec.SheetNaming
import Verif.Props.SheetNaming
import Verif.Props.Recapture
import Verif.Spec.AnyOrder
import Verif.Props.AnyOrder
import Verif.Spec.Elsewhere
import Verif.Props.Elsewhere
import Verif.Model.RangerThreads
import Verif.Spec.RangerThreads
import Verif.Props.RangerThreads
import Verif.Model.StepThreads
import Verif.Spec.StepThreads
import Verif.Props.StepThreads
import Verif.Model.MakerThreads
import Verif.Spec.MakerThreads
import Verif.Props.MakerThreads
import Verif.Props.VisitPlain
import Verif.Props.FactoryThreadsEnd
import Verif.Model.FactoryClose
import Verif.Spec.FactoryClose
import Verif.Lemmas.FactoryClose
import Verif.Lemmas.FactoryCloseAlone
import Verif.Props.FactoryClose
import Verif.Props.MapPaths
import Verif.Props.FactoryQuiet
import Verif.Model.PmodShown
import Verif.Spec.PmodShown
import Verif.Props.PmodShown
