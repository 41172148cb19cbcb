import Verif.Answers
import Verif.ApiSpec
import Verif.BuilderSpec
import Verif.ChangesSpec
import Verif.CommitSpec
import Verif.ConcSpec
import Verif.CrashSpec
import Verif.FileSpec
import Verif.History
import Verif.LabelSpec
import Verif.LayerSpec
import Verif.LifeSpec
import Verif.NameSpec
import Verif.NetSpec
import Verif.PackSpec
import Verif.RollupFileSpec
import Verif.RollupSpec
import Verif.Spec
import Verif.TextSpec
import Verif.TradeSpec
import Verif.TransactionSpec
import Verif.Model.Api
import Verif.Model.Archive
import Verif.Model.ArchiveConc
import Verif.Model.ArchiveDir
import Verif.Model.ArchiveStore
import Verif.Model.Backend
import Verif.Model.BaseMerge
import Verif.Model.Basic
import Verif.Model.Conc
import Verif.Model.Construction
import Verif.Model.Crash
import Verif.Model.CrashArchive
import Verif.Model.Dict
import Verif.Model.Files
import Verif.Model.Form
import Verif.Model.Getters
import Verif.Model.LabelDir
import Verif.Model.LabelStore
import Verif.Model.Layer
import Verif.Model.LayerChanges
import Verif.Model.LayerFiles
import Verif.Model.LayerIter
import Verif.Model.Life
import Verif.Model.LockedLabels
import Verif.Model.LockedRollups
import Verif.Model.Lru
import Verif.Model.Merge
import Verif.Model.Named
import Verif.Model.Net
import Verif.Model.Out
import Verif.Model.Pack
import Verif.Model.Reach
import Verif.Model.Resolve
import Verif.Model.Rollup
import Verif.Model.RollupFile
import Verif.Model.Shared
import Verif.Model.SimpleBuilder
import Verif.Model.Store
import Verif.Model.StoreBuilder
import Verif.Model.StoreMerge
import Verif.Model.Strings
import Verif.Model.Succinct
import Verif.Model.Text
import Verif.Model.Trade
import Verif.Model.Transactions
import Verif.Model.TripleFile
import Verif.Model.TripleStream
import Verif.Model.World
import Verif.Lemmas.Adj
import Verif.Lemmas.Alike
import Verif.Lemmas.AnswersOk
import Verif.Lemmas.ApiBuild
import Verif.Lemmas.ApiGraphs
import Verif.Lemmas.ApiLayers
import Verif.Lemmas.ApiMake
import Verif.Lemmas.ApiNames
import Verif.Lemmas.ApiRight
import Verif.Lemmas.ApiRollup
import Verif.Lemmas.ApiSim
import Verif.Lemmas.ApplyOk
import Verif.Lemmas.Archive
import Verif.Lemmas.ArchiveConc
import Verif.Lemmas.ArchiveRollup
import Verif.Lemmas.ArchiveRun
import Verif.Lemmas.ArchiveStore
import Verif.Lemmas.Backend
import Verif.Lemmas.BackendArchive
import Verif.Lemmas.BackendTakes
import Verif.Lemmas.BaseMerge
import Verif.Lemmas.BuilderOps
import Verif.Lemmas.ChangeIter
import Verif.Lemmas.ChangeSpec
import Verif.Lemmas.Commit
import Verif.Lemmas.CommitParts
import Verif.Lemmas.CommitRuns
import Verif.Lemmas.ConcEnds
import Verif.Lemmas.ConcFree
import Verif.Lemmas.ConcGrow
import Verif.Lemmas.ConcKept
import Verif.Lemmas.ConcLoad
import Verif.Lemmas.ConcMoves
import Verif.Lemmas.ConcPlay
import Verif.Lemmas.ConcRuns
import Verif.Lemmas.ConcSerial
import Verif.Lemmas.ConcSim
import Verif.Lemmas.ConcSteps
import Verif.Lemmas.Construction
import Verif.Lemmas.CrashFiles
import Verif.Lemmas.CrashInv
import Verif.Lemmas.CrashLoad
import Verif.Lemmas.CrashReal
import Verif.Lemmas.Decides
import Verif.Lemmas.Forms
import Verif.Lemmas.Getters
import Verif.Lemmas.HeadLine
import Verif.Lemmas.Ids
import Verif.Lemmas.ImportFrame
import Verif.Lemmas.Index
import Verif.Lemmas.Intern
import Verif.Lemmas.IterSim
import Verif.Lemmas.LabelAtomic
import Verif.Lemmas.LabelDir
import Verif.Lemmas.LabelFile
import Verif.Lemmas.LabelHistory
import Verif.Lemmas.LabelSpec
import Verif.Lemmas.LayerCodec
import Verif.Lemmas.LayerCopy
import Verif.Lemmas.LayerFiles
import Verif.Lemmas.LayerFit
import Verif.Lemmas.LayerGet
import Verif.Lemmas.LayerNames
import Verif.Lemmas.LayerStore
import Verif.Lemmas.LevelEntries
import Verif.Lemmas.Linear
import Verif.Lemmas.Lives
import Verif.Lemmas.LockedInv
import Verif.Lemmas.LockedLin
import Verif.Lemmas.LockedProgress
import Verif.Lemmas.LockedRollups
import Verif.Lemmas.LockedRollupsEnd
import Verif.Lemmas.LockedRuin
import Verif.Lemmas.LockedSim
import Verif.Lemmas.LockedSteps
import Verif.Lemmas.Lru
import Verif.Lemmas.MergeSim
import Verif.Lemmas.MergeSpec
import Verif.Lemmas.Named
import Verif.Lemmas.NetGrow
import Verif.Lemmas.NetSim
import Verif.Lemmas.ObjIter
import Verif.Lemmas.ObjSeek
import Verif.Lemmas.Pack
import Verif.Lemmas.PackNames
import Verif.Lemmas.PackParents
import Verif.Lemmas.PredIter
import Verif.Lemmas.Prepare
import Verif.Lemmas.ReachOk
import Verif.Lemmas.Replicate
import Verif.Lemmas.RollupFile
import Verif.Lemmas.RollupFileAlone
import Verif.Lemmas.RollupOk
import Verif.Lemmas.Same
import Verif.Lemmas.Serial
import Verif.Lemmas.SharedSim
import Verif.Lemmas.Sort
import Verif.Lemmas.SpScan
import Verif.Lemmas.SquashOk
import Verif.Lemmas.SquashSpec
import Verif.Lemmas.StackOk
import Verif.Lemmas.StackQuery
import Verif.Lemmas.StoreBuilder
import Verif.Lemmas.StoreFresh
import Verif.Lemmas.StoreInv
import Verif.Lemmas.StoreNamed
import Verif.Lemmas.StoreOps
import Verif.Lemmas.StorePlans
import Verif.Lemmas.SubjIter
import Verif.Lemmas.SubjSeek
import Verif.Lemmas.Text
import Verif.Lemmas.TextExact
import Verif.Lemmas.Through
import Verif.Lemmas.TradeKept
import Verif.Lemmas.TradeRuns
import Verif.Lemmas.TradeSim
import Verif.Lemmas.Transactions
import Verif.Lemmas.TripleRep
import Verif.Lemmas.TripleStream
import Verif.Lemmas.WorldMerge
import Verif.Lemmas.WorldMore
import Verif.Lemmas.WorldOk
import Verif.Lemmas.WorldParents
import Verif.Lemmas.WorldThrough
import Verif.Props.Api
import Verif.Props.Archive
import Verif.Props.ArchiveConc
import Verif.Props.Builder
import Verif.Props.BuilderWitness
import Verif.Props.Commit
import Verif.Props.CommitHistory
import Verif.Props.CommitRuns
import Verif.Props.Conc
import Verif.Props.ConcEnds
import Verif.Props.Construction
import Verif.Props.Crash
import Verif.Props.CrashArchive
import Verif.Props.CrashImport
import Verif.Props.Dict
import Verif.Props.DictKinds
import Verif.Props.Getters
import Verif.Props.Graph
import Verif.Props.HeadLine
import Verif.Props.Label
import Verif.Props.LabelDir
import Verif.Props.LabelFiles
import Verif.Props.LabelWitness
import Verif.Props.LayerFiles
import Verif.Props.Lives
import Verif.Props.LockedDrops
import Verif.Props.LockedLabels
import Verif.Props.LockedRollups
import Verif.Props.Lru
import Verif.Props.LruEvict
import Verif.Props.Merge
import Verif.Props.Net
import Verif.Props.Pack
import Verif.Props.PackIds
import Verif.Props.Query
import Verif.Props.Replicate
import Verif.Props.RollupFile
import Verif.Props.Script
import Verif.Props.Shared
import Verif.Props.Store
import Verif.Props.StoreWitness
import Verif.Props.Text
import Verif.Props.TextExact
import Verif.Props.Trade
import Verif.Props.TradeHistory
import Verif.Props.Transactions
import Verif.Props.Witness
import Verif.Audit
