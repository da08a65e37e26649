import Verif.Model.Glob
import Verif.Lemmas.Dict
import Verif.Lemmas.Diff
import Verif.Lemmas.Obj
import Verif.Lemmas.DiffDict
import Verif.Lemmas.Read
import Verif.Lemmas.PDiff
import Verif.Lemmas.Store
import Verif.Lemmas.Compared
import Verif.Lemmas.Differ
import Verif.Model.Tests
import Verif.Props.Diff
import Verif.Props.Utils
import Verif.Props.ListUtils
import Verif.Props.Obj
import Verif.Lemmas.DiffErr
import Verif.Lemmas.Prune
import Verif.Lemmas.Mirror
import Verif.Lemmas.DiffOk
import Verif.Props.Differ
import Verif.Lemmas.Redis
import Verif.Lemmas.StoreOps
import Verif.Lemmas.Remove
import Verif.Props.Store
import Verif.Lemmas.SyncBase
import Verif.Lemmas.SyncStore
import Verif.Spec.Sync
import Verif.Lemmas.SyncStep
import Verif.Lemmas.SyncFrame
import Verif.Lemmas.SyncFrameR
import Verif.Lemmas.SyncFrameG
import Verif.Lemmas.SyncTrace
import Verif.Lemmas.SyncTop
import Verif.Lemmas.SyncComputed
import Verif.Lemmas.SyncFacts
import Verif.Lemmas.SyncPlan
import Verif.Lemmas.SyncRun
import Verif.Lemmas.SyncOwn
import Verif.Props.Sync
import Verif.Props.SyncFail
import Verif.Props.SyncDel
import Verif.Props.SyncLog
import Verif.Props.SyncArgs
import Verif.Props.SyncEx
import Verif.Lemmas.Conv
import Verif.Lemmas.ConvStore
import Verif.Lemmas.ConvStep
import Verif.Lemmas.ConvTree
import Verif.Lemmas.ConvEnd
import Verif.Lemmas.Quiet
import Verif.Props.Converge
import Verif.Props.ConvergeEx
import Verif.Props.RoundTrip
import Verif.Props.RoundTripEx
import Verif.Spec.Listed
import Verif.Lemmas.Ledger
import Verif.Lemmas.LedgerRun
import Verif.Props.Progress
import Verif.Props.ProgressEx
import Verif.Lemmas.Transfer
import Verif.Lemmas.RedisCmp
import Verif.Props.RedisEx
import Verif.Spec.History
import Verif.Lemmas.Safe
import Verif.Lemmas.SafeStore
import Verif.Lemmas.SafeSync
import Verif.Lemmas.Reach
import Verif.Props.History
import Verif.Spec.Declared
import Verif.Props.HistoryConv
import Verif.Props.HistoryEx
import Verif.Model.Render
import Verif.Model.RenderAdapter
import Verif.Spec.Render
import Verif.Spec.RenderAdapter
import Verif.Lemmas.Render
import Verif.Lemmas.RenderBlank
import Verif.Lemmas.RenderAdapter
import Verif.Lemmas.RenderText
import Verif.Props.Render
import Verif.Props.RenderAdapter
import Verif.Props.Lookup
import Verif.Props.StoreSame
import Verif.Spec.SyncDone
import Verif.Lemmas.SyncDone
import Verif.Lemmas.SyncDoneTop
import Verif.Props.SyncDone
import Verif.Props.SyncDoneEx
import Verif.Props.HelpersRedis
import Verif.Props.SyncRedis
import Verif.Props.SyncRedisEx
import Verif.Props.BackRefs
import Verif.Props.BackRefsEx
import Verif.Spec.Glob
import Verif.Props.RedisScan
import Verif.Props.RedisScanEx
import Verif.Model.RedisCmd
import Verif.Spec.Concurrent
import Verif.Props.Concurrent
import Verif.Props.RedisSeq
import Verif.Props.ConcurrentEx
import Verif.Model.SyncerOpen
import Verif.Spec.Open
import Verif.Lemmas.OpenSync
import Verif.Lemmas.OpenFacts
import Verif.Lemmas.OpenClosed
import Verif.Props.OpenSync
import Verif.Props.OpenSyncEx
import Verif.Props.Supplied
import Verif.Props.ElemEq
import Verif.Spec.Crash
import Verif.Props.Crash
import Verif.Props.CrashEx
import Verif.Spec.SkipCount
import Verif.Lemmas.SkipCount
import Verif.Props.SkipCount
import Verif.Spec.Chain
import Verif.Props.Chain
import Verif.Props.ChainEx
import Verif.Spec.SameContents
import Verif.Lemmas.SameContents
import Verif.Props.SameContents
import Verif.Props.SameContentsEx
import Verif.Spec.Outcome
import Verif.Lemmas.Outcome
import Verif.Lemmas.OutcomeSame
import Verif.Props.Outcome
import Verif.Props.OutcomeEx
import Verif.Spec.Retry
import Verif.Lemmas.Retry
import Verif.Lemmas.Retried
import Verif.Props.Retry
import Verif.Props.RetryEx
import Verif.Lemmas.ConvErr
import Verif.Props.Escape
import Verif.Props.EscapeEx
import Verif.Props.Parse
import Verif.Props.ParseEx
import Verif.Props.OpenArgs
import Verif.Props.OpenArgsEx
import Verif.Props.Isolated
import Verif.Props.IsolatedEx
import Verif.Spec.Status
import Verif.Lemmas.Status
import Verif.Lemmas.StatusSync
import Verif.Lemmas.StatusTop
import Verif.Props.Status
import Verif.Model.Init
import Verif.Props.Init
import Verif.Props.ModelNames
import Verif.Spec.Remains
import Verif.Lemmas.Remains
import Verif.Props.Remains
import Verif.Props.RemainsEx
import Verif.Spec.Merge
import Verif.Lemmas.Merge
import Verif.Props.Merge
import Verif.Props.MergeEx
import Verif.Spec.Load
import Verif.Props.Load
import Verif.Props.LoadEx
import Verif.Props.DifferOpenEx
import Verif.Props.SyncCallbackEx
import Verif.Model.DiffCmd
import Verif.Spec.DiffCmd
import Verif.Lemmas.DiffCmd
import Verif.Props.DiffCmd
import Verif.Props.DiffCmdEx
import Verif.Spec.SyncSeen
import Verif.Props.SyncSeen
import Verif.Props.SyncSeenEx
import Verif.Model.DiffRef
import Verif.Spec.DiffRef
import Verif.Lemmas.DiffRef
import Verif.Props.DiffRef
import Verif.Props.DiffRefEx
import Verif.Props.UnknownAttr
import Verif.Props.UnknownAttrEx
import Verif.Model.SyncCmd
import Verif.Spec.SyncKilled
import Verif.Lemmas.SyncCmd
import Verif.Lemmas.SyncKilled
import Verif.Props.SyncKilled
import Verif.Props.SyncKilledEx
import Verif.Spec.SyncConc
import Verif.Lemmas.SyncConc
import Verif.Props.SyncConc
import Verif.Props.SyncConcEx
import Verif.Model.SyncFromCmd
import Verif.Spec.SyncFrom
import Verif.Lemmas.SyncFrom
import Verif.Props.SyncFrom
import Verif.Props.SyncFromEx
import Verif.Spec.WaitFree
import Verif.Props.WaitFree
import Verif.Props.WaitFreeEx
import Verif.Props.NewStatus
import Verif.Spec.RedisNext
import Verif.Lemmas.RedisNext
import Verif.Props.RedisNext
import Verif.Props.RedisNextEx
import Verif.Props.DictRaises
import Verif.Lemmas.RedisErr
import Verif.Lemmas.RedisErrStep
import Verif.Props.EscapeRedis
import Verif.Props.EscapeRedisEx
import Verif.Props.Validate
import Verif.Props.ValidateEx
import Verif.Spec.DiffOrder
import Verif.Props.DiffOrder
import Verif.Props.DiffOrderEx
import Verif.Spec.SyncOrder
import Verif.Props.SyncOrder
import Verif.Props.SyncOrderEx
import Verif.Lemmas.RunPlan
import Verif.Props.SyncRuns
import Verif.Props.SyncAnyOrder
import Verif.Props.SyncRunsEx
import Verif.Model.Refused
import Verif.Props.Refused
import Verif.Props.RefusedEx
import Verif.Spec.Kept
import Verif.Lemmas.Kept
import Verif.Props.Kept
import Verif.Props.KeptEx
import Verif.Spec.CallsLeave
import Verif.Props.CallsLeave
import Verif.Props.CallsLeaveEx
import Verif.Lemmas.Whole
import Verif.Spec.Along
import Verif.Props.Along
import Verif.Props.AlongEx
import Verif.Props.RetryWhole
import Verif.Props.RetryWholeEx
import Verif.Props.Unchanged
import Verif.Props.UnchangedEx
import Verif.Props.Missing
import Verif.Props.MissingEx
import Verif.Spec.Removal
import Verif.Lemmas.RemoveReport
import Verif.Props.Removal
import Verif.Props.RemovalEx
import Verif.Lemmas.StoreQuiet
import Verif.Props.SyncAlong
import Verif.Props.SyncAlongEx
import Verif.Conform.DiffTests
import Verif.Conform.ModelTests
import Verif.Conform.AdapterTests
import Verif.Conform.SyncTests
