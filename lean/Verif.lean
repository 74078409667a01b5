import Verif.Model.Archive
import Verif.Model.Base
import Verif.Model.CleanCmd
import Verif.Model.Config
import Verif.Model.ConfigFile
import Verif.Model.Control
import Verif.Model.DbShare
import Verif.Model.Dep
import Verif.Model.Download
import Verif.Model.Env
import Verif.Model.Fetching
import Verif.Model.Fs
import Verif.Model.Inspect
import Verif.Model.Install
import Verif.Model.Json
import Verif.Model.LibScan
import Verif.Model.Linux
import Verif.Model.Load
import Verif.Model.LoadEnd
import Verif.Model.LocalRepo
import Verif.Model.Logger
import Verif.Model.Nexus
import Verif.Model.Options
import Verif.Model.PkgDb
import Verif.Model.Plan
import Verif.Model.PlanFiles
import Verif.Model.Queue
import Verif.Model.RCalls
import Verif.Model.RProcs
import Verif.Model.RawCustom
import Verif.Model.RepoDb
import Verif.Model.Report
import Verif.Model.Rollback
import Verif.Model.Sched
import Verif.Model.Session
import Verif.Model.Settings
import Verif.Model.SyncMap
import Verif.Model.Tarballs
import Verif.Model.TempDir
import Verif.Model.Valtools
import Verif.Model.Version
import Verif.Model.Web
import Verif.Model.Where
import Verif.Spec.AsDownloaded
import Verif.Spec.CacheUse
import Verif.Spec.Clean
import Verif.Spec.CleanCmd
import Verif.Spec.Config
import Verif.Spec.Contents
import Verif.Spec.Control
import Verif.Spec.Custom
import Verif.Spec.DbShare
import Verif.Spec.Download
import Verif.Spec.Edited
import Verif.Spec.EndToEnd
import Verif.Spec.Ends
import Verif.Spec.EndsWhole
import Verif.Spec.Env
import Verif.Spec.Fetching
import Verif.Spec.FromYml
import Verif.Spec.Inspect
import Verif.Spec.Install
import Verif.Spec.Json
import Verif.Spec.LibScan
import Verif.Spec.Linux
import Verif.Spec.LocalRepo
import Verif.Spec.Logger
import Verif.Spec.Lost
import Verif.Spec.MoreSaid
import Verif.Spec.Nexus
import Verif.Spec.Once
import Verif.Spec.Opening
import Verif.Spec.Options
import Verif.Spec.PkgDb
import Verif.Spec.Plan
import Verif.Spec.PlanFiles
import Verif.Spec.Queue
import Verif.Spec.RProcs
import Verif.Spec.RSettings
import Verif.Spec.RawCustom
import Verif.Spec.RealRun
import Verif.Spec.RepoDb
import Verif.Spec.Repos
import Verif.Spec.Retry
import Verif.Spec.Rollback
import Verif.Spec.Rounds
import Verif.Spec.Sched
import Verif.Spec.Session
import Verif.Spec.Settings
import Verif.Spec.Succeeds
import Verif.Spec.SyncMap
import Verif.Spec.Tarballs
import Verif.Spec.Temp
import Verif.Spec.TempDir
import Verif.Spec.Text
import Verif.Spec.Valtools
import Verif.Spec.Version
import Verif.Spec.Web
import Verif.Spec.WholeRun
import Verif.Spec.Written
import Verif.Proof.Base
import Verif.Proof.Dep
import Verif.Proof.Download
import Verif.Proof.Env
import Verif.Proof.Fetching
import Verif.Proof.Graph
import Verif.Proof.Install
import Verif.Proof.Json
import Verif.Proof.Layers
import Verif.Proof.Lost
import Verif.Proof.Lost2
import Verif.Proof.Nexus
import Verif.Proof.Plan
import Verif.Proof.PlanAux
import Verif.Proof.Queue
import Verif.Proof.QueueEnds
import Verif.Proof.QueueStore
import Verif.Proof.RealRun
import Verif.Proof.RepoDb
import Verif.Proof.Restore
import Verif.Proof.Rollback
import Verif.Proof.Sched
import Verif.Proof.Sched2
import Verif.Proof.Split
import Verif.Proof.Version
import Verif.Proof.Web
import Verif.Props.Announce
import Verif.Props.AnyOrder
import Verif.Props.Applied
import Verif.Props.AppliedRollback
import Verif.Props.AppliedRun
import Verif.Props.Archive
import Verif.Props.AsDownloaded
import Verif.Props.CacheUse
import Verif.Props.Changes
import Verif.Props.Clean
import Verif.Props.CleanCmd
import Verif.Props.Config
import Verif.Props.ConfigFile
import Verif.Props.Contents
import Verif.Props.Control
import Verif.Props.Custom
import Verif.Props.DbShare
import Verif.Props.Dep
import Verif.Props.Download
import Verif.Props.Edited
import Verif.Props.EditedCmd
import Verif.Props.EditedRounds
import Verif.Props.EndToEnd
import Verif.Props.Ends
import Verif.Props.EndsWhole
import Verif.Props.Env
import Verif.Props.EnvMore
import Verif.Props.FetchEnds
import Verif.Props.Fetching
import Verif.Props.FromYml
import Verif.Props.FromYmlMore
import Verif.Props.Ignored
import Verif.Props.IndexText
import Verif.Props.Inspect
import Verif.Props.Install
import Verif.Props.InstallAgain
import Verif.Props.InstallMore
import Verif.Props.Json
import Verif.Props.JsonText
import Verif.Props.LibScan
import Verif.Props.Linux
import Verif.Props.Load
import Verif.Props.LoadEnd
import Verif.Props.LocalRepo
import Verif.Props.Logger
import Verif.Props.Looking
import Verif.Props.Lost
import Verif.Props.MoreSaid
import Verif.Props.Nexus
import Verif.Props.NexusMore
import Verif.Props.NoRollback
import Verif.Props.NoUpdate
import Verif.Props.Once
import Verif.Props.Opening
import Verif.Props.Options
import Verif.Props.OptionsRun
import Verif.Props.Outcome
import Verif.Props.PkgDb
import Verif.Props.Plan
import Verif.Props.PlanFiles
import Verif.Props.Queue
import Verif.Props.RCalls
import Verif.Props.RProcs
import Verif.Props.RSettings
import Verif.Props.RawCustom
import Verif.Props.RealRun
import Verif.Props.Repaired
import Verif.Props.RepoDb
import Verif.Props.Report
import Verif.Props.Repos
import Verif.Props.Retry
import Verif.Props.Rollback
import Verif.Props.Rollback2
import Verif.Props.Rounds
import Verif.Props.Sched
import Verif.Props.SchedMore
import Verif.Props.Session
import Verif.Props.Settings
import Verif.Props.Stamped
import Verif.Props.Succeeds
import Verif.Props.SyncMap
import Verif.Props.Tarballs
import Verif.Props.TarballsMore
import Verif.Props.Temp
import Verif.Props.TempDir
import Verif.Props.Twice
import Verif.Props.TwoRuns
import Verif.Props.Valtools
import Verif.Props.VersionDep
import Verif.Props.VersionMore
import Verif.Props.Web
import Verif.Props.Where
import Verif.Props.WholeRun
import Verif.Props.Written
