import Verif.Model.Data
import Verif.Props.Comparators
import Verif.Props.Bitmaps
import Verif.Props.Query
import Verif.Findings.Comparators
import Verif.Findings.Bitmaps
import Verif.Findings.Query
import Verif.Props.Avg
import Verif.Findings.Avg
import Verif.Props.Sync
import Verif.Props.SyncVar
import Verif.Props.SyncKept
import Verif.Findings.Sync
import Verif.Props.Search
import Verif.Findings.Spline
import Verif.Props.History
import Verif.Props.Order
import Verif.Props.Scans
import Verif.Findings.Table
import Verif.Props.Storage
import Verif.Props.Reads
import Verif.Props.Recovery
import Verif.Props.Binary
import Verif.Findings.Recovery
import Verif.Findings.Binary
import Verif.Props.Layout
import Verif.Findings.Layout
import Verif.Props.Index
import Verif.Props.Stats
import Verif.Findings.Index
import Verif.Props.Var
import Verif.Props.VarWrap
import Verif.Props.VarIndex
import Verif.Props.VarIdxLives
import Verif.Props.VarCrashLife
import Verif.Props.VarFileBytes
import Verif.Props.SdLives
import Verif.Props.DfLives
import Verif.Props.OpenClose
import Verif.Findings.OpenClose
import Verif.Props.Counters
import Verif.Findings.Counters
import Verif.Props.IdxCost
import Verif.Props.VarStreams
import Verif.Props.VarCrash
import Verif.Findings.Var
import Verif.Props.Rlc
import Verif.Findings.Rlc
import Verif.Props.Pipeline
import Verif.Findings.Pipeline
import Verif.Props.VarRecovery
import Verif.Findings.VarRecovery
import Verif.Findings.Interfaces
import Verif.Props.Interfaces
import Verif.Model.IdxRecover
import Verif.Props.IdxRecovery
import Verif.Findings.IdxRecovery
import Verif.Model.Mixed
import Verif.Props.Mixed
import Verif.Findings.Mixed
import Verif.Model.Memory
import Verif.Props.Memory
import Verif.Findings.Memory
import Verif.Model.Oom
import Verif.Props.Oom
import Verif.Findings.Oom
import Verif.Model.Fault
import Verif.Props.Fault
import Verif.Findings.Fault
import Verif.Props.Cost
import Verif.Findings.Cost
import Verif.Props.Wear
import Verif.Props.Lives
import Verif.Model.Estimate
import Verif.Props.Estimate
import Verif.Findings.Estimate
import Verif.Props.Interp
import Verif.Findings.Interp
import Verif.Props.Honest
import Verif.Model.Formatted
import Verif.Props.Formatted
import Verif.Findings.Formatted
import Verif.Spec.RlcVar
import Verif.Model.RlcVarLife
import Verif.Props.RlcVar
import Verif.Props.RlcFile
import Verif.Findings.RlcVar
import Verif.Findings.Rings
import Verif.Props.Rings
import Verif.Model.VarLives
import Verif.Spec.Resume
import Verif.Props.Resume
import Verif.Findings.Resume
import Verif.Spec.Kept
import Verif.Spec.Lives
import Verif.Proofs.VarKept
import Verif.Proofs.VarOn
import Verif.Proofs.VarLives
import Verif.Props.VarKept
import Verif.Props.VarLives
import Verif.Props.VarUse
import Verif.Findings.Distribution
import Verif.Proofs.VarWord
import Verif.Proofs.VarWordLife
import Verif.Proofs.VarWordReach
import Verif.Model.VarWord
import Verif.Props.VarWord
import Verif.Findings.VarWord
import Verif.Spec.Report
import Verif.Proofs.WriteFail
import Verif.Props.WriteFail
import Verif.Findings.WriteFail
import Verif.Model.SplineBuild
import Verif.Props.SplineBuild
