import Verif.Props.Disk
import Verif.Props.Open
import Verif.Props.SupermonMap
import Verif.Props.SupermonOp
import Verif.Props.SupermonSym
import Verif.Props.TableFiles
import Verif.Props.SupermonPut
import Verif.Props.Dos3
import Verif.Props.Dos3Get
import Verif.Props.Dos3Wit
import Verif.Props.Prodos
import Verif.Props.ProdosVolume
import Verif.Props.ProdosWit
import Verif.Props.Basic
import Verif.Props.BasicExact
import Verif.Props.BasicInt
import Verif.Props.BasicIntExact
import Verif.Props.BasicShown
import Verif.Props.Flags
import Verif.Props.Types
import Verif.Props.Cmd
import Verif.Props.Sd
import Verif.Props.Reopen
import Verif.Props.ReopenWit
import Verif.Props.CmdFiles
import Verif.Props.CmdFilesWit
import Verif.Props.Symbols
import Verif.Props.ProdosCheck
import Verif.Props.ProdosRecog
import Verif.Props.Decode
import Verif.Props.DecodeWit
import Verif.Props.Boot
import Verif.Props.History
import Verif.Props.HistoryWit
import Verif.Props.Overlap
import Verif.Props.Crash
import Verif.Props.CrashWit
import Verif.Props.Reorder
import Verif.Props.Torn
import Verif.Props.TornHdv
import Verif.Spec.Names
import Verif.Proofs.Tidy
import Verif.Props.Names
import Verif.Props.NamesRun
import Verif.Spec.Recognise
import Verif.Props.Recognise
import Verif.Props.RecogniseWit
import Verif.Spec.Space
import Verif.Props.Space
import Verif.Proofs.Same
import Verif.Props.Same
import Verif.Props.SameWit
import Verif.Spec.Ends
import Verif.Proofs.Ends
import Verif.Props.Ends
import Verif.Props.EndsWit
import Verif.Spec.Lines
import Verif.Props.Lines
import Verif.Spec.Endless
import Verif.Proofs.EndlessDirs
import Verif.Proofs.EndlessUp
import Verif.Props.Endless
import Verif.Props.EndlessWit
import Verif.Spec.Hang
import Verif.Props.Hang
import Verif.Props.Forever
import Verif.Props.ForeverWit
import Verif.Props.Answers
import Verif.Spec.Paths
import Verif.Proofs.Paths
import Verif.Props.Orders
import Verif.Props.OrdersWit
import Verif.Model.Faults
import Verif.Spec.Faults
import Verif.Props.Faults
import Verif.Proofs.Settled
import Verif.Props.Again
import Verif.Props.AgainWit
import Verif.Props.PutIff
import Verif.Props.Copy
import Verif.Spec.Undo
import Verif.Props.Undo
import Verif.Props.UndoWit
import Verif.Props.MoreWit
import Verif.Props.RmIff
import Verif.Props.Conformance
import Verif.Spec.Damage
import Verif.Props.Damage
import Verif.Props.DamageWit
import Verif.Spec.Bulk
import Verif.Props.Bulk
import Verif.Spec.Hello
import Verif.Props.Hello
import Verif.Model.Sched
import Verif.Spec.Sched
import Verif.Proofs.Sched
import Verif.Props.Sched
import Verif.Spec.ListNames
import Verif.Props.ListNames
import Verif.Props.ListExact
import Verif.Props.Backup
import Verif.Props.Layout
import Verif.Spec.Pipe
import Verif.Props.Pipe
import Verif.Props.Returns
import Verif.Spec.PutRm
import Verif.Props.PutAny
import Verif.Spec.Failed
import Verif.Props.Failed
import Verif.Props.TableRm
import Verif.Props.PutEmpty
import Verif.Model.Fine
import Verif.Spec.Fine
import Verif.Proofs.Fine
import Verif.Proofs.Mixed
import Verif.Props.Fine
import Verif.Props.Mixed
import Verif.Spec.Fate
import Verif.Proofs.Fate
import Verif.Props.Fate
import Verif.Spec.Filetypes
import Verif.Props.Filetypes
import Verif.Spec.Life
import Verif.Props.Life
import Verif.Props.LifeWit
import Verif.Props.AnyTable
import Verif.Props.AnyTableWit
import Verif.Spec.Chains
import Verif.Props.Chains
import Verif.Spec.Live
import Verif.Props.Live
import Verif.Spec.Meddle
import Verif.Props.Meddle
import Verif.Validate
import Verif.Model.Cli
import Verif.Props.Declared
import Verif.Spec.SdSafe
import Verif.Props.SdSafe
import Verif.Props.Keep
import Verif.Model.Unicode
import Verif.Spec.Unicode
import Verif.Props.Unicode
import Verif.Props.UnicodePut
import Verif.Props.UnicodeExt
import Verif.Spec.OneLine
import Verif.Props.OneLine
import Verif.Model.Heap
import Verif.Proofs.Heap
import Verif.Proofs.HeapOp
import Verif.Spec.Values
import Verif.Proofs.Values
import Verif.Props.Values
import Verif.Model.HeapDos3
import Verif.Proofs.HeapDos3
import Verif.Spec.ValuesDos3
import Verif.Proofs.ValuesDos3
import Verif.Props.ValuesDos3
import Verif.Model.HeapOpen
import Verif.Proofs.HeapOpen
import Verif.Spec.Library
import Verif.Proofs.Library
import Verif.Props.Library
import Verif.Props.LibraryWit
import Verif.Spec.Steps
import Verif.Proofs.Steps
import Verif.Props.Steps
import Verif.Props.StepsWit
import Verif.Spec.InTime
import Verif.Proofs.InTime
import Verif.Props.InTime
import Verif.Props.InTimeWit
import Verif.Props.FailedWit
import Verif.Props.Plain
import Verif.Spec.Kinds
import Verif.Props.Kinds
import Verif.Props.KindsWit
import Verif.Spec.Permit
import Verif.Props.Permit
import Verif.Props.TypeNames
import Verif.Props.Encode
