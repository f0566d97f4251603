import Verif.Conc.Access
import Verif.Conc.AccessDec
import Verif.Conc.Cost
import Verif.Conc.Gen
import Verif.Conc.GenAccess
import Verif.Conc.GenHalt
import Verif.Conc.GenSafe
import Verif.Conc.GenSim
import Verif.Conc.GenSimFail
import Verif.Conc.GenWrites
import Verif.Conc.Halt
import Verif.Conc.HoldHalt
import Verif.Conc.Prog
import Verif.Conc.ReadHalt
import Verif.Conc.Safe
import Verif.Conc.Sem
import Verif.Conc.SetAccess
import Verif.Conc.SetCost
import Verif.Conc.SetHalt
import Verif.Conc.SetProg
import Verif.Conc.Sim
import Verif.Conc.SimFail
import Verif.Conc.Step
import Verif.Conc.Trace
import Verif.Conc.Written
import Verif.Gen.Generate
import Verif.Gen.Golden
import Verif.Gen.Main
import Verif.Gen.StringTree
import Verif.Go.Prim
import Verif.Go.Varint
import Verif.GoSrc.Check
import Verif.GoSrc.CheckGen
import Verif.GoSrc.Dec
import Verif.GoSrc.GenLookup
import Verif.GoSrc.GenRun
import Verif.GoSrc.GenSem
import Verif.GoSrc.GenSyntax
import Verif.GoSrc.GenText
import Verif.GoSrc.Getters
import Verif.GoSrc.Group
import Verif.GoSrc.Offs
import Verif.GoSrc.OffsetsGo
import Verif.GoSrc.Scan
import Verif.GoSrc.Sem
import Verif.GoSrc.SetFields
import Verif.GoSrc.Setters
import Verif.GoSrc.Step
import Verif.GoSrc.StrCall
import Verif.GoSrc.StrRun
import Verif.GoSrc.StrSem
import Verif.GoSrc.StrSyntax
import Verif.GoSrc.StrText
import Verif.GoSrc.StrWrite
import Verif.GoSrc.Syntax
import Verif.GoSrc.Text
import Verif.GoSrc.ToolFile
import Verif.GoSrc.ToolFns
import Verif.GoSrc.ToolGen
import Verif.GoSrc.ToolGo
import Verif.GoSrc.ToolId
import Verif.GoSrc.ToolMain
import Verif.GoSrc.ToolSem
import Verif.GoSrc.ToolStep
import Verif.GoSrc.ToolSyntax
import Verif.GoSrc.ToolText
import Verif.GoSrc.ToolWrite
import Verif.GoSrc.ZeropbGo
import Verif.Mem.Alloc
import Verif.Mem.AllocMap
import Verif.Mem.Grow
import Verif.Mem.Heap
import Verif.Mem.Model
import Verif.Mem.Read
import Verif.Mem.Refine
import Verif.Model.Access
import Verif.Model.Decode
import Verif.Model.Message
import Verif.Model.Offsets
import Verif.Model.TestMessage
import Verif.Model.Text
import Verif.Proof.Chunk
import Verif.Proof.Decode
import Verif.Proof.DecodeInd
import Verif.Proof.Fixed
import Verif.Proof.Gen
import Verif.Proof.Get
import Verif.Proof.Msg
import Verif.Proof.Offsets
import Verif.Proof.Payload
import Verif.Proof.Scan
import Verif.Proof.Set
import Verif.Proof.Sim
import Verif.Proof.Std
import Verif.Proof.Unique
import Verif.Proof.Varint
import Verif.Props.Accesses
import Verif.Props.Alias
import Verif.Props.Alloc
import Verif.Props.Api
import Verif.Props.Await
import Verif.Props.Big
import Verif.Props.Bytes
import Verif.Props.Compiles
import Verif.Props.Copy
import Verif.Props.Core
import Verif.Props.Cost
import Verif.Props.Decode
import Verif.Props.Defs
import Verif.Props.Encoded
import Verif.Props.EndToEnd
import Verif.Props.Exact
import Verif.Props.Fields
import Verif.Props.Forward
import Verif.Props.Gen
import Verif.Props.GenMsg
import Verif.Props.GenOut
import Verif.Props.GenSchema
import Verif.Props.Grouping
import Verif.Props.Guarded
import Verif.Props.Index
import Verif.Props.Interop
import Verif.Props.Join
import Verif.Props.Local
import Verif.Props.Main
import Verif.Props.Mem
import Verif.Props.Overwrite
import Verif.Props.Peek
import Verif.Props.Prim
import Verif.Props.Programs
import Verif.Props.Races
import Verif.Props.Readme
import Verif.Props.Recover
import Verif.Props.Reuse
import Verif.Props.Sched
import Verif.Props.SetCost
import Verif.Props.Source
import Verif.Props.SourceGen
import Verif.Props.SourceHistory
import Verif.Props.SourceText
import Verif.Props.SourceTool
import Verif.Props.Stdio
import Verif.Props.Text
import Verif.Props.Tree
import Verif.Props.Untrusted
import Verif.Props.Versions
import Verif.Props.Writes
import Verif.Spec.GoDecls
import Verif.Spec.GoExpr
import Verif.Spec.GoFile
import Verif.Spec.Kind
import Verif.Spec.Plugin
import Verif.Spec.Scan
import Verif.Spec.Std
import Verif.Spec.Wire
