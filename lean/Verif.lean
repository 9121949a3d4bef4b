import Verif.Props.Unpack
import Verif.Props.Pack
import Verif.Props.Bounds
import Verif.Props.Monitor
import Verif.Props.Receive
import Verif.Props.Types
import Verif.Props.Macros
import Verif.Props.Text
import Verif.Props.App
import Verif.Props.Parser
import Verif.Props.SigLine
import Verif.Props.Scanner
import Verif.Props.MaxDlc
import Verif.Props.ScanLists
import Verif.Props.Statements
import Verif.Props.Tags
import Verif.Props.Version
import Verif.Props.ExprText
import Verif.Spec.CSyntax
import Verif.Model.MainText
import Verif.Model.ConfText
import Verif.Conform
import Verif.Props.StructText
import Verif.Spec.CPre
import Verif.Spec.CProg
import Verif.Proofs.CPre
import Verif.Proofs.Segs
import Verif.Proofs.Gen
import Verif.Proofs.SourceInfo
import Verif.Proofs.Stms
import Verif.Proofs.NumText
import Verif.Proofs.BodyText
import Verif.Proofs.Shape
import Verif.Proofs.LineText
import Verif.Proofs.LineText2
import Verif.Proofs.BodyRead
import Verif.Proofs.FuncRead
import Verif.Proofs.StmtRun
import Verif.Proofs.BodyRun
import Verif.Proofs.StepRun
import Verif.Proofs.StepRun2
import Verif.Proofs.LoopRun
import Verif.Proofs.FuncRun
import Verif.Proofs.BodyOk
import Verif.Proofs.CallRun
import Verif.Proofs.ExtRun
import Verif.Proofs.FixedText
import Verif.Proofs.DefTable
import Verif.Proofs.HeadText
import Verif.Proofs.ConvText
import Verif.Proofs.MsgDefs
import Verif.Proofs.MemRead
import Verif.Proofs.HeaderRead
import Verif.Proofs.FmonRead
import Verif.Proofs.SourceRead
import Verif.Proofs.UnitRead
import Verif.Proofs.UnitRun
import Verif.Proofs.UnitCall
import Verif.Proofs.DriverText
import Verif.Proofs.DriverCheck
import Verif.Props.Unit
import Verif.Props.EndToEnd
import Verif.Props.VersionText
import Verif.Proofs.TreeText
import Verif.Proofs.UtilText
import Verif.Proofs.UtilRead
import Verif.Proofs.UtilRun
import Verif.Model.NodeUtil
import Verif.Proofs.NodeUtil
import Verif.Props.ReceiveText
import Verif.Spec.CMacro
import Verif.Proofs.MacroValue
import Verif.Props.MacroText
import Verif.Spec.DbcMessage
import Verif.Props.Pipeline
import Verif.Props.PhysPipeline
import Verif.Spec.CTree
import Verif.Proofs.DirRun
import Verif.Proofs.DirRead
import Verif.Proofs.ConfRead
import Verif.Proofs.MonUtilRead
import Verif.Proofs.DirUnit
import Verif.Proofs.DirDriver
import Verif.Props.Directory
import Verif.Spec.CLink
import Verif.Proofs.FmonSrc
import Verif.Proofs.DirFmon
import Verif.Props.Link
import Verif.Proofs.DirUtil
import Verif.Proofs.UtilLink
import Verif.Proofs.NodeLink
import Verif.Props.Program
import Verif.Props.Auto
import Verif.Props.NodePipeline
import Verif.Model.Run
import Verif.Proofs.NoFlush
import Verif.Proofs.RunFiles
import Verif.Props.Run
import Verif.Proofs.LinkedRun
import Verif.Props.Trace
import Verif.Props.Exchange
import Verif.Props.Alarms
import Verif.Props.LostFrames
import Verif.Props.AllMessages
import Verif.Props.Meaning
import Verif.Props.RunEnd
import Verif.Props.FrameStruct
import Verif.Props.NodeNames
import Verif.Props.OutDirs
import Verif.Props.FileLines
import Verif.Props.OneFile
import Verif.Props.MsgOrder
import Verif.Props.SigOrder
import Verif.Props.Rerun
import Verif.Props.StmtOrder
import Verif.Props.NsList
import Verif.Props.LineEnds
import Verif.Props.CommentText
import Verif.Props.OtherLines
import Verif.Props.Descriptive
import Verif.Props.DescRun
