import Verif.Code
import Verif.VM
import Verif.Sim
import Verif.SemLemmas
import Verif.Simulation
import Verif.Lock
import Verif.Window
import Verif.Peephole
import Verif.Good
import Verif.RulesA
import Verif.RulesB
import Verif.RulesC
import Verif.RulesD
import Verif.Passes
import Verif.Global
import Verif.Eval
import Verif.Safety
import Verif.Term
import Verif.TermJumps
import Verif.Props.C01
import Verif.Props.C02
import Verif.Props.C03
import Verif.Props.C05
import Verif.Props.C06
import Verif.Rt.M6502
import Verif.Rt.Labels
import Verif.Rt.Mul
import Verif.Rt.Arith
import Verif.Rt.Div
import Verif.Rt.For
import Verif.Props.C07
import Verif.Props.C11
import Verif.Rt.Mem
import Verif.Rt.Str
import Verif.Rt.StrOps
import Verif.Rt.ExtSpec
import Verif.Rt.RefineExt
import Verif.Rt.RefineSem
import Verif.Props.C12
import Verif.Parse.State
import Verif.Parse.Engine
import Verif.Parse.Actions
import Verif.Parse.GrammarFp
import Verif.Parse.Compile
import Verif.Parse.Frame
import Verif.Parse.Lift
import Verif.Parse.Discipline
import Verif.Parse.Sound
import Verif.Props.C17
import Verif.Props.C18
import Verif.Props.C40
import Verif.Parse.AnnFp
import Verif.Parse.Mono
import Verif.Props.C16
import Verif.Props.C42
import Verif.Props.C19
import Verif.Props.C20
import Verif.Out.Asm
import Verif.Props.C21
import Verif.Parse.Moves
import Verif.Parse.Items
import Verif.Props.C21Program
import Verif.Parse.Vars
import Verif.Out.Heap
import Verif.Out.Full
import Verif.Rt.VarAddr
import Verif.Rt.Dispatch
import Verif.Props.C26
import Verif.Parse.Calls
import Verif.Parse.Order
import Verif.Parse.Labels
import Verif.Parse.Params
import Verif.Parse.Unique
import Verif.Props.C27
import Verif.Props.C28
import Verif.Props.C29
import Verif.Props.C30
import Verif.Props.C34
import Verif.Parse.Nest
import Verif.Props.C22
import Verif.Props.C23
import Verif.Props.C24
import Verif.Props.C31
import Verif.Syn.Preproc
import Verif.Props.C32
import Verif.Parse.Fp
import Verif.Parse.FpRead
import Verif.Props.C35
import Verif.Props.C36
import Verif.Props.C37
import Verif.Rt.Alloc
import Verif.Props.C39
import Verif.Rt.Names
import Verif.Rt.Ucase
import Verif.Props.C38
import Verif.Syn.Tables
import Verif.Syn.Merge
import Verif.Syn.Clean
import Verif.Parse.Grammar5200
import Verif.Props.C33
import Verif.Native.Jumps
import Verif.Native.Layout
import Verif.Native.Frames
import Verif.Native.Steps
import Verif.Native.Steps2
import Verif.Native.Steps3
import Verif.Native.Run
import Verif.Native.Joint
import Verif.Props.C25
import Verif.Props.C43
import Verif.Rt.LabelsP
import Verif.Eng.Code
import Verif.Eng.Steps
import Verif.Eng.Enc
import Verif.Eng.Sim
import Verif.Eng.Table
import Verif.Eng.Eol
import Verif.Eng.Acts
import Verif.Rt.Sandbox
import Verif.Eng.JCode
import Verif.Eng.JLift
import Verif.Eng.JPrim
import Verif.Eng.JRep
import Verif.Eng.JOps
import Verif.Eng.JExit
import Verif.Eng.JLab
import Verif.Eng.JDef
import Verif.Eng.JUse
import Verif.Eng.JName
import Verif.Eng.JCreate
import Verif.Syn.NativeFp
import Verif.Syn.NativeInt
import Verif.Syn.NativeFpOpt
import Verif.Syn.NativeIntOpt
import Verif.Props.C33Native
import Verif.Props.C44
import Verif.Props.C45
import Verif.Eng.KCode
import Verif.Eng.KLift
import Verif.Eng.KNum
import Verif.Eng.KWord
import Verif.Eng.KStr
import Verif.Eng.KLit
import Verif.Props.C46
import Verif.Eng.VCode
import Verif.Eng.Vars
import Verif.Eng.VOps
import Verif.Eng.VActs
import Verif.Eng.VNew
import Verif.Props.C47
import Verif.Rt.Rand
import Verif.Props.C48
import Verif.Rt.Graph
import Verif.Rt.Plot
import Verif.Props.C49
import Verif.Rt.Draw
import Verif.Props.C50
import Verif.Rt.Tab
import Verif.Props.C51
import Verif.Rt.Ipow
import Verif.Props.C52
import Verif.Eng.Eof
import Verif.Props.C53
import Verif.Drv.Main
import Verif.Drv.Lemmas
import Verif.Drv.Inv
import Verif.Drv.Target
import Verif.Props.C54
import Verif.Props.C55
import Verif.Props.C56
import Verif.Rt.Float
import Verif.Rt.Sqrt
import Verif.Props.C57
import Verif.Rt.FpStack
import Verif.Rt.FpTok
import Verif.Props.C58
import Verif.Props.C59
import Verif.Props.C60
import Verif.Props.C61
import Verif.Props.C62
import Verif.Props.C63
import Verif.Props.C64
import Verif.Props.C65
import Verif.Props.C66
import Verif.Rt.CompBuf
import Verif.Props.C67
import Verif.Rt.Cart
import Verif.Props.C68
import Verif.Rt.Char8
import Verif.Props.C69
import Verif.Rt.SinCos
import Verif.Props.C70
