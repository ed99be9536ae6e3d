import Verif.Model.Block
import Verif.Model.Gate
import Verif.Model.Circuit
import Verif.Model.Plain
import Verif.Model.Cycle
import Verif.Spec.Gate
import Verif.Proof.Xor
import Verif.Proof.Gate
import Verif.Spec.Circuit
import Verif.Spec.Symbolic
import Verif.Proof.Fanout
import Verif.Proof.Sym
import Verif.Proof.GateSim
import Verif.Proof.CycleSim
import Verif.Model.Run
import Verif.Spec.Run
import Verif.Proof.EvalSim
import Verif.Proof.RunSim
import Verif.Proof.Run
import Verif.Spec.Semantics
import Verif.Proof.Semantics
import Verif.Proof.Bounds
import Verif.Props.ExampleSession
import Verif.Props.Gate
import Verif.Props.Run
import Verif.Model.Proc
import Verif.Model.Net
import Verif.Model.BN
import Verif.Spec.Schedule
import Verif.Proof.Net
import Verif.Proof.Proc
import Verif.Proof.BN
import Verif.Props.Net
import Verif.Props.BN
import Verif.Model.OT
import Verif.Model.OTExt
import Verif.Spec.OT
import Verif.Proof.OT
import Verif.Proof.OTExt
import Verif.Proof.Exec
import Verif.Props.OT
import Verif.Model.Protocol
import Verif.Spec.Protocol
import Verif.Proof.Transfer
import Verif.Proof.Protocol
import Verif.Model.Rng
import Verif.Proof.Rng
import Verif.Proof.Outputs
import Verif.Props.ExampleProtocol
import Verif.Props.Protocol
import Verif.Spec.Attack
import Verif.Props.Rng
import Verif.Props.Attack
import Verif.Spec.Talk
import Verif.Props.Output
import Verif.Model.Str
import Verif.Model.StrApi
import Verif.Spec.Str
import Verif.Proof.Str
import Verif.Proof.StrApi
import Verif.Props.Str
import Verif.Props.Format
import Verif.Props.StrApi
import Verif.Model.Sched
import Verif.Proof.Sched
import Verif.Props.Sched
import Verif.Model.Sort
import Verif.Spec.Netlist
import Verif.Proof.Sort
import Verif.Props.Sort
import Verif.Proof.SortNet
import Verif.Props.SortNet
import Verif.Model.Scd
import Verif.Proof.Same
import Verif.Proof.Scd
import Verif.Props.Scd
import Verif.Props.Fresh
import Verif.Model.Netlist
import Verif.Spec.Named
import Verif.Proof.Named
import Verif.Proof.Compile
import Verif.Proof.NamedLayout
import Verif.Proof.NamedMeaning
import Verif.Props.Named
import Verif.Spec.Bristol
import Verif.Proof.Bristol
import Verif.Proof.BristolNet
import Verif.Props.Bristol
import Verif.Model.Verilog
import Verif.Spec.Verilog
import Verif.Proof.VerilogLex
import Verif.Proof.VerilogParse
import Verif.Proof.VerilogNet
import Verif.Proof.VerilogMeaning
import Verif.Proof.VerilogLegal
import Verif.Props.Verilog
import Verif.Proof.Garbler
import Verif.Spec.Privacy
import Verif.Proof.PrivacyGate
import Verif.Proof.Privacy
import Verif.Props.Privacy
import Verif.Model.Aes
import Verif.Spec.Aes
import Verif.Proof.Aes
import Verif.Proof.AesCipher
import Verif.Proof.AesKey
import Verif.Props.Aes
import Verif.Props.EndToEnd
import Verif.Proof.Count
import Verif.Proof.Accident
import Verif.Proof.Program
import Verif.Spec.Chance
import Verif.Proof.Chance
import Verif.Props.Chance
import Verif.Model.A23
import Verif.Spec.A23
import Verif.Proof.A23Sort
import Verif.Proof.A23Merge
import Verif.Proof.A23Sum
import Verif.Proof.A23Hamming
import Verif.Proof.A23Matrix
import Verif.Proof.A23Dijkstra
import Verif.Props.A23
import Verif.Model.A23Aes
import Verif.Proof.A23Sbox
import Verif.Proof.A23Aes
import Verif.Props.A23Aes
import Verif.Spec.Sha3
import Verif.Model.A23Sha3
import Verif.Proof.A23Sha3
import Verif.Proof.A23Sponge
import Verif.Props.A23Sha3
import Verif.Spec.Feed
import Verif.Proof.Feed
import Verif.Props.Feed
import Verif.Model.Mapping
import Verif.Props.Mapping
import Verif.Model.A23Cordic
import Verif.Proof.Cordic
import Verif.Proof.CordicReal
import Verif.Props.Cordic
import Verif.Model.InputFile
import Verif.Spec.InputFile
import Verif.Props.InputFile
import Verif.Model.Hdl.Lib
import Verif.Model.Hdl.Seq
import Verif.Spec.Hdl.Lib
import Verif.Proof.Hdl.Lib
import Verif.Proof.Hdl.Arith
import Verif.Props.Hdl.Lib
import Verif.Props.Hdl.Seq
import Verif.Model.Hdl.Aes
import Verif.Model.Hdl.Sha3
import Verif.Spec.Hdl.Crypto
import Verif.Proof.Hdl.Aes
import Verif.Proof.Hdl.Sha3
import Verif.Props.Hdl.Crypto
import Verif.Model.Hdl.Knns
import Verif.Spec.Hdl.Knns
import Verif.Proof.Hdl.Knns
import Verif.Props.Hdl.Knns
import Verif.Model.Hdl.Rsa
import Verif.Props.Hdl.Rsa
import Verif.Model.Hdl.Machines
import Verif.Spec.Hdl.Machines
import Verif.Props.Hdl.Machines
import Verif.Model.Hdl.Stable
import Verif.Spec.Hdl.Stable
import Verif.Proof.Hdl.Stable
import Verif.Props.Hdl.Stable
import Verif.Model.Hdl.Mips
import Verif.Spec.Mips
import Verif.Proof.Hdl.Mips
import Verif.Props.Hdl.Mips
import Verif.Model.Hdl.MipsPrograms
import Verif.Spec.MipsPrograms
import Verif.Proof.Hdl.MipsEarly
import Verif.Proof.Hdl.MipsHamming
import Verif.Props.Hdl.MipsHamming
import Verif.Model.Hdl.A23
import Verif.Spec.Arm
import Verif.Spec.ArmStop
import Verif.Proof.Hdl.A23Alu
import Verif.Proof.Hdl.A23Decode
import Verif.Proof.Hdl.A23Mem
import Verif.Proof.Hdl.A23Pipe
import Verif.Proof.Hdl.A23Dp
import Verif.Proof.Hdl.A23Branch
import Verif.Proof.Hdl.A23Mul
import Verif.Proof.Hdl.A23Trans
import Verif.Proof.Hdl.A23TransStep
import Verif.Proof.Hdl.A23Transfer
import Verif.Proof.Hdl.A23List
import Verif.Proof.Hdl.A23Multi
import Verif.Proof.Hdl.A23MultiStep
import Verif.Proof.Hdl.A23MultiFirst
import Verif.Proof.Hdl.A23Run
import Verif.Proof.Hdl.A23Stop
import Verif.Props.Hdl.A23
import Verif.Props.Hdl.A23Absent
import Verif.Model.Hdl.Stdcells
import Verif.Spec.Hdl.Operators
import Verif.Proof.Hdl.Stdcells
import Verif.Proof.Hdl.StdcellsDiv
import Verif.Props.Hdl.Stdcells
import Verif.Model.Cells
import Verif.Spec.Liberty
import Verif.Props.Cells
import Verif.Model.Hdl.Cordic
import Verif.Spec.Hdl.Cordic
import Verif.Proof.Hdl.CordicReal
import Verif.Proof.Hdl.Cordic
import Verif.Proof.Hdl.CordicStay
import Verif.Proof.Hdl.CordicRun
import Verif.Props.Hdl.Cordic
import Verif.Proof.Clean
import Verif.Proof.EvalCheck
import Verif.Proof.Virtual
import Verif.Proof.Smooth
import Verif.Model.Elf
import Verif.Spec.Elf
import Verif.Proof.Elf
import Verif.Props.Elf
import Verif.Model.Lost
import Verif.Spec.Lost
import Verif.Proof.Lost
import Verif.Props.Lost
import Verif.Spec.ArmCircuit
import Verif.Proof.Hdl.A23Manual
import Verif.Model.Hdl.A23Programs
import Verif.Proof.Hdl.A23Sym
import Verif.Proof.Hdl.A23SymExec
import Verif.Proof.Hdl.A23SymRun
import Verif.Proof.Hdl.A23SymLoop
import Verif.Proof.Hdl.A23SymMem
import Verif.Proof.Hdl.A23SymApply
import Verif.Proof.Hdl.A23ProgSum
import Verif.Proof.Hdl.A23ProgSmall
import Verif.Proof.Hdl.A23ProgMore
import Verif.Proof.Hdl.A23ProgBubble
import Verif.Proof.Hdl.A23ProgHamming
import Verif.Props.Hdl.A23Programs
import Verif.Model.Main
import Verif.Spec.Options
import Verif.Proof.Main
import Verif.Props.Main
import Verif.Model.Csv
import Verif.Spec.Csv
import Verif.Proof.Csv
import Verif.Props.Csv
import Verif.Proof.Hdl.A23SymLeads
import Verif.Proof.Hdl.A23ProgDijkstra
import Verif.Proof.Hdl.A23ProgPaths
import Verif.Proof.Hdl.A23ProgRounds
import Verif.Proof.Hdl.A23ProgShortest
import Verif.Model.OtMain
import Verif.Props.OtMain
import Verif.Spec.Merge
import Verif.Proof.Merge
import Verif.Proof.Hdl.A23ProgMerge
import Verif.Proof.Hdl.A23ProgMerged
import Verif.Proof.Hdl.A23ProgMergeAll
import Verif.Proof.Hdl.A23SymTrack
import Verif.Proof.Hdl.A23ProgSBox
import Verif.Proof.Hdl.A23SymFlow
import Verif.Proof.Hdl.A23ProgAesBox
import Verif.Proof.Hdl.A23ProgAes
import Verif.Proof.Hdl.A23ProgAesAll
import Verif.Proof.Hdl.A23SymBits
import Verif.Model.Hdl.A23ProgramSha3
import Verif.Proof.Hdl.A23ProgSha3
import Verif.Proof.Hdl.A23ProgSha3All
import Verif.Proof.AesUnique
import Verif.Model.Quiet
import Verif.Proof.Quiet
import Verif.Props.Quiet
import Verif.Model.Socket
import Verif.Props.Socket
import Verif.Props.Wrap
import Verif.Model.Dump
import Verif.Props.Dump
import Verif.Model.TestRun
import Verif.Props.TestRun
import Verif.Proof.QuietRun
import Verif.Spec.VerilogErrors
import Verif.Proof.VerilogErrors
import Verif.Props.VerilogErrors
import Verif.Props.StrBlock
import Verif.Props.StrInput
import Verif.Props.OtMainRefused
import Verif.Props.BristolFile
import Verif.Props.ScdDamaged
import Verif.Props.MainRefused
import Verif.Props.MultiCore
import Verif.Props.BlockShift
import Verif.Props.Seed
