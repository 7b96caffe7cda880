import Verif.Model.Mem
import Verif.Model.Arch
import Verif.Model.Hunk
import Verif.Model.Bytes
import Verif.Model.Layout
import Verif.Model.MemIter
import Verif.Model.Patch
import Verif.Spec.Cpu
import Verif.Spec.Memory
import Verif.Spec.Patch
import Verif.Proof.Bits
import Verif.Proof.Jump
import Verif.Proof.Mem
import Verif.Proof.Hunk
import Verif.Proof.Hunks
import Verif.Proof.Bytes
import Verif.Proof.Layout
import Verif.Proof.MemIter
import Verif.Proof.Patch
import Verif.Proof.Restore
import Verif.Props.Jump
import Verif.Props.Layout
import Verif.Props.Restore
import Verif.Proof.Rollback
import Verif.Props.Rollback
import Verif.Model.Holes
import Verif.Spec.Holes
import Verif.Proof.Holes
import Verif.Props.Holes
import Verif.Model.Ptrace
import Verif.Model.Safety
import Verif.Model.Attach
import Verif.Spec.Safety
import Verif.Proof.Ptrace
import Verif.Proof.Safety
import Verif.Props.Ptrace
import Verif.Props.Safety
import Verif.Props.Attach
import Verif.Model.Process
import Verif.Props.Objects
import Verif.Props.Stack
import Verif.Props.Process
import Verif.Model.Reloc
import Verif.Model.RelocA64
import Verif.Model.RelocLoong
import Verif.Model.RelocRiscv
import Verif.Spec.Reloc
import Verif.Proof.Reloc
import Verif.Proof.RelocA64
import Verif.Proof.RelocLoong
import Verif.Proof.RelocRiscv
import Verif.Props.RelocX86
import Verif.Props.RelocA64
import Verif.Props.RelocLoong
import Verif.Props.RelocRiscv
import Verif.Model.Symbols
import Verif.Model.Phdr
import Verif.Spec.JumpExec
import Verif.Spec.Elf
import Verif.Spec.Segments
import Verif.Proof.JumpTable
import Verif.Proof.Symbols
import Verif.Props.JumpTable
import Verif.Props.Symbols
import Verif.Props.Phdr
import Verif.Model.PatchFile
import Verif.Model.Storage
import Verif.Spec.PatchFile
import Verif.Props.PatchFile
import Verif.Props.Storage
import Verif.Model.RbTree
import Verif.Spec.RbTree
import Verif.Proof.RbTree
import Verif.Props.RbTree
import Verif.Model.Lists
import Verif.Spec.Lists
import Verif.Proof.Lists
import Verif.Props.Lists
import Verif.Model.Server
import Verif.Props.Server
import Verif.Model.Commands
import Verif.Props.Commands
import Verif.Model.Kpstr
import Verif.Props.Kpstr
import Verif.Spec.Token
import Verif.Proof.Token
import Verif.Model.Rename
import Verif.Spec.Rename
import Verif.Props.Rename
import Verif.Model.Strip
import Verif.Props.Strip
import Verif.Props.StripLayout
import Verif.Model.Coro
import Verif.Spec.Coro
import Verif.Props.Coro
import Verif.Model.Cc
import Verif.Spec.Cc
import Verif.Proof.Cc
import Verif.Props.CopyFile
import Verif.Props.Cc
import Verif.Model.Isa
import Verif.Model.Parse
import Verif.Model.Dbgfilter
import Verif.Spec.Dbgfilter
import Verif.Spec.Split
import Verif.Props.Dbgfilter
import Verif.Props.Split
import Verif.Model.Sections
import Verif.Spec.Sections
import Verif.Props.Sections
import Verif.Model.Cblock
import Verif.Spec.Cblock
import Verif.Props.Cblock
import Verif.Props.FnBlock
import Verif.Model.RemoteCall
import Verif.Spec.RemoteCpu
import Verif.Props.RemoteCall
import Verif.Props.DbgSect
import Verif.Model.GenCmp
import Verif.Model.Gotpcrel
import Verif.Model.Gensrc
import Verif.Spec.GenOut
import Verif.Proof.GenWrite
import Verif.Proof.GenHandled
import Verif.Proof.GenPasses
import Verif.Spec.SameCode
import Verif.Proof.SameCode
import Verif.Proof.GenMap
import Verif.Spec.Gensrc
import Verif.Proof.GenInv
import Verif.Proof.GenVars
import Verif.Proof.GenFuncs
import Verif.Proof.GenOthers
import Verif.Proof.GenLoad
import Verif.Proof.GenPatch
import Verif.Props.GenPatch
import Verif.Proof.GenSame
import Verif.Proof.GenTwin
import Verif.Props.GenSame
import Verif.Spec.X86Mov
import Verif.Proof.Gotpcrel
import Verif.Props.Gotpcrel
import Verif.Proof.GenLists
import Verif.Model.GenArgs
import Verif.Spec.GenArgs
import Verif.Props.GenArgs
import Verif.Model.Fixup
import Verif.Spec.Fixup
import Verif.Proof.Fixup
import Verif.Props.Fixup
import Verif.Model.AddrBias
import Verif.Spec.AddrBias
import Verif.Props.AddrBias
import Verif.Model.BuildId
import Verif.Spec.BuildId
import Verif.Proof.BuildId
import Verif.Props.BuildId
import Verif.Model.Startup
import Verif.Spec.Startup
import Verif.Props.Startup
import Verif.Model.FixupTls
import Verif.Spec.FixupTls
import Verif.Proof.FixupTls
import Verif.Props.FixupTls
import Verif.Spec.AsmView
import Verif.Proof.AsmView
import Verif.Props.AsmView
import Verif.Model.CcBuild
import Verif.Spec.CcBuild
import Verif.Proof.CcBuild
import Verif.Props.CcBuild
import Verif.Props.CcSingle
import Verif.Model.PatchElf
import Verif.Spec.PatchElf
import Verif.Proof.PatchElf
import Verif.Proof.PatchReloc
import Verif.Proof.PatchPrep
import Verif.Proof.PatchLoad
import Verif.Props.PatchElf
import Verif.Model.ObjElf
import Verif.Spec.ObjElf
import Verif.Proof.ObjElf
import Verif.Props.ObjElf
import Verif.Model.Maps
import Verif.Spec.Maps
import Verif.Proof.Maps
import Verif.Props.Maps
import Verif.Model.Target
import Verif.Spec.Target
import Verif.Proof.Records
import Verif.Proof.TargetCase
import Verif.Proof.Target
import Verif.Props.Target
import Verif.Props.TargetEx
import Verif.Model.Protect
import Verif.Spec.Protect
import Verif.Spec.Applied
import Verif.Proof.Runs
import Verif.Props.Protect
import Verif.Props.Applied
import Verif.Props.ProtectEx
import Verif.Props.ProtectExA64
import Verif.Props.ProtectExLoong
import Verif.Props.TargetAgain
import Verif.Props.TargetAgainEx
import Verif.Model.Untarget
import Verif.Props.Untarget
import Verif.Props.UntargetEx
import Verif.Proof.PrepRuns
import Verif.Props.AppliedTarget
import Verif.Props.AppliedTargetEx
import Verif.Props.PatchElfRiscv
import Verif.Props.TargetExRv
import Verif.Props.TargetExLg
import Verif.Props.GenSection
import Verif.Props.Daemon
import Verif.Props.Files
import Verif.Props.PatchMake
import Verif.Props.GenComm
import Verif.Model.Kickstart
import Verif.Props.Kickstart
import Verif.Model.MakeCmd
import Verif.Props.MakeCmd
import Verif.Model.Getopt
import Verif.Spec.Getopt
import Verif.Proof.Getopt
import Verif.Model.DumpCmd
import Verif.Props.DumpCmd
import Verif.Model.StripCmd
import Verif.Props.StripCmd
import Verif.Model.Buffers
import Verif.Spec.Buffers
import Verif.Props.Buffers
import Verif.Model.GenCmd
import Verif.Spec.GenCmd
import Verif.Props.GenCmd
import Verif.Model.RbDestroy
import Verif.Spec.RbDestroy
import Verif.Props.RbDestroy
import Verif.Model.LineMem
import Verif.Props.LineMem
