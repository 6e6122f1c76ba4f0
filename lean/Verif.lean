import Verif.Props.Bits
import Verif.Props.Memory
import Verif.Props.Arrays
import Verif.Props.TypeList
import Verif.Props.SimpleResource
import Verif.Props.Resources
import Verif.Props.Traits
import Verif.Props.Padding
import Verif.Props.Objects
import Verif.Props.SRExact
import Verif.Props.SRChoice
import Verif.Props.Compose
import Verif.Props.Program
import Verif.Props.Types
import Verif.Props.Agree
import Verif.Props.Exact
import Verif.Props.SRCycle
import Verif.Tests.SimpleResource
import Verif.Tests.Utils
import Verif.Tests.Lists
import Verif.Tests.Traits
import Verif.Tests.Memory
import Verif.Proofs.SRWrap
import Verif.Props.RangeExact
import Verif.Props.SRLimits
import Verif.Spec.SRInspect
import Verif.Props.SRInspect
import Verif.Props.SREmpty
import Verif.Model.Exceptions
import Verif.Spec.Exceptions
import Verif.Props.Exceptions
import Verif.Model.Assign
import Verif.Spec.Assign
import Verif.Proofs.Assign
import Verif.Props.Assign
import Verif.Spec.SRTwin
import Verif.Proofs.SRTwin
import Verif.Props.SRTwin
import Verif.Model.TimerCtor
import Verif.Spec.TimerCtor
import Verif.Props.TimerCtor
import Verif.Model.Checkers
import Verif.Spec.Checkers
import Verif.Proofs.Checkers
import Verif.Props.Checkers
import Verif.Model.Ctors
import Verif.Spec.Ctors
import Verif.Props.Ctors
import Verif.Model.Overload
import Verif.Model.AllocOps
import Verif.Props.AllocOps
import Verif.Model.Dispatch
import Verif.Spec.Dispatch
import Verif.Props.Dispatch
import Verif.Proofs.SRArena
import Verif.Props.SRArena
import Verif.Model.Wrap
import Verif.Spec.Wrap
import Verif.Props.Wrap
import Verif.Model.Units
import Verif.Spec.Units
import Verif.Proofs.Units
import Verif.Props.Units
import Verif.Model.DivT
import Verif.Props.DivT
import Verif.Model.Diagnostics
import Verif.Spec.Diagnostics
import Verif.Proofs.Diagnostics
import Verif.Props.Diagnostics
import Verif.Model.TimerOwn
import Verif.Spec.TimerOwn
import Verif.Props.TimerOwn
import Verif.Model.ArrayThrow
import Verif.Props.ArrayThrow
import Verif.Proofs.SROverlong
import Verif.Props.SRFit
import Verif.Spec.ArithZ
import Verif.Proofs.NextMultiple
import Verif.Props.NextMultiple
import Verif.Model.ValueArg
import Verif.Spec.ValueArg
import Verif.Proofs.ValueArg
import Verif.Props.ValueArg
import Verif.Model.MakeArray
import Verif.Props.MakeArray
import Verif.Model.NewObject
import Verif.Props.NewObject
import Verif.Props.SRFragment
import Verif.Model.ForEach
import Verif.Props.ForEach
import Verif.Props.Shifts
import Verif.Model.RangeTo
import Verif.Props.RangeTo
import Verif.Model.Hierarchy
import Verif.Spec.Hierarchy
import Verif.Props.Hierarchy
import Verif.Model.Chain
import Verif.Spec.Chain
import Verif.Proofs.Chain
import Verif.Props.Chain
import Verif.Model.MacroNames
import Verif.Spec.MacroNames
import Verif.Proofs.MacroNames
import Verif.Props.MacroNames
import Verif.Model.DeleteObject
import Verif.Spec.DeleteObject
import Verif.Proofs.DeleteObject
import Verif.Props.DeleteObject
import Verif.Spec.MonoCapacity
import Verif.Proofs.MonoCapacity
import Verif.Props.MonoCapacity
import Verif.Model.LazyPred
import Verif.Spec.LazyPred
import Verif.Proofs.LazyPred
import Verif.Props.LazyPred
import Verif.Model.Depth
import Verif.Proofs.Depth
import Verif.Props.Depth
import Verif.Spec.Relocate
import Verif.Proofs.Relocate
import Verif.Props.Relocate
import Verif.Model.TimerOverload
import Verif.Spec.TimerOverload
import Verif.Props.TimerOverload
import Verif.Model.FreeLookup
import Verif.Spec.FreeLookup
import Verif.Props.FreeLookup
import Verif.Proofs.SRCost
import Verif.Props.SRCost
import Verif.Model.MonoThreads
import Verif.Spec.MonoThreads
import Verif.Proofs.MonoThreads
import Verif.Props.MonoThreads
import Verif.Model.Using
import Verif.Spec.Using
import Verif.Props.Using
import Verif.Model.SRThreads
import Verif.Spec.SRThreads
import Verif.Proofs.SRThreads
import Verif.Props.SRThreads
import Verif.Model.ZeroOpt
import Verif.Spec.ZeroOpt
import Verif.Proofs.ZeroOpt
import Verif.Props.ZeroOpt
