import Verif.Model.Ffi
import Verif.Spec.Section11
import Verif.Props.Encoding
import Verif.Props.Ffi
import Verif.Props.Histories
import Verif.Props.Forgery
import Verif.Props.Traces
import Verif.Props.Visits
import Verif.Props.Unforgeable
import Verif.Props.Clients
import Verif.Props.Python
import Verif.Props.Sessions
import Verif.Props.Counts
import Verif.Exec.Run
import Verif.Proofs.Both
import Verif.Props.Observed
import Verif.Model.Tests
import Verif.Props.Vectors
import Verif.Props.Programs
import Verif.Props.Dudect
import Verif.Props.Public
import Verif.Props.Cover
import Verif.Props.Level
import Verif.Props.Steps
import Verif.Props.Memory
import Verif.Props.Splice
import Verif.Props.Game
import Verif.Props.Rom
import Verif.Props.Shake
import Verif.Props.Sha2
import Verif.Props.ApiForgery
import Verif.Props.GenForgery
import Verif.Props.Docs
import Verif.Props.MultiForgery
import Verif.Props.Threads
import Verif.Props.CForgery
import Verif.Props.Binding
import Verif.Props.MemoryTraces
import Verif.Props.Machine
import Verif.Props.Ownership
import Verif.Props.Resign
import Verif.Props.Suites
import Verif.Props.Demo
import Verif.Props.Duplicate
import Verif.Props.Recover
import Verif.Props.Features
import Verif.Props.Weak
import Verif.Props.Distinct
import Verif.Props.Faults
import Verif.Props.Graft
import Verif.Props.Reused
import Verif.Props.Shared
import Verif.Props.Apart
import Verif.Props.Blind
import Verif.Props.Spread
import Verif.Props.Average
import Verif.Props.Damage
import Verif.Props.Ideal
import Verif.Props.CIdeal
import Verif.Props.Fresh
import Verif.Props.PyIdeal
import Verif.Props.KeyDamage
