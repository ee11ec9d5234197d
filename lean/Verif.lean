import Verif.Spec
import Verif.Model.User
import Verif.Model.Suite
import Verif.Props.Poly
import Verif.Props.Accumulator
import Verif.Props.Server
import Verif.Props.Shamir
import Verif.Props.UpdateServer
import Verif.Props.Update
import Verif.Props.Secrecy
import Verif.Props.Malicious
import Verif.Props.Silent
import Verif.Props.Credential
import Verif.Props.Enrol
import Verif.Props.World
import Verif.Props.AccProof
import Verif.Props.AccBinding
import Verif.Props.Codec
import Verif.Props.Hashing
import Verif.Props.Real
import Verif.Props.Revocation
import Verif.Props.Signature
import Verif.Props.Crash
import Verif.Props.Communication
import Verif.Props.Examples
import Verif.Props.Slicing
import Verif.Props.Direct
import Verif.Props.EndToEnd
import Verif.Props.Serde
import Verif.Props.Rom
import Verif.Props.Release
import Verif.Props.SelectiveFailure
import Verif.Props.Replicas
import Verif.Props.Anonymity
import Verif.Props.NonMalleable
import Verif.Props.HashTable
import Verif.Props.EnrolZk
import Verif.Props.Random
import Verif.Props.UserCalls
import Verif.Props.Adaptive
import Verif.Props.AdaptiveSign
import Verif.Props.AdaptiveVb
import Verif.Props.VbZk
import Verif.Props.Full
import Verif.Props.AdaptiveAnon
import Verif.Props.Cost
import Verif.Props.Degenerate
import Verif.Props.Reuse
import Verif.Props.Rollback
import Verif.Props.Readd
import Verif.Props.Suite
import Verif.Props.SuiteSystem
import Verif.Props.PostUpdate
import Verif.Props.Recovery
import Verif.Props.Wire
import Verif.Instances.Data
import Verif.Instances.HalfAnswer
import Verif.Instances.Accumulator
import Verif.Instances.AccProof
import Verif.Instances.Credential
import Verif.Instances.Updating
import Verif.Instances.Systems
import Verif.Instances.Rest
import Verif.Instances.Real
import Verif.Instances.Rom
import Verif.Instances.Games
import Verif.Instances.Binding
import Verif.Props.Binding
import Verif.Props.Multiplicity
import Verif.Props.Trace
import Verif.Props.Bench
import Verif.Props.Race
import Verif.Props.Generators
import Verif.Props.FullHashed
import Verif.Props.ClientRandom
import Verif.Props.TraceCred
import Verif.Props.SplitView
import Verif.Props.Keys
import Verif.Props.LogLeak
import Verif.Props.Order
import Verif.Props.SelfDescribing
import Verif.Props.TextOutput
import Verif.Props.Retry
import Verif.Props.Threshold
import Verif.Props.WireProof
import Verif.Props.CostAcc
import Verif.Props.MadeUp
import Verif.Props.Damage
import Verif.Props.Mixed
import Verif.Props.Repeat
import Verif.Props.HalfAnswer
import Verif.Instances.LiarWorld
import Verif.Props.LiarWorld
import Verif.Instances.SilentLiar
import Verif.Props.SilentLiar
import Verif.Instances.SilentGuess
import Verif.Props.SilentGuess
import Verif.Instances.RealLiar
import Verif.Props.RealLiar
import Verif.Instances.MixedLiar
import Verif.Props.MixedLiar
import Verif.Instances.MixedReadd
import Verif.Props.MixedReadd
import Verif.Instances.MixedDamage
import Verif.Props.MixedDamage
