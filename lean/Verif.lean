import Verif.Props.Qualifier
import Verif.Props.StatInt
import Verif.Props.Rounding
import Verif.Props.Fraction
import Verif.Props.Misc
import Verif.Props.Bounds
import Verif.Props.FloatPoint
import Verif.Props.Base
import Verif.Props.StatMap
import Verif.Props.Serde
import Verif.Props.Layout
import Verif.Props.Cast
import Verif.Props.Derive
import Verif.Props.DeriveAttr
import Verif.Props.Plugin
import Verif.Props.Query
import Verif.Props.Cache
import Verif.Props.Recursion
import Verif.Props.Join
import Verif.Props.Ledger
import Verif.Props.Simulate
import Verif.Props.FloatMul
import Verif.Props.FloatExact
import Verif.Props.Unwind
import Verif.Props.Memory
import Verif.Props.SerdeTypes
import Verif.Props.SaveLoad
import Verif.Props.Debug
import Verif.Props.StatExt
import Verif.Props.Tables
import Verif.Props.SharedTables
import Verif.Props.InPlace
import Verif.Props.AnyOrder
import Verif.Props.Repair
import Verif.Props.Misread
import Verif.Props.Monotone
import Verif.Props.MonotoneFloat
import Verif.Props.World
import Verif.Props.Ratio
import Verif.Props.Poison
import Verif.Props.LedgerSerde
import Verif.Props.LedgerWild
import Verif.Props.LedgerQual
import Verif.Props.DropTyped
import Verif.Props.LedgerAgree
import Verif.Spec.DefaultsExact
import Verif.Props.DefaultsExact
import Verif.Props.Exact
import Verif.Props.LedgerPair
import Verif.Props.Returns
import Verif.Props.RoundOff
import Verif.Props.JoinReturns
import Verif.Props.CacheMap
import Verif.Props.MapQuery
import Verif.Props.MapLocal
import Verif.Props.SaveWorld
import Verif.Props.SaveRepair
import Verif.Props.SaveCanon
import Verif.Props.Derived
import Verif.Props.Snapshot
import Verif.Props.Multimap
import Verif.Props.Lock
import Verif.Tests.Qualifier
import Verif.Tests.Derive
import Verif.Tests.Distance
import Verif.Tests.Asset
import Verif.Tests.Ints
import Verif.Tests.Serde
import Verif.Props.StreamClear
import Verif.Props.Catch
import Verif.Props.StreamStore
import Verif.Props.CacheExact
import Verif.Props.CacheStays
import Verif.Props.CacheTrace
import Verif.Spec.WildOrd
import Verif.Proofs.WildOrd
import Verif.Props.WildOrd
import Verif.Spec.WildEq
import Verif.Props.WildEq
import Verif.Props.DefaultsUse
import Verif.Spec.OrderExact
import Verif.Props.OrderExact
import Verif.Model.Hostile
import Verif.Spec.Hostile
import Verif.Proofs.Hostile
import Verif.Props.Hostile
import Verif.Model.HostileCache
import Verif.Props.HostileCache
import Verif.Props.WriteJoinExact
import Verif.Props.PercentExact
import Verif.Spec.PairExact
import Verif.Props.PairExact
import Verif.Spec.Convert
import Verif.Props.Convert
import Verif.Props.ConvertCache
import Verif.Model.LibMap
import Verif.Spec.LibMap
import Verif.Props.LibMap
import Verif.Spec.Reach
import Verif.Props.Reach
import Verif.Spec.Assembled
import Verif.Props.Assembled
import Verif.Spec.ClosedForm
import Verif.Props.ClosedForm
import Verif.Spec.Nesting
import Verif.Props.Nesting
import Verif.Spec.Bonus
import Verif.Props.Bonus
import Verif.Spec.Overlap
import Verif.Spec.Contents
import Verif.Spec.Undo
import Verif.Spec.Arrange
import Verif.Spec.Decompose
import Verif.Spec.Cost
import Verif.Props.Overlap
import Verif.Props.Contents
import Verif.Props.Undo
import Verif.Props.UndoBounds
import Verif.Props.Arrange
import Verif.Props.Decompose
import Verif.Props.Cost
import Verif.Model.FloatBits
import Verif.Spec.FloatBits
import Verif.Proofs.FloatBits
import Verif.Props.FloatBits
import Verif.Model.Compares
import Verif.Props.Compares
import Verif.Props.Grown
import Verif.Model.Fickle
import Verif.Spec.Fickle
import Verif.Proofs.Fickle
import Verif.Props.Fickle
import Verif.Model.IterMut
import Verif.Spec.IterMut
import Verif.Props.IterMut
import Verif.Model.SharedMap
import Verif.Spec.SharedMap
import Verif.Proofs.SharedMap
import Verif.Props.SharedMap
import Verif.Model.SharedCache
import Verif.Spec.SharedCache
import Verif.Props.SharedCache
import Verif.Spec.Interchange
import Verif.Props.Interchange
import Verif.Spec.Requalify
import Verif.Props.Requalify
import Verif.Spec.MapReplace
import Verif.Props.MapReplace
import Verif.Model.Json
import Verif.Spec.Json
import Verif.Props.Json
import Verif.Model.Reflect
import Verif.Spec.Reflect
import Verif.Props.Reflect
import Verif.Model.Cloning
import Verif.Spec.Cloning
import Verif.Proofs.Cloning
import Verif.Props.Cloning
import Verif.Model.Postcard
import Verif.Spec.Postcard
import Verif.Proofs.Postcard
import Verif.Props.Postcard
import Verif.Spec.Merged
import Verif.Proofs.Merged
import Verif.Props.Merged
import Verif.Model.Bench
import Verif.Proofs.Bench
import Verif.Props.Bench
import Verif.Spec.Registered
import Verif.Props.Registered
import Verif.Model.CrateTest
import Verif.Spec.OpArms
import Verif.Props.OpArms
import Verif.Props.CrateTest
import Verif.Spec.Evaluated
import Verif.Props.Evaluated
import Verif.Spec.Frozen
import Verif.Proofs.Frozen
import Verif.Props.Frozen
import Verif.Spec.Accepts
import Verif.Props.Accepts
import Verif.Model.Auras
import Verif.Spec.Auras
import Verif.Props.Auras
