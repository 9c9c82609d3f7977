import Verif.Basic
import Verif.Model.Utils
import Verif.Model.Base64
import Verif.Model.Hash
import Verif.Model.BFuse
import Verif.Model.Bincode
import Verif.Model.Db
import Verif.Model.Api
import Verif.Spec
import Verif.Props.IndexPir
import Verif.Props.Query
import Verif.Props.Codec
import Verif.Props.Server
import Verif.Props.Hash
import Verif.Props.Filter
import Verif.Props.BFuse
import Verif.Props.KvQuery
import Verif.Props.Kv
import Verif.Props.KvStrings
import Verif.Model.Fuse
import Verif.Props.Fuse
import Verif.Props.Xor
import Verif.Props.Files
import Verif.Props.FailureRate
import Verif.Props.Peeling
import Verif.Props.Profiles
import Verif.Props.Client
import Verif.Props.Build
import Verif.Props.Slots
import Verif.Props.Leakage
import Verif.Lemmas.Fill
import Verif.Props.FalsePos
import Verif.Model.System
import Verif.Lemmas.System
import Verif.Props.System
import Verif.Props.Copies
import Verif.Model.Cli
import Verif.Props.KvServer
import Verif.Props.Cli
import Verif.Props.Foreign
import Verif.Model.Float
import Verif.Lemmas.Float
import Verif.Lemmas.FloatLog
import Verif.Props.Sizes
import Verif.Props.Privacy
import Verif.Lemmas.Rate
import Verif.Props.Rate
import Verif.Props.FailureKv
import Verif.Model.Arrays
import Verif.Lemmas.Arrays
import Verif.Lemmas.ArraysP
import Verif.Lemmas.ArraysF
import Verif.Props.Arrays
import Verif.Lemmas.Hang
import Verif.Props.Hang
import Verif.Props.Seed
import Verif.Props.FalseNeg
import Verif.Props.Documents
import Verif.Model.FilterSerde
import Verif.Props.FilterDocs
import Verif.Props.FilterLookups
import Verif.Model.GenDb
import Verif.Model.Bench
import Verif.Model.Zeroes
import Verif.Props.GenDb
import Verif.Props.Reset
import Verif.Props.Zeroes
import Verif.Props.Space
import Verif.Props.Access
import Verif.Props.Attainable
import Verif.Props.Witnesses
import Verif.Props.Sharp
import Verif.Props.Reveal
import Verif.Props.Trust
import Verif.Props.KvAccess
import Verif.Lemmas.FillP
import Verif.Props.AbsentKeys
import Verif.Model.Serde
import Verif.Props.Serde
import Verif.Props.Written
import Verif.Model.JsonText
import Verif.Lemmas.JsonText
import Verif.Props.JsonText
import Verif.Props.KvLoss
import Verif.Props.KvReveal
import Verif.Props.BenchRun
import Verif.Props.Adaptive
import Verif.Props.Reaction
import Verif.Props.AnyObject
import Verif.Props.Wide
import Verif.Props.Usize
import Verif.Props.Published
import Verif.Props.KvBound
import Verif.Props.KvReaction
import Verif.Props.KvRevealMax
import Verif.Props.Repeated
import Verif.Props.Stale
import Verif.Props.StaleKv
import Verif.Model.Tests
import Verif.Props.OwnTests
import Verif.Props.OwnTestsKv
import Verif.Props.OwnTestsFilter
import Verif.Props.OwnTestsWitness
import Verif.Props.Compare
import Verif.Props.DebugBuild
import Verif.Lemmas.Moments
import Verif.Props.Unreliable
import Verif.Lemmas.RandomDb
import Verif.Props.RandomDb
import Verif.Lemmas.UniformKv
import Verif.Props.UniformKv
import Verif.Lemmas.RawTape
import Verif.Props.RawTape
import Verif.Lemmas.Overload
import Verif.Props.Overload
import Verif.Model.ErrText
import Verif.Props.ErrText
import Verif.Lemmas.Birthday
import Verif.Props.Birthday
import Verif.Model.Cost
import Verif.Props.Cost
import Verif.Props.CostSets
import Verif.Props.Session
import Verif.Props.PublishedFail
import Verif.Props.SmallPublic
