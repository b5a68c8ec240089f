import Verif.Basic
import Verif.Spec
import Verif.Model.Api
import Verif.Model.Borrows
import Verif.Model.Builder
import Verif.Model.Calls
import Verif.Model.Clones
import Verif.Model.Compile
import Verif.Model.ConstEval
import Verif.Model.Costs
import Verif.Model.DebugFmt
import Verif.Model.Dedup
import Verif.Model.Derive
import Verif.Model.EffectBuild
import Verif.Model.EffectCollect
import Verif.Model.EffectDebug
import Verif.Model.EffectMaps
import Verif.Model.EffectSerde
import Verif.Model.EffectSets
import Verif.Model.EffectText
import Verif.Model.Effects
import Verif.Model.Emit
import Verif.Model.Expand
import Verif.Model.Exports
import Verif.Model.Eytzinger
import Verif.Model.EytzingerChecked
import Verif.Model.Formats
import Verif.Model.FzMaps
import Verif.Model.HashAnalyzer
import Verif.Model.HashTable
import Verif.Model.Hashers
import Verif.Model.History
import Verif.Model.InlineMaps
import Verif.Model.IterClones
import Verif.Model.Iterators
import Verif.Model.Len
import Verif.Model.Literals
import Verif.Model.Macros
import Verif.Model.Magnitudes
import Verif.Model.MapImpl
import Verif.Model.Maps
import Verif.Model.Objects
import Verif.Model.OwnSets
import Verif.Model.Parsing
import Verif.Model.Probes
import Verif.Model.Routes
import Verif.Model.Scalar
import Verif.Model.ScalarAnalyzer
import Verif.Model.Serde
import Verif.Model.Sets
import Verif.Model.SliceAnalyzer
import Verif.Model.StdImpls
import Verif.Model.StdTraits
import Verif.Model.Tokens
import Verif.Model.Traits
import Verif.Model.Types
import Verif.Model.Varying
import Verif.Lemmas.AnalyzerExact
import Verif.Lemmas.Api
import Verif.Lemmas.Arith
import Verif.Lemmas.Borrows
import Verif.Lemmas.BorrowsExact
import Verif.Lemmas.Builder
import Verif.Lemmas.Built
import Verif.Lemmas.Calls
import Verif.Lemmas.Canonical
import Verif.Lemmas.Clones
import Verif.Lemmas.ConstEval
import Verif.Lemmas.CostBounds
import Verif.Lemmas.CostCongr
import Verif.Lemmas.Costs
import Verif.Lemmas.Dedup
import Verif.Lemmas.Derive
import Verif.Lemmas.EffectBuild
import Verif.Lemmas.EffectBuildSafe
import Verif.Lemmas.EffectCollect
import Verif.Lemmas.EffectDebug
import Verif.Lemmas.EffectMaps
import Verif.Lemmas.EffectSerde
import Verif.Lemmas.EffectSetOps
import Verif.Lemmas.EffectSets
import Verif.Lemmas.EffectSteps
import Verif.Lemmas.EffectText
import Verif.Lemmas.Effects
import Verif.Lemmas.Emit
import Verif.Lemmas.Equality
import Verif.Lemmas.Expand
import Verif.Lemmas.ExportPaths
import Verif.Lemmas.ExportTable
import Verif.Lemmas.Exports
import Verif.Lemmas.Eytzinger
import Verif.Lemmas.Facts
import Verif.Lemmas.Formats
import Verif.Lemmas.FzMaps
import Verif.Lemmas.HashAnalyzer
import Verif.Lemmas.HashTable
import Verif.Lemmas.History
import Verif.Lemmas.InlineMaps
import Verif.Lemmas.IterOrder
import Verif.Lemmas.Iterators
import Verif.Lemmas.KeepLast
import Verif.Lemmas.Literals
import Verif.Lemmas.MacroLits
import Verif.Lemmas.MacroShape
import Verif.Lemmas.Macros
import Verif.Lemmas.MapImpl
import Verif.Lemmas.Maps
import Verif.Lemmas.Narrow
import Verif.Lemmas.OwnSets
import Verif.Lemmas.Parsing
import Verif.Lemmas.Portable
import Verif.Lemmas.Probes
import Verif.Lemmas.Safety
import Verif.Lemmas.Scalar
import Verif.Lemmas.ScalarMaps
import Verif.Lemmas.ScalarOrder
import Verif.Lemmas.Seeds
import Verif.Lemmas.Serde
import Verif.Lemmas.Sets
import Verif.Lemmas.SliceAnalyzer
import Verif.Lemmas.SliceOptimal
import Verif.Lemmas.Space
import Verif.Lemmas.StdImpls
import Verif.Lemmas.Strategy
import Verif.Lemmas.Target
import Verif.Lemmas.TokenUnique
import Verif.Lemmas.Tokens
import Verif.Lemmas.Traits
import Verif.Lemmas.Types
import Verif.Lemmas.WellTyped
import Verif.Props.Api
import Verif.Props.ApiSpec
import Verif.Props.BorrowSpec
import Verif.Props.Borrows
import Verif.Props.BorrowsExact
import Verif.Props.Builder
import Verif.Props.BuilderSpec
import Verif.Props.BuiltSets
import Verif.Props.CallSpec
import Verif.Props.Calls
import Verif.Props.Canonical
import Verif.Props.CloneSpec
import Verif.Props.Clones
import Verif.Props.ConstantData
import Verif.Props.Costs
import Verif.Props.DebugFmt
import Verif.Props.DebugSpec
import Verif.Props.Dedup
import Verif.Props.Derive
import Verif.Props.DeriveSpec
import Verif.Props.EffectBuild
import Verif.Props.EffectBuildSpec
import Verif.Props.EffectCollect
import Verif.Props.EffectCollectSpec
import Verif.Props.EffectDebug
import Verif.Props.EffectDebugSpec
import Verif.Props.EffectMapSpec
import Verif.Props.EffectMaps
import Verif.Props.EffectSerde
import Verif.Props.EffectSerdeSpec
import Verif.Props.EffectSetOps
import Verif.Props.EffectSetSpec
import Verif.Props.EffectSets
import Verif.Props.EffectSpec
import Verif.Props.EffectText
import Verif.Props.EffectTextSpec
import Verif.Props.Effects
import Verif.Props.Emit
import Verif.Props.Equality
import Verif.Props.Expand
import Verif.Props.ExpandSpec
import Verif.Props.ExportSpec
import Verif.Props.Exports
import Verif.Props.Eytzinger
import Verif.Props.EytzingerChecked
import Verif.Props.FormatSpec
import Verif.Props.Formats
import Verif.Props.HashTable
import Verif.Props.HintBounds
import Verif.Props.History
import Verif.Props.HistorySpec
import Verif.Props.IterClones
import Verif.Props.IterOrder
import Verif.Props.Iterators
import Verif.Props.Len
import Verif.Props.MacroExpr
import Verif.Props.MacroSpec
import Verif.Props.Macros
import Verif.Props.Magnitudes
import Verif.Props.MapSpec
import Verif.Props.Maps
import Verif.Props.ObjectSpec
import Verif.Props.Objects
import Verif.Props.OwnSetSpec
import Verif.Props.OwnSets
import Verif.Props.ParseSpec
import Verif.Props.Parsing
import Verif.Props.Portable
import Verif.Props.Probes
import Verif.Props.RawSafety
import Verif.Props.ReadSpec
import Verif.Props.Routes
import Verif.Props.Safety
import Verif.Props.SafetySpec
import Verif.Props.Scalar
import Verif.Props.ScalarOrder
import Verif.Props.ScalarOrderSpec
import Verif.Props.ScalarTrait
import Verif.Props.Seeds
import Verif.Props.Serde
import Verif.Props.SerdeMore
import Verif.Props.SetSpec
import Verif.Props.Sets
import Verif.Props.SizeSpec
import Verif.Props.SliceOptimal
import Verif.Props.Slices
import Verif.Props.Space
import Verif.Props.SpaceSpec
import Verif.Props.StaticMacros
import Verif.Props.StdImpls
import Verif.Props.StdSpec
import Verif.Props.StdTraits
import Verif.Props.Strategy
import Verif.Props.StrategySpec
import Verif.Props.TableOrder
import Verif.Props.TableSize
import Verif.Props.Target
import Verif.Props.TargetSpec
import Verif.Props.TokenSpec
import Verif.Props.Tokens
import Verif.Props.TraitSpec
import Verif.Props.Traits
import Verif.Props.TypeSpec
import Verif.Props.Types
import Verif.Props.Unambiguous
import Verif.Conformance.BuildScript
import Verif.Conformance.Iterators
import Verif.Conformance.Macros
import Verif.Conformance.Units
