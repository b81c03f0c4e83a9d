import Verif.Prelude
import Verif.PyStr
import Verif.Parsing
import Verif.PatternSpec
import Verif.Recipe
import Verif.Tensor
import Verif.Apply
import Verif.Spec
import Verif.Legal
import Verif.Proofs.Lexing
import Verif.Proofs.Parser
import Verif.Proofs.Plan
import Verif.Proofs.Reconstruct
import Verif.Proofs.Positions
import Verif.Proofs.Stages
import Verif.Proofs.Core
import Verif.Proofs.Sizes
import Verif.Proofs.Arrow
import Verif.Proofs.Sides
import Verif.Proofs.Prepare
import Verif.Proofs.Ops
import Verif.Proofs.Results
import Verif.Proofs.Backends
import Verif.Proofs.Calls
import Verif.Proofs.Algebra
import Verif.Proofs.Relabel
import Verif.Rewriting
import Verif.Proofs.Rewrites
import Verif.Proofs.Units
import Verif.Proofs.Fill
import Verif.Proofs.Counts
import Verif.Props.Examples
import Verif.Props.Operations
import Verif.Proofs.Swap
import Verif.Proofs.Compose
import Verif.Props.Algebra
import Verif.Proofs.Spacing
import Verif.Props.Patterns
import Verif.ParseShape
import Verif.Props.Shapes
import Verif.Packing
import Verif.PackSpec
import Verif.Proofs.Packing
import Verif.Proofs.Unpacking
import Verif.Props.Packing
import Verif.Einsum
import Verif.EinsumSpec
import Verif.Proofs.Einsum
import Verif.Proofs.Contract
import Verif.Proofs.Decide
import Verif.EinsumRef
import Verif.Props.Einsum
import Verif.Props.EinsumLaws
import Verif.Layers
import Verif.Proofs.Layers
import Verif.Props.Layers
import Verif.Cache
import Verif.Proofs.Symbolic
import Verif.Proofs.Cache
import Verif.Props.Symbolic
import Verif.Props.Cache
import Verif.Optimize
import Verif.Proofs.Optimize
import Verif.Props.Optimize
import Verif.GetBackend
import Verif.Proofs.GetBackend
import Verif.Props.GetBackend
import Verif.EinMix
import Verif.EinMixSpec
import Verif.Proofs.EinMix
import Verif.Proofs.EinMixLayers
import Verif.Proofs.EinMixInit
import Verif.Proofs.EinMixMake
import Verif.Proofs.EinMixForward
import Verif.Props.EinMix
import Verif.LawSpec
import Verif.Proofs.Elementwise
import Verif.Proofs.ComposeMoves
import Verif.Props.Laws
import Verif.Proofs.PackLaws
import Verif.Props.PackLaws
import Verif.Proofs.SizeLaws
import Verif.Props.SizeLaws
import Verif.Binding
import Verif.Props.Binding
import Verif.Props.Config
import Verif.BackendThreads
import Verif.Proofs.BackendThreads
import Verif.Props.BackendThreads
import Verif.AdjointSpec
import Verif.Proofs.Adjoint
import Verif.Props.Adjoint
import Verif.Proofs.ReductionLaws
import Verif.Props.ReductionLaws
import Verif.Props.Numerals
import Verif.Props.UnpackExact
import Verif.ErrorSpec
import Verif.Props.Exceptions
import Verif.Props.ExceptionsReduce
import Verif.Props.Classical
import Verif.EinMixParams
import Verif.StartSpec
import Verif.Props.EinMixStart
import Verif.Props.EinMixRange
import Verif.Graph
import Verif.Proofs.Graph
import Verif.Proofs.GraphCalls
import Verif.Props.Graph
import Verif.GraphCache
import Verif.Proofs.GraphCache
import Verif.Props.GraphCache
import Verif.Proofs.Documented
import Verif.Props.Documented
import Verif.MarkerSpec
import Verif.Proofs.Marker
import Verif.Props.Marker
import Verif.StepSpec
import Verif.Proofs.Steps
import Verif.Props.Steps
import Verif.SliceSpec
import Verif.Proofs.Slices
import Verif.Props.Slices
import Verif.Repr
import Verif.ReprSpec
import Verif.Proofs.Repr
import Verif.Props.Repr
import Verif.Proofs.EinMixLaws
import Verif.Props.EinMixLaws
import Verif.Proofs.EinMixNamed
import Verif.Props.EinMixDocumented
import Verif.PackUses
import Verif.Props.PackDocumented
import Verif.Props.EinsumDocumented
import Verif.OtherErrors
import Verif.Proofs.OtherErrors
import Verif.Props.OtherExceptions
import Verif.BatchSpec
import Verif.Proofs.BatchAxes
import Verif.Props.BatchAxes
import Verif.TorchPrograms
import Verif.Proofs.TorchRewrites
import Verif.Proofs.TorchPatterns
import Verif.Proofs.TorchOps
import Verif.Props.TorchRewrites
import Verif.Props.TorchSequences
import Verif.TorchProducts
import Verif.Proofs.TorchProducts
import Verif.Props.TorchAttention
import Verif.GraphPacking
import Verif.Proofs.GraphPacking
import Verif.Props.GraphPacking
import Verif.Views
import Verif.Proofs.Views
import Verif.Props.Views
import Verif.ApartSpec
import Verif.Proofs.Apart
import Verif.Props.Apart
import Verif.Messages
import Verif.MessageSpec
import Verif.Proofs.Messages
import Verif.Proofs.SideMessages
import Verif.Proofs.CallMessages
import Verif.Props.Messages
import Verif.ProgramSpec
import Verif.Proofs.Programs
import Verif.Props.Programs
import Verif.EinMixSizes
import Verif.Proofs.EinsumLengths
import Verif.Proofs.EinMixSizes
import Verif.Props.EinMixSizes
import Verif.Warnings
import Verif.Proofs.Warnings
import Verif.Props.Warnings
import Verif.OtherMessages
import Verif.OtherMessageSpec
import Verif.Proofs.OtherMessages
import Verif.Props.OtherMessages
import Verif.LayerMessages
import Verif.LayerMessageSpec
import Verif.Proofs.LayerMessages
import Verif.Proofs.MixMessages
import Verif.Props.LayerMessages
import Verif.LayerLife
import Verif.Proofs.LayerLife
import Verif.Props.LayerLife
import Verif.TransposeSpec
import Verif.Proofs.TestClaims
import Verif.Props.TestClaims
import Verif.Proofs.EinMixGrad
import Verif.Props.EinMixGrad
import Verif.Proofs.MarkerOthers
import Verif.Props.MarkerOthers
import Verif.EinMixWarnings
import Verif.Proofs.EinMixWarnings
import Verif.Props.EinMixWarnings
import Verif.TensorTrain
import Verif.Proofs.TensorTrain
import Verif.Props.TensorTrain
import Verif.Yolo
import Verif.Proofs.Yolo
import Verif.Props.Yolo
import Verif.StridedPrograms
import Verif.Proofs.Strided
import Verif.Props.Strided
import Verif.PixelPrograms
import Verif.Proofs.Pixels
import Verif.Props.Pixels
import Verif.ListPrograms
import Verif.Proofs.Lists
import Verif.Props.Lists
import Verif.PoolPrograms
import Verif.Proofs.Pools
import Verif.Props.Pools
