import Verif.Basic.KernelRfl
import Verif.Basic.Loop
import Verif.Basic.While
import Verif.Model.Accum16
import Verif.Model.Attributes
import Verif.Model.BGemm
import Verif.Model.BMaxPool
import Verif.Model.BatchSize
import Verif.Model.BinaryFilter
import Verif.Model.Bitpack
import Verif.Model.BitpackA64
import Verif.Model.ConstFold
import Verif.Model.Convert
import Verif.Model.Detection
import Verif.Model.Dispatch
import Verif.Model.Exec
import Verif.Model.ExecFl
import Verif.Model.File
import Verif.Model.FloatOutput
import Verif.Model.FuseAct
import Verif.Model.FuseAffine
import Verif.Model.GemmA32
import Verif.Model.GemmA32Code
import Verif.Model.GemmA64
import Verif.Model.GemmA64Code
import Verif.Model.Glue
import Verif.Model.Indirect
import Verif.Model.IndirectA64
import Verif.Model.IndirectA64Code
import Verif.Model.IndirectEval
import Verif.Model.Ir
import Verif.Model.NeonA64
import Verif.Model.OpState
import Verif.Model.OutputTransform
import Verif.Model.PackRat
import Verif.Model.Padding
import Verif.Model.Params
import Verif.Model.Pipeline
import Verif.Model.Predict
import Verif.Model.PredictBytes
import Verif.Model.PredictFl
import Verif.Model.PredictLce
import Verif.Model.PyGraph
import Verif.Model.QuantFuse
import Verif.Model.QuantPatterns
import Verif.Model.Quantization
import Verif.Model.Reference
import Verif.Model.RuyPack
import Verif.Model.Session
import Verif.Model.SessionFl
import Verif.Model.Thresholds
import Verif.Model.Types
import Verif.Model.Wrapper
import Verif.Model.ZeroPadding
import Verif.Model.ZeroPaddingFl
import Verif.Model.ZeroPaddingPlatform
import Verif.Proof.BGemm
import Verif.Proof.BMaxPool
import Verif.Proof.Bitpack
import Verif.Proof.BitpackA64
import Verif.Proof.BitpackMatrix
import Verif.Proof.Broadcast
import Verif.Proof.Canonical
import Verif.Proof.Converter
import Verif.Proof.Detection
import Verif.Proof.DetectionStep
import Verif.Proof.Exec
import Verif.Proof.ExecConv
import Verif.Proof.ExecFl
import Verif.Proof.ExecFlGraph
import Verif.Proof.ExecGraph
import Verif.Proof.ExecOp
import Verif.Proof.F32Val
import Verif.Proof.File
import Verif.Proof.Float32
import Verif.Proof.Float64
import Verif.Proof.FloatOutput
import Verif.Proof.FloatThresholds
import Verif.Proof.Frame
import Verif.Proof.Ftz
import Verif.Proof.GemmA32Code
import Verif.Proof.GemmA32Run
import Verif.Proof.GemmA64Acc
import Verif.Proof.GemmA64Code4
import Verif.Proof.GemmA64Code8
import Verif.Proof.GemmA64Facts
import Verif.Proof.GemmA64Final
import Verif.Proof.GemmA64Mem
import Verif.Proof.GemmA64Ot8
import Verif.Proof.GemmA64Over
import Verif.Proof.GemmA64Run
import Verif.Proof.Ieee
import Verif.Proof.Im2col
import Verif.Proof.Index
import Verif.Proof.Indirect
import Verif.Proof.IndirectA64Code1
import Verif.Proof.IndirectA64Code2
import Verif.Proof.IndirectA64Code4
import Verif.Proof.IndirectA64Facts
import Verif.Proof.IndirectA64Final
import Verif.Proof.IndirectA64Loop
import Verif.Proof.IndirectA64Mem
import Verif.Proof.IndirectA64Over
import Verif.Proof.IndirectA64Run
import Verif.Proof.IndirectA64Tile
import Verif.Proof.IndirectBits
import Verif.Proof.IndirectPack
import Verif.Proof.IndirectRun
import Verif.Proof.Ir
import Verif.Proof.IrChain
import Verif.Proof.IrConst
import Verif.Proof.IrConv
import Verif.Proof.IrDec
import Verif.Proof.IrFilters
import Verif.Proof.IrFolded
import Verif.Proof.IrKeeps
import Verif.Proof.IrMeasure
import Verif.Proof.IrPad
import Verif.Proof.IrPrep
import Verif.Proof.IrRules
import Verif.Proof.IrSmall
import Verif.Proof.IrTerm
import Verif.Proof.NeonA64
import Verif.Proof.OpState
import Verif.Proof.OutputTransform
import Verif.Proof.PackInstances
import Verif.Proof.PackRat
import Verif.Proof.Pipeline
import Verif.Proof.Popcount
import Verif.Proof.PredictBytes
import Verif.Proof.PredictRel
import Verif.Proof.PyGraph
import Verif.Proof.PyIoExact
import Verif.Proof.PyStage
import Verif.Proof.PyStrip
import Verif.Proof.QuantEq
import Verif.Proof.Quantize
import Verif.Proof.Reference
import Verif.Proof.Round
import Verif.Proof.Session
import Verif.Proof.SessionFl
import Verif.Proof.SessionFlGraph
import Verif.Proof.SessionGraph
import Verif.Proof.Setup
import Verif.Proof.Sum
import Verif.Proof.Thresholds
import Verif.Proof.WriteOnly
import Verif.Proof.ZeroPadding
import Verif.Props.Accum16
import Verif.Props.Attributes
import Verif.Props.BGemm
import Verif.Props.BMaxPool
import Verif.Props.BatchSize
import Verif.Props.BinaryFilter
import Verif.Props.BitpackA64
import Verif.Props.Bitpacking
import Verif.Props.ConstFold
import Verif.Props.ConstFoldBound
import Verif.Props.Convert
import Verif.Props.ConvertTypes
import Verif.Props.Detection
import Verif.Props.Dispatch
import Verif.Props.EndToEnd
import Verif.Props.Exec
import Verif.Props.ExecFl
import Verif.Props.ExecTypes
import Verif.Props.File
import Verif.Props.FloatA32
import Verif.Props.FloatA64
import Verif.Props.FloatOutput
import Verif.Props.FuseAct
import Verif.Props.FuseAffine
import Verif.Props.FusedSign
import Verif.Props.FusedSignWitness
import Verif.Props.GemmA32
import Verif.Props.GemmA64
import Verif.Props.Glue
import Verif.Props.History
import Verif.Props.Indirect
import Verif.Props.IndirectA64
import Verif.Props.IrSound
import Verif.Props.IrTerm
import Verif.Props.OpResult
import Verif.Props.OpResultInt
import Verif.Props.PackKernel
import Verif.Props.PackedShape
import Verif.Props.Padding
import Verif.Props.Pipeline
import Verif.Props.PipelineLeft
import Verif.Props.Predict
import Verif.Props.PredictBytes
import Verif.Props.PredictFl
import Verif.Props.PredictLce
import Verif.Props.Prepare
import Verif.Props.PyGraph
import Verif.Props.PyIo
import Verif.Props.PyIoExact
import Verif.Props.PyRefs
import Verif.Props.PyStrip
import Verif.Props.QuantDequant
import Verif.Props.QuantFuse
import Verif.Props.QuantIeee
import Verif.Props.QuantPatterns
import Verif.Props.QuantizePrepare
import Verif.Props.Reference
import Verif.Props.RuyPack
import Verif.Props.Session
import Verif.Props.SessionFl
import Verif.Props.Stale
import Verif.Props.Thresholds
import Verif.Props.ThresholdsNear
import Verif.Props.Wrapper
import Verif.Props.ZeroPadding
import Verif.Props.ZeroPaddingFl
import Verif.Props.ZeroPaddingPlatform
import Verif.Spec.Activation
import Verif.Spec.BConvOp
import Verif.Spec.Bits
import Verif.Spec.Block
import Verif.Spec.Broadcast
import Verif.Spec.Conv
import Verif.Spec.Convert
import Verif.Spec.DetectionRel
import Verif.Spec.ExecFlRel
import Verif.Spec.ExecRel
import Verif.Spec.F32Sub
import Verif.Spec.F32Val
import Verif.Spec.FileRel
import Verif.Spec.Float32
import Verif.Spec.Float64
import Verif.Spec.FloatConv
import Verif.Spec.Ftz
import Verif.Spec.GlueRel
import Verif.Spec.Graph
import Verif.Spec.History
import Verif.Spec.Ieee
import Verif.Spec.IrSem
import Verif.Spec.OutputBits
import Verif.Spec.PadConv
import Verif.Spec.PipelineLeft
import Verif.Spec.PipelineRel
import Verif.Spec.Pool
import Verif.Spec.PredictBytesRel
import Verif.Spec.PredictFlRel
import Verif.Spec.PredictRel
import Verif.Spec.Quant
import Verif.Spec.SessionFlRel
import Verif.Spec.SessionRel
import Verif.Spec.WrapperRel
import Verif.Spec.ZeroPad
