import Verif.Model.DrivenPredefined
import Verif.Model.SequencePredefined
import Verif.RealInst
import Verif.FloatInst
import Verif.Tests
import Verif.Props.Construction
import Verif.Props.Accessors
import Verif.Props.Export
import Verif.Props.Text
import Verif.Props.Composite
import Verif.Props.Robustness
import Verif.Props.Gaussian
import Verif.Props.Sequences
import Verif.Props.Walsh
import Verif.Props.Concatenated
import Verif.Props.Families
import Verif.Props.Moments
import Verif.Props.CancellationOrder
import Verif.Props.Conversion
import Verif.Props.EndToEnd
import Verif.Props.Coincidences
import Verif.Model.Heap
import Verif.Props.Heap
import Verif.Props.Rounding
import Verif.Extended
import Verif.Spec.Extended
import Verif.Proofs.Extended
import Verif.Proofs.ExtendedGaussian
import Verif.Proofs.ExtendedSequences
import Verif.Proofs.ExtendedExport
import Verif.Proofs.ExtendedRejects
import Verif.Props.Extended
import Verif.Model.FileText
import Verif.Spec.FileText
import Verif.Proofs.FileText
import Verif.Props.FileText
import Verif.Proofs.OperatorNorm
import Verif.Proofs.RoundedControl
import Verif.Proofs.RoundedCorpse
import Verif.Proofs.RoundedScrofulous
import Verif.Proofs.RoundedTabulated
import Verif.Spec.RoundedComposite
import Verif.Props.RoundedComposite
import Verif.Spec.RoundedConversion
import Verif.Proofs.RoundedConversion
import Verif.Proofs.RoundedWindows
import Verif.Proofs.RoundedConverted
import Verif.Proofs.RoundedDurations
import Verif.Proofs.RoundedSeparated
import Verif.Proofs.RoundedRates
import Verif.Props.RoundedConversion
import Verif.Spec.RoundedPipeline
import Verif.Proofs.RoundedPipeline
import Verif.Props.RoundedPipeline
import Verif.Model.Shapes
import Verif.Spec.Shapes
import Verif.Proofs.Shapes
import Verif.Props.Shapes
import Verif.Model.HeapPredefined
import Verif.Spec.HeapPredefined
import Verif.Proofs.HeapPredefined
import Verif.Proofs.HeapWalsh
import Verif.Proofs.HeapQuadratic
import Verif.Proofs.HeapXY
import Verif.Props.HeapPredefined
import Verif.Spec.Noise
import Verif.Proofs.Noise
import Verif.Proofs.NoiseFamilies
import Verif.Proofs.XYAxes
import Verif.Props.Noise
import Verif.Spec.InfiniteRates
import Verif.Props.InfiniteRates
import Verif.Spec.RobustnessTable
import Verif.Proofs.RobustnessTable
import Verif.Props.RobustnessTable
import Verif.Spec.PulseErrors
import Verif.Proofs.PulseErrors
import Verif.Props.PulseErrors
import Verif.Spec.RoundedGaussian
import Verif.Proofs.RoundedGaussian
import Verif.Proofs.RoundedGaussianAngle
import Verif.Props.RoundedGaussian
import Verif.Proofs.ExpLipschitz
import Verif.Proofs.RoundedAccessors
import Verif.Spec.RoundedAccessors
import Verif.Proofs.RoundedReload
import Verif.Props.RoundedAccessors
import Verif.Spec.FiniteWidth
import Verif.Proofs.FiniteWidth
import Verif.Proofs.FiniteWidthCount
import Verif.Proofs.FiniteWidthFamilies
import Verif.Props.FiniteWidth
import Verif.Spec.GaussianErrors
import Verif.Props.GaussianErrors
import Verif.Model.HeapDriven
import Verif.Spec.HeapDriven
import Verif.Proofs.HeapDriven
import Verif.Props.HeapDriven
import Verif.Proofs.FiniteWidthRotations
import Verif.Props.FiniteWidthRotations
import Verif.Spec.ConversionError
import Verif.Props.ConversionError
import Verif.Model.HeapAccess
import Verif.Spec.HeapAccess
import Verif.Proofs.HeapAccess
import Verif.Props.HeapAccess
import Verif.Proofs.Monotone
import Verif.Proofs.RoundedMonotone
import Verif.Props.Monotone
import Verif.Spec.RateErrors
import Verif.Proofs.RateErrors
import Verif.Props.RateErrors
import Verif.Spec.Reversal
import Verif.Proofs.Reversal
import Verif.Proofs.Undoing
import Verif.Props.Reversal
import Verif.Proofs.Reassigned
import Verif.Props.Reassigned
import Verif.Model.ShapesConversion
import Verif.Spec.ShapesConversion
import Verif.Proofs.ShapesConversion
import Verif.Props.ShapesConversion
import Verif.Spec.BuiltXY
import Verif.Proofs.BuiltXY
import Verif.Props.BuiltXY
import Verif.Proofs.SlowNoise
import Verif.Props.SlowNoise
import Verif.Spec.Reload
import Verif.Props.Reload
import Verif.Model.Disk
import Verif.Spec.Interrupted
import Verif.Proofs.Interrupted
import Verif.Proofs.Disk
import Verif.Props.Interrupted
import Verif.Model.ShapesExport
import Verif.Spec.ShapesExport
import Verif.Proofs.ShapesExport
import Verif.Props.ShapesExport
import Verif.Spec.ResidualError
import Verif.Proofs.TaylorBound
import Verif.Proofs.ResidualError
import Verif.Props.ResidualError
import Verif.Spec.ToFile
import Verif.Proofs.ToFile
import Verif.Props.ToFile
import Verif.Model.ShapesAccess
import Verif.Spec.Broadcast
import Verif.Spec.ShapesAccess
import Verif.Proofs.Broadcast
import Verif.Proofs.ShapesAccess
import Verif.Props.ShapesAccess
import Verif.Spec.RoundedErrors
import Verif.Proofs.SegmentErrors
import Verif.Proofs.RoundedErrors
import Verif.Props.RoundedErrors
import Verif.Model.Values
import Verif.Spec.Values
import Verif.Proofs.Values
import Verif.Props.Values
import Verif.Spec.ExactError
import Verif.Proofs.Jets
import Verif.Proofs.ExactError
import Verif.Proofs.CorpseError
import Verif.Props.ExactError
import Verif.Model.ValuesCalls
import Verif.Spec.ValuesCalls
import Verif.Proofs.ValuesCalls
import Verif.Props.ValuesCalls
import Verif.Props.ScrofulousExact
import Verif.Limited
import Verif.Spec.Limited
import Verif.Proofs.Limited
import Verif.Proofs.LimitedInst
import Verif.Proofs.LimitedSame
import Verif.Proofs.LimitedSchemes
import Verif.Props.Limited
import Verif.Proofs.LimitedConversion
import Verif.Proofs.LimitedSequences
import Verif.Spec.LimitedSequences
import Verif.Props.LimitedSequences
import Verif.Proofs.StaticNoise
import Verif.Proofs.NoisePerturbation
import Verif.Props.StaticNoise
import Verif.Props.NoisyRounding
import Verif.Spec.NoisyControl
import Verif.Proofs.NoisyControl
import Verif.Proofs.NoisyExistence
import Verif.Proofs.NoisySegments
import Verif.Props.NoisyControl
import Verif.Model.Reports
import Verif.Spec.Reports
import Verif.Proofs.Reports
import Verif.Proofs.ReportsExplained
import Verif.Proofs.ReportsConversion
import Verif.Props.Reports
import Verif.Proofs.NoisyRounded
import Verif.Spec.NoisyPipeline
import Verif.Props.NoisyPipeline
import Verif.Spec.DriftingErrors
import Verif.Proofs.DriftingErrors
import Verif.Props.DriftingErrors
import Verif.Model.FloatRepr
import Verif.Spec.FloatRepr
import Verif.Proofs.FloatRepr
import Verif.Proofs.FloatReprRounding
import Verif.Props.FloatRepr
import Verif.Spec.Printed
import Verif.Proofs.Printed
import Verif.Proofs.PrintedRounded
import Verif.Props.Printed
import Verif.Props.ReloadExact
import Verif.Props.ArrayCalls
import Verif.Props.SpeedLimit
import Verif.Props.Optimal
import Verif.Props.DocumentedHamiltonian
import Verif.Props.Spectrum
import Verif.Props.Hardware
import Verif.Props.HardwareQuadratic
import Verif.Props.HardwareXY
import Verif.Props.Counts
import Verif.Props.PulseErrorsXY
import Verif.Props.CountsXY
import Verif.Props.XYResidual
import Verif.Props.PulseErrorsXYConverted
import Verif.Props.PulseErrorsZ
import Verif.Props.Repetition
import Verif.Proofs.RepetitionWalsh
import Verif.Props.RepetitionWalsh
import Verif.Spec.Joining
import Verif.Proofs.Joining
import Verif.Props.Joining
import Verif.Props.RepetitionSpectrum
import Verif.Proofs.JoiningRounded
import Verif.Props.JoiningRounded
import Verif.Model.ArraySequences
import Verif.Spec.ArraySequences
import Verif.Proofs.ArraySequences
import Verif.Props.ArraySequences
import Verif.Spec.Circuits
import Verif.Proofs.Circuits
import Verif.Props.Circuits
import Verif.Spec.Undo
import Verif.Proofs.Undo
import Verif.Props.Undo
import Verif.Model.ArrayLimits
import Verif.Proofs.ArrayLimits
import Verif.Props.ArrayLimits
import Verif.Spec.TimeUnit
import Verif.Proofs.TimeUnit
import Verif.Proofs.TimeUnitAccess
import Verif.Props.TimeUnit
import Verif.Spec.DriftingCircuits
import Verif.Proofs.DriftingCircuits
import Verif.Props.DriftingCircuits
import Verif.Model.ArrayGaussian
import Verif.Proofs.ArrayGaussian
import Verif.Props.ArrayGaussian
import Verif.Spec.RandomNoise
import Verif.Proofs.RandomNoise
import Verif.Props.RandomNoise
import Verif.Model.ArrayCounts
import Verif.Spec.ArrayCounts
import Verif.Proofs.ArrayCounts
import Verif.Props.ArrayCounts
import Verif.Proofs.NoiseMeasurable
import Verif.Proofs.RandomControls
import Verif.Props.RandomControls
import Verif.Model.ValuesLists
import Verif.Spec.ValuesLists
import Verif.Proofs.ValuesLists
import Verif.Props.ValuesLists
import Verif.Proofs.MirroredNoise
import Verif.Props.MirroredNoise
import Verif.Spec.SymmetricControls
import Verif.Proofs.SymmetricControls
import Verif.Props.SymmetricControls
import Verif.Model.ArrayConversion
import Verif.Spec.ArrayConversion
import Verif.Proofs.ArrayConversion
import Verif.Props.ArrayConversion
import Verif.Proofs.GaussianDetuned
import Verif.Props.GaussianDetuned
import Verif.Model.ListCalls
import Verif.Spec.ListCalls
import Verif.Proofs.ListCalls
import Verif.Props.ListCalls
import Verif.Proofs.GaussianAlias
import Verif.Props.GaussianAlias
