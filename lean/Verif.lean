import Verif.Lemmas.Binary64
import Verif.Lemmas.Choice
import Verif.Lemmas.ClipClosed
import Verif.Lemmas.Covariance
import Verif.Lemmas.Float
import Verif.Lemmas.FloatError
import Verif.Lemmas.FloatLogit
import Verif.Lemmas.Gradient
import Verif.Lemmas.Hessian
import Verif.Lemmas.LogLik
import Verif.Lemmas.Mappings
import Verif.Lemmas.Nested
import Verif.Lemmas.NestedGradient
import Verif.Lemmas.Normal
import Verif.Lemmas.Panel
import Verif.Lemmas.Resampling
import Verif.Lemmas.Separation
import Verif.Lemmas.Simulation
import Verif.Lemmas.Transforms
import Verif.Model.Basic
import Verif.Model.Boot
import Verif.Model.BootstrapAbc
import Verif.Model.BootstrapMle
import Verif.Model.Buffers
import Verif.Model.ChoiceCalcs
import Verif.Model.Construct
import Verif.Model.Conversion
import Verif.Model.ConversionWarnings
import Verif.Model.Design
import Verif.Model.Estimation
import Verif.Model.Estimators
import Verif.Model.Files
import Verif.Model.FitPredict
import Verif.Model.FitStore
import Verif.Model.Float
import Verif.Model.FloatMixed
import Verif.Model.FloatMnl
import Verif.Model.FloatNested
import Verif.Model.GradientNorms
import Verif.Model.Intervals
import Verif.Model.LongTable
import Verif.Model.Mappings
import Verif.Model.Mixed
import Verif.Model.MixedFit
import Verif.Model.NestSpec
import Verif.Model.Nested
import Verif.Model.NestedFit
import Verif.Model.ParamList
import Verif.Model.Params
import Verif.Model.Predict
import Verif.Model.Random
import Verif.Model.ReplicateLikes
import Verif.Model.Results
import Verif.Model.Sampler
import Verif.Model.Saving
import Verif.Model.Session
import Verif.Model.SharedKwargs
import Verif.Model.Summaries
import Verif.Model.Transforms
import Verif.Model.WholeBoot
import Verif.Model.WholeFit
import Verif.Model.WholeFitMixed
import Verif.Model.WholeFitNested
import Verif.Model.WholeFitTypes
import Verif.Props.AbcBook
import Verif.Props.AbcQuadratic
import Verif.Props.AsymRidge
import Verif.Props.Attained
import Verif.Props.Boot
import Verif.Props.BootGradient
import Verif.Props.BootUnits
import Verif.Props.BootstrapAbc
import Verif.Props.BootstrapMle
import Verif.Props.Buffers
import Verif.Props.Concavity
import Verif.Props.Construct
import Verif.Props.ConstructMore
import Verif.Props.ConversionWarnings
import Verif.Props.Definiteness
import Verif.Props.Design
import Verif.Props.Estimation
import Verif.Props.EstimationChecks
import Verif.Props.EstimationWitness
import Verif.Props.Estimators
import Verif.Props.EstimatorsMore
import Verif.Props.Existence
import Verif.Props.ExistenceClog
import Verif.Props.Files
import Verif.Props.Fisher
import Verif.Props.FitLogLik
import Verif.Props.FitPredict
import Verif.Props.FitStore
import Verif.Props.FitUnique
import Verif.Props.FitUnits
import Verif.Props.Float
import Verif.Props.FloatArith
import Verif.Props.FloatMixed
import Verif.Props.FloatMnl
import Verif.Props.FloatNested
import Verif.Props.FloatOrder
import Verif.Props.FloatOverflow
import Verif.Props.FloatSum
import Verif.Props.Gradient
import Verif.Props.GradientNorms
import Verif.Props.GradientNormsCases
import Verif.Props.Hessian
import Verif.Props.HessianBlocks
import Verif.Props.HessianWitness
import Verif.Props.Identification
import Verif.Props.Inference
import Verif.Props.IntervalScale
import Verif.Props.Intervals
import Verif.Props.Invariance
import Verif.Props.LeftOutAlternative
import Verif.Props.LeftOutCases
import Verif.Props.LeftOutPredict
import Verif.Props.LikelihoodRatio
import Verif.Props.LikelihoodRatioCases
import Verif.Props.LongToWide
import Verif.Props.Mappings
import Verif.Props.Mixed
import Verif.Props.MixedFit
import Verif.Props.Monotone
import Verif.Props.NestSpec
import Verif.Props.Nested
import Verif.Props.NestedFit
import Verif.Props.NullModel
import Verif.Props.Panel
import Verif.Props.ParamList
import Verif.Props.Params
import Verif.Props.PenalisedFits
import Verif.Props.Predict
import Verif.Props.PredictLocal
import Verif.Props.PredictMixed
import Verif.Props.PredictNested
import Verif.Props.PredictRelabel
import Verif.Props.PredictRelabelCases
import Verif.Props.Probabilities
import Verif.Props.Random
import Verif.Props.Recombine
import Verif.Props.RedundantCentred
import Verif.Props.RedundantVariables
import Verif.Props.ReferenceAlternative
import Verif.Props.ReferenceCases
import Verif.Props.ReferenceRidge
import Verif.Props.Renumber
import Verif.Props.RenumberBuild
import Verif.Props.RenumberCases
import Verif.Props.RenumberFit
import Verif.Props.RenumberFitCases
import Verif.Props.Reorder
import Verif.Props.ReplicateLikes
import Verif.Props.ReplicateSingle
import Verif.Props.ReplicateWidth
import Verif.Props.Resampling
import Verif.Props.Results
import Verif.Props.RoundTrip
import Verif.Props.Sampler
import Verif.Props.Saving
import Verif.Props.Scores
import Verif.Props.Separation
import Verif.Props.SeparationFits
import Verif.Props.Session
import Verif.Props.SharedKwargs
import Verif.Props.Shares
import Verif.Props.Simulation
import Verif.Props.SpecOrder
import Verif.Props.SpecOrderBuild
import Verif.Props.SpecOrderCases
import Verif.Props.SpecOrderFit
import Verif.Props.Summaries
import Verif.Props.Transforms
import Verif.Props.UnitsCases
import Verif.Props.UnitsRidge
import Verif.Props.WholeBoot
import Verif.Props.WholeBootAll
import Verif.Props.WholeBootNested
import Verif.Props.WholeBootRuns
import Verif.Props.WholeFit
import Verif.Props.WholeFitMixed
import Verif.Props.WholeFitNested
import Verif.Props.WholeFitTypes
import Verif.Props.WideFit
import Verif.Props.WideMixed
import Verif.Props.WideOrder
import Verif.Props.WideToLong
import Verif.Spec.Abc
import Verif.Spec.Boot
import Verif.Spec.BootUnits
import Verif.Spec.Bootstrap
import Verif.Spec.Buffers
import Verif.Spec.Choice
import Verif.Spec.Derivs
import Verif.Spec.Design
import Verif.Spec.FitPredict
import Verif.Spec.FitStore
import Verif.Spec.FitUnique
import Verif.Spec.Float
import Verif.Spec.FloatMnl
import Verif.Spec.LeftOut
import Verif.Spec.LikelihoodRatio
import Verif.Spec.Mixed
import Verif.Spec.MixedFit
import Verif.Spec.Nested
import Verif.Spec.Normal
import Verif.Spec.Optim
import Verif.Spec.ParamList
import Verif.Spec.Params
import Verif.Spec.Predict
import Verif.Spec.PredictLocal
import Verif.Spec.Random
import Verif.Spec.Recombine
import Verif.Spec.Reference
import Verif.Spec.Renumber
import Verif.Spec.Reorder
import Verif.Spec.ReplicateLikes
import Verif.Spec.Resampling
import Verif.Spec.Results
import Verif.Spec.Sampler
import Verif.Spec.Saving
import Verif.Spec.Separation
import Verif.Spec.Shares
import Verif.Spec.Simulation
import Verif.Spec.SpecOrder
import Verif.Spec.Summaries
import Verif.Spec.WholeBoot
import Verif.Spec.WholeFit
import Verif.Spec.WholeFitMixed
import Verif.Spec.WholeFitNested
import Verif.Spec.WholeFitTypes
import Verif.Spec.WideFit
