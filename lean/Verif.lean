import Verif.Lemmas.AlmostSure
import Verif.Lemmas.AlmostSureDiv
import Verif.Lemmas.AlmostSureIid
import Verif.Lemmas.Bias
import Verif.Lemmas.Bias2
import Verif.Lemmas.Bias3
import Verif.Lemmas.Bias4
import Verif.Lemmas.Bias5
import Verif.Lemmas.BiasMI
import Verif.Lemmas.BiasMIVec
import Verif.Lemmas.BiasMIVec2
import Verif.Lemmas.BiasMIVecGen
import Verif.Lemmas.Close
import Verif.Lemmas.Close2
import Verif.Lemmas.Close3
import Verif.Lemmas.Close4
import Verif.Lemmas.Cond
import Verif.Lemmas.Ctor
import Verif.Lemmas.CtorTable
import Verif.Lemmas.Digamma
import Verif.Lemmas.Divergence
import Verif.Lemmas.EndToEnd
import Verif.Lemmas.EndToEndBase
import Verif.Lemmas.EndToEndCMI
import Verif.Lemmas.EndToEndCTE
import Verif.Lemmas.EndToEndDiv
import Verif.Lemmas.EndToEndEntropy
import Verif.Lemmas.EndToEndIdent
import Verif.Lemmas.EndToEndIdent2
import Verif.Lemmas.EndToEndLocal
import Verif.Lemmas.EndToEndMI
import Verif.Lemmas.EndToEndSym
import Verif.Lemmas.EndToEndSymbols
import Verif.Lemmas.EndToEndTE
import Verif.Lemmas.EndToEndTest
import Verif.Lemmas.EndToEndTest2
import Verif.Lemmas.EndToEndTest3
import Verif.Lemmas.EndToEndTest4
import Verif.Lemmas.EndToEndTest5
import Verif.Lemmas.EndToEndTest6
import Verif.Lemmas.EndToEndTest7
import Verif.Lemmas.EndToEndTest8
import Verif.Lemmas.EndToEndVec
import Verif.Lemmas.EndToEndVecGen
import Verif.Lemmas.Entropy
import Verif.Lemmas.Equality
import Verif.Lemmas.EqualityJsd
import Verif.Lemmas.ExpFamily
import Verif.Lemmas.ExpMI
import Verif.Lemmas.ExpectedBias
import Verif.Lemmas.Gauss
import Verif.Lemmas.Gauss2
import Verif.Lemmas.Gauss3
import Verif.Lemmas.GaussExample
import Verif.Lemmas.Generic
import Verif.Lemmas.Info
import Verif.Lemmas.Interaction
import Verif.Lemmas.Kernel
import Verif.Lemmas.Kernel2
import Verif.Lemmas.KernelCMI
import Verif.Lemmas.Knn
import Verif.Lemmas.Knn2
import Verif.Lemmas.Knn3
import Verif.Lemmas.Lehmer
import Verif.Lemmas.MI2
import Verif.Lemmas.MIn
import Verif.Lemmas.Mutual
import Verif.Lemmas.Nsb
import Verif.Lemmas.Numbers
import Verif.Lemmas.NumbersPar
import Verif.Lemmas.Ordinal
import Verif.Lemmas.Ordinal2
import Verif.Lemmas.Ordinal3
import Verif.Lemmas.OrdinalDiv
import Verif.Lemmas.Rescale
import Verif.Lemmas.Robust
import Verif.Lemmas.Samples
import Verif.Lemmas.StatTest
import Verif.Lemmas.TE
import Verif.Lemmas.TE2
import Verif.Lemmas.TE3
import Verif.Lemmas.Units
import Verif.Lemmas.VecTE
import Verif.Lemmas.WhiteNoise
import Verif.Lemmas.Zhang
import Verif.Model.Base
import Verif.Model.BiasCorrected
import Verif.Model.BiasMI
import Verif.Model.BiasMIVec
import Verif.Model.Config
import Verif.Model.Ctor
import Verif.Model.Data
import Verif.Model.Dispatch
import Verif.Model.Divergence
import Verif.Model.Divergence2
import Verif.Model.EndToEnd
import Verif.Model.EndToEndDiv
import Verif.Model.EndToEndEffective
import Verif.Model.EndToEndLocal
import Verif.Model.EndToEndSymbols
import Verif.Model.EndToEndTest
import Verif.Model.EndToEndVec
import Verif.Model.Entropy
import Verif.Model.ExpMI
import Verif.Model.FromCounts
import Verif.Model.Gauss
import Verif.Model.Interaction
import Verif.Model.Kernel
import Verif.Model.Knn
import Verif.Model.Lifecycle
import Verif.Model.LogLevel
import Verif.Model.MI
import Verif.Model.Nsb
import Verif.Model.Ordinal
import Verif.Model.OrdinalExtra
import Verif.Model.OrdinalMI
import Verif.Model.Percentile
import Verif.Model.TE
import Verif.Model.VecTE
import Verif.Np
import Verif.Props.AlmostSure
import Verif.Props.AlmostSureDiv
import Verif.Props.AlmostSureDivBayes
import Verif.Props.AlmostSureDivOrd
import Verif.Props.AlmostSureEx
import Verif.Props.AlmostSureIid
import Verif.Props.BaseChange
import Verif.Props.BaseChange2
import Verif.Props.BaseChange3
import Verif.Props.Bias
import Verif.Props.Bias2
import Verif.Props.Bias3
import Verif.Props.BiasMI
import Verif.Props.BiasMI2
import Verif.Props.BiasMI3
import Verif.Props.CMI
import Verif.Props.Complete
import Verif.Props.CondTE
import Verif.Props.CondTE2
import Verif.Props.Config
import Verif.Props.Consistency
import Verif.Props.CteZero
import Verif.Props.Ctor
import Verif.Props.Data
import Verif.Props.Dispatch
import Verif.Props.Dispatch2
import Verif.Props.Dispatch3
import Verif.Props.Divergence
import Verif.Props.DivergenceBayes
import Verif.Props.DivergenceMM
import Verif.Props.EndToEnd
import Verif.Props.EndToEnd2
import Verif.Props.EndToEnd3
import Verif.Props.EndToEnd4
import Verif.Props.EndToEnd5
import Verif.Props.EndToEnd6
import Verif.Props.EndToEndAsked
import Verif.Props.EndToEndAskedEx
import Verif.Props.EndToEndBase
import Verif.Props.EndToEndBaseEx
import Verif.Props.EndToEndDiv
import Verif.Props.EndToEndDivEx
import Verif.Props.EndToEndEffective
import Verif.Props.EndToEndEffectiveEx
import Verif.Props.EndToEndEx
import Verif.Props.EndToEndIdent
import Verif.Props.EndToEndIdent2
import Verif.Props.EndToEndIdent3
import Verif.Props.EndToEndIdentEx
import Verif.Props.EndToEndLocal
import Verif.Props.EndToEndLocal2
import Verif.Props.EndToEndLocalEx
import Verif.Props.EndToEndNoise
import Verif.Props.EndToEndNoise2
import Verif.Props.EndToEndNoiseEx
import Verif.Props.EndToEndNormalize
import Verif.Props.EndToEndSym
import Verif.Props.EndToEndSym2
import Verif.Props.EndToEndSym3
import Verif.Props.EndToEndSymEx
import Verif.Props.EndToEndSymbols
import Verif.Props.EndToEndSymbols2
import Verif.Props.EndToEndSymbolsEx
import Verif.Props.EndToEndTest
import Verif.Props.EndToEndTest2
import Verif.Props.EndToEndTestEx
import Verif.Props.EndToEndUnits
import Verif.Props.EndToEndUnits2
import Verif.Props.EndToEndUnits3
import Verif.Props.EndToEndUnits4
import Verif.Props.EndToEndUnitsEx
import Verif.Props.EndToEndVec
import Verif.Props.EndToEndVec2
import Verif.Props.EndToEndVec3
import Verif.Props.EndToEndVec4
import Verif.Props.EndToEndVecEx
import Verif.Props.EndToEndVecEx2
import Verif.Props.Entropy
import Verif.Props.Equality
import Verif.Props.ExpMI
import Verif.Props.ExpMI2
import Verif.Props.ExpMI3
import Verif.Props.ExpectedBias
import Verif.Props.ExpectedBiasCte
import Verif.Props.ExpectedBiasEx
import Verif.Props.FalseAlarm
import Verif.Props.FiniteNoise
import Verif.Props.FromCounts
import Verif.Props.Gauss
import Verif.Props.Gauss10
import Verif.Props.Gauss11
import Verif.Props.Gauss2
import Verif.Props.Gauss3
import Verif.Props.Gauss4
import Verif.Props.Gauss5
import Verif.Props.Gauss6
import Verif.Props.Gauss7
import Verif.Props.Gauss8
import Verif.Props.Gauss9
import Verif.Props.Inequalities
import Verif.Props.Inequalities2
import Verif.Props.Inequalities3
import Verif.Props.Joint
import Verif.Props.Kernel
import Verif.Props.Kernel2
import Verif.Props.Kernel3
import Verif.Props.KernelCMI
import Verif.Props.KernelDiv
import Verif.Props.KernelDiv2
import Verif.Props.KernelDiv3
import Verif.Props.KernelDiv4
import Verif.Props.KernelMI
import Verif.Props.KernelMI2
import Verif.Props.KernelTE
import Verif.Props.KlEntropy
import Verif.Props.KlEntropy2
import Verif.Props.Ksg
import Verif.Props.Ksg2
import Verif.Props.Ksg3
import Verif.Props.KsgCMI2
import Verif.Props.KsgTE
import Verif.Props.KsgTE2
import Verif.Props.Lifecycle
import Verif.Props.LogLevel
import Verif.Props.MI
import Verif.Props.MIArgs
import Verif.Props.Matrices
import Verif.Props.Noise
import Verif.Props.Normalize
import Verif.Props.Nsb
import Verif.Props.Nsb2
import Verif.Props.Nsb3
import Verif.Props.Numbers
import Verif.Props.NumbersEx
import Verif.Props.NumbersLit
import Verif.Props.NumbersPar
import Verif.Props.Offset
import Verif.Props.Ordinal
import Verif.Props.Ordinal2
import Verif.Props.OrdinalArgs
import Verif.Props.OrdinalDiv
import Verif.Props.OrdinalDiv2
import Verif.Props.OrdinalExtra
import Verif.Props.OrdinalMI
import Verif.Props.OrdinalMI2
import Verif.Props.OrdinalTE
import Verif.Props.OrdinalTE2
import Verif.Props.PValue
import Verif.Props.Paths
import Verif.Props.PathsBias
import Verif.Props.Percentile
import Verif.Props.PercentileExact
import Verif.Props.RenyiTsallis
import Verif.Props.RenyiTsallis2
import Verif.Props.RenyiTsallis3
import Verif.Props.Reversal
import Verif.Props.ReversalEx
import Verif.Props.Robust
import Verif.Props.RobustCte
import Verif.Props.RobustEx
import Verif.Props.StatTest
import Verif.Props.StatTest2
import Verif.Props.StatTest3
import Verif.Props.StatTest4
import Verif.Props.TE
import Verif.Props.TE2
import Verif.Props.TE3
import Verif.Props.TEArgs
import Verif.Props.VecTE
import Verif.Props.VecTE2
import Verif.Props.VecTE3
import Verif.Props.VecTE4
import Verif.Props.Volume
import Verif.Props.WhiteNoise
import Verif.Props.WhiteNoiseCmi
import Verif.Props.WhiteNoiseEx
import Verif.Props.WhiteNoiseTE
import Verif.Spec.AlmostSure
import Verif.Spec.AlmostSureDiv
import Verif.Spec.Bias
import Verif.Spec.BiasInfo
import Verif.Spec.Consistency
import Verif.Spec.Ctor
import Verif.Spec.Divergence
import Verif.Spec.Embedding
import Verif.Spec.EndToEnd
import Verif.Spec.EndToEndBase
import Verif.Spec.EndToEndIdent
import Verif.Spec.EndToEndLocal
import Verif.Spec.EndToEndNoise
import Verif.Spec.EndToEndSym
import Verif.Spec.EndToEndSymbols
import Verif.Spec.EndToEndTest
import Verif.Spec.EndToEndVec
import Verif.Spec.Gauss
import Verif.Spec.Independence
import Verif.Spec.Info
import Verif.Spec.Kernel
import Verif.Spec.Knn
import Verif.Spec.Names
import Verif.Spec.NoiseLaw
import Verif.Spec.Nsb
import Verif.Spec.Numbers
import Verif.Spec.Ordinal
import Verif.Spec.Reversal
import Verif.Spec.Robust
import Verif.Spec.WhiteNoise
