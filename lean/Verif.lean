import Verif.Props.CrossSection
import Verif.Props.CrossSectionExact
import Verif.Props.Darboux
import Verif.Props.QuadPartition
import Verif.Props.KleinNishina
import Verif.Props.Grid
import Verif.Props.Resonance
import Verif.Props.State
import Verif.Props.Shapes
import Verif.Props.PseudoVoigt
import Verif.Props.Voigt
import Verif.Props.Debye
import Verif.Props.Heap
import Verif.Props.Xrmac
import Verif.Props.XrmacReader
import Verif.Props.Elements
import Verif.Props.NaturalElements
import Verif.Props.XrmacModule
import Verif.Props.Compton
import Verif.Props.Doppler
import Verif.Props.Rounded
import Verif.Props.Coverage
import Verif.Props.GridVoigt
import Verif.Props.RoundedKN
import Verif.Props.ComptonRange
import Verif.Props.DarbouxConv
import Verif.Props.EnergyGrid
import Verif.Props.Inputs
import Verif.Props.RoundedGrid
import Verif.Props.RoundedReso
import Verif.Lemmas.VoigtLimits
import Verif.Props.VoigtLimits
import Verif.Lemmas.XrmacCont
import Verif.Props.XrmacCont
import Verif.Model.DebyeArray
import Verif.Props.DebyeArray
import Verif.Props.GridExpr
import Verif.Model.Notebooks
import Verif.Props.Attenuation
import Verif.Lemmas.SelfAbsorption
import Verif.Props.SelfAbsorption
import Verif.Lemmas.DebyeExpansion
import Verif.Props.DebyeExpansion
import Verif.Validation
import Verif.Lemmas.KNLimits
import Verif.Props.KNLimits
import Verif.Model.Arrays
import Verif.Spec.Arrays
import Verif.Lemmas.Arrays
import Verif.Lemmas.ArrayClasses
import Verif.Props.Arrays
import Verif.Model.RoundedProbGrid
import Verif.Lemmas.RnIdem
import Verif.Lemmas.RoundedProbGrid
import Verif.Props.RoundedProbGrid
import Verif.Model.RoundedTheta
import Verif.Lemmas.RnEval
import Verif.Props.RoundedTheta
import Verif.Model.Isotope
import Verif.Props.Isotope
import Verif.Spec.SumTree
import Verif.Props.RoundedDarboux
import Verif.Model.RoundedXrmac
import Verif.Spec.RoundedXrmac
import Verif.Lemmas.RoundedXrmac
import Verif.Lemmas.ShippedXrmacSep
import Verif.Lemmas.RoundedXrmacShipped
import Verif.Props.RoundedXrmac
import Verif.Model.KNArrays
import Verif.Spec.KNArrays
import Verif.Lemmas.KNArrays
import Verif.Props.KNArrays
import Verif.Model.RoundedNewton
import Verif.Lemmas.RoundedNewton
import Verif.Props.RoundedNewton
import Verif.Model.Constants
import Verif.Spec.Constants
import Verif.Props.Constants
import Verif.Model.Package
import Verif.Props.Package
import Verif.Model.Docs
import Verif.Props.Docs
import Verif.Model.Edits
import Verif.Props.Edits
import Verif.Model.RoundedPV
import Verif.Spec.RoundedPV
import Verif.Lemmas.RoundedPV
import Verif.Lemmas.RoundedPVErr
import Verif.Props.RoundedPV
import Verif.Lemmas.VoigtDeviation
import Verif.Props.VoigtDeviation
import Verif.Props.SmallGrids
import Verif.Props.DarbouxTrue
import Verif.Model.Signatures
import Verif.Props.Signatures
import Verif.Props.QuadShapes
import Verif.Model.Beam
import Verif.Props.Beam
import Verif.Props.ReversedLimits
import Verif.Props.ResonanceSum
import Verif.Props.RefinedGrids
import Verif.Props.SelfAbsorptionBounds
import Verif.Model.RoundedThermal
import Verif.Props.RoundedThermal
import Verif.Props.ExactConditions
import Verif.Model.MonteCarlo
import Verif.Props.MonteCarlo
import Verif.Model.EditsReso
import Verif.Props.EditsReso
import Verif.Props.RoundedXrmacOutside
import Verif.Spec.DocFormulas
import Verif.Props.DocFormulas
import Verif.Model.LimitTypes
import Verif.Props.LimitTypes
import Verif.Lemmas.SumConv
import Verif.Props.SumConv
import Verif.Lemmas.Simplex
import Verif.Props.Simplex
import Verif.Props.LayerRates
import Verif.Props.DocNames
import Verif.Props.LayerNotebook
import Verif.Props.DarbouxUse
import Verif.Props.NonresonantGrid
import Verif.Spec.UserDist
import Verif.Props.UserDist
import Verif.Props.HeapLists
import Verif.Props.RoundedCoverage
import Verif.Props.SumGridSize
import Verif.Props.SumNone
import Verif.Lemmas.ExponentRange
import Verif.Lemmas.ExponentRangeKN
import Verif.Spec.ExponentRange
import Verif.Props.ExponentRange
import Verif.Lemmas.VoigtCdf
import Verif.Props.VoigtCoverage
import Verif.Props.DopplerSpread
import Verif.Props.HalfWidth
import Verif.Model.ArrayFactors
import Verif.Props.ArrayFactors
import Verif.Model.NdArrays
import Verif.Props.NdArrays
import Verif.Props.AbsorptionDensity
import Verif.Model.Programs
import Verif.Props.Programs
import Verif.Props.DarbouxArith
import Verif.Props.Scaling
import Verif.Lemmas.XrmacMono
import Verif.Lemmas.ShippedXrmacMono
import Verif.Props.XrmacEdges
import Verif.Props.ComptonAngles
import Verif.Model.DarbouxShapes
import Verif.Props.DarbouxShapes
import Verif.Lemmas.VoigtWings
import Verif.Props.Wings
import Verif.Model.ComptonSpectrum
import Verif.Props.ComptonSpectrum
import Verif.Props.LevelScheme
import Verif.Props.ThinTargets
import Verif.Model.Warnings
import Verif.Props.Warnings
import Verif.Props.Unitarity
import Verif.Props.Reciprocity
import Verif.Lemmas.KNBounds
import Verif.Lemmas.ShippedCompton
import Verif.Props.ComptonTables
import Verif.Props.ComptonGrowth
import Verif.Lemmas.KNGrowth
import Verif.Model.XrmacZero
import Verif.Lemmas.XrmacZero
import Verif.Props.XrmacZero
import Verif.Props.CoverageRange
import Verif.Props.AtomicWeights
import Verif.Model.RoundedDebye
import Verif.Spec.RoundedDebye
import Verif.Props.RoundedDebye
import Verif.Model.DebyeNd
import Verif.Props.DebyeNd
import Verif.Props.Conditioning
import Verif.Model.Unphysical
import Verif.Props.Unphysical
import Verif.Lemmas.ShippedXrmacEdges
import Verif.Props.XrmacPower
import Verif.Lemmas.ShippedHeavier
import Verif.Props.HeavierAtoms
import Verif.Props.QuadReso
import Verif.Lemmas.Tails
import Verif.Props.Windows
import Verif.Lemmas.NewtonNoisy
import Verif.Lemmas.NoisySearch
import Verif.Spec.FloatSearch
import Verif.Lemmas.NoisySearchPV
import Verif.Props.FloatSearch
import Verif.Props.PhysicalRange
import Verif.Model.RoundedPVGrid
import Verif.Lemmas.NoisyCentre
import Verif.Lemmas.RoundedPVGrid
import Verif.Props.FloatQuantiles
import Verif.Props.FloatPVGrid
import Verif.Model.RoundedIntegral
import Verif.Lemmas.RoundedIntegral
import Verif.Lemmas.ScaledGrid
import Verif.Props.FloatIntegral
import Verif.Model.DarbouxAxes
import Verif.Props.DarbouxAxes
import Verif.Props.FloatPVIntegral
import Verif.Model.RoundedSumGrid
import Verif.Spec.FloatSum
import Verif.Lemmas.RoundedSum
import Verif.Lemmas.PreparedGrid
import Verif.Props.FloatSum
import Verif.Props.FloatSumParts
import Verif.Model.RoundedVoigt
import Verif.Spec.FloatVoigt
import Verif.Props.FloatVoigt
import Verif.Lemmas.ShippedXrmacSlope
import Verif.Lemmas.RoundedXrmacValue
import Verif.Props.FloatTable
import Verif.Model.RoundedFlux
import Verif.Spec.RoundedFlux
import Verif.Lemmas.RoundedFlux
import Verif.Props.FloatFlux
import Verif.Model.RoundedSelfAbs
import Verif.Spec.Quadrature
import Verif.Props.FloatSelfAbs
import Verif.Props.FloatTransmission
import Verif.Lemmas.ThickTargets
import Verif.Props.WidthAmbiguity
import Verif.Props.InversionAccuracy
import Verif.Spec.ExponentRangePV
import Verif.Lemmas.ExponentRangePV
import Verif.Props.ExponentRangePV
import Verif.Model.RoundedComptonAngles
import Verif.Spec.RoundedComptonAngles
import Verif.Lemmas.RoundedComptonAngles
import Verif.Lemmas.RoundedComptonEnergies
import Verif.Props.RoundedComptonAngles
import Verif.Props.ComptonRoundTrip
import Verif.Spec.ComptonQuadrature
import Verif.Props.ComptonQuadrature
import Verif.Spec.NarrowPeaks
import Verif.Lemmas.NarrowPeaks
import Verif.Props.NarrowPeaks
import Verif.Spec.ExponentRangeCompton
import Verif.Lemmas.ExponentRangeCompton
import Verif.Props.ExponentRangeCompton
import Verif.Lemmas.ExponentRangeComptonEnergy
import Verif.Props.ExponentRangeComptonEnergy
import Verif.Model.RoundedVoigtValue
import Verif.Spec.RoundedVoigtValue
import Verif.Lemmas.VoigtRelative
import Verif.Props.RoundedVoigtValue
import Verif.Props.FloatTransmissionVoigt
import Verif.Spec.ExponentRangeVoigt
import Verif.Props.ExponentRangeVoigt
import Verif.Props.ConditioningWings
import Verif.Props.RoundedVoigtDensity
import Verif.Lemmas.RoundedExcited
import Verif.Props.RoundedExcited
import Verif.Props.RoundedExcitedGauss
import Verif.Props.RoundedGaussUniform
import Verif.Props.FloatTransmissionGauss
import Verif.Model.RoundedCentred
import Verif.Props.RoundedCentred
import Verif.Props.RoundedCentredGauss
