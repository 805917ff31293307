import Verif.Props.AbaqusLinks
import Verif.Props.AbaqusLinksBack
import Verif.Props.AbaqusLinksCases
import Verif.Props.AbaqusLinksConvert
import Verif.Props.CompositeParameters
import Verif.Props.CompositeParametersCases
import Verif.Props.ConeReturn
import Verif.Props.ConeReturnCases
import Verif.Props.ConsistentTangent
import Verif.Props.ConsistentTangentDP
import Verif.Props.ConsistentTangentMixed
import Verif.Props.ConsistentTangentVMAP
import Verif.Props.ConvergenceData
import Verif.Props.ConvergenceDataCases
import Verif.Props.ConvergenceParameters
import Verif.Props.ConvergencePaths
import Verif.Props.ConvexBoundary
import Verif.Props.ConvexityMapping
import Verif.Props.DPUnits
import Verif.Props.Dataset
import Verif.Props.DatasetFeatures
import Verif.Props.Denoise
import Verif.Props.Devices
import Verif.Props.DirichletSets
import Verif.Props.Dissipation
import Verif.Props.DruckerPrager
import Verif.Props.DruckerPragerVMAP
import Verif.Props.Elastic
import Verif.Props.ElasticElement
import Verif.Props.ElementCheck
import Verif.Props.Elements
import Verif.Props.FinderForward
import Verif.Props.FinderForwardCases
import Verif.Props.FinderObject
import Verif.Props.FinderTraining
import Verif.Props.FinderTrainingCases
import Verif.Props.FiniteElementTables
import Verif.Props.FitScalers
import Verif.Props.ForceEquilibrium
import Verif.Props.FrameForces
import Verif.Props.Gradients
import Verif.Props.GroupedBars
import Verif.Props.Gru
import Verif.Props.Hardening
import Verif.Props.Hybrid
import Verif.Props.HybridInit
import Verif.Props.HybridLayers
import Verif.Props.HybridSetup
import Verif.Props.InternalForces
import Verif.Props.Iostandard
import Verif.Props.Kelvin
import Verif.Props.KelvinMore
import Verif.Props.LawComparison
import Verif.Props.LearnableParameters
import Verif.Props.LinksFile
import Verif.Props.LinksFileCases
import Verif.Props.LinksOutput
import Verif.Props.LinksOutputCases
import Verif.Props.LinksRun
import Verif.Props.LinksRunCases
import Verif.Props.LmuData
import Verif.Props.LmuDataCases
import Verif.Props.LmuParameters
import Verif.Props.LmuUpdate
import Verif.Props.LoadIncrements
import Verif.Props.LoadIncrementsRead
import Verif.Props.Loss
import Verif.Props.LouApex
import Verif.Props.LouJacobian
import Verif.Props.LouNewton
import Verif.Props.LouNumerical
import Verif.Props.LouObjectivity
import Verif.Props.LouStress
import Verif.Props.LouUnits
import Verif.Props.LouUpdate
import Verif.Props.LouVMAP
import Verif.Props.LouVonMises
import Verif.Props.LowPass
import Verif.Props.MeanMetrics
import Verif.Props.MeanMetricsCases
import Verif.Props.MeanMetricsFile
import Verif.Props.Mesh
import Verif.Props.MeshRemoval
import Verif.Props.MixedReturn
import Verif.Props.ModelInit
import Verif.Props.ModelScripts
import Verif.Props.ModelState
import Verif.Props.Noise
import Verif.Props.NoiseConvergence
import Verif.Props.NoiselessDataset
import Verif.Props.NoisyDataset
import Verif.Props.NoisyDatasetCases
import Verif.Props.NoisyHistory
import Verif.Props.NoisyHistoryCases
import Verif.Props.NumberFormat
import Verif.Props.NumberFormatCases
import Verif.Props.Objectivity
import Verif.Props.OptimizationPlot
import Verif.Props.ParameterDict
import Verif.Props.ParameterSurfaces
import Verif.Props.PatchAnalysis
import Verif.Props.PatchCorners
import Verif.Props.PatchEdges
import Verif.Props.PatchGenerate
import Verif.Props.PatchQueries
import Verif.Props.PatchRuns
import Verif.Props.PatchRunsCases
import Verif.Props.PatchRunsFaults
import Verif.Props.PatchSolid
import Verif.Props.PatchSolidCases
import Verif.Props.PatchSolidEdges
import Verif.Props.PatchSolidNodes
import Verif.Props.PatchTest
import Verif.Props.PlaneStrain
import Verif.Props.Prediction
import Verif.Props.PredictionComparison
import Verif.Props.PredictionData
import Verif.Props.PredictionDataCases
import Verif.Props.Proportional
import Verif.Props.Pruning
import Verif.Props.PruningCases
import Verif.Props.PruningCompletes
import Verif.Props.PruningPreview
import Verif.Props.PruningRun
import Verif.Props.ReactionHistory
import Verif.Props.RecurrentForward
import Verif.Props.RecurrentForwardCases
import Verif.Props.RecurrentInit
import Verif.Props.ReferencePaths
import Verif.Props.ResponseDataset
import Verif.Props.ResponseFiles
import Verif.Props.ReturnMapping
import Verif.Props.ReturnMappingCases
import Verif.Props.ReturnMappingTables
import Verif.Props.SampleFiles
import Verif.Props.SampleFilesCases
import Verif.Props.Scalers
import Verif.Props.ScatterPlot
import Verif.Props.SeriesPlot
import Verif.Props.SpecimenDirichlet
import Verif.Props.SpecimenDirichletCases
import Verif.Props.SpecimenDirichletFile
import Verif.Props.SpecimenHistory
import Verif.Props.SpecimenHistoryCases
import Verif.Props.SpecimenMesh
import Verif.Props.SpecimenMeshCases
import Verif.Props.SpecimenPlots
import Verif.Props.SpecimenSetters
import Verif.Props.SpecimenWork
import Verif.Props.Stability
import Verif.Props.StabilityCone
import Verif.Props.State2D3D
import Verif.Props.StatePlot
import Verif.Props.StrainPath
import Verif.Props.StressFeatures
import Verif.Props.StressSpace
import Verif.Props.StressSpaceCases
import Verif.Props.StructureState
import Verif.Props.StructuredMesh
import Verif.Props.TangentForm
import Verif.Props.Tensorops
import Verif.Props.TimeSeriesBatch
import Verif.Props.Training
import Verif.Props.TrainingRecords
import Verif.Props.TrainingState
import Verif.Props.TruthPlot
import Verif.Props.TypeConversion
import Verif.Props.UncertaintyPaths
import Verif.Props.UncertaintyRuns
import Verif.Props.UniaxialPath
import Verif.Props.UniaxialPathCases
import Verif.Props.Uniqueness
import Verif.Props.Units
import Verif.Props.Voigt
import Verif.Props.VolumetricBar
import Verif.Props.VonMises
import Verif.Props.VonMisesMixed
import Verif.Props.VonMisesMixedVMAP
import Verif.Props.VonMisesVMAP
import Verif.Props.YieldConvexity
import Verif.Props.YieldSurface
import Verif.Axioms
