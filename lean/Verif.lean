import Verif.Lemmas.AABB
import Verif.Lemmas.BinaryForms
import Verif.Lemmas.BondLoop
import Verif.Lemmas.BondOrder
import Verif.Lemmas.Box
import Verif.Lemmas.BoxArrays
import Verif.Lemmas.CellGeom
import Verif.Lemmas.CellIter
import Verif.Lemmas.CellQuery
import Verif.Lemmas.CellSort
import Verif.Lemmas.Coordination
import Verif.Lemmas.Crystal
import Verif.Lemmas.CrystalChains
import Verif.Lemmas.Cubatic
import Verif.Lemmas.DSet
import Verif.Lemmas.DSetTerm
import Verif.Lemmas.Debye
import Verif.Lemmas.Diffraction
import Verif.Lemmas.EnvCluster
import Verif.Lemmas.EnvDJ
import Verif.Lemmas.EnvPopulate
import Verif.Lemmas.Filter
import Verif.Lemmas.FilterCrystals
import Verif.Lemmas.FilterShells
import Verif.Lemmas.HistCompute
import Verif.Lemmas.KPoints
import Verif.Lemmas.Legendre
import Verif.Lemmas.LinkCell
import Verif.Lemmas.LinkCellNear
import Verif.Lemmas.LocalDescriptors
import Verif.Lemmas.MSD
import Verif.Lemmas.Marginals
import Verif.Lemmas.MatchEnv
import Verif.Lemmas.MotifMatch
import Verif.Lemmas.Nearest
import Verif.Lemmas.NearestCopies
import Verif.Lemmas.Nematic
import Verif.Lemmas.PMFT
import Verif.Lemmas.Periodic
import Verif.Lemmas.PeriodicBuffer
import Verif.Lemmas.Quat
import Verif.Lemmas.Refine
import Verif.Lemmas.Registration
import Verif.Lemmas.Repeat
import Verif.Lemmas.RotAutocorr
import Verif.Lemmas.Rounding
import Verif.Lemmas.RoundingBox
import Verif.Lemmas.Sphere
import Verif.Lemmas.SphericalHarmonics
import Verif.Lemmas.Steinhardt
import Verif.Lemmas.SteinhardtSeveral
import Verif.Lemmas.SteinhardtTurn
import Verif.Lemmas.SteinhardtWl
import Verif.Lemmas.Storage
import Verif.Lemmas.Voronoi
import Verif.Lemmas.VoronoiDiagram
import Verif.Lemmas.VoronoiNearest
import Verif.Lemmas.VoronoiScaled
import Verif.Lemmas.VoronoiTurned
import Verif.Lemmas.VoronoiVolume
import Verif.Lemmas.Voxel
import Verif.Lemmas.Wigner
import Verif.Lemmas.WignerCheck
import Verif.Lemmas.WignerNorm
import Verif.Lemmas.WignerNormCheck
import Verif.Model.AABB
import Verif.Model.AngularSeparation
import Verif.Model.BallQuery
import Verif.Model.BiMap
import Verif.Model.BondLoop
import Verif.Model.BondOrder
import Verif.Model.Bounds
import Verif.Model.Box
import Verif.Model.BoxArrays
import Verif.Model.BoxForms
import Verif.Model.BoxOps
import Verif.Model.BoxReal
import Verif.Model.CellQuery
import Verif.Model.CellShell
import Verif.Model.Cluster
import Verif.Model.ClusterProps
import Verif.Model.Compute
import Verif.Model.Coordination
import Verif.Model.CorrelationFunction
import Verif.Model.Cubatic
import Verif.Model.DSet
import Verif.Model.Diffraction
import Verif.Model.Filter
import Verif.Model.FilterInput
import Verif.Model.FilterRADArgs
import Verif.Model.GridArgs
import Verif.Model.Hexatic
import Verif.Model.HistCompute
import Verif.Model.Histogram
import Verif.Model.Interface
import Verif.Model.KPoints
import Verif.Model.LinkCell
import Verif.Model.LocalBondProjection
import Verif.Model.LocalDensity
import Verif.Model.LocalDescriptors
import Verif.Model.MArray
import Verif.Model.MSD
import Verif.Model.MatchEnv
import Verif.Model.NamedCells
import Verif.Model.NearestQuery
import Verif.Model.NeighborList
import Verif.Model.NeighborListStore
import Verif.Model.NeighborLoop
import Verif.Model.Nematic
import Verif.Model.PMFT
import Verif.Model.PMFTArgs
import Verif.Model.PairFrames
import Verif.Model.Parallel
import Verif.Model.PeriodicBuffer
import Verif.Model.Plot
import Verif.Model.Prune
import Verif.Model.Quat
import Verif.Model.QueryArgs
import Verif.Model.RDF
import Verif.Model.Registration
import Verif.Model.RotAutocorr
import Verif.Model.Rounding
import Verif.Model.RoundingQuery
import Verif.Model.SavedArrays
import Verif.Model.Schedule
import Verif.Model.SolidLiquid
import Verif.Model.SolidLiquidRun
import Verif.Model.Sources
import Verif.Model.SourcesNearest
import Verif.Model.Steinhardt
import Verif.Model.SteinhardtSeveral
import Verif.Model.StructureFactor
import Verif.Model.SystemForm
import Verif.Model.UnitCell
import Verif.Model.Vec3
import Verif.Model.Voronoi
import Verif.Model.VoronoiContainer
import Verif.Model.Voxel
import Verif.Model.WignerTable
import Verif.Props.AABBTree
import Verif.Props.AngularSeparation
import Verif.Props.BallQuery
import Verif.Props.BiMap
import Verif.Props.BondOrder
import Verif.Props.Bounds
import Verif.Props.Box
import Verif.Props.BoxArrays
import Verif.Props.BoxCom
import Verif.Props.BoxConvert
import Verif.Props.BoxForms
import Verif.Props.BoxMinImage
import Verif.Props.BoxOps
import Verif.Props.Bragg
import Verif.Props.BufferCover
import Verif.Props.CellQuery
import Verif.Props.CellShell
import Verif.Props.Cells
import Verif.Props.CellsOrder
import Verif.Props.Cluster
import Verif.Props.ClusterProps
import Verif.Props.ClusterShape
import Verif.Props.Compute
import Verif.Props.Coordination
import Verif.Props.CorrelationFunction
import Verif.Props.CrystalOrder
import Verif.Props.CrystalRDF
import Verif.Props.Cubatic
import Verif.Props.DSet
import Verif.Props.Debye
import Verif.Props.DebyeAverage
import Verif.Props.Diffraction
import Verif.Props.Direct
import Verif.Props.EnvCluster
import Verif.Props.EnvCrystal
import Verif.Props.Exchange
import Verif.Props.Filter
import Verif.Props.FilterCrystals
import Verif.Props.FilterCutoff
import Verif.Props.FilterRADArgs
import Verif.Props.GridArgs
import Verif.Props.Harmonics
import Verif.Props.Hexatic
import Verif.Props.Histogram
import Verif.Props.Interface
import Verif.Props.KPoints
import Verif.Props.Kabsch
import Verif.Props.Linear
import Verif.Props.LinkCell
import Verif.Props.LinkCellNear
import Verif.Props.Local
import Verif.Props.LocalBondProjection
import Verif.Props.LocalDensity
import Verif.Props.LocalDescriptors
import Verif.Props.MArray
import Verif.Props.MSD
import Verif.Props.MSDSymmetry
import Verif.Props.Marginals
import Verif.Props.MatchEnv
import Verif.Props.Monotone
import Verif.Props.MotifMatch
import Verif.Props.MotifRmsd
import Verif.Props.NamedCells
import Verif.Props.Nearest
import Verif.Props.NearestCrystals
import Verif.Props.NearestShell
import Verif.Props.NeighborList
import Verif.Props.NeighborListPairs
import Verif.Props.NeighborListSort
import Verif.Props.NeighborListStore
import Verif.Props.NeighborLoop
import Verif.Props.Nematic
import Verif.Props.Orientation
import Verif.Props.PMFT
import Verif.Props.PMFTArgs
import Verif.Props.PairFrames
import Verif.Props.Parallel
import Verif.Props.Parts
import Verif.Props.PeriodicBuffer
import Verif.Props.Plot
import Verif.Props.Prune
import Verif.Props.Quat
import Verif.Props.QueryArgs
import Verif.Props.RDF
import Verif.Props.Refine
import Verif.Props.Registration
import Verif.Props.Renumber
import Verif.Props.RenumberSteinhardt
import Verif.Props.Repeat
import Verif.Props.RepeatCell
import Verif.Props.RepeatOrder
import Verif.Props.RotAutocorr
import Verif.Props.RoundingBins
import Verif.Props.RoundingBox
import Verif.Props.RoundingNeighbors
import Verif.Props.RoundingSums
import Verif.Props.SavedArrays
import Verif.Props.Scaling
import Verif.Props.Schedule
import Verif.Props.SolidLiquid
import Verif.Props.SolidLiquidRun
import Verif.Props.SolidPerfect
import Verif.Props.Sources
import Verif.Props.Steinhardt
import Verif.Props.SteinhardtPerfect
import Verif.Props.SteinhardtSeveral
import Verif.Props.SystemForm
import Verif.Props.UnitCell
import Verif.Props.Voronoi
import Verif.Props.VoronoiBcc
import Verif.Props.VoronoiCrystals
import Verif.Props.VoronoiDiagram
import Verif.Props.VoronoiLattice
import Verif.Props.VoronoiNearest
import Verif.Props.VoronoiOrder
import Verif.Props.VoronoiRepeat
import Verif.Props.VoronoiScaled
import Verif.Props.VoronoiSymmetry
import Verif.Props.VoronoiTurned
import Verif.Props.Voxel
import Verif.Spec.AllPeriodic
import Verif.Spec.BondOrder
import Verif.Spec.Bounds
import Verif.Spec.BoxArrays
import Verif.Spec.BufferCover
import Verif.Spec.Cells
import Verif.Spec.Coordination
import Verif.Spec.Copies
import Verif.Spec.CrystalOrder
import Verif.Spec.Cubatic
import Verif.Spec.Diffraction
import Verif.Spec.Exchange
import Verif.Spec.FilterCrystals
import Verif.Spec.FilterCutoff
import Verif.Spec.HistCompute
import Verif.Spec.Histogram
import Verif.Spec.Lattice
import Verif.Spec.Linear
import Verif.Spec.Local
import Verif.Spec.LocalDescriptors
import Verif.Spec.MSD
import Verif.Spec.Marginals
import Verif.Spec.NamedCells
import Verif.Spec.Nematic
import Verif.Spec.Orientation
import Verif.Spec.PMFT
import Verif.Spec.PMFTArgs
import Verif.Spec.PairFrames
import Verif.Spec.Parts
import Verif.Spec.Periodic
import Verif.Spec.Plot
import Verif.Spec.RDF
import Verif.Spec.Refine
import Verif.Spec.Renumber
import Verif.Spec.Repeat
import Verif.Spec.Rounding
import Verif.Spec.RoundingBins
import Verif.Spec.RoundingBox
import Verif.Spec.RoundingNeighbors
import Verif.Spec.SavedArrays
import Verif.Spec.Scaling
import Verif.Spec.SolidLiquid
import Verif.Spec.SolidPerfect
import Verif.Spec.Sources
import Verif.Spec.SphericalHarmonics
import Verif.Spec.Steinhardt
import Verif.Spec.SteinhardtPerfect
import Verif.Spec.SteinhardtSeveral
import Verif.Spec.SystemForm
import Verif.Spec.Voronoi
import Verif.Spec.VoronoiBcc
import Verif.Spec.VoronoiCrystals
import Verif.Spec.VoronoiDiagram
import Verif.Spec.VoronoiLattice
import Verif.Spec.VoronoiNearest
import Verif.Spec.VoronoiOrder
import Verif.Spec.VoronoiRepeat
import Verif.Spec.VoronoiScaled
import Verif.Spec.VoronoiSymmetry
import Verif.Spec.Voxel
import Verif.Spec.Wigner
