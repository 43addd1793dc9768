import Verif.Model.Cache
import Verif.Model.Calculate
import Verif.Model.CifBlocks
import Verif.Model.CifCompare
import Verif.Model.CifText
import Verif.Model.CliParse
import Verif.Model.CliTol
import Verif.Model.Compare
import Verif.Model.CompareFn
import Verif.Model.CompareTol
import Verif.Model.Constructors
import Verif.Model.EMD
import Verif.Model.EmdInt64
import Verif.Model.EqualMotif
import Verif.Model.GemmiBlock
import Verif.Model.IntegerK
import Verif.Model.IntegerN
import Verif.Model.Lattice
import Verif.Model.Minval
import Verif.Model.NearestNeighbors
import Verif.Model.NeighborsData
import Verif.Model.Objects
import Verif.Model.PPC
import Verif.Model.Pairwise
import Verif.Model.Reader
import Verif.Model.Reconstruct
import Verif.Model.Rounding
import Verif.Model.RoundingEmd
import Verif.Model.Sites
import Verif.Model.Threads
import Verif.Model.Tolerance
import Verif.Model.Utils
import Verif.Proof.AllSites
import Verif.Proof.Assembled
import Verif.Proof.Asymptotics
import Verif.Proof.Backends
import Verif.Proof.Cache
import Verif.Proof.Calculate
import Verif.Proof.CcdcReads
import Verif.Proof.CifBlocks
import Verif.Proof.CifCompare
import Verif.Proof.CifInputs
import Verif.Proof.CifText
import Verif.Proof.CliParse
import Verif.Proof.CliTol
import Verif.Proof.Collapse
import Verif.Proof.CollapseEmd
import Verif.Proof.CompareFn
import Verif.Proof.CompareTol
import Verif.Proof.Compared
import Verif.Proof.Coupling
import Verif.Proof.CouplingEmd
import Verif.Proof.Crystal
import Verif.Proof.Descent
import Verif.Proof.Described
import Verif.Proof.DescribedNear
import Verif.Proof.EmdApprox
import Verif.Proof.EmdInt64
import Verif.Proof.EmdInt64Real
import Verif.Proof.EmdProps
import Verif.Proof.EmdSym
import Verif.Proof.Equivariance
import Verif.Proof.EstimateBound
import Verif.Proof.Explicit
import Verif.Proof.FiniteNear
import Verif.Proof.Fit
import Verif.Proof.FloatCall
import Verif.Proof.GemmiBlock
import Verif.Proof.IntegerK
import Verif.Proof.IntegerN
import Verif.Proof.Isometry
import Verif.Proof.KNearest
import Verif.Proof.KSmallest
import Verif.Proof.LatticeGen
import Verif.Proof.LatticeReflect
import Verif.Proof.ListsOrbits
import Verif.Proof.Matrices
import Verif.Proof.MetricOrder
import Verif.Proof.Metrics
import Verif.Proof.Minval
import Verif.Proof.MinvalExact
import Verif.Proof.MinvalTerm
import Verif.Proof.Moved
import Verif.Proof.NNData
import Verif.Proof.NNExact
import Verif.Proof.NNLoop
import Verif.Proof.NNMap
import Verif.Proof.NNReal
import Verif.Proof.Nearest
import Verif.Proof.NearestMetrics
import Verif.Proof.NetAug
import Verif.Proof.NetCycle
import Verif.Proof.NetFlow
import Verif.Proof.NetInit
import Verif.Proof.NetInv
import Verif.Proof.NetOpt
import Verif.Proof.NetPivot
import Verif.Proof.NetSummary
import Verif.Proof.NetSwap
import Verif.Proof.NetTerm
import Verif.Proof.Objects
import Verif.Proof.Pairs
import Verif.Proof.Pairwise
import Verif.Proof.PddFacts
import Verif.Proof.PddMean
import Verif.Proof.PddRange
import Verif.Proof.Perm
import Verif.Proof.PointRows
import Verif.Proof.ReadFirst
import Verif.Proof.Reader
import Verif.Proof.Reconstruct
import Verif.Proof.ReconstructSound
import Verif.Proof.ReconstructTerm
import Verif.Proof.Reduced
import Verif.Proof.Repeated
import Verif.Proof.Rounded
import Verif.Proof.RoundedMetrics
import Verif.Proof.RoundedRead
import Verif.Proof.RoundedRows
import Verif.Proof.Rounding
import Verif.Proof.RoundingBound
import Verif.Proof.RoundingCollapse
import Verif.Proof.RoundingEmd
import Verif.Proof.RoundingPdd
import Verif.Proof.Rows
import Verif.Proof.SameCell
import Verif.Proof.Searchable
import Verif.Proof.Sites
import Verif.Proof.SitesRead
import Verif.Proof.Strain
import Verif.Proof.Tables
import Verif.Proof.Thread
import Verif.Proof.ThreadLists
import Verif.Proof.ThreadOps
import Verif.Proof.Threads
import Verif.Proof.ThreadsRun
import Verif.Proof.ThreadsSafe
import Verif.Proof.Tolerance
import Verif.Proof.TreeOps
import Verif.Proof.Volume
import Verif.Proof.Wasserstein
import Verif.Props.AllSites
import Verif.Props.AllSitesCompare
import Verif.Props.AllSitesCompareExample
import Verif.Props.AllSitesExample
import Verif.Props.AseAtoms
import Verif.Props.Backends
import Verif.Props.BackendsAgree
import Verif.Props.BackendsExample
import Verif.Props.Cache
import Verif.Props.CcdcPoints
import Verif.Props.CcdcSelect
import Verif.Props.CcdcWritten
import Verif.Props.CifBlocks
import Verif.Props.CifCompare
import Verif.Props.CifCompareExample
import Verif.Props.CifText
import Verif.Props.CliTol
import Verif.Props.CliTolExample
import Verif.Props.CommandLargeK
import Verif.Props.CommandLargeKExample
import Verif.Props.CommandLine
import Verif.Props.CommandLineExample
import Verif.Props.Compare
import Verif.Props.CompareTol
import Verif.Props.CompareTolExample
import Verif.Props.CompareTolerance
import Verif.Props.Constructors
import Verif.Props.Continuous
import Verif.Props.ContinuousExample
import Verif.Props.ContinuousMetrics
import Verif.Props.ContinuousMetricsExample
import Verif.Props.Crystal
import Verif.Props.CrystalPdd
import Verif.Props.EMD
import Verif.Props.EmdInt64
import Verif.Props.EqualMotif
import Verif.Props.Estimate
import Verif.Props.Explicit
import Verif.Props.Finite
import Verif.Props.FiniteNear
import Verif.Props.GemmiBlock
import Verif.Props.IntegerK
import Verif.Props.IntegerKExample
import Verif.Props.IntegerN
import Verif.Props.Invariance
import Verif.Props.Isometry
import Verif.Props.Keywords
import Verif.Props.Matrices
import Verif.Props.MatricesExample
import Verif.Props.MetricOrder
import Verif.Props.MetricOrderExample
import Verif.Props.Metrics
import Verif.Props.MetricsExample
import Verif.Props.MetricsLargeK
import Verif.Props.MetricsLargeKExample
import Verif.Props.Moved
import Verif.Props.MovedExample
import Verif.Props.Nearby
import Verif.Props.Nearest
import Verif.Props.NearestExample
import Verif.Props.NearestMetrics
import Verif.Props.NearestMetricsExample
import Verif.Props.NeighbourData
import Verif.Props.Neighbours
import Verif.Props.ObjectsExplicit
import Verif.Props.PPC
import Verif.Props.Pairs
import Verif.Props.PairsExample
import Verif.Props.Pairwise
import Verif.Props.PddRows
import Verif.Props.Pymatgen
import Verif.Props.ReadFirst
import Verif.Props.ReadFirstExample
import Verif.Props.Reader
import Verif.Props.Readers
import Verif.Props.Reconstruct
import Verif.Props.Reconstructable
import Verif.Props.ReducedFalse
import Verif.Props.ReorderedPdd
import Verif.Props.Repeated
import Verif.Props.RepeatedExample
import Verif.Props.Rounded
import Verif.Props.RoundedExample
import Verif.Props.RoundedMetrics
import Verif.Props.RoundedMetricsExample
import Verif.Props.Rounding
import Verif.Props.RoundingEmd
import Verif.Props.Sites
import Verif.Props.Skewed
import Verif.Props.Strain
import Verif.Props.StrainExample
import Verif.Props.Tables
import Verif.Props.TablesExample
import Verif.Props.Threads
import Verif.Props.ThreadsExample
import Verif.Props.Tolerance
import Verif.Props.Utils
import Verif.Props.Written
import Verif.Props.WrittenExample
import Verif.Spec.AllSites
import Verif.Spec.AllSitesCompare
import Verif.Spec.AllSitesRead
import Verif.Spec.Ccdc
import Verif.Spec.Cells
import Verif.Spec.Cif
import Verif.Spec.CifBlocks
import Verif.Spec.CifCompare
import Verif.Spec.CifEntry
import Verif.Spec.CifText
import Verif.Spec.Collapse
import Verif.Spec.CommandLine
import Verif.Spec.CommandLineTol
import Verif.Spec.Described
import Verif.Spec.DescribedNear
import Verif.Spec.FiniteNear
import Verif.Spec.Geometry
import Verif.Spec.Invariants
import Verif.Spec.Isometric
import Verif.Spec.Lattice
import Verif.Spec.Matrices
import Verif.Spec.MetricOrder
import Verif.Spec.Metrics
import Verif.Spec.Moved
import Verif.Spec.Nearby
import Verif.Spec.NearestTable
import Verif.Spec.Objects
import Verif.Spec.Pairs
import Verif.Spec.Pairwise
import Verif.Spec.Periodic
import Verif.Spec.ReadFirst
import Verif.Spec.Reader
import Verif.Spec.Reconstruct
import Verif.Spec.Repeated
import Verif.Spec.Rounded
import Verif.Spec.RoundedCrystal
import Verif.Spec.Rounding
import Verif.Spec.Sites
import Verif.Spec.SpaceGroup
import Verif.Spec.Strain
import Verif.Spec.Symmetry
import Verif.Spec.Tables
import Verif.Spec.Threads
import Verif.Spec.Transport
import Verif.Spec.Written
