import Verif.Lemmas.Agree
import Verif.Lemmas.Analyzer
import Verif.Lemmas.Bootstrap
import Verif.Lemmas.Bystanders
import Verif.Lemmas.Conditioning
import Verif.Lemmas.Consistency
import Verif.Lemmas.Covariance
import Verif.Lemmas.Disp
import Verif.Lemmas.DispFl
import Verif.Lemmas.EndToEnd
import Verif.Lemmas.Float
import Verif.Lemmas.GLS
import Verif.Lemmas.GetDisps
import Verif.Lemmas.GridFl
import Verif.Lemmas.Groups
import Verif.Lemmas.Increments
import Verif.Lemmas.Molecule
import Verif.Lemmas.MsdFl
import Verif.Lemmas.Observables
import Verif.Lemmas.Overlap
import Verif.Lemmas.Parser
import Verif.Lemmas.Persist
import Verif.Lemmas.PowerSums
import Verif.Lemmas.Rescale
import Verif.Lemmas.Runs
import Verif.Lemmas.Select
import Verif.Lemmas.Statistics
import Verif.Lemmas.Symmetry
import Verif.Lemmas.TimeGrid
import Verif.Lemmas.Unbiased
import Verif.Lemmas.Units
import Verif.Lemmas.VarFl
import Verif.Model.Access
import Verif.Model.Analyzer
import Verif.Model.Arrhenius
import Verif.Model.CovFl
import Verif.Model.Covariance
import Verif.Model.Disp
import Verif.Model.DispFl
import Verif.Model.GLS
import Verif.Model.GetDisps
import Verif.Model.MsdFl
import Verif.Model.Observables
import Verif.Model.Parser
import Verif.Model.Persist
import Verif.Model.Random
import Verif.Model.RealFns
import Verif.Model.Select
import Verif.Model.TimeGrid
import Verif.Model.VarFl
import Verif.Props.Access
import Verif.Props.ActualFit
import Verif.Props.Analyzer
import Verif.Props.AnyAtoms
import Verif.Props.AnyHistory
import Verif.Props.Arrhenius
import Verif.Props.ArrheniusFit
import Verif.Props.Axes
import Verif.Props.AxesTotal
import Verif.Props.Bootstrap
import Verif.Props.Bystanders
import Verif.Props.CellChoice
import Verif.Props.Chords
import Verif.Props.Coefficient
import Verif.Props.Collective
import Verif.Props.Conditioning
import Verif.Props.Consistency
import Verif.Props.Continue
import Verif.Props.Counts
import Verif.Props.CovFl
import Verif.Props.Covariance
import Verif.Props.CurveErrors
import Verif.Props.Disp
import Verif.Props.DispFl
import Verif.Props.Documented
import Verif.Props.Efficiency
import Verif.Props.EndToEnd
import Verif.Props.EndToEndTotal
import Verif.Props.ErrorBar
import Verif.Props.ErrorBarPool
import Verif.Props.ErrorBarPoolTotal
import Verif.Props.ErrorBarTotal
import Verif.Props.Exceptions
import Verif.Props.FilePrecision
import Verif.Props.Fit
import Verif.Props.FitPrecision
import Verif.Props.FitRounding
import Verif.Props.FitRuns
import Verif.Props.FitTrajectory
import Verif.Props.Formats
import Verif.Props.FromPaths
import Verif.Props.GLS
import Verif.Props.GetDisps
import Verif.Props.GradientBias
import Verif.Props.GridFl
import Verif.Props.GridTotal
import Verif.Props.Grids
import Verif.Props.History
import Verif.Props.Increments
import Verif.Props.Intervals
import Verif.Props.Lengths
import Verif.Props.Limits
import Verif.Props.LongFit
import Verif.Props.LongTotal
import Verif.Props.LongTotalLine
import Verif.Props.ModelFit
import Verif.Props.Molecules
import Verif.Props.MsdFl
import Verif.Props.NernstEinstein
import Verif.Props.Ngp
import Verif.Props.NgpGaussian
import Verif.Props.Observables
import Verif.Props.Offset
import Verif.Props.Overlap
import Verif.Props.OverlapTotal
import Verif.Props.Parser
import Verif.Props.Paths
import Verif.Props.Persist
import Verif.Props.PersistAnalyzer
import Verif.Props.PersistClass
import Verif.Props.PersistFile
import Verif.Props.PoolContent
import Verif.Props.PoolFit
import Verif.Props.PoolModel
import Verif.Props.PoolOrder
import Verif.Props.PoolTotal
import Verif.Props.Pooled
import Verif.Props.PooledOne
import Verif.Props.Precision
import Verif.Props.Random
import Verif.Props.RandomWalk
import Verif.Props.RandomWalkTotal
import Verif.Props.Relations
import Verif.Props.Resample
import Verif.Props.Rescale
import Verif.Props.Results
import Verif.Props.Reversal
import Verif.Props.Select
import Verif.Props.Selected
import Verif.Props.Session
import Verif.Props.Shortest
import Verif.Props.SingleOrigin
import Verif.Props.Species
import Verif.Props.StartDt
import Verif.Props.Statistics
import Verif.Props.SubFit
import Verif.Props.Supercell
import Verif.Props.Swapped
import Verif.Props.Symmetry
import Verif.Props.TimeGrid
import Verif.Props.TimesFl
import Verif.Props.Totality
import Verif.Props.Unbiased
import Verif.Props.Units
import Verif.Props.VarFl
import Verif.Props.Width
import Verif.Py
import Verif.Spec.Agree
import Verif.Spec.Analyzer
import Verif.Spec.ArrheniusFit
import Verif.Spec.Chords
import Verif.Spec.Coefficient
import Verif.Spec.Conditioning
import Verif.Spec.Covariance
import Verif.Spec.Disp
import Verif.Spec.DispFl
import Verif.Spec.Documented
import Verif.Spec.Efficiency
import Verif.Spec.EndToEnd
import Verif.Spec.ErrorBar
import Verif.Spec.FitRuns
import Verif.Spec.Float
import Verif.Spec.FromPaths
import Verif.Spec.GLS
import Verif.Spec.Increments
import Verif.Spec.Intervals
import Verif.Spec.Molecule
import Verif.Spec.Observables
import Verif.Spec.Overlap
import Verif.Spec.Path
import Verif.Spec.Paths
import Verif.Spec.Persist
import Verif.Spec.Precision
import Verif.Spec.Random
import Verif.Spec.Relations
import Verif.Spec.Rescale
import Verif.Spec.Runs
import Verif.Spec.Shortest
import Verif.Spec.SingleOrigin
import Verif.Spec.Species
import Verif.Spec.Statistics
import Verif.Spec.Supercell
import Verif.Spec.TimesFl
import Verif.Spec.Unbiased
import Verif.Spec.Units
import Verif.Spec.VarFl
import Verif.Spec.Width
import Verif.Spec.Windows
import Verif.Audit
