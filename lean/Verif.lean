import Verif.Props.Lpcore
import Verif.Props.Preprocess
import Verif.Props.Merge
import Verif.Props.SparseMatrix
import Verif.Props.BitArray
import Verif.Props.Itm
import Verif.Props.Solve
import Verif.Props.Subsolvers
import Verif.Props.ZSolver
import Verif.Props.Params
import Verif.Props.CommandLine
import Verif.Props.Utils
import Verif.Props.Costs
import Verif.Props.Compare
import Verif.Props.NQueens
import Verif.Props.NQueensText
import Verif.Props.Counts
import Verif.Props.Parser
import Verif.Props.Grammar
import Verif.Props.Quadratic
import Verif.Props.Remaining
import Verif.Props.RInterface
import Verif.Props.Writer
import Verif.Props.ResultFile
import Verif.Props.Optimizer
import Verif.Props.Population
import Verif.Props.Branch
import Verif.Props.Manual
import Verif.Props.ManualValues
import Verif.Props.Multipliers
import Verif.Props.RandomSolver
import Verif.Props.Dispatch
import Verif.Props.Tuners
import Verif.Props.Memory
import Verif.Props.Init
import Verif.Props.Numeric
import Verif.Props.Observer
import Verif.Props.Benchmark
import Verif.Props.ZNumeric
import Verif.Props.Main
import Verif.Props.Equal
import Verif.Props.CoreOut
import Verif.Props.Workers
import Verif.Props.WorkersMore
import Verif.Props.Distinct
import Verif.Props.Callbacks
import Verif.Props.Overflow
import Verif.Props.Rounded
import Verif.Props.RoundedCosts
import Verif.Props.Reinit
import Verif.Props.Messages
import Verif.Props.Log
import Verif.Props.CalculatorSort
import Verif.Props.RoundedRows
import Verif.Props.RoundedRun
import Verif.Props.RoundedZ
import Verif.Props.PreprocessedFile
import Verif.Props.ConstraintOrder
import Verif.Props.NoRounding
import Verif.Props.BoundsAsRead
import Verif.Props.Lifetime
import Verif.Props.RoundedObserver
import Verif.Props.Help
import Verif.Props.RoundedBounds
import Verif.Props.Start
import Verif.Props.Races
import Verif.Props.Time
import Verif.Props.KappaMax
import Verif.Props.Seed
import Verif.Props.Coefficients
import Verif.Props.Flag
import Verif.Props.Scaling
import Verif.Props.Opposite
import Verif.Props.Rename
import Verif.Props.Twice
import Verif.Props.Constant
import Verif.Props.CrewSame
import Verif.Props.Looser
import Verif.Props.LooserFile
import Verif.Props.Reorder
import Verif.Props.ReorderFile
import Verif.Props.ReorderObj
import Verif.Props.Bounds
import Verif.Props.BoundsFile
