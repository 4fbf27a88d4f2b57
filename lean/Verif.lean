import Verif.Properties.Queue
import Verif.Properties.Sched
import Verif.Properties.Liveness
import Verif.Properties.Search
import Verif.Properties.Prepare
import Verif.Properties.Store
import Verif.Properties.Flags
import Verif.Properties.Wrapper
import Verif.Properties.Api
import Verif.Properties.Graph
import Verif.Properties.Table
import Verif.Properties.Account
import Verif.Properties.Matrix
import Verif.Properties.Special
import Verif.Properties.Wigner
import Verif.Properties.WignerTable
import Verif.Properties.Bessel
import Verif.Properties.BesselError
import Verif.Properties.TMatrix
import Verif.Properties.TMatrixRun
import Verif.Properties.TMatrixTables
import Verif.Properties.NBased
import Verif.Properties.Clebsch
import Verif.Properties.Alignment
import Verif.Properties.Scatter
import Verif.Properties.Interp
import Verif.Properties.Quadrature
import Verif.Properties.Orientation
import Verif.Properties.Optics
import Verif.Properties.Shape
import Verif.Properties.Calculator
import Verif.Properties.Text
import Verif.Properties.Units
import Verif.Properties.Yaml
import Verif.Properties.YamlNested
import Verif.Properties.Md5
import Verif.Properties.CommandLine
import Verif.Properties.Direct
import Verif.Properties.SymmetryStore
import Verif.Properties.DirectScatter
import Verif.Properties.DirectCross
import Verif.Properties.MatrixResource
import Verif.Properties.Exec
import Verif.Properties.Slots
import Verif.Proofs.Content
import Verif.Spec.Content
import Verif.Proofs.ContentRun
import Verif.Proofs.ContentCell
import Verif.Proofs.ContentEntry
import Verif.Proofs.ContentGrain
import Verif.Proofs.ContentEnsemble
import Verif.Proofs.ContentValue
import Verif.Properties.Content
import Verif.Properties.Spheroid
import Verif.Properties.Numpy
import Verif.Properties.Python
import Verif.Properties.PythonInit
import Verif.Properties.Evaluate
import Verif.Properties.Callback
import Verif.Properties.PythonAlign
import Verif.Properties.Rotation
import Verif.Properties.Oriented
import Verif.Properties.Incoherent
import Verif.Properties.Cross
import Verif.Properties.Random
import Verif.Properties.Decimal
import Verif.Properties.Program
import Verif.Properties.GetTable
import Verif.Properties.Refine
import Verif.Properties.Mie
import Verif.Properties.Lifetime
import Verif.Properties.ShapeObject
import Verif.Properties.Memory
import Verif.Properties.DustFiles
import Verif.Properties.Times
import Verif.Properties.LogFile
import Verif.Properties.Cost
import Verif.Properties.OptionValues
import Verif.Properties.TaskGraph
import Verif.Properties.RandomNumbers
import Verif.Properties.TaskPlot
import Verif.Properties.MieScatter
import Verif.Properties.Rayleigh
import Verif.Properties.MieSeries
import Verif.Properties.MiePattern
import Verif.Properties.Scaling
import Verif.Properties.MirrorTable
import Verif.Properties.LeftRight
import Verif.Properties.AlongAxis
import Verif.Properties.BelowExtinction
