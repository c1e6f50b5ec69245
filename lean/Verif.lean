import Verif.Go.Slice
import Verif.Sort.Props
import Verif.Rand.Props
import Verif.Rand.Net
import Verif.Go.Loops
import Verif.Calc.Props
import Verif.Interp.Search
import Verif.Interp.Multi
import Verif.Interp.TriDiag
import Verif.Interp.SplineLemmas
import Verif.Interp.Spline
import Verif.Interp.Cubic
import Verif.Interp.CubicAllModel
import Verif.Interp.CubicAll
import Verif.Interp.Kernel
import Verif.Interp.SavGolModel
import Verif.Interp.SavGol
import Verif.Interp.RoundModel
import Verif.Interp.RoundExact
import Verif.Interp.Round
import Verif.Interp.RoundSplineModel
import Verif.Interp.RoundTri
import Verif.Interp.RoundSpline
import Verif.Interp.RoundSplineErr
import Verif.Interp.RoundSplineThm
import Verif.Mat.Model
import Verif.Mat.Basic
import Verif.Mat.AliasModel
import Verif.Mat.Alias
import Verif.Mat.LU
import Verif.Mat.Solve
import Verif.Mat.Unit
import Verif.Mat.RoundModel
import Verif.Mat.RoundExact
import Verif.Mat.Round
import Verif.Mat.RoundLU
import Verif.Mat.RoundSolve
import Verif.Mat.RoundInvert
import Verif.Geom.Model
import Verif.Geom.Grid
import Verif.Geom.NormModel
import Verif.Geom.Norm
import Verif.Geom.TetraIdx
import Verif.Geom.Tetra
import Verif.Geom.DerivModel
import Verif.Geom.Deriv
import Verif.Geom.DerivOps
import Verif.Render.Model
import Verif.Render.Accum
import Verif.Render.Overlap
import Verif.Render.Image
import Verif.Render.Project
import Verif.Render.Boxes
import Verif.Render.Workers
import Verif.Render.Schedule
import Verif.Render.BufModel
import Verif.Render.Buffers
import Verif.Render.Passes
import Verif.Render.McModel
import Verif.Render.MonteCarlo
import Verif.Render.McImage
import Verif.Render.McTotal
import Verif.Render.McAny
import Verif.Render.Whole
import Verif.Render.McProject
import Verif.Render.WholeProject
import Verif.Hist.Model
import Verif.Hist.Overlap
import Verif.Hist.Bins
import Verif.Io.Model
import Verif.Io.Bytes
import Verif.Io.Sheet
import Verif.Io.Buffer
import Verif.Io.Gadget
import Verif.Io.GridModel
import Verif.Io.Grid
import Verif.Io.PySheetModel
import Verif.Io.PySheet
import Verif.Io.PyRenderModel
import Verif.Io.PyRender
import Verif.Io.ConfigModel
import Verif.Io.Config
import Verif.Halo.Model
import Verif.Halo.Grid
import Verif.Halo.Bounds
import Verif.Halo.CrossMatch
import Verif.Halo.Finder
import Verif.Cosmo.Model
import Verif.Cosmo.Props
import Verif.Halo.RadiusModel
import Verif.Halo.Radius
import Verif.Halo.CatalogModel
import Verif.Halo.Catalog
import Verif.Halo.TopN
import Verif.Main.Model
import Verif.Main.Basic
import Verif.Main.BBox
import Verif.Main.Segments
import Verif.Main.Grids
import Verif.Main.Snapshots
import Verif.Main.EndToEnd
import Verif.Main.Pipeline
import Verif.Main.PipelineProject
import Verif.Main.OutputModel
import Verif.Main.Output
import Verif.Hist.FileModel
import Verif.Hist.Samples
import Verif.Hist.Files
import Verif.Hist.Periodic
import Verif.Main.Header
import Verif.Scripts.ProfileModel
import Verif.Scripts.Remove
import Verif.Scripts.Lines
import Verif.Scripts.LinesProps
import Verif.Scripts.HaloModel
import Verif.Scripts.Halo
import Verif.Go.Float
import Verif.Fp.RandModel
import Verif.Fp.Rand
import Verif.Render.Stuck
import Verif.Fp.WrapModel
import Verif.Fp.Wrap
import Verif.Fp.Crash
import Verif.Fp.BoxModel
import Verif.Fp.Box
import Verif.Fp.Scale
import Verif.Render.Order
import Verif.Render.Relate
import Verif.Fp.SumModel
import Verif.Fp.Sum
import Verif.Fp.PixelsModel
import Verif.Fp.Pixels
import Verif.Fp.HistModel
import Verif.Fp.Hist
import Verif.Fp.Lookup
import Verif.Fp.SampleModel
import Verif.Fp.Sample
import Verif.Fp.MachineModel
import Verif.Fp.Machine
import Verif.Fp.ZoomModel
import Verif.Fp.ZoomScale
import Verif.Fp.Zoom
import Verif.Fp.PipelineModel
import Verif.Fp.Written
import Verif.Fp.Pipeline
import Verif.Fp.EndToEnd
import Verif.Fp.HaloModel
import Verif.Fp.Halo
import Verif.Fp.Finder
import Verif.Fp.DerivModel
import Verif.Fp.Deriv
import Verif.Main.ArgsModel
import Verif.Main.Args
import Verif.Main.FilesModel
import Verif.Main.Files
import Verif.Render.UnitsModel
import Verif.Render.Units
import Verif.Interp.RoundMultiModel
import Verif.Interp.RoundMulti
import Verif.Interp.SharedModel
import Verif.Interp.Shared
import Verif.Interp.AliasModel
import Verif.Interp.Alias
import Verif.Py.SplitModel
import Verif.Py.Split
import Verif.Py.RspModel
import Verif.Py.Rsp
import Verif.Py.RebinModel
import Verif.Py.Rebin
import Verif.Py.VecDerivModel
import Verif.Py.VecDeriv
import Verif.Py.MembraneModel
import Verif.Py.Membrane
import Verif.Py.PrimesModel
import Verif.Py.Primes
import Verif.Py.TableModel
import Verif.Py.Table
import Verif.Py.ThetaModel
import Verif.Py.Theta
import Verif.Py.TreeModel
import Verif.Py.Tree
import Verif.Py.SmoothModel
import Verif.Py.Smooth
import Verif.Py.PennaModel
import Verif.Py.Penna
import Verif.Py.ChurazovModel
import Verif.Py.Churazov
import Verif.Py.GroupModel
import Verif.Py.Group
import Verif.Py.RawModel
import Verif.Py.Raw
import Verif.Scripts.BinnedModel
import Verif.Scripts.Binned
import Verif.Scripts.SubhaloModel
import Verif.Scripts.Subhalo
import Verif.Py.AutomateModel
import Verif.Py.Automate
import Verif.Py.KdeModel
import Verif.Py.Kde
import Verif.Py.ShellModel
import Verif.Py.Shell
import Verif.Py.RangeModel
import Verif.Py.Range
import Verif.Py.FitModel
import Verif.Py.Fit
import Verif.Py.ClosedModel
import Verif.Py.Closed
import Verif.Io.PyHeaderModel
import Verif.Io.PyHeader
import Verif.Py.SelectModel
import Verif.Py.Select
import Verif.Py.HaloUnitsModel
import Verif.Py.HaloUnits
import Verif.Py.PlateauModel
import Verif.Py.Plateau
import Verif.Py.ColorsModel
import Verif.Py.Colors
import Verif.Py.MultiProfModel
import Verif.Py.MultiProf
import Verif.Fp.TetraModel
import Verif.Fp.Tetra
import Verif.Interp.RoundKernelModel
import Verif.Interp.RoundKernel
import Verif.Calc.RoundModel
import Verif.Calc.Round
import Verif.Calc.RoundExact
import Verif.Mat.RoundParity
import Verif.Interp.RoundSavGolModel
import Verif.Interp.RoundSavGol
import Verif.Go.Limits
import Verif.Fp.LimitsModel
import Verif.Fp.Limits
import Verif.Word.Model
import Verif.Word.Props
