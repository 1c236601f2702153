import Verif.Props.Solver
import Verif.Props.Runner
import Verif.Props.Finders
import Verif.Props.Consolidate
import Verif.Props.Catalog
import Verif.Props.Centering
import Verif.Props.Utilities
import Verif.Props.GalMaker
import Verif.Props.PixelTasks
import Verif.Props.Config
import Verif.Props.Background
import Verif.Props.Zred
import Verif.Props.Mask
import Verif.Props.Randoms
import Verif.Props.RedSequence
import Verif.Props.Chisq
import Verif.Props.Zlambda
import Verif.Props.Redmagic
import Verif.Props.GalRead
import Verif.Props.Cluster
import Verif.Props.Calibrate
import Verif.Props.RedRun
import Verif.Props.SpecPrep
import Verif.Props.ZlamCal
import Verif.Props.Zscan
import Verif.Props.Fitters
import Verif.Props.RedSeqCal
import Verif.Props.WcenCal
import Verif.Props.Setup
import Verif.Props.SpecRed
import Verif.Props.BkgGen
import Verif.Props.DepthFit
import Verif.Props.Maps
import Verif.Props.RmCal
import Verif.Model.RsFile
import Verif.Props.RsFile
import Verif.Model.BkgTable
import Verif.Props.BkgTable
import Verif.Model.CatTask
import Verif.Props.CatTask
import Verif.Model.WcenLike
import Verif.Props.WcenLike
import Verif.Model.PyWrap
import Verif.Props.PyWrap
import Verif.Model.GalStats
import Verif.Props.GalStats
import Verif.Model.MedCal
import Verif.Props.MedCal
import Verif.Model.ForkPool
import Verif.Props.ForkPool
import Verif.Model.SkyMap
import Verif.Props.SkyMap
import Verif.Model.RmRun
import Verif.Props.RmRun
import Verif.Model.ColGen
import Verif.Props.ColGen
import Verif.Props.MaskGen
import Verif.Props.Plots
import Verif.Props.RandOut
import Verif.Props.ClusCat
import Verif.Props.OffDiag
import Verif.Props.ZlamPar
import Verif.Props.HistoGauss
import Verif.Props.LogFile
import Verif.Props.RmTask
import Verif.Props.Batch
import Verif.Props.ConsFiles
import Verif.Props.VlimMap
import Verif.Props.RmSel
import Verif.Props.ColorRun
import Verif.Props.DLambda
import Verif.Props.ErrModel
import Verif.Props.RmAfter
import Verif.Props.ZredPz
import Verif.Props.LumFilt
import Verif.Props.PhotMap
import Verif.Model.RsDiag
import Verif.Props.RsDiag
import Verif.Model.Perc
import Verif.Props.Perc
import Verif.Model.PercCen
import Verif.Props.PercCen
import Verif.Model.PercRun
import Verif.Props.PercRun
import Verif.Model.Tiles
import Verif.Props.Tiles
import Verif.Model.FlSolver
import Verif.Props.FlSolver
import Verif.Props.FlExact
import Verif.Model.FlBins
import Verif.Props.FlBins
import Verif.Model.FlSample
import Verif.Props.FlSample
import Verif.Model.FlErr
import Verif.Props.FlErr
import Verif.Model.FlNodes
import Verif.Props.FlNodes
import Verif.Model.PixRun
import Verif.Props.PixRun
import Verif.Model.FlSpline
import Verif.Props.FlSpline
import Verif.Model.LikeCen
import Verif.Props.LikeCen
import Verif.Props.ChisqFix
import Verif.Model.Fl32
import Verif.Props.Fl32
import Verif.Model.ConsSpec
import Verif.Props.ConsSpec
import Verif.Model.IdWidth
import Verif.Props.IdWidth
import Verif.Model.Survey
import Verif.Props.Survey
import Verif.Model.TileSum
import Verif.Props.TileSum
import Verif.Props.ColorFit
import Verif.Props.MaskErr
import Verif.Props.RandSat
import Verif.Props.ZredFile
import Verif.Props.MemReport
import Verif.Props.GalSplit
import Verif.Props.MakerInit
import Verif.Props.MedStart
