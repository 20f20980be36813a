import Verif.Axis.Props
import Verif.Scalar.Geom
import Verif.Scalar.Import
import Verif.Scalar.Arith
import Verif.Scalar.Border
import Verif.Scalar.Value
import Verif.Scalar.Reduce
import Verif.Field.Disc
import Verif.Field.Alias
import Verif.Traj.Props
import Verif.Topo.Props
import Verif.Pbi.Props
import Verif.Pbi.Border
import Verif.Cp.Props
import Verif.Cp.Mean
import Verif.Cp.MeanModel
import Verif.Cp.MeanTraj
import Verif.Points.Props
import Verif.Profile.Crop
import Verif.Profile.Fill
import Verif.Profile.Interp
import Verif.Profile.Arith
import Verif.Profile.History
import Verif.Profile.Integral
import Verif.Temporal.Crop
import Verif.Temporal.History
import Verif.Temporal.Mean
import Verif.Temporal.Interp
import Verif.Temporal.Reduce
import Verif.Temporal.Arith
import Verif.Temporal.PowModel
import Verif.Temporal.Power
import Verif.Temporal.Geom
import Verif.TPoints.Crop
import Verif.TPoints.History
import Verif.Spatial.Props
import Verif.Spatial.AlgebraModel
import Verif.Spatial.Algebra
import Verif.Vector.Geom
import Verif.Vector.Crop
import Verif.Vector.Arith
import Verif.Vector.Border
import Verif.Ascii.Props
import Verif.File.Props
import Verif.File.Davis
import Verif.Utils.Memo
import Verif.Utils.FilesProps
import Verif.Utils.Progress
import Verif.Utils.TypeTest
import Verif.Utils.Fds
import Verif.Utils.UnitSetters
import Verif.Protocol.Props
import Verif.Treat.Grad
import Verif.Treat.Track
import Verif.Treat.Recon
import Verif.Treat.Stream
import Verif.Crit.Motif
import Verif.Crit.Gamma
import Verif.Crit.DevModel
import Verif.Crit.DevLemmas
import Verif.Crit.DevSort
import Verif.Crit.Deviation
import Verif.Crit.Units
import Verif.Crit.Vort
import Verif.Crit.Local
import Verif.Crit.Stokes
import Verif.Vortex.Shape
import Verif.Vortex.Walls
import Verif.Vortex.History
import Verif.Vortex.Motion
import Verif.Vortex.FieldUnits
import Verif.Pod.Energy
import Verif.Pod.Base
import Verif.Pod.Dmd
import Verif.Panel.Wall
import Verif.Panel.History
import Verif.Panel.Cut
import Verif.Zone.Radius
import Verif.Zone.Value
import Verif.Bl.Blasius
import Verif.Bl.Falkner
import Verif.Bl.Laws
import Verif.Bl.Reach
import Verif.Bl.Layer
import Verif.Bl.Shear
import Verif.Stab.Motion
import Verif.Stab.Film
import Verif.Stab.Cases
import Verif.Ftle.Travel
import Verif.Ftle.Exponent
import Verif.Ftle.Control
import Verif.Line.Model
import Verif.Line.Section
import Verif.Line.Sum
import Verif.Stat.Model
import Verif.Stat.Hist
import Verif.Stat.Corr
import Verif.Stat.Norm
import Verif.Mirror.Model
import Verif.Mirror.Lemmas
import Verif.Mirror.Props
import Verif.Mirror.VecModel
import Verif.Mirror.Vec
import Verif.Turb.Model
import Verif.Turb.Lemmas
import Verif.Turb.Fluct
import Verif.Turb.Rey
import Verif.Turb.Props
import Verif.Turb.Corr
import Verif.Turb.Scal
import Verif.Turb.Examples
import Verif.Trace.Model
import Verif.Trace.Props
import Verif.Trace.BorderModel
import Verif.Trace.Border
import Verif.Trace.GridModel
import Verif.Trace.Grid
import Verif.Same.Model
import Verif.Same.Props
import Verif.Same.Lists
import Verif.Polar.Model
import Verif.Polar.Props
import Verif.Linear.Model
import Verif.Linear.Spec
import Verif.Linear.Lemmas
import Verif.Linear.Props
import Verif.Path.Model
import Verif.Path.Lemmas
import Verif.Path.Props
import Verif.Path.Evolution
import Verif.Reshape.Model
import Verif.Reshape.Marginal
import Verif.Reshape.Augment
import Verif.Reshape.Even
import Verif.Reshape.Conv
import Verif.Reshape.Product
import Verif.Reshape.Doublons
import Verif.Reshape.Smooth
import Verif.Reshape.Rotate
import Verif.Back.Model
import Verif.Back.Props
import Verif.Back.Clear
import Verif.Back.Blend
import Verif.Recur.Model
import Verif.Recur.Props
import Verif.Weird.Model
import Verif.Weird.Spec
import Verif.Weird.Lemmas
import Verif.Weird.Props
import Verif.Cps.Model
import Verif.Cps.Crop
import Verif.Cps.Props
import Verif.Fill.Model
import Verif.Fill.Spec
import Verif.Fill.Lemmas
import Verif.Fill.Props
import Verif.Fill.Vec
import Verif.Fill.Smooth
import Verif.Fill.TModel
import Verif.Fill.TProps
import Verif.Fill.Examples
import Verif.Centre.Model
import Verif.Centre.Props
import Verif.Centre.Calls
import Verif.Even.Model
import Verif.Even.Lemmas
import Verif.Even.Props
import Verif.Even.Reduce
import Verif.Even.Examples
import Verif.Phase.Model
import Verif.Phase.Props
import Verif.Phase.Examples
import Verif.Same.Records
import Verif.Utils.UnitText
import Verif.Centre.Negative
import Verif.Quant.Model
import Verif.Quant.Props
import Verif.Tidy.Model
import Verif.Tidy.Doublons
import Verif.Tidy.Order
import Verif.Tidy.Slope
import Verif.Tidy.Local
import Verif.Tidy.ExtremaModel
import Verif.Tidy.Extrema
import Verif.Probe.Model
import Verif.Probe.Value
import Verif.Probe.Corner
import Verif.Probe.Commute
import Verif.Detect.Model
import Verif.Detect.Vortex
import Verif.Detect.WallModel
import Verif.Detect.Wall
import Verif.Probe.Norm
import Verif.Cp.Turn
import Verif.Points.GroupModel
import Verif.Points.Group
import Verif.Panel.GridModel
import Verif.Panel.Grid
import Verif.Detect.AroundModel
import Verif.Detect.Around
import Verif.Same.CritModel
import Verif.Same.Crit
import Verif.Export.VtkModel
import Verif.Export.Vtk
import Verif.Export.TextModel
import Verif.Export.Text
import Verif.Export.SeriesModel
import Verif.Export.SeriesLemmas
import Verif.Export.Series
import Verif.Export.MatModel
import Verif.Export.Mat
import Verif.Display.BrowseModel
import Verif.Display.BrowseLemmas
import Verif.Display.Browse
import Verif.Display.Moves
import Verif.Display.Limits
import Verif.Display.BufferModel
import Verif.Display.BufferLemmas
import Verif.Display.Buffer
import Verif.Display.LinkModel
import Verif.Display.Link
import Verif.Cleaning.Model
import Verif.Cleaning.Spec
import Verif.Cleaning.Lemmas
import Verif.Cleaning.Walk
import Verif.Cleaning.Delete
import Verif.Cleaning.Search
import Verif.Cleaning.TreeModel
import Verif.Cleaning.Tree
import Verif.Points.OrientModel
import Verif.Points.Orient
import Verif.Display.ColorModel
import Verif.Display.Color
import Verif.Display.CursorModel
import Verif.Display.Cursor
import Verif.Refine.Model
import Verif.Refine.Props
import Verif.Pod.CoherenceModel
import Verif.Pod.Coherence
import Verif.Spatial.GridModel
import Verif.Spatial.Grid
import Verif.Profile.ShiftModel
import Verif.Profile.Shift
import Verif.Treat.EigenModel
import Verif.Treat.Eigen
import Verif.Bl.FieldModel
import Verif.Bl.OnField
import Verif.Profile.DensityModel
import Verif.Profile.Density
import Verif.Points.DensityModel
import Verif.Points.Density
import Verif.Crit.IotaModel
import Verif.Crit.Iota
import Verif.Profile.SpectrumModel
import Verif.Profile.Spectrum
import Verif.Cleaning.ShowModel
import Verif.Cleaning.Show
import Verif.Utils.CountModel
import Verif.Utils.Count
import Verif.Trace.SpecModel
import Verif.Trace.Spectra
import Verif.Wave.Model
import Verif.Wave.Spatial
import Verif.Wave.Wavelet
import Verif.Panel.SearchModel
import Verif.Panel.Search
import Verif.Pod.KappaModel
import Verif.Pod.Kappa
import Verif.Points.KindsModel
import Verif.Points.Kinds
import Verif.Trace.VecSpecModel
import Verif.Trace.VecSpectra
import Verif.TPoints.SmoothModel
import Verif.TPoints.Smooth
import Verif.Treat.ShearModel
import Verif.Treat.Shear
import Verif.Bl.ClauserModel
import Verif.Bl.Clauser
import Verif.Crit.ImprovedModel
import Verif.Crit.Improved
import Verif.Display.MarksModel
import Verif.Display.Marks
import Verif.Profile.InterpolModel
import Verif.Profile.Interpol
import Verif.Ascii.SeriesModel
import Verif.Ascii.Series
import Verif.Display.LineModel
import Verif.Display.Line
import Verif.Vortex.SystemsModel
import Verif.Vortex.Systems
import Verif.Export.VideoModel
import Verif.Export.Video
import Verif.Vortex.SeriesModel
import Verif.Vortex.Series
import Verif.Treat.Uneven
import Verif.Detect.GammaModel
import Verif.Detect.Gamma
import Verif.Cps.SmoothModel
import Verif.Cps.Smooth
import Verif.Display.FramesModel
import Verif.Display.Frames
import Verif.Vector.DtypeModel
import Verif.Vector.Dtype
import Verif.Display.BarModel
import Verif.Display.Bar
import Verif.Spatial.PowerModel
import Verif.Spatial.Power
import Verif.Ftle.CloudModel
import Verif.Ftle.Cloud
import Verif.Temporal.ModesModel
import Verif.Temporal.Modes
import Verif.Display.DeskModel
import Verif.Display.Desk
import Verif.Profile.FitModel
import Verif.Profile.Fit
import Verif.Pbi.StructModel
import Verif.Pbi.Struct
import Verif.Fill.SeriesModel
import Verif.Fill.Series
import Verif.Pod.SnapModel
import Verif.Pod.Snap
import Verif.Trace.MaskModel
import Verif.Trace.Mask
import Verif.Temporal.ShareModel
import Verif.Temporal.Share
import Verif.Spatial.ShareModel
import Verif.Spatial.Share
import Verif.Temporal.UnitShareModel
import Verif.Temporal.UnitShare
import Verif.Temporal.CropShareModel
import Verif.Temporal.CropShare
import Verif.Spatial.BoundModel
import Verif.Spatial.Bound
