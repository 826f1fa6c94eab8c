import Verif.Lemmas.ExceptList
import Verif.Model.Basic
import Verif.Model.BoxGrids
import Verif.Model.Boxes
import Verif.Model.Bresenham
import Verif.Model.Camera
import Verif.Model.CameraJson
import Verif.Model.CameraMemory
import Verif.Model.CameraText
import Verif.Model.CameraView
import Verif.Model.Cams
import Verif.Model.CamsFit
import Verif.Model.CamsResiduals
import Verif.Model.CamsScales
import Verif.Model.CamsTest
import Verif.Model.Cdf
import Verif.Model.Circle
import Verif.Model.Controls
import Verif.Model.ConvertRead
import Verif.Model.Converter
import Verif.Model.Converters
import Verif.Model.Datetimes
import Verif.Model.DetectKp
import Verif.Model.Double
import Verif.Model.Exif
import Verif.Model.ExifFile
import Verif.Model.Filters
import Verif.Model.FloatBoxGrid
import Verif.Model.FloatCdf
import Verif.Model.FloatCorrection
import Verif.Model.FloatDistort
import Verif.Model.FloatGrid
import Verif.Model.FloatInterp
import Verif.Model.FloatMotion
import Verif.Model.FloatParse
import Verif.Model.FloatProject
import Verif.Model.FloatResample
import Verif.Model.FloatResize
import Verif.Model.FloatSample
import Verif.Model.FloatStats
import Verif.Model.FloatTemplate
import Verif.Model.FloatTiles
import Verif.Model.FloatTimes
import Verif.Model.FloatWeights
import Verif.Model.Grid
import Verif.Model.GridState
import Verif.Model.Hillshade
import Verif.Model.HillshadeMissing
import Verif.Model.ImageNew
import Verif.Model.ImageProject
import Verif.Model.ImageRead
import Verif.Model.ImageWrite
import Verif.Model.InterpLine
import Verif.Model.Json
import Verif.Model.JsonText
import Verif.Model.Keypoints
import Verif.Model.Likelihood
import Verif.Model.Lists
import Verif.Model.MatchKp
import Verif.Model.Matches
import Verif.Model.Motion
import Verif.Model.MotionDem
import Verif.Model.MotionMissing
import Verif.Model.Observer
import Verif.Model.ObserverAnimate
import Verif.Model.ObserverCameras
import Verif.Model.ObserverFit
import Verif.Model.ObserverImages
import Verif.Model.Pairwise
import Verif.Model.Pickle
import Verif.Model.PlotsControls
import Verif.Model.PlotsMap
import Verif.Model.PlotsTracks
import Verif.Model.PolygonMask
import Verif.Model.Polynomial
import Verif.Model.ProjectDem
import Verif.Model.Ransac
import Verif.Model.RasterIO
import Verif.Model.RasterInterp
import Verif.Model.RasterMemory
import Verif.Model.RasterRead
import Verif.Model.RasterResample
import Verif.Model.RasterScale
import Verif.Model.RasterState
import Verif.Model.RasterWindow
import Verif.Model.Rasterize
import Verif.Model.Resample
import Verif.Model.Sample
import Verif.Model.SampleMissing
import Verif.Model.Search
import Verif.Model.Svg
import Verif.Model.SvgElement
import Verif.Model.SvgRead
import Verif.Model.SvgWrite
import Verif.Model.Terrain
import Verif.Model.Tiles
import Verif.Model.Tracker
import Verif.Model.TracksAnimate
import Verif.Model.TracksStats
import Verif.Model.Undistort
import Verif.Props.BooleanSplit
import Verif.Props.BoxGrids
import Verif.Props.Boxes
import Verif.Props.Bresenham
import Verif.Props.CameraJson
import Verif.Props.CameraMemory
import Verif.Props.CameraProjection
import Verif.Props.CameraRasterize
import Verif.Props.CameraResize
import Verif.Props.CameraRotation
import Verif.Props.CameraText
import Verif.Props.CameraView
import Verif.Props.CameraViewDistorted
import Verif.Props.CamsAngles
import Verif.Props.CamsFit
import Verif.Props.CamsParams
import Verif.Props.CamsResiduals
import Verif.Props.CamsScales
import Verif.Props.CamsSet
import Verif.Props.CamsTest
import Verif.Props.Cdf
import Verif.Props.Circle
import Verif.Props.Clip
import Verif.Props.Controls
import Verif.Props.ConvertRead
import Verif.Props.Converter
import Verif.Props.Converters
import Verif.Props.Datetimes
import Verif.Props.DetectKp
import Verif.Props.Distortion
import Verif.Props.Double
import Verif.Props.Exif
import Verif.Props.ExifFile
import Verif.Props.Filters
import Verif.Props.FloatBoxGrid
import Verif.Props.FloatCdf
import Verif.Props.FloatCorrection
import Verif.Props.FloatDistort
import Verif.Props.FloatGrid
import Verif.Props.FloatGridNear
import Verif.Props.FloatInterp
import Verif.Props.FloatMotion
import Verif.Props.FloatParse
import Verif.Props.FloatProject
import Verif.Props.FloatResample
import Verif.Props.FloatResize
import Verif.Props.FloatSample
import Verif.Props.FloatSearch
import Verif.Props.FloatStats
import Verif.Props.FloatTemplate
import Verif.Props.FloatTiles
import Verif.Props.FloatTimes
import Verif.Props.FloatWeights
import Verif.Props.FormatList
import Verif.Props.Grid
import Verif.Props.GridCrop
import Verif.Props.GridState
import Verif.Props.GridTiles
import Verif.Props.Hillshade
import Verif.Props.HillshadeMissing
import Verif.Props.ImageNew
import Verif.Props.ImageProject
import Verif.Props.ImageRead
import Verif.Props.ImageWrite
import Verif.Props.InterpLine
import Verif.Props.Json
import Verif.Props.JsonDump
import Verif.Props.JsonText
import Verif.Props.Kahan
import Verif.Props.KeypointFiles
import Verif.Props.KeypointPairs
import Verif.Props.Likelihood
import Verif.Props.MatchKp
import Verif.Props.Matches
import Verif.Props.Motion
import Verif.Props.MotionDem
import Verif.Props.MotionMissing
import Verif.Props.Observer
import Verif.Props.ObserverAnimate
import Verif.Props.ObserverCameras
import Verif.Props.ObserverFit
import Verif.Props.ObserverImages
import Verif.Props.Pairwise
import Verif.Props.Pickle
import Verif.Props.PlotsControls
import Verif.Props.PlotsMap
import Verif.Props.PlotsSelect
import Verif.Props.PlotsTracks
import Verif.Props.PolyfitExists
import Verif.Props.PolygonMask
import Verif.Props.Polynomial
import Verif.Props.ProjectDem
import Verif.Props.Ransac
import Verif.Props.RasterIO
import Verif.Props.RasterInterp
import Verif.Props.RasterMemory
import Verif.Props.RasterRead
import Verif.Props.RasterResample
import Verif.Props.RasterScale
import Verif.Props.RasterState
import Verif.Props.RasterWindow
import Verif.Props.Rasterize
import Verif.Props.Rays
import Verif.Props.Resample
import Verif.Props.ResampleMean
import Verif.Props.Sample
import Verif.Props.SampleMissing
import Verif.Props.SortedNearest
import Verif.Props.Spherical
import Verif.Props.SvgElement
import Verif.Props.SvgPath
import Verif.Props.SvgRead
import Verif.Props.SvgText
import Verif.Props.SvgTransform
import Verif.Props.SvgWrite
import Verif.Props.Terrain
import Verif.Props.Tiles
import Verif.Props.Tracker
import Verif.Props.TrackerTimes
import Verif.Props.TracksAnimate
import Verif.Props.TracksStats
import Verif.Props.Undistort
import Verif.Props.Viewshed
