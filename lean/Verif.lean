import Verif.Model.Batch
import Verif.Model.CalFile
import Verif.Model.CalLoad
import Verif.Model.CalView
import Verif.Model.CalWin
import Verif.Model.Camera
import Verif.Model.Chess
import Verif.Model.Construct
import Verif.Model.Demo
import Verif.Model.DemoQt
import Verif.Model.DemoScenes
import Verif.Model.Drawn
import Verif.Model.DrawnGps
import Verif.Model.DrawnLens
import Verif.Model.DrawnRay
import Verif.Model.Exif
import Verif.Model.FitPlot
import Verif.Model.Fridge
import Verif.Model.Gps
import Verif.Model.GpsImage
import Verif.Model.GpsText
import Verif.Model.GraphicsView
import Verif.Model.Group
import Verif.Model.Lens
import Verif.Model.NoValue
import Verif.Model.Noise
import Verif.Model.OwnAttr
import Verif.Model.Persist
import Verif.Model.Plot
import Verif.Model.Pose
import Verif.Model.Print
import Verif.Model.Prior
import Verif.Model.Projection
import Verif.Model.QChoice
import Verif.Model.QInput
import Verif.Model.Ray
import Verif.Model.Rotate
import Verif.Model.Rounded
import Verif.Model.RoundedArea
import Verif.Model.RoundedFoot
import Verif.Model.RoundedGps
import Verif.Model.RoundedGpsImage
import Verif.Model.RoundedHorizon
import Verif.Model.RoundedLens
import Verif.Model.RoundedLensImage
import Verif.Model.RoundedLines
import Verif.Model.RoundedMesh
import Verif.Model.RoundedMeshImage
import Verif.Model.RoundedObject
import Verif.Model.RoundedPlane
import Verif.Model.RoundedRay
import Verif.Model.RoundedTest
import Verif.Model.RoundedTri
import Verif.Model.Scene
import Verif.Model.SceneView
import Verif.Model.Shape
import Verif.Model.Spatial
import Verif.Model.Statistic
import Verif.Model.Stereo
import Verif.Model.Summary
import Verif.Model.System
import Verif.Model.Terms
import Verif.Model.Text
import Verif.Model.TopView
import Verif.Model.TracePlot
import Verif.Model.View
import Verif.Num
import Verif.Proofs.CalWin
import Verif.Proofs.Camera
import Verif.Proofs.Gps
import Verif.Proofs.GpsDigits
import Verif.Proofs.GpsFormat
import Verif.Proofs.GpsText
import Verif.Proofs.Group
import Verif.Proofs.Lens
import Verif.Proofs.LensInverse
import Verif.Proofs.Num
import Verif.Proofs.Persist
import Verif.Proofs.Projection
import Verif.Proofs.Ray
import Verif.Proofs.Same
import Verif.Proofs.Spatial
import Verif.Proofs.Spline
import Verif.Proofs.SplineExists
import Verif.Proofs.Statistic
import Verif.Proofs.System
import Verif.Proofs.SystemAgree
import Verif.Proofs.SystemCam
import Verif.Proofs.SystemEx
import Verif.Proofs.SystemExcl
import Verif.Proofs.SystemLog
import Verif.Proofs.SystemLookup
import Verif.Proofs.SystemRead
import Verif.Proofs.SystemStep
import Verif.Proofs.SystemStepPar
import Verif.Proofs.Terms
import Verif.Proofs.TermsLandmark
import Verif.Proofs.View
import Verif.Props.Additional
import Verif.Props.Attributes
import Verif.Props.Balance
import Verif.Props.Batch
import Verif.Props.CalFile
import Verif.Props.CalLoad
import Verif.Props.CalRun
import Verif.Props.CalTable
import Verif.Props.CalView
import Verif.Props.CalWin
import Verif.Props.Calibration
import Verif.Props.Camera
import Verif.Props.CameraLens
import Verif.Props.Chess
import Verif.Props.Compose
import Verif.Props.Construct
import Verif.Props.Demo
import Verif.Props.DemoQt
import Verif.Props.DemoScenes
import Verif.Props.Drawn
import Verif.Props.DrawnGps
import Verif.Props.DrawnLens
import Verif.Props.DrawnRay
import Verif.Props.DrawnText
import Verif.Props.Epipolar
import Verif.Props.Exif
import Verif.Props.Fit
import Verif.Props.FitExact
import Verif.Props.FitKept
import Verif.Props.FitPlot
import Verif.Props.Flat
import Verif.Props.Fov
import Verif.Props.FovAngle
import Verif.Props.Fridge
import Verif.Props.Gps
import Verif.Props.GpsFormat
import Verif.Props.GpsImage
import Verif.Props.GpsText
import Verif.Props.GraphicsPos
import Verif.Props.GraphicsView
import Verif.Props.Group
import Verif.Props.GroupLens
import Verif.Props.GroupScale
import Verif.Props.Known
import Verif.Props.Landmarks
import Verif.Props.Lens
import Verif.Props.LensInverse
import Verif.Props.Lines
import Verif.Props.LoadAny
import Verif.Props.LoadCamera
import Verif.Props.LoadView
import Verif.Props.Lut
import Verif.Props.LutParallel
import Verif.Props.Measure
import Verif.Props.Mesh
import Verif.Props.Moving
import Verif.Props.NoValue
import Verif.Props.Noise
import Verif.Props.OwnAttr
import Verif.Props.Panorama
import Verif.Props.Parallax
import Verif.Props.Persist
import Verif.Props.Planes
import Verif.Props.Plot
import Verif.Props.Pose
import Verif.Props.Print
import Verif.Props.Prior
import Verif.Props.Projection
import Verif.Props.QChoice
import Verif.Props.QInput
import Verif.Props.Ray
import Verif.Props.Rotate
import Verif.Props.RoundArea
import Verif.Props.RoundDistance
import Verif.Props.RoundFoot
import Verif.Props.RoundGps
import Verif.Props.RoundGpsImage
import Verif.Props.RoundGpsTest
import Verif.Props.RoundHorizon
import Verif.Props.RoundLens
import Verif.Props.RoundLensImage
import Verif.Props.RoundLines
import Verif.Props.RoundMesh
import Verif.Props.RoundMeshBack
import Verif.Props.RoundMeshImage
import Verif.Props.RoundMove
import Verif.Props.RoundObject
import Verif.Props.RoundPan
import Verif.Props.RoundPlane
import Verif.Props.RoundRay
import Verif.Props.RoundSpace
import Verif.Props.RoundTest
import Verif.Props.RoundTri
import Verif.Props.RoundTrip
import Verif.Props.Rounded
import Verif.Props.Sampling
import Verif.Props.Scene
import Verif.Props.SceneView
import Verif.Props.Shape
import Verif.Props.Similar
import Verif.Props.Spatial
import Verif.Props.Statistic
import Verif.Props.Steps
import Verif.Props.Stereo
import Verif.Props.Summary
import Verif.Props.System
import Verif.Props.SystemCache
import Verif.Props.SystemFit
import Verif.Props.SystemSample
import Verif.Props.Table
import Verif.Props.Terms
import Verif.Props.TopView
import Verif.Props.TraceAxes
import Verif.Props.TracePlot
import Verif.Props.Triangulate
import Verif.Props.Tuning
import Verif.Props.Turned
import Verif.Props.Twins
import Verif.Props.Unique
import Verif.Props.View
import Verif.Props.Warp
import Verif.Spec.Attributes
import Verif.Spec.Balance
import Verif.Spec.Batch
import Verif.Spec.CalView
import Verif.Spec.CalWin
import Verif.Spec.Camera
import Verif.Spec.Chess
import Verif.Spec.Clear
import Verif.Spec.ClearTurned
import Verif.Spec.Construct
import Verif.Spec.Demo
import Verif.Spec.DemoQt
import Verif.Spec.DemoScenes
import Verif.Spec.Epipolar
import Verif.Spec.Exif
import Verif.Spec.FitPlot
import Verif.Spec.Flat
import Verif.Spec.Fov
import Verif.Spec.Fridge
import Verif.Spec.Geometry
import Verif.Spec.Gps
import Verif.Spec.GpsFormat
import Verif.Spec.GpsText
import Verif.Spec.GraphicsView
import Verif.Spec.Group
import Verif.Spec.Lens
import Verif.Spec.Lines
import Verif.Spec.LoadAny
import Verif.Spec.Lut
import Verif.Spec.Mesh
import Verif.Spec.Moving
import Verif.Spec.Noise
import Verif.Spec.OpenCV
import Verif.Spec.Panorama
import Verif.Spec.Persist
import Verif.Spec.Planes
import Verif.Spec.Plot
import Verif.Spec.Pose
import Verif.Spec.Print
import Verif.Spec.QChoice
import Verif.Spec.Ray
import Verif.Spec.Rounded
import Verif.Spec.Same
import Verif.Spec.Scene
import Verif.Spec.SceneView
import Verif.Spec.Shape
import Verif.Spec.Similar
import Verif.Spec.Spline
import Verif.Spec.Statistic
import Verif.Spec.Stereo
import Verif.Spec.Summary
import Verif.Spec.System
import Verif.Spec.Table
import Verif.Spec.Terms
import Verif.Spec.TopView
import Verif.Spec.TracePlot
import Verif.Spec.Tuning
import Verif.Spec.Turned
import Verif.Spec.Twins
import Verif.Spec.Unique
import Verif.Spec.View
import Verif.Spec.Warp
import Verif.Vec
