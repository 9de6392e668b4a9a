import Verif.Model.Basic
import Verif.Spec.Mesh
import Verif.Model.Edges
import Verif.Lemmas.Unique
import Verif.Lemmas.Edges
import Verif.Spec.Poly
import Verif.Lemmas.Poly
import Verif.Props.Edges
import Verif.Model.FixMesh
import Verif.Spec.Geometry
import Verif.Lemmas.FixMesh
import Verif.Lemmas.Orders
import Verif.Lemmas.FixMesh2
import Verif.Lemmas.FixMesh3
import Verif.Props.FixMesh
import Verif.Props.Quality
import Verif.Model.GradLimit
import Verif.Lemmas.GradLimit
import Verif.Lemmas.GradLimit2
import Verif.Props.GradLimit
import Verif.Model.Clean
import Verif.Lemmas.Clean1
import Verif.Lemmas.Clean2
import Verif.Lemmas.Clean3
import Verif.Lemmas.Clean4
import Verif.Lemmas.Clean5
import Verif.Lemmas.Clean6
import Verif.Lemmas.Stable
import Verif.Lemmas.Clean7
import Verif.Lemmas.Clean8
import Verif.Props.Clean
import Verif.Model.Smooth
import Verif.Spec.Smooth
import Verif.Lemmas.Smooth
import Verif.Props.Smooth
import Verif.Model.Boundary
import Verif.Lemmas.Boundary
import Verif.Props.Boundary
import Verif.Model.Region
import Verif.Spec.Box
import Verif.Props.Region
import Verif.Model.Geodata
import Verif.Props.Boxes
import Verif.Lemmas.Polys
import Verif.Lemmas.Ccw
import Verif.Lemmas.Densify
import Verif.Model.Circle
import Verif.Props.Polys
import Verif.Model.Grid
import Verif.Spec.Lattice
import Verif.Lemmas.Grid
import Verif.Props.Grid
import Verif.Props.GridMin
import Verif.Model.Idw
import Verif.Props.Idw
import Verif.Model.Blend
import Verif.Props.Blend
import Verif.Model.Edgefx
import Verif.Model.Filter
import Verif.Model.Sizing
import Verif.Spec.Band
import Verif.Props.Edgefx
import Verif.Props.Distance
import Verif.Props.Filter
import Verif.Props.Sizing
import Verif.Model.Sdf
import Verif.Props.Sdf
import Verif.Model.Inpoly
import Verif.Spec.Polygon
import Verif.Lemmas.Inpoly
import Verif.Props.Inpoly
import Verif.Props.Rings
import Verif.Spec.Fort14
import Verif.Model.Export
import Verif.Lemmas.Text
import Verif.Props.Export
import Verif.Model.Delaunay
import Verif.Spec.Triangulation
import Verif.Props.Delaunay
import Verif.Model.Validate
import Verif.Spec.Multiscale
import Verif.Props.Validate
import Verif.Model.Generator
import Verif.Spec.Generator
import Verif.Props.Forces
import Verif.Props.Projection
import Verif.Props.Initial
import Verif.Props.Generate
import Verif.Props.FixedPoints
import Verif.Props.Distortion
import Verif.Model.Dem
import Verif.Spec.Dem
import Verif.Props.Dem
import Verif.Props.DemSubset
import Verif.Model.Multimesh
import Verif.Props.Multimesh
import Verif.Model.Shoreline
import Verif.Props.Shoreline
import Verif.Model.Rossby
import Verif.Props.Rossby
import Verif.Model.SizingInput
import Verif.Props.SizingInput
import Verif.Props.GenerateTotal
import Verif.Props.InpolyPaths
import Verif.Props.Workflow
import Verif.Props.EndToEnd
import Verif.Model.GenerateCall
import Verif.Props.GenerateCall
import Verif.Props.SizingPipeline
import Verif.Model.ShoreSdf
import Verif.Props.InpolyRegion
import Verif.Props.InpolyMesh
import Verif.Props.ShoreSdf
import Verif.Props.SeaMesh
import Verif.Props.PolarGradation
import Verif.Props.ValidateReports
import Verif.Props.Circle
import Verif.Props.SectionsExact
import Verif.Props.Globe
import Verif.Props.GridExact
import Verif.Props.Feature
import Verif.Props.IdwState
import Verif.Props.GradLimitFl
import Verif.Props.InpolyFl
import Verif.Props.SimpVolFl
import Verif.Props.SdfExact
import Verif.Props.RossbyExact
import Verif.Props.DemMirror
import Verif.Props.TotalBounds
import Verif.Props.BlendList
import Verif.Props.BlendExact
import Verif.Model.Wheels
import Verif.Props.Wheels
import Verif.Props.Version
import Verif.Props.OneFace
import Verif.Props.ClipSnap
import Verif.Props.GridFl
import Verif.Props.MergeFl
import Verif.Model.SmoothFl
import Verif.Spec.SmoothFl
import Verif.Props.SmoothFl
import Verif.Model.FixMeshFl
import Verif.Lemmas.FixMeshFl
import Verif.Props.FixMeshFl
import Verif.Model.InpolyPyFl
import Verif.Lemmas.InpolyPyFl
import Verif.Props.InpolyPyFl
import Verif.Props.Reproject
import Verif.Props.SizingMinimum
import Verif.Model.InitialFl
import Verif.Props.InitialFl
import Verif.Model.GenerateFl
import Verif.Spec.GenerateFl
import Verif.Props.GenerateFl
import Verif.Props.GenerateFl2
import Verif.Props.GenerateFl3
import Verif.Model.ShoreSdfFl
import Verif.Props.ShoreSdfFl
import Verif.Props.SeaMeshFl
import Verif.Props.SeaMeshFl2
import Verif.Props.SeaMeshFl3
import Verif.Model.SizingFl
import Verif.Props.SizingFl
import Verif.Model.VersionSources
import Verif.Props.VersionSources
import Verif.Model.BoxFl
import Verif.Props.BoxFl
import Verif.Model.CleanFl
import Verif.Lemmas.CleanFl
import Verif.Lemmas.CleanFl2
import Verif.Props.CleanFl
import Verif.Model.QualFl
import Verif.Lemmas.QualFl
import Verif.Props.QualFl
import Verif.Props.QualFl2
import Verif.Model.IdwFl
import Verif.Props.IdwFl
import Verif.Props.IdwFl2
import Verif.Model.ShoreFl
import Verif.Lemmas.QuarterFl
import Verif.Props.ShoreFl
import Verif.Props.ShoreFl2
import Verif.Model.GridObj
import Verif.Props.GridObj
import Verif.Props.GridObj2
import Verif.Props.GridObj3
import Verif.Model.MachineInt
import Verif.Props.MachineInt
import Verif.Props.MachineInt2
import Verif.Model.VersionStyles
import Verif.Props.VersionStyles
import Verif.Props.VersionStyles2
import Verif.Model.ShoreAttr
import Verif.Props.ShoreAttr
import Verif.Model.Helpers
import Verif.Props.Helpers
import Verif.Model.SetupPy
import Verif.Props.SetupPy
import Verif.Props.ExportOrient
import Verif.Props.Numbering
import Verif.Props.Numbering2
import Verif.Props.Numbering3
import Verif.Props.Moving
import Verif.Props.Moving2
import Verif.Props.Shoreline2
import Verif.Props.GradCompare
import Verif.Props.NanRows
import Verif.Model.VersionFile
import Verif.Props.VersionFile
import Verif.Props.MovingSea
import Verif.Props.MovingGen
import Verif.Props.Pinned
import Verif.Model.Install
import Verif.Spec.Text
import Verif.Props.Install
import Verif.Props.MovingSizes
import Verif.Props.SeaMoved
import Verif.Model.BuildVersion
import Verif.Props.BuildVersion
import Verif.Props.ShoreMoved
import Verif.Props.BlendMoved
import Verif.Props.MultiMoved
import Verif.Props.FileMoved
import Verif.Props.BuildCommands
import Verif.Props.FixMesh3D
import Verif.Props.SlopeMoved
import Verif.Model.TetQual
import Verif.Props.TetQual
import Verif.Props.FixMesh3DAgain
import Verif.Model.Plots
import Verif.Props.Plots
import Verif.Model.Setup
import Verif.Props.Setup
