import Verif.DisjointSet.Props
import Verif.Tet.Props
import Verif.Tet.Incident
import Verif.Tet.Large
import Verif.Hilbert.Props
import Verif.InSphere.Props
import Verif.Tet.Finish
import Verif.Geom.Axis
import Verif.Pred.Props
import Verif.Float.Props
import Verif.Float.ExpansionProps
import Verif.Interval.StageProps
import Verif.Surface.Props
import Verif.Flow.Props
import Verif.Flow.Fresh
import Verif.Poly.Dedup
import Verif.Poly.Lists
import Verif.Poly.Orient
import Verif.Poly.Cells
import Verif.Poly.New
import Verif.Poly.FaceSearch
import Verif.Poly.Virtual
import Verif.Tri.Soup
import Verif.Tri.Mesh
import Verif.Tri.Insert
import Verif.Tri.Flood
import Verif.Tri.DivConq
import Verif.Tri.Witness
import Verif.Float.TwoTwo
import Verif.Float.Orient2d
import Verif.Float.Estimate
import Verif.Float.Orient3d
import Verif.Float.Orient3dFilter
import Verif.Float.Orient3dProps
import Verif.Float.Incircle
import Verif.Float.IncircleFilter
import Verif.Float.IncircleProps
import Verif.Float.Insphere
import Verif.Float.InsphereRows
import Verif.Float.Orient4d
import Verif.Float.InsphereFilter
import Verif.Float.InsphereProps
import Verif.Float.Invariance
import Verif.Cut.Model
import Verif.Cut.Tree
import Verif.Cut.Augment
import Verif.Cut.Adopt
import Verif.Cut.Loop
import Verif.Cut.Props
import Verif.Cut.Ends
import Verif.Bsp.Cycle
import Verif.Bsp.SplitFace
import Verif.Bsp.Model
import Verif.Bsp.Edge
import Verif.Bsp.Shape
import Verif.Bsp.Piece
import Verif.Bsp.Loop
import Verif.Bsp.Close
import Verif.Bsp.SplitCell
import Verif.Bsp.Test
import Verif.Bsp.Kept
import Verif.Bsp.Partition
import Verif.Bsp.Price
import Verif.Bsp.Cheapest
import Verif.Bsp.Choice
import Verif.Bsp.Fits
import Verif.Bsp.Outlines
import Verif.Bsp.Merge
import Verif.Bsp.OutputProps
import Verif.Bsp.Read
import Verif.Bsp.Init
import Verif.Tet.Whole
import Verif.Delaunay.Spec
import Verif.Delaunay.Algebra
import Verif.Delaunay.Reg
import Verif.Delaunay.Grow
import Verif.Delaunay.Lift
import Verif.Delaunay.Geo
import Verif.Delaunay.Start
import Verif.Delaunay.Walk
import Verif.Delaunay.Count
import Verif.Delaunay.Keep
import Verif.Delaunay.Step
import Verif.Delaunay.Initial
import Verif.Delaunay.Tile
import Verif.Delaunay.Main
import Verif.Delaunay.First
import Verif.Delaunay.Props
import Verif.Constraint.Model
import Verif.Constraint.Spec
import Verif.Constraint.Plane
import Verif.Constraint.Type
import Verif.Constraint.Inner
import Verif.Constraint.Interior
import Verif.Constraint.Room
import Verif.Constraint.Hole
import Verif.Delaunay.Complex
import Verif.Constraint.Around
import Verif.Constraint.Simplicial
import Verif.Constraint.Weights
import Verif.Constraint.Tests
import Verif.Constraint.Line
import Verif.Constraint.Steps
import Verif.Constraint.EdgeStep
import Verif.Constraint.FaceStep
import Verif.Constraint.SideWalk
import Verif.Constraint.Sides
import Verif.Constraint.Cuts
import Verif.Constraint.Improper
import Verif.Constraint.Exact
import Verif.Constraint.Insert
import Verif.Bsp.Vec
import Verif.Bsp.Polygon
import Verif.Bsp.Dir
import Verif.Bsp.Reshape
import Verif.Bsp.Geo
import Verif.Bsp.Curve
import Verif.Bsp.Flow
import Verif.Bsp.Cut
import Verif.Bsp.Plane
import Verif.Bsp.Meet
import Verif.Bsp.Halves
import Verif.Bsp.Hull
import Verif.Bsp.Regions
import Verif.Bsp.InitGeo
import Verif.Bsp.Slices
import Verif.Bsp.Tiling
import Verif.Bsp.TriTests
import Verif.Bsp.GeoLoop
import Verif.Bsp.Pipeline
import Verif.Bsp.GeoExamples
import Verif.Bsp.Inside
import Verif.Bsp.Volume
import Verif.Bsp.Solid
import Verif.Bsp.SolidExamples
import Verif.Bsp.FaceTrace
import Verif.Bsp.Listed
import Verif.Bsp.InitListed
import Verif.Bsp.FaceHits
import Verif.Bsp.SolidPoints
import Verif.Bsp.General
import Verif.Bsp.GeneralPoints
import Verif.Bsp.Input
import Verif.Bsp.Area
import Verif.Bsp.PolyInput
import Verif.Bsp.KeptSolid
import Verif.Bsp.Runs
import Verif.Bsp.MergeAll
import Verif.Bsp.ClosedOutput
import Verif.Bsp.Consistent
import Verif.Constraint.FaceFound
import Verif.Tri.Hulls
import Verif.Tri.HullsBase
import Verif.Tri.HullsAll
import Verif.Tri.Ghost
import Verif.Tri.GhostAll
