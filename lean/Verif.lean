import Verif.Model.Basic
import Verif.Spec.CoxDeBoor
import Verif.Lemmas.LocalBasis
import Verif.Lemmas.Blossom
import Verif.Model.Basis
import Verif.Lemmas.Knots
import Verif.Lemmas.FindSpan
import Verif.Lemmas.BasisFuncs
import Verif.Lemmas.Deriv
import Verif.Lemmas.DersBasis
import Verif.Model.Curve
import Verif.Lemmas.Eval
import Verif.Lemmas.BasisRec
import Verif.Lemmas.EvalAll
import Verif.Lemmas.NoThrow
import Verif.Samples
import Verif.Props.Evaluation
import Verif.Props.EvaluationReal
import Verif.Lemmas.Unflat
import Verif.Props.Constructor
import Verif.Model.KnotInsertion
import Verif.Lemmas.Copy
import Verif.Lemmas.PolyEq
import Verif.Lemmas.InsertMath
import Verif.Lemmas.Insert
import Verif.Lemmas.InsertCurve
import Verif.Lemmas.Mult
import Verif.Props.Insertion
import Verif.Model.Trim
import Verif.Lemmas.Trim
import Verif.Props.Trim
import Verif.Lemmas.DerivCurve
import Verif.Model.Reparam
import Verif.Lemmas.Reparam
import Verif.Props.Reparam
import Verif.Props.DerivCurve
import Verif.Props.Continuity
import Verif.Model.Rational
import Verif.Lemmas.Linear
import Verif.Lemmas.Rational
import Verif.Props.Rational
import Verif.Props.RationalReal
import Verif.Model.Ranges
import Verif.Props.Ranges
import Verif.Props.Parametrization
import Verif.Model.Surface
import Verif.Lemmas.Surface
import Verif.Lemmas.LinearOps
import Verif.Lemmas.SurfaceOps
import Verif.Props.Surface
import Verif.Props.SurfaceKnots
import Verif.Props.SurfaceMisc
import Verif.Props.SurfaceReparam
import Verif.Model.Degree
import Verif.Lemmas.Elevate
import Verif.Lemmas.Bezier
import Verif.Props.Bezier
import Verif.Lemmas.RemoveMath
import Verif.Lemmas.RemoveKnot
import Verif.Lemmas.Unique
import Verif.Lemmas.OkInv
import Verif.Props.RemoveKnot
import Verif.Props.RemoveTol
import Verif.Props.RemoveTolReal
import Verif.Props.Unify
import Verif.Props.Interp
import Verif.Props.IncreaseDegree
import Verif.Props.SurfaceDegree
import Verif.Model.Transform
import Verif.Lemmas.Transform
import Verif.Props.Transform
import Verif.Props.Frames
import Verif.Props.Conics
import Verif.Model.Wrapped
import Verif.Model.Parallel
import Verif.Props.Wrapped
import Verif.Props.WrappedReal
import Verif.Props.Circles
import Verif.Props.Revolution
import Verif.Props.Parallel
import Verif.Model.Geom2
import Verif.Props.Geom2
import Verif.Props.Polygon
import Verif.Model.HalfEdge
import Verif.Props.MeshRing
import Verif.Props.MeshSpec
import Verif.Props.MeshFlip
import Verif.Props.MeshFan
import Verif.Props.MeshAdd
import Verif.Model.BoyerWatson
import Verif.Lemmas.Crossing
import Verif.Props.MeshLoops
import Verif.Props.MeshBorder
import Verif.Props.MeshGeom
import Verif.Props.Cavity
import Verif.Props.Refill
import Verif.Props.Insert
import Verif.Lemmas.InCircle
import Verif.Props.Delaunay
import Verif.Props.MeshRemove
import Verif.Props.Delaunay2D
import Verif.Props.MeshVertex
import Verif.Props.MeshSplit
import Verif.Model.EdgeRecovery
import Verif.Props.MeshFaces
import Verif.Props.Recover
import Verif.Model.Float
import Verif.Model.Predicates
import Verif.Lemmas.Float
import Verif.Lemmas.ErrorFree
import Verif.Lemmas.Expansion
import Verif.Lemmas.TwoTwoDiff
import Verif.Lemmas.Adapt
import Verif.Lemmas.Range
import Verif.Props.Orient
import Verif.Props.ErrorFree
import Verif.Lemmas.SchoenbergWhitney
import Verif.Lemmas.Collocation
import Verif.Props.Collocation
import Verif.Model.SurfInterp
import Verif.Lemmas.SurfInterp
import Verif.Props.SurfInterp
import Verif.Props.InterpUnisolvent
import Verif.Model.Approx
import Verif.Lemmas.LeastSquares
import Verif.Lemmas.Approx
import Verif.Props.Approx
import Verif.Props.ApproxRefine
import Verif.Model.SurfApprox
import Verif.Props.SurfApprox
import Verif.Model.Join
import Verif.Lemmas.Join
import Verif.Props.Join
import Verif.Model.Extend
import Verif.Lemmas.EndPoles
import Verif.Lemmas.Extend
import Verif.Props.Extend
import Verif.Model.Loft
import Verif.Lemmas.Loft
import Verif.Lemmas.UnifyAgain
import Verif.Props.Loft
import Verif.Props.LoftAuto
import Verif.Model.SurfTools
import Verif.Lemmas.SurfSame
import Verif.Props.SurfJoin
import Verif.Model.UnifySurf
import Verif.Lemmas.UnifySurf
import Verif.Props.UnifySurf
import Verif.Model.Gordon
import Verif.Lemmas.Gordon
import Verif.Props.Gordon
import Verif.Model.Spine
import Verif.Lemmas.Spine
import Verif.Props.Spine
import Verif.Model.ExtendSurf
import Verif.Lemmas.ExtendSurf
import Verif.Props.ExtendSurf
import Verif.Lemmas.ExtendLen
import Verif.Props.ExtendLen
import Verif.Model.Shaping
import Verif.Lemmas.Shaping
import Verif.Props.Shaping
import Verif.Props.ShapingSurf
import Verif.Model.Tfi
import Verif.Lemmas.Tfi
import Verif.Props.Tfi
import Verif.Model.Discretize
import Verif.Props.Discretize
import Verif.Model.Smoothing
import Verif.Props.Smoothing
import Verif.Model.Wire
import Verif.Props.Wire
import Verif.Model.Connect
import Verif.Lemmas.Connect
import Verif.Props.Connect
import Verif.Lemmas.Winding
import Verif.Lemmas.Planar
import Verif.Model.Constrained
import Verif.Lemmas.Constrained
import Verif.Props.Constrained
import Verif.Lemmas.RectMesh
import Verif.Model.SurfaceMesh
import Verif.Props.SurfaceMesh
import Verif.Props.MeshRefine
import Verif.Model.TakeFaces
import Verif.Props.TakeFaces
import Verif.Model.Json
import Verif.Props.Json
import Verif.Model.Laplacian
import Verif.Props.Laplacian
import Verif.Model.Extrema
import Verif.Props.Extrema
import Verif.Lemmas.PolyBlossom
import Verif.Model.AbsCurv
import Verif.Props.AbsCurv
import Verif.Model.Quality
import Verif.Props.Quality
import Verif.Model.CurveApprox
import Verif.Props.CurveApprox
import Verif.Model.MshEdge
import Verif.Props.MshEdge
import Verif.Lemmas.SpanSamples
import Verif.Model.Offset
import Verif.Props.Offset
import Verif.Model.Tangents
import Verif.Props.Tangents
import Verif.Model.RollingBall
import Verif.Props.RollingBall
import Verif.Model.Frenet
import Verif.Props.Frenet
import Verif.Model.Lattice
import Verif.Props.Lattice
import Verif.Model.FromText
import Verif.Props.FromText
import Verif.Model.Batch
import Verif.Props.Batch
import Verif.Props.ExtendRat
import Verif.Props.TfiSizes
import Verif.Model.LoftApprox
import Verif.Props.LoftApprox
import Verif.Model.BaseDelaunay
import Verif.Props.BaseDelaunay
import Verif.Model.FillPoles
import Verif.Props.FillPoles
import Verif.Model.Polydata
import Verif.Props.Polydata
import Verif.Model.Iges
import Verif.Props.Iges
import Verif.Model.AddDimension
import Verif.Props.AddDimension
import Verif.Model.Neighbours
import Verif.Props.Neighbours
import Verif.Model.UnifyCurves
import Verif.Props.UnifyCurves
import Verif.Model.LoftCurves
import Verif.Props.LoftCurves
import Verif.Model.JsonInterp
import Verif.Props.JsonInterp
import Verif.Model.Coordinate
import Verif.Props.Coordinate
import Verif.Model.Incenter
import Verif.Props.Incenter
import Verif.Model.Circulation
import Verif.Props.Circulation
import Verif.Props.Offset3d
import Verif.Model.Angles
import Verif.Props.Angles
import Verif.Model.TfiBlend
import Verif.Props.TfiBlend
import Verif.Model.ValueLists
import Verif.Props.ValueLists
import Verif.Model.UnifyPair
import Verif.Props.UnifyPair
import Verif.Model.TriDeviation
import Verif.Props.TriDeviation
import Verif.Model.FaceCcw
import Verif.Props.FaceCcw
