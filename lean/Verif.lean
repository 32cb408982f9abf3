import Verif.Lemmas.Area
import Verif.Lemmas.Assemble.Clean
import Verif.Lemmas.Assemble.Connect
import Verif.Lemmas.Assemble.Contour
import Verif.Lemmas.Assemble.Even
import Verif.Lemmas.Assemble.Events
import Verif.Lemmas.Assemble.Graph
import Verif.Lemmas.Assemble.Loop
import Verif.Lemmas.Assemble.Net
import Verif.Lemmas.Assemble.Outcome
import Verif.Lemmas.Assemble.Polygons
import Verif.Lemmas.Assemble.Raw
import Verif.Lemmas.Assemble.Recorded
import Verif.Lemmas.Assemble.Region
import Verif.Lemmas.Assemble.Run
import Verif.Lemmas.Assemble.Shrink
import Verif.Lemmas.Assemble.Sides
import Verif.Lemmas.BO.Base
import Verif.Lemmas.BO.Clean
import Verif.Lemmas.BO.Detect
import Verif.Lemmas.BO.DetectCases
import Verif.Lemmas.BO.Init
import Verif.Lemmas.BO.Loop
import Verif.Lemmas.BO.NodedLoop
import Verif.Lemmas.BO.Noop
import Verif.Lemmas.BO.Proc
import Verif.Lemmas.BO.StepL
import Verif.Lemmas.BO.StepL2
import Verif.Lemmas.BO.StepL3
import Verif.Lemmas.BO.StepR
import Verif.Lemmas.BO.Struct
import Verif.Lemmas.BO.Valid
import Verif.Lemmas.BO.Wf
import Verif.Lemmas.BoundingBox
import Verif.Lemmas.Box
import Verif.Lemmas.BoxComplement
import Verif.Lemmas.Clipping
import Verif.Lemmas.ContourEq
import Verif.Lemmas.ContourRelate
import Verif.Lemmas.ContourSegments
import Verif.Lemmas.Delaunay
import Verif.Lemmas.Dense
import Verif.Lemmas.Face.Around
import Verif.Lemmas.Face.Darts
import Verif.Lemmas.Face.Forest
import Verif.Lemmas.Face.Last
import Verif.Lemmas.Face.Line
import Verif.Lemmas.Face.Link
import Verif.Lemmas.Face.Nest
import Verif.Lemmas.Face.Net
import Verif.Lemmas.Face.Walk
import Verif.Lemmas.Geometry
import Verif.Lemmas.Locate
import Verif.Lemmas.Mesh
import Verif.Lemmas.MixedOps
import Verif.Lemmas.MultiMulti
import Verif.Lemmas.MultiOps
import Verif.Lemmas.MultiRelate
import Verif.Lemmas.MultiRelate2
import Verif.Lemmas.Permute
import Verif.Lemmas.Reg
import Verif.Lemmas.Region
import Verif.Lemmas.RegionRelate
import Verif.Lemmas.Regular
import Verif.Lemmas.RelateMulti
import Verif.Lemmas.RelateShaped
import Verif.Lemmas.Relating
import Verif.Lemmas.SegmentBool
import Verif.Lemmas.SegmentOps
import Verif.Lemmas.Seidel.Build
import Verif.Lemmas.Seidel.Canon
import Verif.Lemmas.Seidel.Closing
import Verif.Lemmas.Seidel.ClosingSeen
import Verif.Lemmas.Seidel.Collect
import Verif.Lemmas.Seidel.Corner
import Verif.Lemmas.Seidel.Dec
import Verif.Lemmas.Seidel.Find
import Verif.Lemmas.Seidel.Flags
import Verif.Lemmas.Seidel.Frame
import Verif.Lemmas.Seidel.Gap
import Verif.Lemmas.Seidel.General
import Verif.Lemmas.Seidel.Geo
import Verif.Lemmas.Seidel.Graph
import Verif.Lemmas.Seidel.Indep
import Verif.Lemmas.Seidel.Inside
import Verif.Lemmas.Seidel.Links
import Verif.Lemmas.Seidel.Links2
import Verif.Lemmas.Seidel.Links3
import Verif.Lemmas.Seidel.Links4
import Verif.Lemmas.Seidel.Locate
import Verif.Lemmas.Seidel.Mid
import Verif.Lemmas.Seidel.Mid2
import Verif.Lemmas.Seidel.Ops
import Verif.Lemmas.Seidel.Rep
import Verif.Lemmas.Seidel.RepPoly
import Verif.Lemmas.Seidel.Split
import Verif.Lemmas.Seidel.Split2
import Verif.Lemmas.Seidel.Start
import Verif.Lemmas.Seidel.Step
import Verif.Lemmas.Seidel.Under
import Verif.Lemmas.ShapedCore
import Verif.Lemmas.ShapedOps
import Verif.Lemmas.ShapedResults
import Verif.Lemmas.ShapedSize
import Verif.Lemmas.ShapedValid
import Verif.Lemmas.SubtractLoop
import Verif.Lemmas.Sweep.Advance
import Verif.Lemmas.Sweep.Ann
import Verif.Lemmas.Sweep.Annot
import Verif.Lemmas.Sweep.Build
import Verif.Lemmas.Sweep.ContourParity
import Verif.Lemmas.Sweep.Ctx
import Verif.Lemmas.Sweep.Detect
import Verif.Lemmas.Sweep.Flags
import Verif.Lemmas.Sweep.Inv
import Verif.Lemmas.Sweep.Left
import Verif.Lemmas.Sweep.Loop
import Verif.Lemmas.Sweep.MixInit
import Verif.Lemmas.Sweep.MixLab
import Verif.Lemmas.Sweep.MixLoop
import Verif.Lemmas.Sweep.MixProc
import Verif.Lemmas.Sweep.MixResult
import Verif.Lemmas.Sweep.MixRun
import Verif.Lemmas.Sweep.MixSim
import Verif.Lemmas.Sweep.MixStep
import Verif.Lemmas.Sweep.Order
import Verif.Lemmas.Sweep.Parity
import Verif.Lemmas.Sweep.Quadrant
import Verif.Lemmas.Sweep.Queue
import Verif.Lemmas.Sweep.RelGroup
import Verif.Lemmas.Sweep.RelLoop
import Verif.Lemmas.Sweep.RelStep
import Verif.Lemmas.Sweep.RelUpdate
import Verif.Lemmas.Sweep.Result
import Verif.Lemmas.Sweep.Right
import Verif.Lemmas.Sweep.ShapeEdges
import Verif.Lemmas.Sweep.ShpAdj
import Verif.Lemmas.Sweep.ShpClass
import Verif.Lemmas.Sweep.ShpEven
import Verif.Lemmas.Sweep.ShpFinal
import Verif.Lemmas.Sweep.ShpInv
import Verif.Lemmas.Sweep.ShpKls
import Verif.Lemmas.Sweep.ShpLoop
import Verif.Lemmas.Sweep.ShpPoint
import Verif.Lemmas.Sweep.ShpProc
import Verif.Lemmas.Sweep.ShpRelLoop
import Verif.Lemmas.Sweep.ShpRelPts
import Verif.Lemmas.Sweep.ShpRelRun
import Verif.Lemmas.Sweep.ShpRelSets
import Verif.Lemmas.Sweep.ShpRule
import Verif.Lemmas.Sweep.ShpSel
import Verif.Lemmas.Sweep.ShpSim
import Verif.Lemmas.Sweep.ShpStep
import Verif.Lemmas.Sweep.ShpUpdate
import Verif.Lemmas.Sweep.State
import Verif.Lemmas.UniteLoop
import Verif.Lemmas.Valid
import Verif.Model.Basic
import Verif.Model.BentleyOttmann
import Verif.Model.Clipping
import Verif.Model.ConstrainedDelaunay
import Verif.Model.Constructors
import Verif.Model.ContourOps
import Verif.Model.Dispatch
import Verif.Model.DispatchShaped
import Verif.Model.Geometries
import Verif.Model.Helpers
import Verif.Model.Linear
import Verif.Model.Mesh
import Verif.Model.Mixed
import Verif.Model.RelateLinear
import Verif.Model.RelateMixed
import Verif.Model.RelateShaped
import Verif.Model.Relating
import Verif.Model.Repr
import Verif.Model.SegmentEq
import Verif.Model.SegmentRelate
import Verif.Model.Shaped
import Verif.Model.Trapezoidation
import Verif.Props.Algebra
import Verif.Props.Area
import Verif.Props.Basics
import Verif.Props.Boxes
import Verif.Props.ConstrainedDelaunay
import Verif.Props.ConstrainedDelaunayExamples
import Verif.Props.Contours
import Verif.Props.Helpers
import Verif.Props.Mesh
import Verif.Props.Mixed
import Verif.Props.MixedExamples
import Verif.Props.MixedFindings
import Verif.Props.Multisegmentals
import Verif.Props.Regions
import Verif.Props.RelateLinear
import Verif.Props.RelateMixed
import Verif.Props.RelateShaped
import Verif.Props.RelateShapedExamples
import Verif.Props.Repr
import Verif.Props.ReprEval
import Verif.Props.SegmentOps
import Verif.Props.SegmentRelate
import Verif.Props.Seidel
import Verif.Props.SeidelCorrect
import Verif.Props.Shaped
import Verif.Props.ShapedAlgebra
import Verif.Props.ShapedExact
import Verif.Props.ShapedFindings
import Verif.Props.ShapedHoleless
import Verif.Props.ShapedLaws
import Verif.Props.ShapedRegular
import Verif.Props.ShapedValid
import Verif.Props.Shrink
import Verif.Props.Sweep
import Verif.Props.Validity
import Verif.Spec.Basic
import Verif.Spec.Box
import Verif.Spec.Geom
import Verif.Spec.LinearRelation
import Verif.Spec.Relation
import Verif.Spec.SegmentRelation
import Verif.Spec.Shaped
import Verif.Spec.ShapedRelation
import Verif.Spec.Shapes
