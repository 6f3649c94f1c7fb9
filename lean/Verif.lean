import Verif.Golden.Float
import Verif.Golden.Hull
import Verif.Golden.Line
import Verif.Golden.Shape
import Verif.Golden.Simplify
import Verif.Model.Aabb
import Verif.Model.Debug
import Verif.Model.Discretize
import Verif.Model.Dist
import Verif.Model.Err
import Verif.Model.Float
import Verif.Model.Hull
import Verif.Model.Iter
import Verif.Model.Line2
import Verif.Model.LineString2
import Verif.Model.Misc
import Verif.Model.Obj
import Verif.Model.Parabola
import Verif.Model.Rdp
import Verif.Model.Scalar
import Verif.Model.Shape
import Verif.Model.Sweep
import Verif.Model.Vw
import Verif.Proofs.Aabb
import Verif.Proofs.Contain
import Verif.Proofs.Float
import Verif.Proofs.FloatDiscretize
import Verif.Proofs.FloatHull
import Verif.Proofs.FloatIntersect
import Verif.Proofs.FloatLinePoint
import Verif.Proofs.FloatRay
import Verif.Proofs.FloatRound
import Verif.Proofs.FloatSimplify
import Verif.Proofs.FloatUlps
import Verif.Proofs.Gift
import Verif.Proofs.HullFan
import Verif.Proofs.HullLoop
import Verif.Proofs.HullModel
import Verif.Proofs.HullScan
import Verif.Proofs.HullTransfer
import Verif.Proofs.HullTransferPar
import Verif.Proofs.HullUnique
import Verif.Proofs.Intersect
import Verif.Proofs.Merge
import Verif.Proofs.Rdp
import Verif.Proofs.RdpRefine
import Verif.Proofs.ShapeBasic
import Verif.Proofs.ShapeCover
import Verif.Proofs.ShapeMain
import Verif.Proofs.ShapeNear
import Verif.Proofs.ShapeSimplify
import Verif.Proofs.ShapeTotal
import Verif.Proofs.ShapeUnique
import Verif.Proofs.SimplifyCurve
import Verif.Proofs.Sweep
import Verif.Proofs.SweepCand
import Verif.Proofs.SweepComplete
import Verif.Proofs.SweepCore
import Verif.Proofs.SweepDone
import Verif.Proofs.SweepGP
import Verif.Proofs.SweepInit
import Verif.Proofs.SweepLoop
import Verif.Proofs.SweepMove
import Verif.Proofs.SweepOrder
import Verif.Proofs.SweepRaw
import Verif.Proofs.SweepRawInit
import Verif.Proofs.SweepRename
import Verif.Proofs.SweepShared
import Verif.Proofs.SweepStep
import Verif.Proofs.SweepTable
import Verif.Proofs.SweepTree
import Verif.Proofs.Vw
import Verif.Props.Aabb
import Verif.Props.AffineInv
import Verif.Props.BoxCenter
import Verif.Props.BoxHull
import Verif.Props.BoxMore
import Verif.Props.ClosedStart
import Verif.Props.Contain
import Verif.Props.ContainExact
import Verif.Props.ContainSmall
import Verif.Props.Curve
import Verif.Props.Debug
import Verif.Props.Direction
import Verif.Props.DirectionMore
import Verif.Props.Discretize
import Verif.Props.DiscretizeSim
import Verif.Props.Dist
import Verif.Props.FloatAffine
import Verif.Props.FloatArc
import Verif.Props.FloatArcNear
import Verif.Props.FloatBox
import Verif.Props.FloatBoxHull
import Verif.Props.FloatContain
import Verif.Props.FloatDiscretize
import Verif.Props.FloatDist
import Verif.Props.FloatGraham
import Verif.Props.FloatHull
import Verif.Props.FloatHullAgree
import Verif.Props.FloatHullPar
import Verif.Props.FloatIntersect
import Verif.Props.FloatLinePoint
import Verif.Props.FloatLineString
import Verif.Props.FloatRay
import Verif.Props.FloatRdp
import Verif.Props.FloatRdpExtremes
import Verif.Props.FloatSelf
import Verif.Props.FloatShared
import Verif.Props.FloatSimple
import Verif.Props.FloatSweep
import Verif.Props.FloatTiny
import Verif.Props.FloatVw
import Verif.Props.FloatVwRefine
import Verif.Props.GiftWrap
import Verif.Props.Hull
import Verif.Props.HullContain
import Verif.Props.HullMerge
import Verif.Props.HullMore
import Verif.Props.HullOneChunk
import Verif.Props.HullPar
import Verif.Props.HullSmall
import Verif.Props.HullUnique
import Verif.Props.HullWalk
import Verif.Props.IndexedHull
import Verif.Props.IndexedRdp
import Verif.Props.Intersect
import Verif.Props.Iter
import Verif.Props.Length
import Verif.Props.Misc
import Verif.Props.Nested
import Verif.Props.NoLoop
import Verif.Props.Obj
import Verif.Props.ObjText
import Verif.Props.Parabola
import Verif.Props.Parts
import Verif.Props.Planar
import Verif.Props.Rdp
import Verif.Props.RdpExtremes
import Verif.Props.RdpRefine
import Verif.Props.Reverse
import Verif.Props.ReverseMore
import Verif.Props.Shape
import Verif.Props.ShapeSimplify
import Verif.Props.ShapeSimplifyFloat
import Verif.Props.ShapeUnique
import Verif.Props.Similar
import Verif.Props.Simple
import Verif.Props.SimplifyCurve
import Verif.Props.SimplifyCurveFloat
import Verif.Props.Small
import Verif.Props.Sweep
import Verif.Props.SweepComplete
import Verif.Props.SweepDirection
import Verif.Props.SweepIndexed
import Verif.Props.SweepMove
import Verif.Props.SweepOrder
import Verif.Props.SweepParts
import Verif.Props.SweepRename
import Verif.Props.SweepTable
import Verif.Props.SweepTouch
import Verif.Props.Vw
import Verif.Props.VwRefine
import Verif.Props.VwRefineClosed
import Verif.Spec.Affine
import Verif.Spec.AffineMap
import Verif.Spec.Angle
import Verif.Spec.Attr
import Verif.Spec.Box
import Verif.Spec.Decimal
import Verif.Spec.Discretize
import Verif.Spec.Float
import Verif.Spec.Geom
import Verif.Spec.Heap
import Verif.Spec.Hull
import Verif.Spec.Instances
import Verif.Spec.Intersect
import Verif.Spec.Laws
import Verif.Spec.Length
import Verif.Spec.Shape
import Verif.Spec.Similar
import Verif.Spec.Simplify
import Verif.Spec.Sweep
import Verif.Witness.Contain
import Verif.Witness.FloatGeometry
import Verif.Witness.FloatSimple
import Verif.Witness.FloatSimplify
import Verif.Witness.FloatSweep
import Verif.Witness.FloatVwRefine
import Verif.Witness.Hull
import Verif.Witness.Intersect
import Verif.Witness.RdpExtremes
import Verif.Witness.Shape
import Verif.Witness.Simple
import Verif.Witness.Simplify
import Verif.Witness.Sweep
import Verif.Witness.SweepLong
import Verif.Witness.Various
import Verif.Witness.VwRefine
import Verif.Witness.VwRefineClosed
