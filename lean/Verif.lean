import Verif.Float.Basic
import Verif.Float.Round
import Verif.Float.Ops
import Verif.Model.Scalar
import Verif.Model.Interval
import Verif.Spec.Float
import Verif.Theory.Flt
import Verif.Theory.Enclose
import Verif.Props.Float
import Verif.Props.Float2
import Verif.Props.Float3
import Verif.Spec.Interval
import Verif.Theory.Interval
import Verif.Props.Interval1
import Verif.Props.Interval2
import Verif.Props.Interval3
import Verif.Spec.IntervalExpr
import Verif.Props.Interval4
import Verif.Props.IntervalMono
import Verif.Spec.Libm
import Verif.Theory.Trig
import Verif.Props.Interval5
import Verif.Spec.Atan2
import Verif.Props.Interval6
import Verif.Model.Ideal
import Verif.Model.Vector
import Verif.Model.Transform
import Verif.Model.Bbox
import Verif.Model.Sphere
import Verif.Model.Primitive
import Verif.Model.Camera
import Verif.Spec.Exact
import Verif.Spec.Transform
import Verif.Theory.Vec
import Verif.Theory.Mat
import Verif.Theory.Transform
import Verif.Props.Vector
import Verif.Props.Matrix
import Verif.Props.Transform1
import Verif.Props.Transform2
import Verif.Props.Transform3
import Verif.Props.Transform4
import Verif.Spec.Bbox
import Verif.Theory.Bbox
import Verif.Props.Bbox1
import Verif.Props.Bbox2
import Verif.Props.Bbox3
import Verif.Spec.Sphere
import Verif.Props.Sphere1
import Verif.Props.Sphere2
import Verif.Props.Primitive
import Verif.Props.Camera1
import Verif.Props.Camera2
import Verif.Props.Camera3
import Verif.Props.Camera4
import Verif.Theory.Err
import Verif.Props.Float4
import Verif.Props.Almost
import Verif.Props.FloatVec
import Verif.Props.FloatXform
import Verif.Props.Scene
import Verif.Props.Rescale
import Verif.Props.FloatSphere
import Verif.Props.FloatBox
import Verif.Props.FloatNorm
import Verif.Props.IntervalVec
import Verif.Model.Imperative
import Verif.Props.Imperative
import Verif.Props.CameraFloat
import Verif.Props.Camera5
import Verif.Props.IntScalar
import Verif.Props.IntervalConst
import Verif.Props.MapBox
import Verif.Props.Exact
import Verif.Props.ParallelBox
import Verif.Props.QuadFloat
import Verif.Props.SphereFloat
import Verif.Props.FloatTrip
import Verif.Props.Exact2
import Verif.Props.Tight
import Verif.Theory.Near
import Verif.Props.FloatRot
import Verif.Props.FloatLook
import Verif.Theory.Rel
import Verif.Props.FloatPersp
import Verif.Props.Gaps
import Verif.Props.FloatMapBox
import Verif.Props.FloatInverse
import Verif.Props.FloatUnproj
import Verif.Props.FloatDisk
import Verif.Props.FloatCam
import Verif.Props.SphereUV
import Verif.Props.Cull
import Verif.Props.SphereTight
import Verif.Props.FloatCross
import Verif.Props.FloatRay
import Verif.Props.FloatObject
import Verif.Props.SphereLine
import Verif.Props.Mirror
import Verif.Props.Units
import Verif.Props.IntervalFloat
import Verif.Props.FloatBoxHit
import Verif.Props.FloatShadeCore
import Verif.Props.FloatShade
import Verif.Props.FloatNested
import Verif.Props.FloatNormal
import Verif.Props.IntervalProg
import Verif.Props.IntervalTransform
import Verif.Props.Visible
import Verif.Props.FloatPicture
import Verif.Props.Blur
import Verif.Props.Converge
import Verif.Model.Eq
import Verif.Props.Contracts
import Verif.Props.SceneAlgebra
import Verif.Theory.Rigid
import Verif.Props.LookAt
import Verif.Theory.Euler
import Verif.Props.Complete
import Verif.Props.Laws
import Verif.Props.LawsFloat
import Verif.Props.Persp
import Verif.Props.Contain
import Verif.Props.Visibility
import Verif.Props.FirstHit
import Verif.Props.Raster
import Verif.Props.IntervalLaws
import Verif.Props.Relative
import Verif.Props.Checked
import Verif.Props.NoPanic
import Verif.Props.BoxLattice
import Verif.Props.IntervalLook
import Verif.Props.IntervalInverse
import Verif.Props.ShadowRay
import Verif.Props.ShadowNested
import Verif.Props.Split
import Verif.Props.Zones
import Verif.Props.SelfShadow
import Verif.Props.Grow
import Verif.Props.TrigTight
import Verif.Props.TightBox
import Verif.Props.Hierarchy
import Verif.Props.DiskMetric
import Verif.Props.RootIter
import Verif.Props.Solve
import Verif.Props.NormExact
import Verif.Props.RotAxis
import Verif.Props.NormMono
import Verif.Props.NormExtreme
import Verif.Props.UnitsVec
import Verif.Props.FloatTransp
import Verif.Props.EvalMono
import Verif.Props.EyeExact
