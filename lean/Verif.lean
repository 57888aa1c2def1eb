import Verif.Model.F32
import Verif.Props.Version
import Verif.Props.Flags
import Verif.Props.Hex
import Verif.Proofs.F32
import Verif.Props.Color
import Verif.Props.Packed
import Verif.Props.Mask
import Verif.Props.Scalar
import Verif.Props.VecAlgebra
import Verif.Props.MatAlgebra
import Verif.Props.Aabb
import Verif.Props.AabbQueries
import Verif.Props.RayBox
import Verif.Props.TriangleBox
import Verif.Props.Primitives
import Verif.Props.Frustum
import Verif.Props.Quat
import Verif.Props.Transform
import Verif.Props.Projection
import Verif.Model.Bvh
import Verif.Model.RealBvh
import Verif.Spec.Bvh
import Verif.Spec.Sah
import Verif.Proofs.Bvh
import Verif.Proofs.BvhBuild
import Verif.Props.Bvh
import Verif.Props.BvhBounds
import Verif.Props.BvhCases
import Verif.Props.BvhSah
import Verif.Props.BvhQuery
import Verif.Props.MatShape
import Verif.Props.Angles
import Verif.Props.ColorSpace
import Verif.Props.Brdf
import Verif.Props.Ibl
import Verif.Props.Sh
import Verif.Props.ShRotate
import Verif.Props.SolidAngle
import Verif.Props.ShWindow
import Verif.Props.ShShader
import Verif.Proofs.F32Err
import Verif.Props.Mip
import Verif.Model.CInt
import Verif.Model.IntOps
import Verif.Model.UintOps
import Verif.Model.SimdInt
import Verif.Model.FloatOps
import Verif.Spec.IntOps
import Verif.Spec.Float
import Verif.Proofs.CInt
import Verif.Proofs.F32Div
import Verif.Props.IntOps
import Verif.Props.SimdInt
import Verif.Props.FloatOps
import Verif.Model.Rounding
import Verif.Model.SimdMath
import Verif.Proofs.F32Real
import Verif.Props.Rounding
import Verif.Props.SimdExp
import Verif.Props.SimdSinCos
import Verif.Props.SimdLog
import Verif.Props.SimdPow
import Verif.Props.GeomOps
import Verif.Model.Metric
import Verif.Model.MatTargets
import Verif.Spec.Accuracy
import Verif.Proofs.F32Sum
import Verif.Props.VecAccuracy
import Verif.Props.LengthAccuracy
import Verif.Model.FloatElem
import Verif.Spec.FloatElem
import Verif.Props.FloatElem
import Verif.Props.FloatElem2
import Verif.Model.Mesh
import Verif.Spec.Mesh
import Verif.Props.Mesh
import Verif.Model.Convert
import Verif.Spec.Convert
import Verif.Props.Convert
import Verif.Model.Lanes
import Verif.Props.Lanes
import Verif.Spec.ShMin
import Verif.Model.ShMin
import Verif.Props.ShMin
import Verif.Spec.ColorLinear
import Verif.Model.ColorLinear
import Verif.Props.ColorLinear
import Verif.Spec.Reliable
import Verif.Props.Reliable
import Verif.Spec.BvhSafe
import Verif.Proofs.BvhSafe
import Verif.Props.BvhSafe
import Verif.Spec.BoxTest
import Verif.Proofs.BoxTest
import Verif.Props.BoxTest
import Verif.Model.MatBackends
import Verif.Props.MatBackends
import Verif.Model.MatOps
import Verif.Props.MatOps
import Verif.Spec.Products
import Verif.Props.Products
import Verif.Spec.Rotate
import Verif.Model.QuatTargets
import Verif.Props.Rotate
import Verif.Model.TransformTargets
import Verif.Spec.Place
import Verif.Props.Place
import Verif.Spec.Cull
import Verif.Props.Cull
import Verif.Model.VecText
import Verif.Spec.VecText
import Verif.Props.VecText
import Verif.Model.VecMath
import Verif.Props.VecMath
import Verif.Spec.Rigid
import Verif.Spec.Camera
import Verif.Props.Camera
import Verif.Proofs.F32Rel
import Verif.Props.AnglesF32
import Verif.Spec.Project
import Verif.Props.ProjectF32
import Verif.Proofs.F32Poly
import Verif.Spec.Inverse
import Verif.Props.InverseF32
import Verif.Proofs.Sat
import Verif.Props.TriangleBoxExact
import Verif.Spec.Sat
import Verif.Proofs.SatF32
import Verif.Proofs.SatNormal
import Verif.Proofs.SatThick
import Verif.Props.TriangleBoxF32
import Verif.Model.VecAccess
import Verif.Spec.Access
import Verif.Props.VecAccess
import Verif.Spec.Slab
import Verif.Proofs.Slab
import Verif.Props.RayBoxF32
import Verif.Props.CubeMapF32
import Verif.Props.EulerExtract
import Verif.Spec.TriFoot
import Verif.Props.TriangleClosest
import Verif.Props.Helpers
import Verif.Spec.ClosestF32
import Verif.Props.ClosestF32
import Verif.Proofs.F32Bound
import Verif.Spec.ShF32
import Verif.Props.ShF32
import Verif.Proofs.F32Scale
import Verif.Spec.BarycentricF32
import Verif.Props.BarycentricF32
import Verif.Props.InsideF32
import Verif.Spec.BrdfF32
import Verif.Props.BrdfF32
import Verif.Spec.AngleQuat
import Verif.Props.AngleQuat
import Verif.Model.ColorTargets
import Verif.Props.ColorSpaceF32
import Verif.Props.ExtractQuatF32
import Verif.Spec.BoxF32
import Verif.Props.BoxF32
import Verif.Model.SlerpBackends
import Verif.Spec.SlerpF32
import Verif.Proofs.SlerpReal
import Verif.Props.SlerpF32
import Verif.Spec.SolidAngleF32
import Verif.Props.SolidAngleF32
import Verif.Spec.SmoothF32
import Verif.Props.SmoothF32
import Verif.Spec.WindowF32
import Verif.Props.WindowF32
import Verif.Model.ShTables
import Verif.Spec.ShTables
import Verif.Props.ShTables
import Verif.Model.PlaneOn
import Verif.Spec.PlaneF32
import Verif.Props.PlaneF32
import Verif.Model.RigidTargets
import Verif.Spec.RigidF32
import Verif.Props.RigidF32
import Verif.Model.ExtractOn
import Verif.Spec.ExtractF32
import Verif.Props.ExtractF32
import Verif.Spec.GainF32
import Verif.Props.SrgbF32
import Verif.Props.EulerF32
import Verif.Spec.EulerF32
import Verif.Props.SrgbBack
import Verif.Model.MoveTargets
import Verif.Spec.Move
import Verif.Props.MoveF32
import Verif.Model.FrontTargets
import Verif.Props.FrontF32
import Verif.Model.ClosestTargets
import Verif.Model.CullTargets
import Verif.Props.CullTargets
import Verif.Model.SatTargets
import Verif.Props.SatTargets
import Verif.Model.MinMaxTargets
import Verif.Props.MinMaxTargets
import Verif.Model.RayTargets
import Verif.Props.RayTargets
import Verif.Spec.RayAxis
import Verif.Props.RayAxis
