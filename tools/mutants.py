"""Seeded bugs: (id, file, definition, text before the edit, old, new, description, claims it breaks)."""
M = []
def m(id, file, d, ctx, old, new, edit, claims):
    M.append(dict(id=id, file=file, ctx=ctx, old=old, new=new, edit=edit, claims=claims.split()))
    M[-1]['def'] = d

# ---------------------------------------------------------------- camera
f = 'Model/Camera.lean'
m('K01', f, 'uniformSampleDisk', 'def uniformSampleDisk', 'let r := GFloat.sqrt p.y', 'let r := p.y', 'radius is p.y instead of sqrt p.y (clusters at the centre)', 'C70')
m('K02', f, 'uniformSampleDisk', 'def uniformSampleDisk', 'F64.lit 2', 'F64.lit 1', 'angle covers half the circle', 'C70')
m('K03', f, 'uniformSampleDisk', 'def uniformSampleDisk', 'GVec.new2 (r * c) (r * s)', 'GVec.new2 (r * c) (r * c)', 'y uses cosine', 'C70')
m('K04', f, 'concentricSampleDisk', 'def concentricSampleDisk', 'Scalar.isZero x && Scalar.isZero y', 'Scalar.isZero x || Scalar.isZero y', 'whole axes collapse to the centre', 'C69')
m('K05', f, 'concentricSampleDisk', 'def concentricSampleDisk', 'Scalar.gt (Inherent.abs x) (Inherent.abs y)', 'Scalar.lt (Inherent.abs x) (Inherent.abs y)', 'wedge test reversed', 'C69 C77')
m('K06', f, 'concentricSampleDisk', 'def concentricSampleDisk', 'Scalar.gt (Inherent.abs x) (Inherent.abs y)', 'Scalar.gt x y', 'wedge test without abs', 'C69 C77')
m('K07', f, 'concentricSampleDisk', 'def concentricSampleDisk', 'GFloat.fracPi2 - x / y * GFloat.fracPi4', 'GFloat.fracPi4 - x / y * GFloat.fracPi4', 'pi/4 for pi/2 in second wedge', 'C69 C77')
m('K08', f, 'concentricSampleDisk', 'def concentricSampleDisk', 'GFloat.fracPi4 * y / x', 'GFloat.fracPi4 * x / y', 'swapped quotient in first wedge', 'C69')
m('K09', f, 'concentricSampleDisk', 'def concentricSampleDisk', 'let x := Scalar.one - GFloat.fromF32 (F32.lit 2) * p.x', 'let x := Scalar.one - p.x', 'square not centred', 'C69')
m('K10', f, 'ThinLensCamera.new', 'def new', '(focalDistance - focalLength)', '(focalDistance + focalLength)', 'lens equation with the wrong sign', 'C71')
m('K11', f, 'ThinLensCamera.new', 'def new', 'filmWidth / aspectRatio', 'filmWidth * aspectRatio', 'aspect ratio inverted', 'C97')
m('K12', f, 'ThinLensCamera.new', 'def new', 'GTrig.tan (fov * GFloat.half) * filmDistance', 'GTrig.tan fov * filmDistance', 'fov not halved', 'C74')
m('K13', f, 'ThinLensCamera.cameraRay', 'def cameraRay', 'concentricSampleDisk sample.pLens * cam.lensRadius', 'concentricSampleDisk sample.pFilm * cam.lensRadius', 'film sample used for lens', 'C73')
m('K14', f, 'ThinLensCamera.cameraRay', 'def cameraRay', 'GVec.new3 pLensXY.x pLensXY.y Scalar.zero', 'GVec.new3 pLensXY.x pLensXY.y cam.filmDistance', 'ray starts at the film plane', 'C73')
m('K15', f, 'ThinLensCamera.cameraRay', 'def cameraRay', '(GFloat.half * cam.filmHeight - sample.pFilm.y * cam.filmHeight)', '(GFloat.half * cam.filmHeight - sample.pFilm.x * cam.filmHeight)', 'film x used for y', 'C72')
m('K16', f, 'ThinLensCamera.cameraRay', 'def cameraRay', 'let t := -cam.focalDistance', 'let t := cam.focalDistance', 'focus point behind the camera', 'C72')
m('K17', f, 'ThinLensCamera.cameraRay', 'def cameraRay', '(pAtFocalPlane - pLens).normalize', '(pAtFocalPlane - pLens)', 'direction not normalised', 'C73')
m('K18', f, 'ThinLensCamera.cameraRay', 'def cameraRay', 'Scalar.highest⟩', 'Scalar.zero⟩', 'tmax zero', 'C73')
m('K19', f, 'ThinLensCamera.cameraRay', 'def cameraRay', '(pAtFocalPlane - pLens)', '(pLens - pAtFocalPlane)', 'direction reversed', 'C72')
m('K20', f, 'ThinLensCamera.generateRay', 'def generateRay', 'mapRayInv', 'mapRay', 'view applied instead of its inverse', 'C72')
m('K21', f, 'ThinLensCamera.cameraRay', 'def cameraRay', '(GFloat.half * cam.filmWidth - sample.pFilm.x * cam.filmWidth)', '(GFloat.half * cam.filmWidth + sample.pFilm.x * cam.filmWidth)', 'film off centre', 'C74')
m('K22', f, 'ThinLensCamera.cameraRay', 'def cameraRay', '* cam.lensRadius', '* cam.filmDistance', 'lens radius dropped', 'C73')
m('K23', f, 'ThinLensCamera.new', 'def new', 'focalDistance * focalLength / (focalDistance - focalLength)', 'focalDistance * focalLength / (focalLength - focalDistance)', 'film distance negated', 'C71')
m('K24', f, 'ThinLensCamera.cameraRay', 'def cameraRay', '(GFloat.half * cam.filmWidth - sample.pFilm.x * cam.filmWidth)', '(sample.pFilm.x * cam.filmWidth - GFloat.half * cam.filmWidth)', 'image mirrored horizontally', 'C74')
# ---------------------------------------------------------------- primitive
f = 'Model/Primitive.lean'
m('P01', f, 'Bbox.prim', 'def Bbox.prim', 'bbox := b,', 'bbox := ⟨b.pmax, b.pmin⟩,', 'box swapped', 'C100')
m('P02', f, 'Primitive.transformed', 'def Primitive.transformed', 'otow.mapBox prim.bbox', 'otow.mapBoxInv prim.bbox', 'box mapped the wrong way', 'C68')
m('P03', f, 'Primitive.transformed', 'intersect ray := do', 'otow.mapRayInv ray', 'otow.mapRay ray', 'ray mapped the wrong way in intersect', 'C66')
m('P04', f, 'Primitive.transformed', 'doIntersect ray := do', 'otow.mapRayInv ray', 'otow.mapRay ray', 'ray mapped the wrong way in do_intersect', 'C66')
m('P05', f, 'PrimitiveList.intersectLoop', 'def PrimitiveList.intersectLoop', 'intersectLoop ray ps result rayMut', 'intersectLoop ray ps none rayMut', 'a miss discards an earlier hit', 'C64')
m('P06', f, 'PrimitiveList.intersectLoop', 'def PrimitiveList.intersectLoop', '| [], result, _ => some result', '| [], _, _ => some none', 'result dropped', 'C64')
m('P07', f, 'PrimitiveList.doIntersectLoop', 'def PrimitiveList.doIntersectLoop', '| [] => some false', '| [] => some true', 'empty list is hit', 'C63')
m('P08', f, 'PrimitiveList.doIntersectLoop', 'def PrimitiveList.doIntersectLoop', 'then return true', 'then return false', 'hit reported as miss', 'C63')
m('P09', f, 'PrimitiveList.doIntersectLoop', 'def PrimitiveList.doIntersectLoop', '    doIntersectLoop ray ps\n', '    return false\n', 'only the first primitive is tested', 'C63')
m('P10', f, 'PrimitiveList.prim', 'def PrimitiveList.prim', 'Bbox.default', '⟨GVec.default, GVec.default⟩', 'box accumulation starts from the origin', 'C65')
m('P11', f, 'PrimitiveList.prim', 'def PrimitiveList.prim', 'fun b p => b + p.bbox', 'fun _ p => p.bbox', 'only the last box kept', 'C65')
m('P12', f, 'PrimitiveList.intersectLoop', 'def PrimitiveList.intersectLoop', '| some ir => intersectLoop ray ps (some ir) { rayMut with tmax := ir.tRay }', '| some ir => some (some ir)', 'first hit in list order returned', 'C64')
m('P13', f, 'Sphere.prim', 'def Sphere.prim', 'some (s.doIntersect r)', 'some (!s.doIntersect r)', 'negated', 'C58')
m('P14', f, 'Bbox.prim', 'def Bbox.prim', 'some (b.doIntersect r)', 'some true', 'box always hit', 'C58')
m('P15', f, 'PrimitiveList.prim', 'def PrimitiveList.prim', 'ps.foldl', 'ps.tail.foldl', 'first box skipped', 'C65')
# ---------------------------------------------------------------- sphere
f = 'Model/Sphere.lean'
m('S01', f, 'solveQuadratic', 'def solveQuadratic', 'GFloat.fromI64 4', 'GFloat.fromI64 2', 'discriminant b^2-2ac', 'C55 C57')
m('S02', f, 'solveQuadratic', 'def solveQuadratic', 'if Scalar.isNonnegative d then', 'if Scalar.isPositive d then', 'tangent rays miss', 'C55')
m('S03', f, 'solveQuadratic', 'def solveQuadratic', '(-(c + c) / (b + sqrtD))', '((c + c) / (b + sqrtD))', 'second root sign', 'C55')
m('S04', f, 'solveQuadratic', 'else\n      some', 'some (Scalar.minMax ((-b + sqrtD) * GFloat.half / a) ((c + c) / (-b + sqrtD)))', 'some ((-b + sqrtD) * GFloat.half / a, (c + c) / (-b + sqrtD))', 'roots not sorted for negative b', 'C55')
m('S05', f, 'solveQuadratic', 'def solveQuadratic', 'if Scalar.isNonnegative b then', 'if Scalar.isNonpositive b then', 'cancellation-prone branch (divides by zero)', 'C55')
m('S06', f, 'Sphere.bbox', 'def bbox', 's.zMin) (GVec.new3 s.radius s.radius s.zMax)', 's.zMin) (GVec.new3 s.radius s.radius s.zMin)', 'flat box', 'C59')
m('S07', f, 'Sphere.new', 'def new', 'if Scalar.lt zMin zMax then', 'if Scalar.lt zMax zMin then', 'assertion reversed', 'C60')
m('S08', f, 'Sphere.getIntersection', 'def getIntersection', 'if !Scalar.inRange t Scalar.zero ray.tmax then none\n  else', 'if Scalar.gt t ray.tmax then none\n  else', 'hits behind the origin accepted', 'C56')
m('S09', f, 'Sphere.getIntersection', 'def getIntersection', 'if !Scalar.inRange t Scalar.zero ray.tmax then none\n  else', 'if !Scalar.inRange t Scalar.zero Scalar.highest then none\n  else', 'tmax ignored', 'C56')
m('S10', f, 'Sphere.getIntersection', 'def getIntersection', 'inRange hitPoint.z s.zMin s.zMax', 'inRange hitPoint.y s.zMin s.zMax', 'y clipped instead of z', 'C56')
m('S11', f, 'Sphere.getIntersection', 'def getIntersection', 'if Scalar.gt phi s.phiMax then none\n      else', 'if Scalar.lt phi s.phiMax then none\n      else', 'phi clip reversed', 'C56')
m('S12', f, 'Sphere.getIntersection', 'def getIntersection', 'GTrig.atan2 hitPoint.y hitPoint.x', 'GTrig.atan2 hitPoint.x hitPoint.y', 'atan2 arguments swapped', 'C56 C60')
m('S13', f, 'Sphere.intersectRay', 'def intersectRay', '* GFloat.fromI64 2', '* GFloat.fromI64 1', 'b not doubled', 'C56')
m('S14', f, 'Sphere.intersectRay', 'def intersectRay', '- Scalar.square s.radius', '- s.radius', 'radius not squared', 'C56')
m('S15', f, 'Sphere.intersectRay', 'def intersectRay', '| none => getIntersection s ray t1', '| none => none', 'far hit never tried', 'C57')
m('S16', f, 'Sphere.intersectRay', 'def intersectRay', 'match getIntersection s ray t0 with\n    | none => getIntersection s ray t1', 'match getIntersection s ray t1 with\n    | none => getIntersection s ray t0', 'far hit first', 'C57')
m('S17', f, 'Sphere.area', 'def area', '(s.zMax - s.zMin)', '(s.zMax + s.zMin)', 'height wrong', 'C62')
m('S18', f, 'Sphere.interaction', 'def interaction', 'let u := (phi + GFloat.pi) / phiMaxPlusPi', 'let u := phi / phiMaxPlusPi', 'u not shifted', 'C60')
m('S19', f, 'Sphere.interaction', 'def interaction', '(theta - s.thetaMin)', '(theta - s.thetaMax)', 'v origin wrong', 'C60')
m('S20', f, 'Sphere.interaction', 'def interaction', '(p.z * sinPhi)', '(p.z * cosPhi)', 'dpdv y wrong', 'C61')
m('S21', f, 'Sphere.interaction', 'def interaction', '(-s.radius * sinTheta)', '(s.radius * sinTheta)', 'dpdv z sign', 'C61')
m('S22', f, 'Sphere.interaction', 'def interaction', 'GVec.new3 (-p.y) p.x', 'GVec.new3 p.y p.x', 'dpdu sign', 'C61')
m('S23', f, 'Sphere.interaction', 'def interaction', 'tRay := tRay }', 'tRay := phi }', 'wrong ray parameter returned', 'C56')
m('S24', f, 'Sphere.doIntersect', 'def doIntersect', '.isSome', '.isNone', 'negated', 'C58')
m('S25', f, 'Sphere.new', 'def new', 'GTrig.acos (Inherent.clamp (zMax / radius)', 'GTrig.acos (Inherent.clamp (zMin / radius)', 'thetaMax computed from zMin', 'C60')
m('S26', f, 'Sphere.bbox', 'def bbox', 'GVec.new3 (-s.radius) (-s.radius) s.zMin', 'GVec.new3 (-s.radius) s.radius s.zMin', 'box flat in y', 'C59')
m('S27', f, 'Sphere.interaction', 'def interaction', 'SurfaceInteraction.new p (GVec.new2 u v)', 'SurfaceInteraction.new p (GVec.new2 v u)', 'uv swapped', 'C60')
m('S28', f, 'Sphere.interaction', 'def interaction', 'dpdu dpdv, tRay', 'dpdv dpdu, tRay', 'tangents swapped', 'C61')
m('S29', f, 'Sphere.interaction', 'def interaction', 'Scalar.zero * phiMaxPlusPi', 'Scalar.zero * s.phiMax', 'dpdu scaled by phiMax only', 'C60')
# ---------------------------------------------------------------- bbox
f = 'Model/Bbox.lean'
m('B01', f, 'Bbox.default', 'def default', 'GVec.new3 Scalar.highest Scalar.highest Scalar.highest, GVec.new3 Scalar.lowest Scalar.lowest Scalar.lowest', 'GVec.new3 Scalar.lowest Scalar.lowest Scalar.lowest, GVec.new3 Scalar.highest Scalar.highest Scalar.highest', 'default box is everything', 'C48')
m('B02', f, 'Bbox.new', 'def new', '(Inherent.min p1.y p2.y)', '(Inherent.min p1.y p2.x)', 'x used for y', 'C44')
m('B03', f, 'Bbox.new', 'def new', '(Inherent.max p1.z p2.z)', '(Inherent.min p1.z p2.z)', 'min for max', 'C44')
m('B04', f, 'Bbox.union', 'def union', '(Inherent.min a.zmin b.zmin)', '(Inherent.max a.zmin b.zmin)', 'max for min', 'C45')
m('B05', f, 'Bbox.union', 'def union', '(Inherent.max a.ymax b.ymax)', '(Inherent.max a.ymax a.ymax)', 'b ignored', 'C45')
m('B06', f, 'Bbox.intersect', 'def intersect', '(Inherent.max a.ymin b.ymin)', '(Inherent.min a.ymin b.ymin)', 'min for max', 'C46')
m('B07', f, 'Bbox.intersect', 'def intersect', '(Inherent.min a.xmax b.xmax)', '(Inherent.min a.xmax b.xmin)', 'min corner of b', 'C46')
m('B08', f, 'Bbox.overlaps', 'def overlaps', 'Scalar.gt a.ymax b.ymin', 'Scalar.gt a.ymax b.ymax', 'wrong face', 'C47')
m('B09', f, 'Bbox.overlaps', 'def overlaps', ' && Scalar.gt b.zmax a.zmin', '', 'one test dropped', 'C47')
m('B10', f, 'Bbox.overlaps', 'def overlaps', 'Scalar.gt a.xmax b.xmin', 'Scalar.ge a.xmax b.xmin', 'touching counts in x', 'C47')
m('B11', f, 'Bbox.inside', 'def inside', 'Scalar.ge p.x b.xmin', 'Scalar.gt p.x b.xmin', 'face excluded', 'C44')
m('B12', f, 'Bbox.inside', 'def inside', ' && Scalar.le p.z b.zmax', '', 'one test dropped', 'C46 C48')
m('B13', f, 'Bbox.diagonal', 'def diagonal', 'b.pmax - b.pmin', 'b.pmin - b.pmax', 'reversed', 'C49')
m('B14', f, 'Bbox.center', 'def center', 'b.pmax + b.pmin', 'b.pmax + b.pmax', 'corner instead of centre', 'C49')
m('B15', f, 'Bbox.maxExtent', 'def maxExtent', 'else if Scalar.gt yExtent zExtent', 'else if Scalar.gt xExtent zExtent', 'wrong comparison', 'C50')
m('B16', f, 'Bbox.maxExtent', 'def maxExtent', '((b.pmin.y, b.pmax.y), 1)', '((b.pmin.y, b.pmax.y), 2)', 'wrong axis index', 'C50')
m('B17', f, 'Bbox.maxExtent', 'def maxExtent', 'else ((b.pmin.z, b.pmax.z), 2)\n  else if', 'else ((b.pmin.y, b.pmax.y), 1)\n  else if', 'y returned when z is longest', 'C50')
m('B18', f, 'Bbox.intersectRay', 'def intersectRay', 'Inherent.max (Inherent.max t1.x t1.y) t1.z', 'Inherent.max t1.x t1.y', 'z slab ignored (near)', 'C51')
m('B19', f, 'Bbox.intersectRay', 'def intersectRay', 'Inherent.min (Inherent.min t2.x t2.y) t2.z', 'Inherent.max (Inherent.max t2.x t2.y) t2.z', 'tfar is the union', 'C51')
m('B20', f, 'Bbox.intersectRay', 'def intersectRay', 'Scalar.lt tfar Scalar.zero', 'Scalar.lt tnear Scalar.zero', 'origin inside counts as miss', 'C51')
m('B21', f, 'Bbox.intersectRay', 'def intersectRay', 'Scalar.gt tnear ray.tmax || ', '', 'tmax ignored', 'C51 C52')
m('B22', f, 'Bbox.intersectRay', 'def intersectRay', ' || Scalar.gt tnear tfar', '', 'emptiness test dropped', 'C51 C52')
m('B23', f, 'Bbox.intersectRay', 'def intersectRay', 'some (Inherent.max tnear Scalar.zero', 'some (tnear', 'negative near returned', 'C51 C52')
m('B24', f, 'Bbox.intersectRay', 'def intersectRay', 'Inherent.min tfar ray.tmax)', 'tfar)', 'far end beyond tmax', 'C51 C52')
m('B25', f, 'Bbox.intersectRay', 'def intersectRay', 'Scalar.gt tnear tfar', 'Scalar.ge tnear tfar', 'grazing rays miss', 'C51')
m('B26', f, 'Bbox.intersectRay', 'def intersectRay', 'Scalar.lt tfar Scalar.zero', 'Scalar.le tfar Scalar.zero', 'origin on the far face counts as miss', 'C51')
m('B27', f, 'Bbox.intersectRay', 'def intersectRay', 'Scalar.gt tnear ray.tmax', 'Scalar.ge tnear ray.tmax', 'hit exactly at tmax missed', 'C51')
m('B28', f, 'Bbox.faceDistances', 'def faceDistances', '(p.x - b.xmax)', '(p.x - b.xmin)', 'x max distance wrong', 'C54')
m('B29', f, 'Bbox.minDistanceIdx', 'def minDistanceIdx', 'Scalar.lt (d i) (d best)', 'Scalar.gt (d i) (d best)', 'furthest face', 'C54')
m('B30', f, 'Bbox.minDistanceIdx', 'def minDistanceIdx', '[1, 2, 3, 4, 5]', '[1, 2, 3, 4]', 'last face skipped', 'C54')
m('B31', f, 'Bbox.faceInteraction', '| 3 =>', 'n := GVec.new3 z o z', 'n := GVec.new3 z (-o) z', 'normal inward on ymax', 'C54')
m('B32', f, 'Bbox.faceInteraction', '| 2 =>', 'GVec.new3 p.x b.ymin p.z', 'GVec.new3 p.x p.y p.z', 'point not snapped', 'C54')
m('B33', f, 'Bbox.hit', 'def hit', 'tRay := tRay }', 'tRay := Scalar.zero }', 'ray parameter dropped', 'C54')
m('B34', f, 'Bbox.mapBboxStep', 'def mapBboxStep', 'if Scalar.lt a b', 'if Scalar.gt a b', 'min/max swapped', 'C41')
m('B35', f, 'Bbox.mapBbox', 'def mapBbox', 'let init := m.col 3', 'let init := m.row 3', 'translation dropped', 'C41')
m('B36', f, 'Bbox.mapBbox', 'def mapBbox', '(2, 1), (2, 2)]', '(2, 1)]', 'last term dropped', 'C41')
m('B37', f, 'Transform.mapBoxInv', 'def Transform.mapBoxInv', 't.inverseMatrix', 't.matrix', 'map instead of inverse', 'C41')
m('B38', f, 'SurfaceInteraction.new', 'def SurfaceInteraction.new', '(dpdu.cross dpdv)', '(dpdv.cross dpdu)', 'normal reversed', 'C61')
m('B39', f, 'Bbox.faceInteraction', '| 4 =>', 'dpdv := GVec.new3 z o z', 'dpdv := GVec.new3 o z z', 'tangents parallel', 'C54')
m('B40', f, 'Bbox.intersectRay', 'def intersectRay', 'let t1 := tmin.min tmax', 'let t1 := tmin', 'negative directions mishandled', 'C51')
# ---------------------------------------------------------------- transform
f = 'Model/Transform.lean'
m('T01', f, 'Mat4.identity', 'def identity', '𝟘 𝟘 𝟙 𝟘\n', '𝟘 𝟘 𝟘 𝟙\n', 'wrong entry', 'C32')
m('T02', f, 'Mat4.transpose', 'def transpose', '(d 0 1) (d 1 1) (d 2 1) (d 3 1)', '(d 0 1) (d 1 1) (d 1 2) (d 3 1)', 'one entry not transposed', 'C32')
m('T03', f, 'Mat4 scalar product', 'instance [Mul T] : HMul (Mat4 T) T (Mat4 T)', '(r * d 2 3)', '(d 2 3)', 'one entry not scaled', 'C32')
m('T04', f, 'Mat4 product', 'instance [Add T] [Mul T] [Scalar T] : Mul (Mat4 T)', 'a.data i k * b.data k j', 'a.data k i * b.data k j', 'index order', 'C32')
m('T05', f, 'Mat4.inverse', 'def inverse', 'mk4 (d00 * detInv) (-d10 * detInv)', 'mk4 (d00 * detInv) (d10 * detInv)', 'cofactor sign', 'C33')
m('T06', f, 'Mat4.inverse', 'let d23', 'data 0 0 * (data 1 1 * data 3 2 - data 1 2 * data 3 1)', 'data 0 0 * (data 1 1 * data 3 2 - data 1 2 * data 3 2)', 'wrong index in a minor', 'C33')
m('T07', f, 'Mat4.inverse', 'let det ', '+ data 0 2 * d02', '- data 0 2 * d02', 'determinant sign', 'C33')
m('T08', f, 'Mat4.inverse', '(-d01 * detInv) (d11 * detInv)', '(-d01 * detInv) (d11 * detInv)', '(-d10 * detInv) (d11 * detInv)', 'adjugate not transposed', 'C33')
m('T09', f, 'mapVector', 'def mapVector', '(v.x * m.idx 1 0 + v.y * m.idx 1 1 + v.z * m.idx 1 2)', '(v.x * m.idx 0 1 + v.y * m.idx 1 1 + v.z * m.idx 2 1)', 'transposed row', 'C35 C42')
m('T10', f, 'mapVector', 'def mapVector', 'if Scalar.eq (v.x * m.idx 3 0 + v.y * m.idx 3 1 + v.z * m.idx 3 2) Scalar.zero then', 'if Scalar.eq (v.x * m.idx 3 0) Scalar.zero then', 'assertion weakened', 'C43')
m('T11', f, 'mapPt', 'def mapPt', '+ m.idx 1 3) / w)', '+ m.idx 1 3))', 'y not divided by w', 'C35')
m('T12', f, 'mapPt', 'def mapPt', '+ m.idx 2 3) / w)', ') / w)', 'z translation dropped', 'C35 C42')
m('T13', f, 'mapPt', 'def mapPt', '+ p.z * m.idx 3 2 + m.idx 3 3', '+ p.z * m.idx 3 2 + m.idx 2 3', 'wrong w', 'C43')
m('T14', f, 'mapNrm', 'def mapNrm', 'n.y * minv.idx 1 0', 'n.y * minv.idx 0 1', 'not transposed', 'C40')
m('T15', f, 'Ray.eval', 'def Ray.eval', 'r.origin + r.direction * t', 'r.origin + r.direction * r.tmax', 'evaluates at tmax', 'C42')
m('T16', f, 'Transform.initFromOrthogonalBasis', 'def initFromOrthogonalBasis', '(-y.dot pos)', '(-z.dot pos)', 'wrong translation', 'C34 C38')
m('T17', f, 'Transform.translate', 'def translate', '(-v.y)', '(v.y)', 'inverse sign', 'C34')
m('T18', f, 'Transform.scale', 'def scale', '(𝟙 / v.z)', '(v.z)', 'inverse not reciprocal', 'C34')
m('T19', f, 'Transform.rotateX', 'def rotateX', '𝟘 c (-s) 𝟘\n            𝟘 s c 𝟘', '𝟘 c s 𝟘\n            𝟘 (-s) c 𝟘', 'rotates the wrong way (matrix)', 'C34 C37')
m('T20', f, 'Transform.rotateY', 'def rotateY', '⟨Mat4.mk4 c 𝟘 s 𝟘', '⟨Mat4.mk4 c 𝟘 (-s) 𝟘', 'sign', 'C34 C37')
m('T21', f, 'Transform.rotateZ', 'def rotateZ', 's c 𝟘 𝟘', 's s 𝟘 𝟘', 'wrong entry', 'C34 C37')
m('T22', f, 'Transform.rotate', 'def rotate ', 'let u := vec.normalize', 'let u := vec', 'axis not normalised', 'C34 C37')
m('T23', f, 'Transform.rotate', 'def rotate ', 'u.cross y * s', 'y.cross u * s', 'wrong direction for y', 'C34 C37')
m('T24', f, 'Transform.rotate', 'def rotate ', '⟨mat, mat.transpose⟩', '⟨mat, mat⟩', 'inverse not transposed', 'C34')
m('T25', f, 'Transform.rotate', 'def rotate ', 'x * c + u * (𝟙 - c)', 'x * c + u * (𝟙 + c)', 'sign', 'C34 C37')
m('T26', f, 'Transform.lookAt', 'def lookAt', '(pos - target)', '(target - pos)', 'looks backwards', 'C38')
m('T27', f, 'Transform.lookAt', 'def lookAt', 'let xU := (upU.cross zU).normalize', 'let xU := upU.cross zU', 'x axis not normalised', 'C34 C38')
m('T28', f, 'Transform.lookAt', 'def lookAt', 'zU.cross xU', 'xU.cross zU', 'left handed', 'C38')
m('T29', f, 'Transform.perspective', 'def perspective', '(far * near / (far - near))', '(near / (far - near))', 'depth offset', 'C39')
m('T30', f, 'Transform.perspective', 'def perspective', 'GTrig.tan (fov * GFloat.half)', 'GTrig.tan fov', 'fov not halved', 'C39')
m('T31', f, 'Transform.perspective', 'def perspective', '⟨mat, mat.inverse⟩', '⟨mat, mat.transpose⟩', 'inverse wrong', 'C34 C39')
m('T32', f, 'Transform product', 'instance [Add T] [Mul T] [Scalar T] : Mul (Transform T)', 'b.minv * a.minv', 'a.minv * b.minv', 'inverse order', 'C34 C36')
m('T33', f, 'Transform product', 'instance [Add T] [Mul T] [Scalar T] : Mul (Transform T)', '⟨a.m * b.m', '⟨b.m * a.m', 'product order', 'C34 C36')
m('T34', f, 'Transform.inverse', '/-- `Invertible for Transform`', '⟨t.minv, t.m⟩', '⟨t.m, t.minv⟩', 'identity instead of inverse', 'C35')
m('T35', f, 'Transform.mapVecInv', 'def mapVecInv', 'mapVector t.minv v', 'mapVector t.m v', 'forward map', 'C35')
m('T36', f, 'Transform.mapNormal', 'def mapNormal ', 'mapNrm t.minv n', 'mapNrm t.m n', 'forward matrix', 'C40')
m('T37', f, 'Transform.mapPointInv', 'def mapPointInv', 'mapPt t.minv p', 'mapPt t.m p', 'forward map', 'C35')
m('T38', f, 'Transform.mapRay', 'def mapRay ', 'let d ← t.mapVec r.direction', 'let d ← t.mapVecInv r.direction', 'direction mapped backwards', 'C42')
m('T39', f, 'Transform.mapRayInv', 'def mapRayInv', 'return ⟨o, d, r.tmax⟩', 'return ⟨o, d, Scalar.highest⟩', 'tmax lost', 'C42')
m('T40', f, 'Transform.perspective', 'def perspective', '𝟘 𝟘 𝟙 𝟘\n  ⟨mat', '𝟘 𝟘 𝟙 𝟙\n  ⟨mat', 'w = z + 1', 'C39')
m('T41', f, 'Transform.mapRay', 'def mapRay ', 'return ⟨o, d, r.tmax⟩', 'return ⟨o, d, Scalar.highest⟩', 'tmax lost', 'C42')
m('T42', f, 'Mat4.col', 'def col ', '![a.data 0 c, a.data 1 c, a.data 2 c, a.data 3 c]', '![a.data c 0, a.data c 1, a.data c 2, a.data c 3]', 'row instead of column', 'C32 C41')
m('T43', f, 'Mat4.rowVec', 'def rowVec', '(a.data r 0) (a.data r 1) (a.data r 2) (a.data r 3)', '(a.data 0 r) (a.data 1 r) (a.data 2 r) (a.data 3 r)', 'column instead of row', 'C32')
m('T44', f, 'Mat4.almostEq', 'def almostEq', '(List.finRange 4).all fun i => (List.finRange 4).all fun j => AlmostEqual', '(List.finRange 4).all fun i => (List.finRange 4).any fun j => AlmostEqual', 'any instead of all', 'C06')
m('T45', f, 'Transform.almostEq', 'namespace Transform', 'a.m.almostEq b.m && a.minv.almostEq b.minv', 'a.m.almostEq b.m', 'inverse not compared', 'C06')
m('T46', f, 'Transform.mapNormalInv', 'def mapNormalInv', 'mapNrm t.m n', 'mapNrm t.minv n', 'wrong matrix', 'C40')
m('T47', f, 'Mat4.zero', 'def zero', '𝟘 𝟘 𝟘 𝟘\nend', '𝟘 𝟘 𝟘 𝟙\nend', 'last entry one', 'C32')
m('T48', f, 'Mat4.eq', 'def eq ', 'fun j => Scalar.eq (a.data i j) (b.data i j)', 'fun j => Scalar.eq (a.data i j) (b.data j i)', 'compares with the transpose', 'C32')
m('T49', f, 'Mat4.inverse', 'let d31', 'data 0 0 * (data 1 2 * data 2 3 - data 1 3 * data 2 2)', 'data 0 0 * (data 1 2 * data 2 3 + data 1 3 * data 2 2)', 'sign in a minor', 'C33')
m('T50', f, 'mapPt', 'def mapPt', 'if Scalar.eq w Scalar.zero then none\n  else', 'if Scalar.eq w Scalar.one then none\n  else', 'asserts w != 1', 'C43 C35')
# ---------------------------------------------------------------- vector
f = 'Model/Vector.lean'
m('V01', f, 'sumLoop', 'def sumLoop', 'f (Fin.last n)', 'f 0', 'last summand replaced', 'C29')
m('V02', f, 'new3', 'def new3', '![x, y, z]', '![x, z, y]', 'components swapped', 'C29')
m('V03', f, 'GVec.min', 'def min ', 'Scalar.min', 'Scalar.max', 'max for min', 'C31')
m('V04', f, 'GVec.max', 'def max ', '(a.vec i) (b.vec i)', '(a.vec i) (a.vec i)', 'second argument ignored', 'C31')
m('V05', f, 'GVec.default', 'def default', 'Scalar.zero', 'Scalar.one', 'default is ones', 'C29')
m('V06', f, 'GVec.eq', 'def eq ', '.all fun', '.any fun', 'any for all', 'C29')
m('V07', f, 'GVec.almostEq', 'def almostEq', '.all fun', '.any fun', 'any for all', 'C06')
m('V08', f, 'GVec add', 'instance [Add T] : Add (GVec', 'a.vec i + b.vec i', 'a.vec i + a.vec i', 'second operand ignored', 'C29 C30')
m('V09', f, 'Vec sub', 'instance [Sub T] : Sub (Vec', 'a.vec i - b.vec i', 'b.vec i - a.vec i', 'operands swapped', 'C29 C30')
m('V10', f, 'GVec scalar div', 'instance [Div T] : HDiv (GVec T n U) T', 'a.vec i / t', 't / a.vec i', 'operands swapped', 'C29')
m('V11', f, 'cross', 'def cross', '(a.z * b.x - a.x * b.z)', '(a.x * b.z - a.z * b.x)', 'sign of y', 'C29')
m('V12', f, 'dot', 'def dot', 'a.vec i * b.vec i', 'a.vec i * a.vec i', 'second operand ignored', 'C29')
m('V13', f, 'Point - Vec', 'instance [Sub T] : HSub (Point T n) (Vec T n)', '((a : Point T n) - (conv .point b : Point T n) : Vec T n)', '((conv .point b : Point T n) - (a : Point T n) : Vec T n)', 'operands swapped', 'C30')
m('V14', f, 'squareNorm', 'def squareNorm', 'Scalar.square (a.vec i)', 'a.vec i', 'not squared', 'C29')
m('V15', f, 'norm', 'def norm', 'GFloat.sqrt (squareNorm a)', '(squareNorm a)', 'root dropped', 'C29')
m('V16', f, 'distance', 'def distance', 'GFloat.sqrt (squareDistance a b)', 'squareDistance a b', 'root dropped', 'C29')
m('V17', f, 'normalize', 'def normalize', 'a / norm a', 'a / squareNorm a', 'divides by the square', 'C29')
m('V18', f, 'toInterval', 'def toInterval', 'Interval.from1 (a.vec i)', 'Interval.from1 Scalar.zero', 'value lost', 'C76')
m('V19', f, 'fromInterval', 'def fromInterval', 'Interval.approx (a.vec i)', '(a.vec i).inf', 'lower bound instead of midpoint', 'C76')
m('V20', f, 'interval vector scaling', 'instance : HDiv (GVec (Interval T)', 'a.vec i / t', 'a.vec i * t', 'multiplies', 'C76')
m('V21', f, 'GVec mul', 'instance [Mul T] : Mul (GVec', 'a.vec i * b.vec i', 'a.vec i * a.vec i', 'second operand ignored', 'C29')
m('V22', f, 'GVec div', 'instance [Div T] : Div (GVec', 'a.vec i / b.vec i', 'b.vec i / a.vec i', 'operands swapped', 'C29')
m('V23', f, 'GVec neg', 'instance [Neg T] : Neg (GVec', '-a.vec i', 'a.vec i', 'identity', 'C29')
m('V24', f, 'Vec + Point', 'instance [Add T] : HAdd (Vec T n) (Point T n)', 'conv .point a + b', 'b + b', 'vector ignored', 'C30')
m('V25', f, 'squareDistance', 'def squareDistance', 'squareNorm (a - b)', 'squareNorm a', 'second argument ignored', 'C29')
m('V26', f, 'w', 'def w ', 'v.vec 3', 'v.vec 2', 'w reads z', 'C29')
m('V27', f, 'new4', 'def new4', '![x, y, z, w]', '![x, y, w, z]', 'components swapped', 'C29')
m('V28', f, 'GVec scalar mul', 'instance [Mul T] : HMul (GVec T n U) T', 'a.vec i * t', 'a.vec i * a.vec i', 'scalar ignored', 'C29')
# ---------------------------------------------------------------- interval
f = 'Model/Interval.lean'
m('I01', f, 'from2', 'def from2', 'new t.1 t.2', 'new t.2 t.1', 'bounds swapped', 'C18 C26')
m('I02', f, 'isPositive', 'def isPositive', 'Scalar.gt a.inf', 'Scalar.gt a.sup', 'possibly positive', 'C14 C22')
m('I03', f, 'isNonnegative', 'def isNonnegative', 'Scalar.ge a.inf', 'Scalar.gt a.inf', 'zero excluded', 'C22')
m('I04', f, 'inRange', 'def inRange', 'Scalar.le a.sup t1', 'Scalar.le a.inf t1', 'upper bound not checked', 'C22')
m('I05', f, 'contains', 'def contains', '&&', '||', 'or for and', 'C22')
m('I06', f, 'isSame', 'def isSame', ' && Scalar.eq a.sup b.sup', '', 'upper bound not compared', 'C22')
m('I07', f, 'intersect', 'def intersect', 'Scalar.max a.inf b.inf', 'Scalar.min a.inf b.inf', 'min for max', 'C18')
m('I08', f, 'union', 'def union', 'Scalar.max a.sup b.sup', 'Scalar.min a.sup b.sup', 'min for max', 'C18')
m('I09', f, 'eq', 'def eq ', ' && isExact b', '', 'second exactness test dropped', 'C19')
m('I10', f, 'pcmp', 'def pcmp ', 'if Scalar.lt a.sup b.inf then', 'if Scalar.lt a.inf b.inf then', 'compares lower bounds', 'C19')
m('I11', f, 'pcmp', 'def pcmp ', 'else if Scalar.lt b.sup a.inf then some .gt', 'else if Scalar.lt b.sup a.inf then some .lt', 'wrong ordering', 'C19')
m('I12', f, 'eqS', 'def eqS', 'isExact a && ', '', 'exactness test dropped', 'C19')
m('I13', f, 'pcmpS', 'def pcmpS', 'Scalar.lt t a.inf', 'Scalar.lt t a.sup', 'possibly greater', 'C19')
m('I14', f, 'square', 'def square', 'Scalar.max (-a.inf) a.sup', 'Scalar.min (-a.inf) a.sup', 'min for max', 'C16')
m('I15', f, 'square', 'def square', 'new Scalar.zero (GFloat.nextUp', 'new (GFloat.nextDown (a.inf * a.inf)) (GFloat.nextUp', 'lower bound not zero when straddling', 'C16')
m('I16', f, 'square', 'def square', '(GFloat.nextUp (a.sup * a.sup))', '(a.sup * a.sup)', 'upper bound not widened', 'C16')
m('I17', f, 'sqrt', 'def sqrt', 'GFloat.nextDown (GFloat.sqrt a.inf)', 'GFloat.sqrt a.inf', 'not widened', 'C17')
m('I18', f, 'approx', 'def approx', '(a.inf + a.sup) * GFloat.half', '(a.inf + a.sup)', 'not halved', 'C21')
m('I19', f, 'extendByUlp', 'def extendByUlp', 'new (GFloat.nextDown a.inf) (GFloat.nextUp a.sup)', 'new a.inf (GFloat.nextUp a.sup)', 'lower bound not widened', 'C25')
m('I20', f, 'mapMonotonicDec', 'def mapMonotonicDec', '(f a.sup) (f a.inf)', '(f a.inf) (f a.sup)', 'bounds not swapped', 'C25')
m('I21', f, 'almostEq', 'def almostEq ', ' && GFloat.fequals a.sup b.sup', '', 'upper bound not compared', 'C06')
m('I22', f, 'almostEqS', 'def almostEqS', 'contains a t && ', '', 'containment not required', 'C06')
m('I23', f, 'add', 'def add ', 'GFloat.nextUp (a.sup + b.sup)', '(a.sup + b.sup)', 'not widened', 'C11')
m('I24', f, 'sub', 'def sub ', '(a.inf - b.sup)', '(a.inf - b.inf)', 'wrong bound', 'C11')
m('I25', f, 'addS', 'def addS', '(a.sup + t)', '(a.inf + t)', 'wrong bound', 'C11')
m('I26', f, 'subS', 'def subS', 'GFloat.nextDown (a.inf - t)', 'GFloat.nextUp (a.inf - t)', 'rounded inwards', 'C11')
m('I27', f, 'mul', 'def mul ', 'let x := if isNonnegative b then a.inf else a.sup', 'let x := if isNonnegative b then a.sup else a.inf', 'wrong bound', 'C12')
m('I28', f, 'mul', 'def mul ', 'let y := if isNonnegative b then a.sup else a.inf', 'let y := if isNonpositive b then a.sup else a.inf', 'wrong bound', 'C12')
m('I29', f, 'mul', 'else if isNonnegative b then', '(a.inf * b.sup)', '(a.inf * b.inf)', 'wrong bound', 'C12')
m('I30', f, 'mul', 'else if isNonpositive b then', '(a.inf * b.inf)', '(a.sup * b.inf)', 'wrong bound', 'C12')
m('I31', f, 'mul', 'def mul ', '(Scalar.min (a.inf * b.sup) (a.sup * b.inf))', '(a.inf * b.sup)', 'one product ignored', 'C12')
m('I32', f, 'mulS', 'def mulS', 'if Scalar.isNonnegative t', 'if Scalar.isNonpositive t', 'branches swapped', 'C13')
m('I33', f, 'div', 'def div ', 'if isPositive b then', 'if isNonnegative b then', 'divisor touching zero', 'C14')
m('I34', f, 'div', 'def div ', 'let x := if isNonnegative a then b.sup else b.inf', 'let x := if isNonnegative a then b.inf else b.sup', 'wrong bound', 'C14')
m('I35', f, 'div', 'else if isNegative b then', 'new (GFloat.nextDown (a.sup / x)) (GFloat.nextUp (a.inf / y))', 'new (GFloat.nextDown (a.inf / x)) (GFloat.nextUp (a.sup / y))', 'bounds not swapped', 'C14')
m('I36', f, 'div', 'else if isNegative b then', 'else new GFloat.negInfinity GFloat.infinity', 'else new Scalar.zero GFloat.infinity', 'division by zero-containing interval', 'C14')
m('I37', f, 'divS', 'def divS', 'if Scalar.gt t Scalar.zero', 'if Scalar.ge t Scalar.zero', 'zero divisor', 'C15')
m('I38', f, 'divS', 'def divS', 'GFloat.nextDown (a.sup / t)', 'GFloat.nextDown (a.inf / t)', 'wrong bound', 'C15')
m('I39', f, 'neg', 'def neg', 'new (-a.sup) (-a.inf)', 'new (-a.inf) (-a.sup)', 'bounds not swapped', 'C18')
m('I40', f, 'Scalar max', 'instance : Scalar (Interval T)', '(Scalar.max a.sup b.sup)', '(Scalar.min a.sup b.sup)', 'min for max', 'C18')
m('I41', f, 'abs', 'instance : SignedScalar (Interval T)', 'Scalar.max (SignedScalar.abs a.inf)', 'Scalar.min (SignedScalar.abs a.inf)', 'min for max', 'C18')
m('I42', f, 'abs', 'instance : SignedScalar (Interval T)', 'if Scalar.isNegative a.inf then', 'if Scalar.isNegative a.sup then', 'straddling intervals not handled', 'C18')
m('I43', f, 'pi', 'instance : GFloat (Interval T)', 'pi := ⟨GFloat.piLower, GFloat.piUpper⟩', 'pi := ⟨GFloat.pi, GFloat.pi⟩', 'rounded constant', 'C26')
m('I44', f, 'isNan', 'instance : GFloat (Interval T)', 'GFloat.isNan a.inf || GFloat.isNan a.sup', 'GFloat.isNan a.inf && GFloat.isNan a.sup', 'and for or', 'C22')
m('I45', f, 'isFinite', 'instance : GFloat (Interval T)', 'GFloat.isFinite a.inf && GFloat.isFinite a.sup', 'GFloat.isFinite a.inf', 'upper bound not checked', 'C22')
m('I46', f, 'fromF64', 'instance : GFloat (Interval T)', 'fromF64 := fun x => from1 (GFloat.fromF64 x)', 'fromF64 := fun x => from1 (GFloat.nextUp (GFloat.fromF64 x))', 'one ulp off', 'C26')
m('I47', f, 'toF32', 'instance : GFloat (Interval T)', 'toF32 := fun a => GFloat.toF32 (approx a)', 'toF32 := fun a => GFloat.toF32 a.inf', 'lower bound', 'C26 C21')
m('I48', f, 'tau', 'instance : GFloat (Interval T)', '⟨GFloat.tauLower, GFloat.tauUpper⟩', '⟨GFloat.tauLower, GFloat.tauLower⟩', 'upper constant wrong', 'C26')
m('I49', f, 'sqrt (trait)', 'instance : GFloat (Interval T)', 'GFloat.nextUp (GFloat.sqrt a.sup)', 'GFloat.sqrt a.sup', 'not widened', 'C17')
m('I50', f, 'nextUp (trait)', 'instance : GFloat (Interval T)', 'nextUp := fun a => new (GFloat.nextUp a.inf) (GFloat.nextUp a.sup)', 'nextUp := fun a => a', 'identity', 'C26')
m('I51', f, 'sin', 'def sin', 'if Scalar.ge diff GFloat.tau then', 'if Scalar.ge diff GFloat.pi then', 'wide test at pi', 'C24')
m('I52', f, 'sin', 'def sin', 'else if Scalar.isNegative cosInf then', 'else if Scalar.isPositive cosInf then', 'extremum on the wrong side', 'C24')
m('I53', f, 'cos', 'def cos', 'else if Scalar.isPositive sinInf then', 'else if Scalar.isNegative sinInf then', 'extremum on the wrong side', 'C24')
m('I54', f, 'cos', 'def cos', 'new (GFloat.nextDown t.1) (GFloat.nextUp t.2)', 'new t.1 t.2', 'not widened', 'C24')
m('I55', f, 'asin', 'def asin', 'mapMonotonicInc', 'mapMonotonicDec', 'decreasing', 'C25')
m('I56', f, 'acos', 'def acos', 'mapMonotonicDec', 'mapMonotonicInc', 'increasing', 'C25')
m('I57', f, 'atan', 'def atan ', 'GTrig.atan', 'GTrig.asin', 'wrong function', 'C25')
m('I58', f, 'atan2', 'def atan2Fuel', '(mapMonotonicInc (y / x) GTrig.atan + (GFloat.pi : T))', '(mapMonotonicInc (y / x) GTrig.atan - (GFloat.pi : T))', 'wrong quadrant', 'C25')
m('I59', f, 'atan2', 'def atan2Fuel', 'else if isNegative y then', 'else if isNonpositive y then', 'boundary', 'C25')
m('I60', f, 'atan2', 'def atan2Fuel', 'union (atan2Fuel fuel y (new x.inf Scalar.zero)) (atan2Fuel fuel y (new Scalar.zero x.sup))', 'atan2Fuel fuel y (new Scalar.zero x.sup)', 'half of x ignored', 'C25')
m('I61', f, 'tan', 'instance : GTrig (Interval T)', 'tan := fun a => sin a / cos a', 'tan := fun a => cos a / sin a', 'cotangent', 'C24')
m('I62', f, 'sinCos', 'instance : GTrig (Interval T)', 'sinCos := fun a => (sin a, cos a)', 'sinCos := fun a => (cos a, sin a)', 'swapped', 'C24')
m('I63', f, 'sin', 'def sin', 'Scalar.eq (Scalar.signum cosInf) (Scalar.signum cosSup)', '!Scalar.eq (Scalar.signum cosInf) (Scalar.signum cosSup)', 'test negated', 'C24')
m('I64', f, 'isExact', 'def isExact', 'Scalar.eq a.inf a.sup', 'Scalar.le a.inf a.sup', 'all intervals exact', 'C19 C22')
m('I65', f, 'fromI64', 'instance : GFloat (Interval T)', 'from1 (GFloat.fromI64 n)', 'from1 (GFloat.fromI64 (n + 1))', 'off by one', 'C26')
m('I66', f, 'half', 'instance : GFloat (Interval T)', 'half := from1 GFloat.half', 'half := from1 Scalar.one', 'wrong constant', 'C26')
m('I67', f, 'infinity', 'instance : GFloat (Interval T)', 'infinity := new GFloat.infinity GFloat.infinity', 'infinity := new GFloat.negInfinity GFloat.infinity', 'whole line', 'C26')
m('I68', f, 'zero', 'instance : Scalar (Interval T)', 'zero := new Scalar.zero Scalar.zero', 'zero := new Scalar.zero Scalar.one', 'wrong constant', 'C26')
m('I69', f, 'highest', 'instance : Scalar (Interval T)', 'highest := new Scalar.highest Scalar.highest', 'highest := new Scalar.lowest Scalar.highest', 'wrong constant', 'C26')
# ---------------------------------------------------------------- scalar
f = 'Model/Scalar.lean'
m('A01', f, 'F32.nextUp', 'namespace F32', 'bits + 1#32 else bits - 1#32', 'bits - 1#32 else bits + 1#32', 'wrong direction', 'C01')
m('A02', f, 'F32.nextUp', 'namespace F32', 'TINY_BITS : BitVec 32 := 0x1#32', 'TINY_BITS : BitVec 32 := 0x2#32', 'skips the smallest float', 'C01')
m('A03', f, 'F32.nextUp', 'namespace F32', 'INFINITY : BitVec 32 := 0x7f800000#32', 'INFINITY : BitVec 32 := 0xff800000#32', 'stops at the wrong infinity', 'C01')
m('A04', f, 'F32.nextDown', 'namespace F32', '0x80000001#32', '0x1#32', 'below zero is positive', 'C02')
m('A05', f, 'F64.nextDown', 'def nextDown (x : F64)', 'CLEAR_SIGN_MASK : BitVec 64 := 0x7fffffffffffffff#64', 'CLEAR_SIGN_MASK : BitVec 64 := 0x7fffffff#64', '32-bit mask', 'C02')
m('A06', f, 'F64.nextUp', 'def nextUp (x : F64)', 'if x.isNaN || bits == INFINITY then x', 'if bits == INFINITY then x', 'NaN not handled', 'C01')
m('A07', f, 'minMax', 'def minMax', 'if lt a b then (a, b) else (b, a)', 'if gt a b then (a, b) else (b, a)', 'reversed', 'C05')
m('A08', f, 'clamp', 'def clamp', 'else if gt x hi then hi', 'else if lt x hi then hi', 'boundary', 'C05')
m('A09', f, 'inRange', 'def inRange', 'ge x lo', 'gt x lo', 'lower end excluded', 'C05')
m('A10', f, 'Scalar.min', 'class Scalar', 'min : T → T → T := fun a b => if pcmp a b == some .lt then a else b', 'min : T → T → T := fun a b => if pcmp a b == some .lt then b else a', 'returns the larger', 'C05')
m('A11', f, 'Scalar.max', 'class Scalar', 'max : T → T → T := fun a b => if pcmp a b == some .gt then a else b', 'max : T → T → T := fun a b => if pcmp a b == some .lt then a else b', 'returns the smaller', 'C05')
m('A12', f, 'absDefault', 'def absDefault', 'if isNegative x', 'if isPositive x', 'negative absolute value', 'C06')
m('A13', f, 'signum', 'def signum', 'if isPositive x then one', 'if isNonnegative x then one', 'signum of zero', 'C24')
m('A14', f, 'fequals', 'def GFloat.fequals', 'Scalar.max (SignedScalar.abs a) (SignedScalar.abs b)', 'SignedScalar.abs a', 'not symmetric', 'C06')
m('A15', f, 'fequals', 'def GFloat.fequals', 'if Scalar.lt diff GFloat.absEpsilon then true\n  else', 'if Scalar.lt diff GFloat.absEpsilon then false\n  else', 'close numbers unequal', 'C06')
m('A16', f, 'fequals', 'def GFloat.fequals', '(largest * GFloat.relEpsilon)', 'largest', 'relative tolerance one', 'C06')
m('A17', f, 'isOne', 'def isOne', 'eq x one', 'eq x zero', 'wrong constant', 'C05')
m('A18', f, 'Int8.lowest', 'instance : Scalar Int8', 'lowest := -128', 'lowest := -127', 'off by one', 'C08')
m('A19', f, 'UInt16.highest', 'instance : Scalar UInt16', '65535', '65534', 'off by one', 'C08')
m('A20', f, 'ordCmp', 'def ordCmp', 'some .lt else if a = b then some .eq else some .gt', 'some .gt else if a = b then some .eq else some .lt', 'reversed', 'C05')
m('A21', f, 'F64.piUpper', 'def piUpper : F64', '273689', '273688', 'same as lower', 'C10')
m('A22', f, 'F32.piLower', 'def piLower : F32', '13176794', '13176796', 'above pi', 'C10')
m('A23', f, 'FltImpl f64 tauUpper', 'instance : FltImpl 52 11', 'tauUpper := F64.piUpper * F64.lit 2', 'tauUpper := F64.piUpper', 'pi for tau', 'C10')
m('A24', f, 'FltImpl f32 fracPi2Lower', 'instance : FltImpl 23 8', 'fracPi2Lower := F32.piLower / F32.lit 2', 'fracPi2Lower := F32.piLower / F32.lit 4', 'pi/4 for pi/2', 'C10')
m('A25', f, 'GFloat half', 'instance {mw ew : Nat} [FltImpl mw ew] : GFloat', 'half := Flt.ofRat mw ew false 1 2', 'half := Flt.ofRat mw ew false 1 4', 'quarter', 'C21')
m('A26', f, 'FltImpl f32 pi', 'instance : FltImpl 23 8', 'pi := ⟨0x40490FDB#32⟩', 'pi := ⟨0x40490FDE#32⟩', 'three ulps off', 'C10')
m('A27', f, 'highest', 'instance : Scalar (Flt mw ew)', 'highest := maxFin mw ew false', 'highest := ofRat mw ew false 1 1', 'one', 'C08 C48')
m('A28', f, 'iclamp', 'def iclamp', 'if hi.lt x then hi else x', 'if hi.lt x then lo else x', 'wrong bound', 'C60')
m('A29', f, 'isFinite', 'instance {mw ew : Nat} [FltImpl mw ew] : GFloat', 'isFinite := Flt.isFin', 'isFinite := fun x => !x.isNaN', 'infinity counts as finite', 'C07')
m('A30', f, 'square', 'instance : Scalar (Flt mw ew)', 'square := fun x => x * x', 'square := fun x => x + x', 'doubles', 'C29')
m('A31', f, 'recip', 'def GFloat.recip', 'Scalar.one / x', 'x', 'identity', 'C39')
m('A32', f, 'two', 'def two', '(one : T) + one', '(one : T)', 'one', 'C05')
m('A33', f, 'isZero', 'def isZero', 'eq x zero', 'eq x one', 'wrong constant', 'C69')
m('A34', f, 'isPositive', 'def isPositive', 'gt x zero', 'ge x zero', 'zero positive', 'C05')
m('A35', f, 'minPositive', 'instance {mw ew : Nat} [FltImpl mw ew] : GFloat', 'minPositive := Flt.minNormal mw ew', 'minPositive := Flt.zero mw ew false', 'zero', 'C08')
m('A36', f, 'negZero', 'instance {mw ew : Nat} [FltImpl mw ew] : GFloat', 'negZero := Flt.zero mw ew true', 'negZero := Flt.zero mw ew false', 'positive zero', 'C08')
m('A37', f, 'UInt8 AlmostEqual', 'instance : AlmostEqual UInt8', '⟨(· == ·)⟩', '⟨fun _ _ => true⟩', 'always equal', 'C06')
m('A38', f, 'Int32 square', 'instance : Scalar Int32', 'fun x => x * x', 'fun x => x', 'identity', 'C29')
m('A39', f, 'maxDefault', 'def maxDefault', 'if gt a b then a else b', 'if gt a b then b else a', 'smaller', 'C05')
m('A40', f, 'sinCos (float)', 'instance {mw ew : Nat} [Libm mw ew] : GTrig', '(Libm.sin x, Libm.cos x)', '(Libm.cos x, Libm.sin x)', 'swapped', 'C70')
# ---------------------------------------------------------------- primitive float operations
f = 'Float/Basic.lean'
m('F01', f, 'rneStep', 'def rneStep', '| .gt => i + 1', '| .gt => i', 'truncates', 'C04')
m('F02', f, 'Flt.toI64', 'def toI64', 'max (-m) (-(2 ^ 63))', 'max (-m) (-(2 ^ 63 - 1))', 'saturates early', 'C09')
m('F03', f, 'Flt.ofInt', 'def ofInt', '(decide (n < 0))', 'false', 'sign lost', 'C09')
m('F04', f, 'Flt.imin', 'def imin', 'if x.isNaN then y else', 'if x.isNaN then x else', 'NaN propagates', 'C45')
m('F05', f, 'Flt.div', 'def div', 'if x.isZero then nan mw ew else inf mw ew (x.sgn != y.sgn)', 'inf mw ew (x.sgn != y.sgn)', '0/0 = inf', 'C53')
m('F06', f, 'Flt.sub', 'def sub', 'add x (neg y)', 'add y (neg x)', 'operands swapped', 'C04')

# the claims these break, after the properties C78, C82, C87, C88, C96, C99 were added
for k, c in {'I21': 'C78', 'I22': 'C78', 'T44': 'C78', 'T45': 'C78', 'T48': 'C78', 'V06': 'C78', 'V07': 'C78', 'A37': 'C78', 'V19': 'C87',
             'I44': 'C99', 'I45': 'C99', 'I47': 'C99', 'I50': 'C99', 'T47': 'C88', 'V05': 'C88', 'V26': 'C88', 'V27': 'C88',
             'V21': 'C96', 'V22': 'C96'}.items():
    for x in M:
        if x['id'] == k: x['claims'] = [c]

mutants = M

# ---------------------------------------------------------------- rounding-error claims (C101 to C123)
f = 'Model/Sphere.lean'
m('Q01', f, 'solveQuadratic', 'def solveQuadratic', '(-(c + c) / (b + sqrtD))', '((-b + sqrtD) * GFloat.half / a)', 'textbook formula, cancels (same over the reals)', 'C101')
m('Q02', f, 'solveQuadratic', 'else\n      some', '((c + c) / (-b + sqrtD))', '((-b - sqrtD) * GFloat.half / a)', 'textbook formula, cancels (same over the reals)', 'C101')
m('Q03', f, 'solveQuadratic', 'def solveQuadratic', 'some (Scalar.minMax (-(b + sqrtD) * GFloat.half / a) (-(c + c) / (b + sqrtD)))', 'some (-(c + c) / (b + sqrtD), -(b + sqrtD) * GFloat.half / a)', 'roots in the wrong order', 'C55 C120')
m('Q04', f, 'solveQuadratic', 'def solveQuadratic', 'if Scalar.isNonnegative d then', 'if Scalar.ge d GFloat.half then', 'absolute threshold on the discriminant', 'C55 C120 C122')
m('Q05', f, 'Sphere.intersectRay', 'def intersectRay', '- Scalar.square s.radius', '- s.radius', 'radius not squared', 'C102 C120 C122')
m('Q06', f, 'Sphere.intersectRay', 'def intersectRay', 'match getIntersection s ray t0 with\n    | none => getIntersection s ray t1', 'match getIntersection s ray t1 with\n    | none => getIntersection s ray t0', 'far hit first', 'C120')
m('Q07', f, 'Sphere.getIntersection', 'def getIntersection', 'if !Scalar.inRange t Scalar.zero ray.tmax then none\n  else', 'if Scalar.gt t ray.tmax then none\n  else', 'hits behind the origin', 'C120')
m('Q08', f, 'Sphere.bbox', 'def bbox', 'GVec.new3 s.radius s.radius s.zMax', 'GVec.new3 s.zMax s.radius s.zMax', 'box too narrow', 'C115')
m('Q09', f, 'Sphere.interaction', 'def interaction', 'let u := (phi + GFloat.pi) / phiMaxPlusPi', 'let u := (phi + GFloat.pi) / s.phiMax', 'u leaves the unit square', 'C114')
m('Q10', f, 'Sphere.interaction', 'def interaction', 'GTrig.acos (Inherent.clamp (p.z / s.radius)', 'GTrig.acos (Inherent.clamp (p.x / s.radius)', 'polar angle from x', 'C114')
m('Q11', f, 'Sphere.getIntersection', 'def getIntersection', 'if Scalar.gt phi s.phiMax then none', 'if Scalar.gt hitPoint.x s.phiMax then none', 'x clipped instead of phi', 'C121')
m('Q12', f, 'solveQuadratic', 'def solveQuadratic', 'let sqrtD := GFloat.sqrt d', 'let sqrtD := d', 'root of the discriminant dropped', 'C101 C102 C120 C122')
f = 'Model/Transform.lean'
m('Q13', f, 'Ray.eval', 'def Ray.eval', 'r.origin + r.direction * t', 'r.origin - r.direction * t', 'ray goes backwards', 'C102 C118 C119 C123')
m('Q14', f, 'Transform.mapRay', 'def mapRay ', 'let d ← t.mapVec r.direction\n  return ⟨o, d, r.tmax⟩', 'return ⟨o, r.direction, r.tmax⟩', 'direction not mapped', 'C118')
m('Q15', f, 'Transform.mapRayInv', 'def mapRayInv', 'let d ← t.mapVecInv r.direction', 'let d ← t.mapVec r.direction', 'direction mapped forward', 'C119')
m('Q16', f, 'Transform.perspective', 'def perspective', 'GTrig.tan (fov * GFloat.half)', 'GTrig.tan fov', 'angle not halved', 'C108 C111')
m('Q17', f, 'Transform.perspective', 'def perspective', '(far * near / (far - near))', '(far * near / (near - far))', 'sign of the depth offset', 'C108 C111')
m('Q18', f, 'Transform.lookAt', 'def lookAt', '(upU.cross zU).normalize', '(upU.cross zU)', 'x axis not normalised', 'C107')
m('Q19', f, 'Transform.lookAt', 'def lookAt', 'zU.cross xU', 'xU.cross zU', 'left-handed basis', 'C107')
m('Q20', f, 'Transform.rotate', 'def rotate ', 'z * c + u * (𝟙 - c) * (u.dot z)', 'z * c + u * (𝟙 + c) * (u.dot z)', 'sign in Rodrigues formula', 'C106')
m('Q21', f, 'Transform.rotate', 'def rotate ', '⟨mat, mat.transpose⟩', '⟨mat.transpose, mat⟩', 'rotation the other way', 'C106')
m('Q22', f, 'Transform.rotateY', 'def rotateY', '⟨Mat4.mk4 c 𝟘 s 𝟘', '⟨Mat4.mk4 c 𝟘 (-s) 𝟘', 'sign of the sine', 'C105')
m('Q23', f, 'Transform.translate', 'def translate', '𝟘 𝟙 𝟘 (-v.y)', '𝟘 𝟙 𝟘 v.y', 'inverse not negated', 'C103')
m('Q24', f, 'mapPt', 'def mapPt', '((p.x * m.idx 1 0 + p.y * m.idx 1 1 + p.z * m.idx 1 2 + m.idx 1 3) / w)', '(p.x * m.idx 1 0 + p.y * m.idx 1 1 + p.z * m.idx 1 2 + m.idx 1 3)', 'no perspective divide in y', 'C111 C123')
m('Q25', f, 'Transform.mul', 'instance [Add T] [Mul T] [Scalar T] : Mul (Transform T)', '⟨a.m * b.m,', '⟨b.m * a.m,', 'composition in the wrong order', 'C104')
m('Q26', f, 'Mat4.inverse', 'let d11 :=', 'data 0 0 * (data 2 2 * data 3 3 - data 2 3 * data 3 2)', 'data 0 0 * (data 2 2 * data 3 3 + data 2 3 * data 3 2)', 'sign in a cofactor', 'C110')
f = 'Model/Vector.lean'
m('Q27', f, 'cross', 'def cross', '(a.z * b.x - a.x * b.z)', '(a.x * b.z - a.z * b.x)', 'sign of the y component', 'C117')
m('Q28', f, 'norm', 'def norm', 'GFloat.sqrt (squareNorm a)', 'squareNorm a', 'root dropped', 'C117')
m('Q29', f, 'distance', 'def distance', 'GFloat.sqrt (squareDistance a b)', 'squareDistance a b', 'root dropped', 'C117')
f = 'Model/Bbox.lean'
m('Q30', f, 'Bbox.intersectRay', 'def intersectRay', 'Inherent.max (Inherent.max t1.x t1.y) t1.z', 'Scalar.max (Scalar.max t1.x t1.y) t1.z', 'NaN treated differently per axis', 'C121')
m('Q31', f, 'mapBboxStep', 'def mapBboxStep', 'Function.update acc.2 j (acc.2 j + b))', 'Function.update acc.2 j (acc.2 j + a))', 'upper corner from the lower product', 'C109')
m('Q32', f, 'Bbox.intersectRay', 'def intersectRay', 'let tmax := (b.pmax - ray.origin) / ray.direction', 'let tmax := b.pmax / ray.direction', 'origin forgotten', 'C115 C119')
m('Q33', f, 'Bbox.intersectRay', 'def intersectRay', 'Scalar.lt tfar Scalar.zero', 'Scalar.lt t2.x Scalar.zero', 'only the x slab is tested for being behind', 'C121')
f = 'Model/Interval.lean'
m('Q34', f, 'Interval.sub', 'def sub ', 'new (GFloat.nextDown (a.inf - b.sup))', 'new (GFloat.nextDown (a.inf - b.inf))', 'bounds not crossed', 'C11 C123')
m('Q35', f, 'Interval.add', 'def add ', '(GFloat.nextUp (a.sup + b.sup))', '(GFloat.nextDown (a.sup + b.sup))', 'upper bound rounded down', 'C11 C123')
f = 'Model/Primitive.lean'
m('Q36', f, 'Primitive.transformed', 'intersect ray := do', 'let r ← otow.mapRayInv ray\n    prim.intersect r', 'let r ← otow.mapRay ray\n    prim.intersect r', 'object to world applied to the ray', 'C119')
f = 'Model/Camera.lean'
m('Q37', f, 'uniformSampleDisk', 'def uniformSampleDisk', 'let r := GFloat.sqrt p.y', 'let r := p.y', 'radius not square-rooted', 'C112')
m('Q38', f, 'ThinLensCamera.cameraRay', 'def cameraRay', 'let t := -cam.focalDistance', 'let t := cam.focalDistance', 'focus behind the camera', 'C113')
m('Q39', f, 'ThinLensCamera.cameraRay', 'def cameraRay', '* cam.lensRadius', '* cam.filmDistance', 'lens radius dropped', 'C113')
m('Q40', f, 'concentricSampleDisk', 'def concentricSampleDisk', 'GFloat.fracPi2 - x / y * GFloat.fracPi4', 'GFloat.fracPi4 - x / y * GFloat.fracPi4', 'pi/4 for pi/2 in second wedge', 'C112')
# ---------------------------------------------------------------- C124 to C129
f = 'Model/Bbox.lean'
m('R01', f, 'Bbox.faceInteraction', 'def faceInteraction', '| 1 => { p := GVec.new3 b.xmax p.y p.z', '| 1 => { p := GVec.new3 b.xmin p.y p.z', 'point on the opposite face', 'C124')
m('R02', f, 'Bbox.faceInteraction', 'def faceInteraction', '| 2 => { p := GVec.new3 p.x b.ymin p.z, n := GVec.new3 z (-o) z', '| 2 => { p := GVec.new3 p.x b.ymin p.z, n := GVec.new3 z o z', 'normal points inwards on one face', 'C124')
m('R03', f, 'Bbox.hit', 'def hit ', 'fun (tRay, _) =>', 'fun (_, tRay) =>', 'reports where the ray leaves', 'C124')
m('R04', f, 'Bbox.minDistanceIdx', 'def minDistanceIdx', 'Scalar.lt (d i) (d best)', 'Scalar.lt (d best) (d i)', 'farthest face instead of nearest', 'C124')
m('R05', f, 'Bbox.minDistanceIdx', 'def minDistanceIdx', '[1, 2, 3, 4, 5]', '[1, 2, 3, 4]', 'last face never considered', 'C124')
m('R06', f, 'Bbox.faceDistances', 'def faceDistances', 'Inherent.abs (p.y - b.ymax), Inherent.abs (p.z - b.zmin)', 'Inherent.abs (p.z - b.zmin), Inherent.abs (p.y - b.ymax)', 'distances of two faces swapped', 'C124')
m('R07', f, 'Bbox.intersectRay', 'def intersectRay', 'some (Inherent.max tnear Scalar.zero, Inherent.min tfar ray.tmax)', 'some (tnear, Inherent.min tfar ray.tmax)', 'entry before the origin', 'C52 C126')
f = 'Model/Sphere.lean'
m('R08', f, 'Sphere.interaction', 'def interaction', 'GVec.new3 (-p.y) p.x Scalar.zero * phiMaxPlusPi', 'GVec.new3 p.y p.x Scalar.zero * phiMaxPlusPi', 'sign of a tangent', 'C125')
m('R09', f, 'Sphere.interaction', 'def interaction', '(-s.radius * sinTheta)', '(s.radius * sinTheta)', 'sign of dp/dv', 'C125')
m('R10', f, 'Sphere.interaction', 'def interaction', '(p.z * cosPhi) (p.z * sinPhi)', '(p.z * sinPhi) (p.z * cosPhi)', 'sine and cosine exchanged in dp/dv', 'C125')
m('R11', f, 'Sphere.interaction', 'def interaction', 'GTrig.acos (Inherent.clamp (p.z / s.radius) Scalar.zero Scalar.one)', 'GTrig.acos (Inherent.clamp p.z Scalar.zero Scalar.one)', 'height not divided by the radius', 'C125 C114')
m('R12', f, 'Sphere.interaction', 'def interaction', '* phiMaxPlusPi\n', '* thetaMaxMinusThetaMin\n', 'wrong factor of dp/du', 'C125')
f = 'Model/Primitive.lean'
m('R13', f, 'Primitive.transformed', 'doIntersect ray := do', 'let r ← otow.mapRayInv ray\n    prim.doIntersect r', 'prim.doIntersect ray', 'any-hit test ignores the transform', 'C66')
m('R14', f, 'Primitive.transformed', 'intersect ray := do', 'let r ← otow.mapRayInv ray\n    prim.intersect r', 'prim.intersect ray', 'hit test ignores the transform', 'C126')
m('R15', f, 'PrimitiveList.intersectLoop', 'def PrimitiveList.intersectLoop', '| none => intersectLoop ray ps result rayMut', '| none => some result', 'stops at the first miss', 'C64')
m('R16', f, 'PrimitiveList.intersectLoop', 'def PrimitiveList.intersectLoop', 'match ← p.intersect ray with', 'match ← p.intersect rayMut with', 'uses the shortened ray (the intended code)', 'C64')
f = 'Model/Transform.lean'
m('R17', f, 'mapRayInv', 'def mapRayInv', 't.mapPointInv r.origin', 't.mapPoint r.origin', 'origin mapped the wrong way', 'C126 C119')
m('R18', f, 'mapNrm', 'def mapNrm', '(n.x * minv.idx 0 0 + n.y * minv.idx 1 0 + n.z * minv.idx 2 0 * n.z)', '(n.x * minv.idx 0 0 + n.y * minv.idx 1 0 + n.z * minv.idx 2 0)', 'one component without the extra factor', 'C127 C40')
m('R19', f, 'mapNrm', 'def mapNrm', '(n.x * minv.idx 0 1 + n.y * minv.idx 1 1 + n.z * minv.idx 2 1 * n.z)', '(n.x * minv.idx 1 0 + n.y * minv.idx 1 1 + n.z * minv.idx 1 2 * n.z)', 'one component not transposed', 'C127')
m('R20', f, 'Transform.mapNormal', 'def mapNormal ', 'mapNrm t.minv n', 'mapNrm t.m n', 'matrix instead of its inverse', 'C127')
m('R21', f, 'Mat4.inverse', 'def inverse', '(-d10 * detInv)', '(d10 * detInv)', 'sign of a cofactor', 'C129 C33')
m('R22', f, 'Mat4.inverse', 'def inverse', '- data 0 3 * d03', '+ data 0 3 * d03', 'sign in the determinant', 'C129 C33')
m('R23', f, 'Mat4 mul', 'instance [Add T] [Mul T] [Scalar T] : Mul (Mat4 T)', 'a.data i k * b.data k j', 'a.data i k * b.data j k', 'second factor transposed', 'C32')
m('R24', f, 'Transform mul', 'instance [Add T] [Mul T] [Scalar T] : Mul (Transform T)', 'b.minv * a.minv', 'a.minv * b.minv', 'inverses in the wrong order', 'C34 C129')
m('R25', f, 'Transform.rotateX', 'def rotateX', '𝟘 c s 𝟘', '𝟘 c (-s) 𝟘', 'inverse rotates the same way', 'C129 C34')
m('R26', f, 'Transform.perspective', 'def perspective', '(far * near / (far - near))', '(far * near / (near - far))', 'sign of the depth term', 'C129 C39')
m('R27', f, 'Transform.scale', 'def scale', '(𝟙 / v.y)', 'v.y', 'inverse scaling keeps one factor', 'C34')
m('R28', f, 'mapPt', 'def mapPt', '((p.x * m.idx 0 0 + p.y * m.idx 0 1 + p.z * m.idx 0 2 + m.idx 0 3) / w)', '(p.x * m.idx 0 0 + p.y * m.idx 0 1 + p.z * m.idx 0 2 + m.idx 0 3)', 'one component not divided', 'C129')
m('R29', f, 'mapPt', 'def mapPt', '+ m.idx 1 3) / w)', '+ m.idx 0 3) / w)', 'wrong translation entry', 'C85')
f = 'Model/Assign.lean'
m('R30', f, 'Interval.addAssign', 'def addAssign', 'a + b', 'a - b', '+= subtracts', 'C128')
m('R31', f, 'Interval.subAssign', 'def subAssign', 'a - b', 'b - a', '-= reversed', 'C128')
m('R32', f, 'Interval.mulAssignS', 'def mulAssignS', 'a * t', 'a / t', '*= by a float divides', 'C128')
m('R33', f, 'Interval.divAssign', 'def divAssign', 'a / b', 'b / a', '/= reversed', 'C128')
m('R34', f, 'Machine.loop', 'def loop', 'if M.lt (M.eval s a) (M.eval s b) then', 'if M.lt (M.eval s b) (M.eval s a) then', 'loop test reversed', 'C128')
m('R35', f, 'Machine.run', 'def run', '.ifLt a b p q, s =>\n    if M.lt (M.eval s a) (M.eval s b) then', '.ifLt a b p q, s =>\n    if M.lt (M.eval s b) (M.eval s a) then', 'branch test reversed', 'C128')
f = 'Model/Interval.lean'
m('R36', f, 'Interval.pcmp', 'def pcmp ', 'some .lt', 'some .gt', 'less and greater exchanged', 'C128 C19')
# ---------------------------------------------------------------- C130, C131
f = 'Model/Camera.lean'
m('X01', f, 'ThinLensCamera.generateRay', 'def generateRay', 'cam.view.mapRayInv', 'cam.view.mapRay', 'view transform applied the wrong way', 'C130 C131')
m('X02', f, 'ThinLensCamera.cameraRay', 'def cameraRay', '(GFloat.half * cam.filmWidth - sample.pFilm.x * cam.filmWidth)', '(sample.pFilm.x * cam.filmWidth - GFloat.half * cam.filmWidth)', 'picture mirrored', 'C130 C131')
m('X03', f, 'ThinLensCamera.cameraRay', 'def cameraRay', 'sample.pFilm.y * cam.filmHeight', 'sample.pFilm.y * cam.filmWidth', 'aspect ratio ignored for one term', 'C130 C131')
m('X04', f, 'ThinLensCamera.cameraRay', 'def cameraRay', 'let t := -cam.focalDistance /', 'let t := cam.focalDistance /', 'rays go backwards', 'C130 C131')
m('X05', f, 'ThinLensCamera.cameraRay', 'def cameraRay', '.normalize, Scalar.highest⟩', '.normalize, cam.focalDistance⟩', 'nothing seen beyond the plane of focus', 'C130 C131')
m('X06', f, 'ThinLensCamera.cameraRay', 'def cameraRay', '(pAtFocalPlane - pLens).normalize', '(pLens - pAtFocalPlane).normalize', 'direction reversed', 'C130 C131')
m('X07', f, 'ThinLensCamera.new', 'def new', 'fov * GFloat.half', 'fov', 'tangent of the whole angle', 'C130 C131')
f = 'Model/Primitive.lean'
m('X08', f, 'PrimitiveList.intersectLoop', 'def PrimitiveList.intersectLoop', '| some ir => intersectLoop ray ps (some ir)', '| some _ => intersectLoop ray ps result', 'hits forgotten', 'C130 C131')
m('X09', f, 'Sphere.prim', 'def Sphere.prim', 'intersect := fun r => some (s.intersect r)', 'intersect := fun r => some (if Scalar.isNonnegative r.origin.z then s.intersect r else none)', 'nothing seen from below', 'C130 C131')
f = 'Model/Sphere.lean'
m('X10', f, 'Sphere.intersectRay', 'def intersectRay', '| none => getIntersection s ray t1', '| none => none', 'far side of a partial sphere not seen', 'C130 C131')
m('X11', f, 'Sphere.getIntersection', 'def getIntersection', 'tRay := t, p := hitPoint', 'tRay := t + t, p := hitPoint', 'distance doubled', 'C130 C131')
f = 'Model/Transform.lean'
m('X12', f, 'mapRayInv', 'def mapRayInv', 'return ⟨o, d, r.tmax⟩', 'return ⟨o, d, Scalar.one⟩', 'mapped ray cut short', 'C131')
m('X13', f, 'Transform.lookAt', 'def lookAt', '(pos - target).normalize', '(target - pos).normalize', 'looks away from the target', 'C130')
# ---------------------------------------------------------------- C132, C133, C134
f = 'Model/Camera.lean'
m('W01', f, 'ThinLensCamera.cameraRay', 'def cameraRay', 'concentricSampleDisk sample.pLens * cam.lensRadius', 'concentricSampleDisk sample.pLens * (cam.lensRadius + cam.lensRadius)', 'lens twice as wide', 'C132')
m('W02', f, 'ThinLensCamera.cameraRay', 'def cameraRay', 'concentricSampleDisk sample.pLens', 'uniformSampleDisk sample.pFilm', 'lens point from the film sample', 'C132')
m('W03', f, 'ThinLensCamera.cameraRay', 'def cameraRay', 'let t := -cam.focalDistance / filmToLens.direction.z', 'let t := -(cam.focalDistance + cam.focalDistance) / filmToLens.direction.z', 'focus at twice the distance', 'C132')
m('W04', f, 'ThinLensCamera.cameraRay', 'def cameraRay', 'GVec.new3 pLensXY.x pLensXY.y Scalar.zero', 'GVec.new3 pLensXY.x pLensXY.x Scalar.zero', 'lens points on a line', 'C132')
m('W05', f, 'ThinLensCamera.new', 'def new', '(focalDistance - focalLength)', '(focalDistance + focalLength)', 'lens equation with the wrong sign', 'C132')
m('W06', f, 'concentricSampleDisk', 'def concentricSampleDisk', 'p.x', 'p.x * p.x', 'sample squared', 'C132')
f = 'Model/Interval.lean'
m('W07', f, 'Interval.mul', 'def mul ', '(GFloat.nextUp (Scalar.max (a.inf * a.inf) (b.sup * b.sup)))', '(GFloat.nextUp (Scalar.max Scalar.one (b.sup * b.sup)))', 'constant upper bound for straddling factors', 'C133')
m('W08', f, 'Interval.min', 'instance : Scalar (Interval T)', 'min := fun a b => new (Scalar.min a.inf b.inf) (Scalar.min a.sup b.sup)', 'min := fun a b => new (Scalar.min a.inf b.inf) (Scalar.max a.sup b.sup)', 'hull instead of the minimum', 'C133')
m('W09', f, 'Interval.add', 'def add ', '(GFloat.nextUp (a.sup + b.sup))', '(GFloat.nextUp (a.sup + b.sup + b.sup - b.inf))', 'upper bound too far out', 'C133')
m('W10', f, 'Interval.square', 'def square', 'new Scalar.zero (GFloat.nextUp (absMax * absMax))', 'new Scalar.zero (GFloat.nextUp (absMax * absMax + Scalar.one))', 'square of a straddling interval too wide', 'C133')
m('W11', f, 'Interval.abs', 'instance : SignedScalar (Interval T)', 'new Scalar.zero (Scalar.max (SignedScalar.abs a.inf) (SignedScalar.abs a.sup))', 'new a.inf (Scalar.max (SignedScalar.abs a.inf) (SignedScalar.abs a.sup))', 'absolute value starts below zero', 'C133')
m('W12', f, 'Interval.div', 'def div ', 'let x := if isNonnegative a then b.sup else b.inf', 'let x := if isNonnegative a then b.sup + b.sup else b.inf', 'lower bound of the quotient too low', 'C133')
m('W13', f, 'Interval.eq', 'def eq ', 'isExact a && isExact b && Scalar.eq a.inf b.inf', 'isExact a && Scalar.eq a.inf b.inf', 'equal although the second is not a point', 'C134')
m('W14', f, 'Interval.pcmp', 'def pcmp ', 'if eq a b then some .eq\n  else if Scalar.lt a.sup b.inf then some .lt', 'if eq a b then some .eq\n  else if Scalar.lt a.inf b.sup then some .lt', 'possibly less counts as less', 'C134')
m('W15', f, 'Interval.pcmp', 'def pcmp ', 'else if Scalar.lt b.sup a.inf then some .gt', 'else if Scalar.lt b.inf a.inf then some .gt', 'greater when it only starts later', 'C134')
m('W16', f, 'Interval.eqS', 'def eqS', 'isExact a && Scalar.eq a.inf t', 'contains a t', 'containing a number counts as being equal to it', 'C134')
m('W17', f, 'Interval.pcmpS', 'def pcmpS', 'some .gt', 'some .lt', 'greater than a number reported as less', 'C134')
f = 'Model/Vector.lean'
m('W18', f, 'GVec.eq', 'def eq ', '(List.finRange n).all', '(List.finRange n).any', 'one equal component suffices', 'C134')
f = 'Model/Transform.lean'
m('W19', f, 'Mat4.eq', 'def eq ', 'Scalar.eq (a.data i j) (b.data i j)', 'Scalar.eq (a.data i j) (b.data j i)', 'compared with the transpose', 'C134')
f = 'Model/Eq.lean'
m('W20', f, 'Transform.eq', 'def Transform.eq', 'a.m.eq b.m && a.minv.eq b.minv', 'a.m.eq b.m', 'inverses not compared', 'C134')

# C135: rearranging a scene
f = 'Model/Primitive.lean'
m('W21', f, 'doIntersectLoop', 'def PrimitiveList.doIntersectLoop', '| [] => some false', '| [] => some true', 'the empty list is hit', 'C135')
m('W22', f, 'intersectLoop', 'def PrimitiveList.intersectLoop', '| none => intersectLoop ray ps result rayMut', '| none => intersectLoop ray ps none rayMut', 'a miss forgets the hit found so far', 'C135')
m('W23', f, 'Primitive.transformed', '  doIntersect ray := do\n', 'let r ← otow.mapRayInv ray', 'let r ← otow.mapRay ray', 'do_intersect maps the ray the other way', 'C135')
m('W24', f, 'Primitive.transformed', '  intersect ray := do\n', 'let r ← otow.mapRayInv ray', 'let r := ray', 'the transform is ignored by intersect', 'C135')
f = 'Model/Transform.lean'
m('W25', f, 'Transform.mul', 'instance [Add T] [Mul T] [Scalar T] : Mul (Transform T)', 'b.minv * a.minv', 'a.minv * b.minv', 'inverses multiplied in the same order', 'C135')
m('W26', f, 'Transform.inverse', 'def inverse (t : Transform T)', '⟨t.minv, t.m⟩', '⟨t.minv, t.minv⟩', 'the inverse of the inverse is lost', 'C135')

# C136, C137: look_at is determined by what it does, the constructors are complete
f = 'Model/Transform.lean'
m('W27', f, 'Transform.lookAt', 'def lookAt', 'upU.cross zU', 'zU.cross upU', 'left and right exchanged, and up and down', 'C136')
m('W28', f, 'Transform.lookAt', 'def lookAt', 'zU.cross xU', 'xU.cross zU', 'picture upside down: a mirror image', 'C136')
m('W29', f, 'Transform.lookAt', 'def lookAt', '(upU.cross zU).normalize', 'upU.cross zU', 'x axis too short when up is tilted', 'C136 C137')
m('W30', f, 'Transform.lookAt', 'def lookAt', 'let yU := zU.cross xU', 'let yU := upU', 'up is taken as it is, not straightened', 'C136 C137')
m('W31', f, 'Transform.lookAt', 'def lookAt', 'initFromOrthogonalBasis pos xU', 'initFromOrthogonalBasis target xU', 'the target becomes the origin', 'C136')
m('W32', f, 'Transform.translate', 'def translate', '(-v.x)', 'v.x', 'inverse translates the same way along x', 'C137')
m('W33', f, 'Transform.rotateY', 'def rotateY', '⟨Mat4.mk4 c 𝟘 s 𝟘', '⟨Mat4.mk4 c 𝟘 𝟘 𝟘', 'one entry of the y rotation missing', 'C137')
m('W34', f, 'Transform.rotateX', 'def rotateX', '𝟘 c (-s) 𝟘', '𝟘 c s 𝟘', 'sign lost in the x rotation', 'C137')
m('W35', f, 'Transform.rotate', 'def rotate ', 'let u := vec.normalize', 'let u := vec', 'axis not normalised', 'C137 C138')
m('W36', f, 'Transform.perspective', 'def perspective', '𝟘 𝟘 𝟙 𝟘', '𝟘 𝟘 𝟘 𝟙', 'no perspective division', 'C137')
m('W37', f, 'Transform.perspective', 'def perspective', '⟨mat, mat.inverse⟩', '⟨mat, mat.transpose⟩', 'transpose stored as the inverse', 'C137')
m('W38', f, 'Transform.rotate', 'def rotate ', '⟨mat, mat.transpose⟩', '⟨mat, mat⟩', 'rotation stored as its own inverse', 'C137 C138')
m('W39', f, 'Transform.translate', 'def translate', '(-v.y)', '(-v.x)', 'inverse translates along y by the x component', 'C138')
m('W40', f, 'Transform.scale', 'def scale', '(𝟙 / v.y)', '(v.y)', 'inverse scaling scales the same way', 'C138')
m('W41', f, 'Transform.mul', 'instance [Add T] [Mul T] [Scalar T] : Mul (Transform T)', '⟨a.m * b.m, b.minv * a.minv⟩', '⟨b.m * a.m, a.minv * b.minv⟩', 'factors in the wrong order', 'C138')
m('W42', f, 'Transform.rotate', 'def rotate ', 'u.cross z * s', 'u.cross z * (-s)', 'one column turns the wrong way', 'C138')
m('W43', f, 'Transform.rotate', 'def rotate ', 'GTrig.sinCos angle', 'GTrig.sinCos (angle * angle)', 'angle squared', 'C138')
# C139: perspective
m('W44', f, 'Transform.perspective', 'def perspective', '(far * near / (far - near))', '(far / (far - near))', 'depth offset wrong', 'C139')
m('W45', f, 'Transform.perspective', 'def perspective', 'GFloat.recip (GTrig.tan (fov * GFloat.half))', 'GFloat.recip (GTrig.tan fov)', 'whole angle instead of half', 'C139')
m('W46', f, 'Transform.perspective', 'def perspective', '𝟘 (-e) 𝟘 𝟘', '𝟘 e 𝟘 𝟘', 'picture upside down', 'C139')
m('W47', f, 'mapPt', 'def mapPt', 'p.z * m.idx 0 2 + m.idx 0 3) / w', 'p.z * m.idx 0 2 + m.idx 0 3)', 'x not divided by w', 'C139')
m('W48', f, 'mapPt', 'def mapPt', 'p.z * m.idx 1 2 + m.idx 1 3) / w', 'p.y * m.idx 1 2 + m.idx 1 3) / w', 'y used twice', 'C139')
# C140: containment of boxes
f = 'Model/Bbox.lean'
m('W49', f, 'Bbox.intersectRay', 'def intersectRay', 'let t1 := tmin.min tmax', 'let t1 := tmin', 'near side not sorted: wrong for directions pointing down an axis', 'C140')
m('W50', f, 'Bbox.intersectRay', 'def intersectRay', 'let tnear := Inherent.max (Inherent.max t1.x t1.y) t1.z', 'let tnear := Scalar.max (Scalar.max t1.x t1.y) t1.z', 'trait max instead of the inherent one: a NaN in z hides the other axes', 'C140')
m('W51', f, 'Bbox.intersectRay', 'def intersectRay', 'let tfar := Inherent.min (Inherent.min t2.x t2.y) t2.z', 'let tfar := Inherent.max (Inherent.min t2.x t2.y) t1.z', 'far end mixes near and far sides', 'C140')
m('W52', f, 'Bbox.union', 'def union', '(Inherent.max a.zmax b.zmax)', '(Inherent.max a.zmax b.zmin)', 'union cut off along z', 'C140')
m('W53', f, 'Bbox.intersectRay', 'def intersectRay', 'Inherent.min tfar ray.tmax', 'tnear', 'range ends where it begins', 'C140')
# C141: visibility
f = 'Model/Primitive.lean'
m('W54', f, 'Primitive.transformed', 'doIntersect ray := do', 'prim.doIntersect r', 'prim.doIntersect { r with tmax := Scalar.highest }', 'any-hit of a moved object forgets where the ray ends', 'C141')
m('W55', f, 'PrimitiveList.doIntersectLoop', 'def PrimitiveList.doIntersectLoop', '  | p :: ps => do\n', '  | p :: [] => do\n    return !(← p.doIntersect ray)\n  | p :: ps => do\n', 'last member negated', 'C141')
m('W56', f, 'Primitive.transformed', 'doIntersect ray := do', 'otow.mapRayInv ray', 'some ray', 'any-hit ignores the transform', 'C141')
f = 'Model/Bbox.lean'
m('W57', f, 'Bbox.intersectRay', 'def intersectRay', 'if Scalar.gt tnear ray.tmax || ', 'if ', 'boxes beyond the end of the ray are hit', 'C141')
m('W58', f, 'Bbox.intersectRay', 'def intersectRay', 'Scalar.lt tfar Scalar.zero || ', '', 'boxes behind the ray are hit', 'C141')
f = 'Model/Sphere.lean'
m('W59', f, 'Sphere.intersectRay', 'def intersectRay', '| none => getIntersection s ray t1', '| none => none', 'the far crossing is not tried', 'C141')
# C142: first hit
f = 'Model/Bbox.lean'
m('W60', f, 'Bbox.hit', 'def hit ', 'fun (tRay, _) =>', 'fun (_, tRay) =>', 'reports where the ray leaves', 'C142')
m('W61', f, 'Bbox.intersectRay', 'def intersectRay', '(Inherent.max tnear Scalar.zero,', '(tnear,', 'a box around the origin is hit behind the origin', 'C142')
f = 'Model/Sphere.lean'
m('W62', f, 'Sphere.intersectRay', 'def intersectRay', 'match getIntersection s ray t0 with\n    | none => getIntersection s ray t1', 'match getIntersection s ray t1 with\n    | none => getIntersection s ray t0', 'far crossing preferred', 'C142')
f = 'Model/Primitive.lean'
m('W63', f, 'Primitive.transformed', 'intersect ray := do', '    prim.intersect r\n', '    prim.intersect { r with tmax := Scalar.highest }\n', 'hit of a moved object beyond the end of the ray', 'C142')
# C143: ray tracing against projection
f = 'Model/Camera.lean'
m('W64', f, 'ThinLensCamera.new', 'def new', 'filmWidth / aspectRatio', 'filmWidth * aspectRatio', 'aspect ratio inverted', 'C143')
m('W65', f, 'ThinLensCamera.cameraRay', 'def cameraRay', '(GFloat.half * cam.filmWidth - sample.pFilm.x * cam.filmWidth)', '(sample.pFilm.x * cam.filmWidth - GFloat.half * cam.filmWidth)', 'image mirrored horizontally', 'C143')
f = 'Model/Transform.lean'
m('W66', f, 'Transform.perspective', 'def perspective', '(-e) 𝟘 𝟘 𝟘\n', 'e 𝟘 𝟘 𝟘\n', 'projection mirrored', 'C143')
m('W67', f, 'Transform.perspective', 'def perspective', '(far / (far - near))', '(near / (far - near))', 'depth reversed and shifted', 'C143')
# C144: laws of interval arithmetic
f = 'Model/Interval.lean'
m('W68', f, 'Interval.add', 'def add ', 'new (GFloat.nextDown (a.inf + b.inf))', 'new (a.inf + b.inf)', 'only one bound is widened: signs cannot be taken out', 'C144')
m('W69', f, 'Interval.square', 'def square', 'let absMax := Scalar.max (-a.inf) a.sup', 'let absMax := a.sup', 'square depends on the sign', 'C144')
m('W70', f, 'Interval.mulS', 'def mulS', 'else new (GFloat.nextDown (a.sup * t)) (GFloat.nextUp (a.inf * t))', 'else new (GFloat.nextDown (a.sup * t)) (GFloat.nextUp (a.sup * t))', 'wrong bound for negative numbers', 'C144')
m('W71', f, 'Interval.mul', 'def mul ', 'let x := if isNonnegative b then a.inf else a.sup', 'let x := a.inf', 'product depends on the order of the factors', 'C144')
m('W72', f, 'Interval.divS', 'def divS', 'Scalar.gt t Scalar.zero', 'Scalar.ge t Scalar.zero', 'dividing by the number zero differs from dividing by its interval', 'C144')
m('W73', f, 'Interval.neg', 'def neg', 'new (-a.sup) (-a.inf)', 'new (-a.inf) (-a.sup)', 'bounds not exchanged', 'C144')
# C145: the picture depends only on the relative position
f = 'Model/Camera.lean'
m('W74', f, 'ThinLensCamera.cameraRay', 'def cameraRay', '(GFloat.half * cam.filmHeight - sample.pFilm.y * cam.filmHeight)', '(cam.filmHeight - sample.pFilm.y * cam.filmHeight)', 'picture not centred: turning it upside down shifts it', 'C145')
m('W75', f, 'concentricSampleDisk', 'def concentricSampleDisk', 'let y := Scalar.one - GFloat.fromF32 (F32.lit 2) * p.y', 'let y := Scalar.one - p.y', 'lens samples not symmetric', 'C145')
m('W76', f, 'ThinLensCamera.new', 'def new', '(focalDistance - focalLength)\n', '(focalDistance - Scalar.one)\n', 'depends on the unit of length', 'C145')
m('W77', f, 'ThinLensCamera.cameraRay', 'def cameraRay', '⟨pLens, (pAtFocalPlane - pLens).normalize, Scalar.highest⟩', '⟨pLens, (pAtFocalPlane - pLens), Scalar.highest⟩', 'direction depends on the unit of length', 'C145')
# C146: integers that can panic
f = 'Model/Checked.lean'
m('W78', f, 'Chk.arith', 'def arith', '| .release => some wrapped', '| .release => if fitsB T exact then some wrapped else none', 'release build panics on overflow', 'C146')
m('W79', f, 'Chk.fitsB', 'def fitsB', 'decide (e ≤ IntWord.hi T)', 'decide (e < IntWord.hi T)', 'debug build panics on the largest value', 'C146')
m('W80', f, 'Chk.Div', 'instance [Div T] : Div (Chk b T)', 'toZ y = 0 ∨ (toZ x = lo T ∧ toZ y = -1)', 'toZ y = 0', 'MIN / -1 wraps instead of panicking', 'C146')
f = 'Model/Vector.lean'
m('W81', f, 'GVec.cross', 'def cross', '(a.z * b.x - a.x * b.z)', '(a.x * b.z - a.z * b.x)', 'cross has the wrong sign in y', 'C146')
m('W82', f, 'sumLoop', 'def sumLoop', 'sumLoop n (fun i => f i.castSucc) + f (Fin.last n)', 'sumLoop n (fun i => f i.succ) + f 0', 'the running totals are taken from the other end', 'C146')
# C147: when tracing a scene panics
f = 'Model/Transform.lean'
m('W83', f, 'mapVector', 'def mapVector', 'if Scalar.eq (v.x * m.idx 3 0 + v.y * m.idx 3 1 + v.z * m.idx 3 2) Scalar.zero then', 'if Scalar.eq (v.x * m.idx 3 0 + v.y * m.idx 3 1 + v.z * m.idx 3 2 + m.idx 3 3) Scalar.zero then', 'vectors treated like points in the check: every direction panics', 'C147')
m('W84', f, 'mapPt', 'def mapPt', 'if Scalar.eq w Scalar.zero then none', 'if Scalar.eq w Scalar.one then none', 'points panic although affine', 'C147')
f = 'Model/Primitive.lean'
m('W85', f, 'PrimitiveList.doIntersectLoop', 'def PrimitiveList.doIntersectLoop', '| [] => some false', '| [] => none', 'do_intersect panics on an empty list', 'C147')
# C148: boxes as a lattice
f = 'Model/Bbox.lean'
m('W86', f, 'Bbox.union', 'def union', '(Inherent.max a.zmax b.zmax)', 'a.zmax', 'the union forgets the second box on one side: not commutative', 'C148')
m('W87', f, 'Bbox.intersect', 'def intersect ', '(Inherent.max a.ymin b.ymin)', '(Inherent.min a.ymin b.ymin)', 'the intersection is too large on one side', 'C148')
m('W88', f, 'Bbox.overlaps', 'def overlaps', 'Scalar.gt a.zmax b.zmin', 'Scalar.ge a.zmax b.zmin', 'touching boxes overlap on one side only', 'C148')
m('W89', f, 'Bbox.inside', 'def inside', 'Scalar.ge p.x b.xmin', 'Scalar.gt p.x b.xmin', 'points on one face are outside', 'C148')
# C149: intervals in norm and look_at
f = 'Model/Interval.lean'
m('W90', f, 'Interval.sqrt', 'def sqrt', 'new (GFloat.nextDown (GFloat.sqrt a.inf))', 'new (GFloat.sqrt a.inf)', 'lower bound of the root not rounded outwards', 'C149')
m('W91', f, 'Interval.div', 'def div ', 'let x := if isNonpositive a then b.inf else b.sup', 'let x := b.sup', 'wrong bound for quotients of negative intervals', 'C149 C150')
# C150: interval inverses
m('W92', f, 'Interval.div', 'def div ', 'else new GFloat.negInfinity GFloat.infinity', 'else new Scalar.zero GFloat.infinity', 'dividing by an interval around zero looks one-sided', 'C150')
f = 'Model/Transform.lean'
m('W93', f, 'Mat4.inverse', 'def inverse [Add T] [Sub T] [Mul T] [Div T] [Neg T] [Scalar T] (a : Mat4 T)', 'let d00 := data 1 1 * (data 2 2 * data 3 3 - data 2 3 * data 3 2)', 'let d00 := data 1 1 * (data 2 2 * data 3 3 + data 2 3 * data 3 2)', 'sign error in a cofactor', 'C150')
# C151: shadow rays
f = 'Model/Primitive.lean'
m('W94', f, 'PrimitiveList.doIntersectLoop', 'def PrimitiveList.doIntersectLoop', 'if ← p.doIntersect ray then return true', 'if ← p.doIntersect ray then return false', 'a blocked ray is reported free', 'C151')
m('W98', f, 'Primitive.transformed', 'def Primitive.transformed', 'doIntersect ray := do\n    let r ← otow.mapRayInv ray\n    prim.doIntersect r', 'doIntersect ray := do\n    let _ ← otow.mapRayInv ray\n    prim.doIntersect ray', 'shadow rays ignore the transform', 'C151')
f = 'Model/Bbox.lean'
m('W95', f, 'Bbox.intersectRay', 'def intersectRay', 'Scalar.gt tnear ray.tmax ||', 'Scalar.gt tfar ray.tmax ||', 'a box around the end of the segment does not block', 'C151')
m('W96', f, 'Bbox.intersectRay', 'def intersectRay', 'Scalar.lt tfar Scalar.zero ||', 'Scalar.lt tnear Scalar.zero ||', 'a box around the start of the segment does not block', 'C151')
f = 'Model/Sphere.lean'
m('W97', f, 'Sphere.intersectRay', 'def intersectRay', '| none => getIntersection s ray t1', '| none => none', 'a ray from inside a sphere is not blocked', 'C151')
# C152: cutting boxes
f = 'Model/Bbox.lean'
m('W99', f, 'Bbox.intersectRay', 'def intersectRay', 'Scalar.gt tnear tfar then none', 'Scalar.ge tnear tfar then none', 'rays through a cut in one point only miss both cells', 'C152')
m('Y01', f, 'Bbox.intersectRay', 'def intersectRay', 'let t2 := tmin.max tmax', 'let t2 := tmax', 'rays against an axis miss: the cells of a hit box too', 'C152')
m('Y02', f, 'Bbox.intersectRay', 'def intersectRay', 'Inherent.max (Inherent.max t1.x t1.y) t1.z', 'Inherent.max t1.x t1.y', 'cells are hit beside the box', 'C152')
m('Y03', f, 'Bbox.inside', 'def inside', 'Scalar.le p.y b.ymax', 'Scalar.lt p.y b.ymax', 'points of the cut are in no cell below it', 'C152')
# C153: cutting spheres
f = 'Model/Sphere.lean'
m('Y04', f, 'Sphere.getIntersection', 'def getIntersection', 'if !Scalar.inRange hitPoint.z s.zMin s.zMax then none', 'if !(Scalar.gt hitPoint.z s.zMin && Scalar.lt hitPoint.z s.zMax) then none', 'hits at the height of a cut are lost', 'C153')
m('Y05', f, 'Sphere.getIntersection', 'def getIntersection', 'Scalar.inRange hitPoint.z s.zMin s.zMax', 'Scalar.inRange hitPoint.y s.zMin s.zMax', 'cut across the wrong axis (still no crack), bounding box wrong', 'C56')
m('Y06', f, 'Sphere.area', 'def area', 's.phiMax * s.radius * (s.zMax - s.zMin)', 's.phiMax * s.radius * s.zMax', 'areas of the zones do not add up', 'C153')
m('Y07', f, 'Sphere.intersectRay', 'def intersectRay', '| none => getIntersection s ray t1', '| none => if Scalar.gt s.zMin Scalar.zero then none else getIntersection s ray t1', 'upper zones have no inside: light leaks through', 'C153')
m('Y08', f, 'Sphere.new', 'def new', 'some { radius, zMin, zMax,', 'some { radius, zMin := Inherent.max zMin Scalar.zero, zMax,', 'not the zone asked for', 'C153')
# C154: rays started at a hit
m('Y09', f, 'Sphere.getIntersection', 'def getIntersection', 'if !Scalar.inRange t Scalar.zero ray.tmax then none', 'if Scalar.le t Scalar.zero || Scalar.gt t ray.tmax then none', 'the surface a ray starts on is not hit', 'C154')
m('Y10', f, 'Sphere.getIntersection', 'def getIntersection', 'Scalar.inRange t Scalar.zero ray.tmax', 'Scalar.inRange t (-ray.tmax) ray.tmax', 'hits behind the start', 'C154')
f = 'Model/Bbox.lean'
m('Y11', f, 'Bbox.intersectRay', 'def intersectRay', 'Scalar.lt tfar Scalar.zero ||', 'Scalar.le tfar Scalar.zero ||', 'the face a ray starts on is not hit', 'C154')
m('Y12', f, 'Bbox.intersectRay', 'def intersectRay', 'Scalar.lt tfar Scalar.zero ||', '', 'a box behind the start is hit', 'C154')
f = 'Model/Scalar.lean'
m('Y13', f, 'F32.nextUp', 'def nextUp (x : F32)', 'if abs == 0#32 then TINY_BITS', 'if abs == 0#32 then bits', 'next_up of zero is zero: the start stays on the face', 'C01')
# C155: enlarging scenes
f = 'Model/Sphere.lean'
m('Y14', f, 'Sphere.getIntersection', 'def getIntersection', 'Scalar.gt phi s.phiMax', 'Scalar.lt phi s.phiMax', 'a larger phi_max cuts more off', 'C155')
f = 'Model/Bbox.lean'
m('Y15', f, 'Bbox.intersectRay', 'def intersectRay', 'Scalar.lt tfar Scalar.zero ||', 'Scalar.lt tnear Scalar.zero ||', 'a box that is enlarged over the start of the ray is no longer hit', 'C155')
# C156: interval trigonometry, over-estimates that still enclose
f = 'Model/Interval.lean'
m('Y16', f, 'Interval.sin', 'def sin (a : Interval T)', 'Scalar.ge diff GFloat.tau', 'Scalar.ge diff GFloat.pi', 'half a period taken for a whole one', 'C156')
m('Y17', f, 'Interval.cos', 'def cos (a : Interval T)', 'new (GFloat.nextDown t.1) (GFloat.nextUp t.2)', 'new (-Scalar.one) (GFloat.nextUp t.2)', 'lower bound of the cosine not computed', 'C156')
m('Y18', f, 'Interval.sin', 'def sin (a : Interval T)', 'else new (GFloat.nextDown (Scalar.min (GTrig.sin a.inf) (GTrig.sin a.sup))) Scalar.one', 'else new (-Scalar.one) Scalar.one', 'over-estimate when the sine passes its maximum', 'C156')
m('Y19', f, 'Interval.cos', 'def cos (a : Interval T)', 'new (-Scalar.one) (GFloat.nextUp (Scalar.max (GTrig.cos a.inf) (GTrig.cos a.sup)))', 'new (-Scalar.one) (GFloat.nextUp (GFloat.nextUp (Scalar.max (GTrig.cos a.inf) (GTrig.cos a.sup))))', 'upper bound widened twice', 'C156')
m('Y20', f, 'Interval.atan', 'def atan (a : Interval T)', 'mapMonotonicInc a GTrig.atan', 'new (-GFloat.fracPi2Upper) GFloat.fracPi2Upper', 'atan answers its whole range', 'C156')
# C157: boxes that are too large
f = 'Model/Sphere.lean'
m('Y21', f, 'Sphere.bbox', 'def bbox', '(GVec.new3 (-s.radius) (-s.radius) s.zMin)', '(GVec.new3 (-s.radius) (-s.radius) (Inherent.min s.zMin (-s.radius)))', 'box of a cut sphere as large as the whole', 'C157')
f = 'Model/Primitive.lean'
m('Y22', f, 'PrimitiveList.prim', 'def PrimitiveList.prim', 'Bbox.default', '⟨GVec.new3 Scalar.zero Scalar.zero Scalar.zero, GVec.new3 Scalar.zero Scalar.zero Scalar.zero⟩', 'the box of a list always contains the origin', 'C157')
# C158: nodes that lose hits
f = 'Model/Bbox.lean'
m('Y23', f, 'Bbox.doIntersect', 'def doIntersect', '(intersectRay b ray).isSome', '((intersectRay b ray).any fun t => Scalar.gt t.1 Scalar.zero)', 'a box around the start of the ray is not met', 'C158')
m('Y24', f, 'Bbox.doIntersect', 'def doIntersect', '(intersectRay b ray).isSome', '((intersectRay b ray).any fun t => Scalar.lt t.2 ray.tmax)', 'a box the ray ends in is not met', 'C158')
f = 'Model/Primitive.lean'
m('Y25', f, 'PrimitiveList.prim', 'def PrimitiveList.prim', 'ps.foldl (fun b p => b + p.bbox) Bbox.default', '(ps.take 8).foldl (fun b p => b + p.bbox) Bbox.default', 'box of the first eight members only', 'C158')
f = 'Model/Camera.lean'
m('Y26', f, 'concentricSampleDisk', 'def concentricSampleDisk', 'GFloat.fracPi2 - x / y * GFloat.fracPi4', 'GFloat.fracPi2 + x / y * GFloat.fracPi4', 'upper and lower quarters mirrored: torn along the diagonals', 'C159')
m('Y27', f, 'concentricSampleDisk', 'def concentricSampleDisk', '(x, GFloat.fracPi4 * y / x)', '(x, GFloat.fracPi2 * y / x)', 'left and right quarters cover half the disk each', 'C159')
m('Y28', f, 'concentricSampleDisk', 'def concentricSampleDisk', '(x, GFloat.fracPi4 * y / x)', '(Inherent.abs x, GFloat.fracPi4 * y / x)', 'left quarter folded onto the right one', 'C159')
f = 'Model/Interval.lean'
m('Y29', f, 'Interval.sqrt', 'def sqrt', 'new (GFloat.nextDown (GFloat.sqrt a.inf)) (GFloat.nextUp (GFloat.sqrt a.sup))', 'new (GFloat.nextDown (GFloat.sqrt a.inf)) (GFloat.nextUp (GFloat.nextUp (GFloat.sqrt a.sup)))', 'upper bound widened twice: settles further from 1', 'C160')
m('Y30', f, 'GFloat (Interval T).sqrt', 'instance : GFloat (Interval T)', 'sqrt := fun a => from2 (Scalar.minMax (GFloat.nextDown (GFloat.sqrt a.inf)) (GFloat.nextUp (GFloat.sqrt a.sup)))', 'sqrt := fun a => from2 (Scalar.minMax (GFloat.nextDown (GFloat.sqrt a.inf)) (GFloat.sqrt a.sup))', 'the sqrt of the trait does not widen upwards', 'C160')
m('Y31', f, 'Interval.isPositive', 'def isPositive', 'Scalar.gt a.inf Scalar.zero', 'Scalar.gt a.sup Scalar.zero', 'an interval around zero is reported positive: zeros excluded wrongly', 'C161')
m('Y32', f, 'Interval.intersect', 'def intersect', 'new (Scalar.max a.inf b.inf) (Scalar.min a.sup b.sup)', 'new (GFloat.nextUp (Scalar.max a.inf b.inf)) (Scalar.min a.sup b.sup)', 'narrowing cuts off a fixed point at the lower bound', 'C161')
m('Y33', f, 'Interval.inRange', 'def inRange', 'Scalar.ge a.inf t0 && Scalar.le a.sup t1', 'Scalar.ge a.sup t0 && Scalar.le a.inf t1', 'overlap reported as inclusion: no fixed point need exist', 'C161')
f = 'Model/Vector.lean'
m('Y34', f, 'GVec.norm', 'def norm', 'GFloat.sqrt (squareNorm a)', 'GFloat.nextDown (GFloat.sqrt (squareNorm a))', 'norm one float too small: below the component along an axis', 'C162')
m('Y35', f, 'GVec.normalize', 'def normalize', 'a / norm a', 'a * (Scalar.one / norm a)', 'multiplies by the reciprocal: an axis vector is not normalized exactly', 'C162')
m('Y36', f, 'GVec.distance', 'def distance', 'GFloat.sqrt (squareDistance a b)', 'GFloat.nextDown (GFloat.sqrt (squareDistance a b))', 'distance one float too small', 'C162')
f = 'Model/Transform.lean'
m('Y37', f, 'Transform.rotate', 'def rotate [', 'let xRotated := x * c + u * (𝟙 - c) * (u.dot x) + u.cross x * s', 'let xRotated := x * c + u * (u.dot x) - u * c * (u.dot x) + u.cross x * s', 'the axis entry is no longer exact for cos >= 0', 'C163')
m('Y38', f, 'Transform.rotate', 'def rotate [', '⟨mat, mat.transpose⟩', '⟨mat, mat⟩', 'inverse matrix of rotate is not the transpose', 'C163')
m('Y39', f, 'Transform.rotateY', 'def rotateY', 'Mat4.mk4 c 𝟘 s 𝟘', 'Mat4.mk4 c 𝟘 (-s) 𝟘', 'rotate_y turns the wrong way in one entry', 'C163')
f = 'Model/Vector.lean'
m('Y40', f, 'GVec.squareNorm', 'def squareNorm', 'Scalar.square (a.vec i)', '(a.vec i) * Scalar.square (a.vec i)', 'cubes: the sign of a component matters', 'C164')
m('Y41', f, 'GVec.norm', 'def norm', 'GFloat.sqrt (squareNorm a)', 'GFloat.nextUp (GFloat.sqrt (squareNorm a))', 'the zero vector has a norm above zero', 'C164')
m('Y42', f, 'sumLoop', 'def sumLoop', '| 0, _ => Scalar.zero', '| 0, _ => Scalar.one', 'the accumulator starts from one', 'C164')
m('Y43', f, 'GVec.normalize', 'def normalize', 'a / norm a', 'a / GFloat.nextUp (norm a)', 'a vector of norm zero is divided by the smallest float', 'C84')
m('Y44', f, 'GVec.norm', 'def norm', 'GFloat.sqrt (squareNorm a)', 'GFloat.sqrt (squareNorm a + Scalar.one)', 'one is added under the root: the norm is not homogeneous', 'C165')
f = 'Model/Transform.lean'
m('Y45', f, 'Transform.rotate', 'def rotate [', 'let u := vec.normalize', 'let u := vec', 'the axis is not normalized', 'C165')
m('Y46', f, 'Transform.lookAt', 'def lookAt', 'let upU := up.normalize', 'let upU := up', 'up is not normalized: its length is rounded into the basis', 'C165')
m('Y47', f, 'Mul (Mat4 T)', 'instance [Add T] [Mul T] [Scalar T] : Mul (Mat4 T) where', 'a.data i k * b.data k j', 'a.data i k * b.data j k', 'the second factor is read transposed', 'C166')
m('Y48', f, 'Transform.rotateX', 'def rotateX', '𝟘 c s 𝟘', '𝟘 c (-s) 𝟘', 'inverse of rotate_x is not its transpose', 'C166')
m('Y49', f, 'Transform.rotateZ', 'def rotateZ', 'Mat4.mk4 c s 𝟘 𝟘', 'Mat4.mk4 c (𝟘 + s) 𝟘 𝟘', 'inverse of rotate_z differs from the transpose in the sign of a zero', 'C166')
m('Y50', f, 'Ray.eval', 'def Ray.eval', 'r.origin + r.direction * t', 'r.origin + r.direction * (t * t)', 'the ray turns back at zero', 'C167')
f = 'Model/Bbox.lean'
m('Y51', f, 'Bbox.inside', 'def inside', 'Scalar.le p.z b.zmax', 'Scalar.le p.z b.zmin', 'compares with the wrong bound', 'C167')
f = 'Model/Transform.lean'
m('Y52', f, 'Transform.initFromOrthogonalBasis', 'def initFromOrthogonalBasis', 'y.x y.y y.z (-y.dot pos)', 'y.x y.y y.z (y.dot pos)', 'the camera does not sit at the origin', 'C168')
m('Y53', f, 'Transform.initFromOrthogonalBasis', 'def initFromOrthogonalBasis', 'x.z y.z z.z pos.z', 'x.z y.z z.z (-pos.z)', 'the origin comes back mirrored', 'C168')
