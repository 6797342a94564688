{"id": "C01", "title": "next_up is the least strictly greater float", "statement": "For f32 and f64: if x is not NaN and not +infinity, next_up(x) is a float strictly greater than x and no float lies strictly between x and next_up(x). next_up(+inf) = +inf and next_up(NaN) is NaN.", "quantifier": "every bit pattern of f32 and of f64", "why_tests_cant": "2^64 bit patterns for f64; boundary between subnormal/normal, sign change at zero, and overflow to infinity are single points.", "anchors": ["src/math/scalar.rs:GFloat for f32::next_up", "src/math/scalar.rs:GFloat for f64::next_up"]}
{"id": "C02", "title": "next_down is the greatest strictly smaller float", "statement": "For f32 and f64: if x is not NaN and not -infinity, next_down(x) is strictly smaller than x and no float lies strictly between. next_down(-inf) = -inf and next_down(NaN) is NaN.", "quantifier": "every bit pattern of f32 and of f64", "why_tests_cant": "2^64 bit patterns for f64; the exceptions sit at zero, the subnormal boundary, the infinities and NaN, which a sampled test does not hit", "anchors": ["src/math/scalar.rs:GFloat for f32::next_down", "src/math/scalar.rs:GFloat for f64::next_down"]}
{"id": "C03", "title": "next_up and next_down undo and mirror each other", "statement": "next_down(next_up(x)) == x for every non-NaN x other than +inf, next_up(next_down(x)) == x for every non-NaN x other than -inf, and next_down(-x) is bit-for-bit -next_up(x).", "quantifier": "every float", "why_tests_cant": "2^64 bit patterns for f64; undoing fails only at the infinities and at the two zeros", "anchors": ["src/math/scalar.rs:next_up", "src/math/scalar.rs:next_down"]}
{"id": "C04", "title": "One ulp of widening encloses every exact result", "statement": "For each of +, -, *, / and sqrt on finite floats (nonzero divisor, nonnegative radicand), the exact real result lies between next_down and next_up of the computed result, including when the computed result is subnormal, zero or overflowed to infinity.", "quantifier": "all pairs of finite operands", "why_tests_cant": "pairs of 64-bit floats cannot be enumerated; overflow and gradual underflow are the corner cases", "anchors": ["src/math/scalar.rs:GFloat", "src/math/interval.rs:doc comment of Interval"]}
{"id": "C05", "title": "min, max, min_max, clamp and in_range respect the order", "statement": "For non-NaN arguments min/max return the smaller/larger of their two arguments, min_max returns the same two values in nondecreasing order, clamp(x, lo, hi) with lo <= hi lies in [lo, hi] and equals x when x is already inside; in_range is exactly lo <= x <= hi. For NaN arguments min and max return the second argument and clamp returns NaN unchanged.", "quantifier": "all triples of floats, including NaN and infinities", "why_tests_cant": "triples of floats; which argument is returned differs only when one is NaN, so random tests never separate the versions", "anchors": ["src/math/scalar.rs:Scalar::min", "src/math/scalar.rs:Scalar::max", "src/math/scalar.rs:Scalar::min_max", "src/math/scalar.rs:Scalar::clamp", "src/math/scalar.rs:Scalar::in_range"]}
{"id": "C06", "title": "fequals is a tolerance relation", "statement": "a.fequals(b) equals b.fequals(a) for all floats; every float that is not NaN is fequals to itself; NaN is fequals to nothing; for finite a, b acceptance implies |a-b| < abs_epsilon or |a-b| < rel_epsilon * max(|a|,|b|) in exact arithmetic, and it accepts whenever two different floats fit between |a-b| and one of these tolerances.", "quantifier": "all pairs of floats", "why_tests_cant": "pairs of 64-bit operands; the violations involve infinities and NaN, where a difference is not a number", "anchors": ["src/math/scalar.rs:GFloat::fequals", "src/math/scalar.rs:AlmostEqual for f32", "src/math/scalar.rs:AlmostEqual for f64"]}
{"id": "C07", "title": "is_infinite identifies exactly the infinities", "statement": "GFloat::is_infinite(x) is true exactly when x is +inf or -inf; is_finite(x) exactly when x is neither infinite nor NaN; is_nan exactly for NaN.", "quantifier": "every float", "why_tests_cant": "a predicate on all bit patterns; a test that only exercises is_finite never sees that the two are confused", "anchors": ["src/math/scalar.rs:GFloat for f32::is_infinite", "src/math/scalar.rs:GFloat for f64::is_infinite"]}
{"id": "C08", "title": "Integer scalars: lowest and highest are the extreme values", "statement": "For each of u8,u16,u32,u64,i8,i16,i32,i64: lowest() <= x <= highest() for every x of the type and both bounds are values of the type.", "quantifier": "every value of every integer type", "why_tests_cant": "64-bit types cannot be enumerated; that no value lies beyond the constant is a statement about all of them", "anchors": ["src/math/scalar.rs:Scalar for u8..i64"]}
{"id": "C09", "title": "Float/integer and float/float casts", "statement": "from_i64(n).to_i64() == n whenever |n| is at most 2^24 (f32) or 2^53 (f64); to_f64 of an f32 is exact and from_f64(to_f64(x)) == x for every non-NaN f32; to_i64 truncates toward zero and saturates.", "quantifier": "all integers / floats in the stated range", "why_tests_cant": "2^53 integers and 2^64 floats; faithfulness of a cast is about the nearest representable neighbours of each", "anchors": ["src/math/scalar.rs:to_i64", "src/math/scalar.rs:from_i64", "src/math/scalar.rs:to_f64", "src/math/scalar.rs:from_f64"]}
{"id": "C10", "title": "Enclosing constants for pi", "statement": "pi_lower() <= pi <= pi_upper(), tau_lower() <= 2 pi <= tau_upper(), frac_pi_2_lower() <= pi/2 <= frac_pi_2_upper(), frac_pi_4_lower() <= pi/4 <= frac_pi_4_upper(), for f32 and for f64, where pi is the real number.", "quantifier": "both float types, the real number pi", "why_tests_cant": "a test compares with a floating approximation of pi, never with pi", "anchors": ["src/math/scalar.rs:pi_lower", "src/math/scalar.rs:pi_upper", "src/math/scalar.rs:tau_lower", "src/math/scalar.rs:tau_upper", "src/math/scalar.rs:frac_pi_2_lower", "src/math/scalar.rs:frac_pi_4_lower"]}
{"id": "C11", "title": "Interval addition and subtraction enclose", "statement": "If real x lies in interval A and real y in interval B then x+y lies in A+B and x-y lies in A-B; likewise A+t and A-t for a float t. Holds for overflowing bounds too.", "quantifier": "all intervals whose lower bound is not +inf or NaN and upper bound not -inf or NaN, all reals in them", "why_tests_cant": "uncountably many reals, all bound combinations incl. overflow", "anchors": ["src/math/interval.rs:Add<Self>", "src/math/interval.rs:Sub<Self>", "src/math/interval.rs:Add<T>", "src/math/interval.rs:Sub<T>", "src/math/interval.rs:AddAssign", "src/math/interval.rs:SubAssign"]}
{"id": "C12", "title": "Interval multiplication encloses", "statement": "If real x lies in A and real y in B then x*y lies in A*B, whatever the signs of the bounds.", "quantifier": "all intervals with finite bounds, all reals in them", "why_tests_cant": "nine sign combinations, and for the mixed/mixed case the bug shows only for some magnitudes", "anchors": ["src/math/interval.rs:Mul<Self>", "src/math/interval.rs:MulAssign<Self>"]}
{"id": "C13", "title": "Interval times scalar encloses", "statement": "If real x lies in A then x*t lies in A*t, for every finite float t.", "quantifier": "all finite intervals and floats", "why_tests_cant": "the reals inside the operand are uncountable and the enclosure may fail for a single sign or rounding pattern of 192 bits", "anchors": ["src/math/interval.rs:Mul<T>", "src/math/interval.rs:MulAssign<T>"]}
{"id": "C14", "title": "Interval division encloses", "statement": "If real x lies in A, real y in B and y != 0 then x/y lies in A/B; dividing by an interval containing zero gives the whole line.", "quantifier": "all intervals A with finite bounds, all B, all reals in them", "why_tests_cant": "unbounded divisors, six sign patterns and overflow; each test fixes one pattern and finitely many reals inside", "anchors": ["src/math/interval.rs:Div<Self>", "src/math/interval.rs:DivAssign<Self>"]}
{"id": "C15", "title": "Interval divided by scalar encloses", "statement": "If real x lies in A then x/t lies in A/t for every nonzero finite float t; A/0 is the whole line.", "quantifier": "all finite intervals and floats", "why_tests_cant": "the reals inside the operand are uncountable and enclosure may fail for one sign of the divisor only", "anchors": ["src/math/interval.rs:Div<T>", "src/math/interval.rs:DivAssign<T>"]}
{"id": "C16", "title": "Interval square encloses", "statement": "If real x lies in A then x*x lies in A.square(), and an interval straddling zero has a square with lower bound exactly 0.", "quantifier": "all finite intervals", "why_tests_cant": "three sign branches and overflow; every real inside the operand must be covered by the rounded result", "anchors": ["src/math/interval.rs:Interval::square"]}
{"id": "C17", "title": "Interval square root encloses", "statement": "If real x >= 0 lies in A then sqrt(x) lies in A.sqrt(), for every interval that contains a nonnegative number.", "quantifier": "all intervals with finite bounds", "why_tests_cant": "fails only for intervals reaching below zero; every real inside the operand must be covered", "anchors": ["src/math/interval.rs:Interval::sqrt", "src/math/interval_as_gfloat.rs:GFloat::sqrt"]}
{"id": "C18", "title": "Interval neg, abs, min, max, union, intersect enclose", "statement": "x in A implies -x in -A and |x| in A.abs(); x in A, y in B implies min(x,y) in A.min(B) and max(x,y) in A.max(B); the union contains both operands and the intersection contains exactly the common points.", "quantifier": "all intervals with non-NaN bounds", "why_tests_cant": "sign and ordering cases of two pairs of bounds, for uncountably many reals inside", "anchors": ["src/math/interval.rs:Neg", "src/math/interval.rs:SignedScalar::abs", "src/math/interval.rs:Scalar::min", "src/math/interval.rs:Scalar::max", "src/math/interval.rs:Interval::union", "src/math/interval.rs:Interval::intersect"]}
{"id": "C19", "title": "Interval comparisons are certain comparisons", "statement": "A < B holds exactly when every point of A is below every point of B; A == B holds exactly when both are the same single point; == on intervals means they have the same bounds (as documented).", "quantifier": "all ordered intervals", "why_tests_cant": "quantifies over all points of two intervals; touching and overlapping cases are measure-zero for random tests", "anchors": ["src/math/interval.rs:PartialEq<Self>", "src/math/interval.rs:PartialOrd<Self>", "src/math/interval.rs:PartialEq<T>", "src/math/interval.rs:PartialOrd<T>"]}
{"id": "C20", "title": "Arithmetic on ordered intervals never trips the sup >= inf assertion", "statement": "In a debug build, +, -, *, /, neg, square, sqrt, abs, min, max, union and scalar variants applied to ordered intervals with finite bounds do not panic; the result again satisfies inf <= sup.", "quantifier": "all ordered finite intervals", "why_tests_cant": "a panic needs specific bounds (overflow to infinity minus infinity, zero times infinity) out of 2^256 operand pairs", "anchors": ["src/math/interval.rs:Interval::new"]}
{"id": "C21", "title": "approx of an interval lies inside it", "statement": "For an ordered finite interval whose bounds do not overflow when added, inf <= approx() <= sup; approx of from(t) is t.", "quantifier": "all such intervals", "why_tests_cant": "rounding of the midpoint for subnormal and adjacent bounds out of 2^128 intervals", "anchors": ["src/math/interval.rs:Interval::approx", "src/math/interval.rs:From<T>", "src/math/interval.rs:From<Interval<f32>> for f32"]}
{"id": "C22", "title": "Interval predicates mean what they say", "statement": "contains(t) is exactly t in A; in_range(t0,t1) exactly A within [t0,t1]; is_positive/is_negative/is_nonpositive/is_nonnegative exactly that all points of A have that sign; is_same exactly equal bounds; is_exact exactly a single point.", "quantifier": "all intervals", "why_tests_cant": "each predicate speaks about all reals in the interval, and about all intervals", "anchors": ["src/math/interval.rs:Interval::contains", "src/math/interval.rs:Interval::in_range", "src/math/interval.rs:Interval::is_exact", "src/math/interval.rs:Interval::is_same", "src/math/interval.rs:Interval::is_positive"]}
{"id": "C23", "title": "Whole interval computations enclose (fundamental theorem)", "statement": "Evaluating any expression built from +, -, *, /, negation, squaring and float constants with interval operators yields an interval containing the exact real value of the expression for every choice of reals in the inputs.", "quantifier": "all expression trees, of any depth, and all inputs", "why_tests_cant": "expression trees of unbounded depth over uncountably many reals; needs induction", "anchors": ["src/math/interval.rs:operators"]}
{"id": "C24", "title": "Interval sin and cos enclose", "statement": "For x in A, sin(x) lies in A.sin() and cos(x) in A.cos(), given that the platform's scalar sin/cos are accurate to one ulp with correct signs.", "quantifier": "all finite intervals and all reals in them", "why_tests_cant": "the library's own random test only draws widths up to pi; the branch for wider intervals goes wrong unseen", "anchors": ["src/math/interval_as_gfloat.rs:GFloat::sin", "src/math/interval_as_gfloat.rs:GFloat::cos", "src/math/interval_as_gfloat.rs:GFloat::sin_cos"]}
{"id": "C25", "title": "Interval asin, acos, atan and atan2 enclose", "statement": "For x in A (within the domain), asin(x) lies in A.asin(), acos(x) in A.acos(), atan(x) in A.atan(); for y in Y, x in X, atan2(y,x) lies in Y.atan2(X).", "quantifier": "all intervals in the domain", "why_tests_cant": "the library's test draws only nonzero singleton intervals, for which every bound choice is right", "anchors": ["src/math/interval_as_gfloat.rs:GFloat::asin", "src/math/interval_as_gfloat.rs:GFloat::acos", "src/math/interval_as_gfloat.rs:GFloat::atan", "src/math/interval_as_gfloat.rs:GFloat::atan2", "src/math/interval.rs:map_monotonic_inc", "src/math/interval.rs:map_monotonic_dec"]}
{"id": "C26", "title": "Interval constants and conversions enclose their source", "statement": "Interval::pi(), tau(), frac_pi_2(), frac_pi_4() contain the real constants; Interval::from_i64(n) contains n; Interval::<f32>::from_f64(x) contains x.", "quantifier": "all n, all x", "why_tests_cant": "only large integers and non-representable sources fail, 2^64 of each", "anchors": ["src/math/interval_as_gfloat.rs:GFloat::pi", "src/math/interval_as_gfloat.rs:GFloat::from_i64", "src/math/interval_as_gfloat.rs:GFloat::from_f64"]}
{"id": "C27", "title": "Interval arithmetic is inclusion monotone", "statement": "Shrinking the inputs never enlarges the output: if A is within A' and B within B' then A op B is within A' op B' for op in +, -, *, / and for neg, square and scalar variants (bounds finite).", "quantifier": "all pairs of nested finite intervals", "why_tests_cant": "relates two computations on nested operands: 2^256 operand pairs, relies on monotone rounding", "anchors": ["src/math/interval.rs:operators"]}
{"id": "C28", "title": "Over-estimation is at most one ulp per bound", "statement": "The bounds of A+B, A-B and A*t are never further out than one float beyond the float nearest to the exact bound: the exact bound is strictly less than two floats away.", "quantifier": "all finite intervals", "why_tests_cant": "an upper bound on the width for all operands; enclosure tests accept arbitrarily wide results", "anchors": ["src/math/interval.rs:Add<Self>", "src/math/interval.rs:Sub<Self>", "src/math/interval.rs:Mul<T>"]}
{"id": "C29", "title": "Vector algebra", "statement": "In exact arithmetic: cross is anticommutative and orthogonal to both arguments, |a x b|^2 = |a|^2|b|^2 - (a.b)^2, dot is symmetric and bilinear in every dimension, square_norm is dot with itself, and normalize of a nonzero vector has norm 1 and the same direction.", "quantifier": "all vectors (dot/norm: every dimension)", "why_tests_cant": "identities over all reals and in every dimension N; a test fixes N and finitely many values", "anchors": ["src/math/vector.rs:cross", "src/math/vector.rs:dot", "src/math/vector.rs:square_norm", "src/math/vector_traits.rs:norm", "src/math/vector_traits.rs:normalize"]}
{"id": "C30", "title": "Point/vector affine laws", "statement": "(p + v) - p = v, p + (q - p) = q, (p - v) + v = p, v + p = p + v, in exact arithmetic and every dimension; conversions between Vector, Point and Normal keep the components.", "quantifier": "all points and vectors in every dimension", "why_tests_cant": "identities for all points and vectors in every dimension N", "anchors": ["src/math/vector.rs:Sub<Point>", "src/math/vector.rs:Add<Vector> for Point", "src/math/vector.rs:Sub<Vector> for Point", "src/math/vector.rs:From"]}
{"id": "C31", "title": "Component-wise min/max are bounds", "statement": "a.min(b) is component-wise <= both a and b and a.max(b) >= both, for non-NaN components, in every dimension; each component of the result is a component of an input.", "quantifier": "all vectors", "why_tests_cant": "in every dimension N and for all floats, including which operand wins for NaN", "anchors": ["src/math/vector.rs:min", "src/math/vector.rs:max"]}
{"id": "C32", "title": "Matrix algebra", "statement": "Matrix multiplication is associative, identity() is a two-sided unit, (AB)^T = B^T A^T, transpose is an involution and scalar multiplication commutes; exact for wrapping integers of every width and for exact reals. rows and columns agree with indexing.", "quantifier": "all 4x4 matrices over any commutative ring", "why_tests_cant": "identities in 32 or 48 independent matrix entries", "anchors": ["src/math/transform.rs:Mul<Matrix4x4>", "src/math/transform.rs:transpose", "src/math/transform.rs:identity", "src/math/transform.rs:Mul<T>", "src/math/transform.rs:row", "src/math/transform.rs:col"]}
{"id": "C33", "title": "Matrix inverse", "statement": "If M has nonzero determinant then M * M.inverse() and M.inverse() * M are the identity (exact arithmetic).", "quantifier": "all invertible matrices", "why_tests_cant": "16 real parameters and 16 cofactors; a wrong cofactor is invisible on diagonal or sparse test matrices", "anchors": ["src/math/transform_inverse_impl.rs:inverse_impl_adjugate", "src/math/transform.rs:Invertible for Matrix4x4"]}
{"id": "C34", "title": "Every transform built from the API carries its own inverse", "statement": "Starting from identity, translate, scale (nonzero factors), rotate_x/y/z, rotate (nonzero axis), look_at (non-degenerate) and perspective (0<fov<pi, 0<near<far), and closing under * and inverse(), matrix() times inverse_matrix() is the identity both ways.", "quantifier": "all finite compositions of constructors", "why_tests_cant": "unbounded sequences of compositions; needs induction over how a transform was built", "anchors": ["src/math/transform.rs:Transform", "src/math/transform.rs:Mul<Transform>", "src/math/transform.rs:Invertible for Transform"]}
{"id": "C35", "title": "map_inverse undoes map", "statement": "For such transforms map_inverse(map(x)) = x for points, and for vectors under affine transforms, in exact arithmetic and whenever map does not panic; map_inverse is map of inverse().", "quantifier": "all transforms and objects", "why_tests_cant": "a round trip for every transform and object; diagonal examples hide a swapped matrix", "anchors": ["src/math/transform.rs:TransformMap", "src/math/transform.rs:map_point", "src/math/transform.rs:map_vector"]}
{"id": "C36", "title": "Composition", "statement": "(A * B).map(x) = A.map(B.map(x)) for points whenever the right side does not panic and for vectors under affine transforms; inverse of A*B is inverse(B)*inverse(A).", "quantifier": "all transforms", "why_tests_cant": "32 matrix entries and all objects; commuting examples hide a swapped order", "anchors": ["src/math/transform.rs:Mul<Transform>", "src/math/transform.rs:map_point", "src/math/transform.rs:map_vector"]}
{"id": "C37", "title": "Rotations are rigid", "statement": "rotate, rotate_x, rotate_y, rotate_z preserve dot products and lengths, fix their axis, have determinant 1, add angles about the same axis, rotate by the given angle in the right-handed sense, and rotate about a coordinate axis agrees with the dedicated constructor.", "quantifier": "all angles, axes and vectors", "why_tests_cant": "all angles and axes; axis-aligned quarter turns satisfy many wrong matrices", "anchors": ["src/math/transform.rs:rotate", "src/math/transform.rs:rotate_x", "src/math/transform.rs:rotate_y", "src/math/transform.rs:rotate_z"]}
{"id": "C38", "title": "look_at places the camera", "statement": "look_at(pos, target, up) maps pos to the origin, target to a point on the negative z axis at distance |target - pos|, maps lengths to equal lengths, and map_inverse of the y axis is the normalised component of up orthogonal to the viewing direction; non-degenerate input.", "quantifier": "all non-degenerate inputs", "why_tests_cant": "nine real parameters; axis-aligned set-ups hide swapped or negated basis vectors", "anchors": ["src/math/transform.rs:look_at", "src/math/transform.rs:init_from_orthogonal_basis"]}
{"id": "C39", "title": "perspective maps the frustum onto the box", "statement": "For 0<fov<pi, 0<near<far, a point with z in [-far,-near] and |x|,|y| <= -z tan(fov/2) is mapped into [-1,1]x[-1,1]x[0,1], a point outside (z<0) is mapped outside, near plane to z=0 and far plane to z=1.", "quantifier": "all points", "why_tests_cant": "an equivalence over the whole frustum and its complement, for all field-of-view and clip parameters", "anchors": ["src/math/transform.rs:perspective"]}
{"id": "C40", "title": "Normals are mapped by the inverse transpose", "statement": "Transform::map of a normal is the inverse-transpose of the upper 3x3 part applied to it, so the mapped normal stays orthogonal to every mapped tangent vector; in particular the identity maps each normal to itself.", "quantifier": "all transforms and normals", "why_tests_cant": "fails only when n.z is neither 0 nor 1; the test normals are axis-aligned", "anchors": ["src/math/transform.rs:map_normal"]}
{"id": "C41", "title": "Mapped bounding boxes are conservative", "statement": "For an affine transform, if point p is inside box B then map(p) is inside map(B).", "quantifier": "all affine transforms, boxes, points", "why_tests_cant": "diagonal test matrices map the two stored corners to the corners of the image; only rotations and shears expose the loss", "anchors": ["src/geometry/bbox.rs:map_bbox"]}
{"id": "C42", "title": "Mapping a ray commutes with evaluation", "statement": "For an affine transform, map(ray).eval(t) = map(ray.eval(t)) for every t, and tmax is unchanged, in both directions.", "quantifier": "all affine transforms, rays, t", "why_tests_cant": "all transforms, rays and parameters, in both directions", "anchors": ["src/geometry/ray.rs:TransformMap<Ray>", "src/geometry/ray.rs:eval"]}
{"id": "C43", "title": "Panics of map", "statement": "Affine transforms (bottom row 0 0 0 1) never panic on points or vectors; mapping a vector panics exactly when the transform's bottom row does not annihilate it; mapping a point panics exactly when its homogeneous w is 0; mapping vectors and rays with interval coordinates works like mapping exact ones (no panic for affine transforms).", "quantifier": "all transforms and objects", "why_tests_cant": "assertion on all inputs; interval instantiation never tested", "anchors": ["src/math/transform.rs:map_vector assert_eq", "src/math/transform.rs:map_point assert", "src/geometry/ray.rs:Rayfi"]}
{"id": "C44", "title": "Box of two points contains them", "statement": "Bbox3::new(p,q) has pmin <= pmax component-wise, contains p and q, is symmetric in p and q, and is the smallest such box; non-NaN coordinates.", "quantifier": "all pairs of float points", "why_tests_cant": "2^192 pairs of corner points; minimality quantifies over all competing boxes", "anchors": ["src/geometry/bbox.rs:Bbox3::new", "src/geometry/bbox.rs:inside"]}
{"id": "C45", "title": "Box union", "statement": "A point inside A or inside B is inside A.union(B) (also via + and +=); union is commutative, associative and idempotent as a region and, for nonempty boxes, is the least box containing both.", "quantifier": "all boxes and points, incl. infinite", "why_tests_cant": "membership of every point in every pair of boxes, infinities included; minimality quantifies over all boxes", "anchors": ["src/geometry/bbox.rs:union", "src/geometry/bbox.rs:Add", "src/geometry/bbox.rs:AddAssign"]}
{"id": "C46", "title": "Box intersection", "statement": "A point is inside A.intersect(B) exactly when it is inside both (non-NaN bounds).", "quantifier": "all boxes and points", "why_tests_cant": "membership of every point in every pair of boxes, empty intersections included", "anchors": ["src/geometry/bbox.rs:intersect"]}
{"id": "C47", "title": "overlaps", "statement": "overlaps is symmetric, implies that two ordered boxes have a common point, and for boxes with pmin < pmax on every axis is exactly that the interiors meet (touching faces do not overlap).", "quantifier": "all box pairs", "why_tests_cant": "an equivalence with the existence of a common point, over all pairs of boxes", "anchors": ["src/geometry/bbox.rs:overlaps"]}
{"id": "C48", "title": "Default box is empty and neutral", "statement": "No point is inside Bbox3::default(), and default().union(B) is B for every box with finite bounds.", "quantifier": "all boxes and points", "why_tests_cant": "neutrality over all boxes and emptiness over all points", "anchors": ["src/geometry/bbox.rs:Default"]}
{"id": "C49", "title": "center and diagonal", "statement": "center() of an ordered finite box whose bounds do not overflow when added is inside the box; in exact arithmetic pmin + diagonal = pmax and center is equidistant.", "quantifier": "all boxes", "why_tests_cant": "rounding of halves and sums over all finite boxes; overflow only near the largest floats", "anchors": ["src/geometry/bbox.rs:center", "src/geometry/bbox.rs:diagonal"]}
{"id": "C50", "title": "max_extent picks a longest axis", "statement": "max_extent returns an axis index 0..2 together with that axis' bounds, and no other axis has a strictly larger extent (finite bounds).", "quantifier": "all boxes", "why_tests_cant": "ties and infinite extents among 2^192 boxes", "anchors": ["src/geometry/bbox.rs:max_extent"]}
{"id": "C51", "title": "Ray/box slab test is exact", "statement": "In exact arithmetic with all direction components nonzero, intersect_ray returns Some((t0,t1)) exactly when some t in [0,tmax] has eval(t) inside the box, and then [t0,t1] is exactly the set of such t.", "quantifier": "all ordered boxes and rays", "why_tests_cant": "an equivalence with the existence of a parameter t in a continuum, over all boxes and rays", "anchors": ["src/geometry/bbox.rs:intersect_ray"]}
{"id": "C52", "title": "Ray/box returned range is ordered and within the ray", "statement": "Whenever intersect_ray returns Some((t0,t1)) for a ray with tmax >= 0, 0 <= t0 <= t1 <= tmax, for every float input including NaN, infinities and zero directions.", "quantifier": "all floats", "why_tests_cant": "NaN propagation through min/max and division by zero occur only for special rays among 2^288", "anchors": ["src/geometry/bbox.rs:intersect_ray"]}
{"id": "C53", "title": "Ray/box test with axis-parallel rays", "statement": "A ray with a zero direction component whose points are inside the box is reported as intersecting, also when it runs within a face.", "quantifier": "all such rays", "why_tests_cant": "0/0 occurs only when the origin lies exactly on a face, which random rays never do", "anchors": ["src/geometry/bbox.rs:intersect_ray"]}
{"id": "C54", "title": "Box surface hit", "statement": "Bbox3::intersect returns t_ray in [0,tmax], a point on a face of the box, the outward unit normal of that face, with dpdu x dpdv = n, that face is a closest one to eval(t_ray), and the point is eval(t_ray).", "quantifier": "all boxes and rays", "why_tests_cant": "six faces, inside and outside origins and ties between axes; the claim is about geometry, for all rays", "anchors": ["src/geometry/bbox.rs:intersect"]}
{"id": "C55", "title": "Quadratic solver", "statement": "In exact arithmetic, for a != 0 and outside b = d = 0, solve_quadratic returns None exactly when there is no real root and otherwise the two roots in nondecreasing order.", "quantifier": "all real coefficients", "why_tests_cant": "the cancellation-free formula has a branch on the sign of b and degenerates when a or b vanish; all real coefficients", "anchors": ["src/geometry/sphere.rs:solve_quadratic"]}
{"id": "C56", "title": "Sphere hits are genuine", "statement": "A reported hit has t in [0,tmax], p = eval(t), z_min <= p.z <= z_max, not(phi > phi_max) (for every float input), and in exact arithmetic x^2+y^2+z^2 = r^2.", "quantifier": "all spheres and rays", "why_tests_cant": "a geometric claim about every ray and sphere; a test compares one hit with a hand-computed number", "anchors": ["src/geometry/sphere.rs:intersect_ray"]}
{"id": "C57", "title": "Sphere hits are the first ones and none is missed", "statement": "In exact arithmetic with nonzero direction: if any t in [0,tmax] hits the (partial) sphere, a hit is reported and its t is the smallest such t; if none, None.", "quantifier": "all spheres and rays", "why_tests_cant": "absence of an earlier or missed hit quantifies over all parameters t of the ray", "anchors": ["src/geometry/sphere.rs:intersect_ray", "src/geometry/sphere.rs:intersect"]}
{"id": "C58", "title": "do_intersect agrees with intersect", "statement": "For Sphere, Bbox3, and any TransformedPrimitive or PrimitiveList built from agreeing primitives, do_intersect(ray) is true exactly when intersect(ray) is Some.", "quantifier": "all scenes (any nesting) and rays", "why_tests_cant": "scenes nest without bound (lists of transformed lists ...); needs structural induction", "anchors": ["src/geometry/sphere.rs:IntersectsRay", "src/geometry/bbox.rs:IntersectsRay", "src/geometry/primitive.rs:IntersectsRay"]}
{"id": "C59", "title": "Sphere bounding box contains all hits", "statement": "Every hit point of Sphere lies inside Sphere::bbox() (exact arithmetic, radius >= 0).", "quantifier": "all spheres and rays", "why_tests_cant": "every hit of every ray, for every clipping range", "anchors": ["src/geometry/sphere.rs:bbox"]}
{"id": "C60", "title": "Sphere surface parameters", "statement": "(u,v) of a hit lie in [0,1]^2 and satisfy the documented parameterization phi = u(phi_max+pi)-pi, theta = v(theta_max-theta_min)+theta_min, z = r cos(theta).", "quantifier": "all spheres and hits", "why_tests_cant": "only hits on the lower half differ from the formula", "anchors": ["src/geometry/sphere.rs:intersect", "src/geometry/sphere.rs:Sphere::new"]}
{"id": "C61", "title": "Sphere normal", "statement": "The normal reported for a hit is the unit outward normal p/r and dpdu, dpdv are the partial derivatives of the documented parameterization.", "quantifier": "all spheres and hits", "why_tests_cant": "only hits on the lower half expose the sign", "anchors": ["src/geometry/sphere.rs:intersect", "src/geometry/primitive.rs:SurfaceInteraction::new"]}
{"id": "C62", "title": "Sphere area", "statement": "area() is the surface area of the part of the sphere with z in [z_min,z_max] and phi in [-pi, phi_max]; 4 pi r^2 for the full sphere.", "quantifier": "all spheres", "why_tests_cant": "an area formula is an integral over the clipped surface, not a comparison of sample values", "anchors": ["src/geometry/sphere.rs:area"]}
{"id": "C63", "title": "Scene list any-hit", "statement": "PrimitiveList::do_intersect is true exactly when some member's do_intersect is true; intersect is None exactly when every member's is None.", "quantifier": "all lists of any primitives", "why_tests_cant": "lists of any length whose members are user-supplied implementations of the trait", "anchors": ["src/geometry/primitive.rs:PrimitiveList"]}
{"id": "C64", "title": "Scene list returns the nearest hit", "statement": "PrimitiveList::intersect returns a hit of one of its members and no member has a hit with smaller t.", "quantifier": "all lists", "why_tests_cant": "needs two overlapping members in the wrong order; nearest quantifies over all members of a list of any length", "anchors": ["src/geometry/primitive.rs:PrimitiveList::intersect"]}
{"id": "C65", "title": "Scene list bounding box", "statement": "The box of a PrimitiveList contains every point inside any member's box and is the least such box (finite member boxes).", "quantifier": "all lists", "why_tests_cant": "lists of any length and every member's every hit", "anchors": ["src/geometry/primitive.rs:PrimitiveList::bbox"]}
{"id": "C66", "title": "Transformed primitive hit parameter", "statement": "t_ray reported by a TransformedPrimitive is the same t as in object space: the world point ray.eval(t_ray) maps under world-to-object to the object-space point at t_ray.", "quantifier": "all affine transforms, primitives, rays", "why_tests_cant": "twelve affine parameters, arbitrary inner primitive and all rays", "anchors": ["src/geometry/primitive.rs:TransformedPrimitive::intersect"]}
{"id": "C67", "title": "Transformed primitive hit is in world space", "statement": "The surface interaction returned for a world-space ray has p = ray.eval(t_ray), as for an untransformed primitive.", "quantifier": "all transforms", "why_tests_cant": "the identity and pure scalings do not expose a hit returned in the wrong space", "anchors": ["src/geometry/primitive.rs:TransformedPrimitive::intersect"]}
{"id": "C68", "title": "Transformed primitive box contains its hits", "statement": "If hits of the primitive lie in its bbox then world-space hits of the transformed primitive lie in its bbox.", "quantifier": "all affine transforms", "why_tests_cant": "only rotations and shears expose the loss; all inner primitives and rays", "anchors": ["src/geometry/primitive.rs:TransformedPrimitive::bbox", "src/geometry/bbox.rs:map_bbox"]}
{"id": "C69", "title": "concentric_sample_disk", "statement": "Maps [0,1]^2 into the closed unit disk with radius max(|1-2x|,|1-2y|), is onto the disk and one-to-one away from the centre, and never divides by zero.", "quantifier": "all sample points", "why_tests_cant": "a bijection claim over the whole unit square, with branch boundaries along the diagonals", "anchors": ["src/cameras/camera.rs:concentric_sample_disk"]}
{"id": "C70", "title": "uniform_sample_disk", "statement": "Maps [0,1]^2 onto the closed unit disk, with squared radius equal to p.y and angle 2 pi p.x; area preserving up to the factor pi.", "quantifier": "all sample points", "why_tests_cant": "a surjectivity claim over the whole disk", "anchors": ["src/cameras/camera.rs:uniform_sample_disk"]}
{"id": "C71", "title": "Thin lens: film distance obeys the lens equation", "statement": "ThinLensCamera::new places the film at i with 1/f = 1/o + 1/i for o = focal_distance and f = focal_length (o != f, both nonzero).", "quantifier": "all parameters", "why_tests_cant": "an identity for all focal lengths and object distances, with a pole at the focal length", "anchors": ["src/cameras/thin_lens.rs:ThinLensCamera::new"]}
{"id": "C72", "title": "Thin lens: focus", "statement": "All rays generated for one film point, whatever the lens sample, pass through one common point, and that point lies on the plane z = -focal_distance in camera space.", "quantifier": "all cameras and samples", "why_tests_cant": "all lens samples must meet in one point of the plane in focus; a test looks at one ray at a time", "anchors": ["src/cameras/thin_lens.rs:generate_ray"]}
{"id": "C73", "title": "Thin lens: ray shape", "statement": "Generated rays start on the lens disk (camera space radius <= lens_radius, z=0), have unit direction in camera space and tmax = Float::highest().", "quantifier": "all cameras and samples", "why_tests_cant": "all cameras and samples; unit direction, origin on the lens and unbounded length are for-all claims", "anchors": ["src/cameras/thin_lens.rs:generate_ray"]}
{"id": "C74", "title": "Thin lens: field of view", "statement": "Rays through the lens centre for p_film.x in {0,1} make the angle fov/2 with the optical axis.", "quantifier": "all cameras", "why_tests_cant": "an identity in the field of view and aspect ratio for all cameras", "anchors": ["src/cameras/thin_lens.rs:ThinLensCamera::new"]}
{"id": "C75", "title": "Transforming interval points encloses", "statement": "Mapping a point with interval coordinates by a float transform yields interval coordinates that contain the exact real image of every point in the input box.", "quantifier": "all transforms with finite entries, interval points with finite bounds", "why_tests_cant": "every real point inside the interval point must be covered by the image; uncountably many", "anchors": ["src/math/transform.rs:map_point", "src/math/vectori.rs:Point3fi"]}
{"id": "C76", "title": "Interval vectors: conversions and scaling enclose", "statement": "Converting a float vector to an interval vector encloses it, interval vector +, - and * / by a float enclose (finite bounds or nonzero factor; nonzero divisor), and square_norm of an interval vector encloses the exact squared norm, in every dimension.", "quantifier": "all vectors, all N", "why_tests_cant": "every dimension N, every real vector inside", "anchors": ["src/math/vectori.rs:Mul<T>", "src/math/vectori.rs:Div<T>", "src/math/vectori.rs:From", "src/math/vector.rs:square_norm"]}
{"id": "C77", "title": "concentric_sample_disk is uniform", "statement": "If the sample is uniformly distributed on the unit square, concentric_sample_disk of it is uniformly distributed on the unit disk: for every measurable set A of the plane, the area of the samples mapped into A is the area of A within the disk divided by pi.", "quantifier": "all measurable sets", "why_tests_cant": "a statement about areas of all measurable sets, not about finitely many samples", "anchors": ["src/cameras/camera.rs:concentric_sample_disk"]}
{"id": "C78", "title": "AlmostEqual on vectors, matrices, transforms and intervals", "statement": "v.almost_equal(w) holds exactly when every pair of components is almost_equal, in every dimension, so that for finite components acceptance bounds every |v_i - w_i| by the absolute or relative tolerance in exact arithmetic; likewise the sixteen entries of matrices, both matrices of a transform, both bounds of an interval, and exact equality for integers. == on vectors and matrices is exactly component-wise numerical equality.", "quantifier": "all vectors of all dimensions, all matrices, transforms and intervals of floats", "why_tests_cant": "a forgotten component or bound only shows for inputs differing in just that component; NaN and infinities", "anchors": ["src/math/vector.rs:AlmostEqual", "src/math/transform.rs:AlmostEqual", "src/math/interval.rs:AlmostEqual", "src/math/scalar.rs:AlmostEqual"]}
{"id": "C79", "title": "abs, signum and sign predicates", "statement": "abs(x) = |x|, signum(x) is 1, -1 or 0 as x is positive, negative or zero, is_positive, is_negative, is_nonpositive, is_nonnegative are x > 0, x < 0, x <= 0, x >= 0, signum(x) * abs(x) = x, for floats and signed integers; NaN has no sign; abs of an integer is never negative.", "quantifier": "every value of every float and signed integer type", "why_tests_cant": "64-bit domains; the one failing integer of each type is its least value", "anchors": ["src/math/scalar.rs:SignedScalar::abs", "src/math/scalar.rs:SignedScalar::signum", "src/math/scalar.rs:SignedScalar::is_positive"]}
{"id": "C80", "title": "Float constants are what their names say", "statement": "zero, one, two, half are exactly 0, 1, 2, 1/2; nan, infinity, neg_infinity and neg_zero are those values; min_positive is exactly the smallest normal number; pi, tau, frac_pi_2, frac_pi_4 are the floats nearest to the real constants; recip(x) is the float nearest to 1/x; is_zero and is_one recognise exactly 0 and 1.", "quantifier": "all floats, the real number pi", "why_tests_cant": "a test compares floats with floats; nearest among all floats is a statement about 2^64 candidates and a real number", "anchors": ["src/math/scalar.rs:GFloat::pi", "src/math/scalar.rs:GFloat::half", "src/math/scalar.rs:GFloat::recip", "src/math/scalar.rs:Scalar::is_one"]}
{"id": "C81", "title": "Identity, translation and scaling on floats round once", "statement": "On floats the identity transform returns every finite point and vector unchanged; translate(v) maps a finite p to exactly the float sum p+v, its inverse to exactly p-v, and leaves vectors unchanged; scale(v) gives exactly the float products. None of these panics.", "quantifier": "all finite points, vectors and parameters", "why_tests_cant": "products with the zeros and ones of the matrix must be exact for every float, including subnormals, signed zeros and overflow", "anchors": ["src/math/transform.rs:map_point", "src/math/transform.rs:map_vector", "src/math/transform.rs:translate", "src/math/transform.rs:scale", "src/math/transform.rs:identity"]}
{"id": "C82", "title": "Dot and cross product symmetries on floats", "statement": "On floats, for every dimension: dot is bit-for-bit commutative, + is commutative, cross(a,b) = -cross(b,a) numerically, square_norm and norm are never negative (NaN or >= 0), and distances are symmetric bit for bit.", "quantifier": "all float vectors, all dimensions, NaN and infinities included", "why_tests_cant": "rounding could break symmetry for a single pair of operands among 2^128", "anchors": ["src/math/vector.rs:dot", "src/math/vector.rs:cross", "src/math/vector.rs:square_norm", "src/math/vector.rs:distance"]}
{"id": "C83", "title": "Rounding error of dot and square_norm", "statement": "Whenever dot is finite it differs from the exact real dot product by at most ((1+u)^n - 1) * sum |a_i b_i| + n eta (1+u)^(n-1), with u = 2^-24 and eta = 2^-150 for f32 (2^-53 and 2^-1075 for f64); square_norm therefore has small relative error.", "quantifier": "all float vectors of every dimension", "why_tests_cant": "an error bound over all inputs and all dimensions, including subnormals", "anchors": ["src/math/vector.rs:dot", "src/math/vector.rs:square_norm"]}
{"id": "C84", "title": "normalize returns a unit vector up to rounding", "statement": "For every finite nonzero vector on floats, v.normalize() is finite, each component is within a few units in the last place of the exactly normalized vector, and the result has norm 1 up to a few units in the last place.", "quantifier": "all finite nonzero vectors of three f32 or f64 components", "why_tests_cant": "2^96 vectors; failures sit at magnitudes whose squares overflow or underflow, far from the values a test writes down", "anchors": ["src/math/vector.rs:normalize", "src/math/vector_traits.rs:normalize", "src/math/vector.rs:square_norm"]}
{"id": "C85", "title": "Rounding error of affine maps", "statement": "For a matrix with last row 0 0 0 1 and a finite point, every finite coordinate of map_point differs from the exact real image by at most ((1+u)^4 - 1)(sum_j |A_ij p_j| + |b_i|) + 4 eta (1+u)^3; for map_vector likewise with 3 instead of 4 and without b.", "quantifier": "all affine float matrices, all finite points and vectors", "why_tests_cant": "an error bound relative to real arithmetic over 2^600 inputs", "anchors": ["src/math/transform.rs:map_point", "src/math/transform.rs:map_vector"]}
{"id": "C86", "title": "Rounding error of Ray::eval", "statement": "Every finite coordinate of ray.eval(t) differs from the exact o + t d by at most two rounding errors.", "quantifier": "all float rays and parameters", "why_tests_cant": "an error bound relative to real arithmetic over 2^224 inputs", "anchors": ["src/geometry/ray.rs:eval"]}
{"id": "C87", "title": "Vectors of intervals enclose", "statement": "If every component of a real vector lies in the corresponding component of an interval vector, then the real sum, difference, negation, multiple, dot product, cross product, squared norm and norm lie in the results computed from the interval vectors; converting a float vector to intervals and back encloses it and returns it.", "quantifier": "all dimensions, all interval vectors with finite bounds, all real vectors in them", "why_tests_cant": "a containment between a continuum of real vectors and rounded results, in every dimension and for every sign pattern", "anchors": ["src/math/vectori.rs:From", "src/math/vectori.rs:Mul<T>", "src/math/vectori.rs:Div<T>", "src/math/vector.rs:dot", "src/math/vector.rs:cross", "src/math/vector.rs:square_norm", "src/math/vector.rs:norm"]}
{"id": "C88", "title": "Element access is a lens", "statement": "a[i] reads component i and a[i] = t changes component i and nothing else, both panicking exactly when i >= N; x/y/z/w and x_mut/... are the indices 0 to 3; the last of two writes wins, writes to different indices commute; m[(i,j)], m[i][j], row(i)[j], col(j)[i], row_vec(i)[j], col_vec(j)[i] name the same matrix entry and writing an entry or row leaves the rest of the matrix alone.", "quantifier": "all element types, dimensions, vectors, matrices, indices and written values", "why_tests_cant": "frame conditions (nothing else changes) over unbounded indices and all dimensions", "anchors": ["src/math/vector.rs:index", "src/math/vector.rs:index_mut", "src/math/vector.rs:x_mut", "src/math/vector.rs:w", "src/math/transform.rs:index", "src/math/transform.rs:index_mut", "src/math/transform.rs:row", "src/math/transform.rs:col", "src/math/transform.rs:row_vec", "src/math/transform.rs:col_vec"]}
{"id": "C89", "title": "Camera rays on floats exist for every sample", "statement": "With an affine view transform of finite entries, ThinLensCamera::generate_ray on floats returns a ray (does not panic) for every camera parameter and every sample, and its direction has length 1 up to a few units in the last place.", "quantifier": "all f32 and f64 cameras, all samples, every libm", "why_tests_cant": "the panic needs the computed focus point to coincide with the lens point or the squared distance to leave the float range; tests draw a few cameras whose object is far away", "anchors": ["src/cameras/thin_lens.rs:generate_ray", "src/cameras/thin_lens.rs:new", "src/math/transform.rs:map_vector assert_eq", "src/math/vector_traits.rs:normalize"]}
{"id": "C90", "title": "Every reported hit is on the ray segment", "statement": "For every scene (any nesting of boxes, spheres, transformed primitives and lists) on floats, a reported t_ray satisfies 0 <= t_ray <= tmax.", "quantifier": "all scenes, all float rays with tmax >= 0 (origin and direction may be NaN, infinite or denormal); with a negative tmax a box around the origin still reports t = 0 (C90_negative)", "why_tests_cant": "scenes nest without bound and rays range over 2^200 bit patterns; tests see a few shallow scenes", "anchors": ["src/geometry/primitive.rs:intersect", "src/geometry/sphere.rs:intersect", "src/geometry/bbox.rs:intersect"]}
{"id": "C91", "title": "Shortening a ray never changes what it hits", "statement": "If a scene reports a hit at t and the ray is shortened to any tmax' with t <= tmax' <= tmax, the same hit is reported; a miss stays a miss and a panic stays a panic. For a sphere, box or transformed primitive, shortening to before the hit gives a miss.", "quantifier": "all scenes, all float rays and all shorter nonnegative lengths", "why_tests_cant": "a relation between two executions over every nesting of primitives and every float tmax'", "anchors": ["src/geometry/primitive.rs:intersect", "src/geometry/sphere.rs:intersect", "src/geometry/bbox.rs:intersect", "src/geometry/ray.rs:tmax"]}
{"id": "C92", "title": "The float slab test is the exact one up to a margin", "statement": "For a ray none of whose slab quotients overflows: if the exact ray passes, within its length, through the box shrunk by margin_i = (2u+u^2)*max|bound_i - origin_i| + eta*|direction_i| on each axis i, Bbox3::intersect_ray reports a hit; and throughout any reported range the exact ray lies in the box grown by the same margin.", "quantifier": "all boxes, all rays with finite slab quotients, f32 and f64", "why_tests_cant": "six rounded quotients per ray over 2^288 inputs; the claim compares with real arithmetic", "anchors": ["src/geometry/bbox.rs:intersect_ray"]}
{"id": "C93", "title": "A list's bounding box is the hull of its members", "statement": "A point is inside the box of a list exactly if each of its coordinates lies between the smallest lower and largest upper bound of the members; the box does not depend on the order of the members, on duplicates or on how they are grouped into sublists.", "quantifier": "all float lists, permutations and groupings, including lists containing empty boxes", "why_tests_cant": "quantifies over all permutations and groupings of lists of any length", "anchors": ["src/geometry/primitive.rs:bbox", "src/geometry/bbox.rs:union"]}
{"id": "C94", "title": "A closed sphere encloses its inside", "statement": "A ray that starts strictly inside a closed sphere and is at least a diameter long hits the sphere.", "quantifier": "all closed spheres and rays", "why_tests_cant": "the misses occur on isolated float inputs (a computed hit one ulp beyond z_max) that sampling easily overlooks", "anchors": ["src/geometry/sphere.rs:intersect_ray", "src/geometry/sphere.rs:new"]}
{"id": "C95", "title": "The scale of the direction does not matter", "statement": "In exact arithmetic, multiplying a ray's direction by c > 0 and dividing tmax by c divides t_ray by c and leaves hit point, normal and parameters unchanged, for every scene.", "quantifier": "all scenes, rays and c > 0", "why_tests_cant": "a relation between two executions over a continuum of factors and every nesting of primitives", "anchors": ["src/geometry/primitive.rs:intersect", "src/geometry/sphere.rs:intersect", "src/geometry/bbox.rs:intersect", "src/geometry/ray.rs:map"]}
{"id": "C96", "title": "The loops as written are per-component and never panic", "statement": "In every dimension and for every scalar type the in-place loops of +, -, *, /, scaling, min, max, +=, -= return component-wise results, dot and square_norm accumulate from zero in index order, almost_eq is true exactly when all components are, the three nested loops of the matrix product compute the product, and none of these loops panics.", "quantifier": "all dimensions N, all scalar types, all operands", "why_tests_cant": "needs a loop invariant over every N; tests fix N and a few operands", "anchors": ["src/math/vector.rs:add", "src/math/vector.rs:sub", "src/math/vector.rs:mul", "src/math/vector.rs:div", "src/math/vector.rs:add_assign", "src/math/vector.rs:sub_assign", "src/math/vector.rs:min", "src/math/vector.rs:max", "src/math/vector.rs:dot", "src/math/vector.rs:square_norm", "src/math/vector.rs:almost_eq", "src/math/transform.rs:almost_eq", "src/math/transform.rs:Mul<Matrix4x4>"]}
{"id": "C97", "title": "Projection through the lens centre is linear and upright", "statement": "The ray through the lens centre for film position p has slopes dx/dz = (1/2-p.x)*tan(fov/2)/2 and dy/dz = (1/2-p.y)*tan(fov/2)/(2*aspect_ratio), so the film centre looks straight along -z, equal film steps give equal slope steps, the vertical scale is the horizontal one divided by the aspect ratio, and the image is upright (p.x > 1/2 looks towards +x, p.y > 1/2 towards +y) whenever the object is beyond twice the focal length.", "quantifier": "all cameras and film positions, exact arithmetic", "why_tests_cant": "linearity and orientation relate a continuum of film positions; a test at the film centre cannot see a flipped or unscaled axis", "anchors": ["src/cameras/thin_lens.rs:new", "src/cameras/thin_lens.rs:generate_ray"]}
{"id": "C98", "title": "Integer scalars behave like the integers", "statement": "For each of u8..u64, i8..i64: zero, one, two, lowest, highest denote 0, 1, 2 and the extreme values; min, max, min_max, clamp (lo <= hi) and in_range are those of the order of the integers, is_zero/is_one compare with 0/1, and square is multiplication modulo the word size.", "quantifier": "all values of the eight integer types", "why_tests_cant": "pairs and triples of 64-bit words", "anchors": ["src/math/scalar.rs:min", "src/math/scalar.rs:max", "src/math/scalar.rs:min_max", "src/math/scalar.rs:clamp", "src/math/scalar.rs:in_range", "src/math/scalar.rs:square", "src/math/scalar.rs:is_zero", "src/math/scalar.rs:is_one", "src/math/scalar.rs:two"]}
{"id": "C99", "title": "Interval constants, classification, neighbours and conversion to floats", "statement": "zero, one, half, neg_zero, lowest and highest as intervals contain exactly the number of their name, infinity, neg_infinity and nan contain no real; is_nan means some bound is NaN, is_finite that both bounds are finite, is_infinite that the interval is an infinity; next_up/next_down move both bounds to the adjacent floats; to_f32/to_f64 return a member of the interval when the midpoint sum does not overflow.", "quantifier": "all intervals of f32 and f64", "why_tests_cant": "pairs of 64-bit bounds; the classification predicates are never called on non-finite intervals in the tests", "anchors": ["src/math/interval_as_gfloat.rs:zero", "src/math/interval_as_gfloat.rs:one", "src/math/interval_as_gfloat.rs:half", "src/math/interval_as_gfloat.rs:is_nan", "src/math/interval_as_gfloat.rs:is_finite", "src/math/interval_as_gfloat.rs:is_infinite", "src/math/interval_as_gfloat.rs:next_up", "src/math/interval_as_gfloat.rs:next_down", "src/math/interval_as_gfloat.rs:to_f32", "src/math/interval_as_gfloat.rs:to_f64"]}
{"id": "C100", "title": "The bounding box of a scene contains every hit", "statement": "For every primitive (box, sphere, list, transformed primitive, nested to any depth) and every ray, the point at the ray parameter of a reported hit lies inside the bounding box the primitive reports.", "quantifier": "all scenes of any depth, all rays in exact arithmetic", "why_tests_cant": "a hit point and a box have to be compared for every nesting of lists and transforms, and for the real-number point of the hit, which no test computes exactly", "anchors": ["src/geometry/primitive.rs:bbox", "src/geometry/primitive.rs:intersect", "src/geometry/bbox.rs:intersect", "src/geometry/sphere.rs:intersect", "src/geometry/bbox.rs:map_bbox"]}
{"id": "C101", "title": "The sphere's quadratic solver is backward stable", "statement": "On floats, whenever the quadratic solver answers with two finite numbers, they are ordered and equal, to a few units of rounding, the two exact roots of an equation whose coefficients differ from the given ones by a few units of rounding; when it answers that there is no root, such a nearby equation has no real root.", "quantifier": "all finite coefficients whose squares and products do not overflow or underflow", "why_tests_cant": "backward stability is a statement about the exact roots of a perturbed equation, which a test can neither compute nor search for; cancellation shows only for coefficients in special position", "anchors": ["src/geometry/sphere.rs:solve_quadratic"]}
{"id": "C102", "title": "Sphere hits on floats lie on the sphere, misses are misses", "statement": "On floats, the point and the distance reported for a ray hitting a sphere satisfy the equation of the sphere to within a fixed number of units of rounding of the squared lengths involved; when the solver finds no root, no point of the ray's line is inside the sphere by more than such an amount.", "quantifier": "all rays and spheres for which nothing overflows or underflows", "why_tests_cant": "the error bound is uniform over all origins, directions and radii, and a miss is a statement about every real point of the line", "anchors": ["src/geometry/sphere.rs:intersect_ray", "src/geometry/sphere.rs:solve_quadratic", "src/geometry/ray.rs:eval"]}
{"id": "C103", "title": "map_inverse undoes map on floats up to rounding", "statement": "On floats, mapping a point or vector with an affine transform and mapping it back returns it up to an explicit bound: the defect of the stored inverse plus eight roundings of the absolute row sums. For translations the bound is two roundings, for scalings three, and for rotations about the axes a fixed number of units of rounding of the two turned coordinates, the third being returned exactly.", "quantifier": "all affine transforms and finite points and vectors with finite images", "why_tests_cant": "a tolerance chosen for some sample says nothing about other magnitudes; the bound holds for every operand and both formats", "anchors": ["src/math/transform.rs:map_point", "src/math/transform.rs:map_vector", "src/math/transform.rs:translate", "src/math/transform.rs:scale", "src/math/transform.rs:rotate_x", "src/math/transform.rs:rotate_y", "src/math/transform.rs:rotate_z"]}
{"id": "C104", "title": "Composition on floats agrees with mapping twice up to rounding", "statement": "On floats, the product of affine transforms is exactly affine (last row 0 0 0 1), so it never panics, and mapping with the product differs from mapping with one after the other, forwards and inverse, by at most sixteen roundings of the absolute sums involved.", "quantifier": "all pairs of affine transforms and finite points and vectors whose images are finite", "why_tests_cant": "matrix entries, points and magnitudes form a continuum; float multiplication is not associative, so exact comparison is false and any tolerance needs a proof", "anchors": ["src/math/transform.rs:Mul<Transform>", "src/math/transform.rs:map_point", "src/math/transform.rs:map_vector"]}
{"id": "C105", "title": "Rotations about the axes are accurate on floats", "statement": "If the platform's sin and cos are accurate to one float, rotate_x, rotate_y and rotate_z turn every finite point and vector by the given angle, in the positive sense, to within a fixed number of units of rounding of the turned coordinates; the coordinate on the axis is kept exactly; map_inverse turns by the opposite angle as accurately; in the cube [-1,1]^3 nothing panics or overflows.", "quantifier": "all finite angles and all finite points and vectors with finite images", "why_tests_cant": "angles of every magnitude; the accuracy statement compares with real sines and cosines", "anchors": ["src/math/transform.rs:rotate_x", "src/math/transform.rs:rotate_y", "src/math/transform.rs:rotate_z"]}
{"id": "C106", "title": "Rotation about an arbitrary axis is accurate on floats", "statement": "If the platform's sin and cos are accurate to one float, rotate(axis, angle) takes every finite point and vector to within 46 units of rounding (times the sum of the magnitudes of its coordinates) of the result of Rodrigues' formula for the exactly normalized axis and the exact angle; map_inverse turns by the opposite angle as accurately; in the cube [-1,1]^3 nothing panics or overflows.", "quantifier": "all axes whose squared length neither overflows nor underflows, all finite angles, all finite points and vectors with finite images", "why_tests_cant": "axes, angles and points form a continuum; the statement compares nine accumulated entries with real trigonometric functions", "anchors": ["src/math/transform.rs:rotate", "src/math/transform.rs:map_point", "src/math/transform.rs:map_vector"]}
{"id": "C107", "title": "look_at is accurate on floats", "statement": "For a camera position, target and up vector on floats, the three axes used by look_at are within a fixed multiple of the unit of rounding, divided by the sine of the angle between the up vector and the viewing direction, of the exact orthonormal frame; map_vector and map_point agree with the exact change to that frame up to that accuracy times the magnitudes of the coordinates; the target goes to the negative z axis at its distance up to that accuracy.", "quantifier": "all finite positions, targets and up vectors whose squared lengths neither overflow nor underflow and whose angle is not degenerate; all finite points and vectors with finite images", "why_tests_cant": "nine inputs and three normalisations; the error grows without bound near degenerate up vectors, so no fixed tolerance in a test is right", "anchors": ["src/math/transform.rs:look_at", "src/math/transform.rs:map_point", "src/math/transform.rs:map_vector"]}
{"id": "C108", "title": "perspective is accurate on floats", "statement": "If the platform's tan is accurate to one float, perspective(fov, near, far) never panics on a finite point off the plane z = 0 and takes it to (-Ex/z, -Ey/z, A + B/z) with E = 1/tan(fov/2), A = far/(far-near), B = far near/(far-near), up to about six units of rounding; points of the exact view volume land in the box [-1,1]^2 x [0,1] enlarged by a few units of rounding.", "quantifier": "all fields of view in (0, pi) and planes 0 < near < far without overflow or underflow in the matrix, all finite points with finite images", "why_tests_cant": "five continuous inputs; far - near cancels when the planes are close, and only a proof shows the relative error stays bounded", "anchors": ["src/math/transform.rs:perspective", "src/math/transform.rs:map_point"]}
{"id": "C109", "title": "mapped boxes keep every float point, without tolerance", "statement": "On floats, for every transform whose matrix moves each axis on its own (translate, scale and their compositions), map and map_inverse of a finite bounding box return a box whose inside() accepts the computed image of every point that was inside: no rounding error, overflow to infinity or negative factor lets a point out. The box is also the smallest possible: its bounds are the computed images of the two corners, sorted per axis.", "quantifier": "all float formats, all such matrices with finite entries, all finite boxes and all points inside", "why_tests_cant": "the box is accumulated column by column and the point row by row with a division by w; that the two agree to the last bit, also when a product overflows, is a statement about all operands", "anchors": ["src/geometry/bbox.rs:map_bbox", "src/geometry/bbox.rs:TransformMap<Bbox3> for Transform", "src/math/transform.rs:map_point"]}
{"id": "C110", "title": "matrix inverse is accurate on floats", "statement": "On floats, if inverse() of a 4x4 matrix returns finite entries that are not all zero, and the exact determinant exceeds 20 units of rounding of the sum of the magnitudes of its own terms, then each computed entry differs from the entry of the mathematical inverse by at most 33 u Q P / det^2, where P and Q are the permanents of the magnitudes of the matrix and of the corresponding minor.", "quantifier": "every float format with at least 9 mantissa bits and every 4x4 matrix within the stated no-overflow/no-underflow range", "why_tests_cant": "sixteen continuous inputs and 200 rounded operations; cancellation in the minors and in the determinant makes the error of a single test meaningless", "anchors": ["src/math/transform_inverse_impl.rs:inverse_impl_adjugate", "src/math/transform.rs:Invertible for Matrix4x4"]}
{"id": "C111", "title": "unprojection through perspective is accurate on floats", "statement": "On floats, the inverse matrix stored by perspective(fov, near, far) has the five nonzero entries of the mathematical inverse up to 13 units of rounding and zeros elsewhere.  map_inverse of a point (x,y,z) does not panic and returns (-T x/w, -T y/w, 1/w) with T = tan(fov/2), w = z/B - 1/near, up to a relative error 55 u kappa where kappa is the condition number of the subtraction in w.  Projecting a point in front of the near plane and unprojecting it returns the point with relative error at most 260 u |z|/near.", "quantifier": "every float format with at least 9 mantissa bits, every field of view and pair of clipping planes without underflow or overflow in the matrix and its inverse, every finite point", "why_tests_cant": "the error grows with depth over near distance; a test picks one field of view and one depth and says nothing about the amplification elsewhere", "anchors": ["src/math/transform.rs:perspective", "src/math/transform.rs:map_inverse / Point", "src/math/transform_inverse_impl.rs:inverse_impl_adjugate"]}
{"id": "C112", "title": "disk sampling is accurate on floats", "statement": "For every f32 sample of the unit square, concentric_sample_disk returns the exact image of that sample with an error of at most 13 units of rounding times the distance of the sample from the middle of the square (4 smallest floats besides), even when rounding makes the float computation take the other branch than the exact one; uniform_sample_disk returns the exact image up to 18 units of rounding times the radius. Both results lie in the unit disk up to 5 units of rounding. The origin of the thin-lens camera ray is the exact lens point up to 15 units of rounding of the lens radius, has z = 0, and lies on the lens up to 7 units of rounding.", "quantifier": "every f32 sample in the closed unit square, every libm with sin and cos accurate to one float, every lens radius for which the origin is finite", "why_tests_cant": "there are 2^60 samples and the branch and the cancellation in 1 - 2x and pi/2 - theta are worst near the diagonals and the centre; a test with a tolerance on some samples says nothing about the worst case nor about the size of the error near the centre", "anchors": ["src/cameras/camera.rs:concentric_sample_disk", "src/cameras/camera.rs:uniform_sample_disk", "src/cameras/thin_lens.rs:generate_ray"]}
{"id": "C113", "title": "the thin-lens camera is accurate on floats", "statement": "ThinLensCamera::new places the film where the lens equation demands up to 3.1 units of rounding, gives it the width tan(fov/2)/2 times that distance up to 6.2 and the height width / aspect_ratio up to 7.3 units of rounding. Every component of the direction of the camera-space ray of generate_ray differs from that of the exact ray by at most 9u + (u/N) (25 (1 + |o/I|) (|W|+|H|+|I|) + 65 |R|), where u is the unit of rounding, N the exact distance from the lens point to the point of focus, o the focal distance, W, H, I width, height and distance of the film, R the lens radius.", "quantifier": "every camera whose parameters are in the normal range (no overflow or underflow, tan accurate to one float at fov/2, focal distance different from once and twice the focal length), every f32 film and lens sample of the unit square; the film part for every float format with at least 9 fraction bits", "why_tests_cant": "the error depends on six parameters and four sample coordinates, with cancellation in o - f, in the film coordinate and in the point of focus minus the lens point; a test on some cameras with a tolerance does not bound it", "anchors": ["src/cameras/thin_lens.rs:new", "src/cameras/thin_lens.rs:generate_ray"]}
{"id": "C114", "title": "the surface parameters of a sphere hit are in the unit square and locate the hit, on f32", "statement": "The (u, v) of every hit reported by Sphere::intersect are finite and lie in [0,1] x [0,1] exactly, despite rounding. The azimuth u (phi_max + pi) - pi of the reported u is an azimuth of the hit point to within 30 units of rounding, so that (rho cos, rho sin) of it is the hit's (x, y) to within 30 units of rounding of the distance rho from the axis. On the upper half of the sphere the height radius cos(theta(v)) of the reported v is the height of the hit to within 10 units of rounding of the radius.", "quantifier": "every f32 sphere accepted by Sphere::new with finite parameters, positive radius, -pi < phi_max <= 4 and theta_min different from theta_max; every ray; every hit with finite x and y", "why_tests_cant": "u reaches 1 only if (phi + pi) and (phi_max + pi) round consistently, v only if acos does; a test with some hits does not see a u of 1 + 2^-23 (out-of-range texture lookup) at an untested azimuth", "anchors": ["src/geometry/sphere.rs:new", "src/geometry/sphere.rs:intersect"]}
{"id": "C115", "title": "Testing the bounding box first loses no hits", "statement": "If a ray hits a primitive at t, Bbox3::intersect_ray of the primitive's bbox() reports a range (t0, t1) with t0 <= t <= t1. So a primitive may be skipped when its box is missed, or when the range starts beyond the nearest hit found so far.", "quantifier": "all primitives (boxes, spheres, transformed primitives, lists, nested to any depth), all rays with tmax >= 0 and nonzero direction components", "why_tests_cant": "it relates two independent computations (slab test, quadratic solver) for every ray; the failing rays graze the surface or meet rotated objects outside a wrong box, and random tests rarely do", "anchors": ["src/geometry/bbox.rs:intersect_ray", "src/geometry/sphere.rs:intersect", "src/geometry/primitive.rs:bbox"]}
{"id": "C116", "title": "A sphere with a slightly enlarged z range is watertight on floats", "statement": "For a sphere built with z_min = -z, z_max = z where z >= radius(1 + 275u), phi_max = pi, every ray that starts inside it (|o|^2 <= radius^2 (1 - 80u)) and is a little longer than a diameter ((tmax |d|)^2 >= 4 radius^2 (1 + 180u)) is reported to hit, u being half an ulp of 1, provided nothing overflows or underflows.", "quantifier": "all spheres and rays meeting the margins, in every float format of at least 10 bits; the atan2 of the platform never exceeds the float pi", "why_tests_cant": "whether one rounded root of one rounded quadratic passes three comparisons has to hold for every ray direction; the leaks of the unenlarged sphere (C94_refuted) show that samples mislead", "anchors": ["src/geometry/sphere.rs:intersect_ray", "src/geometry/sphere.rs:solve_quadratic", "src/geometry/sphere.rs:new", "src/geometry/ray.rs:eval"]}
{"id": "C117", "title": "Cross product, norm and distance are accurate on floats", "statement": "Every finite component of a cross b is within 2.01u of the sizes of its two products of the exact component; the result is perpendicular to a up to 2.34u |a|^2 |b|. norm is within 3.11u and distance within 4.13u of the exact value, relatively, however close the two vectors are, when the sum of squares neither overflows nor underflows.", "quantifier": "all float vectors of three components, in every format with at least 9 bits of fraction", "why_tests_cant": "2^192 pairs of vectors; the bad cases are nearly parallel or nearly equal vectors, where a naive relative claim fails and a correct bound has to be proved", "anchors": ["src/math/vector.rs:cross", "src/math/vector_traits.rs:norm", "src/math/vector_traits.rs:distance", "src/math/vector_traits.rs:square_distance"]}
{"id": "C118", "title": "Mapping a ray commutes with evaluating it on floats, up to rounding", "statement": "For an affine transform and a finite ray, map(ray) exists and keeps tmax; for every t, map(ray).eval(t) and map(ray.eval(t)) are both the exact image of origin + t direction up to 5.2u and 6.2u of the sizes of the terms, so they differ by at most 11.4u of them (plus underflow); the same for map_inverse.", "quantifier": "all affine float transforms, finite rays and parameters t for which nothing overflows, in every format with at least 9 bits of fraction", "why_tests_cant": "the equation of C42 fails on almost every float input; how far it fails needs a bound over all matrices, rays and parameters", "anchors": ["src/geometry/ray.rs:map", "src/geometry/ray.rs:map_inverse", "src/geometry/ray.rs:eval", "src/math/transform.rs:map_point", "src/math/transform.rs:map_vector"]}
{"id": "C119", "title": "Transformed spheres and boxes are hit where they are, on floats, up to rounding", "statement": "At the t_ray reported by a TransformedPrimitive around a sphere, the exact point of the world ray, taken to object space by the exact affine map, satisfies the equation of the sphere to within 83u of the squared sizes of the terms; when the solver finds no root, no point of the world ray is inside by more than 50u of them. Around a box: a ray that passes through the transformed box moved inwards by an explicit margin is reported to hit, and where a hit is reported the ray is inside the box moved outwards by the margin.", "quantifier": "all spheres and boxes, all affine float transforms, all finite world rays for which nothing overflows or underflows in the object-space computation, every format with at least 9 bits of fraction", "why_tests_cant": "four rounded computations (two maps, a quadratic or slab test) are composed; the statement is about real points for all 2^600 inputs", "anchors": ["src/geometry/primitive.rs:intersect", "src/geometry/ray.rs:map_inverse", "src/geometry/sphere.rs:intersect_ray", "src/geometry/bbox.rs:intersect_ray"]}
{"id": "C120", "title": "The reported sphere hit is the first crossing on floats, and a missed sphere is not crossed", "statement": "The two roots computed for a sphere split the whole real line of the ray into a part where the exact ray is outside the sphere, a part where it is inside, and a part where it is outside again, each to within 58u of the squared sizes of the terms. Hence intersect reports the first crossing: up to the reported t_ray the exact ray is outside, or it is outside up to an entry that was rejected (out of [0, tmax] or clipped by z_min, z_max, phi_max) and inside from there on. And when do_intersect is false and neither crossing is clipped, the exact ray stays outside, or stays inside, along all of [0, tmax].", "quantifier": "all spheres, all rays and all real parameters t for which nothing overflows or underflows in the coefficients, every format with at least 9 bits of fraction", "why_tests_cant": "the claim is about every real point of the ray, of which a test can sample none exactly, and about rays almost tangent to the sphere, where the two roots are ill-conditioned", "anchors": ["src/geometry/sphere.rs:solve_quadratic", "src/geometry/sphere.rs:intersect_ray", "src/geometry/sphere.rs:get_intersection"]}
{"id": "C121", "title": "The intersection tests prefer no axis and no side, on floats", "statement": "Permuting the axes of box and ray changes nothing in what Bbox3::intersect_ray and do_intersect return; mirroring box and ray along an axis changes nothing, unless the ray runs within the plane of a face (a slab quotient is 0/0); mirroring a sphere and a ray along z (or, for a sphere not clipped by phi_max, along x or y) mirrors the hit point and leaves t_ray the same bit for bit. All results are compared as numbers: only the sign of a zero may differ.", "quantifier": "all float boxes, spheres and rays, NaN and infinities included, every permutation and axis, every float format, every libm", "why_tests_cant": "a relation between two executions for all inputs; rounding could break it anywhere", "anchors": ["src/geometry/bbox.rs:intersect_ray", "src/geometry/sphere.rs:intersect_ray", "src/geometry/sphere.rs:get_intersection", "src/math/vector.rs:min, max"]}
{"id": "C122", "title": "The intersection tests do not depend on the unit of length, on floats", "statement": "Multiplying all coordinates of a box and a ray by the same power of two changes nothing in what Bbox3::intersect_ray and do_intersect return, bit for bit, if nothing overflows in the larger unit. Multiplying radius, z range, origin and direction of a sphere test by the same power of two leaves hit or miss and t_ray the same bit for bit and multiplies the hit point by exactly that power, if no product underflows in the smaller unit and nothing overflows in the larger (sphere not clipped by phi_max).", "quantifier": "all float boxes, spheres, rays and powers of two with the stated freedom from overflow and underflow, every float format (spheres: at least 10 significant bits and exponent range wide enough, as f32 and f64), every libm", "why_tests_cant": "a relation between two executions for all inputs and all scale factors; ties in rounding and subnormals are where it could break", "anchors": ["src/geometry/bbox.rs:intersect_ray", "src/geometry/sphere.rs:intersect_ray", "src/geometry/sphere.rs:solve_quadratic", "src/geometry/sphere.rs:get_intersection", "src/geometry/ray.rs:eval"]}
{"id": "C123", "title": "Interval results bound the rounding error of float results", "statement": "Evaluate an expression (sums, differences, products, quotients, negation, square, abs, min, max, operations with constants) once with Interval<T> and once with T, the float inputs lying in the input intervals. If every interval that occurs has finite bounds and no two intervals that both straddle zero are multiplied, the float evaluation never overflows, divides by zero or produces NaN, its result lies in the interval result, and it differs from the exact result by at most the width of the interval result. The same holds of sqrt, of Ray::eval for an interval ray and of map_point for an interval point.", "quantifier": "all expressions, all float and real inputs in the input intervals, every float format, every matrix with finite entries", "why_tests_cant": "the purpose of the interval type: a guarantee for all computations, of any size, relating two different executions of generic code", "anchors": ["src/math/interval.rs:Interval", "src/geometry/ray.rs:Ray::eval", "src/math/transform.rs:map_point"]}
{"id": "C124", "title": "On floats a box hit from outside lies on the box and on the ray up to rounding", "statement": "If a ray meets a finite box from outside (t_ray > 0) and nothing overflows, the point that Bbox3::intersect reports has the coordinate of one face exactly, the normal is the outward unit normal of that face, the point is within 3D of the exact point of the ray at t_ray and inside the box up to D, where D bounds on every axis the rounding margin of the slab test plus that of Ray::eval (a few units in the last place of the distances involved). If the exact point at t_ray is more than 4D away from all faces but the one the ray enters through, the reported face is that one, so the normal points against the ray.", "quantifier": "all float boxes and rays without overflow and with no zero direction component, every float format", "why_tests_cant": "a bound over all inputs; tests with round numbers do not show that a thin box far away reports its rear face", "anchors": ["src/geometry/bbox.rs:intersect", "src/geometry/bbox.rs:intersect_ray", "src/geometry/ray.rs:eval"]}
{"id": "C125", "title": "On f32 the shading normal and tangents of a sphere hit in the upper half are right up to rounding, degrading towards the pole", "statement": "For every hit with z >= 0 that Sphere::intersect reports for f32, at distance rho from the axis and off the sphere by at most delta R\u00b2 (C102 bounds delta), with (150u + 50 delta) R <= rho: dpdu is (-y, x, 0)(phi_max + pi) and dpdv is (z x/rho, z y/rho, -rho)(theta_max - theta_min) up to explicit rounding terms, dpdu.z is exactly zero, the normal has finite components each within (120u + 7 delta) R/rho of the unit vector from the center to the hit, and its squared length is within 18u of one. For radius at most 2^16 nothing overflows. On the axis itself the normal is NaN in all components.", "quantifier": "all f32 spheres with usable parameters (C114), all rays, every platform libm within its stated accuracy", "why_tests_cant": "a rounding bound over all hits and all platforms; tests compare a few normals with a fixed tolerance and do not show the growth like R/rho", "anchors": ["src/geometry/sphere.rs:intersect", "src/math/vector.rs:cross", "src/math/vector_traits.rs:normalize"]}
{"id": "C126", "title": "In nested scenes the rounding error grows by a fixed factor per transform", "statement": "A hit reported by a scene of lists and transformed primitives of any depth is the hit that one shape in it reports on the ray which the inverse maps of the transforms around that shape make of the world ray, and a scene that reports no hit contains no shape that does. On floats, with k affine transforms around the shape: each coordinate of the object-space ray at t is within (1+4.04u)^k - 1 of its size from the exact image of the exact world ray; a sphere hit satisfies the equation of the sphere, at the exact image of the exact world point at t_ray, to within (1+64u)(1+4.04u)^(2k) - 1 of the squared sizes; no exact point of the world ray is inside the image of a sphere for which no root is found by more than (1+32u)(1+4.04u)^(2k) - 1 of them; and boxes are hit and missed correctly with planes moved by the slab margin plus (1+4.04u)^k - 1 of the size.", "quantifier": "all scenes (any nesting, list lengths and user primitives), all rays, every float format with at least 9 mantissa bits; nothing overflows", "why_tests_cant": "nesting depth and scenes are unbounded; tests trace one or two levels with integers and cannot see how the error accumulates", "anchors": ["src/geometry/primitive.rs:TransformedPrimitive", "src/geometry/primitive.rs:PrimitiveList", "src/geometry/ray.rs:map_inverse", "src/geometry/sphere.rs:intersect", "src/geometry/bbox.rs:intersect"]}
{"id": "C127", "title": "On floats, what map computes for normals, and when they stay perpendicular up to rounding", "statement": "On floats map of a normal (x, y, z) is the transpose of the stored inverse applied to (x, y, z\u00b2), with at most four roundings of the sizes of the terms. If z is 0 or 1 this is the inverse transpose, and for every vector v the inner product of the mapped normal with the mapped vector is that of the originals up to the defect of the stored inverse, seven roundings of the sizes of the products, and underflow. For other z perpendicularity is lost even by the identity.", "quantifier": "all transforms with affine matrix, all normals and finite vectors with finite images, every float format", "why_tests_cant": "a rounding bound over all matrices and normals; tests map axis normals by simple matrices, where z is 0 or 1 and nothing rounds", "anchors": ["src/math/transform.rs:map_normal", "src/math/transform.rs:map_vector"]}
{"id": "C128", "title": "Interval runs of whole programs certify the float run", "statement": "Run a program made of assignments, +=, -=, *=, /=, if a < b and while a < b once with Interval<T>, once with T and once with exact real numbers, the float and the exact inputs lying in the input intervals. If along the interval run every interval is finite, no two intervals that both straddle zero are multiplied and every comparison is decided (partial_cmp is not None), then all three runs take the same branches and the same numbers of loop iterations, end together or not at all, and for every variable the float and the exact value lie in the final interval, so that they differ by at most its width.", "quantifier": "all programs, all numbers of loop iterations, all inputs, every float format", "why_tests_cant": "relates three executions of a program of any length; control flow that differs between an interval and a float run is the usual failure of such certificates", "anchors": ["src/math/interval.rs:add_assign", "src/math/interval.rs:mul_assign", "src/math/interval.rs:div_assign", "src/math/interval.rs:partial_cmp"]}
{"id": "C129", "title": "Transforms with interval entries enclose", "statement": "Transform<Interval<T>>: whatever is computed with Transform::new, Matrix4x4::inverse, identity, translate, scale, * and inverse from interval parameters contains, entry by entry and in both matrices, the exact transform computed in the same way from any real parameters in the intervals, and the float transform computed from any floats in them (which is never NaN or infinite), provided every interval that occurs is finite and no two intervals that both straddle zero are multiplied. Under the same conditions mapping an interval point by an interval matrix does not panic and contains the exact and the float image. rotate_x, rotate_y and rotate_z of an interval of angles at most pi wide contain the rotations by all its angles; perspective with interval parameters contains perspective for all its parameters, inverse matrix included; an interval transform times its inverse contains the identity.", "quantifier": "all compositions, all interval, real and float parameters, every float format, every faithful libm", "why_tests_cant": "relates three instances of generic code (interval, float, exact) for all parameters and compositions of any length", "anchors": ["src/math/transform.rs:Transform", "src/math/transform_inverse_impl.rs:inverse_impl", "src/math/interval.rs:Interval"]}
{"id": "C130", "title": "What is in view is rendered", "statement": "For a camera made by ThinLensCamera::new with 0 < focal_length, 2 focal_length < focal_distance, 0 < fov < pi, aspect_ratio > 0 and an affine view transform, in exact arithmetic: a world point in front of the camera lies on the lens-centre ray of exactly one film point, its upright pinhole projection, at the parameter that is its distance from the lens; a point beside or behind the camera lies on none. The film point is in the unit square exactly if the point is in the pyramid |x| <= tan(fov/2)/4 |z|, |y| <= tan(fov/2)/(4 aspect_ratio) |z|. With look_at as the view transform the target is shown by the middle of the film and nowhere else. If the point is on a partial sphere placed by any affine composition of transforms (TransformedPrimitive), and the lens centre is not on the sphere, then the ray of its film point reports a hit, on the surface, on the segment from the lens to the point; the hit is the point itself exactly if no other point of the surface is on that segment. A PrimitiveList with this primitive in it does not report a miss.", "quantifier": "all cameras, view and object transforms, spheres, lists and world points", "why_tests_cant": "an end-to-end statement over camera, transforms, sphere and list, for all points; a rendered picture shows a sample", "anchors": ["src/cameras/thin_lens.rs:generate_ray", "src/geometry/primitive.rs:TransformedPrimitive", "src/geometry/sphere.rs:intersect", "src/math/transform.rs:look_at"]}
{"id": "C131", "title": "On f32 the picture is right up to rounding", "statement": "For f32, a camera and a sample that meet C113's conditions, an affine view transform, and a scene of spheres and boxes nested to any depth in TransformedPrimitives and PrimitiveLists, with nothing overflowing or underflowing on the way: let the exact ray of the sample be the one generate_ray describes in exact arithmetic, taken through the exact inverses stored in the transforms around a shape, k of them. (1) At every t each coordinate of the ray that reaches the shape differs from the exact one by at most g-1 times the size of its terms, with g = (1+u)(1+4.04u)^(k+1). (2) If the scene reports a hit, then at the reported t_ray the exact ray is on a sphere of the scene, with a residual in the equation of at most (1+64u)g^2-1 of the squared sizes, or inside a box of it whose planes are moved outwards by an explicit margin. (3) If the scene reports no hit, then the exact ray is, at every t in [0, Float::highest()], outside every box of the scene whose planes are moved inwards by that margin, and it crosses no sphere of the scene that is not clipped where the ray meets it: it stays outside or it stays inside, up to (1+58u)g^2-1 of the squared sizes.", "quantifier": "all cameras, samples, view transforms, scenes of any depth and t", "why_tests_cant": "an end-to-end error bound over camera, transforms and shapes in floats; tests compare a few pixels to stored ones", "anchors": ["src/cameras/thin_lens.rs:generate_ray", "src/geometry/primitive.rs:TransformedPrimitive", "src/geometry/primitive.rs:PrimitiveList", "src/geometry/sphere.rs:intersect_ray", "src/geometry/bbox.rs:intersect_ray"]}
{"id": "C132", "title": "Depth of field: what is out of focus is spread evenly over a disc", "statement": "For a camera made by ThinLensCamera::new with 0 < focal_length, 2 focal_length < focal_distance, 0 < fov < pi, aspect_ratio > 0 and an affine view transform, in exact arithmetic: through each lens sample a world point in front of the camera is seen by exactly one film point, and a point beside or behind the camera by none. The film points that see it through some lens sample of the unit square fill the disc about its pinhole projection whose radius, on the film, is d * lens_radius * |1/q - 1/Z|, with d the image distance by the lens equation, Z the depth of the point and q = focal_distance - d the depth of the plane of focus. The radius is zero exactly in that plane, strictly increases away from it on both sides, stays below d * lens_radius / q behind it and is unbounded before it. For uniformly distributed lens samples the film point is uniformly distributed on the disc: the probability to be in a measurable set is the share of the disc that the set covers.", "quantifier": "all cameras, view transforms, world points, lens samples and measurable sets of the film", "why_tests_cant": "a statement about all lens samples and about areas; a rendered picture shows finitely many noisy samples", "anchors": ["src/cameras/thin_lens.rs:generate_ray", "src/cameras/thin_lens.rs:new", "src/cameras/camera.rs:concentric_sample_disk"]}
{"id": "C133", "title": "Interval results get narrower as the inputs do", "statement": "Evaluate an expression (sums, differences, products, quotients, negation, square, abs, min, max, operations with constants) with Interval<T>. If all intervals that occur are finite and within [-M,M], divisors stay at least m away from zero, and abs is not applied to an interval of negative numbers, the width of the result is at most lip * (width of the widest input) + noise * (rounding of one operation), where lip and noise are given by the expression, m and M alone. So subdividing the inputs makes the result as narrow as wanted, down to the rounding; everything in the result is that near to every exact value; and evaluating in floats is off by at most noise * (rounding of one operation), even though the expression may cancel. Products of two intervals that both straddle zero, whose bounds are wrong, are still narrow.", "quantifier": "all expressions, all input intervals, every float format", "why_tests_cant": "a relation between the widths at infinitely many inputs, for every expression tree; tests see single widths", "anchors": ["src/math/interval.rs:add", "src/math/interval.rs:sub", "src/math/interval.rs:mul", "src/math/interval.rs:div", "src/math/interval.rs:square", "src/math/interval.rs:abs", "src/math/interval.rs:neg"]}
{"id": "C134", "title": "The comparison operators keep the contracts of PartialEq and PartialOrd", "statement": "For floats (NaN included), integers and intervals whose bounds are not reversed: == is symmetric and transitive; partial_cmp gives Equal exactly when ==; a < b exactly when b > a; < is transitive, also together with ==. An interval compares with a number as with the interval of that number alone. == of vectors, points, normals, matrices and transforms is symmetric and transitive, holds exactly when all entries are equal numbers, and so a value equals itself exactly when it contains no NaN.", "quantifier": "all values of every scalar type, all vectors, matrices and transforms, every dimension", "why_tests_cant": "the contracts quantify over all triples of values, NaN and infinite bounds included", "anchors": ["src/math/interval.rs:partial_cmp", "src/math/interval.rs:eq", "src/math/vector.rs:eq", "src/math/transform.rs:Matrix4x4", "src/math/transform.rs:Transform", "src/math/scalar.rs:Scalar"]}
{"id": "C135", "title": "Rearranging a scene does not change the picture", "statement": "No ray can tell apart (intersect and do_intersect return the same, or both panic): a list with a list inside and the flattened list; a list of one object and the object; a list with an object repeated in a row and without the repetition; a transformed non-empty list and the list of the transformed members. These can be applied any number of times anywhere in a scene; on floats the results agree bit for bit. In exact arithmetic nested affine transforms can be merged (outer times inner), the identity has no effect, and an object moved and moved back is where it was. Reordering a list does not change whether a ray hits it, nor the reported hit when all members that are hit report the same.", "quantifier": "all scenes of any depth and length over any primitives, all rays, every scalar type (merging: exact reals)", "why_tests_cant": "the laws quantify over all scenes, all contexts they occur in and all rays", "anchors": ["src/geometry/primitive.rs:PrimitiveList", "src/geometry/primitive.rs:TransformedPrimitive", "src/geometry/primitive.rs:intersect", "src/geometry/primitive.rs:do_intersect"]}
{"id": "C136", "title": "look_at is the one transform that looks there", "statement": "look_at(pos, target, up) is the one and only transform that is a rigid motion without mirroring, takes pos to the origin, target to the negative z axis and up into the upper half of the yz plane. So: moving the target along the line of sight, scaling up, or tilting up towards or away from the target gives the very same transform; moving pos, target and up by a rigid motion g gives a transform L' with L' * g = L (the camera sees the same); and every rigid motion without mirroring is the look_at of some camera. map_inverse takes the origin to pos (the doc comment says this of the transform itself, for which it is false).", "quantifier": "all non-degenerate inputs, all rigid motions (exact reals)", "why_tests_cant": "uniqueness quantifies over every other transform; the invariances over all inputs and motions", "anchors": ["src/math/transform.rs:look_at", "src/math/transform.rs:init_from_orthogonal_basis", "src/math/transform.rs:translate", "src/math/transform.rs:rotate"]}
{"id": "C137", "title": "The constructors can build every transform", "statement": "Every rigid motion without mirroring is a rotation about x, then y, then z, then a translation, and also one rotation about one axis and a translation. Every invertible affine transform is a rotation, a scaling, a rotation and a translation. The transforms that can be built with translate, scale, rotate, look_at, perspective, * and inverse are exactly the pairs of mutually inverse matrices; in particular Transform::new(m, m.inverse()) of any invertible matrix is one of them.", "quantifier": "all transforms, all invertible matrices (exact reals)", "why_tests_cant": "existence of a decomposition for every matrix", "anchors": ["src/math/transform.rs:new", "src/math/transform.rs:translate", "src/math/transform.rs:scale", "src/math/transform.rs:rotate", "src/math/transform.rs:rotate_x", "src/math/transform.rs:rotate_y", "src/math/transform.rs:rotate_z", "src/math/transform.rs:perspective"]}
{"id": "C138", "title": "Laws of the transform constructors", "statement": "Translations add, scalings multiply, and each has the obvious inverse; a translation can be moved past any affine transform. Two rotations are the same transform exactly when both are whole turns, or axis direction and angle agree up to whole turns, or both are opposite; the order of two rotations does not matter exactly when one is a whole turn, the axes are parallel, or both are half turns about orthogonal axes. A rigid motion carries the rotation about a line to the rotation by the same angle about the image of the line. On floats: t * identity == t == identity * t for finite entries; translate(u) * translate(v) == translate(v + u), inverse included; scale(u) * scale(v) has the matrix of scale(u * v), but its inverse may be off by an ulp.", "quantifier": "all vectors, angles, affine transforms and rigid motions (exact reals); all finite floats of every format", "why_tests_cant": "equations between transforms for all parameters, with exact conditions", "anchors": ["src/math/transform.rs:translate", "src/math/transform.rs:scale", "src/math/transform.rs:rotate", "src/math/transform.rs:mul", "src/math/transform.rs:inverse", "src/math/transform.rs:identity"]}
{"id": "C139", "title": "perspective is determined by the frustum, and keeps lines and depth order", "statement": "A transform takes the eight corners of the viewing frustum to the eight corners of [-1,1]x[-1,1]x[0,1] exactly when it maps every point, inside and outside the frustum, as perspective(fov, near, far) does (and panics on the same points). Every transform maps collinear points to collinear points wherever it does not panic; under perspective a point between two points in front of the camera stays (strictly) between them. Of two points in front of the camera the farther one gets the greater depth; two points get the same picture position exactly when they are on one line of sight; the picture position does not depend on near and far.", "quantifier": "all transforms, all points, 0 < fov < pi, 0 < near < far (exact reals)", "why_tests_cant": "uniqueness among all transforms; for-all statements about pairs and triples of points", "anchors": ["src/math/transform.rs:perspective", "src/math/transform.rs:map"]}
{"id": "C140", "title": "The slab test respects containment of boxes, on floats and without tolerance", "statement": "If every point inside box A is inside box B and a ray hits A, Bbox3::intersect_ray reports a hit of B too, and the range for A lies within the range for B; so a box that is missed can be skipped with everything in it, a union is hit by every ray that hits a member, and for lists of boxes nested to any depth every hit lies in the range reported for bbox(). Overflowing quotients, zero direction components and unbounded rays included. The one exception, and it is one for every bounded ray: the ray runs within the lower face of B and A is flat and lies in that face.", "quantifier": "all finite float boxes with a point inside, all finite origins and directions, every tmax that is a number, every float format", "why_tests_cant": "for-all over pairs of boxes and rays on floats; a tolerance-free statement about rounded quotients", "anchors": ["src/geometry/bbox.rs:intersect_ray", "src/geometry/bbox.rs:union", "src/geometry/primitive.rs:bbox", "src/geometry/primitive.rs:intersect"]}
{"id": "C141", "title": "do_intersect is true exactly when the segment meets the scene's points; visibility is symmetric", "statement": "A scene occupies a set of points: a (partial) sphere its surface, a box its inside, a transformed object the images of the object's points, a list the points of its members. do_intersect(ray) returns true exactly when a point eval(t), 0 <= t <= tmax, belongs to the set; a hit reported by intersect belongs to it. So the answer depends only on the points of the ray and of the scene: something is in the way from A to B exactly if something is in the way from B to A; if B is seen from A, so is every point between; scenes made of the same points answer alike.", "quantifier": "all scenes of any depth with affine transforms and ordered boxes, all rays (tmax >= 0) with nonzero direction components at boxes that do not start tangentially on a sphere (exact reals)", "why_tests_cant": "for-all over nested scenes, rays and pairs of points", "anchors": ["src/geometry/primitive.rs:do_intersect", "src/geometry/primitive.rs:intersect", "src/geometry/bbox.rs:do_intersect", "src/geometry/sphere.rs:do_intersect"]}
{"id": "C142", "title": "The reported hit is the first point of the ray on the object", "statement": "For a sphere or box, transformed any number of times, intersect returns None exactly when no point of the ray is on the object, and otherwise the least t in [0, tmax] with eval(t) on it; so objects made of the same points are hit at the same t. For scenes with lists, where intersect may report a later hit (C64), a first point exists whenever do_intersect is true, and do_intersect of the ray cut at s is true exactly when s reaches it.", "quantifier": "all scenes of any depth with affine transforms and ordered boxes, all regular rays as in C141, all cut-off points s (exact reals)", "why_tests_cant": "for-all over nested scenes and rays; minimality over a continuum of t", "anchors": ["src/geometry/primitive.rs:intersect", "src/geometry/primitive.rs:do_intersect", "src/geometry/bbox.rs:intersect", "src/geometry/sphere.rs:intersect"]}
{"id": "C143", "title": "Ray tracing and projection give the same picture up to scale", "statement": "A film point p of a ThinLensCamera shows a world point in front of the camera (through the lens centre) exactly when perspective(fov', near, far) * view takes the world point to (2 p.x - 1, (2 p.y - 1)/aspect_ratio) times tan(fov/2)/(4 tan(fov'/2)). So the two pictures are the same exactly when tan(fov'/2) = tan(fov/2)/4; such a fov' exists for every camera and is never the camera's own fov. Of two points shown by one film point, the one with the smaller ray parameter has the smaller projected depth.", "quantifier": "all cameras with 0 < 2 focal_length < focal_distance, 0 < fov < pi, aspect_ratio > 0, all affine views, all fov' in (0, pi), 0 < near < far, all world and film points (exact reals)", "why_tests_cant": "for-all over cameras, views and points; equality of two pictures", "anchors": ["src/cameras/thin_lens.rs:generate_ray", "src/cameras/thin_lens.rs:new", "src/math/transform.rs:perspective", "src/math/transform.rs:mul"]}
{"id": "C144", "title": "Laws of interval arithmetic", "statement": "Although every operation widens its result, interval expressions can be rewritten without changing the bounds (compared as numbers, which is what is_same does). Bit for bit and for all floats: A + B = B + A, A - B = A + (-B), -(-A) = A, and adding, subtracting or dividing by a number t equals the operation with Interval::from(t). For finite ordered intervals: A - B is -(B - A), signs can be taken out of sums, quotients (divisors containing zero included) and products with a number; min, max, union and intersection are symmetric and min(-A, -B) is -max(A, B); square(-A) is square(A), which lies within A * A and equals it when zero is not strictly inside A. Products commute and signs can be taken out of either factor unless zero is strictly inside both factors. abs(-A) is abs(A) if and only if zero is in A.", "quantifier": "all intervals of any float format (all bit patterns for the bitwise laws; finite ordered bounds otherwise)", "why_tests_cant": "for-all over pairs of float intervals and equality of rounded bounds", "anchors": ["src/math/interval.rs:add", "src/math/interval.rs:sub", "src/math/interval.rs:mul", "src/math/interval.rs:div", "src/math/interval.rs:neg", "src/math/interval.rs:square", "src/math/interval.rs:abs", "src/math/interval.rs:is_same", "src/math/interval.rs:min", "src/math/interval.rs:max"]}
{"id": "C145", "title": "The picture depends only on where the scene is relative to the camera", "statement": "Move every object by any affine transform g (TransformedPrimitive) and the camera with it (view * g^-1): every sample of film and lens reports exactly the same hit. In particular a camera placed with look_at may be moved with the scene by any rigid motion applied to position, target and up. Reflecting the view in camera space mirrors the picture: the sample mirrored on film and lens reports the same hit; turning up round turns the picture upside down. The unit of length does not matter: with position, target, focal distance, focal length, lens radius and all objects enlarged by k > 0, every ray starts at the enlarged point with the same direction, and within the enlarged range hits the same object-space point at k times the distance.", "quantifier": "all cameras, samples, scenes, affine motions, reflections and factors k > 0 (exact reals)", "why_tests_cant": "for-all over cameras, motions, scenes and samples; relates two runs of the program", "anchors": ["src/cameras/thin_lens.rs:generate_ray", "src/cameras/thin_lens.rs:new", "src/math/transform.rs:look_at", "src/cameras/camera.rs:concentric_sample_disk"]}
{"id": "C146", "title": "Integer vectors and matrices in debug and release builds", "statement": "For all eight integer types: in a debug build x+y, x-y, x*y, square, componentwise vector operations, point/vector arithmetic and unary minus return z exactly when z is the exact integer result, and panic otherwise; in a release build they always return, the exact result modulo 2^w. Division (by a vector or scalar) returns the quotient rounded towards zero and panics exactly for a zero divisor or MIN / -1, in both builds. dot, the matrix product and cross return in a debug build exactly when every product and running total fits, then with the exact value, which is also what the release build returns; the release value is exact modulo 2^w, hence exact whenever the final result fits. square_norm panics in a debug build exactly when the exact square norm does not fit, so a returned one is non-negative and zero only for the zero vector; a release build may return 0 or a negative number for a non-zero Vector3i. A debug build can panic in dot although the inner product fits.", "quantifier": "all values of u8..u64, i8..i64; all vector lengths N; both build profiles", "why_tests_cant": "for-all over machine integers up to 64 bits and vectors of every length; two build profiles", "anchors": ["src/math/vector.rs:add", "src/math/vector.rs:sub", "src/math/vector.rs:mul", "src/math/vector.rs:div", "src/math/vector.rs:neg", "src/math/vector.rs:dot", "src/math/vector.rs:cross", "src/math/vector.rs:square_norm", "src/math/transform.rs:mul", "src/math/scalar.rs:square"]}
{"id": "C147", "title": "When tracing a scene panics", "statement": "On floats, intersect on a scene of any depth with affine transforms panics exactly when a ray whose direction has an infinite or NaN component arrives at a TransformedPrimitive; origins, tmax and the shapes never matter, and do_intersect never panics where intersect does not. So a scene without transforms never panics, and one with at most one transform around each shape panics only if the direction of the given ray is not finite. With nesting a finite direction is not enough (three scalings by 2^-64 on f32); but with direction components at most 2^a, matrix entries at most 2^b and at most k transforms around each shape, nothing panics if a + (k-1)(b+2) is at most the largest exponent (127 for f32), whatever the rounding; and a whole camera sample does not panic under the condition of C89 if 1 + k(b+2) is.", "quantifier": "all scenes of any depth and length (user primitives that do not panic included), all rays including NaN and infinities, every float format", "why_tests_cant": "for-all over scenes, rays and rounding errors; the failure needs an overflow deep inside a nested scene", "anchors": ["src/geometry/primitive.rs:intersect", "src/geometry/primitive.rs:do_intersect", "src/math/transform.rs:map_vector", "src/math/transform.rs:map_point", "src/geometry/ray.rs:map_inverse", "src/cameras/thin_lens.rs:generate_ray"]}
{"id": "C148", "title": "Boxes form a distributive lattice, and overlaps and inside fit it", "statement": "For boxes of floats without NaN bounds, empty (inverted) ones included and bounds compared as numbers: union and intersect are commutative, associative and idempotent, absorb each other and distribute over each other; bounds within bounds is a \u222a b = b is a \u2229 b = a, and for a box with a point it is containment of the points; union, intersect and overlaps respect containment; a \u2229 b is solid exactly when a and b are solid and a.overlaps(b); a point is inside exactly when adding it changes nothing. Asked about an empty box, overlaps can answer yes.", "quantifier": "all boxes of floats without NaN of every format (infinite bounds included), all points", "why_tests_cant": "for-all over pairs and triples of boxes of floats", "anchors": ["src/geometry/bbox.rs:union", "src/geometry/bbox.rs:intersect", "src/geometry/bbox.rs:overlaps", "src/geometry/bbox.rs:inside", "src/geometry/bbox.rs:new"]}
{"id": "C149", "title": "norm, normalize, look_at and rotate about any axis enclose on intervals", "statement": "When the library's own generic norm, normalize, look_at and rotate are run on vectors of intervals, and in that run every interval is finite, no two intervals with zero strictly inside are multiplied and no square root is taken of an interval reaching below zero, then the result (for the transforms: every entry of the matrix and of the inverse matrix) contains the exact result for all real vectors in the intervals and the float result for all float vectors in them; for rotate, for all angles in an interval at most \u03c0 wide, and for the float result given that the libm's sine and cosine of the float angle are in the intervals of sines and cosines.", "quantifier": "all finite interval vectors, all real and float vectors in them, every float format; for rotate every lawful libm and every angle interval at most \u03c0 wide", "why_tests_cant": "for-all over sets of real inputs; normalize and look_at apply square root, cross products and divisions in sequence, so sampling cannot show that a bound is never crossed", "anchors": ["src/math/transform.rs:rotate", "src/math/transform.rs:look_at", "src/math/vector.rs:normalize", "src/math/vector.rs:norm", "src/math/interval.rs:mul", "src/math/interval.rs:sqrt"]}
{"id": "C150", "title": "An interval matrix inverse proves invertibility and bounds all inverses", "statement": "Let A be a matrix of finite intervals and run the library's inverse() on it. If in that run every interval is finite and no two intervals with zero strictly inside are multiplied, then every real matrix with entries in A is invertible, its inverse has its entries in A.inverse(), all these matrices have determinants of the same sign, and for every float matrix in A the inverse computed in floats is in A.inverse() too; so the widths of A.inverse() bound the error of the float inverse and the distance of the inverses of any two matrices in A. If A contains a singular matrix the conditions fail.", "quantifier": "all matrices of finite intervals, all real and float matrices in them, every float format", "why_tests_cant": "for-all over sets of real matrices; the determinant could vanish somewhere inside the intervals that no sample hits", "anchors": ["src/math/transform_inverse_impl.rs:inverse_impl_adjugate", "src/math/transform.rs:inverse", "src/math/interval.rs:div", "src/math/interval.rs:mul"]}
{"id": "C151", "title": "Shadow rays on floats are right and the same both ways, outside an explicit margin", "statement": "Ray::new(A, B - A, 1), with the direction computed in floats, asks whether something is in the way from A to B. In scenes of boxes, spheres and lists of any depth: if the exact segment from A to B passes through some box moved inwards by the margin, or has a point clearly outside and a point clearly inside some sphere, do_intersect is true for the ray from A to B and for the one from B to A; if it misses every box moved outwards by the margin and stays clearly outside or clearly inside every sphere, both are false. So the two answers can differ only if the segment passes within the margin of a surface. The margin is (2u+u\u00b2) max|bound - end| + (u + eta(1+u))|B - A| per axis for boxes and 120u (\u03a3(|A_i|+|B_i|)\u00b2 + r\u00b2) of the squared distance for spheres. In scenes with affine transforms of any depth the same holds of the exact image of the segment in the frame of each box and sphere, with the margin grown by a factor 1+4.04u per transform.", "quantifier": "all scenes of boxes, spheres, transformed objects and nested lists, all pairs of finite points for which nothing overflows or underflows (and spheres are not clipped where the line meets them), every float format with at least 9 bits of fraction", "why_tests_cant": "for-all over pairs of points and scenes; asymmetric answers occur only within rounding of an edge, where random tests do not get", "anchors": ["src/geometry/ray.rs:new", "src/geometry/bbox.rs:do_intersect", "src/geometry/sphere.rs:do_intersect", "src/geometry/primitive.rs:do_intersect"]}
{"id": "C152", "title": "Cutting a box into cells leaves no cracks, on floats and without tolerance", "statement": "Cut a box by planes across the axes, in any order and as often as one likes. On floats, for every ray: a distance is in the range the slab test reports for the box exactly when it is in the range reported for one of the cells; so the list of the cells and the box stop exactly the same rays, also rays along an edge or within the plane of a cut; of the two sides of a cut, the one the ray comes from is left no later than the other is entered (front-to-back traversal is right); and a point is inside the box exactly when it is inside a cell.", "quantifier": "all boxes with finite bounds in order, all subdivisions of any depth, all rays with finite origin and direction (zero components, overflow and unbounded rays included), every float format", "why_tests_cant": "for-all over rays and subdivisions; a crack would be one float wide and lie exactly in the plane of a cut, where rounding decides", "anchors": ["src/geometry/bbox.rs:intersect_ray", "src/geometry/bbox.rs:do_intersect", "src/geometry/bbox.rs:inside", "src/geometry/primitive.rs:do_intersect"]}
{"id": "C153", "title": "Cutting a sphere into zones leaves no cracks, on floats and without tolerance", "statement": "Make spheres with Sphere::new for the zones into which planes z = const cut a sphere. On floats, for every ray: what hits the sphere hits some zone with the same distance, point and azimuth, and no zone reports anything nearer; what misses the sphere misses every zone. So the list of the zones and the sphere stop exactly the same rays. The bounding boxes of the zones contain exactly the points of that of the sphere, and the areas (exactly computed) add up.", "quantifier": "all spheres and subdivisions that Sphere::new accepts, all rays (NaN and infinities included), every libm, every float format", "why_tests_cant": "for-all over rays and cuts; a crack would lie at the height of a cut, where only hits that round to exactly that height go", "anchors": ["src/geometry/sphere.rs:new", "src/geometry/sphere.rs:intersect_ray", "src/geometry/sphere.rs:do_intersect", "src/geometry/sphere.rs:area", "src/geometry/primitive.rs:do_intersect"]}
{"id": "C154", "title": "Rays started at a hit point hit the surface they start on; how far off it they must start", "statement": "Take the point of a hit that a scene reported and start another ray there (a shadow ray, a reflection). In exact arithmetic that ray, whatever its direction and length, is reported to hit; on floats a box is hit at distance 0 by every ray that starts in it or on its surface (unless the ray runs within a lower face), and on f32 a sphere and a box are hit so by rays from a computed hit point that lead away from the surface. A program that goes on from hit to hit along a ray stays at the first hit point of an object for ever. So the caller must start it off the surface. Enough is: in exact arithmetic, any distance beyond a plane that has the scene on its other side, if the ray does not lead back; on floats, for a box, one float beyond a face (next_up of p_max or next_down of p_min), if the ray leads away along that axis by at most 1 per unit (for 2 per unit it is not enough: the distance underflows to 0 and the box is hit); on floats, for a sphere, |o|^2 - r^2 > 58u(|o|^2 + r^2), if the ray does not lead towards the centre. A list of any depth of objects that the ray leaves so is reported free.", "quantifier": "exact part: all scenes of any depth, all rays that meet them regularly; float part: all float formats, boxes and rays with finite numbers along one axis (anything along the others); spheres and rays without overflow or underflow in the quadratic", "why_tests_cant": "for-all over scenes, directions and formats; the self-hits are at distance 0, which a test of some directions hits or misses by luck of rounding", "anchors": ["src/geometry/bbox.rs:intersect_ray", "src/geometry/sphere.rs:intersect_ray", "src/geometry/sphere.rs:do_intersect", "src/geometry/primitive.rs:do_intersect", "src/math/scalar.rs:next_up"]}
{"id": "C155", "title": "Enlarging a scene never opens a way", "statement": "Enlarge a scene: add members to lists or put it into a list, replace boxes by boxes that contain them, cut less off spheres (a larger z range, a larger phi_max), at any depth and under transforms. On floats and without tolerance, a ray that do_intersect reports blocked is then not reported free: it is still blocked, unless a member that was added panics on the ray. A sphere that less is cut off keeps every hit or reports a nearer one. In exact arithmetic the same holds of any two scenes one of which has all points of the other, however they are built.", "quantifier": "all scenes of any depth and length (primitives of the user included as they are), all transforms, all rays; for boxes the ray and the boxes are finite and the exception of C140 (a flat box in the lower face the ray runs in) does not occur; every libm, every float format", "why_tests_cant": "for-all over scenes and rays; a leak would need a ray for which rounding separates the two scenes", "anchors": ["src/geometry/sphere.rs:intersect_ray", "src/geometry/bbox.rs:intersect_ray", "src/geometry/primitive.rs:do_intersect"]}
{"id": "C156", "title": "Interval trigonometry does not over-estimate", "statement": "On finite intervals, with a libm accurate to one float, the bounds of A.sin(), A.cos() and A.atan() are at most two floats beyond a value the function takes on A, whatever the width of A: -1 and 1 are returned only where they are (to within a float) attained, and a full period is assumed only when there is one. The same holds of asin and acos on [-1,1], whose results may be cut off (C25) but are never larger. So A.sin() and A.cos() are finite and not wider than A, up to the rounding of one operation, and everything in them is that near to the sine and cosine of every member of A if A is at most pi wide.", "quantifier": "all finite intervals, every accurate libm, every float format with at least 9 mantissa bits whose tau is the float nearest to 2 pi (f32 and f64 are)", "why_tests_cant": "for-all over intervals and libms; an over-estimate is not wrong, so a test of enclosure does not see it", "anchors": ["src/math/interval_as_gfloat.rs:sin", "src/math/interval_as_gfloat.rs:cos", "src/math/interval_as_gfloat.rs:asin", "src/math/interval_as_gfloat.rs:acos", "src/math/interval_as_gfloat.rs:atan"]}
{"id": "C157", "title": "Bounding boxes are the smallest ones", "statement": "The bounding box of a scene of boxes, spheres, non-empty primitive lists and transforms that act on each axis separately (translations, scalings, mirrorings, in any nesting) is the smallest box that contains the points of the scene: no face can be moved inwards, and every box that contains the scene contains it. For a sphere with positive radius and z_min < z_max this is so exactly if -r <= z_min <= 0 <= z_max <= r and phi_max >= pi/2; such spheres are those meant above. It fails for a sphere cut above the equator and for one whose z range exceeds the radius (the range is not clamped).", "quantifier": "all scenes of that kind, of any size and nesting, whose boxes meet the range of the float type; all spheres for the equivalence; exact arithmetic", "why_tests_cant": "for-all over scenes and over all competing boxes; a box that is too large is not wrong, so no test of containment sees it", "anchors": ["src/geometry/sphere.rs:bbox", "src/geometry/primitive.rs:bbox", "src/math/transform.rs:map", "src/geometry/bbox.rs:add", "src/geometry/bbox.rs:default"]}
{"id": "C158", "title": "A bounding volume hierarchy gives the same picture", "statement": "Put nodes around any parts of a scene, at any depth and repeatedly: a node is a user's own Primitive with a box that contains the bbox() of its content and asks the content only if Bbox3::do_intersect of that box says yes. Then intersect and do_intersect answer exactly what they do without the nodes. In exact arithmetic this holds for scenes of boxes, spheres, lists and transforms that act on each axis separately; on floats for lists of boxes and spheres, with a margin (that of C115) around spheres only and none around boxes or nodes. It fails for rotated primitives and, on f32, for a sphere in a node without margin.", "quantifier": "all such scenes, all ways to put nodes around their parts, all rays with tmax >= 0 that are not parallel to a face of a node (exact) or do not run within its lower face (floats, every format)", "why_tests_cant": "for-all over scenes, hierarchies and rays; a lost hit shows as a rare dark pixel", "anchors": ["src/geometry/bbox.rs:do_intersect", "src/geometry/bbox.rs:intersect_ray", "src/geometry/sphere.rs:bbox", "src/geometry/primitive.rs:bbox", "src/geometry/primitive.rs:intersect", "src/geometry/primitive.rs:do_intersect"]}
{"id": "C159", "title": "concentric_sample_disk keeps distances up to a factor", "statement": "concentric_sample_disk never brings two samples nearer to each other and never moves them apart by more than the factor 2 sqrt 2 (exact arithmetic, the whole plane): it is continuous across the diagonals where its formula changes, and stratified samples stay stratified, samples from the same cell of side d landing within 4 d of each other. The origins of camera rays on the lens (before the view transform) keep distances in the same way, scaled by lens_radius. uniform_sample_disk, equally uniform (C70), has neither bound: it takes samples at distance 1 to the same point and moves others apart by any factor.", "quantifier": "all pairs of samples, all thin lens cameras", "why_tests_cant": "for-all over pairs of reals, also from different quarters of the square; a tear along a diagonal shows only for pairs right beside it", "anchors": ["src/cameras/camera.rs:concentric_sample_disk", "src/cameras/camera.rs:uniform_sample_disk", "src/cameras/thin_lens.rs:generate_ray"]}
{"id": "C160", "title": "Repeated square roots settle at 1", "statement": "On floats, repeated sqrt takes every positive finite number to exactly 1 if it is at least 1 and to the float just below 1 otherwise, within mw + ew + 9 steps (40 for f32, 72 for f64). Repeated sqrt of an interval with positive finite bounds ends, within as many steps, at an interval that sqrt does not change any more: its lower bound is two or three floats below 1, its upper bound one or two floats above, so the over-estimation of one ulp per step does not add up. The sqrt of the trait computes the same as the inherent one. An interval whose lower bound is 0 does not settle: after two steps its lower bound is NaN.", "quantifier": "all positive finite floats, all intervals with positive finite bounds, all numbers of steps, every format with mw >= 10", "why_tests_cant": "for-all over starting values and numbers of steps; the repository's own test follows [0.5, 1.5] only", "anchors": ["src/math/interval.rs:sqrt", "src/math/interval_as_gfloat.rs:sqrt", "src/math/scalar.rs:sqrt"]}
{"id": "C161", "title": "Interval runs prove that an equation has a solution, or none", "statement": "Take any expression of interval operations in one unknown, the other inputs being parameters with interval values, and evaluate it over intervals so that every intermediate bound is finite and no product of two zero-straddling intervals is taken. If the result over X is_positive or is_negative, the exact function has no zero in X. If the results at two floats of X are is_negative and is_positive, it has a zero strictly between them. If the result is in_range of the bounds of X, it has a fixed point in X, which lies in the result. Repeatedly cutting X down with intersect to its image never loses a fixed point, proves that there was none if it leaves nothing, and ends: after at most as many steps as X has floats it leaves nothing or does not change the interval any more. All of this for every real value of the parameters in their intervals.", "quantifier": "all expressions, all intervals, all real parameters in theirs, all numbers of steps", "why_tests_cant": "for-all over expressions and reals; the conclusion is the existence of a real number that is usually not a float (such as the root of x^2 - 2)", "anchors": ["src/math/interval.rs:in_range", "src/math/interval.rs:contains", "src/math/interval.rs:is_positive", "src/math/interval.rs:is_negative", "src/math/interval.rs:intersect", "src/math/interval.rs:is_same"]}
{"id": "C162", "title": "norm is at least every component and normalize stays in [-1, 1], in floats and without tolerance", "statement": "For a float vector of any length with finite components, one of which has a square of at least MIN_POSITIVE (for f32: magnitude at least 2^-63, about 1.1e-19): norm() >= |v_k| for every component, compared as floats with no tolerance, also when the sum of squares overflows; distance() is at least the difference in every coordinate; every component of normalize() is at most 1 and at least -1, so that acos/asin of it are defined. Along a coordinate axis nothing is lost at all: norm() is |a| and normalize() is exactly plus or minus the axis, because sqrt(square(a)) is |a| exactly. For smaller vectors this fails: an f32 vector of length 6.6e-23 has a norm below its component and normalizes to a component above 1, one of length 1.3e-23 has norm 0 and normalizes to infinity.", "quantifier": "all vector lengths, all finite components (one not tiny), every rounding; every float format with at least 10 mantissa bits", "why_tests_cant": "for-all over 2^32 values per component and any number of components; an off-by-one-ulp violation would hide from any sample", "anchors": ["src/math/vector.rs:square_norm", "src/math/vector_traits.rs:norm", "src/math/vector_traits.rs:normalize", "src/math/vector_traits.rs:distance", "src/math/scalar.rs:square"]}
{"id": "C163", "title": "rotate about a coordinate axis equals rotate_x, rotate_y or rotate_z, and in floats when it does not", "statement": "Let v be a float vector along coordinate axis k, forward or backward, of any length whose square is in the normal range, and let the platform's cos and sin of the angle be finite, cos in [-1, 1]. If cos >= 0 then rotate(v, angle) == rotate_k(angle), in every entry of both matrices and with no tolerance; for a backward axis it is rotate_k(angle).inverse(). For negative cos every entry is still equal except the one on the axis, which is 1 or the float just before 1; it is the latter whenever cos lies between minus the unit of rounding and minus half of it. So the equalities of the repository's test_rotate_on_axis (f64, angle FRAC_PI_2) hold on every platform whose libm is accurate to one float, and the same test with f32, the type the renderer uses, fails on every such platform.", "quantifier": "all axes, all lengths, all angles, every libm with finite results (for the quarter turn: every libm accurate to one float), every float format with at least 10 mantissa bits", "why_tests_cant": "the test checks one angle and one format; that the comparison with == holds for a whole half of the angles and fails by one float for some others cannot be seen from it", "anchors": ["src/math/transform.rs:rotate", "src/math/transform.rs:rotate_x", "src/math/transform.rs:rotate_y", "src/math/transform.rs:rotate_z", "src/math/transform.rs:test_rotate_on_axis", "src/math/transform.rs:inverse"]}
{"id": "C164", "title": "norm on floats is monotone, blind to signs, and zero exactly below the underflow threshold", "statement": "For float vectors of any dimension, infinities allowed: if |v_i| <= |w_i| for every i then norm(v) <= norm(w) and square_norm(v) <= square_norm(w), as floats and without tolerance; if the magnitudes are equal the norms are ==; a further component never makes the norm smaller; with two components their order does not matter. For finite components norm(v) == 0 exactly if the square of each component is at most half the smallest positive float, so also for some vectors other than zero. Two laws of the real norm fail on f32: with three components the norm depends on their order, and norm(a + b) can exceed norm(a) + norm(b).", "quantifier": "all dimensions, all components that are not NaN (for the zero test: finite), every float format (for the zero test: at least 10 mantissa bits)", "why_tests_cant": "rounding each square, each partial sum and the root could break an inequality by one float anywhere; the two laws that fail do so for few inputs, so tests see neither which laws hold nor which do not", "anchors": ["src/math/vector_traits.rs:norm", "src/math/vector.rs:square_norm", "src/math/scalar.rs:square"]}
{"id": "C165", "title": "On floats the length of an axis or up vector does not matter, up to powers of two", "statement": "Multiplying a float vector by a power of two multiplies norm() by exactly that power and leaves normalize() the same bit for bit, if no square of a component underflows before and the sum of squares does not overflow after. So rotate returns the same two matrices bit for bit for an axis and for its multiple, look_at does not see the length of up nor, if the difference of position and target is multiplied by a power of two, how far the target is; distance() of points multiplied by a power of two is multiplied by it exactly. For other factors, and for tiny vectors, this fails: f32 normalize of (3, 3) differs from that of (1, 1), and for a vector of length 6.6e-23 a factor of 4 changes the result.", "quantifier": "all dimensions, all vectors and powers of two without the stated underflow and overflow, all angles, every libm, every float format whose exponent range is wide enough (f32 and f64 are)", "why_tests_cant": "relates two executions over all vectors and factors bit for bit; a test with a tolerance cannot see it and the failing factors give differences of one float", "anchors": ["src/math/vector_traits.rs:norm", "src/math/vector_traits.rs:normalize", "src/math/vector_traits.rs:distance", "src/math/vector.rs:square_norm", "src/math/transform.rs:rotate", "src/math/transform.rs:look_at"]}
{"id": "C166", "title": "On floats the inverse of any composition of rotations is its transpose, bit for bit", "statement": "On floats, for all 4x4 matrices with any entries (NaN and infinities included): (AB)^T and B^T A^T are the same bits, A A^T is symmetric bit for bit, and a scalar factor acts on each entry with one rounding and commutes with transposing. So for every transform built from identity, rotate_x, rotate_y, rotate_z and rotate by any number of * and inverse(), inverse_matrix() is the transpose of matrix() bit for bit: rounding never makes the two drift apart, and map_inverse of a vector is the dot product with the columns of matrix(). Two laws of exact matrix algebra fail on f32: the product of transforms is not associative, and a scalar factor cannot be taken out of a product.", "quantifier": "all matrices, all compositions of rotations of any length, all angles and axes (degenerate ones included), every libm, every float format", "why_tests_cant": "bit equality over unboundedly long compositions and every libm; a test compares with a tolerance, under which drift over long products is not seen", "anchors": ["src/math/transform.rs:Mul<Transform>", "src/math/transform.rs:transpose", "src/math/transform.rs:rotate", "src/math/transform.rs:rotate_x", "src/math/transform.rs:rotate_y", "src/math/transform.rs:rotate_z", "src/math/transform.rs:inverse", "src/math/transform.rs:map_inverse"]}
{"id": "C167", "title": "On floats a ray never turns back, and boxes are convex along it, without tolerance", "statement": "For a ray with finite origin and direction and finite parameters t <= t': each coordinate of eval(t') is at least that of eval(t) where the direction component is >= 0 and at most where it is <= 0, compared as floats with no tolerance, also when coordinates overflow; eval(0) == origin. So a box that contains eval(t0) and eval(t1) contains eval(t) for all t0 <= t <= t1 as reported by inside(), and Bbox3::new(eval(t0), eval(t1)) contains them. The ray can stand still on f32 (different t, same point), and eval(tmax) of an unbounded ray is NaN in every coordinate along which it does not move.", "quantifier": "all finite rays, all finite parameters, all boxes, every float format", "why_tests_cant": "two roundings per coordinate could reverse the order of nearby points for some of 2^128 rays; sampling cannot exclude it", "anchors": ["src/geometry/ray.rs:eval", "src/geometry/bbox.rs:inside", "src/geometry/bbox.rs:new"]}
{"id": "C168", "title": "On floats look_at takes the camera position exactly to the origin, and back", "statement": "If the position is finite and no entry of the matrix of look_at(pos, target, up) overflows, map_point(pos) is defined and equals the origin and map_point_inv(origin) equals pos, compared as floats with no tolerance, however inexact the computed basis; the same holds for init_from_orthogonal_basis with any three vectors, orthonormal or not. Every finite affine float transform takes the origin to exactly its last column and the axis vectors to exactly its other columns. Only the position is special: for an f32 camera at (1,2,3) the target does not come back exactly.", "quantifier": "all positions, targets, up vectors and bases, all finite affine matrices, every float format", "why_tests_cant": "the cancellation must be exact for every rounding error in the dot products and in the basis; samples show some roundings only", "anchors": ["src/math/transform.rs:look_at", "src/math/transform.rs:init_from_orthogonal_basis", "src/math/transform.rs:map_point", "src/math/transform.rs:map_vector"]}
