{
"C01": [
"proved",
"Every format with lawful constants, hence f32 and f64 (literal bit code)."
],
"C02": [
"proved",
""
],
"C03": [
"proved",
""
],
"C04": [
"proved",
""
],
"C05": [
"proved",
""
],
"C06": [
"partial",
"Refuted for infinities (fequals(inf,inf) is false: C06_not_refl); symmetry and NaN behaviour in full, reflexivity and both tolerance directions for finite floats.; C06_exact: reflexive exactly at the finite floats"
],
"C07": [
"partial",
"Refuted: is_infinite returns is_finite (C07_refuted, C07_is_infinite_inverted); the other classifiers are proved correct."
],
"C08": [
"proved",
""
],
"C09": [
"proved",
""
],
"C10": [
"partial",
"Proved for f64; for f32 the upper constants are below the true values (C10_f32_upper_wrong); f32 lower constants proved."
],
"C11": [
"proved",
"f32 and f64 (any lawful format), infinite and overflowing bounds included"
],
"C12": [
"partial",
"proved unless both operands straddle zero or a bound is NaN (0*inf); false in those two cases (C12_refuted_straddle, C12_refuted_nan); the lower bound is right also when both straddle; C12_straddle_exact says for which straddling pairs the product is right"
],
"C13": [
"partial",
"proved for finite intervals, and for unbounded ones times a nonzero float; false for an unbounded interval times zero (C13_refuted); C13_exact: encloses if and only if the interval is finite or the float is not zero"
],
"C14": [
"proved",
"any divisor interval; whole line when it contains zero"
],
"C15": [
"proved",
""
],
"C16": [
"proved",
""
],
"C17": [
"partial",
"proved for inf >= 0; false when the interval reaches below zero (NaN lower bound, C17_refuted); C17_exact: encloses if and only if inf >= 0"
],
"C18": [
"proved",
"neg, abs, min, max, union, intersect; minimum, maximum and negation give exactly the range (C18_hull)"
],
"C19": [
"partial",
"certain-comparison reading proved; the documented reading of == (same bounds) is false (C19_doc_refuted)"
],
"C20": [
"partial",
"proved for all operations except sqrt below zero, where the assertion fails (C20_refuted_sqrt); C20_unbounded removes the finiteness assumption where possible; C20_sqrt_exact and C20_mul_scalar_exact say exactly when those two panic"
],
"C21": [
"proved",
""
],
"C22": [
"proved",
""
],
"C23": [
"partial",
"induction over all expression trees under the side conditions of C12/C13 at each product; unconditional without products; false in general (C23_refuted)"
],
"C24": [
"partial",
"proved for every accurate libm and every interval except width in (pi,2pi) with equal endpoint derivative signs (or cosine starting at 0); both full claims refuted; C24_sin_exact and C24_cos_exact: for finite intervals the excluded cases are exactly those where enclosure fails"
],
"C25": [
"partial",
"atan proved for all intervals; atan2 proved for f64 in all quadrants unless an argument interval is exactly zero; asin/acos proved for x >= 0 (f64) with an exact characterisation for any format; refuted for asin/acos of negatives, for atan2 with an exact zero, and for f32 atan2"
],
"C26": [
"partial",
"f64 constants, exactly representable integers and own-format floats proved; f32 constants, large integers and f64->f32 refuted; C26_exact: a conversion encloses its source if and only if the source is a value of the target format"
],
"C27": [
"partial",
"proved for + - / neg and scalar variants, for * unless both outer operands straddle, for square unless the outer operand straddles; refuted in those cases, where C27_mul_straddle_partial (inner operands both straddle: still monotone), C27_mul_exact and C27_square_exact say exactly when it holds; the lower bound of products is always monotone (C27_mul_lower)"
],
"C28": [
"proved",
"also for products (not both straddling) and quotients (0 not in divisor); also squares and square roots"
],
"C29": [
"proved",
"proved for every input (exact arithmetic over the reals / every commutative ring, see DESIGN.md)"
],
"C30": [
"proved",
"proved for every input (exact arithmetic over the reals / every commutative ring, see DESIGN.md)"
],
"C31": [
"proved",
"proved for every float and real vector"
],
"C32": [
"proved",
"proved for every input (exact arithmetic over the reals / every commutative ring, see DESIGN.md)"
],
"C33": [
"proved",
"proved for every input (exact arithmetic over the reals / every commutative ring, see DESIGN.md)"
],
"C34": [
"proved",
"proved for every input (exact arithmetic over the reals / every commutative ring, see DESIGN.md)"
],
"C35": [
"proved",
"proved for every input (exact arithmetic over the reals / every commutative ring, see DESIGN.md)"
],
"C36": [
"proved",
"proved for every input (exact arithmetic over the reals / every commutative ring, see DESIGN.md)"
],
"C37": [
"proved",
"proved for every input (exact arithmetic over the reals / every commutative ring, see DESIGN.md)"
],
"C38": [
"proved",
"proved for every input (exact arithmetic over the reals / every commutative ring, see DESIGN.md)"
],
"C39": [
"proved",
"proved for every input (exact arithmetic over the reals / every commutative ring, see DESIGN.md)"
],
"C40": [
"partial",
"proved for normals with z in {0,1}; the general claim is refuted (extra factor n.z in map_normal); C40_exact: right if and only if n.z is 0 or 1"
],
"C41": [
"partial",
"proved for affine transforms with diagonal linear part; the general claim is refuted (column sums instead of row sums); C41_exact: right if and only if the linear part is diagonal"
],
"C42": [
"proved",
"proved for every input (exact arithmetic over the reals / every commutative ring, see DESIGN.md)"
],
"C43": [
"partial",
"exact and float parts proved (floats: a vector panics iff an image component is not finite); the interval part is refuted: mapping any interval vector or ray panics"
],
"C44": [
"proved",
"every float format"
],
"C45": [
"proved",
"every float format"
],
"C46": [
"proved",
"every float format"
],
"C47": [
"proved",
"every float format"
],
"C48": [
"proved",
"every float format"
],
"C49": [
"proved",
"floats (with rounding) and exact arithmetic"
],
"C50": [
"proved",
"floats with finite bounds and exact arithmetic"
],
"C51": [
"proved",
"exact arithmetic"
],
"C52": [
"proved",
"every float input"
],
"C53": [
"partial",
"proved for origins strictly inside and for unbounded axis-parallel rays strictly between the faces; refuted for rays within a pmin face; C53_blocked: every bounded ray within a pmin face (or outside) is rejected; C53_hit_partial/C53_range: all other rays parallel to faces are classified as in exact arithmetic, up to the margin of C92 along the other axes"
],
"C54": [
"partial",
"everything proved except that dpdu x dpdv = -n (refuted as stated) and that the point lies on the ray when the origin is inside the box (refuted); C54_exact: the point is on the ray if and only if the ray does not start strictly inside"
],
"C55": [
"proved",
"exact arithmetic; the degenerate case b = d = 0 stated separately (the second root is 0/0)"
],
"C56": [
"proved",
"floats: tmax and range; exact arithmetic: the point is on the sphere and on the ray"
],
"C57": [
"proved",
"exact arithmetic"
],
"C58": [
"proved",
"every scene built from the three kinds of primitive"
],
"C59": [
"proved",
"exact arithmetic"
],
"C60": [
"partial",
"proved for hits on the upper half; refuted below the equator (theta is clamped to [0,1]); C60_exact: if and only if z >= 0"
],
"C61": [
"partial",
"proved for hits on the upper half away from the pole; refuted below the equator and at the pole; C61_exact: off the poles the normal is right if and only if z >= 0"
],
"C62": [
"partial",
"what area() returns is proved for every partial sphere; equality with the area is refuted for every non-degenerate sphere (the full sphere gets half its area)"
],
"C63": [
"proved",
""
],
"C64": [
"partial",
"proved: the hit of the last member hit, every scalar type; nearest when later members are never hit farther away; refuted in general; C64_exact: nearest if and only if the last member hit is the nearest"
],
"C65": [
"proved",
""
],
"C66": [
"proved",
"exact arithmetic"
],
"C67": [
"partial",
"the object-space interaction is what is returned; refuted as stated; C67_exact says exactly when it is right"
],
"C68": [
"partial",
"proved for diagonal transforms; refuted in general; C68_exact: holds if and only if the linear part is diagonal"
],
"C69": [
"proved",
"exact arithmetic; with f32 and any libm accurate to one float: finite and within one float of [-1,1]"
],
"C70": [
"proved",
"exact arithmetic, including area preservation; with f32: finite and within one float of [-1,1]"
],
"C71": [
"proved",
"exact arithmetic"
],
"C72": [
"partial",
"a common point is proved (camera and world space), but it lies on z = film_distance - focal_distance; refuted as stated; C72_exact: that height and no other"
],
"C73": [
"partial",
"proved except that the direction has unit length when focal_distance = 2 focal_length, where it is refuted; C73_exact: unit directions if and only if film and focal distances differ"
],
"C74": [
"partial",
"the slope is tan(fov/2)/4; refuted as stated for every camera"
],
"C75": [
"proved",
"every float format, all finite matrices and interval points"
],
"C76": [
"proved",
"proved for floats of every format"
],
"C77": [
"proved",
"exact arithmetic, Lebesgue measure"
],
"C78": [
"proved",
"generic iff plus float consequences"
],
"C79": [
"partial",
"refuted for abs of the least integer of each signed type in a release build (C79_abs_min), where it stays negative; proved for every other integer and every float"
],
"C80": [
"proved",
"f32 and f64"
],
"C81": [
"proved",
"every IEEE format with the model's laws, so f32 and f64"
],
"C82": [
"proved",
"every dimension, NaN and infinities included"
],
"C83": [
"proved",
"every dimension; u = 2^-(mw+1), eta = half the smallest subnormal"
],
"C84": [
"partial",
"proved when the computed square_norm does not overflow and the exact one is at least 3*eta/u (3*2^-126 on f32), bounds 5u per component and 18u for the squared norm; false outside (C84_refuted). C84_exact and C84_finite_iff say what happens for all finite vectors of any dimension: not finite exactly if every square is at most half the smallest positive float, zero if the sum of squares overflows, otherwise finite with components at most 5/4; missing: a tight bound on the components in the underflow range, where none of a few ulps holds"
],
"C85": [
"proved",
"last row numerically 0 0 0 1"
],
"C86": [
"proved",
""
],
"C87": [
"partial",
"all but norm and the dot/cross of straddling components; norm encloses iff the lower bound of square_norm is not negative (C87_norm); false for the zero vector (C87_norm_refuted) and for straddling components (C87_dot_refuted)"
],
"C88": [
"proved",
"every dimension and element type"
],
"C90": [
"proved",
"every scene, floats"
],
"C91": [
"proved",
"every scene, floats; a list reports its last hit, so the converse holds for spheres, boxes and transforms only (C91_list_not_sharp)"
],
"C92": [
"proved",
"finite slab quotients, in particular no zero direction component (those cases are C52, C53)"
],
"C93": [
"proved",
"floats, no hypotheses"
],
"C94": [
"partial",
"proved in exact arithmetic; false on f32 (C94_refuted: radius 0.1, ray from the centre); C116: with a z range enlarged by an explicit margin it holds on floats"
],
"C95": [
"proved",
"exact arithmetic"
],
"C96": [
"proved",
"every dimension and scalar type"
],
"C89": [
"partial",
"refuted as stated: C89_refuted (object at twice the focal length) and C89_panic; C89_panic_iff says exactly when it panics, C89_no_panic_partial that it does not (and the direction is unit up to 9u) when the squared distance to the focus neither overflows nor underflows"
],
"C97": [
"proved",
"exact arithmetic"
],
"C98": [
"proved",
"all eight integer types, wrapping arithmetic (release build)"
],
"C99": [
"partial",
"is_infinite is refuted (C99_refuted; C99_is_infinite_inverted says what it computes); everything else proved"
],
"C100": [
"partial",
"proved by induction over scenes whose transforms have a diagonal linear part and whose boxes are met regularly; refuted in general by C68_refuted and characterised by C41_exact/C68_exact (a transform with an off-diagonal entry loses hits); C100_refuted without the restriction to diagonal transforms"
],
"C101": [
"partial",
"proved when b² and ac are zero or normal and the two roots are finite, for formats like f32 and f64 (at least 9 bits of fraction, wide enough exponent): computed roots within 11u of those of an equation with b, c perturbed by u and 3u; refuted for underflowing and overflowing coefficients"
],
"C102": [
"partial",
"proved absent overflow and underflow (SphereRegular, finite roots, normal distance): residual at most 64u (exact point) or 80u (reported point) times the squared lengths; misses correct to 32u; C102_refuted without the proviso (overflow at 2^70)"
],
"C103": [
"proved",
"last row numerically 0 0 0 1; rotations assume libm accurate to one float and a format of at least 9 mantissa bits"
],
"C104": [
"proved",
"last row numerically 0 0 0 1, finite product entries"
],
"C105": [
"proved",
"assumes sin and cos accurate to one float; at least 9 mantissa bits"
],
"C106": [
"proved",
"assumes sin and cos accurate to one float, at least 9 mantissa bits, and that the squared length of the axis neither overflows nor underflows"
],
"C107": [
"proved",
"at least 9 mantissa bits; squared lengths of up and pos - target neither overflow nor underflow; sine of the angle between up and the viewing direction at least 128 units of rounding; finite translation"
],
"C108": [
"proved",
"assumes tan accurate to one float at fov/2; at least 9 mantissa bits; matrix entries neither overflow nor underflow"
],
"C109": [
"proved",
"matrices with zero off-diagonal linear part and finite entries; constructors and compositions shown to be such; general matrices are refuted in C41"
],
"C110": [
"proved",
"magnitudes are padded by a delta with eta <= u delta^4 so that underflow is covered; a version in terms of the largest entry is included"
],
"C111": [
"proved",
"libm tan assumed accurate to one float at fov/2; reciprocal and products inside the inverse assumed not to underflow; finite results assumed"
],
"C112": [
"proved",
"f32 only (the double rounding of the constant 2.0 and of pi is evaluated for f32); sin and cos assumed accurate to one float; finite origin assumed for the lens part"
],
"C113": [
"proved",
"the exact film and ray are those the code computes in exact arithmetic, which are not the ones intended (see C72, C74); the direction on f32 only; sin and cos assumed accurate to one float, tan at the one argument used; the hypotheses are shown to hold for a concrete camera"
],
"C114": [
"proved",
"assumes of the platform: atan2 within 6.3 units of rounding of an azimuth and not beyond the float pi, acos accurate to one float and decreasing on [0,1]; a libm with these properties is exhibited, as is a sphere with a ray hitting it; the height part is false on the lower half, where the code clamps z / radius to [0,1] (C60)"
],
"C115": [
"partial",
"proved in exact arithmetic for scenes whose transforms have a diagonal linear part (C115_range_partial, C115_cull_partial); refuted for rotated primitives (C115_rotated_refuted: map_bbox is wrong, C41) and on f32 for a ray grazing a sphere (C115_graze_refuted); on floats proved for spheres and boxes grown by an explicit margin (C115_near_partial, C115_grown_partial)"
],
"C116": [
"proved",
"complements C94_refuted: with z = radius the code leaks; the margins are explicit"
],
"C117": [
"proved",
"an absolute term in eta (half the smallest subnormal) covers underflow of the products"
],
"C118": [
"proved",
"float counterpart of C42"
],
"C119": [
"proved",
"u = half an ulp of 1; margins are explicit (objSize, objMargin); reported p is in object space (C67)"
],
"C120": [
"proved",
"u = half an ulp of 1; the squared direction must not exceed u/eta (about 2^125 for f32)"
],
"C121": [
"proved",
"the exception for boxes is real: C121_box_mirror_refuted (a ray in the lower face is missed, in the upper face it hits)"
],
"C122": [
"proved",
"the condition on underflow is needed for spheres: C122_sphere_refuted (radius 2^-76 in f32, factor 2^20)"
],
"C123": [
"proved",
"without the condition on products it is false: C123_refuted (the float product (-1)*(-3) = 3 is not in [-1,2]*[-3,1])"
],
"C124": [
"proved",
"the distance condition is needed: C124_refuted (an f32 box of thickness 1/2 seen from 2^24 away reports the face on its far side, normal along the ray); the origin outside the box by more than the margin gives t_ray > 0 (C124_outside)"
],
"C125": [
"proved",
"the lower half is excluded because the code computes theta from clamp(z/r, 0, 1) (C61_refuted); C125_pole shows that the distance from the axis cannot be dropped; the underflow conditions of ShadeRegular only exclude hits with rho R below about 1e-18"
],
"C126": [
"proved",
"the conditions of C102 and C92 are required of the ray that reaches the shape; underflow in the maps is covered by a padding of eta(1+|t|)/u in the sizes; C126_origin and C126_none hold for every scalar type; which of several hits a list reports is C64/C91"
],
"C127": [
"proved",
"z² instead of z is the error of C40; C127_refuted shows it on f32; the defect of the stored inverse is bounded by C110 and C103"
],
"C128": [
"proved",
"decidedness is needed: C128_refuted (if 1 < 1 + 2^-25 { v = 3 } on f32: the interval test is false because undecided, the exact test is true, and the exact result 3 is not in the final interval [1,1])"
],
"C129": [
"proved",
"the condition on products is needed: C129_refuted (scaling by [-1,2] after scaling by [-3,1] does not contain scaling by -1 after scaling by -3); vectors and rays of intervals cannot be mapped at all (C43)"
],
"C130": [
"proved",
"exact arithmetic; the distance must not exceed Float::highest(); which member of a list is reported is the subject of C64; the slopes of the pyramid are a quarter of what fov says (C74)"
],
"C131": [
"proved",
"sizes, slack and margins are defined from the exact camera ray; the size of the camera ray includes the numbers of roundings of C112 and C113 (lens point and direction); a hit is that of some shape of the scene, not of the nearest one (C64); the exact camera is the one the code describes (C72, C74)"
],
"C132": [
"proved",
"exact arithmetic; film positions in camera units, the film being tan(fov/2)/2 image distances wide (C74); that the plane of focus is at focal_distance - d and not at focal_distance is C72"
],
"C133": [
"proved",
"the rounding of one operation is 12 (u M + eta), u the unit roundoff and eta half the smallest float; the enclosure and float corollaries also need that no two straddling intervals are multiplied (C12, C123); without the condition on abs it is false: C133_refuted_abs (|[x,x]| = [0,-x] for every negative x, however small the input)"
],
"C134": [
"proved",
"a reversed interval, which Interval::new accepts in a release build, is less than itself: C134_exact says these are the only ones, C134_refuted_reversed gives one"
],
"C135": [
"proved",
"reordering can change which hit is reported, because the last one hit wins (C64): C135_refuted_order"
],
"C136": [
"proved",
"also fixes the handedness of look_at, which C38 leaves open; the doc comment's 'the origin is mapped to pos' holds of map_inverse only: C136_origin, C136_refuted_doc"
],
"C137": [
"proved",
"converse of C34; extends every claim about transforms built from the constructors to all transforms with a correct inverse"
],
"C138": [
"proved",
"the law scale(u)*scale(v) == scale(u*v) fails on floats in the inverse matrix: C138_float_scale_refuted"
],
"C139": [
"proved",
"strengthens C39: the frustum property pins the transform down"
],
"C140": [
"proved",
"the exception is real (C140_refuted) and exact (C140_sharp)"
],
"C141": [
"proved",
"exact arithmetic; on floats the answer can differ within rounding of an edge (C141_float_refuted, bounded by C92, C102)"
],
"C142": [
"proved",
"exact arithmetic; floats: C120, C124. Lists do not report the first hit (C64_refuted); C142_shorten shows do_intersect still determines it"
],
"C143": [
"proved",
"the factor 4 is the error of C74; C143_refuted: with equal fields of view the pictures never agree"
],
"C144": [
"proved",
"the exception for products is needed: C144_refuted, C144_sign_refuted ([-1,1]*[-1,2] has another upper bound than [-1,2]*[-1,1])"
],
"C145": [
"proved",
"exact arithmetic; the reported hit is the object-space one (C67), which is why it is identical"
],
"C146": [
"proved",
"the panics of the integer operators are those of the language reference; the functions are the generic ones of the model, run on computations that may panic"
],
"C147": [
"proved",
"C147_origin holds for every scalar type; C147_finite_refuted is the concrete panic with a finite direction"
],
"C148": [
"proved",
"C148_empty_refuted is the inverted box that overlaps a box around its bounds"
],
"C149": [
"proved",
"the conditions are a flag computed along with the run (Spec/Cert.lean); without them the enclosure is false (C12, C17, C24)"
],
"C150": [
"proved",
"the conditions are a flag computed along with the run (Spec/Cert.lean); compare C129, where the exact side of a singular matrix is 1/0 = 0"
],
"C151": [
"proved",
"u = half an ulp of 1, eta = half the least positive float; within the margin the answers do differ (C141_float_refuted); C151_nested_* cover transforms, with the factors of C126"
],
"C152": [
"proved",
"a ray parallel to a face counts as inside on the upper face only (C53); this half-open rule is what keeps cuts watertight; the cut may touch the upper face but not the lower one"
],
"C153": [
"proved",
"PrimitiveList::intersect of the zones can still report the farther hit, because the list keeps the last one (C64)"
],
"C154": [
"proved",
"C154_self_f32 and C154_fast_refuted are concrete witnesses; the float part covers untransformed objects in nested lists (transformed ones: C151 with a margin)"
],
"C155": [
"proved",
"about do_intersect: the hit a list reports can get farther when a member is added, because the list keeps the last one (C64); a larger radius is not an enlargement, because spheres are surfaces"
],
"C156": [
"proved",
"complements C24 and C25: where those fail the results are too small, never too large; the rounding of one operation is that of C133"
],
"C157": [
"proved",
"the counterpart of the containment claims (C59, C68); transforms that mix axes are excluded, their boxes need not even contain the moved scene (C41, C68)"
],
"C158": [
"proved",
"extends C115 and C140 from one box to hierarchies; the two failures are C158_rotated_refuted and C158_graze_refuted; there is no hierarchy in the library, the node (Primitive.guardedBy) is part of the specification"
],
"C159": [
"proved",
"exact arithmetic; the failure of uniform_sample_disk is C159_uniform_refuted"
],
"C160": [
"proved",
"generalises the repository's square_root_test; the case of 0 is C160_zero_refuted"
],
"C161": [
"proved",
"the concrete case is the map of the repository's division_test"
],
"C162": [
"proved",
"the condition on tiny vectors is necessary: C162_tiny_refuted"
],
"C163": [
"proved",
"C163_f32_refuted shows that equality cannot be claimed for all angles"
],
"C164": [
"proved",
"C164_laws_refuted gives the inputs for the two laws that fail"
],
"C165": [
"proved",
"the conditions are necessary: C165_refuted"
],
"C166": [
"proved",
"C166_refuted gives the two laws that fail"
],
"C167": [
"proved",
"C167_refuted shows the two limits"
],
"C168": [
"proved",
"C168_refuted shows that other points need not come back exactly"
]
}
