{
 "claims": [
  {
   "property": "C01",
   "status": "proved",
   "theorems": [
    "Scarlet.C01_next_up",
    "Scarlet.C01_next_up_fixed",
    "Scarlet.C01_f32",
    "Scarlet.C01_f64"
   ],
   "note": "Every format with lawful constants, hence f32 and f64 (literal bit code)."
  },
  {
   "property": "C02",
   "status": "proved",
   "theorems": [
    "Scarlet.C02_next_down",
    "Scarlet.C02_next_down_fixed",
    "Scarlet.C02_f32",
    "Scarlet.C02_f64"
   ],
   "note": ""
  },
  {
   "property": "C03",
   "status": "proved",
   "theorems": [
    "Scarlet.C03_down_up",
    "Scarlet.C03_up_down",
    "Scarlet.C03_mirror"
   ],
   "note": ""
  },
  {
   "property": "C04",
   "status": "proved",
   "theorems": [
    "Scarlet.C04_add",
    "Scarlet.C04_sub",
    "Scarlet.C04_mul",
    "Scarlet.C04_div",
    "Scarlet.C04_sqrt"
   ],
   "note": ""
  },
  {
   "property": "C05",
   "status": "proved",
   "theorems": [
    "Scarlet.C05_min_max",
    "Scarlet.C05_minMax",
    "Scarlet.C05_clamp",
    "Scarlet.C05_in_range",
    "Scarlet.C05_nan",
    "Scarlet.C05_total_order"
   ],
   "note": ""
  },
  {
   "property": "C06",
   "status": "partial",
   "theorems": [
    "Scarlet.C06_exact",
    "Scarlet.C06_symm",
    "Scarlet.C06_nan",
    "Scarlet.C06_refl_partial",
    "Scarlet.C06_not_refl",
    "Scarlet.C06_sound",
    "Scarlet.C06_complete",
    "Scarlet.C06_tolerances"
   ],
   "note": "Refuted for infinities (fequals(inf,inf) is false: C06_not_refl); symmetry and NaN behaviour in full, reflexivity and both tolerance directions for finite floats.; C06_exact: reflexive exactly at the finite floats"
  },
  {
   "property": "C07",
   "status": "partial",
   "theorems": [
    "Scarlet.C07_is_infinite_inverted",
    "Scarlet.C07_refuted",
    "Scarlet.C07_classify_partial",
    "Scarlet.C07_isNaN_bits"
   ],
   "note": "Refuted: is_infinite returns is_finite (C07_refuted, C07_is_infinite_inverted); the other classifiers are proved correct."
  },
  {
   "property": "C08",
   "status": "proved",
   "theorems": [
    "Scarlet.C08_unsigned",
    "Scarlet.C08_signed",
    "Scarlet.C08_float"
   ],
   "note": ""
  },
  {
   "property": "C09",
   "status": "proved",
   "theorems": [
    "Scarlet.C09_to_i64",
    "Scarlet.C09_to_i64_special",
    "Scarlet.C09_roundtrip_f32",
    "Scarlet.C09_roundtrip_f64",
    "Scarlet.C09_widen",
    "Scarlet.C09_widen_narrow",
    "Scarlet.C09_narrow_faithful"
   ],
   "note": ""
  },
  {
   "property": "C10",
   "status": "partial",
   "theorems": [
    "Scarlet.C10_f64",
    "Scarlet.C10_f32_upper_wrong",
    "Scarlet.C10_f32_partial"
   ],
   "note": "Proved for f64; for f32 the upper constants are below the true values (C10_f32_upper_wrong); f32 lower constants proved."
  },
  {
   "property": "C11",
   "status": "proved",
   "theorems": [
    "Scarlet.C11_add",
    "Scarlet.C11_sub",
    "Scarlet.C11_add_scalar",
    "Scarlet.C11_sub_scalar"
   ],
   "note": "f32 and f64 (any lawful format), infinite and overflowing bounds included"
  },
  {
   "property": "C12",
   "status": "partial",
   "theorems": [
    "Scarlet.C12_mul_partial",
    "Scarlet.C12_mul_finite_partial",
    "Scarlet.C12_straddle_lower_partial",
    "Scarlet.C12_refuted_straddle",
    "Scarlet.C12_refuted_nan",
    "Scarlet.C12_straddle_exact"
   ],
   "note": "proved unless both operands straddle zero or a bound is NaN (0*inf); false in those two cases (C12_refuted_straddle, C12_refuted_nan); the lower bound is right also when both straddle; C12_straddle_exact says for which straddling pairs the product is right"
  },
  {
   "property": "C13",
   "status": "partial",
   "theorems": [
    "Scarlet.C13_exact",
    "Scarlet.C13_mul_scalar_partial",
    "Scarlet.C13_refuted"
   ],
   "note": "proved for finite intervals, and for unbounded ones times a nonzero float; false for an unbounded interval times zero (C13_refuted); C13_exact: encloses if and only if the interval is finite or the float is not zero"
  },
  {
   "property": "C14",
   "status": "proved",
   "theorems": [
    "Scarlet.C14_div",
    "Scarlet.C14_div_by_zero"
   ],
   "note": "any divisor interval; whole line when it contains zero"
  },
  {
   "property": "C15",
   "status": "proved",
   "theorems": [
    "Scarlet.C15_div_scalar",
    "Scarlet.C15_div_scalar_zero"
   ],
   "note": ""
  },
  {
   "property": "C16",
   "status": "proved",
   "theorems": [
    "Scarlet.C16_square",
    "Scarlet.C16_square_straddle",
    "Scarlet.C16_trait"
   ],
   "note": ""
  },
  {
   "property": "C17",
   "status": "partial",
   "theorems": [
    "Scarlet.C17_sqrt_partial",
    "Scarlet.C17_sqrt_trait_partial",
    "Scarlet.C17_refuted",
    "Scarlet.C17_exact"
   ],
   "note": "proved for inf >= 0; false when the interval reaches below zero (NaN lower bound, C17_refuted); C17_exact: encloses if and only if inf >= 0"
  },
  {
   "property": "C18",
   "status": "proved",
   "theorems": [
    "Scarlet.C18_neg",
    "Scarlet.C18_neg_exact",
    "Scarlet.C18_abs",
    "Scarlet.C18_abs_nonneg",
    "Scarlet.C18_min",
    "Scarlet.C18_max",
    "Scarlet.C18_union",
    "Scarlet.C18_intersect",
    "Scarlet.C18_hull",
    "Scarlet.C18_abs_below"
   ],
   "note": "neg, abs, min, max, union, intersect; minimum, maximum and negation give exactly the range (C18_hull)"
  },
  {
   "property": "C19",
   "status": "partial",
   "theorems": [
    "Scarlet.C19_eq_scalar",
    "Scarlet.C19_gt_scalar",
    "Scarlet.C19_none_scalar",
    "Scarlet.C19_lt",
    "Scarlet.C19_gt",
    "Scarlet.C19_eq",
    "Scarlet.C19_lt_scalar",
    "Scarlet.C19_doc_refuted"
   ],
   "note": "certain-comparison reading proved; the documented reading of == (same bounds) is false (C19_doc_refuted)"
  },
  {
   "property": "C20",
   "status": "partial",
   "theorems": [
    "Scarlet.C20_unbounded",
    "Scarlet.C20_sqrt_exact",
    "Scarlet.C20_mul_scalar_exact",
    "Scarlet.C20_assert_iff",
    "Scarlet.C20_no_panic_partial",
    "Scarlet.C20_refuted_sqrt"
   ],
   "note": "proved for all operations except sqrt below zero, where the assertion fails (C20_refuted_sqrt); C20_unbounded removes the finiteness assumption where possible; C20_sqrt_exact and C20_mul_scalar_exact say exactly when those two panic"
  },
  {
   "property": "C21",
   "status": "proved",
   "theorems": [
    "Scarlet.C21_approx",
    "Scarlet.C21_approx_from"
   ],
   "note": ""
  },
  {
   "property": "C22",
   "status": "proved",
   "theorems": [
    "Scarlet.C22_contains",
    "Scarlet.C22_in_range",
    "Scarlet.C22_signs",
    "Scarlet.C22_is_same",
    "Scarlet.C22_is_exact"
   ],
   "note": ""
  },
  {
   "property": "C23",
   "status": "partial",
   "theorems": [
    "Scarlet.C23_partial",
    "Scarlet.C23_mulfree_partial",
    "Scarlet.C23_refuted"
   ],
   "note": "induction over all expression trees under the side conditions of C12/C13 at each product; unconditional without products; false in general (C23_refuted)"
  },
  {
   "property": "C24",
   "status": "partial",
   "theorems": [
    "Scarlet.C24_sin_partial",
    "Scarlet.C24_cos_partial",
    "Scarlet.C24_sin_cos_tan_partial",
    "Scarlet.C24_refuted_sin",
    "Scarlet.C24_refuted_cos",
    "Scarlet.C24_sin_exact",
    "Scarlet.C24_cos_exact"
   ],
   "note": "proved for every accurate libm and every interval except width in (pi,2pi) with equal endpoint derivative signs (or cosine starting at 0); both full claims refuted; C24_sin_exact and C24_cos_exact: for finite intervals the excluded cases are exactly those where enclosure fails"
  },
  {
   "property": "C25",
   "status": "partial",
   "theorems": [
    "Scarlet.C25_asin_partial",
    "Scarlet.C25_acos_partial",
    "Scarlet.C25_atan",
    "Scarlet.C25_atan2_right_partial",
    "Scarlet.C25_asin_acos_f64_partial",
    "Scarlet.C25_atan2_f64_partial",
    "Scarlet.C25_refuted_asin_acos",
    "Scarlet.C25_refuted_atan2",
    "Scarlet.C25_refuted_atan2_f32"
   ],
   "note": "atan proved for all intervals; atan2 proved for f64 in all quadrants unless an argument interval is exactly zero; asin/acos proved for x >= 0 (f64) with an exact characterisation for any format; refuted for asin/acos of negatives, for atan2 with an exact zero, and for f32 atan2"
  },
  {
   "property": "C26",
   "status": "partial",
   "theorems": [
    "Scarlet.C26_exact",
    "Scarlet.C26_constants_f64",
    "Scarlet.C26_refuted_f32",
    "Scarlet.C26_from_i64_partial",
    "Scarlet.C26_refuted_i64",
    "Scarlet.C26_refuted_f64",
    "Scarlet.C26_from"
   ],
   "note": "f64 constants, exactly representable integers and own-format floats proved; f32 constants, large integers and f64->f32 refuted; C26_exact: a conversion encloses its source if and only if the source is a value of the target format"
  },
  {
   "property": "C27",
   "status": "partial",
   "theorems": [
    "Scarlet.C27_add_sub",
    "Scarlet.C27_scale",
    "Scarlet.C27_div",
    "Scarlet.C27_mul_partial",
    "Scarlet.C27_square_partial",
    "Scarlet.C27_refuted_mul",
    "Scarlet.C27_refuted_square",
    "Scarlet.C27_mul_lower",
    "Scarlet.C27_mul_straddle_partial",
    "Scarlet.C27_mul_exact",
    "Scarlet.C27_square_exact"
   ],
   "note": "proved for + - / neg and scalar variants, for * unless both outer operands straddle, for square unless the outer operand straddles; refuted in those cases, where C27_mul_straddle_partial (inner operands both straddle: still monotone), C27_mul_exact and C27_square_exact say exactly when it holds; the lower bound of products is always monotone (C27_mul_lower)"
  },
  {
   "property": "C28",
   "status": "proved",
   "theorems": [
    "Scarlet.C28",
    "Scarlet.C28_square",
    "Scarlet.C28_sqrt"
   ],
   "note": "also for products (not both straddling) and quotients (0 not in divisor); also squares and square roots"
  },
  {
   "property": "C29",
   "status": "proved",
   "theorems": [
    "Scarlet.C29_distance",
    "Scarlet.C29_metric",
    "Scarlet.C29_cross_anticomm",
    "Scarlet.C29_cross_orthogonal",
    "Scarlet.C29_lagrange",
    "Scarlet.C29_dot_comm",
    "Scarlet.C29_dot_linear",
    "Scarlet.C29_squareNorm_dot",
    "Scarlet.C29_spec",
    "Scarlet.C29_normalize"
   ],
   "note": "proved for every input (exact arithmetic over the reals / every commutative ring, see DESIGN.md)"
  },
  {
   "property": "C30",
   "status": "proved",
   "theorems": [
    "Scarlet.C30_affine",
    "Scarlet.C30_conv"
   ],
   "note": "proved for every input (exact arithmetic over the reals / every commutative ring, see DESIGN.md)"
  },
  {
   "property": "C31",
   "status": "proved",
   "theorems": [
    "Scarlet.C31_min_max"
   ],
   "note": "proved for every float and real vector"
  },
  {
   "property": "C32",
   "status": "proved",
   "theorems": [
    "Scarlet.C32_mul_spec",
    "Scarlet.C32_mul_assoc",
    "Scarlet.C32_identity",
    "Scarlet.C32_transpose",
    "Scarlet.C32_scalar",
    "Scarlet.C32_rows_cols"
   ],
   "note": "proved for every input (exact arithmetic over the reals / every commutative ring, see DESIGN.md)"
  },
  {
   "property": "C33",
   "status": "proved",
   "theorems": [
    "Scarlet.C33_inverse",
    "Scarlet.C33_inverse_spec"
   ],
   "note": "proved for every input (exact arithmetic over the reals / every commutative ring, see DESIGN.md)"
  },
  {
   "property": "C34",
   "status": "proved",
   "theorems": [
    "Scarlet.C34_reachable",
    "Scarlet.C34_orthogonal_basis"
   ],
   "note": "proved for every input (exact arithmetic over the reals / every commutative ring, see DESIGN.md)"
  },
  {
   "property": "C35",
   "status": "proved",
   "theorems": [
    "Scarlet.C35_point",
    "Scarlet.C35_vector",
    "Scarlet.C35_ray",
    "Scarlet.C35_inverse"
   ],
   "note": "proved for every input (exact arithmetic over the reals / every commutative ring, see DESIGN.md)"
  },
  {
   "property": "C36",
   "status": "proved",
   "theorems": [
    "Scarlet.C36_point",
    "Scarlet.C36_vector",
    "Scarlet.C36_affine",
    "Scarlet.C36_inverse",
    "Scarlet.C36_inverse_mul"
   ],
   "note": "proved for every input (exact arithmetic over the reals / every commutative ring, see DESIGN.md)"
  },
  {
   "property": "C37",
   "status": "proved",
   "theorems": [
    "Scarlet.C37_rigid",
    "Scarlet.C37_angle",
    "Scarlet.C37_axis",
    "Scarlet.C37_add",
    "Scarlet.C37_det",
    "Scarlet.C37_agree"
   ],
   "note": "proved for every input (exact arithmetic over the reals / every commutative ring, see DESIGN.md)"
  },
  {
   "property": "C38",
   "status": "proved",
   "theorems": [
    "Scarlet.C38_pos",
    "Scarlet.C38_target",
    "Scarlet.C38_lengths",
    "Scarlet.C38_up"
   ],
   "note": "proved for every input (exact arithmetic over the reals / every commutative ring, see DESIGN.md)"
  },
  {
   "property": "C39",
   "status": "proved",
   "theorems": [
    "Scarlet.C39_formula",
    "Scarlet.C39_frustum"
   ],
   "note": "proved for every input (exact arithmetic over the reals / every commutative ring, see DESIGN.md)"
  },
  {
   "property": "C40",
   "status": "partial",
   "theorems": [
    "Scarlet.C40_exact",
    "Scarlet.C40_normal_partial",
    "Scarlet.C40_tangent_partial",
    "Scarlet.C40_refuted"
   ],
   "note": "proved for normals with z in {0,1}; the general claim is refuted (extra factor n.z in map_normal); C40_exact: right if and only if n.z is 0 or 1"
  },
  {
   "property": "C41",
   "status": "partial",
   "theorems": [
    "Scarlet.C41_inverse_exact",
    "Scarlet.C41_exact",
    "Scarlet.C41_bbox_partial",
    "Scarlet.C41_refuted"
   ],
   "note": "proved for affine transforms with diagonal linear part; the general claim is refuted (column sums instead of row sums); C41_exact: right if and only if the linear part is diagonal"
  },
  {
   "property": "C42",
   "status": "proved",
   "theorems": [
    "Scarlet.C42_map",
    "Scarlet.C42_map_inverse",
    "Scarlet.C42_affine_inverse"
   ],
   "note": "proved for every input (exact arithmetic over the reals / every commutative ring, see DESIGN.md)"
  },
  {
   "property": "C43",
   "status": "partial",
   "theorems": [
    "Scarlet.C43_float_exact",
    "Scarlet.C43_float_ray",
    "Scarlet.C43_affine",
    "Scarlet.C43_point",
    "Scarlet.C43_vector",
    "Scarlet.C43_float",
    "Scarlet.C43_float_affine",
    "Scarlet.C43_interval_vector_panics",
    "Scarlet.C43_interval_ray_panics",
    "Scarlet.C43_refuted",
    "Scarlet.C43_interval_point"
   ],
   "note": "exact and float parts proved (floats: a vector panics iff an image component is not finite); the interval part is refuted: mapping any interval vector or ray panics"
  },
  {
   "property": "C44",
   "status": "proved",
   "theorems": [
    "Scarlet.C44_inside",
    "Scarlet.C44_inside_nan",
    "Scarlet.C44_contains",
    "Scarlet.C44_symm",
    "Scarlet.C44_least"
   ],
   "note": "every float format"
  },
  {
   "property": "C45",
   "status": "proved",
   "theorems": [
    "Scarlet.C45_contains",
    "Scarlet.C45_laws",
    "Scarlet.C45_least",
    "Scarlet.C45_add"
   ],
   "note": "every float format"
  },
  {
   "property": "C46",
   "status": "proved",
   "theorems": [
    "Scarlet.C46_intersect"
   ],
   "note": "every float format"
  },
  {
   "property": "C47",
   "status": "proved",
   "theorems": [
    "Scarlet.C47_symm",
    "Scarlet.C47_overlaps",
    "Scarlet.C47_common"
   ],
   "note": "every float format"
  },
  {
   "property": "C48",
   "status": "proved",
   "theorems": [
    "Scarlet.C48_empty",
    "Scarlet.C48_neutral"
   ],
   "note": "every float format"
  },
  {
   "property": "C49",
   "status": "proved",
   "theorems": [
    "Scarlet.C49_center",
    "Scarlet.C49_exact"
   ],
   "note": "floats (with rounding) and exact arithmetic"
  },
  {
   "property": "C50",
   "status": "proved",
   "theorems": [
    "Scarlet.C50_maxExtent",
    "Scarlet.C50_exact"
   ],
   "note": "floats with finite bounds and exact arithmetic"
  },
  {
   "property": "C51",
   "status": "proved",
   "theorems": [
    "Scarlet.C51_some_iff",
    "Scarlet.C51_range"
   ],
   "note": "exact arithmetic"
  },
  {
   "property": "C52",
   "status": "proved",
   "theorems": [
    "Scarlet.C52_range"
   ],
   "note": "every float input"
  },
  {
   "property": "C53",
   "status": "partial",
   "theorems": [
    "Scarlet.C53_origin_inside_partial",
    "Scarlet.C53_parallel_partial",
    "Scarlet.C53_refuted",
    "Scarlet.C53_blocked",
    "Scarlet.C53_hit_partial",
    "Scarlet.C53_range"
   ],
   "note": "proved for origins strictly inside and for unbounded axis-parallel rays strictly between the faces; refuted for rays within a pmin face; C53_blocked: every bounded ray within a pmin face (or outside) is rejected; C53_hit_partial/C53_range: all other rays parallel to faces are classified as in exact arithmetic, up to the margin of C92 along the other axes"
  },
  {
   "property": "C54",
   "status": "partial",
   "theorems": [
    "Scarlet.C54_hit",
    "Scarlet.C54_face",
    "Scarlet.C54_genuine_partial",
    "Scarlet.C54_refuted",
    "Scarlet.C54_tangents",
    "Scarlet.C54_exact"
   ],
   "note": "everything proved except that dpdu x dpdv = -n (refuted as stated) and that the point lies on the ray when the origin is inside the box (refuted); C54_exact: the point is on the ray if and only if the ray does not start strictly inside"
  },
  {
   "property": "C55",
   "status": "proved",
   "theorems": [
    "Scarlet.C55_none_iff",
    "Scarlet.C55_roots",
    "Scarlet.C55_degenerate"
   ],
   "note": "exact arithmetic; the degenerate case b = d = 0 stated separately (the second root is 0/0)"
  },
  {
   "property": "C56",
   "status": "proved",
   "theorems": [
    "Scarlet.C56_hit_float",
    "Scarlet.C56_on_sphere"
   ],
   "note": "floats: tmax and range; exact arithmetic: the point is on the sphere and on the ray"
  },
  {
   "property": "C57",
   "status": "proved",
   "theorems": [
    "Scarlet.C57_complete",
    "Scarlet.C57_first"
   ],
   "note": "exact arithmetic"
  },
  {
   "property": "C58",
   "status": "proved",
   "theorems": [
    "Scarlet.C58_agrees",
    "Scarlet.C58_sphere",
    "Scarlet.C58_bbox"
   ],
   "note": "every scene built from the three kinds of primitive"
  },
  {
   "property": "C59",
   "status": "proved",
   "theorems": [
    "Scarlet.C59_surface_in_bbox",
    "Scarlet.C59_hit_in_bbox"
   ],
   "note": "exact arithmetic"
  },
  {
   "property": "C60",
   "status": "partial",
   "theorems": [
    "Scarlet.C60_exact",
    "Scarlet.C60_upper_partial",
    "Scarlet.C60_wrong_below",
    "Scarlet.C60_refuted"
   ],
   "note": "proved for hits on the upper half; refuted below the equator (theta is clamped to [0,1]); C60_exact: if and only if z >= 0"
  },
  {
   "property": "C61",
   "status": "partial",
   "theorems": [
    "Scarlet.C61_exact",
    "Scarlet.C61_normal_partial",
    "Scarlet.C61_tangents_partial",
    "Scarlet.C61_pole",
    "Scarlet.C61_refuted"
   ],
   "note": "proved for hits on the upper half away from the pole; refuted below the equator and at the pole; C61_exact: off the poles the normal is right if and only if z >= 0"
  },
  {
   "property": "C62",
   "status": "partial",
   "theorems": [
    "Scarlet.C62_area_partial",
    "Scarlet.C62_refuted",
    "Scarlet.C62_full_sphere"
   ],
   "note": "what area() returns is proved for every partial sphere; equality with the area is refuted for every non-degenerate sphere (the full sphere gets half its area)"
  },
  {
   "property": "C63",
   "status": "proved",
   "theorems": [
    "Scarlet.C63_intersect",
    "Scarlet.C63_doIntersect",
    "Scarlet.C63_doIntersect_true"
   ],
   "note": ""
  },
  {
   "property": "C64",
   "status": "partial",
   "theorems": [
    "Scarlet.C64_exact",
    "Scarlet.C64_last_partial",
    "Scarlet.C64_nearest_partial",
    "Scarlet.C64_refuted"
   ],
   "note": "proved: the hit of the last member hit, every scalar type; nearest when later members are never hit farther away; refuted in general; C64_exact: nearest if and only if the last member hit is the nearest"
  },
  {
   "property": "C65",
   "status": "proved",
   "theorems": [
    "Scarlet.C65_contains",
    "Scarlet.C65_least",
    "Scarlet.C65_empty"
   ],
   "note": ""
  },
  {
   "property": "C66",
   "status": "proved",
   "theorems": [
    "Scarlet.C66_t_ray",
    "Scarlet.C66_surface"
   ],
   "note": "exact arithmetic"
  },
  {
   "property": "C67",
   "status": "partial",
   "theorems": [
    "Scarlet.C67_exact",
    "Scarlet.C67_object_space_partial",
    "Scarlet.C67_refuted"
   ],
   "note": "the object-space interaction is what is returned; refuted as stated; C67_exact says exactly when it is right"
  },
  {
   "property": "C68",
   "status": "partial",
   "theorems": [
    "Scarlet.C68_exact",
    "Scarlet.C68_diagonal_partial",
    "Scarlet.C68_refuted"
   ],
   "note": "proved for diagonal transforms; refuted in general; C68_exact: holds if and only if the linear part is diagonal"
  },
  {
   "property": "C69",
   "status": "proved",
   "theorems": [
    "Scarlet.C69_radius",
    "Scarlet.C69_into",
    "Scarlet.C69_onto",
    "Scarlet.C69_injective",
    "Scarlet.C69_float"
   ],
   "note": "exact arithmetic; with f32 and any libm accurate to one float: finite and within one float of [-1,1]"
  },
  {
   "property": "C70",
   "status": "proved",
   "theorems": [
    "Scarlet.C70_polar",
    "Scarlet.C70_into",
    "Scarlet.C70_onto",
    "Scarlet.C70_uniform",
    "Scarlet.C70_float"
   ],
   "note": "exact arithmetic, including area preservation; with f32: finite and within one float of [-1,1]"
  },
  {
   "property": "C71",
   "status": "proved",
   "theorems": [
    "Scarlet.C71_lens_equation",
    "Scarlet.C71_unique"
   ],
   "note": "exact arithmetic"
  },
  {
   "property": "C72",
   "status": "partial",
   "theorems": [
    "Scarlet.C72_common_partial",
    "Scarlet.C72_world_partial",
    "Scarlet.C72_refuted",
    "Scarlet.C72_exact"
   ],
   "note": "a common point is proved (camera and world space), but it lies on z = film_distance - focal_distance; refuted as stated; C72_exact: that height and no other"
  },
  {
   "property": "C73",
   "status": "partial",
   "theorems": [
    "Scarlet.C73_origin",
    "Scarlet.C73_whole_lens",
    "Scarlet.C73_tmax",
    "Scarlet.C73_unit_partial",
    "Scarlet.C73_new",
    "Scarlet.C73_refuted",
    "Scarlet.C73_exact"
   ],
   "note": "proved except that the direction has unit length when focal_distance = 2 focal_length, where it is refuted; C73_exact: unit directions if and only if film and focal distances differ"
  },
  {
   "property": "C74",
   "status": "partial",
   "theorems": [
    "Scarlet.C74_slope_partial",
    "Scarlet.C74_not_horizontal",
    "Scarlet.C74_refuted"
   ],
   "note": "the slope is tan(fov/2)/4; refuted as stated for every camera"
  },
  {
   "property": "C75",
   "status": "proved",
   "theorems": [
    "Scarlet.C75_mapPoint"
   ],
   "note": "every float format, all finite matrices and interval points"
  },
  {
   "property": "C76",
   "status": "proved",
   "theorems": [
    "Scarlet.C76_toInterval",
    "Scarlet.C76_ops",
    "Scarlet.C76_squareNorm"
   ],
   "note": "proved for floats of every format"
  },
  {
   "property": "C77",
   "status": "proved",
   "theorems": [
    "Scarlet.C77_uniform"
   ],
   "note": "exact arithmetic, Lebesgue measure"
  },
  {
   "property": "C78",
   "status": "proved",
   "theorems": [
    "Scarlet.C78_vec_iff",
    "Scarlet.C78_vec",
    "Scarlet.C78_vec_eq",
    "Scarlet.C78_mat_iff",
    "Scarlet.C78_mat",
    "Scarlet.C78_mat_eq",
    "Scarlet.C78_transform",
    "Scarlet.C78_interval",
    "Scarlet.C78_interval_scalar",
    "Scarlet.C78_int"
   ],
   "note": "generic iff plus float consequences"
  },
  {
   "property": "C79",
   "status": "partial",
   "theorems": [
    "Scarlet.C79_float",
    "Scarlet.C79_signum",
    "Scarlet.C79_nan",
    "Scarlet.C79_int_partial",
    "Scarlet.C79_abs_min"
   ],
   "note": "refuted for abs of the least integer of each signed type in a release build (C79_abs_min), where it stays negative; proved for every other integer and every float"
  },
  {
   "property": "C80",
   "status": "proved",
   "theorems": [
    "Scarlet.C80_units",
    "Scarlet.C80_recip",
    "Scarlet.C80_special",
    "Scarlet.C80_min_positive",
    "Scarlet.C80_pi_f32",
    "Scarlet.C80_pi_f64"
   ],
   "note": "f32 and f64"
  },
  {
   "property": "C81",
   "status": "proved",
   "theorems": [
    "Scarlet.C81_identity",
    "Scarlet.C81_translate",
    "Scarlet.C81_scale"
   ],
   "note": "every IEEE format with the model's laws, so f32 and f64"
  },
  {
   "property": "C82",
   "status": "proved",
   "theorems": [
    "Scarlet.C82_comm",
    "Scarlet.C82_cross",
    "Scarlet.C82_squareNorm",
    "Scarlet.C82_distance"
   ],
   "note": "every dimension, NaN and infinities included"
  },
  {
   "property": "C83",
   "status": "proved",
   "theorems": [
    "Scarlet.C83_dot",
    "Scarlet.C83_squareNorm"
   ],
   "note": "every dimension; u = 2^-(mw+1), eta = half the smallest subnormal"
  },
  {
   "property": "C84",
   "status": "partial",
   "theorems": [
    "Scarlet.C84_normalize_partial",
    "Scarlet.C84_unit_partial",
    "Scarlet.C84_refuted",
    "Scarlet.C84_exact",
    "Scarlet.C84_finite_iff"
   ],
   "note": "proved when the computed square_norm does not overflow and the exact one is at least 3*eta/u (3*2^-126 on f32), bounds 5u per component and 18u for the squared norm; false outside (C84_refuted). C84_exact and C84_finite_iff say what happens for all finite vectors of any dimension: not finite exactly if every square is at most half the smallest positive float, zero if the sum of squares overflows, otherwise finite with components at most 5/4; missing: a tight bound on the components in the underflow range, where none of a few ulps holds"
  },
  {
   "property": "C85",
   "status": "proved",
   "theorems": [
    "Scarlet.C85_point",
    "Scarlet.C85_vector"
   ],
   "note": "last row numerically 0 0 0 1"
  },
  {
   "property": "C86",
   "status": "proved",
   "theorems": [
    "Scarlet.C86_eval"
   ],
   "note": ""
  },
  {
   "property": "C87",
   "status": "partial",
   "theorems": [
    "Scarlet.C87_linear",
    "Scarlet.C87_scale",
    "Scarlet.C87_squareNorm",
    "Scarlet.C87_norm",
    "Scarlet.C87_dot_partial",
    "Scarlet.C87_cross_partial",
    "Scarlet.C87_from",
    "Scarlet.C87_norm_refuted",
    "Scarlet.C87_dot_refuted"
   ],
   "note": "all but norm and the dot/cross of straddling components; norm encloses iff the lower bound of square_norm is not negative (C87_norm); false for the zero vector (C87_norm_refuted) and for straddling components (C87_dot_refuted)"
  },
  {
   "property": "C88",
   "status": "proved",
   "theorems": [
    "Scarlet.C88_index",
    "Scarlet.C88_index_mut",
    "Scarlet.C88_assign_laws",
    "Scarlet.C88_xyzw",
    "Scarlet.C88_new",
    "Scarlet.C88_matrix",
    "Scarlet.C88_model",
    "Scarlet.C88_matrix_mut"
   ],
   "note": "every dimension and element type"
  },
  {
   "property": "C89",
   "status": "partial",
   "theorems": [
    "Scarlet.C89_panic_iff",
    "Scarlet.C89_panic",
    "Scarlet.C89_no_panic_partial",
    "Scarlet.C89_refuted"
   ],
   "note": "refuted as stated: C89_refuted (object at twice the focal length) and C89_panic; C89_panic_iff says exactly when it panics, C89_no_panic_partial that it does not (and the direction is unit up to 9u) when the squared distance to the focus neither overflows nor underflows"
  },
  {
   "property": "C90",
   "status": "proved",
   "theorems": [
    "Scarlet.C90_negative",
    "Scarlet.C90_scene"
   ],
   "note": "every scene, floats"
  },
  {
   "property": "C91",
   "status": "proved",
   "theorems": [
    "Scarlet.C91_scene",
    "Scarlet.C91_sharp",
    "Scarlet.C91_list_not_sharp"
   ],
   "note": "every scene, floats; a list reports its last hit, so the converse holds for spheres, boxes and transforms only (C91_list_not_sharp)"
  },
  {
   "property": "C92",
   "status": "proved",
   "theorems": [
    "Scarlet.C92_hit",
    "Scarlet.C92_range"
   ],
   "note": "finite slab quotients, in particular no zero direction component (those cases are C52, C53)"
  },
  {
   "property": "C93",
   "status": "proved",
   "theorems": [
    "Scarlet.C93_inside",
    "Scarlet.C93_order",
    "Scarlet.C93_grouping"
   ],
   "note": "floats, no hypotheses"
  },
  {
   "property": "C94",
   "status": "partial",
   "theorems": [
    "Scarlet.C94_exact_partial",
    "Scarlet.C94_refuted"
   ],
   "note": "proved in exact arithmetic; false on f32 (C94_refuted: radius 0.1, ray from the centre); C116: with a z range enlarged by an explicit margin it holds on floats"
  },
  {
   "property": "C95",
   "status": "proved",
   "theorems": [
    "Scarlet.C95_scene"
   ],
   "note": "exact arithmetic"
  },
  {
   "property": "C96",
   "status": "proved",
   "theorems": [
    "Scarlet.C96_componentwise",
    "Scarlet.C96_assign",
    "Scarlet.C96_model",
    "Scarlet.C96_sums",
    "Scarlet.C96_almost_eq",
    "Scarlet.C96_matMul"
   ],
   "note": "every dimension and scalar type"
  },
  {
   "property": "C97",
   "status": "proved",
   "theorems": [
    "Scarlet.C97_slopes",
    "Scarlet.C97_upright"
   ],
   "note": "exact arithmetic"
  },
  {
   "property": "C98",
   "status": "proved",
   "theorems": [
    "Scarlet.C98_unsigned",
    "Scarlet.C98_signed"
   ],
   "note": "all eight integer types, wrapping arithmetic (release build)"
  },
  {
   "property": "C99",
   "status": "partial",
   "theorems": [
    "Scarlet.C99_constants",
    "Scarlet.C99_infinite",
    "Scarlet.C99_extremes",
    "Scarlet.C99_classify",
    "Scarlet.C99_is_infinite_inverted",
    "Scarlet.C99_refuted",
    "Scarlet.C99_next",
    "Scarlet.C99_to_float"
   ],
   "note": "is_infinite is refuted (C99_refuted; C99_is_infinite_inverted says what it computes); everything else proved"
  },
  {
   "property": "C100",
   "status": "partial",
   "theorems": [
    "Scarlet.C100_refuted",
    "Scarlet.C100_scene_partial"
   ],
   "note": "proved by induction over scenes whose transforms have a diagonal linear part and whose boxes are met regularly; refuted in general by C68_refuted and characterised by C41_exact/C68_exact (a transform with an off-diagonal entry loses hits); C100_refuted without the restriction to diagonal transforms"
  },
  {
   "property": "C101",
   "status": "partial",
   "theorems": [
    "Scarlet.C101_backward_partial",
    "Scarlet.C101_none_partial",
    "Scarlet.C101_refuted_underflow",
    "Scarlet.C101_refuted_overflow"
   ],
   "note": "proved when b² and ac are zero or normal and the two roots are finite, for formats like f32 and f64 (at least 9 bits of fraction, wide enough exponent): computed roots within 11u of those of an equation with b, c perturbed by u and 3u; refuted for underflowing and overflowing coefficients"
  },
  {
   "property": "C102",
   "status": "partial",
   "theorems": [
    "Scarlet.C102_refuted",
    "Scarlet.C102_hit_partial",
    "Scarlet.C102_miss_partial"
   ],
   "note": "proved absent overflow and underflow (SphereRegular, finite roots, normal distance): residual at most 64u (exact point) or 80u (reported point) times the squared lengths; misses correct to 32u; C102_refuted without the proviso (overflow at 2^70)"
  },
  {
   "property": "C103",
   "status": "proved",
   "theorems": [
    "Scarlet.C103_affine",
    "Scarlet.C103_affine_vector",
    "Scarlet.C103_translate",
    "Scarlet.C103_scale",
    "Scarlet.C103_rotate"
   ],
   "note": "last row numerically 0 0 0 1; rotations assume libm accurate to one float and a format of at least 9 mantissa bits"
  },
  {
   "property": "C104",
   "status": "proved",
   "theorems": [
    "Scarlet.C104_point",
    "Scarlet.C104_vector",
    "Scarlet.C104_affine",
    "Scarlet.C104_transform"
   ],
   "note": "last row numerically 0 0 0 1, finite product entries"
  },
  {
   "property": "C105",
   "status": "proved",
   "theorems": [
    "Scarlet.C105_rotateX",
    "Scarlet.C105_rotateY",
    "Scarlet.C105_rotateZ",
    "Scarlet.C105_total"
   ],
   "note": "assumes sin and cos accurate to one float; at least 9 mantissa bits"
  },
  {
   "property": "C106",
   "status": "proved",
   "theorems": [
    "Scarlet.C106_rotate",
    "Scarlet.C106_total"
   ],
   "note": "assumes sin and cos accurate to one float, at least 9 mantissa bits, and that the squared length of the axis neither overflows nor underflows"
  },
  {
   "property": "C107",
   "status": "proved",
   "theorems": [
    "Scarlet.C107_frame",
    "Scarlet.C107_vectors",
    "Scarlet.C107_points",
    "Scarlet.C107_target"
   ],
   "note": "at least 9 mantissa bits; squared lengths of up and pos - target neither overflow nor underflow; sine of the angle between up and the viewing direction at least 128 units of rounding; finite translation"
  },
  {
   "property": "C108",
   "status": "proved",
   "theorems": [
    "Scarlet.C108_perspective",
    "Scarlet.C108_frustum"
   ],
   "note": "assumes tan accurate to one float at fov/2; at least 9 mantissa bits; matrix entries neither overflow nor underflow"
  },
  {
   "property": "C109",
   "status": "proved",
   "theorems": [
    "Scarlet.C109_map",
    "Scarlet.C109_inverse",
    "Scarlet.C109_tight",
    "Scarlet.C109_constructors",
    "Scarlet.C109_compose"
   ],
   "note": "matrices with zero off-diagonal linear part and finite entries; constructors and compositions shown to be such; general matrices are refuted in C41"
  },
  {
   "property": "C110",
   "status": "proved",
   "theorems": [
    "Scarlet.C110_inverse",
    "Scarlet.C110_norm"
   ],
   "note": "magnitudes are padded by a delta with eta <= u delta^4 so that underflow is covered; a version in terms of the largest entry is included"
  },
  {
   "property": "C111",
   "status": "proved",
   "theorems": [
    "Scarlet.C111_entries",
    "Scarlet.C111_unproject",
    "Scarlet.C111_roundtrip"
   ],
   "note": "libm tan assumed accurate to one float at fov/2; reciprocal and products inside the inverse assumed not to underflow; finite results assumed"
  },
  {
   "property": "C112",
   "status": "proved",
   "theorems": [
    "Scarlet.C112_concentric",
    "Scarlet.C112_disk",
    "Scarlet.C112_uniform",
    "Scarlet.C112_lens"
   ],
   "note": "f32 only (the double rounding of the constant 2.0 and of pi is evaluated for f32); sin and cos assumed accurate to one float; finite origin assumed for the lens part"
  },
  {
   "property": "C113",
   "status": "proved",
   "theorems": [
    "Scarlet.C113_film",
    "Scarlet.C113_direction"
   ],
   "note": "the exact film and ray are those the code computes in exact arithmetic, which are not the ones intended (see C72, C74); the direction on f32 only; sin and cos assumed accurate to one float, tan at the one argument used; the hypotheses are shown to hold for a concrete camera"
  },
  {
   "property": "C114",
   "status": "proved",
   "theorems": [
    "Scarlet.C114_range",
    "Scarlet.C114_azimuth",
    "Scarlet.C114_xy",
    "Scarlet.C114_height"
   ],
   "note": "assumes of the platform: atan2 within 6.3 units of rounding of an azimuth and not beyond the float pi, acos accurate to one float and decreasing on [0,1]; a libm with these properties is exhibited, as is a sphere with a ray hitting it; the height part is false on the lower half, where the code clamps z / radius to [0,1] (C60)"
  },
  {
   "property": "C115",
   "status": "partial",
   "theorems": [
    "Scarlet.C115_range_partial",
    "Scarlet.C115_cull_partial",
    "Scarlet.C115_rotated_refuted",
    "Scarlet.C115_graze_refuted",
    "Scarlet.C115_near_partial",
    "Scarlet.C115_grown_partial"
   ],
   "note": "proved in exact arithmetic for scenes whose transforms have a diagonal linear part (C115_range_partial, C115_cull_partial); refuted for rotated primitives (C115_rotated_refuted: map_bbox is wrong, C41) and on f32 for a ray grazing a sphere (C115_graze_refuted); on floats proved for spheres and boxes grown by an explicit margin (C115_near_partial, C115_grown_partial)"
  },
  {
   "property": "C116",
   "status": "proved",
   "theorems": [
    "Scarlet.C116_hit",
    "Scarlet.C116_closed"
   ],
   "note": "complements C94_refuted: with z = radius the code leaks; the margins are explicit"
  },
  {
   "property": "C117",
   "status": "proved",
   "theorems": [
    "Scarlet.C117_cross",
    "Scarlet.C117_perpendicular",
    "Scarlet.C117_norm",
    "Scarlet.C117_distance"
   ],
   "note": "an absolute term in eta (half the smallest subnormal) covers underflow of the products"
  },
  {
   "property": "C118",
   "status": "proved",
   "theorems": [
    "Scarlet.C118_map",
    "Scarlet.C118_map_inverse",
    "Scarlet.C118_commute"
   ],
   "note": "float counterpart of C42"
  },
  {
   "property": "C119",
   "status": "proved",
   "theorems": [
    "Scarlet.C119_box_hit",
    "Scarlet.C119_box_range",
    "Scarlet.C119_hit",
    "Scarlet.C119_miss"
   ],
   "note": "u = half an ulp of 1; margins are explicit (objSize, objMargin); reported p is in object space (C67)"
  },
  {
   "property": "C120",
   "status": "proved",
   "theorems": [
    "Scarlet.C120_line",
    "Scarlet.C120_first",
    "Scarlet.C120_miss"
   ],
   "note": "u = half an ulp of 1; the squared direction must not exceed u/eta (about 2^125 for f32)"
  },
  {
   "property": "C121",
   "status": "proved",
   "theorems": [
    "Scarlet.C121_box_permute",
    "Scarlet.C121_box_mirror",
    "Scarlet.C121_box_mirror_refuted",
    "Scarlet.C121_sphere_z",
    "Scarlet.C121_sphere_xy"
   ],
   "note": "the exception for boxes is real: C121_box_mirror_refuted (a ray in the lower face is missed, in the upper face it hits)"
  },
  {
   "property": "C122",
   "status": "proved",
   "theorems": [
    "Scarlet.C122_box",
    "Scarlet.C122_sphere",
    "Scarlet.C122_sphere_refuted"
   ],
   "note": "the condition on underflow is needed for spheres: C122_sphere_refuted (radius 2^-76 in f32, factor 2^20)"
  },
  {
   "property": "C123",
   "status": "proved",
   "theorems": [
    "Scarlet.C123_inside",
    "Scarlet.C123_error_bound",
    "Scarlet.C123_sqrt",
    "Scarlet.C123_ray_eval",
    "Scarlet.C123_mapPoint",
    "Scarlet.C123_refuted"
   ],
   "note": "without the condition on products it is false: C123_refuted (the float product (-1)*(-3) = 3 is not in [-1,2]*[-3,1])"
  },
  {
   "property": "C124",
   "status": "proved",
   "theorems": [
    "Scarlet.C124_outside",
    "Scarlet.C124_point",
    "Scarlet.C124_face",
    "Scarlet.C124_refuted"
   ],
   "note": "the distance condition is needed: C124_refuted (an f32 box of thickness 1/2 seen from 2^24 away reports the face on its far side, normal along the ray); the origin outside the box by more than the margin gives t_ray > 0 (C124_outside)"
  },
  {
   "property": "C125",
   "status": "proved",
   "theorems": [
    "Scarlet.C125_tangents",
    "Scarlet.C125_normal",
    "Scarlet.C125_unit",
    "Scarlet.C125_no_overflow",
    "Scarlet.C125_pole"
   ],
   "note": "the lower half is excluded because the code computes theta from clamp(z/r, 0, 1) (C61_refuted); C125_pole shows that the distance from the axis cannot be dropped; the underflow conditions of ShadeRegular only exclude hits with rho R below about 1e-18"
  },
  {
   "property": "C126",
   "status": "proved",
   "theorems": [
    "Scarlet.C126_origin",
    "Scarlet.C126_none",
    "Scarlet.C126_chain",
    "Scarlet.C126_box_hit",
    "Scarlet.C126_box_miss",
    "Scarlet.C126_box_range",
    "Scarlet.C126_sphere",
    "Scarlet.C126_sphere_miss"
   ],
   "note": "the conditions of C102 and C92 are required of the ray that reaches the shape; underflow in the maps is covered by a padding of eta(1+|t|)/u in the sizes; C126_origin and C126_none hold for every scalar type; which of several hits a list reports is C64/C91"
  },
  {
   "property": "C127",
   "status": "proved",
   "theorems": [
    "Scarlet.C127_rounding",
    "Scarlet.C127_transpose",
    "Scarlet.C127_tangent",
    "Scarlet.C127_refuted"
   ],
   "note": "z² instead of z is the error of C40; C127_refuted shows it on f32; the defect of the stored inverse is bounded by C110 and C103"
  },
  {
   "property": "C128",
   "status": "proved",
   "theorems": [
    "Scarlet.C128_run",
    "Scarlet.C128_error",
    "Scarlet.C128_refuted"
   ],
   "note": "decidedness is needed: C128_refuted (if 1 < 1 + 2^-25 { v = 3 } on f32: the interval test is false because undecided, the exact test is true, and the exact result 3 is not in the final interval [1,1])"
  },
  {
   "property": "C129",
   "status": "proved",
   "theorems": [
    "Scarlet.C129_real",
    "Scarlet.C129_float",
    "Scarlet.C129_undo",
    "Scarlet.C129_point",
    "Scarlet.C129_rotations",
    "Scarlet.C129_perspective",
    "Scarlet.C129_refuted"
   ],
   "note": "the condition on products is needed: C129_refuted (scaling by [-1,2] after scaling by [-3,1] does not contain scaling by -1 after scaling by -3); vectors and rays of intervals cannot be mapped at all (C43)"
  },
  {
   "property": "C130",
   "status": "proved",
   "theorems": [
    "Scarlet.C130_pixel",
    "Scarlet.C130_film",
    "Scarlet.C130_sphere",
    "Scarlet.C130_list",
    "Scarlet.C130_target"
   ],
   "note": "exact arithmetic; the distance must not exceed Float::highest(); which member of a list is reported is the subject of C64; the slopes of the pyramid are a quarter of what fov says (C74)"
  },
  {
   "property": "C131",
   "status": "proved",
   "theorems": [
    "Scarlet.C131_ray",
    "Scarlet.C131_chain",
    "Scarlet.C131_hit",
    "Scarlet.C131_miss_box",
    "Scarlet.C131_miss_sphere"
   ],
   "note": "sizes, slack and margins are defined from the exact camera ray; the size of the camera ray includes the numbers of roundings of C112 and C113 (lens point and direction); a hit is that of some shape of the scene, not of the nearest one (C64); the exact camera is the one the code describes (C72, C74)"
  },
  {
   "property": "C132",
   "status": "proved",
   "theorems": [
    "Scarlet.C132_lens",
    "Scarlet.C132_circle",
    "Scarlet.C132_sharp",
    "Scarlet.C132_grows",
    "Scarlet.C132_even"
   ],
   "note": "exact arithmetic; film positions in camera units, the film being tan(fov/2)/2 image distances wide (C74); that the plane of focus is at focal_distance - d and not at focal_distance is C72"
  },
  {
   "property": "C133",
   "status": "proved",
   "theorems": [
    "Scarlet.C133_width",
    "Scarlet.C133_limit",
    "Scarlet.C133_overestimate",
    "Scarlet.C133_forward",
    "Scarlet.C133_refuted_abs"
   ],
   "note": "the rounding of one operation is 12 (u M + eta), u the unit roundoff and eta half the smallest float; the enclosure and float corollaries also need that no two straddling intervals are multiplied (C12, C123); without the condition on abs it is false: C133_refuted_abs (|[x,x]| = [0,-x] for every negative x, however small the input)"
  },
  {
   "property": "C134",
   "status": "proved",
   "theorems": [
    "Scarlet.C134_float",
    "Scarlet.C134_interval",
    "Scarlet.C134_refuted_reversed",
    "Scarlet.C134_exact",
    "Scarlet.C134_scalar",
    "Scarlet.C134_ints",
    "Scarlet.C134_vectors",
    "Scarlet.C134_vectors_float"
   ],
   "note": "a reversed interval, which Interval::new accepts in a release build, is less than itself: C134_exact says these are the only ones, C134_refuted_reversed gives one"
  },
  {
   "property": "C135",
   "status": "proved",
   "theorems": [
    "Scarlet.C135_splice",
    "Scarlet.C135_single",
    "Scarlet.C135_duplicate",
    "Scarlet.C135_distribute",
    "Scarlet.C135_congr_list",
    "Scarlet.C135_congr_transformed",
    "Scarlet.C135_rearranged",
    "Scarlet.C135_order",
    "Scarlet.C135_refuted_order",
    "Scarlet.C135_merge",
    "Scarlet.C135_identity",
    "Scarlet.C135_undo"
   ],
   "note": "reordering can change which hit is reported, because the last one hit wins (C64): C135_refuted_order"
  },
  {
   "property": "C136",
   "status": "proved",
   "theorems": [
    "Scarlet.C136_unique",
    "Scarlet.C136_does",
    "Scarlet.C136_exact",
    "Scarlet.C136_origin",
    "Scarlet.C136_refuted_doc",
    "Scarlet.C136_direction",
    "Scarlet.C136_move",
    "Scarlet.C136_any",
    "Scarlet.C136_motions"
   ],
   "note": "also fixes the handedness of look_at, which C38 leaves open; the doc comment's 'the origin is mapped to pos' holds of map_inverse only: C136_origin, C136_refuted_doc"
  },
  {
   "property": "C137",
   "status": "proved",
   "theorems": [
    "Scarlet.C137_euler",
    "Scarlet.C137_axis",
    "Scarlet.C137_affine",
    "Scarlet.C137_exact",
    "Scarlet.C137_new"
   ],
   "note": "converse of C34; extends every claim about transforms built from the constructors to all transforms with a correct inverse"
  },
  {
   "property": "C138",
   "status": "proved",
   "theorems": [
    "Scarlet.C138_translate",
    "Scarlet.C138_scale",
    "Scarlet.C138_past",
    "Scarlet.C138_rotate_eq",
    "Scarlet.C138_rotate",
    "Scarlet.C138_conjugate",
    "Scarlet.C138_commute",
    "Scarlet.C138_float_identity",
    "Scarlet.C138_float_translate",
    "Scarlet.C138_float_scale",
    "Scarlet.C138_float_scale_refuted"
   ],
   "note": "the law scale(u)*scale(v) == scale(u*v) fails on floats in the inverse matrix: C138_float_scale_refuted"
  },
  {
   "property": "C139",
   "status": "proved",
   "theorems": [
    "Scarlet.C139_unique",
    "Scarlet.C139_lines",
    "Scarlet.C139_segments",
    "Scarlet.C139_depth"
   ],
   "note": "strengthens C39: the frustum property pins the transform down"
  },
  {
   "property": "C140",
   "status": "proved",
   "theorems": [
    "Scarlet.C140_hit",
    "Scarlet.C140_skip",
    "Scarlet.C140_sharp",
    "Scarlet.C140_union",
    "Scarlet.C140_scene",
    "Scarlet.C140_refuted"
   ],
   "note": "the exception is real (C140_refuted) and exact (C140_sharp)"
  },
  {
   "property": "C141",
   "status": "proved",
   "theorems": [
    "Scarlet.C141_exact",
    "Scarlet.C141_hit",
    "Scarlet.C141_points",
    "Scarlet.C141_symmetric",
    "Scarlet.C141_between",
    "Scarlet.C141_same",
    "Scarlet.C141_float_refuted"
   ],
   "note": "exact arithmetic; on floats the answer can differ within rounding of an edge (C141_float_refuted, bounded by C92, C102)"
  },
  {
   "property": "C142",
   "status": "proved",
   "theorems": [
    "Scarlet.C142_first",
    "Scarlet.C142_same",
    "Scarlet.C142_shorten",
    "Scarlet.C142_list"
   ],
   "note": "exact arithmetic; floats: C120, C124. Lists do not report the first hit (C64_refuted); C142_shorten shows do_intersect still determines it"
  },
  {
   "property": "C143",
   "status": "proved",
   "theorems": [
    "Scarlet.C143_position",
    "Scarlet.C143_exact",
    "Scarlet.C143_refuted",
    "Scarlet.C143_exists",
    "Scarlet.C143_depth"
   ],
   "note": "the factor 4 is the error of C74; C143_refuted: with equal fields of view the pictures never agree"
  },
  {
   "property": "C144",
   "status": "proved",
   "theorems": [
    "Scarlet.Interval.C144_is_same",
    "Scarlet.Interval.C144_bitwise",
    "Scarlet.Interval.C144_add",
    "Scarlet.Interval.C144_mul",
    "Scarlet.Interval.C144_mul_scalar",
    "Scarlet.Interval.C144_div",
    "Scarlet.Interval.C144_square",
    "Scarlet.Interval.C144_min_max",
    "Scarlet.Interval.C144_union",
    "Scarlet.Interval.C144_abs_exact",
    "Scarlet.Interval.C144_refuted",
    "Scarlet.Interval.C144_sign_refuted"
   ],
   "note": "the exception for products is needed: C144_refuted, C144_sign_refuted ([-1,1]*[-1,2] has another upper bound than [-1,2]*[-1,1])"
  },
  {
   "property": "C145",
   "status": "proved",
   "theorems": [
    "Scarlet.C145_together",
    "Scarlet.C145_moved",
    "Scarlet.C145_look_at",
    "Scarlet.C145_mirror",
    "Scarlet.C145_upside_down",
    "Scarlet.C145_units",
    "Scarlet.C145_look_at_units"
   ],
   "note": "exact arithmetic; the reported hit is the object-space one (C67), which is why it is identical"
  },
  {
   "property": "C146",
   "status": "proved",
   "theorems": [
    "Scarlet.C146_integers",
    "Scarlet.C146_division",
    "Scarlet.C146_vectors",
    "Scarlet.C146_points",
    "Scarlet.C146_vector_division",
    "Scarlet.C146_neg",
    "Scarlet.C146_dot_debug",
    "Scarlet.C146_dot_release",
    "Scarlet.C146_square_norm",
    "Scarlet.C146_square_norm_sign",
    "Scarlet.C146_cross_debug",
    "Scarlet.C146_cross_release",
    "Scarlet.C146_matrix",
    "Scarlet.C146_dot_spurious",
    "Scarlet.C146_square_norm_wraps"
   ],
   "note": "the panics of the integer operators are those of the language reference; the functions are the generic ones of the model, run on computations that may panic"
  },
  {
   "property": "C147",
   "status": "proved",
   "theorems": [
    "Scarlet.C147_origin",
    "Scarlet.C147_do_intersect",
    "Scarlet.C147_exact",
    "Scarlet.C147_shallow",
    "Scarlet.C147_deep",
    "Scarlet.C147_sample",
    "Scarlet.C147_finite_refuted"
   ],
   "note": "C147_origin holds for every scalar type; C147_finite_refuted is the concrete panic with a finite direction"
  },
  {
   "property": "C148",
   "status": "proved",
   "theorems": [
    "Scarlet.C148_semilattices",
    "Scarlet.C148_absorption",
    "Scarlet.C148_distributive",
    "Scarlet.C148_order",
    "Scarlet.C148_within",
    "Scarlet.C148_monotone",
    "Scarlet.C148_overlaps_mono",
    "Scarlet.C148_overlaps_intersect",
    "Scarlet.C148_overlaps_union",
    "Scarlet.C148_point",
    "Scarlet.C148_empty_refuted"
   ],
   "note": "C148_empty_refuted is the inverted box that overlaps a box around its bounds"
  },
  {
   "property": "C149",
   "status": "proved",
   "theorems": [
    "Scarlet.C149_normalize",
    "Scarlet.C149_norm",
    "Scarlet.C149_look_at",
    "Scarlet.C149_rotate"
   ],
   "note": "the conditions are a flag computed along with the run (Spec/Cert.lean); without them the enclosure is false (C12, C17, C24)"
  },
  {
   "property": "C150",
   "status": "proved",
   "theorems": [
    "Scarlet.C150_inverse",
    "Scarlet.C150_error",
    "Scarlet.C150_orientation",
    "Scarlet.C150_singular"
   ],
   "note": "the conditions are a flag computed along with the run (Spec/Cert.lean); compare C129, where the exact side of a singular matrix is 1/0 = 0"
  },
  {
   "property": "C151",
   "status": "proved",
   "theorems": [
    "Scarlet.C151_nested_blocked",
    "Scarlet.C151_nested_free",
    "Scarlet.C151_blocked",
    "Scarlet.C151_free",
    "Scarlet.C151_symmetric"
   ],
   "note": "u = half an ulp of 1, eta = half the least positive float; within the margin the answers do differ (C141_float_refuted); C151_nested_* cover transforms, with the factors of C126"
  },
  {
   "property": "C152",
   "status": "proved",
   "theorems": [
    "Scarlet.C152_split",
    "Scarlet.C152_order",
    "Scarlet.C152_cells",
    "Scarlet.C152_scene",
    "Scarlet.C152_inside"
   ],
   "note": "a ray parallel to a face counts as inside on the upper face only (C53); this half-open rule is what keeps cuts watertight; the cut may touch the upper face but not the lower one"
  },
  {
   "property": "C153",
   "status": "proved",
   "theorems": [
    "Scarlet.C153_hit",
    "Scarlet.C153_scene",
    "Scarlet.C153_bbox",
    "Scarlet.C153_area"
   ],
   "note": "PrimitiveList::intersect of the zones can still report the farther hit, because the list keeps the last one (C64)"
  },
  {
   "property": "C154",
   "status": "proved",
   "theorems": [
    "Scarlet.C154_self",
    "Scarlet.C154_stuck",
    "Scarlet.C154_away",
    "Scarlet.C154_box",
    "Scarlet.C154_next",
    "Scarlet.C154_within",
    "Scarlet.C154_sphere",
    "Scarlet.C154_free",
    "Scarlet.C154_self_f32",
    "Scarlet.C154_fast_refuted"
   ],
   "note": "C154_self_f32 and C154_fast_refuted are concrete witnesses; the float part covers untransformed objects in nested lists (transformed ones: C151 with a margin)"
  },
  {
   "property": "C155",
   "status": "proved",
   "theorems": [
    "Scarlet.C155_sphere",
    "Scarlet.C155_blocked",
    "Scarlet.C155_free",
    "Scarlet.C155_exact"
   ],
   "note": "about do_intersect: the hit a list reports can get farther when a member is added, because the list keeps the last one (C64); a larger radius is not an enlargement, because spheres are surfaces"
  },
  {
   "property": "C156",
   "status": "proved",
   "theorems": [
    "Scarlet.C156_sin",
    "Scarlet.C156_cos",
    "Scarlet.C156_atan",
    "Scarlet.C156_asin_acos",
    "Scarlet.C156_width",
    "Scarlet.C156_near"
   ],
   "note": "complements C24 and C25: where those fail the results are too small, never too large; the rounding of one operation is that of C133"
  },
  {
   "property": "C157",
   "status": "proved",
   "theorems": [
    "Scarlet.C157_sphere",
    "Scarlet.C157_hugs",
    "Scarlet.C157_smallest",
    "Scarlet.C157_occupies",
    "Scarlet.C157_refuted"
   ],
   "note": "the counterpart of the containment claims (C59, C68); transforms that mix axes are excluded, their boxes need not even contain the moved scene (C41, C68)"
  },
  {
   "property": "C158",
   "status": "proved",
   "theorems": [
    "Scarlet.C158_same",
    "Scarlet.C158_rotated_refuted",
    "Scarlet.C158_floats",
    "Scarlet.C158_graze_refuted"
   ],
   "note": "extends C115 and C140 from one box to hierarchies; the two failures are C158_rotated_refuted and C158_graze_refuted; there is no hierarchy in the library, the node (Primitive.guardedBy) is part of the specification"
  },
  {
   "property": "C159",
   "status": "proved",
   "theorems": [
    "Scarlet.C159_distance",
    "Scarlet.C159_cells",
    "Scarlet.C159_lens",
    "Scarlet.C159_uniform_refuted"
   ],
   "note": "exact arithmetic; the failure of uniform_sample_disk is C159_uniform_refuted"
  },
  {
   "property": "C160",
   "status": "proved",
   "theorems": [
    "Scarlet.C160_float",
    "Scarlet.C160_interval",
    "Scarlet.C160_trait",
    "Scarlet.C160_zero_refuted"
   ],
   "note": "generalises the repository's square_root_test; the case of 0 is C160_zero_refuted"
  },
  {
   "property": "C161",
   "status": "proved",
   "theorems": [
    "Scarlet.C161_no_zero",
    "Scarlet.C161_zero",
    "Scarlet.C161_fixed_point",
    "Scarlet.C161_narrow_keeps",
    "Scarlet.C161_narrow_empty",
    "Scarlet.C161_narrow_ends"
   ],
   "note": "the concrete case is the map of the repository's division_test"
  },
  {
   "property": "C162",
   "status": "proved",
   "theorems": [
    "Scarlet.C162_sq_sqrt",
    "Scarlet.C162_norm_ge",
    "Scarlet.C162_distance_ge",
    "Scarlet.C162_normalize_le",
    "Scarlet.C162_axis",
    "Scarlet.C162_tiny_refuted"
   ],
   "note": "the condition on tiny vectors is necessary: C162_tiny_refuted"
  },
  {
   "property": "C163",
   "status": "proved",
   "theorems": [
    "Scarlet.C163_exact",
    "Scarlet.C163_within",
    "Scarlet.C163_differs",
    "Scarlet.C163_test_f64",
    "Scarlet.C163_f32_refuted"
   ],
   "note": "C163_f32_refuted shows that equality cannot be claimed for all angles"
  },
  {
   "property": "C164",
   "status": "proved",
   "theorems": [
    "Scarlet.C164_mono",
    "Scarlet.C164_signs",
    "Scarlet.C164_extend",
    "Scarlet.C164_swap2",
    "Scarlet.C164_zero_iff",
    "Scarlet.C164_laws_refuted"
   ],
   "note": "C164_laws_refuted gives the inputs for the two laws that fail"
  },
  {
   "property": "C165",
   "status": "proved",
   "theorems": [
    "Scarlet.C165_norm",
    "Scarlet.C165_normalize",
    "Scarlet.C165_distance",
    "Scarlet.C165_rotate",
    "Scarlet.C165_lookAt",
    "Scarlet.C165_refuted"
   ],
   "note": "the conditions are necessary: C165_refuted"
  },
  {
   "property": "C166",
   "status": "proved",
   "theorems": [
    "Scarlet.C166_transpose",
    "Scarlet.C166_symmetric",
    "Scarlet.C166_scalar",
    "Scarlet.C166_rotations",
    "Scarlet.C166_mapInverse",
    "Scarlet.C166_refuted"
   ],
   "note": "C166_refuted gives the two laws that fail"
  },
  {
   "property": "C167",
   "status": "proved",
   "theorems": [
    "Scarlet.C167_forward",
    "Scarlet.C167_convex",
    "Scarlet.C167_between",
    "Scarlet.C167_start",
    "Scarlet.C167_refuted"
   ],
   "note": "C167_refuted shows the two limits"
  },
  {
   "property": "C168",
   "status": "proved",
   "theorems": [
    "Scarlet.C168_origin",
    "Scarlet.C168_axes",
    "Scarlet.C168_basis",
    "Scarlet.C168_eye",
    "Scarlet.C168_refuted"
   ],
   "note": "C168_refuted shows that other points need not come back exactly"
  }
 ]
}