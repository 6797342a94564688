# Formal model of theartful/scarlet in Lean 4 — design

Contents: 1 shape of the model, 2 trusted base, 3 plan per property, 4 what is and is not modelled,
5 where code and properties disagree, 6 testing of the float model, 7 mutation testing of the theorems.

## 1. Shape of the model

scarlet is a pure numerical library (scalars, intervals, vectors, 4x4 transforms, ray/box/sphere
intersection, scene lists, a thin-lens camera).  Almost all of its code is *generic*: `T: Scalar`,
`T: GFloat`.  The Lean model is generic in the same way: type classes `Scalar`, `GFloat`, ... mirror
the Rust traits, every Rust function is one Lean definition over these classes, and the theorems
instantiate them with

* **`Flt mw ew`** – a bit-level, executable IEEE-754 binary format (`mw` mantissa bits, `ew` exponent
  bits) with signed zeros, subnormals, infinities, NaN and round-to-nearest-even `+ - * / sqrt`, casts.
  `f32 = Flt 23 8`, `f64 = Flt 52 11`.  Theorems are proved for every format and so hold for both.
* **`ℝ`** – the ideal instance (each operation exact, `next_up = next_down = id`), for the algebraic and
  geometric contracts, which rounding makes false bit-for-bit but which pin down the formulas.
* **`Interval T`** – scarlet's own interval type, which is itself a `GFloat` (as in Rust), so generic
  code such as `map_point` is also instantiated at intervals of floats.
* any type whose operations form a commutative ring (class `ExactRing`, `Spec/Exact.lean`), for matrix algebra and
  polynomial vector identities; instances are `ℝ` and the eight wrapping integer types.

Rust's `trait GFloat` is split into two classes, `GFloat` (no libm) and `GTrig` (the libm functions), so that libm
stays a parameter; otherwise class fields are the required trait methods plus those default methods that some
implementation overrides.  Rust's method resolution prefers the inherent methods of `f32` (`min`, `max`, `abs`,
`clamp`) over trait methods of the same name in non-generic code; the class `Inherent` keeps the two apart.

Layout: `Verif/Float` soft-float and its rounding theory; `Verif/Model` the model of the code; `Verif/Spec` the
vocabulary used to state properties (real value of a float, membership in an interval, frustum, reachable
transforms, ...) which mentions no helper of the model; `Verif/Theory` lemmas; `Verif/Props` the property
theorems, named `Cxx_...`, each with a concrete non-trivial instance beside it.

`&mut` functions return the new value; panics (`assert!`, `assert_eq!`) are `none` in `Option`;
`dyn Primitive` is a record of functions; loops over `0..N` are functions on `Fin n → T` or folds.

## 2. Trusted base

* Lean's kernel, and the axioms `propext`, `Classical.choice`, `Quot.sound` (checked with
  `#print axioms`; no other axiom, no `sorry`, no `native_decide`/`bv_decide`).
* The reading of /repo: each definition cites the file and lines it models.
* rustc/LLVM implementing IEEE-754 binary32/64 round-to-nearest-even for `+ - * / sqrt`, comparisons and
  `as` casts.  The executable soft-float was compared with the hardware through Lean's own
  `Float`/`Float32` on random and boundary operands (see section 6); this is a test, not a proof.
* libm (`sin cos tan asin acos atan atan2`) is a *parameter* of the float instance.  Theorems that need
  accuracy take an explicit hypothesis (result within one ulp, correct sign), shown satisfiable.
* NaN payloads are not modelled (operations return one canonical NaN); no theorem depends on payloads.
* `debug_assert!` in `Interval::new` is modelled by separate "no panic" theorems (C20).
* std's inherent `f32::min/max/abs/clamp`, which Rust's method resolution prefers over the trait methods
  in non-generic code (bbox.rs, sphere.rs, camera.rs), are modelled separately (class `Inherent`).

Not modelled: `Debug` formatting, `Rem`, performance, `Rc` reference counting, x87/FMA contraction.

## 3. Plan per property

| id | model | proof |
|----|-------|-------|
| C01-C03 | literal bit functions on `BitVec 32/64` | reduction to an order-isomorphic integer key |
| C04 | soft-float ops | rounding theory: `rnd` is monotone, exact on floats, off by less than one step |
| C05 | generic `Scalar` defaults on floats | case analysis on keys |
| C06 | `fequals` | symmetry of rounding; refuted for infinities by evaluation; `C06_exact` |
| C07 | `is_infinite` | refuted for every float (it is the negation of what it should be on finite and infinite floats) |
| C08 | Lean fixed-width integers | order lemmas |
| C09 | casts | exactness of rounding on representable values |
| C10 | constants as soft-float expressions | Mathlib bounds on pi; refuted for f32 upper bounds |
| C11-C18 | `Interval` ops on floats | enclosure by C04 and monotonicity; C12 and C17 partly refuted |
| C19,C20,C22 | comparisons, validity | keys |
| C21 | `approx` | doubling is exact, monotone rounding |
| C23 | expression trees | induction |
| C24,C25 | interval trig over a faithful libm | real analysis of sin/cos monotone pieces; refutations; for finite intervals the failing cases are characterised exactly (`C24_sin_exact`, `C24_cos_exact`) |
| C26 | constants/conversions | C10, counterexamples; `C26_exact` |
| C27,C28 | monotone rounding / one-step lemma | order arithmetic |
| C29-C31 | vectors `Fin n → T` | ring identities, finite sums |
| C32,C33 | matrices | ring / field identities |
| C34 | inductive reachability over the constructors | induction, C33 |
| C35-C39, C42, C43 | `map_*` over ℝ (C43 also floats/intervals) | field arithmetic |
| C40,C41 | `map_normal`, `map_bbox` | refutations + partial theorems; exactly when they hold (`C40_exact`, `C41_exact`) |
| C44-C50 | `Bbox3` over floats | keys |
| C51 | slab test over ℝ | order reasoning |
| C52,C53 | slab test over floats | case analysis on NaN; evaluation for the refutation; `C53_blocked`, `C53_hit_partial`, `C53_range` classify all rays parallel to faces |
| C54 | box hit | case analysis over faces |
| C55-C62 | sphere over ℝ; range claims over any scalar | quadratic algebra |
| C63-C68 | `dyn Primitive` as record of functions | list induction; refutations of C64, C67, C68, and exactly when they hold |
| C69-C74 | cameras over ℝ (C69, C70 also f32 with an accurate libm) | trigonometry; refutations of C72 (plane) and C74 |
| C75,C76 | generic code at `Interval f32` | enclosure lemmas |
| C77 | concentric sampling over ℝ | change of variables on the four wedges, Lebesgue measure |
| C78 | `AlmostEqual` of vectors, matrices, transforms, intervals | component-wise from C06 |
| C79 | `abs`, `signum`, sign predicates, integers and floats | order lemmas; `abs` of the least integer refuted |
| C80 | constants (`half`, `two`, `pi`, `min_positive`, ...) | evaluation against real bounds on π |
| C81 | identity/translate/scale applied to floats | `x*1`, `x*0`, `x+0` are exact, so one rounding remains |
| C82 | vector operators on floats | symmetry of rounding |
| C83-C86 | dot, square_norm, normalize, map_point, Ray::eval on floats | standard error model `rnd x = x(1+δ)+ε`, induction over n |
| C87 | dot, cross, norm of interval vectors | C12, C16, C17; norm refuted at the zero vector |
| C88 | `Index`/`IndexMut`/`*_mut` | lens laws, out of range panics |
| C89 | `generate_ray` on floats | when exactly it panics |
| C90,C91 | scenes (inductively built from boxes, spheres, transforms, lists) | induction over scenes |
| C92 | slab test on floats vs exact slab test | error model |
| C93 | list bounding box | permutation induction |
| C94 | full sphere on floats | concrete leak |
| C95 | rescaling a ray's direction | exact arithmetic |
| C97 | `ThinLensCamera` over ℝ | closed form of the central ray |
| C98 | the eight integer instances of `Scalar` | refinement of a small specification over ℤ |
| C99 | constants, classification, neighbours and casts of `Interval` | from C01, C07, C21, C80; `is_infinite` refuted |
| C100 | bounding box of a scene | induction over a predicate `RegularOn` on scenes; false for non-diagonal transforms (C68) |
| C101 | quadratic solver on floats | every operation is exact up to `1+δ`; `b² (1+δ₁)` and `4ac(1+δ₂)` are read as coefficients `b'`, `c'`; the sum in the solver has terms of one sign, so it has a small relative error; refuted when `b²`, `ac` underflow or overflow |
| C102 | sphere hits on floats | C101 with C83 (coefficients), C86 (point): the exact polynomial at the computed root is bounded by rounding errors; misses by completing the square |
| C103 | round trips on floats | C85 in homogeneous coordinates, twice; the exact product of the two stored matrices minus the identity is the defect; translations and scalings directly from C81, rotations from C105 |
| C104 | composition on floats | entries of the product by the dot product bound (C83), then C85; last row exact because products with 0 and 1 are exact |
| C105 | axis rotations on floats | libm accurate to one float gives an error of at most one gap, `2u` relative; C85 for the two rows; axis row exact |
| C106 | `rotate` about any axis on floats | error calculus `Near` (`Theory/Near.lean`): within `k·u` of a real of magnitude at most one; entries of the matrix by this calculus, then the row bound of C83 |
| C107 | `look_at` on floats | `Near` calculus through three normalisations and two cross products; the exact frame is orthonormal (stated separately); rows by the bound of C83 |
| C108 | `perspective` on floats | relative error calculus `Rel` (`Theory/Rel.lean`) for the three entries, then one product, sum and quotient per coordinate |
| C109 | `map_bbox` on floats for transforms that move each axis on its own | both computations reduce to one rounded product and one rounded sum (`Same`); rounding is monotone, also at the infinities; no tolerance |
| C110 | `inverse()` on floats | calculus `Dom` (error in units of rounding of the magnitude of the terms) through minors, determinant, reciprocal and product; exact side from C33; permanents as separate specification |
| C111 | stored inverse of `perspective`, `map_inverse` on floats | exact zeros propagated through the adjugate, relative calculus `Rel` for the rest; condition number of the homogeneous divisor; composition with C108 for the round trip |
| C112 | `concentricSampleDisk`, `uniformSampleDisk`, `cameraRay` on f32 against the same functions on ℝ | doubling and hence the centring subtraction is correctly rounded, so comparisons of magnitudes survive weakly; first-order error of the angle times the radius; the two branches agree on the diagonals |
| C113 | `ThinLensCamera.new`, `cameraRay` on floats against the lens equation and against the same functions on ℝ | relative-error calculus for the film; absolute error of film coordinate, point of focus and lens point (C112); `|v/|v| - V/|V|| ≤ 2|v - V|/|V|`; C84 for the float normalization |
| C114 | `Sphere.new`, `intersect` on `f32` against the documented parameterization | monotonicity of rounding for the range; error propagation through the sums, quotient and acos for the accuracy |
| C115 | `Primitive.intersect`, `Primitive.bbox`, `Bbox.intersectRay` over ℝ; `Sphere.intersectRay` and `Bbox.intersectRay` on floats | C100 and C51 over ℝ; concrete witnesses for the refutations; C102, C86 and C92 for the margin on floats |
| C116 | `Sphere.new`, `Sphere.intersectRay`, `solveQuadratic`, `Ray.eval` on floats | C101 and C102: the far root is on the sphere up to rounding, hence within the z range and tmax; its sign from the sign of c and the spacing of floats at 0 |
| C117 | `GVec.cross`, `GVec.norm`, `squareDistance`, `distance` on floats | standard rounding model (Theory/Err), C83, sqrt_err |
| C118 | `Transform.mapRay`, `mapRayInv`, `mapPoint`, `mapPointInv`, `Ray.eval` on floats | C85 and C86 composed; C43 for the absence of panics |
| C119 | `Primitive.transformed`, `Sphere.prim`, `Bbox.prim`, `Transform.mapRayInv` on floats | C85 for the object-space ray, C102 and C92 on it, C118 for tmax |
| C120 | `solveQuadratic`, `Sphere.intersectRay`, `Sphere.getIntersection`, `Sphere.intersect` on floats | backward stability (C101): the computed roots are near the roots of a nearby quadratic; its sign is known from the factorisation, and between a root and its approximation its size is bounded by rounding |
| C121 | `Bbox.intersectRay`, `Sphere.intersectRay`, `Sphere.intersect` on floats | results depend on the numbers denoted by the slab bounds only; NaN-ignoring max and min are commutative and associative; negation commutes with - * / up to the sign of zero |
| C122 | `Bbox.intersectRay`, `solveQuadratic`, `Sphere.intersectRay`, `Sphere.intersect` on floats | rounding to nearest, ties to even, commutes with doubling for normal numbers and for values of the format; sums never underflow; quotients of equally scaled numbers are the same rounding; sign bits agree |
| C123 | expressions evaluated with the interval operators and with the float operators; `Ray.eval`, `mapPt` at intervals and floats | rounding is monotone and fixes floats, so the rounding of a real in an interval with float bounds stays in it; induction over the expression with C11 to C18 |
| C124 | `Bbox.hit`, `Bbox.intersectRay`, `Ray.eval` on floats | C54_hit (choice of the face), C92_range and C86_eval (rounding margins), monotonicity of rounded quotients for the entry face, relative error of the six distances |
| C125 | `Sphere.intersect` (dpdu, dpdv, normal) on f32 | error propagation through atan2, acos, sin, cos, cross product (C117) and normalization (C84); NaN-or-zero propagation at the pole |
| C126 | `Primitive.transformed`, `PrimitiveList.prim`, `Sphere.prim`, `Bbox.prim`, `Transform.mapRayInv` | induction over the scene for the path, induction over the path for the error (object_axis of C119 per step), then C102 and C92 at the shape |
| C127 | `mapNrm`, `mapVector` on floats | three rounded products (the last of three factors) summed in order; product of two perturbed sums |
| C128 | `Model/Assign.lean`: the compound assignments of intervals, programs over a store, one run function for any scalar type, loops with a bound on the number of tests | simulation of three runs by induction over the program and the number of loop tests; C19 for the tests, C23 and C123 for the expressions |
| C129 | the generic matrix and transform code at `Interval`, at floats, at reals, and at expressions (which yields the expressions the code evaluates) | evaluation of expressions commutes with the generic code; then C23 and C123 for each entry; C24 for the rotations; the condition is stated on the expressions the code itself produces |
| C130 | camera, transforms, transformed primitive, sphere and list together | projection formula from C97; C42 and C35 move rays and points between spaces; C57 gives completeness and the first hit; C63 for lists; statement in terms of points and segments only |
| C131 | camera, view transform, nested primitives, sphere and box on f32 | C112 and C113 bound the camera ray at every t; the chain lemma of C126 carries it through the transforms; C92, C102 and C120 at the shape; the conditions on a scene are an inductive predicate that follows the ray |
| C132 | camera with any lens sample, view transform | the line from lens point to point of focus, solved for the film point; C69 (onto the disc), C77 (uniform) and scaling of Lebesgue measure; monotonicity of 1/Z |
| C133 | interval operators, expression evaluation | induction over the expression; each operation from C28/C18_hull (bounds within two floats of the exact range), the distance of neighbouring floats, and Lipschitz bounds of the real operation |
| C134 | partial_cmp and == of floats, integers, intervals, vectors, matrices, transforms | order of the float keys; case analysis; entrywise lifting |
| C135 | PrimitiveList and TransformedPrimitive as records of methods, panics included | the loop over a concatenation; congruence closure by induction; C36 for the inverse maps |
| C136 | look_at as in C38; the specification LooksAt speaks only of images of points and vectors | the rows of a rotation matrix are cross products of each other (adjugate); the basis look_at computes is then those rows |
| C137 | constructors as in C34; the inductive set Transform.Reachable | Euler angles, Euler's rotation theorem (det(R-1)=0), singular values (Mathlib's spectral theorem), and the orbit of the bottom row under perspective |
| C138 | constructors as in C34, floats as in C81 | Rodrigues' matrix determines axis and angle up to sign; conjugation by a rotation matrix; on floats products with 0 and 1 are exact |
| C139 | perspective and map_point as in C39; the specification FrustumToBox speaks only of the images of eight points | the 24 corner equations are solved for the 16 entries up to one factor; lines: the homogeneous coordinates are affine along a line |
| C140 | Bbox3::intersect_ray, union, PrimitiveList as in C51, C45, C63; containment is stated with inside | rounding is monotone, so subtraction and division by a fixed number are; the NaN-ignoring max/min are max/min of keys with NaN as -inf/+inf; axis-parallel rays by cases; scenes by induction |
| C141 | the whole of primitive.rs over boxes, spheres and affine transforms; Occupies assigns point sets by the constructor of the scene | induction over scenes from C51, C57, C63, C42, C35; symmetry by t -> 1 - t; evaluation for the float counterexample |
| C142 | as C141 | induction over scenes; C57, C51 at the leaves; finite minimum at lists |
| C143 | ThinLensCamera::new, generate_ray, perspective, *, map_point | from C130, C39, C36 and C139; field arithmetic |
| C144 | +, -, *, /, unary -, the operations with a number, square, abs, min, max, union, intersection, is_same | each result is the rounded range of the exact operation (C17/C18); ranges of negated or exchanged operands coincide; rounding is odd |
| C145 | ThinLensCamera::new, generate_ray, concentric_sample_disk, look_at, scale, *, TransformedPrimitive, PrimitiveList | relational: composition of inverse ray maps (C36/C135), uniqueness of look_at (C136), symmetries of the disk map, homogeneity of scenes (C95) |
| C146 | `Model/Checked.lean`: integer operators with overflow and division panics in both cargo profiles; the generic vector and matrix functions run on them | generic over a word type with wrapping laws (instances proved for the eight types); induction over the accumulation loop with the running totals |
| C147 | TransformedPrimitive, PrimitiveList, Sphere, Bbox3, map_inverse of rays, generate_ray, all with panics | induction over the scene; powers of two are floats, so bounds by them survive rounding |
| C148 | union, intersect, overlaps, inside, new | min and max of the order keys of the bounds, per axis |
| C149 | norm, normalize, look_at and rotate at Interval<F> | the same generic code on (certified interval, real, float, proof) quadruples, projected by homomorphisms |
| C150 | Matrix4x4::inverse at Interval<F> | the same generic code on (certified interval, real, float, proof) quadruples; finite 1/det excludes zero from det |
| C151 | do_intersect of boxes, spheres and lists, Ray::new, point - point | C92 and C120 for the float ray, plus the rounding of the direction, symmetric in the ends; induction over scenes; with transforms (ShadowNested) the chain error of C126 for the ray that reaches each shape |
| C152 | intersect_ray and inside of boxes, lists of boxes | the three slabs as integers (C140): division is monotone, so the plane of a cut divides the slab; induction over subdivisions |
| C153 | Sphere::new, intersect_ray, do_intersect, bbox and area of spheres; lists of spheres | what the closure get_intersection accepts, as a condition on the height; induction over subdivisions |
| C154 | do_intersect of scenes (C141) and of float boxes and spheres; next_up, next_down | the scene as a set of points; signs of the slab quotients, which cannot underflow for directions up to 1; the three zones of a sphere line (C120) |
| C155 | do_intersect of lists, transforms, boxes and spheres; the closure get_intersection | induction over the enlargement, per ray; C140 for boxes; what get_intersection accepts for spheres (C153) |
| C156 | Interval sin, cos, asin, acos, atan on floats with an arbitrary libm | sign changes of the derivative locate the extrema; the width test against tau is off by at most 14 rounding units, which moves the sine by less than one float; 1-Lipschitz for the widths |
| C157 | bbox of Sphere, Bbox, PrimitiveList, TransformedPrimitive; map_bbox; the scenes are scenes of C141 | the bounds are greatest lower and least upper bounds of the coordinates; induction on the scene; for spheres the axis points (in the limit for -x, where atan2 is pi) and the converse by moving a face |
| C158 | intersect, do_intersect, bbox of all primitives; the node is a user's implementation of the trait | induction on the hierarchy: every hit lies in (on floats: comes with a hit box within) the box of the node, so the slab test of the node succeeds (C51, C140, C115) |
| C159 | concentric_sample_disk, uniform_sample_disk, the origin of the camera ray | chord bounds within one quarter (concavity of sin), glued along the segment between the two points where it crosses the diagonals (upper bound) and along the image segment for the inverse (lower bound) |
| C160 | sqrt of floats and of intervals (inherent and trait) | contraction of the logarithm up to rounding errors into a window of a few floats around 1, then the exact square roots of those floats |
| C161 | interval operations, sign tests, in_range, contains, intersect, is_same | enclosure (C23) and continuity of the exact function where the interval evaluation is bounded, then the intermediate value theorem; the narrowing is a descent on the bounds' float indices |
| C162 | squareNorm, norm, distance, normalize on floats | rounding analysis of sqrt(x*x) by the gaps between floats (powers of two separately), monotonicity of rounded sums and roots; refutation by kernel evaluation |
| C163 | rotate, rotate_x/y/z, normalize, cross, dot, PartialEq of transforms, on floats with an abstract libm | exact float operations with 0 and +-1, rounding of c + (1 - c) next to 1 including ties, C162 for the axis; bounds on pi for the quarter turn |
| C164 | norm, square_norm, square on floats, infinities included | monotonicity of rounding through squares, the sum loop and the root; rounding to zero characterised; counterexamples by kernel evaluation |
| C165 | norm, normalize, distance, rotate, look_at on floats | rounding commutes with powers of two in the normal range (C122), through squares, sum, root and quotient |
| C166 | matrix product and transpose, rotations, composition and inverse of transforms, on floats with an abstract libm | commutativity of float multiplication inside the product loop; induction over the composition |
| C167 | Ray.eval, Bbox.inside, Bbox.new on floats, overflow included | monotonicity of rounding through the product and the sum (C109), transitivity of the comparisons of inside |
| C168 | Transform.lookAt, initFromOrthogonalBasis, mapPt, mapVector on floats | dot and map_point round the same sums in the same order, so the last addition cancels exactly; products and sums with 0 and 1 are exact |
| C96 | the loops as written (`Model/Imperative.lean`: arrays, bounds checks, in-place updates) | loop invariants; refinement of the per-component definitions |

No property in the list is considered inexpressible.  Properties found false of the code are stated in
full, their negation is proved with a concrete witness, and the largest true part is proved under the
suffix `_partial`.

## 4. What is modelled and what is not

`tools/coverage.py` lists the non-test code lines of /repo/src that no definition cites: imports, type aliases, trait
headers and the items below; everything else is modelled function by function.

Modelled: `math/scalar.rs`, `math/interval.rs`, `math/interval_as_gfloat.rs`, `math/vector.rs`,
`math/vector_traits.rs`, `math/vectori.rs`, `math/transform.rs`, `math/transform_inverse_impl.rs`,
`geometry/ray.rs`, `geometry/bbox.rs`, `geometry/sphere.rs`, `geometry/primitive.rs`, `cameras/camera.rs`,
`cameras/thin_lens.rs`.

Simplifications, each also noted at the definition:

* compound assignment (`+=`, `*=`, ... interval.rs:260-341, vector.rs:256-298) is the operator; the Rust bodies are
  `*self = *self op rhs` (`Model/Assign.lean` for intervals and for programs that use them).
* `Ray::new`, `Matrix4x4::from`, `Transform::new`, `CameraSample::new` are structure constructors.  `Transform::new`
  accepts any pair of matrices; theorems about inverses are about transforms *reachable* through the other
  constructors (`Spec/Transform.lean`).
* the inherent `Transform::map`/`map_inverse` (424-437) forward to the trait; the trait's default `map_inverse`
  (475-480) is overridden by every implementation.
* `alloc_primitive` and `PrimitiveHandle` (`Rc<dyn Primitive>`) are the identity: a primitive is the record of its methods.
* `atan2` of intervals recurses once; the model uses fuel 2.
* `f32::min/max` on `(+0, -0)`: std leaves the sign of the result open, the model picks one; no theorem depends on it.
* integer arithmetic wraps (release build), except in `Model/Checked.lean` (C146), which has both cargo profiles and the panics.

Not modelled: `Debug`, `Rem`/`RemAssign` (`unimplemented!()` for intervals), `Interval<Int>` aliases (they do not
satisfy `GFloat`), the `#[cfg(test)]` modules, performance, memory.

## 5. Where the code and the properties disagree

Each item has a theorem proving the negation of the property with a concrete witness, and one or more `_partial`
theorems proving what is true.

| property | the code | refutation |
|---|---|---|
| C06 | `fequals(inf, inf)` is false (`inf - inf` is NaN) | `C06_not_refl` |
| C07 | `GFloat::is_infinite` returns `is_finite` (scalar.rs:462, 655) | `C07_refuted` |
| C133 | `Interval::abs` of an interval below zero starts at zero instead of `-sup`, so it is as wide as the numbers are large, even for a point | `C133_refuted_abs` |
| C134 | in a release build `Interval::new` accepts reversed bounds, and a reversed interval is less than itself | `C134_refuted_reversed` |
| C79 | `abs` of the least signed integer stays negative in a release build | `C79_abs_min` |
| C84 | `normalize` of an `f32` vector of length 2^-80 is infinite, of length 2^70 is zero; `C84_exact` and `C84_finite_iff` say for which vectors this happens | `C84_refuted` |
| C87 | `norm` of the zero interval vector is NaN; `dot` of straddling components misses the exact value | `C87_norm_refuted`, `C87_dot_refuted` |
| C89 | `generate_ray` panics for the centre ray when the object is at twice the focal length (0/0 in `normalize`, then the assertion in `map_vector`) | `C89_refuted`, `C89_panic` |
| C99 | interval `is_infinite` is true for [1, 2] and false for infinity | `C99_refuted` |
| C91 | a list reports its last hit, so shortening a ray to before the reported hit can expose another one | `C91_list_not_sharp` |
| C121 | a ray within the lower x face of a box is missed, the mirrored ray within the upper face hits (NaN in `Scalar::min`/`max`) | `C121_box_mirror_refuted` |
| C122 | the unit matters for spheres when the square of the radius underflows | `C122_sphere_refuted` |
| C123 | the float product of members of two straddling intervals leaves the interval product | `C123_refuted` |
| C124 | a thin box far from the ray reports its rear face, with a normal along the ray | `C124_refuted` |
| C125 | the normal of a sphere hit on the axis is NaN on floats | `C125_pole` |
| C127 | on floats too, `map` of a normal uses z² for z | `C127_rounding`, `C127_refuted` |
| C128 | an undecided interval test counts as false, so a program with it need not enclose the exact result | `C128_refuted` |
| C129 | composed transforms with interval entries lose members when two straddling entries are multiplied | `C129_refuted` |
| C94 | a ray from the centre of the `f32` sphere of radius 0.1 misses it: the computed hit lies above `z_max` | `C94_refuted` |
| C10, C26 | f32 `pi_upper` equals `pi_lower`, below π; also tau, π/2, π/4 | `C10_f32_upper_wrong`, `C26_refuted_f32` |
| C12, C23, C27 | product of two intervals straddling 0: upper bound is `max(a.inf², b.sup²)` instead of `max(a.inf·b.inf, a.sup·b.sup)` | `C12_refuted_straddle` |
| C12, C13 | `0 · inf` gives NaN bounds | `C12_refuted_nan`, `C13_refuted` |
| C17, C20 | `sqrt` of an interval reaching below zero has a NaN bound | `C17_refuted`, `C20_refuted_sqrt` |
| C19 | `==` is "both the same single point", documented as "same bounds" | `C19_doc_refuted` |
| C24 | `sin`/`cos`: width in (π, 2π) with equal endpoint derivative signs | `C24_refuted_sin`, `C24_refuted_cos` |
| C25 | `asin`/`acos` are intersected with [0, π/2]; `atan2` with an exact zero argument returns 0 | `C25_refuted_*` |
| C26 | `from_i64`/`from_f64` round to a single point | `C26_refuted_i64`, `C26_refuted_f64` |
| C40 | `map_normal` multiplies the third term by `n.z` twice | `C40_refuted` |
| C41, C68 | `map_bbox` sums over columns instead of rows | `C41_refuted`, `C68_refuted` |
| C43 | mapping interval vectors/rays always panics (`0 == [−tiny, tiny]` is false) | `C43_refuted` |
| C53 | a ray within a `pmin` face is missed (`0/0`) | `C53_refuted` |
| C54 | `dpdu × dpdv = −n`; the hit point is moved to a face when the origin is inside | `C54_refuted` |
| C55 | `b = d = 0`: second root is `0/0` | `C55_degenerate` |
| C60, C61 | θ is computed from `clamp(z/r, 0, 1)`: wrong below the equator; normal at the pole is 0/0 | `C60_refuted`, `C61_refuted` |
| C62 | `area()` uses `phi_max` where the parameter range is `phi_max + π` | `C62_refuted` |
| C64 | a list returns the *last* hit (`ray` instead of `ray_mut` is passed on) | `C64_refuted` |
| C67 | a transformed primitive returns the object-space interaction | `C67_refuted` |
| C72 | focus plane is `z = film_distance − focal_distance` | `C72_refuted` |
| C73 | `focal_distance = 2·focal_length`: zero direction normalised | `C73_refuted` |
| C74 | slope is `tan(fov/2)/4` | `C74_refuted` |
| C135 | reordering a scene list changes which hit is reported (consequence of C64) | `C135_refuted_order` |
| C136 | doc comment of `look_at`: the origin is mapped to `pos`; `map` takes `pos` to the origin, `map_inverse` the origin to `pos` | `C136_refuted_doc`, `C136_origin` |
| C138 | on floats scale(u) * scale(v) is not quite scale(u * v): the inverse factors are rounded differently | `C138_float_scale_refuted` |
| C140 | a ray within the `pmin` face of a box hits a flat box lying in that face and misses the box around it (consequence of C53) | `C140_refuted`, `C140_sharp` |
| C141 | in floating point visibility is not symmetric: near an edge a box can block the way from A to B and not the way back (within rounding; exact arithmetic is symmetric) | `C141_float_refuted` |
| C143 | the ray traced picture is four times as large as the one projected with `perspective` of the same field of view (C74) | `C143_refuted`, `C143_exact` |
| C144 | interval products do not commute, and a sign cannot be taken out, when zero is strictly inside both factors (consequence of the upper bound of C12); `abs` depends on the sign of an interval without zero | `C144_refuted`, `C144_sign_refuted`, `C144_abs_exact` |
| C147 | a ray with a finite direction can panic in a scene with nested transforms (the direction overflows on the way) | `C147_finite_refuted`; when it cannot: `C147_exact`, `C147_deep` |
| C148 | `overlaps` answers yes for an empty (inverted) box whose bounds lie inside the other box | `C148_empty_refuted`; exact condition `C148_overlaps_intersect` |

## 6. Testing of the float model

`difftest/difftest.lean.txt` compares the soft-float (`+ - * / sqrt`, comparisons, casts) with the hardware through
Lean's own `Float`/`Float32` on random and boundary bit patterns: 800,832 cases, no difference.  This is a test of
the trusted reading of IEEE-754, not a proof, and nothing depends on it.

`difftest/repo_tests.lean.txt` runs the repository's own unit tests on the model (libm through Lean's `Float`).  The
deterministic ones hold as asserted; in particular the iteration counts 365, 54 and 54 of `spiral_test`,
`square_root_test` and `division_test` (interval.rs:448-522), which depend on every bit of the `f64` interval bounds.
The randomised ones use other random inputs than the repository's fixed seeds and mostly fewer rounds.  On those, every
assertion of the `sin_cos`, `atan2`, rotation, `look_at` and `perspective` (field of view at least 0.001) tests holds.
Three tests hold on most inputs only:

* `test_rotate_invertible` asserts that `rotate_x(a) * rotate_x(-a)` *equals* the identity: true for 241 and 249 of 300
  angles in two runs (the repository tests one).
* `test_ray_box_intersection`: 2 to 5 of 300 in three runs.  In the seven cases printed, a ray parameter is off by 2e-6
  to 2e-4 and one component of the direction is a small fraction of the coordinates (the ray is nearly parallel to a
  face), so `(plane - origin) / direction` cancels.
* `test_ray_full_sphere_intersection`: 1 and 4 of 2500 in two runs.  In the five cases printed, a parameter is off by
  4e-6 to 3e-4 and the two chosen points are close together (0.02 to 0.26 radii).

Whether the repository's own seeds avoid such inputs was not checked (the code cannot be run here).  Again a test of the
model; no claim rests on it.

## 7. Mutation testing of the theorems

`tools/mutants.py` lists seeded bugs (one edit of one model definition each); `tools/mutate.py` applies each in a
scratch copy, builds, replaces every failing proof by a hole *in the scratch copy*, repeats until the build ends, and
lists the property theorems that fail or rest on a failing one.  Results are in `seeded/LOG.jsonl`; for a survivor,
`theorems_tightened` names what was added or strengthened in response.
