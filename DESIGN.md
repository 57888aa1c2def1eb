# Formal model of cfnptr/math

## Approach

The model is written in Lean 4 under `lean/Verif/`. `Model/` holds the model of the code, function by
function, with file and line citations. `Spec/` holds the small independent specifications that the
theorems refer to. `Proofs/` holds helper lemmas. `Props/` holds one file per group of properties; the
theorems in it are the deliverable, and beside each of them stands an `example` showing that a concrete
case meets its hypotheses.

### Three views of `float`

1. **Abstract floats.** Code whose correctness must not depend on float behaviour (BVH construction,
   traversal) is modelled over an arbitrary type with arbitrary operations (`Flt F`, a class without laws).
   Theorems then hold for every float semantics, rounding mode, NaN and FMA contraction included.
2. **Binary32 bit patterns.** `F32` is a 32-bit word with IEEE-754 comparison, sign operations,
   and arithmetic by exact rational computation followed by round-to-nearest-even. Theorems that depend on
   comparison, NaN or rounding are stated here.
3. **Exact arithmetic.** Geometric identities are stated over the real numbers. This ignores rounding and
   is said so in every property ("exact arithmetic"). It is the usual meaning of such an API contract,
   but it says nothing about rounding error.

### SIMD backends

The repository selects SSE / SSE4.1 / AVX2 / NEON / scalar code by preprocessor. The model follows the
SSE4.1/AVX2 branch (the one the repository's own CMake file builds on x86-64) and models the other
branches where a property is about agreement between them.

### Undefined behaviour

Functions that can reach undefined behaviour return a value in a type with a distinct outcome for it.

## Plan per property

* **C01 Version encoding is lossless.** BitVec model of both conversions; `decode (encode v) = v`, `encode (decode n) = n` by bit extensionality.
* **C02 Version comparison is lexicographic.** Compare encoded BitVec 32; spec is lexicographic order on 4-tuples of Nat; proof by omega on `toNat`.
* **C03 Version strings identify the version.** `to_string` modelled as decimal digits (Nat.repr); injectivity by uniqueness of splitting on dots.
* **C04 Enum flag operators are set operations.** Width-generic BitVec w (w<=64) with zero-extension to 64; lane-by-lane via getLsbD.
* **C05 hasOneFlag tests for the flag.** Same model; negation with a witness, and a `_partial` theorem giving the exact condition under which it is right.
* **C06 Hex formatting round-trips.** toHex as List Char over BitVec; parse as strtoul base 16; induction on length.
* **C07 Hex formatting with an explicit length is defined and truncates or zero-pads.** Same model with an explicit UB outcome for oversized shifts; negation + partial for lengths within the promoted width.
* **C08 Color integer and hex forms round-trip.** Four-byte struct model, little-endian reinterpretation.
* **C09 Color survives conversion to normalized floats and back.** Executable IEEE binary32 softfloat (round-to-nearest-even over rationals); whole finite table (256 channel values) by kernel evaluation, lifted to all colors.
* **C10 Normalized channel getters and setters are inverse.** Same softfloat model; whole table of 256 channel values by kernel evaluation, lifted to all colors.
* **C11 Color from floats saturates and is monotone.** Softfloat; float->uint8 conversion has a UB outcome; monotonicity from monotonicity of rounding.
* **C12 Color comparison operators are consistent.** Order facts over BitVec 8.
* **C13 Packed vector: reading back what was written.** Byte array (List (BitVec 8)) model; all three widths.
* **C14 Packed vector: writes do not disturb other elements.** Same; histories by induction on a list of writes; refinement to an abstract array.
* **C15 Packed vector: resize makes exactly the requested indices addressable and keeps old elements.** Same; resize model.
* **C16 Packed vector: checked access rejects out-of-range indices.** Model of the assert; exact for Bits 1, 2; negation for Bits 4.
* **C17 Packed vector: copies are independent.** Heap model with object identities and the cached pointer; negation with concrete history.
* **C18 Scalar helpers: sign, repeat, lerp, gain.** Real-number model.
* **C19 Frame-rate independent smoothing.** Real-number model with rpow; induction over the list of time steps.
* **C20 Comparison masks, select and mask tests agree.** Lanes generic over BitVec 32 and over binary32 bit patterns (NaN-aware comparisons).
* **C21 Vector min, max and clamp are lattice operations.** BitVec and binary32 bit patterns.
* **C22 Unsigned SIMD vectors behave as unsigned on every backend.** One model per backend; negation for SSE; partial for values below 2^31; NEON/fallback proved.
* **C23 Vector constructors place every component.** Structure literals; negation for int3(int2,int32).
* **C24 isBinaryLess is a usable map order.** Byte-lexicographic model of memcmp over little-endian bytes; uint2/int2 as 64-bit words.
* **C25 Mip chain arithmetic.** Float conversion of the size via softfloat rounding; log2f as a parameter with an assumption (correctly rounded); negation at large sizes, partial for sizes below 2^16.
* **C26 Dot and cross products satisfy their algebra.** Exact arithmetic; SSE shuffles modelled lane by lane.
* **C27 Box extension is the least enclosing box.** Comparison-only code on binary32 bit patterns (NaN-free).
* **C28 Box containment test.** Comparison-only code; negation for differing w lanes; partial with consistent w lanes.
* **C29 Box size, position and extent setters and getters are inverse.** Exact arithmetic.
* **C30 trySet rejects inverted boxes.** Model of the w-lane trick; negation + partial.
* **C31 Closest point on a box is the nearest point.** Exact arithmetic; coordinatewise clamp minimises the sum of squares.
* **C32 Box-box intersection test.** Negation with witness.
* **C33 Box-box intersection test is reliable for what it reports.** Proved as the sound half.
* **C34 Ray-box test.** Slab test over the reals with explicit parallel masks.
* **C35 Triangle-box test is exact.** Separating-axis argument: each axis test computed by the code separates the point sets. For the converse, Hahn-Banach gives some separating axis; on the cone of axes with the same signs and the same nearest vertex the gap is linear, so a corner of the cone separates too, and corners are orthogonal to two constraints, hence candidates.
* **C36 Sphere containment and intersection tests.** Exact arithmetic.
* **C37 Plane distance and projection.** Exact arithmetic.
* **C38 Plane through a triangle contains the triangle.** Negation with witness; partial for planes through the origin.
* **C39 Frustum planes describe the clip volume.** Ring identities.
* **C40 Frustum culling never culls visible boxes.** Convexity: a half-space missing all eight corners misses the box; induction over planes.
* **C41 Barycentric coordinates and point-in-triangle.** Field identities, Gram determinants.
* **C42 Closest point on a segment and on a ray.** Quadratic minimisation on [0,1].
* **C43 BVH build always terminates within its node budget.** Function-by-function model of the builder loop, all float operations abstract (any type with any operations); well-founded measure.
* **C44 BVH build keeps every primitive exactly once.** Same model; permutation preserved by swaps; invariant over the loop.
* **C45 BVH leaves partition the primitives.** Same model; range/tree invariant.
* **C46 BVH partition step never leaves the index array.** Explicit UB outcome for out-of-range access; negation with witness, partial under the condition that some centroid is left of the split; a condition on the primitives that excludes the faults is C104.
* **C47 BVH node bounds enclose their contents.** Comparison laws of binary32 added to the abstract model; invariant over the build.
* **C48 BVH node encoding.** BitVec lanes.
* **C49 BVH traversal visits exactly the accepted leaves.** Stack machine over the node array; induction on tree height.
* **C50 BVH frustum collection is conservative.** Same, plus C40.
* **C51 Quaternion multiplication composes rotations.** Ring identities over the reals.
* **C52 Quaternion rotation agrees with its matrix.** Ring identities; extraction by cases on the branch with sqrt.
* **C53 Axis-angle and Euler construction.** Real sin/cos identities.
* **C54 Slerp endpoints and unit length.** Real trigonometry.
* **C55 Matrix algebra.** Ring identities, all sizes; SIMD product.
* **C56 Matrix inverse.** Ring/field identities; negations for float2x2 and float3x3.
* **C57 Row-vector times matrix.** Negation with witness.
* **C58 Translation and scale compose.** Ring identities.
* **C59 Extracted scale and rotation invert calcModel.** Negation with witness; squared lengths as partial.
* **C60 Look-at matrices.** Real model; lookAt proved; negation for lookAtQuat.
* **C61 Rigid inverse.** Negation with witness; partial for zero translation.
* **C62 Perspective projections map the view frustum to the clip volume.** Real model with tan.
* **C63 Orthographic projections map the box to the clip volume.** Field identities.
* **C64 sRGB transfer functions.** Real rpow.
* **C65 XYZ and Yxy conversions.** Field identities; negation for white point.
* **C66 Hammersley points.** BitVec bit reversal; softfloat for the unit interval.
* **C67 BRDF helper ranges.** Real model.
* **C68 Cube map addressing.** Real model, abort as explicit outcome.
* **C69 Spherical harmonics indexing and basis.** Integer arithmetic for indices; ring identities for basis.
* **C70 Angle conversion.** Exact arithmetic.
* **C71 lookAtQuat rotates the front vector to the direction.** Real model; negation with witness, partial for horizontal directions.
* **C72 Matrix shape conversions place every element.** Element-wise model with asserts as explicit outcomes; one failing index recorded.
* **C73 Spherical harmonics rotation rotates the function.** Polynomial identities modulo the orthonormality equations; negation for band 1.
* **C74 Texel solid angles are exact and cover the sphere.** Solid angle specified as an integral; antiderivative by HasDerivAt, sums by telescoping.
* **C75 Spherical harmonics windowing and deringing.** The minimum search is a parameter, so the theorems hold for every search; loop invariants; negation for the "unattenuated" part.
* **C76 Shader form of spherical harmonics.** Ring identities with exact constants; array traversal by evaluation.
* **C77 Integer vector operators.** Operators generated one by one from the headers over a checked machine-integer model (`CInt`: undefined is `none`); a relational specification over mathematical integers; lane-wise reduction.
* **C78 SIMD integer operators agree with the scalar ones on every instruction set.** Each intrinsic modelled on words; equality with the checked model whenever that is defined; two examples where undefined scalar inputs differ.
* **C79 Floating-point vector operators are lane-wise and correctly rounded.** Softfloat model; correct rounding of sum, difference, product, quotient proved as nearest-value statements over the reals; backends compared bit for bit.
* **C80 round, floor, ceil and trunc return the right integer, on every instruction set.** The <cmath> functions and the rounding instructions as functions of the exact value in units of 2^-149; each lane proved to be the specified integer. Identity across instruction sets fails for round at halves (to even on SSE4.1 and NEON, away from zero elsewhere): witness plus a partial theorem.
* **C81 The SIMD logarithm is the natural logarithm.** Model/SimdMath `log1`, word for word on the software binary32. Props/SimdLog: exponent extraction by cases on the product with 4/3 (including its overflow to infinity), exactness of the significand, polynomial error by derivative bounds, rounding by the `Approx` rules of Proofs/F32Real.
* **C82 The SIMD exponential is accurate, overflows to infinity, underflows to zero and keeps NaN.** Model/SimdMath `exp1`. Props/SimdExp: reduction to |x| <= 0.35, Horner error against the exponential series, exact scaling by two powers of two, subnormal rounding, overflow.
* **C83 The fast SIMD power and gamma correction follow pow.** Model/SimdMath `fastPow1`, `fastGamma`. Props/SimdPow combines C81 and C82; parity words for negative bases; the real power of Mathlib as the specification.
* **C84 The SIMD sine and cosine are accurate to the last places.** Model/SimdMath `sinCos1`. Props/SimdSinCos: exactness of the three-part Cody-Waite reduction for |v| <= 8192, Bernstein-form polynomial bounds, quadrant selection by sign words.
* **C85 Scaling and moving a shape moves its points.** Model/GeomOps.lean models every operator; Props/GeomOps.lean proves the set of points is the image of the set (exact arithmetic) for lines, triangles, boxes with non-negative scales and scaled rays, and containment in binary32 by monotonicity of rounding. Moving a ray and negative box scales are refuted.
* **C86 Equality of shapes and matrices.** memcmp over the object bytes is proved to be bitwise identity; f32x4x4 equality from the mask tests on each instruction set; counterexamples show it is not numeric equality. Aabb::isBinaryLess is shown to ignore 8 of the 32 bytes.
* **C87 The named shapes are what they are called.** closed evaluation of the constants; inf contains every point by the key order of binary32; full is refuted.
* **C88 BVH nodes are split at the cheapest candidate plane.** Spec/Sah states sides, boxes, surface and cost of a plane from the list of primitives of the node. Props/BvhSah proves, in binary32, that the plane returned is minimal for the cost with the weights the code really uses (number of primitives less 8388609 per empty slot), that it is minimal for the true cost if no slot is empty, and gives a node where it is not (the counter of an empty bin starts from the bits of -FLT_MAX).
* **C89 Products of vectors, matrices and quaternions are accurate in binary32.** Props/VecAccuracy.lean: an error calculus that counts roundings per term (Proofs/F32Sum.lean: `Err r x W k m`) with rules for addition, subtraction, product and fused multiply-add, then one lemma per summation order. Specification Spec/Accuracy.lean (`SumOk`). Witness that the range hypothesis is needed.
* **C90 Lengths, distances and normalised vectors are accurate in binary32.** Props/LengthAccuracy.lean: relative error rules for square root, division and reciprocal on top of C89; specification `RootOk`, `SquareOk`, `UnitOk`.
* **C91 normalize returns vectors that isNormalized accepts, and the two closeness tests answer correctly.** Props/LengthAccuracy.lean: error budget 14.1 * 2^-24 < 1e-6. Partial: vectors whose squared length is below 2^-100 or above 2^126 are excluded, and a counterexample shows normalize fails on a vector of length 2^-80 and on one of length 2^70.
* **C92 repeat brings every number into the unit interval, the same way on every type.** `Model/FloatElem` has `repeat` with `fmod` on the scalar side and with the SIMD `mod` and `select` on the other. Proved by exactness of `fmod` and of the floor-based remainder for divisor 1, then correct rounding of `1 - r`.
* **C93 mod computes the remainder.** `fmod` is modelled on integers counting units of 2^-149 and proved to be the exact remainder. The SIMD formula is bounded with the rounding lemmas; the whole-number case is exact because the rounded quotient keeps its floor.
* **C94 lerp is accurate and hits its end points.** Error calculus of `Proofs/F32Sum` and exactness lemmas at the end points.
* **C95 sign, signBits, abs, sqrt and fma mean the same on every vector type and instruction set.** Bitwise case analysis for `sign` and `signBits`; `fsqrt_nearest`, `ffma_nearest` for the roundings.
* **C96 A BVH over a mesh uses exactly the triangles the vertex and index memory describes.** `Model/Mesh` reads the triangles from byte arrays with 32-bit address arithmetic; `Spec/Mesh` says what numbers the bytes hold. Proved under the condition that both buffers are at most 4 GiB; above that the address wraps (counterexample), and fewer than three indices are a fault.
* **C97 Rebuilding a BVH does not depend on what the object held before.** A simulation between two builds whose node arrays agree below `nodeCount`: each step writes a node before it is read. With given centroids the centroid array is left as it was (counterexample).
* **C98 Conversions between integer and float vectors.** `Model/Convert` has the casts with undefined results as `none` and the SIMD conversion instructions; `Spec/Convert` defines truncation over the reals. The casts are characterised by an equivalence; the round trip uses exactness of small integers. SIMD only partly: the fallback casts through unsigned, SSE converts unsigned words as signed.
* **C99 SIMD vectors carry four values unchanged.** `Model/Lanes`, with the argument order of the intrinsics and the shuffle immediate. Case analysis over backends; the immediate is decided over all 256 patterns. The fallback load from a pointer repeats the first value (counterexample).
* **C100 The named vector constants are what their names say.** Order of floats through their keys; the constants as bit patterns.
* **C101 The minimum search of deringing tells whether the function goes negative.** model shmin in full (Model/ShMin: axes, rotation, bound, Newton loop with fuel). Exact arithmetic: bound by Cauchy-Schwarz and the minimum of a quadratic on [-1,1]; zonal functions: Newton step is exact; counterexamples for a concave zonal function (maximum returned), for horizontal light (band 1 rotated the wrong way), and in binary32 for vertical or no directional light (NaN).
* **C102 A color survives conversion to linear values and back.** Model toLinear/fromLinear on binary32 with pow left open (FltT F32). Assume only PowAccurate. Bound the error of the decoded and re-encoded channel with the Approx calculus and logarithm inequalities, then close by monotonicity of the quantiser between n/255 - 0.001 and n/255 + 0.001. Show an accurate pow exists.
* **C103 Sphere, plane and frustum tests in binary32 are wrong only within rounding distance of the boundary.** Spec/Reliable.lean defines the margin and the exact geometry over the reals of binary32 inputs. Props/Reliable.lean: the functions of Model/Geom.lean at F32, with the rounding counts of Proofs/F32Sum.lean; the clamp onto the box is exact, the corners are exact, and an affine function below a bound at the corners is below it in the box. Props/CullTargets.lean repeats the argument for every backend and target (Model/CullTargets.lean).
* **C104 A BVH build over separated primitives never fails.** Spec/BvhSafe.lean states the condition on the primitives. Proofs/BvhSafe.lean: the loop and the split are total when every computed split leaves both sides non-empty. Props/BvhSafe.lean: rounding bounds show that the bins of the two extreme centroids are 0 and the last, that every bin number fits, and that the costs are finite, so a chosen split is strict. bvh_partition_underflow and bvh_bin_overflow (C46) show the failures without separation.
* **C105 A frustum or sphere query of a BVH loses no primitive to rounding.** `Spec/BoxTest` says what it means that a test grows with the box. `Proofs/BoxTest` shows it lane by lane from the monotonicity of binary32 addition and multiplication: `frustum_grows`, `sphere_grows`. `bvh_query_boxes` and `bvh_query_triangles` combine any such test with the node bounds of C47 and the traversal of C49; `bvh_collect_f32` is the version of C50 in binary32.
* **C106 A ray or point query of a BVH loses no primitive.** `rayI_grows_partial` and `ray_grows_partial`: the ray test grows with the box when the reciprocals are finite, respectively when no direction coordinate is below 2^-40 or above 2^40 in absolute value. `ray_parallel_counterexample`: with an infinite reciprocal a box is hit, a larger one is not, and a tree loses the primitive. `bvh_point_query_counterexample`: the point test compares the fourth lane, which holds the primitive count in a leaf, so no leaf accepts a point whose fourth lane is zero. On every backend: `raycastI_targets_agree` (the same answer as on SSE4.1, and distances that compare equal, when no product with a reciprocal is NaN), `rayI_grows_targets_partial` and `ray_grows_targets_partial`. `rayI_grows_axis_partial`: axis-parallel rays, with infinite reciprocals, when no face of either box lies in a plane that holds the ray (Spec/RayAxis.lean). `ray_parallel_targets_counterexample`: with a NaN product the backends disagree, and SSE2, SSE4.1 and the scalar code each hit a box and miss a larger one.
* **C107 SIMD matrix functions give the same result on every instruction set.** Model `MatBackends`: the SSE, NEON and plain versions with the multiply-add as a parameter. `inverse4x4_real`: all four versions are one function over the reals. `inverse4x4_bits`: SSE and NEON give the same bits. `transpose4x4_bits`: the transpose everywhere, for any component type. `products_sse_neon`, `products_unfused`: products agree bit for bit. `block3x3_unfused_partial`: the upper block of `multiply3x3(a, b)` and `transpose3x3` agrees. The claim fails outside the block: `multiply3x3_backends_counterexample` (fourth column) and `transpose3x3_backends_counterexample` (fourth row).
* **C108 Matrix operators with a scalar act on every element.** Model `MatOps`, on the vector operators of `FloatOps`. `matOps2`, `matOps3`, `matOps43`, `matOps4` state each element with the rounding specification of C79; `matOps_simd` equates the SIMD forms; `matOps_fill` covers the constants.
* **C109 Rounding errors of long products grow linearly.** Spec `Products`: a product as a binary tree, evaluated by the code and exactly (Hamilton quaternions and matrices of Mathlib). One induction over the tree in any seminormed ring, from the error of a single product (C89) and submultiplicativity of the norm; corollaries for unit quaternions and for the loop `q = q * d`.
* **C110 Rotating vectors by quaternions is accurate, and rotating back returns the vector.** Model `QuatTargets`: rotation, inverse and inverse rotation with the cross and dot products of each backend and both kinds of multiply-add. Spec: conjugation in the Hamilton quaternions. Rounding errors of the two cross products and the two multiply-adds are added up along one axis and the three axes follow by cyclic symmetry; the formula of the code is compared with conjugation exactly; the round trip follows from conjugation being an isometry.
* **C111 Model matrices in floats place points correctly.** Model `TransformTargets`: calcModel with the product and the normalisation of each target. Spec `Place`: scale, conjugation in the Hamilton quaternions and translation. The error of normalisation (C91) is carried through the entries of the rotation matrix; products with the zeros and ones of translation and scale matrices are shown to be exact (every partial sum is a float), so only the scaling and the final product with the point add roundings.
* **C112 Frustum culling in floats is right up to rounding.** Spec `Cull`: exact clip coordinates of a point, the six faces of the clip volume (shown equivalent to `InClip` of C39), the sizes of the terms. Each computed plane is a positive multiple of a face up to a relative error per coefficient (one rounding for the extraction; length and division when normalised); the binary32 bounds of the culling test (C103) then decides up to the slack. Props/CullTargets.lean: on every backend.
* **C113 Text forms of vectors and colors read back.** Model `VecText`: to_string as %d, %u and %f (exact value of the float times 10^6, rounded to nearest even, decimal digits). Spec `VecText`: readers of signed integers and decimal numbers. Splitting at spaces (shown not to occur in the numbers), reading the digits back, and the error of the rounding; from 16 on the spacing of floats exceeds a millionth, which gives injectivity.
* **C114 Mathematical functions of vectors act on every component.** Model `VecMath`: one line per function and width, transcribed with the library as a parameter. Case analysis over the function; `select` on comparison masks for gain. Connects the scalar results C18 and C19 to the vector functions.
* **C115 View matrices are accurate in binary32.** `Model/TransformTargets.lookAt`, `rotateLook` on every backend; `Spec/Rigid.IsView`, `IsFacing` describe the exact camera, `Spec/Camera.NearRigid` the distance and `CameraOk` the conditions. Proved by following the error through each step on pure quaternions (length of a cross product at most the product of the lengths, distance of two normalised vectors at most twice the relative distance). `view_unique` shows that the exact view is determined. `Model/FrontTargets.rotateFront` (`rotate(front, up)`) keeps `front` as it is given, so its error appears in the bound; the side vector does not depend on the length of `front`.
* **C116 Angle conversions are accurate in binary32.** `Model/Angles` in binary32; `Spec.HalfUlps` in `Props/AnglesF32`. Relative error of the rounded constants against pi (bounds on pi from Mathlib), then of the products, with the relative error calculus in `Proofs/F32Rel`; order from monotonicity of rounding.
* **C117 Projections clip correctly in binary32.** `Model/Projection` in binary32 and the products of `M4.mulV`, `F32x4.mulVOn`; `Spec/Project` gives the clip volume, the view volume with a margin and the conditions on a camera. Relative error of each entry, then of the product, then the six inequalities. The library tangent is a parameter with the hypothesis `TanOk`; `tanOk_exists` shows that one exists.
* **C118 Inverse matrices are accurate in binary32.** `M4.inverse`, `Simd.inverse4x4Sse`, `inverse4x4Neon`, `inverse4x4Plain` in binary32 against Mathlib's `Matrix.inv`; `Spec/Inverse` defines the sum of absolute values of the terms of a determinant and the conditions. `Proofs/F32Poly` bounds the rounding error of any polynomial built from inputs by counting roundings, products and terms; each of the sixteen cofactors is such a polynomial, then one division and one product. float2x2 and float3x3 are left out: their inverses are wrong (C56).
* **C119 The triangle-box test is reliable in binary32.** `Sat.test` at binary32 against the exact geometric statement (`boxAround`, `Tri`, `satMargin` in `Spec/Sat`). The vertices relative to the center are rounded first; the rounded triangle is within 2/2^24 L of the exact one. On it, each edge axis is decided with an error proportional to the axis (`edge_test`; values lie on a grid of 2^-48, so an axis is zero or not small), the box axes are decided exactly, and the error of the normal is bounded by the thickness of the triangle (`thick`). The separating axis theorem of C35 (`some_candidate`, `disjoint_axis`) gives both directions. `sat_misses_sliver` shows that the thickness is needed: a nearly degenerate triangle through the center of a large box is missed. `Sat.testOn k` is the test of each backend, with its own dot and cross products, lane minimum and maximum and transpose; the intermediate values differ at most in the sign of a zero, so the answers agree (`sat_targets_agree`) and both directions hold on every backend.
* **C120 Component access, integer conversions and three-way minima.** `Model/VecAccess`: indexing as access to the list of members behind the assertion, casts as `BitVec` conversions. `Spec/Access` states reading and writing for a component function on `Fin n`; proofs by cases on the index and by `omega`.
* **C121 The ray-box test is reliable in binary32.** `Spec/Slab` gives the box with its faces moved by a part of their distance from the origin. Each rounded crossing time is the exact crossing time of a face so moved (relative errors of a difference, a product and, for `raycast`, a reciprocal and a division by the common length), comparisons are exact, so the answer lies between those for the narrowed and widened boxes. A box that is a single point on the ray is missed, so a margin is needed.
* **C122 Cube map texel directions are right in binary32.** Error analysis of the rounded reciprocal, of the exact addition of a half, of the product and of the fused multiply-add; the normalisation moves all three components by nearly the same factor (C94), so the lookup quotients keep their value up to a few units. The specification of the lookup is the one of `Spec/Sampling`.
* **C123 Extracting Euler angles inverts building a quaternion from them.** Exact arithmetic. The five entries of the rotation read by the code are computed by double-angle formulas, and polar angles are undone with `Complex.arg`. For the converse, two unit quaternions sharing these entries differ by a rotation fixing two independent directions. Partial: the pitch is guarded with `||` where `&&` is needed, so a pitch of zero with a yaw and a roll is read back as something else (`extractPitch_wrong`); the pitch theorems exclude the guard except for turns about the x axis alone and for gimbal lock.
* **C124 Closest point on a triangle is the nearest point.** Exact arithmetic. The point is written as its foot on the triangle's plane plus a multiple of the normal; distances to points of the plane then differ from those of the foot by a constant, so choosing among the three edges is not disturbed by the wrong plane built from the triangle (C38). A foot off the interior meets an edge on its way to any point of the triangle. Partial: the plane is wrong unless it passes through the origin, and then every point above the interior gets a wrong answer (`triangle_closest_wrong`, for all such triangles and points); the inside test has the defect of C41 on one line.
* **C125 Shape setters, directions and scaling change what they name.** Exact arithmetic, by calculation on the components and, for boxes, on membership of points. Partial: a negative factor swaps the ends of an axis, and the scaled box then has no points (`scale_negative`, for every box).
* **C126 Closest points of segments, rays and planes are accurate in binary32.** Binary32 softfloat, on every backend and with the multiply-add of every target (`Model/ClosestTargets.lean`). Differences have relative error 2^-24, dot products an error relative to the sum of the products, so the parameter of the foot is off by a multiple of 2^-24 |p - a| / |d|; multiplied by the direction the length of the segment cancels, and clamping is non-expansive. Exact nearest points are those of C42 and C37. Partial: for rays the code recomputes the direction as (o + d) - o, so the error grows with the square of the coordinates (`ray_closest_targets_f32_partial`), and for every ray starting far from the origin the answer is NaN (`ray_closest_targets_nan`).
* **C127 Spherical harmonics are accurate in single precision.** Model: `Sh.computeShBasis` and `Sh.rotateSh3Bands` at `F32`, the definitions C69 and C73 use at the reals. Spec: `Near`, `NearV3`, `NearM3`, `CoeffsLe`, `shValue` (Rodrigues' formula), `harmonics2`. Proof: the nine stored expressions are unfolded; an error calculus (`Bd`: error as a multiple of input error plus one rounding, and a bound on the exact value) is applied to each operation, and the exact results are C69 and C73. Not covered: band 1 of the rotation, which is wrong already in exact arithmetic (C73).
* **C128 Barycentric coordinates in binary32.** Modelled by the Flt-generic Triangle.calcBarycentric at F32. Spec/BarycentricF32 gives the shape and reach conditions and the exact weights (nearest point of the plane). Proofs/F32Scale has the error calculus with a scale; every dot product has an error relative to the product of the lengths, and the determinant is at least 1/K of its scale.
* **C129 Point-in-triangle test in binary32.** Modelled by the Flt-generic Triangle.isInside at F32. The dot products of the three cross products equal the products of the exact weights times the squared area plus the squared distance from the plane times a dot product of sides (algebra); the computed values are within 134 * 2^-24 M^4 of that (Proofs/F32Scale).
* **C130 Reflectance helpers in binary32.** Modelled by the Flt-generic Brdf definitions at F32 (Model/Brdf). Propagate relative errors; the denominator 1 - (1 - a^2) y is at least a^2, so its cancellation costs a factor 1/a^2. The claim is false for tiny roughness: concrete roughness values give NaN (importance sampling) and infinity (ggx), so the accuracy theorems carry lower bounds on roughness.
* **C131 Rotations built from angles are accurate in binary32.** Quat.ofAxisAngle and fromEulerAngles at F32 with the modelled SIMD sinCos (C84). Halving an angle is exact; sine and cosine are within 2.1e-7; errors of the products are added. Conjugation by a quaternion close to a unit quaternion is compared with the exact conjugation, which is Rodrigues' formula; the rotation itself is C110.
* **C132 XYZ and Yxy conversions are accurate and invertible in binary32.** Model ColorTargets: the conversions with the dot product of the backend and the multiply-add of the target (color_targets_sse41 ties it to the model of C65). The matrix constants are rounded literals; error bounds of C104 for the products are composed with relative error bounds for the divisions. False for black, whose chromaticities are NaN (rgbToYxy_black_targets).
* **C133 Extracting the rotation of a matrix is accurate in binary32.** Transform.extractQuat at F32. The four candidates are within 3e + 6 rounding units of 4c^2 - 1 for the components c; the chosen one is the largest of the computed numbers, so its component is at least 0.499 whichever branch rounding selects. The square root, the quotient and the products are bounded from there. Combined with C111 (model matrices) and C110 (rotation of vectors).
* **C134 Measuring and placing boxes is accurate in binary32.** Aabb at F32, coordinate by coordinate. A rounded result never passes a representable number that the exact one does not pass, which gives the containments (2 min <= min + max <= 2 max with 2 min and 2 max representable). The errors follow from the bounds of single operations.
* **C135 Spherical interpolation is accurate in binary32.** slerpOn is slerp with the dot product of a backend. The exact weights sin(s x)/sin x are Lipschitz in cos x with constant 3/4 up to x = 1.6, so the error of the dot product, not of the angle, enters the result; that covers both formulas and the switch. The errors of the sines, of the numerator and of the quotient are proportional to the angle, which cancels against sin x >= 0.573 x.
* **C136 Texel solid angles are accurate in binary32.** calcSolidAngle at F32 on coordsToST. The rounding of the corner positions moves the sides of the texel, which changes the angle by at most the length of the side times the move (mean value theorem on the closed form); the rounding of the four quadrant areas and of their sum is absolute. Positivity compares with a lower bound of the integral.
* **C137 Smoothing does not depend on the frame rate in binary32.** One frame at F32: the error of pow, of the two differences, the product and the sum is at most 13.1 units of the bound on the values. The exact step is a contraction and keeps values between start and target, so an induction over the list of frames adds up the errors; the bound on the values grows with them, which is where the limit on the number of frames enters.
* **C138 Windowing and deringing are accurate in binary32.** sincWindow at F32: the argument is right up to 2.5 units, sin x / x moves by at most twice the relative change of x, and three products add 1.1 units each. The bisection only computes middles of numbers between 3 and 13, where rounding is monotone and the bounds are representable, so the bounds of the exact search (C75) hold exactly in binary32.
* **C139 The constant tables of spherical harmonics are right to the last place in binary32.** Model/ShTables.lean writes the tables as the code does, with the rounding to double as a parameter of relative error 2^-53. The literals are compared with the square roots through squares and with pi through twenty-digit bounds; a small calculus of relative errors carries them through quotient and product to the conversion to float.
* **C140 The plane through a triangle is accurate in binary32.** Model/PlaneOn gives the constructor with the operations of a backend. The differences, the cross product and the division by the length are followed as vectors (norm of the error, lemmas of the camera proofs); dividing by the length doubles the relative error of the cross product, which the sine bounds. Zeros are followed exactly for triangles with a repeated corner.
* **C141 Undoing a motion with the rigid inverse is accurate in binary32.** Model/RigidTargets gives the inverse with the operations of a backend. Each coordinate is a sum of four products, one of them the rounded sum of three products that undoes the translation; both sums are bounded with the accuracy of the matrix-vector product. The round trip adds the error of the forward motion, turned back by the exact rotation.
* **C142 sRGB conversion and gain follow their curves in binary32 over the whole unit interval.** Decoding: the literal 0.04045 is the nearest float to the threshold, so the comparison agrees with the standard for every float; the base of the power has a relative error of 2.8 rounding units, and a lemma on powers with errors in base, exponent and result (through logarithms) gives the rest. Encoding: one float lies between the threshold and its literal; there the two branches are compared through twelfth powers. gain: the base of the power is exact (doubling, and Sterbenz's subtraction from one), so no error is raised to the power k.
* **C143 Euler angles read from a quaternion are right in binary32, with an error that grows towards gimbal lock.** The entries of the rotation matrix that the functions form are bounded lane by lane; the arc sine is inverted with the secant bound and, at its end, with the bound on 1 - cos; the polar angle of a disturbed point is bounded through the argument of the quotient. The pitch is partial: the guard of the code uses `or` where both entries should be tested, so an entry below FLT_EPSILON sends it to the gimbal lock formula, which C123 shows to be wrong there.
* **C144 Moving and scaling a matrix in binary32 rounds each entry once.** A multiply-add with a zero product is exact and one to zero rounds once, fused or not, so a sum of four products of which three are zero is a nearest float; translate(m, t) composes the accuracy of the 3x3 product (C89) with one rounded addition.
* **C145 SIMD float minimum, maximum and clamp are right on every backend.** `Backend.minF`/`maxF` are one lane of each branch (`_mm_min_ps`, `vminq_f32`, `std::min`) at binary32. Without NaN each answers one of its operands with the smaller key; the horizontal versions and `clamp` compose two of them. `minmax_nan`, `clamp_nan` and `minmax_zero` state where the branches differ.

## Trusted base

* Lean 4.33.0's kernel. Nothing rests on compiled code: no `native_decide`, no `bv_decide`, no `sorry`.
* The axioms `propext`, `Classical.choice` and `Quot.sound`. Every theorem named in MANIFEST.json depends on a
  subset of these three and on no other axiom.
* The reading of the C++ source into `Model/` and of the English properties into `Spec/` and the theorem
  statements.
* The C++ and hardware semantics written into the model:
  - `float` is IEEE binary32 with round-to-nearest-even, without flush-to-zero and without contraction of
    separate multiplications and additions (`F32`), in the theorems that mention bit patterns or rounding;
  - `_mm_min_ps`/`_mm_max_ps` return the second operand when a comparison is unordered;
  - float to integer conversions out of range are undefined in scalar code;
  - signed overflow is undefined in scalar code, except in the BVH builder where indices are modelled as
    wrapping 32-bit words and the theorems show they stay in range.

## What is modelled

Function by function, with line citations: `aabb.hpp`, `aabb.cpp`, `angles.hpp`, `brdf.hpp`, `bvh.hpp`,
`bvh.cpp`, `color.hpp`, `color-space.hpp`, `common.hpp`, `flags.hpp`, `hex.hpp`, `ibl.hpp`, `line.hpp`,
`packed-vector.hpp`, `plane.hpp`, `quaternion.hpp`, `ray.hpp`, `sh.hpp`, `sphere.hpp`, `triangle.hpp`,
`version.hpp`, `matrix/*.hpp`, `simd/matrix/float.hpp`, all operators of `vector/{int,uint,float}.hpp` and
`simd/vector/{int,uint,float}.hpp` (`Model/{IntOps,UintOps,SimdInt,FloatOps}.lean`), and of the vector headers the
functions listed in `Model/Vec.lean`, `Model/IntVec.lean`, `Model/VecBackends.lean`, `Model/Scalar.lean`, `Model/Mip.lean`,
`Model/Rounding.lean`, `Model/FloatElem.lean`, `Model/Mesh.lean`, `Model/Convert.lean`, `Model/Lanes.lean`, `Model/ShMin.lean`, `Model/ShTables.lean`, `Model/PlaneOn.lean`, `Model/ColorLinear.lean`, `Model/MatBackends.lean`, `Model/MatOps.lean`, `Model/QuatTargets.lean`, `Model/TransformTargets.lean`, `Model/VecText.lean`, `Model/VecMath.lean` and `Model/SimdMath.lean`.

## What is not modelled, and assumptions

* The C library functions (`log2f`, `exp2f`, `sinf`, `powf`, ...) are either exact real functions (theorems said
  to be in exact arithmetic) or parameters with a stated assumption (C25: `log2f` correctly rounded, `exp2f`
  exact at integers; both assumptions are shown satisfiable).
* Constants such as pi and the square root of three are exact reals in exact-arithmetic theorems.
* Memory allocation failure, object alignment, exceptions thrown by `std::vector`, and the `MATH_*` build
  switches other than the SIMD backend.
* The predicate given to a BVH traversal is a pure function of the node.
* The named color table `pbr-colors.hpp` (unfinished in the source: every constant is `Color()` although the comments list
  measured values, and `BaseColor` is defined thirteen times, so the header does not compile) and the type aliases in
  `types.hpp` (data without behaviour).
* `std::to_string(float)` is `%f`, as in C++23 and before, with the rounding of glibc (C113).

## Where the code disagrees with the property

Each of these has a theorem with a concrete witness, and a `_partial` theorem saying what does hold:
C05 (subset test the wrong way round), C07 (oversized shift), C11 (NaN channel), C15 (stale bits after
shrinking), C16 (4-bit bounds check), C17 (copies share storage), C18 (`repeat` of a negative integer),
C22 (unsigned lanes compared as signed on SSE), C23 (`int3(int2, int)`), C25 (mip count at large sizes),
C28 (fourth lane compared), C30 (`trySet` never rejects), C32 (one side of the overlap test missing),
C34 (`raycast2` scale, axis-parallel rays), C38 (plane distance sign), C41 (`isInside` on an edge line),
C46 (partition underflow, bin conversion), C56 (2x2 and 3x3 inverse), C57 (vector times matrix), C59 (squared
scale), C61 (rigid inverse translation), C64 (gap at the sRGB join), C65 (transposed matrix), C66 (coordinate
reaching 1), C71 (zero matrix column), C72 (`float4x3` column 3), C73 (band 1 transposed), C75 (cutoff always
reduced), C80 (`round` at halves depends on the instruction set), C81 (`log` of plus infinity is minus infinity, of NaN a number near 89; a polynomial coefficient is repeated, giving an error of 3e-5 where the original has a unit in the last place; on NEON the exponent is converted as unsigned, so the logarithm of every number below 0.75 is about 3e9), C82 (`exp` of NaN is zero), C83 (`fastPow` of zero to a negative power is zero, infinity squared is zero, fractional powers of negative numbers are positive numbers; on NEON gamma correction of mid grey is infinite), C84 (`sinCos` of large arguments is infinite), C24 (`isBinaryLess` of boxes ignores `max.z`), C85 (`ray + v` shifts the direction too; boxes scaled by negative factors; `ray *= v` does not normalise), C87 (`Aabb::full` starts at the smallest positive number), C88 (bin counters start from the bits of `-FLT_MAX` and are merged with the primitives' fourth lanes),
C91 (`normalize` of very short and very long vectors), C92 (`repeat` reaches 1), C93 (SIMD `mod` negative for positive operands), C94 (scalar `lerp` misses its end point), C95 (`fma` rounds twice with SSE),
C96 (addresses wrap at 4 GiB; fewer than three indices), C97 (`getCentroids` is stale after a build with given centroids),
C98 (SIMD float to integer: negative lanes without SIMD, unsigned lanes with SSE), C99 (the fallback load from a pointer repeats
the first value), C101 (`shmin` returns the maximum of a concave zonal function, misses horizontal light, is NaN for vertical light),
C106 (an axis-parallel ray in the plane of a box face hits a box and misses a larger one; the point test on a tree node compares the primitive count),
C107 (`multiply3x3` of two matrices and `transpose3x3` return other fourth columns and rows without SIMD).

Not a false theorem but a trap in the API: `equal(float2, float4)` and `notEqual(float2, float4)`
(`vector/float.hpp` 565-578) take a `float4` second argument where every other overload takes the same type.
