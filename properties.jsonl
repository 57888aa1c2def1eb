{"id": "C01", "title": "Version encoding is lossless", "statement": "Encoding a version to a 32-bit integer and constructing a version from that integer gives back the same major, minor, patch and build; and decoding any 32-bit integer and encoding it again gives back the same integer.", "quantifier": "all 2^32 versions and all 2^32 encoded words", "why_tests_cant": "2^32 values; a sample says nothing about the mixed-byte cases a wrong shift or mask would break", "anchors": ["include/math/version.hpp: Version::Version(uint32), Version::operator uint32"]}
{"id": "C02", "title": "Version comparison is lexicographic", "statement": "a < b, a <= b, a > b, a >= b, a == b and a != b on versions agree with comparing (major, minor, patch, build) lexicographically, so the comparison is a strict total order and newer releases always compare greater.", "quantifier": "all pairs of versions", "why_tests_cant": "2^64 pairs", "anchors": ["include/math/version.hpp: Version::operator<, >, <=, >=, ==, !="]}
{"id": "C03", "title": "Version strings identify the version", "statement": "The four-part string of a version is the four decimal parts joined with dots, and two versions have the same four-part string only if they are equal; the 1-, 2- and 3-part strings are determined exactly by the parts they print.", "quantifier": "all pairs of versions", "why_tests_cant": "2^64 pairs", "anchors": ["include/math/version.hpp: Version::toString1..toString4"]}
{"id": "C04", "title": "Enum flag operators are set operations", "statement": "For enum classes with declared flag operators, |, &, ^ and ~ act on the underlying value as union, intersection, symmetric difference and complement of bit sets for every underlying width of at most 64 bits, and hasAnyFlag(a, f) is true exactly when a and f share a bit.", "quantifier": "all flag values of all underlying widths 1..64", "why_tests_cant": "the value space is 2^64 pairs for each width", "anchors": ["include/math/flags.hpp: DECLARE_ENUM_CLASS_FLAG_OPERATORS"]}
{"id": "C05", "title": "hasOneFlag tests for the flag", "statement": "hasOneFlag(a, flag) is true exactly when every bit of flag is set in a.", "quantifier": "all pairs of flag values", "why_tests_cant": "2^128 pairs; the implementation is right on many of the pairs one would naturally try", "anchors": ["include/math/flags.hpp: hasOneFlag"]}
{"id": "C06", "title": "Hex formatting round-trips", "statement": "toHex of a b-byte unsigned integer yields exactly 2b characters, all among 0-9A-F, most significant digit first, and parsing that string with toInt32 / toInt64 gives the original value back.", "quantifier": "all values of all unsigned widths up to 64 bits", "why_tests_cant": "2^64 values", "anchors": ["include/math/hex.hpp: toHex, toInt32, toInt64"]}
{"id": "C07", "title": "Hex formatting with an explicit length is defined and truncates or zero-pads", "statement": "toHex(value, length) yields exactly length digits denoting value modulo 16^length for every length, zero-padded on the left when length exceeds the natural width.", "quantifier": "all values, all widths, all lengths", "why_tests_cant": "infinitely many lengths; shifting past the operand width is undefined behaviour that a test may not notice", "anchors": ["include/math/hex.hpp: toHex"]}
{"id": "C08", "title": "Color integer and hex forms round-trip", "statement": "Color(uint32(c)) == c and uint32(Color(n)) == n; Color(c.toHex4()) == c; Color(c.toHex3()) has c's red, green and blue and zero alpha.", "quantifier": "all 2^32 colors, all 2^32 words", "why_tests_cant": "2^32 values per direction", "anchors": ["include/math/color.hpp: Color(uint32), operator uint32, Color(string), toHex3, toHex4"]}
{"id": "C09", "title": "Color survives conversion to normalized floats and back", "statement": "Converting a color to normalized binary32 components (float4 or f32x4) and constructing a color from them returns the same color, with IEEE round-to-nearest arithmetic.", "quantifier": "all 2^32 colors, in exact IEEE binary32 arithmetic", "why_tests_cant": "float rounding has to be right for every channel value under both conversions", "anchors": ["include/math/color.hpp: operator float4, Color(float4), operator f32x4, Color(f32x4)"]}
{"id": "C10", "title": "Normalized channel getters and setters are inverse", "statement": "setNormR(getNormR()) (and G, B, A) leaves the color unchanged, as constructing from the normalized value does.", "quantifier": "all channel values, in exact IEEE binary32 arithmetic", "why_tests_cant": "truncation instead of rounding loses one unit only for particular values", "anchors": ["include/math/color.hpp: getNormR, setNormR, setNormG, setNormB, setNormA"]}
{"id": "C11", "title": "Color from floats saturates and is monotone", "statement": "Constructing a color from any non-NaN binary32 components has defined behaviour, gives 0 for inputs <= 0 and 255 for inputs >= 1, and is monotone in each component; and a NaN component never causes undefined behaviour.", "quantifier": "all 2^32 bit patterns per component including infinities and NaN", "why_tests_cant": "2^128 inputs; NaN turns into an out-of-range float-to-integer conversion, which tests may not observe", "anchors": ["include/math/color.hpp: Color(float4), Color(f32x4)"]}
{"id": "C12", "title": "Color comparison operators are consistent", "statement": "== and != are complementary; < and <= are the componentwise partial orders (so <= is reflexive, antisymmetric and transitive; a < b implies a <= b and not b < a); the scalar overloads mean comparison with the color whose channels all equal the scalar; and isBinaryLess is a strict total order whose equivalence is ==.", "quantifier": "all triples of colors", "why_tests_cant": "2^96 triples", "anchors": ["include/math/color.hpp: Color::operator==,!=,<,>,<=,>=, isBinaryLess"]}
{"id": "C13", "title": "Packed vector: reading back what was written", "statement": "After writing value v at index i of a packed vector with 1-, 2- or 4-bit elements, reading index i yields v modulo 2^Bits, for every in-range index.", "quantifier": "all vector sizes, contents, indices and values, for Bits in {1,2,4}", "why_tests_cant": "unbounded sizes and contents", "anchors": ["include/math/packed-vector.hpp: unsafeSet, unsafeGet, get"]}
{"id": "C14", "title": "Packed vector: writes do not disturb other elements", "statement": "Writing index i leaves the value read at every other index j unchanged and does not change the size; hence a packed vector behaves as an independent array of small integers under any sequence of writes.", "quantifier": "all histories of writes, all indices", "why_tests_cant": "unbounded histories; neighbours share bytes", "anchors": ["include/math/packed-vector.hpp: unsafeSet, unsafeGet"]}
{"id": "C15", "title": "Packed vector: resize makes exactly the requested indices addressable and keeps old elements", "statement": "After resize(n) every index below n can be read and written without leaving the storage, the storage has fewer than 8 spare bits, elements below both old and new size keep their value and new elements read 0.", "quantifier": "all element counts and previous contents", "why_tests_cant": "unbounded sizes", "anchors": ["include/math/packed-vector.hpp: resize"]}
{"id": "C16", "title": "Packed vector: checked access rejects out-of-range indices", "statement": "get(i) and set(i, v) assert, in debug builds, exactly when the access would touch a byte outside the storage.", "quantifier": "all sizes and indices for Bits in {1,2,4}", "why_tests_cant": "unbounded sizes and indices; an access slightly past the end usually appears to work", "anchors": ["include/math/packed-vector.hpp: get, set"]}
{"id": "C17", "title": "Packed vector: copies are independent", "statement": "A copy of a packed vector can be read and written through its own storage: writing one never changes what is read through the other, and destroying one never invalidates the other.", "quantifier": "all histories of copy, write, destroy", "why_tests_cant": "aliasing and dangling pointers depend on the history", "anchors": ["include/math/packed-vector.hpp: PackedVector (implicit copy)"]}
{"id": "C18", "title": "Scalar helpers: sign, repeat, lerp, gain", "statement": "sign is +-1 and sign(v)*v = |v|; repeat maps every finite value into [0,1) and is 1-periodic; lerp(a,b,0)=a, lerp(a,b,1)=b and lerp stays between a and b for t in [0,1] and is monotone in t; gain maps [0,1] onto [0,1] with gain(x)+gain(1-x)=1.", "quantifier": "all real arguments (exact arithmetic)", "why_tests_cant": "uncountably many inputs; the boundary cases are negative integers and x = 1/2", "anchors": ["include/math/common.hpp: sign, repeat, lerp, gain"]}
{"id": "C19", "title": "Frame-rate independent smoothing", "statement": "Applying lerpDelta twice with the same target and factor f in (0,1] over time steps dt1 and dt2 equals applying it once over dt1+dt2, so the result after a total time does not depend on how it is split into frames.", "quantifier": "all starting values, targets, factors, finite sequences of non-negative time steps (exact arithmetic)", "why_tests_cant": "quantifies over all partitions of time", "anchors": ["include/math/common.hpp: lerpDelta", "include/math/simd/vector/float.hpp: lerpDelta"]}
{"id": "C20", "title": "Comparison masks, select and mask tests agree", "statement": "Lane comparisons return all-ones or all-zeros per lane; select returns the true value in exactly the lanes where the comparison held; areAllTrue/areAnyTrue/areAllFalse/areAnyFalse/getTrues report exactly all/any/none/not all/which lanes held, for every vector width.", "quantifier": "all pairs of vectors of 2, 3 and 4 lanes (integer lanes, and binary32 lanes including NaN)", "why_tests_cant": "2^256 pairs", "anchors": ["include/math/vector/uint.hpp", "include/math/vector/int.hpp", "include/math/vector/float.hpp", "include/math/simd/vector/float.hpp: operator<, select, areAllTrue, areAnyTrue, getTrues"]}
{"id": "C21", "title": "Vector min, max and clamp are lattice operations", "statement": "Lane-wise min and max are the greatest lower and least upper bounds; clamp(v,lo,hi) lies in [lo,hi] lane-wise when lo <= hi and equals v when v already does; the horizontal min3/max3/min4/max4 return the least/greatest of exactly the first three/four lanes.", "quantifier": "all integer vectors and all non-NaN binary32 vectors", "why_tests_cant": "2^256 inputs; horizontal reductions depend on shuffles that a few examples may not exercise", "anchors": ["include/math/vector/uint.hpp: min, max, clamp", "include/math/simd/vector/float.hpp: min, max, min3, max3, min4, max4, clamp"]}
{"id": "C22", "title": "Unsigned SIMD vectors behave as unsigned on every backend", "statement": "On every SIMD backend u32x4 comparisons, min, max and conversion to float give the result of the scalar uint4 operation.", "quantifier": "all pairs of u32x4 values, all backends (SSE, SSE4.1, NEON, scalar fallback)", "why_tests_cant": "2^256 pairs; differs only when the top bit is set", "anchors": ["include/math/simd/vector/uint.hpp: operator<, >, <=, >=, min, max", "include/math/simd/vector/float.hpp: f32x4(u32x4)"]}
{"id": "C23", "title": "Vector constructors place every component", "statement": "Building a vector from smaller vectors and scalars stores each given component in its documented position, so converting back yields the given parts.", "quantifier": "all component values, all constructor overloads of int2/3/4, uint2/3/4", "why_tests_cant": "each overload has its own initialiser list; values can coincide in a test", "anchors": ["include/math/vector/int.hpp: int3, int4", "include/math/vector/uint.hpp: uint3, uint4"]}
{"id": "C24", "title": "isBinaryLess is a usable map order", "statement": "isBinaryLess on integer and float vectors (scalar and SIMD), SIMD matrices, Color and Aabb is a strict total order on the stored bits: irreflexive, transitive, and two values are incomparable only when equal, so ordered containers keyed by it neither lose nor merge entries.", "quantifier": "all triples of values", "why_tests_cant": "2^384 triples", "anchors": ["include/math/vector/uint.hpp: isBinaryLess", "include/math/vector/int.hpp: isBinaryLess", "include/math/color.hpp: isBinaryLess", "include/math/vector/float.hpp: isBinaryLess", "include/math/simd/vector/float.hpp: isBinaryLess", "include/math/simd/matrix/float.hpp: isBinaryLess", "include/math/aabb.hpp: isBinaryLess"]}
{"id": "C25", "title": "Mip chain arithmetic", "statement": "calcMipCount(s) is the number of levels obtained by halving s (rounding down) until 1, and calcSizeAtMip(s, m) is max(1, floor(s / 2^m)), for every size s >= 1 and every mip below the mip count.", "quantifier": "all sizes 1..2^32-1 and all mips", "why_tests_cant": "2^32 sizes; float rounding of the size or of log2 only matters for particular large sizes", "anchors": ["include/math/vector/uint.hpp: calcMipCount, calcSizeAtMip"]}
{"id": "C26", "title": "Dot and cross products satisfy their algebra", "statement": "dot is symmetric and bilinear; cross is anticommutative, orthogonal to both arguments and satisfies Lagrange's identity |a x b|^2 = |a|^2|b|^2 - (a.b)^2; the three-lane SIMD forms ignore the fourth lane and agree with the scalar forms; normalize gives length one for every non-zero vector.", "quantifier": "all vectors (exact arithmetic), all SIMD backends", "why_tests_cant": "uncountably many inputs; a wrong shuffle is invisible on axis-aligned samples", "anchors": ["include/math/vector/float.hpp: dot, cross, normalize, length", "include/math/simd/vector/float.hpp: dot3, dot4, cross3, normalize3"]}
{"id": "C27", "title": "Box extension is the least enclosing box", "statement": "After extend(p) (or extend(box)) a box contains everything it contained before and the new point (box); the result is contained in every box that does; and the box stays valid (min <= max).", "quantifier": "all valid boxes and all points/boxes, in binary32 comparisons (no NaN)", "why_tests_cant": "unbounded inputs", "anchors": ["include/math/aabb.hpp: Aabb::extend"]}
{"id": "C28", "title": "Box containment test", "statement": "isInside(box, p) is true exactly when min <= p <= max in x, y and z, independently of the hidden fourth lanes of the box and the point; for boxes, isInside(a,b) is true exactly when every point of b is a point of a (for valid b).", "quantifier": "all boxes and points, all contents of the fourth lanes", "why_tests_cant": "the fourth lane is not visible to the user and takes different values depending on how the operands were built", "anchors": ["include/math/aabb.hpp: isInside"]}
{"id": "C29", "title": "Box size, position and extent setters and getters are inverse", "statement": "setSize(s) about a position then getSize gives s and getPosition is unchanged; setExtent/getExtent likewise; size = 2*extent; translate moves the position and keeps the size; shrink undoes extend by a size.", "quantifier": "all boxes and all non-negative sizes (exact arithmetic)", "why_tests_cant": "uncountably many inputs", "anchors": ["include/math/aabb.hpp: setSize, getSize, getPosition, setExtent, getExtent, translate, extend, shrink"]}
{"id": "C30", "title": "trySet rejects inverted boxes", "statement": "trySet(min, max) returns true and updates the box when min <= max in x, y, z; otherwise it returns false and leaves the box unchanged, so a box is never inverted through it.", "quantifier": "all min, max", "why_tests_cant": "inputs where only one axis is inverted, or all are", "anchors": ["include/math/aabb.hpp: Aabb::trySet"]}
{"id": "C31", "title": "Closest point on a box is the nearest point", "statement": "closestPoint(box, p) lies in the box and no point of the box is nearer to p; it equals p exactly when p is inside.", "quantifier": "all valid boxes, all points (exact arithmetic)", "why_tests_cant": "quantifies over every point of the box", "anchors": ["include/math/aabb.hpp: closestPoint"]}
{"id": "C32", "title": "Box-box intersection test", "statement": "isIntersected(a, b) is true exactly when some point lies in both boxes; it is symmetric.", "quantifier": "all pairs of valid boxes", "why_tests_cant": "uncountably many pairs", "anchors": ["include/math/aabb.hpp: isIntersected(Aabb, Aabb)"]}
{"id": "C33", "title": "Box-box intersection test is reliable for what it reports", "statement": "When isIntersected(a, b) on boxes answers true the boxes do share a point.", "quantifier": "all pairs of valid boxes", "why_tests_cant": "uncountably many pairs", "anchors": ["include/math/aabb.hpp: isIntersected(Aabb, Aabb)"]}
{"id": "C34", "title": "Ray-box test", "statement": "raycast on a box answers hit exactly when some point origin + t*direction with t >= 0 lies in the box, and the two-sided distances returned by raycast2 are the entry and exit parameters.", "quantifier": "all valid boxes, all rays, including axis-parallel ones (exact arithmetic)", "why_tests_cant": "quantifies over all points of the ray; parallel rays divide by zero", "anchors": ["include/math/aabb.hpp: raycast, raycast1, raycast2, raycast1I, raycast2I", "include/math/ray.hpp: setDirection"]}
{"id": "C35", "title": "Triangle-box test is exact", "statement": "isAabbIntersected(box, triangle) returns true exactly when the triangle and the box share a point. It returns false exactly when one of the thirteen candidate axes (box axes, triangle normal, products of box axes and edges) separates them.", "quantifier": "all triangles and boxes (exact arithmetic)", "why_tests_cant": "quantifies over all points of both bodies", "anchors": ["source/aabb.cpp: isAabbIntersected"]}
{"id": "C36", "title": "Sphere containment and intersection tests", "statement": "A point is reported inside a sphere exactly when its distance to the center is less than the radius; two spheres are reported intersecting exactly when they share a point; sphere-box intersection is reported exactly when some point of the box is strictly inside the sphere; closestPoint on the sphere is at distance radius and no point of the sphere is nearer.", "quantifier": "all spheres with non-negative radius, all points and boxes (exact arithmetic)", "why_tests_cant": "quantifies over all points of the bodies", "anchors": ["include/math/sphere.hpp: isInside, closestPoint, isIntersected"]}
{"id": "C37", "title": "Plane distance and projection", "statement": "For a plane with unit normal, distance is signed Euclidean distance: closestPoint lies on the plane, is the nearest point of it, and |distance| is the distance to it.", "quantifier": "all normalized planes and all points (exact arithmetic)", "why_tests_cant": "quantifies over every point of the plane", "anchors": ["include/math/plane.hpp: Plane, distance3, closestPoint"]}
{"id": "C38", "title": "Plane through a triangle contains the triangle", "statement": "For a non-degenerate triangle, the plane constructed from it has the triangle's vertices at distance zero.", "quantifier": "all non-degenerate triangles (exact arithmetic)", "why_tests_cant": "right for every triangle whose plane passes through the origin", "anchors": ["include/math/plane.hpp: Plane(const Triangle&)"]}
{"id": "C39", "title": "Frustum planes describe the clip volume", "statement": "For the planes extracted from a view-projection matrix, a point is on the non-negative side of all six planes exactly when its clip coordinates satisfy -w <= x <= w, -w <= y <= w, 0 <= z <= w.", "quantifier": "all matrices and points (exact arithmetic)", "why_tests_cant": "16+3 real parameters", "anchors": ["include/math/plane.hpp: extractFrustumPlanes"]}
{"id": "C40", "title": "Frustum culling never culls visible boxes", "statement": "If isBehindFrustum(box, model, planes) is true then no point of the transformed box is on the non-negative side of all planes.", "quantifier": "all boxes, model matrices, plane arrays of any length (exact arithmetic)", "why_tests_cant": "quantifies over all points of the box and any number of planes", "anchors": ["include/math/aabb.hpp: isBehindFrustum"]}
{"id": "C41", "title": "Barycentric coordinates and point-in-triangle", "statement": "Barycentric coordinates of a point in the plane of a non-degenerate triangle sum to one and reproduce the point; isInside accepts a coplanar point exactly when it is a convex combination of the vertices.", "quantifier": "all triangles and points (exact arithmetic)", "why_tests_cant": "uncountable domain", "anchors": ["include/math/triangle.hpp: calcBarycentric, isInside"]}
{"id": "C42", "title": "Closest point on a segment and on a ray", "statement": "closestPoint(line, p) is on the segment and is the nearest point of it to p; closestPoint(ray, p) is on the ray and nearest, for a unit direction.", "quantifier": "all non-degenerate segments, all rays, all points (exact arithmetic)", "why_tests_cant": "quantifies over all points of the segment/ray", "anchors": ["include/math/line.hpp: closestPoint", "include/math/ray.hpp: closestPoint"]}
{"id": "C43", "title": "BVH build always terminates within its node budget", "statement": "Building a BVH over n >= 1 primitives terminates and uses at most 2n-1 nodes, for every outcome of the floating-point cost computation for which no undefined behaviour occurs.", "quantifier": "all primitive counts, all primitives, all float behaviours", "why_tests_cant": "unbounded n; termination", "anchors": ["source/bvh.cpp: Bvh::recreate"]}
{"id": "C44", "title": "BVH build keeps every primitive exactly once", "statement": "After building, the primitive index array is a permutation of 0..n-1: no primitive is lost or duplicated.", "quantifier": "all primitive counts, all primitives, all float behaviours", "why_tests_cant": "unbounded n", "anchors": ["source/bvh.cpp: Bvh::recreate"]}
{"id": "C45", "title": "BVH leaves partition the primitives", "statement": "The index ranges of the leaves reachable from the root are disjoint and cover all n primitives; every interior node's two children are stored later in the array than the node, every non-root node is the child of exactly one node, and the children split the parent's range.", "quantifier": "all primitive counts, all primitives, all float behaviours", "why_tests_cant": "unbounded trees", "anchors": ["source/bvh.cpp: Bvh::recreate", "include/math/bvh.hpp: Bvh::Node"]}
{"id": "C46", "title": "BVH partition step never leaves the index array", "statement": "While partitioning a node's primitives the build only accesses indices inside the node's range, for every split plane and every primitive centroid including NaN.", "quantifier": "all centroids and split positions, all nodes", "why_tests_cant": "the failing case needs every centroid on the right of the split of the node that starts at index zero", "anchors": ["source/bvh.cpp: Bvh::recreate (partition loop)"]}
{"id": "C47", "title": "BVH node bounds enclose their contents", "statement": "The box stored in every node contains every primitive below the node, in binary32 comparisons, and the boxes of children lie inside the parent's box.", "quantifier": "all trees, all primitives without NaN", "why_tests_cant": "unbounded trees; quantifies over all nodes", "anchors": ["source/bvh.cpp: calculateNodeAabb, Bvh::recreate"]}
{"id": "C48", "title": "BVH node encoding", "statement": "The primitive count, first primitive and left child stored in the hidden lanes of a node's box are read back exactly as written and do not alter the box; a node is a leaf exactly when its count is non-zero.", "quantifier": "all 32-bit counts and indices, all boxes", "why_tests_cant": "2^64 encodings; the integers live in float lanes", "anchors": ["include/math/bvh.hpp: Bvh::Node"]}
{"id": "C49", "title": "BVH traversal visits exactly the accepted leaves", "statement": "traverse calls back on each reachable node at most once, visits a node exactly when all its proper ancestors were accepted by the predicate, and always ends with an empty stack.", "quantifier": "all well-formed trees and all predicates", "why_tests_cant": "unbounded trees and arbitrary predicates", "anchors": ["include/math/bvh.hpp: traverse"]}
{"id": "C50", "title": "BVH frustum collection is conservative", "statement": "collectInFrustum writes every primitive whose leaf and ancestors are not reported behind the frustum, each once, and no other; hence it never omits a primitive having a point inside the frustum.", "quantifier": "all well-formed trees, all planes", "why_tests_cant": "unbounded trees", "anchors": ["source/bvh.cpp: Bvh::collectInFrustum"]}
{"id": "C51", "title": "Quaternion multiplication composes rotations", "statement": "Quaternion product is associative with unit identity; (p*q)*v = p*(q*v) for unit quaternions; unit quaternions are closed under product and conjugate is the inverse; rotating by a unit quaternion preserves dot products and lengths and orientation.", "quantifier": "all (unit) quaternions and vectors (exact arithmetic)", "why_tests_cant": "uncountable domain", "anchors": ["include/math/quaternion.hpp: operator*, conjugate, inverse"]}
{"id": "C52", "title": "Quaternion rotation agrees with its matrix", "statement": "The matrix made from a unit quaternion acts on every vector as the quaternion does, and is orthogonal with determinant one; extracting a quaternion from such a matrix gives q or -q.", "quantifier": "all unit quaternions and vectors (exact arithmetic)", "why_tests_cant": "uncountable domain; extraction has four branches", "anchors": ["include/math/matrix/transform.hpp: rotate, extractQuat", "include/math/quaternion.hpp: operator*"]}
{"id": "C53", "title": "Axis-angle and Euler construction", "statement": "The quaternion of axis u (unit) and angle a is unit, fixes u, and rotates by a; Euler construction equals the product of the three axis rotations in the documented order.", "quantifier": "all unit axes, all angles (exact arithmetic)", "why_tests_cant": "uncountable domain", "anchors": ["include/math/quaternion.hpp: quat(angle, axis), fromEulerAngles"]}
{"id": "C54", "title": "Slerp endpoints and unit length", "statement": "slerp(a,b,0) is a, slerp(a,b,1) is b or -b (the same rotation), and slerp of unit quaternions is a unit quaternion on the non-degenerate branch.", "quantifier": "all unit quaternions, all t in [0,1] (exact arithmetic)", "why_tests_cant": "uncountable domain; two branches", "anchors": ["include/math/quaternion.hpp: slerp"]}
{"id": "C55", "title": "Matrix algebra", "statement": "Matrix products are associative and unital, (A*B)*v = A*(B*v), transpose is an involution reversing products, for 2x2, 3x3 and 4x4 matrices; the SIMD 4x4 product agrees with the scalar one.", "quantifier": "all matrices and vectors over a commutative ring", "why_tests_cant": "uncountable domain; 4x4 has 64 products to get right", "anchors": ["include/math/matrix/float.hpp: operator*, transpose", "include/math/simd/matrix/float.hpp: operator*, transpose4x4"]}
{"id": "C56", "title": "Matrix inverse", "statement": "For every matrix with non-zero determinant, M * inverse(M) = inverse(M) * M = identity, for float2x2, float3x3, float4x4 and SIMD f32x4x4.", "quantifier": "all invertible matrices (exact arithmetic)", "why_tests_cant": "uncountable domain; symmetric or diagonal samples hide transposition errors", "anchors": ["include/math/matrix/float.hpp: inverse", "include/math/simd/matrix/float.hpp: inverse4x4"]}
{"id": "C57", "title": "Row-vector times matrix", "statement": "v * M equals transpose(M) * v.", "quantifier": "all vectors and matrices over a commutative ring", "why_tests_cant": "samples with equal components hide the error", "anchors": ["include/math/matrix/float.hpp: operator*(float4, float4x4)"]}
{"id": "C58", "title": "Translation and scale compose", "statement": "For an affine matrix m, translate(m, v) = m * translate(v), translate(v, m) = translate(v) * m, scale(m, s) = m * scale(s), and so on; calcModel(position, rotation, scale) maps p to position + rotation*(scale*p); extractTranslation returns the translation.", "quantifier": "all affine matrices, vectors, unit quaternions (exact arithmetic)", "why_tests_cant": "uncountable domain", "anchors": ["include/math/matrix/transform.hpp: translate, scale, calcModel, extractTranslation"]}
{"id": "C59", "title": "Extracted scale and rotation invert calcModel", "statement": "Extracting scale and rotation from calcModel(position, rotation, scale) with positive scale returns that scale and the rotation matrix.", "quantifier": "all positions, unit quaternions, positive scales (exact arithmetic)", "why_tests_cant": "unit scale hides the error", "anchors": ["include/math/matrix/transform.hpp: extractScale, extractRotation, extractTransform"]}
{"id": "C60", "title": "Look-at matrices", "statement": "lookAt(from, to, up) is a rigid transform that sends from to the origin and to onto the positive view axis, for every up not parallel to the direction.", "quantifier": "all from, to, up in general position (exact arithmetic)", "why_tests_cant": "uncountable domain", "anchors": ["include/math/matrix/transform.hpp: lookAt, rotate(forward, up), lookAtQuat"]}
{"id": "C61", "title": "Rigid inverse", "statement": "inverseTransRot(m) is the inverse of every rigid transform m.", "quantifier": "all rotations and translations (exact arithmetic)", "why_tests_cant": "right when the translation is zero", "anchors": ["include/math/matrix/transform.hpp: inverseTransRot"]}
{"id": "C62", "title": "Perspective projections map the view frustum to the clip volume", "statement": "For each perspective constructor a view-space point is in the frustum given by field of view, aspect, near and far exactly when its clip coordinates satisfy |x|<=w, |y|<=w, 0<=z<=w; near and far planes map to the documented depths (reversed for Rev-Z), w is the view depth, and depth is strictly monotone.", "quantifier": "all fields of view in (0,pi), aspects > 0, 0 < near < far, all points (exact arithmetic)", "why_tests_cant": "uncountable domain", "anchors": ["include/math/matrix/projection.hpp: calcPerspProjInfRevZ, calcPerspProjRevZ, calcPerspProj"]}
{"id": "C63", "title": "Orthographic projections map the box to the clip volume", "statement": "Orthographic projection maps [left,right]x[bottom,top]x[near,far] onto [-1,1]x[-1,1]x[0,1] with the documented orientation and depth direction.", "quantifier": "all proper boxes, all points (exact arithmetic)", "why_tests_cant": "uncountable domain", "anchors": ["include/math/matrix/projection.hpp: calcOrthoProj, calcOrthoProjRevZ"]}
{"id": "C64", "title": "sRGB transfer functions", "statement": "rgbToSrgb and srgbToRgb are monotone on [0,1], map 0 to 0 and 1 to 1, keep alpha, and are mutually inverse away from the gap between the two published thresholds.", "quantifier": "all real colors in [0,1] (exact arithmetic)", "why_tests_cant": "uncountable domain; the piecewise join", "anchors": ["include/math/color-space.hpp: rgbToSrgb, srgbToRgb"]}
{"id": "C65", "title": "XYZ and Yxy conversions", "statement": "yxyToXyz and xyzToYxy are mutually inverse where defined; rgbToXyz maps linear RGB white to the D65 white point and gives relative luminance in Y.", "quantifier": "all colors (exact arithmetic)", "why_tests_cant": "uncountable domain", "anchors": ["include/math/color-space.hpp: rgbToXyz, xyzToRgb, xyzToYxy, yxyToXyz"]}
{"id": "C66", "title": "Hammersley points", "statement": "The second coordinate of hammersley(i, 1/n) is the base-2 radical inverse of i: the bit reversal is an involution on 32-bit words, distinct indices give distinct reversals, and the coordinate lies in [0,1).", "quantifier": "all 2^32 indices", "why_tests_cant": "2^32 indices; the failing case is at the top of the range", "anchors": ["include/math/brdf.hpp: hammersley"]}
{"id": "C67", "title": "BRDF helper ranges", "statement": "GGX is non-negative and positive for positive roughness; importance-sampled directions are unit vectors in the upper hemisphere; reflectance from IOR is symmetric under ior -> 1/ior.", "quantifier": "all parameters in the documented ranges (exact arithmetic)", "why_tests_cant": "uncountable domain", "anchors": ["include/math/brdf.hpp: ggx, importanceSamplingNdfDggx, iorToReflectance"]}
{"id": "C68", "title": "Cube map addressing", "statement": "For each face, stToDir returns a unit vector whose largest component is the axis of the face with the face's sign; texel centers map strictly inside the face; distinct coordinates give distinct directions; and faces outside 0..5 are rejected.", "quantifier": "all faces, all st in [-1,1]^2, all texture sizes", "why_tests_cant": "uncountable domain", "anchors": ["include/math/ibl.hpp: coordsToST, stToDir, coordsToDir"]}
{"id": "C69", "title": "Spherical harmonics indexing and basis", "statement": "shIndex maps (m, l), |m| <= l bijectively onto 0..n^2-1 for n bands; computeShBasis stays inside the nine-element array and writes, for every unit direction, the real spherical harmonics of the three bands the library uses (so the addition identity holds per band); the precomputed constants are the normalisation constants times the cosine-lobe coefficients.", "quantifier": "all band counts for indexing; all unit directions", "why_tests_cant": "unbounded band counts; uncountable directions", "anchors": ["include/math/sh.hpp: shIndex, computeShBasis"]}
{"id": "C70", "title": "Angle conversion", "statement": "radians and degrees are mutually inverse linear maps, and the scalar and SIMD overloads agree.", "quantifier": "all angles (exact arithmetic)", "why_tests_cant": "uncountable domain", "anchors": ["include/math/angles.hpp: radians, degrees"]}
{"id": "C71", "title": "lookAtQuat rotates the front vector to the direction", "statement": "lookAtQuat(direction, up) is a unit quaternion that rotates the front vector to the given unit direction.", "quantifier": "all unit directions and up vectors not parallel to them (exact arithmetic)", "why_tests_cant": "uncountable domain; the function has no test", "anchors": ["include/math/matrix/transform.hpp: lookAtQuat"]}
{"id": "C72", "title": "Matrix shape conversions place every element", "statement": "Narrowing, widening and constructing a float2x2, float3x3, float4x3 or float4x4 (from rows, columns, scalars or other shapes) puts every element where it belongs: widening keeps the elements and adds identity entries, narrowing keeps the upper-left block, widening then narrowing is the identity, and column access with every valid index returns that column.", "quantifier": "all matrices and all valid indices", "why_tests_cant": "every element of every conversion for every matrix; the failing index is only one of many", "anchors": ["include/math/matrix/float.hpp: float2x2, float3x3, float4x3, float4x4 constructors, operator[], operator floatNxM"]}
{"id": "C73", "title": "Spherical harmonics rotation rotates the function", "statement": "rotateSh3Bands turns the coefficients of a function on the sphere into the coefficients of the rotated function: its value at the rotated direction is the value of the original at the direction, for every band.", "quantifier": "all coefficients, all orthonormal matrices, all unit directions (exact arithmetic)", "why_tests_cant": "uncountable domain; the identity and symmetric rotations hide a transposed matrix", "anchors": ["include/math/sh.hpp: rotateSh3Bands, rotateSphericalHarmonicBand1, rotateSphericalHarmonicBand2"]}
{"id": "C74", "title": "Texel solid angles are exact and cover the sphere", "statement": "calcSolidAngle(st, invDim) is the solid angle of the texel around st, always positive, and for every texture size the texels of one face sum to a sixth of the sphere and those of all six faces to 4 pi.", "quantifier": "all points, all texel sizes, all texture sizes (exact arithmetic)", "why_tests_cant": "an integral over an uncountable domain and a sum over every texture size", "anchors": ["include/math/sh.hpp: calcSolidAngle, sphereQuadrantArea", "include/math/ibl.hpp: coordsToST"]}
{"id": "C75", "title": "Spherical harmonics windowing and deringing", "statement": "windowing scales each band by one factor in [0,1], 1 for the constant band, non-increasing in the band and non-decreasing in the cutoff; deringingSH stays in the array, scales each band of all channels by one common factor, keeps the constant band exactly, and leaves an environment that never goes negative (almost) unattenuated.", "quantifier": "all coefficients, cutoffs and results of the minimum search (exact arithmetic)", "why_tests_cant": "uncountable domain; the loss depends on the path of the search", "anchors": ["include/math/sh.hpp: sincWindow, windowing, deringingSH"]}
{"id": "C76", "title": "Shader form of spherical harmonics", "statement": "After shaderPreprocessSH, evaluating the plain polynomials 1, y, z, x, xy, yz, 3z^2-1, xz, x^2-y^2 with the stored coefficients gives the sum of original coefficient times normalised harmonic, divided by pi.", "quantifier": "all coefficients and directions (exact arithmetic)", "why_tests_cant": "uncountable domain; nine constants must all match the basis", "anchors": ["include/math/sh.hpp: shaderPreprocessSH, computeShBasis"]}
{"id": "C77", "title": "Integer vector operators", "statement": "Every arithmetic, bitwise, shift, comparison and assignment operator of int2/int3/int4 and uint2/uint3/uint4, with a vector or a scalar on either side, is defined exactly when the C++ operator is defined on every lane, and then each lane is the mathematical result (wrapped modulo 2^32 for unsigned); division truncates toward zero and the remainder has the sign of the dividend.", "quantifier": "all vectors, scalars and operators", "why_tests_cant": "2^256 inputs and over 200 overloads; undefined behaviour cannot be observed by running", "anchors": ["include/math/vector/int.hpp: operator+ ... operator>>=", "include/math/vector/uint.hpp: operator+ ... operator>>="]}
{"id": "C78", "title": "SIMD integer operators agree with the scalar ones on every instruction set", "statement": "Wherever the operation of an i32x4 or u32x4 is defined on the scalar vector, the result of every arithmetic, bitwise, shift and equality operator (and every ordering of i32x4; that of u32x4 is C22) is the same on SSE2, SSE4.1, AVX2, AVX2 without SSE4.1, NEON and the scalar fallback; overflow wraps.", "quantifier": "all vectors, scalars, operators and instruction sets", "why_tests_cant": "one machine runs one instruction set; 2^256 inputs", "anchors": ["include/math/simd/vector/int.hpp: operator+ ... operator>>=", "include/math/simd/vector/uint.hpp: operator+ ... operator>>="]}
{"id": "C79", "title": "Floating-point vector operators are lane-wise and correctly rounded", "statement": "Each lane of +, -, *, / of float2/float3/float4/f32x4, with a vector or scalar on either side and as assignment, is the binary32 value nearest to the exact result of that lane when in range, and NaN when an operand is NaN; comparisons give all ones or zero per lane, false with NaN except notEqual; == is the conjunction over lanes and != its negation; f32x4 agrees with float4 bit for bit on every instruction set.", "quantifier": "all vectors, scalars, operators and instruction sets", "why_tests_cant": "2^256 inputs including NaN, infinities and subnormals; several instruction sets", "anchors": ["include/math/vector/float.hpp: operator+ ... notEqual", "include/math/simd/vector/float.hpp: operator+ ... notEqual"]}
{"id": "C80", "title": "round, floor, ceil and trunc return the right integer, on every instruction set", "statement": "For every vector and every lane, floor gives the largest integer not above the lane, ceil the smallest not below, trunc the integer part toward zero and round a nearest integer; the result is exactly representable, zero results keep the sign, infinities are returned and NaN stays NaN. The scalar vectors and f32x4 on every instruction set give identical bits.", "quantifier": "all binary32 lanes including subnormals, zeros, infinities and NaN; float2, float3, float4, f32x4; every instruction set", "why_tests_cant": "There are 2^32 lane values per function and the compiled path depends on the instruction set, so a test run exercises only one path on sampled values.", "anchors": ["include/math/vector/float.hpp: round, floor, ceil, trunc", "include/math/simd/vector/float.hpp: round, floor, ceil, trunc"]}
{"id": "C81", "title": "The SIMD logarithm is the natural logarithm", "statement": "log(f32x4) returns, in every lane, the natural logarithm of the argument to within the accuracy of its polynomial for every positive finite value including subnormals, minus infinity for zero of either sign, NaN for negative arguments and for NaN, and plus infinity for plus infinity, whichever instruction set is used.", "quantifier": "all binary32 lanes, SSE and NEON, with and without fused multiply-add", "why_tests_cant": "There are 2^32 arguments and four instruction-set variants; the error peaks where the significand changes octave and the wrong branch (unsigned conversion of a negative exponent) only shows on hardware the tests do not run on.", "anchors": ["include/math/simd/vector/float.hpp: log"]}
{"id": "C82", "title": "The SIMD exponential is accurate, overflows to infinity, underflows to zero and keeps NaN", "statement": "exp(f32x4) returns, in every lane, e to the argument within a few units in the last place wherever the result is normal, within one smallest subnormal below that, plus infinity when the result overflows, plus zero when it underflows, and NaN for NaN.", "quantifier": "all binary32 lanes, SSE and NEON, with and without fused multiply-add", "why_tests_cant": "The bound has to hold for all 2^32 arguments, with the worst cases at the edges of the argument reduction and of the exponent range.", "anchors": ["include/math/simd/vector/float.hpp: exp"]}
{"id": "C83", "title": "The fast SIMD power and gamma correction follow pow", "statement": "fastPow(b, e) is within a small relative error (proportional to |e|) of b to the power e for positive b, follows the parity of an integer exponent for negative b, is one for a zero exponent and follows pow at zero, infinity and for fractional powers of negative numbers; fastGammaCorrection brings every colour channel to the power 1/2.2 and keeps alpha.", "quantifier": "all binary32 lanes of base and exponent, SSE and NEON, with and without fused multiply-add", "why_tests_cant": "2^64 pairs of arguments; the error depends on the product of the exponent with the error of the logarithm.", "anchors": ["include/math/simd/vector/float.hpp: fastPow", "include/math/tone-mapping.hpp: fastGammaCorrection"]}
{"id": "C84", "title": "The SIMD sine and cosine are accurate to the last places", "statement": "sinCos(f32x4) returns, in every lane, the sine and the cosine of the argument with a small absolute error for every finite argument.", "quantifier": "all binary32 lanes, SSE and NEON, with and without fused multiply-add", "why_tests_cant": "Argument reduction cancels nearly all digits near multiples of pi/2, so the worst cases are isolated arguments among 2^32; for large arguments the reduction breaks down altogether.", "anchors": ["include/math/simd/vector/float.hpp: sinCos"]}
{"id": "C85", "title": "Scaling and moving a shape moves its points", "statement": "`shape * v`, `/`, `+`, `-` and the compound forms of Line, Triangle, Aabb and Ray describe exactly the set of points p op v for p in the shape, and the plain and the compound form agree. In binary32 a box still contains the moved points after rounding.", "quantifier": "for every shape and every vector v (for division: with non-zero components)", "why_tests_cant": "A test checks a few shapes; the claim is about all points of all shapes, including negative scales, directions and rounded coordinates.", "anchors": ["include/math/line.hpp: Line operators", "include/math/triangle.hpp: Triangle operators", "include/math/ray.hpp: Ray operators", "include/math/aabb.hpp: Aabb operators"]}
{"id": "C86", "title": "Equality of shapes and matrices", "statement": "`==` on shapes and matrices is an equivalence relation and equal objects behave equally; `!=` is its negation. For float2x2..float4x4 and the shapes this is bitwise identity; for f32x4x4 it is numeric equality of all sixteen elements on every instruction set.", "quantifier": "for every pair of objects, with any bit patterns (NaN, signed zeros, unused lanes) and every instruction set", "why_tests_cant": "Tests compare a few values; NaN payloads, signed zeros and unused lanes give 2^256 or more cases.", "anchors": ["include/math/line.hpp: operator==", "include/math/triangle.hpp: operator==", "include/math/ray.hpp: operator==", "include/math/plane.hpp: operator==", "include/math/sphere.hpp: operator==", "include/math/aabb.hpp: operator==, isBinaryLess", "include/math/matrix/float.hpp: operator==", "include/math/simd/matrix/float.hpp: f32x4x4::operator=="]}
{"id": "C87", "title": "The named shapes are what they are called", "statement": "Aabb::zero, one, two, half are the centred boxes of that size, Sphere::one, two, half the spheres of that diameter, the named rays and planes the unit axis directions; Aabb::inf and Aabb::full contain every (finite) point.", "quantifier": "for every constant, and for inf and full for every point without NaN", "why_tests_cant": "The containment claims range over all points.", "anchors": ["include/math/aabb.hpp: Aabb::zero, one, two, half, full, inf", "include/math/sphere.hpp: Sphere::one", "include/math/ray.hpp: Ray::left", "include/math/plane.hpp: Plane::left"]}
{"id": "C88", "title": "BVH nodes are split at the cheapest candidate plane", "statement": "When a node of a bounding volume hierarchy is split, the chosen plane is one of the planes between eight equal slots along one of the three axes, and no other such plane has a smaller surface area cost, where the cost of a plane is the sum over its two sides of the surface of the side's bounding box times the number of primitives on that side.", "quantifier": "all sets of primitives (boxes or triangles) with finite coordinates, all primitive orders and all node ranges", "why_tests_cant": "The choice depends on all coordinates of all primitives of a node and a wrong choice only makes queries slower, so a test on the result of a query never sees it.", "anchors": ["source/bvh.cpp: findBestSplitPlane", "source/bvh.cpp: Bin", "source/bvh.cpp: calcArea", "include/math/bvh.hpp: Bvh"]}
{"id": "C89", "title": "Products of vectors, matrices and quaternions are accurate in binary32", "statement": "For finite operands whose products sum, in absolute value, to at most 2^126, every entry computed by dot, cross, matrix * vector, matrix * matrix and quaternion * quaternion is finite and differs from the exact sum of products by at most ((1 + 2^-24)^n - 1) times the sum of the absolute values of its n products, plus n * 2^-149 for underflow. This holds for the scalar code and for every SIMD target, whatever the summation order and whether the multiply-add is fused or not.", "quantifier": "all finite binary32 operands (every bit pattern), all backends (scalar, SSE2, SSE4.1, NEON) and both kinds of multiply-add", "why_tests_cant": "There are 2^192 pairs of float3; cancellation, underflow and the different summation orders make the worst cases invisible to sampled tests, and an error bound is a statement about all of them.", "anchors": ["/repo/include/math/vector/float.hpp: dot, cross", "/repo/include/math/simd/vector/float.hpp: dot3, dot4, cross3", "/repo/include/math/matrix/float.hpp: operator*", "/repo/include/math/simd/matrix/float.hpp: operator*, multiply3x3", "/repo/include/math/quaternion.hpp: operator*"]}
{"id": "C90", "title": "Lengths, distances and normalised vectors are accurate in binary32", "statement": "For finite vectors whose squared length is between 2^-100 and 2^125, length is within 4 * 2^-24 (relative) of the exact length, distance within 5 * 2^-24, and every component of normalize is within 6 * 2^-24 (relative, plus 2^-149) of the exact component; lengthSq and distanceSq are within 5 * 2^-24 and 7 * 2^-24 (plus 2^-146) for every squared length up to 2^125. This holds for the scalar code and on every SIMD backend.", "quantifier": "all finite binary32 vectors and points with 2, 3 or 4 components in the stated range, all backends", "why_tests_cant": "The bound must hold for every bit pattern of up to eight floats, through sums, a square root, a reciprocal and products that are each rounded.", "anchors": ["/repo/include/math/vector/float.hpp: lengthSq, length, distanceSq, distance, normalize", "/repo/include/math/simd/vector/float.hpp: lengthSq3, lengthSq4, length3, length4, distance3, distance4, normalize3, normalize4"]}
{"id": "C91", "title": "normalize returns vectors that isNormalized accepts, and the two closeness tests answer correctly", "statement": "For every finite non-zero vector v, isNormalized(normalize(v)) is true with the default tolerance. isNormalized(v, t) is true when the exact squared length is within t - 3e-7 of one and false when it is farther than t + 3e-7 (t up to 2^-10); isClose(a, b, m) is true when the exact squared distance is below m and false when it is above, except within 7 * 2^-24 of m.", "quantifier": "all finite binary32 vectors, tolerances and thresholds; all backends", "why_tests_cant": "The default tolerance 1e-6 is only 17 half units in the last place; whether the accumulated rounding errors of normalize and of the test can exceed it for some vector cannot be found by sampling.", "anchors": ["/repo/include/math/vector/float.hpp: normalize, isNormalized, isClose", "/repo/include/math/simd/vector/float.hpp: normalize3, normalize4, isNormalized3, isNormalized4"]}
{"id": "C92", "title": "repeat brings every number into the unit interval, the same way on every type", "statement": "repeat(v) of a finite float, and of every component of float2, float3, float4 and f32x4, is finite and lies in [0, 1]. For v >= 0 it is exactly the fractional part of v. For v < 0 it is the binary32 number nearest to 1 minus the fractional part of -v. Infinities and NaN give NaN. f32x4 gives the same number as float4 on every instruction set, although it uses another algorithm.", "quantifier": "all binary32 values including subnormals, infinities and NaN; all vector types; all instruction sets", "why_tests_cant": "2^32 values per component and six configurations; the failing inputs (whole negative numbers and tiny negative numbers, which give 1 instead of a value below 1) are exceptional.", "anchors": ["include/math/common.hpp: repeat", "include/math/vector/float.hpp: repeat", "include/math/simd/vector/float.hpp: repeat"]}
{"id": "C93", "title": "mod computes the remainder", "statement": "mod on float2, float3 and float4 is the exact remainder of the truncated division of every component pair, with the sign of the dividend, never larger than the divisor, and NaN for a zero divisor or an infinite dividend. mod on f32x4 is the floored remainder; it is exact when both are whole numbers with |n| + |d| <= 2^24, and otherwise only within (|n| + |d|) * 2^-22 of n - k d for some whole k within rounding of the quotient.", "quantifier": "all binary32 dividends and divisors (for f32x4: finite, |n|, |d| <= 2^125, |n| <= 2^126 |d|); all instruction sets", "why_tests_cant": "Two-argument function on 2^64 pairs; the sign error of f32x4 (0.9 mod 0.1 is negative) shows only when the rounded quotient reaches the next whole number.", "anchors": ["include/math/vector/float.hpp: mod", "include/math/simd/vector/float.hpp: mod"]}
{"id": "C94", "title": "lerp is accurate and hits its end points", "statement": "On finite operands without overflow, lerp on every vector type and instruction set returns a(1-t) + bt within four roundings of the two terms, returns a exactly for t = 0 and b exactly for t = 1. Scalar lerp returns a + t(b-a) within four roundings and a exactly for t = 0.", "quantifier": "all finite binary32 a, b, t whose weighted sizes stay below 2^126; t is not restricted to [0, 1]", "why_tests_cant": "Rounding behaviour over 2^96 triples; the scalar version loses b at t = 1 only when |a| is much larger than |b|.", "anchors": ["include/math/common.hpp: lerp", "include/math/vector/float.hpp: lerp", "include/math/simd/vector/float.hpp: lerp"]}
{"id": "C95", "title": "sign, signBits, abs, sqrt and fma mean the same on every vector type and instruction set", "statement": "sign is -1 for a set sign bit (negative zero and negative NaN included) and 1 otherwise; bit i of signBits is the sign bit of component i and no other bit is set; abs clears the sign and keeps the magnitude, infinities and NaN; sqrt is the correctly rounded root, NaN for negative numbers. fma is a * b + c rounded once, on the scalar vectors and on f32x4 with AVX2, fused NEON or no SIMD, and is within two roundings elsewhere.", "quantifier": "all binary32 vectors; all instruction sets; fma: finite operands without overflow", "why_tests_cant": "Bit-level definitions differ per instruction set and must agree on every word; whether fma is fused shows only on operands whose product needs more than 24 bits.", "anchors": ["include/math/vector/float.hpp: fma, abs, sqrt, sign, signBits", "include/math/simd/vector/float.hpp: fma, abs, sqrt, sign, signBits"]}
{"id": "C96", "title": "A BVH over a mesh uses exactly the triangles the vertex and index memory describes", "statement": "For a vertex buffer with positions at the start of fixed-size records and an index buffer of 2 or 4 byte indices, the hierarchy is built over indexCount/3 triangles, triangle k having the positions named by indices 3k, 3k+1 and 3k+2. Any other index size ends the program. No memory outside the two buffers is read.", "quantifier": "all vertex and index memories, vertex sizes, index sizes and counts", "why_tests_cant": "buffers and record sizes are unbounded; the 32-bit address arithmetic only wraps for buffers of more than 4 GiB, which no unit test allocates", "anchors": ["source/bvh.cpp: Bvh::recreate, getIndex16, getIndex32", "include/math/bvh.hpp: Bvh"]}
{"id": "C97", "title": "Rebuilding a BVH does not depend on what the object held before", "statement": "After recreate, getNodes, getPrimitives and getCentroids are those of a new object constructed with the same arguments, whatever builds the object went through before; without given centroids getCentroids holds one centroid per primitive in order.", "quantifier": "all earlier contents of the object (all histories of builds), all inputs", "why_tests_cant": "the history of an object is unbounded; the arrays are resized, not cleared, so stale nodes stay in place during the build", "anchors": ["source/bvh.cpp: Bvh::recreate, Bvh::Bvh", "include/math/bvh.hpp: Bvh::getCentroids, getNodes, getPrimitives"]}
{"id": "C98", "title": "Conversions between integer and float vectors", "statement": "Casting a float vector to an integer vector drops the fraction of every component that is kept and is defined exactly when the results fit; building a float vector from an integer vector gives, per component, a float closest to the integer. Integers of up to 24 bits survive the round trip, and so do whole-number floats that fit. The SIMD vectors convert like the plain ones.", "quantifier": "all component values of all vector widths, all instruction sets", "why_tests_cant": "2^32 values per component; the interesting cases are boundaries and undefined behaviour that a test run does not reveal", "anchors": ["include/math/vector/float.hpp: float2, float3, float4 casts and constructors", "include/math/simd/vector/float.hpp: f32x4::operator i32x4, operator u32x4"]}
{"id": "C99", "title": "SIMD vectors carry four values unchanged", "statement": "Constructors put the given values in the lanes in order; getters, setters, swizzles, select and bit casts read and change exactly the lanes they name; store followed by a load (aligned or from a pointer) gives the vector back and touches nothing else in memory; on every instruction set.", "quantifier": "all lane values, all swizzle patterns, all memory contents, all instruction sets", "why_tests_cant": "2^128 vectors and 256 swizzle patterns on each of several instruction sets, of which a test run uses one", "anchors": ["include/math/simd/vector/float.hpp: f32x4", "include/math/simd/vector/int.hpp: i32x4, select", "include/math/simd/vector/uint.hpp: u32x4, select"]}
{"id": "C100", "title": "The named vector constants are what their names say", "statement": "max is the largest finite float, min the smallest normal one, 1 + epsilon the next float after one, inf and minusInf lie beyond every finite float, nothing compares with nan; the integer min and max are the bounds of their types.", "quantifier": "all floats and words the constants are compared with", "why_tests_cant": "a claim over all 2^32 floats", "anchors": ["include/math/vector/float.hpp: float2::max etc.", "include/math/simd/vector/float.hpp: f32x4::max etc.", "include/math/simd/vector/int.hpp: i32x4::min, max", "include/math/simd/vector/uint.hpp: u32x4::max"]}
{"id": "C101", "title": "The minimum search of deringing tells whether the function goes negative", "statement": "The value shmin returns for nine coefficients is a lower bound (up to its tolerance, the least value) of the function those coefficients describe on the unit sphere: a non-negative answer means the function has no negative value, and the answer is a number.", "quantifier": "all coefficients and all unit directions (exact arithmetic); all binary32 coefficients for the NaN cases", "why_tests_cant": "a claim about every direction of every function; the failing directions (vertical, horizontal) and the concave case are easy to miss with random coefficients", "anchors": ["include/math/sh.hpp: shmin, rotateSh3Bands, deringingSH"]}
{"id": "C102", "title": "A color survives conversion to linear values and back", "statement": "Color::fromLinear(c.toLinear()) gives back c, byte for byte, for every color, on every target with or without fused multiply-add, whenever the platform's std::pow is accurate to one part in 2^20; and each linear channel is within one part in 4096 of the value the sRGB standard defines, with alpha passed through.", "quantifier": "all 2^32 colors, all targets, all std::pow implementations within the stated accuracy", "why_tests_cant": "A test runs one C library on one machine; the claim covers every library within the stated accuracy and all colors, and rests on how far rounding can move a channel from its byte.", "anchors": ["include/math/color.hpp: Color::toLinear, Color::fromLinear", "include/math/color-space.hpp: srgbToRgb, rgbToSrgb"]}
{"id": "C103", "title": "Sphere, plane and frustum tests in binary32 are wrong only within rounding distance of the boundary", "statement": "For finite float inputs that stay below the overflow range, isInside(sphere, point), isIntersected(sphere, sphere) and isIntersected(sphere, aabb) can answer true only if the exact squared distance is below the exact squared radius (or sum of radii) plus a margin of 2^-21 of the two quantities, and they do answer true whenever it is below by more than this margin. distance3(plane, point) is within 2^-21 of the sum of the absolute values of its terms. isBehindFrustum, with and without a model matrix, culls a box only if some single plane has the whole box below such a margin, and always culls a box that one plane has entirely below minus the margin; so a box with a point clearly inside the frustum is never culled.", "quantifier": "all finite binary32 spheres, points, boxes with ordered corners, lists of planes of any length and model matrices, with intermediate sizes at most 2^125 or 2^126", "why_tests_cant": "The answers near the boundary depend on the rounding of every operation; a test sees single inputs, not that no input anywhere is misclassified by more than the margin.", "anchors": ["include/math/sphere.hpp: isInside, isIntersected", "include/math/plane.hpp: distance3", "include/math/aabb.hpp: isBehindFrustum", "include/math/simd/matrix/float.hpp: operator*"]}
{"id": "C104", "title": "A BVH build over separated primitives never fails", "statement": "When the primitives handed to a BVH build are in range, have ordered corners and have centroids that, along each axis, are either equal or differ by at least a millionth of their size (and 2^-100), the build in binary32 always returns: it never reads or writes outside its arrays, never converts a float that does not fit an integer and never fails an assertion, and what it returns is a tree over all primitives. In particular this holds for all boxes with ordered corners on a grid of 2^19 cells in each direction, and for all triangles with vertices on a grid of 2^17 cells, with the default centroids.", "quantifier": "all arrays of 1 to 2^31 primitives in the stated range, all earlier contents of the BVH, all root boxes with ordered corners in range, all grid sizes 2^-90 to 2^20", "why_tests_cant": "Whether an index stays inside an array depends on the rounding of every bin computation over every subset of primitives the recursion can meet; a test runs a few scenes.", "anchors": ["include/math/bvh.hpp: recreate, build, calcBestSplit, splitNode", "source/bvh.cpp"]}
{"id": "C105", "title": "A frustum or sphere query of a BVH loses no primitive to rounding", "statement": "In binary32, if the frustum test or the sphere test accepts a box, it accepts every larger box, although every step of the tests is rounded. Hence traversing a built tree with such a test on the node boxes, or collecting with collectInFrustum, reports every primitive whose own box (or any box within the bounding box of its triangle) the same test accepts, for any number of primitives, any tree shape and any planes, with coordinates up to 2^60.", "quantifier": "all boxes, triangles, planes and spheres with coordinates up to 2^60, all trees built over them, and all tests that accept a box whenever they accept a smaller one", "why_tests_cant": "The rounding of a node's test and of a primitive's test differ; a lost primitive shows only for particular coordinates at a particular depth of a particular tree, and the claim is about every tree.", "anchors": ["include/math/bvh.hpp: Bvh::traverse, Bvh::collectInFrustum", "include/math/aabb.hpp: isBehindFrustum", "include/math/sphere.hpp: isIntersected(Sphere, Aabb)", "source/bvh.cpp: recreate"]}
{"id": "C106", "title": "A ray or point query of a BVH loses no primitive", "statement": "Traversing a built tree with the ray test or the point test on the node boxes reports every primitive whose own box the ray hits or which contains the point.", "quantifier": "all rays and points, all trees over boxes or triangles with coordinates up to 2^60", "why_tests_cant": "A ray parallel to an axis that runs in the plane of a box face produces not-a-number lanes whose effect depends on operand order; and the answer must be monotone in the box for every rounding.", "anchors": ["include/math/aabb.hpp: raycast2I, raycast2, raycastI, raycast, isInside", "include/math/bvh.hpp: Bvh::traverse, Bvh::Node"]}
{"id": "C107", "title": "SIMD matrix functions give the same result on every instruction set", "statement": "The product, transpose and inverse functions of f32x4x4 return the same matrix on SSE, AVX2, NEON and without SIMD: bit for bit where the multiply-add is of the same kind (fused or not), and the same real matrix otherwise.", "quantifier": "all matrices and vectors of floats, including NaN and infinities, and all instruction sets", "why_tests_cant": "A test runs on one instruction set; the claim compares all of them for every input.", "anchors": ["include/math/simd/matrix/float.hpp: operator*, multiply3x3, transpose4x4, transpose3x3, inverse4x4"]}
{"id": "C108", "title": "Matrix operators with a scalar act on every element", "statement": "For every matrix shape, each element of m op n, of m after m op= n and of n op m is the correctly rounded result of that operator on that element and n, with the operands in the written order; the SIMD forms give the same bits on every instruction set. A matrix made from one number has it in every element.", "quantifier": "all matrices of floats, all scalars, the four operators, all rows and columns, all instruction sets", "why_tests_cant": "Every element of every form for every float, including signed zeros, infinities and NaN.", "anchors": ["include/math/matrix/float.hpp: operator+ - * /, operator+= -= *= /=", "include/math/simd/matrix/float.hpp: operator+ - * /, operator+= -= *= /="]}
{"id": "C109", "title": "Rounding errors of long products grow linearly", "statement": "Multiplying any number of quaternions, or of 4x4 matrices, in any order of multiplication, in floats, gives the exact product up to a relative error that grows linearly with the number of multiplications (9/2^24 per quaternion product, 5/2^24 per matrix product, compounded); a chain of up to 65536 rotations does not overflow and its length stays one up to 2^-18 per factor.", "quantifier": "all products of any number of finite factors with any placement of parentheses whose partial products stay within range; the scalar code and every SIMD target, fused or not", "why_tests_cant": "The number of factors, the order of multiplication and the factors are unbounded; a test measures the drift of one chain.", "anchors": ["include/math/quaternion.hpp: quat::operator*", "include/math/matrix/float.hpp: float4x4::operator*", "include/math/simd/matrix/float.hpp: f32x4x4 operator*"]}
{"id": "C110", "title": "Rotating vectors by quaternions is accurate, and rotating back returns the vector", "statement": "For a quaternion of nearly unit length, q * v is the exact rotation q v q^-1 up to 2^-19 of the length of v plus twice the deviation of the squared length of q from one; v * q is the exact inverse rotation up to 2^-17 and three times the deviation; the inverse of q is exact up to 6/2^24 per lane; rotating and rotating back returns the vector up to 2^-16 of its length plus eight times the deviation.", "quantifier": "all finite quaternions with squared length within 1/2000 of one and all finite vectors of length up to 2^99, all instruction sets, fused or separate multiply-add", "why_tests_cant": "The bound holds for every pair of quaternion and vector; a test samples some.", "anchors": ["include/math/quaternion.hpp: quat::operator*(f32x4), operator*(f32x4, quat), inverse, conjugate"]}
{"id": "C111", "title": "Model matrices in floats place points correctly", "statement": "calcModel(position, rotation, scale) in floats has exactly the position as its last column and exactly 0 0 0 1 as its lowest row; its other columns are the scaled axes rotated exactly by the quaternion, up to 40/2^24 of the scale, even when the quaternion is not of unit length; and the matrix times a point is where position + rotation*(scale*point) lies exactly, up to 45/2^24 of the scaled coordinates and 5/2^24 of the position.", "quantifier": "all finite positions, quaternions of length between 2^-50 and 2^62, scales and points up to 2^60; every instruction set, fused or separate multiply-add, and both branches of calcModel", "why_tests_cant": "The bound must hold for every transform and every point; a test samples some.", "anchors": ["include/math/matrix/transform.hpp: calcModel, translate, rotate, scale", "include/math/quaternion.hpp: normalize", "include/math/simd/matrix/float.hpp: operator*"]}
{"id": "C112", "title": "Frustum culling in floats is right up to rounding", "statement": "When a box is culled with the planes extracted from a view-projection matrix in floats, normalised or not, there is a face of the clip volume beyond which the whole box lies, up to a slack of 2^-19 of the sizes of the terms of the clip coordinates (plus a tiny absolute term); when the whole box lies beyond one face by more than the slack it is culled; so a box with a point inside all faces by the slack is never culled.", "quantifier": "all matrices with finite entries up to 2^100 (up to 2^48 and face normals of length at least 2^-50 when normalised), all finite boxes with ordered corners", "why_tests_cant": "The result must be right for every matrix and every box, and rounding of the extraction, the normalisation and the test add up.", "anchors": ["include/math/plane.hpp: extractFrustumPlanes, normalizePlanes, Plane::normalize", "include/math/aabb.hpp: isBehindFrustum"]}
{"id": "C113", "title": "Text forms of vectors and colors read back", "statement": "toString of an integer vector or a color, split at the spaces and read as integers, gives the components back; toString of a finite float vector gives every component back up to half a millionth, and identifies components of size 16 or more exactly (smaller ones can collide).", "quantifier": "all int2..int4, uint2..uint4, i32x4, u32x4, Color and finite float2..float4, f32x4 values", "why_tests_cant": "Rounding of the six decimals depends on the value; there are 2^32 floats per component.", "anchors": ["include/math/vector/float.hpp: toString", "include/math/vector/int.hpp: toString", "include/math/vector/uint.hpp: toString", "include/math/color.hpp: toString1..4"]}
{"id": "C114", "title": "Mathematical functions of vectors act on every component", "statement": "exp, exp2, expm1, log, log10, log2, log1p, cbrt, sin, cos, tan, asin, acos, atan, sinh, cosh, tanh, asinh, acosh, atanh, atan of two vectors and pow of float2, float3 and float4 apply the standard library function of their name to every component in order; gain and lerpDelta of vectors apply the scalar functions of the same name to every component.", "quantifier": "all vectors, and all implementations of the standard library functions", "why_tests_cant": "A test can only compare with one library on some values; sixty functions times all components.", "anchors": ["include/math/vector/float.hpp: exp .. atanh, atan, pow, gain, lerpDelta"]}
{"id": "C115", "title": "View matrices are accurate in binary32", "statement": "For finite vectors, a camera that is neither too close to nor too far from its target, and an up vector of moderate length that makes an angle with sine at least s with the line of sight, the matrix returned by lookAt is within 43/2^24/s of the one exact view matrix of that camera in every entry of the rotation, and within 47/2^24/s of the camera's distance from the origin in the translation; its last row is exactly 0 0 0 1. Points transformed by the matrix are within the corresponding bound of their exact view. The same holds for the orientation matrix rotate(from, to, up), and rotate(front, up) with a front whose length is off from one by e is within 18/2^24/s + 1.01 e of the exact orientation. The exact view matrix is the unique rigid transform that sends the camera to the origin, the target onto the positive z axis at its distance, and up into the half plane x = 0, y > 0.", "quantifier": "all backends and multiply-add variants, all finite positions and up vectors that meet the range conditions, all s from 2^-20 to 1 for which up is that far from the line of sight, all points with coordinates up to 2^100", "why_tests_cant": "The result goes through a difference, two normalisations and two cross products, and the error is amplified by the angle between up and the line of sight; sampling cameras cannot bound the error for all of them.", "anchors": ["include/math/matrix/transform.hpp: lookAt, rotate(lookFrom, lookTo, up), rotate(front, up)", "include/math/simd/vector/float.hpp: normalize3, cross3, dot3"]}
{"id": "C116", "title": "Angle conversions are accurate in binary32", "statement": "radians and degrees never produce a non-finite result from a finite angle (degrees: from one of magnitude at most 2^120; the SIMD forms: 2^118), return the exact conversion up to a small number of half units in the last place (5/4 for radians, 2 for degrees, 5/2 for the SIMD overloads), preserve the order of angles, and converting there and back returns the angle up to 4/2^24 of it. The vector overloads return in each component what the scalar function returns.", "quantifier": "all finite binary32 angles in the stated ranges, all vectors of them, both directions, scalar and SIMD overloads", "why_tests_cant": "Two rounded constants and one or two rounded operations are involved; the worst error is at an unknown input and order preservation is about all pairs of angles.", "anchors": ["include/math/angles.hpp: radians, degrees"]}
{"id": "C117", "title": "Projections clip correctly in binary32", "statement": "With a library tangent accurate to one unit in the last place, the clip coordinates that a projection matrix computed in binary32 gives a point, multiplied by the scalar code or on any SIMD target, are the exact ones up to 10 half units in the last place of the terms involved. A point inside the view volume by the fraction 16/2^24 comes out with -w <= x <= w, -w <= y <= w and 0 <= z <= w, and one outside by that fraction comes out violating one of these; at the far plane of the forward-depth perspective projection the fraction is 32/2^24 times far/near, while reversed depth needs no such factor.", "quantifier": "all fields of view from 2^-30 to 3.1415, aspect ratios and near planes from 2^-30 to 2^30, far planes up to 2^40; all orthographic extents of length at least 2^-30 up to 2^40 away; all points with coordinates up to 2^40; all tangent functions within one unit in the last place; scalar and every SIMD target", "why_tests_cant": "Whether a point near the boundary of the view is kept depends on the rounding of every entry of the matrix and of the product; the claim is about all cameras and all points.", "anchors": ["include/math/matrix/projection.hpp: calcPerspProj, calcPerspProjRevZ, calcPerspProjInfRevZ, calcOrthoProj, calcOrthoProjRevZ", "include/math/matrix/float.hpp: float4x4 * float4", "include/math/simd/matrix/float.hpp: f32x4x4 * f32x4"]}
{"id": "C118", "title": "Inverse matrices are accurate in binary32", "statement": "For a 4x4 matrix with finite entries of at most 2^20, a determinant of at least 2^-40 and a loss of at most 16 bits to cancellation in the determinant, every entry of the matrix returned by inverse, or by inverse4x4 on any SIMD target, is finite and equals the entry of the exact inverse up to 8/2^24 times the sum of the absolute values of the terms of its cofactor over the determinant, plus 13/2^24 times the cancellation factor times the entry itself, plus 2^-60.", "quantifier": "all float4x4 and f32x4x4 matrices that meet the conditions, all targets, fused and separate multiply-add", "why_tests_cant": "The error depends on the cancellation in sixteen cofactors and a determinant of twenty-four terms; samples do not reach the worst rounding of each, and transposition or sign errors hide in symmetric samples.", "anchors": ["include/math/matrix/float.hpp: inverse(float4x4)", "include/math/simd/matrix/float.hpp: inverse4x4"]}
{"id": "C119", "title": "The triangle-box test is reliable in binary32", "statement": "For coordinates of at most L (zero or at least 2^-25 in absolute value, 2^-10 <= L <= 2^18), a nonnegative extent and a triangle that is not thinner than L/2^18, isAabbIntersected(position, extent, triangle) computed in binary32 answers true for every triangle that meets the box shrunk by a margin, and answers true only for triangles that meet the box grown by that margin; the margin is 16/2^24 times L times a shape factor of the triangle (the square of the length of its edges over its area).", "quantifier": "all binary32 positions, extents and triangles that meet the conditions", "why_tests_cant": "Thirteen axes are tested with rounded projections; which axis decides, and by how much, changes over the whole input space, and the worst roundings are rare.", "anchors": ["source/aabb.cpp: isAabbIntersected(f32x4, f32x4, Triangle)"]}
{"id": "C120", "title": "Component access, integer conversions and three-way minima", "statement": "Indexing a vector or the columns of a SIMD matrix reads or writes exactly the named component and rejects every other index; conversions between signed and unsigned vectors keep the components in place, preserve them modulo 2^32 and are undone by the conversion back; narrowing keeps the first components; min and max of three numbers return one of the three that bounds all three.", "quantifier": "all vectors of 2, 3 and 4 components of any element type, all indices, all 32-bit words, all floats that are not NaN", "why_tests_cant": "Every width and element type has its own copy of the code and its own bound; 2^32 values per component.", "anchors": ["include/math/vector/int.hpp: int2, int3, int4", "include/math/vector/uint.hpp: operator[]", "include/math/vector/float.hpp: operator[]", "include/math/simd/matrix/float.hpp: operator[]", "include/math/common.hpp: min, max"]}
{"id": "C121", "title": "The ray-box test is reliable in binary32", "statement": "With every operation rounded, a ray that passes through a box by more than a margin is reported as hitting it, and a ray that is reported as hitting it passes within the margin; the margin at a face is five half units in the last place of the distance between that face and the ray's origin. With reciprocals given, the two times returned on a hit enclose the stay in the box narrowed by the margin and lie within the stay in the box widened by it.", "quantifier": "all boxes and origins with finite coordinates up to 2^60, all directions whose coordinates are between 2^-20 and 2^20 in size (2^-60 and 2^60 for given reciprocals)", "why_tests_cant": "Rounded crossings of near-grazing rays; a test cannot cover all pairs of rays and boxes nor say how near is too near.", "anchors": ["include/math/aabb.hpp: raycast2I, raycast1I, raycast2, raycast, raycastI, isAabbIntersected", "include/math/ray.hpp: setDirection"]}
{"id": "C122", "title": "Cube map texel directions are right in binary32", "statement": "With every operation rounded, the direction returned for a texel of a cube map face is finite, points through that face, and looking the cube map up along it lands strictly inside that same texel, within 11/2^24 of its centre.", "quantifier": "all six faces, all face sizes up to 2^19, all texels of the face, with the reciprocal of the size computed in binary32", "why_tests_cant": "The texel centre is found through a rounded reciprocal, a subtraction and a normalisation; whether any of the 2^40 texels slips to its neighbour cannot be tested.", "anchors": ["include/math/ibl.hpp: coordsToST, coordsToDir, stToDir"]}
{"id": "C123", "title": "Extracting Euler angles inverts building a quaternion from them", "statement": "The pitch, yaw and roll read from a quaternion built from Euler angles are those angles; and a quaternion built from the angles read from any unit quaternion rotates every vector in the same way, also at gimbal lock.", "quantifier": "all pitches and rolls in a full turn, all yaws within a quarter turn; all unit quaternions", "why_tests_cant": "Three continuous angles with singular cases on lines and planes; samples miss the places where the singularity test misfires.", "anchors": ["include/math/quaternion.hpp: extractPitch, extractYaw, extractRoll, extractEulerAngles, quat(const f32x4&)"]}
{"id": "C124", "title": "Closest point on a triangle is the nearest point", "statement": "closestPoint(triangle, p) lies on the triangle and no point of the triangle is nearer to p.", "quantifier": "all non-degenerate triangles and all points (exact arithmetic)", "why_tests_cant": "Quantifies over all triangles, all points and all points of the triangle; the code branches on the region the point projects to.", "anchors": ["include/math/plane.hpp: closestPoint(const Triangle&, f32x4)", "include/math/triangle.hpp: isInside", "include/math/line.hpp: closestPoint"]}
{"id": "C125", "title": "Shape setters, directions and scaling change what they name", "statement": "Setting one attribute of a plane or a sphere leaves the other one alone and makes the getter return the new value; the direction of a line leads from its start to its end, and normalising a line direction or a ray keeps the points it describes; scaling a box by a vector scales the set of points it contains.", "quantifier": "all planes, spheres, lines, rays, boxes and arguments (exact arithmetic)", "why_tests_cant": "Quantifies over all shapes and arguments; the box claim is about the set of all points of the scaled box, for factors of either sign.", "anchors": ["include/math/plane.hpp: Plane::setNormal, setDistance, getDistance", "include/math/sphere.hpp: Sphere::setPosition, setRadius", "include/math/line.hpp: Line::getDirection", "include/math/ray.hpp: Ray::normalize", "include/math/aabb.hpp: Aabb::scale"]}
{"id": "C126", "title": "Closest points of segments, rays and planes are accurate in binary32", "statement": "In binary32 closestPoint of a segment, of a ray with a unit direction and of a plane with a unit normal returns a point that agrees in every coordinate with the exact nearest point, up to a small fraction of the largest coordinate involved.", "quantifier": "all segments at least 2^-50 long, all rays with unit direction, all planes with unit normal, and all points, with coordinates up to 2^60", "why_tests_cant": "Quantifies over all binary32 inputs; the error depends on cancellation in the differences and dot products, which no finite set of inputs exhausts.", "anchors": ["include/math/line.hpp: closestPoint", "include/math/ray.hpp: closestPoint", "include/math/plane.hpp: closestPoint(const Plane&, f32x4)"]}
{"id": "C127", "title": "Spherical harmonics are accurate in single precision", "statement": "In the single precision arithmetic the library runs in, the basis values computed for a direction whose coordinates are off by at most e from an exact unit direction are finite and within 33 (e + 2^-24) of the spherical harmonics of that direction, for all nine band and order pairs; and rotating coefficients of size at most B by a matrix whose entries are off by at most e from an orthonormal matrix gives finite band-2 coefficients whose function, at every rotated direction, has the value of the original function at the direction up to 1024 (B (e + 2^-24) + 2^-100).", "quantifier": "all directions, all binary32 vectors within e of them, all previous array contents; all orthonormal matrices, all binary32 matrices within e of them, all binary32 coefficients up to B <= 2^100, all unit directions; every e in [0, 2^-11]", "why_tests_cant": "The error depends on where the direction or the matrix falls between representable numbers; a test can only sample directions, the claim bounds the worst case over all of them.", "anchors": ["include/math/sh.hpp: computeShBasis, projectVecToSH2K, rotateSphericalHarmonicBand2, rotateSh3Bands"]}
{"id": "C128", "title": "Barycentric coordinates in binary32", "statement": "calcBarycentric, evaluated in binary32, returns the weights of the point of the triangle's plane nearest to the given point, up to an explicit error: when the two sides at the first vertex have lengths between 2^-20 and 2^20 and enclose an angle whose squared sine is at least 1/K (K up to 2^14), and the point is at most R times as far from the first vertex as the other two vertices are (R up to 2^20), the three coordinates are finite and each within K(R+|b|+|c|)/2^17 of the exact weights, and the fourth lane is zero.", "quantifier": "all triangles and points with finite binary32 coordinates, and all K and R satisfying the stated conditions", "why_tests_cant": "the bound must hold for every triangle shape and point; the rounding errors of five dot products and a determinant only meet their worst case on particular inputs", "anchors": ["include/math/triangle.hpp: calcBarycentric"]}
{"id": "C129", "title": "Point-in-triangle test in binary32", "statement": "isInside(triangle, point), evaluated in binary32, gives the right answer away from the edges and near the plane. With M a bound on the coordinate distances from the point to the vertices and w a margin whose square times the squared double area exceeds M^4/2^16 plus 12 M^2 times the squared distance from the plane: a point whose three exact weights are all at least w is accepted, and a point with a weight of at most -w is rejected, unless its first weight is closer to zero than w (where the code accepts points beyond the side opposite the first vertex).", "quantifier": "all triangles and points with finite binary32 coordinates, M between 2^-25 and 2^25, all weights and margins", "why_tests_cant": "a claim over all triangles, points and roundings; errors show up only close to the edges", "anchors": ["include/math/triangle.hpp: isInside"]}
{"id": "C130", "title": "Reflectance helpers in binary32", "statement": "Evaluated in binary32, the reflectance helpers return what their formulas say. importanceSamplingNdfDggx(u, roughness) returns, for every pair of random numbers in the unit square, a direction within 2^-20 of a unit vector with the requested azimuth whose squared cosine is that of the Trowbridge-Reitz distribution up to a small relative error; ggx(noh, roughness) has a relative error of at most 20 * 2^-24 over its denominator; iorToReflectance(n) has a relative error of at most 8 * 2^-24 for every index from 1 to 2^60. No result is NaN or infinite.", "quantifier": "all binary32 random pairs in the unit square, all roughness values in (0, 1], all cosines in [0, 1], all indices of refraction in [1, 2^60], and every sin/cos accurate to 2^-23", "why_tests_cant": "a claim over all roundings of all inputs; the failures occur only for a narrow range of small roughness values and particular random numbers", "anchors": ["include/math/brdf.hpp: importanceSamplingNdfDggx, ggx, iorToReflectance"]}
{"id": "C131", "title": "Rotations built from angles are accurate in binary32", "statement": "Evaluated in binary32 with the library's own sine and cosine, quat(angle, axis) is within 3e-7 times the largest axis lane of cos(angle/2) + sin(angle/2) axis in every lane, and fromEulerAngles(e) within 1.7e-6 of the product of the rotations about z, y and x. Consequently quat(angle, axis) * v, for an axis within rounding of a unit vector, is within 1e-5 |v| of the vector v rotated about that unit vector by the angle, and fromEulerAngles(e) * v is within 2.3e-5 |v| of v rotated about x by e.x, then about y by e.y, then about z by e.z.", "quantifier": "all binary32 angles of at most 16000 radians, all axes and vectors with finite lanes and length up to 2^100, every backend, fused or unfused multiply-add", "why_tests_cant": "a claim over all angles, axes, vectors and roundings; sine reduction errors appear only at isolated angles", "anchors": ["include/math/quaternion.hpp: quat(float, f32x4), fromEulerAngles, operator*", "include/math/simd/vector/float.hpp: sinCos"]}
{"id": "C132", "title": "XYZ and Yxy conversions are accurate and invertible in binary32", "statement": "Evaluated in binary32, rgbToXyz of a color with non-negative channels equals the exact matrix product up to 4.1 rounding units in every lane, and the chromaticities of xyzToYxy equal x/(x+y+z) and y/(x+y+z) up to 5.1 rounding units. Converting back returns the color: xyzToRgb(rgbToXyz(c)) is within 4e-6 of the largest channel, yxyToXyz(xyzToYxy(v)) within 15 rounding units of the sum of the lanes, and yxyToRgb(rgbToYxy(c)) within 1e-5 of the sum of the channels.", "quantifier": "all finite binary32 colors in the stated ranges (for Yxy: non-negative channels whose sum is between 2^-30 and 2^30), every backend, fused or unfused multiply-add", "why_tests_cant": "a claim over all colors and roundings; the division amplifies errors only near particular chromaticities", "anchors": ["include/math/color-space.hpp: rgbToXyz, xyzToRgb, xyzToYxy, yxyToXyz, rgbToYxy, yxyToRgb"]}
{"id": "C133", "title": "Extracting the rotation of a matrix is accurate in binary32", "statement": "Evaluated in binary32, extractQuat of a matrix whose columns are within e of a rotation returns that rotation's unit quaternion q or -q with every lane within 3e + 14/2^24, so the extracted quaternion rotates every vector as the matrix does up to (1/2^16 + 37e) times its length. Extracting the position and rotation of calcModel(position, rotation, one) returns the position exactly and the normalised rotation, or its negative, within 9e-6 in every lane. With the scale read as well, the position is exact, the rotation is within 590/2^24 and the scale within 146/2^24 of one.", "quantifier": "all binary32 matrices within e <= 2^-14 of a rotation matrix, all finite positions, all finite quaternions with length between 2^-50 and 2^62, every backend, fused or unfused multiply-add", "why_tests_cant": "a claim over all rotations and roundings; the choice between the four branches is decided by rounded numbers", "anchors": ["include/math/matrix/transform.hpp: extractQuat, extractTransform(m, position, rotation), extractTransform(m, position, rotation, scale), extractScale, extractRotation, calcModel"]}
{"id": "C134", "title": "Measuring and placing boxes is accurate in binary32", "statement": "Evaluated in binary32, getSize, getExtent and getPosition of a box are correct up to two rounding units and the position lies in the box; a box made by setSize or setExtent about a position contains that position and gives the size or extent and the position back up to a few rounding units of |position| + size; about the origin the extent comes back exactly, the size too unless halving it underflows, and the position is exactly zero; calcArea and calcVolume are correct up to a relative error of 6.1 and 5.1 rounding units.", "quantifier": "all boxes with min <= max, all sizes and extents that are not negative, all positions, coordinates up to 2^120", "why_tests_cant": "quantifies over all binary32 boxes; the error depends on the cancellation between the faces and on underflow", "anchors": ["include/math/aabb.hpp: getSize, getExtent, getPosition, setSize, setExtent, calcArea, calcVolume"]}
{"id": "C135", "title": "Spherical interpolation is accurate in binary32", "statement": "Evaluated in binary32 on any SIMD backend, with the platform's sin and acos right up to four rounding units, slerp(a, b, t) of two quaternions that are within e <= 2^-10 of unit length quaternions A and B is finite and in every component within 8 e + 54 * 2^-24 of the unit quaternion at the fraction t of the arc from A to B or -B; the end chosen is the one on A's side, up to the rounding of the dot product. The bound holds next to the switch between the linear and the trigonometric formula, and for nearly parallel quaternions where the quotient of sines cancels.", "quantifier": "all pairs of nearly unit quaternions, all t from 0 to 1, all backends, all sin and acos with the stated accuracy", "why_tests_cant": "quantifies over all binary32 quaternions and fractions, and over every library sin and acos of the stated accuracy; the error of the angle is amplified by the quotient of sines and the two formulas switch at a rounded threshold", "anchors": ["include/math/quaternion.hpp: slerp", "include/math/simd/vector/float.hpp: lerp, dot4"]}
{"id": "C136", "title": "Texel solid angles are accurate in binary32", "statement": "Evaluated in binary32, with the platform's atan2 right up to four rounding units, calcSolidAngle at the centre of a texel (coordsToST) with the rounded reciprocal of the face size n is finite and within (27 + 81/n) * 2^-24 of the exact solid angle of that texel; up to n = 512 it is positive, with a relative error of at most 36 (n^2 + 3 n) * 2^-24; the computed angles of a face sum to 2 pi / 3 up to n^2 times that error.", "quantifier": "all face sizes up to 2^19 (512 for positivity), all texels, all atan2 with the stated accuracy", "why_tests_cant": "quantifies over every texel of every face size and every library atan2; the result is an alternating sum of four nearly equal angles, so the cancellation is worst at particular texels only", "anchors": ["include/math/sh.hpp: calcSolidAngle, sphereQuadrantArea", "include/math/ibl.hpp: coordsToST"]}
{"id": "C137", "title": "Smoothing does not depend on the frame rate in binary32", "statement": "Evaluated in binary32, with the platform's pow right up to four rounding units, calling lerpDelta once per frame with any frame times gives after k frames a finite value within k * (14 M / 2^24 + 2^-149) of the exact smoothing b + f^t (a - b) at the total time t, where M bounds |a| and |b|; so two ways of cutting the same total time into frames agree up to the sum of these errors.", "quantifier": "all start and target values up to 2^120, all factors 0 < f <= 1, all sequences of up to 65536 finite, non-negative frame times, all pow with the stated accuracy", "why_tests_cant": "quantifies over every history of frame times; the rounding of each frame is fed back into the next, so an error that grows shows up only after long histories", "anchors": ["include/math/common.hpp: lerpDelta"]}
{"id": "C138", "title": "Windowing and deringing are accurate in binary32", "statement": "Evaluated in binary32, with the platform's sin right up to four rounding units, the window of a band is never negative and within 2^-18 of the exact fourth power of sin x / x at x = pi l / cutoff (one for band 0, zero from the cutoff on). deringingSH, whatever its minimum search answers, ends with one cutoff between 3 and 4.25 and scales every lane of every band by the exact factor for that cutoff up to 2^-17 of the coefficient: the constant band keeps its value exactly, no coefficient grows, and at most a quarter of band 2 is left (plus the smallest positive value).", "quantifier": "all finite cutoffs up to 2^20 and bands up to 2^20; all nine coefficients with finite lanes up to 2^126, all minimum searches that keep nine coefficients, all sin with the stated accuracy", "why_tests_cant": "the cutoff depends on the path of a bisection over three channels, and the factor on where the cutoff falls; near x = pi the sine has no relative accuracy left", "anchors": ["include/math/sh.hpp: sincWindow, windowing, deringingSH"]}
{"id": "C139", "title": "The constant tables of spherical harmonics are right to the last place in binary32", "statement": "The tables ki, the table of the minimum search and the table of shaderPreprocessSH, computed from their decimal literals in double precision and converted to float once, are within 1.01 * 2^-24 (relative) of the exact constants sqrt(k) / (q sqrt(pi)) [/ pi], and ki of the normalisation constant of its harmonic times the cosine-lobe coefficient; shaderPreprocessSH in binary32 multiplies every lane of every coefficient by the exact constant up to 2.1 * 2^-24 (relative) and the smallest positive value.", "quantifier": "all nine indices, every double rounding with relative error 2^-53, all coefficients with finite lanes up to 2^120", "why_tests_cant": "a test compares with constants computed in the same way; the claim is about the exact irrational constants and about every evaluation of the double expressions within IEEE accuracy", "anchors": ["include/math/sh.hpp: ki, shmin, shaderPreprocessSH"]}
{"id": "C140", "title": "The plane through a triangle is accurate in binary32", "statement": "Let a triangle of finite binary32 corners have sides of length at most 2^30 at its first corner, let the sine s of the angle there be at least 2^-20, and let the product of the sides and s be at least 2^-49. Then on every backend the plane built from the triangle is finite; every coordinate of its normal is within 18/2^24/s of the exact unit normal (the one perpendicular to both sides that sees the corners in counterclockwise order), its length is within 6.2/2^24 of one, and the stored distance is within 22/2^24/s times the distance of the first corner from the origin of the scalar product of the exact normal with the corner. If two corners coincide, the plane is stored as zero normal and zero distance, never NaN or infinite. (That the stored distance has the sign opposite to the one the distance function expects is C38.)", "quantifier": "all triangles of finite binary32 corners in that range, all backends", "why_tests_cant": "The bound must hold for every triple of binary32 corners, including needles and tiny triangles far from the origin, on four instruction sets.", "anchors": ["include/math/plane.hpp:Plane(const Triangle&)", "include/math/simd/vector/float.hpp:cross3", "include/math/simd/vector/float.hpp:normalize3", "include/math/simd/vector/float.hpp:length3"]}
{"id": "C141", "title": "Undoing a motion with the rigid inverse is accurate in binary32", "statement": "Let the upper left block of a finite binary32 matrix m be within e <= 2^-10 of a rotation in every entry. On every backend and target, inverseTransRot(m) times a point p is finite, and every coordinate is within (e + 4.02/2^24) of the sum of the sizes of the coordinates of p plus (e + 7.05/2^24) of the sum of the sizes of the translation of m, plus 2^-145, of the point that the exact motion takes to p. Moving a point with m and taking it back with inverseTransRot(m) gives the point within (8 e + 32/2^24) of those sizes plus 2^-140. The matrices that calcModel builds with scale one meet this with e = 41/2^24. (That the last row of the inverse is not 0 0 0 1 is C61: the result is a point with a wrong fourth lane.)", "quantifier": "all finite binary32 matrices near a motion, all points of finite coordinates with size up to 2^97, all backends and targets", "why_tests_cant": "The bound must hold for every rotation, every translation and every point, on four instruction sets with and without fused multiply-add.", "anchors": ["include/math/matrix/transform.hpp:inverseTransRot", "include/math/simd/matrix/float.hpp:multiply3x3", "include/math/simd/matrix/float.hpp:transpose4x4", "include/math/matrix/transform.hpp:calcModel"]}
{"id": "C142", "title": "sRGB conversion and gain follow their curves in binary32 over the whole unit interval", "statement": "Let std::pow be accurate to one part in 2^20 where it is used. For every finite channel value in [0, 1], srgbToRgb gives the value of the sRGB standard within one part in 2^19 (plus 2^-149), rgbToSrgb gives the value of the standard within 3/2^21 with and without fused multiply-add, decoding and encoding again gives the channel back within 5/2^21, encoding and decoding again within 11/2^21 and for dark channels within one part in 2^13 (plus 2^-149), and alpha is kept bit for bit. Let std::pow be right up to four rounding units on bases in (0, 1], zero at zero and one at one. For every x in [0, 1] and every factor k > 0, gain(x, k) is the gain curve: within one part in 2^21 (plus 2^-148) below one half and within 2^-22 from one half up, whatever the size of k. It passes through 0, 1/2 and 1 exactly. For x below one half whose complement 1 - x is a float, gain(1 - x, k) is exactly what 1 - gain(x, k) computes, whatever std::pow does.", "quantifier": "all binary32 channel values in the unit interval, all positive factors, every std::pow of the stated accuracy, every target", "why_tests_cant": "There are a billion floats in the unit interval and any number of factors, and the C library differs between platforms; the two curves switch formula at a threshold that is not a float, where a test on bytes never looks.", "anchors": ["include/math/color-space.hpp:srgbToRgb", "include/math/color-space.hpp:rgbToSrgb", "include/math/common.hpp:gain"]}
{"id": "C143", "title": "Euler angles read from a quaternion are right in binary32, with an error that grows towards gimbal lock", "statement": "Let std::asin be within 2^-21 of the arc sine and std::atan2 within 2^-20 of the polar angle up to a whole turn. Let a quaternion be given whose lanes are each within e (at most 1e-3) of the rotation by p about x, then y about y, then r about z. With d = 8.1 e + 1e-6: for y in [-pi/2, pi/2] extractYaw is finite and within pi sqrt(d/2) + 2^-21 of y everywhere, gimbal lock included, and within pi d / cos y + 2^-21 before it. When cos y is at least 2.9 d, extractRoll is finite and within 2.2 d / cos y + 2^-20 of r up to whole turns, and extractPitch likewise of p. So angles up to 16000 put into a quaternion by fromEulerAngles in binary32 and read back are the angles given: the yaw within 4.7e-5 / cos y, pitch and roll within 3.3e-5 / cos y (plus the error of the library function) up to whole turns.", "quantifier": "all binary32 quaternions, all real angles and errors, all binary32 Euler angles up to 16000, every std::asin and std::atan2 of the stated accuracy, every target", "why_tests_cant": "The error depends on all three angles and has a pole at gimbal lock; a test samples comfortable angles, and the accuracy of the library functions differs between platforms.", "anchors": ["include/math/quaternion.hpp:extractPitch", "include/math/quaternion.hpp:extractYaw", "include/math/quaternion.hpp:extractRoll", "include/math/simd/quaternion.hpp:fromEulerAngles"]}
{"id": "C144", "title": "Moving and scaling a matrix in binary32 rounds each entry once", "statement": "For finite matrices and vectors whose exact result fits in binary32, on every target: every entry of scale(m, s) and of scale(s, m) is a float nearest to that entry of the exact product of m with the scale matrix, the last column of the first and the lowest row of the second keep their values; every entry of translate(t, m), for m with lowest row 0 0 0 1, is a float nearest to that of the exact product, and all entries but the translation are kept bit for bit; translate(m, t) keeps all entries but the translation bit for bit, and its translation is that of the exact product of m with the translation by t within 4.01 * 2^-24 of the sum of the sizes of the terms.", "quantifier": "all finite binary32 matrices and vectors in the range, every target, with or without SIMD and fused multiply-add", "why_tests_cant": "The entries range over all floats; scale(s, m) sums four products in an order that depends on the target, and that the three zero products cost no accuracy must hold for every value.", "anchors": ["include/math/matrix/transform.hpp:translate", "include/math/matrix/transform.hpp:scale", "include/math/simd/matrix/float.hpp:multiply3x3"]}
{"id": "C145", "title": "SIMD float minimum, maximum and clamp are right on every backend", "statement": "On SSE, NEON and without SIMD, for lanes that are not NaN (infinities included): min and max of f32x4 answer, lane by lane, one of the two operands bit for bit, and it compares <= (>=) both; min3, max3, min4 and max4 answer a lane that is least (greatest) of exactly the first three or four; clamp(v, lo, hi) with lo <= hi lies between the bounds, is the lane or a bound, and equals the lane when the lane lies between them. With a NaN lane the backends part: SSE answers the second operand, plain C++ the first and NEON a NaN, so clamp turns a NaN into the upper bound on SSE and keeps it elsewhere.", "quantifier": "all binary32 lanes including infinities, zeros of both signs and NaN, every backend", "why_tests_cant": "Each backend orders the comparison differently, which shows only for NaN and for zeros of different sign; the choice of lane must be right for every ordering of four arbitrary lanes, on hardware a test run does not have.", "anchors": ["include/math/simd/vector/float.hpp:min", "include/math/simd/vector/float.hpp:max", "include/math/simd/vector/float.hpp:min3", "include/math/simd/vector/float.hpp:max4", "include/math/simd/vector/float.hpp:clamp"]}
