{
 "claims": [
  {
   "property": "C01",
   "status": "proved",
   "theorems": [
    "Verif.version_decode_encode",
    "Verif.version_encode_decode",
    "Verif.version_encode_value"
   ],
   "note": "All versions, all 32-bit integers."
  },
  {
   "property": "C02",
   "status": "proved",
   "theorems": [
    "Verif.version_compare",
    "Verif.version_strict_total_order"
   ],
   "note": "All pairs of versions."
  },
  {
   "property": "C03",
   "status": "proved",
   "theorems": [
    "Verif.version_string_reads_back",
    "Verif.version_toString4_injective",
    "Verif.version_part"
   ],
   "note": "All versions."
  },
  {
   "property": "C04",
   "status": "proved",
   "theorems": [
    "Verif.flags_bitwise",
    "Verif.flags_hasAnyFlag",
    "Verif.flags_lnot"
   ],
   "note": "Every width up to 64 bits."
  },
  {
   "property": "C05",
   "status": "partial",
   "theorems": [
    "Verif.flags_hasOneFlag_partial",
    "Verif.flags_hasOneFlag_meaning",
    "Verif.flags_hasOneFlag_counterexample"
   ],
   "note": "The code tests a & flag == a, i.e. a is a subset of flag; the property as stated is refuted by flags_hasOneFlag_counterexample. Exact meaning and the case where it agrees are proved."
  },
  {
   "property": "C06",
   "status": "proved",
   "theorems": [
    "Verif.hex_format",
    "Verif.hex_roundtrip64",
    "Verif.hex_roundtrip32",
    "Verif.hex_parse"
   ],
   "note": "Every unsigned byte width."
  },
  {
   "property": "C07",
   "status": "partial",
   "theorems": [
    "Verif.hex_length_partial",
    "Verif.hex_length_counterexample",
    "Verif.hex_length_undefined"
   ],
   "note": "Proved for lengths within the promoted width; longer lengths are undefined behaviour, proved."
  },
  {
   "property": "C08",
   "status": "proved",
   "theorems": [
    "Verif.color_u32_roundtrip",
    "Verif.color_hex4_roundtrip",
    "Verif.color_hex3_roundtrip"
   ],
   "note": ""
  },
  {
   "property": "C09",
   "status": "proved",
   "theorems": [
    "Verif.color_float_roundtrip"
   ],
   "note": ""
  },
  {
   "property": "C10",
   "status": "proved",
   "theorems": [
    "Verif.color_norm_roundtrip"
   ],
   "note": ""
  },
  {
   "property": "C11",
   "status": "partial",
   "theorems": [
    "Verif.color_saturates_partial",
    "Verif.color_nan_undefined",
    "Verif.color_simd_total"
   ],
   "note": "NaN (and out-of-range) inputs of the scalar constructors reach an undefined float to integer conversion; proved for every non-NaN input"
  },
  {
   "property": "C12",
   "status": "proved",
   "theorems": [
    "Verif.color_compare",
    "Verif.color_order_laws",
    "Verif.color_isBinaryLess"
   ],
   "note": ""
  },
  {
   "property": "C13",
   "status": "proved",
   "theorems": [
    "Verif.packed_get_set"
   ],
   "note": ""
  },
  {
   "property": "C14",
   "status": "proved",
   "theorems": [
    "Verif.packed_set_other",
    "Verif.packed_history"
   ],
   "note": ""
  },
  {
   "property": "C15",
   "status": "partial",
   "theorems": [
    "Verif.packed_resize_partial",
    "Verif.packed_new_zero",
    "Verif.packed_resize_counterexample"
   ],
   "note": "shrinking and growing again leaves stale bits: refuted by packed_resize_counterexample; proved for a growing resize of clean storage"
  },
  {
   "property": "C16",
   "status": "partial",
   "theorems": [
    "Verif.packed_checked_partial",
    "Verif.packed_checked_no_false_alarm",
    "Verif.packed_checked_counterexample"
   ],
   "note": "Proved exactly for 1 and 2 bits, and for every width a valid access is never rejected. False of the code for 4 bits: the check admits four times too many indices (packed_checked_counterexample: every index from 2n up to 8n, for n bytes of storage, passes the assertion and reads or writes outside)."
  },
  {
   "property": "C17",
   "status": "partial",
   "theorems": [
    "Verif.packed_copy_partial",
    "Verif.packed_copy_counterexample",
    "Verif.packed_copy_dangles"
   ],
   "note": "False of the code: the implicit copy shares the storage pointer, so writes through one copy are visible through the other (packed_copy_counterexample) and a copy dangles after the original is destroyed (packed_copy_dangles). Proved: a copy reads the same elements until either is written."
  },
  {
   "property": "C18",
   "status": "partial",
   "theorems": [
    "Verif.sign_spec",
    "Verif.repeat_partial",
    "Verif.repeat_counterexample",
    "Verif.lerp_spec",
    "Verif.gain_spec"
   ],
   "note": "Exact real arithmetic. sign, lerp and gain are proved in full; repeat returns 1 instead of 0 at negative integers (proved counterexample)."
  },
  {
   "property": "C19",
   "status": "proved",
   "theorems": [
    "Verif.lerpDelta_frames",
    "Verif.lerpDelta_partition"
   ],
   "note": "Exact real arithmetic; any list of time steps."
  },
  {
   "property": "C20",
   "status": "proved",
   "theorems": [
    "Verif.lane_comparison",
    "Verif.mask2_tests",
    "Verif.mask3_tests",
    "Verif.mask4_tests",
    "Verif.maskSse_tests",
    "Verif.mask_tests_isa",
    "Verif.mask_tests_disagree"
   ],
   "note": "All widths, and the SIMD mask tests on every instruction set, for comparison results. mask_tests_disagree shows the tests differ between instruction sets on values that are not comparison results."
  },
  {
   "property": "C21",
   "status": "proved",
   "theorems": [
    "Verif.scalar_min_max_clamp",
    "Verif.vector_min_max_clamp",
    "Verif.simd_float_min_max_clamp",
    "Verif.simd_int_min_max",
    "Verif.simd_clamp_int"
   ],
   "note": ""
  },
  {
   "property": "C22",
   "status": "partial",
   "theorems": [
    "Verif.simd_uint_partial",
    "Verif.simd_uint_to_float_partial",
    "Verif.simd_uint_counterexample",
    "Verif.simd_uint_reduce_partial",
    "Verif.simd_clamp_uint_partial",
    "Verif.simd_uint_scalar_compare_partial"
   ],
   "note": "The SSE backends compare and convert unsigned lanes as signed; proved for lanes below 2^31, with counterexamples above."
  },
  {
   "property": "C23",
   "status": "partial",
   "theorems": [
    "Verif.ctors_partial",
    "Verif.int3_ctor_counterexample"
   ],
   "note": "int3(int2, int) drops its second argument's place; every other constructor is proved."
  },
  {
   "property": "C24",
   "status": "partial",
   "theorems": [
    "Verif.isBinaryLess_total",
    "Verif.color_isBinaryLess",
    "Verif.m4_isBinaryLess_total",
    "Verif.aabb_isBinaryLess_partial",
    "Verif.aabb_isBinaryLess_counterexample"
   ],
   "note": "Proved for all vectors, SIMD matrices and Color. False of the code for Aabb: only 24 of the 32 bytes are compared, so boxes that differ only in max.z are incomparable (aabb_isBinaryLess_partial gives the exact condition)."
  },
  {
   "property": "C25",
   "status": "partial",
   "theorems": [
    "Verif.mipCount_partial",
    "Verif.mipCount_wrong",
    "Verif.mipCount_wrong_top",
    "Verif.mipCount_zero",
    "Verif.mipCount_vec_partial",
    "Verif.sizeAtMip_correct",
    "Verif.sizeAtMip_vec",
    "Verif.mipChain_ends",
    "Verif.mip_functions_exist",
    "Verif.mipLevels_eq",
    "Verif.sizeAfter_eq"
   ],
   "note": "log2f is a parameter assumed correctly rounded, exp2f a parameter assumed exact at integers (both shown to exist). The mip count is right for sizes up to 2^21-2 and wrong from 2^21-1 on (mipCount_wrong) and at the largest size whatever the accuracy (mipCount_wrong_top). The size at a mip is right for all sizes and all mips below 32; higher mips are undefined."
  },
  {
   "property": "C26",
   "status": "proved",
   "theorems": [
    "Verif.dot3_spec",
    "Verif.dot4_spec",
    "Verif.dot_spec",
    "Verif.cross3_spec",
    "Verif.cross_spec",
    "Verif.dot3_bilinear",
    "Verif.cross3_algebra",
    "Verif.cross3_orientation",
    "Verif.length3_spec",
    "Verif.length4_spec",
    "Verif.distance3_spec",
    "Verif.normalize3_spec",
    "Verif.normalize4_spec",
    "Verif.cross3_backends"
   ],
   "note": "Exact (real) arithmetic; SIMD and scalar overloads; SSE and NEON operation orders."
  },
  {
   "property": "C27",
   "status": "proved",
   "theorems": [
    "Verif.extend_point",
    "Verif.extend_box",
    "Verif.extend_nan_loses_box",
    "Verif.shrink_box",
    "Verif.shrink_point"
   ],
   "note": "Holds for binary32 without NaN and for reals; NaN behaviour shown separately."
  },
  {
   "property": "C28",
   "status": "partial",
   "theorems": [
    "Verif.isInside_lanes",
    "Verif.isInside_box_lanes",
    "Verif.isInside_partial",
    "Verif.isInside_xyz_partial",
    "Verif.isInside_box_partial",
    "Verif.isInside_fourth_lane"
   ],
   "note": "The code also compares the fourth lane (isInside_fourth_lane is the counterexample); exact when the fourth lanes are ordered, and for vectors built from three floats."
  },
  {
   "property": "C29",
   "status": "proved",
   "theorems": [
    "Verif.setSize_get",
    "Verif.setSize_origin",
    "Verif.setExtent_get",
    "Verif.setExtent_origin",
    "Verif.getSize_set",
    "Verif.translate_get",
    "Verif.area_volume"
   ],
   "note": "Exact arithmetic."
  },
  {
   "property": "C30",
   "status": "partial",
   "theorems": [
    "Verif.trySet_never_rejects",
    "Verif.trySet_partial",
    "Verif.trySet_accepts_inverted",
    "Verif.set_checks"
   ],
   "note": "trySet never rejects (its fourth lane compares 0 > 1), proved as trySet_never_rejects with a counterexample; the proved part is that ordered corners are stored."
  },
  {
   "property": "C31",
   "status": "proved",
   "theorems": [
    "Verif.closestPoint_box"
   ],
   "note": "Binary32 without NaN, and reals."
  },
  {
   "property": "C32",
   "status": "partial",
   "theorems": [
    "Verif.isIntersected_lanes",
    "Verif.isIntersected_partial",
    "Verif.isIntersected_misses",
    "Verif.isIntersected_counterexample"
   ],
   "note": "The code compares a.min with b.max twice; the full claim is false (counterexamples); the exact meaning is proved."
  },
  {
   "property": "C33",
   "status": "proved",
   "theorems": [
    "Verif.isIntersected_sound",
    "Verif.isIntersected_lanes"
   ],
   "note": "The sound direction."
  },
  {
   "property": "C34",
   "status": "partial",
   "theorems": [
    "Verif.raycastI_partial",
    "Verif.raycast_partial",
    "Verif.raycast2_scaled",
    "Verif.raycast_axis_z",
    "Verif.raycast_axis_x",
    "Verif.raycast1_eq"
   ],
   "note": "Exact arithmetic, rays with no zero direction component: hit answer right, inverted-ray distances right. raycast2 distances are scaled (raycast2_scaled) and axis-parallel rays are answered wrongly in binary32 (raycast_axis_z for every box, raycast_axis_x)."
  },
  {
   "property": "C35",
   "status": "proved",
   "theorems": [
    "Verif.sat_exact",
    "Verif.sat_complete",
    "Verif.sat_sound",
    "Verif.sat_iff"
   ],
   "note": "Exact arithmetic; true exactly when the two share a point, degenerate triangles included."
  },
  {
   "property": "C36",
   "status": "proved",
   "theorems": [
    "Verif.sphere_isInside",
    "Verif.sphere_isIntersected",
    "Verif.sphere_isIntersectedB",
    "Verif.sphere_closestPoint"
   ],
   "note": "Exact arithmetic; closestPoint for a point other than the center."
  },
  {
   "property": "C37",
   "status": "proved",
   "theorems": [
    "Verif.plane_spec",
    "Verif.plane_normalize"
   ],
   "note": "Exact arithmetic."
  },
  {
   "property": "C38",
   "status": "partial",
   "theorems": [
    "Verif.plane_ofTriangle_distance",
    "Verif.plane_ofTriangle_partial",
    "Verif.plane_ofTriangle_wrong"
   ],
   "note": "The stored distance has the wrong sign: right only when the plane passes through the origin."
  },
  {
   "property": "C39",
   "status": "proved",
   "theorems": [
    "Verif.frustum_planes",
    "Verif.frustum_normalized"
   ],
   "note": "Exact arithmetic."
  },
  {
   "property": "C40",
   "status": "proved",
   "theorems": [
    "Verif.isBehindFrustumM_exact",
    "Verif.isBehindFrustumM_sound",
    "Verif.isBehindFrustum_exact",
    "Verif.isBehindFrustum_sound"
   ],
   "note": "Exact arithmetic, plane arrays of any length."
  },
  {
   "property": "C41",
   "status": "partial",
   "theorems": [
    "Verif.barycentric_spec",
    "Verif.triangle_isInside_iff",
    "Verif.triangle_isInside_partial",
    "Verif.triangle_isInside_wrong"
   ],
   "note": "Barycentric part proved in full; isInside also accepts points of the line through the second and third vertex outside the triangle (triangle_isInside_wrong, every non-degenerate triangle)."
  },
  {
   "property": "C42",
   "status": "proved",
   "theorems": [
    "Verif.line_closestPoint",
    "Verif.ray_closestPoint"
   ],
   "note": "Exact arithmetic."
  },
  {
   "property": "C43",
   "status": "proved",
   "theorems": [
    "Verif.bvh_terminates"
   ],
   "note": "n >= 1 and n <= 2^31; the build never exhausts its iteration budget, for every scalar type (no law of arithmetic is used) and every set of primitives; 2n-1 nodes at most. Faults (C46) are a separate outcome."
  },
  {
   "property": "C44",
   "status": "proved",
   "theorems": [
    "Verif.bvh_permutation"
   ],
   "note": "for every scalar type; holds of every build that does not fault"
  },
  {
   "property": "C45",
   "status": "proved",
   "theorems": [
    "Verif.bvh_tree"
   ],
   "note": "for every scalar type; holds of every build that does not fault"
  },
  {
   "property": "C46",
   "status": "partial",
   "theorems": [
    "Verif.bvh_partition_partial",
    "Verif.bvh_partition_underflow",
    "Verif.bvh_bin_overflow"
   ],
   "note": "The property is false of the code: bvh_partition_underflow builds over two ordinary boxes whose centers differ by one unit in the last place and leaves the index array; bvh_bin_overflow reaches an undefined float-to-int conversion. Proved: the exact condition under which one partition step stays inside its range, and that it then permutes exactly that range. A sufficient condition on the primitives that excludes both faults is C104."
  },
  {
   "property": "C47",
   "status": "proved",
   "theorems": [
    "Verif.bvh_bounds_boxes",
    "Verif.bvh_bounds_triangles"
   ],
   "note": "for both overloads, any scalar type whose comparisons are those of numbers (binary32 without NaN coordinates, or reals); child inside parent and minimality need finite ordered boxes inside the given root box"
  },
  {
   "property": "C48",
   "status": "proved",
   "theorems": [
    "Verif.bvh_node_encoding"
   ],
   "note": ""
  },
  {
   "property": "C49",
   "status": "proved",
   "theorems": [
    "Verif.bvh_traverse"
   ],
   "note": "all well-formed trees, all predicates (pure functions of the node); wellFormed_recreate shows every built tree is well formed"
  },
  {
   "property": "C50",
   "status": "proved",
   "theorems": [
    "Verif.bvh_collect",
    "Verif.bvh_collect_conservative"
   ],
   "note": "first part for every scalar type; the consequence (no primitive with a point inside the frustum is omitted) in exact arithmetic"
  },
  {
   "property": "C51",
   "status": "proved",
   "theorems": [
    "Verif.quat_spec",
    "Verif.quat_rotate_spec",
    "Verif.quat_algebra",
    "Verif.quat_rotate_comp",
    "Verif.quat_rotate_isometry"
   ],
   "note": "Against Mathlib's quaternions; exact arithmetic."
  },
  {
   "property": "C52",
   "status": "proved",
   "theorems": [
    "Verif.quat_matrix_acts",
    "Verif.quat_matrix_rotation",
    "Verif.extractQuat_rotate",
    "Verif.extractQuat_rotation"
   ],
   "note": "Exact arithmetic."
  },
  {
   "property": "C53",
   "status": "proved",
   "theorems": [
    "Verif.axisAngle_spec",
    "Verif.euler_spec"
   ],
   "note": "Exact arithmetic, sine and cosine exact."
  },
  {
   "property": "C54",
   "status": "proved",
   "theorems": [
    "Verif.slerp_ends",
    "Verif.slerp_unit",
    "Verif.slerp_near"
   ],
   "note": "Exact arithmetic; slerp_near bounds the linear fallback used when the quaternions are close."
  },
  {
   "property": "C55",
   "status": "proved",
   "theorems": [
    "Verif.m2_spec",
    "Verif.m3_spec",
    "Verif.m4_spec",
    "Verif.m43_spec",
    "Verif.simd_m4_spec",
    "Verif.simd_scalar_agree",
    "Verif.m2_algebra",
    "Verif.m3_algebra",
    "Verif.m4_algebra",
    "Verif.multiply3x3_spec",
    "Verif.transpose3x3_spec",
    "Verif.mul_assign_spec",
    "Verif.m43_identity"
   ],
   "note": "Against Mathlib matrices, exact arithmetic."
  },
  {
   "property": "C56",
   "status": "partial",
   "theorems": [
    "Verif.m4_inverse",
    "Verif.simd_inverse",
    "Verif.m2_inverse_wrong",
    "Verif.m2_inverse_partial",
    "Verif.m2_inverse_iff",
    "Verif.m3_inverse_wrong",
    "Verif.m3_inverse_partial"
   ],
   "note": "inverse4x4 is right (scalar and SIMD); the 2x2 and 3x3 inverses are wrong, with counterexamples and what they do compute."
  },
  {
   "property": "C57",
   "status": "partial",
   "theorems": [
    "Verif.vMul_wrong",
    "Verif.vMul_partial",
    "Verif.vMul_rowSums"
   ],
   "note": "vector * matrix is wrong except for diagonal matrices; the exact result is proved."
  },
  {
   "property": "C58",
   "status": "proved",
   "theorems": [
    "Verif.translate_scale_spec",
    "Verif.translate_scale_act",
    "Verif.calcModel_spec"
   ],
   "note": "Exact arithmetic."
  },
  {
   "property": "C59",
   "status": "partial",
   "theorems": [
    "Verif.extractTransform_partial",
    "Verif.extractScale_wrong",
    "Verif.extractRotation_wrong"
   ],
   "note": "False of the code: extractScale returns squared lengths and extractRotation divides by them. Holds for unit scale."
  },
  {
   "property": "C60",
   "status": "proved",
   "theorems": [
    "Verif.lookAt_spec",
    "Verif.rotateLook_spec",
    "Verif.rotateFront_spec"
   ],
   "note": "Exact arithmetic. lookAtQuat is C71."
  },
  {
   "property": "C61",
   "status": "partial",
   "theorems": [
    "Verif.inverseTransRot_partial",
    "Verif.inverseTransRot_wrong"
   ],
   "note": "False of the code for a non-zero translation: the bottom row of the result keeps the translation. As an action on points through the upper three rows it is the inverse."
  },
  {
   "property": "C62",
   "status": "proved",
   "theorems": [
    "Verif.persp_spec",
    "Verif.perspRevZ_spec",
    "Verif.perspInfRevZ_spec"
   ],
   "note": "Exact arithmetic."
  },
  {
   "property": "C63",
   "status": "proved",
   "theorems": [
    "Verif.ortho_spec"
   ],
   "note": "Exact arithmetic."
  },
  {
   "property": "C64",
   "status": "partial",
   "theorems": [
    "Verif.srgb_channels",
    "Verif.srgb_range_mono",
    "Verif.srgb_not_monotone",
    "Verif.srgb_monotone_partial",
    "Verif.srgb_inverse"
   ],
   "note": "Over the reals. The full claim is false: with the published thresholds the transfer function has a downward jump at the join (srgb_not_monotone). Proved: channelwise action, alpha kept, endpoints, range, monotone on each piece, and mutual inverses away from the gap."
  },
  {
   "property": "C65",
   "status": "partial",
   "theorems": [
    "Verif.yxy_xyz_inverse",
    "Verif.xyzToYxy_chromaticity",
    "Verif.rgbToXyz_transposed",
    "Verif.rgbToXyz_wrong",
    "Verif.rgb_xyz_inverse_partial",
    "Verif.rgb_yxy_inverse_partial",
    "Verif.rgbToYxy_black"
   ],
   "note": "Yxy conversions proved inverse where defined. rgbToXyz applies the transposed matrix (rgbToXyz_wrong: white and luminance are wrong); rgb_xyz_inverse_partial bounds how far the two RGB/XYZ matrices are from inverse."
  },
  {
   "property": "C66",
   "status": "partial",
   "theorems": [
    "Verif.hammersley_reverse",
    "Verif.hammersley_radical",
    "Verif.hammersley_float_range",
    "Verif.hammersley_reaches_one",
    "Verif.hammersley_range_partial"
   ],
   "note": "Bit reversal and radical inverse proved for all 2^32 indices; the binary32 coordinate reaches 1 for some indices (hammersley_reaches_one); the open range is proved for the indices whose reversal stays below the rounding boundary."
  },
  {
   "property": "C67",
   "status": "proved",
   "theorems": [
    "Verif.ggx_range",
    "Verif.ggx_mono",
    "Verif.importanceSample_unit",
    "Verif.importanceSample_polar",
    "Verif.ior_symmetric"
   ],
   "note": "Exact arithmetic."
  },
  {
   "property": "C68",
   "status": "proved",
   "theorems": [
    "Verif.stToDir_unit_major",
    "Verif.stToDir_rejects",
    "Verif.stToDir_injective",
    "Verif.coordsToST_inside",
    "Verif.coordsToDir_injective",
    "Verif.stToDir_lookup",
    "Verif.coordsToDir_lookup"
   ],
   "note": "Exact arithmetic; an out-of-range face is an explicit outcome."
  },
  {
   "property": "C69",
   "status": "proved",
   "theorems": [
    "Verif.shIndex_bijective",
    "Verif.shIndex_fits",
    "Verif.shBasis_polynomials",
    "Verif.shBasis_spherical",
    "Verif.shBasis_addition",
    "Verif.shKi_exact",
    "Verif.harmonics_are_basis"
   ],
   "note": "Indexing over all band counts; basis over the reals; constants within 1e-14."
  },
  {
   "property": "C70",
   "status": "proved",
   "theorems": [
    "Verif.angles_inverse",
    "Verif.angles_linear_agree",
    "Verif.angles_rounding_differs"
   ],
   "note": "Exact arithmetic; angles_rounding_differs records that in binary32 the scalar and SIMD overloads can differ in the last bit."
  },
  {
   "property": "C71",
   "status": "partial",
   "theorems": [
    "Verif.lookAtQuat_partial",
    "Verif.lookAtQuat_wrong"
   ],
   "note": "False of the code: the second matrix column is always zero. Proved for horizontal directions: axis and product of half-angle sine and cosine."
  },
  {
   "property": "C72",
   "status": "partial",
   "theorems": [
    "Verif.matShape_narrow",
    "Verif.matShape_widen",
    "Verif.matShape_roundtrip",
    "Verif.matShape_ofRows",
    "Verif.matShape_columns",
    "Verif.matShape_column3_rejected",
    "Verif.matShape_scalar",
    "Verif.matShape_ofCols3"
   ],
   "note": "Every conversion and constructor proved for all elements; the claim fails only for float4x3 column access, which rejects the valid index 3 (matShape_column3_rejected)."
  },
  {
   "property": "C73",
   "status": "partial",
   "theorems": [
    "Verif.rotateBand2_correct",
    "Verif.rotateBand1_transposed",
    "Verif.rotateBand1_wrong",
    "Verif.rotateSh3Bands_not_rotation",
    "Verif.rotateSh3Bands_partial",
    "Verif.harmonics_are_basis"
   ],
   "note": "Bands 0 and 2 proved for all orthonormal matrices; band 1 uses the transposed matrix, so the full claim is false (rotateSh3Bands_not_rotation)."
  },
  {
   "property": "C74",
   "status": "proved",
   "theorems": [
    "Verif.solidAngle_exact",
    "Verif.solidAngle_pos",
    "Verif.solidAngle_face",
    "Verif.solidAngle_total"
   ],
   "note": "Exact arithmetic; the solid angle is specified as the integral of (1+x^2+y^2)^(-3/2) over the texel."
  },
  {
   "property": "C75",
   "status": "partial",
   "theorems": [
    "Verif.sincWindow_value",
    "Verif.sincWindow_mono",
    "Verif.windowing_bands",
    "Verif.dering_scales",
    "Verif.dering_cutoff",
    "Verif.dering_attenuates_clean",
    "Verif.dering_partial"
   ],
   "note": "Window and scaling proved, for any minimum search. The no-attenuation part is false: the cutoff always ends at 4.25 or below, so band 2 always loses more than three quarters (dering_attenuates_clean). The minimum search is a parameter of the theorems, so they hold for the one of C101 as for any other."
  },
  {
   "property": "C76",
   "status": "proved",
   "theorems": [
    "Verif.shaderPreprocess_scales",
    "Verif.shaderTable_exact"
   ],
   "note": "Exact arithmetic with exact constants; the scaling loop holds for every float semantics."
  },
  {
   "property": "C77",
   "status": "proved",
   "theorems": [
    "Verif.int2_bin",
    "Verif.int2_binS",
    "Verif.int2_binL",
    "Verif.int2_asg",
    "Verif.int2_asgS",
    "Verif.int2_un",
    "Verif.int2_set",
    "Verif.int2_cmp",
    "Verif.int2_eq",
    "Verif.int3_bin",
    "Verif.int3_binS",
    "Verif.int3_binL",
    "Verif.int3_asg",
    "Verif.int3_asgS",
    "Verif.int3_un",
    "Verif.int3_set",
    "Verif.int3_cmp",
    "Verif.int3_eq",
    "Verif.int4_bin",
    "Verif.int4_binS",
    "Verif.int4_binL",
    "Verif.int4_asg",
    "Verif.int4_asgS",
    "Verif.int4_un",
    "Verif.int4_set",
    "Verif.int4_cmp",
    "Verif.int4_eq",
    "Verif.uint2_bin",
    "Verif.uint2_binS",
    "Verif.uint2_binL",
    "Verif.uint2_asg",
    "Verif.uint2_asgS",
    "Verif.uint2_un",
    "Verif.uint2_set",
    "Verif.uint2_cmp",
    "Verif.uint2_eq",
    "Verif.uint3_bin",
    "Verif.uint3_binS",
    "Verif.uint3_binL",
    "Verif.uint3_asg",
    "Verif.uint3_asgS",
    "Verif.uint3_un",
    "Verif.uint3_set",
    "Verif.uint3_cmp",
    "Verif.uint3_eq",
    "Verif.uint4_bin",
    "Verif.uint4_binS",
    "Verif.uint4_binL",
    "Verif.uint4_asg",
    "Verif.uint4_asgS",
    "Verif.uint4_un",
    "Verif.uint4_set",
    "Verif.uint4_cmp",
    "Verif.uint4_eq",
    "Verif.int3_div_defined",
    "Verif.uint3_defined"
   ],
   "note": "every overload of the six vector types; a relational specification over mathematical integers; undefined lanes make the whole operation undefined"
  },
  {
   "property": "C78",
   "status": "proved",
   "theorems": [
    "Verif.i32x4_bin_of_scalar",
    "Verif.u32x4_bin_of_scalar",
    "Verif.i32x4_bin",
    "Verif.u32x4_bin",
    "Verif.i32x4_binL",
    "Verif.u32x4_binL",
    "Verif.i32x4_binS",
    "Verif.u32x4_binS",
    "Verif.i32x4_un",
    "Verif.u32x4_un",
    "Verif.i32x4_eq",
    "Verif.u32x4_eq",
    "Verif.i32x4_cmpS",
    "Verif.bic_bits",
    "Verif.i32x4_wrap",
    "Verif.i32x4_overflow_differs",
    "Verif.i32x4_shift32_differs"
   ],
   "note": "unsigned ordering comparisons are C22"
  },
  {
   "property": "C79",
   "status": "proved",
   "theorems": [
    "Verif.float2_lanes",
    "Verif.float2_rounded",
    "Verif.float2_cmp",
    "Verif.float2_eq",
    "Verif.float3_lanes",
    "Verif.float3_rounded",
    "Verif.float3_cmp",
    "Verif.float3_eq",
    "Verif.float4_lanes",
    "Verif.float4_rounded",
    "Verif.float4_cmp",
    "Verif.float4_eq",
    "Verif.fop_ok",
    "Verif.fcmp_ok",
    "Verif.f32x4_eq_float4",
    "Verif.f32x4_equality",
    "Verif.float_eq_irreflexive"
   ],
   "note": "correct rounding proved for the softfloat model of + - * /; the equal/notEqual overloads of float2 take a float4 second argument"
  },
  {
   "property": "C80",
   "status": "partial",
   "theorems": [
    "Verif.float2_rnd",
    "Verif.float3_rnd",
    "Verif.float4_rnd",
    "Verif.f32x4_rnd",
    "Verif.rnd_std",
    "Verif.f32x4_rnd_same_partial",
    "Verif.f32x4_round_half_differs"
   ],
   "note": "Every lane is the right integer on every target. Identity across targets is false: round(2.5) is 2 on SSE4.1 and NEON and 3 elsewhere (f32x4_round_half_differs); proved for all other functions and for round away from halves."
  },
  {
   "property": "C81",
   "status": "partial",
   "theorems": [
    "Verif.F32x4.simd_log_accurate_partial",
    "Verif.F32x4.simd_log_zero",
    "Verif.F32x4.simd_log_negative",
    "Verif.F32x4.simd_log_inf_wrong",
    "Verif.F32x4.simd_log_nan_lost",
    "Verif.F32x4.simd_log_neon_wrong",
    "Verif.F32x4.simd_log_inaccurate"
   ],
   "note": "Absolute error 6e-5 proved for every positive finite argument on SSE (and from 0.7501 up on NEON), minus infinity at zero, NaN for negatives. False of the code, with witnesses: plus infinity gives minus infinity, NaN gives a number, NEON is wrong below 0.75, and the error of 3e-5 is attained because a coefficient is repeated."
  },
  {
   "property": "C82",
   "status": "partial",
   "theorems": [
    "Verif.F32x4.simd_exp_accurate_partial",
    "Verif.F32x4.simd_exp_subnormal_partial",
    "Verif.F32x4.simd_exp_overflow",
    "Verif.F32x4.simd_exp_underflow",
    "Verif.F32x4.simd_exp_nan_lost",
    "Verif.F32x4.simd_exp_edge"
   ],
   "note": "Relative error 3e-7 for every finite argument from -86 on, or infinity when the exact value is at least 2^128 up to that error; one more smallest subnormal down to -104, infinity from 88.723, zero below -104. False of the code: NaN gives zero."
  },
  {
   "property": "C83",
   "status": "partial",
   "theorems": [
    "Verif.F32x4.simd_fastPow_accurate_partial",
    "Verif.F32x4.simd_fastPow_negative_partial",
    "Verif.F32x4.simd_fastPow_exponent_zero",
    "Verif.F32x4.simd_fastPow_base_zero",
    "Verif.F32x4.simd_fastPow_wrong",
    "Verif.F32x4.simd_fastPow_neon_wrong",
    "Verif.F32x4.gamma_accurate_partial",
    "Verif.F32x4.gamma_alpha_zero",
    "Verif.F32x4.gamma_neon_wrong"
   ],
   "note": "Relative error 6.1e-5 |e| + 6e-6 for |e| <= 100 and results within exp(+-85); gamma correction within 4e-5 for every positive channel on SSE. False of the code: zero to a negative power, infinity, fractional powers of negative bases, and every base below 0.75 on NEON."
  },
  {
   "property": "C84",
   "status": "partial",
   "theorems": [
    "Verif.F32x4.simd_sinCos_accurate_partial",
    "Verif.F32x4.simd_sinCos_large_wrong"
   ],
   "note": "Absolute error 2e-7 for |v| <= 8192 on every target. False for large arguments: the result of 1e10 is infinite."
  },
  {
   "property": "C85",
   "status": "partial",
   "theorems": [
    "Verif.line_op",
    "Verif.triangle_op",
    "Verif.aabb_op",
    "Verif.aabb_op_f32",
    "Verif.aabb_negative_scale",
    "Verif.ray_scale",
    "Verif.ray_move_wrong",
    "Verif.ray_move_counterexample",
    "Verif.ray_scale_forms_differ"
   ],
   "note": "Proved for lines, triangles, boxes (moves, non-negative scales and positive divisors, also in binary32) and scaling rays. False of the code for `ray + v` / `ray - v` (the direction is shifted too: ray_move_wrong gives the exact condition), for box scaling by a negative factor (assertion, or an inverted box with *=), and `ray * v` normalises while `ray *= v` does not."
  },
  {
   "property": "C86",
   "status": "proved",
   "theorems": [
    "Verif.geom_eq_iff",
    "Verif.geom_eq_not_numeric",
    "Verif.f32x4x4_equality",
    "Verif.f32x4x4_nan"
   ],
   "note": "Equality is bitwise for shapes and scalar matrices, numeric for f32x4x4; geom_eq_not_numeric and f32x4x4_nan show how the two differ."
  },
  {
   "property": "C87",
   "status": "partial",
   "theorems": [
    "Verif.named_boxes",
    "Verif.named_directions",
    "Verif.inf_contains",
    "Verif.full_is_not_full"
   ],
   "note": "Aabb::full is false of the code: it starts at FLT_MIN (smallest positive), so it contains no point with a coordinate <= 0."
  },
  {
   "property": "C88",
   "status": "partial",
   "theorems": [
    "Verif.bvh_split_choice_partial",
    "Verif.bvh_split_cheapest_partial",
    "Verif.bvh_split_counterexample",
    "Verif.bvh_bin_count_fourth_lane"
   ],
   "note": "Refuted as stated: the counter of a bin is the fourth lane of its upper corner, which starts as -FLT_MAX and is merged with the fourth lane of the primitives. bvh_split_choice_partial gives the exact weights when the fourth lanes are zero, bvh_split_cheapest_partial the property when moreover no slot is empty. Missing: nothing can be said for non-zero fourth lanes (bvh_bin_count_fourth_lane: triangles have them)."
  },
  {
   "property": "C89",
   "status": "proved",
   "theorems": [
    "Verif.dot_accuracy",
    "Verif.cross_accuracy",
    "Verif.mulV_accuracy",
    "Verif.mulM_accuracy",
    "Verif.quat_mul_accuracy",
    "Verif.dot_range_counterexample"
   ],
   "note": "Every summation order and both kinds of multiply-add; binary32 with every bit pattern. The range hypothesis (sum of absolute products at most 2^126) is part of the statement and is shown necessary."
  },
  {
   "property": "C90",
   "status": "proved",
   "theorems": [
    "Verif.length_accuracy",
    "Verif.distance_accuracy",
    "Verif.normalize_accuracy",
    "Verif.simd_metric_exact"
   ],
   "note": "Scalar code and all SIMD backends."
  },
  {
   "property": "C91",
   "status": "partial",
   "theorems": [
    "Verif.normalize_isNormalized_partial",
    "Verif.normalize_range_counterexample",
    "Verif.isClose_accuracy",
    "Verif.isNormalized_accuracy"
   ],
   "note": "normalize then isNormalized is proved for squared lengths from 2^-100 to 2^126. Outside, the property is false of the code: the counterexample shows infinity/NaN for a vector of length 2^-80 and the zero vector for one of length 2^70."
  },
  {
   "property": "C92",
   "status": "partial",
   "theorems": [
    "Verif.repeat_ok",
    "Verif.repeat_agree",
    "Verif.repeat_one_counterexample"
   ],
   "note": "The half-open interval is missing: the result can be 1 (repeat_one_counterexample: -1 and -2^-30)."
  },
  {
   "property": "C93",
   "status": "partial",
   "theorems": [
    "Verif.fmod_ok",
    "Verif.mod_ok",
    "Verif.simd_mod_partial",
    "Verif.simd_mod_whole",
    "Verif.simd_mod_negative_counterexample",
    "Verif.mod_disagree_counterexample"
   ],
   "note": "float2..float4: complete. f32x4: accuracy and exactness on whole numbers only; the range [0, d) fails (0.9 mod 0.1 < 0), and the result differs from float4 for operands of different sign."
  },
  {
   "property": "C94",
   "status": "partial",
   "theorems": [
    "Verif.lerp_near",
    "Verif.lerp_ends",
    "Verif.scalar_lerp_partial",
    "Verif.scalar_lerp_end_counterexample"
   ],
   "note": "Vectors and SIMD: complete. Scalar: end point t = 1 fails (lerp(1e8, 1, 1) = 0)."
  },
  {
   "property": "C95",
   "status": "partial",
   "theorems": [
    "Verif.unary_ok",
    "Verif.signBits_ok",
    "Verif.fma_partial",
    "Verif.fma_counterexample"
   ],
   "note": "fma with SSE but no AVX2, and with an unfused NEON, rounds twice."
  },
  {
   "property": "C96",
   "status": "partial",
   "theorems": [
    "Verif.mesh_triangles_partial",
    "Verif.mesh_abort_iff",
    "Verif.mesh_address_counterexample",
    "Verif.mesh_too_few_counterexample"
   ],
   "note": "Proved for buffers of at most 4 GiB; beyond that 32-bit addresses wrap and with one or two indices the build reads outside its arrays."
  },
  {
   "property": "C97",
   "status": "partial",
   "theorems": [
    "Verif.bvh_history_independent",
    "Verif.bvh_recreate_fresh_partial",
    "Verif.bvh_centroids_partial",
    "Verif.bvh_stale_centroids_counterexample"
   ],
   "note": "Nodes and primitives never depend on the history; centroids do when the caller gives centroids."
  },
  {
   "property": "C98",
   "status": "partial",
   "theorems": [
    "Verif.float_to_int",
    "Verif.int_to_float",
    "Verif.int_round_trip_partial",
    "Verif.float_round_trip",
    "Verif.int_round_trip_counterexample",
    "Verif.simd_float_to_int_partial",
    "Verif.simd_float_to_int_counterexample",
    "Verif.simd_int_to_float_partial",
    "Verif.simd_int_to_float_counterexample",
    "Verif.shorten_spec"
   ],
   "note": "Plain vectors are proved in full; SIMD float to integer is undefined for negative lanes without SIMD and wrong from 2^31 on for SSE unsigned. Integer to SIMD float reinterprets the bits without SIMD (simd_int_to_float_counterexample); unsigned is C22."
  },
  {
   "property": "C99",
   "status": "partial",
   "theorems": [
    "Verif.Lanes.simd_make",
    "Verif.Lanes.simd_get_set",
    "Verif.Lanes.simd_swizzle",
    "Verif.Lanes.simd_memory_partial",
    "Verif.Lanes.simd_load_counterexample",
    "Verif.Lanes.simd_bit_casts",
    "Verif.Lanes.simd_select_int"
   ],
   "note": "Without SIMD the constructor from a pointer repeats the first value; everything else is proved."
  },
  {
   "property": "C100",
   "status": "proved",
   "theorems": [
    "Verif.Consts.float_constants",
    "Verif.Consts.int_constants"
   ],
   "note": ""
  },
  {
   "property": "C101",
   "status": "partial",
   "theorems": [
    "Verif.shmin_bound_partial",
    "Verif.shmin_zonal_partial",
    "Verif.shmin_returns_maximum",
    "Verif.shmin_maximum_counterexample",
    "Verif.shmin_direction_counterexample",
    "Verif.shmin_vertical_counterexample",
    "Verif.shFun_is_basis_sum"
   ],
   "note": "Proved: with band 1 along the z axis the early answer is a lower bound on the whole sphere; for zonal functions with positive band 2 the answer is the least value up to 1e-10. The code violates the claim: concave zonal functions (the maximum is returned), horizontal light (band 1 is rotated the wrong way), vertical or no light (NaN in binary32). Missing: the loop on general functions."
  },
  {
   "property": "C102",
   "status": "proved",
   "theorems": [
    "Verif.ColorLinear.color_linear_roundtrip",
    "Verif.ColorLinear.color_linear_accurate",
    "Verif.ColorLinear.rgbToSrgb32_fused",
    "Verif.ColorLinear.powAccurate_exists"
   ],
   "note": "std::pow is a parameter with a stated accuracy; powAccurate_exists shows the assumption can be met."
  },
  {
   "property": "C103",
   "status": "proved",
   "theorems": [
    "Verif.sphere_isInside_targets_f32",
    "Verif.sphere_isIntersected_targets_f32",
    "Verif.sphere_isIntersectedB_targets_f32",
    "Verif.plane_distance_targets_f32",
    "Verif.isBehindFrustum_targets_f32",
    "Verif.isBehindFrustumM_targets_f32",
    "Verif.sphere_isInside_f32",
    "Verif.sphere_isIntersected_f32",
    "Verif.sphere_isIntersectedB_f32",
    "Verif.plane_distance_f32",
    "Verif.isBehindFrustum_f32",
    "Verif.isBehindFrustumM_f32"
   ],
   "note": "Binary32, every backend and both kinds of multiply-add in the matrix product. The names without targets are the SSE4.1 instances with a fused matrix product."
  },
  {
   "property": "C104",
   "status": "proved",
   "theorems": [
    "Verif.bvh_build_total",
    "Verif.bvh_build_boxes",
    "Verif.bvh_build_triangles",
    "Verif.bvh_build_needs_apart"
   ],
   "note": "Binary32 build, any number of primitives up to 2^31; separation condition Roomy, shown necessary by the counterexamples of C46."
  },
  {
   "property": "C105",
   "status": "proved",
   "theorems": [
    "Verif.frustum_grows",
    "Verif.sphere_grows",
    "Verif.bvh_query_boxes",
    "Verif.bvh_query_triangles",
    "Verif.bvh_collect_f32",
    "Verif.bounds_inHull"
   ],
   "note": "In binary32, coordinates and plane coefficients up to 2^60; the tree is any tree the build returns over such primitives with a root box around them."
  },
  {
   "property": "C106",
   "status": "partial",
   "theorems": [
    "Verif.rayI_grows_partial",
    "Verif.ray_grows_partial",
    "Verif.ray_parallel_counterexample",
    "Verif.bvh_point_query_counterexample",
    "Verif.raycastI_targets_agree",
    "Verif.rayI_grows_targets_partial",
    "Verif.ray_grows_targets_partial",
    "Verif.ray_parallel_targets_counterexample",
    "Verif.rayI_grows_axis_partial"
   ],
   "note": "Proved on every backend for rays with finite reciprocals, for axis-parallel rays that lie in no plane of a box face (both raycastI), and for direction coordinates between 2^-40 and 2^40 in absolute value (raycast), to be used with bvh_query_boxes and bvh_query_triangles. False for axis-parallel rays in the plane of a face, where the backends also disagree, and for points: counterexamples."
  },
  {
   "property": "C107",
   "status": "partial",
   "theorems": [
    "Verif.Simd.inverse4x4_real",
    "Verif.Simd.inverse4x4_bits",
    "Verif.Simd.transpose4x4_bits",
    "Verif.Simd.products_sse_neon",
    "Verif.Simd.products_unfused",
    "Verif.Simd.block3x3_unfused_partial",
    "Verif.Simd.multiply3x3_backends_counterexample",
    "Verif.Simd.transpose3x3_backends_counterexample"
   ],
   "note": "The inverse, the transpose and the products agree. multiply3x3(a, b) and transpose3x3 agree only on the upper three by three block: without SIMD the fourth column of multiply3x3 is that of a, and transpose3x3 moves the translation into the fourth row."
  },
  {
   "property": "C108",
   "status": "proved",
   "theorems": [
    "Verif.MatOps.matOps2",
    "Verif.MatOps.matOps3",
    "Verif.MatOps.matOps43",
    "Verif.MatOps.matOps4",
    "Verif.MatOps.matOps_simd",
    "Verif.MatOps.matOps_fill"
   ],
   "note": "All shapes, forms and operators, in binary32."
  },
  {
   "property": "C109",
   "status": "proved",
   "theorems": [
    "Verif.quat_product_accuracy",
    "Verif.mat_product_accuracy",
    "Verif.quat_unit_product",
    "Verif.fromLeft_eval",
    "Verif.quat_loop"
   ],
   "note": "Binary32, every bit pattern of the finite factors. The range hypotheses (sizes of partial products between 2^-100 and 2^100, compounded error at most one) are part of the statement."
  },
  {
   "property": "C110",
   "status": "proved",
   "theorems": [
    "Verif.rotate_accuracy",
    "Verif.quat_inverse_accuracy",
    "Verif.rotateInv_accuracy",
    "Verif.rotate_round_trip"
   ],
   "note": "Binary32, every backend and both kinds of multiply-add, compared with conjugation in the Hamilton quaternions."
  },
  {
   "property": "C111",
   "status": "proved",
   "theorems": [
    "Verif.rotation_matrix_accuracy",
    "Verif.calcModel_matrix_accuracy",
    "Verif.calcModel_point_accuracy"
   ],
   "note": "Every backend, both kinds of multiply-add and both branches; the ranges of the hypotheses keep products from overflowing."
  },
  {
   "property": "C112",
   "status": "proved",
   "theorems": [
    "Verif.cull_targets_f32",
    "Verif.cull_normalized_targets_f32",
    "Verif.cull_keeps_targets_f32",
    "Verif.cull_f32",
    "Verif.cull_normalized_f32",
    "Verif.cull_keeps_f32",
    "Verif.faces_inClip"
   ],
   "note": "On every backend; the slack is 2^-19 of clipSize. The names without targets are the SSE4.1 instances."
  },
  {
   "property": "C113",
   "status": "proved",
   "theorems": [
    "Verif.int_text",
    "Verif.uint_text",
    "Verif.float_text",
    "Verif.color_text",
    "Verif.float_text_identifies",
    "Verif.float_text_collides"
   ],
   "note": "std::to_string(float) is %f as in C++23 and before (glibc rounding)."
  },
  {
   "property": "C114",
   "status": "proved",
   "theorems": [
    "Verif.vector_math",
    "Verif.vector_gain"
   ],
   "note": "The library functions are parameters; nothing is assumed of them."
  },
  {
   "property": "C115",
   "status": "proved",
   "theorems": [
    "Verif.lookAt_f32",
    "Verif.lookAt_point_f32",
    "Verif.rotateLook_f32",
    "Verif.view_unique",
    "Verif.rotateFront_f32"
   ],
   "note": "Rotation entries within 43/2^24/s, translation within 47/2^24/s of the distance of the camera from the origin, points within 48 and 52; s is the sine of the angle between up and the line of sight."
  },
  {
   "property": "C116",
   "status": "proved",
   "theorems": [
    "Verif.radians_f32",
    "Verif.degrees_f32",
    "Verif.angles_simd_f32",
    "Verif.angles_vec_f32",
    "Verif.angles_roundtrip_f32"
   ],
   "note": "Binary32, all finite inputs in range."
  },
  {
   "property": "C117",
   "status": "proved",
   "theorems": [
    "Verif.persp_f32",
    "Verif.perspRevZ_f32",
    "Verif.perspInfRevZ_f32",
    "Verif.ortho_f32",
    "Verif.orthoRevZ_f32",
    "Verif.tanOk_exists"
   ],
   "note": "The library tangent is a parameter assumed accurate to one unit in the last place (TanOk); tanOk_exists shows the assumption can be met."
  },
  {
   "property": "C118",
   "status": "proved",
   "theorems": [
    "Verif.inverse_f32",
    "Verif.inverse4x4_f32"
   ],
   "note": "Exact inverse is Mathlib's matrix inverse of the real values of the entries."
  },
  {
   "property": "C119",
   "status": "proved",
   "theorems": [
    "Verif.sat_finds",
    "Verif.sat_near",
    "Verif.sat_misses_sliver",
    "Verif.sat_targets_agree",
    "Verif.sat_finds_targets",
    "Verif.sat_near_targets",
    "Verif.sat_misses_sliver_targets"
   ],
   "note": "On every backend (Sat.testOn): order of the additions, min/max of zeros and the transpose as in each branch; under the conditions the answer is the same on all of them (sat_targets_agree). sat_misses_sliver is a concrete triangle, nearly a segment, that passes through the center of a box of half size 8 and is reported as not intersecting."
  },
  {
   "property": "C120",
   "status": "proved",
   "theorems": [
    "Verif.index_reads",
    "Verif.index_writes",
    "Verif.fill_all",
    "Verif.int_uint_convert",
    "Verif.int_narrow",
    "Verif.three_way",
    "Verif.three_way_int",
    "Verif.simd_int_set"
   ],
   "note": ""
  },
  {
   "property": "C121",
   "status": "proved",
   "theorems": [
    "Verif.rayI_margin",
    "Verif.ray_margin",
    "Verif.ray_touch_counterexample"
   ],
   "note": "Margins 3/2^24 (reciprocals given) and 5/2^24 of the distance between face and origin, plus 2^-80. Rays with a zero direction coordinate are excluded (see C34); the distances of raycast2 are scaled by the length of the reciprocals (see C34), so times are stated for the functions that take reciprocals."
  },
  {
   "property": "C122",
   "status": "proved",
   "theorems": [
    "Verif.coordsToDir_texel"
   ],
   "note": ""
  },
  {
   "property": "C123",
   "status": "partial",
   "theorems": [
    "Verif.extractYaw_euler",
    "Verif.extractRoll_euler",
    "Verif.extractPitch_euler_partial",
    "Verif.extractPitch_alone",
    "Verif.extractEuler_rebuild_partial",
    "Verif.extractEuler_gimbal",
    "Verif.extractPitch_wrong"
   ],
   "note": "Yaw and roll are read back everywhere; pitch only where the code's singularity guard does not fire, for pure pitches and at gimbal lock: the guard uses || instead of && and misreads every zero pitch combined with a yaw and a roll. Exact arithmetic."
  },
  {
   "property": "C124",
   "status": "partial",
   "theorems": [
    "Verif.triangle_closest_partial",
    "Verif.triangle_closest_outside_partial",
    "Verif.triangle_closest_wrong"
   ],
   "note": "Right for triangles whose plane passes through the origin, and elsewhere for points not above the triangle when the angles at the second and third vertices are not obtuse; proved wrong for every point above the interior of every triangle whose plane misses the origin (the plane built from a triangle has the sign of its distance wrong, C38)."
  },
  {
   "property": "C125",
   "status": "partial",
   "theorems": [
    "Verif.plane_set",
    "Verif.sphere_set",
    "Verif.line_direction",
    "Verif.ray_normalize",
    "Verif.scale_box_partial",
    "Verif.scale_negative"
   ],
   "note": "Exact arithmetic. scale_box_partial needs positive factors: with a negative one the scaled box is empty (scale_negative)."
  },
  {
   "property": "C126",
   "status": "partial",
   "theorems": [
    "Verif.line_closest_targets_f32",
    "Verif.plane_closest_targets_f32",
    "Verif.ray_closest_targets_f32_partial",
    "Verif.ray_closest_targets_nan",
    "Verif.line_closest_f32",
    "Verif.plane_closest_f32",
    "Verif.ray_closest_f32_partial",
    "Verif.ray_closest_nan"
   ],
   "note": "Every backend and target of the multiply-add. Segments and planes: complete, error M/2^16 and M/2^17. Rays: error M^2/2^15 up to M = 2^18; from 2^26 on the result is NaN for every ray and point (ray_closest_targets_nan). The names without targets are the SSE4.1 instances with a fused multiply-add."
  },
  {
   "property": "C127",
   "status": "proved",
   "theorems": [
    "Verif.shBasis_f32",
    "Verif.rotateBand2_f32"
   ],
   "note": "Binary32 accuracy of the basis (all nine entries) and of the band-2 rotation. Band 1 of the rotation is wrong in exact arithmetic already, see C73."
  },
  {
   "property": "C128",
   "status": "proved",
   "theorems": [
    "Verif.barycentric_f32"
   ],
   "note": "binary32 error bound for every well-shaped triangle and every point within reach"
  },
  {
   "property": "C129",
   "status": "proved",
   "theorems": [
    "Verif.tri_inside_f32",
    "Verif.tri_inside_f32_weights"
   ],
   "note": "binary32 decision proved outside an explicit margin around the edges; the exception near a zero first weight is the known acceptance beyond the opposite side (C41)"
  },
  {
   "property": "C130",
   "status": "partial",
   "theorems": [
    "Verif.importance_sample_f32_partial",
    "Verif.importance_sample_nan",
    "Verif.ior_reflectance_f32",
    "Verif.ggx_f32_partial",
    "Verif.ggx_infinite"
   ],
   "note": "False for tiny roughness: importanceSamplingNdfDggx returns NaN at roughness 0x397EB235 and ggx returns infinity at roughness 0x399CBA9E (both proved). Proved for roughness at least 2^-10 (sampling; second random number zero or at least 2^-60) and 2^-8 (ggx); iorToReflectance is proved in full. sin and cos are assumed accurate to 2^-23."
  },
  {
   "property": "C131",
   "status": "proved",
   "theorems": [
    "Verif.axis_angle_f32",
    "Verif.euler_f32",
    "Verif.axis_angle_rotation_f32",
    "Verif.euler_rotation_f32"
   ],
   "note": "sinCos is the modelled SIMD code (no assumption on libm). Angles are limited to 16000 radians because sinCos is accurate only up to 8192 (C84)."
  },
  {
   "property": "C132",
   "status": "partial",
   "theorems": [
    "Verif.rgbToXyz_f32",
    "Verif.xyzToYxy_f32",
    "Verif.yxy_roundtrip_f32",
    "Verif.xyz_roundtrip_f32",
    "Verif.rgb_yxy_roundtrip_f32",
    "Verif.color_targets_sse41",
    "Verif.rgbToYxy_black_targets"
   ],
   "note": "Proved for colors whose channel sum is between 2^-30 and 2^30 (non-black). Black is excluded because the code divides by the zero sum and returns NaN chromaticities, so black does not survive the Yxy round trip (rgbToYxy_black_targets)."
  },
  {
   "property": "C133",
   "status": "proved",
   "theorems": [
    "Verif.extractQuat_f32",
    "Verif.extractQuat_rotates_f32",
    "Verif.extractTransform_f32",
    "Verif.extractTransform3_f32"
   ],
   "note": "Entries of the matrix may be wrong by e; the branch taken may differ from the exact one. Extraction of scale is C59 (wrong in the code)."
  },
  {
   "property": "C134",
   "status": "proved",
   "theorems": [
    "Verif.box_get_f32",
    "Verif.box_setSize_f32",
    "Verif.box_setExtent_f32",
    "Verif.box_origin_f32",
    "Verif.box_area_volume_f32"
   ],
   "note": "Sizes, extents, positions, areas and volumes of boxes in binary32, with the setters' round trips."
  },
  {
   "property": "C135",
   "status": "proved",
   "theorems": [
    "Verif.slerp_f32",
    "Verif.trigOk_exists"
   ],
   "note": "On every SIMD backend. The accuracy of std::sin and std::acos is an assumption (SinOk, AcosOk), shown satisfiable by trigOk_exists."
  },
  {
   "property": "C136",
   "status": "proved",
   "theorems": [
    "Verif.solidAngle_f32",
    "Verif.solidAngle_f32_pos",
    "Verif.solidAngle_f32_face",
    "Verif.texelAngle_face",
    "Verif.atanOk_exists"
   ],
   "note": "The accuracy of std::atan2 is an assumption (AtanOk), shown satisfiable by atanOk_exists. From 512 texels a side on the bound no longer excludes zero."
  },
  {
   "property": "C137",
   "status": "proved",
   "theorems": [
    "Verif.lerpDelta_frames_f32",
    "Verif.lerpDelta_split_f32"
   ],
   "note": "Scalar form; the vector forms apply the same expression to each component (C114). The accuracy of pow is an assumption (PowUnitOk), shown satisfiable by powUnitOk_exists."
  },
  {
   "property": "C138",
   "status": "proved",
   "theorems": [
    "Verif.sincWindow_f32",
    "Verif.dering_f32",
    "Verif.bandFactor_range",
    "Verif.sinWideOk_exists"
   ],
   "note": "The accuracy of std::sin is an assumption (SinWideOk), shown satisfiable by sinWideOk_exists. That band 2 always loses three quarters is the defect described under C75."
  },
  {
   "property": "C139",
   "status": "proved",
   "theorems": [
    "Verif.minCa_f32",
    "Verif.shaderCa_f32",
    "Verif.ki_f32",
    "Verif.shaderPreprocess_f32"
   ],
   "note": "M_1_PI comes from <cmath>; its usual twenty digits are assumed. minTable and shaderTable are the exact tables of C76 and C101."
  },
  {
   "property": "C140",
   "status": "proved",
   "theorems": [
    "Verif.plane_triangle_f32",
    "Verif.plane_triangle_degenerate",
    "Verif.triNormal_unique",
    "Verif.ofTriangleOn_sse41"
   ],
   "note": "Every backend, explicit constants."
  },
  {
   "property": "C141",
   "status": "proved",
   "theorems": [
    "Verif.inverseTransRot_f32",
    "Verif.inverseTransRot_back_f32",
    "Verif.calcModel_motion"
   ],
   "note": "The first three lanes on every backend and target, with a shown case (a third of a turn with a move). The wrong last row is C61."
  },
  {
   "property": "C142",
   "status": "proved",
   "theorems": [
    "Verif.srgbToRgb_f32",
    "Verif.rgbToSrgb_f32",
    "Verif.gain_f32",
    "Verif.gain_points_f32",
    "Verif.gain_mirror_f32",
    "Verif.srgb_roundtrip_f32",
    "Verif.linear_roundtrip_f32"
   ],
   "note": "The accuracy of std::pow is a hypothesis (PowAccurate, PowUnitOk, PowEnds); powAccurate_exists and powEnds_exists show it can be met."
  },
  {
   "property": "C143",
   "status": "partial",
   "theorems": [
    "Verif.extractYaw_f32",
    "Verif.extractRoll_f32",
    "Verif.extractPitch_f32_partial",
    "Verif.euler_readback_f32_partial",
    "Verif.atan2Ok_exists"
   ],
   "note": "Yaw and roll are proved as stated. The pitch needs both matrix entries it is computed from to be clearly above FLT_EPSILON: otherwise the guard (an or where an and is meant) takes the gimbal lock formula, which extractPitch_wrong of C123 shows is not the pitch. atan2Ok_exists shows that the assumptions on the library functions can be met."
  },
  {
   "property": "C144",
   "status": "proved",
   "theorems": [
    "Verif.translate_after_f32",
    "Verif.translate_before_f32",
    "Verif.scale_after_f32",
    "Verif.scale_before_f32"
   ],
   "note": "Model/MoveTargets.lean, Spec/Move.lean."
  },
  {
   "property": "C145",
   "status": "proved",
   "theorems": [
    "Verif.minmax_targets",
    "Verif.minmax3_targets",
    "Verif.minmax4_targets",
    "Verif.clamp_targets",
    "Verif.minmax_nan",
    "Verif.clamp_nan",
    "Verif.minmax_zero"
   ],
   "note": "NEON's vminq_f32 and vmaxq_f32 are modelled by their documented behaviour (NaN for a NaN operand, -0 below +0)."
  }
 ]
}
