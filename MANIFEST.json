{
 "claims": [
  {
   "property": "C01",
   "status": "partial",
   "theorems": [
    "RCT.C01_partial",
    "RCT.C01_negation",
    "RCT.C01_negation_in_front"
   ],
   "note": "Proved: [C01_partial] The two projections agree exactly on points deeper than 1e-10, points with zero depth, and points whose two scaled image coordinates vanish. Missing from the full claim: all other points with depth at most 1e-10. Full claim false for the code: [C01_negation] The full claim fails: a point behind the camera. [C01_negation_in_front] The full claim also fails for points in front of the camera, however close to it."
  },
  {
   "property": "C02",
   "status": "proved",
   "theorems": [
    "RCT.C02_pinhole",
    "RCT.C02_ray_iff",
    "RCT.C02_scale"
   ],
   "note": "full claim proved for the model"
  },
  {
   "property": "C03",
   "status": "proved",
   "theorems": [
    "RCT.C03_pose_action",
    "RCT.C03_transform_action"
   ],
   "note": "full claim proved for the model"
  },
  {
   "property": "C04",
   "status": "partial",
   "theorems": [
    "RCT.C04_partial",
    "RCT.C04_translation",
    "RCT.C04_negation",
    "RCT.C04_defect_size"
   ],
   "note": "Proved: rigid exactly when the rotation vector is zero or its squared length exceeds 2^-52, the translation is always kept. False for tiny non-zero rotation vectors (C04_negation), whose determinant defect is given by C04_defect_size."
  },
  {
   "property": "C05",
   "status": "partial",
   "theorems": [
    "RCT.C05_partial",
    "RCT.C05_same_action",
    "RCT.C05_negation"
   ],
   "note": "Proved: the round trip is the identity exactly when the rotation angle is zero or its square exceeds the double epsilon; false for smaller rotations (C05_negation)."
  },
  {
   "property": "C06",
   "status": "proved",
   "theorems": [
    "RCT.C06_dh_matrix",
    "RCT.C06_rigid"
   ],
   "note": "full claim proved for the model"
  },
  {
   "property": "C07",
   "status": "proved",
   "theorems": [
    "RCT.C07_guard",
    "RCT.C07_guard_no_offsets"
   ],
   "note": "full claim proved for the model"
  },
  {
   "property": "C08",
   "status": "proved",
   "theorems": [
    "RCT.C08_value",
    "RCT.C08_empty",
    "RCT.C08_prefix",
    "RCT.C08_step"
   ],
   "note": "full claim proved for the model"
  },
  {
   "property": "C09",
   "status": "proved",
   "theorems": [
    "RCT.C09_rigid"
   ],
   "note": "full claim proved for the model"
  },
  {
   "property": "C10",
   "status": "proved",
   "theorems": [
    "RCT.C10_revolute",
    "RCT.C10_linear"
   ],
   "note": "full claim proved for the model"
  },
  {
   "property": "C11",
   "status": "proved",
   "theorems": [
    "RCT.C11_bake_offsets",
    "RCT.C11_short_table_ub"
   ],
   "note": "full claim proved for the model"
  },
  {
   "property": "C12",
   "status": "partial",
   "theorems": [
    "RCT.C12_partial_base",
    "RCT.C12_partial",
    "RCT.C12_seeds_partial",
    "RCT.C12_negation"
   ],
   "note": "Proved: [C12_partial_base] The base offset is the pose of the chain without any joint. [C12_partial] All but names and limits are kept; missing from the full claim: joint names (all become \"joint\") and limits (all become \u00b1\u03c0). [C12_seeds_partial] The joints of the new chain get fresh seeds of their own, one draw of the random device for each. Full claim false for the code: [C12_negation] The full claim fails: names and limits are lost."
  },
  {
   "property": "C13",
   "status": "proved",
   "theorems": [
    "RCT.C13_guard"
   ],
   "note": "full claim proved for the model"
  },
  {
   "property": "C14",
   "status": "partial",
   "theorems": [
    "RCT.C14_negation",
    "RCT.C14_partial"
   ],
   "note": "Proved: [C14_partial] What does hold: in a fresh process all values, of all joints, are the consecutive draws of a single stream seeded by the joint that was sampled first. Missing from the full claim: the seeds of all other joints are ignored. Full claim false for the code: [C14_negation] The claim fails for every engine whose second draw after some seed differs from the first draw after another seed."
  },
  {
   "property": "C15",
   "status": "proved",
   "theorems": [
    "RCT.C15_limits"
   ],
   "note": "full claim proved for the model"
  },
  {
   "property": "C16",
   "status": "proved",
   "theorems": [
    "RCT.C16_positions",
    "RCT.C16_nodup",
    "RCT.C16_range",
    "RCT.C16_labels"
   ],
   "note": "full claim proved for the model"
  },
  {
   "property": "C17",
   "status": "proved",
   "theorems": [
    "RCT.C17_frozen",
    "RCT.C17_accepts"
   ],
   "note": "full claim proved for the model"
  },
  {
   "property": "C18",
   "status": "partial",
   "theorems": [
    "RCT.C18_negation",
    "RCT.C18_partial",
    "RCT.C18_partial_returns_iff"
   ],
   "note": "Proved: [C18_partial] For masks over the non-negative integers the check is exact: the call throws if and only if some index is outside its block. [C18_partial_returns_iff] Over all integers: the call returns normally exactly when every block's mask is either entirely in range, or has largest index in range, a negative index, and at least as many distinct indices as the block has elements (the hole in the check). Full claim false for the code: [C18_negation] A negative index can be accepted silently, and then element 2, which was not listed, is frozen too."
  },
  {
   "property": "C19",
   "status": "partial",
   "theorems": [
    "RCT.C19_negation",
    "RCT.C19_partial"
   ],
   "note": "Proved: when the call fails, blocks in front of the bad one were processed as usual, that one and all behind it are unchanged. False in general: blocks before the rejected one are already changed (C19_negation)."
  },
  {
   "property": "C20",
   "status": "proved",
   "theorems": [
    "RCT.C20_unit",
    "RCT.C20_zero",
    "RCT.C20_surjective",
    "RCT.C20_rotation"
   ],
   "note": "full claim proved for the model"
  },
  {
   "property": "C21",
   "status": "partial",
   "theorems": [
    "RCT.C21_negation",
    "RCT.C21_partial_diagonal",
    "RCT.C21_symmetric"
   ],
   "note": "Proved: [C21_partial_diagonal] What holds for every square matrix: the diagonal entry is the standard deviation for the first parameter and for every parameter with standard deviation at least the double epsilon, and is 1 otherwise. Full claim false for the code: [C21_negation] A parameter with zero variance that is not the first one is reported with standard deviation 1."
  },
  {
   "property": "C22",
   "status": "proved",
   "theorems": [
    "RCT.C22_bounded",
    "RCT.C22_zero_variance",
    "RCT.C22_value"
   ],
   "note": "full claim proved for the model"
  },
  {
   "property": "C23",
   "status": "proved",
   "theorems": [
    "RCT.C23_square"
   ],
   "note": "full claim proved for the model"
  },
  {
   "property": "C24",
   "status": "proved",
   "theorems": [
    "RCT.C24_report",
    "RCT.C24_too_few_names"
   ],
   "note": "full claim proved for the model"
  },
  {
   "property": "C25",
   "status": "proved",
   "theorems": [
    "RCT.C25_free_parameters",
    "RCT.C25_unnamed"
   ],
   "note": "full claim proved for the model"
  },
  {
   "property": "C26",
   "status": "proved",
   "theorems": [
    "RCT.C26_returns",
    "RCT.C26_throws_iff"
   ],
   "note": "full claim proved for the model"
  },
  {
   "property": "C27",
   "status": "proved",
   "theorems": [
    "RCT.C27_complete",
    "RCT.C27_monotone"
   ],
   "note": "full claim proved for the model"
  },
  {
   "property": "C28",
   "status": "partial",
   "theorems": [
    "RCT.C28_partial",
    "RCT.C28_partial_3d",
    "RCT.C28_partial_reported",
    "RCT.C28_negation"
   ],
   "note": "Proved for all states whose camera rotation vector is zero or longer than 2^-26 (and 3D without depth condition), and for the reported cost; false for tinier rotations, which are expanded to first order (C28_negation)."
  },
  {
   "property": "C29",
   "status": "partial",
   "theorems": [
    "RCT.C29_partial",
    "RCT.C29_partial_3d",
    "RCT.C29_partial_solved",
    "RCT.C29_negation"
   ],
   "note": "Proved for transforms the six values represent exactly (rotation zero or above 1.5e-8 rad), 2D, 3D and solved; false for smaller rotations (C29_negation)."
  },
  {
   "property": "C30",
   "status": "partial",
   "theorems": [
    "RCT.C30_partial",
    "RCT.C30_negation"
   ],
   "note": "Proved for all base changes for which mount poses stay representable by six values; false if a rebased mount pose has a tiny rotation (C30_negation)."
  },
  {
   "property": "C31",
   "status": "partial",
   "theorems": [
    "RCT.C31_partial",
    "RCT.C31_partial_blocks",
    "RCT.C31_negation"
   ],
   "note": "Proved: throws exactly when some feature has non-positive depth, and the list of residual blocks otherwise, for guesses representable by six values; false for guesses with tiny rotations (C31_negation)."
  },
  {
   "property": "C32",
   "status": "partial",
   "theorems": [
    "RCT.C32_partial",
    "RCT.C32_partial_3d",
    "RCT.C32_negation",
    "RCT.C32_partial_multi",
    "RCT.C32_negation_multi"
   ],
   "note": "Proved: block order, number and prefix of labels. False: the labels are listed position first but the stored order is rotation first, so every label names another component (C32_negation, C32_negation_multi; in every run)."
  },
  {
   "property": "C33",
   "status": "proved",
   "theorems": [
    "RCT.C33_labels_core",
    "RCT.C33_labels",
    "RCT.C33_labels_3d"
   ],
   "note": "full claim proved for the model"
  },
  {
   "property": "C34",
   "status": "proved",
   "theorems": [
    "RCT.C34_multi_camera_pnp",
    "RCT.C34_multi_static",
    "RCT.C34_camera_only",
    "RCT.C34_wrist_only",
    "RCT.C34_kinematic",
    "RCT.C34_intrinsic",
    "RCT.C34_hand_eye",
    "RCT.C34_hand_eye_2d",
    "RCT.C34_hand_eye_3d",
    "RCT.C34_pnp",
    "RCT.C34_pnp_3d"
   ],
   "note": "full claim proved for the model"
  },
  {
   "property": "C35",
   "status": "proved",
   "theorems": [
    "RCT.C35_rigid",
    "RCT.C35_rigid_3d",
    "RCT.C35_residuals",
    "RCT.C35_residuals_3d",
    "RCT.C35_determined"
   ],
   "note": "full claim proved for the model"
  },
  {
   "property": "C36",
   "status": "partial",
   "theorems": [
    "RCT.C36_partial",
    "RCT.C36_same_pose",
    "RCT.C36_negation"
   ],
   "note": "Proved: [C36_partial] The residual lists agree at one and the same pose when all features are in front of the camera. Full claim false for the code: [C36_negation] A feature behind the camera: the residuals differ."
  },
  {
   "property": "C37",
   "status": "proved",
   "theorems": [
    "RCT.C37_relative",
    "RCT.C37_relative_inv"
   ],
   "note": "full claim proved for the model"
  },
  {
   "property": "C38",
   "status": "partial",
   "theorems": [
    "RCT.C38_partial",
    "RCT.C38_partial_residuals",
    "RCT.C38_negation"
   ],
   "note": "Proved: [C38_partial] Full statement: for all solver results. Proved for results whose reported camera is a rigid transform; see `C38_negation` for the others. Each feature has one residual block, in the order cameras, images, features, whose value at the final parameters is the reprojection error through the reported camera and target poses. [C38_partial_residuals] The final cost is determined by the reported poses. Full claim false for the code: [C38_negation] A correction of 1e-9 rad about x is applied to first order by the cost; the reported camera uses the transpose of the first order matrix: the residual is not the reprojection error of the reported camera."
  },
  {
   "property": "C39",
   "status": "partial",
   "theorems": [
    "RCT.C39_constrains",
    "RCT.C39_partial",
    "RCT.C39_negation",
    "RCT.C39_negation_tiny"
   ],
   "note": "Proved: [C39_partial] The reported first camera is the guess. Full statement: for all problems and all rigid guesses; missing: problems without images (`C39_negation`) and guesses with a rotation below 1.5e-8 rad (`C39_negation_tiny`). Full claim false for the code: [C39_negation] Without images the first camera is reported at the identity, whatever its guess. [C39_negation_tiny] A guess rotated by 1e-9 rad is not reported exactly."
  },
  {
   "property": "C40",
   "status": "proved",
   "theorems": [
    "RCT.C40_agree",
    "RCT.C40_reprojection",
    "RCT.C40_blocks"
   ],
   "note": "full claim proved for the model"
  },
  {
   "property": "C41",
   "status": "proved",
   "theorems": [
    "RCT.C41_order",
    "RCT.C41_count",
    "RCT.C41_distinct",
    "RCT.C41_built"
   ],
   "note": "full claim proved for the model"
  },
  {
   "property": "C42",
   "status": "proved",
   "theorems": [
    "RCT.C42_pinhole",
    "RCT.C42_principal_ray",
    "RCT.C42_brown"
   ],
   "note": "full claim proved for the model"
  },
  {
   "property": "C43",
   "status": "partial",
   "theorems": [
    "RCT.C43_partial_skips",
    "RCT.C43_negation_unusable",
    "RCT.C43_partial_returns_converged",
    "RCT.C43_partial",
    "RCT.C43_negation",
    "RCT.C43_partial_returns",
    "RCT.C43_partial_result"
   ],
   "note": "Proved: [C43_partial_skips] If PnP returns or throws for every image, the calibration goes on, and its problem contains exactly the features of the images for which PnP converged. [C43_partial_returns_converged] A result is returned only if PnP converged for all images. [C43_partial] The problem contains exactly the features of the images with a successful pose estimate, each attached to the pose of its image and to the intrinsics. [C43_partial_returns] In particular a run returns only if pose estimation succeeded for every image. [C43_partial_result] With at least one image, features in every image, successful pose estimates and a working covariance service there is a result. Full claim false for the code: [C43_negation_unusable] Hence a single image for which PnP does not converge or throws lets the process abort: no result for the others. [C43_negation] Whenever pose estimation throws for at least one image (and ends for all images), the process is aborted."
  },
  {
   "property": "C44",
   "status": "partial",
   "theorems": [
    "RCT.C44_partial_pose",
    "RCT.C44_partial_pixel",
    "RCT.C44_negation"
   ],
   "note": "Proved: [C44_partial_pose] The pose residual is zero at the true parameters. [C44_partial_pixel] The pixel residual is zero at the true parameters, for a pixel that is the pinhole image of the point in front of the camera. Full claim false for the code: [C44_negation] Rotation vectors shorter than the double epsilon are replaced by zero: with such a true orientation the residual is not zero at the truth."
  },
  {
   "property": "C45",
   "status": "proved",
   "theorems": [
    "RCT.C45_iff"
   ],
   "note": "full claim proved for the model"
  },
  {
   "property": "C46",
   "status": "proved",
   "theorems": [
    "RCT.C46_label_count",
    "RCT.C46_offsets_frozen",
    "RCT.C46_flagged_offsets",
    "RCT.C46_positions_frozen",
    "RCT.C46_rotations_frozen",
    "RCT.C46_dh_labels",
    "RCT.C46_report",
    "RCT.C46_held_iff",
    "RCT.C46_accepts"
   ],
   "note": "full claim proved for the model"
  },
  {
   "property": "C47",
   "status": "proved",
   "theorems": [
    "RCT.C47_tables",
    "RCT.C47_rigid",
    "RCT.C47_cost6",
    "RCT.C47_cost2"
   ],
   "note": "full claim proved for the model"
  },
  {
   "property": "C48",
   "status": "partial",
   "theorems": [
    "RCT.C48_throws_iff",
    "RCT.C48_partial",
    "RCT.C48_negation"
   ],
   "note": "Proved: [C48_partial] For tables of the same shape: construction returns; element (r, c) of the residual is the deviation of element (r, c) of the parameter table in standard deviations; all of them vanish exactly at the mean. `param` is the parameter table, stored column by column. Full claim false for the code: [C48_negation] Tables of different shape are accepted, and evaluation is undefined."
  },
  {
   "property": "C49",
   "status": "proved",
   "theorems": [
    "RCT.C49_radius",
    "RCT.C49_residuals",
    "RCT.C49_zero_iff",
    "RCT.C49_formulations",
    "RCT.C49_guess"
   ],
   "note": "full claim proved for the model"
  },
  {
   "property": "C50",
   "status": "partial",
   "theorems": [
    "RCT.C50_accepts",
    "RCT.C50_rejects",
    "RCT.C50_corners",
    "RCT.C50_partial",
    "RCT.C50_negation"
   ],
   "note": "Proved: [C50_partial] Full statement: for a grid large enough to be accepted, the sampler returns the indices of the four corners of the grid, all within the correspondence list and pairwise distinct. Proved for grids with at least two rows and two columns; missing: grids with a single row or column, which are accepted although their corners coincide (`C50_negation`). Full claim false for the code: [C50_negation] Every grid with a single row of at least eight points is accepted, but the four samples are not distinct."
  },
  {
   "property": "C51",
   "status": "proved",
   "theorems": [
    "RCT.C51_construct",
    "RCT.C51_sample"
   ],
   "note": "full claim proved for the model"
  },
  {
   "property": "C52",
   "status": "partial",
   "theorems": [
    "RCT.C52_partial",
    "RCT.C52_3d_partial",
    "RCT.C52_general_partial",
    "RCT.C52_negation"
   ],
   "note": "Proved: [C52_partial] Full statement: if all image points are images of the target points under one homography, the reported error is zero for every correspondence, for every sampler whose samples determine the homography. Proved for homographies with a non-zero last entry, i.e. under which the origin of the target has a finite image; missing: the others, which the check cannot represent (`C52_negation`). [C52_3d_partial] The same for measured points in space: multiples of the homogeneous image points. [C52_general_partial] The geometric condition is met by four samples in general position and an invertible homography. Full claim false for the code: [C52_negation] Perfect data of an invertible homography, with samples that determine it, for which an error is reported whatever the linear solver returns."
  },
  {
   "property": "C53",
   "status": "proved",
   "theorems": [
    "RCT.C53_undersized",
    "RCT.C53_range",
    "RCT.C53_sampler",
    "RCT.C53_count",
    "RCT.C53_3d"
   ],
   "note": "full claim proved for the model"
  },
  {
   "property": "C54",
   "status": "proved",
   "theorems": [
    "RCT.C54_point",
    "RCT.C54_throws"
   ],
   "note": "full claim proved for the model"
  },
  {
   "property": "C55",
   "status": "proved",
   "theorems": [
    "RCT.C55_roundtrip",
    "RCT.C55_grazing",
    "RCT.C55_plane"
   ],
   "note": "full claim proved for the model"
  },
  {
   "property": "C56",
   "status": "proved",
   "theorems": [
    "RCT.C56_concat",
    "RCT.C56_count",
    "RCT.C56_perfect",
    "RCT.C56_distance"
   ],
   "note": "full claim proved for the model"
  },
  {
   "property": "C57",
   "status": "proved",
   "theorems": [
    "RCT.C57_halves",
    "RCT.C57_agree",
    "RCT.C57_two"
   ],
   "note": "full claim proved for the model"
  },
  {
   "property": "C58",
   "status": "partial",
   "theorems": [
    "RCT.C58_partial",
    "RCT.C58_range_partial",
    "RCT.C58_negation"
   ],
   "note": "Proved: [C58_partial] On a nonempty list, a pair of neighbours of different sizes gives an exception; otherwise every observation is evaluated exactly once, in order, and the report is made of these evaluations. Missing with respect to C58: the empty list (see `C58_negation`). [C58_range_partial] On a nonempty list the function itself never reads out of range. Missing with respect to C58: the empty list. Full claim false for the code: [C58_negation] Full C58 fails: without observations `size() - 1` wraps around and the first element of an empty vector is read."
  },
  {
   "property": "C59",
   "status": "proved",
   "theorems": [
    "RCT.C59_core",
    "RCT.C59_positions",
    "RCT.C59_positions_3d",
    "RCT.C59_range_core",
    "RCT.C59_range",
    "RCT.C59_range_3d",
    "RCT.C59_returns",
    "RCT.C59_order",
    "RCT.C59_order_3d"
   ],
   "note": "full claim proved for the model"
  },
  {
   "property": "C60",
   "status": "proved",
   "theorems": [
    "RCT.C60_order",
    "RCT.C60_sign",
    "RCT.C60_rotations",
    "RCT.C60_average",
    "RCT.C60_constant",
    "RCT.C60_deviation",
    "RCT.C60_single"
   ],
   "note": "full claim proved for the model"
  },
  {
   "property": "C61",
   "status": "partial",
   "theorems": [
    "RCT.C61_intrinsics_partial",
    "RCT.C61_problem_partial",
    "RCT.C61_problem_3d_partial",
    "RCT.C61_problem_differs_partial",
    "RCT.C61_negation",
    "RCT.C61_negation_concrete",
    "RCT.C61_partial",
    "RCT.C61_measurement_partial",
    "RCT.C61_sizes_negation",
    "RCT.C61_observation_partial",
    "RCT.C61_transform_partial"
   ],
   "note": "Proved: [C61_intrinsics_partial] Intrinsics compare equal exactly if all four values are equal. [C61_problem_partial] Hand-eye problems are compared in all their data. [C61_problem_3d_partial] The same for problems with points in space. [C61_problem_differs_partial] Hence problems with different intrinsics or with a different number of observations are different. [C61_partial] What is compared: the joint values of both chains. Missing: the correspondences. [C61_measurement_partial] The pose measurements are compared in all their data. [C61_observation_partial] The other observations are compared in all their data. [C61_transform_partial] `isApprox` of transforms implies that rotation entries and translations differ by at most the tolerance times the norm. Full claim false for the code: [C61_negation] Full C61 fails: the result never depends on the correspondences, of either side. [C61_negation_concrete] Hence observations with no correspondence and with one correspondence compare equal. [C61_sizes_negation] Full C61 fails for chains of different lengths: comparing the joint values of robots with different numbers of joints is outside the contract of Eigen, for observations as well as for measurements of the same pose."
  },
  {
   "property": "C62",
   "status": "proved",
   "theorems": [
    "RCT.C62_intrinsics",
    "RCT.C62_correspondence",
    "RCT.C62_correspondence_3d",
    "RCT.C62_observation",
    "RCT.C62_observation_3d",
    "RCT.C62_problem",
    "RCT.C62_problem_3d",
    "RCT.C62_rejects",
    "RCT.C62_exact"
   ],
   "note": "full claim proved for the model"
  },
  {
   "property": "C63",
   "status": "proved",
   "theorems": [
    "RCT.C63_isometry"
   ],
   "note": "full claim proved for the model"
  },
  {
   "property": "C64",
   "status": "partial",
   "theorems": [
    "RCT.C64_partial",
    "RCT.C64_negation",
    "RCT.C64_rejects_partial"
   ],
   "note": "Proved: [C64_partial] Positions, costs and the convergence flag survive. Of each orientation the yaw and roll angles are exchanged, so a transform survives exactly if that exchange does not matter. Missing: all other orientations. [C64_rejects_partial] A document with the wrong number of entries is rejected. Full claim false for the code: [C64_negation] Full C64 fails: a quarter turn about the z axis comes back as a different rotation, for both transforms and however the Euler angles are chosen."
  },
  {
   "property": "C65",
   "status": "proved",
   "theorems": [
    "RCT.C65_joint",
    "RCT.C65_type",
    "RCT.C65_chain",
    "RCT.C65_unknown_type",
    "RCT.C65_missing"
   ],
   "note": "full claim proved for the model"
  },
  {
   "property": "C66",
   "status": "partial",
   "theorems": [
    "RCT.C66_partial",
    "RCT.C66_negation",
    "RCT.C66_distance"
   ],
   "note": "Proved for all targets with rows + 1 < 2^32; with 2^32 - 1 rows the loop bound wraps and there are no points (C66_negation)."
  },
  {
   "property": "C67",
   "status": "proved",
   "theorems": [
    "RCT.C67_keypoints",
    "RCT.C67_finder"
   ],
   "note": "full claim proved for the model"
  },
  {
   "property": "C68",
   "status": "partial",
   "theorems": [
    "RCT.C68_partial",
    "RCT.C68_negation"
   ],
   "note": "Proved: [C68_partial] C68, full statement: when the finder succeeds, the centre paired with the target origin (point rows*cols - cols of the target, see C66) is the corner that was judged to be the large circle. Proved here for the branches of `OriginRight`: the usual orderings with the large circle at the start of the last or the end of the first row, the usual orderings with one of the other two corners if the grid is square or the flipped pattern was found, and for square grids the unusual orderings with the start of the last or the end of the first row. In all other branches it is false (`C68_negation`). Full claim false for the code: [C68_negation] In the remaining branches the target origin is paired with another circle than the large one; in particular always for the unusual orderings with the large circle at the end of the last or the start of the first row."
  },
  {
   "property": "C69",
   "status": "partial",
   "theorems": [
    "RCT.C69_finder_partial",
    "RCT.C69_partial",
    "RCT.C69_negation",
    "RCT.C69_handed_partial",
    "RCT.C69_flipped_negation"
   ],
   "note": "Proved: [C69_finder_partial] C69, full statement above `C69_partial`. For the finder as a whole: if the pattern is found as given, neighbours of the output are neighbours in rows of `cols` circles; if it is found only with rows and columns exchanged, they are neighbours in rows of `rows` circles. Missing: the orderings excluded by `Fits`. [C69_partial] C69, full statement: neighbouring positions of the output grid are neighbouring circles of the detected grid, and the output has the handedness of the target. Neighbourhood, proved for square grids and for orderings whose direction agrees with the layout in which the pattern was found (`Fits`); false otherwise (`C69_negation`). [C69_handed_partial] C69, handedness, for patterns found with the size of the target. On a parallelogram grid (the image of the target under an affine map) the output is again a parallelogram grid, made of the same steps, whose orientation is the one of the target seen from the front. Missing: grids that do not fit (`C69_negation`) and patterns found flipped (`C69_flipped_negation`). Full claim false for the code: [C69_negation] Otherwise the first two rows of the output are torn apart: the first circles of the two rows are neighbours on the target, but the centres paired with them are not neighbours in the detected grid. [C69_flipped_negation] Target of two rows and an odd number of columns, found flipped (a list of `cols` rows with two circles each): the usual ordering is taken for the unusual one, and the output is the mirror image of the target."
  },
  {
   "property": "C70",
   "status": "partial",
   "theorems": [
    "RCT.C70_aruco",
    "RCT.C70_aruco_unknown",
    "RCT.C70_aruco_returns",
    "RCT.C70_charuco_partial",
    "RCT.C70_charuco_unknown",
    "RCT.C70_charuco_returns",
    "RCT.C70_charuco_negation",
    "RCT.C70_circle_partial",
    "RCT.C70_circle_unknown",
    "RCT.C70_circle_negation"
   ],
   "note": "Proved: [C70_charuco_partial] C70, full statement: every correspondence joins the image point of feature id k with the target point of id k, the number of correspondences is the number of detected points, and a feature id the target does not have raises an exception. Missing for ChArUco targets: a feature with several image points; only its first point is used (`C70_charuco_negation`). The finders of the library produce one point per feature. [C70_circle_partial] C70 for circle grids. The full statement is above `C70_charuco_partial`. Missing: features with several points, and sets of features whose number differs from the number of target points; `createCorrespondences` asserts that the numbers agree, but with assertions disabled extra features are ignored (`C70_circle_negation`). Full claim false for the code: [C70_charuco_negation] All points of a feature but the first are dropped without notice. [C70_circle_negation] Without the assertion, features with ids the target does not have are ignored: neither an exception nor a pair."
  },
  {
   "property": "C71",
   "status": "proved",
   "theorems": [
    "RCT.C71_throws",
    "RCT.C71_levels"
   ],
   "note": "full claim proved for the model"
  },
  {
   "property": "C72",
   "status": "proved",
   "theorems": [
    "RCT.C72_grouping",
    "RCT.C72_apart"
   ],
   "note": "full claim proved for the model"
  },
  {
   "property": "C73",
   "status": "partial",
   "theorems": [
    "RCT.C73_partial",
    "RCT.C73_complete",
    "RCT.C73_negation"
   ],
   "note": "Proved: [C73_partial] With positive finite confidences each key point stems from enough detections, all within the tolerances of one of them, and lies within their range. Missing from the full claim: infinite confidences. Full claim false for the code: [C73_negation] The full claim fails for every image in which the fitted ellipse describes the contour exactly: whatever the tolerances, such a circle gives a key point that is not a number."
  },
  {
   "property": "C74",
   "status": "partial",
   "theorems": [
    "RCT.C74_partial",
    "RCT.C74_negation"
   ],
   "note": "Proved: [C74_partial] If the circles seen at any single threshold are farther apart than twice the tolerances, each key point is the average of detections at different thresholds, at least as many as required. Missing from the full claim: images in which one threshold shows several close contours. Full claim false for the code: [C74_negation] The full claim fails for every required number `m` of repetitions and every circle: `m` contours of this circle at one of the thresholds are enough, even if nothing is seen at all others."
  },
  {
   "property": "C75",
   "status": "partial",
   "theorems": [
    "RCT.C75_partial",
    "RCT.C75_partial_bare",
    "RCT.C75_negation"
   ],
   "note": "Proved: [C75_partial] Saving and loading a data set with eight bit colour images and rigid poses, without write errors, returns it. Missing from the full claim: other images. [C75_partial_bare] C75 for a directory in the working directory, given by its bare name, which is made if it is not there. Missing: images that change when they are stored. Full claim false for the code: [C75_negation] The full claim fails for every data set with an image that is not preserved by reading it in colour (for example a sixteen bit image)."
  },
  {
   "property": "C76",
   "status": "partial",
   "theorems": [
    "RCT.C76_partial",
    "RCT.C76_partial_interrupted",
    "RCT.C76_negation"
   ],
   "note": "Proved: interruption at any step before the index is opened makes loading fail. False if interrupted between opening and writing the index: an empty data set is loaded (C76_negation)."
  },
  {
   "property": "C77",
   "status": "proved",
   "theorems": [
    "RCT.C77_aligned"
   ],
   "note": "full claim proved for the model"
  },
  {
   "property": "C78",
   "status": "partial",
   "theorems": [
    "RCT.C78_partial",
    "RCT.C78_negation"
   ],
   "note": "Proved: [C78_partial] If the directories can be made: `true` is returned, every file that can be written is stored with its content, and every file that cannot be written has the content it had before. So the answer is right if every file can be written. Missing: the answer `false` otherwise, see `C78_negation`. Full claim false for the code: [C78_negation] Even if nothing at all can be written, saving reports success (and leaves the disk as it was)."
  },
  {
   "property": "C79",
   "status": "proved",
   "theorems": [
    "RCT.C79_paired",
    "RCT.C79_survives",
    "RCT.C79_saved_loads"
   ],
   "note": "full claim proved for the model"
  },
  {
   "property": "C80",
   "status": "partial",
   "theorems": [
    "RCT.C80_partial",
    "RCT.C80_returns",
    "RCT.C80_negation_fewer",
    "RCT.C80_negation_drawing",
    "RCT.C80_negation_more",
    "RCT.C80_negation_outside",
    "RCT.C80_negation_none"
   ],
   "note": "Proved: [C80_partial] With the same number `n` of images for all cameras: the flag is set exactly if the target was found and drawn, the flagged entry holds the correspondences, and the counts are the numbers of flagged cameras and images. Missing from the full claim: cameras with different numbers of images, no camera, targets that cannot be drawn. Full claim false for the code: [C80_negation_fewer] If a camera has fewer images than the first, the flags of its missing images are whatever the memory contained, so images that do not exist can be reported as containing the target. [C80_negation_drawing] If drawing the target throws in the debug mode, the image is not flagged although the target was found. [C80_negation_more] If a camera has more images than the first, the constructor does not return. [C80_negation_outside] With a second camera that has one more image than the first, memory outside the table is accessed. [C80_negation_none] Without a camera, the first one is accessed anyway."
  },
  {
   "property": "C81",
   "status": "proved",
   "theorems": [
    "RCT.C81_structure",
    "RCT.C81_rejects"
   ],
   "note": "full claim proved for the model"
  },
  {
   "property": "C82",
   "status": "partial",
   "theorems": [
    "RCT.C82_parameters",
    "RCT.C82_parameter_values",
    "RCT.C82_partial",
    "RCT.C82_negation"
   ],
   "note": "Proved: [C82_partial] A pose loaded from a file is rigid exactly if the quaternion in the file has unit length or no vector part. Missing from the full claim: the other quaternions. Full claim false for the code: [C82_negation] A file with the quaternion `(1, 1, 0, 0)` is accepted, but the pose is not rigid; the same values as parameters give a rigid pose."
  },
  {
   "property": "C83",
   "status": "partial",
   "theorems": [
    "RCT.C83_partial",
    "RCT.C83_negation",
    "RCT.C83_flag",
    "RCT.C83_file",
    "RCT.C83_file_flag"
   ],
   "note": "Proved: [C83_partial] Loading succeeds exactly if the four members are doubles, and returns them; otherwise it throws. Missing from the full claim: integer members. Full claim false for the code: [C83_negation] A parameter with an integer instead of a double is rejected, whatever the other members are."
  },
  {
   "property": "C84",
   "status": "proved",
   "theorems": [
    "RCT.C84_wrist",
    "RCT.C84_static",
    "RCT.C84_returns",
    "RCT.C84_other_exceptions",
    "RCT.C84_analysis"
   ],
   "note": "full claim proved for the model"
  },
  {
   "property": "C85",
   "status": "partial",
   "theorems": [
    "RCT.C85_negation",
    "RCT.C85_partial"
   ],
   "note": "Proved: [C85_partial] Proved part of C85: if every image was seen by all cameras, each reprojection is drawn on the image of its observation. Full claim false for the code: [C85_negation] The right images are drawn on exactly if no image before the last one used was left out (the images being different). In particular, after the first image not seen by every camera all reprojections are drawn on wrong images."
  },
  {
   "property": "C86",
   "status": "partial",
   "theorems": [
    "RCT.C86_negation",
    "RCT.C86_partial"
   ],
   "note": "Proved: [C86_partial] Proved part of C86: if all listed files hold the same image (a still scene without any noise), the problems are right. Full claim false for the code: [C86_negation] The tool violates the statement for every list in which some image gives other correspondences than the first one, or in which the target is visible in some but not all images."
  },
  {
   "property": "C87",
   "status": "proved",
   "theorems": [
    "RCT.C87_banner"
   ],
   "note": "full claim proved for the model"
  },
  {
   "property": "C88",
   "status": "proved",
   "theorems": [
    "RCT.C88_unique"
   ],
   "note": "full claim proved for the model"
  },
  {
   "property": "C89",
   "status": "proved",
   "theorems": [
    "RCT.C89_residuals"
   ],
   "note": "full claim proved for the model"
  },
  {
   "property": "C90",
   "status": "proved",
   "theorems": [
    "RCT.C90_kinematic_aborts",
    "RCT.C90_pnp",
    "RCT.C90_handEye",
    "RCT.C90_circle",
    "RCT.C90_intrinsic",
    "RCT.C90_multiStatic",
    "RCT.C90_kinematic"
   ],
   "note": "full claim proved for the model"
  },
  {
   "property": "C91",
   "status": "partial",
   "theorems": [
    "RCT.C91_labels",
    "RCT.C91_partial",
    "RCT.C91_negation"
   ],
   "note": "Proved: [C91_partial] Full statement: the covariance reported for x, y and r is the covariance of the reported centre and radius. Proved: exactly how the reported matrix differs from it; the entries of the centre are right. Missing: the entries of the radius, which are those of its square root (`C91_negation`). Full claim false for the code: [C91_negation] The reported variance of the radius is wrong for every circle whose radius is not 1/4."
  },
  {
   "property": "C92",
   "status": "partial",
   "theorems": [
    "RCT.C92_partial",
    "RCT.C92_negation"
   ],
   "note": "Proved: [C92_partial] Full statement: two different rotation vectors with angles below \u03c0 give different transforms, i.e. every orientation parameter influences the prediction. Proved for angles above the double epsilon. Missing: a neighbourhood of zero, which is the default guess and where the statement is false (`C92_negation`). Full claim false for the code: [C92_negation] At the default guess (zero rotation vectors) the residuals do not depend on the orientation parameters at all: any change up to the double epsilon leaves every residual unchanged."
  },
  {
   "property": "C93",
   "status": "proved",
   "theorems": [
    "RCT.C93_titles",
    "RCT.C93_titles_distinct",
    "RCT.C93_printed"
   ],
   "note": "full claim proved for the model"
  },
  {
   "property": "C94",
   "status": "partial",
   "theorems": [
    "RCT.C94_partial",
    "RCT.C94_negation"
   ],
   "note": "Proved: [C94_partial] Full statement: every name in the covariance report is the name of a parameter of the calibration, for all chains. Proved when a chain without joints has the four elements of its dummy group masked. Missing: chains without joints and without such masks, where the statement is false (`C94_negation`). Full claim false for the code: [C94_negation] Every run with a camera chain without joints whose dummy group is not masked reports a parameter that does not exist."
  },
  {
   "property": "C95",
   "status": "partial",
   "theorems": [
    "RCT.C95_nonneg",
    "RCT.C95_3d_partial",
    "RCT.C95_sign",
    "RCT.C95_negation"
   ],
   "note": "Proved: [C95_3d_partial] Full statement: every reported error is a distance, in particular not negative. Proved for points with non-negative depth; missing: points with negative depth (`C95_negation`). Full claim false for the code: [C95_negation] There are inputs for which a negative error is returned whatever the linear solver does."
  },
  {
   "property": "C96",
   "status": "partial",
   "theorems": [
    "RCT.C96_partial",
    "RCT.C96_negation"
   ],
   "note": "Proved: [C96_partial] C96, full statement: for every target with at least one row and one column (what the constructor asserts) the finder reads only existing circles; whatever OpenCV reports there is a result or an exception. Proved for at least two rows and two columns; with one row or one column it reads outside the list of sizes (`C96_negation`). Full claim false for the code: [C96_negation] A target with one row or one column that is seen completely makes the finder read outside the list of sizes."
  },
  {
   "property": "C97",
   "status": "partial",
   "theorems": [
    "RCT.C97_upright",
    "RCT.C97_judge",
    "RCT.C97_partial",
    "RCT.C97_negation",
    "RCT.C97_sizes"
   ],
   "note": "Proved: [C97_partial] C97, full statement: if one corner circle of the detected grid is larger than all the other circles, which have equal size, the finder recognises it: the corner it judges to be the large circle is that one. Proved for corners whose position in the list of centres is the one of the target layout (`cornerPos rows cols`): all four corners if the pattern was found with the size of the target, the first and the last circle if it was found flipped. In the remaining cases the finder fails (`C97_negation`). Full claim false for the code: [C97_negation] If the pattern was found flipped and the large circle is at the end of the first row or at the start of the last row of the detected list (`rows` circles per row), a target that is not square is never recognised: the finder fails although the image shows the target."
  },
  {
   "property": "C98",
   "status": "proved",
   "theorems": [
    "RCT.C98_aruco",
    "RCT.C98_charuco",
    "RCT.C98_charuco_none",
    "RCT.C98_charuco_pairs"
   ],
   "note": "full claim proved for the model"
  },
  {
   "property": "C99",
   "status": "proved",
   "theorems": [
    "RCT.C99_pinhole",
    "RCT.C99_residuals"
   ],
   "note": "full claim proved for the model"
  },
  {
   "property": "C100",
   "status": "partial",
   "theorems": [
    "RCT.C100_partial",
    "RCT.C100_negation"
   ],
   "note": "Proved: [C100_partial] The detector returns key points (without undefined behaviour) whenever the colour filter is off or all fitted centres of contours with at least five points lie in the image. Missing: fitted centres outside the image. Full claim false for the code: [C100_negation] The full claim fails: whenever the first contour has at least five points, passes the other filters and its fitted centre lies outside the image, a pixel that does not exist is read."
  },
  {
   "property": "C101",
   "status": "partial",
   "theorems": [
    "RCT.C101_partial",
    "RCT.C101_negation"
   ],
   "note": "Proved: [C101_partial] For contours with defined quotients the reported circles are exactly those of the accepted contours, in order. Missing: contours whose hull has no area. Full claim false for the code: [C101_negation] The full claim fails: whatever range is required, a contour whose hull has no area (so that it has no convexity) passes the convexity filter."
  },
  {
   "property": "C102",
   "status": "proved",
   "theorems": [
    "RCT.C102_inertia"
   ],
   "note": "full claim proved for the model"
  },
  {
   "property": "C103",
   "status": "partial",
   "theorems": [
    "RCT.C103_negation",
    "RCT.C103_partial"
   ],
   "note": "Proved: [C103_partial] Proved part of C103: whether the index is readable at all does not depend on how it is named. Full claim false for the code: [C103_negation] The statement fails for every data set with at least one image: given by its bare name, the index file itself is taken for the directory, no image is found and the data set loads as empty without any error (nothing lies below a file)."
  },
  {
   "property": "C104",
   "status": "partial",
   "theorems": [
    "RCT.C104_observations_partial",
    "RCT.C104_partial",
    "RCT.C104_negation"
   ],
   "note": "Proved: [C104_observations_partial] The observations of the validation tool are those of the usable images, in order, each with the pose of its image. [C104_partial] The verdict on a data set with at least one usable image: whenever the tool ends without error, the virtual targets of all usable images were compared, and the calibration is called valid exactly if mean plus two standard deviations are within both tolerances. Missing with respect to C104: no usable image (see `C104_negation`). Full claim false for the code: [C104_negation] Full C104 fails: if the loop ends without a usable image, nothing is reported; the first element of an empty vector is read."
  },
  {
   "property": "C105",
   "status": "proved",
   "theorems": [
    "RCT.C105_pairs",
    "RCT.C105_returns"
   ],
   "note": "full claim proved for the model"
  },
  {
   "property": "C106",
   "status": "partial",
   "theorems": [
    "RCT.C106_partial",
    "RCT.C106_negation"
   ],
   "note": "Proved: [C106_partial] The multi step tool, the PnP tool for several cameras and the tools for one camera: an unreadable data set gives an exception, which the tools report; a readable one is used as it is. Full claim false for the code: [C106_negation] The multi static camera tool dereferences the empty optional before testing it: for every unreadable data set the behaviour is undefined."
  },
  {
   "property": "C107",
   "status": "proved",
   "theorems": [
    "RCT.C107_multi_step",
    "RCT.C107_multi_step_returns",
    "RCT.C107_multi_pnp"
   ],
   "note": "full claim proved for the model"
  },
  {
   "property": "C108",
   "status": "proved",
   "theorems": [
    "RCT.C108_gate"
   ],
   "note": "full claim proved for the model"
  },
  {
   "property": "C109",
   "status": "proved",
   "theorems": [
    "RCT.C109_view"
   ],
   "note": "full claim proved for the model"
  },
  {
   "property": "C110",
   "status": "partial",
   "theorems": [
    "RCT.C110_partial",
    "RCT.C110_returns_partial",
    "RCT.C110_negation"
   ],
   "note": "Proved: [C110_partial] The correspondences passed on are those of exactly the usable images, in order, and the image size is that of the first image. Missing with respect to C110: the empty data set (see `C110_negation`). [C110_returns_partial] It returns for every data set with an image if failures are reported by `std::runtime_error` and drawing works. Full claim false for the code: [C110_negation] Full C110 fails: for the empty data set the size of a non-existing image is read."
  },
  {
   "property": "C111",
   "status": "partial",
   "theorems": [
    "RCT.C111_partial",
    "RCT.C111_partial_iff",
    "RCT.C111_negation"
   ],
   "note": "Proved: [C111_partial] C111 (positive part). Full statement: for all distinct camera position and target and every up direction, `lookAt` is a rigid pose at the camera position that has the target straight ahead, no up component along the image rows, and the up direction pointing up in the image. It holds whenever the viewing direction is not parallel to the up direction. [C111_partial_iff] C111: `lookAt` is rigid exactly when the viewing direction and the up direction are not parallel. Full claim false for the code: [C111_negation] C111 is false for a camera that looks along the up direction: the result is never a rigid pose."
  },
  {
   "property": "C112",
   "status": "partial",
   "theorems": [
    "RCT.C112_partial_cone",
    "RCT.C112_partial_cone_aligned",
    "RCT.C112_partial_grid",
    "RCT.C112_partial_hemisphere",
    "RCT.C112_negation"
   ],
   "note": "Proved: [C112_partial_cone] C112 (cone). For every rigid target frame and offset the generator returns `n` poses; the pose with number `i` is a usable camera on the cone of radius `r` and height `h`, unless the camera would look along the x axis. [C112_partial_cone_aligned] C112 (cone, target axes parallel to the axes of the pose frame): all poses are usable if the height is not zero. [C112_partial_grid] C112 (grid). `side * side` poses; the pose with number `i * side + j` is a usable camera at the grid place `(i, j)` centred above the target at height `h`, unless the camera would look along the x axis. [C112_partial_hemisphere] C112 (hemisphere). `n * m` poses; the pose with number `a * m + b` is a usable camera on the sphere of radius `r` at the angles `a \u03c0 / (n - 1)` and `b \u03c0 / (m - 1)`, unless the camera would look along the x axis. Full claim false for the code: [C112_negation] C112 is false for the hemisphere: with an odd number of polar angles there is always a pose that is not rigid (the one on the x axis, which is also the up direction), for target frames whose axes are those of the pose frame."
  },
  {
   "property": "C113",
   "status": "partial",
   "theorems": [
    "RCT.C113_partial",
    "RCT.C113_negation"
   ],
   "note": "Proved: [C113_partial] C113 (positive part): the generator returns the poses of the wrapped generator, in order and unchanged. Full claim false for the code: [C113_negation] C113 is false. Full statement: every pose is the corresponding pose of the wrapped generator, turned about its own z axis by an angle between the bounds. Whatever the engine draws, no pose is turned by such an angle when the interval excludes the full turns."
  },
  {
   "property": "C114",
   "status": "proved",
   "theorems": [
    "RCT.C114_visible",
    "RCT.C114_require_all",
    "RCT.C114_3d"
   ],
   "note": "full claim proved for the model"
  },
  {
   "property": "C115",
   "status": "proved",
   "theorems": [
    "RCT.C115_observations",
    "RCT.C115_observations_3d",
    "RCT.C115_explained",
    "RCT.C115_residuals"
   ],
   "note": "full claim proved for the model"
  },
  {
   "property": "C116",
   "status": "partial",
   "theorems": [
    "RCT.C116_partial",
    "RCT.C116_negation"
   ],
   "note": "Proved: [C116_partial] C116 (what holds). Full statement: whenever the pose generators produce poses that have the target straight ahead, so do the cameras of all observations. In fact every camera has the point straight ahead whose target coordinates are the translation of the target mount transform; this is the target origin only if that translation is zero. Full claim false for the code: [C116_negation] C116 is false: if the translation of the target mount is not along the optical axis of a generated pose, no camera has the target straight ahead."
  },
  {
   "property": "C117",
   "status": "proved",
   "theorems": [
    "RCT.C117_outcome",
    "RCT.C117_count",
    "RCT.C117_throws"
   ],
   "note": "full claim proved for the model"
  },
  {
   "property": "C118",
   "status": "proved",
   "theorems": [
    "RCT.C118_measurements",
    "RCT.C118_pixels",
    "RCT.C118_3d"
   ],
   "note": "full claim proved for the model"
  },
  {
   "property": "C119",
   "status": "proved",
   "theorems": [
    "RCT.C119_bounded",
    "RCT.C119_draws",
    "RCT.C119_zero"
   ],
   "note": "full claim proved for the model"
  },
  {
   "property": "C120",
   "status": "partial",
   "theorems": [
    "RCT.C120_negation",
    "RCT.C120_partial"
   ],
   "note": "Proved: [C120_partial] C120 (what holds): each noise level acts on its own part. The shift depends on the spatial noise only and is proportional to it, and the rotation depends on the angular noise only: its axis is the same for all levels and its angle is proportional to the level. Missing: shift, axis and angle of one level vary independently over the seeds, see `C120_negation`. Full claim false for the code: [C120_negation] C120. Full statement: shift, axis and angle of the perturbation vary independently; in particular some seeds give a shift across the rotation axis. This is false: the three distributions own copies of one freshly seeded engine, so the shift is always along the rotation axis (the rotation leaves it unchanged), and the angle is proportional to its first component."
  },
  {
   "property": "C121",
   "status": "partial",
   "theorems": [
    "RCT.C121_partial",
    "RCT.C121_partial_pose",
    "RCT.C121_negation"
   ],
   "note": "Proved: [C121_partial] C121 (what holds). Full statement: the perturbed chain differs from the given one only in the DH parameters, which are shifted by the noise. Base, number, types and shifted parameters are as stated; names and limits are not kept. [C121_partial_pose] C121: the pose of the perturbed chain is that of the given chain with the noise as offsets. Full claim false for the code: [C121_negation] C121 is false: joint limits other than \u00b1\u03c0 are lost, even without noise; so are names that do not follow the scheme."
  },
  {
   "property": "C122",
   "status": "partial",
   "theorems": [
    "RCT.C122_partial",
    "RCT.C122_negation"
   ],
   "note": "Proved: [C122_partial] C122 (positive part): the points are those of the grid, row by row from the top, and `origin_idx` is the number of the point at the origin; for square targets the centre is the midpoint of opposite corners. Full claim false for the code: [C122_negation] C122 is false for targets that are not square: the coordinates of the centre are exchanged, so it is not the midpoint of opposite corners."
  },
  {
   "property": "C123",
   "status": "partial",
   "theorems": [
    "RCT.C123_partial_iff",
    "RCT.C123_partial",
    "RCT.C123_negation",
    "RCT.C123_partial_camera"
   ],
   "note": "Proved: [C123_partial_iff] C123 (exact condition). Full statement: the Cartesian observations made from two chains are explained by the true mount transforms. In fact a correspondence is explained exactly if the target point, as seen from the base of the target chain, is a fixed point of the transform between the two bases. [C123_partial] C123 (positive part): with coinciding bases all correspondences are explained. [C123_partial_camera] C123, with a camera (positive part): with coinciding bases every image point is the projection of a point in front of the camera. Full claim false for the code: [C123_negation] C123 is false: if one base is shifted against the other, no correspondence is explained."
  },
  {
   "property": "C124",
   "status": "proved",
   "theorems": [
    "RCT.C124_final",
    "RCT.C124_initial",
    "RCT.C124_final_3d",
    "RCT.C124_initial_3d"
   ],
   "note": "full claim proved for the model"
  },
  {
   "property": "C125",
   "status": "proved",
   "theorems": [
    "RCT.C125_final",
    "RCT.C125_initial",
    "RCT.C125_perfect",
    "RCT.C125_returns"
   ],
   "note": "full claim proved for the model"
  },
  {
   "property": "C126",
   "status": "proved",
   "theorems": [
    "RCT.C126_multi_final",
    "RCT.C126_multi_initial",
    "RCT.C126_camera_only_final",
    "RCT.C126_camera_only_initial",
    "RCT.C126_wrist_only_final",
    "RCT.C126_wrist_only_initial"
   ],
   "note": "full claim proved for the model"
  },
  {
   "property": "C127",
   "status": "proved",
   "theorems": [
    "RCT.C127_pnp",
    "RCT.C127_pnp_3d",
    "RCT.C127_multi_camera_pnp",
    "RCT.C127_hand_eye",
    "RCT.C127_hand_eye_3d",
    "RCT.C127_static",
    "RCT.C127_multi_static",
    "RCT.C127_camera_only",
    "RCT.C127_wrist_only"
   ],
   "note": "full claim proved for the model"
  },
  {
   "property": "C128",
   "status": "proved",
   "theorems": [
    "RCT.C128_aruco",
    "RCT.C128_charuco",
    "RCT.C128_refl_symm",
    "RCT.C128_tolerance",
    "RCT.C128_different"
   ],
   "note": "full claim proved for the model"
  },
  {
   "property": "C129",
   "status": "partial",
   "theorems": [
    "RCT.C129_partial",
    "RCT.C129_negation",
    "RCT.C129_transitive_negation"
   ],
   "note": "Proved: [C129_partial] Equal targets have equally many points, and corresponding coordinates differ by less than the number of columns (rows) times the machine epsilon; equality is reflexive and symmetric. Full claim false for the code: [C129_negation] Every target with at least one row and two columns is equal to a target with different points. [C129_transitive_negation] For every target there are two more such that equality is not transitive."
  },
  {
   "property": "C130",
   "status": "partial",
   "theorems": [
    "RCT.C130_partial",
    "RCT.C130_negation"
   ],
   "note": "Proved: [C130_partial] All but the dictionary. Full claim false for the code: [C130_negation] Boards that differ in the dictionary only, so that no marker of one is a marker of the other, compare equal."
  },
  {
   "property": "C131",
   "status": "proved",
   "theorems": [
    "RCT.C131_aruco",
    "RCT.C131_charuco",
    "RCT.C131_any_id"
   ],
   "note": "full claim proved for the model"
  },
  {
   "property": "C132",
   "status": "proved",
   "theorems": [
    "RCT.C132_color",
    "RCT.C132_exact",
    "RCT.C132_default",
    "RCT.C132_required"
   ],
   "note": "full claim proved for the model"
  },
  {
   "property": "C133",
   "status": "partial",
   "theorems": [
    "RCT.C133_partial",
    "RCT.C133_negation"
   ],
   "note": "Proved: [C133_partial] The stated parameters are used if all are stated, and the defaults if none is. Full claim false for the code: [C133_negation] Whatever a block states, if one of the 21 keys is missing the finder uses the default of every parameter."
  },
  {
   "property": "C134",
   "status": "partial",
   "theorems": [
    "RCT.C134_partial",
    "RCT.C134_negation"
   ],
   "note": "Proved: [C134_partial] Non-negative numbers are taken over. Full claim false for the code: [C134_negation] Zero and negative numbers are accepted: a target without rows, or with `2^32 - n` rows instead of `-n`; the same for columns."
  },
  {
   "property": "C135",
   "status": "proved",
   "theorems": [
    "RCT.C135_exact",
    "RCT.C135_otherwise"
   ],
   "note": "full claim proved for the model"
  },
  {
   "property": "C136",
   "status": "proved",
   "theorems": [
    "RCT.C136_exact",
    "RCT.C136_failure",
    "RCT.C136_count"
   ],
   "note": "full claim proved for the model"
  },
  {
   "property": "C137",
   "status": "partial",
   "theorems": [
    "RCT.C137_partial",
    "RCT.C137_pose",
    "RCT.C137_negation",
    "RCT.C137_document_negation",
    "RCT.C137_sequence"
   ],
   "note": "Proved: [C137_partial] If the document is accepted, all entries are maps with a complete pose, and the joint values that are listed are numbers. Full claim false for the code: [C137_negation] An entry with a complete pose and no joints at all is accepted as a measurement without joint values. [C137_document_negation] A document that consists of a single word is accepted as an empty set of measurements."
  },
  {
   "property": "C138",
   "status": "partial",
   "theorems": [
    "RCT.C138_partial",
    "RCT.C138_negation"
   ],
   "note": "Proved: [C138_partial] The poses with quaternions of unit length, and those without vector part, are rigid motions, and no others. Full claim false for the code: [C138_negation] A complete entry with a quaternion of another length and with a vector part is accepted and gives a transform that is not rigid."
  },
  {
   "property": "C139",
   "status": "proved",
   "theorems": [
    "RCT.C139_stats",
    "RCT.C139_zero",
    "RCT.C139_joints"
   ],
   "note": "full claim proved for the model"
  },
  {
   "property": "C140",
   "status": "proved",
   "theorems": [
    "RCT.C140_percent"
   ],
   "note": "full claim proved for the model"
  },
  {
   "property": "C141",
   "status": "partial",
   "theorems": [
    "RCT.C141_partial",
    "RCT.C141_range",
    "RCT.C141_negation"
   ],
   "note": "Proved: [C141_partial] The statistics are those of the PnP estimates of the observations of the images, in order; without a PnP estimate there are no statistics. Full claim false for the code: [C141_negation] The analysis reports the same numbers if no optimization converges."
  },
  {
   "property": "C142",
   "status": "partial",
   "theorems": [
    "RCT.C142_partial",
    "RCT.C142_order",
    "RCT.C142_negation",
    "RCT.C142_empty_negation"
   ],
   "note": "Proved: [C142_partial] With two errors or more the four numbers are mean, sample standard deviation, minimum and maximum of the errors. Full claim false for the code: [C142_negation] A single error gives no number for the standard deviation. [C142_empty_negation] Without features the smallest element of an empty array is read."
  },
  {
   "property": "C143",
   "status": "partial",
   "theorems": [
    "RCT.C143_partial",
    "RCT.C143_negation"
   ],
   "note": "Proved: [C143_partial] If the rotation between prediction and measurement leaves the predicted position fixed (in particular if there is no rotation), the position residuals are the components of the difference of the positions, and in no other case. Full claim false for the code: [C143_negation] For every predicted pose away from the origin there is a measurement that agrees with the predicted position and has position residuals."
  },
  {
   "property": "C144",
   "status": "partial",
   "theorems": [
    "RCT.C144_partial",
    "RCT.C144_negation"
   ],
   "note": "Proved: [C144_partial] The printed number is proportional to the root mean square distance, hence zero exactly if that is zero. Full claim false for the code: [C144_negation] Whenever the fit is not perfect the printed number is wrong."
  },
  {
   "property": "C145",
   "status": "proved",
   "theorems": [
    "RCT.C145_printed",
    "RCT.C145_distinct"
   ],
   "note": "full claim proved for the model"
  },
  {
   "property": "C146",
   "status": "proved",
   "theorems": [
    "RCT.C146_diff",
    "RCT.C146_zero"
   ],
   "note": "full claim proved for the model"
  },
  {
   "property": "C147",
   "status": "partial",
   "theorems": [
    "RCT.C147_partial",
    "RCT.C147_negation",
    "RCT.C147_exchanged"
   ],
   "note": "Proved: [C147_partial] The first nine entries carry the names under which the result reports the values of the nine elements of the block of the intrinsic parameters. Full claim false for the code: [C147_negation] Every entry of a pose carries the name of another component of this pose."
  },
  {
   "property": "C148",
   "status": "proved",
   "theorems": [
    "RCT.C148_unique",
    "RCT.C148_two_points"
   ],
   "note": "full claim proved for the model"
  },
  {
   "property": "C149",
   "status": "proved",
   "theorems": [
    "RCT.C149_unique"
   ],
   "note": "full claim proved for the model"
  },
  {
   "property": "C150",
   "status": "partial",
   "theorems": [
    "RCT.C150_partial",
    "RCT.C150_negation"
   ],
   "note": "Proved: [C150_partial] **Full statement of C150:** with perfect images of four points of a planar target, no three on one line, taken from outside its plane, the final cost is zero exactly if the true pose is reported. Proved for reported poses with all features in front of the camera; without that it is wrong (`C150_negation`). Full claim false for the code: [C150_negation] Perfect images of a square, one unit in front of the camera. Whatever pose behind the camera is guessed at the same lateral position, a run that keeps the guess reports it with final cost zero."
  },
  {
   "property": "C151",
   "status": "partial",
   "theorems": [
    "RCT.C151_negation",
    "RCT.C151_negation_run",
    "RCT.C151_partial"
   ],
   "note": "Proved: [C151_partial] **Full statement of C151:** if one of the cameras has a perfect image of four points of a planar target, no three on one line, from outside its plane, the final cost of perfect images is zero exactly if the true pose is reported. Proved for reported poses with all features in front of their cameras; without that it is wrong (`C151_negation`, `C151_negation_run`). Full claim false for the code: [C151_negation] For one camera there is, for every pose of a planar target, another pose with the same images. [C151_negation_run] Such a run: the true pose is in front of the camera, the reported one behind it."
  },
  {
   "property": "C152",
   "status": "proved",
   "theorems": [
    "RCT.C152_unique_3d",
    "RCT.C152_unique"
   ],
   "note": "full claim proved for the model"
  },
  {
   "property": "C153",
   "status": "proved",
   "theorems": [
    "RCT.C153_flat",
    "RCT.C153_flat_3d",
    "RCT.C153_run",
    "RCT.C153_run_3d"
   ],
   "note": "full claim proved for the model"
  },
  {
   "property": "C154",
   "status": "proved",
   "theorems": [
    "RCT.C154_gauge",
    "RCT.C154_relative",
    "RCT.C154_fixed",
    "RCT.C154_run"
   ],
   "note": "full claim proved for the model"
  },
  {
   "property": "C155",
   "status": "proved",
   "theorems": [
    "RCT.C155_camera_mount",
    "RCT.C155_target_mount",
    "RCT.C155_target_base",
    "RCT.C155_camera_base"
   ],
   "note": "full claim proved for the model"
  },
  {
   "property": "C156",
   "status": "partial",
   "theorems": [
    "RCT.C156_hand_eye",
    "RCT.C156_hand_eye_3d",
    "RCT.C156_multi_static",
    "RCT.C156_camera_only",
    "RCT.C156_camera_only_fixed",
    "RCT.C156_wrist_only",
    "RCT.C156_multi_camera_pnp",
    "RCT.C156_intrinsics",
    "RCT.C156_circle",
    "RCT.C156_pnp",
    "RCT.C156_pnp_3d",
    "RCT.C156_kinematic",
    "RCT.C156_kinematic_6d_partial",
    "RCT.C156_prior",
    "RCT.C156_negation"
   ],
   "note": "Proved: [C156_kinematic_6d_partial] Missing: perfect alignment (see `C156_negation`), orientations that differ by half a turn and those at which the conversion to a quaternion switches its formula. Full claim false for the code: [C156_negation] In every calibration from poses, at parameters that reproduce the measured pose: the solver is told, whatever the direction, that the orientation residual does not change. If the target chain has one revolute joint, then turning that joint by `u` changes the residual to `w |u|`."
  },
  {
   "property": "C157",
   "status": "partial",
   "theorems": [
    "RCT.C157_partial",
    "RCT.C157_negation",
    "RCT.C157_negation_run",
    "RCT.C157_negation_run_3d"
   ],
   "note": "Proved: [C157_partial] Missing: guesses without rotation. Full claim false for the code: [C157_negation] At a guess without rotation no derivative of any residual is finite, in no direction. [C157_negation_run] A run from a guess without rotation fails and reports the guess, whatever the data."
  },
  {
   "property": "C158",
   "status": "partial",
   "theorems": [
    "RCT.C158_negation",
    "RCT.C158_negation_6d",
    "RCT.C158_partial"
   ],
   "note": "Proved: [C158_partial] Once the orientation is away from identity it can be corrected: turning it further about its own axis moves every point at the velocity of that rotation. Missing: orientations guessed as identity. Full claim false for the code: [C158_negation] Mounts and base guessed without rotation are reported without rotation, whatever the data."
  },
  {
   "property": "C159",
   "status": "proved",
   "theorems": [
    "RCT.C159_finite",
    "RCT.C159_finite_intrinsics",
    "RCT.C159_finite_kinematic",
    "RCT.C159_turn"
   ],
   "note": "full claim proved for the model"
  },
  {
   "property": "C160",
   "status": "partial",
   "theorems": [
    "RCT.C160_negation",
    "RCT.C160_partial"
   ],
   "note": "Proved: [C160_partial] From a positive radius the residual of every point falls or rises with the radius. Missing: radius zero. Full claim false for the code: [C160_negation] From radius zero the reported radius is zero, whatever the points."
  },
  {
   "property": "C161",
   "status": "partial",
   "theorems": [
    "RCT.C161_monotone",
    "RCT.C161_partial",
    "RCT.C161_small",
    "RCT.C161_negation"
   ],
   "note": "Proved: [C161_partial] Exactly which differences are kept. Missing: two different values of at least 255. Full claim false for the code: [C161_negation] An image in which all values are at least 255 (of 65535) becomes uniformly white, whatever it shows."
  },
  {
   "property": "C162",
   "status": "proved",
   "theorems": [
    "RCT.C162_collects",
    "RCT.C162_returns",
    "RCT.C162_guesses",
    "RCT.C162_main",
    "RCT.C162_target",
    "RCT.C162_same_as_tool"
   ],
   "note": "full claim proved for the model"
  },
  {
   "property": "C163",
   "status": "proved",
   "theorems": [
    "RCT.C163_pose",
    "RCT.C163_matrix",
    "RCT.C163_exact",
    "RCT.C163_guess",
    "RCT.C163_starts",
    "RCT.C163_main",
    "RCT.C163_failure"
   ],
   "note": "full claim proved for the model"
  },
  {
   "property": "C164",
   "status": "partial",
   "theorems": [
    "RCT.C164_guess",
    "RCT.C164_first_run",
    "RCT.C164_second_run",
    "RCT.C164_statistics",
    "RCT.C164_partial",
    "RCT.C164_negation",
    "RCT.C164_negation_empty",
    "RCT.C164_placeholder"
   ],
   "note": "Proved: [C164_partial] The example completes both runs and comparisons if the covariance can be computed. Missing: measurements with joints of the camera, no measurements. Full claim false for the code: [C164_negation] A measurement with joints of the camera, which the file format provides for, or with more than two joints of the target: the example does not complete. [C164_negation_empty] Without measurements the process is aborted inside the solver library."
  },
  {
   "property": "C165",
   "status": "partial",
   "theorems": [
    "RCT.C165_partial",
    "RCT.C165_second_run",
    "RCT.C165_optimum",
    "RCT.C165_negation",
    "RCT.C165_cost",
    "RCT.C165_best"
   ],
   "note": "Proved: [C165_partial] First run, exact measurements of any true offset: if the statistics report no errors, length and twist of the first link are the true ones, up to the common change of sign that corresponds to a half turn of the first joint. Missing: the other two offsets of the joint, see `C165_negation`. Full claim false for the code: [C165_negation] Full claim false: whatever the true offset along or about the axis of the first joint is, no best calibration reports it unless it is zero; there is no disagreement with the measurements by which it could be noticed."
  },
  {
   "property": "C166",
   "status": "proved",
   "theorems": [
    "RCT.C166_wrist",
    "RCT.C166_static"
   ],
   "note": "full claim proved for the model"
  },
  {
   "property": "C167",
   "status": "proved",
   "theorems": [
    "RCT.C167_printed"
   ],
   "note": "full claim proved for the model"
  },
  {
   "property": "C168",
   "status": "partial",
   "theorems": [
    "RCT.C168_complete_partial",
    "RCT.C168_separate_partial",
    "RCT.C168_negation"
   ],
   "note": "Proved: [C168_complete_partial] Full statement of C168: whatever numbers are given, all printed dots are complete and separate. The dots are complete exactly if their size is at most two inches, and the large dot, if it is the end of a row or column, at most one inch larger than the grid. Missing: other sizes (`C168_negation`). [C168_separate_partial] They are separate exactly if the spacing is more than one and a half dots. Missing from the full statement: smaller spacings. Full claim false for the code: [C168_negation] Numbers that give incomplete or merged dots are accepted."
  },
  {
   "property": "C169",
   "status": "partial",
   "theorems": [
    "RCT.C169_partial",
    "RCT.C169_negation"
   ],
   "note": "Proved: [C169_partial] Full statement of C169: the printed checkerboard has as many crossings in either direction as requested, `s` millimetres apart. It has crossings `s` millimetres apart, starting one field inside the margin of half an inch. Missing: their number is one less in both directions (`C169_negation`). Full claim false for the code: [C169_negation] No checkerboard has the requested number of crossings: a row and a column are missing."
  },
  {
   "property": "C170",
   "status": "partial",
   "theorems": [
    "RCT.C170_partial",
    "RCT.C170_negation"
   ],
   "note": "Proved: [C170_partial] Full statement of C170: dots are white on black if the word after `--invert` says \"true\", and black on white otherwise; the checkerboard is inverted likewise; the spacing can be given separately for both directions. They are white on black exactly if there is a word and it is not empty. Missing: words that say \"false\", checkerboards and separate spacings (`C170_negation`). Full claim false for the code: [C170_negation] `--invert False` (or `no`, `0`, \u2026) inverts; a checkerboard is never inverted; separate spacings fail."
  },
  {
   "property": "C171",
   "status": "proved",
   "theorems": [
    "RCT.C171_pose",
    "RCT.C171_roundtrip",
    "RCT.C171_roundtrip_inverse"
   ],
   "note": "full claim proved for the model"
  },
  {
   "property": "C172",
   "status": "proved",
   "theorems": [
    "RCT.C172_perfect_3d",
    "RCT.C172_perfect_2d"
   ],
   "note": "full claim proved for the model"
  },
  {
   "property": "C173",
   "status": "proved",
   "theorems": [
    "RCT.C173_hand_eye_3d",
    "RCT.C173_hand_eye_2d",
    "RCT.C173_multi_camera_pnp",
    "RCT.C173_multi_static",
    "RCT.C173_camera_only",
    "RCT.C173_first_camera",
    "RCT.C173_wrist_only",
    "RCT.C173_kinematic"
   ],
   "note": "full claim proved for the model"
  },
  {
   "property": "C174",
   "status": "proved",
   "theorems": [
    "RCT.C174_hand_eye_3d",
    "RCT.C174_hand_eye_2d"
   ],
   "note": "full claim proved for the model"
  },
  {
   "property": "C175",
   "status": "proved",
   "theorems": [
    "RCT.C175_poses",
    "RCT.C175_pixels",
    "RCT.C175_zero"
   ],
   "note": "full claim proved for the model"
  },
  {
   "property": "C176",
   "status": "partial",
   "theorems": [
    "RCT.C176_negation",
    "RCT.C176_negation_pixels",
    "RCT.C176_negation_run",
    "RCT.C176_negation_pixels_run",
    "RCT.C176_partial",
    "RCT.C176_partial_pixels"
   ],
   "note": "Proved: [C176_partial] For a robot without offsets the true calibration has no cost, so that no calibration is better. Missing: robots with offsets. [C176_partial_pixels] The same for exact images. Missing: robots with offsets. Full claim false for the code: [C176_negation] Exact measurements of a robot with any offsets: the true calibration costs more than one with all offsets reduced by the same factor and the same transforms. Masked offsets stay zero. [C176_negation_pixels] The same for exact images with all points in front of the camera. [C176_negation_run] If a run for measured poses reports a calibration with offsets that predicts all of them exactly, another run reports all offsets reduced by the same factor, the same transforms, and a smaller final cost. [C176_negation_pixels_run] The same for pixels."
  },
  {
   "property": "C177",
   "status": "proved",
   "theorems": [
    "RCT.C177_unique"
   ],
   "note": "full claim proved for the model"
  },
  {
   "property": "C178",
   "status": "proved",
   "theorems": [
    "RCT.C178_unique"
   ],
   "note": "full claim proved for the model"
  },
  {
   "property": "C179",
   "status": "proved",
   "theorems": [
    "RCT.C179_multi",
    "RCT.C179_wrist_only"
   ],
   "note": "full claim proved for the model"
  },
  {
   "property": "C180",
   "status": "partial",
   "theorems": [
    "RCT.C180_partial",
    "RCT.C180_partial_pnp",
    "RCT.C180_negation"
   ],
   "note": "Proved: [C180_partial] The multi step tool: if the same records are readable for all cameras, every observation it collects, a wrist pose and the correspondences of all cameras, belongs to one moment. Each moment is used at most once and in order, and a moment is used exactly if the target is found in the images of all cameras. Missing: data in which a record is unreadable for some cameras only (`C180_negation`). [C180_partial_pnp] The PnP tool for several cameras: the same, and the image it draws on is the one of the same moment. Missing: data in which a record is unreadable for some cameras only. Full claim false for the code: [C180_negation] If a record is readable for the first camera but not for another one, although for all cameras the same number of records is readable, the multi step tool ends normally and combines different moments: provided the target is found in all images, and no two records of the first camera have the same pose and no two of the other camera the same correspondences, one of the observations it collects belongs to no moment."
  },
  {
   "property": "C181",
   "status": "proved",
   "theorems": [
    "RCT.C181_unique",
    "RCT.C181_three",
    "RCT.C181_two"
   ],
   "note": "full claim proved for the model"
  },
  {
   "property": "C182",
   "status": "proved",
   "theorems": [
    "RCT.C182_open",
    "RCT.C182_parallel"
   ],
   "note": "full claim proved for the model"
  },
  {
   "property": "C183",
   "status": "proved",
   "theorems": [
    "RCT.C183_wrist",
    "RCT.C183_static",
    "RCT.C183_accepted"
   ],
   "note": "full claim proved for the model"
  },
  {
   "property": "C184",
   "status": "partial",
   "theorems": [
    "RCT.C184_wrist_partial",
    "RCT.C184_static_partial",
    "RCT.C184_wrist_negation",
    "RCT.C184_static_negation",
    "RCT.C184_empty_list",
    "RCT.C184_wrist_none",
    "RCT.C184_static_none"
   ],
   "note": "Proved: [C184_wrist_partial] The wrist tool ends with an exit code if reading `target_finder` raises no exception of XmlRpc. Missing: parameters `target_finder` that do. [C184_static_partial] The same for the static camera tool. Missing: parameters `target_finder` that raise exceptions of XmlRpc. Full claim false for the code: [C184_wrist_negation] If threshold, intrinsic parameters and data set can be loaded, a parameter `target_finder` of the wrong shape ends the process of the wrist tool. [C184_static_negation] The same for the static camera tool, which loads the finder before the intrinsic parameters."
  },
  {
   "property": "C185",
   "status": "proved",
   "theorems": [
    "RCT.C185_wrist",
    "RCT.C185_static"
   ],
   "note": "full claim proved for the model"
  },
  {
   "property": "C186",
   "status": "proved",
   "theorems": [
    "RCT.C186_multi_static",
    "RCT.C186_multi_step",
    "RCT.C186_multi_pnp"
   ],
   "note": "full claim proved for the model"
  },
  {
   "property": "C187",
   "status": "partial",
   "theorems": [
    "RCT.C187_multi_static_partial",
    "RCT.C187_multi_static_negation",
    "RCT.C187_multi_step"
   ],
   "note": "Proved: [C187_multi_static_partial] Full C187: for every image the tools for several cameras show the image of the first of the cameras compared, with all features drawn where this camera sees them according to the calibration and according to PnP, and the transform they print as that from camera 0 to the target is the pose of the target in the frame of camera 0. The tool for several static cameras: exactly the images that two or more cameras saw are shown; the claim holds for those that camera 0 saw. Missing: images not seen by camera 0, see `C187_multi_static_negation`. Full claim false for the code: [C187_multi_static_negation] If camera 0 did not see the target, the transform printed as that from camera 0 to the target is the pose of the target in the frame of another camera `a`; it is wrong whenever these cameras are not at the same place."
  },
  {
   "property": "C188",
   "status": "partial",
   "theorems": [
    "RCT.C188_multi_static_partial",
    "RCT.C188_multi_step_partial",
    "RCT.C188_multi_pnp_partial",
    "RCT.C188_zero_negation",
    "RCT.C188_unreadable_negation",
    "RCT.C188_blind_negation",
    "RCT.C188_finder_negation",
    "RCT.C188_multi_step_negation",
    "RCT.C188_multi_pnp_negation"
   ],
   "note": "Proved: [C188_multi_static_partial] The tool for several static cameras ends with an exit code if there is at least one camera, all data sets can be read and have `k` images, and every camera found features in some image. Missing: all other cases, see `C188_zero_negation`, `C188_unreadable_negation`, `C188_blind_negation`, `C188_finder_negation` and C80. [C188_multi_step_partial] The multi step tool ends with an exit code if there is at least one camera and all data sets have `k` images. Missing: all other cases, see `C188_zero_negation`, `C188_finder_negation` and C80; and the exit code -1 if no image was seen by all cameras, see `C188_multi_step_negation`. [C188_multi_pnp_partial] The PnP tool for several cameras ends with an exit code if there is at least one camera and all data sets have `k` images. Missing: all other cases, see `C188_zero_negation`, `C188_finder_negation` and C80; and the exit code -1 if no image was seen by all cameras, see `C188_multi_pnp_negation`. Full claim false for the code: [C188_zero_negation] If the number of cameras is zero and the other parameters are right, all three tools access memory that does not exist. [C188_unreadable_negation] If the data set of camera `c` cannot be read and the parameters of the cameras before it are right, the tool for several static cameras uses a value that does not exist. [C188_blind_negation] If some camera found no features in any image, the tool for several static cameras ends the process although everything could be loaded. [C188_finder_negation] If the parameters of the cameras are right, a parameter `target_finder` of the wrong shape ends the process of all three tools. [C188_multi_step_negation] If no image was seen by all cameras, the multi step tool ends with success. It prints the base frame as pose of every camera, not even the guesses, for both steps; it prints no error and shows nothing. [C188_multi_pnp_negation] If no image was seen by all cameras, the PnP tool for several cameras ends with success and shows nothing."
  },
  {
   "property": "C189",
   "status": "proved",
   "theorems": [
    "RCT.C189_multi_static",
    "RCT.C189_first_step",
    "RCT.C189_second_step"
   ],
   "note": "full claim proved for the model"
  },
  {
   "property": "C190",
   "status": "partial",
   "theorems": [
    "RCT.C190_intrinsic",
    "RCT.C190_validation",
    "RCT.C190_noise_partial",
    "RCT.C190_noise_negation",
    "RCT.C190_pnp"
   ],
   "note": "Proved: [C190_noise_partial] **Full statement for the noise tool:** the printed statistics are those of the poses fitted to the listed images in which the target is found. Proved if all listed files hold the same image. Missing: different images (`C190_noise_negation`). Full claim false for the code: [C190_noise_negation] The tool reads only the first listed image. Whatever the other images show, it prints the position fitted to the first one as mean and zero as standard deviation, for any number of images; or no mean but still zero as standard deviation, if nothing is fitted."
  },
  {
   "property": "C191",
   "status": "partial",
   "theorems": [
    "RCT.C191_pnp_partial",
    "RCT.C191_noise_partial",
    "RCT.C191_validation_partial",
    "RCT.C191_intrinsic_partial",
    "RCT.C191_intrinsic_negation_finder",
    "RCT.C191_validation_negation_finder",
    "RCT.C191_noise_negation_finder",
    "RCT.C191_pnp_negation_finder",
    "RCT.C191_pnp_negation_features",
    "RCT.C191_intrinsic_negation_empty",
    "RCT.C191_intrinsic_negation_pnp",
    "RCT.C191_validation_negation_unusable"
   ],
   "note": "Proved: [C191_pnp_partial] The PnP tool ends with an exit code. Missing: parameters `target_finder` that raise exceptions of XmlRpc, finders that make no correspondences. [C191_noise_partial] The noise tool ends with an exit code. Missing: parameters `target_finder` that raise exceptions of XmlRpc, finders that make no correspondences. [C191_validation_partial] The validation tool ends with an exit code. Missing: parameters `target_finder` that raise exceptions of XmlRpc, finders that make fewer than two correspondences, data sets without a usable image. [C191_intrinsic_partial] The intrinsic calibration tool ends with an exit code. Missing: parameters `target_finder` that raise exceptions of XmlRpc, finders that make no correspondences, empty data sets, images for which PnP does not converge. Full claim false for the code: [C191_intrinsic_negation_finder] A parameter `target_finder` of the wrong shape ends the process of the intrinsic calibration tool. [C191_validation_negation_finder] The same for the validation tool. [C191_noise_negation_finder] The same for the noise tool. [C191_pnp_negation_finder] The same for the PnP tool. [C191_pnp_negation_features] If the target is found in the image but no correspondences are made of its features, the process of the PnP tool ends. [C191_intrinsic_negation_empty] An empty data set lets the intrinsic calibration tool read an image that does not exist. [C191_intrinsic_negation_pnp] One image for which PnP does not converge ends the process of the intrinsic calibration tool, whatever the other images show. [C191_validation_negation_unusable] A data set in which the target is never found lets the validation tool read an observation that does not exist."
  },
  {
   "property": "C192",
   "status": "proved",
   "theorems": [
    "RCT.C192_intrinsic",
    "RCT.C192_pnp"
   ],
   "note": "full claim proved for the model"
  },
  {
   "property": "C193",
   "status": "partial",
   "theorems": [
    "RCT.C193_partial",
    "RCT.C193_negation"
   ],
   "note": "Proved: [C193_partial] All images in which the target is found are perfect images of it, taken with the intrinsic parameters that are validated. If every fit the solver returns has error zero and all features in front of the camera, the verdict is \"valid\". Missing: that wrong parameters are not called valid. Full claim false for the code: [C193_negation] Wrong parameters are called valid: the images are perfect images of a target parallel to the image, taken with focal length `f`, and the validation of focal length 1 ends with the verdict \"valid\"."
  },
  {
   "property": "C194",
   "status": "proved",
   "theorems": [
    "RCT.C194_axis_3d",
    "RCT.C194_line_3d",
    "RCT.C194_axis",
    "RCT.C194_line"
   ],
   "note": "full claim proved for the model"
  },
  {
   "property": "C195",
   "status": "proved",
   "theorems": [
    "RCT.C195_axis",
    "RCT.C195_camera",
    "RCT.C195_line"
   ],
   "note": "full claim proved for the model"
  },
  {
   "property": "C196",
   "status": "proved",
   "theorems": [
    "RCT.C196_3d",
    "RCT.C196_2d"
   ],
   "note": "full claim proved for the model"
  },
  {
   "property": "C197",
   "status": "proved",
   "theorems": [
    "RCT.C197_line"
   ],
   "note": "full claim proved for the model"
  },
  {
   "property": "C198",
   "status": "proved",
   "theorems": [
    "RCT.C198_circle",
    "RCT.C198_regular"
   ],
   "note": "full claim proved for the model"
  },
  {
   "property": "C199",
   "status": "proved",
   "theorems": [
    "RCT.C199_full_3d",
    "RCT.C199_iff_3d",
    "RCT.C199_full_2d",
    "RCT.C199_axes"
   ],
   "note": "full claim proved for the model"
  },
  {
   "property": "C200",
   "status": "proved",
   "theorems": [
    "RCT.C200_full_3d",
    "RCT.C200_full_2d"
   ],
   "note": "full claim proved for the model"
  },
  {
   "property": "C201",
   "status": "proved",
   "theorems": [
    "RCT.C201_full",
    "RCT.C201_iff"
   ],
   "note": "full claim proved for the model"
  },
  {
   "property": "C202",
   "status": "proved",
   "theorems": [
    "RCT.C202_relative",
    "RCT.C202_fixed",
    "RCT.C202_open",
    "RCT.C202_iff"
   ],
   "note": "full claim proved for the model"
  },
  {
   "property": "C203",
   "status": "proved",
   "theorems": [
    "RCT.C203_pnp",
    "RCT.C203_pnp_turn",
    "RCT.C203_pnp_best",
    "RCT.C203_pnp_from_truth",
    "RCT.C203_hand_eye",
    "RCT.C203_hand_eye_turn",
    "RCT.C203_hand_eye_best"
   ],
   "note": "full claim proved for the model"
  },
  {
   "property": "C204",
   "status": "proved",
   "theorems": [
    "RCT.C204_turn",
    "RCT.C204_target_turn",
    "RCT.C204_position"
   ],
   "note": "full claim proved for the model"
  },
  {
   "property": "C205",
   "status": "proved",
   "theorems": [
    "RCT.C205_singular",
    "RCT.C205_other"
   ],
   "note": "full claim proved for the model"
  },
  {
   "property": "C206",
   "status": "proved",
   "theorems": [
    "RCT.C206_pnp",
    "RCT.C206_pnp_best",
    "RCT.C206_pnp_from_truth",
    "RCT.C206_tool"
   ],
   "note": "full claim proved for the model"
  },
  {
   "property": "C207",
   "status": "proved",
   "theorems": [
    "RCT.C207_hand_eye",
    "RCT.C207_hand_eye_best",
    "RCT.C207_wrist",
    "RCT.C207_static"
   ],
   "note": "full claim proved for the model"
  },
  {
   "property": "C208",
   "status": "proved",
   "theorems": [
    "RCT.C208_parameters",
    "RCT.C208_parameters_exact",
    "RCT.C208_file",
    "RCT.C208_file_exact",
    "RCT.C208_data_sets"
   ],
   "note": "full claim proved for the model"
  },
  {
   "property": "C209",
   "status": "proved",
   "theorems": [
    "RCT.C209_stored",
    "RCT.C209_turns"
   ],
   "note": "full claim proved for the model"
  },
  {
   "property": "C210",
   "status": "proved",
   "theorems": [
    "RCT.C210_run",
    "RCT.C210_disk",
    "RCT.C210_exit",
    "RCT.C210_crash"
   ],
   "note": "full claim proved for the model"
  },
  {
   "property": "C211",
   "status": "proved",
   "theorems": [
    "RCT.C211_multi",
    "RCT.C211_wrist_only",
    "RCT.C211_camera_only",
    "RCT.C211_camera_only_fixed",
    "RCT.C211_pnp",
    "RCT.C211_wrist_only_any",
    "RCT.C211_second_step",
    "RCT.C211_first_step",
    "RCT.C211_pnp_tool",
    "RCT.C211_tool"
   ],
   "note": "full claim proved for the model"
  },
  {
   "property": "C212",
   "status": "proved",
   "theorems": [
    "RCT.C212_bound",
    "RCT.C212_best",
    "RCT.C212_from_truth"
   ],
   "note": "full claim proved for the model"
  },
  {
   "property": "C213",
   "status": "proved",
   "theorems": [
    "RCT.C213_none",
    "RCT.C213_camera",
    "RCT.C213_tool",
    "RCT.C213_circle"
   ],
   "note": "full claim proved for the model"
  },
  {
   "property": "C214",
   "status": "proved",
   "theorems": [
    "RCT.C214_scale",
    "RCT.C214_camera",
    "RCT.C214_tool",
    "RCT.C214_parallel",
    "RCT.C214_tangential"
   ],
   "note": "full claim proved for the model"
  },
  {
   "property": "C215",
   "status": "proved",
   "theorems": [
    "RCT.C215_initial",
    "RCT.C215_mean"
   ],
   "note": "full claim proved for the model"
  },
  {
   "property": "C216",
   "status": "proved",
   "theorems": [
    "RCT.C216_camera",
    "RCT.C216_poses",
    "RCT.C216_best",
    "RCT.C216_tool"
   ],
   "note": "full claim proved for the model"
  },
  {
   "property": "C217",
   "status": "proved",
   "theorems": [
    "RCT.C217_aruco",
    "RCT.C217_charuco",
    "RCT.C217_aruco_any_order",
    "RCT.C217_charuco_any_order"
   ],
   "note": "full claim proved for the model"
  },
  {
   "property": "C218",
   "status": "proved",
   "theorems": [
    "RCT.C218_once",
    "RCT.C218_all",
    "RCT.C218_order"
   ],
   "note": "full claim proved for the model"
  },
  {
   "property": "C219",
   "status": "proved",
   "theorems": [
    "RCT.C219_circles",
    "RCT.C219_labels",
    "RCT.C219_none",
    "RCT.C219_foreign"
   ],
   "note": "full claim proved for the model"
  },
  {
   "property": "C220",
   "status": "partial",
   "theorems": [
    "RCT.C220_partial",
    "RCT.C220_usage",
    "RCT.C220_not_found",
    "RCT.C220_negation"
   ],
   "note": "Proved: [C220_partial] With two numbers of at least two (and fewer than 2^31 circles), in an image whose contours have their centres inside, the program ends normally: it shows rows \u00d7 columns features, the large circle labelled as the origin, exactly if the target is found. Missing: arguments that are not numbers, and targets with a single row or column. Full claim false for the code: [C220_negation] The full claim fails: an argument for the number of rows that is no number terminates the program by an uncaught exception."
  },
  {
   "property": "C221",
   "status": "proved",
   "theorems": [
    "RCT.C221_poses",
    "RCT.C221_masked",
    "RCT.C221_pixels",
    "RCT.C221_camera_rests",
    "RCT.C221_target_rests"
   ],
   "note": "full claim proved for the model"
  },
  {
   "property": "C222",
   "status": "proved",
   "theorems": [
    "RCT.C222_poses",
    "RCT.C222_poses_best",
    "RCT.C222_poses_from_truth",
    "RCT.C222_masked",
    "RCT.C222_pixels",
    "RCT.C222_pixels_best",
    "RCT.C222_pixels_from_truth"
   ],
   "note": "full claim proved for the model"
  },
  {
   "property": "C223",
   "status": "proved",
   "theorems": [
    "RCT.C223_values",
    "RCT.C223_problems",
    "RCT.C223_joint",
    "RCT.C223_chain"
   ],
   "note": "full claim proved for the model"
  },
  {
   "property": "C224",
   "status": "proved",
   "theorems": [
    "RCT.C224_pnp",
    "RCT.C224_pnp_3d",
    "RCT.C224_circle",
    "RCT.C224_hand_eye_3d",
    "RCT.C224_hand_eye",
    "RCT.C224_static",
    "RCT.C224_wrist_only",
    "RCT.C224_camera_only",
    "RCT.C224_multi_pnp",
    "RCT.C224_kinematic",
    "RCT.C224_kinematic_pose"
   ],
   "note": "full claim proved for the model"
  },
  {
   "property": "C225",
   "status": "partial",
   "theorems": [
    "RCT.C225_hand_eye_3d",
    "RCT.C225_hand_eye_partial",
    "RCT.C225_pnp_3d",
    "RCT.C225_pnp_partial",
    "RCT.C225_negation",
    "RCT.C225_static_partial",
    "RCT.C225_multi_pnp_partial",
    "RCT.C225_circle",
    "RCT.C225_negation_intrinsic",
    "RCT.C225_wrist_only_partial",
    "RCT.C225_camera_only_partial"
   ],
   "note": "Proved: [C225_hand_eye_partial] Hand-eye calibration from pixels. Full statement: for every problem and every result that is possible there is a possible result of the problem in another unit with the same costs and rotations, and with the translations in the new unit. Missing from the full claim: results with a feature in the plane through the optical centre (depth zero), for which the residual depends on the unit, mount poses that the six values do not represent, and results whose camera pose is not rigid. [C225_pnp_partial] PnP from pixels. Full statement: as for hand-eye calibration. Missing from the full claim: guesses and results with features whose depth does not exceed 1e-10 units in both units, for which the image is not that of a pinhole camera and depends on the unit (`C225_negation`). [C225_static_partial] Several static cameras and a target on the wrist. Full statement: as for hand-eye calibration. Missing from the full claim: guesses and results with a feature at depth zero, poses that the six values do not represent, and results whose camera poses are not rigid. [C225_multi_pnp_partial] Multi camera PnP. Full statement: as for hand-eye calibration. Missing from the full claim: guesses and results with a feature at depth zero, and camera poses and guesses that the six values do not represent. [C225_wrist_only_partial] One correction of all cameras. Full statement: as for hand-eye calibration. Missing from the full claim: guesses and results with a feature at depth zero, poses that the six values do not represent, and results whose camera poses are not rigid. [C225_camera_only_partial] Cameras and targets, both free. Full statement: as for hand-eye calibration. Missing from the full claim: guesses and results with a feature at depth zero, poses that the six values do not represent, and results whose camera poses are not rigid. Full claim false for the code: [C225_negation] A feature at depth 1e-11 units: in a unit a thousand times smaller no result has the same initial cost. [C225_negation_intrinsic] A point of the target written in a unit half as large: every image is first placed half a unit in front of the camera, whatever the unit, so no result has the same initial cost."
  },
  {
   "property": "C226",
   "status": "proved",
   "theorems": [
    "RCT.C226_hand_eye",
    "RCT.C226_pnp",
    "RCT.C226_multi_pnp",
    "RCT.C226_static",
    "RCT.C226_wrist_only",
    "RCT.C226_camera_only",
    "RCT.C226_origin",
    "RCT.C226_intrinsic"
   ],
   "note": "full claim proved for the model"
  },
  {
   "property": "C227",
   "status": "partial",
   "theorems": [
    "RCT.C227_hand_eye_3d_partial",
    "RCT.C227_hand_eye_partial",
    "RCT.C227_pnp",
    "RCT.C227_pnp_3d",
    "RCT.C227_multi_pnp_partial",
    "RCT.C227_static_partial",
    "RCT.C227_wrist_only_partial",
    "RCT.C227_camera_only_partial",
    "RCT.C227_negation"
   ],
   "note": "Proved: [C227_hand_eye_3d_partial] Hand-eye calibration from points. Full statement: for every choice of frames, the problem whose poses and points refer to the new frames reaches exactly the results that refer to the new frames and have the same costs. Missing from the full claim: poses that the six values do not represent, before or after the change (`C227_negation`), and results that are not rigid. [C227_hand_eye_partial] Hand-eye calibration from pixels. Full statement: for every choice of frames, the problem whose poses and points refer to the new frames reaches exactly the results that refer to the new frames and have the same costs. Missing from the full claim: poses that the six values do not represent, before or after the change (`C227_negation`), and results that are not rigid. [C227_multi_pnp_partial] Multi camera PnP. Full statement: for every choice of frames, the problem whose poses and points refer to the new frames reaches exactly the results that refer to the new frames and have the same costs. Missing from the full claim: poses that the six values do not represent, before or after the change (`C227_negation`), and results that are not rigid. [C227_static_partial] Several static cameras and a target on the wrist. Full statement: for every choice of frames, the problem whose poses and points refer to the new frames reaches exactly the results that refer to the new frames and have the same costs. Missing from the full claim: poses that the six values do not represent, before or after the change (`C227_negation`), and results that are not rigid. [C227_wrist_only_partial] One correction of all cameras. Full statement: for every choice of frames, the problem whose poses and points refer to the new frames reaches exactly the results that refer to the new frames and have the same costs. Missing from the full claim: poses that the six values do not represent, before or after the change (`C227_negation`), and results that are not rigid. [C227_camera_only_partial] Cameras and targets, both free. Full statement: for every choice of frames, the problem whose poses and points refer to the new frames reaches exactly the results that refer to the new frames and have the same costs. Missing from the full claim: poses that the six values do not represent, before or after the change (`C227_negation`), and results that are not rigid; and calibrations without images, which report the identity for every camera. Full claim false for the code: [C227_negation] A camera and a target in a base rotated by 1e-9 rad: no result has the same initial cost."
  },
  {
   "property": "C228",
   "status": "proved",
   "theorems": [
    "RCT.C228_pnp",
    "RCT.C228_pnp_3d",
    "RCT.C228_circle",
    "RCT.C228_hand_eye_3d",
    "RCT.C228_hand_eye",
    "RCT.C228_static",
    "RCT.C228_wrist_only",
    "RCT.C228_camera_only",
    "RCT.C228_multi_pnp",
    "RCT.C228_intrinsic"
   ],
   "note": "full claim proved for the model"
  },
  {
   "property": "C229",
   "status": "proved",
   "theorems": [
    "RCT.C229_hand_eye",
    "RCT.C229_hand_eye_3d",
    "RCT.C229_multi_pnp",
    "RCT.C229_static",
    "RCT.C229_camera_only",
    "RCT.C229_wrist_only",
    "RCT.C229_same"
   ],
   "note": "full claim proved for the model"
  },
  {
   "property": "C230",
   "status": "proved",
   "theorems": [
    "RCT.C230_pnp",
    "RCT.C230_pnp_3d",
    "RCT.C230_intrinsic",
    "RCT.C230_same"
   ],
   "note": "full claim proved for the model"
  },
  {
   "property": "C231",
   "status": "partial",
   "theorems": [
    "RCT.C231_hand_eye_3d_partial",
    "RCT.C231_twice",
    "RCT.C231_negation",
    "RCT.C231_pnp_3d",
    "RCT.C231_circle"
   ],
   "note": "Proved: [C231_hand_eye_3d_partial] Hand-eye calibration from points: camera and target exchange their roles. Full statement: when camera and target exchange their roles, with their mounts, guesses and points, the calibration reaches exactly the results with exchanged poses and the same costs. Missing from the full claim: poses that the six values do not represent (`C231_negation`), and results that are not rigid. Since exchanging the roles twice gives back the problem (`C231_twice`), one direction is enough. Full claim false for the code: [C231_negation] A target mount rotated by 1e-9 rad: no result has the same initial cost."
  },
  {
   "property": "C232",
   "status": "partial",
   "theorems": [
    "RCT.C232_hand_eye",
    "RCT.C232_hand_eye_3d",
    "RCT.C232_cameras",
    "RCT.C232_intrinsic",
    "RCT.C232_visible",
    "RCT.C232_pnp_3d",
    "RCT.C232_pnp_partial",
    "RCT.C232_negation",
    "RCT.C232_same",
    "RCT.C232_same_more",
    "RCT.C232_same_visible"
   ],
   "note": "Proved: [C232_pnp_partial] PnP from pixels. Full statement: the residuals are numbers if and only if all values are. Missing from the full claim: the depth of the estimated translation, which may be NaN without a trace (`C232_negation`). Full claim false for the code: [C232_negation] With the depth NaN, the residuals of PnP from pixels are numbers whenever the other values are."
  },
  {
   "property": "C233",
   "status": "partial",
   "theorems": [
    "RCT.C233_kinematic_partial",
    "RCT.C233_kinematic_poses_partial",
    "RCT.C233_ignored",
    "RCT.C233_negation",
    "RCT.C233_circle",
    "RCT.C233_prior",
    "RCT.C233_same"
   ],
   "note": "Proved: [C233_kinematic_partial] Kinematic calibration from pixels. Full statement: the residuals are numbers if and only if all values are. Missing from the full claim: the estimated orientations of the mounts, which may be NaN without a trace (`C233_negation`). [C233_kinematic_poses_partial] Kinematic calibration from measured poses, whatever the angular distance is. Full statement: the residuals are numbers if and only if all values are. Missing from the full claim: the estimated orientations of the mounts (`C233_negation`), and the weight of the orientation where the angular distance is NaN. Full claim false for the code: [C233_negation] With all three orientations NaN, the residuals are numbers whenever the other values are."
  },
  {
   "property": "C234",
   "status": "proved",
   "theorems": [
    "RCT.C234_forward_kinematics",
    "RCT.C234_guard",
    "RCT.C234_same"
   ],
   "note": "full claim proved for the model"
  },
  {
   "property": "C235",
   "status": "proved",
   "theorems": [
    "RCT.C235_pixels",
    "RCT.C235_position",
    "RCT.C235_same"
   ],
   "note": "full claim proved for the model"
  },
  {
   "property": "C236",
   "status": "proved",
   "theorems": [
    "RCT.C236_orientation",
    "RCT.C236_same"
   ],
   "note": "full claim proved for the model"
  },
  {
   "property": "C237",
   "status": "proved",
   "theorems": [
    "RCT.C237_circle",
    "RCT.C237_side",
    "RCT.C237_prior",
    "RCT.C237_mean",
    "RCT.C237_same"
   ],
   "note": "full claim proved for the model"
  },
  {
   "property": "C238",
   "status": "proved",
   "theorems": [
    "RCT.C238_multi_pnp",
    "RCT.C238_wrist_only",
    "RCT.C238_camera_only",
    "RCT.C238_static",
    "RCT.C238_intrinsic"
   ],
   "note": "full claim proved for the model"
  },
  {
   "property": "C239",
   "status": "proved",
   "theorems": [
    "RCT.C239_static_to_hand_eye",
    "RCT.C239_hand_eye_to_static",
    "RCT.C239_kinematic",
    "RCT.C239_kinematic_all"
   ],
   "note": "full claim proved for the model"
  },
  {
   "property": "C240",
   "status": "proved",
   "theorems": [
    "RCT.C240_fixed_to_pnp",
    "RCT.C240_pnp_to_fixed",
    "RCT.C240_pnp_to_multi",
    "RCT.C240_multi_to_pnp"
   ],
   "note": "full claim proved for the model"
  },
  {
   "property": "C241",
   "status": "proved",
   "theorems": [
    "RCT.C241_static_to_cameras",
    "RCT.C241_correction_to_static"
   ],
   "note": "full claim proved for the model"
  },
  {
   "property": "C242",
   "status": "proved",
   "theorems": [
    "RCT.C242_pnp_to_hand_eye_3d",
    "RCT.C242_hand_eye_to_pnp_3d",
    "RCT.C242_pnp_to_hand_eye",
    "RCT.C242_hand_eye_to_pnp"
   ],
   "note": "full claim proved for the model"
  },
  {
   "property": "C243",
   "status": "proved",
   "theorems": [
    "RCT.C243_pnp",
    "RCT.C243_pnp_3d",
    "RCT.C243_circle",
    "RCT.C243_multi_pnp",
    "RCT.C243_hand_eye_3d",
    "RCT.C243_hand_eye",
    "RCT.C243_wrist_only",
    "RCT.C243_camera_only",
    "RCT.C243_multi_static"
   ],
   "note": "full claim proved for the model"
  },
  {
   "property": "C244",
   "status": "proved",
   "theorems": [
    "RCT.C244_pnp",
    "RCT.C244_pnp_3d",
    "RCT.C244_multi_pnp",
    "RCT.C244_circle",
    "RCT.C244_hand_eye_3d",
    "RCT.C244_hand_eye",
    "RCT.C244_multi_static",
    "RCT.C244_camera_only",
    "RCT.C244_wrist_only"
   ],
   "note": "full claim proved for the model"
  }
 ]
}