{"id": "C01", "title": "Both image projections agree", "statement": "Projecting the same 3D point with the array-based and with the vector-based projection function gives the same pixel, so costs and validation code that use different overloads talk about the same image.", "quantifier": "for every set of intrinsics and every point in the camera frame", "why_tests_cant": "The input space is a continuum (or an unbounded family of sizes); a unit test fixes finitely many values. The disagreement sits on a half space that example points in front of the camera never reach.", "anchors": ["rct_optimizations/include/rct_optimizations/ceres_math_utilities.h: projectPoint (both overloads)"]}
{"id": "C02", "title": "Projection is the pinhole model", "statement": "For a point with non-zero depth the projected pixel is (fx*x/z+cx, fy*y/z+cy); the pixel depends only on the viewing ray (it is unchanged when the point is scaled by any non-zero factor), and two points with non-zero depth hit the same pixel exactly when they lie on the same line through the optical centre (fx, fy non-zero).", "quantifier": "for all intrinsics, all points with non-zero depth, all non-zero scale factors", "why_tests_cant": "The input space is a continuum (or an unbounded family of sizes); a unit test fixes finitely many values.", "anchors": ["rct_optimizations/include/rct_optimizations/ceres_math_utilities.h: projectPoint"]}
{"id": "C03", "title": "Point transformation agrees with the reported pose", "statement": "Applying a 6-value pose to a point inside a cost function gives exactly the same point as first converting the pose to an isometry and applying that isometry; hence the residuals the solver sees are the residuals of the pose that is reported.", "quantifier": "for every 6-value pose (any angle, including zero and tiny rotations) and every point", "why_tests_cant": "The input space is a continuum (or an unbounded family of sizes); a unit test fixes finitely many values. The switch between the two rotation formulas happens at a threshold tests do not sit on.", "anchors": ["rct_optimizations/include/rct_optimizations/ceres_math_utilities.h: transformPoint, poseTransformPoint", "rct_optimizations/src/rct_optimizations/eigen_conversions.cpp: poseCalToEigen"]}
{"id": "C04", "title": "6-value pose to isometry gives a rigid transform", "statement": "Converting a 6-value pose to an isometry yields a proper rotation (orthonormal, determinant 1) and the pose's translation.", "quantifier": "for every 6-value pose", "why_tests_cant": "The input space is a continuum (or an unbounded family of sizes); a unit test fixes finitely many values. Only poses with a tiny but non-zero rotation violate it.", "anchors": ["rct_optimizations/src/rct_optimizations/eigen_conversions.cpp: poseCalToEigen"]}
{"id": "C05", "title": "Isometry to 6-value pose and back is lossless", "statement": "Converting a rigid transform to the 6-value pose and back gives the same transform, so initial guesses enter the optimisation unchanged and results leave it unchanged.", "quantifier": "for every rigid transform (any rotation, including half turns)", "why_tests_cant": "The input space is a continuum (or an unbounded family of sizes); a unit test fixes finitely many values. Matrix-to-angle conversion has four branches and singular cases.", "anchors": ["rct_optimizations/src/rct_optimizations/eigen_conversions.cpp: poseEigenToCal, poseCalToEigen"]}
{"id": "C06", "title": "A DH joint transform is the classical DH matrix", "statement": "The relative transform of a joint equals the textbook Denavit-Hartenberg matrix for (d, theta, r, alpha) with the joint value added to d for a linear and to theta for a revolute joint, and the offsets added to all four; it is always rigid.", "quantifier": "for all DH parameters, offsets, joint types and joint values", "why_tests_cant": "The input space is a continuum (or an unbounded family of sizes); a unit test fixes finitely many values.", "anchors": ["rct_optimizations/include/rct_optimizations/dh_chain.h: DHTransform::createRelativeTransform"]}
{"id": "C07", "title": "Forward kinematics size guard", "statement": "Asking for forward kinematics throws when there are more joint values than joints or than offset rows, and otherwise always returns a transform (never reads out of range).", "quantifier": "for all chains, joint vectors and offset tables of any length", "why_tests_cant": "Lengths are unbounded and the two guards interact.", "anchors": ["rct_optimizations/include/rct_optimizations/dh_chain.h: DHChain::getFK"]}
{"id": "C08", "title": "Forward kinematics composes along the chain", "statement": "With n joint values the result is the base offset followed by the first n joint transforms in order; the pose for the first k joints followed by the remaining joint transforms gives the pose for all joints, and zero joint values give the base offset.", "quantifier": "for all chains of any length, all joint values, all prefixes", "why_tests_cant": "Needs induction over the chain length.", "anchors": ["rct_optimizations/include/rct_optimizations/dh_chain.h: DHChain::getFK"]}
{"id": "C09", "title": "Forward kinematics is a rigid transform", "statement": "If the base offset is rigid then every successful forward kinematics result is rigid (distances and handedness preserved).", "quantifier": "for all chains, joint values and offsets", "why_tests_cant": "Needs induction over chain length and holds over a continuum.", "anchors": ["rct_optimizations/include/rct_optimizations/dh_chain.h: DHChain::getFK"]}
{"id": "C10", "title": "Revolute joints are periodic, linear joints translate", "statement": "Adding any whole number of turns to a revolute joint's value leaves forward kinematics unchanged; increasing a linear joint's value by s shifts everything after it by s along that joint's z axis.", "quantifier": "for all chains, joints, joint values, integers and displacements", "why_tests_cant": "The input space is a continuum (or an unbounded family of sizes); a unit test fixes finitely many values.", "anchors": ["rct_optimizations/include/rct_optimizations/dh_chain.h: DHChain::getFK"]}
{"id": "C11", "title": "Applying calibrated offsets to the chain matches forward kinematics with offsets", "statement": "Building a new chain from an old chain and an offset table gives a chain whose forward kinematics without offsets equals the old chain's forward kinematics with these offsets, so calibrated offsets can be baked in.", "quantifier": "for all chains, all offset tables with at least one row per joint, all joint vectors", "why_tests_cant": "Needs induction over chain length.", "anchors": ["rct_optimizations/src/rct_optimizations/dh_chain.cpp: DHChain(const DHChain&, offsets)", "rct_optimizations/include/rct_optimizations/dh_chain.h: getFK"]}
{"id": "C12", "title": "Baking offsets into a chain keeps its identity", "statement": "The chain built from an old chain and an offset table has the same number of joints, joint types, base offset, joint names and joint limits, and its DH table is the old table plus the offsets.", "quantifier": "for all chains and offset tables with at least one row per joint", "why_tests_cant": "Unit tests look at forward kinematics only; every joint and attribute must be preserved.", "anchors": ["rct_optimizations/src/rct_optimizations/dh_chain.cpp: DHChain(const DHChain&, offsets), getDHTable, getJointTypes, getParamLabels"]}
{"id": "C13", "title": "Relative transform index guard", "statement": "Requesting the relative transform of a joint throws exactly when the index is negative or not smaller than the number of joints, and otherwise returns that joint's transform.", "quantifier": "for all chains and all integer indices", "why_tests_cant": "All integers, all chain lengths.", "anchors": ["rct_optimizations/src/rct_optimizations/dh_chain.cpp: getRelativeTransform"]}
{"id": "C14", "title": "Random joint values come from the joint's own seed", "statement": "The sequence of random values produced by a joint depends only on that joint's seed and limits, so two joints created with the same seed produce the same first value regardless of what else was sampled before.", "quantifier": "for all histories of sampling calls on all joints in the process", "why_tests_cant": "Depends on the whole call history of the process.", "anchors": ["rct_optimizations/src/rct_optimizations/dh_chain.cpp: DHTransform::createRandomJointValue"]}
{"id": "C15", "title": "Random poses respect joint limits", "statement": "A uniformly random pose has one value per joint and every value lies in that joint's limits whenever the limits are ordered.", "quantifier": "for all chains, all limits and all random streams", "why_tests_cant": "All random streams.", "anchors": ["rct_optimizations/src/rct_optimizations/dh_chain.cpp: createUniformlyRandomPose, createRandomJointValue"]}
{"id": "C16", "title": "DH masks address exactly the chosen parameters", "statement": "The index list made from a boolean joint-by-parameter table contains, without duplicates, exactly the memory positions of the table cells that are true when the offsets are stored column by column; each listed index is within the block and carries the label of its cell.", "quantifier": "for all boolean tables with any number of rows", "why_tests_cant": "Any number of joints; all 2^(4n) masks.", "anchors": ["rct_optimizations/include/rct_optimizations/dh_chain_kinematic_calibration.h: createDHMask, constructParameterLabels"]}
{"id": "C17", "title": "Masked parameters are frozen and only those", "statement": "After applying the masks, in every parameter block named in the mask map an element is held constant exactly when its index is listed; blocks not named stay as they were; a fully listed block becomes constant.", "quantifier": "for all problems (any number of blocks of any size) and all masks with non-negative indices", "why_tests_cant": "Unbounded number of blocks and mask contents, duplicates and order included.", "anchors": ["rct_optimizations/include/rct_optimizations/local_parameterization.h: addSubsetParameterization"]}
{"id": "C18", "title": "Invalid masks are rejected", "statement": "Applying masks throws when a mask names an index outside its block (too large or negative).", "quantifier": "for all problems and all masks over the integers", "why_tests_cant": "All integer index lists; the failing case mixes negative and valid indices.", "anchors": ["rct_optimizations/include/rct_optimizations/local_parameterization.h: addSubsetParameterization"]}
{"id": "C19", "title": "A rejected mask leaves the problem untouched", "statement": "If applying the masks throws, no block of the problem was changed.", "quantifier": "for all problems and masks (every block at which the exception can occur)", "why_tests_cant": "Quantifies over the failure point within the block sequence.", "anchors": ["rct_optimizations/include/rct_optimizations/local_parameterization.h: addSubsetParameterization"]}
{"id": "C20", "title": "Quaternion update stays on the unit sphere", "statement": "The quaternion plus operation maps a unit quaternion and any 3-vector to a unit quaternion, equals the input for a zero update, otherwise turns the old rotation by twice the length of the vector about its direction, and every unit quaternion can be reached.", "quantifier": "for all unit quaternions and all update vectors", "why_tests_cant": "The input space is a continuum (or an unbounded family of sizes); a unit test fixes finitely many values.", "anchors": ["rct_optimizations/include/rct_optimizations/local_parameterization.h: EigenQuaternionPlus"]}
{"id": "C21", "title": "Correlation matrix is symmetric with standard deviations on the diagonal", "statement": "For a symmetric covariance matrix the reported matrix is symmetric and each diagonal entry is the square root of the absolute value of the variance, whatever the other entries are.", "quantifier": "for all square matrices of any size", "why_tests_cant": "The input space is a continuum (or an unbounded family of sizes); a unit test fixes finitely many values. The defect needs a (near) zero variance in a row other than the first.", "anchors": ["rct_optimizations/src/rct_optimizations/covariance_analysis.cpp: computeCorrelationsFromCovariance"]}
{"id": "C22", "title": "Correlation coefficients are bounded by one", "statement": "For a positive semidefinite covariance matrix whose standard deviations are not below the double epsilon, every reported off-diagonal coefficient lies in [-1, 1]; a parameter with zero variance gets coefficient 0 with all others.", "quantifier": "for all positive semidefinite matrices of any size", "why_tests_cant": "The input space is a continuum (or an unbounded family of sizes); a unit test fixes finitely many values.", "anchors": ["rct_optimizations/src/rct_optimizations/covariance_analysis.cpp: computeCorrelationsFromCovariance"]}
{"id": "C23", "title": "Non-square covariance input is rejected", "statement": "Computing correlations throws exactly when the matrix is not square.", "quantifier": "for all matrix shapes", "why_tests_cant": "All shapes.", "anchors": ["rct_optimizations/src/rct_optimizations/covariance_analysis.cpp: computeCorrelationsFromCovariance"]}
{"id": "C24", "title": "Covariance report lists every parameter and pair once with the right names", "statement": "For n parameters the report has n standard deviations, n(n-1)/2 covariances and n(n-1)/2 correlations; the k-th standard deviation carries the k-th name, every unordered pair of distinct parameters appears exactly once with its own two names and its own covariance and correlation value.", "quantifier": "for all n, all matrices, all name lists of length n", "why_tests_cant": "Any n; triangular index arithmetic.", "anchors": ["rct_optimizations/src/rct_optimizations/covariance_analysis.cpp: computeCovarianceResults"]}
{"id": "C25", "title": "Covariance report covers exactly the free parameters", "statement": "The covariance computed for a problem with masks is the sub-matrix of the full covariance for exactly the unmasked elements, in block order, and the label attached to each row is the label of that element.", "quantifier": "for all lists of blocks, sizes, labels and masks", "why_tests_cant": "Unbounded number and sizes of blocks.", "anchors": ["rct_optimizations/src/rct_optimizations/covariance_analysis.cpp: computeCovariance"]}
{"id": "C26", "title": "Covariance argument checks", "statement": "Covariance computation throws instead of returning when the number of label lists differs from the number of blocks, when a block's label count differs from its size, or when the solver reports failure; when it returns, the number of standard deviations equals the number of unmasked elements.", "quantifier": "for all block lists, label maps and solver outcomes", "why_tests_cant": "All argument shapes and solver failures.", "anchors": ["rct_optimizations/src/rct_optimizations/covariance_analysis.cpp: computeCovariance"]}
{"id": "C27", "title": "Threshold query on correlations is complete and ordered", "statement": "The list of correlations outside a threshold contains exactly (with multiplicity) the correlations whose magnitude exceeds it, ordered by decreasing magnitude; raising the threshold never adds entries.", "quantifier": "for all reports and thresholds", "why_tests_cant": "All list contents, lengths and thresholds.", "anchors": ["rct_optimizations/include/rct_optimizations/covariance_types.h: getCorrelationCoeffOutsideThreshold"]}
{"id": "C28", "title": "Hand-eye residual is the reprojection error of the composed transforms", "statement": "The residual of an observation equals the projection of (camera mount to camera)^-1 * (to camera mount)^-1 * (to target mount) * (target mount to target) applied to the target point, minus the observed pixel, for the transforms that are reported.", "quantifier": "for all observations, intrinsics and parameter values of the solver", "why_tests_cant": "The input space is a continuum (or an unbounded family of sizes); a unit test fixes finitely many values.", "anchors": ["rct_optimizations/src/rct_optimizations/extrinsic_hand_eye.cpp: ObservationCost::getTargetPointInCamera, ObservationCost2D3D"]}
{"id": "C29", "title": "Perfect hand-eye data has zero cost at the truth", "statement": "If every observation was generated by the true transforms (all points with non-zero depth) then every residual at the true transforms is zero, so the truth is a global minimiser.", "quantifier": "for all true transforms, mount poses and target points, any number of observations", "why_tests_cant": "The input space is a continuum (or an unbounded family of sizes); a unit test fixes finitely many values.", "anchors": ["rct_optimizations/src/rct_optimizations/extrinsic_hand_eye.cpp: optimize, ObservationCost2D3D, ObservationCost3D3D"]}
{"id": "C30", "title": "Hand-eye cost ignores the choice of base frame", "statement": "Re-expressing all mount poses in another base frame (multiplying both mount poses of an observation by the same rigid transform) leaves every residual unchanged.", "quantifier": "for all observations, parameters and rigid base changes", "why_tests_cant": "The input space is a continuum (or an unbounded family of sizes); a unit test fixes finitely many values.", "anchors": ["rct_optimizations/src/rct_optimizations/extrinsic_hand_eye.cpp: ObservationCost"]}
{"id": "C31", "title": "Hand-eye refuses guesses that put features behind the camera", "statement": "The 2D hand-eye calibration throws exactly when, with the given initial guesses, at least one target feature of at least one observation has non-positive depth in the camera frame; otherwise it adds one residual block per correspondence, in order.", "quantifier": "for all problems (any number of observations and correspondences)", "why_tests_cant": "All observation lists.", "anchors": ["rct_optimizations/src/rct_optimizations/extrinsic_hand_eye.cpp: optimize(2D3D), isPointVisible"]}
{"id": "C32", "title": "Covariance labels of calibrated poses name the right parameter", "statement": "In the covariance report of a hand-eye or multi static camera calibration, the standard deviation labelled ..._x, _y, _z (_rx, _ry, _rz) is that of the corresponding translation (rotation) component of the optimised pose.", "quantifier": "for all problems and all six pose components", "why_tests_cant": "Tests check that the report exists, not which memory cell each label is attached to.", "anchors": ["rct_optimizations/src/rct_optimizations/extrinsic_hand_eye.cpp: optimize", "rct_optimizations/src/rct_optimizations/extrinsic_multi_static_camera.cpp: optimize", "rct_optimizations/src/rct_optimizations/camera_intrinsic.cpp: optimize", "rct_optimizations/include/rct_optimizations/types.h: Pose6d"]}
{"id": "C33", "title": "PnP covariance labels name the right parameter", "statement": "In a PnP covariance report the entries labelled with translation (rotation) names are those of the translation (rotation) block.", "quantifier": "for all PnP problems and labels", "why_tests_cant": "Tests do not check the cell each label is attached to.", "anchors": ["rct_optimizations/src/rct_optimizations/pnp.cpp: optimize"]}
{"id": "C34", "title": "Guess is returned when the solver does not move", "statement": "If the solver returns its starting point, PnP (one or several cameras), hand-eye, static camera (all three variants, at least one image for the camera-only one) and kinematic calibration report exactly the initial guesses (rigid guesses, rotation zero or above the small angle threshold), with zero joint offsets; intrinsic calibration reports the guessed intrinsics and zero distortion.", "quantifier": "for all rigid guesses", "why_tests_cant": "The input space is a continuum (or an unbounded family of sizes); a unit test fixes finitely many values.", "anchors": ["rct_optimizations/src/rct_optimizations/pnp.cpp: optimize", "rct_optimizations/src/rct_optimizations/extrinsic_hand_eye.cpp: optimize", "rct_optimizations/src/rct_optimizations/multi_camera_pnp.cpp: optimize", "rct_optimizations/src/rct_optimizations/extrinsic_multi_static_camera*.cpp: optimize", "rct_optimizations/src/rct_optimizations/dh_chain_kinematic_calibration.cpp: optimize", "rct_optimizations/src/rct_optimizations/camera_intrinsic.cpp: optimize"]}
{"id": "C35", "title": "PnP reports a rigid pose", "statement": "Whatever parameter values the solver ends with, the pose reported by PnP is a proper rigid transform whose residuals are the solver's residuals.", "quantifier": "for all final parameter values", "why_tests_cant": "The input space is a continuum (or an unbounded family of sizes); a unit test fixes finitely many values.", "anchors": ["rct_optimizations/src/rct_optimizations/pnp.cpp: optimize, SolvePnPCostFunc"]}
{"id": "C36", "title": "Multi camera PnP with one camera at the base equals PnP", "statement": "With a single camera whose pose is the base frame, the multi camera PnP residuals equal the PnP residuals for the same pose, as its documentation claims.", "quantifier": "for all poses, points, pixels and intrinsics", "why_tests_cant": "The input space is a continuum (or an unbounded family of sizes); a unit test fixes finitely many values.", "anchors": ["rct_optimizations/src/rct_optimizations/multi_camera_pnp.cpp: ReprojectionCost, optimize", "rct_optimizations/src/rct_optimizations/pnp.cpp: SolvePnPCostFunc"]}
{"id": "C37", "title": "Wrist-only calibration keeps the relative camera poses", "statement": "The static camera calibration that corrects only the common camera placement returns camera poses whose pairwise relative transforms are those of the initial guesses.", "quantifier": "for all numbers of cameras, all guesses, all solver results", "why_tests_cant": "Any number of cameras; all solver results.", "anchors": ["rct_optimizations/src/rct_optimizations/extrinsic_multi_static_camera_wrist_only.cpp: optimize"]}
{"id": "C38", "title": "Wrist-only residual matches the reported cameras", "statement": "The residual used for camera c equals the reprojection error through the corrected camera pose that is finally reported.", "quantifier": "for all solver parameter values, cameras and observations", "why_tests_cant": "The input space is a continuum (or an unbounded family of sizes); a unit test fixes finitely many values.", "anchors": ["rct_optimizations/src/rct_optimizations/extrinsic_multi_static_camera_wrist_only.cpp: ReprojectionCost, optimize"]}
{"id": "C39", "title": "Fixing the first camera really fixes it", "statement": "In the camera-only static calibration with the first camera fixed, the reported pose of the first camera is the initial guess, whatever the solver does, and its observations constrain only the target poses.", "quantifier": "for all problems including those without images, all solver results", "why_tests_cant": "All solver results and all numbers of images, including zero.", "anchors": ["rct_optimizations/src/rct_optimizations/extrinsic_multi_static_camera_only.cpp: optimize"]}
{"id": "C40", "title": "Camera-only residuals: fixed and free camera costs agree", "statement": "The fixed-camera cost evaluated for a target pose equals the free-camera cost evaluated with the camera at its initial guess.", "quantifier": "for all guesses (rotation zero or above threshold), target poses, points and pixels", "why_tests_cant": "The input space is a continuum (or an unbounded family of sizes); a unit test fixes finitely many values.", "anchors": ["rct_optimizations/src/rct_optimizations/extrinsic_multi_static_camera_only.cpp: ReprojectionFixedCameraCost, ReprojectionFreeCameraCost"]}
{"id": "C41", "title": "Multi static camera residual ordering", "statement": "The multi static camera problem has exactly one residual block per correspondence of each camera and image, attached to the pose block of that camera, and each residual uses that camera's intrinsics, wrist pose and pixel.", "quantifier": "for all numbers of cameras, images and correspondences", "why_tests_cant": "Unbounded nested index loops.", "anchors": ["rct_optimizations/src/rct_optimizations/extrinsic_multi_static_camera.cpp: optimize", "rct_optimizations/src/rct_optimizations/multi_camera_pnp.cpp: optimize"]}
{"id": "C42", "title": "Distortion model reduces to the pinhole model", "statement": "With all distortion coefficients zero, the intrinsic calibration's projection equals the pinhole projection, and the principal ray always maps to the principal point.", "quantifier": "for all points, focal lengths and centres; all coefficients for the principal ray", "why_tests_cant": "The input space is a continuum (or an unbounded family of sizes); a unit test fixes finitely many values.", "anchors": ["rct_optimizations/src/rct_optimizations/camera_intrinsic.cpp: projectPoints2"]}
{"id": "C43", "title": "Intrinsic calibration skips unusable images", "statement": "When pose estimation fails for some images, intrinsic calibration ignores exactly these images and still returns a result for the others.", "quantifier": "for all subsets of failing images", "why_tests_cant": "Every subset of failures.", "anchors": ["rct_optimizations/src/rct_optimizations/camera_intrinsic.cpp: optimize, solvePnP"]}
{"id": "C44", "title": "Kinematic residual is zero at the truth", "statement": "If a kinematic measurement is generated by the chains with the true offsets and the true mount transforms, then both the pixel residual and the pose residual are zero at the true parameters.", "quantifier": "for all chains, joint values, offsets and transforms", "why_tests_cant": "The input space is a continuum (or an unbounded family of sizes); a unit test fixes finitely many values.", "anchors": ["rct_optimizations/include/rct_optimizations/dh_chain_kinematic_calibration.h: DualDHChainCost2D3D, DualDHChainCostPose6D"]}
{"id": "C45", "title": "Kinematic pose residual is zero only for the measured pose", "statement": "With a non-zero orientation weight, the pose residual vanishes exactly when the computed camera-to-target pose equals the measured one.", "quantifier": "for all rigid computed and measured poses and all non-zero weights", "why_tests_cant": "The input space is a continuum (or an unbounded family of sizes); a unit test fixes finitely many values.", "anchors": ["rct_optimizations/include/rct_optimizations/dh_chain_kinematic_calibration.h: DualDHChainCostPose6D"]}
{"id": "C46", "title": "Kinematic parameter blocks, labels and masks stay aligned", "statement": "In kinematic calibration the i-th mask of the problem freezes the i-th documented parameter group, each group has as many labels as parameters, and the label of position j of a DH block is the label of the joint and parameter stored there.", "quantifier": "for all chain lengths (including zero) and masks", "why_tests_cant": "All chain lengths.", "anchors": ["rct_optimizations/include/rct_optimizations/dh_chain_kinematic_calibration.h: constructParameters, constructParameterLabels, constructParameterMasks", "rct_optimizations/src/rct_optimizations/dh_chain_kinematic_calibration.cpp: optimize"]}
{"id": "C47", "title": "Kinematic result has one offset row per joint", "statement": "The reported offset tables have as many rows as the chain has joints (none for a chain without joints), so they can be fed back into the chain; reported transforms are rigid and are those used by the cost function.", "quantifier": "for all chains and all final parameter values", "why_tests_cant": "All chain lengths and solver results.", "anchors": ["rct_optimizations/src/rct_optimizations/dh_chain_kinematic_calibration.cpp: optimize, createTransform"]}
{"id": "C48", "title": "Maximum likelihood prior is zero exactly at the mean", "statement": "The prior's residual for each element is (parameter - mean)/stdev; it vanishes for all elements exactly when every parameter equals its mean (non-zero stdev); construction throws exactly when the sizes differ.", "quantifier": "for all tables of any size", "why_tests_cant": "The input space is a continuum (or an unbounded family of sizes); a unit test fixes finitely many values.", "anchors": ["rct_optimizations/include/rct_optimizations/maximum_likelihood.h: MaximumLikelihood"]}
{"id": "C49", "title": "Circle fit reports a circle with non-negative radius", "statement": "Whatever the solver returns, the reported radius is non-negative, the residual of an observation vanishes exactly when it lies on the reported circle, and with the solver at its start the reported circle is the initial guess (non-negative initial radius).", "quantifier": "for all observations and all solver results", "why_tests_cant": "The input space is a continuum (or an unbounded family of sizes); a unit test fixes finitely many values.", "anchors": ["rct_optimizations/include/rct_optimizations/circle_fit.h: CircleDistCost", "rct_optimizations/src/rct_optimizations/circle_fit.cpp: optimize"]}
{"id": "C50", "title": "Grid sampler picks four distinct grid corners", "statement": "For a grid large enough to be accepted, the sampler returns the indices of the four corners of the grid (first feature of each), all within the correspondence list and pairwise distinct.", "quantifier": "for all rows, columns and strides", "why_tests_cant": "All grid shapes; degenerate one-row grids are accepted.", "anchors": ["rct_optimizations/src/rct_optimizations/validation/homography_validation.cpp: GridCorrespondenceSampler"]}
{"id": "C51", "title": "Random sampler is safe", "statement": "A constructed random sampler returns exactly the requested number (at least 4) of indices, all valid; construction throws otherwise.", "quantifier": "for all counts and random streams", "why_tests_cant": "All random streams and counts.", "anchors": ["rct_optimizations/src/rct_optimizations/validation/homography_validation.cpp: RandomCorrespondenceSampler"]}
{"id": "C52", "title": "Homography error is zero on planar perfect data", "statement": "If all image points are images of the target points under one homography, the reported error is zero for every correspondence, for every sampler whose samples determine the homography.", "quantifier": "for all homographies, all target points with non-zero scale, all samplers and sizes", "why_tests_cant": "The input space is a continuum (or an unbounded family of sizes); a unit test fixes finitely many values.", "anchors": ["rct_optimizations/src/rct_optimizations/validation/homography_validation.cpp: calculateHomographyError"]}
{"id": "C53", "title": "Homography check rejects undersized sets", "statement": "The homography check throws when there are fewer than twice as many correspondences as samples, throws for sample indices out of range, and otherwise returns exactly one error per correspondence.", "quantifier": "for all correspondence lists and samplers", "why_tests_cant": "All sizes and samplers.", "anchors": ["rct_optimizations/src/rct_optimizations/validation/homography_validation.cpp: calculateHomographyError"]}
{"id": "C54", "title": "Line-plane intersection is on the line and in the plane", "statement": "When it returns, the intersection point lies on the line and in the plane and is the only such point; it throws exactly when the line direction and the plane normal have a dot product below the threshold.", "quantifier": "for all planes, lines and thresholds above zero", "why_tests_cant": "The input space is a continuum (or an unbounded family of sizes); a unit test fixes finitely many values.", "anchors": ["rct_optimizations/src/rct_optimizations/validation/projection.cpp: computeLinePlaneIntersection"]}
{"id": "C55", "title": "Back-projection inverts projection", "statement": "Projecting a point of the target plane into the image and back onto the target plane returns the same point (camera not in the plane's parallel direction, focal lengths non-zero, positive depth).", "quantifier": "for all plane poses, intrinsics and plane points", "why_tests_cant": "The input space is a continuum (or an unbounded family of sizes); a unit test fixes finitely many values.", "anchors": ["rct_optimizations/src/rct_optimizations/validation/projection.cpp: project3D", "rct_optimizations/include/rct_optimizations/ceres_math_utilities.h: projectPoint"]}
{"id": "C56", "title": "3D projection error counts and zero on perfect data", "statement": "The 3D projection error of a set of observations has exactly one entry per correspondence in order, equal to the concatenation of the per-observation errors, and is zero for perfect data.", "quantifier": "for all observation lists", "why_tests_cant": "Any number of observations.", "anchors": ["rct_optimizations/src/rct_optimizations/validation/projection.cpp: compute3DProjectionError"]}
{"id": "C57", "title": "Virtual target check uses every correspondence once and honours the threshold", "statement": "The two virtual targets partition the correspondences into a first and second half; a result is returned only if both fits converged with mean cost not above the threshold; both errors are zero exactly when both fits agree.", "quantifier": "for all correspondence lists, fits and thresholds", "why_tests_cant": "All lists and solver outcomes.", "anchors": ["rct_optimizations/src/rct_optimizations/validation/camera_intrinsic_calibration_validation.cpp: measureVirtualTargetDiff"]}
{"id": "C58", "title": "Intrinsic accuracy check is defined for every observation list", "statement": "Measuring intrinsic calibration accuracy throws when two consecutive observations have different numbers of correspondences and otherwise evaluates every observation once; it never reads out of range.", "quantifier": "for all observation lists including the empty one", "why_tests_cant": "The failing input is the empty list (unsigned wrap-around).", "anchors": ["rct_optimizations/src/rct_optimizations/validation/camera_intrinsic_calibration_validation.cpp: measureIntrinsicCalibrationAccuracy"]}
{"id": "C59", "title": "Noise statistics use exactly the converged solutions", "statement": "Mean and standard deviation of positions are those of the converged PnP solutions only (order irrelevant), and the mean lies within the componentwise range of these solutions.", "quantifier": "for all lists of problems and solver outcomes", "why_tests_cant": "All subsets of converged problems.", "anchors": ["rct_optimizations/src/rct_optimizations/validation/noise_qualification.cpp: qualifyNoise2D, qualifyNoise3D"]}
{"id": "C60", "title": "Quaternion mean does not depend on signs or order", "statement": "The averaged orientation depends only on the set of orientations: replacing any quaternion by its negative or reordering them leaves the matrix being averaged, hence the mean, unchanged. The reported deviation is the sample deviation (divisor n-1) of the angles to the mean.", "quantifier": "for all lists of quaternions, all sign choices, all permutations", "why_tests_cant": "All sign patterns and permutations.", "anchors": ["rct_optimizations/src/rct_optimizations/validation/noise_qualification.cpp: computeQuaternionMean"]}
{"id": "C61", "title": "Equality of kinematic observations compares all data", "statement": "Two kinematic observations compare equal only if their correspondences are equal too; likewise the other observations, intrinsics and hand-eye problems compare equal only if all their data agree. Fails: the correspondences are compared with themselves, and joint vectors of different lengths are outside the contract of Eigen.", "quantifier": "for all pairs of observations", "why_tests_cant": "Tests compare equal objects only.", "anchors": ["rct_optimizations/include/rct_optimizations/types.h: KinematicObservation::operator=="]}
{"id": "C62", "title": "Intrinsics, points and problems survive serialisation", "statement": "Encoding to YAML and decoding gives back the same intrinsics, correspondences, observations and hand-eye problems (rigid transforms), and decoding rejects maps with the wrong number of entries.", "quantifier": "for all values, any number of observations and correspondences", "why_tests_cant": "The input space is a continuum (or an unbounded family of sizes); a unit test fixes finitely many values.", "anchors": ["rct_optimizations/include/rct_optimizations/serialization/types.h, eigen.h, problems.h: convert<...>"]}
{"id": "C63", "title": "Isometry survives serialisation", "statement": "Encoding a rigid transform as translation and quaternion and decoding gives back the same transform.", "quantifier": "for all rigid transforms", "why_tests_cant": "The input space is a continuum (or an unbounded family of sizes); a unit test fixes finitely many values. Four branches of the matrix-to-quaternion conversion.", "anchors": ["rct_optimizations/include/rct_optimizations/serialization/eigen.h: convert<Isometry>"]}
{"id": "C64", "title": "Hand-eye result survives serialisation", "statement": "Encoding a hand-eye result and decoding it gives back the same camera and target transforms.", "quantifier": "for all results", "why_tests_cant": "The round trip is not exercised for rotations about more than one axis.", "anchors": ["rct_optimizations/include/rct_optimizations/serialization/problems.h: convert<ExtrinsicHandEyeResult>, toIsometry"]}
{"id": "C65", "title": "Loaded DH chains are complete or rejected", "statement": "Decoding a DH chain yields one joint per listed transform with the listed parameters, type and name, and throws for any joint type other than the two known ones.", "quantifier": "for all lists of joints and all type numbers", "why_tests_cant": "All type values and list lengths.", "anchors": ["rct_optimizations/include/rct_optimizations/serialization/types.h: convert<DHTransform>, convert<DHChain>"]}
{"id": "C66", "title": "Circle grid target geometry", "statement": "The target points are listed row by row from the top: point r*cols+c is at (c*spacing, (rows-1-r)*spacing, 0); there are rows*cols points, pairwise distinct for non-zero spacing, and the origin is the first point of the last row.", "quantifier": "for all rows, columns and spacings", "why_tests_cant": "All grid sizes.", "anchors": ["rct_image_tools/src/rct_image_tools/modified_circle_grid_target.cpp: createPoints"]}
{"id": "C67", "title": "Ordered circle observations are a permutation", "statement": "When the finder succeeds, the ordered observation list contains every detected centre exactly once.", "quantifier": "for all grid sizes, all eight orientations, flipped or not", "why_tests_cant": "All grid sizes and orientations.", "anchors": ["rct_image_tools/src/rct_image_tools/modified_circle_grid_finder.cpp: extractKeyPoints"]}
{"id": "C68", "title": "Ordered circle observations put the large circle at the origin", "statement": "When the finder succeeds, the centre paired with the target origin is the corner judged to be the large circle.", "quantifier": "for all grid sizes and all eight orientations", "why_tests_cant": "All orientations and sizes; two of the eight branches are wrong.", "anchors": ["rct_image_tools/src/rct_image_tools/modified_circle_grid_finder.cpp: extractKeyPoints"]}
{"id": "C69", "title": "Ordered circle observations keep the grid adjacent and right-handed", "statement": "When the finder succeeds, neighbouring positions of the output grid are neighbouring circles of the detected grid and the output has the handedness of the target (left to right, top to bottom).", "quantifier": "for all grid sizes and orientations", "why_tests_cant": "All orientations and sizes.", "anchors": ["rct_image_tools/src/rct_image_tools/modified_circle_grid_finder.cpp: extractKeyPoints"]}
{"id": "C70", "title": "Correspondences pair features with their own target point", "statement": "Every correspondence created from detected features pairs the image point of feature id k with the target point of id k; the number of correspondences equals the number of detected points; features with an id the target does not have cause an exception, never a wrong pair.", "quantifier": "for all feature maps and targets", "why_tests_cant": "All feature maps.", "anchors": ["rct_image_tools/src/rct_image_tools/modified_circle_grid_target.cpp: createCorrespondences", "rct_image_tools/src/rct_image_tools/aruco_grid_target.cpp: createCorrespondences", "rct_image_tools/src/rct_image_tools/charuco_grid_target.cpp: createCorrespondences"]}
{"id": "C71", "title": "Threshold levels cover the requested range", "statement": "The detector evaluates exactly the requested number of thresholds; they are increasing, start at the minimum, end at the maximum (midpoint for a single threshold), and it throws exactly when the repeatability exceeds the number of thresholds.", "quantifier": "for all parameter values", "why_tests_cant": "The input space is a continuum (or an unbounded family of sizes); a unit test fixes finitely many values.", "anchors": ["rct_image_tools/src/rct_image_tools/circle_detector.cpp: applyThresholds"]}
{"id": "C72", "title": "Circle grouping is a partition with bounded spread", "statement": "Every detected centre ends up in exactly one group; every member of a group is within the inclusion radius and radius tolerance of the group's first member, and the first members of different groups are not within both tolerances of each other.", "quantifier": "for all lists of detections and tolerances", "why_tests_cant": "All detection lists; greedy order dependent algorithm.", "anchors": ["rct_image_tools/src/rct_image_tools/circle_detector.cpp: detectKeyPoints"]}
{"id": "C73", "title": "Key points are averages of enough detections", "statement": "Each key point stems from a group with at least the required number of detections, and its position and size lie within the range of the group's members (positive confidences).", "quantifier": "for all detections and parameters", "why_tests_cant": "The input space is a continuum (or an unbounded family of sizes); a unit test fixes finitely many values.", "anchors": ["rct_image_tools/src/rct_image_tools/circle_detector.cpp: detectKeyPoints"]}
{"id": "C74", "title": "Repeatability counts thresholds", "statement": "A reported key point was detected at at least the required number of different thresholds.", "quantifier": "for all detections and parameters", "why_tests_cant": "Counterexample needs two nearby circles at one threshold.", "anchors": ["rct_image_tools/src/rct_image_tools/circle_detector.cpp: detectKeyPoints"]}
{"id": "C75", "title": "Saved data sets load back", "statement": "Saving a data set with as many poses as images to an empty directory and loading it returns the same images and the same poses in the same order.", "quantifier": "for all data sets of any size", "why_tests_cant": "All sizes and contents.", "anchors": ["rct_ros_tools/src/data_set.cpp: saveToDirectory, parse, parseFromFile"]}
{"id": "C76", "title": "Interrupted save is not mistaken for a data set", "statement": "If saving to an empty directory is interrupted at any point before the index file is written, loading reports failure rather than a partial data set.", "quantifier": "for all crash points during the save", "why_tests_cant": "All crash points.", "anchors": ["rct_ros_tools/src/data_set.cpp: saveToDirectory, parseFromFile"]}
{"id": "C77", "title": "Loaded data sets are aligned", "statement": "A successfully loaded data set has as many images as poses and the i-th pose belongs to the i-th image of the index.", "quantifier": "for all index files and directory contents", "why_tests_cant": "All file contents.", "anchors": ["rct_ros_tools/src/data_set.cpp: parse"]}
{"id": "C78", "title": "Save reports failure", "statement": "Saving a data set returns false when a file could not be written.", "quantifier": "for all I/O failures", "why_tests_cant": "All failure points.", "anchors": ["rct_ros_tools/src/data_set.cpp: saveToDirectory"]}
{"id": "C79", "title": "Collected poses and images stay paired", "statement": "After any sequence of new images, triggers (successful or not) and saves, the i-th collected pose was captured by the same trigger as the i-th collected image, and saving writes exactly the successful captures in order.", "quantifier": "for all histories of events and capture failures", "why_tests_cant": "All event histories.", "anchors": ["rct_ros_tools/src/command_line_cal.cpp: DataCollection::onTrigger, onSave, ImageMonitor"]}
{"id": "C80", "title": "Correspondence data set bookkeeping", "statement": "In a multi camera correspondence data set, an entry is flagged as seen exactly when the finder found the target in that image (in debug mode: whether or not it could also be drawn), flagged entries hold that image's correspondences, and the image/camera counts equal the number of flags per column/row.", "quantifier": "for all data sets and finder outcomes", "why_tests_cant": "All patterns of detections.", "anchors": ["rct_ros_tools/src/data_set.cpp: ExtrinsicCorrespondenceDataSet"]}
{"id": "C81", "title": "XmlRpc to YAML keeps the structure", "statement": "Converting a parameter struct gives a map with the same keys and the same leaf values, recursively (an empty struct gives a null node); anything other than structs of supported values is rejected with an exception.", "quantifier": "for all parameter trees of any depth", "why_tests_cant": "Unbounded trees; structural induction.", "anchors": ["rct_ros_tools/src/loader_utils.cpp: toYAML"]}
{"id": "C82", "title": "Loaded poses are rigid", "statement": "A pose loaded from parameters or from a file is a rigid transform.", "quantifier": "for all parameter values", "why_tests_cant": "The input space is a continuum (or an unbounded family of sizes); a unit test fixes finitely many values.", "anchors": ["rct_ros_tools/src/parameter_loaders.cpp: loadPose"]}
{"id": "C83", "title": "Loading intrinsics is all or nothing", "statement": "Loading intrinsics from parameters succeeds exactly when all four values are present and numeric and then returns these four values; on failure the non-throwing variant returns false and leaves the caller's value unchanged.", "quantifier": "for all parameter trees", "why_tests_cant": "All subsets of missing/invalid members.", "anchors": ["rct_ros_tools/src/parameter_loaders.cpp: loadIntrinsics"]}
{"id": "C84", "title": "Calibration tools keep observations and images aligned", "statement": "The wrist and static camera tools produce one observation per accepted image in order, each with the pose of its own image; the list of accepted images shown for validation matches the observations one to one.", "quantifier": "for all data sets and all patterns of detection failures and rejections", "why_tests_cant": "All failure patterns.", "anchors": ["rct_examples/src/tools/camera_on_wrist_extrinsic.cpp", "rct_examples/src/tools/static_camera_extrinsic.cpp"]}
{"id": "C85", "title": "Multi step tool shows the right image", "statement": "The image on which the multi step tool draws the i-th reprojection is the image the i-th observation was taken from.", "quantifier": "for all patterns of images in which the target was not seen by every camera", "why_tests_cant": "All failure patterns.", "anchors": ["rct_examples/src/tools/multi_static_camera_multi_step_extrinsic.cpp"]}
{"id": "C86", "title": "Noise tool reads every image", "statement": "The 2D noise qualification tool builds its problems from each listed image, the i-th problem from the i-th image.", "quantifier": "for all lists of images", "why_tests_cant": "Any number of images.", "anchors": ["rct_examples/src/tools/noise_qualification_2d.cpp"]}
{"id": "C87", "title": "Title banner is well formed", "statement": "A printed title consists of three lines of equal length, at least as long as the title plus eight and at least the requested width (or one more), with the title centred.", "quantifier": "for all titles and widths", "why_tests_cant": "All lengths and parities.", "anchors": ["rct_common/include/rct_common/print_utils.h: printTitle"]}
{"id": "C88", "title": "Default covariance labels identify the parameter", "statement": "When no names are given, the covariance report labels distinct parameters (block, element) with distinct names.", "quantifier": "for all numbers of blocks and block sizes", "why_tests_cant": "Unbounded numbers of blocks and elements; decimal rendering of all indices.", "anchors": ["rct_optimizations/src/rct_optimizations/covariance_analysis.cpp: computeCovariance (overloads without names)"]}
{"id": "C89", "title": "Intrinsic result explains the final residuals", "statement": "With the reported focal lengths, centre and distortion list (OpenCV order k1,k2,p1,p2,k3), the OpenCV lens model reproduces the final residuals of the calibration.", "quantifier": "for all problems and all final parameter values", "why_tests_cant": "The input space is a continuum (or an unbounded family of sizes); a unit test fixes finitely many values.", "anchors": ["rct_optimizations/src/rct_optimizations/camera_intrinsic.cpp: optimize, projectPoints2"]}
{"id": "C90", "title": "No result without data", "statement": "PnP, hand-eye, multi static camera, intrinsic, circle and kinematic calibration never report a result (in particular no transform and no covariance) when there are no observations at all; kinematic calibration then aborts the process inside the solver library.", "quantifier": "for all guesses and solver behaviours", "why_tests_cant": "All guesses.", "anchors": ["rct_optimizations/src/rct_optimizations/pnp.cpp", "rct_optimizations/src/rct_optimizations/extrinsic_hand_eye.cpp", "rct_optimizations/src/rct_optimizations/extrinsic_multi_static_camera.cpp", "rct_optimizations/src/rct_optimizations/camera_intrinsic.cpp", "rct_optimizations/src/rct_optimizations/circle_fit.cpp"]}
{"id": "C91", "title": "Circle covariance refers to the radius", "statement": "The covariance reported by the circle fit for [x, y, radius] is the covariance of the reported parameters x, y and radius (inverse of J^T J with the Jacobian taken with respect to x, y and radius).", "quantifier": "for all observations and final values", "why_tests_cant": "The input space is a continuum (or an unbounded family of sizes); a unit test fixes finitely many values.", "anchors": ["rct_optimizations/src/rct_optimizations/circle_fit.cpp: optimize", "rct_optimizations/include/rct_optimizations/circle_fit.h: CircleFitResult::covariance"]}
{"id": "C92", "title": "Orientation parameters of kinematic calibration act on the prediction", "statement": "In kinematic calibration, two different rotation vectors with angles below pi describe different transforms, so that every orientation parameter influences the residuals, in particular at the default (identity) guess.", "quantifier": "for all parameter values with angles below pi", "why_tests_cant": "The input space is a continuum (or an unbounded family of sizes); a unit test fixes finitely many values.", "anchors": ["rct_optimizations/src/rct_optimizations/dh_chain_kinematic_calibration.cpp: createTransform", "rct_optimizations/include/rct_optimizations/dh_chain_kinematic_calibration.h: DualDHChainCost::createTransform"]}
{"id": "C93", "title": "Printed optimisation labels are those of the free parameters", "statement": "Kinematic calibration prints, for each of the eight parameter groups once, the labels of exactly the parameters that the optimisation may change, under the title of that group.", "quantifier": "for all chain lengths, masks and block orders", "why_tests_cant": "All masks and chain lengths.", "anchors": ["rct_optimizations/src/rct_optimizations/dh_chain_kinematic_calibration.cpp: printOptimizationLabels, optimize"]}
{"id": "C94", "title": "Kinematic covariance report names only parameters of the calibration", "statement": "Every name in the covariance report of kinematic calibration is the label of a joint parameter or of one of the three transforms.", "quantifier": "for all chains (including chains without joints), masks and solver results", "why_tests_cant": "All chain lengths, masks and solver results.", "anchors": ["rct_optimizations/src/rct_optimizations/dh_chain_kinematic_calibration.cpp: optimize (placeholder labels)"]}
{"id": "C95", "title": "Homography errors are distances", "statement": "Every error returned by the homography check, for image points and for points in space, is the distance between the measured point and the point predicted at its depth; in particular no error is negative.", "quantifier": "for all correspondence lists, samplers and linear solver results", "why_tests_cant": "The input space is a continuum (or an unbounded family of sizes); a unit test fixes finitely many values.", "anchors": ["rct_optimizations/src/rct_optimizations/validation/homography_validation.cpp: calculateHomographyError"]}
{"id": "C96", "title": "Circle grid finder reads only existing circles", "statement": "Whatever OpenCV returns for the circle grid, deciding the orientation of the grid and extracting the ordered circles never reads a circle or grid point that does not exist.", "quantifier": "for all numbers of rows and columns, detected points and key points", "why_tests_cant": "All grid sizes including single rows and columns, all detector outputs.", "anchors": ["rct_image_tools/src/rct_image_tools/modified_circle_grid_finder.cpp: extractKeyPoints, extractModifiedCircleGrid"]}
{"id": "C97", "title": "The large circle becomes the origin of the target", "statement": "If the detected circles are the images of a modified circle grid in which exactly one corner circle is larger, the finder recognises that corner as the origin and the correspondences pair every circle with its target point.", "quantifier": "for all grid sizes, circle sizes and the four places of the large circle in the detected layout", "why_tests_cant": "All grid sizes, parities and real-valued circle sizes.", "anchors": ["rct_image_tools/src/rct_image_tools/modified_circle_grid_finder.cpp: extractModifiedCircleGrid", "rct_image_tools/src/rct_image_tools/modified_circle_grid_target.cpp: createCorrespondences"]}
{"id": "C98", "title": "Marker finders report each detected marker once", "statement": "The ArUco and ChArUco finders return, for every detected id, the image points of the first detection with this id, and nothing for other ids; the ChArUco finder throws if no marker was seen; together with the target every ChArUco detection is paired with the board point of its id.", "quantifier": "for all detections", "why_tests_cant": "All numbers, orders and repetitions of ids.", "anchors": ["rct_image_tools/src/rct_image_tools/aruco_finder.cpp: findTargetFeatures", "rct_image_tools/src/rct_image_tools/charuco_finder.cpp: findTargetFeatures"]}
{"id": "C99", "title": "Reprojections explain the residuals", "statement": "Reprojections are the pinhole images of the transformed target points, one for each point in order; at every pose whose points are in front of the camera the PnP residuals all vanish exactly if the reprojections are the observed image points.", "quantifier": "for all poses, intrinsics and points deeper than 1e-10", "why_tests_cant": "The input space is a continuum (or an unbounded family of sizes); a unit test fixes finitely many values.", "anchors": ["rct_image_tools/include/rct_image_tools/image_utils.h: getReprojections", "rct_optimizations/src/rct_optimizations/pnp.cpp: SolvePnPCostFunc"]}
{"id": "C100", "title": "Colour filter reads pixels of the image", "statement": "The circle detector reads only pixels that exist, whatever contours and fitted ellipses it gets.", "quantifier": "for all images, parameters and ellipse fits", "why_tests_cant": "All contours and fits, e.g. of circles cut by the image border.", "anchors": ["rct_image_tools/src/rct_image_tools/circle_detector.cpp: findCircles (colour filter)"]}
{"id": "C101", "title": "Reported circles are the contours that meet the requirements", "statement": "At every threshold the detector reports, in order, the fitted ellipse (centre and mean radius) of exactly those contours with at least five points that lie in the half-open ranges of all enabled filters, have the required colour at the centre and fit the ellipse well enough.", "quantifier": "for all images, thresholds and parameters", "why_tests_cant": "The input space is a continuum (or an unbounded family of sizes); a unit test fixes finitely many values.", "anchors": ["rct_image_tools/src/rct_image_tools/circle_detector.cpp: findCircles"]}
{"id": "C102", "title": "Inertia ratio is the quotient of the principal moments", "statement": "The inertia ratio used for filtering is the smaller principal second moment of the contour divided by the larger one, thus between 0 and 1; moments differing by at most 0.01 count as equal (ratio 1).", "quantifier": "for all moments", "why_tests_cant": "The input space is a continuum (or an unbounded family of sizes); a unit test fixes finitely many values.", "anchors": ["rct_image_tools/src/rct_image_tools/circle_detector.cpp: findCircles (inertia filter)"]}
{"id": "C103", "title": "Index file given by its bare name", "statement": "Loading a data set from an index given by its bare file name in the working directory gives the same data set as loading it through a path with a directory.", "quantifier": "for all index files without a slash in the name and all file contents", "why_tests_cant": "All names and file systems.", "anchors": ["rct_ros_tools/src/data_set.cpp: rootPath, parseFromFile"]}
{"id": "C104", "title": "Verdict of the intrinsic validation tool", "statement": "The validation tool calls the intrinsic calibration valid exactly if, over the images in which the target was found, the mean plus two standard deviations of both the positional and the angular error are within the tolerances of 1 mm and 0.05 degrees; a data set without any usable image is reported as an error.", "quantifier": "for all data sets, detection failures, solver results and poses", "why_tests_cant": "The input space is a continuum (or an unbounded family of sizes); a unit test fixes finitely many values.", "anchors": ["rct_examples/src/tools/camera_intrinsic_calibration_validation.cpp: main, analyzeResults"]}
{"id": "C105", "title": "Multi camera tool pairs wrist poses and observations", "statement": "For every camera the multi static camera tool collects exactly the images in which this camera saw the target, in order, each with the wrist pose recorded with that image and the correspondences found in it.", "quantifier": "for all tables of found targets and all recorded poses", "why_tests_cant": "All patterns.", "anchors": ["rct_examples/src/tools/multi_static_camera_extrinsic.cpp: extrinsicMultiCameraCalibration tool loop"]}
{"id": "C106", "title": "Unreadable data sets are reported by the tools", "statement": "If the data set of a camera cannot be read, every tool reports an error instead of continuing.", "quantifier": "for all file systems and paths", "why_tests_cant": "All unreadable states.", "anchors": ["rct_examples/src/tools/multi_static_camera_extrinsic.cpp", "rct_examples/src/tools/multi_static_camera_multi_step_extrinsic.cpp", "rct_examples/src/tools/solve_multi_camera_pnp.cpp"]}
{"id": "C107", "title": "Joint estimates use the images seen by all cameras", "statement": "The multi step tool and the multi camera PnP tool use exactly the images in which all cameras saw the target, in order; poses, guesses, images and the correspondences of all cameras with the same number belong to the same image.", "quantifier": "for all tables of found targets and all recorded poses", "why_tests_cant": "All patterns.", "anchors": ["rct_examples/src/tools/multi_static_camera_multi_step_extrinsic.cpp", "rct_examples/src/tools/solve_multi_camera_pnp.cpp"]}
{"id": "C108", "title": "Homography gate of the extrinsic tools", "statement": "The check in the wrist and static camera tools accepts an image exactly if there are at least 12 correspondences and the mean homography error for a sample of a third of them is at most the threshold; every other image is rejected by an exception that the tools catch, and never in any other way.", "quantifier": "for all correspondence lists, random draws, linear solver results and thresholds", "why_tests_cant": "The input space is a continuum (or an unbounded family of sizes); a unit test fixes finitely many values.", "anchors": ["rct_examples/src/tools/camera_on_wrist_extrinsic.cpp", "rct_examples/src/tools/static_camera_extrinsic.cpp"]}
{"id": "C109", "title": "Multi camera reprojection view", "statement": "For every image the multi static camera tool compares exactly the cameras that saw the target in it, with their own correspondences, and draws on an image taken by the first of them; images seen by fewer than two cameras are skipped.", "quantifier": "for all tables of found targets", "why_tests_cant": "All patterns.", "anchors": ["rct_examples/src/tools/multi_static_camera_extrinsic.cpp"]}
{"id": "C110", "title": "Intrinsic calibration tool collects all usable images", "statement": "The intrinsic calibration tool passes on, in order, the correspondences of exactly the images in which the target was found; an empty data set is reported as an error.", "quantifier": "for all data sets and detection failures", "why_tests_cant": "All patterns.", "anchors": ["rct_examples/src/tools/intrinsic_calibration.cpp"]}
{"id": "C111", "title": "lookAt gives a camera pose facing the point", "statement": "lookAt(origin, eye, up) returns a rigid pose at origin with the eye point straight ahead on the optical axis, for all distinct points and every up vector.", "quantifier": "for all points and up vectors", "why_tests_cant": "All geometric configurations, including view directions along the up vector.", "anchors": ["rct_optimizations/test/src/pose_generator.cpp: lookAt"]}
{"id": "C112", "title": "Pose generators produce camera poses facing the target", "statement": "Every pose made by the hemisphere, conical and grid generators is rigid, lies where the generator's shape says, and has the target origin straight ahead.", "quantifier": "for all radii, heights, counts, target poses and offsets", "why_tests_cant": "The input space is a continuum (or an unbounded family of sizes); a unit test fixes finitely many values.", "anchors": ["rct_optimizations/test/src/pose_generator.cpp: HemispherePoseGenerator, ConicalPoseGenerator, GridPoseGenerator"]}
{"id": "C113", "title": "Random z rotation generator turns each pose about its optical axis", "statement": "RandomZRotPoseGenerator returns the poses of the wrapped generator, each turned about its own z axis by an angle drawn from the given range.", "quantifier": "for all generators, ranges and random engines", "why_tests_cant": "All random streams.", "anchors": ["rct_optimizations/test/src/pose_generator.cpp: RandomZRotPoseGenerator"]}
{"id": "C114", "title": "Simulated correspondences are the visible points", "statement": "getCorrespondences returns, in order, exactly the target points in front of the camera whose pinhole image is inside the image, each with that image; with require_all it throws exactly if some point is not visible; without camera it returns all points in camera coordinates.", "quantifier": "for all poses, cameras and targets", "why_tests_cant": "The input space is a continuum (or an unbounded family of sizes); a unit test fixes finitely many values.", "anchors": ["rct_optimizations/test/src/observation_creator.cpp: getCorrespondences, projectAndTest"]}
{"id": "C115", "title": "Simulated observations are explained by the true transforms", "statement": "createObservations returns one observation for each generated pose, whose camera pose and correspondences are those of that pose relative to the target; with a common base the true transforms make all hand-eye residuals zero (residuals: for transforms whose rotation angle is zero or above the small-angle threshold of the pose conversion; C172 bounds the rest).", "quantifier": "for all pose generators, rigid transforms, cameras and targets", "why_tests_cant": "The input space is a continuum (or an unbounded family of sizes); a unit test fixes finitely many values.", "anchors": ["rct_optimizations/test/src/observation_creator.cpp: createObservations"]}
{"id": "C116", "title": "Simulated cameras look at the target", "statement": "If the poses produced by the generators have the target straight ahead, so have the cameras of all simulated observations.", "quantifier": "for all generators and rigid transforms", "why_tests_cant": "The input space is a continuum (or an unbounded family of sizes); a unit test fixes finitely many values.", "anchors": ["rct_optimizations/test/src/observation_creator.cpp: createObservations", "rct_optimizations/test/src/pose_generator.cpp"]}
{"id": "C117", "title": "Kinematic observation sampling ends with usable data or an error", "statement": "createKinematicObservations with a camera ends after at most 10000 attempts; it throws a runtime error or returns at least the requested number of observations, each non-empty, with joints inside the limits, the camera facing the target and exactly the visible points; if no state shows the target, it throws.", "quantifier": "for all chains, transforms, cameras, targets, counts and random engines", "why_tests_cant": "All random streams.", "anchors": ["rct_optimizations/test/src/dh_chain_observation_creator.cpp: createKinematicObservations"]}
{"id": "C118", "title": "Simulated kinematic data has zero residual at the truth", "statement": "Every simulated kinematic measurement closes the kinematic loop and gives zero residuals at the true parameters; so does every simulated correspondence more than 1e-10 in front of the camera.", "quantifier": "for all chains, transforms whose rotation is zero or more than 2^-52 rad, and random engines", "why_tests_cant": "The input space is a continuum (or an unbounded family of sizes); a unit test fixes finitely many values.", "anchors": ["rct_optimizations/test/src/dh_chain_observation_creator.cpp: createKinematicMeasurements, createKinematicObservations", "rct_optimizations/include/rct_optimizations/dh_chain_kinematic_calibration.h: DualDHChainCostPose6D, DualDHChainCost2D3D"]}
{"id": "C119", "title": "Pose perturbation respects the noise bounds", "statement": "perturbPose multiplies the pose by a rigid motion that shifts by at most the spatial noise along each axis and turns by at most the angular noise (provided the drawn axis is not the zero vector); without noise the pose is unchanged.", "quantifier": "for all rigid poses, noise levels and random engines", "why_tests_cant": "All random streams.", "anchors": ["rct_optimizations/test/src/utilities.cpp: perturbPose"]}
{"id": "C120", "title": "Pose perturbation varies shift and rotation independently", "statement": "The shift, the rotation axis and the rotation angle of perturbPose vary independently of each other over the seeds.", "quantifier": "for all seeds, poses and noise levels", "why_tests_cant": "All seeds.", "anchors": ["rct_optimizations/test/src/utilities.cpp: perturbPose"]}
{"id": "C121", "title": "Chain perturbation changes only the DH parameters", "statement": "perturbDHChain returns a chain that differs from the given one only in the DH parameters, which are shifted by the drawn noise; joint types, names, limits and base are kept.", "quantifier": "for all chains and noise values", "why_tests_cant": "All chains.", "anchors": ["rct_optimizations/test/src/utilities.cpp: perturbDHChain"]}
{"id": "C122", "title": "Simulated target geometry", "statement": "The points of the simulated target are the grid points row by row from the top, origin_idx is the number of the point at the origin and center is the midpoint of the grid.", "quantifier": "for all numbers of rows and columns and spacings", "why_tests_cant": "All sizes.", "anchors": ["rct_optimizations/test/include/rct_optimizations_tests/utilities.h: Target"]}
{"id": "C123", "title": "Cartesian observations from chains are explained by the true mounts", "statement": "createObservations for two DH chains returns observations whose correspondences are explained by the camera and target mount poses stored in them together with the true mount transforms.", "quantifier": "for all chains, transforms between the bases, cameras and random engines", "why_tests_cant": "The input space is a continuum (or an unbounded family of sizes); a unit test fixes finitely many values.", "anchors": ["rct_optimizations/test/src/dh_chain_observation_creator.cpp: createObservations"]}
{"id": "C124", "title": "PnP costs are those of the reported pose and of the guess", "statement": "The final (initial) cost per observation reported by PnP is half the mean squared reprojection error of the reported pose (of the rigid guess), for features in front of the camera; for 3D PnP half the mean squared coordinate difference.", "quantifier": "for all solvers, correspondences, intrinsics and guesses", "why_tests_cant": "The input space is a continuum (or an unbounded family of sizes); a unit test fixes finitely many values.", "anchors": ["rct_optimizations/src/rct_optimizations/pnp.cpp: optimize", "rct_optimizations/include/rct_optimizations/pnp.h"]}
{"id": "C125", "title": "Multi camera PnP costs cover all cameras", "statement": "The final (initial) cost per observation reported by the multi camera PnP is half the mean squared reprojection error of the features of all cameras, each with the intrinsics and the pose of its own camera, for the reported target pose (the guess); with exact images and the true pose as guess the final cost is zero.", "quantifier": "for all numbers of cameras, correspondences, camera poses (rotation zero or at least 1.5e-8 rad) and solvers", "why_tests_cant": "The input space is a continuum (or an unbounded family of sizes); a unit test fixes finitely many values.", "anchors": ["rct_optimizations/src/rct_optimizations/multi_camera_pnp.cpp: optimize"]}
{"id": "C126", "title": "Static camera calibration costs are those of the reported transforms", "statement": "In the three calibrations of static cameras the final (initial) cost per observation is half the mean squared reprojection error of all features, computed from the reported camera and target poses (from the guesses) with the intrinsics of each camera.", "quantifier": "for all numbers of cameras and images, observations, known poses (rotation zero or at least 1.5e-8 rad), rigid results and solvers", "why_tests_cant": "The input space is a continuum (or an unbounded family of sizes); a unit test fixes finitely many values.", "anchors": ["rct_optimizations/src/rct_optimizations/extrinsic_multi_static_camera.cpp: optimize", "rct_optimizations/src/rct_optimizations/extrinsic_multi_static_camera_only.cpp: optimize", "rct_optimizations/src/rct_optimizations/extrinsic_multi_static_camera_wrist_only.cpp: optimize"]}
{"id": "C127", "title": "A calibration does not worsen the fit", "statement": "The sum of the squared errors of the reported transforms does not exceed that of the guesses, in PnP, multi camera PnP, hand-eye and static camera calibrations, for every solver that does not increase its cost.", "quantifier": "for all problems and solvers that do not increase the cost", "why_tests_cant": "The input space is a continuum (or an unbounded family of sizes); a unit test fixes finitely many values.", "anchors": ["rct_optimizations/src/rct_optimizations/pnp.cpp: optimize", "rct_optimizations/src/rct_optimizations/multi_camera_pnp.cpp: optimize", "rct_optimizations/src/rct_optimizations/extrinsic_hand_eye.cpp: optimize", "rct_optimizations/src/rct_optimizations/extrinsic_multi_static_camera.cpp: optimize"]}
{"id": "C128", "title": "Equal marker boards pair features alike", "statement": "If two ArUco (ChArUco) targets compare equal, they create the same correspondences, or the same exception, for all features; comparison is reflexive and symmetric.", "quantifier": "for all boards and feature maps", "why_tests_cant": "The input space is a continuum (or an unbounded family of sizes); a unit test fixes finitely many values.", "anchors": ["rct_image_tools/src/rct_image_tools/aruco_grid_target.cpp: operator==", "rct_image_tools/src/rct_image_tools/charuco_grid_target.cpp: operator=="]}
{"id": "C129", "title": "Equal circle grids have the same points", "statement": "Circle grid targets that compare equal have the same target points, and equality is an equivalence relation.", "quantifier": "for all targets", "why_tests_cant": "The input space is a continuum (or an unbounded family of sizes); a unit test fixes finitely many values.", "anchors": ["rct_image_tools/src/rct_image_tools/modified_circle_grid_target.cpp: operator=="]}
{"id": "C130", "title": "Equal marker boards are the same board", "statement": "Marker targets that compare equal agree in grid, lengths (up to the epsilon of float), points and dictionary of markers.", "quantifier": "for all targets", "why_tests_cant": "The input space is a continuum (or an unbounded family of sizes); a unit test fixes finitely many values.", "anchors": ["rct_image_tools/src/rct_image_tools/aruco_grid_target.cpp: operator==", "rct_image_tools/src/rct_image_tools/charuco_grid_target.cpp: operator=="]}
{"id": "C131", "title": "Drawn markers are the detected ones", "statement": "After detection, the ids and corners that the marker finders draw are exactly the first detections of every id.", "quantifier": "for all detections with ids 0..2^31-1", "why_tests_cant": "The input space is a continuum (or an unbounded family of sizes); a unit test fixes finitely many values.", "anchors": ["rct_image_tools/src/rct_image_tools/aruco_finder.cpp: drawTargetFeatures", "rct_image_tools/src/rct_image_tools/charuco_finder.cpp: drawTargetFeatures"]}
{"id": "C132", "title": "Circle grid plugin uses the stated configuration", "statement": "A configuration with rows, columns, spacing and a complete block of detector parameters gives a finder with exactly these; without a block the defaults are used; without rows, columns or spacing there is an exception.", "quantifier": "for all configuration documents and values", "why_tests_cant": "The input space is a continuum (or an unbounded family of sizes); a unit test fixes finitely many values.", "anchors": ["rct_ros_tools/src/target_loader_plugins.cpp: ModifiedCircleGridTargetFinderPlugin::init"]}
{"id": "C133", "title": "Unstated detector parameters keep their defaults", "statement": "Detector parameters stated in the configuration are used and those not stated keep their default values.", "quantifier": "for all configuration documents", "why_tests_cant": "The input space is a continuum (or an unbounded family of sizes); a unit test fixes finitely many values.", "anchors": ["rct_ros_tools/src/target_loader_plugins.cpp: loadCircleDetectorParams"]}
{"id": "C134", "title": "Circle grid sizes are positive", "statement": "A circle grid configuration is accepted only if the numbers of rows and columns are positive, and the target has these numbers.", "quantifier": "for all configuration documents", "why_tests_cant": "The input space is a continuum (or an unbounded family of sizes); a unit test fixes finitely many values.", "anchors": ["rct_ros_tools/src/target_loader_plugins.cpp: ModifiedCircleGridTargetFinderPlugin::init"]}
{"id": "C135", "title": "ChArUco plugin uses the stated configuration", "statement": "The board is created with the stated numbers of columns and rows, square length, marker length and dictionary; if one is missing or unreadable there is an exception.", "quantifier": "for all configuration documents", "why_tests_cant": "The input space is a continuum (or an unbounded family of sizes); a unit test fixes finitely many values.", "anchors": ["rct_ros_tools/src/target_loader_plugins.cpp: CharucoGridTargetFinderPlugin::init"]}
{"id": "C136", "title": "Kinematic measurements load as written", "statement": "A document whose entries state the joints of both chains as lists of numbers and the pose as position and quaternion loads to exactly these measurements, in order; every failure is reported as BadFileException.", "quantifier": "for all documents, files and numbers of entries", "why_tests_cant": "the set of YAML documents is infinite and there is no test of the example; a swapped key only shows for entries in which the two values differ", "anchors": ["rct_examples/src/examples/kinematic_calibration.cpp: loadMeasurements"]}
{"id": "C137", "title": "Incomplete kinematic measurements are rejected", "statement": "A document in which an entry lacks joints or part of the pose, or in which a number is unreadable, is rejected.", "quantifier": "for all documents", "why_tests_cant": "absence of a rejection must be shown for every key, position and kind of document", "anchors": ["rct_examples/src/examples/kinematic_calibration.cpp: loadMeasurements"]}
{"id": "C138", "title": "Measured poses are rigid", "statement": "Every pose that is loaded from a measurement file is a rigid motion.", "quantifier": "for all documents", "why_tests_cant": "depends on the quaternion of the file; tests use normalised ones", "anchors": ["rct_examples/src/examples/kinematic_calibration.cpp: loadMeasurements"]}
{"id": "C139", "title": "Comparison with measurements", "statement": "The statistics are mean and standard deviation of the distances and of the angles between the measured target poses and those that close the loop with the calibrated chains and transforms; the means are zero exactly if all measurements close the loop; too many joint values are an error.", "quantifier": "for all chains, results and nonempty sets of measurements", "why_tests_cant": "a wrong side of an inverse is invisible when rotations are small or the fit is perfect", "anchors": ["rct_examples/src/examples/kinematic_calibration.cpp: compareToMeasurements"]}
{"id": "C140", "title": "Percentage of improvement", "statement": "The percentage is undefined exactly for a reference of zero, positive exactly if the other value is smaller, and a hundred exactly if it is zero.", "quantifier": "for all pairs of statistics", "why_tests_cant": "The input space is a continuum (or an unbounded family of sizes); a unit test fixes finitely many values.", "anchors": ["rct_examples/src/examples/kinematic_calibration.cpp: Stats::percentDiff"]}
{"id": "C141", "title": "Hand-eye analysis compares with PnP estimates", "statement": "The analysis reports mean and standard deviation of distance (m) and angle (degrees) between the calibrated target poses and the PnP estimates of the images, each from a converged optimization; without enough observations there is no report.", "quantifier": "for all data sets, calibration results and solvers", "why_tests_cant": "needs all solvers, including those that stop without convergence", "anchors": ["rct_examples/src/tools/hand_eye_calibration_analysis.h: analyzeResults, reproject"]}
{"id": "C142", "title": "Statistics of 3D projection errors", "statement": "The analysis reports mean, sample standard deviation, minimum and maximum of the 3D projection errors for every data set; the mean lies between minimum and maximum.", "quantifier": "for all data sets", "why_tests_cant": "division by n - 1 and reads of empty arrays only show at the smallest sizes", "anchors": ["rct_examples/src/tools/hand_eye_calibration_analysis.h: analyze3DProjectionError"]}
{"id": "C143", "title": "Position residual of pose measurements", "statement": "The position residual of a pose measurement has the length of the distance between measured and predicted position of the target.", "quantifier": "for all chains, parameters and measurements", "why_tests_cant": "tests end with a perfect fit, where both agree", "anchors": ["rct_optimizations/include/rct_optimizations/dh_chain_kinematic_calibration.h: DualDHChainCostPose6D"]}
{"id": "C144", "title": "Printed cost is the pixel error", "statement": "The printed cost in pixels per dot is the root mean square distance between projected and measured image points.", "quantifier": "for all PnP problems and solvers", "why_tests_cant": "the factor is only visible in text output, which no test reads", "anchors": ["rct_common/include/rct_common/print_utils.h: printOptResults"]}
{"id": "C145", "title": "Printed transform describes the transform", "statement": "The printed position, roll, pitch and yaw (fixed axes) and quaternion each describe the transform; different transforms are printed differently.", "quantifier": "for all rigid motions", "why_tests_cant": "order and convention of the angles must be right at all orientations, including pitch of 90 degrees", "anchors": ["rct_common/include/rct_common/print_utils.h: printTransform, getStringRPY, getStringQuaternion"]}
{"id": "C146", "title": "Printed difference of transforms", "statement": "Both printed distances are the distance of the origins, the printed angle is the angle between the frames in degrees, in [0, 180] and zero exactly for equal orientations, and the printed relative position and angles lead from the first frame to the second.", "quantifier": "for all pairs of rigid motions", "why_tests_cant": "The input space is a continuum (or an unbounded family of sizes); a unit test fixes finitely many values.", "anchors": ["rct_common/include/rct_common/print_utils.h: printTransformDiff"]}
{"id": "C147", "title": "Intrinsic covariance labels name the right parameter", "statement": "Every entry of the covariance report of an intrinsic calibration carries the name of the parameter it belongs to: fx, fy, cx, cy, k1, k2, p1, p2, k3 of the reported values, and the components of the pose of the target in each image.", "quantifier": "for all data sets, guesses and solvers", "why_tests_cant": "the report is only text in the existing tests; wrong labels change no number", "anchors": ["rct_optimizations/include/rct_optimizations/experimental/camera_intrinsic.h: labels_intrinsic_params, labels_isometry3d", "rct_optimizations/src/rct_optimizations/camera_intrinsic.cpp: optimize"]}
{"id": "C148", "title": "Points on a circle determine the fit", "statement": "If all observations lie on one circle and three of them are not on one line, the circle fit reports a final cost of zero exactly if it reports that circle; two observations never suffice, since two different circles pass through them.", "quantifier": "for all circles, observations and solver outcomes", "why_tests_cant": "Uniqueness is a statement about all circles that could be reported; a test only sees the one the solver found.", "anchors": ["rct_optimizations/src/rct_optimizations/circle_fit.cpp: optimize, CircleDistCost"]}
{"id": "C149", "title": "Measured triangle determines the pose (PnP, 3D)", "statement": "With exact 3D measurements of target points of which three are not on one line, PnP reports a final cost of zero exactly if it reports the true pose.", "quantifier": "for all poses, target points and solver outcomes", "why_tests_cant": "Uniqueness ranges over all rigid poses; a test compares one outcome.", "anchors": ["rct_optimizations/src/rct_optimizations/pnp.cpp: optimize(PnPProblem3D)"]}
{"id": "C150", "title": "Image of a planar target determines the pose (PnP)", "statement": "With exact pixels of a planar target of which four points have no three on one line, seen from outside its plane, PnP reports a final cost of zero exactly if it reports the true pose.", "quantifier": "for all poses, focal lengths, planar targets and solver outcomes", "why_tests_cant": "A test with a good guess always ends at the true pose; other poses of zero cost are only found by quantifying over all of them.", "anchors": ["rct_optimizations/src/rct_optimizations/pnp.cpp: optimize(PnPProblem)", "rct_optimizations/include/rct_optimizations/ceres_math_utilities.h: projectPoint (63-91)"]}
{"id": "C151", "title": "Image of a planar target determines the pose (several cameras)", "statement": "If one of the cameras sees, from outside its plane, four points of a planar target of which no three are on one line, the multi camera PnP with exact pixels reports a final cost of zero exactly if it reports the true pose.", "quantifier": "for all numbers and poses of cameras, planar targets and solver outcomes", "why_tests_cant": "A test with a good guess always ends at the true pose; the mirrored pose behind the camera is only found by quantifying over all poses.", "anchors": ["rct_optimizations/src/rct_optimizations/multi_camera_pnp.cpp: optimize", "rct_optimizations/include/rct_optimizations/ceres_math_utilities.h: projectPoint (36-61)"]}
{"id": "C152", "title": "Turns about two axes determine the hand-eye calibration", "statement": "If the observations are exact, each of them shows a triangle (3D) or four points of a plane, no three on one line, in front of the camera for the true and for the reported calibration (2D), and between them the robot turned about two different axes, the hand-eye calibration reports a final cost of zero exactly if it reports the true camera and target transforms.", "quantifier": "for all true calibrations, robot poses, targets and solver outcomes", "why_tests_cant": "Uniqueness ranges over all pairs of rigid transforms; a test compares one outcome for one set of poses.", "anchors": ["rct_optimizations/src/rct_optimizations/extrinsic_hand_eye.cpp: optimize"]}
{"id": "C153", "title": "Turns about one axis leave the hand-eye calibration undetermined", "statement": "If all motions of the robot between the observations leave one direction of the camera mount unchanged, the calibrated camera can be moved along it by any distance, with a suitable target pose, without changing any reprojection error: for every result and distance there is a run with the same final cost that reports the camera moved by that distance.", "quantifier": "for all observations, calibrations and distances", "why_tests_cant": "A test on such data sees one of infinitely many equally good results and may pass by luck of the guess.", "anchors": ["rct_optimizations/src/rct_optimizations/extrinsic_hand_eye.cpp: ObservationCost"]}
{"id": "C154", "title": "Camera-only calibration determines relative poses", "statement": "In the calibration of static cameras without known target poses, moving all cameras and target poses together changes no error, so that unless the first camera is fixed every shift of a result is the result of another run with the same cost; with exact images of a planar target (in front of the cameras) and zero final cost, two cameras that see it in a common image are reported with their true relative pose, and at their true poses if the first of them is fixed at its own.", "quantifier": "for all numbers of cameras and images, common motions and solver outcomes", "why_tests_cant": "Both parts quantify over continuous families of poses.", "anchors": ["rct_optimizations/src/rct_optimizations/extrinsic_multi_static_camera_only.cpp: optimize, ReprojectionFreeCameraCost, ReprojectionFixedCameraCost"]}
{"id": "C155", "title": "Kinematic parameters that data cannot separate", "statement": "In kinematic calibration any change of link length and twist of the last joint of a chain is undone, in all residuals, by a change of the transform from its mount, and any change of offset and angle of the first joint of a chain by a change of the transform between the bases, so these parameters need to be masked.", "quantifier": "for all chains, offsets, joint values and measurements", "why_tests_cant": "The claim is that no measurement whatsoever distinguishes the parameters.", "anchors": ["rct_optimizations/include/rct_optimizations/dh_chain_kinematic_calibration.h: DualDHChainCost2D3D, DualDHChainCostPose6D", "rct_optimizations/src/rct_optimizations/dh_chain.cpp: getFK, createRelativeTransform"]}
{"id": "C156", "title": "Automatic derivatives are the derivatives of the residuals", "statement": "Along every differentiable change of the parameters, the derivatives the cost functions hand to the solver (evaluated with ceres::Jet) are the derivatives of their residuals, wherever no rotation vector lies on a branch threshold.", "quantifier": "for all calibrations, parameters, directions and differentiable curves", "why_tests_cant": "Tests check converged results; a wrong derivative of one branch only slows down or stops some searches.", "anchors": ["rct_optimizations/src/rct_optimizations/extrinsic_hand_eye.cpp: ObservationCost", "rct_optimizations/src/rct_optimizations/pnp.cpp: SolvePnPCostFunc", "rct_optimizations/include/rct_optimizations/circle_fit.h: CircleDistCost", "rct_optimizations/include/rct_optimizations/ceres_math_utilities.h", "rct_optimizations/include/rct_optimizations/dh_chain_kinematic_calibration.h: DualDHChainCost2D3D, DualDHChainCostPose6D"]}
{"id": "C157", "title": "PnP starts from every guess", "statement": "At every initial guess the derivatives of the PnP residuals are finite, so that the solver can take a first step; a run never fails merely because the guess has no rotation.", "quantifier": "for all guesses, correspondences and directions", "why_tests_cant": "The derivative at one guess (no rotation) differs from all others; tests perturb their guesses.", "anchors": ["rct_optimizations/src/rct_optimizations/pnp.cpp: SolvePnPCostFunc, optimize"]}
{"id": "C158", "title": "Kinematic calibration can correct every orientation", "statement": "An orientation of the camera mount, target mount or base guessed as identity can be corrected by the kinematic calibration like any other guess.", "quantifier": "for all chains, measurements, guesses and solvers that move parameters by their derivatives", "why_tests_cant": "Whether a parameter can move depends on the derivative at the guess and at all later states of the search.", "anchors": ["rct_optimizations/include/rct_optimizations/dh_chain_kinematic_calibration.h: createTransform, DualDHChainCost2D3D, DualDHChainCostPose6D"]}
{"id": "C159", "title": "Calibrations with pose blocks start from every guess", "statement": "Hand-eye, static camera, multi camera PnP, intrinsic and kinematic cost functions have finite derivatives at every parameter value, and a pose block that starts to turn from no rotation moves points as a rotation does.", "quantifier": "for all parameters, directions, observations and target points", "why_tests_cant": "Zero rotation is a single value at which the general formula divides by zero.", "anchors": ["rct_optimizations/include/rct_optimizations/ceres_math_utilities.h: transformPoint, poseTransformPoint", "rct_optimizations/src/rct_optimizations/extrinsic_hand_eye.cpp: ObservationCost"]}
{"id": "C160", "title": "Circle fit can change every radius guess", "statement": "From every initial radius that is not negative the circle fit can change the radius.", "quantifier": "for all observations, guesses and solvers that move parameters by their derivatives", "why_tests_cant": "Radius zero is a single value; tests start near the true radius.", "anchors": ["rct_optimizations/src/rct_optimizations/circle_fit.cpp: optimize", "rct_optimizations/include/rct_optimizations/circle_fit.h: CircleDistCost"]}
{"id": "C161", "title": "16 bit images keep their contrast", "statement": "When an image with 16 bit grey values is captured, the 8 bit image that is stored and searched for the target still distinguishes the grey values of the original: different values above noise do not become equal over the whole image.", "quantifier": "for all 16 bit images", "why_tests_cant": "Tests would need images of a 16 bit camera; values below 256 are kept, so dark test images look right.", "anchors": ["rct_ros_tools/src/command_line_cal.cpp: ImageMonitor::onNewImage"]}
{"id": "C162", "title": "The wrist example uses exactly the images in which the target is found", "statement": "The stand-alone wrist example exits with 1 exactly if the data set cannot be parsed; otherwise it calibrates with one observation per image in which the target is found, in order, each with its own wrist pose and a fixed target mount, like the configurable tool without homography check.", "quantifier": "for all data sets, answers of the blob detector and solvers", "why_tests_cant": "The test runs the program on one data set in which the target is found everywhere.", "anchors": ["rct_examples/src/examples/camera_on_wrist.cpp: extrinsicWristCameraCalibration"]}
{"id": "C163", "title": "PnP with OpenCV and with the solver", "statement": "The PnP tool describes the same camera to OpenCV as to the solver, turns OpenCV's answer into the rigid pose that projects the target points exactly where OpenCV says, starts the solver from a rigid guess in front of the camera at which all derivatives are finite, and exits with -1 without leaking exceptions on every failure.", "quantifier": "for all intrinsics, correspondences, answers of OpenCV, images and solvers", "why_tests_cant": "There is no test of the tool; agreement of two cameras concerns all points.", "anchors": ["rct_examples/src/tools/solve_pnp.cpp: solveCVPnP, main"]}
{"id": "C164", "title": "The kinematic example compares calibrated and nominal joints", "statement": "For all loaded measurements the example calibrates twice and compares both results with the measurements: the first run keeps the transform between the bases and the last joint, the second run keeps the whole chain, and the statistics are means and deviations of the distances and angles between measured and predicted poses of the respective chain.", "quantifier": "for all measurements, guesses, solvers and random seeds", "why_tests_cant": "The program has no test; the claim concerns all results a solver may return under the masks.", "anchors": ["rct_examples/src/examples/kinematic_calibration.cpp: main, createTwoAxisPositioner, compareToMeasurements"]}
{"id": "C165", "title": "The kinematic example finds the true parameters", "statement": "If the measurements are exact for a two axis positioner, the chain the example reports with zero error is the true chain: the DH parameters of its calibrated joints and the mount transforms are determined by the measurements. With the chain fixed, the statistics are zero exactly for the true transforms.", "quantifier": "for all exact measurements in which both joints move, all chains and all calibrations", "why_tests_cant": "Uniqueness compares with all other parameter values; the example only prints one.", "anchors": ["rct_examples/src/examples/kinematic_calibration.cpp: main, createTwoAxisPositioner"]}
{"id": "C166", "title": "Collected data with two turns determine the wrist calibration", "statement": "If an operator collects images and wrist poses in any order of events, saves them, and the wrist tool loads the files and calibrates, then, provided the detections are true and the captures in which the target is found contain two turns of the wrist about different axes, the tool reports zero error exactly if it reports the true poses of camera and target. The same holds for the static camera tool and a target on the wrist.", "quantifier": "for all histories of events, file systems, images, detectors, true poses and results of the solver", "why_tests_cant": "The claim composes collector, files, loader, tool and solver for all inputs; tests exercise the parts.", "anchors": ["rct_ros_tools/src/command_line_cal.cpp: onTrigger", "rct_ros_tools/src/data_set.cpp: saveToDirectory, parseFromFile", "rct_examples/src/tools/camera_on_wrist_extrinsic.cpp: main", "rct_optimizations/src/rct_optimizations/extrinsic_hand_eye.cpp: optimize"]}
{"id": "C167", "title": "The printed dot target is the target the finder assumes", "statement": "For all numbers of dots, spacings and dot sizes for which no dot covers the centre mark of its neighbours, the page printed by the target script shows, to scale and in the requested colours, exactly the dots of the circle grid target with the same rows, columns and spacing, a dot of double size at its origin, and a centre mark in each dot.", "quantifier": "for all numbers of rows and columns below 2^32 - 1, positive dot sizes, spacings above 0.53 dot sizes and both colour schemes, and all points of the page", "why_tests_cant": "There is no test of the script; the claim concerns every point of the page.", "anchors": ["rct_image_tools/script/calibration_target.py: dotTarget.draw", "rct_image_tools/src/rct_image_tools/modified_circle_grid_target.cpp: createPoints"]}
{"id": "C168", "title": "Printed dots are complete and separate", "statement": "Whatever numbers are given, the dots of a printed dot target are completely on the page and do not merge, so that the finder can detect them.", "quantifier": "for all numbers of dots, spacings and dot sizes", "why_tests_cant": "The page size formula is right for usual sizes; the exact limits concern all real numbers.", "anchors": ["rct_image_tools/script/calibration_target.py: dotTarget.get_pageSize, dotTarget.draw"]}
{"id": "C169", "title": "A printed checkerboard has the requested number of intersections", "statement": "The header of the target script describes the grid dimensions as the number of intersections in width and height: a printed checkerboard has exactly that many inner crossings, one spacing apart.", "quantifier": "for all grid dimensions and spacings", "why_tests_cant": "There is no test of the script; the claim counts points of the whole page.", "anchors": ["rct_image_tools/script/calibration_target.py: checkerTarget.draw"]}
{"id": "C170", "title": "The options of the target script mean what they say", "statement": "Dots are printed white on black if the word after --invert says true and black on white otherwise, checkerboards are inverted likewise, and separate spacings for width and height are accepted.", "quantifier": "for all option values, grid dimensions and points of the page", "why_tests_cant": "There is no test of the script; default options behave as described.", "anchors": ["rct_image_tools/script/calibration_target.py: parse_args, calTarget.__init__"]}
{"id": "C171", "title": "Pose conversions lose at most rounding", "statement": "A six-value pose acts on points like the rigid motion about its rotation vector, and converting a rigid transform to a six-value pose and back gives the same transform, up to 2^-52 times the distance of the point; likewise for inverses, relative to the distances of the point and of the frames. This includes the tiny rotations for which the conversions are not exact.", "quantifier": "for all poses, rigid transforms and points", "why_tests_cant": "The error is below the tolerance of any floating-point comparison; the bound concerns all transforms.", "anchors": ["rct_optimizations/src/rct_optimizations/eigen_conversions.cpp: poseCalToEigen, poseEigenToCal", "rct_optimizations/include/rct_optimizations/ceres_math_utilities.h: transformPoint"]}
{"id": "C172", "title": "Perfect hand-eye data leaves rounding errors only", "statement": "If every observed feature is where the guessed transforms put it, each residual at the guess is at most 2^-51 times the summed distances of the target point from the target, target mount, base and camera mount frames (3D), or what such an error makes in the image (2D, depth not below 2^-50 times these distances, where the visibility check also passes). No condition on rotation angles.", "quantifier": "for all rigid guesses and mount poses including tiny rotations, and all observations consistent with them", "why_tests_cant": "Simulated tests use a few poses with large rotations.", "anchors": ["rct_optimizations/src/rct_optimizations/extrinsic_hand_eye.cpp: optimize, ObservationCost"]}
{"id": "C173", "title": "Guesses come back up to rounding", "statement": "If the solver returns its starting point, hand-eye, multi-camera PnP, static camera (all variants, at least one image for the camera-only one) and kinematic calibration report the initial guesses up to 2^-52 times the distances of the point and the frames, for every rigid guess; so does the camera-only calibration for a fixed first camera whatever the solver does.", "quantifier": "for all problems, all rigid guesses including tiny rotations", "why_tests_cant": "Tests compare with tolerances for guesses with ordinary rotations.", "anchors": ["rct_optimizations/src/rct_optimizations/extrinsic_hand_eye.cpp: optimize", "rct_optimizations/src/rct_optimizations/extrinsic_multi_static_camera.cpp: optimize", "rct_optimizations/src/rct_optimizations/dh_chain_kinematic_calibration.cpp: optimize"]}
{"id": "C174", "title": "Hand-eye residuals are reprojection errors of the reported transforms up to rounding", "statement": "At every parameter state the transforms reported for it are within 2^-52 (times distances) of rigid transforms whose reprojection errors differ from the optimised residuals by at most 2^-51 times the summed distances of the target point from the frames (3D), or by what such an error makes in the image (2D).", "quantifier": "for all parameter states including tiny rotations, all rigid mount poses and all observations", "why_tests_cant": "Tests only look at converged results within a tolerance.", "anchors": ["rct_optimizations/src/rct_optimizations/extrinsic_hand_eye.cpp: optimize, ObservationCost"]}
{"id": "C175", "title": "Kinematic calibration does not worsen the fit", "statement": "The calibration a kinematic run reports disagrees with the measurements, offsets included, at most as much as the nominal chains with the guessed transforms: the sum of squared position errors and weighted angles (measured poses), or of squared pixel distances if all points are in front of the guessed and the reported camera (measured pixels), plus the squared offsets relative to their expected deviations. The final cost is zero exactly if the reported calibration has no offsets and predicts all measured poses.", "quantifier": "for all chains with rigid bases, measurements, masks, guesses whose rotation is zero or above the small-angle threshold, and all solvers that never return a worse point than they started from", "why_tests_cant": "Tests look at a few simulated robots on which the solver converges; the claim concerns every outcome.", "anchors": ["rct_optimizations/src/rct_optimizations/dh_chain_kinematic_calibration.cpp: optimize"]}
{"id": "C176", "title": "The true kinematic calibration is the best one", "statement": "If the measurements are exact, no calibration has a smaller kinematic cost than the true one. (Holds for robots without offsets; for every robot with offsets it is false, since the cost also contains the offsets and slightly smaller offsets with the same transforms always cost less, whatever the measurements.)", "quantifier": "for all chains, true calibrations, exact pose or pixel measurements and non-zero expected deviations", "why_tests_cant": "Simulated tests compare with a tolerance; the bias towards smaller offsets is below it.", "anchors": ["rct_optimizations/include/rct_optimizations/dh_chain_kinematic_calibration.h: DualDHChainCost", "rct_optimizations/include/rct_optimizations/maximum_likelihood.h: MaximumLikelihood"]}
{"id": "C177", "title": "Images that determine static cameras and the mounting of the target", "statement": "Static cameras watch a planar target on the wrist. If the images are perfect, one camera took four images with four features each, no three of them on one line, between which the wrist turned about two different axes, and every other camera took one such image, then the calibration of cameras and target mount ends with cost zero exactly if it reports the true mounting of the target and the true poses of all cameras.", "quantifier": "for all numbers of cameras and images, true poses, wrist poses, intrinsics with non-zero focal lengths, solvers and results with all features in front of the cameras", "why_tests_cant": "Uniqueness of the minimum concerns all possible results; tests look at the one result found from one guess.", "anchors": ["rct_optimizations/src/rct_optimizations/extrinsic_multi_static_camera.cpp: optimize"]}
{"id": "C178", "title": "Images that determine a common correction of static cameras", "statement": "If the guesses of the camera poses are right relative to each other, the images are perfect, and four images (of any of the cameras) show four features each, no three on one line, at wrist poses between which the wrist turned about two different axes, then the wrist-only calibration ends with cost zero exactly if it reports the true mounting of the target and the true poses of all cameras.", "quantifier": "for all numbers of cameras and images, true poses, common errors of the guesses, wrist poses, solvers and results with all features in front of the cameras", "why_tests_cant": "Uniqueness of the minimum concerns all possible results; tests look at the one result found from one guess.", "anchors": ["rct_optimizations/src/rct_optimizations/extrinsic_multi_static_camera_wrist_only.cpp: optimize"]}
{"id": "C179", "title": "Wrist turns about one axis leave static cameras undetermined", "statement": "If all wrist poses differ by turns about one axis only, then for every result of a calibration of static cameras with a target on the wrist and for every distance there is a run with the same final cost that reports all cameras moved by that distance along the axis.", "quantifier": "for all numbers of cameras and images, observations (perfect or not), results, axes and distances", "why_tests_cant": "Tests use motions that turn about several axes; a degenerate run just returns one of infinitely many equally good results.", "anchors": ["rct_optimizations/src/rct_optimizations/extrinsic_multi_static_camera.cpp: optimize", "rct_optimizations/src/rct_optimizations/extrinsic_multi_static_camera_wrist_only.cpp: optimize"]}
{"id": "C180", "title": "Images used together were taken together", "statement": "When the data of several cameras is loaded, the wrist pose and the images that the multi-camera tools use as one step belong to the same moment, i.e. to the same record number of all data files. (Holds if the same records can be read for all cameras; if some record can be read for one camera only and the numbers of readable records agree, the tools combine data of different moments and end normally.)", "quantifier": "for all file contents, numbers of cameras and records, finders and solvers", "why_tests_cant": "The tests and example data contain all images; the shift appears only when single images are missing or unreadable.", "anchors": ["rct_ros_tools/src/data_set.cpp: parse", "rct_examples/src/tools/multi_static_camera_multi_step_extrinsic.cpp: main", "rct_examples/src/tools/solve_multi_camera_pnp.cpp: main"]}
{"id": "C181", "title": "Images that determine focal lengths and centre", "statement": "A camera without lens distortion takes perfect images of a planar target, among them images with four features each, no three on one line, in which the target plane has three different directions (or two, unless their normals n, m satisfy n.x m.y + n.y m.x = 0). Every intrinsic calibration of these images that ends with cost zero and without distortion reports the true image centre and, up to sign, the true focal lengths.", "quantifier": "for all cameras, target poses, numbers of images, features, guesses and solvers, all results with features not at depth zero", "why_tests_cant": "Uniqueness of the minimum concerns all possible results; tests look at the one result found from one guess.", "anchors": ["rct_optimizations/src/rct_optimizations/camera_intrinsic.cpp: optimize, projectPoints2"]}
{"id": "C182", "title": "Images that leave focal lengths and centre open", "statement": "If the target plane has the same direction in all perfect images (or two directions with n.x m.y + n.y m.x = 0), then whenever the intrinsic calibration returns, there are runs that end with cost zero and without distortion with the true camera and runs that do so with different focal lengths or another centre, with targets in front of the camera in both.", "quantifier": "for all cameras, target poses, numbers of images, features on the target plane and guesses", "why_tests_cant": "A degenerate run just returns one of infinitely many equally good results; a test does not see the others.", "anchors": ["rct_optimizations/src/rct_optimizations/camera_intrinsic.cpp: optimize, projectPoints2"]}
{"id": "C183", "title": "What the extrinsic tools for one camera compute", "statement": "If the wrist tool or the static camera tool ends with exit code 0, the printed transforms, costs and correlations are those of an optimisation with the guesses, intrinsics and threshold given as parameters under their documented names, of exactly those images of the named data set in which the finder named in `target_finder` found the target and whose homography error is not above the threshold, each with the wrist pose of its own record; and the printed projection errors and PnP differences are evaluated with the transforms found, on the same images.", "quantifier": "for all parameters, files, plugins, random numbers and solvers", "why_tests_cant": "The tools have no tests; running one on example data does not show which parameter or image went where.", "anchors": ["rct_examples/src/tools/camera_on_wrist_extrinsic.cpp: main", "rct_examples/src/tools/static_camera_extrinsic.cpp: main"]}
{"id": "C184", "title": "The extrinsic tools for one camera always end with an exit code", "statement": "The wrist tool and the static camera tool end with exit code 0 or -1 for all parameters and files, and with -1 if no image is accepted. (Holds unless the parameter `target_finder` has the wrong shape, e.g. is not a struct or holds an empty list: then an exception of XmlRpc that is no std::exception ends the process.)", "quantifier": "for all parameters, files, plugins that only return or throw, random numbers and solvers", "why_tests_cant": "Every malformed file or parameter is a separate path through loaders, plugins and optimisation; tests try a few.", "anchors": ["rct_examples/src/tools/camera_on_wrist_extrinsic.cpp: main", "rct_examples/src/tools/static_camera_extrinsic.cpp: main", "rct_ros_tools/src/loader_utils.cpp: toYAML, getArrayType"]}
{"id": "C185", "title": "A printed error of zero means the printed transforms are the true ones", "statement": "Images and wrist poses are collected, saved, and given to the wrist tool or the static camera tool. If the detections are exact and the accepted images include two turns of the wrist about different axes with four features each, no three on one line, then the tool prints the final error 0 exactly if the camera and target transforms it prints are the true ones.", "quantifier": "for all sessions, files, parameters, plugins, thresholds, random numbers, guesses and solvers whose rotations are zero or not tiny, and results with all features in front of the camera", "why_tests_cant": "This spans collection, files, loading, detection, optimisation and printing; a test shows it for one recorded session at most.", "anchors": ["rct_ros_tools/src/command_line_cal.cpp: onTrigger, onSave", "rct_ros_tools/src/data_set.cpp: saveToDirectory, parseFromFile", "rct_examples/src/tools/camera_on_wrist_extrinsic.cpp: main", "rct_examples/src/tools/static_camera_extrinsic.cpp: main"]}
{"id": "C186", "title": "What the tools for several cameras compute from their parameters", "statement": "Whenever a tool for several cameras ends with success and all data sets have the same number of images, the problems it solved are exactly those made of its parameters and files: intrinsic parameters, guesses and data set of camera c from the parameters named camera_c; for the static camera tool every image in which a camera saw the target, with the wrist pose recorded with it; for the multi step and PnP tools exactly the images that all cameras saw. The second step starts with the camera poses found in the first. The printed poses and costs are the results of these problems.", "quantifier": "for all parameters, files, plugins, uninitialised memory and solvers, and all numbers of cameras", "why_tests_cant": "A swapped index, guess or parameter name changes the result only slightly; a test on one rig with a fixed expected output does not show that it is right for all rigs.", "anchors": ["rct_examples/src/tools/multi_static_camera_extrinsic.cpp: main", "rct_examples/src/tools/multi_static_camera_multi_step_extrinsic.cpp: main", "rct_examples/src/tools/solve_multi_camera_pnp.cpp: main"]}
{"id": "C187", "title": "What the tools for several cameras show for each image", "statement": "After the calibration every image is shown with the features drawn as camera 0 sees them with the calibration and with a PnP estimate of all cameras that saw the target, and the printed transforms are from camera 0 to the target. For the static camera tool this is false for images in which camera 0 did not see the target: they are shown as another camera sees them, without a note. Images seen by fewer than two cameras are skipped.", "quantifier": "for all parameters, files, plugins, uninitialised memory and solvers, and all numbers of cameras", "why_tests_cant": "The printed numbers look the same for every camera; whether they belong to camera 0 depends on which camera saw which image.", "anchors": ["rct_examples/src/tools/multi_static_camera_extrinsic.cpp: reproject, main", "rct_examples/src/tools/multi_static_camera_multi_step_extrinsic.cpp: reproject, main"]}
{"id": "C188", "title": "Exit codes of the tools for several cameras", "statement": "For all parameters and files the three tools for several cameras end with the exit code 0 or -1, and with -1 if there is no image they can use. This is false: without a camera, with a data set that cannot be read (static camera tool) or with a parameter target_finder of the wrong shape the process does something undefined or is ended; a camera that never sees the target ends the process of the static camera tool; without an image seen by all cameras the multi step tool reports success and prints the base frame as pose of every camera.", "quantifier": "for all parameters, files, plugins, uninitialised memory and solvers, and all numbers of cameras", "why_tests_cant": "There are endlessly many parameter sets and visibility patterns; tests try the ones somebody thought of.", "anchors": ["rct_examples/src/tools/multi_static_camera_extrinsic.cpp: main", "rct_examples/src/tools/multi_static_camera_multi_step_extrinsic.cpp: main", "rct_examples/src/tools/solve_multi_camera_pnp.cpp: main"]}
{"id": "C189", "title": "A zero error of the tools for several cameras means true camera poses", "statement": "If the detections are exact, the wrist turned about two different axes between images of one camera and every camera has an image with four features, no three on one line, the static camera tool prints the error 0 exactly if the poses it prints for all cameras and the target are the true ones. For the tool with two steps: if every camera shares such an image with the first camera, the error 0 after the first step means that the printed camera poses are right relative to each other; and then the error 0 after the second step means that all printed poses are the true ones, and true poses give the error 0.", "quantifier": "for all numbers of cameras, parameters, files, plugins, guesses and solvers whose rotations are zero or not tiny, and results with all features in front of the cameras", "why_tests_cant": "Uniqueness is about all poses the tools could print; a test looks at the one result of one rig.", "anchors": ["rct_examples/src/tools/multi_static_camera_extrinsic.cpp: main", "rct_examples/src/tools/multi_static_camera_multi_step_extrinsic.cpp: main"]}
{"id": "C190", "title": "What the tools for intrinsic calibration, validation, noise and PnP compute", "statement": "Whenever one of these tools ends with success, its printed result is the one of its computation for the camera, poses and image files its parameters name, with the correspondences of exactly the images in which the target is found; the results of OpenCV it prints beside them come from the same correspondences and the same camera. The noise tool breaks this: it uses the features of the first image for all files, so the standard deviations of the position are always zero.", "quantifier": "for all parameters, files, plugins, images, OpenCV results and solvers", "why_tests_cant": "Tests of the library functions do not see which parameters and images a program passes to them.", "anchors": ["rct_examples/src/tools/intrinsic_calibration.cpp: main, opencvCameraCalibration", "rct_examples/src/tools/camera_intrinsic_calibration_validation.cpp: main", "rct_examples/src/tools/noise_qualification_2d.cpp: main", "rct_examples/src/tools/solve_pnp.cpp: main"]}
{"id": "C191", "title": "Exit codes of the tools for intrinsic calibration, validation, noise and PnP", "statement": "For all parameters and files these four tools end with exit code 0 or -1. This is false: a parameter target_finder of the wrong shape or a finder whose features give no correspondences ends the process; an empty data set makes the intrinsic tool read an image that does not exist, one image without a converging pose estimate ends its process; a data set in which no target is found makes the validation tool read beyond an empty list. Otherwise it holds.", "quantifier": "for all parameters, files, plugins that return or throw, OpenCV functions that return or throw, and solvers whose covariance computation reports success or failure", "why_tests_cant": "There are endlessly many parameter sets, files and images; tests try the ones somebody thought of.", "anchors": ["rct_examples/src/tools/intrinsic_calibration.cpp: main", "rct_examples/src/tools/camera_intrinsic_calibration_validation.cpp: main", "rct_examples/src/tools/noise_qualification_2d.cpp: main", "rct_examples/src/tools/solve_pnp.cpp: main"]}
{"id": "C192", "title": "A zero error of intrinsic calibration and PnP means the true camera and pose", "statement": "If the images of a camera without distortion are exact and their planes do not have too few directions, an error of zero without distortion printed by the intrinsic calibration tool means that the printed camera is the true one up to the signs of the focal lengths. If the image of the PnP tool is exact and shows four features, no three on one line, the pose of the optimisation is printed with error zero exactly if it is the true pose, and the pose of OpenCV explains the image exactly if it is the true pose.", "quantifier": "for all cameras, target poses, parameters, files, plugins, OpenCV results and solvers, and results with features in front of the camera (at depths other than zero for the intrinsic calibration)", "why_tests_cant": "Uniqueness is about all cameras and poses the tools could print; a test looks at one result.", "anchors": ["rct_examples/src/tools/intrinsic_calibration.cpp: main", "rct_examples/src/tools/solve_pnp.cpp: main"]}
{"id": "C193", "title": "Verdict of the validation tool on perfect images", "statement": "On perfect images the validation tool calls the intrinsic parameters valid exactly if they are those of the camera. Proved: if every fit the solver returns has error zero, the parameters of the camera are called valid. The converse is false: if the target is parallel to the image, the focal length 1 can be called valid whichever larger focal length the camera has.", "quantifier": "for all cameras, target poses, parameters, files, plugins and solvers whose fits have error zero and all features in front of the camera", "why_tests_cant": "The statement is about all data sets and all wrong parameters; tests try a few.", "anchors": ["rct_examples/src/tools/camera_intrinsic_calibration_validation.cpp: main"]}
{"id": "C194", "title": "Motions or targets that do not determine a hand-eye calibration give an error", "statement": "If all motions of the robot between the images leave one direction unchanged (for example if the robot only turns about one axis or does not turn), or if all features lie on one line of the target, the hand-eye calibration reports an error instead of a result: the calibration from points throws the exception of the covariance computation, the calibration from pixels returns no result unless a feature has depth zero.", "quantifier": "for all numbers and poses of images, all data (also with noise), guesses and solvers whose rotations are zero or not tiny and whose covariance computation reports a Jacobian without full rank, with at least as many residuals as parameters", "why_tests_cant": "A test shows an error for one degenerate data set; that no degenerate data set gives a plausible number is a statement about all of them.", "anchors": ["rct_optimizations/src/rct_optimizations/extrinsic_hand_eye.cpp: optimize", "rct_optimizations/src/rct_optimizations/covariance_analysis.cpp: computeCovariance", "rct_optimizations/include/rct_optimizations/covariance_analysis.h: DefaultCovarianceOptions"]}
{"id": "C195", "title": "Wrist motions or targets that do not determine several static cameras give an error", "statement": "If all motions of the wrist, over the images of all cameras, leave one direction unchanged, or if a direction of the wrist is left unchanged by the motions between images of the same camera, or if all features lie on one line of the target, the calibration of several static cameras returns no result unless a feature has depth zero.", "quantifier": "for all numbers of cameras and images, all data (also with noise), guesses and solvers whose rotations are zero or not tiny and whose covariance computation reports a Jacobian without full rank, with at least as many residuals as parameters", "why_tests_cant": "A test shows an error for one degenerate data set; the property is about all of them.", "anchors": ["rct_optimizations/src/rct_optimizations/extrinsic_multi_static_camera.cpp: optimize", "rct_optimizations/src/rct_optimizations/covariance_analysis.cpp: computeCovariance"]}
{"id": "C196", "title": "PnP with features on one line returns no turned pose", "statement": "If all features lie on one line of the target, PnP returns no pose whose orientation differs from the camera's (at the identity the derivatives of the residuals do not exist).", "quantifier": "for all lines, three or more correspondences (two or more with 3D measurements), all measurements and guesses, and solvers whose covariance computation reports a Jacobian without full rank; from pixels also for all results with features at depths other than the limit of the projection", "why_tests_cant": "A test shows an error for one row of features; the property is about all lines and measurements.", "anchors": ["rct_optimizations/src/rct_optimizations/pnp.cpp: optimize", "rct_optimizations/src/rct_optimizations/covariance_analysis.cpp: computeCovariance"]}
{"id": "C197", "title": "One image with features on one line makes the intrinsic calibration fail", "statement": "If in a single image all features lie on one line of the target (for example if there are only two), the intrinsic calibration returns no result, whatever the other images show.", "quantifier": "for all numbers of images, all measurements and guesses, enough features for the number of unknowns, and solvers that end at poses with rotations zero or not tiny and features at depths other than zero and whose covariance computation reports a Jacobian without full rank", "why_tests_cant": "Which image of many spoils the result is not visible in a test with good images.", "anchors": ["rct_optimizations/src/rct_optimizations/camera_intrinsic.cpp: optimize", "rct_optimizations/src/rct_optimizations/covariance_analysis.cpp: computeCovariance"]}
{"id": "C198", "title": "A circle fit that returns has a circle", "statement": "A circle fit to three or more points that returns has a radius other than zero, and three of the points are not on one line; the only other case is that all points coincide with the reported centre. Conversely the derivatives have full rank for every radius other than zero if three points are not on one line.", "quantifier": "for all lists of three or more points, guesses and solvers whose covariance computation reports a Jacobian without full rank", "why_tests_cant": "A test fits circles to a few point sets; the property is about all of them.", "anchors": ["rct_optimizations/src/rct_optimizations/circle_fit.cpp: optimize", "rct_optimizations/include/rct_optimizations/circle_fit.h: CircleDistCost"]}
{"id": "C199", "title": "Motions without a common direction make every parameter of a hand-eye calibration count", "statement": "If some observations show a triangle (from points) or four features, no three on one line (from pixels), and no direction is left unchanged by all motions between these observations, every change of the estimated poses changes some residual to first order, so that a covariance exists. If all observations show a triangle, this is the case exactly if no direction is left unchanged by all motions; two motions about different axes suffice.", "quantifier": "for all numbers and poses of observations, all measurements (also with noise) and all parameters with rotations that are not tiny and no full turns; from pixels also with no feature at depth zero and no target seen exactly from the side", "why_tests_cant": "Tests compute one covariance of one data set; the property is about all data sets with enough motion and all results.", "anchors": ["rct_optimizations/src/rct_optimizations/extrinsic_hand_eye.cpp: optimize", "rct_optimizations/src/rct_optimizations/covariance_analysis.cpp: computeCovariance"]}
{"id": "C200", "title": "A triangle or a quadrangle makes every parameter of PnP count", "statement": "If the features contain a triangle (3D measurements) or four features of a plane, no three on one line (pixels), every change of the pose changes some residual to first order, so that a covariance exists.", "quantifier": "for all measurements (also with noise) and all poses with a rotation other than zero and full turns; from pixels also with no feature at depth zero and no target seen exactly from the side", "why_tests_cant": "Tests compute one covariance of one image; the property is about all images and poses.", "anchors": ["rct_optimizations/src/rct_optimizations/pnp.cpp: optimize", "rct_optimizations/src/rct_optimizations/covariance_analysis.cpp: computeCovariance"]}
{"id": "C201", "title": "Wrist motions without a common direction make every parameter of several static cameras count", "statement": "If every camera has an image with four features, no three on one line, and no direction of the wrist is left unchanged by all motions between such images of the same camera, every change of the estimated camera and target poses changes some residual to first order, so that a covariance exists. If all images show four such features, this holds exactly if no direction of the wrist is left unchanged by all motions between images of the same camera; motions from one camera's images to another's do not count.", "quantifier": "for all numbers of cameras and images, all measurements (also with noise) and all parameters with rotations that are not tiny and no full turns, with no feature at depth zero and no target seen exactly from the side", "why_tests_cant": "Tests compute one covariance of one rig; the property is about all rigs, motions and results.", "anchors": ["rct_optimizations/src/rct_optimizations/extrinsic_multi_static_camera.cpp: optimize", "rct_optimizations/src/rct_optimizations/covariance_analysis.cpp: computeCovariance"]}
{"id": "C202", "title": "Common images link static cameras", "statement": "In the calibration of static cameras without known target poses call two cameras linked if a chain of cameras leads from one to the other in which neighbours see the target in a common image. With exact images of a planar target (in front of the cameras) and zero final cost, linked cameras are reported with their true relative poses, and at their true poses if they are linked to the fixed first camera and that is at its own; so is the target in their images. Cameras that are not linked to the fixed first camera can be shifted together with their target poses in every result without any change of the cost, so that a zero cost says something about two cameras exactly if they are linked.", "quantifier": "for all numbers of cameras and images, all patterns of which camera sees the target in which image, shifts and solver outcomes", "why_tests_cant": "The patterns of visibility are endlessly many, and that a result is not determined is a statement about other results with the same cost.", "anchors": ["rct_optimizations/src/rct_optimizations/extrinsic_multi_static_camera_only.cpp: optimize"]}
{"id": "C203", "title": "The printed cost bounds the error of a pose from noisy 3D measurements", "statement": "If every measured point deviates from its true position by at most a distance e, the reported pose of the target of PnP (and of hand-eye calibration, in every observation) puts each of the N measured features within e plus the square root of six times N times the reported final cost per observation of its true position; every point between features keeps this bound, points outside a multiple of it, and the orientation error is at most eight times this distance times the size over the area of a triangle of features. A result that fits the data at least as well as the truth is within (1 + sqrt N) e.", "quantifier": "for all poses, features, measurements with bounded noise and results of any solver", "why_tests_cant": "Tests with noise compare one random result with a tolerance; the property bounds the error for all noise.", "anchors": ["rct_optimizations/src/rct_optimizations/pnp.cpp: optimize(PnPProblem3D)", "rct_optimizations/src/rct_optimizations/extrinsic_hand_eye.cpp: optimize(ExtrinsicHandEyeProblem3D3D)"]}
{"id": "C204", "title": "The printed cost bounds the error of a hand-eye calibration from noisy 3D measurements", "statement": "If the measured points are within a known distance of the true ones and three observations show a triangle and are connected by motions about different axes, the errors of the reported camera and target orientations and positions are bounded by an explicit multiple of the noise and of the root of the reported final cost; the factor depends on the triangle, on the sine of the angle between the axes and on the distances only, so that results with small cost on little noise are close to the truth.", "quantifier": "for all calibrations, robot poses, targets, bounded noise and results of any solver", "why_tests_cant": "Tests with noise compare one random result with a tolerance; the property bounds the error for all motions and noise.", "anchors": ["rct_optimizations/src/rct_optimizations/extrinsic_hand_eye.cpp: optimize(ExtrinsicHandEyeProblem3D3D)"]}
{"id": "C205", "title": "Targets parallel to the image leave the focal lengths open", "statement": "If the intrinsic calibration ends with all features of each image at the same depth (targets parallel to the image), then for every factor there is another result with exactly the same cost that has focal lengths larger by this factor, suitably scaled distortions and all targets farther by this factor. The covariance matrix does not exist in this case, so that the calibration reports failure instead of a result.", "quantifier": "for all images (also with noise), lens distortions, factors other than zero and solvers; the failure for every covariance computation that rejects singular Jacobians and at least as many residuals as parameters", "why_tests_cant": "Tests calibrate with tilted targets; that other cameras explain the same images equally well is a statement about infinitely many results.", "anchors": ["rct_optimizations/src/rct_optimizations/camera_intrinsic.cpp: optimize", "rct_optimizations/src/rct_optimizations/covariance_analysis.cpp: computeCovariance"]}
{"id": "C206", "title": "Little pixel noise and a small printed cost mean a pose close to the truth", "statement": "For every camera, target pose and list of features that contains a planar quadrangle seen from the front, and for every wanted accuracy, there is a tolerance such that PnP reports the pose with this accuracy whenever all measured pixels are within the tolerance of the true ones, the reported final cost is below it and the reported pose has the features in front of the camera. No second pose far from the truth can fit the image about as well. A result that fits the image at least as well as the true pose (for instance any result of a descent from the true pose) needs no bound on the cost. The same holds for the PnP tool, whatever image it reads.", "quantifier": "for all cameras, poses, features and accuracies; then for all measurements within the tolerance, guesses and solver outcomes", "why_tests_cant": "Tests check single noisy images; that no other pose fits is a statement about all poses and images.", "anchors": ["rct_optimizations/src/rct_optimizations/pnp.cpp: optimize(PnPProblem)", "rct_examples/src/tools/solve_pnp.cpp: main"]}
{"id": "C207", "title": "Little pixel noise and a small printed cost mean a hand-eye calibration close to the truth", "statement": "For every camera, calibration, list of robot poses and features in which three images show a planar quadrangle and are connected by motions about different axes, and for every wanted accuracy, there is a tolerance such that hand-eye calibration reports both the camera and the target transform with this accuracy whenever all measured pixels are within the tolerance of the true ones, the reported final cost is below it and the result has the features in front of the camera. A result that fits the images at least as well as the true calibration needs no bound on the cost. The same holds for the tools for a camera on the wrist and for a static camera, whatever their data set and finder, of what they print.", "quantifier": "for all cameras, calibrations, robot poses, features and accuracies; then for all measurements within the tolerance, guesses and solver outcomes", "why_tests_cant": "Tests check single noisy data sets; that no other calibration fits is a statement about all calibrations and images.", "anchors": ["rct_optimizations/src/rct_optimizations/extrinsic_hand_eye.cpp: optimize(ExtrinsicHandEyeProblem2D3D)", "rct_examples/src/tools/camera_on_wrist_extrinsic.cpp: main", "rct_examples/src/tools/static_camera_extrinsic.cpp: main"]}
{"id": "C208", "title": "Pose loaders report failure by a flag and leave the caller's pose unchanged", "statement": "The two overloads of loadPose that return a flag (from a parameter and from a file) never throw: either the throwing overload would have returned a pose and the flag is true and exactly this pose is stored, or it would have thrown and the flag is false and the caller's pose is what it was before. The flag is true exactly if the parameter or document has the seven numbers of position and quaternion.", "quantifier": "for all parameter values, file systems, documents and poses of the caller", "why_tests_cant": "Tests load one good file; the claim is about all malformed parameters and documents too.", "anchors": ["rct_ros_tools/src/parameter_loaders.cpp: loadPose"]}
{"id": "C209", "title": "The angles stored with a result are its roll, pitch and yaw", "statement": "The calibration file of a hand-eye calibration stores three angles x, y and z for the target and the camera transform. Turning by x about the x axis, then by y about the fixed y axis, then by z about the fixed z axis gives exactly the orientation of the reported transform, and the stored positions are its translations.", "quantifier": "for all results with rigid transforms, and every correct computation of Euler angles (the one of Eigen is one)", "why_tests_cant": "Tests compare one orientation; the order and the signs of angles coincide for simple orientations.", "anchors": ["rct_optimizations/include/rct_optimizations/serialization/problems.h: encode"]}
{"id": "C210", "title": "The data set on disk is what the collection node captured before the last save", "statement": "After a run of the data collection node, the data set that the calibration tools read from its directory has exactly the image and pose of every successful collect before the last save that was handled, in order, each with the most recent image at that time; without a save nothing is on disk. Captures after the last save are lost, also if a bad image ends the node. The node exits with 0 exactly if all parameters and the transform were there at the start and no image made the target finder fail with an exception that is not a runtime error.", "quantifier": "for all sequences of image messages, collect calls with any outcome of the transform, and save calls, of any length", "why_tests_cant": "Tests run one short session by hand; the claim is about every interleaving of messages and calls.", "anchors": ["rct_ros_tools/src/command_line_cal.cpp: main", "rct_ros_tools/src/data_set.cpp: saveToDirectory"]}
{"id": "C211", "title": "Little pixel noise leaves several static cameras close to the truth", "statement": "For every setup of static cameras, true poses and lists of features, and for every wanted accuracy, there is a tolerance such that a calibration is that accurate whenever all measured pixels are within the tolerance of the true ones, the result has all features in front of the cameras, and either the reported final cost is below the tolerance or the result fits the images at least as well as the truth. With a target on a robot wrist (every camera calibrated on its own, or all cameras corrected together) this holds for all cameras and the target mount if three images that show a planar quadrangle are connected by wrist motions about different axes. Without a robot it holds for the relative poses of all cameras linked by chains of common images, and for their poses if the first camera is kept at its true pose. For the pose of one target it holds if one camera sees it well. The same holds for what the tools print: that for several static cameras with a target on the wrist; that with two steps, for the relative poses after the first step and for all poses after the second, whatever the first one found; and that for the pose of one target seen by several cameras.", "quantifier": "for all cameras, true poses, robot poses, features and accuracies; then for all measurements within the tolerance, guesses and solver outcomes", "why_tests_cant": "Tests check single data sets; that no other arrangement of cameras fits about as well is a statement about all arrangements and images.", "anchors": ["rct_optimizations/src/rct_optimizations/extrinsic_multi_static_camera.cpp: optimize", "rct_optimizations/src/rct_optimizations/extrinsic_multi_static_camera_wrist_only.cpp: optimize", "rct_optimizations/src/rct_optimizations/extrinsic_multi_static_camera_only.cpp: optimize", "rct_optimizations/src/rct_optimizations/multi_camera_pnp.cpp: optimize", "rct_examples/src/tools/multi_static_camera_extrinsic.cpp: main", "rct_examples/src/tools/multi_static_camera_multi_step_extrinsic.cpp: main", "rct_examples/src/tools/solve_multi_camera_pnp.cpp: main"]}
{"id": "C212", "title": "The printed cost bounds the error of a circle fitted to noisy points", "statement": "If every measured point is within a distance e of a true circle and three of the measured points form a triangle of known size and area, the errors of the reported centre and radius are bounded by an explicit expression in e, the true radius, the triangle, the number of points and the reported final cost, that goes to zero with e and the cost. A result that fits the points at least as well as the true circle, for instance one that a descent from the true circle ends at, needs no bound on the cost.", "quantifier": "for all circles, points, bounded noise, guesses and results of any solver", "why_tests_cant": "Tests compare one random result with a tolerance; the property bounds the error for all noise.", "anchors": ["rct_optimizations/src/rct_optimizations/circle_fit.cpp: optimize", "rct_optimizations/include/rct_optimizations/circle_fit.h: CircleDistCost"]}
{"id": "C213", "title": "A large target rules out lens distortion that is not there", "statement": "Let the images be perfect images, by a camera without lens distortion, of a plane target, and let one of them contain a grid of nine by nine features (camera not in the plane of the target). Then every intrinsic calibration that ends with cost zero, with rotations and non-zero depths, reports the distortion [0,0,0,0,0]; if the images besides show the target in not too few directions, it reports the true centre and, up to sign, the true focal lengths. The tool that prints the error zero for such images prints these values. For small targets this fails: if all features have one distance from the optical axis (at depth one), every radial distortion can be reported with cost zero, with other focal lengths.", "quantifier": "all cameras, poses of the target, grids (also uneven ones), further images, solvers and results with cost zero", "why_tests_cant": "the result may combine any of nine intrinsic parameters with any poses; that none of these explains the grid needs the algebra of the distortion polynomial, not a sample of solver runs", "anchors": ["rct_optimizations/src/rct_optimizations/camera_intrinsic.cpp: projectPoints2, IntrinsicCostFunction, optimize", "rct_examples/src/tools/intrinsic_calibration.cpp"]}
{"id": "C214", "title": "With radial distortion, one tilted image of a large target determines the camera and the lens", "statement": "Take images of a plane target through a lens whose highest radial coefficient in use is of fifth or seventh order, or which has radial distortion of third order and no tangential distortion. One image shows a grid of at least fifteen by fifteen features, at any distances, the camera is not in the plane of the target, and the target is not parallel to the image. Then every call of optimize that ends with cost zero at rigid poses and non-zero depths returns the true centre and radial coefficients, and the true focal lengths and tangential coefficients up to sign; if the focal lengths have the true signs, everything is exactly true, including the pose of the target in every image of such a grid that is on the right side of the camera. The tool prints the same values. One image is enough, although without distortion a single image never is. If all targets are parallel to the image, for every scale there is another run with cost zero that scales focal lengths and coefficients; and for a lens of third order with tangential distortion there is one that reports the tangential coefficients with the opposite sign and another centre.", "quantifier": "all solvers, problems, cameras, distortion coefficients (radial, or radial and tangential above third order), rigid target poses, feature lists that contain such a grid, and all final values with cost zero", "why_tests_cant": "tests check that one simulated lens is found from one start; that no other lens, camera and pose explain the images is a statement about all values of fourteen unknowns", "anchors": ["rct_optimizations/src/rct_optimizations/camera_intrinsic.cpp: projectPoints2, IntrinsicCostFunction, optimize", "rct_examples/src/tools/intrinsic_calibration.cpp: main"]}
{"id": "C215", "title": "Intrinsic calibration starts where the pose estimation of the images ends", "statement": "Whenever intrinsic calibration returns, PnP with the guessed camera converged for every image; the reported initial cost is half the mean squared reprojection error of the guessed camera, without distortion, at the poses of PnP (rigid, rotation zero or above the small angle threshold), which is the mean of the final costs of PnP weighted by the numbers of features. With a solver that does not increase the cost, the final cost does not exceed this mean.", "quantifier": "for all solvers, images and guesses", "why_tests_cant": "It relates two nested optimisations for every result of the inner ones.", "anchors": ["rct_optimizations/src/rct_optimizations/camera_intrinsic.cpp: optimize, solvePnP, guessInitialPose", "rct_optimizations/src/rct_optimizations/pnp.cpp: optimize"]}
{"id": "C216", "title": "Little pixel noise leaves intrinsic calibration close to the truth", "statement": "Take a camera without lens distortion and images of a plane target, in some of which the camera is not in the plane of the target and sees four features, no three on one line, such that the planes of the target in these images do not have too few directions. For every wanted accuracy there is a tolerance such that every calibration from measured pixels within the tolerance of the true ones, that ends with a reported final cost within the tolerance (or not above the cost of the truth), at rigid poses and non-zero depths, and with reported distortion that moves no feature by more than the tolerance, reports the true centre and, up to sign, the true focal lengths with this accuracy. If the focal lengths have the true signs and the targets are in front of the camera, the poses of the target in these images are as accurate too. The same holds for the tool for intrinsic calibration, whatever its data set and finder, of what it prints.", "quantifier": "for all cameras, target poses, feature lists and accuracies; then for all measurements within the tolerance, guesses, solver outcomes and numbers of further images", "why_tests_cant": "Tests check single noisy data sets; that no other camera with any other poses fits about as well is a statement about all values of all unknowns, which are not bounded.", "anchors": ["rct_optimizations/src/rct_optimizations/camera_intrinsic.cpp: projectPoints2, IntrinsicCostFunction, optimize", "rct_examples/src/tools/intrinsic_calibration.cpp: main"]}
{"id": "C217", "title": "Correspondences of marker targets come in the order of the ids", "statement": "With an ArUco or ChArUco board, the correspondences of an image come in increasing order of the ids of the markers or intersections (and of the corner numbers within a marker), whatever the order in which OpenCV reports the detections. Two lists of the same detections of distinct ids give the same features, hence the same correspondences and the same calibration.", "quantifier": "for all boards, detections and orders of them", "why_tests_cant": "The order of detections depends on the image content and the version of OpenCV; tests see a few orders.", "anchors": ["rct_image_tools/src/rct_image_tools/aruco_finder.cpp: findTargetFeatures", "rct_image_tools/src/rct_image_tools/charuco_finder.cpp: findTargetFeatures", "rct_image_tools/src/rct_image_tools/aruco_grid_target.cpp: createCorrespondences", "rct_image_tools/src/rct_image_tools/charuco_grid_target.cpp: createCorrespondences"]}
{"id": "C218", "title": "Separate circles are reported once each", "statement": "Let every detection at the thresholds show one of a set of circles up to a distance and a difference of radii not above half of the tolerances of the detector, with finite positive confidence, and let the circles be so far apart, in place or size, that detections of two circles never agree within the tolerances. Then the detector reports exactly one key point for each circle that is detected at least the required number of times, and no other; it is as close to the circle as the detections are, in centre and radius. If every circle is detected in the required number of binarised images, the key points and the circles are one to one. Which circles are reported does not depend on the order of thresholds and detections.", "quantifier": "for all sets of circles, detections, tolerances and parameters", "why_tests_cant": "The grouping compares with the first member of each group in order of detection; tests see a few images.", "anchors": ["rct_image_tools/src/rct_image_tools/circle_detector.cpp: detectKeyPoints, detect"]}
{"id": "C219", "title": "What is drawn for a circle grid is what was found", "statement": "Drawing the detected circles ends like their detection; the key points drawn are those that detect reports for the image, and the contours drawn are, threshold by threshold, the contours the circles were fitted to. Drawing the features that the finder found for its target joins the image points in the order of the correspondences and puts the labels First Point, Origin and Last Point at the image points of the correspondences with the upper left point, the origin and the lower right point of the target. Without features nothing is joined or labelled.", "quantifier": "for all images, parameters, targets with fewer than 2^31 circles and results of OpenCV", "why_tests_cant": "Drawings are only looked at; tests do not compare labels with correspondences.", "anchors": ["rct_image_tools/src/rct_image_tools/circle_detector.cpp: drawDetectedCircles", "rct_image_tools/src/rct_image_tools/modified_circle_grid_finder.cpp: renderObservations, drawTargetFeatures"]}
{"id": "C220", "title": "The test program of the finder ends normally", "statement": "For every command line the program target_finder_tests ends normally: with exit code 1 if the number of arguments is wrong, and otherwise with exit code 0 after showing the features of the target, rows times columns of the command line, with the large circle labelled as the origin, or after printing why it was not found. Negative numbers are taken modulo 2^32. Fails for arguments that are no numbers: the exception of std::stoi is not caught.", "quantifier": "for all arguments, images and results of OpenCV", "why_tests_cant": "The program is run by hand with good arguments.", "anchors": ["rct_image_tools/src/target_finder_tests.cpp: main"]}
{"id": "C221", "title": "Measurements that determine the mounts of two kinematic chains", "statement": "Let the measured poses, or the image points, be those of two chains without offsets and with true mounts. If one of the three transforms (camera mount, target mount, transform between the bases) is known and suitable motions turn about two different axes, or if nothing is known, both chains turn and one of them turns while the other rests, then a result of the kinematic calibration has final cost 0 if and only if it reports exactly the true camera mount, the true target mount, the true transform between the bases, and no joint offsets. Masking a transform makes it known. Conversely, if one chain never moves, its mount can be chosen at will: other calibrations explain the measurements equally well.", "quantifier": "for all chains, true mounts, joint values, guesses, masks and solver results", "why_tests_cant": "Tests calibrate one pair of chains with one set of mounts; that no other mounts fit the measurements as well is not observable by running them.", "anchors": ["rct_optimizations/src/rct_optimizations/dh_chain_kinematic_calibration.cpp: optimize", "rct_optimizations/include/rct_optimizations/dh_chain_kinematic_calibration.h: DualDHChainCost2D3D, DualDHChainCostPose6D"]}
{"id": "C222", "title": "Little noise leaves the mounts of two kinematic chains close to the truth", "statement": "Take two chains without offsets, their true mounts and joint values that suffice to tell the mounts (one of the three transforms known and turns about two axes, or both chains turn and one of them turns while the other rests). For every wanted accuracy there is a tolerance such that every kinematic calibration from measured poses, or from image points of plane targets seen by four features, within the tolerance of the true ones, that ends with final cost within the tolerance, or not above the cost of the truth, reports the camera mount, the target mount and the transform between the bases with this accuracy, and no joint offset above it. A transform known to within the tolerance is enough; masking a transform makes it known as well as its guess. A calibration that starts at the true mounts always ends close to them.", "quantifier": "for all chains, true mounts, joint values and accuracies; then for all measurements within the tolerance, guesses, masks and solver results", "why_tests_cant": "Tests check single noisy data sets; that no far other mounts or offsets fit about as well is a statement about all values of all unknowns, which are not bounded.", "anchors": ["rct_optimizations/src/rct_optimizations/dh_chain_kinematic_calibration.cpp: optimize", "rct_optimizations/include/rct_optimizations/dh_chain_kinematic_calibration.h: DualDHChainCost2D3D, DualDHChainCostPose6D"]}
{"id": "C223", "title": "Documents that do not decode give an exception of the YAML library", "statement": "Decoding any YAML document as point, transform, intrinsics, correspondence, observation, hand-eye problem or hand-eye result returns a value or throws an exception of the YAML library; nothing else happens. A DH joint or chain may in addition throw std::runtime_error, which is no exception of the YAML library: a joint if and only if its type number is known to be neither 0 nor 1, a chain only if such a joint is listed.", "quantifier": "for all documents", "why_tests_cant": "Documents are unbounded; tests decode a few well formed ones, and callers that catch only exceptions of the YAML library rely on it for all.", "anchors": ["rct_optimizations/include/rct_optimizations/serialization/types.h, eigen.h, problems.h: convert<...>::decode"]}
{"id": "C224", "title": "The order of the data and their division into observations do not matter", "statement": "Only which correspondences were observed at which poses or joint values affects a calibration: listing the correspondences in another order, or the observations in another order, or one observation as several with the same poses, leaves the set of results that are possible with some solver that meets its contract unchanged, including costs, poses and covariances. For several static cameras the images of a camera may be exchanged together with their wrist poses; for cameras without wrist poses the correspondences within each image may be exchanged. The claim covers PnP from pixels and points, multi camera PnP, hand-eye calibration from pixels and points, the three calibrations of several static cameras, kinematic calibration from pixels and poses, and the circle fit.", "quantifier": "All problems, all permutations of their data, all results, all solvers that meet the contract.", "why_tests_cant": "There are factorially many orders; a test compares a few and cannot tell rounding from dependence on the order.", "anchors": ["rct_optimizations/src/rct_optimizations/pnp.cpp, multi_camera_pnp.cpp, extrinsic_hand_eye.cpp, extrinsic_multi_static_camera*.cpp, dh_chain_kinematic_calibration.cpp, circle_fit.cpp: optimize"]}
{"id": "C225", "title": "The unit of length does not matter", "statement": "Writing all lengths of a calibration problem in another unit (metres or millimetres) gives the same calibration in that unit: for every possible result there is a possible result of the problem in the other unit with the same convergence flag, the same rotations, the translations (centre and radius of a circle) in the new unit, and the same costs (pixels), or costs multiplied by the square of the factor (point measurements) or its fourth power (circle fit, whose residuals are areas). Covered are PnP from pixels and points, multi camera PnP, hand-eye calibration from pixels and points, the three calibrations of several static cameras, the circle fit, and intrinsic calibration, whose possible results should not depend on the unit at all.", "quantifier": "All problems, all factors greater than zero, all results that a solver meeting its contract can give.", "why_tests_cant": "A test runs one data set in two units; fixed thresholds on lengths show only for sizes that nobody tries.", "anchors": ["rct_optimizations/include/rct_optimizations/ceres_math_utilities.h: projectPoint", "rct_optimizations/src/rct_optimizations/pnp.cpp, multi_camera_pnp.cpp, extrinsic_hand_eye.cpp, extrinsic_multi_static_camera*.cpp, circle_fit.cpp: optimize", "rct_optimizations/src/rct_optimizations/camera_intrinsic.cpp: guessInitialPose, optimize"]}
{"id": "C226", "title": "Where pixels are counted from and how fine they are does not matter", "statement": "Take a calibration problem with pixels, count the pixels from another origin and with another density (k new pixels per old one), and change the intrinsics of the cameras accordingly. Then PnP, multi camera PnP, hand-eye calibration, and the three calibrations of several static cameras have the same possible results, poses and convergence flag alike and costs multiplied by the square of k, and neither problem has further results. Intrinsic calibration reports the changed focal lengths and the changed optical centre and the same lens distortion. If only the origin moves, the outcome of each of these except the intrinsic calibration, and of the kinematic calibration, is the same with the same solver, whatever the solver does, covariances and exceptions included. This holds also for points in the plane of the camera, where the projection is not the true one.", "quantifier": "All problems, all origins, all densities other than zero, all results that a solver meeting its contract can give.", "why_tests_cant": "A test uses one image size and one camera; a threshold in pixels or a mixed up centre shows only for other data.", "anchors": ["rct_optimizations/include/rct_optimizations/ceres_math_utilities.h: projectPoint", "rct_optimizations/src/rct_optimizations/pnp.cpp, multi_camera_pnp.cpp, extrinsic_hand_eye.cpp, extrinsic_multi_static_camera*.cpp, camera_intrinsic.cpp, dh_chain_kinematic_calibration.cpp: optimize"]}
{"id": "C227", "title": "The frames that poses refer to do not matter", "statement": "Let the poses of a calibration problem refer to another base of the robot, another flange as mount of the camera, another flange as mount of the target, and the points of the target to another frame of the target; change guesses accordingly. Then for every possible result there is a possible result of the changed problem with the same convergence flag and the same costs whose poses are the old ones seen from the new frames. This covers PnP from pixels and points, multi camera PnP, hand-eye calibration from pixels and points and the three calibrations of several static cameras.", "quantifier": "All problems, all rigid changes of the four frames, all results that a solver meeting its contract can give.", "why_tests_cant": "A test has one robot and one target; a term that depends on absolute coordinates, or a pose used in the wrong direction, cancels for frames that coincide.", "anchors": ["rct_optimizations/src/rct_optimizations/pnp.cpp, multi_camera_pnp.cpp, extrinsic_hand_eye.cpp, extrinsic_multi_static_camera*.cpp: optimize", "rct_optimizations/include/rct_optimizations/ceres_math_utilities.h: transformPoint, poseEigenToCal, poseCalToEigen"]}
{"id": "C228", "title": "Giving the data several times does not matter", "statement": "Give every correspondence (with its poses), every image or every point of a calibration n times instead of once, in any order. Then the possible results are the same: flag, costs per residual, poses, camera parameters and circle. This covers PnP from pixels and points, multi camera PnP, hand-eye calibration from pixels and points, the three calibrations of several static cameras, the circle fit and intrinsic calibration (correspondences of each image, in the same order n times). Only covariances may differ, which become smaller. Kinematic calibration is not covered, because its prior counts less against more data.", "quantifier": "All problems, all n greater than zero, all results that a solver meeting its contract can give.", "why_tests_cant": "A test would have to compare all results of two problems; a cost that is divided by the number of images rather than residuals shows only for some numbers.", "anchors": ["rct_optimizations/src/rct_optimizations/pnp.cpp, multi_camera_pnp.cpp, extrinsic_hand_eye.cpp, extrinsic_multi_static_camera*.cpp, camera_intrinsic.cpp, circle_fit.cpp: optimize"]}
{"id": "C229", "title": "Residuals are exact up to rounding", "statement": "Evaluated in double arithmetic, where every operation is rounded, the residuals of multi camera PnP, hand-eye calibration from pixels and from points, and the three calibrations of several static cameras differ from the exact difference of projection and observation by at most F/10^10 pixels, where F bounds focal lengths, optical centre and observation, and by at most S/10^11 for points in space, where S bounds the distances of the point from the origins of the frames on the way to the camera. In particular nothing cancels for rotations close to zero, where the rotation changes to its first order formula, and for rotations of more than half a turn.", "quantifier": "All poses stored as six values with a rotation vector at most 7 long, all points with S at most 100 times the depth and in a field of view of 90 degrees, all correctly rounding arithmetics, square roots, and sines and cosines right up to two units; without overflow and underflow.", "why_tests_cant": "A test compares a few values with a tolerance; cancellation shows only for special angles and distances.", "anchors": ["rct_optimizations/include/rct_optimizations/ceres_math_utilities.h: transformPoint, poseTransformPoint, projectPoint", "rct_optimizations/src/rct_optimizations/extrinsic_hand_eye.cpp, multi_camera_pnp.cpp, extrinsic_multi_static_camera*.cpp: operator()"]}
{"id": "C230", "title": "Residuals of PnP and of intrinsic calibration are exact up to rounding", "statement": "Evaluated in double arithmetic, the residuals of PnP, which turns the rotation vector into a matrix, differ from the exact difference of projection and observation by at most F/10^10 pixels, and by at most S/10^11 for points in space, for every rotation including none; those of intrinsic calibration with lens distortion by at most F/10^8 pixels. F bounds focal lengths, optical centre and observation, S the distances of the point from target and camera.", "quantifier": "All rotation vectors at most 7 long, all points with S at most 100 times the depth and in a field of view of 90 degrees, for PnP at least 10^-9 in front of the camera, all distortion coefficients between -1 and 1, all correctly rounding arithmetics, square roots, and sines and cosines right up to two units; without overflow and underflow.", "why_tests_cant": "A test compares a few values with a tolerance; a loss of accuracy shows only for special angles, distances and coefficients.", "anchors": ["rct_optimizations/src/rct_optimizations/pnp.cpp: operator()", "rct_optimizations/include/rct_optimizations/ceres_math_utilities.h: projectPoint", "rct_optimizations/src/rct_optimizations/camera_intrinsic.cpp: projectPoints2, operator()"]}
{"id": "C231", "title": "Camera and target can exchange their roles", "statement": "With measured points in space it does not matter which side is called the camera. If known and measured points, the two mounts and the two guesses are exchanged, 3D hand-eye calibration reaches the same results with exchanged poses and the same costs; 3D PnP with exchanged points and the inverse guess reaches the inverse poses with the same costs. Likewise, moving or reflecting all points of a circle fit together with the guess moves the fitted circle and keeps radius and costs. (False for hand-eye calibration with a mount that is turned by less than 1.5e-8 rad, since such a pose is not converted to a rotation.)", "quantifier": "for all problems, runs of the solver and plane motions", "why_tests_cant": "All data and all behaviours of the solver within its contract.", "anchors": ["rct_optimizations/src/rct_optimizations/extrinsic_hand_eye.cpp", "rct_optimizations/src/rct_optimizations/pnp.cpp", "rct_optimizations/src/rct_optimizations/circle_fit.cpp", "rct_optimizations/include/rct_optimizations/circle_fit.h"]}
{"id": "C232", "title": "A value that is not a number shows in the residuals", "statement": "No residual functor of hand-eye, static camera, multi camera PnP, PnP and intrinsic calibration hides NaN: if any number given to it (measured, known, or estimated) is NaN then one of its residuals is NaN, and otherwise all residuals are numbers. (False for PnP from pixels with NaN as estimated depth: both residuals are numbers.) A point that passes the visibility check of 2D hand-eye calibration has no NaN coordinate, nor have the poses of the mounts and of the target.", "quantifier": "for all values, numbers or NaN, in double arithmetic without overflow", "why_tests_cant": "All combinations of values and NaN.", "anchors": ["rct_optimizations/include/rct_optimizations/ceres_math_utilities.h", "rct_optimizations/src/rct_optimizations/extrinsic_hand_eye.cpp", "rct_optimizations/src/rct_optimizations/pnp.cpp", "rct_optimizations/src/rct_optimizations/camera_intrinsic.cpp", "rct_optimizations/src/rct_optimizations/extrinsic_multi_static_camera.cpp", "rct_optimizations/src/rct_optimizations/multi_camera_pnp.cpp"]}
{"id": "C233", "title": "A value that is not a number in kinematic calibration, circle fitting and priors", "statement": "The residual functors of kinematic calibration, of circle fitting and of priors do not hide NaN: if any number that they use (chains, bases, offsets, joint values, points, measured poses, camera, or estimated value) is NaN then one of the residuals is NaN, and otherwise all residuals are numbers. (False for the estimated orientations of the mounts in kinematic calibration: a NaN there counts as no rotation, and all residuals are numbers; and for the weight of the orientation where the angular distance itself is NaN, which counts as zero.)", "quantifier": "for all chains, values, numbers or NaN, in double arithmetic without overflow", "why_tests_cant": "All combinations of values and NaN, all chains.", "anchors": ["rct_optimizations/include/rct_optimizations/dh_chain_kinematic_calibration.h: createTransform, operator()", "rct_optimizations/include/rct_optimizations/dh_chain.h: createRelativeTransform, getFK", "rct_optimizations/include/rct_optimizations/circle_fit.h: operator()", "rct_optimizations/include/rct_optimizations/maximum_likelihood.h: operator()"]}
{"id": "C234", "title": "Forward kinematics is exact up to rounding", "statement": "Evaluated in double arithmetic, where every operation is rounded, getFK returns for n joint values a pose whose rotation matrix differs from that of the exact Denavit-Hartenberg chain by at most (n+1)/10^12 in every entry, and whose position differs by at most (n+1)/10^12 of the length of the chain (distance of the base, plus all link lengths, link offsets and ways of linear joints with their corrections) in every coordinate. So errors grow linearly with the number of joints and are never enlarged by long links near the base or by the orientation. It throws exactly where the exact computation throws.", "quantifier": "All chains of up to a million joints, revolute and linear in any order, all DH parameters, offsets and joint values with angles of up to 25 rad in sum for each joint, all rigid bases stored with rounding error, all correctly rounding arithmetics with sines and cosines right up to two units; without overflow and underflow.", "why_tests_cant": "A test compares a few poses with a tolerance; accumulated errors show only for long chains or unfavourable angles.", "anchors": ["rct_optimizations/include/rct_optimizations/dh_chain.h: createRelativeTransform, getFK"]}
{"id": "C235", "title": "Residuals of kinematic calibration are exact up to rounding", "statement": "Evaluated in double arithmetic, the pixel residuals of kinematic calibration differ from the exact difference between projection and observation by at most F (n+2) (S/z) / 10^10, where F bounds focal lengths, optical centre and observation, n is the number of joints of both chains, S the length of the whole way from the camera over mounts, chains and bases to the target point, and z the depth of the point in the camera. The position residuals of measured poses differ from the exact position error by at most (n+2) S / 10^10, where S also includes the measured distance. In particular the limit below which createTransform leaves out a rotation, and the inversion of the camera pose, lose nothing.", "quantifier": "All chains, revolute and linear, up to a million joints, all offsets, joint values, mounts and bases with rotation vectors at most 7 long and angles of up to 25 rad in sum for each joint, all points in a field of view of 90 degrees with (n+2) S at most 10^7 z, all correctly rounding arithmetics, square roots, and sines and cosines right up to two units; without overflow and underflow.", "why_tests_cant": "A test compares a few values with a tolerance; accumulated errors show only for long chains, small depths or unfavourable angles.", "anchors": ["rct_optimizations/include/rct_optimizations/dh_chain_kinematic_calibration.h: createTransform, DualDHChainCost2D3D::operator(), DualDHChainCostPose6D::operator()"]}
{"id": "C236", "title": "The orientation residual of kinematic calibration is exact up to rounding", "statement": "Evaluated in double arithmetic, the fourth residual of kinematic calibration from measured poses differs from the weight times the angle between the measured and the predicted orientation by at most the weight times (n+2)/10^7 rad, where n is the number of joints of both chains. This holds for every pair of orientations: also for equal and nearly equal ones, for half a turn, and where the conversion from matrix to quaternion changes from one formula to another because of rounding, or picks the opposite quaternion.", "quantifier": "All chains, revolute and linear, up to a million joints, all offsets, joint values, mounts and bases with rotation vectors at most 7 long and angles of up to 25 rad in sum for each joint, all measured poses stored with rounding error, all weights, all correctly rounding arithmetics, square roots, and sines, cosines and atan2 right up to two units; without overflow and underflow.", "why_tests_cant": "A test compares a few angles with a tolerance; a loss of accuracy (as of an arc cosine near zero, which is off by 10^-8) or a change of sign shows only close to special orientations.", "anchors": ["rct_optimizations/include/rct_optimizations/dh_chain_kinematic_calibration.h: DualDHChainCostPose6D::operator()"]}
{"id": "C237", "title": "Residuals of circle fitting and of priors are exact up to rounding", "statement": "Evaluated in double arithmetic, the residual of a point in circle fitting differs from the square of the radius less the square of the distance from the centre by at most 10^-15 of the sum of both squares, so its sign tells inside from outside for all points that are off the circle by more than 10^-15 of the sum of radius and distance, wherever the circle lies. The residual of a prior differs from the deviation of the parameter in standard deviations by at most 10^-15 of itself, and is zero exactly if the parameter is equal to the mean.", "quantifier": "All points, circles, parameters, means and positive standard deviations, all correctly rounding arithmetics; without overflow and underflow.", "why_tests_cant": "A test compares a few values with a tolerance; cancellation (as of expanded squares, for circles far from the origin) shows only for special positions.", "anchors": ["rct_optimizations/include/rct_optimizations/circle_fit.h: operator()", "rct_optimizations/include/rct_optimizations/maximum_likelihood.h: operator()"]}
{"id": "C238", "title": "The numbering of cameras and images does not matter", "statement": "Listing the cameras in another order (with their intrinsics, poses and observations) can give the same results: multi camera PnP the same pose, calibration of static cameras (with or without wrist poses, and by a common correction) the same cameras in the new order, and all of them the same costs, verdict and target poses. The same holds for listing the images in another order: static cameras without wrist poses give the target poses in the new order, a common correction gives the same cameras, and intrinsic calibration gives the same focal lengths, centre and distortion. Where the first camera is fixed, the order of the others is free. The covariance, whose entries carry the numbers in their names, is not compared.", "quantifier": "for all problems with fitting sizes, all permutations of cameras and of images, all results that a solver within its contract can return", "why_tests_cant": "All permutations of lists of any length; an index of the wrong list shows only if the entries differ.", "anchors": ["rct_optimizations/src/rct_optimizations/multi_camera_pnp.cpp: optimize", "rct_optimizations/src/rct_optimizations/extrinsic_multi_static_camera.cpp: optimize", "rct_optimizations/src/rct_optimizations/extrinsic_multi_static_camera_only.cpp: optimize", "rct_optimizations/src/rct_optimizations/extrinsic_multi_static_camera_wrist_only.cpp: optimize", "rct_optimizations/src/rct_optimizations/camera_intrinsic.cpp: optimize"]}
{"id": "C239", "title": "The calibrations agree where they overlap", "statement": "Calibrating one static camera, and hand-eye calibration of the same images with the camera mount at the base and the wrist as target mount, can return exactly the same results: the same verdict, costs, camera pose and target pose. Every result of hand-eye calibration is a result of the static calibration; the converse holds if all points are in front of the camera for the guesses, which only hand-eye calibration requires. The pixel residuals of kinematic calibration are, for any offsets, mounts and base poses, the residuals of hand-eye calibration with the mounts at the ends of the corrected chains, one by one and in the same order, for points more than 1e-10 in front of the camera.", "quantifier": "for all images, intrinsics, wrist poses and guesses that can be stored as rotation vectors, all results that a solver within its contract can return; for all chains, joint values, offsets, mounts and base poses", "why_tests_cant": "All data and all results of a solver; each test exercises one calibration by itself, so a convention that differs between two of them (direction of a pose, order of parameters, sign) is not seen.", "anchors": ["rct_optimizations/src/rct_optimizations/extrinsic_multi_static_camera.cpp: optimize, operator()", "rct_optimizations/src/rct_optimizations/extrinsic_hand_eye.cpp: optimize, operator()", "rct_optimizations/include/rct_optimizations/dh_chain_kinematic_calibration.h: DualDHChainCost2D3D::operator()"]}
{"id": "C240", "title": "The pose of a target seen by one camera is the same from all functions", "statement": "For one camera and one image, PnP, multi camera PnP, and calibration of static cameras without wrist poses with the first camera fixed can return exactly the same results. Calibration with the fixed camera and multi camera PnP return the same verdict, costs and target pose, without any condition on the points, and the fixed camera is reported where it was said to be. PnP returns the same verdict and costs, and the target pose seen from the camera instead of the base, when started from the guess so transformed, for points more than 1e-10 in front of the camera at the guess and at the result.", "quantifier": "for all correspondences, intrinsics, camera poses and guesses that can be stored as rotation vectors, all results that a solver within its contract can return", "why_tests_cant": "All data and all results of a solver; each test exercises one function by itself, so a convention that differs between two of them is not seen.", "anchors": ["rct_optimizations/src/rct_optimizations/pnp.cpp: optimize, operator()", "rct_optimizations/src/rct_optimizations/multi_camera_pnp.cpp: optimize, operator()", "rct_optimizations/src/rct_optimizations/extrinsic_multi_static_camera_only.cpp: optimize, operator()"]}
{"id": "C241", "title": "Calibrations with fewer assumptions can reproduce those with more", "statement": "Whatever the common correction of all cameras returns, the calibration of each static camera can return from the same guesses: the same verdict, costs, target pose and camera poses. Whatever the calibration of static cameras with wrist poses returns, the calibration without wrist poses can return, when started from the target poses that follow from the wrist poses and the guess: the same verdict, costs and camera poses, and the target poses that follow from the wrist poses and the result. So giving up assumptions never raises the cost that can be reached.", "quantifier": "for all numbers of cameras and images, all observations in which each camera sees something (and each image is seen by a camera), all intrinsics, wrist poses and guesses, where all poses can be stored as rotation vectors, all results that a solver within its contract can return", "why_tests_cant": "All data and all results of a solver; each test exercises one calibration by itself, so a convention that differs between two of them (direction of the correction, order of composition) is not seen.", "anchors": ["rct_optimizations/src/rct_optimizations/extrinsic_multi_static_camera_wrist_only.cpp: optimize, operator()", "rct_optimizations/src/rct_optimizations/extrinsic_multi_static_camera.cpp: optimize, operator()", "rct_optimizations/src/rct_optimizations/extrinsic_multi_static_camera_only.cpp: optimize, operator()"]}
{"id": "C242", "title": "Hand-eye calibration of one image is PnP", "statement": "For one image, PnP and hand-eye calibration can return the same results, with points in space and with points in images. Whatever PnP returns, hand-eye calibration can return, with the camera left at its guess and the target on its mount where the camera sees it: the same verdict and costs. Whatever hand-eye calibration returns, PnP can return, as the pose of the target seen from the calibrated camera, when started from this pose for the guesses. With points in images they must be more than 1e-10 in front of the camera at the guess and at the result; with points in space there is no such condition.", "quantifier": "for all correspondences, intrinsics, poses of the mounts and guesses that can be stored as rotation vectors, all results that a solver within its contract can return", "why_tests_cant": "All data and all results of a solver; each test exercises one function by itself, so a convention that differs between the two (direction of a pose, order of composition) is not seen.", "anchors": ["rct_optimizations/src/rct_optimizations/extrinsic_hand_eye.cpp: optimize, operator()", "rct_optimizations/src/rct_optimizations/pnp.cpp: optimize, operator()"]}
{"id": "C243", "title": "Data that a result explains perfectly do not take it away", "statement": "If a calibration can return a result from some data, and further data are exactly what this result predicts, then the calibration can return the same result from all data together, from the same guess: the same verdict and the same poses (or circle). The final cost is then the old one averaged over more data: multiplied by the old number of points and divided by the new. This holds for PnP with points in images and in space, for PnP with one more camera, for hand-eye calibration with points in images and in space, for the calibrations of static cameras with wrist poses, without wrist poses (also with the first camera fixed) and by a common correction, with further points in any of the images, and for the circle fit. Points in images must be in front of the camera at the result (more than 1e-10 for PnP; for static cameras it suffices that they are not in the plane through its centre) and, where hand-eye calibration checks it, at the guess.", "quantifier": "for all data, all further data explained by the result, all guesses and intrinsics, all results that a solver within its contract can return; where poses are stored as rotation vectors they must be representable so", "why_tests_cant": "All data, all results of a solver and all perfect additions to them; a test has one set of data and one result.", "anchors": ["rct_optimizations/src/rct_optimizations/pnp.cpp: optimize, operator()", "rct_optimizations/src/rct_optimizations/multi_camera_pnp.cpp: optimize, operator()", "rct_optimizations/src/rct_optimizations/extrinsic_hand_eye.cpp: optimize, operator()", "rct_optimizations/src/rct_optimizations/extrinsic_multi_static_camera.cpp: optimize", "rct_optimizations/src/rct_optimizations/extrinsic_multi_static_camera_only.cpp: optimize", "rct_optimizations/src/rct_optimizations/extrinsic_multi_static_camera_wrist_only.cpp: optimize", "rct_optimizations/src/rct_optimizations/circle_fit.cpp: optimize", "rct_optimizations/include/rct_optimizations/circle_fit.h: CircleDistCost"]}
{"id": "C244", "title": "A calibration can be continued from its own result", "statement": "If a calibration returned a result and is started again with this result as its guess, it begins with exactly the final cost of the first run. Whatever the second run returns (verdict, final cost, poses or circle), one run from the original guess could also have returned. So guesses and results are stated in the same convention, and continuing a calibration can only keep or improve it and opens no result that was closed before. This holds for PnP with points in images and in space, PnP with several cameras, hand-eye calibration with points in images and in space, the calibrations of static cameras with wrist poses, without wrist poses (also with the first camera fixed) and by a common correction, and the circle fit.", "quantifier": "for all data, guesses and intrinsics, all results of the first and of the second run that solvers within their contract can return; where poses are stored as rotation vectors the poses of the first result (and a fixed camera, and the total common correction) must be representable so", "why_tests_cant": "All data and all pairs of results; no test starts a calibration from the result of another, so a guess that is read in another convention than the result is written (inverse, radius and its root) is not seen.", "anchors": ["rct_optimizations/src/rct_optimizations/pnp.cpp: optimize", "rct_optimizations/src/rct_optimizations/multi_camera_pnp.cpp: optimize", "rct_optimizations/src/rct_optimizations/extrinsic_hand_eye.cpp: optimize", "rct_optimizations/src/rct_optimizations/extrinsic_multi_static_camera.cpp: optimize", "rct_optimizations/src/rct_optimizations/extrinsic_multi_static_camera_only.cpp: optimize", "rct_optimizations/src/rct_optimizations/extrinsic_multi_static_camera_wrist_only.cpp: optimize", "rct_optimizations/src/rct_optimizations/circle_fit.cpp: optimize"]}
