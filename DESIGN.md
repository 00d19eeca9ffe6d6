# Formal model of robot_cal_tools

## Layout

- `lean/Verif/Core` — outcome type (`Res`: value / exception / process abort / undefined behaviour), 2D/3D vectors,
  3x3 matrices, isometries, quaternions over ℝ.
- `lean/Verif/Model` — the code, function by function; each definition cites file and lines.
- `lean/Verif/Spec` — independent specifications (what the English property says).
- `lean/Verif/Lemmas` — helper lemmas.
- `lean/Verif/Props` — one theorem (or a few) per property, named after the id, with non-vacuity examples.
- `seeded/LOG.jsonl` — mutation attempts on the model.

## Trusted base

- The Lean 4 kernel. Every theorem depends on at most `propext`, `Classical.choice`, `Quot.sound`.
  No own axioms, no `sorry`, no `native_decide`, no `bv_decide`.
- The reading of the C++ text: the code was not built or run. Each definition names the lines it models.
- `double` is modelled by ℝ: rounding, overflow and NaN are not modelled. Exception: C229 and C230 bound the rounding errors of the residual
  functors (`Model/Rounded.lean`, `Model/RoundedMore.lean`), without overflow, underflow, NaN and fused operations, the six values of each pose being given; C234 to C237 do so for forward kinematics and for the residuals of kinematic calibration, circle fitting and priors (`Model/RoundedKin.lean`, `Model/RoundedKinCost.lean`, `Model/RoundedOrient.lean`); C232 and C233 add NaN to these functors and to those of kinematic calibration, circle fitting and priors (`Model/NotANumber.lean`, `Model/NotANumberKin.lean`). Where the outcome of a division by zero
  decides a property an explicit case or outcome is used. `std::numeric_limits<double>::epsilon()` is 2^-52.
- `std::size_t` is ℕ, except where wrap-around decides the property (then arithmetic modulo 2^64 is explicit).
- Library semantics taken as given (written as definitions in the model): Eigen isometry product/inverse, matrix to
  quaternion conversion, quaternion to angle-axis conversion, angle-axis to matrix, `normalized()` of the zero vector being
  zero; `ceres::AngleAxisRotatePoint`; ceres reporting constant/subset parameterisations.
- External procedures that are parameters of the model: `ceres::Solve` (an arbitrary function of the parameter blocks that may
  only change non-constant blocks that occur in the problem), `ceres::Covariance`, OpenCV detection functions, linear solves and
  SVD (with stated contract), random engines, the file system (a map from paths to contents) and codecs for images and YAML text.

## Contracts that appear as hypotheses

- `Engine.InRange`, `Engine.Scaled`: a uniform real distribution returns a value between its bounds / scales one canonical value.
- Solver runs (`Model/Solver.lean`): the solver changes only parameter blocks that occur in the problem and are not constant,
  and respects subset parameterisations; nothing is assumed about convergence.
- `YamlPrinter`: reading back a printed number gives the number. File codecs: reading back what was written gives it.
- Linear solves return a solution if there is one (uniqueness is proved where needed); the SVD is a function of the matrix.
- `RejectsSingular` (`Spec/Rank.lean`): the covariance computation reports failure if the residuals are differentiable, at least
  as many as the parameters, not all derivatives vanish, and some direction of the parameters changes no residual to first order.
  This is what `ceres::Covariance` does with `DENSE_SVD` and `null_space_rank = 0` for singular values that are zero; only C194 to
  C198 and C205 use it. It is not assumed for the kinematic calibration, which sets `null_space_rank = -1`. Other claims that speak of
  returned results for such data (C153, C179, C182) hold for all solvers, also for ones that do not report failure.
- OpenCV contours, moments, ellipse fits, marker detection and `findCirclesGrid` are arbitrary inputs.

## Automatic derivatives

Cost functors are modelled twice: at `T = double` (`Model/*.lean`) and at `T = ceres::Jet` (`Model/Jet.lean`), one
derivative direction at a time. A jet is a real number with an optional derivative; `none` stands for a derivative that is
NaN or infinite, and every operation on it gives `none` again. Theorems on what the solver does with derivatives assume
only stated contracts: a solver that meets derivatives that are not finite stops at the guess (`StopsIfNotFinite`), and
one that moves a parameter moves it by a damped combination of its derivatives (`Spec/Steps.lean`, `Reachable`), so that
a parameter whose derivatives are all zero stays.

## What is not modelled

Convergence of the solver (its search is a parameter), OpenCV image processing,
GUI, key presses, ROS transport, tf, text formatting of numbers, threads (the modelled code is single threaded), allocation failure,
`assert` (release builds), NaN and infinity as input numbers (NaN given to the residual functors is covered by C232 and C233), values of enumerations obtained by casts.
Particular simplifications are stated in the comment of the definition concerned.

## Modelled source

Each definition of a model module cites file and lines; the table lists what the module heads say.

- `Model/Accuracy.lean` — Intrinsic calibration validation and noise qualification Models `rct_optimizations/src/rct_optimizations/validation/camera_intrinsic_calibration_validation.cpp` and `noise_qualification.cpp`. The singular value decomposition of Eigen is a parameter. The accumulators of boost return, in exact arithmetic, the mean and the population variance of the values given to them; without values the mean is NaN (`none`) and the variance keeps its initial value 0.
- `Model/Analysis.lean` — Analysis and reports of the examples Models `rct_examples/src/examples/kinematic_calibration.cpp` (13-72, 127-194), `rct_examples/src/tools/hand_eye_calibration_analysis.h` and the numbers printed by `rct_common/include/rct_common/print_utils.h`. Windows and texts are not modelled. A printed number that is NaN is `none`.
- `Model/CircleDetector.lean` — The circle detector `rct_image_tools/src/rct_image_tools/circle_detector.cpp`, `rct_image_tools/include/rct_image_tools/circle_detector.h`. Simplifications: `float` and `double` are real numbers, except that divisions can give infinities and NaN (`FRatio`); `exists` (lines 281-304) returns its index as `int`, which is taken to be large enough; colour conversion is left out (the image is grey); contours kept only for drawing are left out here (see `Model/Drawing.lean`). Contour extraction, moments, arc length, hull area, contour area and ellipse fit of OpenCV are parameters (`ImageOps`).
- `Model/CircleFit.lean` — Circle fit and maximum likelihood prior Models `rct_optimizations/src/rct_optimizations/circle_fit.cpp`, `rct_optimizations/include/rct_optimizations/circle_fit.h` and `maximum_likelihood.h`.
- `Model/CircleGrid.lean` — The finder of the modified circle grid Models `rct_image_tools/src/rct_image_tools/modified_circle_grid_finder.cpp`. The circle detector and `cv::findCirclesGrid` are inputs: `detections` lists the key points found for the brightness and contrast settings in the order in which they are tried; `find` gives the outcome of the grid search for a pattern size. `float` and `double` are ℝ, so the conversions between `Point2d` and `Point2f` are the identity; the two tolerances of `isEqual` are the machine epsilons of the two types. The unqualified `abs` of `isEqual` is read as the absolute value of floating point numbers (with headers that only declare the C function for `int`, it would truncate differences below 1 to 0). Sizes are below 2^31, so that the casts to `int` in the loops are exact. The variable `large_point` is never used and is not modelled.
- `Model/CollectMain.lean` — The node that collects data Models the `main` of `rct_ros_tools/src/command_line_cal.cpp` (189-244) on top of the callbacks of `Model/DataSet.lean`: the parameters, the check of the transform, and the callbacks that `ros::spin` runs until the node is shut down. Messages and service calls are an arbitrary list of events. Whether the transform is available at the start and in each `collect` is a parameter.
- `Model/Covariance.lean` — Covariance analysis Model of `rct_optimizations/src/rct_optimizations/covariance_analysis.cpp` and `rct_optimizations/include/rct_optimizations/covariance_types.h`.
- `Model/DHChain.lean` — DH chains Models `rct_optimizations/include/rct_optimizations/dh_chain.h` and `rct_optimizations/src/rct_optimizations/dh_chain.cpp` (`T = double`).
- `Model/DataSet.lean` — Data sets on disk, data collection and correspondence data sets `rct_ros_tools/src/data_set.cpp`, `rct_ros_tools/src/command_line_cal.cpp` (lines 53-187), the file variants of `rct_ros_tools/src/parameter_loaders.cpp`. Simplifications: a file is the image or the YAML document it holds (emitting and parsing the documents written here is the identity, up to number printing, see `YamlPrinter`); paths are compared as strings; a write needs the directory to exist and can fail for any other reason (`Disk.fail`), in which case it has no effect; an interrupted write leaves an unreadable image or an empty document; reading an image or an interrupted image as YAML is a parse error. Images read with `IMREAD_COLOR` are converted (`Codec.reread`). Logging is left out.
- `Model/Drawing.lean` — Drawing of found circles, and the test program of the finder `CircleDetector::drawDetectedCircles` (`rct_image_tools/src/rct_image_tools/circle_detector.cpp`), `renderObservations` and `drawTargetFeatures` (`modified_circle_grid_finder.cpp`), `rct_image_tools/src/target_finder_tests.cpp`. What is drawn is a list of shapes and labels with their positions in the image; colours, fonts, line widths, the rounding of positions to pixels and the display are left out. `cv::drawContours`, `cv::drawKeypoints`, `cv::putText` and `cv::circle` are taken to succeed; `cv::drawChessboardCorners` reads as many points as the pattern has corners.
- `Model/HandEye.lean` — Hand-eye calibration Models `rct_optimizations/src/rct_optimizations/extrinsic_hand_eye.cpp`, `rct_optimizations/include/rct_optimizations/extrinsic_hand_eye.h` 24-76 and the observation types of `rct_optimizations/include/rct_optimizations/types.h` 57-139.
- `Model/Homography.lean` — Homography check Models `rct_optimizations/src/rct_optimizations/validation/homography_validation.cpp` and `rct_optimizations/include/rct_optimizations/validation/homography_validation.h`. A sampler (an object of a class derived from `CorrespondenceSampler`) is the outcome of its only method. The random numbers of `std::uniform_int_distribution` and the result of `Eigen::FullPivLU::solve` are parameters.
- `Model/Intrinsic.lean` — Intrinsic camera calibration Models `rct_optimizations/src/rct_optimizations/camera_intrinsic.cpp` with the structures of `rct_optimizations/include/rct_optimizations/experimental/camera_intrinsic.h`. Parameter blocks are memory: offset to value.
- `Model/Jet.lean` — The cost functors at `T = ceres::Jet` The functors of `rct_optimizations` are templates. The solver instantiates them with `ceres::Jet`, numbers that carry derivatives (`ceres::AutoDiffCostFunction`, `ceres::DynamicAutoDiffCostFunction`). This module models that instantiation in one direction of the parameter space: a number and its derivative. A derivative that is not finite is `none`. Once it is not finite it stays so, because derivatives are only added and multiplied by numbers. The arithmetic is that of `ceres/jet.h` (library semantics). Values are real numbers; a division by zero is not an exception and its derivative is `none`.
- `Model/Kinematic.lean` — Kinematic calibration of two DH chains Models `rct_optimizations/include/rct_optimizations/dh_chain_kinematic_calibration.h` and `rct_optimizations/src/rct_optimizations/dh_chain_kinematic_calibration.cpp`. The eight parameter blocks are eight distinct variables; block `i` has address `i`. Matrices are column-major memory. Simplification: an exception thrown by a cost functor during `ceres::Solve` is reported as that exception (with worker threads the process may also end); the first evaluation is at the initial values.
- `Model/Loaders.lean` — Parameters and their loaders Models `rct_ros_tools/src/loader_utils.cpp`, `parameter_loaders.cpp` and the title banner of `rct_common/include/rct_common/print_utils.h`. Values of the parameter server are `XmlRpc::XmlRpcValue`s (library semantics of ROS' xmlrpcpp): a cast to another type than the stored one throws an `XmlRpcException` (integers are not converted to doubles), an invalid value is turned into the default value of the type, the constant `operator[]` throws outside the array. A struct is a `std::map`, shown as the list of its members in order.
- `Model/Mains.lean` — The tools as programs Models the `main` functions of `rct_examples/src/tools`: parameters, loading, the loops of `Model/Tools.lean`, the optimisations and what is printed. All of them have the form `try { … return 0 } catch (const std::exception&) { return -1 }`. An `XmlRpc::XmlRpcException` is not derived from `std::exception` and ends the program by `std::terminate` (`abort`). Windows, keys pressed and the texts between the numbers are not modelled; memory is unlimited; OpenCV's `calibrateCamera` and `solvePnP` and the plugins are parameters. The points given to `calibrateCamera` are rounded to `float` in the code.
- `Model/Masks.lean` — Masks, subset parameterizations and the quaternion plus operation Model of `rct_optimizations/include/rct_optimizations/local_parameterization.h` and of `createDHMask` / the DH part of `constructParameterLabels` in `dh_chain_kinematic_calibration.h`.
- `Model/NotANumber.lean` — Residual functors with values that are not a number As `Verif/Model/Rounded.lean` and `Verif/Model/RoundedMore.lean`, with NaN (`none`): every operation on NaN gives NaN, and every comparison with NaN is false. A quotient by zero, which no functor computes, is taken to be NaN. Overflow is outside the model.
- `Model/NotANumberKin.lean` — Kinematic calibration, circle fitting and priors with values that are not a number As `Verif/Model/NotANumber.lean`: any number may be NaN (`none`). Sums in products of matrices are taken from left to right. The checks on the number of joint values are left to `Verif/Model/DHChain.lean`: here the tables are long enough.
- `Model/Plugins.lean` — Equality of targets and the target finder plugins Models the `operator==` of `rct_image_tools/src/rct_image_tools/modified_circle_grid_target.cpp`, `aruco_grid_target.cpp` and `charuco_grid_target.cpp`, and `rct_ros_tools/src/target_loader_plugins.cpp`. Conversions of scalars to `int` and `std::size_t` are a parameter (`YInts`); `float` is ℝ. The OpenCV boards are the data they are created with; the predefined dictionary is its number. Log messages are not modelled.
- `Model/PnP.lean` — PnP for one and several cameras Models `rct_optimizations/src/rct_optimizations/pnp.cpp` with `rct_optimizations/include/rct_optimizations/pnp.h` 9-41, and `rct_optimizations/src/rct_optimizations/multi_camera_pnp.cpp` with `rct_optimizations/include/rct_optimizations/experimental/multi_camera_pnp.h` 20-65.
- `Model/Pose.lean` — Poses: Eigen rotation conversions and the 6-value pose Models `rct_optimizations/src/rct_optimizations/eigen_conversions.cpp`, `rct_optimizations/include/rct_optimizations/types.h` 33-52 (`Pose6d`), the `ceres::AngleAxisRotatePoint` function used by `ceres_math_utilities.h` 9-34, and the Eigen conversions these functions call.
- `Model/PrintedTarget.lean` — The script that prints targets Models `rct_image_tools/script/calibration_target.py`. A drawing is its list of shapes in the order in which they are added. Outlines have width 0 and are left out, as are the footer text and the choice of the file format. Python numbers are integers and real numbers; a Python exception is `Exc.other`. Page coordinates are in points, as in reportlab.
- `Model/Programs.lean` — The example programs Models `rct_examples/src/examples/camera_on_wrist.cpp`, the `main` of `rct_examples/src/examples/kinematic_calibration.cpp`, `rct_examples/src/tools/solve_pnp.cpp` and the conversion of 16 bit images in `rct_ros_tools/src/command_line_cal.cpp`. Texts, windows and the parameters of the nodes are not modelled. All exceptions are derived from `std::exception`.
- `Model/Projection.lean` — Camera projection Models `rct_optimizations/include/rct_optimizations/types.h` 13-28 and `rct_optimizations/include/rct_optimizations/ceres_math_utilities.h` 36-91 at `T = double`.
- `Model/Rounded.lean` — Residual functors in double arithmetic The functors of the calibrations evaluated with `double` values: every operation is rounded, and square root, sine and cosine are those of the C library. Overflow, underflow and NaN are outside the model, as are fused operations; the six values of the poses and the points are given exactly.
- `Model/RoundedKin.lean` — Forward kinematics in double arithmetic As `Verif/Model/Rounded.lean`. The sums in products of matrices and vectors are taken from left to right.
- `Model/RoundedKinCost.lean` — The functors of kinematic calibration in double arithmetic As `Verif/Model/RoundedKin.lean`. The residual of the orientation is in `Verif/Model/RoundedOrient.lean`.
- `Model/RoundedMore.lean` — The functors of PnP and of intrinsic calibration in double arithmetic As `Verif/Model/Rounded.lean`. The sums in products of matrices and vectors are taken from left to right.
- `Model/RoundedOrient.lean` — The remaining residual functors in double arithmetic As `Verif/Model/RoundedKin.lean`. Sums of more than two terms are evaluated from left to right (Eigen may group them differently). The residual of the orientation in kinematic calibration, circle fit, and prior.
- `Model/Serialization.lean` — Serialisation and equality of the data types Models `rct_optimizations/include/rct_optimizations/serialization/{eigen,types,problems}.h` and the comparison operators of `types.h` and `extrinsic_hand_eye.h`. A `decode` that returns `false` makes `as<T>()` throw.
- `Model/Simulation.lean` — Simulated observations Models the support library of the tests, `rct_optimizations/test/src/{utilities,pose_generator,observation_creator, dh_chain_observation_creator}.cpp` and `rct_optimizations/test/include/rct_optimizations_tests/*.h`, which produces the data on which the optimisations are judged. Random engines are parameters (`Engine`, `DHChain.lean`).
- `Model/Solver.lean` — The least-squares solver as an external service ceres itself is not modelled. A `ceres::Problem` is the list of its residual blocks; each residual block names the parameter blocks it was added with (block addresses are numbers) and a cost functor of the values of these blocks, in that order. A solver run is an arbitrary function subject to the contract `Ceres.WF`.
- `Model/StaticCameras.lean` — Calibration of several static cameras Models `rct_optimizations/src/rct_optimizations/extrinsic_multi_static_camera.cpp`, `extrinsic_multi_static_camera_only.cpp` and `extrinsic_multi_static_camera_wrist_only.cpp` with the structures of the headers of the same names in `rct_optimizations/include/rct_optimizations`. The `assert`s are disabled in release builds and not modelled; out-of-range `operator[]` is undefined behaviour.
- `Model/Targets.lean` — Calibration targets and the feature maps of the marker finders Models the parts of `rct_image_tools/src/rct_image_tools` that number target points and pair them with image features: `modified_circle_grid_target.cpp`, `aruco_grid_target.cpp`, `charuco_grid_target.cpp`, `aruco_finder.cpp`, `charuco_finder.cpp`, and `rct_image_tools/include/rct_image_tools/image_utils.h`. The OpenCV boards and detectors are inputs: a board is its list of ids and object points, a detection is the list of ids and corners OpenCV returned. `float` is ℝ. The `assert`s are disabled in release builds and not modelled.
- `Model/Tools.lean` — The calibration tools Models the loops of `rct_examples/src/tools`: how images, poses and correspondences are collected into problems and shown afterwards. The target finder, drawing and the homography check are parameters of the loops (`ToolEnv`); showing an image that was not accepted does not fail. Parameters of the nodes, windows and text output are not modelled.
- `Model/Validation.lean` — Back-projection of image points and projection errors in space Models `rct_optimizations/src/rct_optimizations/validation/projection.cpp`. An `Eigen::MatrixX2d` / `MatrixX3d` is the list of its rows.
- `Model/Yaml.lean` — YAML nodes The part of yaml-cpp (version 0.6) that the code uses. A scalar is its text together with the results of the conversions of that text; how a number is printed is a parameter (`YamlPrinter`) whose contract is that reading a printed number gives the number back (yaml-cpp prints 17 significant digits). Exceptions of yaml-cpp are all derived from `YAML::Exception` (`Exc.yaml`). Looking up a key returns the first entry with that key.

## Properties: how each is modelled and proved

Status `partial` with a theorem `_negation` means that the full statement is false of the code as written; the
`_partial` theorems then say what does hold. Details are in MANIFEST.json and in the comments of the theorems.

- **C01 Both image projections agree** (partial; Props/PoseProjection) — Both overloads modelled; negation by witness (z<0), partial for z>1e-10 and z=0, and exact characterisation of where they agree.
- **C02 Projection is the pinhole model** (proved; Props/PoseProjection) — Pointer overload: formula, scale invariance, injectivity on rays (algebra over ℝ).
- **C03 Point transformation agrees with the reported pose** (proved; Props/PoseProjection) — ceres rotate-point and poseCalToEigen both modelled with their threshold; equality for all poses, no side condition.
- **C04 6-value pose to isometry gives a rigid transform** (partial; Props/PoseProjection) — Proved above threshold and at zero; below threshold det = 1+|r|² ≠ 1: negation with witness.
- **C05 Isometry to 6-value pose and back is lossless** (partial; Props/PoseProjection) — Shepperd → angle-axis → Rodrigues, all branches; negation with a witness of tiny rotation; partial for angle 0 or angle² above epsilon.
- **C06 A DH joint transform is the classical DH matrix** (proved; Props/DHChain) — Product of four elementary isometries = explicit 3x4 matrix; rigidity of product.
- **C07 Forward kinematics size guard** (proved; Props/DHChain) — Res-valued model of both getFK overloads; iff for throw, never ub.
- **C08 Forward kinematics composes along the chain** (proved; Props/DHChain) — Induction over joint list.
- **C09 Forward kinematics is a rigid transform** (proved; Props/DHChain) — Induction; closure of rigid transforms under product.
- **C10 Revolute joints are periodic, linear joints translate** (proved; Props/DHChain) — Trig periodicity; conjugation of a translation along z by the prefix pose.
- **C11 Applying calibrated offsets to the chain matches forward kinematics with offsets** (proved; Props/DHChain) — Induction; out-of-range offsets are a separate ub outcome.
- **C12 Baking offsets into a chain keeps its identity** (partial; Props/DHChain) — Types/base/table proved (partial); names and limits lost: negation.
- **C13 Relative transform index guard** (proved; Props/DHChain) — iff on the Int index.
- **C14 Random joint values come from the joint's own seed** (partial; Props/DHChain) — Process-global engine in the state; negation by two histories; what does hold (stream from first caller's seed) proved.
- **C15 Random poses respect joint limits** (proved; Props/DHChain) — Distribution is a parameter assumed to return a value in [min,max]; induction over joints.
- **C16 DH masks address exactly the chosen parameters** (proved; Props/Masks) — Row/column loops modelled as folds; membership iff, nodup, bound, label alignment.
- **C17 Masked parameters are frozen and only those** (proved; Props/Masks) — Problem = list of blocks; iteration modelled; per-element frozen iff listed.
- **C18 Invalid masks are rejected** (partial; Props/Masks) — Too-large indices: proved (partial). Negative indices: negation.
- **C19 A rejected mask leaves the problem untouched** (partial; Props/Masks) — Negation with two-block witness; partial: success or failure at first block; blocks before the failing one are changed exactly as specified.
- **C20 Quaternion update stays on the unit sphere** (proved; Props/Masks) — Quaternion norm multiplicativity; surjectivity via polar form.
- **C21 Correlation matrix is symmetric with standard deviations on the diagonal** (partial; Props/Covariance) — Mutation of sigma_i inside the inner loop modelled; negation for diag; partial under sigma not below epsilon; symmetry always.
- **C22 Correlation coefficients are bounded by one** (proved; Props/Covariance) — Cauchy–Schwarz from 2x2 minors of PSD.
- **C23 Non-square covariance input is rejected** (proved; Props/Covariance) — iff.
- **C24 Covariance report lists every parameter and pair once with the right names** (proved; Props/Covariance) — Loops as list comprehension folds; counts, positions, uniqueness.
- **C25 Covariance report covers exactly the free parameters** (proved; Props/Covariance, Reports) — Index/label selection loop; induction over blocks; submatrix entries.
- **C26 Covariance argument checks** (proved; Props/Covariance) — Res model with solver outcome parameter.
- **C27 Threshold query on correlations is complete and ordered** (proved; Props/Covariance) — filter + merge sort spec: Perm, Pairwise, membership; antitone in threshold.
- **C28 Hand-eye residual is the reprojection error of the composed transforms** (partial; Props/HandEye) — Cost functor modelled step by step through Pose6d; equality with the reported isometries.
- **C29 Perfect hand-eye data has zero cost at the truth** (partial; Props/HandEye) — Data generation spec then residual = 0 for 2D and 3D, lists.
- **C30 Hand-eye cost ignores the choice of base frame** (partial; Props/HandEye) — Group algebra of isometries.
- **C31 Hand-eye refuses guesses that put features behind the camera** (partial; Props/HandEye) — Nested loop with Res; iff; list of added blocks = flatMap.
- **C32 Covariance labels of calibrated poses name the right parameter** (partial; Props/HandEye, StaticCameras) — Labels model zipped with memory layout; negation; partial: block assignment and label count right.
- **C33 PnP covariance labels name the right parameter** (proved; Props/PnP) — Labels zipped with PnP blocks.
- **C34 Guess is returned when the solver does not move** (proved; Props/Guess, HandEye, PnP) — Consequence of C05; solver parameter = identity.
- **C35 PnP reports a rigid pose** (proved; Props/PnP) — Rodrigues with normalised axis; residual equality.
- **C36 Multi camera PnP with one camera at the base equals PnP** (partial; Props/PnP) — Partial for depth > 1e-10; negation for negative depth (C01).
- **C37 Wrist-only calibration keeps the relative camera poses** (proved; Props/StaticCameras) — Relative transform invariance under common left factor.
- **C38 Wrist-only residual matches the reported cameras** (partial; Props/StaticCameras) — Cost functor composition = reported pose.
- **C39 Fixing the first camera really fixes it** (partial; Props/StaticCameras) — Solver restricted to free blocks; partial for ≥1 image; negation for no image.
- **C40 Camera-only residuals: fixed and free camera costs agree** (proved; Props/StaticCameras) — Equality of both functors.
- **C41 Multi static camera residual ordering** (proved; Props/StaticCameras) — Nested loops produce flatMap; index equalities.
- **C42 Distortion model reduces to the pinhole model** (proved; Props/Intrinsic) — Algebra.
- **C43 Intrinsic calibration skips unusable images** (partial; Props/Guess, Intrinsic) — Negation in model with ceres abort for unknown blocks; partial: residual blocks are those of successes.
- **C44 Kinematic residual is zero at the truth** (partial; Props/Kinematic) — Both residuals; angularDistance modelled through quaternions.
- **C45 Kinematic pose residual is zero only for the measured pose** (proved; Props/Kinematic) — Needs angularDistance=0 iff equal rotation.
- **C46 Kinematic parameter blocks, labels and masks stay aligned** (proved; Props/Kinematic, KinematicReport, KinematicRuns) — Layout lemma for column-major storage, labels, masks; zero-DoF included.
- **C47 Kinematic result has one offset row per joint** (proved; Props/Kinematic, KinematicReport) — Result construction with dummy block; rigidity.
- **C48 Maximum likelihood prior is zero exactly at the mean** (partial; Props/CircleFit) — Algebra, Res ctor.
- **C49 Circle fit reports a circle with non-negative radius** (proved; Props/CircleFit) — Algebra; sqrt; solver parameter.
- **C50 Grid sampler picks four distinct grid corners** (partial; Props/Homography) — Partial for rows, cols ≥ 2 and stride ≥ 1; negation for one-row grid.
- **C51 Random sampler is safe** (proved; Props/Homography) — Random stream parameter bounded by distribution contract.
- **C52 Homography error is zero on planar perfect data** (partial; Props/Homography) — Solver of linear system as parameter with contract (returns the solution when unique).
- **C53 Homography check rejects undersized sets** (proved; Props/Homography) — Res model.
- **C54 Line-plane intersection is on the line and in the plane** (proved; Props/Validation) — Algebra, uniqueness.
- **C55 Back-projection inverts projection** (proved; Props/Validation) — Explicit K inverse; rays normalised; algebra.
- **C56 3D projection error counts and zero on perfect data** (proved; Props/Validation) — Induction; sizes.
- **C57 Virtual target check uses every correspondence once and honours the threshold** (proved; Props/Accuracy) — Partition of list; Res; NaN case separate (extended reals).
- **C58 Intrinsic accuracy check is defined for every observation list** (partial; Props/Accuracy) — size_t wrap modelled: ub on empty (negation); partial for non-empty.
- **C59 Noise statistics use exactly the converged solutions** (proved; Props/Accuracy) — Fold model of accumulators; filter of converged; bounds; permutation invariance.
- **C60 Quaternion mean does not depend on signs or order** (proved; Props/Accuracy, Details) — Sum of outer products; sign/perm invariance; SVD is a function of the matrix.
- **C61 Equality of kinematic observations compares all data** (partial; Props/Details, Serialization) — Negation; partial: what is compared.
- **C62 Intrinsics, points and problems survive serialisation** (proved; Props/Serialization) — Small YAML value type; encode/decode functions; induction over lists.
- **C63 Isometry survives serialisation** (proved; Props/Serialization) — Shepperd identity on SO(3), all four branches.
- **C64 Hand-eye result survives serialisation** (partial; Props/Serialization) — Negation with witness; partial: what decode returns (roll and yaw exchanged), identity when roll = yaw or single-axis pitch.
- **C65 Loaded DH chains are complete or rejected** (proved; Props/Serialization) — mapM over decoded joints; Res.
- **C66 Circle grid target geometry** (partial; Props/Targets) — Nested loop; index arithmetic.
- **C67 Ordered circle observations are a permutation** (proved; Props/CircleGrid) — Index maps are bijections of range(rows*cols).
- **C68 Ordered circle observations put the large circle at the origin** (partial; Props/CircleGrid) — Negation for two branches; partial for six.
- **C69 Ordered circle observations keep the grid adjacent and right-handed** (partial; Props/Details, GridOrder) — Index map adjacency; orientation determinant.
- **C70 Correspondences pair features with their own target point** (partial; Props/Targets) — Map lookup models for three targets.
- **C71 Threshold levels cover the requested range** (proved; Props/CircleDetector) — Algebra over ℝ; list of thresholds.
- **C72 Circle grouping is a partition with bounded spread** (proved; Props/CircleDetector) — Greedy grouping invariant by induction over detections.
- **C73 Key points are averages of enough detections** (partial; Props/CircleDetector) — Convex combination bounds.
- **C74 Repeatability counts thresholds** (partial; Props/CircleDetector) — Negation.
- **C75 Saved data sets load back** (partial; Props/DataSet) — File system as map path → content; codec contract for png and yaml.
- **C76 Interrupted save is not mistaken for a data set** (partial; Props/DataSet) — All prefixes of the write sequence.
- **C77 Loaded data sets are aligned** (proved; Props/DataSet) — Induction over index entries.
- **C78 Save reports failure** (partial; Props/DataSet) — Negation.
- **C79 Collected poses and images stay paired** (proved; Props/Collector) — State machine; invariant over event lists.
- **C80 Correspondence data set bookkeeping** (partial; Props/CorrDataSet) — Partial when all cameras have the same number of images; ub otherwise.
- **C81 XmlRpc to YAML keeps the structure** (proved; Props/Loaders) — Mutual recursion over parameter trees.
- **C82 Loaded poses are rigid** (partial; Props/Loaders) — ROS variant proved; YAML variant negation (unnormalised quaternion).
- **C83 Loading intrinsics is all or nothing** (partial; Props/Loaders) — Option/Res model.
- **C84 Calibration tools keep observations and images aligned** (proved; Props/Tools) — Fold over images with failures; alignment.
- **C85 Multi step tool shows the right image** (partial; Props/MultiTools) — Negation; partial when nothing was filtered.
- **C86 Noise tool reads every image** (partial; Props/MultiTools) — Negation; partial for lists with equal images.
- **C87 Title banner is well formed** (proved; Props/Loaders) — String length arithmetic.
- **C88 Default covariance labels identify the parameter** (proved; Props/Reports) — Without given names, no two entries of the report have the same name.
- **C89 Intrinsic result explains the final residuals** (proved; Props/Intrinsic) — For every run that returns: with `k1, k2, p1, p2, k3` the reported distortions in this order, and the reported intrinsics, the final residuals are the errors of the OpenCV lens model, with the target of each image at its final pose (which is not reported).
- **C90 No result without data** (proved; Props/NoData, Reports) — Kinematic calibration without features or measurements aborts the process inside the solver library. Intrinsic calibration: already one image without correspondences, or no image at all, is enough. Multi static camera calibration: already one camera without correspondences, or no camera at all, is enough. Kinematic calibration without measurements.
- **C91 Circle covariance refers to the radius** (partial; Props/Labels, Reports) — C91, names: entry `k` of the report of a circle fit carries the name under which the result reports the value of element `k` of the block; for the radius this is the square of the element. Full statement: the covariance reported for x, y and r is the covariance of the reported centre and radius. Proved: exactly how the reported matrix differs from it; the entries of the centre are right.
- **C92 Orientation parameters of kinematic calibration act on the prediction** (partial; Props/KinematicRuns) — Full statement: two different rotation vectors with angles below π give different transforms, i.e. every orientation parameter influences the prediction. Proved for angles above the double epsilon. Missing: a neighbourhood of zero, which is the default guess and where the statement is false (`C92_negation`).
- **C93 Printed optimisation labels are those of the free parameters** (proved; Props/Details, KinematicRuns) — The labels of a group are printed below the title of this group. Different groups have different titles. Before optimising, the program lists, for every group once, the labels of exactly the parameters that are free.
- **C94 Kinematic covariance report names only parameters of the calibration** (partial; Props/KinematicRuns) — Full statement: every name in the covariance report is the name of a parameter of the calibration, for all chains. Proved when a chain without joints has the four elements of its dummy group masked. Missing: chains without joints and without such masks, where the statement is false (`C94_negation`). Every run with a camera chain without joints whose dummy group is not masked reports a parameter that does not exist.
- **C95 Homography errors are distances** (partial; Props/Homography) — Errors in the image are never negative. Full statement: every reported error is a distance, in particular not negative. Proved for points with non-negative depth; missing: points with negative depth (`C95_negation`). If all depths are negative no entry is positive: the sign is wrong for every wrong point. There are inputs for which a negative error is returned whatever the linear solver does.
- **C96 Circle grid finder reads only existing circles** (partial; Props/CircleFinder) — C96, full statement: for every target with at least one row and one column (what the constructor asserts) the finder reads only existing circles; whatever OpenCV reports there is a result or an exception. Proved for at least two rows and two columns; with one row or one column it reads outside the list of sizes (`C96_negation`).
- **C97 The large circle becomes the origin of the target** (partial; Props/CircleFinder, LargeCircle) — C97, whole chain: an image in which OpenCV finds the pattern with the size of the target, as a parallelogram grid seen from the front (steps `u` to the right and `v` down with positive orientation) with the large circle at the start of the last row, gives the correspondences of that view: the circle in row `r` and column `c` with the target point of row `r` and column `c`.
- **C98 Marker finders report each detected marker once** (proved; Props/Finders) — C98 for ArUco markers: whatever OpenCV detects (ids with four corners each), the feature map contains, for every detected id, the corners of the first marker detected with that id, and nothing else. C98 for ChArUco intersections. Without markers there is an exception. Finder and target of a ChArUco board together: every detected intersection is paired with the board point of its id.
- **C99 Reprojections explain the residuals** (proved; Props/Finders) — Reprojections are the pinhole images of the transformed points, one for each point and in their order. At every pose of a PnP problem whose points lie in front of the camera, the residuals of the optimisation all vanish exactly if the reprojections at the pose that PnP would report are the observed image points.
- **C100 Colour filter reads pixels of the image** (partial; Props/CircleFilters) — The detector returns key points (without undefined behaviour) whenever the colour filter is off or all fitted centres of contours with at least five points lie in the image. Missing: fitted centres outside the image. The full claim fails: whenever the first contour has at least five points, passes the other filters and its fitted centre lies outside the image, a pixel that does not exist is read.
- **C101 Reported circles are the contours that meet the requirements** (partial; Props/CircleFilters) — For contours with defined quotients the reported circles are exactly those of the accepted contours, in order. Missing: contours whose hull has no area. The full claim fails: whatever range is required, a contour whose hull has no area (so that it has no convexity) passes the convexity filter.
- **C102 Inertia ratio is the quotient of the principal moments** (proved; Props/CircleFilters) — The inertia ratio of a contour is the quotient of its smaller and larger principal second moments (the eigenvalues of the symmetric matrix `[[mu20, mu11], [mu11, mu02]]`), and thus between 0 and 1; moments that differ by at most 0.01 count as equal.
- **C103 Index file given by its bare name** (partial; Props/Gate) — The statement fails for every data set with at least one image: given by its bare name, the index file itself is taken for the directory, no image is found and the data set loads as empty without any error (nothing lies below a file). Proved part of C103: whether the index is readable at all does not depend on how it is named.
- **C104 Verdict of the intrinsic validation tool** (partial; Props/ToolData) — The observations of the validation tool are those of the usable images, in order, each with the pose of its image. The verdict on a data set with at least one usable image: whenever the tool ends without error, the virtual targets of all usable images were compared, and the calibration is called valid exactly if mean plus two standard deviations are within both tolerances.
- **C105 Multi camera tool pairs wrist poses and observations** (proved; Props/ToolData) — For every camera: exactly the images in which it saw the target, in order, with the pose of that image from the data set of this camera. The problem is built if every camera has a pose for every image.
- **C106 Unreadable data sets are reported by the tools** (partial; Props/Gate) — The multi step tool, the PnP tool for several cameras and the tools for one camera: an unreadable data set gives an exception, which the tools report; a readable one is used as it is. The multi static camera tool dereferences the empty optional before testing it: for every unreadable data set the behaviour is undefined.
- **C107 Joint estimates use the images seen by all cameras** (proved; Props/MultiTools) — The multi step tool: whenever the loop over the images ends, its data come from exactly the images seen by all cameras (numbers `js`), in order; pose, guess and observations with the same number belong to the same image. The loop ends if there is a pose for every image.
- **C108 Homography gate of the extrinsic tools** (proved; Props/Gate) — The check never does anything but accept or throw `std::runtime_error`; it accepts exactly if there are at least twelve correspondences and the mean of the errors computed for the sample, one per correspondence, is at most the threshold.
- **C109 Multi camera reprojection view** (proved; Props/ToolData) — For every image: the cameras compared are exactly those that saw the target in it (ascending), with their own correspondences, the image drawn on is image `i` of the first of them, and the image is shown exactly if there are two or more.
- **C110 Intrinsic calibration tool collects all usable images** (partial; Props/ToolData) — The correspondences passed on are those of exactly the usable images, in order, and the image size is that of the first image. Missing with respect to C110: the empty data set (see `C110_negation`). It returns for every data set with an image if failures are reported by `std::runtime_error` and drawing works. Full C110 fails: for the empty data set the size of a non-existing image is read.
- **C111 lookAt gives a camera pose facing the point** (partial; Props/PoseGenerators) — C111 (positive part). Full statement: for all distinct camera position and target and every up direction, `lookAt` is a rigid pose at the camera position that has the target straight ahead, no up component along the image rows, and the up direction pointing up in the image. It holds whenever the viewing direction is not parallel to the up direction.
- **C112 Pose generators produce camera poses facing the target** (partial; Props/PoseGenerators) — C112 (cone). For every rigid target frame and offset the generator returns `n` poses; the pose with number `i` is a usable camera on the cone of radius `r` and height `h`, unless the camera would look along the x axis. C112 (cone, target axes parallel to the axes of the pose frame): all poses are usable if the height is not zero. C112 (grid).
- **C113 Random z rotation generator turns each pose about its optical axis** (partial; Props/PoseGenerators) — C113 (positive part): the generator returns the poses of the wrapped generator, in order and unchanged. C113 is false. Full statement: every pose is the corresponding pose of the wrapped generator, turned about its own z axis by an angle between the bounds. Whatever the engine draws, no pose is turned by such an angle when the interval excludes the full turns.
- **C114 Simulated correspondences are the visible points** (proved; Props/SimObservations) — C114: without `require_all` the correspondences are exactly the visible target points, in order, each with its pinhole image. C114: with `require_all` all points are returned if all are visible; otherwise an exception is thrown. C114: without a camera all points are returned, in order, in camera coordinates.
- **C115 Simulated observations are explained by the true transforms** (proved; Props/SimObservations) — C115: the creator always returns one observation for each generated pose, in order; its camera pose is the generated pose relative to the target, and its correspondences are the target points visible from that pose with their images. C115: the same without a camera.
- **C116 Simulated cameras look at the target** (partial; Props/SimObservations) — C116 (what holds). Full statement: whenever the pose generators produce poses that have the target straight ahead, so do the cameras of all observations. In fact every camera has the point straight ahead whose target coordinates are the translation of the target mount transform; this is the target origin only if that translation is zero.
- **C117 Kinematic observation sampling ends with usable data or an error** (proved; Props/SimKinematics) — C117: after at most 10000 attempts the creator either throws a runtime error or returns observations that are all usable and together contain at least the requested number of correspondences. C117: at least as many observations as requested are returned. C117: if no state of the chains shows the target to the camera, the creator throws.
- **C118 Simulated kinematic data has zero residual at the truth** (proved; Props/SimKinematics) — C118: `n` measurements are returned; each closes the loop and has zero residuals at the true parameters. C118: every correspondence of the simulated observations more than 1e-10 in front of the camera has zero residuals at the true parameters. C118: without a camera `n` observations are returned, of all target points in camera coordinates.
- **C119 Pose perturbation respects the noise bounds** (proved; Props/SimKinematics) — C119: the perturbed pose is the given one times a rigid motion that shifts at most by the spatial noise along each axis and turns at most by the angular noise, provided the numbers drawn for the axis are not all zero. C119: the coordinates of the shift are the first three numbers drawn after seeding, in an order that depends on the compiler; the angle is the first number. C119: without noise the pose is unchanged.
- **C120 Pose perturbation varies shift and rotation independently** (partial; Props/SimKinematics) — C120. Full statement: shift, axis and angle of the perturbation vary independently; in particular some seeds give a shift across the rotation axis. This is false: the three distributions own copies of one freshly seeded engine, so the shift is always along the rotation axis (the rotation leaves it unchanged), and the angle is proportional to its first component.
- **C121 Chain perturbation changes only the DH parameters** (partial; Props/SimKinematics) — C121 (what holds). Full statement: the perturbed chain differs from the given one only in the DH parameters, which are shifted by the noise. Base, number, types and shifted parameters are as stated; names and limits are not kept. C121: the pose of the perturbed chain is that of the given chain with the noise as offsets.
- **C122 Simulated target geometry** (partial; Props/SimObservations) — C122 (positive part): the points are those of the grid, row by row from the top, and `origin_idx` is the number of the point at the origin; for square targets the centre is the midpoint of opposite corners. C122 is false for targets that are not square: the coordinates of the centre are exchanged, so it is not the midpoint of opposite corners.
- **C123 Cartesian observations from chains are explained by the true mounts** (partial; Props/SimKinematics) — C123 (exact condition). Full statement: the Cartesian observations made from two chains are explained by the true mount transforms. In fact a correspondence is explained exactly if the target point, as seen from the base of the target chain, is a fixed point of the transform between the two bases. C123 (positive part): with coinciding bases all correspondences are explained.
- **C124 PnP costs are those of the reported pose and of the guess** (proved; Props/Fit) — The final cost per observation is half the mean squared reprojection error of the reported pose. The initial cost per observation is half the mean squared reprojection error of the guess.
- **C125 Multi camera PnP costs cover all cameras** (proved; Props/Fit) — The final cost per observation is half the mean squared reprojection error, over the features of all cameras, with the intrinsics and the pose of the camera that saw the feature and the reported pose of the target. The initial cost is that of the guess. Started at the true pose with images without error, the final cost is zero, whatever the number of cameras.
- **C126 Static camera calibration costs are those of the reported transforms** (proved; Props/Fit) — Calibration of cameras and target mount: the final cost is that of the reported transforms. The initial cost is that of the guesses. Calibration of the cameras and of the target pose of every image: the final cost is that of the reported transforms. Calibration of a common correction of all cameras and of the target mount: the final cost is that of the reported transforms.
- **C127 A calibration does not worsen the fit** (proved; Props/Fit) — The three calibrations of static cameras: the reported final cost does not exceed the reported initial cost, whatever the transforms. (By C126 these are half the mean squared errors of the reported transforms and of the guesses.) The calibration of static cameras with known wrist poses does not increase the sum of the squared errors. The calibration of static cameras without known target poses.
- **C128 Equal marker boards pair features alike** (proved; Props/Plugins) — C128 for ArUco boards. C128 for ChArUco boards. The same targets are equal whatever the order of comparison. The tolerance is the machine epsilon of `float`, `2⁻²³`: boards that differ in a length by less, and in nothing else, are equal; boards that differ in a length by as much or more are not. Boards whose maps differ at one marker are different.
- **C129 Equal circle grids have the same points** (partial; Props/Plugins) — Equal targets have equally many points, and corresponding coordinates differ by less than the number of columns (rows) times the machine epsilon; equality is reflexive and symmetric. Every target with at least one row and two columns is equal to a target with different points. For every target there are two more such that equality is not transitive.
- **C130 Equal marker boards are the same board** (partial; Props/Plugins) — All but the dictionary. Boards that differ in the dictionary only, so that no marker of one is a marker of the other, compare equal.
- **C131 Drawn markers are the detected ones** (proved; Props/Plugins) — C131 for ArUco markers: the ids and corners drawn into the image are those of the first detection of each id. C131 for ChArUco intersections. C131: also an id that is negative, or any other 32 bit value, is drawn as it was detected, although it is stored without sign.
- **C132 Circle grid plugin uses the stated configuration** (proved; Props/Plugins) — A colour that does not fit into a byte is not rejected but reduced modulo 256. C132: a configuration with non-negative numbers of rows and columns and a complete block of detector parameters gives a finder with exactly this target and these parameters. Without the block the finder has the default parameters.
- **C133 Unstated detector parameters keep their defaults** (partial; Props/Plugins) — The stated parameters are used if all are stated, and the defaults if none is. Whatever a block states, if one of the 21 keys is missing the finder uses the default of every parameter.
- **C134 Circle grid sizes are positive** (partial; Props/Plugins) — Non-negative numbers are taken over. Zero and negative numbers are accepted: a target without rows, or with `2^32 - n` rows instead of `-n`; the same for columns.
- **C135 ChArUco plugin uses the stated configuration** (proved; Props/Plugins) — C135: the ChArUco board is created with the five stated values, the number of columns first; if one is missing or unreadable there is an exception.
- **C136 Kinematic measurements load as written** (proved; Props/Analysis) — C136: a document of complete entries loads exactly, entry by entry, whatever the entries are called. Every failure, including a missing or malformed file, is a `BadFileException`. The number of measurements is the number of entries.
- **C137 Incomplete kinematic measurements are rejected** (partial; Props/Analysis) — If the document is accepted, all entries are maps with a complete pose, and the joint values that are listed are numbers. A missing number of a pose leads to the rejection of the document. An entry with a complete pose and no joints at all is accepted as a measurement without joint values. A document that consists of a single word is accepted as an empty set of measurements.
- **C138 Measured poses are rigid** (partial; Props/Analysis) — The poses with quaternions of unit length, and those without vector part, are rigid motions, and no others. A complete entry with a quaternion of another length and with a vector part is accepted and gives a transform that is not rigid.
- **C139 Comparison with measurements** (proved; Props/Analysis) — C139: the statistics are mean and standard deviation of the distances and of the angles between the measured poses and the poses that close the loop with the calibration result. Both means are zero exactly if every measured pose closes the loop. More joint values than joints, in either chain and in any measurement, are reported as an error.
- **C140 Percentage of improvement** (proved; Props/Analysis) — C140: there is a figure exactly if the reference is not zero; it is positive exactly if the other value is smaller, and hundred exactly if the other value is zero.
- **C141 Hand-eye analysis compares with PnP estimates** (partial; Props/Analysis) — The statistics are those of the PnP estimates of the observations of the images, in order; without a PnP estimate there are no statistics. With more images than observations there is no report. The analysis reports the same numbers if no optimization converges.
- **C142 Statistics of 3D projection errors** (partial; Props/Analysis) — With two errors or more the four numbers are mean, sample standard deviation, minimum and maximum of the errors. The mean lies between the minimum and the maximum. A single error gives no number for the standard deviation. Without features the smallest element of an empty array is read.
- **C143 Position residual of pose measurements** (partial; Props/Analysis) — If the rotation between prediction and measurement leaves the predicted position fixed (in particular if there is no rotation), the position residuals are the components of the difference of the positions, and in no other case. For every predicted pose away from the origin there is a measurement that agrees with the predicted position and has position residuals.
- **C144 Printed cost is the pixel error** (partial; Props/Analysis) — The printed number is proportional to the root mean square distance, hence zero exactly if that is zero. Whenever the fit is not perfect the printed number is wrong.
- **C145 Printed transform describes the transform** (proved; Props/Analysis) — C145: position, fixed-axis angles (roll about x, then pitch about y, then yaw about z) and quaternion all describe the transform. Different transforms are printed differently.
- **C146 Printed difference of transforms** (proved; Props/Analysis) — C146: both distances are the distance of the origins, and the angle is the angle between the frames in degrees. The printed angle lies between 0 and 180 degrees and is 0 exactly for equal orientations; the distance is 0 exactly for equal positions.
- **C147 Intrinsic covariance labels name the right parameter** (partial; Props/Labels) — The first nine entries carry the names under which the result reports the values of the nine elements of the block of the intrinsic parameters. Every entry of a pose carries the name of another component of this pose. What the names are instead: the entries of the rotation carry the names of the translation and the other way round, so exchanging the two halves of the names of a pose makes the report right.
- **C148 Points on a circle determine the fit** (proved; Props/Identify) — Observations on a circle, three of them not on one line: the final cost is zero exactly if that circle is reported. Two observations never suffice: two different circles pass through any two different points.
- **C149 Measured triangle determines the pose (PnP, 3D)** (proved; Props/Identify) — Perfect measurements of a triangle: the final cost is zero exactly if the true pose is reported.
- **C150 Image of a planar target determines the pose (PnP)** (partial; Props/Identify) — **Full statement of C150:** with perfect images of four points of a planar target, no three on one line, taken from outside its plane, the final cost is zero exactly if the true pose is reported. Proved for reported poses with all features in front of the camera; without that it is wrong (`C150_negation`). Perfect images of a square, one unit in front of the camera.
- **C151 Image of a planar target determines the pose (several cameras)** (partial; Props/Identify) — For one camera there is, for every pose of a planar target, another pose with the same images. Such a run: the true pose is in front of the camera, the reported one behind it. **Full statement of C151:** if one of the cameras has a perfect image of four points of a planar target, no three on one line, from outside its plane, the final cost of perfect images is zero exactly if the true pose is reported.
- **C152 Turns about two axes determine the hand-eye calibration** (proved; Props/Identify) — Perfect 3D measurements of a triangle in four observations whose two motions turn the robot about different axes: the final cost is zero exactly if the true calibration is reported. The same for perfect images of a planar target, with all features in front of the camera.
- **C153 Turns about one axis leave the hand-eye calibration undetermined** (proved; Props/Identify, IdentifyStatic) — If every motion of the robot between the observations leaves a direction of the camera mount unchanged, moving the calibrated camera along that direction by any distance, with a suitable target pose, leaves all reprojection errors unchanged.
- **C154 Camera-only calibration determines relative poses** (proved; Props/Identify, IdentifyStatic) — Moving all cameras and all target poses together changes no reprojection error: only the poses relative to each other are determined. Perfect images of a planar target: if two cameras see it in a common image and the final cost is zero, the reported pose of one camera relative to the other is the true one, and so are the reported poses of the target relative to them.
- **C155 Kinematic parameters that data cannot separate** (proved; Props/Redundant) — Link length and twist of the last camera joint cannot be told from the transform between camera mount and camera: whatever is added to them is undone by a change of that transform, in all residuals. The same for the last joint of the target chain and the transform between target mount and target. Offset and angle of the first joint of the target chain cannot be told from the transform between the bases.
- **C156 Automatic derivatives are the derivatives of the residuals** (partial; Props/Derivatives) — Missing: perfect alignment (see `C156_negation`), orientations that differ by half a turn and those at which the conversion to a quaternion switches its formula. The priors on the joint offsets. In every calibration from poses, at parameters that reproduce the measured pose: the solver is told, whatever the direction, that the orientation residual does not change.
- **C157 PnP starts from every guess** (partial; Props/Starts) — Missing: guesses without rotation. At a guess without rotation no derivative of any residual is finite, in no direction. A run from a guess without rotation fails and reports the guess, whatever the data.
- **C158 Kinematic calibration can correct every orientation** (partial; Props/Starts) — Mounts and base guessed without rotation are reported without rotation, whatever the data. Once the orientation is away from identity it can be corrected: turning it further about its own axis moves every point at the velocity of that rotation. Missing: orientations guessed as identity.
- **C159 Calibrations with pose blocks start from every guess** (proved; Props/Starts) — The kinematic calibrations, too, can be evaluated at every guess. A pose block without rotation that starts to turn with angular velocity `w` and to move with velocity `d`.
- **C160 Circle fit can change every radius guess** (partial; Props/Starts) — From radius zero the reported radius is zero, whatever the points. From a positive radius the residual of every point falls or rises with the radius. Missing: radius zero.
- **C161 16 bit images keep their contrast** (partial; Props/Programs) — Brighter pixels do not become darker, and all channels are equal. Exactly which differences are kept. Missing: two different values of at least 255. Images of 8 bit values are kept as they are. An image in which all values are at least 255 (of 65535) becomes uniformly white, whatever it shows.
- **C162 The wrist example uses exactly the images in which the target is found** (proved; Props/Programs) — Whenever the loop ends, the observations come, in order, from exactly the images in which the target is found; each has the correspondences and the wrist pose of its own image. The loop of the example ends normally for every data set with a pose for every image, whatever OpenCV finds. The guesses of the example are rigid motions.
- **C163 PnP with OpenCV and with the solver** (proved; Props/Programs) — The pose built from the answer of OpenCV is a rigid motion, its rotation is the one that belongs to the rotation vector (also for the zero vector) and its position is the translation vector. The camera matrix describes the same camera as the pinhole model.
- **C164 The kinematic example compares calibrated and nominal joints** (partial; Props/Positioner, ProgramRuns) — Both runs start from the loaded guesses and the nominal chain: a solver that does not move reports them. First run: the transform between the bases and the offsets of the last joint keep their values, so that only the offsets of the first joint are calibrated. Second run: nothing of the chain is calibrated.
- **C165 The kinematic example finds the true parameters** (partial; Props/Positioner) — First run, exact measurements of any true offset: if the statistics report no errors, length and twist of the first link are the true ones, up to the common change of sign that corresponds to a half turn of the first joint. Missing: the other two offsets of the joint, see `C165_negation`. Second run, exact measurements of the nominal chain: the statistics report no errors exactly if the true transforms are found.
- **C166 Collected data with two turns determine the wrist calibration** (proved; Props/EndToEnd) — An operator collects images and wrist poses in any order of events and saves them; the wrist tool loads the files and calibrates. If the detections are true and the usable captures include two turns of the wrist about different axes, the tool reports zero error exactly if it reports the true poses of camera and target. The same for the static camera tool and a target on the wrist.
- **C167 The printed dot target is the target the finder assumes** (proved; Props/PrintedTarget) — The printed page shows, in the right colours and to scale, the dots of the circle grid target with the same numbers and spacing, and the large dot at its origin; the centres of all dots are on the page.
- **C168 Printed dots are complete and separate** (partial; Props/PrintedTarget) — Full statement of C168: whatever numbers are given, all printed dots are complete and separate. The dots are complete exactly if their size is at most two inches, and the large dot, if it is the end of a row or column, at most one inch larger than the grid. Missing: other sizes (`C168_negation`). They are separate exactly if the spacing is more than one and a half dots.
- **C169 A printed checkerboard has the requested number of intersections** (partial; Props/PrintedTarget) — Full statement of C169: the printed checkerboard has as many crossings in either direction as requested, `s` millimetres apart. It has crossings `s` millimetres apart, starting one field inside the margin of half an inch. Missing: their number is one less in both directions (`C169_negation`). No checkerboard has the requested number of crossings: a row and a column are missing.
- **C170 The options of the target script mean what they say** (partial; Props/PrintedTarget) — Full statement of C170: dots are white on black if the word after `--invert` says "true", and black on white otherwise; the checkerboard is inverted likewise; the spacing can be given separately for both directions. They are white on black exactly if there is a word and it is not empty. Missing: words that say "false", checkerboards and separate spacings (`C170_negation`).
- **C171 Pose conversions lose at most rounding** (proved; Props/Near) — Every six-value pose acts like a rigid motion, the rotation about its rotation vector by its length: up to 2^-52 times the distance of the point, for the pose and for its inverse. The round trip of a rigid transform through a six-value pose moves every point by at most 2^-52 of its distance. The round trip through the inverse, as done for the poses of cameras.
- **C172 Perfect hand-eye data leaves rounding errors only** (proved; Props/Near) — 3D: every residual is at most 2^-51 times the distances of the point from the frames on its way to the camera, for all rigid guesses and mount poses and all data that fit the guess. 2D: for features whose depth is not below 2^-50 times their distances, the visibility check passes, and the residuals are what an error of that size makes in the image.
- **C173 Guesses come back up to rounding** (proved; Props/Near) — Hand-eye, both entry points. Multi camera PnP. Static cameras, moving target. Static cameras only, with at least one image (without images the cameras are lost: `C39_negation`). Static cameras only, for every solver: the first camera, if it is fixed. Common correction of all cameras: the cameras come back exactly, the target up to rounding. Kinematic calibration.
- **C174 Hand-eye residuals are reprojection errors of the reported transforms up to rounding** (proved; Props/Near) — 3D hand-eye: at every parameter state, the reported transforms are within rounding of rigid transforms whose reprojection errors are within rounding of the optimised residuals. 2D hand-eye, for features whose depth is not below 2^-50 times their distances.
- **C175 Kinematic calibration does not worsen the fit** (proved; Props/KinematicFit) — C175 for pose measurements: disagreement with the measurements plus squared offsets of the reported calibration do not exceed the disagreement of the guesses with nominal chains. In particular the disagreement does not increase. C175 for pixels, if all points are in front of the guessed and of the reported camera.
- **C176 The true kinematic calibration is the best one** (partial; Props/KinematicFit) — Exact measurements of a robot with any offsets: the true calibration costs more than one with all offsets reduced by the same factor and the same transforms. Masked offsets stay zero. The same for exact images with all points in front of the camera.
- **C177 Images that determine static cameras and the mounting of the target** (proved; Props/IdentifyStatic) — Perfect images of a planar target on the wrist. If one camera took four good images between which the wrist turned about two different axes, and the other cameras one good image each, the final cost is zero exactly if the true mounting of the target and the true poses of all cameras are reported.
- **C178 Images that determine a common correction of static cameras** (proved; Props/IdentifyStatic) — Perfect images of a planar target on the wrist, taken by cameras whose guesses are right relative to each other (the true poses are the guesses moved by `B`). If four good images, of any of the cameras, show two turns of the wrist about different axes, the final cost is zero exactly if the true mounting of the target and the true poses of all cameras are reported.
- **C179 Wrist turns about one axis leave static cameras undetermined** (proved; Props/IdentifyStatic) — If the wrist turned about one axis only, a calibration of cameras and target mount may as well report all cameras moved by any distance along that axis: for every result there is a run with the same cost that does. The same for the calibration of a common correction of all cameras.
- **C180 Images used together were taken together** (partial; Props/Alignment) — The multi step tool: if the same records are readable for all cameras, every observation it collects, a wrist pose and the correspondences of all cameras, belongs to one moment. Each moment is used at most once and in order, and a moment is used exactly if the target is found in the images of all cameras. Missing: data in which a record is unreadable for some cameras only (`C180_negation`).
- **C181 Images that determine focal lengths and centre** (proved; Props/IdentifyIntrinsic) — Perfect images of a plane target, without lens distortion. Let some of the images show four features of the target, no three on one line, and let the planes of the target in these images not have too few directions. Then every run that ends with cost zero and without distortion reports the true centre and, up to sign, the true focal lengths.
- **C182 Images that leave focal lengths and centre open** (proved; Props/IdentifyIntrinsic) — Perfect images of a plane target, without lens distortion, whose planes have few directions. Whenever the calibration returns for these images, there are runs that end with cost zero and no distortion with the true camera, and others that do so with another camera: one with focal lengths of the same signs, for which the targets are in front of the camera wherever they are so in truth.
- **C183 What the extrinsic tools for one camera compute** (proved; Props/Mains) — Whenever the wrist tool ends with success, what it prints is the result of the calibration of exactly the accepted images of the data set (numbers `js`), each with the wrist pose recorded with it, with the intrinsic parameters and the guesses of the parameters that are named so; the analyses printed below are those of this result. The same for the static camera tool.
- **C184 The extrinsic tools for one camera always end with an exit code** (partial; Props/Mains) — The wrist tool ends with an exit code if reading `target_finder` raises no exception of XmlRpc. Missing: parameters `target_finder` that do. The same for the static camera tool. Missing: parameters `target_finder` that raise exceptions of XmlRpc. If threshold, intrinsic parameters and data set can be loaded, a parameter `target_finder` of the wrong shape ends the process of the wrist tool.
- **C185 A printed error of zero means the printed transforms are the true ones** (proved; Props/Mains) — An operator collects images and wrist poses, saves them and starts the wrist tool with these files. If the detections are true and the usable captures include two turns of the wrist about different axes, the tool prints the error zero exactly if the transforms it prints are the true poses of camera and target. `A` and `B` are the printed transforms. The same for the static camera tool and a target on the wrist.
- **C186 What the tools for several cameras compute from their parameters** (proved; Props/MultiMains) — Whenever the tool for several static cameras ends with success: data set, intrinsic parameters and guess of camera `c` are those of the parameters `camera_c/…`; what is printed is the result of a calibration with, for every camera, exactly the images in which it saw the target, each with the wrist pose recorded with it; and the poses printed for camera `c` are those of camera `c`, in the base frame and in the frame o.
- **C187 What the tools for several cameras show for each image** (partial; Props/MultiMains) — Full C187: for every image the tools for several cameras show the image of the first of the cameras compared, with all features drawn where this camera sees them according to the calibration and according to PnP, and the transform they print as that from camera 0 to the target is the pose of the target in the frame of camera 0.
- **C188 Exit codes of the tools for several cameras** (partial; Props/MultiExit) — The tool for several static cameras ends with an exit code if there is at least one camera, all data sets can be read and have `k` images, and every camera found features in some image. Missing: all other cases, see `C188_zero_negation`, `C188_unreadable_negation`, `C188_blind_negation`, `C188_finder_negation` and C80.
- **C189 A zero error of the tools for several cameras means true camera poses** (proved; Props/MultiEndToEnd) — The tool for several static cameras. If the detections are true, one camera has usable images between which the wrist turned about two different axes, and every camera has a usable image, the tool prints the error zero exactly if the poses it prints, `A` for the cameras and `B` for the target, are the true ones. The first step of the tool with two steps.
- **C190 What the tools for intrinsic calibration, validation, noise and PnP compute** (partial; Props/SingleMains) — Whenever the intrinsic calibration tool ends with success, what it prints is the result of the calibration with the guess of the parameter `intrinsics` and the correspondences of exactly the images of the data set in which the target is found; and the other camera it prints is what OpenCV computes from the same correspondences, the same guess and the size of the first image.
- **C191 Exit codes of the tools for intrinsic calibration, validation, noise and PnP** (partial; Props/SingleMains) — The PnP tool ends with an exit code. Missing: parameters `target_finder` that raise exceptions of XmlRpc, finders that make no correspondences. The noise tool ends with an exit code. Missing: parameters `target_finder` that raise exceptions of XmlRpc, finders that make no correspondences. The validation tool ends with an exit code.
- **C192 A zero error of intrinsic calibration and PnP means the true camera and pose** (proved; Props/SingleEnds) — A camera without lens distortion takes a data set. In each of its images in which the target is found, the features are where the camera sees them; some images show a quadrangle, and their planes do not have too few directions.
- **C193 Verdict of the validation tool on perfect images** (partial; Props/SingleEnds) — All images in which the target is found are perfect images of it, taken with the intrinsic parameters that are validated. If every fit the solver returns has error zero and all features in front of the camera, the verdict is "valid". Missing: that wrong parameters are not called valid.
- **C194 Motions or targets that do not determine a hand-eye calibration give an error** (proved; Props/Rank) — Hand-eye calibration from points: if all motions of the robot leave a direction unchanged, there is an exception instead of a result. The same if all features are on one line of the target. Hand-eye calibration from pixels: a result means that some feature is in the plane of the camera centre or that no direction is unchanged by all motions of the robot.
- **C195 Wrist motions or targets that do not determine several static cameras give an error** (proved; Props/Rank) — Calibration of several cameras and the target mount: a result means that some feature is in the plane of the centre of its camera or that no direction is unchanged by all motions of the wrist. The same for a direction of the wrist that is unchanged by the motions between images of the same camera. The same if all features are on one line of the target.
- **C196 PnP with features on one line returns no turned pose** (proved; Props/RankFit) — PnP from points: if all measured points are on one line of the target there is no result with a turned target. PnP from pixels: the same, unless a point ends exactly at the depth at which the projection changes its formula.
- **C197 One image with features on one line makes the intrinsic calibration fail** (proved; Props/RankIntrinsic) — An intrinsic calibration with an image whose features lie on one line of the target does not return.
- **C198 A circle fit that returns has a circle** (proved; Props/RankFit) — A circle fit to three or more points that returns has a radius other than zero and points that are not all on one line; the only other case is that all points coincide with the reported centre. The derivatives of a fit with radius other than zero to points that are not all on one line are not singular.
- **C199 Motions without a common direction make every parameter of a hand-eye calibration count** (proved; Props/RankFull) — Hand-eye calibration from points: if some observations each show a triangle and no direction is unchanged by all motions of the robot between them, every change of the camera pose or the target pose changes a residual to first order. Conversely, if all motions leave a direction unchanged, some change of the parameters changes no residual to first order.
- **C200 A triangle or a quadrangle makes every parameter of PnP count** (proved; Props/RankFull) — PnP from points: if three of the measured points are not on one line, every change of the pose changes a residual to first order. PnP from an image: if four of the points are on the target plane, no three of them on one line, and the pose shows the target from outside its plane and all points in front of the camera, every change of the pose changes a residual to first order.
- **C201 Wrist motions without a common direction make every parameter of several static cameras count** (proved; Props/RankFull) — Calibration of several cameras and the target mount: if each camera has images of four points of the target plane, no three on one line, from outside the plane, no feature is in the plane of the centre of its camera, and no direction of the wrist is unchanged by all motions of the wrist between images of the same camera, every change of the poses changes a residual to first order.
- **C202 Common images link static cameras** (proved; Props/Links) — Perfect images of a planar target: if a chain of cameras leads from one camera to another in which neighbours see the target in a common image, and the final cost is zero, the reported pose of one camera relative to the other is the true one, and so are the reported poses of the target in the images of all these cameras relative to them.
- **C203 The printed cost bounds the error of a pose from noisy 3D measurements** (proved; Props/Noise) — The printed final cost and the noise bound the error of the reported position of every point of the target. They also bound the error of the orientation, if three features form a triangle. If the result fits the measurements at least as well as the true pose does, its error is bounded by the noise alone. A solver that does not increase the cost, started at the truth, stays within this bound.
- **C204 The printed cost bounds the error of a hand-eye calibration from noisy 3D measurements** (proved; Props/Noise) — How much the rotations are off. The reported pose of the target is off by hardly more. How much the positions of the camera on its mount and of a point `q` of the target on its mount are off. The point is spanned by the features of each of the three observations; `travel` is how far it moves relative to the camera mount between them, and `reach` its distance from the camera.
- **C205 Targets parallel to the image leave the focal lengths open** (proved; Props/RankFrontal) — An intrinsic calibration that ends with all targets parallel to the image (more generally: with all features of each image at the same depth) does not return. Whenever an intrinsic calibration ends with all features of each image at the same depth, there are other results with the same final cost: for every `a` other than zero one with focal lengths `a` times as large and all targets `a` times as far away.
- **C206 Little pixel noise and a small printed cost mean a pose close to the truth** (proved; Props/Stable, StableTools) — For every wanted accuracy there is a bound on pixel noise and final cost that guarantees it for the pose reported by PnP. If the result fits the image at least as well as the true pose does, little noise alone guarantees the accuracy. In particular for a solver that does not increase the cost and starts at the true pose. The PnP tool.
- **C207 Little pixel noise and a small printed cost mean a hand-eye calibration close to the truth** (proved; Props/Stable, StableHandEyeTool) — For every wanted accuracy there is a bound on pixel noise and final cost that guarantees it for the reported hand-eye calibration, if three observations of a quadrangle are connected by motions about different axes. If the result fits the images at least as well as the true calibration does, little noise alone guarantees the accuracy. The tool for a camera on the wrist.
- **C208 Pose loaders report failure by a flag and leave the caller's pose unchanged** (proved; Props/LoadPose) — The overload that returns a flag: true with the loaded pose, or false with the caller's pose; it never throws. It returns true exactly for parameters with the seven numbers of a pose. The same for files. It returns true exactly for documents with the seven numbers; here the quaternion is not normalised. The variant used by the reader of data sets is this one without the pose that is kept on failure.
- **C209 The angles stored with a result are its roll, pitch and yaw** (proved; Props/LoadPose) — The angles stored with a result as `x`, `y`, `z` are roll, pitch and yaw: turning about the x axis, then about y, then about z by them gives the orientation. The positions are stored unchanged. The textbook rotation is the product of the three turns.
- **C210 The data set on disk is what the collection node captured before the last save** (proved; Props/CollectMain) — The run of the node: it handles the events before the first one that ends it, and what is on disk afterwards comes from the calls of `save` among them. The data set that the tools read afterwards has exactly the pairs captured before the last `save` that the node handled, also if the node was ended by a bad image later. Captures after it are not on disk.
- **C211 Little pixel noise leaves several static cameras close to the truth** (proved; Props/StableStatic, StableSteps, StableTools) — Cameras and target mount. Camera `x` sees the target well in three images between which the wrist turned about two different axes, every camera sees it well in one image. Then for every wanted accuracy there is a bound on pixel noise and final cost that guarantees it for all reported poses; the bound on the noise suffices if the result fits the images at least as well as the true poses do.
- **C212 The printed cost bounds the error of a circle fitted to noisy points** (proved; Props/NoiseCircle) — The printed final cost `F` and the noise bound the errors of centre and radius, if three of the points form a wide triangle. If the result fits the points at least as well as the true circle does, the errors are bounded by the noise alone. A solver that does not increase the cost, started at the true circle, stays within this bound.
- **C213 A large target rules out lens distortion that is not there** (proved; Props/NoDistortion) — Perfect images, without lens distortion, of a plane target; one of them shows a grid of nine by nine features, and the camera is not in the plane of the target there. Every run that ends with cost zero reports that there is no distortion.
- **C214 With radial distortion, one tilted image of a large target determines the camera and the lens** (proved; Props/LensIdentify) — Images of a plane target through a lens with radial distortion, of an order above the third or without tangential distortion. One of them shows a grid of fifteen by fifteen features, and the camera is not in the plane of the target there. Every run that ends with cost zero reports the true centre; the other results are the true ones up to one scale.
- **C215 Intrinsic calibration starts where the pose estimation of the images ends** (proved; Props/IntrinsicStart) — In every run that returns, PnP with the guessed camera converged for every image; the initial cost is half the mean squared reprojection error of the guessed camera, without distortion, with the target of every image at the pose of PnP. With the target clearly in front of the camera in all images: the initial cost is the mean of the final costs of PnP, each image counted as often as it has features.
- **C216 Little pixel noise leaves intrinsic calibration close to the truth** (proved; Props/StableIntrinsic, StableTool) — For every camera, every arrangement of targets that determines it (as in `C181_unique`) and every wanted accuracy there is a bound on noise, final cost and reported distortion that guarantees the accuracy of the reported focal lengths (up to sign) and centre.
- **C217 Correspondences of marker targets come in the order of the ids** (proved; Props/MarkerOrder) — C217 for ArUco boards: the correspondences come in the order of the marker ids and of the corners of each marker, whatever the order of the detections. C217 for ChArUco boards: the correspondences come in the order of the ids of the intersections. Two lists of the same detections of distinct markers give the same features, so that everything computed from them is the same.
- **C218 Separate circles are reported once each** (proved; Props/SeparateCircles) — **C218.** If every detection shows one of the circles, detections of one circle agree within the tolerances of the detector, and the circles are too far apart for detections of two to agree, then the key points are, in some order, one for each circle that is shown often enough (at least once), and each is as close to its circle as the detections are.
- **C219 What is drawn for a circle grid is what was found** (proved; Props/Drawing) — **C219, circles.** Drawing the detected circles ends like their detection; the key points drawn are the key points that `detect` reports, and the contours drawn are, threshold by threshold, those the circles were fitted to. **C219, grid.** Drawing the features that the finder found for its target ends like drawing the circles of the image.
- **C220 The test program of the finder ends normally** (partial; Props/Drawing) — With two numbers of at least two (and fewer than 2^31 circles), in an image whose contours have their centres inside, the program ends normally: it shows rows × columns features, the large circle labelled as the origin, exactly if the target is found. Missing: arguments that are not numbers, and targets with a single row or column. With any other number of arguments it only explains its use.
- **C221 Measurements that determine the mounts of two kinematic chains** (proved; Props/KinIdentify) — Exact pose measurements of two chains without offsets: if the joint values are enough, the reported final cost is zero exactly if the true calibration is reported. The same if masks hold one of the three transforms at its guess, which is the true one.
- **C222 Little noise leaves the mounts of two kinematic chains close to the truth** (proved; Props/StableKin) — For every accuracy there is a bound on the errors of the measured poses and on the final cost that guarantees it for the three transforms and the offsets that are reported, if the joint values are enough. A result that fits the measured poses at least as well as the truth does needs no bound on the final cost. In particular if the optimization starts at the truth.
- **C223 Documents that do not decode give an exception of the YAML library** (proved; Props/DecodeErrors) — Points, transforms, intrinsics and correspondences: every document decodes or gives an exception of the YAML library. The same for observations, hand-eye problems and results. A joint of a chain: an unknown type gives `std::runtime_error`, every other document decodes or gives an exception of the YAML library.
- **C224 The order of the data and their division into observations do not matter** (proved; Props/Order) — PnP: correspondences in another order can give the same results. Circle fit: points in another order. Hand-eye calibration from points: only the correspondences with their poses matter, not their order and not which of them are listed as one observation. The same from pixels. Several static cameras and a target on the wrist: for each camera only the correspondences with their wrist poses matter.
- **C225 The unit of length does not matter** (partial; Props/Unit, UnitMore) — Hand-eye calibration from points: the same results with costs in the square of the new unit. Hand-eye calibration from pixels. Full statement: for every problem and every result that is possible there is a possible result of the problem in another unit with the same costs and rotations, and with the translations in the new unit.
- **C226 Where pixels are counted from and how fine they are does not matter** (proved; Props/Pixels) — Only the origin moves: the outcome is the same with the same solver, whatever it is.
- **C227 The frames that poses refer to do not matter** (partial; Props/FrameChoice) — Hand-eye calibration from points. Full statement: for every choice of frames, the problem whose poses and points refer to the new frames reaches exactly the results that refer to the new frames and have the same costs. Missing from the full claim: poses that the six values do not represent, before or after the change (`C227_negation`), and results that are not rigid. Hand-eye calibration from pixels.
- **C228 Giving the data several times does not matter** (proved; Props/Repeat) — PnP: giving every correspondence several times adds no possible result and removes none. Circle fit: every point several times. Hand-eye calibration from points: every correspondence with its poses several times, divided into observations in any way. The same from pixels. Several static cameras and a target on the wrist: every correspondence with its wrist pose several times. One correction of all cameras.
- **C229 Residuals are exact up to rounding** (proved; Props/Rounded) — C229: hand eye calibration from images. C229: hand eye calibration from points in space. C229: multi camera PnP. C229: static cameras and moved target. C229: cameras only. C229: correction of the base only. C229: without rounding the functors of this model are those of the other properties, whose poses are stored as six values.
- **C230 Residuals of PnP and of intrinsic calibration are exact up to rounding** (proved; Props/RoundedMore) — C230: PnP from pixels, for points at least a thousand millionth in front of the camera plane. C230: PnP from points in space. C230: intrinsic calibration, for distortion coefficients of at most one. C230: without rounding the functors of this model are those of the other properties.
- **C231 Camera and target can exchange their roles** (partial; Props/Roles) — Hand-eye calibration from points: camera and target exchange their roles. Full statement: when camera and target exchange their roles, with their mounts, guesses and points, the calibration reaches exactly the results with exchanged poses and the same costs. Missing from the full claim: poses that the six values do not represent (`C231_negation`), and results that are not rigid.
- **C232 A value that is not a number shows in the residuals** (partial; Props/NotANumber) — Hand-eye calibration from pixels: all residuals are numbers if and only if all values are. Hand-eye calibration from points. Several cameras. Intrinsic calibration. A point that passes the check of hand-eye calibration is made of numbers, as are the poses of the mounts and of the target. PnP from points. PnP from pixels. Full statement: the residuals are numbers if and only if all values are.
- **C233 A value that is not a number in kinematic calibration, circle fitting and priors** (partial; Props/NotANumberKin) — Kinematic calibration from pixels. Full statement: the residuals are numbers if and only if all values are. Missing from the full claim: the estimated orientations of the mounts, which may be NaN without a trace (`C233_negation`). Kinematic calibration from measured poses, whatever the angular distance is. Full statement: the residuals are numbers if and only if all values are.
- **C234 Forward kinematics is exact up to rounding** (proved; Props/RoundedKin) — The pose at the end of a chain in double arithmetic. `B` is the pose the user meant as base; the stored one has been rounded. Rounding does not change when an error is thrown. Without rounding the computation is that of `DHChain.getFK`.
- **C235 Residuals of kinematic calibration are exact up to rounding** (proved; Props/RoundedKinCost) — Pixels. Positions: the difference between measured and predicted pose. C236 covers the residual of the orientation. Both functors.
- **C236 The orientation residual of kinematic calibration is exact up to rounding** (proved; Props/RoundedOrient) — The residual is the weight times the angle between the measured and the predicted orientation, up to a small error.
- **C237 Residuals of circle fitting and of priors are exact up to rounding** (proved; Props/RoundedFit) — Circles: the residual is the square of the radius less that of the distance from the centre, up to a small part of these squares. The sign tells inside from outside for all points but those very close to the circle. Priors: the residual is the deviation from the mean in standard deviations, up to a small part of itself. A prior does not pull where its parameter is at the mean, and only there.
- **C238 The numbering of cameras and images does not matter** (proved; Props/Renumber) — Multi camera PnP: the cameras can be listed in any order. Cameras and images can be listed in any order; the reported cameras come in the same order as the given ones. Cameras (except a fixed first one) and images can be listed in any order; the reported poses come in the same order as the given ones. Cameras can be listed in any order; the reported cameras come in the same order as the given ones.
- **C239 The calibrations agree where they overlap** (proved; Props/Agree) — A calibration of one static camera and a hand-eye calibration of the same images, with the camera at its mount and the wrist as the mount of the target, reach the same results: whatever the first may report, the second may report, provided that it accepts the guesses (it requires all points to be in front of the camera).
- **C240 The pose of a target seen by one camera is the same from all functions** (proved; Props/OneCamera) — One fixed camera and one image: every result of the calibration of cameras only is a result of multi camera PnP, and the camera is where it was said to be. The other way round.
- **C241 Calibrations with fewer assumptions can reproduce those with more** (proved; Props/Relax) — Every result of the calibration of static cameras with wrist poses is a result of the calibration without them, that starts from the target poses that the wrist poses and the guess amount to: with the same verdict, costs and cameras, and with the target poses that the wrist poses and the result amount to.
- **C242 Hand-eye calibration of one image is PnP** (proved; Props/OneImage) — Every result of PnP with points in space is a result of hand-eye calibration of the one image: the camera stays at its guess and the target is on its mount where the camera sees it. Every result of hand-eye calibration of one image is a result of PnP: the target seen from the camera. The same for points in images, if they are clearly in front of the camera at the guess and at the result.
- **C243 Data that a result explains perfectly do not take it away** (proved; Props/Agreeing, AgreeingStatic) — PnP: adding correspondences that the reported pose explains perfectly (in front of the camera) leaves the pose possible; the final cost is averaged over more data. Circle fit: the same for points on the reported circle. PnP with several cameras: the same for one more camera that sees the target where the result puts it.
- **C244 A calibration can be continued from its own result** (proved; Props/Restart) — PnP started again from its result: it begins with the final cost of the first run, and the first run could have returned the same. Hand-eye calibration from points started again from its result. Hand-eye calibration from pixels started again from its result. Calibration of static cameras and target mount, started again from its result. Calibration of static cameras without wrist poses, started again from its result.
