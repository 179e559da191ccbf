#!/usr/bin/env python3
"""Writes /verif/properties.jsonl (one JSON object per line)."""
import json, os
P = []
B = "eskf_vio_backend/"
def p(title, statement, quantifier, why, anchors):
    P.append(dict(id="C%02d" % (len(P) + 1), title=title, statement=statement,
                  quantifier=quantifier, why_tests_cant=why,
                  anchors=[(B + a) if not a.startswith("/") else a[1:] for a in anchors]))

DL = "src/data_manager/data_loader.cpp"
FM = "src/data_manager/vision_data/feature_manager.cpp"
FR = "src/data_manager/vision_data/frame_manager.cpp"
DT = "src/data_manager/data_typedef.cpp"
AT = "src/propagate/attitude_estimate.cpp"
SP = "src/propagate/sequence_propagator.cpp"
UP = "src/update/multi_view_vision_update.cpp"
TR = "src/geometry/trianglation.cpp"
PN = "src/geometry/perspective_n_point.cpp"
CF = "src/config/config.cpp"
BE = "src/backend/backend.cpp"
BI = "src/backend/backend_initialize.cpp"
BC = "src/backend/backend_config.cpp"
ML = "include/utility/math_lib.hpp"

# ---- data loader -----------------------------------------------------------
p("Same time shift for every message",
  "Whatever sequence of Clear, push and pop calls a DataLoader has seen, every IMU or features message it accepts is stored (and its caller-visible timeStamp rewritten) with the raw timestamp minus the constant -1: both sensors are shifted by the same amount, for ever, and the 'first message becomes time zero' calibration never happens.",
  "all operation histories and all timestamps", "needs every history of Clear/push/pop, not a sample; the dead NaN branch looks alive to a test that never compares against the raw time",
  [DL + "#DataLoader::Clear", DL + "#DataLoader::PushFeaturesMessage", DL + "#DataLoader::PushIMUMessage"])
p("Acceptance rule of the loader",
  "A push is queued exactly when its shifted timestamp is strictly greater than that of the immediately preceding push of the same kind in the process (accepted or not); PushIMUMessage always returns true; PushFeaturesMessage returns false exactly when the numbers of ids and observations differ, and then nothing changes.",
  "all push histories", "depends on the whole push history through function-local statics",
  [DL + "#DataLoader::PushFeaturesMessage", DL + "#DataLoader::PushIMUMessage"])
p("Queues stay in time order",
  "The buffered IMU (features) messages are in strictly increasing time order after any history of pushes ('only increasing timestamps are accepted').",
  "all push histories", "a violation needs a rejected message followed by one that lies between the rejected and the queued one; no finite set of tests covers all histories",
  [DL + "#DataLoader::PushIMUMessage", DL + "#DataLoader::PushFeaturesMessage"])
p("No loss, no duplication, FIFO per sensor",
  "For every history of pushes and PopOneMessage calls since the last Clear, the IMU messages handed out followed by the ones still queued are exactly the accepted IMU messages in push order, and likewise for features messages.",
  "all interleavings of pushes and pops", "quantifies over all interleavings",
  [DL + "#DataLoader::PopOneMessage"])
p("PopOneMessage output rule",
  "PopOneMessage returns false exactly when both queues are empty; when both are non-empty it hands out the older front message, a features message winning ties, and it bundles the front IMU message with the features message exactly when the features message is not newer and is closer than one IMU period; otherwise the output holds exactly one message.",
  "all queue contents", "all queue contents and time relations",
  [DL + "#DataLoader::PopOneMessage", DT + "#CombinedMessage::Clear"])
p("Draining yields globally sorted output",
  "If both queues are in time order, popping until empty emits messages in non-decreasing time order and never emits a features message after an IMU message that is newer than it, except for the single IMU message bundled with it.",
  "all sorted queue contents, any lengths", "unbounded queue lengths",
  [DL + "#DataLoader::PopOneMessage"])
p("PopPackedMessage packet contract",
  "When PopPackedMessage succeeds the packet holds the oldest features message and a non-empty IMU run whose messages are all not newer than it, that starts strictly before it, and whose last entry is within 1e-6 s of it; the next buffered IMU message is that same last entry, so consecutive packets share their boundary sample, and no IMU message is lost. The search for the end of the run always stops inside the buffer.",
  "all queue contents", "the loop has no emptiness check; safety rests on a relation between the last IMU and the first features timestamp",
  [DL + "#DataLoader::PopPackedMessage"])
p("Interpolated IMU sample is a convex combination",
  "When PopPackedMessage synthesises an IMU sample at the image time, its interpolation rate lies strictly between 0 and 1, no division by zero occurs, and each component of gyro and accel lies between the two neighbouring samples.",
  "all queue contents, exact arithmetic", "all real-valued inputs",
  [DL + "#DataLoader::PopPackedMessage"])
p("Loader instances are independent and Clear restarts them",
  "After Clear (or in a second DataLoader), a message stream is accepted or rejected exactly as by a freshly started process.",
  "all histories before Clear, all other instances", "needs hidden process-wide state from earlier histories",
  [DL + "#DataLoader::Clear", DL + "#DataLoader::PushIMUMessage"])
p("PopOneMessage touches only live storage",
  "PopOneMessage never reads through a reference to a queue element after that element has been removed from the queue.",
  "all queue contents", "undefined behaviour that usually happens to work cannot be excluded by observing outputs",
  [DL + "#DataLoader::PopOneMessage"])
# ---- feature / frame managers ----------------------------------------------
p("Consecutive frame ids in the window",
  "For every history of AddNewFrame and RemoveFrame calls the window's frame ids are consecutive and increasing, the first frame of an empty window gets id 1, and AddNewFrame returns true.",
  "all histories and window sizes (ids below 2^32)", "unbounded histories",
  [FR + "#FrameManager::AddNewFrame", FR + "#FrameManager::RemoveFrame"])
p("RemoveFrame removes exactly one frame",
  "RemoveFrame(i) with i in range removes exactly the i-th frame, keeps the order, poses, timestamps and feature links of all others, shifts the ids of later frames down by one when i>0 and keeps all ids when i=0; out of range it returns false and changes nothing.",
  "all windows and indices", "all window sizes and indices",
  [FR + "#FrameManager::RemoveFrame"])
p("GetFrame and GetMaxFrameID are exact",
  "With consecutive ids, GetFrame(id) returns the unique frame with that id and a null pointer exactly when no frame has it; GetMaxFrameID returns the newest frame's id, 0 for an empty window.",
  "all windows and ids", "all ids",
  [FR + "#FrameManager::GetFrame", FR + "#FrameManager::GetMaxFrameID"])
p("New frames start from the previous pose",
  "AddNewFrame gives the new frame the pose and velocity of the newest frame already in the window (identity pose and zero velocity when the window is empty) and appends it without changing any other frame.",
  "all windows", "all windows",
  [FR + "#FrameManager::AddNewFrame", FR + "#Frame::Initialize"])
p("observeNum counts camera observations",
  "For every history of AddNewFeatures, RemoveByFrameID and RemoveByID, each managed feature's observeNum equals the total number of camera observations it stores.",
  "all histories, including repeated ids, empty observations and tracking gaps", "unbounded histories",
  [FM + "#Feature::AddNewObserve", FM + "#FeatureManager::RemoveByFrameID", "include/data_manager/vision_data/feature_manager.hpp#Feature"])
p("Window content refines a log of messages",
  "If an id that is still tracked by some frame of the window but absent from the newest one is never reused, then after any history of frame insertions and of oldest / second-newest / newest marginalisations, looking up (frame, camera) in a feature returns exactly the coordinate that the tracker reported for that id in the message of that frame, and reports failure exactly when there was none.",
  "all histories of insertions and marginalisations, all ids, cameras", "refinement over unbounded histories with id renumbering",
  [FM + "#FeatureManager::AddNewFeatures", FM + "#FeatureManager::RemoveByFrameID", FM + "#Feature::GetNorm", BE + "#Backend::UpdateFeatureFrameManager", BE + "#Backend::MarginalizeFeatureFrameManager"])
p("Feature lifetime equals visibility in the window",
  "Under the same condition a feature is managed exactly when some frame of the window observed it, its [first, final] frame range lies inside the window, and every frame's feature links point to managed features that observe that frame.",
  "all histories", "leaks and premature deletions only show up for particular histories",
  [FM + "#FeatureManager::RemoveByFrameID", FR + "#Frame::AddFeatures"])
p("Lookup is right even when a track is re-found",
  "The coordinate returned for (frame, camera) is the one reported for that frame even when a feature was lost for some frames and re-found while still inside the window.",
  "all histories", "needs the specific lost-and-refound pattern",
  [FM + "#Feature::AddNewObserve", FM + "#Feature::GetNorm"])
p("GetNorm rejects frames outside the track",
  "Feature::GetNorm fails for every frame id before the first or after the final observing frame (32-bit wrap-around of the index included) and succeeds exactly for stored (frame, camera) pairs.",
  "all 32-bit frame ids", "2^32 ids times all tracks; relies on unsigned wrap-around",
  [FM + "#Feature::GetNorm", DT + "#FeatureObserve::GetNorm", FM + "#Feature::FinalFrameID"])
p("AddNewFeatures all-or-nothing on size mismatch",
  "AddNewFeatures returns false exactly when the id and observation lists differ in length, and then the managed features are unchanged and the output list is empty; otherwise the output lists, in input order, the managed feature of every id.",
  "all inputs and manager states", "all inputs",
  [FM + "#FeatureManager::AddNewFeatures"])
p("GetCovisibleFeatures is the intersection",
  "GetCovisibleFeatures returns exactly this frame's features whose ids also occur in the other frame, each once; as id sets the operation is symmetric.",
  "all frame pairs", "all frame contents",
  [FR + "#Frame::GetCovisibleFeatures"])
p("Keyframe decision",
  "IsKeyFrame answers false for a null frame, true for the oldest frame of the window, and otherwise true exactly when fewer than the configured number of features are tracked in camera 0 of both it and its predecessor or it moved further than the configured distance; it never dereferences past the window for a frame inside it.",
  "all windows and thresholds", "all windows, thresholds and feature sets",
  [FR + "#FrameManager::IsKeyFrame"])
p("Parallax threshold takes part in keyframe selection",
  "The configured minimum mean parallax (README: mean parallax is one of the keyframe criteria) influences whether a frame is selected as keyframe.",
  "all windows", "independence for all windows cannot be observed by tests",
  [FR + "#FrameManager::IsKeyFrame", "include/data_manager/vision_data/frame_manager.hpp#FrameManager::minKeyframeMeanParallax"])
# ---- attitude estimator ----------------------------------------------------
p("Attitude queue is time ordered",
  "For every history of Propagate and CleanOldItems the stored attitude items are in non-decreasing time order; a sample older than the newest item is refused without any change.",
  "all histories", "unbounded histories",
  [AT + "#AttitudeEstimate::Propagate", AT + "#AttitudeEstimate::CleanOldItems"])
p("GetAttitude returns the nearest item within the threshold",
  "With at least two items GetAttitude succeeds exactly when some stored item is closer than the threshold, and then returns the attitude of an item at minimal time distance; it never steps outside the queue.",
  "all time-ordered queues, times and thresholds", "all queues; boundary cases at both ends and ties",
  [AT + "#AttitudeEstimate::GetAttitude"])
p("GetAttitude also works with a single item",
  "With one stored item GetAttitude succeeds exactly when that item is closer than the threshold.",
  "all single-item queues", "asymmetry between item-before and item-after the query",
  [AT + "#AttitudeEstimate::GetAttitude"])
p("CleanOldItems keeps the recent suffix",
  "CleanOldItems removes exactly the leading items older than the threshold and never runs past the end as long as some item is within the threshold; on an all-old queue it reads an empty deque.",
  "all queues", "the missing emptiness check only matters for particular data",
  [AT + "#AttitudeEstimate::CleanOldItems"])
p("Attitude estimates are unit quaternions",
  "In exact arithmetic every stored attitude is a unit quaternion, for every history in which the starting accelerometer sample is not parallel to gravity.",
  "all histories and sensor values", "real-valued, unbounded histories",
  [AT + "#AttitudeEstimate::Propagate", ML + "#Utility::DeltaQ"])
p("Level start gives a usable attitude",
  "Starting the attitude estimator with an accelerometer sample parallel to gravity (device level or upside down) yields a valid attitude.",
  "all parallel samples", "0/0 only on a measure-zero set",
  [AT + "#AttitudeEstimate::Propagate"])
p("Initial attitude aligns gravity",
  "The initial attitude rotates the measured specific force onto the world gravity direction.",
  "all accepted starting samples", "first-order formula used for large angles; error depends on the input",
  [AT + "#AttitudeEstimate::Propagate", ML + "#Utility::DeltaQ"])
p("Attitude estimator and propagator turn the same way",
  "For the same angular rate the attitude estimator and the IMU propagator rotate the attitude in the same direction.",
  "all rates", "sign convention for all inputs",
  [AT + "#AttitudeEstimate::Propagate", SP + "#PropagateQueue::PropagateMotionNominalState"])
# ---- propagator -------------------------------------------------------------
p("Propagated attitudes are unit quaternions",
  "In exact arithmetic, starting from a unit attitude every item produced by Propagate / Repropagate has a unit quaternion, and the normalisation never divides by zero.",
  "all IMU histories", "real-valued, unbounded histories",
  [SP + "#PropagateQueue::PropagateMotionNominalState"])
p("A stationary IMU stays put",
  "If accel equals the rotated gravity plus bias and gyro equals the gyro bias, then for any number of samples with any time steps the propagated pose is unchanged and the velocity is constant; with zero initial velocity nothing moves.",
  "all attitudes, biases, step counts and time steps", "unbounded histories of real-valued steps",
  [SP + "#PropagateQueue::PropagateMotionNominalState"])
p("Propagation keeps the joint covariance symmetric positive semidefinite",
  "In exact arithmetic with non-negative noise parameters, if the joint covariance (IMU, extrinsics, window poses) of the newest item is symmetric PSD, it is so for every item appended by Propagate or recomputed by Repropagate.",
  "all IMU histories, camera and window sizes", "real-valued matrices of unbounded dimension",
  [SP + "#PropagateQueue::PropagateFullErrorStateCovariance", SP + "#PropagateQueue::InitializeProcessNoiseMatrix"])
p("Process matrices do not depend on history",
  "After the first sample the transition and noise-input matrices used for a step depend only on the two samples of that step, although they live in reused member buffers.",
  "all histories", "stale buffer content shows up only for particular histories",
  [SP + "#PropagateQueue::PropagateFullErrorStateCovariance", SP + "#PropagateQueue::ResetProcessFunction"])
p("Repropagate equals live propagation",
  "Repropagate recomputes every later item exactly as feeding the stored samples to Propagate from the (possibly corrected) first item would; it keeps the number of items, samples and timestamps, is idempotent, and changes nothing when the first item and biases are unchanged.",
  "all queues", "unbounded queue lengths",
  [SP + "#PropagateQueue::Repropagate", SP + "#PropagateQueue::Propagate"])
p("ResetOrigin keeps the recent suffix",
  "ResetOrigin drops exactly the leading items older than the threshold; it returns true exactly when an item remains, and the first remaining item is then at most the threshold older than the given time.",
  "all queues, times, thresholds", "unbounded queues",
  [SP + "#PropagateQueue::ResetOrigin"])
p("First sample starts from the initial state",
  "On an empty queue Propagate stores one item with the configured initial pose and velocity, zero covariance and a cross block of 6*(cameras+1) columns; on a non-empty queue the initial state is ignored.",
  "all states", "all states",
  [SP + "#PropagateQueue::Propagate"])
p("Error-state packing round-trips",
  "Converting an error state to its 15-vector and back returns the same position, velocity, angle and biases, and vice versa; the five segments do not overlap and cover the vector.",
  "all error states", "all real values",
  [SP + "#PropagateQueue::ErrorStateConvert", "include/propagate/imu_state.hpp"])
# ---- update -----------------------------------------------------------------
p("Marginalisation policy",
  "DecideMargPolicy keeps all frames while the window is within its limit, otherwise it drops the oldest frame if the second newest is a keyframe and the second newest if not; it never selects the newest, and with at least two frames in an overfull window it never reads outside the window.",
  "all windows", "all windows and limits",
  [UP + "#MultiViewVisionUpdate::DecideMargPolicy"])
p("Joint covariance assembly",
  "ConstructCovariance fails exactly when the stored cross block does not have 6*(cameras+frames-1) columns; otherwise it yields the symmetric joint covariance whose IMU, cross and camera parts are the stored ones.",
  "all sizes and contents", "unbounded dimensions",
  [UP + "#MultiViewVisionUpdate::ConstructCovariance"])
p("State augmentation is an exact covariance transform",
  "ExpandCameraCovariance yields T*C*T^T where T clones the IMU position and attitude, independently of the uninitialised memory exposed by resizing; hence symmetry and positive semidefiniteness are preserved.",
  "all covariance contents and sizes, all junk memory contents", "uninitialised memory and unbounded dimensions",
  [UP + "#MultiViewVisionUpdate::ExpandCameraCovariance"])
p("Covariance reduction deletes exactly the marginalised frame",
  "ReduceCameraCovariance leaves, for each policy, exactly the principal submatrix without the six rows and columns of the frame that the frame manager then drops, so the covariance between any two surviving state components is unchanged.",
  "all window sizes, camera counts, contents", "index arithmetic over unbounded sizes",
  [UP + "#MultiViewVisionUpdate::ReduceCameraCovariance", BE + "#Backend::MarginalizeFeatureFrameManager"])
p("Kalman update yields a symmetric PSD covariance not larger than the prior",
  "In exact arithmetic, for every measurement matrix, noise level and prior PSD covariance, the posterior covariance of UpdateState is symmetric PSD and prior minus posterior is PSD, even when the eigenvalue cut-off in Utility::Inverse truncates; the final symmetrisation changes nothing.",
  "all dimensions, matrices, noise values", "real-valued matrices of unbounded dimension",
  [UP + "#MultiViewVisionUpdate::UpdateState", ML + "#Utility::Inverse"])
p("Utility::Inverse inverts well-conditioned symmetric matrices",
  "For a symmetric matrix whose eigenvalues all exceed 1e-10 Utility::Inverse returns the matrix inverse; for every symmetric matrix the result X is symmetric, PSD and satisfies X*A*X = X.",
  "all symmetric matrices", "all real symmetric matrices",
  [ML + "#Utility::Inverse"])
p("Null-space projection removes the landmark",
  "The projected measurement rows of a feature do not depend on the landmark position error: for every landmark and state error the projected residual equals the projected state part, and the projected noise stays white with the same variance.",
  "all observation counts, matrices", "all real matrices",
  [UP + "#MultiViewVisionUpdate::ConstructMeasurementFunction"])
p("QR compression does not change the filter result",
  "Replacing the stacked measurement equation by its QR-compressed form leaves the state correction and the posterior covariance unchanged.",
  "all measurement matrices, priors and positive noise", "all real matrices",
  [UP + "#MultiViewVisionUpdate::ConstructMeasurementFunction", UP + "#MultiViewVisionUpdate::UpdateState"])
p("Measurement Jacobian matches the state correction",
  "The Jacobian blocks written for position, attitude, extrinsic translation, extrinsic rotation and landmark are the derivatives of the predicted observation along the way UpdateState applies corrections (additive, and right multiplication by a normalised small quaternion).",
  "all poses, extrinsics and landmarks with non-zero depth", "derivatives at all points",
  [UP + "#MultiViewVisionUpdate::ConstructMeasurementFunction", UP + "#MultiViewVisionUpdate::UpdateState"])
p("State correction keeps quaternions unit and the newest frame in sync",
  "After UpdateState, in exact arithmetic, all attitudes (IMU, extrinsics, window frames) that were unit are unit, the newest frame has exactly the corrected IMU pose and velocity, and the numbers of frames and cameras are unchanged.",
  "all corrections and windows", "real-valued, unbounded window",
  [UP + "#MultiViewVisionUpdate::UpdateState"])
p("Feature selection",
  "SelectGoodFeatures selects only features linked to the newest frame that were triangulated successfully in this call, no feature twice, at most the configured maximum, and at least one if any succeeded and the maximum is positive, for every outcome of the random scores.",
  "all windows, random score sequences", "quantifies over all random outcomes",
  [UP + "#MultiViewVisionUpdate::SelectGoodFeatures", UP + "#MultiViewVisionUpdate::TrianglizeMultiFrame"])
p("Measurement row count never underflows",
  "Every selected feature contributes 2*observeNum-3 >= 1 rows without 32-bit wrap-around, the rows written for it are exactly 2*observeNum, and the stacked matrix is filled completely and without overlap.",
  "all selected features", "wrap-around only for features with fewer than two observations",
  [UP + "#MultiViewVisionUpdate::ConstructMeasurementFunction"])
p("Successful update leaves consistent dimensions",
  "After a successful Update and the following marginalisation, the cross block of every queued item has 6*(cameras+frames) columns and the camera covariance has that many rows and columns, whichever policy and whether or not any feature was usable.",
  "all histories", "dimension bookkeeping over unbounded histories",
  [UP + "#MultiViewVisionUpdate::Update", UP + "#MultiViewVisionUpdate::UpdateCovariance", SP + "#PropagateQueue::Repropagate"])
# ---- geometry ----------------------------------------------------------------
p("Analytic triangulation acceptance",
  "TrianglateAnalytic fails with fewer than two views, leaving the point untouched; whenever it succeeds the returned point has non-negative depth in every given view.",
  "all inputs, any SVD result", "all inputs including degenerate ones",
  [TR + "#Trianglator::TrianglateAnalytic"])
p("Analytic triangulation is exact on noise-free data",
  "With exact observations of a point in front of all views and a linear system of rank three, TrianglateAnalytic succeeds and returns exactly that point.",
  "all points, poses, view counts", "all real-valued configurations",
  [TR + "#Trianglator::TrianglateAnalytic"])
p("Iterative triangulation never increases the cost and stops",
  "TrianglateIterative performs at most 11 outer and 121 inner iterations, keeps its damping within [1e-10, 1e12], and returns a point whose total squared reprojection error is not larger than that of the initial point.",
  "all inputs, any linear-solver result", "all inputs",
  [TR + "#Trianglator::TrianglateIterative"])
p("Triangulation Jacobian is the derivative of its residual",
  "The Jacobian used by TrianglateIterative is the derivative of the predicted observation with respect to the inverse-depth parameters.",
  "all poses and parameters with non-zero depth", "derivatives at all points",
  [TR + "#Trianglator::CumputeJacobian"])
p("PnP input guards and output form",
  "EstimatePose and EstimatePoseKernel return false without touching the pose exactly when the lists differ in length or are empty (NaN aside); otherwise they run at most the configured number of iterations and, if at least one iteration ran, return a unit quaternion in exact arithmetic.",
  "all inputs, any linear-solver result", "all inputs",
  [PN + "#PnPSolver::EstimatePose", PN + "#PnPSolver::EstimatePoseKernel"])
p("True pose is a fixed point of PnP",
  "If all observations are exact for the initial pose, EstimatePose and EstimatePoseKernel return that pose unchanged.",
  "all poses and point sets", "all real-valued configurations",
  [PN + "#PnPSolver::EstimatePose", PN + "#PnPSolver::EstimatePoseKernel"])
p("PnP Jacobian is the derivative of its residual",
  "The Jacobian used by the PnP solvers is the derivative of the residual along the pose update they apply.",
  "all poses and points with non-zero depth", "derivatives at all points",
  [PN + "#PnPSolver::EstimatePose"])
p("RANSAC PnP terminates",
  "EstimatePoseRANSAC terminates for every accepted input, given a random source that eventually yields every index.",
  "all accepted inputs", "non-termination cannot be observed by a test",
  [PN + "#PnPSolver::EstimatePoseRANSAC"])
p("RANSAC PnP returns its best model",
  "EstimatePoseRANSAC returns the pose with the highest inlier count among the models it tried.",
  "all inputs and random sequences", "quantifies over random sequences",
  [PN + "#PnPSolver::EstimatePoseRANSAC"])
p("Inlier flags describe the returned pose",
  "The overload with inlier output sets flag i exactly when point i reprojects within the threshold under the returned pose, whatever the vector held before.",
  "all inputs and previous vector contents", "depends on stale contents of an output argument",
  [PN + "#PnPSolver::EstimatePoseRANSAC"])
p("Robust weights lie in (0,1]",
  "The Cauchy and Huber weights are positive, at most one and one below the threshold, for every positive parameter and residual.",
  "all residuals and parameters", "all real values",
  ["include/geometry/perspective_n_point.hpp#PnPSolver::Cauchy", "include/geometry/perspective_n_point.hpp#PnPSolver::Huber"])
# ---- config --------------------------------------------------------------------
p("Matrix files load exactly",
  "LoadMatrix returns false exactly when the file cannot be opened; a file with exactly the requested rows, each with at least the requested numbers, yields exactly those numbers.",
  "all files and sizes", "all file contents",
  [CF + "#Configurator::LoadMatrix"])
p("Malformed matrix files are contained",
  "A readable file with too few rows or numbers, or with too many rows, cannot inject values of another parameter nor write outside the matrix.",
  "all files", "stale buffers and out-of-range writes depend on file contents and load order",
  [CF + "#Configurator::LoadMatrix", CF + "#Configurator::ReadConfigParams"])
p("Missing parameter files keep the previous values",
  "ReadConfigParams always succeeds; every scalar parameter whose file is missing keeps the value it had, every present one is taken from its own file, and the camera list is exactly T_bc0..T_bc(k-1) where k is the first missing index.",
  "all file systems and previous configurations", "all subsets of files, all camera counts",
  [CF + "#Configurator::ReadConfigParams"])
p("Configuration reaches the components",
  "After ConfigParams the loader period, window limit, keyframe thresholds, measurement noise, feature limit, biases, gravity and camera extrinsics equal the configurator's values, extrinsics in camera order.",
  "all configurations", "all configurations",
  [BC + "#Backend::ConfigParams"])
# ---- backend --------------------------------------------------------------------
p("No undefined behaviour on well-formed input",
  "For a configured backend and every history of IMU pushes, features pushes, RunOnce and publish calls in which features messages have distinct ids, non-empty observations, known cameras and no reuse of a lost id still in the window, no step reads outside a container, dereferences null or mixes matrix sizes.",
  "all API histories, all numeric results of the solvers", "memory safety over unbounded histories",
  [BE + "#Backend::RunOnce", BI + "#Backend::Initialize", UP + "#MultiViewVisionUpdate::Update"])
p("Malformed tracker input is survivable",
  "Features messages with repeated ids, empty observations, unknown camera numbers or re-found tracks never crash the backend.",
  "all API histories", "needs the specific malformed pattern followed by the right phase",
  [BE + "#Backend::RunOnce", BI + "#Backend::TrianglizeMultiView", UP + "#MultiViewVisionUpdate::TrianglizeMultiFrame"])
p("Window size bound",
  "After every RunOnce the window holds at most max(1, configured size) frames if Reset is never called, and exactly one frame after a failed initialisation or update.",
  "all API histories", "unbounded histories",
  [BE + "#Backend::RunOnce", FR + "#FrameManager::NeedMarginalize"])
p("Status machine",
  "The status becomes initialised only in a RunOnce that handled a features message with at least two frames in the window and whose update succeeded, goes back only through a failed update or Reset, and IMU-only steps never change it.",
  "all API histories", "unbounded histories",
  [BE + "#Backend::RunOnce", BE + "#Backend::Reset", BI + "#Backend::Initialize"])
p("Published state",
  "PublishPropagateState / PublishUpdateState return false exactly when no IMU state is queued and otherwise report the newest / oldest queued state and time with the current biases; they never change the backend.",
  "all states", "all states",
  [BE + "#Backend::PublishPropagateState", BE + "#Backend::PublishUpdateState"])
p("RunOnce result",
  "RunOnce returns false exactly when no message was available, or it handled a lone IMU message before initialisation that the attitude estimator refused; in particular a failed initialisation or update still returns true.",
  "all API histories", "all states",
  [BE + "#Backend::RunOnce"])
p("RunOnce consumes one output message",
  "Every RunOnce that returns from a non-empty loader removes exactly one output message; n buffered messages are consumed by at most n RunOnce calls.",
  "all states", "unbounded queue lengths",
  [BE + "#Backend::RunOnce", DL + "#DataLoader::PopOneMessage"])
p("Covariance of the running filter stays symmetric PSD",
  "In exact arithmetic, for every API history of a backend configured with non-negative noise, the joint covariance of the first queued item (and of all others) is symmetric PSD with size 15+6*(cameras+frames) whenever the backend is initialised.",
  "all API histories", "unbounded histories of real-valued matrices",
  [BE + "#Backend::RunOnce", UP + "#MultiViewVisionUpdate::Update", SP + "#PropagateQueue::Propagate"])
p("Reset lets the backend start over",
  "After Reset the backend can initialise again from new data as a fresh one would.",
  "all histories before Reset, all later gap-free data", "liveness after an arbitrary history",
  [BE + "#Backend::Reset", BI + "#Backend::InitializePropagator", UP + "#MultiViewVisionUpdate::ConstructCovariance"])
p("Bias is removed once",
  "Each IMU sample integrated by the propagator has the accelerometer and gyroscope bias removed exactly once, including the samples replayed at (re-)initialisation.",
  "all API histories", "needs a re-initialisation after a successful update",
  [BI + "#Backend::InitializePropagator", AT + "#AttitudeEstimate::Propagate", SP + "#PropagateQueue::PropagateMotionNominalState"])
p("Initialisation geometry",
  "A successful initialisation puts the first frame at the origin with the attitude taken from the attitude estimator, gives both frames the velocity (position difference)/(time difference), requires at least ten triangulated points seen by camera 0, and seeds the propagator with that state.",
  "all states, solver results", "all states",
  [BI + "#Backend::Initialize", BI + "#Backend::EstimateFramePose"])
p("Published time never runs backwards",
  "If IMU samples are pushed in time order and Reset is not called, the times reported by successive successful PublishPropagateState calls never decrease.",
  "all API histories with ordered IMU input", "unbounded histories",
  [BE + "#Backend::PublishPropagateState", BI + "#Backend::InitializePropagator", SP + "#PropagateQueue::ResetOrigin"])
# ---- math -------------------------------------------------------------------------
p("Vector and quaternion helpers",
  "SkewSymmetricMatrix(v)*w is the cross product; Qleft(q)*p and Qright(p)*q both give the quaternion product q*p; TransformMatrix composes and inverts like rigid motions for unit quaternions.",
  "all vectors and quaternions", "all real values",
  [ML + "#Utility"])
p("Rotation magnitude helpers",
  "In exact arithmetic ComputeRotationMagnitude of a unit quaternion is its rotation angle in [0, pi], and of a rotation vector r with |r|<=2 it is 2*asin(|r|/2), which underestimates nothing and exceeds |r|.",
  "all unit quaternions, all vectors", "all real values",
  [ML + "#Utility::ComputeRotationMagnitude"])

# ---- later additions ----------------------------------------------------------------
p("The newest state is dead reckoning from the updated one",
  "After every history of calls, Reset included, the newest published state is obtained from the updated state by midpoint dead reckoning with the published biases along the samples in the queue; the queue's samples are those that arrived since.",
  "all API histories", "unbounded histories, every interleaving of updates and samples",
  [SP + "#PropagateQueue::Repropagate", SP + "#PropagateQueue::Propagate", BE + "#Backend::PublishPropagateState", BE + "#Backend::PublishUpdateState"])
p("Optimality of the gain and of the correction",
  "In exact arithmetic, when the squared measurement noise is above the cut-off of Inverse, no linear gain gives a smaller error covariance than the posterior, and with an invertible prior the correction minimises prior cost plus squared residuals over the noise variance; below the cut-off this fails.",
  "all PSD priors, measurements and noise levels", "quantifies over all gains and all error states",
  [UP + "#MultiViewVisionUpdate::UpdateState", ML + "#Utility::Inverse"])

p("Random scores do not matter below the feature limit",
  "If no message has more features than an update may use and the random scores differ, two histories of a well-formed tracker that differ only in the random scores return exactly the same values in exact arithmetic; with equal scores features are lost.",
  "all well-formed histories, all random streams", "compares all pairs of runs",
  [UP + "#MultiViewVisionUpdate::SelectGoodFeatures", UP + "#MultiViewVisionUpdate::ConstructMeasurementFunction", UP + "#MultiViewVisionUpdate::UpdateState"])
p("The choice of decompositions does not matter",
  "Two correct linear algebra libraries that return different orthogonal factors and eigenvectors give the same update in exact arithmetic, if each selected feature's Jacobian with respect to its landmark has full rank; without the rank the information kept depends on the library.",
  "all states, all pairs of libraries that meet their specification", "compares all pairs of libraries",
  [UP + "#MultiViewVisionUpdate::ConstructMeasurementFunction", UP + "#MultiViewVisionUpdate::UpdateState", ML + "#Utility::Inverse"])
p("Uninitialised memory is never observable",
  "Two histories of the same calls that differ only in the contents of uninitialised matrix storage return the same values, and one is undefined behaviour exactly when the other is.",
  "all API histories, all contents of memory", "compares all pairs of runs; any scalar type",
  [UP + "#MultiViewVisionUpdate::ReduceCameraCovariance", UP + "#MultiViewVisionUpdate::ExpandCameraCovariance", UP + "#MultiViewVisionUpdate::ConstructCovariance"])

p("Free motion is integrated exactly",
  "When the platform does not rotate and its specific force is constant, the queue's positions and velocities are exactly those of uniformly accelerated motion, whatever the sampling times, also through the first sample.",
  "all sampling times, all accelerations and initial states", "unbounded sample sequences over the reals",
  [SP + "#PropagateQueue::PropagateMotionNominalState", SP + "#PropagateQueue::Propagate"])
p("Propagation commutes with a change of world frame about gravity",
  "Two propagators fed the same samples, whose start states and corrections differ by a rotation about gravity and a translation, stay so related for ever, and their covariances are related by the block rotation of position and velocity.",
  "all operation sequences, all rotations that fix gravity, all translations", "compares all pairs of runs",
  [SP + "#PropagateQueue::Propagate", SP + "#PropagateQueue::Repropagate", SP + "#PropagateQueue::PropagateFullErrorStateCovariance"])
p("F linearises the nominal propagation",
  "The error that the filter corrects is a chart of the states; one step of nominal propagation is differentiable in it and its derivative is F up to second order in the time step, for every state and every pair of samples.",
  "all states, samples and error directions", "a derivative and a limit, not a value",
  [SP + "#PropagateQueue::PropagateFullErrorStateCovariance", SP + "#PropagateQueue::PropagateMotionNominalState", UP + "#MultiViewVisionUpdate::UpdateState"])

p("The steps of the iterative triangulation",
  "In exact arithmetic every weight is positive and no residual pulls by more than 0.02; the damped normal matrix is positive definite; with a correct solver each trial step descends on the weighted squared error; the inner loop stops at the first step that lowers the plain cost or after eleven; an exact start is returned. Weights exceed one for residuals between 0.01 and 0.02, and the plain acceptance test can reject every robust step.",
  "all views, points and solvers", "derivatives and all real values",
  [TR + "#Trianglator::TrianglateIterative", TR + "#Trianglator::CumputeJacobian"])
p("An update does not disturb an exact estimate",
  "If all observations of the tracked features are exact projections at the estimated poses and the queue is dead reckoning, a measurement update leaves states, biases, extrinsics and frame poses as they are, whatever features it selects and whatever the noise and the covariance.",
  "all window contents, covariances, noise levels and random scores", "real-valued geometry over windows of any size",
  [UP + "#MultiViewVisionUpdate::Update", UP + "#MultiViewVisionUpdate::ConstructMeasurementFunction", UP + "#MultiViewVisionUpdate::UpdateState"])
p("No noise, no error",
  "In a world without noise, in which each image is taken at the time of the sample with which the filter aligns it, once the state of the filter is the truth it stays the truth: after every well-formed history of calls every published state is the true motion at its time and the biases are the true ones, however many images are processed and marginalised.",
  "all API histories, all noise-free worlds", "unbounded histories over real-valued geometry",
  [BE + "#Backend::RunOnce", UP + "#MultiViewVisionUpdate::Update", SP + "#PropagateQueue::ResetOrigin", FR + "#FrameManager::AddNewFrame"])
p("Euler angles",
  "For a unit quaternion whose first axis is not vertical, turning by the three angles of QuaternionToEuler about the fixed axes x, y, z in this order is its rotation; angles are in degrees up to 4e-7 and within half (quarter) a turn. At the exception different rotations have equal angles.",
  "all unit quaternions", "all real values",
  [ML + "#Utility::QuaternionToEuler"])

p("Camera rotations are read as written",
  "A rotation matrix in a camera file becomes a unit quaternion that rotates every vector as the matrix does; converting a unit quaternion to a matrix and back gives it or its negative.",
  "all rotation matrices, all unit quaternions", "all real values, all four branches of the conversion",
  [CF + "#Configurator::LoadConfig", BC + "#Backend::ConfigParams"])
p("Initial poses",
  "EstimateFramePose starts at the pose of camera 0 of the frame and stores the body pose whose camera 0 has the pose found. In exact arithmetic Initialize succeeds exactly when the two image times differ, an attitude is found and ten features of the second image have a position and are seen by camera 0. A body at rest, seen without noise, gets the same pose in both images, velocity zero and the estimator's attitude.",
  "all windows, poses, extrinsics and solvers", "real-valued geometry over windows of any size",
  [BI + "#Backend::EstimateFramePose", BI + "#Backend::Initialize", BI + "#Backend::TrianglizeMultiView"])

DM = "/apps/test_eskf_vio_backend.cpp"
p("The demo pushes what its files say",
  "When every line is complete, the demo program pushes exactly the messages of its IMU and camera files, in order, each file up to and including the first line whose shifted time exceeds the limit of 100 (data time 99), and then calls RunOnce and PublishPropagateState once per IMU line; its result is decided by the results of these calls. A line with too few numbers is a message whose missing fields keep the values of the line before.",
  "all files, number scanners and backends", "files of any length",
  [DM + "#LoadIMUData", DM + "#LoadFeaturesData", DM + "#main"])
p("The demo has defined behaviour",
  "With complete files, fewer than 2^32 - 2 images and at least two configured cameras (as in the shipped configuration) the demo program meets no undefined behaviour. An incomplete first line is an uninitialised read; a single configured camera is an index out of range.",
  "all files, solver results and random numbers", "undefined behaviour on all executions",
  [DM + "#main", DM + "#LoadIMUData", DM + "#LoadFeaturesData"])
p("The demo saves every published state",
  "SavePose reads its six vectors inside their bounds. With ordered IMU times the file holds every published state in order of time up to the first whose position is not a number; the test for time running back never fires.",
  "all runs of the program", "runs of any length",
  [DM + "#main", DM + "#SavePose"])
p("The demo consumes its data",
  "One RunOnce per buffered IMU sample leaves nothing in the loader if and only if the images can be matched in order with samples of their own, each with the first sample that is not before it and less than one period later; further calls find nothing.",
  "all loader contents", "queues of any length",
  [DM + "#main", DL + "#DataLoader::PopOneMessage", BE + "#Backend::RunOnce"])
p("The demo shows what the configured cameras see",
  "For unit quaternions and points outside the focal planes, the observations the demo computes are exactly the projections into the cameras that the shipped configuration files describe, from the body pose that belongs to the pose of camera 0.",
  "all poses and points", "all real values",
  [DM + "#LoadFeaturesData", CF + "#Configurator::LoadConfig", BC + "#Backend::ConfigParams"])

p("What is certain stays as it is",
  "The covariance starts at zero. So in every history the camera extrinsics stay the configured ones, although they are part of the estimated state; and the first frame of the window stays at the origin, with its first attitude, until it is dropped or the filter fails.",
  "all histories of calls, solvers and data", "histories of any length",
  [SP + "#PropagateQueue::Propagate", UP + "#MultiViewVisionUpdate::UpdateState", UP + "#MultiViewVisionUpdate::ReduceCameraCovariance", BE + "#Backend::RunOnce"])

p("Moves of the whole world cannot be observed",
  "Shifting, turning and stretching the whole world, frames, points and camera mounts alike, changes no predicted observation. To first order such a move is invisible to every row of the measurement, wherever the features were triangulated; uncertainty made of such moves changes neither gain nor correction and is not reduced.",
  "all windows, poses, features, covariances and moves", "directions in a space of any size",
  [UP + "#MultiViewVisionUpdate::ConstructMeasurementFunction", UP + "#MultiViewVisionUpdate::UpdateState"])

p("The triangulation test and what it shows",
  "The six poses of the triangulation test see the set point in front of them, and the linear method returns it exactly, so the first test prints the same point twice. The second test prints the estimate twice and never the set point, so it shows agreement for every solver, also for one that does nothing.",
  "all solvers and singular vectors", "any external solver",
  ["/apps/test_trianglate.cpp#TestTrianglateAnalytic", "/apps/test_trianglate.cpp#TestTrianglateIterative"])
p("The PnP test has a known answer",
  "The PnP test sees 729 points from a known pose and spoils at most 7 observations. It ends if the random numbers reach every index again and again. The true pose scores all points that are not spoiled, at least 722; if the search over samples tries it, it is returned. For the plain and the weighted method the true pose is never a fixed point: every spoiled pair pulls to the same side.",
  "all streams of random numbers and solvers", "any stream of random numbers",
  ["/apps/test_pnp.cpp#main", PN + "#PnPSolver::EstimatePoseRANSAC"])

p("The heading of the world frame is a convention",
  "Turn the state of a running filter about gravity: positions, velocities, attitudes, landmarks and the covariance. Then every later history of calls hands out exactly the turned states, with the same return values, biases and times, and meets undefined behaviour in the same cases. The filter needs no heading and cannot find one.",
  "all reachable states, all turns about gravity, all histories of calls and data", "pairs of executions of any length",
  [BE + "#Backend::RunOnce", SP + "#PropagateQueue::Propagate", UP + "#MultiViewVisionUpdate::UpdateState", BI + "#Backend::Initialize", AT + "#AttitudeEstimate::Propagate"])
p("Attitudes are unit quaternions in every history",
  "Once a first IMU sample has started the attitude filter, every attitude in the propagation queue, in the attitude filter and in the window of an initialised filter, and every published attitude, is a unit quaternion after every defined history of calls.",
  "all histories of calls, solvers and data", "histories of any length",
  [BE + "#Backend::RunOnce", SP + "#PropagateQueue::Propagate", UP + "#MultiViewVisionUpdate::UpdateState", BE + "#Backend::PublishPropagateState", AT + "#AttitudeEstimate::Propagate"])

p("The triangulated point moves along with the world",
  "When all camera positions are displaced by one vector, the point the linear triangulation returns is displaced by the same vector, for every correct singular value decomposition.",
  "all correct singular value decompositions, poses, observations and displacements", "real values and any external decomposition",
  [TR + "#Trianglator::TrianglateAnalytic"])
p("The epoch of the clock is a convention",
  "Let all time stamps of a history, and those in the state, be moved by one constant, in an arithmetic where that changes no difference and no comparison. Then every history of calls gives the same outcomes, with the same moments of undefined behaviour, and the same published states, whose times are moved by the constant. This holds from program start and for the loader alone.",
  "all histories of calls, data, scalar types and shifts", "pairs of executions of any length",
  [DL + "#DataLoader::PopOneMessage", BE + "#Backend::RunOnce", SP + "#PropagateQueue::Propagate", AT + "#AttitudeEstimate::Propagate", BE + "#Backend::PublishPropagateState"])
p("Attitudes stay normalised under rounding",
  "In floating point arithmetic with rounding, underflow, overflow and NaN: after every defined history from the configured start, every attitude in the attitude filter and in the propagation queue, and every published attitude, is a unit quaternion up to ten rounding errors, or contains NaN, or is zero. The error does not grow with the number of samples. One step from a unit attitude with a rotation vector of at most 1000 per component gives a unit attitude.",
  "all floating point formats with a relative error of at most 1/1000, all histories, solvers and data", "histories of any length in any precision",
  [AT + "#AttitudeEstimate::Propagate", SP + "#PropagateQueue::Propagate", UP + "#MultiViewVisionUpdate::UpdateState", BE + "#Backend::PublishPropagateState", ML + "#Utility::DeltaQ"])
p("An attitude that is not a number stays so",
  "In floating point arithmetic: once the newest attitude of the attitude filter contains NaN, it contains NaN after every later history of calls, Reset included. A single sample with a NaN, or in exact free fall, brings this about, and so does a NaN in the first sample, which passes the check of its length. When the device starts exactly level, every attitude that is ever published contains NaN.",
  "all floating point formats, all histories of calls, solvers and data", "histories of any length in any precision",
  [AT + "#AttitudeEstimate::Propagate", BE + "#Backend::RunOnce", BE + "#Backend::Reset", BE + "#Backend::PublishPropagateState", BI + "#Backend::Initialize"])
p("Old attitudes are discarded",
  "After every handled image the attitude queue holds no attitude that is older than the newest frame by more than the IMU period, and the propagation queue of a running filter no state that is older than the image by more than the period, so the memory used does not grow with the running time.",
  "all histories of calls, solvers and data", "unbounded running time",
  [BE + "#Backend::RunOnce", AT + "#AttitudeEstimate::CleanOldItems", SP + "#PropagateQueue::ResetOrigin"])
p("Window, map and covariance stay small",
  "With a window of N frames and a tracker that reports at most M features per image, at every point between two calls the window has at most N frames, the map at most N*M features with at most N observations each, a frame at most M links, and the covariances have exactly the size that the cameras and the frames in the window need.",
  "all histories of well-formed messages without Reset, all solvers and data", "unbounded running time; a leak of features or covariance rows shows only after a long run",
  [BE + "#Backend::RunOnce", FM + "#FeatureManager::RemoveByFrameID", UP + "#MultiViewVisionUpdate::ReduceCameraCovariance"])
p("The order of the hash maps does not matter",
  "The feature map and the map of every frame are hash maps, whose iteration order the standard leaves open. Whatever that order is, and even if it is another one after every change of a map, every history of calls returns the same values, as long as no image has more features than an update may use and the random scores differ.",
  "all histories of a well-formed tracker, all reorderings after every change, all data, exact arithmetic", "a test runs with the one hash function and bucket count of its library",
  [FM + "#FeatureManager::RemoveByFrameID", UP + "#MultiViewVisionUpdate::SelectGoodFeatures", FR + "#FrameManager::IsKeyFrame", BI + "#Backend::EstimateFramePose", BE + "#Backend::RunOnce"])
p("Shared message objects",
  "Messages are pushed as shared pointers: the loader changes the time stamp inside the caller's object, keeps a pointer to it, and hands the last sample of a packet out while it stays in the queue. A caller that hands every object over once, leaves it alone afterwards and pushes no null pointer cannot tell this from a loader that copies every message; a caller that pushes one object twice, or into two loaders, or changes a popped sample, can.",
  "all histories of actions on any number of loaders, all contents of the message objects, all scalar types", "all histories of a caller that reuses objects",
  [DL + "#DataLoader::PushIMUMessage", DL + "#DataLoader::PushFeaturesMessage", DL + "#DataLoader::PopOneMessage", DL + "#DataLoader::PopPackedMessage"])
p("Packets tile the IMU stream",
  "For every history in which messages leave the loader in packets: each packet begins with the sample that the packet before ends with; the packets joined at these samples, followed by the queue, are the accepted IMU messages in push order with samples put in between at image times only; with increasing times they are in order of time; and the durations of the packets add up, so no time is lost or integrated twice.",
  "all histories of pushes and packet requests since program start or a Clear, any other loaders besides", "unbounded histories; the boundary sample is either made or taken from the stream",
  [DL + "#DataLoader::PopPackedMessage", DL + "#DataLoader::PushIMUMessage"])
p("PnP passes are Gauss-Newton steps",
  "The normal equation of the PnP solvers is built from the derivative of the reprojection errors, with weight one or the robust weight and without points next to the focal plane. It always has a solution; a solution minimises the weighted squared errors as predicted to first order; along it the weighted squared errors fall, with slope zero only where no correction changes them. The passes end at the first correction shorter than the limit.",
  "all point lists, poses and weights; exact arithmetic for the minimum, every scalar type for the end", "all real-valued inputs; a wrong sign or weight in one entry still converges on easy data",
  [PN + "#PnPSolver::EstimatePose", PN + "#PnPSolver::EstimatePoseKernel"])
p("Feature ids are only names",
  "What a history of calls returns depends on the feature ids only through which of them are equal: any other ids that keep different landmarks apart give the same results and the same undefined behaviour. In the middle of a run only the ids that a frame of the window or a queued message has must be kept, so an id may be given to a new landmark once none of them has it. Merging two landmarks under one id can keep the filter from initialising.",
  "all histories of calls, all renamings, all scalar types; all orders of the hash maps for a well-formed tracker", "all id assignments; ids also decide hash order, so a test fixes both at once",
  [FM + "#FeatureManager::AddNewFeatures", FR + "#FrameManager::IsKeyFrame", BE + "#Backend::RunOnce", FM + "#FeatureManager::RemoveByFrameID"])
p("Reset adds no undefined behaviour",
  "Reset may be called at any point of a well-formed history, any number of times: the later calls meet no undefined behaviour other than the read through a removed queue slot of C68, although Reset leaves states, window and attitudes of the old run in place. While states of the old run are queued, an initialisation that succeeds does not use the state it computes: it appends to the old states, and what PublishUpdateState reports is unchanged.",
  "all histories of well-formed tracker messages with Reset calls anywhere, all sensor values, solver results and parameters within 32 bits",
  "needs an invariant for the mixture of an old queue with a new window, over all interleavings",
  [BE+"#Backend::Reset", BI+"#Backend::InitializePropagator", UP+"#MultiViewVisionUpdate::ConstructCovariance"])
p("The filter falls back only when IMU data are missing",
  "A RunOnce takes a running filter back to initialisation exactly when it handles an image and every queued state, as well as the IMU sample taken in the same call, is older than the image by more than the IMU period; what the images show plays no part. If the IMU samples are pushed in time order and every image after a sample that is not newer and at most the IMU period older, a filter that has once started runs to the end of the history.",
  "all well-formed histories without Reset and RunOnceTest, all sensor values, solver results and parameters within 32 bits",
  "needs an invariant over samples that are pushed, queued, handled or rejected, for histories of any length",
  [BE+"#Backend::RunOnce", SP+"#PropagateQueue::ResetOrigin", DL+"#DataLoader::PopOneMessage", UP+"#MultiViewVisionUpdate::Update"])
p("Two successive good images start the filter",
  "If a call handles an image and leaves the filter idle, and a later call handles the next image, the filter runs after that call whatever came before, provided: the times of the images differ; ten features are in both images, their points are determined by the cameras of the first and are seen by camera 0 in the second; the attitude filter has started and holds two attitudes, one near the first image and one not too old for the second. With IMU data that keep up with the images, it then runs to the end of the history.",
  "all well-formed histories without Reset, exact arithmetic, noise-free observations in the first image, any number of cameras, any pose solver",
  "liveness over all histories that precede the pair of images, including failed attempts",
  [BI+"#Backend::Initialize", BE+"#Backend::RunOnce", AT+"#AttitudeEstimate::GetAttitude", TR+"#Trianglator::TrianglateAnalytic"])
p("Camera order of an observation",
  "An observation keeps the coordinates of its cameras in a hash map, whose iteration order the standard leaves open; it decides the order of the rows of the triangulation and of the measurement of a feature, and so what is handed to the matrix decompositions. Whatever that order is, every history of calls returns the same values, provided that the landmarks an update uses are seen along two rays that are not parallel and that the singular vector the library returns is determined by the inner products of the columns, up to its sign.",
  "all histories of a well-formed tracker, all orders of the cameras in every observation, any number of cameras, exact arithmetic",
  "a test runs with the one hash function and bucket count of its library",
  [UP+"#MultiViewVisionUpdate::ConstructMeasurementFunction", UP+"#MultiViewVisionUpdate::TrianglizeMultiFrame", BI+"#Backend::TrianglizeMultiView"])
p("Several backends in one process",
  "Backends in one process share the time of the last sample, that of the last image, and gravity. When all of them are configured with the same gravity, each before it is used, and the times of all samples given to the process increase, as do those of all images, each backend returns exactly what it would return as the only backend of a process, and the process meets undefined behaviour only where one of them would alone. Otherwise they disturb each other: a sample or image that is not later than the last one given to any backend is dropped although the call returns true, and configuring one backend replaces the gravity of all.",
  "all histories of calls on any number of backends, all scalar types and arithmetics",
  "all interleavings of calls on any number of objects; a test has one backend in its process",
  [DL+"#DataLoader::PushIMUMessage", DL+"#DataLoader::PushFeaturesMessage", BC+"#Backend::ConfigParams", CF+"#Configurator::GetInstance"])
p("Gravity corrects the attitude at rest",
  "On a device at rest, whose accelerometer measures gravity and whose gyroscope measures only its bias, every sample turns the attitude of the estimator towards the one that fits gravity, so that the error of the start dies out.",
  "all tilts, gains, sampling times and numbers of samples, exact arithmetic",
  "the sign of a feedback shows only in the long run, and a level device hides it",
  [AT+"#AttitudeEstimate::Propagate"])
p("The bias random walk does not depend on the sampling rate",
  "Over a propagation of span t the variance of every component of both biases grows by the square of the configured random walk deviation times t, however many IMU samples the span is divided into.",
  "all sampling times, sensor values, numbers of samples and noise parameters, exact arithmetic",
  "a test runs at one rate; the error is a factor that depends on the rate",
  [SP+"#PropagateQueue::Propagate", SP+"#PropagateQueue::InitializeProcessNoiseMatrix", SP+"#PropagateQueue::PropagateFullErrorStateCovariance", BC+"#Backend::ConfigParams"])
p("An observation informs the filter once",
  "Every camera observation enters the measurement of at most one update, so that its information is counted once in the covariance.",
  "all windows, histories of window operations, observations, solvers and covariances",
  "the covariance stays a covariance and the state moves towards the observation either way; only the accumulated weight is wrong",
  [UP+"#MultiViewVisionUpdate::ConstructMeasurementFunction", UP+"#MultiViewVisionUpdate::SelectGoodFeatures", UP+"#MultiViewVisionUpdate::UpdateState", FM+"#FeatureManager::RemoveByFrameID"])
p("Dead reckoning converges to the true motion",
  "For every motion whose angular rate and specific force are bounded and change at bounded speed, the state that the propagator computes from samples of an IMU with known constant biases differs from the true attitude, velocity and position by at most the error it started with, carried on in time, plus constants times the largest step between samples; started from the truth it converges to the truth when the rate goes up.",
  "all such motions, all sampling times, all spans, exact arithmetic",
  "a limit over sampling rates, for all motions",
  [SP+"#PropagateQueue::PropagateMotionNominalState", SP+"#PropagateQueue::Propagate", ML+"#Utility::DeltaQ"])
p("A turn about a fixed axis is integrated short",
  "While the device turns about an axis fixed in it, the propagated attitude is exactly the one of the start turned about that axis, by the sum of 2 atan(x/2) over the angles x of the steps: never more than the true angle for rates that are not negative, short of it by at most the sum of the cubes over twelve, and strictly short whenever the device turns; never more than half a turn per step.",
  "all axes, rate profiles, sampling times, biases and accelerometer samples, exact arithmetic",
  "an error of relative size x²/12 is below the tolerance of a test",
  [SP+"#PropagateQueue::PropagateMotionNominalState", ML+"#Utility::DeltaQ"])
p("The correction is proportional to the residual, however large it is",
  "For a given covariance and Jacobian the gain and the new covariance do not depend on the residual, and the correction is linear in it; so, whenever the measurements tell anything about the state, some residual moves it further than any bound and leaves the same covariance as a residual of zero: no measurement is turned down for being surprising.",
  "all covariances, Jacobians, residuals and noises above the cut-off of the inverse, every library that meets its contract, exact arithmetic",
  "the absence of a consistency test shows only for outliers that nobody put in a data set",
  [UP+"#MultiViewVisionUpdate::UpdateState"])
p("The newest state drifts from the truth no faster than dead reckoning",
  "In every history: for a motion whose angular rate and specific force are bounded and change at bounded speed, and for queued samples that are at most a given step apart and, with the published biases removed, off the truth by bounded amounts, the newest published state has errors of at most those of the updated state carried on over the time between them, plus constants times the step and the sensor errors.",
  "all histories of calls, all such motions, samples, biases and states, exact arithmetic",
  "a bound over all motions and all histories",
  [BE+"#Backend::PublishPropagateState", BE+"#Backend::PublishUpdateState", SP+"#PropagateQueue::PropagateMotionNominalState", SP+"#PropagateQueue::Repropagate"])

p("Features in one batch or one after the other",
  "The filter step on two blocks of measurement rows stacked gives the same covariance and the same correction as a step on the first block followed by one on the second, when the residual of the second block is reduced by what the first correction predicts for it.",
  "all covariances, also singular ones, Jacobians, residuals, sizes of the blocks and noises above the cut-off of the inverse, every library that meets its contract, exact arithmetic",
  "compares two different organisations of the update on all inputs",
  [UP+"#MultiViewVisionUpdate::UpdateState"])
p("Only ratios of variances matter",
  "When all variances of the state and the variance of the measurements are multiplied by the same factor, the correction of the state stays the same and the new covariance is multiplied by that factor.",
  "all factors, covariances, Jacobians, residuals and noises above the cut-off of the inverse, every library that meets its contract, exact arithmetic",
  "relates runs with different parameters on all inputs",
  [UP+"#MultiViewVisionUpdate::UpdateState"])

p("Diagnostics tell the truth",
  "Printing the configuration after it was read, messages built with the constructor, packets, features, frames and their managers is defined, and what is printed is what they hold: a feature shows an observation for a frame and a camera exactly when the tracker reported it in the message of that frame, also when the track was interrupted; the tests for a negative diagonal of the covariance stay quiet.",
  "all configurations, messages, histories of the window and of the backend; exact arithmetic for the covariance",
  "nobody compares log output with the state on all histories",
  [DT+"#FeaturesMessage::Information", DT+"#CombinedMessage::Information", FM+"#Feature::Information", FM+"#FeatureManager::Information", FR+"#FrameManager::Information", CF+"#Configurator::Information", UP+"#MultiViewVisionUpdate::UpdateState"])

p("Where the world is, is neither learned nor used",
  "Add the covariance of a common shift of all positions, of the IMU and of the frames in the window, to the joint covariance of a running filter: it returns the same values as before in every later history, and as long as it stays initialised the covariance stays larger by exactly that term; so the variance of the position never falls below it, whatever is measured.",
  "all symmetric 3x3 covariances of the shift, all states reached by well-formed histories, all later well-formed histories, every library that meets its contract, exact arithmetic",
  "compares two infinite families of runs that differ in a quantity nobody sees; a wrong block of the transition matrix, of the Jacobian, of the augmentation or of the marginalisation would let the filter gain false certainty slowly",
  [UP+"#MultiViewVisionUpdate::Update", UP+"#MultiViewVisionUpdate::ExpandCameraCovariance", UP+"#MultiViewVisionUpdate::ReduceCameraCovariance", SP+"#PropagateQueue::Propagate"])

p("Rounding does not make the covariance asymmetric",
  "In floating point the covariance of the filter stays symmetric to the last bit: entry (i, j) and entry (j, i) are the same number, after every update and after every propagation, also when entries overflow or are NaN.",
  "all updates and propagations from all states, every floating point arithmetic with correctly rounded operations, all results of the decompositions",
  "an asymmetry of one unit in the last place is below the tolerance of any numerical test, yet the LDLT and the marginalisation read only one triangle and the error feeds back into every later step; which order of operations is symmetric under rounding is a question about all matrices",
  [UP+"#MultiViewVisionUpdate::UpdateState", UP+"#MultiViewVisionUpdate::ExpandCameraCovariance", SP+"#PropagateQueue::Propagate"])

p("The uncertainty of the heading stays an uncertainty of the heading",
  "A turn of the world about gravity cannot be observed, so an uncertainty of that kind must stay of that kind: the transition matrix maps the error of a state in a turned world to the error of the next state in the world turned in the same way.",
  "all states with unit attitude, all samples and time steps, all axes along gravity",
  "compares the transition matrix with the nominal propagation along one direction; the differences are of the second order in the time step and show only as a filter that slowly becomes too sure of its heading",
  [SP+"#PropagateQueue::Propagate", SP+"#PropagateQueue::PropagateMotionNominalState"])

p("The clock of the filter is as good at any epoch",
  "With double time stamps and single precision scalars the time steps of the propagation add up to the elapsed time with a relative error of at most 2^-23, however large the time stamps are and however many samples there are; as long as the time does not double between two samples each step is the elapsed time correctly rounded, and from the first second on no two samples at different times give a step of zero.",
  "all epochs, all numbers of samples in time order, all spacings up to 2^100 s",
  "an error appears only at large time stamps and after long runs; converting the stamps before the subtraction would pass every test that starts at time zero",
  [SP+"#PropagateQueue::PropagateMotionNominalState", SP+"#PropagateQueue::Propagate"])

p("Variances do not become negative by rounding",
  "In floating point no diagonal entry of the covariance becomes negative, neither in the propagation nor in the update, so the test of the covariance never prints its error.",
  "all samples, times and states for the propagation, all covariances and measurement equations for the update, single precision",
  "the sign is lost only where the measurement is much better than the prior, by one unit in the last place of the gain; whether any input does so is a question about all floating point inputs",
  [UP+"#MultiViewVisionUpdate::UpdateState", SP+"#PropagateQueue::Propagate"])

p("The interpolated sample is a mixture of its neighbours, also under rounding",
  "In every history of calls, when a packet gets a sample at the time of the features that was not received, the division is by a positive number, both weights lie between zero and one and add up to one within 2^-22, and each component is within a few roundings of the mixture of the neighbouring samples with these weights: it is finite and not larger than the larger of the two up to a few roundings.",
  "all histories of calls on any number of loaders, double time stamps, single precision samples up to 2^100",
  "close time stamps at large epochs lose digits in the subtraction; that the quotient cannot leave the interval from zero to one is a question about all pairs of doubles",
  [DL+"#DataLoader::PopPackedMessage"])

p("The position follows the velocity, also under rounding",
  "In floating point the position moves by the velocity times the elapsed time, up to an error that does not grow with the distance from the origin; in particular a motion at constant velocity is not lost however slow it is.",
  "all histories of calls and all samples for the error of the position, all numbers of samples for the constant motion, single precision",
  "the loss appears only far from the origin and at high sample rates, and only after many samples; every test near the origin passes",
  [SP+"#PropagateQueue::PropagateMotionNominalState"])

p("The timer reports the elapsed time",
  "The times that a timer reports add up to the time since it was made, and each is the elapsed time in milliseconds, not negative, with a relative error of at most 2^-23.",
  "all sequences of calls and clock readings whose differences fit in 64 bits; double and single precision",
  "a test cannot set the clock of the machine and sees only short times",
  ["src/utility/tick_tock.cpp#TickTockTimer::TickTock"])

path = os.path.join(os.path.dirname(os.path.dirname(os.path.abspath(__file__))), "properties.jsonl")
with open(path, "w") as f:
    for o in P:
        f.write(json.dumps(o, ensure_ascii=False) + "\n")
print(len(P), "properties")
