{"id": "C01", "title": "Same time shift for every message", "statement": "Whatever sequence of Clear, push and pop calls a DataLoader has seen, every IMU or features message it accepts is stored (and its caller-visible timeStamp rewritten) with the raw timestamp minus the constant -1: both sensors are shifted by the same amount, for ever, and the 'first message becomes time zero' calibration never happens.", "quantifier": "all operation histories and all timestamps", "why_tests_cant": "needs every history of Clear/push/pop, not a sample; the dead NaN branch looks alive to a test that never compares against the raw time", "anchors": ["eskf_vio_backend/src/data_manager/data_loader.cpp#DataLoader::Clear", "eskf_vio_backend/src/data_manager/data_loader.cpp#DataLoader::PushFeaturesMessage", "eskf_vio_backend/src/data_manager/data_loader.cpp#DataLoader::PushIMUMessage"]}
{"id": "C02", "title": "Acceptance rule of the loader", "statement": "A push is queued exactly when its shifted timestamp is strictly greater than that of the immediately preceding push of the same kind in the process (accepted or not); PushIMUMessage always returns true; PushFeaturesMessage returns false exactly when the numbers of ids and observations differ, and then nothing changes.", "quantifier": "all push histories", "why_tests_cant": "depends on the whole push history through function-local statics", "anchors": ["eskf_vio_backend/src/data_manager/data_loader.cpp#DataLoader::PushFeaturesMessage", "eskf_vio_backend/src/data_manager/data_loader.cpp#DataLoader::PushIMUMessage"]}
{"id": "C03", "title": "Queues stay in time order", "statement": "The buffered IMU (features) messages are in strictly increasing time order after any history of pushes ('only increasing timestamps are accepted').", "quantifier": "all push histories", "why_tests_cant": "a violation needs a rejected message followed by one that lies between the rejected and the queued one; no finite set of tests covers all histories", "anchors": ["eskf_vio_backend/src/data_manager/data_loader.cpp#DataLoader::PushIMUMessage", "eskf_vio_backend/src/data_manager/data_loader.cpp#DataLoader::PushFeaturesMessage"]}
{"id": "C04", "title": "No loss, no duplication, FIFO per sensor", "statement": "For every history of pushes and PopOneMessage calls since the last Clear, the IMU messages handed out followed by the ones still queued are exactly the accepted IMU messages in push order, and likewise for features messages.", "quantifier": "all interleavings of pushes and pops", "why_tests_cant": "quantifies over all interleavings", "anchors": ["eskf_vio_backend/src/data_manager/data_loader.cpp#DataLoader::PopOneMessage"]}
{"id": "C05", "title": "PopOneMessage output rule", "statement": "PopOneMessage returns false exactly when both queues are empty; when both are non-empty it hands out the older front message, a features message winning ties, and it bundles the front IMU message with the features message exactly when the features message is not newer and is closer than one IMU period; otherwise the output holds exactly one message.", "quantifier": "all queue contents", "why_tests_cant": "all queue contents and time relations", "anchors": ["eskf_vio_backend/src/data_manager/data_loader.cpp#DataLoader::PopOneMessage", "eskf_vio_backend/src/data_manager/data_typedef.cpp#CombinedMessage::Clear"]}
{"id": "C06", "title": "Draining yields globally sorted output", "statement": "If both queues are in time order, popping until empty emits messages in non-decreasing time order and never emits a features message after an IMU message that is newer than it, except for the single IMU message bundled with it.", "quantifier": "all sorted queue contents, any lengths", "why_tests_cant": "unbounded queue lengths", "anchors": ["eskf_vio_backend/src/data_manager/data_loader.cpp#DataLoader::PopOneMessage"]}
{"id": "C07", "title": "PopPackedMessage packet contract", "statement": "When PopPackedMessage succeeds the packet holds the oldest features message and a non-empty IMU run whose messages are all not newer than it, that starts strictly before it, and whose last entry is within 1e-6 s of it; the next buffered IMU message is that same last entry, so consecutive packets share their boundary sample, and no IMU message is lost. The search for the end of the run always stops inside the buffer.", "quantifier": "all queue contents", "why_tests_cant": "the loop has no emptiness check; safety rests on a relation between the last IMU and the first features timestamp", "anchors": ["eskf_vio_backend/src/data_manager/data_loader.cpp#DataLoader::PopPackedMessage"]}
{"id": "C08", "title": "Interpolated IMU sample is a convex combination", "statement": "When PopPackedMessage synthesises an IMU sample at the image time, its interpolation rate lies strictly between 0 and 1, no division by zero occurs, and each component of gyro and accel lies between the two neighbouring samples.", "quantifier": "all queue contents, exact arithmetic", "why_tests_cant": "all real-valued inputs", "anchors": ["eskf_vio_backend/src/data_manager/data_loader.cpp#DataLoader::PopPackedMessage"]}
{"id": "C09", "title": "Loader instances are independent and Clear restarts them", "statement": "After Clear (or in a second DataLoader), a message stream is accepted or rejected exactly as by a freshly started process.", "quantifier": "all histories before Clear, all other instances", "why_tests_cant": "needs hidden process-wide state from earlier histories", "anchors": ["eskf_vio_backend/src/data_manager/data_loader.cpp#DataLoader::Clear", "eskf_vio_backend/src/data_manager/data_loader.cpp#DataLoader::PushIMUMessage"]}
{"id": "C10", "title": "PopOneMessage touches only live storage", "statement": "PopOneMessage never reads through a reference to a queue element after that element has been removed from the queue.", "quantifier": "all queue contents", "why_tests_cant": "undefined behaviour that usually happens to work cannot be excluded by observing outputs", "anchors": ["eskf_vio_backend/src/data_manager/data_loader.cpp#DataLoader::PopOneMessage"]}
{"id": "C11", "title": "Consecutive frame ids in the window", "statement": "For every history of AddNewFrame and RemoveFrame calls the window's frame ids are consecutive and increasing, the first frame of an empty window gets id 1, and AddNewFrame returns true.", "quantifier": "all histories and window sizes (ids below 2^32)", "why_tests_cant": "unbounded histories", "anchors": ["eskf_vio_backend/src/data_manager/vision_data/frame_manager.cpp#FrameManager::AddNewFrame", "eskf_vio_backend/src/data_manager/vision_data/frame_manager.cpp#FrameManager::RemoveFrame"]}
{"id": "C12", "title": "RemoveFrame removes exactly one frame", "statement": "RemoveFrame(i) with i in range removes exactly the i-th frame, keeps the order, poses, timestamps and feature links of all others, shifts the ids of later frames down by one when i>0 and keeps all ids when i=0; out of range it returns false and changes nothing.", "quantifier": "all windows and indices", "why_tests_cant": "all window sizes and indices", "anchors": ["eskf_vio_backend/src/data_manager/vision_data/frame_manager.cpp#FrameManager::RemoveFrame"]}
{"id": "C13", "title": "GetFrame and GetMaxFrameID are exact", "statement": "With consecutive ids, GetFrame(id) returns the unique frame with that id and a null pointer exactly when no frame has it; GetMaxFrameID returns the newest frame's id, 0 for an empty window.", "quantifier": "all windows and ids", "why_tests_cant": "all ids", "anchors": ["eskf_vio_backend/src/data_manager/vision_data/frame_manager.cpp#FrameManager::GetFrame", "eskf_vio_backend/src/data_manager/vision_data/frame_manager.cpp#FrameManager::GetMaxFrameID"]}
{"id": "C14", "title": "New frames start from the previous pose", "statement": "AddNewFrame gives the new frame the pose and velocity of the newest frame already in the window (identity pose and zero velocity when the window is empty) and appends it without changing any other frame.", "quantifier": "all windows", "why_tests_cant": "all windows", "anchors": ["eskf_vio_backend/src/data_manager/vision_data/frame_manager.cpp#FrameManager::AddNewFrame", "eskf_vio_backend/src/data_manager/vision_data/frame_manager.cpp#Frame::Initialize"]}
{"id": "C15", "title": "observeNum counts camera observations", "statement": "For every history of AddNewFeatures, RemoveByFrameID and RemoveByID, each managed feature's observeNum equals the total number of camera observations it stores.", "quantifier": "all histories, including repeated ids, empty observations and tracking gaps", "why_tests_cant": "unbounded histories", "anchors": ["eskf_vio_backend/src/data_manager/vision_data/feature_manager.cpp#Feature::AddNewObserve", "eskf_vio_backend/src/data_manager/vision_data/feature_manager.cpp#FeatureManager::RemoveByFrameID", "eskf_vio_backend/include/data_manager/vision_data/feature_manager.hpp#Feature"]}
{"id": "C16", "title": "Window content refines a log of messages", "statement": "If an id that is still tracked by some frame of the window but absent from the newest one is never reused, then after any history of frame insertions and of oldest / second-newest / newest marginalisations, looking up (frame, camera) in a feature returns exactly the coordinate that the tracker reported for that id in the message of that frame, and reports failure exactly when there was none.", "quantifier": "all histories of insertions and marginalisations, all ids, cameras", "why_tests_cant": "refinement over unbounded histories with id renumbering", "anchors": ["eskf_vio_backend/src/data_manager/vision_data/feature_manager.cpp#FeatureManager::AddNewFeatures", "eskf_vio_backend/src/data_manager/vision_data/feature_manager.cpp#FeatureManager::RemoveByFrameID", "eskf_vio_backend/src/data_manager/vision_data/feature_manager.cpp#Feature::GetNorm", "eskf_vio_backend/src/backend/backend.cpp#Backend::UpdateFeatureFrameManager", "eskf_vio_backend/src/backend/backend.cpp#Backend::MarginalizeFeatureFrameManager"]}
{"id": "C17", "title": "Feature lifetime equals visibility in the window", "statement": "Under the same condition a feature is managed exactly when some frame of the window observed it, its [first, final] frame range lies inside the window, and every frame's feature links point to managed features that observe that frame.", "quantifier": "all histories", "why_tests_cant": "leaks and premature deletions only show up for particular histories", "anchors": ["eskf_vio_backend/src/data_manager/vision_data/feature_manager.cpp#FeatureManager::RemoveByFrameID", "eskf_vio_backend/src/data_manager/vision_data/frame_manager.cpp#Frame::AddFeatures"]}
{"id": "C18", "title": "Lookup is right even when a track is re-found", "statement": "The coordinate returned for (frame, camera) is the one reported for that frame even when a feature was lost for some frames and re-found while still inside the window.", "quantifier": "all histories", "why_tests_cant": "needs the specific lost-and-refound pattern", "anchors": ["eskf_vio_backend/src/data_manager/vision_data/feature_manager.cpp#Feature::AddNewObserve", "eskf_vio_backend/src/data_manager/vision_data/feature_manager.cpp#Feature::GetNorm"]}
{"id": "C19", "title": "GetNorm rejects frames outside the track", "statement": "Feature::GetNorm fails for every frame id before the first or after the final observing frame (32-bit wrap-around of the index included) and succeeds exactly for stored (frame, camera) pairs.", "quantifier": "all 32-bit frame ids", "why_tests_cant": "2^32 ids times all tracks; relies on unsigned wrap-around", "anchors": ["eskf_vio_backend/src/data_manager/vision_data/feature_manager.cpp#Feature::GetNorm", "eskf_vio_backend/src/data_manager/data_typedef.cpp#FeatureObserve::GetNorm", "eskf_vio_backend/src/data_manager/vision_data/feature_manager.cpp#Feature::FinalFrameID"]}
{"id": "C20", "title": "AddNewFeatures all-or-nothing on size mismatch", "statement": "AddNewFeatures returns false exactly when the id and observation lists differ in length, and then the managed features are unchanged and the output list is empty; otherwise the output lists, in input order, the managed feature of every id.", "quantifier": "all inputs and manager states", "why_tests_cant": "all inputs", "anchors": ["eskf_vio_backend/src/data_manager/vision_data/feature_manager.cpp#FeatureManager::AddNewFeatures"]}
{"id": "C21", "title": "GetCovisibleFeatures is the intersection", "statement": "GetCovisibleFeatures returns exactly this frame's features whose ids also occur in the other frame, each once; as id sets the operation is symmetric.", "quantifier": "all frame pairs", "why_tests_cant": "all frame contents", "anchors": ["eskf_vio_backend/src/data_manager/vision_data/frame_manager.cpp#Frame::GetCovisibleFeatures"]}
{"id": "C22", "title": "Keyframe decision", "statement": "IsKeyFrame answers false for a null frame, true for the oldest frame of the window, and otherwise true exactly when fewer than the configured number of features are tracked in camera 0 of both it and its predecessor or it moved further than the configured distance; it never dereferences past the window for a frame inside it.", "quantifier": "all windows and thresholds", "why_tests_cant": "all windows, thresholds and feature sets", "anchors": ["eskf_vio_backend/src/data_manager/vision_data/frame_manager.cpp#FrameManager::IsKeyFrame"]}
{"id": "C23", "title": "Parallax threshold takes part in keyframe selection", "statement": "The configured minimum mean parallax (README: mean parallax is one of the keyframe criteria) influences whether a frame is selected as keyframe.", "quantifier": "all windows", "why_tests_cant": "independence for all windows cannot be observed by tests", "anchors": ["eskf_vio_backend/src/data_manager/vision_data/frame_manager.cpp#FrameManager::IsKeyFrame", "eskf_vio_backend/include/data_manager/vision_data/frame_manager.hpp#FrameManager::minKeyframeMeanParallax"]}
{"id": "C24", "title": "Attitude queue is time ordered", "statement": "For every history of Propagate and CleanOldItems the stored attitude items are in non-decreasing time order; a sample older than the newest item is refused without any change.", "quantifier": "all histories", "why_tests_cant": "unbounded histories", "anchors": ["eskf_vio_backend/src/propagate/attitude_estimate.cpp#AttitudeEstimate::Propagate", "eskf_vio_backend/src/propagate/attitude_estimate.cpp#AttitudeEstimate::CleanOldItems"]}
{"id": "C25", "title": "GetAttitude returns the nearest item within the threshold", "statement": "With at least two items GetAttitude succeeds exactly when some stored item is closer than the threshold, and then returns the attitude of an item at minimal time distance; it never steps outside the queue.", "quantifier": "all time-ordered queues, times and thresholds", "why_tests_cant": "all queues; boundary cases at both ends and ties", "anchors": ["eskf_vio_backend/src/propagate/attitude_estimate.cpp#AttitudeEstimate::GetAttitude"]}
{"id": "C26", "title": "GetAttitude also works with a single item", "statement": "With one stored item GetAttitude succeeds exactly when that item is closer than the threshold.", "quantifier": "all single-item queues", "why_tests_cant": "asymmetry between item-before and item-after the query", "anchors": ["eskf_vio_backend/src/propagate/attitude_estimate.cpp#AttitudeEstimate::GetAttitude"]}
{"id": "C27", "title": "CleanOldItems keeps the recent suffix", "statement": "CleanOldItems removes exactly the leading items older than the threshold and never runs past the end as long as some item is within the threshold; on an all-old queue it reads an empty deque.", "quantifier": "all queues", "why_tests_cant": "the missing emptiness check only matters for particular data", "anchors": ["eskf_vio_backend/src/propagate/attitude_estimate.cpp#AttitudeEstimate::CleanOldItems"]}
{"id": "C28", "title": "Attitude estimates are unit quaternions", "statement": "In exact arithmetic every stored attitude is a unit quaternion, for every history in which the starting accelerometer sample is not parallel to gravity.", "quantifier": "all histories and sensor values", "why_tests_cant": "real-valued, unbounded histories", "anchors": ["eskf_vio_backend/src/propagate/attitude_estimate.cpp#AttitudeEstimate::Propagate", "eskf_vio_backend/include/utility/math_lib.hpp#Utility::DeltaQ"]}
{"id": "C29", "title": "Level start gives a usable attitude", "statement": "Starting the attitude estimator with an accelerometer sample parallel to gravity (device level or upside down) yields a valid attitude.", "quantifier": "all parallel samples", "why_tests_cant": "0/0 only on a measure-zero set", "anchors": ["eskf_vio_backend/src/propagate/attitude_estimate.cpp#AttitudeEstimate::Propagate"]}
{"id": "C30", "title": "Initial attitude aligns gravity", "statement": "The initial attitude rotates the measured specific force onto the world gravity direction.", "quantifier": "all accepted starting samples", "why_tests_cant": "first-order formula used for large angles; error depends on the input", "anchors": ["eskf_vio_backend/src/propagate/attitude_estimate.cpp#AttitudeEstimate::Propagate", "eskf_vio_backend/include/utility/math_lib.hpp#Utility::DeltaQ"]}
{"id": "C31", "title": "Attitude estimator and propagator turn the same way", "statement": "For the same angular rate the attitude estimator and the IMU propagator rotate the attitude in the same direction.", "quantifier": "all rates", "why_tests_cant": "sign convention for all inputs", "anchors": ["eskf_vio_backend/src/propagate/attitude_estimate.cpp#AttitudeEstimate::Propagate", "eskf_vio_backend/src/propagate/sequence_propagator.cpp#PropagateQueue::PropagateMotionNominalState"]}
{"id": "C32", "title": "Propagated attitudes are unit quaternions", "statement": "In exact arithmetic, starting from a unit attitude every item produced by Propagate / Repropagate has a unit quaternion, and the normalisation never divides by zero.", "quantifier": "all IMU histories", "why_tests_cant": "real-valued, unbounded histories", "anchors": ["eskf_vio_backend/src/propagate/sequence_propagator.cpp#PropagateQueue::PropagateMotionNominalState"]}
{"id": "C33", "title": "A stationary IMU stays put", "statement": "If accel equals the rotated gravity plus bias and gyro equals the gyro bias, then for any number of samples with any time steps the propagated pose is unchanged and the velocity is constant; with zero initial velocity nothing moves.", "quantifier": "all attitudes, biases, step counts and time steps", "why_tests_cant": "unbounded histories of real-valued steps", "anchors": ["eskf_vio_backend/src/propagate/sequence_propagator.cpp#PropagateQueue::PropagateMotionNominalState"]}
{"id": "C34", "title": "Propagation keeps the joint covariance symmetric positive semidefinite", "statement": "In exact arithmetic with non-negative noise parameters, if the joint covariance (IMU, extrinsics, window poses) of the newest item is symmetric PSD, it is so for every item appended by Propagate or recomputed by Repropagate.", "quantifier": "all IMU histories, camera and window sizes", "why_tests_cant": "real-valued matrices of unbounded dimension", "anchors": ["eskf_vio_backend/src/propagate/sequence_propagator.cpp#PropagateQueue::PropagateFullErrorStateCovariance", "eskf_vio_backend/src/propagate/sequence_propagator.cpp#PropagateQueue::InitializeProcessNoiseMatrix"]}
{"id": "C35", "title": "Process matrices do not depend on history", "statement": "After the first sample the transition and noise-input matrices used for a step depend only on the two samples of that step, although they live in reused member buffers.", "quantifier": "all histories", "why_tests_cant": "stale buffer content shows up only for particular histories", "anchors": ["eskf_vio_backend/src/propagate/sequence_propagator.cpp#PropagateQueue::PropagateFullErrorStateCovariance", "eskf_vio_backend/src/propagate/sequence_propagator.cpp#PropagateQueue::ResetProcessFunction"]}
{"id": "C36", "title": "Repropagate equals live propagation", "statement": "Repropagate recomputes every later item exactly as feeding the stored samples to Propagate from the (possibly corrected) first item would; it keeps the number of items, samples and timestamps, is idempotent, and changes nothing when the first item and biases are unchanged.", "quantifier": "all queues", "why_tests_cant": "unbounded queue lengths", "anchors": ["eskf_vio_backend/src/propagate/sequence_propagator.cpp#PropagateQueue::Repropagate", "eskf_vio_backend/src/propagate/sequence_propagator.cpp#PropagateQueue::Propagate"]}
{"id": "C37", "title": "ResetOrigin keeps the recent suffix", "statement": "ResetOrigin drops exactly the leading items older than the threshold; it returns true exactly when an item remains, and the first remaining item is then at most the threshold older than the given time.", "quantifier": "all queues, times, thresholds", "why_tests_cant": "unbounded queues", "anchors": ["eskf_vio_backend/src/propagate/sequence_propagator.cpp#PropagateQueue::ResetOrigin"]}
{"id": "C38", "title": "First sample starts from the initial state", "statement": "On an empty queue Propagate stores one item with the configured initial pose and velocity, zero covariance and a cross block of 6*(cameras+1) columns; on a non-empty queue the initial state is ignored.", "quantifier": "all states", "why_tests_cant": "all states", "anchors": ["eskf_vio_backend/src/propagate/sequence_propagator.cpp#PropagateQueue::Propagate"]}
{"id": "C39", "title": "Error-state packing round-trips", "statement": "Converting an error state to its 15-vector and back returns the same position, velocity, angle and biases, and vice versa; the five segments do not overlap and cover the vector.", "quantifier": "all error states", "why_tests_cant": "all real values", "anchors": ["eskf_vio_backend/src/propagate/sequence_propagator.cpp#PropagateQueue::ErrorStateConvert", "eskf_vio_backend/include/propagate/imu_state.hpp"]}
{"id": "C40", "title": "Marginalisation policy", "statement": "DecideMargPolicy keeps all frames while the window is within its limit, otherwise it drops the oldest frame if the second newest is a keyframe and the second newest if not; it never selects the newest, and with at least two frames in an overfull window it never reads outside the window.", "quantifier": "all windows", "why_tests_cant": "all windows and limits", "anchors": ["eskf_vio_backend/src/update/multi_view_vision_update.cpp#MultiViewVisionUpdate::DecideMargPolicy"]}
{"id": "C41", "title": "Joint covariance assembly", "statement": "ConstructCovariance fails exactly when the stored cross block does not have 6*(cameras+frames-1) columns; otherwise it yields the symmetric joint covariance whose IMU, cross and camera parts are the stored ones.", "quantifier": "all sizes and contents", "why_tests_cant": "unbounded dimensions", "anchors": ["eskf_vio_backend/src/update/multi_view_vision_update.cpp#MultiViewVisionUpdate::ConstructCovariance"]}
{"id": "C42", "title": "State augmentation is an exact covariance transform", "statement": "ExpandCameraCovariance yields T*C*T^T where T clones the IMU position and attitude, independently of the uninitialised memory exposed by resizing; hence symmetry and positive semidefiniteness are preserved.", "quantifier": "all covariance contents and sizes, all junk memory contents", "why_tests_cant": "uninitialised memory and unbounded dimensions", "anchors": ["eskf_vio_backend/src/update/multi_view_vision_update.cpp#MultiViewVisionUpdate::ExpandCameraCovariance"]}
{"id": "C43", "title": "Covariance reduction deletes exactly the marginalised frame", "statement": "ReduceCameraCovariance leaves, for each policy, exactly the principal submatrix without the six rows and columns of the frame that the frame manager then drops, so the covariance between any two surviving state components is unchanged.", "quantifier": "all window sizes, camera counts, contents", "why_tests_cant": "index arithmetic over unbounded sizes", "anchors": ["eskf_vio_backend/src/update/multi_view_vision_update.cpp#MultiViewVisionUpdate::ReduceCameraCovariance", "eskf_vio_backend/src/backend/backend.cpp#Backend::MarginalizeFeatureFrameManager"]}
{"id": "C44", "title": "Kalman update yields a symmetric PSD covariance not larger than the prior", "statement": "In exact arithmetic, for every measurement matrix, noise level and prior PSD covariance, the posterior covariance of UpdateState is symmetric PSD and prior minus posterior is PSD, even when the eigenvalue cut-off in Utility::Inverse truncates; the final symmetrisation changes nothing.", "quantifier": "all dimensions, matrices, noise values", "why_tests_cant": "real-valued matrices of unbounded dimension", "anchors": ["eskf_vio_backend/src/update/multi_view_vision_update.cpp#MultiViewVisionUpdate::UpdateState", "eskf_vio_backend/include/utility/math_lib.hpp#Utility::Inverse"]}
{"id": "C45", "title": "Utility::Inverse inverts well-conditioned symmetric matrices", "statement": "For a symmetric matrix whose eigenvalues all exceed 1e-10 Utility::Inverse returns the matrix inverse; for every symmetric matrix the result X is symmetric, PSD and satisfies X*A*X = X.", "quantifier": "all symmetric matrices", "why_tests_cant": "all real symmetric matrices", "anchors": ["eskf_vio_backend/include/utility/math_lib.hpp#Utility::Inverse"]}
{"id": "C46", "title": "Null-space projection removes the landmark", "statement": "The projected measurement rows of a feature do not depend on the landmark position error: for every landmark and state error the projected residual equals the projected state part, and the projected noise stays white with the same variance.", "quantifier": "all observation counts, matrices", "why_tests_cant": "all real matrices", "anchors": ["eskf_vio_backend/src/update/multi_view_vision_update.cpp#MultiViewVisionUpdate::ConstructMeasurementFunction"]}
{"id": "C47", "title": "QR compression does not change the filter result", "statement": "Replacing the stacked measurement equation by its QR-compressed form leaves the state correction and the posterior covariance unchanged.", "quantifier": "all measurement matrices, priors and positive noise", "why_tests_cant": "all real matrices", "anchors": ["eskf_vio_backend/src/update/multi_view_vision_update.cpp#MultiViewVisionUpdate::ConstructMeasurementFunction", "eskf_vio_backend/src/update/multi_view_vision_update.cpp#MultiViewVisionUpdate::UpdateState"]}
{"id": "C48", "title": "Measurement Jacobian matches the state correction", "statement": "The Jacobian blocks written for position, attitude, extrinsic translation, extrinsic rotation and landmark are the derivatives of the predicted observation along the way UpdateState applies corrections (additive, and right multiplication by a normalised small quaternion).", "quantifier": "all poses, extrinsics and landmarks with non-zero depth", "why_tests_cant": "derivatives at all points", "anchors": ["eskf_vio_backend/src/update/multi_view_vision_update.cpp#MultiViewVisionUpdate::ConstructMeasurementFunction", "eskf_vio_backend/src/update/multi_view_vision_update.cpp#MultiViewVisionUpdate::UpdateState"]}
{"id": "C49", "title": "State correction keeps quaternions unit and the newest frame in sync", "statement": "After UpdateState, in exact arithmetic, all attitudes (IMU, extrinsics, window frames) that were unit are unit, the newest frame has exactly the corrected IMU pose and velocity, and the numbers of frames and cameras are unchanged.", "quantifier": "all corrections and windows", "why_tests_cant": "real-valued, unbounded window", "anchors": ["eskf_vio_backend/src/update/multi_view_vision_update.cpp#MultiViewVisionUpdate::UpdateState"]}
{"id": "C50", "title": "Feature selection", "statement": "SelectGoodFeatures selects only features linked to the newest frame that were triangulated successfully in this call, no feature twice, at most the configured maximum, and at least one if any succeeded and the maximum is positive, for every outcome of the random scores.", "quantifier": "all windows, random score sequences", "why_tests_cant": "quantifies over all random outcomes", "anchors": ["eskf_vio_backend/src/update/multi_view_vision_update.cpp#MultiViewVisionUpdate::SelectGoodFeatures", "eskf_vio_backend/src/update/multi_view_vision_update.cpp#MultiViewVisionUpdate::TrianglizeMultiFrame"]}
{"id": "C51", "title": "Measurement row count never underflows", "statement": "Every selected feature contributes 2*observeNum-3 >= 1 rows without 32-bit wrap-around, the rows written for it are exactly 2*observeNum, and the stacked matrix is filled completely and without overlap.", "quantifier": "all selected features", "why_tests_cant": "wrap-around only for features with fewer than two observations", "anchors": ["eskf_vio_backend/src/update/multi_view_vision_update.cpp#MultiViewVisionUpdate::ConstructMeasurementFunction"]}
{"id": "C52", "title": "Successful update leaves consistent dimensions", "statement": "After a successful Update and the following marginalisation, the cross block of every queued item has 6*(cameras+frames) columns and the camera covariance has that many rows and columns, whichever policy and whether or not any feature was usable.", "quantifier": "all histories", "why_tests_cant": "dimension bookkeeping over unbounded histories", "anchors": ["eskf_vio_backend/src/update/multi_view_vision_update.cpp#MultiViewVisionUpdate::Update", "eskf_vio_backend/src/update/multi_view_vision_update.cpp#MultiViewVisionUpdate::UpdateCovariance", "eskf_vio_backend/src/propagate/sequence_propagator.cpp#PropagateQueue::Repropagate"]}
{"id": "C53", "title": "Analytic triangulation acceptance", "statement": "TrianglateAnalytic fails with fewer than two views, leaving the point untouched; whenever it succeeds the returned point has non-negative depth in every given view.", "quantifier": "all inputs, any SVD result", "why_tests_cant": "all inputs including degenerate ones", "anchors": ["eskf_vio_backend/src/geometry/trianglation.cpp#Trianglator::TrianglateAnalytic"]}
{"id": "C54", "title": "Analytic triangulation is exact on noise-free data", "statement": "With exact observations of a point in front of all views and a linear system of rank three, TrianglateAnalytic succeeds and returns exactly that point.", "quantifier": "all points, poses, view counts", "why_tests_cant": "all real-valued configurations", "anchors": ["eskf_vio_backend/src/geometry/trianglation.cpp#Trianglator::TrianglateAnalytic"]}
{"id": "C55", "title": "Iterative triangulation never increases the cost and stops", "statement": "TrianglateIterative performs at most 11 outer and 121 inner iterations, keeps its damping within [1e-10, 1e12], and returns a point whose total squared reprojection error is not larger than that of the initial point.", "quantifier": "all inputs, any linear-solver result", "why_tests_cant": "all inputs", "anchors": ["eskf_vio_backend/src/geometry/trianglation.cpp#Trianglator::TrianglateIterative"]}
{"id": "C56", "title": "Triangulation Jacobian is the derivative of its residual", "statement": "The Jacobian used by TrianglateIterative is the derivative of the predicted observation with respect to the inverse-depth parameters.", "quantifier": "all poses and parameters with non-zero depth", "why_tests_cant": "derivatives at all points", "anchors": ["eskf_vio_backend/src/geometry/trianglation.cpp#Trianglator::CumputeJacobian"]}
{"id": "C57", "title": "PnP input guards and output form", "statement": "EstimatePose and EstimatePoseKernel return false without touching the pose exactly when the lists differ in length or are empty (NaN aside); otherwise they run at most the configured number of iterations and, if at least one iteration ran, return a unit quaternion in exact arithmetic.", "quantifier": "all inputs, any linear-solver result", "why_tests_cant": "all inputs", "anchors": ["eskf_vio_backend/src/geometry/perspective_n_point.cpp#PnPSolver::EstimatePose", "eskf_vio_backend/src/geometry/perspective_n_point.cpp#PnPSolver::EstimatePoseKernel"]}
{"id": "C58", "title": "True pose is a fixed point of PnP", "statement": "If all observations are exact for the initial pose, EstimatePose and EstimatePoseKernel return that pose unchanged.", "quantifier": "all poses and point sets", "why_tests_cant": "all real-valued configurations", "anchors": ["eskf_vio_backend/src/geometry/perspective_n_point.cpp#PnPSolver::EstimatePose", "eskf_vio_backend/src/geometry/perspective_n_point.cpp#PnPSolver::EstimatePoseKernel"]}
{"id": "C59", "title": "PnP Jacobian is the derivative of its residual", "statement": "The Jacobian used by the PnP solvers is the derivative of the residual along the pose update they apply.", "quantifier": "all poses and points with non-zero depth", "why_tests_cant": "derivatives at all points", "anchors": ["eskf_vio_backend/src/geometry/perspective_n_point.cpp#PnPSolver::EstimatePose"]}
{"id": "C60", "title": "RANSAC PnP terminates", "statement": "EstimatePoseRANSAC terminates for every accepted input, given a random source that eventually yields every index.", "quantifier": "all accepted inputs", "why_tests_cant": "non-termination cannot be observed by a test", "anchors": ["eskf_vio_backend/src/geometry/perspective_n_point.cpp#PnPSolver::EstimatePoseRANSAC"]}
{"id": "C61", "title": "RANSAC PnP returns its best model", "statement": "EstimatePoseRANSAC returns the pose with the highest inlier count among the models it tried.", "quantifier": "all inputs and random sequences", "why_tests_cant": "quantifies over random sequences", "anchors": ["eskf_vio_backend/src/geometry/perspective_n_point.cpp#PnPSolver::EstimatePoseRANSAC"]}
{"id": "C62", "title": "Inlier flags describe the returned pose", "statement": "The overload with inlier output sets flag i exactly when point i reprojects within the threshold under the returned pose, whatever the vector held before.", "quantifier": "all inputs and previous vector contents", "why_tests_cant": "depends on stale contents of an output argument", "anchors": ["eskf_vio_backend/src/geometry/perspective_n_point.cpp#PnPSolver::EstimatePoseRANSAC"]}
{"id": "C63", "title": "Robust weights lie in (0,1]", "statement": "The Cauchy and Huber weights are positive, at most one and one below the threshold, for every positive parameter and residual.", "quantifier": "all residuals and parameters", "why_tests_cant": "all real values", "anchors": ["eskf_vio_backend/include/geometry/perspective_n_point.hpp#PnPSolver::Cauchy", "eskf_vio_backend/include/geometry/perspective_n_point.hpp#PnPSolver::Huber"]}
{"id": "C64", "title": "Matrix files load exactly", "statement": "LoadMatrix returns false exactly when the file cannot be opened; a file with exactly the requested rows, each with at least the requested numbers, yields exactly those numbers.", "quantifier": "all files and sizes", "why_tests_cant": "all file contents", "anchors": ["eskf_vio_backend/src/config/config.cpp#Configurator::LoadMatrix"]}
{"id": "C65", "title": "Malformed matrix files are contained", "statement": "A readable file with too few rows or numbers, or with too many rows, cannot inject values of another parameter nor write outside the matrix.", "quantifier": "all files", "why_tests_cant": "stale buffers and out-of-range writes depend on file contents and load order", "anchors": ["eskf_vio_backend/src/config/config.cpp#Configurator::LoadMatrix", "eskf_vio_backend/src/config/config.cpp#Configurator::ReadConfigParams"]}
{"id": "C66", "title": "Missing parameter files keep the previous values", "statement": "ReadConfigParams always succeeds; every scalar parameter whose file is missing keeps the value it had, every present one is taken from its own file, and the camera list is exactly T_bc0..T_bc(k-1) where k is the first missing index.", "quantifier": "all file systems and previous configurations", "why_tests_cant": "all subsets of files, all camera counts", "anchors": ["eskf_vio_backend/src/config/config.cpp#Configurator::ReadConfigParams"]}
{"id": "C67", "title": "Configuration reaches the components", "statement": "After ConfigParams the loader period, window limit, keyframe thresholds, measurement noise, feature limit, biases, gravity and camera extrinsics equal the configurator's values, extrinsics in camera order.", "quantifier": "all configurations", "why_tests_cant": "all configurations", "anchors": ["eskf_vio_backend/src/backend/backend_config.cpp#Backend::ConfigParams"]}
{"id": "C68", "title": "No undefined behaviour on well-formed input", "statement": "For a configured backend and every history of IMU pushes, features pushes, RunOnce and publish calls in which features messages have distinct ids, non-empty observations, known cameras and no reuse of a lost id still in the window, no step reads outside a container, dereferences null or mixes matrix sizes.", "quantifier": "all API histories, all numeric results of the solvers", "why_tests_cant": "memory safety over unbounded histories", "anchors": ["eskf_vio_backend/src/backend/backend.cpp#Backend::RunOnce", "eskf_vio_backend/src/backend/backend_initialize.cpp#Backend::Initialize", "eskf_vio_backend/src/update/multi_view_vision_update.cpp#MultiViewVisionUpdate::Update"]}
{"id": "C69", "title": "Malformed tracker input is survivable", "statement": "Features messages with repeated ids, empty observations, unknown camera numbers or re-found tracks never crash the backend.", "quantifier": "all API histories", "why_tests_cant": "needs the specific malformed pattern followed by the right phase", "anchors": ["eskf_vio_backend/src/backend/backend.cpp#Backend::RunOnce", "eskf_vio_backend/src/backend/backend_initialize.cpp#Backend::TrianglizeMultiView", "eskf_vio_backend/src/update/multi_view_vision_update.cpp#MultiViewVisionUpdate::TrianglizeMultiFrame"]}
{"id": "C70", "title": "Window size bound", "statement": "After every RunOnce the window holds at most max(1, configured size) frames if Reset is never called, and exactly one frame after a failed initialisation or update.", "quantifier": "all API histories", "why_tests_cant": "unbounded histories", "anchors": ["eskf_vio_backend/src/backend/backend.cpp#Backend::RunOnce", "eskf_vio_backend/src/data_manager/vision_data/frame_manager.cpp#FrameManager::NeedMarginalize"]}
{"id": "C71", "title": "Status machine", "statement": "The status becomes initialised only in a RunOnce that handled a features message with at least two frames in the window and whose update succeeded, goes back only through a failed update or Reset, and IMU-only steps never change it.", "quantifier": "all API histories", "why_tests_cant": "unbounded histories", "anchors": ["eskf_vio_backend/src/backend/backend.cpp#Backend::RunOnce", "eskf_vio_backend/src/backend/backend.cpp#Backend::Reset", "eskf_vio_backend/src/backend/backend_initialize.cpp#Backend::Initialize"]}
{"id": "C72", "title": "Published state", "statement": "PublishPropagateState / PublishUpdateState return false exactly when no IMU state is queued and otherwise report the newest / oldest queued state and time with the current biases; they never change the backend.", "quantifier": "all states", "why_tests_cant": "all states", "anchors": ["eskf_vio_backend/src/backend/backend.cpp#Backend::PublishPropagateState", "eskf_vio_backend/src/backend/backend.cpp#Backend::PublishUpdateState"]}
{"id": "C73", "title": "RunOnce result", "statement": "RunOnce returns false exactly when no message was available, or it handled a lone IMU message before initialisation that the attitude estimator refused; in particular a failed initialisation or update still returns true.", "quantifier": "all API histories", "why_tests_cant": "all states", "anchors": ["eskf_vio_backend/src/backend/backend.cpp#Backend::RunOnce"]}
{"id": "C74", "title": "RunOnce consumes one output message", "statement": "Every RunOnce that returns from a non-empty loader removes exactly one output message; n buffered messages are consumed by at most n RunOnce calls.", "quantifier": "all states", "why_tests_cant": "unbounded queue lengths", "anchors": ["eskf_vio_backend/src/backend/backend.cpp#Backend::RunOnce", "eskf_vio_backend/src/data_manager/data_loader.cpp#DataLoader::PopOneMessage"]}
{"id": "C75", "title": "Covariance of the running filter stays symmetric PSD", "statement": "In exact arithmetic, for every API history of a backend configured with non-negative noise, the joint covariance of the first queued item (and of all others) is symmetric PSD with size 15+6*(cameras+frames) whenever the backend is initialised.", "quantifier": "all API histories", "why_tests_cant": "unbounded histories of real-valued matrices", "anchors": ["eskf_vio_backend/src/backend/backend.cpp#Backend::RunOnce", "eskf_vio_backend/src/update/multi_view_vision_update.cpp#MultiViewVisionUpdate::Update", "eskf_vio_backend/src/propagate/sequence_propagator.cpp#PropagateQueue::Propagate"]}
{"id": "C76", "title": "Reset lets the backend start over", "statement": "After Reset the backend can initialise again from new data as a fresh one would.", "quantifier": "all histories before Reset, all later gap-free data", "why_tests_cant": "liveness after an arbitrary history", "anchors": ["eskf_vio_backend/src/backend/backend.cpp#Backend::Reset", "eskf_vio_backend/src/backend/backend_initialize.cpp#Backend::InitializePropagator", "eskf_vio_backend/src/update/multi_view_vision_update.cpp#MultiViewVisionUpdate::ConstructCovariance"]}
{"id": "C77", "title": "Bias is removed once", "statement": "Each IMU sample integrated by the propagator has the accelerometer and gyroscope bias removed exactly once, including the samples replayed at (re-)initialisation.", "quantifier": "all API histories", "why_tests_cant": "needs a re-initialisation after a successful update", "anchors": ["eskf_vio_backend/src/backend/backend_initialize.cpp#Backend::InitializePropagator", "eskf_vio_backend/src/propagate/attitude_estimate.cpp#AttitudeEstimate::Propagate", "eskf_vio_backend/src/propagate/sequence_propagator.cpp#PropagateQueue::PropagateMotionNominalState"]}
{"id": "C78", "title": "Initialisation geometry", "statement": "A successful initialisation puts the first frame at the origin with the attitude taken from the attitude estimator, gives both frames the velocity (position difference)/(time difference), requires at least ten triangulated points seen by camera 0, and seeds the propagator with that state.", "quantifier": "all states, solver results", "why_tests_cant": "all states", "anchors": ["eskf_vio_backend/src/backend/backend_initialize.cpp#Backend::Initialize", "eskf_vio_backend/src/backend/backend_initialize.cpp#Backend::EstimateFramePose"]}
{"id": "C79", "title": "Published time never runs backwards", "statement": "If IMU samples are pushed in time order and Reset is not called, the times reported by successive successful PublishPropagateState calls never decrease.", "quantifier": "all API histories with ordered IMU input", "why_tests_cant": "unbounded histories", "anchors": ["eskf_vio_backend/src/backend/backend.cpp#Backend::PublishPropagateState", "eskf_vio_backend/src/backend/backend_initialize.cpp#Backend::InitializePropagator", "eskf_vio_backend/src/propagate/sequence_propagator.cpp#PropagateQueue::ResetOrigin"]}
{"id": "C80", "title": "Vector and quaternion helpers", "statement": "SkewSymmetricMatrix(v)*w is the cross product; Qleft(q)*p and Qright(p)*q both give the quaternion product q*p; TransformMatrix composes and inverts like rigid motions for unit quaternions.", "quantifier": "all vectors and quaternions", "why_tests_cant": "all real values", "anchors": ["eskf_vio_backend/include/utility/math_lib.hpp#Utility"]}
{"id": "C81", "title": "Rotation magnitude helpers", "statement": "In exact arithmetic ComputeRotationMagnitude of a unit quaternion is its rotation angle in [0, pi], and of a rotation vector r with |r|<=2 it is 2*asin(|r|/2), which underestimates nothing and exceeds |r|.", "quantifier": "all unit quaternions, all vectors", "why_tests_cant": "all real values", "anchors": ["eskf_vio_backend/include/utility/math_lib.hpp#Utility::ComputeRotationMagnitude"]}
{"id": "C82", "title": "The newest state is dead reckoning from the updated one", "statement": "After every history of calls, Reset included, the newest published state is obtained from the updated state by midpoint dead reckoning with the published biases along the samples in the queue; the queue's samples are those that arrived since.", "quantifier": "all API histories", "why_tests_cant": "unbounded histories, every interleaving of updates and samples", "anchors": ["eskf_vio_backend/src/propagate/sequence_propagator.cpp#PropagateQueue::Repropagate", "eskf_vio_backend/src/propagate/sequence_propagator.cpp#PropagateQueue::Propagate", "eskf_vio_backend/src/backend/backend.cpp#Backend::PublishPropagateState", "eskf_vio_backend/src/backend/backend.cpp#Backend::PublishUpdateState"]}
{"id": "C83", "title": "Optimality of the gain and of the correction", "statement": "In exact arithmetic, when the squared measurement noise is above the cut-off of Inverse, no linear gain gives a smaller error covariance than the posterior, and with an invertible prior the correction minimises prior cost plus squared residuals over the noise variance; below the cut-off this fails.", "quantifier": "all PSD priors, measurements and noise levels", "why_tests_cant": "quantifies over all gains and all error states", "anchors": ["eskf_vio_backend/src/update/multi_view_vision_update.cpp#MultiViewVisionUpdate::UpdateState", "eskf_vio_backend/include/utility/math_lib.hpp#Utility::Inverse"]}
{"id": "C84", "title": "Random scores do not matter below the feature limit", "statement": "If no message has more features than an update may use and the random scores differ, two histories of a well-formed tracker that differ only in the random scores return exactly the same values in exact arithmetic; with equal scores features are lost.", "quantifier": "all well-formed histories, all random streams", "why_tests_cant": "compares all pairs of runs", "anchors": ["eskf_vio_backend/src/update/multi_view_vision_update.cpp#MultiViewVisionUpdate::SelectGoodFeatures", "eskf_vio_backend/src/update/multi_view_vision_update.cpp#MultiViewVisionUpdate::ConstructMeasurementFunction", "eskf_vio_backend/src/update/multi_view_vision_update.cpp#MultiViewVisionUpdate::UpdateState"]}
{"id": "C85", "title": "The choice of decompositions does not matter", "statement": "Two correct linear algebra libraries that return different orthogonal factors and eigenvectors give the same update in exact arithmetic, if each selected feature's Jacobian with respect to its landmark has full rank; without the rank the information kept depends on the library.", "quantifier": "all states, all pairs of libraries that meet their specification", "why_tests_cant": "compares all pairs of libraries", "anchors": ["eskf_vio_backend/src/update/multi_view_vision_update.cpp#MultiViewVisionUpdate::ConstructMeasurementFunction", "eskf_vio_backend/src/update/multi_view_vision_update.cpp#MultiViewVisionUpdate::UpdateState", "eskf_vio_backend/include/utility/math_lib.hpp#Utility::Inverse"]}
{"id": "C86", "title": "Uninitialised memory is never observable", "statement": "Two histories of the same calls that differ only in the contents of uninitialised matrix storage return the same values, and one is undefined behaviour exactly when the other is.", "quantifier": "all API histories, all contents of memory", "why_tests_cant": "compares all pairs of runs; any scalar type", "anchors": ["eskf_vio_backend/src/update/multi_view_vision_update.cpp#MultiViewVisionUpdate::ReduceCameraCovariance", "eskf_vio_backend/src/update/multi_view_vision_update.cpp#MultiViewVisionUpdate::ExpandCameraCovariance", "eskf_vio_backend/src/update/multi_view_vision_update.cpp#MultiViewVisionUpdate::ConstructCovariance"]}
{"id": "C87", "title": "Free motion is integrated exactly", "statement": "When the platform does not rotate and its specific force is constant, the queue's positions and velocities are exactly those of uniformly accelerated motion, whatever the sampling times, also through the first sample.", "quantifier": "all sampling times, all accelerations and initial states", "why_tests_cant": "unbounded sample sequences over the reals", "anchors": ["eskf_vio_backend/src/propagate/sequence_propagator.cpp#PropagateQueue::PropagateMotionNominalState", "eskf_vio_backend/src/propagate/sequence_propagator.cpp#PropagateQueue::Propagate"]}
{"id": "C88", "title": "Propagation commutes with a change of world frame about gravity", "statement": "Two propagators fed the same samples, whose start states and corrections differ by a rotation about gravity and a translation, stay so related for ever, and their covariances are related by the block rotation of position and velocity.", "quantifier": "all operation sequences, all rotations that fix gravity, all translations", "why_tests_cant": "compares all pairs of runs", "anchors": ["eskf_vio_backend/src/propagate/sequence_propagator.cpp#PropagateQueue::Propagate", "eskf_vio_backend/src/propagate/sequence_propagator.cpp#PropagateQueue::Repropagate", "eskf_vio_backend/src/propagate/sequence_propagator.cpp#PropagateQueue::PropagateFullErrorStateCovariance"]}
{"id": "C89", "title": "F linearises the nominal propagation", "statement": "The error that the filter corrects is a chart of the states; one step of nominal propagation is differentiable in it and its derivative is F up to second order in the time step, for every state and every pair of samples.", "quantifier": "all states, samples and error directions", "why_tests_cant": "a derivative and a limit, not a value", "anchors": ["eskf_vio_backend/src/propagate/sequence_propagator.cpp#PropagateQueue::PropagateFullErrorStateCovariance", "eskf_vio_backend/src/propagate/sequence_propagator.cpp#PropagateQueue::PropagateMotionNominalState", "eskf_vio_backend/src/update/multi_view_vision_update.cpp#MultiViewVisionUpdate::UpdateState"]}
{"id": "C90", "title": "The steps of the iterative triangulation", "statement": "In exact arithmetic every weight is positive and no residual pulls by more than 0.02; the damped normal matrix is positive definite; with a correct solver each trial step descends on the weighted squared error; the inner loop stops at the first step that lowers the plain cost or after eleven; an exact start is returned. Weights exceed one for residuals between 0.01 and 0.02, and the plain acceptance test can reject every robust step.", "quantifier": "all views, points and solvers", "why_tests_cant": "derivatives and all real values", "anchors": ["eskf_vio_backend/src/geometry/trianglation.cpp#Trianglator::TrianglateIterative", "eskf_vio_backend/src/geometry/trianglation.cpp#Trianglator::CumputeJacobian"]}
{"id": "C91", "title": "An update does not disturb an exact estimate", "statement": "If all observations of the tracked features are exact projections at the estimated poses and the queue is dead reckoning, a measurement update leaves states, biases, extrinsics and frame poses as they are, whatever features it selects and whatever the noise and the covariance.", "quantifier": "all window contents, covariances, noise levels and random scores", "why_tests_cant": "real-valued geometry over windows of any size", "anchors": ["eskf_vio_backend/src/update/multi_view_vision_update.cpp#MultiViewVisionUpdate::Update", "eskf_vio_backend/src/update/multi_view_vision_update.cpp#MultiViewVisionUpdate::ConstructMeasurementFunction", "eskf_vio_backend/src/update/multi_view_vision_update.cpp#MultiViewVisionUpdate::UpdateState"]}
{"id": "C92", "title": "No noise, no error", "statement": "In a world without noise, in which each image is taken at the time of the sample with which the filter aligns it, once the state of the filter is the truth it stays the truth: after every well-formed history of calls every published state is the true motion at its time and the biases are the true ones, however many images are processed and marginalised.", "quantifier": "all API histories, all noise-free worlds", "why_tests_cant": "unbounded histories over real-valued geometry", "anchors": ["eskf_vio_backend/src/backend/backend.cpp#Backend::RunOnce", "eskf_vio_backend/src/update/multi_view_vision_update.cpp#MultiViewVisionUpdate::Update", "eskf_vio_backend/src/propagate/sequence_propagator.cpp#PropagateQueue::ResetOrigin", "eskf_vio_backend/src/data_manager/vision_data/frame_manager.cpp#FrameManager::AddNewFrame"]}
{"id": "C93", "title": "Euler angles", "statement": "For a unit quaternion whose first axis is not vertical, turning by the three angles of QuaternionToEuler about the fixed axes x, y, z in this order is its rotation; angles are in degrees up to 4e-7 and within half (quarter) a turn. At the exception different rotations have equal angles.", "quantifier": "all unit quaternions", "why_tests_cant": "all real values", "anchors": ["eskf_vio_backend/include/utility/math_lib.hpp#Utility::QuaternionToEuler"]}
{"id": "C94", "title": "Camera rotations are read as written", "statement": "A rotation matrix in a camera file becomes a unit quaternion that rotates every vector as the matrix does; converting a unit quaternion to a matrix and back gives it or its negative.", "quantifier": "all rotation matrices, all unit quaternions", "why_tests_cant": "all real values, all four branches of the conversion", "anchors": ["eskf_vio_backend/src/config/config.cpp#Configurator::LoadConfig", "eskf_vio_backend/src/backend/backend_config.cpp#Backend::ConfigParams"]}
{"id": "C95", "title": "Initial poses", "statement": "EstimateFramePose starts at the pose of camera 0 of the frame and stores the body pose whose camera 0 has the pose found. In exact arithmetic Initialize succeeds exactly when the two image times differ, an attitude is found and ten features of the second image have a position and are seen by camera 0. A body at rest, seen without noise, gets the same pose in both images, velocity zero and the estimator's attitude.", "quantifier": "all windows, poses, extrinsics and solvers", "why_tests_cant": "real-valued geometry over windows of any size", "anchors": ["eskf_vio_backend/src/backend/backend_initialize.cpp#Backend::EstimateFramePose", "eskf_vio_backend/src/backend/backend_initialize.cpp#Backend::Initialize", "eskf_vio_backend/src/backend/backend_initialize.cpp#Backend::TrianglizeMultiView"]}
{"id": "C96", "title": "The demo pushes what its files say", "statement": "When every line is complete, the demo program pushes exactly the messages of its IMU and camera files, in order, each file up to and including the first line whose shifted time exceeds the limit of 100 (data time 99), and then calls RunOnce and PublishPropagateState once per IMU line; its result is decided by the results of these calls. A line with too few numbers is a message whose missing fields keep the values of the line before.", "quantifier": "all files, number scanners and backends", "why_tests_cant": "files of any length", "anchors": ["apps/test_eskf_vio_backend.cpp#LoadIMUData", "apps/test_eskf_vio_backend.cpp#LoadFeaturesData", "apps/test_eskf_vio_backend.cpp#main"]}
{"id": "C97", "title": "The demo has defined behaviour", "statement": "With complete files, fewer than 2^32 - 2 images and at least two configured cameras (as in the shipped configuration) the demo program meets no undefined behaviour. An incomplete first line is an uninitialised read; a single configured camera is an index out of range.", "quantifier": "all files, solver results and random numbers", "why_tests_cant": "undefined behaviour on all executions", "anchors": ["apps/test_eskf_vio_backend.cpp#main", "apps/test_eskf_vio_backend.cpp#LoadIMUData", "apps/test_eskf_vio_backend.cpp#LoadFeaturesData"]}
{"id": "C98", "title": "The demo saves every published state", "statement": "SavePose reads its six vectors inside their bounds. With ordered IMU times the file holds every published state in order of time up to the first whose position is not a number; the test for time running back never fires.", "quantifier": "all runs of the program", "why_tests_cant": "runs of any length", "anchors": ["apps/test_eskf_vio_backend.cpp#main", "apps/test_eskf_vio_backend.cpp#SavePose"]}
{"id": "C99", "title": "The demo consumes its data", "statement": "One RunOnce per buffered IMU sample leaves nothing in the loader if and only if the images can be matched in order with samples of their own, each with the first sample that is not before it and less than one period later; further calls find nothing.", "quantifier": "all loader contents", "why_tests_cant": "queues of any length", "anchors": ["apps/test_eskf_vio_backend.cpp#main", "eskf_vio_backend/src/data_manager/data_loader.cpp#DataLoader::PopOneMessage", "eskf_vio_backend/src/backend/backend.cpp#Backend::RunOnce"]}
{"id": "C100", "title": "The demo shows what the configured cameras see", "statement": "For unit quaternions and points outside the focal planes, the observations the demo computes are exactly the projections into the cameras that the shipped configuration files describe, from the body pose that belongs to the pose of camera 0.", "quantifier": "all poses and points", "why_tests_cant": "all real values", "anchors": ["apps/test_eskf_vio_backend.cpp#LoadFeaturesData", "eskf_vio_backend/src/config/config.cpp#Configurator::LoadConfig", "eskf_vio_backend/src/backend/backend_config.cpp#Backend::ConfigParams"]}
{"id": "C101", "title": "What is certain stays as it is", "statement": "The covariance starts at zero. So in every history the camera extrinsics stay the configured ones, although they are part of the estimated state; and the first frame of the window stays at the origin, with its first attitude, until it is dropped or the filter fails.", "quantifier": "all histories of calls, solvers and data", "why_tests_cant": "histories of any length", "anchors": ["eskf_vio_backend/src/propagate/sequence_propagator.cpp#PropagateQueue::Propagate", "eskf_vio_backend/src/update/multi_view_vision_update.cpp#MultiViewVisionUpdate::UpdateState", "eskf_vio_backend/src/update/multi_view_vision_update.cpp#MultiViewVisionUpdate::ReduceCameraCovariance", "eskf_vio_backend/src/backend/backend.cpp#Backend::RunOnce"]}
{"id": "C102", "title": "Moves of the whole world cannot be observed", "statement": "Shifting, turning and stretching the whole world, frames, points and camera mounts alike, changes no predicted observation. To first order such a move is invisible to every row of the measurement, wherever the features were triangulated; uncertainty made of such moves changes neither gain nor correction and is not reduced.", "quantifier": "all windows, poses, features, covariances and moves", "why_tests_cant": "directions in a space of any size", "anchors": ["eskf_vio_backend/src/update/multi_view_vision_update.cpp#MultiViewVisionUpdate::ConstructMeasurementFunction", "eskf_vio_backend/src/update/multi_view_vision_update.cpp#MultiViewVisionUpdate::UpdateState"]}
{"id": "C103", "title": "The triangulation test and what it shows", "statement": "The six poses of the triangulation test see the set point in front of them, and the linear method returns it exactly, so the first test prints the same point twice. The second test prints the estimate twice and never the set point, so it shows agreement for every solver, also for one that does nothing.", "quantifier": "all solvers and singular vectors", "why_tests_cant": "any external solver", "anchors": ["apps/test_trianglate.cpp#TestTrianglateAnalytic", "apps/test_trianglate.cpp#TestTrianglateIterative"]}
{"id": "C104", "title": "The PnP test has a known answer", "statement": "The PnP test sees 729 points from a known pose and spoils at most 7 observations. It ends if the random numbers reach every index again and again. The true pose scores all points that are not spoiled, at least 722; if the search over samples tries it, it is returned. For the plain and the weighted method the true pose is never a fixed point: every spoiled pair pulls to the same side.", "quantifier": "all streams of random numbers and solvers", "why_tests_cant": "any stream of random numbers", "anchors": ["apps/test_pnp.cpp#main", "eskf_vio_backend/src/geometry/perspective_n_point.cpp#PnPSolver::EstimatePoseRANSAC"]}
{"id": "C105", "title": "The heading of the world frame is a convention", "statement": "Turn the state of a running filter about gravity: positions, velocities, attitudes, landmarks and the covariance. Then every later history of calls hands out exactly the turned states, with the same return values, biases and times, and meets undefined behaviour in the same cases. The filter needs no heading and cannot find one.", "quantifier": "all reachable states, all turns about gravity, all histories of calls and data", "why_tests_cant": "pairs of executions of any length", "anchors": ["eskf_vio_backend/src/backend/backend.cpp#Backend::RunOnce", "eskf_vio_backend/src/propagate/sequence_propagator.cpp#PropagateQueue::Propagate", "eskf_vio_backend/src/update/multi_view_vision_update.cpp#MultiViewVisionUpdate::UpdateState", "eskf_vio_backend/src/backend/backend_initialize.cpp#Backend::Initialize", "eskf_vio_backend/src/propagate/attitude_estimate.cpp#AttitudeEstimate::Propagate"]}
{"id": "C106", "title": "Attitudes are unit quaternions in every history", "statement": "Once a first IMU sample has started the attitude filter, every attitude in the propagation queue, in the attitude filter and in the window of an initialised filter, and every published attitude, is a unit quaternion after every defined history of calls.", "quantifier": "all histories of calls, solvers and data", "why_tests_cant": "histories of any length", "anchors": ["eskf_vio_backend/src/backend/backend.cpp#Backend::RunOnce", "eskf_vio_backend/src/propagate/sequence_propagator.cpp#PropagateQueue::Propagate", "eskf_vio_backend/src/update/multi_view_vision_update.cpp#MultiViewVisionUpdate::UpdateState", "eskf_vio_backend/src/backend/backend.cpp#Backend::PublishPropagateState", "eskf_vio_backend/src/propagate/attitude_estimate.cpp#AttitudeEstimate::Propagate"]}
{"id": "C107", "title": "The triangulated point moves along with the world", "statement": "When all camera positions are displaced by one vector, the point the linear triangulation returns is displaced by the same vector, for every correct singular value decomposition.", "quantifier": "all correct singular value decompositions, poses, observations and displacements", "why_tests_cant": "real values and any external decomposition", "anchors": ["eskf_vio_backend/src/geometry/trianglation.cpp#Trianglator::TrianglateAnalytic"]}
{"id": "C108", "title": "The epoch of the clock is a convention", "statement": "Let all time stamps of a history, and those in the state, be moved by one constant, in an arithmetic where that changes no difference and no comparison. Then every history of calls gives the same outcomes, with the same moments of undefined behaviour, and the same published states, whose times are moved by the constant. This holds from program start and for the loader alone.", "quantifier": "all histories of calls, data, scalar types and shifts", "why_tests_cant": "pairs of executions of any length", "anchors": ["eskf_vio_backend/src/data_manager/data_loader.cpp#DataLoader::PopOneMessage", "eskf_vio_backend/src/backend/backend.cpp#Backend::RunOnce", "eskf_vio_backend/src/propagate/sequence_propagator.cpp#PropagateQueue::Propagate", "eskf_vio_backend/src/propagate/attitude_estimate.cpp#AttitudeEstimate::Propagate", "eskf_vio_backend/src/backend/backend.cpp#Backend::PublishPropagateState"]}
{"id": "C109", "title": "Attitudes stay normalised under rounding", "statement": "In floating point arithmetic with rounding, underflow, overflow and NaN: after every defined history from the configured start, every attitude in the attitude filter and in the propagation queue, and every published attitude, is a unit quaternion up to ten rounding errors, or contains NaN, or is zero. The error does not grow with the number of samples. One step from a unit attitude with a rotation vector of at most 1000 per component gives a unit attitude.", "quantifier": "all floating point formats with a relative error of at most 1/1000, all histories, solvers and data", "why_tests_cant": "histories of any length in any precision", "anchors": ["eskf_vio_backend/src/propagate/attitude_estimate.cpp#AttitudeEstimate::Propagate", "eskf_vio_backend/src/propagate/sequence_propagator.cpp#PropagateQueue::Propagate", "eskf_vio_backend/src/update/multi_view_vision_update.cpp#MultiViewVisionUpdate::UpdateState", "eskf_vio_backend/src/backend/backend.cpp#Backend::PublishPropagateState", "eskf_vio_backend/include/utility/math_lib.hpp#Utility::DeltaQ"]}
{"id": "C110", "title": "An attitude that is not a number stays so", "statement": "In floating point arithmetic: once the newest attitude of the attitude filter contains NaN, it contains NaN after every later history of calls, Reset included. A single sample with a NaN, or in exact free fall, brings this about, and so does a NaN in the first sample, which passes the check of its length. When the device starts exactly level, every attitude that is ever published contains NaN.", "quantifier": "all floating point formats, all histories of calls, solvers and data", "why_tests_cant": "histories of any length in any precision", "anchors": ["eskf_vio_backend/src/propagate/attitude_estimate.cpp#AttitudeEstimate::Propagate", "eskf_vio_backend/src/backend/backend.cpp#Backend::RunOnce", "eskf_vio_backend/src/backend/backend.cpp#Backend::Reset", "eskf_vio_backend/src/backend/backend.cpp#Backend::PublishPropagateState", "eskf_vio_backend/src/backend/backend_initialize.cpp#Backend::Initialize"]}
{"id": "C111", "title": "Old attitudes are discarded", "statement": "After every handled image the attitude queue holds no attitude that is older than the newest frame by more than the IMU period, and the propagation queue of a running filter no state that is older than the image by more than the period, so the memory used does not grow with the running time.", "quantifier": "all histories of calls, solvers and data", "why_tests_cant": "unbounded running time", "anchors": ["eskf_vio_backend/src/backend/backend.cpp#Backend::RunOnce", "eskf_vio_backend/src/propagate/attitude_estimate.cpp#AttitudeEstimate::CleanOldItems", "eskf_vio_backend/src/propagate/sequence_propagator.cpp#PropagateQueue::ResetOrigin"]}
{"id": "C112", "title": "Window, map and covariance stay small", "statement": "With a window of N frames and a tracker that reports at most M features per image, at every point between two calls the window has at most N frames, the map at most N*M features with at most N observations each, a frame at most M links, and the covariances have exactly the size that the cameras and the frames in the window need.", "quantifier": "all histories of well-formed messages without Reset, all solvers and data", "why_tests_cant": "unbounded running time; a leak of features or covariance rows shows only after a long run", "anchors": ["eskf_vio_backend/src/backend/backend.cpp#Backend::RunOnce", "eskf_vio_backend/src/data_manager/vision_data/feature_manager.cpp#FeatureManager::RemoveByFrameID", "eskf_vio_backend/src/update/multi_view_vision_update.cpp#MultiViewVisionUpdate::ReduceCameraCovariance"]}
{"id": "C113", "title": "The order of the hash maps does not matter", "statement": "The feature map and the map of every frame are hash maps, whose iteration order the standard leaves open. Whatever that order is, and even if it is another one after every change of a map, every history of calls returns the same values, as long as no image has more features than an update may use and the random scores differ.", "quantifier": "all histories of a well-formed tracker, all reorderings after every change, all data, exact arithmetic", "why_tests_cant": "a test runs with the one hash function and bucket count of its library", "anchors": ["eskf_vio_backend/src/data_manager/vision_data/feature_manager.cpp#FeatureManager::RemoveByFrameID", "eskf_vio_backend/src/update/multi_view_vision_update.cpp#MultiViewVisionUpdate::SelectGoodFeatures", "eskf_vio_backend/src/data_manager/vision_data/frame_manager.cpp#FrameManager::IsKeyFrame", "eskf_vio_backend/src/backend/backend_initialize.cpp#Backend::EstimateFramePose", "eskf_vio_backend/src/backend/backend.cpp#Backend::RunOnce"]}
{"id": "C114", "title": "Shared message objects", "statement": "Messages are pushed as shared pointers: the loader changes the time stamp inside the caller's object, keeps a pointer to it, and hands the last sample of a packet out while it stays in the queue. A caller that hands every object over once, leaves it alone afterwards and pushes no null pointer cannot tell this from a loader that copies every message; a caller that pushes one object twice, or into two loaders, or changes a popped sample, can.", "quantifier": "all histories of actions on any number of loaders, all contents of the message objects, all scalar types", "why_tests_cant": "all histories of a caller that reuses objects", "anchors": ["eskf_vio_backend/src/data_manager/data_loader.cpp#DataLoader::PushIMUMessage", "eskf_vio_backend/src/data_manager/data_loader.cpp#DataLoader::PushFeaturesMessage", "eskf_vio_backend/src/data_manager/data_loader.cpp#DataLoader::PopOneMessage", "eskf_vio_backend/src/data_manager/data_loader.cpp#DataLoader::PopPackedMessage"]}
{"id": "C115", "title": "Packets tile the IMU stream", "statement": "For every history in which messages leave the loader in packets: each packet begins with the sample that the packet before ends with; the packets joined at these samples, followed by the queue, are the accepted IMU messages in push order with samples put in between at image times only; with increasing times they are in order of time; and the durations of the packets add up, so no time is lost or integrated twice.", "quantifier": "all histories of pushes and packet requests since program start or a Clear, any other loaders besides", "why_tests_cant": "unbounded histories; the boundary sample is either made or taken from the stream", "anchors": ["eskf_vio_backend/src/data_manager/data_loader.cpp#DataLoader::PopPackedMessage", "eskf_vio_backend/src/data_manager/data_loader.cpp#DataLoader::PushIMUMessage"]}
{"id": "C116", "title": "PnP passes are Gauss-Newton steps", "statement": "The normal equation of the PnP solvers is built from the derivative of the reprojection errors, with weight one or the robust weight and without points next to the focal plane. It always has a solution; a solution minimises the weighted squared errors as predicted to first order; along it the weighted squared errors fall, with slope zero only where no correction changes them. The passes end at the first correction shorter than the limit.", "quantifier": "all point lists, poses and weights; exact arithmetic for the minimum, every scalar type for the end", "why_tests_cant": "all real-valued inputs; a wrong sign or weight in one entry still converges on easy data", "anchors": ["eskf_vio_backend/src/geometry/perspective_n_point.cpp#PnPSolver::EstimatePose", "eskf_vio_backend/src/geometry/perspective_n_point.cpp#PnPSolver::EstimatePoseKernel"]}
{"id": "C117", "title": "Feature ids are only names", "statement": "What a history of calls returns depends on the feature ids only through which of them are equal: any other ids that keep different landmarks apart give the same results and the same undefined behaviour. In the middle of a run only the ids that a frame of the window or a queued message has must be kept, so an id may be given to a new landmark once none of them has it. Merging two landmarks under one id can keep the filter from initialising.", "quantifier": "all histories of calls, all renamings, all scalar types; all orders of the hash maps for a well-formed tracker", "why_tests_cant": "all id assignments; ids also decide hash order, so a test fixes both at once", "anchors": ["eskf_vio_backend/src/data_manager/vision_data/feature_manager.cpp#FeatureManager::AddNewFeatures", "eskf_vio_backend/src/data_manager/vision_data/frame_manager.cpp#FrameManager::IsKeyFrame", "eskf_vio_backend/src/backend/backend.cpp#Backend::RunOnce", "eskf_vio_backend/src/data_manager/vision_data/feature_manager.cpp#FeatureManager::RemoveByFrameID"]}
{"id": "C118", "title": "Reset adds no undefined behaviour", "statement": "Reset may be called at any point of a well-formed history, any number of times: the later calls meet no undefined behaviour other than the read through a removed queue slot of C68, although Reset leaves states, window and attitudes of the old run in place. While states of the old run are queued, an initialisation that succeeds does not use the state it computes: it appends to the old states, and what PublishUpdateState reports is unchanged.", "quantifier": "all histories of well-formed tracker messages with Reset calls anywhere, all sensor values, solver results and parameters within 32 bits", "why_tests_cant": "needs an invariant for the mixture of an old queue with a new window, over all interleavings", "anchors": ["eskf_vio_backend/src/backend/backend.cpp#Backend::Reset", "eskf_vio_backend/src/backend/backend_initialize.cpp#Backend::InitializePropagator", "eskf_vio_backend/src/update/multi_view_vision_update.cpp#MultiViewVisionUpdate::ConstructCovariance"]}
{"id": "C119", "title": "The filter falls back only when IMU data are missing", "statement": "A RunOnce takes a running filter back to initialisation exactly when it handles an image and every queued state, as well as the IMU sample taken in the same call, is older than the image by more than the IMU period; what the images show plays no part. If the IMU samples are pushed in time order and every image after a sample that is not newer and at most the IMU period older, a filter that has once started runs to the end of the history.", "quantifier": "all well-formed histories without Reset and RunOnceTest, all sensor values, solver results and parameters within 32 bits", "why_tests_cant": "needs an invariant over samples that are pushed, queued, handled or rejected, for histories of any length", "anchors": ["eskf_vio_backend/src/backend/backend.cpp#Backend::RunOnce", "eskf_vio_backend/src/propagate/sequence_propagator.cpp#PropagateQueue::ResetOrigin", "eskf_vio_backend/src/data_manager/data_loader.cpp#DataLoader::PopOneMessage", "eskf_vio_backend/src/update/multi_view_vision_update.cpp#MultiViewVisionUpdate::Update"]}
{"id": "C120", "title": "Two successive good images start the filter", "statement": "If a call handles an image and leaves the filter idle, and a later call handles the next image, the filter runs after that call whatever came before, provided: the times of the images differ; ten features are in both images, their points are determined by the cameras of the first and are seen by camera 0 in the second; the attitude filter has started and holds two attitudes, one near the first image and one not too old for the second. With IMU data that keep up with the images, it then runs to the end of the history.", "quantifier": "all well-formed histories without Reset, exact arithmetic, noise-free observations in the first image, any number of cameras, any pose solver", "why_tests_cant": "liveness over all histories that precede the pair of images, including failed attempts", "anchors": ["eskf_vio_backend/src/backend/backend_initialize.cpp#Backend::Initialize", "eskf_vio_backend/src/backend/backend.cpp#Backend::RunOnce", "eskf_vio_backend/src/propagate/attitude_estimate.cpp#AttitudeEstimate::GetAttitude", "eskf_vio_backend/src/geometry/trianglation.cpp#Trianglator::TrianglateAnalytic"]}
{"id": "C121", "title": "Camera order of an observation", "statement": "An observation keeps the coordinates of its cameras in a hash map, whose iteration order the standard leaves open; it decides the order of the rows of the triangulation and of the measurement of a feature, and so what is handed to the matrix decompositions. Whatever that order is, every history of calls returns the same values, provided that the landmarks an update uses are seen along two rays that are not parallel and that the singular vector the library returns is determined by the inner products of the columns, up to its sign.", "quantifier": "all histories of a well-formed tracker, all orders of the cameras in every observation, any number of cameras, exact arithmetic", "why_tests_cant": "a test runs with the one hash function and bucket count of its library", "anchors": ["eskf_vio_backend/src/update/multi_view_vision_update.cpp#MultiViewVisionUpdate::ConstructMeasurementFunction", "eskf_vio_backend/src/update/multi_view_vision_update.cpp#MultiViewVisionUpdate::TrianglizeMultiFrame", "eskf_vio_backend/src/backend/backend_initialize.cpp#Backend::TrianglizeMultiView"]}
{"id": "C122", "title": "Several backends in one process", "statement": "Backends in one process share the time of the last sample, that of the last image, and gravity. When all of them are configured with the same gravity, each before it is used, and the times of all samples given to the process increase, as do those of all images, each backend returns exactly what it would return as the only backend of a process, and the process meets undefined behaviour only where one of them would alone. Otherwise they disturb each other: a sample or image that is not later than the last one given to any backend is dropped although the call returns true, and configuring one backend replaces the gravity of all.", "quantifier": "all histories of calls on any number of backends, all scalar types and arithmetics", "why_tests_cant": "all interleavings of calls on any number of objects; a test has one backend in its process", "anchors": ["eskf_vio_backend/src/data_manager/data_loader.cpp#DataLoader::PushIMUMessage", "eskf_vio_backend/src/data_manager/data_loader.cpp#DataLoader::PushFeaturesMessage", "eskf_vio_backend/src/backend/backend_config.cpp#Backend::ConfigParams", "eskf_vio_backend/src/config/config.cpp#Configurator::GetInstance"]}
{"id": "C123", "title": "Gravity corrects the attitude at rest", "statement": "On a device at rest, whose accelerometer measures gravity and whose gyroscope measures only its bias, every sample turns the attitude of the estimator towards the one that fits gravity, so that the error of the start dies out.", "quantifier": "all tilts, gains, sampling times and numbers of samples, exact arithmetic", "why_tests_cant": "the sign of a feedback shows only in the long run, and a level device hides it", "anchors": ["eskf_vio_backend/src/propagate/attitude_estimate.cpp#AttitudeEstimate::Propagate"]}
{"id": "C124", "title": "The bias random walk does not depend on the sampling rate", "statement": "Over a propagation of span t the variance of every component of both biases grows by the square of the configured random walk deviation times t, however many IMU samples the span is divided into.", "quantifier": "all sampling times, sensor values, numbers of samples and noise parameters, exact arithmetic", "why_tests_cant": "a test runs at one rate; the error is a factor that depends on the rate", "anchors": ["eskf_vio_backend/src/propagate/sequence_propagator.cpp#PropagateQueue::Propagate", "eskf_vio_backend/src/propagate/sequence_propagator.cpp#PropagateQueue::InitializeProcessNoiseMatrix", "eskf_vio_backend/src/propagate/sequence_propagator.cpp#PropagateQueue::PropagateFullErrorStateCovariance", "eskf_vio_backend/src/backend/backend_config.cpp#Backend::ConfigParams"]}
{"id": "C125", "title": "An observation informs the filter once", "statement": "Every camera observation enters the measurement of at most one update, so that its information is counted once in the covariance.", "quantifier": "all windows, histories of window operations, observations, solvers and covariances", "why_tests_cant": "the covariance stays a covariance and the state moves towards the observation either way; only the accumulated weight is wrong", "anchors": ["eskf_vio_backend/src/update/multi_view_vision_update.cpp#MultiViewVisionUpdate::ConstructMeasurementFunction", "eskf_vio_backend/src/update/multi_view_vision_update.cpp#MultiViewVisionUpdate::SelectGoodFeatures", "eskf_vio_backend/src/update/multi_view_vision_update.cpp#MultiViewVisionUpdate::UpdateState", "eskf_vio_backend/src/data_manager/vision_data/feature_manager.cpp#FeatureManager::RemoveByFrameID"]}
{"id": "C126", "title": "Dead reckoning converges to the true motion", "statement": "For every motion whose angular rate and specific force are bounded and change at bounded speed, the state that the propagator computes from samples of an IMU with known constant biases differs from the true attitude, velocity and position by at most the error it started with, carried on in time, plus constants times the largest step between samples; started from the truth it converges to the truth when the rate goes up.", "quantifier": "all such motions, all sampling times, all spans, exact arithmetic", "why_tests_cant": "a limit over sampling rates, for all motions", "anchors": ["eskf_vio_backend/src/propagate/sequence_propagator.cpp#PropagateQueue::PropagateMotionNominalState", "eskf_vio_backend/src/propagate/sequence_propagator.cpp#PropagateQueue::Propagate", "eskf_vio_backend/include/utility/math_lib.hpp#Utility::DeltaQ"]}
{"id": "C127", "title": "A turn about a fixed axis is integrated short", "statement": "While the device turns about an axis fixed in it, the propagated attitude is exactly the one of the start turned about that axis, by the sum of 2 atan(x/2) over the angles x of the steps: never more than the true angle for rates that are not negative, short of it by at most the sum of the cubes over twelve, and strictly short whenever the device turns; never more than half a turn per step.", "quantifier": "all axes, rate profiles, sampling times, biases and accelerometer samples, exact arithmetic", "why_tests_cant": "an error of relative size x²/12 is below the tolerance of a test", "anchors": ["eskf_vio_backend/src/propagate/sequence_propagator.cpp#PropagateQueue::PropagateMotionNominalState", "eskf_vio_backend/include/utility/math_lib.hpp#Utility::DeltaQ"]}
{"id": "C128", "title": "The correction is proportional to the residual, however large it is", "statement": "For a given covariance and Jacobian the gain and the new covariance do not depend on the residual, and the correction is linear in it; so, whenever the measurements tell anything about the state, some residual moves it further than any bound and leaves the same covariance as a residual of zero: no measurement is turned down for being surprising.", "quantifier": "all covariances, Jacobians, residuals and noises above the cut-off of the inverse, every library that meets its contract, exact arithmetic", "why_tests_cant": "the absence of a consistency test shows only for outliers that nobody put in a data set", "anchors": ["eskf_vio_backend/src/update/multi_view_vision_update.cpp#MultiViewVisionUpdate::UpdateState"]}
{"id": "C129", "title": "The newest state drifts from the truth no faster than dead reckoning", "statement": "In every history: for a motion whose angular rate and specific force are bounded and change at bounded speed, and for queued samples that are at most a given step apart and, with the published biases removed, off the truth by bounded amounts, the newest published state has errors of at most those of the updated state carried on over the time between them, plus constants times the step and the sensor errors.", "quantifier": "all histories of calls, all such motions, samples, biases and states, exact arithmetic", "why_tests_cant": "a bound over all motions and all histories", "anchors": ["eskf_vio_backend/src/backend/backend.cpp#Backend::PublishPropagateState", "eskf_vio_backend/src/backend/backend.cpp#Backend::PublishUpdateState", "eskf_vio_backend/src/propagate/sequence_propagator.cpp#PropagateQueue::PropagateMotionNominalState", "eskf_vio_backend/src/propagate/sequence_propagator.cpp#PropagateQueue::Repropagate"]}
{"id": "C130", "title": "Features in one batch or one after the other", "statement": "The filter step on two blocks of measurement rows stacked gives the same covariance and the same correction as a step on the first block followed by one on the second, when the residual of the second block is reduced by what the first correction predicts for it.", "quantifier": "all covariances, also singular ones, Jacobians, residuals, sizes of the blocks and noises above the cut-off of the inverse, every library that meets its contract, exact arithmetic", "why_tests_cant": "compares two different organisations of the update on all inputs", "anchors": ["eskf_vio_backend/src/update/multi_view_vision_update.cpp#MultiViewVisionUpdate::UpdateState"]}
{"id": "C131", "title": "Only ratios of variances matter", "statement": "When all variances of the state and the variance of the measurements are multiplied by the same factor, the correction of the state stays the same and the new covariance is multiplied by that factor.", "quantifier": "all factors, covariances, Jacobians, residuals and noises above the cut-off of the inverse, every library that meets its contract, exact arithmetic", "why_tests_cant": "relates runs with different parameters on all inputs", "anchors": ["eskf_vio_backend/src/update/multi_view_vision_update.cpp#MultiViewVisionUpdate::UpdateState"]}
{"id": "C132", "title": "Diagnostics tell the truth", "statement": "Printing the configuration after it was read, messages built with the constructor, packets, features, frames and their managers is defined, and what is printed is what they hold: a feature shows an observation for a frame and a camera exactly when the tracker reported it in the message of that frame, also when the track was interrupted; the tests for a negative diagonal of the covariance stay quiet.", "quantifier": "all configurations, messages, histories of the window and of the backend; exact arithmetic for the covariance", "why_tests_cant": "nobody compares log output with the state on all histories", "anchors": ["eskf_vio_backend/src/data_manager/data_typedef.cpp#FeaturesMessage::Information", "eskf_vio_backend/src/data_manager/data_typedef.cpp#CombinedMessage::Information", "eskf_vio_backend/src/data_manager/vision_data/feature_manager.cpp#Feature::Information", "eskf_vio_backend/src/data_manager/vision_data/feature_manager.cpp#FeatureManager::Information", "eskf_vio_backend/src/data_manager/vision_data/frame_manager.cpp#FrameManager::Information", "eskf_vio_backend/src/config/config.cpp#Configurator::Information", "eskf_vio_backend/src/update/multi_view_vision_update.cpp#MultiViewVisionUpdate::UpdateState"]}
{"id": "C133", "title": "Where the world is, is neither learned nor used", "statement": "Add the covariance of a common shift of all positions, of the IMU and of the frames in the window, to the joint covariance of a running filter: it returns the same values as before in every later history, and as long as it stays initialised the covariance stays larger by exactly that term; so the variance of the position never falls below it, whatever is measured.", "quantifier": "all symmetric 3x3 covariances of the shift, all states reached by well-formed histories, all later well-formed histories, every library that meets its contract, exact arithmetic", "why_tests_cant": "compares two infinite families of runs that differ in a quantity nobody sees; a wrong block of the transition matrix, of the Jacobian, of the augmentation or of the marginalisation would let the filter gain false certainty slowly", "anchors": ["eskf_vio_backend/src/update/multi_view_vision_update.cpp#MultiViewVisionUpdate::Update", "eskf_vio_backend/src/update/multi_view_vision_update.cpp#MultiViewVisionUpdate::ExpandCameraCovariance", "eskf_vio_backend/src/update/multi_view_vision_update.cpp#MultiViewVisionUpdate::ReduceCameraCovariance", "eskf_vio_backend/src/propagate/sequence_propagator.cpp#PropagateQueue::Propagate"]}
{"id": "C134", "title": "Rounding does not make the covariance asymmetric", "statement": "In floating point the covariance of the filter stays symmetric to the last bit: entry (i, j) and entry (j, i) are the same number, after every update and after every propagation, also when entries overflow or are NaN.", "quantifier": "all updates and propagations from all states, every floating point arithmetic with correctly rounded operations, all results of the decompositions", "why_tests_cant": "an asymmetry of one unit in the last place is below the tolerance of any numerical test, yet the LDLT and the marginalisation read only one triangle and the error feeds back into every later step; which order of operations is symmetric under rounding is a question about all matrices", "anchors": ["eskf_vio_backend/src/update/multi_view_vision_update.cpp#MultiViewVisionUpdate::UpdateState", "eskf_vio_backend/src/update/multi_view_vision_update.cpp#MultiViewVisionUpdate::ExpandCameraCovariance", "eskf_vio_backend/src/propagate/sequence_propagator.cpp#PropagateQueue::Propagate"]}
{"id": "C135", "title": "The uncertainty of the heading stays an uncertainty of the heading", "statement": "A turn of the world about gravity cannot be observed, so an uncertainty of that kind must stay of that kind: the transition matrix maps the error of a state in a turned world to the error of the next state in the world turned in the same way.", "quantifier": "all states with unit attitude, all samples and time steps, all axes along gravity", "why_tests_cant": "compares the transition matrix with the nominal propagation along one direction; the differences are of the second order in the time step and show only as a filter that slowly becomes too sure of its heading", "anchors": ["eskf_vio_backend/src/propagate/sequence_propagator.cpp#PropagateQueue::Propagate", "eskf_vio_backend/src/propagate/sequence_propagator.cpp#PropagateQueue::PropagateMotionNominalState"]}
{"id": "C136", "title": "The clock of the filter is as good at any epoch", "statement": "With double time stamps and single precision scalars the time steps of the propagation add up to the elapsed time with a relative error of at most 2^-23, however large the time stamps are and however many samples there are; as long as the time does not double between two samples each step is the elapsed time correctly rounded, and from the first second on no two samples at different times give a step of zero.", "quantifier": "all epochs, all numbers of samples in time order, all spacings up to 2^100 s", "why_tests_cant": "an error appears only at large time stamps and after long runs; converting the stamps before the subtraction would pass every test that starts at time zero", "anchors": ["eskf_vio_backend/src/propagate/sequence_propagator.cpp#PropagateQueue::PropagateMotionNominalState", "eskf_vio_backend/src/propagate/sequence_propagator.cpp#PropagateQueue::Propagate"]}
{"id": "C137", "title": "Variances do not become negative by rounding", "statement": "In floating point no diagonal entry of the covariance becomes negative, neither in the propagation nor in the update, so the test of the covariance never prints its error.", "quantifier": "all samples, times and states for the propagation, all covariances and measurement equations for the update, single precision", "why_tests_cant": "the sign is lost only where the measurement is much better than the prior, by one unit in the last place of the gain; whether any input does so is a question about all floating point inputs", "anchors": ["eskf_vio_backend/src/update/multi_view_vision_update.cpp#MultiViewVisionUpdate::UpdateState", "eskf_vio_backend/src/propagate/sequence_propagator.cpp#PropagateQueue::Propagate"]}
{"id": "C138", "title": "The interpolated sample is a mixture of its neighbours, also under rounding", "statement": "In every history of calls, when a packet gets a sample at the time of the features that was not received, the division is by a positive number, both weights lie between zero and one and add up to one within 2^-22, and each component is within a few roundings of the mixture of the neighbouring samples with these weights: it is finite and not larger than the larger of the two up to a few roundings.", "quantifier": "all histories of calls on any number of loaders, double time stamps, single precision samples up to 2^100", "why_tests_cant": "close time stamps at large epochs lose digits in the subtraction; that the quotient cannot leave the interval from zero to one is a question about all pairs of doubles", "anchors": ["eskf_vio_backend/src/data_manager/data_loader.cpp#DataLoader::PopPackedMessage"]}
{"id": "C139", "title": "The position follows the velocity, also under rounding", "statement": "In floating point the position moves by the velocity times the elapsed time, up to an error that does not grow with the distance from the origin; in particular a motion at constant velocity is not lost however slow it is.", "quantifier": "all histories of calls and all samples for the error of the position, all numbers of samples for the constant motion, single precision", "why_tests_cant": "the loss appears only far from the origin and at high sample rates, and only after many samples; every test near the origin passes", "anchors": ["eskf_vio_backend/src/propagate/sequence_propagator.cpp#PropagateQueue::PropagateMotionNominalState"]}
{"id": "C140", "title": "The timer reports the elapsed time", "statement": "The times that a timer reports add up to the time since it was made, and each is the elapsed time in milliseconds, not negative, with a relative error of at most 2^-23.", "quantifier": "all sequences of calls and clock readings whose differences fit in 64 bits; double and single precision", "why_tests_cant": "a test cannot set the clock of the machine and sees only short times", "anchors": ["eskf_vio_backend/src/utility/tick_tock.cpp#TickTockTimer::TickTock"]}
