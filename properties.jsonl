{"id": "C01", "title": "Time stamps survive conversion to and from nanoseconds", "statement": "Converting a normalised time stamp (nanosecond field below one billion) to a 64-bit nanosecond count and back gives the same time stamp, and converting any nanosecond count whose seconds part fits 32 bits to a time stamp and back gives the same count; the nanosecond field of a stamp built from nanoseconds is always below one billion. Counts outside that range come back reduced modulo 2^32 seconds.", "quantifier": "every normalised time stamp and every 64-bit nanosecond count", "why_tests_cant": "the domain has 2^64 values and the interesting ones sit at the 32-bit truncation boundary", "anchors": ["common/simple_time.h: SimpleTime::ToNanoSec", "common/simple_time.cc: SimpleTime::FromNanoSec"]}
{"id": "C02", "title": "Time stamp arithmetic and ordering agree with the nanosecond line", "statement": "The four order comparisons of two time stamps agree with the order of their nanosecond counts; adding is addition of nanosecond counts while it fits; subtracting never goes below zero (it saturates) and otherwise is exact; subtracting what was added gives the original back; dividing by a positive integer divides the nanosecond count, dividing by zero leaves the stamp unchanged. Equality is compatible with the order: two stamps are equal exactly when neither is before the other, and equality is transitive.", "quantifier": "every pair (triple) of normalised time stamps and every 32-bit divisor", "why_tests_cant": "pairs and triples of stamps are unbounded in practice and the equality tolerance only shows on stamps one nanosecond apart", "anchors": ["common/simple_time.cc: operator+,operator-,operator/=,operator==,operator<"]}
{"id": "C03", "title": "PCL time conversion loses less than a microsecond", "statement": "A PCL header stamp (microseconds) converted to a local time stamp and back is unchanged whenever it is below 2^32 seconds; a local stamp converted to PCL time and back is never later than the original and less than one microsecond earlier; the conversion is monotone.", "quantifier": "every 64-bit PCL stamp and every normalised local stamp", "why_tests_cant": "truncation errors occur only at particular sub-microsecond remainders and wrap-around only near the top of the range", "anchors": ["common/simple_time.h: ToLocalTime, ToPclTime"]}
{"id": "C04", "title": "Time stamp search brackets the query", "statement": "On a time-ordered sequence with at least two samples the search returns two adjacent valid positions; when the query lies between the first and the last sample the sample at the first position is not later than the query and the sample at the second position is not earlier. A query on a sequence of fewer than two samples stops the process instead of returning positions.", "quantifier": "every sample sequence of every length and every query time", "why_tests_cant": "the claim ranges over all lengths and all query positions including ties and the end points", "anchors": ["common/simple_time.h: TimeStampBinarySearch"]}
{"id": "C05", "title": "Bresenham voxel casting walks from start to end", "statement": "Casting a ray between any two voxels terminates, starts at the start voxel, ends exactly at the end voxel (its internal end check never fires), visits one more voxel than the largest axis distance, moves at most one step per axis and exactly one step on the longest axis between consecutive voxels, never leaves the bounding box of the two end voxels, and every visited voxel is within half a voxel (rounded up) of the straight line on every axis.", "quantifier": "every pair of integer voxel coordinates", "why_tests_cant": "off-by-one errors in error accumulators depend on the exact ratio of the three axis lengths; there are infinitely many", "anchors": ["common/math.cc: VoxelCastingBresenham"]}
{"id": "C06", "title": "DDA voxel casting walks from start to end", "statement": "The DDA caster has the same guarantees as the Bresenham caster: it starts at the start voxel, ends exactly at the end voxel, visits max-axis-distance + 1 voxels, moves by unit steps, never leaves the bounding box of the end points and stays within half a voxel of the straight line on every axis.", "quantifier": "every pair of integer voxel coordinates", "why_tests_cant": "same as for Bresenham: the end check is a run-time abort that would only fire on particular axis ratios", "anchors": ["common/math.cc: VoxelCastingDDA"]}
{"id": "C07", "title": "A cube is partitioned by its eight sub-cubes", "statement": "The index reported for a point is -1 exactly when the point is outside the cube; otherwise it is between 0 and 7 and the sub-cube with that index contains the point. The eight sub-cubes have half the edge length, lie inside the cube, cover it, and have pairwise disjoint interiors.", "quantifier": "every axis-aligned cube with positive size and every point (exact arithmetic)", "why_tests_cant": "boundary points on the splitting planes and corners form a measure-zero set random tests never hit", "anchors": ["common/bounding_box.cc: CubicBox::GenerateSubBoxes, GetSubBoxIndexForPoint, ContainsPoint"]}
{"id": "C08", "title": "The octree neither loses nor duplicates points", "statement": "After building an octree, every point inside the root cube lies in exactly one leaf, with the same multiplicity it had in the input, and inside that leaf's cube; every leaf either holds at most the configured number of points or sits at the maximal depth; no leaf is deeper than the maximal depth. Points outside the root cube are reported in no leaf.", "quantifier": "every point list, every root cube, every depth limit and leaf capacity", "why_tests_cant": "needs induction over tree depth and all point distributions", "anchors": ["common/octree.cc: Octree::BuildTree, InitWithPointCloud, RecursiveOutput"]}
{"id": "C09", "title": "Saved clouds are read back unchanged", "statement": "Writing a cloud to its binary form and reading it back into any cloud object gives exactly the same stamp and the same points in the same order (x, y, z, intensity, factor bit for bit).", "quantifier": "every cloud of every size and every content, and every previous content of the receiving object", "why_tests_cant": "round-trip over unbounded content; tests use a handful of random clouds", "anchors": ["builder/data/cloud_types.cc: InnerCloudType::Serialize, Deserialize, InnerPointType::Serialize, Deserialize"]}
{"id": "C10", "title": "A damaged cloud file is reported, not silently accepted", "statement": "Reading a file that is a strict prefix of a written cloud file (for example after a crash during writing) reports failure.", "quantifier": "every cloud and every truncation point (crash point) of its file", "why_tests_cant": "every crash point of every file would have to be enumerated", "anchors": ["builder/data/cloud_types.cc: InnerCloudType::Deserialize, InnerPointType::Deserialize"]}
{"id": "C11", "title": "Swapping a cloud to disk and back is invisible", "statement": "Over any sequence of save, clear, reload-if-needed, transform and read operations on a cloud holder, a read returns the points the holder logically has: the initial points with all transforms applied so far, regardless of when the data was swapped out and reloaded.", "quantifier": "every operation sequence", "why_tests_cant": "the order of save, transform and clear matters and the number of sequences is unbounded", "anchors": ["builder/data/cloud_types.cc: InnerPointCloudData::Clear, SaveToFile, CloudInMemory, TransformCloud"]}
{"id": "C12", "title": "Transforming and concatenating clouds keep their structure", "statement": "Transforming a cloud keeps the number and order of points, every point's intensity and factor and (into an output cloud) the stamp, and moves every position by exactly the given transform; transforming by the identity changes nothing; transforming by A then B equals transforming by B*A. Appending a cloud keeps all earlier points and appends the new ones in order without changing the stamp.", "quantifier": "every cloud and all rigid (affine) transforms, in exact arithmetic", "why_tests_cant": "algebraic laws over all transforms and sizes", "anchors": ["builder/data/cloud_types.cc: TransformPoint, InnerCloudType::ApplyTransformInplace, ApplyTransformToOutput, operator+="]}
{"id": "C13", "title": "Surface normals are directions", "statement": "Transforming a cloud with normals rotates each normal by the rotation part only; in particular a pure translation leaves all normals unchanged and unit normals stay unit.", "quantifier": "every cloud with normals and every rigid transform", "why_tests_cant": "depends on the translation part; tests with rotations about the origin never see it", "anchors": ["builder/data/cloud_types.cc: EigenPointCloud::ApplyTransform"]}
{"id": "C14", "title": "Normal estimation partitions the points", "statement": "The recursive split used for normal estimation assigns every point of the cloud to exactly one group, every group has between 1 and 7 points (for a non-empty cloud), groups are consecutive ranges of one permutation of the point indices, at most one point per group is kept, and the compacted cloud lists kept points in increasing original order, each with its own position and normal.", "quantifier": "every cloud size, every choice of split axis and every partition the selection algorithm may produce", "why_tests_cant": "the nth_element result is unspecified; every admissible permutation at every level must be covered", "anchors": ["builder/data/cloud_types.cc: BuildNormals, EigenPointCloud::CalculateNormals"]}
{"id": "C15", "title": "GPS samples are stored in time order with a fixed reference", "statement": "After any sequence of GPS messages, no sample is stored before the first message with a fixed solution; the reference is set by that message and never changes; the stored samples are exactly the messages from that one on, in arrival order, with strictly increasing stamps; a message that does not advance time stops the process rather than being stored.", "quantifier": "every history of GPS messages (any stamps, any fix status)", "why_tests_cant": "quantifies over all message histories", "anchors": ["builder/data/data_collector.cc: DataCollector::AddSensorData(GpsMsg)"]}
{"id": "C16", "title": "Interpolated GPS positions lie between their neighbours", "statement": "A successful GPS query at time t returns a point on the segment between the two stored samples bracketing t, divided in the ratio of the time differences (the sample itself when t is a sample time); both samples have a fixed solution and are at most 0.2 s apart. A query outside the stored time range, or in an empty buffer, returns nothing. Querying with trimming never changes the result of any later query at or after t.", "quantifier": "every stored GPS sequence and every query time", "why_tests_cant": "all sequences, query positions and later queries", "anchors": ["builder/data/data_collector.cc: DataCollector::InterpolateGps"]}
{"id": "C17", "title": "Trimming sensor data never removes data that is still needed", "statement": "Trimming a sensor buffer at time t removes only samples older than t, keeps the order, and afterwards interpolation at any time from t on gives the same result as before the trim.", "quantifier": "every sensor buffer and trim time", "why_tests_cant": "the sample just before the trim time matters only for queries between it and the next one", "anchors": ["builder/data/data_collector.cc: TRIM_DATA, TrimGpsData, TrimImuData"]}
{"id": "C18", "title": "Accumulated clouds contain exactly their inputs", "statement": "With an accumulation count of n, the k-th cloud handed to pre-processing contains exactly the points of input clouds k*n .. k*n+n-1 in order and carries the stamp of the first of them; every point's factor is its relative position in the cloud, at least 0 and strictly below 1 and increasing; no input is used twice.", "quantifier": "every sequence of incoming clouds and every accumulation count of at least 1", "why_tests_cant": "all streams and group sizes", "anchors": ["builder/data/data_collector.h: DataCollector::AddSensorData(point cloud)"]}
{"id": "C19", "title": "The cloud queue delivers every cloud once and in order", "statement": "Under every interleaving of the sensor thread (adding clouds), the pre-processing thread and the consumer, the clouds delivered are a prefix of the clouds added, in order and without duplicates, each filtered exactly once; and when shutdown is requested every cloud added before it is eventually delivered.", "quantifier": "every schedule of the three threads and every shutdown point", "why_tests_cant": "all schedules", "anchors": ["builder/data/data_collector.cc: CloudPreProcessing, GetNewCloud, ~DataCollector", "builder/map_builder.cc: ScanMatchProcessing"]}
{"id": "C20", "title": "Filters split the cloud into inliers and outliers", "statement": "After a filter has processed a cloud, inlier and outlier index lists are strictly increasing, disjoint and together list every input index exactly once; the output cloud consists of exactly the inlier points in input order and carries the input stamp.", "quantifier": "every input cloud, filter configuration and random choice, for the range, axis-range, bounding-box, random-sampling, ground-removal and range-image filters", "why_tests_cant": "all clouds and all outcomes of the random source", "anchors": ["pre_processors/filter_range.cc", "pre_processors/filter_axis_range.cc", "pre_processors/filter_bounding_box.cc", "pre_processors/filter_random_sample.cc", "pre_processors/filter_ground_removal.cc", "pre_processors/filter_ground_removal2.cc", "pre_processors/filter_range_image.cc"]}
{"id": "C21", "title": "Filters keep exactly the points their parameters say", "statement": "The range filter keeps a point iff its distance from the origin is in the closed interval [min, max]; the axis-range filter keeps it iff its coordinate on the configured axis is in the closed interval; the bounding-box filter keeps it iff it is outside the closed box.", "quantifier": "every cloud and every parameter setting, exact arithmetic", "why_tests_cant": "boundary values of the closed intervals", "anchors": ["pre_processors/filter_range.cc: Range::Filter", "pre_processors/filter_axis_range.cc: AxisRange::Filter", "pre_processors/filter_bounding_box.cc: BoundingBoxRemoval::Filter"]}
{"id": "C22", "title": "Filtering twice gives the same answer", "statement": "Calling the filter a second time on the same input gives the same output cloud and the same inlier and outlier lists as the first call (deterministic filters).", "quantifier": "every input cloud and parameter setting, any number of repeated calls", "why_tests_cant": "state left behind by a previous call shows only for particular parameter settings", "anchors": ["pre_processors/filter_axis_range.cc", "pre_processors/filter_random_sample.cc", "pre_processors/filter_range.cc", "pre_processors/filter_range_image.cc"]}
{"id": "C23", "title": "A filter chain is the composition of its filters", "statement": "The output of a configured chain is the last filter's output of ... of the first filter's output, in configuration order; unknown filter names are skipped; with no filter the output equals the input; if every filter keeps a sub-sequence of its input so does the chain; the output stamp is the input stamp.", "quantifier": "every chain configuration and every input cloud", "why_tests_cant": "all chain lengths and combinations", "anchors": ["pre_processors/filter_factory.cc: Factory::InitFromXmlNode, Factory::Filter", "pre_processors/filter_statistic_removal.cc"]}
{"id": "C24", "title": "Voxel-grid down-sampling keeps one averaged point per occupied voxel", "statement": "The output has exactly one point per voxel that contains at least one input point, that point is the mean of the input points of the voxel (positions and intensity), it lies in the same voxel, and the total of count-weighted output positions equals the total of the input positions; the output is never larger than the input and is empty only if the input is.", "quantifier": "every cloud and every positive voxel size, exact arithmetic, every iteration order of the hash table", "why_tests_cant": "all clouds and hash iteration orders", "anchors": ["pre_processors/filter_voxel_grid.cc: VoxelGrid::Filter"]}
{"id": "C25", "title": "The static map's voxel probabilities and point lists stay in range", "statement": "After any sequence of cloud insertions every stored voxel has an occupancy value within the clamping range, between 1 and the configured maximal number of points, its maximal intensity is at least every stored point's intensity, and its update flag is set between insertions.", "quantifier": "every sequence of inserted clouds and sensor positions and every admissible setting", "why_tests_cant": "invariant over unbounded insertion histories", "anchors": ["builder/multi_resolution_voxel_map.cc: MultiResolutionVoxelMap::InsertPointCloud, Initialise"]}
{"id": "C26", "title": "Map insertion updates exactly the voxels on the rays", "statement": "Inserting a cloud raises (never lowers) the occupancy of every voxel containing one of its points, lowers (never raises) only voxels that lie on a ray before its end point and contain no point of this cloud, changes no other voxel, creates voxels only where points end, and each voxel is raised or lowered according to whether it is hit in this insertion.", "quantifier": "every cloud, every sensor position and every prior map", "why_tests_cant": "depends on all combinations of ray overlaps and insertion orders", "anchors": ["builder/multi_resolution_voxel_map.cc: InsertPointCloud"]}
{"id": "C27", "title": "Frames are grouped into submaps without loss or overlap", "statement": "For a frame count of n >= 1 submap k contains exactly the key frames k*n .. k*n+n-1 in order, with frame index equal to the position in the submap, submap index k and the trajectory's index; no frame belongs to two submaps; a submap accepts exactly n frames; looking up a frame by its id returns that frame.", "quantifier": "every number of key frames and every n", "why_tests_cant": "all stream lengths and group sizes", "anchors": ["builder/submap.cc: Submap::InsertFrame, GetFrame", "builder/map_builder.cc: SubmapProcessing"]}
{"id": "C28", "title": "All frames reach a submap before the back end finishes", "statement": "Under every schedule of the scan-matching thread and the submap thread, when the submap thread ends every complete group of n key frames has been turned into a submap.", "quantifier": "every interleaving of the two threads", "why_tests_cant": "a lost group needs a preemption between reading the frame count and reading the running flag", "anchors": ["builder/map_builder.cc: ScanMatchProcessing, SubmapProcessing"]}
{"id": "C29", "title": "Every submap is connected and optimised exactly once", "statement": "Under every schedule of the submap thread, the pair-matching workers and the connecting thread, each finished submap is added to the optimiser exactly once, in index order and only after its predecessor's transform is known, its global pose is the predecessor's pose composed with the predecessor's transform to next, and when processing ends all submaps have been added.", "quantifier": "every interleaving and every number of submaps", "why_tests_cant": "schedules; the loss needs a preemption between two reads", "anchors": ["builder/map_builder.cc: ConnectAllSubmap, SubmapPairMatch, SubmapProcessing"]}
{"id": "C30", "title": "Frame poses follow their submap", "statement": "Inserting a frame gives it the local pose that, composed with the submap's pose, gives back the frame's global pose; after the submap's pose is changed and the frames are updated, every frame's global pose is the new submap pose composed with the unchanged local pose, so relative poses inside a submap never change.", "quantifier": "every sequence of frame insertions and pose updates over any group of rigid motions", "why_tests_cant": "algebraic law over all pose sequences", "anchors": ["builder/submap.cc: Submap::InsertFrame, UpdateInnerFramePose"]}
{"id": "C31", "title": "A swapped-out submap still returns its points", "statement": "With disk saving enabled, over every sequence of memory-manager ticks and accesses, asking a submap for its cloud returns the points it was built with; clouds are swapped out only after the submap has been matched and saved and only after more than the configured delay without access. A handle obtained from the submap keeps its points while the caller holds it.", "quantifier": "every sequence of ticks (any step) and accesses, every delay setting", "why_tests_cant": "timing-dependent histories", "anchors": ["builder/submap.cc: Submap::Cloud, UpdateInactiveTime, SetMatchedTransformedToNext", "builder/memory_manager.cc"]}
{"id": "C32", "title": "Saved file names never collide", "statement": "Two submaps with different ids are saved under different file names, two frames with different ids are saved under different names, and no frame shares a name with a submap; map pieces with different grid positions have different names.", "quantifier": "every pair of ids (any integers) and every file name prefix", "why_tests_cant": "pairs of ids with digit-boundary ambiguities are sparse", "anchors": ["builder/submap.cc: Submap::SetId, SetMatchedTransformedToNext", "builder/frame.cc: FrameId::DebugString", "builder/map_package.cc"]}
{"id": "C33", "title": "Ids order maps correctly", "statement": "Frame ids and submap ids are strictly totally ordered by their comparison (irreflexive, transitive, total with respect to equality) and the order is lexicographic on trajectory, submap, frame, so they can key ordered containers.", "quantifier": "every triple of ids", "why_tests_cant": "an order defect shows only for particular triples", "anchors": ["builder/frame.cc: FrameId::operator<, operator==", "builder/submap.cc: SubmapId::operator<, operator=="]}
{"id": "C34", "title": "Separated map output covers every submap exactly once", "statement": "With separated output and a positive step, the parts written together contain every submap exactly once, in order, each part holds consecutive submaps and at most `step` of them, only the last part may be shorter, and part numbers are distinct and consecutive from zero.", "quantifier": "every number of submaps and every positive step", "why_tests_cant": "all sizes and steps", "anchors": ["builder/map_builder.cc: MapBuilder::SaveMaps"]}
{"id": "C35", "title": "Map packages cover the mapped area and can be joined again", "statement": "The pieces of a map package together cover the whole bounding box of the trajectory (with border): every map point inside it is in at least one piece; every point in a piece, moved back by that piece's centre, is a map point inside the bounding box; pieces have distinct grid positions and the description file lists exactly the pieces.", "quantifier": "every set of submap positions, border, piece width and every point, exact arithmetic", "why_tests_cant": "coverage at piece borders and for arbitrary ratios of map size to piece width", "anchors": ["builder/map_package.cc", "tools/join_pieces.cc"]}
{"id": "C36", "title": "The thread pool runs every accepted task exactly once", "statement": "Under every interleaving of callers, workers and destruction, a task accepted by the pool is executed exactly once, tasks are started in the order accepted, a task submitted after shutdown began is rejected with an error and never executed, and when the destructor returns all accepted tasks have finished.", "quantifier": "every schedule, every number of workers and tasks", "why_tests_cant": "all schedules", "anchors": ["common/simple_thread_pool.h: ThreadPool"]}
{"id": "C37", "title": "Loop candidates are old enough and close enough", "statement": "Every pair proposed as a loop closure joins the newest frame with a frame that is at least the configured number of frames older (or inside the search window) and within the configured horizontal and vertical distances; all reported frame indices are valid; no candidate is reported twice; at most the configured number of candidates plus the closest one are reported.", "quantifier": "every sequence of frames, positions and settings", "why_tests_cant": "all trajectories", "anchors": ["back_end/loop_detector.cc: LoopDetector::AddFrame, SetSearchWindow"]}
{"id": "C38", "title": "The loop state machine accepts loops only after repeated evidence", "statement": "A loop closure is attempted only in the continuous-loop state, that state is entered only after the configured number of consecutive frames with candidates, and it is left as soon as a frame has no candidate; closing never aborts for lack of candidates.", "quantifier": "every sequence of candidate counts and every threshold", "why_tests_cant": "all histories of a five-state machine with counters", "anchors": ["back_end/loop_detector.cc: LoopDetector::AddFrame"]}
{"id": "C39", "title": "Accepted loop edges are mutually consistent", "statement": "A set of loop edges is accepted only if it has at least two edges and any two of them differ by no more than twice the stated tolerance in implied translation and rotation; whether a set is accepted does not depend on the order of the remaining edges.", "quantifier": "every set of candidate edges", "why_tests_cant": "all edge sets", "anchors": ["back_end/loop_detector.cc: LoopDetector::CheckResult"]}
{"id": "C40", "title": "The pose graph never holds dangling edges", "statement": "After any sequence of vertex and edge insertions every edge of the view graph joins two existing vertices, vertex insertion never drops edges, an edge is ignored exactly when an end point is missing, and the reported bounding box is the smallest box containing all vertex positions ever inserted.", "quantifier": "every operation sequence", "why_tests_cant": "all histories, including maps lying entirely in the negative quadrant", "anchors": ["back_end/view_graph.cc: ViewGraph::AddVertex, AddEdge, ctor"]}
{"id": "C41", "title": "GPS constraints are neither lost nor duplicated", "statement": "Every GPS observation given to the optimiser before the GPS coordinate frame is solved is applied once when it is solved, and every later one is applied exactly when it falls on the sampling step.", "quantifier": "every sequence of frames with and without GPS", "why_tests_cant": "all histories around the initialisation frame", "anchors": ["back_end/isam_optimizer.cc: IsamOptimizer::AddFrame"]}
{"id": "C42", "title": "ICP outlier rejection keeps the requested share of matches", "statement": "The distance limit used to reject matches is a finite match distance such that at least the requested share of matches have a distance at most the limit; every match within the limit is used and none above it; the number of points entering the solver equals the number of accepted matches.", "quantifier": "every non-empty list of match distances and every ratio in [0,1]", "why_tests_cant": "all distance multisets with ties", "anchors": ["registrators/icp_fast.cc: GetDistsQuantile, ErrorElements"]}
{"id": "C43", "title": "ICP alignment terminates within its iteration limit", "statement": "Alignment performs at least one and at most max(1, configured maximum) iterations, stops earlier exactly when the convergence test holds, and the convergence test can only hold after at least four iterations.", "quantifier": "every sequence of iteration results and every limit", "why_tests_cant": "all iteration histories", "anchors": ["registrators/icp_fast.cc: IcpFast::Align, CheckConvergence"]}
{"id": "C44", "title": "Alignment uses the clouds it was given last", "statement": "After setting the source (target) cloud, the next alignment uses that cloud or is refused; it never silently uses an older cloud.", "quantifier": "every sequence of set-source, set-target and align calls", "why_tests_cant": "needs a specific history with an empty cloud in the middle", "anchors": ["registrators/interface.cc: Interface::SetInputSource, SetInputTarget"]}
{"id": "C45", "title": "Pose extrapolation answers from the newest pose", "statement": "A pose query at the stamp of the newest added pose returns that pose; a query before it stops the process; the pose queue keeps its poses in insertion order, never drops the newest two, and the oldest kept pose is the latest one that is at least the queue duration old (when one exists).", "quantifier": "every history of added poses and queries", "why_tests_cant": "histories mixing queries and additions at equal stamps", "anchors": ["builder/pose_extrapolator.cc: AddPose, ExtrapolatePose, UpdateVelocitiesFromPoses"]}
{"id": "C46", "title": "Bag playback delivers messages in time order without loss", "statement": "The messages handed out by the buffered bag reader are exactly the messages of the selected topics in recording order; none is skipped or repeated, and when playback ends all of them have been delivered.", "quantifier": "every bag content and every buffer delay", "why_tests_cant": "messages in the last buffer-delay seconds of a recording behave differently", "anchors": ["ros_node/playable_bag.cc", "ros_node/static_mapping_node.cpp"]}
{"id": "C47", "title": "KITTI scans are read completely", "statement": "Reading a KITTI binary scan of m complete points (up to the reader's limit) gives m points in file order with the file's coordinates and intensity scaled by 255; a trailing incomplete point is ignored; successive reads return the files in name order, each once.", "quantifier": "every file content and every file list", "why_tests_cant": "all sizes incl. partial trailing records and the size limit", "anchors": ["ros_node/kitti_reader.cc"]}
{"id": "C48", "title": "Multi-trajectory ids and connections survive storage", "statement": "Packing a submap id into a 64-bit key is injective and the submap index is recovered from the key; writing a submap's connections to the package file and parsing them gives the same list of ids.", "quantifier": "every id with non-negative 32-bit indices and every connection list", "why_tests_cant": "all id pairs and lists", "anchors": ["back_end/multi_trajectory/multi_trajectory_optimizer.cc: SubmapIdToUint64, SubmapIndexFromUint64", "builder/multi_trajectory/multi_trajectory_map_builder.cc: ConnectionsStrToIds", "builder/trajectory.cc: Trajectory::ToXmlNode"]}
{"id": "C49", "title": "Place descriptors count every point once and scores are normalised", "statement": "Each view histogram of the place descriptor counts every point of the cloud exactly once in a valid bin, and is taken in the plane perpendicular to its viewing direction; the match score of two descriptors is symmetric, between 0 and 1, and 1 for a (non-constant) descriptor with itself.", "quantifier": "every cloud and every pair of descriptors of equal length of at least 10, exact arithmetic", "why_tests_cant": "all clouds and descriptor pairs", "anchors": ["descriptor/m2dp.cc: M2dp::singleViewProcess, matchTwoM2dpDescriptors"]}
{"id": "C50", "title": "Configuration parameters reach the filter", "statement": "Initialising a filter from an XML node with its own name sets every listed parameter to the given value and leaves all others at their default; a node naming another filter changes nothing and is reported as failure; in particular a submap's voxel filter runs with the configured voxel size.", "quantifier": "every parameter list", "why_tests_cant": "all parameter lists and name combinations", "anchors": ["pre_processors/filter_interface.cc: Interface::InitFromXmlNode", "pre_processors/xml_interface.h: XmlInterface::SetValue", "builder/submap.cc: Submap::InsertFrame"]}
{"id": "C51", "title": "Directory part of a path and directory creation are stable", "statement": "The directory part of a path is the longest prefix ending in '/', path = directory part + file part with no '/' in the file part; taking the directory part twice changes nothing.", "quantifier": "every string", "why_tests_cant": "all strings incl. those without or consisting only of slashes", "anchors": ["common/file_utils.cc: FilePath, CreateDir"]}
{"id": "C52", "title": "Depth clusters are disjoint connected components", "statement": "Depth clustering terminates, gives every occupied pixel exactly one label, two pixels get the same label iff they are connected by the neighbour relation it was processed with, and reported clusters are disjoint index lists of at least 20 points.", "quantifier": "every range image and segmentation relation", "why_tests_cant": "all images; labelling order and wrap-around columns matter", "anchors": ["pre_processors/filter_range_image.cc: DepthCluster, LabelOneComponent"]}
{"id": "C53", "title": "Exported maps contain exactly the voxels above the threshold", "statement": "Exporting the voxel map with an occupancy threshold writes, for exactly the voxels whose occupancy reaches the threshold, either all their points or one mean point, with the voxel's maximal intensity if so configured; it never stops the program, and it leaves voxels, occupancies and point positions unchanged.", "quantifier": "every reachable map, every threshold in [0,1], every traversal order of the hash table", "why_tests_cant": "all maps and thresholds", "anchors": ["builder/multi_resolution_voxel_map.cc: MultiResolutionVoxelMap::OutputToPointCloud"]}
{"id": "C54", "title": "The optimiser's pose graph is complete and is what is exported", "statement": "For every sequence of submaps the optimiser stops nowhere, and is given exactly one anchor (the first submap's pose), exactly one constraint between each two consecutive submaps (the transform stored with the later one) and exactly the edges of the accepted loops; the exported graph and the submaps' connection lists contain exactly these constraints, and every submap gets the optimiser's latest pose.", "quantifier": "every sequence of submaps, with and without loops, odometry and GPS", "why_tests_cant": "all histories of insertions and loop closures", "anchors": ["back_end/isam_optimizer.cc: IsamOptimizer::AddFrame, AddVertex, AddLoopCloseEdge, IsamUpdate, UpdateAllPose"]}
{"id": "C55", "title": "The mapping loop is never stopped by its pose extrapolator", "statement": "Whatever clouds (and, with the IMU enabled, IMU messages) come in, with whatever stamps and in whatever order, and whenever the mapping thread takes a cloud and whatever pose it matches, the pose extrapolator never stops the process and never reads an empty queue or a missing tracker.", "quantifier": "all sequences of arriving clouds and IMU messages with arbitrary stamps, interleaved arbitrarily with the mapping thread taking clouds; all matched poses; both modes", "why_tests_cant": "The checks inside the extrapolator fire only for particular orders of stamps and thread steps; tests feed messages in stamp order from one thread.", "anchors": ["builder/map_builder.cc: MapBuilder::InsertPointcloudMsg, MapBuilder::InsertImuMsg, MapBuilder::ScanMatchProcessing", "builder/pose_extrapolator.cc: PoseExtrapolator::AddPose, AddImuData, ExtrapolatePose, AdvanceImuTracker", "builder/imu_tracker.cc: ImuTracker::Advance"]}
{"id": "C56", "title": "Loading map packages keeps ids, connections and poses", "statement": "Loading a saved map package never stops; it gives back the saved trajectories in order with their submaps' indices, files, connections and poses, in the frame of the first trajectory; after loading further packages the trajectory at position i has id i (also in all its submaps) and every connection still points to the same submap.", "quantifier": "every list of trajectories with any submaps, connections and origins; any number of packages loaded one after another", "why_tests_cant": "Numbering and offsets only go wrong for particular combinations of several packages with several trajectories and different origins.", "anchors": ["builder/multi_trajectory/multi_trajectory_map_builder.cc: LoadBaseMap, LoadIncrementalMap, LoadTrajectoryFromFile", "builder/trajectory.cc: Trajectory::ToXmlNode"]}
{"id": "C57", "title": "Motion compensation moves each point by its share of the motion", "statement": "Removing the motion of the sensor from a cloud keeps its stamp, the number and order of its points, their intensities and scan fractions, and moves a point at fraction f of the scan by the fraction f of the motion (nothing at the start, everything at the end); no cloud that comes from the collector and its filters stops it, and every such cloud is in fact compensated.", "quantifier": "all clouds, all motions, all filter chains", "why_tests_cant": "Holds for each point of every cloud and every motion; an example scan shows one motion only, and whether a filter destroys the fractions depends on the configured chain.", "anchors": ["builder/map_builder.cc: MotionCompensation", "common/math.h: InterpolateTransform", "builder/data/data_collector.h: AddSensorData", "pre_processors/filter_voxel_grid.cc: VoxelGrid::Filter"]}
{"id": "C58", "title": "Every cloud is placed relative to the newest key frame", "statement": "Whatever clouds arrive and whenever the matching thread takes them, it does not stop; each cloud not older than the newest pose is matched against the stored cloud of the newest key frame, starting from the predicted pose relative to it; its pose is the key frame's pose times the result; the motion removed from it is the motion since the cloud before it; it becomes a key frame exactly if it moved far enough from the newest key frame; the stored frames are exactly the key frames, in order, the first at the origin.", "quantifier": "all configurations, all sequences of clouds and stamps, all interleavings with the matching thread, all predictions and all matcher answers", "why_tests_cant": "Depends on the whole history of clouds and on when the thread runs; a test sees one history with one matcher.", "anchors": ["builder/map_builder.cc: MapBuilder::ScanMatchProcessing, MapBuilder::InsertPointcloudMsg, MapBuilder::InsertFrameForSubmap"]}
{"id": "C59", "title": "Odometry is stored relative to the first message and interpolated between neighbours", "statement": "Every odometry message is stored, in arrival order, as the motion since the first message, so the motion between two stored samples is the motion between the two messages. A query between two neighbouring samples at most one second apart returns the pose that lies between them in proportion to time; outside the stored range, or in a longer gap, there is no answer; with a single sample the answer is that sample when it is within the threshold. Trimming removes only the samples before the enclosing pair, and no query stops the program.", "quantifier": "every history of odometry messages, every query time, threshold up to half a second, and trimming on or off", "why_tests_cant": "A test uses a few regularly spaced stamps; equal, out-of-order or nearly equal stamps and every position of the query relative to the samples are infinitely many.", "anchors": ["builder/data/data_collector.cc: AddSensorData(OdomMsg), InterpolateOdom, TimeStampBinarySearch", "common/math.h: InterpolateTransform"]}
{"id": "C60", "title": "Configuration options take effect, and an unusable configuration is refused at the start", "statement": "After a successful start every documented option has the value written in the configuration file, or its documented default when it is not written. A configuration that cannot be worked with (an unknown matcher type, an unknown or missing matcher parameter, an output directory that cannot be made, inconsistent sensor settings) is refused at the start, not in the middle of the mapping. A missing or unreadable file means running with the defaults.", "quantifier": "every configuration file, every option in it, every text an option may hold", "why_tests_cant": "There are over sixty options with arbitrary texts and arbitrary combinations of missing sections; tests load a few hand-written files.", "anchors": ["builder/map_builder_options.cc:MapBuilder::Initialise", "builder/map_builder_options.cc:CheckOptions", "common/macro_defines.h:GET_SINGLE_OPTION", "registrators/interface.cc:CreateMatcher", "registrators/interface.cc:InitWithXml", "builder/map_builder.cc:InitialiseInside"]}
{"id": "C61", "title": "A match between two submaps is used exactly when it is good enough", "statement": "Connecting two successive submaps records the transform found by the matcher when the mean distance of the matched points is at most the distance that the configured minimal score stands for, and otherwise keeps the relative pose known from scan matching; the recorded score lies between zero and one and falls as the distance grows.", "quantifier": "every matcher that can be configured, every pair of submap clouds, every guess, every minimal score", "why_tests_cant": "The outcome depends on the geometry of arbitrary clouds and on the result of iterative methods; tests align a few pairs with one matcher.", "anchors": ["builder/map_builder.cc:MapBuilder::SubmapPairMatch", "registrators/ndt.cc:Ndt::Align", "registrators/ndt_gicp.cc:NdtWithGicp::Align", "registrators/icp_pointmatcher.cc:IcpUsingPointMatcher::Align", "registrators/icp_fast.cc:IcpFast::Align", "registrators/interface.h:GetFitnessScore"]}
{"id": "C62", "title": "The ground filter removes the ground and nothing else", "statement": "With the line-based ground filter a point is removed exactly when it lies within the configured distance of a ground line of its direction (or, where there is none, of a neighbouring direction within the search angle); ground lines run through at least three lowest points of successive distance bins, fit them within the configured error, are no steeper than configured and continue each other in height; points outside the configured distance range are left alone. The filter ends for every cloud and does not stop the program.", "quantifier": "every cloud, every setting of the parameters, every line-fitting method", "why_tests_cant": "Which lines are found depends on the order and the gaps of arbitrary point sets; tests use a handful of recorded scans.", "anchors": ["pre_processors/filter_ground_removal2.cc:GroundRemoval2::SetInputCloud", "pre_processors/filter_ground_removal2.cc:GroundRemoval2::FitLines", "pre_processors/filter_ground_removal2.cc:GroundRemoval2::ClusterGround", "pre_processors/filter_ground_removal2.cc:GroundRemoval2::VerticalDistanceToSegment", "pre_processors/filter_ground_removal2.cc:GroundRemoval2::Filter"]}
{"id": "C63", "title": "A pose written as six numbers is the same pose when read back", "statement": "The angles of a pose mean a roll about x, then a pitch about y, then a yaw about z. Turning any rotation into angles and back gives that rotation, exactly unless its first axis is within a millionth of straight up or down, and then within two millionths in every entry; turning angles of the usual ranges into a rotation and back gives these angles, unless the first axis is that close to vertical. A pose written as six numbers keeps its translation.", "quantifier": "every rotation matrix, every three angles in the usual ranges, every translation (real arithmetic)", "why_tests_cant": "The rotations form a continuum with a singular place where the angles are not unique; tests sample a few rotations away from it.", "anchors": ["common/math.h:RotationMatrixToEulerAngles", "common/math.h:EulerAnglesToQuaternion", "common/math.h:EulerAnglesToRotationMatrix", "common/math.h:TransformToVector6", "common/math.h:Vector6ToTransform"]}
{"id": "C64", "title": "An average of poses lies between them", "statement": "The average of a list of poses has the mean of the translations; the average of equal poses is that pose; the average of two turns about the vertical is the turn half-way between them; an empty list is refused.", "quantifier": "every non-empty list of poses", "why_tests_cant": "Averages of angles misbehave only for pairs on the two sides of a half turn, which recorded data may or may not contain.", "anchors": ["common/math.cc:AverageTransforms", "builder/map_builder.cc:MapBuilder::SubmapPairMatch"]}
{"id": "C65", "title": "The distributions that NDT aligns against describe the target cloud", "statement": "With the matcher \"ndt\" (or \"ndt_gicp\") the target cloud is divided into the cubes of the configured resolution; each occupied cube counts once and has the number and the mean of its points; each cube with at least six points has the covariance of its points, with small eigenvalues raised to a hundredth of the largest, and the inverse of that matrix. A search around a point finds exactly the cubes with enough points whose mean is in reach, whatever clouds were aligned before; no target makes the search undefined.", "quantifier": "every target cloud, every resolution, every sequence of targets given to the same matcher, every query point", "why_tests_cant": "Depends on the arrangement of arbitrary clouds in a grid and on the history of the object; a test aligns one or two dense clouds and only sees whether the result is plausible.", "anchors": ["registrators/pclomp/voxel_grid_covariance_omp_impl.hpp:VoxelGridCovariance::applyFilter", "registrators/pclomp/voxel_grid_covariance_omp.h:VoxelGridCovariance::filter, radiusSearch, Leaf", "registrators/pclomp/ndt_omp.h:setInputTarget, init", "registrators/ndt.cc:Ndt::Align"]}
{"id": "C66", "title": "The derivatives used by the normal distributions matcher are those of its score", "statement": "For every pose, every set of points with the cells found near them and every way of sharing the points among threads, the score, the gradient and the Hessian that the normal distributions matcher computes are the score of the pose and its first and second partial derivatives with respect to the three translations and the three angles. Any outlier ratio between 0 and 1 and any positive resolution give a score for which this is meaningful: the cells attract.", "quantifier": "all poses, point sets, cells with symmetric non-negative inverse covariance, outlier ratios, resolutions, numbers of threads and schedules", "why_tests_cant": "A wrong sign in one of the 69 hand-written coefficients only slows convergence or spoils it for particular attitudes; a test on a few poses near zero never sees it, and a schedule-dependent sum needs every interleaving.", "anchors": ["registrators/pclomp/ndt_omp_impl.hpp: computeDerivatives, computeAngleDerivatives, computePointDerivatives, updateDerivatives, computeTransformation"]}
{"id": "C67", "title": "Matching by normal distributions ends, stays near the guess and does not make things worse", "statement": "For every score function, solver and setting, matching by normal distributions ends after at most two rounds more than the limit, each round moves the pose by nothing or by a length between half the tolerance and the step size in a direction in which the score rises, the returned transformation and score belong to the same pose, that pose is no farther from the guess than the number of rounds times the step size, and its score is not lower than that of the guess.", "quantifier": "all score functions, gradients, Hessians, solvers, settings, guesses", "why_tests_cant": "The number of rounds and the path depend on the score surface; a line search that is skipped or ends wrongly shows only on particular surfaces.", "anchors": ["registrators/pclomp/ndt_omp_impl.hpp: computeTransformation, computeStepLengthMT, trialValueSelectionMT, updateIntervalMT", "registrators/ndt.cc: Ndt::Align"]}
{"id": "C68", "title": "Each step of the fast ICP is the best small rigid motion", "statement": "For every set of matched points, every weights that are not negative and with or without motion compensation, the linear system of a point-to-plane step has a solution, its solutions are exactly the small motions that minimise the weighted sum of squared distances from the target planes, and the step applied is a rigid motion that moves every point as that small motion does up to the square of the turn. If the points are their targets up to one shift and the scene fixes the motion, one step finds the shift exactly.", "quantifier": "all lists of matched points with normals, weights and fractions, and all solvers that solve the system", "why_tests_cant": "A wrong sign or a swapped row in the system makes the result worse only for some scenes; a test compares the result of a few scenes within a tolerance.", "anchors": ["registrators/icp_fast.cc: ComputePointToPlane, CrossProduct, SolvePossiblyUnderdeterminedLinearSystem"]}
{"id": "C69", "title": "The inertial tracker keeps gravity pointing up", "statement": "For every history of turn rates, accelerations and times that do not go back, the orientation kept by the inertial tracker is a rotation that takes the estimated gravity to the vertical, the estimate is never longer than the longest acceleration given (or one), and no reading stops the program.", "quantifier": "all histories of readings, all time constants", "why_tests_cant": "The orientation is the product of all turns so far; an error of one sign or of the order of a product shows only after particular combinations of turns and readings.", "anchors": ["builder/imu_tracker.cc: ImuTracker::Advance, AddImuLinearAccelerationObservation, AddImuAngularVelocityObservation"]}
{"id": "C70", "title": "Inertial messages are used once, in order and at their own time", "statement": "For every history of inertial messages, matched poses and pose guesses, the orientation estimate at a matched pose is built from exactly the messages stamped before it, each used once, in order and at its own time, without made-up observations; a guess for a time is built from exactly the messages stamped before that time; and the estimate does not depend on which poses and guesses were asked for in between.", "quantifier": "all interleavings of messages, poses and guesses that the extrapolator accepts", "why_tests_cant": "Messages are trimmed from a queue on every call; which message is dropped depends on the order of stamps of messages, poses and guesses.", "anchors": ["builder/pose_extrapolator.cc: PoseExtrapolator::AddImuData, AddPose, ExtrapolatePose, AdvanceImuTracker, TrimImuData, InitializeWithImu"]}
{"id": "C71", "title": "Every pose that can be read is a rigid motion", "statement": "Whatever homogeneous matrices are given to the pose setters of frames and submaps, rotations or not, and in whatever order, the poses read back are rigid motions with the shift last given; a rigid motion is read back unchanged, and a matrix within e of a rigid motion in every entry is read back within 24 e of it.", "quantifier": "all sequences of calls and all real matrices", "why_tests_cant": "Rounding errors in chained products produce matrices that are no rotations; a test sees a few of them, while the conversion has four cases with square roots and divisions that could fail on some matrix.", "anchors": ["common/math.h: NormalizeRotation", "builder/frame_base.cc: FrameBase::SetGlobalPose, SetLocalPose, GlobalPose, LocalPose"]}
{"id": "C72", "title": "Calls from several threads never block each other for ever", "statement": "Whatever calls on submaps, clouds and the sensor data any number of threads make, and however they are scheduled, some unfinished thread can always go on, so that all calls end; and while one thread changes a submap or cloud under its exclusive lock, no other thread is inside a locked section of the same object.", "quantifier": "all numbers of threads, all finite lists of calls per thread, all schedules", "why_tests_cant": "Deadlocks need a particular interleaving of the matching threads, the memory manager and the reader; tests see few interleavings.", "anchors": ["common/mutex.h: ReadWriteMutex, ReadMutexLocker, WriteMutexLocker", "builder/submap.cc: Submap::Cloud, UpdateInactiveTime, SetMatchedTransformedToNext, UpdateInnerFramePose, GetFrames, GetFrame", "builder/data/cloud_types.cc: InnerPointCloudData", "builder/memory_manager.cc: MemoryManager::Processing"]}
{"id": "C73", "title": "The map is aligned with GPS coordinates as a whole", "statement": "When a run ends, every submap stands at the pose the optimiser last estimated for it and every frame at its place in its submap; then one single motion is applied to all of them, so that the pose of any frame relative to any other does not change and the saved maps are the unaligned maps moved as a whole. The motion is the estimated GPS frame, and nothing is moved unless GPS is switched on, the optimiser uses GPS and the GPS frame was solved.", "quantifier": "all maps, all sequences of submaps given to the optimiser, all estimates and all settings", "why_tests_cant": "A frame that misses the alignment, or gets it twice, shows only in the combination of GPS settings, number of observations and submap layout; a test has one of each.", "anchors": ["builder/map_builder.cc: MapBuilder::ConnectAllSubmap, CalculateCoordTransformToGps, SaveMaps", "back_end/isam_optimizer.cc: IsamOptimizer::RunFinalOptimazation, UpdateAllPose, GetGpsCoordTransform", "builder/submap.cc: Submap::UpdateInnerFramePose"]}
{"id": "C74", "title": "A sensor that is switched off has no influence, one that is switched on is used", "statement": "For every sequence of public calls the messages collected are exactly those of the sensors that were switched on when they arrived and before the end of the run; with the inertial sensor, clouds are collected from its first message on, and clouds older than the last matched pose are not; if GPS is never switched on, no constraint of the optimiser uses it. The switches hold for the optimiser and the loop detector too.", "quantifier": "all sequences of initialisation, switching, messages and end of run", "why_tests_cant": "The result depends on the order of initialisation, switching and messages; tests use one order.", "anchors": ["builder/map_builder.cc: MapBuilder::MapBuilder, InitialiseInside, InsertPointcloudMsg, InsertImuMsg, InsertOdomMsg, InsertGpsMsg, EnableUsingOdom, EnableUsingGps, FinishAllComputations", "ros_node/static_mapping_node.cpp: main"]}
{"id": "C75", "title": "The exported path lists every frame once, in order", "statement": "For every trajectory the path table has exactly one row per frame, in the order of the submaps and of the frames in them, numbered from zero without gaps; read back by any reader of comma separated numbers, every number of a row agrees with the frame's pose to half a unit of the sixth decimal. The path cloud has the same frames in the same order, the GPS and odometry paths have exactly the positions of the submaps that have one, and files without points are not written.", "quantifier": "all trajectories, all poses with finite numbers", "why_tests_cant": "Text output must be readable for every magnitude and sign of the numbers; tests check a few lines.", "anchors": ["builder/trajectory.cc: Trajectory::OutputPathToPointcloud", "builder/map_builder.cc: MapBuilder::OutputPath"]}
{"id": "C76", "title": "Generalised ICP minimises the distance it measures", "statement": "For all clouds the value and gradient given to the minimiser are the mean squared distance between the moved source points and their partners and its gradient, independently of how the points are shared out among threads; every distance used is a genuine one (symmetric, positive, invertible); partners are looked for at the place where the distance is measured; the alignment ends within the configured number of rounds without reading outside its lists, and its result is a rotation and shift that puts each point where the last minimisation measured it.", "quantifier": "all clouds, guesses, poses, correspondences, thread schedules and minimisers", "why_tests_cant": "A wrong gradient or a partner looked for in the wrong place still converges for guesses near the origin, which is what tests use.", "anchors": ["registrators/pclomp/gicp_omp_impl.hpp: computeCovariances, computeRDerivative, OptimizationFunctorWithIndices::operator(), df, fdf, computeTransformation, applyState"]}
{"id": "C77", "title": "Shared data is not touched by two threads at once", "statement": "Whatever calls the threads of the program make on submaps, clouds, the data collector and the pose extrapolator, and however they are interleaved, no thread changes the frame list, a transform, a frame pose, the points or the file name of a cloud while another reads or changes it.", "quantifier": "all numbers of threads, all lists of calls, all schedules", "why_tests_cant": "A race shows only for particular interleavings, which a test cannot force.", "anchors": ["builder/submap.cc: Submap", "builder/data/cloud_types.cc: InnerPointCloudData", "builder/frame_base.cc: FrameBase::GlobalPose, TransformToNext", "builder/memory_manager.cc: MemoryManager"]}
{"id": "C78", "title": "A cloud is not emptied while it is being matched", "statement": "While the map is built with disk saving on, the key frame the front end aligns against and the two submaps of every alignment under way have their points in memory; every frame and submap has its points when it is combined and when it is saved; no submap gets its transform twice; and no frame is taken from the shared list before it has been put there.", "quantifier": "all interleavings of the front end, submap building, pair matches on a pool, memory manager and other readers; all submap sizes and delays", "why_tests_cant": "Needs a slow match, a quick one and the memory manager to coincide, or two threads to meet inside a push_back.", "anchors": ["builder/map_builder.cc: MapBuilder::ScanMatchProcessing, SubmapProcessing, SubmapPairMatch, ConnectAllSubmap", "builder/submap.cc: Submap::SetMatchedTransformedToNext, UpdateInactiveTime, Cloud", "builder/memory_manager.cc: MemoryManager::Processing", "builder/map_builder.h: frames_"]}
{"id": "C79", "title": "The table of running times counts every execution once", "statement": "With profiling compiled in, the table printed at the end has one line per measured block (or per block and thread), and each line gives the number of executions, their total, least, greatest and average time, for every nesting of blocks and every interleaving of threads.", "quantifier": "all sequences of entering and leaving blocks by any threads, all durations and units", "why_tests_cant": "Lost or doubled counts show up only for particular interleavings and totals.", "anchors": ["common/performance/simple_prof.h: SimpleTimer, TimerManager", "common/performance/simple_prof.cc: GetStatistics, TimerManager::RegisterTimer, TimerManager::~TimerManager"]}
{"id": "C80", "title": "The saved map is the key frames at their final poses", "statement": "Whatever clouds arrive (in order of time), whatever the scan matcher and the optimiser answer, and however the front end and the submap thread are scheduled: the saved map consists of the clouds of the key frames in order, each exactly once, up to the last complete submap; the first key frame of each submap is at the pose estimated for the submap (moved to GPS coordinates if enabled and solved), and every other key frame is placed relative to the one before it exactly as the scan matcher answered.", "quantifier": "All event sequences of the front end, all answers of scan matcher and optimiser, all schedules of the submap thread, all save options with direct saving", "why_tests_cant": "Composes four components over unbounded histories and schedules; a test sees one run and cannot tell a point in the wrong place from a poor match.", "anchors": ["builder/map_builder.cc:ScanMatchProcessing", "builder/map_builder.cc:SubmapProcessing", "builder/map_builder.cc:FinishAllComputations", "builder/map_builder.cc:SaveMaps", "builder/submap.cc:InsertFrame"]}
{"id": "C81", "title": "Where the sensors are mounted does not matter", "statement": "With the true mounting given (from the transform tree or a URDF file), every measurement is brought into the tracking frame: the clouds handed on are the world as seen from the tracking frame, turn rates and accelerations are those of the tracking frame, and at the vehicle's true poses the GPS and odometry constraints expect exactly what the sensors report. The transforms used are the true ones or the program stops.", "quantifier": "All mountings, all motions of the vehicle, all URDF trees, all answers of the transform listener", "why_tests_cant": "The effect of a wrong frame depends on the mounting and the motion; tests use a vehicle whose sensors share one frame, where every convention gives the same result.", "anchors": ["builder/map_builder.cc:InsertPointcloudMsg", "builder/map_builder.cc:InsertImuMsg", "builder/map_builder.cc:SetTrackingToImu", "ros_node/tf_bridge.cc:LoopUpTransfrom", "ros_node/urdf_reader.cc:ReadStaticTransformsFromUrdf", "back_end/isam_optimizer.cc:AddFrame", "builder/data/data_collector.cc:AddSensorData"]}
{"id": "C82", "title": "The GPS frame is solved once the readings determine it", "statement": "The map is related to GPS coordinates for the first time when the configured number of GPS readings have been collected and the vehicle's heading has turned from its first heading by at least the configured angle: at the first frame with a reading for which both hold, with exactly the readings collected before it, and not before. The readings used then fit only one relation between the map and GPS coordinates.", "quantifier": "All sequences of frames, readings and estimated poses; all settings of number and angle", "why_tests_cant": "Whether the readings determine the frame depends on the whole drive up to the moment of solving; tests drive one curve.", "anchors": ["back_end/isam_optimizer.cc: IsamOptimizer::AnalyseAllFramePoseForMaxRotation", "back_end/isam_optimizer.cc: IsamOptimizer::AddFrame", "back_end/isam_optimizer.cc: IsamOptimizer::SolveGpsCorrdAlone"]}
{"id": "C83", "title": "Geometric helper functions compute what they are named for", "statement": "Clamping gives the nearest value of the range; the integer power is the power; a normalised angle difference lies between -\u03c0 and \u03c0 and differs from the argument by whole turns; the distance to a line is the least distance to any of its points; the fitted plane has the least sum of squared distances from the points. Each call returns.", "quantifier": "All arguments: all numbers, exponents, angles, points, directions and point lists", "why_tests_cant": "The arguments range over all numbers; the failing ones (directions that are not of unit length, angles next to \u03c0 in single precision, very large angles) are not the ones a test picks.", "anchors": ["common/math.h: Clamp, Power, NormalizeAngleDifference, DistanceToLine", "common/math.cc: PlaneFitting"]}
{"id": "C84", "title": "Every message of the chosen topics reaches the mapper once, in order and unchanged", "statement": "When the node plays a bag, the mapper receives exactly the messages that are of the right type and on the topic chosen for a sensor (for odometry and GPS only if the sensor's frame is named too), each once and in the order of the bag. Inertial, odometry and GPS messages arrive with the same header, time, vectors, quaternions and covariances; clouds arrive with the same time and exactly their finite points in order.", "quantifier": "All bags (any number of messages of any types and topics), all command lines, all message contents.", "why_tests_cant": "A component swapped in a conversion, a covariance cut short or a message lost at the end of a bag only shows with particular data; tests of the mapper start behind the conversions.", "anchors": ["ros_node/static_mapping_node.cpp: pointcloud_callback, imu_callback, odom_callback, gps_callback, main", "ros_node/msg_conversion.cc: ToLocalHeader, ToLocalTime, ToLocalImu, ToLocalOdom, ToLocalNavSatMsg", "ros_node/playable_bag.cc: GetNextMessage, IsMessageAvailable"]}
{"id": "C85", "title": "What is shown while mapping is the current map", "statement": "After every run of insertions the loop lines that are published are exactly the accepted loop closures between submaps that do not directly follow one another, each once, drawn between the optimiser's latest positions, and publishing them never fails. The published path is the list of the connected submaps' current poses in their order. The local map (before thinning) is exactly the clouds of the connected submaps within 30 m on the ground and 2 m in height of the newest, which is always included. Every submap is shown once, when it is connected, at the pose the optimiser gave it.", "quantifier": "All sequences of submaps and accepted loops, all interleavings of the submap, matching and connecting threads, all positions.", "why_tests_cant": "Which lines and submaps are drawn depends on the whole history of loops and on the interleaving of three threads; nobody compares the picture with the pose graph.", "anchors": ["ros_node/static_mapping_node.cpp: publish_edges, show_submap_function, publish_path", "builder/map_builder.cc: ConnectAllSubmap", "back_end/isam_optimizer.cc: GetWholeGraph, AddFrame"]}
{"id": "C86", "title": "Times are the same in seconds as in nanoseconds", "statement": "Converting a time stamp to seconds gives the nearest number of seconds a double can hold up to half a step (below a quarter of a microsecond until 2038, half until 2106); a later stamp never has fewer seconds, and different durations up to 48 days have different seconds. Converting a number of seconds to a stamp gives a normalised stamp less than two nanoseconds away, and zero for a negative number. The share of the interval between two readings that is used to interpolate GPS and odometry is always between 0 and 1 and right to fourteen digits. A stamp converted to seconds and back is unchanged.", "quantifier": "all normalised time stamps, all doubles, all pairs of readings and all query times between them", "why_tests_cant": "Rounding errors of double arithmetic depend on the magnitude of the stamp; the sampled stamps of a test say nothing about other dates.", "anchors": ["common/simple_time.h: SimpleTime::ToSec", "common/simple_time.cc: SimpleTime::FromSec", "builder/data/data_collector.cc: InterpolateGps, InterpolateOdom"]}
{"id": "C87", "title": "Points of the map are where their frame's pose puts them, to the millimetre", "statement": "A point measured within 200 m of a frame that is within 10 km of the map origin is placed in the map less than 4 mm (per coordinate) from where exact arithmetic would put it, although it is placed with single-precision numbers, also when it is placed in its submap first and then in the map; its intensity and time factor, and the number, order and stamp of the points of a cloud, do not change. In general the error is at most three ten-millionths of the distances involved.", "quantifier": "all poses whose linear part is within one per cent of a rotation, all points and clouds, with or without fused multiply-add", "why_tests_cant": "Single-precision error depends on every bit of the pose and of the point; tests compare a few poses with a tolerance.", "anchors": ["builder/data/cloud_types.cc: TransformPoint, InnerCloudType::ApplyTransformInplace, InnerCloudType::ApplyTransformToOutput", "builder/submap.cc: Submap::InsertFrame", "builder/map_builder.cc: MapBuilder::SaveMaps"]}
{"id": "C88", "title": "The KITTI pose file holds the final poses and can be read back", "statement": "If it is asked for and can be opened, kitti_pose.txt has one line for each submap, in order, with the twelve numbers of the upper three rows of its final pose, row by row, separated by blanks; a reader of decimal numbers gets every number back to eight significant digits (a position within 10 km to a millimetre). There is a line for every scan.", "quantifier": "all trajectories and all finite poses, including tiny and huge entries that are written with an exponent", "why_tests_cant": "Formatting and parsing must agree for every number, including those that round up to the next power of ten; tests print a few.", "anchors": ["builder/map_builder.cc: MapBuilder::OutputPath"]}
{"id": "C89", "title": "The octree keeps every point for every cube, with the rounding of the machine", "statement": "For every centre and size of the cube and every cloud given as double precision numbers, building the octree succeeds, every point inside the cube is found in exactly one leaf, inside that leaf's cube, as often as it was given, and nothing else is in the tree.", "quantifier": "all cubes, all depths and capacities, all clouds, with every rounding of double precision arithmetic and the tolerance of the library's equality check", "why_tests_cant": "whether the corners of a cube survive repeated halving depends on the binary digits of its centre and size; a test with the default cube around the origin never rounds", "anchors": ["common/bounding_box.cc: CubeBoundingBox, GenerateSubBoxes, GetSubBoxIndexForPoint, ContainsPoint", "common/octree.cc: BuildTree, InitWithPointCloud"]}
{"id": "C90", "title": "The static map keeps what stays and drops what moves", "statement": "Whatever was scanned before: if later scans have no point in a small cube and enough of their rays go through it, the exported static map has no point in that cube; if later scans have enough points in it and their rays do not go through it, the exported map has a point in it. The numbers needed do not depend on the history.", "quantifier": "all sequences of scans (any clouds, any positions of the sensor), all cubes, all admissible probabilities and thresholds, one inserting thread", "why_tests_cant": "the values are probabilities rounded down to 256 steps after every ray, so small changes can be lost or add up; which histories end above the threshold cannot be sampled", "anchors": ["builder/multi_resolution_voxel_map.cc: Initialise, InsertPointCloud, OutputToPointCloud", "builder/multi_resolution_voxel_map.h: ProbabilityToOdd, OddToProbability, kTableSize", "config/*.xml: prob_threshold, hit_prob, miss_prob"]}
{"id": "C91", "title": "Casting rays with single precision and 32-bit indices", "statement": "Casting a ray between two points, and inserting clouds into the static map, with the number types of the code: for every two points within 2^23 voxels of the origin nothing overflows, no check fires, and the result is the ray between the voxels containing the two points. A stored point lies in the voxel it is stored under.", "quantifier": "all points, origins, voxel sizes and sequences of clouds", "why_tests_cant": "whether a quotient rounds across a voxel face depends on the last bit of single numbers among 2^32, and overflow needs coordinates no test uses", "anchors": ["common/math.cc: VoxelCastingBresenham, VoxelCastingDDA", "builder/multi_resolution_voxel_map.cc: InsertPointCloud", "common/point_utils.h: FATAL_CHECK_POINT"]}
{"id": "C92", "title": "The static map's probabilities survive single-precision log-odds", "statement": "A voxel's occupancy index, updated by adding single-precision log-odds from a table and converting back with the C library's exponential, is after every history of hits and misses the one exact arithmetic gives, for the hit and miss probabilities of the supplied configurations. For all admissible probabilities a hit never lowers the index, a miss lowers it or leaves it at the lowest, and 205 misses bring any voxel to the bottom.", "quantifier": "all implementations of logarithm, exponential and rounding accurate to 2^-19, all indices, all histories", "why_tests_cant": "agreement depends on how close each of the 206 intermediate values comes to an integer, and on the C library in use", "anchors": ["builder/multi_resolution_voxel_map.cc: InsertPointCloud", "builder/multi_resolution_voxel_map.h: ProbabilityToOdd, OddToProbability"]}
{"id": "C93", "title": "Averaged points stay inside their voxels despite rounding", "statement": "With the float and double arithmetic of the code, the voxel-grid filter writes exactly one point per occupied voxel; the point lies in the box spanned by the voxel's points, falls in the same voxel when the filter is applied again and is within 2^-22 of the largest coordinate from their exact mean. The averaged static map writes one point per voxel that reaches the threshold, within (max_points+1) * 2^-23 of the largest coordinate from the mean of the stored points.", "quantifier": "every cloud, voxel size, hash order, history of inserted scans and threshold, with binary32 / binary64 round to nearest", "why_tests_cant": "rounding only matters for particular coordinates next to voxel faces; a test of a few clouds cannot cover the 2^32 coordinates times the orders of summation", "anchors": ["pre_processors/filter_voxel_grid.cc: VoxelGrid::Filter", "builder/multi_resolution_voxel_map.cc: MultiResolutionVoxelMap::OutputToPointCloud"]}
{"id": "C94", "title": "The command line tools write what was asked for", "statement": "The path table has one row per point of the path cloud, in order, each number to six decimals and whole numbers exactly. The sampler writes a selection of the points in their order, ratio times as many, and all of them for ratio 1. The LAS converter writes every point of the cloud, in order, to half a centimetre, and fails if the cloud cannot be read.", "quantifier": "every cloud, ratio, field layout and number of points", "why_tests_cant": "the failures need clouds of 2^24 or 2^31 points, negative ratios, or field types that no sample file has; rounding depends on the last bit", "anchors": ["tools/path_statistic.cc: main", "tools/pcd_sampler.cc: main", "tools/pcd_to_las.cc: main"]}
{"id": "C95", "title": "A pose between two poses is rigid and moves at constant speed", "statement": "The pose at fraction f between two rigid poses is rigid; it is turned from the first by f times the angle between them, the short way round, and shifted by f times the shift; fractions 0 and 1 give the two poses exactly. Compensating a scan moves each point by the pose at its fraction. Odometry poses are stored as rigid motions relative to the first message.", "quantifier": "every pair of rotations, every fraction, every cloud and every list of odometry messages", "why_tests_cant": "the angle formula has a switch at nearly equal rotations and a sign choice at opposite quaternions, which samples do not hit; the identity must hold for every angle and fraction", "anchors": ["common/math.h: InterpolateTransform", "builder/map_builder.cc: MotionCompensation", "builder/data/cloud_types.cc: EigenPointCloud::ApplyMotionCompensation", "builder/data/data_types.cc: OdomMsg::PoseInMatrix, OdomMsg::SetPose", "builder/data/data_collector.cc: AddSensorData"]}
{"id": "C96", "title": "Invalid measurements neither stop the program nor reach the map", "statement": "Points of a scan whose coordinates are not-a-number or infinite, or absurdly far away, are removed before they reach a submap: with a range filter in the configuration every point that remains has three numbers as coordinates, its distance is within the configured limits up to the rounding of float, and a submap made of such scans is completed with and without the validity check, every point of it a number.", "quantifier": "every scan of every length with any mixture of numbers, infinities and not-a-numbers, every chain of point filters, every pose of a frame within bounds, with and without fused multiply-add", "why_tests_cant": "The behaviour depends on comparisons with not-a-number, on overflow to infinity and on rounding at the limits; a test tries a few bad points, not every position in every chain of filters.", "anchors": ["pre_processors/filter_range.cc: Range::Filter", "pre_processors/filter_axis_range.cc: AxisRange::Filter", "common/bounding_box.cc: BoundingBox::ContainsPoint", "builder/data/cloud_types.cc: TransformPoint", "common/point_utils.h: FATAL_CHECK_CLOUD", "builder/submap.cc: Submap::InsertFrame", "pre_processors/filter_ground_removal.cc: GroundRemoval::SetInputCloud", "static_mapping_node.cpp: pointcloud_callback"]}
{"id": "C97", "title": "The log of the process monitor is right", "statement": "In a build with profiling a thread writes, once a second, the share of the processor in percent, the memory and the virtual memory of the process to a log. With files of /proc as the kernel writes them, every turn writes one line whose sizes are those of the status file and whose share is the part of the time of all processors used by the process since the first reading of the turn, between 0 and 100.", "quantifier": "All texts of the files of /proc, all names of the process, all values of the counters, and all numbers of turns.", "why_tests_cant": "The texts come from the kernel and differ on each machine and in each second; names with blanks, missing files and processes without sizes do not occur in a test run.", "anchors": ["common/performance/process_info.cc: ProcessProfiler::GetItems, GetCpuTotalOccpy, GetCpuProcOccpy, GetProcCpu, GetProcStatus, Run"]}
{"id": "C98", "title": "The plane keeping sampler keeps every plane point and a share of the others", "statement": "RandomSamplerWithPlaneDetect::Filter returns, in the order of the input, every point that lies on a plane (a flat cell on the ground, or an inlier of a segmented plane in a well filled cell above it) and of the other points the configured share, evenly spread, whatever cloud it is given and however often it is called.", "quantifier": "every cloud, sampling rate, leaf size, minimum number of points, every segmentation, and repeated calls on one sampler", "why_tests_cant": "Which points are on a plane depends on the whole cloud, and the behaviour on the state left by earlier calls; a test sees one cloud and one call.", "anchors": ["pre_processors/random_sample_with_plane_detect.h: RandomSamplerWithPlaneDetect::Filter, SetSamplingRate", "pre_processors/plane_detector.h: PlaneDetector::SetInputCloud, Detect"]}
{"id": "C99", "title": "Fusing IMU messages with GPS positions", "statement": "The tracker that fuses IMU messages with GPS positions ties each GPS position's node to the one before by exactly the IMU measurements received between them, integrates the whole time once, starts at rest, and subtracts gravity.", "quantifier": "every history of IMU messages and GPS positions", "why_tests_cant": "The factor graph depends on the whole history; the class has no tests and needs an external optimiser.", "anchors": ["builder/sensor_fusions/imu_gps_tracker.cc: ImuGpsTracker, AddImuData, AddGpsData", "builder/sensor_fusions/imu_gps_tracker.h"]}
{"id": "C100", "title": "Map packages with the code's number types: every point is in a piece and comes back to float resolution", "statement": "With positions in double and points in float as in the code: every map point that lies inside the mapped area (bounding box of the submap positions widened by the border) is handed to the voxel map of a piece whose rectangle contains it, and cutting the map into pieces and joining the pieces gives every kept point back with the same height and an error of at most about (half the width of a piece + the coordinate) * 2^-24 in x and y; points far from the origin come back exactly, and no point appears in the joined map that no piece holds. The program never runs with more pieces than its stack holds.", "quantifier": "all maps (any submaps and clouds), all borders, widths and file prefixes, all voxel maps, all stack sizes", "why_tests_cant": "The rounding of the piece edges and of the two subtractions depends on every position and width; a test compares a few points with a tolerance and never meets a point in the gap a rounded edge leaves.", "anchors": ["builder/map_package.cc: SaveTrajectoriesAsMapPackage", "tools/join_pieces.cc: main"]}
{"id": "C101", "title": "Map descriptions in XML files are read back as written", "statement": "A document the program saves as an XML file (map description, map package description) is loaded again with the same elements in the same order, the same attributes and the same attribute values, whatever characters the values contain; a file that was only partly written is rejected instead of being taken for a smaller map; comments and layout make no difference; loading ends for every file.", "quantifier": "all documents (any nesting, any number of elements and attributes, any byte values), all cut-off points of the file, all files for termination", "why_tests_cant": "Escaping and parsing have to agree on every string and every tree, and the crash points are all positions of a file of any length; tests load a few hand-written files.", "anchors": ["third_parties/pugixml/pugixml.cc: text_output_escaped, node_output, strconv_escape, strconv_attribute_impl::parse_wconv, parse_tree, parse, xml_document::save", "builder/map_package.cc: SaveTrajectoriesAsMapPackage", "builder/trajectory.cc: ToXmlNode", "tools/join_pieces.cc: main"]}
{"id": "C102", "title": "Numbers and switches written to or read from the XML files of the project keep their value", "statement": "Numbers and switches in the XML files of the project (map descriptions, configuration) have the value their text says. Every double, float and int that is written to a map description is read again as the same number. A decimal or hexadecimal whole number is read with its sign, up to the first character that does not belong to it; a number outside the range of int is read as the nearest one inside. A number with a fraction is read as the nearest double. A missing attribute gives the stated default. What is no number is reported and not taken for zero, a float is the nearest one to its text, and a switch is read no matter what white space is in front of it.", "quantifier": "all doubles, floats and ints; all texts with white space, sign, digits of any number, and anything behind them", "why_tests_cant": "Whether 17 digits bring back every double is a statement about all doubles and their distance from decimal numbers; the overflow test of the reader looks at the number of digits, the first digit and the highest bit of a product modulo 2^32, which is right or wrong for numbers nobody tries.", "anchors": ["third_parties/pugixml/pugixml.cc:string_to_integer", "third_parties/pugixml/pugixml.cc:set_value_convert", "third_parties/pugixml/pugixml.cc:get_value_bool", "builder/trajectory.cc:ToXmlNode", "tools/join_pieces.cc:main", "registrators/interface.cc"]}
{"id": "C103", "title": "Description files of maps, from the writer to the reader", "statement": "The description file of a map package, written to disk and read by the joining tool, lists exactly the centres and file names that were written, so that joining gives the points of all the pieces moved back by their centres; the map file of a finished run, read by the program that combines runs, gives back exactly the trajectories, submaps, pose numbers, file names and connections that were saved. A missing submap file or a file of the other kind is refused.", "quantifier": "All packages and maps whose numbers are doubles and 32-bit integers, all file names without tabs or zero bytes, all contents of the disk before; the description lies in the directory of the pieces and is not named like one.", "why_tests_cant": "A test joins one package; that no coordinate, name or connection can change on the way through the text holds only by proof over all of them.", "anchors": ["builder/map_package.cc:SaveTrajectoriesAsMapPackage", "tools/join_pieces.cc:main", "builder/trajectory.cc:Trajectory::ToXmlNode", "builder/map_builder.cc:MapBuilder::GenerateMapPackage", "builder/multi_trajectory/multi_trajectory_map_builder.cc:LoadTrajectoryFromFile", "third_parties/pugixml/pugixml.cc"]}
{"id": "C104", "title": "Settings files written by hand, from the text to the running builder", "statement": "A settings file may be laid out freely: white space, comments, either kind of quotes and references change nothing. When a builder starts from such a text, every documented option has the value its text stands for (switch, whole number, decimal number, text) or its default; the filters are those of the file, in that order and with the parameters given there; and the matchers of scans and of submaps have the parameters of the section of the chosen type. A switch that is written as true is on.", "quantifier": "All texts of well formed files, all options, filters and matcher parameters in them, all results of making the output directories.", "why_tests_cant": "Tests load a few files in one layout; that no comment, quote, reference or line break can change a setting is a statement about all texts.", "anchors": ["third_parties/pugixml/pugixml.cc:xml_parser::parse", "builder/map_builder_options.cc:MapBuilder::Initialise", "pre_processors/filter_factory.cc:Factory::InitFromXmlNode", "pre_processors/filter_interface.cc:Interface::InitFromXmlNode", "registrators/interface.cc:Interface::InitWithXml", "config/static_mapping_default.xml"]}
{"id": "C105", "title": "Aligning a GPS track or an odometer with the path in the map", "statement": "If the GPS positions are the path positions turned about the vertical axis and moved, the match returns the transform that takes every path position to its GPS position; it never aborts and always returns a rigid transform. A track measured with small errors gives nearly the same transform. The error terms are the distances of the moved positions from the lines along the path; the direction of the path at a submap is the forward direction of the submap. A calibration of the odometer that explains all positions is kept; without odometer data the calibration is refused.", "quantifier": "All tracks in two and three dimensions, all headings including those near zero, all linear solvers and minimisers that stay at an exact solution, all submaps.", "why_tests_cant": "A test matches a few tracks with comfortable headings; the average of angles goes wrong only around one heading, and the sign of a slope shows only on hills.", "anchors": ["back_end/deprecated/map_gps_matcher.cc:MapGpsMatcher::RunMatch", "builder/cost_functions/gps_map_match.h:GpsEnuToMap3D", "builder/cost_functions/odom_map_match.h:OdomToMapPath", "builder/deprecated/offline_calibration.cc:OfflineCalibrationOdomToLidar"]}
{"id": "C106", "title": "Aligning many clouds at once", "statement": "The multi-view registrator writes every cloud that was added exactly once, in the order of adding, moved by the pose given with it and by the correction found for it, also when clouds are added and aligned again.", "quantifier": "every list of clouds and poses, every way of pairing points and of solving", "why_tests_cant": "the clouds, the pairs and the number of calls are unbounded", "anchors": ["registrators/multiview_registrator_interface.h: MultiviewInterface::AddNewCloud", "registrators/multiview_registrator_lum_pcl.h: MultiviewRegistratorLumPcl::AlignAll"]}
{"id": "C107", "title": "The range image shows the scan as the sensor sees it", "statement": "Every point of a scan whose direction lies in the field of view of the settings belongs to one row and one column, those of its elevation and azimuth; points outside the field or within 1 cm of the axis are dropped, and a pixel holds the distance of the first point that falls on it. Two neighbouring pixels are put into one cluster exactly if the line through their points meets the beam of the further one at more than ten degrees. The saved picture shows every pixel's distance as a grey between black and white, or green where there is none.", "quantifier": "All settings with the upper angle above the lower one and positive sizes, all points, all images and limits.", "why_tests_cant": "Directions, distances and settings are continuous; the mistakes lie at the edge of the field, in steps over two columns and in pixels beyond the limit of the picture, which a test with one scan does not notice.", "anchors": ["pre_processors/filter_range_image.cc: RangeImage::Filter", "pre_processors/filter_range_image.cc: RangeImage::DepthCluster", "pre_processors/filter_range_image.cc: RangeImage::LabelOneComponent", "pre_processors/filter_range_image.cc: RangeImage::ToPng"]}
{"id": "C108", "title": "XML files in any encoding an editor may save them in", "statement": "A settings or description file may be stored as UTF-8, UTF-16 or UTF-32, with the bytes in either order, with or without a byte order mark, or as Latin-1 with a declaration that says so: the program reads the same document and starts with the same settings, on machines of either byte order. What the program saves itself is always read as it was written.", "quantifier": "All texts (any Unicode characters), the five Unicode encodings with and without mark, all Latin-1 texts with a declaration, both byte orders of the machine.", "why_tests_cant": "The encoding is guessed from the first four bytes and from the letters of the declaration; which texts are mistaken for something else is a question about all texts.", "anchors": ["third_parties/pugixml/pugixml.cc: guess_buffer_encoding, parse_declaration_encoding, convert_buffer, utf16_decoder, utf32_decoder, latin1_decoder, utf8_writer, load_file_impl", "builder/map_builder_options.cc: MapBuilder::Initialise"]}
{"id": "C109", "title": "Fast ICP does not move along directions the data do not fix", "statement": "One step of the fast ICP moves the scan by the turn and the translation that fit the target planes best, and where many motions fit equally well (flat ground, a corridor) by the smallest of them: a motion that no matched pair notices is not made. The linear solver behind it returns, for every symmetric system without negative values that has a solution, the shortest solution, and for every singular system the shortest one of those that fit best.", "quantifier": "all lists of matched pairs with weights that are not negative, with and without motion compensation; all square systems of any size", "why_tests_cant": "Degenerate scenes form a set of measure zero; tests with random clouds never meet an exactly singular system.", "anchors": ["registrators/icp_fast.cc: SolvePossiblyUnderdeterminedLinearSystem, ComputePointToPlane"]}
{"id": "C110", "title": "Point-to-point alignment is optimal", "statement": "The point-to-point step gives a rotation (never a reflection) and a translation such that no other rotation and translation brings the weighted pairs closer together; pairs that differ by a motion are brought together exactly. The clouds handed in are not changed.", "quantifier": "all lists of weighted pairs with some positive weight", "why_tests_cant": "Optimality over all rotations cannot be sampled; the reflection case needs special point sets.", "anchors": ["registrators/icp_fast.cc: ComputePointToPoint"]}
{"id": "C111", "title": "Starting the mapping node from the command line and the scripts", "statement": "Every option of the mapping node has the value written behind it on the command line, or its documented default, in whatever order the options stand and whatever ROS remappings stand between them. A node that runs has a cloud topic, uses exactly the sensors that are named, knows the mountings of the URDF file, has the settings of its file, displays exactly what was asked for, and reads the recording that was named. It refuses to start without a cloud topic, with two recordings, or when the settings want an IMU that is not named. The scripts of the project start it with the files of the project.", "quantifier": "All command lines, all values, all orders, all remappings, all URDF files whose fixed joints form trees, all sets of existing files and all directory contents.", "why_tests_cant": "Tests start the node with one command line on one machine; that order, remappings and missing files can or cannot change what runs is a statement about all command lines and file systems.", "anchors": ["ros_node/static_mapping_node.cpp:main", "ros_node/tf_bridge.cc:LoopUpTransfrom", "ros_node/urdf_reader.cc:ReadStaticTransformsFromUrdf", "mapping_lidar_only.sh", "mapping_lidar_imu.sh", "mapping_lidar_imu_gps.sh", "mapping_kitti.sh", "config/lidar_only.xml", "urdf/test2.urdf"]}
{"id": "C112", "title": "What the optimised map looks like", "statement": "For every sequence of submaps there is exactly one best map, and it depends on the measurements as expected: exact measurements are reproduced exactly and at no other poses, the first submap stays where it is, at every submap the errors of the constraints that arrive and leave cancel, the error reported by a loop is spread evenly over the submaps between its ends so that the seam closes up to one share, and exact GPS positions give the place of the map.", "quantifier": "all sequences of submaps with any matched transforms and any accepted loops; all GPS positions; best means least sum of errors with the weights the code gives them", "why_tests_cant": "A test sees the optimised poses of one drive; how an error is spread for every number of submaps, every loop and every size of the error follows only from the weights of all constraints together.", "anchors": ["back_end/isam_optimizer.cc: IsamOptimizer::IsamOptimizer, AddVertex, AddLoopCloseEdge, SolveGpsCorrdAlone"]}
{"id": "C113", "title": "Joining maps gives the optimiser one pose per submap and the stored and found constraints", "statement": "When a base map and further maps are joined, the optimiser is given one variable per submap, one constraint with the stored relative pose per stored connection, one per loop found between the maps, and fixes only first submaps of trajectories at their stored poses; a map that contains no contradiction keeps its poses; every submap gets the pose of its own variable. (How far a loop can move a map, and that the last base submap is never compared, are stated as they are.)", "quantifier": "all loaded maps with numbered submaps, all stored connections, all answers of the loop detector, all sequences of calls; for the best map: all distances between the maps", "why_tests_cant": "the optimiser sees every submap and every constraint of a session; wrong keys, repeated priors or shifted ids only show as slightly wrong maps, and only on data with several trajectories", "anchors": ["back_end/multi_trajectory/multi_trajectory_optimizer.cc: AddSubmap, AddSubmapConnection, AddVertex, UseCurrentStateAsBaseMap, RunFinalOptimizing", "builder/multi_trajectory/multi_trajectory_map_builder.cc: LoadBaseMap, LoadIncrementalMap"]}
{"id": "C114", "title": "Loop candidates are matched from what is known, and right loops are reported", "statement": "Every pair of submaps that is a candidate for a loop is matched once, starting from the relative pose the map has for the pair; it gives an edge with the matcher's answer exactly if the score is good enough, whatever order the matches end in; a loop is reported only if at least two edges agree on the place of the newest submap within half a metre, and right matches are reported. (The start drops the height in the older submap's own frame, so on a slope it is off by the distance times the slope; right matches with older submaps that have drifted relative to each other are refused.)", "quantifier": "all submap poses, all candidate pairs, all answers of the matcher, all orders in which the tasks end", "why_tests_cant": "Matches run in parallel on large clouds; a wrong start or a refused loop only shows as a missing loop on particular ground or particular drift.", "anchors": ["back_end/loop_detector.cc: LoopDetector::AddFrame, CloseLoop, CheckResult"]}
{"id": "C115", "title": "Neighbour search on the graphics card", "statement": "For every query point the search on the graphics card gives the eight nearest reference points by their index in the array handed in, with their squared distances, whatever order the threads copy the answers in; the box handed to the tree holds all points wherever they are; nothing outside the arrays is read or written. (The indices are those of the order in the tree, not of the array: stated as it is.)", "quantifier": "all reference and query arrays of sufficient length, all orders of the threads, all trees and searches that answer rightly", "why_tests_cant": "A wrong index only shows as a slightly worse alignment; whether indices belong to the array or to the tree depends on the tree that the library happens to build.", "anchors": ["registrators/cuda/icp_cuda.cu: knn_cugar"]}
{"id": "C116", "title": "Odometry given to the pose extrapolator", "statement": "Odometry messages may be given to the extrapolator at any time after its newest pose; they never stop the program, and asking for the gravity direction changes nothing. (With an IMU the second odometry message is undefined behaviour, and before it odometry has no effect on any prediction: stated as it is.)", "quantifier": "all histories of poses, IMU messages, odometry messages, predictions and gravity estimates of an extrapolator made with or without an IMU", "why_tests_cant": "The fault needs two odometry messages with a pose between or before them; that nothing else changes is a statement about all histories.", "anchors": ["builder/pose_extrapolator.cc: AddOdometryData, TrimOdometryData, EstimateGravityOrientation, AddPose"]}
{"id": "C117", "title": "Direct search for cells", "statement": "After a cloud is set, searching the grid for cells near a point by position gives exactly the cells with enough points among those asked for - the point's own cell, that cell and its six face neighbours, or that cell and all twenty-six cells touching it - each with the mean of exactly its points; after a new cloud only cells of the new cloud are given.", "quantifier": "all clouds, cell sizes, minimum numbers of points and query points, inside or outside the grid, and all tables of steps", "why_tests_cant": "The cells at the edge of the grid, points outside of it and wrap-around of cell numbers between rows matter only for some positions; a test on one cloud would not meet them.", "anchors": ["registrators/pclomp/voxel_grid_covariance_omp_impl.hpp: getNeighborhoodAtPoint, getNeighborhoodAtPoint7, getNeighborhoodAtPoint1", "registrators/pclomp/ndt_omp_impl.hpp: search_method"]}
{"id": "C118", "title": "Counters shared by threads", "statement": "Threads may share integers through the atomic wrapper: under every interleaving a counter ends at its start plus the number of increments, each post-increment hands out a number no other call gets, without gaps, as long as the word does not wrap around; assigning one wrapper to another is one step.", "quantifier": "all numbers of threads, programs of the threads, start values and schedules", "why_tests_cant": "A lost update needs one particular interleaving of a few instructions; a test that runs the threads a million times may never meet it.", "anchors": ["common/atomic_wrapper.h: AtomicWrapper", "common/example/atomic_wrapper_example.cc: main", "builder/multi_resolution_voxel_map.h: AtomicInt"]}
{"id": "C119", "title": "Life of a map builder", "statement": "The map builder can be initialised, given clouds, ended and destroyed in any order and any number of times: no call stops the program, is undefined or never returns; clouds given between the start and the end reach the collector; the progress shown at the end is the share of the clouds still waiting.", "quantifier": "all histories of calls and all schedules of the started thread", "why_tests_cant": "Tests use the one order of the supplied node; the others only show when a program embeds the library, and the hang depends on the schedule.", "anchors": ["builder/map_builder.cc: Initialise, InitialiseInside, InsertPointcloudMsg, FinishAllComputations, ~MapBuilder"]}
{"id": "C120", "title": "Tables of cells keep every cell apart and find it quickly", "statement": "Whatever points are put under whatever cells of the voxel grid, the range image or the voxel map, and whenever a table grows, a search under a cell returns exactly what was put under that cell, in that order, and nothing for a cell never used; a loop over the table meets every used cell once. Different cells of a map and different pixels of an image get different hash values, so that a search does not have to go through unrelated cells.", "quantifier": "all sequences of insertions and growths, all integer cells", "why_tests_cant": "Which cells share a hash depends on all bits of all coordinates; a test with a few cells meets no collision, and a slow table gives right results.", "anchors": ["common/eigen_hash.h: std::hash<Eigen::Matrix>", "pre_processors/filter_voxel_grid.cc: VoxelGrid::Filter", "pre_processors/filter_range_image.h: MapRangeImage", "builder/multi_resolution_voxel_map.h: VoxelMap"]}
{"id": "C121", "title": "Cells of the normal distributions matcher with the code's number types", "statement": "When a cloud is made the target of an alignment by normal distributions, every point is counted in exactly one cell, the cell it lies in, with the single precision of the coordinates; the mean and the covariance of each cell are those of its points up to the last digits, no cell is lost by rounding, searching looks into the cell in which the point was put, and clouds that are too large are refused without overflow", "quantifier": "all clouds of single-precision points, all cell sizes, all numbers of points", "why_tests_cant": "Rounding errors depend on the values of all points and on their order; tests with a few round numbers see none of them", "anchors": ["registrators/pclomp/voxel_grid_covariance_omp_impl.hpp applyFilter", "registrators/pclomp/voxel_grid_covariance_omp_impl.hpp getNeighborhoodAtPoint", "registrators/pclomp/voxel_grid_covariance_omp.h Leaf"]}
{"id": "C122", "title": "Interpolation between readings holds with the program's rounding", "statement": "Computed with the program's number types, a GPS or odometry query between readings gives a position on the way between the two neighbouring readings around it (fifteen digits for GPS, seven for odometry), never a position further back for a later time, and never stops because of rounding when neighbouring readings are at least a microsecond apart.", "quantifier": "all sequences of readings with normalised stamps, all query times, thresholds and trimming flags, all positions and poses", "why_tests_cant": "The quotient of two rounded durations, its conversion to a narrower type and the products with coordinates round differently for every input; the checks on them stop the whole mapping run.", "anchors": ["builder/data/data_collector.cc: DataCollector::InterpolateGps, DataCollector::InterpolateOdom", "common/math.h: InterpolateTransform", "common/simple_time.h: SimpleTime::ToSec"]}
{"id": "C123", "title": "Poses of a long trajectory stay poses", "statement": "The pose of every matched cloud is the product of the matcher's results at the key frames before it and of its own result, computed in double precision. Every matched cloud gets one; its last row is 0 0 0 1 exactly. If every result keeps the squares of lengths up to a share d, a pose made of n results keeps them up to 2n(d + 2^-44), is good enough for placing clouds (C87) while n(d + 2^-44) is at most a hundredth, and has its position within 2^-46 n^2 l of the exact one when no result moves by more than l. No bound independent of n holds: poses are never brought back to rotations, so results rounded to float can make lengths grow with every key frame.", "quantifier": "every sequence of matcher results and key-frame verdicts, of any length, with and without fused multiply-add", "why_tests_cant": "the drift builds up over tens of thousands of key frames and depends on every rounding on the way; a unit test sees a few products", "anchors": ["builder/map_builder.cc: MapBuilder::ScanMatchProcessing", "registrators/ndt.cc: Ndt::Align", "registrators/ndt_gicp.cc: NdtWithGicp::Align"]}
{"id": "C124", "title": "Key frames are as dense as configured", "statement": "A cloud matched to the newest key frame becomes a key frame if it has moved by the configured distance or turned by the configured angle (between a thousandth of a degree and 89 degrees), whatever the axis, and the conversion to float never loses one: every cloud in between is nearer and turned by less. A key frame has moved by the configured distance, up to a share of 2^-24, or turned by at least a third of the configured angle. False: a key frame only by the whole angle (the Euler angles are added up), the configured time is never used, and an angle of a thousandth of a degree or less switches turning off.", "quantifier": "every sequence of rigid matching results, every setting, every order-preserving conversion to float", "why_tests_cant": "the condition is on three Euler angles, the property on the angle of a rotation about any axis: there are infinitely many axes and the singular orientation among them", "anchors": ["builder/map_builder.cc: MapBuilder::ScanMatchProcessing", "builder/map_builder.h: MapBuilderOptions::FrontEndOptions::motion_filter", "common/math.h: RotationMatrixToEulerAngles"]}
{"id": "C125", "title": "Residual of a point of a moving scan against a plane", "statement": "The residual that the point-to-plane cost term gives for a pose (three numbers of a shift, four of a quaternion in the order w, x, y, z) is the signed distance, from the plane, of the point after it was turned by its share of the angle about the same axis and shifted by its share of the shift; its share is the time of its measurement within the scan. A point from the start of the scan is not moved at all, one from its end is moved by the whole pose, and every point is moved exactly as the mapper's motion compensation moves it. A quaternion and its negative give the same residual.", "quantifier": "every point, plane, time within the scan, shift, axis and angle", "why_tests_cant": "It is an identity between real functions of a dozen numbers; a test samples some of them, and the half turn, where it breaks, is a set of measure zero.", "anchors": ["registrators/deprecated/icp_factor.h: IcpPointToPlaneFactor::operator()", "builder/map_builder.cc: MotionCompensation", "common/math.h: InterpolateTransform"]}
{"id": "C126", "title": "Range image with machine arithmetic", "statement": "With numbers rounded to float and double as the machine does, a point seen from the sensor still falls into the pixel (row and column) of its true direction whenever the direction is at least four millionths of a radian from the borders of that pixel; points outside the field by as much, or nearer than a centimetre to the axis, fall into none; and no ordinary point makes the conversion to an integer overflow.", "quantifier": "all image sizes up to 65536 by 65536 with angles between -90 and 90 degrees, all points with coordinates that are zero or between 2^-50 and 2^50, every rounding within IEEE 754's bounds and every arc tangent within two units in the last place", "why_tests_cant": "The result depends on the accumulated rounding of a dozen operations and of a library function whose last bit differs between platforms; tests see one platform and a few points.", "anchors": ["pre_processors/filter_range_image.cc:RangeImage::Filter"]}
{"id": "C127", "title": "Motion compensation with machine arithmetic", "statement": "With the rounding of doubles and floats, removing the motion of the sensor from a scan puts every point where constant turning about one axis and constant travel would put it: the point is off by at most the last place of a float, the error of the given rotation times 1360 and the range, and 4 parts in 10^12 of the range, however small the turn is. With a range of 200 metres and 20 metres of travel no coordinate is off by more than 20 micrometres; order, number, intensity and time of the points are kept; a time outside [0, 1] ends the program.", "quantifier": "all turns up to 90 degrees, all translations and points up to 2^40 metres, all times, all clouds, and all roundings, arc cosines and sines within the bounds of IEEE 754 and the C library", "why_tests_cant": "the formula divides two sines that both vanish for a scanner at rest and switches to another formula at 1 - 2^-52; whether the division loses digits for small turns depends on the last bits of the input, which no sample of turns settles", "anchors": ["builder/map_builder.cc:MotionCompensation", "common/math.h:InterpolateTransform"]}
{"id": "C128", "title": "The map depends on the recording, not on the timing", "statement": "Playing the same recorded messages to the builder twice, with any speed of playing and of scan matching, gives the same key frames at the same poses and the same saved map, as long as both runs work on all clouds.", "quantifier": "all recordings, all interleavings of message arrival with the taking and matching of clouds, all schedules of the submap thread, all matchers and extrapolators", "why_tests_cant": "A test runs on one machine at one speed; the interleavings of arrivals with the two threads cannot be forced, and two runs that agree prove nothing about a third.", "anchors": ["builder/map_builder.cc: MapBuilder::InsertPointcloudMsg, MapBuilder::InsertImuMsg, MapBuilder::ScanMatchProcessing, MapBuilder::SubmapProcessing", "builder/pose_extrapolator.cc: PoseExtrapolator::AddImuData, PoseExtrapolator::AddPose, PoseExtrapolator::ExtrapolatePose, PoseExtrapolator::AdvanceImuTracker"]}
{"id": "C129", "title": "Memory for clouds stays bounded in a long run", "statement": "With disk saving switched on, the cloud of a submap that has been matched and not been asked for during more than the configured delay is not in memory, and the clouds of its frames leave memory when it is matched; so the number of clouds in memory depends on recent activity, not on the length of the run. Sensor readings that can no longer be asked for are not kept either.", "quantifier": "all histories of building, matching, accesses and ticks of the memory manager; all delays; all runs of the sensor collector", "why_tests_cant": "Needs hours of mapping with memory measured at every moment; a leak that depends on the order of accesses and ticks does not show in short runs.", "anchors": ["builder/submap.cc: Submap::UpdateInactiveTime, Submap::SetMatchedTransformedToNext, Submap::Cloud", "builder/memory_manager.cc: MemoryManager::Processing", "builder/data/data_collector.cc: DataCollector::AddSensorData, DataCollector::InterpolateGps, DataCollector::TrimSensorData"]}
{"id": "C130", "title": "A scan that could not be matched is noticed", "statement": "A cloud whose scan matching failed or found only a bad fit does not enter the map like a good one: it is placed where the motion prediction puts it, is not stored as a key frame, and later clouds are not matched against it.", "quantifier": "all configurations, all four matchers, all transforms and fit scores they return, all histories of arriving clouds and rounds of the matching thread", "why_tests_cant": "A matcher fails on rare scenes (corridors, moving crowds, jumps of the sensor); no test set contains every way of failing, and the effect of one bad cloud appears only in everything placed after it.", "anchors": ["builder/map_builder.cc: MapBuilder::ScanMatchProcessing, MapBuilder::InsertFrameForSubmap", "registrators/icp_pointmatcher.cc: IcpUsingPointMatcher::Align", "registrators/ndt_gicp.cc: NdtWithGicp::Align", "registrators/interface.h: Interface::GetFitnessScore"]}
{"id": "C131", "title": "A map whose saving was interrupted is not taken for a map", "statement": "If the program is ended at any moment while it saves its results - between two files or in the middle of one - then the joining tool and the program that combines maps either refuse what is on the disk or load the complete map; they never load a part of it or a mixture as if it were the map.", "quantifier": "all maps and packages, all moments of ending, all contents of the directory before, all files saved before and after", "why_tests_cant": "The moment of a crash cannot be chosen in a test: there are as many as bytes written, and each leaves another set of files.", "anchors": ["builder/map_builder.cc: MapBuilder::FinishAllComputations, MapBuilder::GenerateMapPackage, MapBuilder::SaveMapPackage", "builder/map_package.cc: SaveTrajectoriesAsMapPackage", "tools/join_pieces.cc: main", "builder/multi_trajectory/multi_trajectory_map_builder.cc: MultiTrajectoryMapBuilder::LoadBaseMap", "third_parties/pugixml/pugixml.cc: xml_document::save_file"]}
{"id": "C132", "title": "What did not fit on the disk is noticed when it is read", "statement": "When the disk fills up while a cloud is moved out of memory, or while the description of a packaged map or of a map of several trajectories is saved, reading it later either gives exactly what was saved or stops with an error; it never gives other points.", "quantifier": "every cloud, every map, every number of bytes that still got on the disk", "why_tests_cant": "A test would have to fill a disk at every byte of every file; the outcome depends on where the file was cut, and the writer reports success in each case.", "anchors": ["builder/data/cloud_types.cc: InnerPointCloudData::SaveToFile, CloudInMemory, InnerCloudType::Serialize/Deserialize", "builder/submap.cc: ToPcdFile, Cloud", "builder/map_builder.cc: SaveMapPackage", "builder/multi_trajectory/multi_trajectory_map_builder.cc: SaveWholeMap"]}
{"id": "C133", "title": "The normal of a patch is the normal of its surface", "statement": "The normal estimated for a group of neighbouring points is the unit normal of the plane they lie in, pointing away from the sensor; points on one line give no normal; the normal is a property of the surface and does not depend on where the sensor stands.", "quantifier": "every group of points", "why_tests_cant": "The formula is a least-squares solution relative to the sensor's own position; that it is right for every flat patch, and how it fails for others, cannot be read off examples.", "anchors": ["builder/data/cloud_types.cc: CalculateNormals(EigenPointCloud*, int, int)"]}
{"id": "C134", "title": "A sensor that stands still stays where it is", "statement": "When the prediction puts a scan where it was seen before, matching it against that earlier scan keeps the prediction: a scan matched with itself gives no motion, and over a whole run of the same scan every frame stays at the start.", "quantifier": "every scan, every grouping of its points, every neighbour search, solver, limit of iterations and test of convergence", "why_tests_cant": "The target of the matching is not the scan but the means of small groups of its points, and a share of the pairs is rejected; whether no motion is a fixed point depends on the whole chain for every scene.", "anchors": ["registrators/icp_fast.cc: IcpFast::Align, ComputePointToPlane, Matches::GetDistsQuantile", "builder/data/cloud_types.cc: EigenPointCloud::CalculateNormals"]}
{"id": "C135", "title": "One estimation of generalised ICP does not make the alignment worse", "statement": "Each estimation of generalised ICP starts at the alignment found so far, ends after a bounded number of steps of the minimiser, and does not move the corresponding points further apart.", "quantifier": "every alignment found so far, every guess, every list of correspondences, every minimiser and every limit of steps", "why_tests_cant": "the position that breaks it is a single orientation among all rotations, and the minimiser's behaviour differs with every scan", "anchors": ["registrators/pclomp/gicp_omp_impl.hpp:estimateRigidTransformationBFGS", "registrators/pclomp/gicp_omp_impl.hpp:applyState", "registrators/ndt_gicp.cc:Align"]}
{"id": "C136", "title": "Matching does not depend on the frame of the map", "statement": "If the target cloud and the prediction are given in another frame, turned and moved, fast ICP returns the same match expressed in that frame, after the same number of iterations.", "quantifier": "every rotation and shift of the frame, every pair of clouds, every prediction, every neighbour search and test of convergence that look at distances and angles only, every share of outliers and limit of iterations", "why_tests_cant": "it compares two runs in frames that are arbitrary rotations and shifts of each other; the tests run one frame", "anchors": ["registrators/icp_fast.cc:Align", "registrators/icp_fast.cc:ComputePointToPlane", "registrators/icp_fast.cc:SolvePossiblyUnderdeterminedLinearSystem", "builder/data/cloud_types.cc:CalculateNormals"]}
{"id": "C137", "title": "The order of the points does not change the match", "statement": "A scan whose points are listed in another order, for example by a driver that walks the rings the other way round, is matched to the same pose, through the same iterations, or fails in the same way. The same holds for the order of the points of the target cloud, and the normal of a patch does not depend on the order of its points. (Exact arithmetic; rounding of sums does depend on the order.)", "quantifier": "every pair of clouds, every reordering of either, every first guess, neighbour search, outlier share and number of iterations", "why_tests_cant": "orders are factorial in number and a test fixes one; the dependence appears only with ties or with compensation of motion by place in the list", "anchors": ["registrators/icp_fast.cc:Align", "registrators/icp_fast.cc:GetDistsQuantile", "registrators/icp_fast.cc:ComputePointToPlane", "builder/data/cloud_types.cc:FromPointCloud", "builder/data/cloud_types.cc:ApplyMotionCompensation"]}
{"id": "C138", "title": "The date of a recording does not change the map", "statement": "The same recording with all its stamps later by the same time, for example played again with new stamps, gives the same key frames at the same poses, the same submaps and saved files, or fails in the same way. The extrapolator predicts the same poses, and the inertial tracker has the same orientation and gravity, at the later times. (Exact arithmetic of stamps in nanoseconds; a stamp of zero stands for no time at all and is excluded.)", "quantifier": "every recording of clouds and inertial messages, every interleaving with the scan matcher, every shift, every history of calls on extrapolator and tracker", "why_tests_cant": "a test plays one recording at one date; an absolute time used in place of a difference shows only at another date, and the truncation of differences below zero only at the very beginning", "anchors": ["builder/pose_extrapolator.cc:AddPose", "builder/pose_extrapolator.cc:ExtrapolatePose", "builder/pose_extrapolator.cc:AddImuData", "builder/imu_tracker.cc:Advance", "builder/imu_tracker.cc:AddImuLinearAccelerationObservation", "builder/map_builder.cc:ScanMatchProcessing", "common/simple_time.cc:operator-"]}
{"id": "C139", "title": "Closing loops does not depend on where the map begins", "statement": "If the whole map is moved rigidly in the world (another origin, another heading, another inclination), the loop detector proposes the same pairs of frames, matches them from the same first guess with the same score, accepts the same ones, and comes to the same verdict on whether they agree with each other.", "quantifier": "every rigid motion, every history of frames and search windows, all poses, every matcher and every settings", "why_tests_cant": "a test fixes one origin and one heading; the claim compares all frames of the world, and its failure for an inclined map only shows with the separate bound on height", "anchors": ["back_end/loop_detector.cc:AddFrame", "back_end/loop_detector.cc:CloseLoop", "back_end/loop_detector.cc:CheckResult"]}
{"id": "C140", "title": "The static map is the same wherever the origin is", "statement": "If all clouds and the places they were taken from are moved by the same length, the static map holds the same content, moved by that length: the same occupied voxels with the same probabilities, intensities and points, and every cloud written from it (points, averages, colours) is the former one moved.", "quantifier": "every map, every history of clouds and places, every shift, every settings with a resolution other than zero, every threshold", "why_tests_cant": "a test builds one map at one place; the claim compares the whole map under all shifts of the origin", "anchors": ["builder/multi_resolution_voxel_map.cc:InsertPointCloud", "builder/multi_resolution_voxel_map.cc:OutputToPointCloud", "common/math.cc:VoxelCastingBresenham"]}
{"id": "C141", "title": "The heading of the sensor does not change which points the filters keep", "statement": "If the sensor is turned about its vertical axis, every filter, and every chain of filters, keeps and drops the same points of the scan, and what it gives is the turned result.", "quantifier": "every angle, every cloud, every settings and every order in which cells are visited", "why_tests_cant": "a test uses scans of one heading; the claim compares all headings of all scans", "anchors": ["pre_processors/filter_range.cc:Filter", "pre_processors/filter_axis_range.cc:Filter", "pre_processors/filter_random_sample.cc:Filter", "pre_processors/filter_bounding_box.cc:Filter", "pre_processors/filter_ground_removal.cc:Filter", "pre_processors/filter_voxel_grid.cc:Filter", "pre_processors/filter_factory.cc:Filter"]}
{"id": "C142", "title": "The next trial of the step search is the minimum of what is known so far", "statement": "When the step search of matching by normal distributions has tried a step and must choose the next one, it chooses by interpolation: for every score that is a polynomial of degree three along the direction, the interpolation finds its local minimum exactly; if the score is a parabola the next trial is its minimum itself (or 66 hundredths of the way to the other end, if that is nearer); and a minimum known to lie between the two points is followed by a trial between them.", "quantifier": "all polynomials of degree up to three, all intervals and trials", "why_tests_cant": "The formulas only differ from wrong ones on particular combinations of values and slopes, and a wrong trial only costs rounds or accuracy; no test sees it.", "anchors": ["registrators/pclomp/ndt_omp_impl.hpp: trialValueSelectionMT"]}
{"id": "C143", "title": "How bright the points are does not change the shape of the map", "statement": "Two recordings whose scans have the same points at the same places and times, but of different brightness, give the same geometry: every filter and every chain of filters keeps the same points, down-sampling gives points at the same places, motion compensation and moving put them at the same places, the static map stores the same voxels with the same probabilities and points, and the clouds written from it, plain and coloured, have points at the same places; if the program stops for one recording it stops for the other.", "quantifier": "all scans, brightness values, filter chains and settings, sequences of scans", "why_tests_cant": "Brightness depends on weather and surface; a test has one brightness per point, and a filter that looks at the wrong field passes on any one of them.", "anchors": ["pre_processors/filter_range.cc", "pre_processors/filter_axis_range.cc", "pre_processors/filter_voxel_grid.cc", "pre_processors/filter_ground_removal.cc", "pre_processors/filter_range_image.cc", "builder/multi_resolution_voxel_map.cc: InsertPointCloud, OutputToPointCloud", "builder/map_builder.cc: MotionCompensation", "builder/data/cloud_types.cc: TransformPoint"]}
{"id": "C144", "title": "Stricter settings never let more through", "statement": "A setting that is made stricter never lets a point, voxel or match through that was not let through before: a smaller interval of ranges or heights, a larger box to cut out, a smaller share of a random sample, more points asked for in a ground cell or a greater height taken for ground keep a part of the points kept before, in the same order; a higher probability asked of the static map writes a part of the points written before; a higher least score refuses every match refused before and changes no other result; key frames that are to be farther apart are not more.", "quantifier": "all clouds, maps, matches, pairs of settings of which one is stricter", "why_tests_cant": "It compares two runs with different settings for every input; tests fix the settings.", "anchors": ["pre_processors/filter_range.cc", "pre_processors/filter_axis_range.cc", "pre_processors/filter_bounding_box.cc", "pre_processors/filter_random_sample.cc", "pre_processors/filter_ground_removal.cc", "builder/multi_resolution_voxel_map.cc: OutputToPointCloud", "builder/map_builder.cc: SubmapPairMatch, ScanMatchProcessing"]}
{"id": "C145", "title": "Recording longer changes nothing found before", "statement": "If a recording is mapped, and the same recording is mapped again with more messages at its end, the second run has the key frames of the first run at the same poses, followed by further ones; the submaps as built (before optimisation) of the first run are the first submaps of the second. The same holds for the joined clouds, the detected and closed loops, the stored positions and the origin of the positions. The times at which the threads run may differ between the two runs. What the optimiser makes of the poses afterwards is not meant.", "quantifier": "all recordings with clouds in order and all longer recordings that begin with them, all schedules of the scan-matching and submap threads in both runs, all settings, all scan matchers", "why_tests_cant": "A test plays a few recordings with the timing of the machine; that no later message reaches back has to hold for every recording, every continuation and every interleaving.", "anchors": ["builder/map_builder.cc: ScanMatchProcessing, InsertPointcloudMsg, SubmapProcessing", "builder/data/data_collector.h: AddSensorData", "back_end/loop_detector.cc: AddFrame", "builder/data/data_collector.cc: AddSensorData"]}
{"id": "C146", "title": "The unit of length does not matter", "statement": "If all lengths are given in another unit (the points of the scans, the places they were taken from, the limits of the filters, the sizes of cells and voxels, the height of the ground, the offset of the sensor and the positions of poses), the results are the same in that unit: the range, axis, box, random and ground filters keep the same points and report the same indices, down-sampling gives the same averages, moved clouds are the same, the static map stores the same voxels with the same probabilities, and the cloud written from it is the same cloud in the other unit; if the program stops in one unit it stops in the other.", "quantifier": "all scale factors greater than zero, clouds, settings, poses, sequences of scans; exact arithmetic", "why_tests_cant": "A hard-coded length hides in a test, which uses one unit; that there is none has to hold for all scales and inputs.", "anchors": ["pre_processors/filter_range.cc", "pre_processors/filter_axis_range.cc", "pre_processors/filter_bounding_box.cc", "pre_processors/filter_random_sample.cc", "pre_processors/filter_ground_removal.cc: Filter", "pre_processors/filter_voxel_grid.cc", "builder/multi_resolution_voxel_map.cc: InsertPointCloud, OutputToPointCloud", "builder/data/cloud_types.cc: TransformPoint"]}
