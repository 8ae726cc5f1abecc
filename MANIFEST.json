{
 "claims": [
  {
   "property": "C01",
   "status": "proved",
   "theorems": [
    "Verif.C01_stamp_roundtrip",
    "Verif.C01_count_roundtrip",
    "Verif.C01_toNanoSec_exact"
   ],
   "note": "All 64-bit counts and all stamps; counts past 2^32 s are shown to be reduced modulo 2^32 s."
  },
  {
   "property": "C02",
   "status": "partial",
   "theorems": [
    "Verif.C02_order",
    "Verif.C02_add",
    "Verif.C02_sub",
    "Verif.C02_add_sub",
    "Verif.C02_div",
    "Verif.C02_equality_fails",
    "Verif.C02_equality_partial"
   ],
   "note": "Order, +, -, /= proved in full. The equality part is false of the code (1 ns tolerance): negation C02_equality_fails, and what == does mean in C02_equality_partial."
  },
  {
   "property": "C03",
   "status": "proved",
   "theorems": [
    "Verif.C03_pcl_roundtrip",
    "Verif.C03_local_roundtrip",
    "Verif.C03_monotone"
   ],
   "note": ""
  },
  {
   "property": "C04",
   "status": "proved",
   "theorems": [
    "Verif.C04_search_brackets",
    "Verif.C04_search_splits",
    "Verif.C04_search_short"
   ],
   "note": ""
  },
  {
   "property": "C05",
   "status": "proved",
   "theorems": [
    "Verif.C05_bresenham_ray",
    "Verif.C05_C06_casting_points"
   ],
   "note": "int overflow for coordinate differences beyond the int range is outside the model."
  },
  {
   "property": "C06",
   "status": "proved",
   "theorems": [
    "Verif.C05_C06_casting_points",
    "Verif.C06_dda_ray"
   ],
   "note": "int overflow for coordinate differences beyond the int range is outside the model."
  },
  {
   "property": "C07",
   "status": "proved",
   "theorems": [
    "Verif.C07_index_outside",
    "Verif.C07_index_inside",
    "Verif.C07_partition"
   ],
   "note": "Exact arithmetic; with the rounding of double precision see C89, where the check on the edges of the sub-cubes can fail."
  },
  {
   "property": "C08",
   "status": "partial",
   "theorems": [
    "Verif.C08_build_terminates",
    "Verif.C08_leaf_bounds",
    "Verif.C08_points_once",
    "Verif.C08_no_invented",
    "Verif.C08_outside_dropped_partial",
    "Verif.C08_outside_dropped_fails",
    "Verif.C08_negative_depth_diverges",
    "Verif.C08_negative_limit_fails"
   ],
   "note": "Exactly-once, multiplicity, containment, depth and capacity proved; 'points outside the root cube are dropped' is false when the root stays a leaf (C08_outside_dropped_fails) and proved otherwise; a negative depth limit never terminates (C08_negative_depth_diverges)."
  },
  {
   "property": "C09",
   "status": "proved",
   "theorems": [
    "Verif.C09_roundtrip",
    "Verif.C09_injective"
   ],
   "note": "Byte-level model of the little-endian 64-bit layout; file system errors are outside the model."
  },
  {
   "property": "C10",
   "status": "partial",
   "theorems": [
    "Verif.C10_truncation_reported_fails",
    "Verif.C10_header_partial",
    "Verif.C10_truncated_points_partial"
   ],
   "note": "Header truncation is reported (C10_header_partial); truncation inside the points is accepted silently when no point read hits a failed stream twice: negation C10_truncation_reported_fails, exact behaviour in C10_truncated_points_partial."
  },
  {
   "property": "C11",
   "status": "partial",
   "theorems": [
    "Verif.C11_swap_invisible_partial",
    "Verif.C11_swap_invisible_fails",
    "Verif.C11_normals_lost_fails",
    "Verif.C11_transform_cleared_aborts",
    "Verif.C11_empty_aborts",
    "Verif.C11_new"
   ],
   "note": "Refinement to the logical cloud for all histories that clear only while the file is current; false otherwise (C11_swap_invisible_fails), and computed normals are lost by a swap (C11_normals_lost_fails)."
  },
  {
   "property": "C12",
   "status": "partial",
   "theorems": [
    "Verif.C12_inplace",
    "Verif.C12_to_output",
    "Verif.C12_to_itself_fails",
    "Verif.C12_identity",
    "Verif.C12_compose",
    "Verif.C12_append",
    "Verif.C12_append_transform"
   ],
   "note": "In-place, to another cloud, identity, composition and concatenation proved over any commutative ring; transforming a cloud onto itself through the output-parameter form loses the points (C12_to_itself_fails)."
  },
  {
   "property": "C13",
   "status": "partial",
   "theorems": [
    "Verif.C13_apply_transform_result",
    "Verif.C13_normals_directions_fails",
    "Verif.C13_normals_directions_partial",
    "Verif.C13_apply_transform_checks"
   ],
   "note": "Normals are treated as points and get the translation too (C13_normals_directions_fails); for pure rotations they stay unit directions (C13_normals_directions_partial)."
  },
  {
   "property": "C14",
   "status": "proved",
   "theorems": [
    "Verif.C14_normals",
    "Verif.C14_empty_ub",
    "Verif.C14_second_call_ub_fails"
   ],
   "note": "Partition into cells, one kept point per cell with its normal, order of the compaction; the eigen-solver and random selection are parameters. A second call and an empty cloud are undefined behaviour (C14_second_call_ub_fails, C14_empty_ub)."
  },
  {
   "property": "C15",
   "status": "proved",
   "theorems": [
    "Verif.C15_gps_history",
    "Verif.C15_gps_increasing"
   ],
   "note": ""
  },
  {
   "property": "C16",
   "status": "partial",
   "theorems": [
    "Verif.C16_interpolation",
    "Verif.C16_outside",
    "Verif.C16_single",
    "Verif.C16_answered",
    "Verif.C16_no_abort",
    "Verif.C16_close_samples_fails",
    "Verif.C16_trim_harmless"
   ],
   "note": "Bracketing, linear interpolation, range and no-abort proved for samples more than 1 microsecond apart; closer samples abort the program (C16_close_samples_fails)."
  },
  {
   "property": "C17",
   "status": "partial",
   "theorems": [
    "Verif.C17_trim_suffix",
    "Verif.C17_trim_needed_fails",
    "Verif.C17_trim_needed_partial",
    "Verif.C17_trim_leaves_newer"
   ],
   "note": "Trimming keeps a suffix and every newer sample; the sample before the trim time, needed for a later interpolation, can be dropped (C17_trim_needed_fails)."
  },
  {
   "property": "C18",
   "status": "proved",
   "theorems": [
    "Verif.C18_accumulate"
   ],
   "note": ""
  },
  {
   "property": "C19",
   "status": "partial",
   "theorems": [
    "Verif.C19_order",
    "Verif.C19_delivery_partial",
    "Verif.C19_shutdown_fails",
    "Verif.C19_shutdown_race_fails"
   ],
   "note": "Order, exactly-once filtering and absence of queue UB for every schedule; delivery of everything for every sufficiently fair schedule while nobody asks to stop (C19_delivery_partial); clouds can be lost at shutdown (C19_shutdown_fails, C19_shutdown_race_fails)."
  },
  {
   "property": "C20",
   "status": "partial",
   "theorems": [
    "Verif.C20_split",
    "Verif.C20_split_bbox",
    "Verif.C20_split_image",
    "Verif.C20_ground_fails",
    "Verif.C20_ground_partial",
    "Verif.C20_ground_order_fails"
   ],
   "note": "Split proved for range, axis-range, random, line-based ground (flags as parameter), bounding-box and range-image filters; the voxel ground filter skips points of sparse voxels (C20_ground_fails) and orders its output by voxel (C20_ground_order_fails); what it does guarantee is C20_ground_partial."
  },
  {
   "property": "C21",
   "status": "proved",
   "theorems": [
    "Verif.C21_range",
    "Verif.C21_axis",
    "Verif.C21_bbox",
    "Verif.C21_random",
    "Verif.C21_ground",
    "Verif.C21_image"
   ],
   "note": "Range, axis, bounding box, random (draws as parameter), voxel ground and range image; the line fitting of the second ground filter is a parameter."
  },
  {
   "property": "C22",
   "status": "partial",
   "theorems": [
    "Verif.C22_repeat_partial",
    "Verif.C22_repeat_bbox",
    "Verif.C22_repeat_ground",
    "Verif.C22_repeat_fails",
    "Verif.C22_image_fails"
   ],
   "note": "Proved for range, axis with a configured limit, line-based ground, bounding box and voxel ground; false for unset axis limits (C22_repeat_fails) and for the range image (C22_image_fails)."
  },
  {
   "property": "C23",
   "status": "partial",
   "theorems": [
    "Verif.C23_chain_partial",
    "Verif.C23_subsequence",
    "Verif.C23_members",
    "Verif.C23_config",
    "Verif.C23_chain_fails"
   ],
   "note": "Composition, sub-sequence, stamp and configuration order proved; an unimplemented member (StatisticRemoval) in first place empties the cloud (C23_chain_fails)."
  },
  {
   "property": "C24",
   "status": "proved",
   "theorems": [
    "Verif.C24_voxel_grid",
    "Verif.C24_voxel_nearest"
   ],
   "note": "Exact arithmetic; every traversal order of the hash table."
  },
  {
   "property": "C25",
   "status": "partial",
   "theorems": [
    "Verif.C25_initialise",
    "Verif.C25_initialise_values",
    "Verif.C25_invariant_partial",
    "Verif.C25_intensity_fails",
    "Verif.C25_parallel_partial",
    "Verif.C25_parallel_count_fails",
    "Verif.C25_parallel_intensity_fails",
    "Verif.C25_parallel_includes_sequential"
   ],
   "note": "Proved for every insertion history with one thread, except that the maximal intensity is an integer part (C25_intensity_fails); for the OpenMP loop occupancy range, point positions and non-emptiness hold under every schedule (C25_parallel_partial), but the point limit and the maximal intensity can be violated (C25_parallel_count_fails, C25_parallel_intensity_fails)."
  },
  {
   "property": "C26",
   "status": "partial",
   "theorems": [
    "Verif.C26_effect_partial",
    "Verif.C26_direction_partial",
    "Verif.C26_created",
    "Verif.C26_hit_lowered_fails"
   ],
   "note": "Exact effect on every voxel (C26_effect_partial), direction of change and creation proved for one thread; a voxel hit by the cloud can still be lowered by an earlier ray of the same cloud (C26_hit_lowered_fails)."
  },
  {
   "property": "C27",
   "status": "proved",
   "theorems": [
    "Verif.C27_grouping",
    "Verif.C27_capacity",
    "Verif.C27_cloud",
    "Verif.C27_inner_mrvm_fails"
   ],
   "note": "For every schedule of the scan-matching and submap threads; capacity, lookup and the submap cloud included. With the inner voxel map option on, no submap can be completed (C27_inner_mrvm_fails, an additional finding)."
  },
  {
   "property": "C28",
   "status": "partial",
   "theorems": [
    "Verif.C28_all_frames_partial",
    "Verif.C28_stop_partial",
    "Verif.C28_all_frames_fails"
   ],
   "note": "Proved when scan matching ends while the submap thread is not between reading the number of frames and reading the running flag; C28_all_frames_fails shows the lost submap otherwise."
  },
  {
   "property": "C29",
   "status": "partial",
   "theorems": [
    "Verif.C29_safety",
    "Verif.C29_each_addition",
    "Verif.C29_complete_partial",
    "Verif.C29_complete_if_seen_partial",
    "Verif.C29_terminates",
    "Verif.C29_transform_kept",
    "Verif.C29_last_transform",
    "Verif.C29_single_fails",
    "Verif.C29_late_fails"
   ],
   "note": "Order, exactly-once, transform-known and pose composition proved for every schedule, and that the thread never aborts or hangs. Completeness holds except for a single submap (C29_single_fails) and a submap pushed between the last look at the list and the look at the done flag (C29_late_fails)."
  },
  {
   "property": "C30",
   "status": "proved",
   "theorems": [
    "Verif.C30_insert",
    "Verif.C30_follow"
   ],
   "note": "Over any group of poses and any history of insertions and pose updates."
  },
  {
   "property": "C31",
   "status": "partial",
   "theorems": [
    "Verif.C31_points_partial",
    "Verif.C31_only_when_idle",
    "Verif.C31_handle_fails"
   ],
   "note": "Points and swap condition proved for all histories (all clouds in one directory, prefix not beginning with \"f_\"); a handle kept by the caller is emptied (C31_handle_fails)."
  },
  {
   "property": "C32",
   "status": "partial",
   "theorems": [
    "Verif.C32_names_partial",
    "Verif.C32_prefix_fails",
    "Verif.C32_debug_strings"
   ],
   "note": "All names of submaps, frames and map pieces are injective in the id for every prefix; a submap never shares a name with a frame unless the configured prefix begins with \"f_\", in which case it can (C32_prefix_fails)."
  },
  {
   "property": "C33",
   "status": "proved",
   "theorems": [
    "Verif.C33_submap_order",
    "Verif.C33_frame_order"
   ],
   "note": "Both comparisons are strict total orders, lexicographic, and == / != agree with equality."
  },
  {
   "property": "C34",
   "status": "partial",
   "theorems": [
    "Verif.C34_parts",
    "Verif.C34_same_as_whole",
    "Verif.C34_unseparated",
    "Verif.C34_numbers_fails",
    "Verif.C34_step_zero_fails"
   ],
   "note": "All clauses proved for the static parts; for the direct parts all except consecutive numbering: a group of submaps without points writes no direct part (C34_numbers_fails). Step zero is a division by zero (C34_step_zero_fails)."
  },
  {
   "property": "C35",
   "status": "partial",
   "theorems": [
    "Verif.C35_cover",
    "Verif.C35_points_partial",
    "Verif.C35_join",
    "Verif.C35_inserted",
    "Verif.C35_description",
    "Verif.C35_written",
    "Verif.C35_zero_width",
    "Verif.C35_far_fails",
    "Verif.C35_no_submaps_fails"
   ],
   "note": "Coverage of the area, joining, description and file names proved. A map point is in a piece only if it is within the border of its submap's position (C35_points_partial); otherwise it can be lost (C35_far_fails). No submaps is undefined (C35_no_submaps_fails)."
  },
  {
   "property": "C36",
   "status": "partial",
   "theorems": [
    "Verif.C36_safety",
    "Verif.C36_no_workers_fails",
    "Verif.C36_no_lost_wakeup",
    "Verif.C36_one_notification_each",
    "Verif.C36_shutdown_terminates"
   ],
   "note": "Proved for every pool with at least one worker and every schedule (exactly once, order, rejection after shutdown, finished at destruction). A pool of zero workers accepts tasks and its destructor returns without running them (C36_no_workers_fails)."
  },
  {
   "property": "C37",
   "status": "partial",
   "theorems": [
    "Verif.C37_candidates",
    "Verif.C37_zero_fails",
    "Verif.C37_descriptor",
    "Verif.C37_found",
    "Verif.C37_descriptor_fails"
   ],
   "note": "Proved for every number of candidates other than 0 (C37_candidates), with what is found (C37_found: nothing in reach is missed, the nearest frame is a candidate if nearer than four tenths of the distance) and what is allowed with the descriptor in use (C37_descriptor). With 0 candidates the sampling step divides by zero (C37_zero_fails); with the descriptor in use the nearest frame becomes a candidate although its descriptor does not match (C37_descriptor_fails)."
  },
  {
   "property": "C38",
   "status": "partial",
   "theorems": [
    "Verif.C38_attempt",
    "Verif.C38_evidence_partial",
    "Verif.C38_consecutive_fails"
   ],
   "note": "Matching is attempted only in the continuous state, the state is left on the first miss and no history aborts; the evidence need not be consecutive (C38_consecutive_fails)."
  },
  {
   "property": "C39",
   "status": "partial",
   "theorems": [
    "Verif.C39_translation",
    "Verif.C39_order_rest",
    "Verif.C39_order_first_fails",
    "Verif.C39_rotation_partial"
   ],
   "note": "Translation (0.5 m) proved over any ordered field; rotation (angle at most 0.0404 rad, twice the tolerance and one per cent) over the real numbers with the Euler angles of the code; independence of the order of the edges after the first proved. The order of all edges matters: C39_order_first_fails."
  },
  {
   "property": "C40",
   "status": "partial",
   "theorems": [
    "Verif.C40_contents",
    "Verif.C40_sorted",
    "Verif.C40_no_dangling",
    "Verif.C40_vertex_keeps_edges",
    "Verif.C40_edge",
    "Verif.C40_box_holds",
    "Verif.C40_box_smallest_partial",
    "Verif.C40_drawing",
    "Verif.C40_box_negative_fails",
    "Verif.C40_box_image_fails"
   ],
   "note": "Contents, dangling edges, ignored edges and drawing are proved for every history; the box is the smallest one for histories without drawing in which some coordinate is positive (C40_box_negative_fails, C40_box_image_fails show the exceptions)."
  },
  {
   "property": "C41",
   "status": "partial",
   "theorems": [
    "Verif.C41_gps_partial",
    "Verif.C41_off",
    "Verif.C41_solving_frame_fails"
   ],
   "note": "Exact list of applied observations for every history; the observation of the frame at which the GPS frame is solved is lost (C41_solving_frame_fails)."
  },
  {
   "property": "C42",
   "status": "proved",
   "theorems": [
    "Verif.C42_selection",
    "Verif.C42_stops",
    "Verif.C42_undefined",
    "Verif.C42_index"
   ],
   "note": "Every list of matches with at least one finite distance and every share in [0,1]; otherwise the program stops (C42_stops)."
  },
  {
   "property": "C43",
   "status": "proved",
   "theorems": [
    "Verif.C43_terminates",
    "Verif.C43_iterations",
    "Verif.C43_four",
    "Verif.C43_test",
    "Verif.C43_fixed",
    "Verif.C43_faults"
   ],
   "note": "Every sequence of increments and every limit; nearest-neighbour search and solver are parameters."
  },
  {
   "property": "C44",
   "status": "partial",
   "theorems": [
    "Verif.C44_uses_last_partial",
    "Verif.C44_empty_fails"
   ],
   "note": "Every call sequence for the fast ICP, and for the others when no empty cloud is given; with an empty cloud they silently align the older one (C44_empty_fails)."
  },
  {
   "property": "C45",
   "status": "partial",
   "theorems": [
    "Verif.C45_queue",
    "Verif.C45_early",
    "Verif.C45_newest_partial",
    "Verif.C45_newest_fails",
    "Verif.C45_line",
    "Verif.C45_turn"
   ],
   "note": "Queue contents, early queries and constant-velocity prediction proved for every history of calls; a query at the stamp of the newest pose returns it unless something is cached for that stamp (C45_newest_partial); false in general, the cached prediction survives AddPose (C45_newest_fails)."
  },
  {
   "property": "C46",
   "status": "partial",
   "theorems": [
    "Verif.C46_order",
    "Verif.C46_delivered_partial",
    "Verif.C46_terminates",
    "Verif.C46_last_lost_fails"
   ],
   "note": "Order and single delivery proved for every recording (C46_order), termination (C46_terminates), and exactly which messages are delivered for recordings in time order (C46_delivered_partial); completeness is false: the messages of the last buffer delay, in particular the last one, are never delivered (C46_last_lost_fails)."
  },
  {
   "property": "C47",
   "status": "partial",
   "theorems": [
    "Verif.C47_scan",
    "Verif.C47_limit",
    "Verif.C47_files",
    "Verif.C47_play",
    "Verif.C47_play_all_fails",
    "Verif.C47_memory_leak"
   ],
   "note": "Scan contents, the size limit and the order of files proved for every file and directory (C47_scan, C47_limit, C47_files, C47_play); playback stops at the first scan without a complete point (C47_play_all_fails) and every scan leaks its read buffer (C47_memory_leak)."
  },
  {
   "property": "C48",
   "status": "proved",
   "theorems": [
    "Verif.C48_key",
    "Verif.C48_connections",
    "Verif.C48_atoi"
   ],
   "note": "All pairs of 32-bit numbers; the text round trip is proved for every list of ids, through the modelled split/find/atoi."
  },
  {
   "property": "C49",
   "status": "partial",
   "theorems": [
    "Verif.C49_histograms_from",
    "Verif.C49_histograms_partial",
    "Verif.C49_second_cloud_fails",
    "Verif.C49_small_r",
    "Verif.C49_negative",
    "Verif.C49_plane_partial",
    "Verif.C49_plane_fails",
    "Verif.C49_symmetric",
    "Verif.C49_range",
    "Verif.C49_self",
    "Verif.C49_other"
   ],
   "note": "Histograms proved for a new object with valid parameters (any PCA, axes, angle bin); an object used twice also counts the first cloud (C49_second_cloud_fails), r below 1e-6 is undefined behaviour (C49_small_r), and directions pointing backwards are not projected onto their plane (C49_plane_fails). Score proved in exact arithmetic: symmetric, in [0,1], 1 with itself, error and not-a-number cases characterised."
  },
  {
   "property": "C50",
   "status": "partial",
   "theorems": [
    "Verif.C50_own_name",
    "Verif.C50_accepts",
    "Verif.C50_rejects",
    "Verif.C50_undefined",
    "Verif.C50_reported",
    "Verif.C50_tables",
    "Verif.C50_valid",
    "Verif.C50_other_name",
    "Verif.C50_submap_fails",
    "Verif.C50_submap_name",
    "Verif.C50_whole",
    "Verif.C50_whole_fails",
    "Verif.C50_invalid_kept_fails",
    "Verif.C50_range_fails",
    "Verif.C50_chain_names"
   ],
   "note": "Own-name and other-name clauses proved for every table; whole numbers up to 2^24 reach float members exactly (C50_whole), larger ones are rounded (C50_whole_fails); the submap voxel filter never gets its configured size (C50_submap_fails), invalid configurations stay in the chain (C50_invalid_kept_fails), and the range filter accepts limits the wrong way round and then drops every point (C50_range_fails)."
  },
  {
   "property": "C51",
   "status": "proved",
   "theorems": [
    "Verif.C51_directory",
    "Verif.C51_create_dir"
   ],
   "note": "Directory part characterised uniquely; idempotent; CreateDir ignores trailing slashes."
  },
  {
   "property": "C52",
   "status": "partial",
   "theorems": [
    "Verif.C52_clusters_partial",
    "Verif.C52_one_per_label",
    "Verif.C52_second_cloud_fails",
    "Verif.C52_one_column_fails"
   ],
   "note": "Proved for images with at least two columns and an object that has not clustered before, any angle test: termination, labels = connected components, clusters of at least 20 disjoint. A reused object keeps the clusters of the earlier cloud (C52_second_cloud_fails: read outside the cloud) and an image of one column is undefined behaviour (C52_one_column_fails)."
  },
  {
   "property": "C53",
   "status": "partial",
   "theorems": [
    "Verif.C53_output_partial",
    "Verif.C53_threshold_fails",
    "Verif.C53_grey",
    "Verif.C53_rgb"
   ],
   "note": "Proved for thresholds in [0,1); a threshold of 1 is undefined behaviour (C53_threshold_fails)."
  },
  {
   "property": "C54",
   "status": "proved",
   "theorems": [
    "Verif.C54_constraints",
    "Verif.C54_exported_graph",
    "Verif.C54_connected",
    "Verif.C54_chain"
   ],
   "note": "Exact constraints, exported graph, connection lists for every sequence of submaps; the numerical optimiser is a parameter."
  },
  {
   "property": "C55",
   "status": "partial",
   "theorems": [
    "Verif.C55_clouds",
    "Verif.C55_none_lost",
    "Verif.C55_imu_partial",
    "Verif.C55_late_imu_fails"
   ],
   "note": "Without the IMU proved for all clouds and schedules (C55_clouds); with the IMU proved when IMU stamps are in order and not before the newest matched cloud (C55_imu_partial); a late IMU message stops the process (C55_late_imu_fails)."
  },
  {
   "property": "C56",
   "status": "partial",
   "theorems": [
    "Verif.C56_contents",
    "Verif.C56_further",
    "Verif.C56_ids",
    "Verif.C56_origin_partial",
    "Verif.C56_origin_fails"
   ],
   "note": "Ids, contents and connections proved for any number of packages whose connections point into the package; poses only if all origins agree, because the origin is saved as enu_x/enu_y and read as utm_x/utm_y (C56_origin_fails). XML attribute round trip assumed; optimiser and file checks not modelled."
  },
  {
   "property": "C57",
   "status": "partial",
   "theorems": [
    "Verif.C57_points",
    "Verif.C57_start",
    "Verif.C57_end",
    "Verif.C57_stops",
    "Verif.C57_factors",
    "Verif.C57_scan_stage",
    "Verif.C57_voxel_grid_fails"
   ],
   "note": "Proved for every cloud with fractions in [0,1], every motion and every interpolation of rotations that starts at one end and stops at the other; fractions stay in [0,1] through the collector and filters (C57_factors). A voxel-grid filter resets all fractions, so nothing is compensated behind it (C57_voxel_grid_fails)."
  },
  {
   "property": "C58",
   "status": "partial",
   "theorems": [
    "Verif.C58_placed_partial",
    "Verif.C58_late_fails",
    "Verif.C58_late_stops_fails"
   ],
   "note": "Proved when clouds arrive in time order, every compensation succeeds (C57) and normals exist for the fast ICP; a cloud out of order becomes the reference of the next match without a pose (C58_late_fails) and stops the program with the fast ICP (C58_late_stops_fails)."
  },
  {
   "property": "C59",
   "status": "partial",
   "theorems": [
    "Verif.C59_history",
    "Verif.C59_interpolation",
    "Verif.C59_answered",
    "Verif.C59_outside",
    "Verif.C59_single",
    "Verif.C59_no_abort_partial",
    "Verif.C59_repeated_fails",
    "Verif.C59_out_of_order_fails"
   ],
   "note": "Storage, interpolation, trimming, single sample and range proved. That no query stops the program is false: ingest does not compare stamps, and two messages with equal stamps (or within 1 us) make a query at that stamp fail a check (C59_repeated_fails); out-of-order messages leave covered times unanswered (C59_out_of_order_fails). C59_no_abort_partial assumes gaps above 1 us."
  },
  {
   "property": "C60",
   "status": "partial",
   "theorems": [
    "Verif.C60_options",
    "Verif.C60_default_values",
    "Verif.C60_accepts",
    "Verif.C60_matcher_params",
    "Verif.C60_defaults_fails",
    "Verif.C60_null_fails",
    "Verif.C60_submap_matcher",
    "Verif.C60_undefined",
    "Verif.C60_submap_matcher_fails",
    "Verif.C60_empty_path_fails"
   ],
   "note": "C60_options and C60_accepts hold for every file, every option text and every conversion function: the start succeeds exactly for a usable configuration and every documented option then has its written value or default. C60_matcher_params: every parameter written for a matcher reaches it. Negations: running with the defaults always aborts since the default asks for an IMU of frequency zero (C60_defaults_fails); a null file name is undefined behaviour (C60_null_fails); the submap matcher is only examined in the middle of the mapping (C60_submap_matcher_fails); an empty export path is undefined behaviour (C60_empty_path_fails)."
  },
  {
   "property": "C61",
   "status": "partial",
   "theorems": [
    "Verif.C61_decision_partial",
    "Verif.C61_reported",
    "Verif.C61_ndt_fails",
    "Verif.C61_empty_fails"
   ],
   "note": "C61_decision_partial holds for the three matchers other than plain NDT and usable clouds, for every engine result, guess and minimal score above exp(-10). C61_ndt_fails: plain NDT reports the distance itself as its score, so that a perfect match is thrown away and a bad one is recorded. C61_empty_fails: with an empty submap the program stops or reads an unwritten score."
  },
  {
   "property": "C62",
   "status": "partial",
   "theorems": [
    "Verif.C62_ground_partial",
    "Verif.C62_found_partial",
    "Verif.C62_flat_fails",
    "Verif.C62_gap_fails",
    "Verif.C62_range_fails",
    "Verif.C62_far_fails",
    "Verif.C62_third_gap_fails",
    "Verif.C62_undefined"
   ],
   "note": "C62_ground_partial holds for every usable setting, every fitting method and every cloud in reach: the filter ends within two rounds per bin, splits the points, and removes exactly the listed points that are off the ground lines by more than nothing and at most the configured distance; the lines have the stated quality. C62_found_partial: on one unbroken stretch of ground exactly those points are removed. Negations: points exactly on a line are kept, so perfectly flat ground is kept entirely (C62_flat_fails); a first gap of the threshold switches detection off for the whole segment (C62_gap_fails); points outside the range are removed too (C62_range_fails); very distant points make an integer conversion undefined (C62_far_fails)."
  },
  {
   "property": "C63",
   "status": "proved",
   "theorems": [
    "Verif.C63_meaning",
    "Verif.C63_exact",
    "Verif.C63_close",
    "Verif.C63_angles",
    "Verif.C63_pose"
   ],
   "note": "Over real arithmetic: meaning of the angles, exact round trip away from the vertical, within 2e-6 everywhere, and the round trip of the angles and of the six-number pose."
  },
  {
   "property": "C64",
   "status": "partial",
   "theorems": [
    "Verif.C64_same_partial",
    "Verif.C64_translation_partial",
    "Verif.C64_yaw_partial",
    "Verif.C64_opposite_fails",
    "Verif.C64_empty_partial"
   ],
   "note": "Mean translation, average of equal poses and of two turns about the vertical written between -pi and pi are proved. False across the half turn: two nearly equal headings near a half turn are averaged to the opposite heading (C64_opposite_fails). The average of rotations that differ in more than one angle has no claim."
  },
  {
   "property": "C65",
   "status": "partial",
   "theorems": [
    "Verif.C65_cells_partial",
    "Verif.C65_fits_partial",
    "Verif.C65_search_partial",
    "Verif.C65_sparse_fails",
    "Verif.C65_too_fine_fails",
    "Verif.C65_flat_fails",
    "Verif.C65_covariance_fails",
    "Verif.C65_overflow_fails"
   ],
   "note": "Over exact arithmetic with the eigenvalue solver and inverse as parameters: cubes, counts, means, no rejection, invertibility, raised eigenvalues and the search are proved for every cloud whose grid fits and has a full cell (C65_cells_partial, C65_fits_partial, C65_search_partial). False: the covariance starts from the identity and is scaled the wrong way (C65_covariance_fails, C65_flat_fails); a target without a full cell, or with too fine a grid, leaves the old search tree in place and the search reads outside an empty list (C65_sparse_fails, C65_too_fine_fails); cell numbers can overflow although the size is checked (C65_overflow_fails)."
  },
  {
   "property": "C66",
   "status": "partial",
   "theorems": [
    "Verif.C66_threads",
    "Verif.C66_gradient_partial",
    "Verif.C66_hessian_partial",
    "Verif.C66_constants",
    "Verif.C66_fit",
    "Verif.C66_hessian_fails",
    "Verif.C66_small_fails",
    "Verif.C66_small_partial"
   ],
   "note": "Score exact for every pose; sums independent of threads and schedule; constants in range for every outlier ratio in (0,1) and resolution > 0. Gradient exact when each angle is zero or at least 1e-4, otherwise within a stated bound (small_fails shows it is off). Hessian exact except the entry for the angle about y twice, where the code has the wrong sign of one coefficient (hessian_fails). Over the real numbers."
  },
  {
   "property": "C67",
   "status": "partial",
   "theorems": [
    "Verif.C67_step",
    "Verif.C67_ends_partial",
    "Verif.C67_worse_fails",
    "Verif.C67_interval"
   ],
   "note": "End, reach, consistency and the exact step length for every setting are proved (C67_step shows that the line search never has an effect). The score may fall: C67_worse_fails gives a cell and a guess for which the standard settings return a pose with a lower score and report success. Over the real numbers; solver and matrix of a pose are parameters."
  },
  {
   "property": "C68",
   "status": "proved",
   "theorems": [
    "Verif.C68_minimises",
    "Verif.C68_solvable",
    "Verif.C68_step",
    "Verif.C68_shift"
   ],
   "note": "Over the real numbers, for every solver that solves the system (C68_solvable: one exists). C68_minimises is an equivalence; C68_step gives rigidity and the second-order bound; C68_shift exact recovery of a shift."
  },
  {
   "property": "C69",
   "status": "partial",
   "theorems": [
    "Verif.C69_up",
    "Verif.C69_accepts_partial",
    "Verif.C69_zero_fails",
    "Verif.C69_size"
   ],
   "note": "Rotation, gravity up and size of the estimate are proved for every history. C69_accepts_partial says exactly which readings are accepted: an acceleration that makes the gravity estimate zero stops the program, C69_zero_fails: a first reading of zero does. Over the real numbers; the axis Eigen takes for opposite vectors is a parameter with the properties of a singular vector."
  },
  {
   "property": "C70",
   "status": "partial",
   "theorems": [
    "Verif.C70_poses_partial",
    "Verif.C70_guesses_partial",
    "Verif.C70_same_stamp_fails",
    "Verif.C70_late_fails",
    "Verif.C70_split_fails"
   ],
   "note": "Proved for increasing stamps (poses) and without late messages (guesses). C70_same_stamp_fails: of two messages with the stamp of the newest pose the first is dropped. C70_late_fails: a message stamped before a guess already made is left out of later guesses. C70_split_fails: the value of the orientation depends on the poses added in between, since the turn is computed from Euler angles."
  },
  {
   "property": "C71",
   "status": "proved",
   "theorems": [
    "Verif.C71_rigid",
    "Verif.C71_close"
   ],
   "note": "All matrices over the reals; Eigen's conversion is written out with its four cases."
  },
  {
   "property": "C72",
   "status": "proved",
   "theorems": [
    "Verif.C72_never_stuck",
    "Verif.C72_bounded",
    "Verif.C72_exclusive"
   ],
   "note": "For finite lists of calls. boost::shared_mutex is a compatibility table (no fairness is assumed). The getters GetInnerCloud and GetEigenCloud take no lock and are outside the exclusion statement (see C31_handle_fails)."
  },
  {
   "property": "C73",
   "status": "proved",
   "theorems": [
    "Verif.C73_one_motion",
    "Verif.C73_relative",
    "Verif.C73_final_poses",
    "Verif.C73_files"
   ],
   "note": "Group model of poses; the estimates of the optimiser are parameters."
  },
  {
   "property": "C74",
   "status": "partial",
   "theorems": [
    "Verif.C74_accepted_partial",
    "Verif.C74_gps_off_partial",
    "Verif.C74_odom_stops_fails",
    "Verif.C74_odom_unset_fails",
    "Verif.C74_back_end_fails",
    "Verif.C74_back_end_before_fails",
    "Verif.C74_switch_options",
    "Verif.C74_back_end_kept"
   ],
   "note": "Collection is exact for clouds, inertial and GPS messages. It fails for odometry (a message stops the program, or is tested with a flag that was never set) and for the optimiser, which keeps the settings it was given in Initialise."
  },
  {
   "property": "C75",
   "status": "proved",
   "theorems": [
    "Verif.C75_table",
    "Verif.C75_cloud",
    "Verif.C75_sensor_paths",
    "Verif.C75_cloud_float",
    "Verif.C75_number_fails",
    "Verif.C75_no_directory"
   ],
   "note": "Numbers are rational, decimal output rounded to nearest even; storing in float is a parameter."
  },
  {
   "property": "C76",
   "status": "partial",
   "theorems": [
    "Verif.C76_threads",
    "Verif.C76_gradient_shift",
    "Verif.C76_gradient_partial",
    "Verif.C76_gradient_fails",
    "Verif.C76_metric",
    "Verif.C76_few",
    "Verif.C76_enough",
    "Verif.C76_result",
    "Verif.C76_place_partial",
    "Verif.C76_place_fails",
    "Verif.C76_small_cloud_fails"
   ],
   "note": "Value, gradient by shift, distances, number of rounds and the form of the result hold in general. The gradient by the angles and the place of the neighbour search hold if the guess does not move the origin; with a guess that does, both are wrong (C76_gradient_fails, C76_place_fails): the gradient uses the point moved by the guess including its shift, the search turns the shift of the guess, the cost does not. A cloud with fewer than k_correspondences_ (20) points leads to a read past the end of an empty list (C76_small_cloud_fails). The header is not included by the rest of the program, which uses PCL's own class."
  },
  {
   "property": "C77",
   "status": "partial",
   "theorems": [
    "Verif.C77_no_race_partial",
    "Verif.C77_other_data_partial",
    "Verif.C77_save_fails",
    "Verif.C77_pointer_fails",
    "Verif.C77_insert_fails",
    "Verif.C77_next_fails",
    "Verif.C77_pose_fails"
   ],
   "note": "Proved for any number of threads, calls and schedules: calls that take locks never race on frames, transforms, poses, points or guarded data, and unlocked calls harm only what they touch. Fails for saving (file name written under a shared lock), GetInnerCloud/GetEigenCloud/GetTime, InsertFrame, TransformToNext and GlobalPose, each witnessed."
  },
  {
   "property": "C78",
   "status": "partial",
   "theorems": [
    "Verif.C78_no_stop",
    "Verif.C78_front_end",
    "Verif.C78_pair_partial",
    "Verif.C78_in_use_partial",
    "Verif.C78_source_fails",
    "Verif.C78_half_built_fails",
    "Verif.C78_defined_partial"
   ],
   "note": "Proved for all interleavings: no check fails, the front end's target and the target of each pair match keep their points. Fails: the source of a slow pair match can be emptied (witness; partial: only if the next match ended first and the delay has passed), and the submap thread can read a slot of frames_ whose element is still under construction (witness; partial: defined if the size is not read in between)."
  },
  {
   "property": "C79",
   "status": "partial",
   "theorems": [
    "Verif.C79_merged_partial",
    "Verif.C79_threads_partial",
    "Verif.C79_open_fails",
    "Verif.C79_clock_fails",
    "Verif.C79_overflow",
    "Verif.C79_single",
    "Verif.C79_long_fails"
   ],
   "note": "Proved for all event sequences: one correct line per block (merged) or per block and thread, provided clocks do not go back, every entered block was left, and totals fit. Each condition is shown necessary: open block (undefined), negative time (wrong average), 36 minutes in microseconds (undefined conversion)."
  },
  {
   "property": "C80",
   "status": "partial",
   "theorems": [
    "Verif.C80_map_partial",
    "Verif.C80_tail_fails"
   ],
   "note": "Composition of the front end, submap thread, optimiser end, GPS alignment and map saving: the saved points are exactly the key frames at their final poses (C80_map_partial). Partial: clouds out of order (C58_late_fails) and the key frames after the last complete submap, which are lost (C80_tail_fails)."
  },
  {
   "property": "C81",
   "status": "partial",
   "theorems": [
    "Verif.C81_clouds",
    "Verif.C81_gps",
    "Verif.C81_odom_stored",
    "Verif.C81_odom_iff",
    "Verif.C81_odom_partial",
    "Verif.C81_urdf",
    "Verif.C81_urdf_lookup",
    "Verif.C81_urdf_moving",
    "Verif.C81_wait",
    "Verif.C81_gyro",
    "Verif.C81_acc",
    "Verif.C81_acc_partial",
    "Verif.C81_acc_fails",
    "Verif.C81_odom_fails",
    "Verif.C81_twice_fails"
   ],
   "note": "Clouds, turn rates, GPS constraints, URDF look-up and waiting proved for all mountings. Odometry: the constraint is right exactly if the lidar's mounting commutes with the motion (C81_odom_iff, C81_odom_fails). Accelerations: bounded error for rotation about the vertical axis, wrong otherwise (C81_acc_partial, C81_acc_fails). The same cloud handed over twice is moved twice (C81_twice_fails)."
  },
  {
   "property": "C82",
   "status": "partial",
   "theorems": [
    "Verif.C82_turn",
    "Verif.C82_trigger",
    "Verif.C82_unique_partial",
    "Verif.C82_level_partial",
    "Verif.C82_straight_fails",
    "Verif.C82_rounding_fails"
   ],
   "note": "Proved: the measured turn is the greatest angle between the first heading and the others (C82_turn); the frame is solved exactly at the first frame with enough readings and turn, with the readings before it (C82_trigger). Uniqueness is false in general (C82_straight_fails: a straight drive ending in a turn is solved with readings on one line) and proved for readings that span a triangle (C82_unique_partial) or, for frames that differ by a rotation about the vertical, for two places apart (C82_level_partial). With rounded rotation matrices the turn may be NaN and the sort undefined (C82_rounding_fails)."
  },
  {
   "property": "C83",
   "status": "partial",
   "theorems": [
    "Verif.C83_clamp",
    "Verif.C83_power_partial",
    "Verif.C83_power_fails",
    "Verif.C83_angle_partial",
    "Verif.C83_angle_float_fails",
    "Verif.C83_angle_loop_fails",
    "Verif.C83_line_iff",
    "Verif.C83_line_fails",
    "Verif.C83_plane",
    "Verif.C83_plane_few"
   ],
   "note": "Proved: clamping (C83_clamp), the plane (C83_plane, given left singular vectors; C83_plane_few). The distance to a line is right exactly for directions of length one (or points straight beside the origin), else too large (C83_line_iff, C83_line_fails). The normalised angle is right for exact numbers (C83_angle_partial); in single precision it can exceed π (C83_angle_float_fails) and in double precision the loop does not end for large angles (C83_angle_loop_fails). The power is right for exponents that are not negative (C83_power_partial, C83_power_fails)."
  },
  {
   "property": "C84",
   "status": "partial",
   "theorems": [
    "Verif.C84_imu",
    "Verif.C84_odom_partial",
    "Verif.C84_child_frame_fails",
    "Verif.C84_fix",
    "Verif.C84_cloud_partial",
    "Verif.C84_dense",
    "Verif.C84_dense_fails",
    "Verif.C84_bag_partial",
    "Verif.C84_last_second_fails"
   ],
   "note": "Contents of inertial, odometry and GPS messages are kept, and the dispatch by type and topic is exact, once and in order. False in full: messages of the last second of the bag never arrive, a cloud wrongly marked dense keeps its NaN points, the odometry's child frame is lost (all three witnessed). Live subscription (queues of ROS) is not modelled."
  },
  {
   "property": "C85",
   "status": "partial",
   "theorems": [
    "Verif.C85_missing_end",
    "Verif.C85_edges",
    "Verif.C85_path",
    "Verif.C85_submaps_partial",
    "Verif.C85_submap_pose",
    "Verif.C85_first_submap_fails",
    "Verif.C85_local_map"
   ],
   "note": "Lines, path and local map are exact. Every submap but the first is shown once, in order; the first is never shown (witnessed). The random thinning of the local map and the ROS messages are not modelled."
  },
  {
   "property": "C86",
   "status": "partial",
   "theorems": [
    "Verif.C86_seconds",
    "Verif.C86_order",
    "Verif.C86_durations",
    "Verif.C86_dates_fails",
    "Verif.C86_dates_partial",
    "Verif.C86_share",
    "Verif.C86_from",
    "Verif.C86_decimal_fails",
    "Verif.C86_round_trip_partial",
    "Verif.C86_round_trip_fails"
   ],
   "note": "Seconds, order, durations, the interpolation share and FromSec are proved for all stamps (C86_seconds, C86_order, C86_durations, C86_share, C86_from). The round trip is false (C86_round_trip_fails, C86_dates_fails, C86_decimal_fails); proved instead: less than half a microsecond (C86_round_trip_partial, C86_dates_partial)."
  },
  {
   "property": "C87",
   "status": "proved",
   "theorems": [
    "Verif.C87_place",
    "Verif.C87_millimetres",
    "Verif.C87_cloud",
    "Verif.C87_twice",
    "Verif.C87_twice_millimetres",
    "Verif.C87_far_fails"
   ],
   "note": "Error bounds for every pose, point and rounding mode (fused or not), for one and two placements; C87_far_fails shows that the bound on the distance is needed."
  },
  {
   "property": "C88",
   "status": "partial",
   "theorems": [
    "Verif.C88_file",
    "Verif.C88_millimetre",
    "Verif.C88_asked",
    "Verif.C88_scan_fails"
   ],
   "note": "C88_file, C88_millimetre and C88_asked hold for all trajectories and poses. A line for every scan is false (C88_scan_fails): there is one for every submap."
  },
  {
   "property": "C89",
   "status": "partial",
   "theorems": [
    "Verif.C89_builds_partial",
    "Verif.C89_once_partial",
    "Verif.C89_outside_partial",
    "Verif.C89_stops_fails",
    "Verif.C89_lost_fails"
   ],
   "note": "Proved for every cube that can be halved exactly down to the greatest depth (the default 100 m cube around the origin is one): built without a failed check, every point inside exactly once and inside its leaf, nothing invented, points clearly outside dropped. False for other cubes: the default size around (12.3, 45.6, 7.8) fails a check as soon as the cube is divided (C89_stops_fails); around (0, 0, 1.7) points at the centre are lost silently (C89_lost_fails)."
  },
  {
   "property": "C90",
   "status": "partial",
   "theorems": [
    "Verif.C90_removed",
    "Verif.C90_removed_default",
    "Verif.C90_kept_partial",
    "Verif.C90_kept_default",
    "Verif.C90_grazed",
    "Verif.C90_rounding",
    "Verif.C90_weak_hits_fails",
    "Verif.C90_crossed_fails"
   ],
   "note": "Removal holds for all admissible settings (205 rays; 22 with the supplied settings). Keeping holds for hit probabilities of at least 0.511 (205 points; with the supplied 0.55 fourteen, or three in a new voxel; also with one grazing ray per scan, C90_grazed). False below: a hit probability of 0.503 is accepted but every hit is rounded away (C90_weak_hits_fails); with the supplied settings a point seen in every scan never gets into the map if two rays of each scan cross its voxel first (C90_crossed_fails). C90_rounding: float logarithms cannot change the steps of the supplied settings."
  },
  {
   "property": "C91",
   "status": "partial",
   "theorems": [
    "Verif.C91_ray_partial",
    "Verif.C91_exact",
    "Verif.C91_power_of_two",
    "Verif.C91_face_fails",
    "Verif.C91_wrapped_fails",
    "Verif.C91_overflow_fails",
    "Verif.C91_shift_fails",
    "Verif.C91_index",
    "Verif.C91_dda_partial",
    "Verif.C91_dda_defined",
    "Verif.C91_no_overflow",
    "Verif.C91_stored",
    "Verif.C91_defined_partial",
    "Verif.C91_map_exact",
    "Verif.C91_full_voxel_fails"
   ],
   "note": "Proved: within 2^23 voxels of the origin casting in float and int never overflows or aborts and joins the voxels of the two points, the lower face being blurred by one part in 2^24 (C91_ray_partial, C91_stored, C91_defined_partial); exact away from faces (C91_exact, C91_map_exact: the whole map equals that of exact arithmetic) and for voxel sizes that are powers of two (C91_power_of_two). False in general: at the supplied 0.1 m the point (1,0,0) is counted to the next voxel (C91_face_fails), far points wrap or overflow (C91_wrapped_fails, C91_overflow_fails), and their length is not checked in full voxels (C91_full_voxel_fails); the unused caster shifts negative numbers (C91_shift_fails). NaN coordinates are not modelled."
  },
  {
   "property": "C92",
   "status": "partial",
   "theorems": [
    "Verif.C92_supplied",
    "Verif.C92_history",
    "Verif.C92_direction",
    "Verif.C92_bottom",
    "Verif.C92_edge_fails"
   ],
   "note": "Proved for the supplied probabilities (0.55 with 0.48 or 0.49): any implementation accurate to 2^-19 gives the exact index (C92_supplied) and the exact history (C92_history); for all admissible probabilities the direction of every update and the bottom after 205 misses (C92_direction, C92_bottom). Exactness for all probabilities is false (C92_edge_fails: 0.5625 gives exactly 144, and an accurate implementation may store 143). That float arithmetic and the C library meet the bound of 2^-19 is a hypothesis."
  },
  {
   "property": "C93",
   "status": "partial",
   "theorems": [
    "Verif.C93_voxel_grid_partial",
    "Verif.C93_defined",
    "Verif.C93_wrap_fails",
    "Verif.C93_map_average_partial",
    "Verif.C93_map_average_fails"
   ],
   "note": "Voxel-grid filter: proved for float coordinates within 2^30 voxels of the origin and at most 2^29 points (C93_voxel_grid_partial); beyond it the voxel numbers wrap (C93_wrap_fails). Averaged map: error bound proved (C93_map_average_partial), but staying in the voxel is false: the float sum of three equal points is rounded and the average lands in the next voxel (C93_map_average_fails)."
  },
  {
   "property": "C94",
   "status": "partial",
   "theorems": [
    "Verif.C94_csv",
    "Verif.C94_csv_fails",
    "Verif.C94_csv_exit",
    "Verif.C94_sample_partial",
    "Verif.C94_sample_all",
    "Verif.C94_sample_full_fails",
    "Verif.C94_sample_negative_fails",
    "Verif.C94_sample_range_fails",
    "Verif.C94_las_partial",
    "Verif.C94_las_integers_fails",
    "Verif.C94_las_truncated",
    "Verif.C94_sampler_missing",
    "Verif.C94_las_report",
    "Verif.C94_las_missing_fails",
    "Verif.C94_las_many_fails"
   ],
   "note": "Proved: the table (C94_csv), sampling for ratios in [0,1] and up to 2^30 points (C94_sample_partial), keeping all for up to 2^24 points (C94_sample_all), LAS for floating point fields, less than 2^31 points and 21000 km (C94_las_partial). False otherwise: C94_csv_fails (two positions, one row), C94_sample_full_fails (a point lost at ratio 1), C94_sample_negative_fails (negative ratio keeps all), C94_sample_range_fails (undefined), C94_las_integers_fails (integer fields become 0), C94_las_missing_fails (unreadable input gives an empty file and success), C94_las_many_fails."
  },
  {
   "property": "C95",
   "status": "partial",
   "theorems": [
    "Verif.C95_turn",
    "Verif.C95_angle",
    "Verif.C95_tiny_partial",
    "Verif.C95_ends",
    "Verif.C95_stops",
    "Verif.C95_rigid_fails",
    "Verif.C95_compensated",
    "Verif.C95_inner_fails",
    "Verif.C95_inner_fractions",
    "Verif.C95_odom_partial",
    "Verif.C95_set_pose",
    "Verif.C95_odom_fails"
   ],
   "note": "Proved over the reals with Eigen's slerp written out: C95_turn, C95_angle, C95_ends, C95_stops, C95_compensated, C95_set_pose; odometry for unit quaternions (C95_odom_partial). For rotations nearer than the machine epsilon the result is within epsilon of a rotation (C95_tiny_partial) but not one (C95_rigid_fails). Also false: quaternions not of length 1 (C95_odom_fails), and the compensation inside the fast ICP, which reads an uninitialised matrix (C95_inner_fails)."
  },
  {
   "property": "C96",
   "status": "partial",
   "theorems": [
    "Verif.C96_range_partial",
    "Verif.C96_range_fails",
    "Verif.C96_only_numbers",
    "Verif.C96_submap_partial",
    "Verif.C96_checked",
    "Verif.C96_invalid_fails",
    "Verif.C96_axis",
    "Verif.C96_random",
    "Verif.C96_box",
    "Verif.C96_stack",
    "Verif.C96_filters_fail",
    "Verif.C96_cleaned",
    "Verif.C96_far_fails",
    "Verif.C96_ground"
   ],
   "note": "Proved: a range filter anywhere in the chain leaves only numbers, within the limits up to 2^-21 (both directions, with the correctly rounded square root); with an upper limit up to 2^20 m and moderate poses a submap is always completed, checked or not, and holds only numbers; what a checked submap guarantees; messages not marked dense are cleaned. False in general: at the limits rounding goes either way (C96_range_fails); axis, box and random filters keep not-a-number, so a cloud marked dense aborts the submap check or puts it in the map (C96_filters_fail, C96_invalid_fails); the KITTI configuration has no upper limit and a far point aborts (C96_far_fails); the ground removal is undefined on such points (C96_ground)."
  },
  {
   "property": "C97",
   "status": "partial",
   "theorems": [
    "Verif.C97_process_time_partial",
    "Verif.C97_process_time_fails",
    "Verif.C97_total_time_partial",
    "Verif.C97_total_time_fails",
    "Verif.C97_share_partial",
    "Verif.C97_share_fails",
    "Verif.C97_log_partial",
    "Verif.C97_log_fails",
    "Verif.C97_negative",
    "Verif.C97_missing",
    "Verif.C97_label",
    "Verif.C97_unreadable",
    "Verif.C97_skipped",
    "Verif.C97_wrapped",
    "Verif.C97_unnamed"
   ],
   "note": "For files as the kernel writes them and a name without blanks every turn writes one right line (C97_log_partial). It fails for a name with a blank (fields 13 to 16 are read, C97_process_time_fails), for time waiting for disks and on interrupts (C97_total_time_fails), for a file that cannot be opened at the second reading (C97_share_fails) and for a process without sizes (undefined values, C97_log_fails)."
  },
  {
   "property": "C98",
   "status": "partial",
   "theorems": [
    "Verif.C98_first_partial",
    "Verif.C98_last_fails",
    "Verif.C98_small_fails",
    "Verif.C98_all",
    "Verif.C98_again_fails",
    "Verif.C98_shorter_fails",
    "Verif.C98_least_fails",
    "Verif.C98_default"
   ],
   "note": "On the first call, when the last point of the cloud is a plane point, the output is right, with all float roundings (C98_first_partial), and with a rate above 0.999999 the input is copied (C98_all). In every other first call the front of an empty vector is read (C98_last_fails, C98_small_fails); a second call finds the voxels of the first and loses plane points (C98_again_fails) or reads outside the cloud (C98_shorter_fails)."
  },
  {
   "property": "C99",
   "status": "partial",
   "theorems": [
    "Verif.C99_chain",
    "Verif.C99_time",
    "Verif.C99_accepted",
    "Verif.C99_nodes",
    "Verif.C99_gravity_fails",
    "Verif.C99_rest_fails",
    "Verif.C99_zero_fails",
    "Verif.C99_no_measurement_fails"
   ],
   "note": "C99_chain, C99_time, C99_accepted, C99_nodes hold for every history: one node per position, every measurement once and in its interval, the time counted once, stops exactly on stamps that do not increase. Not true of the code: gravity is the time constant (C99_gravity_fails), the initial velocity is uninitialised (C99_rest_fails), a recording that starts at stamp 0 (C99_zero_fails), positions without measurements between them (C99_no_measurement_fails). GTSAM's prediction and optimiser are parameters; the class is not used by the program."
  },
  {
   "property": "C100",
   "status": "partial",
   "theorems": [
    "Verif.C100_points_partial",
    "Verif.C100_exact",
    "Verif.C100_join",
    "Verif.C100_stack",
    "Verif.C100_edge_fails",
    "Verif.C100_exact_fails",
    "Verif.C100_stack_fails"
   ],
   "note": "Cover and error bound proved for points at least A/2^46 inside the area (A: size of the numbers); false for the outermost points (C100_edge_fails: a rounded edge leaves a point out), exact recovery false near the origin (C100_exact_fails), and a large map in small pieces overflows the stack (C100_stack_fails)."
  },
  {
   "property": "C101",
   "status": "partial",
   "theorems": [
    "Verif.C101_roundtrip_partial",
    "Verif.C101_exact",
    "Verif.C101_tab_fails",
    "Verif.C101_empty_fails",
    "Verif.C101_truncated",
    "Verif.C101_two_roots_fails",
    "Verif.C101_total",
    "Verif.C101_comment",
    "Verif.C101_text",
    "Verif.C101_doctype",
    "Verif.C101_doctype_inside",
    "Verif.C101_cdata",
    "Verif.C101_lines",
    "Verif.C101_lines_value"
   ],
   "note": "The full claim is false for tabs (C101_tab_fails: written as they are, read as spaces) and for a document without elements (C101_empty_fails). Proved: the round trip for all documents with tabs read as spaces (C101_roundtrip_partial), exactly without tabs (C101_exact); every cut of a file with one outermost element is rejected (C101_truncated; not so with two, C101_two_roots_fails); comments and layout (C101_comment), texts (C101_text), document types in front of the document (C101_doctype) and inside of it (C101_doctype_inside), CDATA sections with any line ends (C101_cdata), termination (C101_total). Encodings other than UTF-8: C108."
  },
  {
   "property": "C102",
   "status": "partial",
   "theorems": [
    "Verif.C102_int",
    "Verif.C102_hex",
    "Verif.C102_int_roundtrip",
    "Verif.C102_double_roundtrip",
    "Verif.C102_float_roundtrip",
    "Verif.C102_double_reads",
    "Verif.C102_float_nearest_fails",
    "Verif.C102_no_number_fails",
    "Verif.C102_bool",
    "Verif.C102_bool_space_fails",
    "Verif.C102_attribute"
   ],
   "note": "C102_double_roundtrip, C102_float_roundtrip, C102_int_roundtrip: what is written is read again. C102_int, C102_hex: whole numbers and their limits. C102_double_reads: the nearest double. C102_attribute: defaults. C102_bool: switches. False of the code: what is no number is zero without a report (C102_no_number_fails), a float read from a long text is not the nearest one (C102_float_nearest_fails), a switch behind white space is off (C102_bool_space_fails)."
  },
  {
   "property": "C103",
   "status": "proved",
   "theorems": [
    "Verif.C103_description",
    "Verif.C103_join",
    "Verif.C103_join_fails",
    "Verif.C103_same_name_fails",
    "Verif.C103_map",
    "Verif.C103_map_missing",
    "Verif.C103_wrong_kind",
    "Verif.C103_no_file",
    "Verif.C103_left_out"
   ],
   "note": "Writer, XML text, parser and reader composed. C103_join_fails and C103_same_name_fails show that the conditions on names are needed: with a tab in the prefix, an output path without a slash, a description in its own directory or one named like a piece, all points are lost without an error."
  },
  {
   "property": "C104",
   "status": "partial",
   "theorems": [
    "Verif.C104_options",
    "Verif.C104_filters",
    "Verif.C104_filter_tables",
    "Verif.C104_unusable_fails",
    "Verif.C104_matchers",
    "Verif.C104_switch_fails",
    "Verif.C104_document"
   ],
   "note": "C104_document: every text that stands for a document is read as that document. C104_options, C104_filters, C104_matchers: what a started builder has got from the text; C104_filter_tables: parameters and defaults of the filters. The shipped default file is evaluated in the kernel as an example. False of the code: a switch between blanks, as the shipped files write parameters, is off (C104_switch_fails); a file without the expected root stops the program (C104_unusable_fails)."
  },
  {
   "property": "C105",
   "status": "partial",
   "theorems": [
    "Verif.C105_plane",
    "Verif.C105_space",
    "Verif.C105_rigid",
    "Verif.C105_noise_fails",
    "Verif.C105_distance",
    "Verif.C105_normal_partial",
    "Verif.C105_odometer",
    "Verif.C105_calibration",
    "Verif.C105_refused",
    "Verif.C105_heading_fails",
    "Verif.C105_report_partial",
    "Verif.C105_report_fails",
    "Verif.C105_row",
    "Verif.C105_moved"
   ],
   "note": "C105_plane, C105_space: exact tracks are matched exactly. C105_rigid: no abort, always a turn. C105_distance, C105_odometer: residuals are distances to the path. C105_calibration, C105_refused: the calibration. False of the code: headings near zero are averaged to half a turn, however small the errors (C105_noise_fails); the direction of a submap on a slope has the wrong sign (C105_heading_fails); the residual with a normal is a distance only for normals of length one (C105_normal_partial); the errors written to a file are the distances from the path only where it is level (C105_report_partial, C105_report_fails)."
  },
  {
   "property": "C106",
   "status": "partial",
   "theorems": [
    "Verif.C106_first_partial",
    "Verif.C106_again_fails",
    "Verif.C106_outside_fails"
   ],
   "note": "True of the first call (C106_first_partial): all clouds once, with the pairs found at the given poses (the later four rounds find the same pairs again). Not of a second call: the clouds stay in the graph, so a cloud added in between is missing and the first is there twice (C106_again_fails), or points outside of a cloud are read (C106_outside_fails). PCL's pairing and solving are parameters; the class is not used by the program."
  },
  {
   "property": "C107",
   "status": "partial",
   "theorems": [
    "Verif.C107_pixel",
    "Verif.C107_kept",
    "Verif.C107_covers",
    "Verif.C107_view_fails",
    "Verif.C107_flat_fails",
    "Verif.C107_angle_partial",
    "Verif.C107_two_columns_fails",
    "Verif.C107_picture_partial",
    "Verif.C107_picture_far_fails",
    "Verif.C107_picture_zero_fails"
   ],
   "note": "C107_pixel: which pixel a point in direction (elevation, azimuth) gets, over the reals, exactly (and that the integer conversions are defined, given the row fits in an int); C107_covers: every direction in the field has a row and a column, the row being unique; C107_kept: a point is kept exactly if it is off the axis, has a pixel and the pixel is free, and the pixel then holds its distance; C107_angle_partial: the angle test of neighbouring pixels is the angle of the triangle at the further point; C107_picture_partial: grey, green and repeated pixels of the picture. False: C107_view_fails (points up to one row below the field are kept in row 0, the conversion to int cuts towards zero), C107_flat_fails (equal angles are accepted and undefined), C107_two_columns_fails (steps of two columns use the angle of one), C107_picture_far_fails (pixels beyond the limit repeat the row above, or are not set), C107_picture_zero_fails. Not proved: rounding of the float arithmetic at pixel borders."
  },
  {
   "property": "C108",
   "status": "partial",
   "theorems": [
    "Verif.C108_latin1_iff",
    "Verif.C108_marked",
    "Verif.C108_utf8",
    "Verif.C108_unmarked",
    "Verif.C108_latin1",
    "Verif.C108_saved",
    "Verif.C108_settings",
    "Verif.C108_blank_fails",
    "Verif.C108_declared_fails",
    "Verif.C108_broken_fails"
   ],
   "note": "C108_marked: any text not empty, not starting with a zero or a second mark, in all five Unicode encodings with a byte order mark; C108_unmarked: texts starting with < followed by another character, without a mark; C108_utf8: all UTF-8 texts that do not declare Latin-1; C108_latin1_iff: a file is taken as Latin-1 exactly if its declaration says so; C108_latin1: and then read as such; C108_saved: saved documents; C108_settings: the start of the builder. False: UTF-16 without a mark that starts with an empty line is refused (C108_blank_fails), other declared encodings are ignored (C108_declared_fails), broken UTF-16 is not reported (C108_broken_fails). The in-place parsing of pure ASCII files declared as Latin-1 (last byte remembered instead of a zero added) is simplified."
  },
  {
   "property": "C109",
   "status": "partial",
   "theorems": [
    "Verif.C109_singular",
    "Verif.C109_solves",
    "Verif.C109_step",
    "Verif.C109_unseen",
    "Verif.C109_ground",
    "Verif.C109_noise_fails"
   ],
   "note": "Proved for every system (C109_singular, C109_solves) and every list of pairs (C109_step, C109_unseen, C109_ground), in exact arithmetic, for decompositions that are exact (shown to exist: exists_lib). Full claim false: planes that are nearly but not exactly parallel allow shifts of any size from a millimetre of distance (C109_noise_fails). The rounding of Eigen's rank decision is not modelled."
  },
  {
   "property": "C110",
   "status": "partial",
   "theorems": [
    "Verif.C110_best",
    "Verif.C110_exact",
    "Verif.C110_weightless",
    "Verif.C110_inputs_fails",
    "Verif.C110_centred"
   ],
   "note": "Optimality and exactness proved (C110_best, C110_exact), for any exact singular value decomposition (shown to exist: exists_svdOk); no result exactly without weight (C110_weightless). Full claim false: the clouds handed in come back with their means taken off (C110_inputs_fails, C110_centred). The function is not called by the program."
  },
  {
   "property": "C111",
   "status": "partial",
   "theorems": [
    "Verif.C111_line",
    "Verif.C111_order",
    "Verif.C111_runs",
    "Verif.C111_mounts",
    "Verif.C111_settings",
    "Verif.C111_starts",
    "Verif.C111_refused",
    "Verif.C111_no_settings_fails",
    "Verif.C111_imu_frame_fails",
    "Verif.C111_first",
    "Verif.C111_topic_forgotten",
    "Verif.C111_script_gps",
    "Verif.C111_script_only",
    "Verif.C111_script_imu",
    "Verif.C111_script_kitti",
    "Verif.C111_shell_fails",
    "Verif.C111_recording_fails",
    "Verif.C111_forgotten_fails",
    "Verif.C111_brackets",
    "Verif.C111_brackets_length"
   ],
   "note": "Options, sensors, mountings, settings, displays and the four scripts are proved for all command lines and worlds; false of the code: without a settings file a null pointer is passed on, the default IMU frame is refused by tf2, a recording that is missing is ignored, a forgotten value is replaced by the next option, and the unquoted display word is a shell pattern."
  },
  {
   "property": "C112",
   "status": "partial",
   "theorems": [
    "Verif.C112_best",
    "Verif.C112_balance",
    "Verif.C112_exact",
    "Verif.C112_exact_turning",
    "Verif.C112_even",
    "Verif.C112_seam",
    "Verif.C112_wrong_loop_fails",
    "Verif.C112_gps_start",
    "Verif.C112_gps_start_partial",
    "Verif.C112_gps_exact_fails"
   ],
   "note": "Exactly one best map (C112_best), force balance (C112_balance), exact data reproduced (C112_exact, for any group of poses C112_exact_turning), even spreading of loop errors (C112_even, C112_seam), GPS start (C112_gps_start). Quantitative theorems for vehicles that do not turn; that gtsam finds the minimum is not proved. False of the code: a wrong loop moves the map by a fixed share of its error whatever its size (C112_wrong_loop_fails); exact GPS data do not give the exact shift (C112_gps_exact_fails, error below 1/17000: C112_gps_start_partial)."
  },
  {
   "property": "C113",
   "status": "partial",
   "theorems": [
    "Verif.C113_given",
    "Verif.C113_accepts",
    "Verif.C113_own_loop_fails",
    "Verif.C113_noted",
    "Verif.C113_too_many",
    "Verif.C113_misplaced",
    "Verif.C113_base",
    "Verif.C113_join",
    "Verif.C113_consistent",
    "Verif.C113_prior_once_fails",
    "Verif.C113_last_fails",
    "Verif.C113_exact_partial",
    "Verif.C113_anchor",
    "Verif.C113_far_fails"
   ],
   "note": "Proved for all calls and maps (C113_given, C113_accepts, C113_base, C113_join, C113_consistent, C113_exact_partial, C113_anchor). False in the code: the prior of a first submap is given once per further submap until the first connection (C113_prior_once_fails); every trajectory is anchored, so loops move a map by 0.4 m per loop at most (C113_far_fails); the last base submap is never compared (C113_last_fails); a loop inside one trajectory aborts (C113_own_loop_fails)."
  },
  {
   "property": "C114",
   "status": "partial",
   "theorems": [
    "Verif.C114_edge",
    "Verif.C114_aborts",
    "Verif.C114_joined_fails",
    "Verif.C114_all",
    "Verif.C114_score",
    "Verif.C114_reported",
    "Verif.C114_start",
    "Verif.C114_level_partial",
    "Verif.C114_slope_partial",
    "Verif.C114_slope_fails",
    "Verif.C114_true_loop_partial",
    "Verif.C114_true_loop_fails"
   ],
   "note": "The edge of each candidate (start, transform, score, when it is made), aborts, all candidates in every order of ending, the meaning of the score and the agreement of reported edges are proved in full. That the match starts from the known relative pose holds on level ground only (C114_level_partial, C114_slope_partial): C114_slope_fails has two rightly placed submaps whose match starts 15 m off. Right matches are reported if the older submaps are right relative to each other (C114_true_loop_partial); C114_true_loop_fails refuses right matches after 0.3 m of drift. C114_joined_fails: when maps are joined every candidate stops the program, since submaps read from a file have no cloud. The matcher is a parameter."
  },
  {
   "property": "C115",
   "status": "partial",
   "theorems": [
    "Verif.C115_box",
    "Verif.C115_slots",
    "Verif.C115_short",
    "Verif.C115_null",
    "Verif.C115_nearest_partial",
    "Verif.C115_index_fails",
    "Verif.C115_index_partial"
   ],
   "note": "The box, the slots of all answers for every order of the threads, null pointers and short arrays are proved in full. The indices are those of the nearest points only after a look-up in the order of the tree (C115_nearest_partial) or if the tree keeps the order (C115_index_partial): C115_index_fails has a right tree and a right search where the nearest point is missing from the indices returned. Tree builder and search of the cugar library are parameters; counts are not negative; coordinates are rational. The file is not built by the project's CMake files."
  },
  {
   "property": "C116",
   "status": "partial",
   "theorems": [
    "Verif.C116_ctrv",
    "Verif.C116_same",
    "Verif.C116_odom_fails",
    "Verif.C116_second",
    "Verif.C116_first",
    "Verif.C116_gravity"
   ],
   "note": "Proved in full: without an IMU odometry is ignored, the first message is stored without effect, the gravity estimate changes nothing and is defined exactly from the newest pose on, and every history that goes on has the predictions it has without odometry. That odometry never stops the program is false: C116_odom_fails, C116_second (a 3x3 matrix is made from a 3x1 block, pose_extrapolator.cc:168). Rotations are parameters as in C45; an extrapolator made by calling the constructor directly is not modelled."
  },
  {
   "property": "C117",
   "status": "partial",
   "theorems": [
    "Verif.C117_cells_partial",
    "Verif.C117_faces",
    "Verif.C117_own",
    "Verif.C117_touching",
    "Verif.C117_stale_fails",
    "Verif.C117_empty",
    "Verif.C117_own_fails"
   ],
   "note": "False as stated: the 26-cell search leaves out the cell the point is in (C117_own_fails), and after a cloud that needs too many cells the previous cloud's cells are still given (C117_stale_fails). Proved: for every table of steps, cloud and query point exactly the cells with enough points are given, each with its mean (C117_cells_partial); the 7-cell and 1-cell tables are exactly the face neighbours and the own cell (C117_faces, C117_own); the 26-cell table is exactly the touching cells without the own one (C117_touching); nothing is found before a cloud is set (C117_empty). The 26-cell table is PCL's and is taken from its documentation."
  },
  {
   "property": "C118",
   "status": "partial",
   "theorems": [
    "Verif.C118_counts",
    "Verif.C118_example",
    "Verif.C118_tickets",
    "Verif.C118_distinct",
    "Verif.C118_copy_fails",
    "Verif.C118_exchange_fails",
    "Verif.C118_values",
    "Verif.C118_wrap"
   ],
   "note": "False for assignments between wrappers, which are a load and a store: an increment in between is lost (C118_copy_fails) and two crossing assignments can exchange values (C118_exchange_fails). Proved under every interleaving: the sum of increments (C118_counts), the handed-out numbers (C118_tickets, C118_distinct), the values a thread gets (C118_values), the output of the supplied example (C118_example), wrap-around at the end of the word (C118_wrap)."
  },
  {
   "property": "C119",
   "status": "partial",
   "theorems": [
    "Verif.C119_exactly_partial",
    "Verif.C119_kept",
    "Verif.C119_twice_fails",
    "Verif.C119_destroy_fails",
    "Verif.C119_init_fails",
    "Verif.C119_before_fails",
    "Verif.C119_again_fails",
    "Verif.C119_progress",
    "Verif.C119_progress_fails"
   ],
   "note": "False as stated. C119_exactly_partial: a history is safe under every schedule exactly if the builder is initialised first and once, ended at most once and destroyed only after that. Otherwise: ending twice (C119_twice_fails), destroying without ending (C119_destroy_fails) and initialising twice (C119_init_fails) stop the program, ending or inserting before the start is undefined (C119_before_fails), a second run may hang and ignores all clouds (C119_again_fails). C119_kept: the clouds that reach the collector. The percentage shown is that of the clouds already handled (C119_progress) and not a number if none was waiting (C119_progress_fails)."
  },
  {
   "property": "C120",
   "status": "partial",
   "theorems": [
    "Verif.C120_found",
    "Verif.C120_once",
    "Verif.C120_column",
    "Verif.C120_crowded_fails",
    "Verif.C120_near_fails",
    "Verif.C120_key",
    "Verif.C120_grid",
    "Verif.C120_grid_fails"
   ],
   "note": "Lookup and iteration are proved for every sequence of insertions and growths, that the voxel grid filter meets the groups of points that share a cell (so that C24 applies to the table as it is), and that the last coordinate alone never makes two cells share a hash. Distinct hashes are false: neighbouring cells share them (C120_near_fails), and in a range image of the default size at least seventeen pixels share one (C120_crowded_fails). Cells 2^32 apart are one (C120_grid_fails)."
  },
  {
   "property": "C121",
   "status": "partial",
   "theorems": [
    "Verif.C121_cells_partial",
    "Verif.C121_definite",
    "Verif.C121_search_partial",
    "Verif.C121_search_fails",
    "Verif.C121_defined_partial",
    "Verif.C121_centroid_fails",
    "Verif.C121_wide_fails",
    "Verif.C121_refused",
    "Verif.C121_far_fails"
   ],
   "note": "Proved for single-precision points within 2^22 cells of the origin: cells are intervals in order, exact for the cell side the program sets (1 m) and at most one off otherwise; one leaf per occupied cell with the right count, a mean inside the box of its points, error bounds for mean, covariance and centroid, definiteness of the covariance after rounding, and no overflow when the cells can be numbered. False in general: centroid outside of equal points (C121_centroid_fails), search in another cell for sides that are no power of two (C121_search_fails), merged cells beyond 2^24 (C121_wide_fails), 64-bit overflow (C121_far_fails). The eigenvalue solver and the inverse are exact parameters in C65."
  },
  {
   "property": "C122",
   "status": "partial",
   "theorems": [
    "Verif.C122_gps",
    "Verif.C122_gps_answered",
    "Verif.C122_gps_no_abort",
    "Verif.C122_microsecond_fails",
    "Verif.C122_order",
    "Verif.C122_end_fails",
    "Verif.C122_single_partial",
    "Verif.C122_single_fails",
    "Verif.C122_odom",
    "Verif.C122_odom_no_abort",
    "Verif.C122_odom_answered",
    "Verif.C122_outside",
    "Verif.C122_odom_single_partial",
    "Verif.C122_half",
    "Verif.C122_odom_microsecond_fails",
    "Verif.C122_odom_digits_fails"
   ],
   "note": "Positions, gaps, order and absence of aborts proved with double and float rounding; not exact: the literal 1e-6 lets a gap of exactly a microsecond pass, the second reading can be overshot by a rounding, the threshold on a single reading is off by up to a microsecond with today's dates, odometry poses have seven digits."
  },
  {
   "property": "C123",
   "status": "partial",
   "theorems": [
    "Verif.C123_row",
    "Verif.C123_rigid_partial",
    "Verif.C123_map",
    "Verif.C123_position",
    "Verif.C123_long",
    "Verif.C123_place",
    "Verif.C123_float",
    "Verif.C123_float_map",
    "Verif.C123_drift_fails",
    "Verif.C123_million_fails"
   ],
   "note": "A bound on the loss of rigidity that does not grow with the number of key frames fails: C123_drift_fails, C123_million_fails. Proved: last row exact, loss at most 2n(d + 2^-44), position within 2^-46 n^2 l, premise of C87 for 40000 key frames with a float matcher, and with C87 the place of every map point within 7 mm (C123_place)."
  },
  {
   "property": "C124",
   "status": "partial",
   "theorems": [
    "Verif.C124_dense",
    "Verif.C124_between",
    "Verif.C124_spacing_partial",
    "Verif.C124_early_fails",
    "Verif.C124_off_fails",
    "Verif.C124_edge",
    "Verif.C124_time_fails"
   ],
   "note": "C124_dense and C124_between are proved over the real numbers for every sequence of rotations; a key frame has turned by a third of the angle at least (C124_spacing_partial), by the whole angle is false (C124_early_fails); the time is not used (C124_time_fails); small angles switch turning off (C124_off_fails, C124_edge)."
  },
  {
   "property": "C125",
   "status": "partial",
   "theorems": [
    "Verif.C125_residual",
    "Verif.C125_sign",
    "Verif.C125_ends",
    "Verif.C125_compensation",
    "Verif.C125_negative_partial",
    "Verif.C125_negative_fails",
    "Verif.C125_length_fails",
    "Verif.C125_order_fails"
   ],
   "note": "C125_residual and C125_sign: signed distance of the moved point (turn by the share of the angle, Rodrigues' formula); C125_ends; C125_compensation: the same motion as the mapper's. The full claim fails: C125_negative_fails (half turns: q and -q move a point from the middle of the scan to opposite sides; C125_negative_partial for all others), C125_length_fails (nothing keeps the four numbers of length 1), C125_order_fails (order of Eigen's storage). Turns so small that Eigen mixes linearly are covered by C125_compensation with C95_tiny_partial."
  },
  {
   "property": "C126",
   "status": "proved",
   "theorems": [
    "Verif.C126_pixel",
    "Verif.C126_outside",
    "Verif.C126_defined",
    "Verif.C126_same"
   ],
   "note": "Error analysis of every rounding between the coordinates and the pixel; rounding to nearest is shown to meet the hypotheses; underflow and overflow excluded by the range of coordinates."
  },
  {
   "property": "C127",
   "status": "proved",
   "theorems": [
    "Verif.C127_point",
    "Verif.C127_refused",
    "Verif.C127_everyday"
   ],
   "note": "Real numbers with explicit rounding; that the operations are within the bounds of IEEE 754 (half a unit in the last place; four units for acos and sin) is the hypothesis IeeeTrig, met by rounding to nearest (nearest_trig). Turns up to 90 degrees during a scan."
  },
  {
   "property": "C128",
   "status": "partial",
   "theorems": [
    "Verif.C128_clouds",
    "Verif.C128_imu_partial",
    "Verif.C128_map_partial",
    "Verif.C128_map_imu_partial",
    "Verif.C128_late_fails",
    "Verif.C128_imu_fails",
    "Verif.C128_end_fails"
   ],
   "note": "C128_clouds: without IMU and with clouds in the order of their stamps, if one run on a recording goes through and works on all clouds, every other interleaving goes through and ends in the same state (frames, poses, reference cloud, extrapolator). C128_imu_partial: the same frames with an IMU if the stamps grow and no inertial message comes after a cloud with a later stamp (the queue with its trimming is shown to act like one that knows all messages from the start). C128_map_partial, C128_map_imu_partial: the same key frames, one list of submaps begins the other, and equal saved maps if both submap threads saw all key frames. Missing, and false: a late inertial message counts, does not count, or stops the program depending on the timing (C128_imu_fails); an out-of-order cloud is dropped or becomes the reference (C128_late_fails); the last submap is in the map or not (C128_end_fails). Outside: filters that draw random numbers, the order in which loop matches end (C39, C114), poses without rotation (translation of the IMU mode)."
  },
  {
   "property": "C129",
   "status": "partial",
   "theorems": [
    "Verif.C129_submaps",
    "Verif.C129_frames",
    "Verif.C129_bound",
    "Verif.C129_frame_access_fails",
    "Verif.C129_no_disk_fails",
    "Verif.C129_gps",
    "Verif.C129_imu_fails"
   ],
   "note": "C129_submaps, C129_frames, C129_bound: for all histories, a saved submap left alone for more than the delay is not in memory, its frames leave memory at matching, and the number of submap clouds in memory is at most the number of submaps not saved or asked for recently. C129_gps: after a position has been asked for, one older GPS reading is left at most. Missing, and false: a frame that is asked for comes back for good (C129_frame_access_fails), nothing leaves memory without disk saving (C129_no_disk_fails), and inertial messages are stored without bound (C129_imu_fails). The delay must not be negative; ticks count forward."
  },
  {
   "property": "C130",
   "status": "partial",
   "theorems": [
    "Verif.C130_predicted_partial",
    "Verif.C130_ignored_fails",
    "Verif.C130_stored_fails",
    "Verif.C130_predicted_fails"
   ],
   "note": "Proved: when the two-stage matcher gives up, the cloud is placed exactly at the predicted pose. False otherwise, with proofs: for the other matchers nothing the front end does depends on score or flag (for every history), a cloud whose match is flagged as failed is stored five away from the prediction and becomes the reference, and a cloud placed by prediction alone also becomes a key frame."
  },
  {
   "property": "C131",
   "status": "partial",
   "theorems": [
    "Verif.C131_package_partial",
    "Verif.C131_map_partial",
    "Verif.C131_again_fails",
    "Verif.C131_power_fails"
   ],
   "note": "Proved for directories without an earlier description or map file: at every moment of ending (every prefix of the files saved, every beginning of the XML text, any contents of a cloud file under way) the reader refuses or gives the complete map. False in a directory that holds an earlier map (C131_again_fails: new piece at the old place) and when the power fails, because nothing is flushed (C131_power_fails)."
  },
  {
   "property": "C132",
   "status": "partial",
   "theorems": [
    "Verif.C132_swap_partial",
    "Verif.C132_swap_fails",
    "Verif.C132_description_partial",
    "Verif.C132_map_partial"
   ],
   "note": "Proved: a cloud whose whole file got on the disk is read back bit for bit, and one whose header did not get there stops the program (C132_swap_partial); a description or map file cut at any place is refused or gives everything (C132_description_partial, C132_map_partial). False in between, for every cloud (C132_swap_fails): the writer never looks at the stream's state and the reader's return value is ignored, so a cloud cut behind its header is read without an error with the missing points at the origin."
  },
  {
   "property": "C133",
   "status": "partial",
   "theorems": [
    "Verif.C133_flat_partial",
    "Verif.C133_best",
    "Verif.C133_line",
    "Verif.C133_through_fails",
    "Verif.C133_moved_fails"
   ],
   "note": "Over the real numbers. Proved: right normal, pointing away from the sensor, for every flat patch that is not on a line and whose plane does not contain the sensor (C133_flat_partial); best fit, unit length and direction for every patch that has a normal (C133_best); patches on a line are dropped (C133_line). False otherwise: a plane through the sensor passes the rank test and gives values that are not numbers (C133_through_fails), and the normal of a patch that is not flat depends on where the sensor stands (C133_moved_fails)."
  },
  {
   "property": "C134",
   "status": "partial",
   "theorems": [
    "Verif.C134_kept",
    "Verif.C134_flat_partial",
    "Verif.C134_run_partial",
    "Verif.C134_standing_fails"
   ],
   "note": "Over the real numbers, for every solver that is exact (C109) and every neighbour search. Proved: a prediction that puts the points on the planes of the target points found for them is kept exactly (C134_kept); in a scene of one plane every predicted motion along the plane is kept (C134_flat_partial); if the matcher keeps the prediction, every scan and every key frame of a run of the same scan stays at the start (C134_run_partial). Fails: a scan of four points of the ground and a post, matched with itself with the right prediction, is moved one metre up, because the target keeps only the mean of the patch while the source keeps the points (C134_standing_fails)."
  },
  {
   "property": "C135",
   "status": "partial",
   "theorems": [
    "Verif.C135_start_partial",
    "Verif.C135_start_fails",
    "Verif.C135_stop",
    "Verif.C135_answers",
    "Verif.C135_limit_fails",
    "Verif.C135_no_worse_partial",
    "Verif.C135_no_worse_fails"
   ],
   "note": "Over the real numbers, with PCL's minimiser as a parameter. Proved: the minimiser starts exactly at the matrix found so far unless its first axis points straight up or down (C135_start_partial); when the loop stops and which state it keeps (C135_stop); with a limit of at least one step an estimation fails only for fewer than four correspondences (C135_answers); if no step raises the value, the points are on average no further apart than before, for every guess (C135_no_worse_partial). Fails: with the first axis straight up or down the turn about the vertical is forgotten (C135_start_fails), so a perfect alignment is made worse by a minimiser that changes nothing (C135_no_worse_fails); a limit of 0 makes one step and then throws it away (C135_limit_fails). Not proved: that PCL's BFGS never raises the value."
  },
  {
   "property": "C136",
   "status": "partial",
   "theorems": [
    "Verif.C136_frame",
    "Verif.C136_normals_partial",
    "Verif.C136_moved_fails"
   ],
   "note": "Over the real numbers, for every solver that is exact (C109). Proved: for a target cloud with given normals the match in another frame is the same match in that frame, iteration by iteration, errors included (C136_frame); the means and normals of patches turn with the frame and the same patches are accepted (C136_normals_partial). Fails: when the origin is moved the normal of a patch that is not flat changes (C136_moved_fails), so the normals, and with them the match, depend on where the origin is. Not covered: rounding."
  },
  {
   "property": "C137",
   "status": "partial",
   "theorems": [
    "Verif.C137_points",
    "Verif.C137_scan_partial",
    "Verif.C137_target_partial",
    "Verif.C137_patch",
    "Verif.C137_compensated_fails",
    "Verif.C137_tie_fails"
   ],
   "note": "Order of the scan with shares given: C137_points, for every setting. The scan as it comes: C137_scan_partial without compensation of motion; with it the share is the place in the list and the order counts (C137_compensated_fails). Order of the target: C137_target_partial where the nearest point is one point at the poses passed; with ties the order counts (C137_tie_fails). Patches: C137_patch. Which points form a patch is decided by nth_element and is not covered. Over the real numbers."
  },
  {
   "property": "C138",
   "status": "partial",
   "theorems": [
    "Verif.C138_imu",
    "Verif.C138_run",
    "Verif.C138_map",
    "Verif.C138_map_start",
    "Verif.C138_predict",
    "Verif.C138_calls_partial",
    "Verif.C138_driver_partial",
    "Verif.C138_tracker_partial",
    "Verif.C138_turn",
    "Verif.C138_map_imu_partial",
    "Verif.C138_tracker_fails",
    "Verif.C138_zero_fails"
   ],
   "note": "For every recording, interleaving and shift the run from later stamps is the run, later: C138_run (frames, poses, failures), C138_map and C138_map_start (key frames, submaps, files) with an extrapolator that sees no date; C138_imu and C138_turn show this for the queue of inertial messages with its trackers, and C138_map_imu_partial is the whole run with them, started by a message after time zero. C138_calls_partial, C138_predict and C138_driver_partial: the extrapolator with velocities; C138_tracker_partial: orientation and gravity. Missing: stamps of zero, where the program reads 'no acceleration yet' and truncates differences (C138_tracker_fails, C138_zero_fails); the turn rate of pretended messages is one value."
  },
  {
   "property": "C139",
   "status": "partial",
   "theorems": [
    "Verif.C139_match",
    "Verif.C139_matches",
    "Verif.C139_agree",
    "Verif.C139_loops_partial",
    "Verif.C139_tipped_fails"
   ],
   "note": "Proved for every rigid motion: first guess, match, score, acceptance (C139_match, C139_matches) and the mutual check of the edges (C139_agree). The detector's own search (C139_loops_partial) is proved for shifts and turns about the vertical; for an inclined map the claim is false (C139_tipped_fails), because height has its own, smaller bound. The distances are rational numbers that equal the real distances of the positions."
  },
  {
   "property": "C140",
   "status": "partial",
   "theorems": [
    "Verif.C140_ray",
    "Verif.C140_map_partial",
    "Verif.C140_fresh_partial",
    "Verif.C140_output",
    "Verif.C140_output_colour",
    "Verif.C140_half_fails"
   ],
   "note": "Proved in exact arithmetic for shifts by whole voxels: rays (C140_ray), the map after any history (C140_map_partial, C140_fresh_partial) and both written clouds (C140_output, C140_output_colour). For other shifts the claim is false: points that share a voxel may be separated (C140_half_fails). What single precision and 32-bit indices change far from the origin is the subject of C91."
  },
  {
   "property": "C141",
   "status": "partial",
   "theorems": [
    "Verif.C141_range",
    "Verif.C141_height",
    "Verif.C141_random",
    "Verif.C141_member",
    "Verif.C141_chain",
    "Verif.C141_ground_partial",
    "Verif.C141_grid_partial",
    "Verif.C141_grid_fails",
    "Verif.C141_box_fails",
    "Verif.C141_axis_fails"
   ],
   "note": "Proved for every angle: range, height and random filters (C141_range, C141_height, C141_random; exact arithmetic, same random numbers) and all chains of such filters (C141_member, C141_chain). The two filters with cells are proved for quarter turns (C141_ground_partial, C141_grid_partial: their cells are symmetric about zero); for other turns the claim is false (C141_grid_fails), and for boxes and for limits along x or y it is false for quarter turns (C141_box_fails, C141_axis_fails)."
  },
  {
   "property": "C142",
   "status": "partial",
   "theorems": [
    "Verif.C142_valley",
    "Verif.C142_down_fails",
    "Verif.C142_higher",
    "Verif.C142_crossed",
    "Verif.C142_flatter",
    "Verif.C142_steeper",
    "Verif.C142_no_leap",
    "Verif.C142_parabola",
    "Verif.C142_trial_fails"
   ],
   "note": "C142_valley, C142_higher, C142_crossed, C142_flatter, C142_steeper, C142_parabola hold if the trial lies above the lower end (above the other end in the last case). Below it the square root in the formula has the wrong sign: C142_down_fails (for every polynomial with a cubic term the step computed is the local maximum), C142_trial_fails (a trial outside the interval)."
  },
  {
   "property": "C143",
   "status": "proved",
   "theorems": [
    "Verif.C143_shape",
    "Verif.C143_range",
    "Verif.C143_axis",
    "Verif.C143_random",
    "Verif.C143_box",
    "Verif.C143_image",
    "Verif.C143_member",
    "Verif.C143_chain",
    "Verif.C143_move",
    "Verif.C143_compensation",
    "Verif.C143_ground",
    "Verif.C143_grid",
    "Verif.C143_map",
    "Verif.C143_output",
    "Verif.C143_output_colour"
   ],
   "note": "For the range image row, column and distance of a point are parameters, which by hypothesis do not depend on brightness (they are computed from the coordinates, see C126). Down-sampling gives the points in some order, as the order of the table is not specified."
  },
  {
   "property": "C144",
   "status": "partial",
   "theorems": [
    "Verif.C144_range",
    "Verif.C144_axis",
    "Verif.C144_random",
    "Verif.C144_box",
    "Verif.C144_ground",
    "Verif.C144_output",
    "Verif.C144_match",
    "Verif.C144_chain_fails",
    "Verif.C144_key_fails"
   ],
   "note": "Proved for single filters, the output of the static map and the decision on matches. False for a chain in which a random sample follows another filter (C144_chain_fails: the random numbers go to other points) and for the number of key frames (C144_key_fails: driving to and fro, a greater distance gives more of them)."
  },
  {
   "property": "C145",
   "status": "partial",
   "theorems": [
    "Verif.C145_clouds",
    "Verif.C145_imu_partial",
    "Verif.C145_map",
    "Verif.C145_map_imu_partial",
    "Verif.C145_imu_fails",
    "Verif.C145_joined",
    "Verif.C145_loops",
    "Verif.C145_positions"
   ],
   "note": "Proved for clouds in order without IMU, over all timings of both runs, and for submaps, joined clouds, loops and positions. With IMU proved when no inertial message is late; false otherwise (C145_imu_fails)."
  },
  {
   "property": "C146",
   "status": "partial",
   "theorems": [
    "Verif.C146_range",
    "Verif.C146_axis",
    "Verif.C146_random",
    "Verif.C146_box",
    "Verif.C146_moved",
    "Verif.C146_poses",
    "Verif.C146_ground_partial",
    "Verif.C146_ground_fails",
    "Verif.C146_grid",
    "Verif.C146_map",
    "Verif.C146_output"
   ],
   "note": "Range (exact square root), axis, box, random and grid filters, moving, static map and its output are proved for every factor. Ground removal is proved for heights below 10^9 in both units; beyond that it is false (C146_ground_fails), because the search for the highest and lowest point of a cell begins at plus and minus 10^9. Axis limits equal to \"no limit\" in either unit are left out. Range image, outlier removal, plane-based sampling and scan matching are not covered."
  }
 ]
}