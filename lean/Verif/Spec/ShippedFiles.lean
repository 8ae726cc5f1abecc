import Verif.Model.Outcome
/-! The settings files that the mapping scripts name, character by character (config/*.xml). -/
namespace Verif.Spec

/-- The lines of a file, each ended by a line feed. -/
def textOf (lines : List (List Char)) : List Char := lines.flatMap fun l => l ++ ['\n']

/-- config/lidar_only.xml. -/
def lidarOnlyText : List Char := textOf
  ["<?xml version=\"1.0\"?>".toList,
   "<edward_liu>".toList,
   "  <static_mapping>".toList,
   "    <whole_options ".toList,
   "      export_file_path=\"pcd/\"".toList,
   "      map_package_path=\"pkgs/test/\"".toList,
   "      output_mrvm=\"false\"".toList,
   "      output_direct_combined_map=\"true\" />".toList,
   "    <map_package_options".toList,
   "      enable=\"false\"".toList,
   "      border_offset=\"100\"".toList,
   "      piece_width=\"500.\"".toList,
   "      cloud_file_prefix=\"part_\"".toList,
   "      descript_filename=\"map_package.xml\" />".toList,
   "    <filters>".toList,
   "      <!-- type: ".toList,
   "        0 : int".toList,
   "        1 : float  -->".toList,
   "      <filter name=\"Range\" >".toList,
   "        <param type=\"1\" name=\"max_range\"> 75. </param>".toList,
   "        <param type=\"1\" name=\"min_range\"> 4.5 </param>".toList,
   "      </filter>".toList,
   "      <filter name=\"RandomSampler\" >".toList,
   "        <param type=\"1\" name=\"sampling_rate\"> 0.5 </param>".toList,
   "      </filter>".toList,
   "    </filters>".toList,
   "    <front_end_options accumulate_cloud_num=\"151\">".toList,
   "      <!-- matcher type  ".toList,
   "        0: none ".toList,
   "        1: icp using pointmatcher ".toList,
   "        3: ndt&gicp ".toList,
   "        5: ndt (in test)".toList,
   "        6: fast icp (most recommended) -->".toList,
   "      <scan_matcher_options type=\"6\" >".toList,
   "        <registrator_options type = \"6\">".toList,
   "          <param name=\"dist_outlier_ratio\"> 0.7 </param>".toList,
   "          <param name=\"knn_normal_estimate\"> 7 </param>".toList,
   "          <param name=\"max_iteration\"> 100 </param>".toList,
   "        </registrator_options>".toList,
   "        <registrator_options type = \"3\">".toList,
   "          <param name=\"use_ndt\"> false </param>".toList,
   "        </registrator_options>".toList,
   "        <inner_filters>".toList,
   "          <filter name=\"GroundRemoval2\" >".toList,
   "            <param type=\"1\" name=\"r_min\"> 0.1 </param>".toList,
   "            <param type=\"1\" name=\"start_ground_height\"> -0.35 </param>".toList,
   "            <param type=\"1\" name=\"long_line_threshold\"> 10 </param>".toList,
   "            <param type=\"1\" name=\"max_slope\"> 0.12 </param>".toList,
   "            <param type=\"1\" name=\"max_error\"> 0.1 </param>".toList,
   "            <param type=\"1\" name=\"max_dist_to_line\"> 0.10 </param>".toList,
   "            <param type=\"1\" name=\"max_start_height\"> 0.6 </param>".toList,
   "            <param type=\"0\" name=\"thread_num\"> 4 </param>".toList,
   "          </filter>".toList,
   "          <filter name=\"RangeImage\" >".toList,
   "            <param type=\"1\" name=\"top_angle\"> 30. </param>".toList,
   "            <param type=\"1\" name=\"btm_angle\"> -20. </param>".toList,
   "            <param type=\"0\" name=\"vertical_line_num\"> 60 </param>".toList,
   "          </filter>".toList,
   "        </inner_filters>".toList,
   "      </scan_matcher_options>".toList,
   "      <!-- translation unit: m".toList,
   "           angle unit: degree -->".toList,
   "      <motion_filter ".toList,
   "        translation_range=\"1\"".toList,
   "        angle_range=\"1.5\"".toList,
   "        time_range=\"0.25\" />".toList,
   "      <!-- imu type ".toList,
   "          0: normal type".toList,
   "          1: imu in ins(combined imu) -->".toList,
   "      <imu_options ".toList,
   "        use_imu=\"false\"".toList,
   "        imu_frequency=\"200.\"".toList,
   "        type=\"0\"".toList,
   "        gravity_constant=\"9.8\" />".toList,
   "      <motion_compensation_options ".toList,
   "        enable=\"true\"".toList,
   "        use_average=\"true\" />".toList,
   "    </front_end_options>".toList,
   "    <back_end_options>".toList,
   "      <!-- type just the same as front end -->".toList,
   "      <submap_matcher_options ".toList,
   "        type=\"6\"".toList,
   "        accepted_min_score=\"0.7\">".toList,
   "        <registrator_options type = \"6\">".toList,
   "          <param name=\"dist_outlier_ratio\"> 0.7 </param>".toList,
   "          <param name=\"knn_normal_estimate\"> 7 </param>".toList,
   "          <param name=\"max_iteration\"> 100 </param>".toList,
   "        </registrator_options>".toList,
   "      </submap_matcher_options>".toList,
   "      <submap_options ".toList,
   "        frame_count=\"2\"".toList,
   "        enable_voxel_filter=\"false\"".toList,
   "        enable_random_sampleing=\"false\"".toList,
   "        enable_check=\"false\"".toList,
   "        random_sampling_rate=\"0.5\"".toList,
   "        enable_disk_saving=\"true\"".toList,
   "        disk_saving_delay=\"30\"".toList,
   "        saving_name_prefix=\"s_\" />".toList,
   "      <isam_optimizer_options ".toList,
   "        use_odom=\"false\"".toList,
   "        use_gps=\"false\" />".toList,
   "      <loop_detector_setting ".toList,
   "        use_gps=\"false\"".toList,
   "        use_descriptor=\"true\"".toList,
   "        output_matched_cloud=\"false\"".toList,
   "        loop_ignore_threshold=\"20\"".toList,
   "        trying_detect_loop_count=\"1\"".toList,
   "        max_close_loop_distance=\"5\"".toList,
   "        max_close_loop_z_distance=\"2.\"".toList,
   "        m2dp_match_score=\"0.975\"".toList,
   "        accept_scan_match_score=\"0.8\"".toList,
   "        nearest_history_pos_num=\"5\" />".toList,
   "    </back_end_options>".toList,
   "    <output_mrvm_settings".toList,
   "      output_average=\"false\"".toList,
   "      output_rgb=\"false\"".toList,
   "      prob_threshold=\"0.57\" ".toList,
   "      low_resolution=\"1.\" ".toList,
   "      high_resolution=\"0.1\"".toList,
   "      hit_prob=\"0.55\"".toList,
   "      miss_prob=\"0.48\"".toList,
   "      z_offset=\"0.\"".toList,
   "      max_point_num_in_cell=\"10\">".toList,
   "    </output_mrvm_settings>".toList,
   "  </static_mapping>".toList,
   "</edward_liu>".toList]

/-- config/lidar_only_kitti.xml. -/
def lidarKittiText : List Char := textOf
  ["<?xml version=\"1.0\"?>".toList,
   "<edward_liu>".toList,
   "  <static_mapping>".toList,
   "    <whole_options ".toList,
   "      export_file_path=\"pcd/\"".toList,
   "      map_package_path=\"pkgs/test/\" ".toList,
   "      separate_output=\"false\"".toList,
   "      output_mrvm=\"true\"".toList,
   "      output_direct_combined_map=\"false\"".toList,
   "      output_kitti_pose=\"true\"".toList,
   "      separate_step=\"200\" />".toList,
   "    <map_package_options".toList,
   "      enable=\"false\"".toList,
   "      border_offset=\"100\"".toList,
   "      piece_width=\"500.\"".toList,
   "      cloud_file_prefix=\"part_\"".toList,
   "      descript_filename=\"map_package.xml\" />".toList,
   "    <filters>".toList,
   "      <!-- type: ".toList,
   "        0 : int".toList,
   "        1 : float  -->".toList,
   "      <filter name=\"Range\" >".toList,
   "        <param type=\"1\" name=\"min_range\"> 5. </param>".toList,
   "      </filter>".toList,
   "      <filter name=\"AxisRange\" >".toList,
   "        <param type=\"1\" name=\"min\"> -2. </param>".toList,
   "      </filter>".toList,
   "      <!-- <filter name=\"GroundRemoval2\" >".toList,
   "        <param type=\"1\" name=\"r_min\"> 0.1 </param>".toList,
   "        <param type=\"1\" name=\"start_ground_height\"> -1.5 </param>".toList,
   "        <param type=\"1\" name=\"long_line_threshold\"> 10 </param>".toList,
   "        <param type=\"1\" name=\"max_slope\"> 0.12 </param>".toList,
   "        <param type=\"1\" name=\"max_error\"> 0.1 </param>".toList,
   "        <param type=\"1\" name=\"max_dist_to_line\"> 0.10 </param>".toList,
   "        <param type=\"1\" name=\"max_start_height\"> 0.6 </param>".toList,
   "        <param type=\"0\" name=\"thread_num\"> 4 </param>".toList,
   "      </filter> -->".toList,
   "      <filter name=\"RandomSampler\" >".toList,
   "        <param type=\"1\" name=\"sampling_rate\"> 0.5 </param>".toList,
   "      </filter>".toList,
   "    </filters>".toList,
   "    <front_end_options accumulate_cloud_num=\"1\">".toList,
   "      <!-- matcher type  ".toList,
   "        0: none ".toList,
   "        1: icp using pointmatcher ".toList,
   "        3: ndt&gicp ".toList,
   "        5: ndt (in test)".toList,
   "        6: fast icp (most recommended) -->".toList,
   "      <scan_matcher_options type=\"6\" >".toList,
   "        <registrator_options type = \"6\">".toList,
   "          <param name=\"dist_outlier_ratio\"> 0.7 </param>".toList,
   "          <param name=\"knn_normal_estimate\"> 7 </param>".toList,
   "          <param name=\"max_iteration\"> 100 </param>".toList,
   "        </registrator_options>".toList,
   "        <inner_filters>".toList,
   "          <filter name=\"GroundRemoval2\" >".toList,
   "            <param type=\"1\" name=\"r_min\"> 0.1 </param>".toList,
   "            <param type=\"1\" name=\"start_ground_height\"> -0.35 </param>".toList,
   "            <param type=\"1\" name=\"long_line_threshold\"> 10 </param>".toList,
   "            <param type=\"1\" name=\"max_slope\"> 0.12 </param>".toList,
   "            <param type=\"1\" name=\"max_error\"> 0.1 </param>".toList,
   "            <param type=\"1\" name=\"max_dist_to_line\"> 0.10 </param>".toList,
   "            <param type=\"1\" name=\"max_start_height\"> 0.6 </param>".toList,
   "            <param type=\"0\" name=\"thread_num\"> 4 </param>".toList,
   "          </filter>".toList,
   "          <filter name=\"RangeImage\" >".toList,
   "            <param type=\"1\" name=\"top_angle\"> 30. </param>".toList,
   "            <param type=\"1\" name=\"btm_angle\"> -20. </param>".toList,
   "            <param type=\"0\" name=\"vertical_line_num\"> 60 </param>".toList,
   "          </filter>".toList,
   "        </inner_filters>".toList,
   "      </scan_matcher_options>".toList,
   "      <!-- translation unit: m".toList,
   "           angle unit: degree -->".toList,
   "      <motion_filter ".toList,
   "        translation_range=\"0.5\"".toList,
   "        angle_range=\"1.5\"".toList,
   "        time_range=\"0.25\" />".toList,
   "      <!-- imu type ".toList,
   "          0: normal type".toList,
   "          1: imu in ins(combined imu) -->".toList,
   "      <imu_options ".toList,
   "        use_imu=\"false\"".toList,
   "        imu_frequency=\"200.\"".toList,
   "        type=\"0\"".toList,
   "        gravity_constant=\"9.8\" />".toList,
   "      <motion_compensation_options ".toList,
   "        enable=\"false\"".toList,
   "        use_average=\"true\" />".toList,
   "    </front_end_options>".toList,
   "    <back_end_options>".toList,
   "      <!-- type just the same as front end -->".toList,
   "      <submap_matcher_options ".toList,
   "        type=\"6\"".toList,
   "        accepted_min_score=\"0.7\">".toList,
   "        <registrator_options type = \"6\">".toList,
   "          <param name=\"dist_outlier_ratio\"> 0.7 </param>".toList,
   "          <param name=\"knn_normal_estimate\"> 7 </param>".toList,
   "          <param name=\"max_iteration\"> 100 </param>".toList,
   "        </registrator_options>".toList,
   "      </submap_matcher_options>".toList,
   "      <submap_options ".toList,
   "        frame_count=\"2\"".toList,
   "        enable_voxel_filter=\"true\"".toList,
   "        voxel_size=\"0.1\"".toList,
   "        enable_random_sampleing=\"false\"".toList,
   "        enable_check=\"false\"".toList,
   "        random_sampling_rate=\"0.5\"".toList,
   "        enable_disk_saving=\"true\"".toList,
   "        disk_saving_delay=\"10\"".toList,
   "        saving_name_prefix=\"s_\" />".toList,
   "      <isam_optimizer_options ".toList,
   "        use_odom=\"false\"".toList,
   "        use_gps=\"false\" />".toList,
   "      <loop_detector_setting ".toList,
   "        use_gps=\"false\"".toList,
   "        use_descriptor=\"true\"".toList,
   "        output_matched_cloud=\"false\"".toList,
   "        loop_ignore_threshold=\"50\"".toList,
   "        trying_detect_loop_count=\"1\"".toList,
   "        max_close_loop_distance=\"40\"".toList,
   "        max_close_loop_z_distance=\"40\"".toList,
   "        m2dp_match_score=\"0.98\"".toList,
   "        accept_scan_match_score=\"0.80\"".toList,
   "        nearest_history_pos_num=\"5\" />".toList,
   "    </back_end_options>".toList,
   "    <output_mrvm_settings".toList,
   "      output_average=\"false\"".toList,
   "      output_rgb=\"true\"".toList,
   "      use_max_intensity=\"true\"".toList,
   "      prob_threshold=\"0.54\" ".toList,
   "      low_resolution=\"1.\" ".toList,
   "      high_resolution=\"0.1\"".toList,
   "      hit_prob=\"0.55\"".toList,
   "      miss_prob=\"0.49\"".toList,
   "      z_offset=\"0.\"".toList,
   "      max_point_num_in_cell=\"8\">".toList,
   "    </output_mrvm_settings>".toList,
   "  </static_mapping>".toList,
   "</edward_liu>".toList]

/-- config/lidar_imu_default.xml. -/
def lidarImuText : List Char := textOf
  ["<?xml version=\"1.0\"?>".toList,
   "<edward_liu>".toList,
   "  <static_mapping>".toList,
   "    <whole_options ".toList,
   "      export_file_path=\"pcd/\"".toList,
   "      map_package_path=\"pkgs/test/\"".toList,
   "      output_mrvm=\"false\"".toList,
   "      output_direct_combined_map=\"true\" />".toList,
   "    <map_package_options".toList,
   "      enable=\"false\"".toList,
   "      border_offset=\"100\"".toList,
   "      piece_width=\"500.\"".toList,
   "      cloud_file_prefix=\"part_\"".toList,
   "      descript_filename=\"map_package.xml\" />".toList,
   "    <filters>".toList,
   "      <!-- type: ".toList,
   "        0 : int".toList,
   "        1 : float  -->".toList,
   "      <filter name=\"Range\" >".toList,
   "        <param type=\"1\" name=\"max_range\"> 75. </param>".toList,
   "        <param type=\"1\" name=\"min_range\"> 4.5 </param>".toList,
   "      </filter>".toList,
   "      <filter name=\"RandomSampler\" >".toList,
   "        <param type=\"1\" name=\"sampling_rate\"> 0.4 </param>".toList,
   "      </filter>".toList,
   "    </filters>".toList,
   "    <front_end_options accumulate_cloud_num=\"151\">".toList,
   "      <!-- matcher type  ".toList,
   "        0: none ".toList,
   "        1: icp using pointmatcher ".toList,
   "        3: ndt&gicp ".toList,
   "        5: ndt (in test)".toList,
   "        6: fast icp (most recommended) -->".toList,
   "      <scan_matcher_options type=\"6\" >".toList,
   "        <registrator_options type = \"6\">".toList,
   "          <param name=\"dist_outlier_ratio\"> 0.7 </param>".toList,
   "          <param name=\"knn_normal_estimate\"> 7 </param>".toList,
   "          <param name=\"max_iteration\"> 100 </param>".toList,
   "        </registrator_options>".toList,
   "        <inner_filters>".toList,
   "          <filter name=\"GroundRemoval2\" >".toList,
   "            <param type=\"1\" name=\"r_min\"> 0.1 </param>".toList,
   "            <param type=\"1\" name=\"start_ground_height\"> -0.35 </param>".toList,
   "            <param type=\"1\" name=\"long_line_threshold\"> 10 </param>".toList,
   "            <param type=\"1\" name=\"max_slope\"> 0.12 </param>".toList,
   "            <param type=\"1\" name=\"max_error\"> 0.1 </param>".toList,
   "            <param type=\"1\" name=\"max_dist_to_line\"> 0.10 </param>".toList,
   "            <param type=\"1\" name=\"max_start_height\"> 0.6 </param>".toList,
   "            <param type=\"0\" name=\"thread_num\"> 4 </param>".toList,
   "          </filter>".toList,
   "          <filter name=\"RangeImage\" >".toList,
   "            <param type=\"1\" name=\"top_angle\"> 30. </param>".toList,
   "            <param type=\"1\" name=\"btm_angle\"> -20. </param>".toList,
   "            <param type=\"0\" name=\"vertical_line_num\"> 60 </param>".toList,
   "          </filter>".toList,
   "        </inner_filters>".toList,
   "      </scan_matcher_options>".toList,
   "      <!-- translation unit: m".toList,
   "           angle unit: degree -->".toList,
   "      <motion_filter ".toList,
   "        translation_range=\"1\"".toList,
   "        angle_range=\"1.5\" />".toList,
   "      <!-- imu type ".toList,
   "          0: normal type".toList,
   "          1: imu in ins(combined imu) -->".toList,
   "      <imu_options ".toList,
   "        use_imu=\"true\"".toList,
   "        imu_frequency=\"200\"".toList,
   "        type=\"0\"".toList,
   "        gravity_constant=\"9.8\" />".toList,
   "      <motion_compensation_options ".toList,
   "        enable=\"true\"".toList,
   "        use_average=\"true\" />".toList,
   "    </front_end_options>".toList,
   "    <back_end_options>".toList,
   "      <!-- type just the same as front end -->".toList,
   "      <submap_matcher_options ".toList,
   "        type=\"6\"".toList,
   "        accepted_min_score=\"0.75\">".toList,
   "        <registrator_options type = \"6\">".toList,
   "          <param name=\"dist_outlier_ratio\"> 0.7 </param>".toList,
   "          <param name=\"knn_normal_estimate\"> 7 </param>".toList,
   "          <param name=\"max_iteration\"> 100 </param>".toList,
   "        </registrator_options>".toList,
   "      </submap_matcher_options>".toList,
   "      <submap_options ".toList,
   "        frame_count=\"2\"".toList,
   "        enable_voxel_filter=\"false\"".toList,
   "        enable_random_sampleing=\"false\"".toList,
   "        enable_check=\"false\"".toList,
   "        random_sampling_rate=\"0.5\"".toList,
   "        enable_disk_saving=\"true\"".toList,
   "        disk_saving_delay=\"30\"".toList,
   "        saving_name_prefix=\"s_\" />".toList,
   "      <isam_optimizer_options ".toList,
   "        use_odom=\"false\"".toList,
   "        use_gps=\"false\" />".toList,
   "      <loop_detector_setting ".toList,
   "        use_gps=\"false\"".toList,
   "        use_descriptor=\"true\"".toList,
   "        output_matched_cloud=\"false\"".toList,
   "        loop_ignore_threshold=\"15\"".toList,
   "        trying_detect_loop_count=\"1\"".toList,
   "        max_close_loop_distance=\"3\"".toList,
   "        max_close_loop_z_distance=\"2.\"".toList,
   "        m2dp_match_score=\"0.96\"".toList,
   "        accept_scan_match_score=\"0.8\"".toList,
   "        nearest_history_pos_num=\"5\" />".toList,
   "    </back_end_options>".toList,
   "    <output_mrvm_settings".toList,
   "      output_average=\"false\"".toList,
   "      output_rgb=\"false\"".toList,
   "      prob_threshold=\"0.57\" ".toList,
   "      low_resolution=\"1.\" ".toList,
   "      high_resolution=\"0.1\"".toList,
   "      hit_prob=\"0.55\"".toList,
   "      miss_prob=\"0.48\"".toList,
   "      z_offset=\"0.\"".toList,
   "      max_point_num_in_cell=\"10\">".toList,
   "    </output_mrvm_settings>".toList,
   "  </static_mapping>".toList,
   "</edward_liu>".toList]

/-- config/lidar_imu_gps_default.xml. -/
def lidarImuGpsText : List Char := textOf
  ["<?xml version=\"1.0\"?>".toList,
   "<edward_liu>".toList,
   "  <static_mapping>".toList,
   "    <whole_options ".toList,
   "      export_file_path=\"pcd/\"".toList,
   "      map_package_path=\"pkgs/test/\"".toList,
   "      output_mrvm=\"false\" />".toList,
   "    <map_package_options".toList,
   "      enable=\"false\"".toList,
   "      border_offset=\"100\"".toList,
   "      piece_width=\"500.\"".toList,
   "      cloud_file_prefix=\"part_\"".toList,
   "      descript_filename=\"map_package.xml\" />".toList,
   "    <filters>".toList,
   "      <!-- type: ".toList,
   "        0 : int".toList,
   "        1 : float  -->".toList,
   "      <filter name=\"Range\" >".toList,
   "        <param type=\"1\" name=\"max_range\"> 80. </param>".toList,
   "        <param type=\"1\" name=\"min_range\"> 4.5 </param>".toList,
   "      </filter>".toList,
   "      <filter name=\"RandomSampler\" >".toList,
   "        <param type=\"1\" name=\"sampling_rate\"> 0.45 </param>".toList,
   "      </filter>".toList,
   "    </filters>".toList,
   "    <front_end_options accumulate_cloud_num=\"151\">".toList,
   "      <!-- matcher type  ".toList,
   "        0: none ".toList,
   "        1: icp using pointmatcher ".toList,
   "        2: icp using libicp ".toList,
   "        3: ndt&gicp ".toList,
   "        4: kfpcs(not available now)".toList,
   "        5: ".toList,
   "        6: fast icp(in test) -->".toList,
   "      <scan_matcher_options type=\"6\" >".toList,
   "        <registrator_options type = \"6\">".toList,
   "          <param name=\"dist_outlier_ratio\"> 0.7 </param>".toList,
   "          <param name=\"knn_normal_estimate\"> 7 </param>".toList,
   "          <param name=\"max_iteration\"> 100 </param>".toList,
   "        </registrator_options>".toList,
   "      </scan_matcher_options>".toList,
   "      <!-- translation unit: m".toList,
   "           angle unit: degree -->".toList,
   "      <motion_filter ".toList,
   "        translation_range=\"1\"".toList,
   "        angle_range=\"20.\" />".toList,
   "      <!-- imu type ".toList,
   "          0: normal type".toList,
   "          1: imu in ins(combined imu) -->".toList,
   "      <imu_options ".toList,
   "        use_imu=\"true\"".toList,
   "        imu_frequency=\"200.\"".toList,
   "        type=\"0\"".toList,
   "        gravity_constant=\"9.8\" />".toList,
   "      <motion_compensation_options ".toList,
   "        enable=\"true\"".toList,
   "        use_average=\"true\" />".toList,
   "    </front_end_options>".toList,
   "    <back_end_options>".toList,
   "      <!-- type just the same as front end -->".toList,
   "      <submap_matcher_options ".toList,
   "        type=\"6\"".toList,
   "        accepted_min_score=\"0.7\">".toList,
   "        <registrator_options type = \"6\">".toList,
   "          <param name=\"dist_outlier_ratio\"> 0.7 </param>".toList,
   "          <param name=\"knn_normal_estimate\"> 7 </param>".toList,
   "          <param name=\"max_iteration\"> 100 </param>".toList,
   "        </registrator_options>".toList,
   "      </submap_matcher_options>".toList,
   "      <submap_options ".toList,
   "        frame_count=\"2\"".toList,
   "        enable_voxel_filter=\"true\"".toList,
   "        enable_random_sampleing=\"false\"".toList,
   "        enable_check=\"false\"".toList,
   "        random_sampling_rate=\"0.5\"".toList,
   "        enable_disk_saving=\"true\"".toList,
   "        disk_saving_delay=\"10\"".toList,
   "        saving_name_prefix=\"s_\" />".toList,
   "      <isam_optimizer_options ".toList,
   "        use_odom=\"false\"".toList,
   "        use_gps=\"true\" ".toList,
   "        output_graph_pic=\"false\"".toList,
   "        enable_extrinsic_calib=\"true\"".toList,
   "        gps_factor_init_num=\"25\"".toList,
   "        gps_factor_sample_step=\"2\"".toList,
   "        gps_factor_init_angle_rad=\"1.5\" />".toList,
   "      <loop_detector_setting ".toList,
   "        use_gps=\"false\"".toList,
   "        use_descriptor=\"true\"".toList,
   "        output_matched_cloud=\"false\"".toList,
   "        loop_ignore_threshold=\"20\"".toList,
   "        trying_detect_loop_count=\"1\"".toList,
   "        max_close_loop_distance=\"8.\"".toList,
   "        max_close_loop_z_distance=\"3.\"".toList,
   "        m2dp_match_score=\"0.97\"".toList,
   "        accept_scan_match_score=\"0.8\"".toList,
   "        nearest_history_pos_num=\"5\" />".toList,
   "    </back_end_options>".toList,
   "    <output_mrvm_settings".toList,
   "      output_average=\"false\"".toList,
   "      output_rgb=\"true\"".toList,
   "      prob_threshold=\"0.57\" ".toList,
   "      low_resolution=\"1.\" ".toList,
   "      high_resolution=\"0.1\"".toList,
   "      hit_prob=\"0.55\"".toList,
   "      miss_prob=\"0.48\"".toList,
   "      z_offset=\"0.\"".toList,
   "      max_point_num_in_cell=\"10\">".toList,
   "    </output_mrvm_settings>".toList,
   "  </static_mapping>".toList,
   "</edward_liu>".toList]

end Verif.Spec
