import Verif.Spec.ShippedFiles
import Verif.Model.ConfigText
/-! A builder starts from the settings files that the scripts name. -/
namespace Verif
open Verif.Spec

/-- Whether a builder starts from a text, and wants an IMU. -/
def fileStarts (name : String) (t : List Char) (imu : Bool) : Bool :=
  match startBuilder (fun _ => true) (2 ^ 128 - 2 ^ 104) (1 / 4) name (some t) with
  | .ok (r, _) => (r.settings "front_end_options.imu_options.enabled").toBool == imu
  | _ => false

theorem fileStarts_ok {name : String} {t : List Char} {imu : Bool} (h : fileStarts name t imu = true) :
    ∃ c, startBuilder (fun _ => true) (2 ^ 128 - 2 ^ 104) (1 / 4) name (some t) = .ok c ∧
      (c.1.settings "front_end_options.imu_options.enabled").toBool = imu := by
  unfold fileStarts at h
  generalize startBuilder (fun _ => true) (2 ^ 128 - 2 ^ 104) (1 / 4) name (some t) = o at h ⊢
  cases o with
  | ok c => exact ⟨c, rfl, by simpa using h⟩
  | abort => cases h
  | ub => cases h

theorem lidarOnly_starts : fileStarts "./config/lidar_only.xml" lidarOnlyText false = true := by decide +kernel
theorem lidarKitti_starts : fileStarts "./config/lidar_only_kitti.xml" lidarKittiText false = true := by decide +kernel
theorem lidarImu_starts : fileStarts "./config/lidar_imu_default.xml" lidarImuText true = true := by decide +kernel
theorem lidarImuGps_starts : fileStarts "./config/lidar_imu_gps_default.xml" lidarImuGpsText true = true := by decide +kernel

end Verif
