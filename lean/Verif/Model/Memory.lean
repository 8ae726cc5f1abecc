import Verif.Model.Gps
import Verif.Model.SubmapSwap
/-
The inertial messages in the collector: builder/data/data_collector.cc:73-81, 303-351, builder/map_builder.cc:171-191.
-/
namespace Verif

/-- What the program does with the collector: the message comes (map_builder.cc:182), a cloud is taken (270), a submap
is finished and asks for GPS and odometry (691-697), everything is written at the end (612-623).  `TrimSensorData`
(303-317) is called from nowhere. -/
inductive CollectEv (α : Type) where
  | imu (m : α)
  | takeCloud
  | submap (t : SimpleTime)
  | finish

/-- `imu_data_`. -/
def imuStored {α : Type} (stored : List α) : CollectEv α → List α
  | .imu m => stored ++ [m]
  | .takeCloud => stored
  | .submap _ => stored
  | .finish => stored

/-- `imu_data_` after a run. -/
def imuStoredAll {α : Type} (es : List (CollectEv α)) : List α := es.foldl imuStored []

end Verif
