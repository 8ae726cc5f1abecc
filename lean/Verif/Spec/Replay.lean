import Verif.Model.Replay
namespace Verif.Spec
variable {C I G X : Type}

/-- The recorded messages of a run, in the order in which they came. -/
def recording : List (PlayEvent C I) → List (PlayEvent C I)
  | [] => []
  | .cloud c t :: es => .cloud c t :: recording es
  | .imu i :: es => .imu i :: recording es
  | .take :: es => recording es
  | .done :: es => recording es

/-- The clouds of a recording. -/
def cloudsOf : List (PlayEvent C I) → List (C × Nat)
  | [] => []
  | .cloud c t :: es => (c, t) :: cloudsOf es
  | .imu _ :: es => cloudsOf es
  | .take :: es => cloudsOf es
  | .done :: es => cloudsOf es

/-- The inertial messages of a recording. -/
def imuOf : List (PlayEvent C I) → List I
  | [] => []
  | .cloud _ _ :: es => imuOf es
  | .imu i :: es => i :: imuOf es
  | .take :: es => imuOf es
  | .done :: es => imuOf es

/-- All clouds that came have been worked on. -/
def AllMatched (s : PlayState G C X) : Prop := s.fe.waiting = [] ∧ s.busy = none

/-- Clouds come in the order of their stamps, none before the start. -/
def InOrder (start : Nat) (l : List (C × Nat)) : Prop :=
  (∀ a ∈ l, start ≤ a.2) ∧ l.Pairwise fun a b => a.2 ≤ b.2

/-- No inertial message comes after a cloud with a later stamp. -/
def Timely {α : Type} : List (PlayEvent C (ImuItem α)) → Prop
  | [] => True
  | .cloud _ t :: es => (∀ m ∈ imuOf es, t ≤ m.stamp) ∧ Timely es
  | .imu _ :: es => Timely es
  | .take :: es => Timely es
  | .done :: es => Timely es

end Verif.Spec
