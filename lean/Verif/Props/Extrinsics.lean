import Mathlib.Data.Matrix.Mul
import Mathlib.LinearAlgebra.Matrix.Notation
import Mathlib.Tactic.Group
import Mathlib.Tactic.Linarith
import Mathlib.Tactic.Ring
import Mathlib.Tactic.NormNum
import Mathlib.Tactic.FieldSimp
import Mathlib.Logic.Equiv.Defs
import Mathlib.Algebra.Group.End
import Verif.Spec.Extrinsics
/-!
C81: where the sensors are mounted does not matter.

English: with the true mounting given, every measurement is brought into the tracking frame: clouds,
turn rates and GPS constraints describe the vehicle's true motion, wherever the sensors are.  The
odometry constraint does so only if the lidar's mounting commutes with the motion, e.g. if the tracking
frame is the lidar's; accelerations only while the vehicle turns about the vertical axis through the
IMU.
-/
namespace Verif
open Spec

section
variable {G P : Type} [Group G] (act : G → P → P)
  (hone : ∀ p, act 1 p = p) (hmul : ∀ g h p, act (g * h) p = act g (act h p))
include hone hmul

/-- Clouds: for every mounting, every pose of the vehicle and every set of points of the world, the
cloud handed on is the points as seen from the tracking frame; placed at the vehicle's pose it is the
points themselves. -/
theorem C81_clouds (t : TrueMounts G) (m : Mounts G) (hm : Correct t m) (X : G) (w : List P) :
    (mountCloud act m (lidarSees act t X w)).1 = w.map (act X⁻¹) ∧
    ((mountCloud act m (lidarSees act t X w)).1).map (act X) = w := by
  have h1 : (mountCloud act m (lidarSees act t X w)).1 = w.map (act X⁻¹) := by
    simp only [mountCloud, lidarSees, hm.lidar, List.map_map]
    apply List.map_congr_left
    intro p _
    simp only [Function.comp]
    rw [← hmul]
    congr 1
    group
  refine ⟨h1, ?_⟩
  rw [h1, List.map_map]
  conv_rhs => rw [← List.map_id w]
  apply List.map_congr_left
  intro p _
  simp only [Function.comp, id]
  rw [← hmul, mul_inv_cancel, hone]

/-- GPS: with the map frame at `X₀` in GPS coordinates, the constraint of a submap at its true pose
`X₀⁻¹ X` expects exactly what the receiver reports. -/
theorem C81_gps (zero : P) (t : TrueMounts G) (m : Mounts G) (hm : Correct t m) (X₀ X : G) :
    gpsExpected act zero m X₀ (X₀⁻¹ * X) = gpsReports act zero t X := by
  simp only [gpsExpected, gpsReports, hm.gps]
  rw [← hmul]
  congr 1
  group

omit hone hmul

theorem storeOdoms_some (f : G) (ps : List G) : storeOdoms (some f) ps = ps.map (f⁻¹ * ·) := by
  induction ps with
  | nil => rfl
  | cons p ps ih => simp [storeOdoms, storeOdom, ih]

/-- Odometry is stored relative to the first message, whatever frame the sensor reports in. -/
theorem C81_odom_stored (t : TrueMounts G) (W X₀ : G) (Xs : List G) :
    storeOdoms none ((X₀ :: Xs).map (odomReports t W)) =
      (X₀ :: Xs).map fun X => t.odom⁻¹ * (X₀⁻¹ * X) * t.odom := by
  simp only [List.map_cons, storeOdoms, storeOdom, Option.getD_none, storeOdoms_some, List.map_map]
  congr 1
  · group
  · apply List.map_congr_left
    intro X _
    simp only [Function.comp, odomReports]
    group

/-- The odometry constraint at the true pose of the tracking frame, the first message having been sent
at the map origin: it expects what was stored exactly if the lidar's mounting commutes with the
motion. -/
theorem C81_odom_iff (t : TrueMounts G) (m : Mounts G) (hm : Correct t m) (X₀ X : G) :
    odomExpected (odomCalib m) (X₀⁻¹ * X) = t.odom⁻¹ * (X₀⁻¹ * X) * t.odom ↔
      t.lidar * (X₀⁻¹ * X) = (X₀⁻¹ * X) * t.lidar := by
  simp only [odomExpected, odomCalib, hm.odom]
  generalize X₀⁻¹ * X = Y
  constructor
  · intro h
    have h2 : t.odom * ((t.odom⁻¹ * t.lidar)⁻¹⁻¹ * Y * (t.odom⁻¹ * t.lidar)⁻¹) * t.odom⁻¹ * t.lidar =
        t.odom * (t.odom⁻¹ * Y * t.odom) * t.odom⁻¹ * t.lidar := by rw [h]
    have h3 : t.odom * ((t.odom⁻¹ * t.lidar)⁻¹⁻¹ * Y * (t.odom⁻¹ * t.lidar)⁻¹) * t.odom⁻¹ * t.lidar =
        t.lidar * Y := by group
    have h4 : t.odom * (t.odom⁻¹ * Y * t.odom) * t.odom⁻¹ * t.lidar = Y * t.lidar := by group
    rw [h3, h4] at h2
    exact h2
  · intro h
    have h3 : (t.odom⁻¹ * t.lidar)⁻¹⁻¹ * Y * (t.odom⁻¹ * t.lidar)⁻¹ =
        t.odom⁻¹ * (t.lidar * Y) * t.lidar⁻¹ * t.odom := by group
    rw [h3, h]
    group

/-- Odometry, tracking frame in the lidar: the constraint expects what was stored.
Missing: lidars mounted away from the tracking frame (`C81_odom_fails`). -/
theorem C81_odom_partial (t : TrueMounts G) (m : Mounts G) (hm : Correct t m) (ht : t.lidar = 1)
    (X₀ X : G) :
    odomExpected (odomCalib m) (X₀⁻¹ * X) = t.odom⁻¹ * (X₀⁻¹ * X) * t.odom :=
  (C81_odom_iff t m hm X₀ X).mpr (by rw [ht]; group)

end

section lookup
variable {G N : Type} [Group G] [DecidableEq N]

theorem tfRoot_pose (ts : List (N × N × G)) (pose : N → G)
    (hp : ∀ t ∈ ts, pose t.1 = pose t.2.1 * t.2.2) :
    ∀ (fuel : Nat) (n r : N) (g : G), tfRoot ts fuel n = some (r, g) → pose n = pose r * g
  | 0, _, _, _, h => by cases h
  | fuel + 1, n, r, g, h => by
    simp only [tfRoot] at h
    cases hf : ts.find? fun t => t.1 = n with
    | none => rw [hf] at h; cases h; simp
    | some t =>
      obtain ⟨c, p, q⟩ := t
      rw [hf] at h
      dsimp only at h
      have hc : c = n := by simpa using List.find?_some hf
      have hm := List.mem_of_find?_eq_some hf
      cases hr : tfRoot ts fuel p with
      | none => rw [hr] at h; cases h
      | some x =>
        obtain ⟨r', g'⟩ := x
        rw [hr] at h
        cases h
        have := tfRoot_pose ts pose hp fuel p _ g' hr
        have h2 := hp _ hm
        dsimp only at h2
        rw [← hc, h2, this, mul_assoc]

/-- Transforms from a URDF file: if the file describes a vehicle (every fixed joint has its true pose),
then every transform that is looked up is the true one, and so are the mounts. -/
theorem C81_urdf (links : List (UrdfLink G N)) (pose : N → G)
    (hp : ∀ l ∈ links, ∀ p g, l.parent = some (p, true, g) → pose l.name = pose p * g)
    (tracking cloud odom gps : N) (m : Mounts G)
    (h : nodeMounts (tfLookup (urdfTransforms links)) tracking cloud odom gps = .ok m) :
    Correct ⟨(pose tracking)⁻¹ * pose cloud, (pose tracking)⁻¹ * pose odom,
      (pose tracking)⁻¹ * pose gps⟩ m := by
  have hts : ∀ t ∈ urdfTransforms links, pose t.1 = pose t.2.1 * t.2.2 := by
    intro t ht
    simp only [urdfTransforms, List.mem_filterMap] at ht
    obtain ⟨l, hl, h1⟩ := ht
    cases hpar : l.parent with
    | none => rw [hpar] at h1; cases h1
    | some x =>
      obtain ⟨p, fixed, g⟩ := x
      rw [hpar] at h1
      cases fixed with
      | false => cases h1
      | true => cases h1; exact hp l hl p g hpar
  have hl : ∀ a b g, tfLookup (urdfTransforms links) a b = .ok g → g = (pose a)⁻¹ * pose b := by
    intro a b g hg
    unfold tfLookup at hg
    split at hg
    · cases ha : tfRoot (urdfTransforms links) ((urdfTransforms links).length + 1) a with
      | none => rw [ha] at hg; cases hg
      | some x =>
        cases hb : tfRoot (urdfTransforms links) ((urdfTransforms links).length + 1) b with
        | none => rw [ha, hb] at hg; cases hg
        | some y =>
          obtain ⟨r, ga⟩ := x
          obtain ⟨r', gb⟩ := y
          rw [ha, hb] at hg
          dsimp only at hg
          by_cases hr : r = r'
          · rw [if_pos hr] at hg
            cases hg
            rw [tfRoot_pose _ pose hts _ _ _ _ ha, tfRoot_pose _ pose hts _ _ _ _ hb, hr]
            group
          · rw [if_neg hr] at hg; cases hg
    · cases hg
  unfold nodeMounts at h
  obtain ⟨l, h1, h⟩ := (Outcome.bind_eq_ok _ _ _).mp h
  obtain ⟨o, h2, h⟩ := (Outcome.bind_eq_ok _ _ _).mp h
  obtain ⟨g, h3, h⟩ := (Outcome.bind_eq_ok _ _ _).mp h
  cases h
  refine ⟨hl _ _ _ h1, hl _ _ _ h3, ?_⟩
  dsimp only
  rw [hl _ _ _ h2]
  group

theorem urdfTransforms_mem (links : List (UrdfLink G N)) (c p : N) :
    (∃ g, (c, p, g) ∈ urdfTransforms links) ↔ FixedJoint links c p := by
  simp only [urdfTransforms, List.mem_filterMap, FixedJoint]
  constructor
  · rintro ⟨g, l, hl, h⟩
    cases hp : l.parent with
    | none => rw [hp] at h; cases h
    | some x =>
      obtain ⟨q, f, g'⟩ := x
      rw [hp] at h
      cases f with
      | false => cases h
      | true => cases h; exact ⟨l, hl, g, rfl, hp⟩
  · rintro ⟨l, hl, g, h1, h2⟩
    exact ⟨g, l, hl, by rw [h2, ← h1]; rfl⟩

theorem urdfTransforms_length (links : List (UrdfLink G N)) :
    (urdfTransforms links).length = (links.filter fun l => l.parent.any fun x => x.2.1).length := by
  induction links with
  | nil => rfl
  | cons l ls ih =>
    unfold urdfTransforms at *
    rw [List.filterMap_cons, List.filter_cons]
    cases hp : l.parent with
    | none => simpa using ih
    | some x =>
      obtain ⟨q, f, g⟩ := x
      cases f <;> simpa using ih

/-- Every frame has a root, and the fixed joints lead to the same one. -/
theorem tfRoot_tree (links : List (UrdfLink G N)) (depth : N → Nat) (h : JointTree links depth) :
    ∃ root : N → N, (∀ n fuel, depth n < fuel → ∃ g, tfRoot (urdfTransforms links) fuel n = some (root n, g)) ∧
      ∀ c p, FixedJoint links c p → root c = root p := by
  have key : ∀ k n, depth n = k → ∃ r, (∀ fuel, k < fuel → ∃ g, tfRoot (urdfTransforms links) fuel n = some (r, g)) := by
    intro k
    induction k with
    | zero =>
      intro n hn
      refine ⟨n, fun fuel hf => ?_⟩
      obtain ⟨f, rfl⟩ : ∃ f, fuel = f + 1 := ⟨fuel - 1, by omega⟩
      simp only [tfRoot]
      cases hfi : (urdfTransforms links).find? fun t => t.1 = n with
      | none => exact ⟨1, rfl⟩
      | some t =>
        obtain ⟨c, p, g⟩ := t
        have hc : c = n := by simpa using List.find?_some hfi
        have := h.down c p ((urdfTransforms_mem ..).mp ⟨g, List.mem_of_find?_eq_some hfi⟩)
        rw [hc] at this
        omega
    | succ k ih =>
      intro n hn
      cases hfi : (urdfTransforms links).find? fun t => t.1 = n with
      | none =>
        refine ⟨n, fun fuel hf => ?_⟩
        obtain ⟨f, rfl⟩ : ∃ f, fuel = f + 1 := ⟨fuel - 1, by omega⟩
        simp only [tfRoot, hfi]
        exact ⟨1, rfl⟩
      | some t =>
        obtain ⟨c, p, g⟩ := t
        have hc : c = n := by simpa using List.find?_some hfi
        have := h.down c p ((urdfTransforms_mem ..).mp ⟨g, List.mem_of_find?_eq_some hfi⟩)
        obtain ⟨r, hr⟩ := ih p (by rw [hc] at this; omega)
        refine ⟨r, fun fuel hf => ?_⟩
        obtain ⟨f, rfl⟩ : ∃ f, fuel = f + 1 := ⟨fuel - 1, by omega⟩
        obtain ⟨g', hg'⟩ := hr f (by omega)
        simp only [tfRoot, hfi, hg']
        exact ⟨_, rfl⟩
  choose root hroot using fun n => key (depth n) n rfl
  refine ⟨root, fun n fuel hf => hroot n fuel hf, fun c p hcp => ?_⟩
  obtain ⟨g1, h1⟩ := hroot c (depth c + 1) (by omega)
  obtain ⟨g2, h2⟩ := hroot p (depth c) (by rw [h.down c p hcp]; omega)
  simp only [tfRoot] at h1
  obtain ⟨g, hg⟩ := (urdfTransforms_mem links c p).mpr hcp
  cases hfi : (urdfTransforms links).find? fun t => t.1 = c with
  | none =>
    rw [List.find?_eq_none] at hfi
    exact absurd (by simp) (hfi _ hg)
  | some t =>
    obtain ⟨c', p', g'⟩ := t
    have hc : c' = c := by simpa using List.find?_some hfi
    have hp : p' = p := h.oneParent c p' p
      (by rw [← hc]; exact (urdfTransforms_mem ..).mp ⟨g', List.mem_of_find?_eq_some hfi⟩) hcp
    rw [hfi] at h1
    dsimp only at h1
    rw [hp, h2] at h1
    exact (congrArg Prod.fst (Option.some.inj h1)).symm

/-- Looking a transform up never is undefined; it stops the program for a frame that no fixed joint mentions. If
the fixed joints form trees, it succeeds for every two frames of the same body. -/
theorem C81_urdf_lookup (links : List (UrdfLink G N)) (a b : N) :
    tfLookup (urdfTransforms links) a b ≠ .ub ∧
    ((∀ n, ¬ FixedJoint links a n ∧ ¬ FixedJoint links n a) → tfLookup (urdfTransforms links) a b = .abort) ∧
    ((∀ n, ¬ FixedJoint links b n ∧ ¬ FixedJoint links n b) → tfLookup (urdfTransforms links) a b = .abort) ∧
    ∀ depth, JointTree links depth → (∃ n, FixedJoint links a n ∨ FixedJoint links n a) →
      (∃ n, FixedJoint links b n ∨ FixedJoint links n b) → SameBody links a b →
      ∃ g, tfLookup (urdfTransforms links) a b = .ok g := by
  have hk : ∀ n, tfKnown (urdfTransforms links) n = true ↔ ∃ m, FixedJoint links n m ∨ FixedJoint links m n := by
    intro n
    simp only [tfKnown, List.any_eq_true, Bool.or_eq_true, decide_eq_true_eq]
    constructor
    · rintro ⟨⟨c, p, g⟩, hm, h | h⟩
      · exact ⟨p, Or.inl (by rw [← h]; exact (urdfTransforms_mem ..).mp ⟨g, hm⟩)⟩
      · exact ⟨c, Or.inr (by rw [← h]; exact (urdfTransforms_mem ..).mp ⟨g, hm⟩)⟩
    · rintro ⟨m, h | h⟩
      · obtain ⟨g, hg⟩ := (urdfTransforms_mem ..).mpr h
        exact ⟨_, hg, Or.inl rfl⟩
      · obtain ⟨g, hg⟩ := (urdfTransforms_mem ..).mpr h
        exact ⟨_, hg, Or.inr rfl⟩
  refine ⟨?_, ?_, ?_, ?_⟩
  · unfold tfLookup
    split
    · cases tfRoot (urdfTransforms links) ((urdfTransforms links).length + 1) a with
      | none => simp
      | some x =>
        cases tfRoot (urdfTransforms links) ((urdfTransforms links).length + 1) b with
        | none => simp
        | some y =>
          obtain ⟨r, ga⟩ := x
          obtain ⟨r', gb⟩ := y
          dsimp only
          split <;> simp
    · simp
  · intro h
    have : ¬ (tfKnown (urdfTransforms links) a = true) := by
      rw [hk]
      rintro ⟨m, h1 | h1⟩
      · exact (h m).1 h1
      · exact (h m).2 h1
    unfold tfLookup
    rw [if_neg (by simp [this])]
  · intro h
    have : ¬ (tfKnown (urdfTransforms links) b = true) := by
      rw [hk]
      rintro ⟨m, h1 | h1⟩
      · exact (h m).1 h1
      · exact (h m).2 h1
    unfold tfLookup
    rw [if_neg (by simp [this])]
  · intro depth ht ha hb hab
    obtain ⟨root, hr, hj⟩ := tfRoot_tree links depth ht
    have hsame : root a = root b := by
      clear ha hb
      unfold SameBody at hab
      induction hab with
      | rel x y h => exact hj x y h
      | refl => rfl
      | symm x y _ ih => exact ih.symm
      | trans x y z _ _ ih1 ih2 => exact ih1.trans ih2
    obtain ⟨ga, ea⟩ := hr a ((urdfTransforms links).length + 1) (by
      rw [urdfTransforms_length]; have := ht.bound a; omega)
    obtain ⟨gb, eb⟩ := hr b ((urdfTransforms links).length + 1) (by
      rw [urdfTransforms_length]; have := ht.bound b; omega)
    unfold tfLookup
    rw [if_pos (by rw [(hk a).mpr ha, (hk b).mpr hb]; rfl), ea, eb]
    dsimp only
    rw [if_pos hsame]
    exact ⟨_, rfl⟩

/-- Two frames on a base: a lidar and an IMU. -/
example : ∃ g, tfLookup (urdfTransforms (G := Equiv.Perm ℤ) [⟨"base", none⟩, ⟨"lidar", some ("base", true, 1)⟩,
    ⟨"imu", some ("base", true, 1)⟩]) "lidar" "imu" = .ok g := by
  refine (C81_urdf_lookup _ "lidar" "imu").2.2.2 (fun n => if n = "lidar" ∨ n = "imu" then 1 else 0) ⟨?_, ?_, ?_⟩
    ⟨"base", .inl ⟨⟨"lidar", some ("base", true, 1)⟩, by simp, 1, rfl, rfl⟩⟩ ⟨"base", .inl ⟨⟨"imu", some ("base", true, 1)⟩, by simp, 1, rfl, rfl⟩⟩
    (.trans _ "base" _ (.rel _ _ ⟨⟨"lidar", some ("base", true, 1)⟩, by simp, 1, rfl, rfl⟩)
      (.symm _ _ (.rel _ _ ⟨⟨"imu", some ("base", true, 1)⟩, by simp, 1, rfl, rfl⟩)))
  · rintro c p q ⟨l, hl, g, rfl, h2⟩ ⟨l', hl', g', h3, h4⟩
    simp only [List.mem_cons, List.not_mem_nil, or_false] at hl hl'
    rcases hl with rfl | rfl | rfl <;> rcases hl' with rfl | rfl | rfl <;> simp_all
  · rintro c p ⟨l, hl, g, rfl, h2⟩
    simp only [List.mem_cons, List.not_mem_nil, or_false] at hl
    rcases hl with rfl | rfl | rfl <;> simp at h2
    · obtain ⟨rfl, -⟩ := h2; rfl
    · obtain ⟨rfl, -⟩ := h2; rfl
  · intro n
    simp
    split <;> omega

/-- A joint that is not fixed separates the frames: with only such joints nothing can be looked up and
the program stops. -/
theorem C81_urdf_moving (links : List (UrdfLink G N))
    (hm : ∀ l ∈ links, ∀ p f g, l.parent = some (p, f, g) → f = false) (a b : N) :
    tfLookup (urdfTransforms links) a b = .abort := by
  have : urdfTransforms links = [] := by
    simp only [urdfTransforms, List.filterMap_eq_nil_iff]
    intro l hl
    cases hp : l.parent with
    | none => rfl
    | some x => obtain ⟨p, f, g⟩ := x; simp [hm l hl p f g hp]
  simp [this, tfLookup, tfKnown]

end lookup

theorem tfWait_spec (ans : Nat → Bool) : ∀ (count i k : Nat),
    (tfWait ans (count + 1) i = .ok k ↔
      i ≤ k ∧ k < i + (count + 1) ∧ ans k = true ∧ ∀ j, i ≤ j → j < k → ans j = false) ∧
    (tfWait ans (count + 1) i = .abort ↔ ∀ j, i ≤ j → j < i + (count + 1) → ans j = false)
  | count, i, k => by
    simp only [tfWait]
    by_cases ha : ans i = true
    · rw [if_pos ha]
      refine ⟨⟨?_, ?_⟩, ⟨fun h => by (cases h), fun h => ?_⟩⟩
      · intro h
        cases h
        exact ⟨le_refl _, by omega, ha, fun j h1 h2 => by omega⟩
      · rintro ⟨h1, h2, h3, h4⟩
        by_cases hk : k = i
        · rw [hk]
        · have := h4 i (le_refl _) (by omega)
          rw [ha] at this; cases this
      · have := h i (le_refl _) (by omega)
        rw [ha] at this; cases this
    · rw [if_neg ha]
      have hf : ans i = false := by simpa using ha
      by_cases hc : count = 0
      · rw [if_pos hc]
        refine ⟨⟨fun h => by (cases h), ?_⟩, ⟨fun _ => ?_, fun _ => rfl⟩⟩
        · rintro ⟨h1, h2, h3, _⟩
          have : k = i := by omega
          rw [this] at h3; exact absurd h3 ha
        · intro j h1 h2
          have : j = i := by omega
          rw [this]; exact hf
      · rw [if_neg hc]
        obtain ⟨c, rfl⟩ : ∃ c, count = c + 1 := ⟨count - 1, by omega⟩
        have ih := tfWait_spec ans c (i + 1) k
        refine ⟨ih.1.trans ⟨?_, ?_⟩, ih.2.trans ⟨?_, ?_⟩⟩
        · rintro ⟨h1, h2, h3, h4⟩
          refine ⟨by omega, by omega, h3, ?_⟩
          intro j h5 h6
          by_cases hj : j = i
          · rw [hj]; exact hf
          · exact h4 j (by omega) h6
        · rintro ⟨h1, h2, h3, h4⟩
          have : k ≠ i := by intro hk; rw [hk, hf] at h3; cases h3
          exact ⟨by omega, by omega, h3, fun j h5 h6 => h4 j (by omega) h6⟩
        · intro h j h1 h2
          by_cases hj : j = i
          · rw [hj]; exact hf
          · exact h j (by omega) (by omega)
        · intro h j h1 h2
          exact h j (by omega) (by omega)

/-- Waiting for a transform: the first answer among thirty is taken; the program stops exactly if all
thirty attempts fail. -/
theorem C81_wait (ans : Nat → Bool) :
    (∀ k, tfWait ans 30 0 = .ok k ↔ k < 30 ∧ ans k = true ∧ ∀ j, j < k → ans j = false) ∧
    (tfWait ans 30 0 = .abort ↔ ∀ j, j < 30 → ans j = false) := by
  refine ⟨fun k => ?_, ?_⟩
  · have := (tfWait_spec ans 29 0 k).1
    simpa using this
  · have := (tfWait_spec ans 29 0 0).2
    simpa using this

section imu
variable {R : Type} [Field R] [LinearOrder R] [IsStrictOrderedRing R]

/-- Turn rates are those of the tracking frame, for every mounting with a rotation matrix. -/
theorem C81_gyro (t : Rigid R) (ho : t.rot * t.rot.transpose = 1) (ω α f : Fin 3 → R) :
    (insertImu t (imuMeasures t ω α f)).gyro = ω := by
  simp [insertImu, imuMeasures, Matrix.mulVec_mulVec, ho]

/-- The acceleration handed on is that of the tracking frame and the effect of the lever arm. -/
theorem C81_acc (t : Rigid R) (ho : t.rot * t.rot.transpose = 1) (ω α f : Fin 3 → R) :
    (insertImu t (imuMeasures t ω α f)).acc =
      f + crossV α t.trans + crossV ω (crossV ω t.trans) := by
  simp [insertImu, imuMeasures, Matrix.mulVec_mulVec, ho]

/-- Accelerations, vehicle turning about the vertical axis only, mounting accepted by the program: the
squared error is at most `1e-12 (a² + w⁴)`, whatever the height of the IMU.
Missing: other axes of rotation (`C81_acc_fails`). -/
theorem C81_acc_partial (t t' : Rigid R) (ht : setTrackingToImu t = .ok t')
    (ho : t'.rot * t'.rot.transpose = 1) (w a : R) (f : Fin 3 → R) :
    sqLen ((insertImu t' (imuMeasures t' ![0, 0, w] ![0, 0, a] f)).acc - f) ≤
      (1 / 1000000) ^ 2 * (a ^ 2 + w ^ 4) := by
  unfold setTrackingToImu at ht
  obtain ⟨hc, h2⟩ := (Outcome.check_bind_eq_ok _ _ _).mp ht
  cases h2
  rw [C81_acc t ho]
  have : sqLen (f + crossV ![0, 0, a] t.trans + crossV ![0, 0, w] (crossV ![0, 0, w] t.trans) - f) =
      (t.trans 0 ^ 2 + t.trans 1 ^ 2) * (a ^ 2 + w ^ 4) := by
    simp only [sqLen, crossV, Pi.add_apply, Pi.sub_apply, Matrix.cons_val]
    ring
  rw [this]
  exact mul_le_mul_of_nonneg_right hc.le (by positivity)

/-- C81 is false for accelerations when the vehicle pitches or rolls: an IMU one metre above the
tracking frame is accepted, and at a constant roll rate of one the acceleration is wrong by one. -/
theorem C81_acc_fails : ∃ t : Rigid Rat, setTrackingToImu t = .ok t ∧
    t.rot * t.rot.transpose = 1 ∧
    sqLen ((insertImu t (imuMeasures t ![1, 0, 0] ![0, 0, 0] ![0, 0, 0])).acc - ![0, 0, 0]) = 1 := by
  have ho : (1 : Matrix (Fin 3) (Fin 3) Rat) * Matrix.transpose 1 = 1 := by simp
  refine ⟨{ rot := 1, trans := ![0, 0, 1] }, ?_, ho, ?_⟩
  · unfold setTrackingToImu
    rw [Outcome.check_pos (by norm_num)]
    rfl
  · rw [C81_acc _ ho]
    simp [sqLen, crossV]

/-- An instance: a mounting 1 metre up, a rotation matrix that is not the identity. -/
example : ∃ t : Rigid Rat, setTrackingToImu t = .ok t ∧ t.rot * t.rot.transpose = 1 ∧ t.rot ≠ 1 ∧
    t.trans 2 = 1 := by
  refine ⟨{ rot := !![0, -1, 0; 1, 0, 0; 0, 0, 1], trans := ![0, 0, 1] }, ?_, ?_, ?_, rfl⟩
  · unfold setTrackingToImu
    rw [Outcome.check_pos (by norm_num)]
    rfl
  · decide +kernel
  · decide +kernel

end imu

/-! Motions of the integer grid, as permutations. -/

abbrev GridG := Equiv.Perm (Int × Int)
def gridAct (g : GridG) (p : Int × Int) : Int × Int := g p

/-- A step of one metre forward. -/
def gridMove : GridG :=
  ⟨fun p => (p.1 + 1, p.2), fun p => (p.1 - 1, p.2), fun p => by simp, fun p => by simp⟩

/-- A quarter turn. -/
def gridTurn : GridG :=
  ⟨fun p => (-p.2, p.1), fun p => (p.2, -p.1), fun p => by simp, fun p => by simp⟩

/-- C81 is false for odometry: the lidar is mounted one metre in front of the tracking frame, the
odometry sensor in it; the vehicle turns on the spot.  The constraint expects a position one metre off
in each direction. -/
theorem C81_odom_fails :
    let t : TrueMounts GridG := ⟨gridMove, 1, 1⟩
    let m : Mounts GridG := ⟨t.lidar, t.gps, t.odom⁻¹ * t.lidar⟩
    Correct t m ∧ (odomReports t 1 gridTurn) (0, 0) = (0, 0) ∧
      (odomExpected (odomCalib m) gridTurn) (0, 0) = (1, -1) := by
  refine ⟨⟨rfl, rfl, rfl⟩, ?_, ?_⟩ <;> rfl

/-- C81 is false when the same cloud object is handed over twice: it has been transformed in place, and
is transformed again. -/
theorem C81_twice_fails :
    let m : Mounts GridG := ⟨gridMove, 1, 1⟩
    let first := mountCloud gridAct m [(0, 0)]
    first.1 = [(1, 0)] ∧ (mountCloud gridAct m first.2).1 = [(2, 0)] := by
  refine ⟨rfl, rfl⟩

/-- An instance of the cloud theorem: the lidar one metre in front, the vehicle turned. -/
example : lidarSees gridAct ⟨gridMove, 1, 1⟩ gridTurn [(0, 3)] = [(2, 0)] ∧
    (mountCloud gridAct ⟨gridMove, 1, 1⟩ [(2, 0)]).1 = [(3, 0)] := ⟨rfl, rfl⟩

/-- An instance of the URDF theorem: lidar on a fixed joint, GPS on the lidar, a wheel that turns. -/
def gridUrdf : List (UrdfLink GridG Nat) :=
  [⟨0, none⟩, ⟨1, some (0, true, gridMove)⟩, ⟨2, some (1, true, gridTurn)⟩,
   ⟨3, some (0, false, gridTurn)⟩]

example : (match nodeMounts (tfLookup (urdfTransforms gridUrdf)) 0 1 2 2 with
    | .ok m => decide (m.toLidar (0, 0) = (1, 0) ∧ m.toGps (1, 0) = (1, 1) ∧
        m.odomToLidar (1, 0) = (0, -1))
    | _ => false) = true := by decide +kernel

/-- The wheel is not connected by a fixed joint. -/
example : (match tfLookup (urdfTransforms gridUrdf) 0 3 with | .abort => true | _ => false) = true := by
  decide +kernel

end Verif
