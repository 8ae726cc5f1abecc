import Verif.Proofs.CloudIO
/-! Property theorems C09, C10 (binary clouds). -/
namespace Verif

/-- C09: reading back a written cloud gives exactly the written cloud (stamp and every point,
bit for bit), whatever the receiving object held before and whatever follows in the file. -/
theorem C09_roundtrip (c old : BitsCloud) (extra : List UInt8) (maxPoints : Nat)
    (hsize : c.points.length < 2 ^ 64) (hmem : c.points.length ≤ maxPoints) :
    deserializeCloud maxPoints { rest := serializeCloud c ++ extra } old = .ok (true, c) := by
  unfold deserializeCloud serializeCloud
  simp only [List.append_assoc]
  rw [read_enough _ _ _ (by simp)]
  simp only [IStream.good]
  rw [read_enough _ _ _ (by simp)]
  rw [leVal_leBytes _ _ (by simpa using hsize)]
  rw [deserializePoints_enough _ _ _ (by simp)]
  simp [Nat.not_lt.mpr hmem]

/-- C09: the written form determines the cloud. -/
theorem C09_injective (c d : BitsCloud) (hc : c.points.length < 2 ^ 64)
    (hd : d.points.length < 2 ^ 64) (h : serializeCloud c = serializeCloud d) : c = d := by
  have h1 := C09_roundtrip c ⟨⟨0,0,0⟩, []⟩ [] (max c.points.length d.points.length) hc (Nat.le_max_left ..)
  have h2 := C09_roundtrip d ⟨⟨0,0,0⟩, []⟩ [] (max c.points.length d.points.length) hd (Nat.le_max_right ..)
  rw [h, h2] at h1
  simpa using h1.symm

example : ∃ c : BitsCloud, c.points.length = 2 ∧ c.points.length < 2 ^ 64 ∧
    (serializeCloud c).length = 60 :=
  ⟨⟨⟨5, 6, 1⟩, [⟨1,2,3,4,5⟩, ⟨0xFFFFFFFF,0,7,8,9⟩]⟩, by decide, by decide, by decide⟩

/-- C10 is false: a file cut after the header of a one-point cloud is accepted, and the
object then holds an invented point. -/
theorem C10_truncation_reported_fails :
    ∃ (c : BitsCloud) (n : Nat) (r : BitsCloud), n < (serializeCloud c).length ∧
      deserializeCloud 1000 { rest := (serializeCloud c).take n } ⟨⟨0,0,1⟩, []⟩ = .ok (true, r) ∧
      r.points = [⟨0, 0, 0, 0, 0⟩] ∧ r ≠ c := by
  refine ⟨⟨⟨5, 6, 1⟩, [⟨1,2,3,4,5⟩]⟩, 20, ⟨⟨5, 6, 1⟩, [⟨0, 0, 0, 0, 0⟩]⟩, by decide, by decide, rfl, by decide⟩

/-- C10, what holds: a cut inside the 20-byte header is reported as failure.
Missing: cuts behind the header, which are accepted (`C10_truncated_points_partial` says what
the reader then returns). -/
theorem C10_header_partial (c old : BitsCloud) (n : Nat) (hn : n < 20) (maxPoints : Nat) :
    ∃ r, deserializeCloud maxPoints { rest := (serializeCloud c).take n } old = .ok (false, r) := by
  have hlen : ((serializeCloud c).take n).length = n := by
    simp [serializeCloud]; omega
  generalize hb : (serializeCloud c).take n = bytes at hlen
  unfold deserializeCloud
  by_cases h12 : n < 12
  · have hr : IStream.read { rest := bytes } old.stamp.image =
        (bytes ++ old.stamp.image.drop bytes.length, { rest := [], eof := true, fail := true }) := by
      unfold IStream.read
      have : IStream.good { rest := bytes } = true := rfl
      simp only [this, time_image_length]
      rw [if_neg (by simp), if_neg (by omega)]
    rw [hr]
    exact ⟨_, rfl⟩
  · have hr : IStream.read { rest := bytes } old.stamp.image =
        (bytes.take 12, { rest := bytes.drop 12 }) := by
      unfold IStream.read
      have : IStream.good { rest := bytes } = true := rfl
      simp only [this, time_image_length]
      rw [if_neg (by simp), if_pos (by omega)]
    have hr2 : IStream.read { rest := bytes.drop 12 } (leBytes 8 0) =
        (bytes.drop 12 ++ (leBytes 8 0).drop (bytes.drop 12).length,
          { rest := [], eof := true, fail := true }) := by
      unfold IStream.read
      have : IStream.good { rest := bytes.drop 12 } = true := rfl
      simp only [this, leBytes_length]
      rw [if_neg (by simp), if_neg (by simp; omega)]
    rw [hr]
    simp only [IStream.good]
    rw [hr2]
    exact ⟨_, rfl⟩

/-- C10, exact behaviour on a file cut inside the point data: the reader reports success, the
points completely present are right, the one being cut is damaged (unchanged if no byte of it is
there), all later ones keep the receiving object's previous content (zero for new ones). -/
theorem C10_truncated_points_partial (c old : BitsCloud) (k : Nat) (tail rest' : List UInt8)
    (maxPoints : Nat) (hsize : c.points.length < 2 ^ 64) (hmem : c.points.length ≤ maxPoints)
    (hk : k < c.points.length) (ht : tail.length < 20)
    (hcut : (c.points.drop k).flatMap BitsPoint.image = tail ++ rest') :
    ∃ q, deserializeCloud maxPoints
        { rest := (serializeCloud c).take (20 + 20 * k + tail.length) } old
      = .ok (true, ⟨c.stamp, c.points.take k ++ q ::
          (resizePoints old.points c.points.length).drop (k + 1)⟩) ∧
      (tail = [] → (resizePoints old.points c.points.length)[k]? = some q) := by
  have hflat : ∀ l : List BitsPoint, (l.flatMap BitsPoint.image).length = 20 * l.length := by
    intro l
    induction l with
    | nil => rfl
    | cons a l ih => simp [ih]; omega
  have hbytes : (serializeCloud c).take (20 + 20 * k + tail.length) =
      c.stamp.image ++ (leBytes 8 c.points.length ++ ((c.points.take k).flatMap BitsPoint.image ++ tail)) := by
    have hsplit : c.points.flatMap BitsPoint.image =
        (c.points.take k).flatMap BitsPoint.image ++ (tail ++ rest') := by
      rw [← hcut, ← List.flatMap_append, List.take_append_drop]
    unfold serializeCloud
    rw [hsplit]
    have : c.stamp.image ++ leBytes 8 c.points.length ++
        ((c.points.take k).flatMap BitsPoint.image ++ (tail ++ rest')) =
        (c.stamp.image ++ (leBytes 8 c.points.length ++ ((c.points.take k).flatMap BitsPoint.image ++ tail)))
          ++ rest' := by simp
    rw [this]
    apply List.take_left'
    simp [hflat]
    omega
  rw [hbytes]
  unfold deserializeCloud
  rw [read_enough _ _ _ (by simp)]
  simp only [IStream.good]
  rw [read_enough _ _ _ (by simp), leVal_leBytes _ _ (by simpa using hsize)]
  have hkl : (c.points.take k).length = k := by simp; omega
  obtain ⟨s, q, h1, h2⟩ := deserializePoints_trunc (c.points.take k)
    (resizePoints old.points c.points.length) tail (by simp; omega) ht
  rw [hkl] at h1 h2
  refine ⟨q, ?_, h2⟩
  simp [h1, Nat.not_lt.mpr hmem]

example : (deserializeCloud 1000 { rest := (serializeCloud ⟨⟨5,6,1⟩, [⟨1,2,3,4,5⟩, ⟨6,7,8,9,10⟩]⟩).take 44 }
    ⟨⟨0,0,1⟩, [⟨90,91,92,93,94⟩, ⟨95,96,97,98,99⟩]⟩) =
    .ok (true, ⟨⟨5,6,1⟩, [⟨1,2,3,4,5⟩, ⟨6,96,97,98,99⟩]⟩) := by decide +kernel

end Verif
