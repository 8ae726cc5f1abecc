import Verif.Model.CloudIO
namespace Verif

@[simp] theorem leBytes_length (k n : Nat) : (leBytes k n).length = k := by
  induction k generalizing n with
  | zero => rfl
  | succ k ih => simp [leBytes, ih]

theorem leVal_leBytes (k n : Nat) (h : n < 256 ^ k) : leVal (leBytes k n) = n := by
  induction k generalizing n with
  | zero => simp at h; subst h; rfl
  | succ k ih =>
    simp only [leBytes, leVal]
    rw [ih (n / 256) (by rw [Nat.pow_succ] at h; omega)]
    simp; omega

@[simp] theorem u32_roundtrip (u : UInt32) : u32OfBytes (u32Bytes u) = u := by
  unfold u32OfBytes u32Bytes
  rw [leVal_leBytes _ _ (by have := u.toNat_lt; simpa using this)]
  simp

@[simp] theorem u32Bytes_length (u : UInt32) : (u32Bytes u).length = 4 := leBytes_length 4 _

@[simp] theorem image_length (p : BitsPoint) : (BitsPoint.image p).length = 20 := by
  simp [BitsPoint.image]

@[simp] theorem time_image_length (t : RawTime) : t.image.length = 12 := by
  simp [RawTime.image]

theorem take_drop_app {α} (a b : List α) (n : Nat) (h : a.length = n) :
    (a ++ b).take n = a ∧ (a ++ b).drop n = b := by
  subst h; simp

@[simp] theorem ofImage_image (p : BitsPoint) : BitsPoint.ofImage (BitsPoint.image p) = p := by
  unfold BitsPoint.ofImage BitsPoint.image
  have e4 : ∀ u : UInt32, (u32Bytes u).length = 4 := u32Bytes_length
  cases p with
  | mk x y z i f =>
    simp only [List.append_assoc]
    have hx : ∀ l : List UInt8, (u32Bytes x ++ l).drop 4 = l := fun l => by simp [e4]
    have d8 : ∀ l : List UInt8, (u32Bytes x ++ (u32Bytes y ++ l)).drop 8 = l := fun l => by
      simp [List.drop_append, e4]
    have d12 : ∀ l : List UInt8, (u32Bytes x ++ (u32Bytes y ++ (u32Bytes z ++ l))).drop 12 = l :=
      fun l => by
        rw [← List.append_assoc, ← List.append_assoc]; exact List.drop_left' (by simp [e4])
    have d16 : ∀ l : List UInt8, (u32Bytes x ++ (u32Bytes y ++ (u32Bytes z ++ (u32Bytes i ++ l)))).drop 16 = l :=
      fun l => by
        rw [← List.append_assoc, ← List.append_assoc, ← List.append_assoc]
        exact List.drop_left' (by simp [e4])
    have t4 : ∀ (u : UInt32) (l : List UInt8), (u32Bytes u ++ l).take 4 = u32Bytes u := fun u l => by
      simp [e4]
    rw [hx, d8, d12, d16, t4, t4, t4, t4]
    have : (u32Bytes f).take 4 = u32Bytes f := List.take_of_length_le (by simp)
    rw [this]
    simp

@[simp] theorem time_ofImage_image (t : RawTime) : RawTime.ofImage t.image = t := by
  unfold RawTime.ofImage RawTime.image
  have e4 : ∀ u : UInt32, (u32Bytes u).length = 4 := u32Bytes_length
  cases t with
  | mk x y z =>
    simp only [List.append_assoc]
    have hx : ∀ l : List UInt8, (u32Bytes x ++ l).drop 4 = l := fun l => by simp [e4]
    have d8 : ∀ l : List UInt8, (u32Bytes x ++ (u32Bytes y ++ l)).drop 8 = l := fun l => by
      simp [List.drop_append, e4]
    have t4 : ∀ (u : UInt32) (l : List UInt8), (u32Bytes u ++ l).take 4 = u32Bytes u := fun u l => by
      simp [e4]
    rw [hx, d8, t4, t4]
    have : (u32Bytes z).take 4 = u32Bytes z := List.take_of_length_le (by simp)
    rw [this]
    simp

theorem read_enough (bytes rest : List UInt8) (old : List UInt8) (h : old.length = bytes.length) :
    IStream.read { rest := bytes ++ rest } old = (bytes, { rest := rest }) := by
  unfold IStream.read IStream.good
  simp [h]

theorem deserializePoint_enough (p old : BitsPoint) (rest : List UInt8) :
    deserializePoint { rest := BitsPoint.image p ++ rest } old = (true, p, { rest := rest }) := by
  unfold deserializePoint
  rw [read_enough _ _ _ (by simp)]
  simp [IStream.good]

theorem deserializePoints_enough (ps olds : List BitsPoint) (rest : List UInt8)
    (h : olds.length = ps.length) :
    deserializePoints { rest := ps.flatMap BitsPoint.image ++ rest } olds
      = (true, ps, { rest := rest }) := by
  induction ps generalizing olds with
  | nil => cases olds with
    | nil => rfl
    | cons _ _ => simp at h
  | cons p ps ih =>
    cases olds with
    | nil => simp at h
    | cons o os =>
      simp only [List.flatMap_cons, List.append_assoc, deserializePoints,
        deserializePoint_enough]
      rw [ih os (by simpa using h)]
      simp

@[simp] theorem resizePoints_length (l : List BitsPoint) (n : Nat) : (resizePoints l n).length = n := by
  simp [resizePoints]; omega

/-- once the end was hit, the remaining points are left as they were and reading "succeeds" -/
theorem deserializePoints_eof (olds : List BitsPoint) (s : IStream) (he : s.eof = true) :
    ∃ s', deserializePoints s olds = (true, olds, s') := by
  induction olds generalizing s with
  | nil => exact ⟨s, rfl⟩
  | cons o os ih =>
    obtain ⟨s', hs'⟩ := ih { s with fail := true } he
    refine ⟨s', ?_⟩
    have hg : s.good = false := by simp [IStream.good, he]
    rw [he] at hs'
    simp [deserializePoints, deserializePoint, IStream.read, hg, he, hs']

theorem deserializePoints_trunc (ps olds : List BitsPoint) (tail : List UInt8)
    (h : ps.length < olds.length) (ht : tail.length < 20) :
    ∃ s q, deserializePoints { rest := ps.flatMap BitsPoint.image ++ tail } olds
      = (true, ps ++ q :: olds.drop (ps.length + 1), s) ∧
      (tail = [] → olds[ps.length]? = some q) := by
  induction ps generalizing olds with
  | nil =>
    cases olds with
    | nil => simp at h
    | cons o os =>
      simp only [List.flatMap_nil, List.nil_append, deserializePoints, deserializePoint]
      have hr : IStream.read { rest := tail } (BitsPoint.image o) =
          (tail ++ (BitsPoint.image o).drop tail.length, { rest := [], eof := true, fail := true }) := by
        unfold IStream.read
        have : IStream.good { rest := tail } = true := rfl
        simp only [this, image_length]
        rw [if_neg (by simp), if_neg (by omega)]
      rw [hr]
      obtain ⟨s', hs'⟩ := deserializePoints_eof os { rest := [], eof := true, fail := true } rfl
      refine ⟨s', BitsPoint.ofImage (tail ++ (BitsPoint.image o).drop tail.length), by simp [hs'], ?_⟩
      intro h; subst h; simp
  | cons p ps ih =>
    cases olds with
    | nil => simp at h
    | cons o os =>
      obtain ⟨s, q, h1, h2⟩ := ih os (by simpa using h)
      refine ⟨s, q, ?_, by simpa using h2⟩
      simp only [List.flatMap_cons, List.append_assoc, deserializePoints,
        deserializePoint_enough, h1]
      simp

end Verif
