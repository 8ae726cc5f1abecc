import Verif.Proofs.Time
/-! Property theorems C01-C04 (time stamps). -/
namespace Verif
open Spec

/-! ### C01 -/

/-- C01: normalised stamp -> nanoseconds -> stamp is the identity. -/
theorem C01_stamp_roundtrip (t : SimpleTime) (h : Normalised t) :
    SimpleTime.fromNanoSec t.toNanoSec.toUInt64 = t := by
  apply ns_inj (normalised_fromNanoSec _) h
  have := t.secs.toNat_lt
  rw [ns_fromNanoSec, toUInt64_toNat _ (by rw [toNanoSec_toInt]; omega), toNanoSec_toInt]
  unfold Normalised at h
  unfold nsLimit ns; omega

example : Normalised { secs := 4294967295, nsecs := 999999999 } := by
  show (999999999 : UInt32).toNat < 1000000000; decide

/-- C01: nanoseconds -> stamp -> nanoseconds, for every 64-bit count: exact below 2^32 s,
and reduced modulo 2^32 seconds in general; the result is always normalised. -/
theorem C01_count_roundtrip (n : UInt64) :
    Normalised (SimpleTime.fromNanoSec n) ∧
    ((SimpleTime.fromNanoSec n).toNanoSec.toInt = ((n.toNat % nsLimit : Nat) : Int)) ∧
    (n.toNat < nsLimit → (SimpleTime.fromNanoSec n).toNanoSec.toUInt64 = n) := by
  refine ⟨normalised_fromNanoSec n, ?_, ?_⟩
  · rw [toNanoSec_toInt, ns_fromNanoSec]
  · intro h
    apply UInt64.toNat_inj.mp
    rw [toUInt64_toNat _ (by rw [toNanoSec_toInt]; omega), toNanoSec_toInt, ns_fromNanoSec,
      Nat.mod_eq_of_lt h]
    rfl

example : (1234567890123456789 : UInt64).toNat < nsLimit := by decide

/-- C01: the conversion to nanoseconds never wraps: it is the count the stamp denotes. -/
theorem C01_toNanoSec_exact (t : SimpleTime) : t.toNanoSec.toInt = (ns t : Int) :=
  toNanoSec_toInt t

/-! ### C02 -/

/-- C02: all four comparisons are the comparisons of the denoted nanosecond counts. -/
theorem C02_order (a b : SimpleTime) :
    (a.lt b = true ↔ ns a < ns b) ∧ (a.le b = true ↔ ns a ≤ ns b) ∧
    (a.gt b = true ↔ ns b < ns a) ∧ (a.ge b = true ↔ ns b ≤ ns a) := by
  refine ⟨lt_iff a b, le_iff a b, ?_, ?_⟩
  · have := lt_iff b a; simpa [SimpleTime.gt, SimpleTime.lt] using this
  · have := le_iff b a; simpa [SimpleTime.ge, SimpleTime.le] using this

/-- C02: addition is addition of counts as long as the sum is representable. -/
theorem C02_add (a b : SimpleTime) (h : ns a + ns b < nsLimit) :
    ns (a.add b) = ns a + ns b := by
  rw [ns_add, Nat.mod_eq_of_lt h]

/-- C02: subtraction saturates at zero and is exact otherwise. -/
theorem C02_sub (a b : SimpleTime) (ha : Normalised a) :
    ns (a.sub b) = ns a - ns b := by
  rw [ns_sub, Nat.mod_eq_of_lt]
  unfold nsLimit ns Normalised at *
  have := a.secs.toNat_lt
  omega

/-- C02: subtracting what was added restores the stamp. -/
theorem C02_add_sub (a b : SimpleTime) (ha : Normalised a) (h : ns a + ns b < nsLimit) :
    (a.add b).sub b = a := by
  have hn : Normalised (a.add b) := normalised_fromNanoSec _
  apply ns_inj (normalised_fromNanoSec _) ha
  have := C02_sub (a.add b) b hn
  rw [C02_add a b h] at this
  unfold SimpleTime.sub at this
  rw [this]; omega

example : ns { secs := 1, nsecs := 999999999 } + ns { secs := 2, nsecs := 1 } < nsLimit := by decide

/-- C02: division by a non-zero integer divides the count by its absolute value;
by zero it changes nothing; by the most negative integer it is undefined. -/
theorem C02_div (t : SimpleTime) (ht : Normalised t) (a : Int32) :
    (a = 0 → t.divAssign a = .ok t) ∧
    (a = Int32.minValue → t.divAssign a = .ub) ∧
    (a ≠ 0 → a ≠ Int32.minValue →
      ∃ r, t.divAssign a = .ok r ∧ Normalised r ∧ ns r = ns t / a.toInt.natAbs) := by
  refine ⟨?_, ?_, ?_⟩
  · intro h; simp [SimpleTime.divAssign, h]
  · intro h; subst h; simp [SimpleTime.divAssign]
  · intro h0 hm
    obtain ⟨r, h1, h2, h3, h4⟩ := divAssign_ok t a h0 hm
    refine ⟨r, h1, h2, ?_⟩
    have hq : ns t / a.toInt.natAbs ≤ ns t := Nat.div_le_self _ _
    have : ns t < nsLimit := by
      unfold ns nsLimit Normalised at *; have := t.secs.toNat_lt; omega
    unfold nsLimit at this
    generalize ns t / a.toInt.natAbs = q at *
    show r.secs.toNat * 1000000000 + r.nsecs.toNat = q
    omega

example : (7 : Int32) ≠ 0 ∧ (7 : Int32) ≠ Int32.minValue ∧
    Normalised { secs := 10, nsecs := 5 } := by
  refine ⟨by decide, by decide, ?_⟩
  show (5 : UInt32).toNat < 1000000000; decide

/-- C02 is false for `==`: equality is not transitive, and two "equal" stamps can be
strictly ordered. -/
theorem C02_equality_fails :
    (∃ a b c : SimpleTime, Normalised a ∧ Normalised b ∧ Normalised c ∧
      a.eq b = true ∧ b.eq c = true ∧ a.eq c = false) ∧
    (∃ a b : SimpleTime, Normalised a ∧ Normalised b ∧ a.eq b = true ∧ a.lt b = true) := by
  refine ⟨⟨⟨0, 0⟩, ⟨0, 1⟩, ⟨0, 2⟩, ?_, ?_, ?_, ?_, ?_, ?_⟩, ⟨⟨0, 0⟩, ⟨0, 1⟩, ?_, ?_, ?_, ?_⟩⟩ <;>
    first | decide | (unfold Normalised; decide)

/-- C02, the part of the equality claim that holds: `==` means "at most one nanosecond
apart" (so it is reflexive and symmetric), and `!=` is its negation.
Missing: transitivity and exclusion of `<`, which are false (`C02_equality_fails`). -/
theorem C02_equality_partial (a b : SimpleTime) :
    (a.eq b = true ↔ ns a ≤ ns b + 1 ∧ ns b ≤ ns a + 1) ∧
    (a.eq a = true) ∧ (a.eq b = b.eq a) ∧ (a.ne b = !(a.eq b)) := by
  refine ⟨eq_iff a b, (eq_iff a a).2 (by omega), ?_, rfl⟩
  rw [Bool.eq_iff_iff, eq_iff, eq_iff]; omega

/-! ### C03 -/

/-- C03: microseconds -> local -> microseconds is the identity below 2^32 seconds. -/
theorem C03_pcl_roundtrip (u : UInt64) (h : u.toNat < 2 ^ 32 * 1000000) :
    toPclTime (toLocalTime u) = u := by
  have hm : (u * 1000).toNat = u.toNat * 1000 := by
    rw [UInt64.toNat_mul]; show u.toNat * 1000 % _ = _; omega
  have hr : (SimpleTime.fromNanoSec (u * 1000)).toNanoSec.toUInt64 = u * 1000 :=
    (C01_count_roundtrip (u * 1000)).2.2 (by rw [hm]; unfold nsLimit; omega)
  unfold toPclTime toLocalTime
  rw [hr]
  apply UInt64.toNat_inj.mp
  rw [UInt64.toNat_div, hm]; show u.toNat * 1000 / 1000 = _; omega

example : (1600000000000001 : UInt64).toNat < 2 ^ 32 * 1000000 := by decide

/-- C03: local -> PCL -> local loses less than one microsecond and never moves forward. -/
theorem C03_local_roundtrip (t : SimpleTime) (ht : Normalised t) :
    ns (toLocalTime (toPclTime t)) ≤ ns t ∧ ns t < ns (toLocalTime (toPclTime t)) + 1000 := by
  have h1 : (toPclTime t).toNat = ns t / 1000 := by
    unfold toPclTime
    rw [UInt64.toNat_div, toUInt64_toNat _ (by rw [toNanoSec_toInt]; omega), toNanoSec_toInt]
    rfl
  have hl : ns t < nsLimit := by
    unfold ns nsLimit Normalised at *; have := t.secs.toNat_lt; omega
  unfold nsLimit at hl
  have h2 : ns (toLocalTime (toPclTime t)) = ns t / 1000 * 1000 := by
    unfold toLocalTime
    rw [ns_fromNanoSec, UInt64.toNat_mul, h1]
    have hq : ns t / 1000 * 1000 < 2 ^ 32 * 1000000000 := by omega
    generalize ns t / 1000 = q at *
    show (q * 1000 % 2 ^ 64) % nsLimit = _
    rw [Nat.mod_eq_of_lt (a := q * 1000) (by omega), Nat.mod_eq_of_lt (by unfold nsLimit; omega)]
  omega

/-- C03: the conversion to PCL time is monotone. -/
theorem C03_monotone (a b : SimpleTime) (h : ns a ≤ ns b) :
    (toPclTime a).toNat ≤ (toPclTime b).toNat := by
  have h1 : ∀ t, (toPclTime t).toNat = ns t / 1000 := by
    intro t
    unfold toPclTime
    rw [UInt64.toNat_div, toUInt64_toNat _ (by rw [toNanoSec_toInt]; omega), toNanoSec_toInt]
    rfl
  rw [h1, h1]; exact Nat.div_le_div_right h

/-! ### C04 -/

/-- C04: on at least two samples the search succeeds and returns adjacent valid positions;
if the first sample is not after the query the sample at the first returned position is not
after it, and if the last sample is not before the query the one at the second returned
position is not before it. -/
theorem C04_search_brackets (data : List SimpleTime) (t first last : SimpleTime)
    (hlen : 2 ≤ data.length) (hfirst : data.head? = some first) (hlast : data.getLast? = some last) :
    ∃ i : Nat, timeStampBinarySearch data t = .ok ((i : Int), (i : Int) + 1) ∧
      ∃ a b, data[i]? = some a ∧ data[i + 1]? = some b ∧
        (ns first ≤ ns t → ns a ≤ ns t) ∧ (ns t ≤ ns last → ns t ≤ ns b) := by
  obtain ⟨i, j, h1, h2, h3, h4, h5⟩ :=
    tsSearchLoop_spec data t 0 ((data.length : Int) - 1) (by omega) (by omega) (by omega)
  subst h2
  have e1 : ((data.length : Int) - 1).toNat = data.length - 1 := by omega
  rw [List.getLast?_eq_getElem?] at hlast
  rw [e1, hlast] at h5
  rw [List.head?_eq_getElem?] at hfirst
  simp only [Int.toNat_zero] at h4
  rw [hfirst] at h4
  refine ⟨i, ?_, data[i], data[i+1], List.getElem?_eq_getElem (by omega),
    List.getElem?_eq_getElem h3, ?_, ?_⟩
  · unfold timeStampBinarySearch
    rw [h1]
    simp only [Outcome.bind_ok, Outcome.check_bind_eq_ok, Outcome.pure_eq]
    refine ⟨by omega, ?_⟩
    rfl
  · intro h
    obtain ⟨y, hy, hy'⟩ := h4 _ rfl h
    rw [List.getElem?_eq_getElem (by omega)] at hy
    rw [Option.some.inj hy]; exact hy'
  · intro h
    obtain ⟨y, hy, hy'⟩ := h5 _ rfl h
    rw [List.getElem?_eq_getElem (by omega)] at hy
    rw [Option.some.inj hy]; exact hy'

/-- C04: on a time-ordered sequence containing the query time the returned position splits
the sequence: everything up to it is not after the query, everything behind it not before. -/
theorem C04_search_splits (data : List SimpleTime) (t first last : SimpleTime)
    (hlen : 2 ≤ data.length) (hord : TimeOrdered data)
    (hfirst : data.head? = some first) (hlast : data.getLast? = some last)
    (hf : ns first ≤ ns t) (hl : ns t ≤ ns last) :
    ∃ i : Nat, timeStampBinarySearch data t = .ok ((i : Int), (i : Int) + 1) ∧
      i + 1 < data.length ∧
      (∀ k x, k ≤ i → data[k]? = some x → ns x ≤ ns t) ∧
      (∀ k x, i < k → data[k]? = some x → ns t ≤ ns x) := by
  obtain ⟨i, hr, a, b, ha, hb, hat, htb⟩ := C04_search_brackets data t first last hlen hfirst hlast
  have hmono : ∀ (k l : Nat) x y, k ≤ l → data[k]? = some x → data[l]? = some y → ns x ≤ ns y := by
    intro k l x y hkl hx hy
    obtain ⟨hk, rfl⟩ := List.getElem?_eq_some_iff.mp hx
    obtain ⟨hl, rfl⟩ := List.getElem?_eq_some_iff.mp hy
    rcases Nat.lt_or_ge k l with h | h
    · exact List.pairwise_iff_getElem.mp hord k l hk hl h
    · have : k = l := by omega
      subst this; exact Nat.le_refl _
  refine ⟨i, hr, (List.getElem?_eq_some_iff.mp hb).1,
    fun k x hk hx => Nat.le_trans (hmono k i x a hk hx ha) (hat hf),
    fun k x hk hx => Nat.le_trans (htb hl) (hmono (i+1) k b x hk hb hx)⟩

/-- C04: fewer than two samples abort. -/
theorem C04_search_short (data : List SimpleTime) (t : SimpleTime) (h : data.length < 2) :
    timeStampBinarySearch data t = .abort := by
  unfold timeStampBinarySearch tsSearchLoop
  have : ¬ ((data.length : Int) - 1 - 0 > 1) := by omega
  simp only [this, dite_false, Outcome.bind_ok]
  have : ¬ ((data.length : Int) - 1 - 0 = 1) := by omega
  simp only [Outcome.check, this, if_false]
  rfl

example : timeStampBinarySearch [⟨1,0⟩, ⟨2,0⟩, ⟨3,0⟩, ⟨4,0⟩] ⟨2,500⟩ = .ok (1, 2) := by decide +kernel
example : timeStampBinarySearch [⟨1,0⟩] ⟨1,0⟩ = .abort := by decide +kernel
example : TimeOrdered [⟨1,0⟩, ⟨2,0⟩, ⟨2,0⟩, ⟨4,0⟩] := by unfold TimeOrdered; decide

end Verif
