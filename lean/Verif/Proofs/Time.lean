import Verif.Spec.Time
namespace Verif
open Spec

theorem ns_lt (t : SimpleTime) : ns t < 4294967296 * 1000000000 + 4294967296 := by
  unfold ns
  have := t.secs.toNat_lt; have := t.nsecs.toNat_lt; omega

theorem toNanoSec_u64 (t : SimpleTime) :
    (t.secs.toUInt64 * 1000000000 + t.nsecs.toUInt64).toNat = ns t := by
  unfold ns
  have := t.secs.toNat_lt; have := t.nsecs.toNat_lt
  simp [UInt64.toNat_add, UInt64.toNat_mul]; omega

theorem toNanoSec_toInt (t : SimpleTime) : t.toNanoSec.toInt = (ns t : Int) := by
  have h := toNanoSec_u64 t
  have hl := ns_lt t
  unfold SimpleTime.toNanoSec
  generalize t.secs.toUInt64 * 1000000000 + t.nsecs.toUInt64 = u at h
  rw [← Int64.toInt_toBitVec, BitVec.toInt_eq_toNat_bmod]
  change Int.bmod (u.toNat : Int) (2^64) = _
  rw [h, Int.bmod_def]
  omega

theorem toUInt64_toNat (x : Int64) (h : 0 ≤ x.toInt) : x.toUInt64.toNat = x.toInt.toNat := by
  have h1 : x.toUInt64.toNat = x.toBitVec.toNat := rfl
  have h2 := Int64.toInt_toBitVec x
  rw [BitVec.toInt_eq_toNat_cond] at h2
  have := x.toBitVec.isLt
  split at h2 <;> omega

theorem fromNanoSec_secs (n : UInt64) :
    (SimpleTime.fromNanoSec n).secs.toNat = n.toNat / 1000000000 % 4294967296 := by
  simp [SimpleTime.fromNanoSec]

theorem fromNanoSec_nsecs (n : UInt64) :
    (SimpleTime.fromNanoSec n).nsecs.toNat = n.toNat % 1000000000 := by
  simp [SimpleTime.fromNanoSec]; omega

theorem ns_fromNanoSec (n : UInt64) :
    ns (SimpleTime.fromNanoSec n) = n.toNat % nsLimit := by
  unfold ns nsLimit
  rw [fromNanoSec_secs, fromNanoSec_nsecs]; omega

theorem ns_inj {a b : SimpleTime} (ha : Normalised a) (hb : Normalised b) (h : ns a = ns b) :
    a = b := by
  unfold ns Normalised at *
  have h1 : a.secs.toNat = b.secs.toNat := by omega
  have h2 : a.nsecs.toNat = b.nsecs.toNat := by omega
  cases a; cases b
  simp only [UInt32.toNat_inj] at h1 h2
  simp_all

theorem normalised_fromNanoSec (n : UInt64) : Normalised (SimpleTime.fromNanoSec n) := by
  unfold Normalised; rw [fromNanoSec_nsecs]; omega

theorem lt_iff (a b : SimpleTime) : a.lt b = true ↔ ns a < ns b := by
  simp [SimpleTime.lt, Int64.lt_iff_toInt_lt, toNanoSec_toInt]

theorem le_iff (a b : SimpleTime) : a.le b = true ↔ ns a ≤ ns b := by
  simp [SimpleTime.le, Int64.le_iff_toInt_le, toNanoSec_toInt]

theorem toInt_add (a b : SimpleTime) :
    (a.toNanoSec + b.toNanoSec).toInt = (ns a : Int) + ns b := by
  have := ns_lt a; have := ns_lt b
  rw [Int64.toInt_add, toNanoSec_toInt, toNanoSec_toInt, Int.bmod_def]; omega

theorem toInt_sub (a b : SimpleTime) :
    (a.toNanoSec - b.toNanoSec).toInt = (ns a : Int) - ns b := by
  have := ns_lt a; have := ns_lt b
  rw [Int64.toInt_sub, toNanoSec_toInt, toNanoSec_toInt, Int.bmod_def]; omega

theorem ns_add (a b : SimpleTime) : ns (a.add b) = (ns a + ns b) % nsLimit := by
  unfold SimpleTime.add
  rw [ns_fromNanoSec, toUInt64_toNat _ (by rw [toInt_add]; omega), toInt_add]
  congr 1

theorem ns_sub (a b : SimpleTime) : ns (a.sub b) = (ns a - ns b) % nsLimit := by
  unfold SimpleTime.sub
  have h := toInt_sub a b
  simp only []
  split
  · rename_i hlt
    rw [Int64.lt_iff_toInt_lt, h] at hlt
    rw [ns_fromNanoSec]
    have h0 : (Int64.toUInt64 0).toNat = 0 := rfl
    rw [h0]
    simp at hlt ⊢
    have : ns a - ns b = 0 := by omega
    simp [this]
  · rename_i hlt
    rw [Int64.lt_iff_toInt_lt, h] at hlt
    simp at hlt
    rw [ns_fromNanoSec, toUInt64_toNat _ (by rw [h]; omega), h]
    congr 1; omega

theorem eq_iff (a b : SimpleTime) :
    a.eq b = true ↔ ns a ≤ ns b + 1 ∧ ns b ≤ ns a + 1 := by
  have h := toInt_sub a b
  have := ns_lt a; have := ns_lt b
  unfold SimpleTime.eq
  simp only [decide_eq_true_eq, Int64.le_iff_toInt_le]
  split
  · rename_i hlt
    rw [Int64.lt_iff_toInt_lt, h] at hlt
    rw [Int64.toInt_neg, h, Int.bmod_def]
    simp at hlt ⊢; omega
  · rename_i hlt
    rw [Int64.lt_iff_toInt_lt, h] at hlt
    rw [h]
    simp at hlt ⊢; omega

theorem divAssign_ok (t : SimpleTime) (a : Int32) (h0 : a ≠ 0) (hm : a ≠ Int32.minValue) :
    ∃ r, t.divAssign a = .ok r ∧ Normalised r ∧
      (r.secs.toNat : Nat) = ns t / a.toInt.natAbs / 1000000000 % 4294967296 ∧
      r.nsecs.toNat = ns t / a.toInt.natAbs % 1000000000 := by
  have hlt := ns_lt t
  unfold SimpleTime.divAssign
  simp only [h0, hm, if_false]
  generalize hd : (if a < 0 then -a else a) = d
  have ha0 : a.toInt ≠ 0 := fun h => h0 (Int32.toInt_inj.mp (by simpa using h))
  have ham : a.toInt ≠ -2147483648 := fun h => hm (Int32.toInt_inj.mp (by simpa using h))
  have hb1 := Int32.toInt_lt a
  have hb2 := Int32.le_toInt a
  have hdi : d.toInt = (a.toInt.natAbs : Int) := by
    subst hd
    split
    · rename_i hn
      rw [Int32.lt_iff_toInt_lt] at hn
      rw [Int32.toInt_neg, Int.bmod_def]
      simp at hn ⊢; omega
    · rename_i hn
      rw [Int32.lt_iff_toInt_lt] at hn
      simp at hn; omega
  have hd64 : d.toInt64.toInt = (a.toInt.natAbs : Int) := by rw [Int32.toInt_toInt64, hdi]
  generalize hk : a.toInt.natAbs = k at *
  have hk1 : 1 ≤ k := by omega
  have hq : (t.toNanoSec / d.toInt64).toInt = ((ns t / k : Nat) : Int) := by
    have hle : ns t / k ≤ ns t := Nat.div_le_self _ _
    rw [Int64.toInt_div, hd64, toNanoSec_toInt, ← Int.ofNat_tdiv]
    generalize ns t / k = q at *
    rw [Int.bmod_def]
    omega
  have hq' : ns t / k ≤ ns t := Nat.div_le_self _ _
  generalize ns t / k = q at *
  generalize t.toNanoSec / d.toInt64 = x at *
  have h1 : (x / 1000000000).toInt = ((q / 1000000000 : Nat) : Int) := by
    rw [Int64.toInt_div, hq]
    simp
    rw [Int.bmod_def]; omega
  have h2 : (x % 1000000000).toInt = ((q % 1000000000 : Nat) : Int) := by
    rw [Int64.toInt_mod, hq]
    simp
    exact (Int.ofNat_tmod q 1000000000).symm
  refine ⟨_, rfl, ?_, ?_, ?_⟩
  · unfold Normalised
    simp only [UInt64.toNat_toUInt32]
    rw [toUInt64_toNat _ (by omega), h2]; omega
  · simp only [UInt64.toNat_toUInt32]
    rw [toUInt64_toNat _ (by omega), h1]; omega
  · simp only [UInt64.toNat_toUInt32]
    rw [toUInt64_toNat _ (by omega), h2]; omega

theorem tsSearchLoop_spec (data : List SimpleTime) (time : SimpleTime) (s f : Int)
    (hs : 0 ≤ s) (hsf : s < f) (hf : f < data.length) :
    ∃ i j : Nat, tsSearchLoop data time s f = .ok ((i : Int), (j : Int)) ∧ j = i + 1 ∧
      j < data.length ∧
      (∀ x, data[s.toNat]? = some x → ns x ≤ ns time → ∃ y, data[i]? = some y ∧ ns y ≤ ns time) ∧
      (∀ x, data[f.toNat]? = some x → ns time ≤ ns x → ∃ y, data[j]? = some y ∧ ns time ≤ ns y) := by
  unfold tsSearchLoop
  split
  · rename_i h
    have hm : 0 ≤ s + (f - s) / 2 := by omega
    have hml : (s + (f - s) / 2).toNat < data.length := by omega
    simp only [hm, if_true, List.getElem?_eq_getElem hml]
    split
    · rename_i hlt
      rw [lt_iff] at hlt
      obtain ⟨i, j, h1, h2, h3, h4, h5⟩ :=
        tsSearchLoop_spec data time s (s + (f - s) / 2) hs (by omega) (by omega)
      refine ⟨i, j, h1, h2, h3, h4, ?_⟩
      intro _ _ _
      exact h5 _ (List.getElem?_eq_getElem hml) (by omega)
    · rename_i hlt
      rw [lt_iff] at hlt
      obtain ⟨i, j, h1, h2, h3, h4, h5⟩ :=
        tsSearchLoop_spec data time (s + (f - s) / 2) f (by omega) (by omega) (by omega)
      refine ⟨i, j, h1, h2, h3, ?_, h5⟩
      intro _ _ _
      exact h4 _ (List.getElem?_eq_getElem hml) (by omega)
  · refine ⟨s.toNat, f.toNat, ?_, by omega, by omega, fun x hx hx' => ⟨x, hx, hx'⟩,
      fun x hx hx' => ⟨x, hx, hx'⟩⟩
    congr 2 <;> omega
termination_by (f - s).toNat
decreasing_by all_goals omega

end Verif
