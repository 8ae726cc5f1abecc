import Verif.Spec.Gps
import Verif.Props.Time
import Mathlib.Tactic.Linarith
import Mathlib.Tactic.FieldSimp
import Mathlib.Tactic.Ring
import Mathlib.Tactic.NormNum
import Mathlib.Algebra.Order.Field.Rat
namespace Verif
open Spec

theorem gt_iff' (a b : SimpleTime) : a.gt b = true ↔ ns b < ns a := by
  simp [SimpleTime.gt, Int64.lt_iff_toInt_lt, toNanoSec_toInt]

theorem ge_iff' (a b : SimpleTime) : a.ge b = true ↔ ns b ≤ ns a := by
  simp [SimpleTime.ge, Int64.le_iff_toInt_le, toNanoSec_toInt]

theorem toSec_eq (t : SimpleTime) : t.toSec = (ns t : Rat) / 1000000000 := by
  unfold SimpleTime.toSec ns
  push_cast
  field_simp

/-! ### ingest -/

theorem addGps_some (fwd : LatLonAlt → LatLonAlt → Vec3 Rat) (r : LatLonAlt) (data : List GpsData)
    (m : GpsMsg) :
    addGps fwd ⟨some r, data⟩ m =
      if (∀ last, data.getLast? = some last → ns last.time < ns m.time) then
        .ok ⟨some r, data ++ [sampleOf fwd r m]⟩ else .abort := by
  unfold addGps
  simp only [statusFix]
  cases h : data.getLast? with
  | none => simp [sampleOf]; rfl
  | some last =>
    simp only [gt_iff', Option.some.injEq, forall_eq', sampleOf]
    rfl

theorem addGpsAll_some (fwd : LatLonAlt → LatLonAlt → Vec3 Rat) (r : LatLonAlt) (ms : List GpsMsg)
    (data : List GpsData) (hd : Increasing (data.map GpsData.time)) :
    (Increasing (data.map GpsData.time ++ ms.map GpsMsg.time) →
      addGpsAll fwd ⟨some r, data⟩ ms = .ok ⟨some r, data ++ ms.map (sampleOf fwd r)⟩) ∧
    (¬ Increasing (data.map GpsData.time ++ ms.map GpsMsg.time) →
      addGpsAll fwd ⟨some r, data⟩ ms = .abort) := by
  induction ms generalizing data with
  | nil =>
    refine ⟨fun _ => by simp [addGpsAll], fun h => ?_⟩
    simp at h
    exact absurd hd h
  | cons m ms ih =>
    simp only [addGpsAll]
    rw [addGps_some]
    have key : (∀ last, data.getLast? = some last → ns last.time < ns m.time) ↔
        Increasing (data.map GpsData.time ++ [m.time]) := by
      constructor
      · intro h
        unfold Increasing
        rw [List.pairwise_append]
        refine ⟨hd, by simp, ?_⟩
        intro a ha b hb
        simp only [List.mem_singleton] at hb
        subst hb
        rcases List.eq_nil_or_concat data with rfl | ⟨l, x, rfl⟩
        · simp at ha
        · have hx := h x (by simp)
          unfold Increasing at hd
          simp only [List.concat_eq_append, List.map_append, List.map_cons, List.map_nil,
            List.pairwise_append, List.mem_append, List.mem_singleton] at hd ha
          rcases ha with ha | rfl
          · exact lt_trans (hd.2.2 a ha x.time (by simp)) hx
          · exact hx
      · intro h last hl
        unfold Increasing at h
        rw [List.pairwise_append] at h
        exact h.2.2 last.time (List.mem_map.2 ⟨last, List.mem_of_getLast? hl, rfl⟩) m.time (by simp)
    have happ : data.map GpsData.time ++ (m :: ms).map GpsMsg.time =
        (data ++ [sampleOf fwd r m]).map GpsData.time ++ ms.map GpsMsg.time := by
      simp [sampleOf]
    by_cases hc : ∀ last, data.getLast? = some last → ns last.time < ns m.time
    · rw [if_pos hc]
      simp only [Outcome.bind_ok]
      have := ih (data ++ [sampleOf fwd r m]) (by simpa [sampleOf] using key.1 hc)
      rw [happ]
      refine ⟨fun h => ?_, this.2⟩
      rw [this.1 h]
      simp
    · rw [if_neg hc]
      refine ⟨fun h => ?_, fun _ => by simp⟩
      exfalso
      apply hc
      rw [key]
      have : data.map GpsData.time ++ (m :: ms).map GpsMsg.time =
        (data.map GpsData.time ++ [m.time]) ++ ms.map GpsMsg.time := by simp
      rw [this] at h
      exact (List.pairwise_append.1 h).1

/-! ### the bracket found by the binary search, exactly -/

theorem tsSearchLoop_exact (data : List SimpleTime) (time : SimpleTime) (s f : Int)
    (hs : 0 ≤ s) (hsf : s < f) (hf : f < data.length) :
    ∃ i : Nat, tsSearchLoop data time s f = .ok ((i : Int), (i : Int) + 1) ∧
      (i : Int) + 1 ≤ f ∧
      ((i : Int) = s ∨ ∃ y, data[i]? = some y ∧ ns y ≤ ns time) ∧
      ((i : Int) + 1 = f ∨ ∃ y, data[i + 1]? = some y ∧ ns time < ns y) := by
  unfold tsSearchLoop
  split
  · rename_i h
    have hm : 0 ≤ s + (f - s) / 2 := by omega
    have hml : (s + (f - s) / 2).toNat < data.length := by omega
    simp only [hm, if_true, List.getElem?_eq_getElem hml]
    split
    · rename_i hlt
      rw [lt_iff] at hlt
      obtain ⟨i, h1, h2, h3, h4⟩ :=
        tsSearchLoop_exact data time s (s + (f - s) / 2) hs (by omega) (by omega)
      refine ⟨i, h1, by clear h3 h4; omega, h3, Or.inr ?_⟩
      clear h3
      rcases h4 with h4 | h4
      · have e : (s + (f - s) / 2).toNat = i + 1 := by omega
        refine ⟨_, List.getElem?_eq_getElem (by omega), ?_⟩
        simpa only [e] using hlt
      · exact h4
    · rename_i hlt
      rw [lt_iff] at hlt
      obtain ⟨i, h1, h2, h3, h4⟩ :=
        tsSearchLoop_exact data time (s + (f - s) / 2) f (by omega) (by omega) (by omega)
      refine ⟨i, h1, h2, Or.inr ?_, h4⟩
      clear h4
      rcases h3 with h3 | h3
      · have e : (s + (f - s) / 2).toNat = i := by omega
        refine ⟨_, List.getElem?_eq_getElem (by omega), ?_⟩
        simpa only [e] using Nat.not_lt.mp hlt
      · exact h3
  · refine ⟨s.toNat, ?_, by omega, Or.inl (by omega), Or.inl (by omega)⟩
    congr 2 <;> omega
termination_by (f - s).toNat
decreasing_by all_goals omega

/-- the bracket position of `t` in `l` -/
def IsBracket (l : List GpsData) (t : SimpleTime) (i : Nat) (a b : GpsData) : Prop :=
  l[i]? = some a ∧ l[i + 1]? = some b ∧ ns a.time ≤ ns t ∧ ns t ≤ ns b.time ∧
  (ns t < ns b.time ∨ i + 2 = l.length)

theorem search_bracket (l : List GpsData) (t : SimpleTime) (first last : GpsData)
    (h2 : 2 ≤ l.length) (hf : l.head? = some first) (hl : l.getLast? = some last)
    (h1 : ns first.time ≤ ns t) (h3 : ns t ≤ ns last.time) :
    ∃ (i : Nat) (a b : GpsData), timeStampBinarySearch (l.map GpsData.time) t = .ok ((i : Int), (i : Int) + 1) ∧
      IsBracket l t i a b := by
  obtain ⟨i, e, hle, hlo, hhi⟩ := tsSearchLoop_exact (l.map GpsData.time) t 0
    (((l.map GpsData.time).length : Int) - 1) (by omega) (by simp; omega) (by omega)
  have hi : i + 1 < l.length := by simp at hle; omega
  refine ⟨i, l[i], l[i + 1], ?_, List.getElem?_eq_getElem (by omega), List.getElem?_eq_getElem hi, ?_, ?_, ?_⟩
  · unfold timeStampBinarySearch
    rw [e]
    simp [Outcome.check]
  · rcases hlo with hlo | ⟨y, hy, hy'⟩
    · have : i = 0 := by omega
      subst this
      rw [List.head?_eq_getElem?, List.getElem?_eq_getElem (by omega)] at hf
      simp at hf
      rw [hf]; exact h1
    · rw [List.getElem?_map, List.getElem?_eq_getElem (by omega)] at hy
      simp at hy
      rw [hy]; exact hy'
  · rcases hhi with hhi | ⟨y, hy, hy'⟩
    · have : i + 1 = l.length - 1 := by simp at hhi; omega
      rw [List.getLast?_eq_getElem?, ← this, List.getElem?_eq_getElem (by omega)] at hl
      simp at hl
      rw [hl]; exact h3
    · rw [List.getElem?_map, List.getElem?_eq_getElem (by omega)] at hy
      simp at hy
      rw [hy]; omega
  · rcases hhi with hhi | ⟨y, hy, hy'⟩
    · right; simp at hhi; omega
    · left
      rw [List.getElem?_map, List.getElem?_eq_getElem (by omega)] at hy
      simp at hy
      rw [hy]; exact hy'

theorem increasing_get {l : List GpsData} (h : Increasing (l.map GpsData.time)) {i j : Nat}
    {a b : GpsData} (ha : l[i]? = some a) (hb : l[j]? = some b) (hij : i < j) :
    ns a.time < ns b.time := by
  unfold Increasing at h
  rw [List.pairwise_map] at h
  rw [List.getElem?_eq_some_iff] at ha hb
  obtain ⟨h1, rfl⟩ := ha
  obtain ⟨h2, rfl⟩ := hb
  exact List.pairwise_iff_getElem.1 h i j h1 h2 hij

theorem bracket_unique {l : List GpsData} (h : Increasing (l.map GpsData.time)) {t : SimpleTime}
    {i j : Nat} {a b c d : GpsData} (hi : IsBracket l t i a b) (hj : IsBracket l t j c d) : i = j := by
  obtain ⟨a1, a2, a3, a4, a5⟩ := hi
  obtain ⟨c1, c2, c3, c4, c5⟩ := hj
  have hil := (List.getElem?_eq_some_iff.1 a2).1
  have hjl := (List.getElem?_eq_some_iff.1 c2).1
  rcases Nat.lt_trichotomy i j with hlt | heq | hgt
  · exfalso
    rcases a5 with a5 | a5
    · rcases Nat.eq_or_lt_of_le (Nat.succ_le_of_lt hlt) with e | e
      · have e' : i + 1 = j := e
        rw [e'] at a2; rw [a2] at c1; simp at c1; rw [c1] at a5; omega
      · have := increasing_get h a2 c1 e; omega
    · omega
  · exact heq
  · exfalso
    rcases c5 with c5 | c5
    · rcases Nat.eq_or_lt_of_le (Nat.succ_le_of_lt hgt) with e | e
      · have e' : j + 1 = i := e
        rw [e'] at c2; rw [c2] at a1; simp at a1; rw [a1] at c5; omega
      · have := increasing_get h c2 a1 e; omega
    · omega

/-- Shape of a query on at least two samples. -/
theorem interpolate_cases (l : List GpsData) (t : SimpleTime) (th : Rat) (trim : Bool)
    (first last : GpsData) (hth : th ≤ 1 / 2) (h2 : 2 ≤ l.length) (hf : l.head? = some first)
    (hl : l.getLast? = some last) :
    ((ns t < ns first.time ∨ ns last.time < ns t) ∧ interpolateGps l t th trim = .ok (none, l)) ∨
    (ns first.time ≤ ns t ∧ ns t ≤ ns last.time ∧ ∃ i a b, IsBracket l t i a b ∧
      interpolateGps l t th trim =
        gpsBetween t a b >>= fun r => .ok (r, if trim then l.drop i else l)) := by
  obtain ⟨x, y, rest, rfl⟩ : ∃ x y rest, l = x :: y :: rest := by
    match l, h2 with
    | x :: y :: rest, _ => exact ⟨x, y, rest, rfl⟩
  have hx : x = first := by simpa using hf
  subst hx
  have hlast : (y :: rest).getLast (by simp) = last := by
    rw [List.getLast?_eq_getLast_of_ne_nil (by simp)] at hl
    simpa using hl
  have hbody : interpolateGps (x :: y :: rest) t th trim =
      gpsMany (x :: y :: rest) x last t trim := by
    unfold interpolateGps
    rw [Outcome.check_pos hth, Outcome.bind_ok]
    show gpsMany _ _ ((y :: rest).getLast _) _ _ = _
    rw [hlast]
  rw [hbody]
  unfold gpsMany
  by_cases hout : ns t < ns x.time ∨ ns last.time < ns t
  · left
    refine ⟨hout, ?_⟩
    have : (t.lt x.time || t.gt last.time) = true := by
      simp only [Bool.or_eq_true, lt_iff, gt_iff']; exact hout
    rw [if_pos this]
  · right
    rw [not_or, Nat.not_lt, Nat.not_lt] at hout
    obtain ⟨i, a, b, hs, hb⟩ := search_bracket (x :: y :: rest) t x last h2 (by simp) hl hout.1 hout.2
    refine ⟨hout.1, hout.2, i, a, b, hb, ?_⟩
    have : ¬ (t.lt x.time || t.gt last.time) = true := by
      simp only [Bool.or_eq_true, lt_iff, gt_iff']; omega
    rw [if_neg this, hs]
    have e1 : ((i : Int)).toNat = i := by omega
    have e2 : ((i : Int) + 1).toNat = i + 1 := by omega
    simp only [Outcome.bind_ok, e1, e2, hb.1, hb.2.1, Outcome.pure_eq]

theorem ns_lt_limit {b : SimpleTime} (hb : Normalised b) : ns b < nsLimit := by
  have := b.secs.toNat_lt
  have hb' : b.nsecs.toNat < 1000000000 := hb
  unfold ns nsLimit
  omega

theorem sub_toSec (a b : SimpleTime) (hb : Normalised b) (h : ns a ≤ ns b) :
    (b.sub a).toSec = ((ns b : Rat) - ns a) / 1000000000 := by
  have hlim : ns b < nsLimit := ns_lt_limit hb
  rw [toSec_eq, ns_sub, Nat.mod_eq_of_lt (lt_of_le_of_lt (Nat.sub_le _ _) hlim), Nat.cast_sub h]

theorem gap_iff (x y : Nat) (g : Nat) (q : Rat) (hq : q * 1000000000 = g) :
    (((y : Rat) - x) / 1000000000 > q) ↔ x + g < y := by
  rw [gt_iff_lt, lt_div_iff₀ (by norm_num), hq]
  constructor
  · intro h
    have : ((x + g : Nat) : Rat) < (y : Rat) := by push_cast; linarith
    exact_mod_cast this
  · intro h
    have : ((x + g : Nat) : Rat) < (y : Rat) := by exact_mod_cast h
    push_cast at this; linarith

theorem gap1us (x y : Nat) : (((y : Rat) - x) / 1000000000 > 1 / 1000000) ↔ x + 1000 < y :=
  gap_iff x y 1000 _ (by norm_num)

theorem gap200ms (x y : Nat) : (((y : Rat) - x) / 1000000000 > 2 / 10) ↔ x + 200000000 < y :=
  gap_iff x y 200000000 _ (by norm_num)

section between
variable (t : SimpleTime) (a b : GpsData) (hb : Normalised b.time)
    (h1 : ns a.time ≤ ns t) (h2 : ns t ≤ ns b.time)
include hb h1 h2

theorem gpsBetween_close (hg : ¬ ns a.time + 1000 < ns b.time) : gpsBetween t a b = .abort := by
  have hd : (b.time.sub a.time).toSec = ((ns b.time : Rat) - ns a.time) / 1000000000 :=
    sub_toSec _ _ hb (le_trans h1 h2)
  unfold gpsBetween
  dsimp only
  rw [Outcome.check_pos ⟨(ge_iff' _ _).2 h1, (le_iff _ _).2 h2⟩, hd, Outcome.bind_ok]
  rw [Outcome.check_neg (by rw [gap1us]; exact hg), Outcome.bind_abort]

theorem gpsBetween_bad (hg : ns a.time + 1000 < ns b.time)
    (hbad : ns a.time + 200000000 < ns b.time ∨ a.fixed = false ∨ b.fixed = false) :
    gpsBetween t a b = .ok none := by
  have hd : (b.time.sub a.time).toSec = ((ns b.time : Rat) - ns a.time) / 1000000000 :=
    sub_toSec _ _ hb (le_trans h1 h2)
  unfold gpsBetween
  dsimp only
  rw [Outcome.check_pos ⟨(ge_iff' _ _).2 h1, (le_iff _ _).2 h2⟩, hd, Outcome.bind_ok]
  rw [Outcome.check_pos (by rw [gap1us]; exact hg), Outcome.bind_ok]
  rw [if_pos (by rw [gap200ms]; exact hbad), Outcome.pure_eq]

/-- share of the way from `a` to `b` at time `t` -/
def ratio (t : SimpleTime) (a b : GpsData) : Rat :=
  ((ns t : Rat) - ns a.time) / ((ns b.time : Rat) - ns a.time)

theorem gpsBetween_good (hg : ns a.time + 1000 < ns b.time)
    (hbad : ¬ (ns a.time + 200000000 < ns b.time ∨ a.fixed = false ∨ b.fixed = false)) :
    gpsBetween t a b = .ok (some ⟨a.enu.x + ratio t a b * (b.enu.x - a.enu.x),
      a.enu.y + ratio t a b * (b.enu.y - a.enu.y), a.enu.z + ratio t a b * (b.enu.z - a.enu.z)⟩) := by
  have hd : (b.time.sub a.time).toSec = ((ns b.time : Rat) - ns a.time) / 1000000000 :=
    sub_toSec _ _ hb (le_trans h1 h2)
  have hlim : ns b.time < nsLimit := ns_lt_limit hb
  have hf : (t.sub a.time).toSec = ((ns t : Rat) - ns a.time) / 1000000000 := by
    rw [toSec_eq, ns_sub, Nat.mod_eq_of_lt (lt_of_le_of_lt (Nat.sub_le _ _) (lt_of_le_of_lt h2 hlim)),
      Nat.cast_sub h1]
  have hpos : (0 : Rat) < (ns b.time : Rat) - ns a.time := by
    have : ns a.time < ns b.time := lt_of_le_of_lt (Nat.le_add_right _ _) hg
    have : (ns a.time : Rat) < (ns b.time : Rat) := by exact_mod_cast this
    linarith
  have hq : ((ns t : Rat) - ns a.time) / 1000000000 / (((ns b.time : Rat) - ns a.time) / 1000000000)
      = ratio t a b := by
    have hne : (ns b.time : Rat) - ns a.time ≠ 0 := ne_of_gt hpos
    unfold ratio
    field_simp
  have h1' : (ns a.time : Rat) ≤ ns t := by exact_mod_cast h1
  have h2' : (ns t : Rat) ≤ ns b.time := by exact_mod_cast h2
  have hc2 : 0 ≤ ratio t a b ∧ ratio t a b ≤ 1 := by
    unfold ratio
    refine ⟨div_nonneg (by linarith) (le_of_lt hpos), ?_⟩
    rw [div_le_one hpos]; linarith
  unfold gpsBetween
  dsimp only
  rw [Outcome.check_pos ⟨(ge_iff' _ _).2 h1, (le_iff _ _).2 h2⟩, hd, Outcome.bind_ok]
  rw [Outcome.check_pos (by rw [gap1us]; exact hg), Outcome.bind_ok]
  rw [if_neg (by rw [gap200ms]; exact hbad), hf, hq, Outcome.check_pos hc2, Outcome.bind_ok,
    Outcome.pure_eq]

end between

/-- dropping samples that are all older than the bracket of `t` does not move the bracket -/
theorem bracket_drop {l : List GpsData} {t : SimpleTime} {i k : Nat} {a b : GpsData}
    (h : IsBracket (l.drop k) t i a b) : IsBracket l t (k + i) a b := by
  obtain ⟨h1, h2, h3, h4, h5⟩ := h
  rw [List.getElem?_drop] at h1 h2
  refine ⟨h1, by rw [Nat.add_assoc]; exact h2, h3, h4, ?_⟩
  rcases h5 with h5 | h5
  · exact Or.inl h5
  · right; simp at h5; omega

theorem increasing_drop {l : List GpsData} (k : Nat) (h : Increasing (l.map GpsData.time)) :
    Increasing ((l.drop k).map GpsData.time) := by
  unfold Increasing at *
  rw [List.map_drop]
  exact h.sublist (List.drop_sublist k _)

/-- the result part of a query -/
def gpsResult (x : Outcome (Option (Vec3 Rat) × List GpsData)) : Outcome (Option (Vec3 Rat)) :=
  x >>= fun r => .ok r.1

theorem query_drop (l : List GpsData) (t : SimpleTime) (th : Rat) (tr tr' : Bool) (k : Nat) (d : GpsData)
    (hinc : Increasing (l.map GpsData.time)) (hk : k + 2 ≤ l.length) (hd : l[k]? = some d)
    (hdt : ns d.time ≤ ns t) :
    gpsResult (interpolateGps (l.drop k) t th tr) = gpsResult (interpolateGps l t th tr') := by
  by_cases hth : th ≤ 1 / 2
  swap
  · unfold gpsResult interpolateGps
    simp only [Outcome.check_neg hth, Outcome.bind_abort]
  obtain ⟨first, hfirst⟩ : ∃ f, l.head? = some f := by
    cases l with
    | nil => simp at hk
    | cons x xs => exact ⟨x, rfl⟩
  obtain ⟨last, hlast⟩ : ∃ f, l.getLast? = some f := by
    cases h : l.getLast? with
    | none => simp at h; subst h; simp at hk
    | some x => exact ⟨x, rfl⟩
  have hfirst' : (l.drop k).head? = some d := by rw [List.head?_drop]; exact hd
  have hlast' : (l.drop k).getLast? = some last := by
    rw [List.getLast?_drop, if_neg (by omega)]; exact hlast
  have hfd : ns first.time ≤ ns d.time := by
    rw [List.head?_eq_getElem?] at hfirst
    rcases Nat.eq_zero_or_pos k with rfl | hpos
    · rw [hfirst] at hd; simp at hd; rw [hd]
    · exact le_of_lt (increasing_get hinc hfirst hd hpos)
  rcases interpolate_cases (l.drop k) t th tr d last hth (by simp; omega) hfirst' hlast' with
    ⟨ho, e⟩ | ⟨hi1, hi2, i, a, b, hb, e⟩
  · rcases interpolate_cases l t th tr' first last hth (by omega) hfirst hlast with
      ⟨ho', e'⟩ | ⟨hi1', hi2', i', a', b', hb', e'⟩
    · rw [e, e']; rfl
    · omega
  · rcases interpolate_cases l t th tr' first last hth (by omega) hfirst hlast with
      ⟨ho', e'⟩ | ⟨hi1', hi2', i', a', b', hb', e'⟩
    · omega
    · have := bracket_unique hinc (bracket_drop hb) hb'
      subst this
      have h1 := (bracket_drop hb).1; rw [hb'.1] at h1
      have h2 := (bracket_drop hb).2.1; rw [hb'.2.1] at h2
      simp at h1 h2
      subst h1; subst h2
      rw [e, e']
      unfold gpsResult
      cases gpsBetween t a' b' <;> rfl

theorem short_list {α : Type} (l : List α) (h : ¬ 2 ≤ l.length) : l = [] ∨ ∃ d, l = [d] := by
  cases l with
  | nil => exact Or.inl rfl
  | cons a l =>
    cases l with
    | nil => exact Or.inr ⟨a, rfl⟩
    | cons b l => simp at h

/-! ### trimming -/

theorem trimIndex_spec (time : SimpleTime) (n : Nat) (ts : List SimpleTime) :
    trimIndex time n ts ≤ n ∧ trimIndex time n ts ≤ ts.length ∧
    (∀ j x, j < trimIndex time n ts → ts[j]? = some x → ns x < ns time) ∧
    (trimIndex time n ts < n → ∀ x, ts[trimIndex time n ts]? = some x → ns time ≤ ns x) := by
  induction n generalizing ts with
  | zero => simp [trimIndex]
  | succ n ih =>
    cases ts with
    | nil => simp [trimIndex]
    | cons t ts =>
      simp only [trimIndex]
      split
      · rename_i h
        rw [ge_iff'] at h
        refine ⟨by omega, by omega, fun j x hj => by omega, fun _ x hx => ?_⟩
        simp at hx; subst hx; exact h
      · rename_i h
        rw [ge_iff', Nat.not_le] at h
        obtain ⟨h1, h2, h3, h4⟩ := ih ts
        refine ⟨by omega, by simp; omega, ?_, ?_⟩
        · intro j x hj hx
          cases j with
          | zero => simp at hx; subst hx; exact h
          | succ j => exact h3 j x (by omega) (by simpa using hx)
        · intro hlt x hx
          exact h4 (by omega) x (by simpa using hx)

end Verif
