import Verif.Spec.Odom
import Verif.Props.Gps
namespace Verif
open Spec

/-- only the times of odometry samples -/
def asGps (d : OdomSample) : GpsData := ⟨true, d.time, ⟨0, 0, 0⟩, ⟨0, 0, 0⟩⟩

theorem asGps_times (l : List OdomSample) :
    (l.map asGps).map GpsData.time = l.map OdomSample.time := by
  simp [asGps, Function.comp_def]

/-- `a`, `b` are neighbours at `i` and enclose `t` -/
def OdomBracket (l : List OdomSample) (t : SimpleTime) (i : Nat) (a b : OdomSample) : Prop :=
  l[i]? = some a ∧ l[i + 1]? = some b ∧ ns a.time ≤ ns t ∧ ns t ≤ ns b.time ∧
  (ns t < ns b.time ∨ i + 2 = l.length)

theorem odom_search (l : List OdomSample) (t : SimpleTime) (first last : OdomSample)
    (h2 : 2 ≤ l.length) (hf : l.head? = some first) (hl : l.getLast? = some last)
    (h1 : ns first.time ≤ ns t) (h3 : ns t ≤ ns last.time) :
    ∃ (i : Nat) (a b : OdomSample),
      timeStampBinarySearch (l.map OdomSample.time) t = .ok ((i : Int), (i : Int) + 1) ∧
      OdomBracket l t i a b := by
  obtain ⟨i, a, b, e, b1, b2, b3, b4, b5⟩ := search_bracket (l.map asGps) t (asGps first) (asGps last)
    (by simpa using h2) (by simp [hf]) (by simp [hl]) h1 h3
  rw [asGps_times] at e
  rw [List.getElem?_map, Option.map_eq_some_iff] at b1 b2
  obtain ⟨a', ha, rfl⟩ := b1
  obtain ⟨b', hb, rfl⟩ := b2
  exact ⟨i, a', b', e, ha, hb, b3, b4, by simpa [asGps] using b5⟩

theorem odom_get {l : List OdomSample} (h : Increasing (l.map OdomSample.time)) {i j : Nat}
    {a b : OdomSample} (ha : l[i]? = some a) (hb : l[j]? = some b) (hij : i < j) :
    ns a.time < ns b.time := by
  have h' : Increasing ((l.map asGps).map GpsData.time) := by rw [asGps_times]; exact h
  exact increasing_get h' (a := asGps a) (b := asGps b) (by simp [ha]) (by simp [hb]) hij

theorem odom_unique {l : List OdomSample} (h : Increasing (l.map OdomSample.time)) {t : SimpleTime}
    {i j : Nat} {a b c d : OdomSample} (hi : OdomBracket l t i a b) (hj : OdomBracket l t j c d) :
    i = j := by
  have h' : Increasing ((l.map asGps).map GpsData.time) := by rw [asGps_times]; exact h
  obtain ⟨a1, a2, a3, a4, a5⟩ := hi
  obtain ⟨c1, c2, c3, c4, c5⟩ := hj
  exact bracket_unique h' (t := t) (a := asGps a) (b := asGps b) (c := asGps c) (d := asGps d)
    ⟨by simp [a1], by simp [a2], a3, a4, by simpa [asGps] using a5⟩
    ⟨by simp [c1], by simp [c2], c3, c4, by simpa [asGps] using c5⟩

theorem odom_ends {l : List OdomSample} (h2 : 2 ≤ l.length) :
    ∃ first last, l.head? = some first ∧ l.getLast? = some last := by
  match l, h2 with
  | x :: y :: rest, _ =>
    exact ⟨x, (y :: rest).getLast (by simp), rfl, by
      rw [List.getLast?_eq_getLast_of_ne_nil (by simp)]; simp⟩

theorem odom_cases (slerp : Slerp) (l : List OdomSample) (t : SimpleTime) (th : Rat) (trim : Bool)
    (first last : OdomSample) (hth : th ≤ 1 / 2) (h2 : 2 ≤ l.length) (hf : l.head? = some first)
    (hl : l.getLast? = some last) :
    ((ns t < ns first.time ∨ ns last.time < ns t) ∧
      interpolateOdom slerp l t th trim = .ok (none, l)) ∨
    (ns first.time ≤ ns t ∧ ns t ≤ ns last.time ∧ ∃ i a b, OdomBracket l t i a b ∧
      interpolateOdom slerp l t th trim =
        odomBetween slerp t a b >>= fun r => .ok (r, if trim then l.drop i else l)) := by
  obtain ⟨x, y, rest, rfl⟩ : ∃ x y rest, l = x :: y :: rest := by
    match l, h2 with
    | x :: y :: rest, _ => exact ⟨x, y, rest, rfl⟩
  have hx : x = first := by simpa using hf
  subst hx
  have hlast : (y :: rest).getLast (by simp) = last := by
    rw [List.getLast?_eq_getLast_of_ne_nil (by simp)] at hl
    simpa using hl
  have hbody : interpolateOdom slerp (x :: y :: rest) t th trim =
      odomMany slerp (x :: y :: rest) x last t trim := by
    unfold interpolateOdom
    rw [Outcome.check_pos hth, Outcome.bind_ok]
    show odomMany _ _ _ ((y :: rest).getLast _) _ _ = _
    rw [hlast]
  rw [hbody]
  unfold odomMany
  by_cases hout : ns t < ns x.time ∨ ns last.time < ns t
  · left
    refine ⟨hout, ?_⟩
    have : (t.lt x.time || t.gt last.time) = true := by
      simp only [Bool.or_eq_true, lt_iff, gt_iff']; exact hout
    rw [if_pos this]
  · right
    rw [not_or, Nat.not_lt, Nat.not_lt] at hout
    obtain ⟨i, a, b, hs, hb⟩ := odom_search (x :: y :: rest) t x last h2 (by simp) hl hout.1 hout.2
    refine ⟨hout.1, hout.2, i, a, b, hb, ?_⟩
    have : ¬ (t.lt x.time || t.gt last.time) = true := by
      simp only [Bool.or_eq_true, lt_iff, gt_iff']; omega
    rw [if_neg this, hs]
    have e1 : ((i : Int)).toNat = i := by omega
    have e2 : ((i : Int) + 1).toNat = i + 1 := by omega
    simp only [Outcome.bind_ok, e1, e2, hb.1, hb.2.1, Outcome.pure_eq]

section between
variable (slerp : Slerp) (t : SimpleTime) (a b : OdomSample) (hb : Normalised b.time)
    (h1 : ns a.time ≤ ns t) (h2 : ns t ≤ ns b.time)
include hb h1 h2

theorem odomBetween_close (hg : ¬ ns a.time + 1000 < ns b.time) :
    odomBetween slerp t a b = .abort := by
  have hd : (b.time.sub a.time).toSec = ((ns b.time : Rat) - ns a.time) / 1000000000 :=
    sub_toSec _ _ hb (le_trans h1 h2)
  unfold odomBetween
  dsimp only
  rw [hd, Outcome.check_neg (by rw [gap1us]; exact hg), Outcome.bind_abort]

theorem odomBetween_far (hg : ns a.time + 1000 < ns b.time)
    (hbad : ns a.time + 1000000000 < ns b.time) : odomBetween slerp t a b = .ok none := by
  have hd : (b.time.sub a.time).toSec = ((ns b.time : Rat) - ns a.time) / 1000000000 :=
    sub_toSec _ _ hb (le_trans h1 h2)
  unfold odomBetween
  dsimp only
  rw [hd, Outcome.check_pos (by rw [gap1us]; exact hg), Outcome.bind_ok]
  rw [if_pos (by rw [gap_iff _ _ 1000000000 1 (by norm_num)]; exact hbad), Outcome.pure_eq]

theorem odomBetween_good (hg : ns a.time + 1000 < ns b.time)
    (hbad : ¬ ns a.time + 1000000000 < ns b.time) :
    ∃ p, odomBetween slerp t a b = .ok (some p) ∧ OdomOnPath slerp a b t p := by
  have hd : (b.time.sub a.time).toSec = ((ns b.time : Rat) - ns a.time) / 1000000000 :=
    sub_toSec _ _ hb (le_trans h1 h2)
  have hlim : ns b.time < nsLimit := ns_lt_limit hb
  have hf : (t.sub a.time).toSec = ((ns t : Rat) - ns a.time) / 1000000000 := by
    rw [toSec_eq, ns_sub, Nat.mod_eq_of_lt (lt_of_le_of_lt (Nat.sub_le _ _) (lt_of_le_of_lt h2 hlim)),
      Nat.cast_sub h1]
  have hpos : (0 : Rat) < (ns b.time : Rat) - ns a.time := by
    have : ns a.time < ns b.time := lt_of_le_of_lt (Nat.le_add_right _ _) hg
    have : (ns a.time : Rat) < (ns b.time : Rat) := by exact_mod_cast this
    linarith
  have hne : (ns b.time : Rat) - ns a.time ≠ 0 := ne_of_gt hpos
  have hq : ((ns t : Rat) - ns a.time) / 1000000000 / (((ns b.time : Rat) - ns a.time) / 1000000000)
      = ((ns t : Rat) - ns a.time) / ((ns b.time : Rat) - ns a.time) := by
    field_simp
  have h1' : (ns a.time : Rat) ≤ ns t := by exact_mod_cast h1
  have h2' : (ns t : Rat) ≤ ns b.time := by exact_mod_cast h2
  have hc2 : 0 ≤ ((ns t : Rat) - ns a.time) / ((ns b.time : Rat) - ns a.time) ∧
      ((ns t : Rat) - ns a.time) / ((ns b.time : Rat) - ns a.time) ≤ 1 := by
    refine ⟨div_nonneg (by linarith) (le_of_lt hpos), ?_⟩
    rw [div_le_one hpos]; linarith
  unfold odomBetween interpolateTransform
  dsimp only
  rw [hd, Outcome.check_pos (by rw [gap1us]; exact hg), Outcome.bind_ok]
  rw [if_neg (by rw [gap_iff _ _ 1000000000 1 (by norm_num)]; exact hbad)]
  rw [Outcome.check_pos ⟨(ge_iff' _ _).2 h1, (le_iff _ _).2 h2⟩, Outcome.bind_ok, hf, hq,
    Outcome.check_pos hc2, Outcome.bind_ok, Outcome.bind_ok, Outcome.pure_eq, Outcome.bind_ok,
    Outcome.pure_eq]
  refine ⟨_, rfl, _, hc2.1, hc2.2, div_mul_cancel₀ _ hne, rfl, ?_⟩
  intro i
  dsimp only
  ring

end between

/-- the history of stored samples -/
theorem addOdomAll_some (o : Rigid Rat) (data ms : List OdomSample) :
    addOdomAll ⟨some o, data⟩ ms =
      ⟨some o, data ++ ms.map (fun m => ⟨m.time, Rigid.between o m.pose⟩)⟩ := by
  induction ms generalizing data with
  | nil => simp [addOdomAll]
  | cons m ms ih =>
    have : addOdomAll ⟨some o, data⟩ (m :: ms) = addOdomAll (addOdom ⟨some o, data⟩ m) ms := rfl
    rw [this]
    have e : addOdom ⟨some o, data⟩ m = ⟨some o, data ++ [⟨m.time, Rigid.between o m.pose⟩]⟩ := rfl
    rw [e, ih]
    simp

theorem addOdomAll_cons (m : OdomSample) (ms : List OdomSample) :
    addOdomAll {} (m :: ms) =
      ⟨some m.pose, (m :: ms).map (fun x => ⟨x.time, Rigid.between m.pose x.pose⟩)⟩ := by
  have : addOdomAll {} (m :: ms) = addOdomAll (addOdom {} m) ms := rfl
  rw [this]
  have e : addOdom {} m = ⟨some m.pose, [⟨m.time, Rigid.between m.pose m.pose⟩]⟩ := rfl
  rw [e, addOdomAll_some]
  simp

theorem between_self {p : Rigid Rat} (h : Orthogonal p) :
    (Rigid.between p p).rot = 1 ∧ (Rigid.between p p).trans = 0 := by
  refine ⟨h.2, ?_⟩
  simp [Rigid.between]

theorem between_between {o p q : Rigid Rat} (h : Orthogonal o) :
    Rigid.between (Rigid.between o p) (Rigid.between o q) = Rigid.between p q := by
  unfold Rigid.between
  congr 1
  · show (o.rot.transpose * p.rot).transpose * (o.rot.transpose * q.rot) = _
    rw [Matrix.transpose_mul, Matrix.transpose_transpose, Matrix.mul_assoc,
      ← Matrix.mul_assoc o.rot, h.1, Matrix.one_mul]
  · show (o.rot.transpose * p.rot).transpose.mulVec
      (o.rot.transpose.mulVec (q.trans - o.trans) - o.rot.transpose.mulVec (p.trans - o.trans)) = _
    rw [← Matrix.mulVec_sub, Matrix.mulVec_mulVec, Matrix.transpose_mul, Matrix.transpose_transpose,
      Matrix.mul_assoc, h.1, Matrix.mul_one]
    congr 1
    abel

end Verif
