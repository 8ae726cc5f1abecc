import Verif.Proofs.Odom
/-! Property theorems C59 (odometry: collection and interpolation). -/
namespace Verif
open Spec

/-- C59: after any history of odometry messages there is one sample per message, in arrival order,
with its stamp; the first one is the identity pose, and the motion between any two samples is the
motion between the two messages. -/
theorem C59_history (ms : List OdomSample) (hrigid : ∀ m ∈ ms, Orthogonal m.pose) :
    ((addOdomAll {} ms).data.map OdomSample.time = ms.map OdomSample.time) ∧
    (∀ d, (addOdomAll {} ms).data.head? = some d → d.pose.rot = 1 ∧ d.pose.trans = 0) ∧
    (∀ (i j : Nat) (m n d e : OdomSample), ms[i]? = some m → ms[j]? = some n →
      (addOdomAll {} ms).data[i]? = some d → (addOdomAll {} ms).data[j]? = some e →
      Rigid.between d.pose e.pose = Rigid.between m.pose n.pose) := by
  cases ms with
  | nil =>
    refine ⟨rfl, ?_, ?_⟩
    · intro d h; simp [addOdomAll] at h
    · intro i j m n d e h; simp at h
  | cons m ms =>
    have ho : Orthogonal m.pose := hrigid m (by simp)
    rw [addOdomAll_cons]
    refine ⟨by simp [Function.comp_def], ?_, ?_⟩
    · intro d h
      simp at h
      rw [← h]
      exact between_self ho
    · intro i j m' n d e h1 h2 h3 h4
      rw [List.getElem?_map, h1] at h3
      rw [List.getElem?_map, h2] at h4
      simp at h3 h4
      rw [← h3, ← h4]
      exact between_between ho

/-- C59: a pose returned by a query with at least two samples lies between two neighbouring samples
that enclose the query time and are at most one second apart, in proportion to time. -/
theorem C59_interpolation (slerp : Slerp) (l l' : List OdomSample) (t : SimpleTime) (th : Rat)
    (trim : Bool) (p : Rigid Rat) (hnorm : ∀ d ∈ l, Normalised d.time) (h2 : 2 ≤ l.length)
    (h : interpolateOdom slerp l t th trim = .ok (some p, l')) :
    ∃ i a b, l[i]? = some a ∧ l[i + 1]? = some b ∧ ns a.time ≤ ns t ∧ ns t ≤ ns b.time ∧
      ns a.time < ns b.time ∧ ns b.time ≤ ns a.time + 1000000000 ∧ OdomOnPath slerp a b t p ∧
      l' = (if trim then l.drop i else l) := by
  have hth : th ≤ 1 / 2 := by
    by_contra hth
    unfold interpolateOdom at h
    rw [Outcome.check_neg hth, Outcome.bind_abort] at h
    cases h
  obtain ⟨first, last, hfirst, hlast⟩ := odom_ends h2
  rcases odom_cases slerp l t th trim first last hth h2 hfirst hlast with
    ⟨_, e⟩ | ⟨_, _, i, a, b, hb, e⟩
  · rw [e] at h; simp at h
  · obtain ⟨b1, b2, b3, b4, -⟩ := hb
    have hnb : Normalised b.time := hnorm b (List.mem_of_getElem? b2)
    rw [e] at h
    by_cases hg : ns a.time + 1000 < ns b.time
    swap
    · rw [odomBetween_close slerp t a b hnb b3 b4 hg] at h; simp at h
    by_cases hbad : ns a.time + 1000000000 < ns b.time
    · rw [odomBetween_far slerp t a b hnb b3 b4 hg hbad] at h; simp at h
    · obtain ⟨q, hq, hp⟩ := odomBetween_good slerp t a b hnb b3 b4 hg hbad
      rw [hq, Outcome.bind_ok] at h
      have hh := Prod.mk.inj (Outcome.ok.inj h)
      refine ⟨i, a, b, b1, b2, b3, b4, by omega, by omega, ?_, hh.2.symm⟩
      rw [← Option.some.inj hh.1]
      exact hp

/-- C59: a query between two neighbouring samples that are more than 1 µs and at most 1 s apart is
answered, and with trimming exactly the samples before them are removed. -/
theorem C59_answered (slerp : Slerp) (l : List OdomSample) (t : SimpleTime) (th : Rat) (trim : Bool)
    (i : Nat) (a b : OdomSample) (hth : th ≤ 1 / 2) (hnorm : ∀ d ∈ l, Normalised d.time)
    (hinc : Increasing (l.map OdomSample.time)) (ha : l[i]? = some a) (hb : l[i + 1]? = some b)
    (hat : ns a.time ≤ ns t) (htb : ns t < ns b.time)
    (hg : ns a.time + 1000 < ns b.time) (hg' : ns b.time ≤ ns a.time + 1000000000) :
    ∃ p, interpolateOdom slerp l t th trim = .ok (some p, if trim then l.drop i else l) ∧
      OdomOnPath slerp a b t p := by
  have hil := (List.getElem?_eq_some_iff.1 hb).1
  have hbr : OdomBracket l t i a b := ⟨ha, hb, hat, le_of_lt htb, Or.inl htb⟩
  obtain ⟨first, last, hfirst, hlast⟩ := odom_ends (l := l) (by omega)
  have hf0 : ns first.time ≤ ns a.time := by
    rw [List.head?_eq_getElem?] at hfirst
    rcases Nat.eq_zero_or_pos i with rfl | hpos
    · rw [hfirst] at ha; simp at ha; rw [ha]
    · exact le_of_lt (odom_get hinc hfirst ha hpos)
  have hl0 : ns b.time ≤ ns last.time := by
    rw [List.getLast?_eq_getElem?] at hlast
    rcases Nat.eq_or_lt_of_le (Nat.le_sub_one_of_lt hil) with e | e
    · rw [← e, hb] at hlast; simp at hlast; rw [hlast]
    · exact le_of_lt (odom_get hinc hb hlast e)
  rcases odom_cases slerp l t th trim first last hth (by omega) hfirst hlast with
    ⟨ho, _⟩ | ⟨_, _, j, c, d, hcd, e⟩
  · omega
  · have hj := odom_unique hinc hcd hbr
    subst hj
    have h1 := hcd.1; rw [ha] at h1
    have h2 := hcd.2.1; rw [hb] at h2
    simp at h1 h2
    subst h1; subst h2
    have hnb : Normalised b.time := hnorm b (List.mem_of_getElem? hb)
    obtain ⟨p, hok, hp⟩ := odomBetween_good slerp t a b hnb hat (le_of_lt htb) hg (by omega)
    rw [hok, Outcome.bind_ok] at e
    exact ⟨p, e, hp⟩

/-- C59: with no sample, or with a query time outside the stored range, there is no answer and
nothing is removed. -/
theorem C59_outside (slerp : Slerp) (l : List OdomSample) (t : SimpleTime) (th : Rat) (trim : Bool)
    (hth : th ≤ 1 / 2)
    (h : l = [] ∨ (2 ≤ l.length ∧ ((∃ f, l.head? = some f ∧ ns t < ns f.time) ∨
      (∃ f, l.getLast? = some f ∧ ns f.time < ns t)))) :
    interpolateOdom slerp l t th trim = .ok (none, l) := by
  rcases h with rfl | ⟨h2, h⟩
  · unfold interpolateOdom
    rw [Outcome.check_pos hth, Outcome.bind_ok]; rfl
  obtain ⟨first, last, hfirst, hlast⟩ := odom_ends h2
  rcases odom_cases slerp l t th trim first last hth h2 hfirst hlast with
    ⟨_, e⟩ | ⟨x1, x2, _⟩
  · exact e
  · rcases h with ⟨f, hf, hlt⟩ | ⟨f, hf, hlt⟩
    · rw [hfirst] at hf; simp at hf; subst hf; omega
    · rw [hlast] at hf; simp at hf; subst hf; omega

/-- C59: a single sample answers exactly the queries within the threshold of its time. -/
theorem C59_single (slerp : Slerp) (d : OdomSample) (t : SimpleTime) (th : Rat) (trim : Bool)
    (hth : th ≤ 1 / 2) :
    (|((ns t : Rat) - ns d.time)| ≤ th * 1000000000 →
      interpolateOdom slerp [d] t th trim = .ok (some d.pose, [d])) ∧
    (th * 1000000000 < |((ns t : Rat) - ns d.time)| →
      interpolateOdom slerp [d] t th trim = .ok (none, [d])) := by
  have hb : interpolateOdom slerp [d] t th trim = .ok (odomSingle d t th, [d]) := by
    unfold interpolateOdom
    rw [Outcome.check_pos hth, Outcome.bind_ok]; rfl
  rw [hb]
  unfold odomSingle
  simp only [toSec_eq]
  have e : (ns t : Rat) / 1000000000 - (ns d.time : Rat) / 1000000000 =
    ((ns t : Rat) - ns d.time) / 1000000000 := by ring
  rw [e]
  generalize hx : (ns t : Rat) - ns d.time = x
  have habs : (if x / 1000000000 < 0 then -(x / 1000000000) else x / 1000000000) =
      |x| / 1000000000 := by
    by_cases hn : x < 0
    · rw [if_pos (div_neg_of_neg_of_pos hn (by norm_num)), abs_of_neg hn, neg_div]
    · rw [if_neg (not_lt.2 (div_nonneg (not_lt.1 hn) (by norm_num))), abs_of_nonneg (not_lt.1 hn)]
  rw [habs]
  constructor
  · intro h
    rw [if_pos ((div_le_iff₀ (by norm_num)).2 h)]
  · intro h
    rw [if_neg (by rw [not_le, lt_div_iff₀ (by norm_num)]; exact h)]

/-- C59: with more than one microsecond between neighbouring samples no query stops the program. -/
theorem C59_no_abort_partial (slerp : Slerp) (l : List OdomSample) (t : SimpleTime) (th : Rat)
    (trim : Bool) (hnorm : ∀ d ∈ l, Normalised d.time) (hgap : OdomGaps l) (hth : th ≤ 1 / 2) :
    ∃ r, interpolateOdom slerp l t th trim = .ok r := by
  by_cases h2 : 2 ≤ l.length
  · obtain ⟨first, last, hfirst, hlast⟩ := odom_ends h2
    rcases odom_cases slerp l t th trim first last hth h2 hfirst hlast with
      ⟨_, e⟩ | ⟨_, _, i, a, b, hb, e⟩
    · exact ⟨_, e⟩
    · obtain ⟨b1, b2, b3, b4, -⟩ := hb
      have hnb : Normalised b.time := hnorm b (List.mem_of_getElem? b2)
      have hg := hgap i a b b1 b2
      rw [e]
      by_cases hbad : ns a.time + 1000000000 < ns b.time
      · rw [odomBetween_far slerp t a b hnb b3 b4 hg hbad]; exact ⟨_, rfl⟩
      · obtain ⟨p, hp, _⟩ := odomBetween_good slerp t a b hnb b3 b4 hg hbad
        rw [hp]; exact ⟨_, rfl⟩
  · match l, h2 with
    | [], _ => exact ⟨_, C59_outside slerp [] t th trim hth (Or.inl rfl)⟩
    | [d], _ =>
      obtain ⟨h1, h3⟩ := C59_single slerp d t th trim hth
      by_cases hc : |((ns t : Rat) - ns d.time)| ≤ th * 1000000000
      · exact ⟨_, h1 hc⟩
      · exact ⟨_, h3 (not_le.1 hc)⟩
    | _ :: _ :: _, h2 => simp at h2

def odomAt (s ns : UInt32) (x : Rat) : OdomSample := ⟨⟨s, ns⟩, ⟨1, fun _ => x⟩⟩

/-- C59, what goes wrong: a message repeated by the driver (same stamp twice) is accepted, and a
later query at that stamp stops the program, whatever the rotation interpolation. -/
theorem C59_repeated_fails (slerp : Slerp) :
    ∃ (ms : List OdomSample) (t : SimpleTime),
      (∀ m ∈ ms, Normalised m.time ∧ Orthogonal m.pose) ∧
      (ms.map OdomSample.time).Pairwise (fun a b => ns a ≤ ns b) ∧
      interpolateOdom slerp (addOdomAll {} ms).data t (1/10) false = .abort := by
  refine ⟨[odomAt 5 0 1, odomAt 5 0 1], ⟨5, 0⟩, ?_, ?_, ?_⟩
  · simp [odomAt, Normalised, Orthogonal]
  · simp [odomAt, ns]
  · rw [addOdomAll_cons]
    generalize hl : ([odomAt 5 0 1, odomAt 5 0 1].map
      (fun x => (⟨x.time, Rigid.between (odomAt 5 0 1).pose x.pose⟩ : OdomSample))) = l
    dsimp only
    have hlen : l.length = 2 := by rw [← hl]; rfl
    obtain ⟨first, last, hfirst, hlast⟩ := odom_ends (l := l) (by omega)
    have hall : ∀ d ∈ l, d.time = ⟨5, 0⟩ := by rw [← hl]; simp [odomAt]
    have hf := hall first (List.mem_of_mem_head? (by simp [hfirst]))
    have hlt := hall last (List.mem_of_getLast? hlast)
    rcases odom_cases slerp l ⟨5, 0⟩ (1/10) false first last (by norm_num) (by omega) hfirst hlast with
      ⟨ho, _⟩ | ⟨_, _, i, a, b, hb, e⟩
    · rw [hf, hlt] at ho; simp at ho
    · obtain ⟨b1, b2, b3, b4, -⟩ := hb
      have ha' := hall a (List.mem_of_getElem? b1)
      have hb' := hall b (List.mem_of_getElem? b2)
      rw [e, odomBetween_close slerp _ a b (by rw [hb']; simp [Normalised]) b3 b4
        (by rw [ha', hb']; simp [ns])]
      rfl

/-- C59, what goes wrong: messages in the wrong order are accepted too, and then a query inside the
covered time range gets no answer. -/
theorem C59_out_of_order_fails (slerp : Slerp) :
    ∃ (ms : List OdomSample) (t : SimpleTime) (a b : OdomSample),
      a ∈ ms ∧ b ∈ ms ∧ ns a.time < ns t ∧ ns t < ns b.time ∧ ns b.time ≤ ns a.time + 1000000000 ∧
      ∃ data, interpolateOdom slerp (addOdomAll {} ms).data t (1/10) false = .ok (none, data) := by
  refine ⟨[odomAt 5 500000000 1, odomAt 5 0 1], ⟨5, 250000000⟩, odomAt 5 0 1, odomAt 5 500000000 1,
    by simp, by simp, by simp [odomAt, ns], by simp [odomAt, ns], by simp [odomAt, ns], ?_⟩
  rw [addOdomAll_cons]
  refine ⟨_, C59_outside slerp _ _ _ _ (by norm_num) (Or.inr ⟨by simp, Or.inl ⟨_, rfl, ?_⟩⟩)⟩
  simp [odomAt, ns]

-- three messages a tenth of a second apart meet the hypotheses
example : (∀ m ∈ [odomAt 1 0 1, odomAt 1 100000000 2, odomAt 1 200000000 4],
    Orthogonal m.pose ∧ Normalised m.time) ∧
    Increasing ([odomAt 1 0 1, odomAt 1 100000000 2, odomAt 1 200000000 4].map OdomSample.time) ∧
    OdomGaps [odomAt 1 0 1, odomAt 1 100000000 2, odomAt 1 200000000 4] := by
  refine ⟨by simp [odomAt, Orthogonal, Normalised], by simp [Increasing, odomAt, ns], ?_⟩
  intro i a b ha hb
  match i, ha, hb with
  | 0, ha, hb => simp at ha hb; subst ha; subst hb; simp [odomAt, ns]
  | 1, ha, hb => simp at ha hb; subst ha; subst hb; simp [odomAt, ns]
  | n + 2, ha, hb => simp at hb

example (slerp : Slerp) : ∃ p, interpolateOdom slerp
    [odomAt 1 0 1, odomAt 1 100000000 2, odomAt 1 200000000 4] ⟨1, 150000000⟩ (1/10) true =
      .ok (some p, [odomAt 1 100000000 2, odomAt 1 200000000 4]) := by
  obtain ⟨p, hp, _⟩ := C59_answered slerp
    [odomAt 1 0 1, odomAt 1 100000000 2, odomAt 1 200000000 4] ⟨1, 150000000⟩ (1/10) true 1
    (odomAt 1 100000000 2) (odomAt 1 200000000 4) (by norm_num) (by simp [odomAt, Normalised])
    (by simp [Increasing, odomAt, ns]) rfl rfl (by simp [odomAt, ns]) (by simp [odomAt, ns])
    (by simp [odomAt, ns]) (by simp [odomAt, ns])
  exact ⟨p, hp⟩

end Verif
