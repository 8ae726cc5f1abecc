import Verif.Proofs.InterpF
/-!
Property theorems C122: interpolation between the readings of a sensor, with the number types of the
program.  The positions are those of the exact interpolation (C16, C59) up to rounding; the literal
`1.e-6` is not what it says; the ends and the threshold on a single reading are not exact.
-/
namespace Verif
open Spec

/-! ## GPS -/

/-- C122: a position given for a time between readings lies, up to rounding, on the way between two
neighbouring fixed readings around it, which are at least a microsecond and at most 0.2 s apart. -/
theorem C122_gps (l : List GpsData) (t : SimpleTime) (th : Rat) (trim : Bool) (p : Vec3 Rat)
    (l' : List GpsData) (hnorm : ∀ d ∈ l, Normalised d.time) (ht : Normalised t) (h2 : 2 ≤ l.length)
    (h : interpolateGpsF l t th trim = .ok (some p, l')) :
    ∃ i a b, l[i]? = some a ∧ l[i + 1]? = some b ∧ ns a.time ≤ ns t ∧ ns t ≤ ns b.time ∧
      a.fixed = true ∧ b.fixed = true ∧ ns a.time + 1000 ≤ ns b.time ∧
      ns b.time ≤ ns a.time + 200000000 ∧ GpsOnWay a b t p ∧
      l' = (if trim then l.drop i else l) := by
  have hth : th ≤ 1 / 2 := by
    by_contra hth
    unfold interpolateGpsF at h
    rw [Outcome.check_neg hth, Outcome.bind_abort] at h
    cases h
  obtain ⟨first, last, hfirst, hlast⟩ : ∃ f g, l.head? = some f ∧ l.getLast? = some g := by
    match l, h2 with
    | x :: y :: rest, _ =>
      exact ⟨x, (y :: rest).getLast (by simp), rfl, by
        rw [List.getLast?_eq_getLast_of_ne_nil (by simp)]; simp⟩
  rcases interpolateF_cases l t th trim first last hth h2 hfirst hlast with
    ⟨_, e⟩ | ⟨_, _, i, a, b, ⟨b1, b2, b3, b4, _⟩, e⟩
  · rw [e] at h; cases h
  · have na := hnorm a (List.mem_of_getElem? b1)
    have nb := hnorm b (List.mem_of_getElem? b2)
    rw [e] at h
    by_cases hg : ns b.time < ns a.time + 1000
    · rw [gpsBetweenF_close t a b nb b3 b4 hg, Outcome.bind_abort] at h; cases h
    · by_cases hbad : ns a.time + 200000000 < ns b.time ∨ a.fixed = false ∨ b.fixed = false
      · rw [gpsBetweenF_bad t a b nb b3 b4 (by omega) hbad, Outcome.bind_ok] at h; cases h
      · rw [gpsBetweenF_good t a b nb b3 b4 na ht (by omega) hbad, Outcome.bind_ok] at h
        obtain ⟨s0, s1, s2⟩ := C86_share a.time b.time t na nb ht (by omega) b3 b4
        obtain ⟨r0, r1⟩ := ratio01 b3 b4 (by omega)
        simp only [not_or, Bool.not_eq_false, Nat.not_lt] at hbad
        cases h
        refine ⟨i, a, b, b1, b2, b3, b4, hbad.2.1, hbad.2.2, by omega, hbad.1, ⟨?_, ?_, ?_⟩, rfl⟩ <;>
          exact lerpF_near s0 s1 r0 r1 s2 (by norm_num)

/-- C122: with fixed readings at least a microsecond and at most 0.2 s apart around it, a time gets a
position. -/
theorem C122_gps_answered (l : List GpsData) (t : SimpleTime) (th : Rat) (trim : Bool) (i : Nat)
    (a b : GpsData) (hth : th ≤ 1 / 2) (hnorm : ∀ d ∈ l, Normalised d.time) (ht : Normalised t)
    (hinc : Increasing (l.map GpsData.time)) (ha : l[i]? = some a) (hb : l[i + 1]? = some b)
    (hat : ns a.time ≤ ns t) (htb : ns t < ns b.time) (hfa : a.fixed = true) (hfb : b.fixed = true)
    (hg : ns a.time + 1000 ≤ ns b.time) (hg' : ns b.time ≤ ns a.time + 200000000) :
    ∃ p, interpolateGpsF l t th trim = .ok (some p, if trim then l.drop i else l) ∧
      GpsOnWay a b t p := by
  have hil := (List.getElem?_eq_some_iff.1 hb).1
  obtain ⟨first, last, hfirst, hlast⟩ : ∃ f g, l.head? = some f ∧ l.getLast? = some g := by
    match l, hil with
    | x :: rest, _ =>
      exact ⟨x, (x :: rest).getLast (by simp), rfl, by
        rw [List.getLast?_eq_getLast_of_ne_nil (by simp)]⟩
  have hbr : IsBracket l t i a b := ⟨ha, hb, hat, le_of_lt htb, Or.inl htb⟩
  have na := hnorm a (List.mem_of_getElem? ha)
  have nb := hnorm b (List.mem_of_getElem? hb)
  rcases interpolateF_cases l t th trim first last hth (by omega) hfirst hlast with
    ⟨ho, e⟩ | ⟨_, _, j, c, d, hbj, e⟩
  · exfalso
    have hf0 : ns first.time ≤ ns a.time := by
      rw [List.head?_eq_getElem?] at hfirst
      rcases Nat.eq_zero_or_pos i with rfl | hpos
      · rw [hfirst] at ha; cases ha; exact le_refl _
      · exact le_of_lt (increasing_get hinc hfirst ha hpos)
    have hl0 : ns b.time ≤ ns last.time := by
      rw [List.getLast?_eq_getElem?] at hlast
      rcases Nat.eq_or_lt_of_le (show i + 1 ≤ l.length - 1 by omega) with e | e
      · rw [← e, hb] at hlast; cases hlast; exact le_refl _
      · exact le_of_lt (increasing_get hinc hb hlast e)
    omega
  · have := bracket_unique hinc hbr hbj
    subst this
    obtain ⟨c1, c2, -⟩ := hbj
    rw [ha] at c1; cases c1
    rw [hb] at c2; cases c2
    have hbad : ¬ (ns a.time + 200000000 < ns b.time ∨ a.fixed = false ∨ b.fixed = false) := by
      simp only [hfa, hfb, Bool.true_eq_false, or_false]; omega
    rw [gpsBetweenF_good t a b nb hat htb.le na ht hg hbad, Outcome.bind_ok] at e
    obtain ⟨s0, s1, s2⟩ := C86_share a.time b.time t na nb ht (by omega) hat htb.le
    obtain ⟨r0, r1⟩ := ratio01 hat htb.le (by omega)
    exact ⟨_, e, lerpF_near s0 s1 r0 r1 s2 (by norm_num), lerpF_near s0 s1 r0 r1 s2 (by norm_num),
      lerpF_near s0 s1 r0 r1 s2 (by norm_num)⟩

/-- C122: rounding never makes a query stop: if neighbouring readings are at least a microsecond
apart, every query ends. -/
theorem C122_gps_no_abort (l : List GpsData) (t : SimpleTime) (th : Rat) (trim : Bool)
    (hnorm : ∀ d ∈ l, Normalised d.time) (ht : Normalised t)
    (hgap : Gaps1us (l.map GpsData.time)) (hth : th ≤ 1 / 2) :
    ∃ r, interpolateGpsF l t th trim = .ok r := by
  by_cases h2 : 2 ≤ l.length
  · obtain ⟨first, last, hfirst, hlast⟩ : ∃ f g, l.head? = some f ∧ l.getLast? = some g := by
      match l, h2 with
      | x :: y :: rest, _ =>
        exact ⟨x, (y :: rest).getLast (by simp), rfl, by
          rw [List.getLast?_eq_getLast_of_ne_nil (by simp)]; simp⟩
    rcases interpolateF_cases l t th trim first last hth h2 hfirst hlast with
      ⟨_, e⟩ | ⟨_, _, i, a, b, ⟨b1, b2, b3, b4, _⟩, e⟩
    · exact ⟨_, e⟩
    · have na := hnorm a (List.mem_of_getElem? b1)
      have nb := hnorm b (List.mem_of_getElem? b2)
      have hg := hgap i a.time b.time (by simp [b1]) (by simp [b2])
      rw [e]
      by_cases hbad : ns a.time + 200000000 < ns b.time ∨ a.fixed = false ∨ b.fixed = false
      · rw [gpsBetweenF_bad t a b nb b3 b4 hg hbad]; exact ⟨_, rfl⟩
      · rw [gpsBetweenF_good t a b nb b3 b4 na ht hg hbad]; exact ⟨_, rfl⟩
  · match l, h2 with
    | [], _ =>
      refine ⟨(none, []), ?_⟩
      unfold interpolateGpsF
      rw [Outcome.check_pos hth, Outcome.bind_ok]; rfl
    | [d], _ =>
      refine ⟨(gpsSingleF d t th, [d]), ?_⟩
      unfold interpolateGpsF
      rw [Outcome.check_pos hth, Outcome.bind_ok]; rfl
    | x :: y :: rest, h2 => simp at h2

/-- C122, the literal `1.e-6`: two readings exactly a microsecond apart are interpolated, although
the program demands more than a microsecond: 1000 times the `double` 1e-9 is above the `double`
1e-6.  Readings 999 ns apart stop it. -/
theorem C122_microsecond_fails (a b : GpsData) (t : SimpleTime) (th : Rat) (trim : Bool)
    (hth : th ≤ 1 / 2) (na : Normalised a.time) (nb : Normalised b.time) (ht : Normalised t)
    (hfa : a.fixed = true) (hfb : b.fixed = true) (hat : ns a.time ≤ ns t) (htb : ns t ≤ ns b.time) :
    (ns b.time = ns a.time + 1000 →
      interpolateGps [a, b] t th trim = .abort ∧ ∃ p, interpolateGpsF [a, b] t th trim = .ok (some p, [a, b])) ∧
    (ns b.time < ns a.time + 1000 → interpolateGpsF [a, b] t th trim = .abort) := by
  have only : ∀ {i : Nat} {c d : GpsData}, IsBracket [a, b] t i c d → i = 0 ∧ c = a ∧ d = b := by
    intro i c d ⟨h1, h2, _⟩
    have hi : i = 0 := by
      have := (List.getElem?_eq_some_iff.1 h2).1
      simp at this; omega
    subst hi
    simp at h1 h2
    exact ⟨rfl, h1.symm, h2.symm⟩
  constructor
  · intro hg
    constructor
    · rcases interpolate_cases [a, b] t th trim a b hth (by simp) rfl rfl with
        ⟨ho, _⟩ | ⟨_, _, i, c, d, hb, e⟩
      · omega
      · obtain ⟨rfl, rfl, rfl⟩ := only hb
        rw [e, gpsBetween_close _ _ _ nb hat htb (by omega)]; rfl
    · rcases interpolateF_cases [a, b] t th trim a b hth (by simp) rfl rfl with
        ⟨ho, _⟩ | ⟨_, _, i, c, d, hb, e⟩
      · omega
      · obtain ⟨rfl, rfl, rfl⟩ := only hb
        rw [e, gpsBetweenF_good _ _ _ nb hat htb na ht (by omega)
          (by simp only [hfa, hfb, Bool.true_eq_false, or_false]; omega)]
        have hx : (if trim = true then List.drop 0 [c, d] else [c, d]) = [c, d] := by cases trim <;> rfl
        rw [Outcome.bind_ok, hx]
        exact ⟨_, rfl⟩
  · intro hg
    rcases interpolateF_cases [a, b] t th trim a b hth (by simp) rfl rfl with
      ⟨ho, _⟩ | ⟨_, _, i, c, d, hb, e⟩
    · omega
    · obtain ⟨rfl, rfl, rfl⟩ := only hb
      rw [e, gpsBetweenF_close _ _ _ nb hat htb hg]; rfl

example : Normalised (⟨5, 0⟩ : SimpleTime) ∧ Normalised (⟨5, 1000⟩ : SimpleTime) ∧
    ns (⟨5, 1000⟩ : SimpleTime) = ns (⟨5, 0⟩ : SimpleTime) + 1000 := by
  refine ⟨by unfold Normalised; decide, by unfold Normalised; decide, by decide⟩

/-! ## Order and ends -/

/-- C122: between the same two readings a later time never gets a position further back, and at the
time of the first reading it is the first reading. -/
theorem C122_order (ta tb t t' : SimpleTime) (a b : ℚ) (hta : Normalised ta) (htb : Normalised tb)
    (ht : Normalised t) (ht' : Normalised t') (h0 : ns ta ≤ ns t) (h : ns t ≤ ns t') (h1 : ns t' ≤ ns tb)
    (hg : ns ta + 1000 ≤ ns tb) (ha : IsDouble a) (hab : a ≤ b) :
    lerpF (SimpleTime.shareF ta tb ta) a b = a ∧
    a ≤ lerpF (SimpleTime.shareF ta tb t) a b ∧
    lerpF (SimpleTime.shareF ta tb t) a b ≤ lerpF (SimpleTime.shareF ta tb t') a b ∧
    lerpF (SimpleTime.shareF ta tb t') a b ≤ lerpF (SimpleTime.shareF ta tb tb) a b ∧
    |lerpF (SimpleTime.shareF ta tb tb) a b - b| ≤ (|a| + |b|) / 2 ^ 50 ∧
    (IsDouble (b - a) → IsDouble b → lerpF (SimpleTime.shareF ta tb tb) a b = b) := by
  have e0 : lerpF (SimpleTime.shareF ta tb ta) a b = a := by
    rw [shareF_left ta tb hta, lerpF_zero ha]
  have e1 : SimpleTime.shareF ta tb tb = 1 := shareF_right ta tb htb hg
  have m0 := lerpF_mono (shareF_mono (a := ta) (b := tb) hta ht h0) hab
  rw [e0] at m0
  refine ⟨e0, m0, lerpF_mono (shareF_mono ht ht' h) hab, lerpF_mono (shareF_mono ht' htb h1) hab, ?_, ?_⟩
  · rw [e1]
    have := lerpF_near (f := 1) (f' := 1) (e := 0) (a := a) (b := b) (by norm_num) (by norm_num)
      (by norm_num) (by norm_num) (by norm_num) (by norm_num)
    rw [one_mul, zero_mul, zero_add, show a + (b - a) = b by ring] at this
    exact this
  · intro hd hb
    rw [e1, lerpF_one, toF64_of_isDouble hd, show a + (b - a) = b by ring, toF64_of_isDouble hb]

/-- C122, not the second reading: at the time of the second reading the position can lie beyond it
(readings at -4 and the `double` nearest to -0.4). -/
theorem C122_end_fails :
    ∃ a b : ℚ, IsDouble a ∧ IsDouble b ∧ a < b ∧
      ∀ ta tb : SimpleTime, Normalised tb → ns ta + 1000 ≤ ns tb →
        b < lerpF (SimpleTime.shareF ta tb tb) a b := by
  refine ⟨-4, toF64 (-4 / 10), ⟨-4, 0, by norm_num, by norm_num⟩, toF64_isDouble _, by decide +kernel, ?_⟩
  intro ta tb htb hg
  rw [shareF_right ta tb htb hg, lerpF_one]
  decide +kernel

/-! ## A single reading -/

/-- C122: with a single reading, a fixed reading less than the threshold away by more than a
microsecond is given unchanged, and one further than that by a microsecond is not. -/
theorem C122_single_partial (d : GpsData) (t : SimpleTime) (th : Rat) (trim : Bool) (hth : th ≤ 1 / 2)
    (hd : Normalised d.time) (ht : Normalised t) :
    ∃ r, interpolateGpsF [d] t th trim = .ok (r, [d]) ∧
      (∀ p, r = some p → p = d.enu ∧ d.fixed = true ∧ |exactSec t - exactSec d.time| ≤ th + 2 / 1000000) ∧
      (d.fixed = true → |exactSec t - exactSec d.time| + 2 / 1000000 ≤ th → r = some d.enu) := by
  refine ⟨gpsSingleF d t th, ?_, ?_, ?_⟩
  · unfold interpolateGpsF
    rw [Outcome.check_pos hth, Outcome.bind_ok]; rfl
  · intro p hp
    unfold gpsSingleF at hp
    split at hp
    · rename_i h
      cases hp
      refine ⟨rfl, h.2, ?_⟩
      have := (C86_dates_partial t d.time ht hd th).1 h.1
      norm_num at *
      linarith
    · cases hp
  · intro hf hle
    unfold gpsSingleF
    rw [if_pos]
    refine ⟨(C86_dates_partial t d.time ht hd th).2 ?_, hf⟩
    have : |exactSec t - exactSec d.time| ≤ 1 := by
      have := hth; norm_num at *; linarith
    norm_num at *
    linarith

/-- C122, not the threshold itself: with today's dates a reading 20 ns further than 0.1 s is given
and one 60 ns nearer than 0.2 s is not. -/
theorem C122_single_fails :
    (∀ p : Vec3 Rat, interpolateGpsF [⟨true, ⟨1600000000, 0⟩, ⟨0, 0, 0⟩, p⟩] ⟨1600000000, 100000017⟩
      (toF64 (1 / 10)) false = .ok (some p, [⟨true, ⟨1600000000, 0⟩, ⟨0, 0, 0⟩, p⟩])) ∧
    (∀ p : Vec3 Rat, interpolateGpsF [⟨true, ⟨1600000000, 0⟩, ⟨0, 0, 0⟩, p⟩] ⟨1600000000, 199999940⟩
      (toF64 (2 / 10)) false = .ok (none, [⟨true, ⟨1600000000, 0⟩, ⟨0, 0, 0⟩, p⟩])) := by
  have c1 : toF64 (1 / 10) ≤ 1 / 2 := by decide +kernel
  have c2 : toF64 (2 / 10) ≤ 1 / 2 := by decide +kernel
  have d1 : |toF64 ((⟨1600000000, 100000017⟩ : SimpleTime).toSecF - (⟨1600000000, 0⟩ : SimpleTime).toSecF)| ≤
      toF64 (1 / 10) := by rw [abs_le]; decide +kernel
  have d2 : ¬ |toF64 ((⟨1600000000, 199999940⟩ : SimpleTime).toSecF - (⟨1600000000, 0⟩ : SimpleTime).toSecF)| ≤
      toF64 (2 / 10) := by rw [abs_le]; decide +kernel
  constructor
  · intro p
    unfold interpolateGpsF
    rw [Outcome.check_pos c1, Outcome.bind_ok]
    show Outcome.ok (gpsSingleF _ _ _, _) = _
    unfold gpsSingleF
    rw [if_pos ⟨d1, rfl⟩]
  · intro p
    unfold interpolateGpsF
    rw [Outcome.check_pos c2, Outcome.bind_ok]
    show Outcome.ok (gpsSingleF _ _ _, _) = _
    unfold gpsSingleF
    rw [if_neg (fun h => d2 h.1)]

/-! ## Odometry -/

/-- C122: a pose given for a time between odometry readings lies between two neighbouring ones
around it, at least a microsecond and at most a second apart; seven digits of the way are right. -/
theorem C122_odom (slerp : Slerp) (l l' : List OdomSample) (t : SimpleTime) (th : Rat) (trim : Bool)
    (p : Rigid Rat) (hnorm : ∀ d ∈ l, Normalised d.time) (ht : Normalised t) (h2 : 2 ≤ l.length)
    (h : interpolateOdomF slerp l t th trim = .ok (some p, l')) :
    ∃ i a b, l[i]? = some a ∧ l[i + 1]? = some b ∧ ns a.time ≤ ns t ∧ ns t ≤ ns b.time ∧
      ns a.time + 1000 ≤ ns b.time ∧ ns b.time ≤ ns a.time + 1000000000 ∧ OdomOnWay slerp a b t p ∧
      l' = (if trim then l.drop i else l) := by
  have hth : th ≤ 1 / 2 := by
    by_contra hth
    unfold interpolateOdomF at h
    rw [Outcome.check_neg hth, Outcome.bind_abort] at h
    cases h
  obtain ⟨first, last, hfirst, hlast⟩ := odom_ends h2
  rcases odomF_cases slerp l t th trim first last hth h2 hfirst hlast with
    ⟨_, e⟩ | ⟨_, _, i, a, b, ⟨b1, b2, b3, b4, _⟩, e⟩
  · rw [e] at h; cases h
  · have na := hnorm a (List.mem_of_getElem? b1)
    have nb := hnorm b (List.mem_of_getElem? b2)
    rw [e] at h
    by_cases hg : ns b.time < ns a.time + 1000
    · rw [odomBetweenF_close slerp t a b nb b3 b4 hg, Outcome.bind_abort] at h; cases h
    · by_cases hbad : ns a.time + 1000000000 < ns b.time
      · rw [odomBetweenF_far slerp t a b nb b3 b4 hbad, Outcome.bind_ok] at h; cases h
      · rw [odomBetweenF_good slerp t a b nb b3 b4 na ht (by omega) (by omega), Outcome.bind_ok] at h
        obtain ⟨s0, s1, s2⟩ := shareF32_near na nb ht (by omega) b3 b4
        obtain ⟨r0, r1⟩ := ratio01 b3 b4 (by omega)
        cases h
        exact ⟨i, a, b, b1, b2, b3, b4, by omega, by omega,
          ⟨fun k => lerpF_near s0 s1 r0 r1 s2 (by norm_num), _, s0, s1, s2, rfl⟩, rfl⟩

/-- C122: with odometry readings at least a microsecond apart every query ends. -/
theorem C122_odom_no_abort (slerp : Slerp) (l : List OdomSample) (t : SimpleTime) (th : Rat)
    (trim : Bool) (hnorm : ∀ d ∈ l, Normalised d.time) (ht : Normalised t)
    (hgap : Gaps1us (l.map OdomSample.time)) (hth : th ≤ 1 / 2) :
    ∃ r, interpolateOdomF slerp l t th trim = .ok r := by
  by_cases h2 : 2 ≤ l.length
  · obtain ⟨first, last, hfirst, hlast⟩ := odom_ends h2
    rcases odomF_cases slerp l t th trim first last hth h2 hfirst hlast with
      ⟨_, e⟩ | ⟨_, _, i, a, b, ⟨b1, b2, b3, b4, _⟩, e⟩
    · exact ⟨_, e⟩
    · have na := hnorm a (List.mem_of_getElem? b1)
      have nb := hnorm b (List.mem_of_getElem? b2)
      have hg := hgap i a.time b.time (by simp [b1]) (by simp [b2])
      rw [e]
      by_cases hbad : ns a.time + 1000000000 < ns b.time
      · rw [odomBetweenF_far slerp t a b nb b3 b4 hbad]; exact ⟨_, rfl⟩
      · rw [odomBetweenF_good slerp t a b nb b3 b4 na ht hg (by omega)]; exact ⟨_, rfl⟩
  · match l, h2 with
    | [], _ =>
      refine ⟨(none, []), ?_⟩
      unfold interpolateOdomF
      rw [Outcome.check_pos hth, Outcome.bind_ok]; rfl
    | [d], _ =>
      refine ⟨(odomSingleF d t th, [d]), ?_⟩
      unfold interpolateOdomF
      rw [Outcome.check_pos hth, Outcome.bind_ok]; rfl
    | x :: y :: rest, h2 => simp at h2

/-- C122: with odometry readings at least a microsecond and at most a second apart around it, a time
gets a pose. -/
theorem C122_odom_answered (slerp : Slerp) (l : List OdomSample) (t : SimpleTime) (th : Rat)
    (trim : Bool) (i : Nat) (a b : OdomSample) (hth : th ≤ 1 / 2) (hnorm : ∀ d ∈ l, Normalised d.time)
    (ht : Normalised t) (hinc : Increasing (l.map OdomSample.time)) (ha : l[i]? = some a)
    (hb : l[i + 1]? = some b) (hat : ns a.time ≤ ns t) (htb : ns t < ns b.time)
    (hg : ns a.time + 1000 ≤ ns b.time) (hg' : ns b.time ≤ ns a.time + 1000000000) :
    ∃ p, interpolateOdomF slerp l t th trim = .ok (some p, if trim then l.drop i else l) ∧
      OdomOnWay slerp a b t p := by
  have hil := (List.getElem?_eq_some_iff.1 hb).1
  have hbr : OdomBracket l t i a b := ⟨ha, hb, hat, le_of_lt htb, Or.inl htb⟩
  have na := hnorm a (List.mem_of_getElem? ha)
  have nb := hnorm b (List.mem_of_getElem? hb)
  obtain ⟨first, last, hfirst, hlast⟩ := odom_ends (l := l) (by omega)
  rcases odomF_cases slerp l t th trim first last hth (by omega) hfirst hlast with
    ⟨ho, e⟩ | ⟨_, _, j, c, d, hbj, e⟩
  · exfalso
    have hf0 : ns first.time ≤ ns a.time := by
      rw [List.head?_eq_getElem?] at hfirst
      rcases Nat.eq_zero_or_pos i with rfl | hpos
      · rw [hfirst] at ha; cases ha; exact le_refl _
      · exact le_of_lt (odom_get hinc hfirst ha hpos)
    have hl0 : ns b.time ≤ ns last.time := by
      rw [List.getLast?_eq_getElem?] at hlast
      rcases Nat.eq_or_lt_of_le (show i + 1 ≤ l.length - 1 by omega) with e | e
      · rw [← e, hb] at hlast; cases hlast; exact le_refl _
      · exact le_of_lt (odom_get hinc hb hlast e)
    omega
  · have := odom_unique hinc hbr hbj
    subst this
    obtain ⟨c1, c2, -⟩ := hbj
    rw [ha] at c1; cases c1
    rw [hb] at c2; cases c2
    rw [odomBetweenF_good slerp t a b nb hat htb.le na ht hg hg', Outcome.bind_ok] at e
    obtain ⟨s0, s1, s2⟩ := shareF32_near na nb ht (by omega) hat htb.le
    obtain ⟨r0, r1⟩ := ratio01 hat htb.le (by omega)
    exact ⟨_, e, fun k => lerpF_near s0 s1 r0 r1 s2 (by norm_num), _, s0, s1, s2, rfl⟩

/-- C122: a time before the first or after the last reading gets nothing, from either sensor, and
nothing is removed; a threshold above half a second stops the program. -/
theorem C122_outside (slerp : Slerp) (l : List GpsData) (m : List OdomSample) (t : SimpleTime)
    (th : Rat) (trim : Bool) :
    (th ≤ 1 / 2 → (l = [] ∨ (2 ≤ l.length ∧ ((∃ f, l.head? = some f ∧ ns t < ns f.time) ∨
      (∃ f, l.getLast? = some f ∧ ns f.time < ns t)))) → interpolateGpsF l t th trim = .ok (none, l)) ∧
    (th ≤ 1 / 2 → (m = [] ∨ (2 ≤ m.length ∧ ((∃ f, m.head? = some f ∧ ns t < ns f.time) ∨
      (∃ f, m.getLast? = some f ∧ ns f.time < ns t)))) →
      interpolateOdomF slerp m t th trim = .ok (none, m)) ∧
    (1 / 2 < th → interpolateGpsF l t th trim = .abort ∧ interpolateOdomF slerp m t th trim = .abort) := by
  refine ⟨fun hth h => ?_, fun hth h => ?_, fun hth => ⟨?_, ?_⟩⟩
  · rcases h with rfl | ⟨h2, h⟩
    · unfold interpolateGpsF
      rw [Outcome.check_pos hth, Outcome.bind_ok]; rfl
    · obtain ⟨first, last, hfirst, hlast⟩ : ∃ f g, l.head? = some f ∧ l.getLast? = some g := by
        match l, h2 with
        | x :: y :: rest, _ =>
          exact ⟨x, (y :: rest).getLast (by simp), rfl, by
            rw [List.getLast?_eq_getLast_of_ne_nil (by simp)]; simp⟩
      rcases interpolateF_cases l t th trim first last hth h2 hfirst hlast with ⟨_, e⟩ | ⟨x1, x2, _⟩
      · exact e
      · exfalso
        rcases h with ⟨f, hf, hlt⟩ | ⟨f, hf, hlt⟩
        · rw [hfirst] at hf; cases hf; omega
        · rw [hlast] at hf; cases hf; omega
  · rcases h with rfl | ⟨h2, h⟩
    · unfold interpolateOdomF
      rw [Outcome.check_pos hth, Outcome.bind_ok]; rfl
    · obtain ⟨first, last, hfirst, hlast⟩ := odom_ends h2
      rcases odomF_cases slerp m t th trim first last hth h2 hfirst hlast with ⟨_, e⟩ | ⟨x1, x2, _⟩
      · exact e
      · exfalso
        rcases h with ⟨f, hf, hlt⟩ | ⟨f, hf, hlt⟩
        · rw [hfirst] at hf; cases hf; omega
        · rw [hlast] at hf; cases hf; omega
  · unfold interpolateGpsF
    rw [Outcome.check_neg (not_le.2 hth), Outcome.bind_abort]
  · unfold interpolateOdomF
    rw [Outcome.check_neg (not_le.2 hth), Outcome.bind_abort]

/-- C122: the single odometry reading, as for GPS. -/
theorem C122_odom_single_partial (slerp : Slerp) (d : OdomSample) (t : SimpleTime) (th : Rat)
    (trim : Bool) (hth : th ≤ 1 / 2) (hd : Normalised d.time) (ht : Normalised t) :
    ∃ r, interpolateOdomF slerp [d] t th trim = .ok (r, [d]) ∧
      (∀ p, r = some p → p = d.pose ∧ |exactSec t - exactSec d.time| ≤ th + 2 / 1000000) ∧
      (|exactSec t - exactSec d.time| + 2 / 1000000 ≤ th → r = some d.pose) := by
  refine ⟨odomSingleF d t th, ?_, ?_, ?_⟩
  · unfold interpolateOdomF
    rw [Outcome.check_pos hth, Outcome.bind_ok]; rfl
  · intro p hp
    unfold odomSingleF at hp
    split at hp
    · rename_i h
      cases hp
      refine ⟨rfl, ?_⟩
      have := (C86_dates_partial t d.time ht hd th).1 h
      norm_num at *
      linarith
    · cases hp
  · intro hle
    unfold odomSingleF
    rw [if_pos]
    refine (C86_dates_partial t d.time ht hd th).2 ?_
    have : |exactSec t - exactSec d.time| ≤ 1 := by
      have := hth; norm_num at *; linarith
    norm_num at *
    linarith

/-- C122: the threshold counts as near: readings exactly half a second from the time are given. -/
theorem C122_half (slerp : Slerp) (trim : Bool) (p : Vec3 Rat) (q : Rigid Rat) :
    interpolateGpsF [⟨true, ⟨5, 0⟩, ⟨0, 0, 0⟩, p⟩] ⟨5, 500000000⟩ (1 / 2) trim =
      .ok (some p, [⟨true, ⟨5, 0⟩, ⟨0, 0, 0⟩, p⟩]) ∧
    interpolateOdomF slerp [⟨⟨5, 500000000⟩, q⟩] ⟨5, 0⟩ (1 / 2) trim =
      .ok (some q, [⟨⟨5, 500000000⟩, q⟩]) := by
  have d1 : |toF64 ((⟨5, 500000000⟩ : SimpleTime).toSecF - (⟨5, 0⟩ : SimpleTime).toSecF)| ≤ 1 / 2 := by
    rw [abs_le]; decide +kernel
  have d2 : |toF64 ((⟨5, 0⟩ : SimpleTime).toSecF - (⟨5, 500000000⟩ : SimpleTime).toSecF)| ≤ 1 / 2 := by
    rw [abs_le]; decide +kernel
  constructor
  · unfold interpolateGpsF
    rw [Outcome.check_pos le_rfl, Outcome.bind_ok]
    show Outcome.ok (gpsSingleF _ _ _, _) = _
    unfold gpsSingleF
    rw [if_pos ⟨d1, rfl⟩]
  · unfold interpolateOdomF
    rw [Outcome.check_pos le_rfl, Outcome.bind_ok]
    show Outcome.ok (odomSingleF _ _ _, _) = _
    unfold odomSingleF
    rw [if_pos d2]

/-- C122: odometry readings closer than a microsecond stop the program; exactly a microsecond apart
they do not. -/
theorem C122_odom_microsecond_fails (slerp : Slerp) (a b : OdomSample) (t : SimpleTime) (th : Rat)
    (trim : Bool) (hth : th ≤ 1 / 2) (na : Normalised a.time) (nb : Normalised b.time)
    (ht : Normalised t) (hat : ns a.time ≤ ns t) (htb : ns t ≤ ns b.time) :
    (ns b.time = ns a.time + 1000 → ∃ p, interpolateOdomF slerp [a, b] t th trim = .ok (some p, [a, b])) ∧
    (ns b.time < ns a.time + 1000 → interpolateOdomF slerp [a, b] t th trim = .abort) := by
  have only : ∀ {i : Nat} {c d : OdomSample}, OdomBracket [a, b] t i c d → i = 0 ∧ c = a ∧ d = b := by
    intro i c d ⟨h1, h2, _⟩
    have hi : i = 0 := by
      have := (List.getElem?_eq_some_iff.1 h2).1
      simp at this; omega
    subst hi
    simp at h1 h2
    exact ⟨rfl, h1.symm, h2.symm⟩
  rcases odomF_cases slerp [a, b] t th trim a b hth (by simp) rfl rfl with
    ⟨ho, _⟩ | ⟨_, _, i, c, d, hb, e⟩
  · omega
  · obtain ⟨rfl, rfl, rfl⟩ := only hb
    have hx : (if trim = true then List.drop 0 [c, d] else [c, d]) = [c, d] := by cases trim <;> rfl
    constructor
    · intro hg
      rw [e, odomBetweenF_good slerp _ _ _ nb hat htb na ht (by omega) (by omega), Outcome.bind_ok, hx]
      exact ⟨_, rfl⟩
    · intro hg
      rw [e, odomBetweenF_close slerp _ _ _ nb hat htb hg]; rfl

theorem sameShare : toF32 (SimpleTime.shareF ⟨5, 0⟩ ⟨6, 0⟩ ⟨5, 600000010⟩) =
    toF32 (SimpleTime.shareF ⟨5, 0⟩ ⟨6, 0⟩ ⟨5, 600000030⟩) := by decide +kernel

theorem odomSecond (slerp : Slerp) (p q : Rigid Rat) (ta tb t : SimpleTime) (na : Normalised ta)
    (nb : Normalised tb) (ht : Normalised t) (h1 : ns ta ≤ ns t) (h2 : ns t ≤ ns tb)
    (hg : ns tb = ns ta + 1000000000) :
    interpolateOdomF slerp [⟨ta, p⟩, ⟨tb, q⟩] t (1 / 10) false =
      .ok (some { rot := slerp p.rot q.rot (toF32 (SimpleTime.shareF ta tb t))
                  trans := fun i => lerpF (toF32 (SimpleTime.shareF ta tb t)) (p.trans i) (q.trans i) },
        [⟨ta, p⟩, ⟨tb, q⟩]) := by
  rcases odomF_cases slerp [⟨ta, p⟩, ⟨tb, q⟩] t (1 / 10) false ⟨ta, p⟩ ⟨tb, q⟩
    (by norm_num) (by simp) rfl rfl with ⟨ho, _⟩ | ⟨_, _, i, c, d, ⟨b1, b2, _⟩, e⟩
  · dsimp only at ho; omega
  · have hi : i = 0 := by
      have := (List.getElem?_eq_some_iff.1 b2).1
      simp at this; omega
    subst hi
    simp at b1 b2
    subst b1; subst b2
    rw [e, odomBetweenF_good slerp t ⟨ta, p⟩ ⟨tb, q⟩ nb h1 h2 na ht (by dsimp only; omega)
      (by dsimp only; omega)]
    rfl

/-- C122, not fifteen digits: between odometry readings a second apart, times 20 ns apart get the
same pose, whatever the readings. -/
theorem C122_odom_digits_fails (slerp : Slerp) (p q : Rigid Rat) :
    ∃ r, interpolateOdomF slerp [⟨⟨5, 0⟩, p⟩, ⟨⟨6, 0⟩, q⟩] ⟨5, 600000010⟩ (1 / 10) false =
        .ok (some r, [⟨⟨5, 0⟩, p⟩, ⟨⟨6, 0⟩, q⟩]) ∧
      interpolateOdomF slerp [⟨⟨5, 0⟩, p⟩, ⟨⟨6, 0⟩, q⟩] ⟨5, 600000030⟩ (1 / 10) false =
        .ok (some r, [⟨⟨5, 0⟩, p⟩, ⟨⟨6, 0⟩, q⟩]) := by
  have na : Normalised (⟨5, 0⟩ : SimpleTime) := by simp [Normalised]
  have nb : Normalised (⟨6, 0⟩ : SimpleTime) := by simp [Normalised]
  have n1 : Normalised (⟨5, 600000010⟩ : SimpleTime) := by simp [Normalised]
  have n2 : Normalised (⟨5, 600000030⟩ : SimpleTime) := by simp [Normalised]
  have g1 := odomSecond slerp p q ⟨5, 0⟩ ⟨6, 0⟩ ⟨5, 600000010⟩ na nb n1 (by simp [ns]) (by simp [ns]) (by simp [ns])
  have g2 := odomSecond slerp p q ⟨5, 0⟩ ⟨6, 0⟩ ⟨5, 600000030⟩ na nb n2 (by simp [ns]) (by simp [ns]) (by simp [ns])
  rw [← sameShare] at g2
  exact ⟨_, g1, g2⟩

/-! ## Cases that meet the hypotheses -/

/-- Two readings, 0.1 s apart, and a time in between. -/
example : ∃ p l', interpolateGpsF [gpsAt 5 0 1, gpsAt 5 100000000 2] ⟨5, 50000000⟩ (1/10) true =
    .ok (some p, l') := by
  obtain ⟨p, h, _⟩ := C122_gps_answered [gpsAt 5 0 1, gpsAt 5 100000000 2] ⟨5, 50000000⟩ (1/10) true 0
    (gpsAt 5 0 1) (gpsAt 5 100000000 2) (by norm_num)
    (by intro d hd; simp at hd; rcases hd with rfl | rfl <;> (unfold Normalised gpsAt; decide))
    (by unfold Normalised; decide) (by simp [Increasing, gpsAt, ns]) rfl rfl (by decide) (by decide)
    rfl rfl (by decide) (by decide)
  exact ⟨p, _, h⟩

example : Gaps1us [⟨5, 0⟩, ⟨5, 1000⟩, ⟨6, 0⟩] := by
  intro i a b ha hb
  match i, ha, hb with
  | 0, ha, hb => simp at ha hb; subst ha; subst hb; decide
  | 1, ha, hb => simp at ha hb; subst ha; subst hb; decide
  | n + 2, ha, hb => simp at hb

end Verif
