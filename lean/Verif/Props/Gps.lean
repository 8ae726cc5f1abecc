import Verif.Proofs.Gps
/-! Property theorems C15 (GPS ingest), C16 (GPS interpolation), C17 (trimming). -/
namespace Verif
open Spec

/-- C15: for every message history: while no fixed message came, nothing is stored and there is no
reference; otherwise the reference is the position of the first fixed message and, if the stamps
from there on strictly increase, the stored samples are exactly those messages in order, taken
relative to that reference; if they do not strictly increase the process stops. -/
theorem C15_gps_history (fwd : LatLonAlt → LatLonAlt → Vec3 Rat) (ms : List GpsMsg) :
    (fromFirstFix ms = [] → addGpsAll fwd {} ms = .ok {}) ∧
    (∀ m rest, fromFirstFix ms = m :: rest →
      (Increasing ((m :: rest).map GpsMsg.time) →
        addGpsAll fwd {} ms = .ok ⟨some m.lla, (m :: rest).map (sampleOf fwd m.lla)⟩) ∧
      (¬ Increasing ((m :: rest).map GpsMsg.time) → addGpsAll fwd {} ms = .abort)) := by
  induction ms with
  | nil => exact ⟨fun _ => rfl, by simp [fromFirstFix]⟩
  | cons m ms ih =>
    by_cases hf : m.status = 0
    · have e : fromFirstFix (m :: ms) = m :: ms := by simp [fromFirstFix, hf]
      rw [e]
      refine ⟨by simp, ?_⟩
      intro m' rest h
      obtain ⟨rfl, rfl⟩ := List.cons.inj h
      have hstep : addGps fwd {} m = .ok ⟨some m.lla, [sampleOf fwd m.lla m]⟩ := by
        simp [addGps, statusFix, hf, sampleOf]
      simp only [addGpsAll, hstep, Outcome.bind_ok]
      have := addGpsAll_some fwd m.lla ms [sampleOf fwd m.lla m] (by simp [Increasing])
      simpa [sampleOf] using this
    · have e : fromFirstFix (m :: ms) = fromFirstFix ms := by simp [fromFirstFix, hf]
      rw [e]
      have hstep : addGps fwd {} m = .ok {} := by simp [addGps, statusFix, hf]
      simp only [addGpsAll, hstep, Outcome.bind_ok]
      exact ih

/-- C15: in every state reached, the stored stamps strictly increase. -/
theorem C15_gps_increasing (fwd : LatLonAlt → LatLonAlt → Vec3 Rat) (ms : List GpsMsg) (st : GpsState)
    (h : addGpsAll fwd {} ms = .ok st) : Increasing (st.data.map GpsData.time) := by
  obtain ⟨h1, h2⟩ := C15_gps_history fwd ms
  cases hf : fromFirstFix ms with
  | nil => rw [h1 hf] at h; cases h; simp [Increasing]
  | cons m rest =>
    by_cases hi : Increasing ((m :: rest).map GpsMsg.time)
    · rw [(h2 m rest hf).1 hi] at h; cases h
      simpa [sampleOf, Function.comp_def] using hi
    · rw [(h2 m rest hf).2 hi] at h; cases h

def msgAt (s ns : UInt32) (status : Int) : GpsMsg := ⟨⟨s, ns⟩, status, ⟨1, 2, 3⟩⟩

-- three messages, the first not fixed, stamps increasing
example : fromFirstFix [msgAt 1 0 (-1), msgAt 2 0 0, msgAt 3 0 1] = [msgAt 2 0 0, msgAt 3 0 1] ∧
    Increasing ([msgAt 2 0 0, msgAt 3 0 1].map GpsMsg.time) := by
  refine ⟨by decide +kernel, ?_⟩
  simp [Increasing, msgAt, ns]

/-- C16: a successful query with at least two samples returns the point dividing the segment
between the two bracketing samples in the ratio of times; both are fixed and at most 0.2 s apart. -/
theorem C16_interpolation (l : List GpsData) (t : SimpleTime) (th : Rat) (trim : Bool) (p : Vec3 Rat)
    (l' : List GpsData) (hnorm : ∀ d ∈ l, Normalised d.time) (h2 : 2 ≤ l.length)
    (h : interpolateGps l t th trim = .ok (some p, l')) :
    ∃ i a b, l[i]? = some a ∧ l[i + 1]? = some b ∧ ns a.time ≤ ns t ∧ ns t ≤ ns b.time ∧
      a.fixed = true ∧ b.fixed = true ∧ ns b.time ≤ ns a.time + 200000000 ∧
      ns a.time < ns b.time ∧ OnSegment a b t p := by
  have hth : th ≤ 1 / 2 := by
    by_contra hth
    unfold interpolateGps at h
    rw [Outcome.check_neg hth, Outcome.bind_abort] at h
    cases h
  obtain ⟨first, hfirst⟩ : ∃ f, l.head? = some f := by
    cases l with
    | nil => simp at h2
    | cons x xs => exact ⟨x, rfl⟩
  obtain ⟨last, hlast⟩ : ∃ f, l.getLast? = some f := by
    cases h : l.getLast? with
    | none => simp at h; subst h; simp at h2
    | some x => exact ⟨x, rfl⟩
  rcases interpolate_cases l t th trim first last hth h2 hfirst hlast with
    ⟨_, e⟩ | ⟨_, _, i, a, b, hb, e⟩
  · rw [e] at h; simp at h
  · obtain ⟨b1, b2, b3, b4, -⟩ := hb
    have hnb : Normalised b.time := hnorm b (List.mem_of_getElem? b2)
    rw [e] at h
    by_cases hg : ns a.time + 1000 < ns b.time
    swap
    · rw [gpsBetween_close t a b hnb b3 b4 hg] at h; simp at h
    by_cases hbad : ns a.time + 200000000 < ns b.time ∨ a.fixed = false ∨ b.fixed = false
    · rw [gpsBetween_bad t a b hnb b3 b4 hg hbad] at h; simp at h
    · rw [gpsBetween_good t a b hnb b3 b4 hg hbad, Outcome.bind_ok] at h
      have hp := (Prod.mk.inj (Outcome.ok.inj h)).1
      simp only [not_or, Bool.not_eq_false, Nat.not_lt] at hbad
      have hlt : ns a.time < ns b.time := lt_of_le_of_lt (Nat.le_add_right _ _) hg
      refine ⟨i, a, b, b1, b2, b3, b4, hbad.2.1, hbad.2.2, hbad.1, hlt, ?_⟩
      have hpos : (0 : Rat) < (ns b.time : Rat) - ns a.time := by
        have : (ns a.time : Rat) < (ns b.time : Rat) := by exact_mod_cast hlt
        linarith
      have hne : (ns b.time : Rat) - ns a.time ≠ 0 := ne_of_gt hpos
      have hr : ((ns b.time : Rat) - ns a.time) * ratio t a b = (ns t : Rat) - ns a.time := by
        unfold ratio; field_simp
      rw [← Option.some.inj hp]
      refine ⟨?_, ?_, ?_⟩ <;>
      · simp only [add_sub_cancel_left]
        rw [← mul_assoc, hr]

/-- C16: outside the stored range, or with an empty buffer, there is no result and nothing is
removed. -/
theorem C16_outside (l : List GpsData) (t : SimpleTime) (th : Rat) (trim : Bool) (hth : th ≤ 1 / 2)
    (h : l = [] ∨ (2 ≤ l.length ∧ ((∃ f, l.head? = some f ∧ ns t < ns f.time) ∨
      (∃ f, l.getLast? = some f ∧ ns f.time < ns t)))) :
    interpolateGps l t th trim = .ok (none, l) := by
  rcases h with rfl | ⟨h2, h⟩
  · unfold interpolateGps
    rw [Outcome.check_pos hth, Outcome.bind_ok]; rfl
  obtain ⟨first, hfirst⟩ : ∃ f, l.head? = some f := by
    cases l with
    | nil => simp at h2
    | cons x xs => exact ⟨x, rfl⟩
  obtain ⟨last, hlast⟩ : ∃ f, l.getLast? = some f := by
    cases h : l.getLast? with
    | none => simp at h; subst h; simp at h2
    | some x => exact ⟨x, rfl⟩
  rcases interpolate_cases l t th trim first last hth h2 hfirst hlast with
    ⟨_, e⟩ | ⟨x1, x2, _⟩
  · exact e
  · rcases h with ⟨f, hf, hlt⟩ | ⟨f, hf, hlt⟩
    · rw [hfirst] at hf; simp at hf; subst hf; omega
    · rw [hlast] at hf; simp at hf; subst hf; omega

/-- C16: one sample only: it is returned when fixed and within the threshold. -/
theorem C16_single (d : GpsData) (t : SimpleTime) (th : Rat) (trim : Bool) (hth : th ≤ 1 / 2) :
    ∃ r, interpolateGps [d] t th trim = .ok (r, [d]) ∧
      (∀ p, r = some p ↔ p = d.enu ∧ d.fixed = true ∧ |((ns t : Rat) - ns d.time)| ≤ th * 1000000000) := by
  refine ⟨gpsSingle d t th, ?_, ?_⟩
  · unfold interpolateGps
    rw [Outcome.check_pos hth, Outcome.bind_ok]; rfl
  · intro p
    unfold gpsSingle
    simp only [toSec_eq]
    have e : (ns t : Rat) / 1000000000 - (ns d.time : Rat) / 1000000000 =
      ((ns t : Rat) - ns d.time) / 1000000000 := by ring
    rw [e]
    generalize hx : (ns t : Rat) - ns d.time = x
    have habs : (if x / 1000000000 < 0 then -(x / 1000000000) else x / 1000000000) =
        |x| / 1000000000 := by
      by_cases hn : x < 0
      · rw [if_pos (div_neg_of_neg_of_pos hn (by norm_num)), abs_of_neg hn, neg_div]
      · rw [if_neg (not_lt.2 (div_nonneg (not_lt.1 hn) (by norm_num))), abs_of_nonneg (not_lt.1 hn)]
    rw [habs, ← div_le_iff₀ (by norm_num)]
    by_cases hc : |x| / 1000000000 ≤ th ∧ d.fixed = true
    · rw [if_pos hc]
      exact ⟨fun hp => ⟨(Option.some.inj hp).symm, hc.2, hc.1⟩, fun hp => by rw [hp.1]⟩
    · rw [if_neg hc]
      exact ⟨fun hp => by simp at hp, fun hp => absurd ⟨hp.2.2, hp.2.1⟩ hc⟩

/-- C16: a query whose bracketing samples `i`, `i+1` are fixed and between 1 µs and 0.2 s apart is
answered (a query at a sample's own time, other than the last, is bracketed by that sample and the
next), and with trimming exactly the samples before `i` are removed. -/
theorem C16_answered (l : List GpsData) (t : SimpleTime) (th : Rat) (trim : Bool) (i : Nat)
    (a b : GpsData) (hth : th ≤ 1 / 2) (hnorm : ∀ d ∈ l, Normalised d.time)
    (hinc : Increasing (l.map GpsData.time)) (ha : l[i]? = some a) (hb : l[i + 1]? = some b)
    (hat : ns a.time ≤ ns t) (htb : ns t < ns b.time) (hfa : a.fixed = true) (hfb : b.fixed = true)
    (hg : ns a.time + 1000 < ns b.time) (hg' : ns b.time ≤ ns a.time + 200000000) :
    ∃ p, interpolateGps l t th trim = .ok (some p, if trim then l.drop i else l) ∧
      OnSegment a b t p := by
  have hil := (List.getElem?_eq_some_iff.1 hb).1
  have hbr : IsBracket l t i a b := ⟨ha, hb, hat, le_of_lt htb, Or.inl htb⟩
  obtain ⟨first, hfirst⟩ : ∃ f, l.head? = some f := by
    cases l with
    | nil => simp at hil
    | cons x xs => exact ⟨x, rfl⟩
  obtain ⟨last, hlast⟩ : ∃ f, l.getLast? = some f := by
    cases h : l.getLast? with
    | none => simp at h; subst h; simp at hil
    | some x => exact ⟨x, rfl⟩
  have hf0 : ns first.time ≤ ns a.time := by
    rw [List.head?_eq_getElem?] at hfirst
    rcases Nat.eq_zero_or_pos i with rfl | hpos
    · rw [hfirst] at ha; simp at ha; rw [ha]
    · exact le_of_lt (increasing_get hinc hfirst ha hpos)
  have hl0 : ns b.time ≤ ns last.time := by
    rw [List.getLast?_eq_getElem?] at hlast
    rcases Nat.eq_or_lt_of_le (Nat.le_sub_one_of_lt hil) with e | e
    · rw [← e, hb] at hlast; simp at hlast; rw [hlast]
    · exact le_of_lt (increasing_get hinc hb hlast e)
  rcases interpolate_cases l t th trim first last hth (by omega) hfirst hlast with
    ⟨ho, _⟩ | ⟨_, _, j, c, d, hcd, e⟩
  · omega
  · have hj := bracket_unique hinc hcd hbr
    subst hj
    have h1 := hcd.1; rw [ha] at h1
    have h2 := hcd.2.1; rw [hb] at h2
    simp at h1 h2
    subst h1; subst h2
    have hnb : Normalised b.time := hnorm b (List.mem_of_getElem? hb)
    have hok := gpsBetween_good t a b hnb hat (le_of_lt htb) hg (by simp [hfa, hfb]; omega)
    rw [hok, Outcome.bind_ok] at e
    refine ⟨_, e, ?_⟩
    have hpos : (0 : Rat) < (ns b.time : Rat) - ns a.time := by
      have : (ns a.time : Rat) < (ns b.time : Rat) := by exact_mod_cast (by omega : ns a.time < ns b.time)
      linarith
    have hne : (ns b.time : Rat) - ns a.time ≠ 0 := ne_of_gt hpos
    have hr : ((ns b.time : Rat) - ns a.time) * ratio t a b = (ns t : Rat) - ns a.time := by
      unfold ratio; field_simp
    refine ⟨?_, ?_, ?_⟩ <;>
    · simp only [add_sub_cancel_left]
      rw [← mul_assoc, hr]

/-- C16: with gaps above one microsecond, an allowed threshold and valid stamps, no query fails a
check. -/
theorem C16_no_abort (l : List GpsData) (t : SimpleTime) (th : Rat) (trim : Bool)
    (hnorm : ∀ d ∈ l, Normalised d.time) (hgap : GapsOver1us l) (hth : th ≤ 1 / 2) :
    ∃ r, interpolateGps l t th trim = .ok r := by
  by_cases h2 : 2 ≤ l.length
  · obtain ⟨first, hfirst⟩ : ∃ f, l.head? = some f := by
      cases l with
      | nil => simp at h2
      | cons x xs => exact ⟨x, rfl⟩
    obtain ⟨last, hlast⟩ : ∃ f, l.getLast? = some f := by
      cases h : l.getLast? with
      | none => simp at h; subst h; simp at h2
      | some x => exact ⟨x, rfl⟩
    rcases interpolate_cases l t th trim first last hth h2 hfirst hlast with
      ⟨_, e⟩ | ⟨_, _, i, a, b, hb, e⟩
    · exact ⟨_, e⟩
    · obtain ⟨b1, b2, b3, b4, -⟩ := hb
      have hnb : Normalised b.time := hnorm b (List.mem_of_getElem? b2)
      have hg := hgap i a b b1 b2
      rw [e]
      by_cases hbad : ns a.time + 200000000 < ns b.time ∨ a.fixed = false ∨ b.fixed = false
      · rw [gpsBetween_bad t a b hnb b3 b4 hg hbad]; exact ⟨_, rfl⟩
      · rw [gpsBetween_good t a b hnb b3 b4 hg hbad]; exact ⟨_, rfl⟩
  · rcases short_list l h2 with rfl | ⟨d, rfl⟩
    · exact ⟨_, C16_outside [] t th trim hth (Or.inl rfl)⟩
    · obtain ⟨r, hr, _⟩ := C16_single d t th trim hth; exact ⟨_, hr⟩

def gpsAt (s ns : UInt32) (x : Rat) : GpsData := ⟨true, ⟨s, ns⟩, ⟨0,0,0⟩, ⟨x, 0, 0⟩⟩

/-- C16, what goes wrong without that: two valid samples with increasing stamps 900 ns
apart (which ingest accepts) make a query between them stop the process. -/
theorem C16_close_samples_fails :
    ∃ (l : List GpsData) (t : SimpleTime), Increasing (l.map GpsData.time) ∧
      (∀ d ∈ l, Normalised d.time ∧ d.fixed = true) ∧ interpolateGps l t (1/10) false = .abort := by
  refine ⟨[gpsAt 5 0 1, gpsAt 5 900 2], ⟨5, 500⟩, ?_, ?_, ?_⟩
  · simp [Increasing, gpsAt, ns]
  · simp [gpsAt, Normalised]
  · have hth : (1 / 10 : Rat) ≤ 1 / 2 := by norm_num
    rcases interpolate_cases [gpsAt 5 0 1, gpsAt 5 900 2] ⟨5, 500⟩ (1/10) false (gpsAt 5 0 1)
      (gpsAt 5 900 2) hth (by simp) rfl rfl with ⟨ho, _⟩ | ⟨_, _, i, a, b, hb, e⟩
    · simp [gpsAt, ns] at ho
    · obtain ⟨b1, b2, b3, b4, -⟩ := hb
      have hi : i = 0 := by
        have := (List.getElem?_eq_some_iff.1 b2).1
        simp at this; omega
      subst hi
      simp at b1 b2
      subst b1; subst b2
      rw [e, gpsBetween_close _ _ _ (by simp [gpsAt, Normalised]) b3 b4 (by simp [gpsAt, ns])]
      rfl

/-- C16: querying with trimming does not change the result of any query made at or after that
time, whatever samples arrive in between (`new`). -/
theorem C16_trim_harmless (l new : List GpsData) (t t' : SimpleTime) (th th' : Rat) (tr' tr'' : Bool)
    (r : Option (Vec3 Rat)) (l' : List GpsData)
    (hinc : Increasing ((l ++ new).map GpsData.time)) (htt' : ns t ≤ ns t')
    (h : interpolateGps l t th true = .ok (r, l')) :
    gpsResult (interpolateGps (l' ++ new) t' th' tr') =
      gpsResult (interpolateGps (l ++ new) t' th' tr'') := by
  have hth : th ≤ 1 / 2 := by
    by_contra hth
    unfold interpolateGps at h
    rw [Outcome.check_neg hth, Outcome.bind_abort] at h
    cases h
  have same : gpsResult (interpolateGps (l ++ new) t' th' tr') =
      gpsResult (interpolateGps (l ++ new) t' th' tr'') := by
    by_cases h2 : 2 ≤ (l ++ new).length
    · obtain ⟨first, hfirst⟩ : ∃ f, (l ++ new).head? = some f := by
        cases hx : l ++ new with
        | nil => rw [hx] at h2; simp at h2
        | cons x xs => exact ⟨x, rfl⟩
      by_cases hft : ns first.time ≤ ns t'
      · have := query_drop (l ++ new) t' th' tr' tr'' 0 first hinc (by omega)
          (by rw [← List.head?_eq_getElem?]; exact hfirst) hft
        simpa using this
      · by_cases hth' : th' ≤ 1 / 2
        · rw [C16_outside _ _ _ _ hth' (Or.inr ⟨h2, Or.inl ⟨first, hfirst, by omega⟩⟩),
            C16_outside _ _ _ _ hth' (Or.inr ⟨h2, Or.inl ⟨first, hfirst, by omega⟩⟩)]
        · unfold gpsResult interpolateGps
          simp only [Outcome.check_neg hth', Outcome.bind_abort]
    · rcases short_list (l ++ new) h2 with e | ⟨d, e⟩
      · rw [e]; rfl
      · rw [e]; rfl
  by_cases h2 : 2 ≤ l.length
  · obtain ⟨first, hfirst⟩ : ∃ f, l.head? = some f := by
      cases l with
      | nil => simp at h2
      | cons x xs => exact ⟨x, rfl⟩
    obtain ⟨last, hlast⟩ : ∃ f, l.getLast? = some f := by
      cases h : l.getLast? with
      | none => simp at h; subst h; simp at h2
      | some x => exact ⟨x, rfl⟩
    rcases interpolate_cases l t th true first last hth h2 hfirst hlast with
      ⟨_, e⟩ | ⟨_, _, i, a, b, hb, e⟩
    · rw [e] at h
      have : l' = l := (Prod.mk.inj (Outcome.ok.inj h)).2.symm
      rw [this]; exact same
    · rw [e] at h
      simp only [Outcome.bind_eq_ok] at h
      obtain ⟨r', _, h3⟩ := h
      have hl' : l' = l.drop i := by simpa using (Prod.mk.inj (Outcome.ok.inj h3)).2.symm
      obtain ⟨b1, b2, b3, -, -⟩ := hb
      have hi := (List.getElem?_eq_some_iff.1 b2).1
      have : l' ++ new = (l ++ new).drop i := by
        rw [hl', List.drop_append_of_le_length (by omega)]
      rw [this]
      exact query_drop (l ++ new) t' th' tr' tr'' i a hinc (by simp; omega)
        (by rw [List.getElem?_append_left (by omega)]; exact b1) (by omega)
  · have : l' = l := by
      rcases short_list l h2 with rfl | ⟨d, rfl⟩
      · rw [C16_outside [] t th true hth (Or.inl rfl)] at h
        exact (Prod.mk.inj (Outcome.ok.inj h)).2.symm
      · obtain ⟨q, hq, _⟩ := C16_single d t th true hth
        rw [hq] at h
        exact (Prod.mk.inj (Outcome.ok.inj h)).2.symm
    rw [this]; exact same

-- a buffer of four samples 0.1 s apart meets the hypotheses of the theorems above
def gpsBuf : List GpsData := [gpsAt 1 0 0, gpsAt 1 100000000 1, gpsAt 1 200000000 2, gpsAt 1 300000000 3]
example : Increasing (gpsBuf.map GpsData.time) ∧ (∀ d ∈ gpsBuf, Normalised d.time) ∧ 2 ≤ gpsBuf.length := by
  simp [gpsBuf, gpsAt, Increasing, Normalised, ns]
example : ∃ r l', interpolateGps gpsBuf ⟨1, 250000000⟩ (1/10) true = .ok (r, l') := by
  obtain ⟨⟨r, l'⟩, h⟩ := C16_no_abort gpsBuf ⟨1, 250000000⟩ (1/10) true
    (by simp [gpsBuf, gpsAt, Normalised])
    (by intro i a b ha hb
        match i, ha, hb with
        | 0, ha, hb => simp [gpsBuf] at ha hb; subst ha; subst hb; simp [gpsAt, ns]
        | 1, ha, hb => simp [gpsBuf] at ha hb; subst ha; subst hb; simp [gpsAt, ns]
        | 2, ha, hb => simp [gpsBuf] at ha hb; subst ha; subst hb; simp [gpsAt, ns]
        | n + 3, ha, hb => simp [gpsBuf] at hb)
    (by norm_num)
  exact ⟨r, l', h⟩

/-- C17: trimming keeps a suffix (so the order), removes only samples older than the trim time,
and always leaves the two newest samples. -/
theorem C17_trim_suffix {α : Type} (timeOf : α → SimpleTime) (data : List α) (time : SimpleTime) :
    ∃ removed, data = removed ++ trimData timeOf data time ∧
      (∀ x ∈ removed, ns (timeOf x) < ns time) ∧
      (2 ≤ data.length → 2 ≤ (trimData timeOf data time).length) := by
  unfold trimData
  split
  · exact ⟨[], by simp, by simp, id⟩
  · rename_i h
    obtain ⟨h1, h2, h3, h4⟩ := trimIndex_spec time (data.length - 2) (data.map timeOf)
    refine ⟨data.take (trimIndex time (data.length - 2) (data.map timeOf)),
      (List.take_append_drop _ _).symm, ?_, ?_⟩
    · intro x hx
      obtain ⟨j, hj, rfl⟩ := List.getElem_of_mem hx
      simp at hj
      rw [List.getElem_take]
      exact h3 j _ hj.1 (by rw [List.getElem?_map, List.getElem?_eq_getElem hj.2]; rfl)
    · intro _
      simp only [List.length_drop]
      omega

/-- C17 is false in its last part: with samples at 1.0, 1.1, 1.2, 1.3 s, trimming at 1.15 s removes
the sample at 1.1 s, and a query at 1.17 s, answered before the trim, is no longer answered. -/
theorem C17_trim_needed_fails :
    ∃ (l : List GpsData) (t t' : SimpleTime), Increasing (l.map GpsData.time) ∧ ns t ≤ ns t' ∧
      gpsResult (interpolateGps l t' (1/10) false) ≠
      gpsResult (interpolateGps (trimData GpsData.time l t) t' (1/10) false) := by
  refine ⟨gpsBuf, ⟨1, 150000000⟩, ⟨1, 170000000⟩, ?_, ?_, ?_⟩
  · simp [gpsBuf, gpsAt, Increasing, ns]
  · simp [ns]
  · have htrim : trimData GpsData.time gpsBuf ⟨1, 150000000⟩ =
        [gpsAt 1 200000000 2, gpsAt 1 300000000 3] := by decide +kernel
    rw [htrim]
    rw [C16_outside [gpsAt 1 200000000 2, gpsAt 1 300000000 3] _ _ _ (by norm_num)
      (Or.inr ⟨by simp, Or.inl ⟨_, rfl, by simp [gpsAt, ns]⟩⟩)]
    rcases interpolate_cases gpsBuf ⟨1, 170000000⟩ (1/10) false (gpsAt 1 0 0)
      (gpsAt 1 300000000 3) (by norm_num) (by simp [gpsBuf]) rfl rfl with ⟨ho, _⟩ | ⟨_, _, i, a, b, hb, e⟩
    · simp [gpsAt, ns] at ho
    · rw [e]
      have hib : IsBracket gpsBuf ⟨1, 170000000⟩ 1 (gpsAt 1 100000000 1) (gpsAt 1 200000000 2) := by
        refine ⟨rfl, rfl, by simp [gpsAt, ns], by simp [gpsAt, ns], by simp [gpsAt, ns]⟩
      have hi := bracket_unique (by simp [gpsBuf, gpsAt, Increasing, ns]) hb hib
      subst hi
      have ha := hb.1; rw [hib.1] at ha; have hb2 := hb.2.1; rw [hib.2.1] at hb2
      simp at ha hb2
      subst ha; subst hb2
      rw [gpsBetween_good _ _ _ (by simp [gpsAt, Normalised]) (by simp [gpsAt, ns]) (by simp [gpsAt, ns])
        (by simp [gpsAt, ns]) (by simp [gpsAt, ns])]
      simp [gpsResult]

/-- C17, what holds: after a trim, queries at or after the oldest sample kept give the same result
as before it. Missing: query times between the trim time and the oldest sample kept. -/
theorem C17_trim_needed_partial (l : List GpsData) (t t' : SimpleTime) (th : Rat) (tr tr' : Bool)
    (d : GpsData) (hinc : Increasing (l.map GpsData.time)) (h2 : 2 ≤ l.length)
    (hd : (trimData GpsData.time l t).head? = some d) (hdt : ns d.time ≤ ns t') :
    gpsResult (interpolateGps (trimData GpsData.time l t) t' th tr) =
      gpsResult (interpolateGps l t' th tr') := by
  unfold trimData at *
  split at hd
  · rename_i h
    rw [if_pos h]
    have := query_drop l t' th tr tr' 0 d hinc (by omega)
      (by rw [← List.head?_eq_getElem?]; exact hd) hdt
    simpa using this
  · rename_i h
    rw [if_neg h]
    obtain ⟨h1, -, -, -⟩ := trimIndex_spec t (l.length - 2) (l.map GpsData.time)
    exact query_drop l t' th tr tr' _ d hinc (by omega) (by rw [← List.head?_drop]; exact hd) hdt

/-- C17: the oldest sample kept is older than the trim time only if just two samples are left. -/
theorem C17_trim_leaves_newer {α : Type} (timeOf : α → SimpleTime) (data : List α) (time : SimpleTime)
    (x : α) (hx : (trimData timeOf data time).head? = some x)
    (h : 2 < (trimData timeOf data time).length) : ns time ≤ ns (timeOf x) := by
  unfold trimData at *
  split at hx
  · rename_i hl; rw [if_pos hl] at h; omega
  · rename_i hl
    rw [if_neg hl] at h
    obtain ⟨h1, h2, h3, h4⟩ := trimIndex_spec time (data.length - 2) (data.map timeOf)
    rw [List.head?_drop] at hx
    simp only [List.length_drop] at h
    exact h4 (by omega) _ (by rw [List.getElem?_map, hx]; rfl)

example : (trimData GpsData.time gpsBuf ⟨1, 100000000⟩).head? = some (gpsAt 1 100000000 1) ∧
    2 < (trimData GpsData.time gpsBuf ⟨1, 100000000⟩).length := by
  constructor <;> decide +kernel

end Verif
