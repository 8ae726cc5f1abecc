import Verif.Model.FilterConfig
import Verif.Proofs.Outcome
import Verif.Proofs.Floats
/-! Property theorems C50. -/
namespace Verif

namespace Spec

/-- The number a `<param>` element gives: read as an integer for type 0, as a float for type 1. -/
def given (p : XmlParam) : Option Rat :=
  if p.type = some 0 then some (p.asInt : Rat) else if p.type = some 1 then some p.asFloat else none

/-- A member of type `t` holds the number `v` after an assignment: the nearest `float` for a float
member, without the fraction for an integer member. -/
def Holds (t : ParamType) (v w : Rat) : Prop :=
  match t with
  | .float => w = toF32 v
  | .int32 => ∃ k : Int, w = k ∧ |w| ≤ |v| ∧ |v| < |w| + 1 ∧ 0 ≤ v * w

/-- The last element of the list that sets `n`. -/
def lastFor (n : String) (ps : List XmlParam) : Option XmlParam :=
  (ps.filter (fun p => decide (p.name = n))).getLast?

end Spec
open Spec

theorem truncInt_spec (v : Rat) : |(truncInt v : Rat)| ≤ |v| ∧ |v| < |(truncInt v : Rat)| + 1 ∧ 0 ≤ v * (truncInt v : Rat) := by
  unfold truncInt
  by_cases h : 0 ≤ v
  · rw [if_pos h]
    have h0 : (0 : Int) ≤ ⌊v⌋ := Int.floor_nonneg.2 h
    have h0' : (0 : Rat) ≤ (⌊v⌋ : Int) := by exact_mod_cast h0
    rw [abs_of_nonneg h, abs_of_nonneg h0']
    exact ⟨Int.floor_le v, Int.lt_floor_add_one v, mul_nonneg h h0'⟩
  · rw [if_neg h]
    have hv := le_of_lt (not_le.1 h)
    have h0 : ⌈v⌉ ≤ (0 : Int) := by
      rw [Int.ceil_le]; exact_mod_cast hv
    have h0' : ((⌈v⌉ : Int) : Rat) ≤ 0 := by exact_mod_cast h0
    rw [abs_of_nonpos hv, abs_of_nonpos h0']
    have h1 := Int.le_ceil v
    have h2 := Int.ceil_lt_add_one v
    exact ⟨by linarith, by linarith, mul_nonneg_of_nonpos_of_nonpos hv h0'⟩

theorem castTo_holds (t : ParamType) (v w : Rat) (h : castTo t v = .ok w) : Holds t v w := by
  cases t with
  | float => simp only [castTo, Outcome.ok.injEq] at h; exact h.symm
  | int32 =>
    simp only [castTo] at h
    split at h
    · simp only [Outcome.ok.injEq] at h
      subst h
      exact ⟨truncInt v, rfl, truncInt_spec v⟩
    · cases h

/-- effect of one assignment -/
theorem setValue_spec (n : String) (v : Rat) (t t' : List ParamItem) (h : setValue n v t = .ok (some t')) :
    t'.map (fun p => (p.name, p.type)) = t.map (fun p => (p.name, p.type)) ∧
    (∀ m, m ≠ n → paramValue t' m = paramValue t m) ∧
    ∃ p w, t.find? (fun p => decide (p.name = n)) = some p ∧ paramValue t' n = some w ∧ Holds p.type v w := by
  induction t generalizing t' with
  | nil => simp [setValue] at h
  | cons p ps ih =>
    simp only [setValue] at h
    split at h
    · rename_i hn
      simp only [Outcome.bind_eq_ok, Outcome.pure_eq, Outcome.ok.injEq, Option.some.injEq] at h
      obtain ⟨w, hw, rfl⟩ := h
      refine ⟨by simp, ?_, p, w, ?_, ?_, castTo_holds _ _ _ hw⟩
      · intro m hm
        have : p.name ≠ m := by rw [hn]; exact fun h => hm h.symm
        simp [paramValue, List.find?, this]
      · simp [hn]
      · simp [paramValue, hn]
    · rename_i hn
      simp only [Outcome.bind_eq_ok, Outcome.pure_eq, Outcome.ok.injEq] at h
      obtain ⟨r, hr, hr'⟩ := h
      cases r with
      | none => simp at hr'
      | some r =>
        simp only [Option.map_some, Option.some.injEq] at hr'
        subst hr'
        obtain ⟨h1, h2, q, w, hq, hw, hh⟩ := ih r hr
        refine ⟨by simp [h1], ?_, q, w, by simp [hn, hq], ?_, hh⟩
        · intro m hm
          have := h2 m hm
          by_cases hpm : p.name = m
          · simp [paramValue, hpm]
          · simpa [paramValue, hpm] using this
        · simpa [paramValue, hn] using hw

theorem applyParam_spec (t t' : List ParamItem) (p : XmlParam) (h : applyParam t p = .ok t') :
    ∃ v, given p = some v ∧ setValue p.name v t = .ok (some t') := by
  unfold applyParam at h
  split at h
  · rename_i hp
    simp only [Outcome.bind_eq_ok] at h
    obtain ⟨r, hr, h⟩ := h
    refine ⟨p.asInt, by simp [given, hp], ?_⟩
    cases r with
    | none => simp at h
    | some r => simp only [Outcome.pure_eq, Outcome.ok.injEq] at h; rw [hr, h]
  · rename_i hp
    simp only [Outcome.bind_eq_ok] at h
    obtain ⟨r, hr, h⟩ := h
    refine ⟨p.asFloat, by simp [given, hp], ?_⟩
    cases r with
    | none => simp at h
    | some r => simp only [Outcome.pure_eq, Outcome.ok.injEq] at h; rw [hr, h]
  · cases h

theorem find?_types (n : String) (t t' : List ParamItem)
    (h : t'.map (fun p => (p.name, p.type)) = t.map (fun p => (p.name, p.type))) (q' : ParamItem)
    (hq : t'.find? (fun p => decide (p.name = n)) = some q') :
    ∃ q, t.find? (fun p => decide (p.name = n)) = some q ∧ q.type = q'.type := by
  induction t generalizing t' with
  | nil => simp at h; subst h; simp at hq
  | cons p ps ih =>
    cases t' with
    | nil => simp at h
    | cons p' ps' =>
      simp only [List.map_cons, List.cons.injEq, Prod.mk.injEq] at h
      obtain ⟨⟨h1, h2⟩, h3⟩ := h
      by_cases hn : p.name = n
      · have hn' : p'.name = n := h1.trans hn
        simp only [List.find?, hn', decide_true] at hq
        cases hq
        exact ⟨p, by simp [hn], h2.symm⟩
      · have hn' : p'.name ≠ n := by rw [h1]; exact hn
        simp only [List.find?, hn', decide_false] at hq
        obtain ⟨q, hq', ht⟩ := ih ps' h3 hq
        exact ⟨q, by simp [hn, hq'], ht⟩

theorem applyParams_spec (t t' : List ParamItem) (ps : List XmlParam) (h : applyParams t ps = .ok t') :
    t'.map (fun p => (p.name, p.type)) = t.map (fun p => (p.name, p.type)) ∧
    ∀ n, match lastFor n ps with
      | none => paramValue t' n = paramValue t n
      | some p => ∃ q v w, t.find? (fun p => decide (p.name = n)) = some q ∧ given p = some v ∧
          paramValue t' n = some w ∧ Holds q.type v w := by
  induction ps generalizing t with
  | nil =>
    simp only [applyParams, Outcome.ok.injEq] at h
    subst h
    simp [lastFor]
  | cons p ps ih =>
    simp only [applyParams, Outcome.bind_eq_ok] at h
    obtain ⟨t1, h1, h2⟩ := h
    obtain ⟨v, hv, hs⟩ := applyParam_spec _ _ _ h1
    obtain ⟨hn, ho, q, w, hq, hw, hh⟩ := setValue_spec _ _ _ _ hs
    obtain ⟨ihn, ihv⟩ := ih t1 h2
    refine ⟨ihn.trans hn, ?_⟩
    intro n
    have hi := ihv n
    have hl : lastFor n (p :: ps) = (lastFor n ps).or (if p.name = n then some p else none) := by
      unfold lastFor
      by_cases hpn : p.name = n
      · simp only [List.filter_cons, hpn, decide_true, if_true]
        cases List.filter (fun p => decide (p.name = n)) ps with
        | nil => rfl
        | cons a l => simp [List.getLast?_cons_cons, List.getLast?_cons]
      · simp [hpn]
    rw [hl]
    cases hlp : lastFor n ps with
    | some p' =>
      rw [hlp] at hi
      simp only [Option.some_or]
      obtain ⟨q', v', w', hq', hg', hv', hh'⟩ := hi
      obtain ⟨q0, hq0, ht0⟩ := find?_types n t t1 hn q' hq'
      exact ⟨q0, v', w', hq0, hg', hv', by rw [ht0]; exact hh'⟩
    | none =>
      rw [hlp] at hi
      simp only [Option.none_or]
      by_cases hpn : p.name = n
      · rw [if_pos hpn]
        simp only
        subst hpn
        exact ⟨q, v, w, hq, hv, by rw [hi]; exact hw, hh⟩
      · rw [if_neg hpn]
        simp only
        rw [hi]
        exact ho n (fun h => hpn h.symm)

/-- C50: an accepted node with the filter's own name sets every listed parameter to (its last listing
of) the given value, leaves every other parameter alone, and the result is whether the resulting
values are valid. -/
theorem C50_own_name (f : FilterConfig) (x : XmlFilter) (hname : x.name = f.name) (hne : f.name ≠ "")
    (b : Bool) (f' : FilterConfig) (h : f.init x = .ok (b, f')) :
    f'.name = f.name ∧ b = f.valid f'.params ∧
    ∀ n, match lastFor n x.params with
      | none => paramValue f'.params n = paramValue f.params n
      | some p => ∃ q v w, f.params.find? (fun p => decide (p.name = n)) = some q ∧ given p = some v ∧
          paramValue f'.params n = some w ∧ Holds q.type v w := by
  unfold FilterConfig.init at h
  rw [if_neg (by rintro (h | h); exacts [hne h, h hname])] at h
  simp only [Outcome.check_bind_eq_ok, Outcome.bind_eq_ok, Outcome.pure_eq, Outcome.ok.injEq, Prod.mk.injEq] at h
  obtain ⟨_, -, t, ht, rfl, rfl⟩ := h
  exact ⟨rfl, rfl, (applyParams_spec _ _ _ ht).2⟩

/-- C50: a node is accepted whenever each of its parameters has a type (0 or 1), a registered name, and
a number that fits the registered member. -/
theorem C50_accepts (f : FilterConfig) (x : XmlFilter) (hname : x.name = f.name) (hne : f.name ≠ "")
    (htag : x.tag = "filter")
    (hp : ∀ p ∈ x.params, ∃ v q, given p = some v ∧ q ∈ f.params ∧ q.name = p.name ∧ |v| < 2147483648) :
    ∃ r, f.init x = .ok r := by
  have cast : ∀ t v, |v| < (2147483648 : Rat) → ∃ w, castTo t v = .ok w := by
    intro t v hv
    cases t with
    | float => exact ⟨toF32 v, rfl⟩
    | int32 =>
      have h1 := (truncInt_spec v).1
      have h2 : |(truncInt v : Rat)| < 2147483648 := lt_of_le_of_lt h1 hv
      rw [abs_lt] at h2
      have h3 : -2147483648 < truncInt v := by exact_mod_cast h2.1
      have h4 : truncInt v < 2147483648 := by exact_mod_cast h2.2
      exact ⟨_, by simp only [castTo]; rw [if_pos ⟨by omega, by omega⟩]⟩
  have set : ∀ (n : String) (v : Rat) (t : List ParamItem), |v| < (2147483648 : Rat) → (∃ q ∈ t, q.name = n) →
      ∃ t', setValue n v t = .ok (some t') := by
    intro n v t hv
    induction t with
    | nil => rintro ⟨q, hq, -⟩; simp at hq
    | cons p ps ih =>
      rintro ⟨q, hq, hqn⟩
      simp only [setValue]
      by_cases hpn : p.name = n
      · rw [if_pos hpn]
        obtain ⟨w, hw⟩ := cast p.type v hv
        rw [hw]; exact ⟨_, rfl⟩
      · rw [if_neg hpn]
        have : q ∈ ps := by
          rcases List.mem_cons.1 hq with h | h
          · subst h; exact absurd hqn hpn
          · exact h
        obtain ⟨t', ht'⟩ := ih ⟨q, this, hqn⟩
        rw [ht']; exact ⟨_, rfl⟩
  have all : ∀ (ps : List XmlParam) (t : List ParamItem), (∀ p ∈ ps, ∃ v, given p = some v ∧
      (∃ q ∈ t, q.name = p.name) ∧ |v| < 2147483648) → ∃ t', applyParams t ps = .ok t' := by
    intro ps
    induction ps with
    | nil => intro t _; exact ⟨t, rfl⟩
    | cons p ps ih =>
      intro t h
      obtain ⟨v, hv, hq, hb⟩ := h p (by simp)
      obtain ⟨t1, ht1⟩ := set p.name v t hb hq
      have ht : applyParam t p = .ok t1 := by
        unfold given at hv
        unfold applyParam
        by_cases h0 : p.type = some 0
        · rw [if_pos h0] at hv; cases hv; rw [h0]; simp only; rw [ht1]; rfl
        · rw [if_neg h0] at hv
          by_cases h1 : p.type = some 1
          · rw [if_pos h1] at hv; cases hv; rw [h1]; simp only; rw [ht1]; rfl
          · rw [if_neg h1] at hv; cases hv
      obtain ⟨hn, -, -⟩ := setValue_spec _ _ _ _ ht1
      have keep : ∀ m, (∃ q ∈ t, q.name = m) → ∃ q ∈ t1, q.name = m := by
        rintro m ⟨q, hq, rfl⟩
        have : (q.name, q.type) ∈ t1.map (fun p => (p.name, p.type)) := by
          rw [hn]; exact List.mem_map.2 ⟨q, hq, rfl⟩
        obtain ⟨q', hq', he⟩ := List.mem_map.1 this
        exact ⟨q', hq', by simpa using (Prod.mk.inj he).1⟩
      obtain ⟨t', ht'⟩ := ih t1 (fun p' hp' => by
        obtain ⟨v', h1, h2, h3⟩ := h p' (by simp [hp'])
        exact ⟨v', h1, keep _ h2, h3⟩)
      exact ⟨t', by simp only [applyParams]; rw [ht]; exact ht'⟩
  obtain ⟨t', ht'⟩ := all x.params f.params (fun p hpm => by
    obtain ⟨v, q, h1, h2, h3, h4⟩ := hp p hpm
    exact ⟨v, h1, ⟨q, h2, h3⟩, h4⟩)
  refine ⟨(f.valid t', { f with params := t' }), ?_⟩
  unfold FilterConfig.init
  rw [Outcome.check_pos htag, if_neg (by rintro (h | h); exacts [hne h, h hname]), ht']
  rfl

/-- C50: a node with an unregistered parameter name, or without a proper type, stops the program. -/
theorem C50_rejects (f : FilterConfig) (x : XmlFilter) (hname : x.name = f.name) (hne : f.name ≠ "")
    (p : XmlParam) (hp : p ∈ x.params) (hbad : given p = none ∨ ∀ q ∈ f.params, q.name ≠ p.name)
    (r : Bool × FilterConfig) : f.init x ≠ .ok r := by
  intro h
  obtain ⟨b, f'⟩ := r
  unfold FilterConfig.init at h
  rw [if_neg (by rintro (h | h); exacts [hne h, h hname])] at h
  simp only [Outcome.check_bind_eq_ok, Outcome.bind_eq_ok, Outcome.pure_eq, Outcome.ok.injEq, Prod.mk.injEq] at h
  obtain ⟨_, -, t', ht, -⟩ := h
  have gen : ∀ (ps : List XmlParam) (t : List ParamItem), p ∈ ps → (∀ q ∈ f.params, q.name ≠ p.name) ∨ given p = none →
      t.map (fun p => (p.name, p.type)) = f.params.map (fun p => (p.name, p.type)) → applyParams t ps ≠ .ok t' := by
    intro ps
    induction ps with
    | nil => intro t h; simp at h
    | cons p' ps ih =>
      intro t hm hbad hn h
      simp only [applyParams, Outcome.bind_eq_ok] at h
      obtain ⟨t1, h1, h2⟩ := h
      obtain ⟨v, hv, hs⟩ := applyParam_spec _ _ _ h1
      obtain ⟨hn1, -, q, w, hq, -, -⟩ := setValue_spec _ _ _ _ hs
      rcases List.mem_cons.1 hm with rfl | hm
      · rcases hbad with hbad | hbad
        · obtain ⟨q0, hq0, -⟩ := find?_types p.name f.params t hn q hq
          have := List.find?_some hq0
          exact hbad q0 (List.mem_of_find?_eq_some hq0) (by simpa using this)
        · rw [hbad] at hv; cases hv
      · exact ih t1 hm hbad (hn1.trans hn) h2
  exact gen x.params f.params hp hbad.symm rfl ht

theorem setValue_ub (n : String) (v : Rat) (t : List ParamItem) (h : setValue n v t = .ub) :
    ∃ q ∈ t, q.name = n ∧ q.type = .int32 ∧ 2147483648 ≤ |v| := by
  induction t with
  | nil => simp [setValue] at h
  | cons p ps ih =>
    simp only [setValue] at h
    split at h
    · rename_i hn
      refine ⟨p, by simp, hn, ?_⟩
      rw [Outcome.bind_eq_ub] at h
      rcases h with h | ⟨w, -, h⟩
      · cases ht : p.type with
        | float => rw [ht] at h; simp [castTo] at h
        | int32 =>
          refine ⟨rfl, ?_⟩
          rw [ht] at h
          simp only [castTo] at h
          split at h
          · cases h
          · rename_i hb
            by_contra hc
            have h2 : |(truncInt v : Rat)| < 2147483648 := lt_of_le_of_lt (truncInt_spec v).1 (not_le.1 hc)
            rw [abs_lt] at h2
            have h3 : -2147483648 < truncInt v := by exact_mod_cast h2.1
            have h4 : truncInt v < 2147483648 := by exact_mod_cast h2.2
            exact hb ⟨by omega, by omega⟩
      · simp at h
    · rw [Outcome.bind_eq_ub] at h
      rcases h with h | ⟨w, -, h⟩
      · obtain ⟨q, hq, hr⟩ := ih h
        exact ⟨q, by simp [hq], hr⟩
      · simp at h

theorem applyParam_ub (t : List ParamItem) (p : XmlParam) (h : applyParam t p = .ub) :
    ∃ v, given p = some v ∧ setValue p.name v t = .ub := by
  unfold applyParam at h
  split at h
  · rename_i hp
    refine ⟨p.asInt, by simp [given, hp], ?_⟩
    rw [Outcome.bind_eq_ub] at h
    rcases h with h | ⟨w, -, h⟩
    · exact h
    · cases w <;> simp at h
  · rename_i hp
    refine ⟨p.asFloat, by simp [given, hp], ?_⟩
    rw [Outcome.bind_eq_ub] at h
    rcases h with h | ⟨w, -, h⟩
    · exact h
    · cases w <;> simp at h
  · cases h

/-- C50: reading a node is undefined only if it gives an integer parameter of the filter a number that no
32 bit integer comes near. -/
theorem C50_undefined (f : FilterConfig) (x : XmlFilter) (h : f.init x = .ub) :
    ∃ p ∈ x.params, ∃ v, given p = some v ∧ 2147483648 ≤ |v| ∧
      ∃ q ∈ f.params, q.name = p.name ∧ q.type = .int32 := by
  have all : ∀ (ps : List XmlParam) (t : List ParamItem), applyParams t ps = .ub →
      ∃ p ∈ ps, ∃ v, given p = some v ∧ 2147483648 ≤ |v| ∧
        (p.name, ParamType.int32) ∈ t.map (fun p => (p.name, p.type)) := by
    intro ps
    induction ps with
    | nil => intro t h; simp [applyParams] at h
    | cons p ps ih =>
      intro t h
      simp only [applyParams] at h
      rw [Outcome.bind_eq_ub] at h
      rcases h with h | ⟨t1, h1, h⟩
      · obtain ⟨v, hv, hs⟩ := applyParam_ub _ _ h
        obtain ⟨q, hq, hn, ht, hb⟩ := setValue_ub _ _ _ hs
        exact ⟨p, by simp, v, hv, hb, List.mem_map.2 ⟨q, hq, by rw [hn, ht]⟩⟩
      · obtain ⟨v, hv, hs⟩ := applyParam_spec _ _ _ h1
        obtain ⟨hn, -⟩ := setValue_spec _ _ _ _ hs
        obtain ⟨p', hp', v', h1, h2, h3⟩ := ih t1 h
        exact ⟨p', by simp [hp'], v', h1, h2, hn ▸ h3⟩
  unfold FilterConfig.init at h
  rw [Outcome.check_bind_eq_ub] at h
  obtain ⟨-, h⟩ := h
  split at h
  · simp at h
  · rw [Outcome.bind_eq_ub] at h
    rcases h with h | ⟨t, -, h⟩
    · obtain ⟨p, hp, v, hv, hb, hm⟩ := all _ _ h
      obtain ⟨q, hq, he⟩ := List.mem_map.1 hm
      exact ⟨p, hp, v, hv, hb, q, hq, (Prod.mk.inj he).1, (Prod.mk.inj he).2⟩
    · simp at h

/-- Such a node exists. -/
example : (axisRangeConfig 1).init ⟨"filter", "AxisRange", [⟨some 1, "axis_index", 0, 3000000000⟩]⟩ = .ub := by
  have : (castTo .int32 3000000000) = .ub := by decide +kernel
  simp [FilterConfig.init, axisRangeConfig, applyParams, applyParam, setValue, this, Outcome.check]

/-- C50: a node with an unregistered parameter name, or without a proper type, and numbers of a sane size,
is reported: the process stops. -/
theorem C50_reported (f : FilterConfig) (x : XmlFilter) (hname : x.name = f.name) (hne : f.name ≠ "")
    (hsz : ∀ p ∈ x.params, ∀ v, given p = some v → |v| < 2147483648)
    (p : XmlParam) (hp : p ∈ x.params) (hbad : given p = none ∨ ∀ q ∈ f.params, q.name ≠ p.name) :
    f.init x = .abort := by
  cases h : f.init x with
  | ok r => exact absurd h (C50_rejects f x hname hne p hp hbad r)
  | abort => rfl
  | ub =>
    obtain ⟨p', hp', v, hv, hb, -⟩ := C50_undefined f x h
    exact absurd hb (not_le.2 (hsz p' hp' v hv))

/-- C50: the parameters of each filter, with their types and defaults.  `fmax` is the largest float. -/
theorem C50_tables (fmax : Rat) :
    voxelGridConfig.params = [⟨"voxel_size", .float, 1 / 10⟩] ∧
    randomSamplerConfig.params = [⟨"sampling_rate", .float, 1⟩] ∧
    (rangeConfig fmax).params = [⟨"min_range", .float, 0⟩, ⟨"max_range", .float, fmax⟩] ∧
    ((boxRemovalConfig fmax).params.map ParamItem.name =
        ["min_x", "min_y", "min_z", "max_x", "max_y", "max_z"] ∧
      (∀ a ∈ ["x", "y", "z"], paramValue (boxRemovalConfig fmax).params ("min_" ++ a) = some (-fmax) ∧
        paramValue (boxRemovalConfig fmax).params ("max_" ++ a) = some fmax) ∧
      ∀ p ∈ (boxRemovalConfig fmax).params, p.type = .float) ∧
    (axisRangeConfig fmax).params =
      [⟨"min", .float, -fmax⟩, ⟨"max", .float, fmax⟩, ⟨"axis_index", .int32, 2⟩] := by
  refine ⟨rfl, rfl, rfl, ⟨rfl, ?_, ?_⟩, rfl⟩
  · intro a ha
    simp only [List.mem_cons, List.not_mem_nil, or_false] at ha
    rcases ha with rfl | rfl | rfl <;> exact ⟨rfl, rfl⟩
  · intro p hp
    simp only [boxRemovalConfig, List.mem_cons, List.not_mem_nil, or_false] at hp
    rcases hp with rfl | rfl | rfl | rfl | rfl | rfl <;> rfl

/-- C50: which values each filter accepts: a voxel size above 10⁻⁶; a sampling rate from 0 to 1; any range;
a box with positive extent along each axis; a nonempty interval along one of the axes 0, 1, 2. -/
theorem C50_valid (fmax : Rat) (t : List ParamItem) :
    (∀ v, paramValue t "voxel_size" = some v →
      (voxelGridConfig.valid t = true ↔ 1 / 10 ^ 6 < v)) ∧
    (∀ v, paramValue t "sampling_rate" = some v →
      (randomSamplerConfig.valid t = true ↔ 0 ≤ v ∧ v ≤ 1)) ∧
    (rangeConfig fmax).valid t = true ∧
    (∀ lo hi : String → Rat, (∀ a ∈ ["x", "y", "z"], paramValue t ("min_" ++ a) = some (lo a) ∧
        paramValue t ("max_" ++ a) = some (hi a)) →
      ((boxRemovalConfig fmax).valid t = true ↔ ∀ a ∈ ["x", "y", "z"], lo a < hi a)) ∧
    (∀ (a b : Rat) (k : Int), paramValue t "min" = some a → paramValue t "max" = some b →
      paramValue t "axis_index" = some (k : Rat) →
      ((axisRangeConfig fmax).valid t = true ↔ a < b ∧ (k = 0 ∨ k = 1 ∨ k = 2))) := by
  refine ⟨?_, ?_, rfl, ?_, ?_⟩
  · intro v hv
    simp only [voxelGridConfig, hv, decide_eq_true_eq]
    norm_num
  · intro v hv
    simp only [randomSamplerConfig, hv, decide_eq_true_eq]
  · intro lo hi h
    have hx := h "x" (by simp)
    have hy := h "y" (by simp)
    have hz := h "z" (by simp)
    have e1 : "min_" ++ "x" = "min_x" := rfl
    have e2 : "max_" ++ "x" = "max_x" := rfl
    have e3 : "min_" ++ "y" = "min_y" := rfl
    have e4 : "max_" ++ "y" = "max_y" := rfl
    have e5 : "min_" ++ "z" = "min_z" := rfl
    have e6 : "max_" ++ "z" = "max_z" := rfl
    rw [e1, e2] at hx
    rw [e3, e4] at hy
    rw [e5, e6] at hz
    simp only [boxRemovalConfig, hx.1, hx.2, hy.1, hy.2, hz.1, hz.2, decide_eq_true_eq]
    simp
  · intro a b k h1 h2 h3
    simp only [axisRangeConfig, h1, h2, h3, decide_eq_true_eq]
    constructor
    · rintro ⟨h, h0, h4⟩
      have h0' : 0 ≤ k := by exact_mod_cast h0
      have h4' : k ≤ 2 := by exact_mod_cast h4
      exact ⟨h, by omega⟩
    · rintro ⟨h, rfl | rfl | rfl⟩ <;> refine ⟨h, ?_, ?_⟩ <;> norm_num

/-- C50: a node naming another filter changes nothing and is reported as failure. -/
theorem C50_other_name (f : FilterConfig) (x : XmlFilter) (htag : x.tag = "filter") (hname : x.name ≠ f.name) :
    f.init x = .ok (false, f) := by
  unfold FilterConfig.init
  rw [Outcome.check_pos htag, if_pos (Or.inr hname)]
  rfl

/-- C50 is false for submaps: whatever voxel size is configured, the submap's voxel filter keeps its
default of 0.1. -/
theorem C50_submap_fails (voxelSize : Rat) (asInt : Int) :
    ∃ f, submapVoxelFilter voxelSize asInt = .ok f ∧ paramValue f.params "voxel_size" = some (1 / 10) := by
  refine ⟨voxelGridConfig, ?_, by decide +kernel⟩
  unfold submapVoxelFilter
  rw [C50_other_name _ _ (by simp [submapVoxelXml]) (by simp [submapVoxelXml, voxelGridConfig])]
  rfl

/-- Only the name in the node is wrong: under the name of the voxel filter, the same node would set the
configured voxel size (as a `float`). -/
theorem C50_submap_name (voxelSize : Rat) (asInt : Int) :
    ∃ f, voxelGridConfig.init { submapVoxelXml voxelSize asInt with name := "VoxelGrid" } =
        .ok (decide (1 / 10 ^ 6 < toF32 voxelSize), f) ∧
      paramValue f.params "voxel_size" = some (toF32 voxelSize) := by
  refine ⟨{ voxelGridConfig with params := [⟨"voxel_size", .float, toF32 voxelSize⟩] }, ?_, rfl⟩
  have : (1 : Rat) / 10 ^ 6 = 1 / 1000000 := by norm_num
  rw [this]
  rfl

/-- C50: a whole number up to 2^24 reaches a float member as it is written. -/
theorem C50_whole (k : Int) (w : Rat) (hk : |k| ≤ 2 ^ 24) (h : Holds .float k w) : w = k := by
  have := flRound_int 24 (by norm_num) k hk
  exact h.trans this

/-- C50 is false beyond: the range 16777217 is stored as 16777216. -/
theorem C50_whole_fails : ∃ r f, (rangeConfig 100000000).init
      ⟨"filter", "Range", [⟨some 0, "max_range", 16777217, 16777216⟩]⟩ = .ok (r, f) ∧
    paramValue f.params "max_range" = some 16777216 := by
  refine ⟨true, { rangeConfig 100000000 with
    params := [⟨"min_range", .float, 0⟩, ⟨"max_range", .float, toF32 ((16777217 : Int) : Rat)⟩] }, rfl, ?_⟩
  decide +kernel

/-- C50, chains: a filter whose values were found invalid is nevertheless part of the chain. -/
theorem C50_invalid_kept_fails : ∃ f, factoryInit [voxelGridConfig, randomSamplerConfig]
      [⟨"filter", "RandomSampler", [⟨some 1, "sampling_rate", 2, 2⟩]⟩] = .ok [f] ∧ f.valid f.params = false := by
  refine ⟨{ randomSamplerConfig with params := [⟨"sampling_rate", .float, toF32 2⟩] }, ?_, by decide +kernel⟩
  have h : randomSamplerConfig.init ⟨"filter", "RandomSampler", [⟨some 1, "sampling_rate", 2, 2⟩]⟩ =
      .ok (false, { randomSamplerConfig with params := [⟨"sampling_rate", .float, toF32 2⟩] }) := by
    have e : decide (0 ≤ toF32 2 ∧ toF32 2 ≤ 1) = false := by decide +kernel
    rw [← e]
    rfl
  simp only [factoryInit, List.find?]
  have e1 : decide (voxelGridConfig.name = "RandomSampler") = false := by decide
  have e2 : decide (randomSamplerConfig.name = "RandomSampler") = true := by decide
  rw [e1, e2]
  simp only [h]
  rfl

/-- C50: the range filter has no check of its own. A lower limit above the upper one is accepted, and such a
filter drops every point of every cloud. -/
theorem C50_range_fails (fmax a b : Rat) (h : toF32 b < toF32 a) (i j : Int) :
    ∃ f, (rangeConfig fmax).init ⟨"filter", "Range", [⟨some 1, "min_range", i, a⟩, ⟨some 1, "max_range", j, b⟩]⟩ = .ok (true, f) ∧
      paramValue f.params "min_range" = some (toF32 a) ∧ paramValue f.params "max_range" = some (toF32 b) ∧
      ∀ (sqrt : Rat → Rat) (st : FState Rat) (c out : InnerCloud Rat), st.input = some c →
        (rangeFilter sqrt (toF32 a) (toF32 b) st out).2.points = [] := by
  refine ⟨{ rangeConfig fmax with params := [⟨"min_range", .float, toF32 a⟩, ⟨"max_range", .float, toF32 b⟩] }, rfl, rfl, rfl, ?_⟩
  generalize toF32 a = a at h ⊢
  generalize toF32 b = b at h ⊢
  intro sqrt st c out hc
  have hk : ∀ p : InnerPoint Rat, rangeKeep sqrt a b p = false := by
    intro p
    unfold rangeKeep
    dsimp only
    rw [Bool.and_eq_false_iff]
    by_cases hr : sqrt (p.x * p.x + p.y * p.y + p.z * p.z) ≥ a
    · right
      rw [decide_eq_false_iff_not]
      exact not_le.2 (lt_of_lt_of_le h hr)
    · left
      rw [decide_eq_false_iff_not]
      exact hr
  have hs : ∀ (ps : List (InnerPoint Rat)) (n : Nat),
      (scanFrom (fun (_ : Unit) _ p => (rangeKeep sqrt a b p, ())) () n ps).1.pts = [] := by
    intro ps
    induction ps with
    | nil => intro n; rfl
    | cons p ps ih =>
      intro n
      simp only [hk] at ih
      simp only [scanFrom, hk]
      exact ih (n + 1)
  unfold rangeFilter runScan
  rw [hc]
  simp only [filterPrepare, List.nil_append]
  exact hs c.points 0

/-- The chain has exactly the configured filters with a supported name, in order. -/
theorem C50_chain_names (supported : List FilterConfig) (xs : List XmlFilter) (fs : List FilterConfig)
    (h : factoryInit supported xs = .ok fs) :
    fs.map FilterConfig.name = (xs.map XmlFilter.name).filter (fun n => supported.any (fun f => decide (f.name = n))) := by
  induction xs generalizing fs with
  | nil => simp only [factoryInit, Outcome.ok.injEq] at h; subst h; rfl
  | cons x xs ih =>
    simp only [factoryInit] at h
    cases hf : supported.find? (fun f => decide (f.name = x.name)) with
    | none =>
      rw [hf] at h
      have hn : supported.any (fun f => decide (f.name = x.name)) = false := by
        rw [List.any_eq_false]; exact List.find?_eq_none.1 hf
      simp only [List.map_cons, List.filter_cons, hn]
      exact ih fs h
    | some f =>
      rw [hf] at h
      simp only [Outcome.bind_eq_ok, Outcome.pure_eq, Outcome.ok.injEq] at h
      obtain ⟨r, hr, rest, hrest, rfl⟩ := h
      have hy : supported.any (fun f => decide (f.name = x.name)) = true :=
        List.any_eq_true.2 ⟨f, List.mem_of_find?_eq_some hf, List.find?_some (p := fun f : FilterConfig => decide (f.name = x.name)) hf⟩
      have hfn : f.name = x.name := by simpa using List.find?_some hf
      have hrn : r.2.name = f.name := by
        unfold FilterConfig.init at hr
        split at hr
        · simp only [Outcome.check_bind_eq_ok, Outcome.pure_eq, Outcome.ok.injEq] at hr
          rw [← hr.2]
        · simp only [Outcome.check_bind_eq_ok, Outcome.bind_eq_ok, Outcome.pure_eq, Outcome.ok.injEq] at hr
          obtain ⟨_, -, t, -, rfl⟩ := hr
          rfl
      simp only [List.map_cons, List.filter_cons, hy, if_true, ih rest hrest, hrn, hfn]

-- an axis filter configured with a truncated integer parameter
example : ((axisRangeConfig 1000).init ⟨"filter", "AxisRange",
    [⟨some 1, "min", -2, -5/2⟩, ⟨some 1, "axis_index", 1, 7/4⟩]⟩ matches .ok _) = true := by decide +kernel
example : (match (axisRangeConfig 1000).init ⟨"filter", "AxisRange",
    [⟨some 1, "min", -2, -5/2⟩, ⟨some 1, "axis_index", 1, 7/4⟩]⟩ with
    | .ok (b, f) => (b, f.params)
    | _ => (false, [])) = (true, [⟨"min", .float, -5/2⟩, ⟨"max", .float, 1000⟩, ⟨"axis_index", .int32, 1⟩]) := by
  decide +kernel

end Verif
