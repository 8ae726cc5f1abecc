import Verif.Spec.Ground2
import Mathlib.Tactic.Linarith
import Mathlib.Tactic.Ring
import Mathlib.Tactic.FieldSimp
import Mathlib.Tactic.ByContra
import Mathlib.Tactic.Set
import Mathlib.Algebra.Order.Field.Basic
import Mathlib.Algebra.Order.Floor.Ring
namespace Verif
open Spec

/-! ### the loop that fits lines -/
section fit
variable (p : G2Params) (fit : List DZ → Rat × Rat)

/-- A bin, with the round that is repeated. -/
def g2Visit2 (st : G2Fit) (c : DZ) : G2Fit :=
  if (g2Visit p fit st c).2 = true then (g2Visit p fit (g2Visit p fit st c).1 c).1
  else (g2Visit p fit st c).1

theorem g2Close_pts (st : G2Fit) (line : Rat × Rat) : (g2Close fit st line).pts = [g2Back st.pts] := by
  unfold g2Close; split <;> rfl

theorem g2Close_long (st : G2Fit) (line : Rat × Rat) : (g2Close fit st line).long = false := by
  unfold g2Close; split <;> rfl

theorem g2Visit_single (st : G2Fit) (c : DZ) (h : st.pts.length < 2) : (g2Visit p fit st c).2 = false := by
  unfold g2Visit
  dsimp only
  rw [if_neg (by omega)]
  split <;> rfl

theorem g2Visit_again (st : G2Fit) (c d : DZ) (h : (g2Visit p fit st c).2 = true) :
    (g2Visit p fit (g2Visit p fit st c).1 d).2 = false := by
  apply g2Visit_single
  revert h
  unfold g2Visit
  dsimp only
  split
  · split
    · intro _
      dsimp only
      rw [g2Close_pts]; simp
    · intro h; cases h
  · split <;> (intro h; cases h)

/-- The lowest points of the bins that have points. -/
def lowsOf (cells : List G2Cell) : List DZ :=
  (cells.filter (fun c => !c.pts.isEmpty)).map (fun c => c.low)

theorem g2Loop_eq (cells : List G2Cell) : ∀ (n : Nat) (st : G2Fit), 2 * cells.length ≤ n →
    g2Loop p fit n cells st = some ((lowsOf cells).foldl (g2Visit2 p fit) st) := by
  induction cells with
  | nil => intro n st _; cases n <;> rfl
  | cons c rest ih =>
    intro n st hn
    simp only [List.length_cons] at hn
    obtain ⟨m, rfl⟩ : ∃ m, n = m + 1 + 1 := ⟨n - 2, by omega⟩
    unfold g2Loop
    by_cases hc : c.pts.isEmpty
    · rw [if_pos hc, ih _ _ (by omega)]
      unfold lowsOf
      rw [List.filter_cons, if_neg (by simp [hc])]
    · rw [if_neg hc]
      have hl : lowsOf (c :: rest) = c.low :: lowsOf rest := by
        unfold lowsOf
        rw [List.filter_cons, if_pos (by simp [hc]), List.map_cons]
      rw [hl, List.foldl_cons]
      by_cases hv : (g2Visit p fit st c.low).2 = true
      · rw [if_pos hv]
        unfold g2Loop
        rw [if_neg hc, if_neg (by rw [g2Visit_again p fit st c.low c.low hv]; simp), ih _ _ (by omega)]
        unfold g2Visit2
        rw [if_pos hv]
      · rw [if_neg hv, ih _ _ (by omega)]
        unfold g2Visit2
        rw [if_neg hv]

/-- The ground lines computed from the lowest points. -/
def fitLows : List DZ → List G2Line
  | [] => []
  | c :: rest => g2End fit (rest.foldl (g2Visit2 p fit)
      { pts := [c], line := (0, 0), long := false, height := p.startHeight, out := [] })

theorem g2FitLines_eq (bins : List G2Cell) (n : Nat) (hn : 2 * bins.length ≤ n) :
    g2FitLines p fit n bins = some (fitLows p fit (lowsOf bins)) := by
  unfold g2FitLines
  have key : lowsOf bins = lowsOf (bins.dropWhile (fun c => c.pts.isEmpty)) := by
    clear hn
    induction bins with
    | nil => rfl
    | cons c rest ih =>
      by_cases hc : c.pts.isEmpty
      · rw [List.dropWhile_cons_of_pos (p := fun c : G2Cell => c.pts.isEmpty) hc, ← ih]
        unfold lowsOf
        rw [List.filter_cons, if_neg (by simp [hc])]
      · rw [List.dropWhile_cons_of_neg (p := fun c : G2Cell => c.pts.isEmpty) hc]
  have hlen : (bins.dropWhile (fun c => c.pts.isEmpty)).length ≤ bins.length :=
    (List.dropWhile_sublist _).length_le
  have hhead : ∀ c rest, bins.dropWhile (fun c => c.pts.isEmpty) = c :: rest → c.pts.isEmpty = false := by
    intro c rest h
    have := List.head?_dropWhile_not (fun c : G2Cell => c.pts.isEmpty) bins
    rw [h] at this
    simpa using this
  rw [key]
  generalize hd : bins.dropWhile (fun c => c.pts.isEmpty) = l at *
  cases l with
  | nil => rfl
  | cons c rest =>
    have hc := hhead c rest rfl
    have hl : lowsOf (c :: rest) = c.low :: lowsOf rest := by
      unfold lowsOf
      rw [List.filter_cons, if_pos (by simp [hc]), List.map_cons]
    simp only [List.length_cons] at hlen
    dsimp only
    rw [hl]
    by_cases hr : rest.isEmpty
    · rw [if_pos hr]
      have : rest = [] := by simpa using hr
      subst this
      rfl
    · rw [if_neg hr, g2Loop_eq p fit rest n _ (by omega)]
      rfl

/-! ### the invariant of the fitting loop -/

theorem g2MaxError_ge (pts : List DZ) (line : Rat × Rat) (q : DZ) (h : q ∈ pts) :
    |line.1 * q.d + line.2 - q.z| ≤ g2MaxError pts line := by
  have key : ∀ (pts : List DZ) (m : Rat),
      m ≤ pts.foldl (fun m q => if m < |line.1 * q.d + line.2 - q.z| then
        |line.1 * q.d + line.2 - q.z| else m) m ∧
      ∀ q ∈ pts, |line.1 * q.d + line.2 - q.z| ≤
        pts.foldl (fun m q => if m < |line.1 * q.d + line.2 - q.z| then
        |line.1 * q.d + line.2 - q.z| else m) m := by
    intro pts
    induction pts with
    | nil => intro m; exact ⟨le_refl _, fun q h => by simp at h⟩
    | cons a as ih =>
      intro m
      rw [List.foldl_cons]
      obtain ⟨h1, h2⟩ := ih (if m < |line.1 * a.d + line.2 - a.z| then |line.1 * a.d + line.2 - a.z| else m)
      have hm : m ≤ (if m < |line.1 * a.d + line.2 - a.z| then |line.1 * a.d + line.2 - a.z| else m) ∧
          |line.1 * a.d + line.2 - a.z| ≤
          (if m < |line.1 * a.d + line.2 - a.z| then |line.1 * a.d + line.2 - a.z| else m) := by
        by_cases hc : m < |line.1 * a.d + line.2 - a.z|
        · rw [if_pos hc]; exact ⟨le_of_lt hc, le_refl _⟩
        · rw [if_neg hc]; exact ⟨le_refl _, not_lt.1 hc⟩
      refine ⟨hm.1.trans h1, ?_⟩
      intro q hq
      rcases List.mem_cons.1 hq with rfl | hq
      · exact hm.2.trans h1
      · exact h2 q hq
  exact (key pts 0).2 q h

theorem lineThrough_eq (g : List DZ) : g2ToLine (fit g) g = lineThrough fit g := rfl

/-- The height at which the next line has to begin. -/
def lastHeight (h : Rat) (groups : List (List DZ)) : Rat :=
  match groups.getLast? with
  | none => h
  | some g => (lineThrough fit g).e.z

theorem startsLevel_append (h : Rat) (gs : List (List DZ)) (g : List DZ) :
    StartsLevel p fit h (gs ++ [g]) ↔
      StartsLevel p fit h gs ∧ |(g.headD ⟨0, 0⟩).z - lastHeight fit h gs| < p.maxStart := by
  induction gs generalizing h with
  | nil => simp [StartsLevel, lastHeight]
  | cons a as ih =>
    simp only [List.cons_append, StartsLevel]
    rw [ih, and_assoc]
    have : lastHeight fit h (a :: as) = lastHeight fit (lineThrough fit a).e.z as := by
      unfold lastHeight
      cases as with
      | nil => rfl
      | cons b bs =>
        rw [List.getLast?_cons_cons, List.getLast?_eq_some_getLast (List.cons_ne_nil b bs)]
    rw [this]

structure FitInv (done : List DZ) (st : G2Fit) (groups : List (List DZ)) : Prop where
  ne : st.pts ≠ []
  suffix : st.pts <:+ done
  begins : 2 ≤ st.pts.length → |(st.pts.headD ⟨0, 0⟩).z - st.height| < p.maxStart
  carries : 3 ≤ st.pts.length → Carries p fit st.pts
  out : st.out = groups.map (lineThrough fit)
  good : ∀ g ∈ groups, g <:+: done ∧ Carries p fit g
  level : StartsLevel p fit p.startHeight groups
  height : st.height = lastHeight fit p.startHeight groups
  order : groups.Pairwise (fun a b => (a.getLastD ⟨0, 0⟩).d ≤ (b.headD ⟨0, 0⟩).d)
  before : ∀ g ∈ groups, (g.getLastD ⟨0, 0⟩).d ≤ (st.pts.headD ⟨0, 0⟩).d

theorem fitInv_start (c : DZ) :
    FitInv p fit [c] { pts := [c], line := (0, 0), long := false, height := p.startHeight, out := [] } [] where
  ne := by simp
  suffix := List.suffix_rfl
  begins := by simp
  carries := by simp
  out := rfl
  good := by simp
  level := trivial
  height := rfl
  order := List.Pairwise.nil
  before := by simp

theorem headD_mem {l : List DZ} (h : l ≠ []) (a : DZ) : l.headD a ∈ l := by
  cases l with
  | nil => exact absurd rfl h
  | cons b bs => simp

theorem getLastD_mem' {l : List DZ} (h : l ≠ []) (a : DZ) : l.getLastD a ∈ l := by
  rw [List.getLastD_eq_getLast?, List.getLast?_eq_some_getLast h]
  exact List.getLast_mem h

theorem sorted_head_le {l : List DZ} (hs : l.Pairwise (fun a b => a.d < b.d)) {q : DZ} (hq : q ∈ l) (a : DZ) :
    (l.headD a).d ≤ q.d := by
  cases l with
  | nil => simp at hq
  | cons b bs =>
    rcases List.mem_cons.1 hq with rfl | h
    · simp
    · exact le_of_lt ((List.pairwise_cons.1 hs).1 q h)

/-- A round that does not end a line: state with other points, nothing else that matters changed. -/
theorem fitInv_extend {done : List DZ} {st : G2Fit} {groups} (hi : FitInv p fit done st groups) (c : DZ)
    (hc : ∀ q ∈ done, q.d < c.d) (line : Rat × Rat) (long : Bool)
    (hb : |(st.pts.headD ⟨0, 0⟩).z - st.height| < p.maxStart)
    (hcar : 3 ≤ (st.pts ++ [c]).length → Carries p fit (st.pts ++ [c])) :
    FitInv p fit (done ++ [c]) { st with pts := st.pts ++ [c], line := line, long := long } groups where
  ne := by simp
  suffix := by
    obtain ⟨t, ht⟩ := hi.suffix
    exact ⟨t, by rw [← ht]; simp⟩
  begins := by
    intro _
    have : (st.pts ++ [c]).headD ⟨0, 0⟩ = st.pts.headD ⟨0, 0⟩ := by
      cases h : st.pts with
      | nil => exact absurd h hi.ne
      | cons a as => simp
    dsimp only
    rw [this]; exact hb
  carries := hcar
  out := hi.out
  good := fun g hg => ⟨(hi.good g hg).1.trans ⟨[], [c], by simp⟩, (hi.good g hg).2⟩
  level := hi.level
  height := hi.height
  order := hi.order
  before := by
    intro g hg
    have : (st.pts ++ [c]).headD ⟨0, 0⟩ = st.pts.headD ⟨0, 0⟩ := by
      cases h : st.pts with
      | nil => exact absurd h hi.ne
      | cons a as => simp
    dsimp only
    rw [this]; exact hi.before g hg

theorem fitInv_restart {done : List DZ} {st : G2Fit} {groups} (hi : FitInv p fit done st groups) (c : DZ)
    (hc : ∀ q ∈ done, q.d < c.d) (long : Bool) :
    FitInv p fit (done ++ [c]) { st with pts := [c], long := long } groups where
  ne := by simp
  suffix := ⟨done, rfl⟩
  begins := by simp
  carries := by simp
  out := hi.out
  good := fun g hg => ⟨(hi.good g hg).1.trans ⟨[], [c], by simp⟩, (hi.good g hg).2⟩
  level := hi.level
  height := hi.height
  order := hi.order
  before := by
    intro g hg
    dsimp only
    refine (hi.before g hg).trans ?_
    exact le_of_lt (hc _ (hi.suffix.subset (headD_mem hi.ne _)))

theorem fitInv_close {done : List DZ} {st : G2Fit} {groups} (hi : FitInv p fit done st groups)
    (hs : done.Pairwise (fun a b => a.d < b.d)) (h2 : 2 ≤ st.pts.length) (line : Rat × Rat) :
    ∃ groups', FitInv p fit done (g2Close fit st line) groups' := by
  have hsp : st.pts.Pairwise (fun a b => a.d < b.d) := hs.sublist hi.suffix.sublist
  have hback : g2Back st.pts ∈ st.pts := getLastD_mem' hi.ne _
  have hsuf : [g2Back st.pts] <:+ done := by
    refine List.IsSuffix.trans ?_ hi.suffix
    refine ⟨st.pts.dropLast, ?_⟩
    unfold g2Back
    rw [List.getLastD_eq_getLast?, List.getLast?_eq_some_getLast hi.ne]
    exact List.dropLast_concat_getLast hi.ne
  have hle : (st.pts.headD ⟨0, 0⟩).d ≤ (g2Back st.pts).d := sorted_head_le hsp hback _
  unfold g2Close
  by_cases h3 : 3 ≤ st.pts.length
  · rw [if_pos h3]
    refine ⟨groups ++ [st.pts], ?_⟩
    exact
      { ne := by simp
        suffix := hsuf
        begins := by simp
        carries := by simp
        out := by
          dsimp only
          rw [hi.out, List.map_append]; rfl
        good := by
          intro g hg
          rcases List.mem_append.1 hg with h | h
          · exact hi.good g h
          · simp only [List.mem_singleton] at h
            subst h
            exact ⟨hi.suffix.isInfix, hi.carries h3⟩
        level := by
          rw [startsLevel_append]
          refine ⟨hi.level, ?_⟩
          rw [← hi.height]
          exact hi.begins h2
        height := by
          dsimp only
          unfold lastHeight
          rw [List.getLast?_append]
          rfl
        order := by
          rw [List.pairwise_append]
          refine ⟨hi.order, List.pairwise_singleton _ _, ?_⟩
          intro a ha b hb
          simp only [List.mem_singleton] at hb
          subst hb
          exact hi.before a ha
        before := by
          intro g hg
          dsimp only
          rcases List.mem_append.1 hg with h | h
          · exact (hi.before g h).trans hle
          · simp only [List.mem_singleton] at h
            subst h
            exact le_refl _ }
  · rw [if_neg h3]
    exact ⟨groups,
      { ne := by simp
        suffix := hsuf
        begins := by simp
        carries := by simp
        out := hi.out
        good := hi.good
        level := hi.level
        height := hi.height
        order := hi.order
        before := fun g hg => (hi.before g hg).trans hle }⟩

theorem fitInv_single {done : List DZ} {st : G2Fit} {groups} (hi : FitInv p fit done st groups) (c : DZ)
    (hc : ∀ q ∈ done, q.d < c.d) (h1 : ¬ 2 ≤ st.pts.length) :
    FitInv p fit (done ++ [c]) (g2Visit p fit st c).1 groups := by
  unfold g2Visit
  dsimp only
  rw [if_neg h1]
  by_cases hl : ((st.long || decide (p.longThreshold ≤ c.d - (g2Back st.pts).d)) = false ∧
      |(g2Back st.pts).z - st.height| < p.maxStart)
  · rw [if_pos hl]
    refine fitInv_extend p fit hi c hc st.line _ ?_ ?_
    · have : g2Back st.pts = st.pts.headD ⟨0, 0⟩ := by
        unfold g2Back
        cases h : st.pts with
        | nil => exact absurd h hi.ne
        | cons a as =>
          rw [h] at h1
          simp only [List.length_cons] at h1
          have : as = [] := List.eq_nil_of_length_eq_zero (by omega)
          subst this
          rfl
      rw [← this]; exact hl.2
    · intro h
      simp only [List.length_append, List.length_singleton] at h
      omega
  · rw [if_neg hl]
    exact fitInv_restart p fit hi c hc _

theorem fitInv_visit2 {done : List DZ} {st : G2Fit} {groups} (hi : FitInv p fit done st groups) (c : DZ)
    (hs : done.Pairwise (fun a b => a.d < b.d)) (hc : ∀ q ∈ done, q.d < c.d) :
    ∃ groups', FitInv p fit (done ++ [c]) (g2Visit2 p fit st c) groups' := by
  by_cases h2 : 2 ≤ st.pts.length
  · by_cases hr : p.maxError < g2MaxError (st.pts ++ [c]) (fit (st.pts ++ [c])) ∨
        p.maxSlope < |(fit (st.pts ++ [c])).1| ∨
        g2Far p st (st.long || decide (p.longThreshold ≤ c.d - (g2Back st.pts).d)) c = true
    · have hv : g2Visit p fit st c = (g2Close fit st (fit (st.pts ++ [c])), true) := by
        unfold g2Visit
        dsimp only
        rw [if_pos h2, if_pos hr]
      obtain ⟨groups', hi'⟩ := fitInv_close p fit hi hs h2 (fit (st.pts ++ [c]))
      refine ⟨groups', ?_⟩
      unfold g2Visit2
      rw [hv, if_pos rfl]
      exact fitInv_single p fit hi' c hc (by rw [g2Close_pts]; simp)
    · have hv : g2Visit p fit st c = ({ st with
          pts := st.pts ++ [c], line := fit (st.pts ++ [c]),
          long := st.long || decide (p.longThreshold ≤ c.d - (g2Back st.pts).d) }, false) := by
        unfold g2Visit
        dsimp only
        rw [if_pos h2, if_neg hr]
      refine ⟨groups, ?_⟩
      unfold g2Visit2
      rw [hv, if_neg (by simp)]
      push Not at hr
      refine fitInv_extend p fit hi c hc _ _ (hi.begins h2) ?_
      intro h3
      exact ⟨h3, fun q hq => (g2MaxError_ge _ _ q hq).trans hr.1, hr.2.1⟩
  · refine ⟨groups, ?_⟩
    unfold g2Visit2
    rw [if_neg (by rw [g2Visit_single p fit st c (by omega)]; simp)]
    exact fitInv_single p fit hi c hc h2

theorem fitInv_fold (rest : List DZ) : ∀ (done : List DZ) (st : G2Fit) (groups : List (List DZ)),
    FitInv p fit done st groups → (done ++ rest).Pairwise (fun a b => a.d < b.d) →
    ∃ groups', FitInv p fit (done ++ rest) (rest.foldl (g2Visit2 p fit) st) groups' := by
  induction rest with
  | nil => intro done st groups hi _; exact ⟨groups, by simpa using hi⟩
  | cons c rest ih =>
    intro done st groups hi hs
    have h1 : done.Pairwise (fun a b => a.d < b.d) := (List.pairwise_append.1 hs).1
    have h2 : ∀ q ∈ done, q.d < c.d := fun q hq => (List.pairwise_append.1 hs).2.2 q hq c (by simp)
    obtain ⟨g', hi'⟩ := fitInv_visit2 p fit hi c h1 h2
    obtain ⟨g'', hi''⟩ := ih (done ++ [c]) _ g' hi' (by simpa using hs)
    exact ⟨g'', by simpa using hi''⟩

theorem fitLows_ground (lows : List DZ) (hs : lows.Pairwise (fun a b => a.d < b.d)) :
    GroundLines p fit lows (fitLows p fit lows) := by
  cases lows with
  | nil => exact ⟨[], rfl, by simp, trivial, List.Pairwise.nil⟩
  | cons c rest =>
    obtain ⟨groups, hi⟩ := fitInv_fold p fit rest [c] _ [] (fitInv_start p fit c) (by simpa using hs)
    have hfin : ∃ gs, fitLows p fit (c :: rest) = gs.map (lineThrough fit) ∧
        (∀ g ∈ gs, g <:+: (c :: rest) ∧ Carries p fit g) ∧ StartsLevel p fit p.startHeight gs ∧
        gs.Pairwise (fun a b => (a.getLastD ⟨0, 0⟩).d ≤ (b.headD ⟨0, 0⟩).d) := by
      show ∃ gs, g2End fit _ = _ ∧ _
      unfold g2End
      by_cases h : 2 < (rest.foldl (g2Visit2 p fit)
          { pts := [c], line := (0, 0), long := false, height := p.startHeight, out := [] }).pts.length
      · rw [if_pos h]
        refine ⟨groups ++ [(rest.foldl (g2Visit2 p fit)
          { pts := [c], line := (0, 0), long := false, height := p.startHeight, out := [] }).pts], ?_, ?_, ?_, ?_⟩
        rotate_left
        · intro g hg
          rcases List.mem_append.1 hg with hg | hg
          · exact hi.good g hg
          · rw [List.mem_singleton] at hg
            rw [hg]
            exact ⟨hi.suffix.isInfix, hi.carries (by omega)⟩
        · rw [startsLevel_append]
          exact ⟨hi.level, by rw [← hi.height]; exact hi.begins (by omega)⟩
        · rw [List.pairwise_append]
          refine ⟨hi.order, List.pairwise_singleton _ _, ?_⟩
          intro a ha b hb
          rw [List.mem_singleton] at hb
          rw [hb]
          exact hi.before a ha
        · rw [hi.out, List.map_append]; rfl
      · rw [if_neg h]
        exact ⟨groups, hi.out, hi.good, hi.level, hi.order⟩
    obtain ⟨gs, e1, e2, e3, e4⟩ := hfin
    refine ⟨gs, e1, e2, e3, ?_⟩
    rw [e1, List.pairwise_map]
    exact e4

end fit
end Verif
