import Verif.Spec.Normals
import Mathlib.Data.List.Perm.Basic
import Mathlib.Data.List.Nodup
import Mathlib.Data.List.Range
namespace Verif
open Spec
variable {P N : Type}

/-- the groups visited, in order -/
def groupsOf (S : Selection) (first : Nat) (range : List Nat) : List (List Nat) :=
  if h : range.length ≤ 7 then [range]
  else
    let leftCount := range.length - range.length / 2
    let r := S.sel first range
    groupsOf S first (r.take leftCount) ++ groupsOf S (first + leftCount) (r.drop leftCount)
termination_by range.length
decreasing_by
  all_goals
    have := (S.perm first range).length_eq
    simp only [List.length_take, List.length_drop, this]
    omega

def leaves (E : Estimator P N) : List (List Nat) → NormalState P N → Outcome (NormalState P N)
  | [], st => .ok st
  | g :: gs, st => do
    let st ← normalLeaf E g st
    leaves E gs st

theorem leaves_append (E : Estimator P N) (a b : List (List Nat)) (st : NormalState P N) :
    leaves E (a ++ b) st = leaves E a st >>= leaves E b := by
  induction a generalizing st with
  | nil => simp [leaves]
  | cons g gs ih =>
    simp only [List.cons_append, leaves]
    cases normalLeaf E g st <;> simp [ih]

theorem buildNormals_eq (S : Selection) (E : Estimator P N) (first : Nat) (range : List Nat)
    (st : NormalState P N) :
    buildNormals S E first range st =
      leaves E (groupsOf S first range) st >>= fun st => .ok ((groupsOf S first range).flatten, st) := by
  fun_induction buildNormals S E first range st with
  | case1 first range st h =>
    rw [groupsOf]
    simp only [h, dif_pos, leaves]
    cases normalLeaf E range st <;> simp
  | case2 first range st h rc lc r ih1 ih2 =>
    rw [groupsOf]
    simp only [h, dif_neg, not_false_iff]
    rw [leaves_append]
    rw [ih1]
    cases h1 : leaves E (groupsOf S first (r.take lc)) st with
    | abort => rfl
    | ub => rfl
    | ok st1 =>
      simp only [Outcome.bind_ok]
      rw [ih2]
      cases h2 : leaves E (groupsOf S (first + lc) (r.drop lc)) st1 with
      | abort => simp_all [r, lc, rc]
      | ub => simp_all [r, lc, rc]
      | ok st2 => simp_all [r, lc, rc]

theorem groupsOf_perm (S : Selection) (first : Nat) (range : List Nat) :
    (groupsOf S first range).flatten.Perm range := by
  fun_induction groupsOf S first range with
  | case1 => simp
  | case2 first range h lc r ih1 ih2 =>
    rw [List.flatten_append]
    refine (ih1.append ih2).trans ?_
    rw [List.take_append_drop]
    exact S.perm first range

theorem groupsOf_sizes (S : Selection) (first : Nat) (range : List Nat) (h0 : range ≠ []) :
    ∀ g ∈ groupsOf S first range, 1 ≤ g.length ∧ g.length ≤ 7 ∧ (8 ≤ range.length → 4 ≤ g.length) := by
  fun_induction groupsOf S first range with
  | case1 first range h =>
    intro g hg
    simp at hg
    subst hg
    have : g.length ≠ 0 := by simpa using h0
    omega
  | case2 first range h lc r ih1 ih2 =>
    have hlen : r.length = range.length := (S.perm first range).length_eq
    have l1 : (r.take lc).length = lc := by simp [hlen, lc]
    have l2 : (r.drop lc).length = range.length / 2 := by
      simp only [List.length_drop, hlen, lc]; omega
    have hlc : lc = range.length - range.length / 2 := rfl
    intro g hg
    simp only [List.mem_append] at hg
    rcases hg with hg | hg
    · have hne : r.take lc ≠ [] := by intro e; rw [e] at l1; simp at l1; omega
      by_cases h8 : 8 ≤ (r.take lc).length
      · have := ih1 hne g hg; omega
      · have : groupsOf S first (r.take lc) = [r.take lc] := by
          rw [groupsOf]; rw [dif_pos (by omega)]
        rw [this] at hg
        simp only [List.mem_singleton] at hg
        rw [hg, l1]; omega
    · have hne : r.drop lc ≠ [] := by intro e; rw [e] at l2; simp at l2; omega
      by_cases h8 : 8 ≤ (r.drop lc).length
      · have := ih2 hne g hg; omega
      · have : groupsOf S (first + lc) (r.drop lc) = [r.drop lc] := by
          rw [groupsOf]; rw [dif_pos (by omega)]
        rw [this] at hg
        simp only [List.mem_singleton] at hg
        rw [hg, l2]; omega

/-- points of a group -/
def colsOf (pts : List P) (g : List Nat) : List P := g.filterMap (fun i => pts[i]?)

theorem columns_eq (pts : List P) (g : List Nat) (h : ∀ i ∈ g, i < pts.length) :
    columns pts g = .ok (colsOf pts g) := by
  induction g with
  | nil => rfl
  | cons i g ih =>
    have hi := h i (by simp)
    simp only [columns, colsOf, List.getElem?_eq_getElem hi]
    rw [ih (fun j hj => h j (by simp [hj]))]
    simp [colsOf, List.getElem?_eq_getElem hi]

theorem colsOf_spec (pts : List P) (g : List Nat) (h : ∀ i ∈ g, i < pts.length) :
    g.map (fun i => pts[i]?) = (colsOf pts g).map some := by
  induction g with
  | nil => rfl
  | cons i g ih =>
    have hi := h i (by simp)
    simp [colsOf, List.getElem?_eq_getElem hi]
    simpa [colsOf] using ih (fun j hj => h j (by simp [hj]))

/-- accepted groups in the order visited -/
def accepted (E : Estimator P N) (pts : List P) (gs : List (List Nat)) : List (Nat × List P) :=
  gs.filterMap (fun g => if E.rankOk (colsOf pts g) then g.head?.map (fun k => (k, colsOf pts g)) else none)

theorem accepted_congr (E : Estimator P N) (pts pts' : List P) (gs : List (List Nat))
    (h : ∀ i ∈ gs.flatten, pts[i]? = pts'[i]?) : accepted E pts gs = accepted E pts' gs := by
  unfold accepted
  apply List.filterMap_congr
  intro g hg
  have : colsOf pts g = colsOf pts' g := by
    unfold colsOf
    apply List.filterMap_congr
    intro i hi
    exact h i (by simp only [List.mem_flatten]; exact ⟨g, hg, hi⟩)
  rw [this]

theorem leaves_spec (E : Estimator P N) (gs : List (List Nat)) (st : NormalState P N)
    (hne : ∀ g ∈ gs, g ≠ []) (hnd : gs.flatten.Nodup)
    (hp : ∀ i ∈ gs.flatten, i < st.points.length)
    (hl : st.normals.length = st.points.length) :
    ∃ st', leaves E gs st = .ok st' ∧ st'.indices = st.indices ∧
      st'.toKeep = st.toKeep ++ (accepted E st.points gs).map Prod.fst ∧
      st'.points = (accepted E st.points gs).foldl (fun l c => l.set c.1 (E.mean c.2)) st.points ∧
      st'.normals = (accepted E st.points gs).foldl (fun l c => l.set c.1 (E.normal c.2)) st.normals := by
  induction gs generalizing st with
  | nil => exact ⟨st, rfl, rfl, by simp [accepted], rfl, rfl⟩
  | cons g gs ih =>
    have hgp : ∀ i ∈ g, i < st.points.length := fun i hi => hp i (by simp [hi])
    simp only [List.flatten_cons, List.nodup_append] at hnd
    obtain ⟨hnd1, hnd2, hdis⟩ := hnd
    obtain ⟨k, g', rfl⟩ : ∃ k g', g = k :: g' := by
      cases g with
      | nil => exact absurd rfl (hne [] (by simp))
      | cons k g' => exact ⟨k, g', rfl⟩
    simp only [leaves, normalLeaf]
    rw [columns_eq _ _ hgp]
    by_cases hr : E.rankOk (colsOf st.points (k :: g')) = true
    · have hk : k < st.points.length := hgp k (by simp)
      simp only [Outcome.bind_ok, hr, setCol, hk, hl, if_true, Outcome.pure_eq, Bool.not_true]
      simp only [Bool.false_eq_true, if_false, Outcome.bind_ok]
      have hcong : accepted E (st.points.set k (E.mean (colsOf st.points (k :: g')))) gs
          = accepted E st.points gs := by
        apply accepted_congr
        intro i hi
        have : k ≠ i := hdis k (by simp) i hi
        rw [List.getElem?_set_ne this]
      have := ih { st with points := st.points.set k (E.mean (colsOf st.points (k :: g'))),
                           normals := st.normals.set k (E.normal (colsOf st.points (k :: g'))),
                           toKeep := st.toKeep ++ [k] }
        (fun g hg => hne g (by simp [hg])) hnd2
        (by intro i hi; simpa using hp i (by simp only [List.flatten_cons, List.mem_append]; exact Or.inr hi))
        (by simpa using hl)
      simp only [hcong] at this
      obtain ⟨st', h1, h2, h3, h4, h5⟩ := this
      refine ⟨st', h1, h2, ?_, ?_, ?_⟩
      · rw [h3]; simp [accepted, hr]
      · rw [h4]; simp [accepted, hr]
      · rw [h5]; simp [accepted, hr]
    · simp only [Outcome.bind_ok, hr, Outcome.pure_eq, Bool.not_false, if_true]
      obtain ⟨st', h1, h2, h3, h4, h5⟩ := ih st (fun g hg => hne g (by simp [hg])) hnd2
        (by intro i hi; exact hp i (by simp only [List.flatten_cons, List.mem_append]; exact Or.inr hi)) hl
      have : accepted E st.points ((k :: g') :: gs) = accepted E st.points gs := by
        simp [accepted, hr]
      rw [this]
      exact ⟨st', by simpa using h1, h2, h3, h4, h5⟩

theorem foldl_set_length {A B : Type _} (f : B → A) (acc : List (Nat × B)) (l : List A) :
    (acc.foldl (fun l c => l.set c.1 (f c.2)) l).length = l.length := by
  induction acc generalizing l with
  | nil => rfl
  | cons c acc ih => simp [ih]

theorem foldl_set_get {A B : Type _} (f : B → A) (acc : List (Nat × B)) (l : List A)
    (hnd : (acc.map Prod.fst).Nodup) (k : Nat) (b : B) (hm : (k, b) ∈ acc) (hk : k < l.length) :
    (acc.foldl (fun l c => l.set c.1 (f c.2)) l)[k]? = some (f b) := by
  induction acc generalizing l with
  | nil => simp at hm
  | cons c acc ih =>
    simp only [List.map_cons, List.nodup_cons] at hnd
    simp only [List.foldl_cons]
    rcases List.mem_cons.1 hm with h | h
    · subst h
      have hno : ∀ (l : List A), (acc.foldl (fun l c => l.set c.1 (f c.2)) l)[k]? = l[k]? := by
        have hnot := hnd.1
        clear ih hnd hm
        induction acc with
        | nil => intro l; rfl
        | cons d acc ih =>
          intro l
          simp only [List.map_cons, List.mem_cons, not_or] at hnot
          simp only [List.foldl_cons]
          rw [ih hnot.2]
          rw [List.getElem?_set_ne (fun e => hnot.1 e.symm)]
      rw [hno]
      simp [hk]
    · exact ih _ hnd.2 h (by simpa using hk)

theorem compactLoop_spec (keep : List Nat) (i : Nat) (pts : List P) (nrm : List N)
    (hl : nrm.length = pts.length)
    (hs : keep.Pairwise (· < ·)) (hi : ∀ k ∈ keep, i ≤ k ∧ k < pts.length) :
    ∃ p' n', compactLoop i keep (pts, nrm) = .ok (p', n') ∧
      p'.length = pts.length ∧ n'.length = nrm.length ∧
      (∀ j < i, p'[j]? = pts[j]?) ∧ (∀ j < i, n'[j]? = nrm[j]?) ∧
      (∀ (j k : Nat), keep[j]? = some k → p'[i + j]? = pts[k]? ∧ n'[i + j]? = nrm[k]?) := by
  induction keep generalizing i pts nrm with
  | nil => exact ⟨pts, nrm, rfl, rfl, rfl, by simp, by simp, by simp⟩
  | cons k keep ih =>
    obtain ⟨hik, hkl⟩ := hi k (by simp)
    have hs' := List.pairwise_cons.1 hs
    have hil : i < pts.length := by omega
    simp only [compactLoop, Outcome.check, hik, if_true, Outcome.bind_ok,
      List.getElem?_eq_getElem hkl, List.getElem?_eq_getElem (hl ▸ hkl : k < nrm.length), setCol,
      hil, hl]
    obtain ⟨p', n', h1, h2, h3, h4, h5, h6⟩ := ih (i + 1) (pts.set i pts[k]) (nrm.set i (nrm[k]'(hl ▸ hkl)))
      (by simpa using hl) hs'.2
      (by intro k' hk'
          have := hs'.1 k' hk'
          have := hi k' (by simp [hk'])
          simp; omega)
    refine ⟨p', n', h1, by simpa using h2, by simpa [hl] using h3, ?_, ?_, ?_⟩
    · intro j hj
      rw [h4 j (by omega), List.getElem?_set_ne (by omega)]
    · intro j hj
      rw [h5 j (by omega), List.getElem?_set_ne (by omega)]
    · intro j k' hj
      cases j with
      | zero =>
        simp at hj
        subst hj
        rw [Nat.add_zero, h4 i (by omega), h5 i (by omega)]
        simp [hil, hl, hkl]
      | succ j =>
        simp at hj
        have hk' := List.mem_of_getElem? hj
        have hlt := hs'.1 k' hk'
        have := h6 j k' hj
        rw [show i + (j + 1) = i + 1 + j by omega]
        rw [this.1, this.2, List.getElem?_set_ne (by omega), List.getElem?_set_ne (by omega)]
        exact ⟨rfl, rfl⟩

theorem accepted_keys (E : Estimator P N) (pts : List P) (gs : List (List Nat))
    (hnd : gs.flatten.Nodup) : ((accepted E pts gs).map Prod.fst).Nodup ∧
      ∀ k ∈ (accepted E pts gs).map Prod.fst, k ∈ gs.flatten := by
  induction gs with
  | nil => simp [accepted]
  | cons g gs ih =>
    simp only [List.flatten_cons, List.nodup_append] at hnd
    obtain ⟨ih1, ih2⟩ := ih hnd.2.1
    by_cases hr : E.rankOk (colsOf pts g) = true
    · cases g with
      | nil =>
        have : accepted E pts ([] :: gs) = accepted E pts gs := by simp [accepted]
        rw [this]; exact ⟨ih1, ih2⟩
      | cons k g =>
        have : accepted E pts ((k :: g) :: gs) = (k, colsOf pts (k :: g)) :: accepted E pts gs := by
          simp [accepted, hr]
        rw [this]
        constructor
        · simp only [List.map_cons, List.nodup_cons]
          refine ⟨?_, ih1⟩
          intro hk
          exact hnd.2.2 k (by simp) k (ih2 k hk) rfl
        · intro k' hk'
          simp only [List.map_cons, List.mem_cons] at hk'
          rcases hk' with rfl | hk'
          · simp
          · simp only [List.flatten_cons, List.mem_append]
            exact Or.inr (ih2 k' hk')
    · have : accepted E pts (g :: gs) = accepted E pts gs := by simp [accepted, hr]
      rw [this]
      refine ⟨ih1, fun k hk => ?_⟩
      simp only [List.flatten_cons, List.mem_append]
      exact Or.inr (ih2 k hk)

theorem mem_accepted (E : Estimator P N) (pts : List P) (gs : List (List Nat)) (k : Nat) (ps : List P)
    (hv : ∀ i ∈ gs.flatten, i < pts.length) :
    (k, ps) ∈ accepted E pts gs ↔ ∃ g ∈ gs, g.head? = some k ∧
        g.map (fun i => pts[i]?) = ps.map some ∧ E.rankOk ps = true := by
  unfold accepted
  simp only [List.mem_filterMap]
  constructor
  · rintro ⟨g, hg, h⟩
    split at h
    · rename_i hr
      simp only [Option.map_eq_some_iff, Prod.mk.injEq] at h
      obtain ⟨k', h1, rfl, rfl⟩ := h
      exact ⟨g, hg, h1, colsOf_spec pts g (fun i hi => hv i (List.mem_flatten.2 ⟨g, hg, hi⟩)), hr⟩
    · simp at h
  · rintro ⟨g, hg, h1, h2, h3⟩
    have := colsOf_spec pts g (fun i hi => hv i (List.mem_flatten.2 ⟨g, hg, hi⟩))
    rw [this] at h2
    have : colsOf pts g = ps := (List.map_injective_iff.2 (fun a b h => Option.some.inj h)) h2
    exact ⟨g, hg, by simp [this, h3, h1]⟩

end Verif
