import Verif.Spec.SaveMaps
import Mathlib.Tactic.NormNum
/-! Proofs for C34. -/
namespace Verif
variable {P : Type}
open Spec

theorem saveFrames_eq (o : SaveOptions) (s : SaveSubmap P) (st : SaveState P) :
    s.foldl (saveFrame o) st =
      { whole := if o.direct then st.whole ++ points [s] else st.whole
        mrvm := if o.mrvm then st.mrvm ++ scans [s] else st.mrvm
        files := st.files } := by
  induction s generalizing st with
  | nil => obtain ⟨w, m, f⟩ := st; simp [points, scans]
  | cons f fs ih =>
    rw [List.foldl_cons, ih]
    cases hd : o.direct <;> cases hm : o.mrvm <;>
      simp [saveFrame, hd, hm, points, scans, SaveFrame.global]

/-- The files written for a group `g` as part `k`. -/
def groupFiles (o : SaveOptions) (k : Nat) (g : List (SaveSubmap P)) : List (MapFile P) :=
  (if o.direct && !(points g).isEmpty then [.part k (points g)] else []) ++
  (if o.mrvm then [.staticPart k (scans g)] else [])

def allFiles (o : SaveOptions) : Nat → List (List (SaveSubmap P)) → List (MapFile P)
  | _, [] => []
  | k, g :: gs => groupFiles o k g ++ allFiles o (k + 1) gs

theorem allFiles_append (o : SaveOptions) (k : Nat) (a b : List (List (SaveSubmap P))) :
    allFiles o k (a ++ b) = allFiles o k a ++ allFiles o (k + a.length) b := by
  induction a generalizing k with
  | nil => rfl
  | cons g gs ih =>
    simp only [List.cons_append, allFiles, ih, List.append_assoc, List.length_cons]
    rw [show k + 1 + gs.length = k + (gs.length + 1) by omega]

theorem points_append (a b : List (SaveSubmap P)) : points (a ++ b) = points a ++ points b := by
  simp [points]
theorem scans_append (a b : List (SaveSubmap P)) : scans (a ++ b) = scans a ++ scans b := by
  simp [scans]

/-- After the submaps of `groups` and `cur`. -/
structure SaveInv (o : SaveOptions) (n idx : Nat) (st : SaveState P)
    (groups : List (List (SaveSubmap P))) (cur : List (SaveSubmap P)) : Prop where
  size : ∀ g ∈ groups, g.length = n
  cnt : groups.length * n + cur.length = idx
  lt : cur.length < n
  whole : st.whole = if o.direct then points cur else []
  mrvm : st.mrvm = if o.mrvm then scans cur else []
  files : st.files = allFiles o 0 groups

theorem savePart_eq (o : SaveOptions) (k : Nat) (g : List (SaveSubmap P)) (fs : List (MapFile P)) :
    savePart o (k : Int)
      { whole := if o.direct then points g else []
        mrvm := if o.mrvm then scans g else []
        files := fs } =
    { whole := [], mrvm := [], files := fs ++ groupFiles o k g } := by
  cases hd : o.direct <;> cases hm : o.mrvm <;> cases hp : points g <;>
    simp [savePart, groupFiles, hd, hm, hp]

theorem saveLoop_eq (o : SaveOptions) (hs : o.separate = true) (n : Nat) (hn : 0 < n)
    (hst : o.step = (n : Int)) (total : Nat) (ss : List (SaveSubmap P)) :
    ∀ (idx : Nat) (st : SaveState P) groups cur, SaveInv o n idx st groups cur →
      idx + ss.length = total → ss ≠ [] →
      ∃ st' rest, saveLoop o total idx st ss = .ok st' ∧
        Split n (cur ++ ss) rest ∧ rest ≠ [] ∧
        st'.files = allFiles o 0 (groups ++ rest) := by
  induction ss with
  | nil => intro idx st groups cur _ _ h; exact absurd rfl h
  | cons s ss ih =>
    intro idx st groups cur hi ht _
    obtain ⟨h1, h2, h3, h4, h5, h6⟩ := hi
    have hfr : s.foldl (saveFrame o) st =
        { whole := if o.direct then points (cur ++ [s]) else []
          mrvm := if o.mrvm then scans (cur ++ [s]) else []
          files := st.files } := by
      rw [saveFrames_eq, h4, h5, points_append, scans_append]
      cases o.direct <;> cases o.mrvm <;> simp
    have hne0 : o.step ≠ 0 := by rw [hst]; omega
    have hdiv : idx / n = groups.length := by
      rw [← h2, Nat.mul_comm, Nat.add_comm, Nat.add_mul_div_left _ _ hn, Nat.div_eq_of_lt h3]
      omega
    have htd : (idx : Int).tdiv o.step = ((groups.length : Nat) : Int) := by
      rw [hst, ← hdiv]; rfl
    have hcond : ((idx : Int) + 1).tmod o.step = 0 ↔ cur.length + 1 = n := by
      have e : ((idx : Int) + 1).tmod o.step = (((idx + 1) % n : Nat) : Int) := by
        rw [hst]; rfl
      rw [e]
      have : (idx + 1) % n = (cur.length + 1) % n := by
        rw [← h2, Nat.add_assoc, Nat.mul_comm, Nat.mul_add_mod]
      rw [this]
      constructor
      · intro h
        have h : (cur.length + 1) % n = 0 := by exact_mod_cast h
        by_contra hne
        rw [Nat.mod_eq_of_lt (by omega)] at h
        omega
      · intro h; rw [h, Nat.mod_self]; rfl
    simp only [saveLoop, saveOne, hs, if_true, if_neg hne0, hfr, htd]
    by_cases hlast : ss = []
    · subst hlast
      have : idx + 1 = total := by simpa using ht
      rw [if_pos (Or.inl this), savePart_eq]
      refine ⟨_, [cur ++ [s]], rfl, ?_, by simp, ?_⟩
      · refine ⟨by simp, by simp, ?_, ?_⟩
        · intro g hg
          rw [List.mem_singleton] at hg
          subst hg
          rw [List.length_append]; simp; omega
        · intro i hi hi'
          simp at hi'
      · rw [allFiles_append, h6]; simp [allFiles]
    · have hnt : ¬ idx + 1 = total := by
        have : 0 < ss.length := List.length_pos_iff.mpr hlast
        simp at ht; omega
      have ht' : idx + 1 + ss.length = total := by simp at ht; omega
      by_cases hf : cur.length + 1 = n
      · rw [if_pos (Or.inr (hcond.mpr hf)), savePart_eq]
        simp only [Outcome.bind_ok]
        have hi' : SaveInv o n (idx + 1)
            { whole := [], mrvm := [], files := st.files ++ groupFiles o groups.length (cur ++ [s]) }
            (groups ++ [cur ++ [s]]) [] := by
          refine ⟨?_, ?_, by simpa using hn, by simp [points], by simp [scans], ?_⟩
          · intro g hg
            rw [List.mem_append, List.mem_singleton] at hg
            rcases hg with hg | rfl
            · exact h1 g hg
            · simpa using hf
          · rw [List.length_append, ← h2]
            simp only [List.length_cons, List.length_nil, Nat.add_mul]
            omega
          · show st.files ++ _ = _
            rw [allFiles_append, h6]; simp [allFiles]
        obtain ⟨st', rest, a, b, c, d⟩ := ih _ _ _ _ hi' ht' hlast
        refine ⟨st', (cur ++ [s]) :: rest, a, ?_, by simp, ?_⟩
        · refine ⟨?_, ?_, ?_, ?_⟩
          · rw [List.flatten_cons, b.all]; simp
          · intro g hg
            rcases List.mem_cons.mp hg with rfl | hg
            · simp
            · exact b.nonempty g hg
          · intro g hg
            rcases List.mem_cons.mp hg with rfl | hg
            · simp; omega
            · exact b.size g hg
          · intro i hi hi2
            cases i with
            | zero => simpa using hf
            | succ i => exact b.full i (by simpa using hi) (by simpa using hi2)
        · rw [d]; simp
      · rw [if_neg (by rintro (h | h); exacts [hnt h, hf (hcond.mp h)])]
        simp only [Outcome.bind_ok]
        have hi' : SaveInv o n (idx + 1)
            { whole := if o.direct then points (cur ++ [s]) else []
              mrvm := if o.mrvm then scans (cur ++ [s]) else []
              files := st.files } groups (cur ++ [s]) :=
          ⟨h1, by simp; omega, by simp; omega, rfl, rfl, h6⟩
        obtain ⟨st', rest, a, b, c, d⟩ := ih _ _ _ _ hi' ht' hlast
        exact ⟨st', rest, a, by simpa using b, c, d⟩

theorem saveLoop_whole (o : SaveOptions) (hs : o.separate = false) (total : Nat)
    (ss : List (SaveSubmap P)) : ∀ (idx : Nat) (st : SaveState P),
      saveLoop o total idx st ss = .ok
        { whole := if o.direct then st.whole ++ points ss else st.whole
          mrvm := if o.mrvm then st.mrvm ++ scans ss else st.mrvm
          files := st.files } := by
  induction ss with
  | nil => intro idx st; obtain ⟨w, m, f⟩ := st; simp [saveLoop, points, scans]
  | cons s ss ih =>
    intro idx st
    simp only [saveLoop, saveOne, hs, Bool.false_eq_true, if_false, Outcome.bind_ok, ih,
      saveFrames_eq]
    cases o.direct <;> cases o.mrvm <;> simp [points, scans]

end Verif
