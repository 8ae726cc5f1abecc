import Verif.Spec.PlaneSampler
import Verif.Proofs.Outcome
import Verif.Proofs.Tools
import Verif.Proofs.AverageF
import Verif.Proofs.PlaceFloat
import Mathlib.Tactic.Linarith
namespace Verif
open Spec

/-! ### the loop -/

/-- The counters are in proportion. -/
def Inv98 (rate : Rat) (o s : Nat) : Prop :=
  rate * o ≤ s * (1 + 1 / 2 ^ 24) ∧ (s : Rat) < rate * o + 1

theorem inv98_step {rate : Rat} (h0 : 0 ≤ rate) (h1 : rate ≤ 1) (hr : toF32 rate = rate) {o s : Nat}
    (hi : Inv98 rate o s) (hs : s ≤ o) (ho : o + 1 ≤ 2 ^ 24) :
    (toF32 (toF32 s / toF32 (o + 1 : Nat)) < rate → Inv98 rate (o + 1) (s + 1)) ∧
    (¬ toF32 (toF32 s / toF32 (o + 1 : Nat)) < rate → Inv98 rate (o + 1) s) := by
  rw [toF32_int (n := s) (by omega), toF32_int (n := o + 1) ho]
  have hp : (0 : Rat) < ((o + 1 : Nat) : Rat) := by exact_mod_cast Nat.succ_pos o
  obtain ⟨ha, hb⟩ := hi
  constructor
  · intro h
    have h2 : (s : Rat) / ((o + 1 : Nat) : Rat) < rate := by
      by_contra hc
      have := toF32_mono (not_lt.1 hc)
      rw [hr] at this
      exact absurd h (not_lt.2 this)
    rw [div_lt_iff₀ hp] at h2
    unfold Inv98
    push_cast at *
    constructor <;> nlinarith
  · intro h
    have h2 := not_lt.1 h
    have h3 := toF32_err ((s : Rat) / ((o + 1 : Nat) : Rat))
    have hq : 0 ≤ (s : Rat) / ((o + 1 : Nat) : Rat) := div_nonneg (Nat.cast_nonneg s) hp.le
    rw [abs_of_nonneg hq] at h3
    have h4 := (abs_le.1 h3).2
    have h5 : rate ≤ (s : Rat) / ((o + 1 : Nat) : Rat) * (1 + 1 / 2 ^ 24) := by
      unfold u32 at h4; linarith
    have h6 : rate * ((o + 1 : Nat) : Rat) ≤ s * (1 + 1 / 2 ^ 24) := by
      have := mul_le_mul_of_nonneg_right h5 hp.le
      have e : (s : Rat) / ((o + 1 : Nat) : Rat) * (1 + 1 / 2 ^ 24) * ((o + 1 : Nat) : Rat) =
          s * (1 + 1 / 2 ^ 24) := by field_simp
      linarith
    refine ⟨h6, ?_⟩
    push_cast
    nlinarith

theorem planeLoop_ok {rate : Rat} (h0 : 0 ≤ rate) (h1 : rate ≤ 1) (hr : toF32 rate = rate) :
    ∀ (ps : List (Vec3 Rat)) (i : Nat) (P : List Nat) (o s : Nat), P.Pairwise (· < ·) →
      (∀ f ∈ P, i ≤ f ∧ f < i + ps.length) → (ps ≠ [] → i + ps.length - 1 ∈ P) →
      Inv98 rate o s → s ≤ o → o + ps.length ≤ 2 ^ 24 →
      ∃ (keep : Nat → Bool), planeLoop rate i ps P o s =
          .ok (((ps.zipIdx i).filter fun e => keep e.2).map Prod.fst) ∧
        (∀ f ∈ P, keep f = true) ∧ ∀ n ≤ ps.length,
          Inv98 rate (o + (List.range' i n).countP fun j => decide (j ∉ P))
            (s + (List.range' i n).countP fun j => decide (j ∉ P) && keep j) := by
  intro ps
  induction ps with
  | nil =>
    intro i P o s _ hP _ hinv _ _
    refine ⟨fun _ => true, by cases P <;> rfl, fun _ _ => rfl, ?_⟩
    intro n hn
    have : n = 0 := by simpa using hn
    subst this
    simpa using hinv
  | cons p ps ih =>
    intro i P o s hsort hP hlast hinv hso hlen
    simp only [List.length_cons] at hP hlast hlen ⊢
    cases P with
    | nil => exact absurd (hlast (by simp)) (by simp)
    | cons f fs =>
      have hsort' := List.pairwise_cons.1 hsort
      by_cases hf : i = f
      · subst hf
        have hni : i ∉ fs := fun hc => absurd (hsort'.1 i hc) (lt_irrefl _)
        obtain ⟨keep, hk, hkP, hkn⟩ := ih (i + 1) fs o s hsort'.2
          (fun g hg => by have := hsort'.1 g hg; have := hP g (by simp [hg]); omega)
          (fun hne => by
            have hl := hlast (by simp)
            have : 0 < ps.length := List.length_pos_iff.2 hne
            rcases List.mem_cons.1 hl with h | h
            · omega
            · have e : i + 1 + ps.length - 1 = i + (ps.length + 1) - 1 := by omega
              rw [e]; exact h)
          hinv hso (by omega)
        refine ⟨fun j => decide (j = i) || keep j, ?_, ?_, ?_⟩
        · rw [planeLoop, if_pos rfl, hk]
          simp only [Outcome.bind_ok, Outcome.pure_eq, List.zipIdx_cons, List.filter_cons, decide_true, Bool.true_or,
            if_true, List.map_cons, Outcome.ok.injEq, List.cons.injEq, true_and]
          congr 1
          apply List.filter_congr
          rintro ⟨q, j⟩ hj
          have := (List.mem_zipIdx hj).1
          have hji : j ≠ i := by omega
          simp [hji]
        · intro g hg
          rcases List.mem_cons.1 hg with rfl | h
          · simp
          · simp [hkP g h]
        · intro n hn
          cases n with
          | zero => simpa using hinv
          | succ n =>
            have := hkn n (by omega)
            rw [List.range'_succ, List.countP_cons_of_neg (by simp), List.countP_cons_of_neg (by simp)]
            have e1 : (List.range' (i + 1) n).countP (fun j => decide (j ∉ i :: fs)) =
                (List.range' (i + 1) n).countP (fun j => decide (j ∉ fs)) := by
              apply List.countP_congr
              intro j hj
              have : j ≠ i := by have := List.mem_range'_1.1 hj; omega
              simp [this]
            have e2 : (List.range' (i + 1) n).countP (fun j => decide (j ∉ i :: fs) && (decide (j = i) || keep j)) =
                (List.range' (i + 1) n).countP (fun j => decide (j ∉ fs) && keep j) := by
              apply List.countP_congr
              intro j hj
              have : j ≠ i := by have := List.mem_range'_1.1 hj; omega
              simp [this]
            rw [e1, e2]
            exact this
      · have hif : i < f := by have := hP f (by simp); omega
        have hni : i ∉ f :: fs := by
          intro hc
          rcases List.mem_cons.1 hc with h | h
          · exact hf h
          · have := hsort'.1 i h; omega
        have hst := inv98_step h0 h1 hr hinv hso (by omega)
        have hP' : ∀ g ∈ f :: fs, i + 1 ≤ g ∧ g < i + 1 + ps.length := by
          intro g hg
          have := hP g hg
          have : g ≠ i := fun h => hni (h ▸ hg)
          omega
        have hl' : ps ≠ [] → i + 1 + ps.length - 1 ∈ f :: fs := by
          intro _
          have hl := hlast (by simp)
          have e : i + 1 + ps.length - 1 = i + (ps.length + 1) - 1 := by omega
          rw [e]; exact hl
        by_cases hc : toF32 (toF32 s / toF32 (o + 1 : Nat)) < rate
        · obtain ⟨keep, hk, hkP, hkn⟩ := ih (i + 1) (f :: fs) (o + 1) (s + 1) hsort hP' hl' (hst.1 hc)
            (by omega) (by omega)
          refine ⟨fun j => decide (j = i) || keep j, ?_, ?_, ?_⟩
          · rw [planeLoop, if_neg hf, if_pos hc, hk]
            simp only [Outcome.bind_ok, Outcome.pure_eq, List.zipIdx_cons, List.filter_cons, decide_true, Bool.true_or,
              if_true, List.map_cons, Outcome.ok.injEq, List.cons.injEq, true_and]
            congr 1
            apply List.filter_congr
            rintro ⟨q, j⟩ hj
            have := (List.mem_zipIdx hj).1
            have hji : j ≠ i := by omega
            simp [hji]
          · intro g hg
            simp [hkP g hg]
          · intro n hn
            cases n with
            | zero => simpa using hinv
            | succ n =>
              have := hkn n (by omega)
              rw [List.range'_succ, List.countP_cons_of_pos (by simpa using hni), List.countP_cons_of_pos (by simpa using hni)]
              have e2 : (List.range' (i + 1) n).countP (fun j => decide (j ∉ f :: fs) && (decide (j = i) || keep j)) =
                  (List.range' (i + 1) n).countP (fun j => decide (j ∉ f :: fs) && keep j) := by
                apply List.countP_congr
                intro j hj
                have : j ≠ i := by have := List.mem_range'_1.1 hj; omega
                simp [this]
              rw [e2]
              convert this using 1 <;> omega
        · obtain ⟨keep, hk, hkP, hkn⟩ := ih (i + 1) (f :: fs) (o + 1) s hsort hP' hl' (hst.2 hc)
            (by omega) (by omega)
          refine ⟨fun j => decide (j ≠ i) && keep j, ?_, ?_, ?_⟩
          · rw [planeLoop, if_neg hf, if_neg hc, hk]
            simp only [List.zipIdx_cons, List.filter_cons, ne_eq, not_true_eq_false, decide_false, Bool.false_and,
              Bool.false_eq_true, if_false, Outcome.ok.injEq]
            congr 1
            apply List.filter_congr
            rintro ⟨q, j⟩ hj
            have := (List.mem_zipIdx hj).1
            have hji : j ≠ i := by omega
            simp [hji]
          · intro g hg
            have : g ≠ i := fun h => hni (h ▸ hg)
            simp [hkP g hg, this]
          · intro n hn
            cases n with
            | zero => simpa using hinv
            | succ n =>
              have := hkn n (by omega)
              rw [List.range'_succ, List.countP_cons_of_pos (by simpa using hni), List.countP_cons_of_neg (by simp)]
              have e2 : (List.range' (i + 1) n).countP (fun j => decide (j ∉ f :: fs) && (decide (j ≠ i) && keep j)) =
                  (List.range' (i + 1) n).countP (fun j => decide (j ∉ f :: fs) && keep j) := by
                apply List.countP_congr
                intro j hj
                have : j ≠ i := by have := List.mem_range'_1.1 hj; omega
                simp [this]
              rw [e2]
              have a1 : ∀ a b : Nat, a + (b + 1) = a + 1 + b := by omega
              rw [a1]
              exact this

theorem planeLoop_ub {rate : Rat} :
    ∀ (ps : List (Vec3 Rat)) (i : Nat) (P : List Nat) (o s : Nat), P.Pairwise (· < ·) →
      (∀ f ∈ P, i ≤ f ∧ f < i + ps.length) → ps ≠ [] → i + ps.length - 1 ∉ P →
      planeLoop rate i ps P o s = .ub := by
  intro ps
  induction ps with
  | nil => intro i P o s _ _ h; exact absurd rfl h
  | cons p ps ih =>
    intro i P o s hsort hP _ hlast
    simp only [List.length_cons] at hP hlast
    cases P with
    | nil => rfl
    | cons f fs =>
      have hsort' := List.pairwise_cons.1 hsort
      have hne : ps ≠ [] := by
        intro hc
        subst hc
        have := hP f (by simp)
        apply hlast
        have e : i + (([] : List (Vec3 Rat)).length + 1) - 1 = f := by simp at this ⊢; omega
        rw [e]; simp
      have e : i + 1 + ps.length - 1 = i + (ps.length + 1) - 1 := by omega
      rw [planeLoop]
      by_cases hf : i = f
      · subst hf
        rw [if_pos rfl, ih (i + 1) fs o s hsort'.2
          (fun g hg => by have := hsort'.1 g hg; have := hP g (by simp [hg]); omega) hne
          (fun hc => hlast (List.mem_cons_of_mem _ (e ▸ hc)))]
        rfl
      · have hni : ∀ g ∈ f :: fs, g ≠ i := by
          intro g hg hgi
          subst hgi
          rcases List.mem_cons.1 hg with h | h
          · exact hf h
          · have := hsort'.1 _ h; have := hP f (by simp); omega
        have hP' : ∀ g ∈ f :: fs, i + 1 ≤ g ∧ g < i + 1 + ps.length := by
          intro g hg
          have := hP g hg
          have := hni g hg
          omega
        rw [if_neg hf]
        split
        · rw [ih (i + 1) (f :: fs) (o + 1) (s + 1) hsort hP' hne (by rw [e]; exact hlast)]
          rfl
        · rw [ih (i + 1) (f :: fs) (o + 1) s hsort hP' hne (by rw [e]; exact hlast)]

/-! ### the map of voxels -/

theorem planeKeyLt_irrefl (k : PlaneKey) : planeKeyLt k k = false := by
  unfold planeKeyLt; rw [decide_eq_false_iff_not]; omega

theorem planeKeyLt_trans {a b c : PlaneKey} (h1 : planeKeyLt a b = true) (h2 : planeKeyLt b c = true) :
    planeKeyLt a c = true := by
  unfold planeKeyLt at *
  rw [decide_eq_true_eq] at *
  omega

theorem planeKeyLt_total {a b : PlaneKey} (h1 : planeKeyLt a b = false) (h2 : a ≠ b) :
    planeKeyLt b a = true := by
  obtain ⟨a1, a2, a3⟩ := a
  obtain ⟨b1, b2, b3⟩ := b
  unfold planeKeyLt at *
  rw [decide_eq_true_eq]
  rw [decide_eq_false_iff_not] at h1
  have : ¬ (a1 = b1 ∧ a2 = b2 ∧ a3 = b3) := by
    rintro ⟨rfl, rfl, rfl⟩; exact h2 rfl
  dsimp only at *
  omega

/-- Keys in order. -/
def KeysUp (m : List (PlaneKey × List Nat)) : Prop := m.Pairwise fun a b => planeKeyLt a.1 b.1 = true

theorem planePush_mem (k : PlaneKey) (i : Nat) (m : List (PlaneKey × List Nat)) (hm : KeysUp m) :
    KeysUp (planePush k i m) ∧ ∀ k' l', (k', l') ∈ planePush k i m ↔
      (k' ≠ k ∧ (k', l') ∈ m) ∨
      (k' = k ∧ ((∃ l, (k, l) ∈ m ∧ l' = l ++ [i]) ∨ ((∀ l, (k, l) ∉ m) ∧ l' = [i]))) := by
  induction m with
  | nil =>
    refine ⟨by simp [planePush, KeysUp], ?_⟩
    intro k' l'
    simp [planePush]
  | cons e r ih =>
    obtain ⟨h1, h2⟩ := List.pairwise_cons.1 hm
    obtain ⟨ihs, ihm⟩ := ih h2
    rw [planePush]
    split
    · rename_i hlt
      have hno : ∀ l, (k, l) ∉ e :: r := by
        intro l hl
        rcases List.mem_cons.1 hl with h | h
        · rw [← h] at hlt; simp [planeKeyLt_irrefl] at hlt
        · have := planeKeyLt_trans hlt (h1 _ h)
          simp [planeKeyLt_irrefl] at this
      refine ⟨?_, ?_⟩
      · refine List.pairwise_cons.2 ⟨?_, hm⟩
        intro b hb
        rcases List.mem_cons.1 hb with rfl | h
        · exact hlt
        · exact planeKeyLt_trans hlt (h1 _ h)
      · intro k' l'
        rw [List.mem_cons]
        constructor
        · rintro (h | h)
          · cases h
            exact Or.inr ⟨rfl, Or.inr ⟨hno, rfl⟩⟩
          · refine Or.inl ⟨?_, h⟩
            rintro rfl
            exact hno _ h
        · rintro (⟨_, h⟩ | ⟨rfl, ⟨l, hl, _⟩ | ⟨_, rfl⟩⟩)
          · exact Or.inr h
          · exact absurd hl (hno l)
          · exact Or.inl rfl
    · rename_i hlt
      split
      · rename_i hk
        have hno : ∀ l, (k, l) ∉ r := by
          intro l hl
          have := h1 _ hl
          rw [← hk] at this
          simp [planeKeyLt_irrefl] at this
        refine ⟨List.pairwise_cons.2 ⟨h1, h2⟩, ?_⟩
        intro k' l'
        rw [List.mem_cons, ← hk]
        constructor
        · rintro (h | h)
          · cases h
            exact Or.inr ⟨rfl, Or.inl ⟨e.2, by rw [hk]; simp, rfl⟩⟩
          · refine Or.inl ⟨?_, by simp [h]⟩
            rintro rfl
            exact hno _ h
        · rintro (⟨hne, h⟩ | ⟨rfl, ⟨l, hl, rfl⟩ | ⟨h, _⟩⟩)
          · rcases List.mem_cons.1 h with h | h
            · exact absurd (by rw [hk, ← h]) hne
            · exact Or.inr h
          · rcases List.mem_cons.1 hl with h | h
            · exact Or.inl (by rw [← h])
            · exact absurd h (hno l)
          · exact absurd (by rw [hk]; simp) (h e.2)
      · rename_i hk
        have hek : planeKeyLt e.1 k = true := planeKeyLt_total (by simpa using hlt) hk
        refine ⟨List.pairwise_cons.2 ⟨?_, ihs⟩, ?_⟩
        · rintro ⟨k', l'⟩ hb
          rcases (ihm k' l').1 hb with ⟨_, h⟩ | ⟨rfl, _⟩
          · exact h1 _ h
          · exact hek
        · intro k' l'
          rw [List.mem_cons, ihm]
          constructor
          · rintro (h | ⟨hne, h⟩ | ⟨rfl, ⟨l, hl, rfl⟩ | ⟨h, rfl⟩⟩)
            · refine Or.inl ⟨?_, by simp [h]⟩
              rintro rfl
              exact hk (by rw [← h])
            · exact Or.inl ⟨hne, by simp [h]⟩
            · exact Or.inr ⟨rfl, Or.inl ⟨l, by simp [hl], rfl⟩⟩
            · refine Or.inr ⟨rfl, Or.inr ⟨?_, rfl⟩⟩
              intro l hl
              rcases List.mem_cons.1 hl with h' | h'
              · exact hk (by rw [← h'])
              · exact h l h'
          · rintro (⟨hne, h⟩ | ⟨rfl, ⟨l, hl, rfl⟩ | ⟨h, rfl⟩⟩)
            · rcases List.mem_cons.1 h with h | h
              · exact Or.inl h
              · exact Or.inr (Or.inl ⟨hne, h⟩)
            · rcases List.mem_cons.1 hl with h | h
              · exact absurd (by rw [← h]) hk
              · exact Or.inr (Or.inr ⟨rfl, Or.inl ⟨l, h, rfl⟩⟩)
            · exact Or.inr (Or.inr ⟨rfl, Or.inr ⟨fun l hl => h l (by simp [hl]), rfl⟩⟩)

/-- The map holds exactly the cells of the first `n` points, each with its points. -/
def MapOf (leaf : Rat) (c : List (Vec3 Rat)) (n : Nat) (m : List (PlaneKey × List Nat)) : Prop :=
  KeysUp m ∧ (∀ k l, (k, l) ∈ m → l ≠ [] ∧ l = cellMates leaf (c.take n) k) ∧
    ∀ k, cellMates leaf (c.take n) k ≠ [] → ∃ l, (k, l) ∈ m

theorem truncInt_abs (v : Rat) : |(truncInt v : Rat)| ≤ |v| := by
  unfold truncInt
  by_cases h : 0 ≤ v
  · rw [if_pos h]
    have h0 : (0 : Rat) ≤ (⌊v⌋ : Int) := by exact_mod_cast Int.floor_nonneg.2 h
    rw [abs_of_nonneg h, abs_of_nonneg h0]
    exact Int.floor_le v
  · rw [if_neg h]
    have hv := le_of_lt (not_le.1 h)
    have h0 : ⌈v⌉ ≤ (0 : Int) := by
      rw [Int.ceil_le]; exact_mod_cast hv
    have h0' : ((⌈v⌉ : Int) : Rat) ≤ 0 := by exact_mod_cast h0
    rw [abs_of_nonpos hv, abs_of_nonpos h0']
    linarith [Int.le_ceil v]

theorem planeIndex_ok {leaf v : Rat} (hl : leaf ≠ 0) (h : |toF32 (v / leaf)| < 2147483648) :
    planeIndex leaf v = .ok (truncInt (toF32 (v / leaf))) := by
  unfold planeIndex
  rw [if_neg hl]
  dsimp only
  have h1 := truncInt_abs (toF32 (v / leaf))
  have h2 : |(truncInt (toF32 (v / leaf)) : Rat)| < 2147483648 := lt_of_le_of_lt h1 h
  rw [abs_lt] at h2
  have h3 : -2147483648 < truncInt (toF32 (v / leaf)) := by exact_mod_cast h2.1
  have h4 : truncInt (toF32 (v / leaf)) < 2147483648 := by exact_mod_cast h2.2
  rw [if_pos ⟨by omega, by omega⟩]

theorem cellMates_take_succ (leaf : Rat) (c : List (Vec3 Rat)) (n : Nat) (p : Vec3 Rat) (hp : c[n]? = some p)
    (k : PlaneKey) : cellMates leaf (c.take (n + 1)) k =
      if planeCell leaf p = k then cellMates leaf (c.take n) k ++ [n] else cellMates leaf (c.take n) k := by
  have hn : n < c.length := by
    rw [List.getElem?_eq_some_iff] at hp; exact hp.1
  unfold cellMates
  have h1 : (c.take (n + 1)).length = n + 1 := by simp; omega
  have h2 : (c.take n).length = n := by simp; omega
  rw [h1, h2, List.range_succ, List.filter_append]
  have e1 : (List.range n).filter (fun i => decide ((c.take (n + 1))[i]?.map (planeCell leaf) = some k)) =
      (List.range n).filter (fun i => decide ((c.take n)[i]?.map (planeCell leaf) = some k)) := by
    apply List.filter_congr
    intro i hi
    have hi' := List.mem_range.1 hi
    rw [List.getElem?_take_of_lt (by omega), List.getElem?_take_of_lt hi']
  rw [e1]
  have e2 : (c.take (n + 1))[n]? = some p := by rw [List.getElem?_take_of_lt (by omega), hp]
  by_cases hk : planeCell leaf p = k
  · rw [if_pos hk]
    simp only [List.filter_cons, e2, Option.map_some, hk, decide_true, if_true, List.filter_nil]
  · rw [if_neg hk]
    simp [e2, hk]

theorem planeInsert_spec (leaf : Rat) (c : List (Vec3 Rat)) (hr : CellsInReach leaf c) :
    ∀ (ps : List (Vec3 Rat)) (n : Nat) (m : List (PlaneKey × List Nat)), c.drop n = ps → MapOf leaf c n m →
      ∃ m', planeInsert leaf n ps m = .ok m' ∧ MapOf leaf c c.length m' := by
  intro ps
  induction ps with
  | nil =>
    intro n m hd hm
    refine ⟨m, rfl, ?_⟩
    have hn : c.length ≤ n := by simpa using hd
    have : c.take c.length = c.take n := by rw [List.take_of_length_le hn, List.take_length]
    unfold MapOf at *
    rw [this]; exact hm
  | cons p ps ih =>
    intro n m hd hm
    have hp : c[n]? = some p := by
      have := congrArg List.head? hd
      rw [List.head?_drop] at this
      simpa using this
    have hd' : c.drop (n + 1) = ps := by
      rw [← List.drop_drop, hd]; rfl
    have hmem : p ∈ c := List.mem_of_getElem? hp
    obtain ⟨_, hv⟩ := hr.2 p hmem
    rw [planeInsert, planeIndex_ok hr.1 (hv _ (Or.inl rfl)), planeIndex_ok hr.1 (hv _ (Or.inr (Or.inl rfl))),
      planeIndex_ok hr.1 (hv _ (Or.inr (Or.inr rfl)))]
    simp only [Outcome.bind_ok]
    refine ih (n + 1) _ hd' ?_
    obtain ⟨hu, hm1, hm2⟩ := hm
    obtain ⟨hu', hmm⟩ := planePush_mem (planeCell leaf p) n m hu
    refine ⟨hu', ?_, ?_⟩
    · intro k l hkl
      rw [cellMates_take_succ leaf c n p hp k]
      rcases (hmm k l).1 hkl with ⟨hne, h⟩ | ⟨rfl, ⟨l0, h, rfl⟩ | ⟨h, rfl⟩⟩
      · rw [if_neg (fun h => hne h.symm)]
        exact hm1 k l h
      · rw [if_pos rfl, ← (hm1 _ _ h).2]
        exact ⟨by simp, rfl⟩
      · rw [if_pos rfl]
        have : cellMates leaf (c.take n) (planeCell leaf p) = [] := by
          by_contra hc
          obtain ⟨l, hl⟩ := hm2 _ hc
          exact h l hl
        rw [this]
        exact ⟨by simp, rfl⟩
    · intro k hk
      rw [cellMates_take_succ leaf c n p hp k] at hk
      by_cases hpk : planeCell leaf p = k
      · subst hpk
        by_cases hex : ∃ l, (planeCell leaf p, l) ∈ m
        · obtain ⟨l, hl⟩ := hex
          exact ⟨l ++ [n], (hmm _ _).2 (Or.inr ⟨rfl, Or.inl ⟨l, hl, rfl⟩⟩)⟩
        · exact ⟨[n], (hmm _ _).2 (Or.inr ⟨rfl, Or.inr ⟨fun l hl => hex ⟨l, hl⟩, rfl⟩⟩)⟩
      · rw [if_neg hpk] at hk
        obtain ⟨l, hl⟩ := hm2 k hk
        exact ⟨l, (hmm _ _).2 (Or.inl ⟨fun h => hpk h.symm, hl⟩)⟩

/-! ### one voxel -/

theorem mem_cellMates {leaf : Rat} {c : List (Vec3 Rat)} {k : PlaneKey} {i : Nat} :
    i ∈ cellMates leaf c k ↔ ∃ p, c[i]? = some p ∧ planeCell leaf p = k := by
  unfold cellMates
  rw [List.mem_filter, List.mem_range]
  constructor
  · rintro ⟨hi, h⟩
    rw [List.getElem?_eq_getElem hi] at h ⊢
    exact ⟨_, rfl, by simpa using h⟩
  · rintro ⟨p, hp, hk⟩
    refine ⟨(List.getElem?_eq_some_iff.1 hp).1, ?_⟩
    rw [hp]
    simpa using hk

theorem cellMates_nodup (leaf : Rat) (c : List (Vec3 Rat)) (k : PlaneKey) : (cellMates leaf c k).Nodup :=
  List.nodup_range.filter _

theorem planePoints_ok (c : List (Vec3 Rat)) (is : List Nat) (h : ∀ i ∈ is, i < c.length) :
    planePoints c is = .ok (pointsAt c is) ∧ (pointsAt c is).length = is.length := by
  induction is with
  | nil => exact ⟨rfl, rfl⟩
  | cons i is ih =>
    obtain ⟨h1, h2⟩ := ih (fun j hj => h j (by simp [hj]))
    have hi := h i (by simp)
    rw [planePoints, planePoint, List.getElem?_eq_getElem hi, h1]
    unfold pointsAt at *
    rw [List.filterMap_cons, List.getElem?_eq_getElem hi]
    exact ⟨rfl, by simp [h2]⟩

theorem planeZRange_spec (ps : List (Vec3 Rat)) : ∀ hi lo : Rat,
    let r := planeZRange hi lo ps
    hi ≤ r.1 ∧ r.2 ≤ lo ∧ (∀ p ∈ ps, p.z ≤ r.1 ∧ r.2 ≤ p.z) ∧
      (r.1 = hi ∨ ∃ p ∈ ps, r.1 = p.z) ∧ (r.2 = lo ∨ ∃ p ∈ ps, r.2 = p.z) := by
  induction ps with
  | nil => intro hi lo; exact ⟨le_refl _, le_refl _, by simp, Or.inl rfl, Or.inl rfl⟩
  | cons p ps ih =>
    intro hi lo
    dsimp only
    rw [planeZRange]
    obtain ⟨h1, h2, h3, h4, h5⟩ := ih (if hi < p.z then p.z else hi) (if p.z < lo then p.z else lo)
    have a1 : hi ≤ (if hi < p.z then p.z else hi) ∧ p.z ≤ (if hi < p.z then p.z else hi) := by
      split <;> constructor <;> linarith
    have a2 : (if p.z < lo then p.z else lo) ≤ lo ∧ (if p.z < lo then p.z else lo) ≤ p.z := by
      split <;> constructor <;> linarith
    refine ⟨a1.1.trans h1, h2.trans a2.1, ?_, ?_, ?_⟩
    · intro q hq
      rcases List.mem_cons.1 hq with rfl | hq
      · exact ⟨a1.2.trans h1, h2.trans a2.2⟩
      · exact h3 q hq
    · rcases h4 with h | ⟨q, hq, h⟩
      · rw [h]
        split
        · exact Or.inr ⟨p, by simp, rfl⟩
        · exact Or.inl rfl
      · exact Or.inr ⟨q, by simp [hq], h⟩
    · rcases h5 with h | ⟨q, hq, h⟩
      · rw [h]
        split
        · exact Or.inr ⟨p, by simp, rfl⟩
        · exact Or.inl rfl
      · exact Or.inr ⟨q, by simp [hq], h⟩

/-- The test of line 122 is that no two heights differ by more than the threshold. -/
theorem flat_iff (ps : List (Vec3 Rat)) (hne : ps ≠ []) (hz : ∀ p ∈ ps, |p.z| ≤ 10 ^ 9) (thr : Rat) :
    (0 ≤ toF32 ((planeZRange (-1000000000) 1000000000 ps).1 - (planeZRange (-1000000000) 1000000000 ps).2) ∧
      toF32 ((planeZRange (-1000000000) 1000000000 ps).1 - (planeZRange (-1000000000) 1000000000 ps).2) ≤ thr) ↔
    ∀ a ∈ ps, ∀ b ∈ ps, toF32 (a.z - b.z) ≤ thr := by
  obtain ⟨h1, h2, h3, h4, h5⟩ := planeZRange_spec ps (-1000000000) 1000000000
  generalize hr : planeZRange (-1000000000) 1000000000 ps = r at *
  have hq : ∃ q, q ∈ ps := List.exists_mem_of_ne_nil ps hne
  obtain ⟨q, hq⟩ := hq
  have hqz := abs_le.1 (hz q hq)
  have hq3 := h3 q hq
  have hmax : ∃ a ∈ ps, r.1 = a.z := by
    rcases h4 with h | h
    · exact ⟨q, hq, by rw [h] at hq3 ⊢; norm_num at hqz; linarith [hq3.1, hqz.1]⟩
    · exact h
  have hmin : ∃ b ∈ ps, r.2 = b.z := by
    rcases h5 with h | h
    · exact ⟨q, hq, by rw [h] at hq3 ⊢; norm_num at hqz; linarith [hq3.2, hqz.2]⟩
    · exact h
  obtain ⟨a, ha, hra⟩ := hmax
  obtain ⟨b, hb, hrb⟩ := hmin
  constructor
  · rintro ⟨_, h⟩ x hx y hy
    exact (toF32_mono (by linarith [(h3 x hx).1, (h3 y hy).2])).trans h
  · intro h
    refine ⟨toF32_nonneg (by linarith [hq3.1, hq3.2]), ?_⟩
    rw [hra, hrb]
    exact h a ha b hb

theorem planePick_ok (l js : List Nat) (h : ∀ j ∈ js, j < l.length) (hn : js.Nodup) (hl : l.Nodup) :
    ∃ r, planePick l js = .ok r ∧ r.Nodup ∧ ∀ i, i ∈ r ↔ ∃ j ∈ js, l[j]? = some i := by
  induction js with
  | nil => exact ⟨[], rfl, by simp, by simp⟩
  | cons j js ih =>
    obtain ⟨r, h1, h2, h3⟩ := ih (fun j hj => h j (by simp [hj])) (List.nodup_cons.1 hn).2
    have hj := h j (by simp)
    refine ⟨l[j] :: r, ?_, ?_, ?_⟩
    · rw [planePick, List.getElem?_eq_getElem hj]
      dsimp only
      rw [h1]; rfl
    · refine List.nodup_cons.2 ⟨?_, h2⟩
      intro hc
      obtain ⟨j', hj', he⟩ := (h3 _).1 hc
      have := h j' (by simp [hj'])
      rw [List.getElem?_eq_getElem this, Option.some.injEq, hl.getElem_inj_iff] at he
      subst he
      exact (List.nodup_cons.1 hn).1 hj'
    · intro i
      rw [List.mem_cons, h3]
      constructor
      · rintro (rfl | ⟨j', hj', he⟩)
        · exact ⟨j, by simp, List.getElem?_eq_getElem hj⟩
        · exact ⟨j', by simp [hj'], he⟩
      · rintro ⟨j', hj', he⟩
        rcases List.mem_cons.1 hj' with rfl | hj'
        · rw [List.getElem?_eq_getElem hj] at he
          exact Or.inl (Option.some.inj he).symm
        · exact Or.inr ⟨j', hj', he⟩

theorem planeVoxel_spec {seg : List (Vec3 Rat) → List Nat} (hseg : Segmentation seg) {leaf : Rat}
    {c : List (Vec3 Rat)} (hr : CellsInReach leaf c) (minPoints : Nat) {thr : Rat} (hthr : thr < leaf) (k : PlaneKey)
    (hne : cellMates leaf c k ≠ []) :
    ∃ r, planeVoxel seg c minPoints thr (k, cellMates leaf c k) = .ok r ∧ r.Nodup ∧
      ∀ i, i ∈ r ↔ i ∈ cellMates leaf c k ∧ onPlane seg leaf minPoints thr c i = true := by
  have hlt : ∀ i ∈ cellMates leaf c k, i < c.length := by
    intro i hi
    obtain ⟨p, hp, _⟩ := mem_cellMates.1 hi
    exact (List.getElem?_eq_some_iff.1 hp).1
  obtain ⟨hpts, hlen⟩ := planePoints_ok c (cellMates leaf c k) hlt
  have hz : ∀ p ∈ pointsAt c (cellMates leaf c k), |p.z| ≤ 10 ^ 9 := by
    intro p hp
    obtain ⟨i, _, hi⟩ := List.mem_filterMap.1 hp
    exact (hr.2 p (List.mem_of_getElem? hi)).1
  have hpne : pointsAt c (cellMates leaf c k) ≠ [] := by
    intro hc
    rw [hc] at hlen
    exact hne (List.length_eq_zero_iff.1 hlen.symm)
  have hon : ∀ i ∈ cellMates leaf c k, onPlane seg leaf minPoints thr c i = true ↔
      (minPoints ≤ (cellMates leaf c k).length ∧
      ((k.2.2 ≤ 0 ∧ ∀ a ∈ pointsAt c (cellMates leaf c k), ∀ b ∈ pointsAt c (cellMates leaf c k),
          toF32 (a.z - b.z) ≤ thr) ∨
       (0 < k.2.2 ∧ minPoints * 2 ≤ (cellMates leaf c k).length ∧
        toF64 (85 / 100) < toF32 (toF32 (seg (pointsAt c (cellMates leaf c k))).length /
          toF32 (cellMates leaf c k).length) ∧
        ∃ j ∈ seg (pointsAt c (cellMates leaf c k)), (cellMates leaf c k)[j]? = some i))) := by
    intro i hi
    obtain ⟨p, hp, hk⟩ := mem_cellMates.1 hi
    unfold onPlane
    rw [hp]
    dsimp only
    rw [hk, decide_eq_true_eq]
    exact ⟨fun h => h.2, fun h => ⟨hthr, h⟩⟩
  unfold planeVoxel
  dsimp only
  by_cases h1 : (cellMates leaf c k).length < minPoints
  · rw [if_pos h1]
    refine ⟨[], rfl, by simp, ?_⟩
    intro i
    simp only [List.not_mem_nil, false_iff, not_and]
    intro hi h
    have := ((hon i hi).1 h).1
    omega
  · rw [if_neg h1]
    by_cases h2 : k.2.2 ≤ 0
    · rw [if_pos h2, hpts]
      simp only [Outcome.bind_ok]
      by_cases h3 : ∀ a ∈ pointsAt c (cellMates leaf c k), ∀ b ∈ pointsAt c (cellMates leaf c k),
          toF32 (a.z - b.z) ≤ thr
      · rw [if_pos ((flat_iff _ hpne hz thr).2 h3)]
        refine ⟨_, rfl, cellMates_nodup _ _ _, ?_⟩
        intro i
        constructor
        · intro hi; exact ⟨hi, (hon i hi).2 ⟨by omega, Or.inl ⟨h2, h3⟩⟩⟩
        · exact fun h => h.1
      · rw [if_neg (fun h => h3 ((flat_iff _ hpne hz thr).1 h))]
        refine ⟨[], rfl, by simp, ?_⟩
        intro i
        simp only [List.not_mem_nil, false_iff, not_and]
        intro hi h
        rcases ((hon i hi).1 h).2 with h | h
        · exact h3 h.2
        · omega
    · rw [if_neg h2]
      by_cases h3 : (cellMates leaf c k).length < minPoints * 2
      · rw [if_pos h3]
        refine ⟨[], rfl, by simp, ?_⟩
        intro i
        simp only [List.not_mem_nil, false_iff, not_and]
        intro hi h
        rcases ((hon i hi).1 h).2 with h | h
        · omega
        · omega
      · rw [if_neg h3, hpts]
        simp only [Outcome.bind_ok]
        split
        · rename_i h4
          obtain ⟨hsn, hsl⟩ := hseg (pointsAt c (cellMates leaf c k))
          obtain ⟨r, hr1, hr2, hr3⟩ := planePick_ok (cellMates leaf c k) (seg (pointsAt c (cellMates leaf c k)))
            (fun j hj => by rw [← hlen]; exact hsl j hj) hsn (cellMates_nodup _ _ _)
          refine ⟨r, hr1, hr2, ?_⟩
          intro i
          rw [hr3]
          constructor
          · rintro ⟨j, hj, he⟩
            have hi : i ∈ cellMates leaf c k := List.mem_of_getElem? he
            exact ⟨hi, (hon i hi).2 ⟨by omega, Or.inr ⟨by omega, by omega, h4, j, hj, he⟩⟩⟩
          · rintro ⟨hi, h⟩
            rcases ((hon i hi).1 h).2 with h | h
            · omega
            · exact h.2.2.2
        · rename_i h4
          refine ⟨[], rfl, by simp, ?_⟩
          intro i
          simp only [List.not_mem_nil, false_iff, not_and]
          intro hi h
          rcases ((hon i hi).1 h).2 with h | h
          · omega
          · exact h4 h.2.2.1

theorem planeVoxels_spec {seg : List (Vec3 Rat) → List Nat} (hseg : Segmentation seg) {leaf : Rat}
    {c : List (Vec3 Rat)} (hr : CellsInReach leaf c) (minPoints : Nat) {thr : Rat} (hthr : thr < leaf)
    (m : List (PlaneKey × List Nat)) (hu : KeysUp m)
    (hm : ∀ k l, (k, l) ∈ m → l ≠ [] ∧ l = cellMates leaf c k) :
    ∃ r, planeVoxels seg c minPoints thr m = .ok r ∧ r.Nodup ∧
      ∀ i, i ∈ r ↔ (∃ k l, (k, l) ∈ m ∧ i ∈ l) ∧ onPlane seg leaf minPoints thr c i = true := by
  induction m with
  | nil => exact ⟨[], rfl, by simp, by simp⟩
  | cons e m ih =>
    obtain ⟨k, l⟩ := e
    obtain ⟨hne, hl⟩ := hm k l (by simp)
    obtain ⟨h1, h2⟩ := List.pairwise_cons.1 hu
    obtain ⟨b, hb1, hb2, hb3⟩ := ih h2 (fun k l h => hm k l (by simp [h]))
    obtain ⟨a, ha1, ha2, ha3⟩ := planeVoxel_spec hseg hr minPoints hthr k (hl ▸ hne)
    subst hl
    refine ⟨a ++ b, ?_, ?_, ?_⟩
    · rw [planeVoxels, ha1, hb1]; rfl
    · refine List.nodup_append'.2 ⟨ha2, hb2, ?_⟩
      intro i hia hib
      obtain ⟨p, hp, hpk⟩ := mem_cellMates.1 ((ha3 i).1 hia).1
      obtain ⟨⟨k', l', hkl, hil⟩, _⟩ := (hb3 i).1 hib
      rw [(hm k' l' (by simp [hkl])).2] at hil
      obtain ⟨p', hp', hpk'⟩ := mem_cellMates.1 hil
      rw [hp] at hp'
      cases hp'
      have := h1 _ hkl
      rw [← hpk, ← hpk'] at this
      simp [planeKeyLt_irrefl] at this
    · intro i
      rw [List.mem_append, ha3, hb3]
      constructor
      · rintro (⟨h, ho⟩ | ⟨⟨k', l', hkl, hil⟩, ho⟩)
        · exact ⟨⟨k, _, by simp, h⟩, ho⟩
        · exact ⟨⟨k', l', by simp [hkl], hil⟩, ho⟩
      · rintro ⟨⟨k', l', hkl, hil⟩, ho⟩
        rcases List.mem_cons.1 hkl with h | h
        · cases h; exact Or.inl ⟨hil, ho⟩
        · exact Or.inr ⟨⟨k', l', h, hil⟩, ho⟩

/-- On a fresh detector the indices found are those of the plane points, each once. -/
theorem detect_fresh {seg : List (Vec3 Rat) → List Nat} (hseg : Segmentation seg) (d : PlaneDetector)
    (hd : d.voxels = []) (c : List (Vec3 Rat)) (hne : c ≠ []) (hr : CellsInReach d.leaf c) (thr : Rat) :
    ∃ d' r, d.setInput (some c) = .ok d' ∧ d'.detect seg thr = .ok r ∧ r.Nodup ∧
      ∀ i, i ∈ r ↔ i < c.length ∧ onPlane seg d.leaf d.minPoints thr c i = true := by
  have hm0 : MapOf d.leaf c 0 [] := by
    refine ⟨List.Pairwise.nil, by simp, ?_⟩
    intro k hk
    simp [cellMates] at hk
  obtain ⟨m, hi, hu, hm1, hm2⟩ := planeInsert_spec d.leaf c hr c 0 [] rfl hm0
  rw [List.take_length] at hm1 hm2
  refine ⟨{ d with cloud := some c, voxels := m }, ?_⟩
  have hs : d.setInput (some c) = .ok { d with cloud := some c, voxels := m } := by
    cases c with
    | nil => exact absurd rfl hne
    | cons p ps => unfold PlaneDetector.setInput; dsimp only; rw [hd, hi]; rfl
  by_cases hthr : thr < d.leaf
  · obtain ⟨r, h1, h2, h3⟩ := planeVoxels_spec hseg hr d.minPoints hthr m hu hm1
    refine ⟨r, hs, ?_, h2, ?_⟩
    · unfold PlaneDetector.detect
      dsimp only
      have hme : ¬ m.isEmpty = true := by
        intro hc
        rw [List.isEmpty_iff] at hc
        obtain ⟨p, hp⟩ := List.exists_mem_of_ne_nil c hne
        obtain ⟨i, hi⟩ := List.mem_iff_getElem?.1 hp
        obtain ⟨l, hl⟩ := hm2 (planeCell d.leaf p) (List.ne_nil_of_mem (mem_cellMates.2 ⟨p, hi, rfl⟩))
        rw [hc] at hl
        simp at hl
      rw [if_neg hme, if_neg (not_le.2 hthr)]
      exact h1
    · intro i
      rw [h3]
      constructor
      · rintro ⟨⟨k, l, hkl, hil⟩, ho⟩
        rw [(hm1 k l hkl).2] at hil
        obtain ⟨p, hp, _⟩ := mem_cellMates.1 hil
        exact ⟨(List.getElem?_eq_some_iff.1 hp).1, ho⟩
      · rintro ⟨hi, ho⟩
        have hmem : i ∈ cellMates d.leaf c (planeCell d.leaf c[i]) :=
          mem_cellMates.2 ⟨c[i], List.getElem?_eq_getElem hi, rfl⟩
        obtain ⟨l, hl⟩ := hm2 (planeCell d.leaf c[i]) (List.ne_nil_of_mem hmem)
        refine ⟨⟨_, l, hl, ?_⟩, ho⟩
        rw [(hm1 _ l hl).2]
        exact hmem
  · refine ⟨[], hs, ?_, by simp, ?_⟩
    · unfold PlaneDetector.detect
      dsimp only
      rw [if_pos (not_lt.1 hthr), ite_self]
    · intro i
      simp only [List.not_mem_nil, false_iff, not_and]
      intro hi ho
      unfold onPlane at ho
      rw [List.getElem?_eq_getElem hi] at ho
      simp only [decide_eq_true_eq] at ho
      exact hthr ho.1

end Verif
