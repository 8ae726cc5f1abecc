import Verif.Proofs.MrvmOdds
/-!
C92: the computed probability update of the static map.
English: the table of log-odds, the addition and the way back in single precision give the same stored
index as exact arithmetic; whatever the settings, a hit never lowers a voxel's index and a miss always
lowers it until the lowest is reached.
-/
namespace Verif
open Spec

theorem margin_55 : wideMargin (55 / 100)  := by unfold wideMargin; decide +kernel
theorem margin_48 : wideMargin (48 / 100)  := by unfold wideMargin; decide +kernel
theorem margin_49 : wideMargin (49 / 100) := by unfold wideMargin; decide +kernel

/-- C92: with the probabilities of the supplied configurations (0.55, and 0.48 or 0.49) every
implementation that is accurate to 2^-19 computes the exact index. -/
theorem C92_supplied (I : OddsImpl) (miss : ℚ) (hm : miss = 48 / 100 ∨ miss = 49 / 100)
    (ha : Accurate I ((55 / 100 : ℚ) : ℝ) (miss : ℝ) (1 / 2 ^ 19)) (n : ℕ) (h1 : 25 ≤ n) (h2 : n ≤ 230) :
    I.update true n = updateProb (55 / 100) n ∧ I.update false n = updateProb miss n := by
  have hmm : (1 / 10 : ℚ) ≤ miss ∧ miss ≤ 9 / 10 := by rcases hm with h | h <;> rw [h] <;> norm_num
  refine ⟨?_, ?_⟩
  · have := update_exact ha true (by norm_num) hmm (by simpa using margin_55) n h1 h2
    simpa using this
  · have := update_exact ha false (by norm_num) hmm
      (by rcases hm with h | h <;> rw [h] <;> simp <;> first | exact margin_48 | exact margin_49) n h1 h2
    simpa using this

/-- C92: hence whole histories of hits and misses agree, and with them what is exported (C90). -/
theorem C92_history (I : OddsImpl) (miss : ℚ) (hm : miss = 48 / 100 ∨ miss = 49 / 100)
    (ha : Accurate I ((55 / 100 : ℚ) : ℝ) (miss : ℝ) (1 / 2 ^ 19)) (history : List Bool) :
    indexAfter I.update history =
      indexAfter (fun hit n => updateProb (if hit then 55 / 100 else miss) n) history := by
  unfold indexAfter
  have : ∀ (l : List Bool) (n : ℕ), 25 ≤ n → n ≤ 230 → l.foldl (fun n h => I.update h n) n =
      l.foldl (fun n h => updateProb (if h then 55 / 100 else miss) n) n := by
    intro l
    induction l with
    | nil => intros; rfl
    | cons b l ih =>
      intro n h1 h2
      have hs := C92_supplied I miss hm ha n h1 h2
      have e : I.update b n = updateProb (if b then 55 / 100 else miss) n := by
        cases b
        · simpa using hs.2
        · simpa using hs.1
      rw [List.foldl_cons, List.foldl_cons, e]
      exact ih _ (updateProb_range _ _).1 (updateProb_range _ _).2
  exact this history 128 (by norm_num) (by norm_num)

/-- C92: for all probabilities that `Initialise` lets through, the computed index stays between 25 and
230, a hit never lowers it, and a miss lowers it or leaves it at 25. -/
theorem C92_direction (I : OddsImpl) (hit miss : ℚ) (hh : 501 / 1000 ≤ hit ∧ hit ≤ 9 / 10)
    (hm : 1 / 10 ≤ miss ∧ miss ≤ 499 / 1000) (ha : Accurate I (hit : ℝ) (miss : ℝ) (1 / 2 ^ 19)) (n : ℕ)
    (h1 : 25 ≤ n) (h2 : n ≤ 230) :
    (n ≤ I.update true n ∧ I.update true n ≤ 230) ∧
    (25 ≤ I.update false n ∧ (I.update false n < n ∨ (n = 25 ∧ I.update false n = 25))) :=
  ⟨⟨update_hit_ge ha hh hm n h1 h2, (update_range ha true n).2⟩, (update_range ha false n).1,
    update_miss_lt ha hh hm n h1 h2⟩

/-- C92: hence 205 misses in a row bring a voxel to the bottom, whatever happened before. -/
theorem C92_bottom (I : OddsImpl) (hit miss : ℚ) (hh : 501 / 1000 ≤ hit ∧ hit ≤ 9 / 10)
    (hm : 1 / 10 ≤ miss ∧ miss ≤ 499 / 1000) (ha : Accurate I (hit : ℝ) (miss : ℝ) (1 / 2 ^ 19))
    (history : List Bool) : indexAfter I.update (history ++ List.replicate 205 false) = 25 := by
  have hr : ∀ l : List Bool, 25 ≤ indexAfter I.update l ∧ indexAfter I.update l ≤ 230 := by
    intro l
    rcases List.eq_nil_or_concat l with h | ⟨l', b, h⟩
    · rw [h]; unfold indexAfter; rw [List.foldl_nil]; omega
    · rw [h]; unfold indexAfter; rw [List.concat_eq_append, List.foldl_append]; exact update_range ha b _
  have : ∀ k : ℕ, indexAfter I.update (history ++ List.replicate k false) ≤ max 25 (230 - k) := by
    intro k
    induction k with
    | zero => rw [List.replicate_zero, List.append_nil]; have := (hr history).2; omega
    | succ k ih =>
      have h := hr (history ++ List.replicate k false)
      have e : indexAfter I.update (history ++ List.replicate (k + 1) false) =
          I.update false (indexAfter I.update (history ++ List.replicate k false)) := by
        unfold indexAfter
        rw [List.replicate_succ', ← List.append_assoc, List.foldl_append]; rfl
      rw [e]
      rcases update_miss_lt ha hh hm _ h.1 h.2 with h3 | ⟨-, h3⟩ <;> omega
  have h1 := this 205
  have h2 := (hr (history ++ List.replicate 205 false)).1
  omega

/-- The exact implementation. -/
noncomputable def exactOdds (hit miss : ℝ) : OddsImpl :=
  ⟨fun n => logOdds (n / 256), logOdds hit, logOdds miss, fun x y => x + y, logistic, 1 / 10, 9 / 10⟩

theorem exactOdds_accurate (hit miss : ℝ) : Accurate (exactOdds hit miss) hit miss (1 / 2 ^ 19) where
  table := fun n _ _ => by simp [exactOdds]
  hit := by simp [exactOdds]
  miss := by simp [exactOdds]
  add := fun x y _ _ => by simp [exactOdds]
  back := fun x _ => by simp [exactOdds]
  lo := by simp [exactOdds]
  hi := by simp [exactOdds]

example : (exactOdds ((55 / 100 : ℚ) : ℝ) ((48 / 100 : ℚ) : ℝ)).update true 128 = 140 := by
  rw [(C92_supplied _ (48 / 100) (Or.inl rfl) (exactOdds_accurate _ _) 128 (by norm_num) (by norm_num)).1]
  decide +kernel

/-- C92 does not extend to all probabilities: with a hit probability of 0.5625 the first hit gives exactly
144, and an accurate implementation may answer 143. -/
theorem C92_edge_fails : ∃ I : OddsImpl, Accurate I ((9 / 16 : ℚ) : ℝ) ((48 / 100 : ℚ) : ℝ) (1 / 2 ^ 19) ∧
    I.update true 128 = 143 ∧ updateProb (9 / 16) 128 = 144 := by
  have h := exactOdds_accurate ((9 / 16 : ℚ) : ℝ) ((48 / 100 : ℚ) : ℝ)
  refine ⟨{ exactOdds ((9 / 16 : ℚ) : ℝ) ((48 / 100 : ℚ) : ℝ) with back := fun x => logistic x - 1 / 2 ^ 20 },
    ⟨h.table, h.hit, h.miss, h.add, ?_, h.lo, h.hi⟩, ?_, by decide +kernel⟩
  · intro x _
    simp only [sub_sub_cancel_left, abs_neg]
    rw [abs_of_pos (by norm_num)]
    norm_num
  · have key := bayes_eq_odds (128 / 256) (9 / 16) (by norm_num) (by norm_num)
    have hb : bayes (128 / 256) (9 / 16) = 9 / 16 := by decide +kernel
    rw [hb] at key
    unfold OddsImpl.update
    simp only [if_true, exactOdds]
    have e : logistic (logOdds (((128 : ℕ) : ℝ) / 256) + logOdds ((9 / 16 : ℚ) : ℝ)) = ((9 / 16 : ℚ) : ℝ) := by
      refine Eq.trans ?_ key.symm; unfold logistic logOdds; push_cast; rfl
    rw [e]
    push_cast
    rw [clampReal_eq _ _ _ (by norm_num), min_eq_left (by norm_num), max_eq_right (by norm_num)]
    have : ⌊((9 : ℝ) / 16 - 1 / 2 ^ 20) * 256⌋ = 143 := by
      rw [Int.floor_eq_iff]; norm_num
    rw [this]; rfl

end Verif
