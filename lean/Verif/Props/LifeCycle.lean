import Verif.Spec.LifeCycle
import Mathlib.Tactic.NormNum
import Mathlib.Tactic.Ring
import Mathlib.Tactic.Linarith
import Mathlib.Tactic.FieldSimp
import Mathlib.Algebra.Order.Field.Basic
/-!
C119.  The map builder can be initialised, given clouds, ended and destroyed in any order and any number of
times: no call stops the program, is undefined or never returns.

Not so in the code; `C119_exactly_partial` says exactly which histories are safe.
-/
namespace Verif
open Spec

theorem run_clouds (s : Life) (hg : s.gone = false) (hc : s.collector = true) (m : Nat) (cs : List LifeCall) :
    s.run (List.replicate m .cloud ++ cs) =
      ({ s with kept := if s.ending then s.kept else s.kept + m } : Life).run cs := by
  obtain ⟨co, sc, su, en, go, ke⟩ := s
  dsimp only at hg hc
  subst hg hc
  induction m generalizing ke with
  | zero => cases en <;> rfl
  | succ m ih =>
    cases en
    · have := ih (ke + 1)
      simp only [Bool.false_eq_true, if_false] at this ⊢
      rw [show ke + (m + 1) = ke + 1 + m by omega, ← this]
      rfl
    · exact ih ke

/-- The three states of a builder that was initialised. -/
def Life.up (m : Nat) : Life := { collector := true, scan := .joinable, sub := true, kept := m }
def Life.down (m : Nat) : Life := { collector := true, scan := .joined, sub := false, ending := true, kept := m }

theorem run_down (m : Nat) : ∀ cs : List LifeCall, (∃ s, (Life.down m).run cs = .ok s) →
    (∀ b, .init b ∈ cs → b = false) →
    ∃ k, cs = List.replicate k .cloud ∨ cs = List.replicate k .cloud ++ [.destroy] := by
  intro cs
  induction cs with
  | nil => intro _ _; exact ⟨0, Or.inl rfl⟩
  | cons c cs ih =>
    rintro ⟨s, h⟩ hb
    cases c with
    | init seen =>
      have := hb seen (by simp)
      subst this
      cases h
    | cloud =>
      obtain ⟨k, hk⟩ := ih ⟨s, h⟩ fun b hb' => hb b (by simp [hb'])
      refine ⟨k + 1, ?_⟩
      rcases hk with rfl | rfl
      · left; rfl
      · right; rfl
    | finish => cases h
    | destroy =>
      cases cs with
      | nil => exact ⟨0, Or.inr rfl⟩
      | cons c' cs => cases h

theorem run_up : ∀ (cs : List LifeCall) (m : Nat), (∃ s, (Life.up m).run cs = .ok s) →
    (∀ b, .init b ∈ cs → b = false) →
    (∃ k, cs = List.replicate k .cloud) ∨
    ∃ j k, cs = List.replicate j .cloud ++ .finish :: List.replicate k .cloud ∨
      cs = List.replicate j .cloud ++ .finish :: List.replicate k .cloud ++ [.destroy] := by
  intro cs
  induction cs with
  | nil => intro m _ _; exact Or.inl ⟨0, rfl⟩
  | cons c cs ih =>
    rintro m ⟨s, h⟩ hb
    cases c with
    | init seen => cases h
    | cloud =>
      rcases ih (m + 1) ⟨s, h⟩ fun b hb' => hb b (by simp [hb']) with ⟨k, rfl⟩ | ⟨j, k, rfl | rfl⟩
      · exact Or.inl ⟨k + 1, rfl⟩
      · exact Or.inr ⟨j + 1, k, Or.inl rfl⟩
      · exact Or.inr ⟨j + 1, k, Or.inr rfl⟩
    | finish =>
      obtain ⟨k, hk⟩ := run_down m cs ⟨s, h⟩ fun b hb' => hb b (by simp [hb'])
      right
      refine ⟨0, k, ?_⟩
      rcases hk with rfl | rfl
      · left; rfl
      · right; rfl
    | destroy => cases h

/-- What happens to a history when the loop in `Initialise` does or does not see the new thread. -/
def lucky (b : Bool) : LifeCall → LifeCall
  | .init _ => .init b
  | c => c

/-- C119: a history of calls is safe, however the threads are scheduled, exactly if the builder is
initialised first, once, ended at most once and not destroyed before that.  Missing: all other orders
(see the `_fails` theorems). -/
theorem C119_exactly_partial (cs : List LifeCall) :
    (∀ b, ∃ s, (({} : Life).run (cs.map (lucky b))) = .ok s) ↔ ProperUse (cs.map (lucky false)) := by
  constructor
  · intro h
    obtain ⟨s, h⟩ := h false
    have hb : ∀ b, .init b ∈ cs.map (lucky false) → b = false := by
      intro b hb
      rw [List.mem_map] at hb
      obtain ⟨c, _, hc⟩ := hb
      cases c <;> simp [lucky] at hc
      exact hc
    generalize cs.map (lucky false) = l at h hb
    cases l with
    | nil => exact .unused
    | cons c l =>
      cases c with
      | init seen =>
        rcases run_up l 0 ⟨s, h⟩ fun b hb' => hb b (by simp [hb']) with ⟨k, rfl⟩ | ⟨j, k, rfl | rfl⟩
        · exact .running _ _
        · exact .ended _ _ _
        · exact .destroyed _ _ _
      | cloud => cases h
      | finish => cases h
      | destroy =>
        cases l with
        | nil => exact .thrownAway
        | cons c' l => cases h
  · intro h b
    have key : ∀ l : List LifeCall, ProperUse l → ∃ s, ({} : Life).run l = .ok s := by
      intro l hl
      cases hl with
      | unused => exact ⟨_, rfl⟩
      | thrownAway => exact ⟨_, rfl⟩
      | running seen m =>
        have := run_clouds (Life.up 0) rfl rfl m []
        rw [List.append_nil] at this
        exact ⟨_, this⟩
      | ended seen m k =>
        have := run_clouds (Life.up 0) rfl rfl m (.finish :: List.replicate k .cloud)
        have h2 := run_clouds (Life.down (0 + m)) rfl rfl k []
        rw [List.append_nil] at h2
        exact ⟨_, this.trans h2⟩
      | destroyed seen m k =>
        have := run_clouds (Life.up 0) rfl rfl m (.finish :: (List.replicate k .cloud ++ [.destroy]))
        have h2 := run_clouds (Life.down (0 + m)) rfl rfl k [.destroy]
        refine ⟨_, Eq.trans ?_ (this.trans h2)⟩
        show (Life.up 0).run _ = _
        simp [Life.up]
    have hmap : ∀ l : List LifeCall, ProperUse l → ProperUse (l.map (lucky b)) := by
      intro l hl
      have hr : ∀ m, (List.replicate m LifeCall.cloud).map (lucky b) = List.replicate m .cloud := by
        intro m; rw [List.map_replicate]; rfl
      cases hl with
      | unused => exact .unused
      | thrownAway => exact .thrownAway
      | running seen m => rw [List.map_cons, hr]; exact .running _ _
      | ended seen m k =>
        simp only [List.map_cons, List.map_append, hr]
        exact .ended _ _ _
      | destroyed seen m k =>
        simp only [List.map_cons, List.map_append, hr]
        exact .destroyed _ _ _
    have h3 := hmap _ h
    rw [List.map_map] at h3
    have e : lucky b ∘ lucky false = lucky b := by
      funext c
      cases c <;> rfl
    rw [e] at h3
    exact key _ h3

/-- Clouds between `Initialise` and `FinishAllComputations` reach the collector, later ones do not and do
no harm. -/
theorem C119_kept (seen : Bool) (m k : Nat) :
    ∃ s, ({} : Life).run (.init seen :: List.replicate m .cloud ++ .finish :: List.replicate k .cloud) = .ok s ∧
      s.kept = m := by
  have h1 := run_clouds (Life.up 0) rfl rfl m (.finish :: List.replicate k .cloud)
  have h2 := run_clouds (Life.down (0 + m)) rfl rfl k []
  rw [List.append_nil] at h2
  refine ⟨_, h1.trans h2, ?_⟩
  show 0 + m = m
  omega

/-- Ending twice stops the program. -/
theorem C119_twice_fails (seen : Bool) : ({} : Life).run [.init seen, .finish, .finish] = .abort := rfl

/-- Destroying a builder that was initialised and not ended stops the program. -/
theorem C119_destroy_fails (seen : Bool) : ({} : Life).run [.init seen, .destroy] = .abort := rfl

/-- Initialising twice stops the program. -/
theorem C119_init_fails (seen seen' : Bool) : ({} : Life).run [.init seen, .init seen'] = .abort := rfl

/-- Ending, or giving a cloud to, a builder that was not initialised is undefined. -/
theorem C119_before_fails : ({} : Life).run [.finish] = .ub ∧ ({} : Life).run [.cloud] = .ub := ⟨rfl, rfl⟩

/-- A builder that was ended cannot be used for a second run: `Initialise` may never return, and if it does,
all clouds are ignored. -/
theorem C119_again_fails (seen : Bool) (m : Nat) :
    ({} : Life).run [.init seen, .finish, .init false] = .hang ∧
    ∃ s, ({} : Life).run ([.init seen, .finish, .init true] ++ List.replicate m .cloud) = .ok s ∧ s.kept = 0 := by
  refine ⟨rfl, ?_⟩
  have := run_clouds { (Life.down 0) with scan := .joinable, sub := true } rfl rfl m []
  rw [List.append_nil] at this
  exact ⟨_, this, rfl⟩

/-- The percentage is that of the clouds already handled, between 0 and 100 while clouds only leave the
queue, although it stands behind the word "Remaining". -/
theorem C119_progress (now start : Nat) (h : now ≤ start) (hs : 0 < start) :
    ∃ q, progressShown now start = some q ∧ 0 ≤ q ∧ q ≤ 100 ∧ q / 100 * start = (start - now : Nat) := by
  have hs' : (0 : Rat) < start := by exact_mod_cast hs
  have h' : (now : Rat) ≤ start := by exact_mod_cast h
  have hn : (0 : Rat) ≤ now := by positivity
  refine ⟨(1 - (now : Rat) / start) * 100, ?_, ?_, ?_, ?_⟩
  · unfold progressShown
    rw [if_neg (by omega)]
  · have : (now : Rat) / start ≤ 1 := by rw [div_le_one hs']; exact h'
    linarith
  · have : 0 ≤ (now : Rat) / start := by positivity
    linarith
  · rw [Nat.cast_sub h]
    field_simp

/-- With no cloud waiting at the end it is not a number. -/
theorem C119_progress_fails (now : Nat) : progressShown now 0 = none := rfl

example : ProperUse [.init true, .cloud, .cloud, .finish, .cloud, .destroy] := .destroyed true 2 1

end Verif
