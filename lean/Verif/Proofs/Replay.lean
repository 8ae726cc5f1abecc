import Verif.Spec.Replay
import Verif.Proofs.Submap
/-! Proofs for C128: handling the clouds one by one. -/
namespace Verif
open Spec

section
variable {G C X I : Type} [Group G]

/-- The state with this queue. -/
def PlayState.queue (w : List (C × Nat)) (s : PlayState G C X) : PlayState G C X := { s with fe := { s.fe with waiting := w } }

theorem feProcess_queue (cfg : FeCfg G C) (p : G) (c : C) (t : Nat) (st : FeState G C) (w : List (C × Nat)) :
    feProcess cfg p c t { st with waiting := w } =
      (do let r ← feProcess cfg p c t { st with waiting := [] }
          return ({ r.1 with waiting := w }, r.2)) := by
  obtain ⟨w0, last, got, target, pt, acc, fr⟩ := st
  unfold feProcess
  dsimp only
  by_cases hg : got = false
  · rw [if_pos hg, if_pos hg]
    cases feTarget cfg c <;> rfl
  rw [if_neg hg, if_neg hg]
  by_cases hl : t < last
  · rw [if_pos hl, if_pos hl]; rfl
  rw [if_neg hl, if_neg hl]
  cases target with
  | none => rfl
  | some tg =>
    dsimp only
    by_cases hc : cfg.fastIcp = true → tg.2 = true
    · rw [Outcome.check_pos hc, Outcome.bind_ok, Outcome.bind_ok]
      cases feSource cfg (acc⁻¹ * (pt⁻¹ * p)) c with
      | abort => rfl
      | ub => rfl
      | ok source =>
        rw [Outcome.bind_ok, Outcome.bind_ok]
        cases feSource cfg (acc⁻¹ * feResult cfg (cfg.align tg.1 source (pt⁻¹ * p)) (pt⁻¹ * p)) c with
        | abort => rfl
        | ub => rfl
        | ok cloud =>
          rw [Outcome.bind_ok, Outcome.bind_ok]
          by_cases hk : cfg.key (feResult cfg (cfg.align tg.1 source (pt⁻¹ * p)) (pt⁻¹ * p)) = true
          · rw [if_pos hk, if_pos hk]
            cases feTarget cfg cloud <;> rfl
          · rw [if_neg hk, if_neg hk]; rfl
    · rw [Outcome.check_neg hc]; rfl

theorem feProcess_last {cfg : FeCfg G C} {p : G} {c : C} {t : Nat} {st : FeState G C} {r : FeState G C × FeEntry G C}
    (h : feProcess cfg p c t st = .ok r) : r.1.waiting = st.waiting ∧ (r.1.last = t ∨ r.1.last = st.last) := by
  unfold feProcess at h
  split at h
  · obtain ⟨tg, _, h⟩ := (Outcome.bind_eq_ok _ _ _).mp h
    cases h; exact ⟨rfl, Or.inl rfl⟩
  split at h
  · cases h; exact ⟨rfl, Or.inr rfl⟩
  split at h
  · cases h
  · obtain ⟨_, _, h⟩ := (Outcome.bind_eq_ok _ _ _).mp h
    obtain ⟨source, _, h⟩ := (Outcome.bind_eq_ok _ _ _).mp h
    obtain ⟨cloud, _, h⟩ := (Outcome.bind_eq_ok _ _ _).mp h
    dsimp only at h
    split at h
    · obtain ⟨tg, _, h⟩ := (Outcome.bind_eq_ok _ _ _).mp h
      cases h; exact ⟨rfl, Or.inl rfl⟩
    · cases h; exact ⟨rfl, Or.inl rfl⟩

/-- One cloud, taken and matched at once. -/
def playOne (cfg : FeCfg G C) (e : Extr X G I) (a : C × Nat) (s : PlayState G C X) : Outcome (PlayState G C X) := do
  let s ← playTake e (s.queue [a])
  playDone cfg e s

/-- Clouds one by one. -/
def playEach (cfg : FeCfg G C) (e : Extr X G I) : List (C × Nat) → PlayState G C X → Outcome (PlayState G C X)
  | [], s => .ok s
  | a :: l, s => do
    let s ← playOne cfg e a s
    playEach cfg e l s

/-- What is left to do: the cloud in work, the queue, the clouds to come. -/
def playRest (cfg : FeCfg G C) (e : Extr X G I) (l : List (C × Nat)) (s : PlayState G C X) : Outcome (PlayState G C X) := do
  let s' ← playDone cfg e (s.queue [])
  playEach cfg e (s.fe.waiting ++ l) s'

/-- Stamps from here on are in order. -/
structure PlayOrd (s : PlayState G C X) (l : List (C × Nat)) : Prop where
  sorted : (s.fe.waiting ++ l).Pairwise fun a b => a.2 ≤ b.2
  last : ∀ a ∈ s.fe.waiting ++ l, s.fe.last ≤ a.2
  busy : ∀ c t p, s.busy = some (c, t, p) → ∀ a ∈ s.fe.waiting ++ l, t ≤ a.2

theorem bind_assoc' {α β γ : Type} (x : Outcome α) (f : α → Outcome β) (g : β → Outcome γ) :
    (x >>= f) >>= g = x >>= fun a => f a >>= g := by
  cases x <;> rfl

theorem playDone_none (cfg : FeCfg G C) (e : Extr X G I) (s : PlayState G C X) (h : s.busy = none) :
    playDone cfg e s = .ok s := by
  unfold playDone; rw [h]

theorem rest_cloud (cfg : FeCfg G C) (e : Extr X G I) (s : PlayState G C X) (c : C) (t : Nat) (l : List (C × Nat))
    (ho : PlayOrd s ((c, t) :: l)) :
    playStep cfg e s (.cloud c t) = .ok (s.queue (s.fe.waiting ++ [(c, t)])) ∧
    playRest cfg e ((c, t) :: l) s = playRest cfg e l (s.queue (s.fe.waiting ++ [(c, t)])) ∧
    PlayOrd (s.queue (s.fe.waiting ++ [(c, t)])) l := by
  have hl : ¬ t < s.fe.last := by
    have := ho.last (c, t) (by simp)
    simp only at this; omega
  refine ⟨?_, ?_, ?_⟩
  · show Outcome.ok _ = _
    unfold feArrive
    rw [if_neg hl]; rfl
  · unfold playRest
    show _ = (playDone cfg e (s.queue []) >>= fun s' => playEach cfg e ((s.fe.waiting ++ [(c, t)]) ++ l) s')
    rw [List.append_assoc]; rfl
  · have e1 : (s.queue (s.fe.waiting ++ [(c, t)])).fe.waiting ++ l = s.fe.waiting ++ (c, t) :: l := by
      show (s.fe.waiting ++ [(c, t)]) ++ l = _
      rw [List.append_assoc]; rfl
    exact ⟨by rw [e1]; exact ho.sorted, by rw [e1]; exact ho.last, by rw [e1]; exact ho.busy⟩

theorem rest_take (cfg : FeCfg G C) (e : Extr X G I) (s : PlayState G C X) (l : List (C × Nat)) (ho : PlayOrd s l) :
    playRest cfg e l s = (playTake e s >>= fun s' => playRest cfg e l s') ∧
    ∀ s', playTake e s = .ok s' → PlayOrd s' l := by
  obtain ⟨⟨w, last, got, target, pt, acc, fr⟩, x, busy⟩ := s
  cases busy with
  | some b => exact ⟨by unfold playTake; rfl, fun s' h => by unfold playTake at h; cases h; exact ho⟩
  | none =>
    cases w with
    | nil => exact ⟨by unfold playTake; rfl, fun s' h => by unfold playTake at h; cases h; exact ho⟩
    | cons a rest =>
      obtain ⟨c, t⟩ := a
      have hs : (rest ++ l).Pairwise fun a b => a.2 ≤ b.2 := (List.pairwise_cons.1 ho.sorted).2
      have ht : ∀ a ∈ rest ++ l, t ≤ a.2 := (List.pairwise_cons.1 ho.sorted).1
      have hlast : ∀ a ∈ rest ++ l, last ≤ a.2 := fun a ha => ho.last a (List.mem_cons_of_mem _ ha)
      constructor
      · unfold playRest
        rw [playDone_none _ _ _ rfl, Outcome.bind_ok]
        show (playOne cfg e (c, t) _ >>= fun s => playEach cfg e (rest ++ l) s) = _
        unfold playOne playTake PlayState.queue
        dsimp only
        by_cases hc : got = true ∧ last ≤ t
        · rw [if_pos hc, if_pos hc]
          cases e.ask x t with
          | abort => rfl
          | ub => rfl
          | ok a => rfl
        · rw [if_neg hc, if_neg hc]; rfl
      · intro s' h
        unfold playTake at h
        dsimp only at h
        split at h
        · obtain ⟨a, _, h⟩ := (Outcome.bind_eq_ok _ _ _).mp h
          cases h
          exact ⟨hs, hlast, fun c' t' p' hb => by cases hb; exact ht⟩
        · cases h
          exact ⟨hs, hlast, fun c' t' p' hb => by cases hb; exact ht⟩

theorem done_queue (cfg : FeCfg G C) (e : Extr X G I) (s : PlayState G C X) (w : List (C × Nat)) :
    playDone cfg e (s.queue w) = (playDone cfg e (s.queue []) >>= fun s' => .ok (s'.queue w)) := by
  unfold playDone PlayState.queue
  cases hb : s.busy with
  | none => rfl
  | some b =>
    obtain ⟨c, t, p⟩ := b
    dsimp only
    rw [feProcess_queue cfg p c t s.fe w]
    cases feProcess cfg p c t { s.fe with waiting := [] } with
    | abort => rfl
    | ub => rfl
    | ok r =>
      obtain ⟨st, en⟩ := r
      cases en with
      | late raw => rfl
      | placed raw ref pose cloud ins =>
        show (e.tell s.ex t pose >>= fun x => _) = ((e.tell s.ex t pose >>= fun x => _) >>= _)
        cases e.tell s.ex t pose <;> rfl

theorem done_ok {cfg : FeCfg G C} {e : Extr X G I} {s s' : PlayState G C X} (h : playDone cfg e s = .ok s') :
    s'.busy = none ∧ s'.fe.waiting = s.fe.waiting ∧
      (s'.fe.last = s.fe.last ∨ ∃ c t p, s.busy = some (c, t, p) ∧ s'.fe.last = t) := by
  unfold playDone at h
  split at h
  · rename_i hb
    cases h; exact ⟨hb, rfl, Or.inl rfl⟩
  · rename_i c t p hb
    obtain ⟨r, hr, h⟩ := (Outcome.bind_eq_ok _ _ _).mp h
    obtain ⟨h1, h2⟩ := feProcess_last hr
    have h3 : r.1.last = s.fe.last ∨ ∃ c' t' p', s.busy = some (c', t', p') ∧ r.1.last = t' :=
      h2.symm.imp id fun h => ⟨c, t, p, hb, h⟩
    split at h
    · cases h; exact ⟨rfl, h1, h3⟩
    · obtain ⟨x, _, h⟩ := (Outcome.bind_eq_ok _ _ _).mp h
      cases h; exact ⟨rfl, h1, h3⟩

theorem rest_done (cfg : FeCfg G C) (e : Extr X G I) (s : PlayState G C X) (l : List (C × Nat)) (ho : PlayOrd s l) :
    playRest cfg e l s = (playDone cfg e s >>= fun s' => playRest cfg e l s') ∧
    ∀ s', playDone cfg e s = .ok s' → PlayOrd s' l := by
  constructor
  · have h := done_queue cfg e s s.fe.waiting
    have hs : s.queue s.fe.waiting = s := rfl
    rw [hs] at h
    rw [h, bind_assoc']
    unfold playRest
    cases h1 : playDone cfg e (s.queue []) with
    | abort => rfl
    | ub => rfl
    | ok s1 =>
      rw [Outcome.bind_ok, Outcome.bind_ok, Outcome.bind_ok]
      obtain ⟨b, w, _⟩ := done_ok h1
      have hq : (s1.queue s.fe.waiting).queue [] = s1 := by
        obtain ⟨⟨w', _, _, _, _, _, _⟩, _, _⟩ := s1
        have hw : w' = [] := w
        subst hw; rfl
      rw [hq, playDone_none cfg e s1 b, Outcome.bind_ok]; rfl
  · intro s' h
    obtain ⟨b, w, hl⟩ := done_ok h
    refine ⟨by rw [w]; exact ho.sorted, ?_, fun c t p hb => by rw [b] at hb; cases hb⟩
    rw [w]
    intro a ha
    rcases hl with hl | ⟨c, t, p, hb, hl⟩
    · rw [hl]; exact ho.last a ha
    · rw [hl]; exact ho.busy c t p hb a ha

/-- Without inertial messages every run, followed by what is left to do, is the clouds one by one. -/
theorem run_rest (cfg : FeCfg G C) (e : Extr X G I) : ∀ (es : List (PlayEvent C I)) (s : PlayState G C X),
    imuOf es = [] → PlayOrd s (cloudsOf es) →
    playRest cfg e (cloudsOf es) s = (playRun cfg e es s >>= fun s' => playRest cfg e [] s')
  | [], s, _, _ => rfl
  | .cloud c t :: es, s, hi, ho => by
    obtain ⟨h1, h2, h3⟩ := rest_cloud cfg e s c t (cloudsOf es) ho
    show playRest cfg e ((c, t) :: cloudsOf es) s = _
    rw [h2, run_rest cfg e es _ hi h3]
    show _ = ((playStep cfg e s (.cloud c t) >>= fun s => playRun cfg e es s) >>= _)
    rw [h1, Outcome.bind_ok]
  | .imu i :: es, s, hi, ho => by cases hi
  | .take :: es, s, hi, ho => by
    obtain ⟨h1, h2⟩ := rest_take cfg e s (cloudsOf es) ho
    show playRest cfg e (cloudsOf es) s = _
    rw [h1]
    show _ = ((playTake e s >>= fun s => playRun cfg e es s) >>= _)
    cases ht : playTake e s with
    | abort => rfl
    | ub => rfl
    | ok s' => exact run_rest cfg e es s' hi (h2 s' ht)
  | .done :: es, s, hi, ho => by
    obtain ⟨h1, h2⟩ := rest_done cfg e s (cloudsOf es) ho
    show playRest cfg e (cloudsOf es) s = _
    rw [h1]
    show _ = ((playDone cfg e s >>= fun s => playRun cfg e es s) >>= _)
    cases ht : playDone cfg e s with
    | abort => rfl
    | ub => rfl
    | ok s' => exact run_rest cfg e es s' hi (h2 s' ht)

theorem rest_matched (cfg : FeCfg G C) (e : Extr X G I) (s : PlayState G C X) (h : AllMatched s) :
    playRest cfg e [] s = .ok s := by
  obtain ⟨⟨w, _, _, _, _, _, _⟩, x, b⟩ := s
  obtain ⟨h1, h2⟩ := h
  have hw : w = [] := h1
  have hb : b = none := h2
  subst hw hb
  rfl

end
end Verif
