import Verif.Spec.Submap
import Mathlib.Algebra.Group.Basic
/-! Facts about inserting frames. -/
namespace Verif
open Spec
variable {G P : Type} [Group G]

/-- The frame as it is stored. -/
def stored (s : Submap G P) (f : Frame G P) : Frame G P :=
  { f with
    localPose := if s.frames.length = 0 then 1 else s.globalPose⁻¹ * f.globalPose
    id := ⟨s.id.trajectory, s.id.submap, s.frames.length⟩ }

theorem insertFrame_ok {act : G → P → P} {o : SubmapOpts P} {s s' : Submap G P} {f : Frame G P}
    (h : s.insertFrame act o f = .ok s') :
    s.full = false ∧ s'.id = s.id ∧ s'.frames = s.frames ++ [stored s f] ∧
    s'.globalPose = (if s.frames.length = 0 then f.globalPose else s.globalPose) ∧
    s'.stamp = (if s.frames.length = 0 then f.stamp else s.stamp) ∧
    ((s'.full = true ∧ (s'.frames.length : Int) = o.frameCount ∧
        ∃ c, Submap.build act o s'.frames = .ok c ∧ s'.cloud = some c) ∨
     (s'.full = false ∧ (s'.frames.length : Int) ≠ o.frameCount ∧ s'.cloud = s.cloud)) := by
  unfold Submap.insertFrame at h
  by_cases hf : s.full = false
  · rw [Outcome.check_pos hf] at h
    simp only [Outcome.bind_ok] at h
    by_cases hn : ((s.frames ++ [stored s f]).length : Int) = o.frameCount
    · have hn' := hn
      unfold stored at hn'
      rw [if_pos hn'] at h
      rw [Outcome.bind_eq_ok] at h
      obtain ⟨c, hc, he⟩ := h
      simp only [Outcome.pure_eq, Outcome.ok.injEq] at he
      subst he
      exact ⟨hf, rfl, rfl, rfl, rfl, Or.inl ⟨rfl, hn, c, hc, rfl⟩⟩
    · have hn' := hn
      unfold stored at hn'
      rw [if_neg hn'] at h
      simp only [Outcome.pure_eq, Outcome.ok.injEq] at h
      subst h
      exact ⟨hf, rfl, rfl, rfl, rfl, Or.inr ⟨hf, hn, rfl⟩⟩
  · rw [Outcome.check_neg hf] at h
    simp at h

/-- What is known about a submap after inserting `pre`. -/
structure InsInv (act : G → P → P) (o : SubmapOpts P) (id : SubmapId) (pre : List (Frame G P))
    (s : Submap G P) : Prop where
  id : s.id = id
  holds : HoldsFrames s pre
  first : ∀ f, pre.head? = some f → s.globalPose = f.globalPose ∧ s.stamp = f.stamp
  full : s.full = true → (pre.length : Int) = o.frameCount ∧
    ∃ c, Submap.build act o s.frames = .ok c ∧ s.cloud = some c
  notFull : s.full = false → (pre.length : Int) = o.frameCount → pre = []

theorem insInv_new (act : G → P → P) (o : SubmapOpts P) (id : SubmapId) :
    InsInv act o id [] (Submap.new id : Submap G P) :=
  ⟨rfl, ⟨rfl, by simp⟩, by simp, by simp [Submap.new], by simp⟩

theorem insInv_step {act : G → P → P} {o : SubmapOpts P} {id : SubmapId} {pre : List (Frame G P)}
    {s s' : Submap G P} {f : Frame G P} (hi : InsInv act o id pre s)
    (h : s.insertFrame act o f = .ok s') : InsInv act o id (pre ++ [f]) s' := by
  obtain ⟨hf, h1, h2, h3, h4, h5⟩ := insertFrame_ok h
  have hlen := hi.holds.length
  refine ⟨h1.trans hi.id, ⟨?_, ?_⟩, ?_, ?_, ?_⟩
  · rw [h2]; simp [hlen]
  · intro i g hg
    rw [h1, h2, h3]
    rw [List.getElem?_append] at hg
    split at hg
    · rename_i hi'
      obtain ⟨f', e1, e2, e3, e4, e5, e6⟩ := hi.holds.frame i g hg
      refine ⟨f', ?_, e2, e3, e4, e5, ?_⟩
      · rw [List.getElem?_append_left (by omega)]; exact e1
      · have : ¬ s.frames.length = 0 := by omega
        rw [if_neg this]; exact e6
    · rename_i hi'
      have hii : i = pre.length := by
        by_contra hne
        rw [List.getElem?_eq_none (by simp; omega)] at hg
        cases hg
      subst hii
      simp only [Nat.sub_self, List.getElem?_cons_zero, Option.some.injEq] at hg
      subst hg
      refine ⟨stored s f, ?_, ?_, rfl, rfl, rfl, ?_⟩
      · rw [List.getElem?_append_right (by omega)]; simp [hlen]
      · simp [stored, hlen]
      · unfold stored
        by_cases h0 : s.frames.length = 0
        · simp [h0]
        · simp [h0]
  · intro g hg
    rw [h3, h4]
    by_cases h0 : s.frames.length = 0
    · have : pre = [] := List.eq_nil_of_length_eq_zero (by omega)
      subst this
      simp at hg
      subst hg
      rw [if_pos h0, if_pos h0]
      exact ⟨rfl, rfl⟩
    · rw [if_neg h0, if_neg h0]
      apply hi.first
      cases pre with
      | nil => exact absurd hlen h0
      | cons a l => simpa using hg
  · intro hfull
    rcases h5 with ⟨-, h6, h7⟩ | ⟨h6, -⟩
    · refine ⟨?_, h7⟩
      rw [h2] at h6; simp [hlen] at h6; simpa using h6
    · rw [h6] at hfull; cases hfull
  · intro hnf hl
    rcases h5 with ⟨h6, -⟩ | ⟨-, h6, -⟩
    · rw [h6] at hnf; cases hnf
    · rw [h2] at h6; simp [hlen] at h6
      exact absurd (by simpa using hl) h6

theorem insInv_fold {act : G → P → P} {o : SubmapOpts P} {id : SubmapId} :
    ∀ (fs pre : List (Frame G P)) (s s' : Submap G P), InsInv act o id pre s →
      fs.foldlM (Submap.insertFrame act o) s = .ok s' → InsInv act o id (pre ++ fs) s'
  | [], pre, s, s', hi, h => by
    simp only [List.foldlM_nil, Outcome.pure_eq, Outcome.ok.injEq] at h
    subst h; simpa using hi
  | f :: fs, pre, s, s', hi, h => by
    rw [List.foldlM_cons, Outcome.bind_eq_ok] at h
    obtain ⟨s1, h1, h2⟩ := h
    have := insInv_fold fs (pre ++ [f]) s1 s' (insInv_step hi h1) h2
    simpa using this

/-- A fold that succeeds never inserted into a full submap, so its length is bounded. -/
theorem fold_length {act : G → P → P} {o : SubmapOpts P} {id : SubmapId} :
    ∀ (fs pre : List (Frame G P)) (s s' : Submap G P), InsInv act o id pre s →
      (pre.length : Int) ≤ o.frameCount → 1 ≤ o.frameCount →
      fs.foldlM (Submap.insertFrame act o) s = .ok s' →
      ((pre ++ fs).length : Int) ≤ o.frameCount
  | [], pre, s, s', hi, hle, _, h => by simpa using hle
  | f :: fs, pre, s, s', hi, hle, h1n, h => by
    rw [List.foldlM_cons, Outcome.bind_eq_ok] at h
    obtain ⟨s1, h1, h2⟩ := h
    have hnf := (insertFrame_ok h1).1
    have hne : (pre.length : Int) ≠ o.frameCount := by
      intro e
      have := hi.notFull hnf e
      subst this
      simp at e; omega
    have := fold_length fs (pre ++ [f]) s1 s' (insInv_step hi h1) (by simp; omega) h1n h2
    simpa using this

theorem build_ok {act : G → P → P} {o : SubmapOpts P} (hm : o.innerMrvm = false)
    (hv : ∀ l, l ≠ [] → o.voxelFilter l ≠ []) (fs : List (Frame G P)) (f : Frame G P)
    (hf : f.cloud ≠ []) : ∃ c, Submap.build act o (fs ++ [f]) = .ok c := by
  have hne : (fs ++ [f]).flatMap (fun f => f.cloud.map (act f.localPose)) ≠ [] := by
    simp [hf]
  unfold Submap.build
  simp only [hm, Bool.false_eq_true, ↓reduceIte]
  rw [if_neg (by simpa [List.isEmpty_iff] using hne), Outcome.check_pos]
  · exact ⟨_, rfl⟩
  · intro h0
    exact hv _ hne (List.eq_nil_of_length_eq_zero h0)

/-- Conversely inserting at most `frameCount` frames with points succeeds. -/
theorem fold_ok {act : G → P → P} {o : SubmapOpts P} {id : SubmapId} (hm : o.innerMrvm = false)
    (hv : ∀ l, l ≠ [] → o.voxelFilter l ≠ []) (h1n : 1 ≤ o.frameCount) :
    ∀ (fs pre : List (Frame G P)) (s : Submap G P), InsInv act o id pre s →
      (∀ f ∈ pre ++ fs, f.cloud ≠ []) →
      ((pre ++ fs).length : Int) ≤ o.frameCount → (fs ≠ [] → s.full = false) →
      ∃ s', fs.foldlM (Submap.insertFrame act o) s = .ok s'
  | [], pre, s, hi, _, hle, _ => ⟨s, rfl⟩
  | f :: fs, pre, s, hi, hc, hle, hnf => by
    have hnf := hnf (by simp)
    have hex : ∃ s1, s.insertFrame act o f = .ok s1 := by
      obtain ⟨c, hb⟩ := build_ok (act := act) hm hv s.frames (stored s f)
        (show (stored s f).cloud ≠ [] from hc f (by simp))
      unfold Submap.insertFrame
      rw [Outcome.check_pos hnf]
      simp only [Outcome.bind_ok]
      unfold stored at hb
      by_cases hn : ((s.frames ++ [stored s f]).length : Int) = o.frameCount
      · unfold stored at hn
        rw [if_pos hn, hb]
        exact ⟨_, rfl⟩
      · unfold stored at hn
        rw [if_neg hn]
        exact ⟨_, rfl⟩
    obtain ⟨s1, h1⟩ := hex
    have hi1 := insInv_step hi h1
    obtain ⟨s', h2⟩ := fold_ok hm hv h1n fs (pre ++ [f]) s1 hi1 (by simpa using hc)
      (by simpa using hle) (by
        intro hne
        cases hfu : s1.full with
        | false => rfl
        | true =>
          have h5 := (hi1.full hfu).1
          cases fs with
          | nil => exact absurd rfl hne
          | cons a l => simp at hle h5; omega)
    exact ⟨s', by rw [List.foldlM_cons, h1]; exact h2⟩

theorem makeSubmap_ok {act : G → P → P} {o : SubmapOpts P} {id : SubmapId}
    {fs : List (Frame G P)} {s : Submap G P} (h : makeSubmap act o id fs = .ok s) :
    InsInv act o id fs s ∧ s.full = true := by
  unfold makeSubmap at h
  rw [Outcome.bind_eq_ok] at h
  obtain ⟨s1, h1, h2⟩ := h
  rw [Outcome.check_bind_eq_ok] at h2
  obtain ⟨h3, h4⟩ := h2
  simp only [Outcome.pure_eq, Outcome.ok.injEq] at h4
  subst h4
  have := insInv_fold fs [] _ _ (insInv_new act o id) h1
  exact ⟨by simpa using this, h3⟩

/-- The invariant of the submap thread. -/
structure ThreadInv (act : G → P → P) (o : SubmapOpts P) (traj : Int) (n : Nat)
    (st : SubmapThread G P) : Prop where
  cur : st.cur = st.submaps.length * n
  le : st.cur ≤ st.frames.length
  built : ∀ (k : Nat) (s : Submap G P), st.submaps[k]? = some s →
    makeSubmap act o ⟨traj, k⟩ ((st.frames.drop (k * n)).take n) = .ok s
  size : ∀ m, st.pc = .got m → st.cur ≤ m ∧ m ≤ st.frames.length
  done : ∀ m, st.pc = .finished m → st.running = false ∧ st.cur ≤ m ∧ m < st.cur + n ∧
    m ≤ st.frames.length

theorem threadInv_init (act : G → P → P) (o : SubmapOpts P) (traj : Int) (n : Nat) :
    ThreadInv act o traj n (SubmapThread.init : SubmapThread G P) :=
  ⟨by simp [SubmapThread.init], by simp [SubmapThread.init], by simp [SubmapThread.init],
   by simp [SubmapThread.init], by simp [SubmapThread.init]⟩

theorem threadInv_step {act : G → P → P} {o : SubmapOpts P} {traj : Int} {n : Nat}
    {st st' : SubmapThread G P} (e : SubmapEv G P) (hi : ThreadInv act o traj n st)
    (h : SubmapThread.step act o traj n st e = .ok st') : ThreadInv act o traj n st' := by
  cases e with
  | insert f =>
    simp only [SubmapThread.step] at h
    split at h
    · cases h
      refine ⟨hi.cur, ?_, ?_, ?_, ?_⟩
      · have := hi.le; simp; omega
      · intro k s hs
        have hs' : st.submaps[k]? = some s := hs
        have hk : k < st.submaps.length := by
          by_contra hc
          rw [List.getElem?_eq_none (by omega)] at hs'; cases hs'
        have h1 : k * n + n ≤ st.frames.length := by
          have : (k + 1) * n ≤ st.submaps.length * n := Nat.mul_le_mul_right n hk
          have h2 := hi.cur; have h3 := hi.le
          rw [Nat.add_mul] at this; omega
        have := hi.built k s hs
        rw [List.drop_append_of_le_length (by omega), List.take_append_of_le_length]
        · exact this
        · rw [List.length_drop]; omega
      · intro m hm
        have := hi.size m hm
        simp; omega
      · intro m hm
        have := hi.done m hm
        exact ⟨this.1, this.2.1, this.2.2.1, by simp; omega⟩
    · cases h; exact hi
  | stop =>
    simp only [SubmapThread.step] at h
    cases h
    exact ⟨hi.cur, hi.le, hi.built, hi.size, fun m hm => ⟨rfl, (hi.done m hm).2⟩⟩
  | read =>
    simp only [SubmapThread.step] at h
    split at h
    · cases h
      refine ⟨hi.cur, hi.le, hi.built, ?_, by simp⟩
      intro m hm
      simp only [SubmapPc.got.injEq] at hm
      have := hi.le
      show st.cur ≤ m ∧ m ≤ st.frames.length
      omega
    · cases h; exact hi
  | act =>
    simp only [SubmapThread.step] at h
    split at h
    · rename_i size hpc
      split at h
      · rename_i hlt
        have hsz := hi.size size hpc
        split at h
        · cases h
          exact ⟨hi.cur, hi.le, hi.built, by simp, by simp⟩
        · rename_i hr
          cases h
          refine ⟨hi.cur, hi.le, hi.built, by simp, ?_⟩
          intro m hm
          simp only [SubmapPc.finished.injEq] at hm
          refine ⟨by simpa using hr, ?_⟩
          show st.cur ≤ m ∧ m < st.cur + n ∧ m ≤ st.frames.length
          omega
      · rename_i hn
        rw [Outcome.bind_eq_ok] at h
        obtain ⟨s, h1, h2⟩ := h
        simp only [Outcome.pure_eq, Outcome.ok.injEq] at h2
        subst h2
        have hsz := hi.size size hpc
        refine ⟨?_, ?_, ?_, by simp, by simp⟩
        · have := hi.cur; simp [Nat.add_mul]; omega
        · show st.cur + n ≤ st.frames.length
          have := hi.le; omega
        · intro k s' hs
          rw [List.getElem?_append] at hs
          split at hs
          · exact hi.built k s' hs
          · rename_i hk
            have hkk : k = st.submaps.length := by
              by_contra hne
              rw [List.getElem?_eq_none (by simp; omega)] at hs
              cases hs
            subst hkk
            simp only [Nat.sub_self, List.getElem?_cons_zero, Option.some.injEq] at hs
            subst hs
            rw [← hi.cur]; exact h1
    · cases h; exact hi

theorem threadInv_run {act : G → P → P} {o : SubmapOpts P} {traj : Int} {n : Nat} :
    ∀ (es : List (SubmapEv G P)) (st st' : SubmapThread G P), ThreadInv act o traj n st →
      SubmapThread.run act o traj n st es = .ok st' → ThreadInv act o traj n st'
  | [], st, st', hi, h => by cases h; exact hi
  | e :: es, st, st', hi, h => by
    unfold SubmapThread.run at h
    rw [Outcome.bind_eq_ok] at h
    obtain ⟨s1, h1, h2⟩ := h
    exact threadInv_run es s1 st' (threadInv_step e hi h1) h2

/-- Once scan matching has stopped no frame is added. -/
theorem stopped_step {act : G → P → P} {o : SubmapOpts P} {traj : Int} {n : Nat}
    {st st' : SubmapThread G P} (e : SubmapEv G P) (hr : st.running = false)
    (hpc : ∀ m, st.pc = .got m ∨ st.pc = .finished m → m = st.frames.length)
    (h : SubmapThread.step act o traj n st e = .ok st') :
    st'.running = false ∧ st'.frames = st.frames ∧
      ∀ m, st'.pc = .got m ∨ st'.pc = .finished m → m = st'.frames.length := by
  cases e with
  | insert f =>
    simp only [SubmapThread.step, hr, Bool.false_eq_true, ↓reduceIte] at h
    cases h
    exact ⟨hr, rfl, hpc⟩
  | stop =>
    simp only [SubmapThread.step] at h
    cases h
    exact ⟨rfl, rfl, hpc⟩
  | read =>
    simp only [SubmapThread.step] at h
    split at h
    · cases h
      refine ⟨hr, rfl, ?_⟩
      rintro m (hm | hm)
      · simpa using hm.symm
      · simp at hm
    · cases h; exact ⟨hr, rfl, hpc⟩
  | act =>
    simp only [SubmapThread.step] at h
    split at h
    · rename_i size hs
      have hsz := hpc size (Or.inl hs)
      split at h
      · rw [hr] at h
        simp only [Bool.false_eq_true, ↓reduceIte] at h
        cases h
        refine ⟨rfl, rfl, ?_⟩
        rintro m (hm | hm)
        · simp at hm
        · simp only [SubmapPc.finished.injEq] at hm
          exact hm.symm.trans hsz
      · rw [Outcome.bind_eq_ok] at h
        obtain ⟨s, h1, h2⟩ := h
        simp only [Outcome.pure_eq, Outcome.ok.injEq] at h2
        subst h2
        exact ⟨hr, rfl, by simp⟩
    · cases h; exact ⟨hr, rfl, hpc⟩

theorem stopped_run {act : G → P → P} {o : SubmapOpts P} {traj : Int} {n : Nat} :
    ∀ (es : List (SubmapEv G P)) (st st' : SubmapThread G P), st.running = false →
      (∀ m, st.pc = .got m ∨ st.pc = .finished m → m = st.frames.length) →
      SubmapThread.run act o traj n st es = .ok st' →
      st'.frames = st.frames ∧ ∀ m, st'.pc = .got m ∨ st'.pc = .finished m → m = st'.frames.length
  | [], st, st', _, hpc, h => by cases h; exact ⟨rfl, hpc⟩
  | e :: es, st, st', hr, hpc, h => by
    unfold SubmapThread.run at h
    rw [Outcome.bind_eq_ok] at h
    obtain ⟨s1, h1, h2⟩ := h
    obtain ⟨a, b, c⟩ := stopped_step e hr hpc h1
    obtain ⟨d, f⟩ := stopped_run es s1 st' a c h2
    exact ⟨d.trans b, f⟩

theorem run_append {act : G → P → P} {o : SubmapOpts P} {traj : Int} {n : Nat} :
    ∀ (es fs : List (SubmapEv G P)) (st : SubmapThread G P),
      SubmapThread.run act o traj n st (es ++ fs) =
        (SubmapThread.run act o traj n st es >>= fun s => SubmapThread.run act o traj n s fs)
  | [], fs, st => by simp [SubmapThread.run]
  | e :: es, fs, st => by
    simp only [List.cons_append, SubmapThread.run]
    cases h : SubmapThread.step act o traj n st e with
    | ok s => simp [run_append es fs s]
    | abort => rfl
    | ub => rfl

end Verif
