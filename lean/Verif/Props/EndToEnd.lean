import Verif.Spec.EndToEnd
import Verif.Props.FrontEnd
import Verif.Props.Submap
import Verif.Props.GpsAlign
import Verif.Props.SaveMaps
/-!
C80: the whole run.

English: the saved map consists of the clouds of the key frames, in the order of arrival, without a
repetition and without a gap, up to the last complete submap.  The first key frame of every submap is
at the pose the optimiser estimated for the submap (moved into GPS coordinates if that is enabled and
possible), and every other one is, relative to the key frame before it, exactly where the scan matcher
put it.
-/
namespace Verif
open Spec

section chain
variable {G C : Type} [Group G]

/-- One key frame follows another with the scan matcher's result. -/
def Follows (cfg : FeCfg G C) (preds : List G) (a b : C × G) : Prop :=
  ∃ result, MatchedTo cfg preds a b result ∧ b.2 = a.2 * result

theorem keys_chain (cfg : FeCfg G C) (preds : List G) :
    ∀ (log hist : List (FeEntry G C)), AllPlacedWell cfg preds hist log →
      (hist = [] ∨ ∃ k, newestKey hist = some k) →
      List.IsChain (Follows cfg preds) ((newestKey hist).toList ++ keyFrames log)
  | [], hist, _, _ => by
    cases newestKey hist <;> simp [keyFrames]
  | e :: log, hist, h, hk => by
    obtain ⟨⟨pred, hp, hw⟩, ht⟩ := h
    cases e with
    | late raw => exact absurd hw id
    | placed raw reference pose cloud inserted =>
      rcases hw with ⟨h1, _, _, _, h5⟩ | ⟨kc, kp, before, source, result, h1, h2, h3, h4, h5, h6, h7, h8⟩
      · subst h1 h5
        have := keys_chain cfg preds log _ ht (Or.inr ⟨_, rfl⟩)
        simpa [newestKey, keyFrames] using this
      · cases inserted with
        | false =>
          have := keys_chain cfg preds log _ ht (Or.inr ⟨_, h1⟩)
          simpa [newestKey, keyFrames] using this
        | true =>
          have := keys_chain cfg preds log _ ht (Or.inr ⟨_, rfl⟩)
          simp only [newestKey, keyFrames, Option.toList_some, List.singleton_append] at this
          rw [h1]
          simp only [keyFrames, Option.toList_some, List.singleton_append]
          refine List.isChain_cons_cons.mpr ⟨⟨result, ⟨pred, hp, raw, before, source, h4, h5, h7, ?_⟩, h6⟩, this⟩
          rw [h6] at h8
          simpa using h8.symm

end chain

section weave
variable {G P : Type} [Group G]

theorem weave_frames (act : G → P → P) (o : SubmapOpts P) (traj : Int) (n : Nat) :
    ∀ (w : List WeaveStep) (fs : List (Frame G P)) (st st' : SubmapThread G P),
      SubmapThread.run act o traj n st (weave w fs) = .ok st' →
      (st.running = false → st'.frames = st.frames) ∧ st'.frames <+: st.frames ++ fs
  | [], fs, st, st', h => by cases h; exact ⟨fun _ => rfl, List.prefix_append _ _⟩
  | .insert :: w, [], st, st', h => weave_frames act o traj n w [] st st' h
  | .insert :: w, f :: fs, st, st', h => by
    simp only [weave, SubmapThread.run, SubmapThread.step] at h
    by_cases hr : st.running = true
    · rw [if_pos hr, Outcome.bind_ok] at h
      have := weave_frames act o traj n w fs _ _ h
      refine ⟨fun h' => (by rw [hr] at h'; cases h'), ?_⟩
      simpa using this.2
    · rw [if_neg hr, Outcome.bind_ok] at h
      have := weave_frames act o traj n w fs _ _ h
      have h1 := this.1 (by simpa using hr)
      refine ⟨fun _ => h1, ?_⟩
      rw [h1]; exact List.prefix_append _ _
  | .stop :: w, fs, st, st', h => by
    simp only [weave, SubmapThread.run, SubmapThread.step, Outcome.bind_ok] at h
    have := weave_frames act o traj n w fs _ _ h
    exact ⟨fun _ => this.1 rfl, this.2⟩
  | .read :: w, fs, st, st', h => by
    simp only [weave, SubmapThread.run] at h
    obtain ⟨s1, h1, h2⟩ := (Outcome.bind_eq_ok _ _ _).mp h
    have := weave_frames act o traj n w fs _ _ h2
    have hs : s1.frames = st.frames ∧ s1.running = st.running := by
      simp only [SubmapThread.step] at h1
      cases hp : st.pc <;> rw [hp] at h1 <;> cases h1 <;> exact ⟨rfl, rfl⟩
    rw [hs.1, hs.2] at this
    exact this
  | .act :: w, fs, st, st', h => by
    simp only [weave, SubmapThread.run] at h
    obtain ⟨s1, h1, h2⟩ := (Outcome.bind_eq_ok _ _ _).mp h
    have := weave_frames act o traj n w fs _ _ h2
    have hs : s1.frames = st.frames ∧ s1.running = st.running := by
      simp only [SubmapThread.step] at h1
      cases hp : st.pc with
      | head => rw [hp] at h1; cases h1; exact ⟨rfl, rfl⟩
      | finished m => rw [hp] at h1; cases h1; exact ⟨rfl, rfl⟩
      | got size =>
        rw [hp] at h1
        dsimp only at h1
        by_cases h3 : size - st.cur < n
        · rw [if_pos h3] at h1
          by_cases h4 : st.running = true
          · rw [if_pos h4] at h1; cases h1; exact ⟨rfl, rfl⟩
          · rw [if_neg h4] at h1; cases h1; exact ⟨rfl, rfl⟩
        · rw [if_neg h3] at h1
          obtain ⟨s, _, h5⟩ := (Outcome.bind_eq_ok _ _ _).mp h1
          cases h5; exact ⟨rfl, rfl⟩
    rw [hs.1, hs.2] at this
    exact this

end weave

section lists
variable {α β : Type}

theorem flatMap_range (l : List α) (f : α → List β) :
    l.flatMap f = (List.range l.length).flatMap fun k => ((l[k]?).map f).getD [] := by
  induction l with
  | nil => rfl
  | cons a l ih =>
    rw [List.flatMap_cons, List.length_cons, List.range_succ_eq_map, List.flatMap_cons,
      List.flatMap_map, ih]
    simp

theorem range_mul_flatMap (q n : Nat) (h : Nat → List β) :
    (List.range (q * n)).flatMap h =
      (List.range q).flatMap fun j => (List.range n).flatMap fun i => h (j * n + i) := by
  induction q with
  | zero => simp
  | succ q ih =>
    rw [Nat.succ_mul, List.range_add, List.flatMap_append, ih, List.range_succ, List.flatMap_append,
      List.flatMap_map]
    simp

theorem flatMap_congr_range (m : Nat) (f g : Nat → List β) (h : ∀ k, k < m → f k = g k) :
    (List.range m).flatMap f = (List.range m).flatMap g := by
  apply List.flatMap_congr
  intro k hk
  exact h k (List.mem_range.mp hk)

theorem filePoints_append (a b : List (MapFile α)) :
    filePoints (a ++ b) = filePoints a ++ filePoints b := by
  induction a with
  | nil => rfl
  | cons f a ih => cases f <;> simp [filePoints, ih]

end lists

section
variable {G P C E : Type} [Group G]

/-- The files of a directly saved map hold the points of all submaps in order. -/
theorem saved_points (o : SaveOptions) (hd : o.direct = true)
    (hs : o.separate = true → 0 < o.step) (ss : List (SaveSubmap P)) :
    ∃ files, saveMaps o ss = .ok files ∧ filePoints files = points ss := by
  cases hsep : o.separate with
  | false =>
    refine ⟨_, C34_unseparated o hsep (Or.inl hd) ss, ?_⟩
    cases hm : o.mrvm <;> cases hp : points ss <;> simp [filePoints, hd]
  | true =>
    have h0 := hs hsep
    obtain ⟨files, h, hp⟩ := C34_same_as_whole o hsep o.step.toNat (by omega) (by omega) hd ss
    refine ⟨files, h, ?_⟩
    rw [← hp]
    -- with separate files no whole file is written
    have hno : ∀ (ss : List (SaveSubmap P)) (total idx : Nat) (st st' : SaveState P),
        (∀ f ∈ st.files, ∀ c, f ≠ .whole c) → saveLoop o total idx st ss = .ok st' →
        ∀ f ∈ st'.files, ∀ c, f ≠ .whole c := by
      intro ss
      induction ss with
      | nil => intro total idx st st' h1 h2; cases h2; exact h1
      | cons s ss ih =>
        intro total idx st st' h1 h2
        simp only [saveLoop] at h2
        obtain ⟨s1, h3, h4⟩ := (Outcome.bind_eq_ok _ _ _).mp h2
        refine ih total (idx + 1) s1 st' ?_ h4
        have hf : ∀ (s : SaveSubmap P) (st : SaveState P), (s.foldl (saveFrame o) st).files = st.files := by
          intro s
          induction s with
          | nil => intro st; rfl
          | cons f s ih => intro st; rw [List.foldl_cons, ih]; rfl
        simp only [saveOne] at h3
        rw [if_pos hsep, if_neg (by omega)] at h3
        by_cases h5 : idx + 1 = total ∨ ((idx : Int) + 1).tmod o.step = 0
        · rw [if_pos h5] at h3
          cases h3
          intro f hfm c
          simp only [savePart] at hfm
          have hfs := hf s st
          generalize s.foldl (saveFrame o) st = st1 at hfm hfs
          rw [← hfs] at h1
          cases hd' : (o.direct && !st1.whole.isEmpty) <;> cases hm : o.mrvm <;>
            simp only [hd', hm, if_true, if_false, Bool.false_eq_true, List.mem_append,
              List.mem_singleton] at hfm
          · exact h1 f hfm c
          · rcases hfm with h6 | h6
            · exact h1 f h6 c
            · subst h6; simp
          · rcases hfm with h6 | h6
            · exact h1 f h6 c
            · subst h6; simp
          · rcases hfm with (h6 | h6) | h6
            · exact h1 f h6 c
            · subst h6; simp
            · subst h6; simp
        · rw [if_neg h5] at h3
          cases h3
          rw [hf]
          exact h1
    have hw : ∀ f ∈ files, ∀ c, f ≠ .whole c := by
      unfold saveMaps at h
      rw [if_neg (by simp [hd])] at h
      obtain ⟨st, h1, h2⟩ := (Outcome.bind_eq_ok _ _ _).mp h
      rw [if_pos hsep] at h2
      cases h2
      exact hno ss _ _ _ _ (by simp) h1
    clear h hp
    induction files with
    | nil => rfl
    | cons f fs ih =>
      have hfs := ih fun g hg => hw g (List.mem_cons_of_mem _ hg)
      cases f with
      | part i c => simp [filePoints, directParts, hfs]
      | staticPart i c => simp [filePoints, directParts, hfs]
      | whole c => exact absurd rfl (hw _ (List.mem_cons_self ..) c)
      | static c => simp [filePoints, directParts, hfs]

/-- The whole run, for all clouds arriving in order of time, all predictions, all answers of the scan
matcher and of the optimiser, and all schedules of the two threads: if the run ends with maps saved,
then the saved map is `mapPoints`: the clouds of the first `submaps * n` key frames, each at its final
pose; the final poses follow the scan matcher inside a submap (`Chained`) and the optimiser's
estimates at the start of each; if the submap thread has ended, every complete group of `n` key frames it saw is
in the map.
Missing: clouds out of order (`C58_late_fails`); key frames after the last complete submap
(`C80_tail_fails`). -/
theorem C80_map_partial (r : RunCfg G P C E) (n start : Nat) (hn : 1 ≤ n)
    (ho : r.sub.frameCount = n) (hd : r.save.direct = true)
    (hs : r.save.separate = true → 0 < r.save.step)
    (es : List (FeEvent G C)) (sched : List WeaveStep)
    (hnorm : r.fe.fastIcp = true → ∀ c, r.fe.normals c = .ok true)
    (hc : ∀ a ∈ arrivals es, r.fe.compensate = true → ∀ m, ∃ c', r.fe.comp m a.1 = .ok c')
    (ht : (arrivals es).Pairwise (fun a b => a.2 ≤ b.2))
    (obs : List (Submap G P) → List (IsamFrame G E)) (hobs : ∀ l, (obs l).length = l.length)
    (hv : ∀ l, EdgesValid 0 (obs l)) (est : Nat → G) (coord : G) (b : BuiltMap G P C)
    (hrun : buildMap r n start es sched obs est coord = .ok b) :
    ∃ (m : G) (F : Nat → G),
      filePoints b.files = mapPoints r.act r.pts b.keys (b.submaps.length * n) F ∧
      Chained r.fe (predictions es) b.keys n (b.submaps.length * n) (fun j => m * est j) F ∧
      ((r.useGps = true ∧ r.isam.useGps = true ∧ ∃ k, IsTrigger r.isam (obs b.submaps) k) →
        m = coord) ∧
      (¬ (r.useGps = true ∧ r.isam.useGps = true ∧ ∃ k, IsTrigger r.isam (obs b.submaps) k) →
        m = 1) ∧
      (∀ k, b.seen = some k → b.submaps.length = k / n ∧ k ≤ b.keys.length) := by
  unfold buildMap at hrun
  obtain ⟨fe, hfe, hrun⟩ := (Outcome.bind_eq_ok _ _ _).mp hrun
  obtain ⟨th, hth, hrun⟩ := (Outcome.bind_eq_ok _ _ _).mp hrun
  obtain ⟨st, hst, hrun⟩ := (Outcome.bind_eq_ok _ _ _).mp hrun
  obtain ⟨files, hfiles, hrun⟩ := (Outcome.bind_eq_ok _ _ _).mp hrun
  cases hrun
  dsimp only
  obtain ⟨fst, log, hf', hpl, _, hkeys⟩ := C58_placed_partial r.fe es start hnorm hc ht
  rw [hfe] at hf'
  cases hf'
  dsimp only at hth ⊢
  -- the key frames follow each other
  have hchain : List.IsChain (Follows r.fe (predictions es)) fst.frames := by
    have := keys_chain r.fe (predictions es) log [] hpl (Or.inl rfl)
    rw [hkeys]; simpa [newestKey] using this
  -- the submap thread's frames
  have hpre := (weave_frames _ _ _ _ _ _ _ _ hth).2
  simp only [SubmapThread.init, List.nil_append] at hpre
  have hframe : ∀ (k : Nat) (f : Frame G P), th.frames[k]? = some f →
      ∃ a, fst.frames[k]? = some a ∧ f = keyFrameOf r.pts r.stampOf a := by
    intro k f hk
    obtain ⟨suf, hsuf⟩ := hpre
    have h2 : (fst.frames.map (keyFrameOf r.pts r.stampOf))[k]? = some f := by
      rw [← hsuf, List.getElem?_append_left (List.getElem?_eq_some_iff.mp hk).1, hk]
    rw [List.getElem?_map] at h2
    cases ha : fst.frames[k]? with
    | none => rw [ha] at h2; cases h2
    | some a => rw [ha] at h2; cases h2; exact ⟨a, rfl, rfl⟩
  have hgrp := fun (k : Nat) (s : Submap G P) => C27_grouping r.act r.sub r.traj n hn ho _ th hth k s
  have hinv := threadInv_run _ _ th (threadInv_init r.act r.sub r.traj n) hth
  have hlen : th.submaps.length * n ≤ fst.frames.length := by
    have h1 := hinv.le
    rw [hinv.cur] at h1
    have h2 := hpre.length_le
    rw [List.length_map] at h2
    omega
  -- the final poses
  obtain ⟨st2, m, hst2, hfin, hm1, hm2⟩ := C73_one_motion (P := P) r.useGps r.isam
    (obs th.submaps) (hv _) est coord th.submaps
  rw [hst] at hst2
  cases hst2
  obtain ⟨st3, hst3, hcount, _⟩ := gpsCoordTransform_eq r.isam (obs th.submaps) (hv _) coord
  rw [hst] at hst3
  cases hst3
  rw [hobs] at hcount
  have hposes : finishPoses r.useGps r.isam st est coord th.submaps =
      th.submaps.mapIdx fun i s => ({ s with
        globalPose := m * est i
        frames := s.frames.map fun f => { f with globalPose := m * est i * f.localPose } } :
          Submap G P) := by
    rw [hfin]
    apply List.ext_getElem?
    intro i
    simp only [finishPoses, alignToGps, finalEstimates, Bool.not_false, if_true, List.getElem?_map,
      List.getElem?_mapIdx]
    cases hi : th.submaps[i]? with
    | none => rfl
    | some s =>
      have : i < st.frames := by
        rw [hcount]; exact (List.getElem?_eq_some_iff.mp hi).1
      simp only [Option.map_some, if_pos this]
      simp [moveSubmap, Submap.updateFrames, Submap.setPose, mul_assoc]
  -- the pose of key frame `k` in the front end
  let g : Nat → G := fun k => ((fst.frames[k]?).map Prod.snd).getD 1
  let F : Nat → G := fun k => m * est (k / n) * ((g (k / n * n))⁻¹ * g k)
  have hg : ∀ (k : Nat) (a : C × G), fst.frames[k]? = some a → g k = a.2 := by
    intro k a h; simp [g, h]
  refine ⟨m, F, ?_, ⟨hlen, ?_, ?_⟩, hm1, hm2, ?_⟩
  · obtain ⟨files', h1, h2⟩ := saved_points r.save hd hs
      ((finishPoses r.useGps r.isam st est coord th.submaps).map (toSave r.act r.origin))
    have : files' = files := by
      unfold finishMap at hfiles
      rw [hfiles] at h1
      cases h1; rfl
    rw [← this, h2]
    unfold points mapPoints
    rw [range_mul_flatMap, flatMap_range, List.length_map, hposes, List.length_mapIdx]
    apply flatMap_congr_range
    intro j hj
    obtain ⟨s, hs⟩ : ∃ s, th.submaps[j]? = some s := ⟨_, List.getElem?_eq_getElem hj⟩
    obtain ⟨_, _, hsl, hsf, _⟩ := hgrp j s hs
    simp only [List.getElem?_map, List.getElem?_mapIdx, hs, Option.map_some, Option.getD_some, toSave]
    rw [flatMap_range, List.length_map, List.length_map, hsl]
    apply flatMap_congr_range
    intro i hi
    obtain ⟨f, f', hf, hf', _, _, hcl, _, hloc, _⟩ := hsf i hi
    obtain ⟨f0, f0', hf0, _, _, _, _, _, _, hfirst, _⟩ := hsf 0 (by omega)
    obtain ⟨a, ha, rfl⟩ := hframe _ _ hf
    obtain ⟨a0, ha0, rfl⟩ := hframe _ _ hf0
    have hs0 := (hfirst rfl).1
    simp only [keyFrameOf] at hs0 hloc hcl
    have hdiv : (j * n + i) / n = j := by
      rw [Nat.mul_comm, Nat.mul_add_div (by omega), Nat.div_eq_of_lt hi, Nat.add_zero]
    have hF : F (j * n + i) = m * est j * f'.localPose := by
      simp only [F, hdiv]
      rw [hg _ a ha, hg (j * n) a0 (by simpa using ha0), ← hloc, hs0]
      group
    simp only [List.getElem?_map, hf', ha, Option.map_some, Option.getD_some, hcl, hF]
  · intro j hj
    have hdiv : j * n / n = j := Nat.mul_div_cancel _ (by omega)
    simp [F, hdiv]
  · intro k a b hk hmod ha hb
    have hfol : Follows r.fe (predictions es) a b := by
      have h1 := List.isChain_iff_getElem.mp hchain k (List.getElem?_eq_some_iff.mp hb).1
      rw [(List.getElem?_eq_some_iff.mp ha).2, (List.getElem?_eq_some_iff.mp hb).2] at h1
      exact h1
    obtain ⟨result, hmt, hpose⟩ := hfol
    refine ⟨result, hmt, ?_⟩
    have hdiv : (k + 1) / n = k / n := by
      rw [Nat.succ_div]
      rw [if_neg]
      · simp
      · intro hdvd; exact hmod (Nat.mod_eq_zero_of_dvd hdvd)
    simp only [F, hdiv]
    rw [hg _ a ha, hg _ b hb, hpose]
    group
  · intro k hk
    have hpc : th.pc = .finished k := by
      cases hp : th.pc with
      | head => rw [hp] at hk; cases hk
      | got m => rw [hp] at hk; cases hk
      | finished m => rw [hp] at hk; cases hk; rfl
    obtain ⟨_, h1, h2, _⟩ := C28_all_frames_partial r.act r.sub r.traj n hn _ th hth k hpc
    have h3 := hpre.length_le
    rw [List.length_map] at h3
    exact ⟨h1, by omega⟩

end

/-! A run over the integers: clouds `[c]`, the scan matcher compares the points, `n = 2`. -/

def lineRun (gps : Bool) : RunCfg (Multiplicative Int) Int Nat Nat :=
  { fe := feDemo false, pts := fun c => [-(c : Int), 0], stampOf := fun c => c, act := lineAct,
    origin := 0, sub := ⟨2, false, id⟩, traj := 0, save := ⟨true, false, false, 1⟩, useGps := gps,
    isam := lineOpts }

def lineClouds : List (FeEvent (Multiplicative Int) Nat) :=
  [.arrive 0 10, .round 1, .arrive 1 11, .arrive 2 12, .round 1, .round 1, .arrive 5 13, .round 1,
   .arrive 9 14, .arrive 12 15, .round 1, .round 1]

def lineBuilt (gps : Bool) (sched : List WeaveStep) :=
  buildMap (lineRun gps) 2 0 lineClouds sched (fun l => l.map fun _ => lineObs (some 1))
    (fun i => .ofAdd (100 * (i : Int))) (.ofAdd 1000)

def builtView (o : Outcome (BuiltMap (Multiplicative Int) Int Nat)) :
    Option (List Nat × Nat × Option Nat × List (MapFile Int)) :=
  match o with
  | .ok b => some (b.keys.map Prod.fst, b.submaps.length, b.seen, b.files)
  | _ => none

/-- Five key frames (0, 2, 5, 9, 12), two submaps; the second key frame is 2 after the first, the
fourth 4 after the third. -/
example : builtView (lineBuilt false
    [.insert, .insert, .read, .insert, .act, .insert, .insert, .stop, .read, .act, .read, .act]) =
    some ([0, 2, 5, 9, 12], 2, some 5, [.whole [0, 0, 0, 2, 95, 100, 95, 104]]) := by decide +kernel

/-- The same in GPS coordinates. -/
example : builtView (lineBuilt true
    [.insert, .insert, .read, .insert, .act, .insert, .insert, .stop, .read, .act, .read, .act]) =
    some ([0, 2, 5, 9, 12], 2, some 5, [.whole [1000, 1000, 1000, 1002, 1095, 1100, 1095, 1104]]) := by
  decide +kernel

/-- C80 is false for the key frames after the last complete submap: the fifth key frame is matched and
inserted, but none of its points is in the map. -/
theorem C80_tail_fails : ∃ sched, builtView (lineBuilt false sched) =
    some ([0, 2, 5, 9, 12], 2, some 5, [.whole [0, 0, 0, 2, 95, 100, 95, 104]]) :=
  ⟨[.insert, .insert, .read, .insert, .act, .insert, .insert, .stop, .read, .act, .read, .act],
    by decide +kernel⟩

end Verif
