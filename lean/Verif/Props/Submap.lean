import Verif.Proofs.Submap
import Mathlib.Algebra.Group.Int.Defs
import Mathlib.Algebra.Group.TypeTags.Basic
/-! Property theorems C27 (grouping of frames), C28 (all frames reach a submap) and C30 (poses). -/
namespace Verif
open Spec
variable {G P : Type} [Group G]

/-- C27: under every schedule of the two threads, submap `k` is full, carries the id (trajectory,
`k`) and holds exactly the key frames number `k*n`, ..., `k*n+n-1` in order, each with its position
as frame index and with its pose, time and points unchanged; its own pose and time are those of its
first frame; looking a frame up by its id gives that frame and any other id gives nothing. -/
theorem C27_grouping (act : G → P → P) (o : SubmapOpts P) (traj : Int) (n : Nat)
    (hn : 1 ≤ n) (ho : o.frameCount = n)
    (es : List (SubmapEv G P)) (st : SubmapThread G P)
    (hrun : SubmapThread.run act o traj n SubmapThread.init es = .ok st)
    (k : Nat) (s : Submap G P) (hk : st.submaps[k]? = some s) :
    s.full = true ∧ s.id = ⟨traj, k⟩ ∧ s.frames.length = n ∧
    (∀ i, i < n → ∃ f f' : Frame G P, st.frames[k * n + i]? = some f ∧ s.frames[i]? = some f' ∧
      f'.id = ⟨traj, k, i⟩ ∧ f'.globalPose = f.globalPose ∧ f'.cloud = f.cloud ∧
      f'.stamp = f.stamp ∧ s.globalPose * f'.localPose = f.globalPose ∧
      (i = 0 → s.globalPose = f.globalPose ∧ s.stamp = f.stamp) ∧
      s.getFrame f'.id = some f') ∧
    (∀ id : FrameId, (∀ f ∈ s.frames, f.id ≠ id) → s.getFrame id = none) := by
  have hi := threadInv_run es _ st (threadInv_init act o traj n) hrun
  obtain ⟨hinv, hfull⟩ := makeSubmap_ok (hi.built k s hk)
  have hk' : k < st.submaps.length := by
    by_contra hc
    rw [List.getElem?_eq_none (by omega)] at hk; cases hk
  have h1 : k * n + n ≤ st.frames.length := by
    have : (k + 1) * n ≤ st.submaps.length * n := Nat.mul_le_mul_right n hk'
    have h2 := hi.cur; have h3 := hi.le
    rw [Nat.add_mul] at this; omega
  have hlen : ((st.frames.drop (k * n)).take n).length = n := by
    rw [List.length_take, List.length_drop]; omega
  have hl : s.frames.length = n := hinv.holds.length.trans hlen
  have hid : s.id = ⟨traj, k⟩ := hinv.id
  have hfr : ∀ i, i < n → ∃ f f' : Frame G P, st.frames[k * n + i]? = some f ∧
      s.frames[i]? = some f' ∧
      f'.id = ⟨traj, k, i⟩ ∧ f'.globalPose = f.globalPose ∧ f'.cloud = f.cloud ∧
      f'.stamp = f.stamp ∧ s.globalPose * f'.localPose = f.globalPose ∧
      (i = 0 → s.globalPose = f.globalPose ∧ s.stamp = f.stamp) := by
    intro i hin
    have hlt : k * n + i < st.frames.length := by omega
    have hg : ((st.frames.drop (k * n)).take n)[i]? = some st.frames[k * n + i] := by
      rw [List.getElem?_take_of_lt hin, List.getElem?_drop, List.getElem?_eq_getElem hlt]
    obtain ⟨f', e1, e2, e3, e4, e5, e6⟩ := hinv.holds.frame i _ hg
    refine ⟨st.frames[k * n + i], f', List.getElem?_eq_getElem hlt, e1, ?_, e3, e4, e5, e6, ?_⟩
    · rw [e2, hid]
    · rintro rfl
      apply hinv.first
      rw [List.head?_eq_getElem?]; exact hg
  refine ⟨hfull, hid, hl, ?_, ?_⟩
  · intro i hin
    obtain ⟨f, f', e0, e1, e2, e3, e4, e5, e6, e7⟩ := hfr i hin
    refine ⟨f, f', e0, e1, e2, e3, e4, e5, e6, e7, ?_⟩
    unfold Submap.getFrame
    rw [e2, hid, hl]
    rw [if_neg (by simp), if_neg (by simp; omega)]
    simpa using e1
  · intro id hno
    unfold Submap.getFrame
    by_cases hc : id.submap ≠ s.id.submap ∨ id.trajectory ≠ s.id.trajectory
    · rw [if_pos hc]
    · rw [if_neg hc]
      by_cases hd : id.frame < 0 ∨ (s.frames.length : Int) ≤ id.frame
      · rw [if_pos hd]
      · exfalso
        obtain ⟨f, f', -, e1, e2, -⟩ := hfr id.frame.toNat (by omega)
        apply hno f' (List.mem_of_getElem? e1)
        rw [e2]
        rw [hid] at hc
        cases id
        simp only [ne_eq, not_or, not_not] at hc hd
        simp only [FrameId.mk.injEq]
        omega

/-- C27, capacity: a submap for `n ≥ 1` frames accepts at most `n` (the next insertion stops the
program), is full exactly when it has `n`, and accepts any `n` frames that have points. -/
theorem C27_capacity (act : G → P → P) (o : SubmapOpts P) (id : SubmapId) (n : Nat)
    (hn : 1 ≤ n) (ho : o.frameCount = n) (hm : o.innerMrvm = false)
    (hv : ∀ l, l ≠ [] → o.voxelFilter l ≠ [])
    (fs : List (Frame G P)) (hc : ∀ f ∈ fs, f.cloud ≠ []) :
    ((∃ s, fs.foldlM (Submap.insertFrame act o) (Submap.new id) = .ok s) ↔ fs.length ≤ n) ∧
    (∀ s, fs.foldlM (Submap.insertFrame act o) (Submap.new id) = .ok s →
      (s.full = true ↔ fs.length = n)) := by
  refine ⟨⟨?_, ?_⟩, ?_⟩
  · rintro ⟨s, hs⟩
    have := fold_length fs [] _ s (insInv_new act o id) (by simp; omega) (by omega) hs
    simp at this; omega
  · intro hle
    exact fold_ok (act := act) hm hv (by omega) fs [] _ (insInv_new act o id) (by simpa using hc)
      (by simp; omega) (fun _ => rfl)
  · intro s hs
    have hi := insInv_fold fs [] _ s (insInv_new act o id) hs
    simp only [List.nil_append] at hi
    constructor
    · intro hf
      have := (hi.full hf).1
      omega
    · intro hl
      cases hf : s.full with
      | true => rfl
      | false =>
        have := hi.notFull hf (by omega)
        subst this
        simp at hl; omega

/-- C27, the cloud of a full submap: the points of its frames in order, each moved by its frame's
local pose, then filtered. -/
theorem C27_cloud (act : G → P → P) (o : SubmapOpts P) (id : SubmapId) (fs : List (Frame G P))
    (s : Submap G P) (hm : o.innerMrvm = false) (h : makeSubmap act o id fs = .ok s)
    (hf0 : ∃ f ∈ fs, f.cloud ≠ []) :
    ∃ f0, fs.head? = some f0 ∧
    s.cloud = some (o.voxelFilter
      (fs.flatMap fun f => f.cloud.map (act (f0.globalPose⁻¹ * f.globalPose)))) := by
  obtain ⟨hi, hfull⟩ := makeSubmap_ok h
  obtain ⟨-, c, hb, hc⟩ := hi.full hfull
  obtain ⟨g, hg, hgc⟩ := hf0
  cases fs with
  | nil => simp at hg
  | cons f0 fs' =>
    refine ⟨f0, rfl, ?_⟩
    have hpose := (hi.first f0 rfl).1
    have hfl : s.frames.flatMap (fun f => f.cloud.map (act f.localPose)) =
        (f0 :: fs').flatMap fun f => f.cloud.map (act (f0.globalPose⁻¹ * f.globalPose)) := by
      rw [List.flatMap_def, List.flatMap_def]
      congr 1
      apply List.ext_getElem
      · simp [hi.holds.length]
      · intro i h1 h2
        have hlt : i < (f0 :: fs').length := by simpa using h2
        obtain ⟨f', e1, -, -, e4, -, e6⟩ := hi.holds.frame i _ (List.getElem?_eq_getElem hlt)
        rw [List.getElem_map, List.getElem_map]
        have hlt' : i < s.frames.length := by rw [hi.holds.length]; exact hlt
        rw [List.getElem?_eq_getElem hlt', Option.some.injEq] at e1
        rw [e1, e4, ← e6, hpose, inv_mul_cancel_left]
    have hne : s.frames.flatMap (fun f => f.cloud.map (act f.localPose)) ≠ [] := by
      rw [hfl]
      intro h0
      rw [List.flatMap_eq_nil_iff] at h0
      exact hgc (by simpa using h0 g hg)
    unfold Submap.build at hb
    simp only [hm, Bool.false_eq_true, ↓reduceIte] at hb
    rw [if_neg (by simpa [List.isEmpty_iff] using hne), Outcome.check_bind_eq_ok] at hb
    obtain ⟨-, hb⟩ := hb
    simp only [Outcome.pure_eq, Outcome.ok.injEq] at hb
    rw [hc, ← hb, hfl]

/-- With the inner voxel map enabled no submap can ever be completed: the program stops when the
last frame is inserted, whatever the frames are. -/
theorem C27_inner_mrvm_fails (act : G → P → P) (o : SubmapOpts P) (id : SubmapId)
    (hm : o.innerMrvm = true) (fs : List (Frame G P)) (s : Submap G P) :
    makeSubmap act o id fs ≠ .ok s := by
  intro h
  obtain ⟨hi, hfull⟩ := makeSubmap_ok h
  obtain ⟨-, c, hb, -⟩ := hi.full hfull
  unfold Submap.build at hb
  simp only [hm, ↓reduceIte, List.isEmpty_nil] at hb
  rw [Outcome.check_neg (by simp)] at hb
  cases hb

/-! A concrete run: the group of translations of the integers acting on integer points, `n = 2`. -/

abbrev Tr := Multiplicative Int
def shift (g : Tr) (p : Int) : Int := g.toAdd + p
def exFrame (pose : Int) (c : List Int) : Frame Tr Int :=
  ⟨⟨0, 0, 0⟩, Multiplicative.ofAdd pose, 1, 0, c⟩
def exOpts : SubmapOpts Int := ⟨2, false, id⟩

/-- Clouds, frame ids and full flags of the submaps after a schedule. -/
def threadView (es : List (SubmapEv Tr Int)) : List (Option (List Int) × List FrameId × Bool) :=
  match SubmapThread.run shift exOpts 7 2 SubmapThread.init es with
  | .ok st => st.submaps.map fun s => (s.cloud, s.frames.map (·.id), s.full)
  | _ => []

/-- What the submap thread has done at the end of a schedule: finished?, number of submaps, number
of frames. -/
def threadEnd (es : List (SubmapEv Tr Int)) : Option (Bool × Nat × Nat) :=
  match SubmapThread.run shift exOpts 7 2 SubmapThread.init es with
  | .ok st => some (match st.pc with | .finished _ => true | _ => false, st.submaps.length,
      st.frames.length)
  | _ => none

example : threadView [.insert (exFrame 10 [1, 2]), .insert (exFrame 13 [5]), .read, .act,
    .insert (exFrame 20 [0]), .read, .act, .insert (exFrame 21 [0]), .read, .act] =
    [(some [1, 2, 8], [⟨7, 0, 0⟩, ⟨7, 0, 1⟩], true),
     (some [0, 1], [⟨7, 1, 0⟩, ⟨7, 1, 1⟩], true)] := by
  decide

/-- C28 for every schedule: when the submap thread has ended, every complete group among the frames
it saw at its last look has become a submap; so if no frame arrived after that look, every complete
group of `n` key frames has.
Missing: frames that arrive between the last look at the number of frames and the look at the
running flag (`C28_all_frames_fails`). -/
theorem C28_all_frames_partial (act : G → P → P) (o : SubmapOpts P) (traj : Int) (n : Nat)
    (hn : 1 ≤ n) (es : List (SubmapEv G P)) (st : SubmapThread G P)
    (hrun : SubmapThread.run act o traj n SubmapThread.init es = .ok st)
    (m : Nat) (hfin : st.pc = .finished m) :
    st.running = false ∧ st.submaps.length = m / n ∧ m ≤ st.frames.length ∧
    (m = st.frames.length → st.submaps.length = st.frames.length / n) := by
  have hi := threadInv_run es _ st (threadInv_init act o traj n) hrun
  obtain ⟨h1, h2, h3, h4⟩ := hi.done m hfin
  have hdiv : st.submaps.length = m / n := by
    symm
    rw [Nat.div_eq_iff (by omega)]
    have := hi.cur
    rw [this] at h2 h3
    have hc : n * st.submaps.length = st.submaps.length * n := Nat.mul_comm _ _
    constructor <;> omega
  exact ⟨h1, hdiv, h4, fun e => e ▸ hdiv⟩

/-- C28 for every schedule in which scan matching ends while the submap thread is not between its
look at the number of frames and its look at the flag: all complete groups become submaps. -/
theorem C28_stop_partial (act : G → P → P) (o : SubmapOpts P) (traj : Int) (n : Nat)
    (hn : 1 ≤ n) (es es' : List (SubmapEv G P)) (mid st : SubmapThread G P)
    (hmid : SubmapThread.run act o traj n SubmapThread.init es = .ok mid)
    (hhead : mid.pc = .head)
    (hrun : SubmapThread.run act o traj n mid (.stop :: es') = .ok st)
    (m : Nat) (hfin : st.pc = .finished m) :
    st.frames = mid.frames ∧ st.submaps.length = st.frames.length / n := by
  have hall : SubmapThread.run act o traj n SubmapThread.init (es ++ .stop :: es') = .ok st := by
    rw [run_append, hmid]; exact hrun
  have hp := C28_all_frames_partial act o traj n hn _ st hall m hfin
  unfold SubmapThread.run at hrun
  simp only [SubmapThread.step, Outcome.bind_ok] at hrun
  obtain ⟨h1, h2⟩ := stopped_run es' { mid with running := false } st rfl
    (by intro m hm; rw [hhead] at hm; simp at hm) hrun
  exact ⟨h1, hp.2.2.2 (h2 m (Or.inr hfin))⟩

/-- C28 is false: the submap thread reads 0 frames, then two frames are inserted and scan matching
ends; the thread sees that scan matching has ended and quits without building the submap. -/
theorem C28_all_frames_fails : threadEnd
    [.read, .insert (exFrame 10 [1]), .insert (exFrame 13 [5]), .stop, .act] =
    some (true, 0, 2) := by decide

/-- The other order of the last steps builds it. -/
example : threadEnd
    [.insert (exFrame 10 [1]), .insert (exFrame 13 [5]), .stop, .read, .act, .read, .act] =
    some (true, 1, 2) := by decide

/-- C30, first part: inserting a frame stores the local pose which composed with the submap's pose
(after the insertion) is the frame's global pose, and changes no other frame. -/
theorem C30_insert (act : G → P → P) (o : SubmapOpts P) (s s' : Submap G P) (f : Frame G P)
    (h : s.insertFrame act o f = .ok s') :
    ∃ f', s'.frames = s.frames ++ [f'] ∧ f'.globalPose = f.globalPose ∧
      s'.globalPose * f'.localPose = f.globalPose ∧
      (s.frames ≠ [] → s'.globalPose = s.globalPose) := by
  obtain ⟨-, -, h2, h3, -⟩ := insertFrame_ok h
  refine ⟨stored s f, h2, rfl, ?_, ?_⟩
  · rw [h3]
    unfold stored
    by_cases h0 : s.frames.length = 0
    · simp [h0]
    · simp [h0]
  · intro hne
    rw [h3, if_neg (by simpa using hne)]

/-- C30, second part: over every history of insertions and pose changes no frame's local pose, id,
time or points ever change, and once the frames have been updated after the last pose change every
frame's global pose is the submap's pose composed with its local pose; so the pose of one frame
relative to another only depends on the local poses. -/
theorem C30_follow (act : G → P → P) (o : SubmapOpts P) :
    ∀ (ops : List (PoseOp G P)) (s s' : Submap G P), runPose act o s ops = .ok s' →
    (∀ (i : Nat) (f : Frame G P), s.frames[i]? = some f → ∃ f', s'.frames[i]? = some f' ∧
      f'.localPose = f.localPose ∧ f'.id = f.id ∧ f'.stamp = f.stamp ∧ f'.cloud = f.cloud) ∧
    (∀ f ∈ s'.updateFrames.frames, f.globalPose = s'.globalPose * f.localPose) ∧
    (∀ (i j : Nat) (fi fj : Frame G P), s.frames[i]? = some fi → s.frames[j]? = some fj →
      ∃ fi' fj' : Frame G P, s'.updateFrames.frames[i]? = some fi' ∧
        s'.updateFrames.frames[j]? = some fj' ∧
        fi'.globalPose⁻¹ * fj'.globalPose = fi.localPose⁻¹ * fj.localPose) := by
  have key : ∀ (ops : List (PoseOp G P)) (s s' : Submap G P), runPose act o s ops = .ok s' →
      ∀ (i : Nat) (f : Frame G P), s.frames[i]? = some f → ∃ f', s'.frames[i]? = some f' ∧
        f'.localPose = f.localPose ∧ f'.id = f.id ∧ f'.stamp = f.stamp ∧ f'.cloud = f.cloud := by
    intro ops
    induction ops with
    | nil =>
      intro s s' h i f hf
      cases h
      exact ⟨f, hf, rfl, rfl, rfl, rfl⟩
    | cons op ops ih =>
      intro s s' h i f hf
      cases op with
      | insert g =>
        simp only [runPose] at h
        rw [Outcome.bind_eq_ok] at h
        obtain ⟨s1, h1, h2⟩ := h
        obtain ⟨-, -, h3, -⟩ := insertFrame_ok h1
        refine ih s1 s' h2 i f ?_
        rw [h3, List.getElem?_append_left]
        · exact hf
        · by_contra hc
          rw [List.getElem?_eq_none (by omega)] at hf; cases hf
      | setPose g => exact ih _ s' h i f hf
      | update =>
        simp only [runPose] at h
        obtain ⟨f', e1, e2, e3, e4, e5⟩ := ih _ s' h i
          { f with globalPose := s.globalPose * f.localPose }
          (by simp [Submap.updateFrames, hf])
        exact ⟨f', e1, e2, e3, e4, e5⟩
  have hupd : ∀ s' : Submap G P, ∀ f ∈ s'.updateFrames.frames,
      f.globalPose = s'.globalPose * f.localPose := by
    intro s' f hf
    simp only [Submap.updateFrames, List.mem_map] at hf
    obtain ⟨a, -, rfl⟩ := hf
    rfl
  intro ops s s' h
  refine ⟨key ops s s' h, hupd s', ?_⟩
  intro i j fi fj hi hj
  obtain ⟨fi', a1, a2, -⟩ := key ops s s' h i fi hi
  obtain ⟨fj', b1, b2, -⟩ := key ops s s' h j fj hj
  refine ⟨{ fi' with globalPose := s'.globalPose * fi'.localPose },
    { fj' with globalPose := s'.globalPose * fj'.localPose },
    by simp [Submap.updateFrames, a1], by simp [Submap.updateFrames, b1], ?_⟩
  simp only [a2, b2]
  rw [mul_inv_rev, mul_assoc, inv_mul_cancel_left]

/-- Global and local poses after a history. -/
def poseView (ops : List (PoseOp Tr Int)) : List (Int × Int) :=
  match runPose shift exOpts (Submap.new ⟨0, 0⟩) ops with
  | .ok s => s.frames.map fun f => (f.globalPose.toAdd, f.localPose.toAdd)
  | _ => []

example : poseView [.insert (exFrame 10 [1]), .insert (exFrame 13 [5]),
    .setPose (Multiplicative.ofAdd 100), .update] = [(100, 0), (103, 3)] := by decide

end Verif
