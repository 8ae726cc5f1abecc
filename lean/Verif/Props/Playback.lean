import Verif.Proofs.Playback
import Verif.Proofs.CloudIO
/-
C46 (bag playback) and C47 (KITTI scans).
-/
namespace Verif
variable {α : Type}

/-- C46, order.  Whatever the recording, the messages handed out are its first messages, in
recording order, each once: a playback that ends has handed out a prefix. -/
theorem C46_order (delay : Nat) (msgs l : List (BagMsg α))
    (h : bagPlayback delay msgs = .ok l) : l <+: msgs := by
  unfold bagPlayback at h
  rw [Outcome.bind_eq_ok] at h
  obtain ⟨b, hb, h⟩ := h
  have := bag_advance_spec (b := { buffer := [], rest := msgs, finished := false, delay := delay })
    (by intro h; cases h) hb
  have hp := bagPlay_prefix _ b l this.2.2 h
  rw [this.1] at hp
  exact hp

/-- C46, what is delivered.  For a recording in time order whose stamps are at least the buffer
delay (an absolute ROS time is), playback ends without an error and hands out exactly the messages
that are more than the buffer delay older than the last one. -/
theorem C46_delivered_partial (delay : Nat) (msgs : List (BagMsg α)) (last : BagMsg α)
    (hd : ∀ m ∈ msgs, delay ≤ m.time) (hs : msgs.Pairwise (fun a b => a.time ≤ b.time))
    (hl : msgs.getLast? = some last) :
    bagPlayback delay msgs =
      .ok (msgs.filter (fun m => decide (m.time + delay < last.time))) := by
  unfold bagPlayback
  obtain ⟨b, hb⟩ : ∃ b, bagOpen delay msgs = .ok b := bag_advance_ok (by simpa using hd)
  rw [hb]
  simp only [Outcome.bind_ok]
  have hsp := bag_advance_spec
    (b := { buffer := [], rest := msgs, finished := false, delay := delay })
    (by intro h; cases h) hb
  have hbr : b.buffer ++ b.rest = msgs := hsp.1
  have := bagPlay_exact (msgs.length + 1) b last hsp.2.2 (by rw [hbr]; omega)
    (by rw [hbr, hsp.2.1]; exact hd) (by rw [hbr]; exact hs) (by rw [hbr]; exact hl)
  rw [this, hbr, hsp.2.1, takeWhile_eq_filter_sorted last.time hs delay]

/-- A recording with a buffer delay of 10: stamps 100, 105, 120, 125, 131. -/
example : (match bagPlayback 10 ([100, 105, 120, 125, 131].map fun t => BagMsg.mk t ()) with
    | .ok l => l.map (·.time)
    | _ => []) = [100, 105, 120] := by decide

/-- The number of rounds the model allows is no restriction: more rounds give the same result. -/
theorem C46_terminates (delay : Nat) (msgs : List (BagMsg α)) (b : Bag α)
    (hb : bagOpen delay msgs = .ok b) (k : Nat) :
    bagPlay (msgs.length + 1 + k) b = bagPlay (msgs.length + 1) b := by
  have hsp := bag_advance_spec
    (b := { buffer := [], rest := msgs, finished := false, delay := delay })
    (by intro h; cases h) hb
  have key : ∀ (n : Nat) (b : Bag α), BagReady b → (b.buffer ++ b.rest).length < n →
      bagPlay (n + k) b = bagPlay n b := by
    intro n
    induction n with
    | zero => intro b _ h; omega
    | succ n ih =>
      intro b hr hn
      rw [show n + 1 + k = (n + k) + 1 by omega]
      simp only [bagPlay]
      cases ha : b.available with
      | abort => rfl
      | ub => rfl
      | ok a =>
        simp only [Outcome.bind_ok]
        cases a with
        | false => rfl
        | true =>
          simp only [if_true]
          cases hx : b.next with
          | abort => rfl
          | ub => rfl
          | ok r =>
            simp only [Outcome.bind_ok]
            have := bag_next_spec hr (m := r.1) (b' := r.2) hx
            rw [ih r.2 this.2.2 (by
              rw [this.1] at hn
              simp only [List.length_cons] at hn
              omega)]
  exact key _ b hsp.2.2 (by rw [hsp.1]; simp)

/-- C46, completeness, is false: of every recording in time order at least the last message is
never handed out. -/
theorem C46_last_lost_fails : ¬ (∃ (delay : Nat) (msgs : List (BagMsg Unit)), msgs ≠ [] ∧
    (∀ m ∈ msgs, delay ≤ m.time) ∧ msgs.Pairwise (fun a b => a.time ≤ b.time) ∧
    bagPlayback delay msgs = .ok msgs) := by
  rintro ⟨delay, msgs, hne, hd, hs, h⟩
  obtain ⟨last, hl⟩ := Option.ne_none_iff_exists'.mp
    (show msgs.getLast? ≠ none from fun h => hne (List.getLast?_eq_none_iff.mp h))
  rw [C46_delivered_partial delay msgs last hd hs hl] at h
  simp only [Outcome.ok.injEq] at h
  have hm : last ∈ msgs.filter (fun m => decide (m.time + delay < last.time)) := by
    rw [h]
    exact List.mem_of_getLast? hl
  have := (List.mem_filter.mp hm).2
  simp only [decide_eq_true_eq] at this
  omega

/-! ### C47 -/

/-- The sixteen bytes of a point in a scan file. -/
def KittiPoint.image (p : KittiPoint) : List UInt8 :=
  u32Bytes p.x ++ u32Bytes p.y ++ u32Bytes p.z ++ u32Bytes p.intensity

theorem kittiImage_length (p : KittiPoint) : p.image.length = 16 := by
  simp [KittiPoint.image, u32Bytes_length]

theorem kittiFile_length (pts : List KittiPoint) :
    (pts.flatMap KittiPoint.image).length = 16 * pts.length := by
  induction pts with
  | nil => rfl
  | cons p pts ih =>
    rw [List.flatMap_cons, List.length_append, ih, kittiImage_length, List.length_cons]
    omega

theorem kittiPoint_image (scale : UInt32 → UInt32) (p : KittiPoint) (tail : List UInt8) :
    kittiPoint scale (p.image ++ tail) 0 = { p with intensity := scale p.intensity } := by
  have e : p.image ++ tail =
      u32Bytes p.x ++ (u32Bytes p.y ++ (u32Bytes p.z ++ (u32Bytes p.intensity ++ tail))) := by
    simp [KittiPoint.image]
  have l := u32Bytes_length
  unfold kittiPoint
  rw [e]
  have h4 : ∀ (u : UInt32) (t : List UInt8), (u32Bytes u ++ t).take 4 = u32Bytes u :=
    fun u t => List.take_left' (l u)
  have d4 : ∀ (u : UInt32) (t : List UInt8) (n : Nat),
      (u32Bytes u ++ t).drop (4 + n) = t.drop n := by
    intro u t n
    rw [← List.drop_drop, List.drop_left' (l u)]
  simp only [Nat.mul_zero, Nat.zero_add, List.drop_zero]
  rw [show (8 : Nat) = 4 + 4 from rfl, show (12 : Nat) = 4 + (4 + 4) from rfl]
  have d40 : ∀ (u : UInt32) (t : List UInt8), (u32Bytes u ++ t).drop 4 = t :=
    fun u t => List.drop_left' (l u)
  rw [d4, d4, d4, d40, d40, d40, h4, h4, h4, h4]
  simp only [u32_roundtrip]

theorem kittiPoint_shift (scale : UInt32 → UInt32) (a b : List UInt8) (ha : a.length = 16)
    (i : Nat) : kittiPoint scale (a ++ b) (i + 1) = kittiPoint scale b i := by
  have d : ∀ n, (a ++ b).drop (16 * (i + 1) + n) = b.drop (16 * i + n) := by
    intro n
    rw [show 16 * (i + 1) + n = 16 + (16 * i + n) by omega, ← List.drop_drop,
      List.drop_left' ha]
  unfold kittiPoint
  rw [d 4, d 8, d 12]
  have := d 0
  rw [Nat.add_zero] at this
  rw [this]
  rfl

/-- C47, scans.  A file with the images of up to 250000 points and at most an incomplete point
after them is read as exactly those points, in file order, with the intensities scaled. -/
theorem C47_scan (scale : UInt32 → UInt32) (pts : List KittiPoint) (trailing : List UInt8)
    (ht : trailing.length < 16) (hl : pts.length ≤ 250000) :
    readKitti scale (pts.flatMap KittiPoint.image ++ trailing) =
      pts.map (fun p => { p with intensity := scale p.intensity }) := by
  unfold readKitti kittiLimit
  dsimp only
  have hn : min 1000000 ((pts.flatMap KittiPoint.image ++ trailing).length / 4) / 4 =
      pts.length := by
    rw [List.length_append, kittiFile_length]
    omega
  rw [hn]
  clear hn hl
  induction pts with
  | nil => rfl
  | cons p pts ih =>
    rw [List.length_cons, List.range_succ_eq_map, List.map_cons, List.map_cons, List.map_map]
    rw [List.flatMap_cons, List.append_assoc, kittiPoint_image]
    refine congrArg _ ?_
    refine (List.map_congr_left ?_).trans ih
    intro i _
    exact kittiPoint_shift scale p.image _ (kittiImage_length p) i

/-- The points of a file never outnumber the buffer: 250000, or one for every sixteen bytes. -/
theorem C47_limit (scale : UInt32 → UInt32) (file : List UInt8) :
    (readKitti scale file).length = min 250000 (file.length / 16) := by
  unfold readKitti kittiLimit
  simp only [List.length_map, List.length_range]
  omega

/-- Two points and seven bytes more. -/
example : readKitti (fun u => u + 1)
    ([KittiPoint.mk 1 2 3 4, KittiPoint.mk 5 6 7 8].flatMap KittiPoint.image ++
      [1, 2, 3, 4, 5, 6, 7]) = [⟨1, 2, 3, 5⟩, ⟨5, 6, 7, 9⟩] := by decide

/-- `n` successive reads. -/
def kittiReads (scale : UInt32 → UInt32) (fs : List Char → Option (List UInt8)) :
    Nat → Kitti → Outcome (List (Option (List KittiPoint)) × Kitti)
  | 0, k => .ok ([], k)
  | n + 1, k => do
    let r ← k.readNext scale fs
    let l ← kittiReads scale fs n r.2
    return (r.1 :: l.1, l.2)

theorem kittiReads_drop (scale : UInt32 → UInt32) (fs : List Char → Option (List UInt8)) (n : Nat) :
    ∀ (k : Kitti), (∀ f ∈ k.files, ∃ c, fs f = some c) → k.index + n ≤ k.files.length →
      ∃ k', kittiReads scale fs n k = .ok (((k.files.drop k.index).take n).map
        (fun f => (fs f).map (readKitti scale)), k') ∧ k'.files = k.files ∧
        k'.index = k.index + n ∧ k'.heap = k.heap + n * 4000000 := by
  induction n with
  | zero => intro k _ _; exact ⟨k, rfl, rfl, rfl, by simp⟩
  | succ n ih =>
    intro k hf hn
    have hi : k.index < k.files.length := by omega
    obtain ⟨c, hc⟩ := hf k.files[k.index] (List.getElem_mem hi)
    obtain ⟨k', h1, h2, h3, h4⟩ := ih
      { k with index := k.index + 1, heap := k.heap + 4 * kittiLimit } hf
      (show k.index + 1 + n ≤ k.files.length by omega)
    refine ⟨k', ?_, h2, ?_, ?_⟩
    · simp only [kittiReads]
      unfold Kitti.readNext
      rw [List.getElem?_eq_getElem hi]
      dsimp only
      rw [hc]
      simp only [Outcome.bind_ok]
      rw [h1]
      simp only [Outcome.bind_ok, Outcome.pure_eq]
      rw [List.drop_eq_getElem_cons hi, List.take_succ_cons, List.map_cons, hc]
      rfl
    · rw [h3]; show k.index + 1 + n = _; omega
    · rw [h4]; simp only [kittiLimit]; omega

/-- C47, files.  Whatever order the directory lists its files in, reading as often as there are
files returns the content of each file once, by increasing name; the next read returns nothing. -/
theorem C47_files (scale : UInt32 → UInt32) (fs : List Char → Option (List UInt8))
    (dir : List (List Char)) (hf : ∀ f ∈ dir, ∃ c, fs f = some c) :
    ∃ (names : List (List Char)) (k : Kitti), names.Perm dir ∧ names.Pairwise (· ≤ ·) ∧
      kittiReads scale fs dir.length (kittiOpen dir) =
        .ok (names.map (fun f => (fs f).map (readKitti scale)), k) ∧
      k.readNext scale fs = .ok (none, k) := by
  have hp : (kittiOpen dir).files.Perm dir := List.perm_insertionSort _ dir
  obtain ⟨k, h1, h2, h3, _⟩ := kittiReads_drop scale fs dir.length (kittiOpen dir)
    (fun f h => hf f (hp.mem_iff.mp h)) (by rw [hp.length_eq]; show 0 + _ ≤ _; omega)
  refine ⟨(kittiOpen dir).files, k, hp, List.pairwise_insertionSort _ dir, ?_, ?_⟩
  · rw [h1]
    have : ((kittiOpen dir).files.drop (kittiOpen dir).index).take dir.length =
        (kittiOpen dir).files := by
      show ((kittiOpen dir).files.drop 0).take dir.length = _
      rw [List.drop_zero, ← hp.length_eq, List.take_length]
    rw [this]
  · unfold Kitti.readNext
    have : k.files[k.index]? = none := by
      rw [h2, h3]
      apply List.getElem?_eq_none
      rw [hp.length_eq]
      show dir.length ≤ 0 + dir.length
      omega
    rw [this]

/-- A directory listed out of order. -/
example : (kittiOpen ["b".toList, "c".toList, "a".toList]).files =
    ["a".toList, "b".toList, "c".toList] := by decide +kernel

/-- C47, playback.  The clouds the node hands to the map builder are those of the files in name
order up to, not including, the first one without a complete point. -/
theorem C47_play (scale : UInt32 → UInt32) (fs : List Char → Option (List UInt8))
    (dir : List (List Char)) (hf : ∀ f ∈ dir, ∃ c, fs f = some c) :
    kittiPlay scale fs (dir.length + 1) (kittiOpen dir) =
      .ok (((kittiOpen dir).files.map (fun f => readKitti scale ((fs f).getD []))).takeWhile
        (fun c => decide (c ≠ []))) := by
  have hp : (kittiOpen dir).files.Perm dir := List.perm_insertionSort _ dir
  have := kittiPlay_spec scale fs (dir.length + 1) (kittiOpen dir)
    (fun f h => hf f (hp.mem_iff.mp h)) (by rw [hp.length_eq]; show _ < _ + 0; omega)
    (Nat.zero_le _)
  rw [this]
  rfl

/-- C47, playback is not complete: a file without a complete point ends it, the files after it
are never read. -/
theorem C47_play_all_fails : ¬ (∀ (fs : List Char → Option (List UInt8)) (dir : List (List Char)),
    (∀ f ∈ dir, ∃ c, fs f = some c) → ∃ l, kittiPlay id fs (dir.length + 1) (kittiOpen dir) =
      .ok l ∧ ∀ f ∈ dir, ∀ c, fs f = some c → readKitti id c ≠ [] → readKitti id c ∈ l) := by
  intro h
  obtain ⟨l, hl, hall⟩ := h
    (fun f => if f = ['a'] then some [] else some (KittiPoint.image ⟨1, 2, 3, 4⟩))
    [['a'], ['b']]
    (by
      intro f _
      split <;> exact ⟨_, rfl⟩)
  have h0 : kittiPlay id (fun f => if f = ['a'] then some [] else
      some (KittiPoint.image ⟨1, 2, 3, 4⟩)) 3 (kittiOpen [['a'], ['b']]) = .ok [] := by rfl
  rw [show ([['a'], ['b']] : List (List Char)).length + 1 = 3 from rfl, h0] at hl
  simp only [Outcome.ok.injEq] at hl
  subst hl
  have := hall ['b'] (by simp) (KittiPoint.image ⟨1, 2, 3, 4⟩) (by simp) (by decide)
  cases this

/-- Reading is not bounded in memory: every scan leaves its four million byte buffer behind. -/
theorem C47_memory_leak (scale : UInt32 → UInt32) (fs : List Char → Option (List UInt8))
    (dir : List (List Char)) (hf : ∀ f ∈ dir, ∃ c, fs f = some c) :
    ∃ l k, kittiReads scale fs dir.length (kittiOpen dir) = .ok (l, k) ∧
      k.heap = dir.length * 4000000 := by
  have hp : (kittiOpen dir).files.Perm dir := List.perm_insertionSort _ dir
  obtain ⟨k, h1, _, _, h4⟩ := kittiReads_drop scale fs dir.length (kittiOpen dir)
    (fun f h => hf f (hp.mem_iff.mp h)) (by rw [hp.length_eq]; show 0 + _ ≤ _; omega)
  exact ⟨_, k, h1, by rw [h4]; show 0 + _ = _; omega⟩

end Verif
