import Verif.Proofs.DepthCluster
import Mathlib.Data.List.Dedup
/-
C52: depth clusters.
-/
namespace Verif
open Spec

variable {R : Type} [Field R] [LinearOrder R]

/-- C52.  A range image object that has not clustered before is given a cloud, filters it and
clusters it.  For an image with at least one row and two columns this never stops (the labelling
loop always ends), and afterwards:
- exactly the pixels have a label;
- two pixels have the same label exactly if a chain of linked pixels joins them;
- the clusters are listed by increasing label; the cluster of a label lists the indices of exactly
  the pixels with that label, each once, and has at least 20; every label with at least 20 pixels has
  one; different clusters share no index;
- the output has exactly the points of the clusters with their labels. -/
theorem C52_clusters_partial (near : R) (G : ImageGeom R) (cfg : DepthCfg R) (hr : 0 < cfg.rows)
    (hc : 2 ≤ cfg.cols) (htiny : 0 < cfg.tiny) (cloud : InnerCloud R) (hcloud : cloud.points ≠ [])
    (st : DepthFilter R) (hnew : st.clusters = []) (out : InnerCloud R) :
    ∃ (st1 st2 : DepthFilter R) (out1 : InnerCloud R) (labelled : List (Nat × InnerPoint R)),
      (st.setInput cfg (some cloud)).filter near G cfg out = .ok (st1, out1) ∧
      st1.cluster cfg = .ok (st2, labelled) ∧
      (∀ c, 0 < st2.lab c ↔ Pixel cfg st1.base.image c) ∧
      (∀ a b, Pixel cfg st1.base.image a → Pixel cfg st1.base.image b →
        (st2.lab a = st2.lab b ↔ Joined cfg st1.base.image a b)) ∧
      (st2.clusters.map Prod.fst).Pairwise (· < ·) ∧
      (∀ e ∈ st2.clusters, 20 ≤ e.2.length ∧ e.2.Nodup ∧ ∀ i, i ∈ e.2 ↔
        ∃ c, Pixel cfg st1.base.image c ∧ st2.lab c = e.1 ∧ st1.base.image.index c = some i) ∧
      (∀ cells : List (Int × Int), cells.Nodup → 20 ≤ cells.length →
        ∀ l, (∀ c ∈ cells, Pixel cfg st1.base.image c ∧ st2.lab c = l) →
          ∃ e ∈ st2.clusters, e.1 = l) ∧
      (∀ e ∈ st2.clusters, ∀ e' ∈ st2.clusters, e ≠ e' → ∀ i ∈ e.2, i ∉ e'.2) ∧
      labelled.map some = st2.clusters.flatMap fun e => e.2.map fun i =>
        cloud.points[i]?.map fun p => (e.1, p) := by
  have hset : st.setInput cfg (some cloud) =
      ⟨⟨{ st.base.base with input := some cloud }, ImageState.blank⟩, fun _ => 0, []⟩ := by
    unfold DepthFilter.setInput ImageFilter.setInput
    have he : cloud.points.isEmpty = false := by simpa using hcloud
    dsimp only
    rw [he, hnew]
    simp only [Bool.false_eq_true, if_false, false_or]
    rw [if_neg (by omega), if_neg (by omega)]
  have hblank : ImgInv cfg.tiny (ImageState.blank : ImageState R) 0 := by
    constructor
    · intro c h
      exact absurd htiny h
    · intro c i h
      cases h
    · intro c d i h
      cases h
  have himg0 := scan_imgInv near cfg.tiny G cfg.rows cfg.cols cloud.points ImageState.blank 0 hblank
  set r := scanFrom (imageKeep near cfg.tiny G cfg.rows cfg.cols) ImageState.blank 0 cloud.points
    with hrdef
  rw [Nat.zero_add] at himg0
  -- the inlier indices are indices of points
  have hpick : ∃ pts, pickPoints cloud.points r.1.inl = .ok pts := by
    have hgen : ∀ (ps : List (InnerPoint R)) (s : ImageState R) (i : Nat),
        ∀ j ∈ (scanFrom (imageKeep near cfg.tiny G cfg.rows cfg.cols) s i ps).1.inl,
          j < i + ps.length := by
      intro ps
      induction ps with
      | nil => intro s i j hj; cases hj
      | cons p ps ih =>
        intro s i j hj
        simp only [scanFrom] at hj
        rw [List.length_cons]
        split at hj
        · rcases List.mem_cons.mp hj with rfl | hj
          · omega
          · have := ih _ _ j hj
            omega
        · have := ih _ _ j hj
          omega
    have hlt : ∀ j ∈ r.1.inl, j < cloud.points.length := by
      intro j hj
      have := hgen cloud.points ImageState.blank 0 j hj
      omega
    have hp : ∀ is : List Nat, (∀ j ∈ is, j < cloud.points.length) →
        ∃ pts, pickPoints cloud.points is = .ok pts := by
      intro is
      induction is with
      | nil => intro _; exact ⟨[], rfl⟩
      | cons j is ih =>
        intro h
        obtain ⟨pts, hpts⟩ := ih (fun x hx => h x (by simp [hx]))
        refine ⟨cloud.points[j]'(h j (by simp)) :: pts, ?_⟩
        unfold pickPoints
        rw [List.getElem?_eq_getElem (h j (by simp))]
        dsimp only
        rw [hpts]
        rfl
    exact hp _ hlt
  obtain ⟨pts, hpts⟩ := hpick
  let st1 : DepthFilter R := ⟨⟨{ input := some cloud, inliers := r.1.inl, outliers := r.1.outl },
    r.2⟩, fun _ => 0, []⟩
  have hfil : (st.setInput cfg (some cloud)).filter near G cfg out =
      .ok (st1, { stamp := cloud.stamp, points := pts }) := by
    rw [hset]
    unfold DepthFilter.filter ImageFilter.filter
    dsimp only
    rw [← hrdef, hpts]
    rfl
  have himg : ImgInv cfg.tiny st1.base.image cloud.points.length := himg0
  have hok : ImgOk cfg st1.base.image := by
    intro c hp
    exact himg.has c (not_lt.mpr hp.2)
  obtain ⟨s', h1, inv, _, h4⟩ := depthScan_spec cfg hc st1.base.image hok (imageCells cfg)
    ⟨fun _ => 0, 1, []⟩
    { pos := Nat.one_pos
      pix := fun c h => absurd h (Nat.lt_irrefl 0)
      closed := fun c d _ h => absurd h (Nat.lt_irrefl 0)
      joined := fun c d h => absurd h (Nat.lt_irrefl 0)
      keys := List.Pairwise.nil
      small := fun e he => (by cases he)
      sound := fun e he => (by cases he)
      complete := fun l is h1 h2 => absurd h2 (by simp only; omega) }
    (fun c hcm => (mem_imageCells cfg c).mp hcm)
  have hlabpix : ∀ c, 0 < s'.lab c ↔ Pixel cfg st1.base.image c := by
    intro c
    constructor
    · intro h; exact (inv.pix c h).1
    · intro h
      have hp := (pixel_iff _ _ _).mp h
      exact h4 c ((mem_imageCells cfg c).mpr hp.1) hp.2
  have hmem : ∀ e ∈ s'.clusters, ∀ i, i ∈ e.2 ↔
      ∃ c, Pixel cfg st1.base.image c ∧ s'.lab c = e.1 ∧ st1.base.image.index c = some i := by
    intro e he i
    obtain ⟨cells, hn, hm, hx⟩ := (inv.sound e he).2
    constructor
    · intro hi
      have : some i ∈ cells.map st1.base.image.index := by
        rw [← hx]
        exact List.mem_map.mpr ⟨i, hi, rfl⟩
      obtain ⟨c, hcm, hci⟩ := List.mem_map.mp this
      have hlc := (hm c).mp hcm
      exact ⟨c, (hlabpix c).mp (by rw [hlc]; exact (inv.small e he).1), hlc, hci⟩
    · rintro ⟨c, _, hlc, hci⟩
      have : some i ∈ e.2.map some := by
        rw [hx]
        exact List.mem_map.mpr ⟨c, (hm c).mpr hlc, hci⟩
      obtain ⟨j, hj, hji⟩ := List.mem_map.mp this
      cases hji
      exact hj
  have hkeysinj : ∀ (l : List (Nat × List Nat)), (l.map Prod.fst).Pairwise (· < ·) →
      ∀ e ∈ l, ∀ e' ∈ l, e.1 = e'.1 → e = e' := by
    intro l
    induction l with
    | nil => intro _ e he; cases he
    | cons a l ih =>
      intro hp e he e' he' hk
      rw [List.map_cons, List.pairwise_cons] at hp
      rcases List.mem_cons.mp he with h1 | h1 <;> rcases List.mem_cons.mp he' with h2 | h2
      · rw [h1, h2]
      · have := hp.1 e'.1 (List.mem_map.mpr ⟨e', h2, rfl⟩)
        rw [← h1] at this
        omega
      · have := hp.1 e.1 (List.mem_map.mpr ⟨e, h1, rfl⟩)
        rw [← h2] at this
        omega
      · exact ih hp.2 e h1 e' h2 hk
  obtain ⟨labelled, hl1, hl2⟩ := allLabelled_ok cloud.points s'.clusters (by
    intro e he i hi
    obtain ⟨c, _, _, hci⟩ := (hmem e he i).mp hi
    exact himg.lt c i hci)
  refine ⟨st1, { st1 with lab := s'.lab, clusters := s'.clusters }, _, labelled, hfil, ?_, hlabpix,
    ?_, inv.keys, ?_, ?_, ?_, hl2⟩
  · unfold DepthFilter.cluster
    show (do
      let r ← depthScan cfg st1.base.image (imageCells cfg) ⟨fun _ => 0, 1, []⟩
      let out ← allLabelled cloud.points r.clusters
      return ({ st1 with lab := r.lab, clusters := r.clusters }, out)) = _
    rw [h1]
    simp only [Outcome.bind_ok]
    rw [hl1]
    rfl
  · intro a b ha hb
    dsimp only
    constructor
    · intro h
      exact inv.joined a b ((hlabpix a).mpr ha) h
    · intro h
      have : ∀ x, Joined cfg st1.base.image a x → s'.lab x = s'.lab a := by
        intro x hx
        unfold Joined at hx
        induction hx with
        | refl => rfl
        | tail _ h2 ih =>
          rw [inv.closed _ _ h2 (by rw [ih]; exact (hlabpix a).mpr ha), ih]
      exact (this b h).symm
  · intro e he
    refine ⟨(inv.sound e he).1, ?_, hmem e he⟩
    obtain ⟨cells, hn, hm, hx⟩ := (inv.sound e he).2
    have : (e.2.map some).Nodup := by
      rw [hx]
      refine (List.nodup_map_iff_inj_on hn).mpr ?_
      intro a ha b hb hab
      obtain ⟨i, hi⟩ := hok a ((hlabpix a).mp (by rw [(hm a).mp ha]; exact (inv.small e he).1))
      exact himg.inj a b i hi (by rw [← hab]; exact hi)
    exact List.Nodup.of_map _ this
  · intro cells hn h20 l hl
    obtain ⟨c0, hc0⟩ : ∃ c0, c0 ∈ cells := by
      cases cells with
      | nil => simp at h20
      | cons a _ => exact ⟨a, by simp⟩
    have hl0 : 0 < l := by
      rw [← (hl c0 hc0).2]
      exact (hlabpix c0).mpr (hl c0 hc0).1
    have hl1 : l < s'.label := by
      have := (inv.pix c0 ((hlabpix c0).mpr (hl c0 hc0).1)).2
      rw [← (hl c0 hc0).2]
      exact this
    -- all cells with this label
    let all := (imageCells cfg).dedup.filter fun c => decide (s'.lab c = l)
    have hall : ∀ c, c ∈ all ↔ s'.lab c = l := by
      intro c
      rw [List.mem_filter, List.mem_dedup, decide_eq_true_eq]
      constructor
      · exact fun h => h.2
      · intro h
        refine ⟨?_, h⟩
        rw [mem_imageCells]
        exact ((pixel_iff _ _ _).mp (inv.pix c (by omega)).1).1
    have hnodup : all.Nodup := (List.nodup_dedup _).filter _
    have hidx : ∃ is : List Nat, is.map some = all.map st1.base.image.index := by
      have : ∀ L : List (Int × Int), (∀ c ∈ L, Pixel cfg st1.base.image c) →
          ∃ is : List Nat, is.map some = L.map st1.base.image.index := by
        intro L
        induction L with
        | nil => intro _; exact ⟨[], rfl⟩
        | cons a L ih =>
          intro h
          obtain ⟨is, his⟩ := ih (fun c hc => h c (by simp [hc]))
          obtain ⟨i, hi⟩ := hok a (h a (by simp))
          exact ⟨i :: is, by rw [List.map_cons, List.map_cons, his, hi]⟩
      exact this all (fun c hcm => (inv.pix c (by rw [(hall c).mp hcm]; exact hl0)).1)
    obtain ⟨is, his⟩ := hidx
    have hsub : cells.length ≤ all.length := by
      apply (List.subperm_of_subset hn ?_).length_le
      intro c hcm
      exact (hall c).mpr (hl c hcm).2
    have hlen : is.length = all.length := by
      have := congrArg List.length his
      rwa [List.length_map, List.length_map] at this
    exact inv.complete l is hl0 hl1 ⟨all, hnodup, hall, his⟩ (by omega)
  · intro e he e' he' hne i hi hi'
    obtain ⟨c, _, hlc, hci⟩ := (hmem e he i).mp hi
    obtain ⟨d, _, hld, hdi⟩ := (hmem e' he' i).mp hi'
    have hcd := himg.inj c d i hci hdi
    subst hcd
    exact hne (hkeysinj _ inv.keys e he e' he' (by omega))

theorem mapAssign_spec {β : Type} (k : Nat) (v : β) : ∀ l : List (Nat × β), (l.map Prod.fst).Pairwise (· < ·) →
    ((mapAssign k v l).map Prod.fst).Pairwise (· < ·) ∧
      ∀ e, e ∈ mapAssign k v l ↔ e = (k, v) ∨ e ∈ l ∧ e.1 ≠ k
  | [], _ => by simp [mapAssign]
  | a :: l, h => by
    rw [List.map_cons, List.pairwise_cons] at h
    obtain ⟨h1, h2⟩ := h
    have hlt : ∀ e ∈ l, a.1 < e.1 := fun e he => h1 e.1 (List.mem_map_of_mem he)
    unfold mapAssign
    split
    · rename_i hk
      refine ⟨?_, fun e => ?_⟩
      · simp only [List.map_cons, List.pairwise_cons]
        refine ⟨fun x hx => ?_, h1, h2⟩
        rcases List.mem_cons.mp hx with rfl | hx
        · exact hk
        · exact hk.trans (h1 x hx)
      · rw [List.mem_cons]
        constructor
        · rintro (h | h)
          · exact .inl h
          · refine .inr ⟨h, ?_⟩
            rcases List.mem_cons.mp h with rfl | h
            · omega
            · have := hlt e h; omega
        · rintro (h | h)
          · exact .inl h
          · exact .inr h.1
    · split
      · rename_i _ hk
        refine ⟨?_, fun e => ?_⟩
        · simp only [List.map_cons, List.pairwise_cons]
          exact ⟨fun x hx => hk ▸ h1 x hx, h2⟩
        · simp only [List.mem_cons]
          constructor
          · rintro (h | h)
            · exact .inl h
            · exact .inr ⟨.inr h, by have := hlt e h; omega⟩
          · rintro (h | ⟨h | h, h'⟩)
            · exact .inl h
            · rw [h] at h'; omega
            · exact .inr h
      · rename_i hk1 hk2
        obtain ⟨i1, i2⟩ := mapAssign_spec k v l h2
        refine ⟨?_, fun e => ?_⟩
        · simp only [List.map_cons, List.pairwise_cons]
          refine ⟨fun x hx => ?_, i1⟩
          obtain ⟨e, he, rfl⟩ := List.mem_map.mp hx
          rcases (i2 e).mp he with rfl | ⟨he, _⟩
          · dsimp only; omega
          · exact hlt e he
        · rw [List.mem_cons, i2, List.mem_cons]
          constructor
          · rintro (rfl | h | h)
            · exact .inr ⟨.inl rfl, by omega⟩
            · exact .inl h
            · exact .inr ⟨.inr h.1, h.2⟩
          · rintro (h | ⟨h | h, h'⟩)
            · exact .inr (.inl h)
            · exact .inl h
            · exact .inr (.inr ⟨h, h'⟩)

theorem depthScan_label (cfg : DepthCfg R) (img : ImageState R) : ∀ (cs : List (Int × Int)) (s s' : DepthState),
    depthScan cfg img cs s = .ok s' → s.label ≤ s'.label
  | [], s, s', h => by cases h; exact le_refl _
  | c :: cs, s, s', h => by
    obtain ⟨s1, h1, h2⟩ := (Outcome.bind_eq_ok ..).mp h
    refine le_trans ?_ (depthScan_label cfg img cs s1 s' h2)
    unfold depthCell at h1
    split at h1
    · cases h1; exact le_refl _
    · obtain ⟨_, _, h1⟩ := (Outcome.bind_eq_ok ..).mp h1
      split at h1
      · cases h1; exact le_refl _
      · obtain ⟨r, _, h1⟩ := (Outcome.bind_eq_ok ..).mp h1
        cases h1
        exact Nat.le_succ _

theorem depthScan_keys (cfg : DepthCfg R) (img : ImageState R) : ∀ (cs : List (Int × Int)) (s s' : DepthState),
    depthScan cfg img cs s = .ok s' → (s.clusters.map Prod.fst).Pairwise (· < ·) →
    (s'.clusters.map Prod.fst).Pairwise (· < ·) ∧ ∀ e ∈ s.clusters, e.1 < s.label ∨ s'.label ≤ e.1 → e ∈ s'.clusters
  | [], s, s', h, hk => by cases h; exact ⟨hk, fun e he _ => he⟩
  | c :: cs, s, s', h, hk => by
    obtain ⟨s1, h1, h2⟩ := (Outcome.bind_eq_ok ..).mp h
    have step : s.label ≤ s1.label ∧ (s1.clusters.map Prod.fst).Pairwise (· < ·) ∧
        ∀ e ∈ s.clusters, e.1 < s.label ∨ s1.label ≤ e.1 → e ∈ s1.clusters := by
      unfold depthCell at h1
      split at h1
      · cases h1; exact ⟨le_refl _, hk, fun e he _ => he⟩
      · obtain ⟨_, _, h1⟩ := (Outcome.bind_eq_ok ..).mp h1
        split at h1
        · cases h1; exact ⟨le_refl _, hk, fun e he _ => he⟩
        · obtain ⟨r, _, h1⟩ := (Outcome.bind_eq_ok ..).mp h1
          cases h1
          dsimp only
          refine ⟨by omega, ?_⟩
          split
          · obtain ⟨a, b⟩ := mapAssign_spec s.label r.indices s.clusters hk
            exact ⟨a, fun e he hl => (b e).mpr (.inr ⟨he, by omega⟩)⟩
          · exact ⟨hk, fun e he _ => he⟩
    obtain ⟨i1, i2⟩ := depthScan_keys cfg img cs s1 s' h2 step.2.1
    have hlab : s1.label ≤ s'.label := depthScan_label cfg img cs s1 s' h2
    refine ⟨i1, fun e he hl => i2 e (step.2.2 e he ?_) ?_⟩
    · rcases hl with hl | hl
      · exact .inl hl
      · exact .inr (by omega)
    · rcases hl with hl | hl
      · exact .inl (by omega)
      · exact .inr hl

/-- C52, an object that is used again: however often it clusters, every label has at most one cluster, in
increasing order. -/
theorem C52_one_per_label (cfg : DepthCfg R) (st st' : DepthFilter R) (out : List (Nat × InnerPoint R))
    (h : st.cluster cfg = .ok (st', out)) (hk : (st.clusters.map Prod.fst).Pairwise (· < ·)) :
    (st'.clusters.map Prod.fst).Pairwise (· < ·) := by
  unfold DepthFilter.cluster at h
  split at h
  · cases h
  · obtain ⟨r, h1, h⟩ := (Outcome.bind_eq_ok ..).mp h
    obtain ⟨o, _, h⟩ := (Outcome.bind_eq_ok ..).mp h
    cases h
    exact (depthScan_keys cfg _ _ _ _ h1 hk).1

/-- Pixels at rows and columns given by the coordinates of the point. -/
def demoGeom : ImageGeom Rat where
  xyDist := fun _ => 1
  row := fun p => ⌊p.y⌋
  col := fun p => ⌊p.x⌋
  range := fun _ => 1
  rangePos := fun _ => le_refl _

/-- The hypotheses of the theorem hold for a 1 × 30 image. -/
def demoDepth : DepthCfg Rat := ⟨1, 30, 1 / 1000000, fun _ _ _ => true⟩

example : 0 < demoDepth.rows ∧ 2 ≤ demoDepth.cols ∧ 0 < demoDepth.tiny := by
  refine ⟨by decide, by decide, ?_⟩
  show (0 : Rat) < 1 / 1000000
  norm_num

/-- A row of `n` points. -/
def demoRow (n : Nat) : InnerCloud Rat :=
  ⟨⟨0, 0, 1⟩, (List.range n).map fun (i : Nat) => ⟨(i : Rat), 0, 0, 0, 0⟩⟩

/-- Clustering two clouds one after the other with the same object, and whether it is undefined. -/
def demoTwice (a b : InnerCloud Rat) : Outcome Unit := do
  let fresh : DepthFilter Rat := ⟨⟨{}, ImageState.blank⟩, fun _ => 0, []⟩
  let r1 ← (fresh.setInput demoDepth (some a)).filter (1 / 100) demoGeom demoDepth a
  let r2 ← r1.1.cluster demoDepth
  let r3 ← (r2.1.setInput demoDepth (some b)).filter (1 / 100) demoGeom demoDepth b
  let _ ← r3.1.cluster demoDepth
  return ()

def Outcome.isUb {α : Type} : Outcome α → Bool
  | .ub => true
  | _ => false

/-- C52 is false for an object that is used again: the clusters of the first cloud are still there,
and their indices are used for the second cloud.  Here a cloud of 20 points in one cluster is followed
by a cloud of one point: undefined behaviour (a read outside the cloud). -/
theorem C52_second_cloud_fails : demoTwice (demoRow 20) (demoRow 1) = .ub := by
  have h : (demoTwice (demoRow 20) (demoRow 1)).isUb = true := by decide +kernel
  cases hx : demoTwice (demoRow 20) (demoRow 1) with
  | ub => rfl
  | ok _ => rw [hx] at h; cases h
  | abort => rw [hx] at h; cases h

/-- The first cloud alone is clustered without trouble (20 points, one cluster), and so is the
second. -/
example : (demoTwice (demoRow 20) (demoRow 20)).isUb = false := by decide +kernel

/-- C52 is false for an image with one column: stepping two columns to the right and wrapping once
leaves the image (undefined behaviour). -/
theorem C52_one_column_fails : ¬ (∀ (cfg : DepthCfg Rat) (img : ImageState Rat), 0 < cfg.rows →
    0 < cfg.cols → 0 < cfg.tiny → ImgOk cfg img →
    ∃ s, depthScan cfg img (imageCells cfg) ⟨fun _ => 0, 1, []⟩ = .ok s) := by
  intro h
  have hx : (depthScan (⟨1, 1, 1, fun _ _ _ => true⟩ : DepthCfg Rat) ⟨fun _ => 1, fun _ => some 0⟩
      (imageCells (⟨1, 1, 1, fun _ _ _ => true⟩ : DepthCfg Rat)) ⟨fun _ => 0, 1, []⟩).isUb = true := by
    decide +kernel
  obtain ⟨s, hs⟩ := h ⟨1, 1, 1, fun _ _ _ => true⟩ ⟨fun _ => 1, fun _ => some 0⟩ (by norm_num)
    (by norm_num) (by norm_num) (fun _ _ => ⟨0, rfl⟩)
  rw [hs] at hx
  cases hx

end Verif
