import Verif.Spec.DepthCluster
import Verif.Proofs.Filters2
import Mathlib.Tactic.Ring
import Mathlib.Tactic.Linarith
/- Proofs for depth clustering. -/
namespace Verif
open Spec

variable {R : Type} [Field R] [LinearOrder R]

theorem inImage_iff (cfg : DepthCfg R) (c : Int × Int) :
    inImage cfg c = true ↔ (0 ≤ c.1 ∧ c.1 < cfg.rows ∧ 0 ≤ c.2 ∧ c.2 < cfg.cols) := by
  unfold inImage
  simp only [Bool.and_eq_true, decide_eq_true_eq]
  tauto

theorem pixel_iff (cfg : DepthCfg R) (img : ImageState R) (c : Int × Int) :
    Pixel cfg img c ↔ inImage cfg c = true ∧ occupied cfg img c = true := by
  rw [inImage_iff]
  unfold Pixel occupied
  rw [decide_eq_true_eq]

theorem linked_symm {cfg : DepthCfg R} {img : ImageState R} {a b : Int × Int}
    (h : Linked cfg img a b) : Linked cfg img b a := by
  obtain ⟨ha, hb, h⟩ := h
  refine ⟨hb, ha, ?_⟩
  rw [max_comm, min_comm]
  rcases h with ⟨⟨h1, d, hd, h2⟩, h⟩ | ⟨⟨h1, h2⟩, h⟩
  · left
    refine ⟨⟨h1.symm, -d, by omega, ?_⟩, h⟩
    have : a.2 - b.2 - -d = -(b.2 - a.2 - d) := by ring
    rw [this]
    exact Int.emod_eq_zero_of_dvd (Int.dvd_neg.mpr (Int.dvd_of_emod_eq_zero h2))
  · right
    exact ⟨⟨by omega, h2.symm⟩, h⟩

theorem joined_symm {cfg : DepthCfg R} {img : ImageState R} {a b : Int × Int}
    (h : Joined cfg img a b) : Joined cfg img b a := by
  unfold Joined at *
  induction h with
  | refl => exact .refl
  | tail _ h2 ih => exact Relation.ReflTransGen.head (linked_symm h2) ih

/-- The wrapped column is the only one in range with the right remainder. -/
theorem wrapCol_iff (cols a b d : Int) (hc : 2 ≤ cols) (ha : 0 ≤ a ∧ a < cols)
    (hb : 0 ≤ b ∧ b < cols) (hd : d = 1 ∨ d = -1 ∨ d = 2 ∨ d = -2 ∨ d = 0) :
    (b - a - d) % cols = 0 ↔ b = wrapCol cols (a + d) := by
  constructor
  · intro h
    obtain ⟨k, hk⟩ := Int.dvd_of_emod_eq_zero h
    have h1 : k < 2 := by
      by_contra hk2
      have := mul_le_mul_of_nonneg_left (show 2 ≤ k by omega) (show 0 ≤ cols by omega)
      omega
    have h2 : -2 < k := by
      by_contra hk2
      have := mul_le_mul_of_nonneg_left (show k ≤ -2 by omega) (show 0 ≤ cols by omega)
      omega
    unfold wrapCol
    have : k = -1 ∨ k = 0 ∨ k = 1 := by omega
    rcases this with rfl | rfl | rfl <;> split <;> (try split) <;> omega
  · intro h
    unfold wrapCol at h
    split at h
    · have : b - a - d = cols := by omega
      rw [this, Int.emod_self]
    · split at h
      · have : b - a - d = -cols := by omega
        rw [this]
        exact Int.emod_eq_zero_of_dvd ⟨-1, by ring⟩
      · have : b - a - d = 0 := by omega
        rw [this, Int.zero_emod]

theorem wrapCol_range (cols a d : Int) (hc : 2 ≤ cols) (ha : 0 ≤ a ∧ a < cols)
    (hd : -2 ≤ d ∧ d ≤ 2) : 0 ≤ wrapCol cols (a + d) ∧ wrapCol cols (a + d) < cols := by
  unfold wrapCol
  split
  · omega
  · split <;> omega

/-- The pixels the image says are linked to `cur`, by direction. -/
def LinkStep (cfg : DepthCfg R) (img : ImageState R) (cur s n : Int × Int) : Prop :=
  (0 ≤ cur.1 + s.1 ∧ cur.1 + s.1 < cfg.rows) ∧
  n = (cur.1 + s.1, wrapCol cfg.cols (cur.2 + s.2)) ∧ occupied cfg img n = true ∧
  cfg.sep (decide (s.1 = 0)) (max (img.cell cur) (img.cell n)) (min (img.cell cur) (img.cell n))
    = true

theorem linked_iff (cfg : DepthCfg R) (hc : 2 ≤ cfg.cols) (img : ImageState R) (cur n : Int × Int)
    (hcur : Pixel cfg img cur) :
    Linked cfg img cur n ↔ ∃ s ∈ neighbourSteps, LinkStep cfg img cur s n := by
  have hin := hcur.1
  constructor
  · rintro ⟨_, hn, h⟩
    have hnin := hn.1
    have hocc : occupied cfg img n = true := by
      unfold occupied
      rw [decide_eq_true_eq]
      exact hn.2
    rcases h with ⟨⟨h1, d, hd, h2⟩, h⟩ | ⟨⟨h1, h2⟩, h⟩
    · refine ⟨(0, d), ?_, ?_⟩
      · unfold neighbourSteps
        rcases hd with rfl | rfl | rfl | rfl <;> simp
      · have hb := (wrapCol_iff cfg.cols cur.2 n.2 d hc ⟨hin.2.2.1, hin.2.2.2⟩
          ⟨hnin.2.2.1, hnin.2.2.2⟩ (by omega)).mp h2
        refine ⟨by simp only; omega, ?_, hocc, ?_⟩
        · ext
          · simp only; omega
          · exact hb
        · rw [show (decide (((0 : Int), d).1 = 0)) = true from rfl]
          exact h
    · refine ⟨(n.1 - cur.1, 0), ?_, ?_⟩
      · unfold neighbourSteps
        rcases h1 with h1 | h1
        · rw [show n.1 - cur.1 = 1 by omega]; simp
        · rw [show n.1 - cur.1 = -1 by omega]; simp
      · refine ⟨by simp only; omega, ?_, hocc, ?_⟩
        · ext
          · simp only; omega
          · simp only [add_zero]
            unfold wrapCol
            rw [if_neg (by omega), if_neg (by omega)]
            exact h2.symm
        · rw [decide_eq_false (by simp only; omega)]
          exact h
  · rintro ⟨s, hs, ⟨hr0, hr1⟩, hn, hocc, hsep⟩
    have hd : -2 ≤ s.2 ∧ s.2 ≤ 2 := by
      unfold neighbourSteps at hs
      simp only [List.mem_cons, List.not_mem_nil, or_false] at hs
      rcases hs with rfl | rfl | rfl | rfl | rfl | rfl <;> simp
    have hw := wrapCol_range cfg.cols cur.2 s.2 hc ⟨hin.2.2.1, hin.2.2.2⟩ hd
    have hpn : Pixel cfg img n := by
      rw [pixel_iff, inImage_iff]
      refine ⟨?_, hocc⟩
      rw [hn]
      exact ⟨hr0, hr1, hw.1, hw.2⟩
    refine ⟨hcur, hpn, ?_⟩
    have h2 : n.2 = wrapCol cfg.cols (cur.2 + s.2) := by rw [hn]
    have h1 : n.1 = cur.1 + s.1 := by rw [hn]
    by_cases h0 : s.1 = 0
    · left
      rw [decide_eq_true h0] at hsep
      refine ⟨⟨by omega, s.2, ?_, ?_⟩, hsep⟩
      · unfold neighbourSteps at hs
        simp only [List.mem_cons, List.not_mem_nil, or_false] at hs
        rcases hs with rfl | rfl | rfl | rfl | rfl | rfl <;> simp_all
      · rw [wrapCol_iff cfg.cols cur.2 n.2 s.2 hc ⟨hin.2.2.1, hin.2.2.2⟩
          ⟨hpn.1.2.2.1, hpn.1.2.2.2⟩ (by omega)]
        exact h2
    · right
      rw [decide_eq_false h0] at hsep
      refine ⟨?_, hsep⟩
      unfold neighbourSteps at hs
      simp only [List.mem_cons, List.not_mem_nil, or_false] at hs
      have hz : s.2 = 0 ∧ (s.1 = 1 ∨ s.1 = -1) := by
        rcases hs with rfl | rfl | rfl | rfl | rfl | rfl <;> simp_all
      refine ⟨by omega, ?_⟩
      rw [h2, hz.1, add_zero]
      unfold wrapCol
      rw [if_neg (by omega), if_neg (by omega)]

/-- Every pixel has an entry in the map. -/
def ImgOk (cfg : DepthCfg R) (img : ImageState R) : Prop :=
  ∀ c, Pixel cfg img c → ∃ i, img.index c = some i

theorem neighbourOf_spec (cfg : DepthCfg R) (hc : 2 ≤ cfg.cols) (img : ImageState R)
    (hok : ImgOk cfg img) (lab : Int × Int → Nat) (cur s : Int × Int) (hcur : Pixel cfg img cur)
    (hs : -2 ≤ s.2 ∧ s.2 ≤ 2) :
    ∃ o, neighbourOf cfg img lab cur s = .ok o ∧
      ∀ n, n ∈ o.toList ↔ LinkStep cfg img cur s n ∧ lab n = 0 := by
  unfold neighbourOf LinkStep
  have hin := hcur.1
  by_cases h1 : cur.1 + s.1 < 0 ∨ cur.1 + s.1 ≥ cfg.rows
  · rw [if_pos h1]
    refine ⟨none, rfl, fun n => ⟨fun h => (by cases h), ?_⟩⟩
    rintro ⟨⟨⟨a, b⟩, _⟩, _⟩
    omega
  rw [if_neg h1]
  set n0 : Int × Int := (cur.1 + s.1, wrapCol cfg.cols (cur.2 + s.2)) with hn0
  have hw := wrapCol_range cfg.cols cur.2 s.2 hc ⟨hin.2.2.1, hin.2.2.2⟩ hs
  have hin0 : inImage cfg n0 = true := by
    rw [inImage_iff]
    exact ⟨by rw [hn0]; simp only; omega, by rw [hn0]; simp only; omega, hw.1, hw.2⟩
  rw [if_neg (by rw [hin0]; simp)]
  by_cases h2 : occupied cfg img n0 = false
  · rw [if_pos h2]
    refine ⟨none, rfl, fun n => ⟨fun h => (by cases h), ?_⟩⟩
    rintro ⟨⟨_, rfl, h, _⟩, _⟩
    rw [h2] at h
    cases h
  rw [if_neg h2]
  have h2' : occupied cfg img n0 = true := by simpa using h2
  obtain ⟨i, hi⟩ := hok n0 ((pixel_iff _ _ _).mpr ⟨hin0, h2'⟩)
  have hpa : pixelAt img n0 = .ok i := by
    unfold pixelAt
    rw [hi]
  rw [hpa]
  simp only [Outcome.bind_ok]
  by_cases h3 : lab n0 > 0
  · rw [if_pos h3]
    refine ⟨none, rfl, fun n => ⟨fun h => (by cases h), ?_⟩⟩
    rintro ⟨⟨_, rfl, _⟩, h⟩
    omega
  rw [if_neg h3]
  by_cases h4 : cfg.sep (decide (s.1 = 0)) (max (img.cell cur) (img.cell n0))
      (min (img.cell cur) (img.cell n0)) = true
  · rw [if_pos h4]
    refine ⟨some n0, rfl, fun n => ?_⟩
    simp only [Option.toList_some, List.mem_singleton]
    constructor
    · rintro rfl
      exact ⟨⟨by omega, rfl, h2', h4⟩, by omega⟩
    · rintro ⟨⟨_, h, _⟩, _⟩
      exact h
  · rw [if_neg h4]
    refine ⟨none, rfl, fun n => ⟨fun h => (by cases h), ?_⟩⟩
    rintro ⟨⟨_, rfl, _, h⟩, _⟩
    exact absurd h h4

theorem pushNeighbours_spec (cfg : DepthCfg R) (hc : 2 ≤ cfg.cols) (img : ImageState R)
    (hok : ImgOk cfg img) (lab : Int × Int → Nat) (cur : Int × Int) (hcur : Pixel cfg img cur) :
    ∃ ps, pushNeighbours cfg img lab cur neighbourSteps = .ok ps ∧ ps.length ≤ 6 ∧
      ∀ n, n ∈ ps ↔ Linked cfg img cur n ∧ lab n = 0 := by
  have gen : ∀ steps : List (Int × Int), (∀ s ∈ steps, -2 ≤ s.2 ∧ s.2 ≤ 2) →
      ∃ ps, pushNeighbours cfg img lab cur steps = .ok ps ∧ ps.length ≤ steps.length ∧
        ∀ n, n ∈ ps ↔ (∃ s ∈ steps, LinkStep cfg img cur s n) ∧ lab n = 0 := by
    intro steps
    induction steps with
    | nil => intro _; exact ⟨[], rfl, Nat.le_refl _, by simp⟩
    | cons s steps ih =>
      intro h
      obtain ⟨o, h1, h2⟩ := neighbourOf_spec cfg hc img hok lab cur s hcur (h s (by simp))
      obtain ⟨ps, h3, h4, h5⟩ := ih (fun x hx => h x (by simp [hx]))
      refine ⟨o.toList ++ ps, ?_, ?_, ?_⟩
      · unfold pushNeighbours
        rw [h1]
        simp only [Outcome.bind_ok]
        rw [h3]
        rfl
      · rw [List.length_append, List.length_cons]
        have : o.toList.length ≤ 1 := by cases o <;> simp
        omega
      · intro n
        rw [List.mem_append, h2, h5]
        simp only [List.mem_cons, exists_eq_or_imp]
        tauto
  obtain ⟨ps, h1, h2, h3⟩ := gen neighbourSteps (by
    intro s hs
    unfold neighbourSteps at hs
    simp only [List.mem_cons, List.not_mem_nil, or_false] at hs
    rcases hs with rfl | rfl | rfl | rfl | rfl | rfl <;> simp)
  refine ⟨ps, h1, h2, ?_⟩
  intro n
  rw [h3, linked_iff cfg hc img cur n hcur]

/-! ### The loop -/

/-- The number of pixels without a label. -/
def unlabelled (cfg : DepthCfg R) (img : ImageState R) (lab : Int × Int → Nat) : Nat :=
  (imageCells cfg).countP fun c => occupied cfg img c && decide (lab c = 0)

theorem mem_imageCells (cfg : DepthCfg R) (c : Int × Int) :
    c ∈ imageCells cfg ↔ inImage cfg c = true := by
  rw [inImage_iff]
  unfold imageCells
  simp only [List.mem_flatMap, List.mem_range, List.mem_map]
  constructor
  · rintro ⟨r, hr, k, hk, rfl⟩
    exact ⟨Int.natCast_nonneg _, by simp only; omega, Int.natCast_nonneg _, by simp only; omega⟩
  · intro h
    refine ⟨c.1.toNat, by omega, c.2.toNat, by omega, ?_⟩
    ext
    · exact Int.toNat_of_nonneg h.1
    · exact Int.toNat_of_nonneg h.2.2.1

theorem countP_lt_of {α : Type} {P Q : α → Bool} {a : α} : ∀ {L : List α}, a ∈ L →
    (∀ x, Q x = true → P x = true) → P a = true → Q a = false → L.countP Q < L.countP P := by
  intro L
  induction L with
  | nil => intro h; cases h
  | cons b L ih =>
    intro ha hPQ hP hQ
    rw [List.countP_cons, List.countP_cons]
    rcases List.mem_cons.mp ha with rfl | ha
    · have := List.countP_mono_left (l := L) (fun x _ => hPQ x)
      rw [if_pos hP, hQ]
      simp only [Bool.false_eq_true, if_false]
      omega
    · have := ih ha hPQ hP hQ
      by_cases hb : Q b = true
      · rw [if_pos hb, if_pos (hPQ b hb)]; omega
      · rw [if_neg hb]
        split <;> omega

theorem unlabelled_lt (cfg : DepthCfg R) (img : ImageState R) (lab : Int × Int → Nat)
    (cur : Int × Int) (hcur : Pixel cfg img cur) (h0 : lab cur = 0) (label : Nat) (hl : 0 < label) :
    unlabelled cfg img (fun c => if c = cur then label else lab c) < unlabelled cfg img lab := by
  have hp := (pixel_iff _ _ _).mp hcur
  unfold unlabelled
  apply countP_lt_of (a := cur) ((mem_imageCells cfg cur).mpr hp.1)
  · intro x hx
    rw [Bool.and_eq_true, decide_eq_true_eq] at hx ⊢
    refine ⟨hx.1, ?_⟩
    have := hx.2
    dsimp only at this
    split at this
    · omega
    · exact this
  · rw [Bool.and_eq_true, decide_eq_true_eq]
    exact ⟨hp.2, h0⟩
  · rw [Bool.and_eq_false_iff]
    right
    rw [decide_eq_false_iff_not]
    dsimp only
    rw [if_pos rfl]
    omega

/-- What is known during the loop: `cells` are the cells labelled so far by this call. -/
structure LabelInv (cfg : DepthCfg R) (img : ImageState R) (label : Nat) (start : Int × Int)
    (lab0 lab : Int × Int → Nat) (queue cells : List (Int × Int)) (indices : List Nat) : Prop where
  queue_ok : ∀ c ∈ queue, Pixel cfg img c ∧ Joined cfg img start c
  nodup : cells.Nodup
  mem : ∀ c, c ∈ cells ↔ lab c = label
  idx : indices.map some = cells.map img.index
  cells_ok : ∀ c ∈ cells, Pixel cfg img c ∧ Joined cfg img start c
  closed : ∀ c ∈ cells, ∀ d, Linked cfg img c d → 0 < lab d ∨ d ∈ queue
  keep : ∀ c, 0 < lab0 c → lab c = lab0 c
  only : ∀ c, lab c = lab0 c ∨ lab c = label

theorem labelLoop_spec (cfg : DepthCfg R) (hc : 2 ≤ cfg.cols) (img : ImageState R)
    (hok : ImgOk cfg img) (label : Nat) (hl : 0 < label) (start : Int × Int)
    (lab0 : Int × Int → Nat) :
    ∀ (fuel : Nat) (lab : Int × Int → Nat) (queue cells : List (Int × Int)) (indices : List Nat),
      LabelInv cfg img label start lab0 lab queue cells indices →
      7 * unlabelled cfg img lab + queue.length ≤ fuel →
      ∃ lab' indices' cells', labelLoop cfg img label fuel lab queue indices =
          .ok ⟨lab', [], indices'⟩ ∧
        LabelInv cfg img label start lab0 lab' [] cells' indices' ∧
        (∀ c ∈ queue, 0 < lab' c) ∧ (∀ c, 0 < lab c → lab' c = lab c) := by
  intro fuel
  induction fuel with
  | zero =>
    intro lab queue cells indices inv hf
    have hq : queue = [] := List.length_eq_zero_iff.mp (by omega)
    subst hq
    exact ⟨lab, indices, cells, rfl, inv, by simp, by simp⟩
  | succ fuel ih =>
    intro lab queue cells indices inv hf
    cases queue with
    | nil => exact ⟨lab, indices, cells, rfl, inv, by simp, by simp⟩
    | cons cur q =>
      obtain ⟨hpix, hjoin⟩ := inv.queue_ok cur (by simp)
      have hpo := (pixel_iff _ _ _).mp hpix
      obtain ⟨i, hi⟩ := hok cur hpix
      have hpa : pixelAt img cur = .ok i := by
        unfold pixelAt
        rw [hi]
      by_cases hlab : lab cur > 0
      · have hstep : labelStep cfg img label lab cur q indices = .ok ⟨lab, q, indices⟩ := by
          unfold labelStep
          rw [if_neg (by rw [hpo.1]; simp), if_neg (by rw [hpo.2]; simp), hpa]
          simp only [Outcome.bind_ok]
          rw [if_pos hlab]
        obtain ⟨lab', indices', cells', h1, h2, h3, h4⟩ := ih lab q cells indices
          { queue_ok := fun c hc => inv.queue_ok c (by simp [hc])
            nodup := inv.nodup
            mem := inv.mem
            idx := inv.idx
            cells_ok := inv.cells_ok
            closed := by
              intro c hc d hd
              rcases inv.closed c hc d hd with h | h
              · exact Or.inl h
              · rcases List.mem_cons.mp h with rfl | h
                · exact Or.inl hlab
                · exact Or.inr h
            keep := inv.keep
            only := inv.only }
          (by simp only [List.length_cons] at hf; omega)
        refine ⟨lab', indices', cells', ?_, h2, ?_, h4⟩
        · unfold labelLoop
          rw [hstep]
          exact h1
        · intro c hc
          rcases List.mem_cons.mp hc with rfl | hc
          · rw [h4 _ hlab]; exact hlab
          · exact h3 c hc
      · have h0 : lab cur = 0 := by omega
        set lab1 : Int × Int → Nat := fun c => if c = cur then label else lab c with hlab1
        obtain ⟨ps, hps, hlen, hmem⟩ := pushNeighbours_spec cfg hc img hok lab1 cur hpix
        have hstep : labelStep cfg img label lab cur q indices =
            .ok ⟨lab1, q ++ ps, indices ++ [i]⟩ := by
          unfold labelStep
          rw [if_neg (by rw [hpo.1]; simp), if_neg (by rw [hpo.2]; simp), hpa]
          simp only [Outcome.bind_ok]
          rw [if_neg hlab, ← hlab1, hps]
          rfl
        have hcurnot : cur ∉ cells := by
          rw [inv.mem]
          omega
        have hmono : ∀ c, 0 < lab c → lab1 c = lab c := by
          intro c hc
          rw [hlab1]
          dsimp only
          rw [if_neg]
          rintro rfl
          omega
        have hlt := unlabelled_lt cfg img lab cur hpix h0 label hl
        rw [← hlab1] at hlt
        obtain ⟨lab', indices', cells', h1, h2, h3, h4⟩ := ih lab1 (q ++ ps) (cells ++ [cur])
          (indices ++ [i])
          { queue_ok := by
              intro c hc
              rcases List.mem_append.mp hc with hc | hc
              · exact inv.queue_ok c (by simp [hc])
              · have hl := ((hmem c).mp hc).1
                exact ⟨hl.2.1, hjoin.tail hl⟩
            nodup := by
              rw [List.nodup_append]
              refine ⟨inv.nodup, by simp, ?_⟩
              intro a ha b hb
              rw [List.mem_singleton] at hb
              subst hb
              rintro rfl
              exact hcurnot ha
            mem := by
              intro c
              rw [List.mem_append, List.mem_singleton, inv.mem, hlab1]
              dsimp only
              by_cases he : c = cur
              · rw [if_pos he]; simp [he]
              · rw [if_neg he]; simp [he]
            idx := by
              rw [List.map_append, List.map_append, inv.idx]
              simp [hi]
            cells_ok := by
              intro c hc
              rcases List.mem_append.mp hc with hc | hc
              · exact inv.cells_ok c hc
              · rw [List.mem_singleton] at hc
                subst hc
                exact ⟨hpix, hjoin⟩
            closed := by
              intro c hc d hd
              rcases List.mem_append.mp hc with hc | hc
              · rcases inv.closed c hc d hd with h | h
                · left; rw [hmono d h]; exact h
                · rcases List.mem_cons.mp h with rfl | h
                  · left
                    rw [hlab1]
                    dsimp only
                    rw [if_pos rfl]
                    exact hl
                  · right; exact List.mem_append_left _ h
              · rw [List.mem_singleton] at hc
                subst hc
                by_cases hz : lab1 d = 0
                · right
                  exact List.mem_append_right _ ((hmem d).mpr ⟨hd, hz⟩)
                · left; omega
            keep := by
              intro c hc
              rw [← inv.keep c hc]
              apply hmono
              rw [inv.keep c hc]
              exact hc
            only := by
              intro c
              rw [hlab1]
              dsimp only
              split
              · exact Or.inr rfl
              · exact inv.only c }
          (by
            simp only [List.length_cons] at hf
            rw [List.length_append]
            omega)
        refine ⟨lab', indices', cells', ?_, h2, ?_, ?_⟩
        · unfold labelLoop
          rw [hstep]
          exact h1
        · intro c hc
          rcases List.mem_cons.mp hc with rfl | hc
          · have : lab1 c = label := by
              rw [hlab1]
              dsimp only
              rw [if_pos rfl]
            rw [h4 c (by omega)]
            omega
          · exact h3 c (List.mem_append_left _ hc)
        · intro c hc
          rw [h4 c (by rw [hmono c hc]; exact hc), hmono c hc]

theorem unlabelled_le (cfg : DepthCfg R) (img : ImageState R) (lab : Int × Int → Nat) :
    7 * unlabelled cfg img lab + 1 ≤ labelBound cfg := by
  unfold unlabelled labelBound
  have h1 := List.countP_le_length (p := fun c => occupied cfg img c && decide (lab c = 0))
    (l := imageCells cfg)
  have h2 : (imageCells cfg).length = cfg.rows.toNat * cfg.cols.toNat := by
    unfold imageCells
    rw [List.length_flatMap]
    simp
  rw [h2] at h1
  omega

/-! ### All components -/

/-- The cells with label `l` and the list of their indices. -/
def IsCluster (img : ImageState R) (lab : Int × Int → Nat) (l : Nat) (is : List Nat) : Prop :=
  ∃ cells : List (Int × Int), cells.Nodup ∧ (∀ c, c ∈ cells ↔ lab c = l) ∧
    is.map some = cells.map img.index

structure DepthInv (cfg : DepthCfg R) (img : ImageState R) (s : DepthState) : Prop where
  pos : 0 < s.label
  pix : ∀ c, 0 < s.lab c → Pixel cfg img c ∧ s.lab c < s.label
  closed : ∀ c d, Linked cfg img c d → 0 < s.lab c → s.lab d = s.lab c
  joined : ∀ c d, 0 < s.lab c → s.lab c = s.lab d → Joined cfg img c d
  keys : (s.clusters.map Prod.fst).Pairwise (· < ·)
  small : ∀ e ∈ s.clusters, 0 < e.1 ∧ e.1 < s.label
  sound : ∀ e ∈ s.clusters, 20 ≤ e.2.length ∧ IsCluster img s.lab e.1 e.2
  complete : ∀ l is, 0 < l → l < s.label → IsCluster img s.lab l is → 20 ≤ is.length →
    ∃ e ∈ s.clusters, e.1 = l

theorem mapAssign_append {β : Type} (k : Nat) (v : β) : ∀ l : List (Nat × β),
    (∀ e ∈ l, e.1 < k) → mapAssign k v l = l ++ [(k, v)] := by
  intro l
  induction l with
  | nil => intro _; rfl
  | cons e l ih =>
    intro h
    have := h e (by simp)
    unfold mapAssign
    rw [if_neg (by omega), if_neg (by omega), ih (fun x hx => h x (by simp [hx]))]
    rfl

theorem isCluster_length {img : ImageState R} {lab : Int × Int → Nat} {l : Nat} {a b : List Nat}
    (ha : IsCluster img lab l a) (hb : IsCluster img lab l b) : a.length = b.length := by
  obtain ⟨ca, n1, m1, e1⟩ := ha
  obtain ⟨cb, n2, m2, e2⟩ := hb
  have hp : ca.Perm cb := by
    rw [List.perm_ext_iff_of_nodup n1 n2]
    intro c
    rw [m1, m2]
  have l1 := congrArg List.length e1
  have l2 := congrArg List.length e2
  rw [List.length_map, List.length_map] at l1 l2
  rw [l1, l2, hp.length_eq]

theorem isCluster_congr {img : ImageState R} {lab lab' : Int × Int → Nat} {l : Nat}
    (h : ∀ c, lab c = l ↔ lab' c = l) (is : List Nat) :
    IsCluster img lab l is ↔ IsCluster img lab' l is := by
  unfold IsCluster
  simp only [h]

theorem depthCell_spec (cfg : DepthCfg R) (hc : 2 ≤ cfg.cols) (img : ImageState R)
    (hok : ImgOk cfg img) (s : DepthState) (inv : DepthInv cfg img s) (c : Int × Int)
    (hin : inImage cfg c = true) :
    ∃ s', depthCell cfg img s c = .ok s' ∧ DepthInv cfg img s' ∧
      (∀ d, 0 < s.lab d → s'.lab d = s.lab d) ∧ (occupied cfg img c = true → 0 < s'.lab c) := by
  unfold depthCell
  by_cases ho : occupied cfg img c = false
  · rw [if_pos ho]
    exact ⟨s, rfl, inv, fun _ _ => rfl, fun h => by rw [ho] at h; cases h⟩
  rw [if_neg ho]
  have ho' : occupied cfg img c = true := by simpa using ho
  have hpix : Pixel cfg img c := (pixel_iff _ _ _).mpr ⟨hin, ho'⟩
  obtain ⟨i, hi⟩ := hok c hpix
  have hpa : pixelAt img c = .ok i := by
    unfold pixelAt
    rw [hi]
  rw [hpa]
  simp only [Outcome.bind_ok]
  by_cases hl : s.lab c > 0
  · rw [if_pos hl]
    exact ⟨s, rfl, inv, fun _ _ => rfl, fun _ => hl⟩
  rw [if_neg hl]
  obtain ⟨lab', indices, cells, h1, h2, h3, h4⟩ := labelLoop_spec cfg hc img hok s.label inv.pos c
    s.lab (labelBound cfg) s.lab [c] [] []
    { queue_ok := by
        intro d hd
        rw [List.mem_singleton] at hd
        subst hd
        exact ⟨hpix, .refl⟩
      nodup := List.nodup_nil
      mem := by
        intro d
        constructor
        · intro h; cases h
        · intro h
          have := (inv.pix d (by rw [h]; exact inv.pos)).2
          omega
      idx := rfl
      cells_ok := by intro d hd; cases hd
      closed := by intro d hd; cases hd
      keep := fun _ _ => rfl
      only := fun _ => Or.inl rfl }
    (by simpa using unlabelled_le cfg img s.lab)
  rw [h1]
  have hcl : lab' c = s.label := by
    rcases h2.only c with h | h
    · have := h3 c (by simp)
      omega
    · exact h
  have hold : ∀ (l : Nat), 0 < l → l < s.label → ∀ d, s.lab d = l ↔ lab' d = l := by
    intro l hl0 hl1 d
    constructor
    · intro h
      rw [h4 d (by omega)]
      exact h
    · intro h
      rcases h2.only d with h' | h'
      · omega
      · omega
  -- a linked neighbour of a new cell is new
  have hnew : ∀ a b, Linked cfg img a b → lab' a = s.label → lab' b = s.label := by
    intro a b hab ha
    rcases h2.closed a ((h2.mem a).mpr ha) b hab with hb | hb
    · rcases h2.only b with h | h
      · exfalso
        have hb0 : 0 < s.lab b := by omega
        have := inv.closed b a (linked_symm hab) hb0
        have hk := h2.keep a (by omega)
        have hlt := (inv.pix b hb0).2
        omega
      · exact h
    · cases hb
  refine ⟨{ lab := lab', label := s.label + 1
            clusters := if indices.length ≥ 20 then mapAssign s.label indices s.clusters
                        else s.clusters }, rfl, ?_, h4, fun _ => hcl.symm ▸ inv.pos⟩
  have hclnew : IsCluster img lab' s.label indices := ⟨cells, h2.nodup, h2.mem, h2.idx⟩
  have hass : mapAssign s.label indices s.clusters = s.clusters ++ [(s.label, indices)] :=
    mapAssign_append _ _ _ (fun e he => (inv.small e he).2)
  constructor
  · exact Nat.succ_pos _
  · intro d hd
    dsimp only at hd ⊢
    rcases h2.only d with h | h
    · rw [h] at hd ⊢
      have := inv.pix d hd
      exact ⟨this.1, by omega⟩
    · exact ⟨(h2.cells_ok d ((h2.mem d).mpr h)).1, by omega⟩
  · intro a b hab ha
    dsimp only at ha ⊢
    rcases h2.only a with h | h
    · have ha' : 0 < s.lab a := by omega
      have := inv.closed a b hab ha'
      rw [h4 b (by omega), h4 a ha', this]
    · rw [hnew a b hab h, h]
  · intro a b ha hab
    dsimp only at ha hab
    by_cases hal : lab' a = s.label
    · have ha' := (h2.cells_ok a ((h2.mem a).mpr hal)).2
      have hb' := (h2.cells_ok b ((h2.mem b).mpr (by omega))).2
      exact (joined_symm ha').trans hb'
    · rcases h2.only a with h | h
      · rcases h2.only b with h' | h'
        · exact inv.joined a b (by omega) (by omega)
        · omega
      · exact absurd h hal
  · dsimp only
    split
    · rw [hass, List.map_append, List.pairwise_append]
      refine ⟨inv.keys, by simp, ?_⟩
      intro x hx y hy
      obtain ⟨e, he, rfl⟩ := List.mem_map.mp hx
      simp only [List.map_cons, List.map_nil, List.mem_singleton] at hy
      subst hy
      exact (inv.small e he).2
    · exact inv.keys
  · intro e he
    dsimp only at he ⊢
    have : e ∈ s.clusters ∨ e = (s.label, indices) := by
      split at he
      · rw [hass, List.mem_append, List.mem_singleton] at he
        exact he
      · exact Or.inl he
    rcases this with h | rfl
    · have := inv.small e h
      omega
    · exact ⟨inv.pos, by simp only; omega⟩
  · intro e he
    dsimp only at he ⊢
    by_cases h20 : indices.length ≥ 20
    · rw [if_pos h20, hass, List.mem_append, List.mem_singleton] at he
      rcases he with he | rfl
      · have hs := inv.small e he
        exact ⟨(inv.sound e he).1,
          (isCluster_congr (hold e.1 hs.1 hs.2) e.2).mp (inv.sound e he).2⟩
      · exact ⟨h20, hclnew⟩
    · rw [if_neg h20] at he
      have hs := inv.small e he
      exact ⟨(inv.sound e he).1,
        (isCluster_congr (hold e.1 hs.1 hs.2) e.2).mp (inv.sound e he).2⟩
  · intro l is hl0 hl1 hcl' h20
    dsimp only at hl1 hcl' ⊢
    by_cases hll : l < s.label
    · obtain ⟨e, he, he'⟩ := inv.complete l is hl0 hll
        ((isCluster_congr (hold l hl0 hll) is).mpr hcl') h20
      refine ⟨e, ?_, he'⟩
      split
      · rw [hass]
        exact List.mem_append_left _ he
      · exact he
    · have hle : l = s.label := by omega
      subst hle
      have hlen := isCluster_length hcl' hclnew
      rw [if_pos (by omega), hass]
      exact ⟨_, List.mem_append_right _ (List.mem_singleton.mpr rfl), rfl⟩

theorem depthScan_spec (cfg : DepthCfg R) (hc : 2 ≤ cfg.cols) (img : ImageState R)
    (hok : ImgOk cfg img) : ∀ (cs : List (Int × Int)) (s : DepthState), DepthInv cfg img s →
      (∀ c ∈ cs, inImage cfg c = true) →
      ∃ s', depthScan cfg img cs s = .ok s' ∧ DepthInv cfg img s' ∧
        (∀ d, 0 < s.lab d → s'.lab d = s.lab d) ∧
        (∀ c ∈ cs, occupied cfg img c = true → 0 < s'.lab c) := by
  intro cs
  induction cs with
  | nil => intro s inv _; exact ⟨s, rfl, inv, fun _ _ => rfl, by simp⟩
  | cons c cs ih =>
    intro s inv hin
    obtain ⟨s1, h1, h2, h3, h4⟩ := depthCell_spec cfg hc img hok s inv c (hin c (by simp))
    obtain ⟨s2, g1, g2, g3, g4⟩ := ih s1 h2 (fun d hd => hin d (by simp [hd]))
    refine ⟨s2, ?_, g2, ?_, ?_⟩
    · unfold depthScan
      rw [h1]
      exact g1
    · intro d hd
      rw [g3 d (by rw [h3 d hd]; exact hd), h3 d hd]
    · intro d hd ho
      rcases List.mem_cons.mp hd with rfl | hd
      · rw [g3 d (h4 ho)]
        exact h4 ho
      · exact g4 d hd ho

/-! ### The image made by the filter -/

/-- Indices of pixels are indices of points, different for different pixels. -/
structure ImgInv (tiny : R) (img : ImageState R) (n : Nat) : Prop where
  has : ∀ c, ¬ img.cell c < tiny → ∃ i, img.index c = some i
  lt : ∀ c i, img.index c = some i → i < n
  inj : ∀ c d i, img.index c = some i → img.index d = some i → c = d

theorem imageKeep_inv (near tiny : R) (G : ImageGeom R) (rows cols : Int) (s : ImageState R)
    (i : Nat) (p : InnerPoint R) (h : ImgInv tiny s i) :
    ImgInv tiny (imageKeep near tiny G rows cols s i p).2 (i + 1) := by
  have hs : ImgInv tiny s (i + 1) :=
    ⟨h.has, fun c j hj => Nat.lt_succ_of_lt (h.lt c j hj), h.inj⟩
  rw [imageKeep_eq]
  cases pixelOf near G rows cols p with
  | none => exact hs
  | some q =>
    dsimp only
    split
    · constructor
      · intro c hc
        dsimp only at hc ⊢
        by_cases he : c = q
        · rw [if_pos he]; exact ⟨i, rfl⟩
        · rw [if_neg he] at hc ⊢
          exact h.has c hc
      · intro c j hj
        dsimp only at hj
        by_cases he : c = q
        · rw [if_pos he] at hj
          cases hj
          omega
        · rw [if_neg he] at hj
          have := h.lt c j hj
          omega
      · intro c d j hj hk
        dsimp only at hj hk
        by_cases hcq : c = q
        · rw [if_pos hcq] at hj
          cases hj
          by_cases hdq : d = q
          · rw [hcq, hdq]
          · rw [if_neg hdq] at hk
            have := h.lt d i hk
            omega
        · rw [if_neg hcq] at hj
          by_cases hdq : d = q
          · rw [if_pos hdq] at hk
            cases hk
            have := h.lt c i hj
            omega
          · rw [if_neg hdq] at hk
            exact h.inj c d j hj hk
    · exact hs

theorem scan_imgInv (near tiny : R) (G : ImageGeom R) (rows cols : Int) :
    ∀ (ps : List (InnerPoint R)) (s : ImageState R) (i : Nat), ImgInv tiny s i →
      ImgInv tiny (scanFrom (imageKeep near tiny G rows cols) s i ps).2 (i + ps.length) := by
  intro ps
  induction ps with
  | nil => intro s i h; exact h
  | cons p ps ih =>
    intro s i h
    have := ih _ (i + 1) (imageKeep_inv near tiny G rows cols s i p h)
    rw [List.length_cons, show i + (ps.length + 1) = i + 1 + ps.length by omega]
    simp only [scanFrom]
    split <;> exact this

theorem labelledPoints_ok (pts : List (InnerPoint R)) (label : Nat) : ∀ is : List Nat,
    (∀ i ∈ is, i < pts.length) → ∃ l, labelledPoints pts label is = .ok l ∧
      l.map some = is.map (fun i => pts[i]?.map fun p => (label, p)) := by
  intro is
  induction is with
  | nil => intro _; exact ⟨[], rfl, rfl⟩
  | cons i is ih =>
    intro h
    obtain ⟨l, h1, h2⟩ := ih (fun x hx => h x (by simp [hx]))
    have hi := h i (by simp)
    refine ⟨(label, pts[i]) :: l, ?_, ?_⟩
    · unfold labelledPoints
      rw [List.getElem?_eq_getElem hi]
      dsimp only
      rw [h1]
      rfl
    · simp only [List.map_cons, h2, List.getElem?_eq_getElem hi, Option.map_some]

theorem allLabelled_ok (pts : List (InnerPoint R)) : ∀ cl : List (Nat × List Nat),
    (∀ e ∈ cl, ∀ i ∈ e.2, i < pts.length) → ∃ l, allLabelled pts cl = .ok l ∧
      l.map some = cl.flatMap fun e => e.2.map fun i => pts[i]?.map fun p => (e.1, p) := by
  intro cl
  induction cl with
  | nil => intro _; exact ⟨[], rfl, rfl⟩
  | cons e cl ih =>
    intro h
    obtain ⟨l, h1, h2⟩ := ih (fun x hx => h x (by simp [hx]))
    obtain ⟨l0, g1, g2⟩ := labelledPoints_ok pts e.1 e.2 (h e (by simp))
    refine ⟨l0 ++ l, ?_, ?_⟩
    · unfold allLabelled
      rw [g1]
      simp only [Outcome.bind_ok]
      rw [h1]
      rfl
    · rw [List.map_append, g2, h2, List.flatMap_cons]

end Verif
