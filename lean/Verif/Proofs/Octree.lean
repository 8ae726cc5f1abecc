import Verif.Spec.Octree
import Mathlib.Tactic.Linarith
import Mathlib.Tactic.Ring
import Mathlib.Tactic.FinCases
import Mathlib.Data.Fintype.Basic
import Mathlib.Data.List.FinRange
import Mathlib.Algebra.Order.Field.Rat
namespace Verif
open Spec

/-- a cube whose five fields fit together -/
def CubeBox.WF (b : CubeBox) : Prop := b = CubeBox.ofCenter b.center b.size

theorem wf_half {b : CubeBox} (h : b.WF) : b.half = b.size / 2 := by
  rw [h]; simp [CubeBox.ofCenter]; ring

theorem ofCenter_wf (c : Pt) (s : Rat) : (CubeBox.ofCenter c s).WF := rfl

theorem ofCenter_half (c : Pt) (s : Rat) : (CubeBox.ofCenter c s).half = s / 2 := by
  simp [CubeBox.ofCenter]; ring

theorem contains_iff {b : CubeBox} (p : Pt) :
    b.contains p = true ↔ InCube b.center b.half p := by
  unfold CubeBox.contains InCube
  simp only [Bool.and_eq_true, decide_eq_true_eq, abs_le]
  constructor
  · rintro ⟨⟨⟨h1, h2⟩, h3, h4⟩, h5, h6⟩
    refine ⟨⟨?_, ?_⟩, ⟨?_, ?_⟩, ⟨?_, ?_⟩⟩ <;> linarith
  · rintro ⟨⟨h1, h2⟩, ⟨h3, h4⟩, h5, h6⟩
    refine ⟨⟨⟨?_, ?_⟩, ?_, ?_⟩, ?_, ?_⟩ <;> linarith

theorem subIndex_neg {b : CubeBox} (p : Pt) :
    b.subIndex p = -1 ↔ ¬ InCube b.center b.half p := by
  rw [← contains_iff]
  unfold CubeBox.subIndex
  cases h : b.contains p <;> simp
  split <;> split <;> split <;> simp

/-- centre of the `i`-th sub-cube -/
def subCenter (b : CubeBox) (i : Fin 8) : Pt :=
  let q := b.half / 2
  match i with
  | 0 => ⟨b.center.x + q, b.center.y + q, b.center.z + q⟩
  | 1 => ⟨b.center.x - q, b.center.y + q, b.center.z + q⟩
  | 2 => ⟨b.center.x - q, b.center.y - q, b.center.z + q⟩
  | 3 => ⟨b.center.x + q, b.center.y - q, b.center.z + q⟩
  | 4 => ⟨b.center.x + q, b.center.y + q, b.center.z - q⟩
  | 5 => ⟨b.center.x - q, b.center.y + q, b.center.z - q⟩
  | 6 => ⟨b.center.x - q, b.center.y - q, b.center.z - q⟩
  | 7 => ⟨b.center.x + q, b.center.y - q, b.center.z - q⟩

def subBox (b : CubeBox) (i : Fin 8) : CubeBox := CubeBox.ofCenter (subCenter b i) b.half

theorem ofMinMax_eq (mn mx : Pt) (c : Pt) (s : Rat)
    (hx : mn.x = c.x - s * (1/2)) (hx' : mx.x = c.x + s * (1/2))
    (hy : mn.y = c.y - s * (1/2)) (hy' : mx.y = c.y + s * (1/2))
    (hz : mn.z = c.z - s * (1/2)) (hz' : mx.z = c.z + s * (1/2)) :
    CubeBox.ofMinMax mn mx = .ok (CubeBox.ofCenter c s) := by
  unfold CubeBox.ofMinMax
  have e1 : mx.y - mn.y = mx.x - mn.x := by rw [hx, hx', hy, hy']; ring
  have e2 : mx.z - mn.z = mx.x - mn.x := by rw [hx, hx', hz, hz']; ring
  have e3 : mx.x - mn.x = s := by rw [hx, hx']; ring
  simp only [e1, e2, Outcome.check, if_true, Outcome.bind_ok, Outcome.pure_eq]
  congr 1
  cases mn; cases mx; cases c
  simp only [CubeBox.ofCenter, CubeBox.mk.injEq, Vec3.mk.injEq] at *
  subst hx hx' hy hy' hz hz'
  refine ⟨⟨by ring, by ring, by ring⟩, by simp, by simp, by ring, by ring⟩

theorem subBoxes_eq {b : CubeBox} (h : b.WF) :
    b.subBoxes = .ok [subBox b 0, subBox b 1, subBox b 2, subBox b 3, subBox b 4, subBox b 5,
      subBox b 6, subBox b 7] := by
  unfold CubeBox.subBoxes CubeBox.shifted
  have hx : b.max.x = b.center.x + b.half := by rw [h]; simp [CubeBox.ofCenter]; ring
  have hy : b.max.y = b.center.y + b.half := by rw [h]; simp [CubeBox.ofCenter]; ring
  have hz : b.max.z = b.center.z + b.half := by rw [h]; simp [CubeBox.ofCenter]; ring
  rw [ofMinMax_eq _ _ (subCenter b 0) b.half, ofMinMax_eq _ _ (subCenter b 1) b.half,
    ofMinMax_eq _ _ (subCenter b 2) b.half, ofMinMax_eq _ _ (subCenter b 3) b.half,
    ofMinMax_eq _ _ (subCenter b 4) b.half, ofMinMax_eq _ _ (subCenter b 5) b.half,
    ofMinMax_eq _ _ (subCenter b 6) b.half, ofMinMax_eq _ _ (subCenter b 7) b.half]
  · rfl
  all_goals (simp only [subCenter, hx, hy, hz]; ring)

theorem subBox_wf (b : CubeBox) (i : Fin 8) : (subBox b i).WF := rfl

theorem subBox_half (b : CubeBox) (i : Fin 8) : (subBox b i).half = b.half / 2 := by
  simp [subBox, CubeBox.ofCenter]; ring

theorem subBox_center (b : CubeBox) (i : Fin 8) : (subBox b i).center = subCenter b i := rfl

theorem subIndex_sub {b : CubeBox} (p : Pt) (h : InCube b.center b.half p) :
    ∃ i : Fin 8, b.subIndex p = (i.val : Int) ∧ InCube (subBox b i).center (subBox b i).half p := by
  have hc := (contains_iff p).2 h
  obtain ⟨⟨hx1, hx2⟩, ⟨hy1, hy2⟩, ⟨hz1, hz2⟩⟩ := h
  unfold CubeBox.subIndex
  simp only [hc]
  by_cases hx : p.x - b.center.x ≥ 0 <;> by_cases hy : p.y - b.center.y ≥ 0 <;>
    by_cases hz : p.z - b.center.z < 0 <;> simp only [hx, hy, hz, if_true, if_false]
  · refine ⟨4, rfl, ?_⟩
    rw [subBox_half, subBox_center]; unfold InCube subCenter
    refine ⟨⟨?_, ?_⟩, ⟨?_, ?_⟩, ⟨?_, ?_⟩⟩ <;> simp only [] <;> linarith
  · refine ⟨0, rfl, ?_⟩
    rw [subBox_half, subBox_center]; unfold InCube subCenter
    refine ⟨⟨?_, ?_⟩, ⟨?_, ?_⟩, ⟨?_, ?_⟩⟩ <;> simp only [] <;> linarith
  · refine ⟨7, rfl, ?_⟩
    rw [subBox_half, subBox_center]; unfold InCube subCenter
    refine ⟨⟨?_, ?_⟩, ⟨?_, ?_⟩, ⟨?_, ?_⟩⟩ <;> simp only [] <;> linarith
  · refine ⟨3, rfl, ?_⟩
    rw [subBox_half, subBox_center]; unfold InCube subCenter
    refine ⟨⟨?_, ?_⟩, ⟨?_, ?_⟩, ⟨?_, ?_⟩⟩ <;> simp only [] <;> linarith
  · refine ⟨5, rfl, ?_⟩
    rw [subBox_half, subBox_center]; unfold InCube subCenter
    refine ⟨⟨?_, ?_⟩, ⟨?_, ?_⟩, ⟨?_, ?_⟩⟩ <;> simp only [] <;> linarith
  · refine ⟨1, rfl, ?_⟩
    rw [subBox_half, subBox_center]; unfold InCube subCenter
    refine ⟨⟨?_, ?_⟩, ⟨?_, ?_⟩, ⟨?_, ?_⟩⟩ <;> simp only [] <;> linarith
  · refine ⟨6, rfl, ?_⟩
    rw [subBox_half, subBox_center]; unfold InCube subCenter
    refine ⟨⟨?_, ?_⟩, ⟨?_, ?_⟩, ⟨?_, ?_⟩⟩ <;> simp only [] <;> linarith
  · refine ⟨2, rfl, ?_⟩
    rw [subBox_half, subBox_center]; unfold InCube subCenter
    refine ⟨⟨?_, ?_⟩, ⟨?_, ?_⟩, ⟨?_, ?_⟩⟩ <;> simp only [] <;> linarith

theorem subBox_subset {b : CubeBox} (i : Fin 8) (p : Pt) (hb : 0 ≤ b.half)
    (h : InCube (subBox b i).center (subBox b i).half p) : InCube b.center b.half p := by
  rw [subBox_half, subBox_center] at h
  obtain ⟨⟨hx1, hx2⟩, ⟨hy1, hy2⟩, ⟨hz1, hz2⟩⟩ := h
  unfold InCube
  fin_cases i <;> simp only [subCenter] at * <;>
    (refine ⟨⟨?_, ?_⟩, ⟨?_, ?_⟩, ⟨?_, ?_⟩⟩ <;> linarith)

theorem subBox_disjoint {b : CubeBox} (i j : Fin 8) (p : Pt)
    (hi : InsideCube (subBox b i).center (subBox b i).half p)
    (hj : InsideCube (subBox b j).center (subBox b j).half p) : i = j := by
  rw [subBox_half, subBox_center] at hi hj
  obtain ⟨⟨hx1, hx2⟩, ⟨hy1, hy2⟩, ⟨hz1, hz2⟩⟩ := hi
  obtain ⟨⟨kx1, kx2⟩, ⟨ky1, ky2⟩, ⟨kz1, kz2⟩⟩ := hj
  by_contra hne
  fin_cases i <;> fin_cases j <;> simp only [subCenter] at * <;>
    first
      | exact hne trivial
      | linarith

/-- depth-first list of leaves -/
def OctNode.leaves : OctNode → List OctLeaf
  | .leaf d b ps => [(d, b, ps)]
  | .node _ _ a b c d e f g h =>
    a.leaves ++ b.leaves ++ c.leaves ++ d.leaves ++ e.leaves ++ f.leaves ++ g.leaves ++ h.leaves

theorem octOutput_perm (q : List OctNode) : (octOutput q).Perm (q.flatMap OctNode.leaves) := by
  fun_induction octOutput q with
  | case1 => simp
  | case2 d b ps queue ih => simpa [OctNode.leaves] using ih
  | case3 d0 b0 a b c d e f g h queue ih =>
    refine ih.trans ?_
    simp only [List.flatMap_append, List.flatMap_cons, List.flatMap_nil, List.append_nil,
      OctNode.leaves, List.append_assoc]
    refine List.perm_append_comm.trans ?_
    simp only [List.append_assoc]
    exact List.Perm.refl _

def pick8 {α} (a0 a1 a2 a3 a4 a5 a6 a7 : α) (i : Fin 8) : α :=
  match i with
  | 0 => a0 | 1 => a1 | 2 => a2 | 3 => a3 | 4 => a4 | 5 => a5 | 6 => a6 | 7 => a7

theorem octBuild_node {cfg : OctreeConfig} {fuel : Nat} {depth : Int} {box : CubeBox}
    {points : List Pt} {n : OctNode} (hw : box.WF)
    (hl : (depth = cfg.maxDepth || sizeLeMaxNum points.length cfg.maxNum) = false)
    (h : octBuild cfg (fuel+1) depth box points = .ok n) :
    ∃ c : Fin 8 → OctNode,
      (∀ i, octBuild cfg fuel (depth+1) (subBox box i) (octSub box points (i.val : Int)) = .ok (c i)) ∧
      n = .node depth box (c 0) (c 1) (c 2) (c 3) (c 4) (c 5) (c 6) (c 7) := by
  unfold octBuild at h
  simp only [hl, Bool.false_eq_true, if_false, subBoxes_eq hw, Outcome.bind_ok,
    Outcome.bind_eq_ok, Outcome.pure_eq, Outcome.ok.injEq] at h
  obtain ⟨c0, h0, c1, h1, c2, h2, c3, h3, c4, h4, c5, h5, c6, h6, c7, h7, hn⟩ := h
  refine ⟨pick8 c0 c1 c2 c3 c4 c5 c6 c7, ?_, hn.symm⟩
  intro i
  fin_cases i <;> assumption

theorem octBuild_ok (cfg : OctreeConfig) (fuel : Nat) (depth : Int) (box : CubeBox)
    (points : List Pt) (hw : box.WF) (hd : depth ≤ cfg.maxDepth)
    (hf : cfg.maxDepth - depth < fuel) : ∃ n, octBuild cfg fuel depth box points = .ok n := by
  induction fuel generalizing depth box points with
  | zero => omega
  | succ fuel ih =>
    unfold octBuild
    split
    · exact ⟨_, rfl⟩
    · rename_i hl
      simp only [Bool.or_eq_true, decide_eq_true_eq, not_or] at hl
      rw [subBoxes_eq hw]
      simp only [Outcome.bind_ok]
      have hc : ∀ (i : Fin 8) ps, ∃ n, octBuild cfg fuel (depth+1) (subBox box i) ps = .ok n :=
        fun i ps => ih (depth+1) _ ps (subBox_wf box i) (by omega) (by omega)
      obtain ⟨c0, h0⟩ := hc 0 (octSub box points 0)
      obtain ⟨c1, h1⟩ := hc 1 (octSub box points 1)
      obtain ⟨c2, h2⟩ := hc 2 (octSub box points 2)
      obtain ⟨c3, h3⟩ := hc 3 (octSub box points 3)
      obtain ⟨c4, h4⟩ := hc 4 (octSub box points 4)
      obtain ⟨c5, h5⟩ := hc 5 (octSub box points 5)
      obtain ⟨c6, h6⟩ := hc 6 (octSub box points 6)
      obtain ⟨c7, h7⟩ := hc 7 (octSub box points 7)
      simp only [h0, h1, h2, h3, h4, h5, h6, h7, Outcome.bind_ok]
      exact ⟨_, rfl⟩

theorem octBuild_ne_abort (cfg : OctreeConfig) (fuel : Nat) (depth : Int) (box : CubeBox)
    (points : List Pt) (hw : box.WF) : octBuild cfg fuel depth box points ≠ .abort := by
  induction fuel generalizing depth box points with
  | zero => simp [octBuild]
  | succ fuel ih =>
    unfold octBuild
    split
    · simp
    · rw [subBoxes_eq hw]
      simp only [Outcome.bind_ok]
      have hc : ∀ (i : Fin 8) ps, octBuild cfg fuel (depth+1) (subBox box i) ps ≠ .abort :=
        fun i ps => ih (depth+1) _ ps (subBox_wf box i)
      have seq : ∀ {α β : Type} (x : Outcome α) (f : α → Outcome β), x ≠ .abort →
          (∀ a, f a ≠ .abort) → (x >>= f) ≠ .abort := by
        intro α β x f hx hf
        cases x
        · exact hf _
        · exact absurd rfl hx
        · simp
      refine seq _ _ (hc 0 _) fun _ => seq _ _ (hc 1 _) fun _ => seq _ _ (hc 2 _) fun _ =>
        seq _ _ (hc 3 _) fun _ => seq _ _ (hc 4 _) fun _ => seq _ _ (hc 5 _) fun _ =>
        seq _ _ (hc 6 _) fun _ => seq _ _ (hc 7 _) fun _ => by simp

theorem leaves_node (d : Int) (b : CubeBox) (c : Fin 8 → OctNode) :
    (OctNode.node d b (c 0) (c 1) (c 2) (c 3) (c 4) (c 5) (c 6) (c 7)).leaves =
      (List.finRange 8).flatMap (fun i => (c i).leaves) := by
  simp [OctNode.leaves, List.finRange_succ, List.flatMap_cons]

theorem octBuild_shape (cfg : OctreeConfig) (fuel : Nat) (depth : Int) (box : CubeBox)
    (points : List Pt) (n : OctNode) (hw : box.WF) (hd : depth ≤ cfg.maxDepth)
    (h : octBuild cfg fuel depth box points = .ok n) :
    ∀ l ∈ n.leaves, (l.1 = cfg.maxDepth ∨ sizeLeMaxNum l.2.2.length cfg.maxNum = true) ∧
      l.1 ≤ cfg.maxDepth ∧ depth ≤ l.1 := by
  induction fuel generalizing depth box points n with
  | zero => simp [octBuild] at h
  | succ fuel ih =>
    by_cases hl : (depth = cfg.maxDepth || sizeLeMaxNum points.length cfg.maxNum) = true
    · unfold octBuild at h
      rw [if_pos hl] at h
      cases h
      intro l hm
      simp [OctNode.leaves] at hm
      subst hm
      simp only [Bool.or_eq_true, decide_eq_true_eq] at hl
      exact ⟨hl, hd, le_refl _⟩
    · obtain ⟨c, hc, rfl⟩ := octBuild_node hw (by simpa using hl) h
      rw [leaves_node]
      intro l hm
      simp only [List.mem_flatMap] at hm
      obtain ⟨i, _, hi⟩ := hm
      simp only [Bool.or_eq_true, decide_eq_true_eq, not_or] at hl
      have := ih (depth+1) _ _ _ (subBox_wf box i) (by omega) (hc i) l hi
      exact ⟨this.1, this.2.1, by omega⟩

theorem octBuild_inCube (cfg : OctreeConfig) (fuel : Nat) (depth : Int) (box : CubeBox)
    (points : List Pt) (n : OctNode) (hw : box.WF) 
    (hin : ∀ p ∈ points, InCube box.center box.half p)
    (h : octBuild cfg fuel depth box points = .ok n) :
    ∀ l ∈ n.leaves, ∀ p ∈ l.2.2, InCube l.2.1.center l.2.1.half p := by
  induction fuel generalizing depth box points n with
  | zero => simp [octBuild] at h
  | succ fuel ih =>
    by_cases hl : (depth = cfg.maxDepth || sizeLeMaxNum points.length cfg.maxNum) = true
    · unfold octBuild at h
      rw [if_pos hl] at h
      cases h
      intro l hm
      simp [OctNode.leaves] at hm
      subst hm
      exact hin
    · obtain ⟨c, hc, rfl⟩ := octBuild_node hw (by simpa using hl) h
      rw [leaves_node]
      intro l hm
      simp only [List.mem_flatMap] at hm
      obtain ⟨i, _, hi⟩ := hm
      refine ih (depth+1) _ _ _ (subBox_wf box i) ?_ (hc i) l hi
      intro p hp
      simp only [octSub, List.mem_filter, decide_eq_true_eq] at hp
      obtain ⟨j, hj, hj'⟩ := subIndex_sub p (hin p hp.1)
      have : j = i := by
        have := hj.symm.trans hp.2
        exact Fin.ext (by exact_mod_cast this)
      exact this ▸ hj'

theorem mem_octSub {box : CubeBox} {points : List Pt} {i : Int} {p : Pt} :
    p ∈ octSub box points i ↔ p ∈ points ∧ box.subIndex p = i := by
  simp [octSub]

theorem octBuild_absent (cfg : OctreeConfig) (fuel : Nat) (depth : Int) (box : CubeBox)
    (points : List Pt) (n : OctNode) (hw : box.WF) (p : Pt) (hp : p ∉ points)
    (h : octBuild cfg fuel depth box points = .ok n) : ∀ l ∈ n.leaves, p ∉ l.2.2 := by
  induction fuel generalizing depth box points n with
  | zero => simp [octBuild] at h
  | succ fuel ih =>
    by_cases hl : (depth = cfg.maxDepth || sizeLeMaxNum points.length cfg.maxNum) = true
    · unfold octBuild at h
      rw [if_pos hl] at h
      cases h
      intro l hm
      simp [OctNode.leaves] at hm
      subst hm
      exact hp
    · obtain ⟨c, hc, rfl⟩ := octBuild_node hw (by simpa using hl) h
      rw [leaves_node]
      intro l hm
      simp only [List.mem_flatMap] at hm
      obtain ⟨i, _, hi⟩ := hm
      exact ih (depth+1) _ _ _ (subBox_wf box i) (fun hh => hp (mem_octSub.1 hh).1) (hc i) l hi

theorem countP_flatMap_one {α β} (f : α → List β) (q : β → Bool) (l : List α) (hn : l.Nodup) (i : α)
    (hi : i ∈ l) (h0 : ∀ j ∈ l, j ≠ i → (f j).countP q = 0) :
    (l.flatMap f).countP q = (f i).countP q := by
  induction l with
  | nil => simp at hi
  | cons a l ih =>
    rw [List.nodup_cons] at hn
    rw [List.flatMap_cons, List.countP_append]
    by_cases h : a = i
    · subst h
      have hz : (l.flatMap f).countP q = 0 := by
        rw [List.countP_eq_zero]
        intro x hx
        simp only [List.mem_flatMap] at hx
        obtain ⟨j, hj, hxj⟩ := hx
        have h1 := h0 j (by simp [hj]) (fun e => hn.1 (e ▸ hj))
        rw [List.countP_eq_zero] at h1
        exact h1 x hxj
      omega
    · have hi' : i ∈ l := by
        rcases List.mem_cons.1 hi with h' | h'
        · exact absurd h'.symm h
        · exact h'
      rw [ih hn.2 hi' (fun j hj => h0 j (by simp [hj])), h0 a (by simp) h]
      omega

theorem octBuild_once (cfg : OctreeConfig) (fuel : Nat) (depth : Int) (box : CubeBox)
    (points : List Pt) (n : OctNode) (hw : box.WF) (p : Pt) (hp : p ∈ points)
    (hin : InCube box.center box.half p)
    (h : octBuild cfg fuel depth box points = .ok n) :
    n.leaves.countP (fun l => decide (p ∈ l.2.2)) = 1 ∧
      ∀ l ∈ n.leaves, p ∈ l.2.2 →
        l.2.2.count p = points.count p ∧ InCube l.2.1.center l.2.1.half p := by
  induction fuel generalizing depth box points n with
  | zero => simp [octBuild] at h
  | succ fuel ih =>
    by_cases hl : (depth = cfg.maxDepth || sizeLeMaxNum points.length cfg.maxNum) = true
    · unfold octBuild at h
      rw [if_pos hl] at h
      cases h
      refine ⟨by simp [OctNode.leaves, hp], ?_⟩
      intro l hm
      simp [OctNode.leaves] at hm
      subst hm
      exact fun _ => ⟨rfl, hin⟩
    · obtain ⟨c, hc, rfl⟩ := octBuild_node hw (by simpa using hl) h
      rw [leaves_node]
      obtain ⟨i, hi, hii⟩ := subIndex_sub p hin
      have hothers : ∀ j, j ≠ i → ∀ l ∈ (c j).leaves, p ∉ l.2.2 := by
        intro j hj
        refine octBuild_absent cfg fuel (depth+1) _ _ _ (subBox_wf box j) p ?_ (hc j)
        intro hh
        have := (mem_octSub.1 hh).2
        exact hj (Fin.ext (by exact_mod_cast this.symm.trans hi))
      obtain ⟨h1, h2⟩ := ih (depth+1) _ _ _ (subBox_wf box i) (mem_octSub.2 ⟨hp, hi⟩) hii (hc i)
      constructor
      · rw [countP_flatMap_one _ _ _ (List.nodup_finRange 8) i (List.mem_finRange i), h1]
        intro j _ hj
        rw [List.countP_eq_zero]
        intro l hl'
        simpa using hothers j hj l hl'
      · intro l hm hpl
        simp only [List.mem_flatMap] at hm
        obtain ⟨j, _, hj⟩ := hm
        by_cases e : j = i
        · subst e
          obtain ⟨h3, h4⟩ := h2 l hj hpl
          refine ⟨?_, h4⟩
          rw [h3]
          unfold octSub
          exact List.count_filter (by simpa using hi)
        · exact absurd hpl (hothers j e l hj)

theorem octBuild_outside (cfg : OctreeConfig) (fuel : Nat) (depth : Int) (box : CubeBox)
    (points : List Pt) (n : OctNode) (hw : box.WF) (p : Pt)
    (hl : (depth = cfg.maxDepth || sizeLeMaxNum points.length cfg.maxNum) = false)
    (hout : ¬ InCube box.center box.half p)
    (h : octBuild cfg fuel depth box points = .ok n) : ∀ l ∈ n.leaves, p ∉ l.2.2 := by
  cases fuel with
  | zero => simp [octBuild] at h
  | succ fuel =>
    obtain ⟨c, hc, rfl⟩ := octBuild_node hw hl h
    rw [leaves_node]
    intro l hm
    simp only [List.mem_flatMap] at hm
    obtain ⟨i, _, hi⟩ := hm
    refine octBuild_absent cfg fuel (depth+1) _ _ _ (subBox_wf box i) p ?_ (hc i) l hi
    intro hh
    have := (mem_octSub.1 hh).2
    rw [(subIndex_neg p).2 hout] at this
    omega

end Verif
