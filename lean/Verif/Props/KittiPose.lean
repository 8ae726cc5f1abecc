import Verif.Proofs.KittiPose
/-!
# C88: the KITTI pose file holds the final poses and can be read back

The file has one line per submap, in order, of the twelve numbers of the upper rows of its pose; any
reader of decimal numbers gets them back to eight significant digits.  KITTI's own tools expect a line
per scan: the file has that only if every submap has one frame.
-/
namespace Verif
open Spec

/-- C88: what is in the file, read back: line `k` is the pose of submap `k`, row by row. -/
theorem C88_file (poses : List (Mat4 ℚ)) :
    ∃ text rows, kittiFile true true poses = some text ∧ readBlankTable text = some rows ∧
      rows.length = poses.length ∧
      ∀ (k : Nat) (p : Mat4 ℚ), poses[k]? = some p → ∃ row, rows[k]? = some row ∧ RowMajor row p := by
  refine ⟨_, _, rfl, readBlankTable_lines poses, by simp, ?_⟩
  intro k p h
  refine ⟨(kittiNumbers p).map general8Val, by rw [List.getElem?_map, h]; rfl, ?_, ?_⟩
  · simp [kittiNumbers]
  · intro i j
    refine ⟨general8Val (p i.castSucc j), ?_, general8_close _⟩
    fin_cases i <;> fin_cases j <;> rfl

/-- C88: the position of a submap within 10 km is read back to a millimetre, and an entry of its
rotation to a ten-millionth. -/
theorem C88_millimetre (poses : List (Mat4 ℚ)) (text : List Char) (rows : List (List ℚ)) (k : Nat)
    (p : Mat4 ℚ) (h : kittiFile true true poses = some text) (hr : readBlankTable text = some rows)
    (hk : poses[k]? = some p) :
    ∃ row, rows[k]? = some row ∧
      (∀ i : Fin 3, |p i.castSucc 3| ≤ 10000 →
        ∃ v, row[4 * i.1 + 3]? = some v ∧ |v - p i.castSucc 3| ≤ 1 / 1000) ∧
      (∀ (i : Fin 3) (j : Fin 4), |p i.castSucc j| ≤ 1 →
        ∃ v, row[4 * i.1 + j.1]? = some v ∧ |v - p i.castSucc j| ≤ 1 / 10000000) := by
  obtain ⟨t, r, ht, hrr, _, hrow⟩ := C88_file poses
  rw [h] at ht
  cases ht
  rw [hr] at hrr
  cases hrr
  obtain ⟨row, h1, _, h2⟩ := hrow k p hk
  refine ⟨row, h1, ?_, ?_⟩
  · intro i hi
    obtain ⟨v, hv, hc⟩ := h2 i 3
    refine ⟨v, hv, ?_⟩
    unfold Close8 at hc
    linarith
  · intro i j hi
    obtain ⟨v, hv, hc⟩ := h2 i j
    refine ⟨v, hv, ?_⟩
    unfold Close8 at hc
    linarith

/-- C88: there is a file exactly if it was asked for and could be opened. -/
theorem C88_asked (want opens : Bool) (poses : List (Mat4 ℚ)) :
    (kittiFile want opens poses).isSome = (want && opens) := by
  unfold kittiFile
  cases want <;> cases opens <;> rfl

/-- C88: the full property, a line for each scan, fails: two scans in one submap give one line. -/
theorem C88_scan_fails :
    ∃ (submaps : List (Mat4 ℚ × List (Mat4 ℚ))) (text : List Char) (rows : List (List ℚ)),
      kittiFile true true (submaps.map Prod.fst) = some text ∧ readBlankTable text = some rows ∧
      rows.length ≠ (submaps.flatMap Prod.snd).length := by
  obtain ⟨t, r, h1, h2, h3, _⟩ := C88_file [(1 : Mat4 ℚ)]
  exact ⟨[(1, [1, 1])], t, r, h1, h2, by rw [h3]; decide⟩

/-! Non-vacuity -/

/-- The text of an actual pose. -/
example : kittiFile true true [!![1, 0, 0, 5 / 2; 0, 1, 0, -1 / 3; 0, 0, 1, 123456789; 0, 0, 0, 1]] =
    some "1 0 0 2.5 0 1 0 -0.33333333 0 0 1 1.2345679e+08\n".toList := by decide +kernel

/-- Small numbers, and rounding up to the next power of ten. -/
example : general8 (1 / 30000) = "3.3333333e-05".toList ∧ general8 (9999999999 / 10 ^ 14) = "0.0001".toList ∧
    general8 (99999999999 / 1000) = "1e+08".toList := by decide +kernel

end Verif
