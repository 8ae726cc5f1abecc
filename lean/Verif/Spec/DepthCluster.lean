import Verif.Model.DepthCluster
import Mathlib.Logic.Relation
/-
Specification for C52: pixels, neighbours and connectedness, in words of the image only.
-/
namespace Verif.Spec
open Verif

variable {R : Type} [Field R] [LinearOrder R]

/-- A cell of the image that holds a point. -/
def Pixel (cfg : DepthCfg R) (img : ImageState R) (c : Int × Int) : Prop :=
  (0 ≤ c.1 ∧ c.1 < cfg.rows ∧ 0 ≤ c.2 ∧ c.2 < cfg.cols) ∧ cfg.tiny ≤ img.cell c

/-- Neighbours in a row: at distance one or two around the circle. -/
def SideBySide (cfg : DepthCfg R) (a b : Int × Int) : Prop :=
  a.1 = b.1 ∧ ∃ d : Int, (d = 1 ∨ d = -1 ∨ d = 2 ∨ d = -2) ∧ (b.2 - a.2 - d) % cfg.cols = 0

/-- Neighbours in a column. -/
def Stacked (a b : Int × Int) : Prop := (b.1 = a.1 + 1 ∨ a.1 = b.1 + 1) ∧ a.2 = b.2

/-- Two pixels that are neighbours and pass the angle test. -/
def Linked (cfg : DepthCfg R) (img : ImageState R) (a b : Int × Int) : Prop :=
  Pixel cfg img a ∧ Pixel cfg img b ∧
    ((SideBySide cfg a b ∧ cfg.sep true (max (img.cell a) (img.cell b))
        (min (img.cell a) (img.cell b)) = true) ∨
     (Stacked a b ∧ cfg.sep false (max (img.cell a) (img.cell b))
        (min (img.cell a) (img.cell b)) = true))

/-- Connected by a chain of linked pixels. -/
def Joined (cfg : DepthCfg R) (img : ImageState R) : Int × Int → Int × Int → Prop :=
  Relation.ReflTransGen (Linked cfg img)

end Verif.Spec
