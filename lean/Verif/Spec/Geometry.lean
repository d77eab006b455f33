import Verif.Model.Geometry

/-! Specification vocabulary for rectangles, independent of the functions of the model:
only the corner fields of `Box` are used. -/

namespace Benker

/-- the coordinate `p` lies in the rectangle `b` -/
def InBox (p : Coord) (b : Box) : Prop :=
  b.min.x ≤ p.x ∧ p.x ≤ b.max.x ∧ b.min.y ≤ p.y ∧ p.y ≤ b.max.y

/-- a non-empty rectangle of the 1-based quadrant -/
def Box.Valid (b : Box) : Prop :=
  1 ≤ b.min.x ∧ b.min.x ≤ b.max.x ∧ 1 ≤ b.min.y ∧ b.min.y ≤ b.max.y

/-- the two rectangles share a coordinate -/
def Overlap (a b : Box) : Prop := ∃ p, InBox p a ∧ InBox p b

/-- every coordinate of `a` lies in `b` -/
def Within (a b : Box) : Prop := ∀ p, InBox p a → InBox p b

instance (p : Coord) (b : Box) : Decidable (InBox p b) := by unfold InBox; infer_instance
instance (b : Box) : Decidable b.Valid := by unfold Box.Valid; infer_instance

/-- reading order of rectangles: top row, left column, bottom row, right column -/
def ReadsBefore (a b : Box) : Prop :=
  a.min.y < b.min.y ∨ (a.min.y = b.min.y ∧
  (a.min.x < b.min.x ∨ (a.min.x = b.min.x ∧
  (a.max.y < b.max.y ∨ (a.max.y = b.max.y ∧ a.max.x < b.max.x)))))

end Benker
