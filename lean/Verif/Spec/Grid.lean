import Verif.Spec.Geometry
import Verif.Model.Grid

/-! Specification vocabulary for grids: it only mentions the list of cells obtained by iterating the grid
and the rectangles of the cells. -/

namespace Benker
variable {γ : Type}

/-- reading order of coordinates: by row, then by column -/
def CornerBefore (p q : Coord) : Prop := p.y < q.y ∨ (p.y = q.y ∧ p.x < q.x)

/-- some cell of the list covers the coordinate -/
def Covered (cells : List (Cell γ)) (p : Coord) : Prop := ∃ c ∈ cells, InBox p c.box

/-- no coordinate belongs to two cells (of different positions in the list) -/
def DisjointCells (cells : List (Cell γ)) : Prop := cells.Pairwise (fun a b => ¬ Overlap a.box b.box)

/-- the cell moved so that its top-left corner is `c` -/
def movedTo (cell : Cell γ) (c : Coord) : Cell γ :=
  { cell with box := ⟨c, ⟨c.x + (cell.box.max.x - cell.box.min.x), c.y + (cell.box.max.y - cell.box.min.y)⟩⟩ }

/-- left-to-right combination of contents with the appender, ignoring `None` -/
def combineContents (f : γ → γ → Except PyErr γ) (contents : List (Option γ)) : Except PyErr (Option γ) :=
  match contents.filterMap id with
  | [] => .ok none
  | a :: as => (as.foldlM f a).map some

end Benker
