import Verif.Model.Table

/-! Changing the contents of a table and nothing else. -/

namespace Benker
variable {γ δ : Type}

/-- the same cell with another content -/
def Cell.mapContent (f : γ → δ) (c : Cell γ) : Cell δ := ⟨c.content.map f, c.styles, c.nature, c.box⟩

def Grid.mapContent (f : γ → δ) (g : Grid γ) : Grid δ := ⟨g.cells.map (Cell.mapContent f)⟩

def View.mapContent (f : γ → δ) (v : View γ) : View δ :=
  ⟨v.pos, v.styles, v.nature, v.owned.map (Cell.mapContent f), v.caught.map (Cell.mapContent f)⟩

def Table.mapContent (f : γ → δ) (t : Table γ) : Table δ :=
  ⟨t.styles, t.nature, t.grid.mapContent f, t.rows.map (List.map (View.mapContent f)), t.cols.map (List.map (View.mapContent f))⟩

/-- the layout of a table: everything but the contents (only whether they are `None` is kept) -/
def Table.layout (t : Table γ) : Table Unit := t.mapContent (fun _ => ())

end Benker
