import Verif.Spec.FormexDoc
import Verif.Spec.CalsRagged

/-! Specification of C110: where the cells and the titles of a Formex table are, when its rows have not all the same length. -/

namespace Benker.FmxSpec
open CalsSpec

/-- the places of the cells, of the titles, and of the empty places at the left of the titles: each one starts in its line, at the first place which those before it
leave, and covers the columns and the rows which it tells; a note covers the `w` columns of the table; nothing is drawn over something else -/
structure FmxDoc.Placed (ns cals : Option String) (w : Nat) (d : FmxDoc) : Prop where
  openEnd : ∀ l ∈ d.all, l.after = []
  first : ∃ l, d.lines[0]? = some l ∧ l.cells ≠ []
  starts : ∀ (i : Nat) (l : DocLine), d.all[i]? = some l → ∀ e ∈ l.drawn, e.2.min.y = (i : Int) + 1
  rows : ∀ l ∈ d.lines, l.sort = .row → l.before = [] ∧ ∀ c ∈ l.cells,
    CellColumns (c.node.attr ⟨ns, "COLSPAN"⟩) (c.node.attr ⟨cals, "namest"⟩) (c.node.attr ⟨cals, "nameend"⟩) (c.box.max.x - c.box.min.x + 1) ∧
    CellRows (c.node.attr ⟨ns, "ROWSPAN"⟩) (c.node.attr ⟨cals, "morerows"⟩) (c.box.max.y - c.box.min.y + 1)
  titles : ∀ l ∈ d.lines, l.sort ≠ .row → ∀ c ∈ l.cells, ∃ a b, ToldNumber (l.node.attr ⟨ns, "COL.START"⟩) 1 a ∧ ToldNumber (l.node.attr ⟨ns, "COL.END"⟩) 1 b ∧
    l.before.length + 1 = a ∧ c.box.max.x - c.box.min.x = (b : Int) - a ∧ c.box.max.y = c.box.min.y
  notes : ∀ l ∈ d.notes, l.before = [] ∧ ∀ c ∈ l.cells, c.box.min.x = 1 ∧ c.box.max.x = w ∧ c.box.max.y = c.box.min.y
  places : ∀ l ∈ d.lines, ∀ b ∈ l.before, b.max = b.min
  valid : ∀ e ∈ d.drawn, 1 ≤ e.2.2.min.x ∧ e.2.2.min.x ≤ e.2.2.max.x ∧ e.2.2.min.y ≤ e.2.2.max.y
  disjoint : d.drawn.Pairwise (fun a b => ¬ Overlap a.2.2 b.2.2)
  leftmost : ∀ pre e post, d.drawn = pre ++ e :: post → ∀ x : Int, 1 ≤ x → x < e.2.2.min.x → ∃ a ∈ pre, InBox ⟨x, e.2.2.min.y⟩ a.2.2

/-- the number of columns: the last column of a cell, of a title or of a `colspec` -/
def FmxDoc.Width (d : FmxDoc) (w : Nat) : Prop := IsMax w (d.lines.flatMap (fun l => l.drawn.map (·.2.max.x)) ++ d.cols.map (fun c => (c.num : Int)))

/-- the number of rows: the number of lines and notes, or more if a cell goes below -/
def FmxDoc.Height (d : FmxDoc) (h : Nat) : Prop := IsMax h (d.drawn.map (·.2.2.max.y) ++ [(d.all.length : Int)])

/-- a place whose column is known when its line ends: there is a `colspec` for this column or for a column after it, or such a column is covered by something which is drawn in this
line or in a line above -/
def FmxDoc.Known (d : FmxDoc) (p : Coord) : Prop :=
  (∃ c ∈ d.cols, p.x ≤ c.num) ∨ ∃ e ∈ d.drawn, e.2.2.min.y ≤ p.y ∧ p.x ≤ e.2.2.max.x

/-- an empty cell, of one column and one row: it has the kind of its line if its column is known when its line ends, no kind otherwise -/
def FmxDoc.EmptyPlace (ns : Option String) (d : FmxDoc) (c : Cell Content) : Prop :=
  c.content = none ∧ c.styles = [] ∧ c.box.max = c.box.min ∧
  ((∃ (i : Nat) (l : DocLine), c.box.min.y = (i : Int) + 1 ∧ d.all[i]? = some l ∧ c.nature = some (l.kind ns) ∧ d.Known c.box.min) ∨
    (c.nature = none ∧ ((d.all.length : Int) < c.box.min.y ∨ ¬ d.Known c.box.min)))

end Benker.FmxSpec
