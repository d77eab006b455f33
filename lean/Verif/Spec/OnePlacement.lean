import Verif.Spec.FormexRagged

/-! Specification of C109 and C110: Formex documents with the same elements. -/

namespace Benker.FmxSpec

/-- two documents with the same elements, whatever the places given to their cells, to their titles and to their notes -/
def FmxDoc.SameElements (d d' : FmxDoc) : Prop :=
  d'.corpus = d.corpus ∧ d'.cols = d.cols ∧
  d'.lines.map (fun l => (l.sort, l.node, l.level, l.cells.map (·.node))) = d.lines.map (fun l => (l.sort, l.node, l.level, l.cells.map (·.node))) ∧
  d'.notes.map (fun l => (l.sort, l.node, l.level, l.cells.map (·.node))) = d.notes.map (fun l => (l.sort, l.node, l.level, l.cells.map (·.node)))

/-- `size` is the number of columns and of rows which a cell or a title tells, `start` the column where a title tells that it starts; there is a cell in the first line -/
structure FmxDoc.Sized (ns cals : Option String) (size : Node → Nat × Nat) (start : Node → Nat) (d : FmxDoc) : Prop where
  first : ∃ l, d.lines[0]? = some l ∧ l.cells ≠ []
  rows : ∀ l ∈ d.lines, l.sort = .row → ∀ c ∈ l.cells, 1 ≤ (size c.node).1 ∧ 1 ≤ (size c.node).2 ∧
    CellColumns (c.node.attr ⟨ns, "COLSPAN"⟩) (c.node.attr ⟨cals, "namest"⟩) (c.node.attr ⟨cals, "nameend"⟩) (size c.node).1 ∧
    CellRows (c.node.attr ⟨ns, "ROWSPAN"⟩) (c.node.attr ⟨cals, "morerows"⟩) (size c.node).2
  titles : ∀ l ∈ d.lines, l.sort ≠ .row → 1 ≤ start l.node ∧ 1 ≤ (size l.node).1 ∧ (size l.node).2 = 1 ∧
    ToldNumber (l.node.attr ⟨ns, "COL.START"⟩) 1 (start l.node) ∧ ToldNumber (l.node.attr ⟨ns, "COL.END"⟩) 1 (start l.node + (size l.node).1 - 1)

/-- no cell or title of several columns is in a line down to which a cell of a line above goes; if there are notes, no cell goes below the last line -/
def FmxDoc.NoCollision (size : Node → Nat × Nat) (d : FmxDoc) : Prop :=
  (∀ i j l m, d.lines[i]? = some l → d.lines[j]? = some m → i < j → (∃ a ∈ l.cells, j < i + (size a.node).2) → ∀ b ∈ m.cells, (size b.node).1 = 1) ∧
  (d.notes ≠ [] → ∀ i l, d.lines[i]? = some l → ∀ a ∈ l.cells, i + (size a.node).2 ≤ d.lines.length)

end Benker.FmxSpec
