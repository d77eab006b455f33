import Verif.Spec.CalsDoc

/-! Specification of C109: where the entries of a CALS table are, when its rows have not all the same length. -/

namespace Benker.CalsSpec

/-- the greatest number of a list -/
def IsMax (n : Nat) (l : List Int) : Prop := (n : Int) ∈ l ∧ ∀ m ∈ l, m ≤ n

/-- the places of the entries: each entry starts in its row, at the first place which the entries before it leave, and covers the columns and the rows
which it tells; no entry is drawn over another one -/
structure CalsDoc.Placed (ns : Option String) (d : CalsDoc) : Prop where
  first : ∃ r, d.rows[0]? = some r ∧ r.2.entries ≠ []
  starts : ∀ (i : Nat) (r : Node × DocRow), d.rows[i]? = some r → ∀ e ∈ r.2.entries, e.box.min.y = (i : Int) + 1
  valid : ∀ e ∈ d.entries, 1 ≤ e.2.box.min.x ∧ e.2.box.min.x ≤ e.2.box.max.x ∧ e.2.box.min.y ≤ e.2.box.max.y
  spans : ∀ e ∈ d.entries, SpansColumns (e.2.node.attr ⟨ns, "namest"⟩) (e.2.node.attr ⟨ns, "nameend"⟩) (e.2.box.max.x - e.2.box.min.x + 1) ∧
    SpansRows (e.2.node.attr ⟨ns, "morerows"⟩) (e.2.box.max.y - e.2.box.min.y + 1)
  disjoint : d.entries.Pairwise (fun a b => ¬ Overlap a.2.box b.2.box)
  leftmost : ∀ pre e post, d.entries = pre ++ e :: post → ∀ x : Int, 1 ≤ x → x < e.2.box.min.x → ∃ a ∈ pre, InBox ⟨x, e.2.box.min.y⟩ a.2.box

/-- the number of columns: the last column of an entry or of a `colspec` -/
def CalsDoc.Width (d : CalsDoc) (w : Nat) : Prop := IsMax w (d.entries.map (·.2.box.max.x) ++ d.cols.map (fun c => (c.num : Int)))

/-- the number of rows: the number of `row` elements, or more if an entry goes below -/
def CalsDoc.Height (d : CalsDoc) (h : Nat) : Prop := IsMax h (d.entries.map (·.2.box.max.y) ++ [(d.rows.length : Int)])

/-- a place whose column is known when its row ends: there is a `colspec` for this column or for a column after it, or such a column is covered by an entry of this row or of
a row above -/
def CalsDoc.Known (d : CalsDoc) (p : Coord) : Prop :=
  (∃ c ∈ d.cols, p.x ≤ c.num) ∨ ∃ e ∈ d.entries, e.2.box.min.y ≤ p.y ∧ p.x ≤ e.2.box.max.x

/-- an empty cell, of one column and one row: it has the kind of its row if its column is known when its row ends, no kind otherwise -/
def CalsDoc.EmptyPlace (d : CalsDoc) (c : Cell Content) : Prop :=
  c.content = none ∧ c.styles = [] ∧ c.box.max = c.box.min ∧
  ((∃ (i : Nat) (r : Node × DocRow) (k : String), c.box.min.y = (i : Int) + 1 ∧ d.rows[i]? = some r ∧ KindOf r.1 k ∧ c.nature = some k ∧ d.Known c.box.min) ∨
    (c.nature = none ∧ ((d.rows.length : Int) < c.box.min.y ∨ ¬ d.Known c.box.min)))

end Benker.CalsSpec

namespace Benker.CalsSpec

/-- two documents with the same elements, whatever the places given to their entries -/
def CalsDoc.SameElements (d d' : CalsDoc) : Prop :=
  d'.table = d.table ∧ d'.tgroup = d.tgroup ∧ d'.cols = d.cols ∧
  d'.bodies.map (fun b => (b.node, b.rows.map (fun r => (r.node, r.entries.map (·.node))))) =
    d.bodies.map (fun b => (b.node, b.rows.map (fun r => (r.node, r.entries.map (·.node)))))

/-- each entry tells how many columns and rows it covers; the first row is not empty -/
structure CalsDoc.Sized (ns : Option String) (size : Node → Nat × Nat) (d : CalsDoc) : Prop where
  first : ∃ r, d.rows[0]? = some r ∧ r.2.entries ≠ []
  columns : ∀ e ∈ d.entries, 1 ≤ (size e.2.node).1 ∧ SpansColumns (e.2.node.attr ⟨ns, "namest"⟩) (e.2.node.attr ⟨ns, "nameend"⟩) (size e.2.node).1
  rows : ∀ e ∈ d.entries, 1 ≤ (size e.2.node).2 ∧ SpansRows (e.2.node.attr ⟨ns, "morerows"⟩) (size e.2.node).2

/-- no entry of several columns is in a row down to which an entry of a row above goes -/
def CalsDoc.NoCollision (size : Node → Nat × Nat) (d : CalsDoc) : Prop :=
  ∀ i j r q, d.rows[i]? = some r → d.rows[j]? = some q → i < j →
    (∃ a ∈ r.2.entries, j < i + (size a.node).2) → ∀ b ∈ q.2.entries, (size b.node).1 = 1

end Benker.CalsSpec
