import Verif.Spec.FormexDoc
import Verif.Spec.Conversion

/-! Specification of the finalisation of the Formex tables: what the builder writes, and what is in the final document. -/

namespace Benker.FmxSpec
open CalsSpec

mutual
/-- out of the tables, there is neither `CORPUS` nor `ROW` -/
def TablesApart : Node → Prop
  | .elem t _ _ cs _ => t = name "TBL" ∨ t ≠ name "CORPUS" ∧ t ≠ name "ROW" ∧ TablesApartList cs
  | _ => True
def TablesApartList : List Node → Prop
  | [] => True
  | n :: ns => TablesApart n ∧ TablesApartList ns
end

/-- the row is marked as a future note -/
def Marked (l : DocLine) : Prop := l.node.attr (name "TYPE") = some "__GR.NOTES__"

/-- a table before the finalisation: it only has rows, those which are marked as notes are the last ones, they have a single cell which is as wide as
the table; the spans of the cells are told by `COLSPAN` and `ROWSPAN`; no row has a CALS style; there are no other tables in the cells (`own` is the CALS
namespace of the builder, `cals` is the one with which the table is read) -/
structure Provisional (own cals : Option String) (w h : Nat) (body foot : List DocLine) (T : Node) (d : FmxDoc) : Prop where
  tag : T.tag? = some (name "TBL")
  only : T.children = [d.corpus]
  notes : d.notes = []
  nested : d.Nested none cals 0 (some T)
  drawn : d.Drawn none cals w h
  columns : d.Columns cals w
  lines : d.lines = body ++ foot
  plain : ∀ l ∈ d.lines, l.sort = .row ∧ l.after = []
  spans : ∀ l ∈ d.lines, ∀ c ∈ l.cells, CellColumns (c.node.attr (name "COLSPAN")) none none (c.box.max.x - c.box.min.x + 1) ∧
    CellRows (c.node.attr (name "ROWSPAN")) none (c.box.max.y - c.box.min.y + 1)
  names : ∀ t a, Tok.opening t a ∈ toks d.corpus → t ∉ ["TBL", "GR.NOTES", "BLK"].map name
  unstyled : ∀ n ∈ d.corpus.children, n.attr ⟨own, "rowstyle"⟩ = none
  body : body ≠ [] ∧ ∀ l ∈ body, ¬ Marked l
  foot : ∀ l ∈ foot, Marked l ∧ ∃ c, l.cells = [c] ∧ c.box.min.x = 1 ∧ c.box.max.x = w ∧ c.box.max.y = c.box.min.y

/-- the same cells, at the same places, which show the same -/
def SameCells (l m : DocLine) : Prop := All₂ (fun a b => b.box = a.box ∧ shownToks none b.node = shownToks none a.node) l.cells m.cells

/-- the table after the finalisation: the rows which were marked are notes, in the same order, and they are drawn at the same places -/
structure Finalised (cals : Option String) (w h : Nat) (body foot : List DocLine) (T : Node) (d : FmxDoc) : Prop where
  tag : T.tag? = some (name "TBL")
  only : T.children = d.notes.map (·.node) ++ [d.corpus]
  nested : d.Nested none cals 0 (some T)
  drawn : d.Drawn none cals w h
  widthKnown : d.WidthKnown w
  columns : d.Columns cals w
  rows : All₂ (fun l m => SameCells l m ∧ m.sort = .row ∧ m.after = [] ∧ m.kind none = "body") body d.lines
  notes : All₂ (fun l m => SameCells l m ∧ m.sort = .note ∧ m.kind none = "footer") foot d.notes
  inside : ∀ l ∈ d.notes, NoFmx none cals l.node.children

end Benker.FmxSpec

namespace Benker.Shown
open CalsSpec

/-- the lines of the foot are the last ones, each of them has a single cell, which is as wide as the table -/
def FootersLast (w : Nat) (p : Picture) : Prop :=
  ∃ a b, p = a ++ b ∧ a ≠ [] ∧ (∀ l ∈ a, l.kind ≠ "footer") ∧
    ∀ l ∈ b, l.kind = "footer" ∧ ∃ c, l.cells = [c] ∧ c.1.min.x = 1 ∧ c.1.max.x = w ∧ c.1.max.y = c.1.min.y

/-- the lines and the notes of a final Formex table show the same as these lines, in the same rectangles; a header is a part of the body -/
def FinalLines (lost : List Tok → Prop) (p : Picture) (lines : List FmxSpec.DocLine) : Prop :=
  All₂ (fun l m => m.kind none = (if l.kind = "footer" then "footer" else "body") ∧ m.before = [] ∧ m.after = [] ∧
    All₂ (fun a b => b.box = a.1 ∧ (FmxSpec.shownToks none b.node = a.2 ∨ FmxSpec.shownToks none b.node = [] ∧ lost a.2)) l.cells m.cells) p lines

end Benker.Shown
