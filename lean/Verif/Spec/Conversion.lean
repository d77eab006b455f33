import Verif.Spec.CalsDoc
import Verif.Spec.FormexDoc
import Verif.Spec.Ooxml

/-! What a table shows, in the same words for the three formats: lines of some kind, where contents are drawn in rectangles. -/

namespace Benker.Shown
open CalsSpec

/-- a line of a table: its kind (`header`, `body` or `footer`) and what is drawn in it, from left to right: the rectangles, whose top row is this line,
and their contents -/
structure Line where
  kind : String
  cells : List (Box × List Tok)
  deriving DecidableEq

/-- what a table shows, from top to bottom -/
abbrev Picture := List Line

/-- what a CALS table shows: the kind of a row is told by its `thead`, `tbody` or `tfoot` -/
def CalsShows (d : CalsDoc) (p : Picture) : Prop :=
  All₂ (fun x l => KindOf x.1 l.kind ∧ l.cells = x.2.entries.map (fun e => (e.box, insideToks e.node))) d.rows p

/-- what is shown at a place of a line of a Formex table: nothing if there is no cell; the notes are shown with their `GR.NOTES` element if `embed` -/
def formexToks (ns : Option String) (embed : Bool) (l : FmxSpec.DocLine) : Option Node → List Tok
  | none => []
  | some n => if l.sort = .note ∧ embed = true then toks n else FmxSpec.shownToks ns n

/-- what a Formex table shows -/
def formexPicture (ns : Option String) (embed : Bool) (d : FmxSpec.FmxDoc) : Picture :=
  d.all.map (fun l => ⟨l.kind ns, l.drawn.map (fun e => (e.2, formexToks ns embed l e.1))⟩)

open OoxmlSpec in
/-- what the rows of a Word table show, the first one being the row number `r`: the cells which continue another one are parts of it -/
def wordLines : Int → List Node → Picture
  | _, [] => []
  | r, tr :: trs =>
    ⟨natureOfRow tr, ((place 0 (kids ["tc"] tr)).filter (fun s => !continues s.2)).map (fun s =>
      (⟨⟨s.1, r⟩, ⟨s.1 + span s.2 - 1, r + run s.1 (trs.map (kids ["tc"]))⟩⟩, (kids ["p", "tbl"] s.2).flatMap (fun n => toks (n.setTail none))))⟩ ::
    wordLines (r + 1) trs

/-- what a Word table shows -/
def wordPicture (tbl : Node) : Picture := wordLines 1 (OoxmlSpec.kids ["tr"] tbl)

/-- no cell spans lines of different kinds -/
def OneKind (p : Picture) : Prop :=
  ∀ l ∈ p, ∀ c ∈ l.cells, ∀ (i : Nat) (m : Line), p[i]? = some m → c.1.min.y ≤ (i : Int) + 1 → (i : Int) + 1 ≤ c.1.max.y → m.kind = l.kind

/-- the elements which are shown have none of these names -/
def Without (ns : Option String) (names : List String) (p : Picture) : Prop :=
  ∀ l ∈ p, ∀ c ∈ l.cells, ∀ t a, Tok.opening t a ∈ c.2 → t.ns = ns → t.name ∉ names

/-- the elements which a CALS table is made of -/
def calsNames : List String := ["table", "tgroup", "colspec", "thead", "tfoot", "tbody", "row", "entry"]

/-- the line `m` shows the same as the line `l`, maybe in another row -/
def Moved (l m : Line) : Prop :=
  m.kind = l.kind ∧ All₂ (fun a b => b.1.min.x = a.1.min.x ∧ b.1.max.x = a.1.max.x ∧ b.1.max.y - b.1.min.y = a.1.max.y - a.1.min.y ∧ b.2 = a.2) l.cells m.cells

/-- the lines of `q` are those of `p`: they are sorted by the ranks of their kinds, and the lines of the same rank keep their order -/
def Regrouped (sorting : List String) (p q : Picture) : Prop :=
  ∃ (rank : String → Int) (order : List Nat), (∀ kind, RankIs sorting (some kind) (rank kind)) ∧ order.Perm (List.range p.length) ∧
    order.Pairwise (fun i j => ∀ l m, p[i]? = some l → p[j]? = some m → rank l.kind < rank m.kind ∨ rank l.kind = rank m.kind ∧ i < j) ∧
    All₂ (fun i m => ∃ l, p[i]? = some l ∧ Moved l m) order q

/-- the lines are already sorted by the ranks of their kinds -/
def Grouped (sorting : List String) (p : Picture) : Prop :=
  ∀ rank : String → Int, (∀ kind, RankIs sorting (some kind) (rank kind)) → p.Pairwise (fun l m => rank l.kind ≤ rank m.kind)

/-- the elements which a Formex table is made of, `IE` stands for an empty cell -/
def formexNames : List String := ["CORPUS", "ROW", "CELL", "MARGIN", "BLK", "TI.BLK", "STI.BLK", "IE"]

/-- the first line does not look like a title: none of its cells is as wide as the table -/
def NoTitle (w : Nat) (p : Picture) : Prop := ∀ l, p.head? = some l → ∀ c ∈ l.cells, ¬ (c.1.min.x = 1 ∧ c.1.max.x = w)

/-- what is in a cell has neither character nor Word image -/
def Blank (content : List Tok) : Prop :=
  charsOf content = [] ∧ ∀ t a, Tok.opening t a ∈ content → t ≠ OoxmlSpec.name "drawing" ∧ t ≠ OoxmlSpec.name "pict"

/-- the types which are written for the kinds of lines: that of the footer is a provisional one, the finalisation makes notes of such lines -/
def formexTypes : List (String × Option String) := [("header", some "HEADER"), ("body", none), ("footer", some "__GR.NOTES__")]

/-- the Formex rows show the same as these lines, in the same rectangles; what is `Lost` is replaced by nothing -/
def FormexLines (lost : List Tok → Prop) (p : Picture) (lines : List FmxSpec.DocLine) : Prop :=
  All₂ (fun l m => m.sort = .row ∧ (l.kind, m.node.attr ⟨none, "TYPE"⟩) ∈ formexTypes ∧ m.before = [] ∧ m.after = [] ∧
    All₂ (fun a b => b.box = a.1 ∧ (FmxSpec.shownToks none b.node = a.2 ∨ FmxSpec.shownToks none b.node = [] ∧ lost a.2)) l.cells m.cells) p lines

end Benker.Shown
