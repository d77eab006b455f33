import Verif.Spec.FormexKept
import Verif.Spec.Ooxml
import Verif.Props.CalsStyles
import Verif.Props.Units

/-! The looks of a Word table in its source and in the converted document. -/

namespace Benker.Kept
open CalsSpec OoxmlSpec

/-! ### borders -/

/-- what the borders tell about a side: nothing, or whether there is a line (`nil` and `none` are the absence of a line) -/
def side (borders : Option Node) (names : List String) : Option Bool :=
  borders.bind (fun b => (borderAttr b names "val").map (fun v => decide (v ≠ "nil" ∧ v ≠ "none")))

/-- the borders are written as the standard asks: each side has a kind, which is a word, and its colour, if any, is a word -/
def PlainBorders (b : Node) : Prop :=
  ∀ e ∈ b.children, e.tag? ≠ none → (∃ v, e.attr (name "val") = some v ∧ v ≠ "" ∧ ' ' ∉ v.toList ∧ ¬ ∃ a, v.toList = a ++ ['p', 't']) ∧
    ∀ c, e.attr (name "color") = some c → ' ' ∉ c.toList

/-- the styles of a table: its own one, the style on which it is based, and so on -/
def TableChain (sheet : Option Node) (tbl : Node) (chain : List Node) : Prop :=
  match sheet, propAttr "tblPr" "tblStyle" "val" tbl with
  | some sheet, some id => Chain sheet id chain
  | _, _ => chain = []

/-- the borders of a table or of a style -/
def tableBorders (n : Node) : Option Node := (props "tblPr" "tblBorders" n).head?

/-- the borders of a cell -/
def cellBorders (tc : Node) : Option Node := (props "tcPr" "tcBorders" tc).head?

/-- a side of a table: told by the table, else by the nearest of its styles which tells it -/
def tableSide (tbl : Node) (chain : List Node) (names : List String) : Option Bool :=
  (side (tableBorders tbl) names).or (chain.findSome? (fun s => side (tableBorders s) names))

/-- the lines between the cells: told by the nearest of the styles which tells them -/
def insideSide (chain : List Node) (names : List String) : Option Bool := chain.findSome? (fun s => side (tableBorders s) names)

/-- a separator of CALS for a line -/
def drawn (line : Option Bool) : Option String := line.map (fun b => if b then "1" else "0")

/-- all the borders of a table, of its cells and of its styles are plain -/
structure PlainTable (sheet : Option Node) (tbl : Node) : Prop where
  table : ∀ b, tableBorders tbl = some b → PlainBorders b
  styles : ∀ s ∈ sheet, ∀ e ∈ kids ["style"] s, ∀ b, tableBorders e = some b → PlainBorders b
  cells : ∀ tr ∈ kids ["tr"] tbl, ∀ tc ∈ kids ["tc"] tr, ∀ b, cellBorders tc = some b → PlainBorders b

/-! ### looks -/

/-- the colour of a `w:shd` element -/
def fill (shd : Option Node) : Option String := (shd.bind (fun e => e.attr (name "fill"))).bind (fun c => if c = "auto" then none else some ("#" ++ c))

/-- the orientation of the page -/
def sectOrient (sect : Option Node) : Option String :=
  (sect.bind (fun n => (kids ["pgSz"] n).head?)).bind (fun pg => (pg.attr (name "orient")).bind (fun o =>
    if o = "landscape" then some "land" else if o = "portrait" then some "port" else none))

/-- the looks of a Word table in the element `table`; `whole` is the element which tells the separators, and `style` the style it tells -/
structure WordTableKept (ns' : Option String) (sect : Option Node) (chain : List Node) (tbl table whole : Node) (style : Option String) : Prop where
  frame : ∃ f, table.attr ⟨ns', "frame"⟩ = some f ∧ FrameFor (tableSide tbl chain ["top"] = some true) (tableSide tbl chain ["end", "right"] = some true)
    (tableSide tbl chain ["bottom"] = some true) (tableSide tbl chain ["start", "left"] = some true) f
  right : whole.attr ⟨ns', "colsep"⟩ = some ((drawn (insideSide chain ["insideV"])).getD "0")
  bottom : whole.attr ⟨ns', "rowsep"⟩ = some ((drawn (insideSide chain ["insideH"])).getD "0")
  style : style = propAttr "tblPr" "tblStyle" "val" tbl
  orient : table.attr ⟨ns', "orient"⟩ = sectOrient sect
  pgwide : ∃ v, TextColumns sect v ∧ table.attr ⟨ns', "pgwide"⟩ = some (if v = "1" then "1" else "0")
  bgcolor : table.attr ⟨ns', "bgcolor"⟩ = fill (props "tblPr" "shd" tbl).head?
  width : table.attr ⟨ns', "width"⟩ = none

/-- the vertical alignment of a cell -/
def cellValign (tc : Node) : Option String :=
  if props "tcPr" "vAlign" tc = [] then none
  else match (propAttr "tcPr" "vAlign" "val" tc).getD "top" with
    | "top" => some "top"
    | "center" => some "middle"
    | "bottom" => some "bottom"
    | "both" => some "bottom"
    | _ => none

/-- the alignment of a paragraph -/
def paragraphAlign (jc : Option String) : Option String :=
  jc.bind (fun a => if a ∈ ["left", "start"] then some "left" else if a ∈ ["right", "end"] then some "right" else if a = "center" then some "center"
    else if a ∈ ["both", "distribute"] then some "justify" else none)

/-- the looks of a cell, which takes the columns and the rows of the box `b` of a table of `w` columns and `h` rows -/
structure WordCellKept (ns' : Option String) (w h : Nat) (whole tc : Node) (b : Box) (out : Node) : Prop where
  right : b.max.x < w → (out.attr ⟨ns', "colsep"⟩).or (whole.attr ⟨ns', "colsep"⟩) =
    (drawn (side (cellBorders tc) ["end", "right"])).or (whole.attr ⟨ns', "colsep"⟩)
  lastColumn : b.max.x = w → out.attr ⟨ns', "colsep"⟩ = none
  bottom : b.max.y < h → (out.attr ⟨ns', "rowsep"⟩).or (whole.attr ⟨ns', "rowsep"⟩) =
    (drawn (side (cellBorders tc) ["bottom"])).or (whole.attr ⟨ns', "rowsep"⟩)
  lastRow : b.max.y = h → out.attr ⟨ns', "rowsep"⟩ = none
  valign : out.attr ⟨ns', "valign"⟩ = cellValign tc
  align : ∃ jc, MostFrequent (alignments tc) jc ∧ out.attr ⟨ns', "align"⟩ = paragraphAlign jc
  bgcolor : out.attr ⟨ns', "bgcolor"⟩ = fill (props "tcPr" "shd" tc).head?

/-- the looks of a column: its width, which Word tells in twentieths of a point, is told in points with two decimals, then written in the unit of the
configuration; nothing else is told -/
structure WordColKept (ns' : Option String) (float : String → Except PyErr Rat) (rewrite : List Char → Except PyErr (List Char)) (gridCol out : Node) : Prop where
  right : out.attr ⟨ns', "colsep"⟩ = none
  bottom : out.attr ⟨ns', "rowsep"⟩ = none
  align : out.attr ⟨ns', "align"⟩ = none
  width : ∃ text x sign ip fp y, gridCol.attr (name "w") = some text ∧ float text = .ok x ∧
    (sign = [] ∨ sign = ['+'] ∨ sign = ['-']) ∧ (∀ d ∈ ip, d < 10) ∧ (∀ d ∈ fp, d < 10) ∧ ip ≠ [] ∧
    |Units.decimal (sign = ['-']) ip fp - x / 20| ≤ 1 / 200 + |x / 20| / 2 ^ 53 ∧
    rewrite (Units.decimalText sign ip fp ++ ['p', 't']) = .ok y ∧ out.attr ⟨ns', "colwidth"⟩ = some (String.ofList y)

/-- the cells of each row of a table with the columns and the rows which they take; `r` is the number of the first row -/
def slots : Int → List Node → List (Node × List (Box × Node))
  | _, [] => []
  | r, tr :: trs => (tr, ((place 0 (kids ["tc"] tr)).filter (fun s => !continues s.2)).map (fun s =>
      (⟨⟨s.1, r⟩, ⟨s.1 + span s.2 - 1, r + run s.1 (trs.map (kids ["tc"]))⟩⟩, s.2))) :: slots (r + 1) trs

end Benker.Kept
