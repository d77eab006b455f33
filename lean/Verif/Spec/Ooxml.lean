import Verif.Model.Ooxml

/-! Specification vocabulary for Word documents: it only mentions elements, attributes and lists. -/

namespace Benker.OoxmlSpec

/-- a name of the WordprocessingML namespace -/
def name (n : String) : QName := ⟨some "http://schemas.openxmlformats.org/wordprocessingml/2006/main", n⟩

/-- child elements bearing one of the names -/
def kids (names : List String) (n : Node) : List Node := n.children.filter (fun c => c.tag? ∈ names.map (fun x => some (name x)))

/-- the style of a stylesheet with this identifier: the first `w:style` whose `w:styleId` is the identifier -/
def styleOf (sheet : Node) (id : String) : Option Node :=
  (kids ["style"] sheet).find? (fun s => s.attr (name "styleId") = some id)

/-- the identifier of the style on which a style is based: the value of the `w:val` attribute of its `w:basedOn` -/
def parentOf (style : Node) : Option String := (kids ["basedOn"] style).findSome? (fun b => b.attr (name "val"))

/-- the styles from the one with this identifier to the last ancestor which exists -/
inductive Chain (sheet : Node) : String → List Node → Prop
  | missing {id : String} : styleOf sheet id = none → Chain sheet id []
  | root {id : String} {s : Node} : styleOf sheet id = some s → parentOf s = none → Chain sheet id [s]
  | step {id id' : String} {s : Node} {l : List Node} : styleOf sheet id = some s → parentOf s = some id' → Chain sheet id' l →
      Chain sheet id (s :: l)

/-- the style `id` is based on the style `id'`, directly or not (at least one step) -/
inductive BasedOn (sheet : Node) : String → String → Prop
  | one {id id' : String} {s : Node} : styleOf sheet id = some s → parentOf s = some id' → BasedOn sheet id id'
  | more {id id' id'' : String} {s : Node} : styleOf sheet id = some s → parentOf s = some id' → BasedOn sheet id' id'' → BasedOn sheet id id''

/-- following the ancestors of the style leads to a style which is its own ancestor -/
def Cyclic (sheet : Node) (id : String) : Prop := BasedOn sheet id id ∨ ∃ id', BasedOn sheet id id' ∧ BasedOn sheet id' id'

/-- first value of an attribute among the border elements bearing one of the names -/
def borderAttr (borders : Node) (names : List String) (attr : String) : Option String :=
  (kids names borders).findSome? (fun b => b.attr (name attr))

/-- a border as a text: kind of line, width in points and color, those which are given -/
def borderLine (kind size color : Option String) : Option StyleVal :=
  match kind.toList ++ size.toList ++ color.toList with
  | [] => none
  | l => some (.str (" ".intercalate l))

/-- the words of a name such as `thinThickSmallGap`, separated by hyphens -/
def hyphens (v : List Char) : List Char := v.flatMap (fun c => if c.isUpper then ['-', c.toLower] else [c])

/-- the kind of line, as in CSS when CSS has it, otherwise prefixed by `w-` -/
def lineKind (v : String) : List Char :=
  if v = "nil" ∨ v = "none" then "none".toList else if v = "single" then "solid".toList
  else if v ∈ ["double", "dotted", "dashed", "inset", "outset"] then v.toList
  else "w-".toList ++ hyphens v.toList

/-- the lines of Word (the other borders are pictures) -/
def lineNames : List String :=
  ["nil", "none", "single", "thick", "double", "dotted", "dashed", "dotDash", "dotDotDash", "triple", "thinThickSmallGap", "thickThinSmallGap",
   "thinThickThinSmallGap", "thinThickMediumGap", "thickThinMediumGap", "thinThickThinMediumGap", "thinThickLargeGap", "thickThinLargeGap",
   "thinThickThinLargeGap", "wave", "doubleWave", "dashSmallGap", "dashDotStroked", "threeDEmboss", "threeDEngrave", "outset", "inset"]

/-! ### cells of a table -/

mutual
/-- nothing of a table is in the node, apart from tables which are complete -/
def quiet : Node → Bool
  | .elem t _ _ cs _ => t = name "tbl" || (!(t ∈ ["tblGrid", "gridCol", "tr", "tc"].map name) && quietAll cs)
  | _ => true
/-- all the nodes are quiet -/
def quietAll : List Node → Bool
  | [] => true
  | n :: ns => quiet n && quietAll ns
end

/-- number of columns of a `w:tc`: the number written in `w:tcPr/w:gridSpan`, one by default; 0 if this is not a number -/
def span (tc : Node) : Int :=
  match ((kids ["tcPr"] tc).flatMap (kids ["gridSpan"])).findSome? (fun g => g.attr (name "val")) with
  | none => 1
  | some text => match pyInt text with
    | .ok n => n
    | .error _ => 0

/-- the `w:vMerge` elements of a `w:tc` -/
def merges (tc : Node) : List Node := (kids ["tcPr"] tc).flatMap (kids ["vMerge"])

/-- the cell continues the one above: it has a `w:vMerge` element, which has the value `continue` or no value -/
def continues (tc : Node) : Bool :=
  (merges tc ≠ []) && ((merges tc).findSome? (fun v => v.attr (name "val"))).getD "continue" = "continue"

/-- the cell is no part of a vertical merge, or begins one -/
def restarts (tc : Node) : Bool :=
  (merges tc = []) || (merges tc).findSome? (fun v => v.attr (name "val")) = some "restart"

/-- the `w:tc` of a row with their first column, when `c` columns are already taken -/
def place : Int → List Node → List (Int × Node)
  | _, [] => []
  | c, tc :: tcs => (c + 1, tc) :: place (c + span tc) tcs

/-- number of columns of some `w:tc` -/
def total (tcs : List Node) : Int := (tcs.map span).sum

/-- the row has a continuation cell which begins in this column -/
def continuesAt (a : Int) (tcs : List Node) : Bool := (place 0 tcs).any (fun s => decide (s.1 = a) && continues s.2)

/-- number of consecutive rows, from the first one, with a continuation cell in this column -/
def run (a : Int) : List (List Node) → Nat
  | [] => 0
  | row :: rows => if continuesAt a row then run a rows + 1 else 0

/-- the cells which the table should have, in reading order: those which do not continue another one, with as many more rows as there
are continuation cells below.  `r` is the number of the first row. -/
def wanted (content : Node → Option Content) (styles : Node → Styles) : Int → List (String × List Node) → List (Cell Content)
  | _, [] => []
  | r, (nature, tcs) :: rows =>
    ((place 0 tcs).filter (fun s => !continues s.2)).map (fun s =>
      ⟨content s.2, styles s.2, some nature, ⟨⟨s.1, r⟩, ⟨s.1 + span s.2 - 1, r + run s.1 (rows.map (·.2))⟩⟩⟩) ++
    wanted content styles (r + 1) rows

/-- every continuation cell is below a cell of the same columns; there is none in the first row -/
def Supported : List (List Node) → Prop
  | [] => True
  | row :: rows => (∀ s ∈ place 0 row, continues s.2 = false) ∧ go row rows
where
  /-- the rows below a row -/
  go : List Node → List (List Node) → Prop
    | _, [] => True
    | above, row :: rows =>
      (∀ s ∈ place 0 row, continues s.2 = true → ∃ s' ∈ place 0 above, s'.1 = s.1 ∧ span s'.2 = span s.2) ∧ go row rows

/-- the content of a cell: its paragraphs and tables, without the text which follows them -/
def paragraphs (tc : Node) : Option Content := some (.seq ((kids ["p", "tbl"] tc).map (fun n => some (.node (n.setTail none)))))

/-! ### tables which can be read: what `Ooxml.tcStyles`, `Ooxml.rowNature` and `Ooxml.rowHeight` read is well-formed -/

open Ooxml in
/-- a cell which can be read -/
structure GoodCell (cfg : Config) (styles : Node → Styles) (tc : Node) : Prop where
  wide : 1 ≤ span tc
  kind : continues tc = true ∨ restarts tc = true
  inside : quietAll tc.children = true
  style : continues tc = false → tcStyles cfg tc = .ok (styles tc)

open Ooxml in
/-- a row which can be read -/
structure GoodRow (cfg : Config) (styles : Node → Styles) (nature : Node → String) (W : Nat) (tr : Node) : Prop where
  cells : ∀ c ∈ tr.children, quiet c = true ∨ (c.tag? = some (name "tc") ∧ GoodCell cfg styles c)
  full : total (kids ["tc"] tr) = W
  nature : rowNature tr = .ok (nature tr)
  height : ∃ h, rowHeight cfg tr = .ok h

open Ooxml in
/-- the description of the columns which can be read -/
structure GoodGrid (cfg : Config) (g : Node) : Prop where
  cols : ∀ c ∈ g.children, quiet c = true ∨ (c.tag? = some (name "gridCol") ∧ quietAll c.children = true ∧
    ∃ v x, c.attr (name "w") = some v ∧ cfg.float v = .ok x)

open Ooxml in
/-- a table of `W` columns which can be read: the description of the columns, then the rows -/
structure GoodTable (cfg : Config) (sect : Option Node) (styles : Node → Styles) (nature : Node → String) (W : Nat) (tbl : Node) : Prop where
  tag : tbl.tag? = some (name "tbl")
  style : ∃ st, tblStyles cfg sect tbl = .ok st
  wide : 1 ≤ W
  columns : ((kids ["tblGrid"] tbl).flatMap (kids ["gridCol"])).length ≤ W
  children : ∃ head rows, tbl.children = head ++ rows ∧
    (∀ c ∈ head, quiet c = true ∨ (c.tag? = some (name "tblGrid") ∧ GoodGrid cfg c)) ∧
    (∀ c ∈ rows, quiet c = true ∨ (c.tag? = some (name "tr") ∧ GoodRow cfg styles nature W c))
  supported : Supported ((kids ["tr"] tbl).map (kids ["tc"]))

/-! ### what a table looks like -/

/-- the elements of a property: `w:tcPr/w:vAlign` for instance -/
def props (group prop : String) (n : Node) : List Node := (kids [group] n).flatMap (kids [prop])

/-- first value of an attribute of a property -/
def propAttr (group prop attr : String) (n : Node) : Option String := (props group prop n).findSome? (fun e => e.attr (name attr))

/-- the row is repeated at the top of each page: it has a `w:tblHeader`, whose value is `true` or missing -/
def isHeader (tr : Node) : Bool := (props "trPr" "tblHeader" tr ≠ []) && (propAttr "trPr" "tblHeader" "val" tr).getD "true" = "true"

/-- nature of a row -/
def natureOfRow (tr : Node) : String := if isHeader tr then "header" else "body"

/-- a text which is not empty -/
def given (v : Option String) : Option StyleVal :=
  match v with
  | none => none
  | some t => if t = "" then none else some (.str t)

/-- the styles of a row say if it is inserted, and by whom, when, in which revision -/
structure RowMarks (tr : Node) (st : Styles) : Prop where
  inserted : Dict.get? st "x-ins" = if props "trPr" "ins" tr = [] then none else some (.bool true)
  id : Dict.get? st "x-ins-id" = given (propAttr "trPr" "ins" "id" tr)
  author : Dict.get? st "x-ins-author" = given (propAttr "trPr" "ins" "author" tr)
  date : Dict.get? st "x-ins-date" = given (propAttr "trPr" "ins" "date" tr)
  only : ∀ key, key ∉ ["x-ins", "x-ins-id", "x-ins-author", "x-ins-date", "height", "min-height"] → Dict.get? st key = none

/-- number of columns of text of a section: the value of `w:cols/@w:num`, otherwise the number of `w:cols/w:col`, at least one -/
inductive TextColumns (sect : Option Node) : String → Prop
  | none : sect = none → TextColumns sect "1"
  | num {n : Node} {v : String} : sect = some n → (kids ["cols"] n).findSome? (fun c => c.attr (name "num")) = some v → TextColumns sect v
  | one {n : Node} : sect = some n → (kids ["cols"] n).findSome? (fun c => c.attr (name "num")) = Option.none →
      (kids ["cols"] n).flatMap (kids ["col"]) = [] → TextColumns sect "1"
  | count {n : Node} : sect = some n → (kids ["cols"] n).findSome? (fun c => c.attr (name "num")) = Option.none →
      (kids ["cols"] n).flatMap (kids ["col"]) ≠ [] →
      TextColumns sect (String.ofList (Coord.natDigits ((kids ["cols"] n).flatMap (kids ["col"])).length))

/-- background color given by a `w:shd` element: `auto` is not a color -/
def fillOf (shd : Option Node) : Option StyleVal :=
  match shd with
  | none => none
  | some e =>
    match e.attr (name "fill") with
    | none => none
    | some c => if c = "auto" then none else some (.str ("#" ++ c))

/-- vertical alignments -/
def verticalKind (v : String) : Option StyleVal :=
  if v = "top" then some (.str "top") else if v = "center" then some (.str "middle") else if v = "bottom" then some (.str "bottom")
  else if v = "both" then some (.str "w-both") else none

/-- horizontal alignments -/
def horizontalKind (v : String) : Option StyleVal :=
  if v = "left" ∨ v = "start" then some (.str "left") else if v = "right" ∨ v = "end" then some (.str "right")
  else if v = "center" then some (.str "center") else if v = "both" ∨ v = "distribute" then some (.str "justify") else none

/-- alignments of the paragraphs of a cell; `none` is the absence of alignment -/
def alignments (tc : Node) : List (Option String) := (kids ["p"] tc).map (propAttr "pPr" "jc" "val")

/-- the first of the most frequent values -/
def MostFrequent {α : Type} [BEq α] (l : List α) (x : α) : Prop :=
  ∃ before after, l = before ++ x :: after ∧ (∀ y ∈ before, l.count y < l.count x) ∧ ∀ y ∈ l, l.count y ≤ l.count x

/-- a node is strictly inside another -/
inductive Inside : Node → Node → Prop
  | child {c n : Node} : c ∈ n.children → Inside c n
  | deep {m c n : Node} : c ∈ n.children → Inside m c → Inside m n

/-- the cell has neither text nor image -/
def EmptyCell (tc : Node) : Prop :=
  (∀ p ∈ kids ["p", "tbl"] tc, p.innerText = "") ∧ ∀ m, Inside m tc → m.tag? ≠ some (name "drawing") ∧ m.tag? ≠ some (name "pict")

end Benker.OoxmlSpec
