import Verif.Model.CalsBuilder
import Verif.Model.CalsParser
import Verif.Lemmas.Except
import Verif.Spec.Xml

/-! Specification vocabulary for CALS: words of a border style, legal values of `@frame`. -/

namespace Benker.CalsSpec

/-- `ws` are the parts of the text separated by spaces -/
def Words (s : List Char) (ws : List (List Char)) : Prop := ws ≠ [] ∧ (∀ w ∈ ws, ' ' ∉ w) ∧ [' '].intercalate ws = s

/-- a part which is neither a size in points nor a colour -/
def Keyword (w : List Char) : Prop := (¬ ∃ a, w = a ++ ['p', 't']) ∧ w ≠ ['a', 'u', 't', 'o'] ∧ ¬ ∃ b, w = '#' :: b

/-- the last keyword among words -/
def LastKeyword (ws : List (List Char)) (w : List Char) : Prop := ∃ a b, ws = a ++ w :: b ∧ Keyword w ∧ ∀ x ∈ b, ¬ Keyword x

/-- the six values of `@frame` -/
def legalFrames : List String := ["none", "all", "topbot", "sides", "top", "bottom"]

/-- value of a border style: absent, or the last keyword of a text -/
inductive BorderIs (styles : Styles) (key : String) : Option (List Char) → Prop
  | absent (h : ∀ s, Dict.get? styles key ≠ some (.str s)) : BorderIs styles key none
  | noKeyword (s : String) (ws : List (List Char)) (h : Dict.get? styles key = some (.str s)) (hw : Words s.toList ws)
      (hk : ∀ w ∈ ws, ¬ Keyword w) : BorderIs styles key none
  | emptyText (h : Dict.get? styles key = some (.str "")) : BorderIs styles key none
  | keyword (s : String) (ws : List (List Char)) (w : List Char) (h : Dict.get? styles key = some (.str s)) (hs : s ≠ "")
      (hw : Words s.toList ws) (hk : LastKeyword ws w) : BorderIs styles key (some w)

/-- the side has a visible border: its last keyword is neither empty nor `none` -/
def Visible (styles : Styles) (key : String) : Prop := ∃ w, BorderIs styles key (some w) ∧ w ≠ [] ∧ w ≠ ['n', 'o', 'n', 'e']

/-- styles whose borders can be read: text, or a false value -/
def Readable (styles : Styles) (key : String) : Prop :=
  match Dict.get? styles key with
  | some (.bool b) => b = false
  | some (.int i) => i = 0
  | some (.pair _ _) => False
  | _ => True

end Benker.CalsSpec

namespace Benker.CalsSpec
open Cals

/-- tokens of the inside of an element -/
def insideToks (e : Node) : List Tok := textToks e.text ++ toksList e.children

/-- tokens of the content of a cell: nothing, a text, a number, a node, or pieces of text and nodes -/
def contentToks : Option Content → List Tok
  | none => []
  | some (.text s) => textToks (some s)
  | some (.num r) => textToks (some r)
  | some (.node n) => toks n
  | some (.seq items) => items.flatMap pieceToks
  | some (.other _) => []

/-- the `<entry>` element of a cell: its columns, its rows and its content -/
structure EntryFor (cfg : Config) (c : Cell Content) (e : Node) : Prop where
  tag : e.tag? = some (cfg.q "entry")
  tail : e.tail = none
  oneColumn : c.min.x = c.max.x → e.attr (cfg.q "namest") = none ∧ e.attr (cfg.q "nameend") = none
  columns : c.min.x ≠ c.max.x → e.attr (cfg.q "namest") = some ("c" ++ intStr c.min.x) ∧ e.attr (cfg.q "nameend") = some ("c" ++ intStr c.max.x)
  oneRow : c.min.y = c.max.y → e.attr (cfg.q "morerows") = none
  rows : c.min.y ≠ c.max.y → e.attr (cfg.q "morerows") = some (intStr (c.max.y - c.min.y))
  content : insideToks e = contentToks c.content
  text : charsOf (insideToks e) = (Content.text? c.content).toList

/-- the `<colspec>` element of column number `pos` -/
structure ColspecFor (cfg : Config) (pos : Int) (e : Node) : Prop where
  tag : e.tag? = some (cfg.q "colspec")
  empty : insideToks e = [] ∧ e.tail = none
  colnum : e.attr (cfg.q "colnum") = some (intStr pos)
  colname : e.attr (cfg.q "colname") = some ("c" ++ intStr pos)

/-- the references which stand for characters in an XML attribute -/
def references : List (Char × String) :=
  [('&', "&amp;"), ('<', "&lt;"), ('>', "&gt;"), ('"', "&quot;"), ('\n', "&#10;"), ('\t', "&#9;"), ('\r', "&#13;")]

/-- the text `w`, between quotation marks in an XML document, stands for the characters `v` -/
inductive Quoted : List Char → List Char → Prop
  | nil : Quoted [] []
  | plain (c : Char) (v w : List Char) (hc : c ∉ references.map (·.1)) (h : Quoted v w) : Quoted (c :: v) (c :: w)
  | reference (c : Char) (r : String) (v w : List Char) (hc : (c, r) ∈ references) (h : Quoted v w) : Quoted (c :: v) (r.toList ++ w)

/-- the text `w` of a processing instruction lists the attributes `l`: name, equal sign and value between quotation marks, separated by spaces -/
inductive Marks : List (String × String) → List Char → Prop
  | one (name v : String) (w : List Char) (h : Quoted v.toList w) : Marks [(name, v)] (name.toList ++ "=\"".toList ++ w ++ ['"'])
  | more (name v : String) (w : List Char) (l : List (String × String)) (x : List Char) (h : Quoted v.toList w) (hl : Marks l x) :
      Marks ((name, v) :: l) (name.toList ++ "=\"".toList ++ w ++ ['"'] ++ ' ' :: x)

/-- an optional style of a row and the attribute which stands for it -/
def MarkOf (st : Styles) (key name : String) (value : StyleVal → Option String) (l : List (String × String)) : Prop :=
  (Dict.get? st key = none ∧ l = []) ∨ ∃ v s, Dict.get? st key = some v ∧ value v = some s ∧ l = [(name, s)]

/-- the value of a style which is a text -/
def textOf : StyleVal → Option String
  | .str s => some s
  | _ => none

/-- the identifier of a revision: `ct` and the value of the style -/
def identifierOf : StyleVal → Option String
  | .str s => some ("ct" ++ s)
  | .int i => some ("ct" ++ intStr i)
  | .none => some "ctNone"
  | .bool b => some (if b then "ctTrue" else "ctFalse")
  | .pair a b => some ("ct(" ++ intStr a ++ ", " ++ intStr b ++ ")")

/-- the texts of the two processing instructions around an inserted row -/
def RowMarks (st : Styles) (first last : String) : Prop :=
  ∃ id author date, MarkOf st "x-ins-id" "change-id" identifierOf id ∧ MarkOf st "x-ins-author" "creator" textOf author ∧
    MarkOf st "x-ins-date" "date" textOf date ∧
    Marks ([("type", "row:insertion")] ++ id ++ author ++ date) first.toList ∧ Marks ([("type", "row:insertion")] ++ id) last.toList

/-- the nodes written for a row: a `<row>` with one entry per cell, between two processing instructions if the row is marked as inserted -/
def RowFor (cfg : Config) (r : View Content) (nodes : List Node) : Prop :=
  ∃ row, (nodes = [row] ∧ Dict.has r.styles "x-ins" = false ∨
      ∃ d1 d2, nodes = [.pi "change-start" d1 none, row, .pi "change-end" d2 none] ∧ Dict.has r.styles "x-ins" = true ∧ RowMarks r.styles d1 d2) ∧
    row.tag? = some (cfg.q "row") ∧ row.text = none ∧ row.tail = none ∧ All₂ (EntryFor cfg) r.owned row.children

/-- rank of a nature: the place of its last occurrence in the sorting option, or that of `body` -/
def RankIs (sorting : List String) (nature : Option String) (k : Int) : Prop :=
  (∃ (i : Nat) (n : String), nature = some n ∧ k = i ∧ sorting[i]? = some n ∧ ∀ j, i < j → sorting[j]? ≠ some n) ∨
  ((∀ n, nature = some n → n ∉ sorting) ∧ ∃ i : Nat, k = i ∧ sorting[i]? = some "body" ∧ ∀ j, i < j → sorting[j]? ≠ some "body")

end Benker.CalsSpec

namespace Benker.CalsSpec

/-- the line drawn after a cell, a row or a column: what its own style tells, else what the table tells for all its cells, else no line;
`true` is a line, `false` is no line -/
inductive LineIs (own table : Styles) (key tkey : String) : Bool → Prop
  | own (w : List Char) (h : BorderIs own key (some w)) : LineIs own table key tkey (decide (w ≠ "none".toList))
  | table (w : List Char) (h : BorderIs own key none) (h' : BorderIs table tkey (some w)) : LineIs own table key tkey (decide (w ≠ "none".toList))
  | nothing (h : BorderIs own key none) (h' : BorderIs table tkey none) : LineIs own table key tkey false

/-- a text which is empty is not kept -/
def kept : Option StyleVal → Option StyleVal
  | some (.str s) => if s = "" then none else some (.str s)
  | _ => none

/-- vertical alignments which CALS does not know stand for `bottom` -/
def valignKept : Option StyleVal → Option StyleVal
  | some v => if v = .str "top" ∨ v = .str "middle" then some v else some (.str "bottom")
  | none => none

/-- the alignments which CALS knows -/
def alignKept : Option StyleVal → Option StyleVal
  | some v => if v = .str "left" ∨ v = .str "right" ∨ v = .str "center" ∨ v = .str "justify" then some v else none
  | none => none

/-- a number of columns of the page other than one is read as two -/
def pageColumns : Option StyleVal → Option StyleVal
  | some v => if v = .str "1" then some (.str "1") else some (.str "2")
  | none => none

/-- the line of `own` in `table` is that of `own'` in `table'` -/
def SameLine (own table own' table' : Styles) (key tkey : String) : Prop :=
  ∀ b, LineIs own' table' key tkey b ↔ LineIs own table key tkey b

/-- what becomes of the styles of a cell `c` of a table of `w` columns and `h` rows, written in CALS and read again as `d`; `st` and `st'` are the styles
of the tables -/
structure CellLooks (w h : Nat) (st st' : Styles) (c d : Cell Content) : Prop where
  align : Dict.get? d.styles "align" = Dict.get? c.styles "align"
  valign : Dict.get? d.styles "vertical-align" = valignKept (Dict.get? c.styles "vertical-align")
  background : Dict.get? d.styles "background-color" = kept (Dict.get? c.styles "background-color")
  style : Dict.get? d.styles "cellstyle" = kept (Dict.get? c.styles "cellstyle")
  empty : Dict.get? d.styles "x-cell-empty" = if contentToks c.content = [] then some (.str "true") else none
  right : c.max.x ≠ w → SameLine c.styles st d.styles st' "border-right" "x-cell-border-right"
  lastRight : c.max.x = w → Dict.get? d.styles "border-right" = none
  bottom : c.max.y ≠ h → SameLine c.styles st d.styles st' "border-bottom" "x-cell-border-bottom"
  lastBottom : c.max.y = h → Dict.get? d.styles "border-bottom" = none
  others : ∀ k, k ∉ ["border-right", "border-bottom", "background-color", "vertical-align", "align", "cellstyle", "x-cell-empty"] →
    Dict.get? d.styles k = none

/-- what becomes of the styles of a row: its background is lost -/
structure RowLooks (st st' : Styles) (r r' : View Content) : Prop where
  valign : Dict.get? r'.styles "vertical-align" = valignKept (Dict.get? r.styles "vertical-align")
  style : Dict.get? r'.styles "rowstyle" = kept (Dict.get? r.styles "rowstyle")
  bottom : SameLine r.styles st r'.styles st' "border-bottom" "x-cell-border-bottom"
  background : Dict.get? r'.styles "background-color" = none

/-- what becomes of the styles of a column: the width is written in another unit by `rewrite` -/
structure ColLooks (rewrite : List Char → Except PyErr (List Char)) (st st' : Styles) (v v' : View Content) : Prop where
  align : Dict.get? v'.styles "align" = alignKept (Dict.get? v.styles "align")
  right : SameLine v.styles st v'.styles st' "border-right" "x-cell-border-right"
  bottom : SameLine v.styles st v'.styles st' "border-bottom" "x-cell-border-bottom"
  noWidth : Dict.get? v.styles "width" = none → Dict.get? v'.styles "width" = none
  width : ∀ x, Dict.get? v.styles "width" = some x → ∃ s w, x = .str s ∧ rewrite s.toList = .ok w ∧
    Dict.get? v'.styles "width" = some (.str (String.ofList w))

/-- what becomes of the styles of a table: a side which has a border keeps it if the sides which have one can be told by CALS -/
structure TableLooks (rewrite rewrite' : List Char → Except PyErr (List Char)) (st st' : Styles) : Prop where
  noNewSide : ∀ k ∈ ["border-top", "border-right", "border-bottom", "border-left"], Visible st' k → Visible st k
  sides : (∃ k ∈ ["border-top", "border-right", "border-bottom", "border-left"], Visible st' k) →
    ∀ k ∈ ["border-top", "border-right", "border-bottom", "border-left"], Visible st k → Visible st' k
  allSides : (∀ k ∈ ["border-top", "border-right", "border-bottom", "border-left"], Visible st k) →
    ∀ k ∈ ["border-top", "border-right", "border-bottom", "border-left"], Visible st' k
  right : SameLine [] st [] st' "border-right" "x-cell-border-right"
  bottom : SameLine [] st [] st' "border-bottom" "x-cell-border-bottom"
  orient : Dict.get? st' "x-sect-orient" = Dict.get? st "x-sect-orient"
  columns : Dict.get? st' "x-sect-cols" = pageColumns (Dict.get? st "x-sect-cols")
  background : Dict.get? st' "background-color" = kept (Dict.get? st "background-color")
  noWidth : Dict.get? st "width" = none → Dict.get? st' "width" = none
  width : ∀ x, Dict.get? st "width" = some x → ∃ s w w', x = .str s ∧ rewrite s.toList = .ok w ∧ rewrite' w = .ok w' ∧
    Dict.get? st' "width" = some (.str (String.ofList w'))

end Benker.CalsSpec
