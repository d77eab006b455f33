import Verif.Model.Converter
import Verif.Model.FormexParser
import Verif.Spec.Layout

/-! Model of `transform_tables` of the Formex parser (`/repo/benker/parsers/formex.py` 94-106), with the removal of the `GR.NOTES` elements
(formex.py 198-203), and of the converter `/repo/benker/converters/formex2cals.py`.

Simplifications:
* the code collects the `CORPUS` elements once, in document order, before the first replacement; no builder creates one.  The model visits the
  tree in document order and replaces those it meets, then looks for the nested ones in the replacement, where `lxml` has moved them.  The tables which
  are in a content which is dropped (a cell with an `IE` element) are converted by the code outside of the document; the model forgets them,
  so that it does not tell the exceptions which they may raise;
* nodes are values: see `Verif/Model/Xml.lean`;
* reading and writing the files is not modelled. -/

namespace Benker.Fmx2Cals
open PyM Convert

/-- options: those of the parser and those of the builder (converters/formex2cals.py 15-21, 37-83) -/
structure Config where
  parser : FmxP.Config
  builder : Cals.Config

/-- is it one of the elements selected by `tree.xpath("//CORPUS")` (formex.py 95-98)? -/
def isCorpus (c : FmxP.Config) (n : Node) : Bool := n.tag? = some (c.f "CORPUS")

/-- is it selected by `preceding-sibling::GR.NOTES` (formex.py 194-197)? -/
def isNotes (c : FmxP.Config) (n : Node) : Bool := n.tag? = some (c.f "GR.NOTES")

mutual
/-- what is left of a content once the `CORPUS` elements inside have been met by the walk of `parse_table`: at the end of a `CORPUS` which is in
another one, its notes are removed from its parent (formex.py 192-203); what is inside this `CORPUS` is skipped (formex.py 149-153).
`remove` also removes the text which follows the notes (formex.py 203). -/
def strip (c : FmxP.Config) : Node → Node
  | .elem t a x cs tl => if t = c.f "CORPUS" then .elem t a x cs tl else .elem t a x (stripList c cs) tl
  | .pi t d tl => .pi t d tl
  | .comment d tl => .comment d tl
/-- the same among siblings: the notes which are before a `CORPUS` of the same parent are removed (formex.py 192-203) -/
def stripList (c : FmxP.Config) : List Node → List Node
  | [] => []
  | n :: ns => if isNotes c n ∧ ns.any (isCorpus c) then stripList c ns else strip c n :: stripList c ns
end

mutual
/-- the same on the content of a cell: its nodes are shared with the document.  The list itself does not change when a child is removed from the cell. (formex.py 598-602, 203) -/
def stripContent (c : FmxP.Config) : Content → Content
  | .node n => .node (strip c n)
  | .seq l => .seq (stripItems c l)
  | .text s => .text s
  | .num r => .num r
  | .other r => .other r
/-- the same on a list (formex.py 598-602) -/
def stripItems (c : FmxP.Config) : List (Option Content) → List (Option Content)
  | [] => []
  | none :: l => none :: stripItems c l
  | some x :: l => some (stripContent c x) :: stripItems c l
end

/-- `table = self.parse_table(node); table_elem = self.builder.generate_table_tree(table)` (formex.py 100-101), for a `CORPUS`, its parent and the number
of its ancestors `BLK` -/
def convert (c : Config) (blk : Nat) (parent : Option Node) (n : Node) : Except PyErr Node :=
  thenGenerate ((eval (FmxP.parseTable c.parser blk parent n) PState.init).map (Option.map (Table.mapContent (stripContent c.parser))))
    (Cals.generate c.builder)

/-- the loop of `transform_tables` on the children of an element (formex.py 99-106): `before` are the children which have been visited, `parent` makes
the element from its children.  The notes which precede the `CORPUS` are removed (formex.py 194-203), then the `CORPUS` is replaced
(formex.py 102-106), then the tables which are inside are treated. -/
def children (c : Config) (inside : Node → Except PyErr Node) (blk : Nat) (parent : List Node → Node) :
    List Node → List Node → Except PyErr (List Node)
  | before, [] => .ok before
  | before, n :: ns =>
    if isCorpus c.parser n then do
      let e ← convert c blk (some (parent (before ++ n :: ns))) n
      let before := before.filter (fun m => !isNotes c.parser m)
      let cs := replaceAt before.length n e (before ++ n :: ns)
      match cs[before.length]? with
      | none => .ok cs
      | some m => do
        let m ← inside m
        children c inside blk parent (before ++ [m]) ns
    else do
      let m ← inside n
      children c inside blk parent (before ++ [m]) ns

/-- the loop of `transform_tables` on the tables strictly inside a node (formex.py 99-106), with the number of its ancestors `BLK`
(`_count_blk`, formex.py 473-478).  `limit` bounds the depth of the visit; the theorems are about every limit which is large enough. -/
def inside (c : Config) : Nat → Nat → Node → Except PyErr Node
  | 0, _, _ => .error .recursionError
  | limit + 1, blk, .elem t a x cs tl => do
    let blk := if t = c.parser.f "BLK" then blk + 1 else blk
    let cs ← children c (inside c limit blk) blk (fun cs => .elem t a x cs tl) [] cs
    pure (.elem t a x cs tl)
  | _ + 1, _, n => .ok n

/-- `transform_tables(tree)` (formex.py 94-106) on the root of the tree.  The root has no parent: if it is a `CORPUS`, `parent.index` raises
`AttributeError` after the conversion. -/
def transformTables (c : Config) (limit : Nat) (root : Node) : Except PyErr Node :=
  if isCorpus c.parser root then do
    let _ ← convert c 0 none root
    .error .attributeError
  else inside c limit 0 root

end Benker.Fmx2Cals
