import Verif.Model.CalsParser
import Verif.Model.Ooxml
import Verif.Model.FormexFinal

/-! Model of `transform_tables` of the CALS and OOXML parsers (`/repo/benker/parsers/cals/__init__.py` 108-120,
`/repo/benker/parsers/ooxml/__init__.py` 794-805), of `parse_file` (`/repo/benker/parsers/base_parser.py` 66-85) and of the converters
`/repo/benker/converters/{cals2formex,ooxml2cals,ooxml2formex}.py`.

Simplifications:
* the code collects the table elements once, in document order, before the first replacement; the elements created by the builders
  are never among them because their names differ.  The model visits the tree in document order and replaces the tables it meets,
  then looks for the nested tables in the replacement, where `lxml` has moved them;
* nodes are values: see `Verif/Model/Xml.lean`;
* tables in a content which is dropped (a Word cell which continues another one, a `w:sdt`, a content replaced by `IE`) are converted by the
  code outside of the document; the model forgets them, and the exceptions they may raise;
* reading and writing the files is not modelled;
* the attribute `NO.SEQ` written by the Formex builder is the one of the first table; `finalize_tree` gives the final numbers
  (`Verif/Props/FormexNumbers.lean`). -/

namespace Benker.Convert
open PyM

/-- what a converter does: the elements it replaces, and the tree it generates for one of them.  The first argument of `convert` is the
list of the nodes which follow the table in the document, outside of it and of its ancestors (the XPath axis `following`). (parsers/cals/__init__.py 108-120, parsers/ooxml/__init__.py 794-805) -/
structure Conv where
  isTable : QName → Bool
  convert : List Node → Node → Except PyErr Node

/-- `node in nodes`: is it one of the elements selected by `tree.xpath("//table")` (parsers/cals/__init__.py 109-112,
parsers/ooxml/__init__.py 798)? -/
def Conv.selects (c : Conv) (n : Node) : Bool :=
  match n.tag? with
  | some t => c.isTable t
  | none => false

/-- `parent.insert(index, table_elem); table_elem.tail = node.tail; parent.remove(node)` on the children of the parent
(parsers/cals/__init__.py 116-120, parsers/ooxml/__init__.py 801-805) -/
def replaceAt (i : Nat) (n e : Node) (cs : List Node) : List Node :=
  ((cs.insertIdx i e).modify i (Node.setTail n.tail)).eraseIdx (i + 1)

/-- one turn of the loop of `transform_tables` for the child number `i` (parsers/cals/__init__.py 113-120), then the tables inside -/
def childAt (c : Conv) (inside : List Node → Node → Except PyErr Node) (ctx : List Node) (i : Nat) (cs : List Node) :
    Except PyErr (List Node) :=
  match cs[i]? with
  | none => .ok cs
  | some n => do
    let cs ← if c.selects n then do
        let e ← c.convert (cs.drop (i + 1) ++ ctx) n
        pure (replaceAt i n e cs)
      else pure cs
    match cs[i]? with
    | none => .ok cs
    | some m => do
      let m ← inside (cs.drop (i + 1) ++ ctx) m
      pure (cs.set i m)

/-- the loop of `transform_tables` on the children of an element, from the child number `i` (parsers/cals/__init__.py 113-120) -/
def childrenFrom (c : Conv) (inside : List Node → Node → Except PyErr Node) (ctx : List Node) :
    Nat → Nat → List Node → Except PyErr (List Node)
  | 0, _, cs => .ok cs
  | todo + 1, i, cs => do
    let cs ← childAt c inside ctx i cs
    childrenFrom c inside ctx todo (i + 1) cs

/-- the loop of `transform_tables` on the tables strictly inside a node (parsers/cals/__init__.py 113-120).  `limit` bounds the depth
of the visit; the theorems are about every limit which is large enough. -/
def inside (c : Conv) : Nat → List Node → Node → Except PyErr Node
  | 0, _, _ => .error .recursionError
  | limit + 1, ctx, .elem t a x cs tl => do
    let cs ← childrenFrom c (inside c limit) ctx cs.length 0 cs
    pure (.elem t a x cs tl)
  | _ + 1, _, n => .ok n

/-- `transform_tables(tree)` (parsers/cals/__init__.py 108-120, parsers/ooxml/__init__.py 794-805) on the root of the tree.  The root
has no parent: if it is a table, `parent.index` raises `AttributeError` after the conversion. -/
def transformTables (c : Conv) (limit : Nat) (root : Node) : Except PyErr Node :=
  if c.selects root then do
    let _ ← c.convert [] root
    .error .attributeError
  else inside c limit [] root

/-- `parse_table` then `generate_table_tree` (parsers/cals/__init__.py 114-115, parsers/ooxml/__init__.py 799-800).  A parser returns
`None` if it has met no table; the builders then raise `AttributeError`. -/
def thenGenerate (parsed : Except PyErr (Option (Table Content))) (generate : PyM (Table Content) Node) : Except PyErr Node :=
  match parsed with
  | .error e => .error e
  | .ok none => .error .attributeError
  | .ok (some t) => eval generate t

/-- `Cals2FormexConverter` (converters/cals2formex.py 15-21) -/
def cals2formex (p : CalsP.Config) (b : Fmx.Config) : Conv where
  isTable t := t = p.q "table"
  convert _ n := thenGenerate (eval (CalsP.parseTable p none n) PState.init) (Fmx.generate b 1)

mutual
/-- first `w:sectPr` of a tree in document order (parsers/ooxml/__init__.py 905) -/
def firstSect : Node → Option Node
  | .elem t a x cs tl => if t = Ooxml.w "sectPr" then some (.elem t a x cs tl) else firstSectList cs
  | _ => none
/-- `value_of(w_tbl, 'following::w:p/w:pPr/w:sectPr | following::w:sectPr')` (parsers/ooxml/__init__.py 905): the first `w:sectPr` of
the following nodes, in document order -/
def firstSectList : List Node → Option Node
  | [] => none
  | n :: ns =>
    match firstSect n with
    | some s => some s
    | none => firstSectList ns
end

/-- `Ooxml2CalsConverter` (converters/ooxml2cals.py 11-17) -/
def ooxml2cals (p : Ooxml.Config) (b : Cals.Config) : Conv where
  isTable t := t = Ooxml.w "tbl"
  convert following n := thenGenerate (eval (Ooxml.parseTable p (firstSectList following) n) PState.init) (Cals.generate b)

/-- `Ooxml2FormexConverter` (converters/ooxml2formex.py 17-23) -/
def ooxml2formex (p : Ooxml.Config) (b : Fmx.Config) : Conv where
  isTable t := t = Ooxml.w "tbl"
  convert following n := thenGenerate (eval (Ooxml.parseTable p (firstSectList following) n) PState.init) (Fmx.generate b 1)

end Benker.Convert
