import Verif.Model.Cell

/-! XML trees as `lxml` presents them, the tree walk of `/repo/benker/common/lxml_iterwalk.py`, the text of a content
(`/repo/benker/cell.py`) and `append_cell_elements` (`/repo/benker/builders/base_builder.py`).

Simplifications: nodes are values, so moving a node from one tree to another is not modelled (a node given to `append` leaves its former
parent in `lxml`); namespace prefixes are not modelled, only qualified names; bytes (Python 2) are not modelled. -/

namespace Benker

/-- qualified name (common/lxml_qname.py, builders/namespace.py 18-20) -/
structure QName where
  ns : Option String
  name : String
deriving DecidableEq, Repr

/-- an XML node: element, processing instruction or comment, with the text which follows it (the nodes of `lxml`, used all over parsers/ and builders/) -/
inductive Node where
  | elem (tag : QName) (attrs : Dict QName String) (text : Option String) (children : List Node) (tail : Option String)
  | pi (target : String) (data : String) (tail : Option String)
  | comment (data : String) (tail : Option String)
deriving Repr

/-- content of a cell, as produced by the parsers or given by the user (the contents made in parsers/cals/__init__.py 438-439, parsers/formex.py 598-602, parsers/ooxml/__init__.py 1116-1120) -/
inductive Content where
  /-- a string -/
  | text (s : String)
  /-- a number, or another object, with its string representation -/
  | num (repr : String)
  | other (repr : String)
  /-- an XML node -/
  | node (n : Node)
  /-- a list; `none` is Python `None` -/
  | seq (items : List (Option Content))

namespace Node

/-- `node.tail` (builders/base_builder.py 63-96) -/
def tail : Node → Option String
  | .elem _ _ _ _ t => t
  | .pi _ _ t => t
  | .comment _ t => t

/-- `node.tail = t` (parsers/cals/__init__.py 119) -/
def setTail (t : Option String) : Node → Node
  | .elem a b c d _ => .elem a b c d t
  | .pi a b _ => .pi a b t
  | .comment a _ => .comment a t

/-- list of the children: `list(node)` (parsers/cals/__init__.py 439) -/
def children : Node → List Node
  | .elem _ _ _ cs _ => cs
  | _ => []

/-- `node.text` of an element (parsers/cals/__init__.py 438) -/
def text : Node → Option String
  | .elem _ _ x _ _ => x
  | _ => none

/-- the qualified name of an element; the `tag` of the other nodes is not a string (parsers/cals/__init__.py 155-156) -/
def tag? : Node → Option QName
  | .elem t _ _ _ _ => some t
  | _ => none

/-- `node.attrib` (parsers/cals/__init__.py 223) -/
def attrs : Node → Dict QName String
  | .elem _ a _ _ _ => a
  | _ => []

/-- `node.attrib.get(key)` (parsers/cals/__init__.py 223) -/
def attr (n : Node) (key : QName) : Option String := Dict.get? n.attrs key

/-- `_safe_text` (cell.py 110-116) -/
def safeText : Option String → String
  | none => ""
  | some s => s

mutual
/-- `_get_node_text` (cell.py 119-125) -/
def nodeText : Node → String
  | .elem _ _ x cs t => safeText x ++ childrenText cs ++ safeText t
  | .pi _ _ t => safeText t
  | .comment _ t => safeText t
/-- `u"".join(map(_get_node_text, node))` (cell.py 122) -/
def childrenText : List Node → String
  | [] => ""
  | n :: ns => nodeText n ++ childrenText ns
end

/-- text of the inside of an element: what `_get_node_text` gives without the tail (`_get_node_text`, cell.py 119-122) -/
def innerText (n : Node) : String :=
  match n with
  | .elem _ _ x cs _ => safeText x ++ childrenText cs
  | _ => ""

end Node

namespace Content

mutual
/-- `get_content_text` (cell.py 128-180) of a content which is not `None` -/
def str : Content → String
  | .text s => s
  | .num r => r
  | .other r => r
  | .node n => n.nodeText
  | .seq l => strItems l
/-- `u"".join(get_content_text(node) for node in content)` (cell.py 177) -/
def strItems : List (Option Content) → String
  | [] => ""
  | none :: l => "" ++ strItems l
  | some c :: l => str c ++ strItems l
end

/-- `get_content_text(content)` (cell.py 128-180) -/
def text? : Option Content → String
  | none => ""
  | some c => c.str

end Content

/-! ### the walk -/

/-- an event of the walk, with the parent of the element (`elem.getparent()`) (`iterwalk`, parsers/cals/__init__.py 151-155) -/
structure Event where
  start : Bool
  node : Node
  parent : Option Node

mutual
/-- `_iterwalk_impl(tree, ("start", "end"), matcher)` (common/lxml_iterwalk.py 30-37) -/
def walk (sel : QName → Bool) (parent : Option Node) : Node → List Event
  | .elem t a x cs tl =>
    let me := Node.elem t a x cs tl
    (if sel t then [⟨true, me, parent⟩] else []) ++ walkList sel (some me) cs ++ (if sel t then [⟨false, me, parent⟩] else [])
  | .pi _ _ _ => []
  | .comment _ _ => []
/-- `for child in tree: ...` (common/lxml_iterwalk.py 33-35) -/
def walkList (sel : QName → Bool) (parent : Option Node) : List Node → List Event
  | [] => []
  | n :: ns => walk sel parent n ++ walkList sel parent ns
end

/-! ### filling a cell element -/

/-- `cell_elem` under construction: its text and children (builders/base_builder.py 63-96) -/
structure CellElem where
  text : Option String
  children : List Node

namespace CellElem

/-- replace the last element of a list (builders/base_builder.py 63-96) -/
def mapLast (f : α → α) : List α → List α
  | [] => []
  | [a] => [f a]
  | a :: l => a :: mapLast f l

/-- body of the loop of `append_cell_elements` (base_builder.py 85-94); adding something else than a string to a string raises
`TypeError` -/
def step (f : CellElem) : Option Content → Except PyErr CellElem
  | some (.node n) => .ok { f with children := f.children ++ [n] }
  | some (.text s) =>
    if f.children.length = 0 then .ok { f with text := some (Node.safeText f.text ++ s) }
    else .ok { f with children := mapLast (fun n => n.setTail (some (Node.safeText n.tail ++ s))) f.children }
  | _ => .error .typeError

/-- the loop of `append_cell_elements` (base_builder.py 85-94) -/
def steps (f : CellElem) : List (Option Content) → Except PyErr CellElem
  | [] => .ok f
  | c :: cs =>
    match f.step c with
    | .error e => .error e
    | .ok f' => f'.steps cs

/-- `append_cell_elements(cell_elem, elements)` (base_builder.py 62-96) -/
def append (f : CellElem) : Option Content → Except PyErr CellElem
  | none => .ok { f with text := none }
  | some (.text s) => .ok { f with text := some s }
  | some (.num r) => .ok { f with text := some r }
  | some (.node n) => .ok { f with children := f.children ++ [n] }
  | some (.seq l) => f.steps l
  | some (.other _) => .error .typeError

end CellElem
end Benker
