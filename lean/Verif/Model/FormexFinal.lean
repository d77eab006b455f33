import Verif.Model.FormexBuilder

/-! Model of the finalisation of a Formex document (`/repo/benker/builders/formex.py` 639-840).

Nodes are values: a change in place is modelled by the tree which results from it. -/

namespace Benker.Fmx
open Benker.Units

/-! ### sequence numbers -/

/-- the stack of the counters when a table of level `level` begins (formex.py 673-678) -/
def bumpStack (stack : List Nat) (level : Nat) : List Nat :=
  let stack := if stack.length < level then stack ++ List.replicate (level - stack.length) 0 else stack.take level
  stack.modify (level - 1) (· + 1)

/-- `u".".join(u"{:04d}".format(value) for value in stack)` (formex.py 679) -/
def noSeqText (stack : List Nat) : String := ".".intercalate (stack.map (fun n => String.ofList (pad4 n)))

mutual
/-- `update_no_seq` (formex.py 662-680): the walk of the tree; `level` is the number of tables around the node, `stack` the counters.
Returns the numbered tree and the counters. -/
def numberNode (level : Nat) (stack : List Nat) : Node → Node × List Nat
  | .elem t a x cs tl =>
    if t = f "TBL" then
      let stack := bumpStack stack (level + 1)
      let a := Dict.set a (f "NO.SEQ") (noSeqText stack)
      let (cs, stack) := numberList (level + 1) stack cs
      (.elem t a x cs tl, stack)
    else
      let (cs, stack) := numberList level stack cs
      (.elem t a x cs tl, stack)
  | n => (n, stack)
/-- the same on siblings, in document order (formex.py 662-681) -/
def numberList (level : Nat) (stack : List Nat) : List Node → List Node × List Nat
  | [] => ([], stack)
  | n :: ns =>
    let (n, stack) := numberNode level stack n
    let (ns, stack) := numberList level stack ns
    (n :: ns, stack)
end

/-- `update_no_seq(fmx_root)` (formex.py 662-680) -/
def updateNoSeq (root : Node) : Node := (numberNode 0 [] root).1

/-! ### tables in tables -/

mutual
/-- `cleanup_tbl_in_tbl` (formex.py 683-695) on a node: a table which is the child of a table is replaced by its children, which are then children of
the outer table (its text, its tail and its attributes are lost) -/
def cleanupNode : Node → Node
  | .elem t a x cs tl => .elem t a x (if t = f "TBL" then cleanupInTable cs else cleanupList cs) tl
  | n => n
/-- the children of an element which is not a table (builders/formex.py 690-696) -/
def cleanupList : List Node → List Node
  | [] => []
  | n :: ns => cleanupNode n :: cleanupList ns
/-- the children of a table (builders/formex.py 690-696) -/
def cleanupInTable : List Node → List Node
  | [] => []
  | .elem t a x cs tl :: ns =>
    if t = f "TBL" then cleanupInTable cs ++ cleanupInTable ns
    else .elem t a x (cleanupList cs) tl :: cleanupInTable ns
  | n :: ns => n :: cleanupInTable ns
end

/-! ### notes -/

/-- what a footer row becomes (builders/formex.py 725-746) -/
structure Note where
  /-- text added to what precedes the notes, when they are moved from the cell; nothing when `GR.NOTES` is created -/
  before : Option String
  nodes : List Node

/-- `node.attrib.update((k, v) for k, v in row.attrib.items() if k not in node.attrib)` (formex.py 746) -/
def addAttrs (extra : Dict QName String) : Node → Node
  | .elem t a x cs tl => .elem t (a ++ extra.filter (fun p => !Dict.has a p.1)) x cs tl
  | n => n

/-- apply `g` to the first element which satisfies `p` (the `CORPUS` of builders/formex.py 721-723) -/
def modifyFirst (p : Node → Bool) (g : Node → Node) : List Node → List Node
  | [] => []
  | n :: ns => if p n then g n :: ns else n :: modifyFirst p g ns

/-- is it an element of this name? (`iter(tag)` of builders/formex.py 718, 726) -/
def isElem (name : String) (n : Node) : Bool := n.tag? = some (f name)

/-- the notes made of the first cell of a footer row (formex.py 725-746); `attrs` are the attributes of the row without `TYPE` -/
def makeNote (attrs : Dict QName String) (cells : List Node) : Except PyErr Note :=
  match cells.find? (isElem "CELL") with
  | none => .error .attributeError
  | some cell =>
    if cell.children.any (isElem "GR.NOTES") then
      .ok ⟨some (Node.safeText cell.text), modifyFirst (isElem "GR.NOTES") (addAttrs attrs) cell.children⟩
    else .ok ⟨none, [addAttrs attrs (.elem (f "GR.NOTES") [] (some (Node.safeText cell.text)) cell.children none)]⟩

/-- add a text to the tail of a node (builders/formex.py 743) -/
def addTail (s : String) (n : Node) : Node := n.setTail (some (Node.safeText n.tail ++ s))

/-- insertion of a note before the first `CORPUS` of a table (formex.py 722-723, 735-744): `text` is the text of the table, `before` are its children
which precede the `CORPUS` -/
def putNote (text : Option String) (before : List Node) (note : Note) : Option String × List Node :=
  match note.before with
  | none => (text, before ++ note.nodes)
  | some s =>
    match before.reverse with
    | [] => (some (Node.safeText text ++ s), note.nodes)
    | p :: ps => (text, ps.reverse ++ [addTail s p] ++ note.nodes)

/-- the notes of a table, in order, inserted before its first `CORPUS` (formex.py 720-746) -/
def putNotes (text : Option String) (before : List Node) : List Note → Option String × List Node
  | [] => (text, before)
  | k :: ks => let r := putNote text before k; putNotes r.1 r.2 ks

/-- an element whose children have been treated (formex.py 717-749): `TYPE` is dropped from a row, the notes of a table are put before its first
`CORPUS`, and those of another element are for the table around it.  `TypeError` if the table has no `CORPUS` -/
def closeElem (t : QName) (a : Dict QName String) (x : Option String) (cs : List Node) (tl : Option String) (notes : List Note) :
    Except PyErr (List Node × List Note) :=
  if t = f "TBL" then
    if notes.isEmpty then pure ([.elem t a x cs tl], [])
    else if cs.any (isElem "CORPUS") then do
      let r := putNotes x (cs.takeWhile (fun c => !isElem "CORPUS" c)) notes
      pure ([.elem t a r.1 (r.2 ++ cs.dropWhile (fun c => !isElem "CORPUS" c)) tl], [])
    else .error .typeError
  else if t = f "ROW" then pure ([.elem t (Dict.erase a (f "TYPE")) x cs tl], notes)
  else pure ([.elem t a x cs tl], notes)

mutual
/-- is there a row in this node, itself included? (`iter(ROW)`, formex.py 717) -/
def hasRow : Node → Bool
  | .elem t _ _ cs _ => decide (t = f "ROW") || hasRowList cs
  | _ => false
/-- is there a row in these nodes? (`iter(ROW)`, formex.py 717) -/
def hasRowList : List Node → Bool
  | [] => false
  | n :: ns => hasRow n || hasRowList ns
end

/-- `iter` (formex.py 717) has looked for the row which follows a footer row before this one is treated.  Is that row outside the footer row, or in
its first cell, of which the contents are moved to the notes? -/
def goesOn (cells : List Node) : Bool :=
  match cells.dropWhile (fun c => !hasRow c) with
  | [] => true
  | c :: _ => isElem "CELL" c && (cells.takeWhile (fun c => !hasRow c)).all (fun c => !isElem "CELL" c)

mutual
/-- `extract_gr_notes` (formex.py 698-749) on a node: the node without its footer rows (nothing if it is such a row), the notes for the table around it,
in document order, and if the iteration has stopped.  `stopped` tells if the iteration has stopped before the node, which is then left as it is.  A
footer row is removed from the tree: if the row which follows it in document order is in one of its cells other than the first, the iteration goes on
in what has been removed and stops at its end, so that the later rows of the document are not treated.  Simplified: a footer row which precedes the
`CORPUS` of its table is treated as if it was in this `CORPUS`. -/
def moveNode (stopped : Bool) : Node → Except PyErr (List Node × List Note × Bool)
  | .elem t a x cs tl =>
    if stopped then pure ([.elem t a x cs tl], [], true)
    else if t = f "ROW" ∧ Dict.get? a (f "TYPE") = some "__GR.NOTES__" then
      if goesOn cs then do
        let (cs', notes, s) ← moveFirst cs
        let k ← makeNote (Dict.erase a (f "TYPE")) cs'
        pure ([], k :: notes, s)
      else do
        let k ← makeNote (Dict.erase a (f "TYPE")) cs
        let lost ← moveLost cs
        if lost.isEmpty then pure ([], [k], true) else .error .stopIteration
    else do
      let (cs', notes, s) ← moveList false cs
      let r ← closeElem t a x cs' tl notes
      pure (r.1, r.2, s)
  | n => pure ([n], [], stopped)
/-- the nodes of a list, in document order (formex.py 717-749) -/
def moveList (stopped : Bool) : List Node → Except PyErr (List Node × List Note × Bool)
  | [] => pure ([], [], stopped)
  | n :: ns => do
    let (l, notes, s) ← moveNode stopped n
    let (ls, notess, s) ← moveList s ns
    pure (l ++ ls, notes ++ notess, s)
/-- the children of a footer row, of which only the first cell stays in the document (formex.py 725-749) -/
def moveFirst : List Node → Except PyErr (List Node × List Note × Bool)
  | [] => pure ([], [], false)
  | n :: ns =>
    if isElem "CELL" n then do
      let (l, notes, s) ← moveNode false n
      pure (l ++ ns, notes, s)
    else do
      let (ns', notes, s) ← moveFirst ns
      pure (n :: ns', notes, s)
/-- the notes for a table around a footer row, when the iteration goes on in what has been removed with this row (formex.py 717-749): its children
without the contents of its first cell.  There is no such table any more: see `moveNode`. -/
def moveLost : List Node → Except PyErr (List Note)
  | [] => pure []
  | n :: ns =>
    if isElem "CELL" n then do
      let (_, notes, _) ← moveList false ns
      pure notes
    else do
      let (_, notes, s) ← moveNode false n
      if s then pure notes
      else do
        let notess ← moveLost ns
        pure (notes ++ notess)
end

/-- `extract_gr_notes(fmx_root)` (formex.py 698-749).  A footer row outside any table raises `StopIteration`. -/
def extractGrNotes (root : Node) : Except PyErr Node := do
  let (l, notes, _) ← moveNode false root
  match l, notes with
  | [n], [] => pure n
  | _, _ => .error .stopIteration

/-! ### blocks -/

/-- the open blocks while the rows are moved (the stack of formex.py 760), innermost first: the children each of them has received; the last list
is that of the `CORPUS` -/
abbrev Open := List (List Node)

/-- a block (builders/formex.py 771) -/
def blkElem (children : List Node) : Node := .elem (f "BLK") [] none children none

/-- `fmx_top.append(node)` (formex.py 765, 781) -/
def Open.add (n : Node) : Open → Open
  | [] => []
  | cs :: rest => (cs ++ [n]) :: rest

/-- `fmx_blk = etree.SubElement(fmx_top, "BLK"); stack.append(fmx_blk)` (formex.py 769-772), `k` times.  The block is put among the children of its
parent when it is closed, which gives the same tree: a parent receives nothing while one of its blocks is open. -/
def Open.push : Nat → Open → Open
  | 0, o => o
  | k + 1, o => Open.push k ([] :: o)

/-- `stack.pop()` (formex.py 774) -/
def Open.close : Open → Open
  | cs :: parent :: rest => (parent ++ [blkElem cs]) :: rest
  | o => o

/-- `stack.pop()`, several times (formex.py 774) -/
def Open.pop : Nat → Open → Open
  | 0, o => o
  | k + 1, o => Open.pop k (Open.close o)

/-- the level of the stack is made that of the row (formex.py 769-774) -/
def Open.toLevel (level : Nat) (o : Open) : Open :=
  if o.length < level + 1 then o.push (level + 1 - o.length) else o.pop (o.length - (level + 1))

/-- `fmx_cell.set("TYPE", type)` (formex.py 778, 780) -/
def setAttr (name : QName) (v : String) : Node → Node
  | .elem t a x cs tl => .elem t (Dict.set a name v) x cs tl
  | n => n

/-- the cells of a row: `fmx_row.xpath("CELL")` (builders/formex.py 779, 785) -/
def cellsOf (n : Node) : List Node := n.children.filter (isElem "CELL")

/-- `self::CELL[string() != '' or count(IE) != 0]` (formex.py 786) -/
def filled (cell : Node) : Bool := cell.innerText ≠ "" || cell.children.any (isElem "IE")

/-- `@COL.START` and `@COL.END` of a title made of the cell at position `pos` (formex.py 787-794) -/
def titleSpan (cfg : Config) (pos : Nat) (cell : Node) : Except PyErr (Int × Int) :=
  match cell.attr (cfg.q "namest"), cell.attr (cfg.q "nameend") with
  | some a, some b =>
    if a ≠ "" ∧ b ≠ "" then do
      let start ← firstInt a
      let stop ← firstInt b
      pure (start, stop)
    else pure (pos, pos)
  | _, _ => pure (pos, pos)

/-- the cell which gives the title, and its columns (formex.py 784-799): `raw` is the row, `row` the same row with what is inside its cells already
grouped -/
def titleSource (cfg : Config) (raw row : Node) : Except PyErr (Node × Int × Int) :=
  match (cellsOf raw).findIdx? filled with
  | some i => do
    let c ← pyGetNat (cellsOf raw) i
    let span ← titleSpan cfg (i + 1) c
    let cell ← pyGetNat (cellsOf row) i
    pure (cell, span)
  | none => do
    let cell ← pyGetNat (cellsOf row) 0
    pure (cell, (1, 1))

/-- attributes of a title (formex.py 795, 799-800) -/
def titleAttrs (row : Node) (span : Int × Int) : Dict QName String :=
  Dict.update [(f "COL.START", Cals.intStr span.1), (f "COL.END", Cals.intStr span.2)] (row.attrs.filter (fun p => p.1 ≠ f "TYPE"))

/-- the title element (formex.py 784-803) -/
def titleElem (cfg : Config) (tag : String) (raw row : Node) : Except PyErr Node := do
  let src ← titleSource cfg raw row
  pure (.elem (f tag) (titleAttrs row src.2) src.1.text src.1.children none)

/-- a row with its type, which is also that of its cells (formex.py 777-780) -/
def typedRow (type : Option String) (row : Node) : Node :=
  match type, row with
  | some ty, .elem t a x cs tl =>
    .elem t (Dict.set a (f "TYPE") ty) x (cs.map (fun c => if isElem "CELL" c then setAttr (f "TYPE") ty c else c)) tl
  | _, row => row

/-- what `fmx_row.get(cals("rowstyle"))` tells (formex.py 767-768) -/
def infoOf (cfg : Config) (raw : Node) : RowInfo := guessRowInfo (raw.attr (cfg.q "rowstyle"))

/-- the node which is put in the block of a row (formex.py 776-804) -/
def placedNode (cfg : Config) (raw row : Node) : Except PyErr Node :=
  if (infoOf cfg raw).tag = "ROW" then .ok (typedRow (infoOf cfg raw).type row) else titleElem cfg (infoOf cfg raw).tag raw row

/-- is it a processing instruction? (formex.py 762) -/
def isPi : Node → Bool
  | .pi _ _ _ => true
  | _ => false

/-- the loop on the children of a `CORPUS` (formex.py 761-806); each child comes with its version where what is inside is already grouped -/
def groupRows (cfg : Config) (o : Open) : List (Node × Node) → Except PyErr Open
  | [] => .ok o
  | (raw, row) :: rows =>
    if isPi raw then groupRows cfg (o.add row) rows
    else do
      let n ← placedNode cfg raw row
      groupRows cfg ((o.toLevel (infoOf cfg raw).level).add n) rows

/-- the children of a `CORPUS` after the grouping (builders/formex.py 759-806) -/
def groupChildren (cfg : Config) (rows : List (Node × Node)) : Except PyErr (List Node) := do
  let o ← groupRows cfg [[]] rows
  match o.pop (o.length - 1) with
  | [cs] => pure cs
  | _ => pure []

mutual
/-- `insert_blk(fmx_root)` (formex.py 751-806).  Simplification: the inner tables are grouped before the outer ones; the decisions about a row are made
on the row as it was before. -/
def insertBlk (cfg : Config) : Node → Except PyErr Node
  | .elem t a x cs tl => do
    let cs' ← insertBlkList cfg cs
    if t = f "CORPUS" then do
      let g ← groupChildren cfg (cs.zip cs')
      pure (.elem t a x g tl)
    else pure (.elem t a x cs' tl)
  | n => pure n
/-- the same on siblings (formex.py 751-806) -/
def insertBlkList (cfg : Config) : List Node → Except PyErr (List Node)
  | [] => pure []
  | n :: ns => do
    let n ← insertBlk cfg n
    let ns ← insertBlkList cfg ns
    pure (n :: ns)
end

/-! ### attributes -/

/-- `elem.attrib.pop(...)` (formex.py 832-835) -/
def dropAttrs (cfg : Config) (a : Dict QName String) : Dict QName String :=
  Dict.erase (Dict.erase (Dict.erase (Dict.erase a (cfg.q "namest")) (cfg.q "nameend")) (cfg.q "morerows")) (cfg.q "rowstyle")

mutual
/-- `drop_superfluous_attrs(fmx_root)` (formex.py 808-835); `inside` tells if the node is in a table -/
def dropNode (cfg : Config) (inside : Bool) : Node → Node
  | .elem t a x cs tl =>
    let a := if inside && (t ∈ ["ROW", "CELL", "TI.BLK", "STI.BLK", "GR.NOTES"].map f) then dropAttrs cfg a else a
    .elem t a x (dropList cfg (inside || t = f "TBL") cs) tl
  | n => n
/-- the same on siblings (formex.py 808-835) -/
def dropList (cfg : Config) (inside : Bool) : List Node → List Node
  | [] => []
  | n :: ns => dropNode cfg inside n :: dropList cfg inside ns
end

/-- `finalize_tree(tree)` (formex.py 639-659) on the root of the tree -/
def finalize (cfg : Config) (root : Node) : Except PyErr Node := do
  let root := cleanupNode (updateNoSeq root)
  let root ← extractGrNotes root
  let root ← insertBlk cfg root
  pure (dropNode cfg false root)

end Benker.Fmx
