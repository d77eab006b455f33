import Verif.Spec.Document
import Verif.Spec.WordKept

/-! Two documents which are the same, up to the tables of the first one, which is in Formex. -/

namespace Benker.Shown
open CalsSpec FmxSpec Kept

/-- notes which precede a table among their siblings: the notes of a table -/
def NotesOfTable (ns : Option String) (n : Node) (after : List Node) : Prop :=
  n.tag? = some ⟨ns, "GR.NOTES"⟩ ∧ ∃ m ∈ after, m.tag? = some ⟨ns, "CORPUS"⟩

mutual
/-- `AroundFormex ns R blk n n'`: `n'` is `n` where the notes of the tables are removed, and where each table (`CORPUS`) is replaced by an element which has the same tail
and is related to it by `R`; all the rest is the same: elements, attributes, texts, comments and processing instructions, in the same order.  `blk` blocks are around `n`. -/
inductive AroundFormex (ns : Option String) (R : Nat → Node → Node → Node → Prop) : Nat → Node → Node → Prop
  | elem (blk t a x cs cs' tl) : AroundFormexList ns R (blk + if t = ⟨ns, "BLK"⟩ then 1 else 0) t a [] cs cs' → AroundFormex ns R blk (.elem t a x cs tl) (.elem t a x cs' tl)
  | pi (blk t d tl) : AroundFormex ns R blk (.pi t d tl) (.pi t d tl)
  | comment (blk d tl) : AroundFormex ns R blk (.comment d tl) (.comment d tl)
/-- the same for the children of an element; `before` are the children which come before, from the last table on.  The relation `R` is given the number of
blocks around the table, its parent (with these children and the table), the table, and the element which replaces it. -/
inductive AroundFormexList (ns : Option String) (R : Nat → Node → Node → Node → Prop) : Nat → QName → Dict QName String → List Node → List Node → List Node → Prop
  | nil (blk t a before) : AroundFormexList ns R blk t a before [] []
  | table (blk t a before n n' rest rest') : n.tag? = some ⟨ns, "CORPUS"⟩ → R blk (.elem t a none (before ++ [n]) none) n n' → n'.tail = n.tail →
      AroundFormexList ns R blk t a [] rest rest' → AroundFormexList ns R blk t a before (n :: rest) (n' :: rest')
  | notes (blk t a before n rest rest') : NotesOfTable ns n rest → AroundFormexList ns R blk t a (before ++ [n]) rest rest' →
      AroundFormexList ns R blk t a before (n :: rest) rest'
  | other (blk t a before n n' rest rest') : n.tag? ≠ some ⟨ns, "CORPUS"⟩ → ¬ NotesOfTable ns n rest → AroundFormex ns R blk n n' →
      AroundFormexList ns R blk t a (before ++ [n]) rest rest' → AroundFormexList ns R blk t a before (n :: rest) (n' :: rest')
end

mutual
/-- the property holds of all the tables of a document, which is in `blk` blocks; it is given what the relation of `AroundFormex` is given, for the source -/
def EachFormex (ns : Option String) (P : Nat → Node → Node → Prop) : Nat → Node → Prop
  | blk, .elem t a _ cs _ => EachFormexList ns P (blk + if t = ⟨ns, "BLK"⟩ then 1 else 0) t a [] cs
  | _, _ => True
/-- the same for the children of an element -/
def EachFormexList (ns : Option String) (P : Nat → Node → Node → Prop) : Nat → QName → Dict QName String → List Node → List Node → Prop
  | _, _, _, _, [] => True
  | blk, t, a, before, n :: rest =>
    n.tag? = some ⟨ns, "CORPUS"⟩ ∧ P blk (.elem t a none (before ++ [n]) none) n ∧ EachFormexList ns P blk t a [] rest ∨
    n.tag? ≠ some ⟨ns, "CORPUS"⟩ ∧ EachFormex ns P blk n ∧ EachFormexList ns P blk t a (before ++ [n]) rest
end

/-- the Formex table is drawn on a grid of `w` columns and `h` rows; there are no tables in its notes -/
structure FormexTable (ns cals : Option String) (blk : Nat) (parent : Node) (d : FmxDoc) (w h : Nat) : Prop where
  nested : d.Nested ns cals blk (some parent)
  drawn : d.Drawn ns cals w h
  width : d.WidthKnown w
  columns : d.Columns cals w
  notes : ∀ l ∈ d.notes, ∀ t a, Tok.opening t a ∈ toks l.node → t ≠ ⟨ns, "CORPUS"⟩

/-- the CALS table tells the looks of the Formex table (see C94); `whole` is the element which tells the looks of all the cells -/
def FormexLooksKept (ns cals ns' : Option String) (sorting : List String) (tg : Bool) (rewrite : List Char → Except PyErr (List Char)) (parent : Node) (d : FmxDoc) (w h : Nat) (table : Node) : Prop :=
  ∃ (tgroup whole : Node) (colspecs bodies : List Node) (order : List DocLine), table.children = [tgroup] ∧ whole = (if tg then tgroup else table) ∧
    tgroup.children = colspecs ++ bodies ∧
    CorpusKept ns cals ns' (some parent) d.corpus table whole
      (if tg then tgroup.attr ⟨ns', "tgroupstyle"⟩ else table.attr ⟨ns', "tabstyle"⟩) ∧
    colspecs.length = w ∧
    (∀ col ∈ d.cols, ∃ e, colspecs[col.num - 1]? = some e ∧ ColKept cals ns' [rewrite] whole col.node e) ∧
    Sorted sorting (fun l => some (l.kind ns)) d.all order ∧
    All₂ (fun l row => row.tag? = some ⟨ns', "row"⟩ ∧
        (l.sort ≠ .note → LineKept ns cals ns' whole l row) ∧
        All₂ (fun e out => PlaceKept ns cals ns' l e.1 out ∧
          (l.sort = .note ∨ line (e.1.bind (·.attr ⟨cals, "colsep"⟩)) = none ∧ line (e.1.bind (·.attr ⟨cals, "rowsep"⟩)) = none →
            PlaceLines cals ns' w h whole e.1 e.2 out)) l.drawn row.children)
      order (bodies.flatMap (fun b => b.children.filter (fun n => n.tag?.isSome)))

open OoxmlSpec in
/-- the CALS table tells the looks of the Word table (see C95) -/
def WordLooksKept (cfg : Ooxml.Config) (ns' : Option String) (sorting : List String) (tg : Bool) (rewrite : List Char → Except PyErr (List Char)) (sect : Option Node) (W : Nat)
    (tbl table : Node) : Prop :=
  ∃ (chain : List Node) (tgroup whole : Node) (colspecs bodies : List Node) (order : List (Node × List (Box × Node))),
    TableChain cfg.styles tbl chain ∧ table.children = [tgroup] ∧ whole = (if tg then tgroup else table) ∧ tgroup.children = colspecs ++ bodies ∧
    WordTableKept ns' sect chain tbl table whole (if tg then tgroup.attr ⟨ns', "tgroupstyle"⟩ else table.attr ⟨ns', "tabstyle"⟩) ∧
    colspecs.length = W ∧
    (∀ (i : Nat) (g : Node), ((kids ["tblGrid"] tbl).flatMap (kids ["gridCol"]))[i]? = some g → ∃ e, colspecs[i]? = some e ∧ WordColKept ns' cfg.float rewrite g e) ∧
    Sorted sorting (fun x => some (natureOfRow x.1)) (slots 1 (kids ["tr"] tbl)) order ∧
    All₂ (fun x row => row.tag? = some ⟨ns', "row"⟩ ∧
        All₂ (fun b out => WordCellKept ns' W (kids ["tr"] tbl).length whole b.2 b.1 out) x.2 row.children)
      order (bodies.flatMap (fun b => b.children.filter (fun n => n.tag?.isSome)))

end Benker.Shown
