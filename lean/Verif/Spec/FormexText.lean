import Verif.Spec.Formex

/-! The text of a Formex document, before and after its finalisation. -/

namespace Benker.FmxSpec
open CalsSpec

/-- a provisional footer row -/
def IsFooter (t : QName) (a : Dict QName String) : Prop := t = name "ROW" ∧ Dict.get? a (name "TYPE") = some "__GR.NOTES__"

instance (t : QName) (a : Dict QName String) : Decidable (IsFooter t a) := by unfold IsFooter; infer_instance

/-- the characters of a text which may be absent -/
def chars : Option String → List Char
  | none => []
  | some s => s.toList

mutual
/-- the text of a node, in document order, except that the footer rows of each table are read just before its first `CORPUS`; the footer rows which
belong to the table around the node are left out -/
def bodyText : Node → List Char
  | .elem t a x cs tl =>
    if IsFooter t a then []
    else chars x ++ (if t = name "TBL" then tableText (notesTextList cs) cs else bodyTextList cs) ++ chars tl
  | .pi _ _ tl => chars tl
  | .comment _ tl => chars tl
def bodyTextList : List Node → List Char
  | [] => []
  | n :: ns => bodyText n ++ bodyTextList ns
/-- the text of the children of a table, with that of its footer rows before the first `CORPUS` -/
def tableText (notes : List Char) : List Node → List Char
  | [] => []
  | n :: ns => if n.tag? = some (name "CORPUS") then notes ++ bodyText n ++ bodyTextList ns else bodyText n ++ tableText notes ns
/-- the text of the footer rows in a node which belong to the table around it -/
def notesText : Node → List Char
  | .elem t a _ cs _ => if t = name "TBL" then [] else (if IsFooter t a then bodyTextList cs else []) ++ notesTextList cs
  | _ => []
def notesTextList : List Node → List Char
  | [] => []
  | n :: ns => notesText n ++ notesTextList ns
end

/-- a node without text -/
def NoText (n : Node) : Prop := charsOf (toks n) = []

/-- all the text of a row is inside one of its cells, and the nodes before this cell satisfy `P` -/
def TextInCell (P : Node → Prop) (row : Node) : Prop :=
  chars row.text = [] ∧ chars row.tail = [] ∧ ∃ pre c post, row.children = pre ++ c :: post ∧ c.tag? = some (name "CELL") ∧ chars c.tail = [] ∧
    (∀ d ∈ pre, NoText d ∧ P d) ∧ ∀ d ∈ post, NoText d

/-- the text of a footer row is in its first cell -/
def FooterTidy (row : Node) : Prop := TextInCell (fun d => d.tag? ≠ some (name "CELL")) row

/-- the text of a title row is in its first cell which has a text or an `IE` -/
def TitleTidy (row : Node) : Prop := TextInCell (fun d => d.tag? = some (name "CELL") → ¬ Filled d) row

/-- the row style asks for a title -/
def TitleStyle (s : Option String) : Prop := ∃ t tag type level, s = some t ∧ IsRowStyle t tag type level ∧ tag ≠ "ROW"

mutual
/-- a document where no table is the child of a table, and where the footer rows and the title rows have their text in the cell which is kept;
`style` is the name of the attribute of the row style -/
def Tidy (style : QName) (inCorpus inTable : Bool) : Node → Prop
  | .elem t a x cs tl =>
    (inTable = true → t ≠ name "TBL") ∧
    (IsFooter t a → FooterTidy (.elem t a x cs tl)) ∧
    (inCorpus = true → ¬ IsFooter t a → TitleStyle (Dict.get? a style) → t = name "ROW" ∧ TitleTidy (.elem t a x cs tl)) ∧
    TidyList style (t = name "CORPUS") (t = name "TBL") cs
  | _ => True
def TidyList (style : QName) (inCorpus inTable : Bool) : List Node → Prop
  | [] => True
  | n :: ns => Tidy style inCorpus inTable n ∧ TidyList style inCorpus inTable ns
end

mutual
/-- a document without footer row -/
def NoFooter : Node → Prop
  | .elem t a _ cs _ => ¬ IsFooter t a ∧ NoFooterList cs
  | _ => True
def NoFooterList : List Node → Prop
  | [] => True
  | n :: ns => NoFooter n ∧ NoFooterList ns
end

mutual
/-- a document where the tables which are children of a table have no text around their children -/
def InnerTidy (inTable : Bool) : Node → Prop
  | .elem t _ x cs tl => (inTable = true → t = name "TBL" → chars x = [] ∧ chars tl = []) ∧ InnerTidyList (t = name "TBL") cs
  | _ => True
def InnerTidyList (inTable : Bool) : List Node → Prop
  | [] => True
  | n :: ns => InnerTidy inTable n ∧ InnerTidyList inTable ns
end

end Benker.FmxSpec
