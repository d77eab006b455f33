import Verif.Spec.FormexFinalised
import Verif.Spec.CalsDoc

/-! Two documents which are the same, up to their tables. -/

namespace Benker.Shown
open CalsSpec

mutual
/-- `Around isTable R following n n'`: `n'` is `n` where each table which is in no other table is replaced by an element which has the same tail and is related to it by `R`;
all the rest is the same: elements, attributes, texts, comments and processing instructions, in the same order.  `following` are the nodes which follow `n` in the document. -/
inductive Around (isTable : QName → Prop) (R : List Node → Node → Node → Prop) : List Node → Node → Node → Prop
  | table (following t a x cs tl n') : isTable t → R following (.elem t a x cs tl) n' → n'.tail = tl → Around isTable R following (.elem t a x cs tl) n'
  | elem (following t a x cs cs' tl) : ¬ isTable t → AroundList isTable R following cs cs' →
      Around isTable R following (.elem t a x cs tl) (.elem t a x cs' tl)
  | pi (following t d tl) : Around isTable R following (.pi t d tl) (.pi t d tl)
  | comment (following d tl) : Around isTable R following (.comment d tl) (.comment d tl)
/-- the same for siblings -/
inductive AroundList (isTable : QName → Prop) (R : List Node → Node → Node → Prop) : List Node → List Node → List Node → Prop
  | nil (following) : AroundList isTable R following [] []
  | cons (following n n' ns ns') : Around isTable R (ns ++ following) n n' → AroundList isTable R following ns ns' →
      AroundList isTable R following (n :: ns) (n' :: ns')
end

mutual
/-- none of these elements is in the document, out of its tables -/
def FreeAround (isTable : QName → Prop) (names : List QName) : Node → Prop
  | .elem t _ _ cs _ => isTable t ∨ t ∉ names ∧ FreeAroundList isTable names cs
  | _ => True
def FreeAroundList (isTable : QName → Prop) (names : List QName) : List Node → Prop
  | [] => True
  | n :: ns => FreeAround isTable names n ∧ FreeAroundList isTable names ns
end

mutual
/-- the property holds of all the tables which are in no other table; `following` are the nodes which follow the node in the document -/
def EachTable (isTable : QName → Prop) (P : List Node → Node → Prop) : List Node → Node → Prop
  | following, .elem t a x cs tl => isTable t ∧ P following (.elem t a x cs tl) ∨ ¬ isTable t ∧ EachTableList isTable P following cs
  | _, _ => True
def EachTableList (isTable : QName → Prop) (P : List Node → Node → Prop) : List Node → List Node → Prop
  | _, [] => True
  | following, n :: ns => EachTable isTable P (ns ++ following) n ∧ EachTableList isTable P following ns
end

/-- no element with this name is inside of the node, wherever it is: neither in what is shown nor in what is not -/
def NoInner (q : QName) (n : Node) : Prop := ∀ a, Tok.opening q a ∉ toksList n.children

/-- the CALS document is drawn on a grid of `w` columns and `h` rows, and shows these lines -/
structure InCals (ns : Option String) (d : CalsDoc) (w h : Nat) (p : Picture) : Prop where
  nested : d.Nested ns
  drawn : d.Drawn ns w h
  columns : d.Columns ns w
  shows : CalsShows d p

/-- the Formex table is drawn on a grid of `w` columns and `h` rows, its notes are before its `CORPUS` and hold no table, and it shows these lines -/
def InFormex (cals : Option String) (lost : List Tok → Prop) (w h : Nat) (p : Picture) (table : Node) : Prop :=
  ∃ d : FmxSpec.FmxDoc, table.tag? = some (FmxSpec.name "TBL") ∧ table.children = d.notes.map (·.node) ++ [d.corpus] ∧ d.Nested none cals 0 (some table) ∧
    d.Drawn none cals w h ∧ d.WidthKnown w ∧ d.Columns cals w ∧ FinalLines lost p d.all ∧ ∀ l ∈ d.notes, FmxSpec.NoFmx none cals l.node.children

/-- the picture can be written in Formex as it is: no title is looked for in it, its footers are notes, and there are no Formex tables in it; `cals` is the CALS namespace
with which the Formex table is read -/
structure ForFormex (cals : Option String) (cfg : Fmx.Config) (w : Nat) (p : Picture) : Prop where
  title : cfg.detectTitles = true → NoTitle w p
  footers : FootersLast w p
  plain : Without none (["TBL", "GR.NOTES"] ++ formexNames) p
  columns : Without cals ["colspec"] p

end Benker.Shown
