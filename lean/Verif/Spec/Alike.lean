import Verif.Spec.CalsDoc
import Verif.Spec.FormexDoc

/-! When do two documents tell the same table?  They may differ by what is between the elements (spaces, texts, comments, processing instructions,
elements of other vocabularies), by the attributes which tell nothing about tables, and by the way the numbers are written. -/

namespace Benker.DocSpec
open CalsSpec FmxSpec

/-- what matters in a document -/
structure Rules where
  /-- the nodes which do not matter: they can be there or not -/
  inert : Node → Prop
  /-- the elements of which the content is that of a cell: it matters as it is -/
  content : QName → Prop
  /-- the elements which matter as they are, with the text which follows -/
  whole : QName → Prop
  /-- the attributes which tell the same -/
  attrs : Dict QName String → Dict QName String → Prop

mutual
/-- nodes which tell the same -/
inductive Alike (R : Rules) : Node → Node → Prop
  /-- the same node -/
  | same (n : Node) : Alike R n n
  /-- the content of a cell is the same; the text which follows it does not matter -/
  | cell (t : QName) (a a' : Dict QName String) (x : Option String) (cs : List Node) (tl tl' : Option String) (ht : R.content t) (hw : ¬ R.whole t)
      (ha : R.attrs a a') : Alike R (.elem t a x cs tl) (.elem t a' x cs tl')
  /-- the texts in another element and after it do not matter, and its children tell the same -/
  | inside (t : QName) (a a' : Dict QName String) (x x' : Option String) (cs cs' : List Node) (tl tl' : Option String) (ht : ¬ R.content t) (hw : ¬ R.whole t)
      (ha : R.attrs a a') (hc : AlikeAll R cs cs') : Alike R (.elem t a x cs tl) (.elem t a' x' cs' tl')
/-- lists of nodes which tell the same -/
inductive AlikeAll (R : Rules) : List Node → List Node → Prop
  | nil : AlikeAll R [] []
  | cons (n n' : Node) (ns ns' : List Node) (h : Alike R n n') (hs : AlikeAll R ns ns') : AlikeAll R (n :: ns) (n' :: ns')
  | left (n : Node) (ns ns' : List Node) (h : R.inert n) (hs : AlikeAll R ns ns') : AlikeAll R (n :: ns) ns'
  | right (n : Node) (ns ns' : List Node) (h : R.inert n) (hs : AlikeAll R ns ns') : AlikeAll R ns (n :: ns')
end

/-- nodes, or nothing, which tell the same -/
inductive OptAlike (R : Rules) : Option Node → Option Node → Prop
  | none : OptAlike R none none
  | some (n n' : Node) (h : Alike R n n') : OptAlike R (some n) (some n')

/-- values of attributes which are the same, or which are read as the same number -/
def SameNumber (Reads : String → Int → Prop) (v v' : Option String) : Prop :=
  v = v' ∨ ∃ s s' n, v = some s ∧ v' = some s' ∧ s ≠ "" ∧ s' ≠ "" ∧ Reads s n ∧ Reads s' n

/-- the first number of a text -/
def ReadsFirst (s : String) (n : Int) : Prop := ∃ k : Nat, n = k ∧ FirstNumber s k

/-- the attributes of CALS which are not numbers -/
def calsWords : List String :=
  ["frame", "colsep", "rowsep", "orient", "pgwide", "bgcolor", "width", "tabstyle", "tgroupstyle", "valign", "rowstyle", "align", "cellstyle", "colwidth"]

/-- attributes which tell the same in CALS -/
structure SameCals (ns : Option String) (a a' : Dict QName String) : Prop where
  words : ∀ k ∈ calsWords, Dict.get? a ⟨ns, k⟩ = Dict.get? a' ⟨ns, k⟩
  columns : ∀ k ∈ ["namest", "nameend"], SameNumber ReadsFirst (Dict.get? a ⟨ns, k⟩) (Dict.get? a' ⟨ns, k⟩)
  numbers : ∀ k ∈ ["morerows", "colnum"], SameNumber IsInteger (Dict.get? a ⟨ns, k⟩) (Dict.get? a' ⟨ns, k⟩)

/-- what matters in a CALS table -/
def cals (ns : Option String) : Rules where
  inert n := NoCals ns [n]
  content t := t = ⟨ns, "entry"⟩
  whole _ := False
  attrs := SameCals ns

/-- attributes which tell the same in Formex -/
structure SameFormex (ns calsNs : Option String) (a a' : Dict QName String) : Prop where
  cals : SameCals calsNs a a'
  words : ∀ k ∈ ["TYPE", "PAGE.SIZE", "CLASS"], Dict.get? a ⟨ns, k⟩ = Dict.get? a' ⟨ns, k⟩
  numbers : ∀ k ∈ ["COLSPAN", "ROWSPAN", "COL.START", "COL.END"], SameNumber IsInteger (Dict.get? a ⟨ns, k⟩) (Dict.get? a' ⟨ns, k⟩)

/-- what matters in a Formex table; the notes are kept as they are -/
def formex (ns calsNs : Option String) : Rules where
  inert n := NoFmx ns calsNs [n] ∧ n.tag? ≠ some ⟨ns, "GR.NOTES"⟩
  content t := t ∈ ["CELL", "TI.BLK", "STI.BLK"].map (fun k => (⟨ns, k⟩ : QName))
  whole t := t = ⟨ns, "GR.NOTES"⟩
  attrs := SameFormex ns calsNs

end Benker.DocSpec
