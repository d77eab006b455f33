import Verif.Model.Xml

/-! Specification of C108: the schema of the CALS tables shipped with benker (`/repo/benker/schemas/calstblx.xsd`, with the values of `cals.xsd`). -/

namespace Benker.CalsSchema

/-- the kinds of values of the attributes: a value of a list, an integer, a name, any text -/
inductive Kind where
  | oneOf (values : List String)
  | integer
  | name
  | text

/-- the decimal digits -/
def digit (c : Char) : Bool := '0' ≤ c && c ≤ '9'

/-- the characters of the names (those of them which are in ASCII) -/
def nameChar (c : Char) : Bool := digit c || ('a' ≤ c && c ≤ 'z') || ('A' ≤ c && c ≤ 'Z') || c ∈ ['.', '-', '_', ':']

/-- the values of each kind: an integer is a sign if any and digits; a name is made of characters of names -/
def Kind.Allows : Kind → String → Prop
  | .oneOf values, v => v ∈ values
  | .integer, v => ∃ sign digits, v.toList = sign ++ digits ∧ sign ∈ [[], ['+'], ['-']] ∧ digits ≠ [] ∧ ∀ c ∈ digits, digit c
  | .name, v => v.toList ≠ [] ∧ ∀ c ∈ v.toList, nameChar c
  | .text, _ => True

/-- `yesorno` -/
def yesOrNo : Kind := .oneOf ["0", "1"]

/-- horizontal and vertical alignments (calstblx.xsd 97-123) -/
def aligns : Kind := .oneOf ["left", "right", "center", "justify", "char"]
/-- vertical alignments -/
def valigns : Kind := .oneOf ["top", "middle", "bottom"]

/-- the attributes of each element, with the kinds of their values -/
def declared : List (String × String × Kind) :=
  [("table", "frame", .oneOf ["top", "bottom", "topbot", "all", "sides", "none"]), ("table", "colsep", yesOrNo), ("table", "rowsep", yesOrNo),
   ("table", "pgwide", yesOrNo), ("table", "tabstyle", .text), ("table", "orient", .oneOf ["port", "land"]),
   ("tgroup", "cols", .integer), ("tgroup", "colsep", yesOrNo), ("tgroup", "rowsep", yesOrNo), ("tgroup", "align", aligns), ("tgroup", "tgroupstyle", .text),
   ("colspec", "colnum", .integer), ("colspec", "colname", .name), ("colspec", "colwidth", .text), ("colspec", "colsep", yesOrNo),
   ("colspec", "rowsep", yesOrNo), ("colspec", "align", aligns),
   ("thead", "valign", valigns), ("tfoot", "valign", valigns), ("tbody", "valign", valigns),
   ("row", "rowsep", yesOrNo), ("row", "valign", valigns),
   ("entry", "colname", .name), ("entry", "namest", .name), ("entry", "nameend", .name), ("entry", "spanname", .name), ("entry", "morerows", .integer),
   ("entry", "colsep", yesOrNo), ("entry", "rowsep", yesOrNo), ("entry", "align", aligns), ("entry", "valign", valigns), ("entry", "rotate", yesOrNo)]

/-- the attributes which the documentation of the builder calls extensions: they are not in the schema -/
def extensions : List (String × String) :=
  [("table", "bgcolor"), ("table", "width"), ("row", "rowstyle"), ("entry", "bgcolor"), ("entry", "cellstyle")]

/-- the attribute `name` of an element can have this value -/
def Legal (element name value : String) : Prop :=
  (∃ k, (element, name, k) ∈ declared ∧ k.Allows value) ∨ (element, name) ∈ extensions

/-- the attributes of an element: each one at most once, in the namespace of CALS, with a legal value -/
def Attributes (ns : Option String) (element : String) (attrs : Dict QName String) : Prop :=
  (attrs.map (·.1)).Nodup ∧ ∀ a v, (a, v) ∈ attrs → a.ns = ns ∧ Legal element a.name v

/-- an `entry`, whatever its content -/
def IsEntry (ns : Option String) (e : Node) : Prop :=
  ∃ attrs text children, e = .elem ⟨ns, "entry"⟩ attrs text children none ∧ Attributes ns "entry" attrs

/-- a `row`: entries only, as many as `entries` tells -/
def IsRow (ns : Option String) (entries : List Node → Prop) (e : Node) : Prop :=
  ∃ attrs children, e = .elem ⟨ns, "row"⟩ attrs none children none ∧ Attributes ns "row" attrs ∧ (∀ c ∈ children, IsEntry ns c) ∧ entries children

/-- a processing instruction, which schemas ignore -/
def IsInstruction (e : Node) : Prop := ∃ target data, e = .pi target data none

/-- a `thead`, a `tfoot` or a `tbody`: rows, at least one, and processing instructions -/
def IsGroup (ns : Option String) (entries : List Node → Prop) (e : Node) : Prop :=
  ∃ tag attrs children, tag ∈ ["thead", "tfoot", "tbody"] ∧ e = .elem ⟨ns, tag⟩ attrs none children none ∧ Attributes ns tag attrs ∧
    (∀ c ∈ children, IsRow ns entries c ∨ IsInstruction c) ∧ ∃ c ∈ children, IsRow ns entries c

/-- a `colspec`, which is empty -/
def IsColspec (ns : Option String) (e : Node) : Prop :=
  ∃ attrs, e = .elem ⟨ns, "colspec"⟩ attrs none [] none ∧ Attributes ns "colspec" attrs

/-- a `table` with one `tgroup`, made of `colspec`s, then of groups of rows: `order` is what is asked of the groups, `entries` of each row -/
def IsTable (ns : Option String) (order : List Node → Prop) (entries : List Node → Prop) (tree : Node) : Prop :=
  ∃ attrs tattrs colspecs groups,
    tree = .elem ⟨ns, "table"⟩ attrs none [.elem ⟨ns, "tgroup"⟩ tattrs none (colspecs ++ groups) none] none ∧
    Attributes ns "table" attrs ∧ Attributes ns "tgroup" tattrs ∧ (∃ v, (⟨ns, "cols"⟩, v) ∈ tattrs) ∧
    (∀ c ∈ colspecs, IsColspec ns c) ∧ (∀ g ∈ groups, IsGroup ns entries g) ∧ order groups

/-- the orders of groups which the schema allows: `thead?, tfoot?, tbody, tfoot?` (calstblx.xsd 166-174) -/
def orders : List (List String) :=
  [["tbody"], ["thead", "tbody"], ["tfoot", "tbody"], ["thead", "tfoot", "tbody"],
   ["tbody", "tfoot"], ["thead", "tbody", "tfoot"], ["tfoot", "tbody", "tfoot"], ["thead", "tfoot", "tbody", "tfoot"]]

/-- the names of the groups are in an order which the schema allows -/
def Ordered (groups : List Node) : Prop := groups.map (fun g => (g.tag?.map (·.name)).getD "") ∈ orders

/-- a table valid for the schema, up to the extensions -/
def Valid (ns : Option String) (tree : Node) : Prop := IsTable ns Ordered (· ≠ []) tree

/-- a table which only uses the elements and the attributes of the schema, at their places, with legal values -/
def Vocabulary (ns : Option String) (tree : Node) : Prop := IsTable ns (fun _ => True) (fun _ => True) tree

/-- the successive values of a list, without those which repeat the previous one -/
def runs [DecidableEq α] : List α → List α
  | [] => []
  | [a] => [a]
  | a :: b :: l => if a = b then runs (b :: l) else a :: runs (b :: l)

end Benker.CalsSchema
