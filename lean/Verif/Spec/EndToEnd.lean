import Verif.Spec.Files
import Verif.Spec.Inner
import Verif.Spec.FormexNotes

/-! What is expected of the conversion of files, from the source to the destination. -/

namespace Benker.FileSpec
open Files CalsSpec FmxSpec Kept Shown

/-! ### the machine -/

/-- the XML library can write every document -/
def Writes (env : Env) : Prop := ∀ enc n, ∃ chunks, env.write enc n = .ok chunks

/-- the same machine, where documents of any depth can be visited -/
def _root_.Benker.Files.Env.deep (env : Env) (depth : Nat) : Env := { env with depth := depth }

/-! ### options -/

/-- the value of an option which is a name: the one which is given, or the default; an empty name is none -/
def GivenName (kw : Kwargs) (option : String) (default value : Option String) : Prop :=
  match Dict.get? kw option with
  | none => value = default
  | some .none => value = none
  | some (.str s) => value = if s = "" then none else some s
  | some _ => False

/-- the option is given, and it is true in the sense of Python -/
def Switched (kw : Kwargs) (option : String) : Bool :=
  match Dict.get? kw option with
  | none | some .none | some (.bool false) | some (.str "") | some (.list []) => false
  | some _ => true

/-- the value of an option which is a text: the one which is given, or the default -/
def GivenText (kw : Kwargs) (option default value : String) : Prop :=
  match Dict.get? kw option with
  | none => value = default
  | some (.str s) => value = s
  | some _ => False

/-- the order of the rows: the one which is given, or the default -/
def GivenSorting (kw : Kwargs) (order : List String) : Prop :=
  match Dict.get? kw "tgroup_sorting" with
  | none | some .none | some (.list []) => order = ["header", "footer", "body"]
  | some (.list l) => order = l
  | some _ => False

/-- the stylesheet of a Word document: the one which is in the file which is given, or the one which is in the document -/
def GivenStyles (env : Env) (fs : FS) (kw : Kwargs) (doc : Node) (styles : Option Node) : Prop :=
  ∃ path, GivenName kw "styles_path" none path ∧
    match path with
    | none => styles = ownStyles doc
    | some p => ∃ sheet, Holds env fs p sheet ∧ styles = some sheet

/-- the options of the Formex builder -/
structure FormexOptions (env : Env) (kw : Kwargs) (bc : Fmx.Config) : Prop where
  namespace_ : GivenName kw "cals_ns" (some "https://lib.benker.com/schemas/cals.xsd") bc.calsNs
  prefix_ : ∃ p, GivenName kw "cals_prefix" (some "cals") p
  unit : GivenText kw "width_unit" "mm" (String.ofList bc.widthUnit)
  titles : bc.detectTitles = Switched kw "detect_titles"
  attributes : bc.useCals = Switched kw "use_cals"
  numbers : bc.fl = env.fl

/-- the options of the CALS builder -/
structure CalsOptions (env : Env) (kw : Kwargs) (bc : Cals.Config) : Prop where
  namespace_ : GivenName kw "cals_ns" none bc.ns
  prefix_ : ∃ p, GivenName kw "cals_prefix" none p ∧ (p ≠ none → bc.ns ≠ none)
  unit : GivenText kw "width_unit" "mm" (String.ofList bc.widthUnit)
  style : bc.tableInTgroup = Switched kw "table_in_tgroup"
  sorting : GivenSorting kw bc.tgroupSorting
  complete : "header" ∈ bc.tgroupSorting ∧ "footer" ∈ bc.tgroupSorting ∧ "body" ∈ bc.tgroupSorting
  numbers : bc.fl = env.fl

/-! ### notes -/

/-- the rows of notes are apart in the document where the tables have been converted, before its finalisation (see C105) -/
def RawApart (c : Convert.Conv) (limit : Nat) (doc : Node) : Prop := ∀ raw, Convert.transformTables c limit doc = .ok raw → NotesApart raw

/-! ### tables -/

/-- what becomes of a CALS table in Formex (see C88), if the rows of notes are `apart` -/
def CalsInFormex (apart : Prop) (ns : Option String) (bc : Fmx.Config) (T F : Node) : Prop :=
  F.tag? = some (FmxSpec.name "TBL") ∧
    (apart → ∀ (cals : Option String) (d : CalsDoc) (w h : Nat) (p : Picture), (bc.useCals = true → cals = bc.calsNs) → d.table = T → InCals ns d w h p → ForFormex cals bc w p →
      (bc.useCals = true → ∀ r ∈ d.rows, r.2.node.attr ⟨ns, "rowstyle"⟩ = none) → InFormex cals (fun _ => False) w h p F)

open OoxmlSpec in
/-- what becomes of a Word table in Formex (see C88), if the rows of notes are `apart` -/
def WordInFormex (apart : Prop) (pc : Ooxml.Config) (bc : Fmx.Config) (sect : Option Node) (T F : Node) : Prop :=
  F.tag? = some (FmxSpec.name "TBL") ∧
    (apart → ∀ (cals : Option String) (styles : Node → Styles) (nature : Node → String) (W : Nat), (bc.useCals = true → cals = bc.calsNs) →
      GoodTable pc sect styles nature W T → kids ["tr"] T ≠ [] → ForFormex cals bc W (wordPicture T) →
      (∀ l ∈ wordPicture T, ∀ b ∈ l.cells, ∀ t a, Tok.opening t a ∈ b.2 → t ≠ OoxmlSpec.name "tbl") →
      InFormex cals Blank W (kids ["tr"] T).length (wordPicture T) F)

/-- the CALS table shows `q`, in the order of the rows which is asked -/
def ShownInCals (bc : Cals.Config) (w h : Nat) (q : Picture) (C : Node) : Prop :=
  OneKind q → Without bc.ns calsNames q →
    ∃ (d : CalsDoc) (p : Picture), d.table = C ∧ InCals bc.ns d w h p ∧ Regrouped bc.tgroupSorting q p ∧ (Grouped bc.tgroupSorting q → p = q)

open OoxmlSpec in
/-- what becomes of a Word table in CALS (see C85 and C95) -/
def WordInCals (pc : Ooxml.Config) (bc : Cals.Config) (sect : Option Node) (T C : Node) : Prop :=
  C.tag? = some ⟨bc.ns, "table"⟩ ∧
    ∀ (styles : Node → Styles) (nature : Node → String) (W : Nat), GoodTable pc sect styles nature W T → kids ["tr"] T ≠ [] →
      (PlainTable pc.styles T → WordLooksKept pc bc.ns bc.tgroupSorting bc.tableInTgroup (Units.rewriteWidth bc.fl bc.widthUnit) sect W T C) ∧
      ShownInCals bc W (kids ["tr"] T).length (wordPicture T) C

/-- what becomes of a Formex table in CALS (see C85 and C94) -/
def FormexInCals (pc : FmxP.Config) (bc : Cals.Config) (blk : Nat) (parent T C : Node) : Prop :=
  C.tag? = some ⟨bc.ns, "table"⟩ ∧
    ∀ (d : FmxDoc) (w h : Nat), d.corpus = T → FormexTable pc.ns pc.calsNs blk parent d w h →
      FormexLooksKept pc.ns pc.calsNs bc.ns bc.tgroupSorting bc.tableInTgroup (Units.rewriteWidth bc.fl bc.widthUnit) parent d w h C ∧
      ShownInCals bc w h (formexPicture pc.ns pc.embedGrNotes d) C

end Benker.FileSpec
