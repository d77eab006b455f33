import Verif.Model.ConvertFile
import Verif.Spec.Ooxml

/-! What is expected of the conversion of files. -/

namespace Benker.FileSpec
open Files

/-- the files may be in the state `s` during a call, at its end, or after an interruption; `fs` is their state when the call starts -/
def Reached (fs : FS) (r : Run) (s : FS) : Prop := s = fs ∨ s ∈ r.states

/-- the files at the end of a call -/
def atEnd (fs : FS) (r : Run) : FS := r.states.getLast?.getD fs

/-- the XML library reads what it has written -/
def Faithful (env : Env) : Prop := ∀ enc n chunks, env.write enc n = .ok chunks → env.read chunks.flatten = .ok n

/-- the file holds a document -/
def Holds (env : Env) (fs : FS) (path : String) (doc : Node) : Prop := ∃ b, fs path = some b ∧ env.read b = .ok doc

/-- the file is what the XML library writes for a document -/
def Written (env : Env) (fs : FS) (path : String) (doc : Node) : Prop := ∃ enc chunks, env.write enc doc = .ok chunks ∧ fs path = some chunks.flatten

mutual
/-- the nodes strictly inside a node, in document order -/
def inside : Node → List Node
  | .elem _ _ _ cs _ => insideAll cs
  | _ => []
/-- some nodes and those inside, in document order -/
def insideAll : List Node → List Node
  | [] => []
  | n :: ns => n :: inside n ++ insideAll ns
end

/-- the stylesheet which is in a Word document: the first `w:styles` element, in document order -/
def ownStyles (doc : Node) : Option Node := (inside doc).find? (fun n => n.tag? = some (OoxmlSpec.name "styles"))

/-- the stylesheet of a conversion from Word: the file named by the option `styles_path`, if any -/
def sheetOf (kind : Kind) (kw : Kwargs) : List String :=
  match kind, Dict.get? kw "styles_path" with
  | .ooxml2cals, some (.str p) => [p]
  | .ooxml2formex, some (.str p) => [p]
  | _, _ => []

/-- the options of the conversions, with the value which stands for each one when it is not given (docstrings of the functions `convert_…`).  The option `cals_ns` of
`convert_cals2formex` is not in this table: it has two defaults (C97_cals_namespace). -/
def documented : Kind → List (String × OptVal)
  | .cals2formex => [("encoding", .str "utf-8"), ("width_unit", .str "mm"), ("detect_titles", .bool false), ("use_cals", .bool false), ("cals_prefix", .str "cals")]
  | .formex2cals => [("encoding", .str "utf-8"), ("formex_ns", .none), ("cals_ns", .none), ("embed_gr_notes", .bool false), ("cals_prefix", .none),
      ("width_unit", .str "mm"), ("table_in_tgroup", .bool false), ("tgroup_sorting", .list ["header", "footer", "body"])]
  | .ooxml2cals => [("encoding", .str "utf-8"), ("styles_path", .none), ("cals_ns", .none), ("cals_prefix", .none), ("width_unit", .str "mm"),
      ("table_in_tgroup", .bool false), ("tgroup_sorting", .list ["header", "footer", "body"])]
  | .ooxml2formex => [("encoding", .str "utf-8"), ("styles_path", .none), ("detect_titles", .bool false), ("use_cals", .bool false),
      ("cals_ns", .str "https://lib.benker.com/schemas/cals.xsd"), ("cals_prefix", .str "cals"), ("width_unit", .str "mm")]

/-- the names of the options of a conversion -/
def optionNames : Kind → List String
  | .cals2formex => "cals_ns" :: (documented .cals2formex).map (·.1)
  | kind => (documented kind).map (·.1)

/-- the options which are namespaces or prefixes -/
def namespaceNames : List String := ["cals_ns", "cals_prefix", "formex_ns"]

end Benker.FileSpec
