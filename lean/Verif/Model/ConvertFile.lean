import Verif.Model.Formex2Cals

/-! Model of the conversion of files: `convert_file` (`/repo/benker/converters/base_converter.py` 20-40), `parse_file`
(`/repo/benker/parsers/base_parser.py` 62-82), the constructors of the parsers and of the builders with their keyword options, and
`convert_cals2formex`, `convert_formex2cals`, `convert_ooxml2cals` and `convert_ooxml2formex` (`/repo/benker/converters/`).

Simplifications:
* the XML library is given by two arbitrary functions, one which reads bytes and one which writes them, in any number of chunks;
* a document is its root element: the declarations, comments and processing instructions around it are not in the model;
* the options have the types of the documentation; a value of another type is a `TypeError` as soon as it is given;
* a failure while the destination is written (a full disk, for instance) is an interruption: the last state is one of those of the run;
* prefixes are checked, but not kept: names are qualified names. -/

namespace Benker.Files
open PyM

/-- the content of a file -/
abbrev Bytes := List UInt8

/-- the files: what is at each path -/
abbrev FS := String → Option Bytes

/-- the XML library, the numbers, and the limits of the machine -/
structure Env where
  /-- `etree.parse` (parsers/base_parser.py 79) -/
  read : Bytes → Except PyErr Node
  /-- `tree.write(…, encoding=…)` (parsers/base_parser.py 82): the chunks which are written -/
  write : String → Node → Except PyErr (List Bytes)
  fl : Rat → Rat
  float : String → Except PyErr Rat
  repr : Rat → String
  /-- recursion limit of Python (see `Ooxml.styleBorders`) -/
  recursion : Nat
  /-- bound of the visit of the documents (see `Convert.inside`) -/
  depth : Nat

/-- value of a keyword option -/
inductive OptVal where
  | none
  | bool (b : Bool)
  | str (s : String)
  | list (l : List String)
deriving DecidableEq, Repr

/-- the keyword options of a call -/
abbrev Kwargs := Dict String OptVal

/-- the value of a keyword parameter, which is `default` when the option is not given (for instance builders/cals.py 83-85) -/
def opt (kw : Kwargs) (name : String) (default : OptVal) : OptVal := (Dict.get? kw name).getD default

/-- truth value of an option (for instance `if self.use_cals`, builders/formex.py 156) -/
def OptVal.truth : OptVal → Bool
  | .none => false
  | .bool b => b
  | .str s => s ≠ ""
  | .list l => !l.isEmpty

/-- `ns or None` (builders/cals.py 139-140, builders/formex.py 148-149); `QName("", name)` has no namespace either
(parsers/cals/__init__.py 106, parsers/formex.py 88-92) -/
def OptVal.textOrNone : OptVal → Except PyErr (Option String)
  | .none => .ok Option.none
  | .str s => .ok (if s = "" then Option.none else some s)
  | _ => .error .typeError

/-- a unit (builders/cals.py 128, builders/formex.py 150, parsers/cals/__init__.py 102) -/
def OptVal.text : OptVal → Except PyErr String
  | .str s => .ok s
  | _ => .error .typeError

/-- a list of natures (builders/cals.py 131) -/
def OptVal.names : OptVal → Except PyErr (Option (List String))
  | .none => .ok Option.none
  | .list l => .ok (some l)
  | _ => .error .typeError

/-- `_register_namespace(prefix, ns)` on an empty map (builders/cals.py 126-127, 138-151) -/
def registerNamespace (prefix_ ns : Option String) : Except PyErr (Option String) :=
  if prefix_ ≠ none ∧ ns = none then .error .valueError else .ok ns

/-- `CalsBuilder(**options)` (builders/cals.py 83-136) -/
def calsBuilder (env : Env) (kw : Kwargs) : Except PyErr Cals.Config := do
  let ns ← (opt kw "cals_ns" .none).textOrNone
  let prefix_ ← (opt kw "cals_prefix" .none).textOrNone
  let unit ← (opt kw "width_unit" (.str "mm")).text
  let sorting ← (opt kw "tgroup_sorting" .none).names
  let ns ← registerNamespace prefix_ ns
  Cals.Config.new ns unit.toList (opt kw "table_in_tgroup" (.bool false)).truth sorting env.fl

/-- `CALS_NS` (schemas/__init__.py 10) -/
def calsNs : String := "https://lib.benker.com/schemas/cals.xsd"

/-- `FormexBuilder(**options)` (builders/formex.py 98-152) -/
def formexBuilder (env : Env) (kw : Kwargs) : Except PyErr Fmx.Config := do
  let ns ← (opt kw "cals_ns" (.str calsNs)).textOrNone
  let _ ← (opt kw "cals_prefix" (.str "cals")).textOrNone
  let unit ← (opt kw "width_unit" (.str "mm")).text
  pure ⟨(opt kw "detect_titles" (.bool false)).truth, (opt kw "use_cals" (.bool false)).truth, ns, unit.toList, env.fl⟩

/-- `CalsParser(builder, **options)` (parsers/cals/__init__.py 78-103) -/
def calsParser (env : Env) (kw : Kwargs) : Except PyErr CalsP.Config := do
  let ns ← (opt kw "cals_ns" .none).textOrNone
  let unit ← (opt kw "width_unit" (.str "mm")).text
  pure ⟨ns, unit.toList, env.fl⟩

/-- `FormexParser(builder, **options)` (parsers/formex.py 60-86) -/
def formexParser (kw : Kwargs) : Except PyErr FmxP.Config := do
  let ns ← (opt kw "formex_ns" .none).textOrNone
  let cals ← (opt kw "cals_ns" .none).textOrNone
  pure ⟨ns, cals, (opt kw "embed_gr_notes" (.bool false)).truth⟩

/-- the stylesheet of `OoxmlParser(builder, **options)` (parsers/ooxml/__init__.py 773-792) -/
def stylesPath (kw : Kwargs) : Except PyErr (Option String) := (opt kw "styles_path" .none).textOrNone

/-- `encoding` of `BaseParser` (parsers/base_parser.py 42-60) -/
def encoding (kw : Kwargs) : Except PyErr String := (opt kw "encoding" (.str "utf-8")).text

/-- `etree.parse(path)` (parsers/base_parser.py 79, parsers/ooxml/__init__.py 795) -/
def readFile (env : Env) (fs : FS) (path : String) : Except PyErr Node :=
  match fs path with
  | none => .error .osError
  | some b => env.read b

mutual
/-- first `w:styles` strictly inside a node, in document order: `value_of(tree, ".//w:styles")` (parsers/ooxml/__init__.py 796) -/
def firstStyles : Node → Option Node
  | .elem _ _ _ cs _ => firstStylesList cs
  | _ => none
/-- the same among siblings (parsers/ooxml/__init__.py 796) -/
def firstStylesList : List Node → Option Node
  | [] => none
  | n :: ns => if n.tag? = some (Ooxml.w "styles") then some n else (firstStyles n).or (firstStylesList ns)
end

/-- `self._w_styles = …` (parsers/ooxml/__init__.py 795-796): the stylesheet of the option, else the one which is in the document -/
def wordStyles (env : Env) (fs : FS) (path : Option String) (doc : Node) : Except PyErr (Option Node) :=
  match path with
  | some p => (readFile env fs p).map some
  | none => .ok (firstStyles doc)

/-- the converters (converters/{cals2formex,formex2cals,ooxml2cals,ooxml2formex}.py) -/
inductive Kind where
  | cals2formex
  | formex2cals
  | ooxml2cals
  | ooxml2formex
deriving DecidableEq, Repr

/-- what is left to do once the parser and the builder have been constructed (converters/base_converter.py 38-39): read the source, convert its tables, finalise it
(parsers/base_parser.py 79-81).  Only the files are read. -/
def prepare (env : Env) (kw : Kwargs) (src : String) : Kind → Except PyErr (FS → Except PyErr Node)
  | .cals2formex => do
    let bc ← formexBuilder env kw
    let pc ← calsParser env kw
    pure (fun fs => do
      let doc ← readFile env fs src
      let doc ← Convert.transformTables (Convert.cals2formex pc bc) env.depth doc
      Fmx.finalize bc doc)
  | .formex2cals => do
    let bc ← calsBuilder env kw
    let pc ← formexParser kw
    pure (fun fs => do
      let doc ← readFile env fs src
      Fmx2Cals.transformTables ⟨pc, bc⟩ env.depth doc)
  | .ooxml2cals => do
    let bc ← calsBuilder env kw
    let path ← stylesPath kw
    pure (fun fs => do
      let doc ← readFile env fs src
      let styles ← wordStyles env fs path doc
      Convert.transformTables (Convert.ooxml2cals ⟨env.float, env.fl, env.repr, env.recursion, styles⟩ bc) env.depth doc)
  | .ooxml2formex => do
    let bc ← formexBuilder env kw
    let path ← stylesPath kw
    pure (fun fs => do
      let doc ← readFile env fs src
      let styles ← wordStyles env fs path doc
      let doc ← Convert.transformTables (Convert.ooxml2formex ⟨env.float, env.fl, env.repr, env.recursion, styles⟩ bc) env.depth doc
      Fmx.finalize bc doc)

/-- what is written when the conversion succeeds: the chunks given by `tree.write` (parsers/base_parser.py 79-82) -/
def output (env : Env) (kind : Kind) (kw : Kwargs) (src : String) (fs : FS) : Except PyErr (List Bytes) := do
  let job ← prepare env kw src kind
  let enc ← encoding kw
  let doc ← job fs
  env.write enc doc

/-- the content of the file `path` becomes `b` -/
def put (fs : FS) (path : String) (b : Bytes) : FS := fun p => if p = path then some b else fs p

/-- the states of the files while chunks are appended to the file `path`, which holds `done` (parsers/base_parser.py 82) -/
def appends (fs : FS) (path : String) : Bytes → List Bytes → List FS
  | _, [] => []
  | done, c :: cs => put fs path (done ++ c) :: appends fs path (done ++ c) cs

/-- what happens during a call: its result, and the states of the files, one after the other, after the initial one -/
structure Run where
  result : Except PyErr Unit
  states : List FS

/-- `convert_xxx2yyy(src_xml, dst_xml, **options)`, that is to say `convert_file` (converters/base_converter.py 20-40) and `parse_file` (parsers/base_parser.py 62-82):
the destination is opened, which empties it, then written, once everything else is done -/
def convertFile (env : Env) (kind : Kind) (kw : Kwargs) (src dst : String) (fs : FS) : Run :=
  match output env kind kw src fs with
  | .error e => ⟨.error e, []⟩
  | .ok chunks => ⟨.ok (), put fs dst [] :: appends fs dst [] chunks⟩

end Benker.Files
