import Verif.Spec.Twice
import Verif.Spec.EndToEnd
import Verif.Spec.ThereAndBack

/-! What is expected of two conversions of files, one after the other. -/

namespace Benker.FileSpec
open Files CalsSpec FmxSpec Kept Shown

/-- two calls, the second one of which converts what the first one has made: both succeed, the first source holds `doc`, the file between them holds `mid`, and the last one
holds `out` -/
def Chain (env : Env) (kind kind' : Kind) (kw kw' : Kwargs) (src between dst : String) (fs : FS) (doc mid out : Node) : Prop :=
  let first := convertFile env kind kw src between fs
  let second := convertFile env kind' kw' between dst (atEnd fs first)
  first.result = .ok () ∧ second.result = .ok () ∧ Holds env fs src doc ∧ Holds env (atEnd fs first) between mid ∧ Holds env (atEnd (atEnd fs first) second) dst out

/-- what becomes of a CALS table, through Formex, in CALS (see C100): `ns` and `cb` are the namespace of the source and the options of the destination;
the rows of notes are `apart` in the Formex document before its finalisation -/
def CalsThroughFormex (apart : Prop) (ns cals : Option String) (bc : Fmx.Config) (cb : Cals.Config) (T B : Node) : Prop :=
  B.tag? = some (FmxSpec.name "TBL") ∧
    (apart → ∀ (d : CalsDoc) (w h : Nat) (p : Picture), d.table = T → InCals ns d w h p → ForFormex cals bc w p →
      (bc.useCals = true → ∀ r ∈ d.rows, r.2.node.attr ⟨ns, "rowstyle"⟩ = none) → Without cb.ns calsNames p →
      ∃ r, HoldsCals cb.ns w h r B ∧ Regrouped cb.tgroupSorting (p.map Line.inFormex) r ∧ (Grouped cb.tgroupSorting (p.map Line.inFormex) → r = p.map Line.inFormex))

open OoxmlSpec in
/-- what becomes of a Word table, through Formex, in CALS (see C100), if the rows of notes are `apart` -/
def WordThroughFormex (apart : Prop) (pc : Ooxml.Config) (cals : Option String) (bc : Fmx.Config) (cb : Cals.Config) (sect : Option Node) (T B : Node) : Prop :=
  B.tag? = some (FmxSpec.name "TBL") ∧
    (apart → ∀ (styles : Node → Styles) (nature : Node → String) (W : Nat), GoodTable pc sect styles nature W T → kids ["tr"] T ≠ [] → ForFormex cals bc W (wordPicture T) →
      (∀ l ∈ wordPicture T, ∀ b ∈ l.cells, ∀ t a, Tok.opening t a ∈ b.2 → t ≠ OoxmlSpec.name "tbl") → Without cb.ns calsNames (wordPicture T) →
      ∃ r, HoldsCals cb.ns W (kids ["tr"] T).length r B ∧ SameLines Blank ((wordPicture T).map Line.inFormex) r)

open OoxmlSpec in
/-- what becomes of a Word table, through CALS, in Formex (see C100), if the rows of notes are `apart` -/
def WordThroughCals (apart : Prop) (pc : Ooxml.Config) (cb : Cals.Config) (bc : Fmx.Config) (sect : Option Node) (T F : Node) : Prop :=
  F.tag? = some (FmxSpec.name "TBL") ∧
    (apart → ∀ (cns : Option String) (styles : Node → Styles) (nature : Node → String) (W : Nat), GoodTable pc sect styles nature W T → kids ["tr"] T ≠ [] →
      OneKind (wordPicture T) → Grouped cb.tgroupSorting (wordPicture T) → Without cb.ns calsNames (wordPicture T) → ForFormex cns bc W (wordPicture T) →
      (∀ l ∈ wordPicture T, ∀ b ∈ l.cells, ∀ t a, Tok.opening t a ∈ b.2 → t ≠ OoxmlSpec.name "tbl") →
      InFormex cns (fun _ => False) W (kids ["tr"] T).length (wordPicture T) F)

/-- what becomes of a Formex table, through CALS, in Formex (see C100), if the rows of notes are `apart` -/
def FormexThroughCals (apart : Prop) (cals : Option String) (cb : Cals.Config) (bc : Fmx.Config) (T F : Node) : Prop :=
  F.tag? = some (FmxSpec.name "TBL") ∧
    (apart → ∀ (cns : Option String) (d : FmxDoc) (w h : Nat), T.children = d.notes.map (·.node) ++ [d.corpus] → FormexTable none cals 0 T d w h →
      OneKind (formexPicture none false d) → Grouped cb.tgroupSorting (formexPicture none false d) → Without cb.ns calsNames (formexPicture none false d) →
      ForFormex cns bc w (formexPicture none false d) → InFormex cns (fun _ => False) w h (formexPicture none false d) F)

/-- what is expected of a document converted to Formex so that it is left as it is when it is converted again -/
def Calm (cals : Option String) (out : Node) : Prop :=
  (∀ T ∈ topTables out, ∀ t a, Tok.opening t a ∈ toksList T.children → t ≠ name "TBL") ∧
  (∀ e ∈ preorder out, e.tag? = some (name "ROW") → e.attr (name "TYPE") = none) ∧
  ∀ e ∈ preorder out, e.tag? = some (name "CORPUS") → ∀ c ∈ e.children, c.attr ⟨cals, "rowstyle"⟩ = none

end Benker.FileSpec
