import Verif.Spec.Ooxml

/-! Specification of C111: the Word tables whose rows may have fewer columns than the table. -/

namespace Benker.OoxmlSpec

open Ooxml in
/-- a row which can be read, and may have fewer than `W` columns -/
structure ShortRow (cfg : Config) (styles : Node → Styles) (nature : Node → String) (W : Nat) (tr : Node) : Prop where
  cells : ∀ c ∈ tr.children, quiet c = true ∨ (c.tag? = some (name "tc") ∧ GoodCell cfg styles c)
  fits : total (kids ["tc"] tr) ≤ W
  nature : rowNature tr = .ok (nature tr)
  height : ∃ h, rowHeight cfg tr = .ok h

open Ooxml in
/-- a table of `W` columns which can be read: the description of the columns, then the rows, which may have fewer columns; the number of columns is that of the
description, or that of the first row -/
structure ShortTable (cfg : Config) (sect : Option Node) (styles : Node → Styles) (nature : Node → String) (W : Nat) (tbl : Node) : Prop where
  tag : tbl.tag? = some (name "tbl")
  style : ∃ st, tblStyles cfg sect tbl = .ok st
  wide : 1 ≤ W
  columns : ((kids ["tblGrid"] tbl).flatMap (kids ["gridCol"])).length ≤ W
  known : ∀ tr, (kids ["tr"] tbl).head? = some tr → total (kids ["tc"] tr) = W ∨ ((kids ["tblGrid"] tbl).flatMap (kids ["gridCol"])).length = W
  children : ∃ head rows, tbl.children = head ++ rows ∧
    (∀ c ∈ head, quiet c = true ∨ (c.tag? = some (name "tblGrid") ∧ GoodGrid cfg c)) ∧
    (∀ c ∈ rows, quiet c = true ∨ (c.tag? = some (name "tr") ∧ ShortRow cfg styles nature W c))
  supported : Supported ((kids ["tr"] tbl).map (kids ["tc"]))

/-- the cells which the table should have, in reading order: those of `wanted` and, at the end of each row, empty cells of one column and one row, of the nature of the row, up to the
column `W`.  `r` is the number of the first row. -/
def completed (W : Nat) (content : Node → Option Content) (styles : Node → Styles) : Int → List (String × List Node) → List (Cell Content)
  | _, [] => []
  | r, (nature, tcs) :: rows =>
    ((place 0 tcs).filter (fun s => !continues s.2)).map (fun s =>
      ⟨content s.2, styles s.2, some nature, ⟨⟨s.1, r⟩, ⟨s.1 + span s.2 - 1, r + run s.1 (rows.map (·.2))⟩⟩⟩) ++
    (List.range (W - (total tcs).toNat)).map (fun (k : Nat) => ⟨none, [], some nature, ⟨⟨total tcs + k + 1, r⟩, ⟨total tcs + k + 1, r⟩⟩⟩) ++
    completed W content styles (r + 1) rows

end Benker.OoxmlSpec
