import Verif.Spec.Table
import Verif.Model.CalsParser
import Verif.Model.FormexParser
import Verif.Model.Ooxml

/-! Specification vocabulary: tables read from a document, and the order of their cells. -/

namespace Benker
open PyM

/-- the table is the result of a parser, on some document and with some options -/
inductive ParsedTable : Table Content → Prop
  /-- a CALS `table` -/
  | cals (cfg : CalsP.Config) (parent : Option Node) (n : Node) (s : PState) (t : Table Content) : n.tag? = some (cfg.q "table") →
      eval (CalsP.parseTable cfg parent n) s = .ok (some t) → ParsedTable t
  /-- a Formex `CORPUS` -/
  | formex (cfg : FmxP.Config) (blk : Nat) (parent : Option Node) (n : Node) (s : PState) (t : Table Content) : n.tag? = some (cfg.f "CORPUS") →
      eval (FmxP.parseTable cfg blk parent n) s = .ok (some t) → ParsedTable t
  /-- a Word `w:tbl` -/
  | word (cfg : Ooxml.Config) (sect : Option Node) (n : Node) (s : PState) (t : Table Content) : n.tag? = some (Ooxml.w "tbl") →
      eval (Ooxml.parseTable cfg sect n) s = .ok (some t) → ParsedTable t

/-- The rows, one after the other, list all the cells, once each, in reading order: row `i` lists the cells which start in it, from left to right. -/
structure InReadingOrder {γ : Type} (cells : List (Cell γ)) (rows : List (View γ)) : Prop where
  all : rows.flatMap (·.owned) = cells
  sorted : cells.Pairwise (fun a b => CornerBefore a.min b.min)
  line : ∀ i (h : i < rows.length), ∀ c ∈ rows[i].owned, c.min.y = (i : Int) + 1
  leftToRight : ∀ r ∈ rows, r.owned.Pairwise (fun a b => a.min.x < b.min.x)

end Benker
