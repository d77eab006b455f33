import Verif.Spec.FormexAttrs
import Verif.Spec.FormexFinalised

/-! Documents which are converted again. -/

namespace Benker.FmxSpec

/-- the tables are numbered according to their places: the ones which are in no table are numbered from `0001`, and the ones which are directly in a table
have its number followed by their rank in it -/
structure Numbered (n : Node) : Prop where
  top : ∀ (i : Nat) (T : Node), (topTables n)[i]? = some T → T.attr (name "NO.SEQ") = some (fourDigits (i + 1))
  inner : ∀ T ∈ allTables n, ∃ s, T.attr (name "NO.SEQ") = some s ∧
    ∀ (i : Nat) (U : Node), (topTablesList T.children)[i]? = some U → U.attr (name "NO.SEQ") = some (s ++ "." ++ fourDigits (i + 1))

/-- what a finalisation may still change in a document: the types of rows, the rows which have a CALS style, the tables in tables -/
structure Settled (cals : Option String) (n : Node) : Prop where
  /-- the numbers of the tables are the ones of their places -/
  numbered : Numbered n
  /-- no table is the child of a table -/
  apart : ∀ T ∈ allTables n, ∀ c ∈ T.children, c.tag? ≠ some (name "TBL")
  /-- rows have no type -/
  untyped : ∀ e ∈ preorder n, e.tag? = some (name "ROW") → e.attr (name "TYPE") = none
  /-- what is in a `CORPUS` has no CALS style -/
  unstyled : ∀ e ∈ preorder n, e.tag? = some (name "CORPUS") → ∀ c ∈ e.children, c.attr ⟨cals, "rowstyle"⟩ = none

end Benker.FmxSpec
