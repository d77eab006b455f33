import Verif.Spec.Table
import Verif.Model.Xml

/-! Specification of what printing a row or a column shows. -/

namespace Benker

/-- the text of a cell -/
def printed (c : Cell Content) : List Char := match c.content with
  | none => []
  | some k => k.str.toList

/-- the texts between square brackets, with a comma and a space between two of them -/
def bracketed (texts : List (List Char)) : List Char := ['['] ++ [',', ' '].intercalate texts ++ [']']

end Benker
