import Verif.Model.Digits

/-! Texts which are numbers.  `Unicode.decimal` is the table of the decimal digits of Unicode, `Unicode.isSpace` that of the spaces. -/

namespace Benker.CalsSpec

/-- a decimal digit, of any script -/
def IsDigit (c : Char) : Prop := ∃ d, Unicode.decimal c = some d

/-- the number written with digits -/
def decimal (ds : List Char) : Nat := ds.foldl (fun v c => 10 * v + (Unicode.decimal c).getD 0) 0

/-- a text made of the digits `ds`, with at most one underscore between two of them -/
inductive Digits : List Char → List Char → Prop
  | one (c : Char) (h : IsDigit c) : Digits [c] [c]
  | more (c : Char) (text ds : List Char) (h : IsDigit c) (hs : Digits text ds) : Digits (c :: text) (c :: ds)
  | under (c : Char) (text ds : List Char) (h : IsDigit c) (hs : Digits text ds) : Digits (c :: '_' :: text) (c :: ds)

/-- a text which is an integer: a sign if any and digits, with spaces around -/
def IsInteger (s : String) (n : Int) : Prop :=
  ∃ pre sign text ds post, s.toList = pre ++ (sign ++ text) ++ post ∧ (∀ c ∈ pre ++ post, Unicode.isSpace c = true) ∧ Digits text ds ∧
    ((sign = [] ∨ sign = ['+']) ∧ n = decimal ds ∨ sign = ['-'] ∧ n = - (decimal ds : Int))

/-- a text which is the number `n` -/
def IsNumber (s : String) (n : Nat) : Prop := IsInteger s n

/-- the first number written in a text -/
def FirstNumber (s : String) (n : Nat) : Prop :=
  ∃ pre ds post, s.toList = pre ++ ds ++ post ∧ (∀ c ∈ pre, ¬ IsDigit c) ∧ ds ≠ [] ∧ (∀ c ∈ ds, IsDigit c) ∧
    (∀ c ∈ post.head?, ¬ IsDigit c) ∧ decimal ds = n

end Benker.CalsSpec
