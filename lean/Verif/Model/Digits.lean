import Verif.Model.Regex

/-! The decimal digits and the spaces of Unicode, as `int` and `\d` know them: the table `Nd` of the Unicode database, version 14.0 (Python 3.11).
The other versions of Python have other versions of this table, which differ by the digits of a few scripts. -/

namespace Benker.Unicode

/-- the code points of the digits zero; each of them is followed by the nine other digits of its script (for the patterns of parsers/cals/__init__.py
409-410) -/
def zeros : List Nat :=
  [48, 1632, 1776, 1984, 2406, 2534, 2662, 2790, 2918, 3046, 3174, 3302, 3430, 3558, 3664, 3792, 3872, 4160, 4240, 6112, 6160, 6470, 6608, 6784, 6800, 6992,
   7088, 7232, 7248, 42528, 43216, 43264, 43472, 43504, 43600, 44016, 65296, 66720, 68912, 69734, 69872, 69942, 70096, 70384, 70736, 70864, 71248, 71360,
   71472, 71904, 72016, 72784, 73040, 73120, 92768, 92864, 93008, 120782, 120792, 120802, 120812, 120822, 123200, 123632, 125264, 130032]

/-- `unicodedata.decimal(c)`: the value of a digit of any script (for the patterns of parsers/cals/__init__.py 409-410) -/
def decimal (c : Char) : Option Nat := (zeros.find? (fun z => z ≤ c.toNat && c.toNat < z + 10)).map (c.toNat - ·)

/-- `\d` (parsers/cals/__init__.py 409-410, parsers/formex.py 573-574, builders/formex.py 78) -/
def isDigit (c : Char) : Bool := (decimal c).isSome

/-- the characters which `int` ignores around a number (parsers/cals/__init__.py 415): code points -/
def spaces : List Nat :=
  [9, 10, 11, 12, 13, 32, 133, 160, 5760, 8192, 8193, 8194, 8195, 8196, 8197, 8198, 8199, 8200, 8201, 8202, 8232, 8233, 8239, 8287, 12288]

/-- is it a space for `int`? (parsers/cals/__init__.py 415).  Simplified: U+001C to U+001F, which XML forbids, are spaces for `int` in some texts. -/
def isSpace (c : Char) : Bool := spaces.contains c.toNat

/-- the value of some digits, most significant first (`int(text)`, parsers/cals/__init__.py 409-415) -/
def value (ds : List Char) : Nat := ds.foldl (fun v c => 10 * v + (decimal c).getD 0) 0

/-- digits, two of which may be separated by an underscore (`int(text)`, parsers/cals/__init__.py 409-415) -/
def grouped : List Char → Bool
  | [] => false
  | [c] => isDigit c
  | c :: '_' :: r => isDigit c && grouped r
  | c :: r => isDigit c && grouped r

/-- the text without the spaces around it (`int(text)`, parsers/cals/__init__.py 409-415) -/
def strip (l : List Char) : List Char := ((l.dropWhile isSpace).reverse.dropWhile isSpace).reverse

end Benker.Unicode
