import Verif.Py

/-! Model of `/repo/benker/alphabet.py`.  An alphabet (a Python string) is a list of letters; the letters
are an arbitrary type `α`, `Char` for the default alphabet. -/

namespace Benker

/-- default value of the parameter `alphabet`: `string.ascii_uppercase` (alphabet.py 9-12, 15, 63) -/
def asciiUppercase : List Char := "ABCDEFGHIJKLMNOPQRSTUVWXYZ".toList

/-- the loop `while q: q, r = divmod(q - 1, size); letters.insert(0, alphabet[r])`
(alphabet.py 57-59), with `size = len(alphabet)`.  `q` is never negative, hence `Nat`. -/
def intToAlphabetLoop (alphabet : List α) (q : Nat) (letters : List α) : Except PyErr (List α) :=
  if _h : q = 0 then .ok letters
  else
    match pyGetNat alphabet ((q - 1) % alphabet.length) with
    | .error e => .error e
    | .ok a => intToAlphabetLoop alphabet ((q - 1) / alphabet.length) (a :: letters)
termination_by q
decreasing_by exact Nat.lt_of_le_of_lt (Nat.div_le_self _ _) (by omega)

/-- `int_to_alphabet(value, alphabet)` (alphabet.py 15-60) -/
def intToAlphabet (value : Int) (alphabet : List α) : Except PyErr (List α) :=
  if value = 0 then .ok []
  else if value < 0 then .error .valueError
  else if alphabet.length = 0 then .error .zeroDivisionError
  else
    let v := (value - 1).toNat
    match pyGetNat alphabet (v % alphabet.length) with
    | .error e => .error e
    | .ok a => intToAlphabetLoop alphabet (v / alphabet.length) [a]

/-- the loop of `alphabet_to_int` (alphabet.py 95-98), started from `value`;
`alphabet.index(letter)` raises `ValueError` for an unknown letter -/
def alphabetToIntFrom [DecidableEq α] (alphabet : List α) (value : Nat) : List α → Except PyErr Nat
  | [] => .ok value
  | letter :: rest =>
    match alphabet.findIdx? (· = letter) with
    | none => .error .valueError
    | some i => alphabetToIntFrom alphabet (value * alphabet.length + (i + 1)) rest

/-- `alphabet_to_int(letters, alphabet)` (alphabet.py 63-100) -/
def alphabetToInt [DecidableEq α] (letters alphabet : List α) : Except PyErr Nat :=
  alphabetToIntFrom alphabet 0 letters

end Benker
