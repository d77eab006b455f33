/-! Backtracking semantics of the fragment of Python's `re` used by benker: a pattern maps a text to the list of the matches which
start at its beginning, in the order in which the backtracking engine tries them; a match is (matched text, rest of the text). -/

namespace Benker

/-- a pattern (`re`, as used by units.py 75, builders/formex.py 74-82 and parsers/cals/__init__.py 409-410) -/
abbrev Re := List Char → List (List Char × List Char)

namespace Re

/-- one character of a class: `[...]` (for the patterns of units.py 75 and formex.py 573) -/
def cls (p : Char → Bool) : Re
  | [] => []
  | c :: r => if p c then [([c], r)] else []

/-- a literal text (for the patterns of units.py 75 and formex.py 573) -/
def lit (w : List Char) : Re := fun s => if w.isPrefixOf s then [(w, s.drop w.length)] else []

/-- `[...]*` (greedy: longest first) (for the patterns of units.py 75 and formex.py 573) -/
def star (p : Char → Bool) : Re
  | [] => [([], [])]
  | c :: r => if p c then (star p r).map (fun m => (c :: m.1, m.2)) ++ [([], c :: r)] else [([], c :: r)]

/-- `a b` (for the patterns of units.py 75 and formex.py 573) -/
def seq (a b : Re) : Re := fun s => (a s).flatMap (fun m => (b m.2).map (fun n => (m.1 ++ n.1, n.2)))

/-- `[...]+` (greedy) (for the patterns of units.py 75 and formex.py 573) -/
def plus (p : Char → Bool) : Re := seq (cls p) (star p)

/-- `(?:a)?` (greedy) (for the patterns of units.py 75 and formex.py 573) -/
def opt (a : Re) : Re := fun s => a s ++ [([], s)]

/-- `a|b|...` (for the patterns of units.py 75 and formex.py 573) -/
def alts (l : List Re) : Re := fun s => l.flatMap (fun a => a s)

/-- the leftmost result of `f` on the suffixes of a text (for the patterns of units.py 75 and formex.py 573) -/
def search (f : List Char → List α) : List Char → Option α
  | [] => (f []).head?
  | c :: r =>
    match f (c :: r) with
    | g :: _ => some g
    | [] => search f r

/-- `re.findall(r"(a)(b)?", s)[0]`: the groups of the leftmost match (the second group is `""` when it does not take part in the match);
`none` when `findall` returns an empty list (for the patterns of units.py 75 and formex.py 573) -/
def find2 (a b : Re) : List Char → Option (List Char × List Char) :=
  search (fun s => (a s).flatMap (fun m => (opt b m.2).map (fun n => (m.1, n.1))))

/-- `re.findall(a, s)[0]` for a pattern without group (for the patterns of units.py 75 and formex.py 573) -/
def find1 (a : Re) : List Char → Option (List Char) := search (fun s => (a s).map (·.1))

end Re
end Benker
