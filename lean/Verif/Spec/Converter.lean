import Verif.Model.Converter

/-! What a document becomes when its tables are replaced, without indices, loops or limits. -/

namespace Benker.Convert

mutual
/-- `Replaced c following n n'`: `n'` is `n` once its tables are replaced, itself included -/
inductive Replaced (c : Conv) : List Node → Node → Node → Prop
  /-- a table gives what the converter makes of it, followed by the text which followed the table -/
  | table (following n e n') : c.selects n = true → c.convert following n = .ok e →
      ReplacedInside c following (e.setTail n.tail) n' → Replaced c following n n'
  | other (following n n') : c.selects n = false → ReplacedInside c following n n' → Replaced c following n n'
/-- `n'` is `n` once the tables strictly inside are replaced -/
inductive ReplacedInside (c : Conv) : List Node → Node → Node → Prop
  | elem (following t a x cs cs' tl) : ReplacedList c following cs cs' →
      ReplacedInside c following (.elem t a x cs tl) (.elem t a x cs' tl)
  | pi (following t d tl) : ReplacedInside c following (.pi t d tl) (.pi t d tl)
  | comment (following d tl) : ReplacedInside c following (.comment d tl) (.comment d tl)
/-- siblings are replaced one for one -/
inductive ReplacedList (c : Conv) : List Node → List Node → List Node → Prop
  | nil (following) : ReplacedList c following [] []
  | cons (following n n' ns ns') : Replaced c (ns ++ following) n n' → ReplacedList c following ns ns' →
      ReplacedList c following (n :: ns) (n' :: ns')
end

mutual
/-- no table in the tree -/
def tableFree (c : Conv) : Node → Bool
  | .elem t _ _ cs _ => !c.isTable t && tableFreeList c cs
  | _ => true
def tableFreeList (c : Conv) : List Node → Bool
  | [] => true
  | n :: ns => tableFree c n && tableFreeList c ns
end

/-- the node reached from `n` by following the numbers of the children -/
def descend : List Nat → Node → Option Node
  | [], n => some n
  | i :: path, n =>
    match n.children[i]? with
    | some m => descend path m
    | none => none

/-- none of the nodes met on the way, both ends included, is a table -/
def outside (c : Conv) : List Nat → Node → Bool
  | [], n => !c.selects n
  | i :: path, n => !c.selects n &&
    match n.children[i]? with
    | some m => outside c path m
    | none => true

end Benker.Convert
