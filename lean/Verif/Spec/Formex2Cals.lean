import Verif.Model.Formex2Cals

/-! What a Formex document becomes when its tables are replaced by CALS tables, without loops or limits. -/

namespace Benker.Fmx2Cals

/-- a `GR.NOTES` which comes before a `CORPUS` among its siblings: the notes of a table -/
def TableNotes (c : FmxP.Config) (n : Node) (after : List Node) : Prop :=
  n.tag? = some ⟨c.ns, "GR.NOTES"⟩ ∧ ∃ m ∈ after, m.tag? = some ⟨c.ns, "CORPUS"⟩

mutual
/-- `Inside c blk n n'`: `n'` is `n` once the tables strictly inside are replaced; `blk` is the number of `BLK` elements around `n` -/
inductive Inside (c : Config) : Nat → Node → Node → Prop
  | elem (blk t a x cs cs' tl) : Siblings c (blk + if t = ⟨c.parser.ns, "BLK"⟩ then 1 else 0) (t, a) [] cs cs' →
      Inside c blk (.elem t a x cs tl) (.elem t a x cs' tl)
  | pi (blk t d tl) : Inside c blk (.pi t d tl) (.pi t d tl)
  | comment (blk d tl) : Inside c blk (.comment d tl) (.comment d tl)
/-- `Siblings c blk (t, a) notes ns ns'`: the children `ns` of an element named `t` whose attributes are `a` become `ns'`; `notes` are the notes, once
their own tables are replaced, which are waiting for the next table -/
inductive Siblings (c : Config) : Nat → QName × Dict QName String → List Node → List Node → List Node → Prop
  | nil (blk p notes) : Siblings c blk p notes [] []
  /-- a `CORPUS` gives what the converter makes of it and of the notes, followed by the text which followed the `CORPUS` -/
  | corpus (blk p notes n e n' ns ns') : n.tag? = some ⟨c.parser.ns, "CORPUS"⟩ →
      convert c blk (some (.elem p.1 p.2 none (notes ++ [n]) none)) n = .ok e → Inside c blk (e.setTail n.tail) n' →
      Siblings c blk p [] ns ns' → Siblings c blk p notes (n :: ns) (n' :: ns')
  /-- the notes of a table are removed -/
  | notes (blk p notes n n' ns ns') : TableNotes c.parser n ns → Inside c blk n n' →
      Siblings c blk p (notes ++ [n']) ns ns' → Siblings c blk p notes (n :: ns) ns'
  /-- all other nodes keep their places -/
  | other (blk p notes n n' ns ns') : n.tag? ≠ some ⟨c.parser.ns, "CORPUS"⟩ → ¬ TableNotes c.parser n ns → Inside c blk n n' →
      Siblings c blk p notes ns ns' → Siblings c blk p notes (n :: ns) (n' :: ns')
end

mutual
/-- no element of this name in the tree -/
def free (t : QName) : Node → Prop
  | .elem t' _ _ cs _ => t' ≠ t ∧ freeList t cs
  | _ => True
def freeList (t : QName) : List Node → Prop
  | [] => True
  | n :: ns => free t n ∧ freeList t ns
end

mutual
/-- `Kept c n n'`: `n'` is `n` where the notes of the tables are removed, with the text which follows them, and where each `CORPUS` is replaced by a CALS
table followed by the same text; everything else is the same -/
inductive Kept (c : Config) : Node → Node → Prop
  | table (n n') : n.tag? = some ⟨c.parser.ns, "CORPUS"⟩ → n'.tag? = some ⟨c.builder.ns, "table"⟩ → n'.tail = n.tail → Kept c n n'
  | elem (t a x cs cs' tl) : t ≠ ⟨c.parser.ns, "CORPUS"⟩ → KeptList c cs cs' → Kept c (.elem t a x cs tl) (.elem t a x cs' tl)
  | pi (t d tl) : Kept c (.pi t d tl) (.pi t d tl)
  | comment (d tl) : Kept c (.comment d tl) (.comment d tl)
inductive KeptList (c : Config) : List Node → List Node → Prop
  | nil : KeptList c [] []
  | notes (n ns ns') : TableNotes c.parser n ns → KeptList c ns ns' → KeptList c (n :: ns) ns'
  | cons (n n' ns ns') : ¬ TableNotes c.parser n ns → Kept c n n' → KeptList c ns ns' → KeptList c (n :: ns) (n' :: ns')
end

end Benker.Fmx2Cals
