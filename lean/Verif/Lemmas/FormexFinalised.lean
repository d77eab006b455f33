import Verif.Spec.FormexFinalised
import Verif.Props.FormexNumbers
import Verif.Props.FormexBlocks
import Verif.Props.FormexAttrs
import Verif.Props.ToFormex

/-! The steps of the finalisation of a Formex document, table by table. -/

namespace Benker
open FmxSpec Fmx CalsSpec

/-! ### the tables of a document -/

mutual
theorem num_tables (pre : List Nat) (k : Nat) (n : Node) :
    All₂ (fun T T' => ∃ pre k, T' = (num pre k T).1) (topTables n) (topTables (num pre k n).1) := by
  cases n with
  | elem t a x cs tl =>
    by_cases ht : t = name "TBL"
    · have e : topTables (num pre k (.elem t a x cs tl)).1 = [(num pre k (.elem t a x cs tl)).1] := by
        unfold num
        simp only [topTables, if_pos ht]
      rw [e]
      simp only [topTables, if_pos ht]
      exact .cons ⟨pre, k, rfl⟩ .nil
    · have e : topTables (num pre k (.elem t a x cs tl)).1 = topTablesList (numList pre k cs).1 := by
        unfold num
        simp only [topTables, if_neg ht]
      rw [e]
      simp only [topTables, if_neg ht]
      exact numList_tables pre k cs
  | pi => exact .nil
  | comment => exact .nil
theorem numList_tables (pre : List Nat) (k : Nat) (ns : List Node) :
    All₂ (fun T T' => ∃ pre k, T' = (num pre k T).1) (topTablesList ns) (topTablesList (numList pre k ns).1) := by
  cases ns with
  | nil => exact .nil
  | cons n ns =>
    unfold numList
    simp only [topTablesList]
    exact (num_tables pre k n).append (numList_tables pre _ ns)
end

mutual
theorem num_apart (pre : List Nat) (k : Nat) (n : Node) (h : TablesApart n) : TablesApart (num pre k n).1 := by
  cases n with
  | elem t a x cs tl =>
    unfold num
    by_cases ht : t = name "TBL"
    · rw [if_pos ht]; exact .inl ht
    · rw [if_neg ht]
      rcases h with h | ⟨h1, h2, h3⟩
      · exact absurd h ht
      · exact .inr ⟨h1, h2, numList_apart pre k cs h3⟩
  | pi => exact trivial
  | comment => exact trivial
theorem numList_apart (pre : List Nat) (k : Nat) (ns : List Node) (h : TablesApartList ns) : TablesApartList (numList pre k ns).1 := by
  cases ns with
  | nil => exact trivial
  | cons n ns =>
    unfold numList
    exact ⟨num_apart pre k n h.1, numList_apart pre _ ns h.2⟩
end

mutual
theorem cleanup_tables (n : Node) : topTables (cleanupNode n) = (topTables n).map cleanupNode := by
  cases n with
  | elem t a x cs tl =>
    unfold cleanupNode
    by_cases ht : t = name "TBL"
    · have ht' : t = f "TBL" := ht
      simp only [topTables, if_pos ht, if_pos ht', List.map_cons, List.map_nil, cleanupNode]
    · have ht' : t ≠ f "TBL" := ht
      simp only [topTables, if_neg ht, if_neg ht']
      exact cleanupList_tables cs
  | pi => rfl
  | comment => rfl
theorem cleanupList_tables (ns : List Node) : topTablesList (cleanupList ns) = (topTablesList ns).map cleanupNode := by
  cases ns with
  | nil => rfl
  | cons n ns =>
    unfold cleanupList
    simp only [topTablesList, List.map_append, cleanup_tables n, cleanupList_tables ns]
end

mutual
theorem cleanup_apart (n : Node) (h : TablesApart n) : TablesApart (cleanupNode n) := by
  cases n with
  | elem t a x cs tl =>
    unfold cleanupNode
    rcases h with h | ⟨h1, h2, h3⟩
    · exact .inl h
    · by_cases ht : t = name "TBL"
      · exact .inl ht
      · have ht' : t ≠ f "TBL" := ht
        rw [if_neg ht']
        exact .inr ⟨h1, h2, cleanupList_apart cs h3⟩
  | pi => exact trivial
  | comment => exact trivial
theorem cleanupList_apart (ns : List Node) (h : TablesApartList ns) : TablesApartList (cleanupList ns) := by
  cases ns with
  | nil => exact trivial
  | cons n ns => exact ⟨cleanup_apart n h.1, cleanupList_apart ns h.2⟩
end

theorem apart_append {l m : List Node} (h : TablesApartList l) (h' : TablesApartList m) : TablesApartList (l ++ m) := by
  induction l with
  | nil => exact h'
  | cons n l ih => exact ⟨h.1, ih h.2⟩

theorem topTablesList_append (l m : List Node) : topTablesList (l ++ m) = topTablesList l ++ topTablesList m := by
  induction l with
  | nil => rfl
  | cons n l ih => simp only [List.cons_append, topTablesList, ih, List.append_assoc]

/-- a table gives a table and no note -/
theorem extract_table {a : Dict QName String} {x : Option String} {cs : List Node} {tl : Option String} {l : List Node} {ks : List Note}
    (h : extractNode (.elem (name "TBL") a x cs tl) = .ok (l, ks)) : ks = [] ∧ ∃ x' cs', l = [.elem (name "TBL") a x' cs' tl] := by
  unfold extractNode at h
  obtain ⟨⟨cs', notes⟩, _, h⟩ := bind_ok h
  simp only at h
  rw [if_pos (show name "TBL" = f "TBL" from rfl)] at h
  split at h
  · cases h; exact ⟨rfl, _, _, rfl⟩
  · split at h
    · cases h; exact ⟨rfl, _, _, rfl⟩
    · cases h

mutual
/-- out of the tables, nothing changes -/
theorem extract_tables (n : Node) (hn : TablesApart n) (l : List Node) (ks : List Note) (h : extractNode n = .ok (l, ks)) :
    ks = [] ∧ ∃ n', l = [n'] ∧ TablesApart n' ∧ All₂ (fun T T' => extractNode T = .ok ([T'], [])) (topTables n) (topTables n') := by
  cases n with
  | elem t a x cs tl =>
    by_cases ht : t = name "TBL"
    · subst ht
      obtain ⟨rfl, x', cs', rfl⟩ := extract_table h
      refine ⟨rfl, _, rfl, .inl rfl, ?_⟩
      simp only [topTables, if_pos]
      exact .cons h .nil
    · rcases hn with hn | ⟨h1, h2, h3⟩
      · exact absurd hn ht
      unfold extractNode at h
      obtain ⟨⟨cs', notes⟩, hl, h⟩ := bind_ok h
      obtain ⟨rfl, g1, g2⟩ := extractList_tables cs h3 _ _ hl
      simp only at h
      rw [if_neg (show t ≠ f "TBL" from ht), if_neg (show t ≠ f "ROW" from h2)] at h
      cases h
      refine ⟨rfl, _, rfl, .inr ⟨h1, h2, g1⟩, ?_⟩
      simp only [topTables, if_neg ht]
      exact g2
  | pi => unfold extractNode at h; cases h; exact ⟨rfl, _, rfl, trivial, .nil⟩
  | comment => unfold extractNode at h; cases h; exact ⟨rfl, _, rfl, trivial, .nil⟩
theorem extractList_tables (ns : List Node) (hn : TablesApartList ns) (l : List Node) (ks : List Note) (h : extractList ns = .ok (l, ks)) :
    ks = [] ∧ TablesApartList l ∧ All₂ (fun T T' => extractNode T = .ok ([T'], [])) (topTablesList ns) (topTablesList l) := by
  cases ns with
  | nil => unfold extractList at h; cases h; exact ⟨rfl, trivial, .nil⟩
  | cons n ns =>
    unfold extractList at h
    obtain ⟨⟨l1, k1⟩, g1, h⟩ := bind_ok h
    obtain ⟨⟨l2, k2⟩, g2, h⟩ := bind_ok h
    cases h
    obtain ⟨rfl, n', rfl, e1, e2⟩ := extract_tables n hn.1 _ _ g1
    obtain ⟨rfl, e3, e4⟩ := extractList_tables ns hn.2 _ _ g2
    exact ⟨rfl, ⟨e1, e3⟩, e2.append e4⟩
end

/-- a table gives a table and no note -/
theorem move_table {s s' : Bool} {a : Dict QName String} {x : Option String} {cs : List Node} {tl : Option String} {l : List Node} {ks : List Note}
    (h : moveNode s (.elem (name "TBL") a x cs tl) = .ok (l, ks, s')) : ks = [] ∧ ∃ x' cs', l = [.elem (name "TBL") a x' cs' tl] := by
  unfold moveNode at h
  split at h
  · cases h; exact ⟨rfl, _, _, rfl⟩
  · rw [if_neg (fun e => absurd e.1 (by decide))] at h
    obtain ⟨⟨cs', notes, s1⟩, _, h⟩ := bind_ok h
    obtain ⟨r, hr, h⟩ := bind_ok h
    cases h
    unfold closeElem at hr
    rw [if_pos (show name "TBL" = f "TBL" from rfl)] at hr
    split at hr
    · cases hr; exact ⟨rfl, _, _, rfl⟩
    · split at hr
      · cases hr; exact ⟨rfl, _, _, rfl⟩
      · cases hr

/-- an element which is neither a table nor a row: what its children become -/
theorem move_other {s s' : Bool} {t : QName} {a : Dict QName String} {x : Option String} {cs : List Node} {tl : Option String} {l : List Node} {ks : List Note}
    (ht : t ≠ name "TBL") (hr : t ≠ name "ROW") (h : moveNode s (.elem t a x cs tl) = .ok (l, ks, s')) :
    ∃ s1 s2 cs', moveList s1 cs = .ok (cs', ks, s2) ∧ l = [.elem t a x cs' tl] := by
  unfold moveNode at h
  split at h
  · cases h
    refine ⟨true, true, cs, ?_, rfl⟩
    have : ∀ l : List Node, moveList true l = .ok (l, [], true) := by
      intro l
      induction l with
      | nil => rfl
      | cons n l ih =>
        unfold moveList
        have : moveNode true n = .ok ([n], [], true) := by cases n <;> rfl
        rw [this, ok_bind]
        simp only [ih, ok_bind]
        rfl
    exact this cs
  · rw [if_neg (fun e => hr e.1)] at h
    obtain ⟨⟨cs', notes, s1⟩, h1, h⟩ := bind_ok h
    obtain ⟨r, hr', h⟩ := bind_ok h
    cases h
    unfold closeElem at hr'
    rw [if_neg (show t ≠ f "TBL" from ht), if_neg (show t ≠ f "ROW" from hr)] at hr'
    cases hr'
    exact ⟨_, _, _, h1, rfl⟩

mutual
/-- out of the tables, nothing changes -/
theorem move_tables (s : Bool) (n : Node) (hn : TablesApart n) (l : List Node) (ks : List Note) (s' : Bool) (h : moveNode s n = .ok (l, ks, s')) :
    ks = [] ∧ ∃ n', l = [n'] ∧ TablesApart n' ∧ All₂ (fun T T' => ∃ s s', moveNode s T = .ok ([T'], [], s')) (topTables n) (topTables n') := by
  cases n with
  | elem t a x cs tl =>
    by_cases ht : t = name "TBL"
    · subst ht
      obtain ⟨rfl, x', cs', rfl⟩ := move_table h
      refine ⟨rfl, _, rfl, .inl rfl, ?_⟩
      simp only [topTables, if_pos]
      exact .cons ⟨_, _, h⟩ .nil
    · rcases hn with hn | ⟨h1, h2, h3⟩
      · exact absurd hn ht
      obtain ⟨s1, s2, cs', hl, rfl⟩ := move_other ht h2 h
      obtain ⟨rfl, g1, g2⟩ := moveList_tables _ cs h3 _ _ _ hl
      refine ⟨rfl, _, rfl, .inr ⟨h1, h2, g1⟩, ?_⟩
      simp only [topTables, if_neg ht]
      exact g2
  | pi => unfold moveNode at h; cases h; exact ⟨rfl, _, rfl, trivial, .nil⟩
  | comment => unfold moveNode at h; cases h; exact ⟨rfl, _, rfl, trivial, .nil⟩
theorem moveList_tables (s : Bool) (ns : List Node) (hn : TablesApartList ns) (l : List Node) (ks : List Note) (s' : Bool) (h : moveList s ns = .ok (l, ks, s')) :
    ks = [] ∧ TablesApartList l ∧ All₂ (fun T T' => ∃ s s', moveNode s T = .ok ([T'], [], s')) (topTablesList ns) (topTablesList l) := by
  cases ns with
  | nil => unfold moveList at h; cases h; exact ⟨rfl, trivial, .nil⟩
  | cons n ns =>
    unfold moveList at h
    obtain ⟨⟨l1, k1, s1⟩, g1, h⟩ := bind_ok h
    obtain ⟨⟨l2, k2, s2⟩, g2, h⟩ := bind_ok h
    cases h
    obtain ⟨rfl, n', rfl, e1, e2⟩ := move_tables _ n hn.1 _ _ _ g1
    obtain ⟨rfl, e3, e4⟩ := moveList_tables _ ns hn.2 _ _ _ g2
    exact ⟨rfl, ⟨e1, e3⟩, e2.append e4⟩
end

mutual
theorem insert_tables (cfg : Config) (n : Node) (hn : TablesApart n) (n' : Node) (h : insertBlk cfg n = .ok n') :
    All₂ (fun T T' => insertBlk cfg T = .ok T') (topTables n) (topTables n') := by
  cases n with
  | elem t a x cs tl =>
    by_cases ht : t = name "TBL"
    · have h' := h
      unfold insertBlk at h
      obtain ⟨cs', _, h⟩ := bind_ok h
      rw [if_neg (show t ≠ f "CORPUS" from by rw [ht]; decide)] at h
      cases h
      simp only [topTables, if_pos ht]
      exact .cons h' .nil
    · rcases hn with hn | ⟨h1, h2, h3⟩
      · exact absurd hn ht
      unfold insertBlk at h
      obtain ⟨cs', hl, h⟩ := bind_ok h
      rw [if_neg (show t ≠ f "CORPUS" from h1)] at h
      cases h
      simp only [topTables, if_neg ht]
      exact insertList_tables cfg cs h3 cs' hl
  | pi => unfold insertBlk at h; cases h; exact .nil
  | comment => unfold insertBlk at h; cases h; exact .nil
theorem insertList_tables (cfg : Config) (ns : List Node) (hn : TablesApartList ns) (ns' : List Node) (h : insertBlkList cfg ns = .ok ns') :
    All₂ (fun T T' => insertBlk cfg T = .ok T') (topTablesList ns) (topTablesList ns') := by
  cases ns with
  | nil => unfold insertBlkList at h; cases h; exact .nil
  | cons n ns =>
    unfold insertBlkList at h
    obtain ⟨n1, g1, h⟩ := bind_ok h
    obtain ⟨n2, g2, h⟩ := bind_ok h
    cases h
    exact (insert_tables cfg n hn.1 _ g1).append (insertList_tables cfg ns hn.2 _ g2)
end

mutual
theorem drop_tables (cfg : Config) (n : Node) : topTables (dropNode cfg false n) = (topTables n).map (dropNode cfg false) := by
  cases n with
  | elem t a x cs tl =>
    by_cases ht : t = name "TBL"
    · simp only [dropNode, topTables, if_pos ht, List.map_cons, List.map_nil]
    · have ht' : decide (t = f "TBL") = false := decide_eq_false ht
      simp only [dropNode, topTables, if_neg ht, Bool.false_or, ht']
      exact dropList_tables cfg cs
  | pi => rfl
  | comment => rfl
theorem dropList_tables (cfg : Config) (ns : List Node) : topTablesList (dropList cfg false ns) = (topTablesList ns).map (dropNode cfg false) := by
  cases ns with
  | nil => rfl
  | cons n ns =>
    unfold dropList
    simp only [topTablesList, List.map_append, drop_tables cfg n, dropList_tables cfg ns]
end

/-! ### the rows of notes -/

mutual
/-- what `NotesApart` says, on the structure of the nodes -/
def apartNotes : Node → Prop
  | .elem t a _ cs _ => (t = f "ROW" ∧ Dict.get? a (f "TYPE") = some "__GR.NOTES__" → othersFree cs) ∧ apartNotesList cs
  | _ => True
/-- what `NotesApartList` says, on the structure of the nodes -/
def apartNotesList : List Node → Prop
  | [] => True
  | n :: ns => apartNotes n ∧ apartNotesList ns
end

mutual
theorem apartNotes_iff : ∀ n : Node, apartNotes n ↔ NotesApartList [n]
  | .elem t a x cs tl => by
    have ih := apartNotesList_iff cs
    unfold apartNotes
    constructor
    · rintro ⟨h1, h2⟩ e he hr
      simp only [preorderList, preorder, List.append_nil] at he
      rcases List.mem_cons.mp he with rfl | he
      · exact (hasRowList_iff _).mp (h1 ⟨Option.some.inj hr.1, hr.2⟩)
      · exact ih.mp h2 e he hr
    · intro h
      exact ⟨notesApart_row h, ih.mpr (notesApart_children h)⟩
  | .pi .. => by simp [apartNotes, NotesApartList, preorderList, preorder]
  | .comment .. => by simp [apartNotes, NotesApartList, preorderList, preorder]
theorem apartNotesList_iff : ∀ ns : List Node, apartNotesList ns ↔ NotesApartList ns
  | [] => by simp [apartNotesList, NotesApartList, preorderList]
  | n :: ns => by
    rw [notesApart_cons, ← apartNotes_iff n, ← apartNotesList_iff ns]
    rfl
end

theorem tag_num (pre : List Nat) (k : Nat) (n : Node) : (num pre k n).1.tag? = n.tag? := by
  cases n with
  | elem t a x cs tl => unfold num; split <;> rfl
  | pi => rfl
  | comment => rfl

mutual
theorem hasRow_num : ∀ (pre : List Nat) (k : Nat) (n : Node), hasRow (num pre k n).1 = hasRow n
  | pre, k, .elem t a x cs tl => by
    unfold num
    split <;> simp only [hasRow, hasRowList_num]
  | _, _, .pi .. => rfl
  | _, _, .comment .. => rfl
theorem hasRowList_num : ∀ (pre : List Nat) (k : Nat) (ns : List Node), hasRowList (numList pre k ns).1 = hasRowList ns
  | _, _, [] => rfl
  | pre, k, n :: ns => by
    unfold numList
    simp only [hasRowList, hasRow_num, hasRowList_num]
end

theorem othersFree_num : ∀ (pre : List Nat) (k : Nat) (ns : List Node), othersFree (numList pre k ns).1 ↔ othersFree ns
  | _, _, [] => Iff.rfl
  | pre, k, n :: ns => by
    unfold numList othersFree
    simp only
    by_cases hc : n.tag? = some (name "CELL")
    · rw [List.eraseP_cons_of_pos (by rw [tag_num]; simpa using hc), List.eraseP_cons_of_pos (by simpa using hc), hasRowList_num]
    · have ih := othersFree_num pre (num pre k n).2 ns
      unfold othersFree at ih
      rw [List.eraseP_cons_of_neg (by rw [tag_num]; simpa using hc), List.eraseP_cons_of_neg (by simpa using hc)]
      simp only [hasRowList, Bool.or_eq_false_iff, hasRow_num, ih]

mutual
theorem apartNotes_num : ∀ (pre : List Nat) (k : Nat) (n : Node), apartNotes n → apartNotes (num pre k n).1
  | pre, k, .elem t a x cs tl, h => by
    unfold num
    split
    · next ht =>
      refine ⟨fun hr => absurd (ht.symm.trans hr.1) (by decide), apartNotesList_num _ _ cs h.2⟩
    · exact ⟨fun hr => (othersFree_num _ _ cs).mpr (h.1 hr), apartNotesList_num _ _ cs h.2⟩
  | _, _, .pi .., _ => trivial
  | _, _, .comment .., _ => trivial
theorem apartNotesList_num : ∀ (pre : List Nat) (k : Nat) (ns : List Node), apartNotesList ns → apartNotesList (numList pre k ns).1
  | _, _, [], _ => trivial
  | pre, k, n :: ns, h => by
    unfold numList
    exact ⟨apartNotes_num _ _ n h.1, apartNotesList_num _ _ ns h.2⟩
end

theorem apartNotesList_append {l m : List Node} (h : apartNotesList l) (h' : apartNotesList m) : apartNotesList (l ++ m) := by
  induction l with
  | nil => exact h'
  | cons n l ih => exact ⟨h.1, ih h.2⟩

theorem hasRowList_append (l m : List Node) : hasRowList (l ++ m) = (hasRowList l || hasRowList m) := by
  induction l with
  | nil => rfl
  | cons n l ih => simp only [List.cons_append, hasRowList, ih, Bool.or_assoc]

mutual
theorem hasRow_cleanup : ∀ n : Node, hasRow (cleanupNode n) = hasRow n
  | .elem t a x cs tl => by
    unfold cleanupNode
    split <;> simp only [hasRow, hasRow_cleanupList cs, hasRow_cleanupIn cs]
  | .pi .. => rfl
  | .comment .. => rfl
theorem hasRow_cleanupList : ∀ ns : List Node, hasRowList (cleanupList ns) = hasRowList ns
  | [] => rfl
  | n :: ns => by
    unfold cleanupList
    simp only [hasRowList, hasRow_cleanup n, hasRow_cleanupList ns]
theorem hasRow_cleanupIn : ∀ ns : List Node, hasRowList (cleanupInTable ns) = hasRowList ns
  | [] => rfl
  | .elem t a x cs tl :: ns => by
    unfold cleanupInTable
    split
    · next ht =>
      have : decide (t = f "ROW") = false := decide_eq_false (by rw [ht]; decide)
      simp only [hasRowList_append, hasRowList, hasRow, hasRow_cleanupIn cs, hasRow_cleanupIn ns, this, Bool.false_or]
    · simp only [hasRowList, hasRow, hasRow_cleanupList cs, hasRow_cleanupIn ns]
  | .pi .. :: ns => by
    unfold cleanupInTable
    simp only [hasRowList, hasRow_cleanupIn ns]
  | .comment .. :: ns => by
    unfold cleanupInTable
    simp only [hasRowList, hasRow_cleanupIn ns]
end

theorem othersFree_cleanup : ∀ ns : List Node, othersFree (cleanupList ns) ↔ othersFree ns
  | [] => Iff.rfl
  | n :: ns => by
    have ht : (cleanupNode n).tag? = n.tag? := by cases n <;> rfl
    unfold cleanupList othersFree
    by_cases hc : n.tag? = some (name "CELL")
    · rw [List.eraseP_cons_of_pos (by rw [ht]; simpa using hc), List.eraseP_cons_of_pos (by simpa using hc), hasRow_cleanupList]
    · have ih := othersFree_cleanup ns
      unfold othersFree at ih
      rw [List.eraseP_cons_of_neg (by rw [ht]; simpa using hc), List.eraseP_cons_of_neg (by simpa using hc)]
      simp only [hasRowList, Bool.or_eq_false_iff, hasRow_cleanup, ih]

mutual
theorem apartNotes_cleanup : ∀ n : Node, apartNotes n → apartNotes (cleanupNode n)
  | .elem t a x cs tl, h => by
    unfold cleanupNode
    split
    · next ht => exact ⟨fun hr => absurd (ht.symm.trans hr.1) (by decide), apartNotes_cleanupIn cs h.2⟩
    · exact ⟨fun hr => (othersFree_cleanup cs).mpr (h.1 hr), apartNotes_cleanupList cs h.2⟩
  | .pi .., _ => trivial
  | .comment .., _ => trivial
theorem apartNotes_cleanupList : ∀ ns : List Node, apartNotesList ns → apartNotesList (cleanupList ns)
  | [], _ => trivial
  | n :: ns, h => ⟨apartNotes_cleanup n h.1, apartNotes_cleanupList ns h.2⟩
theorem apartNotes_cleanupIn : ∀ ns : List Node, apartNotesList ns → apartNotesList (cleanupInTable ns)
  | [], _ => trivial
  | .elem t a x cs tl :: ns, h => by
    unfold cleanupInTable
    split
    · exact apartNotesList_append (apartNotes_cleanupIn cs h.1.2) (apartNotes_cleanupIn ns h.2)
    · exact ⟨⟨fun hr => (othersFree_cleanup cs).mpr (h.1.1 hr), apartNotes_cleanupList cs h.1.2⟩, apartNotes_cleanupIn ns h.2⟩
  | .pi .. :: ns, h => by
    unfold cleanupInTable
    exact ⟨trivial, apartNotes_cleanupIn ns h.2⟩
  | .comment .. :: ns, h => by
    unfold cleanupInTable
    exact ⟨trivial, apartNotes_cleanupIn ns h.2⟩
end

/-- the numbering and the cleaning keep the rows of notes apart -/
theorem notesApart_before {root : Node} (h : NotesApart root) : NotesApart (cleanupNode (updateNoSeq root)) := by
  rw [updateNoSeq_num]
  exact (apartNotes_iff _).mp (apartNotes_cleanup _ (apartNotes_num [] 0 root ((apartNotes_iff _).mpr h)))

/-- what a table becomes when the notes are moved; if the rows of notes of the document (`apart`) are apart, then all its rows have been treated -/
def MovedAs (apart : Prop) (T E : Node) : Prop := E.tag? = some (name "TBL") ∧ (apart → extractNode T = .ok ([E], []))

theorem moved_tag {s s' : Bool} {T E : Node} (hT : T.tag? = some (name "TBL")) (h : moveNode s T = .ok ([E], [], s')) : E.tag? = some (name "TBL") := by
  cases T with
  | elem t a x cs tl =>
    cases hT
    obtain ⟨_, x', cs', e⟩ := move_table h
    rw [List.singleton_inj.mp e]
    rfl
  | pi => cases hT
  | comment => cases hT

mutual
theorem topTables_tag : ∀ (n T : Node), T ∈ topTables n → T.tag? = some (name "TBL")
  | .elem t a x cs tl, T, h => by
    unfold topTables at h
    split at h
    · next e => rw [List.mem_singleton.mp h, e]; rfl
    · exact topTablesList_tag cs T h
  | .pi .., _, h => by cases h
  | .comment .., _, h => by cases h
theorem topTablesList_tag : ∀ (ns : List Node) (T : Node), T ∈ topTablesList ns → T.tag? = some (name "TBL")
  | [], _, h => by cases h
  | n :: ns, T, h => (List.mem_append.mp h).elim (topTables_tag n T) (topTablesList_tag ns T)
end

/-- when the rows of notes are apart, the iteration is that of all the rows -/
theorem moved_apart {root : Node} (h : NotesApart root) {l : List Node} {ks : List Note} {s : Bool}
    (hm : moveNode false (cleanupNode (updateNoSeq root)) = .ok (l, ks, s)) : extractNode (cleanupNode (updateNoSeq root)) = .ok (l, ks) := by
  rw [move_apart _ (notesApart_before h)] at hm
  cases he : extractNode (cleanupNode (updateNoSeq root)) with
  | error e => rw [he] at hm; cases hm
  | ok p => rw [he] at hm; cases hm; rfl

/-- **the finalisation of a document is that of its tables** -/
theorem finalize_tables {cfg : Config} {root out : Node} (hroot : TablesApart root) (h : finalize cfg root = .ok out) :
    All₂ (fun T T' => ∃ pre k E B, MovedAs (NotesApart root) (cleanupNode (num pre k T).1) E ∧ insertBlk cfg E = .ok B ∧ T' = dropNode cfg false B)
      (topTables root) (topTables out) := by
  unfold finalize at h
  simp only at h
  obtain ⟨e, h1, h⟩ := bind_ok h
  obtain ⟨b, h2, h⟩ := bind_ok h
  cases h
  unfold extractGrNotes at h1
  obtain ⟨⟨l, ks, s⟩, h1, h3⟩ := bind_ok h1
  have hap := cleanup_apart _ (num_apart [] 0 root hroot)
  have hmoved : NotesApart root → extractNode (cleanupNode (num [] 0 root).1) = .ok (l, ks) := fun hn => by
    rw [← updateNoSeq_num]
    exact moved_apart hn h1
  rw [updateNoSeq_num] at h1
  obtain ⟨rfl, n', rfl, g1, g2⟩ := move_tables _ _ hap _ _ _ h1
  simp only at h3
  cases h3
  have g3 : All₂ (MovedAs (NotesApart root)) (topTables (cleanupNode (num [] 0 root).1)) (topTables e) := by
    by_cases hn : NotesApart root
    · obtain ⟨_, _, e', _, g⟩ := extract_tables _ hap _ _ (hmoved hn)
      cases e'
      refine g.imp_mem (fun T hT E hE => ⟨?_, fun _ => hE⟩)
      obtain ⟨a, x, cs, tl, rfl⟩ : ∃ a x cs tl, T = .elem (name "TBL") a x cs tl := by
        have := topTables_tag _ T hT
        cases T with
        | elem t a x cs tl => cases this; exact ⟨_, _, _, _, rfl⟩
        | pi => cases this
        | comment => cases this
      obtain ⟨_, x', cs', e⟩ := extract_table hE
      rw [List.singleton_inj.mp e]
      rfl
    · refine g2.imp_mem (fun T hT E hE => ⟨?_, fun h => absurd h hn⟩)
      obtain ⟨s, s', hE⟩ := hE
      exact moved_tag (topTables_tag _ T hT) hE
  rw [cleanup_tables] at g3
  rw [drop_tables]
  refine All₂.map_right ?_
  refine (((num_tables [] 0 root).trans g3.of_map_left ?_ : All₂ (fun T T' => ∃ pre k, MovedAs (NotesApart root) (cleanupNode (num pre k T).1) T') _ _).trans
    (insert_tables cfg _ g1 _ h2) ?_)
  · rintro a _ c ⟨pre, k, rfl⟩ hc
    exact ⟨pre, k, hc⟩
  · rintro a b c ⟨pre, k, hb⟩ hc
    exact ⟨pre, k, b, c, hb, hc, rfl⟩

/-! ### nodes which do not change -/

/-- none of these elements is in the nodes -/
def Free (names : List QName) (ns : List Node) : Prop := ∀ t a, Tok.opening t a ∈ toksList ns → t ∉ names

theorem free_cons {names : List QName} {n : Node} {ns : List Node} : Free names (n :: ns) ↔ Free names [n] ∧ Free names ns := by
  unfold Free
  simp only [toksList, List.append_nil, List.mem_append]
  exact ⟨fun h => ⟨fun t a ht => h t a (.inl ht), fun t a ht => h t a (.inr ht)⟩, fun h t a ht => ht.elim (h.1 t a) (h.2 t a)⟩

theorem free_elem {names : List QName} {t : QName} {a : Dict QName String} {x : Option String} {cs : List Node} {tl : Option String} :
    Free names [.elem t a x cs tl] ↔ t ∉ names ∧ Free names cs := by
  unfold Free
  simp only [toksList, toks, List.append_nil, List.cons_append, List.mem_cons, List.mem_append, List.not_mem_nil, or_false]
  refine ⟨fun h => ⟨h t a (.inl rfl), fun t' a' ht => h t' a' (.inr (.inl (.inl (.inr ht))))⟩, ?_⟩
  rintro ⟨h1, h2⟩ t' a' (ht | (((ht | ht) | ht) | ht))
  · cases ht; exact h1
  · exact absurd ht (no_opening x t' a')
  · exact h2 t' a' ht
  · cases ht
  · exact absurd ht (no_opening tl t' a')

theorem free_append {names : List QName} {l m : List Node} : Free names (l ++ m) ↔ Free names l ∧ Free names m := by
  induction l with
  | nil => exact ⟨fun h => ⟨fun _ _ h => (by cases h), h⟩, fun h => h.2⟩
  | cons n l ih => rw [List.cons_append, free_cons, ih, free_cons (ns := l), and_assoc]

theorem free_mem {names : List QName} {ns : List Node} : Free names ns ↔ ∀ n ∈ ns, Free names [n] := by
  induction ns with
  | nil => exact ⟨fun _ _ h => (by cases h), fun _ _ _ h => (by cases h)⟩
  | cons n ns ih => rw [free_cons, ih]; simp

theorem free_sub {names names' : List QName} (hs : ∀ q ∈ names', q ∈ names) {ns : List Node} (h : Free names ns) : Free names' ns :=
  fun t a ht hm => h t a ht (hs t hm)

theorem not_one {t : QName} {s : String} (h : t ∉ [name s]) : t ≠ f s := fun e => h (by rw [e]; exact List.mem_singleton.mpr rfl)

mutual
theorem num_free (pre : List Nat) (k : Nat) (n : Node) (h : Free [name "TBL"] [n]) : num pre k n = (n, k) := by
  cases n with
  | elem t a x cs tl =>
    obtain ⟨h1, h2⟩ := free_elem.mp h
    unfold num
    rw [if_neg (by simpa using h1), numList_free pre k cs h2]
  | pi => rfl
  | comment => rfl
theorem numList_free (pre : List Nat) (k : Nat) (ns : List Node) (h : Free [name "TBL"] ns) : numList pre k ns = (ns, k) := by
  cases ns with
  | nil => rfl
  | cons n ns =>
    obtain ⟨h1, h2⟩ := free_cons.mp h
    unfold numList
    simp only [num_free pre k n h1, numList_free pre k ns h2]
end

mutual
theorem cleanup_free (n : Node) (h : Free [name "TBL"] [n]) : cleanupNode n = n := by
  cases n with
  | elem t a x cs tl =>
    obtain ⟨h1, h2⟩ := free_elem.mp h
    unfold cleanupNode
    rw [if_neg (show t ≠ f "TBL" from not_one h1), cleanupList_free cs h2]
  | pi => rfl
  | comment => rfl
theorem cleanupList_free (ns : List Node) (h : Free [name "TBL"] ns) : cleanupList ns = ns := by
  cases ns with
  | nil => rfl
  | cons n ns =>
    obtain ⟨h1, h2⟩ := free_cons.mp h
    unfold cleanupList
    rw [cleanup_free n h1, cleanupList_free ns h2]
end

theorem cleanupInTable_free (ns : List Node) (h : Free [name "TBL"] ns) : cleanupInTable ns = ns := by
  induction ns with
  | nil => rfl
  | cons n ns ih =>
    obtain ⟨h1, h2⟩ := free_cons.mp h
    cases n with
    | elem t a x cs tl =>
      obtain ⟨h3, h4⟩ := free_elem.mp h1
      unfold cleanupInTable
      rw [if_neg (show t ≠ f "TBL" from not_one h3), cleanupList_free cs h4, ih h2]
    | pi => unfold cleanupInTable; rw [ih h2]
    | comment => unfold cleanupInTable; rw [ih h2]

mutual
theorem free_hasRow : ∀ n : Node, Free [name "ROW"] [n] → hasRow n = false
  | .elem t a x cs tl, h => by
    obtain ⟨h1, h2⟩ := free_elem.mp h
    unfold hasRow
    rw [free_hasRowList cs h2, decide_eq_false (show ¬ t = f "ROW" from fun e => h1 (List.mem_singleton.mpr e))]
    rfl
  | .pi .., _ => rfl
  | .comment .., _ => rfl
theorem free_hasRowList : ∀ ns : List Node, Free [name "ROW"] ns → hasRowList ns = false
  | [], _ => rfl
  | n :: ns, h => by
    obtain ⟨h1, h2⟩ := free_cons.mp h
    unfold hasRowList
    rw [free_hasRow n h1, free_hasRowList ns h2]
    rfl
end

mutual
theorem extract_free (n : Node) (h : Free [name "ROW"] [n]) : extractNode n = .ok ([n], []) := by
  cases n with
  | elem t a x cs tl =>
    obtain ⟨h1, h2⟩ := free_elem.mp h
    unfold extractNode
    rw [extractList_free cs h2, ok_bind]
    simp only
    rw [if_neg (show t ≠ f "ROW" from not_one h1)]
    split <;> rfl
  | pi => rfl
  | comment => rfl
theorem extractList_free (ns : List Node) (h : Free [name "ROW"] ns) : extractList ns = .ok (ns, []) := by
  cases ns with
  | nil => rfl
  | cons n ns =>
    obtain ⟨h1, h2⟩ := free_cons.mp h
    unfold extractList
    rw [extract_free n h1, extractList_free ns h2]
    rfl
end

mutual
theorem insert_free (cfg : Config) (n : Node) (h : Free [name "CORPUS"] [n]) : insertBlk cfg n = .ok n := by
  cases n with
  | elem t a x cs tl =>
    obtain ⟨h1, h2⟩ := free_elem.mp h
    unfold insertBlk
    rw [insertList_free cfg cs h2, ok_bind, if_neg (show t ≠ f "CORPUS" from not_one h1)]
    rfl
  | pi => rfl
  | comment => rfl
theorem insertList_free (cfg : Config) (ns : List Node) (h : Free [name "CORPUS"] ns) : insertBlkList cfg ns = .ok ns := by
  cases ns with
  | nil => rfl
  | cons n ns =>
    obtain ⟨h1, h2⟩ := free_cons.mp h
    unfold insertBlkList
    rw [insert_free cfg n h1, ok_bind, insertList_free cfg ns h2, ok_bind]
    rfl
end

/-- the elements which may lose attributes -/
def dropped : List QName := ["ROW", "CELL", "TI.BLK", "STI.BLK", "GR.NOTES"].map name

mutual
theorem drop_free (cfg : Config) (b : Bool) (n : Node) (h : Free dropped [n]) : dropNode cfg b n = n := by
  cases n with
  | elem t a x cs tl =>
    obtain ⟨h1, h2⟩ := free_elem.mp h
    have h1' : decide (t ∈ ["ROW", "CELL", "TI.BLK", "STI.BLK", "GR.NOTES"].map f) = false := decide_eq_false h1
    simp only [dropNode, h1', Bool.and_false, Bool.false_eq_true, if_false, dropList_free cfg _ cs h2]
  | pi => rfl
  | comment => rfl
theorem dropList_free (cfg : Config) (b : Bool) (ns : List Node) (h : Free dropped ns) : dropList cfg b ns = ns := by
  cases ns with
  | nil => rfl
  | cons n ns =>
    obtain ⟨h1, h2⟩ := free_cons.mp h
    unfold dropList
    rw [drop_free cfg b n h1, dropList_free cfg b ns h2]
end

theorem dropList_map (cfg : Config) (b : Bool) (ns : List Node) : dropList cfg b ns = ns.map (dropNode cfg b) := by
  induction ns with
  | nil => rfl
  | cons n ns ih => unfold dropList; rw [ih]; rfl

/-- children without style stay where they are -/
theorem group_free (cfg : Config) (ns acc : List Node) (h : ∀ n ∈ ns, n.attr (cfg.q "rowstyle") = none) :
    groupRows cfg [acc] (ns.zip ns) = .ok [acc ++ ns] := by
  induction ns generalizing acc with
  | nil => simp [groupRows]
  | cons n ns ih =>
    have hn := h n (by simp)
    have ih := fun acc => ih acc (fun m hm => h m (by simp [hm]))
    simp only [List.zip_cons_cons, groupRows]
    split
    · rw [show Open.add n [acc] = [acc ++ [n]] from rfl, ih]; simp
    · have hi : infoOf cfg n = ⟨"ROW", none, 0⟩ := by unfold infoOf; rw [hn]; rfl
      have hp : placedNode cfg n n = .ok n := by
        unfold placedNode
        rw [hi, if_pos rfl]
        cases n <;> rfl
      rw [hp, ok_bind, hi]
      rw [show (Open.toLevel 0 [acc]).add n = [acc ++ [n]] from rfl, ih]; simp

theorem insert_corpus (cfg : Config) {a : Dict QName String} {x : Option String} {ns : List Node} {tl : Option String}
    (hf : Free [name "CORPUS"] ns) (h : ∀ n ∈ ns, n.attr (cfg.q "rowstyle") = none) :
    insertBlk cfg (.elem (name "CORPUS") a x ns tl) = .ok (.elem (name "CORPUS") a x ns tl) := by
  unfold insertBlk
  rw [insertList_free cfg ns hf, ok_bind, if_pos (show name "CORPUS" = f "CORPUS" from rfl)]
  unfold groupChildren
  rw [group_free cfg ns [] h, ok_bind]
  rfl

/-! ### a table -/

/-- a row without its type -/
def strip : Node → Node
  | .elem t a x cs tl => .elem t (Dict.erase a (name "TYPE")) x cs tl
  | n => n

/-- a row in the final document -/
def finalLine (cfg : Config) (l : DocLine) : DocLine :=
  { l with node := dropNode cfg true (strip l.node), cells := l.cells.map (fun c => ⟨dropNode cfg true c.node, c.box⟩) }

/-- the first cell of a row -/
def firstCell (l : DocLine) : Node := (l.cells.map (·.node)).headD (.comment "" none)

/-- the note which is made of a row -/
def noteNode (l : DocLine) : Node := .elem (name "GR.NOTES") (Dict.erase l.node.attrs (name "TYPE")) (some (Node.safeText (firstCell l).text)) (firstCell l).children none

/-- a row which is a note in the final document -/
def finalNote (cfg : Config) (l : DocLine) : DocLine :=
  ⟨.note, dropNode cfg true (noteNode l), 0, [], l.cells.map (fun c => ⟨dropNode cfg true (noteNode l), c.box⟩), []⟩

theorem get?_dropAttrs (cfg : Config) (a : Dict QName String) (k : QName) :
    Dict.get? (dropAttrs cfg a) k = if k ∈ ["namest", "nameend", "morerows", "rowstyle"].map cfg.q then none else Dict.get? a k := by
  unfold dropAttrs
  simp only [get?_erase, List.map_cons, List.map_nil, List.mem_cons, List.not_mem_nil, or_false]
  by_cases h1 : cfg.q "namest" = k
  · subst h1; simp
  by_cases h2 : cfg.q "nameend" = k
  · subst h2; simp
  by_cases h3 : cfg.q "morerows" = k
  · subst h3; simp
  by_cases h4 : cfg.q "rowstyle" = k
  · subst h4; simp
  simp [h1, h2, h3, h4, Ne.symm h1, Ne.symm h2, Ne.symm h3, Ne.symm h4]

def innerNames : List QName := ["CORPUS", "ROW", "CELL", "MARGIN", "BLK", "TI.BLK", "STI.BLK"].map name

theorem noFmx_free {cals : Option String} {ns : List Node} (h : NoFmx none cals ns) : Free innerNames ns := by
  intro t a ht hm
  obtain ⟨s, hs, rfl⟩ := List.mem_map.mp hm
  exact (h _ a ht).1 rfl hs

theorem free_both {names names' names'' : List QName} (hs : ∀ q ∈ names'', q ∈ names ∨ q ∈ names') {ns : List Node} (h : Free names ns) (h' : Free names' ns) :
    Free names'' ns := fun t a ht hm => (hs t hm).elim (h t a ht) (h' t a ht)

theorem dropped_of {ns : List Node} (h : Free innerNames ns) (h' : Free [name "GR.NOTES"] ns) : Free dropped ns :=
  free_both (by decide) h h'

/-- a cell of a row -/
structure GoodCell (cals : Option String) (n : Node) : Prop where
  tag : n.tag? = some (name "CELL")
  inside : NoFmx none cals n.children
  names : Free [name "GR.NOTES"] n.children

theorem goodCell_drop {cals : Option String} {n : Node} (cfg : Config) (h : GoodCell cals n) :
    ∃ a x cs tl, n = .elem (name "CELL") a x cs tl ∧ dropNode cfg true n = .elem (name "CELL") (dropAttrs cfg a) x cs tl := by
  cases n with
  | elem t a x cs tl =>
    have ht : t = name "CELL" := Option.some.inj h.tag
    subst ht
    refine ⟨a, x, cs, tl, rfl, ?_⟩
    have : dropList cfg (true || decide (name "CELL" = f "TBL")) cs = cs := dropList_free cfg _ cs (dropped_of (noFmx_free h.inside) h.names)
    unfold dropNode
    rw [this, if_pos (by decide)]
  | pi => exact absurd h.tag (by simp [Node.tag?])
  | comment => exact absurd h.tag (by simp [Node.tag?])

/-- a row -/
structure GoodLine (cals : Option String) (l : DocLine) : Prop where
  sort : l.sort = .row
  level : l.level = 0
  tag : l.node.tag? = some (name "ROW")
  among : Among none cals (l.cells.map (·.node)) l.node.children
  cells : ∀ c ∈ l.cells, GoodCell cals c.node
  names : Free [name "GR.NOTES"] l.node.children

theorem among_free {cals : Option String} {picked all : List Node} (h : Among none cals picked all) (hp : ∀ n ∈ picked, GoodCell cals n) :
    Free (["CORPUS", "ROW"].map name) all := by
  induction h with
  | nil => intro _ _ h; cases h
  | take n _ _ _ ih =>
    refine free_cons.mpr ⟨?_, ih (fun m hm => hp m (by simp [hm]))⟩
    have hn := hp n (by simp)
    cases n with
    | elem t a x cs tl =>
      have ht : t = name "CELL" := Option.some.inj hn.tag
      subst ht
      exact free_elem.mpr ⟨by decide, free_sub (by decide) (noFmx_free hn.inside)⟩
    | pi => exact absurd hn.tag (by simp [Node.tag?])
    | comment => exact absurd hn.tag (by simp [Node.tag?])
  | skip n _ _ hn _ ih => exact free_cons.mpr ⟨free_sub (by decide) (noFmx_free hn), ih hp⟩

theorem noFmx_tag {cals : Option String} {n : Node} (h : NoFmx none cals [n]) (s : String) (hs : name s ∈ innerNames) : n.tag? ≠ some (name s) := by
  cases n with
  | elem t a x cs tl =>
    intro e
    cases e
    exact (free_elem.mp (noFmx_free h)).1 hs
  | pi => simp [Node.tag?]
  | comment => simp [Node.tag?]

theorem among_find {cals : Option String} {c : Node} {picked all : List Node} (h : Among none cals picked all) (hc : c.tag? = some (name "CELL")) (rest : List Node)
    (he : picked = c :: rest) : all.find? (isElem "CELL") = some c := by
  induction h with
  | nil => cases he
  | take n _ _ _ _ =>
    cases he
    rw [List.find?_cons_of_pos]
    exact isElem_iff.mpr hc
  | skip n _ _ hn _ ih =>
    rw [List.find?_cons_of_neg]
    · exact ih he
    · rw [isElem_iff]
      exact noFmx_tag hn _ (by decide)

theorem among_drop {cals : Option String} (cfg : Config) {picked all : List Node} (h : Among none cals picked all) (hf : Free [name "GR.NOTES"] all) :
    Among none cals (picked.map (dropNode cfg true)) (all.map (dropNode cfg true)) := by
  induction h with
  | nil => exact .nil
  | take n _ _ _ ih => exact .take _ _ _ (ih (free_cons.mp hf).2)
  | skip n _ _ hn _ ih =>
    obtain ⟨h1, h2⟩ := free_cons.mp hf
    rw [List.map_cons, drop_free cfg true n (dropped_of (noFmx_free hn) h1)]
    exact .skip _ _ _ hn (ih h2)

/-- the notes of a table -/
def notesOf (foot : List DocLine) : List Note := foot.map (fun l => ⟨none, [noteNode l]⟩)

theorem extract_row {cals : Option String} {l : DocLine} (hl : GoodLine cals l) (hm : ¬ Marked l) : extractNode l.node = .ok ([strip l.node], []) := by
  obtain ⟨sort, node, level, before, cells, after⟩ := l
  cases node with
  | elem t a x cs tl =>
    have ht : t = name "ROW" := Option.some.inj hl.tag
    subst ht
    have hf := among_free hl.among (by intro n hn; obtain ⟨c, hc, rfl⟩ := List.mem_map.mp hn; exact hl.cells c hc)
    unfold extractNode
    rw [extractList_free cs (free_sub (by decide) hf), ok_bind]
    simp only
    rw [if_neg (by decide), if_pos (show name "ROW" = f "ROW" from rfl), if_neg (show ¬ Dict.get? a (f "TYPE") = some "__GR.NOTES__" from hm)]
    rfl
  | pi => exact absurd hl.tag (by simp [Node.tag?])
  | comment => exact absurd hl.tag (by simp [Node.tag?])

theorem extract_note {cals : Option String} {l : DocLine} (hl : GoodLine cals l) (hm : Marked l) (c : DocCell) (hc : l.cells = [c]) :
    extractNode l.node = .ok ([], [⟨none, [noteNode l]⟩]) := by
  obtain ⟨sort, node, level, before, cells, after⟩ := l
  cases node with
  | elem t a x cs tl =>
    have ht : t = name "ROW" := Option.some.inj hl.tag
    subst ht
    have hf := among_free hl.among (by intro n hn; obtain ⟨c, hc, rfl⟩ := List.mem_map.mp hn; exact hl.cells c hc)
    have hc' : cells = [c] := hc
    subst hc'
    have hgc := hl.cells c (by simp)
    have hfind : cs.find? (isElem "CELL") = some c.node := among_find hl.among hgc.tag [] rfl
    have hno : c.node.children.any (isElem "GR.NOTES") = false := by
      rw [List.any_eq_false]
      intro n hn hi
      have := free_mem.mp hgc.names n hn
      cases n with
      | elem t' a' x' cs' tl' =>
        have := (free_elem.mp this).1
        exact this (by have := Option.some.inj (isElem_iff.mp hi); rw [this]; exact List.mem_singleton.mpr rfl)
      | pi => simp [isElem, Node.tag?] at hi
      | comment => simp [isElem, Node.tag?] at hi
    unfold extractNode
    rw [extractList_free cs (free_sub (by decide) hf), ok_bind]
    simp only
    rw [if_neg (by decide), if_pos (show name "ROW" = f "ROW" from rfl), if_pos (show Dict.get? a (f "TYPE") = some "__GR.NOTES__" from hm)]
    have hk : makeNote (Dict.erase a (f "TYPE")) cs = .ok ⟨none, [noteNode ⟨sort, .elem (name "ROW") a x cs tl, level, before, [c], after⟩]⟩ := by
      unfold makeNote
      rw [hfind]
      simp only [hno]
      simp [addAttrs, noteNode, firstCell, Node.attrs, Dict.has, Dict.get?_nil]
      exact ⟨rfl, rfl⟩
    rw [hk, ok_bind]
    rfl
  | pi => exact absurd hl.tag (by simp [Node.tag?])
  | comment => exact absurd hl.tag (by simp [Node.tag?])

theorem strip_attr (n : Node) (k : QName) : (strip n).attr k = if name "TYPE" = k then none else n.attr k := by
  cases n with
  | elem t a x cs tl => exact get?_erase a _ k
  | pi => simp [strip, Node.attr, Node.attrs, Dict.get?_nil]
  | comment => simp [strip, Node.attr, Node.attrs, Dict.get?_nil]

theorem extract_lines (cfg : Config) {cals : Option String} {lvl : Nat} {ls : List DocLine} {all : List Node} (h : Lines none cals lvl ls all) (hl : lvl = 0)
    (hb : Free (["GR.NOTES", "BLK"].map name) all) (hg : ∀ l ∈ ls, GoodLine cals l) (hs : ∀ n ∈ all, n.attr (cfg.q "rowstyle") = none)
    (body foot : List DocLine) (he : ls = body ++ foot) (hbody : ∀ l ∈ body, ¬ Marked l) (hfoot : ∀ l ∈ foot, Marked l ∧ ∃ c, l.cells = [c]) :
    ∃ all', extractList all = .ok (all', notesOf foot) ∧ Free [name "CORPUS"] all' ∧ (∀ n ∈ all', n.attr (cfg.q "rowstyle") = none) ∧
      Lines none cals 0 (body.map (finalLine cfg)) (all'.map (dropNode cfg true)) := by
  induction h generalizing body foot with
  | nil =>
    obtain ⟨rfl, rfl⟩ := List.append_eq_nil_iff.mp he.symm
    exact ⟨[], rfl, (fun _ _ h => by cases h), (fun _ h => by cases h), .nil 0⟩
  | skip level n ls all hn _ ih =>
    obtain ⟨h1, h2⟩ := free_cons.mp hb
    obtain ⟨all', g1, g2, g3, g4⟩ := ih hl h2 hg (fun m hm => hs m (by simp [hm])) body foot he hbody hfoot
    refine ⟨n :: all', ?_, free_cons.mpr ⟨free_sub (by decide) (noFmx_free hn), g2⟩, ?_, ?_⟩
    · unfold extractList
      rw [extract_free n (free_sub (by decide) (noFmx_free hn)), g1]
      rfl
    · intro m hm
      rcases List.mem_cons.mp hm with rfl | hm
      · exact hs _ (by simp)
      · exact g3 m hm
    · rw [List.map_cons, drop_free cfg true n (dropped_of (noFmx_free hn) (free_sub (by decide) h1))]
      exact .skip 0 _ _ _ hn g4
  | line level l ls all hlv _ ih =>
    obtain ⟨h1, h2⟩ := free_cons.mp hb
    have hgl := hg l (by simp)
    cases body with
    | nil =>
      cases foot with
      | nil => cases he
      | cons l' foot =>
        obtain ⟨rfl, rfl⟩ := List.cons.inj he
        obtain ⟨all', g1, g2, g3, g4⟩ := ih hl h2 (fun m hm => hg m (by simp [hm])) (fun m hm => hs m (by simp [hm])) [] ls rfl (by simp) (fun m hm => hfoot m (by simp [hm]))
        obtain ⟨hm, c, hc⟩ := hfoot l (by simp)
        refine ⟨all', ?_, g2, g3, g4⟩
        unfold extractList
        rw [extract_note hgl hm c hc, g1]
        rfl
    | cons l' body =>
      obtain ⟨rfl, rfl⟩ : l = l' ∧ ls = body ++ foot := List.cons.inj he
      obtain ⟨all', g1, g2, g3, g4⟩ := ih hl h2 (fun m hm => hg m (by simp [hm])) (fun m hm => hs m (by simp [hm])) body foot rfl (fun m hm => hbody m (by simp [hm])) hfoot
      refine ⟨strip l.node :: all', ?_, free_cons.mpr ⟨?_, g2⟩, ?_, ?_⟩
      · unfold extractList
        rw [extract_row hgl (hbody l (by simp)), g1]
        rfl
      · have hf := among_free hgl.among (by intro n hn; obtain ⟨c, hc, rfl⟩ := List.mem_map.mp hn; exact hgl.cells c hc)
        have ht := hgl.tag
        revert hf ht
        cases l.node with
        | elem t a x cs tl =>
          intro hf ht
          have ht : t = name "ROW" := Option.some.inj ht
          subst ht
          exact free_elem.mpr ⟨by decide, free_sub (by decide) hf⟩
        | pi => intro _ ht; exact absurd ht (by simp [Node.tag?])
        | comment => intro _ ht; exact absurd ht (by simp [Node.tag?])
      · intro m hm
        rcases List.mem_cons.mp hm with rfl | hm
        · rw [strip_attr, if_neg (by intro e; exact absurd (congrArg QName.name e) (by simp [name, Config.q])), hs _ (by simp)]
        · exact g3 m hm
      · exact .line 0 (finalLine cfg l) _ _ hgl.level g4
  | block level n inside ls all hn _ _ _ _ =>
    obtain ⟨h1, _⟩ := free_cons.mp hb
    cases n with
    | elem t a x cs tl =>
      cases hn
      exact absurd (by simp [name]) (free_elem.mp h1).1
    | pi => exact absurd hn (by simp [Node.tag?])
    | comment => exact absurd hn (by simp [Node.tag?])

theorem putNotes_foot (x : Option String) (foot : List DocLine) (before : List Node) : putNotes x before (notesOf foot) = (x, before ++ foot.map noteNode) := by
  induction foot generalizing before with
  | nil => simp [notesOf, putNotes]
  | cons l foot ih =>
    have : notesOf (l :: foot) = ⟨none, [noteNode l]⟩ :: notesOf foot := rfl
    rw [this, putNotes]
    simp only [putNote]
    rw [ih]
    simp

theorem insertList_each (cfg : Config) (ns : List Node) (h : ∀ n ∈ ns, insertBlk cfg n = .ok n) : insertBlkList cfg ns = .ok ns := by
  induction ns with
  | nil => rfl
  | cons n ns ih =>
    unfold insertBlkList
    rw [h n (by simp), ok_bind, ih (fun m hm => h m (by simp [hm])), ok_bind]
    rfl

theorem textToks_safe (x : Option String) : textToks (some (Node.safeText x)) = textToks x := by
  cases x with
  | none => simp [Node.safeText, textToks]
  | some s => rfl

theorem drop_note {cals : Option String} (cfg : Config) {l : DocLine} {c : DocCell} (hc : l.cells = [c]) (h : GoodCell cals c.node) :
    dropNode cfg true (noteNode l) =
      .elem (name "GR.NOTES") (dropAttrs cfg (Dict.erase l.node.attrs (name "TYPE"))) (some (Node.safeText c.node.text)) c.node.children none := by
  unfold noteNode firstCell
  rw [hc]
  simp only [List.map_cons, List.map_nil, List.headD_cons]
  unfold dropNode
  rw [dropList_free cfg _ _ (dropped_of (noFmx_free h.inside) h.names), if_pos (by decide)]

theorem toks_elem (n : Node) {t : QName} (h : n.tag? = some t) : ∃ a x cs tl, n = .elem t a x cs tl := by
  cases n with
  | elem t' a x cs tl => cases h; exact ⟨a, x, cs, tl, rfl⟩
  | pi => cases h
  | comment => cases h

theorem mem_drawn {d : FmxDoc} {e : DocLine × Option Node × Box} : e ∈ d.drawn ↔ e.1 ∈ d.all ∧ e.2 ∈ e.1.drawn := by
  unfold FmxDoc.drawn
  simp only [List.mem_flatMap, List.mem_map]
  constructor
  · rintro ⟨l, h1, x, h2, rfl⟩; exact ⟨h1, h2⟩
  · rintro ⟨h1, h2⟩; exact ⟨e.1, h1, e.2, h2, rfl⟩

theorem free_apart {ns : List Node} (h : Free [name "ROW"] ns) : apartNotesList ns := by
  rw [apartNotesList_iff]
  intro e he hr
  exact absurd hr.1 ((hasRowList_iff ns).mp (free_hasRowList ns h) e he)

theorem lines_apart {cals : Option String} {lvl : Nat} {ls : List DocLine} {all : List Node} (h : Lines none cals lvl ls all)
    (hb : Free [name "BLK"] all) (hg : ∀ l ∈ ls, GoodLine cals l) : apartNotesList all := by
  induction h with
  | nil => trivial
  | skip _ n _ _ hn _ ih =>
    obtain ⟨h1, h2⟩ := free_cons.mp hb
    exact ⟨(free_apart (free_sub (by decide) (noFmx_free hn))).1, ih h2 hg⟩
  | line _ m _ _ hlv _ ih =>
    obtain ⟨h1, h2⟩ := free_cons.mp hb
    refine ⟨?_, ih h2 (fun l hl => hg l (List.mem_cons_of_mem _ hl))⟩
    have hl := hg m List.mem_cons_self
    obtain ⟨a, x, cs, tl, e⟩ := toks_elem m.node hl.tag
    have hf := among_free hl.among (by intro n hn; obtain ⟨c, hc, rfl⟩ := List.mem_map.mp hn; exact hl.cells c hc)
    rw [e] at hf ⊢
    have hf' : Free [name "ROW"] cs := free_sub (by decide) hf
    refine ⟨fun _ => ?_, free_apart hf'⟩
    unfold othersFree
    exact free_hasRowList _ (free_mem.mpr (fun n hn => free_mem.mp hf' n (List.mem_of_mem_eraseP hn)))
  | block _ n _ _ _ hn _ _ _ _ =>
    obtain ⟨_, _, _, _, rfl⟩ := toks_elem n hn
    exact absurd (List.mem_singleton.mpr rfl) (free_elem.mp (free_cons.mp hb).1).1

/-- the finalisation of a table, whose rows of notes have no rows inside -/
theorem final_table_apart (cfg : Config) {w h : Nat} {body foot : List DocLine} {T : Node} {d : FmxDoc} {cals : Option String} (P : Provisional cfg.calsNs cals w h body foot T d)
    (pre : List Nat) (k : Nat) :
    apartNotes T ∧ ∃ E B, extractNode (cleanupNode (num pre k T).1) = .ok ([E], []) ∧ insertBlk cfg E = .ok B ∧
      ∃ d', Finalised cals w h body foot (dropNode cfg false B) d' := by
  obtain ⟨ta, tx, tcs, ttl, rfl⟩ := toks_elem T P.tag
  have htcs : tcs = [d.corpus] := P.only
  subst htcs
  obtain ⟨ca, cx, ccs, ctl, hcorpus⟩ := toks_elem d.corpus P.nested.corpus
  obtain ⟨top, bottom, hcs, htop, hbottom⟩ := P.nested.inCorpus
  rw [hcorpus] at hcs
  have hccs : ccs = top ++ bottom := hcs
  subst hccs
  have hfree : Free (["TBL", "GR.NOTES", "BLK"].map name) [d.corpus] := by
    intro t a ht
    exact P.names t a (by simpa [toksList] using ht)
  have hfreeT : Free [name "TBL"] [d.corpus] := free_sub (by decide) hfree
  have hfree' : Free (["TBL", "GR.NOTES", "BLK"].map name) (top ++ bottom) := by rw [hcorpus] at hfree; exact (free_elem.mp hfree).2
  obtain ⟨hft, hfb⟩ := free_append.mp hfree'
  have hst : ∀ n ∈ top ++ bottom, n.attr (cfg.q "rowstyle") = none := by
    intro n hn
    exact P.unstyled n (by rw [hcorpus]; exact hn)
  -- numbers and tables in tables
  have hnum : cleanupNode (num pre k (.elem (name "TBL") ta tx [d.corpus] ttl)).1 =
      .elem (name "TBL") (Dict.set ta (name "NO.SEQ") (noSeqText (pre ++ [k + 1]))) tx [d.corpus] ttl := by
    unfold num
    rw [if_pos rfl]
    simp only [numList_free _ _ _ hfreeT]
    unfold cleanupNode
    rw [if_pos (show name "TBL" = f "TBL" from rfl), cleanupInTable_free _ hfreeT]
  -- the lines
  have hgood : ∀ l ∈ d.lines, GoodLine cals l := by
    intro l hl
    obtain ⟨h1, h2⟩ := P.nested.rows l hl (P.plain l hl).1
    have hmem : l.node ∈ top ++ bottom ∧ l.level = 0 := by
      have : ∀ {lvl ls all}, Lines none cals lvl ls all → Free (["TBL", "GR.NOTES", "BLK"].map name) all → l ∈ ls → l.node ∈ all ∧ l.level = lvl := by
        intro lvl ls all hlines
        induction hlines with
        | nil => intro _ h; cases h
        | skip _ n _ _ _ _ ih => intro hf hm; have := ih (free_cons.mp hf).2 hm; exact ⟨by simp [this.1], this.2⟩
        | line _ m _ _ hlv _ ih =>
          intro hf hm
          rcases List.mem_cons.mp hm with rfl | hm
          · exact ⟨by simp, hlv⟩
          · have := ih (free_cons.mp hf).2 hm; exact ⟨by simp [this.1], this.2⟩
        | block _ n _ _ _ hn _ _ _ _ =>
          intro hf
          obtain ⟨_, _, _, _, rfl⟩ := toks_elem n hn
          exact absurd (by simp [name]) (free_elem.mp (free_cons.mp hf).1).1
      have := this hbottom hfb hl
      exact ⟨List.mem_append_right _ this.1, this.2⟩
    have hln : Free (["TBL", "GR.NOTES", "BLK"].map name) [l.node] := free_mem.mp hfree' _ hmem.1
    have hrow : l.node.tag? = some (name "ROW") := by rw [(P.nested.lines l hl).2, (P.plain l hl).1]; rfl
    have hlc : Free (["TBL", "GR.NOTES", "BLK"].map name) l.node.children := by
      obtain ⟨_, _, _, _, e⟩ := toks_elem l.node hrow
      rw [e] at hln ⊢
      exact (free_elem.mp hln).2
    refine ⟨(P.plain l hl).1, hmem.2, hrow, h1, ?_, free_sub (by decide) hlc⟩
    intro c hc
    refine ⟨(h2 c hc).1, (h2 c hc).2, ?_⟩
    have hcm : c.node ∈ l.node.children := by
      have : ∀ {p a}, Among none cals p a → ∀ n ∈ p, n ∈ a := by
        intro p a ha
        induction ha with
        | nil => intro n hn; cases hn
        | take n _ _ _ ih =>
          intro m hm
          rcases List.mem_cons.mp hm with rfl | hm
          · simp
          · simp [ih m hm]
        | skip n _ _ _ _ ih => intro m hm; simp [ih m hm]
      exact this h1 _ (List.mem_map.mpr ⟨c, hc, rfl⟩)
    have := free_mem.mp hlc _ hcm
    obtain ⟨_, _, _, _, e⟩ := toks_elem c.node (h2 c hc).1
    rw [e] at this ⊢
    exact free_sub (by decide) (free_elem.mp this).2
  have hlines := P.lines
  obtain ⟨bottom', g1, g2, g3, g4⟩ := extract_lines cfg hbottom rfl (free_sub (by decide) hfb) hgood (fun n hn => hst n (List.mem_append_right _ hn)) body foot hlines P.body.2
    (fun l hl => ⟨(P.foot l hl).1, (P.foot l hl).2.imp (fun c hc => hc.1)⟩)
  -- the columns
  have hcolfree : Free (["CORPUS", "ROW"].map name) top ∧ Free dropped top := by
    have : ∀ {p a}, Among none cals p a → (∀ n ∈ p, n.tag? = some ⟨cals, "colspec"⟩ ∧ NoFmx none cals n.children) →
        Free innerNames a := by
      intro p a ha
      induction ha with
      | nil => intro _ _ _ h; cases h
      | take n _ _ _ ih =>
        intro hp
        refine free_cons.mpr ⟨?_, ih (fun m hm => hp m (by simp [hm]))⟩
        obtain ⟨h1, h2⟩ := hp n (by simp)
        obtain ⟨_, _, _, _, rfl⟩ := toks_elem n h1
        refine free_elem.mpr ⟨?_, noFmx_free h2⟩
        intro hm
        obtain ⟨s, hs, e⟩ := List.mem_map.mp hm
        have : s = "colspec" := congrArg QName.name e
        subst this
        revert hs; decide
      | skip n _ _ hn _ ih => intro hp; exact free_cons.mpr ⟨noFmx_free hn, ih hp⟩
    have := this htop (by intro n hn; obtain ⟨c, hc, rfl⟩ := List.mem_map.mp hn; exact P.nested.cols c hc)
    exact ⟨free_sub (by decide) this, dropped_of this (free_sub (by decide) hft)⟩
  refine ⟨?_, ?_⟩
  · have h1 : apartNotesList (top ++ bottom) :=
      apartNotesList_append (free_apart (free_sub (by decide) hcolfree.1)) (lines_apart hbottom (free_sub (by decide) hfb) hgood)
    rw [hcorpus]
    exact ⟨fun hr => absurd hr.1 (by decide), ⟨fun hr => absurd hr.1 (by decide), h1⟩, trivial⟩
  have hextract : extractList (top ++ bottom) = .ok (top ++ bottom', notesOf foot) := by
    have : ∀ (l m m' : List Node) (ks : List Note), Free [name "ROW"] l → extractList m = .ok (m', ks) → extractList (l ++ m) = .ok (l ++ m', ks) := by
      intro l m m' ks hl hm
      induction l with
      | nil => exact hm
      | cons n l ih =>
        obtain ⟨h1, h2⟩ := free_cons.mp hl
        rw [List.cons_append]
        unfold extractList
        rw [extract_free n h1, ih h2]
        rfl
    exact this _ _ _ _ (free_sub (by decide) hcolfree.1) g1
  let corpus' : Node := .elem (name "CORPUS") ca cx (top ++ bottom') ctl
  let attrs : Dict QName String := Dict.set ta (name "NO.SEQ") (noSeqText (pre ++ [k + 1]))
  have hE : extractNode (.elem (name "TBL") attrs tx [d.corpus] ttl) = .ok ([.elem (name "TBL") attrs tx (foot.map noteNode ++ [corpus']) ttl], []) := by
    have hc1 : extractNode d.corpus = .ok ([corpus'], notesOf foot) := by
      rw [hcorpus]
      unfold extractNode
      rw [hextract]
      rfl
    have hc2 : extractList [d.corpus] = .ok ([corpus'], notesOf foot) := by
      unfold extractList
      rw [hc1]
      simp [extractList, ok_bind, except_pure]
    unfold extractNode
    rw [hc2, ok_bind]
    simp only
    rw [if_pos (show name "TBL" = f "TBL" from rfl)]
    cases foot with
    | nil => rfl
    | cons l foot =>
      rw [if_neg (by simp [notesOf]), if_pos (by rfl)]
      have h1 : [corpus'].takeWhile (fun c => !isElem "CORPUS" c) = [] := rfl
      have h2 : [corpus'].dropWhile (fun c => !isElem "CORPUS" c) = [corpus'] := rfl
      rw [h1, h2, putNotes_foot]
      rfl
  have hcellnote : ∀ l ∈ foot, ∃ c, l.cells = [c] ∧ GoodCell cals c.node := by
    intro l hl
    obtain ⟨_, c, hc, _⟩ := P.foot l hl
    exact ⟨c, hc, (hgood l (by rw [hlines]; exact List.mem_append_right _ hl)).cells c (by rw [hc]; simp)⟩
  have hB : insertBlk cfg (.elem (name "TBL") attrs tx (foot.map noteNode ++ [corpus']) ttl) = .ok (.elem (name "TBL") attrs tx (foot.map noteNode ++ [corpus']) ttl) := by
    unfold insertBlk
    rw [insertList_each cfg _ ?_, ok_bind, if_neg (by decide)]
    · rfl
    · intro n hn
      rcases List.mem_append.mp hn with hn | hn
      · obtain ⟨l, hl, rfl⟩ := List.mem_map.mp hn
        obtain ⟨c, hc, hgc⟩ := hcellnote l hl
        refine insert_free cfg _ ?_
        unfold noteNode firstCell
        rw [hc]
        exact free_elem.mpr ⟨by decide, free_sub (by decide) (noFmx_free hgc.inside)⟩
      · rw [List.mem_singleton.mp hn]
        refine insert_corpus cfg (free_append.mpr ⟨free_sub (by decide) hcolfree.1, g2⟩) ?_
        intro n hn
        rcases List.mem_append.mp hn with hn | hn
        · exact hst n (List.mem_append_left _ hn)
        · exact g3 n hn
  refine ⟨_, _, by rw [hnum]; exact hE, hB, ?_⟩
  let corpus'' : Node := .elem (name "CORPUS") ca cx (top ++ bottom'.map (dropNode cfg true)) ctl
  have hD : dropNode cfg false (.elem (name "TBL") attrs tx (foot.map noteNode ++ [corpus']) ttl) =
      .elem (name "TBL") attrs tx ((foot.map (finalNote cfg)).map (·.node) ++ [corpus'']) ttl := by
    have h1 : dropNode cfg true corpus' = corpus'' := by
      show dropNode cfg true (.elem (name "CORPUS") ca cx (top ++ bottom') ctl) = _
      unfold dropNode
      rw [if_neg (by decide), dropList_map, List.map_append, ← dropList_map, dropList_free cfg _ top hcolfree.2]
      rfl
    have h2 : (false || decide (name "TBL" = f "TBL")) = true := rfl
    unfold dropNode
    rw [if_neg (by decide), dropList_map, List.map_append, h2, List.map_cons, h1, List.map_map, List.map_map]
    rfl
  rw [hD]
  let d' : FmxDoc := ⟨corpus'', d.cols, body.map (finalLine cfg), foot.map (finalNote cfg)⟩
  have hgoodb : ∀ l ∈ body, l ∈ d.lines ∧ GoodLine cals l := fun l hl => ⟨by rw [hlines]; exact List.mem_append_left _ hl, hgood l (by rw [hlines]; exact List.mem_append_left _ hl)⟩
  have hgoodf : ∀ l ∈ foot, l ∈ d.lines ∧ GoodLine cals l := fun l hl => ⟨by rw [hlines]; exact List.mem_append_right _ hl, hgood l (by rw [hlines]; exact List.mem_append_right _ hl)⟩
  have hnotes : d.all = body ++ foot := by unfold FmxDoc.all; rw [P.notes, hlines, List.append_nil]
  have hdl : d.all = d.lines := by rw [hnotes, hlines]
  have hempty : ∀ l ∈ d.lines, l.before = [] ∧ l.after = [] := by
    intro l hl
    exact ⟨(P.drawn.rows l (by rw [hdl]; exact hl) (P.plain l hl).1).1, (P.plain l hl).2⟩
  have hsame : All₂ (fun l m => l ∈ d.lines ∧ m ∈ d'.all ∧ m.before = [] ∧ m.after = [] ∧ m.cells.map (·.box) = l.cells.map (·.box)) d.all d'.all := by
    rw [hnotes]
    show All₂ _ _ (body.map (finalLine cfg) ++ foot.map (finalNote cfg))
    have hself : ∀ (l : List DocLine) (g : DocLine → DocLine), All₂ (fun a b => b = g a ∧ a ∈ l) l (l.map g) := by
      intro l g
      have : ∀ (k : List DocLine), (∀ a ∈ k, a ∈ l) → All₂ (fun a b => b = g a ∧ a ∈ l) k (k.map g) := by
        intro k
        induction k with
        | nil => intro _; exact .nil
        | cons a k ih => intro h; exact .cons ⟨rfl, h a (by simp)⟩ (ih (fun b hb => h b (by simp [hb])))
      exact this l (fun _ h => h)
    refine All₂.append ((hself body _).imp ?_) ((hself foot _).imp ?_)
    · rintro l _ ⟨rfl, hl⟩
      have := hempty l (hgoodb l hl).1
      refine ⟨(hgoodb l hl).1, List.mem_append_left _ (List.mem_map.mpr ⟨l, hl, rfl⟩), this.1, this.2, ?_⟩
      show (l.cells.map _).map _ = _
      rw [List.map_map]
      rfl
    · rintro l _ ⟨rfl, hl⟩
      refine ⟨(hgoodf l hl).1, List.mem_append_right _ (List.mem_map.mpr ⟨l, hl, rfl⟩), rfl, rfl, ?_⟩
      show (l.cells.map _).map _ = _
      rw [List.map_map]
      rfl
  have hdrawn : ∀ l m : DocLine, l.before = [] → l.after = [] → m.before = [] → m.after = [] → m.cells.map (·.box) = l.cells.map (·.box) →
      m.drawn.map (·.2) = l.drawn.map (·.2) := by
    intro l m h1 h2 h3 h4 h5
    unfold DocLine.drawn
    rw [h1, h2, h3, h4]
    simpa [List.map_map, Function.comp_def] using h5
  have hsame' : All₂ (fun l m => m.drawn.map (·.2) = l.drawn.map (·.2)) d.all d'.all := by
    refine hsame.imp ?_
    rintro l m ⟨h0, _, h1, h2, h3⟩
    exact hdrawn l m (hempty l h0).1 (hempty l h0).2 h1 h2 h3
  have hboxes : d'.drawn.map (·.2.2) = d.drawn.map (·.2.2) := by
    unfold FmxDoc.drawn
    generalize d.all = A at hsame'
    generalize d'.all = A' at hsame'
    induction hsame' with
    | nil => rfl
    | cons h _ ih =>
      simp only [List.flatMap_cons, List.map_append, ih, List.map_map]
      congr 1
  have hshown : ∀ l ∈ d.lines, ∀ c ∈ l.cells, shownToks none (dropNode cfg true c.node) = shownToks none c.node := by
    intro l hl c hc
    obtain ⟨a, x, cs, tl, e1, e2⟩ := goodCell_drop cfg ((hgood l hl).cells c hc)
    rw [e2, e1]
    rfl
  have htagd : ∀ (b : Bool) (n : Node), (dropNode cfg b n).tag? = n.tag? := by intro b n; cases n <;> rfl
  refine ⟨d', rfl, rfl, ?_, ?_, ?_, ?_, ?_, ?_, ?_⟩
  · refine ⟨rfl, ⟨top, _, rfl, htop, g4⟩, P.nested.cols, ⟨.inr ⟨_, _, [], rfl, rfl, ?_, ?_⟩, ?_⟩, ?_, ?_, ?_, ?_⟩
    · intro n hn
      obtain ⟨m, hm, rfl⟩ := List.mem_map.mp hn
      obtain ⟨l, hl, rfl⟩ := List.mem_map.mp hm
      show (dropNode cfg true (noteNode l)).tag? ≠ _
      rw [htagd]
      show some (name "GR.NOTES") ≠ some (name "CORPUS")
      decide
    · rw [List.filter_eq_self.mpr]
      intro n hn
      obtain ⟨m, hm, rfl⟩ := List.mem_map.mp hn
      obtain ⟨l, hl, rfl⟩ := List.mem_map.mp hm
      exact decide_eq_true (htagd true (noteNode l))
    · intro m hm
      obtain ⟨l, hl, rfl⟩ := List.mem_map.mp hm
      rfl
    · intro m hm
      obtain ⟨l, hl, rfl⟩ := List.mem_map.mp hm
      have hg := (hgoodb l hl).2
      refine ⟨by show l.sort ≠ _; rw [hg.sort]; simp, ?_⟩
      show (dropNode cfg true (strip l.node)).tag? = _
      rw [htagd]
      obtain ⟨_, _, _, _, e⟩ := toks_elem l.node hg.tag
      rw [e]
      show some (name "ROW") = some ⟨none, l.sort.tag⟩
      rw [hg.sort]
      rfl
    · intro m hm _
      obtain ⟨l, hl, rfl⟩ := List.mem_map.mp hm
      have hg := (hgoodb l hl).2
      refine ⟨?_, ?_⟩
      · have hch : (finalLine cfg l).node.children = l.node.children.map (dropNode cfg true) := by
          show (dropNode cfg true (strip l.node)).children = _
          obtain ⟨_, _, _, _, e⟩ := toks_elem l.node hg.tag
          rw [e]
          show dropList cfg true _ = _
          rw [dropList_map]
          rfl
        rw [hch]
        have := among_drop cfg hg.among hg.names
        show Among none cals ((l.cells.map _).map _) _
        rw [List.map_map]
        rw [List.map_map] at this
        exact this
      · intro c' hc'
        obtain ⟨c, hc, rfl⟩ := List.mem_map.mp hc'
        have hgc := hg.cells c hc
        obtain ⟨a, x, cs, tl, e1, e2⟩ := goodCell_drop cfg hgc
        show (dropNode cfg true c.node).tag? = _ ∧ NoFmx none cals (dropNode cfg true c.node).children
        rw [e2]
        refine ⟨rfl, ?_⟩
        have := hgc.inside
        rw [e1] at this
        exact this
    · intro m hm hs
      obtain ⟨l, hl, rfl⟩ := List.mem_map.mp hm
      exact absurd (hgoodb l hl).2.sort hs
    · intro m hm hs
      rcases List.mem_append.mp hm with hm | hm
      · obtain ⟨l, hl, rfl⟩ := List.mem_map.mp hm
        exact absurd (hgoodb l hl).2.sort hs
      · obtain ⟨l, hl, rfl⟩ := List.mem_map.mp hm
        obtain ⟨c, hc, _⟩ := hcellnote l hl
        show (l.cells.map _).map _ = _
        rw [hc]
        rfl
  · refine ⟨by rw [← hsame.length]; exact P.drawn.height, ⟨P.drawn.notEmpty.1, ?_⟩, ?_, ?_, ?_, ?_, ?_, ?_, ?_, ?_, ?_⟩
    · intro e
      exact P.body.1 (List.map_eq_nil_iff.mp e)
    · intro i m hm e he
      obtain ⟨l, hl, h1⟩ := all₂_from hsame' hm
      have : e.2 ∈ l.drawn.map (·.2) := by rw [← h1]; exact List.mem_map.mpr ⟨e, he, rfl⟩
      obtain ⟨e', he', e2⟩ := List.mem_map.mp this
      rw [← e2]
      exact P.drawn.starts i l hl e' he'
    · intro m hm
      obtain ⟨l, hl, h1⟩ := hsame'.mem_right hm
      have := P.drawn.leftToRight l hl
      have h2 : (l.drawn.map (·.2)).Pairwise (fun a b : Box => a.min.x < b.min.x) := List.pairwise_map.mpr this
      rw [← h1] at h2
      exact (List.pairwise_map (f := fun x : Option Node × Box => x.2) (R := fun a b : Box => a.min.x < b.min.x)).mp h2
    · intro m hm hs
      rcases List.mem_append.mp hm with hm | hm
      · obtain ⟨l, hl, rfl⟩ := List.mem_map.mp hm
        refine ⟨(hempty l (hgoodb l hl).1).1, ?_⟩
        intro c' hc'
        obtain ⟨c, hc, rfl⟩ := List.mem_map.mp hc'
        have hsp := P.spans l (hgoodb l hl).1 c hc
        obtain ⟨a, x, cs, tl, e1, e2⟩ := goodCell_drop cfg ((hgoodb l hl).2.cells c hc)
        have hattr : ∀ k, (dropNode cfg true c.node).attr k = if k ∈ ["namest", "nameend", "morerows", "rowstyle"].map cfg.q then none else c.node.attr k := by
          intro k
          rw [e2, e1]
          exact get?_dropAttrs cfg a k
        have hk : ∀ s, s ∈ ["COLSPAN", "ROWSPAN"] → (⟨none, s⟩ : QName) ∉ ["namest", "nameend", "morerows", "rowstyle"].map cfg.q := by
          intro s hs hm
          obtain ⟨s', h1, h2⟩ := List.mem_map.mp hm
          have : s' = s := congrArg QName.name h2
          subst this
          simp only [List.mem_cons, List.not_mem_nil, or_false] at hs h1
          rcases hs with rfl | rfl <;> revert h1 <;> decide
        show CellColumns ((dropNode cfg true c.node).attr _) ((dropNode cfg true c.node).attr _) ((dropNode cfg true c.node).attr _) _ ∧
          CellRows ((dropNode cfg true c.node).attr _) ((dropNode cfg true c.node).attr _) _
        by_cases hcals : cals = cfg.calsNs
        · have hk' : ∀ s, s ∈ ["namest", "nameend", "morerows", "rowstyle"] → (⟨cals, s⟩ : QName) ∈ ["namest", "nameend", "morerows", "rowstyle"].map cfg.q :=
            fun s hs => List.mem_map.mpr ⟨s, hs, by rw [hcals]; rfl⟩
          rw [hattr, hattr, hattr, hattr, hattr, if_neg (hk _ (by simp)), if_pos (hk' _ (by simp)), if_pos (hk' _ (by simp)), if_neg (hk _ (by simp)), if_pos (hk' _ (by simp))]
          exact hsp
        · have hk' : ∀ s, (⟨cals, s⟩ : QName) ∉ ["namest", "nameend", "morerows", "rowstyle"].map cfg.q := by
            intro s hm
            obtain ⟨s', _, h2⟩ := List.mem_map.mp hm
            exact hcals (congrArg QName.ns h2).symm
          rw [hattr, hattr, hattr, hattr, hattr, if_neg (hk _ (by simp)), if_neg (hk' _), if_neg (hk' _), if_neg (hk _ (by simp)), if_neg (hk' _)]
          exact (P.drawn.rows l (by rw [hdl]; exact (hgoodb l hl).1) (hgoodb l hl).2.sort).2 c hc
      · obtain ⟨l, hl, rfl⟩ := List.mem_map.mp hm
        cases hs
    · intro m hm hs
      obtain ⟨l, hl, rfl⟩ := List.mem_map.mp hm
      exact absurd (hgoodb l hl).2.sort hs
    · intro m hm
      obtain ⟨l, hl, rfl⟩ := List.mem_map.mp hm
      refine ⟨rfl, rfl, ?_⟩
      intro c' hc'
      obtain ⟨c, hc, rfl⟩ := List.mem_map.mp hc'
      obtain ⟨_, c2, hc2, h1⟩ := P.foot l hl
      rw [hc2] at hc
      rw [List.mem_singleton.mp hc]
      exact h1
    · intro m hm b hb
      obtain ⟨l, _, _, _, h1, h2, _⟩ := hsame.mem_right hm
      rw [h1, h2] at hb
      cases hb
    · intro e he
      have : e.2.2 ∈ d.drawn.map (·.2.2) := by rw [← hboxes]; exact List.mem_map.mpr ⟨e, he, rfl⟩
      obtain ⟨e', he', e2⟩ := List.mem_map.mp this
      rw [← e2]
      exact P.drawn.valid e' he'
    · have := P.drawn.disjoint
      have h2 : (d.drawn.map (·.2.2)).Pairwise (fun a b : Box => ¬ Overlap a b) := List.pairwise_map.mpr this
      rw [← hboxes] at h2
      exact List.pairwise_map.mp h2
    · intro p p1 p2 p3 p4
      obtain ⟨e, he, h1⟩ := P.drawn.full p p1 p2 p3 p4
      have : e.2.2 ∈ d'.drawn.map (·.2.2) := by rw [hboxes]; exact List.mem_map.mpr ⟨e, he, rfl⟩
      obtain ⟨e', he', e2⟩ := List.mem_map.mp this
      exact ⟨e', he', by rw [e2]; exact h1⟩
  · intro i m hm ha
    obtain ⟨l, _, _, _, _, h2, _⟩ := all₂_from hsame hm
    exact absurd h2 ha
  · exact ⟨P.columns.number, P.columns.inside, P.columns.different⟩
  · have hself : ∀ (k : List DocLine), (∀ a ∈ k, a ∈ body) → All₂ (fun l m => SameCells l m ∧ m.sort = .row ∧ m.after = [] ∧ m.kind none = "body") k (k.map (finalLine cfg)) := by
      intro k
      induction k with
      | nil => intro _; exact .nil
      | cons l k ih =>
        intro h
        refine .cons ⟨?_, (hgoodb l (h l (by simp))).2.sort, (P.plain l (hgoodb l (h l (by simp))).1).2, ?_⟩ (ih (fun b hb => h b (by simp [hb])))
        · have hl := (hgoodb l (h l (by simp))).1
          have : ∀ (cs : List DocCell), (∀ c ∈ cs, c ∈ l.cells) → All₂ (fun a b : DocCell => b.box = a.box ∧ shownToks none b.node = shownToks none a.node) cs
              (cs.map (fun c => (⟨dropNode cfg true c.node, c.box⟩ : DocCell))) := by
            intro cs
            induction cs with
            | nil => intro _; exact .nil
            | cons c cs ih => intro h; exact .cons ⟨rfl, hshown l hl c (h c (by simp))⟩ (ih (fun b hb => h b (by simp [hb])))
          exact this l.cells (fun _ h => h)
        · have hg := (hgoodb l (h l (by simp))).2
          have hs : (finalLine cfg l).sort = .row := hg.sort
          unfold DocLine.kind
          rw [hs]
          have ht : (finalLine cfg l).node.attr ⟨none, "TYPE"⟩ = none := by
            obtain ⟨_, a, _, _, e⟩ := toks_elem l.node hg.tag
            show (dropNode cfg true (strip l.node)).attr _ = none
            rw [e]
            show Dict.get? (dropAttrs cfg (Dict.erase _ _)) _ = none
            rw [get?_dropAttrs]
            split
            · rfl
            · rw [get?_erase, if_pos (show name "TYPE" = ⟨none, "TYPE"⟩ from rfl)]
          simp only [ht]
          rfl
    exact hself body (fun _ h => h)
  · have hself : ∀ (k : List DocLine), (∀ a ∈ k, a ∈ foot) → All₂ (fun l m => SameCells l m ∧ m.sort = .note ∧ m.kind none = "footer") k (k.map (finalNote cfg)) := by
      intro k
      induction k with
      | nil => intro _; exact .nil
      | cons l k ih =>
        intro h
        refine .cons ⟨?_, rfl, rfl⟩ (ih (fun b hb => h b (by simp [hb])))
        obtain ⟨c, hc, hgc⟩ := hcellnote l (h l (by simp))
        unfold SameCells
        show All₂ _ l.cells (l.cells.map _)
        rw [hc]
        refine .cons ⟨rfl, ?_⟩ .nil
        show shownToks none (dropNode cfg true (noteNode l)) = _
        rw [drop_note cfg hc hgc]
        unfold shownToks insideToks
        show (if _ then _ else textToks (some (Node.safeText c.node.text)) ++ _) = _
        rw [textToks_safe]
        rfl
    exact hself foot (fun _ h => h)
  · intro m hm
    obtain ⟨l, hl, rfl⟩ := List.mem_map.mp hm
    obtain ⟨c, hc, hgc⟩ := hcellnote l hl
    show NoFmx none cals (dropNode cfg true (noteNode l)).children
    rw [drop_note cfg hc hgc]
    exact hgc.inside

/-- the finalisation of a table -/
theorem final_table (cfg : Config) {w h : Nat} {body foot : List DocLine} {T : Node} {d : FmxDoc} {cals : Option String} (P : Provisional cfg.calsNs cals w h body foot T d)
    (pre : List Nat) (k : Nat) :
    ∃ E B, extractNode (cleanupNode (num pre k T).1) = .ok ([E], []) ∧ insertBlk cfg E = .ok B ∧
      ∃ d', Finalised cals w h body foot (dropNode cfg false B) d' := (final_table_apart cfg P pre k).2

mutual
/-- the rows of notes are those of the tables -/
theorem apartNotes_tables : ∀ n : Node, TablesApart n → (∀ T ∈ topTables n, apartNotes T) → apartNotes n
  | .elem t a x cs tl, hn, h => by
    by_cases ht : t = name "TBL"
    · exact h _ (by simp only [topTables, if_pos ht]; simp)
    · rcases hn with hn | ⟨h1, h2, h3⟩
      · exact absurd hn ht
      exact ⟨fun hr => absurd hr.1 h2, apartNotesList_tables cs h3 (fun T hT => h T (by simp only [topTables, if_neg ht]; exact hT))⟩
  | .pi .., _, _ => trivial
  | .comment .., _, _ => trivial
theorem apartNotesList_tables : ∀ ns : List Node, TablesApartList ns → (∀ T ∈ topTablesList ns, apartNotes T) → apartNotesList ns
  | [], _, _ => trivial
  | n :: ns, hn, h => ⟨apartNotes_tables n hn.1 (fun T hT => h T (List.mem_append_left _ hT)), apartNotesList_tables ns hn.2 (fun T hT => h T (List.mem_append_right _ hT))⟩
end

/-- the rows of notes are apart in the documents whose tables are those of the builder -/
theorem provisional_apart (cfg : Config) {root : Node} (hroot : TablesApart root) {cals : Option String}
    (h : ∀ T ∈ topTables root, ∃ (d : FmxDoc) (w h : Nat) (body foot : List DocLine), Provisional cfg.calsNs cals w h body foot T d) : NotesApart root := by
  refine (apartNotes_iff _).mp (apartNotes_tables root hroot (fun T hT => ?_))
  obtain ⟨d, w, h, body, foot, P⟩ := h T hT
  exact (final_table_apart cfg P [] 0).1

/-! ### documents which are finalised -/

mutual
theorem extract_succeeds (n : Node) (hn : TablesApart n) (h : ∀ T ∈ topTables n, ∃ E, extractNode T = .ok ([E], [])) : ∃ n', extractNode n = .ok ([n'], []) := by
  cases n with
  | elem t a x cs tl =>
    by_cases ht : t = name "TBL"
    · exact h _ (by simp only [topTables, if_pos ht]; simp)
    · rcases hn with hn | ⟨h1, h2, h3⟩
      · exact absurd hn ht
      obtain ⟨l, hl⟩ := extractList_succeeds cs h3 (fun T hT => h T (by simp only [topTables, if_neg ht]; exact hT))
      refine ⟨.elem t a x l tl, ?_⟩
      unfold extractNode
      rw [hl, ok_bind]
      simp only
      rw [if_neg (show t ≠ f "TBL" from ht), if_neg (show t ≠ f "ROW" from h2)]
      rfl
  | pi => exact ⟨_, rfl⟩
  | comment => exact ⟨_, rfl⟩
theorem extractList_succeeds (ns : List Node) (hn : TablesApartList ns) (h : ∀ T ∈ topTablesList ns, ∃ E, extractNode T = .ok ([E], [])) :
    ∃ l, extractList ns = .ok (l, []) := by
  cases ns with
  | nil => exact ⟨[], rfl⟩
  | cons n ns =>
    obtain ⟨n', h1⟩ := extract_succeeds n hn.1 (fun T hT => h T (by simp only [topTablesList]; exact List.mem_append_left _ hT))
    obtain ⟨l, h2⟩ := extractList_succeeds ns hn.2 (fun T hT => h T (by simp only [topTablesList]; exact List.mem_append_right _ hT))
    refine ⟨n' :: l, ?_⟩
    unfold extractList
    rw [h1, h2]
    rfl
end

mutual
theorem insert_succeeds (cfg : Config) (n : Node) (hn : TablesApart n) (h : ∀ T ∈ topTables n, ∃ B, insertBlk cfg T = .ok B) : ∃ n', insertBlk cfg n = .ok n' := by
  cases n with
  | elem t a x cs tl =>
    by_cases ht : t = name "TBL"
    · exact h _ (by simp only [topTables, if_pos ht]; simp)
    · rcases hn with hn | ⟨h1, h2, h3⟩
      · exact absurd hn ht
      obtain ⟨l, hl⟩ := insertList_succeeds cfg cs h3 (fun T hT => h T (by simp only [topTables, if_neg ht]; exact hT))
      refine ⟨.elem t a x l tl, ?_⟩
      unfold insertBlk
      rw [hl, ok_bind, if_neg (show t ≠ f "CORPUS" from h1)]
      rfl
  | pi => exact ⟨_, rfl⟩
  | comment => exact ⟨_, rfl⟩
theorem insertList_succeeds (cfg : Config) (ns : List Node) (hn : TablesApartList ns) (h : ∀ T ∈ topTablesList ns, ∃ B, insertBlk cfg T = .ok B) :
    ∃ l, insertBlkList cfg ns = .ok l := by
  cases ns with
  | nil => exact ⟨[], rfl⟩
  | cons n ns =>
    obtain ⟨n', h1⟩ := insert_succeeds cfg n hn.1 (fun T hT => h T (by simp only [topTablesList]; exact List.mem_append_left _ hT))
    obtain ⟨l, h2⟩ := insertList_succeeds cfg ns hn.2 (fun T hT => h T (by simp only [topTablesList]; exact List.mem_append_right _ hT))
    refine ⟨n' :: l, ?_⟩
    unfold insertBlkList
    rw [h1, ok_bind, h2, ok_bind]
    rfl
end

theorem finalize_succeeds (cfg : Config) {root : Node} (hroot : TablesApart root) (hnotes : NotesApart root)
    (h : ∀ T ∈ topTables root, ∀ pre k, ∃ E B, extractNode (cleanupNode (num pre k T).1) = .ok ([E], []) ∧ insertBlk cfg E = .ok B) :
    ∃ out, finalize cfg root = .ok out := by
  have hap := cleanup_apart _ (num_apart [] 0 root hroot)
  have h1 : ∀ T' ∈ topTables (cleanupNode (num [] 0 root).1), ∃ T ∈ topTables root, ∃ pre k, T' = cleanupNode (num pre k T).1 := by
    intro T' hT'
    rw [cleanup_tables] at hT'
    obtain ⟨T1, hT1, rfl⟩ := List.mem_map.mp hT'
    obtain ⟨T, hT, pre, k, rfl⟩ := (num_tables [] 0 root).mem_right hT1
    exact ⟨T, hT, pre, k, rfl⟩
  obtain ⟨e, he⟩ := extract_succeeds _ hap (by
    intro T' hT'
    obtain ⟨T, hT, pre, k, rfl⟩ := h1 T' hT'
    obtain ⟨E, _, hE, _⟩ := h T hT pre k
    exact ⟨E, hE⟩)
  obtain ⟨_, e', heq, g1, g2⟩ := extract_tables _ hap _ _ he
  cases heq
  obtain ⟨b, hb⟩ := insert_succeeds cfg e g1 (by
    intro E hE
    obtain ⟨T', hT', hx⟩ := g2.mem_right hE
    obtain ⟨T, hT, pre, k, rfl⟩ := h1 T' hT'
    obtain ⟨E', B, hE', hB⟩ := h T hT pre k
    rw [hx] at hE'
    cases hE'
    exact ⟨B, hB⟩)
  refine ⟨dropNode cfg false b, ?_⟩
  unfold finalize
  simp only
  have : extractGrNotes (cleanupNode (updateNoSeq root)) = .ok e := by
    rw [extractGrNotes_apart (notesApart_before hnotes), updateNoSeq_num, he]
    rfl
  rw [this, ok_bind, hb, ok_bind]
  rfl

end Benker
