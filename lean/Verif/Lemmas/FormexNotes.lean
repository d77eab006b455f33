import Verif.Spec.FormexNotes
import Verif.Model.FormexFinal
import Verif.Lemmas.Dict
import Verif.Lemmas.Except

/-! The notes of a document, when every row is treated. -/

namespace Benker.Fmx
open Benker.Units

mutual
/-- the notes of a node when every row is treated: what `moveNode` does if the iteration never stops -/
def extractNode : Node → Except PyErr (List Node × List Note)
  | .elem t a x cs tl => do
    let (cs', notes) ← extractList cs
    if t = f "TBL" then
      if notes.isEmpty then pure ([.elem t a x cs' tl], [])
      else if cs'.any (isElem "CORPUS") then do
        let r := putNotes x (cs'.takeWhile (fun c => !isElem "CORPUS" c)) notes
        pure ([.elem t a r.1 (r.2 ++ cs'.dropWhile (fun c => !isElem "CORPUS" c)) tl], [])
      else .error .typeError
    else if t = f "ROW" then
      if Dict.get? a (f "TYPE") = some "__GR.NOTES__" then do
        let k ← makeNote (Dict.erase a (f "TYPE")) cs'
        pure ([], k :: notes)
      else pure ([.elem t (Dict.erase a (f "TYPE")) x cs' tl], notes)
    else pure ([.elem t a x cs' tl], notes)
  | n => pure ([n], [])
/-- the notes of a list of nodes when every row is treated -/
def extractList : List Node → Except PyErr (List Node × List Note)
  | [] => pure ([], [])
  | n :: ns => do
    let (l, notes) ← extractNode n
    let (ls, notess) ← extractList ns
    pure (l ++ ls, notes ++ notess)
end

end Benker.Fmx

namespace Benker
open FmxSpec Fmx

/-- a result of the iteration which has not stopped -/
def on {α β : Type} (p : α × β) : α × β × Bool := (p.1, p.2, false)

theorem extract_elem {t : QName} {a : Dict QName String} (x : Option String) (cs : List Node) (tl : Option String)
    (h : ¬ (t = f "ROW" ∧ Dict.get? a (f "TYPE") = some "__GR.NOTES__")) :
    extractNode (.elem t a x cs tl) = (extractList cs).bind (fun p => closeElem t a x p.1 tl p.2) := by
  unfold extractNode closeElem
  cases extractList cs with
  | error e => rfl
  | ok p =>
    show _ = if _ then _ else _
    by_cases h1 : t = f "TBL"
    · simp only [if_pos h1, ok_bind]
    · by_cases h2 : t = f "ROW"
      · have h3 : ¬ Dict.get? a (f "TYPE") = some "__GR.NOTES__" := fun e => h ⟨h2, e⟩
        simp only [if_neg h1, if_pos h2, if_neg h3, ok_bind]
      · simp only [if_neg h1, if_neg h2, ok_bind]

theorem isElem_tag {s : String} {n : Node} : isElem s n = true ↔ n.tag? = some (name s) := by
  unfold isElem
  exact decide_eq_true_iff

mutual
theorem hasRow_iff : ∀ n : Node, hasRow n = false ↔ ∀ d ∈ preorder n, d.tag? ≠ some (name "ROW")
  | .elem t a x cs tl => by
    unfold hasRow preorder
    have h1 := hasRowList_iff cs
    by_cases ht : t = f "ROW"
    · simp [ht, Node.tag?, name, f]
    · have ht' : ¬ t = name "ROW" := ht
      simp [ht, Node.tag?, h1, ht']
  | .pi .. => by simp [hasRow, preorder]
  | .comment .. => by simp [hasRow, preorder]
theorem hasRowList_iff : ∀ ns : List Node, hasRowList ns = false ↔ ∀ d ∈ preorderList ns, d.tag? ≠ some (name "ROW")
  | [] => by simp [hasRowList, preorderList]
  | n :: ns => by
    have h1 := hasRow_iff n
    have h2 := hasRowList_iff ns
    unfold hasRowList preorderList
    rw [Bool.or_eq_false_iff, h1, h2]
    constructor
    · rintro ⟨a, b⟩ d hd
      exact (List.mem_append.mp hd).elim (a d) (b d)
    · intro g
      exact ⟨fun d hd => g d (List.mem_append_left _ hd), fun d hd => g d (List.mem_append_right _ hd)⟩
end

mutual
theorem extract_noRow : ∀ n : Node, hasRow n = false → extractNode n = .ok ([n], [])
  | .elem t a x cs tl, h => by
    unfold hasRow at h
    rw [Bool.or_eq_false_iff, decide_eq_false_iff_not] at h
    unfold extractNode
    rw [extractList_noRow cs h.2, ok_bind]
    simp only
    by_cases ht : t = f "TBL"
    · rw [if_pos ht]; rfl
    · rw [if_neg ht, if_neg h.1]; rfl
  | .pi .., _ => rfl
  | .comment .., _ => rfl
theorem extractList_noRow : ∀ ns : List Node, hasRowList ns = false → extractList ns = .ok (ns, [])
  | [], _ => rfl
  | n :: ns, h => by
    unfold hasRowList at h
    rw [Bool.or_eq_false_iff] at h
    unfold extractList
    rw [extract_noRow n h.1, extractList_noRow ns h.2]
    rfl
end

/-- no other child than the first cell has rows -/
def othersFree (cs : List Node) : Prop := hasRowList (cs.eraseP (fun c => c.tag? = some (name "CELL"))) = false

theorem notesApart_row {t : QName} {a : Dict QName String} {x tl : Option String} {cs : List Node}
    (h : NotesApartList [.elem t a x cs tl]) (hr : t = f "ROW" ∧ Dict.get? a (f "TYPE") = some "__GR.NOTES__") : othersFree cs := by
  refine (hasRowList_iff _).mpr (h (.elem t a x cs tl) (by simp [preorderList, preorder]) ⟨?_, hr.2⟩)
  rw [hr.1]; rfl

theorem notesApart_children {t : QName} {a : Dict QName String} {x tl : Option String} {cs : List Node}
    (h : NotesApartList [.elem t a x cs tl]) : NotesApartList cs :=
  fun e he => h e (by simp only [preorderList, preorder, List.append_nil]; exact List.mem_cons_of_mem _ he)

theorem notesApart_cons {n : Node} {ns : List Node} : NotesApartList (n :: ns) ↔ NotesApartList [n] ∧ NotesApartList ns := by
  constructor
  · intro h
    refine ⟨fun e he => h e ?_, fun e he => h e ?_⟩
    · simp only [preorderList, List.append_nil] at he ⊢; exact List.mem_append_left _ he
    · simp only [preorderList] at he ⊢; exact List.mem_append_right _ he
  · rintro ⟨h1, h2⟩ e he
    simp only [preorderList] at he
    rcases List.mem_append.mp he with he | he
    · exact h1 e (by simp only [preorderList, List.append_nil]; exact he)
    · exact h2 e he

theorem othersFree_goesOn : ∀ {cs : List Node}, othersFree cs → goesOn cs = true
  | [], _ => rfl
  | n :: ns, h => by
    unfold othersFree at h
    unfold goesOn
    by_cases hc : n.tag? = some (name "CELL")
    · rw [List.eraseP_cons_of_pos (by simpa using hc)] at h
      by_cases hr : hasRow n
      · have : isElem "CELL" n = true := isElem_tag.mpr hc
        simp [hr, this]
      · have hall : ∀ c ∈ n :: ns, hasRow c = false := by
          intro c hm
          rcases List.mem_cons.mp hm with rfl | hm
          · simpa using hr
          · exact (hasRow_iff c).mpr (fun d hd => (hasRowList_iff ns).mp h d (by
              clear h hr hc
              induction ns with
              | nil => cases hm
              | cons m ms ih =>
                unfold preorderList
                rcases List.mem_cons.mp hm with rfl | hm
                · exact List.mem_append_left _ hd
                · exact List.mem_append_right _ (ih (by simp [hm]) hm)))
        have : (n :: ns).dropWhile (fun c => !hasRow c) = [] := by
          have : ∀ l : List Node, (∀ c ∈ l, hasRow c = false) → l.dropWhile (fun c => !hasRow c) = [] := by
            intro l hl
            induction l with
            | nil => rfl
            | cons m ms ih =>
              rw [List.dropWhile_cons_of_pos (by simp [hl m List.mem_cons_self])]
              exact ih (fun c hm => hl c (List.mem_cons_of_mem _ hm))
          exact this _ hall
        rw [this]
    · rw [List.eraseP_cons_of_neg (by simpa using hc)] at h
      unfold hasRowList at h
      rw [Bool.or_eq_false_iff] at h
      have ih := othersFree_goesOn (cs := ns) h.2
      unfold goesOn at ih
      have hc' : isElem "CELL" n = false := by
        cases e : isElem "CELL" n with
        | false => rfl
        | true => exact absurd (isElem_tag.mp e) hc
      rw [List.dropWhile_cons_of_pos (by simp [h.1]), List.takeWhile_cons_of_pos (by simp [h.1])]
      split at ih
      · rfl
      · simpa [hc'] using ih

mutual
/-- the rows are treated one after another when no row of notes has rows inside, except in its first cell -/
theorem move_apart : ∀ n : Node, NotesApartList [n] → moveNode false n = (extractNode n).map on
  | .elem t a x cs tl, h => by
    unfold moveNode
    rw [if_neg (by decide)]
    by_cases hr : t = f "ROW" ∧ Dict.get? a (f "TYPE") = some "__GR.NOTES__"
    · have ho := notesApart_row h hr
      rw [if_pos hr, if_pos (othersFree_goesOn ho), moveFirst_apart cs (notesApart_children h) ho]
      unfold extractNode
      cases extractList cs with
      | error e => rfl
      | ok p =>
        have ht : ¬ t = f "TBL" := by rw [hr.1]; decide
        simp only [if_neg ht, if_pos hr.1, if_pos hr.2, ok_bind, Except.map, on]
        cases makeNote (Dict.erase a (f "TYPE")) p.1 with
        | error e => rfl
        | ok k => rfl
    · rw [if_neg hr, moveList_apart cs (notesApart_children h), extract_elem x cs tl hr]
      cases extractList cs with
      | error e => rfl
      | ok p =>
        simp only [Except.map, on, ok_bind, Except.bind]
        cases closeElem t a x p.1 tl p.2 with
        | error e => rfl
        | ok r => rfl
  | .pi .., _ => rfl
  | .comment .., _ => rfl
theorem moveList_apart : ∀ ns : List Node, NotesApartList ns → moveList false ns = (extractList ns).map on
  | [], _ => rfl
  | n :: ns, h => by
    obtain ⟨h1, h2⟩ := notesApart_cons.mp h
    unfold moveList extractList
    rw [move_apart n h1]
    cases extractNode n with
    | error e => rfl
    | ok p =>
      simp only [Except.map, on, ok_bind]
      rw [moveList_apart ns h2]
      cases extractList ns with
      | error e => rfl
      | ok q => rfl
theorem moveFirst_apart : ∀ cs : List Node, NotesApartList cs → othersFree cs → moveFirst cs = (extractList cs).map on
  | [], _, _ => rfl
  | n :: ns, h, ho => by
    obtain ⟨h1, h2⟩ := notesApart_cons.mp h
    unfold othersFree at ho
    unfold moveFirst extractList
    by_cases hc : n.tag? = some (name "CELL")
    · rw [List.eraseP_cons_of_pos (by simpa using hc)] at ho
      have hc' : isElem "CELL" n = true := isElem_tag.mpr hc
      rw [if_pos hc', move_apart n h1, extractList_noRow ns ho]
      cases extractNode n with
      | error e => rfl
      | ok p =>
        simp only [Except.map, on, ok_bind, List.append_nil]
        rfl
    · rw [List.eraseP_cons_of_neg (by simpa using hc)] at ho
      unfold hasRowList at ho
      rw [Bool.or_eq_false_iff] at ho
      have hc' : ¬ isElem "CELL" n = true := fun e => hc (isElem_tag.mp e)
      rw [if_neg hc', moveFirst_apart ns h2 ho.2, extract_noRow n ho.1]
      cases extractList ns with
      | error e => rfl
      | ok q => rfl
end

/-- the notes of a document where the rows are treated one after another -/
theorem extractGrNotes_apart {n : Node} (h : NotesApart n) :
    extractGrNotes n = (extractNode n).bind (fun p => match p.1, p.2 with | [n], [] => pure n | _, _ => .error .stopIteration) := by
  unfold extractGrNotes
  rw [move_apart n h]
  cases extractNode n with
  | error e => rfl
  | ok p => rfl

end Benker
