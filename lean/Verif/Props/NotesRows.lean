import Verif.Lemmas.NotesRows
import Verif.Spec.EndToEnd

/-! C105: no row of notes is left in a converted document. -/

namespace Benker.NotesRows
open PyM Fmx Benker.Origin Benker.Convert FmxSpec Benker.FileSpec

/-- **C105**: once a document is finalised, no row of notes is left in it, if no row of notes had rows inside, except in its first cell
(see `C105_counterexample`). -/
theorem C105_none_left_partial (cfg : Fmx.Config) (root out : Node) (hnotes : NotesApart root) (h : finalize cfg root = .ok out) :
    ∀ e ∈ preorder out, ¬ NotesRow e := by
  have := notNotes_only.mp (finalize_clean hnotes h)
  simpa [preorderList] using this

/-- no row of notes in the document whose tables have been converted: they are apart, and none is left after the finalisation -/
theorem of_none {mid : Node} (h : ∀ e ∈ preorder mid, ¬ NotesRow e) : NotesApart mid := fun e he hr => absurd hr (h e (by simpa [preorderList] using he))

/-- **C105**, Word to Formex: whatever the tables, even in the cells of other ones, no row of notes is written, and the finalisation leaves none, if there was none in the
document. -/
theorem C105_word (pc : Ooxml.Config) (bc : Fmx.Config) (limit : Nat) (doc : Node) (hdoc : ∀ e ∈ preorder doc, ¬ NotesRow e) :
    RawApart (ooxml2formex pc bc) limit doc ∧
    ∀ mid, transformTables (ooxml2formex pc bc) limit doc = .ok mid → (∀ e ∈ preorder mid, ¬ NotesRow e) ∧
      ∀ out, finalize bc mid = .ok out → ∀ e ∈ preorder out, ¬ NotesRow e := by
  have h1 : ∀ mid, transformTables (ooxml2formex pc bc) limit doc = .ok mid → ∀ e ∈ preorder mid, ¬ NotesRow e := by
    intro mid h
    have := notNotes_only.mp (word_only (notNotes_only.mpr (by simpa [preorderList] using hdoc)) h)
    simpa [preorderList] using this
  exact ⟨fun mid h => of_none (h1 mid h), fun mid h => ⟨h1 mid h, fun out hf => C105_none_left_partial bc mid out (of_none (h1 mid h)) hf⟩⟩

/-- **C105**, CALS to Formex: the same for a document without footers, whatever the tables in the cells of other ones. -/
theorem C105_cals_without_footers (pc : CalsP.Config) (bc : Fmx.Config) (limit : Nat) (doc : Node) (hdoc : ∀ e ∈ preorder doc, ¬ NotesRow e)
    (hfoot : ∀ e ∈ preorder doc, ∀ t, e.tag? = some t → t.name ≠ "tfoot") :
    RawApart (cals2formex pc bc) limit doc ∧
    ∀ mid, transformTables (cals2formex pc bc) limit doc = .ok mid → (∀ e ∈ preorder mid, ¬ NotesRow e) ∧
      ∀ out, finalize bc mid = .ok out → ∀ e ∈ preorder out, ¬ NotesRow e := by
  have h0 : Only NotFoot [doc] := by
    refine only_toks (fun k hk => ⟨notNotes_free hk, fun t a e => absurd e (hk t a)⟩) ?_
    intro t a x cs tl hm
    refine ⟨?_, fun t' a' e => by cases e; exact hfoot _ hm _ rfl⟩
    intro a' e ht
    cases e
    exact hdoc _ hm ⟨rfl, ht⟩
  have h1 : ∀ mid, transformTables (cals2formex pc bc) limit doc = .ok mid → ∀ e ∈ preorder mid, ¬ NotesRow e := by
    intro mid h
    have h2 : Only NotNotes [mid] := fun k hk => (cals_only h0 h k hk).1
    have := notNotes_only.mp h2
    simpa [preorderList] using this
  exact ⟨fun mid h => of_none (h1 mid h), fun mid h => ⟨h1 mid h, fun out hf => C105_none_left_partial bc mid out (of_none (h1 mid h)) hf⟩⟩

/-- **C105**, CALS to Formex: no row of notes is left if no table was in another one, whatever the footers. -/
theorem C105_cals_not_nested (pc : CalsP.Config) (bc : Fmx.Config) (limit : Nat) (doc : Node) (hdoc : ∀ e ∈ preorder doc, e.tag? ≠ some (name "ROW"))
    (hnest : NotNested ⟨pc.ns, "table"⟩ doc) :
    RawApart (cals2formex pc bc) limit doc ∧
    ∀ mid out, transformTables (cals2formex pc bc) limit doc = .ok mid → finalize bc mid = .ok out → ∀ e ∈ preorder out, ¬ NotesRow e := by
  have h0 : Only (Avoids [f "ROW"]) [doc] := by
    refine avoids_only.mpr (fun e he t ht hm => ?_)
    rw [List.mem_singleton.mp hm] at ht
    exact hdoc e (by simpa [preorderList] using he) ht
  have h2 : RawApart (cals2formex pc bc) limit doc := fun mid h => notesApart_flat (cals_flat h0 hnest h)
  exact ⟨h2, fun mid out h hf => C105_none_left_partial bc mid out (h2 mid h) hf⟩

/-! ### examples -/

/-- a CALS element -/
def ce (tag : String) (cs : List Node) : Node := .elem ⟨none, tag⟩ [] none cs none

/-- an entry with a text -/
def cText (s : String) : Node := .elem ⟨none, "entry"⟩ [] (some s) [] none

/-- a CALS table with one row in its body and one in its footer -/
def cFoot (body foot : List Node) : Node :=
  ce "table" [ce "tgroup" [ce "tfoot" [ce "row" foot], ce "tbody" [ce "row" body]]]

/-- a table with a note -/
def noted : Node := cFoot [cText "a", cText "b"] [cText "note"]

/-- a table with a table in the second cell of its footer -/
def footInFoot : Node :=
  cFoot [cText "a", cText "b"] [cText "note", ce "entry" [ce "table" [ce "tgroup" [ce "tbody" [ce "row" [cText "x"]]]]]]

/-- a table with a table in its body, and no footer -/
def footless : Node :=
  ce "table" [ce "tgroup" [ce "tbody" [ce "row" [cText "a", ce "entry" [ce "table" [ce "tgroup" [ce "tbody" [ce "row" [cText "x"]]]]]]]]]

/-- the parser and the builder of the examples -/
def pcD : CalsP.Config := ⟨none, ['m', 'm'], id⟩
def bcD : Fmx.Config := ⟨false, false, none, ['m', 'm'], id⟩

/-- how many rows of notes there are before and after the finalisation, and are they apart before it? -/
def notesOf (c : Conv) (b : Fmx.Config) (doc : Node) : Option (Nat × Nat × Bool) :=
  match transformTables c 100 doc with
  | .error _ => none
  | .ok mid =>
    match finalize b mid with
    | .error _ => none
    | .ok out => some ((preorder mid).countP (fun e => decide (NotesRow e)), (preorder out).countP (fun e => decide (NotesRow e)), decide (NotesApart mid))

theorem notesOf_ok {c : Conv} {b : Fmx.Config} {doc : Node} {i j : Nat} {a : Bool} (h : notesOf c b doc = some (i, j, a)) :
    ∃ mid out, transformTables c 100 doc = .ok mid ∧ finalize b mid = .ok out ∧
      (preorder mid).countP (fun e => decide (NotesRow e)) = i ∧ (preorder out).countP (fun e => decide (NotesRow e)) = j ∧ decide (NotesApart mid) = a := by
  unfold notesOf at h
  split at h
  · cases h
  · next mid h1 =>
    split at h
    · cases h
    · next out h2 => cases h; exact ⟨mid, out, h1, h2, rfl, rfl, rfl⟩

/-- **C105** is false without its hypothesis: a CALS document without any Formex element, where a table has a table in the second cell of its footer.  The row of notes of the
table which follows is left as it was, although it is moved if this table is alone. -/
theorem C105_counterexample : ∃ (pc : CalsP.Config) (bc : Fmx.Config) (t1 t2 mid out mid' out' : Node),
    (∀ e ∈ preorder (ce "doc" [t1, t2]), ∀ t, e.tag? = some t → t ∉ formexNames.map name) ∧
    transformTables (cals2formex pc bc) 100 (ce "doc" [t1, t2]) = .ok mid ∧ finalize bc mid = .ok out ∧ (∃ e ∈ preorder out, NotesRow e) ∧
    transformTables (cals2formex pc bc) 100 (ce "doc" [t2]) = .ok mid' ∧ finalize bc mid' = .ok out' ∧ ∀ e ∈ preorder out', ¬ NotesRow e := by
  obtain ⟨mid, out, h1, h2, -, h3, -⟩ := notesOf_ok (show notesOf (cals2formex pcD bcD) bcD (ce "doc" [footInFoot, noted]) = some (2, 1, false) by decide +kernel)
  obtain ⟨mid', out', h4, h5, -, h6, -⟩ := notesOf_ok (show notesOf (cals2formex pcD bcD) bcD (ce "doc" [noted]) = some (1, 0, true) by decide +kernel)
  refine ⟨pcD, bcD, footInFoot, noted, mid, out, mid', out', by decide +kernel, h1, h2, ?_, h4, h5, ?_⟩
  · obtain ⟨e, he, hr⟩ := List.countP_pos_iff.mp (show 0 < _ by rw [h3]; decide)
    exact ⟨e, he, of_decide_eq_true hr⟩
  · intro e he hr
    exact absurd (decide_eq_true hr) (List.countP_eq_zero.mp h6 e he)

/-- not vacuous: two tables with notes, which are not in one another -/
example : ∃ mid out, (∀ e ∈ preorder (ce "doc" [noted, noted]), e.tag? ≠ some (name "ROW")) ∧ NotNested ⟨pcD.ns, "table"⟩ (ce "doc" [noted, noted]) ∧
    transformTables (cals2formex pcD bcD) 100 (ce "doc" [noted, noted]) = .ok mid ∧ finalize bcD mid = .ok out ∧ NotesApart mid ∧
    (preorder mid).countP (fun e => decide (NotesRow e)) = 2 := by
  obtain ⟨mid, out, h1, h2, h3, -, h4⟩ := notesOf_ok (show notesOf (cals2formex pcD bcD) bcD (ce "doc" [noted, noted]) = some (2, 0, true) by decide +kernel)
  exact ⟨mid, out, by decide +kernel, by decide +kernel, h1, h2, of_decide_eq_true h4, h3⟩

/-- not vacuous: a table in a table, without footer -/
example : ∃ mid out, (∀ e ∈ preorder (ce "doc" [footless]), ¬ NotesRow e) ∧ (∀ e ∈ preorder (ce "doc" [footless]), ∀ t, e.tag? = some t → t.name ≠ "tfoot") ∧
    transformTables (cals2formex pcD bcD) 100 (ce "doc" [footless]) = .ok mid ∧ finalize bcD mid = .ok out := by
  obtain ⟨mid, out, h1, h2, -⟩ := notesOf_ok (show notesOf (cals2formex pcD bcD) bcD (ce "doc" [footless]) = some (0, 0, true) by decide +kernel)
  exact ⟨mid, out, by decide +kernel, by decide +kernel, h1, h2⟩

/-- not vacuous: a Word document -/
example : ∃ mid out, (∀ e ∈ preorder (withTables wordMerge), ¬ NotesRow e) ∧
    transformTables (ooxml2formex wConfig bcD) 100 (withTables wordMerge) = .ok mid ∧ finalize bcD mid = .ok out := by
  obtain ⟨mid, out, h1, h2, -⟩ := notesOf_ok (show notesOf (ooxml2formex wConfig bcD) bcD (withTables wordMerge) = some (0, 0, true) by decide +kernel)
  exact ⟨mid, out, by decide +kernel, h1, h2⟩

end Benker.NotesRows
