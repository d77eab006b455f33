import Verif.Props.Origin
import Verif.Spec.FormexNotes
import Verif.Lemmas.FormexFinalised

/-! Where the rows of notes come from, and where they go. -/

namespace Benker.NotesRows
open PyM Fmx Benker.Origin Benker.Convert

/-- a token which does not begin a row of notes -/
def NotNotes (k : Tok) : Prop := ∀ a, k = .opening (f "ROW") a → Dict.get? a (f "TYPE") ≠ some "__GR.NOTES__"

mutual
theorem only_toks {P : Tok → Prop} (hP : ∀ k, (∀ t a, k ≠ .opening t a) → P k) : ∀ {n : Node},
    (∀ t a x cs tl, Node.elem t a x cs tl ∈ preorder n → P (.opening t a)) → Only P [n]
  | .elem t a x cs tl, h => by
    refine only_elem.mpr ⟨h t a x cs tl (by simp [preorder]), ?_, only_toksList hP (fun t' a' x' cs' tl' hm => h t' a' x' cs' tl' (by simp [preorder, hm])),
      hP _ (by intro _ _ e; cases e), ?_⟩
    · intro k hk
      exact hP k (text_not hk)
    · intro k hk
      exact hP k (text_not hk)
  | .pi .., _ => by
    intro k hk
    simp only [toksList, toks, List.append_nil, List.mem_cons] at hk
    rcases hk with rfl | hk
    · exact hP _ (by intro _ _ e; cases e)
    · exact hP k (text_not hk)
  | .comment .., _ => by
    intro k hk
    simp only [toksList, toks, List.append_nil, List.mem_cons] at hk
    rcases hk with rfl | hk
    · exact hP _ (by intro _ _ e; cases e)
    · exact hP k (text_not hk)
theorem only_toksList {P : Tok → Prop} (hP : ∀ k, (∀ t a, k ≠ .opening t a) → P k) : ∀ {ns : List Node},
    (∀ t a x cs tl, Node.elem t a x cs tl ∈ preorderList ns → P (.opening t a)) → Only P ns
  | [], _ => only_nil
  | n :: ns, h => only_cons.mpr ⟨only_toks hP (fun t a x cs tl hm => h t a x cs tl (by simp [preorderList, hm])),
      only_toksList hP (fun t a x cs tl hm => h t a x cs tl (by simp [preorderList, hm]))⟩
theorem text_not {x : Option String} {k : Tok} (h : k ∈ textToks x) : ∀ t a, k ≠ .opening t a := by
  intro t a e
  subst e
  unfold textToks at h
  split at h
  · cases h
  · obtain ⟨c, _, hc⟩ := List.mem_map.mp h
    cases hc
end

theorem notNotes_free {k : Tok} (h : ∀ t a, k ≠ .opening t a) : NotNotes k := fun a e => absurd e (h _ a)

theorem notNotes_tag {t : QName} (h : t ≠ f "ROW") (a : Dict QName String) : NotNotes (.opening t a) := fun a e => by cases e; exact absurd rfl h

theorem notNotes_text (x : Option String) : OnlyText NotNotes x := fun _ hk => notNotes_free (text_not hk)

theorem notNotes_names : ∀ n ∈ formexNames.erase "ROW", ∀ a, NotNotes (.opening (f n) a) ∧ NotNotes (.closing (f n)) := by
  intro n hn a
  refine ⟨notNotes_tag (fun e => ?_) a, notNotes_free (by intro _ _ e; cases e)⟩
  have : n = "ROW" := congrArg QName.name e
  subst this
  exact absurd hn (by decide)

/-- no row of notes begins in the tokens of the nodes exactly if none of their elements is such a row -/
theorem notNotes_only {ns : List Node} : Only NotNotes ns ↔ ∀ e ∈ preorderList ns, ¬ NotesRow e := by
  constructor
  · intro h e he hr
    have h1 := only_preorderList h e he
    cases e with
    | elem t a x cs tl =>
      have ht : t = f "ROW" := Option.some.inj hr.1
      subst ht
      exact (only_elem.mp h1).1 a rfl hr.2
    | pi => cases hr.1
    | comment => cases hr.1
  · intro h
    refine only_toksList (fun k hk => notNotes_free hk) ?_
    intro t a x cs tl hm a' e ht
    cases e
    exact h _ hm ⟨rfl, ht⟩

mutual
/-- no row of notes is left when every row is treated -/
theorem extract_clean (n : Node) (r : List Node × List Note) (he : extractNode n = .ok r) : Only NotNotes r.1 ∧ ∀ k ∈ r.2, OnlyNote NotNotes k := by
  have hno : ∀ k ∈ ([] : List Note), OnlyNote NotNotes k := fun k hk => by cases hk
  cases n with
  | elem t a x cs tl =>
    unfold extractNode at he
    obtain ⟨⟨cs', notes⟩, hcs, he⟩ := bind_ok he
    dsimp only at he
    obtain ⟨g1, g2⟩ := extractList_clean cs _ hcs
    have close : ∀ {a' : Dict QName String} {x' : Option String} {l : List Node}, NotNotes (.opening t a') → Only NotNotes l →
        Only NotNotes [.elem t a' x' l tl] := fun h1 h2 =>
      only_elem.mpr ⟨h1, notNotes_text _, h2, notNotes_free (by intro _ _ e; cases e), notNotes_text _⟩
    split at he
    · next ht =>
      have h1 : ∀ a', NotNotes (.opening t a') := notNotes_tag (by rw [ht]; decide)
      split at he
      · cases he; exact ⟨close (h1 _) g1, hno⟩
      · split at he
        · cases he
          obtain ⟨-, p2⟩ := putNotes_only (text := x) (before := cs'.takeWhile (fun c => !isElem "CORPUS" c)) (notNotes_text _)
            (only_sub g1 (fun n hn => List.takeWhile_sublist _ |>.subset hn)) g2
          exact ⟨close (h1 _) (only_append.mpr ⟨p2, only_sub g1 (fun n hn => List.dropWhile_sublist _ |>.subset hn)⟩), hno⟩
        · cases he
    · split at he
      · next ht =>
        split at he
        · obtain ⟨k, hk, he⟩ := bind_ok he
          cases he
          refine ⟨only_nil, fun k' hk' => ?_⟩
          rcases List.mem_cons.mp hk' with rfl | hk'
          · exact makeNote_only notNotes_names g1 hk
          · exact g2 k' hk'
        · cases he
          refine ⟨close ?_ g1, g2⟩
          intro a' e
          cases e
          rw [get?_erase, if_pos rfl]
          intro h
          cases h
      · next ht => cases he; exact ⟨close (notNotes_tag ht _) g1, g2⟩
  | pi => cases he; exact ⟨only_toks (fun k hk => notNotes_free hk) (by intro _ _ _ _ _ hm; cases hm), hno⟩
  | comment => cases he; exact ⟨only_toks (fun k hk => notNotes_free hk) (by intro _ _ _ _ _ hm; cases hm), hno⟩
theorem extractList_clean (ns : List Node) (r : List Node × List Note) (he : extractList ns = .ok r) : Only NotNotes r.1 ∧ ∀ k ∈ r.2, OnlyNote NotNotes k := by
  cases ns with
  | nil => cases he; exact ⟨only_nil, fun k hk => by cases hk⟩
  | cons n ns =>
    unfold extractList at he
    obtain ⟨⟨l, k1⟩, h1, he⟩ := bind_ok he
    obtain ⟨⟨ls, k2⟩, h2, he⟩ := bind_ok he
    cases he
    obtain ⟨a1, a2⟩ := extract_clean n _ h1
    obtain ⟨b1, b2⟩ := extractList_clean ns _ h2
    exact ⟨only_append.mpr ⟨a1, b1⟩, fun k hk => (List.mem_append.mp hk).elim (a2 k) (b2 k)⟩
end

theorem guess_type {s ty : String} (h : (guessRowInfo (some s)).type = some ty) : ty ≠ "__GR.NOTES__" := by
  unfold guessRowInfo at h
  simp only at h
  cases hm : rowMatches s.toList with
  | nil => rw [hm] at h; cases h
  | cons m tl =>
    obtain ⟨_, h2, _⟩ := rowMatches_mem (by rw [hm]; exact List.mem_cons_self : m ∈ rowMatches s.toList)
    rw [hm] at h
    obtain ⟨x, hx, e⟩ := Option.map_eq_some_iff.mp h
    obtain ⟨w, hw, rfl⟩ := h2 x hx
    rw [String.ofList_toList] at e
    subst e
    revert hw
    simp only [types, List.mem_cons, List.not_mem_nil, or_false]
    rintro (rfl | rfl | rfl | rfl | rfl) <;> decide

/-- no row of notes is left in a finalised document whose rows of notes are apart -/
theorem finalize_clean {cfg : Fmx.Config} {root out : Node} (h : NotesApart root) (he : finalize cfg root = .ok out) : Only NotNotes [out] := by
  unfold finalize at he
  simp only at he
  obtain ⟨x, h1, he⟩ := bind_ok he
  obtain ⟨y, h2, he⟩ := bind_ok he
  cases he
  have hR : ∀ a a', Dict.get? a' (f "TYPE") = none ∨ Dict.get? a' (f "TYPE") = Dict.get? a (f "TYPE") → NotNotes (.opening (f "ROW") a) →
      NotNotes (.opening (f "ROW") a') := by
    intro a a' h hp b e
    cases e
    rcases h with h | h
    · rw [h]; intro h; cases h
    · rw [h]; exact hp a rfl
  refine drop_only notNotes_names hR cfg _ _ (insert_only notNotes_names ?_ _ _ ?_ h2).2
  · intro q a s ty hs hty hp b e
    cases e
    rw [Dict.get?_set, if_pos rfl]
    intro h
    exact guess_type hty (Option.some.inj h)
  · rw [extractGrNotes_apart (notesApart_before h)] at h1
    obtain ⟨r, hr, h1⟩ := bind_ok h1
    have h4 := (extract_clean _ r hr).1
    split at h1
    · next e _ => cases h1; rw [e] at h4; exact h4
    · cases h1

/-! ### rows which are not in a footer -/

/-- no row and no cell is in a footer -/
def noFoot : Demands where
  table _ _ := True
  view _ _ _ := True
  cell _ _ := True
  nature n := n ≠ some "footer"
  content _ := True

theorem noFoot_none : noFoot.nature none := by intro h; cases h

namespace OfCals
open CalsP
variable {cfg : CalsP.Config}

theorem rowLooks_nature {p : Option Node} {n : Node} {st : Styles} {nature : Option String} (hp : ∀ m, p = some m → localname m ≠ "tfoot")
    (h : rowLooks cfg p n = .ok (st, nature)) : nature ≠ some "footer" := by
  unfold rowLooks at h
  cases p with
  | none => cases h; exact noFoot_none
  | some p =>
    simp only at h
    obtain ⟨r, hr, h⟩ := bind_ok h
    cases h
    have hp := hp p rfl
    unfold rowNature at hr
    split at hr
    · next s hs =>
      cases hr
      intro e
      cases e
      rw [Dict.get?_cons, Dict.get?_cons, Dict.get?_cons] at hs
      split at hs
      · exact absurd (Option.some.inj hs) (by decide)
      · split at hs
        · next e => exact hp e.symm
        · split at hs
          · exact absurd (Option.some.inj hs) (by decide)
          · cases hs
    · cases hr

theorem meets_onStart {p : Option Node} {n : Node} (hp : ∀ m, p = some m → localname m ≠ "tfoot") : Keeps (PState.Meets noFoot) (onStart cfg p n) := by
  unfold onStart
  split
  · exact keeps_raise _
  split
  · refine keeps_bind keeps_nextColMeets (fun _ => ?_)
    unfold parseEntry
    exact keeps_bind keeps_get (fun _ => keeps_bind (keeps_lift _) (fun _ => keeps_bind_row (fun r hr =>
      keeps_tableMeets (keeps_insertMeets noFoot_none _ _ _ _ trivial (each_true _) hr))))
  split
  · refine keeps_bind keeps_nextRowMeets (fun _ => ?_)
    unfold parseRow
    refine keeps_bind_lift (fun ⟨st, nature⟩ hr => keeps_bind keeps_get (fun _ => keeps_bind (keeps_tableMeets (keeps_editMeets noFoot_none _ _ ?_)) ?_))
    · intro v _; exact ⟨each_true _, rowLooks_nature hp hr⟩
    · intro _ s hs
      exact ⟨hs.1, fun r e => by cases e; exact rowLooks_nature hp hr⟩
  split
  · exact keeps_pure ()
  split
  · refine keeps_bind keeps_nextColMeets (fun _ => ?_)
    unfold parseColspec
    refine keeps_bind (keeps_lift _) (fun _ => keeps_bind keeps_get (fun _ => keeps_bind (keeps_lift _) (fun _ => keeps_tableMeets (keeps_editMeets noFoot_none _ _ ?_))))
    intro v hv
    exact ⟨each_true _, hv.2⟩
  split
  · unfold parseTgroup
    refine keeps_tableMeets ?_
    intro t ht
    exact ⟨each_true _, fun ax vs hv => ht.views ax vs (by cases ax <;> exact hv), ht.cells⟩
  split
  · exact keeps_newMeets (fun s _ => each_true s)
  · exact keeps_raise _

theorem meets_loop : ∀ (es : List Event) (d : Int), (∀ e ∈ es, ∀ m, e.parent = some m → localname m ≠ "tfoot") → Keeps (PState.Meets noFoot) (loop cfg d es)
  | [], _, _ => keeps_pure ()
  | e :: es, d, h => by
    unfold loop
    simp only
    have ih := fun d => meets_loop es d (fun e' he => h e' (List.mem_cons_of_mem _ he))
    split
    · exact ih _
    · refine keeps_bind ?_ (fun _ => ih _)
      unfold onEvent
      split
      · exact meets_onStart (h e List.mem_cons_self)
      · unfold onEnd
        split
        · exact keeps_endRowMeets noFoot_none trivial
        split
        · exact keeps_tableMeets (keeps_fillHolesMeets noFoot_none trivial)
        · exact keeps_pure ()

theorem parsed {n : Node} {s s' : PState} {t : Table Content} (hn : ∀ m ∈ preorder n, localname m ≠ "tfoot")
    (h : parseTable cfg none n s = (.ok (some t), s')) : t.Meets noFoot :=
  parsed_meets (meets_loop _ 0 (walk_events (Q := fun p _ => ∀ m, p = some m → localname m ≠ "tfoot") _ none n (fun _ e => by cases e)
    (fun m hm _ _ m' e => by cases e; exact hn m hm))) h

end OfCals

namespace OfWord
open Ooxml
variable {cfg : Ooxml.Config}

theorem rowNature_body {n : Node} {s : String} (h : rowNature n = .ok s) : s ≠ "footer" := by
  unfold rowNature at h
  split at h
  · cases h; decide
  · split at h
    · next hs =>
      cases h
      rw [Dict.get?_cons, Dict.get?_cons] at hs
      split at hs
      · cases hs; decide
      · split at hs
        · cases hs; decide
        · cases hs
    · cases h

theorem joins : Joins noFoot addContent := fun _ _ _ _ _ _ => trivial

theorem meets_onStart {sect : Option Node} {n : Node} : Keeps (PState.Meets noFoot) (onStart cfg sect n) := by
  unfold onStart
  split
  · exact keeps_newMeets (fun s _ => each_true s)
  split
  · exact keeps_pure ()
  split
  · refine keeps_bind keeps_nextColMeets (fun _ => ?_)
    unfold parseGridCol
    refine keeps_bind_lift (fun v hv => keeps_bind keeps_get (fun _ => keeps_tableMeets (keeps_editMeets noFoot_none _ _ ?_)))
    intro w hw
    exact ⟨each_true _, hw.2⟩
  split
  · refine keeps_bind keeps_nextRowMeets (fun _ => ?_)
    unfold parseTr
    refine keeps_bind_lift (fun nature hnat => keeps_bind_lift (fun st hst => keeps_bind keeps_get (fun _ =>
      keeps_bind (keeps_tableMeets (keeps_editMeets noFoot_none _ _ ?_)) ?_)))
    · intro v hv
      exact ⟨each_true _, fun e => rowNature_body hnat (Option.some.inj e)⟩
    · intro _ s hs
      exact ⟨hs.1, fun r e => by cases e; exact fun e => rowNature_body hnat (Option.some.inj e)⟩
  split
  · refine keeps_bind keeps_nextColMeets (fun _ => ?_)
    unfold parseTc
    refine keeps_bind (keeps_lift _) (fun _ => keeps_bind (fun _ h => h) (fun _ => ?_))
    split
    · unfold newCell
      exact keeps_bind_lift (fun st hst => keeps_bind_row (fun r hr => keeps_tableMeets (keeps_insertMeets noFoot_none _ _ _ _ trivial (each_true _) noFoot_none)))
    split
    · unfold continueCell
      exact keeps_bind keeps_get (fun _ => keeps_bind_row (fun r hr => keeps_tableMeets (keeps_expandMeets noFoot_none joins _ _ _)))
    · exact keeps_raise _
  · exact keeps_raise _

theorem meets_loop {sect : Option Node} : ∀ (es : List Event) (d : Int), Keeps (PState.Meets noFoot) (loop cfg sect d es)
  | [], _ => keeps_pure ()
  | e :: es, d => by
    unfold loop
    simp only
    have ih := fun d => meets_loop (sect := sect) es d
    split
    · exact ih _
    · refine keeps_bind ?_ (fun _ => ih _)
      unfold onEvent
      split
      · exact meets_onStart
      · unfold onEnd
        split
        · exact keeps_endRowMeets noFoot_none trivial
        · exact keeps_pure ()

theorem parsed {sect : Option Node} {n : Node} {s s' : PState} {t : Table Content}
    (h : parseTable cfg sect n s = (.ok (some t), s')) : t.Meets noFoot := parsed_meets (meets_loop _ 0) h

end OfWord

/-- the tokens of a table which has no rows in a footer -/
theorem tree_only {P : Tok → Prop} (hP : ∀ k, NotNotes k → (∀ t a, k = .opening t a → t.name ≠ "tfoot") → P k) {b : Fmx.Config} {k : Nat} {t : Table Content} {tree : Node}
    (hi : t.Inv) (h : t.Meets (only P True)) (hf : t.Meets noFoot) (ht : eval (Fmx.generate b k) t = .ok tree) : Only P [tree] := by
  have hfree : ∀ k, (∀ t a, k ≠ .opening t a) → P k := fun k hk => hP k (notNotes_free hk) (fun t a e => absurd e (hk t a))
  have hcl : ∀ q, P (.closing q) := fun q => hfree _ (by intro _ _ e; cases e)
  refine fmx_tree (ins := True) ?_ ?_ ?_ ?_ hi h ?_ ht
  · intro n hn a
    refine ⟨hP _ (notNotes_names n hn a).1 ?_, hcl _⟩
    intro q a' e
    cases e
    intro (e : n = "tfoot")
    subst e
    exact absurd hn (by decide)
  · intro _ a
    refine ⟨hP _ (notNotes_tag (fun e => absurd (congrArg QName.name e) (show ¬ "colspec" = "ROW" by decide)) a) ?_, hcl _⟩
    intro q a' e
    cases e
    exact show ¬ "colspec" = "tfoot" by decide
  · intro _
    refine ⟨hP _ (notNotes_tag (by decide) _) ?_, hcl _⟩
    intro q a' e
    cases e
    decide
  · exact fun _ d => ⟨hfree _ (by intro _ _ e; cases e), hfree _ (by intro _ _ e; cases e)⟩
  · intro r hr rs attrs ha
    have hv : eval (Table.views .row) t = .ok (t.baseViews .row) := by rw [eval, Table.views_run .row t hi.grid]
    have hnat := ((meets_views noFoot_none .row hf).2 _ hv r hr).2
    refine ⟨hP _ ?_ ?_, hcl _⟩
    · intro a e
      cases e
      have := rowAttrs_type ha
      intro h2
      rw [show Dict.get? attrs (f "TYPE") = FmxSpec.typeOfRow r.nature from this, ← rowType_spec] at h2
      unfold rowType at h2
      split at h2
      · exact absurd (Option.some.inj h2) (by decide)
      · split at h2
        · next e => exact hnat e
        · cases h2
    · intro q a' e
      cases e
      decide

/-- a Word document without rows of notes has none after its tables have been converted -/
theorem word_only {pc : Ooxml.Config} {bc : Fmx.Config} {limit : Nat} {doc mid : Node} (hdoc : Only NotNotes [doc])
    (h : transformTables (ooxml2formex pc bc) limit doc = .ok mid) : Only NotNotes [mid] := by
  refine transform_only ?_ hdoc h
  intro following n e hn he
  obtain ⟨t, h1, h2⟩ := Convert.thenGenerate_ok he
  have hp := eval_run h1
  exact tree_only (fun k hk _ => hk) (Ooxml.parsed_reachable hp).inv (Origin.OfWord.parsed hn (fun _ => trivial) hp) (OfWord.parsed hp) h2

/-- a token which begins neither a row of notes nor a footer -/
def NotFoot (k : Tok) : Prop := NotNotes k ∧ ∀ t a, k = .opening t a → t.name ≠ "tfoot"

/-- a CALS document without rows of notes and without footers has none after its tables have been converted -/
theorem cals_only {pc : CalsP.Config} {bc : Fmx.Config} {limit : Nat} {doc mid : Node} (hdoc : Only NotFoot [doc])
    (h : transformTables (cals2formex pc bc) limit doc = .ok mid) : Only NotFoot [mid] := by
  refine transform_only ?_ hdoc h
  intro following n e hn he
  obtain ⟨t, h1, h2⟩ := Convert.thenGenerate_ok he
  have hp := eval_run h1
  refine tree_only (fun k hk hk' => ⟨hk, hk'⟩) (CalsP.parsed_reachable hp).inv (Origin.OfCals.parsed hn hp) (OfCals.parsed ?_ hp) h2
  intro m hm
  have h3 := only_preorder hn m hm
  cases m with
  | elem t' a x cs tl => exact (only_elem.mp h3).1.2 _ _ rfl
  | pi => exact show ¬ "" = "tfoot" by decide
  | comment => exact show ¬ "" = "tfoot" by decide

/-! ### tables which are not in other tables -/

/-- a token which does not begin an element of one of these names -/
def Avoids (qs : List QName) (k : Tok) : Prop := ∀ t a, k = .opening t a → t ∉ qs

theorem avoids_free {qs : List QName} {k : Tok} (h : ∀ t a, k ≠ .opening t a) : Avoids qs k := fun t a e => absurd e (h t a)

theorem avoids_closing (qs : List QName) (q : QName) : Avoids qs (.closing q) := avoids_free (by intro _ _ e; cases e)

theorem avoids_text (qs : List QName) (x : Option String) : OnlyText (Avoids qs) x := fun _ hk => avoids_free (text_not hk)

theorem avoids_opening {qs : List QName} {t : QName} (h : t ∉ qs) (a : Dict QName String) : Avoids qs (.opening t a) := fun _ _ e => by cases e; exact h

theorem avoids_only {qs : List QName} {ns : List Node} : Only (Avoids qs) ns ↔ ∀ e ∈ preorderList ns, ∀ t, e.tag? = some t → t ∉ qs := by
  constructor
  · intro h e he t ht
    have h1 := only_preorderList h e he
    cases e with
    | elem t' a x cs tl => cases ht; exact (only_elem.mp h1).1 _ _ rfl
    | pi => cases ht
    | comment => cases ht
  · intro h
    refine only_toksList (fun k hk => avoids_free hk) ?_
    intro t a x cs tl hm
    exact avoids_opening (h _ hm t rfl) a

/-- the rows have no rows inside -/
def RowsFlat (ns : List Node) : Prop := ∀ d ∈ preorderList ns, d.tag? = some (f "ROW") → Only (Avoids [f "ROW"]) d.children

theorem rowsFlat_avoids {ns : List Node} (h : Only (Avoids [f "ROW"]) ns) : RowsFlat ns :=
  fun d hd ht => absurd (List.mem_singleton.mpr rfl) (avoids_only.mp h d hd _ ht)

theorem preorderList_append : ∀ a b : List Node, preorderList (a ++ b) = preorderList a ++ preorderList b
  | [], _ => rfl
  | n :: a, b => by simp [preorderList, preorderList_append a b]

theorem rowsFlat_append {a b : List Node} (ha : RowsFlat a) (hb : RowsFlat b) : RowsFlat (a ++ b) := by
  intro d hd
  rw [preorderList_append] at hd
  rcases List.mem_append.mp hd with hd | hd
  · exact ha d hd
  · exact hb d hd

theorem rowsFlat_mem : ∀ {ns : List Node}, (∀ n ∈ ns, RowsFlat [n]) → RowsFlat ns
  | [], _ => fun d hd => by cases hd
  | n :: ns, h => rowsFlat_append (a := [n]) (h n List.mem_cons_self) (rowsFlat_mem (fun m hm => h m (List.mem_cons_of_mem _ hm)))

theorem rowsFlat_elem {t : QName} {a : Dict QName String} {x tl : Option String} {cs : List Node} (ht : t ≠ f "ROW") (h : RowsFlat cs) :
    RowsFlat [.elem t a x cs tl] := by
  intro d hd hr
  simp only [preorderList, preorder, List.append_nil, List.mem_cons] at hd
  rcases hd with rfl | hd
  · exact absurd (Option.some.inj hr) ht
  · exact h d hd hr

theorem avoids_names {n : String} (hn : n ∈ formexNames.erase "ROW") (a : Dict QName String) :
    Avoids [f "ROW"] (.opening (f n) a) ∧ Avoids [f "ROW"] (.closing (f n)) := by
  refine ⟨avoids_opening ?_ a, avoids_closing _ _⟩
  intro h
  have : n = "ROW" := congrArg QName.name (List.mem_singleton.mp h)
  subst this
  exact absurd hn (by decide)

/-- in a table whose cells have no rows inside, the rows have no rows inside -/
theorem tree_flat {b : Fmx.Config} {k : Nat} {t : Table Content} {tree : Node} (hi : t.Inv) (h : t.Meets (only (Avoids [f "ROW"]) True))
    (ht : eval (Fmx.generate b k) t = .ok tree) : RowsFlat [tree] := by
  obtain ⟨bb, _, e⟩ := fmx_generate_eq hi b k
  have hrows := rows_of hi h
  rw [e] at ht
  obtain ⟨attrs, cattrs, title, colspecs, nodes, rows, B, -, -, -, hs, -, -, rfl, hc0, hc1, hr⟩ := fmx_buildTree_raw ht
  have hV : ∀ n ∈ formexNames.erase "ROW", ∀ a, Avoids [f "ROW"] (.opening (f n) a) ∧ Avoids [f "ROW"] (.closing (f n)) := fun n hn a => avoids_names hn a
  have hP : b.detectTitles = true → Avoids [f "ROW"] (.opening (f "P") []) ∧ Avoids [f "ROW"] (.closing (f "P")) :=
    fun _ => ⟨avoids_opening (by decide) _, avoids_closing _ _⟩
  have hsplit : Only (Avoids [f "ROW"]) title ∧ ∀ r ∈ rows, r ∈ t.baseViews .row := split_only hV hP hrows hs
  refine rowsFlat_elem (by decide) (rowsFlat_append (rowsFlat_avoids hsplit.1) (rowsFlat_elem (by decide) (rowsFlat_append (rowsFlat_mem ?_) (rowsFlat_mem ?_))))
  · intro n hn
    cases hu : b.useCals with
    | false => rw [hc0 hu] at hn; cases hn
    | true =>
      obtain ⟨v, _, h1⟩ := (hc1 hu).mem_right hn
      unfold Fmx.buildColspec at h1
      obtain ⟨_, _, h1⟩ := bind_ok h1
      obtain ⟨_, _, h1⟩ := bind_ok h1
      obtain ⟨_, _, h1⟩ := bind_ok h1
      cases h1
      exact rowsFlat_elem (fun e => absurd (congrArg QName.name e) (show ¬ "colspec" = "ROW" by decide)) (rowsFlat_avoids only_nil)
  · intro m hm'
    obtain ⟨l, hl, hml⟩ := List.mem_flatten.mp hm'
    obtain ⟨r, hr', h2⟩ := hr.mem_right hl
    have hcells := (hrows r (hsplit.2 r hr')).2
    unfold Fmx.buildRow at h2
    obtain ⟨attrs', ha, h2⟩ := bind_ok h2
    obtain ⟨cells, he, h2⟩ := bind_ok h2
    have hent : Only (Avoids [f "ROW"]) cells := by
      refine only_mem.mpr (fun e hem => ?_)
      obtain ⟨c, hc, h1⟩ := mapM_mem he hem
      exact fmx_cell hV (hcells c hc) h1
    have hrow : RowsFlat [.elem (f "ROW") attrs' none cells none] := by
      intro d hd hdr
      simp only [preorderList, preorder, List.append_nil, List.mem_cons] at hd
      rcases hd with rfl | hd
      · exact hent
      · exact rowsFlat_avoids hent d hd hdr
    have hmark : ∀ s d, RowsFlat [.pi s d none] := fun s d _ hd => by cases hd
    simp only at h2
    split at h2
    · obtain ⟨_, _, h2⟩ := bind_ok h2
      obtain ⟨_, _, h2⟩ := bind_ok h2
      obtain ⟨_, _, h2⟩ := bind_ok h2
      cases h2
      simp only [List.mem_cons, List.not_mem_nil, or_false] at hml
      rcases hml with rfl | rfl | rfl
      · exact hmark _ _
      · exact hrow
      · exact hmark _ _
    · cases h2
      rw [List.mem_singleton.mp hml]
      exact hrow

/-- rows which have no rows inside are apart -/
theorem notesApart_flat {ns : List Node} (h : RowsFlat ns) : NotesApartList ns := by
  intro e he hr d hd ht
  refine avoids_only.mp (only_sub (h e he hr.1) (fun n hn => List.mem_of_mem_eraseP hn)) d hd _ ht (List.mem_singleton.mpr rfl)

theorem rowsFlat_tail {n : Node} {tl : Option String} (h : RowsFlat [n]) : RowsFlat [n.setTail tl] := by
  cases n with
  | elem t a x cs tl' =>
    intro d hd hr
    simp only [Node.setTail, preorderList, preorder, List.append_nil, List.mem_cons] at hd
    rcases hd with rfl | hd
    · exact h (.elem t a x cs tl') (by simp [preorderList, preorder]) hr
    · exact h d (by simp [preorderList, preorder, hd]) hr
  | pi => exact fun d hd => by cases hd
  | comment => exact fun d hd => by cases hd

mutual
theorem tableFree_avoids {c : Conv} {q : QName} (hq : ∀ t, c.isTable t = decide (t = q)) : ∀ {n : Node}, Only (Avoids [q]) [n] → tableFree c n = true
  | .elem t a x cs tl, h => by
    obtain ⟨h1, -, h3, -, -⟩ := only_elem.mp h
    unfold tableFree
    rw [tableFreeList_avoids hq h3, hq, decide_eq_false (fun e => h1 t a rfl (List.mem_singleton.mpr e))]
    rfl
  | .pi .., _ => rfl
  | .comment .., _ => rfl
theorem tableFreeList_avoids {c : Conv} {q : QName} (hq : ∀ t, c.isTable t = decide (t = q)) : ∀ {ns : List Node}, Only (Avoids [q]) ns → tableFreeList c ns = true
  | [], _ => rfl
  | n :: ns, h => by
    obtain ⟨h1, h2⟩ := only_cons.mp h
    unfold tableFreeList
    rw [tableFree_avoids hq h1, tableFreeList_avoids hq h2]
    rfl
end

section
variable {c : Conv} {q : QName} (hq : ∀ t, c.isTable t = decide (t = q))
  (hc : ∀ following n e, c.selects n = true → Only (Avoids [f "ROW", q]) n.children → c.convert following n = .ok e → RowsFlat [e] ∧ Only (Avoids [q]) [e])
include hq hc

mutual
theorem replaced_flat {l : List Node} {n n' : Node} (hr : Only (Avoids [f "ROW"]) [n])
    (hn : ∀ e ∈ preorderList [n], e.tag? = some q → ∀ d ∈ preorderList e.children, d.tag? ≠ some q) : Replaced c l n n' → RowsFlat [n']
  | .table _ _ e _ h1 h2 h3 => by
    have hsel : n.tag? = some q := by
      cases n with
      | elem t a x cs tl =>
        have : c.isTable t = true := h1
        rw [hq] at this
        exact congrArg some (of_decide_eq_true this)
      | pi => cases h1
      | comment => cases h1
    have hch : Only (Avoids [f "ROW", q]) n.children := by
      refine avoids_only.mpr (fun e he t ht => ?_)
      have hmem : e ∈ preorderList [n] := by
        cases n with
        | elem t a x cs tl => simp only [Node.children] at he; simp [preorderList, preorder, he]
        | pi => cases he
        | comment => cases he
      intro hm
      simp only [List.mem_cons, List.not_mem_nil, or_false] at hm
      rcases hm with rfl | rfl
      · exact avoids_only.mp hr e hmem _ ht (List.mem_singleton.mpr rfl)
      · refine hn n ?_ hsel e he ht
        cases n with
        | elem => simp [preorderList, preorder]
        | pi => cases hsel
        | comment => cases hsel
    obtain ⟨g1, g2⟩ := hc _ _ _ h1 hch h2
    rw [ReplacedInside.free h3 (tableFree_avoids hq (only_setTail g2 (avoids_text _ _)))]
    exact rowsFlat_tail g1
  | .other _ _ _ _ h3 => inside_flat hr hn h3
theorem inside_flat {l : List Node} {n n' : Node} (hr : Only (Avoids [f "ROW"]) [n])
    (hn : ∀ e ∈ preorderList [n], e.tag? = some q → ∀ d ∈ preorderList e.children, d.tag? ≠ some q) : ReplacedInside c l n n' → RowsFlat [n']
  | .elem _ t a x cs cs' tl h1 => by
    obtain ⟨g1, -, g3, -, -⟩ := only_elem.mp hr
    exact rowsFlat_elem (fun e => g1 t a rfl (List.mem_singleton.mpr e))
      (replacedList_flat g3 (fun e he => hn e (by simp [preorderList, preorder, he])) h1)
  | .pi .. => fun d hd => by cases hd
  | .comment .. => fun d hd => by cases hd
theorem replacedList_flat {l : List Node} {ns ns' : List Node} (hr : Only (Avoids [f "ROW"]) ns)
    (hn : ∀ e ∈ preorderList ns, e.tag? = some q → ∀ d ∈ preorderList e.children, d.tag? ≠ some q) : ReplacedList c l ns ns' → RowsFlat ns'
  | .nil _ => fun d hd => by cases hd
  | .cons _ n n' ns ns' h1 h2 => by
    obtain ⟨g1, g2⟩ := only_cons.mp hr
    exact rowsFlat_append (a := [n']) (replaced_flat g1 (fun e he => hn e (by simp only [preorderList, List.append_nil] at he; simp [preorderList, he])) h1)
      (replacedList_flat g2 (fun e he => hn e (by simp [preorderList, he])) h2)
end
end

theorem avoid_table {ns : Option String} {tag : String} (h : tag ≠ "table") (ns' : Option String) (a : Dict QName String) :
    Avoids [⟨ns, "table"⟩] (.opening ⟨ns', tag⟩ a) ∧ Avoids [⟨ns, "table"⟩] (.closing ⟨ns', tag⟩) :=
  ⟨avoids_opening (fun e => h (congrArg QName.name (List.mem_singleton.mp e))) a, avoids_closing _ _⟩

/-- in a CALS document without rows, where no table is in another one, the rows of the converted tables have no rows inside -/
theorem cals_flat {pc : CalsP.Config} {bc : Fmx.Config} {limit : Nat} {doc mid : Node} (hrow : Only (Avoids [f "ROW"]) [doc])
    (hnest : NotNested ⟨pc.ns, "table"⟩ doc) (h : transformTables (cals2formex pc bc) limit doc = .ok mid) : RowsFlat [mid] := by
  have hq : ∀ t, (cals2formex pc bc).isTable t = decide (t = ⟨pc.ns, "table"⟩) := fun t => rfl
  by_cases hs : (cals2formex pc bc).selects doc = true
  · unfold transformTables at h
    rw [if_pos hs] at h
    obtain ⟨_, _, h⟩ := bind_ok h
    cases h
  refine replaced_flat hq ?_ hrow (fun e he => hnest e (by simpa [preorderList] using he)) ((C58_replacement _ doc mid (by simpa using hs)).mp ⟨limit, h⟩)
  intro following n e hsel hch he
  obtain ⟨t, h1, h2⟩ := Convert.thenGenerate_ok he
  have hp := eval_run h1
  have hi := (CalsP.parsed_reachable hp).inv
  have hent : ∀ m ∈ preorder n, m.tag? = some (pc.q "entry") → Only (Avoids [f "ROW", ⟨pc.ns, "table"⟩]) [m] := by
    intro m hm ht
    cases n with
    | elem t' a x cs tl =>
      simp only [preorder, List.mem_cons] at hm
      rcases hm with rfl | hm
      · have : (cals2formex pc bc).isTable t' = true := hsel
        rw [hq] at this
        have e1 := of_decide_eq_true this
        rw [e1] at ht
        exact absurd (congrArg QName.name (Option.some.inj ht)) (show ¬ "table" = "entry" by decide)
      · exact only_preorderList hch m hm
    | pi => cases hsel
    | comment => cases hsel
  have weaken : ∀ {qs qs' : List QName} {l : List Node}, (∀ x ∈ qs', x ∈ qs) → Only (Avoids qs) l → Only (Avoids qs') l :=
    fun hsub h k hk t a e hm => h k hk t a e (hsub _ hm)
  refine ⟨tree_flat hi (Origin.OfCals.parsed_entries (fun m hm ht => weaken (by simp) (hent m hm ht)) hp) h2, ?_⟩
  refine fmx_tree (ins := True) ?_ (fun _ a => avoid_table (by decide) _ a) (fun _ => avoid_table (by decide) _ _)
    (fun _ _ => ⟨avoids_free (by intro _ _ e; cases e), avoids_free (by intro _ _ e; cases e)⟩) hi
    (Origin.OfCals.parsed_entries (fun m hm ht => weaken (by simp) (hent m hm ht)) hp) (fun _ _ _ a _ => avoid_table (by decide) _ a) h2
  intro n hn a
  refine avoid_table ?_ _ a
  rintro rfl
  exact absurd hn (by decide)

end Benker.NotesRows
