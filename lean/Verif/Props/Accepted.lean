import Verif.Lemmas.Accepted
import Verif.Spec.Accepted
import Verif.Props.Conversion

/-! C87: the tables accepted by the parsers are converted. -/

namespace Benker
open PyM Writable Accepted Benker.Convert

theorem eval_eq {σ α : Type} {m : PyM σ α} {s : σ} {a : α} (h : eval m s = .ok a) : m s = (.ok a, (m s).2) := by
  unfold eval at h
  rw [← h]

theorem orient_ok {cals : Bool} {sect : Option Node} (h : cals = true → KnownOrientation sect) : Ooxml.OrientOk cals sect := by
  intro hc o ho
  cases sect with
  | none => cases ho
  | some s =>
    have e : Ooxml.nodeOf (some s) [["pgSz"]] = s.children.find? (fun c => c.tag? = some (Ooxml.w "pgSz")) := by
      simp [Ooxml.nodeOf, Ooxml.select, List.head?_filter, eq_comm]
    rw [e] at ho
    cases hp : s.children.find? (fun c => c.tag? = some (Ooxml.w "pgSz")) with
    | none => rw [hp] at ho; cases ho
    | some pg =>
      rw [hp] at ho
      have : pg.attr (Ooxml.w "orient") = some o := by
        simp only [Ooxml.attrOf, Ooxml.select, List.foldl_nil, List.findSome?_cons, List.findSome?_nil] at ho
        revert ho
        split
        · rename_i hx; intro ho; cases ho; exact hx
        · intro ho; cases ho
      rcases h hc s rfl pg hp o this with rfl | rfl <;> simp

theorem formex_writes {b : Fmx.Config} {t : Table Content} (hi : t.Inv) (h : t.Meets (good b.useCals)) (hu : b.useCals = true → KnownUnit b.widthUnit) (k : Nat) :
    (∃ tree, eval (Fmx.generate b k) t = .ok tree) ↔ TitleWritable b.detectTitles t := by
  have hv := fun ax => (by rw [eval, Table.views_run ax t hi.grid] : eval (Table.views ax) t = .ok (t.baseViews ax))
  exact (inv_fmxOk hi (hv .row) (hv .col) b k).trans (meets_inFormex h hu (hv .row) (hv .col))

theorem cals_writes {b : Cals.Config} {t : Table Content} (hi : t.Inv) (h : t.Meets (good true)) (hu : KnownUnit b.widthUnit) :
    ∃ tree, eval (Cals.generate b) t = .ok tree := by
  have hv := fun ax => (by rw [eval, Table.views_run ax t hi.grid] : eval (Table.views ax) t = .ok (t.baseViews ax))
  exact (inv_calsOk hi (hv .row) (hv .col) b).mpr (meets_inCals h hu (hv .row) (hv .col))

/-- **C87**, CALS to Formex: once a table is accepted by the parser, only a title can prevent its conversion, provided that the widths of the columns
have a number when CALS attributes are written. -/
theorem C87_cals_to_formex_partial (p : CalsP.Config) (b : Fmx.Config) (following : List Node) (n : Node)
    (hcals : b.useCals = true → KnownUnit b.widthUnit ∧ NumberedWidths p.ns n)
    (t : Table Content) (h : eval (CalsP.parseTable p none n) PState.init = .ok (some t)) :
    (∃ tree, (cals2formex p b).convert following n = .ok tree) ↔ TitleWritable b.detectTitles t := by
  have hp := eval_eq h
  have hg := CalsP.parsed_good (cals := b.useCals) (fun m hm hc ht w hw => (hcals hc).2 m hm ht w hw) hp
  simp only [cals2formex, thenGenerate, h]
  exact formex_writes (CalsP.parsed_reachable hp).inv hg (fun hc => (hcals hc).1) 1

/-- **C87**, CALS to Formex, when titles are not looked for: exactly the tables accepted by the parser are converted. -/
theorem C87_cals_accepted_partial (p : CalsP.Config) (b : Fmx.Config) (following : List Node) (n : Node)
    (hcals : b.useCals = true → KnownUnit b.widthUnit ∧ NumberedWidths p.ns n) (htitles : b.detectTitles = false) :
    (∃ tree, (cals2formex p b).convert following n = .ok tree) ↔ ∃ t, eval (CalsP.parseTable p none n) PState.init = .ok (some t) := by
  constructor
  · rintro ⟨tree, h⟩
    obtain ⟨t, ht, _⟩ := thenGenerate_ok h
    exact ⟨t, ht⟩
  · rintro ⟨t, ht⟩
    exact (C87_cals_to_formex_partial p b following n hcals t ht).mpr (by rw [htitles]; exact fun h => nomatch h)

/-- **C87**, Word to CALS: exactly the tables accepted by the parser are converted. -/
theorem C87_word_to_cals (p : Ooxml.Config) (b : Cals.Config) (following : List Node) (n : Node) (hu : KnownUnit b.widthUnit)
    (horient : KnownOrientation (firstSectList following)) :
    (∃ tree, (ooxml2cals p b).convert following n = .ok tree) ↔
    ∃ t, eval (Ooxml.parseTable p (firstSectList following) n) PState.init = .ok (some t) := by
  constructor
  · rintro ⟨tree, h⟩
    obtain ⟨t, ht, _⟩ := thenGenerate_ok h
    exact ⟨t, ht⟩
  · rintro ⟨t, ht⟩
    have hp := eval_eq ht
    simp only [ooxml2cals, thenGenerate, ht]
    exact cals_writes (Ooxml.parsed_reachable hp).inv (Ooxml.parsed_good (orient_ok (fun _ => horient)) hp) hu

/-- **C87**, Word to Formex: once a table is accepted by the parser, only a title can prevent its conversion. -/
theorem C87_word_to_formex (p : Ooxml.Config) (b : Fmx.Config) (following : List Node) (n : Node)
    (hcals : b.useCals = true → KnownUnit b.widthUnit ∧ KnownOrientation (firstSectList following))
    (t : Table Content) (h : eval (Ooxml.parseTable p (firstSectList following) n) PState.init = .ok (some t)) :
    (∃ tree, (ooxml2formex p b).convert following n = .ok tree) ↔ TitleWritable b.detectTitles t := by
  have hp := eval_eq h
  simp only [ooxml2formex, thenGenerate, h]
  exact formex_writes (Ooxml.parsed_reachable hp).inv (Ooxml.parsed_good (orient_ok (fun hc => (hcals hc).2)) hp) (fun hc => (hcals hc).1) 1

theorem placeable_strip (c : FmxP.Config) {x : Option Content} (h : Placeable x) : Placeable (x.map (Fmx2Cals.stripContent c)) := by
  cases h with
  | nothing => exact .nothing
  | text s => exact .text s
  | number r => exact .number r
  | node n => exact .node _
  | pieces l h =>
    refine .pieces _ ?_
    induction l with
    | nil => intro c hc; cases hc
    | cons x l ih =>
      intro y hy
      have ih := ih (fun c hc => h c (List.mem_cons_of_mem _ hc))
      rcases h x List.mem_cons_self with ⟨s, rfl⟩ | ⟨n, rfl⟩
      · rcases List.mem_cons.mp hy with rfl | hy
        · exact .inl ⟨s, rfl⟩
        · exact ih y hy
      · rcases List.mem_cons.mp hy with rfl | hy
        · exact .inr ⟨_, rfl⟩
        · exact ih y hy

theorem meets_strip (c : FmxP.Config) {cals : Bool} {t : Table Content} (h : t.Meets (good cals)) :
    (t.mapContent (Fmx2Cals.stripContent c)).Meets (good cals) := by
  refine ⟨h.styles, ?_, ?_⟩
  · intro ax vs hv v hvm
    cases ax
    · cases hr : t.rows with
      | none => simp [Table.getViews, Table.mapContent, hr] at hv
      | some ws =>
        simp only [Table.getViews, Table.mapContent, hr, Option.map_some, Option.some.injEq] at hv
        subst hv
        obtain ⟨w, hw, rfl⟩ := List.mem_map.mp hvm
        exact h.views .row ws hr w hw
    · cases hr : t.cols with
      | none => simp [Table.getViews, Table.mapContent, hr] at hv
      | some ws =>
        simp only [Table.getViews, Table.mapContent, hr, Option.map_some, Option.some.injEq] at hv
        subst hv
        obtain ⟨w, hw, rfl⟩ := List.mem_map.mp hvm
        exact h.views .col ws hr w hw
  · intro d hd
    obtain ⟨e, he, rfl⟩ := List.mem_map.mp hd
    have := h.cells e he
    exact ⟨this.1, this.2.1, placeable_strip c this.2.2⟩

/-- **C87**, Formex to CALS: exactly the tables accepted by the parser are converted, provided that the widths of the columns have a number and that
the cells without type are in rows of the ordinary type. -/
theorem C87_formex_to_cals_partial (c : Fmx2Cals.Config) (blk : Nat) (parent : Option Node) (n : Node) (hn : n.tag? = some ⟨c.parser.ns, "CORPUS"⟩)
    (hu : KnownUnit c.builder.widthUnit) (hw : NumberedWidths c.parser.calsNs n) (htypes : TypedCells c.parser.ns n) :
    (∃ tree, Fmx2Cals.convert c blk parent n = .ok tree) ↔ ∃ t, eval (FmxP.parseTable c.parser blk parent n) PState.init = .ok (some t) := by
  constructor
  · rintro ⟨tree, h⟩
    unfold Fmx2Cals.convert at h
    cases hp : eval (FmxP.parseTable c.parser blk parent n) PState.init with
    | error e => rw [hp] at h; cases h
    | ok o =>
      cases o with
      | none => rw [hp] at h; cases h
      | some t => exact ⟨t, rfl⟩
  · rintro ⟨t, ht⟩
    have hp := eval_eq ht
    have hg := FmxP.parsed_good (cfg := c.parser) (cals := true) (by rw [hn]; simp [FmxP.Config.f])
      (fun m hm _ ht w hw' => hw m hm ht w hw') (fun row hrow cell hc _ h1 h2 r hr => by cases hr; exact htypes row hrow cell hc h1 h2) hp
    have := cals_writes (b := c.builder) (inv_map (Fmx2Cals.stripContent c.parser) (FmxP.parsed_reachable hp).inv) (meets_strip c.parser hg) hu
    unfold Fmx2Cals.convert
    rw [ht]
    exact this

/-- the error raised, if any -/
def errorOf {α : Type} : Except PyErr α → Option PyErr
  | .ok _ => none
  | .error e => some e

theorem error_of {α : Type} {x : Except PyErr α} {e : PyErr} (h : errorOf x = some e) : x = .error e := by
  cases x with
  | ok a => cases h
  | error e' => cases h; rfl

/-- a CALS table with one column of the given width and one row, whose centered entry has a text -/
def widthCals (width : String) : Node :=
  el "table" [el "tgroup" [.elem ⟨none, "colspec"⟩ [(⟨none, "colnum"⟩, "1"), (⟨none, "colwidth"⟩, width)] none [] none, el "tbody" [
    el "row" [.elem ⟨none, "entry"⟩ [(⟨none, "align"⟩, "center")] (some "a") [] none]]]]

/-- a CALS table with a body in a row -/
def rowCals : Node := el "table" [el "tgroup" [el "tbody" [el "row" [el "tbody" [el "row" [el "entry" []]]]]]]

/-- a Formex table with one row of the given type, where the only cell has no type -/
def typeFormex (rowType : String) : Node :=
  el "CORPUS" [.elem ⟨none, "ROW"⟩ [(⟨none, "TYPE"⟩, rowType)] none [.elem ⟨none, "CELL"⟩ [(⟨none, "COL"⟩, "1")] (some "a") [] none] none]

/-- **C87** is false of the code for CALS tables: a column of width `*`, which is correct in CALS, is accepted by the parser and not by the builder. -/
theorem C87_width_counterexample :
    (eval (CalsP.parseTable ⟨none, ['m', 'm'], id⟩ none (widthCals "*")) PState.init).isOk = true ∧
    (cals2formex ⟨none, ['m', 'm'], id⟩ ⟨false, true, none, ['m', 'm'], id⟩).convert [] (widthCals "*") = .error .indexError :=
  ⟨by decide +kernel, error_of (by decide +kernel)⟩

/-- **C87** is false of the code for CALS tables when titles are looked for: a table whose first row is a centered text is accepted by the parser and
not by the builder. -/
theorem C87_title_counterexample :
    (eval (CalsP.parseTable ⟨none, ['m', 'm'], id⟩ none (widthCals "1")) PState.init).isOk = true ∧
    (∃ tree, (cals2formex ⟨none, ['m', 'm'], id⟩ ⟨false, true, none, ['m', 'm'], id⟩).convert [] (widthCals "1") = .ok tree) ∧
    (cals2formex ⟨none, ['m', 'm'], id⟩ ⟨true, true, none, ['m', 'm'], id⟩).convert [] (widthCals "1") = .error .typeError :=
  ⟨by decide +kernel, ok_of (by decide +kernel), error_of (by decide +kernel)⟩

/-- **C87** is false of the code for CALS tables when titles are looked for: a table with a body in its first row, which is not correct in CALS, is
accepted by the parser and not by the builder. -/
theorem C87_row_counterexample :
    (eval (CalsP.parseTable ⟨none, ['m', 'm'], id⟩ none rowCals) PState.init).isOk = true ∧
    (cals2formex ⟨none, ['m', 'm'], id⟩ ⟨true, false, none, ['m', 'm'], id⟩).convert [] rowCals = .error .keyError :=
  ⟨by decide +kernel, error_of (by decide +kernel)⟩

/-- **C87** is false of the code for Formex tables: a cell without type in a row of type `HEADER` is accepted by the parser and not by the builder. -/
theorem C87_type_counterexample :
    (eval (FmxP.parseTable ⟨none, none, true⟩ 0 none (typeFormex "HEADER")) PState.init).isOk = true ∧
    Fmx2Cals.convert ⟨⟨none, none, true⟩, calsConfig⟩ 0 none (typeFormex "HEADER") = .error .typeError :=
  ⟨by decide +kernel, error_of (by decide +kernel)⟩

theorem mm_known : KnownUnit ['m', 'm'] := ⟨"mm", by decide, rfl⟩

/-- the conditions on the widths and on the types hold of a given tree -/
theorem numbered_of {ns : Option String} {n : Node} (h : (preorder n).all (fun e => decide (e.tag? ≠ some ⟨ns, "colspec"⟩) ||
    match e.attr ⟨ns, "colwidth"⟩ with
    | none => true
    | some w => decide (w = "") || w.toList.any (fun c => c.isDigit)) = true) : NumberedWidths ns n := by
  intro e he ht w hw
  have := List.all_eq_true.mp h e he
  simp only [ht, ne_eq, not_true, decide_false, Bool.false_or, hw, Bool.or_eq_true, decide_eq_true_eq, List.any_eq_true] at this
  exact this

theorem typed_of {ns : Option String} {n : Node} (h : (preorder n).all (fun row => row.children.all (fun cell =>
    decide (cell.tag? ≠ some ⟨ns, "CELL"⟩) || (cell.attr ⟨ns, "TYPE"⟩).isSome ||
    match row.attr ⟨ns, "TYPE"⟩ with
    | none => true
    | some ty => decide (ty = "" ∨ ty = "NORMAL"))) = true) : TypedCells ns n := by
  intro row hrow cell hc h1 h2 ty hty
  have := List.all_eq_true.mp (List.all_eq_true.mp h row hrow) cell hc
  simpa [h1, h2, hty] using this

/-- not vacuous: a table with a title, spans and columns, with and without CALS attributes, where titles are looked for -/
example : (KnownUnit ['m', 'm'] ∧ NumberedWidths none docDemo.table) ∧
    ∃ t, eval (CalsP.parseTable ⟨none, ['m', 'm'], id⟩ none docDemo.table) PState.init = .ok (some t) ∧ t.cells ≠ [] ∧ TitleWritable true t ∧
    ∃ tree, (cals2formex ⟨none, ['m', 'm'], id⟩ ⟨true, true, none, ['m', 'm'], id⟩).convert [] docDemo.table = .ok tree := by
  have hk : KnownUnit ['m', 'm'] ∧ NumberedWidths none docDemo.table := ⟨mm_known, numbered_of (by decide +kernel)⟩
  have hp : (match eval (CalsP.parseTable ⟨none, ['m', 'm'], id⟩ none docDemo.table) PState.init with
    | .ok (some t) => decide (t.cells.length = 6) | _ => false) = true := by decide +kernel
  have hc := ok_of (show ((cals2formex ⟨none, ['m', 'm'], id⟩ ⟨true, true, none, ['m', 'm'], id⟩).convert [] docDemo.table).isOk = true by decide +kernel)
  refine ⟨hk, ?_⟩
  split at hp
  · rename_i t ht
    refine ⟨t, ht, ?_, (C87_cals_to_formex_partial _ ⟨true, true, none, ['m', 'm'], id⟩ [] _ (fun _ => hk) t ht).mp hc, hc⟩
    intro h0
    simp [h0] at hp
  · cases hp

/-- not vacuous: the Word table of C67 to C70, followed by a section in landscape -/
example : KnownOrientation (firstSectList [Ooxml.sectWord]) ∧
    (∃ tree, (ooxml2cals wConfig calsConfig).convert [Ooxml.sectWord] Ooxml.looksWord = .ok tree) ∧
    ∃ tree, (ooxml2formex wConfig ⟨false, true, none, ['m', 'm'], id⟩).convert [Ooxml.sectWord] Ooxml.looksWord = .ok tree := by
  have ho : KnownOrientation (firstSectList [Ooxml.sectWord]) := by
    rw [show firstSectList [Ooxml.sectWord] = some Ooxml.sectWord from rfl]
    intro s hs pg hpg o ho
    cases hs; cases hpg; cases ho
    exact .inl rfl
  have hp := ok_of (show (eval (Ooxml.parseTable wConfig (firstSectList [Ooxml.sectWord]) Ooxml.looksWord) PState.init).isOk = true by decide +kernel)
  have hc := ok_of (show ((ooxml2cals wConfig calsConfig).convert [Ooxml.sectWord] Ooxml.looksWord).isOk = true by decide +kernel)
  obtain ⟨t, ht⟩ := (C87_word_to_cals wConfig calsConfig [Ooxml.sectWord] Ooxml.looksWord mm_known ho).mp hc
  exact ⟨ho, hc, (C87_word_to_formex wConfig ⟨false, true, none, ['m', 'm'], id⟩ [Ooxml.sectWord] Ooxml.looksWord (fun _ => ⟨mm_known, ho⟩) t ht).mpr
    (fun h => nomatch h)⟩

/-- not vacuous: the Formex table of C76 -/
example : fmxDemo.corpus.tag? = some ⟨none, "CORPUS"⟩ ∧ NumberedWidths (some "c") fmxDemo.corpus ∧ TypedCells none fmxDemo.corpus ∧
    ∃ t, eval (FmxP.parseTable ⟨none, some "c", true⟩ 0 (some fmxTbl) fmxDemo.corpus) PState.init = .ok (some t) := by
  have hw : NumberedWidths (some "c") fmxDemo.corpus := numbered_of (by decide +kernel)
  have ht : TypedCells none fmxDemo.corpus := typed_of (by decide +kernel)
  exact ⟨rfl, hw, ht, (C87_formex_to_cals_partial ⟨⟨none, some "c", true⟩, calsConfig⟩ 0 (some fmxTbl) fmxDemo.corpus rfl mm_known hw ht).mp
    (ok_of (by decide +kernel))⟩

end Benker
