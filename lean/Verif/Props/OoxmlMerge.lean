import Verif.Lemmas.OoxmlMerge
import Verif.Props.OoxmlStyles

/-! C55: vertically merged cells of Word tables. -/

namespace Benker.Ooxml
open PyM Table OoxmlSpec

theorem named_append (nm : String) (l m : List Node) : named nm (l ++ m) = named nm l ++ named nm m := by
  unfold named; rw [List.filter_append]

theorem named_nil {nm : String} {l : List Node} (h : ∀ c ∈ l, c.tag? ≠ some (name nm)) : named nm l = [] := by
  unfold named
  rw [List.filter_eq_nil_iff]
  intro c hc
  simpa using h c hc

theorem name_ne {a b : String} (h : a ≠ b) : name a ≠ name b := by
  intro e
  exact h (by simpa [name] using e)

/-- a table of Word: the start, what is inside, the end -/
theorem parseTable_run (cfg : Config) (sect : Option Node) {n : Node} (hn : n.tag? = some (w "tbl")) (s : PState) :
    parseTable cfg sect n s =
      (do
        parseTbl cfg sect n
        loop cfg sect 1 (walkList selected (some n) n.children)
        let s ← PyM.get
        pure s.table) PState.init := by
  have hw : walk selected none n = ⟨true, n, none⟩ :: (walkList selected (some n) n.children ++ [⟨false, n, none⟩]) := by
    cases n with
    | elem t a x cs tl =>
      simp only [Node.tag?, Option.some.injEq] at hn
      have hs : selected t = true := by rw [hn]; decide
      unfold walk
      simp [hs, Node.children]
    | pi => cases hn
    | comment => cases hn
  unfold parseTable PState.reset
  have e0 : newDepth 0 ⟨true, n, none⟩ = 1 := by simp [newDepth, hn]
  have est : onEvent cfg sect ⟨true, n, none⟩ = parseTbl cfg sect n := by simp [onEvent, onStart, hn]
  have hne : w "tbl" ≠ w "tr" := by decide
  have een : onEvent cfg sect ⟨false, n, none⟩ = pure () := by simp [onEvent, onEnd, hn, hne]
  have e1 : loop cfg sect 1 (walkList selected (some n) n.children ++ [⟨false, n, none⟩]) =
      loop cfg sect 1 (walkList selected (some n) n.children) := by
    rw [loop_append, depth_walkList, loop_one _ _ (by simp [newDepth, hn]), een]
    exact bind_unit _
  rw [hw, loop_cons, e0, if_neg (by decide), est, e1]
  simp only [bind_run, set_run]
  cases parseTbl cfg sect n PState.init with
  | mk r s' => cases r <;> rfl

theorem place_blanks (k : Nat) : ∀ c : Int, ∀ s ∈ place c (List.replicate k blank), continues s.2 = false := by
  induction k with
  | zero => intro c s hs; cases hs
  | succ k ih =>
    intro c s hs
    rw [List.replicate_succ] at hs
    rcases List.mem_cons.mp hs with rfl | hs
    · exact continues_blank
    · exact ih _ s hs

theorem place_pad (W : Nat) (c : Int) (tcs : List Node) : ∀ s ∈ place c (pad W tcs), continues s.2 = true → s ∈ place c tcs := by
  intro s hs hc
  unfold pad at hs
  rw [place_append] at hs
  rcases List.mem_append.mp hs with hs | hs
  · exact hs
  · rw [place_blanks _ _ s hs] at hc; cases hc

theorem place_sub (W : Nat) (c : Int) (tcs : List Node) : ∀ s ∈ place c tcs, s ∈ place c (pad W tcs) := by
  intro s hs
  unfold pad
  rw [place_append]
  exact List.mem_append.mpr (.inl hs)

theorem supported_pad (W : Nat) : ∀ {rows : List (List Node)}, Supported rows → Supported (rows.map (pad W)) := by
  have hgo : ∀ (rows : List (List Node)) (above : List Node), Supported.go above rows → Supported.go (pad W above) (rows.map (pad W)) := by
    intro rows
    induction rows with
    | nil => intro _ _; trivial
    | cons row rows ih =>
      intro above h
      refine ⟨fun s hs hc => ?_, ih row h.2⟩
      obtain ⟨s', h1, h2⟩ := h.1 s (place_pad W 0 row s hs hc) hc
      exact ⟨s', place_sub W 0 above s' h1, h2⟩
  intro rows h
  cases rows with
  | nil => trivial
  | cons row rows =>
    refine ⟨fun s hs => ?_, hgo rows row h.2⟩
    cases hc : continues s.2 with
    | false => rfl
    | true => rw [h.1 s (place_pad W 0 row s hs hc)] at hc; cases hc

theorem continuesAt_pad (W : Nat) (a : Int) (tcs : List Node) : continuesAt a (pad W tcs) = continuesAt a tcs := by
  unfold continuesAt
  rw [Bool.eq_iff_iff, List.any_eq_true, List.any_eq_true]
  constructor
  · rintro ⟨s, hs, h⟩
    exact ⟨s, place_pad W 0 tcs s hs (by simp only [Bool.and_eq_true] at h; exact h.2), h⟩
  · rintro ⟨s, hs, h⟩
    exact ⟨s, place_sub W 0 tcs s hs, h⟩

theorem run_pad (W : Nat) (a : Int) (rows : List (List Node)) : run a (rows.map (pad W)) = run a rows := by
  induction rows with
  | nil => rfl
  | cons row rows ih => simp only [List.map_cons, run, continuesAt_pad, ih]

/-- a cell of which the styles can be read has something inside -/
theorem styled_inside {cfg : Config} {tc : Node} {st : Styles} (h : tcStyles cfg tc = .ok st) : tc.children.isEmpty = false := by
  cases hc : tc.children with
  | cons c cs => rfl
  | nil =>
    exfalso
    have hs : select [["p"]] tc = [] := by
      unfold select
      simp [hc]
    have hh : hAlign tc = .error .indexError := by
      unfold hAlign
      rw [hs]; rfl
    unfold tcStyles at h
    rw [hh] at h
    cases hv : vAlign tc with
    | error e => rw [hv] at h; cases h
    | ok va => rw [hv] at h; cases h

theorem place_replicate (k : Nat) : ∀ c : Int, place c (List.replicate k blank) = (List.range k).map (fun (i : Nat) => (c + (i : Int) + 1, blank)) := by
  induction k with
  | zero => intro c; rfl
  | succ k ih =>
    intro c
    rw [List.replicate_succ, List.range_succ_eq_map, List.map_cons, List.map_map]
    simp only [place]
    rw [ih, span_blank]
    congr 1
    · simp
    · refine List.map_congr_left ?_
      intro i _
      simp only [Function.comp_apply, Nat.succ_eq_add_one, Int.natCast_add, Int.natCast_one]
      congr 1
      omega

/-- the continuation cells of the rows but the first one are below cells of the same columns -/
def Chained : List (List Node) → Prop
  | [] => True
  | row :: rows => Supported.go row rows

theorem Chained.tail {row : List Node} {rows : List (List Node)} (h : Chained (row :: rows)) : Chained rows := by
  cases rows with
  | nil => trivial
  | cons r rows => exact h.2

/-- the cells of the completed rows, when nothing is in the empty cells -/
theorem wanted_completed {W : Nat} {content content' : Node → Option Content} {styles styles' : Node → Styles} (hblank : content' blank = none ∧ styles' blank = []) :
    ∀ (rows : List (String × List Node)) (r : Int), Chained (rows.map (·.2)) →
      (∀ row ∈ rows, ∀ tc ∈ row.2, 1 ≤ span tc ∧ (continues tc = false → content' tc = content tc ∧ styles' tc = styles tc)) →
      wanted content' styles' r (rows.map (fun row => (row.1, pad W row.2))) = completed W content styles r rows := by
  intro rows
  induction rows with
  | nil => intro _ _ _; rfl
  | cons row rows ih =>
    intro r hch h
    obtain ⟨nat, tcs⟩ := row
    have hspan : ∀ x ∈ tcs, 1 ≤ span x := fun x hx => (h (nat, tcs) (by simp) x hx).1
    rw [List.map_cons]
    simp only [wanted, completed]
    rw [ih (r + 1) hch.tail (fun row hr => h row (by simp [hr]))]
    congr 1
    have hm : (rows.map (fun row => (row.1, pad W row.2))).map (·.2) = (rows.map (·.2)).map (pad W) := by simp [List.map_map]
    rw [hm]
    have hp : place 0 (pad W tcs) = place 0 tcs ++ place (0 + total tcs) (List.replicate (W - (total tcs).toNat) blank) := by unfold pad; rw [place_append]
    rw [hp, List.filter_append, List.map_append]
    congr 1
    · refine List.map_congr_left ?_
      intro s hs
      rw [List.mem_filter] at hs
      have hmem := (place_le hspan 0 s hs.1).2.2
      obtain ⟨e1, e2⟩ := (h (nat, tcs) (by simp) s.2 hmem).2 (by simpa using hs.2)
      simp only [run_pad, e1, e2]
    · have hnorun : ∀ a : Int, total tcs < a → run a (rows.map (·.2)) = 0 := by
        intro a ha
        cases rows with
        | nil => rfl
        | cons row rows =>
          have hgo : Supported.go tcs (row.2 :: rows.map (·.2)) := hch
          simp only [List.map_cons, run]
          rw [if_neg]
          intro hc
          unfold continuesAt at hc
          obtain ⟨s, hs, h1⟩ := List.any_eq_true.mp hc
          simp only [Bool.and_eq_true, decide_eq_true_eq] at h1
          obtain ⟨s', h2, h3, -⟩ := hgo.1 s hs h1.2
          have := (place_le hspan 0 s' h2).2.1
          omega
      rw [List.filter_eq_self.mpr (by intro s hs; rw [place_blanks _ _ s hs]; rfl), place_replicate, List.map_map]
      refine List.map_congr_left ?_
      intro k _
      simp only [Function.comp_apply, run_pad, hblank.1, hblank.2, span_blank]
      rw [hnorun _ (by omega)]
      congr 1
      apply box_ext <;> simp only <;> omega

/-- the whole reading of a table of Word, when the rows may be short -/
theorem word_padded (cfg : Config) (sect : Option Node) (content : Node → Option Content) (styles : Node → Styles) (nature : Node → String) (W : Nat) (tbl : Node)
    (h : ShortTable cfg sect styles nature W tbl) (hcon : ∀ tc, continues tc = false → GoodCell cfg styles tc → content tc = paragraphs tc)
    (hblank : content blank = none ∧ styles blank = []) (s : PState) :
    ∃ t s' st nat, parseTable cfg sect tbl s = (.ok (some t), s') ∧
      t.grid.cells = wanted content styles 1 ((kids ["tr"] tbl).map (fun tr => (nature tr, pad W (kids ["tc"] tr)))) ∧
      tblStyles cfg sect tbl = .ok st ∧ RowFill W (kids ["tr"] tbl).length W nat t ∧
      LooksLike (rowsLooks cfg ⟨(st, attrOf (some tbl) [["tblPr"], ["tblStyle"]] "val"),
        ((kids ["tblGrid"] tbl).flatMap (kids ["gridCol"])).map (colLooks cfg), []⟩ nature (kids ["tr"] tbl)) t := by
  have htag : tbl.tag? = some (w "tbl") := h.tag
  obtain ⟨st, hst⟩ := h.style
  obtain ⟨head, rows, hch, hhead, hrows⟩ := h.children
  have hk : ∀ nm, kids [nm] tbl = named nm head ++ named nm rows := by
    intro nm
    rw [← named_append, ← hch]; rfl
  have htr : kids ["tr"] tbl = named "tr" rows := by
    rw [hk, named_nil, List.nil_append]
    intro c hc
    rcases hhead c hc with hq | ⟨ht, _⟩
    · exact quiet_tag hq "tr" (by simp)
    · rw [ht]; intro e; exact name_ne (by decide) (Option.some.inj e)
  have hgr : kids ["tblGrid"] tbl = named "tblGrid" head := by
    rw [hk, named_nil (l := rows), List.append_nil]
    intro c hc
    rcases hrows c hc with hq | ⟨ht, _⟩
    · exact quiet_tag hq "tblGrid" (by simp)
    · rw [ht]; intro e; exact name_ne (by decide) (Option.some.inj e)
  have hcols := h.columns
  rw [hgr] at hcols
  have hsup := supported_pad W h.supported
  have hknown := h.known
  rw [htr, hgr] at hknown
  rw [htr] at hsup ⊢
  rw [hgr]
  rw [parseTable_run cfg sect htag s, hch]
  have hnew : Table.new ([] : List (Cell Content)) (some st) (attrOf (some tbl) [["tblPr"], ["tblStyle"]] "val") =
      .ok ⟨st, attrOf (some tbl) [["tblPr"], ["tblStyle"]] "val", ⟨[]⟩, none, none⟩ := rfl
  have hinv : (⟨st, attrOf (some tbl) [["tblPr"], ["tblStyle"]] "val", ⟨[]⟩, none, none⟩ : Table Content).Inv := Table.new_tinv (by simp) hnew
  have h0 : ∃ s1, parseTbl cfg sect tbl PState.init = (.ok (), s1) ∧ AtCols (st, attrOf (some tbl) [["tblPr"], ["tblStyle"]] "val") [] s1 := by
    unfold parseTbl
    simp only [bind_run, lift_run, hst]
    exact ⟨_, rfl, _, rfl, rfl, rfl, hinv, rfl, rfl, rfl, ⟨rfl, fun i p h => by simp at h, fun i p h => by simp at h⟩⟩
  obtain ⟨s1, e1, p1⟩ := h0
  generalize attrOf (some tbl) [["tblPr"], ["tblStyle"]] "val" = tn at *
  have hrun : Runs (AtCols (st, tn) []) (AtGap (rowsLooks cfg ⟨(st, tn), ((named "tblGrid" head).flatMap (kids ["gridCol"])).map (colLooks cfg), []⟩ nature (named "tr" rows)) content styles W ((named "tr" rows).map (fun tr => (nature tr, pad W (kids ["tc"] tr)))))
      (loop cfg sect 1 (walkList selected (some tbl) (head ++ rows))) := by
    rw [walkList_append, loop_append, depth_walkList]
    refine runs_bind (runs_grids tbl head [] hhead) ?_
    have := runs_trs hcon hblank (cfg := cfg) (sect := sect) (styles := styles) (nature := nature)
      (L := ⟨(st, tn), ((named "tblGrid" head).flatMap (kids ["gridCol"])).map (colLooks cfg), []⟩) h.wide tbl rows [] hrows (by simpa using hknown) (by rw [List.nil_append]; rw [List.map_map] at hsup; exact hsup)
    rw [List.nil_append] at this
    intro s2 ⟨t, h1, h2, h3, h4, h5, h6, h7, h8⟩
    rw [List.nil_append] at h7 h8
    rw [List.length_map] at h7
    refine this s2 ⟨t, none, h1, h2, ⟨h4, by rw [h5]; exact .nil, ?_, ?_, ?_, ?_, ?_⟩, by rw [h5]; rfl, h8, rfl⟩
    · intro p
      rw [h5]
      constructor
      · rintro ⟨d, hd, _⟩; cases hd
      · intro hp; exfalso; have : (([] : List Node).map (fun tr => (nature tr, pad W (kids ["tc"] tr)))).length = 0 := rfl; rw [this] at hp; omega
    · intro hr; simp at hr
    · have hl := (lastLineOf_spec .row t.grid h4.grid).2.2.2 h5
      show ((t.rows).getD _).length = _
      rw [h6, hl]; rfl
    · omega
    · intro i hi; simp at hi
  obtain ⟨s2, e2, t, nat, h1, _, h3, h4, h5, _⟩ := hrun s1 p1
  refine ⟨t, s2, st, nat, ?_, h4, hst, ?_, h5⟩
  · simp only [bind_run, e1, e2, get_run, h1]
    rfl
  · rw [List.length_map] at h3
    exact h3

/-- what is in the cells, nothing if nothing is inside the element -/
def insideOf (tc : Node) : Option Content := if tc.children.isEmpty then none else paragraphs tc

/-- the same for the styles -/
def stylesInside (styles : Node → Styles) (tc : Node) : Styles := if tc.children.isEmpty then [] else styles tc

theorem good_inside {cfg : Config} {styles : Node → Styles} {tc : Node} (h : GoodCell cfg styles tc) (hc : continues tc = false) :
    insideOf tc = paragraphs tc ∧ stylesInside styles tc = styles tc := by
  have := styled_inside (h.style hc)
  unfold insideOf stylesInside
  simp only [this, Bool.false_eq_true, if_false, and_self]

theorem good_stylesOf {cfg : Config} {styles : Node → Styles} {tc : Node} (h : GoodCell cfg styles tc) : GoodCell cfg (stylesInside styles) tc :=
  ⟨h.wide, h.kind, h.inside, fun hc => by rw [(good_inside h hc).2]; exact h.style hc⟩

/-- the whole reading of a table of Word, when the rows may be short -/
theorem word_short (cfg : Config) (sect : Option Node) (styles : Node → Styles) (nature : Node → String) (W : Nat) (tbl : Node)
    (h : ShortTable cfg sect styles nature W tbl) (s : PState) :
    ∃ t s' st nat, parseTable cfg sect tbl s = (.ok (some t), s') ∧
      t.grid.cells = completed W paragraphs styles 1 ((kids ["tr"] tbl).map (fun tr => (nature tr, kids ["tc"] tr))) ∧
      tblStyles cfg sect tbl = .ok st ∧ RowFill W (kids ["tr"] tbl).length W nat t ∧
      LooksLike (rowsLooks cfg ⟨(st, attrOf (some tbl) [["tblPr"], ["tblStyle"]] "val"),
        ((kids ["tblGrid"] tbl).flatMap (kids ["gridCol"])).map (colLooks cfg), []⟩ nature (kids ["tr"] tbl)) t := by
  have hrow : ∀ tr, ShortRow cfg styles nature W tr → ShortRow cfg (stylesInside styles) nature W tr := fun tr hr =>
    ⟨fun c hc => (hr.cells c hc).imp id (fun hg => ⟨hg.1, good_stylesOf hg.2⟩), hr.fits, hr.nature, hr.height⟩
  obtain ⟨head, rows, hch, hhead, hrows⟩ := h.children
  have h' : ShortTable cfg sect (stylesInside styles) nature W tbl := ⟨h.tag, h.style, h.wide, h.columns, h.known,
    ⟨head, rows, hch, hhead, fun c hc => (hrows c hc).imp id (fun hg => ⟨hg.1, hrow c hg.2⟩)⟩, h.supported⟩
  obtain ⟨t, s', st, nat, h1, h2, h3⟩ := word_padded cfg sect insideOf (stylesInside styles) nature W tbl h' (by
    intro tc hc hg
    have := styled_inside (hg.style hc)
    unfold insideOf
    rw [this]; rfl) ⟨rfl, rfl⟩ s
  refine ⟨t, s', st, nat, h1, ?_, h3⟩
  rw [h2]
  have e : (kids ["tr"] tbl).map (fun tr => (nature tr, pad W (kids ["tc"] tr))) =
      ((kids ["tr"] tbl).map (fun tr => (nature tr, kids ["tc"] tr))).map (fun row => (row.1, pad W row.2)) := by rw [List.map_map]; rfl
  rw [e]
  refine wanted_completed ⟨rfl, rfl⟩ _ 1 ?_ ?_
  · have hs := h.supported
    rw [List.map_map]
    have e : ((fun x : String × List Node => x.2) ∘ fun tr => (nature tr, kids ["tc"] tr)) = kids ["tc"] := rfl
    rw [e]
    cases hl : (kids ["tr"] tbl).map (kids ["tc"]) with
    | nil => trivial
    | cons row l => rw [hl] at hs; exact hs.2
  · intro row hr tc htc
    obtain ⟨tr, htr, rfl⟩ := List.mem_map.mp hr
    have hsr : ShortRow cfg styles nature W tr := by
      unfold kids at htr
      rw [List.mem_filter] at htr
      have ht : tr.tag? = some (name "tr") := by simpa using htr.2
      rw [hch] at htr
      rcases List.mem_append.mp htr.1 with hm | hm
      · rcases hhead tr hm with hq | ⟨hx, _⟩
        · exact absurd ht (quiet_tag hq "tr" (by simp))
        · rw [hx] at ht; exact absurd (Option.some.inj ht) (name_ne (by decide))
      · rcases hrows tr hm with hq | ⟨_, hg⟩
        · exact absurd ht (quiet_tag hq "tr" (by simp))
        · exact hg
    have hgc : GoodCell cfg styles tc := by
      simp only [kids] at htc
      rw [List.mem_filter] at htc
      have ht : tc.tag? = some (name "tc") := by simpa using htc.2
      rcases hsr.cells tc htc.1 with hq | ⟨_, hg⟩
      · exact absurd ht (quiet_tag hq "tc" (by simp))
      · exact hg
    exact ⟨hgc.wide, fun hc => good_inside hgc hc⟩

/-- nothing is completed in full rows -/
theorem completed_full {W : Nat} {content : Node → Option Content} {styles : Node → Styles} : ∀ (rows : List (String × List Node)) (r : Int),
    (∀ row ∈ rows, total row.2 = W) → completed W content styles r rows = wanted content styles r rows := by
  intro rows
  induction rows with
  | nil => intro _ _; rfl
  | cons row rows ih =>
    intro r h
    simp only [completed, wanted]
    rw [ih (r + 1) (fun row hr => h row (by simp [hr])), h row (by simp)]
    simp

/-- the whole reading of a table of Word -/
theorem word_reading (cfg : Config) (sect : Option Node) (styles : Node → Styles) (nature : Node → String) (W : Nat) (tbl : Node)
    (h : GoodTable cfg sect styles nature W tbl) (s : PState) :
    ∃ t s' st nat, parseTable cfg sect tbl s = (.ok (some t), s') ∧
      t.grid.cells = wanted paragraphs styles 1 ((kids ["tr"] tbl).map (fun tr => (nature tr, kids ["tc"] tr))) ∧
      tblStyles cfg sect tbl = .ok st ∧ RowFill W (kids ["tr"] tbl).length W nat t ∧
      LooksLike (rowsLooks cfg ⟨(st, attrOf (some tbl) [["tblPr"], ["tblStyle"]] "val"),
        ((kids ["tblGrid"] tbl).flatMap (kids ["gridCol"])).map (colLooks cfg), []⟩ nature (kids ["tr"] tbl)) t := by
  obtain ⟨head, rows, hch, hhead, hrows⟩ := h.children
  have hfull : ∀ tr ∈ kids ["tr"] tbl, total (kids ["tc"] tr) = W := by
    intro tr htr
    unfold kids at htr
    rw [List.mem_filter] at htr
    have ht : tr.tag? = some (name "tr") := by simpa using htr.2
    rw [hch] at htr
    rcases List.mem_append.mp htr.1 with hm | hm
    · rcases hhead tr hm with hq | ⟨hx, _⟩
      · exact absurd ht (quiet_tag hq "tr" (by simp))
      · rw [hx] at ht; exact absurd (Option.some.inj ht) (name_ne (by decide))
    · rcases hrows tr hm with hq | ⟨_, hg⟩
      · exact absurd ht (quiet_tag hq "tr" (by simp))
      · exact hg.full
  have hshort : ShortTable cfg sect styles nature W tbl := by
    refine ⟨h.tag, h.style, h.wide, h.columns, ?_, ⟨head, rows, hch, hhead, fun c hc => (hrows c hc).imp id (fun hg => ⟨hg.1, ⟨hg.2.cells, ?_, hg.2.nature, hg.2.height⟩⟩)⟩, h.supported⟩
    · intro tr htr
      exact .inl (hfull tr (List.mem_of_mem_head? htr))
    · have := hg.2.full; omega
  obtain ⟨t, s', st, nat, h1, h2, h3⟩ := word_short cfg sect styles nature W tbl hshort s
  refine ⟨t, s', st, nat, h1, ?_, h3⟩
  rw [h2]
  refine completed_full _ 1 ?_
  intro row hr
  obtain ⟨tr, htr, rfl⟩ := List.mem_map.mp hr
  exact hfull tr htr

/-- **C55.** For every Word table whose rows have all the same number of columns and where each continuation cell is below a cell
of the same columns, with any number of rows, columns and merges: the reading succeeds, and the cells are exactly the cells which are
not continuation cells, in reading order, each one extended downwards by as many rows as it has continuation cells below it, with
its own content and styles. -/
theorem C55_merged_cells (cfg : Config) (sect : Option Node) (styles : Node → Styles) (nature : Node → String) (W : Nat) (tbl : Node)
    (h : GoodTable cfg sect styles nature W tbl) (s : PState) :
    ∃ t s', parseTable cfg sect tbl s = (.ok (some t), s') ∧
      t.grid.cells = wanted paragraphs styles 1 ((kids ["tr"] tbl).map (fun tr => (nature tr, kids ["tc"] tr))) := by
  obtain ⟨t, s', _, _, h1, h2, _⟩ := word_reading cfg sect styles nature W tbl h s
  exact ⟨t, s', h1, h2⟩

/-- **C55**, for one cell: a cell which is not a continuation cell, followed below by exactly `n` rows with a continuation cell in its
first column, becomes one cell, `n + 1` rows high, as wide as it was, with its content. -/
theorem C55_height (cfg : Config) (sect : Option Node) (styles : Node → Styles) (nature : Node → String) (W : Nat) (tbl : Node)
    (h : GoodTable cfg sect styles nature W tbl) (s : PState)
    (above below : List Node) (tr : Node) (more : List Node) (htr : kids ["tr"] tbl = above ++ tr :: (more ++ below))
    (a : Int) (tc : Node) (hslot : (a, tc) ∈ place 0 (kids ["tc"] tr)) (hrestart : continues tc = false)
    (hmore : ∀ r ∈ more, continuesAt a (kids ["tc"] r) = true) (hbelow : ∀ r, below.head? = some r → continuesAt a (kids ["tc"] r) = false) :
    ∃ t s', parseTable cfg sect tbl s = (.ok (some t), s') ∧ ∃ cell ∈ t.grid.cells,
      cell.min = ⟨a, above.length + 1⟩ ∧ cell.width = span tc ∧ cell.height = more.length + 1 ∧
      cell.content = paragraphs tc ∧ cell.styles = styles tc ∧ cell.nature = some (nature tr) := by
  obtain ⟨t, s', e, hc⟩ := C55_merged_cells cfg sect styles nature W tbl h s
  refine ⟨t, s', e, ?_⟩
  rw [hc, htr]
  have hrun : run a ((more ++ below).map (kids ["tc"])) = more.length := by
    clear hc htr e
    induction more with
    | nil =>
      cases below with
      | nil => rfl
      | cons r l => simp [run, hbelow r rfl]
    | cons r l ih =>
      simp only [List.cons_append, List.map_cons, run, hmore r (by simp), if_true, List.length_cons]
      rw [ih (fun r hr => hmore r (by simp [hr]))]
  have key : ∀ (above : List Node) (r : Int), ∃ cell ∈ wanted paragraphs styles r ((above ++ tr :: (more ++ below)).map (fun tr => (nature tr, kids ["tc"] tr))),
      cell = ⟨paragraphs tc, styles tc, some (nature tr), ⟨⟨a, r + above.length⟩, ⟨a + span tc - 1, r + above.length + more.length⟩⟩⟩ := by
    intro above
    induction above with
    | nil =>
      intro r
      refine ⟨_, ?_, rfl⟩
      simp only [List.nil_append, List.map_cons, wanted, List.mem_append, List.mem_map, List.mem_filter]
      left
      refine ⟨(a, tc), ⟨hslot, by simp [hrestart]⟩, ?_⟩
      simp only [List.map_map]
      have : ((more ++ below).map ((fun x : String × List Node => x.2) ∘ fun tr => (nature tr, kids ["tc"] tr))) = (more ++ below).map (kids ["tc"]) := rfl
      rw [this, hrun]
      simp
    | cons x l ih =>
      intro r
      obtain ⟨cell, h1, h2⟩ := ih (r + 1)
      refine ⟨cell, ?_, ?_⟩
      · simp only [List.cons_append, List.map_cons, wanted, List.mem_append]
        exact .inr h1
      · rw [h2]
        have : r + 1 + (l.length : Int) = r + ((x :: l).length : Int) := by simp; omega
        rw [this]
  obtain ⟨cell, h1, h2⟩ := key above 1
  refine ⟨cell, h1, ?_⟩
  subst h2
  refine ⟨?_, ?_, ?_, rfl, rfl, rfl⟩
  · simp only [Cell.min]; congr 1; omega
  · simp only [Cell.width, Box.width]; omega
  · simp only [Cell.height, Box.height]; omega

/-! ### examples -/

/-- a `w:tc`: number of columns, value of `w:vMerge`, text -/
def tcDemo (span : Option String) (merge : Option String) (text : String) : Node :=
  wEl "tc" [] [wEl "tcPr" [] ((span.toList.map (fun s => wEl "gridSpan" [("val", s)] [])) ++ (merge.toList.map (fun m => wEl "vMerge" [("val", m)] []))),
    .elem (name "p") [] (some text) [] none]

/-- a table of three columns: in the second column a cell of two columns goes on in the two next rows; the last cell of the second row
goes on as well -/
def mergeDemo : Node := wEl "tbl" [] [
  wEl "tblPr" [] [],
  wEl "tblGrid" [] [wEl "gridCol" [("w", "20")] [], wEl "gridCol" [("w", "20")] []],
  wEl "tr" [] [wEl "trPr" [] [wEl "tblHeader" [] []], tcDemo none none "a", tcDemo (some "2") (some "restart") "b"],
  wEl "tr" [] [tcDemo none (some "restart") "c", tcDemo (some "2") (some "continue") "x"],
  wEl "tr" [] [tcDemo none (some "continue") "y", tcDemo (some "2") (some "continue") "z"],
  wEl "tr" [] [tcDemo (some "3") none "d"]]

/-- styles read by the model, for the examples -/
def stylesOf (tc : Node) : Styles := match tcStyles wConfig tc with
  | .ok st => st
  | .error _ => []

/-- natures read by the model, for the examples -/
def natureOf (tr : Node) : String := match rowNature tr with
  | .ok n => n
  | .error _ => ""

instance decGo : ∀ (a : List Node) (rows : List (List Node)), Decidable (Supported.go a rows)
  | _, [] => isTrue trivial
  | a, row :: rows =>
    have := decGo row rows
    inferInstanceAs (Decidable ((∀ s ∈ place 0 row, continues s.2 = true → ∃ s' ∈ place 0 a, s'.1 = s.1 ∧ span s'.2 = span s.2) ∧ Supported.go row rows))

instance decSupported : ∀ (rows : List (List Node)), Decidable (Supported rows)
  | [] => isTrue trivial
  | row :: rows => inferInstanceAs (Decidable ((∀ s ∈ place 0 row, continues s.2 = false) ∧ Supported.go row rows))

theorem mergeDemo_good : GoodTable wConfig none stylesOf natureOf 3 mergeDemo := by
  have tcs : ∀ a m x, (tcDemo a m x).tag? = some (name "tc") := fun _ _ _ => rfl
  refine ⟨rfl, ⟨_, rfl⟩, by decide, by decide +kernel, ?_, ?_⟩
  · refine ⟨mergeDemo.children.take 2, mergeDemo.children.drop 2, by simp, ?_, ?_⟩
    · intro c hc
      simp only [mergeDemo, wEl, Node.children, List.take, List.mem_cons, List.not_mem_nil, or_false] at hc
      rcases hc with rfl | rfl
      · left; decide +kernel
      · right
        refine ⟨rfl, ⟨?_⟩⟩
        intro c hc
        simp only [Node.children, List.mem_cons, List.not_mem_nil, or_false] at hc
        rcases hc with rfl | rfl <;> exact .inr ⟨rfl, rfl, "20", 0, rfl, rfl⟩
    · intro c hc
      simp only [mergeDemo, wEl, Node.children, List.drop, List.mem_cons, List.not_mem_nil, or_false] at hc
      rcases hc with rfl | rfl | rfl | rfl
      · refine .inr ⟨rfl, ?_, by decide +kernel, by decide +kernel, ⟨_, rfl⟩⟩
        intro c hc
        simp only [Node.children, List.mem_cons, List.not_mem_nil, or_false] at hc
        rcases hc with rfl | rfl | rfl
        · left; decide +kernel
        · exact .inr ⟨tcs .., ⟨by decide +kernel, by decide +kernel, by decide +kernel, fun _ => by decide +kernel⟩⟩
        · exact .inr ⟨tcs .., ⟨by decide +kernel, by decide +kernel, by decide +kernel, fun _ => by decide +kernel⟩⟩
      all_goals
        refine .inr ⟨rfl, ?_, by decide +kernel, by decide +kernel, ⟨_, rfl⟩⟩
        intro c hc
        simp only [Node.children, List.mem_cons, List.not_mem_nil, or_false] at hc
      · rcases hc with rfl | rfl <;> exact .inr ⟨tcs .., ⟨by decide +kernel, by decide +kernel, by decide +kernel, fun _ => by decide +kernel⟩⟩
      · rcases hc with rfl | rfl <;> exact .inr ⟨tcs .., ⟨by decide +kernel, by decide +kernel, by decide +kernel, fun _ => by decide +kernel⟩⟩
      · rcases hc with rfl; exact .inr ⟨tcs .., ⟨by decide +kernel, by decide +kernel, by decide +kernel, fun _ => by decide +kernel⟩⟩
  · decide +kernel

/-- boxes and texts of the cells of a table -/
def boxesOf (t : Option (Table Content)) : List (Int × Int × Int × Int × String) :=
  match t with
  | none => []
  | some t => t.grid.cells.map (fun c => (c.box.min.x, c.box.min.y, c.box.max.x, c.box.max.y, Content.text? c.content))

/-- not vacuous: the cells of the example -/
example : ((parseTable wConfig none mergeDemo PState.init).1.toOption.map boxesOf) =
    some [(1, 1, 1, 1, "a"), (2, 1, 3, 3, "b"), (1, 2, 1, 3, "c"), (1, 4, 3, 4, "d")] := by decide +kernel

/-- below a cell of two columns, two continuation cells of one column in a single row -/
def narrowDemo : Node := wEl "tbl" [] [
  wEl "tr" [] [tcDemo (some "2") (some "restart") "a"],
  wEl "tr" [] [tcDemo none (some "continue") "b", tcDemo none (some "continue") "c"]]

/-- The hypothesis on the columns is needed: with two narrow continuation cells under a wide cell, the cell gets one row too many. -/
theorem C55_narrow_counterexample :
    ((parseTable wConfig none narrowDemo PState.init).1.toOption.map boxesOf) = some [(1, 1, 2, 3, "a")] := by decide +kernel

/-- A continuation cell in the first row is refused: `KeyError`. -/
theorem C55_first_row_counterexample :
    (parseTable wConfig none (wEl "tbl" [] [wEl "tr" [] [tcDemo none (some "continue") "a"]]) PState.init).1.map boxesOf =
      .error .keyError := by decide +kernel

end Benker.Ooxml
