import Verif.Spec.ThereAndBack
import Verif.Props.FormexFinalised
import Verif.Props.CalsRefused

/-! C90: what the tables show is kept by two conversions. -/

namespace Benker
open PyM CalsSpec FmxSpec Benker.Shown

/-- a table which the CALS parser reads is accepted -/
theorem accepted_of_ok {pc : CalsP.Config} {parent : Option Node} {root : Node} (hroot : root.tag? = some ⟨pc.ns, "table"⟩) {s : PState} {r : Option (Table Content)}
    (h : eval (CalsP.parseTable pc parent root) s = .ok r) : Accepted pc root := by
  refine ⟨(C74_accepted_is_regular parent root hroot s r h).frame, ?_⟩
  have hs : Succeeds (do
      CalsP.parseTableElem pc root
      CalsP.loop pc 1 (walkList (CalsP.selected pc) (some root) root.children)
      PState.onTable CalsP.fillHoles
      let s ← PyM.get
      pure s.table) := by
    unfold eval at h
    rw [CalsP.parseTable_run parent hroot] at h
    exact ⟨PState.init, r, _, Prod.ext h rfl⟩
  obtain ⟨h1, _⟩ := succeeds_bind hs
  obtain ⟨st, h1, _⟩ := succeeds_lift h1
  intro w hw hne
  unfold CalsP.tableStyles at h1
  obtain ⟨st0, _, h1⟩ := Benker.bind_ok h1
  rw [show root.attr (pc.q "width") = some w from hw] at h1
  simp only [if_neg hne] at h1
  obtain ⟨w', hw', _⟩ := Benker.bind_ok h1
  exact ⟨w', hw'⟩

/-- a table which the Formex parser reads has a known frame -/
theorem frameAccepted_of_ok {pc : FmxP.Config} {blk : Nat} {parent : Option Node} {corpus : Node} (hc : corpus.tag? = some ⟨pc.ns, "CORPUS"⟩) {s : PState}
    {r : Option (Table Content)} (h : eval (FmxP.parseTable pc blk parent corpus) s = .ok r) : FrameAccepted pc.calsNs corpus := by
  have hs : Succeeds (do
        FmxP.parseCorpus pc parent corpus
        FmxP.loop pc 1 blk (walkList (FmxP.selected pc) (some corpus) corpus.children)
        FmxP.endCorpus pc parent
        let s ← PyM.get
        pure s.table) := by
    unfold eval at h
    rw [FmxP.parseTable_run blk parent hc] at h
    exact ⟨PState.init, r, _, Prod.ext h rfl⟩
  obtain ⟨h1, _⟩ := succeeds_bind hs
  obtain ⟨st, h1, _⟩ := succeeds_lift h1
  intro f hf hne
  unfold FmxP.corpusStyles at h1
  obtain ⟨st0, h0, _⟩ := Benker.bind_ok h1
  rw [show corpus.attr (pc.q "frame") = some f from hf] at h0
  unfold CalsP.getFrameStyles at h0
  simp only [if_neg hne] at h0
  split at h0
  · cases h0
  · rename_i hg
    unfold Dict.get? at hg
    rw [Option.map_eq_some_iff] at hg
    obtain ⟨⟨k, v⟩, hg, _⟩ := hg
    have m1 := List.mem_of_find?_eq_some hg
    have m2 := List.find?_some hg
    simp only [decide_eq_true_eq] at m2
    subst m2
    exact List.mem_map_of_mem (f := Prod.fst) m1

theorem kind_line {l : DocLine} (h : l.sort ≠ .note) : l.kind none ≠ "footer" := by
  unfold DocLine.kind
  cases hs : l.sort with
  | row =>
    simp only
    unfold toldKind
    cases l.node.attr ⟨none, "TYPE"⟩ with
    | none => decide
    | some t =>
      simp only
      cases hf : kindOfType.find? (fun kv => kv.1 = t) with
      | none => decide
      | some kv =>
        have := List.mem_of_find?_eq_some hf
        simp only [kindOfType, List.mem_cons, List.not_mem_nil, or_false] at this
        rcases this with rfl | rfl | rfl | rfl | rfl <;> decide
  | title => simp
  | subtitle => simp
  | note => exact absurd hs h

theorem final_picture {lost : List Tok → Prop} {p : Picture} {d : FmxDoc} (h : FinalLines lost p d.all) :
    SameLines lost (p.map Line.inFormex) (formexPicture none false d) := by
  unfold SameLines formexPicture
  refine All₂.map_left (All₂.map_right (h.imp ?_))
  rintro l m ⟨h1, h2, h3, h4⟩
  refine ⟨h1, ?_⟩
  simp only [DocLine.drawn, h2, h3, List.map_nil, List.nil_append, List.append_nil, List.map_map]
  refine All₂.map_right (h4.imp ?_)
  rintro a b ⟨g1, g2⟩
  refine ⟨g1, ?_⟩
  simp only [Function.comp, formexToks, Bool.false_eq_true, and_false, if_false]
  exact g2

/-- in a table where all the lines but the notes are in the body, no cell spans lines of different kinds -/
theorem final_oneKind {cals : Option String} {parent : Option Node} {w h : Nat} {d : FmxDoc} (hn : d.Nested none cals 0 parent) (hd : d.Drawn none cals w h)
    (hk : ∀ l ∈ d.lines, l.kind none = "body") : OneKind (formexPicture none false d) := by
  have hnote : ∀ l ∈ d.notes, l.kind none = "footer" := by
    intro l hl
    unfold DocLine.kind
    rw [hn.notes.2 l hl]
  intro L hL C hC i M hM h1 h2
  unfold formexPicture at hL hM
  obtain ⟨l, hl, rfl⟩ := List.mem_map.mp hL
  rw [List.getElem?_map, Option.map_eq_some_iff] at hM
  obtain ⟨m, hm, rfl⟩ := hM
  obtain ⟨e, he, rfl⟩ := List.mem_map.mp hC
  obtain ⟨j, hj⟩ := List.mem_iff_getElem?.mp hl
  have hy := hd.starts j l hj e he
  simp only at h1 h2 ⊢
  have hmm := List.mem_of_getElem? hm
  by_cases hij : i = j
  · subst hij
    rw [hj] at hm
    cases hm
    rfl
  unfold FmxDoc.all at hl hmm
  rcases List.mem_append.mp hl with hl | hl
  · rcases List.mem_append.mp hmm with hmm | hmm
    · rw [hk l hl, hk m hmm]
    · exfalso
      have hcells := hn.whole m (List.mem_append_right _ hmm) (by rw [hn.notes.2 m hmm]; simp)
      cases hmc : m.cells with
      | nil => rw [hmc] at hcells; cases hcells
      | cons c cs =>
        obtain ⟨b1, b2, hc⟩ := hd.notes m hmm
        obtain ⟨x1, x2, x3⟩ := hc c (by rw [hmc]; simp)
        have hcd : (some c.node, c.box) ∈ m.drawn := by simp [DocLine.drawn, b1, b2, hmc]
        have hcy := hd.starts i m hm _ hcd
        have me : (l, e) ∈ d.drawn := List.mem_flatMap.mpr ⟨l, List.mem_append_left _ hl, List.mem_map.mpr ⟨e, he, rfl⟩⟩
        have mc : (m, (some c.node, c.box)) ∈ d.drawn := List.mem_flatMap.mpr ⟨m, List.mem_append_right _ hmm, List.mem_map.mpr ⟨_, hcd, rfl⟩⟩
        obtain ⟨v1, v2, v3, v4, v5⟩ := hd.valid _ me
        simp only at v1 v2 v3 v4 v5 hcy
        have hov : Overlap e.2 c.box := ⟨⟨e.2.min.x, (i : Int) + 1⟩, by simp only [InBox]; omega, by simp only [InBox]; omega⟩
        have hne : (l, e) ≠ (m, (some c.node, c.box)) := by
          intro hh
          have : e.2 = c.box := congrArg (fun x => x.2.2) hh
          rw [this] at hy
          omega
        obtain ⟨a, ha⟩ := List.mem_iff_getElem.mp me
        obtain ⟨b, hb⟩ := List.mem_iff_getElem.mp mc
        obtain ⟨ha1, ha2⟩ := ha
        obtain ⟨hb1, hb2⟩ := hb
        have hsym : ∀ {x y : Box}, Overlap x y → Overlap y x := fun ⟨q, q1, q2⟩ => ⟨q, q2, q1⟩
        rcases Nat.lt_trichotomy a b with hab | hab | hab
        · have := List.pairwise_iff_getElem.mp hd.disjoint a b ha1 hb1 hab
          rw [ha2, hb2] at this
          exact this hov
        · subst hab
          exact hne (ha2.symm.trans hb2)
        · have := List.pairwise_iff_getElem.mp hd.disjoint b a hb1 ha1 hab
          rw [ha2, hb2] at this
          exact this (hsym hov)
  · obtain ⟨b1, b2, hc⟩ := hd.notes l hl
    simp only [DocLine.drawn, b1, b2, List.map_nil, List.nil_append, List.append_nil] at he
    obtain ⟨c, hcm, rfl⟩ := List.mem_map.mp he
    have := (hc c hcm).2.2
    simp only at h1 h2 hy
    omega

theorem sameLines_false {p q : Picture} (h : SameLines (fun _ => False) p q) : q = p := by
  unfold SameLines at h
  induction h with
  | nil => rfl
  | cons h1 _ ih =>
    rename_i l m _ _ _
    rw [ih]
    congr 1
    obtain ⟨k, cs⟩ := m
    obtain ⟨k', cs'⟩ := l
    obtain ⟨e, h2⟩ := h1
    simp only at e h2
    subst e
    congr 1
    clear ih
    induction h2 with
    | nil => rfl
    | cons h1 _ ih =>
      rw [ih]
      congr 1
      obtain ⟨e1, e2 | ⟨_, e2⟩⟩ := h1
      · exact Prod.ext e1 e2
      · exact e2.elim

theorem sameLines_without {lost : List Tok → Prop} {p q : Picture} {ns : Option String} {names : List String} (h : SameLines lost (p.map Line.inFormex) q)
    (hp : Without ns names p) : Without ns names q := by
  intro l hl c hc t a ht
  obtain ⟨m, hm, _, hs⟩ := h.mem_right hl
  obtain ⟨b, hb, _, e⟩ := hs.mem_right hc
  obtain ⟨m', hm', rfl⟩ := List.mem_map.mp hm
  rcases e with e | ⟨e, _⟩
  · exact hp m' hm' b hb t a (by rw [← e]; exact ht)
  · rw [e] at ht; cases ht

/-- the conversion to CALS of a final Formex table -/
theorem final_to_cals {lost : List Tok → Prop} {p : Picture} {w h : Nat} {cals : Option String} {final : Node} {d : FmxDoc}
    (hchildren : final.children = d.notes.map (·.node) ++ [d.corpus]) (hn : d.Nested none cals 0 (some final)) (hd : d.Drawn none cals w h) (hw : d.WidthKnown w)
    (hc : d.Columns cals w) (hl : FinalLines lost p d.all) (c : Fmx2Cals.Config) (hpc : c.parser = ⟨none, cals, false⟩)
    {ns : Option String} {u : List Char} {tg : Bool} {sorting : Option (List String)} {fl : Rat → Rat}
    (hcfg : Cals.Config.new ns u tg sorting fl = .ok c.builder) (hplain : Without none ["CORPUS"] p) (hplain' : Without c.builder.ns calsNames p)
    {corpus back : Node} (hcorpus : corpus ∈ final.children) (htag : corpus.tag? = some (FmxSpec.name "CORPUS"))
    (hconv : Fmx2Cals.convert c 0 (some final) corpus = .ok back) :
    ∃ (d' : CalsDoc) (q r : Picture), d'.table = back ∧ d'.Nested c.builder.ns ∧ d'.Drawn c.builder.ns w h ∧ d'.Columns c.builder.ns w ∧
      SameLines lost (p.map Line.inFormex) q ∧ CalsShows d' r ∧ Regrouped c.builder.tgroupSorting q r ∧ (Grouped c.builder.tgroupSorting q → r = q) := by
  have hcorp : corpus = d.corpus := by
    rw [hchildren] at hcorpus
    rcases List.mem_append.mp hcorpus with hm | hm
    · exfalso
      rcases hn.notes.1 with ⟨e, _⟩ | ⟨_, b, _, _, _, _, e⟩
      · cases e
      · rw [e] at hm
        have := (List.mem_filter.mp hm).2
        rw [htag] at this
        exact absurd this (by decide)
    · exact List.mem_singleton.mp hm
  subst hcorp
  have hpic := final_picture hl
  have hkind : ∀ l ∈ d.lines, l.kind none = "body" := by
    intro l hl'
    have h1 := kind_line (hn.lines l hl').1
    obtain ⟨m, _, e, _⟩ := hl.mem_right (List.mem_append_left _ hl')
    rw [e] at h1 ⊢
    split at h1
    · exact absurd rfl h1
    · rename_i hne
      rw [if_neg hne]
  obtain ⟨pc, bc⟩ := c
  simp only at hpc
  subst hpc
  have hframe : FrameAccepted cals d.corpus := by
    unfold Fmx2Cals.convert at hconv
    obtain ⟨t, ht, _⟩ := Convert.thenGenerate_ok hconv
    cases hp : eval (FmxP.parseTable ⟨none, cals, false⟩ 0 (some final) d.corpus) PState.init with
    | error e => rw [hp] at ht; cases ht
    | ok r => exact frameAccepted_of_ok (pc := ⟨none, cals, false⟩) htag hp
  obtain ⟨d', r, h1, h2, h3, h4, h5, h6, h7⟩ := C85_formex_to_cals ⟨⟨none, cals, false⟩, bc⟩ ns u tg sorting fl hcfg d w h 0 (some final) hn hd hw hc hframe
    (final_oneKind hn hd hkind) (sameLines_without hpic hplain') (sameLines_without hpic hplain) back hconv
  exact ⟨d', _, r, h1, h2, h3, h4, hpic, h5, h6, h7⟩

/-- **C90**, CALS to Formex and back to CALS: for every CALS table drawn on a grid, whose footers are full-width rows at the bottom, which is converted to Formex
and finalised as a table of a document as in C89: if the final table is then converted to CALS, the result is a CALS table of the same width and height, drawn on a
grid, whose rows are those of the first table, with the same entries, of the same contents, in the same columns and rows; they are sorted by kind as the option of the
builder asks for, and a header is a part of the body. -/
theorem C90_cals_formex_cals (pc : CalsP.Config) (bc : Fmx.Config) (cals : Option String) (hcals : bc.useCals = true → cals = bc.calsNs)
    (d : CalsDoc) (w h : Nat) (hn : d.Nested pc.ns) (hd : d.Drawn pc.ns w h) (hc : d.Columns pc.ns w) (ha : Accepted pc d.table)
    (p : Picture) (hp : CalsShows d p) (htitle : bc.detectTitles = true → NoTitle w p) (hfoot : FootersLast w p)
    (hstyle : bc.useCals = true → ∀ r ∈ d.rows, r.2.node.attr ⟨pc.ns, "rowstyle"⟩ = none)
    (hplain : Without none (["TBL", "GR.NOTES"] ++ formexNames) p) (hplain' : Without cals ["colspec"] p) (following : List Node)
    (tree : Node) (hconv : (Convert.cals2formex pc bc).convert following d.table = .ok tree)
    (root out : Node) (i : Nat) (tl : Option String) (hroot : TablesApart root) (hnotes : NotesApart root) (hi : (topTables root)[i]? = some (tree.setTail tl))
    (hfin : Fmx.finalize bc root = .ok out)
    (c : Fmx2Cals.Config) (hpc : c.parser = ⟨none, cals, false⟩) (ns : Option String) (u : List Char) (tg : Bool) (sorting : Option (List String)) (fl : Rat → Rat)
    (hcfg : Cals.Config.new ns u tg sorting fl = .ok c.builder) (hback : Without c.builder.ns calsNames p)
    (final corpus back : Node) (hf : (topTables out)[i]? = some final) (hcorpus : corpus ∈ final.children) (htag : corpus.tag? = some (FmxSpec.name "CORPUS"))
    (hconv' : Fmx2Cals.convert c 0 (some final) corpus = .ok back) :
    ∃ (d' : CalsDoc) (r : Picture), d'.table = back ∧ d'.Nested c.builder.ns ∧ d'.Drawn c.builder.ns w h ∧ d'.Columns c.builder.ns w ∧ CalsShows d' r ∧
      Regrouped c.builder.tgroupSorting (p.map Line.inFormex) r ∧ (Grouped c.builder.tgroupSorting (p.map Line.inFormex) → r = p.map Line.inFormex) := by
  obtain ⟨f, dd, h1, _, h2, h3, h4, h5, h6, h7⟩ := C89_cals_to_formex pc bc cals hcals d w h hn hd hc ha p hp htitle hfoot hstyle hplain hplain' following tree hconv
    root out i tl hroot hnotes hi hfin
  rw [hf] at h1
  cases h1
  obtain ⟨d', q, r, g1, g2, g3, g4, g5, g6, g7, g8⟩ := final_to_cals h2 h3 h4 h5 h6 h7 c hpc hcfg
    (fun l hl b hb t a ht hns hm => hplain l hl b hb t a ht hns (by
      rw [List.mem_singleton.mp hm]; simp [formexNames])) hback hcorpus htag hconv'
  rw [sameLines_false g5] at g7 g8
  exact ⟨d', r, g1, g2, g3, g4, g6, g7, g8⟩

/-- **C90**, Word to Formex, then to CALS: the same for every Word table which is drawn on a grid; only the contents of the cells which have neither text nor image may
be lost. -/
theorem C90_word_formex_cals (cfg : Ooxml.Config) (bc : Fmx.Config) (cals : Option String) (hcals : bc.useCals = true → cals = bc.calsNs)
    (following : List Node) (styles : Node → Styles) (nature : Node → String) (W : Nat) (tbl : Node)
    (h : OoxmlSpec.GoodTable cfg (Convert.firstSectList following) styles nature W tbl) (hne : OoxmlSpec.kids ["tr"] tbl ≠ [])
    (htitle : bc.detectTitles = true → NoTitle W (wordPicture tbl))
    (hplain : Without none (["TBL", "GR.NOTES"] ++ formexNames) (wordPicture tbl)) (hplain' : Without cals ["colspec"] (wordPicture tbl))
    (tree : Node) (hconv : (Convert.ooxml2formex cfg bc).convert following tbl = .ok tree)
    (root out : Node) (i : Nat) (tl : Option String) (hroot : TablesApart root) (hnotes : NotesApart root) (hi : (topTables root)[i]? = some (tree.setTail tl))
    (hfin : Fmx.finalize bc root = .ok out)
    (c : Fmx2Cals.Config) (hpc : c.parser = ⟨none, cals, false⟩) (ns : Option String) (u : List Char) (tg : Bool) (sorting : Option (List String)) (fl : Rat → Rat)
    (hcfg : Cals.Config.new ns u tg sorting fl = .ok c.builder) (hback : Without c.builder.ns calsNames (wordPicture tbl))
    (final corpus back : Node) (hf : (topTables out)[i]? = some final) (hcorpus : corpus ∈ final.children) (htag : corpus.tag? = some (FmxSpec.name "CORPUS"))
    (hconv' : Fmx2Cals.convert c 0 (some final) corpus = .ok back) :
    ∃ (d : CalsDoc) (r : Picture), d.table = back ∧ d.Nested c.builder.ns ∧ d.Drawn c.builder.ns W (OoxmlSpec.kids ["tr"] tbl).length ∧
      d.Columns c.builder.ns W ∧ CalsShows d r ∧ SameLines Blank ((wordPicture tbl).map Line.inFormex) r := by
  obtain ⟨f, dd, h1, _, h2, h3, h4, h5, h6, h7⟩ := C89_word_to_formex cfg bc cals hcals following styles nature W tbl h hne htitle hplain hplain' tree hconv
    root out i tl hroot hnotes hi hfin
  rw [hf] at h1
  cases h1
  obtain ⟨d', q, r, g1, g2, g3, g4, g5, g6, g7, g8⟩ := final_to_cals h2 h3 h4 h5 h6 h7 c hpc hcfg
    (fun l hl b hb t a ht hns hm => hplain l hl b hb t a ht hns (by
      rw [List.mem_singleton.mp hm]; simp [formexNames])) hback hcorpus htag hconv'
  have hall : ∀ l ∈ q, l.kind = "body" := by
    intro l hl
    obtain ⟨m, hm, e, _⟩ := g5.mem_right hl
    obtain ⟨m', hm', rfl⟩ := List.mem_map.mp hm
    rw [e]
    obtain ⟨j, hj⟩ := List.mem_iff_getElem?.mp hm'
    obtain ⟨tr, _, e, _⟩ := wordLines_get 1 _ j m' hj
    unfold Line.inFormex
    rw [e]
    unfold OoxmlSpec.natureOfRow
    split <;> simp
  have hg : Grouped c.builder.tgroupSorting q := by
    intro rank _
    rw [List.pairwise_iff_getElem]
    intro a b ha hb _
    rw [hall _ (List.getElem_mem ha), hall _ (List.getElem_mem hb)]
  rw [g8 hg] at g6
  exact ⟨d', q, g1, g2, g3, g4, g6, g5⟩

/-- the text which follows the table does not matter -/
def CalsDoc.withTail (d : CalsDoc) (tl : Option String) : CalsDoc := { d with table := d.table.setTail tl }

theorem withTail_table {ns : Option String} {w h : Nat} {d : CalsDoc} {p : Picture} (tl : Option String) (hn : d.Nested ns) (hd : d.Drawn ns w h) (hc : d.Columns ns w)
    (hp : CalsShows d p) : (CalsDoc.withTail d tl).Nested ns ∧ (CalsDoc.withTail d tl).Drawn ns w h ∧ (CalsDoc.withTail d tl).Columns ns w ∧
      CalsShows (CalsDoc.withTail d tl) p := by
  have e1 : (d.table.setTail tl).tag? = d.table.tag? := by cases d.table <;> rfl
  have e2 : (d.table.setTail tl).children = d.table.children := by cases d.table <;> rfl
  refine ⟨⟨?_, ?_, hn.tgroup, hn.inTgroup, hn.cols, hn.bodies, hn.rows, hn.entries⟩, ⟨hd.height, hd.notEmpty, hd.starts, hd.leftToRight, hd.spans, hd.valid, hd.disjoint, hd.full⟩,
    ⟨hc.number, hc.inside, hc.different⟩, hp⟩
  · show (d.table.setTail tl).tag? = _
    rw [e1]; exact hn.table
  · show Holds ns _ (d.table.setTail tl).children
    rw [e2]; exact hn.inTable

/-- the conversion to Formex of a table which has been converted to CALS -/
theorem cals_to_final {pc : CalsP.Config} {bc : Fmx.Config} {cns : Option String} {d : CalsDoc} {w h : Nat} (hn : d.Nested pc.ns) (hd : d.Drawn pc.ns w h) (hc : d.Columns pc.ns w)
    {p : Picture} (hp : CalsShows d p) (hcals : bc.useCals = false) (htitle : bc.detectTitles = true → NoTitle w p) (hfoot : FootersLast w p)
    (hplain : Without none (["TBL", "GR.NOTES"] ++ formexNames) p) (hplain' : Without cns ["colspec"] p) (following : List Node) (tl : Option String)
    {tree : Node} (hconv : (Convert.cals2formex pc bc).convert following (d.table.setTail tl) = .ok tree)
    {root out : Node} {i : Nat} {tl' : Option String} (hroot : TablesApart root) (hnotes : NotesApart root) (hi : (topTables root)[i]? = some (tree.setTail tl'))
    (hfin : Fmx.finalize bc root = .ok out) :
    ∃ (final : Node) (d' : FmxDoc), (topTables out)[i]? = some final ∧ final.tag? = some (FmxSpec.name "TBL") ∧
      final.children = d'.notes.map (·.node) ++ [d'.corpus] ∧ d'.Nested none cns 0 (some final) ∧ d'.Drawn none cns w h ∧
      d'.WidthKnown w ∧ d'.Columns cns w ∧ FinalLines (fun _ => False) p d'.all := by
  obtain ⟨hn', hd', hc', hp'⟩ := withTail_table tl hn hd hc hp
  have ha : Accepted pc (CalsDoc.withTail d tl).table := by
    have hconv2 := hconv
    unfold Convert.cals2formex at hconv2
    obtain ⟨t, ht, _⟩ := Convert.thenGenerate_ok hconv2
    exact accepted_of_ok hn'.table ht
  exact C89_cals_to_formex pc bc cns (fun e => by rw [hcals] at e; cases e) (CalsDoc.withTail d tl) w h hn' hd' hc' ha p hp' htitle hfoot (fun e => by rw [hcals] at e; cases e) hplain hplain' following tree hconv
    root out i tl' hroot hnotes hi hfin

/-- **C90**, Word to CALS, then to Formex: for every Word table which can be read, all of whose rows fill the same columns, whose rows are sorted by kind, and
which is converted to CALS: if the CALS table is then converted to Formex as a table of a document which is finalised, then the final Formex table shows what
the Word table shows - just as if it had been converted to Formex at once (C89). -/
theorem C90_word_cals_formex (cfg : Ooxml.Config) (cb : Cals.Config) (ns : Option String) (u : List Char) (tg : Bool) (sorting : Option (List String)) (fl : Rat → Rat)
    (hcfg : Cals.Config.new ns u tg sorting fl = .ok cb)
    (following : List Node) (styles : Node → Styles) (nature : Node → String) (W : Nat) (tbl : Node)
    (h : OoxmlSpec.GoodTable cfg (Convert.firstSectList following) styles nature W tbl) (hne : OoxmlSpec.kids ["tr"] tbl ≠ [])
    (hone : OneKind (wordPicture tbl)) (hgrouped : Grouped cb.tgroupSorting (wordPicture tbl)) (hplain : Without cb.ns calsNames (wordPicture tbl))
    (cals : Node) (hconv : (Convert.ooxml2cals cfg cb).convert following tbl = .ok cals)
    (pc : CalsP.Config) (hns : pc.ns = cb.ns) (bc : Fmx.Config) (cns : Option String) (hcals : bc.useCals = false) (htitle : bc.detectTitles = true → NoTitle W (wordPicture tbl))
    (hplain' : Without none (["TBL", "GR.NOTES"] ++ formexNames) (wordPicture tbl)) (hplain'' : Without cns ["colspec"] (wordPicture tbl))
    (following' : List Node) (tl : Option String) (tree : Node) (hconv' : (Convert.cals2formex pc bc).convert following' (cals.setTail tl) = .ok tree)
    (root out : Node) (i : Nat) (tl' : Option String) (hroot : TablesApart root) (hnotes : NotesApart root) (hi : (topTables root)[i]? = some (tree.setTail tl'))
    (hfin : Fmx.finalize bc root = .ok out) :
    ∃ (final : Node) (d : FmxDoc), (topTables out)[i]? = some final ∧ final.tag? = some (FmxSpec.name "TBL") ∧
      final.children = d.notes.map (·.node) ++ [d.corpus] ∧ d.Nested none cns 0 (some final) ∧
      d.Drawn none cns W (OoxmlSpec.kids ["tr"] tbl).length ∧
      d.WidthKnown W ∧ d.Columns cns W ∧ FinalLines (fun _ => False) (wordPicture tbl) d.all := by
  obtain ⟨d, q, h1, h2, h3, h4, h5, _, h6⟩ := C85_word_to_cals cfg cb ns u tg sorting fl hcfg following styles nature W tbl h hne hone hplain cals hconv
  rw [h6 hgrouped] at h5
  subst h1
  rw [← hns] at h2 h3 h4
  refine cals_to_final h2 h3 h4 h5 hcals htitle ?_ hplain' hplain'' following' tl hconv' hroot hnotes hi hfin
  refine ⟨wordPicture tbl, [], by simp, ?_, ?_, by simp⟩
  · intro e
    have := h5.length
    rw [h3.height, e] at this
    exact hne (List.eq_nil_of_length_eq_zero this)
  · intro l hl
    obtain ⟨j, hj⟩ := List.mem_iff_getElem?.mp hl
    obtain ⟨tr, _, e, _⟩ := wordLines_get 1 _ j l hj
    rw [e]
    unfold OoxmlSpec.natureOfRow
    split <;> simp

/-- the lines of the foot of a Formex table are its notes -/
theorem formex_footers {cals : Option String} {outer : Nat} {parent : Option Node} {w h : Nat} {d : FmxDoc} (hn : d.Nested none cals outer parent)
    (hd : d.Drawn none cals w h) : FootersLast w (formexPicture none false d) := by
  refine ⟨d.lines.map (fun l => ⟨l.kind none, l.drawn.map (fun e => (e.2, formexToks none false l e.1))⟩),
    d.notes.map (fun l => ⟨l.kind none, l.drawn.map (fun e => (e.2, formexToks none false l e.1))⟩), ?_, ?_, ?_, ?_⟩
  · unfold formexPicture FmxDoc.all
    rw [List.map_append]
  · intro e
    exact hd.notEmpty.2 (List.map_eq_nil_iff.mp e)
  · intro l hl
    obtain ⟨m, hm, rfl⟩ := List.mem_map.mp hl
    exact kind_line (hn.lines m hm).1
  · intro l hl
    obtain ⟨m, hm, rfl⟩ := List.mem_map.mp hl
    refine ⟨?_, ?_⟩
    · unfold DocLine.kind
      rw [hn.notes.2 m hm]
    · have hcells := hn.whole m (List.mem_append_right _ hm) (by rw [hn.notes.2 m hm]; simp)
      obtain ⟨b1, b2, hc⟩ := hd.notes m hm
      cases hmc : m.cells with
      | nil => rw [hmc] at hcells; cases hcells
      | cons c cs =>
        rw [hmc] at hcells
        have : cs = [] := by
          have := congrArg List.length hcells
          simp at this
          exact this
        subst this
        exact ⟨_, by simp only [DocLine.drawn, b1, b2, hmc, List.map_nil, List.nil_append, List.append_nil, List.map_cons]; rfl,
          (hc c (by rw [hmc]; simp)).1, (hc c (by rw [hmc]; simp)).2⟩

/-- **C90**, Formex to CALS and back to Formex: for every Formex table which is drawn on a grid, whatever the number of columns, lines, blocks and notes, where no cell spans
lines of different kinds, whose rows are sorted by kind, and which is converted to CALS: if the CALS table is then converted to Formex as a table of a document which is
finalised, then the final Formex table shows what the first one shows: the same rectangles, with the same contents; the notes are notes. -/
theorem C90_formex_cals_formex (c : Fmx2Cals.Config) (hpc : c.parser.ns = none ∧ c.parser.embedGrNotes = false) (ns : Option String) (u : List Char) (tg : Bool)
    (sorting : Option (List String)) (fl : Rat → Rat) (hcfg : Cals.Config.new ns u tg sorting fl = .ok c.builder)
    (d : FmxDoc) (w h outer : Nat) (parent : Option Node) (hn : d.Nested none c.parser.calsNs outer parent) (hd : d.Drawn none c.parser.calsNs w h)
    (hk : d.WidthKnown w) (hc : d.Columns c.parser.calsNs w)
    (hone : OneKind (formexPicture none false d)) (hgrouped : Grouped c.builder.tgroupSorting (formexPicture none false d))
    (hplain : Without c.builder.ns calsNames (formexPicture none false d))
    (cals : Node) (hconv : Fmx2Cals.convert c outer parent d.corpus = .ok cals)
    (pc : CalsP.Config) (hns : pc.ns = c.builder.ns) (bc : Fmx.Config) (cns : Option String) (hcals : bc.useCals = false)
    (htitle : bc.detectTitles = true → NoTitle w (formexPicture none false d))
    (hplain' : Without none (["TBL", "GR.NOTES"] ++ formexNames) (formexPicture none false d)) (hplain'' : Without cns ["colspec"] (formexPicture none false d))
    (following : List Node) (tl : Option String) (tree : Node) (hconv' : (Convert.cals2formex pc bc).convert following (cals.setTail tl) = .ok tree)
    (root out : Node) (i : Nat) (tl' : Option String) (hroot : TablesApart root) (hnotes : NotesApart root) (hi : (topTables root)[i]? = some (tree.setTail tl'))
    (hfin : Fmx.finalize bc root = .ok out) :
    ∃ (final : Node) (d' : FmxDoc), (topTables out)[i]? = some final ∧ final.tag? = some (FmxSpec.name "TBL") ∧
      final.children = d'.notes.map (·.node) ++ [d'.corpus] ∧ d'.Nested none cns 0 (some final) ∧ d'.Drawn none cns w h ∧
      d'.WidthKnown w ∧ d'.Columns cns w ∧ FinalLines (fun _ => False) (formexPicture none false d) d'.all := by
  obtain ⟨⟨n0, cals0, e0⟩, cb⟩ := c
  obtain ⟨rfl, rfl⟩ := hpc
  have hframe : FrameAccepted cals0 d.corpus := by
    have hconv2 := hconv
    unfold Fmx2Cals.convert at hconv2
    obtain ⟨t, ht, _⟩ := Convert.thenGenerate_ok hconv2
    cases hp : eval (FmxP.parseTable ⟨none, cals0, false⟩ outer parent d.corpus) PState.init with
    | error e => rw [hp] at ht; cases ht
    | ok r => exact frameAccepted_of_ok (pc := ⟨none, cals0, false⟩) hn.corpus hp
  obtain ⟨d', q, h1, h2, h3, h4, h5, _, h6⟩ := C85_formex_to_cals ⟨⟨none, cals0, false⟩, cb⟩ ns u tg sorting fl hcfg d w h outer parent hn hd hk hc hframe hone hplain
    (fun l hl b hb t a ht hns hm => hplain' l hl b hb t a ht hns (by rw [List.mem_singleton.mp hm]; simp [formexNames])) cals hconv
  rw [h6 hgrouped] at h5
  subst h1
  simp only at h2 h3 h4 hns
  rw [← hns] at h2 h3 h4
  exact cals_to_final h2 h3 h4 h5 hcals htitle (formex_footers hn hd) hplain' hplain'' following tl hconv' hroot hnotes hi hfin

/-! ### the theorems are not vacuous -/

/-- the lines are sorted by the places of their kinds in the option -/
theorem grouped_of {S : List String} {p : Picture} (hS : S.Nodup) (hk : ∀ l ∈ p, l.kind ∈ S) (hp : p.Pairwise (fun l m => S.idxOf l.kind ≤ S.idxOf m.kind)) : Grouped S p := by
  intro rank hrank
  have e : ∀ k ∈ S, rank k = (S.idxOf k : Int) := by
    intro k hk
    rcases hrank k with ⟨i, n, e1, e2, e3, _⟩ | ⟨hno, _⟩
    · cases e1
      rw [e2]
      have hi := List.getElem?_eq_some_iff.mp e3
      rw [← hi.2, hS.idxOf_getElem]
    · exact absurd hk (hno k rfl)
  refine List.Pairwise.imp_of_mem ?_ hp
  intro a b ha hb hab
  rw [e _ (hk a ha), e _ (hk b hb)]
  exact Int.ofNat_le.mpr hab

/-- the `CORPUS` of a table -/
def corpusOf (t : Node) : Option Node := t.children.find? (fun c => c.tag? == some (FmxSpec.name "CORPUS"))

theorem corpusOf_some {t c : Node} (h : corpusOf t = some c) : c ∈ t.children ∧ c.tag? = some (FmxSpec.name "CORPUS") :=
  ⟨List.mem_of_find?_eq_some h, by simpa using List.find?_some h⟩

/-- a document which is a table -/
theorem single_tables {t : Node} (htag : t.tag? = some (FmxSpec.name "TBL")) (htail : t.tail = none) : TablesApart t ∧ (topTables t)[0]? = some (t.setTail none) := by
  cases t with
  | comment _ _ => cases htag
  | pi _ _ => cases htag
  | elem tag a txt c tl =>
    cases htag
    cases htail
    simp [TablesApart, topTables, FmxSpec.name, Node.setTail]

/-- the conversion back of the table of rank `i` of the document -/
def backOf (c : Fmx2Cals.Config) (out : Except PyErr Node) (i : Nat) : Option Node :=
  match out with
  | .error _ => none
  | .ok out =>
    match (topTables out)[i]? with
    | none => none
    | some final =>
      match corpusOf final with
      | none => none
      | some corpus => (Fmx2Cals.convert c 0 (some final) corpus).toOption

theorem backOf_some {c : Fmx2Cals.Config} {x : Except PyErr Node} {i : Nat} (h : (backOf c x i).isSome = true) : ∃ out final corpus back, x = .ok out ∧
    (topTables out)[i]? = some final ∧ corpus ∈ final.children ∧ corpus.tag? = some (FmxSpec.name "CORPUS") ∧ Fmx2Cals.convert c 0 (some final) corpus = .ok back := by
  unfold backOf at h
  cases x with
  | error e => cases h
  | ok out =>
    simp only at h
    cases h1 : (topTables out)[i]? with
    | none => rw [h1] at h; cases h
    | some final =>
      rw [h1] at h
      simp only at h
      cases h2 : corpusOf final with
      | none => rw [h2] at h; cases h
      | some corpus =>
        rw [h2] at h
        simp only at h
        cases h3 : Fmx2Cals.convert c 0 (some final) corpus with
        | error e => rw [h3] at h; cases h
        | ok back => exact ⟨out, final, corpus, back, rfl, h1, (corpusOf_some h2).1, (corpusOf_some h2).2, h3⟩

/-- not vacuous: a CALS table with a header, a body and a footer, the second of two tables of a document; titles and CALS attributes are asked for -/
example : ∃ (pc : CalsP.Config) (bc : Fmx.Config) (p : Picture) (c : Fmx2Cals.Config) (tree out final corpus back : Node), bc.useCals = true ∧ bc.detectTitles = true ∧
    footDemo.Nested pc.ns ∧ footDemo.Drawn pc.ns 2 3 ∧ footDemo.Columns pc.ns 2 ∧ Accepted pc footDemo.table ∧ CalsShows footDemo p ∧ NoTitle 2 p ∧ FootersLast 2 p ∧
    (∀ r ∈ footDemo.rows, r.2.node.attr ⟨pc.ns, "rowstyle"⟩ = none) ∧
    Without none (["TBL", "GR.NOTES"] ++ formexNames) p ∧ Without bc.calsNs ["colspec"] p ∧ (Convert.cals2formex pc bc).convert [] footDemo.table = .ok tree ∧
    TablesApart (twice tree) ∧ NotesApart (twice tree) ∧ (topTables (twice tree))[1]? = some (tree.setTail none) ∧ Fmx.finalize bc (twice tree) = .ok out ∧
    c.parser = ⟨none, bc.calsNs, false⟩ ∧ Cals.Config.new none ['m', 'm'] false none id = .ok c.builder ∧ Without c.builder.ns calsNames p ∧
    (topTables out)[1]? = some final ∧ corpus ∈ final.children ∧ corpus.tag? = some (FmxSpec.name "CORPUS") ∧ Fmx2Cals.convert c 0 (some final) corpus = .ok back := by
  obtain ⟨tree, ht⟩ := ok_of (show ((Convert.cals2formex ⟨none, ['m', 'm'], id⟩ ⟨true, true, none, ['m', 'm'], id⟩).convert [] footDemo.table).isOk = true by decide +kernel)
  have hc := C88_cals_to_formex ⟨none, ['m', 'm'], id⟩ ⟨true, true, none, ['m', 'm'], id⟩ none (fun _ => rfl) footDemo 2 3 footDemo_nested footDemo_drawn footDemo_columns
    footDemo_accepted _ footDemo_shows (fun _ => noTitle_of (by decide +kernel)) (without_of (by decide +kernel)) (without_of (by decide +kernel)) [] tree ht
  obtain ⟨_, htag, _⟩ := hc
  obtain ⟨h1, h2⟩ := twice_tables htag
  have hfin : (match (Convert.cals2formex ⟨none, ['m', 'm'], id⟩ ⟨true, true, none, ['m', 'm'], id⟩).convert [] footDemo.table with
    | .ok tree => decide (NotesApart (twice tree)) && (backOf ⟨⟨none, none, false⟩, calsConfig⟩ (Fmx.finalize ⟨true, true, none, ['m', 'm'], id⟩ (twice tree)) 1).isSome
    | .error _ => false) = true := by decide +kernel
  rw [ht] at hfin
  simp only [Bool.and_eq_true, decide_eq_true_eq] at hfin
  obtain ⟨hn, hfin⟩ := hfin
  obtain ⟨out, final, corpus, back, hout, g1, g2, g3, g4⟩ := backOf_some hfin
  exact ⟨_, _, _, ⟨⟨none, none, false⟩, calsConfig⟩, tree, out, final, corpus, back, rfl, rfl, footDemo_nested, footDemo_drawn, footDemo_columns, footDemo_accepted,
    footDemo_shows, noTitle_of (by decide +kernel), footDemo_last, by decide +kernel, without_of (by decide +kernel), without_of (by decide +kernel), ht, h1, hn,
    by rw [h2]; rfl, hout, rfl, rfl, without_of (by decide +kernel), g1, g2, g3, g4⟩

open Ooxml OoxmlSpec in
/-- not vacuous: a Word table of three columns and four rows, with merged cells -/
example : ∃ (bc : Fmx.Config) (c : Fmx2Cals.Config) (tree out final corpus back : Node), bc.detectTitles = true ∧
    GoodTable wConfig (Convert.firstSectList []) stylesOf natureOf 3 wordMerge ∧
    kids ["tr"] wordMerge ≠ [] ∧ NoTitle 3 (wordPicture wordMerge) ∧ Without none (["TBL", "GR.NOTES"] ++ formexNames) (wordPicture wordMerge) ∧
    Without bc.calsNs ["colspec"] (wordPicture wordMerge) ∧ (Convert.ooxml2formex wConfig bc).convert [] wordMerge = .ok tree ∧
    TablesApart (twice tree) ∧ NotesApart (twice tree) ∧ (topTables (twice tree))[0]? = some (tree.setTail (some "end")) ∧ Fmx.finalize bc (twice tree) = .ok out ∧
    c.parser = ⟨none, bc.calsNs, false⟩ ∧ Cals.Config.new none ['m', 'm'] false none id = .ok c.builder ∧ Without c.builder.ns calsNames (wordPicture wordMerge) ∧
    (topTables out)[0]? = some final ∧ corpus ∈ final.children ∧ corpus.tag? = some (FmxSpec.name "CORPUS") ∧ Fmx2Cals.convert c 0 (some final) corpus = .ok back := by
  obtain ⟨tree, ht⟩ := ok_of (show ((Convert.ooxml2formex wConfig ⟨true, false, none, ['m', 'm'], id⟩).convert [] wordMerge).isOk = true by decide +kernel)
  have hne : kids ["tr"] wordMerge ≠ [] := by
    intro h
    have : (kids ["tr"] wordMerge).length = 4 := by decide +kernel
    rw [h] at this; cases this
  obtain ⟨_, htag, _⟩ := C88_word_to_formex wConfig ⟨true, false, none, ['m', 'm'], id⟩ none (fun _ => rfl) [] stylesOf natureOf 3 wordMerge wordMerge_good hne
    (fun _ => noTitle_of (by decide +kernel)) (without_of (by decide +kernel)) (without_of (by decide +kernel)) tree ht
  obtain ⟨h1, h2⟩ := twice_tables htag
  have hfin : (match (Convert.ooxml2formex wConfig ⟨true, false, none, ['m', 'm'], id⟩).convert [] wordMerge with
    | .ok tree => decide (NotesApart (twice tree)) && (backOf ⟨⟨none, none, false⟩, calsConfig⟩ (Fmx.finalize ⟨true, false, none, ['m', 'm'], id⟩ (twice tree)) 0).isSome
    | .error _ => false) = true := by decide +kernel
  rw [ht] at hfin
  simp only [Bool.and_eq_true, decide_eq_true_eq] at hfin
  obtain ⟨hn, hfin⟩ := hfin
  obtain ⟨out, final, corpus, back, hout, g1, g2, g3, g4⟩ := backOf_some hfin
  exact ⟨⟨true, false, none, ['m', 'm'], id⟩, ⟨⟨none, none, false⟩, calsConfig⟩, tree, out, final, corpus, back, rfl, wordMerge_good, hne, noTitle_of (by decide +kernel),
    without_of (by decide +kernel), without_of (by decide +kernel), ht, h1, hn, by rw [h2]; rfl, hout, rfl, rfl, without_of (by decide +kernel), g1, g2, g3, g4⟩

open Ooxml OoxmlSpec in
/-- not vacuous: a Word table of three columns and four rows, with merged cells -/
example : ∃ (cb : Cals.Config) (pc : CalsP.Config) (bc : Fmx.Config) (cals tree out : Node), Cals.Config.new none ['m', 'm'] false none id = .ok cb ∧
    pc.ns = cb.ns ∧ bc.useCals = false ∧ bc.detectTitles = true ∧
    GoodTable wConfig (Convert.firstSectList []) stylesOf natureOf 3 wordMerge ∧
    kids ["tr"] wordMerge ≠ [] ∧ OneKind (wordPicture wordMerge) ∧ Grouped cb.tgroupSorting (wordPicture wordMerge) ∧ Without cb.ns calsNames (wordPicture wordMerge) ∧
    NoTitle 3 (wordPicture wordMerge) ∧ Without none (["TBL", "GR.NOTES"] ++ formexNames) (wordPicture wordMerge) ∧
    Without bc.calsNs ["colspec"] (wordPicture wordMerge) ∧ (Convert.ooxml2cals wConfig cb).convert [] wordMerge = .ok cals ∧
    (Convert.cals2formex pc bc).convert [] (cals.setTail (some "t")) = .ok tree ∧ TablesApart tree ∧ NotesApart tree ∧ (topTables tree)[0]? = some (tree.setTail none) ∧
    Fmx.finalize bc tree = .ok out := by
  obtain ⟨cals, ht⟩ := ok_of (show ((Convert.ooxml2cals wConfig calsConfig).convert [] wordMerge).isOk = true by decide +kernel)
  have hne : kids ["tr"] wordMerge ≠ [] := by
    intro h
    have : (kids ["tr"] wordMerge).length = 4 := by decide +kernel
    rw [h] at this; cases this
  have h1 : (match (Convert.ooxml2cals wConfig calsConfig).convert [] wordMerge with
    | .ok cals => (match (Convert.cals2formex ⟨none, ['m', 'm'], id⟩ ⟨true, false, none, ['m', 'm'], id⟩).convert [] (cals.setTail (some "t")) with
      | .ok tree => decide (tree.tag? = some (FmxSpec.name "TBL") ∧ tree.tail = none ∧ NotesApart tree) && (Fmx.finalize ⟨true, false, none, ['m', 'm'], id⟩ tree).isOk
      | .error _ => false)
    | .error _ => false) = true := by decide +kernel
  rw [ht] at h1
  simp only at h1
  cases h2 : (Convert.cals2formex ⟨none, ['m', 'm'], id⟩ ⟨true, false, none, ['m', 'm'], id⟩).convert [] (cals.setTail (some "t")) with
  | error e => rw [h2] at h1; cases h1
  | ok tree =>
    rw [h2] at h1
    simp only [Bool.and_eq_true, decide_eq_true_eq] at h1
    obtain ⟨⟨htag, htail, hn⟩, hfin⟩ := h1
    obtain ⟨out, hout⟩ := ok_of hfin
    obtain ⟨g1, g2⟩ := single_tables htag htail
    exact ⟨calsConfig, ⟨none, ['m', 'm'], id⟩, ⟨true, false, none, ['m', 'm'], id⟩, cals, tree, out, rfl, rfl, rfl, rfl, wordMerge_good, hne, oneKind_of (by decide +kernel),
      grouped_of (by decide +kernel) (by decide +kernel) (by decide +kernel), without_of (by decide +kernel), noTitle_of (by decide +kernel), without_of (by decide +kernel),
      without_of (by decide +kernel), ht, h2, g1, hn, g2, hout⟩

/-- not vacuous: a Formex table with columns, a header row, a block with a title, rows which are too short, spans and a note; the CALS table has the rows in the order of
Formex -/
example : ∃ (c : Fmx2Cals.Config) (pc : CalsP.Config) (bc : Fmx.Config) (cals tree out : Node), c.parser.ns = none ∧ c.parser.embedGrNotes = false ∧
    Cals.Config.new none ['m', 'm'] false (some ["header", "body", "footer"]) id = .ok c.builder ∧ pc.ns = c.builder.ns ∧ bc.useCals = false ∧ bc.detectTitles = true ∧
    fmxDemo.Nested none c.parser.calsNs 0 (some fmxTbl) ∧ fmxDemo.Drawn none c.parser.calsNs 3 5 ∧ fmxDemo.WidthKnown 3 ∧ fmxDemo.Columns c.parser.calsNs 3 ∧
    OneKind (formexPicture none false fmxDemo) ∧ Grouped c.builder.tgroupSorting (formexPicture none false fmxDemo) ∧
    Without c.builder.ns calsNames (formexPicture none false fmxDemo) ∧ Fmx2Cals.convert c 0 (some fmxTbl) fmxDemo.corpus = .ok cals ∧
    NoTitle 3 (formexPicture none false fmxDemo) ∧ Without none (["TBL", "GR.NOTES"] ++ formexNames) (formexPicture none false fmxDemo) ∧
    Without bc.calsNs ["colspec"] (formexPicture none false fmxDemo) ∧
    (Convert.cals2formex pc bc).convert [] (cals.setTail (some "t")) = .ok tree ∧ TablesApart tree ∧ NotesApart tree ∧ (topTables tree)[0]? = some (tree.setTail none) ∧
    Fmx.finalize bc tree = .ok out := by
  obtain ⟨cals, ht⟩ := ok_of (show (Fmx2Cals.convert ⟨⟨none, some "c", false⟩, ⟨none, ['m', 'm'], false, ["header", "body", "footer"], id⟩⟩ 0 (some fmxTbl)
    fmxDemo.corpus).isOk = true by decide +kernel)
  have h1 : (match Fmx2Cals.convert ⟨⟨none, some "c", false⟩, ⟨none, ['m', 'm'], false, ["header", "body", "footer"], id⟩⟩ 0 (some fmxTbl) fmxDemo.corpus with
    | .ok cals => (match (Convert.cals2formex ⟨none, ['m', 'm'], id⟩ ⟨true, false, none, ['m', 'm'], id⟩).convert [] (cals.setTail (some "t")) with
      | .ok tree => decide (tree.tag? = some (FmxSpec.name "TBL") ∧ tree.tail = none ∧ NotesApart tree) && (Fmx.finalize ⟨true, false, none, ['m', 'm'], id⟩ tree).isOk
      | .error _ => false)
    | .error _ => false) = true := by decide +kernel
  rw [ht] at h1
  simp only at h1
  cases h2 : (Convert.cals2formex ⟨none, ['m', 'm'], id⟩ ⟨true, false, none, ['m', 'm'], id⟩).convert [] (cals.setTail (some "t")) with
  | error e => rw [h2] at h1; cases h1
  | ok tree =>
    rw [h2] at h1
    simp only [Bool.and_eq_true, decide_eq_true_eq] at h1
    obtain ⟨⟨htag, htail, hn⟩, hfin⟩ := h1
    obtain ⟨out, hout⟩ := ok_of hfin
    obtain ⟨g1, g2⟩ := single_tables htag htail
    exact ⟨⟨⟨none, some "c", false⟩, ⟨none, ['m', 'm'], false, ["header", "body", "footer"], id⟩⟩, ⟨none, ['m', 'm'], id⟩, ⟨true, false, none, ['m', 'm'], id⟩, cals, tree, out,
      rfl, rfl, rfl, rfl, rfl, rfl, fmxDemo_nested, fmxDemo_drawn, fun _ _ _ _ => .inl ⟨⟨fmxC1, 3⟩, by simp [fmxDemo], rfl⟩, fmxDemo_columns,
      oneKind_of (by decide +kernel), grouped_of (by decide +kernel) (by decide +kernel) (by decide +kernel), without_of (by decide +kernel), ht,
      noTitle_of (by decide +kernel), without_of (by decide +kernel), without_of (by decide +kernel), h2, g1, hn, g2, hout⟩

end Benker
