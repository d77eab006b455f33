import Verif.Lemmas.FormexWritten
import Verif.Props.Conversion
import Verif.Props.CalsDoc

/-! C88: what the tables show is kept by the conversions to Formex. -/

namespace Benker
open PyM CalsSpec FmxSpec Benker.Shown

/-- a table read from a CALS document shows what the document shows -/
theorem cals_shows {pc : CalsP.Config} {d : CalsDoc} {w h : Nat} (hn : d.Nested pc.ns) (hd : d.Drawn pc.ns w h) (hc : d.Columns pc.ns w)
    (ha : Accepted pc d.table) {p : Picture} (hp : CalsShows d p) (parent : Option Node) (s : PState) :
    ∃ (t : Table Content) (rows cols : List (View Content)), eval (CalsP.parseTable pc parent d.table) s = .ok (some t) ∧
      eval (Table.views .row) t = .ok rows ∧ eval (Table.views .col) t = .ok cols ∧ rows.length = h ∧ cols.length = w ∧
      ParsedTable t ∧ t.cells ≠ [] ∧ DisjointCells t.cells ∧ (∀ p : Coord, 1 ≤ p.x → p.x ≤ w → 1 ≤ p.y → p.y ≤ h → Covered t.cells p) ∧
      (∀ r ∈ rows, r.owned.Pairwise (fun a b => a.min.x < b.min.x)) ∧ TableShows p rows ∧
      (∀ c ∈ t.cells, Dict.get? c.styles "x-cell-empty" = some (.str "true") → contentToks c.content = []) := by
  obtain ⟨t, rows, cols, h1, h2, h3, h4, h5, hcells, hrows, -⟩ := C73_reading (pc := pc) d w h hn hd hc ha parent s
  have hparsed : ParsedTable t := .cals pc parent d.table s t hn.table h1
  have hi : t.Inv := hparsed.tidy.1.inv
  have hord := (C80_rows t hparsed rows h2).1.leftToRight
  have hdr : Describes .row t.grid.cells rows := by rw [views_eq hi h2]; exact Table.base_describes hi .row
  have hown := owned_eq hi hdr hord
  have hlen : d.rows.length = rows.length := by rw [hd.height, h4]
  have hlines := all₂_unflat
    (R := fun (e : Node × DocEntry) (c : Cell Content) => c.box = e.2.box ∧ contentToks c.content = insideToks e.2.node ∧
      (Content.text? c.content).toList = charsOf (insideToks e.2.node) ∧ (∃ k, KindOf e.1 k ∧ c.nature = some k) ∧ EntryShown pc.ns e.2.node c.styles)
    (fun r : Node × DocRow => r.2.entries.map (fun e => (r.1, e))) (fun r : View Content => r.owned) (fun e => e.2.box.min.y)
    (fun c => c.box.min.y) (fun a b hab => by rw [hab.1]) d.rows rows 1 hlen
    (by
      intro i l hl e he
      obtain ⟨e, he', rfl⟩ := List.mem_map.mp he
      have := hd.starts i l hl e he'
      simp only
      omega)
    (by
      intro i r hr c' hc'
      obtain ⟨hlt, rfl⟩ := List.getElem?_eq_some_iff.mp hr
      have e1 : c'.box.min.y = rows[i].pos := ((hdr.owned _ (List.getElem_mem hlt) c').mp hc').2
      have e2 := hdr.pos i hlt
      omega)
    (by
      rw [show rows.flatMap (fun r => r.owned) = t.grid.cells from hown]
      exact hcells)
  have hfull : ∀ p : Coord, 1 ≤ p.x → p.x ≤ w → 1 ≤ p.y → p.y ≤ h → Covered t.cells p := by
    intro p p1 p2 p3 p4
    obtain ⟨e, he, hin⟩ := hd.full p p1 p2 p3 p4
    obtain ⟨c', hc', hb, _⟩ := hcells.mem_left he
    exact ⟨c', hc', by rw [hb]; exact hin⟩
  refine ⟨t, rows, cols, h1, h2, h3, h4, h5, hparsed, ?_,
    all₂_pairwise hcells hd.disjoint (fun a _ a' _ b b' hab hab' hn => by rw [hab.1, hab'.1]; exact hn), hfull, hord, ?_, ?_⟩
  · intro e
    have := hd.notEmpty
    obtain ⟨c', hc', _⟩ := hfull ⟨1, 1⟩ (by simp) (by simp only; omega) (by simp) (by simp only; omega)
    rw [e] at hc'; cases hc'
  · unfold TableShows
    unfold CalsShows at hp
    refine all₂_of_get (by rw [← hp.length, hlen]) ?_
    intro i l r hl hr
    obtain ⟨x, hx, hk, hcs⟩ := all₂_from hp hl
    obtain ⟨r', hr', ⟨k, hk', hnat⟩, -⟩ := all₂_to hrows hx
    rw [hr] at hr'; cases hr'
    obtain ⟨r', hr', hall⟩ := all₂_to hlines hx
    rw [hr] at hr'; cases hr'
    refine ⟨?_, ?_⟩
    · rw [hnat]
      obtain ⟨t1, g1, g2⟩ := hk
      obtain ⟨t2, g3, g4⟩ := hk'
      rw [g1] at g3
      cases g3
      simp only [List.mem_cons, Prod.mk.injEq, List.not_mem_nil, or_false] at g2 g4
      rcases g2 with ⟨g2, e2⟩ | ⟨g2, e2⟩ | ⟨g2, e2⟩ <;> rcases g4 with ⟨g4, e4⟩ | ⟨g4, e4⟩ | ⟨g4, e4⟩ <;> rw [e2, e4] <;>
        (rw [g2] at g4; revert g4; decide)
    · rw [hcs]
      refine All₂.map_left ?_
      have := All₂.of_map_left hall
      refine this.imp_mem ?_
      rintro e _ c ⟨e1, e2, _⟩
      exact ⟨e1, e2⟩
  · intro c hc' he
    obtain ⟨e, _, _, e2, _, _, e5⟩ := hcells.mem_right hc'
    rw [e2]
    refine Classical.byContradiction fun hn => ?_
    rw [e5.empty, if_neg hn] at he
    cases he

/-- **C88**, CALS to Formex: for every CALS table drawn on a grid, whatever the numbers of columns and rows, whose contents have no Formex table, and
whose first row does not look like a title (if titles are looked for): if the conversion succeeds, its result is a `TBL` element, which holds a `CORPUS` element
of the same width and height, drawn on a grid too, and whose rows are the rows of the CALS table, in the same order: their kinds, the columns and
the rows of the cells, and what is written in the cells. -/
theorem C88_cals_to_formex (pc : CalsP.Config) (bc : Fmx.Config) (cals : Option String) (hcals : bc.useCals = true → cals = bc.calsNs)
    (d : CalsDoc) (w h : Nat) (hn : d.Nested pc.ns) (hd : d.Drawn pc.ns w h) (hc : d.Columns pc.ns w) (ha : Accepted pc d.table)
    (p : Picture) (hp : CalsShows d p) (htitle : bc.detectTitles = true → NoTitle w p)
    (hplain : Without none formexNames p) (hplain' : Without cals ["colspec"] p) (following : List Node)
    (tree : Node) (hconv : (Convert.cals2formex pc bc).convert following d.table = .ok tree) :
    ∃ d' : FmxDoc, tree.tag? = some (FmxSpec.name "TBL") ∧ tree.children = [d'.corpus] ∧ d'.notes = [] ∧ d'.Nested none cals 0 (some tree) ∧
      d'.Drawn none cals w h ∧ d'.WidthKnown w ∧ d'.Columns cals w ∧ FormexLines (fun _ => False) p d'.lines := by
  obtain ⟨t, rows, cols, h1, h2, h3, rfl, rfl, hparsed, hne, hdis, hfull, hord, hshow, hempty⟩ := cals_shows hn hd hc ha hp none PState.init
  unfold Convert.cals2formex Convert.thenGenerate at hconv
  simp only [h1] at hconv
  refine fmx_shown hcals hparsed.tidy.1 h2 h3 hne hdis hfull hord hshow ?_ htitle hplain hplain' (fun _ => False) ?_ hconv
  · intro l hl
    obtain ⟨x, _, ⟨t, _, hk⟩, _⟩ := hp.mem_right hl
    simp only [List.mem_cons, Prod.mk.injEq, List.not_mem_nil, or_false] at hk ⊢
    rcases hk with ⟨_, h⟩ | ⟨_, h⟩ | ⟨_, h⟩ <;> simp [h]
  · intro c hc hw
    left
    rcases hw with e | e | e
    · rw [e]; rfl
    · rw [e]; rfl
    · exact hempty c hc e

open OoxmlSpec in
theorem wanted_styles (content : Node → Option Content) (styles : Node → Styles) : ∀ (r : Int) (rows : List (String × List Node)) (c : Cell Content),
    c ∈ wanted content styles r rows → ∃ row ∈ rows, ∃ tc ∈ row.2, continues tc = false ∧ c.content = content tc ∧ c.styles = styles tc
  | _, [], c, h => by cases h
  | r, (nat, tcs) :: rows, c, h => by
    rw [wanted] at h
    rcases List.mem_append.mp h with h | h
    · obtain ⟨s, hs, rfl⟩ := List.mem_map.mp h
      obtain ⟨h1, h2⟩ := List.mem_filter.mp hs
      refine ⟨(nat, tcs), by simp, s.2, ?_, by simpa using h2, rfl, rfl⟩
      have : ∀ (a : Int) (l : List Node), s ∈ place a l → s.2 ∈ l := by
        intro a l
        induction l generalizing a with
        | nil => intro h; cases h
        | cons x l ih =>
          intro h
          rw [place] at h
          rcases List.mem_cons.mp h with h | h
          · rw [h]; simp
          · exact List.mem_cons_of_mem _ (ih _ h)
      exact this _ _ h1
    · obtain ⟨row, h1, h2⟩ := wanted_styles content styles (r + 1) rows c h
      exact ⟨row, by simp [h1], h2⟩


theorem no_opening (x : Option String) (t : QName) (a : List (QName × String)) : Tok.opening t a ∉ textToks x := by
  cases x with
  | none => simp [textToks]
  | some s => simp [textToks]

mutual
theorem inside_of_tok : ∀ (n : Node) (t : QName) (a : List (QName × String)), Tok.opening t a ∈ toks n →
    n.tag? = some t ∨ ∃ m, OoxmlSpec.Inside m n ∧ m.tag? = some t
  | .elem t' a' x cs tl, t, a, h => by
    simp only [toks, List.mem_cons, List.mem_append, reduceCtorEq, List.not_mem_nil, or_false, Tok.opening.injEq] at h
    rcases h with (⟨h, _⟩ | h | h) | h
    · exact .inl (by rw [h]; rfl)
    · exact absurd h (no_opening x t a)
    · obtain ⟨c, hc, h⟩ := inside_of_toks cs t a h
      rcases h with h | ⟨m, hm, h⟩
      · exact .inr ⟨c, .child hc, h⟩
      · exact .inr ⟨m, .deep hc hm, h⟩
    · exact absurd h (no_opening tl t a)
  | .pi _ _ tl, t, a, h => by
    simp only [toks, List.mem_cons, reduceCtorEq, false_or] at h
    exact absurd h (no_opening tl t a)
  | .comment _ tl, t, a, h => by
    simp only [toks, List.mem_cons, reduceCtorEq, false_or] at h
    exact absurd h (no_opening tl t a)
theorem inside_of_toks : ∀ (ns : List Node) (t : QName) (a : List (QName × String)), Tok.opening t a ∈ toksList ns →
    ∃ c ∈ ns, c.tag? = some t ∨ ∃ m, OoxmlSpec.Inside m c ∧ m.tag? = some t
  | [], t, a, h => by cases h
  | n :: ns, t, a, h => by
    rw [toksList] at h
    rcases List.mem_append.mp h with h | h
    · exact ⟨n, by simp, inside_of_tok n t a h⟩
    · obtain ⟨c, hc, h⟩ := inside_of_toks ns t a h
      exact ⟨c, by simp [hc], h⟩
end

open OoxmlSpec in
/-- what is in a cell which Word shows as empty -/
theorem blank_of_empty {tc : Node} (h : EmptyCell tc) : Blank (contentToks (paragraphs tc)) := by
  have hmem : ∀ n ∈ kids ["p", "tbl"] tc, n ∈ tc.children ∧ ∃ q, n.tag? = some q := by
    intro n hn
    unfold kids at hn
    obtain ⟨h1, h2⟩ := List.mem_filter.mp hn
    simp only [decide_eq_true_eq, List.map_cons, List.map_nil, List.mem_cons, List.not_mem_nil, or_false] at h2
    rcases h2 with h2 | h2 <;> exact ⟨h1, _, h2⟩
  have hc : contentToks (paragraphs tc) = (kids ["p", "tbl"] tc).flatMap (fun n => toks (n.setTail none)) := by
    unfold paragraphs
    simp only [contentToks, List.flatMap_map]
    rfl
  rw [hc]
  refine ⟨?_, ?_⟩
  · have : ∀ l : List Node, (∀ n ∈ l, n ∈ kids ["p", "tbl"] tc) → charsOf (l.flatMap (fun n => toks (n.setTail none))) = [] := by
      intro l
      induction l with
      | nil => intro _; rfl
      | cons n l ih =>
        intro hl
        rw [List.flatMap_cons, charsOf_append, ih (fun m hm => hl m (by simp [hm])), List.append_nil]
        obtain ⟨_, q, hq⟩ := hmem n (hl n (by simp))
        rw [← nodeText_chars, Ooxml.nodeText_setTail_none hq, h.1 n (hl n (by simp))]
        rfl
    exact this _ (fun _ h => h)
  · intro t a ht
    obtain ⟨n, hn, ht⟩ := List.mem_flatMap.mp ht
    obtain ⟨h1, _⟩ := hmem n hn
    have hch : (n.setTail none).children = n.children ∧ (n.setTail none).tag? = n.tag? := by cases n <;> exact ⟨rfl, rfl⟩
    have hm : ∃ m, Inside m tc ∧ m.tag? = some t := by
      rcases inside_of_tok _ t a ht with h | ⟨m, hm, h⟩
      · exact ⟨n, .child h1, by rw [← hch.2]; exact h⟩
      · refine ⟨m, .deep h1 ?_, h⟩
        cases hm with
        | child hm => exact .child (by rw [← hch.1]; exact hm)
        | deep hm hm' => exact .deep (by rw [← hch.1]; exact hm) hm'
    obtain ⟨m, hm, htag⟩ := hm
    have := h.2 m hm
    rw [htag] at this
    exact ⟨fun e => this.1 (by rw [e]), fun e => this.2 (by rw [e])⟩

theorem word_written_empty {cfg : Ooxml.Config} {sect : Option Node} {styles : Node → Styles} {nature : Node → String} {W : Nat} {tbl : Node}
    (h : OoxmlSpec.GoodTable cfg sect styles nature W tbl) {t : Table Content} {s' : PState}
    (h1 : Ooxml.parseTable cfg sect tbl PState.init = (.ok (some t), s')) :
    t.Reachable ∧ ∀ c ∈ t.cells, WrittenEmpty c → contentToks c.content = [] ∨ Blank (contentToks c.content) := by
  obtain ⟨t', s2, st, nat, g1, g2, -⟩ := Ooxml.word_reading cfg _ styles nature W tbl h PState.init
  rw [h1] at g1
  cases g1
  have e : eval (Ooxml.parseTable cfg sect tbl) PState.init = .ok (some t) := by unfold eval; rw [h1]
  have hparsed : ParsedTable t := .word cfg _ tbl PState.init t h.tag e
  refine ⟨hparsed.tidy.1, ?_⟩
  intro c hc hw
  rw [show t.cells = t.grid.cells from rfl, g2] at hc
  obtain ⟨row, hrow, tc, htc, hcont, e1, e2⟩ := wanted_styles _ _ _ _ _ hc
  rcases hw with e | e | e
  · rw [e]; exact .inl rfl
  · rw [e]; exact .inl rfl
  · right
    rw [e1]
    obtain ⟨tr, htr, rfl⟩ := List.mem_map.mp hrow
    have hgood := Ooxml.good_rows h htr
    have hcell : OoxmlSpec.GoodCell cfg styles tc := by
      have hm : tc ∈ OoxmlSpec.kids ["tc"] tr := htc
      unfold OoxmlSpec.kids at hm
      obtain ⟨m1, m2⟩ := List.mem_filter.mp hm
      rcases hgood.cells tc m1 with hq | ⟨_, hg⟩
      · exact absurd (by simpa using m2) (Ooxml.quiet_tag hq "tc" (by simp))
      · exact hg
    refine blank_of_empty (Classical.byContradiction fun hno => ?_)
    have := (Ooxml.cell_reads (hcell.style hcont)).filled hno
    rw [e2, this] at e
    cases e

/-- **C88**, Word to Formex: for every Word table which can be read, all of whose rows fill the same columns, whose contents have no Formex table, and
whose first row does not look like a title (if titles are looked for): if the conversion succeeds, its result is a `TBL` element, which holds a `CORPUS` element
of the same width and height, drawn on a grid, and whose rows are those of the Word table, in the same order: their kinds, the columns and the rows of
the cells (those which Word merges vertically are one cell), and what is written in the cells. Only what has neither character nor image is lost. -/
theorem C88_word_to_formex (cfg : Ooxml.Config) (bc : Fmx.Config) (cals : Option String) (hcals : bc.useCals = true → cals = bc.calsNs)
    (following : List Node) (styles : Node → Styles) (nature : Node → String) (W : Nat) (tbl : Node)
    (h : OoxmlSpec.GoodTable cfg (Convert.firstSectList following) styles nature W tbl) (hne : OoxmlSpec.kids ["tr"] tbl ≠ [])
    (htitle : bc.detectTitles = true → NoTitle W (wordPicture tbl))
    (hplain : Without none formexNames (wordPicture tbl)) (hplain' : Without cals ["colspec"] (wordPicture tbl))
    (tree : Node) (hconv : (Convert.ooxml2formex cfg bc).convert following tbl = .ok tree) :
    ∃ d : FmxDoc, tree.tag? = some (FmxSpec.name "TBL") ∧ tree.children = [d.corpus] ∧ d.notes = [] ∧ d.Nested none cals 0 (some tree) ∧
      d.Drawn none cals W (OoxmlSpec.kids ["tr"] tbl).length ∧ d.WidthKnown W ∧ d.Columns cals W ∧ FormexLines Blank (wordPicture tbl) d.lines := by
  obtain ⟨t, s', rows, cols, h1, h2, h3, h4, h5, hi, h6, h7, h8, h9, h10⟩ := word_shows cfg _ styles nature W tbl h hne PState.init
  have e : eval (Ooxml.parseTable cfg (Convert.firstSectList following) tbl) PState.init = .ok (some t) := by unfold eval; rw [h1]
  unfold Convert.ooxml2formex Convert.thenGenerate at hconv
  simp only [e] at hconv
  subst h5
  rw [← h4]
  refine fmx_shown hcals (word_written_empty h h1).1 h2 h3 h6 h7 h8 h9 h10 ?_ htitle hplain hplain' Blank ?_ hconv
  · intro l hl
    obtain ⟨i, hi⟩ := List.mem_iff_getElem?.mp hl
    obtain ⟨tr, _, e, _⟩ := wordLines_get 1 _ i l hi
    rw [e]
    unfold OoxmlSpec.natureOfRow
    split <;> simp
  · exact (word_written_empty h h1).2

/-! ### examples -/

theorem noTitle_of {w : Nat} {p : Picture} (h : ∀ l ∈ p.take 1, ∀ c ∈ l.cells, ¬ (c.1.min.x = 1 ∧ c.1.max.x = w)) : NoTitle w p := by
  intro l hl
  cases p with
  | nil => cases hl
  | cons m p => cases hl; exact h _ (by simp)

/-- what the rows of a CALS document show -/
def calsPictureOf (d : CalsDoc) (kinds : List String) : Picture :=
  (d.rows.zip kinds).map (fun x => ⟨x.2, x.1.2.entries.map (fun e => (e.box, insideToks e.node))⟩)

theorem docDemo_shows : CalsShows docDemo (calsPictureOf docDemo ["header", "body", "body"]) :=
  .cons ⟨⟨_, rfl, by decide⟩, rfl⟩ (.cons ⟨⟨_, rfl, by decide⟩, rfl⟩ (.cons ⟨⟨_, rfl, by decide⟩, rfl⟩ .nil))

theorem docDemo_accepted : Accepted (⟨none, ['m', 'm'], id⟩ : CalsP.Config) docDemo.table := by
  refine ⟨?_, ?_⟩
  · intro f hf _
    cases hf; decide
  · intro s hs _
    cases hs
    exact ok_of (show (Units.rewriteWidth id ['m', 'm'] "10cm".toList).isOk = true by decide +kernel)

/-- not vacuous: a CALS table of three columns, with a header, spans and columns described in disorder; titles and CALS attributes are asked for -/
example : ∃ (pc : CalsP.Config) (bc : Fmx.Config) (p : Picture) (tree : Node), bc.useCals = true ∧ bc.detectTitles = true ∧
    docDemo.Nested pc.ns ∧ docDemo.Drawn pc.ns 3 3 ∧ docDemo.Columns pc.ns 3 ∧ Accepted pc docDemo.table ∧ CalsShows docDemo p ∧ NoTitle 3 p ∧
    Without none formexNames p ∧ Without bc.calsNs ["colspec"] p ∧ (Convert.cals2formex pc bc).convert [] docDemo.table = .ok tree := by
  obtain ⟨tree, ht⟩ := ok_of (show ((Convert.cals2formex ⟨none, ['m', 'm'], id⟩ ⟨true, true, none, ['m', 'm'], id⟩).convert [] docDemo.table).isOk = true by decide +kernel)
  exact ⟨_, _, _, tree, rfl, rfl, docDemo_nested, docDemo_drawn, docDemo_columns, docDemo_accepted, docDemo_shows, noTitle_of (by decide +kernel),
    without_of (by decide +kernel), without_of (by decide +kernel), ht⟩

open Ooxml OoxmlSpec in
/-- not vacuous: a Word table of three columns and four rows, with merged cells -/
example : ∃ (bc : Fmx.Config) (tree : Node), bc.detectTitles = true ∧ GoodTable wConfig (Convert.firstSectList []) stylesOf natureOf 3 wordMerge ∧
    kids ["tr"] wordMerge ≠ [] ∧ NoTitle 3 (wordPicture wordMerge) ∧ Without none formexNames (wordPicture wordMerge) ∧
    Without bc.calsNs ["colspec"] (wordPicture wordMerge) ∧ (Convert.ooxml2formex wConfig bc).convert [] wordMerge = .ok tree := by
  obtain ⟨tree, ht⟩ := ok_of (show ((Convert.ooxml2formex wConfig ⟨true, false, none, ['m', 'm'], id⟩).convert [] wordMerge).isOk = true by decide +kernel)
  refine ⟨⟨true, false, none, ['m', 'm'], id⟩, tree, rfl, wordMerge_good, ?_, noTitle_of (by decide +kernel), without_of (by decide +kernel),
    without_of (by decide +kernel), ht⟩
  intro h
  have : (kids ["tr"] wordMerge).length = 4 := by decide +kernel
  rw [h] at this; cases this

end Benker
