import Verif.Lemmas.Conversion
import Verif.Props.FormexDoc
import Verif.Props.Formex2Cals
import Verif.Props.OoxmlLooks
import Verif.Props.ParsedOrder

/-! C85: what the tables show is kept by the conversions to CALS. -/

namespace Benker
open PyM CalsSpec FmxSpec Benker.Shown

/-! ### changing the contents of a table -/

theorem startsIn_map {γ δ : Type} (f : γ → δ) (ax : Axis) (n : Int) (c : Cell γ) : StartsIn ax n (c.mapContent f) ↔ StartsIn ax n c := by
  cases ax <;> exact Iff.rfl

theorem crosses_map {γ δ : Type} (f : γ → δ) (ax : Axis) (n : Int) (c : Cell γ) : Crosses ax n (c.mapContent f) ↔ Crosses ax n c := by
  cases ax <;> exact Iff.rfl

theorem describes_map {γ δ : Type} (f : γ → δ) {ax : Axis} {cells : List (Cell γ)} {vs : List (View γ)} (h : Describes ax cells vs) :
    Describes ax (cells.map (Cell.mapContent f)) (vs.map (View.mapContent f)) := by
  have sel : ∀ (P : Cell γ → Prop) (P' : Cell δ → Prop) (own : List (Cell γ)), (∀ c, P' (c.mapContent f) ↔ P c) → (∀ c, c ∈ own ↔ c ∈ cells ∧ P c) →
      ∀ c', c' ∈ own.map (Cell.mapContent f) ↔ c' ∈ cells.map (Cell.mapContent f) ∧ P' c' := by
    intro P P' own hP ho c'
    constructor
    · intro hc
      obtain ⟨c, hc', rfl⟩ := List.mem_map.mp hc
      exact ⟨List.mem_map_of_mem ((ho c).mp hc').1, (hP c).mpr ((ho c).mp hc').2⟩
    · rintro ⟨hc, hp⟩
      obtain ⟨c, hc', rfl⟩ := List.mem_map.mp hc
      exact List.mem_map_of_mem ((ho c).mpr ⟨hc', (hP c).mp hp⟩)
  refine ⟨?_, ?_, ?_, ?_⟩
  · intro i hi
    rw [List.getElem_map]
    exact h.pos i (by simpa using hi)
  · intro v hv
    obtain ⟨v, hv', rfl⟩ := List.mem_map.mp hv
    exact sel _ _ v.owned (fun c => startsIn_map f ax v.pos c) (h.owned v hv')
  · intro v hv
    obtain ⟨v, hv', rfl⟩ := List.mem_map.mp hv
    exact sel _ _ v.caught (fun c => crosses_map f ax v.pos c) (h.caught v hv')
  · intro c hc
    obtain ⟨c, hc', rfl⟩ := List.mem_map.mp hc
    rw [List.length_map]
    have := h.enough c hc'
    cases ax <;> exact this

theorem inv_map {γ δ : Type} (f : γ → δ) {t : Table γ} (h : t.Inv) : (t.mapContent f).Inv := by
  refine ⟨⟨?_, ?_, ?_⟩, ?_⟩
  · intro c hc
    obtain ⟨c, hc', rfl⟩ := List.mem_map.mp hc
    exact h.grid.valid c hc'
  · exact List.pairwise_map.mpr h.grid.noIntersect
  · exact List.pairwise_map.mpr h.grid.sorted
  · intro ax vs hv
    rw [getViews_map] at hv
    cases hv' : t.getViews ax with
    | none => rw [hv'] at hv; cases hv
    | some vs' =>
      rw [hv'] at hv
      cases hv
      exact describes_map f (h.views ax vs' hv')

theorem eval_views_map {γ δ : Type} (f : γ → δ) {t : Table γ} {ax : Axis} {vs : List (View γ)} (h : eval (Table.views ax) t = .ok vs) :
    eval (Table.views ax) (t.mapContent f) = .ok (vs.map (View.mapContent f)) := by
  have e := views_map f ax t
  unfold eval at h ⊢
  rw [e, h]
  rfl

/-! ### the removal of the notes of inner tables -/

mutual
theorem strip_id (c : FmxP.Config) : ∀ n : Node, (∀ t a, Tok.opening t a ∈ toks n → t ≠ c.f "CORPUS") → Fmx2Cals.strip c n = n
  | .elem t a x cs tl, h => by
    rw [Fmx2Cals.strip, if_neg (h t a (by simp [toks])), stripList_id c cs (fun t a ht => h t a (by simp [toks, ht]))]
  | .pi .., _ => rfl
  | .comment .., _ => rfl
theorem stripList_id (c : FmxP.Config) : ∀ ns : List Node, (∀ t a, Tok.opening t a ∈ toksList ns → t ≠ c.f "CORPUS") → Fmx2Cals.stripList c ns = ns
  | [], _ => rfl
  | n :: ns, h => by
    have hno : ∀ (ns : List Node), (∀ t a, Tok.opening t a ∈ toksList ns → t ≠ c.f "CORPUS") → ns.any (Fmx2Cals.isCorpus c) = false := by
      intro ns
      induction ns with
      | nil => intro _; rfl
      | cons m ns ih =>
        intro h
        rw [List.any_cons, ih (fun t a ht => h t a (by simp [toksList, ht])), Bool.or_false]
        unfold Fmx2Cals.isCorpus
        rw [decide_eq_false_iff_not]
        cases m with
        | elem t a x cs tl => intro e; exact h t a (by simp [toksList, toks]) (Option.some.inj e)
        | pi => simp [Node.tag?]
        | comment => simp [Node.tag?]
    rw [Fmx2Cals.stripList, hno ns (fun t a ht => h t a (by simp [toksList, ht])), if_neg (by simp),
      strip_id c n (fun t a ht => h t a (by simp [toksList, ht])), stripList_id c ns (fun t a ht => h t a (by simp [toksList, ht]))]
end

theorem strip_toks (c : FmxP.Config) (x : Option Content) (h : ∀ t a, Tok.opening t a ∈ contentToks x → t ≠ c.f "CORPUS") :
    contentToks (x.map (Fmx2Cals.stripContent c)) = contentToks x := by
  cases x with
  | none => rfl
  | some x =>
    cases x with
    | text s => rfl
    | num s => rfl
    | other s => rfl
    | node n =>
      show toks (Fmx2Cals.strip c n) = toks n
      rw [strip_id c n h]
    | seq l =>
      show (Fmx2Cals.stripItems c l).flatMap pieceToks = l.flatMap pieceToks
      have h' : ∀ t a, Tok.opening t a ∈ l.flatMap pieceToks → t ≠ c.f "CORPUS" := h
      clear h
      induction l with
      | nil => rfl
      | cons y l ih =>
        rw [List.flatMap_cons] at h'
        have ih := ih (fun t a ht => h' t a (by simp [ht]))
        cases y with
        | none => rw [Fmx2Cals.stripItems, List.flatMap_cons, List.flatMap_cons, ih]
        | some y =>
          rw [Fmx2Cals.stripItems, List.flatMap_cons, List.flatMap_cons, ih]
          congr 1
          cases y with
          | text s => rfl
          | num s => rfl
          | other s => rfl
          | seq s => rfl
          | node n =>
            show toks (Fmx2Cals.strip c n) = toks n
            rw [strip_id c n (fun t a ht => h' t a (by simp [pieceToks, ht]))]

/-! ### Formex to CALS -/

theorem line_kind (ns : Option String) (l : DocLine) : l.kind ns ∈ ["header", "body", "footer"] := by
  unfold DocLine.kind
  split
  · unfold toldKind
    split
    · simp
    · rename_i s _
      unfold kindOfType
      simp only [List.find?_cons, List.find?_nil]
      repeat' split
      all_goals simp
  · simp
  · simp
  · simp

/-- **C85**, Formex to CALS: for every Formex table which is drawn on a grid, whatever the number of columns, lines, blocks and notes, where no cell spans
lines of different kinds, and whose contents have no table: if the conversion succeeds, its result is a CALS table of the same width and height, drawn on a
grid too, whose `colspec` elements describe its columns, and which shows the same lines: their kinds, the columns of the cells, the numbers of rows of the cells,
and what is written in the cells. The lines are sorted by kind, as asked by the option of the builder; if they are already so, nothing moves. -/
theorem C85_formex_to_cals (c : Fmx2Cals.Config) (ns : Option String) (u : List Char) (tg : Bool) (sorting : Option (List String)) (fl : Rat → Rat)
    (hcfg : Cals.Config.new ns u tg sorting fl = .ok c.builder)
    (d : FmxDoc) (w h outer : Nat) (parent : Option Node) (hn : d.Nested c.parser.ns c.parser.calsNs outer parent) (hd : d.Drawn c.parser.ns c.parser.calsNs w h)
    (hk : d.WidthKnown w) (hc : d.Columns c.parser.calsNs w) (ha : FrameAccepted c.parser.calsNs d.corpus)
    (hone : OneKind (formexPicture c.parser.ns c.parser.embedGrNotes d))
    (hplain : Without c.builder.ns calsNames (formexPicture c.parser.ns c.parser.embedGrNotes d))
    (hno : Without c.parser.ns ["CORPUS"] (formexPicture c.parser.ns c.parser.embedGrNotes d))
    (tree : Node) (hconv : Fmx2Cals.convert c outer parent d.corpus = .ok tree) :
    ∃ (d' : CalsDoc) (q : Picture), d'.table = tree ∧ d'.Nested c.builder.ns ∧ d'.Drawn c.builder.ns w h ∧ d'.Columns c.builder.ns w ∧
      CalsShows d' q ∧ Regrouped c.builder.tgroupSorting (formexPicture c.parser.ns c.parser.embedGrNotes d) q ∧
      (Grouped c.builder.tgroupSorting (formexPicture c.parser.ns c.parser.embedGrNotes d) → q = formexPicture c.parser.ns c.parser.embedGrNotes d) := by
  obtain ⟨t, rows, cols, h1, h2, h3, rfl, rfl, hcells, hrows, _⟩ := C76_reading d w h outer parent hn hd hk hc ha PState.init
  have hparsed : ParsedTable t := .formex c.parser outer parent d.corpus PState.init t hn.corpus h1
  have hi : t.Inv := hparsed.tidy.1.inv
  have hord := (C80_rows t hparsed rows h2).1
  have hr := views_eq hi h2
  have hdr : Describes .row t.grid.cells rows := by rw [hr]; exact Table.base_describes hi .row
  have hown := owned_eq hi hdr hord.leftToRight
  unfold Fmx2Cals.convert Convert.thenGenerate at hconv
  rw [h1] at hconv
  -- the lines
  have hlines : All₂ (fun (l : DocLine) r => All₂ (fun e c' => c'.box = e.2.2 ∧ Shown c.parser.ns c.parser.calsNs c.parser.embedGrNotes e.1 e.2.1 c')
      (l.drawn.map (fun e => (l, e))) r.owned) d.all rows := by
    refine all₂_unflat (fun l : DocLine => l.drawn.map (fun e => (l, e))) (fun r : View Content => r.owned) (fun e => e.2.2.min.y) (fun c' => c'.box.min.y)
      (fun a b hab => by rw [hab.1]) d.all rows 1 hd.height ?_ ?_ ?_
    · intro i l hl e he
      obtain ⟨e, he', rfl⟩ := List.mem_map.mp he
      have := hd.starts i l hl e he'
      simp only
      omega
    · intro i r hr c' hc'
      obtain ⟨hlt, rfl⟩ := List.getElem?_eq_some_iff.mp hr
      have e1 : c'.box.min.y = rows[i].pos := ((hdr.owned _ (List.getElem_mem hlt) c').mp hc').2
      have e2 := hdr.pos i hlt
      omega
    · rw [show rows.flatMap (fun r => r.owned) = t.grid.cells from hown]
      exact hcells
  have htoks : ∀ (l : DocLine) (e : Option Node × Box) (c' : Cell Content), l ∈ d.all → e ∈ l.drawn →
      c'.box = e.2 → Shown c.parser.ns c.parser.calsNs c.parser.embedGrNotes l e.1 c' →
      contentToks ((c'.content).map (Fmx2Cals.stripContent c.parser)) = formexToks c.parser.ns c.parser.embedGrNotes l e.1 := by
    intro l e c' hl he hb hs
    have e1 : contentToks c'.content = formexToks c.parser.ns c.parser.embedGrNotes l e.1 := by
      obtain ⟨n, b⟩ := e
      cases n with
      | none => rw [(hs.empty rfl).1]; rfl
      | some n => rw [hs.content n rfl]; rfl
    rw [strip_toks, e1]
    rw [e1]
    intro tg a htok heq
    refine hno ⟨l.kind c.parser.ns, l.drawn.map (fun e => (e.2, formexToks c.parser.ns c.parser.embedGrNotes l e.1))⟩ ?_
      (e.2, formexToks c.parser.ns c.parser.embedGrNotes l e.1) ?_ tg a htok ?_ ?_
    · exact List.mem_map_of_mem (f := fun l : DocLine => (⟨l.kind c.parser.ns, l.drawn.map (fun e => (e.2, formexToks c.parser.ns c.parser.embedGrNotes l e.1))⟩ : Line)) hl
    · exact List.mem_map_of_mem (f := fun e : Option Node × Box => (e.2, formexToks c.parser.ns c.parser.embedGrNotes l e.1)) he
    · rw [heq]; rfl
    · rw [heq]; simp [FmxP.Config.f]
  have hshows : TableShows (formexPicture c.parser.ns c.parser.embedGrNotes d) (rows.map (View.mapContent (Fmx2Cals.stripContent c.parser))) := by
    unfold TableShows formexPicture
    refine All₂.map_left (All₂.map_right ?_)
    refine All₂.imp_mem (All₂.and hrows hlines) ?_
    rintro l hl r ⟨⟨n1, _⟩, hall⟩
    refine ⟨n1, All₂.map_left (All₂.map_right ?_)⟩
    have : All₂ (fun e c' => c'.box = e.2 ∧ Shown c.parser.ns c.parser.calsNs c.parser.embedGrNotes l e.1 c') l.drawn r.owned := All₂.of_map_left hall
    refine All₂.imp_mem this ?_
    rintro e he c' ⟨hb, hs⟩
    exact ⟨hb, htoks l e c' hl he hb hs⟩
  have hall : ∀ {P : Box → Prop}, (∀ e ∈ d.drawn, P e.2.2) → ∀ c' ∈ t.cells, P c'.box := by
    intro P hP c' hc'
    obtain ⟨e, he, hb, _⟩ := hcells.mem_right hc'
    rw [hb]; exact hP e he
  have hdis : DisjointCells t.cells := all₂_pairwise hcells hd.disjoint (fun a _ a' _ b b' hab hab' hn => by rw [hab.1, hab'.1]; exact hn)
  have hfull : ∀ p : Coord, 1 ≤ p.x → p.x ≤ cols.length → 1 ≤ p.y → p.y ≤ rows.length → Covered t.cells p := by
    intro p p1 p2 p3 p4
    obtain ⟨e, he, hin⟩ := hd.full p p1 p2 p3 p4
    obtain ⟨c', hc', hb, _⟩ := hcells.mem_left he
    exact ⟨c', hc', by rw [hb]; exact hin⟩
  have hne : t.cells ≠ [] := by
    intro e
    have h1 := hd.notEmpty
    have h2 : 1 ≤ rows.length := by
      rw [← hd.height]
      unfold FmxDoc.all
      have := List.length_pos_of_ne_nil h1.2
      rw [List.length_append]; omega
    obtain ⟨c', hc', _⟩ := hfull ⟨1, 1⟩ (by simp) (by simp only; omega) (by simp) (by simp only; omega)
    rw [e] at hc'; cases hc'
  obtain ⟨d', q, r1, r2, r3, r4, r5, r6, r7⟩ := cals_shown hcfg (inv_map (Fmx2Cals.stripContent c.parser) hi) (eval_views_map _ h2) (eval_views_map _ h3)
    (by
      intro e
      have e' : t.grid.cells.map (Cell.mapContent (Fmx2Cals.stripContent c.parser)) = [] := e
      exact hne (List.map_eq_nil_iff.mp e'))
    (List.pairwise_map.mpr hdis)
    (by
      intro p p1 p2 p3 p4
      rw [List.length_map] at p2 p4
      obtain ⟨c', hc', hin⟩ := hfull p p1 p2 p3 p4
      exact ⟨_, List.mem_map_of_mem hc', hin⟩)
    (by
      intro r hr
      obtain ⟨r, hr', rfl⟩ := List.mem_map.mp hr
      exact List.pairwise_map.mpr (hord.leftToRight r hr'))
    hshows
    (by
      intro l hl
      obtain ⟨l, _, rfl⟩ := List.mem_map.mp hl
      exact line_kind _ _)
    hone hplain hconv
  rw [List.length_map] at r3
  rw [List.length_map] at r3 r4
  exact ⟨d', q, r1, r2, r3, r4, r5, r6, r7⟩

/-! ### Word to CALS -/

open OoxmlSpec in
theorem word_lines (styles : Node → Styles) (nature : Node → String) : ∀ (r : Int) (trs : List Node),
    All₂ (fun (b : Box × List Tok) (c : Cell Content) => c.box = b.1 ∧ contentToks c.content = b.2) ((wordLines r trs).flatMap (·.cells))
      (wanted paragraphs styles r (trs.map (fun tr => (nature tr, kids ["tc"] tr))))
  | _, [] => .nil
  | r, tr :: trs => by
    rw [wordLines, List.flatMap_cons, List.map_cons, wanted]
    refine All₂.append ?_ (word_lines styles nature (r + 1) trs)
    refine All₂.map_left (All₂.map_right ?_)
    generalize (place 0 (kids ["tc"] tr)).filter (fun s => !continues s.2) = l
    induction l with
    | nil => exact .nil
    | cons s l ih =>
      refine .cons ⟨?_, ?_⟩ ih
      · simp only [List.map_map]; rfl
      · unfold paragraphs
        simp only [contentToks, List.flatMap_map]
        rfl

open OoxmlSpec in
theorem wordLines_get : ∀ (r : Int) (trs : List Node) (i : Nat) (l : Line), (wordLines r trs)[i]? = some l →
    ∃ tr, trs[i]? = some tr ∧ l.kind = natureOfRow tr ∧ ∀ c ∈ l.cells, c.1.min.y = r + i
  | _, [], i, l, h => by simp [wordLines] at h
  | r, tr :: trs, 0, l, h => by
    rw [wordLines] at h
    simp only [List.getElem?_cons_zero, Option.some.injEq] at h
    subst h
    refine ⟨tr, rfl, rfl, ?_⟩
    intro c hc
    obtain ⟨s, _, rfl⟩ := List.mem_map.mp hc
    simp
  | r, tr :: trs, i + 1, l, h => by
    rw [wordLines] at h
    obtain ⟨tr', h1, h2, h3⟩ := wordLines_get (r + 1) trs i l h
    exact ⟨tr', h1, h2, fun c hc => by have := h3 c hc; omega⟩

open OoxmlSpec in
theorem wordLines_length : ∀ (r : Int) (trs : List Node), (wordLines r trs).length = trs.length
  | _, [] => rfl
  | r, tr :: trs => by rw [wordLines, List.length_cons, wordLines_length, List.length_cons]

/-- a table read from a Word document shows what the document shows -/
theorem word_shows (cfg : Ooxml.Config) (sect : Option Node) (styles : Node → Styles) (nature : Node → String) (W : Nat) (tbl : Node)
    (h : OoxmlSpec.GoodTable cfg sect styles nature W tbl) (hne : OoxmlSpec.kids ["tr"] tbl ≠ []) (s : PState) :
    ∃ (t : Table Content) (s' : PState) (rows cols : List (View Content)), Ooxml.parseTable cfg sect tbl s = (.ok (some t), s') ∧
      eval (Table.views .row) t = .ok rows ∧ eval (Table.views .col) t = .ok cols ∧ rows.length = (OoxmlSpec.kids ["tr"] tbl).length ∧ cols.length = W ∧
      t.Inv ∧ t.cells ≠ [] ∧ DisjointCells t.cells ∧ (∀ p : Coord, 1 ≤ p.x → p.x ≤ W → 1 ≤ p.y → p.y ≤ rows.length → Covered t.cells p) ∧
      (∀ r ∈ rows, r.owned.Pairwise (fun a b => a.min.x < b.min.x)) ∧ TableShows (wordPicture tbl) rows := by
  obtain ⟨t, s', st, nat, h1, h2, h3, h4, h5⟩ := Ooxml.word_reading cfg sect styles nature W tbl h s
  obtain ⟨t2, s2, rows, e1, e2, e3, e4⟩ := Ooxml.C67_rows cfg sect styles nature W tbl h s
  rw [h1] at e1
  cases e1
  have hi := h4.inv
  have hrows := views_eq hi e2
  have hdr : Describes .row t.grid.cells rows := by rw [hrows]; exact Table.base_describes hi .row
  have hdc : Describes .col t.grid.cells (t.baseViews .col) := Table.base_describes hi .col
  have hcols : eval (Table.views .col) t = .ok (t.baseViews .col) := by unfold eval; rw [Table.views_run .col t hi.grid]
  have hcov := h4.covered
  have hn : 1 ≤ (OoxmlSpec.kids ["tr"] tbl).length := List.length_pos_of_ne_nil hne
  have hW := h.wide
  have hfull : ∀ p : Coord, 1 ≤ p.x → p.x ≤ W → 1 ≤ p.y → p.y ≤ rows.length → Covered t.cells p := by
    intro p p1 p2 p3 p4
    rw [e3] at p4
    exact (hcov p).mpr (by omega)
  have hlen : (t.baseViews .col).length = W := by
    obtain ⟨c, hc, hin⟩ := hfull ⟨W, 1⟩ (by simp only; omega) (by simp) (by simp) (by simp only; omega)
    have g1 := hdc.enough c hc
    have g2 := h4.cols
    simp only [InBox] at hin
    simp only [lastLine] at g1
    simp only [Cell.max] at g1
    omega
  have hparsed : ParsedTable t := .word cfg sect tbl s t h.tag (by unfold eval; rw [h1])
  have hord := (C80_rows t hparsed rows e2).1.leftToRight
  have hown := owned_eq hi hdr hord
  refine ⟨t, s', rows, t.baseViews .col, h1, e2, hcols, e3, hlen, hi, ?_, h4.disjoint, hfull, hord, ?_⟩
  · intro e
    obtain ⟨c, hc, _⟩ := hfull ⟨1, 1⟩ (by simp) (by simp only; omega) (by simp) (by simp only; omega)
    rw [e] at hc; cases hc
  · have hl : (wordPicture tbl).length = rows.length := by rw [wordPicture, wordLines_length, e3]
    have key : All₂ (fun (l : Line) (r : View Content) => All₂ (fun (b : Box × List Tok) (c : Cell Content) => c.box = b.1 ∧ contentToks c.content = b.2)
        l.cells r.owned) (wordPicture tbl) rows := by
      refine all₂_unflat (fun l : Line => l.cells) (fun r : View Content => r.owned) (fun b => b.1.min.y) (fun c => c.box.min.y)
        (fun a b hab => by rw [hab.1]) _ _ 1 hl ?_ ?_ ?_
      · intro i l hl c hc
        obtain ⟨_, _, _, h3⟩ := wordLines_get 1 _ i l hl
        exact h3 c hc
      · intro i r hr c' hc'
        obtain ⟨hlt, rfl⟩ := List.getElem?_eq_some_iff.mp hr
        have e1 : c'.box.min.y = rows[i].pos := ((hdr.owned _ (List.getElem_mem hlt) c').mp hc').2
        have e2 := hdr.pos i hlt
        omega
      · rw [show rows.flatMap (fun r => r.owned) = t.grid.cells from hown, h2]
        exact word_lines styles nature 1 _
    have kinds : All₂ (fun (l : Line) (r : View Content) => r.nature = some l.kind) (wordPicture tbl) rows := by
      refine all₂_of_get hl ?_
      intro i l r hl hr
      obtain ⟨tr, g1, g2, _⟩ := wordLines_get 1 _ i l hl
      obtain ⟨row, g3, _, g4, _⟩ := e4 i tr g1
      rw [hr] at g3; cases g3
      rw [g4, g2]
    exact kinds.and key

/-- **C85**, Word to CALS: for every Word table which can be read, all of whose rows fill the same columns, where no cell spans rows of different kinds, and
whose contents have no CALS element: if the conversion succeeds, its result is a CALS table of the same width and height, drawn on a grid, whose `colspec`
elements describe its columns, and which shows the same rows: their kinds, the columns of the cells, the numbers of rows of the cells (those which Word
merges vertically are one entry), and what is written in the cells. The rows are sorted by kind, as asked by the option of the builder; if they are already so,
nothing moves. -/
theorem C85_word_to_cals (cfg : Ooxml.Config) (bc : Cals.Config) (ns : Option String) (u : List Char) (tg : Bool) (sorting : Option (List String)) (fl : Rat → Rat)
    (hcfg : Cals.Config.new ns u tg sorting fl = .ok bc)
    (following : List Node) (styles : Node → Styles) (nature : Node → String) (W : Nat) (tbl : Node)
    (h : OoxmlSpec.GoodTable cfg (Convert.firstSectList following) styles nature W tbl) (hne : OoxmlSpec.kids ["tr"] tbl ≠ [])
    (hone : OneKind (wordPicture tbl)) (hplain : Without bc.ns calsNames (wordPicture tbl))
    (tree : Node) (hconv : (Convert.ooxml2cals cfg bc).convert following tbl = .ok tree) :
    ∃ (d : CalsDoc) (q : Picture), d.table = tree ∧ d.Nested bc.ns ∧ d.Drawn bc.ns W (OoxmlSpec.kids ["tr"] tbl).length ∧ d.Columns bc.ns W ∧
      CalsShows d q ∧ Regrouped bc.tgroupSorting (wordPicture tbl) q ∧ (Grouped bc.tgroupSorting (wordPicture tbl) → q = wordPicture tbl) := by
  obtain ⟨t, s', rows, cols, h1, h2, h3, h4, h5, hi, h6, h7, h8, h9, h10⟩ := word_shows cfg _ styles nature W tbl h hne PState.init
  unfold Convert.ooxml2cals Convert.thenGenerate at hconv
  simp only at hconv
  have e : eval (Ooxml.parseTable cfg (Convert.firstSectList following) tbl) PState.init = .ok (some t) := by unfold eval; rw [h1]
  rw [e] at hconv
  subst h5
  rw [← h4]
  refine cals_shown hcfg hi h2 h3 h6 h7 h8 h9 h10 ?_ hone hplain hconv
  intro l hl
  obtain ⟨i, hi⟩ := List.mem_iff_getElem?.mp hl
  obtain ⟨tr, _, e, _⟩ := wordLines_get 1 _ i l hi
  rw [e]
  unfold OoxmlSpec.natureOfRow
  split <;> simp

/-! ### examples -/

theorem oneKind_of {p : Picture} (h : ∀ l ∈ p, ∀ c ∈ l.cells, ∀ i ∈ List.range p.length, c.1.min.y ≤ (i : Int) + 1 → (i : Int) + 1 ≤ c.1.max.y →
    (p[i]?.map (·.kind)) = some l.kind) : OneKind p := by
  intro l hl c hc i m hm h1 h2
  have := h l hl c hc i (List.mem_range.mpr (List.getElem?_eq_some_iff.mp hm).1) h1 h2
  rw [hm] at this
  exact Option.some.inj this

theorem without_of {ns : Option String} {names : List String} {p : Picture} (h : ∀ l ∈ p, ∀ c ∈ l.cells, ∀ tk ∈ c.2, (match tk with
    | .opening t _ => decide (t.name ∉ names)
    | _ => true) = true) : Without ns names p := by
  intro l hl c hc t a ht _
  have := h l hl c hc _ ht
  simpa using this

theorem ok_of {α : Type} {x : Except PyErr α} (h : x.isOk = true) : ∃ a, x = .ok a := by
  cases x with
  | ok a => exact ⟨a, rfl⟩
  | error e => cases h

/-- not vacuous: a table with a header row, a title in a block, unfinished lines, spans and a note -/
example : ∃ (c : Fmx2Cals.Config) (tree : Node), Cals.Config.new none ['m', 'm'] false none id = .ok c.builder ∧
    fmxDemo.Nested c.parser.ns c.parser.calsNs 0 (some fmxTbl) ∧ fmxDemo.Drawn c.parser.ns c.parser.calsNs 3 5 ∧ fmxDemo.WidthKnown 3 ∧
    fmxDemo.Columns c.parser.calsNs 3 ∧ FrameAccepted c.parser.calsNs fmxDemo.corpus ∧
    OneKind (formexPicture c.parser.ns c.parser.embedGrNotes fmxDemo) ∧ Without c.builder.ns calsNames (formexPicture c.parser.ns c.parser.embedGrNotes fmxDemo) ∧
    Without c.parser.ns ["CORPUS"] (formexPicture c.parser.ns c.parser.embedGrNotes fmxDemo) ∧
    Fmx2Cals.convert c 0 (some fmxTbl) fmxDemo.corpus = .ok tree := by
  obtain ⟨tree, ht⟩ := ok_of (show (Fmx2Cals.convert ⟨⟨none, some "c", true⟩, calsConfig⟩ 0 (some fmxTbl) fmxDemo.corpus).isOk = true by decide +kernel)
  refine ⟨⟨⟨none, some "c", true⟩, calsConfig⟩, tree, rfl, fmxDemo_nested, fmxDemo_drawn, ?_, fmxDemo_columns, ?_, oneKind_of (by decide +kernel),
    without_of (by decide +kernel), without_of (by decide +kernel), ht⟩
  · exact fun _ _ _ _ => .inl ⟨⟨fmxC1, 3⟩, by simp [fmxDemo], rfl⟩
  · intro f hf _
    cases hf; decide

/-- what it shows -/
example : (formexPicture none true fmxDemo).map (fun l => (l.kind, l.cells.map (fun c => (c.1.min.x, c.1.min.y, c.1.max.x, c.1.max.y)))) =
    [("header", [(1, 1, 2, 1), (3, 1, 3, 1)]), ("body", [(1, 2, 1, 2), (2, 2, 3, 2)]), ("body", [(1, 3, 1, 4), (2, 3, 2, 3), (3, 3, 3, 3)]),
     ("body", [(2, 4, 2, 4), (3, 4, 3, 4)]), ("footer", [(1, 5, 3, 5)])] := by decide +kernel

open Ooxml OoxmlSpec in
/-- a Word table: a header row, a row, a row where the cells continue those above, and a row with one wide cell -/
def wordMerge : Node := wEl "tbl" [] [
  wEl "tblPr" [] [],
  wEl "tblGrid" [] [wEl "gridCol" [("w", "20")] [], wEl "gridCol" [("w", "20")] []],
  wEl "tr" [] [wEl "trPr" [] [wEl "tblHeader" [] []], tcDemo none none "a", tcDemo (some "2") none "b"],
  wEl "tr" [] [tcDemo (some "2") (some "restart") "c", tcDemo none (some "restart") "d"],
  wEl "tr" [] [tcDemo (some "2") (some "continue") "y", tcDemo none none "z"],
  wEl "tr" [] [tcDemo (some "3") none "e"]]

open Ooxml OoxmlSpec in
theorem wordMerge_good : GoodTable wConfig none stylesOf natureOf 3 wordMerge := by
  have tcs : ∀ a m x, (tcDemo a m x).tag? = some (OoxmlSpec.name "tc") := fun _ _ _ => rfl
  refine ⟨rfl, ⟨_, rfl⟩, by decide, by decide +kernel, ?_, ?_⟩
  · refine ⟨wordMerge.children.take 2, wordMerge.children.drop 2, by simp, ?_, ?_⟩
    · intro c hc
      simp only [wordMerge, wEl, Node.children, List.take, List.mem_cons, List.not_mem_nil, or_false] at hc
      rcases hc with rfl | rfl
      · left; decide +kernel
      · right
        refine ⟨rfl, ⟨?_⟩⟩
        intro c hc
        simp only [Node.children, List.mem_cons, List.not_mem_nil, or_false] at hc
        rcases hc with rfl | rfl <;> exact .inr ⟨rfl, rfl, "20", 0, rfl, rfl⟩
    · intro c hc
      simp only [wordMerge, wEl, Node.children, List.drop, List.mem_cons, List.not_mem_nil, or_false] at hc
      rcases hc with rfl | rfl | rfl | rfl
      · refine .inr ⟨rfl, ?_, by decide +kernel, by decide +kernel, ⟨_, rfl⟩⟩
        intro c hc
        simp only [Node.children, List.mem_cons, List.not_mem_nil, or_false] at hc
        rcases hc with rfl | rfl | rfl
        · left; decide +kernel
        · exact .inr ⟨tcs .., ⟨by decide +kernel, by decide +kernel, by decide +kernel, fun _ => by decide +kernel⟩⟩
        · exact .inr ⟨tcs .., ⟨by decide +kernel, by decide +kernel, by decide +kernel, fun _ => by decide +kernel⟩⟩
      all_goals
        refine .inr ⟨rfl, ?_, by decide +kernel, by decide +kernel, ⟨_, rfl⟩⟩
        intro c hc
        simp only [Node.children, List.mem_cons, List.not_mem_nil, or_false] at hc
      · rcases hc with rfl | rfl <;> exact .inr ⟨tcs .., ⟨by decide +kernel, by decide +kernel, by decide +kernel, fun _ => by decide +kernel⟩⟩
      · rcases hc with rfl | rfl <;> exact .inr ⟨tcs .., ⟨by decide +kernel, by decide +kernel, by decide +kernel, fun _ => by decide +kernel⟩⟩
      · rcases hc with rfl; exact .inr ⟨tcs .., ⟨by decide +kernel, by decide +kernel, by decide +kernel, fun _ => by decide +kernel⟩⟩
  · decide +kernel

open Ooxml OoxmlSpec in
/-- not vacuous: a Word table of three columns and four rows, with merged cells -/
example : ∃ (bc : Cals.Config) (tree : Node), Cals.Config.new none ['m', 'm'] false none id = .ok bc ∧
    GoodTable wConfig (Convert.firstSectList []) stylesOf natureOf 3 wordMerge ∧ kids ["tr"] wordMerge ≠ [] ∧ OneKind (wordPicture wordMerge) ∧
    Without bc.ns calsNames (wordPicture wordMerge) ∧ (Convert.ooxml2cals wConfig bc).convert [] wordMerge = .ok tree := by
  obtain ⟨tree, ht⟩ := ok_of (show ((Convert.ooxml2cals wConfig calsConfig).convert [] wordMerge).isOk = true by decide +kernel)
  refine ⟨calsConfig, tree, rfl, wordMerge_good, ?_, oneKind_of (by decide +kernel), without_of (by decide +kernel), ht⟩
  intro h
  have : (kids ["tr"] wordMerge).length = 4 := by decide +kernel
  rw [h] at this; cases this

/-- what it shows -/
example : (wordPicture wordMerge).map (fun l => (l.kind, l.cells.map (fun c => ([c.1.min.x, c.1.min.y, c.1.max.x, c.1.max.y], String.ofList (charsOf c.2))))) =
    [("header", [([1, 1, 1, 1], "a"), ([2, 1, 3, 1], "b")]), ("body", [([1, 2, 2, 3], "c"), ([3, 2, 3, 2], "d")]), ("body", [([3, 3, 3, 3], "z")]),
     ("body", [([1, 4, 3, 4], "e")])] := by decide +kernel

end Benker
