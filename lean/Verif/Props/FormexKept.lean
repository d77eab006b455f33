import Verif.Lemmas.FormexKept
import Verif.Props.LooksKept

/-! C94: the looks of a Formex table in the CALS document. -/

namespace Benker
open PyM CalsSpec FmxSpec Kept

/-- a style which is told by an attribute, else by a name -/
theorem told_style {st : Styles} {key : String} {o attr : Option String} {name : Option (List Char)}
    (h : Dict.get? st key = (copied o).or (name.map (fun s => .str (String.ofList s)))) (ht : Tells st key asText attr) :
    attr = (filled o).or (name.map String.ofList) := by
  have key' : ∀ s : String, Dict.get? st key = some (.str s) → attr = some s := by
    intro s hs
    obtain ⟨x, h1, h2⟩ := ht.2 _ hs
    cases h1; exact h2
  have hn : copied o = none → attr = name.map String.ofList := by
    intro hc
    rw [hc, Option.none_or] at h
    cases name with
    | none => exact ht.1 h
    | some n => exact key' _ h
  cases o with
  | none => rw [hn rfl]; rfl
  | some s =>
    by_cases hs : s = ""
    · subst hs; rw [hn rfl]; rfl
    · have e : copied (some s) = some (.str s) := by simp [copied, hs]
      rw [e, Option.some_or] at h
      rw [key' s h]
      simp [filled, Option.filter, hs]

/-- a place of a line, written as an entry -/
theorem placeKept_of {ns cals ns' : Option String} {embed : Bool} {l : DocLine} {node : Option Node} {t : Table Content} {c c' : Cell Content} {tattr : QName → Option String} {out : Node}
    (hs : Shown ns cals embed l node c) (hst : c'.styles = c.styles) (ht : CellTold ns' t tattr c' out.attr) : PlaceKept ns cals ns' l node out := by
  obtain ⟨-, -, -, -, tv, ta, tb, tc, -⟩ := ht
  rw [hst] at tv ta tb tc
  cases node with
  | none =>
    have e := (hs.empty rfl).2.1
    rw [e] at tv ta tb tc
    refine ⟨?_, ?_, ?_, ?_⟩
    · rw [tv.1 rfl]; split <;> rfl
    · rw [ta.1 rfl]; split <;> rfl
    · rw [tb.1 rfl]; split <;> rfl
    · rw [tc.1 rfl, if_neg (by simp)]
  | some n =>
    cases hsort : l.sort with
    | row =>
      obtain ⟨-, hc⟩ := hs.cell n rfl hsort
      refine ⟨?_, ?_, ?_, ?_⟩
      · rw [hsort, if_pos (.inl rfl)]; exact told_valign hc.valign (more := [("baseline", "bottom"), ("w-both", "bottom")]) tv
      · rw [hsort, if_pos rfl]; exact told_align hc.align ta
      · rw [hsort, if_pos (.inl rfl)]; exact copied_filled hc.background tb
      · rw [hsort]
        simp only [Option.bind_some, ne_eq, reduceCtorEq, not_false_eq_true, and_true, true_and]
        by_cases he : typeOr (n.attr ⟨ns, "TYPE"⟩) = typeOr (l.node.attr ⟨ns, "TYPE"⟩)
        · rw [if_neg (by simp [he])]
          exact tc.1 (hc.same he)
        · rw [if_pos he]
          cases hty : n.attr ⟨ns, "TYPE"⟩ with
          | none =>
            rw [hty] at he
            obtain ⟨x, h1, _⟩ := tc.2 _ (hc.lost hty (fun e => he e.symm))
            cases h1
          | some s =>
            rw [hty] at he
            obtain ⟨x, h1, h2⟩ := tc.2 _ (hc.own s hty he)
            cases h1
            exact h2
    | title =>
      have e := (hs.title n rfl (.inl hsort)).2
      rw [e] at tv ta tb tc
      exact ⟨by rw [tv.1 rfl, hsort]; rfl, by rw [ta.1 rfl, hsort]; rfl, by rw [tb.1 rfl, hsort]; rfl, by rw [tc.1 rfl, hsort]; simp⟩
    | subtitle =>
      have e := (hs.title n rfl (.inr hsort)).2
      rw [e] at tv ta tb tc
      exact ⟨by rw [tv.1 rfl, hsort]; rfl, by rw [ta.1 rfl, hsort]; rfl, by rw [tb.1 rfl, hsort]; rfl, by rw [tc.1 rfl, hsort]; simp⟩
    | note =>
      obtain ⟨-, hl, -⟩ := hs.note n rfl hsort
      refine ⟨?_, ?_, ?_, ?_⟩
      · rw [hsort, if_pos (.inr rfl)]; exact told_valign hl.valign (more := [("baseline", "bottom"), ("w-both", "bottom")]) tv
      · rw [hsort, if_neg (by simp)]; exact ta.1 (hl.others _ (by decide))
      · rw [hsort, if_pos (.inr rfl)]; exact copied_filled hl.background tb
      · rw [hsort, if_neg (by simp)]; exact tc.1 (hl.others _ (by decide))

/-- an attribute which would repeat that of the table is absent -/
theorem short_absent {own table : Styles} {key tkey : String} {attr tattr : Option String} (h : LineTold own table key tkey attr tattr)
    (he : attr.or tattr = tattr) : attr = none := by
  cases attr with
  | none => rfl
  | some s => exact absurd he (h.short (by simp))

/-- the separators of a place -/
theorem place_styles {ns cals : Option String} {embed : Bool} {l : DocLine} {node : Option Node} {c : Cell Content} (hs : Shown ns cals embed l node c) :
    Dict.get? c.styles "border-right" = none ∧ (l.sort ≠ .note → Dict.get? c.styles "border-bottom" = none) ∧
    (l.sort = .note → Dict.get? c.styles "border-bottom" = told lines (node.bind (·.attr ⟨cals, "rowsep"⟩))) := by
  cases node with
  | none =>
    have e := (hs.empty rfl).2.1
    rw [e]; exact ⟨rfl, fun _ => rfl, fun _ => rfl⟩
  | some n =>
    cases hsort : l.sort with
    | row =>
      obtain ⟨-, hc⟩ := hs.cell n rfl hsort
      exact ⟨hc.others _ (by decide), fun _ => hc.others _ (by decide), fun h => by cases h⟩
    | title =>
      have e := (hs.title n rfl (.inl hsort)).2
      rw [e]; exact ⟨rfl, fun _ => rfl, fun h => by cases h⟩
    | subtitle =>
      have e := (hs.title n rfl (.inr hsort)).2
      rw [e]; exact ⟨rfl, fun _ => rfl, fun h => by cases h⟩
    | note =>
      obtain ⟨-, hl, -⟩ := hs.note n rfl hsort
      exact ⟨hl.others _ (by decide), fun h => absurd rfl h, fun _ => hl.bottom⟩

/-- **C94** (Formex to CALS, partial): for every Formex table which is converted, the CALS document tells the frame, the separators, the style (after the
class of the `TBL`), the orientation, the page width and the colour of the table; the separators, the width and the alignment of each column which is
described; the rows, sorted by kind, tell the vertical alignment, the separator and the style — or the type and the level — of each row and title, and the
entries the alignments, the colour and the type of each cell and note.  What is missing: the separators of the cells, which are never written
(`C94_separators_counterexample`), and the colours of the rows and the width of the table (`C94_colour_counterexample`). -/
theorem C94_formex_to_cals_partial (c : Fmx2Cals.Config) (ns : Option String) (u : List Char) (tg : Bool) (sorting : Option (List String)) (fl : Rat → Rat)
    (hcfg : Cals.Config.new ns u tg sorting fl = .ok c.builder) (d : FmxDoc) (w h outer : Nat) (parent : Option Node)
    (hn : d.Nested c.parser.ns c.parser.calsNs outer parent) (hd : d.Drawn c.parser.ns c.parser.calsNs w h)
    (hk : d.WidthKnown w) (hc : d.Columns c.parser.calsNs w) (ha : FrameAccepted c.parser.calsNs d.corpus)
    (tree : Node) (hconv : Fmx2Cals.convert c outer parent d.corpus = .ok tree) :
    ∃ (tgroup : Node) (colspecs bodies : List Node) (order : List DocLine), tree.children = [tgroup] ∧ tgroup.children = colspecs ++ bodies ∧
      CorpusKept c.parser.ns c.parser.calsNs c.builder.ns parent d.corpus tree (if tg then tgroup else tree)
        (if tg then tgroup.attr ⟨c.builder.ns, "tgroupstyle"⟩ else tree.attr ⟨c.builder.ns, "tabstyle"⟩) ∧
      colspecs.length = w ∧
      (∀ col ∈ d.cols, ∃ e, colspecs[col.num - 1]? = some e ∧
        ColKept c.parser.calsNs c.builder.ns [Units.rewriteWidth fl u] (if tg then tgroup else tree) col.node e) ∧
      Sorted c.builder.tgroupSorting (fun l => some (l.kind c.parser.ns)) d.all order ∧
      All₂ (fun l row => row.tag? = some ⟨c.builder.ns, "row"⟩ ∧
          (l.sort ≠ .note → LineKept c.parser.ns c.parser.calsNs c.builder.ns (if tg then tgroup else tree) l row) ∧
          All₂ (fun e out => PlaceKept c.parser.ns c.parser.calsNs c.builder.ns l e.1 out ∧
            (l.sort = .note ∨ line (e.1.bind (·.attr ⟨c.parser.calsNs, "colsep"⟩)) = none ∧ line (e.1.bind (·.attr ⟨c.parser.calsNs, "rowsep"⟩)) = none →
              PlaceLines c.parser.calsNs c.builder.ns w h (if tg then tgroup else tree) e.1 e.2 out) ∧
            out.attr ⟨c.builder.ns, "colsep"⟩ = none ∧ (l.sort ≠ .note → out.attr ⟨c.builder.ns, "rowsep"⟩ = none)) l.drawn row.children)
        order (bodies.flatMap (fun b => b.children.filter (fun n => n.tag?.isSome))) := by
  obtain ⟨t, rows, cols, h1, h2, h3, h4, h5, hcells, hrows, hcols, hcorpus, hnat⟩ := C76_reading d w h outer parent hn hd hk hc ha PState.init
  have hparsed : ParsedTable t := .formex c.parser outer parent d.corpus PState.init t hn.corpus h1
  have hi : t.Inv := hparsed.tidy.1.inv
  have hord := (C80_rows t hparsed rows h2).1
  have hr := views_eq hi h2
  have hdr : Describes .row t.grid.cells rows := by rw [hr]; exact Table.base_describes hi .row
  have hown := owned_eq hi hdr hord.leftToRight
  unfold Fmx2Cals.convert Convert.thenGenerate at hconv
  rw [h1] at hconv
  have hlines : All₂ (fun (l : DocLine) r => All₂ (fun e c' => c'.box = e.2.2 ∧ Shown c.parser.ns c.parser.calsNs c.parser.embedGrNotes e.1 e.2.1 c')
      (l.drawn.map (fun e => (l, e))) r.owned) d.all rows := by
    refine all₂_unflat (fun l : DocLine => l.drawn.map (fun e => (l, e))) (fun r : View Content => r.owned) (fun e => e.2.2.min.y) (fun c' => c'.box.min.y)
      (fun a b hab => by rw [hab.1]) d.all rows 1 (by rw [hd.height, h4]) ?_ ?_ ?_
    · intro i l hl e he
      obtain ⟨e, he', rfl⟩ := List.mem_map.mp he
      have := hd.starts i l hl e he'
      simp only
      omega
    · intro i r hr c' hc'
      obtain ⟨hlt, rfl⟩ := List.getElem?_eq_some_iff.mp hr
      have e1 : c'.box.min.y = rows[i].pos := ((hdr.owned _ (List.getElem_mem hlt) c').mp hc').2
      have e2 := hdr.pos i hlt
      omega
    · rw [show rows.flatMap (fun r => r.owned) = t.grid.cells from hown]
      exact hcells
  have hfull : ∀ p : Coord, 1 ≤ p.x → p.x ≤ w → 1 ≤ p.y → p.y ≤ h → Covered t.cells p := by
    intro p p1 p2 p3 p4
    obtain ⟨e, he, hin⟩ := hd.full p p1 p2 p3 p4
    obtain ⟨c', hc', hb, _⟩ := hcells.mem_left he
    exact ⟨c', hc', by rw [hb]; exact hin⟩
  have hin : ∀ c ∈ t.cells, 1 ≤ c.box.min.x ∧ c.box.min.x ≤ c.box.max.x ∧ c.box.max.x ≤ w ∧ 1 ≤ c.box.min.y ∧ c.box.min.y ≤ c.box.max.y ∧ c.box.max.y ≤ h := by
    intro c' hcm
    obtain ⟨e, he, hb, _⟩ := hcells.mem_right hcm
    have hv := hd.valid e he
    have hvv := hi.grid.valid c' hcm
    unfold Box.Valid at hvv
    rw [hb] at hvv ⊢
    omega
  -- the table without the notes of the inner tables
  let f := Fmx2Cals.stripContent c.parser
  obtain ⟨tgroup, colspecs, bodies, vorder, rk, q1, q2, q3, q4, -, q5, q6, q7, q8, q9⟩ := calsLooks_of_inv ns u tg sorting fl c.builder hcfg (t.mapContent f)
    (inv_map f hi) tree hconv (rows.map (View.mapContent f)) (cols.map (View.mapContent f)) (eval_views_map f h2) (eval_views_map f h3)
  have hstyles : (t.mapContent f).styles = t.styles := rfl
  obtain ⟨tf, tr, tb, tst, tor, tpg, tbg, -, -, -, -⟩ := q3
  rw [hstyles] at tf tr tb tor tpg tbg
  have sR := sep_told hcorpus.right
  have sB := sep_told hcorpus.bottom
  have hwhole : ∀ k, (if tg = true then tgroup.attr else tree.attr) k = (if tg = true then tgroup else tree).attr k := by cases tg <;> exact fun _ => rfl
  rw [hwhole] at tr tb
  have wR := table_line tr sR
  have wB := table_line tb sB
  obtain ⟨fr, f1, f2⟩ := tf
  have hall : All₂ (fun (l : DocLine) (r : View Content) => r.nature = some (l.kind c.parser.ns) ∧
      ((l.sort ≠ .note → LineShown c.parser.ns c.parser.calsNs l r.styles) ∧
      All₂ (fun e c' => ∃ c0 ∈ t.cells, c' = c0.mapContent f ∧ c0.box = e.2 ∧ Shown c.parser.ns c.parser.calsNs c.parser.embedGrNotes l e.1 c0) l.drawn r.owned))
      d.all (rows.map (View.mapContent f)) := by
    refine All₂.map_right (all₂_of_getElem hrows.length ?_)
    intro i l r hl hr
    obtain ⟨r', hr', n1, n2⟩ := all₂_to hrows hl
    rw [hr] at hr'; cases hr'
    obtain ⟨r', hr', hal⟩ := all₂_to hlines hl
    rw [hr] at hr'; cases hr'
    refine ⟨n1, n2, All₂.map_right ?_⟩
    have hal := All₂.of_map_left hal
    refine all₂_of_getElem hal.length ?_
    intro j e c' he hc'
    obtain ⟨c'', hc'', hb, hsh⟩ := all₂_to hal he
    rw [hc'] at hc''; cases hc''
    have hm : c' ∈ t.cells := ((hdr.owned r (List.mem_of_getElem? hr) c').mp (List.mem_of_getElem? hc')).1
    exact ⟨c', hm, rfl, hb, hsh⟩
  obtain ⟨order, hsorted, horder⟩ := sorted_lines hall (by
    intro i r hr
    rw [List.getElem?_map, Option.map_eq_some_iff] at hr
    obtain ⟨r0, hr0, rfl⟩ := hr
    obtain ⟨hlt, rfl⟩ := List.getElem?_eq_some_iff.mp hr0
    have := hdr.pos i hlt
    show rows[i].pos = _
    omega) q6 q5 q7 q8
  refine ⟨tgroup, colspecs, bodies, order, q1, q2, ⟨?_, wR, wB, ?_, told_page hcorpus.orient tor, told_pages hcorpus.columns tpg, copied_filled hcorpus.background tbg⟩,
    ?_, ?_, hsorted, ?_⟩
  · rw [f1, frame_kept hcorpus.frame f2]
  · rw [tst]; exact hnat
  · rw [← q4.length, List.length_map, h5]
  · intro col hcm
    obtain ⟨v, hv, hs⟩ := hcols col hcm
    obtain ⟨e, he, -, hl⟩ := all₂_to q4 (i := col.num - 1) (a := v.mapContent f) (by rw [List.getElem?_map, hv]; rfl)
    have hst : (v.mapContent f).styles = v.styles := rfl
    obtain ⟨c1, c2, c3, c4, -⟩ := hl
    rw [hst] at c1 c2 c3 c4
    exact ⟨e, he, part_line c1 (sep_told hs.right) sR wR, part_line c2 (sep_told hs.bottom) sB wB, width_one hs.width c3, told_col_align hs.align c4⟩
  · refine all₂_of_getElem (horder.length.trans q9.length) ?_
    intro i l row hl hrow
    obtain ⟨r, hr', hmem, hnat', hls, hcs⟩ := all₂_to horder hl
    obtain ⟨row', hrow', k1, k2, k3⟩ := all₂_to q9 hr'
    rw [hrow] at hrow'; cases hrow'
    refine ⟨k1, ?_, ?_⟩
    · intro hnote
      obtain ⟨hlook, name, hname, hstyle⟩ := hls hnote
      refine ⟨told_valign hlook.valign (more := [("baseline", "bottom")]) k2.valign, part_line k2.bottom (sep_told hlook.bottom) sB wB, name, hname, told_style hstyle k2.rowstyle⟩
    · refine all₂_of_getElem (hcs.length.trans k3.length) ?_
      intro j e out he hout
      obtain ⟨c', hc', c0, hc0, rfl, hb, hsh⟩ := all₂_to hcs he
      obtain ⟨out', hout', -, hL⟩ := all₂_to k3 hc'
      rw [hout] at hout'; cases hout'
      obtain ⟨p1, p2, p3⟩ := place_styles hsh
      have hbx := hin c0 hc0
      obtain ⟨b1, b2, b3, b4⟩ := lastColumn_of hfull hin hc0
      rw [hb] at b1 b2 b3 b4 hbx
      have hex : ∀ {P : Cell Content → Prop}, (∀ x, P x → P (x.mapContent f)) → (∃ x ∈ t.cells, P x) → ∃ x ∈ (t.mapContent f).cells, P x := by
        rintro P hP ⟨x, hx, hp⟩
        exact ⟨x.mapContent f, List.mem_map_of_mem hx, hP x hp⟩
      have r1 := fun hx => hL.right (hex (P := fun x => c0.max.x < x.max.x) (fun _ h => h) (b1 hx))
      have r2 := fun hx => hL.bottom (hex (P := fun x => c0.max.y < x.max.y) (fun _ h => h) (b3 hx))
      have hal : ∀ {P : Cell Content → Prop}, (∀ x, P x → P (x.mapContent f)) → (∀ x ∈ t.cells, P x) → ∀ x ∈ (t.mapContent f).cells, P x := by
        intro P hP hx x hx'
        obtain ⟨x, hx'', rfl⟩ := List.mem_map.mp hx'
        exact hP x (hx x hx'')
      refine ⟨placeKept_of (c' := c0.mapContent f) hsh rfl hL, ?_, ?_, ?_⟩
      rotate_left
      · by_cases hx : e.2.max.x < w
        · exact short_absent (r1 hx) (part_absent (r1 hx) p1 sR wR)
        · exact hL.lastColumn (hal (P := fun x => x.max.x ≤ c0.max.x) (fun _ h => h) (b2 (by omega)))
      · intro hnote
        by_cases hx : e.2.max.y < h
        · exact short_absent (r2 hx) (part_absent (r2 hx) (p2 hnote) sB wB)
        · exact hL.lastRow (hal (P := fun x => x.max.y ≤ c0.max.y) (fun _ h => h) (b4 (by omega)))
      intro hsep
      constructor
      · intro hx
        have hnone : line (e.1.bind (·.attr ⟨c.parser.calsNs, "colsep"⟩)) = none := by
          rcases hsep with hnote | hsep
          · have hla : l ∈ d.all := by
              obtain ⟨_, _, hp, _⟩ := hsorted
              exact hp.mem_iff.mp (List.mem_of_getElem? hl)
            have hln : l ∈ d.notes := by
              rcases List.mem_append.mp hla with h' | h'
              · exact absurd hnote (hn.lines l h').1
              · exact h'
            obtain ⟨z1, z2, z3⟩ := hd.notes l hln
            have : e ∈ l.cells.map (fun c => (some c.node, c.box)) := by
              have := List.mem_of_getElem? he
              unfold DocLine.drawn at this
              rw [z1, z2] at this
              simpa using this
            obtain ⟨x, hx', rfl⟩ := List.mem_map.mp this
            have := (z3 x hx').2.1
            simp only at hx
            omega
          · exact hsep.1
        rw [hnone, Option.none_or]
        exact part_absent (r1 hx) p1 sR wR
      · intro hx
        by_cases hnote : l.sort = .note
        · exact part_line (r2 hx) (sep_told (p3 hnote)) sB wB
        · rcases hsep with h' | hsep
          · exact absurd h' hnote
          · rw [hsep.2, Option.none_or]
            exact part_absent (r2 hx) (p2 hnote) sB wB

/-! ### what is lost -/

def sepA : Node := .elem (qn "CELL") [(cq "colsep", "1")] (some "a") [] none
def sepB : Node := .elem (qn "CELL") [] (some "b") [] none
def sepR : Node := .elem (qn "ROW") [(cq "bgcolor", "red")] none [sepA, sepB] none
def sepCorpus : Node := .elem (qn "CORPUS") [(cq "colsep", "0"), (cq "width", "5cm")] none [sepR] none

/-- a row of two cells, which is red, with a line between the cells; the table has a width -/
def sepDemo : FmxDoc := ⟨sepCorpus, [], [⟨.row, sepR, 0, [], [⟨sepA, ⟨⟨1, 1⟩, ⟨1, 1⟩⟩⟩, ⟨sepB, ⟨⟨2, 1⟩, ⟨2, 1⟩⟩⟩], []⟩], []⟩

theorem sepDemo_read : sepDemo.Nested none (some "c") 0 none ∧ sepDemo.Drawn none (some "c") 2 1 ∧ sepDemo.WidthKnown 2 ∧ sepDemo.Columns (some "c") 2 ∧
    FrameAccepted (some "c") sepDemo.corpus := by
  have plain : ToldNumber none 1 1 := .inl ⟨rfl, rfl⟩
  refine ⟨⟨rfl, ⟨[], [sepR], rfl, .nil, .line 0 ⟨.row, sepR, 0, [], _, []⟩ _ _ rfl (.nil 0)⟩, by simp [sepDemo], ⟨.inl ⟨rfl, rfl⟩, by simp [sepDemo]⟩, by decide +kernel, ?_, ?_, ?_⟩,
    ⟨rfl, ⟨by omega, by decide⟩, ?_, by decide +kernel, ?_, ?_, by simp [sepDemo], by decide +kernel, by decide +kernel, ?_, ?_⟩, ?_, ⟨?_, by simp [sepDemo], by simp [sepDemo]⟩, ?_⟩
  · intro l hl _
    simp only [sepDemo, List.mem_cons, List.not_mem_nil, or_false] at hl
    subst hl
    refine ⟨.take _ _ _ (.take _ _ _ .nil), ?_⟩
    intro c hc
    simp only [List.mem_cons, List.not_mem_nil, or_false] at hc
    rcases hc with rfl | rfl <;> exact ⟨rfl, noFmx_of (by decide +kernel)⟩
  · intro l hl hs
    simp only [sepDemo, List.mem_cons, List.not_mem_nil, or_false] at hl
    subst hl
    exact absurd rfl hs
  · intro l hl hs
    simp only [sepDemo, FmxDoc.all, List.append_nil, List.mem_cons, List.not_mem_nil, or_false] at hl
    subst hl
    exact absurd rfl hs
  · intro i l hl e he
    have hi : i < 1 := (List.getElem?_eq_some_iff.mp hl).1
    have : i = 0 := by omega
    subst this
    cases hl
    revert e
    decide +kernel
  · intro l hl hs
    simp only [sepDemo, FmxDoc.all, List.append_nil, List.mem_cons, List.not_mem_nil, or_false] at hl
    subst hl
    refine ⟨rfl, ?_⟩
    intro c hc
    simp only [List.mem_cons, List.not_mem_nil, or_false] at hc
    rcases hc with rfl | rfl <;> exact ⟨⟨1, plain, .inr ⟨.inl rfl, rfl⟩⟩, ⟨1, plain, .inr ⟨rfl, rfl⟩⟩⟩
  · intro l hl hs
    simp only [sepDemo, List.mem_cons, List.not_mem_nil, or_false] at hl
    subst hl
    exact absurd rfl hs
  · have : (sepDemo.drawn.map (·.2.2)).Pairwise (fun a b => ¬ Overlap a b) := by
      show [(⟨⟨1, 1⟩, ⟨1, 1⟩⟩ : Box), ⟨⟨2, 1⟩, ⟨2, 1⟩⟩].Pairwise _
      simp only [List.pairwise_cons, List.mem_cons, List.not_mem_nil, or_false, Overlap, InBox]
      refine ⟨?_, ?_, List.Pairwise.nil⟩
      · rintro a rfl ⟨p, hp⟩
        simp only at hp
        omega
      · intro a h; cases h
    rw [List.pairwise_map] at this
    exact this
  · intro p h1 h2 h3 h4
    have : ∃ b ∈ sepDemo.drawn.map (·.2.2), InBox p b := by
      show ∃ b ∈ [(⟨⟨1, 1⟩, ⟨1, 1⟩⟩ : Box), ⟨⟨2, 1⟩, ⟨2, 1⟩⟩], _
      simp only [List.mem_cons, List.not_mem_nil, or_false, exists_eq_or_imp, exists_eq_left, InBox]
      omega
    obtain ⟨b, hb, hp⟩ := this
    obtain ⟨e, he', rfl⟩ := List.mem_map.mp hb
    exact ⟨e, he', hp⟩
  · intro i l hl
    have hi : i < 1 := (List.getElem?_eq_some_iff.mp hl).1
    have : i = 0 := by omega
    subst this
    cases hl
    intro h
    exact absurd rfl h
  · intro i c hi
    simp [sepDemo] at hi
  · intro f hf
    cases hf

/-- the attributes of all the elements of a document -/
def allAttrs (n : Node) : List (QName × String) := (toks n).flatMap (fun k => match k with | .opening _ a => a | _ => [])

/-- **C94** does not hold in full: the line between two cells is lost, although the source tells it and the table draws no other line -/
theorem C94_separators_counterexample :
    sepDemo.Nested none (some "c") 0 none ∧ sepDemo.Drawn none (some "c") 2 1 ∧ sepDemo.WidthKnown 2 ∧ sepDemo.Columns (some "c") 2 ∧
    FrameAccepted (some "c") sepDemo.corpus ∧ sepA.attr ⟨some "c", "colsep"⟩ = some "1" ∧
    ∃ tree, Fmx2Cals.convert ⟨⟨none, some "c", false⟩, calsConfig⟩ 0 none sepDemo.corpus = .ok tree ∧ (⟨none, "colsep"⟩, "1") ∉ allAttrs tree := by
  obtain ⟨h1, h2, h3, h4, h5⟩ := sepDemo_read
  refine ⟨h1, h2, h3, h4, h5, rfl, ?_⟩
  obtain ⟨tree, ht⟩ := ok_of (x := Fmx2Cals.convert ⟨⟨none, some "c", false⟩, calsConfig⟩ 0 none sepDemo.corpus) (by decide +kernel)
  refine ⟨tree, ht, ?_⟩
  have : (Fmx2Cals.convert ⟨⟨none, some "c", false⟩, calsConfig⟩ 0 none sepDemo.corpus).map (fun t => decide ((⟨none, "colsep"⟩, "1") ∉ allAttrs t)) = .ok true := by
    decide +kernel
  rw [ht] at this
  simpa [Except.map] using this

/-- **C94** does not hold in full: the colour of a row and the width of the table are lost -/
theorem C94_colour_counterexample :
    sepR.attr ⟨some "c", "bgcolor"⟩ = some "red" ∧ sepCorpus.attr ⟨some "c", "width"⟩ = some "5cm" ∧
    ∃ tree, Fmx2Cals.convert ⟨⟨none, some "c", false⟩, calsConfig⟩ 0 none sepDemo.corpus = .ok tree ∧
      ∀ x ∈ allAttrs tree, x.1.name ≠ "bgcolor" ∧ x.1.name ≠ "width" := by
  refine ⟨rfl, rfl, ?_⟩
  obtain ⟨tree, ht⟩ := ok_of (x := Fmx2Cals.convert ⟨⟨none, some "c", false⟩, calsConfig⟩ 0 none sepDemo.corpus) (by decide +kernel)
  refine ⟨tree, ht, ?_⟩
  have : (Fmx2Cals.convert ⟨⟨none, some "c", false⟩, calsConfig⟩ 0 none sepDemo.corpus).map
      (fun t => decide (∀ x ∈ allAttrs t, x.1.name ≠ "bgcolor" ∧ x.1.name ≠ "width")) = .ok true := by decide +kernel
  rw [ht] at this
  simpa only [Except.map, Except.ok.injEq, decide_eq_true_eq] using this

/-- not vacuous: a Formex table with a frame, a class, alignments, types, blocks, a title and a note is converted -/
example : fmxDemo.Nested none (some "c") 0 (some fmxTbl) ∧ fmxDemo.Drawn none (some "c") 3 5 ∧ fmxDemo.WidthKnown 3 ∧ fmxDemo.Columns (some "c") 3 ∧
    FrameAccepted (some "c") fmxDemo.corpus ∧ Cals.Config.new none ['m', 'm'] false none id = .ok calsConfig ∧
    ((Fmx2Cals.convert ⟨⟨none, some "c", false⟩, calsConfig⟩ 0 (some fmxTbl) fmxDemo.corpus).map (fun n => plainValues "frame" [n] ++ plainValues "tabstyle" [n] ++
      plainValues "orient" [n] ++ n.children.flatMap (fun g => plainValues "colwidth" g.children ++ g.children.flatMap (fun b => plainValues "rowsep" b.children ++
        plainValues "rowstyle" b.children ++ b.children.flatMap (fun r => plainValues "cellstyle" r.children))))) =
      .ok (["topbot", "GEN-x", "land", "-", "-", "40.00mm", "-", "-", "-", "-", "ROW-HEADER", "-", "-", "-", "-", "-", "-", "1", "-", "TI.BLK-level1", "ROW-level2",
        "ROW-level2", "-", "-", "-", "TOTAL", "-", "-", "-"].map String.toList) := by
  refine ⟨fmxDemo_nested, fmxDemo_drawn, ?_, fmxDemo_columns, ?_, rfl, ?_⟩
  · exact fun _ _ _ _ => .inl ⟨⟨fmxC1, 3⟩, by simp [fmxDemo], rfl⟩
  · intro f hf _
    cases hf; decide
  · decide +kernel

end Benker
