import Verif.Lemmas.WordKept
import Verif.Props.FormexKept

/-! C95: the looks of a Word table in the CALS document and in the Formex document. -/

namespace Benker
open PyM CalsSpec FmxSpec Kept OoxmlSpec Benker.Convert

/-- if the borders of a style are read, so are those of its ancestors -/
theorem chain_read {cfg : Ooxml.Config} {sheet : Node} {id : String} {chain : List Node} (hc : Chain sheet id chain) :
    ∀ (limit : Nat) (st : Styles), Ooxml.styleBorders cfg (some sheet) limit (some id) = .ok st →
      chain.length < limit ∧ ∃ own, All₂ (fun s o => Ooxml.ownBorders cfg s = .ok o) chain own := by
  induction hc with
  | missing e =>
    intro limit st h
    cases limit with
    | zero => cases h
    | succ n => exact ⟨by simp, [], .nil⟩
  | @root id s e p =>
    intro limit st h
    cases limit with
    | zero => cases h
    | succ n =>
      rw [Ooxml.styleBorders] at h
      simp only [findStyle_eq, e, parent_eq, p] at h
      obtain ⟨a, h1, h2⟩ := bind_ok h
      obtain ⟨b, h3, h4⟩ := bind_ok h2
      cases n with
      | zero => cases h1
      | succ n => exact ⟨by simp, [b], .cons h3 .nil⟩
  | @step id id' s l e p hc ih =>
    intro limit st h
    cases limit with
    | zero => cases h
    | succ n =>
      rw [Ooxml.styleBorders] at h
      simp only [findStyle_eq, e, parent_eq, p] at h
      obtain ⟨a, h1, h2⟩ := bind_ok h
      obtain ⟨b, h3, h4⟩ := bind_ok h2
      obtain ⟨i1, own, i2⟩ := ih n a h1
      exact ⟨by rw [List.length_cons]; omega, b :: own, .cons h3 i2⟩

theorem chain_mem {sheet : Node} {id : String} {chain : List Node} (hc : Chain sheet id chain) : ∀ s ∈ chain, s ∈ kids ["style"] sheet := by
  induction hc with
  | missing e => simp
  | root e p => intro x hx; rw [List.mem_singleton] at hx; subst hx; exact List.mem_of_find?_eq_some e
  | step e p hc ih =>
    intro x hx
    rcases List.mem_cons.mp hx with rfl | hx
    · exact List.mem_of_find?_eq_some e
    · exact ih x hx

/-- the lines which the styles of a table draw -/
theorem table_lines {cfg : Ooxml.Config} {sect : Option Node} {tbl : Node} {st : Styles} {t : Table Content} (hst : Ooxml.tblStyles cfg sect tbl = .ok st)
    (h : Ooxml.TableReads cfg sect tbl t) (hp : PlainTable cfg.styles tbl) (hrepr : ∀ x, ' ' ∉ (cfg.repr x).toList) :
    ∃ chain, TableChain cfg.styles tbl chain ∧
      (∀ key names, (key, names) ∈ frameSides → Draws (Dict.get? t.styles key) (tableSide tbl chain names)) ∧
      (∀ key names, (key, names) ∈ insideSides → Draws (Dict.get? t.styles ("x-cell-" ++ key)) (insideSide chain names)) := by
  have hplain : propAttr "tblPr" "tblStyle" "val" tbl = none ∨ cfg.styles = none →
      (∀ key names, (key, names) ∈ frameSides → Draws (Dict.get? t.styles key) (tableSide tbl [] names)) ∧
      (∀ key names, (key, names) ∈ insideSides → Draws (Dict.get? t.styles ("x-cell-" ++ key)) (insideSide [] names)) := by
    intro hno
    refine ⟨fun key names hm => ?_, fun key names hm => .inl ⟨h.plainInside hno key names hm, rfl⟩⟩
    unfold tableSide
    rw [List.findSome?_nil, Option.or_none]
    exact side_draws hrepr hp.table (h.plain hno key names hm)
  cases hs : cfg.styles with
  | none => exact ⟨[], rfl, hplain (.inr hs)⟩
  | some sheet =>
    cases hid : propAttr "tblPr" "tblStyle" "val" tbl with
    | none =>
      refine ⟨[], ?_, hplain (.inl hid)⟩
      unfold TableChain
      rw [hid]
    | some id =>
      unfold Ooxml.tblStyles at hst
      rw [Ooxml.attrOf_prop] at hst
      obtain ⟨inh, h1, -⟩ := bind_ok hst
      rw [hid, hs] at h1
      have hno : ¬ Cyclic sheet id := by
        intro hc
        rw [C54_cyclic_fails cfg sheet id hc] at h1
        cases h1
      obtain ⟨chain, hc⟩ : ∃ l, Chain sheet id l := by
        rcases C54_finite_or_cyclic sheet id with ⟨h, _⟩ | ⟨h, _⟩
        · exact h
        · exact absurd h hno
      obtain ⟨c1, own, c2⟩ := chain_read hc _ _ h1
      obtain ⟨r1, r2⟩ := h.styled sheet id chain own hs hid hc c1 c2
      have hplainS : ∀ s ∈ chain, ∀ b, Kept.tableBorders s = some b → PlainBorders b :=
        fun s hsm b hb => hp.styles sheet (by rw [hs]; simp) s (chain_mem hc s hsm) b hb
      have hown : ∀ s ∈ chain, ∀ o, Ooxml.ownBorders cfg s = .ok o →
          (∀ key names, (key, names) ∈ frameSides → Draws (Dict.get? o key) (side (Kept.tableBorders s) names)) ∧
          (∀ key names, (key, names) ∈ insideSides → Draws (Dict.get? o ("x-cell-" ++ key)) (side (Kept.tableBorders s) names)) := by
        intro s hsm o ho
        cases hb : Kept.tableBorders s with
        | none =>
          have : o = [] := by
            unfold Ooxml.ownBorders at ho
            rw [Ooxml.nodeOf_prop] at ho
            have hb' : (props "tblPr" "tblBorders" s).head? = none := hb
            rw [hb'] at ho
            cases ho; rfl
          subst this
          exact ⟨fun _ _ _ => .inl ⟨rfl, rfl⟩, fun _ _ _ => .inl ⟨rfl, rfl⟩⟩
        | some b =>
          obtain ⟨o1, o2⟩ := C54_own_borders cfg s o ho b hb
          have hpb : ∀ x, some b = some x → PlainBorders x := fun x hx => by cases hx; exact hplainS s hsm b hb
          exact ⟨fun key names hm => side_draws (b := some b) hrepr hpb (o1 key names hm),
            fun key names hm => side_draws (b := some b) hrepr hpb (o2 key names hm)⟩
      refine ⟨chain, ?_, ?_, ?_⟩
      · unfold TableChain
        rw [hid]; exact hc
      · intro key names hm
        obtain ⟨v, v1, v2⟩ := r1 key names hm
        rw [v2]
        exact (side_draws hrepr hp.table v1).or (Draws.first (c2.imp_mem (fun s hsm o ho => (hown s hsm o ho).1 key names hm)))
      · intro key names hm
        rw [r2 key names hm]
        exact Draws.first (c2.imp_mem (fun s hsm o ho => (hown s hsm o ho).2 key names hm))

theorem slots_get : ∀ (r : Int) (trs : List Node) (i : Nat) (l : Node × List (Box × Node)), (slots r trs)[i]? = some l →
    trs[i]? = some l.1 ∧ ∀ c ∈ l.2, c.1.min.y = r + i ∧ c.2 ∈ kids ["tc"] l.1
  | _, [], i, l, h => by simp [slots] at h
  | r, tr :: trs, 0, l, h => by
    rw [slots] at h
    simp only [List.getElem?_cons_zero, Option.some.injEq] at h
    subst h
    refine ⟨rfl, ?_⟩
    intro c hc
    obtain ⟨s, hs, rfl⟩ := List.mem_map.mp hc
    refine ⟨by simp, ?_⟩
    exact place_mem 0 _ s (List.mem_filter.mp hs).1
  | r, tr :: trs, i + 1, l, h => by
    rw [slots] at h
    obtain ⟨h1, h2⟩ := slots_get (r + 1) trs i l h
    exact ⟨h1, fun c hc => ⟨by have := (h2 c hc).1; omega, (h2 c hc).2⟩⟩
where
  place_mem (c : Int) : ∀ (tcs : List Node) (s : Int × Node), s ∈ place c tcs → s.2 ∈ tcs := by
    intro tcs
    induction tcs generalizing c with
    | nil => intro s h; simp [place] at h
    | cons a l ih =>
      intro s h
      rw [place] at h
      rcases List.mem_cons.mp h with rfl | h
      · simp
      · exact List.mem_cons_of_mem _ (ih _ s h)

theorem slots_length : ∀ (r : Int) (trs : List Node), (slots r trs).length = trs.length
  | _, [] => rfl
  | r, tr :: trs => by rw [slots, List.length_cons, slots_length, List.length_cons]

theorem slots_lines (styles : Node → Styles) (nature : Node → String) : ∀ (r : Int) (trs : List Node),
    All₂ (fun (b : Box × Node) (c : Cell Content) => c.box = b.1 ∧ c.styles = styles b.2 ∧ continues b.2 = false) ((slots r trs).flatMap (·.2))
      (wanted paragraphs styles r (trs.map (fun tr => (nature tr, kids ["tc"] tr))))
  | _, [] => .nil
  | r, tr :: trs => by
    rw [slots, List.flatMap_cons, List.map_cons, wanted]
    refine All₂.append ?_ (slots_lines styles nature (r + 1) trs)
    refine All₂.map_left (All₂.map_right ?_)
    have hall : ∀ s ∈ (place 0 (kids ["tc"] tr)).filter (fun s => !continues s.2), continues s.2 = false := by
      intro s hs
      simpa using (List.mem_filter.mp hs).2
    generalize (place 0 (kids ["tc"] tr)).filter (fun s => !continues s.2) = l at hall
    induction l with
    | nil => exact .nil
    | cons s l ih =>
      refine .cons ⟨?_, rfl, hall s (by simp)⟩ (ih (fun x hx => hall x (by simp [hx])))
      simp only [List.map_map]; rfl

/-- the looks which the Word parser reads, row by row -/
theorem word_reads {cfg : Ooxml.Config} (hfl : Units.FloatModel cfg.fl) {sect : Option Node} {styles : Node → Styles} {nature : Node → String} {W : Nat} {tbl : Node}
    (h : GoodTable cfg sect styles nature W tbl) (hne : kids ["tr"] tbl ≠ []) (s : PState) :
    ∃ (t : Table Content) (rows cols : List (View Content)), eval (Ooxml.parseTable cfg sect tbl) s = .ok (some t) ∧
      eval (Table.views .row) t = .ok rows ∧ eval (Table.views .col) t = .ok cols ∧ rows.length = (kids ["tr"] tbl).length ∧ cols.length = W ∧ ParsedTable t ∧
      (∀ p : Coord, 1 ≤ p.x → p.x ≤ W → 1 ≤ p.y → p.y ≤ ((kids ["tr"] tbl).length : Nat) → Covered t.cells p) ∧
      (∀ c ∈ t.cells, 1 ≤ c.box.min.x ∧ c.box.min.x ≤ c.box.max.x ∧ c.box.max.x ≤ W ∧ 1 ≤ c.box.min.y ∧ c.box.min.y ≤ c.box.max.y ∧
        c.box.max.y ≤ ((kids ["tr"] tbl).length : Nat)) ∧
      All₂ (fun x r => r.nature = some (natureOfRow x.1) ∧ RowMarks x.1 r.styles ∧
        All₂ (fun b c => c.box = b.1 ∧ Ooxml.CellReads cfg b.2 c.styles) x.2 r.owned) (slots 1 (kids ["tr"] tbl)) rows ∧
      (∀ (i : Nat) (g : Node), ((kids ["tblGrid"] tbl).flatMap (kids ["gridCol"]))[i]? = some g → ∃ col, cols[i]? = some col ∧
        ∃ text x sign ip fp, g.attr (OoxmlSpec.name "w") = some text ∧ cfg.float text = .ok x ∧
          col.styles = [("width", .str (String.ofList (Units.decimalText sign ip fp ++ ['p', 't'])))] ∧
          (sign = [] ∨ sign = ['+'] ∨ sign = ['-']) ∧ (∀ d ∈ ip, d < 10) ∧ (∀ d ∈ fp, d < 10) ∧ ip ≠ [] ∧
          |Units.decimal (sign = ['-']) ip fp - x / 20| ≤ 1 / 200 + |x / 20| / 2 ^ 53) ∧
      Ooxml.TableReads cfg sect tbl t := by
  obtain ⟨t, s', st, nat, h1, h2, h3, h4, h5⟩ := Ooxml.word_reading cfg sect styles nature W tbl h s
  obtain ⟨t2, s2, rows, e1, e2, e3, e4⟩ := Ooxml.C67_rows cfg sect styles nature W tbl h s
  rw [h1] at e1; cases e1
  obtain ⟨t2, s2, cols, c1, c2, c3, c4⟩ := Ooxml.C68_columns cfg hfl sect styles nature W tbl h hne s
  rw [h1] at c1; cases c1
  obtain ⟨t2, s2, g1, g2⟩ := Ooxml.C70_table cfg sect styles nature W tbl h s
  rw [h1] at g1; cases g1
  have hi := h4.inv
  have hdr : Describes .row t.grid.cells rows := by rw [views_eq hi e2]; exact Table.base_describes hi .row
  have hcov := h4.covered
  have hparsed : ParsedTable t := .word cfg sect tbl s t h.tag (by unfold eval; rw [h1])
  have hord := (C80_rows t hparsed rows e2).1.leftToRight
  have hown := owned_eq hi hdr hord
  have hlen : (slots 1 (kids ["tr"] tbl)).length = rows.length := by rw [slots_length, e3]
  have hlines := all₂_unflat (fun l : Node × List (Box × Node) => l.2) (fun r : View Content => r.owned) (fun b => b.1.min.y) (fun c => c.box.min.y)
    (R := fun b c => c.box = b.1 ∧ c.styles = styles b.2 ∧ continues b.2 = false) (fun a b hab => by rw [hab.1]) (slots 1 (kids ["tr"] tbl)) rows 1 hlen
    (fun i l hl c hc => ((slots_get 1 _ i l hl).2 c hc).1)
    (by
      intro i r hr c' hc'
      obtain ⟨hlt, rfl⟩ := List.getElem?_eq_some_iff.mp hr
      have e1 : c'.box.min.y = rows[i].pos := ((hdr.owned _ (List.getElem_mem hlt) c').mp hc').2
      have e2 := hdr.pos i hlt
      omega)
    (by
      rw [show rows.flatMap (fun r => r.owned) = t.grid.cells from hown, h2]
      exact slots_lines styles nature 1 _)
  refine ⟨t, rows, cols, by unfold eval; rw [h1], e2, c2, e3, c3, hparsed, ?_, ?_, ?_, ?_, g2⟩
  · intro p p1 p2 p3 p4
    exact (hcov p).mpr (by omega)
  · intro c hcm
    have hv := hi.grid.valid c hcm
    unfold Box.Valid at hv
    have k1 := (hcov c.box.max).mp ⟨c, hcm, by unfold InBox; omega⟩
    have k2 := (hcov c.box.min).mp ⟨c, hcm, by unfold InBox; omega⟩
    omega
  · refine all₂_of_getElem hlen ?_
    intro i x r hx hr
    obtain ⟨hx1, hx2⟩ := slots_get 1 _ i x hx
    obtain ⟨row, k1, -, k2, k3⟩ := e4 i x.1 hx1
    rw [hr] at k1; cases k1
    obtain ⟨r', hr', hall⟩ := all₂_to hlines hx
    rw [hr] at hr'; cases hr'
    refine ⟨k2, k3, hall.imp_mem (fun b hb c hbc => ⟨hbc.1, ?_⟩)⟩
    have hg := Ooxml.good_rows h (List.mem_of_getElem? hx1)
    have hm := (hx2 b hb).2
    rw [hbc.2.1]
    have hm' : b.2 ∈ x.1.children ∧ b.2.tag? = some (OoxmlSpec.name "tc") := by
      unfold kids at hm
      obtain ⟨q1, q2⟩ := List.mem_filter.mp hm
      exact ⟨q1, by simpa using q2⟩
    rcases hg.cells b.2 hm'.1 with hq | ⟨_, hgc⟩
    · exact absurd hm'.2 (Ooxml.quiet_tag hq "tc" (by simp))
    · exact Ooxml.cell_reads (hgc.style hbc.2.2)
  · intro i g hgi
    obtain ⟨col, k1, -, -, k2⟩ := c4 i g hgi
    exact ⟨col, k1, k2⟩

theorem told_fill {st : Styles} {shd : Option Node} {attr : Option String} (h : Dict.get? st "background-color" = fillOf shd)
    (ht : Tells st "background-color" asText attr) : attr = fill shd := by
  cases shd with
  | none => exact ht.1 h
  | some e =>
    unfold fillOf at h
    unfold fill
    simp only at h
    rw [Option.bind_some]
    cases hf : e.attr (OoxmlSpec.name "fill") with
    | none => rw [hf] at h; exact ht.1 h
    | some c =>
      rw [hf] at h
      rw [Option.bind_some]
      simp only at h
      split
      · rename_i hc
        rw [if_pos hc] at h
        exact ht.1 h
      · rename_i hc
        rw [if_neg hc] at h
        obtain ⟨x, h1, h2⟩ := ht.2 _ h
        cases h1; exact h2

theorem told_sectOrient {st : Styles} {sect : Option Node} {attr : Option String}
    (h : Dict.get? st "x-sect-orient" = (sect.bind (fun n => (kids ["pgSz"] n).head?)).bind (fun pg => (pg.attr (OoxmlSpec.name "orient")).map StyleVal.str))
    (ht : Tells st "x-sect-orient" (byWord [("landscape", "land"), ("portrait", "port")]) attr) : attr = sectOrient sect := by
  unfold sectOrient
  cases hp : sect.bind (fun n => (kids ["pgSz"] n).head?) with
  | none => rw [hp] at h; exact ht.1 h
  | some pg =>
    rw [hp, Option.bind_some] at h
    rw [Option.bind_some]
    cases ho : pg.attr (OoxmlSpec.name "orient") with
    | none => rw [ho] at h; exact ht.1 h
    | some o =>
      rw [ho, Option.map_some] at h
      obtain ⟨x, h1, h2⟩ := ht.2 _ h
      rw [h2, ← h1, Option.bind_some]
      by_cases e1 : o = "landscape"
      · subst e1; rfl
      · by_cases e2 : o = "portrait"
        · subst e2; rfl
        · rw [if_neg e1, if_neg e2]
          simp [byWord, Ne.symm e1, Ne.symm e2]

theorem told_cellValign {cfg : Ooxml.Config} {tc : Node} {st : Styles} {attr : Option String} (h : Ooxml.CellReads cfg tc st)
    (ht : Tells st "vertical-align" (byWord [("top", "top"), ("middle", "middle"), ("bottom", "bottom"), ("baseline", "bottom"), ("w-both", "bottom")]) attr) :
    attr = cellValign tc := by
  have hv := h.vertical
  unfold cellValign
  split at hv
  · rename_i e
    rw [if_pos e]; exact ht.1 hv
  · rename_i e
    rw [if_neg e]
    obtain ⟨v, h1, h2⟩ := hv
    generalize (propAttr "tcPr" "vAlign" "val" tc).getD "top" = x at h1
    obtain ⟨y, h3, h4⟩ := ht.2 _ h2
    rw [h4, ← h3]
    unfold verticalKind at h1
    split at h1
    · rename_i e; subst e; cases h1; rfl
    · split at h1
      · rename_i e; subst e; cases h1; rfl
      · split at h1
        · rename_i e; subst e; cases h1; rfl
        · split at h1
          · rename_i e; subst e; cases h1; rfl
          · cases h1

theorem told_cellAlign {cfg : Ooxml.Config} {tc : Node} {st : Styles} {attr : Option String} (h : Ooxml.CellReads cfg tc st)
    (ht : Tells st "align" (byWord [("left", "left"), ("right", "right"), ("center", "center"), ("justify", "justify")]) attr) :
    ∃ jc, MostFrequent (alignments tc) jc ∧ attr = paragraphAlign jc := by
  obtain ⟨j, h1, h2⟩ := h.align
  refine ⟨j, h1, ?_⟩
  cases j with
  | none => exact ht.1 h2
  | some a =>
    obtain ⟨v, h3, h4⟩ := h2
    obtain ⟨y, h5, h6⟩ := ht.2 _ h4
    rw [h6, ← h5]
    unfold paragraphAlign
    rw [Option.bind_some]
    unfold horizontalKind at h3
    simp only [List.mem_cons, List.not_mem_nil, or_false]
    split at h3
    · rename_i e; rw [if_pos e]; cases h3; rfl
    · rename_i e
      rw [if_neg e]
      split at h3
      · rename_i e; rw [if_pos e]; cases h3; rfl
      · rename_i e
        rw [if_neg e]
        split at h3
        · rename_i e; rw [if_pos e]; cases h3; rfl
        · rename_i e
          rw [if_neg e]
          split at h3
          · rename_i e; rw [if_pos e]; cases h3; rfl
          · cases h3

/-- the looks of a cell, from what is read and what is written -/
theorem wordCell_of {cfg : Ooxml.Config} (hrepr : ∀ x, ' ' ∉ (cfg.repr x).toList) {ns' : Option String} {w h : Nat} {whole tc out : Node} {b : Box} {t : Table Content}
    {c : Cell Content} (hfull : ∀ p : Coord, 1 ≤ p.x → p.x ≤ w → 1 ≤ p.y → p.y ≤ h → Covered t.cells p)
    (hin : ∀ c ∈ t.cells, 1 ≤ c.box.min.x ∧ c.box.min.x ≤ c.box.max.x ∧ c.box.max.x ≤ w ∧ 1 ≤ c.box.min.y ∧ c.box.min.y ≤ c.box.max.y ∧ c.box.max.y ≤ h)
    (hc : c ∈ t.cells) (hb : c.box = b) (hr : Ooxml.CellReads cfg tc c.styles) (hp : ∀ b, Kept.cellBorders tc = some b → PlainBorders b) {oR oB : Option String}
    (sR : Cals.getSepAttr t.styles "x-cell-border-right" = .ok oR) (sB : Cals.getSepAttr t.styles "x-cell-border-bottom" = .ok oB)
    (wR : whole.attr ⟨ns', "colsep"⟩ = some (oR.getD "0")) (wB : whole.attr ⟨ns', "rowsep"⟩ = some (oB.getD "0"))
    (k1 : (∃ d ∈ t.cells, c.max.x < d.max.x) → LineTold c.styles t.styles "border-right" "x-cell-border-right" (out.attr ⟨ns', "colsep"⟩) (whole.attr ⟨ns', "colsep"⟩))
    (k2 : (∀ d ∈ t.cells, d.max.x ≤ c.max.x) → out.attr ⟨ns', "colsep"⟩ = none)
    (k3 : (∃ d ∈ t.cells, c.max.y < d.max.y) → LineTold c.styles t.styles "border-bottom" "x-cell-border-bottom" (out.attr ⟨ns', "rowsep"⟩) (whole.attr ⟨ns', "rowsep"⟩))
    (k4 : (∀ d ∈ t.cells, d.max.y ≤ c.max.y) → out.attr ⟨ns', "rowsep"⟩ = none)
    (k5 : Tells c.styles "vertical-align" (byWord [("top", "top"), ("middle", "middle"), ("bottom", "bottom"), ("baseline", "bottom"), ("w-both", "bottom")])
      (out.attr ⟨ns', "valign"⟩))
    (k6 : Tells c.styles "align" (byWord [("left", "left"), ("right", "right"), ("center", "center"), ("justify", "justify")]) (out.attr ⟨ns', "align"⟩))
    (k7 : Tells c.styles "background-color" asText (out.attr ⟨ns', "bgcolor"⟩)) : WordCellKept ns' w h whole tc b out := by
  obtain ⟨b1, b2, b3, b4⟩ := lastColumn_of hfull hin hc
  rw [hb] at b1 b2 b3 b4
  have d1 := side_draws hrepr hp (hr.borders "border-right" ["end", "right"] (by simp [frameSides]))
  have d2 := side_draws hrepr hp (hr.borders "border-bottom" ["bottom"] (by simp [frameSides]))
  exact ⟨fun hx => part_line (k1 (b1 hx)) d1.sep sR wR, fun hx => k2 (b2 hx), fun hx => part_line (k3 (b3 hx)) d2.sep sB wB, fun hx => k4 (b4 hx),
    told_cellValign hr k5, told_cellAlign hr k6, told_fill hr.background k7⟩

/-- the looks of a column, from what is read and what is written -/
theorem wordCol_of {ns' : Option String} {float : String → Except PyErr Rat} {fl : Rat → Rat} {u : List Char} {whole g out : Node} {t : Table Content} {st : Styles}
    {oR oB : Option String} (sR : Cals.getSepAttr t.styles "x-cell-border-right" = .ok oR) (sB : Cals.getSepAttr t.styles "x-cell-border-bottom" = .ok oB)
    (wR : whole.attr ⟨ns', "colsep"⟩ = some (oR.getD "0")) (wB : whole.attr ⟨ns', "rowsep"⟩ = some (oB.getD "0"))
    (hr : ∃ text x sign ip fp, g.attr (OoxmlSpec.name "w") = some text ∧ float text = .ok x ∧
          st = [("width", .str (String.ofList (Units.decimalText sign ip fp ++ ['p', 't'])))] ∧
          (sign = [] ∨ sign = ['+'] ∨ sign = ['-']) ∧ (∀ d ∈ ip, d < 10) ∧ (∀ d ∈ fp, d < 10) ∧ ip ≠ [] ∧
          |Units.decimal (sign = ['-']) ip fp - x / 20| ≤ 1 / 200 + |x / 20| / 2 ^ 53)
    (k1 : LineTold st t.styles "border-right" "x-cell-border-right" (out.attr ⟨ns', "colsep"⟩) (whole.attr ⟨ns', "colsep"⟩))
    (k2 : LineTold st t.styles "border-bottom" "x-cell-border-bottom" (out.attr ⟨ns', "rowsep"⟩) (whole.attr ⟨ns', "rowsep"⟩))
    (k3 : Tells st "width" (inUnit fl u) (out.attr ⟨ns', "colwidth"⟩))
    (k4 : ∀ s, out.attr ⟨ns', "align"⟩ = some s ↔ Dict.get? st "align" = some (.str s) ∧ s ∈ ["left", "right", "center", "justify"]) :
    WordColKept ns' float (Units.rewriteWidth fl u) g out := by
  obtain ⟨text, x, sign, ip, fp, h1, h2, rfl, h4, h5, h6, h7, h8⟩ := hr
  refine ⟨short_absent k1 (part_absent k1 rfl sR wR), short_absent k2 (part_absent k2 rfl sB wB), ?_, ?_⟩
  · apply Option.eq_none_iff_forall_ne_some.mpr
    intro s hs
    have := ((k4 s).mp hs).1
    cases this
  · obtain ⟨y, q1, q2⟩ := k3.2 _ rfl
    unfold inUnit at q1
    simp only [String.toList_ofList] at q1
    cases hw : Units.rewriteWidth fl u (Units.decimalText sign ip fp ++ ['p', 't']) with
    | error e => rw [hw] at q1; cases q1
    | ok z =>
      rw [hw] at q1
      cases q1
      exact ⟨text, x, sign, ip, fp, z, h1, h2, h4, h5, h6, h7, h8, hw, q2⟩

/-- the rows which follow the title, if any -/
theorem rest_lines {α β γ : Type} {R : α → β → Prop} {xs : List α} {rows rest : List β} {title : List γ} (hrows : All₂ R xs rows)
    (hs : title = [] ∧ rest = rows ∨ ∃ r e, rows = r :: rest ∧ title = [e]) :
    ∃ rest', All₂ (fun x r => r ∈ rows ∧ R x r) rest' rest ∧ (title = [] ∧ rest' = xs ∨ ∃ x e, xs = x :: rest' ∧ title = [e]) := by
  rcases hs with ⟨e1, e2⟩ | ⟨r, e, e1, e2⟩
  · refine ⟨xs, ?_, .inl ⟨e1, rfl⟩⟩
    rw [e2]
    exact all₂_of_getElem hrows.length (fun i x r hx hr => by
      obtain ⟨r', hr', hR⟩ := all₂_to hrows hx
      rw [hr] at hr'; cases hr'
      exact ⟨List.mem_of_getElem? hr, hR⟩)
  · rw [e1] at hrows
    cases hrows with
    | cons _ htl =>
      refine ⟨_, ?_, .inr ⟨_, e, rfl, e2⟩⟩
      exact all₂_of_getElem htl.length (fun i x r hx hr => by
        obtain ⟨r', hr', hR⟩ := all₂_to htl hx
        rw [hr] at hr'; cases hr'
        exact ⟨by rw [e1]; exact List.mem_cons_of_mem _ (List.mem_of_getElem? hr), hR⟩)

/-- **C95** (Word to CALS, partial): for every Word table which can be read, whose borders are written as the standard asks, the CALS document tells the frame
(the sides drawn by the table or, failing that, by the nearest of its styles), the lines between the cells which the styles draw, the style, the orientation
and the columns of the page, and the colour of the table; the widths of the columns; for each cell, in the order of the sorted rows, its right and bottom lines
(except those of the frame), its vertical alignment, the most frequent alignment of its paragraphs and its colour.  Rows tell nothing of their own.  What is
missing: the lines between the cells which the table draws itself are lost (`C95_inside_counterexample`). -/
theorem C95_word_to_cals_partial (cfg : Ooxml.Config) (hfl : Units.FloatModel cfg.fl) (hrepr : ∀ x, ' ' ∉ (cfg.repr x).toList) (bc : Cals.Config) (ns : Option String)
    (u : List Char) (tg : Bool) (sorting : Option (List String)) (fl : Rat → Rat) (hcfg : Cals.Config.new ns u tg sorting fl = .ok bc)
    (following : List Node) (styles : Node → Styles) (nature : Node → String) (W : Nat) (tbl : Node)
    (h : GoodTable cfg (firstSectList following) styles nature W tbl) (hne : kids ["tr"] tbl ≠ []) (hp : PlainTable cfg.styles tbl)
    (tree : Node) (hconv : (Convert.ooxml2cals cfg bc).convert following tbl = .ok tree) :
    ∃ (chain : List Node) (tgroup : Node) (colspecs bodies : List Node) (order : List (Node × List (Box × Node))),
      TableChain cfg.styles tbl chain ∧ tree.children = [tgroup] ∧ tgroup.children = colspecs ++ bodies ∧
      WordTableKept bc.ns (firstSectList following) chain tbl tree (if tg then tgroup else tree)
        (if tg then tgroup.attr ⟨bc.ns, "tgroupstyle"⟩ else tree.attr ⟨bc.ns, "tabstyle"⟩) ∧
      colspecs.length = W ∧
      (∀ (i : Nat) (g : Node), ((kids ["tblGrid"] tbl).flatMap (kids ["gridCol"]))[i]? = some g → ∃ e, colspecs[i]? = some e ∧
        WordColKept bc.ns cfg.float (Units.rewriteWidth fl u) g e) ∧
      Sorted bc.tgroupSorting (fun x => some (natureOfRow x.1)) (slots 1 (kids ["tr"] tbl)) order ∧
      All₂ (fun x row => row.tag? = some ⟨bc.ns, "row"⟩ ∧ (∀ k ∈ ["valign", "rowsep", "rowstyle", "bgcolor"], row.attr ⟨bc.ns, k⟩ = none) ∧
          All₂ (fun b out => WordCellKept bc.ns W (kids ["tr"] tbl).length (if tg then tgroup else tree) b.2 b.1 out ∧ out.attr ⟨bc.ns, "cellstyle"⟩ = none)
            x.2 row.children)
        order (bodies.flatMap (fun b => b.children.filter (fun n => n.tag?.isSome))) := by
  obtain ⟨t, rows, cols, h1, h2, h3, h4, h5, hparsed, hfull, hin, hrows, hcols, htable⟩ := word_reads hfl h hne PState.init
  obtain ⟨st, hst⟩ := h.style
  obtain ⟨chain, hchain, dF, dI⟩ := table_lines hst htable hp hrepr
  unfold Convert.ooxml2cals Convert.thenGenerate at hconv
  simp only [h1] at hconv
  have hi : t.Inv := hparsed.tidy.1.inv
  have hdr : Describes .row t.grid.cells rows := by rw [views_eq hi h2]; exact Table.base_describes hi .row
  obtain ⟨tgroup, colspecs, bodies, vorder, rk, q1, q2, q3, q4, -, q5, q6, q7, q8, q9⟩ := calsLooks_of_inv ns u tg sorting fl bc hcfg t hi tree hconv rows cols h2 h3
  have sR := (dI "border-right" ["insideV"] (by simp [insideSides])).sep
  have sB := (dI "border-bottom" ["insideH"] (by simp [insideSides])).sep
  obtain ⟨tf, tr, tb, tst, tor, tpg, tbg, tw, -, -, -⟩ := q3
  have hwhole : ∀ k, (if tg = true then tgroup.attr else tree.attr) k = (if tg = true then tgroup else tree).attr k := by cases tg <;> exact fun _ => rfl
  rw [hwhole] at tr tb
  have wR := table_line tr sR
  have wB := table_line tb sB
  obtain ⟨fr, f1, f2⟩ := tf
  obtain ⟨order, hsorted, horder⟩ := sorted_lines hrows (by
    intro i r hr
    obtain ⟨hlt, rfl⟩ := List.getElem?_eq_some_iff.mp hr
    have := hdr.pos i hlt
    omega) q6 q5 q7 q8
  refine ⟨chain, tgroup, colspecs, bodies, order, hchain, q1, q2, ⟨⟨fr, f1, ?_⟩, wR, wB, ?_, told_sectOrient htable.orientation tor, ?_, told_fill htable.background tbg,
    tw.1 htable.noWidth⟩, by rw [← q4.length, h5], ?_, hsorted, ?_⟩
  · rw [propext (dF "border-top" ["top"] (by simp [frameSides])).visible, propext (dF "border-right" ["end", "right"] (by simp [frameSides])).visible,
      propext (dF "border-bottom" ["bottom"] (by simp [frameSides])).visible, propext (dF "border-left" ["start", "left"] (by simp [frameSides])).visible] at f2
    exact f2
  · rw [tst]; exact htable.nature
  · obtain ⟨v, v1, v2⟩ := htable.columns
    obtain ⟨x, x1, x2⟩ := tpg.2 _ v2
    refine ⟨v, v1, ?_⟩
    rw [x2, ← x1]
    simp [pageWide]
  · intro i g hg
    obtain ⟨col, k1, k2⟩ := hcols i g hg
    obtain ⟨e, he, -, hl⟩ := all₂_to q4 k1
    exact ⟨e, he, wordCol_of sR sB wR wB k2 hl.right hl.bottom hl.width hl.align⟩
  · refine all₂_of_getElem (horder.length.trans q9.length) ?_
    intro i x row hx hrow
    obtain ⟨r, hr, hmem, -, hmarks, hE⟩ := all₂_to horder hx
    obtain ⟨row', hrow', k1, k2, k3⟩ := all₂_to q9 hr
    rw [hrow] at hrow'; cases hrow'
    refine ⟨k1, ?_, ?_⟩
    · intro k hk
      simp only [List.mem_cons, List.not_mem_nil, or_false] at hk
      rcases hk with rfl | rfl | rfl | rfl
      · exact k2.valign.1 (hmarks.only _ (by decide))
      · exact short_absent k2.bottom (part_absent k2.bottom (hmarks.only _ (by decide)) sB wB)
      · exact k2.rowstyle.1 (hmarks.only _ (by decide))
      · exact Classical.byContradiction (fun hb => absurd (k2.others _ hb) (by simp))
    · have hxm : x ∈ slots 1 (kids ["tr"] tbl) := by
        obtain ⟨_, _, hpm, _⟩ := hsorted
        exact hpm.mem_iff.mp (List.mem_of_getElem? hx)
      obtain ⟨n, hn⟩ := List.mem_iff_getElem?.mp hxm
      obtain ⟨s1, s2⟩ := slots_get 1 _ n x hn
      refine all₂_of_getElem (hE.length.trans k3.length) ?_
      intro j b out hb hout
      obtain ⟨c, hc, hbox, hS⟩ := all₂_to hE hb
      obtain ⟨out', hout', -, hL⟩ := all₂_to k3 hc
      rw [hout] at hout'; cases hout'
      have hcm : c ∈ t.cells := ((hdr.owned r hmem c).mp (List.mem_of_getElem? hc)).1
      refine ⟨wordCell_of hrepr hfull hin hcm hbox hS (hp.cells x.1 (List.mem_of_getElem? s1) b.2 (s2 b (List.mem_of_getElem? hb)).2) sR sB wR wB hL.right hL.lastColumn
        hL.bottom hL.lastRow hL.valign hL.align hL.bgcolor, hL.cellstyle.1 (hS.only _ (by decide))⟩

/-- **C95** (Word to Formex with the CALS attributes, partial): the same looks are told by `CORPUS`, its columns, its rows and their cells, in the order of the
source; when titles are detected, the first row may be the title. -/
theorem C95_word_to_formex_partial (cfg : Ooxml.Config) (hfl : Units.FloatModel cfg.fl) (hrepr : ∀ x, ' ' ∉ (cfg.repr x).toList) (bc : Fmx.Config)
    (hu : bc.useCals = true) (following : List Node) (styles : Node → Styles) (nature : Node → String) (W : Nat) (tbl : Node)
    (h : GoodTable cfg (firstSectList following) styles nature W tbl) (hne : kids ["tr"] tbl ≠ []) (hp : PlainTable cfg.styles tbl)
    (tree : Node) (hconv : (Convert.ooxml2formex cfg bc).convert following tbl = .ok tree) :
    ∃ (chain title colspecs : List Node) (nodes : List (List Node)) (rest : List (Node × List (Box × Node))) (corpus : Node),
      TableChain cfg.styles tbl chain ∧ tree.children = title ++ [corpus] ∧ corpus.tag? = some (FmxSpec.name "CORPUS") ∧
      corpus.children = colspecs ++ nodes.flatten ∧
      (title = [] ∧ rest = slots 1 (kids ["tr"] tbl) ∨ ∃ x e, slots 1 (kids ["tr"] tbl) = x :: rest ∧ title = [e]) ∧
      WordTableKept bc.calsNs (firstSectList following) chain tbl corpus corpus (corpus.attr ⟨bc.calsNs, "tabstyle"⟩) ∧
      colspecs.length = W ∧
      (∀ (i : Nat) (g : Node), ((kids ["tblGrid"] tbl).flatMap (kids ["gridCol"]))[i]? = some g → ∃ e, colspecs[i]? = some e ∧
        WordColKept bc.calsNs cfg.float (Units.rewriteWidth bc.fl bc.widthUnit) g e) ∧
      All₂ (fun x ns => ∃ row, ns.filter (fun n => n.tag?.isSome) = [row] ∧ row.tag? = some (FmxSpec.name "ROW") ∧
          (∀ k ∈ ["valign", "rowsep", "rowstyle", "bgcolor"], row.attr ⟨bc.calsNs, k⟩ = none) ∧
          All₂ (fun b out => WordCellKept bc.calsNs W (kids ["tr"] tbl).length corpus b.2 b.1 out) x.2 row.children) rest nodes := by
  obtain ⟨t, rows, cols, h1, h2, h3, h4, h5, hparsed, hfull, hin, hrows, hcols, htable⟩ := word_reads hfl h hne PState.init
  obtain ⟨st, hst⟩ := h.style
  obtain ⟨chain, hchain, dF, dI⟩ := table_lines hst htable hp hrepr
  unfold Convert.ooxml2formex Convert.thenGenerate at hconv
  simp only [h1] at hconv
  have hr : t.Reachable := hparsed.tidy.1
  have hi := hr.inv
  have hdr : Describes .row t.grid.cells rows := by rw [views_eq hi h2]; exact Table.base_describes hi .row
  obtain ⟨title, colspecs, nodes, rest, corpus, q1, q2, q3, q4, q5, -⟩ := C77_formex_looks bc 1 t hr tree hconv rows cols h2 h3
  obtain ⟨lc, lcol, lrow⟩ := q5 hu
  have sR := (dI "border-right" ["insideV"] (by simp [insideSides])).sep
  have sB := (dI "border-bottom" ["insideH"] (by simp [insideSides])).sep
  have wR := table_line lc.right sR
  have wB := table_line lc.bottom sB
  obtain ⟨fr, f1, f2⟩ := lc.frame
  obtain ⟨rest', hrest, hsplit⟩ := rest_lines hrows q4
  refine ⟨chain, title, colspecs, nodes, rest', corpus, hchain, q1, q2, q3, hsplit, ⟨⟨fr, f1, ?_⟩, wR, wB, ?_, told_sectOrient htable.orientation lc.orient, ?_,
    told_fill htable.background lc.bgcolor, lc.width.1 htable.noWidth⟩, by rw [← lcol.length, h5], ?_, ?_⟩
  · rw [propext (dF "border-top" ["top"] (by simp [frameSides])).visible, propext (dF "border-right" ["end", "right"] (by simp [frameSides])).visible,
      propext (dF "border-bottom" ["bottom"] (by simp [frameSides])).visible, propext (dF "border-left" ["start", "left"] (by simp [frameSides])).visible] at f2
    exact f2
  · rw [lc.tabstyle]; exact htable.nature
  · obtain ⟨v, v1, v2⟩ := htable.columns
    obtain ⟨x, x1, x2⟩ := lc.pgwide.2 _ v2
    refine ⟨v, v1, ?_⟩
    rw [x2, ← x1]
    simp [pageWide]
  · intro i g hg
    obtain ⟨col, k1, k2⟩ := hcols i g hg
    obtain ⟨e, he, hl⟩ := all₂_to lcol k1
    exact ⟨e, he, wordCol_of sR sB wR wB k2 hl.right hl.bottom hl.width hl.align⟩
  · refine all₂_of_getElem (hrest.length.trans lrow.length) ?_
    intro i x ns hx hns
    obtain ⟨r, hr', hmem, -, hmarks, hE⟩ := all₂_to hrest hx
    obtain ⟨ns', hns', row, k1, k2, k3, k4⟩ := all₂_to lrow hr'
    rw [hns] at hns'; cases hns'
    refine ⟨row, k1, k2, ?_, ?_⟩
    · intro k hk
      simp only [List.mem_cons, List.not_mem_nil, or_false] at hk
      rcases hk with rfl | rfl | rfl | rfl
      · exact k3.valign.1 (hmarks.only _ (by decide))
      · exact short_absent k3.bottom (part_absent k3.bottom (hmarks.only _ (by decide)) sB wB)
      · exact k3.rowstyle.1 (hmarks.only _ (by decide))
      · exact k3.bgcolor.1 (hmarks.only _ (by decide))
    · have hxm : x ∈ slots 1 (kids ["tr"] tbl) := by
        rcases hsplit with ⟨-, e⟩ | ⟨y, e', e, -⟩
        · rw [← e]; exact List.mem_of_getElem? hx
        · rw [e]; exact List.mem_cons_of_mem _ (List.mem_of_getElem? hx)
      obtain ⟨n, hn⟩ := List.mem_iff_getElem?.mp hxm
      obtain ⟨s1, s2⟩ := slots_get 1 _ n x hn
      refine all₂_of_getElem (hE.length.trans k4.length) ?_
      intro j b out hb hout
      obtain ⟨c, hc, hbox, hS⟩ := all₂_to hE hb
      obtain ⟨out', hout', hL⟩ := all₂_to k4 hc
      rw [hout] at hout'; cases hout'
      have hcm : c ∈ t.cells := ((hdr.owned r hmem c).mp (List.mem_of_getElem? hc)).1
      exact wordCell_of hrepr hfull hin hcm hbox hS (hp.cells x.1 (List.mem_of_getElem? s1) b.2 (s2 b (List.mem_of_getElem? hb)).2) sR sB wR wB hL.right hL.lastColumn
        hL.bottom hL.lastRow hL.valign hL.align hL.bgcolor

/-! ### examples -/

/-- the borders are plain (a check) -/
def plainCheck (b : Node) : Bool :=
  b.children.all (fun e => e.tag?.isNone || ((match e.attr (OoxmlSpec.name "val") with
    | some v => decide (v ≠ "" ∧ ' ' ∉ v.toList ∧ ¬ ['p', 't'] <:+ v.toList)
    | none => false) && (match e.attr (OoxmlSpec.name "color") with
    | some c => decide (' ' ∉ c.toList)
    | none => true)))

theorem plain_of_check {b : Node} (h : plainCheck b = true) : PlainBorders b := by
  intro e he ht
  have h := List.all_eq_true.mp h e he
  have hn : e.tag?.isNone = false := by cases ht' : e.tag? <;> simp_all
  rw [hn, Bool.false_or, Bool.and_eq_true] at h
  obtain ⟨h1, h2⟩ := h
  constructor
  · cases hv : e.attr (OoxmlSpec.name "val") with
    | none => rw [hv] at h1; cases h1
    | some v =>
      rw [hv] at h1
      obtain ⟨k1, k2, k3⟩ := of_decide_eq_true h1
      refine ⟨v, rfl, k1, k2, ?_⟩
      rintro ⟨a, ha⟩
      exact k3 ⟨a, ha.symm⟩
  · intro c hc
    rw [hc] at h2
    exact of_decide_eq_true h2

theorem plainTable_of {sheet : Option Node} {tbl : Node} (h1 : (tableBorders tbl).all plainCheck = true)
    (h2 : (sheet.toList.flatMap (kids ["style"])).all (fun e => (tableBorders e).all plainCheck) = true)
    (h3 : ((kids ["tr"] tbl).flatMap (kids ["tc"])).all (fun e => (Kept.cellBorders e).all plainCheck) = true) : PlainTable sheet tbl := by
  refine ⟨fun b hb => ?_, fun s hs e he b hb => ?_, fun tr htr tc htc b hb => ?_⟩
  · rw [hb] at h1; exact plain_of_check h1
  · have := List.all_eq_true.mp h2 e (List.mem_flatMap.mpr ⟨s, by simpa using hs, he⟩)
    rw [hb] at this; exact plain_of_check this
  · have := List.all_eq_true.mp h3 tc (List.mem_flatMap.mpr ⟨tr, htr, htc⟩)
    rw [hb] at this; exact plain_of_check this

theorem looksWord_plain : PlainTable wConfig.styles Ooxml.looksWord := plainTable_of (by decide +kernel) (by decide +kernel) (by decide +kernel)

/-- not vacuous: a Word table with a style, borders, colours, alignments and a section is converted to CALS and to Formex -/
example : Units.FloatModel wConfig.fl ∧ (∀ x, ' ' ∉ (wConfig.repr x).toList) ∧ Cals.Config.new none ['m', 'm'] false none id = .ok calsConfig ∧
    firstSectList [Ooxml.sectWord] = some Ooxml.sectWord ∧ GoodTable wConfig (some Ooxml.sectWord) Ooxml.stylesOf Ooxml.natureOf 2 Ooxml.looksWord ∧
    kids ["tr"] Ooxml.looksWord ≠ [] ∧ PlainTable wConfig.styles Ooxml.looksWord ∧ looksFormex.useCals = true ∧
    ((Convert.ooxml2formex wConfig looksFormex).convert [Ooxml.sectWord] Ooxml.looksWord).isOk = true ∧
    ((Convert.ooxml2cals wConfig calsConfig).convert [Ooxml.sectWord] Ooxml.looksWord).map (fun n => plainValues "frame" [n] ++ plainValues "tabstyle" [n] ++
      plainValues "orient" [n] ++ plainValues "colsep" [n] ++ n.children.flatMap (fun g => plainValues "colwidth" g.children ++ g.children.flatMap (fun b =>
        b.children.flatMap (fun r => plainValues "align" r.children ++ plainValues "bgcolor" r.children)))) =
      .ok (["none", "c", "land", "1", "0.00mm", "0.00mm", "-", "-", "right", "justify", "#FF0000", "-", "-", "-"].map String.toList) := by
  refine ⟨by intro q; simp [wConfig]; positivity, fun _ => by simp [wConfig], rfl, rfl, Ooxml.looksWord_good, by decide +kernel, looksWord_plain, rfl, by decide +kernel, by decide +kernel⟩

/-- a Word table of one row of two cells, with lines between the cells -/
def insideWord : Node := wEl "tbl" [] [
  wEl "tblPr" [] [wEl "tblBorders" [] [wEl "insideV" [("val", "single")] [], wEl "insideH" [("val", "single")] []]],
  wEl "tblGrid" [] [wEl "gridCol" [("w", "20")] [], wEl "gridCol" [("w", "20")] []],
  wEl "tr" [] [Ooxml.tcLooks [] [Ooxml.pDemo none (some "a")], Ooxml.tcLooks [] [Ooxml.pDemo none (some "b")]]]

theorem insideWord_good : GoodTable wConfig none Ooxml.stylesOf Ooxml.natureOf 2 insideWord := by
  have tcs : ∀ m x, (Ooxml.tcLooks m x).tag? = some (OoxmlSpec.name "tc") := fun _ _ => rfl
  refine ⟨rfl, ⟨_, rfl⟩, by decide, by decide +kernel, ?_, ?_⟩
  · refine ⟨insideWord.children.take 2, insideWord.children.drop 2, by simp, ?_, ?_⟩
    · intro c hc
      simp only [insideWord, wEl, Node.children, List.take, List.mem_cons, List.not_mem_nil, or_false] at hc
      rcases hc with rfl | rfl
      · left; decide +kernel
      · right
        refine ⟨rfl, ⟨?_⟩⟩
        intro c hc
        simp only [Node.children, List.mem_cons, List.not_mem_nil, or_false] at hc
        rcases hc with rfl | rfl <;> exact .inr ⟨rfl, rfl, "20", 0, rfl, rfl⟩
    · intro c hc
      simp only [insideWord, wEl, Node.children, List.drop, List.mem_cons, List.not_mem_nil, or_false] at hc
      subst hc
      refine .inr ⟨rfl, ?_, by decide +kernel, by decide +kernel, ⟨_, rfl⟩⟩
      intro c hc
      simp only [Node.children, List.mem_cons, List.not_mem_nil, or_false] at hc
      rcases hc with rfl | rfl
      · exact .inr ⟨tcs .., ⟨by decide +kernel, by decide +kernel, by decide +kernel, fun _ => by decide +kernel⟩⟩
      · exact .inr ⟨tcs .., ⟨by decide +kernel, by decide +kernel, by decide +kernel, fun _ => by decide +kernel⟩⟩
  · decide +kernel

/-- **C95** does not hold in full: the lines which a table asks for between its cells are lost, in CALS and in Formex: every separator is `0` -/
theorem C95_inside_counterexample :
    GoodTable wConfig (firstSectList []) Ooxml.stylesOf Ooxml.natureOf 2 insideWord ∧ PlainTable wConfig.styles insideWord ∧
    side (tableBorders insideWord) ["insideV"] = some true ∧ side (tableBorders insideWord) ["insideH"] = some true ∧
    (∃ tree, (Convert.ooxml2cals wConfig calsConfig).convert [] insideWord = .ok tree ∧
      ∀ x ∈ allAttrs tree, x.1.name = "colsep" ∨ x.1.name = "rowsep" → x.2 = "0") ∧
    ∃ tree, (Convert.ooxml2formex wConfig looksFormex).convert [] insideWord = .ok tree ∧
      ∀ x ∈ allAttrs tree, x.1.name = "colsep" ∨ x.1.name = "rowsep" → x.2 = "0" := by
  refine ⟨insideWord_good, plainTable_of (by decide +kernel) (by decide +kernel) (by decide +kernel), by decide +kernel, by decide +kernel, ?_, ?_⟩
  · obtain ⟨tree, ht⟩ := ok_of (x := (Convert.ooxml2cals wConfig calsConfig).convert [] insideWord) (by decide +kernel)
    refine ⟨tree, ht, ?_⟩
    have : ((Convert.ooxml2cals wConfig calsConfig).convert [] insideWord).map
        (fun t => decide (∀ x ∈ allAttrs t, x.1.name = "colsep" ∨ x.1.name = "rowsep" → x.2 = "0")) = .ok true := by decide +kernel
    rw [ht] at this
    simpa only [Except.map, Except.ok.injEq, decide_eq_true_eq] using this
  · obtain ⟨tree, ht⟩ := ok_of (x := (Convert.ooxml2formex wConfig looksFormex).convert [] insideWord) (by decide +kernel)
    refine ⟨tree, ht, ?_⟩
    have : ((Convert.ooxml2formex wConfig looksFormex).convert [] insideWord).map
        (fun t => decide (∀ x ∈ allAttrs t, x.1.name = "colsep" ∨ x.1.name = "rowsep" → x.2 = "0")) = .ok true := by decide +kernel
    rw [ht] at this
    simpa only [Except.map, Except.ok.injEq, decide_eq_true_eq] using this

end Benker
