import Verif.Spec.Order
import Verif.Lemmas.ParsedOrder
import Verif.Lemmas.ParsedReachable
import Verif.Props.CalsRoundTrip
import Verif.Props.FormexBuilder
import Verif.Props.FormexDoc
import Verif.Props.OoxmlMerge

/-! C80: tables read from documents list their cells in reading order. C81: they have no hole. -/

namespace Benker
open PyM

theorem eval_ok {σ α : Type} {m : PyM σ α} {s : σ} {a : α} (h : eval m s = .ok a) : ∃ s', m s = (.ok a, s') := by
  unfold eval at h
  cases hm : m s with
  | mk r s' => rw [hm] at h; simp only at h; rw [h]; exact ⟨s', rfl⟩

theorem ParsedTable.tidy {t : Table Content} (h : ParsedTable t) : t.Reachable ∧ (Tidy t ∨ Fresh t) := by
  cases h with
  | cals cfg p n s _ hn h => obtain ⟨s', h⟩ := eval_ok h; exact ⟨CalsP.parsed_reachable h, CalsP.parsed_tidy hn h⟩
  | formex cfg b p n s _ hn h => obtain ⟨s', h⟩ := eval_ok h; exact ⟨FmxP.parsed_reachable h, FmxP.parsed_tidy hn h⟩
  | word cfg sect n s _ hn h => obtain ⟨s', h⟩ := eval_ok h; exact ⟨Ooxml.parsed_reachable h, Ooxml.parsed_tidy hn h⟩

/-- **C80**: whatever the document, the rows of the table read by any of the three parsers list its cells in reading order, once each; and nothing is
missing at the left of a cell: every place between the left border and the start of a cell is covered. -/
theorem C80_rows (t : Table Content) (h : ParsedTable t) (rows : List (View Content)) (hrows : eval (Table.views .row) t = .ok rows) :
    InReadingOrder t.cells rows ∧ ∀ c ∈ t.cells, ∀ x, 1 ≤ x → x < c.min.x → Covered t.cells ⟨x, c.min.y⟩ := by
  obtain ⟨hre, h⟩ := h.tidy
  have hi := hre.inv
  have hr := views_eq hi hrows
  have hd := Table.base_describes hi .row
  rw [← hr] at hd
  have hord : ∀ r ∈ rows, r.owned.Pairwise (fun a b => a.min.x < b.min.x) := by
    rw [hr]
    rcases h with h | h
    · exact h.base
    · exact h.base
  refine ⟨⟨owned_eq hi hd hord, hi.grid.sorted, ?_, hord⟩, ?_⟩
  · intro i hlt c hc
    have := ((hd.owned _ (List.getElem_mem hlt) c).mp hc).2
    unfold StartsIn at this
    rw [hd.pos i hlt] at this
    exact this
  · rcases h with h | h
    · exact h.left
    · intro c hc
      have : c ∈ t.grid.cells := hc
      rw [h.empty] at this; cases this

theorem some_of {m : PyM PState (Option (Table Content))} {s : PState} (h : (eval m s).map Option.isSome = .ok true) :
    ∃ t, eval m s = .ok (some t) := by
  cases hm : eval m s with
  | error e => rw [hm] at h; cases h
  | ok r =>
    cases r with
    | none => rw [hm] at h; cases h
    | some t => exact ⟨t, rfl⟩

/-- boxes of the cells listed by the rows of a table, row by row -/
def rowBoxes (r : Except PyErr (Option (Table Content))) : List (List (Int × Int × Int × Int)) :=
  match r with
  | .ok (some t) => (t.baseViews .row).map (fun v => v.owned.map (fun c => (c.min.x, c.min.y, c.max.x, c.max.y)))
  | _ => []

/-- a CALS table with a table in an entry and a cell of two rows -/
def orderDemo : Node :=
  el "table" [el "tgroup" [el "tbody" [
    el "row" [.elem ⟨none, "entry"⟩ [(⟨none, "morerows"⟩, "1")] none [] none, el "entry" [el "table" []], el "entry" []],
    el "row" [el "entry" []], el "row" [.elem ⟨none, "entry"⟩ [(⟨none, "namest"⟩, "c1"), (⟨none, "nameend"⟩, "c2")] none [] none, el "entry" []]]]]

example : (∃ t, eval (CalsP.parseTable demoConfig none orderDemo) PState.init = .ok (some t) ∧ ParsedTable t) ∧
    rowBoxes (eval (CalsP.parseTable demoConfig none orderDemo) PState.init) =
      [[(1, 1, 1, 2), (2, 1, 2, 1), (3, 1, 3, 1)], [(2, 2, 2, 2), (3, 2, 3, 2)], [(1, 3, 2, 3), (3, 3, 3, 3)]] := by
  obtain ⟨t, ht⟩ := some_of (show (eval (CalsP.parseTable demoConfig none orderDemo) PState.init).map Option.isSome = .ok true by decide +kernel)
  exact ⟨⟨t, ht, .cals _ _ _ _ _ rfl ht⟩, by decide +kernel⟩

example : ∃ t, ParsedTable t ∧ t.cells.map (·.box) = [⟨⟨1, 1⟩, ⟨1, 1⟩⟩, ⟨⟨2, 1⟩, ⟨3, 3⟩⟩, ⟨⟨1, 2⟩, ⟨1, 3⟩⟩, ⟨⟨1, 4⟩, ⟨3, 4⟩⟩] := by
  obtain ⟨t, ht⟩ := some_of (show (eval (Ooxml.parseTable wConfig none Ooxml.mergeDemo) PState.init).map Option.isSome = .ok true by decide +kernel)
  refine ⟨t, .word _ _ _ _ _ rfl ht, ?_⟩
  have : (eval (Ooxml.parseTable wConfig none Ooxml.mergeDemo) PState.init).map (Option.map (fun t => t.cells.map (·.box))) =
    .ok (some [⟨⟨1, 1⟩, ⟨1, 1⟩⟩, ⟨⟨2, 1⟩, ⟨3, 3⟩⟩, ⟨⟨1, 2⟩, ⟨1, 3⟩⟩, ⟨⟨1, 4⟩, ⟨3, 4⟩⟩]) := by decide +kernel
  rw [ht] at this
  exact Option.some.inj (Except.ok.inj this)

example : ∃ t, ParsedTable t ∧ t.cells.length = 10 := by
  obtain ⟨t, ht⟩ := some_of (show (eval (FmxP.parseTable ⟨none, some "c", true⟩ 0 (some fmxTbl) fmxCorpus) PState.init).map Option.isSome = .ok true by decide +kernel)
  refine ⟨t, .formex _ _ _ _ _ _ rfl ht, ?_⟩
  have : (eval (FmxP.parseTable ⟨none, some "c", true⟩ 0 (some fmxTbl) fmxCorpus) PState.init).map (Option.map (fun t => t.cells.length)) =
    .ok (some 10) := by decide +kernel
  rw [ht] at this
  exact Option.some.inj (Except.ok.inj this)

/-- **C80**, CALS documents made from it: the entries of each row are those of the cells which start in it, from left to right, once each. -/
theorem C80_cals_entries (cfg : Cals.Config) (t : Table Content) (h : ParsedTable t) (tree : Node) (htree : eval (Cals.generate cfg) t = .ok tree) :
    ∃ (rows : List (View Content)) (attrs tattrs : Dict QName String) (colspecs bodies : List Node) (groups : List (List (View Content))),
      eval (Table.views .row) t = .ok rows ∧ InReadingOrder t.cells rows ∧
      tree = .elem (cfg.q "table") attrs none [.elem (cfg.q "tgroup") tattrs none (colspecs ++ bodies) none] none ∧
      groups.flatten.Perm rows ∧
      All₂ (fun g body => ∃ tag nodes, body = Node.elem (cfg.q tag) [] none (List.flatten nodes) none ∧ All₂ (CalsSpec.RowFor cfg) g nodes) groups bodies := by
  have hi := h.tidy.1.inv
  have hrows : eval (Table.views .row) t = .ok (t.baseViews .row) := by rw [eval, Table.views_run .row t hi.grid]
  have hd := Table.base_describes hi .row
  obtain ⟨bb, _, he⟩ := generate_eq hi cfg
  rw [he] at htree
  obtain ⟨attrs, tattrs, colspecs, bodies, rfl, _, _, _, h3⟩ :=
    buildTree_ok (fun r hr c hc => hi.grid.valid c ((hd.owned r hr c).mp hc).1) htree
  refine ⟨_, attrs, tattrs, colspecs, bodies, Cals.rowGroups cfg (t.baseViews .row), hrows, (C80_rows t h _ hrows).1, rfl,
    (rowGroups_spec cfg _).2.1, ?_⟩
  refine h3.imp_mem ?_
  rintro g hg body ⟨nodes, rfl, hall⟩
  exact ⟨_, nodes, rfl, hall⟩

/-- **C80**, Formex documents made from it: the cells of the title, then of each row, are those of the table in reading order, once each. -/
theorem C80_formex_cells (cfg : Fmx.Config) (noSeq : Nat) (t : Table Content) (h : ParsedTable t) (tree : Node)
    (htree : eval (Fmx.generate cfg noSeq) t = .ok tree) :
    ∃ (rows rest : List (View Content)) (attrs cattrs : Dict QName String) (title colspecs : List Node) (nodes : List (List Node)),
      eval (Table.views .row) t = .ok rows ∧ InReadingOrder t.cells rows ∧
      tree = .elem (FmxSpec.name "TBL") attrs none (title ++ [.elem (FmxSpec.name "CORPUS") cattrs none (colspecs ++ nodes.flatten) none]) none ∧
      (title = [] ∧ rest = rows ∨ ∃ r e, rows = r :: rest ∧ title = [e] ∧ FmxSpec.TitleFor r e) ∧
      All₂ (FmxSpec.RowFor cfg.useCals cfg.calsNs) rest nodes := by
  have ht := h.tidy.1
  have hi := ht.inv
  have hrows : eval (Table.views .row) t = .ok (t.baseViews .row) := by rw [eval, Table.views_run .row t hi.grid]
  have hcols : eval (Table.views .col) t = .ok (t.baseViews .col) := by rw [eval, Table.views_run .col t hi.grid]
  obtain ⟨⟨attrs, cattrs, title, colspecs, nodes, rest, h1, _, _, _, _, _, h2, h3⟩, _, _⟩ := C71_formex_tree cfg noSeq t ht tree htree _ _ hrows hcols
  refine ⟨_, rest, attrs, cattrs, title, colspecs, nodes, hrows, (C80_rows t h _ hrows).1, h1, ?_, h3⟩
  rcases h2 with ⟨a, b, _⟩ | ⟨r, e, a, b, c, _⟩
  · exact .inl ⟨a, b⟩
  · exact .inr ⟨r, e, a, b, c⟩

/-! ### C81 -/

/-- **C81**, Formex: when the parsing of a `CORPUS` succeeds it gives a table, which is not empty, and every coordinate of its bounding box is covered
by a cell; the bounding box starts in the first column. -/
theorem C81_formex_partial (cfg : FmxP.Config) (blk : Nat) (parent : Option Node) (n : Node) (hn : n.tag? = some (cfg.f "CORPUS")) (s : PState)
    (r : Option (Table Content)) (h : eval (FmxP.parseTable cfg blk parent n) s = .ok r) :
    ∃ t b, r = some t ∧ t.Reachable ∧ t.boundingBox = .ok (some b) ∧ b.min.x = 1 ∧ ∀ p, InBox p b → Covered t.cells p := by
  obtain ⟨s', h'⟩ := eval_ok h
  rw [FmxP.parseTable_run blk parent hn] at h'
  simp only [bind_run] at h'
  have k1 : PState.TableIs Table.Reachable (FmxP.parseCorpus cfg parent n PState.init).2 := keeps_newTable PState.init (by intro t ht; cases ht)
  cases h1 : FmxP.parseCorpus cfg parent n PState.init with
  | mk r1 s1 =>
    rw [h1] at h' k1
    cases r1 with
    | error e => cases h'
    | ok u =>
      simp only at h' k1
      have k2 := FmxP.keeps_loop (cfg := cfg) (walkList (FmxP.selected cfg) (some n) n.children) 1 blk s1 k1
      cases h2 : FmxP.loop cfg 1 blk (walkList (FmxP.selected cfg) (some n) n.children) s1 with
      | mk r2 s2 =>
        rw [h2] at h' k2
        cases r2 with
        | error e => cases h'
        | ok u =>
          simp only at h' k2
          unfold FmxP.endCorpus at h'
          simp only [bind_run] at h'
          have k3 := keeps_forEach (P := PState.TableIs Table.Reachable) (fun n => keeps_bind keeps_nextRow (fun _ => FmxP.keeps_notes (cfg := cfg) n))
            (FmxP.notesOf cfg parent) s2 k2
          cases h3 : PyM.forEach (fun n => do PState.nextRow; FmxP.parseNotes cfg n) (FmxP.notesOf cfg parent) s2 with
          | mk r3 s3 =>
            rw [h3] at h' k3
            cases r3 with
            | error e => cases h'
            | ok u =>
              simp only at h' k3
              unfold PState.onTable at h'
              cases ht : s3.table with
              | none => rw [ht] at h'; cases h'
              | some t =>
                rw [ht] at h'
                simp only at h'
                cases h4 : CalsP.fillHoles t with
                | mk r4 t4 =>
                  rw [h4] at h'
                  cases r4 with
                  | error e => cases h'
                  | ok u =>
                    simp only [get_run, pure_run, Prod.mk.injEq, Except.ok.injEq] at h'
                    obtain ⟨rfl, -⟩ := h'
                    obtain ⟨b, hb, hc⟩ := fillHoles_ok (k3 t ht) h4
                    refine ⟨t4, b, rfl, ?_, hb, ?_, hc⟩
                    · have hr := CalsP.keeps_fillHoles t (k3 t ht)
                      rw [h4] at hr; exact hr
                    · obtain ⟨_, h5⟩ := (ParsedTable.formex _ _ _ _ _ _ hn h).tidy
                      rcases h5 with h5 | h5
                      · exact h5.corner hb
                      · rcases boundingBox_inv t4.grid h5.inv.grid with ⟨_, e2⟩ | ⟨b', e1, _⟩
                        · rw [show t4.boundingBox = _ from e2] at hb; cases hb
                        · exact absurd h5.empty e1

/-- a Word table without `w:tblGrid`, whose second row is longer than the first one -/
def unevenWord : Node :=
  wEl "tbl" [] [wEl "tr" [] [Ooxml.tcDemo none none "a"], wEl "tr" [] [Ooxml.tcDemo none none "b", Ooxml.tcDemo none none "c"]]

/-- **C81 is false of Word tables**: the rows are filled when they end, up to the number of columns known at that time, and nothing is filled at the end
of the table: a first row shorter than the next ones keeps a hole. -/
theorem C81_counterexample : ∃ t, ParsedTable t ∧ t.boundingBox = .ok (some ⟨⟨1, 1⟩, ⟨2, 2⟩⟩) ∧ ¬ Covered t.cells ⟨2, 1⟩ := by
  obtain ⟨t, ht⟩ := some_of (show (eval (Ooxml.parseTable wConfig none unevenWord) PState.init).map Option.isSome = .ok true by decide +kernel)
  refine ⟨t, .word _ _ _ _ _ rfl ht, ?_, ?_⟩
  · have : (eval (Ooxml.parseTable wConfig none unevenWord) PState.init).map (Option.map (fun t => t.boundingBox)) =
      .ok (some (.ok (some ⟨⟨1, 1⟩, ⟨2, 2⟩⟩))) := by decide +kernel
    rw [ht] at this
    exact Option.some.inj (Except.ok.inj this)
  · have : (eval (Ooxml.parseTable wConfig none unevenWord) PState.init).map (Option.map (fun t => t.grid.hasCoord ⟨2, 1⟩)) = .ok (some false) := by
      decide +kernel
    rw [ht] at this
    have : t.grid.hasCoord ⟨2, 1⟩ = false := Option.some.inj (Except.ok.inj this)
    intro hc
    rw [(hasCoord_grid t.grid ⟨2, 1⟩).mpr hc] at this
    cases this

/-- **C81**, Word: in every table read from a Word document, each row has no hole before its last cell (nothing is said of what follows) -/
theorem C81_word_partial (cfg : Ooxml.Config) (sect : Option Node) (n : Node) (hn : n.tag? = some (Ooxml.w "tbl")) (s : PState) (t : Table Content)
    (h : eval (Ooxml.parseTable cfg sect n) s = .ok (some t)) (c : Cell Content) (hc : c ∈ t.cells) (x : Int) (h1 : 1 ≤ x) (h2 : x ≤ c.max.x) :
    Covered t.cells ⟨x, c.min.y⟩ := by
  have hp := ParsedTable.word cfg sect n s t hn h
  have hv := hp.tidy.1.inv.grid.valid c hc
  have hrows : eval (Table.views .row) t = .ok (t.baseViews .row) := by rw [eval, Table.views_run .row t hp.tidy.1.inv.grid]
  by_cases hx : x < c.min.x
  · exact (C80_rows t hp _ hrows).2 c hc x h1 hx
  · refine ⟨c, hc, ?_⟩
    unfold Box.Valid at hv
    simp only [InBox, Cell.min, Cell.max] at *; omega

/-! ### C82 -/

/-- a CALS table: the second entry is three rows high, the entry of the second row is three columns wide -/
def crossCals : Node :=
  el "table" [el "tgroup" [el "tbody" [
    el "row" [el "entry" [], .elem ⟨none, "entry"⟩ [(⟨none, "morerows"⟩, "2")] none [] none, el "entry" []],
    el "row" [.elem ⟨none, "entry"⟩ [(⟨none, "namest"⟩, "c1"), (⟨none, "nameend"⟩, "c3")] none [] none],
    el "row" [el "entry" [], el "entry" []]]]]

/-- a Word table: a cell of three columns is continued three times in the second row, the cell of the third row has five columns -/
def crossWord : Node :=
  wEl "tbl" [] [
    wEl "tr" [] [Ooxml.tcDemo none none "a", Ooxml.tcDemo (some "3") (some "restart") "b", Ooxml.tcDemo none none "c"],
    wEl "tr" [] [Ooxml.tcDemo none none "d", Ooxml.tcDemo none (some "continue") "", Ooxml.tcDemo none (some "continue") "",
      Ooxml.tcDemo none (some "continue") "", Ooxml.tcDemo none none "e"],
    wEl "tr" [] [Ooxml.tcDemo (some "5") none "f"]]

theorem boxes_of {m : PyM PState (Option (Table Content))} {s : PState} {t : Table Content} (ht : eval m s = .ok (some t)) {bs : List Box}
    (h : (eval m s).map (Option.map (fun t => t.cells.map (·.box))) = .ok (some bs)) : t.cells.map (·.box) = bs := by
  rw [ht] at h
  exact Option.some.inj (Except.ok.inj h)

theorem overlap_of_boxes {t : Table Content} {a b : Box} {l1 l2 l3 : List Box} (h : t.cells.map (·.box) = l1 ++ a :: (l2 ++ b :: l3)) (ho : Overlap a b) :
    ¬ DisjointCells t.cells := by
  intro hd
  unfold DisjointCells at hd
  rw [← List.pairwise_map (f := fun c : Cell Content => c.box) (R := fun a b => ¬ Overlap a b), h, List.pairwise_append, List.pairwise_cons] at hd
  exact hd.2.1.1 b (by simp) ho

/-- **C82 is false of the code**: a CALS entry of three columns crossing a cell of three rows is accepted, and so is a Word cell crossing a cell
extended by its continuation cells: the tables have two cells at the same place. -/
theorem C82_counterexample :
    (∃ t, eval (CalsP.parseTable demoConfig none crossCals) PState.init = .ok (some t) ∧ ¬ DisjointCells t.cells) ∧
    (∃ t, eval (Ooxml.parseTable wConfig none crossWord) PState.init = .ok (some t) ∧ ¬ DisjointCells t.cells) := by
  constructor
  · obtain ⟨t, ht⟩ := some_of (show (eval (CalsP.parseTable demoConfig none crossCals) PState.init).map Option.isSome = .ok true by decide +kernel)
    refine ⟨t, ht, ?_⟩
    have hb := boxes_of (bs := [⟨⟨1, 1⟩, ⟨1, 1⟩⟩] ++ ⟨⟨2, 1⟩, ⟨2, 3⟩⟩ :: ([⟨⟨3, 1⟩, ⟨3, 1⟩⟩] ++ ⟨⟨1, 2⟩, ⟨3, 2⟩⟩ :: [⟨⟨1, 3⟩, ⟨1, 3⟩⟩, ⟨⟨3, 3⟩, ⟨3, 3⟩⟩])) ht
      (by decide +kernel)
    exact overlap_of_boxes hb ⟨⟨2, 2⟩, by decide, by decide⟩
  · obtain ⟨t, ht⟩ := some_of (show (eval (Ooxml.parseTable wConfig none crossWord) PState.init).map Option.isSome = .ok true by decide +kernel)
    refine ⟨t, ht, ?_⟩
    have hb := boxes_of (bs := [⟨⟨1, 1⟩, ⟨1, 1⟩⟩] ++ ⟨⟨2, 1⟩, ⟨4, 4⟩⟩ :: ([⟨⟨5, 1⟩, ⟨5, 1⟩⟩, ⟨⟨1, 2⟩, ⟨1, 2⟩⟩, ⟨⟨5, 2⟩, ⟨5, 2⟩⟩] ++ ⟨⟨1, 3⟩, ⟨5, 3⟩⟩ :: [])) ht
      (by decide +kernel)
    exact overlap_of_boxes hb ⟨⟨3, 3⟩, by decide, by decide⟩

/-- **C82, part proved for every document**: two cells of a table read from a document overlap only if they cross each other: neither contains the
first or the last place of the other one. In particular there is no overlap when the cells have one row each, or one column each. -/
theorem C82_crosswise_partial (t : Table Content) (h : ParsedTable t) :
    t.cells.Pairwise (fun a b =>
      ¬ InBox a.min b.box ∧ ¬ InBox a.max b.box ∧ ¬ InBox b.min a.box ∧ ¬ InBox b.max a.box ∧
      (Overlap a.box b.box → Incomparable a.min b.min ∧ Incomparable a.max b.max)) ∧
    ((∀ c ∈ t.cells, c.height = 1) → DisjointCells t.cells) ∧ ((∀ c ∈ t.cells, c.width = 1) → DisjointCells t.cells) := by
  have hi := h.tidy.1.inv.grid
  have key : t.cells.Pairwise (fun a b =>
      ¬ InBox a.min b.box ∧ ¬ InBox a.max b.box ∧ ¬ InBox b.min a.box ∧ ¬ InBox b.max a.box ∧
      (Overlap a.box b.box → Incomparable a.min b.min ∧ Incomparable a.max b.max)) := crosswise_inv t.grid hi
  refine ⟨key, ?_, ?_⟩
  · intro hh
    refine key.imp_of_mem ?_
    intro a b ha hb hk ho
    have h1 := hk.2.2.2.2 ho
    obtain ⟨p, hp, hq⟩ := ho
    have e1 := hh a ha
    have e2 := hh b hb
    simp only [Cell.height, Box.height, InBox, Incomparable, Cell.min, Cell.max] at *
    omega
  · intro hh
    refine key.imp_of_mem ?_
    intro a b ha hb hk ho
    have h1 := hk.2.2.2.2 ho
    obtain ⟨p, hp, hq⟩ := ho
    have e1 := hh a ha
    have e2 := hh b hb
    simp only [Cell.width, Box.width, InBox, Incomparable, Cell.min, Cell.max] at *
    omega

example : ∃ t, ParsedTable t ∧ t.cells.map (·.box) = [⟨⟨1, 1⟩, ⟨1, 1⟩⟩, ⟨⟨1, 2⟩, ⟨1, 2⟩⟩, ⟨⟨2, 2⟩, ⟨2, 2⟩⟩] ∧ ∀ c ∈ t.cells, c.height = 1 := by
  obtain ⟨t, ht⟩ := some_of (show (eval (Ooxml.parseTable wConfig none unevenWord) PState.init).map Option.isSome = .ok true by decide +kernel)
  have hb := boxes_of (bs := [⟨⟨1, 1⟩, ⟨1, 1⟩⟩, ⟨⟨1, 2⟩, ⟨1, 2⟩⟩, ⟨⟨2, 2⟩, ⟨2, 2⟩⟩]) ht (by decide +kernel)
  refine ⟨t, .word _ _ _ _ _ rfl ht, hb, ?_⟩
  intro c hc
  have : c.box ∈ t.cells.map (·.box) := List.mem_map_of_mem hc
  rw [hb] at this
  unfold Cell.height
  revert this
  generalize c.box = b
  intro this
  simp only [List.mem_cons, List.not_mem_nil, or_false] at this
  rcases this with h | h | h <;> subst h <;> rfl

end Benker
