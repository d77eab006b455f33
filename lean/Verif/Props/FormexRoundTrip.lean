import Verif.Lemmas.FormexRoundTrip
import Verif.Props.FormexBuilder

/-! C52: the Formex parser reads back what the Formex builder writes. -/

namespace Benker
open PyM Cals CalsSpec FmxSpec

/-- no element of the content has the name of an element of a Formex table: the elements of Formex are in the namespace `ns`, and the `colspec` of CALS
in the namespace `calsNs` -/
def NoFormexElement (ns calsNs : Option String) (c : Option Content) : Prop :=
  ∀ t a, Tok.opening t a ∈ contentToks c →
    (t.ns = ns → t.name ∉ ["CORPUS", "ROW", "CELL", "MARGIN", "BLK", "TI.BLK", "STI.BLK"]) ∧ (t.ns = calsNs → t.name ≠ "colspec")

theorem fmx_unselected_of {pc : FmxP.Config} {c : Option Content} (h : NoFormexElement pc.ns pc.calsNs c) :
    Unselected (FmxP.selected pc) (contentToks c) := by
  intro t a ht
  unfold FmxP.selected
  rw [decide_eq_false_iff_not]
  intro hm
  have := h t a ht
  rcases List.mem_append.mp hm with hm | hm
  · obtain ⟨n, hn, he⟩ := List.mem_map.mp hm
    subst he
    exact this.1 rfl hn
  · rw [List.mem_singleton] at hm
    subst hm
    exact this.2 rfl rfl

/-- everything the parser reads back: the cells, and the looks of the rows, of the columns and of the table, as functions of the elements written -/
theorem fmx_round_trip (bc : Fmx.Config) (noSeq : Nat) (pc : FmxP.Config) (hns : pc.ns = none) (hcals : bc.useCals = true → pc.calsNs = bc.calsNs)
    (t : Table Content) (ht : t.Reachable) (rows cols : List (View Content)) (hrows : eval (Table.views .row) t = .ok rows)
    (hcols : eval (Table.views .col) t = .ok cols)
    (hne : t.cells ≠ []) (hdis : DisjointCells t.cells)
    (hfull : ∀ p : Coord, 1 ≤ p.x → p.x ≤ cols.length → 1 ≤ p.y → p.y ≤ rows.length → Covered t.cells p)
    (hord : ∀ r ∈ rows, r.owned.Pairwise (fun a b => a.min.x < b.min.x))
    (htitle : ¬ (bc.detectTitles = true ∧ HasTitle t))
    (hplain : ∀ c ∈ t.cells, NoFormexElement pc.ns pc.calsNs c.content)
    (tree : Node) (h : eval (Fmx.generate bc noSeq) t = .ok tree) :
    ∃ corpus, tree.tag? = some (name "TBL") ∧ tree.children = [corpus] ∧ corpus.tag? = some (name "CORPUS") ∧
      Fmx.corpusAttrs bc t = .ok corpus.attrs ∧ Fmx.tblAttrs noSeq cols.length t.styles = .ok tree.attrs ∧
    ∀ (p : Option Node) (_ : FmxP.notesOf pc p = []) (blk : Nat) (s : PState),
    ∃ (t' : Table Content) (rows' cols' : List (View Content)) (B : Ctx) (st : Styles),
      eval (FmxP.parseTable pc blk p corpus) s = .ok (some t') ∧
      All₂ (FmxCopied bc pc B rows) t.cells t'.cells ∧
      eval (Table.views .row) t' = .ok rows' ∧ eval (Table.views .col) t' = .ok cols' ∧ rows'.length = rows.length ∧ cols'.length = cols.length ∧
      (∀ (i : Nat) (v : View Content), rows'[i]? = some v → FmxRowRead bc pc B blk rows i v.nature v.styles) ∧
      (bc.useCals = true → ∀ (i : Nat) (v : View Content), cols'[i]? = some v → FmxColRead bc pc B cols i v.styles) ∧
      t.boundingBox = .ok B.bb ∧ Fmx.tableSep bc t.styles "x-cell-border-right" = .ok B.colsep ∧ Fmx.tableSep bc t.styles "x-cell-border-bottom" = .ok B.rowsep ∧
      FmxP.corpusStyles pc p corpus = .ok st ∧ t'.styles = copyStyles (some st) ∧ t'.nature = FmxP.corpusNature pc p corpus := by
  have hi := ht.inv
  have hq : SameNames bc pc := ⟨hns, hcals⟩
  obtain ⟨bb, hbb, he⟩ := fmx_generate_eq hi bc noSeq
  have hr := views_eq hi hrows
  have hc := views_eq hi hcols
  have hdr : Describes .row t.grid.cells rows := by rw [hr]; exact Table.base_describes hi .row
  have hdc : Describes .col t.grid.cells cols := by rw [hc]; exact Table.base_describes hi .col
  rw [he, ← hr, ← hc] at h
  obtain ⟨attrs, cattrs, title, colspecs, nodes, rest, B, hB, hB1, hB2, h1, h2, h3, rfl, h4, h5, h6⟩ := fmx_buildTree_raw h
  rcases splitTitle_spec hbb h1 with ⟨rfl, rfl, -⟩ | ⟨_, _, _, _, _, e1, e2⟩
  case inr => exact absurd ⟨e1, e2⟩ htitle
  have howned := owned_eq hi hdr hord
  have hwpos : 1 ≤ cols.length := by
    obtain ⟨c, hc⟩ := List.exists_mem_of_ne_nil _ hne
    have e1 := hdc.enough c hc
    have e2 := lines_valid .col c (hi.grid.valid c hc)
    omega
  have htiles : Tiles cols.length rest.length t.grid.cells :=
    ⟨hi.grid.valid, hi.grid.sorted, hdis, fun c hc => ⟨hdc.enough c hc, hdr.enough c hc⟩, hfull⟩
  have hplan : FmxPlan pc cols.length rest.length rest := by
    refine ⟨by rw [howned]; exact htiles, ?_, rfl, hwpos, ?_⟩
    · intro i hlt c hc
      have := ((hdr.owned _ (List.getElem_mem hlt) c).mp hc).2
      rw [hdr.pos i hlt] at this
      exact this
    · intro r hr c hc
      exact fmx_unselected_of (hplain c ((hdr.owned r hr c).mp hc).1)
  refine ⟨.elem (name "CORPUS") cattrs none (colspecs ++ nodes.flatten) none, rfl, rfl, rfl, h3, h2, ?_⟩
  intro p hp blk s
  generalize hcorp : Node.elem (name "CORPUS") cattrs none (colspecs ++ nodes.flatten) none = corpus at *
  have htag : corpus.tag? = some (pc.f "CORPUS") := by rw [hq.f, ← hcorp]; rfl
  have hch : corpus.children = colspecs ++ nodes.flatten := by rw [← hcorp]; rfl
  obtain ⟨st, hst⟩ := corpusStyles_ok (n := corpus) hq (t := t) (by rw [← hcorp]; exact h3) p
  let k := if bc.useCals then cols.length else 0
  have hk : k ≤ cols.length := by simp only [k]; split <;> omega
  let G : Goal := ⟨cols.length, rest.length, k, FmxRowRead bc pc B blk rest, FmxColRead bc pc B cols, copyStyles (some st), FmxP.corpusNature pc p corpus⟩
  have run1 : Runs (fun s => s = PState.init) (AtCols G 0) (FmxP.parseCorpus pc p corpus) := by
    rintro s rfl
    have hnew : Table.new ([] : List (Cell Content)) (some st) (FmxP.corpusNature pc p corpus) =
        .ok ⟨copyStyles (some st), FmxP.corpusNature pc p corpus, Grid.empty, none, none⟩ := rfl
    refine ⟨{ PState.init with table := some ⟨copyStyles (some st), FmxP.corpusNature pc p corpus, Grid.empty, none, none⟩ }, ?_,
      ⟨_, rfl, rfl, ⟨Grid.empty_inv, fun ax vs hv => by cases ax <;> cases hv⟩, rfl, rfl, rfl, by omega, ⟨rfl, rfl⟩, by omega⟩⟩
    unfold FmxP.parseCorpus
    simp only [bind_run, lift_run, hst, hnew]
    rfl
  have run2 : Runs (AtCols G 0) (AtGap G (FmxCopied bc pc B rest) (rest.flatMap (·.owned)) rest.length)
      (FmxP.loop pc 1 blk (walkList (FmxP.selected pc) (some corpus) corpus.children)) := by
    rw [hch]
    refine FmxP.runs_loop_append (Q := AtCols G k) ?_ ?_
    · cases hu : bc.useCals with
      | false =>
        rw [h4 hu]
        have : k = 0 := by simp [k, hu]
        rw [this]; exact runs_pure
      | true =>
        have h5' := h5 hu
        have := runs_fmxColspecs (b := blk) (G := G) (hcals hu) (some corpus) colspecs 0 (by
          intro j hj
          have hl := h5'.length
          have hb := h5'.getElem j (by omega) hj
          have := buildColspec_ok (cfg := bc.cals) (by rw [← fmx_colspec_eq]; exact hb)
          rw [hdc.pos j (by omega)] at this
          rw [Nat.zero_add]
          exact ⟨this, _, _, List.getElem?_eq_getElem (by omega), hb, rfl⟩)
        have e : k = cols.length := by simp [k, hu]
        rw [← h5'.length, Nat.zero_add, ← e] at this
        exact this
    · have := runs_fmxRows (B := B) (G := G) (b := blk) hq rfl hplan (some corpus) h6 (pre := []) rfl
      intro s hs
      exact this s (cols_gap (G := G) hk hs)
  obtain ⟨s1, r1, q1⟩ := run1 _ rfl
  obtain ⟨s2, r2, q2⟩ := run2 _ q1
  obtain ⟨a2, b2, row2, tb2⟩ := s2
  obtain ⟨t', e1, e2, href⟩ := q2
  simp only at e1 e2
  subst e1 e2
  rw [howned] at href
  have hb : ∀ c d, FmxCopied bc pc B rest c d → d.box = c.box := fun _ _ h => h.1
  have hfill : CalsP.fillHoles t' = (.ok (), t') := by
    refine fillHoles_full (w := cols.length) (h := rest.length) href.inv ?_ ?_ ?_
    · intro hnil
      have := href.cells.length
      rw [hnil] at this
      exact hne (List.eq_nil_of_length_eq_zero this)
    · intro d hd
      obtain ⟨c, hc, hr⟩ := href.cells.mem_right hd
      have := htiles.inside c hc
      simp only [Cell.max, hr.1] at this ⊢; exact this
    · intro p hp
      exact href.endRow hb (rest := []) (by simpa using htiles) (Nat.le_refl _) (by simp) p hp
  have hcl : (t'.baseViews .col).length = cols.length := by
    have l1 := href.cols
    obtain ⟨c, hc, hp⟩ := hfull ⟨cols.length, 1⟩ (by simp only; omega) (by simp only; omega) (by simp only; omega) (by
      obtain ⟨c, hc⟩ := List.exists_mem_of_ne_nil _ hne
      have e1 := hdr.enough c hc
      have e2 := lines_valid .row c (hi.grid.valid c hc)
      simp only; omega)
    obtain ⟨d, hd, hr⟩ := href.cells.mem_left hc
    have l2 := (Table.base_describes href.inv .col).enough d hd
    have : d.box = c.box := hr.1
    simp only [InBox, lastLine, Cell.max] at hp l2
    have l1' : (t'.baseViews .col).length ≤ cols.length := l1
    rw [this] at l2
    omega
  have hrl : (t'.baseViews .row).length = rest.length := by
    have l1 := href.enough
    have l2 : (t'.baseViews .row).length ≤ rest.length := href.notMore
    omega
  refine ⟨t', t'.baseViews .row, t'.baseViews .col, B, st, ?_, href.cells, ?_, ?_, hrl, hcl, ?_, ?_, ?_, hB1, hB2, hst, href.same.1, href.same.2⟩
  · unfold eval
    rw [FmxP.parseTable_run blk p htag]
    unfold FmxP.endCorpus
    rw [hp]
    have : forEach (fun n => do PState.nextRow; FmxP.parseNotes pc n) [] = (pure () : PyM PState Unit) := rfl
    simp only [this, bind_run, r1, r2, onTable_mk, hfill, get_run, pure_run]
  · unfold eval; rw [Table.views_run .row t' href.inv.grid]
  · unfold eval; rw [Table.views_run .col t' href.inv.grid]
  · intro i v hv
    have hlt := (List.getElem?_eq_some_iff.mp hv).1
    obtain ⟨v', hv', hok⟩ := href.rowLooks i (by omega)
    rw [hv] at hv'; cases hv'
    exact hok
  · intro hu i v hv
    have hlt := (List.getElem?_eq_some_iff.mp hv).1
    obtain ⟨vs, v', hvs, hv', hok⟩ := href.colLooks i (by
      show i < k
      have : k = cols.length := by simp [k, hu]
      omega)
    have e1 : t'.baseViews .col = vs := by
      show (t'.cols).getD _ = _
      rw [hvs]; rfl
    rw [e1, hv'] at hv; cases hv
    exact hok
  · rw [hB]; exact hbb


/-- nature of a cell after a round trip: `header` and `body` are kept, any other one is that of the row -/
def fmxCellKind (nature rowNature : Option String) : String :=
  if nature = some "header" then "header" else if nature = some "body" then "body" else fmxKind rowNature

theorem fmxCellKind_eq (n rn : Option String) : FmxP.cellNature (typeOfCell n rn) (some (fmxKind rn)) = some (fmxCellKind n rn) := by
  unfold typeOfCell fmxCellKind
  by_cases h : n = rn
  · subst h
    rw [if_pos rfl]
    by_cases h1 : n = some "header"
    · subst h1; rfl
    · by_cases h2 : n = some "body"
      · subst h2; rfl
      · rw [if_neg h1, if_neg h2]; rfl
  · rw [if_neg h]
    cases n with
    | none => rfl
    | some x =>
      by_cases h1 : x = "header"
      · subst h1; rfl
      · by_cases h2 : x = "body"
        · subst h2; rfl
        · by_cases h3 : x = "footer"
          · subst h3; rfl
          · simp [typeOfNature, h1, h2, h3, FmxP.cellNature]

mutual
theorem toks_tag : ∀ (n : Node) (q : QName), n.tag? = some q → ∃ a, Tok.opening q a ∈ toks n
  | .elem t a x cs tl, q, h => by
    simp only [Node.tag?, Option.some.injEq] at h
    subst h
    exact ⟨a, by simp [toks]⟩
  | .pi .., _, h => by cases h
  | .comment .., _, h => by cases h
theorem toksList_tag : ∀ (ns : List Node) (n : Node), n ∈ ns → ∀ q, n.tag? = some q → ∃ a, Tok.opening q a ∈ toksList ns
  | m :: ns, n, hn, q, h => by
    rcases List.mem_cons.mp hn with rfl | hn
    · obtain ⟨a, ha⟩ := toks_tag n q h
      exact ⟨a, by simp [toksList, ha]⟩
    · obtain ⟨a, ha⟩ := toksList_tag ns n hn q h
      exact ⟨a, by simp [toksList, ha]⟩
end

/-- the content read from the element of a cell -/
theorem nodeContent_spec {pc : FmxP.Config} (hns : pc.ns = none) {cals : Bool} {ns rn : Option String} {c : Cell Content} {e : Node}
    (he : CellFor cals ns rn c e) :
    (WrittenEmpty c → FmxP.nodeContent pc e = .text "") ∧
    (¬ WrittenEmpty c → (∀ a, Tok.opening (name "IE") a ∉ contentToks c.content) →
      contentToks (some (FmxP.nodeContent pc e)) = contentToks c.content ∧ Content.text? (some (FmxP.nodeContent pc e)) = Content.text? c.content) := by
  have hf : pc.f "IE" = name "IE" := by unfold FmxP.Config.f name; rw [hns]
  constructor
  · intro hw
    obtain ⟨ie, h1, h2⟩ := (he.empty hw).2
    unfold FmxP.nodeContent
    rw [if_pos]
    unfold FmxP.containsIe
    rw [h1, h2, hf]
    simp [Node.tag?]
  · intro hw hie
    have hno : FmxP.containsIe pc e = false := by
      rw [Bool.eq_false_iff]
      intro h
      unfold FmxP.containsIe at h
      rw [List.any_eq_true] at h
      obtain ⟨n, hn, h⟩ := h
      rw [hf, decide_eq_true_eq] at h
      obtain ⟨a, ha⟩ := toksList_tag _ n hn _ h
      apply hie a
      rw [← he.content hw]
      unfold insideToks
      simp [ha]
    unfold FmxP.nodeContent
    rw [if_neg (by rw [hno]; decide)]
    refine ⟨by rw [entryContent_toks, he.content hw], ?_⟩
    apply String.toList_inj.mp
    rw [entryContent_text, he.text]
    unfold writtenText
    rw [if_neg (fun h => hw (.inr (.inr h)))]

/-- **C52**: for every table without holes nor overlaps, whose rows list their cells from left to right, whose cells contain no element of a Formex table,
whose first row is not taken for a title, and which the builder accepts: the builder writes one `TBL` with one `CORPUS`, and parsing this corpus gives a
table with the same cells, in the same order: same positions and same spans. A cell written as empty is read as an empty text; the other ones get the same
stream of tags and characters, and the same text, unless an `IE` is found in them. Header rows are read as header rows, the other ones as body rows; the
natures `header` and `body` of cells are kept. The parser may have been used before, and the corpus may be anywhere in a document, after no `GR.NOTES`. -/
theorem C52_round_trip (bc : Fmx.Config) (noSeq : Nat) (pc : FmxP.Config) (hns : pc.ns = none) (hcals : bc.useCals = true → pc.calsNs = bc.calsNs)
    (t : Table Content) (ht : t.Reachable) (rows cols : List (View Content)) (hrows : eval (Table.views .row) t = .ok rows)
    (hcols : eval (Table.views .col) t = .ok cols)
    (hne : t.cells ≠ []) (hdis : DisjointCells t.cells)
    (hfull : ∀ p : Coord, 1 ≤ p.x → p.x ≤ cols.length → 1 ≤ p.y → p.y ≤ rows.length → Covered t.cells p)
    (hord : ∀ r ∈ rows, r.owned.Pairwise (fun a b => a.min.x < b.min.x))
    (htitle : ¬ (bc.detectTitles = true ∧ HasTitle t))
    (hplain : ∀ c ∈ t.cells, NoFormexElement pc.ns pc.calsNs c.content)
    (tree : Node) (h : eval (Fmx.generate bc noSeq) t = .ok tree) :
    ∃ corpus, tree.tag? = some (name "TBL") ∧ tree.children = [corpus] ∧ corpus.tag? = some (name "CORPUS") ∧
    ∀ (parent : Option Node) (_ : ∀ p, parent = some p → ∀ n ∈ p.children, n.tag? ≠ some (name "GR.NOTES")) (blk : Nat) (s : PState),
    ∃ t' rows' cols', eval (FmxP.parseTable pc blk parent corpus) s = .ok (some t') ∧
      All₂ (fun c d => d.box = c.box ∧ (WrittenEmpty c → d.content = some (.text "")) ∧
        (¬ WrittenEmpty c → (∀ a, Tok.opening (name "IE") a ∉ contentToks c.content) →
          contentToks d.content = contentToks c.content ∧ Content.text? d.content = Content.text? c.content) ∧
        (bc.useCals = false ∨ Dict.get? c.styles "cellstyle" = none →
          ∃ r ∈ rows, r.pos = c.min.y ∧ d.nature = some (fmxCellKind c.nature r.nature))) t.cells t'.cells ∧
      eval (Table.views .row) t' = .ok rows' ∧ rows'.map (·.nature) = rows.map (fun r => some (fmxKind r.nature)) ∧
      eval (Table.views .col) t' = .ok cols' ∧ cols'.length = cols.length := by
  obtain ⟨corpus, h1, h2, h3, -, -, hall⟩ := fmx_round_trip bc noSeq pc hns hcals t ht rows cols hrows hcols hne hdis hfull hord htitle hplain tree h
  refine ⟨corpus, h1, h2, h3, ?_⟩
  intro parent hparent blk s
  have hnotes : FmxP.notesOf pc parent = [] := by
    cases parent with
    | none => rfl
    | some p =>
      unfold FmxP.notesOf
      rw [List.filter_eq_nil_iff]
      intro n hn
      have hf : pc.f "GR.NOTES" = name "GR.NOTES" := by unfold FmxP.Config.f name; rw [hns]
      rw [hf, decide_eq_true_eq]
      exact hparent p rfl n ((List.takeWhile_sublist _).subset hn)
  obtain ⟨t', rows', cols', B, st, e1, e2, e3, e4, e5, e6, e7, -⟩ := hall parent hnotes blk s
  have hi := ht.inv
  have hr := views_eq hi hrows
  have hdr : Describes .row t.grid.cells rows := by rw [hr]; exact Table.base_describes hi .row
  refine ⟨t', rows', cols', e1, ?_, e3, ?_, e4, e6⟩
  · refine e2.imp_mem ?_
    intro c hc d hd
    obtain ⟨hbox, r, row, e, hr1, hr2, hr3, hr4, hr5, hr6⟩ := hd
    have he := buildCell_spec (hi.grid.valid c hc) hr3
    have hco := nodeContent_spec hns he
    have f1 := lines_valid .row c (hi.grid.valid c hc)
    have f2 := hdr.enough c hc
    simp only [firstLine, lastLine] at f1 f2
    have hlt : c.min.y.toNat - 1 < rows.length := by omega
    refine ⟨hbox, fun hw => by rw [hr4, hco.1 hw], fun hw hie => by rw [hr4]; exact hco.2 hw hie, ?_⟩
    intro hst
    have hget := List.getElem?_eq_some_iff.mp hr1
    obtain ⟨_, rfl⟩ := hget
    refine ⟨_, List.getElem_mem hlt, by rw [hdr.pos _ hlt]; omega, ?_⟩
    have hf : pc.f "TYPE" = name "TYPE" := by unfold FmxP.Config.f name; rw [hns]
    rw [hr6, hf, he.type hst, fmxCellKind_eq]
  · apply List.ext_getElem?
    intro i
    rw [List.getElem?_map, List.getElem?_map]
    by_cases hlt : i < rows.length
    · have hlt' : i < rows'.length := by omega
      have := (e7 i _ (List.getElem?_eq_getElem hlt')).1
      rw [List.getElem?_eq_getElem hlt', List.getElem?_eq_getElem hlt]
      simp only [Option.map_some, this]
      unfold fmxKinds; rw [List.getElem?_eq_getElem hlt]; rfl
    · rw [List.getElem?_eq_none (by omega), List.getElem?_eq_none (by omega)]; rfl

theorem roundDemo_disjoint : DisjointCells roundDemo.cells := by
  have : (roundDemo.grid.cells.map (·.box)).Pairwise (fun a b => ¬ Overlap a b) := by
    rw [roundDemo_boxes]
    simp only [List.pairwise_cons, List.mem_cons, List.not_mem_nil, or_false]
    simp only [Overlap, InBox]
    refine ⟨?_, ?_, ?_, ?_, ?_, List.Pairwise.nil⟩ <;>
    · rintro a h ⟨p, hp⟩
      rcases h with rfl | rfl | rfl | rfl <;> simp only at hp <;> omega
  rw [List.pairwise_map] at this
  exact this

theorem roundDemo_full (p : Coord) (h1 : 1 ≤ p.x) (h2 : p.x ≤ 3) (h3 : 1 ≤ p.y) (h4 : p.y ≤ 3) : Covered roundDemo.cells p := by
  have : ∃ b ∈ roundDemo.grid.cells.map (·.box), InBox p b := by
    rw [roundDemo_boxes]
    simp only [List.mem_cons, List.not_mem_nil, or_false, exists_eq_or_imp, exists_eq_left, InBox]
    omega
  obtain ⟨b, hb, hp⟩ := this
  obtain ⟨c, hc, rfl⟩ := List.mem_map.mp hb
  exact ⟨c, hc, hp⟩

/-- the hypotheses of `C52_round_trip` hold of a table with spans, a header row, a formatted content and an empty cell, with the CALS attributes and the
detection of titles -/
example : ∃ (bc : Fmx.Config) (pc : FmxP.Config) (rows cols : List (View Content)) (tree : Node),
    bc.useCals = true ∧ bc.detectTitles = true ∧ pc.ns = none ∧ pc.calsNs = bc.calsNs ∧ roundDemo.Reachable ∧
    eval (Table.views .row) roundDemo = .ok rows ∧ eval (Table.views .col) roundDemo = .ok cols ∧ roundDemo.cells ≠ [] ∧
    DisjointCells roundDemo.cells ∧
    (∀ p : Coord, 1 ≤ p.x → p.x ≤ cols.length → 1 ≤ p.y → p.y ≤ rows.length → Covered roundDemo.cells p) ∧
    (∀ r ∈ rows, r.owned.Pairwise (fun a b => a.min.x < b.min.x)) ∧ ¬ (bc.detectTitles = true ∧ HasTitle roundDemo) ∧
    (∀ c ∈ roundDemo.cells, NoFormexElement pc.ns pc.calsNs c.content) ∧ eval (Fmx.generate bc 1) roundDemo = .ok tree := by
  have hv := fun ax => Table.views_run ax roundDemo roundDemo_reachable.inv.grid
  have hok : (eval (Fmx.generate ⟨true, true, none, "mm".toList, id⟩ 1) roundDemo).map (fun _ => ()) = .ok () := by decide +kernel
  obtain ⟨tree, htree⟩ : ∃ tree, eval (Fmx.generate ⟨true, true, none, "mm".toList, id⟩ 1) roundDemo = .ok tree := by
    cases h : eval (Fmx.generate ⟨true, true, none, "mm".toList, id⟩ 1) roundDemo with
    | ok tree => exact ⟨tree, rfl⟩
    | error e => rw [h] at hok; cases hok
  have hl1 : (roundDemo.baseViews .row).length = 3 := by decide +kernel
  have hl2 : (roundDemo.baseViews .col).length = 3 := by decide +kernel
  refine ⟨⟨true, true, none, "mm".toList, id⟩, ⟨none, none, false⟩, roundDemo.baseViews .row, roundDemo.baseViews .col, tree, rfl, rfl, rfl, rfl,
    roundDemo_reachable, by rw [eval, hv], by rw [eval, hv], ?_, roundDemo_disjoint, ?_, by decide +kernel, ?_, ?_, htree⟩
  · intro h
    have := roundDemo_boxes
    rw [show roundDemo.grid.cells = [] from h] at this
    simp at this
  · intro p h1 h2 h3 h4
    exact roundDemo_full p h1 (by omega) h3 (by omega)
  · rintro ⟨_, c, bb, h1, _, _, h2⟩
    have : (roundDemo.getItem (.coord ⟨1, 1⟩)).map (fun c => decide (Dict.get? c.styles "align" = some (.str "center"))) = .ok false := by decide +kernel
    rw [h1] at this
    simp [Except.map, h2] at this
  · have : ∀ c ∈ roundDemo.grid.cells, ∀ tk ∈ contentToks c.content, (match tk with
        | .opening t _ => decide (t.name ∉ ["CORPUS", "ROW", "CELL", "MARGIN", "BLK", "TI.BLK", "STI.BLK"] ∧ t.name ≠ "colspec")
        | _ => true) = true := by decide +kernel
    intro c hc t a ht
    have := this c hc _ ht
    rw [decide_eq_true_eq] at this
    exact ⟨fun _ => this.1, fun _ => this.2⟩

/-- the layout of the table read from the corpus generated from a table -/
def fmxRead (bc : Fmx.Config) (pc : FmxP.Config) (t : Table Content) : Except PyErr (Option (List (Box × String))) := do
  let tree ← eval (Fmx.generate bc 1) t
  match tree.children.getLast? with
  | none => pure none
  | some corpus =>
    let t' ← eval (FmxP.parseTable pc 0 (some tree) corpus) PState.init
    pure (t'.map (fun (t : Table Content) => t.cells.map (fun (c : Cell Content) => (c.box, Content.text? c.content))))

/-- without the hypothesis on titles, the property is false: the first row of a table is dropped from the corpus when its first cell is as wide as the table
and centered, and the table read from the corpus has one row less. -/
theorem C52_title_counterexample : (titled (.text "a")).Reachable ∧
    (titled (.text "a")).cells.map (fun c => (c.box, Content.text? c.content)) =
      [(⟨⟨1, 1⟩, ⟨2, 1⟩⟩, "a"), (⟨⟨1, 2⟩, ⟨1, 2⟩⟩, "b"), (⟨⟨2, 2⟩, ⟨2, 2⟩⟩, "c")] ∧
    fmxRead titleConfig ⟨none, none, false⟩ (titled (.text "a")) = .ok (some [(⟨⟨1, 1⟩, ⟨1, 1⟩⟩, "b"), (⟨⟨2, 1⟩, ⟨2, 1⟩⟩, "c")]) :=
  ⟨titled_reachable _, by decide +kernel, by decide +kernel⟩

/-- without the hypothesis on the order of the cells, the property is false: the cells of a row filled from right to left are exchanged -/
theorem C52_order_counterexample : backwards.Reachable ∧
    backwards.cells.map (fun c => (c.box, Content.text? c.content)) = [(⟨⟨1, 1⟩, ⟨1, 1⟩⟩, "a"), (⟨⟨2, 1⟩, ⟨2, 1⟩⟩, "b")] ∧
    fmxRead ⟨false, false, none, "mm".toList, id⟩ ⟨none, none, false⟩ backwards = .ok (some [(⟨⟨1, 1⟩, ⟨1, 1⟩⟩, "b"), (⟨⟨2, 1⟩, ⟨2, 1⟩⟩, "a")]) :=
  ⟨⟨[], none, none, _, _, by simp, rfl, rfl⟩, by decide +kernel, by decide +kernel⟩

end Benker
