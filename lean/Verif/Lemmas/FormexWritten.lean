import Verif.Lemmas.Conversion
import Verif.Props.FormexRoundTrip
import Verif.Props.FormexDoc

/-! The Formex builder writes documents which are drawn: the rows of the table, in the same order. -/

namespace Benker
open PyM Cals CalsSpec FmxSpec

/-- a cell which is written for a cell of a table -/
structure FmxCellOf (bc : Fmx.Config) (rn : Option String) (c : Cell Content) (e : DocCell) : Prop where
  cell : CellFor bc.useCals bc.calsNs rn c e.node
  box : e.box = c.box

/-- a line which is written for a row of a table -/
structure FmxLineOf (bc : Fmx.Config) (r : View Content) (l : DocLine) : Prop where
  sort : l.sort = .row
  level : l.level = 0
  before : l.before = []
  after : l.after = []
  tag : l.node.tag? = some (name "ROW")
  type : l.node.attr (name "TYPE") = typeOfRow r.nature
  children : l.node.children = l.cells.map (·.node)
  cells : All₂ (FmxCellOf bc r.nature) r.owned l.cells

theorem among_refl (ns cals : Option String) : ∀ l : List Node, Among ns cals l l
  | [] => .nil
  | n :: l => .take n l l (among_refl ns cals l)

theorem noFmx_pi (ns cals : Option String) (a b : String) : NoFmx ns cals [.pi a b none] := by
  intro t x h
  simp [toksList, toks, textToks] at h

theorem fmx_row_written {bc : Fmx.Config} (ns cals : Option String) {r : View Content} {nodes : List Node}
    (h : FmxSpec.RowFor bc.useCals bc.calsNs r nodes) :
    ∃ l : DocLine, (∀ ls all, Lines ns cals 0 ls all → Lines ns cals 0 (l :: ls) (nodes ++ all)) ∧ FmxLineOf bc r l := by
  obtain ⟨row, hn, h1, _, _, h2, h3⟩ := h
  obtain ⟨es, h4, h5⟩ := all₂_of_map (S := FmxCellOf bc r.nature) (f := fun e : DocCell => e.node) h3
    (fun c _ e he => ⟨⟨e, c.box⟩, rfl, he, rfl⟩)
  refine ⟨⟨.row, row, 0, [], es, []⟩, ?_, rfl, rfl, rfl, rfl, h1, h2, h4.symm, h5⟩
  intro ls all hl
  rcases hn with ⟨rfl, _⟩ | ⟨d1, d2, rfl, _⟩
  · exact .line 0 _ _ _ rfl hl
  · exact .skip _ _ _ _ (noFmx_pi _ _ _ _) (.line 0 _ _ _ rfl (.skip _ _ _ _ (noFmx_pi _ _ _ _) hl))

theorem fmx_rows_written {bc : Fmx.Config} (ns cals : Option String) {rows : List (View Content)} {nodes : List (List Node)}
    (h : All₂ (FmxSpec.RowFor bc.useCals bc.calsNs) rows nodes) :
    ∃ ls : List DocLine, Lines ns cals 0 ls nodes.flatten ∧ All₂ (FmxLineOf bc) rows ls := by
  induction h with
  | nil => exact ⟨[], .nil 0, .nil⟩
  | cons hr _ ih =>
    obtain ⟨l, h1, h2⟩ := fmx_row_written ns cals hr
    obtain ⟨ls, h3, h4⟩ := ih
    exact ⟨l :: ls, h1 _ _ h3, .cons h2 h4⟩

theorem fmx_cell_spans {bc : Fmx.Config} {cals : Option String} (hcals : bc.useCals = true → cals = bc.calsNs) {rn : Option String} {c : Cell Content} {e : Node}
    (hv : c.box.Valid) (h : CellFor bc.useCals bc.calsNs rn c e) :
    CellColumns (e.attr ⟨none, "COLSPAN"⟩) (e.attr ⟨cals, "namest"⟩) (e.attr ⟨cals, "nameend"⟩) (c.box.max.x - c.box.min.x + 1) ∧
    CellRows (e.attr ⟨none, "ROWSPAN"⟩) (e.attr ⟨cals, "morerows"⟩) (c.box.max.y - c.box.min.y + 1) := by
  unfold Box.Valid at hv
  have hno : bc.useCals = false → ∀ s, s ∉ ["COL", "COLSPAN", "ROWSPAN", "TYPE"] → e.attr ⟨cals, s⟩ = none := by
    intro hu s hs
    refine Classical.byContradiction fun hk => hs ?_
    obtain ⟨s', h1, h2⟩ := List.mem_map.mp (h.plain hu _ hk)
    have : s' = s := congrArg QName.name h2
    rw [← this]; exact h1
  refine ⟨?_, ?_⟩
  · by_cases hc : c.min.x = c.max.x
    · obtain ⟨h1, h2, h3⟩ := h.oneColumn hc
      refine ⟨1, .inl ⟨h1, rfl⟩, .inr ⟨.inl ?_, ?_⟩⟩
      · cases hu : bc.useCals with
        | false => exact hno hu _ (by decide)
        | true => rw [hcals hu]; exact h2
      · simp only [Cell.min, Cell.max] at hc; omega
    · obtain ⟨h1, h2⟩ := h.columns hc
      obtain ⟨k, hk⟩ := Int.eq_ofNat_of_zero_le (show 0 ≤ c.max.x - c.min.x + 1 by simp only [Cell.min, Cell.max]; omega)
      rw [hk] at h1
      refine ⟨k, .inr ⟨_, h1, isNumber_intStr⟩, ?_⟩
      cases hu : bc.useCals with
      | false => exact .inr ⟨.inl (hno hu _ (by decide)), by simp only [Cell.min, Cell.max] at hk; omega⟩
      | true =>
        obtain ⟨h3, h4⟩ := h2 hu
        obtain ⟨a, ha⟩ := Int.eq_ofNat_of_zero_le (show 0 ≤ c.min.x by simp only [Cell.min]; omega)
        obtain ⟨b, hb⟩ := Int.eq_ofNat_of_zero_le (show 0 ≤ c.max.x by simp only [Cell.max]; omega)
        rw [ha] at h3
        rw [hb] at h4
        rw [hcals hu]
        refine .inl ⟨_, _, a, b, h3, h4, firstNumber_col, firstNumber_col, ?_⟩
        simp only [Cell.min, Cell.max] at ha hb
        rw [ha, hb]
  · by_cases hc : c.min.y = c.max.y
    · obtain ⟨h1, h2⟩ := h.oneRow hc
      refine ⟨1, .inl ⟨h1, rfl⟩, .inr ⟨?_, ?_⟩⟩
      · cases hu : bc.useCals with
        | false => exact hno hu _ (by decide)
        | true => rw [hcals hu]; exact h2
      · simp only [Cell.min, Cell.max] at hc; omega
    · obtain ⟨h1, h2⟩ := h.rows hc
      obtain ⟨k, hk⟩ := Int.eq_ofNat_of_zero_le (show 0 ≤ c.max.y - c.min.y + 1 by simp only [Cell.min, Cell.max]; omega)
      rw [hk] at h1
      refine ⟨k, .inr ⟨_, h1, isNumber_intStr⟩, ?_⟩
      cases hu : bc.useCals with
      | false => exact .inr ⟨hno hu _ (by decide), by simp only [Cell.min, Cell.max] at hk; omega⟩
      | true =>
        obtain ⟨a, ha⟩ := Int.eq_ofNat_of_zero_le (show 0 ≤ c.max.y - c.min.y by simp only [Cell.min, Cell.max]; omega)
        have h3 := h2 hu
        rw [ha] at h3
        rw [hcals hu]
        refine .inl ⟨_, a, h3, isNumber_intStr, ?_⟩
        simp only [Cell.min, Cell.max] at ha
        omega

/-- what is inside a cell which is written -/
theorem fmx_cell_inside {bc : Fmx.Config} {cals rn : Option String} {c : Cell Content} {e : Node} (h : CellFor bc.useCals bc.calsNs rn c e)
    (hc : NoFormexElement none cals c.content) : NoFmx none cals e.children := by
  intro t a ht
  by_cases hw : WrittenEmpty c
  · obtain ⟨_, ie, h1, h2⟩ := h.empty hw
    rw [h1, h2] at ht
    have : t = name "IE" := by
      simp only [toksList, toks, textToks, List.mem_append, List.mem_cons, List.not_mem_nil, or_false, false_or] at ht
      rcases ht with ht | ht
      · exact (Tok.opening.inj ht).1
      · cases ht
    rw [this]
    exact ⟨fun _ => by simp [name], fun _ => by simp [name]⟩
  · exact hc t a (by rw [← h.content hw]; exact List.mem_append_right _ ht)

/-- **what the Formex builder writes is drawn**: the rows of a table without holes nor overlaps, in the same order; each of the cells keeps its rectangle -/
theorem fmx_written {bc : Fmx.Config} {noSeq : Nat} {cals : Option String} (hcals : bc.useCals = true → cals = bc.calsNs)
    {t : Table Content} (ht : t.Reachable) {rows cols : List (View Content)} (hrows : eval (Table.views .row) t = .ok rows)
    (hcols : eval (Table.views .col) t = .ok cols)
    (hne : t.cells ≠ []) (hdis : DisjointCells t.cells)
    (hfull : ∀ p : Coord, 1 ≤ p.x → p.x ≤ cols.length → 1 ≤ p.y → p.y ≤ rows.length → Covered t.cells p)
    (hord : ∀ r ∈ rows, r.owned.Pairwise (fun a b => a.min.x < b.min.x))
    (htitle : ¬ (bc.detectTitles = true ∧ HasTitle t))
    (hplain : ∀ c ∈ t.cells, NoFormexElement none cals c.content)
    {tree : Node} (h : eval (Fmx.generate bc noSeq) t = .ok tree) :
    ∃ d : FmxDoc, tree.tag? = some (name "TBL") ∧ tree.children = [d.corpus] ∧ d.notes = [] ∧ d.Nested none cals 0 (some tree) ∧
      d.Drawn none cals cols.length rows.length ∧ d.WidthKnown cols.length ∧ d.Columns cals cols.length ∧ All₂ (FmxLineOf bc) rows d.lines := by
  have hi := ht.inv
  have hdr : Describes .row t.grid.cells rows := by rw [views_eq hi hrows]; exact Table.base_describes hi .row
  have hdc : Describes .col t.grid.cells cols := by rw [views_eq hi hcols]; exact Table.base_describes hi .col
  obtain ⟨⟨attrs, cattrs, title, colspecs, nodes, rest, rfl, _, _, _, h1, h2, h3, h4⟩, -, -⟩ := C71_formex_tree bc noSeq t ht tree h rows cols hrows hcols
  rcases h3 with ⟨rfl, rfl, -⟩ | ⟨_, _, _, _, _, e1, e2⟩
  case inr => exact absurd ⟨e1, e2⟩ htitle
  obtain ⟨ls, h5, h6⟩ := fmx_rows_written none cals h4
  have howned := owned_eq hi hdr hord
  have hvalid : ∀ c ∈ t.grid.cells, c.box.Valid := hi.grid.valid
  have hpos1 : 1 ≤ cols.length ∧ 1 ≤ rest.length := by
    obtain ⟨c, hc⟩ := List.exists_mem_of_ne_nil _ hne
    have e1 := hdc.enough c hc
    have e2 := lines_valid .col c (hvalid c hc)
    have e3 := hdr.enough c hc
    have e4 := lines_valid .row c (hvalid c hc)
    omega
  -- the columns
  obtain ⟨cs, hcs1, hcs2⟩ : ∃ cs : List DocCol, cs.map (·.node) = colspecs ∧ ∀ (i : Nat) (c : DocCol), cs[i]? = some c → c.num = i + 1 := by
    refine ⟨colspecs.zipIdx.map (fun x => ⟨x.1, x.2 + 1⟩), ?_, ?_⟩
    · rw [List.map_map]
      exact List.zipIdx_map_fst 0 colspecs
    · intro i c hc
      rw [List.getElem?_map, List.getElem?_zipIdx] at hc
      cases hcc : colspecs[i]? with
      | none => rw [hcc] at hc; cases hc
      | some n => rw [hcc] at hc; simp at hc; rw [← hc]
  have hcolspec : ∀ (i : Nat) (c : DocCol), cs[i]? = some c → i < cols.length ∧ cals = bc.calsNs ∧ ColspecFor bc.cals ((i : Int) + 1) c.node := by
    intro i c hc
    obtain ⟨hlt, e⟩ := List.getElem?_eq_some_iff.mp hc
    have hl' : cs.length = colspecs.length := by rw [← hcs1, List.length_map]
    cases hu : bc.useCals with
    | false =>
      rw [(h1 hu).2] at hl'
      exact absurd hlt (by rw [hl']; simp)
    | true =>
      obtain ⟨hl, hs⟩ := h2 hu
      refine ⟨by omega, hcals hu, ?_⟩
      have := hs i (by omega)
      have e' : colspecs[i]'(by omega) = c.node := by
        rw [← e]; simp only [← hcs1, List.getElem_map]
      rw [← e']; exact this
  -- the cells
  have hline : ∀ l ∈ ls, ∃ r ∈ rest, FmxLineOf bc r l := fun l hl => h6.mem_right hl
  have hdrawn : ∀ l ∈ ls, l.drawn = l.cells.map (fun c => (some c.node, c.box)) := by
    intro l hl
    obtain ⟨r, _, hr⟩ := hline l hl
    unfold DocLine.drawn
    rw [hr.before, hr.after]
    simp
  have hcell : ∀ l ∈ ls, ∀ e ∈ l.cells, ∃ r ∈ rest, ∃ c ∈ r.owned, c ∈ t.grid.cells ∧ FmxCellOf bc r.nature c e := by
    intro l hl e he
    obtain ⟨r, hr, hrl⟩ := hline l hl
    obtain ⟨c, hc, hce⟩ := hrl.cells.mem_right he
    exact ⟨r, hr, c, hc, ((hdr.owned r hr c).mp hc).1, hce⟩
  let d : FmxDoc := ⟨.elem (name "CORPUS") cattrs none (colspecs ++ nodes.flatten) none, cs, ls, []⟩
  have hdall : d.all = ls := List.append_nil ls
  have hcells : All₂ (fun (c : Cell Content) (e : DocLine × Option Node × Box) => e.2.2 = c.box ∧ e.1 ∈ ls ∧ ∃ n, e.2.1 = some n ∧ ∃ rn, CellFor bc.useCals bc.calsNs rn c n)
      t.grid.cells d.drawn := by
    unfold FmxDoc.drawn
    rw [← howned, hdall]
    have h6' : All₂ (fun r l => FmxLineOf bc r l ∧ l ∈ ls) rest ls := by
      have : ∀ (xs : List (View Content)) (ys : List DocLine), All₂ (FmxLineOf bc) xs ys → (∀ y ∈ ys, y ∈ ls) → All₂ (fun r l => FmxLineOf bc r l ∧ l ∈ ls) xs ys := by
        intro xs ys hxy
        induction hxy with
        | nil => intro _; exact .nil
        | cons hab _ ih => exact fun hm => .cons ⟨hab, hm _ (by simp)⟩ (ih (fun y hy => hm y (by simp [hy])))
      exact this _ _ h6 (fun _ h => h)
    refine all₂_flatMap h6' ?_
    rintro r l ⟨hl, hm⟩
    rw [hdrawn l hm]
    refine All₂.map_right (All₂.map_right ?_)
    refine All₂.imp_mem hl.cells ?_
    intro c _ e he
    exact ⟨he.box, hm, e.node, rfl, _, he.cell⟩
  have hbox : ∀ e ∈ d.drawn, ∃ c ∈ t.grid.cells, e.2.2 = c.box := by
    intro e he
    obtain ⟨c, hc, h, _⟩ := hcells.mem_right he
    exact ⟨c, hc, h⟩
  refine ⟨d, rfl, rfl, rfl, ?_, ?_, ?_, ?_, h6⟩
  · refine ⟨rfl, ⟨colspecs, nodes.flatten, rfl, ?_, h5⟩, ?_, ⟨.inr ⟨_, [], [], rfl, rfl, by simp, rfl⟩, by intro l hl; cases hl⟩, ?_, ?_, ?_, ?_⟩
    · show Among none cals (cs.map (·.node)) colspecs
      rw [hcs1]; exact among_refl _ _ _
    · intro c hc
      obtain ⟨i, hlt, e⟩ := List.mem_iff_getElem.mp hc
      obtain ⟨_, hq, hs⟩ := hcolspec i c (List.getElem?_eq_some_iff.mpr ⟨hlt, e⟩)
      refine ⟨by rw [hs.tag, hq]; rfl, ?_⟩
      intro tk a hm
      have := hs.empty.1
      unfold insideToks at this
      rw [(List.append_eq_nil_iff.mp this).2] at hm
      cases hm
    · intro l hl
      obtain ⟨r, _, hr⟩ := hline l hl
      rw [hr.sort]
      exact ⟨by simp, hr.tag⟩
    · intro l hl _
      obtain ⟨r, _, hr⟩ := hline l hl
      refine ⟨by rw [hr.children]; exact among_refl _ _ _, ?_⟩
      intro e he
      obtain ⟨r', _, c, _, hc, hce⟩ := hcell l hl e he
      exact ⟨hce.cell.tag, fmx_cell_inside hce.cell (hplain c hc)⟩
    · intro l hl hs
      obtain ⟨r, _, hr⟩ := hline l hl
      exact absurd hr.sort hs
    · intro l hl hs
      rw [hdall] at hl
      obtain ⟨r, _, hr⟩ := hline l hl
      exact absurd hr.sort hs
  · refine ⟨by rw [hdall]; exact h6.length.symm, ⟨hpos1.1, ?_⟩, ?_, ?_, ?_, ?_, ?_, ?_, ?_, ?_, ?_⟩
    · intro e
      have := h6.length
      rw [show ls = d.lines from rfl, e] at this
      simp only [List.length_nil] at this
      omega
    · intro i l hl e he
      rw [hdall] at hl
      obtain ⟨r, hr, hrl⟩ := all₂_from h6 hl
      rw [hdrawn l (List.mem_of_getElem? hl)] at he
      obtain ⟨x, hx, rfl⟩ := List.mem_map.mp he
      obtain ⟨c, hc, hce⟩ := hrl.cells.mem_right hx
      obtain ⟨hlt, rfl⟩ := List.getElem?_eq_some_iff.mp hr
      have e1 : c.box.min.y = rest[i].pos := ((hdr.owned _ (List.getElem_mem hlt) c).mp hc).2
      have e2 := hdr.pos i hlt
      show x.box.min.y = _
      rw [hce.box]
      omega
    · intro l hl
      rw [hdall] at hl
      obtain ⟨r, hr, hrl⟩ := hline l hl
      rw [hdrawn l hl, List.pairwise_map]
      refine all₂_pairwise hrl.cells (hord r hr) ?_
      intro a _ a' _ b b' hab hab' hlt
      show b.box.min.x < b'.box.min.x
      rw [hab.box, hab'.box]
      exact hlt
    · intro l hl _
      rw [hdall] at hl
      obtain ⟨r, hr, hrl⟩ := hline l hl
      refine ⟨hrl.before, ?_⟩
      intro e he
      obtain ⟨_, _, c, _, hc, hce⟩ := hcell l hl e he
      rw [hce.box]
      exact fmx_cell_spans hcals (hvalid c hc) hce.cell
    · intro l hl hs
      obtain ⟨r, _, hr⟩ := hline l hl
      exact absurd hr.sort hs
    · intro l hl
      cases hl
    · intro l hl b hb
      rw [hdall] at hl
      obtain ⟨r, _, hr⟩ := hline l hl
      rw [hr.before, hr.after] at hb
      cases hb
    · intro e he
      obtain ⟨c, hc, hb⟩ := hbox e he
      rw [hb]
      have := hvalid c hc
      have e1 := hdc.enough c hc
      have e2 := hdr.enough c hc
      unfold Box.Valid at this
      simp only [lastLine, Cell.max] at e1 e2
      omega
    · refine all₂_pairwise hcells hdis ?_
      intro a _ a' _ b b' hab hab' hn
      rw [hab.1, hab'.1]; exact hn
    · intro p p1 p2 p3 p4
      obtain ⟨c, hc, hin⟩ := hfull p p1 p2 p3 p4
      obtain ⟨e, he, hb, _⟩ := hcells.mem_left hc
      exact ⟨e, he, by rw [hb]; exact hin⟩
  · intro i l hl ha
    rw [hdall] at hl
    obtain ⟨r, _, hr⟩ := hline l (List.mem_of_getElem? hl)
    exact absurd hr.after ha
  · refine ⟨?_, ?_, ?_⟩
    · intro i c hc
      obtain ⟨_, hq, hs⟩ := hcolspec i c hc
      refine .inr ⟨_, ?_, isNumber_intStr⟩
      rw [hcs2 i c hc, hq]
      exact hs.colnum
    · intro c hc
      obtain ⟨i, hlt, e⟩ := List.mem_iff_getElem.mp hc
      have e' := List.getElem?_eq_some_iff.mpr ⟨hlt, e⟩
      have := hcs2 i c e'
      have := (hcolspec i c e').1
      omega
    · rw [List.pairwise_iff_getElem]
      intro i j hi' hj hij
      rw [hcs2 i _ (List.getElem?_eq_getElem hi'), hcs2 j _ (List.getElem?_eq_getElem hj)]
      omega

open Benker.Shown

/-- a table whose first row has no cell as wide as the table has no title -/
theorem no_title {t : Table Content} (hi : t.Inv) {rows cols : List (View Content)} (hrows : eval (Table.views .row) t = .ok rows)
    (hcols : eval (Table.views .col) t = .ok cols) {p : Picture} (hp : TableShows p rows)
    (hfull : ∀ p : Coord, 1 ≤ p.x → p.x ≤ cols.length → 1 ≤ p.y → p.y ≤ rows.length → Covered t.cells p) (hn : NoTitle cols.length p) : ¬ HasTitle t := by
  rintro ⟨c, bb, h1, h2, h3, -⟩
  have hdr : Describes .row t.grid.cells rows := by rw [views_eq hi hrows]; exact Table.base_describes hi .row
  have hdc : Describes .col t.grid.cells cols := by rw [views_eq hi hcols]; exact Table.base_describes hi .col
  have hc : c ∈ t.grid.cells ∧ InBox ⟨1, 1⟩ c.box := getCoord_ok h1
  have hv := hi.grid.valid c hc.1
  rcases boundingBox_inv t.grid hi.grid with ⟨e, _⟩ | ⟨b, _, e2, hval, hin, hleast⟩
  · rw [e] at hc; cases hc.1
  rw [show t.boundingBox = t.grid.boundingBox from rfl, e2] at h2
  cases h2
  have hmin : c.box.min.x = 1 ∧ c.box.min.y = 1 := by
    have := hc.2
    unfold Box.Valid at hv
    simp only [InBox] at this
    omega
  have hb1 : bb.min.x = 1 := by
    have := hin c hc.1 ⟨1, 1⟩ hc.2
    unfold Box.Valid at hval
    simp only [InBox] at this
    omega
  have e3 := hdr.enough c hc.1
  have e4 := lines_valid .row c hv
  have hmax : c.box.max.x = cols.length := by
    have e1 : c.box.max.x = bb.max.x := by simp only [Cell.min, Cell.max] at h3; omega
    have e3 := hdc.enough c hc.1
    simp only [lastLine, Cell.max] at e3
    have e5 := lines_valid .col c hv
    simp only [lastLine, Cell.max] at e5
    obtain ⟨d, hd, hin'⟩ := hfull ⟨cols.length, 1⟩ (by simp only; omega) (by simp) (by simp) (by simp only; omega)
    have := hin d hd _ hin'
    simp only [InBox] at this
    omega
  have hlt : 0 < rows.length := by omega
  have hpos := hdr.pos 0 hlt
  have hown : c ∈ (rows[0]).owned := (hdr.owned _ (List.getElem_mem hlt) c).mpr ⟨hc.1, by
    show c.min.y = _
    simp only [Cell.min]
    omega⟩
  obtain ⟨l, hl, _, hall⟩ := all₂_from hp (List.getElem?_eq_getElem hlt)
  obtain ⟨x, hx, hxb, _⟩ := hall.mem_right hown
  refine hn l (by rw [List.head?_eq_getElem?]; exact hl) x hx ⟨?_, ?_⟩
  · rw [← hxb]; exact hmin.1
  · rw [← hxb]; exact hmax


theorem row_type {kind : String} (h : kind ∈ ["header", "body", "footer"]) : (kind, typeOfRow (some kind)) ∈ formexTypes := by
  simp only [List.mem_cons, List.not_mem_nil, or_false] at h
  rcases h with rfl | rfl | rfl <;> decide

/-- what is shown by a cell which is written -/
theorem fmx_cell_shown {bc : Fmx.Config} {rn : Option String} {c : Cell Content} {e : Node} (h : CellFor bc.useCals bc.calsNs rn c e)
    (hno : ∀ a, Tok.opening (name "IE") a ∉ contentToks c.content) :
    (WrittenEmpty c → shownToks none e = []) ∧ (¬ WrittenEmpty c → shownToks none e = contentToks c.content) := by
  refine ⟨?_, ?_⟩
  · intro hw
    obtain ⟨_, ie, h1, h2⟩ := h.empty hw
    unfold shownToks
    rw [if_pos ⟨ie, by rw [h1]; simp, by rw [h2]; rfl⟩]
  · intro hw
    unfold shownToks
    rw [if_neg ?_, h.content hw]
    rintro ⟨x, hx, htag⟩
    cases x with
    | elem tg a tx cs tl =>
      cases htag
      refine hno a ?_
      rw [← h.content hw]
      refine List.mem_append_right _ ?_
      generalize e.children = l at hx
      induction l with
      | nil => cases hx
      | cons y l ih =>
        rw [toksList]
        rcases List.mem_cons.mp hx with rfl | hx
        · exact List.mem_append_left _ (by simp [toks, name])
        · exact List.mem_append_right _ (ih hx)
    | pi => cases htag
    | comment => cases htag

/-- **the picture of a table, and that of the Formex element which is written** -/
theorem fmx_shown_lines {bc : Fmx.Config} {noSeq : Nat} {cals : Option String} (hcals : bc.useCals = true → cals = bc.calsNs)
    {t : Table Content} (ht : t.Reachable) {rows cols : List (View Content)} (hrows : eval (Table.views .row) t = .ok rows)
    (hcols : eval (Table.views .col) t = .ok cols)
    (hne : t.cells ≠ []) (hdis : DisjointCells t.cells)
    (hfull : ∀ p : Coord, 1 ≤ p.x → p.x ≤ cols.length → 1 ≤ p.y → p.y ≤ rows.length → Covered t.cells p)
    (hord : ∀ r ∈ rows, r.owned.Pairwise (fun a b => a.min.x < b.min.x))
    {p : Picture} (hp : TableShows p rows) (hkind : ∀ l ∈ p, l.kind ∈ ["header", "body", "footer"])
    (htitle : bc.detectTitles = true → NoTitle cols.length p)
    (hplain : Without none formexNames p) (hplain' : Without cals ["colspec"] p)
    (lost : List Tok → Prop) (hlost : ∀ c ∈ t.cells, WrittenEmpty c → contentToks c.content = [] ∨ lost (contentToks c.content))
    {tree : Node} (h : eval (Fmx.generate bc noSeq) t = .ok tree) :
    ∃ d : FmxDoc, tree.tag? = some (name "TBL") ∧ tree.children = [d.corpus] ∧ d.notes = [] ∧ d.Nested none cals 0 (some tree) ∧
      d.Drawn none cals cols.length rows.length ∧ d.WidthKnown cols.length ∧ d.Columns cals cols.length ∧ FormexLines lost p d.lines ∧ All₂ (FmxLineOf bc) rows d.lines := by
  have hi := ht.inv
  have hdr : Describes .row t.grid.cells rows := by rw [views_eq hi hrows]; exact Table.base_describes hi .row
  have hcell : ∀ c ∈ t.cells, ∃ l ∈ p, ∃ b ∈ l.cells, c.box = b.1 ∧ contentToks c.content = b.2 := by
    intro c hc
    rw [show t.cells = t.grid.cells from rfl, ← owned_eq hi hdr hord] at hc
    obtain ⟨r, hr', hc⟩ := List.mem_flatMap.mp hc
    obtain ⟨l, hl, _, _, _, hall⟩ := shows_get hp hdr hr'
    obtain ⟨b, hb, h1, h2⟩ := hall.mem_right hc
    exact ⟨l, List.mem_of_getElem? hl, b, hb, h1, h2⟩
  have hnot : ¬ (bc.detectTitles = true ∧ HasTitle t) := fun ⟨h1, h2⟩ => no_title hi hrows hcols hp hfull (htitle h1) h2
  have hpl : ∀ c ∈ t.cells, NoFormexElement none cals c.content := by
    intro c hc tg a htok
    obtain ⟨l, hl, b, hb, _, e⟩ := hcell c hc
    rw [e] at htok
    refine ⟨fun hns hm => hplain l hl b hb tg a htok hns ?_, fun hns hm => hplain' l hl b hb tg a htok hns (by simp [hm])⟩
    simp only [formexNames, List.mem_cons, List.not_mem_nil, or_false] at hm ⊢
    rcases hm with h | h | h | h | h | h | h <;> simp [h]
  have hie : ∀ c ∈ t.cells, ∀ a, Tok.opening (name "IE") a ∉ contentToks c.content := by
    intro c hc a htok
    obtain ⟨l, hl, b, hb, _, e⟩ := hcell c hc
    rw [e] at htok
    exact hplain l hl b hb _ a htok rfl (by simp [formexNames, name])
  obtain ⟨d, w1, w2, w3, w4, w5, w6, w7, w8⟩ := fmx_written hcals ht hrows hcols hne hdis hfull hord hnot hpl h
  refine ⟨d, w1, w2, w3, w4, w5, w6, w7, ?_, w8⟩
  unfold FormexLines
  refine hp.trans (w8.imp_mem (fun r hr l hl => And.intro hr hl)) ?_
  rintro l r m ⟨n1, hall⟩ ⟨hr, hm⟩
  obtain ⟨i, hi'⟩ := List.mem_iff_getElem?.mp hr
  obtain ⟨l', hl', n2, hall'⟩ := all₂_from hp hi'
  refine ⟨hm.sort, ?_, hm.before, hm.after, ?_⟩
  · have := row_type (hkind l' (List.mem_of_getElem? hl'))
    rw [n1] at n2
    rw [← Option.some.inj n2] at this
    rw [show m.node.attr ⟨none, "TYPE"⟩ = typeOfRow r.nature from hm.type, n1]
    exact this
  · refine hall.trans (hm.cells.imp_mem (fun c hc e he => And.intro hc he)) ?_
    rintro b c e ⟨e1, e2⟩ ⟨hc, he⟩
    have hct : c ∈ t.cells := ((hdr.owned r hr c).mp hc).1
    obtain ⟨s1, s2⟩ := fmx_cell_shown he.cell (hie c hct)
    refine ⟨by rw [he.box, e1], ?_⟩
    by_cases hw : WrittenEmpty c
    · rw [s1 hw, ← e2]
      rcases hlost c hct hw with h | h
      · exact .inl h.symm
      · exact .inr ⟨rfl, h⟩
    · exact .inl (by rw [s2 hw, e2])

theorem fmx_shown {bc : Fmx.Config} {noSeq : Nat} {cals : Option String} (hcals : bc.useCals = true → cals = bc.calsNs)
    {t : Table Content} (ht : t.Reachable) {rows cols : List (View Content)} (hrows : eval (Table.views .row) t = .ok rows)
    (hcols : eval (Table.views .col) t = .ok cols)
    (hne : t.cells ≠ []) (hdis : DisjointCells t.cells)
    (hfull : ∀ p : Coord, 1 ≤ p.x → p.x ≤ cols.length → 1 ≤ p.y → p.y ≤ rows.length → Covered t.cells p)
    (hord : ∀ r ∈ rows, r.owned.Pairwise (fun a b => a.min.x < b.min.x))
    {p : Picture} (hp : TableShows p rows) (hkind : ∀ l ∈ p, l.kind ∈ ["header", "body", "footer"])
    (htitle : bc.detectTitles = true → NoTitle cols.length p)
    (hplain : Without none formexNames p) (hplain' : Without cals ["colspec"] p)
    (lost : List Tok → Prop) (hlost : ∀ c ∈ t.cells, WrittenEmpty c → contentToks c.content = [] ∨ lost (contentToks c.content))
    {tree : Node} (h : eval (Fmx.generate bc noSeq) t = .ok tree) :
    ∃ d : FmxDoc, tree.tag? = some (name "TBL") ∧ tree.children = [d.corpus] ∧ d.notes = [] ∧ d.Nested none cals 0 (some tree) ∧
      d.Drawn none cals cols.length rows.length ∧ d.WidthKnown cols.length ∧ d.Columns cals cols.length ∧ FormexLines lost p d.lines := by
  obtain ⟨d, h1, h2, h3, h4, h5, h6, h7, h8, _⟩ := fmx_shown_lines hcals ht hrows hcols hne hdis hfull hord hp hkind htitle hplain hplain' lost hlost h
  exact ⟨d, h1, h2, h3, h4, h5, h6, h7, h8⟩

end Benker
