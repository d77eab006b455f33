import Verif.Lemmas.FormexFinalised

/-! What the Formex builder writes can be finalised. -/

namespace Benker
open FmxSpec Fmx CalsSpec PyM

theorem fmx_plain_spans {bc : Fmx.Config} {rn : Option String} {c : Cell Content} {e : Node} (hv : c.box.Valid) (h : CellFor bc.useCals bc.calsNs rn c e) :
    CellColumns (e.attr (name "COLSPAN")) none none (c.box.max.x - c.box.min.x + 1) ∧ CellRows (e.attr (name "ROWSPAN")) none (c.box.max.y - c.box.min.y + 1) := by
  unfold Box.Valid at hv
  refine ⟨?_, ?_⟩
  · by_cases hc : c.min.x = c.max.x
    · refine ⟨1, .inl ⟨(h.oneColumn hc).1, rfl⟩, .inr ⟨.inl rfl, ?_⟩⟩
      simp only [Cell.min, Cell.max] at hc; omega
    · have h1 := (h.columns hc).1
      obtain ⟨k, hk⟩ := Int.eq_ofNat_of_zero_le (show 0 ≤ c.max.x - c.min.x + 1 by simp only [Cell.min, Cell.max]; omega)
      rw [hk] at h1
      exact ⟨k, .inr ⟨_, h1, isNumber_intStr⟩, .inr ⟨.inl rfl, by simp only [Cell.min, Cell.max] at hk; omega⟩⟩
  · by_cases hc : c.min.y = c.max.y
    · refine ⟨1, .inl ⟨(h.oneRow hc).1, rfl⟩, .inr ⟨rfl, ?_⟩⟩
      simp only [Cell.min, Cell.max] at hc; omega
    · have h1 := (h.rows hc).1
      obtain ⟨k, hk⟩ := Int.eq_ofNat_of_zero_le (show 0 ≤ c.max.y - c.min.y + 1 by simp only [Cell.min, Cell.max]; omega)
      rw [hk] at h1
      exact ⟨k, .inr ⟨_, h1, isNumber_intStr⟩, .inr ⟨rfl, by simp only [Cell.min, Cell.max] at hk; omega⟩⟩

theorem row_unstyled {cfg : Fmx.Config} {colsep rowsep : String} {bb : Option Box} {r : View Content} {nodes : List Node}
    (hr : cfg.useCals = true → Dict.get? r.styles "rowstyle" = none) (h : Fmx.buildRow cfg colsep rowsep bb r = .ok nodes) :
    ∀ n ∈ nodes, n.attr ⟨cfg.calsNs, "rowstyle"⟩ = none := by
  unfold Fmx.buildRow at h
  obtain ⟨a, h1, h⟩ := bind_ok h
  obtain ⟨es, h2, h⟩ := bind_ok h
  have ha : Dict.get? a ⟨cfg.calsNs, "rowstyle"⟩ = none := by
    have h0 : Dict.get? (optAttr (f "TYPE") (rowType r.nature) []) ⟨cfg.calsNs, "rowstyle"⟩ = none := by
      cases rowType r.nature with
      | none => rfl
      | some s =>
        unfold optAttr
        rw [Dict.get?_set, if_neg (by intro e; exact absurd (congrArg QName.name e) (by simp [f]))]
        rfl
    unfold Fmx.rowAttrs at h1
    split at h1
    · rename_i hu
      obtain ⟨a1, g1, h1⟩ := bind_ok h1
      obtain ⟨a2, g2, h1⟩ := bind_ok h1
      obtain ⟨a3, g3, h1⟩ := bind_ok h1
      rw [addAttr_other h1 (by simp)]
      have : a3 = a2 := (Cals.addAttr_ok g3 "").2.1 (hr hu)
      rw [this, addSep_other g2 (by simp), addAttr_other g1 (by simp)]
      exact h0
    · cases h1; exact h0
  simp only at h
  split at h
  · obtain ⟨_, _, h⟩ := bind_ok h
    obtain ⟨_, _, h⟩ := bind_ok h
    obtain ⟨_, _, h⟩ := bind_ok h
    cases h
    intro n hn
    simp only [List.mem_cons, List.not_mem_nil, or_false] at hn
    rcases hn with rfl | rfl | rfl
    · rfl
    · exact ha
    · rfl
  · cases h
    intro n hn
    rw [List.mem_singleton.mp hn]
    exact ha

theorem colspec_unstyled {cfg : Fmx.Config} {colsep rowsep : String} {v : View Content} {e : Node} (h : Fmx.buildColspec cfg colsep rowsep v = .ok e) :
    e.attr ⟨cfg.calsNs, "rowstyle"⟩ = none := by
  unfold Fmx.buildColspec at h
  obtain ⟨a1, g1, h⟩ := bind_ok h
  obtain ⟨a2, g2, h⟩ := bind_ok h
  obtain ⟨a3, g3, h⟩ := bind_ok h
  cases h
  show Dict.get? a3 _ = none
  rw [addSep_other g3 (by simp), addSep_other g2 (by simp)]
  have h1 : Dict.get? a1 ⟨cfg.calsNs, "rowstyle"⟩ = none := by
    rw [addAttr_other g1 (by simp)]
    simp [Dict.get?_cons, Dict.get?_nil, Config.q]
  split
  · split
    · rw [Dict.get?_set, if_neg (by intro e; exact absurd (congrArg QName.name e) (by simp [Config.q]))]
      exact h1
    · exact h1
  · exact h1

theorem fmx_corpus_plain {bc : Fmx.Config} {noSeq : Nat} {t : Table Content} (ht : t.Reachable) {rows cols : List (View Content)}
    (hrows : eval (Table.views .row) t = .ok rows) (hcols : eval (Table.views .col) t = .ok cols) (htitle : ¬ (bc.detectTitles = true ∧ HasTitle t))
    (hrs : bc.useCals = true → ∀ r ∈ rows, Dict.get? r.styles "rowstyle" = none)
    {names : List QName} (hown : ∀ q ∈ ⟨bc.calsNs, "colspec"⟩ :: ["CORPUS", "ROW", "CELL", "IE"].map name, q ∉ names)
    (hin : ∀ c ∈ t.cells, ∀ tk a, Tok.opening tk a ∈ contentToks c.content → tk ∉ names)
    {tree corpus : Node} (h : eval (Fmx.generate bc noSeq) t = .ok tree) (hc : tree.children = [corpus]) :
    Free names [corpus] ∧ ∀ n ∈ corpus.children, n.attr ⟨bc.calsNs, "rowstyle"⟩ = none := by
  have hi := ht.inv
  have hr := views_eq hi hrows
  have hcv := views_eq hi hcols
  have hdr : Describes .row t.grid.cells rows := by rw [hr]; exact Table.base_describes hi .row
  have hdc : Describes .col t.grid.cells cols := by rw [hcv]; exact Table.base_describes hi .col
  obtain ⟨bb, hbb, he⟩ := fmx_generate_eq hi bc noSeq
  rw [he, ← hr, ← hcv] at h
  obtain ⟨attrs, cattrs, title, colspecs, nodes, rest, B, hB, _, _, h1, h2, h3, rfl, h4, h5, h6⟩ := fmx_buildTree_raw h
  rcases splitTitle_spec hbb h1 with ⟨rfl, rfl, -⟩ | ⟨_, _, _, _, _, e1, e2⟩
  case inr => exact absurd ⟨e1, e2⟩ htitle
  have hc' : [Node.elem (name "CORPUS") cattrs none (colspecs ++ nodes.flatten) none] = [corpus] := hc
  rw [List.singleton_inj] at hc'
  subst hc'
  have hcol : ∀ e ∈ colspecs, e.attr ⟨bc.calsNs, "rowstyle"⟩ = none ∧ Free names [e] := by
    intro e hm
    cases hu : bc.useCals with
    | false => rw [h4 hu] at hm; cases hm
    | true =>
      obtain ⟨v, _, hv⟩ := (h5 hu).mem_right hm
      refine ⟨colspec_unstyled hv, ?_⟩
      have hs := buildColspec_ok hv
      obtain ⟨_, x, cs, tl, rfl⟩ := toks_elem e hs.tag
      refine free_elem.mpr ⟨?_, ?_⟩
      · exact hown _ (List.mem_cons.mpr (.inl rfl))
      · intro tk a hm
        have := hs.empty.1
        unfold insideToks at this
        rw [show (Node.elem _ _ x cs tl).children = cs from rfl] at this
        rw [(List.append_eq_nil_iff.mp this).2] at hm
        cases hm
  have hrow : ∀ ns ∈ nodes, ∀ n ∈ ns, n.attr ⟨bc.calsNs, "rowstyle"⟩ = none ∧ Free names [n] := by
    intro ns hns n hn
    obtain ⟨r, hrm, hb⟩ := h6.mem_right hns
    refine ⟨row_unstyled (fun hu => hrs hu r hrm) hb n hn, ?_⟩
    obtain ⟨row, hsh, g1, _, _, _, g2⟩ := fmxRow_spec (fun c hc => hi.grid.valid c ((hdr.owned r hrm c).mp hc).1) hb
    have hpi : ∀ x y : String, Free names [.pi x y none] := by
      intro x y tk a hm
      simp [toksList, toks, textToks] at hm
    have hrowf : Free names [row] := by
      obtain ⟨_, x, cs, tl, rfl⟩ := toks_elem row g1
      refine free_elem.mpr ⟨hown _ (by simp), free_mem.mpr ?_⟩
      intro e hm
      obtain ⟨c, hcm, hce⟩ := g2.mem_right hm
      have hcell := ((hdr.owned r hrm c).mp hcm).1
      have htag := hce.tag
      obtain ⟨_, x, cs, tl, rfl⟩ := toks_elem e htag
      refine free_elem.mpr ⟨hown _ (by simp), ?_⟩
      intro tk a htk
      by_cases hw : WrittenEmpty c
      · obtain ⟨_, ie, h1, h2⟩ := hce.empty hw
        rw [show (Node.elem _ _ x cs tl).children = cs from rfl] at h1
        rw [h1, h2] at htk
        have : tk = name "IE" := by
          simp only [toksList, toks, textToks, List.mem_append, List.mem_cons, List.not_mem_nil, or_false, false_or] at htk
          rcases htk with ht | ht
          · exact (Tok.opening.inj ht).1
          · cases ht
        rw [this]; exact hown _ (by simp)
      · exact hin c hcell tk a (by rw [← hce.content hw]; exact List.mem_append_right _ htk)
    rcases hsh with ⟨rfl, _⟩ | ⟨d1, d2, rfl, _⟩
    · rw [List.mem_singleton.mp hn]; exact hrowf
    · simp only [List.mem_cons, List.not_mem_nil, or_false] at hn
      rcases hn with rfl | rfl | rfl
      · exact hpi _ _
      · exact hrowf
      · exact hpi _ _
  have hall : ∀ n ∈ colspecs ++ nodes.flatten, n.attr ⟨bc.calsNs, "rowstyle"⟩ = none ∧ Free names [n] := by
    intro n hn
    rcases List.mem_append.mp hn with hn | hn
    · exact hcol n hn
    · obtain ⟨ns, h1, h2⟩ := List.mem_flatten.mp hn
      exact hrow ns h1 n h2
  exact ⟨free_elem.mpr ⟨hown _ (by simp), free_mem.mpr (fun n hn => (hall n hn).2)⟩, fun n hn => (hall n hn).1⟩

open Benker.Shown

/-- the elements of the tree are those of a Formex table, or those which are shown -/
def OnlyFrom (cals : Option String) (p : Picture) (tree : Node) : Prop :=
  ∀ names : List QName, (∀ q ∈ ⟨cals, "colspec"⟩ :: ["TBL", "CORPUS", "ROW", "CELL", "IE"].map name, q ∉ names) →
    (∀ l ∈ p, ∀ b ∈ l.cells, ∀ t a, Tok.opening t a ∈ b.2 → t ∉ names) → Free names [tree]

/-- **what the Formex builder writes can be finalised** -/
theorem fmx_provisional {bc : Fmx.Config} {noSeq : Nat} {cals : Option String} (hcals : bc.useCals = true → cals = bc.calsNs) {t : Table Content} (ht : t.Reachable) {rows cols : List (View Content)}
    (hrows : eval (Table.views .row) t = .ok rows) (hcols : eval (Table.views .col) t = .ok cols)
    (hne : t.cells ≠ []) (hdis : DisjointCells t.cells)
    (hfull : ∀ p : Coord, 1 ≤ p.x → p.x ≤ cols.length → 1 ≤ p.y → p.y ≤ rows.length → Covered t.cells p)
    (hord : ∀ r ∈ rows, r.owned.Pairwise (fun a b => a.min.x < b.min.x))
    {p : Picture} (hp : TableShows p rows) (hkind : ∀ l ∈ p, l.kind ∈ ["header", "body", "footer"])
    (htitle : bc.detectTitles = true → NoTitle cols.length p)
    (hplain : Without none (["TBL", "GR.NOTES"] ++ formexNames) p) (hplain' : Without cals ["colspec"] p)
    (hrs : bc.useCals = true → ∀ r ∈ rows, Dict.get? r.styles "rowstyle" = none) (hfoot : FootersLast cols.length p)
    (lost : List Tok → Prop) (hlost : ∀ c ∈ t.cells, WrittenEmpty c → contentToks c.content = [] ∨ lost (contentToks c.content))
    {tree : Node} (h : eval (Fmx.generate bc noSeq) t = .ok tree) :
    ∃ (d : FmxDoc) (body foot : List DocLine), Provisional bc.calsNs cals cols.length rows.length body foot tree d ∧ FormexLines lost p d.lines ∧ OnlyFrom bc.calsNs p tree := by
  have hi := ht.inv
  have hdr : Describes .row t.grid.cells rows := by rw [views_eq hi hrows]; exact Table.base_describes hi .row
  have hplain1 : Without none formexNames p := by
    intro l hl b hb tg a htok hns hm
    exact hplain l hl b hb tg a htok hns (List.mem_append_right _ hm)
  have hnot : ¬ (bc.detectTitles = true ∧ HasTitle t) := fun ⟨h1, h2⟩ => no_title hi hrows hcols hp hfull (htitle h1) h2
  obtain ⟨d, w1, w2, w3, w4, w5, w6, w7, w8, w9⟩ := fmx_shown_lines hcals ht hrows hcols hne hdis hfull hord hp hkind htitle hplain1 hplain' lost hlost h
  have hcell : ∀ c ∈ t.cells, ∃ l ∈ p, ∃ b ∈ l.cells, contentToks c.content = b.2 := by
    intro c hc
    rw [show t.cells = t.grid.cells from rfl, ← owned_eq hi hdr hord] at hc
    obtain ⟨r, hr', hc⟩ := List.mem_flatMap.mp hc
    obtain ⟨l, hl, _, _, _, hall⟩ := shows_get hp hdr hr'
    obtain ⟨b, hb, h1, h2⟩ := hall.mem_right hc
    exact ⟨l, List.mem_of_getElem? hl, b, hb, h2⟩
  obtain ⟨hf1, hf2⟩ := fmx_corpus_plain ht hrows hcols hnot hrs (names := ["TBL", "GR.NOTES", "BLK"].map name) (by
    intro q hq hm
    obtain ⟨s, hs, rfl⟩ := List.mem_map.mp hm
    rcases List.mem_cons.mp hq with e | e
    · have : s = "colspec" := congrArg QName.name e
      subst this
      revert hs; decide
    · clear hq hm; revert s; decide) (by
    intro c hc tk a htk hm
    obtain ⟨l, hl, b, hb, e⟩ := hcell c hc
    rw [e] at htk
    obtain ⟨s, hs, rfl⟩ := List.mem_map.mp hm
    refine hplain l hl b hb _ a htk rfl ?_
    simp only [List.mem_cons, List.not_mem_nil, or_false] at hs
    rcases hs with rfl | rfl | rfl <;> simp [formexNames, name]) h w2
  have honly : OnlyFrom bc.calsNs p tree := by
    intro names hown hin
    obtain ⟨a, x, cs, tl, rfl⟩ := toks_elem tree w1
    have hcs : cs = [d.corpus] := w2
    subst hcs
    refine free_elem.mpr ⟨hown _ (by simp), ?_⟩
    refine (fmx_corpus_plain ht hrows hcols hnot hrs (fun q hq => hown q ?_) ?_ h w2).1
    · rcases List.mem_cons.mp hq with e | e
      · rw [e]; exact List.mem_cons_self
      · exact List.mem_cons_of_mem _ (List.mem_cons_of_mem _ e)
    · intro c hc tk a htk
      obtain ⟨l, hl, b, hb, e⟩ := hcell c hc
      exact hin l hl b hb tk a (by rw [← e]; exact htk)
  obtain ⟨pa, pb, rfl, ha, hka, hkb⟩ := hfoot
  have hsplit : ∃ body foot, d.lines = body ++ foot ∧ All₂ (fun l m => m.sort = .row ∧ (l.kind, m.node.attr ⟨none, "TYPE"⟩) ∈ formexTypes ∧ m.before = [] ∧ m.after = [] ∧
      All₂ (fun a b => b.box = a.1 ∧ (shownToks none b.node = a.2 ∨ shownToks none b.node = [] ∧ lost a.2)) l.cells m.cells) pa body ∧
      All₂ (fun l m => m.sort = .row ∧ (l.kind, m.node.attr ⟨none, "TYPE"⟩) ∈ formexTypes ∧ m.before = [] ∧ m.after = [] ∧
      All₂ (fun a b => b.box = a.1 ∧ (shownToks none b.node = a.2 ∨ shownToks none b.node = [] ∧ lost a.2)) l.cells m.cells) pb foot := by
    have w8' := w8
    unfold FormexLines at w8'
    generalize d.lines = L at w8'
    clear * - w8'
    induction pa generalizing L with
    | nil => exact ⟨[], L, rfl, .nil, w8'⟩
    | cons l pa ih =>
      cases w8' with
      | cons h1 h2 =>
        obtain ⟨b, f, e, g1, g2⟩ := ih _ h2
        exact ⟨_ :: b, f, by rw [e]; rfl, .cons h1 g1, g2⟩
  obtain ⟨body, foot, hlines, hb1, hb2⟩ := hsplit
  have htype : ∀ (l : Line) (m : DocLine), (l.kind, m.node.attr ⟨none, "TYPE"⟩) ∈ formexTypes → (l.kind = "footer" ↔ Marked m) := by
    intro l m hm
    unfold Marked
    simp only [formexTypes, List.mem_cons, Prod.mk.injEq, List.not_mem_nil, or_false] at hm
    rw [show name "TYPE" = ⟨none, "TYPE"⟩ from rfl]
    rcases hm with ⟨h1, h2⟩ | ⟨h1, h2⟩ | ⟨h1, h2⟩ <;> rw [h1, h2] <;> decide
  refine ⟨d, body, foot, ⟨w1, w2, w3, w4, w5, w7, hlines, ?_, ?_, ?_, hf2, ⟨?_, ?_⟩, ?_⟩, w8, honly⟩
  · intro l hl
    obtain ⟨_, _, hr⟩ := w9.mem_right hl
    exact ⟨hr.sort, hr.after⟩
  · intro l hl c hc
    obtain ⟨r, hrm, hr⟩ := w9.mem_right hl
    obtain ⟨c0, hc0, hce⟩ := hr.cells.mem_right hc
    rw [hce.box]
    exact fmx_plain_spans (hi.grid.valid c0 ((hdr.owned r hrm c0).mp hc0).1) hce.cell
  · intro tk a htk
    exact hf1 tk a (by simpa [toksList] using htk)
  · intro e
    rw [e] at hb1
    cases hb1
    exact ha rfl
  · intro m hm hmk
    obtain ⟨l, hl, _, hk, _⟩ := hb1.mem_right hm
    exact hka l hl ((htype l m hk).mpr hmk)
  · intro m hm
    obtain ⟨l, hl, _, hk, _, _, hcs⟩ := hb2.mem_right hm
    obtain ⟨k1, c, hc, h1, h2, h3⟩ := hkb l hl
    refine ⟨(htype l m hk).mp k1, ?_⟩
    rw [hc] at hcs
    cases hmc : m.cells with
    | nil => rw [hmc] at hcs; cases hcs
    | cons x xs =>
      rw [hmc] at hcs
      cases hcs with
      | cons g1 g2 =>
        cases g2
        refine ⟨x, rfl, ?_⟩
        rw [g1.1]
        exact ⟨h1, h2, h3⟩

end Benker
