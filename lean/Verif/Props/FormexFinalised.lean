import Verif.Lemmas.FormexProvisional
import Verif.Props.ToFormex

/-! C89: what the tables show is kept by the finalisation of the Formex documents. -/

namespace Benker
open PyM CalsSpec FmxSpec Fmx Benker.Shown

/-- **C89**: for every document which is finalised, and whose tables are in `TBL` elements: the tables of the final document are those of the document, in the same
order. Each table which the builder can have written shows the same after the finalisation: it fills as many columns and rows, with the same cells at the same places;
the rows marked as notes have become `GR.NOTES` elements, which are shown at the bottom of the table. -/
theorem C89_finalised (cfg : Fmx.Config) (cals : Option String) (root out : Node) (hroot : TablesApart root) (h : Fmx.finalize cfg root = .ok out) :
    All₂ (fun T T' => NotesApart root → ∀ (d : FmxDoc) (w h : Nat) (body foot : List DocLine), Provisional cfg.calsNs cals w h body foot T d →
      ∃ d', Finalised cals w h body foot T' d') (topTables root) (topTables out) := by
  refine (finalize_tables hroot h).imp ?_
  rintro T T' ⟨pre, k, E, B, ⟨_, h1⟩, h2, rfl⟩ hnotes d w h body foot P
  have h1 := h1 hnotes
  obtain ⟨E', B', g1, g2, d', hd'⟩ := final_table cfg P pre k
  rw [h1] at g1
  cases g1
  rw [h2] at g2
  cases g2
  exact ⟨d', hd'⟩

/-- **C89**: the finalisation succeeds if every table is one which the builder can have written. -/
theorem C89_succeeds (cfg : Fmx.Config) (cals : Option String) (root : Node) (hroot : TablesApart root)
    (h : ∀ T ∈ topTables root, ∃ (d : FmxDoc) (w h : Nat) (body foot : List DocLine), Provisional cfg.calsNs cals w h body foot T d) :
    ∃ out, Fmx.finalize cfg root = .ok out := by
  refine finalize_succeeds cfg hroot (provisional_apart cfg hroot h) ?_
  intro T hT pre k
  obtain ⟨d, w, h, body, foot, P⟩ := h T hT
  obtain ⟨E, B, h1, h2, _⟩ := final_table cfg P pre k
  exact ⟨E, B, h1, h2⟩

instance (l : DocLine) : Decidable (Marked l) := by unfold Marked; infer_instance

theorem all₂_with_mem {α β : Type} {R : α → β → Prop} {l : List α} {m : List β} (h : All₂ R l m) : All₂ (fun a b => b ∈ m ∧ R a b) l m := by
  induction h with
  | nil => exact .nil
  | cons h1 _ ih => exact .cons ⟨by simp, h1⟩ (ih.imp (fun _ _ h => ⟨List.mem_cons_of_mem _ h.1, h.2⟩))

theorem final_lines {own cals : Option String} {w h : Nat} {body foot : List DocLine} {T T' : Node} {d d' : FmxDoc} {lost : List Tok → Prop} {p : Picture}
    (P : Provisional own cals w h body foot T d) (F : Finalised cals w h body foot T' d') (hp : FormexLines lost p d.lines) : FinalLines lost p d'.all := by
  have hmk : ∀ (l : Line) (m : DocLine), (l.kind, m.node.attr ⟨none, "TYPE"⟩) ∈ formexTypes → (l.kind = "footer" ↔ Marked m) := by
    intro l m hm
    unfold Marked
    simp only [formexTypes, List.mem_cons, Prod.mk.injEq, List.not_mem_nil, or_false] at hm
    rw [show name "TYPE" = ⟨none, "TYPE"⟩ from rfl]
    rcases hm with ⟨h1, h2⟩ | ⟨h1, h2⟩ | ⟨h1, h2⟩ <;> rw [h1, h2] <;> decide
  have hall : All₂ (fun l m => SameCells l m ∧ (m.kind none = if Marked l then "footer" else "body") ∧ m.before = [] ∧ m.after = []) d.lines d'.all := by
    rw [P.lines]
    refine All₂.append ?_ ?_
    · refine (all₂_with_mem F.rows).imp_mem ?_
      rintro l hl m ⟨hm, h1, h2, h3, h4⟩
      exact ⟨h1, by rw [if_neg (P.body.2 l hl)]; exact h4, (F.drawn.rows m (List.mem_append_left _ hm) h2).1, h3⟩
    · refine (all₂_with_mem F.notes).imp_mem ?_
      rintro l hl m ⟨hm, h1, _, h2⟩
      exact ⟨h1, by rw [if_pos (P.foot l hl).1]; exact h2, (F.drawn.notes m hm).1, (F.drawn.notes m hm).2.1⟩
  have hcomp : ∀ {α β γ : Type} {R : α → β → Prop} {S : β → γ → Prop} {l : List α} {m : List β} {n : List γ}, All₂ R l m → All₂ S m n →
      All₂ (fun a c => ∃ b, R a b ∧ S b c) l n := by
    intro α β γ R S l m n h
    induction h generalizing n with
    | nil => intro h; cases h; exact .nil
    | cons h1 _ ih =>
      intro h
      cases h with
      | cons g1 g2 => exact .cons ⟨_, h1, g1⟩ (ih g2)
  refine (hcomp hp hall).imp ?_
  rintro l m ⟨x, ⟨_, h1, _, _, h2⟩, h3, h4, h5, h6⟩
  refine ⟨?_, h5, h6, ?_⟩
  · rw [h4]
    have := hmk l x h1
    by_cases hx : Marked x
    · rw [if_pos hx, if_pos (this.mpr hx)]
    · rw [if_neg hx, if_neg (fun e => hx (this.mp e))]
  · refine (hcomp h2 h3).imp ?_
    rintro a b ⟨c, ⟨g1, g2⟩, g3, g4⟩
    rw [g3, g4]
    exact ⟨g1, g2⟩

theorem _root_.Benker.FmxSpec.Provisional.setTail {own cals : Option String} {w h : Nat} {body foot : List DocLine} {T : Node} {d : FmxDoc} (P : Provisional own cals w h body foot T d)
    (tl : Option String) : Provisional own cals w h body foot (T.setTail tl) d := by
  have e1 : (T.setTail tl).tag? = T.tag? := by cases T <;> rfl
  have e2 : (T.setTail tl).children = T.children := by cases T <;> rfl
  refine ⟨by rw [e1]; exact P.tag, by rw [e2]; exact P.only, P.notes, ⟨P.nested.corpus, P.nested.inCorpus, P.nested.cols, ⟨?_, P.nested.notes.2⟩, P.nested.lines, P.nested.rows,
    P.nested.titles, P.nested.whole⟩, P.drawn, P.columns, P.lines, P.plain, P.spans, P.names, P.unstyled, P.body, P.foot⟩
  rcases P.nested.notes.1 with ⟨e, _⟩ | ⟨p, b, a, e, h1, h2⟩
  · cases e
  · cases e
    exact .inr ⟨_, b, a, rfl, by rw [e2]; exact h1, h2⟩

/-- the final form of a table which the builder has written shows the same -/
theorem final_of {cfg : Fmx.Config} {cals : Option String} {root out tree : Node} {tl : Option String} {i : Nat} (hroot : TablesApart root) (hnotes : NotesApart root) (hi : (topTables root)[i]? = some (tree.setTail tl))
    (hfin : Fmx.finalize cfg root = .ok out) {w h : Nat} {p : Picture} {lost : List Tok → Prop}
    (hP : ∃ (d : FmxDoc) (body foot : List DocLine), Provisional cfg.calsNs cals w h body foot tree d ∧ FormexLines lost p d.lines ∧ OnlyFrom cfg.calsNs p tree) :
    ∃ (final : Node) (d' : FmxDoc), (topTables out)[i]? = some final ∧ final.tag? = some (FmxSpec.name "TBL") ∧
      final.children = d'.notes.map (·.node) ++ [d'.corpus] ∧ d'.Nested none cals 0 (some final) ∧ d'.Drawn none cals w h ∧
      d'.WidthKnown w ∧ d'.Columns cals w ∧ FinalLines lost p d'.all := by
  obtain ⟨d, body, foot, P, hp, _⟩ := hP
  obtain ⟨T', hT', hf⟩ := all₂_to (C89_finalised cfg cals root out hroot hfin) hi
  obtain ⟨d', F⟩ := hf hnotes d w h body foot (P.setTail tl)
  exact ⟨T', d', hT', F.tag, F.only, F.nested, F.drawn, F.widthKnown, F.columns, final_lines P F hp⟩

/-- what the builder writes for a CALS table can be finalised -/
theorem cals_provisional (pc : CalsP.Config) (bc : Fmx.Config) (cals : Option String) (hcals : bc.useCals = true → cals = bc.calsNs)
    (d : CalsDoc) (w h : Nat) (hn : d.Nested pc.ns) (hd : d.Drawn pc.ns w h) (hc : d.Columns pc.ns w) (ha : Accepted pc d.table)
    (p : Picture) (hp : CalsShows d p) (htitle : bc.detectTitles = true → NoTitle w p) (hfoot : FootersLast w p)
    (hstyle : bc.useCals = true → ∀ r ∈ d.rows, r.2.node.attr ⟨pc.ns, "rowstyle"⟩ = none)
    (hplain : Without none (["TBL", "GR.NOTES"] ++ formexNames) p) (hplain' : Without cals ["colspec"] p) (following : List Node)
    (tree : Node) (hconv : (Convert.cals2formex pc bc).convert following d.table = .ok tree) :
    ∃ (d : FmxDoc) (body foot : List DocLine), Provisional bc.calsNs cals w h body foot tree d ∧ FormexLines (fun _ => False) p d.lines ∧ OnlyFrom bc.calsNs p tree := by
  obtain ⟨t, rows, cols, h1, h2, h3, rfl, rfl, hparsed, hne, hdis, hfull, hord, hshow, hempty⟩ := cals_shows hn hd hc ha hp none PState.init
  obtain ⟨t', rows', _, g1, g2, _, _, _, _, g3, _⟩ := C73_reading (pc := pc) d _ _ hn hd hc ha none PState.init
  rw [h1] at g1
  cases g1
  rw [h2] at g2
  cases g2
  unfold Convert.cals2formex Convert.thenGenerate at hconv
  simp only [h1] at hconv
  refine fmx_provisional hcals hparsed.tidy.1 h2 h3 hne hdis hfull hord hshow ?_ htitle hplain hplain' ?_ hfoot (fun _ => False) ?_ hconv
  · intro l hl
    obtain ⟨x, _, ⟨t, _, hk⟩, _⟩ := hp.mem_right hl
    simp only [List.mem_cons, Prod.mk.injEq, List.not_mem_nil, or_false] at hk ⊢
    rcases hk with ⟨_, h⟩ | ⟨_, h⟩ | ⟨_, h⟩ <;> simp [h]
  · intro hu r hr
    obtain ⟨x, hx, _, hs⟩ := g3.mem_right hr
    rw [hs.style, hstyle hu x hx]
    rfl
  · intro c hc hw
    left
    rcases hw with e | e | e
    · rw [e]; rfl
    · rw [e]; rfl
    · exact hempty c hc e

/-- **C89**, CALS to Formex, up to the final document: for every CALS table drawn on a grid, whose footers are full-width rows at the bottom, whose contents have
no Formex table, whose rows have no style of their own (if CALS attributes are written) and whose first row does not look like a title (if titles are looked for):
if the conversion succeeds, and if the result is, wherever it is and whatever the text which follows it, a table of a document which is finalised, then the table of the final document at the same rank
shows the same: the same rectangles, with the same contents, in the same order, and the footers are notes. -/
theorem C89_cals_to_formex (pc : CalsP.Config) (bc : Fmx.Config) (cals : Option String) (hcals : bc.useCals = true → cals = bc.calsNs)
    (d : CalsDoc) (w h : Nat) (hn : d.Nested pc.ns) (hd : d.Drawn pc.ns w h) (hc : d.Columns pc.ns w) (ha : Accepted pc d.table)
    (p : Picture) (hp : CalsShows d p) (htitle : bc.detectTitles = true → NoTitle w p) (hfoot : FootersLast w p)
    (hstyle : bc.useCals = true → ∀ r ∈ d.rows, r.2.node.attr ⟨pc.ns, "rowstyle"⟩ = none)
    (hplain : Without none (["TBL", "GR.NOTES"] ++ formexNames) p) (hplain' : Without cals ["colspec"] p) (following : List Node)
    (tree : Node) (hconv : (Convert.cals2formex pc bc).convert following d.table = .ok tree)
    (root out : Node) (i : Nat) (tl : Option String) (hroot : TablesApart root) (hnotes : NotesApart root) (hi : (topTables root)[i]? = some (tree.setTail tl)) (hfin : Fmx.finalize bc root = .ok out) :
    ∃ (final : Node) (d' : FmxDoc), (topTables out)[i]? = some final ∧ final.tag? = some (FmxSpec.name "TBL") ∧
      final.children = d'.notes.map (·.node) ++ [d'.corpus] ∧ d'.Nested none cals 0 (some final) ∧ d'.Drawn none cals w h ∧
      d'.WidthKnown w ∧ d'.Columns cals w ∧ FinalLines (fun _ => False) p d'.all := by
  exact final_of hroot hnotes hi hfin (cals_provisional pc bc cals hcals d w h hn hd hc ha p hp htitle hfoot hstyle hplain hplain' following tree hconv)

/-- what the builder writes for a Word table can be finalised -/
theorem word_provisional (cfg : Ooxml.Config) (bc : Fmx.Config) (cals : Option String) (hcals : bc.useCals = true → cals = bc.calsNs)
    (following : List Node) (styles : Node → Styles) (nature : Node → String) (W : Nat) (tbl : Node)
    (h : OoxmlSpec.GoodTable cfg (Convert.firstSectList following) styles nature W tbl) (hne : OoxmlSpec.kids ["tr"] tbl ≠ [])
    (htitle : bc.detectTitles = true → NoTitle W (wordPicture tbl))
    (hplain : Without none (["TBL", "GR.NOTES"] ++ formexNames) (wordPicture tbl)) (hplain' : Without cals ["colspec"] (wordPicture tbl))
    (tree : Node) (hconv : (Convert.ooxml2formex cfg bc).convert following tbl = .ok tree) :
    ∃ (d : FmxDoc) (body foot : List DocLine), Provisional bc.calsNs cals W (OoxmlSpec.kids ["tr"] tbl).length body foot tree d ∧ FormexLines Blank (wordPicture tbl) d.lines ∧
      OnlyFrom bc.calsNs (wordPicture tbl) tree := by
  obtain ⟨t, s', rows, cols, h1, h2, h3, h4, h5, hi', h6, h7, h8, h9, h10⟩ := word_shows cfg _ styles nature W tbl h hne PState.init
  obtain ⟨t', s2, rows', e1, e2, e3, e4⟩ := Ooxml.C67_rows cfg _ styles nature W tbl h PState.init
  rw [h1] at e1
  cases e1
  rw [h2] at e2
  cases e2
  obtain ⟨hreach, hempty⟩ := word_written_empty h h1
  have e : eval (Ooxml.parseTable cfg (Convert.firstSectList following) tbl) PState.init = .ok (some t) := by unfold eval; rw [h1]
  unfold Convert.ooxml2formex Convert.thenGenerate at hconv
  simp only [e] at hconv
  have hkind : ∀ l ∈ wordPicture tbl, l.kind = "header" ∨ l.kind = "body" := by
    intro l hl
    obtain ⟨i, hi⟩ := List.mem_iff_getElem?.mp hl
    obtain ⟨tr, _, e, _⟩ := wordLines_get 1 _ i l hi
    rw [e]
    unfold OoxmlSpec.natureOfRow
    split <;> simp
  subst h5
  rw [← h4]
  refine fmx_provisional hcals hreach h2 h3 h6 h7 h8 h9 h10 ?_ htitle hplain hplain' ?_ ?_ Blank hempty hconv
  · intro l hl
    rcases hkind l hl with e | e <;> simp [e]
  · intro _ r hr
    obtain ⟨j, hj⟩ := List.mem_iff_getElem?.mp hr
    obtain ⟨hlt, _⟩ := List.getElem?_eq_some_iff.mp hj
    obtain ⟨row, g1, _, _, g2⟩ := e4 j _ (List.getElem?_eq_getElem (by rw [← e3]; exact hlt))
    rw [hj] at g1
    cases g1
    exact g2.only _ (by decide)
  · refine ⟨wordPicture tbl, [], by simp, ?_, ?_, by simp⟩
    · intro e
      have := h10.length
      rw [e, h4] at this
      exact hne (List.eq_nil_of_length_eq_zero this.symm)
    · intro l hl
      rcases hkind l hl with e | e <;> rw [e] <;> decide

/-- **C89**, Word to Formex, up to the final document: the same for every Word table which is drawn on a grid (it has no footers). -/
theorem C89_word_to_formex (cfg : Ooxml.Config) (bc : Fmx.Config) (cals : Option String) (hcals : bc.useCals = true → cals = bc.calsNs)
    (following : List Node) (styles : Node → Styles) (nature : Node → String) (W : Nat) (tbl : Node)
    (h : OoxmlSpec.GoodTable cfg (Convert.firstSectList following) styles nature W tbl) (hne : OoxmlSpec.kids ["tr"] tbl ≠ [])
    (htitle : bc.detectTitles = true → NoTitle W (wordPicture tbl))
    (hplain : Without none (["TBL", "GR.NOTES"] ++ formexNames) (wordPicture tbl)) (hplain' : Without cals ["colspec"] (wordPicture tbl))
    (tree : Node) (hconv : (Convert.ooxml2formex cfg bc).convert following tbl = .ok tree)
    (root out : Node) (i : Nat) (tl : Option String) (hroot : TablesApart root) (hnotes : NotesApart root) (hi : (topTables root)[i]? = some (tree.setTail tl)) (hfin : Fmx.finalize bc root = .ok out) :
    ∃ (final : Node) (d' : FmxDoc), (topTables out)[i]? = some final ∧ final.tag? = some (FmxSpec.name "TBL") ∧
      final.children = d'.notes.map (·.node) ++ [d'.corpus] ∧ d'.Nested none cals 0 (some final) ∧
      d'.Drawn none cals W (OoxmlSpec.kids ["tr"] tbl).length ∧
      d'.WidthKnown W ∧ d'.Columns cals W ∧ FinalLines Blank (wordPicture tbl) d'.all := by
  exact final_of hroot hnotes hi hfin (word_provisional cfg bc cals hcals following styles nature W tbl h hne htitle hplain hplain' tree hconv)

/-! ### examples -/

def footE1 : Node := .elem (qn "entry") [] (some "a") [] none
def footE2 : Node := .elem (qn "entry") [(qn "colsep", "0")] (some "b") [.elem (qn "b") [] (some "bold") [] none] none
def footE3 : Node := .elem (qn "entry") [(qn "align", "right")] (some "c") [] none
def footE4 : Node := .elem (qn "entry") [] none [] none
def footE5 : Node := .elem (qn "entry") [(qn "namest", "c1"), (qn "nameend", "c2")] (some "e") [] none
def footR1 : Node := .elem (qn "row") [(qn "rowsep", "1")] none [footE1, footE2] none
def footR2 : Node := .elem (qn "row") [(qn "valign", "bottom")] none [footE3, footE4] none
def footR3 : Node := .elem (qn "row") [] none [footE5] none
def footHead : Node := .elem (qn "thead") [(qn "valign", "top")] none [footR1] none
def footBody : Node := .elem (qn "tbody") [] none [footR2] none
def footFoot : Node := .elem (qn "tfoot") [] none [footR3] none
def footC1 : Node := .elem (qn "colspec") [(qn "colwidth", "4cm")] none [] none
def footC2 : Node := .elem (qn "colspec") [(qn "align", "right")] none [] none
def footTg : Node := .elem (qn "tgroup") [(qn "cols", "2")] none [footC1, footC2, footHead, footBody, footFoot] none
def footTable : Node := .elem (qn "table") [(qn "frame", "topbot")] none [footTg] none

/-- a table with a header, a body and a footer -/
def footDemo : CalsDoc :=
  ⟨footTable, footTg, [⟨footC1, 1⟩, ⟨footC2, 2⟩],
   [⟨footHead, [⟨footR1, [⟨footE1, ⟨⟨1, 1⟩, ⟨1, 1⟩⟩⟩, ⟨footE2, ⟨⟨2, 1⟩, ⟨2, 1⟩⟩⟩]⟩]⟩,
    ⟨footBody, [⟨footR2, [⟨footE3, ⟨⟨1, 2⟩, ⟨1, 2⟩⟩⟩, ⟨footE4, ⟨⟨2, 2⟩, ⟨2, 2⟩⟩⟩]⟩]⟩,
    ⟨footFoot, [⟨footR3, [⟨footE5, ⟨⟨1, 3⟩, ⟨2, 3⟩⟩⟩]⟩]⟩]⟩

theorem footDemo_nested : footDemo.Nested none := by
  refine ⟨rfl, ?_, rfl, ?_, ?_, ?_, ?_, ?_⟩
  · exact .take _ _ _ .nil
  · exact .take _ _ _ (.take _ _ _ (.take _ _ _ (.take _ _ _ (.take _ _ _ .nil))))
  · intro c hc
    simp only [footDemo, List.mem_cons, List.not_mem_nil, or_false] at hc
    rcases hc with rfl | rfl <;> exact ⟨rfl, noCals_of (by decide +kernel)⟩
  · intro b hb
    simp only [footDemo, List.mem_cons, List.not_mem_nil, or_false] at hb
    rcases hb with rfl | rfl | rfl
    · exact ⟨⟨"thead", by simp, rfl⟩, .take _ _ _ .nil⟩
    · exact ⟨⟨"tbody", by simp, rfl⟩, .take _ _ _ .nil⟩
    · exact ⟨⟨"tfoot", by simp, rfl⟩, .take _ _ _ .nil⟩
  · intro r hr
    simp only [footDemo, CalsDoc.rows, List.flatMap_cons, List.flatMap_nil, List.map_cons, List.map_nil, List.cons_append, List.nil_append, List.append_nil,
      List.mem_cons, List.not_mem_nil, or_false] at hr
    rcases hr with rfl | rfl | rfl
    · exact ⟨rfl, .take _ _ _ (.take _ _ _ .nil)⟩
    · exact ⟨rfl, .take _ _ _ (.take _ _ _ .nil)⟩
    · exact ⟨rfl, .take _ _ _ .nil⟩
  · intro e he
    simp only [footDemo, CalsDoc.rows, CalsDoc.entries, List.flatMap_cons, List.flatMap_nil, List.map_cons, List.map_nil, List.cons_append, List.nil_append,
      List.append_nil, List.mem_cons, List.not_mem_nil, or_false] at he
    rcases he with rfl | rfl | rfl | rfl | rfl <;> exact ⟨rfl, noCals_of (by decide +kernel)⟩

theorem footDemo_drawn : footDemo.Drawn none 2 3 := by
  have he : footDemo.entries.map (·.2.box) = [⟨⟨1, 1⟩, ⟨1, 1⟩⟩, ⟨⟨2, 1⟩, ⟨2, 1⟩⟩, ⟨⟨1, 2⟩, ⟨1, 2⟩⟩, ⟨⟨2, 2⟩, ⟨2, 2⟩⟩, ⟨⟨1, 3⟩, ⟨2, 3⟩⟩] := rfl
  refine ⟨rfl, by omega, ?_, by decide +kernel, ?_, by decide +kernel, ?_, ?_⟩
  · intro i r hr e he
    have hi : i < 3 := (List.getElem?_eq_some_iff.mp hr).1
    have : i = 0 ∨ i = 1 ∨ i = 2 := by omega
    rcases this with rfl | rfl | rfl <;> cases hr <;> simp only [List.mem_cons, List.not_mem_nil, or_false] at he
    · rcases he with rfl | rfl <;> rfl
    · rcases he with rfl | rfl <;> rfl
    · rcases he with rfl; rfl
  · intro e he
    simp only [footDemo, CalsDoc.rows, CalsDoc.entries, List.flatMap_cons, List.flatMap_nil, List.map_cons, List.map_nil, List.cons_append, List.nil_append,
      List.append_nil, List.mem_cons, List.not_mem_nil, or_false] at he
    rcases he with rfl | rfl | rfl | rfl | rfl
    · exact ⟨.inl ⟨rfl, rfl, rfl⟩, .inl ⟨rfl, rfl⟩⟩
    · exact ⟨.inl ⟨rfl, rfl, rfl⟩, .inl ⟨rfl, rfl⟩⟩
    · exact ⟨.inl ⟨rfl, rfl, rfl⟩, .inl ⟨rfl, rfl⟩⟩
    · exact ⟨.inl ⟨rfl, rfl, rfl⟩, .inl ⟨rfl, rfl⟩⟩
    · exact ⟨.inr ⟨"c1", "c2", 1, 2, rfl, rfl, ⟨['c'], ['1'], [], by decide +kernel⟩, ⟨['c'], ['2'], [], by decide +kernel⟩, rfl⟩, .inl ⟨rfl, rfl⟩⟩
  · have : (footDemo.entries.map (·.2.box)).Pairwise (fun a b => ¬ Overlap a b) := by
      rw [he]
      simp only [List.pairwise_cons, List.mem_cons, List.not_mem_nil, or_false]
      simp only [Overlap, InBox]
      refine ⟨?_, ?_, ?_, ?_, ?_, List.Pairwise.nil⟩ <;>
      · rintro a h ⟨p, hp⟩
        rcases h with rfl | rfl | rfl | rfl <;> simp only at hp <;> omega
    rw [List.pairwise_map] at this
    exact this
  · intro p h1 h2 h3 h4
    have : ∃ b ∈ footDemo.entries.map (·.2.box), InBox p b := by
      rw [he]
      simp only [List.mem_cons, List.not_mem_nil, or_false, exists_eq_or_imp, exists_eq_left, InBox]
      omega
    obtain ⟨b, hb, hp⟩ := this
    obtain ⟨e, he', rfl⟩ := List.mem_map.mp hb
    exact ⟨e, he', hp⟩

theorem footDemo_columns : footDemo.Columns none 2 := by
  refine ⟨?_, by decide +kernel, by decide +kernel⟩
  intro i c hi
  have hlt : i < 2 := (List.getElem?_eq_some_iff.mp hi).1
  have : i = 0 ∨ i = 1 := by omega
  rcases this with rfl | rfl <;> cases hi
  · exact .inl ⟨.inl rfl, rfl⟩
  · exact .inl ⟨.inl rfl, rfl⟩

theorem footDemo_shows : CalsShows footDemo (calsPictureOf footDemo ["header", "body", "footer"]) :=
  .cons ⟨⟨_, rfl, by decide⟩, rfl⟩ (.cons ⟨⟨_, rfl, by decide⟩, rfl⟩ (.cons ⟨⟨_, rfl, by decide⟩, rfl⟩ .nil))

theorem footDemo_last : FootersLast 2 (calsPictureOf footDemo ["header", "body", "footer"]) := by
  refine ⟨(calsPictureOf footDemo ["header", "body", "footer"]).take 2, (calsPictureOf footDemo ["header", "body", "footer"]).drop 2,
    (List.take_append_drop 2 _).symm, by decide +kernel, by decide +kernel, ?_⟩
  intro l hl
  rw [show (calsPictureOf footDemo ["header", "body", "footer"]).drop 2 = [⟨"footer", [(⟨⟨1, 3⟩, ⟨2, 3⟩⟩, insideToks footE5)]⟩] from rfl] at hl
  rw [List.mem_singleton.mp hl]
  exact ⟨rfl, _, rfl, rfl, rfl, rfl⟩

/-- a document with a paragraph and twice the same table -/
def twice (tree : Node) : Node :=
  .elem (qn "DOC") [] none [.elem (qn "P") [] (some "text") [] none, tree.setTail (some "end"), .elem (qn "DIV") [] none [tree.setTail none] none] none

theorem twice_tables {tree : Node} (h : tree.tag? = some (FmxSpec.name "TBL")) : TablesApart (twice tree) ∧ topTables (twice tree) = [tree.setTail (some "end"), tree.setTail none] := by
  obtain ⟨a, x, cs, tl, rfl⟩ := toks_elem tree h
  refine ⟨.inr ⟨by decide, by decide, .inr ⟨by decide, by decide, trivial⟩, .inl rfl, .inr ⟨by decide, by decide, .inl rfl, trivial⟩, trivial⟩, ?_⟩
  simp [topTables, topTablesList, twice, qn, FmxSpec.name, Node.setTail]

theorem footDemo_accepted : Accepted (⟨none, ['m', 'm'], id⟩ : CalsP.Config) footDemo.table := by
  refine ⟨?_, ?_⟩
  · intro f hf _
    cases hf; decide
  · intro s hs _
    cases hs

/-- not vacuous: the tables of a document are those which the builder has written, with a note -/
example : ∃ (bc : Fmx.Config) (root : Node), TablesApart root ∧ (topTables root).length = 2 ∧
    ∀ T ∈ topTables root, ∃ (d : FmxDoc) (w h : Nat) (body foot : List DocLine), Provisional bc.calsNs bc.calsNs w h body foot T d := by
  obtain ⟨tree, ht⟩ := ok_of (show ((Convert.cals2formex ⟨none, ['m', 'm'], id⟩ ⟨true, true, none, ['m', 'm'], id⟩).convert [] footDemo.table).isOk = true by decide +kernel)
  obtain ⟨d, body, foot, P, _⟩ := cals_provisional ⟨none, ['m', 'm'], id⟩ ⟨true, true, none, ['m', 'm'], id⟩ none (fun _ => rfl) footDemo 2 3 footDemo_nested footDemo_drawn
    footDemo_columns footDemo_accepted _ footDemo_shows (fun _ => noTitle_of (by decide +kernel)) footDemo_last (fun _ => by decide +kernel)
    (without_of (by decide +kernel)) (without_of (by decide +kernel)) [] tree ht
  obtain ⟨h1, h2⟩ := twice_tables P.tag
  refine ⟨⟨true, true, none, ['m', 'm'], id⟩, twice tree, h1, by rw [h2]; rfl, ?_⟩
  rw [h2]
  intro T hT
  simp only [List.mem_cons, List.not_mem_nil, or_false] at hT
  rcases hT with rfl | rfl <;> exact ⟨d, 2, 3, body, foot, P.setTail _⟩

/-- not vacuous: a CALS table with a header, a body and a footer, which is twice in the document; titles and CALS attributes are asked for -/
example : ∃ (pc : CalsP.Config) (bc : Fmx.Config) (p : Picture) (tree out : Node), bc.useCals = true ∧ bc.detectTitles = true ∧
    footDemo.Nested pc.ns ∧ footDemo.Drawn pc.ns 2 3 ∧ footDemo.Columns pc.ns 2 ∧ Accepted pc footDemo.table ∧ CalsShows footDemo p ∧ NoTitle 2 p ∧ FootersLast 2 p ∧
    (∀ r ∈ footDemo.rows, r.2.node.attr ⟨pc.ns, "rowstyle"⟩ = none) ∧
    Without none (["TBL", "GR.NOTES"] ++ formexNames) p ∧ Without bc.calsNs ["colspec"] p ∧ (Convert.cals2formex pc bc).convert [] footDemo.table = .ok tree ∧
    TablesApart (twice tree) ∧ NotesApart (twice tree) ∧ (topTables (twice tree))[1]? = some (tree.setTail none) ∧ Fmx.finalize bc (twice tree) = .ok out := by
  obtain ⟨tree, ht⟩ := ok_of (show ((Convert.cals2formex ⟨none, ['m', 'm'], id⟩ ⟨true, true, none, ['m', 'm'], id⟩).convert [] footDemo.table).isOk = true by decide +kernel)
  have hc := C88_cals_to_formex ⟨none, ['m', 'm'], id⟩ ⟨true, true, none, ['m', 'm'], id⟩ none (fun _ => rfl) footDemo 2 3 footDemo_nested footDemo_drawn footDemo_columns
    footDemo_accepted _ footDemo_shows (fun _ => noTitle_of (by decide +kernel)) (without_of (by decide +kernel)) (without_of (by decide +kernel)) [] tree ht
  obtain ⟨_, htag, _⟩ := hc
  obtain ⟨h1, h2⟩ := twice_tables htag
  have hfin : (match (Convert.cals2formex ⟨none, ['m', 'm'], id⟩ ⟨true, true, none, ['m', 'm'], id⟩).convert [] footDemo.table with
    | .ok tree => decide (NotesApart (twice tree)) && (Fmx.finalize ⟨true, true, none, ['m', 'm'], id⟩ (twice tree)).isOk
    | .error _ => false) = true := by decide +kernel
  rw [ht] at hfin
  simp only [Bool.and_eq_true, decide_eq_true_eq] at hfin
  obtain ⟨hn, hfin⟩ := hfin
  obtain ⟨out, hout⟩ := ok_of hfin
  exact ⟨_, _, _, tree, out, rfl, rfl, footDemo_nested, footDemo_drawn, footDemo_columns, footDemo_accepted, footDemo_shows, noTitle_of (by decide +kernel), footDemo_last,
    by decide +kernel, without_of (by decide +kernel), without_of (by decide +kernel), ht, h1, hn, by rw [h2]; rfl, hout⟩

open Ooxml OoxmlSpec in
/-- not vacuous: a Word table of three columns and four rows, with merged cells -/
example : ∃ (bc : Fmx.Config) (tree out : Node), bc.detectTitles = true ∧ GoodTable wConfig (Convert.firstSectList []) stylesOf natureOf 3 wordMerge ∧
    kids ["tr"] wordMerge ≠ [] ∧ NoTitle 3 (wordPicture wordMerge) ∧ Without none (["TBL", "GR.NOTES"] ++ formexNames) (wordPicture wordMerge) ∧
    Without bc.calsNs ["colspec"] (wordPicture wordMerge) ∧ (Convert.ooxml2formex wConfig bc).convert [] wordMerge = .ok tree ∧
    TablesApart (twice tree) ∧ NotesApart (twice tree) ∧ (topTables (twice tree))[0]? = some (tree.setTail (some "end")) ∧ Fmx.finalize bc (twice tree) = .ok out := by
  obtain ⟨tree, ht⟩ := ok_of (show ((Convert.ooxml2formex wConfig ⟨true, false, none, ['m', 'm'], id⟩).convert [] wordMerge).isOk = true by decide +kernel)
  have hne : kids ["tr"] wordMerge ≠ [] := by
    intro h
    have : (kids ["tr"] wordMerge).length = 4 := by decide +kernel
    rw [h] at this; cases this
  obtain ⟨_, htag, _⟩ := C88_word_to_formex wConfig ⟨true, false, none, ['m', 'm'], id⟩ none (fun _ => rfl) [] stylesOf natureOf 3 wordMerge wordMerge_good hne
    (fun _ => noTitle_of (by decide +kernel)) (without_of (by decide +kernel)) (without_of (by decide +kernel)) tree ht
  obtain ⟨h1, h2⟩ := twice_tables htag
  have hfin : (match (Convert.ooxml2formex wConfig ⟨true, false, none, ['m', 'm'], id⟩).convert [] wordMerge with
    | .ok tree => decide (NotesApart (twice tree)) && (Fmx.finalize ⟨true, false, none, ['m', 'm'], id⟩ (twice tree)).isOk
    | .error _ => false) = true := by decide +kernel
  rw [ht] at hfin
  simp only [Bool.and_eq_true, decide_eq_true_eq] at hfin
  obtain ⟨hn, hfin⟩ := hfin
  obtain ⟨out, hout⟩ := ok_of hfin
  exact ⟨⟨true, false, none, ['m', 'm'], id⟩, tree, out, rfl, wordMerge_good, hne, noTitle_of (by decide +kernel), without_of (by decide +kernel),
    without_of (by decide +kernel), ht, h1, hn, by rw [h2]; rfl, hout⟩

end Benker
