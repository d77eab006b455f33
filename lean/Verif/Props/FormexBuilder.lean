import Verif.Lemmas.FormexBuilder
import Verif.Props.FormexNumbers
import Verif.Props.CalsRoundTrip

/-! C71, C72: the tree generated by the Formex builder. -/

namespace Benker
open PyM Cals CalsSpec FmxSpec

theorem fmx_generate_eq {t : Table Content} (h : t.Inv) (cfg : Fmx.Config) (noSeq : Nat) :
    ∃ bb, t.boundingBox = .ok bb ∧ eval (Fmx.generate cfg noSeq) t =
      Fmx.buildTree cfg noSeq t bb (t.getItem (.coord ⟨1, 1⟩)) (t.baseViews .col) (t.baseViews .row) := by
  have hb : ∃ bb, t.boundingBox = .ok bb := by
    rcases boundingBox_inv t.grid h.grid with ⟨_, h2⟩ | ⟨b, _, h2, _⟩
    · exact ⟨_, h2⟩
    · exact ⟨_, h2⟩
  obtain ⟨bb, hb⟩ := hb
  refine ⟨bb, hb, ?_⟩
  unfold eval Fmx.generate
  simp only [bind_run]
  rw [Table.views_run .col t h.grid]
  simp only
  rw [Table.views_run .row _ (by simpa using h.grid), Table.baseViews_setViews_ne (by decide)]
  simp only [get_run, lift_run]
  have hb' : ((t.setViews .col (t.baseViews .col)).setViews .row (t.baseViews .row)).boundingBox = .ok bb := by
    unfold Table.boundingBox at hb ⊢; simpa using hb
  rw [hb']
  rfl

/-- what is written, as calls of the builder -/
theorem fmx_buildTree_raw {cfg : Fmx.Config} {noSeq : Nat} {t : Table Content} {bb : Option Box} {first : Except PyErr (Cell Content)}
    {cols rows : List (View Content)} {tree : Node} (h : Fmx.buildTree cfg noSeq t bb first cols rows = .ok tree) :
    ∃ (attrs cattrs : Dict QName String) (title colspecs : List Node) (nodes : List (List Node)) (rest : List (View Content)) (B : Ctx),
      B.bb = bb ∧ Fmx.tableSep cfg t.styles "x-cell-border-right" = .ok B.colsep ∧ Fmx.tableSep cfg t.styles "x-cell-border-bottom" = .ok B.rowsep ∧
      Fmx.splitTitle cfg bb first rows = .ok (title, rest) ∧ Fmx.tblAttrs noSeq cols.length t.styles = .ok attrs ∧
      Fmx.corpusAttrs cfg t = .ok cattrs ∧
      tree = .elem (name "TBL") attrs none (title ++ [.elem (name "CORPUS") cattrs none (colspecs ++ nodes.flatten) none]) none ∧
      (cfg.useCals = false → colspecs = []) ∧
      (cfg.useCals = true → All₂ (fun v e => Fmx.buildColspec cfg B.colsep B.rowsep v = .ok e) cols colspecs) ∧
      All₂ (fun r ns => Fmx.buildRow cfg B.colsep B.rowsep B.bb r = .ok ns) rest nodes := by
  unfold Fmx.buildTree at h
  obtain ⟨attrs, h0, h⟩ := bind_ok h
  obtain ⟨ns, h1, h⟩ := bind_ok h
  cases h
  unfold Fmx.buildCorpus at h1
  obtain ⟨⟨title, rest⟩, h2, h1⟩ := bind_ok h1
  obtain ⟨cattrs, h3, h1⟩ := bind_ok h1
  obtain ⟨colsep, h4, h1⟩ := bind_ok h1
  obtain ⟨rowsep, h5, h1⟩ := bind_ok h1
  simp only at h1
  split at h1
  · rename_i hu
    obtain ⟨colspecs, h6, h1⟩ := bind_ok h1
    obtain ⟨nodes, h7, h1⟩ := bind_ok h1
    cases h1
    exact ⟨attrs, cattrs, title, colspecs, nodes, rest, ⟨colsep, rowsep, bb⟩, rfl, h4, h5, h2, h0, h3, rfl, by simp [hu],
      fun _ => mapM_ok_all₂ h6, mapM_ok_all₂ h7⟩
  · rename_i hu
    rw [pure_bind] at h1
    obtain ⟨nodes, h7, h1⟩ := bind_ok h1
    cases h1
    exact ⟨attrs, cattrs, title, [], nodes, rest, ⟨colsep, rowsep, bb⟩, rfl, h4, h5, h2, h0, h3, rfl, fun _ => rfl,
      fun e => absurd e hu, mapM_ok_all₂ h7⟩

theorem fmx_colspec_eq (cfg : Fmx.Config) (colsep rowsep : String) (v : View Content) :
    Fmx.buildColspec cfg colsep rowsep v = Cals.buildColspec cfg.cals colsep rowsep v := rfl

/-! ### numbers and page sizes -/

theorem pageSize_spec {styles : Styles} {v : Option String} (h : Fmx.pageSize styles = .ok v) : PageSizeFor styles v := by
  unfold Fmx.pageSize at h
  cases ho : Dict.get? styles "x-sect-orient" with
  | none => rw [ho] at h; cases h; exact ⟨fun _ => rfl, by simp [ho]⟩
  | some o =>
    rw [ho] at h
    refine ⟨by simp [ho], ?_⟩
    intro o' ho'
    rw [ho] at ho'; cases ho'
    have key : ∃ w h' : Int, (Dict.get? styles "x-sect-size" = none ∧ w = 595 ∧ h' = 842 ∨ Dict.get? styles "x-sect-size" = some (.pair w h')) ∧
        v = Fmx.orientSize (Fmx.smallPage w h') o := by
      obtain ⟨small, hs, h⟩ := bind_ok h
      cases h
      unfold Fmx.smallSize at hs
      split at hs
      · rename_i e; cases hs; exact ⟨595, 842, .inl ⟨e, rfl, rfl⟩, rfl⟩
      · rename_i w h' e; cases hs; exact ⟨w, h', .inr e, rfl⟩
      · cases hs
    obtain ⟨w, h', h1, h2⟩ := key
    refine ⟨w, h', h1, ?_, ?_⟩
    · intro hsm
      have : Fmx.smallPage w h' = true := by unfold Fmx.smallPage; simpa using hsm
      rw [h2, this]
      cases o with
      | str x =>
        by_cases hx : x = "landscape"
        · subst hx; rfl
        · simp [Fmx.orientSize, Fmx.pageSizes, Dict.get?_cons, hx, Ne.symm hx, Dict.get?_nil]
      | _ => rfl
    · intro hsm
      have : Fmx.smallPage w h' = false := by
        rw [Bool.eq_false_iff]; intro h; exact hsm (by unfold Fmx.smallPage at h; simpa using h)
      rw [h2, this]
      cases o with
      | str x =>
        by_cases hx : x = "landscape"
        · subst hx; rfl
        · by_cases hy : x = "portrait"
          · subst hy; rfl
          · simp [Fmx.orientSize, Fmx.pageSizes, Dict.get?_cons, hx, hy, Ne.symm hx, Ne.symm hy, Dict.get?_nil]
      | _ => rfl

theorem tblAttrs_spec {noSeq cols : Nat} {styles : Styles} {a : Dict QName String} (h : Fmx.tblAttrs noSeq cols styles = .ok a) :
    Dict.get? a (name "NO.SEQ") = some (fourDigits noSeq) ∧ Dict.get? a (name "COLS") = some (intStr cols) ∧
      PageSizeFor styles (Dict.get? a (name "PAGE.SIZE")) := by
  unfold Fmx.tblAttrs at h
  obtain ⟨v, hv, h⟩ := bind_ok h
  have hp := pageSize_spec hv
  cases v with
  | none => cases h; exact ⟨rfl, rfl, hp⟩
  | some s =>
    cases h
    refine ⟨?_, ?_, ?_⟩
    · rw [Dict.get?_set, if_neg (by decide)]; rfl
    · rw [Dict.get?_set, if_neg (by decide)]; rfl
    · rw [Dict.get?_set, if_pos (show Fmx.f "PAGE.SIZE" = name "PAGE.SIZE" from rfl)]; exact hp

/-! ### titles -/

theorem asNode_ok {c : Option Content} {n : Node} (h : Fmx.asNode c = .ok n) : c = some (.node n) := by
  unfold Fmx.asNode at h
  split at h
  · cases h; rfl
  · cases h

theorem asNodes_ok {l : List (Option Content)} {ns : List Node} (h : l.mapM Fmx.asNode = .ok ns) : l = ns.map (fun x => some (.node x)) := by
  have := mapM_ok_all₂ h
  clear h
  induction this with
  | nil => rfl
  | cons h1 _ ih => rw [ih, asNode_ok h1]; rfl

theorem titleCell_spec {c : Cell Content} {nodes : List Node} (h : Fmx.titleCell c = .ok nodes) : TitleCellFor c nodes := by
  unfold Fmx.titleCell at h
  split at h
  · rename_i he
    cases h
    exact ⟨fun _ => rfl, fun hn => absurd ((isEmpty_iff c).mp he) hn⟩
  · rename_i he
    refine ⟨fun hn => absurd ((isEmpty_iff c).mpr hn) he, fun _ => ?_⟩
    split at h
    · rename_i s hs
      cases h
      rw [hs]
      refine ⟨?_, by simp, by simp⟩
      intro s' h'; cases h'; rfl
    · rename_i hnt
      obtain ⟨l, hl, h⟩ := bind_ok h
      cases l with
      | nil => cases h
      | cons p ps =>
        obtain ⟨n, h1, h⟩ := bind_ok h
        obtain ⟨ns, h2, h⟩ := bind_ok h
        cases h
        have e1 := asNode_ok h1
        have e2 := asNodes_ok h2
        refine ⟨fun s hs => absurd hs (hnt s), ?_, ?_⟩
        · intro l hc
          rw [hc] at hl; cases hl
          exact ⟨n, ns, by rw [e1, e2]; rfl, rfl⟩
        · intro e hc
          rw [hc] at hl
          refine ⟨n, ns, ?_, rfl⟩
          have hl := Except.ok.inj hl
          rw [e1, e2] at hl
          have inj : Function.Injective (fun c : Node => some (Content.node c)) := by
            intro a b hab; simpa using hab
          exact inj.list_map (hl.trans rfl)

theorem splitTitle_spec {cfg : Fmx.Config} {t : Table Content} {bb : Option Box} (hbb : t.boundingBox = .ok bb) {rows rest : List (View Content)}
    {title : List Node} (h : Fmx.splitTitle cfg bb (t.getItem (.coord ⟨1, 1⟩)) rows = .ok (title, rest)) :
    (title = [] ∧ rest = rows ∧ ¬ (cfg.detectTitles = true ∧ HasTitle t)) ∨
    ∃ r e, rows = r :: rest ∧ title = [e] ∧ TitleFor r e ∧ cfg.detectTitles = true ∧ HasTitle t := by
  unfold Fmx.splitTitle at h
  split at h
  · rename_i hd
    obtain ⟨c, hc, h⟩ := bind_ok h
    obtain ⟨yes, hy, h⟩ := bind_ok h
    unfold Fmx.isTitle at hy
    cases bb with
    | none => cases hy
    | some bb =>
      have hiff : yes = true ↔ HasTitle t := by
        have hy := Except.ok.inj hy
        rw [← hy]
        rw [Bool.and_eq_true, decide_eq_true_eq, decide_eq_true_eq]
        constructor
        · rintro ⟨h1, h2⟩
          refine ⟨c, bb, hc, hbb, ?_, h2⟩
          simp only [Cell.width, Box.width, Cell.max, Cell.min] at h1 ⊢; omega
        · rintro ⟨c', bb', h1, h2, h3, h4⟩
          rw [hc] at h1; cases h1
          rw [hbb] at h2; cases h2
          refine ⟨?_, h4⟩
          simp only [Cell.width, Box.width, Cell.max, Cell.min] at h3 ⊢; omega
      cases yes with
      | true =>
        rw [if_pos rfl] at h
        cases rows with
        | nil => cases h
        | cons r rs =>
          obtain ⟨e, he, h⟩ := bind_ok h
          cases h
          right
          refine ⟨r, e, rfl, rfl, ?_, hd, hiff.mp rfl⟩
          unfold Fmx.buildTitle at he
          obtain ⟨l, hl, he⟩ := bind_ok he
          cases he
          exact ⟨l, rfl, (mapM_ok_all₂ hl).imp (fun _ _ h => titleCell_spec h)⟩
      | false =>
        cases h
        left
        exact ⟨rfl, rfl, fun h => by have := hiff.mpr h.2; cases this⟩
  · rename_i hd
    cases h
    exact .inl ⟨rfl, rfl, fun h => hd h.1⟩

theorem views_eq {t : Table Content} (hi : t.Inv) {ax : Axis} {vs : List (View Content)} (h : eval (Table.views ax) t = .ok vs) :
    vs = t.baseViews ax := by
  unfold eval at h; rw [Table.views_run ax t hi.grid] at h; cases h; rfl

/-- **C71**: a table is written as a `<TBL>` with its number, its number of columns and the size of its page. Its `<CORPUS>` has, if CALS is asked for,
one `colspec` per column, numbered and named in order, then one `<ROW>` per row of the table, in order, with the type of its nature, and in it one
`<CELL>` per cell whose top row it is, with its column, its spans if it has several columns or rows (also in the CALS way if CALS is asked for), its type if
it is not that of the row, and its content; an empty cell contains `<IE/>`.
If titles are detected and the first row looks like a title, it is written as a `<TITLE>` instead.
For views without repetition, each cell is in exactly one row, that of its top coordinate. -/
theorem C71_formex_tree (cfg : Fmx.Config) (noSeq : Nat) (t : Table Content) (ht : t.Reachable) (tree : Node)
    (h : eval (Fmx.generate cfg noSeq) t = .ok tree) (rows cols : List (View Content)) (hrows : eval (Table.views .row) t = .ok rows)
    (hcols : eval (Table.views .col) t = .ok cols) :
    (∃ (attrs cattrs : Dict QName String) (title colspecs : List Node) (nodes : List (List Node)) (rest : List (View Content)),
      tree = .elem (name "TBL") attrs none (title ++ [.elem (name "CORPUS") cattrs none (colspecs ++ nodes.flatten) none]) none ∧
      Dict.get? attrs (name "NO.SEQ") = some (fourDigits noSeq) ∧ Dict.get? attrs (name "COLS") = some (intStr cols.length) ∧
      PageSizeFor t.styles (Dict.get? attrs (name "PAGE.SIZE")) ∧
      (cfg.useCals = false → cattrs = [] ∧ colspecs = []) ∧
      (cfg.useCals = true → colspecs.length = cols.length ∧ ∀ i (hi : i < colspecs.length), ColspecFor cfg.cals ((i : Int) + 1) colspecs[i]) ∧
      (title = [] ∧ rest = rows ∧ ¬ (cfg.detectTitles = true ∧ HasTitle t) ∨
        ∃ r e, rows = r :: rest ∧ title = [e] ∧ TitleFor r e ∧ cfg.detectTitles = true ∧ HasTitle t) ∧
      All₂ (FmxSpec.RowFor cfg.useCals cfg.calsNs) rest nodes) ∧
    (∀ i (hi : i < rows.length), ∀ c, c ∈ rows[i].owned ↔ c ∈ t.cells ∧ c.min.y = (i : Int) + 1) ∧
    (NoRepeat rows → (rows.flatMap (·.owned)).Perm t.cells) := by
  have hi := ht.inv
  have hdr := Table.base_describes hi .row
  have hdc := Table.base_describes hi .col
  have hr := views_eq hi hrows
  have hc := views_eq hi hcols
  rw [← hr] at hdr
  rw [← hc] at hdc
  obtain ⟨bb, hbb, he⟩ := fmx_generate_eq hi cfg noSeq
  rw [he, ← hr, ← hc] at h
  obtain ⟨attrs, cattrs, title, colspecs, nodes, rest, B, hB, _, _, h1, h2, h3, rfl, h4, h5, h6⟩ := fmx_buildTree_raw h
  have hsplit := splitTitle_spec hbb h1
  obtain ⟨a1, a2, a3⟩ := tblAttrs_spec h2
  refine ⟨⟨attrs, cattrs, title, colspecs, nodes, rest, rfl, a1, a2, a3, ?_, ?_, hsplit, ?_⟩, ?_, ?_⟩
  · intro hu
    refine ⟨?_, h4 hu⟩
    unfold Fmx.corpusAttrs at h3
    rw [hu] at h3; cases h3; rfl
  · intro hu
    have h5 := h5 hu
    have hlen := h5.length
    refine ⟨hlen.symm, ?_⟩
    intro i hlt
    have := buildColspec_ok (h5.getElem i (by omega) hlt)
    rw [hdc.pos i (by omega)] at this
    exact this
  · refine h6.imp_mem ?_
    intro r hm ns hns
    refine fmxRow_spec ?_ hns
    intro c hc
    have hmem : r ∈ rows := by
      rcases hsplit with ⟨_, e, _⟩ | ⟨r', _, e, _⟩
      · rw [← e]; exact hm
      · rw [e]; simp [hm]
    exact hi.grid.valid c ((hdr.owned r hmem c).mp hc).1
  · intro i hlt c
    rw [hdr.owned rows[i] (List.getElem_mem hlt) c, hdr.pos i hlt]
    rfl
  · intro hn
    exact perm_owned hi hdr (fun v hv => (hn v hv).1)

/-! ### C72 -/

theorem chars_elem {e : Node} {q : QName} (h : e.tag? = some q) (htl : e.tail = none) : charsOf (toks e) = charsOf (insideToks e) := by
  cases e with
  | elem t a x cs tl =>
    simp only [Node.tail] at htl
    subst htl
    simp [toks, charsOf, charsOf_append, insideToks, Node.text, Node.children, textToks]
  | pi => cases h
  | comment => cases h

theorem chars_list (ns : List Node) : charsOf (toksList ns) = ns.flatMap (fun n => charsOf (toks n)) := by
  induction ns with
  | nil => rfl
  | cons n ns ih => rw [toksList, charsOf_append, ih]; rfl

theorem chars_all₂ {α : Type} {R : α → Node → Prop} {f : α → List Char} {l : List α} {ns : List Node} (h : All₂ R l ns)
    (hf : ∀ a ∈ l, ∀ n, R a n → charsOf (toks n) = f a) : charsOf (toksList ns) = l.flatMap f := by
  induction h with
  | nil => rfl
  | @cons a n l ns h1 _ ih =>
    rw [toksList, charsOf_append, hf a (by simp) n h1, ih (fun a' ha' => hf a' (by simp [ha']))]; rfl

theorem chars_lists {α : Type} {R : α → List Node → Prop} {f : α → List Char} {l : List α} {ns : List (List Node)} (h : All₂ R l ns)
    (hf : ∀ a ∈ l, ∀ n, R a n → charsOf (toksList n) = f a) : charsOf (toksList ns.flatten) = l.flatMap f := by
  induction h with
  | nil => rfl
  | @cons a n l ns h1 _ ih =>
    rw [List.flatten_cons, toksList_append, charsOf_append, hf a (by simp) n h1, ih (fun a' ha' => hf a' (by simp [ha']))]; rfl

/-- the text of the nodes written for a row -/
theorem rowFor_text {cals : Bool} {ns : Option String} {r : View Content} {nodes : List Node} (h : FmxSpec.RowFor cals ns r nodes) :
    charsOf (toksList nodes) = r.owned.flatMap writtenText := by
  obtain ⟨row, h1, h2, h3, h4, _, h6⟩ := h
  have hrow : charsOf (toks row) = r.owned.flatMap writtenText := by
    rw [chars_elem h2 h4]
    unfold insideToks
    rw [h3, charsOf_append]
    rw [chars_all₂ (f := writtenText) h6]
    · rfl
    · intro c _ e he
      rw [chars_elem he.tag he.tail]; exact he.text
  rcases h1 with ⟨rfl, _⟩ | ⟨d1, d2, rfl, _⟩
  · simp [toksList, hrow]
  · simp [toksList, hrow, charsOf_append, toks, textToks, charsOf]

theorem pieces_nodes (cs : List Node) : (cs.map (fun c => some (Content.node c))).flatMap pieceToks = toksList cs := by
  induction cs with
  | nil => rfl
  | cons c cs ih => rw [List.map_cons, List.flatMap_cons, ih, toksList]; rfl

/-- the text of the elements written for a cell of the title -/
theorem titleCell_text {c : Cell Content} {nodes : List Node} (h : TitleCellFor c nodes)
    (hc : (∃ s, c.content = some (.text s)) ∨ (∃ l, c.content = some (.seq l)) ∨ WrittenEmpty c) : charsOf (toksList nodes) = writtenText c := by
  by_cases he : WrittenEmpty c
  · rw [h.1 he]
    have : writtenText c = [] := by
      unfold writtenText
      rcases he with e | e | e
      · rw [e]; split <;> rfl
      · rw [e]; split <;> rfl
      · rw [if_pos e]
    rw [this]; rfl
  · obtain ⟨h1, h2, _⟩ := h.2 he
    have hw : writtenText c = (Content.text? c.content).toList := by
      unfold writtenText; rw [if_neg (fun e => he (.inr (.inr e)))]
    rw [hw]
    rcases hc with ⟨s, hs⟩ | ⟨l, hl⟩ | hw
    · rw [h1 s hs, hs]
      simp [toksList, toks, charsOf, charsOf_append, charsOf_map, textToks, Content.text?, Content.str]
    · obtain ⟨n, ns, e1, e2⟩ := h2 l hl
      rw [e2, hl, e1]
      obtain ⟨f, hf, _⟩ := C42_mixed_content ((n :: ns).map (fun x => some (Content.node x))) (by
        intro c hc
        obtain ⟨m, _, rfl⟩ := List.mem_map.mp hc
        trivial)
      rw [text_of_toks hf]
      have hp : contentToks (some (.seq ((n :: ns).map (fun x => some (Content.node x))))) = toksList (n :: ns) := pieces_nodes _
      rw [hp]
      simp [toksList, toks, charsOf, charsOf_append, textToks]
    · exact absurd hw he

/-- **C72, part proved**: the text of the generated table is the text of its cells, row after row, whether a title is detected or not, if no cell of the
first row contains a single element. -/
theorem C72_text_kept_partial (cfg : Fmx.Config) (noSeq : Nat) (t : Table Content) (ht : t.Reachable) (tree : Node)
    (h : eval (Fmx.generate cfg noSeq) t = .ok tree) (rows : List (View Content)) (hrows : eval (Table.views .row) t = .ok rows)
    (hfirst : cfg.detectTitles = true → ∀ c ∈ t.cells, c.min.y = 1 →
      (∃ s, c.content = some (.text s)) ∨ (∃ l, c.content = some (.seq l)) ∨ WrittenEmpty c) :
    charsOf (insideToks tree) = rows.flatMap (fun r => r.owned.flatMap writtenText) := by
  have hcols : eval (Table.views .col) t = .ok (t.baseViews .col) := by unfold eval; rw [Table.views_run .col t ht.inv.grid]
  obtain ⟨⟨attrs, cattrs, title, colspecs, nodes, rest, rfl, _, _, _, c1, c2, hs, hrest⟩, howned, _⟩ := C71_formex_tree cfg noSeq t ht tree h rows _ hrows hcols
  have hcol : charsOf (toksList colspecs) = [] := by
    cases hu : cfg.useCals with
    | false => rw [(c1 hu).2]; rfl
    | true =>
      obtain ⟨_, hc⟩ := c2 hu
      rw [chars_list, List.flatMap_eq_nil_iff]
      intro e he
      obtain ⟨i, hlt, rfl⟩ := List.getElem_of_mem he
      have h0 := hc i hlt
      rw [chars_elem h0.tag h0.empty.2, h0.empty.1]; rfl
  have hcorpus : charsOf (toksList [Node.elem (name "CORPUS") cattrs none (colspecs ++ nodes.flatten) none]) =
      rest.flatMap (fun r => r.owned.flatMap writtenText) := by
    have := chars_lists (f := fun r => r.owned.flatMap writtenText) hrest (fun r _ ns hns => rowFor_text hns)
    simp [toksList, toks, charsOf, charsOf_append, textToks, toksList_append, hcol, this]
  have hin : charsOf (insideToks (Node.elem (name "TBL") attrs none (title ++ [Node.elem (name "CORPUS") cattrs none (colspecs ++ nodes.flatten) none]) none)) =
      charsOf (toksList title) ++ rest.flatMap (fun r => r.owned.flatMap writtenText) := by
    unfold insideToks
    simp only [Node.text, Node.children, charsOf_append, toksList_append, hcorpus]; rfl
  rw [hin]
  rcases hs with ⟨rfl, rfl, _⟩ | ⟨r, e, rfl, rfl, ⟨parts, rfl, hp⟩, hd, _⟩
  · rfl
  · rw [List.flatMap_cons]
    congr 1
    have := chars_lists (f := writtenText) hp (fun c hc ns hns => titleCell_text hns (by
      have := (howned 0 (by simp) c).mp hc
      exact hfirst hd c this.1 (by simpa using this.2)))
    simp [toksList, toks, charsOf, charsOf_append, textToks, this]

/-- a title over two columns, whose content is `content`, and a row of two cells -/
def titled (content : Content) : Table Content :=
  Table.runFrom ⟨[], none, ⟨[]⟩, none, none⟩
    [.access .row, .access .col,
     .grid (.set (.tuple [.int 1, .int 1]) ⟨some content, some [("align", .str "center")], none, 1, 1, 2, 1⟩),
     .grid (.set (.tuple [.int 1, .int 2]) ⟨some (.text "b"), none, none, 1, 1, 1, 1⟩),
     .grid (.set (.tuple [.int 2, .int 2]) ⟨some (.text "c"), none, none, 1, 1, 1, 1⟩)]

theorem titled_reachable (content : Content) : (titled content).Reachable := ⟨[], none, none, _, _, by simp, rfl, rfl⟩

/-- `<P>Title <B>one</B></P>` -/
def titleNode : Node := .elem (name "P") [] (some "Title ") [.elem (name "B") [] (some "one") [] none] none

def titleConfig : Fmx.Config := ⟨true, false, none, "mm".toList, id⟩

/-- **C72 is false of the code**: the content of the title is taken for a list of paragraphs. The text of a single element is lost; a list which begins
with a text - what the CALS parser makes of `<entry>Title</entry>` - is refused. -/
theorem C72_title_counterexample :
    ((eval (Fmx.generate titleConfig 1) (titled (.node titleNode))).map (fun n => charsOf (insideToks n))) = .ok "onebc".toList ∧
    (Content.text? (some (.node titleNode))).toList = "Title one".toList ∧
    ((eval (Fmx.generate titleConfig 1) (titled (.seq [some (.text "Title")]))).map (fun _ => ())) = .error .typeError ∧
    CalsP.entryContent (.elem ⟨none, "entry"⟩ [] (some "Title") [] none) = [some (.text "Title")] := by
  refine ⟨by decide +kernel, by decide +kernel, by decide +kernel, rfl⟩

/-- the hypotheses of `C71_formex_tree` and `C72_text_kept_partial` hold of a table with a title made of two paragraphs -/
example : let t := titled (.seq [some (.node titleNode), some (.node titleNode)])
    t.Reachable ∧ (∃ tree rows cols, eval (Fmx.generate titleConfig 1) t = .ok tree ∧ eval (Table.views .row) t = .ok rows ∧
      eval (Table.views .col) t = .ok cols ∧ rows.length = 2 ∧ charsOf (insideToks tree) = "Title oneTitle onebc".toList) ∧
    (titleConfig.detectTitles = true → ∀ c ∈ t.cells, c.min.y = 1 →
      (∃ s, c.content = some (.text s)) ∨ (∃ l, c.content = some (.seq l)) ∨ WrittenEmpty c) := by
  intro t
  have hr : t.Reachable := titled_reachable _
  have hv := fun ax => Table.views_run ax t hr.inv.grid
  refine ⟨hr, ?_, ?_⟩
  · have h : ((eval (Fmx.generate titleConfig 1) t).map (fun n => charsOf (insideToks n))) = .ok "Title oneTitle onebc".toList := by decide +kernel
    cases h1 : eval (Fmx.generate titleConfig 1) t with
    | error e => rw [h1] at h; cases h
    | ok tree =>
      rw [h1] at h
      exact ⟨tree, t.baseViews .row, t.baseViews .col, rfl, by rw [eval, hv], by rw [eval, hv], by decide +kernel, Except.ok.inj h⟩
  · intro _ c hc hy
    have : ∀ c ∈ t.grid.cells, c.min.y = 1 → (match c.content with | some (.seq _) => true | _ => false) = true := by decide +kernel
    have := this c hc hy
    split at this
    · rename_i l e; exact .inr (.inl ⟨l, e⟩)
    · cases this

end Benker
