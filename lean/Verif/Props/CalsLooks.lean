import Verif.Lemmas.CalsLooks
import Verif.Props.CalsRoundTrip

/-! C63-C65: what the CALS parser reads of the styles which the CALS builder has written. -/

namespace Benker
open PyM Cals CalsSpec

/-- a table which can be written in CALS and read again: its cells cover a rectangle without overlapping, its rows list them from left to right and are
in the order of the sorting option, no content holds a CALS element, and the builder writes `tree` -/
structure Exchange (bc : Cals.Config) (pc : CalsP.Config) (t : Table Content) (rows cols : List (View Content)) (tree : Node) : Prop where
  config : ∃ ns u tg sorting fl, Cals.Config.new ns u tg sorting fl = .ok bc
  namespaces : pc.ns = bc.ns
  unit : ∃ n ∈ Units.unitNames, pc.widthUnit = n.toList
  reachable : t.Reachable
  theRows : eval (Table.views .row) t = .ok rows
  theCols : eval (Table.views .col) t = .ok cols
  notEmpty : t.cells ≠ []
  disjoint : DisjointCells t.cells
  noHole : ∀ p : Coord, 1 ≤ p.x → p.x ≤ cols.length → 1 ≤ p.y → p.y ≤ rows.length → Covered t.cells p
  leftToRight : ∀ r ∈ rows, r.owned.Pairwise (fun a b => a.min.x < b.min.x)
  sorted : ∃ rk : Option String → Int, (∀ n, RankIs bc.tgroupSorting n (rk n)) ∧ rows.Pairwise (fun r r' => rk r.nature ≤ rk r'.nature)
  plain : ∀ c ∈ t.cells, NoCalsElement pc.ns c.content
  written : eval (Cals.generate bc) t = .ok tree

variable {bc : Cals.Config} {pc : CalsP.Config} {t : Table Content} {rows cols : List (View Content)} {tree : Node}

theorem Exchange.bb (E : Exchange bc pc t rows cols tree) {bb : Box} (h : t.boundingBox = .ok (some bb)) :
    bb.max.x = cols.length ∧ bb.max.y = rows.length := by
  have hi := E.reachable.inv
  have hr : rows = t.baseViews .row := by
    have := E.theRows; unfold eval at this; rw [Table.views_run .row t hi.grid] at this; cases this; rfl
  have hc : cols = t.baseViews .col := by
    have := E.theCols; unfold eval at this; rw [Table.views_run .col t hi.grid] at this; cases this; rfl
  have hdr : Describes .row t.grid.cells rows := by rw [hr]; exact Table.base_describes hi .row
  have hdc : Describes .col t.grid.cells cols := by rw [hc]; exact Table.base_describes hi .col
  rcases boundingBox_inv t.grid hi.grid with ⟨h1, _⟩ | ⟨b, _, h2, hv, hin, hleast⟩
  · exact absurd h1 E.notEmpty
  · rw [show t.boundingBox = t.grid.boundingBox from rfl, h2] at h
    cases h
    obtain ⟨c0, hc0⟩ := List.exists_mem_of_ne_nil _ E.notEmpty
    have e1 := hdc.enough c0 hc0
    have e2 := hdr.enough c0 hc0
    have v0 := hi.grid.valid c0 hc0
    have w0 := hin c0 hc0
    simp only [lastLine, Cell.max] at e1 e2
    have corner := E.noHole ⟨cols.length, rows.length⟩
    have up : Within bb ⟨⟨1, 1⟩, ⟨cols.length, rows.length⟩⟩ := by
      apply hleast
      intro c hc p hp
      have e1 := hdc.enough c hc
      have e2 := hdr.enough c hc
      have v := hi.grid.valid c hc
      simp only [InBox, Box.Valid, lastLine, Cell.max] at *
      omega
    have up' := up ⟨bb.max.x, bb.max.y⟩ (by simp only [InBox, Box.Valid] at *; omega)
    obtain ⟨c, hc, hp⟩ := corner (by simp only [Box.Valid, lastLine] at *; omega) (by simp) (by simp only [Box.Valid, lastLine] at *; omega) (by simp)
    have w := hin c hc _ hp
    simp only [InBox] at w up'
    omega

/-! ### helpers -/

theorem valign_kept {st : Styles} {o : Option String} {m : List (String × String)}
    (hm : m = [("top", "top"), ("middle", "middle"), ("bottom", "bottom"), ("baseline", "bottom"), ("w-both", "bottom")] ∨
      m = [("top", "top"), ("middle", "middle"), ("bottom", "bottom"), ("baseline", "bottom")])
    (h : AttrOf st "vertical-align" (lookup m) o) :
    o.bind (Dict.get? CalsP.valignMap) = valignKept (Dict.get? st "vertical-align") := by
  cases hg : Dict.get? st "vertical-align" with
  | none => rw [h.1 hg]; rfl
  | some v =>
    obtain ⟨s, hs, rfl⟩ := h.2 v hg
    cases v with
    | str x =>
      by_cases h1 : x = "top"
      · subst h1; rcases hm with rfl | rfl <;> cases hs <;> rfl
      · by_cases h2 : x = "middle"
        · subst h2; rcases hm with rfl | rfl <;> cases hs <;> rfl
        · have : s = "bottom" := by
            unfold lookup at hs
            by_cases h3 : x = "bottom"
            · subst h3; rcases hm with rfl | rfl <;> cases hs <;> rfl
            · by_cases h4 : x = "baseline"
              · subst h4; rcases hm with rfl | rfl <;> cases hs <;> rfl
              · by_cases h5 : x = "w-both"
                · subst h5; rcases hm with rfl | rfl <;> cases hs <;> rfl
                · rcases hm with rfl | rfl <;>
                    simp [Dict.get?_cons, Ne.symm h1, Ne.symm h2, Ne.symm h3, Ne.symm h4, Ne.symm h5] at hs
          subst this
          show _ = if _ then _ else _
          rw [if_neg (by simp [h1, h2])]
          rfl
    | _ => cases hs

theorem align_kept {st : Styles} {o : Option String} (h : AttrOf st "align" (lookup Cals.alignMap) o) :
    o.bind (Dict.get? CalsP.alignMap) = Dict.get? st "align" := by
  cases hg : Dict.get? st "align" with
  | none => rw [h.1 hg]; rfl
  | some v =>
    obtain ⟨s, hs, rfl⟩ := h.2 v hg
    cases v with
    | str x =>
      by_cases h1 : x = "left"
      · subst h1; cases hs; rfl
      · by_cases h2 : x = "right"
        · subst h2; cases hs; rfl
        · by_cases h3 : x = "center"
          · subst h3; cases hs; rfl
          · by_cases h4 : x = "justify"
            · subst h4; cases hs; rfl
            · simp [lookup, Cals.alignMap, Dict.get?_cons, Ne.symm h1, Ne.symm h2, Ne.symm h3, Ne.symm h4] at hs
    | _ => cases hs

theorem text_kept {st : Styles} {key : String} {o : Option String} (h : AttrOf st key attrValue o) : kept (o.map .str) = kept (Dict.get? st key) := by
  cases hg : Dict.get? st key with
  | none => rw [h.1 hg]; rfl
  | some v =>
    obtain ⟨s, hs, rfl⟩ := h.2 v hg
    cases v with
    | str x => cases hs; rfl
    | _ => cases hs

theorem inside_empty (e : Node) : (CalsP.entryContent e).isEmpty = decide (insideToks e = []) := by
  unfold CalsP.entryContent insideToks
  have h : ∀ cs : List Node, toksList cs = [] ↔ cs = [] := by
    intro cs
    cases cs with
    | nil => simp [toksList]
    | cons c cs => cases c <;> simp [toksList, toks]
  rw [Bool.eq_iff_iff, decide_eq_true_iff, List.append_eq_nil_iff, h, List.isEmpty_iff, List.append_eq_nil_iff, List.map_eq_nil_iff]
  have : (match e.text with
    | none => ([] : List (Option Content))
    | some s => if s = "" then [] else [some (.text s)]) = [] ↔ textToks e.text = [] := by
    cases e.text with
    | none => simp [textToks]
    | some s =>
      by_cases hs : s = ""
      · subst hs; simp [textToks]
      · simp [textToks, hs]
  exact and_congr this Iff.rfl

theorem update_nil_get {d : Styles} (h : Dict.WF d) (k : String) : Dict.get? (Dict.update [] d) k = Dict.get? d k := by
  rw [Dict.get?_update h]
  simp [Dict.get?_nil]

theorem mapStyle_wf {n : Node} {a : QName} {m : List (String × StyleVal)} {key : String} {st : Styles} (h : Dict.WF st) : Dict.WF (CalsP.mapStyle n a m key st) := by
  unfold CalsP.mapStyle
  split
  · exact h
  · split
    · exact h
    · exact Dict.wf_set h _ _

theorem copyStyle_wf {n : Node} {a : QName} {key : String} {st : Styles} (h : Dict.WF st) : Dict.WF (CalsP.copyStyle n a key st) := by
  unfold CalsP.copyStyle
  split
  · exact h
  · split
    · exact h
    · exact Dict.wf_set h _ _

theorem rewrite_ne {fl : Rat → Rat} {u w w' : List Char} (h : Units.rewriteWidth fl u w = .ok w') : w' ≠ [] := by
  unfold Units.rewriteWidth at h
  obtain ⟨⟨v, u'⟩, _, h⟩ := bind_ok h
  obtain ⟨x, _, h⟩ := bind_ok h
  cases h
  simp [Units.format2]

/-- the separators of the whole table are read as they were -/
theorem Exchange.seps (hns : pc.ns = bc.ns) {tgroup : Node} {colsep rowsep : String} {st st' : Styles} {k : Nat}
    (h1 : defaultSep t.styles "x-cell-border-right" = .ok colsep) (h2 : defaultSep t.styles "x-cell-border-bottom" = .ok rowsep)
    (ha : tableAttrs bc t = .ok tree.attrs) (hg : tgroupAttrs bc t k = .ok tgroup.attrs) (hst : CalsP.tableStyles pc tree = .ok st)
    (hst' : st' = Dict.update (copyStyles (some st)) (CalsP.mapStyle tgroup (pc.q "rowsep") CalsP.sepMap "x-cell-border-bottom"
        (CalsP.mapStyle tgroup (pc.q "colsep") CalsP.sepMap "x-cell-border-right" []))) :
    Dict.get? st' "x-cell-border-right" = Dict.get? CalsP.sepMap colsep ∧ Dict.get? st' "x-cell-border-bottom" = Dict.get? CalsP.sepMap rowsep ∧
    ∀ key, key ≠ "x-cell-border-right" → key ≠ "x-cell-border-bottom" → Dict.get? st' key = Dict.get? st key := by
  have hq : ∀ n, pc.q n = bc.q n := fun n => by unfold Cals.Config.q CalsP.Config.q; rw [hns]
  have hwf : Dict.WF (CalsP.mapStyle tgroup (pc.q "rowsep") CalsP.sepMap "x-cell-border-bottom"
      (CalsP.mapStyle tgroup (pc.q "colsep") CalsP.sepMap "x-cell-border-right" [])) := mapStyle_wf (mapStyle_wf Dict.wf_nil)
  obtain ⟨-, a2, a3, -⟩ := tableAttrs_looks ha
  obtain ⟨g1, g2⟩ := tgroupAttrs_looks hg
  obtain ⟨-, s2, s3, -⟩ := tableStyles_looks hst
  have m1 : Dict.get? (CalsP.mapStyle tgroup (pc.q "rowsep") CalsP.sepMap "x-cell-border-bottom"
      (CalsP.mapStyle tgroup (pc.q "colsep") CalsP.sepMap "x-cell-border-right" [])) "x-cell-border-right" =
      (tgroup.attr (pc.q "colsep")).bind (Dict.get? CalsP.sepMap) := by
    rw [mapStyle_get_ne _ _ _ _ _ _ (by decide)]; exact mapStyle_get rfl
  have m2 : Dict.get? (CalsP.mapStyle tgroup (pc.q "rowsep") CalsP.sepMap "x-cell-border-bottom"
      (CalsP.mapStyle tgroup (pc.q "colsep") CalsP.sepMap "x-cell-border-right" [])) "x-cell-border-bottom" =
      (tgroup.attr (pc.q "rowsep")).bind (Dict.get? CalsP.sepMap) :=
    mapStyle_get (by rw [mapStyle_get_ne _ _ _ _ _ _ (by decide)]; rfl)
  simp only [hq] at s2 s3 m1 m2 hwf ⊢
  unfold Node.attr at s2 s3 m1 m2
  subst hst'
  simp only [hq]
  refine ⟨?_, ?_, ?_⟩
  · rw [Dict.get?_update hwf, m1]
    unfold copyStyles
    simp only
    rw [s2]
    cases htg : bc.tableInTgroup with
    | true =>
      rw [(a2 htg).1]
      obtain ⟨⟨c, e1, e2⟩, -⟩ := g2 htg
      rw [h1] at e1; cases e1
      rw [e2]; simp
    | false =>
      rw [(g1 htg).1]
      obtain ⟨⟨c, e1, e2⟩, -⟩ := a3 htg
      rw [h1] at e1; cases e1
      rw [e2]; simp
  · rw [Dict.get?_update hwf, m2]
    unfold copyStyles
    simp only
    rw [s3]
    cases htg : bc.tableInTgroup with
    | true =>
      rw [(a2 htg).2.1]
      obtain ⟨-, ⟨c, e1, e2⟩, -⟩ := g2 htg
      rw [h2] at e1; cases e1
      rw [e2]; simp
    | false =>
      rw [(g1 htg).2.1]
      obtain ⟨-, ⟨c, e1, e2⟩, -⟩ := a3 htg
      rw [h2] at e1; cases e1
      rw [e2]; simp
  · intro key k1 k2
    rw [Dict.get?_update hwf, mapStyle_get_ne _ _ _ _ _ _ (Ne.symm k2), mapStyle_get_ne _ _ _ _ _ _ (Ne.symm k1)]
    rfl

theorem all₂_of_getElem {α β : Type} {R : α → β → Prop} : ∀ {l : List α} {m : List β}, l.length = m.length →
    (∀ (i : Nat) (a : α) (b : β), l[i]? = some a → m[i]? = some b → R a b) → All₂ R l m
  | [], [], _, _ => .nil
  | a :: l, b :: m, hl, h => .cons (h 0 a b rfl rfl) (all₂_of_getElem (by simpa using hl) (fun i x y hx hy => h (i + 1) x y hx hy))
  | [], _ :: _, hl, _ => by cases hl
  | _ :: _, [], hl, _ => by cases hl

theorem hasBorder_congr {st st' : Styles} {k : String} (h : Dict.get? st k = Dict.get? st' k) : hasBorder st k = hasBorder st' k := by
  unfold hasBorder getBorderStyle borderParts
  rw [h]

theorem visible_iff (st : Styles) (k : String) : Visible st k ↔ hasBorder st k = .ok true := by
  rcases hasBorder_spec st k with ⟨_, b, h1, h2⟩ | ⟨h1, h2⟩
  · rw [h1, ← h2]
    cases b <;> simp
  · rw [h2]
    refine ⟨?_, by simp⟩
    rintro ⟨w, hw, _⟩
    cases hw with
    | keyword s ws w h => exact absurd (by unfold Readable; rw [h]; trivial) h1

def fourSides : List String := ["border-top", "border-right", "border-bottom", "border-left"]

def sideOf (t r b l : Bool) (k : String) : Bool := if k = "border-top" then t else if k = "border-right" then r else if k = "border-bottom" then b else l

theorem sideOf_none : ∀ t r b l : Bool, ¬ (t = true ∧ r = true ∧ b = true ∧ l = true) →
    ((∀ k ∈ fourSides, sideOf false false false false k = true → sideOf t r b l k = true) ∧
      ((∃ k ∈ fourSides, sideOf false false false false k = true) → ∀ k ∈ fourSides, sideOf t r b l k = true → sideOf false false false false k = true) ∧
      ((∀ k ∈ fourSides, sideOf t r b l k = true) → ∀ k ∈ fourSides, sideOf false false false false k = true)) := by decide +kernel

/-- the frame written for some sides, read again -/
theorem frame_sides {st st0 : Styles} {f : String} (h : getFrameAttr st = .ok f) (h0 : CalsP.getFrameStyles (some f) = .ok st0) :
    ∃ P P' : String → Bool, (∀ k ∈ fourSides, hasBorder st k = .ok (P k)) ∧ (∀ k ∈ fourSides, hasBorder st0 k = .ok (P' k)) ∧
      (∀ k ∈ fourSides, P' k = true → P k = true) ∧ ((∃ k ∈ fourSides, P' k = true) → ∀ k ∈ fourSides, P k = true → P' k = true) ∧
      ((∀ k ∈ fourSides, P k = true) → ∀ k ∈ fourSides, P' k = true) := by
  unfold getFrameAttr at h
  obtain ⟨t, ht, h⟩ := bind_ok h
  obtain ⟨r, hr, h⟩ := bind_ok h
  obtain ⟨b, hb, h⟩ := bind_ok h
  obtain ⟨l, hl, h⟩ := bind_ok h
  have hP : ∀ k ∈ fourSides, hasBorder st k = .ok (sideOf t r b l k) := by
    simp only [fourSides, List.mem_cons, List.not_mem_nil, or_false]
    rintro k (rfl | rfl | rfl | rfl)
    · exact ht
    · exact hr
    · exact hb
    · exact hl
  have key : ∀ t' r' b' l', (∀ k ∈ fourSides, hasBorder st0 k = .ok (sideOf t' r' b' l' k)) →
      ((∀ k ∈ fourSides, sideOf t' r' b' l' k = true → sideOf t r b l k = true) ∧
      ((∃ k ∈ fourSides, sideOf t' r' b' l' k = true) → ∀ k ∈ fourSides, sideOf t r b l k = true → sideOf t' r' b' l' k = true) ∧
      ((∀ k ∈ fourSides, sideOf t r b l k = true) → ∀ k ∈ fourSides, sideOf t' r' b' l' k = true)) → 
    ∃ P P' : String → Bool, (∀ k ∈ fourSides, hasBorder st k = .ok (P k)) ∧ (∀ k ∈ fourSides, hasBorder st0 k = .ok (P' k)) ∧
      (∀ k ∈ fourSides, P' k = true → P k = true) ∧ ((∃ k ∈ fourSides, P' k = true) → ∀ k ∈ fourSides, P k = true → P' k = true) ∧
      ((∀ k ∈ fourSides, P k = true) → ∀ k ∈ fourSides, P' k = true) :=
    fun t' r' b' l' h1 h2 => ⟨_, _, hP, h1, h2⟩
  have ofNone : f = "none" → ¬ (t = true ∧ r = true ∧ b = true ∧ l = true) → _ := fun e hn => key false false false false
    (by subst e; cases h0; decide +kernel) (sideOf_none t r b l hn)
  cases t <;> cases r <;> cases b <;> cases l
  case true.true.true.true => cases h; cases h0; exact key true true true true (by decide +kernel) (by decide +kernel)
  case true.false.true.false => cases h; cases h0; exact key true false true false (by decide +kernel) (by decide +kernel)
  case false.true.false.true => cases h; cases h0; exact key false true false true (by decide +kernel) (by decide +kernel)
  case true.false.false.false => cases h; cases h0; exact key true false false false (by decide +kernel) (by decide +kernel)
  case false.false.true.false => cases h; cases h0; exact key false false true false (by decide +kernel) (by decide +kernel)
  all_goals exact ofNone (by cases h; rfl) (by simp)

/-- everything about the round trip -/
theorem Exchange.round (E : Exchange bc pc t rows cols tree) (parent : Option Node) (s : PState) :
    ∃ (t' : Table Content) (rows' cols' : List (View Content)),
      eval (CalsP.parseTable pc parent tree) s = .ok (some t') ∧
      eval (Table.views .row) t' = .ok rows' ∧ eval (Table.views .col) t' = .ok cols' ∧
      All₂ (CellLooks cols.length rows.length t.styles t'.styles) t.cells t'.cells ∧
      All₂ (RowLooks t.styles t'.styles) rows rows' ∧
      All₂ (ColLooks (Units.rewriteWidth bc.fl bc.widthUnit) t.styles t'.styles) cols cols' ∧
      TableLooks (Units.rewriteWidth bc.fl bc.widthUnit) (Units.rewriteWidth pc.fl pc.widthUnit) t.styles t'.styles ∧
      t'.nature = if t.nature = some "" then none else t.nature := by
  obtain ⟨ns, u, tg, sorting, fl, hcfg⟩ := E.config
  obtain ⟨rk, hrk, hsort⟩ := E.sorted
  obtain ⟨t', rows', cols', B, tgroup, st, h1, h2, h3, h4, h5, h6, h7, h8, hB, hc, hr, ha, hg, hst, hst', hnat⟩ :=
    cals_round_trip ns u tg sorting fl bc hcfg pc E.namespaces E.unit t E.reachable rows cols E.theRows E.theCols E.notEmpty E.disjoint E.noHole
      E.leftToRight rk hrk hsort E.plain tree E.written parent s
  have hq : ∀ n, pc.q n = bc.q n := fun n => by unfold Cals.Config.q CalsP.Config.q; rw [E.namespaces]
  obtain ⟨sc, sr, so⟩ := Exchange.seps E.namespaces hc hr ha hg hst hst'
  refine ⟨t', rows', cols', h1, h3, h4, ?_, ?_, ?_, ?_, ?_⟩
  · refine h2.imp_mem ?_
    rintro c hcm d ⟨-, -, -, -, e, he, hd⟩
    have hent := buildCell_entry (E.reachable.inv.grid.valid c hcm) he
    unfold buildCell at he
    cases hbb : B.bb with
    | none => rw [hbb] at he; cases he
    | some bb =>
      rw [hbb] at he hB
      obtain ⟨b1, b2⟩ := E.bb hB
      simp only at he
      obtain ⟨a, ea, he⟩ := bind_ok he
      obtain ⟨f, _, he⟩ := bind_ok he
      have hat : ∀ n, e.attr (pc.q n) = Dict.get? a (bc.q n) := by cases he; intro n; rw [hq]; rfl
      obtain ⟨l1, l2, l3, l4, l5, l6, l7, l8⟩ := entryAttrs_looks ea
      obtain ⟨r1, r2, r3, r4, r5, r6, r7, r8⟩ := entryStyles_looks (pc := pc) e
      rw [hat] at r1 r2 r3 r4 r5 r6
      rw [← hd] at r1 r2 r3 r4 r5 r6 r7 r8
      refine ⟨?_, ?_, ?_, ?_, ?_, ?_, ?_, ?_, ?_, r8⟩
      · rw [r5, align_kept l6]
      · rw [r4, valign_kept (.inl rfl) l5]
      · rw [r3, text_kept l7]
      · rw [r6, text_kept l8]
      · rw [r7, inside_empty, hent.content]
        by_cases hc : contentToks c.content = [] <;> simp [hc]
      · intro hx; exact line_kept (l1 (by rw [b1]; exact hx)) hc r1 sc
      · intro hx; rw [r1, l2 (by rw [b1]; exact hx)]; rfl
      · intro hx; exact line_kept (l3 (by rw [b2]; exact hx)) hr r2 sr
      · intro hx; rw [r2, l4 (by rw [b2]; exact hx)]; rfl
  · refine all₂_of_getElem h5.symm ?_
    intro i r r' hr' hr''
    obtain ⟨-, r0, attrs, row, body, q1, q2, q3, q4, q5⟩ := h7 i r' hr''
    rw [hr'] at q1; cases q1
    obtain ⟨l1, l2, l3, l4⟩ := rowAttrs_looks q2
    obtain ⟨r1, r2, r3, r4⟩ := rowLooks_looks q4 q5
    have hat : ∀ n, row.attr (pc.q n) = Dict.get? attrs (bc.q n) := by intro n; rw [hq, Node.attr, q3]
    rw [hat] at r1 r2 r3 r4
    exact ⟨by rw [r2, valign_kept (.inr rfl) l2], by rw [r4, text_kept l3], line_kept l1 hr r1 sr, by rw [r3, l4]; rfl⟩
  · refine all₂_of_getElem h6.symm ?_
    intro i v v' hv hv'
    obtain ⟨v0, e, q1, q2, q3⟩ := h8 i v' hv'
    rw [hv] at q1; cases q1
    obtain ⟨l1, l2, l3, l4⟩ := colspec_looks q2
    obtain ⟨r1, r2, r3, r4⟩ := colspecStyles_looks (pc := pc) e
    have hwf : Dict.WF (CalsP.colspecStyles pc e) := by
      unfold CalsP.colspecStyles
      exact mapStyle_wf (copyStyle_wf (mapStyle_wf (mapStyle_wf Dict.wf_nil)))
    rw [← update_nil_get hwf, ← q3, hq] at r1 r2 r3 r4
    refine ⟨?_, line_kept l1 hc r1 sc, line_kept l2 hr r2 sr, ?_, ?_⟩
    · rw [r4, l4]
      cases hgv : Dict.get? v.styles "align" with
      | none => rfl
      | some x =>
        by_cases hx : x = .str "left" ∨ x = .str "right" ∨ x = .str "center" ∨ x = .str "justify"
        · rcases hx with rfl | rfl | rfl | rfl <;> rfl
        · have : alignKept (some x) = none := by unfold alignKept; simp only; rw [if_neg hx]
          rw [this]; rfl
    · intro hn; rw [r3, l3.1 hn]; rfl
    · intro x hx
      obtain ⟨w, hw, hw'⟩ := l3.2 x hx
      cases x with
      | str y =>
        unfold widthAttr at hw
        obtain ⟨z, hz, hw⟩ := bind_ok hw
        cases hw
        refine ⟨y, z, rfl, hz, ?_⟩
        rw [r3, hw']
        have : String.ofList z ≠ "" := by
          intro e
          have := congrArg String.toList e
          simp at this
          exact rewrite_ne hz this
        simp [kept, this]
      | _ => cases hw
  · obtain ⟨⟨f, f1, f2⟩, -, -, a4, a5, a6, a7⟩ := tableAttrs_looks ha
    obtain ⟨⟨st0, f3, f4⟩, s2, s3, s4, s5, s6, s7, s8⟩ := tableStyles_looks hst
    have hat : ∀ n, tree.attr (pc.q n) = Dict.get? tree.attrs (bc.q n) := fun n => by rw [hq]; rfl
    rw [hat] at f3 s4 s5 s6
    simp only [hat] at s7 s8
    rw [f2] at f3
    obtain ⟨P, P', p1, p2, p3, p4, p5⟩ := frame_sides f1 f3
    have v1 : ∀ k ∈ fourSides, (Visible t.styles k ↔ P k = true) := fun k hk => by rw [visible_iff, p1 k hk]; simp
    have v2 : ∀ k ∈ fourSides, (Visible t'.styles k ↔ P' k = true) := fun k hk => by
      have e : hasBorder t'.styles k = hasBorder st0 k := hasBorder_congr (by
        rw [so k (by rintro rfl; revert hk; decide) (by rintro rfl; revert hk; decide)]; exact f4 k hk)
      rw [visible_iff, e, p2 k hk]; simp
    have own : ∀ key o, SepOf [] key o none := by
      intro key o
      exact ⟨none, rfl, rfl⟩
    refine ⟨?_, ?_, ?_, ?_, ?_, ?_, ?_, ?_, ?_, ?_⟩
    · intro k hk h; rw [v1 k hk]; exact p3 k hk ((v2 k hk).mp h)
    · rintro ⟨k, hk, h⟩ k' hk' h'
      rw [v2 k' hk']; exact p4 ⟨k, hk, (v2 k hk).mp h⟩ k' hk' ((v1 k' hk').mp h')
    · intro h k hk
      rw [v2 k hk]; exact p5 (fun k hk => (v1 k hk).mp (h k hk)) k hk
    · exact line_kept (own _ _) hc rfl sc
    · exact line_kept (own _ _) hr rfl sr
    · rw [so _ (by decide) (by decide), s4]
      cases hgv : Dict.get? t.styles "x-sect-orient" with
      | none => rw [a4.1 hgv]; rfl
      | some v =>
        obtain ⟨s, hs, e⟩ := a4.2 v hgv
        rw [e]
        cases v with
        | str x =>
          by_cases h1 : x = "landscape"
          · subst h1; cases hs; rfl
          · by_cases h2 : x = "portrait"
            · subst h2; cases hs; rfl
            · simp [lookup, Dict.get?_cons, Ne.symm h1, Ne.symm h2] at hs
        | _ => cases hs
    · rw [so _ (by decide) (by decide), s5]
      cases hgv : Dict.get? t.styles "x-sect-cols" with
      | none => rw [a5.1 hgv]; rfl
      | some v =>
        obtain ⟨s, hs, e⟩ := a5.2 v hgv
        rw [e]
        unfold pageColumns
        cases hs
        by_cases h1 : v = .str "1"
        · rw [if_pos h1]; simp only [h1, if_true]; rfl
        · rw [if_neg h1]; simp only [h1, if_false]; rfl
    · rw [so _ (by decide) (by decide), s6, text_kept a6]
    · intro hn; rw [so _ (by decide) (by decide)]; exact s7 (.inl (a7.1 hn))
    · intro x hx
      obtain ⟨w, hw, hw'⟩ := a7.2 x hx
      cases x with
      | str y =>
        unfold widthAttr at hw
        obtain ⟨z, hz, hw⟩ := bind_ok hw
        cases hw
        have : String.ofList z ≠ "" := by
          intro e
          have := congrArg String.toList e
          simp at this
          exact rewrite_ne hz this
        obtain ⟨w', e1, e2⟩ := s8 _ hw' this
        refine ⟨y, z, w', rfl, hz, by simpa using e1, ?_⟩
        rw [so _ (by decide) (by decide), e2]
      | _ => cases hw
  · obtain ⟨-, a2, a3, -⟩ := tableAttrs_looks ha
    obtain ⟨g1, g2⟩ := tgroupAttrs_looks hg
    rw [hnat]
    unfold CalsP.tableNature Node.attr
    rw [hq, hq]
    cases htg : bc.tableInTgroup with
    | true =>
      rw [(a2 htg).2.2, (g2 htg).2.2]
      unfold CalsP.tgroupNature
      cases t.nature with
      | none => rfl
      | some n => by_cases hn : n = "" <;> simp [hn]
    | false =>
      rw [(g1 htg).2.2, (a3 htg).2.2]
      unfold CalsP.tgroupNature
      cases t.nature with
      | none => rfl
      | some n => by_cases hn : n = "" <;> simp [hn]

/-! ### C63, C64, C65 -/

/-- **C63**: a table written in CALS and read again has the same cells, in the same order, with the same alignment, the same vertical alignment (`bottom`
if CALS does not know it), the same background, the same cell style, the same line on the right and at the bottom except at the sides of the table, where
the frame of the table tells it; empty cells are marked as empty; and no other style is kept or invented. -/
theorem C63_cell_styles (E : Exchange bc pc t rows cols tree) (parent : Option Node) (s : PState) :
    ∃ t', eval (CalsP.parseTable pc parent tree) s = .ok (some t') ∧
      All₂ (CellLooks cols.length rows.length t.styles t'.styles) t.cells t'.cells := by
  obtain ⟨t', _, _, h1, _, _, h4, _⟩ := E.round parent s
  exact ⟨t', h1, h4⟩

/-- **C64**: the rows keep their vertical alignment, their row style and the line below them, and lose their background; the columns keep their alignment
and the lines on the right and at the bottom, and their width is the one written by the builder. -/
theorem C64_row_column_styles (E : Exchange bc pc t rows cols tree) (parent : Option Node) (s : PState) :
    ∃ t' rows' cols', eval (CalsP.parseTable pc parent tree) s = .ok (some t') ∧
      eval (Table.views .row) t' = .ok rows' ∧ eval (Table.views .col) t' = .ok cols' ∧
      All₂ (RowLooks t.styles t'.styles) rows rows' ∧
      All₂ (ColLooks (Units.rewriteWidth bc.fl bc.widthUnit) t.styles t'.styles) cols cols' := by
  obtain ⟨t', rows', cols', h1, h2, h3, _, h5, h6, _⟩ := E.round parent s
  exact ⟨t', rows', cols', h1, h2, h3, h5, h6⟩

/-- **C65**: the table keeps its nature (an empty one is forgotten), its frame if CALS can tell it, the lines of its cells, its orientation, its background
and its width; a number of columns of the page other than one becomes two. -/
theorem C65_table_styles (E : Exchange bc pc t rows cols tree) (parent : Option Node) (s : PState) :
    ∃ t', eval (CalsP.parseTable pc parent tree) s = .ok (some t') ∧
      TableLooks (Units.rewriteWidth bc.fl bc.widthUnit) (Units.rewriteWidth pc.fl pc.widthUnit) t.styles t'.styles ∧
      t'.nature = if t.nature = some "" then none else t.nature := by
  obtain ⟨t', _, _, h1, _, _, _, _, _, h7, h8⟩ := E.round parent s
  exact ⟨t', h1, h7, h8⟩

/-- a table with styles everywhere, cells over several columns and rows, a header and a formatted content -/
def looksDemo : Table Content :=
  Table.runFrom ⟨[("border-top", .str "solid 1pt black"), ("border-bottom", .str "solid"), ("x-cell-border-right", .str "none"),
      ("x-cell-border-bottom", .str "solid 0.5pt"), ("x-sect-orient", .str "landscape"), ("x-sect-cols", .str "3"), ("background-color", .str "red"),
      ("width", .str "20cm")], some "wide", ⟨[]⟩, none, none⟩
    [.access .row, .access .col,
     .grid (.set (.tuple [.int 1, .int 1]) ⟨some (.text "a"), some [("border-right", .str "none"), ("vertical-align", .str "baseline"), ("align", .str "center")], none, 1, 1, 2, 1⟩),
     .grid (.set (.tuple [.int 3, .int 1]) ⟨some (.num "12"), some [("border-bottom", .str "solid"), ("border-right", .str "solid")], none, 1, 1, 1, 1⟩),
     .grid (.set (.tuple [.int 1, .int 2]) ⟨some (.seq [some (.text "b"), some (.node nodeDemo)]), some [("border-right", .str "solid"), ("cellstyle", .str "x")], none, 1, 1, 1, 2⟩),
     .grid (.set (.tuple [.int 2, .int 2]) ⟨none, some [("border-bottom", .str "none"), ("background-color", .str "")], none, 1, 1, 2, 1⟩),
     .grid (.set (.tuple [.int 2, .int 3]) ⟨some (.text "c"), some [("vertical-align", .str "middle"), ("unknown", .int 1)], none, 1, 1, 2, 1⟩),
     .setNature .row 1 (some "header"),
     .setStyles .row 1 (some [("vertical-align", .str "top"), ("border-bottom", .str "none"), ("background-color", .str "blue")]),
     .setStyles .row 2 (some [("rowstyle", .str "even"), ("x-ins", .bool true), ("x-ins-id", .int 12), ("x-ins-author", .str "J & J")]),
     .setStyles .col 1 (some [("width", .str "1in"), ("align", .str "start"), ("border-right", .str "solid")]),
     .setStyles .col 2 (some [("align", .str "justify")])]

theorem looksDemo_reachable : looksDemo.Reachable := by
  refine ⟨[], some [("border-top", .str "solid 1pt black"), ("border-bottom", .str "solid"), ("x-cell-border-right", .str "none"),
      ("x-cell-border-bottom", .str "solid 0.5pt"), ("x-sect-orient", .str "landscape"), ("x-sect-cols", .str "3"), ("background-color", .str "red"),
      ("width", .str "20cm")], some "wide", _, _, by simp, rfl, rfl⟩

theorem looksDemo_boxes : looksDemo.grid.cells.map (·.box) =
    [⟨⟨1, 1⟩, ⟨2, 1⟩⟩, ⟨⟨3, 1⟩, ⟨3, 1⟩⟩, ⟨⟨1, 2⟩, ⟨1, 3⟩⟩, ⟨⟨2, 2⟩, ⟨3, 2⟩⟩, ⟨⟨2, 3⟩, ⟨3, 3⟩⟩] := by decide +kernel

/-- the hypothesis of C63, C64 and C65 holds of a table with styles everywhere -/
theorem looksDemo_exchange : ∃ rows cols tree, Exchange calsConfig ⟨none, ['m', 'm'], id⟩ looksDemo rows cols tree := by
  have hv := fun ax => Table.views_run ax looksDemo looksDemo_reachable.inv.grid
  have hok : (eval (Cals.generate calsConfig) looksDemo).map (fun _ => ()) = .ok () := by decide +kernel
  obtain ⟨tree, htree⟩ : ∃ tree, eval (Cals.generate calsConfig) looksDemo = .ok tree := by
    cases h : eval (Cals.generate calsConfig) looksDemo with
    | ok tree => exact ⟨tree, rfl⟩
    | error e => rw [h] at hok; cases hok
  have hl1 : (looksDemo.baseViews .row).length = 3 := by decide +kernel
  have hl2 : (looksDemo.baseViews .col).length = 3 := by decide +kernel
  refine ⟨looksDemo.baseViews .row, looksDemo.baseViews .col, tree, ⟨none, ['m', 'm'], false, none, id, rfl⟩, rfl,
    ⟨"mm", by decide, rfl⟩, looksDemo_reachable, by rw [eval, hv], by rw [eval, hv], ?_, ?_, ?_, by decide +kernel,
    ⟨rank calsConfig, rank_spec calsConfig (by decide), by decide +kernel⟩, ?_, htree⟩
  · intro h
    have := looksDemo_boxes
    rw [show looksDemo.grid.cells = [] from h] at this
    simp at this
  · have : (looksDemo.grid.cells.map (·.box)).Pairwise (fun a b => ¬ Overlap a b) := by
      rw [looksDemo_boxes]
      simp only [List.pairwise_cons, List.mem_cons, List.not_mem_nil, or_false]
      simp only [Overlap, InBox]
      refine ⟨?_, ?_, ?_, ?_, ?_, List.Pairwise.nil⟩ <;>
      · rintro a h ⟨p, hp⟩
        rcases h with rfl | rfl | rfl | rfl <;> simp only at hp <;> omega
    rw [List.pairwise_map] at this
    exact this
  · intro p h1 h2 h3 h4
    rw [hl2] at h2; rw [hl1] at h4
    have : ∃ b ∈ looksDemo.grid.cells.map (·.box), InBox p b := by
      rw [looksDemo_boxes]
      simp only [List.mem_cons, List.not_mem_nil, or_false, exists_eq_or_imp, exists_eq_left, InBox]
      omega
    obtain ⟨b, hb, hp⟩ := this
    obtain ⟨c, hc, rfl⟩ := List.mem_map.mp hb
    exact ⟨c, hc, hp⟩
  · have : ∀ c ∈ looksDemo.grid.cells, ∀ tk ∈ contentToks c.content, (match tk with
        | .opening t _ => decide (t.name ∉ ["table", "tgroup", "colspec", "thead", "tfoot", "tbody", "row", "entry"])
        | _ => true) = true := by decide +kernel
    intro c hc t a ht _
    have := this c hc _ ht
    simpa using this

/-! ### C66 -/

/-- **C66**: every row of the table is written as one `<row>` element with one entry per cell; a row marked as inserted stands between two processing
instructions which tell its identifier, its author and its date; a row which is not marked stands alone. -/
theorem C66_revision_marks (ns : Option String) (u : List Char) (tg : Bool) (sorting : Option (List String)) (fl : Rat → Rat) (cfg : Cals.Config)
    (hcfg : Cals.Config.new ns u tg sorting fl = .ok cfg) (t : Table Content) (ht : t.Reachable) (tree : Node)
    (h : eval (generate cfg) t = .ok tree) (rows : List (View Content)) (hrows : eval (Table.views .row) t = .ok rows) :
    ∃ tgroup, tree.children = [tgroup] ∧ ∀ r ∈ rows, ∃ body ∈ tgroup.children, ∃ pre nodes post, body.children = pre ++ nodes ++ post ∧ RowFor cfg r nodes := by
  obtain ⟨rk, attrs, tattrs, colspecs, bodies, groups, _, rfl, _, hp, _, _, hall⟩ := C40_rows_sorted ns u tg sorting fl cfg hcfg t ht tree h rows hrows
  refine ⟨_, rfl, ?_⟩
  intro r hr
  have hr' := hp.symm.subset hr
  obtain ⟨g, hg, hrg⟩ := List.mem_flatten.mp hr'
  obtain ⟨body, hb, tag, nature, nodes, _, _, _, rfl, hn⟩ := hall.mem_left hg
  refine ⟨_, List.mem_append_right _ hb, ?_⟩
  have split : ∀ {g : List (View Content)} {nodes : List (List Node)}, All₂ (RowFor cfg) g nodes → r ∈ g →
      ∃ pre ns post, nodes.flatten = pre ++ ns ++ post ∧ RowFor cfg r ns := by
    intro g nodes h
    induction h with
    | nil => intro hm; cases hm
    | @cons a x l m h1 _ ih =>
      intro hm
      rcases List.mem_cons.mp hm with rfl | hm
      · exact ⟨[], x, m.flatten, by simp, h1⟩
      · obtain ⟨pre, ns, post, e, hf⟩ := ih hm
        exact ⟨x ++ pre, ns, post, by simp [e], hf⟩
  exact split hn hrg

theorem quoted_plain {v w : List Char} (h : Quoted v w) : '"' ∉ w := by
  induction h with
  | nil => simp
  | plain c v w hc _ ih =>
    simp only [List.mem_cons, not_or]
    refine ⟨?_, ih⟩
    rintro rfl
    exact hc (by decide)
  | reference c r v w hc _ ih =>
    simp only [List.mem_append, not_or]
    refine ⟨?_, ih⟩
    simp only [references, List.mem_cons, Prod.mk.injEq, List.not_mem_nil, or_false] at hc
    rcases hc with ⟨-, rfl⟩ | ⟨-, rfl⟩ | ⟨-, rfl⟩ | ⟨-, rfl⟩ | ⟨-, rfl⟩ | ⟨-, rfl⟩ | ⟨-, rfl⟩ <;> decide

theorem references_prefix : ∀ a ∈ references, ∀ b ∈ references, a.2.toList <+: b.2.toList → a = b := by decide

/-- **C66** (reading): a text between quotation marks stands for one list of characters only. -/
theorem C66_quoted_unique {v v' w : List Char} (h : Quoted v w) (h' : Quoted v' w) : v = v' := by
  have amp : ∀ p ∈ references, ∃ l, p.2.toList = '&' :: l := by
    intro p hp
    simp only [references, List.mem_cons, List.not_mem_nil, or_false] at hp
    rcases hp with rfl | rfl | rfl | rfl | rfl | rfl | rfl <;> exact ⟨_, rfl⟩
  have ampRef : ∀ c, c = '&' → c ∈ references.map (·.1) := by rintro c rfl; decide
  induction h generalizing v' with
  | nil =>
    generalize hw : ([] : List Char) = x at h'
    cases h' with
    | nil => rfl
    | plain c' v'' w'' hc' h'' => cases hw
    | reference c' r v'' w'' hc' h'' =>
      obtain ⟨l, hl⟩ := amp _ hc'
      simp only at hl
      rw [hl] at hw
      cases hw
  | plain c v w hc _ ih =>
    generalize hw : c :: w = x at h'
    cases h' with
    | nil => cases hw
    | plain c' v'' w'' hc' h'' => cases hw; rw [ih h'']
    | reference c' r v'' w'' hc' h'' =>
      obtain ⟨l, hl⟩ := amp _ hc'
      simp only at hl
      rw [hl] at hw
      cases hw
      exact absurd (ampRef _ rfl) hc
  | reference c r v w hc _ ih =>
    generalize hw : r.toList ++ w = x at h'
    obtain ⟨l, hl⟩ := amp _ hc
    simp only at hl
    cases h' with
    | nil => rw [hl] at hw; cases hw
    | plain c' v'' w'' hc' h'' => rw [hl] at hw; cases hw; exact absurd (ampRef _ rfl) hc'
    | reference c' r' v'' w'' hc' h'' =>
      have e : (c, r) = (c', r') := by
        rcases List.append_eq_append_iff.mp hw with ⟨a, e, _⟩ | ⟨a, e, _⟩
        · exact references_prefix _ hc _ hc' ⟨a, e.symm⟩
        · exact (references_prefix _ hc' _ hc ⟨a, e.symm⟩).symm
      cases e
      rw [List.append_cancel_left_eq] at hw
      subst hw
      rw [ih h'']

theorem split_quote {a b x y : List Char} (ha : '"' ∉ a) (hb : '"' ∉ b) (h : a ++ '"' :: x = b ++ '"' :: y) : a = b ∧ x = y := by
  induction a generalizing b with
  | nil =>
    cases b with
    | nil => simpa using h
    | cons c b => simp at h hb; exact absurd h.1 hb.1
  | cons c a ih =>
    cases b with
    | nil => simp at h ha; exact absurd h.1.symm ha.1
    | cons d b =>
      simp at h ha hb
      obtain ⟨h1, h2⟩ := ih ha.2 hb.2 h.2
      exact ⟨by rw [h.1, h1], h2⟩

/-- **C66** (reading): the text of a processing instruction lists one sequence of attributes only, provided that their names hold no quotation mark. -/
theorem C66_marks_unique {l l' : List (String × String)} {w : List Char} (hl : ∀ p ∈ l, '"' ∉ p.1.toList) (hl' : ∀ p ∈ l', '"' ∉ p.1.toList)
    (h : Marks l w) (h' : Marks l' w) : l = l' := by
  have q : "=\"".toList = ['=', '"'] := rfl
  have inner : ∀ {n n' : String} {a b x y : List Char}, '"' ∉ n.toList → '"' ∉ n'.toList → '"' ∉ a → '"' ∉ b →
      n.toList ++ ['=', '"'] ++ a ++ '"' :: x = n'.toList ++ ['=', '"'] ++ b ++ '"' :: y → n = n' ∧ a = b ∧ x = y := by
    intro n n' a b x y h1 h2 h3 h4 h
    have e : (n.toList ++ ['=']) ++ '"' :: (a ++ '"' :: x) = (n'.toList ++ ['=']) ++ '"' :: (b ++ '"' :: y) := by simpa using h
    obtain ⟨e1, e2⟩ := split_quote (by simp [h1]) (by simp [h2]) e
    obtain ⟨e3, e4⟩ := split_quote h3 h4 e2
    refine ⟨?_, e3, e4⟩
    rw [List.append_cancel_right_eq] at e1
    exact String.toList_inj.mp e1
  induction h generalizing l' with
  | one n v w hv =>
    generalize hx : n.toList ++ "=\"".toList ++ w ++ ['"'] = x at h'
    rw [q] at hx
    cases h' with
    | one n' v' w' hv' =>
      rw [q] at hx
      obtain ⟨rfl, rfl, -⟩ := inner (hl (n, v) (by simp)) (hl' (n', v') (by simp)) (quoted_plain hv) (quoted_plain hv') (x := []) (y := []) hx
      rw [String.toList_inj.mp (C66_quoted_unique hv hv')]
    | more n' v' w' l'' x' hv' _ =>
      rw [q] at hx
      have hx' : n.toList ++ ['=', '"'] ++ w ++ '"' :: [] = n'.toList ++ ['=', '"'] ++ w' ++ '"' :: (' ' :: x') := by simpa using hx
      obtain ⟨-, -, e⟩ := inner (hl (n, v) (by simp)) (hl' (n', v') (by simp)) (quoted_plain hv) (quoted_plain hv') hx'
      cases e
  | more n v w l x0 hv _ ih =>
    generalize hx : n.toList ++ "=\"".toList ++ w ++ ['"'] ++ ' ' :: x0 = x at h'
    rw [q] at hx
    have hx0 : n.toList ++ ['=', '"'] ++ w ++ '"' :: (' ' :: x0) = x := by simpa using hx
    cases h' with
    | one n' v' w' hv' =>
      rw [q] at hx0
      obtain ⟨-, -, e⟩ := inner (hl (n, v) (by simp)) (hl' (n', v') (by simp)) (quoted_plain hv) (quoted_plain hv') (y := []) hx0
      cases e
    | more n' v' w' l'' x' hv' h'' =>
      rw [q] at hx0
      have hx' : n.toList ++ ['=', '"'] ++ w ++ '"' :: (' ' :: x0) = n'.toList ++ ['=', '"'] ++ w' ++ '"' :: (' ' :: x') := by simpa using hx0
      obtain ⟨rfl, rfl, e⟩ := inner (hl (n, v) (by simp)) (hl' (n', v') (by simp)) (quoted_plain hv) (quoted_plain hv') hx'
      cases e
      rw [String.toList_inj.mp (C66_quoted_unique hv hv'), ih (fun p hp => hl p (by simp [hp])) (fun p hp => hl' p (by simp [hp])) h'']

/-- a row marked as inserted by an author whose name holds an ampersand and a quotation mark -/
example : Dict.has [("x-ins", StyleVal.bool true), ("x-ins-author", .str "J & \"J\"")] "x-ins" = true ∧
    RowMarks [("x-ins", .bool true), ("x-ins-author", .str "J & \"J\"")] "type=\"row:insertion\" creator=\"J &amp; &quot;J&quot;\"" "type=\"row:insertion\"" := by
  refine ⟨rfl, [], [("creator", "J & \"J\"")], [], .inl ⟨rfl, rfl⟩, .inr ⟨_, _, rfl, rfl, rfl⟩, .inl ⟨rfl, rfl⟩, ?_, ?_⟩
  · exact marks_data [("type", "row:insertion"), ("creator", "J & \"J\"")] (by simp)
  · exact marks_data [("type", "row:insertion")] (by simp)

/-! ### the sorting option -/

/-- **C40** (option): without the option, or with an empty list, headers come first, then footers, then bodies; a list which holds these three natures
is taken as it is; any other list is refused. -/
theorem C40_sorting_option (ns : Option String) (u : List Char) (tg : Bool) (fl : Rat → Rat) :
    (∃ cfg, Cals.Config.new ns u tg none fl = .ok cfg ∧ cfg.tgroupSorting = ["header", "footer", "body"]) ∧
    (∃ cfg, Cals.Config.new ns u tg (some []) fl = .ok cfg ∧ cfg.tgroupSorting = ["header", "footer", "body"]) ∧
    (∀ l, "header" ∈ l → "footer" ∈ l → "body" ∈ l → ∃ cfg, Cals.Config.new ns u tg (some l) fl = .ok cfg ∧ cfg.tgroupSorting = l) ∧
    (∀ l, l ≠ [] → ("header" ∉ l ∨ "footer" ∉ l ∨ "body" ∉ l) → Cals.Config.new ns u tg (some l) fl = .error .valueError) := by
  have hs : ∀ l : List String, l ≠ [] → sortingOption (some l) = l := by
    intro l hl
    cases l with
    | nil => exact absurd rfl hl
    | cons a l => rfl
  have hd : ∀ (l : List String) (n : String), Dict.has (sortingDict l) n = true ↔ n ∈ l := by
    intro l n
    unfold sortingDict
    have : ∀ (l : List (String × Nat)) (d : Dict String Int), Dict.has (l.foldl (fun d p => Dict.set d p.1 (p.2 : Int)) d) n = true ↔
        n ∈ l.map (·.1) ∨ Dict.has d n = true := by
      intro l
      induction l with
      | nil => intro d; simp
      | cons p l ih =>
        intro d
        rw [List.foldl_cons, ih]
        unfold Dict.has
        rw [Dict.get?_set]
        by_cases hp : p.1 = n
        · simp [hp]
        · simp [hp, Ne.symm hp]
    rw [this, List.zipIdx_map_fst]
    simp [Dict.has, Dict.get?_nil]
  refine ⟨⟨_, rfl, rfl⟩, ⟨_, rfl, rfl⟩, ?_, ?_⟩
  · intro l h1 h2 h3
    unfold Cals.Config.new
    rw [hs l (by rintro rfl; simp at h1), if_pos (by simp [hd, h1, h2, h3])]
    exact ⟨_, rfl, rfl⟩
  · intro l hl h
    unfold Cals.Config.new
    rw [hs l hl, if_neg]
    simp only [List.all_cons, List.all_nil, Bool.and_true, Bool.and_eq_true, hd]
    rintro ⟨h1, h2, h3⟩
    rcases h with h | h | h
    · exact h h1
    · exact h h2
    · exact h h3

end Benker
