import Verif.Lemmas.Demands
import Verif.Props.Writable
import Verif.Model.Formex2Cals
import Verif.Spec.Xml

/-! The tables made by the parsers have styles, natures and contents which can be written. -/

namespace Benker
open PyM Writable CalsP

/-- the value is a text -/
def IsStr (v : StyleVal) : Prop := ∃ s, v = .str s

/-- the value is a text with a digit -/
def HasDigit (v : StyleVal) : Prop := ∃ s : String, v = .str s ∧ ∃ c ∈ s.toList, c.isDigit = true

/-- what is demanded by the builders; `cals` tells whether CALS attributes are written -/
def good (cals : Bool) : Demands where
  table k v := (k ≠ "x-sect-size" → IsStr v) ∧ (k = "x-sect-size" → ∃ w h, v = .pair w h) ∧
    (k = "x-sect-orient" → cals = true → ∃ s ∈ ["landscape", "portrait"], v = .str s) ∧ (k = "width" → cals = true → HasDigit v)
  view
    | .row, k, v => (k ≠ "x-ins" → IsStr v) ∧ (k = "vertical-align" → ∃ s ∈ rowAlignments, v = .str s)
    | .col, k, v => IsStr v ∧ (k = "width" → cals = true → HasDigit v)
  cell k v := (k ≠ "cellstyle" → IsStr v) ∧ (k = "cellstyle" → cals = true → IsStr v) ∧
    (k = "vertical-align" → ∃ s ∈ cellAlignments, v = .str s) ∧ (k = "align" → ∃ s ∈ ["left", "right", "center", "justify"], v = .str s)
  nature n := n ∈ [none, some "header", some "body", some "footer"]
  content := Placeable

theorem good_none (cals : Bool) : (good cals).nature none := by simp [good]

theorem each_map {F : String → StyleVal → Prop} {n : Node} {a : QName} {map : List (String × StyleVal)} {key : String} {st : Styles} (h : Each F st)
    (hm : ∀ p ∈ map, F key p.2) : Each F (mapStyle n a map key st) := by
  unfold mapStyle
  split
  · exact h
  · split
    · exact h
    · rename_i s hs
      have : ∀ {l : List (String × StyleVal)} {k : String}, Dict.get? l k = some s → ∃ p ∈ l, p.2 = s := by
        intro l k hk
        unfold Dict.get? at hk
        cases hf : l.find? (fun p => p.1 = k) with
        | none => rw [hf] at hk; cases hk
        | some p => rw [hf] at hk; cases hk; exact ⟨p, List.mem_of_find?_eq_some hf, rfl⟩
      obtain ⟨p, hp, rfl⟩ := this hs
      exact each_set h (hm p hp)

theorem each_copy {F : String → StyleVal → Prop} {n : Node} {a : QName} {key : String} {st : Styles} (h : Each F st)
    (hm : ∀ s, n.attr a = some s → s ≠ "" → F key (.str s)) : Each F (copyStyle n a key st) := by
  unfold copyStyle
  split
  · exact h
  · rename_i v hv
    split
    · exact h
    · rename_i he; exact each_set h (hm v hv he)

theorem isStr (s : String) : IsStr (.str s) := ⟨s, rfl⟩

theorem isStr_sep : ∀ p ∈ sepMap, IsStr p.2 := by
  intro p hp
  simp only [sepMap, List.mem_cons, List.not_mem_nil, or_false] at hp
  rcases hp with rfl | rfl
  · exact isStr _
  · exact isStr _

theorem isStr_border (b : Bool) : IsStr (border b) := by cases b <;> exact isStr _

theorem digit_format2 (q : Rat) : ∃ c ∈ Units.format2 q, c.isDigit = true := by
  have : ∀ n : Nat, ∃ c ∈ Coord.natDigits n, c.isDigit = true := by
    intro n
    obtain ⟨c, l, h⟩ := List.exists_cons_of_ne_nil (natDigits_ne n)
    exact ⟨c, by simp [h], Nat.isDigit_of_mem_toDigits (b := 10) (n := n) (by omega) (by omega) (by
      have : c ∈ Coord.natDigits n := by simp [h]
      exact this)⟩
  obtain ⟨c, hc, hd⟩ := this ((Units.roundEven (q * 100)).natAbs % 10)
  exact ⟨c, by unfold Units.format2; simp only; exact List.mem_append_right _ hc, hd⟩

section
variable {cals : Bool} {k : String} {v : StyleVal}

theorem table_str (hk : k ∉ ["x-sect-size", "x-sect-orient", "width"]) (hv : IsStr v) : (good cals).table k v := by
  simp only [List.mem_cons, List.not_mem_nil, or_false, not_or] at hk
  exact ⟨fun _ => hv, fun h => absurd h hk.1, fun h => absurd h hk.2.1, fun h => absurd h hk.2.2⟩

theorem row_str (hk : k ≠ "vertical-align") (hv : IsStr v) : (good cals).view .row k v := ⟨fun _ => hv, fun h => absurd h hk⟩

theorem col_str (hk : k ≠ "width") (hv : IsStr v) : (good cals).view .col k v := ⟨hv, fun h => absurd h hk⟩

theorem cell_str (hk : k ∉ ["vertical-align", "align"]) (hv : IsStr v) : (good cals).cell k v := by
  simp only [List.mem_cons, List.not_mem_nil, or_false, not_or] at hk
  exact ⟨fun _ => hv, fun _ _ => hv, fun h => absurd h hk.1, fun h => absurd h hk.2⟩

theorem valign_row : ∀ p ∈ valignMap, (good cals).view .row "vertical-align" p.2 := by
  intro p hp
  simp only [valignMap, List.mem_cons, List.not_mem_nil, or_false] at hp
  rcases hp with rfl | rfl | rfl <;> exact ⟨fun _ => isStr _, fun _ => ⟨_, by decide, rfl⟩⟩

theorem valign_cell : ∀ p ∈ valignMap, (good cals).cell "vertical-align" p.2 := by
  intro p hp
  simp only [valignMap, List.mem_cons, List.not_mem_nil, or_false] at hp
  rcases hp with rfl | rfl | rfl <;>
    exact ⟨fun _ => isStr _, fun h => absurd h (by decide), fun _ => ⟨_, by decide, rfl⟩, fun h => absurd h (by decide)⟩

theorem align_cell : ∀ p ∈ alignMap, (good cals).cell "align" p.2 := by
  intro p hp
  simp only [alignMap, List.mem_cons, List.not_mem_nil, or_false] at hp
  rcases hp with rfl | rfl | rfl | rfl | rfl <;>
    exact ⟨fun _ => isStr _, fun h => absurd h (by decide), fun h => absurd h (by decide), fun _ => ⟨_, by decide, rfl⟩⟩

theorem align_str : ∀ p ∈ alignMap, IsStr p.2 := by
  intro p hp
  simp only [alignMap, List.mem_cons, List.not_mem_nil, or_false] at hp
  rcases hp with rfl | rfl | rfl | rfl | rfl <;> exact isStr _

theorem each_frame {f : Option String} {st : Styles} (hf : getFrameStyles f = .ok st) : Each (good cals).table st := by
  unfold getFrameStyles at hf
  split at hf
  · cases hf; exact each_nil _
  · split at hf
    · cases hf; exact each_nil _
    · split at hf
      · cases hf
      · cases hf
        intro p hp
        simp only [List.mem_cons, List.not_mem_nil, or_false] at hp
        rcases hp with rfl | rfl | rfl | rfl <;> exact table_str (by simp) (isStr_border _)

theorem orient_table : ∀ p ∈ [("land", StyleVal.str "landscape"), ("port", .str "portrait")], (good cals).table "x-sect-orient" p.2 := by
  intro p hp
  simp only [List.mem_cons, List.not_mem_nil, or_false] at hp
  rcases hp with rfl | rfl <;>
    exact ⟨fun _ => isStr _, fun h => absurd h (by decide), fun _ _ => ⟨_, by decide, rfl⟩, fun h => absurd h (by decide)⟩

theorem pgwide_table : ∀ p ∈ [("0", StyleVal.str "2"), ("1", .str "1")], (good cals).table "x-sect-cols" p.2 := by
  intro p hp
  simp only [List.mem_cons, List.not_mem_nil, or_false] at hp
  rcases hp with rfl | rfl <;> exact table_str (by decide) (isStr _)

theorem sep_table (hk : k ∉ ["x-sect-size", "x-sect-orient", "width"]) : ∀ p ∈ sepMap, (good cals).table k p.2 := fun p hp => table_str hk (isStr_sep p hp)

theorem placeable_entry (n : Node) : Placeable (some (.seq (entryContent n))) := by
  refine .pieces _ ?_
  intro c hc
  unfold entryContent at hc
  rcases List.mem_append.mp hc with hc | hc
  · split at hc
    · cases hc
    · split at hc
      · cases hc
      · rw [List.mem_singleton] at hc; exact .inl ⟨_, hc⟩
  · obtain ⟨m, _, rfl⟩ := List.mem_map.mp hc
    exact .inr ⟨_, rfl⟩

end

mutual
/-- what is known of the elements of a tree is known of those which are met by the walk -/
theorem walk_events {Q : Option Node → Node → Prop} (sel : QName → Bool) (p : Option Node) : ∀ (n : Node), Q p n →
    (∀ m ∈ preorder n, ∀ c ∈ m.children, Q (some m) c) → ∀ e ∈ walk sel p n, Q e.parent e.node
  | .elem t a x cs tl, h0, h, e, he => by
    simp only [walk, List.mem_append] at he
    have hl := walkList_events (Q := Q) sel (some (.elem t a x cs tl)) cs (fun c hc => h _ (by simp [preorder]) c hc)
      (fun m hm c hc => h m (by simp [preorder, hm]) c hc) e
    rcases he with (he | he) | he
    · split at he
      · rw [List.mem_singleton] at he; subst he; exact h0
      · cases he
    · exact hl he
    · split at he
      · rw [List.mem_singleton] at he; subst he; exact h0
      · cases he
  | .pi _ _ _, _, _, e, he => by simp [walk] at he
  | .comment _ _, _, _, e, he => by simp [walk] at he
theorem walkList_events {Q : Option Node → Node → Prop} (sel : QName → Bool) (p : Option Node) : ∀ (ns : List Node), (∀ n ∈ ns, Q p n) →
    (∀ m ∈ preorderList ns, ∀ c ∈ m.children, Q (some m) c) → ∀ e ∈ walkList sel p ns, Q e.parent e.node
  | [], _, _, e, he => by simp [walkList] at he
  | n :: ns, h0, h, e, he => by
    simp only [walkList, List.mem_append] at he
    rcases he with he | he
    · exact walk_events sel p n (h0 n List.mem_cons_self) (fun m hm => h m (by simp [preorderList, hm])) e he
    · exact walkList_events sel p ns (fun m hm => h0 m (List.mem_cons_of_mem _ hm)) (fun m hm => h m (by simp [preorderList, hm])) e he
end

mutual
theorem walk_mem (sel : QName → Bool) (p : Option Node) : ∀ (n : Node), ∀ e ∈ walk sel p n, e.node ∈ preorder n
  | .elem t a x cs tl, e, he => by
    simp only [walk, List.mem_append] at he
    rcases he with (he | he) | he
    · split at he
      · rw [List.mem_singleton] at he; subst he; simp [preorder]
      · cases he
    · simp [preorder, walkList_mem sel _ cs e he]
    · split at he
      · rw [List.mem_singleton] at he; subst he; simp [preorder]
      · cases he
  | .pi _ _ _, e, he => by simp [walk] at he
  | .comment _ _, e, he => by simp [walk] at he
theorem walkList_mem (sel : QName → Bool) (p : Option Node) : ∀ (ns : List Node), ∀ e ∈ walkList sel p ns, e.node ∈ preorderList ns
  | [], e, he => by simp [walkList] at he
  | n :: ns, e, he => by
    simp only [walkList, List.mem_append] at he
    rcases he with he | he
    · simp [preorderList, walk_mem sel p n e he]
    · simp [preorderList, walkList_mem sel p ns e he]
end

/-! ### CALS -/

/-- the widths of the columns have digits -/
def WidthOk (q : String → QName) (cals : Bool) (n : Node) : Prop :=
  cals = true → n.tag? = some (q "colspec") → ∀ w, n.attr (q "colwidth") = some w → w = "" ∨ ∃ c ∈ w.toList, c.isDigit = true

namespace CalsP
variable {cfg : Config} {cals : Bool}

theorem each_table {n : Node} {st : Styles} (h : tableStyles cfg n = .ok st) : Each (good cals).table st := by
  unfold tableStyles at h
  obtain ⟨f, hf, h⟩ := bind_ok h
  have h5 : Each (good cals).table _ := each_copy (n := n) (a := cfg.q "bgcolor") (key := "background-color")
    (each_map (n := n) (a := cfg.q "pgwide") (each_map (n := n) (a := cfg.q "orient") (each_map (n := n) (a := cfg.q "rowsep")
      (each_map (n := n) (a := cfg.q "colsep") (each_frame hf) (sep_table (k := "x-cell-border-right") (by decide)))
        (sep_table (k := "x-cell-border-bottom") (by decide))) orient_table) pgwide_table) (fun s _ _ => table_str (by decide) (isStr _))
  simp only at h
  split at h
  · cases h; exact h5
  · split at h
    · cases h; exact h5
    · obtain ⟨w, hw, h⟩ := bind_ok h
      cases h
      refine each_set h5 ⟨fun _ => isStr _, fun h => absurd h (by decide), fun h => absurd h (by decide), fun _ _ => ⟨_, rfl, ?_⟩⟩
      unfold Units.rewriteWidth at hw
      obtain ⟨⟨v, u⟩, _, hw⟩ := bind_ok hw
      obtain ⟨x, _, hw⟩ := bind_ok hw
      cases hw
      obtain ⟨c, hc, hd⟩ := digit_format2 x
      exact ⟨c, by simp [hc], hd⟩

theorem each_row {p : Option Node} {n : Node} {st : Styles} {nature : Option String} (h : rowLooks cfg p n = .ok (st, nature)) :
    Each ((good cals).view .row) st ∧ (good cals).nature nature := by
  have key : ∀ {st0 : Styles} {nat0 : Option String}, Each ((good cals).view .row) st0 → (good cals).nature nat0 →
      Each ((good cals).view .row) (copyStyle n (cfg.q "rowstyle") "rowstyle" (copyStyle n (cfg.q "bgcolor") "background-color"
        (mapStyle n (cfg.q "rowsep") sepMap "border-bottom" (mapStyle n (cfg.q "valign") valignMap "vertical-align" st0)))) ∧ (good cals).nature nat0 :=
    fun h1 h2 => ⟨each_copy (each_copy (each_map (each_map h1 valign_row) (fun p hp => row_str (by decide) (isStr_sep p hp)))
      (fun s _ _ => row_str (by decide) (isStr _))) (fun s _ _ => row_str (by decide) (isStr _)), h2⟩
  unfold rowLooks at h
  cases p with
  | none =>
    cases h
    exact key (each_nil _) (good_none _)
  | some p =>
    simp only at h
    obtain ⟨r, hr, h⟩ := bind_ok h
    cases h
    refine key (each_map (each_nil _) valign_row) ?_
    unfold rowNature at hr
    simp only [Dict.get?, List.find?_cons, List.find?_nil] at hr
    revert hr
    split
    · rename_i hx; intro hr; cases hr; revert hx
      split
      · intro hx; cases hx; simp [good]
      · split
        · intro hx; cases hx; simp [good]
        · split
          · intro hx; cases hx; simp [good]
          · intro hx; cases hx
    · intro hr; cases hr

theorem each_entry (n : Node) : Each (good cals).cell (entryStyles cfg n) := by
  have h : Each (good cals).cell _ := each_copy (n := n) (a := cfg.q "cellstyle") (key := "cellstyle") (each_map (n := n) (a := cfg.q "align") (each_map (n := n) (a := cfg.q "valign")
    (each_copy (n := n) (a := cfg.q "bgcolor") (key := "background-color") (each_map (n := n) (a := cfg.q "rowsep") (key := "border-bottom")
    (each_map (n := n) (a := cfg.q "colsep") (key := "border-right") (each_nil _) (fun p hp => cell_str (by decide) (isStr_sep p hp)))
    (fun p hp => cell_str (by decide) (isStr_sep p hp))) (fun s _ _ => cell_str (by decide) (isStr _))) valign_cell) align_cell)
    (fun s _ _ => cell_str (by decide) (isStr _))
  unfold entryStyles
  simp only
  split
  · exact each_set h (cell_str (by decide) (isStr _))
  · exact h

theorem each_colspec {n : Node} (hn : n.tag? = some (cfg.q "colspec")) (hw : WidthOk cfg.q cals n) : Each ((good cals).view .col) (colspecStyles cfg n) := by
  refine each_map (each_copy (each_map (each_map (each_nil _) (fun p hp => col_str (by decide) (isStr_sep p hp)))
    (fun p hp => col_str (by decide) (isStr_sep p hp))) ?_) (fun p hp => col_str (by decide) (align_str p hp))
  intro s hs hne
  exact ⟨isStr _, fun _ hc => ⟨s, rfl, (hw hc hn s hs).resolve_left hne⟩⟩

theorem meets_onStart {p : Option Node} {n : Node} (hw : WidthOk cfg.q cals n) : Keeps (PState.Meets (good cals)) (onStart cfg p n) := by
  unfold onStart
  split
  · exact keeps_raise _
  rename_i tag htag
  split
  · refine keeps_bind keeps_nextColMeets (fun _ => ?_)
    unfold parseEntry
    exact keeps_bind keeps_get (fun _ => keeps_bind (keeps_lift _) (fun _ => keeps_bind_row (fun r hr =>
      keeps_tableMeets (keeps_insertMeets (good_none _) _ _ _ _ (placeable_entry n) (each_entry n) hr))))
  split
  · refine keeps_bind keeps_nextRowMeets (fun _ => ?_)
    unfold parseRow
    refine keeps_bind_lift (fun ⟨st, nature⟩ hr => keeps_bind keeps_get (fun _ => keeps_bind (keeps_tableMeets (keeps_editMeets (good_none _) _ _ ?_)) ?_))
    · intro v _; exact each_row hr
    · intro _ s hs
      exact ⟨hs.1, fun r e => by cases e; exact (each_row hr).2⟩
  split
  · exact keeps_pure ()
  split
  · rename_i hq
    refine keeps_bind keeps_nextColMeets (fun _ => ?_)
    unfold parseColspec
    refine keeps_bind (keeps_lift _) (fun _ => keeps_bind keeps_get (fun _ => keeps_bind (keeps_lift _) (fun _ => keeps_tableMeets (keeps_editMeets (good_none _) _ _ ?_))))
    intro v hv
    exact ⟨each_update hv.1 (each_colspec (by rw [htag, hq]) hw), hv.2⟩
  split
  · unfold parseTgroup
    refine keeps_tableMeets ?_
    intro t ht
    exact ⟨each_update ht.styles (each_map (each_map (each_nil _) (sep_table (by decide))) (sep_table (by decide))),
      fun ax vs hv => ht.views ax vs (by cases ax <;> exact hv), ht.cells⟩
  split
  · exact keeps_newMeets (fun s hs => each_table hs)
  · exact keeps_raise _

theorem meets_loop : ∀ (es : List Event) (d : Int), (∀ e ∈ es, WidthOk cfg.q cals e.node) → Keeps (PState.Meets (good cals)) (loop cfg d es)
  | [], _, _ => keeps_pure ()
  | e :: es, d, h => by
    unfold loop
    simp only
    have ih := fun d => meets_loop es d (fun e' he => h e' (List.mem_cons_of_mem _ he))
    split
    · exact ih _
    · refine keeps_bind ?_ (fun _ => ih _)
      unfold onEvent
      split
      · exact meets_onStart (h e List.mem_cons_self)
      · unfold onEnd
        split
        · exact keeps_endRowMeets (good_none _) .nothing
        split
        · exact keeps_tableMeets (keeps_fillHolesMeets (good_none _) .nothing)
        · exact keeps_pure ()

theorem parsed_good {p : Option Node} {n : Node} {s s' : PState} {t : Table Content} (hw : ∀ m ∈ preorder n, WidthOk cfg.q cals m)
    (h : parseTable cfg p n s = (.ok (some t), s')) : t.Meets (good cals) := by
  refine parsed_meets (meets_loop _ 0 ?_) h
  exact fun e he => hw _ (walk_mem _ _ n e he)

end CalsP

/-! ### Formex -/

namespace FmxP
variable {cfg : Config} {cals : Bool}

/-- a cell without type stands in a row whose type is that of ordinary rows -/
def TypeOk (cfg : Config) (cals : Bool) (p : Option Node) (n : Node) : Prop :=
  cals = true → n.tag? = some (cfg.f "CELL") → n.attr (cfg.f "TYPE") = none →
    ∀ row, p = some row → ∀ ty, row.attr (cfg.f "TYPE") = some ty → ty = "" ∨ ty = "NORMAL"

theorem each_tbl (tbl : Option Node) : Each (good cals).table (tblStyles cfg tbl).1 := by
  unfold tblStyles
  split
  · exact each_nil _
  · refine each_map (each_nil _) ?_
    intro p hp
    simp only [pageSizeMap, List.mem_cons, List.not_mem_nil, or_false] at hp
    rcases hp with rfl | rfl | rfl | rfl <;>
      exact ⟨fun _ => isStr _, fun h => absurd h (by decide), fun _ _ => ⟨_, by decide, rfl⟩, fun h => absurd h (by decide)⟩

theorem each_corpus {tbl : Option Node} {n : Node} {st : Styles} (h : corpusStyles cfg tbl n = .ok st) : Each (good cals).table st := by
  unfold corpusStyles at h
  obtain ⟨f, hf, h⟩ := bind_ok h
  cases h
  exact each_copy (each_map (each_map (each_map (each_map (each_update (each_tbl tbl) (each_frame hf)) (sep_table (by decide)))
    (sep_table (by decide))) orient_table) pgwide_table) (fun s _ _ => table_str (by decide) (isStr _))

theorem each_calsRow (n : Node) : Each ((good cals).view .row) (calsRowStyles cfg n) :=
  each_copy (each_copy (each_map (each_map (each_nil _) valign_row) (fun p hp => row_str (by decide) (isStr_sep p hp)))
    (fun s _ _ => row_str (by decide) (isStr _))) (fun s _ _ => row_str (by decide) (isStr _))

/-- the styles of the notes are given to a cell -/
theorem each_notes (n : Node) : Each (good cals).cell (calsRowStyles cfg n) :=
  each_copy (each_copy (each_map (each_map (each_nil _) valign_cell) (fun p hp => cell_str (by decide) (isStr_sep p hp)))
    (fun s _ _ => cell_str (by decide) (isStr _))) (fun s _ _ => cell_str (by decide) (isStr _))

theorem each_single {k s : String} (hk : k ≠ "vertical-align") : Each ((good cals).view .row) [(k, .str s)] := by
  intro p hp
  rw [List.mem_singleton] at hp
  subst hp
  exact row_str hk (isStr _)

theorem each_rowStyles (b : Nat) (n : Node) : Each ((good cals).view .row) (rowStyles cfg b n) := by
  refine each_update ?_ (each_calsRow n)
  split
  · exact each_nil _
  · exact each_single (by decide)

theorem typeMap_nature {t : String} {n : String} (h : Dict.get? typeMap t = some n) : n = "header" ∨ n = "body" := by
  unfold Dict.get? at h
  cases hf : typeMap.find? (fun p => p.1 = t) with
  | none => rw [hf] at h; cases h
  | some p =>
    rw [hf] at h; cases h
    have := List.mem_of_find?_eq_some hf
    simp only [typeMap, List.mem_cons, List.not_mem_nil, or_false] at this
    rcases this with rfl | rfl | rfl | rfl | rfl <;> simp

theorem nature_row (ty : Option String) : (good cals).nature (some (rowNature ty)) := by
  unfold rowNature
  split
  · simp [good]
  · rename_i t
    cases h : Dict.get? typeMap t with
    | none => simp [good]
    | some n => rcases typeMap_nature h with rfl | rfl <;> simp [good]

theorem nature_cell {ty row : Option String} (h : (good cals).nature row) : (good cals).nature (cellNature ty row) := by
  unfold cellNature
  split
  · exact h
  · split
    · exact h
    · rename_i hx; rcases typeMap_nature hx with rfl | rfl <;> simp [good]

theorem each_cellStyle {ty row : Option String} (h : cals = true → ty = none → orText row "NORMAL" = "NORMAL") : Each (good cals).cell (cellStyle ty row) := by
  unfold cellStyle
  split
  · rename_i hne
    intro q hq
    rw [List.mem_singleton] at hq
    subst hq
    refine ⟨fun h => absurd rfl h, fun _ hc => ?_, fun h => absurd h (by simp), fun h => absurd h (by simp)⟩
    cases ty with
    | some t => exact isStr _
    | none => exact absurd (h hc rfl).symm hne
  · exact each_nil _

theorem each_cell {p : Option Node} {n : Node} (hn : n.tag? = some (cfg.f "CELL")) (ht : TypeOk cfg cals p n) : Each (good cals).cell (cellStyles cfg p n) := by
  refine each_map (each_map (each_copy (each_map (each_map (each_cellStyle ?_) (fun p hp => cell_str (by decide) (isStr_sep p hp)))
    (fun p hp => cell_str (by decide) (isStr_sep p hp))) (fun s _ _ => cell_str (by decide) (isStr _))) valign_cell) align_cell
  intro hc hty
  cases p with
  | none => rfl
  | some row =>
    simp only
    cases hr : row.attr (cfg.f "TYPE") with
    | none => rfl
    | some ty => rcases ht hc hn hty row rfl ty hr with rfl | rfl <;> decide

theorem each_colspec {n : Node} (hn : n.tag? = some (cfg.q "colspec")) (hw : WidthOk cfg.q cals n) : Each ((good cals).view .col) (colspecStyles cfg n) := by
  refine each_map (each_copy (each_map (each_map (each_nil _) (fun p hp => col_str (by decide) (isStr_sep p hp)))
    (fun p hp => col_str (by decide) (isStr_sep p hp))) ?_) (fun p hp => col_str (by decide) (align_str p hp))
  intro s hs hne
  exact ⟨isStr _, fun _ hc => ⟨s, rfl, (hw hc hn s hs).resolve_left hne⟩⟩

theorem placeable_node (n : Node) : Placeable (some (nodeContent cfg n)) := by
  unfold nodeContent
  split
  · exact .text _
  · exact placeable_entry n

theorem meets_startRow {nature : String} (hn : (good cals).nature (some nature)) {st : Option Styles} (hst : ∀ s, st = some s → Each ((good cals).view .row) s) :
    Keeps (PState.Meets (good cals)) (startRow nature st) := by
  unfold startRow
  refine keeps_bind keeps_get (fun _ => keeps_bind (keeps_tableMeets (keeps_editMeets (good_none _) _ _ ?_)) ?_)
  · intro v hv
    refine ⟨?_, hn⟩
    cases st with
    | none => exact hv.1
    | some s => exact hst s rfl
  · intro _ s hs
    exact ⟨hs.1, fun r e => by cases e; exact hn⟩

theorem meets_insertInRow {c : Option Content} {st : Option Styles} {n : Option String} (w h : Int) (hc : Placeable c) (hst : Each (good cals).cell (copyStyles st))
    (hn : (good cals).nature n) : Keeps (PState.Meets (good cals)) (insertInRow c st n w h) := by
  unfold insertInRow
  exact keeps_bind_row (fun r hr => keeps_tableMeets (keeps_insertMeets (good_none _) _ _ _ _ hc hst hn))

theorem meets_title {tag : String} (b : Nat) (n : Node) : Keeps (PState.Meets (good cals)) (parseTitle cfg tag b n) := by
  unfold parseTitle titleRow
  have hb : (good cals).nature (some "body") := by simp [good]
  refine keeps_bind (meets_startRow hb ?_) (fun _ => keeps_bind (keeps_lift _) (fun _ => keeps_bind (keeps_lift _) (fun _ =>
    keeps_bind (keeps_forEach (fun _ => meets_insertInRow _ _ .nothing (each_nil _) hb) _) (fun _ => meets_insertInRow _ _ (placeable_node n) (each_nil _) hb))))
  intro s hs
  cases hs
  exact each_update (each_single (by decide)) (each_calsRow n)

theorem meets_notes (n : Node) : Keeps (PState.Meets (good cals)) (parseNotes cfg n) := by
  have hb : (good cals).nature (some "footer") := by simp [good]
  unfold parseNotes
  refine keeps_bind (meets_startRow hb (fun _ h => nomatch h)) (fun _ => keeps_bind keeps_get (fun s => ?_))
  split
  · exact keeps_raise _
  · refine keeps_bind (keeps_lift _) (fun bb => ?_)
    split
    · exact keeps_raise _
    · refine meets_insertInRow _ _ ?_ (each_notes n) hb
      split
      · exact .pieces _ (by intro c hc; rw [List.mem_singleton] at hc; exact .inr ⟨_, hc⟩)
      · exact placeable_node n

theorem meets_onStart {b : Nat} {p : Option Node} {n : Node} (hw : WidthOk cfg.q cals n) (ht : TypeOk cfg cals p n) :
    Keeps (PState.Meets (good cals)) (onStart cfg b p n) := by
  unfold onStart
  split
  · exact keeps_raise _
  rename_i tag htag
  split
  · rename_i hq
    refine keeps_bind keeps_nextColMeets (fun _ => ?_)
    unfold parseCell
    exact keeps_bind (keeps_lift _) (fun _ => keeps_bind_row (fun r hr =>
      meets_insertInRow _ _ (placeable_node n) (each_cell (by rw [htag, hq]) ht) (nature_cell hr)))
  split
  · refine keeps_bind keeps_nextRowMeets (fun _ => meets_startRow (nature_row _) ?_)
    intro s hs; cases hs
    exact each_rowStyles b n
  split
  · exact keeps_pure ()
  split
  · exact keeps_bind keeps_nextRowMeets (fun _ => meets_title b n)
  split
  · exact keeps_bind keeps_nextRowMeets (fun _ => meets_title b n)
  split
  · rename_i hq
    refine keeps_bind keeps_nextColMeets (fun _ => ?_)
    unfold parseColspec
    refine keeps_bind keeps_get (fun _ => keeps_bind (keeps_lift _) (fun _ => keeps_tableMeets (keeps_editMeets (good_none _) _ _ ?_)))
    intro v hv
    exact ⟨each_update hv.1 (each_colspec (by rw [htag, hq]) hw), hv.2⟩
  split
  · exact keeps_newMeets (fun s hs => each_corpus hs)
  · exact keeps_raise _

theorem meets_loop : ∀ (es : List Event) (d : Int) (b : Nat), (∀ e ∈ es, WidthOk cfg.q cals e.node ∧ TypeOk cfg cals e.parent e.node) →
    Keeps (PState.Meets (good cals)) (loop cfg d b es)
  | [], _, _, _ => keeps_pure ()
  | e :: es, d, b, h => by
    unfold loop
    simp only
    have ih := fun d b => meets_loop es d b (fun e' he => h e' (List.mem_cons_of_mem _ he))
    split
    · exact ih _ _
    · refine keeps_bind ?_ (fun _ => ih _ _)
      unfold onEvent
      split
      · exact meets_onStart (h e List.mem_cons_self).1 (h e List.mem_cons_self).2
      · unfold onEnd
        split
        · exact keeps_endRowMeets (good_none _) .nothing
        split
        · unfold endCorpus
          exact keeps_bind (keeps_forEach (fun n => keeps_bind keeps_nextRowMeets (fun _ => meets_notes n)) _)
            (fun _ => keeps_tableMeets (keeps_fillHolesMeets (good_none _) .nothing))
        · exact keeps_pure ()

theorem parsed_good {b : Nat} {p : Option Node} {n : Node} {s s' : PState} {t : Table Content} (hn : n.tag? ≠ some (cfg.f "CELL"))
    (hw : ∀ m ∈ preorder n, WidthOk cfg.q cals m) (ht : ∀ row ∈ preorder n, ∀ c ∈ row.children, TypeOk cfg cals (some row) c)
    (h : parseTable cfg b p n s = (.ok (some t), s')) : t.Meets (good cals) :=
  parsed_meets (meets_loop _ 0 b (fun e he => ⟨hw _ (walk_mem _ _ n e he),
    walk_events (Q := TypeOk cfg cals) (selected cfg) p n (fun _ h => absurd h hn) ht e he⟩)) h

end FmxP


/-! ### Word -/

namespace Ooxml
variable {cfg : Config} {cals : Bool}

/-- the orientation of the pages of a section is a known one -/
def OrientOk (cals : Bool) (sect : Option Node) : Prop :=
  cals = true → ∀ o, attrOf (nodeOf sect [["pgSz"]]) [] "orient" = some o → o ∈ ["landscape", "portrait"]

/-- the keys of some borders, and what is said of all of them -/
def borderKeys (keys : List String) : List String := keys ++ ["border-collapse", "border-spacing", "box-shadow"]

theorem each_setBorders (props : List (String × Border)) {F : String → StyleVal → Prop} (h : ∀ p ∈ props, ∀ s, F p.1 (.str s)) :
    Each F (setBorders cfg props) := by
  unfold setBorders
  have : ∀ (l : List (String × Border)) (st : Styles), (∀ p ∈ l, ∀ s, F p.1 (.str s)) → Each F st → Each F (l.foldl (putBorder cfg) st) := by
    intro l
    induction l with
    | nil => intro st _ h; exact h
    | cons p l ih =>
      intro st hl hst
      refine ih _ (fun q hq => hl q (List.mem_cons_of_mem _ hq)) ?_
      unfold putBorder
      split
      · exact hst
      · exact each_set hst (hl p List.mem_cons_self _)
  exact this props [] h (each_nil _)

theorem each_borders {mapping : List (String × List String)} {n : Option Node} {st : Styles} (h : bordersOf cfg mapping n = .ok st) :
    Each (fun k v => k ∈ borderKeys (mapping.map (·.1)) ∧ IsStr v) st := by
  unfold bordersOf at h
  split at h
  · cases h; exact each_nil _
  · obtain ⟨props, hp, h⟩ := bind_ok h
    have hkeys : ∀ p ∈ props, p.1 ∈ mapping.map (·.1) := by
      intro p hpm
      obtain ⟨m, hm, e⟩ := (mapM_ok_all₂ hp).mem_right hpm
      cases hb : borderProps cfg _ m.2 with
      | error x => rw [hb] at e; cases e
      | ok x => rw [hb] at e; cases e; exact List.mem_map.mpr ⟨m, hm, rfl⟩
    have h1 : Each (fun k v => k ∈ borderKeys (mapping.map (·.1)) ∧ IsStr v) (setBorders cfg props) :=
      each_setBorders props (fun p hp s => ⟨List.mem_append_left _ (hkeys p hp), isStr _⟩)
    have h2 : Each (fun k v => k ∈ borderKeys (mapping.map (·.1)) ∧ IsStr v) (setSpacing cfg props (setBorders cfg props)) := by
      unfold setSpacing
      split
      · split
        · exact each_set h1 ⟨by simp [borderKeys], isStr _⟩
        · exact each_set (each_set h1 ⟨by simp [borderKeys], isStr _⟩) ⟨by simp [borderKeys], isStr _⟩
      · exact h1
    unfold bordersToStyles setShadow at h
    split at h
    · obtain ⟨l, _, h⟩ := bind_ok h
      cases h
      exact each_set h2 ⟨by simp [borderKeys], isStr _⟩
    · cases h; exact h2

theorem each_tableBorders {n : Option Node} {st : Styles} (h : tableBorders cfg n = .ok st) : Each (good cals).table st := by
  refine each_imp ?_ (each_borders h)
  intro k v ⟨hk, hv⟩
  refine table_str ?_ hv
  revert hk
  simp only [borderKeys, List.map_cons, List.map_nil, List.cons_append, List.nil_append, List.mem_cons, List.not_mem_nil, or_false]
  rintro (rfl | rfl | rfl | rfl | rfl | rfl | rfl | rfl | rfl) <;> decide

theorem each_tcBorders {n : Option Node} {st : Styles} (h : tableBorders cfg n = .ok st) : Each (good cals).cell st := by
  refine each_imp ?_ (each_borders h)
  intro k v ⟨hk, hv⟩
  refine cell_str ?_ hv
  revert hk
  simp only [borderKeys, List.map_cons, List.map_nil, List.cons_append, List.nil_append, List.mem_cons, List.not_mem_nil, or_false]
  rintro (rfl | rfl | rfl | rfl | rfl | rfl | rfl | rfl | rfl) <;> decide

theorem each_insideBorders {n : Option Node} {st : Styles} (h : cellBorders cfg n = .ok st) : Each (good cals).table (st.map (fun p => ("x-cell-" ++ p.1, p.2))) := by
  intro q hq
  obtain ⟨p, hp, rfl⟩ := List.mem_map.mp hq
  obtain ⟨hk, hv⟩ := each_borders h p hp
  refine table_str ?_ hv
  revert hk
  generalize p.1 = k
  simp only [borderKeys, List.map_cons, List.map_nil, List.cons_append, List.nil_append, List.mem_cons, List.not_mem_nil, or_false]
  rintro (rfl | rfl | rfl | rfl | rfl | rfl | rfl) <;> decide

theorem each_styleBorders {styles : Option Node} : ∀ (n : Nat) {id : Option String} {st : Styles}, styleBorders cfg styles n id = .ok st → Each (good cals).table st
  | 0, _, _, h => by cases h
  | n + 1, id, st, h => by
    unfold styleBorders at h
    split at h
    · split at h
      · cases h; exact each_nil _
      · obtain ⟨parent, hp, h⟩ := bind_ok h
        obtain ⟨child, hc, h⟩ := bind_ok h
        cases h
        refine each_update (each_styleBorders n hp) ?_
        unfold ownBorders at hc
        obtain ⟨tb, htb, hc⟩ := bind_ok hc
        obtain ⟨cb, hcb, hc⟩ := bind_ok hc
        cases hc
        exact each_update (each_tableBorders htb) (each_insideBorders hcb)
    · cases h; exact each_nil _

theorem each_shading {F : String → StyleVal → Prop} (hF : ∀ s, F "background-color" (.str s)) (n : Option Node) : Each F (shading n) := by
  unfold shading
  split
  · exact each_nil _
  · split
    · exact each_nil _
    · intro p hp
      rw [List.mem_singleton] at hp
      subst hp
      exact hF _

theorem each_page {sect : Option Node} {st : Styles} (ho : OrientOk cals sect) (h : pageStyles cfg (nodeOf sect [["pgSz"]]) = .ok st) :
    Each (good cals).table st := by
  unfold pageStyles at h
  obtain ⟨w, _, h⟩ := bind_ok h
  obtain ⟨k, _, h⟩ := bind_ok h
  cases h
  refine each_append ?_ ?_
  · split
    · intro p hp
      rw [List.mem_singleton] at hp
      subst hp
      exact ⟨fun h => absurd rfl h, fun _ => ⟨_, _, rfl⟩, fun h => absurd h (by simp), fun h => absurd h (by simp)⟩
    · exact each_nil _
  · split
    · exact each_nil _
    · rename_i o hor
      intro p hp
      rw [List.mem_singleton] at hp
      subst hp
      exact ⟨fun _ => isStr _, fun h => absurd h (by simp), fun _ hc => ⟨o, ho hc o hor, rfl⟩, fun h => absurd h (by simp)⟩

theorem each_tblStyles {sect : Option Node} {n : Node} {st : Styles} (ho : OrientOk cals sect) (h : tblStyles cfg sect n = .ok st) : Each (good cals).table st := by
  unfold tblStyles at h
  obtain ⟨st0, h0, h⟩ := bind_ok h
  obtain ⟨tb, htb, h⟩ := bind_ok h
  obtain ⟨pg, hpg, h⟩ := bind_ok h
  cases h
  exact each_set (each_update (each_update (each_update (each_styleBorders _ h0) (each_tableBorders htb))
    (each_shading (fun s => table_str (by decide) (isStr _)) _)) (each_page ho hpg)) (table_str (by decide) (isStr _))

theorem digit_twips {s : String} {v : StyleVal} (h : twipsText cfg s = .ok v) : HasDigit v := by
  unfold twipsText at h
  cases hf : cfg.float s with
  | error e => rw [hf] at h; cases h
  | ok x =>
    rw [hf] at h; cases h
    obtain ⟨c, hc, hd⟩ := digit_format2 (cfg.fl (x / 20))
    exact ⟨_, rfl, c, by simp [hc], hd⟩

theorem str_twips {s : String} {v : StyleVal} (h : twipsText cfg s = .ok v) : IsStr v := by
  obtain ⟨s, hs, _⟩ := digit_twips h
  exact ⟨s, hs⟩

theorem nature_tr {n : Node} {s : String} (h : rowNature n = .ok s) : (good cals).nature (some s) := by
  unfold rowNature at h
  split at h
  · cases h; simp [good]
  · simp only [Dict.get?, List.find?_cons, List.find?_nil] at h
    revert h
    split
    · rename_i hx; intro h; cases h; revert hx
      split
      · intro hx; cases hx; simp [good]
      · split
        · intro hx; cases hx; simp [good]
        · intro hx; cases hx
    · intro h; cases h

theorem each_height {n : Node} {st : Styles} (h : rowHeight cfg n = .ok st) : Each ((good cals).view .row) st := by
  unfold rowHeight at h
  split at h
  · cases h; exact each_nil _
  · simp only [Dict.get?, List.find?_cons, List.find?_nil] at h
    revert h
    split
    · intro h; cases h
    · intro h; cases h; exact each_nil _
    · rename_i style hx
      intro h
      cases ht : twipsText cfg ((attrOf (some n) [["trPr"], ["tblHeader"]] "val").getD "0") with
      | error e => rw [ht] at h; cases h
      | ok v =>
        rw [ht] at h; cases h
        intro p hp
        rw [List.mem_singleton] at hp
        subst hp
        refine row_str ?_ (str_twips ht)
        revert hx
        split
        · intro hx; cases hx; simp
        · split
          · intro hx; cases hx; simp
          · split
            · intro hx; cases hx
            · intro hx; cases hx

theorem each_ins (n : Node) : Each ((good cals).view .row) (rowIns n) := by
  unfold rowIns
  split
  · exact each_nil _
  · intro p hp
    rcases List.mem_cons.mp hp with rfl | hp
    · exact ⟨fun h => absurd rfl h, fun h => absurd h (by simp)⟩
    · obtain ⟨q, hq, e⟩ := List.mem_filterMap.mp hp
      cases ha : nonEmpty (attrOf (some n) [["trPr"], ["ins"]] q.2) with
      | none => rw [ha] at e; cases e
      | some v =>
        rw [ha] at e; cases e
        refine row_str ?_ (isStr _)
        revert hq
        generalize q = q
        simp only [List.mem_cons, List.not_mem_nil, or_false]
        rintro (rfl | rfl | rfl) <;> simp

theorem each_vAlign {n : Node} {st : Styles} (h : vAlign n = .ok st) : Each (good cals).cell st := by
  unfold vAlign at h
  split at h
  · cases h; exact each_nil _
  · simp only [Dict.get?, List.find?_cons, List.find?_nil] at h
    have key : ∀ v ∈ cellAlignments, Each (good cals).cell [("vertical-align", .str v)] := by
      intro v hv p hp
      rw [List.mem_singleton] at hp
      subst hp
      exact ⟨fun _ => isStr _, fun h => absurd h (by simp), fun _ => ⟨v, hv, rfl⟩, fun h => absurd h (by simp)⟩
    revert h
    split
    · intro h; cases h
    · rename_i v hx
      intro h; cases h
      refine key v ?_
      revert hx
      repeat' split
      all_goals intro hx; cases hx
      all_goals decide

theorem each_hAlign {n : Node} {st : Styles} (h : hAlign n = .ok st) : Each (good cals).cell st := by
  unfold hAlign at h
  obtain ⟨jc, _, h⟩ := bind_ok h
  have key : ∀ v ∈ ["left", "right", "center", "justify"], Each (good cals).cell [("align", .str v)] := by
    intro v hv p hp
    rw [List.mem_singleton] at hp
    subst hp
    exact ⟨fun _ => isStr _, fun h => absurd h (by simp), fun h => absurd h (by simp), fun _ => ⟨v, hv, rfl⟩⟩
  split at h
  · cases h; exact each_nil _
  · simp only [Dict.get?, List.find?_cons, List.find?_nil] at h
    revert h
    split
    · intro h; cases h
    · rename_i v hx
      intro h; cases h
      refine key v ?_
      revert hx
      repeat' split
      all_goals intro hx; cases hx
      all_goals decide

theorem each_tc {n : Node} {st : Styles} (h : tcStyles cfg n = .ok st) : Each (good cals).cell st := by
  unfold tcStyles at h
  obtain ⟨va, hva, h⟩ := bind_ok h
  obtain ⟨ha, hha, h⟩ := bind_ok h
  obtain ⟨bs, hbs, h⟩ := bind_ok h
  cases h
  have h1 : Each (good cals).cell _ := each_update (each_update (each_update (each_shading (fun s => cell_str (by decide) (isStr _)) (nodeOf (some n) [["tcPr"], ["shd"]]))
    (each_vAlign hva)) (each_hAlign hha)) (each_tcBorders hbs)
  split
  · exact each_set h1 (cell_str (by decide) (isStr _))
  · exact h1

theorem joins_add : Joins (good cals) addContent := by
  intro a b r ha hb h
  cases a <;> cases b <;> cases h
  · exact .text _
  · cases ha with
    | pieces _ h1 =>
      cases hb with
      | pieces _ h2 =>
        refine .pieces _ ?_
        intro c hc
        rcases List.mem_append.mp hc with hc | hc
        · exact h1 c hc
        · exact h2 c hc

theorem meets_onStart {sect : Option Node} (ho : OrientOk cals sect) (n : Node) : Keeps (PState.Meets (good cals)) (onStart cfg sect n) := by
  unfold onStart
  split
  · exact keeps_newMeets (fun s hs => each_tblStyles ho hs)
  split
  · exact keeps_pure ()
  split
  · refine keeps_bind keeps_nextColMeets (fun _ => ?_)
    unfold parseGridCol
    refine keeps_bind_lift (fun v hv => keeps_bind keeps_get (fun _ => keeps_tableMeets (keeps_editMeets (good_none _) _ _ ?_)))
    intro w hw
    have : HasDigit v := by
      split at hv
      · cases hv
      · exact digit_twips hv
    refine ⟨each_update hw.1 ?_, hw.2⟩
    intro p hp
    rw [List.mem_singleton] at hp
    subst hp
    exact ⟨by obtain ⟨s, hs, _⟩ := this; exact ⟨s, hs⟩, fun _ _ => this⟩
  split
  · refine keeps_bind keeps_nextRowMeets (fun _ => ?_)
    unfold parseTr
    refine keeps_bind_lift (fun nature hn => keeps_bind_lift (fun st hst => keeps_bind keeps_get (fun _ =>
      keeps_bind (keeps_tableMeets (keeps_editMeets (good_none _) _ _ ?_)) ?_)))
    · intro v hv
      exact ⟨each_update (each_update hv.1 (each_height hst)) (each_ins n), nature_tr hn⟩
    · intro _ s hs
      exact ⟨hs.1, fun r e => by cases e; exact nature_tr hn⟩
  split
  · refine keeps_bind keeps_nextColMeets (fun _ => ?_)
    unfold parseTc
    refine keeps_bind (keeps_lift _) (fun _ => keeps_bind (fun _ h => h) (fun _ => ?_))
    split
    · unfold newCell
      refine keeps_bind_lift (fun st hst => keeps_bind_row (fun r hr => keeps_tableMeets (keeps_insertMeets (good_none _) _ _ _ _ ?_ (each_tc hst) (good_none _))))
      refine .pieces _ ?_
      intro c hc
      obtain ⟨m, _, rfl⟩ := List.mem_map.mp hc
      exact .inr ⟨m, rfl⟩
    split
    · unfold continueCell
      exact keeps_bind keeps_get (fun _ => keeps_bind_row (fun r hr => keeps_tableMeets (keeps_expandMeets (good_none _) joins_add _ _ _)))
    · exact keeps_raise _
  · exact keeps_raise _

theorem meets_loop {sect : Option Node} (ho : OrientOk cals sect) : ∀ (es : List Event) (d : Int), Keeps (PState.Meets (good cals)) (loop cfg sect d es)
  | [], _ => keeps_pure ()
  | e :: es, d => by
    unfold loop
    simp only
    split
    · exact meets_loop ho es _
    · refine keeps_bind ?_ (fun _ => meets_loop ho es _)
      unfold onEvent
      split
      · exact meets_onStart ho _
      · unfold onEnd
        split
        · exact keeps_endRowMeets (good_none _) .nothing
        · exact keeps_pure ()

theorem parsed_good {sect : Option Node} {n : Node} {s s' : PState} {t : Table Content} (ho : OrientOk cals sect)
    (h : parseTable cfg sect n s = (.ok (some t), s')) : t.Meets (good cals) := parsed_meets (meets_loop ho _ 0) h

end Ooxml

/-! ### writing -/

theorem good_text {F : String → StyleVal → Prop} {st : Styles} (h : Each F st) {k : String} (hF : ∀ v, F k v → IsStr v) : Text st k :=
  fun v hv => hF v (each_get h hv)

theorem good_readable {F : String → StyleVal → Prop} {st : Styles} (h : Each F st) {k : String} (hF : ∀ v, F k v → IsStr v) : CalsSpec.Readable st k := by
  unfold CalsSpec.Readable
  cases hv : Dict.get? st k with
  | none => trivial
  | some v => obtain ⟨s, rfl⟩ := hF v (each_get h hv); trivial

section
variable {unit : List Char} (hu : ∃ n ∈ lengthUnits, unit = n.toList)
include hu

theorem good_length {F : String → StyleVal → Prop} {st : Styles} (h : Each F st) {k : String} (hF : ∀ v, F k v → HasDigit v) : Length unit st k :=
  fun v hv => ⟨hF v (each_get h hv), hu⟩

theorem good_table {st : Styles} (h : Each (good true).table st) : GoodTable unit st := by
  refine ⟨?_, ?_, ?_, ?_⟩
  · intro key hk
    refine good_readable h (fun v hv => hv.1 ?_)
    rintro rfl
    exact absurd hk (by decide)
  · exact fun v hv => (each_get h hv).2.2.1 rfl rfl
  · exact good_text h (fun v hv => hv.1 (by decide))
  · exact good_length hu h (fun v hv => hv.2.2.2 rfl rfl)

theorem good_column {st : Styles} (h : Each ((good true).view .col) st) : GoodColumn unit st :=
  ⟨good_length hu h (fun v hv => hv.2 rfl rfl), good_readable h (fun v hv => hv.1), good_readable h (fun v hv => hv.1)⟩
end

theorem good_ins {cals : Bool} {st : Styles} (h : Each ((good cals).view .row) st) : Text st "x-ins-author" ∧ Text st "x-ins-date" :=
  ⟨good_text h (fun v hv => hv.1 (by decide)), good_text h (fun v hv => hv.1 (by decide))⟩

theorem good_row {cals : Bool} {st : Styles} (h : Each ((good cals).view .row) st) : GoodRow st :=
  ⟨fun v hv => (each_get h hv).2 rfl, good_readable h (fun v hv => hv.1 (by decide)), good_text h (fun v hv => hv.1 (by decide)), fun _ => good_ins h⟩

theorem good_cell {c : Cell Content} (h : Each (good true).cell c.styles) (cells : List (Cell Content)) : GoodCell cells c :=
  ⟨fun _ => good_readable h (fun v hv => hv.1 (by decide)), fun _ => good_readable h (fun v hv => hv.1 (by decide)),
    fun v hv => (each_get h hv).2.2.1 rfl, fun v hv => (each_get h hv).2.2.2 rfl, good_text h (fun v hv => hv.1 (by decide)),
    good_text h (fun v hv => hv.2.1 rfl rfl)⟩

theorem meets_inCals {t : Table Content} (h : t.Meets (good true)) {unit : List Char} (hu : ∃ n ∈ lengthUnits, unit = n.toList) {rows cols : List (View Content)}
    (hrows : eval (Table.views .row) t = .ok rows) (hcols : eval (Table.views .col) t = .ok cols) : InCals unit t rows cols := by
  refine ⟨good_table hu h.styles, ?_, ?_, ?_⟩
  · exact fun v hv => good_column hu ((meets_views (good_none _) .col h).2 cols hcols v hv).1
  · exact fun v hv => good_row ((meets_views (good_none _) .row h).2 rows hrows v hv).1
  · exact fun c hc => ⟨good_cell (h.cells c hc).1 _, (h.cells c hc).2.2⟩

theorem meets_inFormex {t : Table Content} {titles cals : Bool} (h : t.Meets (good cals)) {unit : List Char} (hu : cals = true → ∃ n ∈ lengthUnits, unit = n.toList)
    {rows cols : List (View Content)} (hrows : eval (Table.views .row) t = .ok rows) (hcols : eval (Table.views .col) t = .ok cols) :
    InFormex titles cals unit t rows cols ↔ (titles = true → Covered t.cells ⟨1, 1⟩ ∧ (FmxSpec.HasTitle t → ∀ c ∈ t.cells, c.min.y = 1 → InTitle c)) := by
  constructor
  · intro hf ht
    exact ⟨hf.corner ht, hf.title ht⟩
  · intro ht
    refine ⟨?_, fun h => (ht h).1, fun h => (ht h).2, ?_, ?_, ?_⟩
    · intro _ v hv; exact (each_get h.styles hv).2.1 rfl
    · rintro rfl; exact good_table (hu rfl) h.styles
    · rintro rfl; exact fun v hv => good_column (hu rfl) ((meets_views (good_none _) .col h).2 cols hcols v hv).1
    · intro v hv _
      have hr := ((meets_views (good_none _) .row h).2 rows hrows v hv).1
      refine ⟨fun _ => good_ins hr, fun _ => ⟨good_row hr, good_text hr (fun v hv => hv.1 (by decide))⟩, ?_⟩
      intro c hc _
      have := h.cells c hc
      refine ⟨?_, ?_, fun _ => this.2.2⟩
      · have hn := this.2.1
        simp only [good, List.mem_cons, List.not_mem_nil, or_false] at hn
        rcases hn with hn | hn
        · exact .inl hn
        · exact .inr (.inr (.inr (by simpa using hn)))
      · rintro rfl; exact good_cell this.1 _

end Benker
