import Verif.Spec.FormexLooks
import Verif.Lemmas.CalsLooks
import Verif.Lemmas.FormexBuilder
import Verif.Props.FormexBuilder

/-! The attributes written by the Formex builder for the looks of a table. -/

namespace Benker
open PyM Cals CalsSpec FmxSpec

theorem tells_of {styles : Styles} {key : String} {f : StyleVal → Except PyErr String} {g : StyleVal → Option String} {o : Option String}
    (h : AttrOf styles key f o) (hf : ∀ v s, f v = .ok s → g v = some s) : Tells styles key g o :=
  ⟨h.1, fun v hv => by obtain ⟨s, h1, h2⟩ := h.2 v hv; exact ⟨s, hf v s h1, h2⟩⟩

theorem asText_of (v : StyleVal) (s : String) (h : attrValue v = .ok s) : asText v = some s := by
  cases v <;> simp only [attrValue, reduceCtorEq] at h
  cases h; rfl

theorem byWord_of (l : List (String × String)) (v : StyleVal) (s : String) (h : lookup l v = .ok s) : byWord l v = some s := by
  cases v <;> simp only [lookup, reduceCtorEq] at h
  rename_i x
  have key : Dict.get? l x = (l.find? (fun p => p.1 = x)).map (·.2) := by
    induction l with
    | nil => rfl
    | cons p l ih =>
      rw [List.find?_cons]
      obtain ⟨a, b⟩ := p
      rw [Dict.get?_cons]
      by_cases hx : a = x
      · simp [hx]
      · simp only [hx, decide_false, if_neg (by simpa using hx)]
        apply ih
        split at h <;> rename_i e
        · rw [Dict.get?_cons, if_neg (by simpa using hx)] at e
          rw [e]; exact h
        · cases h
  show (l.find? (fun p => p.1 = x)).map (·.2) = some s
  rw [← key]
  split at h
  · rename_i e; cases h; exact e
  · cases h

theorem inUnit_of (c : Cals.Config) (v : StyleVal) (s : String) (h : widthAttr c v = .ok s) : inUnit c.fl c.widthUnit v = some s := by
  cases v <;> simp only [widthAttr, reduceCtorEq] at h
  rename_i x
  obtain ⟨w, hw, h⟩ := bind_ok h
  cases h
  unfold inUnit
  simp only
  rw [hw]; rfl

theorem line_told {own table : Styles} {key tkey d : String} {o : Option String} (h : SepOf own key d o)
    (hd : defaultSep table tkey = .ok d) : LineTold own table key tkey o (some d) := by
  obtain ⟨sep, hs, rfl⟩ := h
  have hv := getSep_values hs
  unfold defaultSep at hd
  cases ht : getSepAttr table tkey with
  | error e => rw [ht] at hd; cases hd
  | ok o' =>
    have hv' := getSep_values ht
    have hd' : d = o'.getD "0" := by
      rw [ht] at hd
      cases o' with
      | none => cases hd; rfl
      | some x => cases hd; rfl
    subst hd'
    refine ⟨?_, ?_⟩
    · intro b
      rw [line_iff hs ht]
      rcases hv with rfl | rfl | rfl <;> rcases hv' with rfl | rfl | rfl <;> cases b <;> simp
    · split
      · intro h; exact absurd rfl h
      · rename_i h; exact fun _ => h

theorem line_table {table : Styles} {key tkey d : String} (hd : defaultSep table tkey = .ok d) : LineTold [] table key tkey (some d) none := by
  have hs : getSepAttr [] key = .ok none := rfl
  unfold defaultSep at hd
  cases ht : getSepAttr table tkey with
  | error e => rw [ht] at hd; cases hd
  | ok o' =>
    have hv' := getSep_values ht
    have hd' : d = o'.getD "0" := by
      rw [ht] at hd
      cases o' with
      | none => cases hd; rfl
      | some x => cases hd; rfl
    subst hd'
    refine ⟨?_, by simp⟩
    intro b
    rw [line_iff hs ht]
    rcases hv' with rfl | rfl | rfl <;> cases b <;> simp

theorem frame_told {styles : Styles} {f : String} (h : getFrameAttr styles = .ok f) :
    FrameFor (Visible styles "border-top") (Visible styles "border-right") (Visible styles "border-bottom") (Visible styles "border-left") f := by
  by_cases hr : ∀ key ∈ ["border-top", "border-right", "border-bottom", "border-left"], Readable styles key
  · obtain ⟨g, _, hg, h1⟩ := C38_frame_attr styles hr
    rw [h] at hg; cases hg; exact h1
  · have : ∃ key ∈ ["border-top", "border-right", "border-bottom", "border-left"], ¬ Readable styles key := by
      apply Classical.byContradiction
      intro hn
      exact hr (fun key hk => Classical.byContradiction (fun h => hn ⟨key, hk, h⟩))
    rw [C38_frame_error styles this] at h; cases h

theorem corpus_looks {cfg : Fmx.Config} {t : Table Content} {a : Dict QName String} (hu : cfg.useCals = true) (h : Fmx.corpusAttrs cfg t = .ok a) :
    CorpusLooks cfg.calsNs cfg.fl cfg.widthUnit t (Dict.get? a) ∧
    (∀ s, defaultSep t.styles "x-cell-border-right" = .ok s → Dict.get? a ⟨cfg.calsNs, "colsep"⟩ = some s) ∧
    (∀ s, defaultSep t.styles "x-cell-border-bottom" = .ok s → Dict.get? a ⟨cfg.calsNs, "rowsep"⟩ = some s) := by
  unfold Fmx.corpusAttrs at h
  rw [if_pos hu] at h
  simp only at h
  obtain ⟨f, hf, h⟩ := bind_ok h
  obtain ⟨cs, hcs, h⟩ := bind_ok h
  obtain ⟨rs, hrs, h⟩ := bind_ok h
  obtain ⟨a2, h2, h⟩ := bind_ok h
  obtain ⟨a3, h3, h⟩ := bind_ok h
  obtain ⟨a4, h4, h⟩ := bind_ok h
  have ne : ∀ x y : String, x ≠ y → cfg.q x ≠ cfg.q y := by
    intro x y hxy e; exact hxy (congrArg QName.name e)
  obtain ⟨base, hbase, h2⟩ : ∃ base, (∀ k, Dict.get? base k = if k = cfg.q "frame" then some f else if k = cfg.q "colsep" then some cs else
      if k = cfg.q "rowsep" then some rs else if k = cfg.q "tabstyle" then t.nature else none) ∧
      addAttr cfg.cals t.styles "x-sect-orient" "orient" (lookup [("landscape", "land"), ("portrait", "port")]) base = .ok a2 := by
    refine ⟨_, ?_, h2⟩
    intro k
    have h0 : Dict.get? [(cfg.q "frame", f), (cfg.q "colsep", cs), (cfg.q "rowsep", rs)] k =
        if k = cfg.q "frame" then some f else if k = cfg.q "colsep" then some cs else if k = cfg.q "rowsep" then some rs else none := by
      simp only [Dict.get?_cons, Dict.get?_nil, eq_comm]
    split
    · rename_i n hn
      rw [Dict.get?_set, h0, hn]
      by_cases hk : k = cfg.q "tabstyle"
      · subst hk
        rw [if_pos rfl, if_neg (ne _ _ (by decide)), if_neg (ne _ _ (by decide)), if_neg (ne _ _ (by decide)), if_pos rfl]
      · rw [if_neg (Ne.symm hk)]
        simp only [if_neg hk]
    · rename_i hn
      rw [h0, hn]
      simp only [ite_self]
  have low : ∀ k : QName, k.name ∉ ["orient", "pgwide", "bgcolor", "width"] → Dict.get? a k = Dict.get? base k := by
    intro k hk
    simp only [List.mem_cons, List.not_mem_nil, or_false, not_or] at hk
    rw [addAttr_other h hk.2.2.2, addAttr_other h4 hk.2.2.1, addAttr_other h3 hk.2.1, addAttr_other h2 hk.1]
  have none_of : ∀ n, n ∉ ["frame", "colsep", "rowsep", "tabstyle"] → Dict.get? base (cfg.q n) = none := by
    intro n hn
    simp only [List.mem_cons, List.not_mem_nil, or_false, not_or] at hn
    rw [hbase, if_neg (ne _ _ hn.1), if_neg (ne _ _ hn.2.1), if_neg (ne _ _ hn.2.2.1), if_neg (ne _ _ hn.2.2.2)]
  have ecol : Dict.get? a ⟨cfg.calsNs, "colsep"⟩ = some cs := by
    refine (low _ (show "colsep" ∉ _ by decide)).trans ((hbase _).trans ?_)
    rw [if_neg (show (⟨cfg.calsNs, "colsep"⟩ : QName) ≠ cfg.q "frame" from ne _ _ (by decide)), if_pos (show (⟨cfg.calsNs, "colsep"⟩ : QName) = cfg.q "colsep" from rfl)]
  have erow : Dict.get? a ⟨cfg.calsNs, "rowsep"⟩ = some rs := by
    refine (low _ (show "rowsep" ∉ _ by decide)).trans ((hbase _).trans ?_)
    rw [if_neg (show (⟨cfg.calsNs, "rowsep"⟩ : QName) ≠ cfg.q "frame" from ne _ _ (by decide)),
      if_neg (show (⟨cfg.calsNs, "rowsep"⟩ : QName) ≠ cfg.q "colsep" from ne _ _ (by decide)), if_pos (show (⟨cfg.calsNs, "rowsep"⟩ : QName) = cfg.q "rowsep" from rfl)]
  refine ⟨⟨⟨f, ?_, frame_told hf⟩, ?_, ?_, ?_, ?_, ?_, ?_, ?_, ?_⟩, ?_, ?_⟩
  · refine (low _ (show "frame" ∉ _ by decide)).trans ((hbase _).trans ?_)
    rw [if_pos (show (⟨cfg.calsNs, "frame"⟩ : QName) = cfg.q "frame" from rfl)]
  · rw [ecol]; exact line_table hcs
  · rw [erow]; exact line_table hrs
  · refine (low _ (show "tabstyle" ∉ _ by decide)).trans ((hbase _).trans ?_)
    rw [if_neg (show (⟨cfg.calsNs, "tabstyle"⟩ : QName) ≠ cfg.q "frame" from ne _ _ (by decide)),
      if_neg (show (⟨cfg.calsNs, "tabstyle"⟩ : QName) ≠ cfg.q "colsep" from ne _ _ (by decide)),
      if_neg (show (⟨cfg.calsNs, "tabstyle"⟩ : QName) ≠ cfg.q "rowsep" from ne _ _ (by decide)), if_pos (show (⟨cfg.calsNs, "tabstyle"⟩ : QName) = cfg.q "tabstyle" from rfl)]
  · refine tells_of (f := lookup [("landscape", "land"), ("portrait", "port")]) ?_ (byWord_of _)
    rw [addAttr_other h (show "orient" ≠ "width" by decide), addAttr_other h4 (show "orient" ≠ "bgcolor" by decide),
      addAttr_other h3 (show "orient" ≠ "pgwide" by decide)]
    exact addAttr_attr h2 (none_of _ (by decide))
  · refine tells_of (f := fun v => .ok (if v = .str "1" then "1" else "0")) ?_ (fun v s e => congrArg some (Except.ok.inj e))
    rw [addAttr_other h (show "pgwide" ≠ "width" by decide), addAttr_other h4 (show "pgwide" ≠ "bgcolor" by decide)]
    exact addAttr_attr h3 ((addAttr_other h2 (show "pgwide" ≠ "orient" by decide)).trans (none_of _ (by decide)))
  · refine tells_of (f := attrValue) ?_ asText_of
    rw [addAttr_other h (show "bgcolor" ≠ "width" by decide)]
    exact addAttr_attr h4 ((addAttr_other h3 (show "bgcolor" ≠ "pgwide" by decide)).trans
      ((addAttr_other h2 (show "bgcolor" ≠ "orient" by decide)).trans (none_of _ (by decide))))
  · refine tells_of (f := widthAttr cfg.cals) ?_ (inUnit_of cfg.cals)
    exact addAttr_attr h ((addAttr_other h4 (show "width" ≠ "bgcolor" by decide)).trans ((addAttr_other h3 (show "width" ≠ "pgwide" by decide)).trans
      ((addAttr_other h2 (show "width" ≠ "orient" by decide)).trans (none_of _ (by decide)))))
  · intro k hk
    apply Classical.byContradiction
    intro hn
    simp only [List.mem_cons, List.not_mem_nil, or_false, not_or] at hn
    apply hk
    have hq : ∀ x, k.name ≠ x → k ≠ cfg.q x := by
      rintro x hx rfl; exact hx rfl
    rw [low k (by simp [hn]), hbase, if_neg (hq _ hn.1), if_neg (hq _ hn.2.1), if_neg (hq _ hn.2.2.1), if_neg (hq _ hn.2.2.2.1)]
  · intro s hs; rw [hcs] at hs; cases hs; exact ecol
  · intro s hs; rw [hrs] at hs; cases hs; exact erow

theorem row_looks {cfg : Fmx.Config} {t : Table Content} {table : QName → Option String} {rowsep : String} {r : View Content} {a : Dict QName String}
    (hu : cfg.useCals = true) (hd : defaultSep t.styles "x-cell-border-bottom" = .ok rowsep) (ht : table ⟨cfg.calsNs, "rowsep"⟩ = some rowsep)
    (h : Fmx.rowAttrs cfg rowsep r = .ok a) : RowLooks cfg.calsNs t table r (Dict.get? a) := by
  unfold Fmx.rowAttrs at h
  simp only at h
  rw [if_pos hu] at h
  obtain ⟨a1, h1, h⟩ := bind_ok h
  obtain ⟨a2, h2, h⟩ := bind_ok h
  obtain ⟨a3, h3, h⟩ := bind_ok h
  have base : ∀ k : QName, k.name ≠ "TYPE" → Dict.get? (Fmx.optAttr (Fmx.f "TYPE") (Fmx.rowType r.nature) []) k = none := by
    intro k hk
    rw [optAttr_get, if_neg (by rintro rfl; exact hk rfl)]; rfl
  refine ⟨?_, ?_, ?_, ?_, ?_⟩
  · refine tells_of (f := lookup [("top", "top"), ("middle", "middle"), ("bottom", "bottom"), ("baseline", "bottom")]) ?_ (byWord_of _)
    rw [addAttr_other h (show "valign" ≠ _ by decide), addAttr_other h3 (show "valign" ≠ _ by decide), addSep_other h2 (show "valign" ≠ _ by decide)]
    exact addAttr_attr h1 (base _ (show "valign" ≠ _ by decide))
  · rw [ht]
    refine line_told ?_ hd
    rw [addAttr_other h (show "rowsep" ≠ _ by decide), addAttr_other h3 (show "rowsep" ≠ _ by decide)]
    exact addSep_attr h2 ((addAttr_other h1 (show "rowsep" ≠ _ by decide)).trans (base _ (show "rowsep" ≠ _ by decide)))
  · refine tells_of (f := attrValue) ?_ asText_of
    rw [addAttr_other h (show "rowstyle" ≠ _ by decide)]
    exact addAttr_attr h3 ((addSep_other h2 (show "rowstyle" ≠ _ by decide)).trans ((addAttr_other h1 (show "rowstyle" ≠ _ by decide)).trans
      (base _ (show "rowstyle" ≠ _ by decide))))
  · refine tells_of (f := attrValue) ?_ asText_of
    exact addAttr_attr h ((addAttr_other h3 (show "bgcolor" ≠ _ by decide)).trans ((addSep_other h2 (show "bgcolor" ≠ _ by decide)).trans
      ((addAttr_other h1 (show "bgcolor" ≠ _ by decide)).trans (base _ (show "bgcolor" ≠ _ by decide)))))
  · intro k hk
    apply Classical.byContradiction
    intro hn
    simp only [List.mem_cons, List.not_mem_nil, or_false, not_or] at hn
    apply hk
    rw [addAttr_other h hn.2.2.2.2, addAttr_other h3 hn.2.2.2.1, addSep_other h2 hn.2.2.1, addAttr_other h1 hn.2.1, base _ hn.1]

theorem col_looks {cfg : Fmx.Config} {t : Table Content} {table : QName → Option String} {colsep rowsep : String} {v : View Content} {e : Node}
    (hd : defaultSep t.styles "x-cell-border-right" = .ok colsep) (ht : table ⟨cfg.calsNs, "colsep"⟩ = some colsep)
    (hd' : defaultSep t.styles "x-cell-border-bottom" = .ok rowsep) (ht' : table ⟨cfg.calsNs, "rowsep"⟩ = some rowsep)
    (h : Fmx.buildColspec cfg colsep rowsep v = .ok e) : ColLooks cfg.calsNs cfg.fl cfg.widthUnit t table v e.attr := by
  rw [fmx_colspec_eq] at h
  obtain ⟨h1, h2, h3, h4⟩ := colspec_looks h
  refine ⟨by rw [ht]; exact line_told h1 hd, by rw [ht']; exact line_told h2 hd', tells_of h3 (inUnit_of cfg.cals), ?_⟩
  intro s
  refine Eq.trans (congrArg (· = some s) h4) ?_ |> iff_of_eq
  unfold alignKept
  cases hs : Dict.get? v.styles "align" with
  | none => simp
  | some x =>
    simp only
    split
    · rename_i y hy
      split at hy
      · rename_i hx
        cases hy
        apply propext
        simp only [StyleVal.str.injEq, Option.some.injEq] at hx ⊢
        constructor
        · rintro rfl; exact ⟨rfl, by simpa using hx⟩
        · rintro ⟨rfl, _⟩; rfl
      · cases hy
    · rename_i hy
      apply propext
      constructor
      · intro h; cases h
      · rintro ⟨hx, hm⟩
        cases hx
        exfalso
        simp only [List.mem_cons, List.not_mem_nil, or_false] at hm
        refine hy s ?_
        rw [if_pos (by simpa using hm)]

theorem sepIf_looks {cond : Bool} {cfg : Cals.Config} {styles : Styles} {key nm d : String} {a b : Dict QName String}
    (h : addSepIf cond cfg styles key nm d a = .ok b) (ha : Dict.get? a (cfg.q nm) = none) :
    (cond = true → SepOf styles key d (Dict.get? b (cfg.q nm))) ∧ (cond = false → Dict.get? b (cfg.q nm) = none) := by
  unfold addSepIf at h
  split at h
  · rename_i hc; exact ⟨fun _ => addSep_attr h ha, fun hf => by rw [hc] at hf; cases hf⟩
  · rename_i hc; cases h; exact ⟨fun hf => absurd hf hc, fun _ => ha⟩

theorem cell_looks {cfg : Fmx.Config} {t : Table Content} {table : QName → Option String} {colsep rowsep : String} {bb : Box} {rn : Option String}
    {c : Cell Content} {a : Dict QName String} (hu : cfg.useCals = true)
    (hx : (∀ d ∈ t.cells, d.box.max.x ≤ bb.max.x) ∧ ∃ d ∈ t.cells, d.box.max.x = bb.max.x)
    (hy : (∀ d ∈ t.cells, d.box.max.y ≤ bb.max.y) ∧ ∃ d ∈ t.cells, d.box.max.y = bb.max.y)
    (hd : defaultSep t.styles "x-cell-border-right" = .ok colsep) (ht : table ⟨cfg.calsNs, "colsep"⟩ = some colsep)
    (hd' : defaultSep t.styles "x-cell-border-bottom" = .ok rowsep) (ht' : table ⟨cfg.calsNs, "rowsep"⟩ = some rowsep) (hc : c ∈ t.cells)
    (h : Fmx.cellAttrs cfg colsep rowsep (some bb) c rn = .ok a) : CellLooks cfg.calsNs t table c (Dict.get? a) := by
  unfold Fmx.cellAttrs at h
  obtain ⟨ty, hty, h⟩ := bind_ok h
  simp only at h
  rw [if_pos hu] at h
  generalize hb : (if c.height > 1 then _ else _ : Dict QName String) = base at h
  have hbase : ∀ k : QName, k.name ∉ ["COL", "COLSPAN", "ROWSPAN", "TYPE"] → Dict.get? base k = none := by
    intro k hk
    simp only [List.mem_cons, List.not_mem_nil, or_false, not_or] at hk
    have q : ∀ x, k.name ≠ x → Fmx.f x ≠ k := by rintro x hx rfl; exact hx rfl
    rw [← hb]
    have h0 : Dict.get? (Fmx.optAttr (Fmx.f "TYPE") ty [(Fmx.f "COL", intStr c.box.min.x)]) k = none := by
      rw [optAttr_get, if_neg (Ne.symm (q _ hk.2.2.2)), Dict.get?_cons, if_neg (q _ hk.1)]; rfl
    split
    · rw [Dict.get?_set, if_neg (q _ hk.2.2.1)]
      split
      · rw [Dict.get?_set, if_neg (q _ hk.2.1)]; exact h0
      · exact h0
    · split
      · rw [Dict.get?_set, if_neg (q _ hk.2.1)]; exact h0
      · exact h0
  obtain ⟨hother, _⟩ := cellCals_spec h
  unfold Fmx.cellCalsAttrs at h
  obtain ⟨a1, h1, h⟩ := bind_ok h
  obtain ⟨a2, h2, h⟩ := bind_ok h
  obtain ⟨a3, h3, h⟩ := bind_ok h
  obtain ⟨a4, h4, h⟩ := bind_ok h
  simp only at h
  obtain ⟨a7, h7, h8⟩ := bind_ok h
  obtain ⟨e1, _, _⟩ := addCellStyle_other h8
  have mid : ∀ k : QName, k.name ∉ ["namest", "nameend", "morerows", "bgcolor", "TYPE"] → Dict.get? a k = Dict.get? a4 k := by
    intro k hk
    simp only [List.mem_cons, List.not_mem_nil, or_false, not_or] at hk
    have q : ∀ x, k.name ≠ x → cfg.q x ≠ k := by rintro x hx rfl; exact hx rfl
    rw [e1 k hk.2.2.2.2, addAttr_other h7 hk.2.2.2.1]
    split
    · rw [Dict.get?_set, if_neg (q _ hk.2.2.1)]
      split
      · rw [Dict.get?_set, if_neg (q _ hk.2.1), Dict.get?_set, if_neg (q _ hk.1)]
      · rfl
    · split
      · rw [Dict.get?_set, if_neg (q _ hk.2.1), Dict.get?_set, if_neg (q _ hk.1)]
      · rfl
  have cx : (∃ d ∈ t.cells, c.max.x < d.max.x) ↔ c.box.max.x ≠ bb.max.x := by
    simp only [Cell.max]
    constructor
    · rintro ⟨d, hd, hlt⟩
      have := hx.1 d hd
      omega
    · intro hne
      obtain ⟨d, hd, he⟩ := hx.2
      have := hx.1 c hc
      exact ⟨d, hd, by omega⟩
  have cy : (∃ d ∈ t.cells, c.max.y < d.max.y) ↔ c.box.max.y ≠ bb.max.y := by
    simp only [Cell.max]
    constructor
    · rintro ⟨d, hd, hlt⟩
      have := hy.1 d hd
      omega
    · intro hne
      obtain ⟨d, hd, he⟩ := hy.2
      have := hy.1 c hc
      exact ⟨d, hd, by omega⟩
  have lx : (∀ d ∈ t.cells, d.max.x ≤ c.max.x) → c.box.max.x = bb.max.x := fun hall =>
    Classical.byContradiction fun hne => by
      obtain ⟨d, hd, hlt⟩ := cx.mpr hne
      have := hall d hd; omega
  have ly : (∀ d ∈ t.cells, d.max.y ≤ c.max.y) → c.box.max.y = bb.max.y := fun hall =>
    Classical.byContradiction fun hne => by
      obtain ⟨d, hd, hlt⟩ := cy.mpr hne
      have := hall d hd; omega
  have s1 := sepIf_looks h1 (hbase _ (show "colsep" ∉ _ by decide))
  have s2 := sepIf_looks h2 ((addSepIf_other h1 (show "rowsep" ≠ _ by decide)).trans (hbase _ (show "rowsep" ∉ _ by decide)))
  have ecol : Dict.get? a ⟨cfg.calsNs, "colsep"⟩ = Dict.get? a1 (cfg.cals.q "colsep") := by
    rw [mid _ (show "colsep" ∉ _ by decide), addAttr_other h4 (show "colsep" ≠ _ by decide), addAttr_other h3 (show "colsep" ≠ _ by decide),
      addSepIf_other h2 (show "colsep" ≠ _ by decide)]; rfl
  have erow : Dict.get? a ⟨cfg.calsNs, "rowsep"⟩ = Dict.get? a2 (cfg.cals.q "rowsep") := by
    rw [mid _ (show "rowsep" ∉ _ by decide), addAttr_other h4 (show "rowsep" ≠ _ by decide), addAttr_other h3 (show "rowsep" ≠ _ by decide)]; rfl
  refine ⟨?_, ?_, ?_, ?_, ?_, ?_, ?_, ?_⟩
  · intro hx
    rw [ht, ecol]
    exact line_told (s1.1 (by simpa using cx.mp hx)) hd
  · intro hx
    rw [ecol]
    exact s1.2 (by simpa using lx hx)
  · intro hy
    rw [ht', erow]
    exact line_told (s2.1 (by simpa using cy.mp hy)) hd'
  · intro hy
    rw [erow]
    exact s2.2 (by simpa using ly hy)
  · refine tells_of (f := lookup [("top", "top"), ("middle", "middle"), ("bottom", "bottom"), ("baseline", "bottom"), ("w-both", "bottom")]) ?_ (byWord_of _)
    rw [mid _ (show "valign" ∉ _ by decide), addAttr_other h4 (show "valign" ≠ _ by decide)]
    exact addAttr_attr h3 ((addSepIf_other h2 (show "valign" ≠ _ by decide)).trans ((addSepIf_other h1 (show "valign" ≠ _ by decide)).trans
      (hbase _ (show "valign" ∉ _ by decide))))
  · refine tells_of (f := lookup Cals.alignMap) ?_ (byWord_of _)
    rw [mid _ (show "align" ∉ _ by decide)]
    exact addAttr_attr h4 ((addAttr_other h3 (show "align" ≠ _ by decide)).trans ((addSepIf_other h2 (show "align" ≠ _ by decide)).trans
      ((addSepIf_other h1 (show "align" ≠ _ by decide)).trans (hbase _ (show "align" ∉ _ by decide)))))
  · refine tells_of (f := attrValue) ?_ asText_of
    rw [e1 _ (show "bgcolor" ≠ _ by decide)]
    refine addAttr_attr h7 ?_
    have q : ∀ x, "bgcolor" ≠ x → cfg.q x ≠ cfg.cals.q "bgcolor" := fun x hx e => hx (congrArg QName.name e).symm
    have h0 : Dict.get? a4 (cfg.cals.q "bgcolor") = none :=
      (addAttr_other h4 (show "bgcolor" ≠ _ by decide)).trans ((addAttr_other h3 (show "bgcolor" ≠ _ by decide)).trans
        ((addSepIf_other h2 (show "bgcolor" ≠ _ by decide)).trans ((addSepIf_other h1 (show "bgcolor" ≠ _ by decide)).trans
          (hbase _ (show "bgcolor" ∉ _ by decide)))))
    split
    · rw [Dict.get?_set, if_neg (q _ (by decide))]
      split
      · rw [Dict.get?_set, if_neg (q _ (by decide)), Dict.get?_set, if_neg (q _ (by decide))]; exact h0
      · exact h0
    · split
      · rw [Dict.get?_set, if_neg (q _ (by decide)), Dict.get?_set, if_neg (q _ (by decide))]; exact h0
      · exact h0
  · intro k hk
    apply Classical.byContradiction
    intro hn
    simp only [List.mem_cons, List.not_mem_nil, or_false, not_or] at hn
    apply hk
    rw [hother k (by simp [hn]), hbase k (by simp [hn])]

end Benker
