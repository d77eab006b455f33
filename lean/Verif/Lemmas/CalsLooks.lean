import Verif.Lemmas.CalsRoundTrip

/-! Attributes written by the CALS builder and styles read by the CALS parser. -/

namespace Benker
open PyM Cals CalsSpec

/-- the attribute written for a style -/
def AttrOf (styles : Styles) (key : String) (f : StyleVal → Except PyErr String) (o : Option String) : Prop :=
  (Dict.get? styles key = none → o = none) ∧ ∀ v, Dict.get? styles key = some v → ∃ s, f v = .ok s ∧ o = some s

/-- the attribute written for a separator whose default is `d` -/
def SepOf (styles : Styles) (key d : String) (o : Option String) : Prop :=
  ∃ sep, getSepAttr styles key = .ok sep ∧ o = if sep = some d then none else sep

variable {bc : Cals.Config} {pc : CalsP.Config}

theorem addAttr_attr {styles : Styles} {key name : String} {f : StyleVal → Except PyErr String} {a b : Dict QName String}
    (h : addAttr bc styles key name f a = .ok b) (ha : Dict.get? a (bc.q name) = none) : AttrOf styles key f (Dict.get? b (bc.q name)) :=
  ⟨fun hn => by rw [(addAttr_ok h name).2.1 hn]; exact ha, (addAttr_ok h name).2.2⟩

theorem addSep_attr {styles : Styles} {key name d : String} {a b : Dict QName String}
    (h : addSep bc styles key name d a = .ok b) (ha : Dict.get? a (bc.q name) = none) : SepOf styles key d (Dict.get? b (bc.q name)) := by
  obtain ⟨_, sep, h1, h2, h3⟩ := addSep_ok h name
  refine ⟨sep, h1, ?_⟩
  cases sep with
  | none => rw [h2 (.inl rfl)]; simpa using ha
  | some s =>
    by_cases hs : s = d
    · subst hs; rw [h2 (.inr rfl), if_pos rfl]; exact ha
    · rw [h3 s rfl hs, if_neg (by simpa using hs)]

/-- attributes of an entry -/
theorem entryAttrs_looks {colsep rowsep : String} {bb : Box} {c : Cell Content} {a : Dict QName String}
    (h : entryAttrs bc colsep rowsep bb c = .ok a) :
    (c.max.x ≠ bb.max.x → SepOf c.styles "border-right" colsep (Dict.get? a (bc.q "colsep"))) ∧
    (c.max.x = bb.max.x → Dict.get? a (bc.q "colsep") = none) ∧
    (c.max.y ≠ bb.max.y → SepOf c.styles "border-bottom" rowsep (Dict.get? a (bc.q "rowsep"))) ∧
    (c.max.y = bb.max.y → Dict.get? a (bc.q "rowsep") = none) ∧
    AttrOf c.styles "vertical-align" (lookup [("top", "top"), ("middle", "middle"), ("bottom", "bottom"), ("baseline", "bottom"), ("w-both", "bottom")])
      (Dict.get? a (bc.q "valign")) ∧
    AttrOf c.styles "align" (lookup Cals.alignMap) (Dict.get? a (bc.q "align")) ∧
    AttrOf c.styles "background-color" attrValue (Dict.get? a (bc.q "bgcolor")) ∧
    AttrOf c.styles "cellstyle" attrValue (Dict.get? a (bc.q "cellstyle")) := by
  unfold entryAttrs at h
  obtain ⟨a1, h1, h⟩ := bind_ok h
  obtain ⟨a2, h2, h⟩ := bind_ok h
  obtain ⟨a3, h3, h⟩ := bind_ok h
  obtain ⟨a4, h4, h⟩ := bind_ok h
  simp only at h
  obtain ⟨a7, h7, h8⟩ := bind_ok h
  have mid : ∀ n, n ≠ "namest" → n ≠ "nameend" → n ≠ "morerows" → n ≠ "bgcolor" → Dict.get? a7 (bc.q n) = Dict.get? a4 (bc.q n) := by
    intro n n1 n2 n3 n4
    refine ((addAttr_ok h7 n).1 n4).trans ?_
    split
    · rw [set_get_ne _ _ (Ne.symm n3)]
      split
      · rw [set_get_ne _ _ (Ne.symm n2), set_get_ne _ _ (Ne.symm n1)]
      · rfl
    · split
      · rw [set_get_ne _ _ (Ne.symm n2), set_get_ne _ _ (Ne.symm n1)]
      · rfl
  have sep2 : ∀ n, n ≠ "rowsep" → Dict.get? a2 (bc.q n) = Dict.get? a1 (bc.q n) := by
    intro n hn
    unfold addSepIf at h2
    split at h2
    · exact (addSep_ok h2 n).1 hn
    · cases h2; rfl
  have sep1 : ∀ n, n ≠ "colsep" → Dict.get? a1 (bc.q n) = none := by
    intro n hn
    unfold addSepIf at h1
    split at h1
    · exact (addSep_ok h1 n).1 hn
    · cases h1; rfl
  have low : ∀ n, n ≠ "colsep" → n ≠ "rowsep" → n ≠ "valign" → n ≠ "align" → Dict.get? a4 (bc.q n) = none := by
    intro n n1 n2 n3 n4
    rw [(addAttr_ok h4 n).1 n4, (addAttr_ok h3 n).1 n3, sep2 n n2, sep1 n n1]
  have e1 : Dict.get? a (bc.q "colsep") = Dict.get? a1 (bc.q "colsep") := by
    rw [(addAttr_ok h8 _).1 (by decide), mid _ (by decide) (by decide) (by decide) (by decide), (addAttr_ok h4 _).1 (by decide),
      (addAttr_ok h3 _).1 (by decide), sep2 _ (by decide)]
  have e2 : Dict.get? a (bc.q "rowsep") = Dict.get? a2 (bc.q "rowsep") := by
    rw [(addAttr_ok h8 _).1 (by decide), mid _ (by decide) (by decide) (by decide) (by decide), (addAttr_ok h4 _).1 (by decide),
      (addAttr_ok h3 _).1 (by decide)]
  have e3 : Dict.get? a (bc.q "valign") = Dict.get? a3 (bc.q "valign") := by
    rw [(addAttr_ok h8 _).1 (by decide), mid _ (by decide) (by decide) (by decide) (by decide), (addAttr_ok h4 _).1 (by decide)]
  have e4 : Dict.get? a (bc.q "align") = Dict.get? a4 (bc.q "align") := by
    rw [(addAttr_ok h8 _).1 (by decide), mid _ (by decide) (by decide) (by decide) (by decide)]
  have e5 : Dict.get? a (bc.q "bgcolor") = Dict.get? a7 (bc.q "bgcolor") := (addAttr_ok h8 _).1 (by decide)
  rw [e1, e2, e3, e4, e5]
  refine ⟨?_, ?_, ?_, ?_, ?_, ?_, ?_, ?_⟩
  · intro hx
    have hx : c.box.max.x ≠ bb.max.x := hx
    unfold addSepIf at h1
    rw [if_pos (decide_eq_true hx)] at h1
    exact addSep_attr h1 rfl
  · intro hx
    have hx : c.box.max.x = bb.max.x := hx
    unfold addSepIf at h1
    rw [if_neg (by simpa using hx)] at h1
    cases h1; rfl
  · intro hx
    have hx : c.box.max.y ≠ bb.max.y := hx
    unfold addSepIf at h2
    rw [if_pos (decide_eq_true hx)] at h2
    exact addSep_attr h2 (sep1 _ (by decide))
  · intro hx
    have hx : c.box.max.y = bb.max.y := hx
    unfold addSepIf at h2
    rw [if_neg (by simpa using hx)] at h2
    cases h2; exact sep1 _ (by decide)
  · exact addAttr_attr h3 (by rw [sep2 _ (by decide), sep1 _ (by decide)])
  · exact addAttr_attr h4 (by rw [(addAttr_ok h3 _).1 (by decide), sep2 _ (by decide), sep1 _ (by decide)])
  · refine addAttr_attr h7 ?_
    split
    · rw [set_get_ne _ _ (by decide)]
      split
      · rw [set_get_ne _ _ (by decide), set_get_ne _ _ (by decide)]; exact low _ (by decide) (by decide) (by decide) (by decide)
      · exact low _ (by decide) (by decide) (by decide) (by decide)
    · split
      · rw [set_get_ne _ _ (by decide), set_get_ne _ _ (by decide)]; exact low _ (by decide) (by decide) (by decide) (by decide)
      · exact low _ (by decide) (by decide) (by decide) (by decide)
  · exact addAttr_attr h8 (by
      rw [mid _ (by decide) (by decide) (by decide) (by decide)]; exact low _ (by decide) (by decide) (by decide) (by decide))

/-- attributes of a row -/
theorem rowAttrs_looks {rowsep : String} {r : View Content} {a : Dict QName String} (h : rowAttrs bc rowsep r = .ok a) :
    SepOf r.styles "border-bottom" rowsep (Dict.get? a (bc.q "rowsep")) ∧
    AttrOf r.styles "vertical-align" (lookup [("top", "top"), ("middle", "middle"), ("bottom", "bottom"), ("baseline", "bottom")])
      (Dict.get? a (bc.q "valign")) ∧
    AttrOf r.styles "rowstyle" attrValue (Dict.get? a (bc.q "rowstyle")) ∧ Dict.get? a (bc.q "bgcolor") = none := by
  unfold rowAttrs at h
  obtain ⟨a1, h1, h⟩ := bind_ok h
  obtain ⟨a2, h2, h⟩ := bind_ok h
  refine ⟨?_, ?_, ?_, ?_⟩
  · rw [(addAttr_ok h _).1 (by decide)]
    exact addSep_attr h2 (by rw [(addAttr_ok h1 _).1 (by decide)]; rfl)
  · rw [(addAttr_ok h _).1 (by decide), (addSep_ok h2 _).1 (by decide)]
    exact addAttr_attr h1 rfl
  · exact addAttr_attr h (by rw [(addSep_ok h2 _).1 (by decide), (addAttr_ok h1 _).1 (by decide)]; rfl)
  · rw [(addAttr_ok h _).1 (by decide), (addSep_ok h2 _).1 (by decide), (addAttr_ok h1 _).1 (by decide)]; rfl

/-- attributes of a column -/
theorem colspec_looks {colsep rowsep : String} {v : View Content} {e : Node} (h : buildColspec bc colsep rowsep v = .ok e) :
    SepOf v.styles "border-right" colsep (e.attr (bc.q "colsep")) ∧ SepOf v.styles "border-bottom" rowsep (e.attr (bc.q "rowsep")) ∧
    AttrOf v.styles "width" (widthAttr bc) (e.attr (bc.q "colwidth")) ∧
    e.attr (bc.q "align") = (match alignKept (Dict.get? v.styles "align") with
      | some (.str s) => some s
      | _ => none) := by
  unfold buildColspec at h
  simp only at h
  obtain ⟨a1, h1, h⟩ := bind_ok h
  obtain ⟨a3, h3, h⟩ := bind_ok h
  obtain ⟨a4, h4, h⟩ := bind_ok h
  cases h
  have base : ∀ n, n ≠ "colnum" → n ≠ "colname" →
      Dict.get? [(bc.q "colnum", intStr v.pos), (bc.q "colname", "c" ++ intStr v.pos)] (bc.q n) = none := by
    intro n n1 n2
    simp [Dict.get?_cons, q_ne bc (Ne.symm n1), q_ne bc (Ne.symm n2)]
  have al : ∀ n, n ≠ "align" → Dict.get? (match Dict.get? v.styles "align" with
    | some (.str a) =>
      (match Dict.get? Cals.alignMap a with
      | some v => Dict.set a1 (bc.q "align") v
      | none => a1)
    | _ => a1) (bc.q n) = Dict.get? a1 (bc.q n) := by
    intro n hn
    split
    · split
      · rw [set_get_ne _ _ (Ne.symm hn)]
      · rfl
    · rfl
  refine ⟨?_, ?_, ?_, ?_⟩
  · show SepOf _ _ _ (Dict.get? a4 _)
    rw [(addSep_ok h4 _).1 (by decide)]
    refine addSep_attr h3 ?_
    refine (al _ (by decide)).trans ?_
    rw [(addAttr_ok h1 _).1 (by decide), base _ (by decide) (by decide)]
  · show SepOf _ _ _ (Dict.get? a4 _)
    refine addSep_attr h4 ?_
    rw [(addSep_ok h3 _).1 (by decide)]
    refine (al _ (by decide)).trans ?_
    rw [(addAttr_ok h1 _).1 (by decide), base _ (by decide) (by decide)]
  · show AttrOf _ _ _ (Dict.get? a4 _)
    rw [(addSep_ok h4 _).1 (by decide), (addSep_ok h3 _).1 (by decide)]
    have := addAttr_attr h1 (base "colwidth" (by decide) (by decide))
    rw [← al "colwidth" (by decide)] at this
    exact this
  · show Dict.get? a4 _ = _
    rw [(addSep_ok h4 _).1 (by decide), (addSep_ok h3 _).1 (by decide)]
    have hn : Dict.get? a1 (bc.q "align") = none := by
      rw [(addAttr_ok h1 _).1 (by decide), base _ (by decide) (by decide)]
    cases hg : Dict.get? v.styles "align" with
    | none => simpa [alignKept] using hn
    | some x =>
      cases x with
      | str s =>
        by_cases h1 : s = "left"
        · subst h1; exact set_get_eq _ _ _
        · by_cases h2 : s = "right"
          · subst h2; exact set_get_eq _ _ _
          · by_cases h3 : s = "center"
            · subst h3; exact set_get_eq _ _ _
            · by_cases h4 : s = "justify"
              · subst h4; exact set_get_eq _ _ _
              · have : Dict.get? Cals.alignMap s = none := by
                  simp [Cals.alignMap, Dict.get?_cons, Ne.symm h1, Ne.symm h2, Ne.symm h3, Ne.symm h4]
                simp only [this]
                simpa [alignKept, h1, h2, h3, h4] using hn
      | _ => simpa [alignKept] using hn

/-! ### reading -/

theorem mapStyle_get {n : Node} {a : QName} {m : List (String × StyleVal)} {key : String} {st : Styles} (h : Dict.get? st key = none) :
    Dict.get? (CalsP.mapStyle n a m key st) key = (n.attr a).bind (Dict.get? m) := by
  unfold CalsP.mapStyle
  cases n.attr a with
  | none => exact h
  | some v =>
    simp only [Option.bind_some]
    cases Dict.get? m v with
    | none => exact h
    | some s => simp only [Dict.get?_set, if_true]

theorem copyStyle_get {n : Node} {a : QName} {key : String} {st : Styles} (h : Dict.get? st key = none) :
    Dict.get? (CalsP.copyStyle n a key st) key = kept ((n.attr a).map .str) := by
  unfold CalsP.copyStyle
  cases n.attr a with
  | none => exact h
  | some v =>
    simp only [Option.map_some, kept]
    split
    · exact h
    · rw [Dict.get?_set, if_pos rfl]

/-- the styles read from an entry -/
theorem entryStyles_looks (n : Node) :
    Dict.get? (CalsP.entryStyles pc n) "border-right" = (n.attr (pc.q "colsep")).bind (Dict.get? CalsP.sepMap) ∧
    Dict.get? (CalsP.entryStyles pc n) "border-bottom" = (n.attr (pc.q "rowsep")).bind (Dict.get? CalsP.sepMap) ∧
    Dict.get? (CalsP.entryStyles pc n) "background-color" = kept ((n.attr (pc.q "bgcolor")).map .str) ∧
    Dict.get? (CalsP.entryStyles pc n) "vertical-align" = (n.attr (pc.q "valign")).bind (Dict.get? CalsP.valignMap) ∧
    Dict.get? (CalsP.entryStyles pc n) "align" = (n.attr (pc.q "align")).bind (Dict.get? CalsP.alignMap) ∧
    Dict.get? (CalsP.entryStyles pc n) "cellstyle" = kept ((n.attr (pc.q "cellstyle")).map .str) ∧
    Dict.get? (CalsP.entryStyles pc n) "x-cell-empty" = (if (CalsP.entryContent n).isEmpty then some (.str "true") else none) ∧
    ∀ k, k ∉ ["border-right", "border-bottom", "background-color", "vertical-align", "align", "cellstyle", "x-cell-empty"] →
      Dict.get? (CalsP.entryStyles pc n) k = none := by
  have last : ∀ k, k ≠ "x-cell-empty" → Dict.get? (CalsP.entryStyles pc n) k = Dict.get?
      (CalsP.copyStyle n (pc.q "cellstyle") "cellstyle" (CalsP.mapStyle n (pc.q "align") CalsP.alignMap "align"
        (CalsP.mapStyle n (pc.q "valign") CalsP.valignMap "vertical-align" (CalsP.copyStyle n (pc.q "bgcolor") "background-color"
          (CalsP.mapStyle n (pc.q "rowsep") CalsP.sepMap "border-bottom" (CalsP.mapStyle n (pc.q "colsep") CalsP.sepMap "border-right" [])))))) k := by
    intro k hk
    unfold CalsP.entryStyles
    simp only
    split
    · rw [Dict.get?_set, if_neg (Ne.symm hk)]
    · rfl
  refine ⟨?_, ?_, ?_, ?_, ?_, ?_, ?_, ?_⟩
  · rw [last _ (by decide), copyStyle_get_ne _ _ _ _ _ (by decide), mapStyle_get_ne _ _ _ _ _ _ (by decide), mapStyle_get_ne _ _ _ _ _ _ (by decide),
      copyStyle_get_ne _ _ _ _ _ (by decide), mapStyle_get_ne _ _ _ _ _ _ (by decide)]
    exact mapStyle_get rfl
  · rw [last _ (by decide), copyStyle_get_ne _ _ _ _ _ (by decide), mapStyle_get_ne _ _ _ _ _ _ (by decide), mapStyle_get_ne _ _ _ _ _ _ (by decide),
      copyStyle_get_ne _ _ _ _ _ (by decide)]
    exact mapStyle_get (by rw [mapStyle_get_ne _ _ _ _ _ _ (by decide)]; rfl)
  · rw [last _ (by decide), copyStyle_get_ne _ _ _ _ _ (by decide), mapStyle_get_ne _ _ _ _ _ _ (by decide), mapStyle_get_ne _ _ _ _ _ _ (by decide)]
    exact copyStyle_get (by rw [mapStyle_get_ne _ _ _ _ _ _ (by decide), mapStyle_get_ne _ _ _ _ _ _ (by decide)]; rfl)
  · rw [last _ (by decide), copyStyle_get_ne _ _ _ _ _ (by decide), mapStyle_get_ne _ _ _ _ _ _ (by decide)]
    exact mapStyle_get (by rw [copyStyle_get_ne _ _ _ _ _ (by decide), mapStyle_get_ne _ _ _ _ _ _ (by decide), mapStyle_get_ne _ _ _ _ _ _ (by decide)]; rfl)
  · rw [last _ (by decide), copyStyle_get_ne _ _ _ _ _ (by decide)]
    exact mapStyle_get (by rw [mapStyle_get_ne _ _ _ _ _ _ (by decide), copyStyle_get_ne _ _ _ _ _ (by decide), mapStyle_get_ne _ _ _ _ _ _ (by decide),
      mapStyle_get_ne _ _ _ _ _ _ (by decide)]; rfl)
  · rw [last _ (by decide)]
    exact copyStyle_get (by rw [mapStyle_get_ne _ _ _ _ _ _ (by decide), mapStyle_get_ne _ _ _ _ _ _ (by decide), copyStyle_get_ne _ _ _ _ _ (by decide),
      mapStyle_get_ne _ _ _ _ _ _ (by decide), mapStyle_get_ne _ _ _ _ _ _ (by decide)]; rfl)
  · unfold CalsP.entryStyles
    simp only
    split
    · rw [Dict.get?_set, if_pos rfl]
    · rw [copyStyle_get_ne _ _ _ _ _ (by decide), mapStyle_get_ne _ _ _ _ _ _ (by decide), mapStyle_get_ne _ _ _ _ _ _ (by decide),
        copyStyle_get_ne _ _ _ _ _ (by decide), mapStyle_get_ne _ _ _ _ _ _ (by decide), mapStyle_get_ne _ _ _ _ _ _ (by decide)]
      rfl
  · intro k hk
    simp only [List.mem_cons, List.not_mem_nil, or_false, not_or] at hk
    obtain ⟨k1, k2, k3, k4, k5, k6, k7⟩ := hk
    rw [last _ k7, copyStyle_get_ne _ _ _ _ _ (Ne.symm k6), mapStyle_get_ne _ _ _ _ _ _ (Ne.symm k5), mapStyle_get_ne _ _ _ _ _ _ (Ne.symm k4),
      copyStyle_get_ne _ _ _ _ _ (Ne.symm k3), mapStyle_get_ne _ _ _ _ _ _ (Ne.symm k2), mapStyle_get_ne _ _ _ _ _ _ (Ne.symm k1)]
    rfl

theorem colspecStyles_looks (n : Node) :
    Dict.get? (CalsP.colspecStyles pc n) "border-right" = (n.attr (pc.q "colsep")).bind (Dict.get? CalsP.sepMap) ∧
    Dict.get? (CalsP.colspecStyles pc n) "border-bottom" = (n.attr (pc.q "rowsep")).bind (Dict.get? CalsP.sepMap) ∧
    Dict.get? (CalsP.colspecStyles pc n) "width" = kept ((n.attr (pc.q "colwidth")).map .str) ∧
    Dict.get? (CalsP.colspecStyles pc n) "align" = (n.attr (pc.q "align")).bind (Dict.get? CalsP.alignMap) := by
  unfold CalsP.colspecStyles
  simp only
  refine ⟨?_, ?_, ?_, ?_⟩
  · rw [mapStyle_get_ne _ _ _ _ _ _ (by decide), copyStyle_get_ne _ _ _ _ _ (by decide), mapStyle_get_ne _ _ _ _ _ _ (by decide)]
    exact mapStyle_get rfl
  · rw [mapStyle_get_ne _ _ _ _ _ _ (by decide), copyStyle_get_ne _ _ _ _ _ (by decide)]
    exact mapStyle_get (by rw [mapStyle_get_ne _ _ _ _ _ _ (by decide)]; rfl)
  · rw [mapStyle_get_ne _ _ _ _ _ _ (by decide)]
    exact copyStyle_get (by rw [mapStyle_get_ne _ _ _ _ _ _ (by decide), mapStyle_get_ne _ _ _ _ _ _ (by decide)]; rfl)
  · exact mapStyle_get (by rw [copyStyle_get_ne _ _ _ _ _ (by decide), mapStyle_get_ne _ _ _ _ _ _ (by decide), mapStyle_get_ne _ _ _ _ _ _ (by decide)]; rfl)

theorem rowLooks_looks {body row : Node} {st : Styles} {nat : Option String} (hb : body.attrs = []) (h : CalsP.rowLooks pc (some body) row = .ok (st, nat)) :
    Dict.get? st "border-bottom" = (row.attr (pc.q "rowsep")).bind (Dict.get? CalsP.sepMap) ∧
    Dict.get? st "vertical-align" = (row.attr (pc.q "valign")).bind (Dict.get? CalsP.valignMap) ∧
    Dict.get? st "background-color" = kept ((row.attr (pc.q "bgcolor")).map .str) ∧
    Dict.get? st "rowstyle" = kept ((row.attr (pc.q "rowstyle")).map .str) := by
  have h0 : CalsP.mapStyle body (pc.q "valign") CalsP.valignMap "vertical-align" [] = [] := by
    unfold CalsP.mapStyle Node.attr
    rw [hb]; rfl
  unfold CalsP.rowLooks at h
  simp only [bind, Except.bind, pure, Except.pure, h0] at h
  cases hn : CalsP.rowNature (CalsP.localname body) with
  | error e => rw [hn] at h; cases h
  | ok nt =>
    rw [hn] at h
    cases h
    refine ⟨?_, ?_, ?_, ?_⟩
    · rw [copyStyle_get_ne _ _ _ _ _ (by decide), copyStyle_get_ne _ _ _ _ _ (by decide)]
      exact mapStyle_get (by rw [mapStyle_get_ne _ _ _ _ _ _ (by decide)]; rfl)
    · rw [copyStyle_get_ne _ _ _ _ _ (by decide), copyStyle_get_ne _ _ _ _ _ (by decide), mapStyle_get_ne _ _ _ _ _ _ (by decide)]
      exact mapStyle_get rfl
    · rw [copyStyle_get_ne _ _ _ _ _ (by decide)]
      exact copyStyle_get (by rw [mapStyle_get_ne _ _ _ _ _ _ (by decide), mapStyle_get_ne _ _ _ _ _ _ (by decide)]; rfl)
    · exact copyStyle_get (by rw [copyStyle_get_ne _ _ _ _ _ (by decide), mapStyle_get_ne _ _ _ _ _ _ (by decide), mapStyle_get_ne _ _ _ _ _ _ (by decide)]; rfl)

/-! ### the table -/

theorem tableAttrs_looks {t : Table Content} {a : Dict QName String} (h : tableAttrs bc t = .ok a) :
    (∃ f, getFrameAttr t.styles = .ok f ∧ Dict.get? a (bc.q "frame") = some f) ∧
    (bc.tableInTgroup = true → Dict.get? a (bc.q "colsep") = none ∧ Dict.get? a (bc.q "rowsep") = none ∧ Dict.get? a (bc.q "tabstyle") = none) ∧
    (bc.tableInTgroup = false → (∃ c, defaultSep t.styles "x-cell-border-right" = .ok c ∧ Dict.get? a (bc.q "colsep") = some c) ∧
      (∃ c, defaultSep t.styles "x-cell-border-bottom" = .ok c ∧ Dict.get? a (bc.q "rowsep") = some c) ∧ Dict.get? a (bc.q "tabstyle") = t.nature) ∧
    AttrOf t.styles "x-sect-orient" (lookup [("landscape", "land"), ("portrait", "port")]) (Dict.get? a (bc.q "orient")) ∧
    AttrOf t.styles "x-sect-cols" (fun v => .ok (if v = .str "1" then "1" else "0")) (Dict.get? a (bc.q "pgwide")) ∧
    AttrOf t.styles "background-color" attrValue (Dict.get? a (bc.q "bgcolor")) ∧
    AttrOf t.styles "width" (widthAttr bc) (Dict.get? a (bc.q "width")) := by
  unfold tableAttrs at h
  obtain ⟨f, hf, h⟩ := bind_ok h
  simp only at h
  have b0 : ∀ n, n ≠ "frame" → Dict.get? [(bc.q "frame", f)] (bc.q n) = none := by
    intro n hn
    simp [Dict.get?_cons, q_ne bc (Ne.symm hn)]
  have b1 : Dict.get? [(bc.q "frame", f)] (bc.q "frame") = some f := by simp [Dict.get?_cons]
  have key : ∀ a1, (∀ n ∈ ["orient", "pgwide", "bgcolor", "width"], Dict.get? a1 (bc.q n) = none) → (do
      let attrs ← addAttr bc t.styles "x-sect-orient" "orient" (lookup [("landscape", "land"), ("portrait", "port")]) a1
      let attrs ← addAttr bc t.styles "x-sect-cols" "pgwide" (fun v => .ok (if v = StyleVal.str "1" then "1" else "0")) attrs
      let attrs ← addAttr bc t.styles "background-color" "bgcolor" attrValue attrs
      addAttr bc t.styles "width" "width" (widthAttr bc) attrs) = .ok a →
      (∀ n, n ∉ ["orient", "pgwide", "bgcolor", "width"] → Dict.get? a (bc.q n) = Dict.get? a1 (bc.q n)) ∧
      AttrOf t.styles "x-sect-orient" (lookup [("landscape", "land"), ("portrait", "port")]) (Dict.get? a (bc.q "orient")) ∧
      AttrOf t.styles "x-sect-cols" (fun v => .ok (if v = .str "1" then "1" else "0")) (Dict.get? a (bc.q "pgwide")) ∧
      AttrOf t.styles "background-color" attrValue (Dict.get? a (bc.q "bgcolor")) ∧
      AttrOf t.styles "width" (widthAttr bc) (Dict.get? a (bc.q "width")) := by
    intro a1 hb h
    obtain ⟨a2, h2, h⟩ := bind_ok h
    obtain ⟨a3, h3, h⟩ := bind_ok h
    obtain ⟨a4, h4, h⟩ := bind_ok h
    refine ⟨?_, ?_, ?_, ?_, ?_⟩
    · intro n hn
      simp only [List.mem_cons, List.not_mem_nil, or_false, not_or] at hn
      rw [(addAttr_ok h n).1 hn.2.2.2, (addAttr_ok h4 n).1 hn.2.2.1, (addAttr_ok h3 n).1 hn.2.1, (addAttr_ok h2 n).1 hn.1]
    · rw [(addAttr_ok h _).1 (by decide), (addAttr_ok h4 _).1 (by decide), (addAttr_ok h3 _).1 (by decide)]
      exact addAttr_attr h2 (hb _ (by simp))
    · rw [(addAttr_ok h _).1 (by decide), (addAttr_ok h4 _).1 (by decide)]
      exact addAttr_attr h3 (by rw [(addAttr_ok h2 _).1 (by decide)]; exact hb _ (by simp))
    · rw [(addAttr_ok h _).1 (by decide)]
      exact addAttr_attr h4 (by rw [(addAttr_ok h3 _).1 (by decide), (addAttr_ok h2 _).1 (by decide)]; exact hb _ (by simp))
    · exact addAttr_attr h (by rw [(addAttr_ok h4 _).1 (by decide), (addAttr_ok h3 _).1 (by decide), (addAttr_ok h2 _).1 (by decide)]; exact hb _ (by simp))
  split at h
  · rename_i htg
    obtain ⟨k1, k2⟩ := key _ (fun n hn => b0 n (by rintro rfl; revert hn; decide)) h
    refine ⟨⟨f, hf, by rw [k1 _ (by decide)]; exact b1⟩, fun _ => ⟨?_, ?_, ?_⟩, fun h => by rw [htg] at h; (cases h), k2⟩ <;>
    · rw [k1 _ (by decide)]; exact b0 _ (by decide)
  · rename_i htg
    obtain ⟨s1, e1, h⟩ := bind_ok h
    obtain ⟨s2, e2, h⟩ := bind_ok h
    have mid : ∀ n, n ≠ "tabstyle" → Dict.get? (match t.nature with
        | some n => Dict.set (Dict.set (Dict.set [(bc.q "frame", f)] (bc.q "colsep") s1) (bc.q "rowsep") s2) (bc.q "tabstyle") n
        | none => Dict.set (Dict.set [(bc.q "frame", f)] (bc.q "colsep") s1) (bc.q "rowsep") s2) (bc.q n) =
        Dict.get? (Dict.set (Dict.set [(bc.q "frame", f)] (bc.q "colsep") s1) (bc.q "rowsep") s2) (bc.q n) := by
      intro n hn
      split
      · rw [set_get_ne _ _ (Ne.symm hn)]
      · rfl
    obtain ⟨k1, k2⟩ := key _ (by
      intro n hn
      simp only [List.mem_cons, List.not_mem_nil, or_false] at hn
      refine (mid n (by rcases hn with rfl | rfl | rfl | rfl <;> decide)).trans ?_
      rw [set_get_ne _ _ (by rcases hn with rfl | rfl | rfl | rfl <;> decide), set_get_ne _ _ (by rcases hn with rfl | rfl | rfl | rfl <;> decide)]
      exact b0 n (by rcases hn with rfl | rfl | rfl | rfl <;> decide)) h
    refine ⟨⟨f, hf, ?_⟩, fun h => absurd h htg, fun _ => ⟨⟨s1, e1, ?_⟩, ⟨s2, e2, ?_⟩, ?_⟩, k2⟩
    · refine (k1 _ (by decide)).trans ((mid _ (by decide)).trans ?_)
      rw [set_get_ne _ _ (by decide), set_get_ne _ _ (by decide)]; exact b1
    · refine (k1 _ (by decide)).trans ((mid _ (by decide)).trans ?_)
      rw [set_get_ne _ _ (by decide), set_get_eq]
    · refine (k1 _ (by decide)).trans ((mid _ (by decide)).trans ?_)
      rw [set_get_eq]
    · refine (k1 _ (by decide)).trans ?_
      split
      · rename_i hn; rw [set_get_eq, hn]
      · rename_i hn; rw [set_get_ne _ _ (by decide), set_get_ne _ _ (by decide), b0 _ (by decide), hn]

theorem tgroupAttrs_looks {t : Table Content} {k : Nat} {a : Dict QName String} (h : tgroupAttrs bc t k = .ok a) :
    (bc.tableInTgroup = false → Dict.get? a (bc.q "colsep") = none ∧ Dict.get? a (bc.q "rowsep") = none ∧ Dict.get? a (bc.q "tgroupstyle") = none) ∧
    (bc.tableInTgroup = true → (∃ c, defaultSep t.styles "x-cell-border-right" = .ok c ∧ Dict.get? a (bc.q "colsep") = some c) ∧
      (∃ c, defaultSep t.styles "x-cell-border-bottom" = .ok c ∧ Dict.get? a (bc.q "rowsep") = some c) ∧ Dict.get? a (bc.q "tgroupstyle") = t.nature) := by
  unfold tgroupAttrs at h
  simp only at h
  have b0 : ∀ n, n ≠ "cols" → Dict.get? [(bc.q "cols", intStr k)] (bc.q n) = none := by
    intro n hn
    simp [Dict.get?_cons, q_ne bc (Ne.symm hn)]
  split at h
  · rename_i htg
    obtain ⟨s1, e1, h⟩ := bind_ok h
    obtain ⟨s2, e2, h⟩ := bind_ok h
    cases h
    refine ⟨fun h => by rw [htg] at h; (cases h), fun _ => ⟨⟨s1, e1, ?_⟩, ⟨s2, e2, ?_⟩, ?_⟩⟩
    · split
      · rw [set_get_ne _ _ (by decide), set_get_ne _ _ (by decide), set_get_eq]
      · rw [set_get_ne _ _ (by decide), set_get_eq]
    · split
      · rw [set_get_ne _ _ (by decide), set_get_eq]
      · rw [set_get_eq]
    · split
      · rename_i hn; rw [set_get_eq, hn]
      · rename_i hn; rw [set_get_ne _ _ (by decide), set_get_ne _ _ (by decide), b0 _ (by decide), hn]
  · rename_i htg
    cases h
    exact ⟨fun _ => ⟨b0 _ (by decide), b0 _ (by decide), b0 _ (by decide)⟩, fun h => absurd h htg⟩

/-- the styles read from a table element -/
theorem tableStyles_looks {n : Node} {st : Styles} (h : CalsP.tableStyles pc n = .ok st) :
    (∃ st0, CalsP.getFrameStyles (n.attr (pc.q "frame")) = .ok st0 ∧
      ∀ k ∈ ["border-top", "border-right", "border-bottom", "border-left"], Dict.get? st k = Dict.get? st0 k) ∧
    Dict.get? st "x-cell-border-right" = (n.attr (pc.q "colsep")).bind (Dict.get? CalsP.sepMap) ∧
    Dict.get? st "x-cell-border-bottom" = (n.attr (pc.q "rowsep")).bind (Dict.get? CalsP.sepMap) ∧
    Dict.get? st "x-sect-orient" = (n.attr (pc.q "orient")).bind (Dict.get? [("land", .str "landscape"), ("port", .str "portrait")]) ∧
    Dict.get? st "x-sect-cols" = (n.attr (pc.q "pgwide")).bind (Dict.get? [("0", .str "2"), ("1", .str "1")]) ∧
    Dict.get? st "background-color" = kept ((n.attr (pc.q "bgcolor")).map .str) ∧
    ((n.attr (pc.q "width") = none ∨ n.attr (pc.q "width") = some "") → Dict.get? st "width" = none) ∧
    (∀ w, n.attr (pc.q "width") = some w → w ≠ "" → ∃ w', Units.rewriteWidth pc.fl pc.widthUnit w.toList = .ok w' ∧
      Dict.get? st "width" = some (.str (String.ofList w'))) := by
  unfold CalsP.tableStyles at h
  obtain ⟨st0, h0, h⟩ := bind_ok h
  have hkeys : ∀ k, k ∉ ["border-top", "border-right", "border-bottom", "border-left"] → Dict.get? st0 k = none := by
    intro k hk
    simp only [List.mem_cons, List.not_mem_nil, or_false, not_or] at hk
    unfold CalsP.getFrameStyles at h0
    split at h0
    · cases h0; rfl
    · split at h0
      · cases h0; rfl
      · split at h0
        · cases h0
        · cases h0
          simp [Dict.get?_cons, Ne.symm hk.1, Ne.symm hk.2.1, Ne.symm hk.2.2.1, Ne.symm hk.2.2.2]
  let st1 := CalsP.copyStyle n (pc.q "bgcolor") "background-color"
    (CalsP.mapStyle n (pc.q "pgwide") [("0", .str "2"), ("1", .str "1")] "x-sect-cols"
      (CalsP.mapStyle n (pc.q "orient") [("land", .str "landscape"), ("port", .str "portrait")] "x-sect-orient"
        (CalsP.mapStyle n (pc.q "rowsep") CalsP.sepMap "x-cell-border-bottom"
          (CalsP.mapStyle n (pc.q "colsep") CalsP.sepMap "x-cell-border-right" st0))))
  have frame : ∀ k ∈ ["border-top", "border-right", "border-bottom", "border-left"], Dict.get? st1 k = Dict.get? st0 k := by
    intro k hk
    simp only [List.mem_cons, List.not_mem_nil, or_false] at hk
    simp only [st1]
    rcases hk with rfl | rfl | rfl | rfl <;>
    · rw [copyStyle_get_ne _ _ _ _ _ (by decide), mapStyle_get_ne _ _ _ _ _ _ (by decide), mapStyle_get_ne _ _ _ _ _ _ (by decide),
        mapStyle_get_ne _ _ _ _ _ _ (by decide), mapStyle_get_ne _ _ _ _ _ _ (by decide)]
  have all : Dict.get? st1 "x-cell-border-right" = (n.attr (pc.q "colsep")).bind (Dict.get? CalsP.sepMap) ∧
      Dict.get? st1 "x-cell-border-bottom" = (n.attr (pc.q "rowsep")).bind (Dict.get? CalsP.sepMap) ∧
      Dict.get? st1 "x-sect-orient" = (n.attr (pc.q "orient")).bind (Dict.get? [("land", .str "landscape"), ("port", .str "portrait")]) ∧
      Dict.get? st1 "x-sect-cols" = (n.attr (pc.q "pgwide")).bind (Dict.get? [("0", .str "2"), ("1", .str "1")]) ∧
      Dict.get? st1 "background-color" = kept ((n.attr (pc.q "bgcolor")).map .str) ∧ Dict.get? st1 "width" = none := by
    simp only [st1]
    refine ⟨?_, ?_, ?_, ?_, ?_, ?_⟩
    · rw [copyStyle_get_ne _ _ _ _ _ (by decide), mapStyle_get_ne _ _ _ _ _ _ (by decide), mapStyle_get_ne _ _ _ _ _ _ (by decide),
        mapStyle_get_ne _ _ _ _ _ _ (by decide)]
      exact mapStyle_get (hkeys _ (by decide))
    · rw [copyStyle_get_ne _ _ _ _ _ (by decide), mapStyle_get_ne _ _ _ _ _ _ (by decide), mapStyle_get_ne _ _ _ _ _ _ (by decide)]
      exact mapStyle_get (by rw [mapStyle_get_ne _ _ _ _ _ _ (by decide)]; exact hkeys _ (by decide))
    · rw [copyStyle_get_ne _ _ _ _ _ (by decide), mapStyle_get_ne _ _ _ _ _ _ (by decide)]
      exact mapStyle_get (by rw [mapStyle_get_ne _ _ _ _ _ _ (by decide), mapStyle_get_ne _ _ _ _ _ _ (by decide)]; exact hkeys _ (by decide))
    · rw [copyStyle_get_ne _ _ _ _ _ (by decide)]
      exact mapStyle_get (by rw [mapStyle_get_ne _ _ _ _ _ _ (by decide), mapStyle_get_ne _ _ _ _ _ _ (by decide), mapStyle_get_ne _ _ _ _ _ _ (by decide)]; exact hkeys _ (by decide))
    · exact copyStyle_get (by rw [mapStyle_get_ne _ _ _ _ _ _ (by decide), mapStyle_get_ne _ _ _ _ _ _ (by decide), mapStyle_get_ne _ _ _ _ _ _ (by decide),
        mapStyle_get_ne _ _ _ _ _ _ (by decide)]; exact hkeys _ (by decide))
    · rw [copyStyle_get_ne _ _ _ _ _ (by decide), mapStyle_get_ne _ _ _ _ _ _ (by decide), mapStyle_get_ne _ _ _ _ _ _ (by decide),
        mapStyle_get_ne _ _ _ _ _ _ (by decide), mapStyle_get_ne _ _ _ _ _ _ (by decide)]
      exact hkeys _ (by decide)
  obtain ⟨q1, q2, q3, q4, q5, q6⟩ := all
  change (match n.attr (pc.q "width") with
    | none => pure st1
    | some w => if w = "" then pure st1 else do
      let w ← Units.rewriteWidth pc.fl pc.widthUnit w.toList
      pure (Dict.set st1 "width" (.str (String.ofList w)))) = Except.ok st at h
  cases hw : n.attr (pc.q "width") with
  | none =>
    rw [hw] at h
    rw [← Except.ok.inj h]
    exact ⟨⟨st0, h0, frame⟩, q1, q2, q3, q4, q5, fun _ => q6, by simp⟩
  | some w =>
    rw [hw] at h
    simp only at h
    split at h
    · rename_i hemp
      rw [← Except.ok.inj h]
      exact ⟨⟨st0, h0, frame⟩, q1, q2, q3, q4, q5, fun _ => q6, fun w' e hne => by cases e; exact absurd hemp hne⟩
    · rename_i hemp
      obtain ⟨w', hw', h⟩ := bind_ok h
      cases h
      have ne : ∀ k, k ≠ "width" → Dict.get? (Dict.set st1 "width" (.str (String.ofList w'))) k = Dict.get? st1 k := by
        intro k hk; rw [Dict.get?_set, if_neg (Ne.symm hk)]
      refine ⟨⟨st0, h0, fun k hk => ?_⟩, by rw [ne _ (by decide), q1], by rw [ne _ (by decide), q2], by rw [ne _ (by decide), q3], by rw [ne _ (by decide), q4],
        by rw [ne _ (by decide), q5], ?_, ?_⟩
      · rw [ne k (by rintro rfl; revert hk; decide)]; exact frame k hk
      · rintro (h | h)
        · cases h
        · cases h; exact absurd rfl hemp
      · intro w'' e _
        cases e
        exact ⟨w', hw', by rw [Dict.get?_set, if_pos rfl]⟩

/-! ### separators -/

theorem getSep_values {styles : Styles} {key : String} {o : Option String} (h : getSepAttr styles key = .ok o) : o = none ∨ o = some "0" ∨ o = some "1" := by
  unfold getSepAttr at h
  split at h
  · cases h
  · cases h; left; rfl
  · cases h
    split
    · right; left; rfl
    · right; right; rfl

theorem getSep_border {styles : Styles} {key : String} {o : Option String} (h : getSepAttr styles key = .ok o) :
    ∃ v, BorderIs styles key v ∧ o = v.map (fun w => if w = "none".toList then "0" else "1") := by
  by_cases hr : Readable styles key
  · obtain ⟨v, h1, _, h2⟩ := (C39_separator styles key).1 hr
    rw [h] at h2
    refine ⟨v, h1, ?_⟩
    cases h2
    cases v with
    | none => rfl
    | some w => simp only [Option.map_some]; split <;> rfl
  · rw [(C39_separator styles key).2 hr] at h; cases h

/-- the line in terms of the separators -/
theorem line_iff {own table : Styles} {key tkey : String} {o o' : Option String} (h : getSepAttr own key = .ok o) (h' : getSepAttr table tkey = .ok o')
    (b : Bool) : LineIs own table key tkey b ↔ b = decide ((o.or o').getD "0" = "1") := by
  obtain ⟨v, h1, rfl⟩ := getSep_border h
  obtain ⟨v', h1', rfl⟩ := getSep_border h'
  have val : ∀ w : List Char, decide ((if w = "none".toList then "0" else "1") = "1") = decide (w ≠ "none".toList) := by
    intro w
    by_cases hw : w = "none".toList
    · rw [if_pos hw, hw]; rfl
    · rw [if_neg hw, decide_eq_true (p := w ≠ "none".toList) hw]; rfl
  constructor
  · intro hl
    cases hl with
    | own w hw => cases borderIs_unique h1 hw; simp only [Option.map_some, Option.some_or, Option.getD_some]; exact (val w).symm
    | table w hw hw' =>
      cases borderIs_unique h1 hw; cases borderIs_unique h1' hw'
      simp only [Option.map_some, Option.map_none, Option.none_or, Option.getD_some]; exact (val w).symm
    | nothing hw hw' =>
      cases borderIs_unique h1 hw; cases borderIs_unique h1' hw'
      rfl
  · rintro rfl
    cases v with
    | some w =>
      have := LineIs.own (table := table) (tkey := tkey) w h1
      rw [← val] at this
      exact this
    | none =>
      cases v' with
      | some w =>
        have := LineIs.table w h1 h1'
        rw [← val] at this
        exact this
      | none => exact .nothing h1 h1'

theorem getSep_of_get {st : Styles} {key : String} {o : Option String} (ho : o = none ∨ o = some "0" ∨ o = some "1")
    (h : Dict.get? st key = o.bind (Dict.get? CalsP.sepMap)) : getSepAttr st key = .ok o := by
  have e0 : Dict.get? CalsP.sepMap "0" = some CalsP.borderNone := by decide +kernel
  have e1 : Dict.get? CalsP.sepMap "1" = some CalsP.borderSolid := by decide +kernel
  rcases ho with rfl | rfl | rfl
  · unfold getSepAttr getBorderStyle borderParts
    rw [h]; rfl
  · exact sep_of_get (.inl ⟨rfl, by rw [h]; exact e0⟩)
  · exact sep_of_get (.inr ⟨rfl, by rw [h]; exact e1⟩)

/-- a line written as a separator and read back -/
theorem line_kept {own table own' table' : Styles} {key tkey d : String} {o : Option String} (h : SepOf own key d o)
    (hd : defaultSep table tkey = .ok d) (h1 : Dict.get? own' key = o.bind (Dict.get? CalsP.sepMap))
    (h2 : Dict.get? table' tkey = Dict.get? CalsP.sepMap d) (b : Bool) :
    LineIs own' table' key tkey b ↔ LineIs own table key tkey b := by
  obtain ⟨sep, hs, rfl⟩ := h
  have hv := getSep_values hs
  unfold defaultSep at hd
  cases ht : getSepAttr table tkey with
  | error e => rw [ht] at hd; cases hd
  | ok o' =>
    have hv' := getSep_values ht
    have hd' : d = o'.getD "0" := by
      rw [ht] at hd
      cases o' with
      | none => cases hd; rfl
      | some x => cases hd; rfl
    have r1 : getSepAttr own' key = .ok (if sep = some d then none else sep) := getSep_of_get (by
      split
      · left; rfl
      · exact hv) h1
    have r2 : getSepAttr table' tkey = .ok (some d) := getSep_of_get (by
      subst hd'
      rcases hv' with rfl | rfl | rfl <;> simp) h2
    rw [line_iff r1 r2, line_iff hs ht, hd']
    rcases hv with rfl | rfl | rfl <;> rcases hv' with rfl | rfl | rfl <;> simp

end Benker
