import Verif.Props.OoxmlLooks

/-! C75: spaces and shadows of the borders of Word tables. -/

namespace Benker.Ooxml
open OoxmlSpec PyM

/-- a number in an attribute which can be missing or empty -/
def NumberRead (cfg : Config) (attr : Option String) (x : Option Rat) : Prop :=
  ((attr = none ∨ attr = some "") ∧ x = none) ∨ ∃ t y, attr = some t ∧ t ≠ "" ∧ cfg.float t = .ok y ∧ x = some y

/-- the distances of the borders, in the order of the sides, and the styles which tell them -/
structure SpacesRead (cfg : Config) (spaces : List (Option Rat)) (collapse spacing : Option StyleVal) : Prop where
  noSpace : (∀ x, some x ∉ spaces) → collapse = none ∧ spacing = none
  collapsed : (∃ x, some x ∈ spaces) → (∀ x, some x ∈ spaces → x = 0) → collapse = some (.str "collapse") ∧ spacing = none
  separate : (∃ x, some x ∈ spaces ∧ x ≠ 0) → collapse = some (.str "separate") ∧
    spacing = some (.str (" ".intercalate (spaces.map (fun x => match x with
      | none => "0pt"
      | some x => cfg.repr x ++ "pt"))))

/-- the shadows of the borders, in the order of the sides: `true` and the size of the border, or no shadow -/
structure ShadowsRead (cfg : Config) (shadows : List (Bool × Option String)) (shadow : Option StyleVal) : Prop where
  noShadow : (∀ s ∈ shadows, s.1 = false) → shadow = none
  sized : ∀ s ∈ shadows, s.1 = true → ∃ z, s.2 = some z
  shadowed : (∃ s ∈ shadows, s.1 = true) →
    shadow = some (.str (" ".intercalate (shadows.map (fun s => if s.1 then s.2.getD "" else "0ptpt"))))

/-- the styles tell the spaces and the shadows of the borders of some sides -/
def SpacingReads (cfg : Config) (sides : List (String × List String)) (borders : Option Node) (collapse spacing shadow : Option StyleVal) : Prop :=
  match borders with
  | none => collapse = none ∧ spacing = none ∧ shadow = none
  | some b =>
    (∃ spaces, All₂ (fun side x => NumberRead cfg (borderAttr b side.2 "space") x) sides spaces ∧ SpacesRead cfg spaces collapse spacing) ∧
    ∃ shadows, All₂ (fun side s => borderAttr b side.2 "shadow" ∈ [none, some "", some "true", some "false"] ∧
      s.1 = decide (borderAttr b side.2 "shadow" = some "true") ∧ SizeOf cfg (borderAttr b side.2 "sz") s.2) sides shadows ∧
      ShadowsRead cfg shadows shadow

theorem optM_number {cfg : Config} {attr : Option String} {x : Option Rat} (h : optM cfg.float attr = .ok x) : NumberRead cfg attr x := by
  unfold optM nonEmpty at h
  cases attr with
  | none => cases h; exact .inl ⟨.inl rfl, rfl⟩
  | some t =>
    by_cases ht : t = ""
    · simp only [ht, if_true] at h
      cases h; subst ht; exact .inl ⟨.inr rfl, rfl⟩
    · simp only [ht, if_false] at h
      cases hf : cfg.float t with
      | error e => rw [hf] at h; cases h
      | ok y => rw [hf] at h; cases h; exact .inr ⟨t, y, rfl, ht, hf, rfl⟩

theorem optM_bool {attr : Option String} {x : Option Bool} (h : optM pyBool attr = .ok x) :
    attr ∈ [none, some "", some "true", some "false"] ∧ (decide (x = some true) = decide (attr = some "true")) := by
  unfold optM nonEmpty at h
  cases attr with
  | none => cases h; simp
  | some t =>
    by_cases ht : t = ""
    · simp only [ht, if_true] at h
      cases h; subst ht; simp
    · simp only [ht, if_false] at h
      unfold pyBool at h
      simp only [Dict.get?_cons, Dict.get?_nil] at h
      by_cases h1 : "true" = t
      · subst h1; cases h; simp
      · by_cases h2 : "false" = t
        · subst h2; cases h; simp
        · simp only [if_neg h1, if_neg h2] at h
          cases h

theorem borderProps_spaces {cfg : Config} {b : Node} {names : List String} {p : Border} (h : borderProps cfg b names = .ok p) :
    NumberRead cfg (borderAttr b names "space") p.space ∧
    borderAttr b names "shadow" ∈ [none, some "", some "true", some "false"] ∧
    decide (p.shadow = some true) = decide (borderAttr b names "shadow" = some "true") ∧
    SizeOf cfg (borderAttr b names "sz") (p.sz.map (fun x => cfg.repr x ++ "pt")) := by
  unfold borderProps at h
  simp only [attr_border] at h
  obtain ⟨shadow, h1, h⟩ := Benker.bind_ok h
  obtain ⟨space, h2, h⟩ := Benker.bind_ok h
  obtain ⟨sz, hsz, h⟩ := Benker.bind_ok h
  cases h
  refine ⟨optM_number h2, (optM_bool h1).1, (optM_bool h1).2, ?_⟩
  unfold optM nonEmpty at hsz
  cases e : borderAttr b names "sz" with
  | none => rw [e] at hsz; cases hsz; exact .inl ⟨.inl rfl, rfl⟩
  | some t =>
    rw [e] at hsz
    by_cases ht : t = ""
    · simp only [ht, if_true] at hsz
      cases hsz; subst ht; exact .inl ⟨.inr rfl, rfl⟩
    · simp only [ht, if_false] at hsz
      cases hf : cfg.float t with
      | error e => rw [hf] at hsz; cases hsz
      | ok x =>
        rw [hf] at hsz
        cases hsz
        exact .inr ⟨t, x, rfl, ht, hf, rfl⟩

theorem setSpacing_reads (cfg : Config) (props : List (String × Border)) {st : Styles} (h1 : Dict.get? st "border-collapse" = none)
    (h2 : Dict.get? st "border-spacing" = none) : SpacesRead cfg (props.map (·.2.space)) (Dict.get? (setSpacing cfg props st) "border-collapse")
      (Dict.get? (setSpacing cfg props st) "border-spacing") := by
  have any_iff : props.any (fun p => p.2.space.isSome) = true ↔ ∃ x, some x ∈ props.map (·.2.space) := by
    rw [List.any_eq_true]
    constructor
    · rintro ⟨p, hp, hs⟩
      obtain ⟨x, hx⟩ := Option.isSome_iff_exists.mp hs
      exact ⟨x, List.mem_map.mpr ⟨p, hp, hx⟩⟩
    · rintro ⟨x, hx⟩
      obtain ⟨p, hp, hpx⟩ := List.mem_map.mp hx
      exact ⟨p, hp, by rw [hpx]; rfl⟩
  have all_iff : props.all (fun p => p.2.space.getD 0 = 0) = true ↔ ∀ x, some x ∈ props.map (·.2.space) → x = 0 := by
    rw [List.all_eq_true]
    constructor
    · intro h x hx
      obtain ⟨p, hp, hpx⟩ := List.mem_map.mp hx
      have := h p hp
      simpa [hpx] using this
    · intro h p hp
      cases hx : p.2.space with
      | none => simp
      | some x => simpa using h x (List.mem_map.mpr ⟨p, hp, hx⟩)
  unfold setSpacing
  refine ⟨?_, ?_, ?_⟩
  · intro hno
    rw [if_neg (fun e => by obtain ⟨x, hx⟩ := any_iff.mp e; exact hno x hx)]
    exact ⟨h1, h2⟩
  · intro hex hall
    rw [if_pos (any_iff.mpr hex), if_pos (all_iff.mpr hall)]
    rw [Dict.get?_set, if_pos rfl, Dict.get?_set, if_neg (by decide)]
    exact ⟨rfl, h2⟩
  · rintro ⟨x, hx, hne⟩
    rw [if_pos (any_iff.mpr ⟨x, hx⟩), if_neg (fun e => hne (all_iff.mp e x hx))]
    rw [Dict.get?_set, if_neg (by decide), Dict.get?_set, if_pos rfl, Dict.get?_set, if_pos rfl]
    refine ⟨rfl, ?_⟩
    rw [List.map_map]
    have : (fun p : String × Border => (match p.2.space with | none => "0" | some x => cfg.repr x) ++ "pt") =
        (fun x : Option Rat => match x with | none => "0pt" | some x => cfg.repr x ++ "pt") ∘ (fun p : String × Border => p.2.space) := by
      funext p
      simp only [Function.comp_apply]
      cases p.2.space <;> rfl
    rw [← this]
    rfl

theorem setShadow_reads {cfg : Config} {props : List (String × Border)} {st st' : Styles} (h : setShadow cfg props st = .ok st')
    (h1 : Dict.get? st "box-shadow" = none) :
    ShadowsRead cfg (props.map (fun p => (decide (p.2.shadow = some true), p.2.sz.map (fun x => cfg.repr x ++ "pt")))) (Dict.get? st' "box-shadow") := by
  have any_iff : props.any (fun p => p.2.shadow = some true) = true ↔
      ∃ s ∈ props.map (fun p => (decide (p.2.shadow = some true), p.2.sz.map (fun x => cfg.repr x ++ "pt"))), s.1 = true := by
    rw [List.any_eq_true]
    constructor
    · rintro ⟨p, hp, hs⟩; exact ⟨_, List.mem_map.mpr ⟨p, hp, rfl⟩, hs⟩
    · rintro ⟨s, hs, he⟩
      obtain ⟨p, hp, rfl⟩ := List.mem_map.mp hs
      exact ⟨p, hp, he⟩
  unfold setShadow at h
  by_cases ha : props.any (fun p => p.2.shadow = some true) = true
  · rw [if_pos ha] at h
    obtain ⟨l, hl, h⟩ := Benker.bind_ok h
    have h := Except.ok.inj h
    have hl := mapM_ok_all₂ hl
    have text : ∀ p s, shadowText cfg p = .ok s → (p.shadow = some true → ∃ x, p.sz = some x) ∧
        s = if decide (p.shadow = some true) then (p.sz.map (fun x => cfg.repr x ++ "pt")).getD "" else "0ptpt" := by
      intro p s hs
      unfold shadowText at hs
      by_cases hp : p.shadow = some true
      · rw [if_pos hp] at hs
        cases hz : p.sz with
        | none => rw [hz] at hs; cases hs
        | some x => rw [hz] at hs; cases hs; exact ⟨fun _ => ⟨x, rfl⟩, by simp [hp]⟩
      · rw [if_neg hp] at hs
        cases hs
        exact ⟨fun e => absurd e hp, by simp [hp]⟩
    refine ⟨?_, ?_, ?_⟩
    · intro hno
      obtain ⟨s, hs, he⟩ := any_iff.mp ha
      rw [hno s hs] at he; cases he
    · intro s hs he
      obtain ⟨p, hp, rfl⟩ := List.mem_map.mp hs
      obtain ⟨t, _, ht⟩ := hl.mem_left hp
      obtain ⟨x, hx⟩ := (text _ _ ht).1 (by simpa using he)
      exact ⟨_, by simp only [hx, Option.map_some]; rfl⟩
    · intro _
      rw [← h, Dict.get?_set, if_pos rfl, List.map_map]
      have : l = props.map ((fun s : Bool × Option String => if s.1 then s.2.getD "" else "0ptpt") ∘
          (fun p : String × Border => (decide (p.2.shadow = some true), p.2.sz.map (fun x => cfg.repr x ++ "pt")))) := by
        have := (hl.imp (S := fun p t => ((fun s : Bool × Option String => if s.1 then s.2.getD "" else "0ptpt") ∘
          (fun p : String × Border => (decide (p.2.shadow = some true), p.2.sz.map (fun x => cfg.repr x ++ "pt")))) p = id t)
          (fun p t ht => (text _ _ ht).2.symm)).map_eq
        rw [this, List.map_id]
      rw [this]
  · rw [if_neg ha] at h
    cases h
    refine ⟨fun _ => h1, ?_, ?_⟩
    · intro s hs he
      exact absurd (any_iff.mpr ⟨s, hs, he⟩) ha
    · rintro ⟨s, hs, he⟩
      exact absurd (any_iff.mpr ⟨s, hs, he⟩) ha

theorem all₂_map_right {α β γ : Type} {R : α → γ → Prop} {f : β → γ} {l : List α} {m : List β} (h : All₂ (fun a b => R a (f b)) l m) :
    All₂ R l (m.map f) := by
  induction h with
  | nil => exact .nil
  | cons h1 _ ih => exact .cons h1 ih

theorem bordersOf_spacing {cfg : Config} {m : List (String × List String)} {b : Option Node} {st : Styles} (h : bordersOf cfg m b = .ok st)
    (hn : (m.map (·.1)).Nodup) (hk : ∀ key ∈ ["border-collapse", "border-spacing", "box-shadow"], key ∉ m.map (·.1)) :
    SpacingReads cfg m b (Dict.get? st "border-collapse") (Dict.get? st "border-spacing") (Dict.get? st "box-shadow") := by
  cases b with
  | none => cases h; exact ⟨rfl, rfl, rfl⟩
  | some b =>
    obtain ⟨props, hm, hs⟩ := Benker.bind_ok h
    have hall : All₂ (fun (a : String × List String) (p : String × Border) => p.1 = a.1 ∧ borderProps cfg b a.2 = .ok p.2) m props := by
      refine (mapM_ok_all₂ hm).imp ?_
      intro a p hp
      cases hb : borderProps cfg b a.2 with
      | error e => rw [hb] at hp; cases hp
      | ok q => rw [hb] at hp; cases hp; exact ⟨rfl, rfl⟩
    have hkeys : m.map (·.1) = props.map (·.1) := All₂.map_eq (hall.imp (fun a p h => h.1.symm))
    have hno : ∀ key ∈ ["border-collapse", "border-spacing", "box-shadow"], Dict.get? (setBorders cfg props) key = none := by
      intro key hkey
      unfold setBorders
      rw [get?_foldBorders cfg key props [] (hkeys ▸ hn)]
      have : props.find? (fun p => p.1 = key) = none := by
        rw [List.find?_eq_none]
        intro p hp he
        simp only [decide_eq_true_eq] at he
        refine hk key hkey ?_
        rw [hkeys]
        exact List.mem_map.mpr ⟨p, hp, he⟩
      rw [this]
      rfl
    unfold bordersToStyles at hs
    constructor
    · refine ⟨props.map (·.2.space), all₂_map_right (hall.imp (fun a p h => (borderProps_spaces h.2).1)), ?_⟩
      rw [get?_shadow hs (by decide), get?_shadow hs (by decide)]
      exact setSpacing_reads cfg props (hno _ (by simp)) (hno _ (by simp))
    · refine ⟨_, all₂_map_right (hall.imp (fun a p h => ?_)), setShadow_reads hs ?_⟩
      · exact ⟨(borderProps_spaces h.2).2.1, (borderProps_spaces h.2).2.2.1, (borderProps_spaces h.2).2.2.2⟩
      · rw [get?_spacing _ _ _ (by decide) (by decide)]
        exact hno _ (by simp)

theorem tc_spacing {cfg : Config} {tc : Node} {st : Styles} (h : tcStyles cfg tc = .ok st) :
    SpacingReads cfg frameSides (props "tcPr" "tcBorders" tc).head? (Dict.get? st "border-collapse") (Dict.get? st "border-spacing")
      (Dict.get? st "box-shadow") := by
  unfold tcStyles at h
  simp only [nodeOf_prop] at h
  obtain ⟨va, h1, h2⟩ := Benker.bind_ok h
  obtain ⟨ha, h3, h4⟩ := Benker.bind_ok h2
  obtain ⟨bs, h5, h6⟩ := Benker.bind_ok h4
  obtain ⟨v1, v2, v3⟩ := vAlign_spec h1
  obtain ⟨a1, a2, a3⟩ := hAlign_spec h3
  obtain ⟨s1, s3⟩ := shading_fill (props "tcPr" "shd" tc).head?
  have b2 := wf_bordersOf h5
  have get : ∀ key, key ∈ ["border-collapse", "border-spacing", "box-shadow"] → Dict.get? st key = Dict.get? bs key := by
    intro key hk
    have hk' : key ≠ "x-cell-empty" ∧ key ≠ "align" ∧ key ≠ "vertical-align" ∧ key ≠ "background-color" := by
      simp only [List.mem_cons, List.not_mem_nil, or_false] at hk
      rcases hk with rfl | rfl | rfl <;> decide
    rw [← Except.ok.inj h6]
    have : ∀ d : Styles, Dict.get? (if tcEmpty tc then Dict.set d "x-cell-empty" (.str "true") else d) key = Dict.get? d key := by
      intro d
      split
      · rw [Dict.get?_set, if_neg (Ne.symm hk'.1)]
      · rfl
    rw [this, Dict.get?_update b2, Dict.get?_update a2, Dict.get?_update v2, a3 _ hk'.2.1, v3 _ hk'.2.2.1, s3 _ hk'.2.2.2]
    simp
  rw [get _ (by simp), get _ (by simp), get _ (by simp)]
  exact bordersOf_spacing h5 (by decide) (by decide)

/-- **C75 (cells)**: the spaces and shadows of the borders of each cell of a Word table are told by its styles. -/
theorem C75_cells_partial (cfg : Config) (sect : Option Node) (styles : Node → Styles) (nature : Node → String) (W : Nat) (tbl : Node)
    (h : GoodTable cfg sect styles nature W tbl) (s : PState) :
    ∃ t s', parseTable cfg sect tbl s = (.ok (some t), s') ∧
      ∀ (i : Nat) (tr : Node), (kids ["tr"] tbl)[i]? = some tr → ∀ slot ∈ place 0 (kids ["tc"] tr), continues slot.2 = false →
        ∃ cell ∈ t.grid.cells, cell.min = ⟨slot.1, i + 1⟩ ∧ SpacingReads cfg frameSides (props "tcPr" "tcBorders" slot.2).head?
          (Dict.get? cell.styles "border-collapse") (Dict.get? cell.styles "border-spacing") (Dict.get? cell.styles "box-shadow") := by
  obtain ⟨t, s', h1, h2⟩ := cells_styles cfg sect styles nature W tbl h s
  refine ⟨t, s', h1, ?_⟩
  intro i tr hi slot hslot hcont
  obtain ⟨cell, c1, c2, _, _, c5⟩ := h2 i tr hi slot hslot hcont
  exact ⟨cell, c1, c2, tc_spacing c5⟩

theorem own_spacing {cfg : Config} {style : Node} {own : Styles} (h : ownBorders cfg style = .ok own) :
    SpacingReads cfg frameSides (props "tblPr" "tblBorders" style).head? (Dict.get? own "border-collapse") (Dict.get? own "border-spacing")
      (Dict.get? own "box-shadow") ∧
    SpacingReads cfg insideSides (props "tblPr" "tblBorders" style).head? (Dict.get? own "x-cell-border-collapse")
      (Dict.get? own "x-cell-border-spacing") (Dict.get? own "x-cell-box-shadow") := by
  unfold ownBorders at h
  simp only [nodeOf_prop] at h
  obtain ⟨tb, h1, h2⟩ := Benker.bind_ok h
  obtain ⟨cb, h3, h4⟩ := Benker.bind_ok h2
  cases h4
  have wcb := wf_prefixed (wf_bordersOf h3)
  constructor
  · rw [Dict.get?_update wcb, Dict.get?_update wcb, Dict.get?_update wcb, get?_prefixed_none _ _ (by decide), get?_prefixed_none _ _ (by decide),
      get?_prefixed_none _ _ (by decide)]
    exact bordersOf_spacing h1 (by decide) (by decide)
  · have hno : ∀ key ∈ ["x-cell-border-collapse", "x-cell-border-spacing", "x-cell-box-shadow"], Dict.get? tb key = none := by
      intro key hk
      refine (tableBorders_spec h1).2 key ?_
      simp only [List.mem_cons, List.not_mem_nil, or_false] at hk
      rcases hk with rfl | rfl | rfl <;> decide
    rw [Dict.get?_update wcb, Dict.get?_update wcb, Dict.get?_update wcb, hno _ (by simp), hno _ (by simp), hno _ (by simp), Option.or_none,
      Option.or_none, Option.or_none]
    have e : ∀ key, Dict.get? (cb.map (fun p => ("x-cell-" ++ p.1, p.2))) ("x-cell-" ++ key) = Dict.get? cb key := get?_prefixed cb
    have e1 := e "border-collapse"
    have e2 := e "border-spacing"
    have e3 := e "box-shadow"
    have l1 : "x-cell-" ++ "border-collapse" = "x-cell-border-collapse" := by decide
    have l2 : "x-cell-" ++ "border-spacing" = "x-cell-border-spacing" := by decide
    have l3 : "x-cell-" ++ "box-shadow" = "x-cell-box-shadow" := by decide
    rw [l1] at e1; rw [l2] at e2; rw [l3] at e3
    rw [e1, e2, e3]
    exact bordersOf_spacing h3 (by decide) (by decide)

/-- **C75 (styles)**: the spaces and shadows of the borders which a style of table defines itself, around the table and between its cells. -/
theorem C75_styles_partial (cfg : Config) (style : Node) (own : Styles) (h : ownBorders cfg style = .ok own) :
    SpacingReads cfg frameSides (props "tblPr" "tblBorders" style).head? (Dict.get? own "border-collapse") (Dict.get? own "border-spacing")
      (Dict.get? own "box-shadow") ∧
    SpacingReads cfg insideSides (props "tblPr" "tblBorders" style).head? (Dict.get? own "x-cell-border-collapse")
      (Dict.get? own "x-cell-border-spacing") (Dict.get? own "x-cell-box-shadow") := own_spacing h

/-- **C75 (table)**: the spaces and shadows of the borders of a Word table are those which it defines itself, otherwise those of the nearest
style of the chain of its styles which defines them. -/
theorem C75_table_partial (cfg : Config) (sect : Option Node) (styles : Node → Styles) (nature : Node → String) (W : Nat) (tbl : Node)
    (h : GoodTable cfg sect styles nature W tbl) (s : PState) :
    ∃ t s' collapse spacing shadow, parseTable cfg sect tbl s = (.ok (some t), s') ∧
      SpacingReads cfg frameSides (props "tblPr" "tblBorders" tbl).head? collapse spacing shadow ∧
      (∀ key v, (key, v) ∈ [("border-collapse", collapse), ("border-spacing", spacing), ("box-shadow", shadow)] →
        (propAttr "tblPr" "tblStyle" "val" tbl = none ∨ cfg.styles = none → Dict.get? t.styles key = v) ∧
        ∀ sheet id chain own, cfg.styles = some sheet → propAttr "tblPr" "tblStyle" "val" tbl = some id → Chain sheet id chain →
          chain.length < cfg.limit → All₂ (fun s o => ownBorders cfg s = .ok o) chain own →
          Dict.get? t.styles key = v.or (own.findSome? (fun o => Dict.get? o key))) := by
  obtain ⟨t, s', st, nat, h1, h2, h3, h4, h5⟩ := word_reading cfg sect styles nature W tbl h s
  have hs : t.styles = st := congrArg Prod.fst h5.table
  unfold tblStyles at h3
  rw [attrOf_prop] at h3
  simp only [nodeOf_prop, nodeOf_one] at h3
  obtain ⟨inh, g1, h3⟩ := Benker.bind_ok h3
  obtain ⟨tb, g2, h3⟩ := Benker.bind_ok h3
  obtain ⟨pg, g3, h3⟩ := Benker.bind_ok h3
  have h6 := Except.ok.inj h3
  obtain ⟨p1, p2, p3, p4⟩ := pageStyles_spec g3
  obtain ⟨s1, s3⟩ := shading_fill (props "tblPr" "shd" tbl).head?
  have ws : Dict.WF (shading (props "tblPr" "shd" tbl).head?) := by
    unfold shading
    split
    · exact Dict.wf_nil
    · split
      · exact Dict.wf_nil
      · simp [Dict.WF]
  refine ⟨t, s', _, _, _, h1, bordersOf_spacing g2 (by decide) (by decide), ?_⟩
  intro key v hkv
  have hk : key ≠ "x-sect-cols" ∧ key ≠ "x-sect-orient" ∧ key ≠ "x-sect-size" ∧ key ≠ "background-color" ∧ v = Dict.get? tb key := by
    simp only [List.mem_cons, Prod.mk.injEq, List.not_mem_nil, or_false] at hkv
    rcases hkv with ⟨rfl, rfl⟩ | ⟨rfl, rfl⟩ | ⟨rfl, rfl⟩ <;> exact ⟨by decide, by decide, by decide, by decide, rfl⟩
  have get : Dict.get? t.styles key = v.or (Dict.get? inh key) := by
    rw [hs, ← h6, Dict.get?_set, if_neg (Ne.symm hk.1), Dict.get?_update p3, Dict.get?_update ws, Dict.get?_update (wf_bordersOf g2),
      p4 _ hk.2.1 hk.2.2.1, s3 _ hk.2.2.2.1, hk.2.2.2.2]
    rfl
  constructor
  · intro hno
    have hinh : inh = [] := by
      cases hl : cfg.limit with
      | zero => rw [hl] at g1; cases g1
      | succ n =>
        rw [hl] at g1
        rcases hno with hno | hno
        · rw [hno, styleBorders_no_id] at g1; cases g1; rfl
        · rw [hno, styleBorders_no_sheet] at g1; cases g1; rfl
    rw [get, hinh, Dict.get?_nil, Option.or_none]
  · intro sheet id chain own e1 e2 e3 e4 e5
    obtain ⟨st', f1, f2⟩ := styleBorders_chain cfg sheet e3 own e5 cfg.limit e4
    rw [e1, e2, f1] at g1
    have := Except.ok.inj g1
    subst this
    rw [get, f2]

/-- a configuration which reads some numbers -/
def spaceConfig : Config :=
  ⟨fun s => if s = "4" then .ok 4 else if s = "8" then .ok 8 else .ok 0, id, fun x => if x = 4 then "4.0" else if x = 1 then "1.0" else "0.0", 100, none⟩

/-- not vacuous: spaces and shadows of a cell -/
example : tcStyles spaceConfig (tcLooks [wEl "tcBorders" [] [wEl "top" [("space", "4"), ("sz", "8"), ("shadow", "true")] [],
      wEl "left" [("space", "0")] []]] [pDemo none (some "a")]) =
    .ok [("border-top", .str "1.0pt"), ("border-collapse", .str "separate"), ("border-spacing", .str "4.0pt 0pt 0pt 0.0pt 0pt 0pt"),
      ("box-shadow", .str "1.0pt 0ptpt 0ptpt 0ptpt 0ptpt 0ptpt")] := by decide +kernel

/-- **C75 (shadow)**: the sides without shadow are told by `0ptpt`, which is no length; a shadow whose border has no size is refused, and so
are shadows told by `1` or `on`: `KeyError`. -/
theorem C75_shadow_counterexample :
    (tcStyles spaceConfig (tcLooks [wEl "tcBorders" [] [wEl "top" [("sz", "8"), ("shadow", "true")] []]] [pDemo none (some "a")])).map
      (fun st => Dict.get? st "box-shadow") = .ok (some (.str "1.0pt 0ptpt 0ptpt 0ptpt 0ptpt 0ptpt")) ∧
    tcStyles spaceConfig (tcLooks [wEl "tcBorders" [] [wEl "top" [("val", "single"), ("shadow", "true")] []]] [pDemo none (some "a")]) =
      .error .keyError ∧
    ∀ v ∈ ["1", "0", "on", "off"],
      tcStyles spaceConfig (tcLooks [wEl "tcBorders" [] [wEl "top" [("sz", "8"), ("shadow", v)] []]] [pDemo none (some "a")]) = .error .keyError := by
  refine ⟨by decide +kernel, by decide +kernel, ?_⟩
  intro v hv
  simp only [List.mem_cons, List.not_mem_nil, or_false] at hv
  rcases hv with rfl | rfl | rfl | rfl <;> decide +kernel

end Benker.Ooxml
