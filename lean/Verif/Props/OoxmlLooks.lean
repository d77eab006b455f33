import Verif.Props.OoxmlMerge
import Verif.Props.Units

/-! C67-C70: what the tables of Word look like once they are read. -/

namespace Benker.Ooxml
open PyM Table OoxmlSpec Benker.Units

/-! ### properties -/

theorem attrOf_prop (group prop attr : String) (n : Node) : attrOf (some n) [[group], [prop]] attr = propAttr group prop attr n := by
  unfold attrOf propAttr props
  simp only [select_two]
  rfl

theorem nodeOf_prop (group prop : String) (n : Node) : nodeOf (some n) [[group], [prop]] = (props group prop n).head? := by
  unfold nodeOf props
  simp only [select_two]

theorem head?_none {α : Type} {l : List α} (h : l.head? = none) : l = [] := by cases l <;> simp_all

theorem head?_some {α : Type} {l : List α} {x : α} (h : l.head? = some x) : l ≠ [] := by rintro rfl; cases h

/-! ### rows -/

theorem rowNature_kind {tr : Node} {n : String} (h : rowNature tr = .ok n) : n = natureOfRow tr := by
  unfold rowNature at h
  rw [nodeOf_prop] at h
  unfold natureOfRow isHeader
  cases hp : (props "trPr" "tblHeader" tr).head? with
  | none =>
    rw [hp] at h
    cases h
    simp [head?_none hp]
  | some e =>
    rw [hp] at h
    simp only [attrOf_prop] at h
    have hne := head?_some hp
    generalize (propAttr "trPr" "tblHeader" "val" tr).getD "true" = v at h ⊢
    simp only [Dict.get?_cons, Dict.get?_nil] at h
    by_cases h1 : v = "true"
    · subst h1
      simp only [if_true] at h
      cases h
      simp [hne]
    · by_cases h2 : v = "false"
      · subst h2
        simp only [if_neg (show "true" ≠ "false" by decide), if_true] at h
        cases h
        simp
      · rw [if_neg (Ne.symm h1), if_neg (Ne.symm h2)] at h
        cases h

theorem wf_ins (tr : Node) : Dict.WF (rowIns tr) := by
  unfold rowIns
  cases nodeOf (some tr) [["trPr"], ["ins"]] with
  | none => exact Dict.wf_nil
  | some e =>
    simp only [List.filterMap_cons, List.filterMap_nil]
    unfold Dict.WF
    cases nonEmpty (attrOf (some tr) [["trPr"], ["ins"]] "id") <;> cases nonEmpty (attrOf (some tr) [["trPr"], ["ins"]] "author") <;>
      cases nonEmpty (attrOf (some tr) [["trPr"], ["ins"]] "date") <;> simp

theorem rowIns_get (tr : Node) (key : String) : Dict.get? (rowIns tr) key = if props "trPr" "ins" tr = [] then none else
    if key = "x-ins" then some (.bool true) else if key = "x-ins-id" then given (propAttr "trPr" "ins" "id" tr)
    else if key = "x-ins-author" then given (propAttr "trPr" "ins" "author" tr)
    else if key = "x-ins-date" then given (propAttr "trPr" "ins" "date" tr) else none := by
  have hgiven : ∀ v : Option String, (nonEmpty v).map StyleVal.str = given v := by
    intro v
    unfold nonEmpty given
    cases v with
    | none => rfl
    | some t => by_cases h : t = "" <;> simp [h]
  unfold rowIns
  simp only [nodeOf_prop, attrOf_prop, ← hgiven]
  cases hp : (props "trPr" "ins" tr).head? with
  | none => simp [head?_none hp]
  | some n =>
    rw [if_neg (head?_some hp)]
    simp only [List.filterMap_cons, List.filterMap_nil, Dict.get?_cons]
    by_cases k0 : key = "x-ins"
    · subst k0; simp
    rw [if_neg (Ne.symm k0), if_neg k0]
    cases nonEmpty (propAttr "trPr" "ins" "id" tr) <;> cases nonEmpty (propAttr "trPr" "ins" "author" tr) <;>
      cases nonEmpty (propAttr "trPr" "ins" "date" tr) <;>
      simp only [Option.map_none, Option.map_some, Dict.get?_cons, Dict.get?_nil, eq_comm (a := key)] <;>
      (repeat' split) <;> first | rfl | (subst_vars; simp_all)

theorem rowLooks_marks (cfg : Config) (tr : Node) (hh : ∃ h, rowHeight cfg tr = .ok h) : RowMarks tr (rowLooks cfg tr) := by
  obtain ⟨h, hh⟩ := hh
  have e : rowLooks cfg tr = Dict.update (Dict.update [] h) (rowIns tr) := by unfold rowLooks; rw [hh]
  have hkeys : ∀ key, key ≠ "height" → key ≠ "min-height" → Dict.get? h key = none ∧ Dict.WF h := by
    intro key k1 k2
    unfold rowHeight at hh
    split at hh
    · cases hh; exact ⟨rfl, Dict.wf_nil⟩
    · simp only [Dict.get?_cons, Dict.get?_nil] at hh
      generalize (attrOf (some tr) [["trPr"], ["tblHeader"]] "hRule").getD "auto" = r at hh
      have one : ∀ (style : String) (x : StyleVal), key ≠ style → Dict.get? [(style, x)] key = none ∧ Dict.WF [(style, x)] := by
        intro style x hne
        refine ⟨?_, by simp [Dict.WF]⟩
        rw [Dict.get?_cons, if_neg (Ne.symm hne), Dict.get?_nil]
      by_cases r1 : "atLeast" = r
      · rw [if_pos r1] at hh
        simp only at hh
        cases ht : twipsText cfg ((attrOf (some tr) [["trPr"], ["tblHeader"]] "val").getD "0") with
        | error e => rw [ht] at hh; cases hh
        | ok x => rw [ht] at hh; cases hh; exact one _ _ k2
      · rw [if_neg r1] at hh
        by_cases r2 : "exact" = r
        · rw [if_pos r2] at hh
          simp only at hh
          cases ht : twipsText cfg ((attrOf (some tr) [["trPr"], ["tblHeader"]] "val").getD "0") with
          | error e => rw [ht] at hh; cases hh
          | ok x => rw [ht] at hh; cases hh; exact one _ _ k1
        · rw [if_neg r2] at hh
          by_cases r3 : "auto" = r
          · rw [if_pos r3] at hh; cases hh; exact ⟨rfl, Dict.wf_nil⟩
          · rw [if_neg r3] at hh; cases hh
  have get : ∀ key, key ≠ "height" → key ≠ "min-height" → Dict.get? (rowLooks cfg tr) key = Dict.get? (rowIns tr) key := by
    intro key k1 k2
    obtain ⟨g1, g2⟩ := hkeys key k1 k2
    rw [e, Dict.get?_update (wf_ins tr), Dict.get?_update g2, g1]
    simp
  have hins := rowIns_get tr
  have hnil : ∀ attr, props "trPr" "ins" tr = [] → given (propAttr "trPr" "ins" attr tr) = none := by
    intro attr hp
    unfold propAttr
    rw [hp]; rfl
  refine ⟨?_, ?_, ?_, ?_, ?_⟩
  · rw [get _ (by decide) (by decide), hins]; simp
  pick_goal 4
  · intro key hk
    simp only [List.mem_cons, List.not_mem_nil, or_false, not_or] at hk
    rw [get _ (by tauto) (by tauto), hins, if_neg hk.1, if_neg hk.2.1, if_neg hk.2.2.1, if_neg hk.2.2.2.1]
    simp
  all_goals
    rw [get _ (by decide) (by decide), hins]
    by_cases hp : props "trPr" "ins" tr = []
    · rw [if_pos hp, hnil _ hp]
    · rw [if_neg hp]; simp

/-! ### alignment -/

theorem mostCommon_spec {α : Type} [BEq α] [LawfulBEq α] {l : List α} {x : α} (h : mostCommon l = .ok x) : MostFrequent l x := by
  unfold mostCommon at h
  have key : ∀ (f : Option α → α → Option α), (∀ x, f none x = some x) → (∀ b x, f (some b) x = if l.count b < l.count x then some x else some b) →
      ∀ (todo done : List α) (best : Option α), l = done ++ todo →
      (match best with
        | none => done = []
        | some b => ∃ before after, done = before ++ b :: after ∧ (∀ y ∈ before, l.count y < l.count b) ∧ ∀ y ∈ done, l.count y ≤ l.count b) →
      ∀ b, todo.foldl f best = some b → MostFrequent l b := by
    intro f f1 f2 todo
    induction todo with
    | nil =>
      intro done best hl hb
      rw [List.append_nil] at hl
      subst hl
      intro b e
      cases e
      exact hb
    | cons a todo ih =>
      intro done best hl hb
      rw [List.foldl_cons]
      refine ih (done ++ [a]) _ (by simp [hl]) ?_
      cases best with
      | none =>
        rw [f1]
        simp only at hb ⊢
        subst hb
        exact ⟨[], [], rfl, by simp, by simp⟩
      | some b =>
        rw [f2]
        obtain ⟨before, after, h1, h2, h3⟩ := hb
        by_cases hlt : l.count b < l.count a
        · simp only [hlt, if_true]
          refine ⟨done, [], by simp, ?_, ?_⟩
          · intro y hy
            have := h3 y hy
            omega
          · intro y hy
            rcases List.mem_append.mp hy with hy | hy
            · have := h3 y hy; omega
            · rw [List.mem_singleton] at hy; subst hy; exact Nat.le_refl _
        · simp only [hlt, if_false]
          refine ⟨before, after ++ [a], by rw [h1]; simp, h2, ?_⟩
          intro y hy
          rcases List.mem_append.mp hy with hy | hy
          · exact h3 y hy
          · rw [List.mem_singleton] at hy; subst hy; omega
  split at h
  · cases h
  · rename_i b hb
    cases h
    exact key _ (fun _ => rfl) (fun _ _ => rfl) l [] none rfl rfl _ hb

/-! ### styles of the cells -/

/-- a border element of a `w:tblBorders` or `w:tcBorders` and the style which says what it looks like -/
def BorderReads (cfg : Config) (borders : Option Node) (names : List String) (v : Option StyleVal) : Prop :=
  match borders with
  | none => v = none
  | some b => ∃ size, SizeOf cfg (borderAttr b names "sz") size ∧
      v = borderLine (kindOf (borderAttr b names "val")) size (colorOf (borderAttr b names "color"))

/-- what the styles of a cell say about a `w:tc` -/
structure CellReads (cfg : Config) (tc : Node) (st : Styles) : Prop where
  background : Dict.get? st "background-color" = fillOf (props "tcPr" "shd" tc).head?
  vertical : if props "tcPr" "vAlign" tc = [] then Dict.get? st "vertical-align" = none
    else ∃ v, verticalKind ((propAttr "tcPr" "vAlign" "val" tc).getD "top") = some v ∧ Dict.get? st "vertical-align" = some v
  align : ∃ j, MostFrequent (alignments tc) j ∧
    match j with
    | none => Dict.get? st "align" = none
    | some a => ∃ v, horizontalKind a = some v ∧ Dict.get? st "align" = some v
  borders : ∀ key names, (key, names) ∈ frameSides → BorderReads cfg (props "tcPr" "tcBorders" tc).head? names (Dict.get? st key)
  empty : EmptyCell tc → Dict.get? st "x-cell-empty" = some (.str "true")
  filled : ¬ EmptyCell tc → Dict.get? st "x-cell-empty" = none
  only : ∀ key, key ∉ ["background-color", "vertical-align", "align", "border-top", "border-right", "border-bottom", "border-left",
    "x-border-tr2bl", "x-border-tl2br", "border-collapse", "border-spacing", "box-shadow", "x-cell-empty"] → Dict.get? st key = none

theorem childrenText_eq_empty : ∀ (l : List Node), Node.childrenText l = "" ↔ ∀ n ∈ l, n.nodeText = ""
  | [] => by simp [Node.childrenText]
  | n :: l => by
    unfold Node.childrenText
    have ih := childrenText_eq_empty l
    constructor
    · intro h
      have h' := congrArg String.toList h
      rw [String.toList_append] at h'
      have h1 := List.append_eq_nil_iff.mp h'
      have e1 : n.nodeText = "" := String.toList_inj.mp h1.1
      have e2 : Node.childrenText l = "" := String.toList_inj.mp h1.2
      intro m hm
      rcases List.mem_cons.mp hm with rfl | hm
      · exact e1
      · exact ih.mp e2 m hm
    · intro h
      rw [h n (by simp), ih.mpr (fun m hm => h m (by simp [hm]))]
      rfl

theorem nodeText_setTail_none {n : Node} {t : QName} (h : n.tag? = some t) : (n.setTail none).nodeText = n.innerText := by
  cases n with
  | elem t' a x cs tl => simp [Node.setTail, Node.nodeText, Node.innerText, Node.safeText]
  | pi => cases h
  | comment => cases h

mutual
theorem hasInside_iff (nm : QName) : ∀ n : Node, hasInside nm n = true ↔ ∃ m, Inside m n ∧ m.tag? = some nm
  | .elem t a x cs tl => by
    unfold hasInside
    rw [hasAmong_iff nm cs]
    constructor
    · rintro ⟨c, hc, h | ⟨m, hm, ht⟩⟩
      · exact ⟨c, .child hc, h⟩
      · exact ⟨m, .deep hc hm, ht⟩
    · rintro ⟨m, hm, ht⟩
      cases hm with
      | child hc => exact ⟨m, hc, .inl ht⟩
      | deep hc hd => exact ⟨_, hc, .inr ⟨m, hd, ht⟩⟩
  | .pi a b c => by
    unfold hasInside
    constructor
    · intro h; cases h
    · rintro ⟨m, hm, -⟩
      cases hm with
      | child hc => cases hc
      | deep hc _ => cases hc
  | .comment a b => by
    unfold hasInside
    constructor
    · intro h; cases h
    · rintro ⟨m, hm, -⟩
      cases hm with
      | child hc => cases hc
      | deep hc _ => cases hc
theorem hasAmong_iff (nm : QName) : ∀ l : List Node, hasAmong nm l = true ↔ ∃ c ∈ l, c.tag? = some nm ∨ ∃ m, Inside m c ∧ m.tag? = some nm
  | [] => by simp [hasAmong]
  | n :: l => by
    unfold hasAmong
    have h1 := hasInside_iff nm n
    have h2 := hasAmong_iff nm l
    simp only [Bool.or_eq_true, decide_eq_true_eq, h1, h2, List.mem_cons, exists_eq_or_imp, or_assoc]
end

theorem select_kids (names : List String) (n : Node) : select [names] n = kids names n := by
  unfold select kids
  simp only [List.foldl_cons, List.foldl_nil, List.flatMap_cons, List.flatMap_nil, List.append_nil]
  rfl

theorem tcEmpty_iff (tc : Node) : tcEmpty tc = true ↔ EmptyCell tc := by
  unfold tcEmpty EmptyCell tcContent
  rw [select_kids]
  simp only [Bool.and_eq_true, decide_eq_true_eq, Bool.not_eq_true', ← Bool.not_eq_true, hasInside_iff, childrenText_eq_empty]
  have e : (∀ n ∈ (kids ["p", "tbl"] tc).map (Node.setTail none), n.nodeText = "") ↔ ∀ p ∈ kids ["p", "tbl"] tc, p.innerText = "" := by
    simp only [List.mem_map, forall_exists_index, and_imp, forall_apply_eq_imp_iff₂]
    have : ∀ p ∈ kids ["p", "tbl"] tc, (p.setTail none).nodeText = p.innerText := by
      intro p hp
      unfold kids at hp
      have := (List.mem_filter.mp hp).2
      simp only [decide_eq_true_eq, List.map_cons, List.map_nil, List.mem_cons, List.not_mem_nil, or_false] at this
      rcases this with h | h <;> exact nodeText_setTail_none h
    constructor
    · intro h p hp; rw [← this p hp]; exact h p hp
    · intro h p hp; rw [this p hp]; exact h p hp
  rw [e]
  constructor
  · rintro ⟨⟨h1, h2⟩, h3⟩
    exact ⟨h1, fun m hm => ⟨fun e => h2 ⟨m, hm, e⟩, fun e => h3 ⟨m, hm, e⟩⟩⟩
  · rintro ⟨h1, h2⟩
    exact ⟨⟨h1, fun ⟨m, hm, e⟩ => (h2 m hm).1 e⟩, fun ⟨m, hm, e⟩ => (h2 m hm).2 e⟩

theorem shading_fill (shd : Option Node) : Dict.get? (shading shd) "background-color" = fillOf shd ∧
    ∀ key, key ≠ "background-color" → Dict.get? (shading shd) key = none := by
  unfold shading fillOf
  cases shd with
  | none => exact ⟨rfl, fun _ _ => rfl⟩
  | some e =>
    have : attrOf (some e) [] "fill" = e.attr (name "fill") := by
      unfold attrOf select
      simp only [List.foldl_nil, List.findSome?_cons, List.findSome?_nil]
      show _ = e.attr (w "fill")
      cases e.attr (w "fill") <;> rfl
    rw [this]
    show _ = (match e.attr (name "fill") with
      | none => none
      | some c => if c = "auto" then none else some (StyleVal.str ("#" ++ c))) ∧ _
    generalize e.attr (name "fill") = v
    cases v with
    | none => exact ⟨rfl, fun _ _ => rfl⟩
    | some v =>
      by_cases h : v = "auto"
      · simp [h, Dict.get?_nil]
      · simp only [h, if_false]
        refine ⟨by rw [Dict.get?_cons, if_pos rfl], fun key hk => ?_⟩
        rw [Dict.get?_cons, if_neg (Ne.symm hk), Dict.get?_nil]

theorem vAlign_spec {tc : Node} {st : Styles} (h : vAlign tc = .ok st) :
    (if props "tcPr" "vAlign" tc = [] then Dict.get? st "vertical-align" = none
      else ∃ v, verticalKind ((propAttr "tcPr" "vAlign" "val" tc).getD "top") = some v ∧ Dict.get? st "vertical-align" = some v) ∧
    Dict.WF st ∧ ∀ key, key ≠ "vertical-align" → Dict.get? st key = none := by
  unfold vAlign at h
  rw [nodeOf_prop] at h
  cases hp : (props "tcPr" "vAlign" tc).head? with
  | none =>
    rw [hp] at h
    cases h
    rw [if_pos (head?_none hp)]
    exact ⟨rfl, Dict.wf_nil, fun _ _ => rfl⟩
  | some e =>
    rw [hp] at h
    simp only [attrOf_prop] at h
    rw [if_neg (head?_some hp)]
    generalize (propAttr "tcPr" "vAlign" "val" tc).getD "top" = v at h ⊢
    cases hg : Dict.get? [("top", "top"), ("center", "middle"), ("bottom", "bottom"), ("both", "w-both")] v with
    | none => rw [hg] at h; cases h
    | some a =>
      rw [hg] at h
      cases h
      refine ⟨⟨.str a, ?_, by rw [Dict.get?_cons, if_pos rfl]⟩, by simp [Dict.WF], fun key hk => ?_⟩
      · simp only [Dict.get?_cons, Dict.get?_nil] at hg
        unfold verticalKind
        simp only [eq_comm (a := v)]
        (repeat' split at hg) <;> try cases hg
        all_goals (subst_vars; simp)
      · rw [Dict.get?_cons, if_neg (Ne.symm hk), Dict.get?_nil]

theorem hAlign_spec {tc : Node} {st : Styles} (h : hAlign tc = .ok st) :
    (∃ j, MostFrequent (alignments tc) j ∧
      match j with
      | none => Dict.get? st "align" = none
      | some a => ∃ v, horizontalKind a = some v ∧ Dict.get? st "align" = some v) ∧
    Dict.WF st ∧ ∀ key, key ≠ "align" → Dict.get? st key = none := by
  unfold hAlign at h
  obtain ⟨j, h1, h2⟩ := Benker.bind_ok h
  have hm := mostCommon_spec h1
  rw [select_kids, show (fun p => attrOf (some p) [["pPr"], ["jc"]] "val") = propAttr "pPr" "jc" "val" from
    funext (fun p => attrOf_prop "pPr" "jc" "val" p)] at hm
  cases j with
  | none => cases h2; exact ⟨⟨none, hm, rfl⟩, Dict.wf_nil, fun _ _ => rfl⟩
  | some v =>
    simp only at h2
    cases hg : Dict.get? [("start", "left"), ("end", "right"), ("left", "left"), ("right", "right"), ("center", "center"),
        ("both", "justify"), ("distribute", "justify")] v with
    | none => rw [hg] at h2; cases h2
    | some a =>
      rw [hg] at h2
      cases h2
      refine ⟨⟨some v, hm, .str a, ?_, by rw [Dict.get?_cons, if_pos rfl]⟩, by simp [Dict.WF], fun key hk => ?_⟩
      · simp only [Dict.get?_cons, Dict.get?_nil] at hg
        unfold horizontalKind
        simp only [eq_comm (a := v)]
        (repeat' split at hg) <;> try cases hg
        all_goals (subst_vars; simp)
      · rw [Dict.get?_cons, if_neg (Ne.symm hk), Dict.get?_nil]

theorem tableBorders_spec {cfg : Config} {b : Option Node} {st : Styles} (h : tableBorders cfg b = .ok st) :
    (∀ key names, (key, names) ∈ frameSides → BorderReads cfg b names (Dict.get? st key)) ∧
    ∀ key, key ∉ ["border-top", "border-right", "border-bottom", "border-left", "x-border-tr2bl", "x-border-tl2br", "border-collapse",
      "border-spacing", "box-shadow"] → Dict.get? st key = none := by
  cases b with
  | none => cases h; exact ⟨fun _ _ _ => rfl, fun _ _ => rfl⟩
  | some b =>
    constructor
    · intro key names hmem
      have hp : key ≠ "border-collapse" ∧ key ≠ "border-spacing" ∧ key ≠ "box-shadow" := by
        simp only [frameSides, List.mem_cons, Prod.mk.injEq, List.not_mem_nil, or_false] at hmem
        rcases hmem with ⟨rfl, -⟩ | ⟨rfl, -⟩ | ⟨rfl, -⟩ | ⟨rfl, -⟩ | ⟨rfl, -⟩ | ⟨rfl, -⟩ <;> decide
      exact (bordersOf_get h (by decide) key hp.1 hp.2.1 hp.2.2).1 names hmem
    · intro key hk
      simp only [List.mem_cons, List.not_mem_nil, or_false, not_or] at hk
      refine (bordersOf_get h (by decide) key hk.2.2.2.2.2.2.1 hk.2.2.2.2.2.2.2.1 hk.2.2.2.2.2.2.2.2).2 ?_
      intro names hmem
      simp only [List.mem_cons, Prod.mk.injEq, List.not_mem_nil, or_false] at hmem
      rcases hmem with ⟨rfl, -⟩ | ⟨rfl, -⟩ | ⟨rfl, -⟩ | ⟨rfl, -⟩ | ⟨rfl, -⟩ | ⟨rfl, -⟩ <;> simp_all

theorem cell_reads {cfg : Config} {tc : Node} {st : Styles} (h : tcStyles cfg tc = .ok st) : CellReads cfg tc st := by
  unfold tcStyles at h
  simp only [nodeOf_prop] at h
  obtain ⟨va, h1, h2⟩ := Benker.bind_ok h
  obtain ⟨ha, h3, h4⟩ := Benker.bind_ok h2
  obtain ⟨bs, h5, h6⟩ := Benker.bind_ok h4
  obtain ⟨v1, v2, v3⟩ := vAlign_spec h1
  obtain ⟨a1, a2, a3⟩ := hAlign_spec h3
  obtain ⟨b1, b3⟩ := tableBorders_spec h5
  have b2 := wf_bordersOf h5
  obtain ⟨s1, s3⟩ := shading_fill (props "tcPr" "shd" tc).head?
  have get : ∀ key, key ≠ "x-cell-empty" → Dict.get? st key =
      ((Dict.get? bs key).or ((Dict.get? ha key).or ((Dict.get? va key).or (Dict.get? (shading (props "tcPr" "shd" tc).head?) key)))) := by
    intro key hk
    rw [← Except.ok.inj h6]
    have : ∀ d : Styles, Dict.get? (if tcEmpty tc then Dict.set d "x-cell-empty" (.str "true") else d) key = Dict.get? d key := by
      intro d
      split
      · rw [Dict.get?_set, if_neg (Ne.symm hk)]
      · rfl
    rw [this, Dict.get?_update b2, Dict.get?_update a2, Dict.get?_update v2]
  have hempty : Dict.get? st "x-cell-empty" = if tcEmpty tc then some (.str "true") else none := by
    rw [← Except.ok.inj h6]
    split
    · rw [Dict.get?_set, if_pos rfl]
    · rw [Dict.get?_update b2, Dict.get?_update a2, Dict.get?_update v2, b3 _ (by decide), a3 _ (by decide), v3 _ (by decide), s3 _ (by decide)]
      rfl
  refine ⟨?_, ?_, ?_, ?_, ?_, ?_, ?_⟩
  · rw [get _ (by decide), b3 _ (by decide), a3 _ (by decide), v3 _ (by decide), s1]; rfl
  · have : Dict.get? st "vertical-align" = Dict.get? va "vertical-align" := by
      rw [get _ (by decide), b3 _ (by decide), a3 _ (by decide), s3 _ (by decide)]; simp
    rw [this]; exact v1
  · have : Dict.get? st "align" = Dict.get? ha "align" := by
      rw [get _ (by decide), b3 _ (by decide), v3 _ (by decide), s3 _ (by decide)]; simp
    rw [this]; exact a1
  · intro key names hm
    have : Dict.get? st key = Dict.get? bs key := by
      have hk : key ≠ "x-cell-empty" ∧ key ≠ "align" ∧ key ≠ "vertical-align" ∧ key ≠ "background-color" := by
        simp only [frameSides, List.mem_cons, Prod.mk.injEq, List.not_mem_nil, or_false] at hm
        rcases hm with ⟨rfl, -⟩ | ⟨rfl, -⟩ | ⟨rfl, -⟩ | ⟨rfl, -⟩ | ⟨rfl, -⟩ | ⟨rfl, -⟩ <;> decide
      rw [get _ hk.1, a3 _ hk.2.1, v3 _ hk.2.2.1, s3 _ hk.2.2.2]; simp
    rw [this]
    exact b1 key names hm
  · intro he; rw [hempty, if_pos ((tcEmpty_iff tc).mpr he)]
  · intro he; rw [hempty, if_neg (fun e => he ((tcEmpty_iff tc).mp e))]
  · intro key hk
    simp only [List.mem_cons, List.not_mem_nil, or_false, not_or] at hk
    rw [get _ (by tauto), b3 _ (by simp; tauto), a3 _ (by tauto), v3 _ (by tauto), s3 _ (by tauto)]
    rfl

/-! ### C54: kinds of lines -/

/-- **C54 (lines)**: each kind of line of Word keeps its name: the name of CSS if there is one, otherwise the words of the name of Word
prefixed by `w-`; a name which is not known is kept as it is, prefixed by `w-`. -/
theorem C54_line_kinds (v : String) :
    (v ∈ lineNames → (borderVal v).toList = lineKind v) ∧ ((borderVal v).toList = lineKind v ∨ (borderVal v).toList = "w-".toList ++ v.toList) := by
  constructor
  · have : ∀ v ∈ lineNames, (borderVal v).toList = lineKind v := by decide +kernel
    exact this v
  · have table : ∀ p ∈ borderStyleMapping, p.2.toList = lineKind p.1 := by decide +kernel
    by_cases h : v = "nil"
    · subst h; left; decide +kernel
    · unfold borderVal
      simp only [if_neg h]
      cases hg : Dict.get? borderStyleMapping v with
      | none => right; exact String.toList_append
      | some x =>
        left
        unfold Dict.get? at hg
        cases hf : borderStyleMapping.find? (fun p => decide (p.1 = v)) with
        | none => rw [hf] at hg; cases hg
        | some p =>
          rw [hf] at hg
          cases hg
          have hm := List.mem_of_find?_eq_some hf
          have he : p.1 = v := by simpa using List.find?_some hf
          rw [← he]
          exact table p hm

/-! ### C67: rows -/

/-- the styles read for a row of a good table -/
theorem good_rows {cfg : Config} {sect : Option Node} {styles : Node → Styles} {nature : Node → String} {W : Nat} {tbl : Node}
    (h : GoodTable cfg sect styles nature W tbl) {tr : Node} (htr : tr ∈ kids ["tr"] tbl) : GoodRow cfg styles nature W tr := by
  obtain ⟨head, rows, hch, hhead, hrows⟩ := h.children
  unfold kids at htr
  rw [hch] at htr
  have hm := List.mem_filter.mp htr
  have htag : tr.tag? = some (name "tr") := by simpa using hm.2
  rcases List.mem_append.mp hm.1 with h1 | h1
  · exfalso
    rcases hhead tr h1 with hq | ⟨ht, _⟩
    · exact quiet_tag hq "tr" (by simp) htag
    · rw [htag] at ht; exact name_ne (by decide) (Option.some.inj ht)
  · rcases hrows tr h1 with hq | ⟨_, hg⟩
    · exact absurd htag (quiet_tag hq "tr" (by simp))
    · exact hg

/-- **C67.** For every Word table which can be read: the table has one row for each `w:tr`, in the same order, numbered from 1; a row is a
header if and only if Word repeats it (`w:tblHeader` is there, and is not `false`), otherwise it belongs to the body; and the styles of the row
say if it is inserted, and by whom, when and in which revision. -/
theorem C67_rows (cfg : Config) (sect : Option Node) (styles : Node → Styles) (nature : Node → String) (W : Nat) (tbl : Node)
    (h : GoodTable cfg sect styles nature W tbl) (s : PState) :
    ∃ t s' rows, parseTable cfg sect tbl s = (.ok (some t), s') ∧ eval (Table.views .row) t = .ok rows ∧
      rows.length = (kids ["tr"] tbl).length ∧
      ∀ (i : Nat) (tr : Node), (kids ["tr"] tbl)[i]? = some tr → ∃ row, rows[i]? = some row ∧ row.pos = i + 1 ∧
        row.nature = some (natureOfRow tr) ∧ RowMarks tr row.styles := by
  obtain ⟨t, s', st, nat, h1, h2, h3, h4, h5⟩ := word_reading cfg sect styles nature W tbl h s
  refine ⟨t, s', t.baseViews .row, h1, ?_, h4.rows, ?_⟩
  · unfold eval; rw [Table.views_run .row t h4.inv.grid]
  · intro i tr hi
    obtain ⟨vs, v, e1, e2, e3, e4⟩ := h5.rows i (some (nature tr), rowLooks cfg tr) (by simp [rowsLooks, List.getElem?_map, hi])
    have eb : t.baseViews .row = vs := by unfold baseViews; rw [e1]; rfl
    have hg := good_rows h (List.mem_of_getElem? hi)
    refine ⟨v, by rw [eb]; exact e2, ?_, ?_, ?_⟩
    · have hd := (base_describes h4.inv .row).pos i
      rw [eb] at hd
      obtain ⟨hl, he⟩ := List.getElem?_eq_some_iff.mp e2
      rw [← he]; exact hd hl
    · rw [e3]
      show some (nature tr) = _
      rw [rowNature_kind hg.nature]
    · rw [e4]; exact rowLooks_marks cfg tr hg.height

/-! ### C68: columns -/

/-- **C68.** For every Word table which can be read, with at least one row: there are as many columns as in the rows, numbered from 1, and the
width of the column described by the `i`-th `w:gridCol` is a text `…pt` whose number, with two decimals, is the value of `w:w` in twentieths
of a point, rounded. -/
theorem C68_columns (cfg : Config) (hfl : FloatModel cfg.fl) (sect : Option Node) (styles : Node → Styles) (nature : Node → String) (W : Nat)
    (tbl : Node) (h : GoodTable cfg sect styles nature W tbl) (hrow : kids ["tr"] tbl ≠ []) (s : PState) :
    ∃ t s' cols, parseTable cfg sect tbl s = (.ok (some t), s') ∧ eval (Table.views .col) t = .ok cols ∧ cols.length = W ∧
      ∀ (i : Nat) (g : Node), ((kids ["tblGrid"] tbl).flatMap (kids ["gridCol"]))[i]? = some g → ∃ col, cols[i]? = some col ∧ col.pos = i + 1 ∧
        col.nature = none ∧
        ∃ text x sign ip fp, g.attr (name "w") = some text ∧ cfg.float text = .ok x ∧
          col.styles = [("width", .str (String.ofList (decimalText sign ip fp ++ ['p', 't'])))] ∧
          (sign = [] ∨ sign = ['+'] ∨ sign = ['-']) ∧ (∀ d ∈ ip, d < 10) ∧ (∀ d ∈ fp, d < 10) ∧ ip ≠ [] ∧
          |decimal (sign = ['-']) ip fp - x / 20| ≤ 1 / 200 + |x / 20| / 2 ^ 53 := by
  obtain ⟨t, s', st, nat, h1, h2, h3, h4, h5⟩ := word_reading cfg sect styles nature W tbl h s
  have hr : 1 ≤ (kids ["tr"] tbl).length := by
    cases hk : kids ["tr"] tbl with
    | nil => exact absurd hk hrow
    | cons a l => simp
  refine ⟨t, s', t.baseViews .col, h1, ?_, h4.colsFull hr h.wide, ?_⟩
  · unfold eval; rw [Table.views_run .col t h4.inv.grid]
  · intro i g hi
    obtain ⟨vs, v, e1, e2, e3, e4⟩ := h5.cols i (colLooks cfg g) (by simp [rowsLooks, List.getElem?_map, hi])
    have eb : t.baseViews .col = vs := by unfold baseViews; rw [e1]; rfl
    refine ⟨v, by rw [eb]; exact e2, ?_, e3, ?_⟩
    · have hd := (base_describes h4.inv .col).pos i
      rw [eb] at hd
      obtain ⟨hl, he⟩ := List.getElem?_eq_some_iff.mp e2
      rw [← he]; exact hd hl
    · have hg : ∃ v x, g.attr (name "w") = some v ∧ cfg.float v = .ok x := by
        obtain ⟨head, rows, hch, hhead, hrows⟩ := h.children
        have hm := List.mem_of_getElem? hi
        obtain ⟨tg, htg, hgt⟩ := List.mem_flatMap.mp hm
        unfold kids at htg hgt
        rw [hch] at htg
        have htag : tg.tag? = some (name "tblGrid") := by simpa using (List.mem_filter.mp htg).2
        have hgtag : g.tag? = some (name "gridCol") := by simpa using (List.mem_filter.mp hgt).2
        have good : GoodGrid cfg tg := by
          rcases List.mem_append.mp (List.mem_filter.mp htg).1 with hm | hm
          · rcases hhead tg hm with hq | ⟨_, hg⟩
            · exact absurd htag (quiet_tag hq "tblGrid" (by simp))
            · exact hg
          · rcases hrows tg hm with hq | ⟨ht, _⟩
            · exact absurd htag (quiet_tag hq "tblGrid" (by simp))
            · rw [htag] at ht; exact absurd (Option.some.inj ht) (name_ne (by decide))
        rcases good.cols g (List.mem_filter.mp hgt).1 with hq | ⟨_, _, hg⟩
        · exact absurd hgtag (quiet_tag hq "gridCol" (by simp))
        · exact hg
      obtain ⟨text, x, ha, hx⟩ := hg
      obtain ⟨sign, ip, fp, f1, f2, f3, f4, f5, f6⟩ := format2_text (cfg.fl (x / 20))
      refine ⟨text, x, sign, ip, fp, ha, hx, ?_, f2, f3, f4, f5, ?_⟩
      · rw [e4]
        unfold colLooks twipsText
        rw [ha]
        simp only [hx, Except.map]
        rw [f1]
      · rw [f6]
        have r1 := roundEven_error (cfg.fl (x / 20) * 100)
        have r2 := hfl (x / 20)
        generalize (roundEven (cfg.fl (x / 20) * 100) : Rat) = n at *
        generalize cfg.fl (x / 20) = y at *
        have : n / 100 - x / 20 = (n - y * 100) / 100 + (y - x / 20) := by ring
        rw [this]
        refine le_trans (abs_add_le _ _) ?_
        have : |(n - y * 100) / 100| ≤ 1 / 200 := by
          rw [abs_div, abs_of_pos (show (0 : Rat) < 100 by norm_num)]
          linarith
        linarith

/-! ### C69: cells -/

/-- the cells of a table and the styles which are computed for them -/
theorem cells_styles (cfg : Config) (sect : Option Node) (styles : Node → Styles) (nature : Node → String) (W : Nat) (tbl : Node)
    (h : GoodTable cfg sect styles nature W tbl) (s : PState) :
    ∃ t s', parseTable cfg sect tbl s = (.ok (some t), s') ∧
      ∀ (i : Nat) (tr : Node), (kids ["tr"] tbl)[i]? = some tr → ∀ slot ∈ place 0 (kids ["tc"] tr), continues slot.2 = false →
        ∃ cell ∈ t.grid.cells, cell.min = ⟨slot.1, i + 1⟩ ∧ cell.content = paragraphs slot.2 ∧
          cell.nature = some (natureOfRow tr) ∧ tcStyles cfg slot.2 = .ok cell.styles := by
  obtain ⟨t, s', h1, h2⟩ := C55_merged_cells cfg sect styles nature W tbl h s
  refine ⟨t, s', h1, ?_⟩
  intro i tr hi slot hslot hcont
  have hg := good_rows h (List.mem_of_getElem? hi)
  have hmem : ∀ (trs : List Node) (i : Nat) (r : Int), trs[i]? = some tr →
      ∃ cell ∈ wanted paragraphs styles r (trs.map (fun tr => (nature tr, kids ["tc"] tr))), cell.min = ⟨slot.1, r + i⟩ ∧
        cell.content = paragraphs slot.2 ∧ cell.nature = some (nature tr) ∧ cell.styles = styles slot.2 := by
    intro trs
    induction trs with
    | nil => intro i r hi; simp at hi
    | cons a l ih =>
      intro i r hi
      cases i with
      | zero =>
        simp only [List.getElem?_cons_zero, Option.some.injEq] at hi
        subst hi
        have hm : ⟨paragraphs slot.2, styles slot.2, some (nature a), ⟨⟨slot.1, r⟩, ⟨slot.1 + span slot.2 - 1,
            r + run slot.1 ((l.map (fun tr => (nature tr, kids ["tc"] tr))).map (·.2))⟩⟩⟩ ∈
            wanted paragraphs styles r ((a :: l).map (fun tr => (nature tr, kids ["tc"] tr))) := by
          rw [List.map_cons, wanted]
          exact List.mem_append_left _ (List.mem_map.mpr ⟨slot, List.mem_filter.mpr ⟨hslot, by simp [hcont]⟩, rfl⟩)
        exact ⟨_, hm, by simp [Cell.min], rfl, rfl, rfl⟩
      | succ i =>
        rw [List.getElem?_cons_succ] at hi
        obtain ⟨cell, h1, h2, h3⟩ := ih i (r + 1) hi
        refine ⟨cell, ?_, ?_, h3⟩
        · simp only [List.map_cons, wanted, List.mem_append]
          exact .inr h1
        · rw [h2]; congr 1; push_cast; omega
  obtain ⟨cell, c1, c2, c3, c4, c5⟩ := hmem _ i 1 hi
  rw [← h2] at c1
  refine ⟨cell, c1, ?_, c3, ?_, ?_⟩
  · rw [c2]; congr 1; omega
  · rw [c4, rowNature_kind hg.nature]
  · have hplace : ∀ (l : List Node) (c : Int), slot ∈ place c l → slot.2 ∈ l := by
      intro l
      induction l with
      | nil => intro c hc; cases hc
      | cons a l ih =>
        intro c hc
        rcases List.mem_cons.mp hc with rfl | hc
        · simp
        · exact List.mem_cons_of_mem _ (ih _ hc)
    have hk := hplace _ _ hslot
    unfold kids at hk
    have htag : slot.2.tag? = some (name "tc") := by simpa using (List.mem_filter.mp hk).2
    rcases hg.cells slot.2 (List.mem_filter.mp hk).1 with hq | ⟨_, hgood⟩
    · exact absurd htag (quiet_tag hq "tc" (by simp))
    · rw [c5]; exact hgood.style hcont

/-- **C69.** For every Word table which can be read, for every `w:tc` which does not continue another one: there is a cell at its row and
column, with its paragraphs, the nature of its row, and styles which say its background color, its vertical alignment, its horizontal
alignment (the most frequent of its paragraphs), its borders and if it is empty; and nothing else. -/
theorem C69_cells (cfg : Config) (sect : Option Node) (styles : Node → Styles) (nature : Node → String) (W : Nat) (tbl : Node)
    (h : GoodTable cfg sect styles nature W tbl) (s : PState) :
    ∃ t s', parseTable cfg sect tbl s = (.ok (some t), s') ∧
      ∀ (i : Nat) (tr : Node), (kids ["tr"] tbl)[i]? = some tr → ∀ slot ∈ place 0 (kids ["tc"] tr), continues slot.2 = false →
        ∃ cell ∈ t.grid.cells, cell.min = ⟨slot.1, i + 1⟩ ∧ cell.content = paragraphs slot.2 ∧
          cell.nature = some (natureOfRow tr) ∧ CellReads cfg slot.2 cell.styles := by
  obtain ⟨t, s', h1, h2⟩ := cells_styles cfg sect styles nature W tbl h s
  refine ⟨t, s', h1, ?_⟩
  intro i tr hi slot hslot hcont
  obtain ⟨cell, c1, c2, c3, c4, c5⟩ := h2 i tr hi slot hslot hcont
  exact ⟨cell, c1, c2, c3, c4, cell_reads c5⟩

/-! ### C70: table -/

/-- the size of the page, in points, rounded up to integers -/
def PageSize (cfg : Config) (pg : Option Node) (v : Option StyleVal) : Prop :=
  match pg with
  | none => v = none
  | some pg => match pg.attr (name "w"), pg.attr (name "h") with
    | some w, some h => ∃ x y, cfg.float w = .ok x ∧ cfg.float h = .ok y ∧ v = some (.pair (cfg.fl (x / 20)).ceil (cfg.fl (y / 20)).ceil)
    | _, _ => v = none

/-- what a table says about a `w:tbl` -/
structure TableReads (cfg : Config) (sect : Option Node) (tbl : Node) (t : Table Content) : Prop where
  nature : t.nature = propAttr "tblPr" "tblStyle" "val" tbl
  background : Dict.get? t.styles "background-color" = fillOf (props "tblPr" "shd" tbl).head?
  orientation : Dict.get? t.styles "x-sect-orient" =
    (sect.bind (fun n => (kids ["pgSz"] n).head?)).bind (fun pg => (pg.attr (name "orient")).map StyleVal.str)
  size : PageSize cfg (sect.bind (fun n => (kids ["pgSz"] n).head?)) (Dict.get? t.styles "x-sect-size")
  columns : ∃ v, TextColumns sect v ∧ Dict.get? t.styles "x-sect-cols" = some (.str v)
  plain : propAttr "tblPr" "tblStyle" "val" tbl = none ∨ cfg.styles = none → ∀ key names, (key, names) ∈ frameSides →
    BorderReads cfg (props "tblPr" "tblBorders" tbl).head? names (Dict.get? t.styles key)
  plainInside : propAttr "tblPr" "tblStyle" "val" tbl = none ∨ cfg.styles = none → ∀ key names, (key, names) ∈ insideSides →
    Dict.get? t.styles ("x-cell-" ++ key) = none
  noWidth : Dict.get? t.styles "width" = none
  styled : ∀ sheet id chain own, cfg.styles = some sheet → propAttr "tblPr" "tblStyle" "val" tbl = some id → Chain sheet id chain →
    chain.length < cfg.limit → All₂ (fun s o => ownBorders cfg s = .ok o) chain own →
    (∀ key names, (key, names) ∈ frameSides → ∃ v, BorderReads cfg (props "tblPr" "tblBorders" tbl).head? names v ∧
      Dict.get? t.styles key = v.or (own.findSome? (fun o => Dict.get? o key))) ∧
    (∀ key names, (key, names) ∈ insideSides →
      Dict.get? t.styles ("x-cell-" ++ key) = own.findSome? (fun o => Dict.get? o ("x-cell-" ++ key)))

theorem styleBorders_no_sheet (cfg : Config) (n : Nat) (id : Option String) : styleBorders cfg none (n + 1) id = .ok [] := by
  cases id <;> rfl

theorem styleBorders_no_id (cfg : Config) (n : Nat) (sheet : Option Node) : styleBorders cfg sheet (n + 1) none = .ok [] := by
  cases sheet <;> rfl

/-- the borders of a stylesheet define nothing else -/
theorem styleBorders_only {cfg : Config} {sheet : Option Node} {key : String} (hp : "x-cell-".toList.isPrefixOf key.toList = false)
    (hk : key ∉ ["border-top", "border-right", "border-bottom", "border-left", "x-border-tr2bl", "x-border-tl2br", "border-collapse",
      "border-spacing", "box-shadow"]) : ∀ (limit : Nat) (id : Option String) {st : Styles}, styleBorders cfg sheet limit id = .ok st →
    Dict.get? st key = none := by
  intro limit
  induction limit with
  | zero => intro id st h; cases h
  | succ n ih =>
    intro id st h
    cases sheet with
    | none => rw [styleBorders_no_sheet] at h; cases h; rfl
    | some sheet =>
    cases id with
    | none => rw [styleBorders_no_id] at h; cases h; rfl
    | some id =>
      rw [styleBorders] at h
      cases hf : findStyle sheet id with
      | none => simp only [hf] at h; cases h; rfl
      | some style =>
        simp only [hf] at h
        obtain ⟨p, h1, h2⟩ := Benker.bind_ok h
        obtain ⟨c, h3, h4⟩ := Benker.bind_ok h2
        rw [← Except.ok.inj h4, Dict.get?_update (wf_own h3), ih _ h1, Option.or_none]
        unfold ownBorders at h3
        obtain ⟨tb, h5, h6⟩ := Benker.bind_ok h3
        obtain ⟨cb, h7, h8⟩ := Benker.bind_ok h6
        rw [← Except.ok.inj h8, Dict.get?_update (wf_prefixed (wf_bordersOf h7)), get?_prefixed_none _ _ hp, (tableBorders_spec h5).2 _ hk]
        rfl

theorem wf_styleBorders {cfg : Config} {sheet : Option Node} (limit : Nat) (id : Option String) {st : Styles}
    (h : styleBorders cfg sheet limit id = .ok st) : Dict.WF st := by
  cases limit with
  | zero => cases h
  | succ n =>
    cases sheet with
    | none => rw [styleBorders_no_sheet] at h; cases h; exact Dict.wf_nil
    | some sheet =>
    cases id with
    | none => rw [styleBorders_no_id] at h; cases h; exact Dict.wf_nil
    | some id =>
      rw [styleBorders] at h
      cases hf : findStyle sheet id with
      | none => simp only [hf] at h; cases h; exact Dict.wf_nil
      | some style =>
        simp only [hf] at h
        obtain ⟨p, h1, h2⟩ := Benker.bind_ok h
        obtain ⟨c, h3, h4⟩ := Benker.bind_ok h2
        rw [← Except.ok.inj h4]
        exact Dict.wf_update (wf_styleBorders n _ h1) c

theorem attrOf_none (path : List (List String)) (attr : String) : attrOf none path attr = none := rfl

theorem attrOf_self (n : Node) (attr : String) : attrOf (some n) [] attr = n.attr (name attr) := by
  unfold attrOf select
  simp only [List.foldl_nil, List.findSome?_cons, List.findSome?_nil]
  show _ = n.attr (w attr)
  cases n.attr (w attr) <;> rfl

theorem nodeOf_one (sect : Option Node) (nm : String) : nodeOf sect [[nm]] = sect.bind (fun n => (kids [nm] n).head?) := by
  cases sect with
  | none => rfl
  | some n => show (select [[nm]] n).head? = _; rw [select_kids]; rfl

theorem sectCols_spec (sect : Option Node) : TextColumns sect (sectCols sect) := by
  unfold sectCols
  cases sect with
  | none => exact .none rfl
  | some n =>
    have e : attrOf (some n) [["cols"]] "num" = (kids ["cols"] n).findSome? (fun c => c.attr (name "num")) := by
      show (select [["cols"]] n).findSome? _ = _
      rw [select_kids]; rfl
    simp only [e, select_two]
    cases hn : (kids ["cols"] n).findSome? (fun c => c.attr (name "num")) with
    | some v => exact .num rfl hn
    | none =>
      simp only
      have e2 : ((kids ["cols"] n).flatMap (kids ["col"])).length = 0 ↔ (kids ["cols"] n).flatMap (kids ["col"]) = [] := List.length_eq_zero_iff
      split
      · exact .one rfl hn (e2.mp ‹_›)
      · exact .count rfl hn (fun e => absurd (e2.mpr e) ‹_›)

theorem pageStyles_spec {cfg : Config} {pg : Option Node} {st : Styles} (h : pageStyles cfg pg = .ok st) :
    Dict.get? st "x-sect-orient" = pg.bind (fun pg => (pg.attr (name "orient")).map StyleVal.str) ∧
    PageSize cfg pg (Dict.get? st "x-sect-size") ∧
    Dict.WF st ∧ ∀ key, key ≠ "x-sect-orient" → key ≠ "x-sect-size" → Dict.get? st key = none := by
  unfold pageStyles at h
  cases pg with
  | none =>
    simp only [attrOf_none] at h
    cases h
    exact ⟨rfl, rfl, Dict.wf_nil, fun _ _ _ => rfl⟩
  | some pg =>
    simp only [attrOf_self] at h
    obtain ⟨a, h1, h2⟩ := Benker.bind_ok h
    obtain ⟨b, h3, h4⟩ := Benker.bind_ok h2
    have h4 := Except.ok.inj h4
    generalize ho' : pg.attr (name "orient") = o at *
    have ho : ∀ key, Dict.get? st key = if key = "x-sect-size" then a.bind (fun a => b.map (fun b => StyleVal.pair a.ceil b.ceil))
        else if key = "x-sect-orient" then o.map StyleVal.str else none := by
      intro key
      rw [← h4]
      by_cases k1 : key = "x-sect-size"
      · subst k1
        cases a <;> cases b <;> cases o <;> rfl
      · rw [if_neg k1]
        by_cases k2 : key = "x-sect-orient"
        · subst k2
          cases a <;> cases b <;> cases o <;> rfl
        · rw [if_neg k2]
          cases a <;> cases b <;> cases o <;> simp [Dict.get?_cons, Dict.get?_nil, Ne.symm k1, Ne.symm k2]
    have hw : Dict.WF st := by
      rw [← h4]
      unfold Dict.WF
      cases a <;> cases b <;> cases o <;> simp
    simp only [Option.bind_some]
    refine ⟨?_, ?_, hw, ?_⟩
    · rw [ho, if_neg (by decide), if_pos rfl, ho']
    · have twip : ∀ (v : Option String) (a : Option Rat), twips cfg v = .ok a → (v = none ∧ a = none) ∨
          ∃ t x, v = some t ∧ cfg.float t = .ok x ∧ a = some (cfg.fl (x / 20)) := by
        intro v a ha
        cases v with
        | none => cases ha; exact .inl ⟨rfl, rfl⟩
        | some t =>
          have ha : (cfg.float t).map (fun x => some (cfg.fl (x / 20))) = .ok a := ha
          cases hx : cfg.float t with
          | error e => rw [hx] at ha; cases ha
          | ok x => rw [hx] at ha; cases ha; exact .inr ⟨t, x, rfl, hx, rfl⟩
      unfold PageSize
      rw [ho, if_pos rfl]
      rcases twip _ _ h1 with ⟨e1, rfl⟩ | ⟨t, x, e1, e2, rfl⟩
      · simp only [e1]; rfl
      · rcases twip _ _ h3 with ⟨e3, rfl⟩ | ⟨t', y, e3, e4, rfl⟩
        · simp only [e1, e3]; rfl
        · simp only [e1, e3]
          exact ⟨x, y, e2, e4, rfl⟩
    · intro key k1 k2
      rw [ho, if_neg k2, if_neg k1]

theorem table_reads {cfg : Config} {sect : Option Node} {tbl : Node} {st : Styles} (h : tblStyles cfg sect tbl = .ok st) {t : Table Content}
    (hs : t.styles = st) (hn : t.nature = attrOf (some tbl) [["tblPr"], ["tblStyle"]] "val") : TableReads cfg sect tbl t := by
  unfold tblStyles at h
  rw [attrOf_prop] at h hn
  simp only [nodeOf_prop, nodeOf_one] at h
  obtain ⟨inh, h1, h2⟩ := Benker.bind_ok h
  obtain ⟨tb, h3, h4⟩ := Benker.bind_ok h2
  obtain ⟨pg, h5, h6⟩ := Benker.bind_ok h4
  have h6 := Except.ok.inj h6
  obtain ⟨b1, b3⟩ := tableBorders_spec h3
  obtain ⟨p1, p2, p3, p4⟩ := pageStyles_spec h5
  obtain ⟨s1, s3⟩ := shading_fill (props "tblPr" "shd" tbl).head?
  have ws : Dict.WF (shading (props "tblPr" "shd" tbl).head?) := by
    unfold shading
    split
    · exact Dict.wf_nil
    · split
      · exact Dict.wf_nil
      · simp [Dict.WF]
  have get : ∀ key, key ≠ "x-sect-cols" → Dict.get? t.styles key = ((Dict.get? pg key).or
      ((Dict.get? (shading (props "tblPr" "shd" tbl).head?) key).or ((Dict.get? tb key).or (Dict.get? inh key)))) := by
    intro key hk
    rw [hs, ← h6, Dict.get?_set, if_neg (Ne.symm hk), Dict.get?_update p3, Dict.get?_update ws, Dict.get?_update (wf_bordersOf h3)]
  have hbord : ∀ key names, (key, names) ∈ frameSides → Dict.get? t.styles key = (Dict.get? tb key).or (Dict.get? inh key) := by
    intro key names hm
    have hk : key ≠ "x-sect-cols" ∧ key ≠ "x-sect-orient" ∧ key ≠ "x-sect-size" ∧ key ≠ "background-color" := by
      simp only [frameSides, List.mem_cons, Prod.mk.injEq, List.not_mem_nil, or_false] at hm
      rcases hm with ⟨rfl, -⟩ | ⟨rfl, -⟩ | ⟨rfl, -⟩ | ⟨rfl, -⟩ | ⟨rfl, -⟩ | ⟨rfl, -⟩ <;> decide
    rw [get _ hk.1, p4 _ hk.2.1 hk.2.2.1, s3 _ hk.2.2.2]
    rfl
  have hno : propAttr "tblPr" "tblStyle" "val" tbl = none ∨ cfg.styles = none → inh = [] := by
    intro hno
    cases hl : cfg.limit with
    | zero => rw [hl] at h1; cases h1
    | succ n =>
      rw [hl] at h1
      rcases hno with hno | hno
      · rw [hno, styleBorders_no_id] at h1; cases h1; rfl
      · rw [hno, styleBorders_no_sheet] at h1; cases h1; rfl
  have hins : ∀ key names, (key, names) ∈ insideSides → "x-cell-" ++ key ≠ "x-sect-cols" ∧ "x-cell-" ++ key ≠ "x-sect-orient" ∧
      "x-cell-" ++ key ≠ "x-sect-size" ∧
      "x-cell-" ++ key ≠ "background-color" ∧ "x-cell-" ++ key ∉ ["border-top", "border-right", "border-bottom", "border-left",
        "x-border-tr2bl", "x-border-tl2br", "border-collapse", "border-spacing", "box-shadow"] := by
    intro key names hm
    simp only [insideSides, List.mem_cons, Prod.mk.injEq, List.not_mem_nil, or_false] at hm
    rcases hm with ⟨rfl, -⟩ | ⟨rfl, -⟩ | ⟨rfl, -⟩ | ⟨rfl, -⟩ <;> simp
  refine ⟨hn, ?_, ?_, ?_, ⟨_, sectCols_spec sect, ?_⟩, ?_, ?_, ?_, ?_⟩
  · rw [get _ (by decide), p4 _ (by decide) (by decide), b3 _ (by decide), styleBorders_only (by decide) (by decide) _ _ h1, s1]
    simp
  · rw [get _ (by decide), s3 _ (by decide), b3 _ (by decide), styleBorders_only (by decide) (by decide) _ _ h1, p1]
    simp
  · have : Dict.get? t.styles "x-sect-size" = Dict.get? pg "x-sect-size" := by
      rw [get _ (by decide), s3 _ (by decide), b3 _ (by decide), styleBorders_only (by decide) (by decide) _ _ h1]
      simp
    rw [this]
    exact p2
  · rw [hs, ← h6, Dict.get?_set, if_pos rfl]
  · intro hno' key names hm
    rw [hbord _ _ hm, hno hno', Dict.get?_nil, Option.or_none]
    exact b1 _ _ hm
  · intro hno' key names hm
    have hk := hins key names hm
    rw [get _ hk.1, p4 _ hk.2.1 hk.2.2.1, s3 _ hk.2.2.2.1, b3 _ hk.2.2.2.2, hno hno']
    rfl
  · rw [get _ (by decide), p4 _ (by decide) (by decide), s3 _ (by decide), b3 _ (by decide), styleBorders_only (by decide) (by decide) _ _ h1]
    rfl
  · intro sheet id chain own e1 e2 e3 e4 e5
    obtain ⟨st', f1, f2⟩ := styleBorders_chain cfg sheet e3 own e5 cfg.limit e4
    rw [e1, e2, f1] at h1
    have := Except.ok.inj h1
    subst this
    refine ⟨fun key names hm => ⟨_, b1 _ _ hm, by rw [hbord _ _ hm, f2]⟩, ?_⟩
    intro key names hm
    have hk := hins key names hm
    rw [get _ hk.1, p4 _ hk.2.1 hk.2.2.1, s3 _ hk.2.2.2.1, b3 _ hk.2.2.2.2, f2]
    rfl

/-- **C70.** For every Word table which can be read: its nature is the identifier of its style; its background color is the one of its
shading; the orientation, the size of the page and the number of columns of text are those of its section; each of its borders is the one
which it defines itself, otherwise the one of the nearest style of the chain of its styles which defines it. -/
theorem C70_table (cfg : Config) (sect : Option Node) (styles : Node → Styles) (nature : Node → String) (W : Nat) (tbl : Node)
    (h : GoodTable cfg sect styles nature W tbl) (s : PState) :
    ∃ t s', parseTable cfg sect tbl s = (.ok (some t), s') ∧ TableReads cfg sect tbl t := by
  obtain ⟨t, s', st, nat, h1, h2, h3, h4, h5⟩ := word_reading cfg sect styles nature W tbl h s
  have ht := h5.table
  exact ⟨t, s', h1, table_reads h3 (congrArg Prod.fst ht) (congrArg Prod.snd ht)⟩

/-! ### examples -/

/-- a paragraph with an alignment -/
def pDemo (jc : Option String) (text : Option String) : Node :=
  .elem (name "p") [] none [wEl "pPr" [] (jc.toList.map (fun j => wEl "jc" [("val", j)] [])), .elem (name "t") [] text [] none] none

/-- a cell with properties and paragraphs -/
def tcLooks (props : List Node) (ps : List Node) : Node := wEl "tc" [] (wEl "tcPr" [] props :: ps)

/-- a table with a header and an inserted row; the cells have colors, alignments and borders; the last one is empty -/
def looksWord : Node := wEl "tbl" [] [
  wEl "tblPr" [] [wEl "tblStyle" [("val", "c")] [], wEl "shd" [("fill", "EEEEEE")] [], wEl "tblBorders" [] [wEl "left" [("val", "thick")] []]],
  wEl "tblGrid" [] [wEl "gridCol" [("w", "20")] [], wEl "gridCol" [("w", "20")] []],
  wEl "tr" [] [wEl "trPr" [] [wEl "tblHeader" [] []],
    tcLooks [wEl "shd" [("fill", "FF0000")] [], wEl "vAlign" [("val", "center")] []]
      [pDemo none (some "a"), pDemo (some "right") (some "b"), pDemo (some "right") none],
    tcLooks [wEl "tcBorders" [] [wEl "top" [("val", "double"), ("color", "00FF00")] []], wEl "shd" [("fill", "auto")] []]
      [pDemo (some "both") (some "c"), pDemo none (some "d")]],
  wEl "tr" [] [wEl "trPr" [] [wEl "ins" [("id", "1"), ("author", "Someone"), ("date", "")] []],
    tcLooks [wEl "gridSpan" [("val", "2")] []] [pDemo none none]]]

/-- a section in landscape, with two columns of text -/
def sectWord : Node := wEl "sectPr" [] [wEl "pgSz" [("w", "15840"), ("h", "12240"), ("orient", "landscape")] [],
  wEl "cols" [] [wEl "col" [] [], wEl "col" [] []]]

theorem looksWord_good : GoodTable wConfig (some sectWord) stylesOf natureOf 2 looksWord := by
  have tcs : ∀ m x, (tcLooks m x).tag? = some (name "tc") := fun _ _ => rfl
  refine ⟨rfl, ⟨_, rfl⟩, by decide, by decide +kernel, ?_, ?_⟩
  · refine ⟨looksWord.children.take 2, looksWord.children.drop 2, by simp, ?_, ?_⟩
    · intro c hc
      simp only [looksWord, wEl, Node.children, List.take, List.mem_cons, List.not_mem_nil, or_false] at hc
      rcases hc with rfl | rfl
      · left; decide +kernel
      · right
        refine ⟨rfl, ⟨?_⟩⟩
        intro c hc
        simp only [Node.children, List.mem_cons, List.not_mem_nil, or_false] at hc
        rcases hc with rfl | rfl <;> exact .inr ⟨rfl, rfl, "20", 0, rfl, rfl⟩
    · intro c hc
      simp only [looksWord, wEl, Node.children, List.drop, List.mem_cons, List.not_mem_nil, or_false] at hc
      rcases hc with rfl | rfl
      all_goals
        refine .inr ⟨rfl, ?_, by decide +kernel, by decide +kernel, ⟨_, rfl⟩⟩
        intro c hc
        simp only [Node.children, List.mem_cons, List.not_mem_nil, or_false] at hc
      · rcases hc with rfl | rfl | rfl
        · left; decide +kernel
        · exact .inr ⟨tcs .., ⟨by decide +kernel, by decide +kernel, by decide +kernel, fun _ => by decide +kernel⟩⟩
        · exact .inr ⟨tcs .., ⟨by decide +kernel, by decide +kernel, by decide +kernel, fun _ => by decide +kernel⟩⟩
      · rcases hc with rfl | rfl
        · left; decide +kernel
        · exact .inr ⟨tcs .., ⟨by decide +kernel, by decide +kernel, by decide +kernel, fun _ => by decide +kernel⟩⟩
  · decide +kernel

/-- what the examples look at -/
def looksOf (t : Option (Table Content)) : List (Option String × Styles) :=
  match t with
  | none => []
  | some t => ((t.rows.getD []).map (fun r => (r.nature, r.styles))) ++ t.grid.cells.map (fun c => (c.nature, c.styles))

/-- not vacuous: rows and cells of the example -/
example : ((parseTable wConfig (some sectWord) looksWord PState.init).1.toOption.map looksOf) = some [
    (some "header", []),
    (some "body", [("x-ins", .bool true), ("x-ins-id", .str "1"), ("x-ins-author", .str "Someone")]),
    (some "header", [("background-color", .str "#FF0000"), ("vertical-align", .str "middle"), ("align", .str "right")]),
    (some "header", [("align", .str "justify"), ("border-top", .str "double #00FF00")]),
    (some "body", [("x-cell-empty", .str "true")])] := by decide +kernel

/-- not vacuous: styles of the table of the example; the left border is its own, the others come from the styles `c` and `d` -/
example : ((parseTable wConfig (some sectWord) looksWord PState.init).1.toOption.map (fun t => t.map (fun t => (t.nature, t.styles)))) =
    some (some (some "c", [("border-top", .str "solid #FF0000"), ("border-right", .str "none"), ("x-cell-border-right", .str "w-dot-dash"),
      ("x-cell-border-left", .str "w-dot-dash"), ("border-left", .str "w-thick"), ("background-color", .str "#EEEEEE"),
      ("x-sect-size", .pair 0 0), ("x-sect-orient", .str "landscape"), ("x-sect-cols", .str "2")])) := by decide +kernel

/-- **C67 (height)**: the heights which Word gives to the rows (`w:trHeight`) are lost, in every table: the parser looks for them in
`w:tblHeader`, where they never are. -/
theorem C67_height_counterexample (cfg : Config) (sect : Option Node) (styles : Node → Styles) (nature : Node → String) (W : Nat) (tbl : Node)
    (h : GoodTable cfg sect styles nature W tbl) (hh : ∀ tr ∈ kids ["tr"] tbl, propAttr "trPr" "tblHeader" "hRule" tr = none) (s : PState) :
    ∃ t s' rows, parseTable cfg sect tbl s = (.ok (some t), s') ∧ eval (Table.views .row) t = .ok rows ∧
      ∀ row ∈ rows, Dict.get? row.styles "height" = none ∧ Dict.get? row.styles "min-height" = none := by
  obtain ⟨t, s', st, nat, h1, h2, h3, h4, h5⟩ := word_reading cfg sect styles nature W tbl h s
  refine ⟨t, s', t.baseViews .row, h1, ?_, ?_⟩
  · unfold eval; rw [Table.views_run .row t h4.inv.grid]
  · intro row hrow
    obtain ⟨i, hrow⟩ := List.mem_iff_getElem?.mp hrow
    have hi : i < (kids ["tr"] tbl).length := by
      rw [← h4.rows]
      exact (List.getElem?_eq_some_iff.mp hrow).1
    obtain ⟨tr, htr⟩ : ∃ tr, (kids ["tr"] tbl)[i]? = some tr := ⟨_, List.getElem?_eq_getElem hi⟩
    obtain ⟨vs, v, e1, e2, e3, e4⟩ := h5.rows i (some (nature tr), rowLooks cfg tr) (by simp [rowsLooks, List.getElem?_map, htr])
    have eb : t.baseViews .row = vs := by unfold baseViews; rw [e1]; rfl
    rw [eb, e2] at hrow
    have := Option.some.inj hrow
    subst this
    have e0 : rowHeight cfg tr = .ok [] := by
      unfold rowHeight
      rw [attrOf_prop, hh _ (List.mem_of_getElem? htr)]
      split <;> rfl
    have get : ∀ key, Dict.get? v.styles key = Dict.get? (rowIns tr) key := by
      intro key
      rw [e4]
      show Dict.get? (rowLooks cfg tr) key = _
      unfold rowLooks
      rw [e0, Dict.get?_update (wf_ins tr)]
      exact Option.or_none
    rw [get, get, rowIns_get, rowIns_get]
    simp

/-- **C67 (header)**: `w:tblHeader w:val="1"`, which Word also writes, is refused: `KeyError`. -/
theorem C67_header_counterexample : ∀ v, v = "1" ∨ v = "0" ∨ v = "on" ∨ v = "off" →
    rowNature (wEl "tr" [] [wEl "trPr" [] [wEl "tblHeader" [("val", v)] []]]) = .error .keyError := by
  rintro v (rfl | rfl | rfl | rfl) <;> decide +kernel

/-- **C69 (no paragraph)**: a cell without direct paragraph (for instance if it is inside a content control, `w:sdt`) is refused:
`IndexError`. -/
theorem C69_paragraph_counterexample :
    (parseTable wConfig none (wEl "tbl" [] [wEl "tr" [] [wEl "tc" [] [wEl "sdt" [] [pDemo none (some "a")]]]]) PState.init).1.map looksOf =
      .error .indexError := by decide +kernel

/-- **C69 (alignment)**: an alignment such as `mediumKashida` is refused: `KeyError`. -/
theorem C69_alignment_counterexample :
    (parseTable wConfig none (wEl "tbl" [] [wEl "tr" [] [wEl "tc" [] [pDemo (some "mediumKashida") (some "a")]]]) PState.init).1.map looksOf =
      .error .keyError := by decide +kernel

end Benker.Ooxml
