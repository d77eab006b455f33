import Verif.Spec.Formex
import Verif.Props.CalsBuilder

/-! The attributes and the content of the elements written by the Formex builder. -/

namespace Benker
open Cals CalsSpec FmxSpec

/-! ### attributes -/

theorem addAttr_other {cfg : Cals.Config} {styles : Styles} {key nm : String} {f : StyleVal → Except PyErr String} {a b : Dict QName String}
    (h : addAttr cfg styles key nm f a = .ok b) {k : QName} (hk : k.name ≠ nm) : Dict.get? b k = Dict.get? a k := by
  have hne : cfg.q nm ≠ k := by rintro rfl; exact hk rfl
  unfold addAttr at h
  cases hg : Dict.get? styles key with
  | none => rw [hg] at h; cases h; rfl
  | some v =>
    rw [hg] at h
    simp only at h
    cases hf : f v with
    | error e => rw [hf] at h; cases h
    | ok s => rw [hf] at h; cases h; rw [Dict.get?_set, if_neg hne]

theorem addSep_other {cfg : Cals.Config} {styles : Styles} {key nm d : String} {a b : Dict QName String}
    (h : addSep cfg styles key nm d a = .ok b) {k : QName} (hk : k.name ≠ nm) : Dict.get? b k = Dict.get? a k := by
  have hne : cfg.q nm ≠ k := by rintro rfl; exact hk rfl
  unfold addSep at h
  split at h
  · cases h
  · cases h; rfl
  · cases h
    split
    · rw [Dict.get?_set, if_neg hne]
    · rfl

theorem addSepIf_other {cond : Bool} {cfg : Cals.Config} {styles : Styles} {key nm d : String} {a b : Dict QName String}
    (h : addSepIf cond cfg styles key nm d a = .ok b) {k : QName} (hk : k.name ≠ nm) : Dict.get? b k = Dict.get? a k := by
  unfold addSepIf at h
  split at h
  · exact addSep_other h hk
  · cases h; rfl

theorem set_other {a : Dict QName String} {k k' : QName} (v : String) (h : k.name ≠ k'.name) : Dict.get? (Dict.set a k' v) k = Dict.get? a k := by
  rw [Dict.get?_set, if_neg (by rintro rfl; exact h rfl)]

theorem optAttr_get (k k' : QName) (v : Option String) (a : Dict QName String) :
    Dict.get? (Fmx.optAttr k' v a) k = if k = k' then v.or (Dict.get? a k) else Dict.get? a k := by
  unfold Fmx.optAttr
  cases v with
  | none => simp
  | some s =>
    rw [Dict.get?_set]
    by_cases h : k = k'
    · subst h; simp
    · rw [if_neg (Ne.symm h), if_neg h]

theorem condSet_get (c : Prop) [Decidable c] (k k' : QName) (v : String) (a : Dict QName String) :
    Dict.get? (if c then Dict.set a k' v else a) k = if c ∧ k = k' then some v else Dict.get? a k := by
  by_cases h : c
  · by_cases h' : k = k'
    · subst h'; rw [if_pos h, Dict.get?_set, if_pos rfl, if_pos ⟨h, rfl⟩]
    · rw [if_pos h, Dict.get?_set, if_neg (Ne.symm h'), if_neg (fun e => h' e.2)]
  · rw [if_neg h, if_neg (fun e => h e.1)]

theorem cellType_spec {nature rowNature ty : Option String} (h : Fmx.cellType nature rowNature = .ok ty) :
    ty = typeOfCell nature rowNature ∧
    (nature = none ∨ nature = some "" ∨ nature = rowNature ∨ nature ∈ [some "header", some "body", some "footer"]) := by
  unfold Fmx.cellType at h
  cases nature with
  | none => cases h; refine ⟨?_, .inl rfl⟩; unfold typeOfCell; split <;> rfl
  | some n =>
    simp only at h
    split at h
    · rename_i h0
      cases h
      rcases h0 with rfl | h0
      · refine ⟨?_, .inr (.inl rfl)⟩
        unfold typeOfCell typeOfNature; split <;> simp
      · exact ⟨by unfold typeOfCell; rw [if_pos h0], .inr (.inr (.inl h0))⟩
    · rename_i h0
      have h0' : ¬ some n = rowNature := fun e => h0 (.inr e)
      unfold typeOfCell
      rw [if_neg h0']
      repeat' split at h
      all_goals cases h
      · rename_i e; subst e; exact ⟨rfl, by simp⟩
      · rename_i e; subst e; exact ⟨rfl, by simp⟩
      · rename_i e; subst e; exact ⟨rfl, by simp⟩

theorem rowType_spec (n : Option String) : Fmx.rowType n = typeOfRow n := by
  unfold Fmx.rowType typeOfRow
  by_cases h1 : n = some "header"
  · subst h1; rfl
  · by_cases h2 : n = some "footer"
    · subst h2; rfl
    · by_cases h3 : n = some "body"
      · subst h3; rfl
      · rw [if_neg h1, if_neg h2, if_neg h3]
        cases n with
        | none => rfl
        | some s =>
          have e1 : s ≠ "header" := fun e => h1 (by rw [e])
          have e2 : s ≠ "footer" := fun e => h2 (by rw [e])
          have e3 : s ≠ "body" := fun e => h3 (by rw [e])
          simp [typeOfNature, e1, e2, e3]

/-- the attributes which do not depend on the CALS option -/
def plainAttrs (c : Cell Content) (ty : Option String) (k : QName) : Option String :=
  if k = name "COL" then some (intStr c.min.x) else if k = name "TYPE" then ty
  else if k = name "COLSPAN" then (if c.width > 1 then some (intStr c.width) else none)
  else if k = name "ROWSPAN" then (if c.height > 1 then some (intStr c.height) else none) else none

theorem plainAttrs_get (c : Cell Content) (ty : Option String) (k : QName) :
    Dict.get? (if c.height > 1 then Dict.set (if c.width > 1 then Dict.set (Fmx.optAttr (Fmx.f "TYPE") ty [(Fmx.f "COL", intStr c.box.min.x)])
        (Fmx.f "COLSPAN") (intStr c.width) else Fmx.optAttr (Fmx.f "TYPE") ty [(Fmx.f "COL", intStr c.box.min.x)]) (Fmx.f "ROWSPAN") (intStr c.height)
      else (if c.width > 1 then Dict.set (Fmx.optAttr (Fmx.f "TYPE") ty [(Fmx.f "COL", intStr c.box.min.x)])
        (Fmx.f "COLSPAN") (intStr c.width) else Fmx.optAttr (Fmx.f "TYPE") ty [(Fmx.f "COL", intStr c.box.min.x)])) k = plainAttrs c ty k := by
  rw [condSet_get, condSet_get, optAttr_get]
  unfold plainAttrs
  have n1 : name "ROWSPAN" ≠ name "COL" := by decide
  have n2 : name "ROWSPAN" ≠ name "COLSPAN" := by decide
  have n3 : name "ROWSPAN" ≠ name "TYPE" := by decide
  have n4 : name "COLSPAN" ≠ name "COL" := by decide
  have n5 : name "COLSPAN" ≠ name "TYPE" := by decide
  have n6 : name "TYPE" ≠ name "COL" := by decide
  have ef : ∀ s, Fmx.f s = name s := fun _ => rfl
  have hb : Dict.get? [(name "COL", intStr c.box.min.x)] k = if name "COL" = k then some (intStr c.box.min.x) else none := by
    rw [Dict.get?_cons]; rfl
  simp only [ef, hb]
  by_cases k1 : k = name "COL"
  · subst k1
    simp [Ne.symm n1, Ne.symm n4, Ne.symm n6]; rfl
  · by_cases k2 : k = name "TYPE"
    · subst k2; simp [Ne.symm n3, Ne.symm n5, n6, Ne.symm n6]
    · by_cases k3 : k = name "COLSPAN"
      · subst k3; simp [Ne.symm n2, n5, n4, Ne.symm n4]
      · by_cases k4 : k = name "ROWSPAN"
        · subst k4; simp [n1, n2, n3, Ne.symm n1]
        · simp [k1, k2, k3, k4, Ne.symm k1]

theorem plainAttrs_other (c : Cell Content) (ty : Option String) {k : QName} (h : k.name ∉ ["COL", "TYPE", "COLSPAN", "ROWSPAN"]) :
    plainAttrs c ty k = none := by
  simp only [List.mem_cons, List.not_mem_nil, or_false, not_or] at h
  obtain ⟨h1, h2, h3, h4⟩ := h
  have ne : ∀ s, k.name ≠ s → k ≠ name s := by rintro s h rfl; exact h rfl
  unfold plainAttrs
  rw [if_neg (ne _ h1), if_neg (ne _ h2), if_neg (ne _ h3), if_neg (ne _ h4)]

theorem addCellStyle_other {styles : Styles} {a b : Dict QName String} (h : Fmx.addCellStyle styles a = .ok b) :
    (∀ k, k.name ≠ "TYPE" → Dict.get? b k = Dict.get? a k) ∧ (Dict.get? styles "cellstyle" = none → b = a) ∧
    (∀ v, Dict.get? styles "cellstyle" = some v → ∃ s, v = .str s ∧ Dict.get? b (name "TYPE") = some s) := by
  unfold Fmx.addCellStyle at h
  cases hg : Dict.get? styles "cellstyle" with
  | none => rw [hg] at h; cases h; exact ⟨fun _ _ => rfl, fun _ => rfl, by simp⟩
  | some v =>
    rw [hg] at h
    obtain ⟨s, hs, h⟩ := bind_ok h
    cases h
    refine ⟨fun k hk => set_other _ hk, by simp, ?_⟩
    intro v' hv'
    cases hv'
    cases v with
    | str x => cases hs; exact ⟨s, rfl, by rw [Dict.get?_set]; exact if_pos rfl⟩
    | _ => cases hs

/-- the attributes which depend on the CALS option -/
theorem cellCals_spec {cfg : Fmx.Config} {colsep rowsep : String} {bb : Box} {c : Cell Content} {a b : Dict QName String}
    (h : Fmx.cellCalsAttrs cfg colsep rowsep bb c a = .ok b) :
    (∀ k : QName, k.name ∉ ["colsep", "rowsep", "valign", "align", "namest", "nameend", "morerows", "bgcolor", "TYPE"] → Dict.get? b k = Dict.get? a k) ∧
    Dict.get? b (cfg.q "namest") = (if c.width > 1 then some ("c" ++ intStr c.min.x) else Dict.get? a (cfg.q "namest")) ∧
    Dict.get? b (cfg.q "nameend") = (if c.width > 1 then some ("c" ++ intStr c.max.x) else Dict.get? a (cfg.q "nameend")) ∧
    Dict.get? b (cfg.q "morerows") = (if c.height > 1 then some (intStr (c.height - 1)) else Dict.get? a (cfg.q "morerows")) ∧
    (Dict.get? c.styles "cellstyle" = none → Dict.get? b (name "TYPE") = Dict.get? a (name "TYPE")) ∧
    (∀ v, Dict.get? c.styles "cellstyle" = some v → ∃ s, v = .str s ∧ Dict.get? b (name "TYPE") = some s) := by
  unfold Fmx.cellCalsAttrs at h
  obtain ⟨a1, h1, h⟩ := bind_ok h
  obtain ⟨a2, h2, h⟩ := bind_ok h
  obtain ⟨a3, h3, h⟩ := bind_ok h
  obtain ⟨a4, h4, h⟩ := bind_ok h
  simp only at h
  obtain ⟨a7, h7, h8⟩ := bind_ok h
  obtain ⟨e1, e2, e3⟩ := addCellStyle_other h8
  have pre : ∀ k : QName, k.name ∉ ["colsep", "rowsep", "valign", "align"] → Dict.get? a4 k = Dict.get? a k := by
    intro k hk
    simp only [List.mem_cons, List.not_mem_nil, or_false, not_or] at hk
    rw [addAttr_other h4 hk.2.2.2, addAttr_other h3 hk.2.2.1, addSepIf_other h2 hk.2.1, addSepIf_other h1 hk.1]
  have mid : ∀ k : QName, k.name ≠ "bgcolor" → Dict.get? a7 k =
      (if c.height > 1 ∧ k = cfg.q "morerows" then some (intStr (c.height - 1)) else
       if c.width > 1 ∧ k = cfg.q "nameend" then some ("c" ++ intStr c.box.max.x) else
       if c.width > 1 ∧ k = cfg.q "namest" then some ("c" ++ intStr c.box.min.x) else Dict.get? a4 k) := by
    intro k hk
    rw [addAttr_other h7 hk, condSet_get]
    congr 1
    by_cases hw : c.width > 1
    · rw [if_pos hw, Dict.get?_set, Dict.get?_set]
      by_cases k1 : k = cfg.q "nameend"
      · subst k1; simp [hw]
      · by_cases k2 : k = cfg.q "namest"
        · subst k2; simp [hw, k1, Ne.symm k1]
        · simp [k1, k2, Ne.symm k1, Ne.symm k2]
    · simp [hw]
  have ne : ∀ x y : String, x ≠ y → cfg.q x ≠ cfg.q y := by
    intro x y hxy e; unfold Fmx.Config.q at e; cases e; exact hxy rfl
  have ty : Dict.get? a7 (name "TYPE") = Dict.get? a (name "TYPE") := by
    have hq : ∀ x, x ≠ "TYPE" → name "TYPE" ≠ cfg.q x := by
      intro x hx e; exact hx (congrArg QName.name e).symm
    rw [mid _ (by decide), if_neg (fun e => hq _ (by decide) e.2), if_neg (fun e => hq _ (by decide) e.2), if_neg (fun e => hq _ (by decide) e.2),
      pre _ (by decide)]
  refine ⟨?_, ?_, ?_, ?_, ?_, e3⟩
  · intro k hk
    simp only [List.mem_cons, List.not_mem_nil, or_false, not_or] at hk
    obtain ⟨k1, k2, k3, k4, k5, k6, k7, k8, k9⟩ := hk
    have hq : ∀ x, k.name ≠ x → k ≠ cfg.q x := by
      rintro x hx rfl; exact hx rfl
    rw [e1 k k9, mid k k8, if_neg (fun e => hq _ k7 e.2), if_neg (fun e => hq _ k6 e.2), if_neg (fun e => hq _ k5 e.2), pre k (by simp [k1, k2, k3, k4])]
  · rw [e1 _ (show "namest" ≠ "TYPE" by decide), mid _ (show "namest" ≠ "bgcolor" by decide), if_neg (fun e => ne _ _ (by decide) e.2),
      if_neg (fun e => ne _ _ (by decide) e.2), pre _ (show "namest" ∉ _ by decide)]
    simp; rfl
  · rw [e1 _ (show "nameend" ≠ "TYPE" by decide), mid _ (show "nameend" ≠ "bgcolor" by decide), if_neg (fun e => ne _ _ (by decide) e.2),
      if_neg (c := c.width > 1 ∧ cfg.q "nameend" = cfg.q "namest") (fun e => ne _ _ (by decide) e.2), pre _ (show "nameend" ∉ _ by decide)]
    simp; rfl
  · rw [e1 _ (show "morerows" ≠ "TYPE" by decide), mid _ (show "morerows" ≠ "bgcolor" by decide),
      if_neg (c := c.width > 1 ∧ cfg.q "morerows" = cfg.q "nameend") (fun e => ne _ _ (by decide) e.2),
      if_neg (c := c.width > 1 ∧ cfg.q "morerows" = cfg.q "namest") (fun e => ne _ _ (by decide) e.2), pre _ (show "morerows" ∉ _ by decide)]
    simp
  · intro hn
    rw [e2 hn, ty]

theorem isEmpty_iff (c : Cell Content) : Fmx.isEmpty c = true ↔ WrittenEmpty c := by
  unfold Fmx.isEmpty WrittenEmpty
  rw [Bool.or_eq_true, decide_eq_true_eq]
  constructor
  · rintro (h | h)
    · exact .inr (.inr h)
    · split at h
      · rename_i e; exact .inl e
      · rename_i s e; rw [decide_eq_true_eq] at h; subst h; exact .inr (.inl e)
      · cases h
  · rintro (h | h | h)
    · rw [h]; simp
    · rw [h]; simp
    · exact .inl h

theorem buildCell_spec {cfg : Fmx.Config} {colsep rowsep : String} {bb : Option Box} {rn : Option String} {c : Cell Content} {e : Node}
    (hv : c.box.Valid) (h : Fmx.buildCell cfg colsep rowsep bb rn c = .ok e) : CellFor cfg.useCals cfg.calsNs rn c e := by
  unfold Fmx.buildCell at h
  obtain ⟨a, h1, h⟩ := bind_ok h
  -- the attributes
  unfold Fmx.cellAttrs at h1
  obtain ⟨ty, hty, h1⟩ := bind_ok h1
  obtain ⟨rfl, hknown⟩ := cellType_spec hty
  simp only at h1
  have ew : c.width = c.max.x - c.min.x + 1 := by simp only [Cell.width, Box.width, Cell.max, Cell.min]
  have eh : c.height = c.max.y - c.min.y + 1 := by simp only [Cell.height, Box.height, Cell.max, Cell.min]
  have hv' : c.min.x ≤ c.max.x ∧ c.min.y ≤ c.max.y := by unfold Box.Valid at hv; simp only [Cell.min, Cell.max]; omega
  have hA : (cfg.useCals = false → ∀ k, Dict.get? a k = plainAttrs c (typeOfCell c.nature rn) k) ∧
      (cfg.useCals = true → ∃ bb' a0, (∀ k, Dict.get? a0 k = plainAttrs c (typeOfCell c.nature rn) k) ∧
        Fmx.cellCalsAttrs cfg colsep rowsep bb' c a0 = .ok a) := by
    split at h1
    · rename_i hu
      refine ⟨by simp [hu], fun _ => ?_⟩
      cases bb with
      | none => cases h1
      | some bb => exact ⟨bb, _, fun k => plainAttrs_get c _ k, h1⟩
    · rename_i hu
      cases h1
      exact ⟨fun _ k => plainAttrs_get c _ k, fun e => absurd e hu⟩
  -- the element
  have hE : e.tag? = some (name "CELL") ∧ e.tail = none ∧ e.attrs = a ∧
      (WrittenEmpty c → e.text = none ∧ e.children = [Fmx.ieElem]) ∧
      (¬ WrittenEmpty c → ∃ f, CellElem.append ⟨none, []⟩ c.content = .ok f ∧ e.text = f.text ∧ e.children = f.children) := by
    split at h
    · rename_i he
      cases h
      exact ⟨rfl, rfl, rfl, fun _ => ⟨rfl, rfl⟩, fun hn => absurd ((isEmpty_iff c).mp he) hn⟩
    · rename_i he
      obtain ⟨f, hf, h⟩ := bind_ok h
      cases h
      exact ⟨rfl, rfl, rfl, fun hn => absurd ((isEmpty_iff c).mpr hn) he, fun _ => ⟨f, hf, rfl, rfl⟩⟩
  obtain ⟨t1, t2, t3, t4, t5⟩ := hE
  have hat : ∀ k, e.attr k = Dict.get? a k := by intro k; unfold Node.attr; rw [t3]
  -- the attributes which are always the same
  have hcommon : ∀ k : QName, k.name ∈ ["COL", "COLSPAN", "ROWSPAN"] → e.attr k = plainAttrs c (typeOfCell c.nature rn) k := by
    intro k hk
    rw [hat]
    cases hu : cfg.useCals with
    | false => exact hA.1 hu k
    | true =>
      obtain ⟨bb', a0, g1, g2⟩ := hA.2 hu
      rw [(cellCals_spec g2).1 k, g1]
      simp only [List.mem_cons, List.not_mem_nil, or_false] at hk
      rcases hk with hk | hk | hk <;> rw [hk] <;> decide
  have o1 : plainAttrs c (typeOfCell c.nature rn) (name "COLSPAN") = if c.width > 1 then some (intStr c.width) else none := by
    unfold plainAttrs; simp [name]
  have o2 : plainAttrs c (typeOfCell c.nature rn) (name "ROWSPAN") = if c.height > 1 then some (intStr c.height) else none := by
    unfold plainAttrs; simp [name]
  have o3 : plainAttrs c (typeOfCell c.nature rn) (name "TYPE") = typeOfCell c.nature rn := by
    unfold plainAttrs; simp [name]
  have hcals : cfg.useCals = true →
      e.attr ⟨cfg.calsNs, "namest"⟩ = (if c.width > 1 then some ("c" ++ intStr c.min.x) else none) ∧
      e.attr ⟨cfg.calsNs, "nameend"⟩ = (if c.width > 1 then some ("c" ++ intStr c.max.x) else none) ∧
      e.attr ⟨cfg.calsNs, "morerows"⟩ = (if c.height > 1 then some (intStr (c.height - 1)) else none) := by
    intro hu
    obtain ⟨bb', a0, g1, g2⟩ := hA.2 hu
    obtain ⟨_, g3, g4, g5, _⟩ := cellCals_spec g2
    rw [hat, hat, hat]
    rw [g1, plainAttrs_other _ _ (show ("namest" : String) ∉ _ by decide)] at g3
    rw [g1, plainAttrs_other _ _ (show ("nameend" : String) ∉ _ by decide)] at g4
    rw [g1, plainAttrs_other _ _ (show ("morerows" : String) ∉ _ by decide)] at g5
    exact ⟨g3, g4, g5⟩
  have hplain : cfg.useCals = false → ∀ x, x ∉ ["COL", "TYPE", "COLSPAN", "ROWSPAN"] → e.attr ⟨cfg.calsNs, x⟩ = none := by
    intro hu x hx
    rw [hat, hA.1 hu, plainAttrs_other _ _ hx]
  refine ⟨t1, t2, ?_, ?_, ?_, ?_, ?_, ?_, ?_, hknown, ?_, ?_, ?_, ?_⟩
  · rw [hcommon _ (by decide)]; unfold plainAttrs; rw [if_pos rfl]
  · intro hx
    have hw : ¬ c.width > 1 := by omega
    refine ⟨by rw [hcommon _ (by decide), o1, if_neg hw], ?_⟩
    cases hu : cfg.useCals with
    | false => exact ⟨hplain hu _ (by decide), hplain hu _ (by decide)⟩
    | true => obtain ⟨g1, g2, _⟩ := hcals hu; rw [g1, g2, if_neg hw, if_neg hw]; exact ⟨rfl, rfl⟩
  · intro hx
    have hw : c.width > 1 := by omega
    refine ⟨by rw [hcommon _ (by decide), o1, if_pos hw, ew], ?_⟩
    intro hu
    obtain ⟨g1, g2, _⟩ := hcals hu; rw [g1, g2, if_pos hw, if_pos hw]; exact ⟨rfl, rfl⟩
  · intro hx
    have hw : ¬ c.height > 1 := by omega
    refine ⟨by rw [hcommon _ (by decide), o2, if_neg hw], ?_⟩
    cases hu : cfg.useCals with
    | false => exact hplain hu _ (by decide)
    | true => rw [(hcals hu).2.2, if_neg hw]
  · intro hx
    have hw : c.height > 1 := by omega
    refine ⟨by rw [hcommon _ (by decide), o2, if_pos hw, eh], ?_⟩
    intro hu
    rw [(hcals hu).2.2, if_pos hw, eh]; congr 2; omega
  · intro hu
    rw [hat]
    cases hb : cfg.useCals with
    | false => rw [hA.1 hb, o3]
    | true =>
      obtain ⟨bb', a0, g1, g2⟩ := hA.2 hb
      rw [(cellCals_spec g2).2.2.2.2.1 (by rcases hu with hu | hu; · rw [hb] at hu; cases hu
                                           · exact hu), g1, o3]
  · intro v hu hg
    obtain ⟨bb', a0, g1, g2⟩ := hA.2 hu
    rw [hat]
    exact (cellCals_spec g2).2.2.2.2.2 v hg
  · intro hu k hk
    rw [hat, hA.1 hu] at hk
    unfold plainAttrs at hk
    simp only [List.map_cons, List.map_nil, List.mem_cons, List.not_mem_nil, or_false]
    by_cases k1 : k = name "COL"
    · exact .inl k1
    · by_cases k2 : k = name "TYPE"
      · exact .inr (.inr (.inr k2))
      · by_cases k3 : k = name "COLSPAN"
        · exact .inr (.inl k3)
        · by_cases k4 : k = name "ROWSPAN"
          · exact .inr (.inr (.inl k4))
          · rw [if_neg k1, if_neg k2, if_neg k3, if_neg k4] at hk; exact absurd rfl hk
  · intro he
    obtain ⟨g1, g2⟩ := t4 he
    exact ⟨g1, _, g2, rfl⟩
  · intro he
    obtain ⟨f, hf, g1, g2⟩ := t5 he
    have := append_toks hf
    unfold insideToks; rw [g1, g2]; exact this
  · by_cases he : WrittenEmpty c
    · obtain ⟨g1, g2⟩ := t4 he
      have : charsOf (insideToks e) = [] := by
        unfold insideToks; rw [g1, g2]; rfl
      rw [this]
      unfold writtenText
      by_cases hx : Dict.get? c.styles "x-cell-empty" = some (.str "true")
      · rw [if_pos hx]
      · rw [if_neg hx]
        rcases he with h | h | h
        · rw [h]; rfl
        · rw [h]; rfl
        · exact absurd h hx
    · unfold writtenText
      rw [if_neg (fun h => he (.inr (.inr h)))]
      obtain ⟨f, hf, g1, g2⟩ := t5 he
      have h1 := append_toks hf
      have h2 := text_of_toks hf
      unfold insideToks; rw [g1, g2, h2]; exact congrArg charsOf h1

/-- the type of a row does not depend on the CALS option -/
theorem rowAttrs_type {cfg : Fmx.Config} {rowsep : String} {r : View Content} {a : Dict QName String} (h : Fmx.rowAttrs cfg rowsep r = .ok a) :
    Dict.get? a (name "TYPE") = typeOfRow r.nature := by
  have h0 : Dict.get? (Fmx.optAttr (Fmx.f "TYPE") (Fmx.rowType r.nature) []) (name "TYPE") = typeOfRow r.nature := by
    rw [optAttr_get, if_pos (show name "TYPE" = Fmx.f "TYPE" from rfl), rowType_spec]
    cases typeOfRow r.nature <;> rfl
  unfold Fmx.rowAttrs at h
  simp only at h
  split at h
  · obtain ⟨a1, h1, h⟩ := bind_ok h
    obtain ⟨a2, h2, h⟩ := bind_ok h
    obtain ⟨a3, h3, h⟩ := bind_ok h
    rw [addAttr_other h (by decide), addAttr_other h3 (by decide), addSep_other h2 (by decide), addAttr_other h1 (by decide), h0]
  · cases h; exact h0

theorem fmxRow_spec {cfg : Fmx.Config} {colsep rowsep : String} {bb : Option Box} {r : View Content} {nodes : List Node}
    (hv : ∀ c ∈ r.owned, c.box.Valid) (h : Fmx.buildRow cfg colsep rowsep bb r = .ok nodes) : FmxSpec.RowFor cfg.useCals cfg.calsNs r nodes := by
  unfold Fmx.buildRow at h
  obtain ⟨a, h1, h⟩ := bind_ok h
  obtain ⟨es, h2, h⟩ := bind_ok h
  simp only at h
  refine ⟨.elem (Fmx.f "ROW") a none es none, ?_, rfl, rfl, rfl, rowAttrs_type h1, (mapM_ok_all₂ h2).imp_mem (fun c hc e he => buildCell_spec (hv c hc) he)⟩
  split at h
  · rename_i hx
    obtain ⟨i, hi, h⟩ := bind_ok h
    obtain ⟨j, hj, h⟩ := bind_ok h
    obtain ⟨k, hk, h⟩ := bind_ok h
    cases h
    right; exact ⟨_, _, rfl, hx, rowMarks_ok hi hj hk⟩
  · rename_i hx
    cases h
    left; exact ⟨rfl, by simpa using hx⟩

end Benker
