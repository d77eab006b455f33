import Verif.Spec.CalsLooks
import Verif.Lemmas.FormexLooks
import Verif.Lemmas.CalsWritten

/-! The attributes written by the CALS builder for the looks of a table. -/

namespace Benker
open PyM Cals CalsSpec FmxSpec

theorem rowTold_of {cfg : Cals.Config} {t : Table Content} {table : QName → Option String} {rowsep : String} {r : View Content} {a : Dict QName String}
    (hd : defaultSep t.styles "x-cell-border-bottom" = .ok rowsep) (ht : table (cfg.q "rowsep") = some rowsep)
    (h : rowAttrs cfg rowsep r = .ok a) : RowTold cfg.ns t table r (Dict.get? a) := by
  obtain ⟨l1, l2, l3, _⟩ := rowAttrs_looks h
  refine ⟨tells_of l2 (byWord_of _), ?_, tells_of l3 asText_of, ?_⟩
  · rw [show table ⟨cfg.ns, "rowsep"⟩ = some rowsep from ht]; exact line_told l1 hd
  · unfold rowAttrs at h
    obtain ⟨a1, h1, h⟩ := bind_ok h
    obtain ⟨a2, h2, h⟩ := bind_ok h
    intro k hk
    apply Classical.byContradiction
    intro hn
    simp only [List.mem_cons, List.not_mem_nil, or_false, not_or] at hn
    apply hk
    rw [addAttr_other h hn.2.2, addSep_other h2 hn.2.1, addAttr_other h1 hn.1]; rfl

theorem colTold_of {cfg : Cals.Config} {t : Table Content} {table : QName → Option String} {colsep rowsep : String} {v : View Content} {e : Node}
    (hd : defaultSep t.styles "x-cell-border-right" = .ok colsep) (ht : table (cfg.q "colsep") = some colsep)
    (hd' : defaultSep t.styles "x-cell-border-bottom" = .ok rowsep) (ht' : table (cfg.q "rowsep") = some rowsep)
    (h : buildColspec cfg colsep rowsep v = .ok e) : ColTold cfg.ns cfg.fl cfg.widthUnit t table v e.attr := by
  have hF : FmxSpec.ColLooks cfg.ns cfg.fl cfg.widthUnit t table v e.attr :=
    col_looks (cfg := ⟨false, true, cfg.ns, cfg.widthUnit, cfg.fl⟩) hd ht hd' ht' (by rw [fmx_colspec_eq]; exact h)
  refine ⟨hF.right, hF.bottom, hF.width, hF.align, ?_⟩
  unfold buildColspec at h
  simp only at h
  obtain ⟨a1, h1, h⟩ := bind_ok h
  obtain ⟨a3, h3, h⟩ := bind_ok h
  obtain ⟨a4, h4, h⟩ := bind_ok h
  cases h
  intro k hk
  apply Classical.byContradiction
  intro hn
  simp only [List.mem_cons, List.not_mem_nil, or_false, not_or] at hn
  apply hk
  have q : ∀ x, k.name ≠ x → cfg.q x ≠ k := by rintro x hx rfl; exact hx rfl
  show Dict.get? a4 k = none
  rw [addSep_other h4 hn.2.2.2.2.2, addSep_other h3 hn.2.2.2.2.1]
  have h0 : Dict.get? a1 k = none := by
    rw [addAttr_other h1 hn.2.2.1, Dict.get?_cons, if_neg (q _ hn.1), Dict.get?_cons, if_neg (q _ hn.2.1)]; rfl
  split
  · split
    · rw [Dict.get?_set, if_neg (q _ hn.2.2.2.1)]; exact h0
    · exact h0
  · exact h0

theorem cellTold_of {cfg : Cals.Config} {t : Table Content} {table : QName → Option String} {colsep rowsep : String} {bb : Box}
    {c : Cell Content} {a : Dict QName String}
    (hx : (∀ d ∈ t.cells, d.box.max.x ≤ bb.max.x) ∧ ∃ d ∈ t.cells, d.box.max.x = bb.max.x)
    (hy : (∀ d ∈ t.cells, d.box.max.y ≤ bb.max.y) ∧ ∃ d ∈ t.cells, d.box.max.y = bb.max.y)
    (hd : defaultSep t.styles "x-cell-border-right" = .ok colsep) (ht : table (cfg.q "colsep") = some colsep)
    (hd' : defaultSep t.styles "x-cell-border-bottom" = .ok rowsep) (ht' : table (cfg.q "rowsep") = some rowsep) (hc : c ∈ t.cells)
    (h : entryAttrs cfg colsep rowsep bb c = .ok a) : CellTold cfg.ns t table c (Dict.get? a) := by
  obtain ⟨l1, l2, l3, l4, l5, l6, l7, l8⟩ := entryAttrs_looks h
  simp only [Cell.max] at l1 l2 l3 l4
  refine ⟨?_, ?_, ?_, ?_, tells_of l5 (byWord_of _), tells_of l6 (byWord_of _), tells_of l7 asText_of, tells_of l8 asText_of, ?_⟩
  · rintro ⟨d, hdm, hlt⟩
    rw [show table ⟨cfg.ns, "colsep"⟩ = some colsep from ht]
    refine line_told (l1 ?_) hd
    have := hx.1 d hdm
    simp only [Cell.max] at hlt
    omega
  · intro hall
    refine l2 ?_
    obtain ⟨d, hdm, he⟩ := hx.2
    have h1 := hall d hdm
    have h2 := hx.1 c hc
    simp only [Cell.max] at h1
    omega
  · rintro ⟨d, hdm, hlt⟩
    rw [show table ⟨cfg.ns, "rowsep"⟩ = some rowsep from ht']
    refine line_told (l3 ?_) hd'
    have := hy.1 d hdm
    simp only [Cell.max] at hlt
    omega
  · intro hall
    refine l4 ?_
    obtain ⟨d, hdm, he⟩ := hy.2
    have h1 := hall d hdm
    have h2 := hy.1 c hc
    simp only [Cell.max] at h1
    omega
  · unfold entryAttrs at h
    obtain ⟨a1, h1, h⟩ := bind_ok h
    obtain ⟨a2, h2, h⟩ := bind_ok h
    obtain ⟨a3, h3, h⟩ := bind_ok h
    obtain ⟨a4, h4, h⟩ := bind_ok h
    simp only at h
    obtain ⟨a7, h7, h8⟩ := bind_ok h
    intro k hk
    apply Classical.byContradiction
    intro hn
    simp only [List.mem_cons, List.not_mem_nil, or_false, not_or] at hn
    obtain ⟨n1, n2, n3, n4, n5, n6, n7, n8, n9⟩ := hn
    have q : ∀ x, k.name ≠ x → cfg.q x ≠ k := by rintro x hx rfl; exact hx rfl
    apply hk
    rw [addAttr_other h8 n9, addAttr_other h7 n8]
    have h0 : Dict.get? a4 k = none := by
      rw [addAttr_other h4 n4, addAttr_other h3 n3, addSepIf_other h2 n2, addSepIf_other h1 n1]; rfl
    split
    · rw [Dict.get?_set, if_neg (q _ n7)]
      split
      · rw [Dict.get?_set, if_neg (q _ n6), Dict.get?_set, if_neg (q _ n5)]; exact h0
      · exact h0
    · split
      · rw [Dict.get?_set, if_neg (q _ n6), Dict.get?_set, if_neg (q _ n5)]; exact h0
      · exact h0

theorem tableTold_of {cfg : Cals.Config} {t : Table Content} {n : Nat} {a b : Dict QName String} (ha : tableAttrs cfg t = .ok a)
    (hb : tgroupAttrs cfg t n = .ok b) :
    TableTold cfg.ns cfg.tableInTgroup cfg.fl cfg.widthUnit t n (Dict.get? a) (Dict.get? b) := by
  obtain ⟨⟨f, f1, f2⟩, a2, a3, a4, a5, a6, a7⟩ := tableAttrs_looks ha
  obtain ⟨g1, g2⟩ := tgroupAttrs_looks hb
  refine ⟨⟨f, f2, frame_told f1⟩, ?_, ?_, ?_, tells_of a4 (byWord_of _), ?_, tells_of a6 asText_of, tells_of a7 (inUnit_of _), ?_, ?_, ?_⟩
  · cases htg : cfg.tableInTgroup with
    | true =>
      obtain ⟨⟨c, e1, e2⟩, -⟩ := g2 htg
      rw [if_pos rfl, show Dict.get? b ⟨cfg.ns, "colsep"⟩ = some c from e2]; exact line_table e1
    | false =>
      obtain ⟨⟨c, e1, e2⟩, -⟩ := a3 htg
      rw [if_neg (by simp), show Dict.get? a ⟨cfg.ns, "colsep"⟩ = some c from e2]; exact line_table e1
  · cases htg : cfg.tableInTgroup with
    | true =>
      obtain ⟨-, ⟨c, e1, e2⟩, -⟩ := g2 htg
      rw [if_pos rfl, show Dict.get? b ⟨cfg.ns, "rowsep"⟩ = some c from e2]; exact line_table e1
    | false =>
      obtain ⟨-, ⟨c, e1, e2⟩, -⟩ := a3 htg
      rw [if_neg (by simp), show Dict.get? a ⟨cfg.ns, "rowsep"⟩ = some c from e2]; exact line_table e1
  · cases htg : cfg.tableInTgroup with
    | true => rw [if_pos rfl]; exact (g2 htg).2.2
    | false => rw [if_neg (by simp)]; exact (a3 htg).2.2
  · refine tells_of a5 ?_
    intro v s h
    cases h; rfl
  · refine ⟨intStr n, ?_, isNumber_intStr⟩
    unfold tgroupAttrs at hb
    simp only at hb
    have b0 : Dict.get? [(cfg.q "cols", intStr n)] (cfg.q "cols") = some (intStr n) := by simp [Dict.get?_cons]
    have q : ∀ x, "cols" ≠ x → cfg.q x ≠ cfg.q "cols" := fun x hx e => hx (congrArg QName.name e).symm
    split at hb
    · obtain ⟨s1, e1, hb⟩ := bind_ok hb
      obtain ⟨s2, e2, hb⟩ := bind_ok hb
      cases hb
      show Dict.get? _ (cfg.q "cols") = _
      split
      · rw [Dict.get?_set, if_neg (q _ (by decide)), Dict.get?_set, if_neg (q _ (by decide)), Dict.get?_set, if_neg (q _ (by decide))]; exact b0
      · rw [Dict.get?_set, if_neg (q _ (by decide)), Dict.get?_set, if_neg (q _ (by decide))]; exact b0
    · cases hb; exact b0
  · intro k hk
    apply Classical.byContradiction
    intro hn
    simp only [List.mem_cons, List.not_mem_nil, or_false, not_or, not_and_or] at hn
    obtain ⟨⟨n1, n2, n3, n4, n5⟩, n6⟩ := hn
    have q : ∀ x, k.name ≠ x → cfg.q x ≠ k := by rintro x hx rfl; exact hx rfl
    apply hk
    unfold tableAttrs at ha
    obtain ⟨f, hf, ha⟩ := bind_ok ha
    simp only at ha
    have h0 : Dict.get? [(cfg.q "frame", f)] k = none := by rw [Dict.get?_cons, if_neg (q _ n1)]; rfl
    split at ha
    · obtain ⟨a0, ha0, ha⟩ := bind_ok ha
      cases ha0
      obtain ⟨a1, h1, ha⟩ := bind_ok ha
      obtain ⟨a2, h2, ha⟩ := bind_ok ha
      obtain ⟨a3, h3, ha⟩ := bind_ok ha
      rw [addAttr_other ha n5, addAttr_other h3 n4, addAttr_other h2 n3, addAttr_other h1 n2, h0]
    · rename_i htg
      obtain ⟨s1, _, ha⟩ := bind_ok ha
      obtain ⟨s2, _, ha⟩ := bind_ok ha
      obtain ⟨a0, ha0, ha⟩ := bind_ok ha
      cases ha0
      obtain ⟨a1, h1, ha⟩ := bind_ok ha
      obtain ⟨a2, h2, ha⟩ := bind_ok ha
      obtain ⟨a3, h3, ha⟩ := bind_ok ha
      rw [addAttr_other ha n5, addAttr_other h3 n4, addAttr_other h2 n3, addAttr_other h1 n2]
      rcases n6 with n6 | ⟨n7, n8, n9⟩
      · exact absurd (by simpa using htg) n6
      · split
        · rw [Dict.get?_set, if_neg (q _ n9), Dict.get?_set, if_neg (q _ n8), Dict.get?_set, if_neg (q _ n7), h0]
        · rw [Dict.get?_set, if_neg (q _ n8), Dict.get?_set, if_neg (q _ n7), h0]
  · intro k hk
    apply Classical.byContradiction
    intro hn
    simp only [List.mem_cons, List.not_mem_nil, or_false, not_or, not_and_or] at hn
    obtain ⟨n1, n6⟩ := hn
    have q : ∀ x, k.name ≠ x → cfg.q x ≠ k := by rintro x hx rfl; exact hx rfl
    apply hk
    have h0 : Dict.get? [(cfg.q "cols", intStr n)] k = none := by rw [Dict.get?_cons, if_neg (q _ n1)]; rfl
    unfold tgroupAttrs at hb
    simp only at hb
    split at hb
    · rename_i htg
      obtain ⟨s1, e1, hb⟩ := bind_ok hb
      obtain ⟨s2, e2, hb⟩ := bind_ok hb
      cases hb
      rcases n6 with n6 | ⟨n7, n8, n9⟩
      · exact absurd htg n6
      · split
        · rw [Dict.get?_set, if_neg (q _ n9), Dict.get?_set, if_neg (q _ n8), Dict.get?_set, if_neg (q _ n7), h0]
        · rw [Dict.get?_set, if_neg (q _ n8), Dict.get?_set, if_neg (q _ n7), h0]
    · cases hb; exact h0

theorem calsRow_attrs {cfg : Cals.Config} {colsep rowsep : String} {bb : Option Box} {r : View Content} {nodes : List Node}
    (h : Cals.buildRow cfg colsep rowsep bb r = .ok nodes) : ∃ a es, Cals.rowAttrs cfg rowsep r = .ok a ∧
      All₂ (fun c e => Cals.buildCell cfg colsep rowsep bb c = .ok e) r.owned es ∧
      nodes.filter (fun n => n.tag?.isSome) = [.elem (cfg.q "row") a none es none] := by
  unfold Cals.buildRow at h
  obtain ⟨a, h1, h⟩ := bind_ok h
  obtain ⟨es, h2, h⟩ := bind_ok h
  simp only at h
  refine ⟨a, es, h1, mapM_ok_all₂ h2, ?_⟩
  split at h
  · obtain ⟨i, _, h⟩ := bind_ok h
    obtain ⟨j, _, h⟩ := bind_ok h
    obtain ⟨k, _, h⟩ := bind_ok h
    cases h; rfl
  · cases h; rfl

theorem calsCell_attrs {cfg : Cals.Config} {colsep rowsep : String} {bb : Option Box} {c : Cell Content} {e : Node}
    (h : Cals.buildCell cfg colsep rowsep bb c = .ok e) : ∃ b a, bb = some b ∧ entryAttrs cfg colsep rowsep b c = .ok a ∧ e.attr = Dict.get? a := by
  unfold Cals.buildCell at h
  cases bb with
  | none => cases h
  | some b =>
    simp only at h
    obtain ⟨a, h1, h⟩ := bind_ok h
    obtain ⟨f, h2, h⟩ := bind_ok h
    cases h
    exact ⟨b, a, rfl, h1, rfl⟩

end Benker
