import Verif.Spec.Writable
import Verif.Props.Units
import Verif.Props.CalsStyles
import Verif.Props.CalsBuilder
import Verif.Lemmas.FormexBuilder

/-! When the steps of the builders succeed. -/

namespace Benker
open CalsSpec Writable PyM

/-- the step succeeds -/
def Ok {α : Type} (x : Except PyErr α) : Prop := ∃ a, x = .ok a

theorem ok_ok {α : Type} (a : α) : Ok (.ok a) := ⟨a, rfl⟩
theorem ok_pure {α : Type} (a : α) : Ok (pure a) := ⟨a, rfl⟩
theorem not_ok {α : Type} (e : PyErr) : ¬ Ok (.error e : Except PyErr α) := fun ⟨_, h⟩ => by cases h

theorem ok_bind_iff {α β : Type} {x : Except PyErr α} {f : α → Except PyErr β} {P Q : Prop} (hx : Ok x ↔ P) (hf : ∀ a, x = .ok a → (Ok (f a) ↔ Q)) :
    Ok (x >>= f) ↔ P ∧ Q := by
  constructor
  · rintro ⟨b, hb⟩
    obtain ⟨a, h1, h2⟩ := bind_ok hb
    exact ⟨hx.mp ⟨a, h1⟩, (hf a h1).mp ⟨b, h2⟩⟩
  · rintro ⟨hp, hq⟩
    obtain ⟨a, ha⟩ := hx.mpr hp
    obtain ⟨b, hb⟩ := (hf a ha).mpr hq
    exact ⟨b, by rw [ha]; exact hb⟩

theorem ok_mapM_iff {α β : Type} {f : α → Except PyErr β} (l : List α) : Ok (l.mapM f) ↔ ∀ a ∈ l, Ok (f a) := by
  constructor
  · rintro ⟨bs, h⟩ a ha
    obtain ⟨b, _, hb⟩ := (mapM_ok_all₂ h).mem_left ha
    exact ⟨b, hb⟩
  · intro h
    obtain ⟨bs, h1, _⟩ := mapM_ok_of_forall (P := fun _ _ => True) l (fun a ha => by obtain ⟨b, hb⟩ := h a ha; exact ⟨b, hb, trivial⟩)
    exact ⟨bs, h1⟩

/-! ### lengths -/

theorem number_at_digit {c : Char} (hc : c.isDigit = true) (r : List Char) : Units.numberRe (c :: r) ≠ [] := by
  have hs : Re.plus Char.isDigit (c :: r) ≠ [] := by
    unfold Re.plus
    rw [Re.seq_apply, Re.cls_cons, if_pos hc]
    have : Re.star Char.isDigit r ≠ [] := by cases r <;> simp [Re.star]; split <;> simp
    simpa using this
  intro h
  unfold Units.numberRe at h
  rw [Re.seq_apply, Re.opt_apply, List.flatMap_append, List.append_eq_nil_iff] at h
  have h2 := h.2
  rw [List.flatMap_cons, List.append_eq_nil_iff] at h2
  have h3 := List.map_eq_nil_iff.mp h2.1
  rw [Re.seq_apply, Re.opt_apply, List.flatMap_append, List.append_eq_nil_iff] at h3
  have h4 := h3.2
  rw [List.flatMap_cons, List.append_eq_nil_iff] at h4
  exact hs (List.map_eq_nil_iff.mp h4.1)

theorem search_some {α : Type} (f : List Char → List α) : ∀ (pre s : List Char), f s ≠ [] → ∃ g, Re.search f (pre ++ s) = some g := by
  intro pre s h
  induction pre with
  | nil =>
    cases hf : f s with
    | nil => exact absurd hf h
    | cons g tl => exact ⟨g, Re.search_head f s g tl hf⟩
  | cons c pre ih =>
    rw [List.cons_append]
    unfold Re.search
    cases hf : f (c :: (pre ++ s)) with
    | nil => exact ih
    | cons g tl => exact ⟨g, rfl⟩

theorem search_from {α : Type} (f : List Char → List α) : ∀ (s : List Char) (g : α), Re.search f s = some g → ∃ s', g ∈ f s' := by
  intro s
  induction s with
  | nil => intro g h; exact ⟨[], List.mem_of_mem_head? h⟩
  | cons c r ih =>
    intro g h
    unfold Re.search at h
    cases hf : f (c :: r) with
    | nil => rw [hf] at h; exact ih g h
    | cons g' tl => rw [hf] at h; cases h; exact ⟨c :: r, by rw [hf]; simp⟩

theorem unit_from {s : List Char} {m : List Char × List Char} (h : m ∈ Units.unitRe s) : ∃ n ∈ lengthUnits, m.1 = n.toList := by
  have key : ∀ (w : List Char), m ∈ Re.lit w s → m.1 = w := by
    intro w hw
    unfold Re.lit at hw
    split at hw
    · rw [List.mem_singleton] at hw; rw [hw]
    · cases hw
  unfold Units.unitRe Re.alts at h
  obtain ⟨re, hre, hm⟩ := List.mem_flatMap.mp h
  simp only [List.mem_cons, List.not_mem_nil, or_false] at hre
  rcases hre with rfl | rfl | rfl | rfl | rfl | rfl | rfl | rfl | rfl <;> rw [key _ hm] <;> simp only [lengthUnits] <;>
    first
    | exact ⟨"cm", by simp, rfl⟩ | exact ⟨"dm", by simp, rfl⟩ | exact ⟨"ft", by simp, rfl⟩ | exact ⟨"in", by simp, rfl⟩ | exact ⟨"mm", by simp, rfl⟩
    | exact ⟨"pc", by simp, rfl⟩ | exact ⟨"pt", by simp, rfl⟩ | exact ⟨"px", by simp, rfl⟩ | exact ⟨"m", by simp, rfl⟩

theorem length_unit (fl : Rat → Rat) (u : List Char) : (∃ x, Dict.get? (Units.unitsTable fl) u = some x) ↔ ∃ n ∈ lengthUnits, u = n.toList := by
  unfold Units.unitsTable lengthUnits
  constructor
  · rintro ⟨x, h⟩
    simp only [Dict.get?_cons, Dict.get?_nil] at h
    repeat' split at h
    all_goals first
      | (cases h; done)
      | (next e => exact ⟨"mm", by simp, e.symm⟩) | (next e => exact ⟨"dm", by simp, e.symm⟩) | (next e => exact ⟨"cm", by simp, e.symm⟩)
      | (next e => exact ⟨"m", by simp, e.symm⟩) | (next e => exact ⟨"in", by simp, e.symm⟩) | (next e => exact ⟨"ft", by simp, e.symm⟩)
      | (next e => exact ⟨"px", by simp, e.symm⟩) | (next e => exact ⟨"pt", by simp, e.symm⟩) | (next e => exact ⟨"pc", by simp, e.symm⟩)
  · rintro ⟨n, hn, rfl⟩
    simp only [List.mem_cons, List.not_mem_nil, or_false] at hn
    rcases hn with rfl | rfl | rfl | rfl | rfl | rfl | rfl | rfl | rfl <;> exact ⟨_, rfl⟩

theorem ok_rewrite_iff (fl : Rat → Rat) (unit s : List Char) :
    Ok (Units.rewriteWidth fl unit s) ↔ (∃ c ∈ s, c.isDigit = true) ∧ ∃ n ∈ lengthUnits, unit = n.toList := by
  have hparse : (∃ c ∈ s, c.isDigit = true) → ∃ v u, Units.parseWidth fl s = .ok (v, u) ∧ ∃ n ∈ lengthUnits, u = n.toList := by
    rintro ⟨c, hc, hd⟩
    obtain ⟨pre, post, rfl⟩ := List.append_of_mem hc
    have hne := number_at_digit hd post
    obtain ⟨g, hg⟩ := search_some (fun s => (Units.numberRe s).flatMap (fun m => (Re.opt Units.unitRe m.2).map (fun n => (m.1, n.1)))) pre (c :: post) (by
      intro h
      cases hm : Units.numberRe (c :: post) with
      | nil => exact hne hm
      | cons m tl =>
        rw [hm, List.flatMap_cons, List.append_eq_nil_iff, List.map_eq_nil_iff] at h
        have := h.1
        rw [Re.opt_apply] at this
        simp at this)
    have hf : Re.find2 Units.numberRe Units.unitRe (pre ++ c :: post) = some g := hg
    obtain ⟨s', hs'⟩ := search_from _ _ _ hg
    obtain ⟨m, hm, h2⟩ := List.mem_flatMap.mp hs'
    obtain ⟨n, hn, rfl⟩ := List.mem_map.mp h2
    unfold Units.parseWidth
    rw [hf]
    refine ⟨_, _, rfl, ?_⟩
    rw [Re.opt_apply, List.mem_append, List.mem_singleton] at hn
    split
    · exact ⟨"mm", by simp [lengthUnits], rfl⟩
    · next hnil =>
      rcases hn with hn | rfl
      · exact unit_from hn
      · exact absurd rfl hnil
  unfold Units.rewriteWidth
  constructor
  · rintro ⟨w, hw⟩
    obtain ⟨⟨v, u⟩, h1, hw⟩ := bind_ok hw
    obtain ⟨x, h2, _⟩ := bind_ok hw
    constructor
    · refine Classical.byContradiction (fun hn => ?_)
      rw [Units.C56_no_number fl _ s (fun c hc => by
        cases hd : c.isDigit with
        | false => rfl
        | true => exact absurd ⟨c, hc, hd⟩ hn)] at h1
      cases h1
    · rw [← length_unit fl]
      unfold Units.convertValue at h2
      split at h2
      · next a b _ hb => exact ⟨b, hb⟩
      · cases h2
  · rintro ⟨hd, hu⟩
    obtain ⟨v, u, h1, hu'⟩ := hparse hd
    obtain ⟨a, ha⟩ := (length_unit fl u).mpr hu'
    obtain ⟨b, hb⟩ := (length_unit fl unit).mpr hu
    rw [h1, ok_bind]
    simp only [Units.convertValue, ha, hb]
    exact ⟨_, rfl⟩

/-! ### attributes -/

theorem ok_addAttr_iff (cfg : Cals.Config) (st : Styles) (key name : String) (f : StyleVal → Except PyErr String) (attrs : Dict QName String) :
    Ok (Cals.addAttr cfg st key name f attrs) ↔ ∀ v, Dict.get? st key = some v → Ok (f v) := by
  unfold Cals.addAttr
  cases Dict.get? st key with
  | none => exact ⟨fun _ v h => (by cases h), fun _ => ok_ok _⟩
  | some v =>
    simp only
    cases hf : f v with
    | error e => exact ⟨fun h => absurd h (not_ok _), fun h => by have := h v rfl; rw [hf] at this; exact absurd this (not_ok _)⟩
    | ok s => exact ⟨fun _ w h => by cases h; rw [hf]; exact ok_ok _, fun _ => ok_ok _⟩

theorem ok_attrValue_iff (v : StyleVal) : Ok (Cals.attrValue v) ↔ ∃ s, v = .str s := by
  cases v <;> simp [Cals.attrValue, Ok]

theorem ok_lookup_iff (table : List (String × String)) (v : StyleVal) : Ok (Cals.lookup table v) ↔ ∃ s ∈ table.map (·.1), v = .str s := by
  cases v with
  | str s =>
    simp only [Cals.lookup]
    cases h : Dict.get? table s with
    | none =>
      refine ⟨fun h => absurd h (not_ok _), ?_⟩
      rintro ⟨s', hs, he⟩
      cases he
      exact absurd ((Dict.get?_eq_none).mp h) (fun hn => by
        obtain ⟨p, hp, he⟩ := List.mem_map.mp hs
        exact hn (by rw [← he]; exact List.mem_map.mpr ⟨p, hp, rfl⟩))
    | some v =>
      refine ⟨fun _ => ⟨s, ?_, rfl⟩, fun _ => ok_ok _⟩
      refine Classical.byContradiction (fun hn => ?_)
      rw [(Dict.get?_eq_none).mpr hn] at h
      cases h
  | _ => exact ⟨fun h => absurd h (not_ok _), fun ⟨_, _, h⟩ => by cases h⟩

theorem ok_widthAttr_iff (cfg : Cals.Config) (v : StyleVal) :
    Ok (Cals.widthAttr cfg v) ↔ (∃ s : String, v = .str s ∧ ∃ c ∈ s.toList, c.isDigit = true) ∧ ∃ n ∈ lengthUnits, cfg.widthUnit = n.toList := by
  cases v with
  | str s =>
    simp only [Cals.widthAttr]
    rw [ok_bind_iff (Q := True) (ok_rewrite_iff cfg.fl cfg.widthUnit s.toList) (fun a _ => ⟨fun _ => trivial, fun _ => ok_pure _⟩)]
    constructor
    · rintro ⟨⟨h1, h2⟩, _⟩; exact ⟨⟨s, rfl, h1⟩, h2⟩
    · rintro ⟨⟨s', he, h1⟩, h2⟩; cases he; exact ⟨⟨h1, h2⟩, trivial⟩
  | _ => exact ⟨fun h => absurd h (not_ok _), fun ⟨⟨_, h, _⟩, _⟩ => by cases h⟩

theorem ok_text_iff (cfg : Cals.Config) (st : Styles) (key name : String) (attrs : Dict QName String) :
    Ok (Cals.addAttr cfg st key name Cals.attrValue attrs) ↔ Text st key := by
  rw [ok_addAttr_iff]
  exact ⟨fun h v hv => (ok_attrValue_iff v).mp (h v hv), fun h v hv => (ok_attrValue_iff v).mpr (h v hv)⟩

theorem ok_oneOf_iff (cfg : Cals.Config) (st : Styles) (key name : String) (table : List (String × String)) (attrs : Dict QName String) :
    Ok (Cals.addAttr cfg st key name (Cals.lookup table) attrs) ↔ OneOf st key (table.map (·.1)) := by
  rw [ok_addAttr_iff]
  exact ⟨fun h v hv => (ok_lookup_iff table v).mp (h v hv), fun h v hv => (ok_lookup_iff table v).mpr (h v hv)⟩

theorem ok_length_iff (cfg : Cals.Config) (st : Styles) (key name : String) (attrs : Dict QName String) :
    Ok (Cals.addAttr cfg st key name (Cals.widthAttr cfg) attrs) ↔ Length cfg.widthUnit st key := by
  rw [ok_addAttr_iff]
  exact ⟨fun h v hv => (ok_widthAttr_iff cfg v).mp (h v hv), fun h v hv => (ok_widthAttr_iff cfg v).mpr (h v hv)⟩

theorem ok_sep_iff (st : Styles) (key : String) : Ok (Cals.getSepAttr st key) ↔ Readable st key := by
  obtain ⟨h1, h2⟩ := C39_separator st key
  constructor
  · rintro ⟨a, ha⟩
    refine Classical.byContradiction (fun hn => ?_)
    rw [h2 hn] at ha; cases ha
  · intro h
    obtain ⟨v, _, _, e⟩ := h1 h
    exact ⟨_, e⟩

theorem ok_addSep_iff (cfg : Cals.Config) (st : Styles) (key name default : String) (attrs : Dict QName String) :
    Ok (Cals.addSep cfg st key name default attrs) ↔ Readable st key := by
  rw [← ok_sep_iff]
  unfold Cals.addSep
  cases h : Cals.getSepAttr st key with
  | error e => exact ⟨fun h => absurd h (not_ok _), fun h => absurd h (not_ok _)⟩
  | ok v => cases v <;> exact ⟨fun _ => ok_ok _, fun _ => ok_ok _⟩

theorem ok_addSepIf_iff (cond : Bool) (cfg : Cals.Config) (st : Styles) (key name default : String) (attrs : Dict QName String) :
    Ok (Cals.addSepIf cond cfg st key name default attrs) ↔ (cond = true → Readable st key) := by
  unfold Cals.addSepIf
  cases cond with
  | false => exact ⟨fun _ h => (by cases h), fun _ => ok_ok _⟩
  | true => rw [if_pos rfl, ok_addSep_iff]; exact ⟨fun h _ => h, fun h => h rfl⟩

theorem ok_defaultSep_iff (st : Styles) (key : String) : Ok (Cals.defaultSep st key) ↔ Readable st key := by
  rw [← ok_sep_iff]
  unfold Cals.defaultSep
  cases h : Cals.getSepAttr st key with
  | error e => exact ⟨fun h => absurd h (not_ok _), fun h => absurd h (not_ok _)⟩
  | ok v => cases v <;> exact ⟨fun _ => ok_ok _, fun _ => ok_ok _⟩

theorem ok_hasBorder_iff (st : Styles) (key : String) : Ok (Cals.hasBorder st key) ↔ Readable st key := by
  rcases hasBorder_spec st key with ⟨h, b, hb, _⟩ | ⟨h, hb⟩
  · exact ⟨fun _ => h, fun _ => ⟨b, hb⟩⟩
  · rw [hb]; exact ⟨fun h => absurd h (not_ok _), fun h' => absurd h' h⟩

theorem ok_frame_iff (st : Styles) : Ok (Cals.getFrameAttr st) ↔ ∀ key ∈ ["border-top", "border-right", "border-bottom", "border-left"], Readable st key := by
  unfold Cals.getFrameAttr
  rw [ok_bind_iff (ok_hasBorder_iff _ _) (fun _ _ => ok_bind_iff (ok_hasBorder_iff _ _) (fun _ _ => ok_bind_iff (ok_hasBorder_iff _ _) (fun _ _ =>
    ok_bind_iff (Q := True) (ok_hasBorder_iff _ _) (fun _ _ => ⟨fun _ => trivial, fun _ => ok_pure _⟩))))]
  simp

theorem ok_revAttr_iff (st : Styles) (key name : String) (f : StyleVal → Except PyErr String) :
    Ok (Cals.revAttr st key name f) ↔ ∀ v, Dict.get? st key = some v → Ok (f v) := by
  unfold Cals.revAttr
  cases Dict.get? st key with
  | none => exact ⟨fun _ v h => (by cases h), fun _ => ok_ok _⟩
  | some v =>
    simp only
    cases hf : f v with
    | error e => exact ⟨fun h => absurd h (not_ok _), fun h => by have := h v rfl; rw [hf] at this; exact absurd this (not_ok _)⟩
    | ok s => exact ⟨fun _ w h => by cases h; rw [hf]; exact ok_ok _, fun _ => ok_ok _⟩

theorem ok_append_iff (content : Option Content) : Ok (CellElem.append ⟨none, []⟩ content) ↔ Placeable content := by
  have piece : ∀ c : Option Content, IsPiece c ↔ (∃ s, c = some (.text s)) ∨ ∃ n, c = some (.node n) := by
    intro c
    cases c with
    | none => simp [IsPiece]
    | some c => cases c <;> simp [IsPiece]
  cases content with
  | none => exact ⟨fun _ => .nothing, fun _ => ⟨_, rfl⟩⟩
  | some c =>
    cases c with
    | text s => exact ⟨fun _ => .text s, fun _ => ⟨_, rfl⟩⟩
    | num s => exact ⟨fun _ => .number s, fun _ => ⟨_, rfl⟩⟩
    | node s => exact ⟨fun _ => .node s, fun _ => ⟨_, rfl⟩⟩
    | other s => exact ⟨fun h => absurd h (not_ok _), fun h => by cases h⟩
    | seq l =>
      constructor
      · intro h
        refine .pieces l (fun c hc => (piece c).mp ?_)
        refine Classical.byContradiction (fun hn => ?_)
        rw [C42_refused l ⟨c, hc, hn⟩] at h
        exact not_ok _ h
      · intro h
        cases h with
        | pieces _ h =>
          obtain ⟨f, hf, _⟩ := C42_mixed_content l (fun c hc => (piece c).mpr (h c hc))
          exact ⟨f, hf⟩

/-! ### the CALS builder -/

open Cals

theorem ok_tableAttrs_iff (cfg : Config) (t : Table Content) (hright : Readable t.styles "x-cell-border-right") (hbottom : Readable t.styles "x-cell-border-bottom") :
    Ok (tableAttrs cfg t) ↔ (∀ key ∈ ["border-top", "border-right", "border-bottom", "border-left"], Readable t.styles key) ∧
      OneOf t.styles "x-sect-orient" ["landscape", "portrait"] ∧ Text t.styles "background-color" ∧ Length cfg.widthUnit t.styles "width" := by
  have tail : ∀ attrs : Dict QName String, Ok (do
      let attrs ← addAttr cfg t.styles "x-sect-orient" "orient" (lookup [("landscape", "land"), ("portrait", "port")]) attrs
      let attrs ← addAttr cfg t.styles "x-sect-cols" "pgwide" (fun v => .ok (if v = .str "1" then "1" else "0")) attrs
      let attrs ← addAttr cfg t.styles "background-color" "bgcolor" attrValue attrs
      addAttr cfg t.styles "width" "width" (widthAttr cfg) attrs) ↔
      OneOf t.styles "x-sect-orient" ["landscape", "portrait"] ∧ Text t.styles "background-color" ∧ Length cfg.widthUnit t.styles "width" := by
    intro attrs
    rw [ok_bind_iff (ok_oneOf_iff _ _ _ _ _ _) (fun _ _ => ok_bind_iff (P := True) ?_ (fun _ _ => ok_bind_iff (ok_text_iff _ _ _ _ _) (fun _ _ => ok_length_iff _ _ _ _ _)))]
    · simp
    · rw [ok_addAttr_iff]
      exact ⟨fun _ => trivial, fun _ _ _ => ok_ok _⟩
  unfold tableAttrs
  simp only
  refine ok_bind_iff (ok_frame_iff _) (fun frame _ => ?_)
  split
  · exact tail _
  · obtain ⟨a, ha⟩ := (ok_defaultSep_iff _ _).mpr hright
    obtain ⟨b, hb⟩ := (ok_defaultSep_iff _ _).mpr hbottom
    rw [ha, hb]
    exact tail _

theorem ok_colspec_iff (cfg : Config) (colsep rowsep : String) (col : View Content) :
    Ok (Cals.buildColspec cfg colsep rowsep col) ↔ GoodColumn cfg.widthUnit col.styles := by
  unfold Cals.buildColspec
  simp only
  rw [ok_bind_iff (ok_length_iff _ _ _ _ _) (fun _ _ => ok_bind_iff (ok_addSep_iff _ _ _ _ _ _) (fun _ _ =>
    ok_bind_iff (Q := True) (ok_addSep_iff _ _ _ _ _ _) (fun _ _ => ⟨fun _ => trivial, fun _ => ok_pure _⟩)))]
  exact ⟨fun ⟨a, b, c, _⟩ => ⟨a, b, c⟩, fun ⟨a, b, c⟩ => ⟨a, b, c, trivial⟩⟩

theorem ok_entry_iff (cfg : Config) (colsep rowsep : String) (cells : List (Cell Content)) (bb : Box) (hbx : ∃ d ∈ cells, d.max.x = bb.max.x)
    (hby : ∃ d ∈ cells, d.max.y = bb.max.y) (hin : ∀ d ∈ cells, d.max.x ≤ bb.max.x ∧ d.max.y ≤ bb.max.y) (c : Cell Content) (hc : c ∈ cells) :
    Ok (Cals.buildCell cfg colsep rowsep (some bb) c) ↔ GoodCell cells c ∧ Placeable c.content := by
  unfold Cals.buildCell entryAttrs
  simp only
  rw [ok_bind_iff (ok_bind_iff (ok_addSepIf_iff _ _ _ _ _ _ _) (fun _ _ => ok_bind_iff (ok_addSepIf_iff _ _ _ _ _ _ _) (fun _ _ =>
    ok_bind_iff (ok_oneOf_iff _ _ _ _ _ _) (fun _ _ => ok_bind_iff (ok_oneOf_iff _ _ _ _ _ _) (fun _ _ => ok_bind_iff (ok_text_iff _ _ _ _ _) (fun _ _ =>
    ok_text_iff _ _ _ _ _)))))) (fun _ _ => ok_bind_iff (Q := True) (ok_append_iff _) (fun _ _ => ⟨fun _ => trivial, fun _ => ok_pure _⟩))]
  have hx : decide (c.box.max.x ≠ bb.max.x) = true ↔ ∃ d ∈ cells, c.max.x < d.max.x := by
    rw [decide_eq_true_eq]
    have := hin c hc
    simp only [Cell.max] at this ⊢
    constructor
    · intro hne
      obtain ⟨d, hd, he⟩ := hbx
      simp only [Cell.max] at he
      exact ⟨d, hd, by omega⟩
    · rintro ⟨d, hd, hlt⟩
      have := hin d hd
      simp only [Cell.max] at this
      omega
  have hy : decide (c.box.max.y ≠ bb.max.y) = true ↔ ∃ d ∈ cells, c.max.y < d.max.y := by
    rw [decide_eq_true_eq]
    have := hin c hc
    simp only [Cell.max] at this ⊢
    constructor
    · intro hne
      obtain ⟨d, hd, he⟩ := hby
      simp only [Cell.max] at he
      exact ⟨d, hd, by omega⟩
    · rintro ⟨d, hd, hlt⟩
      have := hin d hd
      simp only [Cell.max] at this
      omega
  have hv : (∀ v, Dict.get? c.styles "vertical-align" = some v → ∃ s ∈ ["top", "middle", "bottom", "baseline", "w-both"], v = .str s) ↔
      OneOf c.styles "vertical-align" cellAlignments := by
    unfold OneOf cellAlignments rowAlignments
    constructor
    · intro h v hv
      obtain ⟨s, hs, he⟩ := h v hv
      refine ⟨s, ?_, he⟩
      simp only [List.mem_cons, List.not_mem_nil, or_false] at hs ⊢
      tauto
    · intro h v hv
      obtain ⟨s, hs, he⟩ := h v hv
      refine ⟨s, ?_, he⟩
      simp only [List.mem_cons, List.not_mem_nil, or_false] at hs ⊢
      tauto
  constructor
  · rintro ⟨⟨h1, h2, h3, h4, h5, h6⟩, h7, _⟩
    exact ⟨⟨fun h => h1 (hx.mpr h), fun h => h2 (hy.mpr h), hv.mp h3, h4, h5, h6⟩, h7⟩
  · rintro ⟨⟨h1, h2, h3, h4, h5, h6⟩, h7⟩
    exact ⟨⟨fun h => h1 (hx.mp h), fun h => h2 (hy.mp h), hv.mpr h3, h4, h5, h6⟩, h7, trivial⟩

theorem ok_rowAttrs_iff (cfg : Config) (rowsep : String) (row : View Content) :
    Ok (Cals.rowAttrs cfg rowsep row) ↔ OneOf row.styles "vertical-align" rowAlignments ∧ Readable row.styles "border-bottom" ∧ Text row.styles "rowstyle" := by
  unfold Cals.rowAttrs
  rw [ok_bind_iff (ok_oneOf_iff _ _ _ _ _ _) (fun _ _ => ok_bind_iff (ok_addSep_iff _ _ _ _ _ _) (fun _ _ => ok_text_iff _ _ _ _ _))]
  rfl

theorem ok_marks_iff {β : Type} (st : Styles) (e : β) (g : List (String × String) → List (String × String) → List (String × String) → β) :
    Ok (if Dict.has st "x-ins" then do
        let id ← revAttr st "x-ins-id" "change-id" (fun v => .ok ("ct" ++ formatVal v))
        let author ← revAttr st "x-ins-author" "creator" attrValue
        let date ← revAttr st "x-ins-date" "date" attrValue
        pure (g id author date)
      else pure e) ↔ (Dict.get? st "x-ins" ≠ none → Text st "x-ins-author" ∧ Text st "x-ins-date") := by
  have htext : ∀ key name, Ok (revAttr st key name attrValue) ↔ Text st key := by
    intro key name
    rw [ok_revAttr_iff]
    exact ⟨fun h v hv => (ok_attrValue_iff v).mp (h v hv), fun h v hv => (ok_attrValue_iff v).mpr (h v hv)⟩
  have hhas : Dict.has st "x-ins" = true ↔ Dict.get? st "x-ins" ≠ none := by
    unfold Dict.has
    cases Dict.get? st "x-ins" <;> simp
  split
  · next h =>
    rw [ok_bind_iff (P := True) ?_ (fun _ _ => ok_bind_iff (htext _ _) (fun _ _ => ok_bind_iff (Q := True) (htext _ _) (fun _ _ => ⟨fun _ => trivial, fun _ => ok_pure _⟩)))]
    · exact ⟨fun ⟨_, a, b, _⟩ _ => ⟨a, b⟩, fun h' => ⟨trivial, (h' (hhas.mp h)).1, (h' (hhas.mp h)).2, trivial⟩⟩
    · rw [ok_revAttr_iff]
      exact ⟨fun _ => trivial, fun _ _ _ => ok_ok _⟩
  · next h => exact ⟨fun _ h' => absurd (hhas.mpr h') h, fun _ => ok_pure _⟩

end Benker

/-! ### the Formex builder -/

namespace Benker
open CalsSpec Writable PyM Cals

theorem ok_pageSize_iff (st : Styles) :
    Ok (Fmx.pageSize st) ↔ (Dict.get? st "x-sect-orient" ≠ none → ∀ v, Dict.get? st "x-sect-size" = some v → ∃ w h, v = .pair w h) := by
  unfold Fmx.pageSize
  cases ho : Dict.get? st "x-sect-orient" with
  | none => exact ⟨fun _ h => absurd rfl h, fun _ => ok_ok _⟩
  | some o =>
    simp only
    rw [ok_bind_iff (Q := True) (P := ∀ v, Dict.get? st "x-sect-size" = some v → ∃ w h, v = .pair w h) ?_ (fun _ _ => ⟨fun _ => trivial, fun _ => ok_pure _⟩)]
    · exact ⟨fun h _ => h.1, fun h => ⟨h (by simp), trivial⟩⟩
    · cases hs : Dict.get? st "x-sect-size" with
      | none => exact ⟨fun _ v h => (by cases h), fun _ => ok_ok _⟩
      | some v =>
        cases v with
        | pair w h => exact ⟨fun _ v h => by cases h; exact ⟨_, _, rfl⟩, fun _ => ok_ok _⟩
        | _ => exact ⟨fun h => absurd h (not_ok _), fun h => by obtain ⟨_, _, h⟩ := h _ rfl; cases h⟩

theorem ok_corpusAttrs_iff (cfg : Fmx.Config) (t : Table Content) : Ok (Fmx.corpusAttrs cfg t) ↔ (cfg.useCals = true → GoodTable cfg.widthUnit t.styles) := by
  unfold Fmx.corpusAttrs
  split
  · next hu =>
    rw [ok_bind_iff (ok_frame_iff _) (fun _ _ => ok_bind_iff (ok_defaultSep_iff _ _) (fun _ _ => ok_bind_iff (ok_defaultSep_iff _ _) (fun _ _ =>
      ok_bind_iff (ok_oneOf_iff _ _ _ _ _ _) (fun _ _ => ok_bind_iff (P := True) ?_ (fun _ _ => ok_bind_iff (ok_text_iff _ _ _ _ _) (fun _ _ => ok_length_iff _ _ _ _ _))))))]
    · constructor
      · rintro ⟨h1, h5, h6, h2, _, h3, h4⟩ _
        refine ⟨?_, h2, h3, h4⟩
        intro key hk
        simp only [List.mem_cons, List.not_mem_nil, or_false] at hk h1
        rcases hk with hk | hk | hk | hk | hk | hk
        · exact h1 _ (by simp [hk])
        · exact h1 _ (by simp [hk])
        · exact h1 _ (by simp [hk])
        · exact h1 _ (by simp [hk])
        · rw [hk]; exact h5
        · rw [hk]; exact h6
      · intro h
        obtain ⟨h1, h2, h3, h4⟩ := h hu
        refine ⟨fun key hk => h1 key ?_, h1 _ (by simp), h1 _ (by simp), h2, trivial, h3, h4⟩
        simp only [List.mem_cons, List.not_mem_nil, or_false] at hk ⊢
        tauto
    · rw [ok_addAttr_iff]
      exact ⟨fun _ => trivial, fun _ _ _ => ok_ok _⟩
  · next hu => exact ⟨fun _ h => absurd h hu, fun _ => ok_pure _⟩

theorem ok_fmxColspec_iff (cfg : Fmx.Config) (colsep rowsep : String) (col : View Content) :
    Ok (Fmx.buildColspec cfg colsep rowsep col) ↔ GoodColumn cfg.widthUnit col.styles := by
  unfold Fmx.buildColspec
  simp only
  rw [ok_bind_iff (ok_length_iff _ _ _ _ _) (fun _ _ => ok_bind_iff (ok_addSep_iff _ _ _ _ _ _) (fun _ _ =>
    ok_bind_iff (Q := True) (ok_addSep_iff _ _ _ _ _ _) (fun _ _ => ⟨fun _ => trivial, fun _ => ok_pure _⟩)))]
  exact ⟨fun ⟨a, b, c, _⟩ => ⟨a, b, c⟩, fun ⟨a, b, c⟩ => ⟨a, b, c, trivial⟩⟩

theorem ok_addCellStyle_iff (st : Styles) (attrs : Dict QName String) : Ok (Fmx.addCellStyle st attrs) ↔ Text st "cellstyle" := by
  unfold Fmx.addCellStyle Text
  cases Dict.get? st "cellstyle" with
  | none => exact ⟨fun _ v h => (by cases h), fun _ => ok_ok _⟩
  | some v =>
    simp only
    rw [ok_bind_iff (Q := True) (ok_attrValue_iff v) (fun _ _ => ⟨fun _ => trivial, fun _ => ok_pure _⟩)]
    exact ⟨fun h w hw => by cases hw; exact h.1, fun h => ⟨h v rfl, trivial⟩⟩

theorem good_cell_iff (cells : List (Cell Content)) (bb : Box) (hbx : ∃ d ∈ cells, d.max.x = bb.max.x)
    (hby : ∃ d ∈ cells, d.max.y = bb.max.y) (hin : ∀ d ∈ cells, d.max.x ≤ bb.max.x ∧ d.max.y ≤ bb.max.y) (c : Cell Content) (hc : c ∈ cells) :
    ((decide (c.box.max.x ≠ bb.max.x) = true → Readable c.styles "border-right") ∧ (decide (c.box.max.y ≠ bb.max.y) = true → Readable c.styles "border-bottom") ∧
      OneOf c.styles "vertical-align" ["top", "middle", "bottom", "baseline", "w-both"] ∧ OneOf c.styles "align" ["left", "right", "center", "justify"] ∧
      Text c.styles "background-color" ∧ Text c.styles "cellstyle") ↔ GoodCell cells c := by
  have hx : decide (c.box.max.x ≠ bb.max.x) = true ↔ ∃ d ∈ cells, c.max.x < d.max.x := by
    rw [decide_eq_true_eq]
    have := hin c hc
    simp only [Cell.max] at this ⊢
    constructor
    · intro hne
      obtain ⟨d, hd, he⟩ := hbx
      simp only [Cell.max] at he
      exact ⟨d, hd, by omega⟩
    · rintro ⟨d, hd, hlt⟩
      have := hin d hd
      simp only [Cell.max] at this
      omega
  have hy : decide (c.box.max.y ≠ bb.max.y) = true ↔ ∃ d ∈ cells, c.max.y < d.max.y := by
    rw [decide_eq_true_eq]
    have := hin c hc
    simp only [Cell.max] at this ⊢
    constructor
    · intro hne
      obtain ⟨d, hd, he⟩ := hby
      simp only [Cell.max] at he
      exact ⟨d, hd, by omega⟩
    · rintro ⟨d, hd, hlt⟩
      have := hin d hd
      simp only [Cell.max] at this
      omega
  have hv : OneOf c.styles "vertical-align" ["top", "middle", "bottom", "baseline", "w-both"] ↔ OneOf c.styles "vertical-align" cellAlignments := by
    unfold OneOf cellAlignments rowAlignments
    constructor
    · intro h v hv
      obtain ⟨s, hs, he⟩ := h v hv
      refine ⟨s, ?_, he⟩
      simp only [List.mem_cons, List.not_mem_nil, or_false] at hs ⊢
      tauto
    · intro h v hv
      obtain ⟨s, hs, he⟩ := h v hv
      refine ⟨s, ?_, he⟩
      simp only [List.mem_cons, List.not_mem_nil, or_false] at hs ⊢
      tauto
  constructor
  · rintro ⟨h1, h2, h3, h4, h5, h6⟩
    exact ⟨fun h => h1 (hx.mpr h), fun h => h2 (hy.mpr h), hv.mp h3, h4, h5, h6⟩
  · rintro ⟨h1, h2, h3, h4, h5, h6⟩
    exact ⟨fun h => h1 (hx.mp h), fun h => h2 (hy.mp h), hv.mpr h3, h4, h5, h6⟩

theorem ok_cellType_iff (c : Cell Content) (row : Option String) : Ok (Fmx.cellType c.nature row) ↔ KnownNature c row := by
  unfold Fmx.cellType KnownNature
  cases hn : c.nature with
  | none => exact ⟨fun _ => .inl rfl, fun _ => ok_ok _⟩
  | some n =>
    simp only
    split
    · next h =>
      refine ⟨fun _ => ?_, fun _ => ok_ok _⟩
      rcases h with rfl | h
      · exact .inr (.inl rfl)
      · exact .inr (.inr (.inl h))
    · next h =>
      repeat' split
      · next h => exact ⟨fun _ => by simp [h], fun _ => ok_ok _⟩
      · next h => exact ⟨fun _ => by simp [h], fun _ => ok_ok _⟩
      · next h => exact ⟨fun _ => by simp [h], fun _ => ok_ok _⟩
      · next h1 h2 h3 =>
        refine ⟨fun h => absurd h (not_ok _), ?_⟩
        simp only [List.mem_cons, List.not_mem_nil, or_false, Option.some.injEq]
        rintro (h' | h' | h' | h' | h' | h')
        · cases h'
        · exact absurd (.inl h') h
        · exact absurd (.inr h') h
        · exact absurd h' h1
        · exact absurd h' h2
        · exact absurd h' h3

theorem ok_fmxCell_iff (cfg : Fmx.Config) (colsep rowsep : String) (cells : List (Cell Content)) (bb : Box) (hbx : ∃ d ∈ cells, d.max.x = bb.max.x)
    (hby : ∃ d ∈ cells, d.max.y = bb.max.y) (hin : ∀ d ∈ cells, d.max.x ≤ bb.max.x ∧ d.max.y ≤ bb.max.y) (row : Option String) (c : Cell Content) (hc : c ∈ cells) :
    Ok (Fmx.buildCell cfg colsep rowsep (some bb) row c) ↔
      KnownNature c row ∧ (cfg.useCals = true → GoodCell cells c) ∧ (¬ FmxSpec.WrittenEmpty c → Placeable c.content) := by
  unfold Fmx.buildCell
  have h1 : Ok (Fmx.cellAttrs cfg colsep rowsep (some bb) c row) ↔ KnownNature c row ∧ (cfg.useCals = true → GoodCell cells c) := by
    unfold Fmx.cellAttrs
    refine ok_bind_iff (ok_cellType_iff c row) (fun ty _ => ?_)
    simp only
    split
    · next hu =>
      unfold Fmx.cellCalsAttrs
      simp only
      rw [ok_bind_iff (ok_addSepIf_iff _ _ _ _ _ _ _) (fun _ _ => ok_bind_iff (ok_addSepIf_iff _ _ _ _ _ _ _) (fun _ _ =>
        ok_bind_iff (ok_oneOf_iff _ _ _ _ _ _) (fun _ _ => ok_bind_iff (ok_oneOf_iff _ _ _ _ _ _) (fun _ _ => ok_bind_iff (ok_text_iff _ _ _ _ _) (fun _ _ =>
        ok_addCellStyle_iff _ _)))))]
      refine (good_cell_iff cells bb hbx hby hin c hc).trans ⟨fun h _ => h, fun h => h hu⟩
    · next hu => exact ⟨fun _ h => absurd h hu, fun _ => ok_pure _⟩
  rw [ok_bind_iff h1 (Q := ¬ FmxSpec.WrittenEmpty c → Placeable c.content) (fun _ _ => ?_)]
  · exact ⟨fun ⟨⟨a, b⟩, c⟩ => ⟨a, b, c⟩, fun ⟨a, b, c⟩ => ⟨⟨a, b⟩, c⟩⟩
  · split
    · next he => exact ⟨fun _ h => absurd ((isEmpty_iff c).mp he) h, fun _ => ok_pure _⟩
    · next he =>
      rw [ok_bind_iff (Q := True) (ok_append_iff _) (fun _ _ => ⟨fun _ => trivial, fun _ => ok_pure _⟩)]
      exact ⟨fun h _ => h.1, fun h => ⟨h (fun hw => he ((isEmpty_iff c).mpr hw)), trivial⟩⟩

theorem ok_fmxRowAttrs_iff (cfg : Fmx.Config) (rowsep : String) (row : View Content) :
    Ok (Fmx.rowAttrs cfg rowsep row) ↔ (cfg.useCals = true → (OneOf row.styles "vertical-align" rowAlignments ∧ Readable row.styles "border-bottom" ∧
      Text row.styles "rowstyle") ∧ Text row.styles "background-color") := by
  unfold Fmx.rowAttrs
  simp only
  split
  · next hu =>
    rw [ok_bind_iff (ok_oneOf_iff _ _ _ _ _ _) (fun _ _ => ok_bind_iff (ok_addSep_iff _ _ _ _ _ _) (fun _ _ => ok_bind_iff (ok_text_iff _ _ _ _ _) (fun _ _ => ok_text_iff _ _ _ _ _)))]
    exact ⟨fun ⟨a, b, c, d⟩ _ => ⟨⟨a, b, c⟩, d⟩, fun h => by obtain ⟨⟨a, b, c⟩, d⟩ := h hu; exact ⟨a, b, c, d⟩⟩
  · next hu => exact ⟨fun _ h => absurd h hu, fun _ => ok_pure _⟩

theorem ok_titleCell_iff (c : Cell Content) : Ok (Fmx.titleCell c) ↔ InTitle c := by
  have hnode : ∀ x : Option Content, Ok (Fmx.asNode x) ↔ ∃ n, x = some (.node n) := by
    intro x
    unfold Fmx.asNode
    split
    · next n => exact ⟨fun _ => ⟨n, rfl⟩, fun _ => ok_ok _⟩
    · next h => exact ⟨fun h' => absurd h' (not_ok _), fun ⟨n, hn⟩ => absurd hn (h n)⟩
  have hnodes : ∀ l : List (Option Content), (∀ x ∈ l, ∃ n, x = some (.node n)) → ∃ ns : List Node, l = ns.map (fun n => some (.node n)) := by
    intro l
    induction l with
    | nil => intro _; exact ⟨[], rfl⟩
    | cons x l ih =>
      intro h
      obtain ⟨n, rfl⟩ := h x (by simp)
      obtain ⟨ns, rfl⟩ := ih (fun y hy => h y (by simp [hy]))
      exact ⟨n :: ns, rfl⟩
  have hlist : ∀ l : List (Option Content), Ok (match l with
      | [] => .error .indexError
      | p :: ps => do
        let first ← Fmx.asNode p
        let others ← ps.mapM Fmx.asNode
        pure [Node.elem (Fmx.f "TI") [] none [first] none, .elem (Fmx.f "STI") [] none others none]) ↔
      ∃ (n : Node) (ns : List Node), l = (n :: ns).map (fun x => some (.node x)) := by
    intro l
    cases l with
    | nil => exact ⟨fun h => absurd h (not_ok _), fun ⟨_, _, h⟩ => by cases h⟩
    | cons p ps =>
      simp only
      rw [ok_bind_iff (hnode p) (fun _ _ => ok_bind_iff (Q := True) (ok_mapM_iff ps) (fun _ _ => ⟨fun _ => trivial, fun _ => ok_pure _⟩))]
      constructor
      · rintro ⟨⟨n, rfl⟩, h, _⟩
        obtain ⟨ns, rfl⟩ := hnodes ps (fun x hx => (hnode x).mp (h x hx))
        exact ⟨n, ns, rfl⟩
      · rintro ⟨n, ns, h⟩
        cases h
        refine ⟨⟨n, rfl⟩, fun x hx => ?_, trivial⟩
        obtain ⟨m, _, rfl⟩ := List.mem_map.mp hx
        exact (hnode _).mpr ⟨m, rfl⟩
  unfold Fmx.titleCell InTitle
  split
  · next he => exact ⟨fun _ => .inl ((isEmpty_iff c).mp he), fun _ => ok_ok _⟩
  · next he =>
    have he' : ¬ FmxSpec.WrittenEmpty c := fun h => he ((isEmpty_iff c).mpr h)
    split
    · next s hs => exact ⟨fun _ => .inr (.inl ⟨s, hs⟩), fun _ => ok_ok _⟩
    · next hs =>
      have hb : Ok (Fmx.paragraphs c.content >>= fun l => (match l with
          | [] => .error .indexError
          | p :: ps => do
            let first ← Fmx.asNode p
            let others ← ps.mapM Fmx.asNode
            pure [Node.elem (Fmx.f "TI") [] none [first] none, .elem (Fmx.f "STI") [] none others none] : Except PyErr (List Node))) ↔
          ∃ l, Fmx.paragraphs c.content = .ok l ∧ ∃ (n : Node) (ns : List Node), l = (n :: ns).map (fun x => some (.node x)) := by
        constructor
        · rintro ⟨a, ha⟩
          obtain ⟨l, h1, h2⟩ := bind_ok ha
          exact ⟨l, h1, (hlist l).mp ⟨a, h2⟩⟩
        · rintro ⟨l, h1, h2⟩
          obtain ⟨a, ha⟩ := (hlist l).mpr h2
          exact ⟨a, by rw [h1]; exact ha⟩
      refine hb.trans ?_
      unfold Fmx.paragraphs
      constructor
      · rintro ⟨l, h1, n, ns, rfl⟩
        split at h1
        · next l' hl => cases h1; exact .inr (.inr (.inl ⟨n, ns, hl⟩))
        · next e hl =>
          refine .inr (.inr (.inr ⟨e, hl, ?_⟩))
          intro hnil
          rw [hnil] at h1; cases h1
        · cases h1
      · rintro (h | ⟨s, h⟩ | ⟨n, ns, h⟩ | ⟨e, h, hne⟩)
        · exact absurd h he'
        · exact absurd h (hs s)
        · exact ⟨_, by rw [h], n, ns, rfl⟩
        · rw [h]
          cases hch : e.children with
          | nil => exact absurd hch hne
          | cons n ns => exact ⟨_, by simp only [hch], n, ns, rfl⟩

end Benker
