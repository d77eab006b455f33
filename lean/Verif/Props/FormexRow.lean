import Verif.Spec.Formex
import Verif.Lemmas.FormexRow
import Verif.Lemmas.CalsRoundTrip
import Verif.Props.CalsStyles
import Verif.Model.FormexParser

/-! C49: row styles are read and written consistently. -/

namespace Benker
open FmxSpec

theorem number_digits (l : List Char) : number l = Unicode.value l := rfl

theorem optText_toList (pre : String) (o : Option String) :
    ((o.map (pre ++ ·)).getD "").toList = optText pre.toList (o.map String.toList) := by
  cases o <;> simp [optText]

/-- every style of the grammar is decoded into its tag, its type and its level -/
theorem C49_grammar (s tag : String) (type level : Option String) (h : IsRowStyle s tag type level) :
    Fmx.guessRowInfo (some s) = ⟨tag, type, (level.map (fun l => number l.toList)).getD 0⟩ := by
  obtain ⟨h1, h2, h3, e, he, rfl⟩ := h
  have hty : ∀ t, type.map String.toList = some t → ∃ w ∈ Fmx.types, t = w.toList := by
    intro t ht
    obtain ⟨u, hu, rfl⟩ := Option.map_eq_some_iff.mp ht
    exact ⟨u, h2 u hu, rfl⟩
  have hlv : ∀ l, level.map String.toList = some l → l ≠ [] ∧ ∀ c ∈ l, Unicode.isDigit c = true := by
    intro l hl
    obtain ⟨u, hu, rfl⟩ := Option.map_eq_some_iff.mp hl
    obtain ⟨p, q⟩ := h3 u hu
    exact ⟨fun h => p (String.toList_inj.mp (by simpa using h)), fun c hc => Unicode.isDigit_iff.mpr (q c hc)⟩
  have he' : e.toList = [] ∨ e.toList = ['\n'] := by
    rcases he with rfl | rfl
    · exact .inl rfl
    · exact .inr rfl
  obtain ⟨tl, hm⟩ := rowMatches_run tag h1 _ _ hty hlv e.toList he'
  unfold Fmx.guessRowInfo
  simp only [String.toList_append, optText_toList]
  rw [show ("-" : String).toList = ['-'] from rfl, hm]
  cases type <;> cases level <;> simp [number_digits]

example : IsRowStyle "TI.BLK-TOTAL-level12" "TI.BLK" (some "TOTAL") (some "12") where
  tag_mem := by decide
  type_mem := by simp
  level_digits := by
    rintro l ⟨⟩
    decide +kernel
  text := ⟨"", .inl rfl, by decide⟩

/-- every other text, and no text at all, is read as a plain row of level 0 -/
theorem C49_outside (s : Option String) (h : ∀ t tag type level, s = some t → ¬ IsRowStyle t tag type level) :
    Fmx.guessRowInfo s = ⟨"ROW", none, 0⟩ := by
  cases s with
  | none => rfl
  | some t =>
    unfold Fmx.guessRowInfo
    simp only
    cases hm : Fmx.rowMatches t.toList with
    | nil => rfl
    | cons m tl =>
      exfalso
      obtain ⟨⟨w, hw, e1⟩, h2, h3, e, he, hs⟩ := rowMatches_mem (by rw [hm]; exact List.mem_cons_self : m ∈ Fmx.rowMatches t.toList)
      refine h t w (m.2.1.map String.ofList) (m.2.2.map String.ofList) rfl ⟨hw, ?_, ?_, String.ofList e, ?_, ?_⟩
      · intro u hu
        obtain ⟨v, hv, rfl⟩ := Option.map_eq_some_iff.mp hu
        obtain ⟨x, hx, rfl⟩ := h2 v hv
        rw [String.ofList_toList]; exact hx
      · intro u hu
        obtain ⟨v, hv, rfl⟩ := Option.map_eq_some_iff.mp hu
        obtain ⟨p, q⟩ := h3 v hv
        exact ⟨fun h0 => p (by have := congrArg String.toList h0; simpa using this),
          fun c hc => Unicode.isDigit_iff.mp (q c (by rwa [String.toList_ofList] at hc))⟩
      · rcases he with rfl | rfl
        · exact .inl rfl
        · exact .inr rfl
      · apply String.toList_inj.mp
        rw [hs, e1]
        have hid : ∀ o : Option (List Char), (o.map String.ofList).map String.toList = o := by intro o; cases o <;> simp
        simp only [String.toList_append, optText_toList, hid, String.toList_ofList]
        rfl

example : ∀ t tag type level, some "ROW-OTHER" = some t → ¬ IsRowStyle t tag type level := by
  intro t tag type level h hs
  cases h
  have := C49_grammar _ _ _ _ hs
  rw [show Fmx.guessRowInfo (some "ROW-OTHER") = ⟨"ROW", none, 0⟩ by decide +kernel] at this
  injection this with h1 h2 h3
  subst h1 h2
  obtain ⟨e, he, ht⟩ := hs.text
  have ht := congrArg String.toList ht
  cases level <;> rcases he with rfl | rfl <;> simp at ht

theorem wf_mapStyle {n : Node} {a : QName} {map : List (String × StyleVal)} {key : String} {s : Styles} (h : Dict.WF s) :
    Dict.WF (CalsP.mapStyle n a map key s) := by
  unfold CalsP.mapStyle
  repeat' split
  all_goals first | exact h | exact Dict.wf_set h _ _

theorem wf_copyStyle {n : Node} {a : QName} {key : String} {s : Styles} (h : Dict.WF s) : Dict.WF (CalsP.copyStyle n a key s) := by
  unfold CalsP.copyStyle
  repeat' split
  all_goals first | exact h | exact Dict.wf_set h _ _

theorem wf_calsRowStyles (cfg : FmxP.Config) (n : Node) : Dict.WF (FmxP.calsRowStyles cfg n) :=
  wf_copyStyle (wf_copyStyle (wf_mapStyle (wf_mapStyle Dict.wf_nil)))

/-- the element has no attribute `rowstyle`, or an empty one -/
def NoRowStyle (cfg : FmxP.Config) (n : Node) : Prop := n.attr (cfg.q "rowstyle") = none ∨ n.attr (cfg.q "rowstyle") = some ""

theorem get?_calsRowStyles {cfg : FmxP.Config} {n : Node} (h : NoRowStyle cfg n) : Dict.get? (FmxP.calsRowStyles cfg n) "rowstyle" = none := by
  unfold FmxP.calsRowStyles
  simp only
  have hc : ∀ s : Styles, CalsP.copyStyle n (cfg.q "rowstyle") "rowstyle" s = s := by
    intro s; unfold CalsP.copyStyle
    rcases h with h | h <;> simp [h]
  rw [hc, copyStyle_get_ne _ _ _ _ _ (by decide), mapStyle_get_ne _ _ _ _ _ _ (by decide), mapStyle_get_ne _ _ _ _ _ _ (by decide)]
  rfl

theorem intStr_nat (n : Nat) : (Cals.intStr (n : Int)).toList = Coord.natDigits n := by
  rw [intStr_digits (by omega)]; simp

theorem number_intStr (n : Nat) : number (Cals.intStr (n : Int)).toList = n := by
  rw [intStr_nat]; exact decimal_natDigits n

theorem intStr_isLevel (n : Nat) : Cals.intStr (n : Int) ≠ "" ∧ ∀ c ∈ (Cals.intStr (n : Int)).toList, CalsSpec.IsDigit c := by
  refine ⟨fun h => ?_, ?_⟩
  · have := congrArg String.toList h
    rw [intStr_nat] at this
    exact natDigits_ne n (by simpa using this)
  · rw [intStr_nat]; exact fun c hc => Unicode.isDigit_ascii (natDigits_isDigit n c hc)

/-- The style which the parser gives to a row is decoded by the builder into the type of the row and the number of its enclosing blocks. -/
theorem C49_row_round_trip (cfg : FmxP.Config) (n : Node) (blk : Nat) (hs : NoRowStyle cfg n)
    (ht : ∀ t, n.attr (cfg.f "TYPE") = some t → t ∈ ["", "ALIAS", "HEADER", "NORMAL", "NOTCOL", "TOTAL"]) :
    ∃ s : Option String, Dict.get? (FmxP.rowStyles cfg blk n) "rowstyle" = s.map StyleVal.str ∧
      Fmx.guessRowInfo s = ⟨"ROW", (n.attr (cfg.f "TYPE")).filter (· ≠ ""), blk⟩ := by
  refine ⟨FmxP.rowStyle (n.attr (cfg.f "TYPE")) blk, ?_, ?_⟩
  · unfold FmxP.rowStyles
    rw [Dict.get?_update (wf_calsRowStyles cfg n), get?_calsRowStyles hs]
    cases FmxP.rowStyle (n.attr (cfg.f "TYPE")) blk <;> rfl
  · generalize n.attr (cfg.f "TYPE") = ty at ht
    have hty : ∀ t, ty.filter (· ≠ "") = some t → t ∈ ["ALIAS", "HEADER", "NORMAL", "NOTCOL", "TOTAL"] := by
      intro t h
      obtain ⟨h1, h2⟩ := Option.filter_eq_some_iff.mp h
      have := ht t h1
      simp only [List.mem_cons] at this
      rcases this with rfl | this
      · simp at h2
      · simpa using this
    by_cases hb : blk = 0
    · subst hb
      cases hf : ty.filter (· ≠ "") with
      | none =>
        have : FmxP.rowStyle ty 0 = none := by
          cases ty with
          | none => rfl
          | some t =>
            by_cases h0 : t = ""
            · subst h0; rfl
            · simp [Option.filter, h0] at hf
        rw [this]; rfl
      | some t =>
        obtain ⟨rfl, h2⟩ := Option.filter_eq_some_iff.mp hf
        have h2 : t ≠ "" := by simpa using h2
        have : FmxP.rowStyle (some t) 0 = some ("ROW" ++ "-" ++ t) := by simp [FmxP.rowStyle, h2]
        rw [this]
        exact C49_grammar _ "ROW" (some t) none ⟨by decide, by intro u hu; cases hu; exact hty t hf, by simp, "", .inl rfl, by
          apply String.toList_inj.mp
          simp⟩
    · cases hf : ty.filter (· ≠ "") with
      | none =>
        have : FmxP.rowStyle ty blk = some ("ROW" ++ "-" ++ FmxP.levelText blk) := by
          cases ty with
          | none => simp [FmxP.rowStyle, hb]
          | some t =>
            by_cases h0 : t = ""
            · subst h0; simp [FmxP.rowStyle, hb]
            · simp [Option.filter, h0] at hf
        rw [this]
        have := C49_grammar ("ROW" ++ "-" ++ FmxP.levelText blk) "ROW" none (some (Cals.intStr blk)) ⟨by decide, by simp, by
          intro l hl; cases hl; exact intStr_isLevel blk, "", .inl rfl, by
          simp only [FmxP.levelText, Option.map_some, Option.map_none, Option.getD_some, Option.getD_none, String.append_empty, ← String.append_assoc]; rfl⟩
        simpa [number_intStr] using this
      | some t =>
        obtain ⟨rfl, h2⟩ := Option.filter_eq_some_iff.mp hf
        have h2 : t ≠ "" := by simpa using h2
        have : FmxP.rowStyle (some t) blk = some ("ROW" ++ "-" ++ t ++ "-" ++ FmxP.levelText blk) := by simp [FmxP.rowStyle, h2, hb]; rfl
        rw [this]
        have := C49_grammar ("ROW" ++ "-" ++ t ++ "-" ++ FmxP.levelText blk) "ROW" (some t) (some (Cals.intStr blk)) ⟨by decide, by
          intro u hu; cases hu; exact hty t hf, by
          intro l hl; cases hl; exact intStr_isLevel blk, "", .inl rfl, by
          apply String.toList_inj.mp
          simp [FmxP.levelText]⟩
        simpa [number_intStr] using this

/-- a total row in three blocks -/
def totalRow : Node := .elem ⟨none, "ROW"⟩ [(⟨none, "TYPE"⟩, "TOTAL")] none [] none

example : NoRowStyle ⟨none, none, false⟩ totalRow ∧
    (∀ t, totalRow.attr (FmxP.Config.f ⟨none, none, false⟩ "TYPE") = some t → t ∈ ["", "ALIAS", "HEADER", "NORMAL", "NOTCOL", "TOTAL"]) ∧
    Dict.get? (FmxP.rowStyles ⟨none, none, false⟩ 3 totalRow) "rowstyle" = some (.str "ROW-TOTAL-level3") := by
  refine ⟨.inl rfl, ?_, by decide +kernel⟩
  intro t h
  have : t = "TOTAL" := by injection h with h; exact h.symm
  subst this; decide

/-- The style which the parser gives to a title is decoded by the builder into the tag of the title and the number of its enclosing blocks. -/
theorem C49_title_round_trip (cfg : FmxP.Config) (n : Node) (tag : String) (htag : tag ∈ ["TI.BLK", "STI.BLK"]) (blk : Nat) (hs : NoRowStyle cfg n) :
    ∃ s : String, Dict.get? (FmxP.titleStyles cfg tag blk n) "rowstyle" = some (.str s) ∧ Fmx.guessRowInfo (some s) = ⟨tag, none, blk⟩ := by
  refine ⟨FmxP.titleStyle tag blk, ?_, ?_⟩
  · unfold FmxP.titleStyles
    rw [Dict.get?_update (wf_calsRowStyles cfg n), get?_calsRowStyles hs]
    rfl
  · have := C49_grammar (FmxP.titleStyle tag blk) tag none (some (Cals.intStr blk)) ⟨List.mem_cons_of_mem _ htag, by simp, by
      intro l hl; cases hl; exact intStr_isLevel blk, "", .inl rfl, by
      apply String.toList_inj.mp
      simp [FmxP.titleStyle, FmxP.levelText]⟩
    simpa [number_intStr] using this

example : NoRowStyle ⟨none, none, false⟩ (.elem ⟨none, "STI.BLK"⟩ [] none [] none) := .inl rfl

end Benker
