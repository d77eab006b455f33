import Verif.Spec.Cals
import Verif.Lemmas.Dict

/-! C38, C39: frames and separators of CALS tables. -/

namespace Benker
open Cals CalsSpec

theorem splitChar_words (s : List Char) : Words s (splitChar ' ' s) := by
  induction s with
  | nil => exact ⟨by simp [splitChar], by simp [splitChar], by simp [splitChar]⟩
  | cons c s ih =>
    obtain ⟨h1, h2, h3⟩ := ih
    unfold splitChar
    by_cases hc : c = ' '
    · subst hc
      rw [if_pos rfl]
      refine ⟨by simp, ?_, ?_⟩
      · intro w hw
        rcases List.mem_cons.mp hw with rfl | hw
        · simp
        · exact h2 w hw
      · cases hs : splitChar ' ' s with
        | nil => exact absurd hs h1
        | cons w ws => rw [hs] at h3; simp [← h3, List.intercalate]
    · rw [if_neg hc]
      cases hs : splitChar ' ' s with
      | nil => exact absurd hs h1
      | cons w ws =>
        rw [hs] at h2 h3
        simp only
        refine ⟨by simp, ?_, ?_⟩
        · intro x hx
          rcases List.mem_cons.mp hx with rfl | hx
          · have := h2 w (by simp)
            simp [this, Ne.symm hc]
          · exact h2 x (by simp [hx])
        · cases ws with
          | nil => simp [List.intercalate] at h3 ⊢; exact h3
          | cons v ws => simp [List.intercalate] at h3 ⊢; exact h3

theorem span_unique {a b s t : List Char} (ha : ' ' ∉ a) (hb : ' ' ∉ b) (h : a ++ ' ' :: s = b ++ ' ' :: t) : a = b ∧ s = t := by
  induction a generalizing b with
  | nil =>
    cases b with
    | nil => simpa using h
    | cons y b => simp at h hb; exact absurd h.1 hb.1
  | cons x a ih =>
    cases b with
    | nil => simp at h ha; exact absurd h.1.symm ha.1
    | cons y b =>
      simp at h ha hb
      obtain ⟨h1, h2⟩ := ih ha.2 hb.2 h.2
      exact ⟨by rw [h.1, h1], h2⟩

theorem words_unique {s : List Char} {ws ws' : List (List Char)} (h : Words s ws) (h' : Words s ws') : ws = ws' := by
  induction ws generalizing s ws' with
  | nil => exact absurd rfl h.1
  | cons w ws ih =>
    obtain ⟨_, h2, h3⟩ := h
    obtain ⟨h1', h2', h3'⟩ := h'
    cases ws' with
    | nil => exact absurd rfl h1'
    | cons w' ws' =>
      have hw := h2 w (by simp)
      have hw' := h2' w' (by simp)
      cases ws with
      | nil =>
        cases ws' with
        | nil => simp [List.intercalate] at h3 h3'; rw [h3, h3']
        | cons v' ws' =>
          simp [List.intercalate] at h3 h3'
          rw [← h3', ] at h3; rw [h3] at hw; simp at hw
      | cons v ws =>
        cases ws' with
        | nil =>
          simp [List.intercalate] at h3 h3'
          rw [← h3] at h3'; rw [h3'] at hw'; simp at hw'
        | cons v' ws' =>
          have e1 : [' '].intercalate (w :: v :: ws) = w ++ ' ' :: [' '].intercalate (v :: ws) := by simp [List.intercalate]
          have e2 : [' '].intercalate (w' :: v' :: ws') = w' ++ ' ' :: [' '].intercalate (v' :: ws') := by simp [List.intercalate]
          rw [e1] at h3; rw [e2] at h3'
          obtain ⟨f1, f2⟩ := span_unique hw hw' (h3.trans h3'.symm)
          have := ih (s := [' '].intercalate (v :: ws)) (ws' := v' :: ws') ⟨by simp, fun x hx => h2 x (by simp [hx]), rfl⟩
            ⟨by simp, fun x hx => h2' x (by simp [hx]), f2.symm⟩
          rw [f1, this]

theorem isKeyword_iff (w : List Char) : isKeyword w = true ↔ Keyword w := by
  unfold isKeyword Keyword
  simp only [Bool.and_eq_true, Bool.not_eq_true', decide_eq_true_eq, ne_eq, and_assoc]
  have h1 : ['p', 't'].isSuffixOf w = false ↔ ¬ ∃ a, w = a ++ ['p', 't'] := by
    rw [Bool.eq_false_iff, ne_eq, List.isSuffixOf_iff_suffix]
    simp only [List.IsSuffix, eq_comm]
  have h2 : ['#'].isPrefixOf w = false ↔ ¬ ∃ b, w = '#' :: b := by
    rw [Bool.eq_false_iff, ne_eq, List.isPrefixOf_iff_prefix]
    simp only [List.IsPrefix, List.singleton_append, eq_comm]
  rw [h1, h2]

theorem last_keyword (ws : List (List Char)) : ∀ init : Option (List Char),
    (ws.foldl (fun value part => if isKeyword part then some part else value) init = init ∧ ∀ w ∈ ws, ¬ Keyword w) ∨
    ∃ w, ws.foldl (fun value part => if isKeyword part then some part else value) init = some w ∧ LastKeyword ws w := by
  induction ws with
  | nil => intro init; left; simp
  | cons x ws ih =>
    intro init
    rw [List.foldl_cons]
    rcases ih (if isKeyword x then some x else init) with ⟨h1, h2⟩ | ⟨w, h1, a, b, h2, h3⟩
    · by_cases hx : Keyword x
      · right
        refine ⟨x, ?_, [], ws, rfl, hx, h2⟩
        rw [h1, if_pos ((isKeyword_iff x).mpr hx)]
      · left
        refine ⟨?_, ?_⟩
        · rw [h1, if_neg (fun h => hx ((isKeyword_iff x).mp h))]
        · intro w hw
          rcases List.mem_cons.mp hw with rfl | hw
          · exact hx
          · exact h2 w hw
    · right; exact ⟨w, h1, x :: a, b, by rw [h2]; rfl, h3⟩

theorem lastKeyword_unique {ws : List (List Char)} {v w : List Char} (hv : LastKeyword ws v) (hw : LastKeyword ws w) : v = w := by
  obtain ⟨a, b, h1, h2, h3⟩ := hv
  obtain ⟨a', b', h1', h2', h3'⟩ := hw
  rw [h1] at h1'
  rcases List.append_eq_append_iff.mp h1' with ⟨c, e1, e2⟩ | ⟨c, e1, e2⟩
  · cases c with
    | nil => simp at e2; exact e2.1
    | cons x c =>
      simp at e2
      exact absurd h2' (h3 w (by rw [e2.2]; simp))
  · cases c with
    | nil => simp at e2; exact e2.1.symm
    | cons x c =>
      simp at e2
      exact absurd h2 (h3' v (by rw [e2.2]; simp))

theorem borderIs_unique {styles : Styles} {key : String} {a b : Option (List Char)} (ha : BorderIs styles key a) (hb : BorderIs styles key b) :
    a = b := by
  cases ha with
  | absent h => cases hb with
    | keyword s ws w h' => exact absurd h' (h s)
    | _ => rfl
  | noKeyword s ws h hw hk => cases hb with
    | keyword s' ws' w h' hs hw' hk' =>
      rw [h] at h'; cases h'
      have := words_unique hw hw'; subst this
      obtain ⟨x, y, e, hx, _⟩ := hk'
      exact absurd hx (hk w (by rw [e]; simp))
    | _ => rfl
  | emptyText h => cases hb with
    | keyword s ws w h' hs => rw [h] at h'; cases h'; exact absurd rfl hs
    | _ => rfl
  | keyword s ws w h hs hw hk => cases hb with
    | absent h' => exact absurd h (h' s)
    | noKeyword s' ws' h' hw' hk' =>
      rw [h] at h'; cases h'
      have := words_unique hw hw'; subst this
      obtain ⟨x, y, e, hx, _⟩ := hk
      exact absurd hx (hk' w (by rw [e]; simp))
    | emptyText h' => rw [h] at h'; cases h'; exact absurd rfl hs
    | keyword s' ws' w' h' hs' hw' hk' =>
      rw [h] at h'; cases h'
      have := words_unique hw hw'; subst this
      rw [lastKeyword_unique hk hk']

/-- exact value of `_get_border_style` -/
theorem getBorderStyle_spec (styles : Styles) (key : String) :
    (Readable styles key ∧ ∃ v, getBorderStyle styles key = .ok v ∧ BorderIs styles key v) ∨
    (¬ Readable styles key ∧ getBorderStyle styles key = .error .attributeError) := by
  unfold getBorderStyle borderParts Readable
  cases hg : Dict.get? styles key with
  | none => left; exact ⟨trivial, none, rfl, .absent (by simp [hg])⟩
  | some v =>
    cases v with
    | none => left; exact ⟨trivial, none, rfl, .absent (by simp [hg])⟩
    | bool b =>
      cases b
      · left; exact ⟨rfl, none, rfl, .absent (by simp [hg])⟩
      · right; exact ⟨by simp, rfl⟩
    | int i =>
      by_cases hi : i = 0
      · subst hi; left; exact ⟨rfl, none, rfl, .absent (by simp [hg])⟩
      · right; exact ⟨hi, by simp [truthy, hi]⟩
    | pair a b => right; exact ⟨by simp, rfl⟩
    | str s =>
      left
      refine ⟨trivial, ?_⟩
      by_cases hs : s = ""
      · subst hs; exact ⟨none, by simp [truthy], .emptyText hg⟩
      · have hw := splitChar_words s.toList
        simp only [truthy, hs, ne_eq, not_false_eq_true, decide_true, if_true]
        rcases last_keyword (splitChar ' ' s.toList) none with ⟨h1, h2⟩ | ⟨w, h1, h2⟩
        · exact ⟨none, by rw [h1], .noKeyword s _ hg hw h2⟩
        · exact ⟨some w, by rw [h1], .keyword s _ w hg hs hw h2⟩

theorem hasBorder_spec (styles : Styles) (key : String) :
    (Readable styles key ∧ ∃ b, hasBorder styles key = .ok b ∧ (b = true ↔ Visible styles key)) ∨
    (¬ Readable styles key ∧ hasBorder styles key = .error .attributeError) := by
  unfold hasBorder
  rcases getBorderStyle_spec styles key with ⟨h0, v, h1, h2⟩ | ⟨h0, h1⟩
  · left
    refine ⟨h0, ?_⟩
    rw [h1]
    cases v with
    | none =>
      refine ⟨false, rfl, by simp, ?_⟩
      rintro ⟨w, hw, _⟩
      cases borderIs_unique h2 hw
    | some w =>
      refine ⟨_, rfl, ?_⟩
      simp only [ne_eq, Bool.and_eq_true, decide_eq_true_eq, noneText]
      constructor
      · rintro ⟨h3, h4⟩; exact ⟨w, h2, h3, of_decide_eq_true h4⟩
      · rintro ⟨w', hw', h3, h4⟩
        cases borderIs_unique h2 hw'
        exact ⟨h3, decide_eq_true h4⟩
  · right; exact ⟨h0, by rw [h1]⟩

/-! ### C38 -/

/-- frame value for four visible or invisible sides: the combinations which CALS can express, else `none` -/
inductive FrameFor (top right bottom left : Prop) : String → Prop
  | all (h : top ∧ right ∧ bottom ∧ left) : FrameFor top right bottom left "all"
  | topbot (h : top ∧ ¬ right ∧ bottom ∧ ¬ left) : FrameFor top right bottom left "topbot"
  | sides (h : ¬ top ∧ right ∧ ¬ bottom ∧ left) : FrameFor top right bottom left "sides"
  | top (h : top ∧ ¬ right ∧ ¬ bottom ∧ ¬ left) : FrameFor top right bottom left "top"
  | bottom (h : ¬ top ∧ ¬ right ∧ bottom ∧ ¬ left) : FrameFor top right bottom left "bottom"
  | other (h : ¬ (top ∧ right ∧ bottom ∧ left) ∧ ¬ (top ∧ ¬ right ∧ bottom ∧ ¬ left) ∧ ¬ (¬ top ∧ right ∧ ¬ bottom ∧ left) ∧
      ¬ (top ∧ ¬ right ∧ ¬ bottom ∧ ¬ left) ∧ ¬ (¬ top ∧ ¬ right ∧ bottom ∧ ¬ left)) : FrameFor top right bottom left "none"

/-- **C38** (building): for every style dictionary whose borders are texts, the frame value is the one of the six legal values which tells
which sides have a visible border — `none` when CALS has no value for the combination. -/
theorem C38_frame_attr (styles : Styles) (h : ∀ key ∈ ["border-top", "border-right", "border-bottom", "border-left"], Readable styles key) :
    ∃ f ∈ legalFrames, getFrameAttr styles = .ok f ∧
      FrameFor (Visible styles "border-top") (Visible styles "border-right") (Visible styles "border-bottom")
        (Visible styles "border-left") f := by
  have get : ∀ key, Readable styles key → ∃ b, hasBorder styles key = .ok b ∧ (b = true ↔ Visible styles key) := by
    intro key hk
    rcases hasBorder_spec styles key with ⟨_, h⟩ | ⟨h, _⟩
    · exact h
    · exact absurd hk h
  obtain ⟨t, t1, t2⟩ := get "border-top" (h _ (by simp))
  obtain ⟨r, r1, r2⟩ := get "border-right" (h _ (by simp))
  obtain ⟨b, b1, b2⟩ := get "border-bottom" (h _ (by simp))
  obtain ⟨l, l1, l2⟩ := get "border-left" (h _ (by simp))
  unfold getFrameAttr
  rw [t1, r1, b1, l1, ← t2, ← r2, ← b2, ← l2]
  cases t <;> cases r <;> cases b <;> cases l
  case true.true.true.true => exact ⟨"all", by simp [legalFrames], rfl, .all (by simp)⟩
  case true.false.true.false => exact ⟨"topbot", by simp [legalFrames], rfl, .topbot (by simp)⟩
  case false.true.false.true => exact ⟨"sides", by simp [legalFrames], rfl, .sides (by simp)⟩
  case true.false.false.false => exact ⟨"top", by simp [legalFrames], rfl, .top (by simp)⟩
  case false.false.true.false => exact ⟨"bottom", by simp [legalFrames], rfl, .bottom (by simp)⟩
  all_goals exact ⟨"none", by simp [legalFrames], rfl, .other (by simp)⟩

/-- **C38** (anything else): a border style which is neither a text nor a false value raises `AttributeError`. -/
theorem C38_frame_error (styles : Styles) (h : ∃ key ∈ ["border-top", "border-right", "border-bottom", "border-left"], ¬ Readable styles key) :
    getFrameAttr styles = .error .attributeError := by
  unfold getFrameAttr
  obtain ⟨key, hk, hn⟩ := h
  have get : ∀ key, (∃ b, hasBorder styles key = .ok b) ∨ hasBorder styles key = .error .attributeError := by
    intro key
    rcases hasBorder_spec styles key with ⟨_, b, h, _⟩ | ⟨_, h⟩
    · exact .inl ⟨b, h⟩
    · exact .inr h
  have bad : hasBorder styles key = .error .attributeError := by
    rcases hasBorder_spec styles key with ⟨h, _⟩ | ⟨_, h⟩
    · exact absurd h hn
    · exact h
  rcases get "border-top" with ⟨t, h1⟩ | h1
  · rw [h1]
    rcases get "border-right" with ⟨r, h2⟩ | h2
    · rw [h2]
      rcases get "border-bottom" with ⟨b, h3⟩ | h3
      · rw [h3]
        rcases get "border-left" with ⟨l, h4⟩ | h4
        · exfalso
          simp only [List.mem_cons, List.not_mem_nil, or_false] at hk
          rcases hk with rfl | rfl | rfl | rfl
          · rw [h1] at bad; cases bad
          · rw [h2] at bad; cases bad
          · rw [h3] at bad; cases bad
          · rw [h4] at bad; cases bad
        · rw [h4]; rfl
      · rw [h3]; rfl
    · rw [h2]; rfl
  · rw [h1]; rfl

/-- **C38** (round trip): reading a legal frame value and writing it again gives the same value. -/
theorem C38_frame_round_trip (f : String) (h : f ∈ legalFrames) :
    ∃ styles, CalsP.getFrameStyles (some f) = .ok styles ∧ getFrameAttr styles = .ok f := by
  simp only [legalFrames, List.mem_cons, List.not_mem_nil, or_false] at h
  rcases h with rfl | rfl | rfl | rfl | rfl | rfl <;> exact ⟨_, rfl, by decide +kernel⟩

/-- **C38** (reading): no frame and an empty frame give no style; an unknown value raises `KeyError`. -/
theorem C38_unknown_frame (f : Option String) :
    (f = none ∨ f = some "" → CalsP.getFrameStyles f = .ok []) ∧
    (∀ s, f = some s → s ≠ "" → s ∉ legalFrames → CalsP.getFrameStyles f = .error .keyError) := by
  refine ⟨?_, ?_⟩
  · rintro (rfl | rfl) <;> rfl
  · rintro s rfl hs hn
    unfold CalsP.getFrameStyles
    simp only
    rw [if_neg hs]
    have : Dict.get? CalsP.frameBorders s = none := by
      unfold CalsP.frameBorders
      simp only [legalFrames, List.mem_cons, List.not_mem_nil, or_false, not_or] at hn
      simp only [Dict.get?_cons, Dict.get?_nil]
      simp [Ne.symm hn.1, Ne.symm hn.2.1, Ne.symm hn.2.2.1, Ne.symm hn.2.2.2.1, Ne.symm hn.2.2.2.2.1, Ne.symm hn.2.2.2.2.2]
    rw [this]

def frameDemo : Styles := [("border-top", .str "solid 1pt black"), ("border-bottom", .str "1pt dashed #ff0000"), ("border-left", .str "none")]
example : ∀ key ∈ ["border-top", "border-right", "border-bottom", "border-left"], Readable frameDemo key := by
  intro key hk
  simp only [List.mem_cons, List.not_mem_nil, or_false] at hk
  rcases hk with rfl | rfl | rfl | rfl <;> simp [Readable, frameDemo, Dict.get?_cons]
example : (getFrameAttr frameDemo) = .ok "topbot" := by decide +kernel
example : ¬ Readable [("border-top", .int 3)] "border-top" := by simp [Readable, Dict.get?_cons]
example : "left" ∉ legalFrames ∧ ("left" : String) ≠ "" := by simp [legalFrames]

/-! ### C39 -/

/-- **C39** (building): the separator is absent iff the style has no border keyword, `0` iff the last keyword is `none`, `1` otherwise; a style
which is neither a text nor a false value raises `AttributeError`. -/
theorem C39_separator (styles : Styles) (key : String) :
    (Readable styles key → ∃ v, BorderIs styles key v ∧ (∀ v', BorderIs styles key v' → v' = v) ∧
      getSepAttr styles key = .ok (match v with
        | none => none
        | some w => if w = "none".toList then some "0" else some "1")) ∧
    (¬ Readable styles key → getSepAttr styles key = .error .attributeError) := by
  rcases getBorderStyle_spec styles key with ⟨h0, v, h1, h2⟩ | ⟨h0, h1⟩
  · refine ⟨fun _ => ⟨v, h2, fun v' h' => borderIs_unique h' h2, ?_⟩, fun h => absurd h0 h⟩
    unfold getSepAttr
    rw [h1]
    cases v with
    | none => rfl
    | some w =>
      have : "none".toList = noneText := by decide +kernel
      simp only [this]
      split <;> rfl
  · refine ⟨fun h => absurd h h0, fun _ => ?_⟩
    unfold getSepAttr; rw [h1]

theorem sep_of_get {styles : Styles} {key v : String} (h : (v = "0" ∧ Dict.get? styles key = some CalsP.borderNone) ∨
    (v = "1" ∧ Dict.get? styles key = some CalsP.borderSolid)) : getSepAttr styles key = .ok (some v) := by
  unfold getSepAttr getBorderStyle borderParts
  rcases h with ⟨rfl, h⟩ | ⟨rfl, h⟩ <;> rw [h] <;> decide +kernel

theorem mapStyle_get_ne (n : Node) (a : QName) (m : List (String × StyleVal)) (key key' : String) (st : Styles) (h : key ≠ key') :
    Dict.get? (CalsP.mapStyle n a m key st) key' = Dict.get? st key' := by
  unfold CalsP.mapStyle
  split
  · rfl
  · split
    · rfl
    · rw [Dict.get?_set, if_neg h]

theorem copyStyle_get_ne (n : Node) (a : QName) (key key' : String) (st : Styles) (h : key ≠ key') :
    Dict.get? (CalsP.copyStyle n a key st) key' = Dict.get? st key' := by
  unfold CalsP.copyStyle
  split
  · rfl
  · split
    · rfl
    · rw [Dict.get?_set, if_neg h]

theorem mapStyle_sep (n : Node) (a : QName) (key : String) (st : Styles) (v : String) (hv : v = "0" ∨ v = "1") (h : n.attr a = some v) :
    (v = "0" ∧ Dict.get? (CalsP.mapStyle n a CalsP.sepMap key st) key = some CalsP.borderNone) ∨
    (v = "1" ∧ Dict.get? (CalsP.mapStyle n a CalsP.sepMap key st) key = some CalsP.borderSolid) := by
  unfold CalsP.mapStyle
  rw [h]
  rcases hv with rfl | rfl
  · left; refine ⟨rfl, ?_⟩
    have : Dict.get? CalsP.sepMap "0" = some CalsP.borderNone := by decide +kernel
    simp only [this, Dict.get?_set, if_true]
  · right; refine ⟨rfl, ?_⟩
    have : Dict.get? CalsP.sepMap "1" = some CalsP.borderSolid := by decide +kernel
    simp only [this, Dict.get?_set, if_true]

theorem entryStyles_get (cfg : CalsP.Config) (n : Node) (key : String) (h : key ≠ "background-color" ∧ key ≠ "vertical-align" ∧ key ≠ "align" ∧
    key ≠ "cellstyle" ∧ key ≠ "x-cell-empty") :
    Dict.get? (CalsP.entryStyles cfg n) key =
      Dict.get? (CalsP.mapStyle n (cfg.q "rowsep") CalsP.sepMap "border-bottom" (CalsP.mapStyle n (cfg.q "colsep") CalsP.sepMap "border-right" [])) key := by
  obtain ⟨h1, h2, h3, h4, h5⟩ := h
  unfold CalsP.entryStyles
  simp only
  split
  · rw [Dict.get?_set, if_neg (Ne.symm h5), copyStyle_get_ne _ _ _ _ _ (Ne.symm h4), mapStyle_get_ne _ _ _ _ _ _ (Ne.symm h3),
      mapStyle_get_ne _ _ _ _ _ _ (Ne.symm h2), copyStyle_get_ne _ _ _ _ _ (Ne.symm h1)]
  · rw [copyStyle_get_ne _ _ _ _ _ (Ne.symm h4), mapStyle_get_ne _ _ _ _ _ _ (Ne.symm h3),
      mapStyle_get_ne _ _ _ _ _ _ (Ne.symm h2), copyStyle_get_ne _ _ _ _ _ (Ne.symm h1)]

/-- **C39** (round trip): the separators of an entry, of a row, of a column and of a table which are read as `0` or `1` are written with the
same value. -/
theorem C39_round_trip (cfg : CalsP.Config) (n : Node) (v : String) (hv : v = "0" ∨ v = "1") :
    (n.attr (cfg.q "colsep") = some v →
      getSepAttr (CalsP.entryStyles cfg n) "border-right" = .ok (some v) ∧
      getSepAttr (CalsP.colspecStyles cfg n) "border-right" = .ok (some v) ∧
      (∀ st, CalsP.tableStyles cfg n = .ok st → getSepAttr st "x-cell-border-right" = .ok (some v))) ∧
    (n.attr (cfg.q "rowsep") = some v →
      getSepAttr (CalsP.entryStyles cfg n) "border-bottom" = .ok (some v) ∧
      getSepAttr (CalsP.colspecStyles cfg n) "border-bottom" = .ok (some v) ∧
      (∀ st, CalsP.tableStyles cfg n = .ok st → getSepAttr st "x-cell-border-bottom" = .ok (some v)) ∧
      (∀ p st nat, CalsP.rowLooks cfg p n = .ok (st, nat) → getSepAttr st "border-bottom" = .ok (some v))) := by
  have table : ∀ st key, key ≠ "x-sect-orient" → key ≠ "x-sect-cols" → key ≠ "background-color" → key ≠ "width" →
      CalsP.tableStyles cfg n = .ok st → ∃ st0, Dict.get? st key =
        Dict.get? (CalsP.mapStyle n (cfg.q "rowsep") CalsP.sepMap "x-cell-border-bottom"
          (CalsP.mapStyle n (cfg.q "colsep") CalsP.sepMap "x-cell-border-right" st0)) key := by
    intro st key h1 h2 h3 h4 hst
    unfold CalsP.tableStyles at hst
    cases hf : CalsP.getFrameStyles (n.attr (cfg.q "frame")) with
    | error e => rw [hf] at hst; cases hst
    | ok st0 =>
      rw [hf] at hst
      refine ⟨st0, ?_⟩
      have base : Dict.get? (CalsP.copyStyle n (cfg.q "bgcolor") "background-color"
          (CalsP.mapStyle n (cfg.q "pgwide") [("0", .str "2"), ("1", .str "1")] "x-sect-cols"
          (CalsP.mapStyle n (cfg.q "orient") [("land", .str "landscape"), ("port", .str "portrait")] "x-sect-orient"
          (CalsP.mapStyle n (cfg.q "rowsep") CalsP.sepMap "x-cell-border-bottom"
          (CalsP.mapStyle n (cfg.q "colsep") CalsP.sepMap "x-cell-border-right" st0))))) key =
        Dict.get? (CalsP.mapStyle n (cfg.q "rowsep") CalsP.sepMap "x-cell-border-bottom"
          (CalsP.mapStyle n (cfg.q "colsep") CalsP.sepMap "x-cell-border-right" st0)) key := by
        rw [copyStyle_get_ne _ _ _ _ _ (Ne.symm h3), mapStyle_get_ne _ _ _ _ _ _ (Ne.symm h2), mapStyle_get_ne _ _ _ _ _ _ (Ne.symm h1)]
      simp only [bind, Except.bind, pure, Except.pure] at hst
      split at hst
      · cases hst; exact base
      · split at hst
        · cases hst; exact base
        · split at hst
          · cases hst
          · cases hst
            rw [Dict.get?_set, if_neg (Ne.symm h4)]; exact base
  refine ⟨fun ha => ⟨?_, ?_, ?_⟩, fun ha => ⟨?_, ?_, ?_, ?_⟩⟩
  · apply sep_of_get
    rw [entryStyles_get _ _ _ (by decide), mapStyle_get_ne _ _ _ _ _ _ (by decide)]
    exact mapStyle_sep n _ _ _ v hv ha
  · apply sep_of_get
    unfold CalsP.colspecStyles
    simp only
    rw [mapStyle_get_ne _ _ _ _ _ _ (by decide), copyStyle_get_ne _ _ _ _ _ (by decide), mapStyle_get_ne _ _ _ _ _ _ (by decide)]
    exact mapStyle_sep n _ _ _ v hv ha
  · intro st hst
    obtain ⟨st0, h⟩ := table st "x-cell-border-right" (by decide) (by decide) (by decide) (by decide) hst
    apply sep_of_get
    rw [h, mapStyle_get_ne _ _ _ _ _ _ (by decide)]
    exact mapStyle_sep n _ _ _ v hv ha
  · apply sep_of_get
    rw [entryStyles_get _ _ _ (by decide)]
    exact mapStyle_sep n _ _ _ v hv ha
  · apply sep_of_get
    unfold CalsP.colspecStyles
    simp only
    rw [mapStyle_get_ne _ _ _ _ _ _ (by decide), copyStyle_get_ne _ _ _ _ _ (by decide)]
    exact mapStyle_sep n _ _ _ v hv ha
  · intro st hst
    obtain ⟨st0, h⟩ := table st "x-cell-border-bottom" (by decide) (by decide) (by decide) (by decide) hst
    apply sep_of_get
    rw [h]
    exact mapStyle_sep n _ _ _ v hv ha
  · intro p st nat h
    have fin : ∀ st0 : Styles, getSepAttr (CalsP.copyStyle n (cfg.q "rowstyle") "rowstyle"
        (CalsP.copyStyle n (cfg.q "bgcolor") "background-color" (CalsP.mapStyle n (cfg.q "rowsep") CalsP.sepMap "border-bottom"
          (CalsP.mapStyle n (cfg.q "valign") CalsP.valignMap "vertical-align" st0)))) "border-bottom" = .ok (some v) := by
      intro st0
      apply sep_of_get
      rw [copyStyle_get_ne _ _ _ _ _ (by decide), copyStyle_get_ne _ _ _ _ _ (by decide)]
      exact mapStyle_sep n _ _ _ v hv ha
    unfold CalsP.rowLooks at h
    cases p with
    | none => cases h; exact fin _
    | some p =>
      simp only [bind, Except.bind, pure, Except.pure] at h
      cases hn : CalsP.rowNature (CalsP.localname p) with
      | error e => rw [hn] at h; cases h
      | ok nt => rw [hn] at h; cases h; exact fin _

example : ("0" = "0" ∨ "0" = "1") ∧ (Node.elem ⟨none, "entry"⟩ [(⟨none, "colsep"⟩, "0")] none [] none).attr ⟨none, "colsep"⟩ = some "0" := by
  decide +kernel
example : Readable frameDemo "border-bottom" ∧ getSepAttr frameDemo "border-bottom" = .ok (some "1") ∧
    getSepAttr frameDemo "border-left" = .ok (some "0") ∧ getSepAttr frameDemo "border-right" = .ok none := by
  refine ⟨by simp [Readable, frameDemo, Dict.get?_cons], by decide +kernel, by decide +kernel, by decide +kernel⟩

end Benker
