import Verif.Spec.LooksKept
import Verif.Props.CalsTold

/-! What a style read from an attribute becomes, when it is written again. -/

namespace Benker.Kept
open PyM Cals CalsSpec FmxSpec

theorem line_values (o : Option String) : line o = none ∨ line o = some "0" ∨ line o = some "1" := by
  unfold line known
  cases o with
  | none => left; rfl
  | some s =>
    by_cases h0 : s = "0"
    · subst h0; right; left; rfl
    · by_cases h1 : s = "1"
      · subst h1; right; right; rfl
      · left; simp [Option.filter, h0, h1]

theorem told_lines (o : Option String) : told lines o = (line o).bind (Dict.get? CalsP.sepMap) := by
  cases o with
  | none => rfl
  | some s =>
    by_cases h0 : s = "0"
    · subst h0; rfl
    · by_cases h1 : s = "1"
      · subst h1; rfl
      · have : line (some s) = none := by simp [line, known, Option.filter, h0, h1]
        rw [this]
        simp [told, lines, Ne.symm h0, Ne.symm h1]

theorem sep_told {st : Styles} {key : String} {o : Option String} (h : Dict.get? st key = told lines o) : getSepAttr st key = .ok (line o) :=
  getSep_of_get (line_values o) (by rw [h, told_lines])

theorem sep_told_or {st : Styles} {key : String} {a b : Option String} (h : Dict.get? st key = (told lines a).or (told lines b)) :
    getSepAttr st key = .ok ((line a).or (line b)) := by
  refine getSep_of_get ?_ ?_
  · rcases line_values a with h1 | h1 | h1 <;> rw [h1]
    · exact line_values b
    · exact .inr (.inl rfl)
    · exact .inr (.inr rfl)
  · rw [h, told_lines, told_lines]
    rcases line_values a with h1 | h1 | h1 <;> rw [h1] <;> rfl

/-- the separator of the whole table -/
theorem table_line {table : Styles} {key tkey : String} {o attr : Option String} (h : LineTold [] table key tkey attr none)
    (ht : getSepAttr table tkey = .ok o) : attr = some (o.getD "0") := by
  have hs : getSepAttr [] key = .ok none := rfl
  have hv := getSep_values ht
  have e : LineIs [] table key tkey (decide (o.getD "0" = "1")) := by rw [line_iff hs ht]; rfl
  have := (h.line _).mp e
  rw [Option.or_none] at this
  rw [this]
  rcases hv with rfl | rfl | rfl <;> rfl

/-- the separator of a part of the table -/
theorem part_line {own table : Styles} {key tkey : String} {o o' attr tattr : Option String} (h : LineTold own table key tkey attr tattr)
    (ho : getSepAttr own key = .ok o) (ht : getSepAttr table tkey = .ok o') (hta : tattr = some (o'.getD "0")) : attr.or tattr = o.or tattr := by
  have hv := getSep_values ho
  have hv' := getSep_values ht
  have e : LineIs own table key tkey (decide ((o.or o').getD "0" = "1")) := by rw [line_iff ho ht]
  rw [(h.line _).mp e, hta]
  rcases hv with rfl | rfl | rfl <;> rcases hv' with rfl | rfl | rfl <;> rfl

theorem copied_filled {st : Styles} {key : String} {o attr : Option String} (h : Dict.get? st key = copied o) (ht : Tells st key asText attr) :
    attr = filled o := by
  cases o with
  | none => exact ht.1 h
  | some s =>
    unfold copied at h
    simp only at h
    by_cases hs : s = ""
    · subst hs; exact ht.1 h
    · rw [if_neg hs] at h
      obtain ⟨x, h1, h2⟩ := ht.2 _ h
      cases h1
      rw [h2]; simp [filled, Option.filter, hs]

theorem told_words {st : Styles} {key : String} {read write : List (String × String)} {o attr : Option String} {g : String → Option String}
    (h : Dict.get? st key = told read o) (ht : Tells st key (byWord write) attr)
    (hg : ∀ s, (told read (some s)).bind (byWord write) = g s) : attr = o.bind g := by
  cases o with
  | none => exact ht.1 h
  | some s =>
    rw [Option.bind_some, ← hg]
    cases hr : told read (some s) with
    | none => exact ht.1 (h.trans hr)
    | some v =>
      obtain ⟨x, h1, h2⟩ := ht.2 v (h.trans hr)
      rw [h2, Option.bind_some, h1]

theorem told_pages {st : Styles} {o attr : Option String} (h : Dict.get? st "x-sect-cols" = told [("0", "2"), ("1", "1")] o)
    (ht : Tells st "x-sect-cols" pageWide attr) : attr = known ["0", "1"] o := by
  cases o with
  | none => exact ht.1 h
  | some s =>
    by_cases h0 : s = "0"
    · subst h0
      obtain ⟨x, h1, h2⟩ := ht.2 _ h
      rw [h2, ← h1]; rfl
    · by_cases h1 : s = "1"
      · subst h1
        obtain ⟨x, h1, h2⟩ := ht.2 _ h
        rw [h2, ← h1]; rfl
      · rw [ht.1 (by rw [h]; simp [told, Ne.symm h0, Ne.symm h1])]
        simp [known, Option.filter, h0, h1]

theorem told_valign {st : Styles} {more : List (String × String)} {o attr : Option String} (h : Dict.get? st "vertical-align" = told valigns o)
    (ht : Tells st "vertical-align" (byWord ([("top", "top"), ("middle", "middle"), ("bottom", "bottom")] ++ more)) attr) : attr = valign o := by
  rw [told_words (g := fun s => known ["top", "middle", "bottom"] (some s)) h ht ?_]
  · cases o <;> rfl
  · intro s
    by_cases h1 : s = "top"
    · subst h1; rfl
    by_cases h2 : s = "middle"
    · subst h2; rfl
    by_cases h3 : s = "bottom"
    · subst h3; rfl
    simp [told, valigns, known, Option.filter, h1, h2, h3, Ne.symm h1, Ne.symm h2, Ne.symm h3]

theorem align_eq (o : Option String) : align o = o.bind (fun s => (known ["left", "right", "center", "justify", "char"] (some s)).map
    (fun s => if s = "char" then "left" else s)) := by
  cases o <;> rfl

theorem told_align_word (s : String) : told aligns (some s) = ((known ["left", "right", "center", "justify", "char"] (some s)).map
    (fun s => if s = "char" then "left" else s)).map .str := by
  by_cases h1 : s = "left"
  · subst h1; rfl
  by_cases h2 : s = "right"
  · subst h2; rfl
  by_cases h3 : s = "center"
  · subst h3; rfl
  by_cases h4 : s = "justify"
  · subst h4; rfl
  by_cases h5 : s = "char"
  · subst h5; rfl
  simp [told, aligns, known, Option.filter, h1, h2, h3, h4, h5, Ne.symm h1, Ne.symm h2, Ne.symm h3, Ne.symm h4, Ne.symm h5]

theorem told_aligns (o : Option String) : told aligns o = (align o).map .str := by
  cases o with
  | none => rfl
  | some s => rw [told_align_word]; rfl

theorem align_values (o : Option String) : ∀ s, align o = some s → s ∈ ["left", "right", "center", "justify"] := by
  intro s h
  unfold align known at h
  cases o with
  | none => cases h
  | some x =>
    simp only [Option.filter, decide_eq_true_eq] at h
    split at h
    · rename_i hm
      simp only [List.mem_cons, List.not_mem_nil, or_false] at hm
      rcases hm with rfl | rfl | rfl | rfl | rfl <;> cases h <;> decide
    · cases h

theorem told_align {st : Styles} {o attr : Option String} (h : Dict.get? st "align" = told aligns o)
    (ht : Tells st "align" (byWord [("left", "left"), ("right", "right"), ("center", "center"), ("justify", "justify")]) attr) : attr = align o := by
  rw [told_aligns] at h
  cases ha : align o with
  | none => rw [ha] at h; exact ht.1 h
  | some s =>
    rw [ha] at h
    obtain ⟨x, h1, h2⟩ := ht.2 _ h
    have := align_values o s ha
    simp only [List.mem_cons, List.not_mem_nil, or_false] at this
    rw [h2, ← h1]
    rcases this with rfl | rfl | rfl | rfl <;> rfl

theorem told_col_align {st : Styles} {o attr : Option String} (h : Dict.get? st "align" = told aligns o)
    (ht : ∀ s, attr = some s ↔ Dict.get? st "align" = some (.str s) ∧ s ∈ ["left", "right", "center", "justify"]) : attr = align o := by
  rw [told_aligns] at h
  apply Option.ext
  intro s
  rw [ht, h]
  constructor
  · rintro ⟨h1, _⟩
    cases ha : align o with
    | none => rw [ha] at h1; cases h1
    | some x => rw [ha] at h1; cases h1; rfl
  · intro ha
    exact ⟨by rw [ha]; rfl, align_values o s ha⟩

theorem told_orient {st : Styles} {o attr : Option String} (h : Dict.get? st "x-sect-orient" = told [("land", "landscape"), ("port", "portrait")] o)
    (ht : Tells st "x-sect-orient" (byWord [("landscape", "land"), ("portrait", "port")]) attr) : attr = known ["land", "port"] o := by
  rw [told_words (g := fun s => known ["land", "port"] (some s)) h ht ?_]
  · cases o <;> rfl
  · intro s
    by_cases h1 : s = "land"
    · subst h1; rfl
    by_cases h2 : s = "port"
    · subst h2; rfl
    simp [told, known, Option.filter, h1, h2, Ne.symm h1, Ne.symm h2]

theorem width_one {st : Styles} {fl : Rat → Rat} {u : List Char} {o attr : Option String} (h : Dict.get? st "width" = copied o)
    (ht : Tells st "width" (inUnit fl u) attr) : Width [Units.rewriteWidth fl u] o attr := by
  constructor
  · intro hf
    refine ht.1 ?_
    rw [h]
    cases o with
    | none => rfl
    | some s =>
      by_cases hs : s = ""
      · subst hs; rfl
      · simp [filled, Option.filter, hs] at hf
  · intro x hx
    cases o with
    | none => cases hx
    | some s =>
      by_cases hs : s = ""
      · subst hs; cases hx
      · simp only [filled, Option.filter, hs, ne_eq, not_false_eq_true, decide_true, if_true, Option.some.injEq] at hx
        subst hx
        obtain ⟨y, h1, h2⟩ := ht.2 (.str s) (by rw [h]; simp [copied, hs])
        refine ⟨y, h2, ?_⟩
        unfold inUnit at h1
        simp only at h1
        cases hw : Units.rewriteWidth fl u s.toList with
        | error e => rw [hw] at h1; cases h1
        | ok z =>
          rw [hw] at h1
          cases h1
          simp only [List.foldlM_cons, hw, List.foldlM_nil]
          show Except.ok z = _
          simp

theorem width_two {st : Styles} {rewrite : List Char → Except PyErr (List Char)} {fl : Rat → Rat} {u : List Char} {o attr : Option String}
    (h0 : o = none ∨ o = some "" → Dict.get? st "width" = none)
    (h : ∀ s, o = some s → s ≠ "" → ∃ w, rewrite s.toList = .ok w ∧ Dict.get? st "width" = some (.str (String.ofList w)))
    (ht : Tells st "width" (inUnit fl u) attr) : Width [rewrite, Units.rewriteWidth fl u] o attr := by
  constructor
  · intro hf
    refine ht.1 (h0 ?_)
    cases o with
    | none => exact .inl rfl
    | some s =>
      by_cases hs : s = ""
      · subst hs; exact .inr rfl
      · simp [filled, Option.filter, hs] at hf
  · intro x hx
    cases o with
    | none => cases hx
    | some s =>
      by_cases hs : s = ""
      · subst hs; cases hx
      · simp only [filled, Option.filter, hs, ne_eq, not_false_eq_true, decide_true, if_true, Option.some.injEq] at hx
        subst hx
        obtain ⟨w, hw, hg⟩ := h s rfl hs
        obtain ⟨y, h1, h2⟩ := ht.2 _ hg
        refine ⟨y, h2, ?_⟩
        unfold inUnit at h1
        simp only [String.toList_ofList] at h1
        cases hw' : Units.rewriteWidth fl u w with
        | error e => rw [hw'] at h1; cases h1
        | ok z =>
          rw [hw'] at h1
          cases h1
          simp only [List.foldlM_cons, hw, List.foldlM_nil]
          show (Units.rewriteWidth fl u w >>= fun w => Except.ok w) = _
          rw [hw']
          show Except.ok z = _
          simp

theorem hasBorder_single {st : Styles} {k : String} {v : StyleVal} (h : Dict.get? st k = some v) : hasBorder st k = hasBorder [(k, v)] k :=
  hasBorder_congr (by rw [h]; simp [Dict.get?_cons])

theorem visible_none {st : Styles} {k : String} (h : Dict.get? st k = none) : ¬ Visible st k := by
  rw [visible_iff, hasBorder_congr (st' := []) (by rw [h]; rfl)]
  show ¬ (hasBorder [] k = .ok true)
  have : hasBorder [] k = .ok false := rfl
  rw [this]; simp

theorem visible_side {st : Styles} {k : String} (hk : k ∈ fourSides) {a : Bool} (h : Dict.get? st k = some (.str (if a then "solid 1pt black" else "none"))) :
    Visible st k ↔ a = true := by
  rw [visible_iff, hasBorder_single h]
  revert k a
  have : ∀ k ∈ fourSides, ∀ a : Bool, (hasBorder [(k, .str (if a then "solid 1pt black" else "none"))] k = .ok true ↔ a = true) := by decide +kernel
  intro k hk a _
  exact this k hk a

theorem frame_kept {frame : Option String} {st : Styles} {f : String} (h : FrameShown frame st)
    (hf : FrameFor (Visible st "border-top") (Visible st "border-right") (Visible st "border-bottom") (Visible st "border-left") f) :
    f = (filled frame).getD "none" := by
  rcases h with ⟨h1, h2⟩ | ⟨g, a, b, c, e, rfl, hm, h1, h2, h3, h4⟩
  · have v1 := visible_none (h2 "border-top" (by decide))
    have v2 := visible_none (h2 "border-bottom" (by decide))
    have v3 := visible_none (h2 "border-left" (by decide))
    have v4 := visible_none (h2 "border-right" (by decide))
    have : (filled frame).getD "none" = "none" := by rcases h1 with rfl | rfl <;> rfl
    rw [this]
    cases hf with
    | other => rfl
    | all h => exact absurd h.1 v1
    | topbot h => exact absurd h.1 v1
    | sides h => exact absurd h.2.1 v4
    | top h => exact absurd h.1 v1
    | bottom h => exact absurd h.2.2.1 v2
  · rw [propext (visible_side (by decide) h1), propext (visible_side (by decide) h2), propext (visible_side (by decide) h3),
      propext (visible_side (by decide) h4)] at hf
    clear h1 h2 h3 h4
    simp only [frames, List.mem_cons, Prod.mk.injEq, List.cons.injEq, List.not_mem_nil, or_false, and_true] at hm
    rcases hm with ⟨rfl, rfl, rfl, rfl, rfl⟩ | ⟨rfl, rfl, rfl, rfl, rfl⟩ | ⟨rfl, rfl, rfl, rfl, rfl⟩ | ⟨rfl, rfl, rfl, rfl, rfl⟩ | ⟨rfl, rfl, rfl, rfl, rfl⟩ | ⟨rfl, rfl, rfl, rfl, rfl⟩ <;>
      cases hf <;> simp_all [filled, Option.filter]

end Benker.Kept
