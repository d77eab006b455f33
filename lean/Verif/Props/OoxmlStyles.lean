import Verif.Spec.Ooxml
import Verif.Lemmas.Dict
import Verif.Lemmas.Except

/-! Property C54: inheritance of Word table styles. -/

namespace Benker
open Ooxml OoxmlSpec

theorem findStyle_eq (sheet : Node) (id : String) : findStyle sheet id = styleOf sheet id := by
  unfold findStyle select styleOf kids
  simp only [List.foldl_cons, List.foldl_nil, List.flatMap_cons, List.flatMap_nil, List.append_nil]
  rfl

theorem parent_eq (s : Node) : attrOf (some s) [["basedOn"]] "val" = parentOf s := by
  unfold attrOf select parentOf kids
  simp only [List.foldl_cons, List.foldl_nil, List.flatMap_cons, List.flatMap_nil, List.append_nil]
  rfl

/-! ### own borders -/

theorem wf_foldl_borders (cfg : Config) (props : List (String × Border)) : ∀ (st : Styles), Dict.WF st →
    Dict.WF (props.foldl (putBorder cfg) st) := by
  induction props with
  | nil => intro st h; exact h
  | cons p l ih =>
    intro st h
    rw [List.foldl_cons]
    apply ih
    unfold putBorder
    split
    · exact h
    · exact Dict.wf_set h _ _

theorem wf_spacing (cfg : Config) (props : List (String × Border)) {st : Styles} (h : Dict.WF st) : Dict.WF (setSpacing cfg props st) := by
  unfold setSpacing
  split
  · split
    · exact Dict.wf_set h _ _
    · exact Dict.wf_set (Dict.wf_set h _ _) _ _
  · exact h

theorem wf_bordersOf {cfg : Config} {m : List (String × List String)} {b : Option Node} {st : Styles} (h : bordersOf cfg m b = .ok st) :
    Dict.WF st := by
  unfold bordersOf at h
  cases b with
  | none => cases h; exact Dict.wf_nil
  | some b =>
    obtain ⟨props, _, h2⟩ := Benker.bind_ok h
    unfold bordersToStyles setShadow at h2
    have hw : Dict.WF (setSpacing cfg props (setBorders cfg props)) := wf_spacing _ _ (wf_foldl_borders _ _ _ Dict.wf_nil)
    split at h2
    · obtain ⟨l, _, h3⟩ := Benker.bind_ok h2
      cases h3
      exact Dict.wf_set hw _ _
    · cases h2; exact hw

theorem wf_own {cfg : Config} {s : Node} {st : Styles} (h : ownBorders cfg s = .ok st) : Dict.WF st := by
  unfold ownBorders at h
  obtain ⟨tb, h1, h2⟩ := Benker.bind_ok h
  obtain ⟨cb, _, h3⟩ := Benker.bind_ok h2
  cases h3
  exact Dict.wf_update (wf_bordersOf h1) _

/-! ### chains -/

theorem Chain.unique {sheet : Node} {id : String} {l l' : List Node} (h : Chain sheet id l) (h' : Chain sheet id l') : l = l' := by
  induction h generalizing l' with
  | missing e =>
    cases h' with
    | missing _ => rfl
    | root e' _ => rw [e] at e'; cases e'
    | step e' _ _ => rw [e] at e'; cases e'
  | root e p =>
    cases h' with
    | missing e' => rw [e] at e'; cases e'
    | root e' _ => rw [e] at e'; cases e'; rfl
    | step e' p' _ => rw [e] at e'; cases e'; rw [p] at p'; cases p'
  | step e p _ ih =>
    cases h' with
    | missing e' => rw [e] at e'; cases e'
    | root e' p' => rw [e] at e'; cases e'; rw [p] at p'; cases p'
    | step e' p' hc =>
      rw [e] at e'; cases e'
      rw [p] at p'; cases p'
      rw [ih hc]

theorem BasedOn.chain {sheet : Node} {id id' : String} (hb : BasedOn sheet id id') {l : List Node} (hc : Chain sheet id l) :
    ∃ l', Chain sheet id' l' ∧ l'.length < l.length := by
  induction hb generalizing l with
  | one e p =>
    cases hc with
    | missing e' => rw [e] at e'; cases e'
    | root e' p' => rw [e] at e'; cases e'; rw [p] at p'; cases p'
    | step e' p' hc' =>
      rw [e] at e'; cases e'
      rw [p] at p'; cases p'
      exact ⟨_, hc', by simp⟩
  | more e p _ ih =>
    cases hc with
    | missing e' => rw [e] at e'; cases e'
    | root e' p' => rw [e] at e'; cases e'; rw [p] at p'; cases p'
    | step e' p' hc' =>
      rw [e] at e'; cases e'
      rw [p] at p'; cases p'
      obtain ⟨l', h1, h2⟩ := ih hc'
      exact ⟨l', h1, by simp only [List.length_cons]; omega⟩

theorem Chain.not_cyclic {sheet : Node} {id : String} {l : List Node} (hc : Chain sheet id l) : ¬ Cyclic sheet id := by
  rintro (h | ⟨id', h1, h2⟩)
  · obtain ⟨l', h3, h4⟩ := BasedOn.chain h hc
    rw [Chain.unique hc h3] at h4; omega
  · obtain ⟨l', h3, _⟩ := BasedOn.chain h1 hc
    obtain ⟨l'', h5, h6⟩ := BasedOn.chain h2 h3
    rw [Chain.unique h3 h5] at h6; omega

theorem BasedOn.trans {sheet : Node} {a b c : String} (h : BasedOn sheet a b) (h' : BasedOn sheet b c) : BasedOn sheet a c := by
  induction h with
  | one e p => exact .more e p h'
  | more e p _ ih => exact .more e p (ih h')

theorem length_le_of_nodup_subset {α : Type} [DecidableEq α] : ∀ {l m : List α}, l.Nodup → (∀ a ∈ l, a ∈ m) → l.length ≤ m.length := by
  intro l
  induction l with
  | nil => intro m _ _; simp
  | cons a l ih =>
    intro m hn hs
    obtain ⟨h1, h2⟩ := List.nodup_cons.mp hn
    have ha : a ∈ m := hs a (by simp)
    have := ih (m := m.erase a) h2 (by
      intro b hb
      have hne : b ≠ a := fun e => h1 (e ▸ hb)
      exact (List.mem_erase_of_ne hne).mpr (hs b (by simp [hb])))
    rw [List.length_erase_of_mem ha] at this
    have := List.length_pos_of_mem ha
    simp only [List.length_cons]; omega

/-- a style found has its identifier among those of the stylesheet -/
theorem styleOf_mem {sheet : Node} {id : String} {s : Node} (h : styleOf sheet id = some s) :
    some id ∈ (kids ["style"] sheet).map (fun s => s.attr (name "styleId")) := by
  unfold styleOf at h
  have h1 := List.find?_some h
  have h2 := List.mem_of_find?_eq_some h
  rw [List.mem_map]
  exact ⟨s, h2, by simpa using h1⟩

/-- going along the ancestors: the path of visited identifiers is without repetition, so it stops or turns -/
theorem chain_or_cyclic_aux (sheet : Node) (id0 : String) : ∀ (n : Nat) (id : String) (seen : List String),
    (kids ["style"] sheet).length < n + seen.length → seen.Nodup →
    (∀ x ∈ seen, BasedOn sheet x id) → (∀ x ∈ seen, (styleOf sheet x).isSome = true) → (id = id0 ∨ BasedOn sheet id0 id) →
    (∃ l, Chain sheet id l) ∨ Cyclic sheet id0 := by
  intro n
  induction n with
  | zero =>
    intro id seen hlen hn _ hs _
    exfalso
    have : (seen.map some).length ≤ ((kids ["style"] sheet).map (fun s => s.attr (name "styleId"))).length := by
      apply length_le_of_nodup_subset
      · unfold List.Nodup at hn ⊢
        rw [List.pairwise_map]
        exact hn.imp (fun h e => h (Option.some.inj e))
      · intro a ha
        obtain ⟨x, hx, rfl⟩ := List.mem_map.mp ha
        obtain ⟨s, hs'⟩ := Option.isSome_iff_exists.mp (hs x hx)
        exact styleOf_mem hs'
    simp only [List.length_map] at this
    omega
  | succ n ih =>
    intro id seen hlen hn hb hs hid
    by_cases hmem : id ∈ seen
    · right
      have hc := hb id hmem
      rcases hid with rfl | hid
      · exact .inl hc
      · exact .inr ⟨id, hid, hc⟩
    · cases e : styleOf sheet id with
      | none => exact .inl ⟨[], .missing e⟩
      | some s =>
        cases p : parentOf s with
        | none => exact .inl ⟨[s], .root e p⟩
        | some id' =>
          have hone : BasedOn sheet id id' := .one e p
          rcases ih id' (id :: seen) (by simp only [List.length_cons]; omega) (List.nodup_cons.mpr ⟨hmem, hn⟩)
            (by
              intro x hx
              rcases List.mem_cons.mp hx with rfl | hx
              · exact hone
              · exact BasedOn.trans (hb x hx) hone)
            (by
              intro x hx
              rcases List.mem_cons.mp hx with rfl | hx
              · rw [e]; rfl
              · exact hs x hx)
            (by
              rcases hid with rfl | hid
              · exact .inr hone
              · exact .inr (BasedOn.trans hid hone)) with ⟨l, hl⟩ | hc
          · exact .inl ⟨s :: l, .step e p hl⟩
          · exact .inr hc

/-- **C54**: the ancestors of a style form a finite chain, or the stylesheet is cyclic, and not both. -/
theorem C54_finite_or_cyclic (sheet : Node) (id : String) :
    ((∃ l, Chain sheet id l) ∧ ¬ Cyclic sheet id) ∨ (Cyclic sheet id ∧ ¬ ∃ l, Chain sheet id l) := by
  rcases chain_or_cyclic_aux sheet id ((kids ["style"] sheet).length + 1) id [] (by simp) (by simp) (by simp) (by simp) (.inl rfl) with ⟨l, hl⟩ | hc
  · exact .inl ⟨⟨l, hl⟩, Chain.not_cyclic hl⟩
  · exact .inr ⟨hc, fun ⟨l, hl⟩ => Chain.not_cyclic hl hc⟩

/-- the identifiers of a chain -/
theorem Chain.ids {sheet : Node} {id : String} {l : List Node} (h : Chain sheet id l) :
    ∃ ids : List String, ids.length = l.length ∧ ids.Nodup ∧ (∀ x ∈ ids, (styleOf sheet x).isSome = true) ∧
      (∀ x ∈ ids, x = id ∨ BasedOn sheet id x) := by
  induction h with
  | missing _ => exact ⟨[], rfl, by simp, by simp, by simp⟩
  | @root id s e p => exact ⟨[id], rfl, by simp, by simp [e], by simp⟩
  | @step id id' s l e p hc ih =>
    obtain ⟨ids, h1, h2, h3, h4⟩ := ih
    have hone : BasedOn sheet id id' := .one e p
    refine ⟨id :: ids, by simp [h1], ?_, ?_, ?_⟩
    · rw [List.nodup_cons]
      refine ⟨fun hm => ?_, h2⟩
      have hnc : ¬ Cyclic sheet id := Chain.not_cyclic (.step e p hc)
      apply hnc
      rcases h4 id hm with hx | hx
      · left; rw [hx] at hone ⊢; exact hx ▸ hone
      · exact .inl (BasedOn.trans hone hx)
    · intro x hx
      rcases List.mem_cons.mp hx with rfl | hx
      · rw [e]; rfl
      · exact h3 x hx
    · intro x hx
      rcases List.mem_cons.mp hx with rfl | hx
      · exact .inl rfl
      · right
        rcases h4 x hx with rfl | hx
        · exact hone
        · exact BasedOn.trans hone hx

/-- a chain is not longer than the stylesheet -/
theorem Chain.length_le {sheet : Node} {id : String} {l : List Node} (h : Chain sheet id l) : l.length ≤ (kids ["style"] sheet).length := by
  obtain ⟨ids, h1, h2, h3, _⟩ := Chain.ids h
  have : (ids.map some).length ≤ ((kids ["style"] sheet).map (fun s => s.attr (name "styleId"))).length := by
    apply length_le_of_nodup_subset
    · unfold List.Nodup at h2 ⊢
      rw [List.pairwise_map]
      exact h2.imp (fun h e => h (Option.some.inj e))
    · intro a ha
      obtain ⟨x, hx, rfl⟩ := List.mem_map.mp ha
      obtain ⟨s, hs'⟩ := Option.isSome_iff_exists.mp (h3 x hx)
      exact styleOf_mem hs'
  simpa [h1] using this

theorem styleBorders_chain (cfg : Config) (sheet : Node) {id : String} {l : List Node} (hc : Chain sheet id l) :
    ∀ (own : List Styles), All₂ (fun s o => ownBorders cfg s = .ok o) l own → ∀ limit, l.length < limit →
    ∃ st, styleBorders cfg (some sheet) limit (some id) = .ok st ∧ ∀ key, Dict.get? st key = own.findSome? (fun o => Dict.get? o key) := by
  induction hc with
  | missing e =>
    intro own ho limit hl
    cases ho
    obtain ⟨n, rfl⟩ := Nat.exists_eq_succ_of_ne_zero (Nat.ne_zero_of_lt hl)
    refine ⟨[], ?_, by simp⟩
    unfold styleBorders
    simp only [findStyle_eq, e]
  | root e p =>
    intro own ho limit hl
    cases ho with
    | cons h1 h2 =>
      cases h2
      rename_i o
      obtain ⟨n, rfl⟩ : ∃ n, limit = n + 2 := ⟨limit - 2, by simp at hl; omega⟩
      refine ⟨Dict.update [] o, ?_, ?_⟩
      · simp only [styleBorders, findStyle_eq, e, parent_eq, p, ok_bind, h1, except_pure]
      · intro key
        rw [Dict.get?_update (wf_own h1)]
        simp only [Dict.get?_nil, Option.or_none, List.findSome?_cons, List.findSome?_nil]
        cases Dict.get? o key <;> rfl
  | step e p hc ih =>
    intro own ho limit hl
    cases ho with
    | cons h1 h2 =>
      rename_i o own'
      obtain ⟨n, rfl⟩ : ∃ n, limit = n + 1 := ⟨limit - 1, by simp at hl; omega⟩
      obtain ⟨st, h3, h4⟩ := ih own' h2 n (by simp at hl; omega)
      refine ⟨Dict.update st o, ?_, ?_⟩
      · rw [styleBorders]
        simp only [findStyle_eq, e, parent_eq, p, h3, ok_bind, h1, except_pure]
      · intro key
        rw [Dict.get?_update (wf_own h1), h4]
        rw [List.findSome?_cons]
        cases Dict.get? o key <;> rfl

/-- **C54 (partial)**: if the ancestors of a style do not form a cycle and the stylesheet has less styles than the recursion limit, resolving
its borders gives for each property the value of the nearest style of the chain which defines it (`own` are the styles which each style of
the chain defines itself, see `C54_own_borders`).  Missing: for cyclic stylesheets the resolution does not terminate normally
(`C54_cyclic_counterexample`). -/
theorem C54_nearest_partial (cfg : Config) (sheet : Node) (id : String) (hacyclic : ¬ Cyclic sheet id)
    (limit : Nat) (hlimit : (kids ["style"] sheet).length < limit) :
    ∃ chain, Chain sheet id chain ∧ ∀ own : List Styles, All₂ (fun s o => ownBorders cfg s = .ok o) chain own →
      ∃ st, styleBorders cfg (some sheet) limit (some id) = .ok st ∧
        ∀ key, Dict.get? st key = own.findSome? (fun o => Dict.get? o key) := by
  rcases C54_finite_or_cyclic sheet id with ⟨⟨l, hl⟩, _⟩ | ⟨h, _⟩
  · refine ⟨l, hl, fun own ho => styleBorders_chain cfg sheet hl own ho limit ?_⟩
    have := Chain.length_le hl
    omega
  · exact absurd h hacyclic

/-- **C54 (counterexample to termination)**: if the ancestors of a style form a cycle, the resolution reaches the recursion limit, whatever
it is. -/
theorem C54_cyclic_fails (cfg : Config) (sheet : Node) (id : String) (h : Cyclic sheet id) (limit : Nat) :
    styleBorders cfg (some sheet) limit (some id) = .error .recursionError := by
  have key : ∀ limit id, (¬ ∃ l, Chain sheet id l) → styleBorders cfg (some sheet) limit (some id) = .error .recursionError := by
    intro limit
    induction limit with
    | zero => intro id _; rfl
    | succ n ih =>
      intro id hn
      rw [styleBorders]
      simp only [findStyle_eq]
      cases e : styleOf sheet id with
      | none => exact absurd ⟨[], .missing e⟩ hn
      | some s =>
        simp only [parent_eq]
        cases p : parentOf s with
        | none => exact absurd ⟨[s], .root e p⟩ hn
        | some id' =>
          rw [ih id' (fun ⟨l, hl⟩ => hn ⟨s :: l, .step e p hl⟩)]
          rfl
  rcases C54_finite_or_cyclic sheet id with ⟨_, hn⟩ | ⟨_, hn⟩
  · exact absurd h hn
  · exact key limit id hn

/-- an element of the namespace -/
def wEl (n : String) (attrs : List (String × String)) (cs : List Node) : Node :=
  .elem (name n) (attrs.map (fun p => (name p.1, p.2))) none cs none

/-- a stylesheet: `a` is based on `b`, which is based on `a`; `c` is based on `d` -/
def sheetDemo : Node := wEl "styles" [] [
  wEl "style" [("styleId", "a")] [wEl "basedOn" [("val", "b")] []],
  wEl "style" [("styleId", "b")] [wEl "basedOn" [("val", "a")] []],
  wEl "style" [("styleId", "c")] [wEl "basedOn" [("val", "d")] [],
    wEl "tblPr" [] [wEl "tblBorders" [] [wEl "top" [("val", "single"), ("color", "FF0000")] [], wEl "insideV" [("val", "dotDash")] []]]],
  wEl "style" [("styleId", "d")] [
    wEl "tblPr" [] [wEl "tblBorders" [] [wEl "top" [("val", "double")] [], wEl "end" [("val", "nil")] []]]]]

/-- **C54 (counterexample)**: a stylesheet for which the resolution does not terminate, except by the recursion limit. -/
theorem C54_cyclic_counterexample (cfg : Config) :
    Cyclic sheetDemo "a" ∧ ∀ limit, styleBorders cfg (some sheetDemo) limit (some "a") = .error .recursionError := by
  have h : Cyclic sheetDemo "a" := by
    left
    have ea : styleOf sheetDemo "a" = some (wEl "style" [("styleId", "a")] [wEl "basedOn" [("val", "b")] []]) := by rfl
    have eb : styleOf sheetDemo "b" = some (wEl "style" [("styleId", "b")] [wEl "basedOn" [("val", "a")] []]) := by rfl
    exact .more ea rfl (.one eb rfl)
  exact ⟨h, fun limit => C54_cyclic_fails cfg sheetDemo "a" h limit⟩

/-- numbers are not needed by the examples -/
def wConfig : Config := ⟨fun _ => .ok 0, id, fun _ => "0.0", 100, some sheetDemo⟩

/-- not vacuous: the style `c` overrides the top border of `d` and inherits its right border -/
example : styleBorders wConfig (some sheetDemo) 100 (some "c") =
    .ok [("border-top", .str "solid #FF0000"), ("border-right", .str "none"), ("x-cell-border-right", .str "w-dot-dash"),
      ("x-cell-border-left", .str "w-dot-dash")] := by decide +kernel

example : ¬ Cyclic sheetDemo "c" := by
  have ec : styleOf sheetDemo "c" ≠ none := by intro h; cases h
  have hc : Chain sheetDemo "c" _ := .step rfl rfl (.root rfl rfl)
  exact Chain.not_cyclic hc

/-! ### what a style defines itself -/

theorem get?_foldBorders (cfg : Config) (key : String) : ∀ (props : List (String × Border)) (st : Styles), (props.map (·.1)).Nodup →
    Dict.get? (props.foldl (putBorder cfg) st) key =
    match props.find? (fun p => p.1 = key) with
    | none => Dict.get? st key
    | some p => ((borderText cfg p.2).map StyleVal.str).or (Dict.get? st key) := by
  intro props
  induction props with
  | nil => intro st _; rfl
  | cons p l ih =>
    intro st hn
    rw [List.map_cons, List.nodup_cons] at hn
    rw [List.foldl_cons, ih _ hn.2, List.find?_cons]
    by_cases hk : p.1 = key
    · have hnone : l.find? (fun p => p.1 = key) = none := by
        rw [List.find?_eq_none]
        intro q hq he
        apply hn.1
        rw [List.mem_map]
        exact ⟨q, hq, by simp only [decide_eq_true_eq] at he; rw [he, hk]⟩
      rw [hnone]
      simp only [hk, decide_true]
      unfold putBorder
      cases borderText cfg p.2 with
      | none => rfl
      | some s => simp [Dict.get?_set, hk]
    · simp only [hk, decide_false]
      have e : Dict.get? (putBorder cfg st p) key = Dict.get? st key := by
        unfold putBorder
        cases borderText cfg p.2 with
        | none => rfl
        | some s => simp [Dict.get?_set, hk]
      rw [e]

theorem get?_spacing (cfg : Config) (props : List (String × Border)) (st : Styles) {key : String} (h1 : key ≠ "border-collapse")
    (h2 : key ≠ "border-spacing") : Dict.get? (setSpacing cfg props st) key = Dict.get? st key := by
  unfold setSpacing
  split
  · split
    · rw [Dict.get?_set, if_neg (Ne.symm h1)]
    · rw [Dict.get?_set, if_neg (Ne.symm h2), Dict.get?_set, if_neg (Ne.symm h1)]
  · rfl

theorem get?_shadow {cfg : Config} {props : List (String × Border)} {st st' : Styles} (h : setShadow cfg props st = .ok st') {key : String}
    (h1 : key ≠ "box-shadow") : Dict.get? st' key = Dict.get? st key := by
  unfold setShadow at h
  split at h
  · obtain ⟨l, _, h3⟩ := Benker.bind_ok h
    cases h3
    rw [Dict.get?_set, if_neg (Ne.symm h1)]
  · cases h; rfl

/-- the size of a border: the value is in eighths of a point -/
def SizeOf (cfg : Config) (attr : Option String) (size : Option String) : Prop :=
  ((attr = none ∨ attr = some "") ∧ size = none) ∨
  ∃ t x, attr = some t ∧ t ≠ "" ∧ cfg.float t = .ok x ∧ size = some (cfg.repr (cfg.fl (x / 8)) ++ "pt")

/-- the kind of line -/
def kindOf (attr : Option String) : Option String :=
  match attr with
  | none => none
  | some t => if t = "" then none else some (borderVal t)

/-- the color: `auto` is not a color -/
def colorOf (attr : Option String) : Option String :=
  match attr with
  | none => none
  | some t => if t = "" ∨ t = "auto" then none else some ("#" ++ t)

theorem attr_border (b : Node) (names : List String) (attr : String) : attrOf (some b) [names] attr = borderAttr b names attr := by
  unfold attrOf select borderAttr kids
  simp only [List.foldl_cons, List.foldl_nil, List.flatMap_cons, List.flatMap_nil, List.append_nil]
  rfl

theorem borderText_line {cfg : Config} {b : Node} {names : List String} {p : Border} (h : borderProps cfg b names = .ok p) :
    ∃ size, SizeOf cfg (borderAttr b names "sz") size ∧
      (borderText cfg p).map StyleVal.str = borderLine (kindOf (borderAttr b names "val")) size (colorOf (borderAttr b names "color")) := by
  unfold borderProps at h
  simp only [attr_border] at h
  obtain ⟨shadow, _, h⟩ := Benker.bind_ok h
  obtain ⟨space, _, h⟩ := Benker.bind_ok h
  obtain ⟨sz, hsz, h⟩ := Benker.bind_ok h
  cases h
  have hc : borderColor (borderAttr b names "color") = colorOf (borderAttr b names "color") := by
    unfold borderColor nonEmpty colorOf
    cases borderAttr b names "color" with
    | none => rfl
    | some t =>
      by_cases h1 : t = ""
      · simp [h1]
      · simp [h1]
  have hk : (nonEmpty (borderAttr b names "val")).map borderVal = kindOf (borderAttr b names "val") := by
    unfold nonEmpty kindOf
    cases borderAttr b names "val" with
    | none => rfl
    | some t => by_cases h1 : t = "" <;> simp [h1]
  rw [hc, hk]
  refine ⟨sz.map (fun x => cfg.repr x ++ "pt"), ?_, ?_⟩
  · unfold optM nonEmpty at hsz
    cases e : borderAttr b names "sz" with
    | none => rw [e] at hsz; cases hsz; exact .inl ⟨.inl rfl, rfl⟩
    | some t =>
      rw [e] at hsz
      by_cases ht : t = ""
      · simp only [ht, if_true] at hsz
        cases hsz; subst ht; exact .inl ⟨.inr rfl, rfl⟩
      · simp only [ht, if_false] at hsz
        cases hf : cfg.float t with
        | error e => rw [hf] at hsz; cases hsz
        | ok x =>
          rw [hf] at hsz
          cases hsz
          exact .inr ⟨t, x, rfl, ht, hf, rfl⟩
  · unfold borderText borderLine
    generalize kindOf _ = k
    generalize colorOf _ = c
    cases k <;> cases sz <;> cases c <;> rfl

theorem find?_of_nodup {ν : Type} {l : List (String × ν)} (hn : (l.map (·.1)).Nodup) {k : String} {v : ν} (h : (k, v) ∈ l) :
    l.find? (fun p => p.1 = k) = some (k, v) := by
  induction l with
  | nil => cases h
  | cons p l ih =>
    rw [List.map_cons, List.nodup_cons] at hn
    rw [List.find?_cons]
    rcases List.mem_cons.mp h with rfl | h
    · simp
    · have : p.1 ≠ k := by
        intro e
        exact hn.1 (List.mem_map.mpr ⟨(k, v), h, e.symm⟩)
      simp only [this, decide_false]
      exact ih hn.2 h

theorem bordersOf_get {cfg : Config} {m : List (String × List String)} {b : Node} {st : Styles} (h : bordersOf cfg m (some b) = .ok st)
    (hn : (m.map (·.1)).Nodup) (key : String) (h1 : key ≠ "border-collapse") (h2 : key ≠ "border-spacing") (h3 : key ≠ "box-shadow") :
    (∀ names, (key, names) ∈ m → ∃ size, SizeOf cfg (borderAttr b names "sz") size ∧
      Dict.get? st key = borderLine (kindOf (borderAttr b names "val")) size (colorOf (borderAttr b names "color"))) ∧
    ((∀ names, (key, names) ∉ m) → Dict.get? st key = none) := by
  obtain ⟨props, hm, hs⟩ := Benker.bind_ok h
  have hall := mapM_ok_all₂ hm
  have hkeys : m.map (·.1) = props.map (·.1) := by
    apply All₂.map_eq
    refine hall.imp ?_
    intro a p hp
    cases hb : borderProps cfg b a.2 with
    | error e => rw [hb] at hp; cases hp
    | ok q => rw [hb] at hp; cases hp; rfl
  have hget : Dict.get? st key = match props.find? (fun p => p.1 = key) with
      | none => none
      | some p => (borderText cfg p.2).map StyleVal.str := by
    unfold bordersToStyles at hs
    rw [get?_shadow hs h3, get?_spacing _ _ _ h1 h2]
    unfold setBorders
    rw [get?_foldBorders cfg key props [] (hkeys ▸ hn)]
    cases props.find? (fun p => p.1 = key) <;> simp
  constructor
  · intro names hmem
    obtain ⟨p, hp, he⟩ := hall.mem_left hmem
    cases hb : borderProps cfg b names with
    | error e => rw [hb] at he; cases he
    | ok q =>
      rw [hb] at he
      cases he
      obtain ⟨size, hsz, ht⟩ := borderText_line hb
      refine ⟨size, hsz, ?_⟩
      rw [hget, ← ht]
      rw [find?_of_nodup (hkeys ▸ hn) hp]
  · intro hnot
    rw [hget]
    have : props.find? (fun p => p.1 = key) = none := by
      rw [List.find?_eq_none]
      intro p hp he
      simp only [decide_eq_true_eq] at he
      obtain ⟨a, ha, hpa⟩ := hall.mem_right hp
      cases hb : borderProps cfg b a.2 with
      | error e => rw [hb] at hpa; cases hpa
      | ok q =>
        rw [hb] at hpa; cases hpa
        exact hnot a.2 (by rw [← he]; exact ha)
    rw [this]

theorem get?_prefixed (d : Styles) (key : String) : Dict.get? (d.map (fun p => ("x-cell-" ++ p.1, p.2))) ("x-cell-" ++ key) = Dict.get? d key := by
  induction d with
  | nil => rfl
  | cons p d ih =>
    obtain ⟨a, v⟩ := p
    rw [List.map_cons, Dict.get?_cons, Dict.get?_cons, ih]
    have : ("x-cell-" ++ a = "x-cell-" ++ key) ↔ a = key := by
      constructor
      · intro h
        have := congrArg String.toList h
        simp only [String.toList_append, List.append_cancel_left_eq] at this
        exact String.toList_inj.mp this
      · rintro rfl; rfl
    by_cases h : a = key
    · simp [h]
    · rw [if_neg h, if_neg (fun e => h (this.mp e))]

theorem get?_prefixed_none (d : Styles) (key : String) (h : "x-cell-".toList.isPrefixOf key.toList = false) :
    Dict.get? (d.map (fun p => ("x-cell-" ++ p.1, p.2))) key = none := by
  rw [Dict.get?_eq_none]
  intro hm
  rw [List.map_map, List.mem_map] at hm
  obtain ⟨p, _, rfl⟩ := hm
  simp only [Function.comp_apply, String.toList_append] at h
  rw [List.isPrefixOf_iff_prefix.mpr (List.prefix_append _ _)] at h
  cases h

theorem wf_prefixed {d : Styles} (h : Dict.WF d) : Dict.WF (d.map (fun p => ("x-cell-" ++ p.1, p.2))) := by
  unfold Dict.WF List.Nodup at *
  rw [List.map_map, List.pairwise_map]
  rw [List.pairwise_map] at h
  refine h.imp ?_
  intro a b hne he
  simp only [Function.comp_apply] at he
  have := congrArg String.toList he
  simp only [String.toList_append, List.append_cancel_left_eq] at this
  exact hne (String.toList_inj.mp this)

/-- the border styles of a table, with the elements where they are found -/
def frameSides : List (String × List String) :=
  [("border-top", ["top"]), ("border-right", ["end", "right"]), ("border-bottom", ["bottom"]), ("border-left", ["start", "left"]),
   ("x-border-tr2bl", ["tr2bl"]), ("x-border-tl2br", ["tl2br"])]

/-- the border styles of the cells of a table -/
def insideSides : List (String × List String) :=
  [("border-top", ["insideH"]), ("border-right", ["insideV"]), ("border-bottom", ["insideH"]), ("border-left", ["insideV"])]

/-- **C54**: the borders which a style defines itself: each side is described by the attributes of the element of that side in the first
`w:tblPr/w:tblBorders` of the style, and the borders between the cells by `w:insideH` and `w:insideV`. -/
theorem C54_own_borders (cfg : Config) (style : Node) (own : Styles) (h : ownBorders cfg style = .ok own) (borders : Node)
    (hb : ((kids ["tblPr"] style).flatMap (kids ["tblBorders"])).head? = some borders) :
    (∀ key names, (key, names) ∈ frameSides → ∃ size, SizeOf cfg (borderAttr borders names "sz") size ∧
      Dict.get? own key =
        borderLine (kindOf (borderAttr borders names "val")) size (colorOf (borderAttr borders names "color"))) ∧
    (∀ key names, (key, names) ∈ insideSides → ∃ size, SizeOf cfg (borderAttr borders names "sz") size ∧
      Dict.get? own ("x-cell-" ++ key) =
        borderLine (kindOf (borderAttr borders names "val")) size (colorOf (borderAttr borders names "color"))) := by
  have hnode : nodeOf (some style) [["tblPr"], ["tblBorders"]] = some borders := by
    rw [← hb]
    unfold nodeOf select kids
    simp only [List.foldl_cons, List.foldl_nil, List.flatMap_cons, List.flatMap_nil, List.append_nil]
    rfl
  unfold ownBorders at h
  rw [hnode] at h
  obtain ⟨tb, h1, h2⟩ := Benker.bind_ok h
  obtain ⟨cb, h3, h4⟩ := Benker.bind_ok h2
  cases h4
  have wcb := wf_prefixed (wf_bordersOf h3)
  constructor
  · intro key names hmem
    have hp : "x-cell-".toList.isPrefixOf key.toList = false ∧ key ≠ "border-collapse" ∧ key ≠ "border-spacing" ∧ key ≠ "box-shadow" := by
      simp only [frameSides, List.mem_cons, Prod.mk.injEq, List.not_mem_nil, or_false] at hmem
      rcases hmem with ⟨rfl, -⟩ | ⟨rfl, -⟩ | ⟨rfl, -⟩ | ⟨rfl, -⟩ | ⟨rfl, -⟩ | ⟨rfl, -⟩ <;> decide
    obtain ⟨size, hs, he⟩ := (bordersOf_get h1 (by decide) key hp.2.1 hp.2.2.1 hp.2.2.2).1 names hmem
    refine ⟨size, hs, ?_⟩
    rw [Dict.get?_update wcb, get?_prefixed_none _ _ hp.1]
    exact he
  · intro key names hmem
    have hp : key ≠ "border-collapse" ∧ key ≠ "border-spacing" ∧ key ≠ "box-shadow" ∧ ∀ names, ("x-cell-" ++ key, names) ∉ frameSides := by
      simp only [insideSides, List.mem_cons, Prod.mk.injEq, List.not_mem_nil, or_false] at hmem
      simp only [frameSides, List.mem_cons, Prod.mk.injEq, List.not_mem_nil, or_false]
      rcases hmem with ⟨rfl, -⟩ | ⟨rfl, -⟩ | ⟨rfl, -⟩ | ⟨rfl, -⟩ <;> refine ⟨by decide, by decide, by decide, ?_⟩ <;> intro names <;>
        simp
    obtain ⟨size, hs, he⟩ := (bordersOf_get h3 (by decide) key hp.1 hp.2.1 hp.2.2.1).1 names hmem
    refine ⟨size, hs, ?_⟩
    rw [Dict.get?_update wcb, get?_prefixed]
    have : Dict.get? tb ("x-cell-" ++ key) = none := by
      refine (bordersOf_get h1 (by decide) _ ?_ ?_ ?_).2 hp.2.2.2
      all_goals
        intro e
        have := congrArg String.toList e
        simp at this
    rw [this, Option.or_none]
    exact he

end Benker
