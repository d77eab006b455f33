import Verif.Lemmas.Twin

/-! Properties C46, C47, C48 and C61: tables given by the CALS parser. -/

namespace Benker
open PyM CalsP

/-- a table element -/
def el (name : String) (cs : List Node) : Node := .elem ⟨none, name⟩ [] none cs none

def demoConfig : CalsP.Config := ⟨none, "pt".toList, id⟩

/-- boxes of the cells of the result -/
def boxesOf (r : Except PyErr (Option (Table Content))) : List (Int × Int × Int × Int) :=
  match r with
  | .ok (some t) => t.grid.cells.map (fun c => (c.box.min.x, c.box.min.y, c.box.max.x, c.box.max.y))
  | _ => []

/-! ### C46 -/

/-- filling the bounding box leaves no hole in it, and does not change it -/
theorem fillHoles_ok {t t' : Table Content} (ht : t.Reachable) {u : Unit} (h : fillHoles t = (.ok u, t')) :
    ∃ b, t'.boundingBox = .ok (some b) ∧ ∀ p, InBox p b → Covered t'.grid.cells p := by
  unfold fillHoles at h
  simp only [bind_run, get_run, lift_run] at h
  rcases boundingBox_inv t.grid ht.inv.grid with ⟨_, hb⟩ | ⟨b, hne, hb, hv, hin, hleast⟩
  · unfold Table.boundingBox at h
    rw [hb] at h
    cases h
  · unfold Table.boundingBox at h
    rw [hb] at h
    simp only at h
    obtain ⟨h1, h2, news, hp, _, hn⟩ := C35_fill_missing t ht b hv none none none
    have e : t' = exec (Table.fillMissing b none none none) t := by unfold exec; rw [h]
    have hi' := (ht.step (.fill b none none none)).inv
    simp only [Table.Op.run] at hi'
    subst e
    refine ⟨b, ?_, h2⟩
    rcases boundingBox_inv _ hi'.grid with ⟨hnil, _⟩ | ⟨b', hne', hb', hv', hin', hleast'⟩
    · rw [hnil] at hp
      have := hp.length_eq
      simp only [List.length_append, List.length_nil] at this
      exact absurd (List.eq_nil_of_length_eq_zero (by omega)) hne
    · unfold Table.boundingBox
      rw [hb']
      have w1 : Within b' b := by
        apply hleast'
        intro c hc
        rcases List.mem_append.mp (hp.mem_iff.mp hc) with hc | hc
        · obtain ⟨p, hpb, _, rfl⟩ := (hn c).mp hc
          intro q hq
          have : q = p := by cases q; cases p; simp only [InBox] at hq; simp only [Coord.mk.injEq]; omega
          rw [this]; exact hpb
        · exact hin c hc
      have w2 : Within b b' := hleast _ (fun c hc => hin' c (hp.mem_iff.mpr (by simp [hc])))
      rw [within_antisymm hv hv' w2 w1]

/-- **C46**: when the parsing of a CALS table succeeds it gives a table (obtained by operations of the API on an empty table), this
table is not empty, and every coordinate of its bounding box is covered by a cell. -/
theorem C46_no_hole (cfg : CalsP.Config) (parent : Option Node) (n : Node) (hn : n.tag? = some (cfg.q "table")) (s : PState)
    (r : Option (Table Content)) (h : eval (parseTable cfg parent n) s = .ok r) :
    ∃ t b, r = some t ∧ t.Reachable ∧ t.boundingBox = .ok (some b) ∧ ∀ p, InBox p b → Covered t.grid.cells p := by
  unfold eval at h
  rw [parseTable_run parent hn] at h
  simp only [bind_run] at h
  have k1 := keeps_tableElem (cfg := cfg) n PState.init (by intro t ht; cases ht)
  cases h1 : parseTableElem cfg n PState.init with
  | mk r1 s1 =>
    rw [h1] at h k1
    cases r1 with
    | error e => cases h
    | ok u =>
      simp only at h k1
      have k2 := keeps_loop (cfg := cfg) (walkList (selected cfg) (some n) n.children) 1 s1 k1
      cases h2 : loop cfg 1 (walkList (selected cfg) (some n) n.children) s1 with
      | mk r2 s2 =>
        rw [h2] at h k2
        cases r2 with
        | error e => cases h
        | ok u =>
          simp only at h k2
          unfold PState.onTable at h
          cases ht : s2.table with
          | none => rw [ht] at h; cases h
          | some t =>
            rw [ht] at h
            simp only at h
            cases h3 : fillHoles t with
            | mk r3 t3 =>
              rw [h3] at h
              cases r3 with
              | error e => cases h
              | ok u =>
                simp only [get_run, pure_run] at h
                cases h
                obtain ⟨b, hb, hc⟩ := fillHoles_ok (k2 t ht) h3
                have hr := keeps_fillHoles t (k2 t ht)
                rw [h3] at hr
                exact ⟨t3, b, rfl, hr, hb, hc⟩

/-- a table of three rows with missing entries and spans -/
def holesDemo : Node :=
  el "table" [el "tgroup" [el "tbody" [
    el "row" [.elem ⟨none, "entry"⟩ [(⟨none, "namest"⟩, "c1"), (⟨none, "nameend"⟩, "c3")] none [] none],
    el "row" [.elem ⟨none, "entry"⟩ [(⟨none, "morerows"⟩, "1")] none [] none],
    el "row" [el "entry" []]]]]

/-- not vacuous: one entry over three columns, one over two rows, one alone; four cells are added -/
example : boxesOf (eval (parseTable demoConfig none holesDemo) PState.init) =
    [(1, 1, 3, 1), (1, 2, 1, 3), (2, 2, 2, 2), (3, 2, 3, 2), (2, 3, 2, 3), (3, 3, 3, 3)] := by decide +kernel

/-! ### C48 -/

/-- state of a parser after parsing some tables one after the other (some of these parsings may fail) -/
def parsing (cfg : CalsP.Config) (s : PState) (tables : List (Option Node × Node)) : PState :=
  tables.foldl (fun s x => exec (parseTable cfg x.1 x.2) s) s

/-- **C48**: the result of parsing a table (table or exception) is the same after any history of parsings as with a new parser. -/
theorem C48_no_history (cfg : CalsP.Config) (before : List (Option Node × Node)) (parent : Option Node) (n : Node) :
    eval (parseTable cfg parent n) (parsing cfg PState.init before) = eval (parseTable cfg parent n) PState.init := by
  generalize parsing cfg PState.init before = s
  unfold eval parseTable PState.reset
  rfl

/-! ### C47 -/

/-- **C47**: the layout of a parsed table (positions, spans, styles and natures of the cells, rows and columns), or the exception, is
the same as with the inner tables emptied. -/
theorem C47_inner_tables (cfg : CalsP.Config) (parent : Option Node) (n : Node) (hn : n.tag? = some (cfg.q "table")) :
    (eval (parseTable cfg parent n) PState.init).map (Option.map Table.layout) =
      (eval (parseTable cfg parent (emptyInner (cfg.q "table") n)) PState.init).map (Option.map Table.layout) := by
  cases n with
  | pi => cases hn
  | comment => cases hn
  | elem t a x cs tl =>
    unfold eval
    have hn' : (Node.elem t a x (emptyTablesIn (cfg.q "table") cs) tl).tag? = some (cfg.q "table") := hn
    rw [parseTable_run parent hn, emptyInner, parseTable_run parent hn']
    refine (twin_bind (twin_tableElem (sameShape_empty t a x cs tl _)) (fun _ _ _ => ?_) PState.init PState.init rfl).1
    have hp : SameParent (some (Node.elem t a x cs tl)) (some (Node.elem t a x (emptyTablesIn (cfg.q "table") cs) tl)) := .some rfl rfl
    refine twin_bind (twin_walkList hp cs) (fun _ _ _ => ?_)
    refine twin_bind (twin_onTable twin_fillHoles) (fun _ _ _ => ?_)
    refine twin_bind twin_get (fun s s' hs => ?_)
    exact twin_pure (congrArg (fun x => x.2.2.2) hs)

/-- not vacuous: an inner table with two rows -/
example : boxesOf (eval (parseTable demoConfig none (el "table" [el "tgroup" [el "tbody" [el "row" [el "entry" [],
      el "entry" [el "p" [el "table" [el "tgroup" [el "tbody" [el "row" [el "entry" []], el "row" [el "entry" []]]]]]]]]]])) PState.init) =
    [(1, 1, 1, 1), (2, 1, 2, 1)] := by decide +kernel

/-! ### C61 -/

/-- two rows of two entries; the first entry of the second row contains an element `name` -/
def nestDemo (name : String) : Node :=
  el "table" [el "tgroup" [el "tbody" [el "row" [el "entry" [], el "entry" []], el "row" [el "entry" [el name []], el "entry" []]]]]

/-- **C61 is false**: with a table in the first entry of the second row, the second entry of this row is put in the third column -/
theorem C61_counterexample :
    boxesOf (eval (parseTable demoConfig none (nestDemo "para")) PState.init) = [(1, 1, 1, 1), (2, 1, 2, 1), (1, 2, 1, 2), (2, 2, 2, 2)] ∧
    boxesOf (eval (parseTable demoConfig none (nestDemo "table")) PState.init) =
      [(1, 1, 1, 1), (2, 1, 2, 1), (3, 1, 3, 1), (1, 2, 1, 2), (2, 2, 2, 2), (3, 2, 3, 2)] := by
  decide +kernel

/-- **C61**, the part which holds: the end of an inner table changes nothing if the bounding box of the table has no hole yet -/
theorem C61_no_hole_partial (cfg : CalsP.Config) (inner : Node) (hi : inner.tag? = some (cfg.q "table")) (s : PState) (t : Table Content)
    (hs : s.table = some t) (b : Box) (hb : t.boundingBox = .ok (some b)) (hc : ∀ p, InBox p b → Covered t.grid.cells p) :
    onEnd cfg inner s = (.ok (), s) := by
  have een : onEnd cfg inner = PState.onTable fillHoles := by simp [onEnd, hi, Config.q]
  have key : ∀ L : List Coord, (∀ p ∈ L, Covered t.grid.cells p) → PyM.forEach (Table.fillOne (γ := Content) none none none) L t = (.ok (), t) := by
    intro L
    induction L with
    | nil => intro _; rfl
    | cons p L ih =>
      intro hL
      show PyM.bind _ _ t = _
      unfold PyM.bind
      rw [Table.fillOne_run, if_pos ((hasCoord_grid _ _).mpr (hL p (by simp)))]
      exact ih (fun q hq => hL q (by simp [hq]))
  have e : fillHoles t = (.ok (), t) := by
    unfold fillHoles
    simp only [bind_run, get_run, lift_run, hb]
    exact key _ (fun p hp => hc p ((mem_boxCoords b p).mp hp))
  rw [een]
  unfold PState.onTable
  rw [hs]
  simp only [e]
  rw [← hs]

/-- not vacuous: the first row of `nestDemo` -/
example : ∃ (t : Table Content) (b : Box), t.Reachable ∧ t.boundingBox = .ok (some b) ∧ 2 ≤ t.grid.cells.length ∧ ∀ p, InBox p b → Covered t.grid.cells p := by
  cases h : eval (parseTable demoConfig none (nestDemo "para")) PState.init with
  | error e => have := C61_counterexample.1; rw [h] at this; cases this
  | ok r =>
    obtain ⟨t, b, rfl, h1, h2, h3⟩ := C46_no_hole demoConfig none (nestDemo "para") rfl PState.init r h
    refine ⟨t, b, h1, h2, ?_, h3⟩
    have := congrArg List.length C61_counterexample.1
    rw [h] at this
    simp only [boxesOf, List.length_map, List.length_cons, List.length_nil] at this
    omega

end Benker
