import Verif.Spec.CalsSchema
import Verif.Props.CalsBuilder
import Verif.Props.Names
import Verif.Lemmas.CalsRoundTrip

/-! Lemmas of C108: attributes and content of the elements written by the CALS builder. -/

namespace Benker.CalsSchema
open Cals CalsSpec PyM

theorem attributes_nil (ns : Option String) (e : String) : Attributes ns e [] := ⟨by simp, by simp⟩

theorem mem_set {d : Dict QName String} {k : QName} {v : String} {a : QName} {w : String} (h : (a, w) ∈ Dict.set d k v) : (a, w) ∈ d ∨ (a = k ∧ w = v) := by
  induction d with
  | nil => simp [Dict.set] at h; exact .inr h
  | cons p d ih =>
    obtain ⟨k', v'⟩ := p
    unfold Dict.set at h
    split at h
    · rename_i e
      rcases List.mem_cons.mp h with h | h
      · cases h; exact .inr ⟨by first | rfl | exact e | exact e.symm, rfl⟩
      · exact .inl (List.mem_cons_of_mem _ h)
    · rcases List.mem_cons.mp h with h | h
      · exact .inl (by rw [h]; simp)
      · rcases ih h with h | h
        · exact .inl (List.mem_cons_of_mem _ h)
        · exact .inr h

theorem attributes_set {cfg : Config} {e name v : String} {a : Dict QName String} (ha : Attributes cfg.ns e a) (hl : Legal e name v) :
    Attributes cfg.ns e (Dict.set a (cfg.q name) v) := by
  refine ⟨Dict.wf_set ha.1 _ _, ?_⟩
  intro k w hk
  rcases mem_set hk with h | ⟨rfl, rfl⟩
  · exact ha.2 k w h
  · exact ⟨rfl, hl⟩

theorem attributes_addAttr {cfg : Config} {e key name : String} {styles : Styles} {f : StyleVal → Except PyErr String} {a b : Dict QName String}
    (h : addAttr cfg styles key name f a = .ok b) (ha : Attributes cfg.ns e a) (hl : ∀ x v, f x = .ok v → Legal e name v) : Attributes cfg.ns e b := by
  unfold addAttr at h
  split at h
  · cases h; exact ha
  · split at h
    · cases h
    · rename_i s hs
      cases h
      exact attributes_set ha (hl _ _ hs)

theorem sep_values {styles : Styles} {key s : String} (h : getSepAttr styles key = .ok (some s)) : s ∈ ["0", "1"] := by
  unfold getSepAttr at h
  split at h
  · cases h
  · cases h
  · cases h; split <;> simp

theorem attributes_addSep {cfg : Config} {e key name d : String} {styles : Styles} {a b : Dict QName String}
    (h : addSep cfg styles key name d a = .ok b) (ha : Attributes cfg.ns e a) (hl : (e, name, yesOrNo) ∈ declared) : Attributes cfg.ns e b := by
  unfold addSep at h
  split at h
  · cases h
  · cases h; exact ha
  · rename_i s hs
    cases h
    split
    · exact attributes_set ha (.inl ⟨_, hl, sep_values hs⟩)
    · exact ha

theorem attributes_addSepIf {cfg : Config} {e key name d : String} {styles : Styles} {a b : Dict QName String} {c : Bool}
    (h : addSepIf c cfg styles key name d a = .ok b) (ha : Attributes cfg.ns e a) (hl : (e, name, yesOrNo) ∈ declared) : Attributes cfg.ns e b := by
  unfold addSepIf at h
  split at h
  · exact attributes_addSep h ha hl
  · cases h; exact ha

theorem defaultSep_values {styles : Styles} {key s : String} (h : defaultSep styles key = .ok s) : s ∈ ["0", "1"] := by
  unfold defaultSep at h
  split at h
  · cases h
  · cases h; simp
  · rename_i hs; cases h; exact sep_values hs

theorem lookup_values {table : List (String × String)} {x : StyleVal} {v : String} (h : lookup table x = .ok v) : v ∈ table.map (·.2) := by
  unfold lookup at h
  split at h
  · split at h
    · rename_i hg
      cases h
      exact List.mem_map.mpr ⟨_, get_mem hg, rfl⟩
    · cases h
  · cases h
where
  get_mem {d : List (String × String)} {k v : String} (h : Dict.get? d k = some v) : (k, v) ∈ d := by
    induction d with
    | nil => simp at h
    | cons p d ih =>
      obtain ⟨k', v'⟩ := p
      rw [Dict.get?_cons] at h
      split at h
      · rename_i e; cases h; subst e; simp
      · exact List.mem_cons_of_mem _ (ih h)

theorem isDigit_digit {c : Char} (h : c.isDigit = true) : digit c = true := by
  simp only [Char.isDigit, Bool.and_eq_true, decide_eq_true_eq] at h
  simp only [digit, Bool.and_eq_true, decide_eq_true_eq]
  exact ⟨h.1, h.2⟩

theorem integer_intStr (i : Int) : Kind.Allows .integer (intStr i) := by
  unfold Kind.Allows intStr Coord.intDigits
  simp only [String.toList_ofList]
  split
  · exact ⟨['-'], _, rfl, by simp, natDigits_ne _, fun c hc => isDigit_digit (natDigits_isDigit _ c hc)⟩
  · exact ⟨[], _, rfl, by simp, natDigits_ne _, fun c hc => isDigit_digit (natDigits_isDigit _ c hc)⟩

theorem name_column (i : Int) : Kind.Allows .name ("c" ++ intStr i) := by
  refine ⟨by simp, ?_⟩
  intro c hc
  rw [String.toList_append, List.mem_append] at hc
  unfold intStr Coord.intDigits at hc
  simp only [String.toList_ofList] at hc
  rcases hc with hc | hc
  · have : c = 'c' := by simpa using hc
    subst this; decide
  · split at hc
    · rcases List.mem_cons.mp hc with rfl | hc
      · decide
      · simp [nameChar, isDigit_digit (natDigits_isDigit _ c hc)]
    · simp [nameChar, isDigit_digit (natDigits_isDigit _ c hc)]

theorem legal {e name v : String} (k : Kind) (h : (e, name, k) ∈ declared) (hv : k.Allows v) : Legal e name v := .inl ⟨k, h, hv⟩

theorem legal_of_mem {e name v : String} {l values : List String} (h : (e, name, .oneOf values) ∈ declared) (hv : v ∈ l) (hs : l ⊆ values) : Legal e name v :=
  .inl ⟨_, h, hs hv⟩

theorem frame_values {styles : Styles} {f : String} (h : getFrameAttr styles = .ok f) : f ∈ ["top", "bottom", "topbot", "all", "sides", "none"] := by
  unfold getFrameAttr at h
  obtain ⟨a, _, h⟩ := bind_ok h
  obtain ⟨b, _, h⟩ := bind_ok h
  obtain ⟨c, _, h⟩ := bind_ok h
  obtain ⟨d, _, h⟩ := bind_ok h
  cases h
  cases a <;> cases b <;> cases c <;> cases d <;> simp

theorem tableRest_ok {cfg : Config} {styles : Styles} {a1 a : Dict QName String} (g1 : Attributes cfg.ns "table" a1)
    (h : (do
      let attrs ← addAttr cfg styles "x-sect-orient" "orient" (lookup [("landscape", "land"), ("portrait", "port")]) a1
      let attrs ← addAttr cfg styles "x-sect-cols" "pgwide" (fun v => .ok (if v = StyleVal.str "1" then "1" else "0")) attrs
      let attrs ← addAttr cfg styles "background-color" "bgcolor" attrValue attrs
      addAttr cfg styles "width" "width" (widthAttr cfg) attrs) = .ok a) : Attributes cfg.ns "table" a := by
  obtain ⟨a2, h3, h⟩ := bind_ok h
  obtain ⟨a3, h4, h⟩ := bind_ok h
  obtain ⟨a4, h5, h⟩ := bind_ok h
  have g2 := attributes_addAttr h3 g1 (fun x v hv => legal_of_mem (values := ["port", "land"]) (by simp [declared]) (lookup_values hv) (by simp))
  have g3 := attributes_addAttr h4 g2 (fun x v hv => legal (v := v) yesOrNo (by simp [declared]) (by cases hv; split <;> simp [yesOrNo, Kind.Allows]))
  have g4 := attributes_addAttr h5 g3 (fun x v hv => .inr (by simp [extensions]))
  exact attributes_addAttr h g4 (fun x v hv => .inr (by simp [extensions]))

theorem tableAttrs_ok {cfg : Config} {t : Table Content} {a : Dict QName String} (h : tableAttrs cfg t = .ok a) : Attributes cfg.ns "table" a := by
  unfold tableAttrs at h
  obtain ⟨f, h1, h⟩ := bind_ok h
  have hf : Attributes cfg.ns "table" [(cfg.q "frame", f)] := by
    refine ⟨by simp, ?_⟩
    intro k v hk
    simp only [List.mem_cons, List.not_mem_nil, or_false] at hk
    cases hk
    exact ⟨rfl, legal (.oneOf ["top", "bottom", "topbot", "all", "sides", "none"]) (by simp [declared, Config.q]) (frame_values h1)⟩
  dsimp only at h
  split at h
  · exact tableRest_ok hf h
  · obtain ⟨s1, e1, h2⟩ := bind_ok h
    obtain ⟨s2, e2, h2⟩ := bind_ok h2
    have := attributes_set (attributes_set hf (legal (name := "colsep") yesOrNo (by simp [declared]) (defaultSep_values e1)))
      (legal (name := "rowsep") yesOrNo (by simp [declared]) (defaultSep_values e2))
    refine tableRest_ok ?_ h2
    split
    · exact attributes_set this (legal .text (by simp [declared]) trivial)
    · exact this

theorem tgroupAttrs_ok {cfg : Config} {t : Table Content} {n : Nat} {a : Dict QName String} (h : tgroupAttrs cfg t n = .ok a) :
    Attributes cfg.ns "tgroup" a := by
  unfold tgroupAttrs at h
  have hf : Attributes cfg.ns "tgroup" [(cfg.q "cols", intStr n)] := by
    refine ⟨by simp, ?_⟩
    intro k v hk
    simp only [List.mem_cons, List.not_mem_nil, or_false] at hk
    cases hk
    exact ⟨rfl, legal .integer (by simp [declared, Config.q]) (integer_intStr _)⟩
  dsimp only at h
  split at h
  · obtain ⟨s1, e1, h2⟩ := bind_ok h
    obtain ⟨s2, e2, h2⟩ := bind_ok h2
    cases h2
    have := attributes_set (attributes_set hf (legal (name := "colsep") yesOrNo (by simp [declared]) (defaultSep_values e1)))
      (legal (name := "rowsep") yesOrNo (by simp [declared]) (defaultSep_values e2))
    split
    · exact attributes_set this (legal .text (by simp [declared]) trivial)
    · exact this
  · cases h; exact hf

theorem colspec_ok {cfg : Config} {colsep rowsep : String} {v : View Content} {e : Node} (h : buildColspec cfg colsep rowsep v = .ok e) :
    IsColspec cfg.ns e := by
  unfold buildColspec at h
  obtain ⟨a1, h1, h⟩ := bind_ok h
  dsimp only at h
  obtain ⟨a2, h2, h⟩ := bind_ok h
  obtain ⟨a3, h3, h⟩ := bind_ok h
  cases h
  have hf : Attributes cfg.ns "colspec" [(cfg.q "colnum", intStr v.pos), (cfg.q "colname", "c" ++ intStr v.pos)] := by
    refine ⟨by simp [Config.q], ?_⟩
    intro k w hk
    simp only [List.mem_cons, List.not_mem_nil, or_false] at hk
    rcases hk with hk | hk <;> cases hk
    · exact ⟨rfl, legal .integer (by simp [declared, Config.q]) (integer_intStr _)⟩
    · exact ⟨rfl, legal .name (by simp [declared, Config.q]) (name_column _)⟩
  have g1 := attributes_addAttr h1 hf (fun x v hv => legal (v := v) .text (by simp [declared]) trivial)
  refine ⟨_, rfl, attributes_addSep h3 (attributes_addSep h2 ?_ (by simp [declared])) (by simp [declared])⟩
  split
  · split
    · rename_i a _ _ w hw
      exact attributes_set g1 (legal_of_mem (l := ["left", "right", "center", "justify"]) (values := ["left", "right", "center", "justify", "char"])
        (by simp [declared, aligns])
        (by have := lookup_values (x := .str a) (v := w) (table := alignMap) (by unfold lookup; dsimp only; rw [hw])
            simpa [alignMap] using this) (by simp))
    · exact g1
  · exact g1

theorem entry_ok {cfg : Config} {colsep rowsep : String} {bb : Option Box} {c : Cell Content} {e : Node} (h : buildCell cfg colsep rowsep bb c = .ok e) :
    IsEntry cfg.ns e := by
  unfold buildCell at h
  split at h
  · cases h
  rename_i bb
  obtain ⟨a, ha, h⟩ := bind_ok h
  obtain ⟨f, _, h⟩ := bind_ok h
  cases h
  refine ⟨_, _, _, rfl, ?_⟩
  unfold entryAttrs at ha
  dsimp only at ha
  obtain ⟨a1, h1, ha⟩ := bind_ok ha
  obtain ⟨a2, h2, ha⟩ := bind_ok ha
  obtain ⟨a3, h3, ha⟩ := bind_ok ha
  obtain ⟨a4, h4, ha⟩ := bind_ok ha
  obtain ⟨a5, h5, ha⟩ := bind_ok ha
  have g1 := attributes_addSepIf h1 (attributes_nil cfg.ns "entry") (by simp [declared])
  have g2 := attributes_addSepIf h2 g1 (by simp [declared])
  have g3 := attributes_addAttr h3 g2 (fun x v hv => legal_of_mem (values := ["top", "middle", "bottom"]) (by simp [declared, valigns]) (lookup_values hv) (by simp))
  have g4 := attributes_addAttr h4 g3 (fun x v hv => legal_of_mem (values := ["left", "right", "center", "justify", "char"]) (by simp [declared, aligns]) (lookup_values hv) (by simp [alignMap]))
  refine attributes_addAttr ha (attributes_addAttr h5 ?_ (fun x v hv => .inr (by simp [extensions]))) (fun x v hv => .inr (by simp [extensions]))
  have g5 : Attributes cfg.ns "entry" (if c.width > 1 then
      Dict.set (Dict.set a4 (cfg.q "namest") ("c" ++ intStr c.box.min.x)) (cfg.q "nameend") ("c" ++ intStr c.box.max.x) else a4) := by
    split
    · exact attributes_set (attributes_set g4 (legal .name (by simp [declared]) (name_column _))) (legal .name (by simp [declared]) (name_column _))
    · exact g4
  split
  · exact attributes_set g5 (legal .integer (by simp [declared]) (integer_intStr _))
  · exact g5

theorem rowAttrs_ok {cfg : Config} {rowsep : String} {r : View Content} {a : Dict QName String} (h : rowAttrs cfg rowsep r = .ok a) :
    Attributes cfg.ns "row" a := by
  unfold rowAttrs at h
  obtain ⟨a1, h1, h⟩ := bind_ok h
  obtain ⟨a2, h2, h⟩ := bind_ok h
  have g1 := attributes_addAttr h1 (attributes_nil cfg.ns "row") (fun x v hv => legal_of_mem (values := ["top", "middle", "bottom"]) (by simp [declared, valigns]) (lookup_values hv) (by simp))
  exact attributes_addAttr h (attributes_addSep h2 g1 (by simp [declared])) (fun x v hv => .inr (by simp [extensions]))

/-- what is written for a row -/
theorem row_ok {cfg : Config} {colsep rowsep : String} {bb : Option Box} {r : View Content} {nodes : List Node}
    (h : buildRow cfg colsep rowsep bb r = .ok nodes) : ∃ a es, Attributes cfg.ns "row" a ∧ (∀ e ∈ es, IsEntry cfg.ns e) ∧ es.length = r.owned.length ∧
      (nodes = [.elem (cfg.q "row") a none es none] ∨
        ∃ d1 d2, nodes = [.pi "change-start" d1 none, .elem (cfg.q "row") a none es none, .pi "change-end" d2 none]) := by
  unfold buildRow at h
  obtain ⟨a, h1, h⟩ := bind_ok h
  obtain ⟨es, h2, h⟩ := bind_ok h
  have hall := mapM_ok_all₂ h2
  refine ⟨a, es, rowAttrs_ok h1, ?_, hall.length.symm, ?_⟩
  · intro e he
    obtain ⟨c, _, hc⟩ := hall.mem_right he
    exact entry_ok hc
  · dsimp only at h
    split at h
    · obtain ⟨i, hi, h⟩ := bind_ok h
      obtain ⟨j, hj, h⟩ := bind_ok h
      obtain ⟨k, hk, h⟩ := bind_ok h
      cases h
      right; exact ⟨_, _, rfl⟩
    · cases h
      left; rfl

/-- the rows of a group are entitled to `entries` iff those of the table are -/
theorem group_ok {cfg : Config} {colsep rowsep tag : String} {bb : Option Box} {g : List (View Content)} {body : Node}
    (h : buildTbody cfg colsep rowsep bb tag g = .ok body) : ∃ nodes, body = .elem (cfg.q tag) [] none nodes none ∧
      (∀ c ∈ nodes, IsInstruction c ∨ ∃ r ∈ g, ∃ a es, Attributes cfg.ns "row" a ∧ (∀ e ∈ es, IsEntry cfg.ns e) ∧ es.length = r.owned.length ∧
        c = .elem (cfg.q "row") a none es none) ∧
      ∀ r ∈ g, ∃ c ∈ nodes, ∃ a es, Attributes cfg.ns "row" a ∧ (∀ e ∈ es, IsEntry cfg.ns e) ∧ es.length = r.owned.length ∧
        c = .elem (cfg.q "row") a none es none := by
  unfold buildTbody at h
  obtain ⟨elems, h1, h⟩ := bind_ok h
  cases h
  have hall := (mapM_ok_all₂ h1).imp (fun _ _ h => row_ok h)
  refine ⟨_, rfl, ?_, ?_⟩
  · intro c hc
    obtain ⟨nodes, hn, hc⟩ := List.mem_flatten.mp hc
    obtain ⟨r, hr, a, es, g1, g2, g3, g4⟩ := hall.mem_right hn
    rcases g4 with rfl | ⟨d1, d2, rfl⟩
    · right; exact ⟨r, hr, a, es, g1, g2, g3, by simpa using hc⟩
    · simp only [List.mem_cons, List.not_mem_nil, or_false] at hc
      rcases hc with rfl | rfl | rfl
      · left; exact ⟨_, _, rfl⟩
      · right; exact ⟨r, hr, a, es, g1, g2, g3, rfl⟩
      · left; exact ⟨_, _, rfl⟩
  · intro r hr
    obtain ⟨nodes, hn, a, es, g1, g2, g3, g4⟩ := hall.mem_left hr
    refine ⟨.elem (cfg.q "row") a none es none, List.mem_flatten.mpr ⟨nodes, hn, ?_⟩, a, es, g1, g2, g3, rfl⟩
    rcases g4 with rfl | ⟨d1, d2, rfl⟩ <;> simp

/-- shape of the generated tree -/
theorem tree_ok {cfg : Config} {t : Table Content} {bb : Option Box} {cols rows : List (View Content)} {tree : Node}
    (h : buildTree cfg t bb cols rows = .ok tree) : ∃ attrs tattrs colspecs bodies,
      tree = .elem (cfg.q "table") attrs none [.elem (cfg.q "tgroup") tattrs none (colspecs ++ bodies) none] none ∧
      Attributes cfg.ns "table" attrs ∧ Attributes cfg.ns "tgroup" tattrs ∧ tgroupAttrs cfg t cols.length = .ok tattrs ∧ (∀ c ∈ colspecs, IsColspec cfg.ns c) ∧
      All₂ (fun g body => ∃ colsep rowsep, buildTbody cfg colsep rowsep bb (groupTag (groupNature g)) g = .ok body) (rowGroups cfg rows) bodies := by
  unfold buildTree at h
  obtain ⟨attrs, h0, h⟩ := bind_ok h
  obtain ⟨colsep, _, h⟩ := bind_ok h
  obtain ⟨rowsep, _, h⟩ := bind_ok h
  obtain ⟨tgroup, h1, h⟩ := bind_ok h
  cases h
  unfold buildTgroup at h1
  obtain ⟨tattrs, h1', h1⟩ := bind_ok h1
  obtain ⟨colspecs, h2, h1⟩ := bind_ok h1
  obtain ⟨bodies, h3, h1⟩ := bind_ok h1
  cases h1
  refine ⟨attrs, tattrs, colspecs, bodies, rfl, tableAttrs_ok h0, tgroupAttrs_ok h1', h1', ?_, (mapM_ok_all₂ h3).imp (fun _ _ h => ⟨_, _, h⟩)⟩
  intro c hc
  obtain ⟨v, _, hv⟩ := (mapM_ok_all₂ h2).mem_right hc
  exact colspec_ok hv

end Benker.CalsSchema
