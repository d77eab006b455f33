import Verif.Lemmas.CalsBuilder
import Verif.Props.Table

/-! C40, C41: the tree generated by the CALS builder. -/

namespace Benker
open Cals CalsSpec PyM

/-! ### ranks -/

theorem sortingFold_get (l : List String) (d : Dict String Int) (k : Nat) (n : String) :
    Dict.get? ((l.zipIdx k).foldl (fun d p => Dict.set d p.1 (p.2 : Int)) d) n = Dict.get? d n ∧ n ∉ l ∨
    ∃ i : Nat, Dict.get? ((l.zipIdx k).foldl (fun d p => Dict.set d p.1 (p.2 : Int)) d) n = some ((k + i : Nat) : Int) ∧
      l[i]? = some n ∧ ∀ j, i < j → l[j]? ≠ some n := by
  induction l generalizing d k with
  | nil => left; simp
  | cons x l ih =>
    rw [List.zipIdx_cons, List.foldl_cons]
    rcases ih (Dict.set d x (k : Int)) (k + 1) with ⟨h1, h2⟩ | ⟨i, h1, h2, h3⟩
    · by_cases hx : x = n
      · right
        refine ⟨0, ?_, by simp [hx], ?_⟩
        · rw [h1, Dict.get?_set, if_pos hx]; simp
        · intro j hj he
          cases j with
          | zero => omega
          | succ j =>
            simp only [List.getElem?_cons_succ] at he
            exact h2 (List.mem_of_getElem? he)
      · left
        refine ⟨?_, by simp [h2, Ne.symm hx]⟩
        rw [h1, Dict.get?_set, if_neg hx]
    · right
      refine ⟨i + 1, ?_, by simpa using h2, ?_⟩
      · rw [h1]; congr 2; omega
      · intro j hj he
        cases j with
        | zero => omega
        | succ j => exact h3 j (by omega) (by simpa using he)

theorem sortingDict_get (l : List String) (n : String) :
    Dict.get? (sortingDict l) n = none ∧ n ∉ l ∨
    ∃ i : Nat, Dict.get? (sortingDict l) n = some (i : Int) ∧ l[i]? = some n ∧ ∀ j, i < j → l[j]? ≠ some n := by
  rcases sortingFold_get l [] 0 n with ⟨h1, h2⟩ | ⟨i, h1, h2, h3⟩
  · left; exact ⟨h1, h2⟩
  · right; exact ⟨i, by rw [Nat.zero_add] at h1; exact h1, h2, h3⟩

theorem rank_spec (cfg : Config) (h : "body" ∈ cfg.tgroupSorting) (nature : Option String) :
    RankIs cfg.tgroupSorting nature (rank cfg nature) := by
  have body : ∃ i : Nat, Dict.get? (sortingDict cfg.tgroupSorting) "body" = some (i : Int) ∧ cfg.tgroupSorting[i]? = some "body" ∧
      ∀ j, i < j → cfg.tgroupSorting[j]? ≠ some "body" := by
    rcases sortingDict_get cfg.tgroupSorting "body" with ⟨_, h2⟩ | h
    · exact absurd h h2
    · exact h
  obtain ⟨b, b1, b2, b3⟩ := body
  unfold rank
  simp only [b1, Option.getD_some]
  cases nature with
  | none => right; exact ⟨by simp, b, rfl, b2, b3⟩
  | some n =>
    rcases sortingDict_get cfg.tgroupSorting n with ⟨h1, h2⟩ | ⟨i, h1, h2, h3⟩
    · right
      refine ⟨?_, b, ?_, b2, b3⟩
      · intro n' e; cases e; exact h2
      · simp [h1]
    · left; exact ⟨i, n, rfl, by simp [h1], h2, h3⟩

theorem rankIs_unique {sorting : List String} {nature : Option String} {k k' : Int} (h : RankIs sorting nature k) (h' : RankIs sorting nature k') :
    k = k' := by
  have last : ∀ {n : String} {i j : Nat}, sorting[i]? = some n → (∀ j, i < j → sorting[j]? ≠ some n) → sorting[j]? = some n →
      (∀ i, j < i → sorting[i]? ≠ some n) → i = j := by
    intro n i j h1 h2 h3 h4
    rcases Nat.lt_trichotomy i j with h | h | h
    · exact absurd h3 (h2 j h)
    · exact h
    · exact absurd h1 (h4 i h)
  rcases h with ⟨i, n, e, rfl, h1, h2⟩ | ⟨h0, i, rfl, h1, h2⟩ <;> rcases h' with ⟨j, n', e', rfl, h1', h2'⟩ | ⟨h0', j, rfl, h1', h2'⟩
  · rw [e] at e'; cases e'; rw [last h1 h2 h1' h2']
  · exact absurd (List.mem_of_getElem? h1) (h0' n e)
  · exact absurd (List.mem_of_getElem? h1') (h0 n' e')
  · rw [last h1 h2 h1' h2']

theorem config_new_sorting {ns : Option String} {w : List Char} {tg : Bool} {sorting : Option (List String)} {fl : Rat → Rat} {cfg : Config}
    (h : Config.new ns w tg sorting fl = .ok cfg) : ∀ n ∈ ["header", "footer", "body"], n ∈ cfg.tgroupSorting := by
  unfold Config.new at h
  split at h
  · rename_i hall
    cases h
    intro n hn
    have := List.all_eq_true.mp hall n hn
    simp only
    rcases sortingDict_get (sortingOption sorting) n with
      ⟨h1, _⟩ | ⟨i, _, h2, _⟩
    · unfold Dict.has at this; rw [h1] at this; cases this
    · exact List.mem_of_getElem? h2
  · cases h

/-! ### elements -/

theorem set_get_ne {cfg : Config} {a b : String} (v : String) (d : Dict QName String) (h : a ≠ b) :
    Dict.get? (Dict.set d (cfg.q a) v) (cfg.q b) = Dict.get? d (cfg.q b) := by
  rw [Dict.get?_set, if_neg (q_ne cfg h)]

theorem set_get_eq {cfg : Config} (a v : String) (d : Dict QName String) :
    Dict.get? (Dict.set d (cfg.q a) v) (cfg.q a) = some v := by rw [Dict.get?_set, if_pos rfl]

theorem entryAttrs_spans {cfg : Config} {colsep rowsep : String} {bb : Box} {c : Cell Content} {a : Dict QName String}
    (hv : c.box.Valid) (h : entryAttrs cfg colsep rowsep bb c = .ok a) :
    Dict.get? a (cfg.q "namest") = (if c.min.x = c.max.x then none else some ("c" ++ intStr c.min.x)) ∧
    Dict.get? a (cfg.q "nameend") = (if c.min.x = c.max.x then none else some ("c" ++ intStr c.max.x)) ∧
    Dict.get? a (cfg.q "morerows") = (if c.min.y = c.max.y then none else some (intStr (c.max.y - c.min.y))) := by
  unfold entryAttrs at h
  obtain ⟨a1, h1, h⟩ := bind_ok h
  obtain ⟨a2, h2, h⟩ := bind_ok h
  obtain ⟨a3, h3, h⟩ := bind_ok h
  obtain ⟨a4, h4, h⟩ := bind_ok h
  simp only at h
  obtain ⟨a7, h7, h8⟩ := bind_ok h
  have base : ∀ n, n ≠ "colsep" → n ≠ "rowsep" → n ≠ "valign" → n ≠ "align" → Dict.get? a4 (cfg.q n) = none := by
    intro n n1 n2 n3 n4
    rw [(addAttr_ok h4 n).1 n4, (addAttr_ok h3 n).1 n3]
    have e2 : Dict.get? a2 (cfg.q n) = Dict.get? a1 (cfg.q n) := by
      unfold addSepIf at h2
      split at h2
      · exact (addSep_ok h2 n).1 n2
      · cases h2; rfl
    have e1 : Dict.get? a1 (cfg.q n) = none := by
      unfold addSepIf at h1
      split at h1
      · exact (addSep_ok h1 n).1 n1
      · cases h1; rfl
    rw [e2, e1]
  have b1 := base "namest" (by decide) (by decide) (by decide) (by decide)
  have b2 := base "nameend" (by decide) (by decide) (by decide) (by decide)
  have b3 := base "morerows" (by decide) (by decide) (by decide) (by decide)
  have fin : ∀ n, n ≠ "bgcolor" → n ≠ "cellstyle" → Dict.get? a (cfg.q n) = Dict.get?
      (if c.height > 1 then Dict.set (if c.width > 1 then
        Dict.set (Dict.set a4 (cfg.q "namest") ("c" ++ intStr c.box.min.x)) (cfg.q "nameend") ("c" ++ intStr c.box.max.x) else a4)
        (cfg.q "morerows") (intStr (c.height - 1)) else (if c.width > 1 then
        Dict.set (Dict.set a4 (cfg.q "namest") ("c" ++ intStr c.box.min.x)) (cfg.q "nameend") ("c" ++ intStr c.box.max.x) else a4)) (cfg.q n) := by
    intro n n1 n2
    exact ((addAttr_ok h8 n).1 n2).trans ((addAttr_ok h7 n).1 n1)
  rw [fin _ (by decide) (by decide), fin _ (by decide) (by decide), fin _ (by decide) (by decide)]
  unfold Box.Valid at hv
  have ew : c.width = c.max.x - c.min.x + 1 := by simp only [Cell.width, Box.width, Cell.max, Cell.min]
  have eh : c.height = c.max.y - c.min.y + 1 := by simp only [Cell.height, Box.height, Cell.max, Cell.min]
  have hv' : c.min.x ≤ c.max.x ∧ c.min.y ≤ c.max.y := by simp only [Cell.min, Cell.max]; omega
  have x1 : c.box.min.x = c.min.x := rfl
  have x2 : c.box.max.x = c.max.x := rfl
  by_cases hw : c.min.x = c.max.x
  · have hw' : ¬ c.width > 1 := by omega
    rw [if_neg hw', if_pos hw, if_pos hw]
    by_cases hh : c.min.y = c.max.y
    · have hh' : ¬ c.height > 1 := by omega
      rw [if_neg hh', if_pos hh]
      exact ⟨b1, b2, b3⟩
    · have hh' : c.height > 1 := by omega
      rw [if_pos hh', if_neg hh, set_get_ne _ _ (by decide), set_get_ne _ _ (by decide), set_get_eq]
      exact ⟨b1, b2, by rw [eh]; congr 2; omega⟩
  · have hw' : c.width > 1 := by omega
    rw [if_pos hw', if_neg hw, if_neg hw]
    by_cases hh : c.min.y = c.max.y
    · have hh' : ¬ c.height > 1 := by omega
      rw [if_neg hh', if_pos hh, set_get_ne _ _ (by decide), set_get_eq, set_get_eq, set_get_ne _ _ (by decide), set_get_ne _ _ (by decide)]
      exact ⟨by rw [x1], by rw [x2], b3⟩
    · have hh' : c.height > 1 := by omega
      rw [if_pos hh', if_neg hh]
      refine ⟨?_, ?_, ?_⟩
      · rw [set_get_ne _ _ (by decide), set_get_ne _ _ (by decide), set_get_eq, x1]
      · rw [set_get_ne _ _ (by decide), set_get_eq, x2]
      · rw [set_get_eq, eh]; congr 2; omega

theorem append_toks {content : Option Content} {f : CellElem} (h : CellElem.append ⟨none, []⟩ content = .ok f) :
    textToks f.text ++ toksList f.children = contentToks content := by
  cases content with
  | none => cases h; simp [textToks, toksList, contentToks]
  | some c =>
    cases c with
    | text s => cases h; simp [toksList, contentToks]
    | num r => cases h; simp [toksList, contentToks]
    | other r => cases h
    | node n => cases h; simp [toksList, contentToks, textToks]
    | seq l =>
      by_cases hl : ∀ c ∈ l, IsPiece c
      · obtain ⟨f', h1, h2⟩ := C42_mixed_content l hl
        rw [h1] at h; cases h; exact h2
      · have : ∃ c ∈ l, ¬ IsPiece c := Classical.byContradiction (fun hn => hl (fun c hc => Classical.byContradiction (fun h' => hn ⟨c, hc, h'⟩)))
        rw [C42_refused l this] at h; cases h

/-- the text of a content which the builder accepts is told by its tokens -/
theorem text_of_toks {content : Option Content} {f : CellElem} (h : CellElem.append ⟨none, []⟩ content = .ok f) :
    (Content.text? content).toList = charsOf (contentToks content) := by
  have hpiece : ∀ c, IsPiece c → (Content.text? c).toList = charsOf (pieceToks c) := by
    intro c hc
    cases c with
    | none => exact hc.elim
    | some c =>
      cases c with
      | text s => simp [Content.text?, Content.str, pieceToks, textToks, charsOf_map]
      | node n => exact C43_node_text n
      | num r => exact hc.elim
      | other r => exact hc.elim
      | seq l => exact hc.elim
  cases content with
  | none => simp [Content.text?, contentToks, charsOf]
  | some c =>
    cases c with
    | text s => simp [Content.text?, Content.str, contentToks, textToks, charsOf_map]
    | num r => simp [Content.text?, Content.str, contentToks, textToks, charsOf_map]
    | other r => cases h
    | node n => exact C43_node_text n
    | seq l =>
      by_cases hl : ∀ c ∈ l, IsPiece c
      · rw [C43_content_text.2.2.2]
        simp only [contentToks]
        clear h
        induction l with
        | nil => simp [charsOf]
        | cons c l ih =>
          rw [List.foldr_cons, String.toList_append, ih (fun c hc => hl c (by simp [hc])), List.flatMap_cons, charsOf_append, hpiece c (hl c (by simp))]
      · have : ∃ c ∈ l, ¬ IsPiece c := Classical.byContradiction (fun hn => hl (fun c hc => Classical.byContradiction (fun h' => hn ⟨c, hc, h'⟩)))
        rw [C42_refused l this] at h; cases h

theorem buildCell_entry {cfg : Config} {colsep rowsep : String} {bb : Option Box} {c : Cell Content} {e : Node} (hv : c.box.Valid)
    (h : buildCell cfg colsep rowsep bb c = .ok e) : EntryFor cfg c e := by
  unfold buildCell at h
  cases bb with
  | none => cases h
  | some bb =>
    simp only at h
    obtain ⟨a, h1, h⟩ := bind_ok h
    obtain ⟨f, h2, h⟩ := bind_ok h
    cases h
    obtain ⟨s1, s2, s3⟩ := entryAttrs_spans hv h1
    refine ⟨rfl, rfl, ?_, ?_, ?_, ?_, ?_, ?_⟩
    · intro e; rw [if_pos e] at s1 s2; exact ⟨s1, s2⟩
    · intro e; rw [if_neg e] at s1 s2; exact ⟨s1, s2⟩
    · intro e; rw [if_pos e] at s3; exact s3
    · intro e; rw [if_neg e] at s3; exact s3
    · exact append_toks h2
    · show charsOf (textToks f.text ++ toksList f.children) = _
      rw [append_toks h2, text_of_toks h2]

theorem buildColspec_ok {cfg : Config} {colsep rowsep : String} {v : View Content} {e : Node} (h : buildColspec cfg colsep rowsep v = .ok e) :
    ColspecFor cfg v.pos e := by
  unfold buildColspec at h
  simp only at h
  obtain ⟨a1, h1, h⟩ := bind_ok h
  obtain ⟨a3, h3, h⟩ := bind_ok h
  obtain ⟨a4, h4, h⟩ := bind_ok h
  cases h
  have fin : ∀ n, n ≠ "colsep" → n ≠ "rowsep" → n ≠ "align" → n ≠ "colwidth" →
      Dict.get? a4 (cfg.q n) = Dict.get? [(cfg.q "colnum", intStr v.pos), (cfg.q "colname", "c" ++ intStr v.pos)] (cfg.q n) := by
    intro n n1 n2 n3 n4
    rw [(addSep_ok h4 n).1 n2, (addSep_ok h3 n).1 n1]
    refine Eq.trans ?_ ((addAttr_ok h1 n).1 n4)
    split
    · split
      · rw [set_get_ne _ _ (Ne.symm n3)]
      · rfl
    · rfl
  refine ⟨rfl, ⟨by simp [insideToks, Node.text, Node.children, textToks, toksList], rfl⟩, ?_, ?_⟩
  · show Dict.get? a4 _ = _
    rw [fin "colnum" (by decide) (by decide) (by decide) (by decide)]
    simp [Dict.get?_cons]
  · show Dict.get? a4 _ = _
    rw [fin "colname" (by decide) (by decide) (by decide) (by decide)]
    have : cfg.q "colnum" ≠ cfg.q "colname" := q_ne cfg (by decide)
    simp [Dict.get?_cons, this]

theorem quoted_escape (v : List Char) : Quoted v (v.flatMap escapeChar) := by
  induction v with
  | nil => exact .nil
  | cons c v ih =>
    rw [List.flatMap_cons]
    by_cases hc : c ∈ references.map (·.1)
    · obtain ⟨⟨c', r⟩, hr, e⟩ := List.mem_map.mp hc
      simp only at e
      subst e
      have e : escapeChar c' = r.toList := by
        simp only [references, List.mem_cons, Prod.mk.injEq, List.not_mem_nil, or_false] at hr
        rcases hr with ⟨rfl, rfl⟩ | ⟨rfl, rfl⟩ | ⟨rfl, rfl⟩ | ⟨rfl, rfl⟩ | ⟨rfl, rfl⟩ | ⟨rfl, rfl⟩ | ⟨rfl, rfl⟩ <;> rfl
      rw [e]
      exact .reference c' r _ _ hr ih
    · have e : escapeChar c = [c] := by
        simp only [references, List.map_cons, List.map_nil, List.mem_cons, List.not_mem_nil, or_false, not_or] at hc
        obtain ⟨h1, h2, h3, h4, h5, h6, h7⟩ := hc
        unfold escapeChar
        split <;> first | contradiction | rfl
      rw [e]
      exact .plain c _ _ hc ih

theorem marks_data : ∀ (l : List (String × String)), l ≠ [] →
    Marks l (" ".intercalate (l.map (fun p => p.1 ++ "=\"" ++ String.ofList (p.2.toList.flatMap escapeChar) ++ "\""))).toList := by
  have one : ∀ (a b : String), (a ++ "=\"" ++ String.ofList (b.toList.flatMap escapeChar) ++ "\"").toList =
      a.toList ++ "=\"".toList ++ b.toList.flatMap escapeChar ++ ['"'] := by
    intro a b
    simp only [String.toList_append, String.toList_ofList]
    rfl
  intro l
  induction l with
  | nil => intro h; exact absurd rfl h
  | cons p l ih =>
    intro _
    obtain ⟨a, b⟩ := p
    cases l with
    | nil =>
      rw [List.map_cons, List.map_nil, String.intercalate_singleton]
      simp only
      rw [one]
      exact .one a b _ (quoted_escape _)
    | cons p' l =>
      have := ih (by simp)
      rw [List.map_cons] at this ⊢
      rw [List.map_cons, String.intercalate_cons_cons, String.toList_append, String.toList_append]
      simp only
      rw [one]
      have h := Marks.more a b _ _ _ (quoted_escape b.toList) this
      simp only [List.append_assoc] at h ⊢
      exact h

theorem revAttr_mark {st : Styles} {key name : String} {f : StyleVal → Except PyErr String} {l : List (String × String)} (h : revAttr st key name f = .ok l) :
    MarkOf st key name (fun v => (f v).toOption) l := by
  unfold revAttr at h
  cases hg : Dict.get? st key with
  | none => rw [hg] at h; cases h; exact .inl ⟨hg, rfl⟩
  | some v =>
    rw [hg] at h
    simp only at h
    split at h
    · cases h
    · rename_i s hs
      cases h
      exact .inr ⟨v, s, hg, by simp only [hs]; rfl, rfl⟩

theorem markOf_congr {st : Styles} {key name : String} {f g : StyleVal → Option String} {l : List (String × String)} (h : MarkOf st key name f l)
    (hfg : ∀ v, f v = g v) : MarkOf st key name g l := by
  rcases h with h | ⟨v, s, h1, h2, h3⟩
  · exact .inl h
  · exact .inr ⟨v, s, h1, by rw [← hfg]; exact h2, h3⟩

theorem rowMarks_ok {st : Styles} {i j k : List (String × String)} (h1 : revAttr st "x-ins-id" "change-id" (fun v => .ok ("ct" ++ formatVal v)) = .ok i)
    (h2 : revAttr st "x-ins-author" "creator" attrValue = .ok j) (h3 : revAttr st "x-ins-date" "date" attrValue = .ok k) :
    RowMarks st (" ".intercalate (([("type", "row:insertion")] ++ i ++ j ++ k).map (fun p => p.1 ++ "=\"" ++ String.ofList (p.2.toList.flatMap escapeChar) ++ "\"")))
      (" ".intercalate (([("type", "row:insertion")] ++ i).map (fun p => p.1 ++ "=\"" ++ String.ofList (p.2.toList.flatMap escapeChar) ++ "\""))) := by
  refine ⟨i, j, k, markOf_congr (revAttr_mark h1) ?_, markOf_congr (revAttr_mark h2) ?_, markOf_congr (revAttr_mark h3) ?_, marks_data _ (by simp), marks_data _ (by simp)⟩
  · intro v
    cases v with
    | bool b => cases b <;> rfl
    | pair a b =>
      show some ("ct" ++ ("(" ++ intStr a ++ ", " ++ intStr b ++ ")")) = some ("ct(" ++ intStr a ++ ", " ++ intStr b ++ ")")
      rw [show "ct(" = "ct" ++ "(" from rfl]
      simp only [String.append_assoc]
    | _ => rfl
  · intro v; cases v <;> rfl
  · intro v; cases v <;> rfl

theorem buildRow_ok {cfg : Config} {colsep rowsep : String} {bb : Option Box} {r : View Content} {nodes : List Node}
    (hv : ∀ c ∈ r.owned, c.box.Valid) (h : buildRow cfg colsep rowsep bb r = .ok nodes) : RowFor cfg r nodes := by
  unfold buildRow at h
  obtain ⟨a, h1, h⟩ := bind_ok h
  obtain ⟨es, h2, h⟩ := bind_ok h
  simp only at h
  have hall : All₂ (EntryFor cfg) r.owned es := by
    exact (mapM_ok_all₂ h2).imp_mem (fun c hc e he => buildCell_entry (hv c hc) he)
  refine ⟨.elem (cfg.q "row") a none es none, ?_, rfl, rfl, rfl, hall⟩
  split at h
  · rename_i hx
    obtain ⟨i, hi, h⟩ := bind_ok h
    obtain ⟨j, hj, h⟩ := bind_ok h
    obtain ⟨k, hk, h⟩ := bind_ok h
    cases h
    right; exact ⟨_, _, rfl, hx, rowMarks_ok hi hj hk⟩
  · rename_i hx
    cases h
    left; exact ⟨rfl, by simpa using hx⟩

/-- the generated tree is built from the current views -/
theorem generate_eq {t : Table Content} (h : t.Inv) (cfg : Config) :
    ∃ bb, t.boundingBox = .ok bb ∧ eval (generate cfg) t = buildTree cfg t bb (t.baseViews .col) (t.baseViews .row) := by
  have hb : ∃ bb, t.boundingBox = .ok bb := by
    rcases boundingBox_inv t.grid h.grid with ⟨_, h2⟩ | ⟨b, _, h2, _⟩
    · exact ⟨_, h2⟩
    · exact ⟨_, h2⟩
  obtain ⟨bb, hb⟩ := hb
  refine ⟨bb, hb, ?_⟩
  unfold eval generate
  simp only [bind_run]
  rw [Table.views_run .col t h.grid]
  simp only
  rw [Table.views_run .row _ (by simpa using h.grid), Table.baseViews_setViews_ne (by decide)]
  simp only [get_run, lift_run]
  have hb' : ((t.setViews .col (t.baseViews .col)).setViews .row (t.baseViews .row)).boundingBox = .ok bb := by
    unfold Table.boundingBox at hb ⊢; simpa using hb
  rw [hb']
  rfl

theorem buildTbody_ok {cfg : Config} {colsep rowsep tag : String} {bb : Option Box} {rows : List (View Content)} {body : Node}
    (hv : ∀ r ∈ rows, ∀ c ∈ r.owned, c.box.Valid) (h : buildTbody cfg colsep rowsep bb tag rows = .ok body) :
    ∃ nodes, body = .elem (cfg.q tag) [] none (List.flatten nodes) none ∧ All₂ (RowFor cfg) rows nodes := by
  unfold buildTbody at h
  obtain ⟨nodes, hn, h⟩ := bind_ok h
  cases h
  exact ⟨nodes, rfl, (mapM_ok_all₂ hn).imp_mem (fun r hr e he => buildRow_ok (hv r hr) he)⟩

/-- shape of the generated tree -/
theorem buildTree_ok {cfg : Config} {t : Table Content} {bb : Option Box} {cols rows : List (View Content)} {tree : Node}
    (hv : ∀ r ∈ rows, ∀ c ∈ r.owned, c.box.Valid) (h : buildTree cfg t bb cols rows = .ok tree) :
    ∃ attrs tattrs colspecs bodies,
      tree = .elem (cfg.q "table") attrs none [.elem (cfg.q "tgroup") tattrs none (colspecs ++ bodies) none] none ∧
      tableAttrs cfg t = .ok attrs ∧ tgroupAttrs cfg t cols.length = .ok tattrs ∧
      All₂ (fun v e => ColspecFor cfg v.pos e) cols colspecs ∧
      All₂ (fun g body => ∃ nodes, body = Node.elem (cfg.q (groupTag (groupNature g))) [] none (List.flatten nodes) none ∧
        All₂ (RowFor cfg) g nodes) (rowGroups cfg rows) bodies := by
  unfold buildTree at h
  obtain ⟨attrs, h0, h⟩ := bind_ok h
  obtain ⟨colsep, _, h⟩ := bind_ok h
  obtain ⟨rowsep, _, h⟩ := bind_ok h
  obtain ⟨tgroup, h1, h⟩ := bind_ok h
  cases h
  unfold buildTgroup at h1
  obtain ⟨tattrs, h1', h1⟩ := bind_ok h1
  obtain ⟨colspecs, h2, h1⟩ := bind_ok h1
  obtain ⟨bodies, h3, h1⟩ := bind_ok h1
  cases h1
  refine ⟨attrs, tattrs, colspecs, bodies, rfl, h0, h1', (mapM_ok_all₂ h2).imp (fun _ _ h => buildColspec_ok h),
    (mapM_ok_all₂ h3).imp_mem (fun g hg body hb => buildTbody_ok ?_ hb)⟩
  intro r hr
  refine hv r ?_
  have : r ∈ (rowGroups cfg rows).flatten := List.mem_flatten.mpr ⟨g, hg, hr⟩
  have hp := (sortedBy_perm (fun g => rank cfg (groupNature g)) (groupBy (fun r : View Content => r.nature) rows)).flatten
  rw [groupBy_flatten] at hp
  exact hp.mem_iff.mp this

/-! ### C40 -/

/-- tag of a group of rows of a given nature -/
def TagFor (nature : Option String) (tag : String) : Prop :=
  (nature = some "header" ∧ tag = "thead") ∨ (nature = some "footer" ∧ tag = "tfoot") ∨
  (nature ≠ some "header" ∧ nature ≠ some "footer" ∧ tag = "tbody")

theorem rowGroups_spec (cfg : Config) (rows : List (View Content)) :
    (∀ g ∈ rowGroups cfg rows, g ≠ [] ∧ ∀ r ∈ g, r.nature = groupNature g) ∧
    (rowGroups cfg rows).flatten.Perm rows ∧
    (rowGroups cfg rows).flatten.Pairwise (fun r r' => rank cfg r.nature ≤ rank cfg r'.nature) ∧
    (∀ k, (rowGroups cfg rows).flatten.filter (fun r => rank cfg r.nature = k) = rows.filter (fun r => rank cfg r.nature = k)) := by
  have const : ∀ g ∈ groupBy (fun r : View Content => r.nature) rows, g ≠ [] ∧ ∀ r ∈ g, r.nature = groupNature g := by
    intro g hg
    obtain ⟨h1, h2⟩ := groupBy_const (fun r : View Content => r.nature) rows g hg
    refine ⟨h1, ?_⟩
    intro r hr
    cases g with
    | nil => exact absurd rfl h1
    | cons r0 g => exact h2 r hr r0 (by simp)
  have const' : ∀ g ∈ rowGroups cfg rows, g ≠ [] ∧ ∀ r ∈ g, r.nature = groupNature g := by
    intro g hg
    exact const g ((sortedBy_perm _ _).mem_iff.mp hg)
  refine ⟨const', ?_, ?_, ?_⟩
  · have := (sortedBy_perm (fun g => rank cfg (groupNature g)) (groupBy (fun r : View Content => r.nature) rows)).flatten
    rw [groupBy_flatten] at this
    exact this
  · have hs := sortedBy_sorted (fun g => rank cfg (groupNature g)) (groupBy (fun r : View Content => r.nature) rows)
    rw [List.pairwise_flatten]
    refine ⟨?_, ?_⟩
    · intro g hg
      rw [List.pairwise_iff_forall_sublist]
      intro a b hab
      have ha := hab.subset (show a ∈ [a, b] by simp)
      have hb := hab.subset (show b ∈ [a, b] by simp)
      rw [(const' g hg).2 a ha, (const' g hg).2 b hb]
      exact Int.le_refl _
    · unfold rowGroups
      refine List.Pairwise.imp_of_mem ?_ hs
      intro g g' hg hg' hle a ha b hb
      rw [(const' g hg).2 a ha, (const' g' hg').2 b hb]
      exact hle
  · intro k
    have fl : ∀ (L : List (List (View Content))), (∀ g ∈ L, ∀ r ∈ g, r.nature = groupNature g) →
        L.flatten.filter (fun r => rank cfg r.nature = k) = (L.filter (fun g => rank cfg (groupNature g) = k)).flatten := by
      intro L
      induction L with
      | nil => intro _; rfl
      | cons g L ih =>
        intro hL
        rw [List.flatten_cons, List.filter_append, ih (fun g' hg' => hL g' (by simp [hg'])), List.filter_cons]
        have hg := hL g (by simp)
        by_cases hk : rank cfg (groupNature g) = k
        · have : g.filter (fun r => rank cfg r.nature = k) = g := by
            rw [List.filter_eq_self]; intro r hr; rw [hg r hr]; simpa using hk
          simp [hk, this]
        · have : g.filter (fun r => rank cfg r.nature = k) = [] := by
            rw [List.filter_eq_nil_iff]; intro r hr; rw [hg r hr]; simpa using hk
          simp [hk, this]
    rw [fl _ (fun g hg => (const' g hg).2)]
    unfold rowGroups
    rw [sortedBy_filter, ← fl _ (fun g hg => (const g hg).2), groupBy_flatten]

theorem groupTag_spec (n : Option String) : TagFor n (groupTag n) := by
  unfold TagFor groupTag
  by_cases h1 : n = some "header"
  · simp [h1]
  · by_cases h2 : n = some "footer"
    · simp [h2]
    · simp [h1, h2]

/-- **C40**: in the generated table there is one `tgroup`; after the columns, the groups contain every row of the table exactly once; the
rows come in the order of the ranks of their natures, and rows of the same rank keep their relative order; all the rows of a group
have the same nature, told by the tag of the group. -/
theorem C40_rows_sorted (ns : Option String) (w : List Char) (tg : Bool) (sorting : Option (List String)) (fl : Rat → Rat) (cfg : Config)
    (hcfg : Config.new ns w tg sorting fl = .ok cfg) (t : Table Content) (ht : t.Reachable) (tree : Node)
    (h : eval (generate cfg) t = .ok tree) (rows : List (View Content)) (hrows : eval (Table.views .row) t = .ok rows) :
    ∃ (rk : Option String → Int) (attrs tattrs : Dict QName String) (colspecs bodies : List Node) (groups : List (List (View Content))),
      (∀ n, RankIs cfg.tgroupSorting n (rk n)) ∧
      tree = .elem (cfg.q "table") attrs none [.elem (cfg.q "tgroup") tattrs none (colspecs ++ bodies) none] none ∧
      (∀ c ∈ colspecs, c.tag? = some (cfg.q "colspec")) ∧
      groups.flatten.Perm rows ∧
      groups.flatten.Pairwise (fun r r' => rk r.nature ≤ rk r'.nature) ∧
      (∀ k, groups.flatten.filter (fun r => rk r.nature = k) = rows.filter (fun r => rk r.nature = k)) ∧
      All₂ (fun g body => ∃ tag nature nodes, TagFor nature tag ∧ g ≠ [] ∧ (∀ r ∈ g, r.nature = nature) ∧
        body = .elem (cfg.q tag) [] none nodes.flatten none ∧ All₂ (RowFor cfg) g nodes) groups bodies := by
  have hi := ht.inv
  obtain ⟨bb, _, he⟩ := generate_eq hi cfg
  have hr : rows = t.baseViews .row := by
    unfold eval at hrows; rw [Table.views_run .row t hi.grid] at hrows; cases hrows; rfl
  rw [he] at h
  have hd := Table.base_describes hi .row
  obtain ⟨attrs, tattrs, colspecs, bodies, rfl, _, _, h2, h3⟩ := buildTree_ok
    (fun r hr c hc => hi.grid.valid c ((hd.owned r hr c).mp hc).1) h
  obtain ⟨g1, g2, g3, g4⟩ := rowGroups_spec cfg (t.baseViews .row)
  refine ⟨rank cfg, attrs, tattrs, colspecs, bodies, rowGroups cfg (t.baseViews .row),
    rank_spec cfg (config_new_sorting hcfg "body" (by simp)), rfl, ?_, by rw [hr]; exact g2, g3, by rw [hr]; exact g4, ?_⟩
  · intro c hc
    obtain ⟨v, _, hv⟩ := h2.mem_right hc
    exact hv.tag
  · refine h3.imp_mem ?_
    rintro g hg body ⟨nodes, rfl, hall⟩
    exact ⟨groupTag (groupNature g), groupNature g, nodes, groupTag_spec _, (g1 g hg).1, (g1 g hg).2, rfl, hall⟩

/-- a table with spanning cells, a header row of another nature and a footer before the body -/
def calsDemo : Table Content :=
  Table.runFrom ⟨[], none, ⟨[]⟩, none, none⟩
    [.access .row, .access .col,
     .grid (.set (.tuple [.int 1, .int 1]) ⟨some (.text "a"), none, none, 1, 1, 2, 1⟩),
     .grid (.set (.tuple [.int 1, .int 2]) ⟨some (.num "12"), none, none, 1, 1, 1, 1⟩),
     .grid (.set (.tuple [.int 2, .int 2]) ⟨none, none, none, 1, 1, 1, 1⟩),
     .grid (.set (.tuple [.int 3, .int 1]) ⟨some (.seq [some (.text "b"), some (.node nodeDemo)]), none, none, 1, 1, 1, 2⟩),
     .setNature .row 1 (some "footer"), .setNature .row 2 (some "header")]

theorem calsDemo_reachable : calsDemo.Reachable := ⟨[], none, none, _, _, by simp, rfl, rfl⟩

def calsConfig : Config := ⟨none, ['m', 'm'], false, ["header", "footer", "body"], id⟩

/-- tags of the elements of a tree, with their attributes -/
def tagsOf (n : Node) : List (String × List String) :=
  (preorder n).map (fun e => ((e.tag?.map (·.name)).getD "", e.attrs.map (·.2)))

theorem calsDemo_tree : ((eval (generate calsConfig) calsDemo).map tagsOf) = .ok
    [("table", ["none", "0", "0"]), ("tgroup", ["3"]), ("colspec", ["1", "c1"]), ("colspec", ["2", "c2"]), ("colspec", ["3", "c3"]),
     ("thead", []), ("row", []), ("entry", []), ("entry", []),
     ("tfoot", []), ("row", []), ("entry", ["c1", "c2"]), ("entry", ["1"]), ("p", []), ("b", [])] := by decide +kernel

example : Config.new none ['m', 'm'] false none id = .ok calsConfig ∧ calsDemo.Reachable ∧
    (∃ tree, eval (generate calsConfig) calsDemo = .ok tree) ∧
    ∃ rows, eval (Table.views .row) calsDemo = .ok rows ∧ rows.length = 2 := by
  refine ⟨rfl, calsDemo_reachable, ?_, ?_⟩
  · cases h : eval (generate calsConfig) calsDemo with
    | ok tree => exact ⟨tree, rfl⟩
    | error e => have := calsDemo_tree; rw [h] at this; cases this
  · refine ⟨calsDemo.baseViews .row, ?_, by decide +kernel⟩
    rw [eval, Table.views_run .row calsDemo calsDemo_reachable.inv.grid]

/-! ### C41 -/

theorem perm_owned {t : Table γ} (hi : t.Inv) {rows : List (View γ)} (hd : Describes .row t.grid.cells rows) (hn : ∀ v ∈ rows, v.owned.Nodup) :
    (rows.flatMap (·.owned)).Perm t.grid.cells := by
  have hnd : (rows.flatMap (·.owned)).Nodup := by
    unfold List.Nodup
    rw [List.pairwise_flatMap]
    refine ⟨hn, ?_⟩
    rw [List.pairwise_iff_getElem]
    intro i j h1 h2 hij
    intro c hc c' hc' he
    subst he
    have e1 := ((hd.owned _ (List.getElem_mem h1) c).mp hc).2
    have e2 := ((hd.owned _ (List.getElem_mem h2) c).mp hc').2
    unfold StartsIn at e1 e2
    rw [hd.pos i h1] at e1
    rw [hd.pos j h2] at e2
    omega
  refine (List.perm_ext_iff_of_nodup hnd (inv_nodup hi.grid)).mpr ?_
  intro c
  rw [List.mem_flatMap]
  constructor
  · rintro ⟨v, hv, hc⟩; exact ((hd.owned v hv c).mp hc).1
  · intro hc
    have h1 := hd.enough c hc
    have h2 := lines_valid .row c (hi.grid.valid c hc)
    have hlt : (firstLine .row c - 1).toNat < rows.length := by omega
    refine ⟨rows[(firstLine .row c - 1).toNat], List.getElem_mem hlt, (hd.owned _ (List.getElem_mem hlt) c).mpr ⟨hc, ?_⟩⟩
    unfold StartsIn
    rw [hd.pos _ hlt]; omega

/-- **C41**: there is one `colspec` per column of the table, numbered and named in order, and their number is written in the `tgroup`; for views
without repetition, each cell belongs to exactly one row, that of its top coordinate, and the `row` written for this row (see C40) has one
`entry` per cell, which tells its first and last columns iff it spans several columns, and its number of extra rows iff it spans several rows. -/
theorem C41_entries (cfg : Config) (t : Table Content) (ht : t.Reachable) (tree : Node) (h : eval (generate cfg) t = .ok tree)
    (rows : List (View Content)) (hrows : eval (Table.views .row) t = .ok rows) (hn : NoRepeat rows) :
    (∃ (attrs tattrs : Dict QName String) (cols : List (View Content)) (colspecs bodies : List Node),
      eval (Table.views .col) t = .ok cols ∧
      tree = .elem (cfg.q "table") attrs none [.elem (cfg.q "tgroup") tattrs none (colspecs ++ bodies) none] none ∧
      Dict.get? tattrs (cfg.q "cols") = some (intStr cols.length) ∧ colspecs.length = cols.length ∧
      (∀ i (hi : i < colspecs.length), ColspecFor cfg ((i : Int) + 1) colspecs[i]) ∧
      (∃ groups : List (List (View Content)), groups.flatten.Perm rows ∧
        All₂ (fun g body => ∃ tag nodes, body = Node.elem (cfg.q tag) [] none (List.flatten nodes) none ∧ All₂ (RowFor cfg) g nodes) groups bodies)) ∧
    (rows.flatMap (·.owned)).Perm t.cells ∧
    (∀ i (hi : i < rows.length), ∀ c, c ∈ rows[i].owned ↔ c ∈ t.cells ∧ c.min.y = (i : Int) + 1) := by
  have hi := ht.inv
  have hd := Table.base_describes hi .row
  have hr : rows = t.baseViews .row := by
    unfold eval at hrows; rw [Table.views_run .row t hi.grid] at hrows; cases hrows; rfl
  refine ⟨?_, ?_, ?_⟩
  · obtain ⟨bb, _, he⟩ := generate_eq hi cfg
    rw [he] at h
    obtain ⟨attrs, tattrs, colspecs, bodies, rfl, _, ha, h2, h3⟩ := buildTree_ok
      (fun r hr c hc => hi.grid.valid c ((hd.owned r hr c).mp hc).1) h
    have hlen := h2.length
    refine ⟨attrs, tattrs, t.baseViews .col, colspecs, bodies, ?_, rfl, ?_, hlen.symm, ?_, rowGroups cfg (t.baseViews .row),
      by rw [hr]; exact (rowGroups_spec cfg (t.baseViews .row)).2.1, ?_⟩
    · unfold eval; rw [Table.views_run .col t hi.grid]
    · unfold tgroupAttrs at ha
      simp only at ha
      split at ha
      · obtain ⟨s1, _, ha⟩ := bind_ok ha
        obtain ⟨s2, _, ha⟩ := bind_ok ha
        cases ha
        split
        · rw [set_get_ne _ _ (by decide), set_get_ne _ _ (by decide), set_get_ne _ _ (by decide)]; simp [Dict.get?_cons]
        · rw [set_get_ne _ _ (by decide), set_get_ne _ _ (by decide)]; simp [Dict.get?_cons]
      · cases ha; simp [Dict.get?_cons]
    · have hp := (Table.base_describes hi .col).pos
      intro i hi'
      have := h2.getElem i (by omega) hi'
      rw [hp i (by omega)] at this
      exact this
    · refine h3.imp ?_
      rintro g body ⟨nodes, rfl, hall⟩
      exact ⟨_, nodes, rfl, hall⟩
  · rw [hr]; exact perm_owned hi hd (by rw [← hr]; exact fun v hv => (hn v hv).1)
  · intro i hlt c
    have := hd.owned rows[i] (by rw [← hr]; exact List.getElem_mem hlt) c
    rw [this]
    have hp : rows[i].pos = (i : Int) + 1 := by
      have := hd.pos i (by rw [← hr]; exact hlt)
      simp only [← hr] at this; exact this
    rw [hp]
    rfl

theorem calsDemo_noRepeat : ∃ rows, eval (Table.views .row) calsDemo = .ok rows ∧ NoRepeat rows := by
  obtain ⟨vs, h1, _, h3⟩ := C31_views_exact_partial (γ := Content) [] (by simp) none none ⟨[], none, ⟨[]⟩, none, none⟩ rfl
    [.grid (.set (.tuple [.int 1, .int 1]) ⟨some (.text "a"), none, none, 1, 1, 2, 1⟩),
     .grid (.set (.tuple [.int 1, .int 2]) ⟨some (.num "12"), none, none, 1, 1, 1, 1⟩),
     .grid (.set (.tuple [.int 2, .int 2]) ⟨none, none, none, 1, 1, 1, 1⟩),
     .grid (.set (.tuple [.int 3, .int 1]) ⟨some (.seq [some (.text "b"), some (.node nodeDemo)]), none, none, 1, 1, 1, 2⟩),
     .setNature .row 1 (some "footer"), .setNature .row 2 (some "header")] .row
  refine ⟨vs, ?_, h3⟩
  have h1 : calsDemo.getViews .row = some vs := h1
  rw [eval, Table.views_run .row calsDemo calsDemo_reachable.inv.grid]
  unfold Table.baseViews; rw [h1]; rfl

end Benker
