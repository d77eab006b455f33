import Verif.Lemmas.CalsRoundTrip
import Verif.Lemmas.FormexBuilder
import Verif.Model.FormexParser

/-! Simulation of the Formex parser on the tree generated by the Formex builder. -/

namespace Benker.FmxP
open PyM

variable {cfg : Config}

/-! ### the loop, the depth and the open blocks -/

def depthAfter (cfg : Config) (d : Int) (es : List Event) : Int := es.foldl (newDepth cfg) d
def blkAfter (cfg : Config) (b : Nat) (es : List Event) : Nat := es.foldl (newBlk cfg) b

theorem loop_cons (d : Int) (b : Nat) (e : Event) (es : List Event) :
    loop cfg d b (e :: es) = if newDepth cfg d e > 1 then loop cfg (newDepth cfg d e) (newBlk cfg b e) es
      else (onEvent cfg b e >>= fun _ => loop cfg (newDepth cfg d e) (newBlk cfg b e) es) := rfl

theorem loop_append (l : List Event) : ∀ (a : List Event) (d : Int) (b : Nat),
    loop cfg d b (a ++ l) = (loop cfg d b a >>= fun _ => loop cfg (depthAfter cfg d a) (blkAfter cfg b a) l) := by
  intro a
  induction a with
  | nil => intro d b; rfl
  | cons e es ih =>
    intro d b
    rw [List.cons_append, loop_cons, loop_cons]
    split
    · rw [ih]; rfl
    · rw [ih]
      funext s
      simp only [bind_run]
      cases onEvent cfg b e s with
      | mk r s' => cases r <;> rfl

mutual
theorem after_walk (sel : QName → Bool) (p : Option Node) (d : Int) (b : Nat) : ∀ n : Node,
    depthAfter cfg d (walk sel p n) = d ∧ blkAfter cfg b (walk sel p n) = b
  | .elem t a x cs tl => by
    unfold walk depthAfter blkAfter
    simp only [List.foldl_append]
    have ih := fun d b => after_walkList sel (some (.elem t a x cs tl)) d b cs
    unfold depthAfter blkAfter at ih
    rw [(ih _ b).1, (ih d _).2]
    by_cases hs : sel t = true
    · simp only [hs, if_true, List.foldl_cons, List.foldl_nil, newDepth, newBlk, Bool.false_eq_true, if_false]
      constructor <;> split <;> omega
    · simp [hs]
  | .pi .. => ⟨rfl, rfl⟩
  | .comment .. => ⟨rfl, rfl⟩
theorem after_walkList (sel : QName → Bool) (p : Option Node) (d : Int) (b : Nat) : ∀ ns : List Node,
    depthAfter cfg d (walkList sel p ns) = d ∧ blkAfter cfg b (walkList sel p ns) = b
  | [] => ⟨rfl, rfl⟩
  | n :: ns => by
    have h1 := after_walk sel p d b n
    have h2 := after_walkList sel p d b ns
    unfold depthAfter blkAfter at *
    rw [walkList, List.foldl_append, List.foldl_append, h1.1, h1.2]
    exact h2
end

theorem selected_f (name : String) (h : name ∈ ["CORPUS", "ROW", "CELL", "MARGIN", "BLK", "TI.BLK", "STI.BLK"]) : selected cfg (cfg.f name) = true := by
  unfold selected
  exact decide_eq_true (List.mem_append_left _ (List.mem_map_of_mem h))

theorem selected_colspec : selected cfg (cfg.q "colspec") = true := by
  unfold selected
  exact decide_eq_true (by simp)

/-- the events of a selected element -/
theorem walk_elem {n : Node} {q : QName} (p : Option Node) (hn : n.tag? = some q) (hs : selected cfg q = true) :
    walk (selected cfg) p n = [⟨true, n, p⟩] ++ (walkList (selected cfg) (some n) n.children ++ [⟨false, n, p⟩]) := by
  cases n with
  | elem t a x cs tl =>
    simp only [Node.tag?, Option.some.injEq] at hn
    subst hn
    unfold walk
    simp [hs, Node.children]
  | pi => cases hn
  | comment => cases hn

theorem loop_one (b : Nat) (e : Event) (h : newDepth cfg 1 e = 1) : loop cfg 1 b [e] = onEvent cfg b e := by
  rw [loop_cons, h, if_neg (by decide)]
  funext s
  rw [bind_run]
  cases onEvent cfg b e s with
  | mk r s' => cases r <;> rfl

theorem runs_loop_append {P Q S : PState → Prop} {sel : QName → Bool} {p : Option Node} {a l : List Node} {b : Nat}
    (h1 : Runs P Q (loop cfg 1 b (walkList sel p a))) (h2 : Runs Q S (loop cfg 1 b (walkList sel p l))) :
    Runs P S (loop cfg 1 b (walkList sel p (a ++ l))) := by
  rw [walkList_append, loop_append, (after_walkList sel p 1 b a).1, (after_walkList sel p 1 b a).2]
  exact runs_bind h1 h2

theorem runs_loop_cons {P Q S : PState → Prop} {sel : QName → Bool} {p : Option Node} {n : Node} {l : List Node} {b : Nat}
    (h1 : Runs P Q (loop cfg 1 b (walk sel p n))) (h2 : Runs Q S (loop cfg 1 b (walkList sel p l))) :
    Runs P S (loop cfg 1 b (walkList sel p (n :: l))) := by
  rw [walkList, loop_append, (after_walk sel p 1 b n).1, (after_walk sel p 1 b n).2]
  exact runs_bind h1 h2

/-- the events of an element which is neither a table nor a block: its start, its children, its end -/
theorem runs_elem {P Q S U : PState → Prop} {p : Option Node} {n : Node} {q : QName} {b : Nat} (hn : n.tag? = some q)
    (hs : selected cfg q = true) (hc : q ≠ cfg.f "CORPUS") (hb : q ≠ cfg.f "BLK")
    (h1 : Runs P Q (onStart cfg b p n)) (h2 : Runs Q S (loop cfg 1 b (walkList (selected cfg) (some n) n.children)))
    (h3 : Runs S U (onEnd cfg p n)) : Runs P U (loop cfg 1 b (walk (selected cfg) p n)) := by
  have hd : ∀ x, newDepth cfg 1 ⟨x, n, p⟩ = 1 := by
    intro x; simp only [newDepth, hn, Option.some.injEq, if_neg hc]
  have hk : ∀ x, newBlk cfg b ⟨x, n, p⟩ = b := by
    intro x; simp only [newBlk, hn, Option.some.injEq, if_neg hb]
  have hda : depthAfter cfg 1 [⟨true, n, p⟩] = 1 := hd true
  have hka : blkAfter cfg b [⟨true, n, p⟩] = b := hk true
  rw [walk_elem p hn hs, loop_append, hda, hka, loop_one _ _ (hd true), loop_append, (after_walkList _ _ 1 b _).1, (after_walkList _ _ 1 b _).2,
    loop_one _ _ (hd false)]
  exact runs_bind h1 (runs_bind h2 h3)

/-- a table which is a success ends with the notes and the filling of the bounding box -/
theorem parseTable_run (b : Nat) (p : Option Node) {n : Node} (hn : n.tag? = some (cfg.f "CORPUS")) (s : PState) :
    parseTable cfg b p n s =
      (do
        parseCorpus cfg p n
        loop cfg 1 b (walkList (selected cfg) (some n) n.children)
        endCorpus cfg p
        let s ← PyM.get
        pure s.table) PState.init := by
  unfold parseTable PState.reset
  rw [walk_elem p hn (selected_f _ (by simp))]
  have e0 : newDepth cfg 0 ⟨true, n, p⟩ = 1 := by simp [newDepth, hn]
  have e1 : ∀ x, newBlk cfg b ⟨x, n, p⟩ = b := by
    intro x
    have : cfg.f "CORPUS" ≠ cfg.f "BLK" := by simp [Config.f]
    simp only [newBlk, hn, Option.some.injEq, if_neg this]
  have est : onStart cfg b p n = parseCorpus cfg p n := by
    simp [onStart, hn, Config.f, Config.q]
  have een : onEnd cfg p n = endCorpus cfg p := by
    simp [onEnd, hn, Config.f]
  have e2 : loop cfg 1 b (walkList (selected cfg) (some n) n.children ++ [⟨false, n, p⟩]) = (do
        loop cfg 1 b (walkList (selected cfg) (some n) n.children)
        endCorpus cfg p) := by
    rw [loop_append, (after_walkList _ _ 1 b _).1, (after_walkList _ _ 1 b _).2]
    have : loop cfg 1 b [⟨false, n, p⟩] = endCorpus cfg p := by
      rw [loop_cons]
      simp only [newDepth, hn, if_true, Bool.false_eq_true, if_false, onEvent, een]
      funext s
      simp [loop, bind_run]
      cases endCorpus cfg p s with
      | mk r s' => cases r <;> rfl
    rw [this]
  rw [List.cons_append, List.nil_append, loop_cons, e0, e1, e2]
  simp only [onEvent, est, if_true]
  simp only [bind_run, set_run]
  rw [if_neg (by decide)]
  simp only [bind_run]
  cases parseCorpus cfg p n PState.init with
  | mk r s1 =>
    cases r with
    | error e => rfl
    | ok u =>
      simp only
      cases loop cfg 1 b (walkList (selected cfg) (some n) n.children) s1 with
      | mk r s2 => cases r <;> rfl

end Benker.FmxP

namespace Benker
open PyM Cals CalsSpec FmxSpec

variable {bc : Fmx.Config} {pc : FmxP.Config}

/-- the two sides agree on the names -/
structure SameNames (bc : Fmx.Config) (pc : FmxP.Config) : Prop where
  ns : pc.ns = none
  cals : bc.useCals = true → pc.calsNs = bc.calsNs

theorem SameNames.f (h : SameNames bc pc) (x : String) : pc.f x = name x := by
  unfold FmxP.Config.f name; rw [h.ns]

theorem SameNames.q (h : SameNames bc pc) (hu : bc.useCals = true) (x : String) : pc.q x = ⟨bc.calsNs, x⟩ := by
  unfold FmxP.Config.q; rw [h.cals hu]

/-! ### cells -/

theorem fmxSpan_ok (hq : SameNames bc pc) {rn : Option String} {c : Cell Content} {e : Node} (hv : c.box.Valid)
    (he : CellFor bc.useCals bc.calsNs rn c e) : FmxP.cellSpan pc e = .ok (c.width, c.height) := by
  have hv' := hv
  unfold Box.Valid at hv'
  have ew : c.width = c.max.x - c.min.x + 1 := by simp only [Cell.width, Box.width, Cell.max, Cell.min]
  have eh : c.height = c.max.y - c.min.y + 1 := by simp only [Cell.height, Box.height, Cell.max, Cell.min]
  have p1 : pyInt "1" = .ok 1 := by decide +kernel
  have hw : pyInt ((e.attr (pc.f "COLSPAN")).getD "1") = .ok c.width := by
    rw [hq.f]
    by_cases h : c.min.x = c.max.x
    · rw [(he.oneColumn h).1, ew]; simp only [Option.getD_none, p1]; congr 1; omega
    · rw [(he.columns h).1, ew]; exact pyInt_intStr (by simp only [Cell.min, Cell.max]; omega)
  have hh : pyInt ((e.attr (pc.f "ROWSPAN")).getD "1") = .ok c.height := by
    rw [hq.f]
    by_cases h : c.min.y = c.max.y
    · rw [(he.oneRow h).1, eh]; simp only [Option.getD_none, p1]; congr 1; omega
    · rw [(he.rows h).1, eh]; exact pyInt_intStr (by simp only [Cell.min, Cell.max]; omega)
  have hne : ∀ n : Int, 0 ≤ n → intStr n ≠ "" := by
    intro n hn e
    have := intStr_digits hn
    rw [e] at this
    exact natDigits_ne _ this.symm
  have hnc : ∀ n : Int, "c" ++ intStr n ≠ "" := by
    intro n e
    have := congrArg String.toList e
    simp [String.toList_append] at this
  -- the CALS attributes agree
  have hc : (e.attr (pc.q "namest") = none ∧ e.attr (pc.q "nameend") = none ∨
      e.attr (pc.q "namest") = some ("c" ++ intStr c.min.x) ∧ e.attr (pc.q "nameend") = some ("c" ++ intStr c.max.x)) ∧
      (e.attr (pc.q "morerows") = none ∨ e.attr (pc.q "morerows") = some (intStr (c.max.y - c.min.y))) := by
    cases hu : bc.useCals with
    | false =>
      rw [hu] at he
      have hno : ∀ x, x ∉ ["COL", "COLSPAN", "ROWSPAN", "TYPE"] → e.attr (pc.q x) = none := by
        intro x hx
        cases h : e.attr (pc.q x) with
        | none => rfl
        | some v =>
          have := he.plain rfl (pc.q x) (by rw [h]; simp)
          simp only [List.map_cons, List.map_nil, List.mem_cons, List.not_mem_nil, or_false] at this hx
          have nm : ∀ y, pc.q x = name y → x = y := fun y e => congrArg QName.name e
          rcases this with h | h | h | h <;> exact absurd (nm _ h) (by simp only [not_or] at hx; tauto)
      exact ⟨.inl ⟨hno _ (by decide), hno _ (by decide)⟩, .inl (hno _ (by decide))⟩
    | true =>
      rw [hu] at he
      simp only [hq.q hu]
      refine ⟨?_, ?_⟩
      · by_cases h : c.min.x = c.max.x
        · exact .inl (he.oneColumn h).2
        · exact .inr ((he.columns h).2 rfl)
      · by_cases h : c.min.y = c.max.y
        · exact .inl (he.oneRow h).2
        · exact .inr ((he.rows h).2 rfl)
  have f1 := firstInt_col (n := c.min.x) (by simp only [Cell.min]; omega)
  have f2 := firstInt_col (n := c.max.x) (by simp only [Cell.max]; omega)
  have f3 := pyInt_intStr (n := c.max.y - c.min.y) (by simp only [Cell.max, Cell.min]; omega)
  have f4 := hne (c.max.y - c.min.y) (by simp only [Cell.max, Cell.min]; omega)
  unfold FmxP.cellSpan
  rw [hw, hh]
  obtain ⟨h1, h2⟩ := hc
  have e3 : c.max.y - c.min.y + 1 = c.height := eh.symm
  have e4 : c.max.x - c.min.x + 1 = c.width := ew.symm
  rcases h1 with ⟨h1, h1'⟩ | ⟨h1, h1'⟩ <;> rcases h2 with h2 | h2 <;>
    simp only [h1, h1', h2, f1, f2, f3, f4, hnc, ne_eq, not_false_eq_true, and_self, if_true, if_false, e3, e4, pure, Except.pure, bind, Except.bind]


/-- nature of a row after a round trip: a row is either a header or a part of the body -/
def fmxKind (n : Option String) : String := if n = some "header" then "header" else "body"

theorem fmxKind_row (n : Option String) : FmxP.rowNature (typeOfRow n) = fmxKind n := by
  unfold typeOfRow fmxKind
  by_cases h1 : n = some "body"
  · subst h1; decide
  · rw [if_neg h1]
    cases n with
    | none => decide
    | some x =>
      by_cases h2 : x = "header"
      · subst h2; decide
      · by_cases h3 : x = "footer"
        · subst h3; decide
        · have h4 : x ≠ "body" := fun e => h1 (by rw [e])
          simp [typeOfNature, h2, h3, h4, FmxP.rowNature]

theorem cellNature_some (ty : Option String) (k : String) : ∃ n, FmxP.cellNature ty (some k) = some n := by
  unfold FmxP.cellNature
  split
  · exact ⟨_, rfl⟩
  · split <;> exact ⟨_, rfl⟩

/-- the copy of a cell of row number `y` (from 0): the one which is read from the element written for it -/
def FmxCopied (bc : Fmx.Config) (pc : FmxP.Config) (B : Ctx) (rows : List (View Content)) (c d : Cell Content) : Prop :=
  d.box = c.box ∧ ∃ r row e, rows[c.min.y.toNat - 1]? = some r ∧ Node.attr row (pc.f "TYPE") = typeOfRow r.nature ∧
    Fmx.buildCell bc B.colsep B.rowsep B.bb r.nature c = .ok e ∧ d.content = some (FmxP.nodeContent pc e) ∧
    d.styles = FmxP.cellStyles pc (some row) e ∧ d.nature = FmxP.cellNature (e.attr (pc.f "TYPE")) (some (fmxKind r.nature))

/-- the nature of row number `i` (from 0) after a round trip -/
def fmxKinds (rows : List (View Content)) (i : Nat) : Option String := some (fmxKind (rows[i]?.bind (·.nature)))

theorem runs_fmxCell (hq : SameNames bc pc) {B : Ctx} {rows : List (View Content)} {G : Goal} {y b : Nat} {r : View Content} {row : Node}
    {done rest : List (Cell Content)} {c : Cell Content} {e : Node} (hb : Fmx.buildCell bc B.colsep B.rowsep B.bb r.nature c = .ok e)
    (hr : rows[y - 1]? = some r) (hrow : row.attr (pc.f "TYPE") = typeOfRow r.nature)
    (hT : Tiles G.w G.h (done ++ c :: rest)) (hy : c.min.y = y)
    (hsel : Unselected (FmxP.selected pc) (contentToks c.content)) :
    Runs (AtRow (fmxKinds rows) G (FmxCopied bc pc B rows) done y) (AtRow (fmxKinds rows) G (FmxCopied bc pc B rows) (done ++ [c]) y)
      (FmxP.loop pc 1 b (walk (FmxP.selected pc) (some row) e)) := by
  have he := buildCell_spec (hT.valid c (by simp)) hb
  have htag : e.tag? = some (pc.f "CELL") := by rw [hq.f]; exact he.tag
  have hk : fmxKinds rows (y - 1) = some (fmxKind r.nature) := by unfold fmxKinds; rw [hr]; rfl
  refine FmxP.runs_elem htag (FmxP.selected_f _ (by simp)) (by simp [FmxP.Config.f]) (by simp [FmxP.Config.f])
    (Q := AtRow (fmxKinds rows) G (FmxCopied bc pc B rows) (done ++ [c]) y) (S := AtRow (fmxKinds rows) G (FmxCopied bc pc B rows) (done ++ [c]) y) ?_ ?_ ?_
  · intro s hs
    obtain ⟨colPos, rowPos, srow, table⟩ := s
    obtain ⟨t, h1, h2, h3, h4, h5⟩ := hs
    simp only at h1 h2 h3 h4
    subst h1 h3
    have e0 : FmxP.onStart pc b (some row) e = (do PState.nextCol; FmxP.parseCell pc (some row) e) := by
      simp [FmxP.onStart, htag]
    have hspan := fmxSpan_ok hq (hT.valid c (by simp)) he
    obtain ⟨n, hn⟩ := cellNature_some (e.attr (pc.f "TYPE")) (fmxKind r.nature)
    obtain ⟨t', r1, r2⟩ := h5.insert (fun _ _ h => h.1) hT hy (some (FmxP.nodeContent pc e))
      (some (FmxP.cellStyles pc (some row) e)) (FmxP.cellNature (e.attr (pc.f "TYPE")) (fmxKinds rows (y - 1))) (by
        intro m
        refine ⟨rfl, r, row, e, ?_, hrow, hb, rfl, rfl, ?_⟩
        · rw [show c.min.y.toNat - 1 = y - 1 by omega]; exact hr
        · rw [hk, hn]; rfl)
    refine ⟨⟨colPos + 1, rowPos, some ((y : Int), fmxKinds rows (y - 1)), some t'⟩, ?_, t', rfl, h2, rfl, by simp only; omega, r2⟩
    rw [e0]
    unfold FmxP.parseCell PState.nextCol FmxP.insertInRow
    simp only [bind_run, modify_run, lift_run, hspan, theRow_mk, onTable_mk, r1]
  · have : walkList (FmxP.selected pc) (some e) e.children = [] := by
      apply walkList_unselected
      intro t a ht
      by_cases hw : WrittenEmpty c
      · obtain ⟨ie, h1, h2⟩ := (he.empty hw).2
        rw [h1, h2] at ht
        simp [toksList, toks, textToks] at ht
        unfold FmxP.selected
        rw [decide_eq_false_iff_not, ht.1]
        simp [FmxP.Config.f, FmxP.Config.q, name]
      · apply hsel t a
        rw [← he.content hw]
        unfold insideToks
        simp [ht]
    rw [this]
    exact runs_pure
  · have : FmxP.onEnd pc (some row) e = pure () := by
      simp [FmxP.onEnd, htag, FmxP.Config.f]
    rw [this]; exact runs_pure

theorem runs_fmxCells (hq : SameNames bc pc) {B : Ctx} {rows : List (View Content)} {G : Goal} {y b : Nat} {r : View Content} {row : Node}
    (hr : rows[y - 1]? = some r) (hrow : row.attr (pc.f "TYPE") = typeOfRow r.nature)
    {cs : List (Cell Content)} {es : List Node} (he : All₂ (fun c e => Fmx.buildCell bc B.colsep B.rowsep B.bb r.nature c = .ok e) cs es) :
    ∀ {done rest : List (Cell Content)}, Tiles G.w G.h (done ++ cs ++ rest) → (∀ c ∈ cs, c.min.y = y) →
    (∀ c ∈ cs, Unselected (FmxP.selected pc) (contentToks c.content)) →
    Runs (AtRow (fmxKinds rows) G (FmxCopied bc pc B rows) done y) (AtRow (fmxKinds rows) G (FmxCopied bc pc B rows) (done ++ cs) y)
      (FmxP.loop pc 1 b (walkList (FmxP.selected pc) (some row) es)) := by
  induction he with
  | nil => intro done rest _ _ _; rw [List.append_nil]; exact runs_pure
  | @cons c e cs es h1 _ ih =>
    intro done rest hT hy hsel
    refine FmxP.runs_loop_cons (runs_fmxCell hq h1 hr hrow (rest := cs ++ rest) (by simpa using hT) (hy c (by simp)) (hsel c (by simp))) ?_
    have := ih (done := done ++ [c]) (rest := rest) (by simpa using hT) (fun c hc => hy c (by simp [hc])) (fun c hc => hsel c (by simp [hc]))
    simpa using this

/-! ### rows -/

/-- the looks of row number `i` after a round trip: those read from the row element written for it -/
def FmxRowRead (bc : Fmx.Config) (pc : FmxP.Config) (B : Ctx) (blk : Nat) (rows : List (View Content)) (i : Nat) (nature : Option String) (st : Styles) : Prop :=
  nature = fmxKinds rows i ∧ ∃ r row, rows[i]? = some r ∧ Fmx.rowAttrs bc B.rowsep r = .ok (Node.attrs row) ∧ st = FmxP.rowStyles pc blk row

theorem runs_fmxRow (hq : SameNames bc pc) {B : Ctx} {rows : List (View Content)} {G : Goal} {y b : Nat} (hG : G.rowOK = FmxRowRead bc pc B b rows)
    {done rest : List (Cell Content)} {r : View Content} {nodes : List Node} {p : Option Node} (hr : Fmx.buildRow bc B.colsep B.rowsep B.bb r = .ok nodes)
    (hry : rows[y]? = some r)
    (hT : Tiles G.w G.h (done ++ r.owned ++ rest)) (hcs : ∀ c ∈ r.owned, c.min.y = (y : Int) + 1)
    (hrest : ∀ c ∈ rest, (y : Int) + 1 < c.min.y) (hy : y + 1 ≤ G.h) (hw : 1 ≤ G.w)
    (hsel : ∀ c ∈ r.owned, Unselected (FmxP.selected pc) (contentToks c.content)) :
    Runs (AtGap G (FmxCopied bc pc B rows) done y) (AtGap G (FmxCopied bc pc B rows) (done ++ r.owned) (y + 1))
      (FmxP.loop pc 1 b (walkList (FmxP.selected pc) p nodes)) := by
  unfold Fmx.buildRow at hr
  obtain ⟨a, h1, h⟩ := bind_ok hr
  obtain ⟨es, h2, h⟩ := bind_ok h
  simp only at h
  have hall := mapM_ok_all₂ h2
  have hk : fmxKinds rows y = some (fmxKind r.nature) := by unfold fmxKinds; rw [hry]; rfl
  have key : Runs (AtGap G (FmxCopied bc pc B rows) done y) (AtGap G (FmxCopied bc pc B rows) (done ++ r.owned) (y + 1))
      (FmxP.loop pc 1 b (walk (FmxP.selected pc) p (.elem (Fmx.f "ROW") a none es none))) := by
    generalize hrow : Node.elem (Fmx.f "ROW") a none es none = row
    have hattrs : row.attrs = a := by rw [← hrow]; rfl
    have hch : row.children = es := by rw [← hrow]; rfl
    have htag : row.tag? = some (pc.f "ROW") := by rw [hq.f, ← hrow]; rfl
    have htype : row.attr (pc.f "TYPE") = typeOfRow r.nature := by
      rw [hq.f, Node.attr, hattrs]; exact rowAttrs_type h1
    refine FmxP.runs_elem htag (FmxP.selected_f _ (by simp)) (by simp [FmxP.Config.f]) (by simp [FmxP.Config.f])
      (Q := AtRow (fmxKinds rows) G (FmxCopied bc pc B rows) done (y + 1))
      (S := AtRow (fmxKinds rows) G (FmxCopied bc pc B rows) (done ++ r.owned) (y + 1)) ?_ ?_ ?_
    · intro s hs
      obtain ⟨colPos, rowPos, srow, table⟩ := s
      obtain ⟨t, e1, e2, e3⟩ := hs
      simp only at e1 e2
      subst e1 e2
      have e0 : FmxP.onStart pc b p row = (do PState.nextRow; FmxP.parseRow pc b row) := by
        simp [FmxP.onStart, htag, FmxP.Config.f]
      obtain ⟨t', r1, r2⟩ := e3.startRow hy (fun v => { v with nature := some (fmxKind r.nature), styles := (some (FmxP.rowStyles pc b row)).getD v.styles })
        (fun v => ⟨rfl, rfl, rfl⟩) (fun v => by rw [hG]; exact ⟨hk.symm, r, row, hry, by rw [hattrs]; exact h1, rfl⟩)
      refine ⟨⟨0, (y : Int) + 1, some ((y : Int) + 1, some (fmxKind r.nature)), some t'⟩, ?_, t', rfl, by simp, by simp [hk], by simp, r2⟩
      rw [e0]
      unfold FmxP.parseRow PState.nextRow FmxP.startRow
      rw [htype, fmxKind_row]
      simp only [bind_run, modify_run, get_run, onTable_mk, r1]
    · rw [hch]
      exact runs_fmxCells hq (r := r) (by simpa using hry) htype hall (rest := rest) hT (fun c hc => by rw [hcs c hc]; simp) hsel
    · have e0 : FmxP.onEnd pc p row = CalsP.endRow := by
        simp [FmxP.onEnd, htag]
      rw [e0]
      exact runs_endRow (fun _ _ h => h.1) hT hrest hy hw
  split at h
  · obtain ⟨i, _, h⟩ := bind_ok h
    obtain ⟨j, _, h⟩ := bind_ok h
    obtain ⟨k, _, h⟩ := bind_ok h
    cases h
    exact FmxP.runs_loop_cons (Q := AtGap G (FmxCopied bc pc B rows) done y) runs_pure
      (FmxP.runs_loop_cons key (FmxP.runs_loop_cons (Q := AtGap G (FmxCopied bc pc B rows) (done ++ r.owned) (y + 1)) runs_pure runs_pure))
  · cases h
    exact FmxP.runs_loop_cons key runs_pure

/-- the layout which the parser rebuilds -/
structure FmxPlan (pc : FmxP.Config) (w h : Nat) (rows : List (View Content)) : Prop where
  tiles : Tiles w h (rows.flatMap (·.owned))
  start : ∀ (i : Nat) (hi : i < rows.length), ∀ c ∈ rows[i].owned, c.min.y = (i : Int) + 1
  height : rows.length = h
  width : 1 ≤ w
  plain : ∀ r ∈ rows, ∀ c ∈ r.owned, Unselected (FmxP.selected pc) (contentToks c.content)

theorem runs_fmxRows (hq : SameNames bc pc) {B : Ctx} {G : Goal} {rows : List (View Content)} {b : Nat} (hG : G.rowOK = FmxRowRead bc pc B b rows)
    (hp : FmxPlan pc G.w G.h rows) (p : Option Node) {g : List (View Content)}
    {nodes : List (List Node)} (hg : All₂ (fun r ns => Fmx.buildRow bc B.colsep B.rowsep B.bb r = .ok ns) g nodes) :
    ∀ {pre : List (View Content)}, rows = pre ++ g →
    Runs (AtGap G (FmxCopied bc pc B rows) (pre.flatMap (·.owned)) pre.length)
      (AtGap G (FmxCopied bc pc B rows) ((pre ++ g).flatMap (·.owned)) (pre ++ g).length)
      (FmxP.loop pc 1 b (walkList (FmxP.selected pc) p nodes.flatten)) := by
  induction hg with
  | nil => intro pre _; rw [List.append_nil]; exact runs_pure
  | @cons r ns g nodes h1 _ ih =>
    intro pre hrows
    have hmem : r ∈ rows := by rw [hrows]; simp
    have hlt : pre.length < rows.length := by rw [hrows]; simp
    have hget : rows[pre.length] = r := by simp [hrows]
    rw [List.flatten_cons]
    refine FmxP.runs_loop_append (Q := AtGap G (FmxCopied bc pc B rows) ((pre ++ [r]).flatMap (·.owned)) (pre ++ [r]).length) ?_ ?_
    · have := runs_fmxRow (y := pre.length) hq hG h1 (done := pre.flatMap (·.owned)) (p := p)
        (rest := (g ++ ([] : List (View Content))).flatMap (·.owned)) (by rw [List.getElem?_eq_getElem hlt, hget]) (by
          have := hp.tiles
          rw [hrows] at this
          simpa [List.flatMap_append, List.append_assoc] using this) (by
          have := hp.start pre.length hlt
          rw [hget] at this
          exact this) (rest_below (by rw [List.append_nil]; exact hrows) hp.start) (by have := hp.height; omega) hp.width (fun c hc => hp.plain r hmem c hc)
      simpa using this
    · have := ih (pre := pre ++ [r]) (by simp [hrows])
      simpa using this

/-! ### columns -/

/-- the looks of column number `i` after a round trip -/
def FmxColRead (bc : Fmx.Config) (pc : FmxP.Config) (B : Ctx) (cols : List (View Content)) (i : Nat) (st : Styles) : Prop :=
  ∃ v e, cols[i]? = some v ∧ Fmx.buildColspec bc B.colsep B.rowsep v = .ok e ∧ st = Dict.update [] (FmxP.colspecStyles pc e)

theorem runs_fmxColspec {b : Nat} {G : Goal} {i : Nat} {e : Node} (hns : pc.calsNs = bc.calsNs) (he : ColspecFor bc.cals ((i : Int) + 1) e) (p : Option Node)
    (hok : G.colOK i (Dict.update [] (FmxP.colspecStyles pc e))) :
    Runs (AtCols G i) (AtCols G (i + 1)) (FmxP.loop pc 1 b (walk (FmxP.selected pc) p e)) := by
  have hq : ∀ x, bc.cals.q x = pc.q x := fun x => by
    show (⟨bc.calsNs, x⟩ : QName) = ⟨pc.calsNs, x⟩
    rw [hns]
  have htag : e.tag? = some (pc.q "colspec") := by rw [← hq]; exact he.tag
  refine FmxP.runs_elem htag FmxP.selected_colspec (by simp [FmxP.Config.f, FmxP.Config.q]) (by simp [FmxP.Config.f, FmxP.Config.q])
    (Q := AtCols G (i + 1)) (S := AtCols G (i + 1)) ?_ ?_ ?_
  · intro s hs
    obtain ⟨colPos, rowPos, row, table⟩ := s
    have e0 : FmxP.onStart pc b p e = (do PState.nextCol; FmxP.parseColspec pc e) := by
      simp [FmxP.onStart, htag, FmxP.Config.q, FmxP.Config.f]
    have hnum : FmxP.colspecNum pc (colPos + 1) e = .ok ((i : Int) + 1) := by
      unfold FmxP.colspecNum
      rw [← hq, he.colnum]
      simp only
      rw [if_neg, pyInt_intStr (by omega)]
      intro h0
      have := intStr_digits (n := (i : Int) + 1) (by omega)
      rw [h0] at this
      exact natDigits_ne _ this.symm
    obtain ⟨t, h1, hrest⟩ := hs
    simp only at h1
    subst h1
    obtain ⟨t', hr, hs'⟩ := AtCols.edit (a := colPos + 1) ⟨t, rfl, hrest⟩ (FmxP.colspecStyles pc e) hok
    refine ⟨⟨colPos + 1, rowPos, row, some t'⟩, ?_, hs'⟩
    rw [e0]
    unfold FmxP.parseColspec PState.nextCol
    simp only [bind_run, modify_run, get_run, lift_run, hnum, onTable_mk, hr]
  · have : walkList (FmxP.selected pc) (some e) e.children = [] := by
      apply walkList_unselected
      intro t a ht
      have h0 := he.empty.1
      unfold insideToks at h0
      rw [List.append_eq_nil_iff] at h0
      rw [h0.2] at ht; simp at ht
    rw [this]; exact runs_pure
  · have : FmxP.onEnd pc p e = pure () := by
      simp [FmxP.onEnd, htag, FmxP.Config.f, FmxP.Config.q]
    rw [this]; exact runs_pure

theorem runs_fmxColspecs {b : Nat} {G : Goal} (hns : pc.calsNs = bc.calsNs) (p : Option Node) :
    ∀ (es : List Node) (i : Nat), (∀ (j : Nat) (hj : j < es.length), ColspecFor bc.cals (((i + j : Nat) : Int) + 1) es[j] ∧
      G.colOK (i + j) (Dict.update [] (FmxP.colspecStyles pc es[j]))) →
    Runs (AtCols G i) (AtCols G (i + es.length)) (FmxP.loop pc 1 b (walkList (FmxP.selected pc) p es)) := by
  intro es
  induction es with
  | nil => intro i _; exact runs_pure
  | cons e es ih =>
    intro i he
    refine FmxP.runs_loop_cons (runs_fmxColspec hns (he 0 (by simp)).1 p (he 0 (by simp)).2) ?_
    have := ih (i + 1) (fun j hj => by
      have := he (j + 1) (by simpa using hj)
      rw [show i + (j + 1) = i + 1 + j by omega] at this
      exact this)
    rw [show i + (e :: es).length = i + 1 + es.length by simp; omega]
    exact this

/-! ### the styles of the table -/

/-- the attributes of the corpus: the frame is one of the CALS frames, and there is none without CALS attributes -/
theorem corpusAttrs_frame {t : Table Content} {a : Dict QName String} (h : Fmx.corpusAttrs bc t = .ok a) :
    (bc.useCals = false → a = []) ∧ (bc.useCals = true → ∃ f, Cals.getFrameAttr t.styles = .ok f ∧ Dict.get? a ⟨bc.calsNs, "frame"⟩ = some f) := by
  unfold Fmx.corpusAttrs at h
  split at h
  · rename_i hu
    refine ⟨by simp [hu], fun _ => ?_⟩
    obtain ⟨fr, h1, h⟩ := bind_ok h
    obtain ⟨c, h2, h⟩ := bind_ok h
    obtain ⟨r, h3, h⟩ := bind_ok h
    obtain ⟨a1, h4, h⟩ := bind_ok h
    obtain ⟨a2, h5, h⟩ := bind_ok h
    obtain ⟨a3, h6, h⟩ := bind_ok h
    have hne : (⟨bc.calsNs, "frame"⟩ : QName).name = "frame" := rfl
    refine ⟨fr, h1, ?_⟩
    rw [addAttr_other h (by simp), addAttr_other h6 (by simp), addAttr_other h5 (by simp), addAttr_other h4 (by simp)]
    cases t.nature with
    | none => simp [Dict.get?_cons, Fmx.Config.q]
    | some n => rw [set_other _ (by simp [Fmx.Config.q])]; simp [Dict.get?_cons, Fmx.Config.q]
  · rename_i hu
    cases h
    exact ⟨fun _ => rfl, fun e => absurd e hu⟩

theorem corpusStyles_ok (hq : SameNames bc pc) {t : Table Content} {n : Node} (h : Fmx.corpusAttrs bc t = .ok n.attrs) (p : Option Node) :
    ∃ st, FmxP.corpusStyles pc p n = .ok st := by
  have hf := corpusAttrs_frame h
  have : ∃ st, CalsP.getFrameStyles (n.attr (pc.q "frame")) = .ok st := by
    cases hu : bc.useCals with
    | false => rw [Node.attr, hf.1 hu]; exact ⟨_, rfl⟩
    | true =>
      obtain ⟨f, h1, h2⟩ := hf.2 hu
      rw [hq.q hu, Node.attr, h2]
      exact frame_read (frame_legal h1)
  obtain ⟨st, h⟩ := this
  unfold FmxP.corpusStyles
  rw [h]
  exact ⟨_, rfl⟩

end Benker
