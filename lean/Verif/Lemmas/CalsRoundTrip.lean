import Verif.Lemmas.Digits
import Verif.Lemmas.Refill
import Verif.Lemmas.CalsParser
import Verif.Props.CalsBuilder
import Verif.Props.CalsStyles
import Verif.Props.Names
import Verif.Props.Units

/-! Simulation of the CALS parser on the tree generated by the CALS builder. -/

namespace Benker
open PyM Cals CalsSpec

/-! ### numbers -/

theorem intStr_digits {n : Int} (h : 0 ≤ n) : (intStr n).toList = Coord.natDigits n.toNat := by
  unfold intStr Coord.intDigits
  rw [if_neg (by omega)]; simp

theorem natDigits_ne (n : Nat) : Coord.natDigits n ≠ [] := by
  obtain ⟨ds, h1, _, _, h4⟩ := Units.natDigits_text n
  rw [h1]; intro h; exact h4 (by simpa [Units.digitsText] using h)

theorem digitsVal_natDigits (n : Nat) : Units.digitsVal (Coord.natDigits n) = n := by
  simp [Units.digitsVal, Coord.natDigits, Nat.ofDigitChars_ten_toDigits]

theorem isNumber_intStr {n : Nat} : IsNumber (intStr n) n := by
  have e := intStr_digits (n := (n : Int)) (by omega)
  rw [Int.toNat_natCast] at e
  have := isNumber_ascii (s := intStr n) (by rw [e]; exact natDigits_ne n) (by rw [e]; exact natDigits_isDigit n)
  rw [e, digitsVal_natDigits] at this
  exact this

theorem decimal_natDigits (n : Nat) : decimal (Coord.natDigits n) = n := by
  rw [← Unicode.value_eq, Unicode.value_ascii (natDigits_isDigit n), digitsVal_natDigits]

theorem firstNumber_natDigits {pre : String} (hpre : ∀ c ∈ pre.toList, ¬ IsDigit c) (n : Nat) : FirstNumber (pre ++ intStr n) n := by
  have e := intStr_digits (n := (n : Int)) (by omega)
  rw [Int.toNat_natCast] at e
  refine ⟨pre.toList, Coord.natDigits n, [], ?_, hpre, natDigits_ne n, fun c hc => Unicode.isDigit_ascii (natDigits_isDigit n c hc), by simp,
    decimal_natDigits n⟩
  rw [String.toList_append, e, List.append_nil]

theorem firstNumber_col {n : Nat} : FirstNumber ("c" ++ intStr n) n := by
  refine firstNumber_natDigits ?_ n
  intro c hc
  have hc : c = 'c' := by simpa using hc
  subst hc
  rintro ⟨d, h⟩
  rw [show Unicode.decimal 'c' = none by decide +kernel] at h
  cases h

theorem firstNumber_intStr {n : Nat} : FirstNumber (intStr n) n := by
  have := firstNumber_natDigits (pre := "") (fun c hc => by cases hc) n
  rwa [String.empty_append] at this

theorem pyInt_intStr {n : Int} (h : 0 ≤ n) : pyInt (intStr n) = .ok n := by
  have := pyInt_number (isNumber_intStr (n := n.toNat))
  rwa [Int.toNat_of_nonneg h] at this

theorem firstInt_col {n : Int} (h : 0 ≤ n) : firstInt ("c" ++ intStr n) = .ok n := by
  have := firstInt_number (firstNumber_col (n := n.toNat))
  rwa [Int.toNat_of_nonneg h] at this

theorem firstInt_intStr {n : Int} (h : 0 ≤ n) : firstInt (intStr n) = .ok n := by
  have := firstInt_number (firstNumber_intStr (n := n.toNat))
  rwa [Int.toNat_of_nonneg h] at this

/-! ### nothing to see -/

/-- no element of the stream has one of the selected names -/
def Unselected (sel : QName → Bool) (ts : List Tok) : Prop := ∀ t a, Tok.opening t a ∈ ts → sel t = false

mutual
theorem walk_unselected (sel : QName → Bool) (p : Option Node) : ∀ n : Node, Unselected sel (toks n) → walk sel p n = []
  | .elem t a x cs tl, h => by
    have h1 : sel t = false := h t a (by simp [toks])
    have h2 := walkList_unselected sel (some (.elem t a x cs tl)) cs (fun t' a' h' => h t' a' (by simp [toks, h']))
    unfold walk
    simp [h1, h2]
  | .pi .., _ => rfl
  | .comment .., _ => rfl
theorem walkList_unselected (sel : QName → Bool) (p : Option Node) : ∀ ns : List Node, Unselected sel (toksList ns) → walkList sel p ns = []
  | [], _ => rfl
  | n :: ns, h => by
    have h1 := walk_unselected sel p n (fun t a h' => h t a (by simp [toksList, h']))
    have h2 := walkList_unselected sel p ns (fun t a h' => h t a (by simp [toksList, h']))
    rw [walkList, h1, h2]; rfl
end

theorem walkList_append (sel : QName → Bool) (p : Option Node) (a b : List Node) :
    walkList sel p (a ++ b) = walkList sel p a ++ walkList sel p b := by
  induction a with
  | nil => rfl
  | cons n a ih => rw [List.cons_append, walkList, walkList, ih, List.append_assoc]

/-! ### statements which succeed -/

/-- from a state of `P` the statement succeeds and ends in a state of `Q` -/
def Runs {σ : Type} (P Q : σ → Prop) (m : PyM σ Unit) : Prop := ∀ s, P s → ∃ s', m s = (.ok (), s') ∧ Q s'

theorem runs_bind {σ : Type} {P Q S : σ → Prop} {m : PyM σ Unit} {k : Unit → PyM σ Unit} (h1 : Runs P Q m) (h2 : Runs Q S (k ())) :
    Runs P S (m >>= k) := by
  intro s hs
  obtain ⟨s1, e1, q1⟩ := h1 s hs
  obtain ⟨s2, e2, q2⟩ := h2 s1 q1
  refine ⟨s2, ?_, q2⟩
  rw [bind_run, e1]; exact e2

theorem runs_pure {σ : Type} {P : σ → Prop} : Runs P P (pure ()) := fun s h => ⟨s, rfl, h⟩

theorem runs_loop_append {cfg : CalsP.Config} {P Q S : PState → Prop} {sel : QName → Bool} {p : Option Node} {a b : List Node}
    (h1 : Runs P Q (CalsP.loop cfg 1 (walkList sel p a))) (h2 : Runs Q S (CalsP.loop cfg 1 (walkList sel p b))) :
    Runs P S (CalsP.loop cfg 1 (walkList sel p (a ++ b))) := by
  rw [walkList_append, CalsP.loop_append, CalsP.depth_walkList]
  exact runs_bind h1 h2

theorem runs_loop_cons {cfg : CalsP.Config} {P Q S : PState → Prop} {sel : QName → Bool} {p : Option Node} {n : Node} {b : List Node}
    (h1 : Runs P Q (CalsP.loop cfg 1 (walk sel p n))) (h2 : Runs Q S (CalsP.loop cfg 1 (walkList sel p b))) :
    Runs P S (CalsP.loop cfg 1 (walkList sel p (n :: b))) := by
  rw [walkList, CalsP.loop_append, CalsP.depth_walk]
  exact runs_bind h1 h2

theorem loop_one (cfg : CalsP.Config) (e : Event) (h : CalsP.newDepth cfg 1 e = 1) : CalsP.loop cfg 1 [e] = CalsP.onEvent cfg e := by
  rw [CalsP.loop_cons, h, if_neg (by decide)]
  funext s
  rw [bind_run]
  cases CalsP.onEvent cfg e s with
  | mk r s' => cases r <;> rfl

/-- the events of an element: its start, its children, its end -/
theorem runs_elem {cfg : CalsP.Config} {P Q S U : PState → Prop} {p : Option Node} {n : Node} {name : String}
    (hn : n.tag? = some (cfg.q name)) (hname : name ∈ ["tgroup", "colspec", "thead", "tfoot", "tbody", "row", "entry"])
    (h1 : Runs P Q (CalsP.onStart cfg p n)) (h2 : Runs Q S (CalsP.loop cfg 1 (walkList (CalsP.selected cfg) (some n) n.children)))
    (h3 : Runs S U (CalsP.onEnd cfg n)) : Runs P U (CalsP.loop cfg 1 (walk (CalsP.selected cfg) p n)) := by
  have hsel : CalsP.selected cfg (cfg.q name) = true := CalsP.selected_q name (List.mem_cons_of_mem _ hname)
  have hnt : cfg.q name ≠ cfg.q "table" := by
    intro e
    have : name = "table" := by simpa [CalsP.Config.q] using e
    subst this
    revert hname; decide
  have hw : walk (CalsP.selected cfg) p n = [⟨true, n, p⟩] ++ (walkList (CalsP.selected cfg) (some n) n.children ++ [⟨false, n, p⟩]) := by
    cases n with
    | elem t a x cs tl =>
      simp only [Node.tag?, Option.some.injEq] at hn
      subst hn
      unfold walk
      simp [hsel, Node.children]
    | pi => cases hn
    | comment => cases hn
  have hd : ∀ b, CalsP.newDepth cfg 1 ⟨b, n, p⟩ = 1 := by
    intro b
    simp only [CalsP.newDepth, hn, Option.some.injEq, if_neg hnt]
  have hda : CalsP.depthAfter cfg 1 [⟨true, n, p⟩] = 1 := hd true
  rw [hw, CalsP.loop_append, hda, loop_one _ _ (hd true), CalsP.loop_append, CalsP.depth_walkList, loop_one _ _ (hd false)]
  exact runs_bind h1 (runs_bind h2 h3)

theorem onTable_mk {α : Type} (m : PyM (Table Content) α) (a b : Int) (r : Option (Int × Option String)) (t : Table Content) :
    PState.onTable m ⟨a, b, r, some t⟩ = ((m t).1, ⟨a, b, r, some (m t).2⟩) := rfl
theorem theRow_mk (a b : Int) (r : Int × Option String) (t : Option (Table Content)) :
    PState.theRow ⟨a, b, some r, t⟩ = (.ok r, ⟨a, b, some r, t⟩) := rfl

/-! ### entries -/

theorem entryContent_toks (e : Node) : contentToks (some (.seq (CalsP.entryContent e))) = insideToks e := by
  have h : ∀ cs : List Node, (cs.map (fun c => some (Content.node c))).flatMap pieceToks = toksList cs := by
    intro cs
    induction cs with
    | nil => rfl
    | cons c cs ih => rw [List.map_cons, List.flatMap_cons, ih, toksList]; rfl
  unfold CalsP.entryContent contentToks insideToks
  simp only [List.flatMap_append, h]
  congr 1
  cases e.text with
  | none => rfl
  | some s =>
    by_cases hs : s = ""
    · subst hs; rfl
    · simp [hs, pieceToks]

theorem entryContent_text (e : Node) : (Content.text? (some (.seq (CalsP.entryContent e)))).toList = charsOf (insideToks e) := by
  obtain ⟨f, h, _⟩ := C42_mixed_content (CalsP.entryContent e) (by
    intro c hc
    unfold CalsP.entryContent at hc
    rcases List.mem_append.mp hc with hc | hc
    · cases hx : e.text with
      | none => rw [hx] at hc; simp at hc
      | some s =>
        rw [hx] at hc
        simp only at hc
        split at hc
        · simp at hc
        · rw [List.mem_singleton] at hc; subst hc; trivial
    · obtain ⟨n, _, rfl⟩ := List.mem_map.mp hc; trivial)
  rw [text_of_toks h, entryContent_toks]

variable {bc : Cals.Config} {pc : CalsP.Config}

theorem entrySpan_ok (hq : ∀ n, bc.q n = pc.q n) {c : Cell Content} {e : Node} (hv : c.box.Valid) (he : EntryFor bc c e) {colPos : Int} (hc : 0 ≤ colPos) :
    CalsP.entrySpan pc colPos e = .ok (c.width, c.height) := by
  have hv' := hv
  unfold Box.Valid at hv'
  have hx : ∃ a b, firstInt ((e.attr (pc.q "namest")).getD (intStr colPos)) = .ok a ∧
      firstInt ((e.attr (pc.q "nameend")).getD (intStr colPos)) = .ok b ∧ b - a + 1 = c.width := by
    by_cases h : c.min.x = c.max.x
    · obtain ⟨h1, h2⟩ := he.oneColumn h
      rw [hq] at h1 h2
      rw [h1, h2]
      refine ⟨colPos, colPos, firstInt_intStr hc, firstInt_intStr hc, ?_⟩
      simp only [Cell.width, Box.width, Cell.min, Cell.max] at *; omega
    · obtain ⟨h1, h2⟩ := he.columns h
      rw [hq] at h1 h2
      rw [h1, h2]
      refine ⟨c.min.x, c.max.x, firstInt_col (by simp only [Cell.min]; omega), firstInt_col (by simp only [Cell.max]; omega), ?_⟩
      simp only [Cell.width, Box.width, Cell.min, Cell.max] at *
  have hyy : ∃ a, pyInt ((e.attr (pc.q "morerows")).getD "0") = .ok a ∧ a + 1 = c.height := by
    by_cases h : c.min.y = c.max.y
    · have h1 := he.oneRow h
      rw [hq] at h1
      rw [h1]
      refine ⟨0, by decide +kernel, ?_⟩
      simp only [Cell.height, Box.height, Cell.min, Cell.max] at *; omega
    · have h1 := he.rows h
      rw [hq] at h1
      rw [h1]
      refine ⟨_, pyInt_intStr (by simp only [Cell.min, Cell.max]; omega), ?_⟩
      simp only [Cell.height, Box.height, Cell.min, Cell.max] at *
  obtain ⟨a, b, h1, h2, h3⟩ := hx
  obtain ⟨m, h4, h5⟩ := hyy
  unfold CalsP.entrySpan
  have e0 : String.ofList (Coord.intDigits colPos) = intStr colPos := rfl
  simp only [e0, h1, h2, h4]
  rw [← h3, ← h5]; rfl

/-- what the builder uses to write rows and cells: the separators of the table, its bounding box -/
structure Ctx where
  colsep : String
  rowsep : String
  bb : Option Box

/-- the copy of a cell: same place, same content, nature of the row, styles read from the entry written for the cell -/
def Copied (bc : Cals.Config) (pc : CalsP.Config) (B : Ctx) (nat : Nat → Option String) (c d : Cell Content) : Prop :=
  d.box = c.box ∧ contentToks d.content = contentToks c.content ∧ Content.text? d.content = Content.text? c.content ∧
    d.nature = nat (c.min.y.toNat - 1) ∧ ∃ e, buildCell bc B.colsep B.rowsep B.bb c = .ok e ∧ d.styles = CalsP.entryStyles pc e

/-- state of the parser between two rows -/
def AtGap {γ : Type} (G : Goal) (R : Cell γ → Cell Content → Prop) (done : List (Cell γ)) (y : Nat) (s : PState) : Prop :=
  ∃ t, s.table = some t ∧ s.rowPos = y ∧ Refill G R done y t

/-- state of the parser in a row -/
def AtRow {γ : Type} (nat : Nat → Option String) (G : Goal) (R : Cell γ → Cell Content → Prop) (done : List (Cell γ)) (y : Nat) (s : PState) : Prop :=
  ∃ t, s.table = some t ∧ s.rowPos = y ∧ s.row = some ((y : Int), nat (y - 1)) ∧ 0 ≤ s.colPos ∧ Refill G R done y t

theorem runs_unit {P : PState → Prop} {cfg : CalsP.Config} {n : Node} {name : String} (hn : n.tag? = some (cfg.q name))
    (h1 : name ≠ "row") (h2 : name ≠ "table") : Runs P P (CalsP.onEnd cfg n) := by
  have h1' : cfg.q name ≠ cfg.q "row" := fun e => h1 (by simpa [CalsP.Config.q] using e)
  have h2' : cfg.q name ≠ cfg.q "table" := fun e => h2 (by simpa [CalsP.Config.q] using e)
  unfold CalsP.onEnd
  rw [hn]
  simp only [Option.some.injEq, h1', h2', if_false]
  exact runs_pure

theorem runs_entry (hq : ∀ n, bc.q n = pc.q n) {B : Ctx} {nat : Nat → Option String} (hnat : ∀ i, (nat i).isSome) {G : Goal} {y : Nat}
    {done rest : List (Cell Content)} {c : Cell Content} {e : Node} (hb : buildCell bc B.colsep B.rowsep B.bb c = .ok e)
    (hT : Tiles G.w G.h (done ++ c :: rest)) (hy : c.min.y = y)
    (hsel : Unselected (CalsP.selected pc) (contentToks c.content)) (p : Option Node) :
    Runs (AtRow nat G (Copied bc pc B nat) done y) (AtRow nat G (Copied bc pc B nat) (done ++ [c]) y)
      (CalsP.loop pc 1 (walk (CalsP.selected pc) p e)) := by
  have he := buildCell_entry (hT.valid c (by simp)) hb
  have htag : e.tag? = some (pc.q "entry") := by rw [← hq]; exact he.tag
  refine runs_elem htag (by simp) (Q := AtRow nat G (Copied bc pc B nat) (done ++ [c]) y) ?_ ?_ (runs_unit htag (by decide) (by decide))
  · intro s hs
    obtain ⟨colPos, rowPos, row, table⟩ := s
    obtain ⟨t, h1, h2, h3, h4, h5⟩ := hs
    simp only at h1 h2 h3 h4
    subst h1 h3
    have e0 : CalsP.onStart pc p e = (do PState.nextCol; CalsP.parseEntry pc e) := by
      simp [CalsP.onStart, htag]
    have hspan := entrySpan_ok hq (hT.valid c (by simp)) he (colPos := colPos + 1) (by omega)
    obtain ⟨t', r1, r2⟩ := h5.insert (fun _ _ h => h.1) hT hy (some (.seq (CalsP.entryContent e)))
      (some (CalsP.entryStyles pc e)) (nat (y - 1)) (by
        intro m
        refine ⟨rfl, ?_, ?_, ?_, e, hb, rfl⟩
        · show contentToks (some (.seq (CalsP.entryContent e))) = _
          rw [entryContent_toks, he.content]
        · apply String.toList_inj.mp
          show (Content.text? (some (.seq (CalsP.entryContent e)))).toList = _
          rw [entryContent_text, he.text]
        · have : c.min.y.toNat - 1 = y - 1 := by omega
          rw [this]
          have := hnat (y - 1)
          cases hn : nat (y - 1) with
          | none => rw [hn] at this; cases this
          | some v => rfl)
    refine ⟨⟨colPos + 1, rowPos, some ((y : Int), nat (y - 1)), some t'⟩, ?_, t', rfl, h2, rfl, by simp only; omega, r2⟩
    rw [e0]
    unfold CalsP.parseEntry PState.nextCol
    simp only [bind_run, modify_run, get_run, lift_run, hspan, theRow_mk, onTable_mk, r1]
  · have : walkList (CalsP.selected pc) (some e) e.children = [] := by
      apply walkList_unselected
      intro t a ht
      apply hsel t a
      rw [← he.content]
      unfold insideToks
      simp [ht]
    rw [this]
    exact runs_pure

theorem runs_entries (hq : ∀ n, bc.q n = pc.q n) {B : Ctx} {nat : Nat → Option String} (hnat : ∀ i, (nat i).isSome) {G : Goal} {y : Nat}
    (p : Option Node) {cs : List (Cell Content)} {es : List Node} (he : All₂ (fun c e => buildCell bc B.colsep B.rowsep B.bb c = .ok e) cs es) :
    ∀ {done rest : List (Cell Content)}, Tiles G.w G.h (done ++ cs ++ rest) → (∀ c ∈ cs, c.min.y = y) →
    (∀ c ∈ cs, Unselected (CalsP.selected pc) (contentToks c.content)) →
    Runs (AtRow nat G (Copied bc pc B nat) done y) (AtRow nat G (Copied bc pc B nat) (done ++ cs) y)
      (CalsP.loop pc 1 (walkList (CalsP.selected pc) p es)) := by
  induction he with
  | nil => intro done rest _ _ _; rw [List.append_nil]; exact runs_pure
  | @cons c e cs es h1 _ ih =>
    intro done rest hT hy hsel
    refine runs_loop_cons (runs_entry hq hnat h1 (rest := cs ++ rest) (by simpa using hT) (hy c (by simp)) (hsel c (by simp)) p) ?_
    have := ih (done := done ++ [c]) (rest := rest) (by simpa using hT) (fun c hc => hy c (by simp [hc])) (fun c hc => hsel c (by simp [hc]))
    simpa using this

/-! ### rows -/

/-- nature of a row after a round trip: the natures which have no tag of their own are read as `body` -/
def rowKind (n : Option String) : String := if n = some "header" then "header" else if n = some "footer" then "footer" else "body"

theorem rowNature_group (n : Option String) : CalsP.rowNature (groupTag n) = .ok (rowKind n) := by
  unfold groupTag rowKind
  by_cases h1 : n = some "header"
  · simp [h1]; decide
  · by_cases h2 : n = some "footer"
    · simp [h2]; decide
    · simp [h1, h2]; decide

/-- the end of a complete row -/
theorem runs_endRow {γ : Type} {nat : Nat → Option String} {G : Goal} {R : Cell γ → Cell Content → Prop} (hR : ∀ c d, R c d → d.box = c.box)
    {y : Nat} {done rest : List (Cell γ)} (hT : Tiles G.w G.h (done ++ rest)) (hrest : ∀ c ∈ rest, (y : Int) + 1 < c.min.y)
    (hy : y + 1 ≤ G.h) (hw : 1 ≤ G.w) : Runs (AtRow nat G R done (y + 1)) (AtGap G R done (y + 1)) CalsP.endRow := by
  intro s hs
  obtain ⟨colPos, rowPos, srow, table⟩ := s
  obtain ⟨t, h1, h2, h3, _, h5⟩ := hs
  simp only at h1 h2 h3
  subst h1 h2 h3
  have hcov := fun q hq => h5.endRow hR hT hy (fun c hc => by have := hrest c hc; omega) q hq
  have hsome := h5.someCol (hcov ⟨1, 1⟩ (by simp only; omega))
  have hmax := h5.cols
  have h6 := h5.readCols
  refine ⟨⟨colPos, ((y + 1 : Nat) : Int), some (((y + 1 : Nat) : Int), nat (y + 1 - 1)), some (t.setViews .col (t.baseViews .col))⟩, ?_, _, rfl, rfl, h6⟩
  have hnoop := fillMissing_noop (⟨⟨1, ((y + 1 : Nat) : Int)⟩, ⟨((t.baseViews .col).length : Int), ((y + 1 : Nat) : Int)⟩⟩ : Box) (none : Option Content) none
    (nat (y + 1 - 1)) (t.setViews .col (t.baseViews .col)) (by
      intro q hq'
      rw [Table.grid_setViews]
      simp only [InBox] at hq'
      exact hcov q (by omega))
  have hbox : Box.make 1 (y + 1 : Nat) ((t.baseViews .col).length : Int) (y + 1 : Nat) =
      .ok ⟨⟨1, ((y + 1 : Nat) : Int)⟩, ⟨((t.baseViews .col).length : Int), ((y + 1 : Nat) : Int)⟩⟩ :=
    make_eq_ok (by omega)
  unfold CalsP.endRow
  simp only [bind_run, onTable_mk]
  rw [Table.views_run .col t h5.inv.grid]
  simp only [get_run, lift_run, hbox, theRow_mk, onTable_mk, hnoop]

/-- a row element -/
theorem runs_row (hq : ∀ n, bc.q n = pc.q n) {B : Ctx} {nat : Nat → Option String} (hnat : ∀ i, (nat i).isSome) {G : Goal} {y : Nat}
    {done rest cs : List (Cell Content)} {row : Node} {body : Node} (htag : row.tag? = some (bc.q "row"))
    (he : All₂ (fun c e => buildCell bc B.colsep B.rowsep B.bb c = .ok e) cs row.children) (hT : Tiles G.w G.h (done ++ cs ++ rest))
    (hcs : ∀ c ∈ cs, c.min.y = (y : Int) + 1) (hrest : ∀ c ∈ rest, (y : Int) + 1 < c.min.y) (hy : y + 1 ≤ G.h) (hw : 1 ≤ G.w)
    (hsel : ∀ c ∈ cs, Unselected (CalsP.selected pc) (contentToks c.content))
    (hbody : ∃ k st, CalsP.rowLooks pc (some body) row = .ok (st, some k) ∧ nat y = some k ∧ G.rowOK y (some k) st) :
    Runs (AtGap G (Copied bc pc B nat) done y) (AtGap G (Copied bc pc B nat) (done ++ cs) (y + 1))
      (CalsP.loop pc 1 (walk (CalsP.selected pc) (some body) row)) := by
  have htag' : row.tag? = some (pc.q "row") := by rw [← hq]; exact htag
  obtain ⟨k, st, hl, hk', hok⟩ := hbody
  refine runs_elem htag' (by simp) (Q := AtRow nat G (Copied bc pc B nat) done (y + 1)) (S := AtRow nat G (Copied bc pc B nat) (done ++ cs) (y + 1)) ?_ ?_ ?_
  · intro s hs
    obtain ⟨colPos, rowPos, srow, table⟩ := s
    obtain ⟨t, h1, h2, h3⟩ := hs
    simp only at h1 h2
    subst h1 h2
    have e0 : CalsP.onStart pc (some body) row = (do PState.nextRow; CalsP.parseRow pc (some body) row) := by
      simp [CalsP.onStart, htag', CalsP.Config.q]
    obtain ⟨t', r1, r2⟩ := h3.startRow hy (fun v => { v with nature := some k, styles := st }) (fun v => ⟨rfl, rfl, rfl⟩) (fun v => hok)
    refine ⟨⟨0, (y : Int) + 1, some ((y : Int) + 1, some k), some t'⟩, ?_, t', rfl, by simp, by simp [hk'], by simp, r2⟩
    rw [e0]
    unfold CalsP.parseRow PState.nextRow
    simp only [bind_run, modify_run, get_run, lift_run, hl, onTable_mk, r1]
  · exact runs_entries hq hnat (some row) he (rest := rest) hT (fun c hc => by rw [hcs c hc]; simp) hsel
  · have e0 : CalsP.onEnd pc row = CalsP.endRow := by
      simp [CalsP.onEnd, htag']
    rw [e0]
    exact runs_endRow (fun _ _ h => h.1) hT hrest hy hw

/-- the nature of row number `i` (from 0) after a round trip -/
def kinds (rows : List (View Content)) (i : Nat) : Option String := some (rowKind (rows[i]?.bind (·.nature)))

/-- the looks of row number `i` after a round trip: those read from the row element written for it -/
def RowRead (bc : Cals.Config) (pc : CalsP.Config) (B : Ctx) (rows : List (View Content)) (i : Nat) (nature : Option String) (st : Styles) : Prop :=
  nature = kinds rows i ∧ ∃ r attrs row body, rows[i]? = some r ∧ rowAttrs bc B.rowsep r = .ok attrs ∧ row.attrs = attrs ∧ body.attrs = [] ∧
    CalsP.rowLooks pc (some body) row = .ok (st, nature)

theorem runs_rowNodes (hq : ∀ n, bc.q n = pc.q n) {B : Ctx} {rows : List (View Content)} {G : Goal} {y : Nat} (hG : G.rowOK = RowRead bc pc B rows)
    {done rest : List (Cell Content)} {r : View Content} {nodes : List Node} {body : Node} (hr : buildRow bc B.colsep B.rowsep B.bb r = .ok nodes)
    (hry : rows[y]? = some r)
    (hT : Tiles G.w G.h (done ++ r.owned ++ rest)) (hcs : ∀ c ∈ r.owned, c.min.y = (y : Int) + 1)
    (hrest : ∀ c ∈ rest, (y : Int) + 1 < c.min.y) (hy : y + 1 ≤ G.h) (hw : 1 ≤ G.w)
    (hsel : ∀ c ∈ r.owned, Unselected (CalsP.selected pc) (contentToks c.content))
    (hbody : CalsP.rowNature (CalsP.localname body) = .ok (rowKind r.nature)) (hbare : body.attrs = []) :
    Runs (AtGap G (Copied bc pc B (kinds rows)) done y) (AtGap G (Copied bc pc B (kinds rows)) (done ++ r.owned) (y + 1))
      (CalsP.loop pc 1 (walkList (CalsP.selected pc) (some body) nodes)) := by
  unfold buildRow at hr
  obtain ⟨a, h1, h⟩ := bind_ok hr
  obtain ⟨es, h2, h⟩ := bind_ok h
  simp only at h
  have hall := mapM_ok_all₂ h2
  have hk : kinds rows y = some (rowKind r.nature) := by unfold kinds; rw [hry]; rfl
  have key := runs_row (B := B) (nat := kinds rows) hq (fun _ => rfl) (row := .elem (bc.q "row") a none es none) rfl hall hT hcs hrest hy hw hsel
    (body := body) (by
      have hl : ∃ st, CalsP.rowLooks pc (some body) (.elem (bc.q "row") a none es none) = .ok (st, some (rowKind r.nature)) := by
        unfold CalsP.rowLooks
        simp only [hbody]
        exact ⟨_, rfl⟩
      obtain ⟨st, hl⟩ := hl
      refine ⟨_, st, hl, hk, ?_⟩
      rw [hG]
      exact ⟨hk.symm, r, a, _, body, hry, h1, rfl, hbare, hl⟩)
  split at h
  · obtain ⟨i, _, h⟩ := bind_ok h
    obtain ⟨j, _, h⟩ := bind_ok h
    obtain ⟨k, _, h⟩ := bind_ok h
    cases h
    exact runs_loop_cons (Q := AtGap G (Copied bc pc B (kinds rows)) done y) runs_pure
      (runs_loop_cons key (runs_loop_cons (Q := AtGap G (Copied bc pc B (kinds rows)) (done ++ r.owned) (y + 1)) runs_pure runs_pure))
  · cases h
    exact runs_loop_cons key runs_pure

/-- the layout which the parser rebuilds -/
structure Plan (pc : CalsP.Config) (w h : Nat) (rows : List (View Content)) : Prop where
  tiles : Tiles w h (rows.flatMap (·.owned))
  start : ∀ (i : Nat) (hi : i < rows.length), ∀ c ∈ rows[i].owned, c.min.y = (i : Int) + 1
  height : rows.length = h
  width : 1 ≤ w
  plain : ∀ r ∈ rows, ∀ c ∈ r.owned, Unselected (CalsP.selected pc) (contentToks c.content)

theorem rest_below {rows pre g post : List (View Content)} {r : View Content} (hrows : rows = pre ++ (r :: g) ++ post)
    (hstart : ∀ (i : Nat) (hi : i < rows.length), ∀ c ∈ rows[i].owned, c.min.y = (i : Int) + 1) :
    ∀ c ∈ (g ++ post).flatMap (·.owned), (pre.length : Int) + 1 < c.min.y := by
  intro c hc
  obtain ⟨r', hr', hc⟩ := List.mem_flatMap.mp hc
  obtain ⟨i, hi, rfl⟩ := List.getElem_of_mem hr'
  have hlt' : pre.length + 1 + i < rows.length := by
    rw [hrows]; simp only [List.length_append, List.length_cons] at hi ⊢; omega
  have hget' : rows[pre.length + 1 + i] = (g ++ post)[i] := by
    simp only [hrows, List.append_assoc, List.cons_append]
    rw [List.getElem_append_right (by omega)]
    simp [show pre.length + 1 + i - pre.length = i + 1 by omega]
  have := hstart _ hlt' c (by rw [hget']; exact hc)
  omega

theorem runs_rows (hq : ∀ n, bc.q n = pc.q n) {B : Ctx} {G : Goal} {rows : List (View Content)} (hG : G.rowOK = RowRead bc pc B rows)
    (hp : Plan pc G.w G.h rows) (body : Node) (hbare : body.attrs = []) {g : List (View Content)}
    {nodes : List (List Node)} (hg : All₂ (fun r ns => buildRow bc B.colsep B.rowsep B.bb r = .ok ns) g nodes) :
    ∀ {pre post : List (View Content)}, rows = pre ++ g ++ post → (∀ r ∈ g, CalsP.rowNature (CalsP.localname body) = .ok (rowKind r.nature)) →
    Runs (AtGap G (Copied bc pc B (kinds rows)) (pre.flatMap (·.owned)) pre.length)
      (AtGap G (Copied bc pc B (kinds rows)) ((pre ++ g).flatMap (·.owned)) (pre ++ g).length)
      (CalsP.loop pc 1 (walkList (CalsP.selected pc) (some body) nodes.flatten)) := by
  induction hg with
  | nil => intro pre post _ _; rw [List.append_nil]; exact runs_pure
  | @cons r ns g nodes h1 _ ih =>
    intro pre post hrows hk
    have hmem : r ∈ rows := by rw [hrows]; simp
    have hlt : pre.length < rows.length := by rw [hrows]; simp
    have hget : rows[pre.length] = r := by simp [hrows]
    rw [List.flatten_cons]
    refine runs_loop_append (Q := AtGap G (Copied bc pc B (kinds rows)) ((pre ++ [r]).flatMap (·.owned)) (pre ++ [r]).length) ?_ ?_
    · have := runs_rowNodes (y := pre.length) hq hG h1 (done := pre.flatMap (·.owned))
        (rest := (g ++ post).flatMap (·.owned)) (body := body) (by rw [List.getElem?_eq_getElem hlt, hget]) (by
          have := hp.tiles
          rw [hrows] at this
          simpa [List.flatMap_append, List.append_assoc] using this) (by
          have := hp.start pre.length hlt
          rw [hget] at this
          exact this) (rest_below hrows hp.start) (by have := hp.height; omega) hp.width (fun c hc => hp.plain r hmem c hc)
        (hk r (by simp)) hbare
      simpa using this
    · have := ih (pre := pre ++ [r]) (post := post) (by simp [hrows]) (fun r' hr' => hk r' (by simp [hr']))
      simpa using this

theorem runs_bodies (hq : ∀ n, bc.q n = pc.q n) {B : Ctx} {G : Goal} {rows : List (View Content)} (hG : G.rowOK = RowRead bc pc B rows)
    (hp : Plan pc G.w G.h rows) (p : Option Node) {groups : List (List (View Content))} {bodies : List Node}
    (hg : All₂ (fun g body => ∃ nodes, body = Node.elem (bc.q (groupTag (groupNature g))) [] none (List.flatten nodes) none ∧
        All₂ (fun r ns => buildRow bc B.colsep B.rowsep B.bb r = .ok ns) g nodes) groups bodies) :
    ∀ {pre : List (View Content)}, rows = pre ++ groups.flatten → (∀ g ∈ groups, ∀ r ∈ g, r.nature = groupNature g) →
    Runs (AtGap G (Copied bc pc B (kinds rows)) (pre.flatMap (·.owned)) pre.length)
      (AtGap G (Copied bc pc B (kinds rows)) (rows.flatMap (·.owned)) rows.length)
      (CalsP.loop pc 1 (walkList (CalsP.selected pc) p bodies)) := by
  induction hg with
  | nil => intro pre hrows _; rw [List.flatten_nil, List.append_nil] at hrows; subst hrows; exact runs_pure
  | @cons g body groups bodies h1 _ ih =>
    intro pre hrows hk
    obtain ⟨nodes, rfl, hall⟩ := h1
    have htag : (Node.elem (bc.q (groupTag (groupNature g))) [] none (List.flatten nodes) none).tag? = some (pc.q (groupTag (groupNature g))) := by
      rw [← hq]; rfl
    have hname : groupTag (groupNature g) ∈ ["thead", "tfoot", "tbody"] := by
      unfold groupTag; split
      · simp
      · split <;> simp
    refine runs_loop_cons (Q := AtGap G (Copied bc pc B (kinds rows)) ((pre ++ g).flatMap (·.owned)) (pre ++ g).length) ?_ ?_
    · refine runs_elem htag (by revert hname; generalize groupTag (groupNature g) = x; intro hname; simp at hname ⊢; rcases hname with h | h | h <;> simp [h])
        (Q := AtGap G (Copied bc pc B (kinds rows)) (pre.flatMap (·.owned)) pre.length) ?_
        (runs_rows hq hG hp _ rfl hall (post := groups.flatten) (by simpa using hrows) ?_)
        (runs_unit htag (by intro e; rw [e] at hname; revert hname; decide) (by intro e; rw [e] at hname; revert hname; decide))
      · have e0 : CalsP.onStart pc p (Node.elem (bc.q (groupTag (groupNature g))) [] none (List.flatten nodes) none) = pure () := by
          unfold CalsP.onStart
          rw [htag]
          simp only [List.mem_cons, List.not_mem_nil, or_false] at hname
          rcases hname with h | h | h <;> rw [h] <;> simp [CalsP.Config.q]
        rw [e0]; exact runs_pure
      · intro r hr
        rw [hk g (by simp) r hr]
        exact rowNature_group _
    · have := ih (pre := pre ++ g) (by simpa using hrows) (fun g' hg' => hk g' (by simp [hg']))
      exact this

/-! ### columns -/

/-- the looks of column number `i` after a round trip: those read from the `colspec` written for it -/
def ColRead (bc : Cals.Config) (pc : CalsP.Config) (B : Ctx) (cols : List (View Content)) (i : Nat) (st : Styles) : Prop :=
  ∃ v e, cols[i]? = some v ∧ buildColspec bc B.colsep B.rowsep v = .ok e ∧ st = Dict.update [] (CalsP.colspecStyles pc e)

/-- state of the parser before the first row, after `i` columns -/
def AtCols (G : Goal) (i : Nat) (s : PState) : Prop :=
  ∃ t, s.table = some t ∧ s.rowPos = 0 ∧ t.Inv ∧ t.grid.cells = [] ∧ t.rows = none ∧ (t.baseViews .col).length = i ∧
    (1 ≤ i → t.cols = some (t.baseViews .col)) ∧ (t.styles = G.styles ∧ t.nature = G.nature) ∧
    ∀ j, j < i → ∃ v, (t.baseViews .col)[j]? = some v ∧ G.colOK j v.styles

/-- one more column -/
theorem AtCols.edit {G : Goal} {i : Nat} {a b : Int} {r : Option (Int × Option String)} {t : Table Content}
    (hs : AtCols G i ⟨a, b, r, some t⟩) (st : Styles) (hok : G.colOK i (Dict.update [] st)) :
    ∃ t', Table.editView .col ((i : Int) + 1) (fun v => { v with styles := Dict.update v.styles st }) t = (.ok (), t') ∧
      AtCols G (i + 1) ⟨a, b, r, some t'⟩ := by
  obtain ⟨_, h1, h2, h3, h4, h5, h6, h7, h8, h9⟩ := hs
  simp only [Option.some.injEq] at h1 h2
  subst h1 h2
  have hl := grow_length ((i : Int) + 1) (t.baseViews .col)
  have hup := updateAt_pos i (fun v : View Content => { v with styles := Dict.update v.styles st })
    (Views.grow ((i : Int) + 1) (t.baseViews .col)) (by omega)
  have hr := Table.editView_run h3 .col ((i : Int) + 1) (fun v => { v with styles := Dict.update v.styles st })
  have e1 : ((i : Int) + 1 - 1) = (i : Int) := by omega
  rw [e1, hup] at hr
  simp only at hr
  have hinv' := Table.editView_tinv h3 .col ((i : Int) + 1) (fun v => { v with styles := Dict.update v.styles st })
    (fun v => ⟨rfl, rfl, rfl⟩)
  unfold exec at hinv'
  rw [hr] at hinv'
  refine ⟨_, hr, _, rfl, rfl, hinv', ?_, h5, ?_, ?_, h8, ?_⟩
  · rw [Table.grid_setViews]; exact h4
  · rw [Table.baseViews_setViews, List.length_modify]; omega
  · intro _; rw [Table.baseViews_setViews]; rfl
  · intro j hj
    rw [Table.baseViews_setViews, List.getElem?_modify]
    by_cases hij : i = j
    · subst hij
      rw [List.getElem?_eq_getElem (by omega), grow_getElem, dif_neg (by omega)]
      exact ⟨_, by simp; rfl, hok⟩
    · obtain ⟨v, hv, hok'⟩ := h9 j (by omega)
      obtain ⟨hlt, rfl⟩ := List.getElem?_eq_some_iff.mp hv
      refine ⟨_, ?_, hok'⟩
      rw [List.getElem?_eq_getElem (by omega), grow_getElem, dif_pos hlt]
      simp [hij]

theorem colspecNum_ok (hq : ∀ n, bc.q n = pc.q n) {i : Nat} {e : Node} (he : ColspecFor bc ((i : Int) + 1) e) (colPos : Int) :
    CalsP.colspecNum pc colPos e = .ok ((i : Int) + 1) := by
  unfold CalsP.colspecNum
  rw [← hq, he.colnum]
  simp only
  rw [if_neg, pyInt_intStr (by omega)]
  intro h0
  have := intStr_digits (n := (i : Int) + 1) (by omega)
  rw [h0] at this
  exact natDigits_ne _ this.symm

theorem runs_colspec (hq : ∀ n, bc.q n = pc.q n) {G : Goal} {i : Nat} {e : Node} (he : ColspecFor bc ((i : Int) + 1) e) (tg : Node)
    (htg : tg.tag? = some (pc.q "tgroup")) (hok : G.colOK i (Dict.update [] (CalsP.colspecStyles pc e))) :
    Runs (AtCols G i) (AtCols G (i + 1)) (CalsP.loop pc 1 (walk (CalsP.selected pc) (some tg) e)) := by
  have htag : e.tag? = some (pc.q "colspec") := by rw [← hq]; exact he.tag
  refine runs_elem htag (by simp) (Q := AtCols G (i + 1)) ?_ ?_ (runs_unit htag (by decide) (by decide))
  · intro s hs
    obtain ⟨colPos, rowPos, row, table⟩ := s
    have e0 : CalsP.onStart pc (some tg) e = (do PState.nextCol; CalsP.parseColspec pc (some tg) e) := by
      simp [CalsP.onStart, htag, CalsP.Config.q]
    have hpar : CalsP.colspecParent (some tg) = .ok () := by
      unfold CalsP.colspecParent CalsP.localname
      simp [htg, CalsP.Config.q]
    have hnum := colspecNum_ok hq he (colPos + 1)
    obtain ⟨t, h1, hrest⟩ := hs
    simp only at h1
    subst h1
    obtain ⟨t', hr, hs'⟩ := AtCols.edit (a := colPos + 1) ⟨t, rfl, hrest⟩ (CalsP.colspecStyles pc e) hok
    refine ⟨⟨colPos + 1, rowPos, row, some t'⟩, ?_, hs'⟩
    rw [e0]
    unfold CalsP.parseColspec PState.nextCol
    simp only [bind_run, modify_run, get_run, lift_run, hpar, hnum, onTable_mk, hr]
  · have : walkList (CalsP.selected pc) (some e) e.children = [] := by
      apply walkList_unselected
      intro t a ht
      have h0 := he.empty.1
      unfold insideToks at h0
      rw [List.append_eq_nil_iff] at h0
      rw [h0.2] at ht; simp at ht
    rw [this]; exact runs_pure

theorem runs_colspecs (hq : ∀ n, bc.q n = pc.q n) {G : Goal} (tg : Node) (htg : tg.tag? = some (pc.q "tgroup")) :
    ∀ (es : List Node) (i : Nat), (∀ (j : Nat) (hj : j < es.length), ColspecFor bc (((i + j : Nat) : Int) + 1) es[j] ∧
      G.colOK (i + j) (Dict.update [] (CalsP.colspecStyles pc es[j]))) →
    Runs (AtCols G i) (AtCols G (i + es.length)) (CalsP.loop pc 1 (walkList (CalsP.selected pc) (some tg) es)) := by
  intro es
  induction es with
  | nil => intro i _; exact runs_pure
  | cons e es ih =>
    intro i he
    refine runs_loop_cons (runs_colspec hq (he 0 (by simp)).1 tg htg (he 0 (by simp)).2) ?_
    have := ih (i + 1) (fun j hj => by
      have := he (j + 1) (by simpa using hj)
      rw [show i + (j + 1) = i + 1 + j by omega] at this
      exact this)
    rw [show i + (e :: es).length = i + 1 + es.length by simp; omega]
    exact this

theorem cols_gap {γ : Type} {G : Goal} {R : Cell γ → Cell Content → Prop} (hk : G.known ≤ G.w) {s : PState} (hs : AtCols G G.known s) : AtGap G R [] 0 s := by
  obtain ⟨t, h1, h2, h3, h4, h5, h6, h7, h8, h9⟩ := hs
  have hb : t.baseViews .row = [] := by
    have hl := (lastLineOf_spec .row t.grid h3.grid).2.2.2 h4
    show (t.rows).getD _ = _
    rw [h5, hl]; rfl
  refine ⟨t, h1, by simpa using h2, h3, by rw [h4]; exact .nil, h8, by omega, ?_, by omega, by omega, by rw [hb]; simp, by intro i hi; omega⟩
  intro i hi
  obtain ⟨v, hv, hok⟩ := h9 i hi
  exact ⟨_, v, h7 (by omega), hv, hok⟩

/-! ### the table element -/

theorem unit_known {fl : Rat → Rat} {u : List Char} {q : Rat} (h : Dict.get? (Units.unitsTable fl) u = some q) : ∃ n ∈ Units.unitNames, u = n.toList := by
  unfold Dict.get? at h
  rw [Option.map_eq_some_iff] at h
  obtain ⟨⟨k, v⟩, h, _⟩ := h
  have h1 := List.mem_of_find?_eq_some h
  have h2 := List.find?_some h
  simp only [decide_eq_true_eq] at h2
  subst h2
  simp only [Units.unitsTable, List.mem_cons, Prod.mk.injEq, List.not_mem_nil, or_false] at h1
  rcases h1 with h | h | h | h | h | h | h | h | h <;> rw [h.1]
  · exact ⟨"mm", by decide, rfl⟩
  · exact ⟨"dm", by decide, rfl⟩
  · exact ⟨"cm", by decide, rfl⟩
  · exact ⟨"m", by decide, rfl⟩
  · exact ⟨"in", by decide, rfl⟩
  · exact ⟨"ft", by decide, rfl⟩
  · exact ⟨"px", by decide, rfl⟩
  · exact ⟨"pt", by decide, rfl⟩
  · exact ⟨"pc", by decide, rfl⟩

theorem known_unit (fl : Rat → Rat) {n : String} (h : n ∈ Units.unitNames) : ∃ q, Dict.get? (Units.unitsTable fl) n.toList = some q := by
  simp only [Units.unitNames, List.mem_cons, List.not_mem_nil, or_false] at h
  rcases h with rfl | rfl | rfl | rfl | rfl | rfl | rfl | rfl | rfl <;> exact ⟨_, rfl⟩

/-- a width written by the builder can be read by the parser -/
theorem rewrite_again {fl fl' : Rat → Rat} {u u' w w' : List Char} (h : Units.rewriteWidth fl u w = .ok w') (hu' : ∃ n ∈ Units.unitNames, u' = n.toList) :
    ∃ w'', Units.rewriteWidth fl' u' w' = .ok w'' := by
  unfold Units.rewriteWidth at h
  obtain ⟨⟨v, un⟩, _, h⟩ := bind_ok h
  obtain ⟨q, hq, h⟩ := bind_ok h
  cases h
  have hu : ∃ n ∈ Units.unitNames, u = n.toList := by
    unfold Units.convertValue at hq
    split at hq
    · rename_i b hb; exact unit_known hb
    · cases hq
  obtain ⟨n, hn, rfl⟩ := hu
  obtain ⟨n', hn', rfl⟩ := hu'
  obtain ⟨sign, ip, fp, h1, h2, h3, h4, h5, h6⟩ := Units.format2_text q
  have hne : n.toList ≠ [] := by
    simp only [Units.unitNames, List.mem_cons, List.not_mem_nil, or_false] at hn
    rcases hn with rfl | rfl | rfl | rfl | rfl | rfl | rfl | rfl | rfl <;> decide
  have hp := Units.C56_parse_width fl' ['m', 'm'] [] [] sign h2 ip fp h3 h4 (.inl h5) n.toList (.inr ⟨n, hn, rfl⟩) (by simp) (by intro c r e; cases e)
  rw [if_neg hne, List.nil_append, List.append_nil, ← h1] at hp
  obtain ⟨a, ha⟩ := known_unit fl' hn
  obtain ⟨b, hb⟩ := known_unit fl' hn'
  unfold Units.rewriteWidth
  rw [hp]
  simp only [Units.convertValue, ha, hb, bind, Except.bind]
  exact ⟨_, rfl⟩

theorem frame_read {f : String} (h : f ∈ legalFrames) : ∃ st, CalsP.getFrameStyles (some f) = .ok st := by
  simp only [legalFrames, List.mem_cons, List.not_mem_nil, or_false] at h
  rcases h with rfl | rfl | rfl | rfl | rfl | rfl <;> exact ⟨_, rfl⟩

theorem frame_legal {st : Styles} {f : String} (h : getFrameAttr st = .ok f) : f ∈ legalFrames := by
  unfold getFrameAttr at h
  obtain ⟨a, _, h⟩ := bind_ok h
  obtain ⟨b, _, h⟩ := bind_ok h
  obtain ⟨c, _, h⟩ := bind_ok h
  obtain ⟨d, _, h⟩ := bind_ok h
  injection h with h
  rw [← h]
  cases a <;> cases b <;> cases c <;> cases d <;> decide

/-- what the parser needs of the attributes of the table -/
theorem tableAttrs_ok {t : Table Content} {a : Dict QName String} (h : tableAttrs bc t = .ok a) :
    (∃ f ∈ legalFrames, Dict.get? a (bc.q "frame") = some f) ∧
    (Dict.get? a (bc.q "width") = none ∨ ∃ w w', Units.rewriteWidth bc.fl bc.widthUnit w = .ok w' ∧ Dict.get? a (bc.q "width") = some (String.ofList w')) := by
  unfold tableAttrs at h
  obtain ⟨f, hf, h⟩ := bind_ok h
  simp only at h
  have b1 : Dict.get? [(bc.q "frame", f)] (bc.q "frame") = some f := by simp [Dict.get?_cons]
  have b2 : Dict.get? [(bc.q "frame", f)] (bc.q "width") = none := by
    have : bc.q "frame" ≠ bc.q "width" := q_ne bc (by decide)
    simp [Dict.get?_cons, this]
  have key : ∀ a1, Dict.get? a1 (bc.q "frame") = some f → Dict.get? a1 (bc.q "width") = none → (do
      let attrs ← addAttr bc t.styles "x-sect-orient" "orient" (lookup [("landscape", "land"), ("portrait", "port")]) a1
      let attrs ← addAttr bc t.styles "x-sect-cols" "pgwide" (fun v => .ok (if v = StyleVal.str "1" then "1" else "0")) attrs
      let attrs ← addAttr bc t.styles "background-color" "bgcolor" attrValue attrs
      addAttr bc t.styles "width" "width" (widthAttr bc) attrs) = .ok a →
      (∃ f ∈ legalFrames, Dict.get? a (bc.q "frame") = some f) ∧
      (Dict.get? a (bc.q "width") = none ∨
        ∃ w w', Units.rewriteWidth bc.fl bc.widthUnit w = .ok w' ∧ Dict.get? a (bc.q "width") = some (String.ofList w')) := by
    intro a1 c1 c2 h
    obtain ⟨a2, h2, h⟩ := bind_ok h
    obtain ⟨a3, h3, h⟩ := bind_ok h
    obtain ⟨a4, h4, h⟩ := bind_ok h
    have stepF : Dict.get? a (bc.q "frame") = some f := by
      rw [(addAttr_ok h "frame").1 (by decide), (addAttr_ok h4 "frame").1 (by decide), (addAttr_ok h3 "frame").1 (by decide),
        (addAttr_ok h2 "frame").1 (by decide), c1]
    have stepW : Dict.get? a4 (bc.q "width") = none := by
      rw [(addAttr_ok h4 "width").1 (by decide), (addAttr_ok h3 "width").1 (by decide), (addAttr_ok h2 "width").1 (by decide), c2]
    refine ⟨⟨f, frame_legal hf, stepF⟩, ?_⟩
    cases hw : Dict.get? t.styles "width" with
    | none => left; rw [(addAttr_ok h "width").2.1 hw]; exact stepW
    | some v =>
      right
      obtain ⟨s, hs, hg⟩ := (addAttr_ok h "width").2.2 v hw
      unfold widthAttr at hs
      cases v with
      | str x =>
        obtain ⟨w', hw', hs⟩ := bind_ok hs
        cases hs
        exact ⟨_, w', hw', hg⟩
      | _ => cases hs
  split at h
  · exact key _ b1 b2 h
  · obtain ⟨s1, _, h⟩ := bind_ok h
    obtain ⟨s2, _, h⟩ := bind_ok h
    refine key _ ?_ ?_ h
    · split <;> simp only [set_get_ne _ _ (show "tabstyle" ≠ "frame" by decide), set_get_ne _ _ (show "rowsep" ≠ "frame" by decide),
          set_get_ne _ _ (show "colsep" ≠ "frame" by decide), b1]
    · split <;> simp only [set_get_ne _ _ (show "tabstyle" ≠ "width" by decide), set_get_ne _ _ (show "rowsep" ≠ "width" by decide),
          set_get_ne _ _ (show "colsep" ≠ "width" by decide), b2]

theorem tableStyles_ok (hq : ∀ n, bc.q n = pc.q n) {t : Table Content} {n : Node} (h : tableAttrs bc t = .ok n.attrs)
    (hu : ∃ u ∈ Units.unitNames, pc.widthUnit = u.toList) : ∃ st, CalsP.tableStyles pc n = .ok st := by
  obtain ⟨⟨f, hf, h1⟩, h2⟩ := tableAttrs_ok h
  obtain ⟨st, hst⟩ := frame_read hf
  rw [hq] at h1 h2
  unfold CalsP.tableStyles Node.attr
  rw [h1, hst]
  simp only [bind, Except.bind]
  rcases h2 with h2 | ⟨w, w', hw, h2⟩
  · rw [h2]; exact ⟨_, rfl⟩
  · rw [h2]
    simp only
    split
    · exact ⟨_, rfl⟩
    · obtain ⟨w'', hw''⟩ := rewrite_again (fl' := pc.fl) hw hu
      simp only [String.toList_ofList]
      rw [hw'']
      exact ⟨_, rfl⟩

end Benker
