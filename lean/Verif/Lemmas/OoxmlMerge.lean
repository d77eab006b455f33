import Verif.Lemmas.RowFill
import Verif.Lemmas.RowEnd
import Verif.Lemmas.CalsRoundTrip
import Verif.Spec.WordShort

/-! Lemmas about the reading of Word tables. -/

namespace Benker.OoxmlSpec

/-- a cell without anything -/
def blank : Node := .elem (name "tc") [] none [] none

theorem span_blank : span blank = 1 := by decide

theorem continues_blank : continues blank = false := by decide

theorem total_blanks (k : Nat) : total (List.replicate k blank) = k := by
  induction k with
  | zero => rfl
  | succ k ih =>
    have : total (blank :: List.replicate k blank) = span blank + total (List.replicate k blank) := by simp [total]
    rw [List.replicate_succ, this, ih, span_blank]; omega

theorem place_append (c : Int) (l m : List Node) : place c (l ++ m) = place c l ++ place (c + total l) m := by
  induction l generalizing c with
  | nil => simp [place, total]
  | cons a l ih =>
    simp only [List.cons_append, place, ih, total, List.map_cons, List.sum_cons]
    rw [Int.add_assoc]

theorem total_append (l m : List Node) : total (l ++ m) = total l + total m := by simp [total]

theorem total_nonneg {l : List Node} (h : ∀ x ∈ l, 1 ≤ span x) : 0 ≤ total l := by
  induction l with
  | nil => simp [total]
  | cons a l ih =>
    have h1 := h a (by simp)
    have h2 := ih (fun x hx => h x (by simp [hx]))
    simp only [total, List.map_cons, List.sum_cons] at h2 ⊢
    omega

theorem place_le {l : List Node} (h : ∀ x ∈ l, 1 ≤ span x) (c : Int) : ∀ s ∈ place c l, c + 1 ≤ s.1 ∧ s.1 ≤ c + total l ∧ s.2 ∈ l := by
  induction l generalizing c with
  | nil => intro s hs; cases hs
  | cons a l ih =>
    have h1 := h a (by simp)
    have h2 := total_nonneg (fun x hx => h x (by simp [hx]) : ∀ x ∈ l, 1 ≤ span x)
    intro s hs
    rw [place] at hs
    rcases List.mem_cons.mp hs with rfl | hs
    · refine ⟨Int.le_refl _, ?_, by simp⟩
      simp only [total, List.map_cons, List.sum_cons] at h2 ⊢
      omega
    · obtain ⟨e1, e2, e3⟩ := ih (fun x hx => h x (by simp [hx])) (c + span a) s hs
      refine ⟨by omega, ?_, by simp [e3]⟩
      simp only [total, List.map_cons, List.sum_cons] at e2 ⊢
      omega

theorem continuesAt_append (a : Int) (l : List Node) (tc : Node) :
    continuesAt a (l ++ [tc]) = (continuesAt a l || (decide (total l + 1 = a) && continues tc)) := by
  unfold continuesAt
  rw [place_append]
  simp [place]

theorem run_snoc (a : Int) (rows : List (List Node)) (row : List Node) :
    run a (rows ++ [row]) = if run a rows = rows.length ∧ continuesAt a row then rows.length + 1 else run a rows := by
  induction rows with
  | nil => simp [run]
  | cons x rows ih =>
    simp only [List.cons_append, run, ih, List.length_cons]
    by_cases hx : continuesAt a x = true
    · simp only [hx, if_true, Nat.add_right_cancel_iff]
      split <;> rfl
    · simp [hx]

theorem run_le (a : Int) (rows : List (List Node)) : run a rows ≤ rows.length := by
  induction rows with
  | nil => simp [run]
  | cons x rows ih => simp only [run, List.length_cons]; split <;> omega

variable (content : Node → Option Content) (styles : Node → Styles)

/-- a row more -/
def extend (e : Cell Content) : Cell Content := { e with box := ⟨e.box.min, ⟨e.box.max.x, e.box.max.y + 1⟩⟩ }

/-- effect of a row on the cells above -/
def under (R : Int) (row : List Node) (e : Cell Content) : Cell Content :=
  if e.box.max.y = R - 1 ∧ continuesAt e.box.min.x row = true then extend e else e

/-- the new cells of a row -/
def fresh (R : Int) (row : String × List Node) : List (Cell Content) :=
  ((place 0 row.2).filter (fun s => !continues s.2)).map (fun s => ⟨content s.2, styles s.2, some row.1, ⟨⟨s.1, R⟩, ⟨s.1 + span s.2 - 1, R⟩⟩⟩)

theorem wanted_snoc (rows : List (String × List Node)) (row : String × List Node) : ∀ r : Int,
    wanted content styles r (rows ++ [row]) =
      (wanted content styles r rows).map (under (r + rows.length) row.2) ++ fresh content styles (r + rows.length) row := by
  induction rows with
  | nil =>
    intro r
    obtain ⟨n, tcs⟩ := row
    simp [wanted, fresh, run]
  | cons x rows ih =>
    intro r
    obtain ⟨n, tcs⟩ := x
    simp only [List.cons_append, wanted, ih, List.map_append, List.map_map, List.append_assoc, List.length_cons]
    have e1 : r + 1 + (rows.length : Int) = r + ((rows.length + 1 : Nat) : Int) := by omega
    rw [e1]
    congr 1
    refine List.map_congr_left ?_
    intro s _
    simp only [Function.comp_apply, List.map_append, List.map_cons, List.map_nil, under, extend]
    rw [run_snoc, List.length_map]
    have h2 := run_le s.1 (rows.map (·.2))
    rw [List.length_map] at h2
    by_cases h : run s.1 (rows.map (·.2)) = rows.length
    · by_cases h' : continuesAt s.1 row.2 = true
      · rw [if_pos ⟨h, h'⟩, if_pos ⟨by omega, h'⟩, h]
        simp only [Cell.mk.injEq, true_and]
        apply box_ext <;> simp only <;> omega
      · rw [if_neg (fun h1 => h' h1.2), if_neg (fun h1 => h' h1.2)]
    · rw [if_neg (fun h1 => h h1.1), if_neg (fun h1 => h (by omega))]

theorem fresh_append (R : Int) (n : String) (l : List Node) (tc : Node) :
    fresh content styles R (n, l ++ [tc]) = fresh content styles R (n, l) ++
      (if continues tc then [] else [⟨content tc, styles tc, some n, ⟨⟨total l + 1, R⟩, ⟨total l + span tc, R⟩⟩⟩]) := by
  unfold fresh
  simp only [place_append, place, List.filter_append, List.map_append, Int.zero_add]
  congr 1
  by_cases h : continues tc = true
  · simp [h]
  · simp only [h, Bool.not_false, List.filter_cons_of_pos, List.filter_nil, List.map_cons, List.map_nil, Bool.false_eq_true, if_false]
    congr 2
    apply box_ext <;> simp only <;> omega

/-- a new cell in the last row -/
theorem wanted_new (rows : List (String × List Node)) (n : String) (l : List Node) (tc : Node) (h : continues tc = false) (r : Int) :
    wanted content styles r (rows ++ [(n, l ++ [tc])]) = wanted content styles r (rows ++ [(n, l)]) ++
      [⟨content tc, styles tc, some n, ⟨⟨total l + 1, r + rows.length⟩, ⟨total l + span tc, r + rows.length⟩⟩⟩] := by
  rw [wanted_snoc, wanted_snoc, fresh_append]
  simp only [h, Bool.false_eq_true, if_false, List.append_assoc]
  congr 1
  refine List.map_congr_left ?_
  intro e _
  unfold under
  rw [continuesAt_append, h, Bool.and_false, Bool.or_false]

/-- a continuation cell in the last row -/
theorem wanted_more (rows : List (String × List Node)) (n : String) (l : List Node) (tc : Node) (h : continues tc = true)
    (hl : ∀ x ∈ l, 1 ≤ span x) (r : Int) :
    wanted content styles r (rows ++ [(n, l ++ [tc])]) = (wanted content styles r (rows ++ [(n, l)])).map (fun e =>
      if e.box.min.x = total l + 1 ∧ e.box.max.y = r + rows.length - 1 then extend e else e) := by
  rw [wanted_snoc, wanted_snoc, fresh_append]
  simp only [h, if_true, List.append_nil, List.map_append, List.map_map]
  have hnone : continuesAt (total l + 1) l = false := by
    unfold continuesAt
    rw [List.any_eq_false]
    intro s hs
    have := (place_le hl 0 s hs).2.1
    simp only [Bool.and_eq_true, decide_eq_true_eq, not_and]
    intro; omega
  congr 1
  · refine List.map_congr_left ?_
    intro e _
    simp only [Function.comp_apply]
    unfold under
    rw [continuesAt_append, h, Bool.and_true]
    by_cases h1 : e.box.max.y = r + rows.length - 1
    · by_cases h2 : total l + 1 = e.box.min.x
      · rw [← h2, hnone]
        simp only [h1, Bool.false_or, decide_true, and_self, if_true, Bool.false_eq_true, and_false, if_false]
        rw [if_pos ⟨h2.symm, trivial⟩]
      · simp only [h1, h2, decide_false, Bool.or_false, true_and]
        split
        · rename_i hc
          rw [if_neg]
          rintro ⟨h3, -⟩
          exact h2 h3.symm
        · rw [if_neg]
          rintro ⟨h3, -⟩
          exact h2 h3.symm
    · simp only [h1, false_and, and_false, if_false]
  · symm
    rw [List.map_congr_left (g := id), List.map_id]
    intro e he
    unfold fresh at he
    obtain ⟨s, -, rfl⟩ := List.mem_map.mp he
    rw [if_neg]
    · rfl
    · simp only; omega

/-- the rows which support the continuation cells, seen from the last row -/
theorem supported_snoc (row : List Node) : ∀ rows : List (List Node), Supported (rows ++ [row]) ↔ Supported rows ∧
    (∀ s ∈ place 0 row, continues s.2 = true → ∃ above, rows.getLast? = some above ∧ ∃ s' ∈ place 0 above, s'.1 = s.1 ∧ span s'.2 = span s.2) := by
  have hgo : ∀ (rows : List (List Node)) (a : List Node), Supported.go a (rows ++ [row]) ↔ Supported.go a rows ∧
      (∀ s ∈ place 0 row, continues s.2 = true → ∃ above, (a :: rows).getLast? = some above ∧ ∃ s' ∈ place 0 above, s'.1 = s.1 ∧ span s'.2 = span s.2) := by
    intro rows
    induction rows with
    | nil => intro a; simp [Supported.go]
    | cons x rows ih =>
      intro a
      simp only [List.cons_append, Supported.go, ih, List.getLast?_cons_cons, and_assoc]
  intro rows
  cases rows with
  | nil => simp [Supported, Supported.go]
  | cons x rows =>
    simp only [List.cons_append, Supported, hgo, and_assoc]

/-- every place of the last row is occupied by a cell which ends in this row -/
theorem wanted_above (r : Int) : ∀ (rows : List (String × List Node)), Supported (rows.map (·.2)) →
    ∀ row, rows.getLast? = some row → ∀ s ∈ place 0 row.2, ∃ e ∈ wanted content styles r rows,
      e.box.min.x = s.1 ∧ e.box.max.x = s.1 + span s.2 - 1 ∧ e.box.max.y = r + rows.length - 1 := by
  have key : ∀ (k : Nat) (rows : List (String × List Node)), rows.length = k → Supported (rows.map (·.2)) →
      ∀ row, rows.getLast? = some row → ∀ s ∈ place 0 row.2, ∃ e ∈ wanted content styles r rows,
      e.box.min.x = s.1 ∧ e.box.max.x = s.1 + span s.2 - 1 ∧ e.box.max.y = r + rows.length - 1 := by
    intro k
    induction k with
    | zero =>
      intro rows hk _ row hrow
      rw [List.length_eq_zero_iff.mp hk] at hrow
      cases hrow
    | succ k ih =>
      intro rows hk hs row hrow s hsl
      rcases List.eq_nil_or_concat rows with h | ⟨init, last, h⟩
      · rw [h] at hrow; cases hrow
      · subst h
        simp only [List.concat_eq_append] at *
        rw [List.getLast?_append] at hrow
        simp only [List.getLast?_singleton, Option.some_or, Option.some.injEq] at hrow
        subst hrow
        rw [List.map_append, List.map_cons, List.map_nil, supported_snoc] at hs
        rw [List.length_append, List.length_singleton] at hk
        rw [wanted_snoc]
        by_cases hc : continues s.2 = true
        · obtain ⟨above, h1, s', h2, h3, h4⟩ := hs.2 s hsl hc
          rw [List.getLast?_map] at h1
          obtain ⟨row', h5, h6⟩ := Option.map_eq_some_iff.mp h1
          subst h6
          obtain ⟨e, he, e1, e2, e3⟩ := ih init (by omega) hs.1 row' h5 s' h2
          refine ⟨under (r + init.length) last.2 e, by simp only [List.mem_append, List.mem_map]; exact .inl ⟨e, he, rfl⟩, ?_⟩
          have : continuesAt e.box.min.x last.2 = true := by
            unfold continuesAt
            rw [List.any_eq_true]
            exact ⟨s, hsl, by simp [hc, e1, h3]⟩
          unfold under
          rw [if_pos ⟨e3, this⟩]
          simp only [extend, List.length_append, List.length_singleton]
          omega
        · refine ⟨_, List.mem_append.mpr (.inr (List.mem_map.mpr ⟨s, List.mem_filter.mpr ⟨hsl, by simpa using hc⟩, rfl⟩)), rfl, rfl, ?_⟩
          simp only [List.length_append, List.length_singleton]
          omega
  intro rows
  exact key rows.length rows rfl

end Benker.OoxmlSpec

namespace Benker.Ooxml
open PyM Table OoxmlSpec

variable {cfg : Config} {sect : Option Node}

/-! ### the loop -/

/-- depth after some events -/
def depthAfter (d : Int) (es : List Event) : Int := es.foldl newDepth d

theorem loop_cons (d : Int) (e : Event) (es : List Event) :
    loop cfg sect d (e :: es) = if newDepth d e > 1 then loop cfg sect (newDepth d e) es
      else (onEvent cfg sect e >>= fun _ => loop cfg sect (newDepth d e) es) := rfl

theorem loop_append (b : List Event) : ∀ (a : List Event) (d : Int),
    loop cfg sect d (a ++ b) = (loop cfg sect d a >>= fun _ => loop cfg sect (depthAfter d a) b) := by
  intro a
  induction a with
  | nil => intro d; rfl
  | cons e es ih =>
    intro d
    rw [List.cons_append, loop_cons, loop_cons]
    split
    · rw [ih]; rfl
    · rw [ih]
      funext s
      simp only [bind_run]
      cases onEvent cfg sect e s with
      | mk r s' => cases r <;> rfl

mutual
theorem depth_walk (sel : QName → Bool) (p : Option Node) (d : Int) : ∀ n : Node, depthAfter d (walk sel p n) = d
  | .elem t a x cs tl => by
    unfold walk depthAfter
    simp only [List.foldl_append]
    have ih := fun d => depth_walkList sel (some (.elem t a x cs tl)) d cs
    unfold depthAfter at ih
    rw [ih]
    by_cases hs : sel t = true
    · simp only [hs, if_true, List.foldl_cons, List.foldl_nil, newDepth, Bool.false_eq_true, if_false]
      split <;> omega
    · simp [hs]
  | .pi .. => rfl
  | .comment .. => rfl
theorem depth_walkList (sel : QName → Bool) (p : Option Node) (d : Int) : ∀ ns : List Node, depthAfter d (walkList sel p ns) = d
  | [] => rfl
  | n :: ns => by
    have h1 := depth_walk sel p d n
    have h2 := depth_walkList sel p d ns
    unfold depthAfter at *
    rw [walkList, List.foldl_append, h1, h2]
end

theorem bind_unit (m : PyM PState Unit) : (m >>= fun _ => (pure () : PyM PState Unit)) = m := by
  funext s
  rw [bind_run]
  cases m s with
  | mk r s' => cases r <;> rfl

theorem loop_one (d : Int) (e : Event) (h : newDepth d e ≤ 1) : loop cfg sect d [e] = onEvent cfg sect e := by
  rw [loop_cons, if_neg (by omega)]
  exact bind_unit _

mutual
/-- nothing is done inside a nested table -/
theorem loop_deep (sel : QName → Bool) (p : Option Node) (d : Int) (hd : 2 ≤ d) : ∀ n : Node, loop cfg sect d (walk sel p n) = pure ()
  | .elem t a x cs tl => by
    unfold walk
    have h1 := loop_deepList sel (some (.elem t a x cs tl)) d hd cs
    have h2 := loop_deepList sel (some (.elem t a x cs tl)) (d + 1) (by omega) cs
    by_cases hs : sel t = true
    · simp only [hs, if_true, List.singleton_append]
      rw [List.cons_append, loop_cons]
      by_cases ht : (Node.elem t a x cs tl).tag? = some (w "tbl")
      · simp only [newDepth, ht, if_true]
        rw [if_pos (by omega), loop_append, h2, depth_walkList, loop_cons]
        simp only [newDepth, ht, if_true, Bool.false_eq_true, if_false]
        rw [if_pos (by omega)]; rfl
      · simp only [newDepth, ht, if_false]
        rw [if_pos (by omega), loop_append, h1, depth_walkList, loop_cons]
        simp only [newDepth, ht, if_false]
        rw [if_pos (by omega)]; rfl
    · simp only [hs, Bool.false_eq_true, if_false, List.nil_append, List.append_nil]
      exact h1
  | .pi .. => rfl
  | .comment .. => rfl
theorem loop_deepList (sel : QName → Bool) (p : Option Node) (d : Int) (hd : 2 ≤ d) : ∀ ns : List Node, loop cfg sect d (walkList sel p ns) = pure ()
  | [] => rfl
  | n :: ns => by
    rw [walkList, loop_append, loop_deep sel p d hd n, depth_walk, loop_deepList sel p d hd ns]
    rfl
end

mutual
/-- nothing is done for quiet nodes -/
theorem loop_quiet (p : Option Node) : ∀ n : Node, quiet n = true → loop cfg sect 1 (walk selected p n) = pure ()
  | .elem t a x cs tl, h => by
    unfold quiet at h
    unfold walk
    by_cases ht : t = w "tbl"
    · subst ht
      have hs : selected (w "tbl") = true := by decide
      simp only [hs, if_true, List.singleton_append]
      rw [List.cons_append, loop_cons]
      simp only [newDepth, Node.tag?, if_true]
      rw [if_pos (by omega), loop_append, loop_deepList _ _ _ (by omega), depth_walkList]
      have : loop cfg sect 2 [⟨false, .elem (w "tbl") a x cs tl, p⟩] = pure () := by
        rw [loop_one _ _ (by simp [newDepth, Node.tag?])]
        have : w "tbl" ≠ w "tr" := by decide
        simp [onEvent, onEnd, Node.tag?, this]
      exact (congrArg _ (funext fun _ => this)).trans rfl
    · have ht' : ¬ t = name "tbl" := ht
      simp only [ht', decide_false, Bool.false_or, Bool.and_eq_true, Bool.not_eq_true', decide_eq_false_iff_not] at h
      have hs : selected t = false := by
        unfold selected
        simp only [decide_eq_false_iff_not]
        intro h1
        rw [List.map_cons] at h1
        rcases List.mem_cons.mp h1 with h1 | h1
        · exact ht h1
        · exact h.1 h1
      simp only [hs, Bool.false_eq_true, if_false, List.nil_append, List.append_nil]
      exact loop_quietList (some (.elem t a x cs tl)) cs h.2
  | .pi .., _ => rfl
  | .comment .., _ => rfl
theorem loop_quietList (p : Option Node) : ∀ ns : List Node, quietAll ns = true → loop cfg sect 1 (walkList selected p ns) = pure ()
  | [], _ => rfl
  | n :: ns, h => by
    simp only [quietAll, Bool.and_eq_true] at h
    rw [walkList, loop_append, loop_quiet p n h.1, depth_walk, loop_quietList p ns h.2]
    rfl
end

theorem runs_loop_cons {P Q S : PState → Prop} {sel : QName → Bool} {p : Option Node} {n : Node} {b : List Node}
    (h1 : Runs P Q (loop cfg sect 1 (walk sel p n))) (h2 : Runs Q S (loop cfg sect 1 (walkList sel p b))) :
    Runs P S (loop cfg sect 1 (walkList sel p (n :: b))) := by
  rw [walkList, loop_append, depth_walk]
  exact runs_bind h1 h2

/-- the events of an element: its start, its children, its end -/
theorem runs_elem {P Q S U : PState → Prop} {p : Option Node} {n : Node} {nm : String}
    (hn : n.tag? = some (w nm)) (hname : nm ∈ ["tblGrid", "gridCol", "tr", "tc"])
    (h1 : Runs P Q (onStart cfg sect n)) (h2 : Runs Q S (loop cfg sect 1 (walkList selected (some n) n.children)))
    (h3 : Runs S U (onEnd n)) : Runs P U (loop cfg sect 1 (walk selected p n)) := by
  have hsel : selected (w nm) = true := by
    unfold selected
    exact decide_eq_true (List.mem_map_of_mem (List.mem_cons_of_mem _ hname))
  have hnt : w nm ≠ w "tbl" := by
    intro e
    have : nm = "tbl" := by simpa [w] using e
    subst this
    revert hname; decide
  have hw : walk selected p n = [⟨true, n, p⟩] ++ (walkList selected (some n) n.children ++ [⟨false, n, p⟩]) := by
    cases n with
    | elem t a x cs tl =>
      simp only [Node.tag?, Option.some.injEq] at hn
      subst hn
      unfold walk
      simp [hsel, Node.children]
    | pi => cases hn
    | comment => cases hn
  have hd : ∀ b, newDepth 1 ⟨b, n, p⟩ = 1 := by
    intro b
    simp only [newDepth, hn, Option.some.injEq, if_neg hnt]
  have hda : depthAfter 1 [⟨true, n, p⟩] = 1 := hd true
  rw [hw, loop_append, hda, loop_one _ _ (Int.le_of_eq (hd _)), loop_append, depth_walkList, loop_one _ _ (Int.le_of_eq (hd _))]
  exact runs_bind h1 (runs_bind h2 h3)

/-! ### readings of the elements -/

theorem select_two (a b : String) (n : Node) : select [[a], [b]] n = (kids [a] n).flatMap (kids [b]) := by
  unfold select
  simp only [List.foldl_cons, List.foldl_nil, List.flatMap_cons, List.flatMap_nil, List.append_nil]
  rfl

theorem tcWidth_ok {tc : Node} (h : 1 ≤ span tc) : tcWidth tc = .ok (span tc) := by
  unfold tcWidth attrOf
  simp only [select_two]
  have e : span tc = match ((kids ["tcPr"] tc).flatMap (kids ["gridSpan"])).findSome? (fun g => g.attr (w "val")) with
    | none => 1
    | some text => match pyInt text with
      | .ok n => n
      | .error _ => 0 := rfl
  rw [e] at h ⊢
  cases hf : ((kids ["tcPr"] tc).flatMap (kids ["gridSpan"])).findSome? (fun g => g.attr (w "val")) with
  | none => simp only [Option.getD_none]; decide +kernel
  | some text =>
    rw [hf] at h
    simp only [Option.getD_some] at h ⊢
    cases hp : pyInt text with
    | ok n => rfl
    | error e => rw [hp] at h; simp only at h; omega

theorem vMerge_eq (tc : Node) : vMerge tc = if merges tc = [] then none else some (((merges tc).findSome? (fun v : Node => v.attr (name "val"))).getD "continue") := by
  unfold vMerge nodeOf attrOf
  simp only [select_two]
  show (match (merges tc).head? with
    | none => none
    | some _ => some (((merges tc).findSome? (fun v : Node => v.attr (name "val"))).getD "continue")) = _
  cases h : merges tc with
  | nil => rfl
  | cons a l => simp

theorem vMerge_continue {tc : Node} : continues tc = true ↔ vMerge tc = some "continue" := by
  rw [vMerge_eq]
  unfold continues
  by_cases h : merges tc = []
  · simp [h]
  · simp [h]

theorem vMerge_restart {tc : Node} : restarts tc = true ↔ (vMerge tc = none ∨ vMerge tc = some "restart") := by
  rw [vMerge_eq]
  unfold restarts
  by_cases h : merges tc = []
  · simp [h]
  · simp only [h, decide_false, Bool.false_or, decide_eq_true_eq, if_false, Option.some.injEq, reduceCtorEq, false_or]
    cases (merges tc).findSome? (fun v : Node => v.attr (name "val")) with
    | none => simp
    | some v => simp

/-! ### the rows -/

/-- looks of a table: its own, those of its first columns, those of its first rows -/
structure Looks where
  table : Styles × Option String
  cols : List Styles
  rows : List (Option String × Styles)

/-- the table looks so -/
structure LooksLike (L : Looks) (t : Table Content) : Prop where
  table : (t.styles, t.nature) = L.table
  cols : ∀ (i : Nat) (st : Styles), L.cols[i]? = some st → ∃ (vs : List (View Content)) (v : View Content), t.getViews .col = some vs ∧ vs[i]? = some v ∧ v.nature = none ∧ v.styles = st
  rows : ∀ (i : Nat) (p : Option String × Styles), L.rows[i]? = some p → ∃ (vs : List (View Content)) (v : View Content), t.getViews .row = some vs ∧ vs[i]? = some v ∧ v.nature = p.1 ∧ v.styles = p.2

theorem LooksLike.keep {L : Looks} {t t' : Table Content} (h : LooksLike L t) (h1 : t'.styles = t.styles) (h2 : t'.nature = t.nature)
    (hk : KeepLooks t t') : LooksLike L t' := by
  refine ⟨by rw [h1, h2]; exact h.table, ?_, ?_⟩
  · intro i st hi
    obtain ⟨vs, v, e1, e2, e3, e4⟩ := h.cols i st hi
    obtain ⟨vs', v', e5, e6, e7, e8⟩ := hk _ _ _ _ e1 e2
    exact ⟨vs', v', e5, e6, e7.trans e3, e8.trans e4⟩
  · intro i p hi
    obtain ⟨vs, v, e1, e2, e3, e4⟩ := h.rows i p hi
    obtain ⟨vs', v', e5, e6, e7, e8⟩ := hk _ _ _ _ e1 e2
    exact ⟨vs', v', e5, e6, e7.trans e3, e8.trans e4⟩

theorem keep_seeCols (t : Table Content) : KeepLooks t (t.setViews .col (t.baseViews .col)) := by
  intro ax vs i v h1 h2
  cases ax with
  | row => exact ⟨vs, v, h1, h2, rfl, rfl⟩
  | col => exact ⟨t.baseViews .col, v, rfl, by rw [show t.baseViews .col = vs from baseViews_some h1 t.grid]; exact h2, rfl, rfl⟩

/-- one more row -/
def Looks.add (L : Looks) (p : Option String × Styles) : Looks := { L with rows := L.rows ++ [p] }

theorem LooksLike.add {L : Looks} {t : Table Content} (h : LooksLike L t) {vs : List (View Content)} {v : View Content}
    (h1 : t.getViews .row = some vs) (h2 : vs[L.rows.length]? = some v) : LooksLike (L.add (v.nature, v.styles)) t := by
  refine ⟨h.table, h.cols, ?_⟩
  intro i p hi
  have hi' : (L.rows ++ [(v.nature, v.styles)])[i]? = some p := hi
  by_cases hlt : i < L.rows.length
  · rw [List.getElem?_append_left hlt] at hi'
    exact h.rows i p hi'
  · rw [List.getElem?_append_right (by omega)] at hi'
    have : i - L.rows.length = 0 := by
      rcases Nat.eq_zero_or_pos (i - L.rows.length) with h | h
      · exact h
      · rw [List.getElem?_eq_none (by simp; omega)] at hi'; cases hi'
    rw [this] at hi'
    have e : i = L.rows.length := by omega
    subst e
    cases hi'
    exact ⟨vs, v, h1, h2, rfl, rfl⟩

/-- styles of a row -/
def rowLooks (cfg : Config) (tr : Node) : Styles :=
  match rowHeight cfg tr with
  | .ok h => Dict.update (Dict.update [] h) (rowIns tr)
  | .error _ => []

/-- styles of a column -/
def colLooks (cfg : Config) (c : Node) : Styles :=
  match c.attr (name "w") with
  | none => []
  | some v =>
    match twipsText cfg v with
    | .ok x => [("width", x)]
    | .error _ => []

/-! ### rows which are completed -/

/-- the row, completed with empty cells -/
def pad (W : Nat) (tcs : List Node) : List Node := tcs ++ List.replicate (W - (total tcs).toNat) blank

theorem wanted_pad {content : Node → Option Content} {styles : Node → Styles} (rows : List (String × List Node)) (n : String) (hblank : content blank = none ∧ styles blank = []) {W : Nat} {tcs : List Node} :
    wanted content styles 1 (rows ++ [(n, pad W tcs)]) = wanted content styles 1 (rows ++ [(n, tcs)]) ++
      (List.range (W - (total tcs).toNat)).map (fun (k : Nat) => ⟨none, [], some n, ⟨⟨total tcs + k + 1, 1 + rows.length⟩, ⟨total tcs + k + 1, 1 + rows.length⟩⟩⟩) := by
  unfold pad
  generalize W - (total tcs).toNat = k
  induction k with
  | zero => simp
  | succ k ih =>
    rw [List.replicate_succ', ← List.append_assoc, wanted_new _ _ _ _ _ _ continues_blank, ih, List.range_succ, List.map_append, List.append_assoc]
    congr 2
    rw [total_append, total_blanks, span_blank, hblank.1, hblank.2]
    simp

theorem supported_unpad {W : Nat} {rows : List (List Node)} {tcs : List Node} (h : Supported (rows ++ [pad W tcs])) : Supported (rows ++ [tcs]) := by
  rw [supported_snoc] at h ⊢
  refine ⟨h.1, fun s hs hc => h.2 s ?_ hc⟩
  unfold pad
  rw [place_append]
  exact List.mem_append.mpr (.inl hs)

theorem boxCoords_line (W : Nat) (y : Int) : boxCoords (⟨⟨1, y⟩, ⟨W, y⟩⟩ : Box) = (pyRange 1 ((W : Int) + 1)).map (fun x => ⟨x, y⟩) := by
  unfold boxCoords
  have e : pyRange y (y + 1) = [y] := by
    rw [pyRange_cons _ _ (by omega)]
    have : pyRange (y + 1) (y + 1) = [] := List.eq_nil_of_length_eq_zero (by rw [length_pyRange]; omega)
    rw [this]
  simp only [e]
  simp

/-- inside a row: the cells are the wanted ones -/
def AtRow (L : Looks) (content : Node → Option Content) (styles : Node → Styles) (W : Nat) (rows : List (String × List Node)) (nat : String) (part : List Node) (s : PState) : Prop :=
  ∃ t, s.table = some t ∧ s.rowPos = (rows.length : Int) + 1 ∧ s.colPos = total part ∧ s.row = some ((rows.length : Int) + 1, some nat) ∧
    RowFill W (rows.length + 1) (total part) (some nat) t ∧ t.grid.cells = wanted content styles 1 (rows ++ [(nat, part)]) ∧
    LooksLike L t ∧ L.rows.length = rows.length + 1

/-- between the rows -/
def AtGap (L : Looks) (content : Node → Option Content) (styles : Node → Styles) (W : Nat) (rows : List (String × List Node)) (s : PState) : Prop :=
  ∃ t nat, s.table = some t ∧ s.rowPos = (rows.length : Int) ∧ RowFill W rows.length W nat t ∧ t.grid.cells = wanted content styles 1 rows ∧
    LooksLike L t ∧ L.rows.length = rows.length

theorem tcContent_eq (tc : Node) : (some (.seq ((tcContent tc).map (fun n => some (.node n)))) : Option Content) = paragraphs tc := by
  unfold tcContent paragraphs select
  simp only [List.foldl_cons, List.foldl_nil, List.flatMap_cons, List.flatMap_nil, List.append_nil, List.map_map]
  rfl

theorem runs_tc {L : Looks} {content : Node → Option Content} {styles : Node → Styles} (hcon : ∀ tc, continues tc = false → GoodCell cfg styles tc → content tc = paragraphs tc) {W : Nat} {rows : List (String × List Node)} {nat : String} {part : List Node} {tc : Node} (tr : Node)
    (htag : tc.tag? = some (w "tc")) (hg : GoodCell cfg styles tc) (hpart : ∀ x ∈ part, 1 ≤ span x) (hW : total part + span tc ≤ W)
    (hsup : Supported (rows.map (·.2)))
    (habove : continues tc = true → ∃ row, rows.getLast? = some row ∧ ∃ s ∈ place 0 row.2, s.1 = total part + 1 ∧ span s.2 = span tc) :
    Runs (AtRow L content styles W rows nat part) (AtRow L content styles W rows nat (part ++ [tc])) (loop cfg sect 1 (walk selected (some tr) tc)) := by
  have hne : w "tc" ≠ w "tr" := by decide
  refine runs_elem htag (by simp) (Q := AtRow L content styles W rows nat (part ++ [tc])) (S := AtRow L content styles W rows nat (part ++ [tc])) ?_
    (by rw [loop_quietList _ _ hg.inside]; exact runs_pure) (by unfold onEnd; rw [htag, if_neg (by simpa using hne)]; exact runs_pure)
  have e0 : onStart cfg sect tc = (do PState.nextCol; parseTc cfg tc) := by
    unfold onStart
    simp only [htag, Option.some.injEq]
    rw [if_neg (by decide), if_neg (by decide), if_neg (by decide), if_neg (by decide), if_pos trivial]
  rw [e0]
  rintro ⟨colPos, rowPos, row, table⟩ ⟨t, h1, h2, h3, h4, h5, h6, hL, hLr⟩
  simp only at h1 h2 h3 h4
  subst h1 h2 h3 h4
  have hwide := hg.wide
  have hnn := total_nonneg hpart
  have htot : total (part ++ [tc]) = total part + span tc := by rw [total_append]; simp [total]
  unfold parseTc PState.nextCol
  simp only [bind_run, modify_run, lift_run, tcWidth_ok hwide]
  have hcol : total part + 1 + (span tc - 1) = total part + span tc := by omega
  rw [hcol]
  by_cases hc : continues tc = true
  · have hv := vMerge_continue.mp hc
    rw [hv]
    simp only [reduceCtorEq, Option.some.injEq, false_or, if_true]
    rw [if_neg (by decide)]
    obtain ⟨row, hrow, sl, hsl, hs1, hs2⟩ := habove hc
    obtain ⟨e, he, e1, e2, e3⟩ := wanted_above content styles 1 rows hsup row hrow sl hsl
    have hnone : continuesAt (total part + 1) part = false := by
      unfold continuesAt
      rw [List.any_eq_false]
      intro s hs
      have := (place_le hpart 0 s hs).2.1
      simp only [Bool.and_eq_true, decide_eq_true_eq, not_and]
      intro; omega
    have hmem : e ∈ t.grid.cells := by
      rw [h6, wanted_snoc]
      refine List.mem_append.mpr (.inl (List.mem_map.mpr ⟨e, he, ?_⟩))
      unfold under
      rw [e1, hs1, hnone, if_neg (by simp)]
    obtain ⟨t', ht', hf', k1, k2, k3, hcells⟩ := h5.expand (by omega) hnn (span tc) hwide hW addContent e hmem (by omega)
    unfold continueCell
    simp only [bind_run, get_run, theRow_mk, onTable_mk]
    have earg : ((rows.length + 1 : Nat) : Int) - 1 = (rows.length : Int) + 1 - 1 := by omega
    rw [earg] at ht'
    rw [ht']
    refine ⟨_, rfl, t', rfl, rfl, htot.symm, rfl, by rw [htot]; exact hf', ?_, hL.keep k1 k2 k3, hLr⟩
    rw [wanted_more _ _ _ _ _ _ hc hpart, ← h6, hcells]
    refine List.map_congr_left ?_
    intro x hx
    have hiff : x.box = e.box ↔ x.box.min.x = total part + 1 ∧ x.box.max.y = 1 + rows.length - 1 := by
      constructor
      · intro hb; rw [hb]; omega
      · rintro ⟨x1, x2⟩
        have hxv := h5.inv.grid.valid x hx
        have hev := h5.inv.grid.valid e hmem
        unfold Box.Valid at hxv hev
        rw [disjoint_unique h5.disjoint hx hmem (p := ⟨total part + 1, (rows.length : Int)⟩) (by simp only [InBox]; omega)
          (by simp only [InBox]; omega)]
    by_cases hb : x.box = e.box
    · rw [if_pos hb, if_pos (hiff.mp hb)]; rfl
    · rw [if_neg hb, if_neg (fun h => hb (hiff.mpr h))]
  · have hr : restarts tc = true := by
      rcases hg.kind with h | h
      · exact absurd h hc
      · exact h
    have hv := vMerge_restart.mp hr
    rw [if_pos hv]
    have hc' : continues tc = false := by simpa using hc
    obtain ⟨t', ht', hf', k1, k2, k3, hcells⟩ := h5.insert (by omega) hnn (span tc) hwide hW (paragraphs tc) (some (styles tc))
    unfold newCell
    simp only [bind_run, lift_run, hg.style hc', theRow_mk, onTable_mk, tcContent_eq]
    have earg : ((rows.length + 1 : Nat) : Int) = (rows.length : Int) + 1 := by omega
    rw [earg] at ht' hcells
    rw [ht']
    refine ⟨_, rfl, t', rfl, rfl, htot.symm, rfl, by rw [htot]; exact hf', ?_, hL.keep k1 k2 k3, hLr⟩
    rw [wanted_new _ _ _ _ _ _ hc', ← h6, hcells, hcon tc hc' hg]
    have e1 : (rows.length : Int) + 1 = 1 + rows.length := by omega
    rw [e1]
    rfl

theorem quiet_tag {n : Node} (h : quiet n = true) (nm : String) (hn : nm ∈ ["tblGrid", "gridCol", "tr", "tc"]) : n.tag? ≠ some (name nm) := by
  cases n with
  | elem t a x cs tl =>
    unfold quiet at h
    intro ht
    simp only [Node.tag?, Option.some.injEq] at ht
    subst ht
    have h1 : name nm ∈ ["tblGrid", "gridCol", "tr", "tc"].map name := List.mem_map_of_mem hn
    have h2 : name nm ≠ name "tbl" := by
      intro e
      have : nm = "tbl" := by simpa [name] using e
      subst this
      revert hn; decide
    simp only [h1, h2, decide_true, decide_false, Bool.not_true, Bool.false_and, Bool.or_false, Bool.false_eq_true] at h
  | pi => intro h; cases h
  | comment => intro h; cases h

/-- the child elements of some name among some nodes -/
def named (nm : String) (l : List Node) : List Node := l.filter (fun c => c.tag? ∈ [nm].map (fun x => some (name x)))

theorem named_pos {nm : String} {n : Node} {l : List Node} (h : n.tag? = some (name nm)) : named nm (n :: l) = n :: named nm l := by
  unfold named
  rw [List.filter_cons_of_pos (by simp [h])]

theorem named_neg {nm : String} {n : Node} {l : List Node} (h : n.tag? ≠ some (name nm)) : named nm (n :: l) = named nm l := by
  unfold named
  rw [List.filter_cons_of_neg (by simp [h])]

theorem runs_tcs {L : Looks} {content : Node → Option Content} {styles : Node → Styles} (hcon : ∀ tc, continues tc = false → GoodCell cfg styles tc → content tc = paragraphs tc) {W : Nat} {rows : List (String × List Node)} {nat : String} (tr : Node)
    (hsup : Supported (rows.map (·.2))) : ∀ (cs : List Node) (part : List Node),
    (∀ c ∈ cs, quiet c = true ∨ (c.tag? = some (name "tc") ∧ GoodCell cfg styles c)) → (∀ x ∈ part, 1 ≤ span x) →
    total (part ++ named "tc" cs) ≤ W →
    (∀ s ∈ place 0 (part ++ named "tc" cs), continues s.2 = true → ∃ row, rows.getLast? = some row ∧
      ∃ s' ∈ place 0 row.2, s'.1 = s.1 ∧ span s'.2 = span s.2) →
    Runs (AtRow L content styles W rows nat part) (AtRow L content styles W rows nat (part ++ named "tc" cs)) (loop cfg sect 1 (walkList selected (some tr) cs)) := by
  intro cs
  induction cs with
  | nil => intro part _ _ _ _; rw [show part ++ named "tc" [] = part by simp [named]]; exact runs_pure
  | cons c cs ih =>
    intro part hcs hpart hW habove
    rcases hcs c (by simp) with hq | ⟨ht, hg⟩
    · rw [named_neg (quiet_tag hq "tc" (by simp))] at hW habove ⊢
      refine runs_loop_cons (Q := AtRow L content styles W rows nat part) (by rw [loop_quiet _ _ hq]; exact runs_pure) ?_
      exact ih part (fun x hx => hcs x (by simp [hx])) hpart hW habove
    · rw [named_pos ht] at hW habove ⊢
      have e : part ++ c :: named "tc" cs = (part ++ [c]) ++ named "tc" cs := by simp
      have hrest : 0 ≤ total (named "tc" cs) := by
        refine total_nonneg ?_
        intro x hx
        unfold named at hx
        rw [List.mem_filter] at hx
        rcases hcs x (by simp [hx.1]) with hq | ⟨_, hg'⟩
        · have := quiet_tag hq "tc" (by simp)
          simp [this] at hx
        · exact hg'.wide
      refine runs_loop_cons (Q := AtRow L content styles W rows nat (part ++ [c])) (runs_tc hcon tr ht hg hpart ?_ hsup ?_) ?_
      · rw [e, total_append, total_append] at hW
        simp only [total, List.map_cons, List.map_nil, List.sum_cons, List.sum_nil] at hW hrest ⊢
        omega
      · intro hc
        have := habove (total part + 1, c) (by rw [place_append]; simp [place]) hc
        exact this
      · rw [e] at hW habove ⊢
        refine ih (part ++ [c]) (fun x hx => hcs x (by simp [hx])) ?_ hW habove
        intro x hx
        rcases List.mem_append.mp hx with hx | hx
        · exact hpart x hx
        · rw [List.mem_singleton] at hx; subst hx; exact hg.wide

theorem runs_tr {L : Looks} {content : Node → Option Content} {styles : Node → Styles} (hcon : ∀ tc, continues tc = false → GoodCell cfg styles tc → content tc = paragraphs tc) (hblank : content blank = none ∧ styles blank = []) {nature : Node → String} {W : Nat} (hW : 1 ≤ W) {rows : List (String × List Node)} {tr : Node} (tbl : Node)
    (htag : tr.tag? = some (w "tr")) (hg : ShortRow cfg styles nature W tr)
    (hknown : total (kids ["tc"] tr) = W ∨ 1 ≤ rows.length ∨ L.cols.length = W) (hsup : Supported ((rows.map (·.2)) ++ [kids ["tc"] tr])) :
    Runs (AtGap L content styles W rows) (AtGap (L.add (some (nature tr), rowLooks cfg tr)) content styles W (rows ++ [(nature tr, pad W (kids ["tc"] tr))])) (loop cfg sect 1 (walk selected (some tbl) tr)) := by
  rw [supported_snoc] at hsup
  have e0 : onStart cfg sect tr = (do PState.nextRow; parseTr cfg tr) := by
    unfold onStart
    simp only [htag, Option.some.injEq]
    rw [if_neg (by decide), if_neg (by decide), if_neg (by decide), if_pos trivial]
  refine runs_elem htag (by simp) (Q := AtRow (L.add (some (nature tr), rowLooks cfg tr)) content styles W rows (nature tr) []) (S := AtRow (L.add (some (nature tr), rowLooks cfg tr)) content styles W rows (nature tr) (kids ["tc"] tr)) ?_ ?_ ?_
  · rw [e0]
    rintro ⟨colPos, rowPos, row, table⟩ ⟨t, nat, h1, h2, h3, h4, hL, hLr⟩
    simp only at h1 h2
    subst h1 h2
    obtain ⟨hh, hhe⟩ := hg.height
    obtain ⟨t', ht', hf', hgr, k1, k2, k3, k4⟩ := h3.startRow (nat' := some (nature tr)) (fun v => { v with nature := some (nature tr), styles := Dict.update (Dict.update v.styles hh) (rowIns tr) })
      (fun v => ⟨rfl, rfl, rfl⟩) (fun v => rfl)
    unfold parseTr PState.nextRow
    simp only [bind_run, modify_run, lift_run, hg.nature, hhe, get_run, onTable_mk, ht']
    refine ⟨_, rfl, t', rfl, rfl, rfl, rfl, hf', ?_, ?_, by simp [Looks.add, hLr]⟩
    rotate_left
    · have := (hL.keep k1 k2 k3).add (hf'.started (by omega)) (by rw [hLr]; exact k4)
      have e : rowLooks cfg tr = Dict.update (Dict.update [] hh) (rowIns tr) := by unfold rowLooks; rw [hhe]
      rw [e]
      exact this
    rw [hgr, h4, wanted_snoc]
    simp only [fresh, place, List.filter_nil, List.map_nil, List.append_nil]
    conv => lhs; rw [← List.map_id (wanted content styles 1 rows)]
    refine List.map_congr_left ?_
    intro e _
    simp [under, continuesAt, place]
  · have := runs_tcs hcon (cfg := cfg) (sect := sect) (L := L.add (some (nature tr), rowLooks cfg tr)) (W := W) (nat := nature tr) tr hsup.1 tr.children [] hg.cells (by simp) (by
      have := hg.fits
      rw [List.nil_append]
      show total (kids ["tc"] tr) ≤ W
      omega) (by
      intro s hs hc
      obtain ⟨above, ha, s', hs', e1, e2⟩ := hsup.2 s hs hc
      rw [List.getLast?_map] at ha
      obtain ⟨row, hrow, rfl⟩ := Option.map_eq_some_iff.mp ha
      exact ⟨row, hrow, s', hs', e1, e2⟩)
    exact this
  · rintro ⟨colPos, rowPos, row, table⟩ ⟨t, h1, h2, h3, h4, h5, h6, hL, hLr⟩
    simp only at h1 h2 h3 h4
    subst h1 h2 h3 h4
    have hspan : ∀ x ∈ kids ["tc"] tr, 1 ≤ span x := by
      intro x hx
      unfold kids at hx
      rw [List.mem_filter] at hx
      rcases hg.cells x hx.1 with hq | ⟨_, hgc⟩
      · have := quiet_tag hq "tc" (by simp)
        simp [this] at hx
      · exact hgc.wide
    have hnn := total_nonneg hspan
    have hfits := hg.fits
    have hlen : (t.baseViews .col).length = W := by
      refine h5.colsKnown hW ?_
      rcases hknown with h | h | h
      · exact .inr (.inl ⟨by omega, h⟩)
      · exact .inl (by omega)
      · refine .inr (.inr ?_)
        have hlt : W - 1 < L.cols.length := by omega
        obtain ⟨vs, v, g1, g2, -⟩ := hL.cols (W - 1) _ (List.getElem?_eq_getElem (l := L.cols) hlt)
        have hb : t.baseViews .col = vs := baseViews_some g1 t.grid
        have := (List.getElem?_eq_some_iff.mp g2).1
        rw [hb]; omega
    have hv := Table.views_run .col t h5.inv.grid
    have hbox : Box.make 1 ((rows.length : Int) + 1) (t.baseViews .col).length ((rows.length : Int) + 1) =
        .ok ⟨⟨1, (rows.length : Int) + 1⟩, ⟨W, (rows.length : Int) + 1⟩⟩ := by
      rw [hlen]
      exact make_eq_ok (by omega)
    have h7 := h5.seeCols
    obtain ⟨t', r1, r2, r3, r4, r5, r6⟩ := h7.fillFrom (by omega) _ 1 _ _ rfl (by omega) (by omega) hnn hfits
    have hfill : Table.fillMissing (⟨⟨1, (rows.length : Int) + 1⟩, ⟨W, (rows.length : Int) + 1⟩⟩ : Box) (none : Option Content) none
        (some (nature tr)) (t.setViews .col (t.baseViews .col)) = (.ok (), t') := by
      rw [← r1]
      unfold Table.fillMissing
      rw [boxCoords_line]
      simp only [Int.natCast_add, Int.natCast_one]
    unfold onEnd
    rw [htag, if_pos rfl]
    unfold CalsP.endRow
    simp only [bind_run, get_run, onTable_mk, hv, hbox, lift_run, theRow_mk, hfill]
    refine ⟨_, rfl, _, some (nature tr), rfl, by simp, ?_, ?_⟩
    · simp only [List.length_append, List.length_singleton]
      exact r2
    · refine ⟨?_, (hL.keep (styles_setViews ..) (nature_setViews ..) (keep_seeCols t)).keep r3 r4 r5, by simp [hLr]⟩
      rw [r6, grid_setViews, h6, wanted_pad _ _ hblank]
      congr 1
      refine List.map_congr_left ?_
      intro k _
      have e : ((rows.length + 1 : Nat) : Int) = 1 + rows.length := by omega
      rw [e]

/-! ### the table -/

/-- looks after some rows -/
def rowsLooks (cfg : Config) (L : Looks) (nature : Node → String) (trs : List Node) : Looks :=
  { L with rows := trs.map (fun tr => (some (nature tr), rowLooks cfg tr)) }

theorem rowsLooks_snoc (cfg : Config) (L : Looks) (nature : Node → String) (trs : List Node) (tr : Node) :
    rowsLooks cfg L nature (trs ++ [tr]) = (rowsLooks cfg L nature trs).add (some (nature tr), rowLooks cfg tr) := by
  simp [rowsLooks, Looks.add]

theorem runs_trs {L : Looks} {content : Node → Option Content} {styles : Node → Styles} (hcon : ∀ tc, continues tc = false → GoodCell cfg styles tc → content tc = paragraphs tc) (hblank : content blank = none ∧ styles blank = []) {nature : Node → String} {W : Nat} (hW : 1 ≤ W) (tbl : Node) : ∀ (cs : List Node) (done : List Node),
    (∀ c ∈ cs, quiet c = true ∨ (c.tag? = some (name "tr") ∧ ShortRow cfg styles nature W c)) →
    (∀ tr, (done ++ named "tr" cs).head? = some tr → total (kids ["tc"] tr) = W ∨ L.cols.length = W) →
    Supported ((done ++ named "tr" cs).map (fun tr => pad W (kids ["tc"] tr))) →
    Runs (AtGap (rowsLooks cfg L nature done) content styles W (done.map (fun tr => (nature tr, pad W (kids ["tc"] tr))))) (AtGap (rowsLooks cfg L nature (done ++ named "tr" cs)) content styles W ((done ++ named "tr" cs).map (fun tr => (nature tr, pad W (kids ["tc"] tr)))))
      (loop cfg sect 1 (walkList selected (some tbl) cs)) := by
  intro cs
  induction cs with
  | nil => intro done _ _ _; rw [show done ++ named "tr" [] = done by simp [named]]; exact runs_pure
  | cons c cs ih =>
    intro done hcs hknown hsup
    rcases hcs c (by simp) with hq | ⟨ht, hg⟩
    · rw [named_neg (quiet_tag hq "tr" (by simp))] at hsup hknown ⊢
      refine runs_loop_cons (Q := AtGap (rowsLooks cfg L nature done) content styles W (done.map (fun tr => (nature tr, pad W (kids ["tc"] tr))))) (by rw [loop_quiet _ _ hq]; exact runs_pure) ?_
      exact ih done (fun x hx => hcs x (by simp [hx])) hknown hsup
    · rw [named_pos ht] at hsup hknown ⊢
      have e : done ++ c :: named "tr" cs = (done ++ [c]) ++ named "tr" cs := by simp
      rw [e] at hsup hknown ⊢
      refine runs_loop_cons (Q := AtGap (rowsLooks cfg L nature (done ++ [c])) content styles W ((done ++ [c]).map (fun tr => (nature tr, pad W (kids ["tc"] tr))))) ?_ (ih (done ++ [c]) (fun x hx => hcs x (by simp [hx])) hknown hsup)
      rw [List.map_append, List.map_cons, List.map_nil, rowsLooks_snoc]
      refine runs_tr hcon hblank hW tbl ht hg ?_ ?_
      · cases done with
        | nil => rcases hknown c rfl with h | h
                 · exact .inl h
                 · exact .inr (.inr h)
        | cons d ds => exact .inr (.inl (by simp))
      have hpre : ∀ (m l : List (List Node)), Supported (l ++ m) → Supported l := by
        intro m
        induction m with
        | nil => intro l h; rwa [List.append_nil] at h
        | cons x m ih =>
          intro l h
          rw [show l ++ x :: m = (l ++ [x]) ++ m by simp] at h
          exact ((supported_snoc x l).mp (ih _ h)).1
      rw [List.map_append] at hsup
      have := hpre _ _ hsup
      rw [List.map_map]
      rw [List.map_append, List.map_cons, List.map_nil] at this
      exact supported_unpad this

/-- the description of the columns -/
def AtCols (T : Styles × Option String) (done : List Styles) (s : PState) : Prop :=
  ∃ t, s.table = some t ∧ s.rowPos = 0 ∧ s.colPos = done.length ∧ t.Inv ∧ t.grid.cells = [] ∧ t.rows = none ∧ (t.baseViews .col).length = done.length ∧
    LooksLike ⟨T, done, []⟩ t

theorem runs_gridCol {T : Styles × Option String} {done : List Styles} {e : Node} (p : Node) (htag : e.tag? = some (w "gridCol")) (hq : quietAll e.children = true)
    (hw : ∃ v x, e.attr (name "w") = some v ∧ cfg.float v = .ok x) :
    Runs (AtCols T done) (AtCols T (done ++ [colLooks cfg e])) (loop cfg sect 1 (walk selected (some p) e)) := by
  have e0 : onStart cfg sect e = (do PState.nextCol; parseGridCol cfg e) := by
    unfold onStart
    simp only [htag, Option.some.injEq]
    rw [if_neg (by decide), if_neg (by decide), if_pos trivial]
  have e1 : onEnd e = pure () := by unfold onEnd; rw [htag, if_neg (by decide)]
  refine runs_elem htag (by simp) (Q := AtCols T (done ++ [colLooks cfg e])) (S := AtCols T (done ++ [colLooks cfg e])) ?_
    (by rw [loop_quietList _ _ hq]; exact runs_pure) (by rw [e1]; exact runs_pure)
  rw [e0]
  rintro ⟨colPos, rowPos, row, table⟩ ⟨t, h1, h2, h3, h4, h5, h6, h7, h8⟩
  simp only at h1 h2 h3
  subst h1 h2 h3
  obtain ⟨v, x, hv, hx⟩ := hw
  have hv' : e.attr (w "w") = some v := hv
  generalize hval : (StyleVal.str (String.ofList (Units.format2 (cfg.fl (x / 20)) ++ ['p', 't']))) = width
  have htw : twipsText cfg v = .ok width := by
    unfold twipsText
    rw [hx]; simp only [Except.map, hval]
  have hcl : colLooks cfg e = [("width", width)] := by unfold colLooks; rw [hv]; simp only [htw]
  generalize hi : done.length = i at *
  have hl := grow_length ((i : Int) + 1) (t.baseViews .col)
  have hup := updateAt_pos i (fun v : View Content => { v with styles := Dict.update v.styles [("width", width)] })
    (Views.grow ((i : Int) + 1) (t.baseViews .col)) (by omega)
  have hr := Table.editView_run h4 .col ((i : Int) + 1) (fun v => { v with styles := Dict.update v.styles [("width", width)] })
  have e1 : ((i : Int) + 1 - 1) = (i : Int) := by omega
  rw [e1, hup] at hr
  simp only at hr
  have hinv' := Table.editView_tinv h4 .col ((i : Int) + 1) (fun v => { v with styles := Dict.update v.styles [("width", width)] })
    (fun v => ⟨rfl, rfl, rfl⟩)
  unfold exec at hinv'
  rw [hr] at hinv'
  refine ⟨⟨(i : Int) + 1, 0, row, some _⟩, ?_, _, rfl, rfl, by simp [hi], hinv', ?_, h6, ?_, ?_⟩
  · unfold parseGridCol PState.nextCol
    simp only [bind_run, modify_run, get_run, lift_run, hv', htw, onTable_mk, hr]
  · rw [Table.grid_setViews]; exact h5
  · rw [Table.baseViews_setViews, List.length_modify, List.length_append, hi, List.length_singleton]; omega
  · refine ⟨h8.table, ?_, fun i p h => by simp at h⟩
    intro j st hj
    have hj' : (done ++ [colLooks cfg e])[j]? = some st := hj
    refine ⟨(Views.grow ((i : Int) + 1) (t.baseViews .col)).modify i (fun v => { v with styles := Dict.update v.styles [("width", width)] }), ?_⟩
    by_cases hlt : j < i
    · rw [List.getElem?_append_left (by omega)] at hj'
      obtain ⟨vs, v, g1, g2, g3⟩ := h8.cols j st hj'
      have hb : t.baseViews .col = vs := baseViews_some g1 t.grid
      refine ⟨v, rfl, ?_, g3⟩
      obtain ⟨hlt', hv⟩ := List.getElem?_eq_some_iff.mp g2
      have hne : i ≠ j := by omega
      rw [List.getElem?_modify, List.getElem?_eq_getElem (by omega), grow_getElem, dif_pos (by rw [hb]; exact hlt')]
      simp only [if_neg hne, hb, hv]
      rfl
    · rw [List.getElem?_append_right (by omega)] at hj'
      have : j - done.length = 0 := by
        rcases Nat.eq_zero_or_pos (j - done.length) with h | h
        · exact h
        · rw [List.getElem?_eq_none (by simp; omega)] at hj'; cases hj'
      rw [this] at hj'
      have e : j = i := by omega
      subst e
      simp only [List.getElem?_cons_zero, Option.some.injEq] at hj'
      refine ⟨{ View.new ((j : Int) + 1) with styles := [("width", width)] }, rfl, ?_, rfl, by rw [← hj', hcl]⟩
      rw [List.getElem?_modify, List.getElem?_eq_getElem (by omega), grow_getElem, dif_neg (by omega)]
      simp only [if_true]
      rfl

theorem runs_gridCols {T : Styles × Option String} (g : Node) : ∀ (cs : List Node) (done : List Styles),
    (∀ c ∈ cs, quiet c = true ∨ (c.tag? = some (name "gridCol") ∧ quietAll c.children = true ∧
      ∃ v x, c.attr (name "w") = some v ∧ cfg.float v = .ok x)) →
    Runs (AtCols T done) (AtCols T (done ++ (named "gridCol" cs).map (colLooks cfg))) (loop cfg sect 1 (walkList selected (some g) cs)) := by
  intro cs
  induction cs with
  | nil => intro done _; rw [show done ++ (named "gridCol" []).map (colLooks cfg) = done by simp [named]]; exact runs_pure
  | cons c cs ih =>
    intro done hcs
    rcases hcs c (by simp) with hq | ⟨ht, hq, hw⟩
    · rw [named_neg (quiet_tag hq "gridCol" (by simp))]
      exact runs_loop_cons (Q := AtCols T done) (by rw [loop_quiet _ _ hq]; exact runs_pure) (ih done (fun x hx => hcs x (by simp [hx])))
    · rw [named_pos ht]
      have := ih (done ++ [colLooks cfg c]) (fun x hx => hcs x (by simp [hx]))
      rw [show done ++ (c :: named "gridCol" cs).map (colLooks cfg) = done ++ [colLooks cfg c] ++ (named "gridCol" cs).map (colLooks cfg) by simp]
      exact runs_loop_cons (runs_gridCol g ht hq hw) this

theorem runs_grids {T : Styles × Option String} (tbl : Node) : ∀ (cs : List Node) (done : List Styles),
    (∀ c ∈ cs, quiet c = true ∨ (c.tag? = some (name "tblGrid") ∧ GoodGrid cfg c)) →
    Runs (AtCols T done) (AtCols T (done ++ ((named "tblGrid" cs).flatMap (kids ["gridCol"])).map (colLooks cfg)))
      (loop cfg sect 1 (walkList selected (some tbl) cs)) := by
  intro cs
  induction cs with
  | nil => intro done _; rw [show done ++ ((named "tblGrid" []).flatMap (kids ["gridCol"])).map (colLooks cfg) = done by simp [named]]; exact runs_pure
  | cons c cs ih =>
    intro done hcs
    rcases hcs c (by simp) with hq | ⟨ht, hg⟩
    · rw [named_neg (quiet_tag hq "tblGrid" (by simp))]
      exact runs_loop_cons (Q := AtCols T done) (by rw [loop_quiet _ _ hq]; exact runs_pure) (ih done (fun x hx => hcs x (by simp [hx])))
    · rw [named_pos ht, List.flatMap_cons, List.map_append]
      have := ih (done ++ (kids ["gridCol"] c).map (colLooks cfg)) (fun x hx => hcs x (by simp [hx]))
      rw [← List.append_assoc]
      refine runs_loop_cons ?_ this
      have ht' : c.tag? = some (w "tblGrid") := ht
      have e1 : onEnd c = pure () := by unfold onEnd; rw [ht', if_neg (by decide)]
      have e0 : onStart cfg sect c = pure () := by
        unfold onStart
        simp only [ht', Option.some.injEq]
        rw [if_neg (by decide), if_pos trivial]
      exact runs_elem ht' (by simp) (by rw [e0]; exact runs_pure) (runs_gridCols c c.children done hg.cols) (by rw [e1]; exact runs_pure)

end Benker.Ooxml
