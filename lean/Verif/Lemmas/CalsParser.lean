import Verif.Lemmas.Parser

/-! Invariants of the CALS parser. -/

namespace Benker.CalsP
open PyM

variable {cfg : Config}

theorem keeps_tableElem (n : Node) : Keeps (PState.TableIs Table.Reachable) (parseTableElem cfg n) := by
  intro s hs
  unfold parseTableElem
  simp only [bind_run, lift_run, modify_run]
  cases h1 : tableStyles cfg n with
  | error e => exact hs
  | ok st =>
    simp only
    cases h2 : Table.new (γ := Content) [] (some st) (tableNature cfg n) with
    | error e => exact hs
    | ok t =>
      intro t' ht'
      cases ht'
      exact new_reachable h2

theorem keeps_tgroup (n : Node) : Keeps (PState.TableIs Table.Reachable) (parseTgroup cfg n) := by
  apply keeps_onTable
  intro t ht
  exact ht.step (.looks _ _)

theorem keeps_row (p : Option Node) (n : Node) : Keeps (PState.TableIs Table.Reachable) (parseRow cfg p n) := by
  unfold parseRow
  refine keeps_bind (keeps_lift _) (fun _ => keeps_bind keeps_get (fun _ => keeps_bind (keeps_onTable (keeps_editView _ _ _ ?_)) (fun _ => ?_)))
  · intro v; exact ⟨rfl, rfl, rfl⟩
  · exact fun s hs => hs

theorem keeps_entry (n : Node) : Keeps (PState.TableIs Table.Reachable) (parseEntry cfg n) := by
  unfold parseEntry
  exact keeps_bind keeps_get (fun _ => keeps_bind (keeps_lift _) (fun _ => keeps_bind keeps_theRow (fun _ =>
    keeps_onTable (keeps_insertCell _ _ _ _ _ _ _))))

theorem keeps_colspec (p : Option Node) (n : Node) : Keeps (PState.TableIs Table.Reachable) (parseColspec cfg p n) := by
  unfold parseColspec
  exact keeps_bind (keeps_lift _) (fun _ => keeps_bind keeps_get (fun _ => keeps_bind (keeps_lift _) (fun _ =>
    keeps_onTable (keeps_editView _ _ _ (fun v => ⟨rfl, rfl, rfl⟩)))))

theorem keeps_onStart (p : Option Node) (n : Node) : Keeps (PState.TableIs Table.Reachable) (onStart cfg p n) := by
  unfold onStart
  split
  · exact keeps_raise _
  · split
    · exact keeps_bind keeps_nextCol (fun _ => keeps_entry n)
    split
    · exact keeps_bind keeps_nextRow (fun _ => keeps_row p n)
    split
    · exact keeps_pure ()
    split
    · exact keeps_bind keeps_nextCol (fun _ => keeps_colspec p n)
    split
    · exact keeps_tgroup n
    split
    · exact keeps_tableElem n
    · exact keeps_raise _

theorem keeps_endRow : Keeps (PState.TableIs Table.Reachable) endRow := by
  unfold endRow
  exact keeps_bind (keeps_onTable (keeps_views _)) (fun _ => keeps_bind keeps_get (fun _ => keeps_bind (keeps_lift _) (fun _ =>
    keeps_bind keeps_theRow (fun _ => keeps_onTable (keeps_fillMissing _ _ _ _)))))

theorem keeps_fillHoles : Keeps Table.Reachable fillHoles := by
  unfold fillHoles
  refine keeps_bind keeps_get (fun _ => keeps_bind (keeps_lift _) (fun bb => ?_))
  cases bb with
  | none => exact keeps_raise _
  | some b => exact keeps_fillMissing _ _ _ _

theorem keeps_onEnd (n : Node) : Keeps (PState.TableIs Table.Reachable) (onEnd cfg n) := by
  unfold onEnd
  split
  · exact keeps_endRow
  split
  · exact keeps_onTable keeps_fillHoles
  · exact keeps_pure ()

theorem keeps_loop (es : List Event) : ∀ d, Keeps (PState.TableIs Table.Reachable) (loop cfg d es) := by
  induction es with
  | nil => intro d; exact keeps_pure ()
  | cons e es ih =>
    intro d
    unfold loop
    simp only
    split
    · exact ih _
    · refine keeps_bind ?_ (fun _ => ih _)
      unfold onEvent
      split
      · exact keeps_onStart _ _
      · exact keeps_onEnd _

/-! ### the loop and the depth -/

/-- depth after some events -/
def depthAfter (cfg : Config) (d : Int) (es : List Event) : Int := es.foldl (newDepth cfg) d

theorem loop_cons (d : Int) (e : Event) (es : List Event) :
    loop cfg d (e :: es) = if newDepth cfg d e > 1 then loop cfg (newDepth cfg d e) es
      else (onEvent cfg e >>= fun _ => loop cfg (newDepth cfg d e) es) := rfl

theorem loop_append (b : List Event) : ∀ (a : List Event) (d : Int),
    loop cfg d (a ++ b) = (loop cfg d a >>= fun _ => loop cfg (depthAfter cfg d a) b) := by
  intro a
  induction a with
  | nil => intro d; rfl
  | cons e es ih =>
    intro d
    rw [List.cons_append, loop_cons, loop_cons]
    split
    · rw [ih]; rfl
    · rw [ih]
      funext s
      simp only [bind_run]
      cases onEvent cfg e s with
      | mk r s' => cases r <;> rfl

mutual
theorem depth_walk (sel : QName → Bool) (p : Option Node) (d : Int) : ∀ n : Node, depthAfter cfg d (walk sel p n) = d
  | .elem t a x cs tl => by
    unfold walk depthAfter
    simp only [List.foldl_append]
    have ih := fun d => depth_walkList sel (some (.elem t a x cs tl)) d cs
    unfold depthAfter at ih
    rw [ih]
    by_cases hs : sel t = true
    · simp only [hs, if_true, List.foldl_cons, List.foldl_nil, newDepth, Bool.false_eq_true, if_false]
      split <;> omega
    · simp [hs]
  | .pi .. => rfl
  | .comment .. => rfl
theorem depth_walkList (sel : QName → Bool) (p : Option Node) (d : Int) : ∀ ns : List Node, depthAfter cfg d (walkList sel p ns) = d
  | [] => rfl
  | n :: ns => by
    have h1 := depth_walk sel p d n
    have h2 := depth_walkList sel p d ns
    unfold depthAfter at *
    rw [walkList, List.foldl_append, h1, h2]
end

theorem selected_q (name : String) (h : name ∈ ["table", "tgroup", "colspec", "thead", "tfoot", "tbody", "row", "entry"]) :
    selected cfg (cfg.q name) = true := by
  unfold selected
  exact decide_eq_true (List.mem_map_of_mem h)

/-- the events of a table: its start, what is inside, its end -/
theorem walk_table {n : Node} (p : Option Node) (hn : n.tag? = some (cfg.q "table")) :
    walk (selected cfg) p n = ⟨true, n, p⟩ :: (walkList (selected cfg) (some n) n.children ++ [⟨false, n, p⟩]) := by
  cases n with
  | elem t a x cs tl =>
    simp only [Node.tag?, Option.some.injEq] at hn
    unfold walk
    simp [hn, selected_q, Node.children]
  | pi => cases hn
  | comment => cases hn

/-- a table which is a success ends with the filling of the bounding box -/
theorem parseTable_run (p : Option Node) {n : Node} (hn : n.tag? = some (cfg.q "table")) (s : PState) :
    parseTable cfg p n s =
      (do
        parseTableElem cfg n
        loop cfg 1 (walkList (selected cfg) (some n) n.children)
        PState.onTable fillHoles
        let s ← PyM.get
        pure s.table) PState.init := by
  unfold parseTable PState.reset
  rw [walk_table p hn]
  have e0 : newDepth cfg 0 ⟨true, n, p⟩ = 1 := by simp [newDepth, hn]
  have est : onStart cfg p n = parseTableElem cfg n := by
    simp [onStart, hn, Config.q]
  have een : onEnd cfg n = PState.onTable fillHoles := by
    simp [onEnd, hn, Config.q]
  have e1 : loop cfg 1 (walkList (selected cfg) (some n) n.children ++ [⟨false, n, p⟩]) = (do
        loop cfg 1 (walkList (selected cfg) (some n) n.children)
        PState.onTable fillHoles) := by
    rw [loop_append, depth_walkList]
    have : loop cfg 1 [⟨false, n, p⟩] = PState.onTable fillHoles := by
      rw [loop_cons]
      simp only [newDepth, hn, if_true, Bool.false_eq_true, if_false, onEvent, een]
      funext s
      simp [loop, bind_run]
      cases PState.onTable fillHoles s with
      | mk r s' => cases r <;> rfl
    rw [this]
  rw [loop_cons, e0, e1]
  simp only [onEvent, est, if_true]
  simp only [bind_run, set_run]
  rw [if_neg (by decide)]
  simp only [bind_run]
  cases parseTableElem cfg n PState.init with
  | mk r s1 =>
    cases r with
    | error e => rfl
    | ok u =>
      simp only
      cases loop cfg 1 (walkList (selected cfg) (some n) n.children) s1 with
      | mk r s2 => cases r <;> rfl

end Benker.CalsP
