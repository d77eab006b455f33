import Verif.Lemmas.CalsParser
import Verif.Model.FormexParser
import Verif.Model.Ooxml

/-! The tables made by the three parsers come from operations of the API. -/

namespace Benker
open PyM

theorem keeps_forEach {σ β : Type} {P : σ → Prop} {body : β → PyM σ Unit} (h : ∀ b, Keeps P (body b)) : ∀ L : List β, Keeps P (forEach body L)
  | [] => keeps_pure ()
  | b :: L => keeps_bind (h b) (fun _ => keeps_forEach h L)

theorem keeps_newTable {st : Except PyErr Styles} {n : Option String} :
    Keeps (PState.TableIs Table.Reachable) (do
      let styles ← lift st
      let t ← lift (Table.new [] (some styles) n)
      PyM.modify (fun (s : PState) => { s with table := some t }) : PyM PState Unit) := by
  intro s hs
  simp only [bind_run, lift_run, modify_run]
  cases st with
  | error e => exact hs
  | ok st =>
    simp only
    cases h2 : Table.new (γ := Content) [] (some st) n with
    | error e => exact hs
    | ok t =>
      intro t' ht'
      cases ht'
      exact new_reachable h2

/-- the result of a parser whose loop keeps the reachable tables -/
theorem parsed_keeps {m : PyM PState Unit} (hm : Keeps (PState.TableIs Table.Reachable) m) {s s' : PState} {t : Table Content}
    (h : (do
      PState.reset
      m
      let s ← PyM.get
      pure s.table : PyM PState (Option (Table Content))) s = (.ok (some t), s')) : t.Reachable := by
  simp only [bind_run, PState.reset, set_run] at h
  have := hm PState.init (by intro t ht; cases ht)
  cases hr : m PState.init with
  | mk r s1 =>
    rw [hr] at h this
    cases r with
    | error e => cases h
    | ok u =>
      simp only [get_run, pure_run, Prod.mk.injEq, Except.ok.injEq] at h
      exact this t h.1

namespace CalsP
theorem parsed_reachable {cfg : Config} {p : Option Node} {n : Node} {s s' : PState} {t : Table Content}
    (h : parseTable cfg p n s = (.ok (some t), s')) : t.Reachable := parsed_keeps (keeps_loop _ 0) h
end CalsP

namespace FmxP
variable {cfg : Config}

theorem keeps_start (nature : String) (st : Option Styles) : Keeps (PState.TableIs Table.Reachable) (startRow nature st) := by
  unfold startRow
  exact keeps_bind keeps_get (fun _ => keeps_bind (keeps_onTable (keeps_editView _ _ _ (fun v => ⟨rfl, rfl, rfl⟩))) (fun _ => fun s hs => hs))

theorem keeps_insertInRow (c : Option Content) (st : Option Styles) (n : Option String) (w h : Int) :
    Keeps (PState.TableIs Table.Reachable) (insertInRow c st n w h) := by
  unfold insertInRow
  exact keeps_bind keeps_theRow (fun _ => keeps_onTable (keeps_insertCell _ _ _ _ _ _ _))

theorem keeps_title (st : Styles) (n : Node) : Keeps (PState.TableIs Table.Reachable) (titleRow cfg st n) := by
  unfold titleRow
  exact keeps_bind (keeps_start _ _) (fun _ => keeps_bind (keeps_lift _) (fun _ => keeps_bind (keeps_lift _) (fun _ =>
    keeps_bind (keeps_forEach (fun _ => keeps_insertInRow _ _ _ _ _) _) (fun _ => keeps_insertInRow _ _ _ _ _))))

theorem keeps_cell (p : Option Node) (n : Node) : Keeps (PState.TableIs Table.Reachable) (parseCell cfg p n) := by
  unfold parseCell
  exact keeps_bind (keeps_lift _) (fun _ => keeps_bind keeps_theRow (fun _ => keeps_insertInRow _ _ _ _ _))

theorem keeps_colspec (n : Node) : Keeps (PState.TableIs Table.Reachable) (parseColspec cfg n) := by
  unfold parseColspec
  exact keeps_bind keeps_get (fun _ => keeps_bind (keeps_lift _) (fun _ => keeps_onTable (keeps_editView _ _ _ (fun v => ⟨rfl, rfl, rfl⟩))))

theorem keeps_notes (n : Node) : Keeps (PState.TableIs Table.Reachable) (parseNotes cfg n) := by
  unfold parseNotes
  refine keeps_bind (keeps_start _ _) (fun _ => keeps_bind keeps_get (fun s => ?_))
  split
  · exact keeps_raise _
  · refine keeps_bind (keeps_lift _) (fun bb => ?_)
    split
    · exact keeps_raise _
    · exact keeps_insertInRow _ _ _ _ _

theorem keeps_onStart (b : Nat) (p : Option Node) (n : Node) : Keeps (PState.TableIs Table.Reachable) (onStart cfg b p n) := by
  unfold onStart
  split
  · exact keeps_raise _
  · split
    · exact keeps_bind keeps_nextCol (fun _ => keeps_cell p n)
    split
    · exact keeps_bind keeps_nextRow (fun _ => keeps_start _ _)
    split
    · exact keeps_pure ()
    split
    · exact keeps_bind keeps_nextRow (fun _ => keeps_title _ n)
    split
    · exact keeps_bind keeps_nextRow (fun _ => keeps_title _ n)
    split
    · exact keeps_bind keeps_nextCol (fun _ => keeps_colspec n)
    split
    · exact keeps_newTable
    · exact keeps_raise _

theorem keeps_onEnd (p : Option Node) (n : Node) : Keeps (PState.TableIs Table.Reachable) (onEnd cfg p n) := by
  unfold onEnd
  split
  · exact CalsP.keeps_endRow
  split
  · unfold endCorpus
    exact keeps_bind (keeps_forEach (fun n => keeps_bind keeps_nextRow (fun _ => keeps_notes n)) _) (fun _ => keeps_onTable CalsP.keeps_fillHoles)
  · exact keeps_pure ()

theorem keeps_loop : ∀ (es : List Event) (d : Int) (b : Nat), Keeps (PState.TableIs Table.Reachable) (loop cfg d b es)
  | [], _, _ => keeps_pure ()
  | e :: es, d, b => by
    unfold loop
    simp only
    split
    · exact keeps_loop es _ _
    · refine keeps_bind ?_ (fun _ => keeps_loop es _ _)
      unfold onEvent
      split
      · exact keeps_onStart _ _ _
      · exact keeps_onEnd _ _

theorem parsed_reachable {b : Nat} {p : Option Node} {n : Node} {s s' : PState} {t : Table Content}
    (h : parseTable cfg b p n s = (.ok (some t), s')) : t.Reachable := parsed_keeps (keeps_loop _ 0 b) h

end FmxP

namespace Ooxml
variable {cfg : Config}

theorem keeps_expand (v : PyVal) (w h : Int) (f : Content → Content → Except PyErr Content) : Keeps Table.Reachable (Table.expand v w h f) :=
  keeps_op (.grid (.expand v w h f))

theorem keeps_tr (n : Node) : Keeps (PState.TableIs Table.Reachable) (parseTr cfg n) := by
  unfold parseTr
  exact keeps_bind (keeps_lift _) (fun _ => keeps_bind (keeps_lift _) (fun _ => keeps_bind keeps_get (fun _ =>
    keeps_bind (keeps_onTable (keeps_editView _ _ _ (fun v => ⟨rfl, rfl, rfl⟩))) (fun _ => fun s hs => hs))))

theorem keeps_gridCol (n : Node) : Keeps (PState.TableIs Table.Reachable) (parseGridCol cfg n) := by
  unfold parseGridCol
  exact keeps_bind (keeps_lift _) (fun _ => keeps_bind keeps_get (fun _ => keeps_onTable (keeps_editView _ _ _ (fun v => ⟨rfl, rfl, rfl⟩))))

theorem keeps_tc (n : Node) : Keeps (PState.TableIs Table.Reachable) (parseTc cfg n) := by
  unfold parseTc
  refine keeps_bind (keeps_lift _) (fun _ => keeps_bind (fun s hs => hs) (fun _ => ?_))
  split
  · unfold newCell
    exact keeps_bind (keeps_lift _) (fun _ => keeps_bind keeps_theRow (fun _ => keeps_onTable (keeps_insertCell _ _ _ _ _ _ _)))
  split
  · unfold continueCell
    exact keeps_bind keeps_get (fun _ => keeps_bind keeps_theRow (fun _ => keeps_onTable (keeps_expand _ _ _ _)))
  · exact keeps_raise _

theorem keeps_onStart (sect : Option Node) (n : Node) : Keeps (PState.TableIs Table.Reachable) (onStart cfg sect n) := by
  unfold onStart
  split
  · exact keeps_newTable
  split
  · exact keeps_pure ()
  split
  · exact keeps_bind keeps_nextCol (fun _ => keeps_gridCol n)
  split
  · exact keeps_bind keeps_nextRow (fun _ => keeps_tr n)
  split
  · exact keeps_bind keeps_nextCol (fun _ => keeps_tc n)
  · exact keeps_raise _

theorem keeps_loop (sect : Option Node) : ∀ (es : List Event) (d : Int), Keeps (PState.TableIs Table.Reachable) (loop cfg sect d es)
  | [], _ => keeps_pure ()
  | e :: es, d => by
    unfold loop
    simp only
    split
    · exact keeps_loop sect es _
    · refine keeps_bind ?_ (fun _ => keeps_loop sect es _)
      unfold onEvent
      split
      · exact keeps_onStart _ _
      · unfold onEnd
        split
        · exact CalsP.keeps_endRow
        · exact keeps_pure ()

theorem parsed_reachable {sect : Option Node} {n : Node} {s s' : PState} {t : Table Content}
    (h : parseTable cfg sect n s = (.ok (some t), s')) : t.Reachable := parsed_keeps (keeps_loop sect _ 0) h

end Ooxml
end Benker
