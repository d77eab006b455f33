import Verif.Lemmas.FormexText
import Verif.Lemmas.FormexFinalised
import Verif.Props.FormexBuilder

/-! C78: the text of a Formex document through its finalisation. -/

namespace Benker
open FmxSpec Fmx CalsSpec PyM

/-- When no table is the child of a table, when no row of notes has rows inside except in its first cell (see C105), and when the footer rows and the title rows have their text in the cell which is kept, the finalisation of a
document keeps its text in order, except that the text of the footer rows of a table is moved just before its first `CORPUS`. -/
theorem C78_text_kept_partial (cfg : Fmx.Config) (root out : Node) (htidy : FmxSpec.Tidy (cfg.q "rowstyle") false false root) (hnotes : NotesApart root)
    (h : finalize cfg root = .ok out) :
    charsOf (toks out) = bodyText root ∧ (bodyText root).Perm (charsOf (toks root)) ∧ (NoFooter root → charsOf (toks out) = charsOf (toks root)) := by
  have hq : ∀ s, s ≠ "rowstyle" → cfg.q "rowstyle" ≠ name s := by
    intro s hs e
    exact hs (congrArg QName.name e).symm
  unfold finalize at h
  simp only at h
  rw [C51_cleanup_neutral root (tidy_noChild _ _ _ root htidy)] at h
  obtain ⟨x, hx, h⟩ := bind_ok h
  obtain ⟨y, hy, h⟩ := bind_ok h
  cases h
  have hty : FmxSpec.Tidy (cfg.q "rowstyle") false false (updateNoSeq root) := by
    rw [← tidy_without _ (hq "NO.SEQ" (by decide)), C51_rest_unchanged, tidy_without _ (hq "NO.SEQ" (by decide))]
    exact htidy
  have hbody : bodyText (updateNoSeq root) = bodyText root := by
    rw [← (body_without (updateNoSeq root)).1, C51_rest_unchanged, (body_without root).1]
  have hchars : nodeChars (updateNoSeq root) = nodeChars root := by
    rw [← nodeChars_without (updateNoSeq root), C51_rest_unchanged, nodeChars_without]
  have hap := notesApart_before hnotes
  rw [C51_cleanup_neutral root (tidy_noChild _ _ _ root htidy)] at hap
  rw [extractGrNotes_apart hap] at hx
  obtain ⟨⟨l, ks⟩, h1, hx⟩ := bind_ok hx
  obtain ⟨e1, e2, e3, _⟩ := extractedAs (cfg.q "rowstyle") (hq "TYPE" (by decide)) (updateNoSeq root) false false l ks hty h1
  have hperm := body_perm (cfg.q "rowstyle") false false (updateNoSeq root) hty l ks h1
  simp only at hx
  split at hx
  · cases hx
    have hy' := (groupedAs cfg x).1 false y e3.1 hy
    have hout : nodeChars (dropNode cfg false y) = bodyText root := by rw [nodeChars_drop, hy', ← listChars_one, e1, hbody]
    refine ⟨hout, ?_, fun hno => hout.trans (noFooter_body root hno).1⟩
    rw [← e2, hbody, List.flatMap_nil, List.append_nil] at hperm
    rw [hchars] at hperm
    exact hperm
  · cases hx

/-- A table which is the child of a table is replaced by its children, in its place: the text is kept, in order, unless there is text directly in such a
table or after it. -/
theorem C78_tables_in_tables_partial (root : Node) (h : InnerTidy false root) :
    charsOf (toks (cleanupNode (updateNoSeq root))) = charsOf (toks root) := by
  have hnum : ∀ (pre : List Nat) (k : Nat) (b : Bool) (n : Node), InnerTidy b n → InnerTidy b (num pre k n).1 := by
    have hgo : ∀ (m : Nat) (pre : List Nat) (k : Nat) (b : Bool), (∀ n, sizeOf n < m → InnerTidy b n → InnerTidy b (num pre k n).1) ∧
        (∀ ns, sizeOf ns < m → InnerTidyList b ns → InnerTidyList b (numList pre k ns).1) := by
      intro m
      induction m with
      | zero => exact fun _ _ _ => ⟨fun _ h => by omega, fun _ h => by omega⟩
      | succ m ih =>
        intro pre k b
        refine ⟨?_, ?_⟩
        · intro n hs hi
          cases n with
          | elem t a x cs tl =>
            unfold InnerTidy at hi
            have hsz : sizeOf cs < m := by simp at hs; omega
            unfold num
            split
            · exact ⟨hi.1, (ih _ _ _).2 cs hsz hi.2⟩
            · exact ⟨hi.1, (ih _ _ _).2 cs hsz hi.2⟩
          | pi => exact hi
          | comment => exact hi
        · intro ns hs hi
          cases ns with
          | nil => exact hi
          | cons n ns =>
            unfold InnerTidyList at hi
            simp at hs
            unfold numList
            exact ⟨(ih _ _ _).1 n (by omega) hi.1, (ih _ _ _).2 ns (by omega) hi.2⟩
    exact fun pre k b n => (hgo (sizeOf n + 1) pre k b).1 n (by omega)
  have hi : InnerTidy false (updateNoSeq root) := by rw [updateNoSeq_num]; exact hnum _ _ _ _ h
  have := nodeChars_cleanup false (updateNoSeq root) hi
  show nodeChars _ = nodeChars _
  rw [this, ← nodeChars_without (updateNoSeq root), C51_rest_unchanged, nodeChars_without]

/-- a document with a title row, an ordinary row which contains another table, and a footer row -/
def textDemo : Node :=
  let cell := fun (s : Option String) (cs : List Node) => Node.elem (name "CELL") [] s cs none
  .elem (name "DOC") [] (some "before ")
    [.elem (name "TBL") [] none
      [.elem (name "TITLE") [] (some "T ") [] none,
       .elem (name "CORPUS") [] none
        [.elem (name "ROW") [(⟨none, "rowstyle"⟩, "TI.BLK-level1")] none [cell none [], cell (some "head ") [], cell none []] none,
         .elem (name "ROW") [] none [cell (some "a ") [.elem (name "TBL") [] none [.elem (name "CORPUS") [] (some "in ") [] none] (some "b ")]] none,
         .elem (name "ROW") [(name "TYPE", "__GR.NOTES__")] none [cell (some "note ") []] none] none]
      (some "after")] none

theorem textDemo_tidy : FmxSpec.Tidy (blockCfg.q "rowstyle") false false textDemo := by
  have hnone : ¬ TitleStyle none := by rintro ⟨_, _, _, _, e, _⟩; cases e
  have q1 : blockCfg.q "rowstyle" = ⟨none, "rowstyle"⟩ := rfl
  rw [q1]
  simp only [textDemo, FmxSpec.Tidy, FmxSpec.TidyList, IsFooter, name, Dict.get?, QName.mk.injEq, true_and, and_true]
  simp [hnone]
  refine ⟨?_, ?_⟩
  · intro _
    refine ⟨rfl, rfl, [.elem ⟨none, "CELL"⟩ [] none [] none], .elem ⟨none, "CELL"⟩ [] (some "head ") [] none, [.elem ⟨none, "CELL"⟩ [] none [] none], rfl, rfl, rfl, ?_, ?_⟩
    · intro d hd
      simp only [List.mem_singleton] at hd
      subst hd
      refine ⟨rfl, fun _ => ?_⟩
      rintro (h | ⟨c, hc, _⟩)
      · exact h (by decide)
      · cases hc
    · intro d hd
      simp only [List.mem_singleton] at hd
      subst hd
      rfl
  · refine ⟨rfl, rfl, [], .elem ⟨none, "CELL"⟩ [] (some "note ") [] none, [], rfl, rfl, rfl, by simp, by simp⟩

/-- the hypotheses of `C78_text_kept_partial` hold of this document, and the note is moved -/
example : FmxSpec.Tidy (blockCfg.q "rowstyle") false false textDemo ∧ NotesApart textDemo ∧ bodyText textDemo = "before T note head a in b after".toList ∧
    charsOf (toks textDemo) = "before T head a in b note after".toList ∧
    (finalize blockCfg textDemo).map (fun n => charsOf (toks n)) = .ok "before T note head a in b after".toList := by
  refine ⟨textDemo_tidy, by decide +kernel, by decide +kernel, by decide +kernel, by decide +kernel⟩

example : InnerTidy false (.elem (name "TBL") [] none [.elem (name "TITLE") [] (some "a") [] none,
      .elem (name "TBL") [] none [.elem (name "CORPUS") [] (some "b") [] none] none, .elem (name "CORPUS") [] (some "c") [] none] none) ∧
    ∀ root, root = .elem (name "TBL") [] none [.elem (name "TITLE") [] (some "a") [] none,
      .elem (name "TBL") [] none [.elem (name "CORPUS") [] (some "b") [] none] none, .elem (name "CORPUS") [] (some "c") [] none] none →
      charsOf (toks (cleanupNode (updateNoSeq root))) = "abc".toList := by
  refine ⟨by simp [InnerTidy, InnerTidyList, name, chars], ?_⟩
  rintro _ rfl
  decide +kernel

/-- a row of two cells; the first one is `first`, the text of the second is `second` -/
def twoCells (nature style : Option String) (first : Option Content) (second : String) : Table Content :=
  Table.runFrom ⟨[], none, ⟨[]⟩, none, none⟩
    [.access .row, .access .col,
     .grid (.set (.tuple [.int 1, .int 1]) ⟨first, none, none, 1, 1, 1, 1⟩),
     .grid (.set (.tuple [.int 2, .int 1]) ⟨some (.text second), none, none, 1, 1, 1, 1⟩),
     .setNature .row 1 nature,
     .setStyles .row 1 (style.map (fun s => [("rowstyle", .str s)]))]

theorem twoCells_reachable (nature style : Option String) (first : Option Content) (second : String) : (twoCells nature style first second).Reachable :=
  ⟨[], none, none, _, _, by simp, rfl, rfl⟩

/-- the text of the document which the builder makes of a table, finalised -/
def finalText (cfg : Fmx.Config) (t : Table Content) : Except PyErr (List Char) := do
  let n ← eval (Fmx.generate cfg 1) t
  let out ← finalize cfg (.elem (name "DOC") [] none [n] none)
  pure (charsOf (toks out))

/-- **The finalisation loses text**: of a title row whose first cell is empty - the builder writes `<IE/>` in it, which is taken for a content -, of a
title row with two texts, of a footer row with two cells, and the text which follows a table directly inside another one. -/
theorem C78_counterexample :
    finalText blockCfg (twoCells none (some "TI.BLK") none "Title") = .ok [] ∧
    finalText blockCfg (twoCells none (some "TI.BLK") (some (.text "one")) "two") = .ok "one".toList ∧
    finalText blockCfg (twoCells (some "footer") none (some (.text "n1")) "n2") = .ok "n1".toList ∧
    finalText blockCfg (twoCells none none (some (.text "a")) "b") = .ok "ab".toList ∧
    ((finalize blockCfg (.elem (name "TBL") [] none
      [.elem (name "TBL") [] none [.elem (name "P") [] (some "in ") [] none] (some "after")] none)).map (fun n => charsOf (toks n))) = .ok "in ".toList := by
  refine ⟨by decide +kernel, by decide +kernel, by decide +kernel, by decide +kernel, by decide +kernel⟩

end Benker
