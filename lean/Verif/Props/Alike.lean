import Verif.Lemmas.WordAlike
import Verif.Props.CalsDoc
import Verif.Props.FormexDoc
import Verif.Props.OoxmlMerge
import Verif.Model.Converter
import Verif.Model.Formex2Cals

/-! C107: documents which tell the same give the same table, or are refused with the same exception. -/

namespace Benker
open PyM CalsSpec FmxSpec DocSpec

/-- CALS tables which tell the same: the parser does the same, whatever its state -/
theorem C107_cals (pc : CalsP.Config) (p p' : Option Node) (n n' : Node) (hp : OptAlike (cals pc.ns) p p') (h : Alike (cals pc.ns) n n') :
    CalsP.parseTable pc p n = CalsP.parseTable pc p' n' := by
  unfold CalsP.parseTable
  rw [loop_alike (walk_alike cals_inert h hp)]

/-- Formex tables which tell the same: the parser does the same, whatever its state -/
theorem C107_formex (pc : FmxP.Config) (blk : Nat) (p p' : Option Node) (n n' : Node) (hp : OptAlike (formex pc.ns pc.calsNs) p p')
    (h : Alike (formex pc.ns pc.calsNs) n n') : FmxP.parseTable pc blk p n = FmxP.parseTable pc blk p' n' := by
  unfold FmxP.parseTable
  rw [fmxLoop_alike (walk_alike formex_inert h hp)]

/-- Word tables which tell the same, in sections which tell the same: the parser does the same, whatever its state -/
theorem C107_word (pc : Ooxml.Config) (sect sect' : Option Node) (n n' : Node) (hs : OptAlike word sect sect') (h : Alike word n n') :
    Ooxml.parseTable pc sect n = Ooxml.parseTable pc sect' n' := by
  unfold Ooxml.parseTable
  rw [wordLoop_alike pc hs (walk_alike word_inert h .none)]

/-- CALS tables which tell the same are converted to the same Formex table -/
theorem C107_cals_to_formex (pc : CalsP.Config) (b : Fmx.Config) (following following' : List Node) (n n' : Node) (h : Alike (cals pc.ns) n n') :
    (Convert.cals2formex pc b).convert following n = (Convert.cals2formex pc b).convert following' n' := by
  show Convert.thenGenerate (eval (CalsP.parseTable pc none n) PState.init) _ = Convert.thenGenerate (eval (CalsP.parseTable pc none n') PState.init) _
  rw [C107_cals pc none none n n' .none h]

/-- Formex tables which tell the same are converted to the same CALS table -/
theorem C107_formex_to_cals (c : Fmx2Cals.Config) (blk : Nat) (p p' : Option Node) (n n' : Node)
    (hp : OptAlike (formex c.parser.ns c.parser.calsNs) p p') (h : Alike (formex c.parser.ns c.parser.calsNs) n n') :
    Fmx2Cals.convert c blk p n = Fmx2Cals.convert c blk p' n' := by
  unfold Fmx2Cals.convert
  rw [C107_formex c.parser blk p p' n n' hp h]

/-- Word tables which tell the same, in sections which tell the same, are converted to the same CALS table -/
theorem C107_word_to_cals (pc : Ooxml.Config) (b : Cals.Config) (following following' : List Node) (n n' : Node)
    (hs : OptAlike word (Convert.firstSectList following) (Convert.firstSectList following')) (h : Alike word n n') :
    (Convert.ooxml2cals pc b).convert following n = (Convert.ooxml2cals pc b).convert following' n' := by
  show Convert.thenGenerate (eval (Ooxml.parseTable pc _ n) PState.init) _ = Convert.thenGenerate (eval (Ooxml.parseTable pc _ n') PState.init) _
  rw [C107_word pc _ _ n n' hs h]

/-- Word tables which tell the same, in sections which tell the same, are converted to the same Formex table -/
theorem C107_word_to_formex (pc : Ooxml.Config) (b : Fmx.Config) (following following' : List Node) (n n' : Node)
    (hs : OptAlike word (Convert.firstSectList following) (Convert.firstSectList following')) (h : Alike word n n') :
    (Convert.ooxml2formex pc b).convert following n = (Convert.ooxml2formex pc b).convert following' n' := by
  show Convert.thenGenerate (eval (Ooxml.parseTable pc _ n) PState.init) _ = Convert.thenGenerate (eval (Ooxml.parseTable pc _ n') PState.init) _
  rw [C107_word pc _ _ n n' hs h]

/-! ### non-vacuity -/

/-- are two values the same number? -/
def sameNumber (reads : String → Except PyErr Int) : Option String → Option String → Bool
  | none, none => true
  | some s, some s' => decide (s = s') || (decide (s ≠ "") && decide (s' ≠ "") && (match reads s, reads s' with
    | .ok n, .ok n' => decide (n = n')
    | _, _ => false))
  | _, _ => false

theorem sameNumber_of {reads : String → Except PyErr Int} {Reads : String → Int → Prop} (hr : ∀ s n, reads s = .ok n → Reads s n) {v v' : Option String}
    (h : sameNumber reads v v' = true) : SameNumber Reads v v' := by
  cases v with
  | none => cases v' with
    | none => exact .inl rfl
    | some _ => cases h
  | some s => cases v' with
    | none => cases h
    | some s' =>
      simp only [sameNumber, Bool.or_eq_true, Bool.and_eq_true, decide_eq_true_eq] at h
      rcases h with rfl | ⟨⟨h1, h2⟩, h3⟩
      · exact .inl rfl
      · cases e : reads s with
        | error _ => simp [e] at h3
        | ok n =>
          cases e' : reads s' with
          | error _ => simp [e, e'] at h3
          | ok n' =>
            simp only [e, e', decide_eq_true_eq] at h3
            exact .inr ⟨s, s', n, rfl, rfl, h1, h2, hr _ _ e, hr _ _ (h3 ▸ e')⟩

theorem sameCals_of {ns : Option String} {a a' : Dict QName String}
    (h : calsWords.all (fun k => decide (Dict.get? a ⟨ns, k⟩ = Dict.get? a' ⟨ns, k⟩)) &&
      ["namest", "nameend"].all (fun k => sameNumber firstInt (Dict.get? a ⟨ns, k⟩) (Dict.get? a' ⟨ns, k⟩)) &&
      ["morerows", "colnum"].all (fun k => sameNumber pyInt (Dict.get? a ⟨ns, k⟩) (Dict.get? a' ⟨ns, k⟩)) = true) : SameCals ns a a' := by
  simp only [Bool.and_eq_true, List.all_eq_true, decide_eq_true_eq] at h
  exact ⟨h.1.1, fun k hk => sameNumber_of (fun _ _ => firstInt_ok) (h.1.2 k hk), fun k hk => sameNumber_of (fun _ _ => pyInt_iff.mp) (h.2 k hk)⟩

theorem sameFormex_of {ns cals : Option String} {a a' : Dict QName String} (hc : SameCals cals a a')
    (h : ["TYPE", "PAGE.SIZE", "CLASS"].all (fun k => decide (Dict.get? a ⟨ns, k⟩ = Dict.get? a' ⟨ns, k⟩)) &&
      ["COLSPAN", "ROWSPAN", "COL.START", "COL.END"].all (fun k => sameNumber pyInt (Dict.get? a ⟨ns, k⟩) (Dict.get? a' ⟨ns, k⟩)) = true) : SameFormex ns cals a a' := by
  simp only [Bool.and_eq_true, List.all_eq_true, decide_eq_true_eq] at h
  exact ⟨hc, h.1, fun k hk => sameNumber_of (fun _ _ => pyInt_iff.mp) (h.2 k hk)⟩

/-- spaces around, ` 1` for `1`, `column 3 (last)` for `col03`, an attribute which nobody knows, a comment, a processing instruction and an element of
another vocabulary -/
def alikeE3 : Node := .elem (qn "entry") [(qn "id", "x"), (qn "morerows", " +1"), (qn "bgcolor", "red")] none [] (some "\n")
def alikeE4 : Node := .elem (qn "entry") [(qn "nameend", "column 3 (last)"), (qn "namest", "2nd")] (some "d") [] (some "\n")
def alikeR2 : Node := .elem (qn "row") [(qn "rowstyle", "x"), (qn "valign", "bottom")] (some "\n")
  [.comment "here" (some " "), alikeE3, .elem (cq "entry") [] (some "no") [] none, alikeE4] (some "\n")
def alikeBody : Node := .elem (qn "tbody") [(qn "valign", "top")] (some "\n ") [alikeR2, .pi "page" "break" none, docR3] (some "\n")
def alikeTg : Node := .elem (qn "tgroup") [(qn "colsep", "1"), (qn "tgroupstyle", "z")] (some "\n") [docC1, docC2, docHead, alikeBody] none
def alikeTable : Node := .elem (qn "table") [(qn "id", "t"), (qn "frame", "topbot"), (qn "tabstyle", "x y"), (qn "width", "10cm")] none [alikeTg] (some "end")

theorem alike_demo : Alike (cals none) docTable alikeTable := by
  have no : ∀ n : Node, (∀ tk ∈ toksList [n], (match tk with
    | .opening t _ => decide (t.name ∉ ["table", "tgroup", "colspec", "thead", "tfoot", "tbody", "row", "entry"])
    | _ => true) = true) → NoCals none [n] := fun n h => noCals_of h
  have hin : ∀ {s : String}, s ≠ "entry" → ¬ (cals none).content (qn s) := fun hs he => hs (congrArg QName.name he)
  refine .inside _ _ _ _ _ _ _ _ _ (hin (by decide)) id (sameCals_of (by decide +kernel)) ?_
  refine .left _ _ _ (no _ (by decide +kernel)) (.cons _ _ _ _ ?_ .nil)
  refine .inside _ _ _ _ _ _ _ _ _ (hin (by decide)) id (sameCals_of (by decide +kernel)) ?_
  refine .cons _ _ _ _ (.same _) (.cons _ _ _ _ (.same _) (.cons _ _ _ _ (.same _) (.cons _ _ _ _ ?_ .nil)))
  refine .inside _ _ _ _ _ _ _ _ _ (hin (by decide)) id (sameCals_of (by decide +kernel)) ?_
  refine .left _ _ _ (no _ (by decide +kernel)) (.cons _ _ _ _ ?_ (.right _ _ _ (no _ (by decide +kernel)) (.cons _ _ _ _ (.same _) .nil)))
  refine .inside _ _ _ _ _ _ _ _ _ (hin (by decide)) id (sameCals_of (by decide +kernel)) ?_
  refine .right _ _ _ (no _ (by decide +kernel)) (.cons _ _ _ _ ?_ (.right _ _ _ ?_ (.cons _ _ _ _ ?_ .nil)))
  · exact .cell _ _ _ _ _ _ _ rfl id (sameCals_of (by decide +kernel))
  · intro t a ht hns
    have hall : ∀ tk ∈ toksList [Node.elem (cq "entry") [] (some "no") [] none], (match tk with
      | .opening t _ => decide (t.ns = some "c")
      | _ => true) = true := by decide +kernel
    have := hall _ ht
    simp only [decide_eq_true_eq] at this
    rw [this] at hns
    cases hns
  · exact .cell _ _ _ _ _ _ _ rfl id (sameCals_of (by decide +kernel))

/-- the two documents are accepted, and give the same table of six cells -/
example (pc : CalsP.Config) (hns : pc.ns = none) : CalsP.parseTable pc none docTable = CalsP.parseTable pc none alikeTable :=
  C107_cals pc none none _ _ .none (by rw [hns]; exact alike_demo)

example : (eval (CalsP.parseTable ⟨none, ['m', 'm'], id⟩ none alikeTable) PState.init).map (Option.map (fun t => t.cells.length)) = .ok (some 6) := by decide +kernel

/-- a number which is another one is another table: the hypothesis matters -/
example : (eval (CalsP.parseTable ⟨none, [], id⟩ none
    (.elem (qn "table") [] none [.elem (qn "tgroup") [] none [.elem (qn "tbody") [] none [.elem (qn "row") [] none
      [.elem (qn "entry") [(qn "morerows", "1")] none [] none] none] none] none] none)) PState.init).map (Option.map (fun t => t.cells.map (·.box.max))) ≠
    (eval (CalsP.parseTable ⟨none, [], id⟩ none
    (.elem (qn "table") [] none [.elem (qn "tgroup") [] none [.elem (qn "tbody") [] none [.elem (qn "row") [] none
      [.elem (qn "entry") [(qn "morerows", "2")] none [] none] none] none] none] none)) PState.init).map (Option.map (fun t => t.cells.map (·.box.max))) := by
  decide +kernel

def alikeA : Node := .elem (qn "CELL") [(qn "COL", "one"), (qn "COLSPAN", "02"), (qn "TYPE", "HEADER")] (some "a") [] (some "\n")
def alikeR1 : Node := .elem (qn "ROW") [(qn "TYPE", "HEADER"), (cq "valign", "middle")] (some "\n") [alikeA, fmxB] (some "\n")
def alikeT : Node := .elem (qn "TI.BLK") [(qn "COL.START", " 2 "), (qn "COL.END", "+3")] none [.elem (qn "P") [] (some "Title") [] none] (some "\n")
def alikeBlk : Node := .elem (qn "BLK") [] (some "\n") [alikeT, .comment "rows" none, fmxInner] none
def alikeCorpus : Node := .elem (qn "CORPUS") [(cq "frame", "topbot"), (cq "tabstyle", "x")] (some "\n") [fmxC1, fmxC2, alikeR1, alikeBlk] (some "\n")
def alikeTbl : Node := .elem (qn "TBL") [(qn "NO.SEQ", "0001"), (qn "CLASS", "GEN"), (qn "PAGE.SIZE", "SINGLE.LANDSCAPE")] (some "\n") [fmxN, alikeCorpus] none

theorem alike_corpus : Alike (formex none (some "c")) fmxCorpus alikeCorpus := by
  have no : ∀ n : Node, (∀ tk ∈ toksList [n], (match tk with
    | .opening t _ => decide (t.name ∉ ["CORPUS", "ROW", "CELL", "MARGIN", "BLK", "TI.BLK", "STI.BLK", "colspec"])
    | _ => true) = true) → NoFmx none (some "c") [n] := fun n h => noFmx_of h
  have hin : ∀ {s : String}, s ∉ ["CELL", "TI.BLK", "STI.BLK"] → ¬ (formex none (some "c")).content (qn s) := by
    intro s hs he
    obtain ⟨k, hk, e⟩ := List.mem_map.mp he
    have e : k = s := congrArg QName.name e
    exact hs (e ▸ hk)
  have hw : ∀ {s : String}, s ≠ "GR.NOTES" → ¬ (formex none (some "c")).whole (qn s) := fun hs he => hs (congrArg QName.name he)
  have hcon : ∀ {s : String}, s ∈ ["CELL", "TI.BLK", "STI.BLK"] → (formex none (some "c")).content (qn s) := fun hs => List.mem_map.mpr ⟨_, hs, rfl⟩
  refine .inside _ _ _ _ _ _ _ _ _ (hin (by decide)) (hw (by decide)) (sameFormex_of (sameCals_of (by decide +kernel)) (by decide +kernel)) ?_
  refine .cons _ _ _ _ (.same _) (.cons _ _ _ _ (.same _) (.cons _ _ _ _ ?_ (.cons _ _ _ _ ?_ .nil)))
  · refine .inside _ _ _ _ _ _ _ _ _ (hin (by decide)) (hw (by decide)) (sameFormex_of (sameCals_of (by decide +kernel)) (by decide +kernel)) ?_
    refine .cons _ _ _ _ ?_ (.left _ _ _ ⟨no _ (by decide +kernel), by decide⟩ (.cons _ _ _ _ (.same _) .nil))
    exact .cell _ _ _ _ _ _ _ (hcon (by decide)) (hw (by decide)) (sameFormex_of (sameCals_of (by decide +kernel)) (by decide +kernel))
  · refine .inside _ _ _ _ _ _ _ _ _ (hin (by decide)) (hw (by decide)) (sameFormex_of (sameCals_of (by decide +kernel)) (by decide +kernel)) ?_
    refine .cons _ _ _ _ ?_ (.right _ _ _ ⟨no _ (by decide +kernel), by decide⟩ (.cons _ _ _ _ (.same _) .nil))
    exact .cell _ _ _ _ _ _ _ (hcon (by decide)) (hw (by decide)) (sameFormex_of (sameCals_of (by decide +kernel)) (by decide +kernel))

theorem alike_tbl : Alike (formex none (some "c")) fmxTbl alikeTbl := by
  have no : ∀ n : Node, (∀ tk ∈ toksList [n], (match tk with
    | .opening t _ => decide (t.name ∉ ["CORPUS", "ROW", "CELL", "MARGIN", "BLK", "TI.BLK", "STI.BLK", "colspec"])
    | _ => true) = true) → NoFmx none (some "c") [n] := fun n h => noFmx_of h
  have hin : ¬ (formex none (some "c")).content (qn "TBL") := by
    intro he
    obtain ⟨k, hk, e⟩ := List.mem_map.mp he
    have e : k = "TBL" := congrArg QName.name e
    subst e
    exact absurd hk (by decide)
  refine .inside _ _ _ _ _ _ _ _ _ hin (fun he => absurd (congrArg QName.name he) (by decide)) (sameFormex_of (sameCals_of (by decide +kernel)) (by decide +kernel)) ?_
  exact .left _ _ _ ⟨no _ (by decide +kernel), by decide⟩ (.cons _ _ _ _ (.same _) (.cons _ _ _ _ alike_corpus .nil))

example : FmxP.parseTable ⟨none, some "c", true⟩ 0 (some fmxTbl) fmxCorpus = FmxP.parseTable ⟨none, some "c", true⟩ 0 (some alikeTbl) alikeCorpus :=
  C107_formex _ 0 _ _ _ _ (.some _ _ alike_tbl) alike_corpus

example : (eval (FmxP.parseTable ⟨none, some "c", true⟩ 0 (some alikeTbl) alikeCorpus) PState.init).map (Option.map (fun t => t.cells.length)) = .ok (some 10) := by
  decide +kernel

/-- a Word table, and the same with revision identifiers, a width, a bookmark and spaces -/
def wordTr (props extra : List Node) (attrs : List (String × String)) : Node :=
  wEl "tr" attrs ([wEl "trPr" [] (wEl "tblHeader" [] [] :: props)] ++ extra ++ [Ooxml.tcDemo none none "a", Ooxml.tcDemo (some "2") none "b"])
def wordPlain : Node := wEl "tbl" [] [wEl "tblPr" [] [wEl "tblStyle" [("val", "x")] []], wordTr [] [] []]
def wordMarked : Node := wEl "tbl" [] [wEl "tblPr" [] [wEl "tblStyle" [("val", "x")] [], wEl "tblW" [("w", "0")] []],
  wordTr [wEl "cantSplit" [] []] [wEl "bookmarkStart" [("id", "1")] []] [("rsidR", "00AB")]]

theorem word_inert_of {n : Node} (h : ∀ tk ∈ toks n, (match tk with
    | .opening t _ => decide (t ∉ wordElements.map OoxmlSpec.name)
    | _ => true) = true) : word.inert n := by
  intro t a ht
  have := h _ ht
  simpa using this

theorem sameWord_of {a a' : Dict QName String}
    (h : wordAttributes.all (fun k => decide (Dict.get? a (OoxmlSpec.name k) = Dict.get? a' (OoxmlSpec.name k))) = true) : SameWord a a' := by
  intro k hk
  simpa using List.all_eq_true.mp h k hk

theorem alike_word : Alike word wordPlain wordMarked := by
  have hin : ∀ {s : String}, s ≠ "tc" → ¬ word.content (Ooxml.w s) := fun hs he => hs (congrArg QName.name he)
  refine .inside _ _ _ _ _ _ _ _ _ (hin (by decide)) id (sameWord_of (by decide +kernel)) (.cons _ _ _ _ ?_ (.cons _ _ _ _ ?_ .nil))
  · refine .inside _ _ _ _ _ _ _ _ _ (hin (by decide)) id (sameWord_of (by decide +kernel)) (.cons _ _ _ _ (.same _) (.right _ _ _ (word_inert_of (by decide +kernel)) .nil))
  · refine .inside _ _ _ _ _ _ _ _ _ (hin (by decide)) id (sameWord_of (by decide +kernel)) (.cons _ _ _ _ ?_ (.right _ _ _ (word_inert_of (by decide +kernel)) (AlikeAll.refl _)))
    exact .inside _ _ _ _ _ _ _ _ _ (hin (by decide)) id (sameWord_of (by decide +kernel)) (.cons _ _ _ _ (.same _) (.right _ _ _ (word_inert_of (by decide +kernel)) .nil))

example : Ooxml.parseTable wConfig none wordPlain = Ooxml.parseTable wConfig none wordMarked := C107_word _ _ _ _ _ .none alike_word

example : (eval (Ooxml.parseTable wConfig none wordMarked) PState.init).map (Option.map (fun t => t.cells.length)) = .ok (some 2) := by decide +kernel

end Benker
