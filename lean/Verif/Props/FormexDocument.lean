import Verif.Spec.FormexDocument
import Verif.Props.Document
import Verif.Props.WordKept

/-! C98: documents converted to CALS. -/

namespace Benker
open PyM CalsSpec FmxSpec Kept Shown

namespace Fmx2Cals

mutual
theorem free_of_toks (q : QName) : ∀ (n : Node), (∀ t a, Tok.opening t a ∈ toks n → t ≠ q) → free q n
  | .elem t a _ cs _, h => ⟨h t a (by simp [toks]), freeList_of_toks q cs (fun t' a' ht => h t' a' (by simp [toks, ht]))⟩
  | .pi .., _ => trivial
  | .comment .., _ => trivial
theorem freeList_of_toks (q : QName) : ∀ (ns : List Node), (∀ t a, Tok.opening t a ∈ toksList ns → t ≠ q) → freeList q ns
  | [], _ => trivial
  | n :: ns, h => ⟨free_of_toks q n (fun t a ht => h t a (by simp [toksList, ht])), freeList_of_toks q ns (fun t a ht => h t a (by simp [toksList, ht]))⟩
end

theorem notes_same {c : Config} {blk : Nat} : ∀ {l notes : List Node}, All₂ (Inside c blk) l notes → (∀ m ∈ l, free ⟨c.parser.ns, "CORPUS"⟩ m) → notes = l
  | _, _, .nil, _ => rfl
  | _, _, .cons h hs, hf => by
    rw [((h.kept (free_tag (hf _ (by simp)))).free (hf _ (by simp))), notes_same hs (fun m hm => hf m (by simp [hm]))]

/-- what the converter makes of a table, if there is no other table in its notes -/
def Made (c : Config) (blk : Nat) (parent T C : Node) : Prop :=
  (∀ m ∈ FmxP.notesOf c.parser (some parent), free ⟨c.parser.ns, "CORPUS"⟩ m) → ∃ e, convert c blk (some parent) T = .ok e ∧ Inside c blk (e.setTail T.tail) C

mutual
theorem inside_around {c : Config} : ∀ {blk : Nat} {n n' : Node}, Inside c blk n n' →
    AroundFormex c.parser.ns (fun blk p T C => C.tag? = some ⟨c.builder.ns, "table"⟩ ∧ Made c blk p T C) blk n n'
  | _, _, _, .elem _ _ _ _ _ _ _ h => .elem _ _ _ _ _ _ _ (siblings_around h [] (by simp) (fun _ => .nil))
  | _, _, _, .pi .. => .pi _ _ _ _
  | _, _, _, .comment .. => .comment _ _ _
theorem siblings_around {c : Config} : ∀ {blk : Nat} {p : QName × Dict QName String} {notes ns ns' : List Node}, Siblings c blk p notes ns ns' →
    ∀ before : List Node, (∀ m ∈ before, isCorpus c.parser m = false) → (ns.any (isCorpus c.parser) = true → All₂ (Inside c blk) (before.filter (isNotes c.parser)) notes) →
    AroundFormexList c.parser.ns (fun blk p T C => C.tag? = some ⟨c.builder.ns, "table"⟩ ∧ Made c blk p T C) blk p.1 p.2 before ns ns'
  | _, _, _, _, _, .nil .., _, _, _ => .nil _ _ _ _
  | _, _, _, _, _, .corpus blk p notes n e n' ns ns' ht he hi hs, before, hb, hnotes => by
    have hn := (isCorpus_iff _ _).mpr ht
    refine .table _ _ _ _ _ _ _ _ ht ⟨?_, ?_⟩ ?_ (siblings_around hs [] (by simp) (fun _ => .nil))
    · rw [hi.same.1, (Convert.setTail_same e n.tail).1]; exact convert_tag he
    · intro hf
      rw [notesOf_split c.parser _ _ _ _ before n [] hb hn] at hf
      refine ⟨e, ?_, hi⟩
      rw [convert_notes c blk p.1 p.2 none none before n [] hb hn]
      rw [notes_same (hnotes (by rw [List.any_cons, hn, Bool.true_or])) hf] at he
      exact he
    · rw [hi.same.2.2.2, Convert.tail_setTail]
  | _, _, _, _, _, .notes blk p notes n n' ns ns' hT hi hs, before, hb, hnotes => by
    have hn : isCorpus c.parser n = false := by rw [isCorpus_false, hT.1]; simp
    refine .notes _ _ _ _ _ _ _ hT (siblings_around hs (before ++ [n]) ?_ ?_)
    · intro m hm
      rcases List.mem_append.mp hm with hm | hm
      · exact hb m hm
      · rw [List.mem_singleton.mp hm]; exact hn
    · intro hany
      rw [List.filter_append, List.filter_cons_of_pos ((isNotes_iff _ _).mpr hT.1), List.filter_nil]
      exact All₂.append (hnotes (by rw [any_cons_false hn]; exact hany)) (.cons hi .nil)
  | _, _, _, _, _, .other blk p notes n n' ns ns' ht hT hi hs, before, hb, hnotes => by
    have hn := (isCorpus_false _ _).mpr ht
    refine .other _ _ _ _ _ _ _ _ ht hT (inside_around hi) (siblings_around hs (before ++ [n]) ?_ ?_)
    · intro m hm
      rcases List.mem_append.mp hm with hm | hm
      · exact hb m hm
      · rw [List.mem_singleton.mp hm]; exact hn
    · intro hany
      have : isNotes c.parser n = false := by
        cases k : isNotes c.parser n with
        | false => rfl
        | true => exact absurd ((tableNotes_iff _ _ _).mpr ⟨k, hany⟩) hT
      rw [List.filter_append, List.filter_cons_of_neg (by rw [this]; simp), List.filter_nil, List.append_nil]
      exact hnotes (by rw [any_cons_false hn]; exact hany)
end

end Fmx2Cals

mutual
theorem _root_.Benker.Shown.AroundFormex.imp {ns : Option String} {R S : Nat → Node → Node → Node → Prop} (h : ∀ blk p T C, T.tag? = some ⟨ns, "CORPUS"⟩ → R blk p T C → S blk p T C) :
    ∀ {blk : Nat} {n n' : Node}, AroundFormex ns R blk n n' → AroundFormex ns S blk n n'
  | _, _, _, .elem _ _ _ _ _ _ _ hs => .elem _ _ _ _ _ _ _ (AroundFormexList.imp h hs)
  | _, _, _, .pi .. => .pi _ _ _ _
  | _, _, _, .comment .. => .comment _ _ _
theorem _root_.Benker.Shown.AroundFormexList.imp {ns : Option String} {R S : Nat → Node → Node → Node → Prop} (h : ∀ blk p T C, T.tag? = some ⟨ns, "CORPUS"⟩ → R blk p T C → S blk p T C) :
    ∀ {blk : Nat} {t : QName} {a : Dict QName String} {before ns1 ns2 : List Node}, AroundFormexList ns R blk t a before ns1 ns2 → AroundFormexList ns S blk t a before ns1 ns2
  | _, _, _, _, _, _, .nil .. => .nil _ _ _ _
  | _, _, _, _, _, _, .table _ _ _ _ _ _ _ _ ht hr htl hs => .table _ _ _ _ _ _ _ _ ht (h _ _ _ _ ht hr) htl (AroundFormexList.imp h hs)
  | _, _, _, _, _, _, .notes _ _ _ _ _ _ _ hT hs => .notes _ _ _ _ _ _ _ hT (AroundFormexList.imp h hs)
  | _, _, _, _, _, _, .other _ _ _ _ _ _ _ _ ht hT hi hs => .other _ _ _ _ _ _ _ _ ht hT (AroundFormex.imp h hi) (AroundFormexList.imp h hs)
end


/-! ### the looks of a table do not depend on the text which follows it -/

theorem setTail_attr (e : Node) (tl : Option String) (q : QName) : (e.setTail tl).attr q = e.attr q := by cases e <;> rfl
theorem setTail_children (e : Node) (tl : Option String) : (e.setTail tl).children = e.children := by cases e <;> rfl

theorem whole_attr (tg : Bool) (tgroup e : Node) (tl : Option String) (q : QName) :
    (if tg then tgroup else e.setTail tl).attr q = (if tg then tgroup else e).attr q := by
  cases tg
  · exact setTail_attr e tl q
  · rfl

theorem corpusKept_tail {ns cals ns' : Option String} {parent : Option Node} {corpus table whole table' whole' : Node} {style : Option String}
    (ht : ∀ q, table'.attr q = table.attr q) (hw : ∀ q, whole'.attr q = whole.attr q) (k : CorpusKept ns cals ns' parent corpus table whole style) :
    CorpusKept ns cals ns' parent corpus table' whole' style :=
  ⟨by rw [ht]; exact k.frame, by rw [hw]; exact k.right, by rw [hw]; exact k.bottom, k.style, by rw [ht]; exact k.orient, by rw [ht]; exact k.pgwide, by rw [ht]; exact k.bgcolor⟩

theorem colKept_tail {ns ns' : Option String} {steps : List (List Char → Except PyErr (List Char))} {whole whole' colspec out : Node}
    (hw : ∀ q, whole'.attr q = whole.attr q) (k : ColKept ns ns' steps whole colspec out) : ColKept ns ns' steps whole' colspec out :=
  ⟨by rw [hw]; exact k.right, by rw [hw]; exact k.bottom, k.width, k.align⟩

theorem lineKept_tail {ns cals ns' : Option String} {whole whole' : Node} {l : DocLine} {out : Node} (hw : ∀ q, whole'.attr q = whole.attr q)
    (k : LineKept ns cals ns' whole l out) : LineKept ns cals ns' whole' l out :=
  ⟨k.valign, by rw [hw]; exact k.bottom, k.rowstyle⟩

theorem placeLines_tail {cals ns' : Option String} {w h : Nat} {whole whole' : Node} {n : Option Node} {b : Box} {out : Node} (hw : ∀ q, whole'.attr q = whole.attr q)
    (k : PlaceLines cals ns' w h whole n b out) : PlaceLines cals ns' w h whole' n b out :=
  ⟨by rw [hw]; exact k.right, by rw [hw]; exact k.bottom⟩

theorem wordTableKept_tail {ns' : Option String} {sect : Option Node} {chain : List Node} {tbl table whole table' whole' : Node} {style : Option String}
    (ht : ∀ q, table'.attr q = table.attr q) (hw : ∀ q, whole'.attr q = whole.attr q) (k : WordTableKept ns' sect chain tbl table whole style) :
    WordTableKept ns' sect chain tbl table' whole' style :=
  ⟨by rw [ht]; exact k.frame, by rw [hw]; exact k.right, by rw [hw]; exact k.bottom, k.style, by rw [ht]; exact k.orient, by rw [ht]; exact k.pgwide, by rw [ht]; exact k.bgcolor,
    by rw [ht]; exact k.width⟩

theorem wordCellKept_tail {ns' : Option String} {w h : Nat} {whole whole' tc : Node} {b : Box} {out : Node} (hw : ∀ q, whole'.attr q = whole.attr q)
    (k : WordCellKept ns' w h whole tc b out) : WordCellKept ns' w h whole' tc b out :=
  ⟨by rw [hw]; exact k.right, k.lastColumn, by rw [hw]; exact k.bottom, k.lastRow, k.valign, k.align, k.bgcolor⟩

theorem calsNames_corpus : "CORPUS" ∉ calsNames := by decide

/-- there is no table in the contents of the cells of a table, as it is drawn -/
theorem formex_without {ns cals : Option String} {blk : Nat} {parent : Node} {d : FmxDoc} {w h : Nat} (ht : FormexTable ns cals blk parent d w h) (embed : Bool) :
    Without ns ["CORPUS"] (formexPicture ns embed d) := by
  intro l0 hl0 b hb t a htok hns hm
  obtain ⟨l, hl, rfl⟩ := List.mem_map.mp hl0
  obtain ⟨⟨n, bx⟩, he, rfl⟩ := List.mem_map.mp hb
  have hq : t = ⟨ns, "CORPUS"⟩ := by cases t; simp only at hns hm; rw [hns, List.mem_singleton.mp hm]
  cases n with
  | none => cases htok
  | some n =>
    have hcell : ∃ c ∈ l.cells, c.node = n := by
      unfold DocLine.drawn at he
      simp only [List.mem_append, List.mem_map, Prod.mk.injEq, Option.some.injEq, reduceCtorEq, false_and, and_false, exists_false, false_or, or_false] at he
      obtain ⟨c, hc, h1, _⟩ := he
      exact ⟨c, hc, h1⟩
    obtain ⟨c, hc, rfl⟩ := hcell
    -- what is shown is in the tokens of the node
    have hin : l.sort = .note → c.node = l.node := by
      intro hs
      have := ht.nested.whole l hl (by rw [hs]; simp)
      have hm := List.mem_map_of_mem (f := fun c : DocCell => c.node) hc
      rw [this] at hm
      exact List.mem_singleton.mp hm
    have hshown : ∀ {m : Node}, Tok.opening t a ∈ shownToks ns m → Tok.opening t a ∈ toksList m.children := by
      intro m hm
      unfold shownToks at hm
      split at hm
      · cases hm
      · unfold insideToks at hm
        rcases List.mem_append.mp hm with hm | hm
        · exact absurd hm (by unfold textToks; cases m.text <;> simp)
        · exact hm
    have htoks : ∀ m : Node, Tok.opening t a ∈ toksList m.children → Tok.opening t a ∈ toks m := by
      intro m hm
      cases m with
      | elem t' a' x cs tl => simp only [toks, List.mem_append, List.mem_cons, show toksList cs = toksList (Node.elem t' a' x cs tl).children from rfl, hm]; simp
      | pi => cases hm
      | comment => cases hm
    rcases List.mem_append.mp hl with hl | hl
    · have hs := (ht.nested.lines l hl).1
      have hnof : NoFmx ns cals c.node.children := by
        by_cases hr : l.sort = .row
        · exact ((ht.nested.rows l hl hr).2 c hc).2
        · have := ht.nested.whole l (List.mem_append_left _ hl) hr
          have hm := List.mem_map_of_mem (f := fun c : DocCell => c.node) hc
          rw [this] at hm
          rw [List.mem_singleton.mp hm]
          exact ht.nested.titles l hl hr
      simp only [formexToks, hs, false_and, if_false] at htok
      exact (hnof t a (hshown htok)).1 (by rw [hq]) (by rw [hq]; simp)
    · have hs := ht.nested.notes.2 l hl
      refine ht.notes l hl t a ?_ hq
      rw [← hin hs]
      simp only [formexToks] at htok
      split at htok
      · exact htok
      · exact htoks _ (hshown htok)

/-- there is no table in the notes of a table which is drawn -/
theorem formex_notes {c : Fmx2Cals.Config} {blk : Nat} {parent : Node} {d : FmxDoc} {w h : Nat} (ht : FormexTable c.parser.ns c.parser.calsNs blk parent d w h) :
    ∀ m ∈ FmxP.notesOf c.parser (some parent), Fmx2Cals.free ⟨c.parser.ns, "CORPUS"⟩ m := by
  intro m hm
  rcases ht.nested.notes.1 with ⟨h, _⟩ | ⟨p, before, after, hp, hch, hb, hl⟩
  · cases h
  · cases hp
    cases parent with
    | pi => simp [Node.children] at hch
    | comment => simp [Node.children] at hch
    | elem t a x cs tl =>
      simp only [Node.children] at hch
      subst hch
      rw [Fmx2Cals.notesOf_split c.parser _ _ _ _ before d.corpus after (fun m hm => (Fmx2Cals.isCorpus_false _ _).mpr (hb m hm))
        ((Fmx2Cals.isCorpus_iff _ _).mpr ht.nested.corpus), show before.filter (Fmx2Cals.isNotes c.parser) = _ from hl.symm] at hm
      obtain ⟨l, hl, rfl⟩ := List.mem_map.mp hm
      exact Fmx2Cals.free_of_toks _ _ (ht.notes l hl)

/-- there is no Formex table in what is made of a table which is drawn -/
theorem formex_made {c : Fmx2Cals.Config} {blk : Nat} {parent : Node} {d : FmxDoc} {w h : Nat} (ht : FormexTable c.parser.ns c.parser.calsNs blk parent d w h)
    (hframe : FrameAccepted c.parser.calsNs d.corpus) {e : Node} (he : Fmx2Cals.convert c blk (some parent) d.corpus = .ok e) (tl : Option String) :
    Fmx2Cals.free ⟨c.parser.ns, "CORPUS"⟩ (e.setTail tl) := by
  have hno := formex_without ht c.parser.embedGrNotes
  have hfree : Free [⟨c.parser.ns, "CORPUS"⟩] [e] := by
    obtain ⟨t, rows, cols, h1, -, -, -, -, hcells, -⟩ := C76_reading d w h blk (some parent) ht.nested ht.drawn ht.width ht.columns hframe PState.init
    have hparsed : ParsedTable t := .formex c.parser blk (some parent) d.corpus PState.init t ht.nested.corpus h1
    have hgen := he
    unfold Fmx2Cals.convert Convert.thenGenerate at hgen
    rw [h1] at hgen
    refine (cals_free (inv_map (Fmx2Cals.stripContent c.parser) hparsed.tidy.1.inv) (names := [⟨c.parser.ns, "CORPUS"⟩]) (fun n hn h => by
        have : n = "CORPUS" := congrArg QName.name (List.mem_singleton.mp h)
        rw [this] at hn
        exact calsNames_corpus hn) ?_ hgen).2
    intro c' hc' tk a htk hmem
    obtain ⟨c0, hc0, rfl⟩ : ∃ c0 ∈ t.cells, c0.mapContent (Fmx2Cals.stripContent c.parser) = c' := List.mem_map.mp hc'
    obtain ⟨⟨l, e1, b⟩, hdr, hb, hsh⟩ := hcells.mem_right hc0
    have e2 : contentToks c0.content = formexToks c.parser.ns c.parser.embedGrNotes l e1 := by
      cases e1 with
      | none => rw [(hsh.empty rfl).1]; rfl
      | some n => rw [hsh.content n rfl]; rfl
    unfold FmxDoc.drawn at hdr
    obtain ⟨l', hl', hdr⟩ := List.mem_flatMap.mp hdr
    obtain ⟨e', he', heq⟩ := List.mem_map.mp hdr
    cases heq
    have hfr : ∀ t a, Tok.opening t a ∈ contentToks c0.content → t ≠ c.parser.f "CORPUS" := by
      intro t1 a1 h1 hq
      rw [e2] at h1
      refine hno _ (List.mem_map_of_mem hl') _ (List.mem_map_of_mem he') t1 a1 h1 ?_ ?_
      · rw [hq]; rfl
      · rw [hq]; simp [FmxP.Config.f]
    have e3 := strip_toks c.parser c0.content hfr
    have htk' : Tok.opening tk a ∈ contentToks (c0.content.map (Fmx2Cals.stripContent c.parser)) := htk
    rw [e3] at htk'
    exact hfr tk a htk' (List.mem_singleton.mp hmem)
  refine Fmx2Cals.free_of_toks _ _ ?_
  intro t a hm h
  refine setTail_free tl hfree t a ?_ (List.mem_singleton.mpr h)
  simp [toksList, hm]

/-- **C98**, Formex to CALS: for every document which is not itself a table, if it is converted, then the result is the same document - elements, attributes and
texts - where the notes of the tables are removed and each table is replaced by a CALS table.  If the Formex table is drawn on a grid, then the CALS table tells its
looks; and, if it can be written in CALS as it is, it is drawn on the same grid and shows the same. -/
theorem C98_formex_to_cals (c : Fmx2Cals.Config) (ns : Option String) (u : List Char) (tg : Bool) (sorting : Option (List String)) (fl : Rat → Rat)
    (hcfg : Cals.Config.new ns u tg sorting fl = .ok c.builder) (doc out : Node) (limit : Nat) (hroot : doc.tag? ≠ some ⟨c.parser.ns, "CORPUS"⟩)
    (htables : Fmx2Cals.transformTables c limit doc = .ok out) :
    AroundFormex c.parser.ns (fun blk parent T C => C.tag? = some ⟨c.builder.ns, "table"⟩ ∧
      ∀ (d : FmxDoc) (w h : Nat), d.corpus = T → FormexTable c.parser.ns c.parser.calsNs blk parent d w h →
        FormexLooksKept c.parser.ns c.parser.calsNs c.builder.ns c.builder.tgroupSorting tg (Units.rewriteWidth fl u) parent d w h C ∧
        (OneKind (formexPicture c.parser.ns c.parser.embedGrNotes d) → Without c.builder.ns calsNames (formexPicture c.parser.ns c.parser.embedGrNotes d) →
          ∃ (d' : CalsDoc) (p : Picture), d'.table = C ∧ InCals c.builder.ns d' w h p ∧
            Regrouped c.builder.tgroupSorting (formexPicture c.parser.ns c.parser.embedGrNotes d) p ∧
            (Grouped c.builder.tgroupSorting (formexPicture c.parser.ns c.parser.embedGrNotes d) → p = formexPicture c.parser.ns c.parser.embedGrNotes d))) 0 doc out := by
  refine (Fmx2Cals.inside_around ((Fmx2Cals.C83_replacement c doc out hroot).mp ⟨limit, htables⟩)).imp ?_
  rintro blk parent T C hT ⟨htag, hmade⟩
  refine ⟨htag, ?_⟩
  rintro d w h rfl ht
  have hno := formex_without ht c.parser.embedGrNotes
  have hnotes := formex_notes ht
  obtain ⟨e, he, hi⟩ := hmade hnotes
  have hframe : FrameAccepted c.parser.calsNs d.corpus := by
    have he2 := he
    unfold Fmx2Cals.convert at he2
    obtain ⟨t, ht2, _⟩ := Convert.thenGenerate_ok he2
    cases hp : eval (FmxP.parseTable c.parser blk (some parent) d.corpus) PState.init with
    | error e => rw [hp] at ht2; cases ht2
    | ok r => exact frameAccepted_of_ok ht.nested.corpus hp
  have hC : C = e.setTail d.corpus.tail := by
    have hf := formex_made ht hframe he d.corpus.tail
    exact (hi.kept (Fmx2Cals.free_tag hf)).free hf
  subst hC
  refine ⟨?_, ?_⟩
  · obtain ⟨tgroup, colspecs, bodies, order, k1, k2, k3, k4, k5, k6, k7⟩ := C94_formex_to_cals_partial c ns u tg sorting fl hcfg d w h blk (some parent) ht.nested ht.drawn
      ht.width ht.columns hframe e he
    refine ⟨tgroup, if tg then tgroup else e.setTail d.corpus.tail, colspecs, bodies, order, ?_⟩
    have ht' := setTail_attr e d.corpus.tail
    have hw := whole_attr tg tgroup e d.corpus.tail
    refine ⟨by rw [setTail_children]; exact k1, rfl, k2, ?_, k4, ?_, k6, ?_⟩
    · rw [ht']
      exact corpusKept_tail ht' hw k3
    · intro col hcol
      obtain ⟨x, hx, kx⟩ := k5 col hcol
      exact ⟨x, hx, colKept_tail hw kx⟩
    · exact k7.imp (fun l row h => ⟨h.1, fun hl => lineKept_tail hw (h.2.1 hl), h.2.2.imp (fun e out h => ⟨h.1, fun hl => placeLines_tail hw (h.2.1 hl)⟩)⟩)
  · intro hone hplain
    obtain ⟨d', q, rfl, g1, g2, g3, g4, g5, g6⟩ := C85_formex_to_cals c ns u tg sorting fl hcfg d w h blk (some parent) ht.nested ht.drawn ht.width ht.columns hframe
      hone hplain hno e he
    obtain ⟨hn', hd', hc', hp'⟩ := withTail_table d.corpus.tail g1 g2 g3 g4
    exact ⟨CalsDoc.withTail d' d.corpus.tail, q, rfl, ⟨hn', hd', hc', hp'⟩, g5, g6⟩

namespace Fmx2Cals

mutual
theorem free_inside {c : Config} (blk : Nat) : ∀ {n : Node}, free ⟨c.parser.ns, "CORPUS"⟩ n → Inside c blk n n
  | .elem _ _ _ _ _, h => .elem _ _ _ _ _ _ _ (free_siblings _ _ _ h.2)
  | .pi .., _ => .pi _ _ _ _
  | .comment .., _ => .comment _ _ _
theorem free_siblings {c : Config} (blk : Nat) (p : QName × Dict QName String) (notes : List Node) : ∀ {ns : List Node}, freeList ⟨c.parser.ns, "CORPUS"⟩ ns → Siblings c blk p notes ns ns
  | [], _ => .nil _ _ _
  | _ :: _, h => .other _ _ _ _ _ _ _ (free_tag h.1) (fun ⟨_, _, hm, hc⟩ => free_tag (freeList_mem h.2 hm) hc) (free_inside blk h.1) (free_siblings blk p notes h.2)
end

mutual
theorem each_inside {c : Config} {P : Nat → Node → Node → Prop}
    (hP : ∀ blk parent T, T.tag? = some ⟨c.parser.ns, "CORPUS"⟩ → P blk parent T → (∀ m ∈ FmxP.notesOf c.parser (some parent), free ⟨c.parser.ns, "CORPUS"⟩ m) ∧
      ∃ e, convert c blk (some parent) T = .ok e ∧ free ⟨c.parser.ns, "CORPUS"⟩ (e.setTail T.tail)) :
    ∀ (blk : Nat) (n : Node), EachFormex c.parser.ns P blk n → ∃ n', Inside c blk n n'
  | blk, .elem t a x cs tl, h => by
    obtain ⟨cs', hcs⟩ := each_siblings hP _ t a [] cs [] (by simp) (fun _ => .nil) h
    exact ⟨_, .elem _ _ _ _ _ _ _ hcs⟩
  | _, .pi .., _ => ⟨_, .pi _ _ _ _⟩
  | _, .comment .., _ => ⟨_, .comment _ _ _⟩
theorem each_siblings {c : Config} {P : Nat → Node → Node → Prop}
    (hP : ∀ blk parent T, T.tag? = some ⟨c.parser.ns, "CORPUS"⟩ → P blk parent T → (∀ m ∈ FmxP.notesOf c.parser (some parent), free ⟨c.parser.ns, "CORPUS"⟩ m) ∧
      ∃ e, convert c blk (some parent) T = .ok e ∧ free ⟨c.parser.ns, "CORPUS"⟩ (e.setTail T.tail)) :
    ∀ (blk : Nat) (t : QName) (a : Dict QName String) (before ns notes : List Node), (∀ m ∈ before, isCorpus c.parser m = false) →
      (ns.any (isCorpus c.parser) = true → All₂ (Inside c blk) (before.filter (isNotes c.parser)) notes) →
      EachFormexList c.parser.ns P blk t a before ns → ∃ ns', Siblings c blk (t, a) notes ns ns'
  | _, _, _, _, [], _, _, _, _ => ⟨[], .nil _ _ _⟩
  | blk, t, a, before, n :: ns, notes, hb, hnotes, h => by
    rcases h with ⟨ht, hp, hs⟩ | ⟨ht, hi, hs⟩
    · have hn := (isCorpus_iff _ _).mpr ht
      obtain ⟨hf, e, he, hfree⟩ := hP _ _ _ ht hp
      rw [notesOf_split c.parser _ _ _ _ before n [] hb hn] at hf
      rw [convert_notes c blk t a none none before n [] hb hn, ← notes_same (hnotes (by rw [List.any_cons, hn, Bool.true_or])) hf] at he
      obtain ⟨ns', hs'⟩ := each_siblings hP blk t a [] ns [] (by simp) (fun _ => .nil) hs
      exact ⟨_, .corpus _ _ _ _ _ _ _ _ ht he (free_inside blk hfree) hs'⟩
    · have hn := (isCorpus_false _ _).mpr ht
      obtain ⟨n', hi'⟩ := each_inside hP blk n hi
      have hb' : ∀ m ∈ before ++ [n], isCorpus c.parser m = false := by
        intro m hm
        rcases List.mem_append.mp hm with hm | hm
        · exact hb m hm
        · rw [List.mem_singleton.mp hm]; exact hn
      by_cases hT : TableNotes c.parser n ns
      · obtain ⟨ns', hs'⟩ := each_siblings hP blk t a (before ++ [n]) ns (notes ++ [n']) hb' (fun hany => by
          rw [List.filter_append, List.filter_cons_of_pos ((isNotes_iff _ _).mpr hT.1), List.filter_nil]
          exact All₂.append (hnotes (by rw [any_cons_false hn]; exact hany)) (.cons hi' .nil)) hs
        exact ⟨_, .notes _ _ _ _ _ _ _ hT hi' hs'⟩
      · obtain ⟨ns', hs'⟩ := each_siblings hP blk t a (before ++ [n]) ns notes hb' (fun hany => by
          have : isNotes c.parser n = false := by
            cases k : isNotes c.parser n with
            | false => rfl
            | true => exact absurd ((tableNotes_iff _ _ _).mpr ⟨k, hany⟩) hT
          rw [List.filter_append, List.filter_cons_of_neg (by rw [this]; simp), List.filter_nil, List.append_nil]
          exact hnotes (by rw [any_cons_false hn]; exact hany)) hs
        exact ⟨_, .other _ _ _ _ _ _ _ ht hT hi' hs'⟩
end

end Fmx2Cals

/-- **C98**, Formex to CALS: a document whose tables are all drawn on grids, where all the frames, the types and the widths are known, is converted. -/
theorem C98_formex_to_cals_succeeds (c : Fmx2Cals.Config) (hu : Accepted.KnownUnit c.builder.widthUnit) (doc : Node) (hroot : doc.tag? ≠ some ⟨c.parser.ns, "CORPUS"⟩)
    (hall : EachFormex c.parser.ns (fun blk parent T => ∃ (d : FmxDoc) (w h : Nat), d.corpus = T ∧ FormexTable c.parser.ns c.parser.calsNs blk parent d w h ∧
      FrameAccepted c.parser.calsNs T ∧ Accepted.NumberedWidths c.parser.calsNs T ∧ Accepted.TypedCells c.parser.ns T) 0 doc) :
    ∃ limit out, Fmx2Cals.transformTables c limit doc = .ok out := by
  obtain ⟨out, h⟩ := Fmx2Cals.each_inside (by
    rintro blk parent T hT ⟨d, w, h, rfl, ht, hf, hw, hty⟩
    refine ⟨formex_notes ht, ?_⟩
    obtain ⟨t, rows, cols, h1, -⟩ := C76_reading d w h blk (some parent) ht.nested ht.drawn ht.width ht.columns hf PState.init
    obtain ⟨e, he⟩ := (C87_formex_to_cals_partial c blk (some parent) d.corpus hT hu hw hty).mpr ⟨t, h1⟩
    exact ⟨e, he, formex_made ht hf he _⟩) 0 doc hall
  obtain ⟨limit, hl⟩ := (Fmx2Cals.C83_replacement c doc out hroot).mpr h
  exact ⟨limit, out, hl⟩

/-- there is no Word table in what is made of a Word table which is drawn and has no other one inside -/
theorem word_made {pc : Ooxml.Config} {bc : Cals.Config} {ctx : List Node} {styles : Node → Styles} {nature : Node → String} {W : Nat} {T : Node}
    (hg : OoxmlSpec.GoodTable pc (Convert.firstSectList ctx) styles nature W T) (hne : OoxmlSpec.kids ["tr"] T ≠ [])
    (hin : ∀ l ∈ wordPicture T, ∀ b ∈ l.cells, ∀ t a, Tok.opening t a ∈ b.2 → t ≠ OoxmlSpec.name "tbl") {e : Node}
    (he : (Convert.ooxml2cals pc bc).convert ctx T = .ok e) (tl : Option String) : Convert.tableFree (Convert.ooxml2cals pc bc) (e.setTail tl) = true := by
  have he' := he
  unfold Convert.ooxml2cals at he'
  obtain ⟨t, ht, hgen⟩ := Convert.thenGenerate_ok he'
  have hinv := (Ooxml.parsed_reachable (eval_eq ht)).inv
  obtain ⟨t', s', rows, cols, h1, h2, h3, h4, h5, hi', h6, h7, h8, h9, h10⟩ := word_shows pc _ styles nature W T hg hne PState.init
  have e1 : eval (Ooxml.parseTable pc (Convert.firstSectList ctx) T) PState.init = .ok (some t') := by unfold eval; rw [h1]
  rw [ht] at e1
  cases e1
  have hfree := (cals_free hinv (names := [OoxmlSpec.name "tbl"]) (fun n hn h => by
      have : n = "tbl" := congrArg QName.name (List.mem_singleton.mp h)
      rw [this] at hn
      revert hn
      decide) (by
      intro c hc tk a htk h
      have hdr : Describes .row t.grid.cells rows := by rw [views_eq hinv h2]; exact Table.base_describes hinv .row
      rw [show t.cells = t.grid.cells from rfl, ← owned_eq hinv hdr h9] at hc
      obtain ⟨r, hr', hc⟩ := List.mem_flatMap.mp hc
      obtain ⟨l, hl, _, _, _, hall⟩ := shows_get h10 hdr hr'
      obtain ⟨b, hb, _, e⟩ := hall.mem_right hc
      rw [e] at htk
      exact hin l (List.mem_of_getElem? hl) b hb tk a htk (List.mem_singleton.mp h)) hgen).2
  exact tableFree_of (names := [OoxmlSpec.name "tbl"]) (fun t ht => List.mem_singleton.mpr (of_decide_eq_true ht)) _ (setTail_free tl hfree)

open OoxmlSpec in
/-- **C98**, Word to CALS: for every document which is not itself a table, if it is converted, then the result is the same document where each Word table which is in
no other one is replaced by a CALS table; if the Word table is drawn on a grid, and has no other one inside, then the CALS table tells its looks. -/
theorem C98_word_to_cals_looks (pc : Ooxml.Config) (hfl : Units.FloatModel pc.fl) (hrepr : ∀ x, ' ' ∉ (pc.repr x).toList) (bc : Cals.Config)
    (ns : Option String) (u : List Char) (tg : Bool) (sorting : Option (List String)) (fl : Rat → Rat)
    (hcfg : Cals.Config.new ns u tg sorting fl = .ok bc) (doc out : Node) (limit : Nat) (hroot : doc.tag? ≠ some (OoxmlSpec.name "tbl"))
    (htables : Convert.transformTables (Convert.ooxml2cals pc bc) limit doc = .ok out) :
    Around (· = OoxmlSpec.name "tbl") (fun following T C => C.tag? = some ⟨bc.ns, "table"⟩ ∧
      ∀ (styles : Node → Styles) (nature : Node → String) (W : Nat), GoodTable pc (Convert.firstSectList following) styles nature W T → kids ["tr"] T ≠ [] →
        PlainTable pc.styles T → (∀ l ∈ wordPicture T, ∀ b ∈ l.cells, ∀ t a, Tok.opening t a ∈ b.2 → t ≠ OoxmlSpec.name "tbl") →
        WordLooksKept pc bc.ns bc.tgroupSorting tg (Units.rewriteWidth fl u) (Convert.firstSectList following) W T C) [] doc out := by
  have hsel : (Convert.ooxml2cals pc bc).selects doc = false := by
    cases doc with
    | elem t a x cs tl => exact decide_eq_false_iff_not.mpr (fun e => hroot (by rw [e]; rfl))
    | pi => rfl
    | comment => rfl
  have hT : (fun t => (Convert.ooxml2cals pc bc).isTable t = true) = (· = OoxmlSpec.name "tbl") := by
    funext t
    exact propext decide_eq_true_iff
  have hrep := replaced_around ((Convert.C58_replacement _ doc out hsel).mp ⟨limit, htables⟩)
  rw [hT] at hrep
  refine hrep.imp ?_
  rintro ctx T C ⟨e, he, hi⟩
  have he' := he
  unfold Convert.ooxml2cals at he'
  obtain ⟨t, ht, hgen⟩ := Convert.thenGenerate_ok he'
  refine ⟨?_, ?_⟩
  · rw [hi.same.1, (Convert.setTail_same e T.tail).1]
    exact Cals.generate_tag _ _ _ hgen
  · intro styles nature W hg hne hpl hin
    have hC : C = e.setTail T.tail := hi.free (word_made hg hne hin he T.tail)
    subst hC
    obtain ⟨chain, tgroup, colspecs, bodies, order, k1, k2, k3, k4, k5, k6, k7, k8⟩ := C95_word_to_cals_partial pc hfl hrepr bc ns u tg sorting fl hcfg ctx styles nature W T hg hne
      hpl e he
    have ht' := setTail_attr e T.tail
    have hw := whole_attr tg tgroup e T.tail
    refine ⟨chain, tgroup, if tg then tgroup else e.setTail T.tail, colspecs, bodies, order, k1, by rw [setTail_children]; exact k2, rfl, k3, ?_, k5, k6, k7, ?_⟩
    · rw [ht']
      exact wordTableKept_tail ht' hw k4
    · exact k8.imp (fun l row h => ⟨h.1, h.2.2.imp (fun b out h => wordCellKept_tail hw h.1)⟩)

/-- **C98**, Word to CALS: a document whose tables are all drawn on grids, without tables inside, where all the orientations are known, is converted. -/
theorem C98_word_to_cals_succeeds (pc : Ooxml.Config) (bc : Cals.Config) (hu : Accepted.KnownUnit bc.widthUnit) (doc : Node) (hroot : doc.tag? ≠ some (OoxmlSpec.name "tbl"))
    (hall : EachTable (· = OoxmlSpec.name "tbl") (fun following T => ∃ (styles : Node → Styles) (nature : Node → String) (W : Nat),
      OoxmlSpec.GoodTable pc (Convert.firstSectList following) styles nature W T ∧ OoxmlSpec.kids ["tr"] T ≠ [] ∧
      NoInner (OoxmlSpec.name "tbl") T ∧ Accepted.KnownOrientation (Convert.firstSectList following)) [] doc) :
    ∃ limit out, Convert.transformTables (Convert.ooxml2cals pc bc) limit doc = .ok out := by
  have hsel : (Convert.ooxml2cals pc bc).selects doc = false := by
    cases doc with
    | elem t a x cs tl => exact decide_eq_false_iff_not.mpr (fun e => hroot (by rw [e]; rfl))
    | pi => rfl
    | comment => rfl
  have hT : (fun t => (Convert.ooxml2cals pc bc).isTable t = true) = (· = OoxmlSpec.name "tbl") := by
    funext t
    exact propext decide_eq_true_iff
  rw [← hT] at hall
  obtain ⟨out, hout⟩ := replaced_of (c := Convert.ooxml2cals pc bc) (by
    rintro ctx T ⟨styles, nature, W, hg, hne, hin, ho⟩
    obtain ⟨t, s', rows, cols, h1, -⟩ := word_shows pc _ styles nature W T hg hne PState.init
    have e1 : eval (Ooxml.parseTable pc (Convert.firstSectList ctx) T) PState.init = .ok (some t) := by unfold eval; rw [h1]
    obtain ⟨e, he⟩ := (C87_word_to_cals pc bc ctx T hu ho).mpr ⟨t, e1⟩
    refine ⟨e, he, e.setTail T.tail, ?_⟩
    have hf := word_made hg hne (noInner_picture hin) he T.tail
    have hr := replacedInside_free (c := Convert.ooxml2cals pc bc) (e.setTail T.tail) ctx hf
    have hno : (Convert.ooxml2cals pc bc).selects (e.setTail T.tail) = false := by
      cases e with
      | elem t a x cs tl =>
        simp only [Node.setTail, Convert.tableFree, Bool.and_eq_true, Bool.not_eq_true'] at hf
        exact hf.1
      | pi => rfl
      | comment => rfl
    cases hr with
    | other _ _ _ _ h => exact h
    | table _ _ e' _ hs => rw [hno] at hs; cases hs) doc [] hall
  obtain ⟨limit, hl⟩ := (Convert.C58_replacement _ doc out hsel).mpr hout
  exact ⟨limit, out, hl⟩

/-! ### examples -/

/-- a document with a paragraph and twice a Formex table, with its notes, in elements `TBL` -/
def withFormex : Node :=
  .elem (qn "DOC") [] none [.elem (qn "P") [] (some "text") [] (some "after"), fmxTbl, .elem (qn "DIV") [] none [fmxTbl] (some "end")] none

theorem fmxDemo_table : FormexTable none (some "c") 0 fmxTbl fmxDemo 3 5 := by
  refine ⟨fmxDemo_nested, fmxDemo_drawn, fun _ _ _ _ => .inl ⟨⟨fmxC1, 3⟩, by simp [fmxDemo], rfl⟩, fmxDemo_columns, ?_⟩
  have : ∀ l ∈ fmxDemo.notes, ∀ tk ∈ toks l.node, (match tk with
    | .opening t _ => decide (t ≠ ⟨none, "CORPUS"⟩)
    | _ => true) = true := by decide +kernel
  intro l hl t a ht
  simpa using this l hl _ ht

theorem fmxDemo_frame : FrameAccepted (some "c") fmxDemo.corpus := by
  intro f hf _
  cases hf; decide

theorem withFormex_each : EachFormex none (fun blk parent T => ∃ (d : FmxDoc) (w h : Nat), d.corpus = T ∧ FormexTable none (some "c") blk parent d w h ∧ FrameAccepted (some "c") T ∧
      Accepted.NumberedWidths (some "c") T ∧ Accepted.TypedCells none T) 0 withFormex := by
  have hP : ∃ (d : FmxDoc) (w h : Nat), d.corpus = fmxCorpus ∧ FormexTable none (some "c") 0 fmxTbl d w h ∧ FrameAccepted (some "c") fmxCorpus ∧
      Accepted.NumberedWidths (some "c") fmxCorpus ∧ Accepted.TypedCells none fmxCorpus :=
    ⟨fmxDemo, 3, 5, rfl, fmxDemo_table, fmxDemo_frame, numbered_of (by decide +kernel), typed_of (by decide +kernel)⟩
  have hT : EachFormex none (fun blk parent T => ∃ (d : FmxDoc) (w h : Nat), d.corpus = T ∧ FormexTable none (some "c") blk parent d w h ∧ FrameAccepted (some "c") T ∧
      Accepted.NumberedWidths (some "c") T ∧ Accepted.TypedCells none T) 0 fmxTbl :=
    .inr ⟨by decide, trivial, .inr ⟨by decide, .inr ⟨by decide, trivial, trivial⟩, .inl ⟨rfl, hP, trivial⟩⟩⟩
  exact .inr ⟨by decide, trivial, .inr ⟨by decide, hT, .inr ⟨by decide, .inr ⟨by decide, hT, trivial⟩, trivial⟩⟩⟩

/-- not vacuous: a document with twice a table with a header, a title, a row without a cell and notes -/
example : ∃ (c : Fmx2Cals.Config) (limit : Nat) (out : Node), Cals.Config.new none ['m', 'm'] false none id = .ok c.builder ∧ Accepted.KnownUnit c.builder.widthUnit ∧
    withFormex.tag? ≠ some ⟨c.parser.ns, "CORPUS"⟩ ∧ EachFormex c.parser.ns (fun blk parent T => ∃ (d : FmxDoc) (w h : Nat), d.corpus = T ∧
      FormexTable c.parser.ns c.parser.calsNs blk parent d w h ∧ FrameAccepted c.parser.calsNs T ∧ Accepted.NumberedWidths c.parser.calsNs T ∧
      Accepted.TypedCells c.parser.ns T) 0 withFormex ∧
    OneKind (formexPicture c.parser.ns c.parser.embedGrNotes fmxDemo) ∧ Without c.builder.ns calsNames (formexPicture c.parser.ns c.parser.embedGrNotes fmxDemo) ∧
    Fmx2Cals.transformTables c limit withFormex = .ok out := by
  obtain ⟨limit, out, h⟩ := C98_formex_to_cals_succeeds ⟨⟨none, some "c", true⟩, calsConfig⟩ mm_known withFormex (by decide) withFormex_each
  exact ⟨⟨⟨none, some "c", true⟩, calsConfig⟩, limit, out, rfl, mm_known, by decide, withFormex_each, oneKind_of (by decide +kernel), without_of (by decide +kernel), h⟩

/-- not vacuous: a document with twice a Word table with merged cells -/
example : ∃ (limit : Nat) (out : Node), Units.FloatModel wConfig.fl ∧ (∀ x, ' ' ∉ (wConfig.repr x).toList) ∧
    Cals.Config.new none ['m', 'm'] false none id = .ok calsConfig ∧ Accepted.KnownUnit calsConfig.widthUnit ∧ (withTables wordMerge).tag? ≠ some (OoxmlSpec.name "tbl") ∧
    EachTable (· = OoxmlSpec.name "tbl") (fun following T => ∃ (styles : Node → Styles) (nature : Node → String) (W : Nat),
      OoxmlSpec.GoodTable wConfig (Convert.firstSectList following) styles nature W T ∧ OoxmlSpec.kids ["tr"] T ≠ [] ∧
      NoInner (OoxmlSpec.name "tbl") T ∧
      Accepted.KnownOrientation (Convert.firstSectList following)) [] (withTables wordMerge) ∧
    PlainTable wConfig.styles wordMerge ∧
    Convert.transformTables (Convert.ooxml2cals wConfig calsConfig) limit (withTables wordMerge) = .ok out := by
  have hne : OoxmlSpec.kids ["tr"] wordMerge ≠ [] := by
    intro h
    have : (OoxmlSpec.kids ["tr"] wordMerge).length = 4 := by decide +kernel
    rw [h] at this; cases this
  have hE : EachTable (· = OoxmlSpec.name "tbl") (fun following T => ∃ (styles : Node → Styles) (nature : Node → String) (W : Nat),
      OoxmlSpec.GoodTable wConfig (Convert.firstSectList following) styles nature W T ∧ OoxmlSpec.kids ["tr"] T ≠ [] ∧
      NoInner (OoxmlSpec.name "tbl") T ∧
      Accepted.KnownOrientation (Convert.firstSectList following)) [] (withTables wordMerge) := by
    refine withTables_each (by decide) ?_ ?_ <;>
    exact ⟨Ooxml.stylesOf, Ooxml.natureOf, 3, wordMerge_good, hne, wordMerge_noInner, by intro n hn; cases hn⟩
  obtain ⟨limit, out, h⟩ := C98_word_to_cals_succeeds wConfig calsConfig mm_known (withTables wordMerge) (by decide) hE
  exact ⟨limit, out, by intro q; simp [wConfig]; positivity, fun _ => by simp [wConfig], rfl, mm_known, by decide, hE,
    plainTable_of (by decide +kernel) (by decide +kernel) (by decide +kernel), h⟩

end Benker
