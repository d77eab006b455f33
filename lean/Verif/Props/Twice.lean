import Verif.Spec.Twice
import Verif.Props.FormexDocument
import Verif.Props.EndToEnd

/-! C100: documents which are converted twice. -/

namespace Benker
open PyM CalsSpec FmxSpec Benker.Shown

variable {isT : QName → Prop} {R : List Node → Node → Node → Prop} {S : Nat → Node → Node → Node → Prop} {names : List QName}

mutual
theorem freeAround_sub {names' : List QName} (hs : ∀ q ∈ names', q ∈ names) : ∀ {n : Node}, FreeAround isT names n → FreeAround isT names' n
  | .elem .., h => h.imp id (fun h => ⟨fun hm => h.1 (hs _ hm), freeAroundList_sub hs h.2⟩)
  | .pi .., _ => trivial
  | .comment .., _ => trivial
theorem freeAroundList_sub {names' : List QName} (hs : ∀ q ∈ names', q ∈ names) : ∀ {ns : List Node}, FreeAroundList isT names ns → FreeAroundList isT names' ns
  | [], _ => trivial
  | _ :: _, h => ⟨freeAround_sub hs h.1, freeAroundList_sub hs h.2⟩
end

/-- there is no `CORPUS` among siblings which hold no Formex table, once their tables are replaced -/
theorem around_noCorpus (hR : ∀ ctx n m, R ctx n m → m.tag? = some (name "TBL")) (hno : name "CORPUS" ∈ names) {ctx : List Node} {n m : Node}
    (h : Around isT R ctx n m) (hf : FreeAround isT names n) : m.tag? ≠ some ⟨none, "CORPUS"⟩ := by
  cases h with
  | table _ t a x cs tl n' h1 h2 h3 => rw [hR _ _ _ h2]; decide
  | elem _ t a x cs cs' tl h1 h2 =>
    rcases hf with hf | ⟨hf, _⟩
    · exact absurd hf h1
    · intro e
      have : t = name "CORPUS" := Option.some.inj e
      exact hf (by rw [this]; exact hno)
  | pi => simp [Node.tag?]
  | comment => simp [Node.tag?]

theorem aroundList_noCorpus (hR : ∀ ctx n m, R ctx n m → m.tag? = some (name "TBL")) (hno : name "CORPUS" ∈ names) : ∀ {ctx ns ms : List Node},
    AroundList isT R ctx ns ms → FreeAroundList isT names ns → ∀ m ∈ ms, m.tag? ≠ some ⟨none, "CORPUS"⟩
  | _, _, _, .nil _, _ => by intro m hm; cases hm
  | _, _, _, .cons _ _ _ _ _ h1 h2, hf => by
    intro m hm
    rcases List.mem_cons.mp hm with rfl | hm
    · exact around_noCorpus hR hno h1 hf.1
    · exact aroundList_noCorpus hR hno h2 hf.2 m hm

mutual
/-- tables are replaced by Formex tables, and then these are converted -/
theorem around_formex (hR : ∀ ctx n m, R ctx n m → m.tag? = some (name "TBL")) (hno : name "CORPUS" ∈ names ∧ name "BLK" ∈ names) :
    ∀ {ctx : List Node} {n m o : Node}, Around isT R ctx n m → FreeAround isT names n → AroundFormex none S 0 m o →
      Around isT (fun ctx n o => ∃ m, R ctx n m ∧ AroundFormex none S 0 m o) ctx n o
  | _, _, _, _, .table ctx t a x cs tl m h1 h2 h3, _, h4 => by
    refine .table _ _ _ _ _ _ _ h1 ⟨_, h2, h4⟩ ?_
    rw [← h3]
    cases h4 <;> rfl
  | _, _, _, _, .elem ctx t a x cs cs' tl h1 h2, hf, h4 => by
    rcases hf with hf | ⟨hf1, hf2⟩
    · exact absurd hf h1
    cases h4 with
    | elem _ _ _ _ _ cs'' _ g =>
      rw [if_neg (show ¬ t = ⟨none, "BLK"⟩ from fun e => hf1 (by rw [e]; exact hno.2))] at g
      exact .elem _ _ _ _ _ _ _ h1 (aroundList_formex hR hno h2 hf2 g)
  | _, _, _, _, .pi .., _, h4 => by cases h4; exact .pi ..
  | _, _, _, _, .comment .., _, h4 => by cases h4; exact .comment ..
theorem aroundList_formex (hR : ∀ ctx n m, R ctx n m → m.tag? = some (name "TBL")) (hno : name "CORPUS" ∈ names ∧ name "BLK" ∈ names) :
    ∀ {ctx ns ms os : List Node} {t : QName} {a : Dict QName String} {before : List Node}, AroundList isT R ctx ns ms → FreeAroundList isT names ns →
      AroundFormexList none S 0 t a before ms os → AroundList isT (fun ctx n o => ∃ m, R ctx n m ∧ AroundFormex none S 0 m o) ctx ns os
  | _, _, _, _, _, _, _, .nil _, _, h => by cases h; exact .nil _
  | _, _, _, _, _, _, _, .cons _ _ _ _ _ h1 h2, hf, h => by
    have hc := around_noCorpus hR hno.1 h1 hf.1
    cases h with
    | table _ _ _ _ _ _ _ _ g1 => exact absurd g1 hc
    | notes _ _ _ _ _ _ _ g1 =>
      obtain ⟨_, m, hm, he⟩ := g1
      exact absurd he (aroundList_noCorpus hR hno.1 h2 hf.2 m hm)
    | other _ _ _ _ _ _ _ _ _ _ g3 g4 => exact .cons _ _ _ _ _ (around_formex hR hno h1 hf.1 g3) (aroundList_formex hR hno h2 hf.2 g4)
end

mutual
/-- what is around the tables is still so once the tables are replaced -/
theorem around_free {isT' : QName → Prop} (hR : ∀ ctx n m t, n.tag? = some t → isT t → R ctx n m → ∃ t, m.tag? = some t ∧ isT' t) : ∀ {ctx : List Node} {n m : Node}, Around isT R ctx n m →
    FreeAround isT names n → FreeAround isT' names m
  | _, _, _, .table ctx t a x cs tl m h1 h2 h3, _ => by
    obtain ⟨t', ht', h⟩ := hR _ _ _ _ rfl h1 h2
    obtain ⟨_, _, _, _, rfl⟩ := tag_elem ht'
    exact .inl h
  | _, _, _, .elem ctx t a x cs cs' tl h1 h2, hf => by
    rcases hf with hf | ⟨hf1, hf2⟩
    · exact absurd hf h1
    · exact .inr ⟨hf1, aroundList_free hR h2 hf2⟩
  | _, _, _, .pi .., _ => trivial
  | _, _, _, .comment .., _ => trivial
theorem aroundList_free {isT' : QName → Prop} (hR : ∀ ctx n m t, n.tag? = some t → isT t → R ctx n m → ∃ t, m.tag? = some t ∧ isT' t) : ∀ {ctx ns ms : List Node}, AroundList isT R ctx ns ms →
    FreeAroundList isT names ns → FreeAroundList isT' names ms
  | _, _, _, .nil _, _ => trivial
  | _, _, _, .cons _ _ _ _ _ h1 h2, hf => ⟨around_free hR h1 hf.1, aroundList_free hR h2 hf.2⟩
end

/-- the conversion of a table which holds nothing but its notes and its `CORPUS` -/
theorem holds_corpus {blk : Nat} {t : QName} {a : Dict QName String} {corpus : Node} (hc : corpus.tag? = some ⟨none, "CORPUS"⟩) : ∀ {notes before cs : List Node},
    (∀ n ∈ notes, n.tag? = some ⟨none, "GR.NOTES"⟩) → AroundFormexList none S blk t a before (notes ++ [corpus]) cs →
      ∃ C, cs = [C] ∧ S blk (.elem t a none (before ++ notes ++ [corpus]) none) corpus C
  | [], before, cs, _, h => by
    cases h with
    | table _ _ _ _ _ n' _ _ g1 g2 g3 g4 =>
      cases g4
      exact ⟨n', rfl, by rw [List.append_nil]; exact g2⟩
    | notes _ _ _ _ _ _ _ g1 =>
      obtain ⟨_, m, hm, _⟩ := g1
      cases hm
    | other _ _ _ _ _ _ _ _ g1 => exact absurd hc g1
  | n :: notes, before, cs, hn, h => by
    have hno : NotesOfTable none n (notes ++ [corpus]) := ⟨hn n (by simp), corpus, by simp, hc⟩
    cases h with
    | table _ _ _ _ _ _ _ _ g1 =>
      rw [hn n (by simp)] at g1
      exact absurd g1 (by decide)
    | notes _ _ _ _ _ _ _ _ g2 =>
      obtain ⟨C, h1, h2⟩ := holds_corpus hc (fun m hm => hn m (by simp [hm])) g2
      refine ⟨C, h1, ?_⟩
      rw [show before ++ n :: notes ++ [corpus] = before ++ [n] ++ notes ++ [corpus] by simp]
      exact h2
    | other _ _ _ _ _ _ _ _ g1 g2 => exact absurd hno g2

/-- the conversion to CALS of a final Formex table, in a document -/
theorem final_back {c : Fmx2Cals.Config} {cals : Option String} {lost : List Tok → Prop} {w h : Nat} {p : Picture} {F o : Node}
    (hF : InFormex cals lost w h p F) (hplain : Without c.builder.ns calsNames p)
    (ho : AroundFormex none (fun blk parent T C => ∀ (d : FmxDoc) (w h : Nat), d.corpus = T → FormexTable none cals blk parent d w h →
        OneKind (formexPicture none false d) → Without c.builder.ns calsNames (formexPicture none false d) →
          ∃ (d' : CalsDoc) (p : Picture), d'.table = C ∧ InCals c.builder.ns d' w h p ∧ Regrouped c.builder.tgroupSorting (formexPicture none false d) p ∧
            (Grouped c.builder.tgroupSorting (formexPicture none false d) → p = formexPicture none false d)) 0 F o) :
    ∃ q r, SameLines lost (p.map Line.inFormex) q ∧ Regrouped c.builder.tgroupSorting q r ∧ (Grouped c.builder.tgroupSorting q → r = q) ∧ HoldsCals c.builder.ns w h r o := by
  obtain ⟨d, htag, hch, hn, hd, hw, hc, hl, hin⟩ := hF
  obtain ⟨a, x, cs, tl, rfl⟩ := toks_elem F htag
  have hcs : cs = d.notes.map (·.node) ++ [d.corpus] := hch
  subst hcs
  have hnotes : ∀ n ∈ d.notes.map (·.node), n.tag? = some ⟨none, "GR.NOTES"⟩ := by
    intro n hm
    rcases hn.notes.1 with ⟨e, _⟩ | ⟨_, _, _, _, _, _, e⟩
    · cases e
    · rw [e] at hm
      exact of_decide_eq_true (List.mem_filter.mp hm).2
  cases ho with
  | elem _ _ _ _ _ cs' _ g =>
    rw [if_neg (show ¬ FmxSpec.name "TBL" = ⟨none, "BLK"⟩ by decide)] at g
    obtain ⟨C, rfl, hS⟩ := holds_corpus hn.corpus hnotes g
    have hpic := final_picture hl
    have hkind : ∀ l ∈ d.lines, l.kind none = "body" := by
      intro l hl'
      have h1 := kind_line (hn.lines l hl').1
      obtain ⟨m, _, e, _⟩ := hl.mem_right (List.mem_append_left _ hl')
      rw [e] at h1 ⊢
      split at h1
      · exact absurd rfl h1
      · rename_i hne
        rw [if_neg hne]
    have hn' : d.Nested none cals 0 (some (.elem (FmxSpec.name "TBL") a none (d.notes.map (·.node) ++ [d.corpus]) none)) := by
      refine ⟨hn.corpus, hn.inCorpus, hn.cols, ⟨?_, hn.notes.2⟩, hn.lines, hn.rows, hn.titles, hn.whole⟩
      rcases hn.notes.1 with ⟨e, _⟩ | ⟨_, b, f, e, h1, h2⟩
      · cases e
      · cases e
        exact .inr ⟨_, b, f, rfl, h1, h2⟩
    have hT : FormexTable none cals 0 (.elem (FmxSpec.name "TBL") a none (d.notes.map (·.node) ++ [d.corpus]) none) d w h := by
      refine ⟨hn', hd, hw, hc, ?_⟩
      intro l hl' t b ht e
      have htg := hnotes l.node (List.mem_map.mpr ⟨l, hl', rfl⟩)
      obtain ⟨na, nx, ncs, ntl, hnode⟩ := tag_elem htg
      have hins := hin l hl'
      rw [hnode] at ht hins
      have hfree : Free [name "CORPUS"] [Node.elem ⟨none, "GR.NOTES"⟩ na nx ncs ntl] :=
        free_elem.mpr ⟨by decide, by
          intro t b ht hm
          rw [List.mem_singleton.mp hm] at ht
          exact (hins _ b ht).1 rfl (by simp [name])⟩
      exact hfree t b (by simpa [toksList] using ht) (by rw [e]; simp [name])
    obtain ⟨d', r, h1, h2, h3, h4⟩ := hS d w h rfl hT (final_oneKind hn hd hkind) (sameLines_without hpic hplain)
    exact ⟨_, r, hpic, h3, h4, C, d', rfl, h1, h2⟩

/-- **C100**, CALS to Formex and back to CALS: for every document which is not itself a table, with any number of CALS tables, and where there are no Formex tables (out
of the CALS tables): if it is converted to Formex, and if the result is converted to CALS, then the final document is the first one - elements, attributes and texts -
where each CALS table which is in no other one is replaced by a `TBL`.  If this table is drawn on a grid, and can be written in Formex and in CALS as it is, then the
`TBL` holds nothing but a CALS table, drawn on the same grid, which shows the same lines, sorted by kind as the option asks for; a header is a part of the body. -/
theorem C100_cals_formex_cals (pc : CalsP.Config) (bc : Fmx.Config) (doc mid out back : Node) (limit limit' : Nat) (hroot : doc.tag? ≠ some ⟨pc.ns, "table"⟩)
    (hfree : FreeAround (· = ⟨pc.ns, "table"⟩) (["TBL", "CORPUS", "ROW", "BLK"].map name) doc)
    (htables : Convert.transformTables (Convert.cals2formex pc bc) limit doc = .ok mid) (hfin : Fmx.finalize bc mid = .ok out)
    (c : Fmx2Cals.Config) (cals : Option String) (hcals : bc.useCals = true → cals = bc.calsNs) (hpc : c.parser = ⟨none, cals, false⟩)
    (ns : Option String) (u : List Char) (tg : Bool) (sorting : Option (List String)) (fl : Rat → Rat)
    (hcfg : Cals.Config.new ns u tg sorting fl = .ok c.builder) (hback : Fmx2Cals.transformTables c limit' out = .ok back) :
    Around (· = ⟨pc.ns, "table"⟩) (fun _ T B => B.tag? = some (FmxSpec.name "TBL") ∧ (NotesApart mid →
      ∀ (d : CalsDoc) (w h : Nat) (p : Picture), d.table = T → InCals pc.ns d w h p → ForFormex cals bc w p →
        (bc.useCals = true → ∀ r ∈ d.rows, r.2.node.attr ⟨pc.ns, "rowstyle"⟩ = none) → Without c.builder.ns calsNames p →
        ∃ r, HoldsCals c.builder.ns w h r B ∧ Regrouped c.builder.tgroupSorting (p.map Line.inFormex) r ∧
          (Grouped c.builder.tgroupSorting (p.map Line.inFormex) → r = p.map Line.inFormex))) [] doc back := by
  have h1 := C91_cals_to_formex pc bc doc mid out limit hroot (freeAround_sub (by decide) hfree) htables hfin
  have hr : out.tag? ≠ some ⟨c.parser.ns, "CORPUS"⟩ := by
    rw [hpc]
    exact around_noCorpus (names := ["TBL", "CORPUS", "ROW", "BLK"].map name) (fun _ _ _ h => h.1) (by decide) h1 hfree
  have h2 := C98_formex_to_cals c ns u tg sorting fl hcfg out back limit' hr hback
  rw [show c.parser.ns = none by rw [hpc]] at h2
  refine (around_formex (fun _ _ _ h => h.1) (by decide) h1 hfree h2).imp ?_
  rintro _ T B ⟨F, ⟨htag, hF⟩, hB⟩
  refine ⟨by cases hB <;> exact htag, ?_⟩
  rintro hap d w h p hT hd hp hs hplain
  obtain ⟨q, r, g1, g2, g3, g4⟩ := final_back (hF hap cals d w h p hcals hT hd hp hs) hplain (hB.imp (by
    rintro blk parent T C _ ⟨_, hC⟩ d w h e ht ho hw
    have := (hC d w h e (by rw [hpc]; exact ht)).2
    rw [show c.parser.embedGrNotes = false by rw [hpc]] at this
    exact this ho hw))
  rw [sameLines_false g1] at g2 g3
  exact ⟨r, g4, g2, g3⟩

/-- **C100**, Word to Formex, then to CALS: the same for every document with Word tables; only the contents of the cells which have neither text nor image may be lost. -/
theorem C100_word_formex_cals (pc : Ooxml.Config) (bc : Fmx.Config) (doc mid out back : Node) (limit limit' : Nat) (hroot : doc.tag? ≠ some (OoxmlSpec.name "tbl"))
    (hfree : FreeAround (· = OoxmlSpec.name "tbl") (["TBL", "CORPUS", "ROW", "BLK"].map name) doc)
    (htables : Convert.transformTables (Convert.ooxml2formex pc bc) limit doc = .ok mid) (hfin : Fmx.finalize bc mid = .ok out)
    (c : Fmx2Cals.Config) (cals : Option String) (hcals : bc.useCals = true → cals = bc.calsNs) (hpc : c.parser = ⟨none, cals, false⟩)
    (ns : Option String) (u : List Char) (tg : Bool) (sorting : Option (List String)) (fl : Rat → Rat)
    (hcfg : Cals.Config.new ns u tg sorting fl = .ok c.builder) (hback : Fmx2Cals.transformTables c limit' out = .ok back) :
    Around (· = OoxmlSpec.name "tbl") (fun following T B => B.tag? = some (FmxSpec.name "TBL") ∧ (NotesApart mid →
      ∀ (styles : Node → Styles) (nature : Node → String) (W : Nat), OoxmlSpec.GoodTable pc (Convert.firstSectList following) styles nature W T →
        OoxmlSpec.kids ["tr"] T ≠ [] → ForFormex cals bc W (wordPicture T) →
        (∀ l ∈ wordPicture T, ∀ b ∈ l.cells, ∀ t a, Tok.opening t a ∈ b.2 → t ≠ OoxmlSpec.name "tbl") → Without c.builder.ns calsNames (wordPicture T) →
        ∃ r, HoldsCals c.builder.ns W (OoxmlSpec.kids ["tr"] T).length r B ∧ SameLines Blank ((wordPicture T).map Line.inFormex) r)) [] doc back := by
  have h1 := C91_word_to_formex pc bc doc mid out limit hroot (freeAround_sub (by decide) hfree) htables hfin
  have hr : out.tag? ≠ some ⟨c.parser.ns, "CORPUS"⟩ := by
    rw [hpc]
    exact around_noCorpus (names := ["TBL", "CORPUS", "ROW", "BLK"].map name) (fun _ _ _ h => h.1) (by decide) h1 hfree
  have h2 := C98_formex_to_cals c ns u tg sorting fl hcfg out back limit' hr hback
  rw [show c.parser.ns = none by rw [hpc]] at h2
  refine (around_formex (fun _ _ _ h => h.1) (by decide) h1 hfree h2).imp ?_
  rintro ctx T B ⟨F, ⟨htag, hF⟩, hB⟩
  refine ⟨by cases hB <;> exact htag, ?_⟩
  intro hap styles nature W hg hne hp hin hplain
  obtain ⟨q, r, g1, g2, g3, g4⟩ := final_back (hF hap cals styles nature W hcals hg hne hp hin) hplain (hB.imp (by
    rintro blk parent T C _ ⟨_, hC⟩ d w h e ht ho hw
    have := (hC d w h e (by rw [hpc]; exact ht)).2
    rw [show c.parser.embedGrNotes = false by rw [hpc]] at this
    exact this ho hw))
  have hall : ∀ l ∈ q, l.kind = "body" := by
    intro l hl
    obtain ⟨m, hm, e, _⟩ := g1.mem_right hl
    obtain ⟨m', hm', rfl⟩ := List.mem_map.mp hm
    rw [e]
    obtain ⟨j, hj⟩ := List.mem_iff_getElem?.mp hm'
    obtain ⟨tr, _, e, _⟩ := wordLines_get 1 _ j m' hj
    unfold Line.inFormex
    rw [e]
    unfold OoxmlSpec.natureOfRow
    split <;> simp
  have hg : Grouped c.builder.tgroupSorting q := by
    intro rank _
    rw [List.pairwise_iff_getElem]
    intro a b ha hb _
    rw [hall _ (List.getElem_mem ha), hall _ (List.getElem_mem hb)]
  rw [g3 hg] at g4
  exact ⟨q, g4, g1⟩

/-- **C100**, Word to CALS, then to Formex: for every document with Word tables, where there are neither CALS tables nor Formex tables (out of the Word tables): if it is
converted to CALS, and if the result is converted to Formex, then the final document is the first one where each Word table which is in no other one is replaced by a `TBL`.
If this table is drawn on a grid, its rows are sorted by kind, and it can be written in CALS and in Formex as it is, then the `TBL` is drawn on the same grid and shows the same. -/
theorem C100_word_cals_formex (pc : Ooxml.Config) (cb : Cals.Config) (ns : Option String) (u : List Char) (tg : Bool) (sorting : Option (List String)) (fl : Rat → Rat)
    (hcfg : Cals.Config.new ns u tg sorting fl = .ok cb) (doc cals mid out : Node) (limit limit' : Nat) (hroot : doc.tag? ≠ some (OoxmlSpec.name "tbl"))
    (hfree : FreeAround (· = OoxmlSpec.name "tbl") (⟨cb.ns, "table"⟩ :: ["TBL", "CORPUS", "ROW"].map name) doc)
    (hcals : Convert.transformTables (Convert.ooxml2cals pc cb) limit doc = .ok cals)
    (cp : CalsP.Config) (hcp : cp.ns = cb.ns) (bc : Fmx.Config) (huse : bc.useCals = false)
    (htables : Convert.transformTables (Convert.cals2formex cp bc) limit' cals = .ok mid) (hfin : Fmx.finalize bc mid = .ok out) :
    Around (· = OoxmlSpec.name "tbl") (fun following T F => F.tag? = some (FmxSpec.name "TBL") ∧ (NotesApart mid →
      ∀ (cns : Option String) (styles : Node → Styles) (nature : Node → String) (W : Nat), OoxmlSpec.GoodTable pc (Convert.firstSectList following) styles nature W T →
        OoxmlSpec.kids ["tr"] T ≠ [] → OneKind (wordPicture T) → Grouped cb.tgroupSorting (wordPicture T) → Without cb.ns calsNames (wordPicture T) →
        ForFormex cns bc W (wordPicture T) → (∀ l ∈ wordPicture T, ∀ b ∈ l.cells, ∀ t a, Tok.opening t a ∈ b.2 → t ≠ OoxmlSpec.name "tbl") →
        InFormex cns (fun _ => False) W (OoxmlSpec.kids ["tr"] T).length (wordPicture T) F)) [] doc out := by
  have h1 := C91_word_to_cals pc cb ns u tg sorting fl hcfg doc cals limit hroot hcals
  have hr : cals.tag? ≠ some ⟨cp.ns, "table"⟩ := by
    rw [hcp]
    cases h1 with
    | table _ t _ _ _ _ _ h => exact absurd (by rw [h]; rfl) hroot
    | elem _ t a x cs cs' tl h1 h2 =>
      rcases hfree with hf | ⟨hf, _⟩
      · exact absurd hf h1
      · intro e
        have : t = ⟨cb.ns, "table"⟩ := Option.some.inj e
        exact hf (by rw [this]; exact List.mem_cons_self)
    | pi => simp [Node.tag?]
    | comment => simp [Node.tag?]
  have hfree' : FreeAround (· = ⟨cp.ns, "table"⟩) (["TBL", "CORPUS", "ROW"].map name) cals :=
    around_free (fun _ _ _ _ _ _ h => ⟨_, h.1, by rw [hcp]⟩) h1 (freeAround_sub (fun _ h => List.mem_cons_of_mem _ h) hfree)
  have h2 := C91_cals_to_formex cp bc cals mid out limit' hr hfree' htables hfin
  refine (h1.trans (isT' := (· = ⟨cp.ns, "table"⟩)) (names := ⟨cb.ns, "table"⟩ :: ["TBL", "CORPUS", "ROW"].map name) ?_ ?_ hfree h2).imp ?_
  · intro _ n m t _ _ h
    exact ⟨_, h.1, by rw [hcp]⟩
  · intro t ht
    rw [show t = ⟨cp.ns, "table"⟩ from ht, hcp]
    exact List.mem_cons_self
  · rintro ctx T F ⟨C, ⟨htag, hC⟩, htagF, hF⟩
    refine ⟨htagF, ?_⟩
    intro hap cns styles nature W hg hne hone hgr hplain hp hin
    obtain ⟨d, p, g1, g2, g3, g4⟩ := hC styles nature W hg hne hone hplain hin
    rw [g4 hgr] at g2
    exact hF hap cns d W _ _ (fun e => by rw [huse] at e; cases e) g1 (by rw [hcp]; exact g2) hp (fun e => by rw [huse] at e; cases e)

/-! ### from Formex, and back -/

mutual
/-- where there are no tables out of the `TBL`, the tables are those of the `TBL` -/
theorem formex_around (hno : name "CORPUS" ∈ names ∧ name "BLK" ∈ names) : ∀ {ctx : List Node} {n m : Node}, FreeAround (· = name "TBL") names n → AroundFormex none S 0 n m →
    Around (· = name "TBL") (fun _ => AroundFormex none S 0) ctx n m
  | _, .elem t a x cs tl, _, hf, h => by
    by_cases ht : t = name "TBL"
    · refine .table _ _ _ _ _ _ _ ht h ?_
      cases h; rfl
    · rcases hf with hf | ⟨hf1, hf2⟩
      · exact absurd hf ht
      cases h with
      | elem _ _ _ _ _ cs'' _ g =>
        rw [if_neg (show ¬ t = ⟨none, "BLK"⟩ from fun e => hf1 (by rw [e]; exact hno.2))] at g
        exact .elem _ _ _ _ _ _ _ ht (formexList_around hno hf2 g)
  | _, .pi .., _, _, h => by cases h; exact .pi ..
  | _, .comment .., _, _, h => by cases h; exact .comment ..
theorem formexList_around (hno : name "CORPUS" ∈ names ∧ name "BLK" ∈ names) : ∀ {ctx ns ms : List Node} {t : QName} {a : Dict QName String} {before : List Node},
    FreeAroundList (· = name "TBL") names ns → AroundFormexList none S 0 t a before ns ms → AroundList (· = name "TBL") (fun _ => AroundFormex none S 0) ctx ns ms
  | _, [], _, _, _, _, _, h => by cases h; exact .nil _
  | _, n :: ns, _, _, _, _, hf, h => by
    have hc : ∀ {n : Node}, FreeAround (· = name "TBL") names n → n.tag? ≠ some ⟨none, "CORPUS"⟩ := by
      intro n hf
      cases n with
      | elem t a x cs tl =>
        intro e
        have e : t = name "CORPUS" := Option.some.inj e
        rcases hf with hf | ⟨hf, _⟩
        · rw [e] at hf; exact absurd hf (by decide)
        · exact hf (by rw [e]; exact hno.1)
      | pi => simp [Node.tag?]
      | comment => simp [Node.tag?]
    cases h with
    | table _ _ _ _ _ _ _ _ g1 => exact absurd g1 (hc hf.1)
    | notes _ _ _ _ _ _ _ g1 =>
      obtain ⟨_, m, hm, he⟩ := g1
      have : ∀ {ns : List Node}, FreeAroundList (· = name "TBL") names ns → ∀ m ∈ ns, FreeAround (· = name "TBL") names m := by
        intro ns
        induction ns with
        | nil => intro _ m hm; cases hm
        | cons n ns ih =>
          intro hf m hm
          rcases List.mem_cons.mp hm with rfl | hm
          · exact hf.1
          · exact ih hf.2 m hm
      exact absurd he (hc (this hf.2 m hm))
    | other _ _ _ _ _ _ _ _ _ _ g3 g4 => exact .cons _ _ _ _ _ (formex_around hno hf.1 g3) (formexList_around hno hf.2 g4)
end

mutual
/-- where there are no CALS tables out of the `TBL`, the tables are those of the `TBL` -/
theorem cals_around {q : QName} (hq : q ∈ names) (hq' : q ≠ name "TBL") : ∀ {ctx : List Node} {n m : Node}, FreeAround (· = name "TBL") names n → Around (· = q) R ctx n m →
    Around (· = name "TBL") (fun _ C M => ∃ ctx, Around (· = q) R ctx C M) ctx n m
  | _, .elem t a x cs tl, _, hf, h => by
    by_cases ht : t = name "TBL"
    · refine .table _ _ _ _ _ _ _ ht ⟨_, h⟩ ?_
      cases h with
      | table _ _ _ _ _ _ _ _ _ g => exact g
      | elem => rfl
    · rcases hf with hf | ⟨hf1, hf2⟩
      · exact absurd hf ht
      cases h with
      | table _ _ _ _ _ _ _ g => exact absurd hq (by rw [← show t = q from g]; exact hf1)
      | elem _ _ _ _ _ _ _ _ g => exact .elem _ _ _ _ _ _ _ ht (calsList_around hq hq' hf2 g)
  | _, .pi .., _, _, h => by cases h; exact .pi ..
  | _, .comment .., _, _, h => by cases h; exact .comment ..
theorem calsList_around {q : QName} (hq : q ∈ names) (hq' : q ≠ name "TBL") : ∀ {ctx ns ms : List Node}, FreeAroundList (· = name "TBL") names ns → AroundList (· = q) R ctx ns ms →
    AroundList (· = name "TBL") (fun _ C M => ∃ ctx, Around (· = q) R ctx C M) ctx ns ms
  | _, [], _, _, h => by cases h; exact .nil _
  | _, _ :: _, _, hf, h => by
    cases h with
    | cons _ _ _ _ _ g1 g2 => exact .cons _ _ _ _ _ (cals_around hq hq' hf.1 g1) (calsList_around hq hq' hf.2 g2)
end

mutual
theorem apart_of : ∀ {n : Node}, FreeAround (· = name "TBL") (["CORPUS", "ROW"].map name) n → TablesApart n
  | .elem .., h => h.imp id (fun h => ⟨fun e => h.1 (by rw [e]; simp), fun e => h.1 (by rw [e]; simp), apartList_of h.2⟩)
  | .pi .., _ => trivial
  | .comment .., _ => trivial
theorem apartList_of : ∀ {ns : List Node}, FreeAroundList (· = name "TBL") (["CORPUS", "ROW"].map name) ns → TablesApartList ns
  | [], _ => trivial
  | _ :: _, h => ⟨apart_of h.1, apartList_of h.2⟩
end

/-- a table in a table which holds nothing else: the inner table is taken away -/
theorem nested_cleanup {a a' : Dict QName String} {x x' tl tl' : Option String} {corpus : Node} (h : Free [name "TBL"] [corpus]) (pre : List Nat) (k : Nat) :
    Fmx.cleanupNode (num pre k (.elem (name "TBL") a x [.elem (name "TBL") a' x' [corpus] tl'] tl)).1 =
      Fmx.cleanupNode (num pre k (.elem (name "TBL") a x [corpus] tl)).1 := by
  have hinner : (num (pre ++ [k + 1]) 0 (.elem (name "TBL") a' x' [corpus] tl')).1 =
      .elem (name "TBL") (Dict.set a' (name "NO.SEQ") (Fmx.noSeqText (pre ++ [k + 1] ++ [0 + 1]))) x' [corpus] tl' := by
    unfold num
    rw [if_pos rfl]
    simp only [numList_free _ _ _ h]
  have h1 : (num pre k (.elem (name "TBL") a x [.elem (name "TBL") a' x' [corpus] tl'] tl)).1 =
      .elem (name "TBL") (Dict.set a (name "NO.SEQ") (Fmx.noSeqText (pre ++ [k + 1]))) x [(num (pre ++ [k + 1]) 0 (.elem (name "TBL") a' x' [corpus] tl')).1] tl := by
    conv => lhs; unfold num
    rw [if_pos rfl]
    simp only [numList]
  have h2 : (num pre k (.elem (name "TBL") a x [corpus] tl)).1 =
      .elem (name "TBL") (Dict.set a (name "NO.SEQ") (Fmx.noSeqText (pre ++ [k + 1]))) x [corpus] tl := by
    unfold num
    rw [if_pos rfl]
    simp only [numList_free _ _ _ h]
  rw [h1, h2, hinner]
  unfold Fmx.cleanupNode
  rw [if_pos (show name "TBL" = Fmx.f "TBL" from rfl)]
  congr 1
  rw [cleanupInTable_free _ h]
  unfold Fmx.cleanupInTable
  rw [if_pos (show name "TBL" = Fmx.f "TBL" from rfl), cleanupInTable_free _ h]
  rfl

/-- a table which is written in a `TBL` which holds nothing else, and is finalised -/
theorem nested_final {bc : Fmx.Config} {cns : Option String} {c : Convert.Conv} {q : QName} {e M F : Node} {a : Dict QName String} {x tl tl' : Option String} {w h : Nat}
    {p : Picture} {lost : List Tok → Prop}
    (hP : ∃ (d : FmxDoc) (body foot : List DocLine), Provisional bc.calsNs cns w h body foot e d ∧ FormexLines lost p d.lines ∧ OnlyFrom bc.calsNs p e)
    (hc : ∀ t, c.isTable t = true → t = q) (hq : q ∉ ⟨bc.calsNs, "colspec"⟩ :: ["TBL", "CORPUS", "ROW", "CELL", "IE"].map name)
    (hin : ∀ l ∈ p, ∀ b ∈ l.cells, ∀ t a, Tok.opening t a ∈ b.2 → t ≠ q) {ctx : List Node} (hM : Convert.ReplacedInside c ctx (e.setTail tl') M)
    {apart : Prop} (hap : apart) (hF : FinalForm apart bc (.elem (name "TBL") a x [M] tl) F) : InFormex cns lost w h p F := by
  obtain ⟨d, body, foot, P, hl, ho⟩ := hP
  have hM' := hM.free (only_tableFree ho hc hq hin tl')
  subst hM'
  obtain ⟨ea, ex, ecs, etl, rfl⟩ := tag_elem P.tag
  have hecs : ecs = [d.corpus] := P.only
  subst hecs
  have hfree : Free [name "TBL"] [d.corpus] := by
    intro t b ht hm
    refine P.names t b (by simpa [toksList] using ht) ?_
    rw [List.mem_singleton.mp hm]; simp
  have P' : Provisional bc.calsNs cns w h body foot (.elem (name "TBL") a x [d.corpus] tl) d := by
    refine ⟨rfl, rfl, P.notes, ⟨P.nested.corpus, P.nested.inCorpus, P.nested.cols, ⟨?_, P.nested.notes.2⟩, P.nested.lines, P.nested.rows,
      P.nested.titles, P.nested.whole⟩, P.drawn, P.columns, P.lines, P.plain, P.spans, P.names, P.unstyled, P.body, P.foot⟩
    rcases P.nested.notes.1 with ⟨e, _⟩ | ⟨p, b, f, e, h1, h2⟩
    · cases e
    · cases e
      exact .inr ⟨_, b, f, rfl, h1, h2⟩
  obtain ⟨pre, k, E, B, ⟨_, h1⟩, h2, rfl⟩ := hF
  have h1 := h1 hap
  obtain ⟨E', B', g1, g2, d', F'⟩ := final_table bc P' pre k
  rw [← nested_cleanup (a' := ea) (x' := ex) (tl' := tl') hfree, show Node.elem (name "TBL") ea ex [d.corpus] tl' = (Node.elem (name "TBL") ea ex [d.corpus] etl).setTail tl' from rfl,
    h1] at g1
  cases g1
  rw [h2] at g2
  cases g2
  exact ⟨d', F'.tag, F'.only, F'.nested, F'.drawn, F'.widthKnown, F'.columns, final_lines P' F' hl, F'.inside⟩

/-- **C100**, Formex to CALS and back to Formex: for every document whose Formex tables are in `TBL` elements, and where there are no CALS tables (out of the `TBL`): if it
is converted to CALS, and if the result is converted to Formex, then the final document is the first one - elements, attributes and texts - where each `TBL` which is
in no other one is replaced by a `TBL`.  If this `TBL` holds nothing but a table and its notes, if this table is drawn on a grid, if its rows are sorted by kind, and if it can be
written in CALS and in Formex as it is, then the final `TBL` holds nothing but a table and its notes, drawn on the same grid, which shows the same lines. -/
theorem C100_formex_cals_formex (c : Fmx2Cals.Config) (cals : Option String) (hpc : c.parser = ⟨none, cals, false⟩)
    (ns : Option String) (u : List Char) (tg : Bool) (sorting : Option (List String)) (fl : Rat → Rat) (hcfg : Cals.Config.new ns u tg sorting fl = .ok c.builder)
    (doc mid back out : Node) (limit limit' : Nat)
    (hfree : FreeAround (· = name "TBL") (⟨c.builder.ns, "table"⟩ :: ["CORPUS", "ROW", "BLK"].map name) doc)
    (hcals : Fmx2Cals.transformTables c limit doc = .ok mid) (cp : CalsP.Config) (hcp : cp.ns = c.builder.ns) (bc : Fmx.Config) (huse : bc.useCals = false)
    (htables : Convert.transformTables (Convert.cals2formex cp bc) limit' mid = .ok back) (hfin : Fmx.finalize bc back = .ok out) :
    Around (· = name "TBL") (fun _ T F => F.tag? = some (name "TBL") ∧ (NotesApart back →
      ∀ (cns : Option String) (d : FmxDoc) (w h : Nat), T.children = d.notes.map (·.node) ++ [d.corpus] → FormexTable none cals 0 T d w h →
        OneKind (formexPicture none false d) → Grouped c.builder.tgroupSorting (formexPicture none false d) → Without c.builder.ns calsNames (formexPicture none false d) →
        ForFormex cns bc w (formexPicture none false d) →
        InFormex cns (fun _ => False) w h (formexPicture none false d) F)) [] doc out := by
  have hroot : ∀ q ∈ (⟨c.builder.ns, "table"⟩ : QName) :: ["CORPUS", "ROW", "BLK"].map name, q ≠ name "TBL" → doc.tag? ≠ some q := by
    intro q hq hne e
    obtain ⟨_, _, _, _, rfl⟩ := tag_elem e
    rcases hfree with hf | ⟨hf, _⟩
    · exact hne hf
    · exact hf hq
  have hne : (⟨c.builder.ns, "table"⟩ : QName) ≠ name "TBL" := fun e => absurd (congrArg QName.name e) (by simp [name])
  have h1 := C98_formex_to_cals c ns u tg sorting fl hcfg doc mid limit (by rw [hpc]; exact hroot (name "CORPUS") (by simp) (by decide)) hcals
  rw [show c.parser.ns = none by rw [hpc]] at h1
  have g1 := formex_around (ctx := []) (names := ⟨c.builder.ns, "table"⟩ :: ["CORPUS", "ROW", "BLK"].map name) (by simp) hfree h1
  have htag : mid.tag? = doc.tag? := by cases h1 <;> rfl
  have hsel : (Convert.cals2formex cp bc).selects mid = false := by
    cases hm : mid with
    | elem t a x cs tl =>
      refine decide_eq_false_iff_not.mpr (fun e => hroot ⟨c.builder.ns, "table"⟩ (by simp) hne ?_)
      rw [← htag, hm, e, ← hcp]
      rfl
    | pi => rfl
    | comment => rfl
  have hT : (fun t => (Convert.cals2formex cp bc).isTable t = true) = (· = ⟨c.builder.ns, "table"⟩) := by
    funext t
    rw [← hcp]
    exact propext decide_eq_true_iff
  have h2 := replaced_around ((Convert.C58_replacement _ mid back hsel).mp ⟨limit', htables⟩)
  rw [hT] at h2
  have hfree2 : FreeAround (· = name "TBL") (⟨c.builder.ns, "table"⟩ :: ["CORPUS", "ROW", "BLK"].map name) mid := by
    refine around_free ?_ g1 hfree
    intro ctx n m t h1 h2 h3
    exact ⟨t, by cases h3 <;> exact h1, h2⟩
  have g2 := cals_around (names := ⟨c.builder.ns, "table"⟩ :: ["CORPUS", "ROW", "BLK"].map name) List.mem_cons_self hne hfree2 h2
  have hfree3 : FreeAround (· = name "TBL") (⟨c.builder.ns, "table"⟩ :: ["CORPUS", "ROW", "BLK"].map name) back := by
    refine around_free ?_ g2 hfree2
    rintro ctx n m t h1 h2 ⟨_, h3⟩
    refine ⟨t, ?_, h2⟩
    cases h3 with
    | table _ _ _ _ _ _ _ g => exact absurd ((show _ = _ from g).symm.trans ((Option.some.inj h1).trans h2)) hne
    | elem => exact h1
    | pi => exact h1
    | comment => exact h1
  have g3 := finalize_around (ctx := []) (apart_of (freeAround_sub (by intro q hq; revert hq; simp only [List.mem_cons, List.map_cons, List.map_nil, List.not_mem_nil, or_false]; rintro (h | h) <;> simp [h]) hfree3)) hfin
  have htbl : isTbl = (· = name "TBL") := rfl
  rw [htbl] at g3
  have e12 := g1.trans (isT' := (· = name "TBL")) (names := [name "TBL"]) (by
    intro ctx n m t h1 h2 h3
    exact ⟨t, by cases h3 <;> exact h1, h2⟩) (fun t ht => by simp [show t = name "TBL" from ht]) (freeAround_self doc) g2
  have e123 := e12.trans (isT' := (· = name "TBL")) (names := [name "TBL"]) (by
    rintro ctx n m t h1 h2 ⟨m', h3, _, h4⟩
    have e1 : m'.tag? = some t := by cases h3 <;> exact h1
    refine ⟨t, ?_, h2⟩
    cases h4 with
    | table _ _ _ _ _ _ _ g => exact absurd ((show _ = _ from g).symm.trans ((Option.some.inj e1).trans h2)) hne
    | elem => exact e1
    | pi => exact e1
    | comment => exact e1) (fun t ht => by simp [show t = name "TBL" from ht]) (freeAround_self doc) g3
  refine e123.imp_tag ?_
  rintro ctx T F t ht hT' ⟨M, ⟨C, hC, ctx', hM⟩, hF⟩
  obtain ⟨a, x, cs, tl, rfl⟩ := tag_elem ht
  have hT' : t = name "TBL" := hT'
  subst hT'
  cases hC with
  | elem _ _ _ _ _ cs' _ hC =>
  cases hM with
  | table _ _ _ _ _ _ _ g => exact absurd (show name "TBL" = _ from g).symm hne
  | elem _ _ _ _ _ cs'' _ _ hM =>
  refine ⟨finalForm_tag hF, ?_⟩
  intro hap cns d w h hch ht hone hgr hplain hp
  have hcs : cs = d.notes.map (·.node) ++ [d.corpus] := hch
  subst hcs
  rw [if_neg (show ¬ name "TBL" = ⟨none, "BLK"⟩ by decide)] at hC
  have hnotes : ∀ n ∈ d.notes.map (·.node), n.tag? = some ⟨none, "GR.NOTES"⟩ := by
    intro n hm
    rcases ht.nested.notes.1 with ⟨e, _⟩ | ⟨_, _, _, _, _, _, e⟩
    · cases e
    · rw [e] at hm
      exact of_decide_eq_true (List.mem_filter.mp hm).2
  obtain ⟨C1, rfl, htagC, hS⟩ := holds_corpus ht.nested.corpus hnotes hC
  have ht' : FormexTable none c.parser.calsNs 0 (.elem (name "TBL") a none ([] ++ d.notes.map (·.node) ++ [d.corpus]) none) d w h := by
    rw [hpc]
    refine ⟨⟨ht.nested.corpus, ht.nested.inCorpus, ht.nested.cols, ⟨?_, ht.nested.notes.2⟩, ht.nested.lines, ht.nested.rows, ht.nested.titles, ht.nested.whole⟩,
      ht.drawn, ht.width, ht.columns, ht.notes⟩
    rcases ht.nested.notes.1 with ⟨e, _⟩ | ⟨_, b, f, e, h1, h2⟩
    · cases e
    · cases e
      exact .inr ⟨_, b, f, rfl, h1, h2⟩
  have hS := (hS d w h rfl ht').2
  rw [show c.parser.embedGrNotes = false by rw [hpc]] at hS
  obtain ⟨d', p, rfl, hd', _, hq⟩ := hS hone hplain
  have hq := hq hgr
  subst hq
  cases hM with
  | cons _ _ M1 _ _ hM hnil =>
  cases hnil
  obtain ⟨ca, cx, ccs, ctl, hCe⟩ := tag_elem htagC
  rw [hCe] at hM
  cases hM with
  | elem _ _ _ _ _ _ _ g => exact absurd rfl g
  | table _ _ _ _ _ _ _ _ g htl =>
  obtain ⟨e, he, hi⟩ := g
  rw [← hCe] at he
  have ha : Accepted cp d'.table := by
    have he' := he
    unfold Convert.cals2formex at he'
    obtain ⟨t, ht, _⟩ := Convert.thenGenerate_ok he'
    exact accepted_of_ok (by rw [htagC, ← hcp]) ht
  rw [← hcp] at hd'
  exact nested_final (cals_provisional cp bc cns (fun e => by rw [huse] at e; cases e) d' w h hd'.nested hd'.drawn hd'.columns ha _ hd'.shows hp.title hp.footers
    (fun e => by rw [huse] at e; cases e) hp.plain hp.columns _ e he) (q := ⟨cp.ns, "table"⟩) (fun t ht => of_decide_eq_true ht) calsQ (cals_contents hd'.nested hd'.shows) hi hap hF

/-! ### examples -/

/-- two conversions, one after the other, with the finalisation of Formex documents after the first -/
def throughFormex (conv : Convert.Conv) (bc : Fmx.Config) (c : Fmx2Cals.Config) (doc : Node) : Bool :=
  match Convert.transformTables conv 100 doc with
  | .ok mid =>
    match Fmx.finalize bc mid with
    | .ok out => decide (NotesApart mid) && (Fmx2Cals.transformTables c 100 out).isOk
    | .error _ => false
  | .error _ => false

theorem throughFormex_ok {conv : Convert.Conv} {bc : Fmx.Config} {c : Fmx2Cals.Config} {doc : Node} (h : throughFormex conv bc c doc = true) :
    ∃ mid out back, Convert.transformTables conv 100 doc = .ok mid ∧ Fmx.finalize bc mid = .ok out ∧ Fmx2Cals.transformTables c 100 out = .ok back ∧ NotesApart mid := by
  unfold throughFormex at h
  cases h1 : Convert.transformTables conv 100 doc with
  | error e => rw [h1] at h; cases h
  | ok mid =>
    rw [h1] at h
    simp only at h
    cases h2 : Fmx.finalize bc mid with
    | error e => rw [h2] at h; cases h
    | ok out =>
      rw [h2] at h
      simp only [Bool.and_eq_true, decide_eq_true_eq] at h
      obtain ⟨back, h3⟩ := ok_of h.2
      exact ⟨mid, out, back, rfl, h2, h3, h.1⟩

/-- two conversions, one after the other, with the finalisation of Formex documents after the second -/
def throughCals (first : Except PyErr Node) (conv : Convert.Conv) (bc : Fmx.Config) : Bool :=
  match first with
  | .ok mid =>
    match Convert.transformTables conv 100 mid with
    | .ok out => decide (NotesApart out) && (Fmx.finalize bc out).isOk
    | .error _ => false
  | .error _ => false

theorem throughCals_ok {first : Except PyErr Node} {conv : Convert.Conv} {bc : Fmx.Config} (h : throughCals first conv bc = true) :
    ∃ mid out back, first = .ok mid ∧ Convert.transformTables conv 100 mid = .ok out ∧ Fmx.finalize bc out = .ok back ∧ NotesApart out := by
  unfold throughCals at h
  cases first with
  | error e => cases h
  | ok mid =>
    simp only at h
    cases h2 : Convert.transformTables conv 100 mid with
    | error e => rw [h2] at h; cases h
    | ok out =>
      rw [h2] at h
      simp only [Bool.and_eq_true, decide_eq_true_eq] at h
      obtain ⟨back, h3⟩ := ok_of h.2
      exact ⟨mid, out, back, rfl, h2, h3, h.1⟩

/-- a document with a paragraph and twice a table -/
theorem withTables_free' {q : QName} {a x cs tl} {names : List QName} (h : qn "DOC" ∉ names ∧ qn "P" ∉ names ∧ qn "DIV" ∉ names) :
    FreeAround (· = q) names (withTables (.elem q a x cs tl)) :=
  .inr ⟨h.1, .inr ⟨h.2.1, trivial⟩, .inl rfl, .inr ⟨h.2.2, .inl rfl, trivial⟩, trivial⟩

/-- not vacuous: a document with twice a CALS table with a header, a body and a footer; the conversion to Formex is told of another namespace of CALS than the conversion back,
as are the default options -/
example : ∃ (pc : CalsP.Config) (bc : Fmx.Config) (c : Fmx2Cals.Config) (cals : Option String) (mid out back : Node), bc.useCals = false ∧ bc.detectTitles = true ∧
    cals ≠ bc.calsNs ∧ (withTables footTable).tag? ≠ some ⟨pc.ns, "table"⟩ ∧
    FreeAround (· = ⟨pc.ns, "table"⟩) (["TBL", "CORPUS", "ROW", "BLK"].map name) (withTables footTable) ∧
    Convert.transformTables (Convert.cals2formex pc bc) 100 (withTables footTable) = .ok mid ∧ Fmx.finalize bc mid = .ok out ∧ NotesApart mid ∧
    (bc.useCals = true → cals = bc.calsNs) ∧ c.parser = ⟨none, cals, false⟩ ∧ Cals.Config.new none ['m', 'm'] false none id = .ok c.builder ∧
    Fmx2Cals.transformTables c 100 out = .ok back ∧ footDemo.table = footTable ∧ InCals pc.ns footDemo 2 3 (calsPictureOf footDemo ["header", "body", "footer"]) ∧
    ForFormex cals bc 2 (calsPictureOf footDemo ["header", "body", "footer"]) ∧ (∀ r ∈ footDemo.rows, r.2.node.attr ⟨pc.ns, "rowstyle"⟩ = none) ∧
    Without c.builder.ns calsNames (calsPictureOf footDemo ["header", "body", "footer"]) := by
  obtain ⟨mid, out, back, h1, h2, h3, hn⟩ := throughFormex_ok (show throughFormex (Convert.cals2formex ⟨none, ['m', 'm'], id⟩ ⟨true, false, some "c", ['m', 'm'], id⟩)
    ⟨true, false, some "c", ['m', 'm'], id⟩ ⟨⟨none, none, false⟩, calsConfig⟩ (withTables footTable) = true by decide +kernel)
  exact ⟨_, _, ⟨⟨none, none, false⟩, calsConfig⟩, none, mid, out, back, rfl, rfl, by simp, by decide, withTables_free' (by decide), h1, h2, hn, (fun h => nomatch h), rfl, rfl, h3, rfl,
    footDemo_inCals, ⟨fun _ => noTitle_of (by decide +kernel), footDemo_last, without_of (by decide +kernel), without_of (by decide +kernel)⟩, by decide +kernel,
    without_of (by decide +kernel)⟩

/-- not vacuous: a document with twice a Word table with merged cells -/
example : ∃ (bc : Fmx.Config) (c : Fmx2Cals.Config) (cals : Option String) (mid out back : Node), bc.detectTitles = true ∧
    (withTables wordMerge).tag? ≠ some (OoxmlSpec.name "tbl") ∧ FreeAround (· = OoxmlSpec.name "tbl") (["TBL", "CORPUS", "ROW", "BLK"].map name) (withTables wordMerge) ∧
    Convert.transformTables (Convert.ooxml2formex wConfig bc) 100 (withTables wordMerge) = .ok mid ∧ Fmx.finalize bc mid = .ok out ∧ NotesApart mid ∧
    (bc.useCals = true → cals = bc.calsNs) ∧ c.parser = ⟨none, cals, false⟩ ∧ Cals.Config.new none ['m', 'm'] false none id = .ok c.builder ∧
    Fmx2Cals.transformTables c 100 out = .ok back ∧ (∀ following, Convert.firstSectList following = none →
      OoxmlSpec.GoodTable wConfig (Convert.firstSectList following) Ooxml.stylesOf Ooxml.natureOf 3 wordMerge) ∧
    OoxmlSpec.kids ["tr"] wordMerge ≠ [] ∧ ForFormex cals bc 3 (wordPicture wordMerge) ∧
    (∀ l ∈ wordPicture wordMerge, ∀ b ∈ l.cells, ∀ t a, Tok.opening t a ∈ b.2 → t ≠ OoxmlSpec.name "tbl") ∧ Without c.builder.ns calsNames (wordPicture wordMerge) := by
  obtain ⟨mid, out, back, h1, h2, h3, hn⟩ := throughFormex_ok (show throughFormex (Convert.ooxml2formex wConfig ⟨true, false, none, ['m', 'm'], id⟩)
    ⟨true, false, none, ['m', 'm'], id⟩ ⟨⟨none, none, false⟩, calsConfig⟩ (withTables wordMerge) = true by decide +kernel)
  have hne : OoxmlSpec.kids ["tr"] wordMerge ≠ [] := by
    intro h
    have : (OoxmlSpec.kids ["tr"] wordMerge).length = 4 := by decide +kernel
    rw [h] at this; cases this
  exact ⟨_, ⟨⟨none, none, false⟩, calsConfig⟩, none, mid, out, back, rfl, by decide, withTables_free' (by decide), h1, h2, hn, (fun h => nomatch h), rfl, rfl, h3,
    fun f hf => hf ▸ wordMerge_good, hne, wordMerge_forFormex, wordMerge_plain, without_of (by decide +kernel)⟩

/-- not vacuous: the same document, converted to CALS and then to Formex -/
example : ∃ (cb : Cals.Config) (cp : CalsP.Config) (bc : Fmx.Config) (cals mid out : Node), Cals.Config.new none ['m', 'm'] false none id = .ok cb ∧
    (withTables wordMerge).tag? ≠ some (OoxmlSpec.name "tbl") ∧
    FreeAround (· = OoxmlSpec.name "tbl") (⟨cb.ns, "table"⟩ :: ["TBL", "CORPUS", "ROW"].map name) (withTables wordMerge) ∧
    Convert.transformTables (Convert.ooxml2cals wConfig cb) 100 (withTables wordMerge) = .ok cals ∧ cp.ns = cb.ns ∧ bc.useCals = false ∧ bc.detectTitles = true ∧
    Convert.transformTables (Convert.cals2formex cp bc) 100 cals = .ok mid ∧ Fmx.finalize bc mid = .ok out ∧ NotesApart mid ∧
    (∀ following, Convert.firstSectList following = none →
      OoxmlSpec.GoodTable wConfig (Convert.firstSectList following) Ooxml.stylesOf Ooxml.natureOf 3 wordMerge) ∧
    OoxmlSpec.kids ["tr"] wordMerge ≠ [] ∧ OneKind (wordPicture wordMerge) ∧ Grouped cb.tgroupSorting (wordPicture wordMerge) ∧
    Without cb.ns calsNames (wordPicture wordMerge) ∧ ForFormex none bc 3 (wordPicture wordMerge) ∧
    (∀ l ∈ wordPicture wordMerge, ∀ b ∈ l.cells, ∀ t a, Tok.opening t a ∈ b.2 → t ≠ OoxmlSpec.name "tbl") := by
  obtain ⟨cals, mid, out, h1, h2, h3, hn⟩ := throughCals_ok (show throughCals (Convert.transformTables (Convert.ooxml2cals wConfig calsConfig) 100 (withTables wordMerge))
    (Convert.cals2formex ⟨none, ['m', 'm'], id⟩ ⟨true, false, none, ['m', 'm'], id⟩) ⟨true, false, none, ['m', 'm'], id⟩ = true by decide +kernel)
  have hne : OoxmlSpec.kids ["tr"] wordMerge ≠ [] := by
    intro h
    have : (OoxmlSpec.kids ["tr"] wordMerge).length = 4 := by decide +kernel
    rw [h] at this; cases this
  exact ⟨calsConfig, ⟨none, ['m', 'm'], id⟩, ⟨true, false, none, ['m', 'm'], id⟩, cals, mid, out, rfl, by decide, withTables_free' (by decide), h1, rfl, rfl, rfl, h2, h3, hn,
    fun f hf => hf ▸ wordMerge_good, hne, oneKind_of (by decide +kernel), grouped_of (by decide +kernel) (by decide +kernel) (by decide +kernel), without_of (by decide +kernel),
    wordMerge_forFormex, wordMerge_plain⟩

/-- a table with its notes and without title -/
def fmxBare : Node := .elem (qn "TBL") [(qn "CLASS", "GEN"), (qn "PAGE.SIZE", "SINGLE.LANDSCAPE")] none [fmxN, fmxCorpus] none

theorem fmxBare_table : FormexTable none (some "c") 0 fmxBare fmxDemo 3 5 := by
  obtain ⟨h1, h2, h3, h4, h5⟩ := fmxDemo_table
  refine ⟨{ h1 with notes := ⟨?_, h1.notes.2⟩ }, h2, h3, h4, h5⟩
  exact .inr ⟨fmxBare, [fmxN], [], rfl, rfl, by decide +kernel, rfl⟩

/-- not vacuous: a document with twice a Formex table with its notes, with columns, a header row, a block with a title, rows which are too short and spans; the CALS tables have
their rows in the order of Formex -/
example : ∃ (c : Fmx2Cals.Config) (cals : Option String) (cp : CalsP.Config) (bc : Fmx.Config) (mid back out : Node), c.parser = ⟨none, cals, false⟩ ∧
    Cals.Config.new none ['m', 'm'] false (some ["header", "body", "footer"]) id = .ok c.builder ∧
    FreeAround (· = name "TBL") (⟨c.builder.ns, "table"⟩ :: ["CORPUS", "ROW", "BLK"].map name) (withTables fmxBare) ∧
    Fmx2Cals.transformTables c 100 (withTables fmxBare) = .ok mid ∧ cp.ns = c.builder.ns ∧ bc.useCals = false ∧ bc.detectTitles = true ∧
    Convert.transformTables (Convert.cals2formex cp bc) 100 mid = .ok back ∧ Fmx.finalize bc back = .ok out ∧ NotesApart back ∧
    fmxBare.children = fmxDemo.notes.map (·.node) ++ [fmxDemo.corpus] ∧ FormexTable none cals 0 fmxBare fmxDemo 3 5 ∧ OneKind (formexPicture none false fmxDemo) ∧
    Grouped c.builder.tgroupSorting (formexPicture none false fmxDemo) ∧ Without c.builder.ns calsNames (formexPicture none false fmxDemo) ∧
    ForFormex none bc 3 (formexPicture none false fmxDemo) := by
  obtain ⟨mid, back, out, h1, h2, h3, hn⟩ := throughCals_ok (show throughCals (Fmx2Cals.transformTables ⟨⟨none, some "c", false⟩, ⟨none, ['m', 'm'], false, ["header", "body", "footer"], id⟩⟩ 100
    (withTables fmxBare)) (Convert.cals2formex ⟨none, ['m', 'm'], id⟩ ⟨true, false, none, ['m', 'm'], id⟩) ⟨true, false, none, ['m', 'm'], id⟩ = true by decide +kernel)
  refine ⟨⟨⟨none, some "c", false⟩, ⟨none, ['m', 'm'], false, ["header", "body", "footer"], id⟩⟩, some "c", ⟨none, ['m', 'm'], id⟩, ⟨true, false, none, ['m', 'm'], id⟩, mid, back, out,
    rfl, rfl, withTables_free' (by decide), h1, rfl, rfl, rfl, h2, h3, hn, rfl, fmxBare_table, oneKind_of (by decide +kernel),
    grouped_of (by decide +kernel) (by decide +kernel) (by decide +kernel), without_of (by decide +kernel),
    ⟨fun _ => noTitle_of (by decide +kernel), ?_, without_of (by decide +kernel), without_of (by decide +kernel)⟩⟩
  refine ⟨(formexPicture none false fmxDemo).take 4, (formexPicture none false fmxDemo).drop 4, (List.take_append_drop 4 _).symm, ?_, by decide +kernel, ?_⟩
  · intro h
    have : ((formexPicture none false fmxDemo).take 4).length = 4 := by decide +kernel
    rw [h] at this; cases this
  · have hn : ∀ l ∈ (formexPicture none false fmxDemo).drop 4, l.kind = "footer" ∧ ∃ c ∈ l.cells, l.cells = [c] ∧ c.1.min.x = 1 ∧ c.1.max.x = 3 ∧ c.1.max.y = c.1.min.y := by
      decide +kernel
    exact fun l hl => ⟨(hn l hl).1, (hn l hl).2.imp fun _ h => h.2⟩

end Benker
