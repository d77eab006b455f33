import Verif.Lemmas.Document
import Verif.Props.ThereAndBack
import Verif.Props.Accepted

/-! C91: conversions of documents. -/

namespace Benker
open PyM CalsSpec FmxSpec Benker.Shown

mutual
theorem tableFree_of {c : Convert.Conv} {names : List QName} (hc : ∀ t, c.isTable t = true → t ∈ names) (n : Node) (h : Free names [n]) : Convert.tableFree c n = true := by
  cases n with
  | elem t a x cs tl =>
    obtain ⟨h1, h2⟩ := free_elem.mp h
    simp only [Convert.tableFree, Bool.and_eq_true, Bool.not_eq_true']
    refine ⟨?_, tableFreeList_of hc cs h2⟩
    cases e : c.isTable t with
    | false => rfl
    | true => exact absurd (hc t e) h1
  | pi => rfl
  | comment => rfl
theorem tableFreeList_of {c : Convert.Conv} {names : List QName} (hc : ∀ t, c.isTable t = true → t ∈ names) (ns : List Node) (h : Free names ns) :
    Convert.tableFreeList c ns = true := by
  cases ns with
  | nil => rfl
  | cons n ns =>
    obtain ⟨h1, h2⟩ := free_cons.mp h
    simp only [Convert.tableFreeList, Bool.and_eq_true]
    exact ⟨tableFree_of hc n h1, tableFreeList_of hc ns h2⟩
end

theorem setTail_free {names : List QName} {n : Node} (tl : Option String) (h : Free names [n]) : Free names [n.setTail tl] := by
  cases n with
  | elem t a x cs tl' => exact free_elem.mpr (free_elem.mp h)
  | pi => intro t a hm; cases tl <;> simp [toksList, toks, textToks, Node.setTail] at hm
  | comment => intro t a hm; cases tl <;> simp [toksList, toks, textToks, Node.setTail] at hm

/-- there are no tables in what is written for a picture without tables -/
theorem only_tableFree {cals : Option String} {p : Picture} {tree : Node} (h : OnlyFrom cals p tree) {c : Convert.Conv} {q : QName} (hc : ∀ t, c.isTable t = true → t = q)
    (hq : q ∉ ⟨cals, "colspec"⟩ :: ["TBL", "CORPUS", "ROW", "CELL", "IE"].map name) (hin : ∀ l ∈ p, ∀ b ∈ l.cells, ∀ t a, Tok.opening t a ∈ b.2 → t ≠ q) (tl : Option String) :
    Convert.tableFree c (tree.setTail tl) = true := by
  refine tableFree_of (names := [q]) (fun t ht => by rw [hc t ht]; simp) _ (setTail_free tl (h [q] ?_ ?_))
  · intro t ht hm
    rw [List.mem_singleton.mp hm] at ht
    exact hq ht
  · intro l hl b hb t a ht hm
    exact hin l hl b hb t a ht (List.mem_singleton.mp hm)

/-- a table whose conversion can be finalised, and holds no other table -/
theorem final_of_form {bc : Fmx.Config} {cals : Option String} {c : Convert.Conv} {q : QName} {tree M F : Node} {ctx : List Node} {tl : Option String} {w h : Nat} {p : Picture} {lost : List Tok → Prop}
    (hP : ∃ (d : FmxDoc) (body foot : List DocLine), Provisional bc.calsNs cals w h body foot tree d ∧ FormexLines lost p d.lines ∧ OnlyFrom bc.calsNs p tree)
    (hc : ∀ t, c.isTable t = true → t = q) (hq : q ∉ ⟨bc.calsNs, "colspec"⟩ :: ["TBL", "CORPUS", "ROW", "CELL", "IE"].map name)
    (hin : ∀ l ∈ p, ∀ b ∈ l.cells, ∀ t a, Tok.opening t a ∈ b.2 → t ≠ q)
    (hM : Convert.ReplacedInside c ctx (tree.setTail tl) M) {apart : Prop} (hap : apart) (hF : FinalForm apart bc M F) : InFormex cals lost w h p F := by
  obtain ⟨d, body, foot, P, hl, ho⟩ := hP
  have hM' := hM.free (only_tableFree ho hc hq hin tl)
  subst hM'
  obtain ⟨pre, k, E, B, ⟨_, h1⟩, h2, rfl⟩ := hF
  have h1 := h1 hap
  obtain ⟨E', B', g1, g2, d', F'⟩ := final_table bc (P.setTail tl) pre k
  rw [h1] at g1
  cases g1
  rw [h2] at g2
  cases g2
  exact ⟨d', F'.tag, F'.only, F'.nested, F'.drawn, F'.widthKnown, F'.columns, final_lines P F' hl, F'.inside⟩

/-- what the Formex builder makes is a `TBL` -/
theorem generate_tag {bc : Fmx.Config} {k : Nat} {t : Table Content} (hi : t.Inv) {tree : Node} (h : eval (Fmx.generate bc k) t = .ok tree) : tree.tag? = some (name "TBL") := by
  obtain ⟨bb, _, he⟩ := fmx_generate_eq hi bc k
  rw [he] at h
  obtain ⟨_, _, _, _, _, _, _, _, _, _, _, _, _, rfl, _⟩ := fmx_buildTree_raw h
  rfl

theorem cals2formex_tag {pc : CalsP.Config} {bc : Fmx.Config} {ctx : List Node} {n e : Node} (h : (Convert.cals2formex pc bc).convert ctx n = .ok e) :
    e.tag? = some (name "TBL") := by
  unfold Convert.cals2formex at h
  obtain ⟨t, ht, h⟩ := Convert.thenGenerate_ok h
  exact generate_tag (CalsP.parsed_reachable (eval_eq ht)).inv h

theorem ooxml2formex_tag {pc : Ooxml.Config} {bc : Fmx.Config} {ctx : List Node} {n e : Node} (h : (Convert.ooxml2formex pc bc).convert ctx n = .ok e) :
    e.tag? = some (name "TBL") := by
  unfold Convert.ooxml2formex at h
  obtain ⟨t, ht, h⟩ := Convert.thenGenerate_ok h
  exact generate_tag (Ooxml.parsed_reachable (eval_eq ht)).inv h

/-- there is no CALS table in what a CALS table shows -/
theorem cals_contents {ns : Option String} {d : CalsDoc} (hn : d.Nested ns) {p : Picture} (hp : CalsShows d p) :
    ∀ l ∈ p, ∀ b ∈ l.cells, ∀ t a, Tok.opening t a ∈ b.2 → t ≠ ⟨ns, "table"⟩ := by
  intro l hl b hb t a ht e
  obtain ⟨r, hr, _, hc⟩ := hp.mem_right hl
  rw [hc] at hb
  obtain ⟨en, hen, rfl⟩ := List.mem_map.mp hb
  have := (hn.entries (r.1, en) (by
    unfold CalsDoc.entries
    exact List.mem_flatMap.mpr ⟨r, hr, List.mem_map.mpr ⟨en, hen, rfl⟩⟩)).2 t a
  unfold insideToks at ht
  rcases List.mem_append.mp ht with ht | ht
  · unfold textToks at ht
    split at ht <;> simp at ht
  · exact this ht (by rw [e]) (by rw [e]; simp)

/-- a document which is converted to Formex, in words of its tables -/
theorem document_around {c : Convert.Conv} {q : QName} {bc : Fmx.Config} (hc : ∀ t, c.isTable t = decide (t = q))
    (htag : ∀ {ctx n e}, c.convert ctx n = .ok e → e.tag? = some (name "TBL")) {doc mid out : Node} {limit : Nat} (hroot : doc.tag? ≠ some q)
    (hfree : FreeAround (· = q) (["TBL", "CORPUS", "ROW"].map name) doc)
    (htables : Convert.transformTables c limit doc = .ok mid) (hfin : Fmx.finalize bc mid = .ok out) :
    Around (· = q) (fun ctx T F => ∃ e M, c.convert ctx T = .ok e ∧ Convert.ReplacedInside c ctx (e.setTail T.tail) M ∧ FinalForm (NotesApart mid) bc M F ∧
      F.tag? = some (name "TBL")) [] doc out := by
  have hsel : c.selects doc = false := by
    cases doc with
    | elem t a x cs tl =>
      rw [Convert.selects_elem, hc, decide_eq_false_iff_not]
      exact fun e => hroot (by rw [e]; rfl)
    | pi => rfl
    | comment => rfl
  have hT : (fun t => c.isTable t = true) = (· = q) := by
    funext t
    rw [hc]
    exact propext decide_eq_true_iff
  have hrep := replaced_around ((Convert.C58_replacement _ doc mid hsel).mp ⟨limit, htables⟩)
  rw [hT] at hrep
  have htag' : ∀ ctx n m t, n.tag? = some t → (t = q) →
      (∃ e, c.convert ctx n = .ok e ∧ Convert.ReplacedInside c ctx (e.setTail n.tail) m) → m.tag? = some (name "TBL") := by
    rintro ctx n m t _ _ ⟨e, he, hi⟩
    rw [hi.same.1]
    have := htag he
    cases e <;> exact this
  have hap := around_apart htag' hrep hfree
  have hfinal := finalize_around hap hfin []
  refine (hrep.trans (isT' := isTbl) (names := ["TBL", "CORPUS", "ROW"].map name) ?_ ?_ hfree hfinal).imp ?_
  · intro ctx n m t h1 h2 h3
    exact ⟨_, htag' ctx n m t h1 h2 h3, rfl⟩
  · intro t ht
    rw [show t = name "TBL" from ht]; simp
  · rintro ctx T F ⟨M, ⟨e, he, hi⟩, hF⟩
    exact ⟨e, M, he, hi, hF, finalForm_tag hF⟩

/-- **C91**, CALS to Formex: for every document which is not itself a table, with any number of CALS tables, and where there are no Formex tables (out of the CALS tables):
if it is converted, then the result is the same document - elements, attributes and texts - where each CALS table which is in no other CALS table is replaced by a `TBL`.
If this table is drawn on a grid, and can be written in Formex as it is, then the `TBL` is drawn on the same grid and shows the same. -/
theorem C91_cals_to_formex (pc : CalsP.Config) (bc : Fmx.Config) (doc mid out : Node) (limit : Nat) (hroot : doc.tag? ≠ some ⟨pc.ns, "table"⟩)
    (hfree : FreeAround (· = ⟨pc.ns, "table"⟩) (["TBL", "CORPUS", "ROW"].map name) doc)
    (htables : Convert.transformTables (Convert.cals2formex pc bc) limit doc = .ok mid) (hfin : Fmx.finalize bc mid = .ok out) :
    Around (· = ⟨pc.ns, "table"⟩) (fun _ T F => F.tag? = some (FmxSpec.name "TBL") ∧ (NotesApart mid →
      ∀ (cals : Option String) (d : CalsDoc) (w h : Nat) (p : Picture), (bc.useCals = true → cals = bc.calsNs) → d.table = T → InCals pc.ns d w h p → ForFormex cals bc w p →
        (bc.useCals = true → ∀ r ∈ d.rows, r.2.node.attr ⟨pc.ns, "rowstyle"⟩ = none) →
        InFormex cals (fun _ => False) w h p F)) [] doc out := by
  refine (document_around (c := Convert.cals2formex pc bc) (fun t => rfl) cals2formex_tag hroot hfree htables hfin).imp ?_
  rintro ctx T F ⟨e, M, he, hM, hF, htag⟩
  refine ⟨htag, ?_⟩
  rintro hap cals d w h p hcals rfl hd hp hs
  have ha : Accepted pc d.table := by
    have he' := he
    unfold Convert.cals2formex at he'
    obtain ⟨t, ht, _⟩ := Convert.thenGenerate_ok he'
    exact accepted_of_ok hd.nested.table ht
  refine final_of_form (cals_provisional pc bc cals hcals d w h hd.nested hd.drawn hd.columns ha p hd.shows hp.title hp.footers hs hp.plain hp.columns ctx e he)
    (q := ⟨pc.ns, "table"⟩) (fun t ht => of_decide_eq_true ht) ?_ (cals_contents hd.nested hd.shows) hM hap hF
  intro hm
  have := List.mem_map_of_mem (f := QName.name) hm
  revert this
  simp [name]

/-- **C91**, Word to Formex: the same for every document with Word tables; `following` are the nodes which follow the table, where the size of the page is looked for. -/
theorem C91_word_to_formex (pc : Ooxml.Config) (bc : Fmx.Config) (doc mid out : Node) (limit : Nat) (hroot : doc.tag? ≠ some (OoxmlSpec.name "tbl"))
    (hfree : FreeAround (· = OoxmlSpec.name "tbl") (["TBL", "CORPUS", "ROW"].map name) doc)
    (htables : Convert.transformTables (Convert.ooxml2formex pc bc) limit doc = .ok mid) (hfin : Fmx.finalize bc mid = .ok out) :
    Around (· = OoxmlSpec.name "tbl") (fun following T F => F.tag? = some (FmxSpec.name "TBL") ∧ (NotesApart mid →
      ∀ (cals : Option String) (styles : Node → Styles) (nature : Node → String) (W : Nat), (bc.useCals = true → cals = bc.calsNs) →
        OoxmlSpec.GoodTable pc (Convert.firstSectList following) styles nature W T → OoxmlSpec.kids ["tr"] T ≠ [] → ForFormex cals bc W (wordPicture T) → (∀ l ∈ wordPicture T, ∀ b ∈ l.cells, ∀ t a, Tok.opening t a ∈ b.2 → t ≠ OoxmlSpec.name "tbl") →
        InFormex cals Blank W (OoxmlSpec.kids ["tr"] T).length (wordPicture T) F)) [] doc out := by
  refine (document_around (c := Convert.ooxml2formex pc bc) (q := OoxmlSpec.name "tbl") (fun t => rfl) ooxml2formex_tag hroot hfree htables hfin).imp ?_
  rintro ctx T F ⟨e, M, he, hM, hF, htag⟩
  refine ⟨htag, ?_⟩
  intro hap cals styles nature W hcals hg hne hp hin
  refine final_of_form (word_provisional pc bc cals hcals ctx styles nature W T hg hne hp.title hp.plain hp.columns e he)
    (q := OoxmlSpec.name "tbl") (fun t ht => of_decide_eq_true ht) ?_ hin hM hap hF
  intro hm
  have := List.mem_map_of_mem (f := QName.name) hm
  revert this
  simp [name, OoxmlSpec.name]

/-- the conversion of a document succeeds if the conversion of each table does so -/
theorem document_succeeds {c : Convert.Conv} {q : QName} {bc : Fmx.Config} (hc : ∀ t, c.isTable t = decide (t = q))
    (htag : ∀ {ctx n e}, c.convert ctx n = .ok e → e.tag? = some (name "TBL")) {doc : Node} (hroot : doc.tag? ≠ some q)
    (hfree : FreeAround (· = q) (["TBL", "CORPUS", "ROW"].map name) doc) (hq : q ∉ ⟨bc.calsNs, "colspec"⟩ :: ["TBL", "CORPUS", "ROW", "CELL", "IE"].map name)
    {P : List Node → Node → Prop} (hP : ∀ ctx T, P ctx T → ∃ e, c.convert ctx T = .ok e ∧ ∃ (w h : Nat) (p : Picture) (lost : List Tok → Prop),
      (∃ (d : FmxDoc) (body foot : List DocLine), Provisional bc.calsNs bc.calsNs w h body foot e d ∧ FormexLines lost p d.lines ∧ OnlyFrom bc.calsNs p e) ∧
      ∀ l ∈ p, ∀ b ∈ l.cells, ∀ t a, Tok.opening t a ∈ b.2 → t ≠ q)
    (hall : EachTable (· = q) P [] doc) :
    ∃ limit mid out, Convert.transformTables c limit doc = .ok mid ∧ Fmx.finalize bc mid = .ok out := by
  have hsel : c.selects doc = false := by
    cases doc with
    | elem t a x cs tl =>
      rw [Convert.selects_elem, hc, decide_eq_false_iff_not]
      exact fun e => hroot (by rw [e]; rfl)
    | pi => rfl
    | comment => rfl
  have hT : (fun t => c.isTable t = true) = (· = q) := by
    funext t
    rw [hc]
    exact propext decide_eq_true_iff
  have hisT : ∀ t, c.isTable t = true → t = q := fun t ht => by rw [hc] at ht; exact of_decide_eq_true ht
  obtain ⟨mid, hmid⟩ := replaced_of (c := c) (P := P) (by
    intro ctx T hT
    obtain ⟨e, he, w, h, p, lost, ⟨d, body, foot, hp, hl, ho⟩, hin⟩ := hP ctx T hT
    refine ⟨e, he, e.setTail T.tail, ?_⟩
    have hf := only_tableFree ho hisT hq hin T.tail
    have hr := replacedInside_free (c := c) (e.setTail T.tail) ctx hf
    have hno : c.selects (e.setTail T.tail) = false := by
      cases e with
      | elem t a x cs tl =>
        simp only [Node.setTail, Convert.tableFree, Bool.and_eq_true, Bool.not_eq_true'] at hf
        exact hf.1
      | pi => rfl
      | comment => rfl
    cases hr with
    | other _ _ _ _ h => exact h
    | table _ _ e' _ hs => rw [hno] at hs; cases hs) doc [] (by rw [hT]; exact hall)
  have hrep := replaced_around hmid
  rw [hT] at hrep
  have htag' : ∀ ctx n m t, n.tag? = some t → (t = q) →
      (∃ e, c.convert ctx n = .ok e ∧ Convert.ReplacedInside c ctx (e.setTail n.tail) m) → m.tag? = some (name "TBL") := by
    rintro ctx n m t _ _ ⟨e, he, hi⟩
    rw [hi.same.1]
    have := htag he
    cases e <;> exact this
  obtain ⟨limit, hlimit⟩ := (Convert.C58_replacement _ doc mid hsel).mpr hmid
  have hap := around_apart htag' hrep hfree
  have htabs := around_tables htag' (P := P)
    (Q := fun T => ∃ (d : FmxDoc) (w h : Nat) (body foot : List DocLine), Provisional bc.calsNs bc.calsNs w h body foot T d) (by
    rintro ctx n m hp ⟨e, he, hi⟩
    obtain ⟨e', he', w, h, p, lost, ⟨d, body, foot, hp, hl, ho⟩, hin⟩ := hP ctx n hp
    rw [he] at he'
    cases he'
    rw [hi.free (only_tableFree ho hisT hq hin _)]
    exact ⟨d, w, h, body, foot, hp.setTail _⟩) hrep hfree hall
  obtain ⟨out, hout⟩ := C89_succeeds bc bc.calsNs mid hap htabs
  exact ⟨limit, mid, out, hlimit, hout⟩

theorem calsQ {ns cals : Option String} : (⟨ns, "table"⟩ : QName) ∉ ⟨cals, "colspec"⟩ :: ["TBL", "CORPUS", "ROW", "CELL", "IE"].map name := by
  intro hm
  have := List.mem_map_of_mem (f := QName.name) hm
  revert this
  simp [name]

theorem wordQ {cals : Option String} : OoxmlSpec.name "tbl" ∉ ⟨cals, "colspec"⟩ :: ["TBL", "CORPUS", "ROW", "CELL", "IE"].map name := by
  intro hm
  have := List.mem_map_of_mem (f := QName.name) hm
  revert this
  simp [name, OoxmlSpec.name]

/-- **C91**, CALS to Formex, success: the conversion of a document succeeds if all its tables are drawn on a grid, have readable frames and widths, and can be written in Formex. -/
theorem C91_cals_to_formex_succeeds (pc : CalsP.Config) (bc : Fmx.Config) (doc : Node) (hroot : doc.tag? ≠ some ⟨pc.ns, "table"⟩)
    (hfree : FreeAround (· = ⟨pc.ns, "table"⟩) (["TBL", "CORPUS", "ROW"].map name) doc) (hu : bc.useCals = true → Accepted.KnownUnit bc.widthUnit)
    (hall : EachTable (· = ⟨pc.ns, "table"⟩) (fun _ T => ∃ (d : CalsDoc) (w h : Nat) (p : Picture), d.table = T ∧ InCals pc.ns d w h p ∧ ForFormex bc.calsNs bc w p ∧
      Accepted pc T ∧ (bc.useCals = true → Accepted.NumberedWidths pc.ns T ∧ ∀ r ∈ d.rows, r.2.node.attr ⟨pc.ns, "rowstyle"⟩ = none)) [] doc) :
    ∃ limit mid out, Convert.transformTables (Convert.cals2formex pc bc) limit doc = .ok mid ∧ Fmx.finalize bc mid = .ok out := by
  refine document_succeeds (fun t => rfl) cals2formex_tag hroot hfree calsQ ?_ hall
  rintro ctx T ⟨d, w, h, p, rfl, hd, hp, ha, hs⟩
  obtain ⟨t, rows, cols, h1, h2, h3, rfl, rfl, hparsed, hne, hdis, hfull, hord, hshow, hempty⟩ := cals_shows hd.nested hd.drawn hd.columns ha hd.shows none PState.init
  obtain ⟨e, he⟩ := (C87_cals_to_formex_partial pc bc ctx d.table (fun h => ⟨hu h, (hs h).1⟩) t h1).mpr (by
    intro ht
    have hpos := hd.drawn.notEmpty
    exact ⟨hfull ⟨1, 1⟩ (Int.le_refl _) (by simp only; omega) (Int.le_refl _) (by simp only; omega),
      fun h => absurd h (no_title hparsed.tidy.1.inv h2 h3 hshow hfull (hp.title ht))⟩)
  exact ⟨e, he, _, _, p, _, cals_provisional pc bc bc.calsNs (fun _ => rfl) d _ _ hd.nested hd.drawn hd.columns ha p hd.shows hp.title hp.footers (fun h => (hs h).2) hp.plain hp.columns ctx e he,
    cals_contents hd.nested hd.shows⟩

theorem place_nodes : ∀ (tcs : List Node) (c : Int), ∀ s ∈ OoxmlSpec.place c tcs, s.2 ∈ tcs := by
  intro tcs
  induction tcs with
  | nil => intro c s hs; cases hs
  | cons tc tcs ih =>
    intro c s hs
    rcases List.mem_cons.mp hs with rfl | hs
    · exact List.mem_cons_self ..
    · exact List.mem_cons_of_mem _ (ih _ _ hs)

theorem free_children {names : List QName} {n : Node} (h : Free names [n]) : Free names n.children := by
  cases n with
  | elem t a x cs tl => exact (free_elem.mp h).2
  | pi => intro t a hm; cases hm
  | comment => intro t a hm; cases hm

theorem wordLines_free {names : List QName} : ∀ (trs : List Node) (r : Int), Free names trs → ∀ l ∈ wordLines r trs, ∀ b ∈ l.cells, ∀ t a, Tok.opening t a ∈ b.2 → t ∉ names := by
  intro trs
  induction trs with
  | nil => intro r _ l hl; cases hl
  | cons tr trs ih =>
    intro r hf l hl b hb t a ht
    have hf' := free_mem.mp hf
    unfold wordLines at hl
    rcases List.mem_cons.mp hl with rfl | hl
    · obtain ⟨s, hs, rfl⟩ := List.mem_map.mp hb
      obtain ⟨n, hn, ht⟩ := List.mem_flatMap.mp ht
      have h1 := free_mem.mp (free_children (hf' tr (List.mem_cons_self ..))) s.2 (List.mem_filter.mp (place_nodes _ _ _ (List.mem_filter.mp hs).1)).1
      have h2 := free_mem.mp (free_children h1) n (List.mem_filter.mp hn).1
      refine h2 t a ?_
      rw [toksList, toksList, List.append_nil]
      cases n with
      | elem t' a' x cs tl =>
        simp only [Node.setTail, toks, textToks, List.append_nil] at ht ⊢
        exact List.mem_append_left _ ht
      | pi => simp only [Node.setTail, toks] at ht ⊢; exact absurd ht (by simp [textToks])
      | comment => simp only [Node.setTail, toks] at ht ⊢; exact absurd ht (by simp [textToks])
    · exact ih _ (free_mem.mpr (fun n hn => hf' n (List.mem_cons_of_mem _ hn))) l hl b hb t a ht

/-- what is shown in a Word table is inside of it -/
theorem noInner_picture {q : QName} {T : Node} (h : NoInner q T) : ∀ l ∈ wordPicture T, ∀ b ∈ l.cells, ∀ t a, Tok.opening t a ∈ b.2 → t ≠ q := by
  have hf : Free [q] T.children := fun t a hm hq => h a (by rw [← List.mem_singleton.mp hq]; exact hm)
  intro l hl b hb t a ht e
  exact wordLines_free _ 1 (free_mem.mpr (fun n hn => free_mem.mp hf n (List.mem_filter.mp hn).1)) l hl b hb t a ht (List.mem_singleton.mpr e)

/-- **C91**, Word to Formex, success: the conversion of a document succeeds if all its tables are drawn on a grid, and can be written in Formex. -/
theorem C91_word_to_formex_succeeds (pc : Ooxml.Config) (bc : Fmx.Config) (doc : Node) (hroot : doc.tag? ≠ some (OoxmlSpec.name "tbl"))
    (hfree : FreeAround (· = OoxmlSpec.name "tbl") (["TBL", "CORPUS", "ROW"].map name) doc) (hu : bc.useCals = true → Accepted.KnownUnit bc.widthUnit)
    (hall : EachTable (· = OoxmlSpec.name "tbl") (fun following T => ∃ (styles : Node → Styles) (nature : Node → String) (W : Nat),
      OoxmlSpec.GoodTable pc (Convert.firstSectList following) styles nature W T ∧ OoxmlSpec.kids ["tr"] T ≠ [] ∧ ForFormex bc.calsNs bc W (wordPicture T) ∧
      NoInner (OoxmlSpec.name "tbl") T ∧
      (bc.useCals = true → Accepted.KnownOrientation (Convert.firstSectList following))) [] doc) :
    ∃ limit mid out, Convert.transformTables (Convert.ooxml2formex pc bc) limit doc = .ok mid ∧ Fmx.finalize bc mid = .ok out := by
  refine document_succeeds (fun t => rfl) ooxml2formex_tag hroot hfree wordQ ?_ hall
  rintro ctx T ⟨styles, nature, W, hg, hne, hp, hin, ho⟩
  obtain ⟨t, s', rows, cols, h1, h2, h3, h4, h5, hi, h6, h7, h8, h9, h10⟩ := word_shows pc _ styles nature W T hg hne PState.init
  have e : eval (Ooxml.parseTable pc (Convert.firstSectList ctx) T) PState.init = .ok (some t) := by unfold eval; rw [h1]
  obtain ⟨e, he⟩ := (C87_word_to_formex pc bc ctx T (fun h => ⟨hu h, ho h⟩) t e).mpr (by
    intro ht
    have hpos := List.length_pos_of_ne_nil hne
    have hwide := hg.wide
    subst h5
    exact ⟨h8 ⟨1, 1⟩ (Int.le_refl _) (by simp only; omega) (Int.le_refl _) (by simp only; omega),
      fun h => absurd h (no_title hi h2 h3 h10 h8 (hp.title ht))⟩)
  exact ⟨e, he, _, _, _, _, word_provisional pc bc bc.calsNs (fun _ => rfl) ctx styles nature W T hg hne hp.title hp.plain hp.columns e he, noInner_picture hin⟩

/-- there is nothing in what the CALS builder writes, but CALS elements and the contents of the cells -/
theorem cals_free {bc : Cals.Config} {t : Table Content} (hi : t.Inv) {names : List QName} (hown : ∀ n ∈ calsNames, (⟨bc.ns, n⟩ : QName) ∉ names)
    (hin : ∀ c ∈ t.cells, ∀ tk a, Tok.opening tk a ∈ contentToks c.content → tk ∉ names)
    {tree : Node} (h : eval (Cals.generate bc) t = .ok tree) : tree.tag? = some ⟨bc.ns, "table"⟩ ∧ Free names [tree] := by
  obtain ⟨bb, hbb, he⟩ := generate_eq hi bc
  have hdr : Describes .row t.grid.cells (t.baseViews .row) := Table.base_describes hi .row
  rw [he] at h
  obtain ⟨attrs, tattrs, colspecs, bodies, B, hB, hB1, hB2, rfl, h1, h1', h2, h3⟩ := Benker.buildTree_raw h
  refine ⟨rfl, free_elem.mpr ⟨hown _ (by simp [calsNames]), free_elem.mpr ⟨hown _ (by simp [calsNames]), free_mem.mpr ?_⟩⟩⟩
  have hpi : ∀ x y : String, Free names [.pi x y none] := by
    intro x y tk a hm
    simp [toksList, toks, textToks] at hm
  intro n hn
  rcases List.mem_append.mp hn with hn | hn
  · obtain ⟨v, _, hv⟩ := h2.mem_right hn
    have hs := Benker.buildColspec_ok hv
    obtain ⟨_, x, cs, tl, rfl⟩ := toks_elem n hs.tag
    refine free_elem.mpr ⟨hown _ (by simp [calsNames]), ?_⟩
    intro tk a hm
    have := hs.empty.1
    unfold insideToks at this
    rw [show (Node.elem _ _ x cs tl).children = cs from rfl] at this
    rw [(List.append_eq_nil_iff.mp this).2] at hm
    cases hm
  · obtain ⟨g, hg, nodes, rfl, hb⟩ := h3.mem_right hn
    refine free_elem.mpr ⟨hown _ ?_, free_mem.mpr ?_⟩
    · unfold Cals.groupTag
      split
      · simp [calsNames]
      · split <;> simp [calsNames]
    · intro n hn
      obtain ⟨ns, hns, hn⟩ := List.mem_flatten.mp hn
      obtain ⟨r, hr, hr2⟩ := hb.mem_right hns
      have hrm : r ∈ t.baseViews .row := (Benker.rowGroups_spec bc _).2.1.mem_iff.mp (List.mem_flatten.mpr ⟨g, hg, hr⟩)
      obtain ⟨row, hf, g1, _, _, g2⟩ := Benker.buildRow_ok (fun c hc => hi.grid.valid c ((hdr.owned r hrm c).mp hc).1) hr2
      have hrow : Free names [row] := by
        obtain ⟨_, x, cs, tl, rfl⟩ := toks_elem row g1
        refine free_elem.mpr ⟨hown _ (by simp [calsNames]), free_mem.mpr ?_⟩
        intro e hm
        obtain ⟨c, hcm, hce⟩ := g2.mem_right hm
        have hcell := ((hdr.owned r hrm c).mp hcm).1
        have hc := hce.content
        obtain ⟨_, x, cs, tl, rfl⟩ := toks_elem e hce.tag
        refine free_elem.mpr ⟨hown _ (by simp [calsNames]), ?_⟩
        intro tk a htk
        refine hin c hcell tk a ?_
        rw [← hc]
        unfold insideToks
        exact List.mem_append_right _ htk
      rcases hf with ⟨rfl, _⟩ | ⟨d1, d2, rfl, _⟩
      · rw [List.mem_singleton.mp hn]; exact hrow
      · simp only [List.mem_cons, List.not_mem_nil, or_false] at hn
        rcases hn with rfl | rfl | rfl
        · exact hpi _ _
        · exact hrow
        · exact hpi _ _

/-- **C91**, Word to CALS: for every document which is not itself a table, if it is converted, then the result is the same document - elements, attributes and texts -
where each Word table which is in no other one is replaced by a CALS table, which is drawn on the same grid and shows the same if the Word table is drawn on a grid
and can be written in CALS as it is. -/
theorem C91_word_to_cals (pc : Ooxml.Config) (bc : Cals.Config) (ns : Option String) (u : List Char) (tg : Bool) (sorting : Option (List String)) (fl : Rat → Rat)
    (hcfg : Cals.Config.new ns u tg sorting fl = .ok bc) (doc out : Node) (limit : Nat) (hroot : doc.tag? ≠ some (OoxmlSpec.name "tbl"))
    (htables : Convert.transformTables (Convert.ooxml2cals pc bc) limit doc = .ok out) :
    Around (· = OoxmlSpec.name "tbl") (fun following T C => C.tag? = some ⟨bc.ns, "table"⟩ ∧
      ∀ (styles : Node → Styles) (nature : Node → String) (W : Nat), OoxmlSpec.GoodTable pc (Convert.firstSectList following) styles nature W T →
        OoxmlSpec.kids ["tr"] T ≠ [] → OneKind (wordPicture T) → Without bc.ns calsNames (wordPicture T) →
        (∀ l ∈ wordPicture T, ∀ b ∈ l.cells, ∀ t a, Tok.opening t a ∈ b.2 → t ≠ OoxmlSpec.name "tbl") →
        ∃ (d : CalsDoc) (p : Picture), d.table = C ∧ InCals bc.ns d W (OoxmlSpec.kids ["tr"] T).length p ∧ Regrouped bc.tgroupSorting (wordPicture T) p ∧
          (Grouped bc.tgroupSorting (wordPicture T) → p = wordPicture T)) [] doc out := by
  have hsel : (Convert.ooxml2cals pc bc).selects doc = false := by
    cases doc with
    | elem t a x cs tl => exact decide_eq_false_iff_not.mpr (fun e => hroot (by rw [e]; rfl))
    | pi => rfl
    | comment => rfl
  have hT : (fun t => (Convert.ooxml2cals pc bc).isTable t = true) = (· = OoxmlSpec.name "tbl") := by
    funext t
    exact propext decide_eq_true_iff
  have hrep := replaced_around ((Convert.C58_replacement _ doc out hsel).mp ⟨limit, htables⟩)
  rw [hT] at hrep
  refine hrep.imp ?_
  rintro ctx T C ⟨e, he, hi⟩
  have he' := he
  unfold Convert.ooxml2cals at he'
  obtain ⟨t, ht, hgen⟩ := Convert.thenGenerate_ok he'
  have hinv := (Ooxml.parsed_reachable (eval_eq ht)).inv
  refine ⟨?_, ?_⟩
  · rw [hi.same.1]
    have := (cals_free hinv (names := []) (fun _ _ h => by cases h) (fun _ _ _ _ _ h => by cases h) hgen).1
    cases e <;> exact this
  · intro styles nature W hg hne hone hplain hin
    obtain ⟨d, p, rfl, hn, hd, hc, hs, hr, hq⟩ := C85_word_to_cals pc bc ns u tg sorting fl hcfg ctx styles nature W T hg hne hone hplain _ he
    obtain ⟨t', s', rows, cols, h1, h2, h3, h4, h5, hi', h6, h7, h8, h9, h10⟩ := word_shows pc _ styles nature W T hg hne PState.init
    have e1 : eval (Ooxml.parseTable pc (Convert.firstSectList ctx) T) PState.init = .ok (some t') := by unfold eval; rw [h1]
    rw [ht] at e1
    cases e1
    have hfree := (cals_free hinv (names := [OoxmlSpec.name "tbl"]) (fun n hn h => by
        have : n = "tbl" := congrArg QName.name (List.mem_singleton.mp h)
        rw [this] at hn
        revert hn
        decide) (by
        intro c hc tk a htk h
        have hdr : Describes .row t.grid.cells rows := by rw [views_eq hinv h2]; exact Table.base_describes hinv .row
        rw [show t.cells = t.grid.cells from rfl, ← owned_eq hinv hdr h9] at hc
        obtain ⟨r, hr', hc⟩ := List.mem_flatMap.mp hc
        obtain ⟨l, hl, _, _, _, hall⟩ := shows_get h10 hdr hr'
        obtain ⟨b, hb, _, e⟩ := hall.mem_right hc
        rw [e] at htk
        exact hin l (List.mem_of_getElem? hl) b hb tk a htk (List.mem_singleton.mp h)) hgen).2
    have hM := hi.free (tableFree_of (names := [OoxmlSpec.name "tbl"]) (fun t ht => List.mem_singleton.mpr (of_decide_eq_true ht)) _ (setTail_free T.tail hfree))
    obtain ⟨hn', hd', hc', hp'⟩ := withTail_table T.tail hn hd hc hs
    exact ⟨CalsDoc.withTail d T.tail, p, hM.symm, ⟨hn', hd', hc', hp'⟩, hr, hq⟩

/-! ### examples -/

/-- a document with a paragraph and twice the same table -/
def withTables (table : Node) : Node :=
  .elem (qn "DOC") [] none [.elem (qn "P") [] (some "text") [] (some "after"), table, .elem (qn "DIV") [] none [table] (some "end")] none

theorem withTables_each {q : QName} {P : List Node → Node → Prop} {a x cs tl} (hq : q ≠ qn "DOC" ∧ q ≠ qn "P" ∧ q ≠ qn "DIV")
    (h1 : P [.elem (qn "DIV") [] none [.elem q a x cs tl] (some "end")] (.elem q a x cs tl)) (h2 : P [] (.elem q a x cs tl)) : EachTable (· = q) P [] (withTables (.elem q a x cs tl)) :=
  .inr ⟨fun h => hq.1 h.symm, .inr ⟨fun h => hq.2.1 h.symm, trivial⟩, .inl ⟨rfl, h1⟩, .inr ⟨fun h => hq.2.2 h.symm, .inl ⟨rfl, h2⟩, trivial⟩, trivial⟩

theorem withTables_free {q : QName} {a x cs tl} : FreeAround (· = q) (["TBL", "CORPUS", "ROW"].map name) (withTables (.elem q a x cs tl)) :=
  .inr ⟨by decide, .inr ⟨by decide, trivial⟩, .inl rfl, .inr ⟨by decide, .inl rfl, trivial⟩, trivial⟩

theorem footDemo_inCals : InCals none footDemo 2 3 (calsPictureOf footDemo ["header", "body", "footer"]) :=
  ⟨footDemo_nested, footDemo_drawn, footDemo_columns, footDemo_shows⟩

theorem footDemo_forFormex : ForFormex none ⟨true, true, none, ['m', 'm'], id⟩ 2 (calsPictureOf footDemo ["header", "body", "footer"]) :=
  ⟨fun _ => noTitle_of (by decide +kernel), footDemo_last, without_of (by decide +kernel), without_of (by decide +kernel)⟩

/-- not vacuous: a document with twice a table with a header, a body and a footer -/
example : ∃ (pc : CalsP.Config) (bc : Fmx.Config), bc.useCals = true ∧ bc.detectTitles = true ∧ Accepted.KnownUnit bc.widthUnit ∧
    (withTables footTable).tag? ≠ some ⟨pc.ns, "table"⟩ ∧ FreeAround (· = ⟨pc.ns, "table"⟩) (["TBL", "CORPUS", "ROW"].map name) (withTables footTable) ∧
    EachTable (· = ⟨pc.ns, "table"⟩) (fun _ T => ∃ (d : CalsDoc) (w h : Nat) (p : Picture), d.table = T ∧ InCals pc.ns d w h p ∧ ForFormex bc.calsNs bc w p ∧
      Accepted pc T ∧ (bc.useCals = true → Accepted.NumberedWidths pc.ns T ∧ ∀ r ∈ d.rows, r.2.node.attr ⟨pc.ns, "rowstyle"⟩ = none)) [] (withTables footTable) ∧
    ∃ limit mid out, Convert.transformTables (Convert.cals2formex pc bc) limit (withTables footTable) = .ok mid ∧ Fmx.finalize bc mid = .ok out := by
  have h1 : (withTables footTable).tag? ≠ some ⟨none, "table"⟩ := by decide
  have h2 : FreeAround (· = ⟨none, "table"⟩) (["TBL", "CORPUS", "ROW"].map name) (withTables footTable) := withTables_free
  have h3 : EachTable (· = ⟨none, "table"⟩) (fun _ T => ∃ (d : CalsDoc) (w h : Nat) (p : Picture), d.table = T ∧ InCals none d w h p ∧
      ForFormex none ⟨true, true, none, ['m', 'm'], id⟩ w p ∧ Accepted (⟨none, ['m', 'm'], id⟩ : CalsP.Config) T ∧
      (true = true → Accepted.NumberedWidths none T ∧ ∀ r ∈ d.rows, r.2.node.attr ⟨none, "rowstyle"⟩ = none)) [] (withTables footTable) := by
    refine withTables_each (by decide) ?_ ?_ <;>
    exact ⟨footDemo, 2, 3, _, rfl, footDemo_inCals, footDemo_forFormex, footDemo_accepted, fun _ => ⟨numbered_of (by decide +kernel), by decide +kernel⟩⟩
  exact ⟨⟨none, ['m', 'm'], id⟩, ⟨true, true, none, ['m', 'm'], id⟩, rfl, rfl, mm_known, h1, h2, h3,
    C91_cals_to_formex_succeeds ⟨none, ['m', 'm'], id⟩ ⟨true, true, none, ['m', 'm'], id⟩ _ h1 h2 (fun _ => mm_known) h3⟩

theorem wordMerge_forFormex : ForFormex none ⟨true, false, none, ['m', 'm'], id⟩ 3 (wordPicture wordMerge) := by
  refine ⟨fun _ => noTitle_of (by decide +kernel), ⟨wordPicture wordMerge, [], by simp, ?_, ?_, by simp⟩, without_of (by decide +kernel), without_of (by decide +kernel)⟩
  · intro h
    have : (wordPicture wordMerge).length = 4 := by decide +kernel
    rw [h] at this; cases this
  · decide +kernel

theorem wordMerge_noInner : NoInner (OoxmlSpec.name "tbl") wordMerge := by
  intro a hm
  have : ∀ tk ∈ toksList wordMerge.children, (match tk with | .opening t _ => decide (t = OoxmlSpec.name "tbl") | _ => false) = false := by decide +kernel
  have := this _ hm
  simp at this

theorem wordMerge_plain : ∀ l ∈ wordPicture wordMerge, ∀ b ∈ l.cells, ∀ t a, Tok.opening t a ∈ b.2 → t ≠ OoxmlSpec.name "tbl" := by
  have : ∀ l ∈ wordPicture wordMerge, ∀ b ∈ l.cells, ∀ tk ∈ b.2, (match tk with
    | .opening t _ => decide (t ≠ OoxmlSpec.name "tbl")
    | _ => true) = true := by decide +kernel
  intro l hl b hb t a ht
  simpa using this l hl b hb _ ht

/-- not vacuous: a document with twice a Word table with merged cells -/
example : ∃ (bc : Fmx.Config), bc.detectTitles = true ∧ (withTables wordMerge).tag? ≠ some (OoxmlSpec.name "tbl") ∧
    FreeAround (· = OoxmlSpec.name "tbl") (["TBL", "CORPUS", "ROW"].map name) (withTables wordMerge) ∧
    EachTable (· = OoxmlSpec.name "tbl") (fun following T => ∃ (styles : Node → Styles) (nature : Node → String) (W : Nat),
      OoxmlSpec.GoodTable wConfig (Convert.firstSectList following) styles nature W T ∧ OoxmlSpec.kids ["tr"] T ≠ [] ∧ ForFormex bc.calsNs bc W (wordPicture T) ∧
      NoInner (OoxmlSpec.name "tbl") T ∧
      (bc.useCals = true → Accepted.KnownOrientation (Convert.firstSectList following))) [] (withTables wordMerge) ∧
    ∃ limit mid out, Convert.transformTables (Convert.ooxml2formex wConfig bc) limit (withTables wordMerge) = .ok mid ∧ Fmx.finalize bc mid = .ok out := by
  have hne : OoxmlSpec.kids ["tr"] wordMerge ≠ [] := by
    intro h
    have : (OoxmlSpec.kids ["tr"] wordMerge).length = 4 := by decide +kernel
    rw [h] at this; cases this
  have h1 : (withTables wordMerge).tag? ≠ some (OoxmlSpec.name "tbl") := by decide
  have h2 : FreeAround (· = OoxmlSpec.name "tbl") (["TBL", "CORPUS", "ROW"].map name) (withTables wordMerge) := withTables_free
  have h3 : EachTable (· = OoxmlSpec.name "tbl") (fun following T => ∃ (styles : Node → Styles) (nature : Node → String) (W : Nat),
      OoxmlSpec.GoodTable wConfig (Convert.firstSectList following) styles nature W T ∧ OoxmlSpec.kids ["tr"] T ≠ [] ∧
      ForFormex none ⟨true, false, none, ['m', 'm'], id⟩ W (wordPicture T) ∧
      NoInner (OoxmlSpec.name "tbl") T ∧
      (false = true → Accepted.KnownOrientation (Convert.firstSectList following))) [] (withTables wordMerge) := by
    refine withTables_each (by decide) ?_ ?_ <;>
    exact ⟨Ooxml.stylesOf, Ooxml.natureOf, 3, wordMerge_good, hne, wordMerge_forFormex, wordMerge_noInner, fun h => nomatch h⟩
  exact ⟨⟨true, false, none, ['m', 'm'], id⟩, rfl, h1, h2, h3,
    C91_word_to_formex_succeeds wConfig ⟨true, false, none, ['m', 'm'], id⟩ _ h1 h2 (fun h => nomatch h) h3⟩

/-- not vacuous: the same document, converted to CALS -/
example : ∃ (bc : Cals.Config) (limit : Nat) (out : Node), Cals.Config.new none ['m', 'm'] false none id = .ok bc ∧ (withTables wordMerge).tag? ≠ some (OoxmlSpec.name "tbl") ∧
    OneKind (wordPicture wordMerge) ∧ Without bc.ns calsNames (wordPicture wordMerge) ∧
    Convert.transformTables (Convert.ooxml2cals wConfig bc) limit (withTables wordMerge) = .ok out := by
  obtain ⟨out, h⟩ := ok_of (show (Convert.transformTables (Convert.ooxml2cals wConfig calsConfig) 100 (withTables wordMerge)).isOk = true by decide +kernel)
  exact ⟨calsConfig, 100, out, rfl, by decide, oneKind_of (by decide +kernel), without_of (by decide +kernel), h⟩

end Benker
