import Verif.Spec.FormexAttrs
import Verif.Lemmas.FormexText

/-! C79: the attributes of a finalised Formex document. -/

namespace Benker
open FmxSpec Fmx

/-! ### superfluous attributes -/

/-- the names of the attributes which are dropped -/
def droppedNames (cfg : Fmx.Config) : List QName := ["namest", "nameend", "morerows", "rowstyle"].map (fun s => ⟨cfg.calsNs, s⟩)

theorem get?_erase (d : Dict QName String) (k k' : QName) : Dict.get? (Dict.erase d k) k' = if k = k' then none else Dict.get? d k' := by
  by_cases h : k = k'
  · subst h
    rw [if_pos rfl, Dict.get?_eq_none]
    unfold Dict.erase
    intro hm
    obtain ⟨p, hp, e⟩ := List.mem_map.mp hm
    have := (List.mem_filter.mp hp).2
    simp [e] at this
  · rw [if_neg h, get?_erase_ne h]

theorem dropAttrs_get (cfg : Fmx.Config) (a : Dict QName String) (k : QName) :
    Dict.get? (dropAttrs cfg a) k = if k ∈ droppedNames cfg then none else Dict.get? a k := by
  unfold dropAttrs droppedNames
  simp only [get?_erase, List.map_cons, List.map_nil, List.mem_cons, List.not_mem_nil, or_false, Config.q, eq_comm (b := k)]
  by_cases h1 : k = ⟨cfg.calsNs, "rowstyle"⟩
  · simp [h1]
  · by_cases h2 : k = ⟨cfg.calsNs, "morerows"⟩
    · simp [h2]
    · by_cases h3 : k = ⟨cfg.calsNs, "nameend"⟩
      · simp [h3]
      · by_cases h4 : k = ⟨cfg.calsNs, "namest"⟩ <;> simp [h1, h2, h3, h4]

mutual
theorem drop_cleaned (cfg : Fmx.Config) (b : Bool) (n : Node) : Cleaned (droppedNames cfg) b n (dropNode cfg b n) := by
  cases n with
  | elem t a x cs tl =>
    unfold dropNode Cleaned
    refine ⟨_, _, rfl, ?_, drop_cleanedList cfg _ cs⟩
    intro k
    have hiff : (b && decide (t ∈ ["ROW", "CELL", "TI.BLK", "STI.BLK", "GR.NOTES"].map f)) = true ↔ b = true ∧ Superfluous t := by
      rw [Bool.and_eq_true, decide_eq_true_iff]; rfl
    refine ⟨?_, ?_⟩
    · rintro ⟨h1, h2, h3⟩
      rw [if_pos (hiff.mpr ⟨h1, h2⟩), dropAttrs_get, if_pos h3]
    · intro h
      split
      · rename_i hc
        obtain ⟨h1, h2⟩ := hiff.mp hc
        rw [dropAttrs_get, if_neg (fun h3 => h ⟨h1, h2, h3⟩)]
      · rfl
  | pi => unfold dropNode Cleaned; rfl
  | comment => unfold dropNode Cleaned; rfl
theorem drop_cleanedList (cfg : Fmx.Config) (b : Bool) (ns : List Node) : CleanedList (droppedNames cfg) b ns (dropList cfg b ns) := by
  cases ns with
  | nil => unfold dropList CleanedList; rfl
  | cons n ns => unfold dropList CleanedList; exact ⟨_, _, rfl, drop_cleaned cfg b n, drop_cleanedList cfg b ns⟩
end

mutual
theorem cleaned_inTables (dropped : List QName) (b : Bool) (n m : Node) (h : Cleaned dropped b n m) (e : Node) (he : e ∈ inTables b m) :
    ∀ t, e.tag? = some t → Superfluous t → ∀ k ∈ dropped, e.attr k = none := by
  cases n with
  | elem t a x cs tl =>
    unfold Cleaned at h
    obtain ⟨b', ds, rfl, h1, h2⟩ := h
    unfold inTables at he
    rcases List.mem_append.mp he with he | he
    · split at he
      · rename_i hb
        simp only [List.mem_singleton] at he
        subst he
        intro t' ht' hs k hk
        injection ht' with ht'
        subst ht'
        exact (h1 k).1 ⟨hb, hs, hk⟩
      · cases he
    · exact cleaned_inTablesList dropped _ cs ds h2 e he
  | pi => unfold Cleaned at h; subst h; simp [inTables] at he
  | comment => unfold Cleaned at h; subst h; simp [inTables] at he
theorem cleaned_inTablesList (dropped : List QName) (b : Bool) (ns ms : List Node) (h : CleanedList dropped b ns ms) (e : Node)
    (he : e ∈ inTablesList b ms) : ∀ t, e.tag? = some t → Superfluous t → ∀ k ∈ dropped, e.attr k = none := by
  cases ns with
  | nil => unfold CleanedList at h; subst h; simp [inTablesList] at he
  | cons n ns =>
    unfold CleanedList at h
    obtain ⟨m, ms', rfl, h1, h2⟩ := h
    unfold inTablesList at he
    rcases List.mem_append.mp he with he | he
    · exact cleaned_inTables dropped b n m h1 e he
    · exact cleaned_inTablesList dropped b ns ms' h2 e he
end

/-- In the finalised document, the rows, the cells, the titles and the notes of the tables have none of the CALS attributes which the Formex attributes
already tell. -/
theorem C79_none_left (cfg : Fmx.Config) (root out : Node) (h : finalize cfg root = .ok out) (e : Node) (he : e ∈ inTables false out) (t : QName)
    (ht : e.tag? = some t) (hs : Superfluous t) (s : String) (hk : s ∈ ["namest", "nameend", "morerows", "rowstyle"]) : e.attr ⟨cfg.calsNs, s⟩ = none := by
  unfold finalize at h
  simp only at h
  obtain ⟨x, _, h⟩ := bind_ok h
  obtain ⟨y, _, h⟩ := bind_ok h
  cases h
  exact cleaned_inTables _ false y _ (drop_cleaned cfg false y) e he t ht hs _ (List.mem_map.mpr ⟨s, hk, rfl⟩)

/-- The step which drops these attributes changes nothing else. -/
theorem C79_only_those (cfg : Fmx.Config) (root : Node) :
    Cleaned (["namest", "nameend", "morerows", "rowstyle"].map (fun s => ⟨cfg.calsNs, s⟩)) false root (dropNode cfg false root) :=
  drop_cleaned cfg false root

/-! ### notes -/

theorem heads_append (l l' : List Node) : heads (l ++ l') = heads l ++ heads l' := List.map_append

theorem heads_putNotes (ks : List Note) (text : Option String) (before : List Node) :
    heads (putNotes text before ks).2 = heads before ++ heads (ks.flatMap (·.nodes)) := by
  induction ks generalizing text before with
  | nil => simp [putNotes, heads]
  | cons k ks ih =>
    unfold putNotes
    simp only [ih, List.flatMap_cons, heads_append]
    rw [← List.append_assoc]
    congr 1
    unfold putNote
    split
    · rw [heads_append]
    · split
      · rename_i hb
        have : before = [] := by simpa using hb
        subst this; rfl
      · rename_i p ps hb
        have hp : before = ps.reverse ++ [p] := by simpa using congrArg List.reverse hb
        subst hp
        have : heads [addTail ‹String› p] = heads [p] := by cases p <;> rfl
        simp only [heads_append, this]

theorem extract_find {t : String} (ht : t ≠ "ROW") {cs cs' : List Node} {ks : List Note} (h : extractList cs = .ok (cs', ks)) :
    (firstChild t cs = none → cs'.find? (isElem t) = none) ∧
    ∀ c, firstChild t cs = some c → ∃ c' k, cs'.find? (isElem t) = some c' ∧ extractNode c = .ok ([c'], k) := by
  unfold firstChild
  induction cs generalizing cs' ks with
  | nil => unfold extractList at h; cases h; exact ⟨fun _ => rfl, by intro c hc; cases hc⟩
  | cons n ns ih =>
    unfold extractList at h
    obtain ⟨⟨l1, k1⟩, h1, h⟩ := bind_ok h
    obtain ⟨⟨l2, k2⟩, h2, h⟩ := bind_ok h
    cases h
    obtain ⟨i1, i2⟩ := ih h2
    rw [List.find?_cons]
    by_cases hn : n.tag? = some (name t)
    · simp only [hn, decide_true]
      rcases extractNode_shape h1 with ⟨_, hr⟩ | ⟨n', rfl, hn', _⟩
      · rw [hn] at hr
        injection hr with hr
        exact absurd (congrArg QName.name hr) ht
      · refine ⟨(by intro h; cases h), ?_⟩
        intro c hc
        cases hc
        refine ⟨n', k1, ?_, h1⟩
        have : isElem t n' = true := isElem_iff.mpr (by rw [hn', hn])
        simp [this]
    · simp only [hn, decide_false]
      have hl : ∀ m ∈ l1, isElem t m = false := by
        intro m hm
        rcases extractNode_shape h1 with ⟨rfl, _⟩ | ⟨n', rfl, hn', _⟩
        · cases hm
        · simp only [List.mem_singleton] at hm
          subst hm
          rw [Bool.eq_false_iff]
          intro he; exact hn (by rw [← hn', isElem_iff.mp he])
      have hf : (l1 ++ l2).find? (isElem t) = l2.find? (isElem t) := by
        rw [List.find?_append]
        have : l1.find? (isElem t) = none := by
          rw [List.find?_eq_none]
          intro m hm; simp [hl m hm]
        rw [this]; rfl
      rw [hf]
      exact ⟨i1, i2⟩

theorem extract_attrs {n n' : Node} {k : List Note} (h : extractNode n = .ok ([n'], k)) (hr : n.tag? ≠ some (name "ROW")) : n'.attrs = n.attrs := by
  cases n with
  | elem t a x cs tl =>
    unfold extractNode at h
    obtain ⟨⟨cs', notes⟩, h1, h⟩ := bind_ok h
    simp only at h
    split at h
    · split at h
      · cases h; rfl
      · split at h
        · cases h; rfl
        · cases h
    · split at h
      · rename_i hrow
        exact absurd (congrArg some hrow) hr
      · cases h; rfl
  | pi => unfold extractNode at h; cases h; rfl
  | comment => unfold extractNode at h; cases h; rfl

theorem get?_append (a b : Dict QName String) (k : QName) : Dict.get? (a ++ b) k = (Dict.get? a k).or (Dict.get? b k) := by
  induction a with
  | nil => simp
  | cons p a ih =>
    obtain ⟨q, v⟩ := p
    rw [List.cons_append, Dict.get?_cons, Dict.get?_cons, ih]
    split <;> simp

theorem addAttrs_get {e : Node} {q : QName} (he : e.tag? = some q) (extra : Dict QName String) (k : QName) :
    (addAttrs extra e).attr k = (e.attr k).or (Dict.get? extra k) := by
  cases e with
  | elem t a x cs tl =>
    show Dict.get? (a ++ extra.filter (fun p => !Dict.has a p.1)) k = (Dict.get? a k).or _
    rw [get?_append, get?_filter_key (fun q => !Dict.has a q)]
    cases hg : Dict.get? a k with
    | some v => rfl
    | none =>
      have : Dict.has a k = false := by
        unfold Dict.has
        rw [hg]; rfl
      simp [this]
  | pi => cases he
  | comment => cases he

theorem find_modifyFirst {p : Node → Bool} {g : Node → Node} (hp : ∀ n, p (g n) = p n) (ns : List Node) :
    (modifyFirst p g ns).find? p = (ns.find? p).map g := by
  induction ns with
  | nil => rfl
  | cons n ns ih =>
    unfold modifyFirst
    by_cases h : p n = true
    · rw [if_pos h, List.find?_cons, List.find?_cons, hp, h]; rfl
    · rw [if_neg h, List.find?_cons, List.find?_cons]
      simp only [Bool.not_eq_true] at h
      rw [h]; exact ih

theorem makeNote_for {t : QName} {a : Dict QName String} {x : Option String} {cs cs' : List Node} {tl : Option String} {notes : List Note} {k : Note}
    (h1 : extractList cs = .ok (cs', notes)) (h : makeNote (Dict.erase a (f "TYPE")) cs' = .ok k) : NoteFor (.elem t a x cs tl) k.nodes := by
  have hattr : ∀ q, Dict.get? (Dict.erase a (f "TYPE")) q = if q = name "TYPE" then none else (Node.elem t a x cs tl).attr q := by
    intro q
    rw [get?_erase]
    by_cases hq : q = name "TYPE"
    · rw [if_pos (show f "TYPE" = q from hq.symm), if_pos hq]
    · rw [if_neg (show ¬ f "TYPE" = q from fun e => hq e.symm), if_neg hq]; rfl
  obtain ⟨f1, f2⟩ := extract_find (t := "CELL") (by decide) h1
  unfold makeNote at h
  cases hc : firstChild "CELL" cs with
  | none => rw [f1 hc] at h; cases h
  | some c =>
    obtain ⟨c', kc, hc', hx⟩ := f2 c hc
    rw [hc'] at h
    simp only at h
    have hct : c.tag? = some (name "CELL") := by
      have := List.find?_some hc
      simpa using this
    refine ⟨c, hc, ?_⟩
    rcases extractNode_shape hx with ⟨hn, _⟩ | ⟨n', hn, ht, _, hch⟩
    · cases hn
    · cases hn
      obtain ⟨_, ks', hcs⟩ := hch (by rw [hct]; decide)
      obtain ⟨g1, g2⟩ := extract_find (t := "GR.NOTES") (by decide) hcs
      refine ⟨?_, ?_⟩
      · intro hnone
        have hnone' := g1 hnone
        have : c'.children.any (isElem "GR.NOTES") = false := by
          rw [Bool.eq_false_iff]
          intro hany
          obtain ⟨m, hm, hmi⟩ := List.any_eq_true.mp hany
          exact (List.find?_eq_none.mp hnone' m hm) hmi
        rw [this] at h
        cases h
        refine ⟨_, rfl, rfl, fun q => ?_⟩
        rw [addAttrs_get rfl, hattr]
        show (Dict.get? [] q).or _ = _
        simp
      · intro e he
        obtain ⟨e', ke, he', hxe⟩ := g2 e he
        have het : e.tag? = some (name "GR.NOTES") := by
          have := List.find?_some he
          simpa using this
        have hany : c'.children.any (isElem "GR.NOTES") = true :=
          List.any_eq_true.mpr ⟨e', List.mem_of_find?_eq_some he', List.find?_some he'⟩
        rw [if_pos hany] at h
        cases h
        refine ⟨addAttrs (Dict.erase a (f "TYPE")) e', ?_, fun q => ?_⟩
        · show (modifyFirst (isElem "GR.NOTES") (addAttrs (Dict.erase a (f "TYPE"))) c'.children).find? (isElem "GR.NOTES") = _
          rw [find_modifyFirst (by intro n; cases n <;> rfl), he']; rfl
        · have het' : e'.tag? = some (name "GR.NOTES") := isElem_iff.mp (List.find?_some he')
          rw [addAttrs_get het', hattr]
          unfold Node.attr
          rw [extract_attrs hxe (by rw [het]; decide)]

mutual
theorem notes_for (n : Node) (l : List Node) (ks : List Note) (h : extractNode n = .ok (l, ks)) : All₂ (fun r k => NoteFor r k.nodes) (footers n) ks := by
  cases n with
  | elem t a x cs tl =>
    unfold extractNode at h
    obtain ⟨⟨cs', notes⟩, h1, h⟩ := bind_ok h
    have ih := notes_forList cs cs' notes h1
    unfold footers
    simp only at h
    split at h
    · rename_i htbl
      rw [if_pos (show t = name "TBL" from htbl)]
      split at h
      · cases h; exact .nil
      · split at h
        · cases h; exact .nil
        · cases h
    · rename_i htbl
      rw [if_neg (show ¬ t = name "TBL" from htbl)]
      split at h
      · rename_i hrow
        split at h
        · rename_i hgr
          obtain ⟨k, hk, h⟩ := bind_ok h
          cases h
          rw [if_pos ⟨hrow, hgr⟩]
          exact .cons (makeNote_for h1 hk) ih
        · rename_i hgr
          cases h
          rw [if_neg (fun hf : IsFooter t a => hgr hf.2)]; exact ih
      · rename_i hrow
        cases h
        rw [if_neg (fun hf : IsFooter t a => hrow hf.1)]; exact ih
  | pi => unfold extractNode at h; cases h; exact .nil
  | comment => unfold extractNode at h; cases h; exact .nil
theorem notes_forList (ns l : List Node) (ks : List Note) (h : extractList ns = .ok (l, ks)) : All₂ (fun r k => NoteFor r k.nodes) (footersList ns) ks := by
  cases ns with
  | nil => unfold extractList at h; cases h; exact .nil
  | cons n ns =>
    unfold extractList at h
    obtain ⟨⟨l1, k1⟩, h1, h⟩ := bind_ok h
    obtain ⟨⟨l2, k2⟩, h2, h⟩ := bind_ok h
    cases h
    unfold footersList
    exact (notes_for n l1 k1 h1).append (notes_forList ns l2 k2 h2)
end

theorem extract_tags {ns l : List Node} {ks : List Note} (h : extractList ns = .ok (l, ks)) : l.map (·.tag?) = tagsKept ns := by
  induction ns generalizing l ks with
  | nil => unfold extractList at h; cases h; rfl
  | cons n ns ih =>
    unfold extractList at h
    obtain ⟨⟨l1, k1⟩, h1, h⟩ := bind_ok h
    obtain ⟨⟨l2, k2⟩, h2, h⟩ := bind_ok h
    cases h
    have i := ih h2
    unfold tagsKept at i ⊢
    rw [List.map_append, i, List.filter_cons]
    cases n with
    | elem t a x cs tl =>
      unfold extractNode at h1
      obtain ⟨⟨cs', notes⟩, _, h1⟩ := bind_ok h1
      simp only at h1
      by_cases hf : IsFooter t a
      · have hnt : ¬ t = f "TBL" := by rw [hf.1]; decide
        rw [if_neg hnt, if_pos (show t = f "ROW" from hf.1), if_pos (show Dict.get? a (f "TYPE") = some "__GR.NOTES__" from hf.2)] at h1
        obtain ⟨k, _, h1⟩ := bind_ok h1
        cases h1
        simp [hf]
      · simp only [hf, not_false_eq_true, decide_true, if_true, List.map_cons]
        split at h1
        · split at h1
          · cases h1; rfl
          · split at h1
            · cases h1; rfl
            · cases h1
        · split at h1
          · rename_i hrow
            split at h1
            · rename_i hgr; exact absurd ⟨hrow, hgr⟩ hf
            · cases h1; rfl
          · cases h1; rfl
    | pi => unfold extractNode at h1; cases h1; rfl
    | comment => unfold extractNode at h1; cases h1; rfl

theorem extract_notes (a : Dict QName String) (x : Option String) (cs : List Node) (tl : Option String) (l : List Node) (ks : List Note)
    (h : extractNode (.elem (name "TBL") a x cs tl) = .ok (l, ks)) :
    ks = [] ∧ ∃ x' before groups after, All₂ NoteFor (footersList cs) groups ∧ tagsKept cs = (before ++ after).map (·.tag?) ∧
      (∀ n ∈ before, n.tag? ≠ some (name "CORPUS")) ∧ (∀ n ∈ after.head?, n.tag? = some (name "CORPUS")) ∧
      ∃ children, l = [.elem (name "TBL") a x' children tl] ∧ heads children = heads before ++ heads (List.flatten groups) ++ heads after := by
  unfold extractNode at h
  obtain ⟨⟨cs', notes⟩, h1, h⟩ := bind_ok h
  have hn := notes_forList cs cs' notes h1
  have htags := extract_tags h1
  have hgroups : All₂ NoteFor (footersList cs) (notes.map (·.nodes)) := by
    clear h h1 htags
    generalize footersList cs = fs at hn
    induction hn with
    | nil => exact .nil
    | cons h _ ih => exact .cons h ih
  have hb : ∀ n ∈ cs'.takeWhile (fun c => !isElem "CORPUS" c), n.tag? ≠ some (name "CORPUS") := by
    intro n hn he
    have := mem_takeWhile hn
    rw [isElem_iff.mpr he] at this
    cases this
  have ha : ∀ n ∈ (cs'.dropWhile (fun c => !isElem "CORPUS" c)).head?, n.tag? = some (name "CORPUS") := by
    intro n hn
    have := List.head?_dropWhile_not (fun c => !isElem "CORPUS" c) cs'
    rw [show (cs'.dropWhile (fun c => !isElem "CORPUS" c)).head? = some n from hn] at this
    exact isElem_iff.mp (by simpa using this)
  simp only at h
  rw [if_pos (show name "TBL" = f "TBL" from rfl)] at h
  split at h
  · rename_i he
    have he : notes = [] := by simpa using he
    subst he
    cases h
    refine ⟨rfl, x, _, _, _, hgroups, ?_, hb, ha, cs', rfl, ?_⟩
    · rw [List.takeWhile_append_dropWhile, htags]
    · show heads cs' = heads _ ++ [] ++ heads _
      rw [List.append_nil, ← heads_append, List.takeWhile_append_dropWhile]
  · split at h
    · cases h
      refine ⟨rfl, _, _, _, _, hgroups, ?_, hb, ha, _, rfl, ?_⟩
      · rw [List.takeWhile_append_dropWhile, htags]
      · rw [heads_append, heads_putNotes, List.flatMap_def]
    · cases h

/-- The footer rows of a table become notes which precede its first `CORPUS`, in order; a note has the attributes of its row, except the type, unless it
has its own.  No footer row has rows inside, except in its first cell (see C105). -/
theorem C79_notes (a : Dict QName String) (x : Option String) (cs : List Node) (tl : Option String) (l : List Node) (ks : List Note) (s : Bool)
    (hnotes : NotesApart (.elem (name "TBL") a x cs tl)) (h : moveNode false (.elem (name "TBL") a x cs tl) = .ok (l, ks, s)) :
    s = false ∧ ks = [] ∧ ∃ x' before groups after, All₂ NoteFor (footersList cs) groups ∧ tagsKept cs = (before ++ after).map (·.tag?) ∧
      (∀ n ∈ before, n.tag? ≠ some (name "CORPUS")) ∧ (∀ n ∈ after.head?, n.tag? = some (name "CORPUS")) ∧
      ∃ children, l = [.elem (name "TBL") a x' children tl] ∧ heads children = heads before ++ heads (List.flatten groups) ++ heads after := by
  rw [move_apart _ hnotes] at h
  cases hx : extractNode (.elem (name "TBL") a x cs tl) with
  | error e => rw [hx] at h; cases h
  | ok p =>
    rw [hx] at h
    cases h
    exact ⟨rfl, extract_notes a x cs tl _ _ hx⟩

/-- a table with two footer rows -/
def twoNotes : Node :=
  .elem (name "TBL") [] none
      [.elem (name "TITLE") [] none [] none, .elem (name "CORPUS") [] none
        [.elem (name "ROW") [] none [.elem (name "CELL") [] (some "a") [] none] none,
         .elem (name "ROW") [(name "TYPE", "__GR.NOTES__"), (⟨none, "valign"⟩, "top")] none [.elem (name "CELL") [] (some "n1") [] none] none,
         .elem (name "ROW") [(⟨none, "valign"⟩, "top"), (name "TYPE", "__GR.NOTES__"), (⟨none, "rowsep"⟩, "1")] none
          [.elem (name "CELL") [] none [.elem (name "GR.NOTES") [(⟨none, "valign"⟩, "middle")] (some "n2") [] none] none] none] none] none

/-- the hypotheses of `C79_notes` hold of a table with two footer rows, and the attributes are those -/
example : NotesApart twoNotes ∧ ∃ l, moveNode false twoNotes = .ok (l, [], false) ∧
    (l.flatMap (fun n => n.children)).map (fun n => (n.tag?.map (·.name), n.attrs.map (fun p => (p.1.name, p.2)))) =
      [(some "TITLE", []), (some "GR.NOTES", [("valign", "top")]), (some "GR.NOTES", [("valign", "middle"), ("rowsep", "1")]), (some "CORPUS", [])] :=
  ⟨by decide +kernel, _, rfl, by decide +kernel⟩

/-- the conclusion of `C79_none_left` is not empty: a finalised document with a row, a cell and a title in a table -/
example : (match finalize blockCfg (.elem (name "TBL") [] none [blockDemo] none) with
    | .ok out => (inTables false out).filter (fun e => e.tag? = some (name "ROW") ∨ e.tag? = some (name "TI.BLK")) |>.length
    | .error _ => 0) = 3 := by decide +kernel

end Benker
