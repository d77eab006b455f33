import Verif.Spec.Formex2Cals
import Verif.Props.Converter
import Verif.Lemmas.FormexRoundTrip

/-! C83: replacing the tables of a Formex document keeps everything else in place. -/

namespace Benker

theorem eval_bind_ok {σ α β : Type} {m : PyM σ α} {f : α → PyM σ β} {s : σ} {b : β} (h : PyM.eval (m >>= f) s = .ok b) :
    ∃ a s', m s = (.ok a, s') ∧ PyM.eval (f a) s' = .ok b := by
  unfold PyM.eval at h
  rw [PyM.bind_run] at h
  cases hm : m s with
  | mk r s' =>
    rw [hm] at h
    cases r with
    | error e => cases h
    | ok a => exact ⟨a, s', rfl, h⟩

/-- the CALS builder makes a `table` -/
theorem Cals.generate_tag (cfg : Cals.Config) (t : Table Content) (e : Node) (h : PyM.eval (Cals.generate cfg) t = .ok e) :
    e.tag? = some ⟨cfg.ns, "table"⟩ := by
  unfold Cals.generate at h
  obtain ⟨_, _, _, h⟩ := eval_bind_ok h
  obtain ⟨_, _, _, h⟩ := eval_bind_ok h
  obtain ⟨_, _, _, h⟩ := eval_bind_ok h
  obtain ⟨_, _, _, h⟩ := eval_bind_ok h
  replace h : Cals.buildTree cfg _ _ _ _ = .ok e := h
  unfold Cals.buildTree at h
  obtain ⟨_, _, h⟩ := Convert.bind_ok_inv h
  obtain ⟨_, _, h⟩ := Convert.bind_ok_inv h
  obtain ⟨_, _, h⟩ := Convert.bind_ok_inv h
  obtain ⟨_, _, h⟩ := Convert.bind_ok_inv h
  rw [← Except.ok.inj h]
  rfl

/-- the Formex builder makes a `TBL` -/
theorem Fmx.generate_tag (cfg : Fmx.Config) (k : Nat) (t : Table Content) (e : Node) (h : PyM.eval (Fmx.generate cfg k) t = .ok e) :
    e.tag? = some ⟨none, "TBL"⟩ := by
  unfold Fmx.generate at h
  obtain ⟨_, _, _, h⟩ := eval_bind_ok h
  obtain ⟨_, _, _, h⟩ := eval_bind_ok h
  obtain ⟨_, _, _, h⟩ := eval_bind_ok h
  obtain ⟨_, _, _, h⟩ := eval_bind_ok h
  replace h : Fmx.buildTree cfg _ _ _ _ _ _ = .ok e := h
  unfold Fmx.buildTree at h
  obtain ⟨_, _, h⟩ := Convert.bind_ok_inv h
  obtain ⟨_, _, h⟩ := Convert.bind_ok_inv h
  rw [← Except.ok.inj h]
  rfl

/-- what a conversion gives comes from the builder -/
theorem Convert.thenGenerate_ok {p : Except PyErr (Option (Table Content))} {g : PyM (Table Content) Node} {e : Node}
    (h : Convert.thenGenerate p g = .ok e) : ∃ t, p = .ok (some t) ∧ PyM.eval g t = .ok e := by
  unfold Convert.thenGenerate at h
  cases p with
  | error x => cases h
  | ok o =>
    cases o with
    | none => cases h
    | some t => exact ⟨t, rfl, h⟩

namespace Fmx2Cals
open PyM Benker.Convert

/-- the parser looks at the attributes of the parent and at the notes, at nothing else outside of the `CORPUS` -/
theorem parseTable_parent (cfg : FmxP.Config) (blk : Nat) (p p' : Node) (n : Node) (hn : n.tag? = some (cfg.f "CORPUS"))
    (ha : p.attrs = p'.attrs) (hnotes : FmxP.notesOf cfg (some p) = FmxP.notesOf cfg (some p')) (s : PState) :
    FmxP.parseTable cfg blk (some p) n s = FmxP.parseTable cfg blk (some p') n s := by
  rw [FmxP.parseTable_run blk _ hn, FmxP.parseTable_run blk _ hn]
  have e1 : FmxP.endCorpus cfg (some p) = FmxP.endCorpus cfg (some p') := by unfold FmxP.endCorpus; rw [hnotes]
  have e0 : FmxP.tblStyles cfg (some p) = FmxP.tblStyles cfg (some p') := by
    have : ∀ k, p.attr k = p'.attr k := fun k => by unfold Node.attr; rw [ha]
    simp only [FmxP.tblStyles, CalsP.mapStyle, this]
  have e2 : FmxP.parseCorpus cfg (some p) n = FmxP.parseCorpus cfg (some p') n := by
    unfold FmxP.parseCorpus FmxP.corpusStyles FmxP.corpusNature
    rw [e0]
  rw [e1, e2]

theorem convert_parent (c : Config) (blk : Nat) (p p' : Node) (n : Node) (hn : n.tag? = some (c.parser.f "CORPUS"))
    (ha : p.attrs = p'.attrs) (hnotes : FmxP.notesOf c.parser (some p) = FmxP.notesOf c.parser (some p')) :
    convert c blk (some p) n = convert c blk (some p') n := by
  unfold convert eval
  rw [parseTable_parent c.parser blk p p' n hn ha hnotes]

theorem convert_tag {c : Config} {blk : Nat} {p : Option Node} {n e : Node} (h : convert c blk p n = .ok e) :
    e.tag? = some ⟨c.builder.ns, "table"⟩ := by
  obtain ⟨t, _, h⟩ := thenGenerate_ok h
  exact Cals.generate_tag _ _ _ h

theorem f_eq (c : FmxP.Config) (s : String) : c.f s = ⟨c.ns, s⟩ := rfl

theorem isCorpus_iff (c : FmxP.Config) (n : Node) : isCorpus c n = true ↔ n.tag? = some ⟨c.ns, "CORPUS"⟩ := by
  unfold isCorpus; rw [decide_eq_true_eq]; rfl

theorem isNotes_iff (c : FmxP.Config) (n : Node) : isNotes c n = true ↔ n.tag? = some ⟨c.ns, "GR.NOTES"⟩ := by
  unfold isNotes; rw [decide_eq_true_eq]; rfl

theorem isCorpus_false (c : FmxP.Config) (n : Node) : isCorpus c n = false ↔ n.tag? ≠ some ⟨c.ns, "CORPUS"⟩ := by
  rw [Ne, ← isCorpus_iff]; cases isCorpus c n <;> simp

theorem isNotes_false (c : FmxP.Config) (n : Node) : isNotes c n = false ↔ n.tag? ≠ some ⟨c.ns, "GR.NOTES"⟩ := by
  rw [Ne, ← isNotes_iff]; cases isNotes c n <;> simp

theorem isNotes_tag {c : FmxP.Config} {n m : Node} (h : m.tag? = n.tag?) : isNotes c m = isNotes c n := by
  unfold isNotes; rw [h]

theorem isCorpus_tag {c : FmxP.Config} {n m : Node} (h : m.tag? = n.tag?) : isCorpus c m = isCorpus c n := by
  unfold isCorpus; rw [h]

theorem tableNotes_iff (c : FmxP.Config) (n : Node) (ns : List Node) :
    TableNotes c n ns ↔ (isNotes c n = true ∧ ns.any (isCorpus c) = true) := by
  unfold TableNotes
  rw [isNotes_iff, List.any_eq_true]
  constructor
  · rintro ⟨h, m, h1, h2⟩; exact ⟨h, m, h1, (isCorpus_iff _ _).mpr h2⟩
  · rintro ⟨h, m, h1, h2⟩; exact ⟨h, m, h1, (isCorpus_iff _ _).mp h2⟩

/-- the notes which precede the first `CORPUS` -/
theorem notesOf_split (c : FmxP.Config) (t a x tl) (before : List Node) (n : Node) (rest : List Node)
    (hb : ∀ m ∈ before, isCorpus c m = false) (hn : isCorpus c n = true) :
    FmxP.notesOf c (some (.elem t a x (before ++ n :: rest) tl)) = before.filter (isNotes c) := by
  show ((before ++ n :: rest).takeWhile _).filter _ = _
  have e : ∀ m : Node, (decide (m.tag? ≠ some (c.f "CORPUS"))) = !isCorpus c m := by
    intro m; unfold isCorpus; simp
  have : (before ++ n :: rest).takeWhile (fun m => decide (m.tag? ≠ some (c.f "CORPUS"))) = before := by
    rw [List.takeWhile_append_of_pos]
    · rw [List.takeWhile_cons, if_neg (by rw [e, hn]; simp), List.append_nil]
    · intro m hm; rw [e, hb m hm]; rfl
  rw [this]
  rfl

/-- the converter is given the notes and the attributes of the parent -/
theorem convert_notes (c : Config) (blk : Nat) (t a x tl) (before : List Node) (n : Node) (rest : List Node)
    (hb : ∀ m ∈ before, isCorpus c.parser m = false) (hn : isCorpus c.parser n = true) :
    convert c blk (some (.elem t a x (before ++ n :: rest) tl)) n =
      convert c blk (some (.elem t a none (before.filter (isNotes c.parser) ++ [n]) none)) n := by
  refine convert_parent c blk _ _ n ((isCorpus_iff _ _).mp hn) rfl ?_
  rw [notesOf_split c.parser t a x tl before n rest hb hn,
    notesOf_split c.parser t a none none _ n [] (fun m hm => hb m (List.mem_filter.mp hm).1) hn, List.filter_filter]
  simp

/-- the children which have been visited and remain at the end: all of them, or all but the notes if a table follows -/
def remain (c : FmxP.Config) (before rest : List Node) : List Node :=
  if rest.any (isCorpus c) then before.filter (fun m => !isNotes c m) else before

theorem Inside.same {c : Config} {blk : Nat} {n n' : Node} (h : Inside c blk n n') :
    n'.tag? = n.tag? ∧ n'.attrs = n.attrs ∧ n'.text = n.text ∧ n'.tail = n.tail := by
  cases h <;> exact ⟨rfl, rfl, rfl, rfl⟩

theorem table_corpus (c : Config) {e : Node} (h : e.tag? = some ⟨c.builder.ns, "table"⟩) : isCorpus c.parser e = false := by
  rw [isCorpus_false, h]; simp

theorem table_notes (c : Config) {e : Node} (h : e.tag? = some ⟨c.builder.ns, "table"⟩) : isNotes c.parser e = false := by
  rw [isNotes_false, h]; simp

theorem remain_corpus (c : FmxP.Config) (before : List Node) (m : Node) (rest : List Node) (hm : isNotes c m = false) :
    remain c (before.filter (fun m => !isNotes c m) ++ [m]) rest = before.filter (fun m => !isNotes c m) ++ [m] := by
  unfold remain
  split
  · rw [List.filter_append, List.filter_filter]; simp [hm]
  · rfl

/-- one turn of the loop on a table -/
theorem children_corpus (c : Config) (rec : Node → Except PyErr Node) (blk : Nat) (parent : List Node → Node) (before : List Node) (n : Node)
    (ns : List Node) (hn : isCorpus c.parser n = true) :
    children c rec blk parent before (n :: ns) = (do
      let e ← convert c blk (some (parent (before ++ n :: ns))) n
      let m ← rec (e.setTail n.tail)
      children c rec blk parent (before.filter (fun m => !isNotes c.parser m) ++ [m]) ns) := by
  rw [children, if_pos hn]
  congr
  funext e
  have : (replaceAt (before.filter (fun m => !isNotes c.parser m)).length n e (before.filter (fun m => !isNotes c.parser m) ++ n :: ns))[
      (before.filter (fun m => !isNotes c.parser m)).length]? = some (e.setTail n.tail) := by
    rw [replaceAt_split]; simp
  simp only [this]

theorem children_other (c : Config) (rec : Node → Except PyErr Node) (blk : Nat) (parent : List Node → Node) (before : List Node) (n : Node)
    (ns : List Node) (hn : isCorpus c.parser n = false) :
    children c rec blk parent before (n :: ns) = (do
      let m ← rec n
      children c rec blk parent (before ++ [m]) ns) := by
  rw [children, if_neg (by rw [hn]; simp)]

theorem any_cons_false {c : FmxP.Config} {n : Node} {ns : List Node} (hn : isCorpus c n = false) :
    (n :: ns).any (isCorpus c) = ns.any (isCorpus c) := by rw [List.any_cons, hn, Bool.false_or]

/-- what the loop computes is a replacement -/
theorem children_sound (c : Config) (blk : Nat) (rec : Node → Except PyErr Node) (hrec : ∀ n n', rec n = .ok n' → Inside c blk n n')
    (t a x tl) : ∀ (ns before notes out : List Node), (∀ m ∈ before, isCorpus c.parser m = false) →
      (ns.any (isCorpus c.parser) = true → notes = before.filter (isNotes c.parser)) →
      children c rec blk (fun cs => .elem t a x cs tl) before ns = .ok out →
      ∃ ns', out = remain c.parser before ns ++ ns' ∧ Siblings c blk (t, a) notes ns ns' := by
  intro ns
  induction ns with
  | nil =>
    intro before notes out hb hnotes h
    refine ⟨[], ?_, .nil _ _ _⟩
    rw [← Except.ok.inj h]
    simp [remain]
  | cons n ns ih =>
    intro before notes out hb hnotes h
    cases hn : isCorpus c.parser n with
    | true =>
      rw [children_corpus c rec blk _ before n ns hn] at h
      obtain ⟨e, he, h⟩ := bind_ok_inv h
      obtain ⟨m, hm, h⟩ := bind_ok_inv h
      have hi := hrec _ _ hm
      have hany : (n :: ns).any (isCorpus c.parser) = true := by rw [List.any_cons, hn, Bool.true_or]
      have hmt : m.tag? = some ⟨c.builder.ns, "table"⟩ := by rw [hi.same.1, (setTail_same e n.tail).1]; exact convert_tag he
      have hmn := table_notes c hmt
      rw [convert_notes c blk t a x tl before n ns hb hn, ← hnotes hany] at he
      obtain ⟨ns', h1, h2⟩ := ih (before.filter (fun m => !isNotes c.parser m) ++ [m]) [] out (by
          intro k hk
          rcases List.mem_append.mp hk with hk | hk
          · exact hb k (List.mem_filter.mp hk).1
          · rw [List.mem_singleton.mp hk]; exact table_corpus c hmt)
        (by
          intro _
          rw [List.filter_append, List.filter_filter]
          simp [hmn]) h
      refine ⟨m :: ns', ?_, .corpus _ _ _ _ e _ _ _ ((isCorpus_iff _ _).mp hn) he hi h2⟩
      rw [h1, remain_corpus _ _ _ _ hmn]
      simp only [remain, hany, if_true]
      simp
    | false =>
      rw [children_other c rec blk _ before n ns hn] at h
      obtain ⟨m, hm, h⟩ := bind_ok_inv h
      have hi := hrec _ _ hm
      have hmc : isCorpus c.parser m = false := by rw [isCorpus_tag hi.same.1]; exact hn
      have hmn : isNotes c.parser m = isNotes c.parser n := isNotes_tag hi.same.1
      have hb' : ∀ k ∈ before ++ [m], isCorpus c.parser k = false := by
        intro k hk
        rcases List.mem_append.mp hk with hk | hk
        · exact hb k hk
        · rw [List.mem_singleton.mp hk]; exact hmc
      have hany := any_cons_false (ns := ns) hn
      by_cases hT : TableNotes c.parser n ns
      · obtain ⟨k1, k2⟩ := (tableNotes_iff _ _ _).mp hT
        obtain ⟨ns', h1, h2⟩ := ih (before ++ [m]) (notes ++ [m]) out hb'
          (by
            intro _
            rw [hnotes (hany.trans k2), List.filter_append]
            simp [hmn, k1]) h
        refine ⟨ns', ?_, .notes _ _ _ _ _ _ _ hT hi h2⟩
        rw [h1]
        simp only [remain, hany, k2, if_true, List.filter_append]
        simp [hmn, k1]
      · have k : ns.any (isCorpus c.parser) = true → isNotes c.parser n = false := by
          intro k2
          cases k1 : isNotes c.parser n with
          | false => rfl
          | true => exact absurd ((tableNotes_iff _ _ _).mpr ⟨k1, k2⟩) hT
        obtain ⟨ns', h1, h2⟩ := ih (before ++ [m]) notes out hb'
          (by
            intro k2
            rw [hnotes (hany.trans k2), List.filter_append]
            simp [hmn, k k2]) h
        refine ⟨m :: ns', ?_, .other _ _ _ _ _ _ _ ((isCorpus_false _ _).mp hn) hT hi h2⟩
        rw [h1]
        unfold remain
        rw [hany]
        cases k2 : ns.any (isCorpus c.parser) with
        | true => simp [List.filter_append, hmn, k k2]
        | false => simp

theorem blk_eq (c : FmxP.Config) (blk : Nat) (t : QName) :
    (if t = c.f "BLK" then blk + 1 else blk) = blk + if t = ⟨c.ns, "BLK"⟩ then 1 else 0 := by
  rw [f_eq]; split <;> rfl

theorem inside_sound (c : Config) : ∀ (limit blk : Nat) (n n' : Node), inside c limit blk n = .ok n' → Inside c blk n n' := by
  intro limit
  induction limit with
  | zero => intro blk n n' h; cases h
  | succ limit ih =>
    intro blk n n' h
    cases n with
    | elem t a x cs tl =>
      unfold inside at h
      simp only [blk_eq] at h
      obtain ⟨cs', h1, h2⟩ := bind_ok_inv h
      obtain ⟨cs'', h3, h4⟩ := children_sound c _ _ (ih _) t a x tl cs [] [] cs' (by simp) (by simp) h1
      have : remain c.parser [] cs = [] := by unfold remain; split <;> rfl
      rw [this, List.nil_append] at h3
      subst h3
      rw [← Except.ok.inj h2]
      exact .elem _ _ _ _ _ _ _ h4
    | pi t d tl => rw [← Except.ok.inj h]; exact .pi _ _ _ _
    | comment d tl => rw [← Except.ok.inj h]; exact .comment _ _ _

mutual
theorem inside_found (c : Config) : ∀ {blk : Nat} {n n' : Node}, Inside c blk n n' →
    ∃ limit, ∀ l, limit ≤ l → inside c l blk n = .ok n'
  | _, _, _, .elem blk t a x cs cs' tl h => by
    obtain ⟨limit, hl⟩ := siblings_found c h
    refine ⟨limit + 1, fun l h => ?_⟩
    obtain ⟨l, rfl⟩ : ∃ k, l = k + 1 := ⟨l - 1, by omega⟩
    unfold inside
    simp only [blk_eq]
    have := hl l (by omega) x tl [] (by simp) (by simp)
    have e : remain c.parser [] cs = [] := by unfold remain; split <;> rfl
    rw [e] at this
    rw [this]
    rfl
  | _, _, _, .pi .. => ⟨1, fun l h => by
      obtain ⟨l, rfl⟩ : ∃ k, l = k + 1 := ⟨l - 1, by omega⟩
      rfl⟩
  | _, _, _, .comment .. => ⟨1, fun l h => by
      obtain ⟨l, rfl⟩ : ∃ k, l = k + 1 := ⟨l - 1, by omega⟩
      rfl⟩
theorem siblings_found (c : Config) : ∀ {blk : Nat} {p : QName × Dict QName String} {notes ns ns' : List Node}, Siblings c blk p notes ns ns' →
    ∃ limit, ∀ l, limit ≤ l → ∀ (x tl : Option String) (before : List Node), (∀ m ∈ before, isCorpus c.parser m = false) →
      (ns.any (isCorpus c.parser) = true → notes = before.filter (isNotes c.parser)) →
      children c (inside c l blk) blk (fun cs => .elem p.1 p.2 x cs tl) before ns = .ok (remain c.parser before ns ++ ns')
  | _, _, _, _, _, .nil .. => ⟨0, fun l _ x tl before _ _ => by simp [children, remain]⟩
  | _, _, _, _, _, .corpus blk p notes n e n' ns ns' ht he hi hs => by
    obtain ⟨l1, h1⟩ := inside_found c hi
    obtain ⟨l2, h2⟩ := siblings_found c hs
    have hn := (isCorpus_iff _ _).mpr ht
    have hmt : n'.tag? = some ⟨c.builder.ns, "table"⟩ := by rw [hi.same.1, (setTail_same e n.tail).1]; exact convert_tag he
    have hmn := table_notes c hmt
    refine ⟨l1 + l2, fun l hl x tl before hb hnotes => ?_⟩
    have hany : (n :: ns).any (isCorpus c.parser) = true := by rw [List.any_cons, hn, Bool.true_or]
    rw [children_corpus c _ blk _ before n ns hn]
    rw [convert_notes c blk p.1 p.2 x tl before n ns hb hn, ← hnotes hany, he, ok_bind, h1 l (by omega), ok_bind,
      h2 l (by omega) x tl (before.filter (fun m => !isNotes c.parser m) ++ [n']) (by
          intro k hk
          rcases List.mem_append.mp hk with hk | hk
          · exact hb k (List.mem_filter.mp hk).1
          · rw [List.mem_singleton.mp hk]; exact table_corpus c hmt)
        (by
          intro _
          rw [List.filter_append, List.filter_filter]
          simp [hmn]),
      remain_corpus _ _ _ _ hmn]
    simp only [remain, hany, if_true]
    simp
  | _, _, _, _, _, .notes blk p notes n n' ns ns' hT hi hs => by
    obtain ⟨l1, h1⟩ := inside_found c hi
    obtain ⟨l2, h2⟩ := siblings_found c hs
    obtain ⟨k1, k2⟩ := (tableNotes_iff _ _ _).mp hT
    have hn : isCorpus c.parser n = false := by
      rw [isCorpus_false, hT.1]; simp
    have hmc : isCorpus c.parser n' = false := by rw [isCorpus_tag hi.same.1]; exact hn
    have hmn : isNotes c.parser n' = isNotes c.parser n := isNotes_tag hi.same.1
    have hany := any_cons_false (ns := ns) hn
    refine ⟨l1 + l2, fun l hl x tl before hb hnotes => ?_⟩
    rw [children_other c _ blk _ before n ns hn, h1 l (by omega), ok_bind, h2 l (by omega) x tl (before ++ [n']) (by
          intro k hk
          rcases List.mem_append.mp hk with hk | hk
          · exact hb k hk
          · rw [List.mem_singleton.mp hk]; exact hmc)
        (by
          intro _
          rw [hnotes (hany.trans k2), List.filter_append]
          simp [hmn, k1])]
    simp only [remain, hany, k2, if_true, List.filter_append]
    simp [hmn, k1]
  | _, _, _, _, _, .other blk p notes n n' ns ns' ht hT hi hs => by
    obtain ⟨l1, h1⟩ := inside_found c hi
    obtain ⟨l2, h2⟩ := siblings_found c hs
    have hn := (isCorpus_false _ _).mpr ht
    have hmc : isCorpus c.parser n' = false := by rw [isCorpus_tag hi.same.1]; exact hn
    have hmn : isNotes c.parser n' = isNotes c.parser n := isNotes_tag hi.same.1
    have hany := any_cons_false (ns := ns) hn
    have k : ns.any (isCorpus c.parser) = true → isNotes c.parser n = false := by
      intro k2
      cases k1 : isNotes c.parser n with
      | false => rfl
      | true => exact absurd ((tableNotes_iff _ _ _).mpr ⟨k1, k2⟩) hT
    refine ⟨l1 + l2, fun l hl x tl before hb hnotes => ?_⟩
    rw [children_other c _ blk _ before n ns hn, h1 l (by omega), ok_bind, h2 l (by omega) x tl (before ++ [n']) (by
          intro k hk
          rcases List.mem_append.mp hk with hk | hk
          · exact hb k hk
          · rw [List.mem_singleton.mp hk]; exact hmc)
        (by
          intro k2
          rw [hnotes (hany.trans k2), List.filter_append]
          simp [hmn, k k2])]
    unfold remain
    rw [hany]
    cases k2 : ns.any (isCorpus c.parser) with
    | true => simp [List.filter_append, hmn, k k2]
    | false => simp
end

/-- C83.  The document produced is the source document where every `CORPUS` is replaced by what the converter makes of it and of its notes, followed by the
text which followed the `CORPUS`, where the notes of the tables are removed, and where nothing else changes; and if such a document exists, it is
produced (whatever the depth of the document). -/
theorem C83_replacement (c : Config) (doc doc' : Node) (hroot : doc.tag? ≠ some ⟨c.parser.ns, "CORPUS"⟩) :
    (∃ limit, transformTables c limit doc = .ok doc') ↔ Inside c 0 doc doc' := by
  have e : ∀ limit, transformTables c limit doc = inside c limit 0 doc := by
    intro limit
    unfold transformTables
    rw [if_neg (by rw [(isCorpus_false _ _).mpr hroot]; simp)]
  constructor
  · rintro ⟨limit, h⟩
    rw [e] at h
    exact inside_sound c _ _ _ _ h
  · intro h
    obtain ⟨limit, hl⟩ := inside_found c h
    exact ⟨limit, by rw [e]; exact hl limit (Nat.le_refl _)⟩

mutual
theorem Inside.kept {c : Config} : ∀ {blk : Nat} {n n' : Node}, Inside c blk n n' → n.tag? ≠ some ⟨c.parser.ns, "CORPUS"⟩ → Kept c n n'
  | _, _, _, .elem _ t _ _ _ _ _ h, hn => .elem _ _ _ _ _ _ (fun e => hn (by rw [e]; rfl)) h.kept
  | _, _, _, .pi .., _ => .pi _ _ _
  | _, _, _, .comment .., _ => .comment _ _
theorem Siblings.kept {c : Config} : ∀ {blk : Nat} {p : QName × Dict QName String} {notes ns ns' : List Node}, Siblings c blk p notes ns ns' →
    KeptList c ns ns'
  | _, _, _, _, _, .nil .. => .nil
  | _, _, _, _, _, .corpus _ _ _ n e n' ns ns' ht he hi hs =>
    .cons _ _ _ _ (fun h => by rw [TableNotes, ht] at h; simp at h)
      (.table _ _ ht (by rw [hi.same.1, (setTail_same e n.tail).1]; exact convert_tag he) (by rw [hi.same.2.2.2, tail_setTail])) hs.kept
  | _, _, _, _, _, .notes _ _ _ _ _ _ _ hT _ hs => .notes _ _ _ hT hs.kept
  | _, _, _, _, _, .other _ _ _ _ _ _ _ ht hT hi hs => .cons _ _ _ _ hT (hi.kept ht) hs.kept
end

/-- C83.  What is outside of the tables and of their notes is kept. -/
theorem C83_kept (c : Config) (limit : Nat) (doc doc' : Node) (h : transformTables c limit doc = .ok doc')
    (hroot : doc.tag? ≠ some ⟨c.parser.ns, "CORPUS"⟩) : Kept c doc doc' :=
  ((C83_replacement c doc doc' hroot).mp ⟨limit, h⟩).kept hroot

mutual
theorem Inside.none_left {c : Config} : ∀ {blk : Nat} {n n' : Node}, Inside c blk n n' → n.tag? ≠ some ⟨c.parser.ns, "CORPUS"⟩ →
    free ⟨c.parser.ns, "CORPUS"⟩ n'
  | _, _, _, .elem _ t _ _ _ _ _ h, hn => ⟨fun e => hn (by rw [e]; rfl), h.none_left⟩
  | _, _, _, .pi .., _ => trivial
  | _, _, _, .comment .., _ => trivial
theorem Siblings.none_left {c : Config} : ∀ {blk : Nat} {p : QName × Dict QName String} {notes ns ns' : List Node}, Siblings c blk p notes ns ns' →
    freeList ⟨c.parser.ns, "CORPUS"⟩ ns'
  | _, _, _, _, _, .nil .. => trivial
  | _, _, _, _, _, .corpus _ _ _ n e n' ns ns' ht he hi hs =>
    ⟨hi.none_left (by rw [(setTail_same e n.tail).1, convert_tag he]; simp), hs.none_left⟩
  | _, _, _, _, _, .notes _ _ _ _ _ _ _ hT _ hs => hs.none_left
  | _, _, _, _, _, .other _ _ _ _ _ _ _ ht hT hi hs => ⟨hi.none_left ht, hs.none_left⟩
end

/-- C83.  No Formex table is left, at any depth. -/
theorem C83_none_left (c : Config) (limit : Nat) (doc doc' : Node) (h : transformTables c limit doc = .ok doc') :
    free ⟨c.parser.ns, "CORPUS"⟩ doc' := by
  by_cases hroot : doc.tag? = some ⟨c.parser.ns, "CORPUS"⟩
  · unfold transformTables at h
    rw [if_pos ((isCorpus_iff _ _).mpr hroot)] at h
    obtain ⟨_, _, h⟩ := bind_ok_inv h
    cases h
  · exact ((C83_replacement c doc doc' hroot).mp ⟨limit, h⟩).none_left hroot

theorem freeList_mem {t : QName} {m : Node} : ∀ {ns : List Node}, freeList t ns → m ∈ ns → free t m
  | n :: ns, h, hm => by
    rcases List.mem_cons.mp hm with e | hm
    · rw [e]; exact h.1
    · exact freeList_mem h.2 hm

theorem free_tag {t : QName} {n : Node} (h : free t n) : n.tag? ≠ some t := by
  cases n with
  | elem t' a x cs tl => intro e; exact h.1 (Option.some.inj e)
  | pi => simp [Node.tag?]
  | comment => simp [Node.tag?]

mutual
theorem Kept.free {c : Config} : ∀ {n n' : Node}, Kept c n n' → free ⟨c.parser.ns, "CORPUS"⟩ n → n' = n
  | _, _, .table _ _ h _ _, hf => absurd h (free_tag hf)
  | _, _, .elem _ _ _ _ _ _ _ h, hf => by rw [h.free hf.2]
  | _, _, .pi .., _ => rfl
  | _, _, .comment .., _ => rfl
theorem KeptList.free {c : Config} : ∀ {ns ns' : List Node}, KeptList c ns ns' → freeList ⟨c.parser.ns, "CORPUS"⟩ ns → ns' = ns
  | _, _, .nil, _ => rfl
  | _, _, .notes _ _ _ hT _, hf => by
    obtain ⟨m, hm, ht⟩ := hT.2
    exact absurd ht (free_tag (freeList_mem hf.2 hm))
  | _, _, .cons _ _ _ _ _ h hs, hf => by rw [h.free hf.1, hs.free hf.2]
end

/-- C83.  A document without table is unchanged. -/
theorem C83_untouched (c : Config) (limit : Nat) (doc doc' : Node) (hfree : free ⟨c.parser.ns, "CORPUS"⟩ doc)
    (h : transformTables c limit doc = .ok doc') : doc' = doc :=
  (C83_kept c limit doc doc' h (free_tag hfree)).free hfree

/-- C83 does not hold of a document whose root is a `CORPUS`: the conversion always fails. -/
theorem C83_root_counterexample (c : Config) (limit : Nat) (doc : Node) (h : doc.tag? = some ⟨c.parser.ns, "CORPUS"⟩) :
    ∃ e, transformTables c limit doc = .error e := by
  unfold transformTables
  rw [if_pos ((isCorpus_iff _ _).mpr h)]
  cases convert c 0 none doc with
  | error e => exact ⟨e, rfl⟩
  | ok n => exact ⟨.attributeError, rfl⟩

/-! ### not vacuous -/

/-- a document with a table which has a title and notes, and contains another table -/
def fmxDocDemo : Node :=
  let el (t : String) (x : Option String) (cs : List Node) (tl : Option String) : Node := .elem ⟨none, t⟩ [] x cs tl
  let corpus (cells : List Node) : Node := el "CORPUS" none [el "ROW" none cells none] (some "end")
  el "ANNEX" none
    [el "P" (some "before") [] (some "-"),
     el "TBL" none
      [el "TITLE" (some "title") [] none,
       el "GR.NOTES" (some "note") [] (some "lost"),
       .comment "c" none,
       corpus [el "CELL" (some "a") [el "TBL" none [corpus [el "CELL" (some "b") [] none]] none] none, el "CELL" (some "c") [] none],
       el "P" (some "p") [] none] (some "after"),
     el "GR.NOTES" (some "free") [] (some "kept")] none

def fmxDocConfig : Config := ⟨⟨none, none, false⟩, calsConfig⟩

theorem fmxDocDemo_ok : outline (transformTables fmxDocConfig 30 fmxDocDemo) =
    [("ANNEX", none, none), ("P", some "before", some "-"), ("TBL", none, some "after"), ("TITLE", some "title", none),
     ("table", none, some "end"), ("tgroup", none, none), ("colspec", none, none), ("colspec", none, none),
     ("tfoot", none, none), ("row", none, none), ("entry", some "note", none),
     ("tbody", none, none), ("row", none, none), ("entry", some "a", none), ("TBL", none, none),
     ("table", none, some "end"), ("tgroup", none, none), ("colspec", none, none), ("tbody", none, none), ("row", none, none),
     ("entry", some "b", none), ("entry", some "c", none),
     ("P", some "p", none), ("GR.NOTES", some "free", some "kept")] := by
  decide +kernel

example : fmxDocDemo.tag? ≠ some ⟨fmxDocConfig.parser.ns, "CORPUS"⟩ ∧ ∃ doc', transformTables fmxDocConfig 30 fmxDocDemo = .ok doc' := by
  refine ⟨by decide, ?_⟩
  cases h : transformTables fmxDocConfig 30 fmxDocDemo with
  | ok d => exact ⟨d, rfl⟩
  | error e => have := fmxDocDemo_ok; rw [h] at this; cases this

/-- a document without table, but with notes -/
example : free ⟨fmxDocConfig.parser.ns, "CORPUS"⟩ (.elem ⟨none, "TBL"⟩ [] none [.elem ⟨none, "GR.NOTES"⟩ [] none [] none] none) :=
  ⟨by decide, ⟨by decide, trivial⟩, trivial⟩

end Fmx2Cals

namespace Convert

mutual
theorem Replaced.none_left {c : Conv} (hc : ∀ following n e, c.convert following n = .ok e → c.selects e = false) :
    ∀ {ctx : List Node} {n n' : Node}, Replaced c ctx n n' → tableFree c n' = true
  | _, _, _, .table _ n e _ _ he hi => hi.none_left hc (by
      have := hc _ _ _ he
      unfold Conv.selects at this ⊢
      rw [(setTail_same e n.tail).1]; exact this)
  | _, _, _, .other _ _ _ hs hi => hi.none_left hc hs
theorem ReplacedInside.none_left {c : Conv} (hc : ∀ following n e, c.convert following n = .ok e → c.selects e = false) :
    ∀ {ctx : List Node} {n n' : Node}, ReplacedInside c ctx n n' → c.selects n = false → tableFree c n' = true
  | _, _, _, .elem _ t _ _ _ _ _ h, hn => by
    unfold tableFree
    rw [show c.isTable t = false from hn, h.none_left hc]
    rfl
  | _, _, _, .pi .., _ => rfl
  | _, _, _, .comment .., _ => rfl
theorem ReplacedList.none_left {c : Conv} (hc : ∀ following n e, c.convert following n = .ok e → c.selects e = false) :
    ∀ {ctx : List Node} {ns ns' : List Node}, ReplacedList c ctx ns ns' → tableFreeList c ns' = true
  | _, _, _, .nil _ => rfl
  | _, _, _, .cons _ _ _ _ _ h hs => by
    unfold tableFreeList
    rw [h.none_left hc, hs.none_left hc]
    rfl
end

theorem transformTables_none_left (c : Conv) (hc : ∀ following n e, c.convert following n = .ok e → c.selects e = false) (limit : Nat)
    (doc doc' : Node) (h : transformTables c limit doc = .ok doc') : tableFree c doc' = true := by
  cases hs : c.selects doc with
  | true =>
    obtain ⟨e, he⟩ := C58_root_counterexample c limit doc hs
    rw [he] at h; cases h
  | false => exact ((C58_replacement c doc doc' hs).mp ⟨limit, h⟩).none_left hc

mutual
theorem free_of_tableFree {c : Conv} {t : QName} (ht : c.isTable t = true) : ∀ n : Node, tableFree c n = true → Fmx2Cals.free t n
  | .elem t' _ _ cs _, h => by
    simp only [tableFree, Bool.and_eq_true, Bool.not_eq_true'] at h
    exact ⟨fun e => by rw [e, ht] at h; exact absurd h.1 (by simp), freeList_of_tableFree ht cs h.2⟩
  | .pi .., _ => trivial
  | .comment .., _ => trivial
theorem freeList_of_tableFree {c : Conv} {t : QName} (ht : c.isTable t = true) : ∀ ns : List Node, tableFreeList c ns = true →
    Fmx2Cals.freeList t ns
  | [], _ => trivial
  | n :: ns, h => by
    simp only [tableFreeList, Bool.and_eq_true] at h
    exact ⟨free_of_tableFree ht n h.1, freeList_of_tableFree ht ns h.2⟩
end

/-- C58.  No source table is left in the document produced, at any depth: no CALS `table` in a document converted to Formex, no `w:tbl` in a Word
document converted to CALS or Formex. -/
theorem C58_none_left (pc : CalsP.Config) (pw : Ooxml.Config) (bc : Cals.Config) (bf : Fmx.Config) (limit : Nat) (doc doc' : Node) :
    (transformTables (cals2formex pc bf) limit doc = .ok doc' → Fmx2Cals.free ⟨pc.ns, "table"⟩ doc') ∧
    (transformTables (ooxml2cals pw bc) limit doc = .ok doc' → Fmx2Cals.free (Ooxml.w "tbl") doc') ∧
    (transformTables (ooxml2formex pw bf) limit doc = .ok doc' → Fmx2Cals.free (Ooxml.w "tbl") doc') := by
  refine ⟨fun h => free_of_tableFree (c := cals2formex pc bf) (by simp [cals2formex, CalsP.Config.q]) _ (transformTables_none_left _ ?_ limit doc doc' h),
    fun h => free_of_tableFree (c := ooxml2cals pw bc) (by simp [ooxml2cals]) _ (transformTables_none_left _ ?_ limit doc doc' h),
    fun h => free_of_tableFree (c := ooxml2formex pw bf) (by simp [ooxml2formex]) _ (transformTables_none_left _ ?_ limit doc doc' h)⟩
  · intro _ n e he
    obtain ⟨t, _, h⟩ := thenGenerate_ok he
    unfold Conv.selects
    rw [Fmx.generate_tag _ _ _ _ h]
    simp [cals2formex, CalsP.Config.q]
  · intro _ n e he
    obtain ⟨t, _, h⟩ := thenGenerate_ok he
    unfold Conv.selects
    rw [Cals.generate_tag _ _ _ h]
    simp [ooxml2cals, Ooxml.w]
  · intro _ n e he
    obtain ⟨t, _, h⟩ := thenGenerate_ok he
    unfold Conv.selects
    rw [Fmx.generate_tag _ _ _ _ h]
    simp [ooxml2formex, Ooxml.w]

end Convert
end Benker
