import Verif.Spec.Again
import Verif.Props.Twice

/-! C101: documents which are converted again. -/

namespace Benker
open PyM FmxSpec Fmx CalsSpec

/-! ### the steps of the finalisation on a document which is settled -/

theorem set_same {a : Dict QName String} {k : QName} {v : String} (h : Dict.get? a k = some v) : Dict.set a k v = a := by
  induction a with
  | nil => cases h
  | cons p a ih =>
    unfold Dict.set
    rw [Dict.get?_cons] at h
    split
    · next e => rw [if_pos e] at h; obtain ⟨p1, p2⟩ := p; cases h; cases e; rfl
    · next e => rw [if_neg e] at h; rw [ih h]

theorem erase_same {a : Dict QName String} {k : QName} (h : Dict.get? a k = none) : Dict.erase a k = a := by
  unfold Dict.erase
  rw [List.filter_eq_self]
  intro p hp
  rw [Dict.get?_eq_none] at h
  simp only [ne_eq, decide_not, Bool.not_eq_true', decide_eq_false_iff_not]
  exact fun e => h (by rw [← e]; exact List.mem_map_of_mem hp)

mutual
theorem num_same (pre : List Nat) (k : Nat) (n : Node)
    (h1 : ∀ (i : Nat) T, (topTables n)[i]? = some T → T.attr (name "NO.SEQ") = some (seqText (pre ++ [k + i + 1])))
    (h2 : ∀ T ∈ allTables n, ∃ s, T.attr (name "NO.SEQ") = some s ∧
      ∀ (i : Nat) U, (topTablesList T.children)[i]? = some U → U.attr (name "NO.SEQ") = some (s ++ "." ++ fourDigits (i + 1))) :
    num pre k n = (n, k + (topTables n).length) := by
  cases n with
  | elem t a x cs tl =>
    unfold num
    by_cases ht : t = name "TBL"
    · simp only [topTables, allTables, if_pos ht] at h1 h2 ⊢
      have e := h1 0 _ rfl
      have e' : Dict.get? a (name "NO.SEQ") = some (seqText (pre ++ [k + 0 + 1])) := e
      have e2 : noSeqText (pre ++ [k + 1]) = seqText (pre ++ [k + 1]) := seqText_eq _
      rw [e2, set_same e']
      obtain ⟨s, hs, hin⟩ := h2 _ (List.mem_cons_self)
      rw [e] at hs
      cases hs
      have := numList_same (pre ++ [k + 1]) 0 cs (fun i U hU => by
        rw [hin i U hU, seqText_snoc (pre ++ [k + 1]), if_neg (by simp), Nat.zero_add]) (fun T hT => h2 T (List.mem_cons_of_mem _ hT))
      rw [this]
      rfl
    · simp only [topTables, allTables, if_neg ht] at h1 h2 ⊢
      rw [numList_same pre k cs h1 h2]
  | pi => rfl
  | comment => rfl
theorem numList_same (pre : List Nat) (k : Nat) (ns : List Node)
    (h1 : ∀ (i : Nat) T, (topTablesList ns)[i]? = some T → T.attr (name "NO.SEQ") = some (seqText (pre ++ [k + i + 1])))
    (h2 : ∀ T ∈ allTablesList ns, ∃ s, T.attr (name "NO.SEQ") = some s ∧
      ∀ (i : Nat) U, (topTablesList T.children)[i]? = some U → U.attr (name "NO.SEQ") = some (s ++ "." ++ fourDigits (i + 1))) :
    numList pre k ns = (ns, k + (topTablesList ns).length) := by
  cases ns with
  | nil => rfl
  | cons n ns =>
    simp only [topTablesList, allTablesList] at h1 h2 ⊢
    unfold numList
    rw [num_same pre k n (fun i T hT => h1 i T (by
        rw [List.getElem?_append_left]; exact hT
        exact (List.getElem?_eq_some_iff.mp hT).1)) (fun T hT => h2 T (List.mem_append_left _ hT))]
    simp only
    rw [numList_same pre (k + (topTables n).length) ns (fun i T hT => by
        rw [h1 ((topTables n).length + i) T (by rw [List.getElem?_append_right (by omega)]; simpa using hT)]
        congr 4; omega) (fun T hT => h2 T (List.mem_append_right _ hT))]
    simp [Nat.add_assoc]
end

mutual
theorem noChild_of (b : Bool) (n : Node) (hb : b = true → n.tag? ≠ some (name "TBL")) (h : ∀ T ∈ allTables n, ∀ c ∈ T.children, c.tag? ≠ some (name "TBL")) :
    noChildTable b n = true := by
  cases n with
  | elem t a x cs tl =>
    unfold noChildTable
    rw [Bool.and_eq_true]
    refine ⟨?_, noChildList_of _ cs ?_ ?_⟩
    · cases b with
      | false => rfl
      | true =>
        have : t ≠ name "TBL" := fun e => hb rfl (by rw [e]; rfl)
        simp [this]
    · intro ht c hc
      have ht : t = name "TBL" := of_decide_eq_true ht
      exact h (.elem t a x cs tl) (by rw [allTables, if_pos ht]; exact List.mem_cons_self) c hc
    · intro T hT
      refine h T ?_
      rw [allTables]
      split
      · exact List.mem_cons_of_mem _ hT
      · exact hT
  | pi => rfl
  | comment => rfl
theorem noChildList_of (b : Bool) (ns : List Node) (hb : b = true → ∀ c ∈ ns, c.tag? ≠ some (name "TBL"))
    (h : ∀ T ∈ allTablesList ns, ∀ c ∈ T.children, c.tag? ≠ some (name "TBL")) : noChildTableList b ns = true := by
  cases ns with
  | nil => rfl
  | cons n ns =>
    unfold noChildTableList
    rw [Bool.and_eq_true]
    exact ⟨noChild_of b n (fun e => hb e n List.mem_cons_self) (fun T hT => h T (List.mem_append_left _ hT)),
      noChildList_of b ns (fun e c hc => hb e c (List.mem_cons_of_mem _ hc)) (fun T hT => h T (List.mem_append_right _ hT))⟩
end

mutual
theorem extract_same (n : Node) (h : ∀ e ∈ preorder n, e.tag? = some (name "ROW") → e.attr (name "TYPE") = none) : extractNode n = .ok ([n], []) := by
  cases n with
  | elem t a x cs tl =>
    unfold extractNode
    rw [extractList_same cs (fun e he => h e (List.mem_cons_of_mem _ he))]
    simp only [ok_bind]
    by_cases h1 : t = f "TBL"
    · rw [if_pos h1]; rfl
    · rw [if_neg h1]
      by_cases h2 : t = f "ROW"
      · have e : Dict.get? a (f "TYPE") = none := h (.elem t a x cs tl) List.mem_cons_self (by rw [h2]; rfl)
        rw [if_pos h2, if_neg (by rw [e]; simp), erase_same e]; rfl
      · rw [if_neg h2]; rfl
  | pi => rfl
  | comment => rfl
theorem extractList_same (ns : List Node) (h : ∀ e ∈ preorderList ns, e.tag? = some (name "ROW") → e.attr (name "TYPE") = none) :
    extractList ns = .ok (ns, []) := by
  cases ns with
  | nil => rfl
  | cons n ns =>
    unfold extractList
    rw [extract_same n (fun e he => h e (List.mem_append_left _ he)), extractList_same ns (fun e he => h e (List.mem_append_right _ he))]
    rfl
end

theorem groupRows_same (cfg : Fmx.Config) (ns : List Node) (l : List Node) (h : ∀ c ∈ ns, c.attr ⟨cfg.calsNs, "rowstyle"⟩ = none) :
    groupRows cfg [l] (ns.zip ns) = .ok [l ++ ns] := by
  induction ns generalizing l with
  | nil => rw [List.append_nil]; rfl
  | cons n ns ih =>
    rw [List.zip_cons_cons]
    unfold groupRows
    have hi : infoOf cfg n = ⟨"ROW", none, 0⟩ := by
      unfold infoOf
      rw [show n.attr (cfg.q "rowstyle") = none from h n List.mem_cons_self]
      rfl
    have e : ∀ m, groupRows cfg (Open.add m [l]) (ns.zip ns) = .ok [l ++ [m] ++ ns] := fun m => ih (l ++ [m]) (fun c hc => h c (List.mem_cons_of_mem _ hc))
    split
    · rw [e]; simp
    · have hp : placedNode cfg n n = .ok n := by
        unfold placedNode
        rw [hi, if_pos rfl]
        cases n <;> rfl
      rw [hp, hi]
      simp only [ok_bind]
      have : Open.toLevel 0 [l] = [l] := rfl
      rw [this, e]; simp

mutual
theorem insert_same (cfg : Fmx.Config) (n : Node)
    (h : ∀ e ∈ preorder n, e.tag? = some (name "CORPUS") → ∀ c ∈ e.children, c.attr ⟨cfg.calsNs, "rowstyle"⟩ = none) : insertBlk cfg n = .ok n := by
  cases n with
  | elem t a x cs tl =>
    unfold insertBlk
    rw [insertList_same cfg cs (fun e he => h e (List.mem_cons_of_mem _ he))]
    simp only [ok_bind]
    by_cases h1 : t = f "CORPUS"
    · rw [if_pos h1]
      unfold groupChildren
      rw [groupRows_same cfg cs [] (h (.elem t a x cs tl) List.mem_cons_self (by rw [h1]; rfl))]
      rfl
    · rw [if_neg h1]; rfl
  | pi => rfl
  | comment => rfl
theorem insertList_same (cfg : Fmx.Config) (ns : List Node)
    (h : ∀ e ∈ preorderList ns, e.tag? = some (name "CORPUS") → ∀ c ∈ e.children, c.attr ⟨cfg.calsNs, "rowstyle"⟩ = none) : insertBlkList cfg ns = .ok ns := by
  cases ns with
  | nil => rfl
  | cons n ns =>
    unfold insertBlkList
    rw [insert_same cfg n (fun e he => h e (List.mem_append_left _ he)), insertList_same cfg ns (fun e he => h e (List.mem_append_right _ he))]
    rfl
end

theorem dropAttrs_same {cfg : Fmx.Config} {a : Dict QName String} (h : ∀ s ∈ ["namest", "nameend", "morerows", "rowstyle"], Dict.get? a ⟨cfg.calsNs, s⟩ = none) :
    dropAttrs cfg a = a := by
  unfold dropAttrs
  rw [erase_same (k := cfg.q "namest") (h _ (by simp)), erase_same (k := cfg.q "nameend") (h _ (by simp)), erase_same (k := cfg.q "morerows") (h _ (by simp)),
    erase_same (k := cfg.q "rowstyle") (h _ (by simp))]

mutual
theorem drop_same (cfg : Fmx.Config) (b : Bool) (n : Node)
    (h : ∀ e ∈ inTables b n, ∀ t, e.tag? = some t → Superfluous t → ∀ s ∈ ["namest", "nameend", "morerows", "rowstyle"], e.attr ⟨cfg.calsNs, s⟩ = none) :
    dropNode cfg b n = n := by
  cases n with
  | elem t a x cs tl =>
    unfold dropNode
    simp only
    have e1 : dropList cfg (b || decide (t = f "TBL")) cs = cs := dropList_same cfg _ cs (fun e he => h e (by
      unfold inTables
      exact List.mem_append_right _ he))
    rw [e1]
    split
    · next hb =>
      rw [Bool.and_eq_true] at hb
      rw [dropAttrs_same (a := a) (h (.elem t a x cs tl) (by unfold inTables; rw [hb.1]; simp) t rfl (by have := of_decide_eq_true hb.2; exact this))]
    · rfl
  | pi => rfl
  | comment => rfl
theorem dropList_same (cfg : Fmx.Config) (b : Bool) (ns : List Node)
    (h : ∀ e ∈ inTablesList b ns, ∀ t, e.tag? = some t → Superfluous t → ∀ s ∈ ["namest", "nameend", "morerows", "rowstyle"], e.attr ⟨cfg.calsNs, s⟩ = none) :
    dropList cfg b ns = ns := by
  cases ns with
  | nil => rfl
  | cons n ns =>
    unfold dropList
    rw [drop_same cfg b n (fun e he => h e (List.mem_append_left _ he)), dropList_same cfg b ns (fun e he => h e (List.mem_append_right _ he))]
end

/-- **C101**: a finalisation changes nothing in a document which is settled, and where the rows, the cells, the titles and the notes of the tables have no
superfluous attribute. -/
theorem C101_settled (cfg : Fmx.Config) (n : Node) (h : Settled cfg.calsNs n)
    (hs : ∀ e ∈ inTables false n, ∀ t, e.tag? = some t → Superfluous t → ∀ s ∈ ["namest", "nameend", "morerows", "rowstyle"], e.attr ⟨cfg.calsNs, s⟩ = none) :
    finalize cfg n = .ok n := by
  unfold finalize
  have e1 : updateNoSeq n = n := by
    rw [updateNoSeq_num, num_same [] 0 n (fun i T hT => by rw [h.numbered.top i T hT]; simp [seqText]) h.numbered.inner]
  have e2 : cleanupNode n = n := cleanupNode_id false n (noChild_of false n (fun e => by cases e) h.apart)
  have e3 : extractGrNotes n = .ok n := by
    have hn : NotesApart n := by
      intro e he hr
      simp only [preorderList, List.append_nil] at he
      have h2 := hr.2
      rw [h.untyped e he hr.1] at h2
      cases h2
    rw [extractGrNotes_apart hn, extract_same n h.untyped]
    rfl
  simp only [e1, e2, e3, ok_bind, insert_same cfg n h.unstyled, drop_same cfg false n hs]
  rfl

/-- **C101**: finalising again a finalised document changes nothing, if it is settled (see `C101_typed_counterexample` and `C101_nested_counterexample`
for documents which are not). -/
theorem C101_finalised_again_partial (cfg cfg' : Fmx.Config) (hcfg : cfg'.calsNs = cfg.calsNs) (root out : Node) (h : finalize cfg root = .ok out)
    (hs : Settled cfg.calsNs out) : finalize cfg' out = .ok out :=
  C101_settled cfg' out (by rw [hcfg]; exact hs) (fun e he t ht hsup s hk => by rw [hcfg]; exact C79_none_left cfg root out h e he t ht hsup s hk)

/-! ### the names in a finalised document -/

/-- the elements which the finalisation creates -/
def createdNames : List QName := ["GR.NOTES", "BLK", "TI.BLK", "STI.BLK"].map name

mutual
theorem num_names (names : List QName) (pre : List Nat) (k : Nat) (n : Node) (h : Free names [n]) : Free names [(num pre k n).1] := by
  cases n with
  | elem t a x cs tl =>
    obtain ⟨h1, h2⟩ := free_elem.mp h
    unfold num
    split
    · exact free_elem.mpr ⟨h1, numList_names names _ _ cs h2⟩
    · exact free_elem.mpr ⟨h1, numList_names names _ _ cs h2⟩
  | pi => exact h
  | comment => exact h
theorem numList_names (names : List QName) (pre : List Nat) (k : Nat) (ns : List Node) (h : Free names ns) : Free names (numList pre k ns).1 := by
  cases ns with
  | nil => exact h
  | cons n ns =>
    obtain ⟨h1, h2⟩ := free_cons.mp h
    unfold numList
    exact free_cons.mpr ⟨num_names names _ _ n h1, numList_names names _ _ ns h2⟩
end

mutual
theorem cleanup_names (names : List QName) (n : Node) (h : Free names [n]) : Free names [cleanupNode n] := by
  cases n with
  | elem t a x cs tl =>
    obtain ⟨h1, h2⟩ := free_elem.mp h
    unfold cleanupNode
    refine free_elem.mpr ⟨h1, ?_⟩
    split
    · exact cleanupIn_names names cs h2
    · exact cleanupList_names names cs h2
  | pi => exact h
  | comment => exact h
theorem cleanupList_names (names : List QName) (ns : List Node) (h : Free names ns) : Free names (cleanupList ns) := by
  cases ns with
  | nil => exact h
  | cons n ns =>
    obtain ⟨h1, h2⟩ := free_cons.mp h
    unfold cleanupList
    exact free_cons.mpr ⟨cleanup_names names n h1, cleanupList_names names ns h2⟩
theorem cleanupIn_names (names : List QName) (ns : List Node) (h : Free names ns) : Free names (cleanupInTable ns) := by
  cases ns with
  | nil => exact h
  | cons n ns =>
    obtain ⟨h1, h2⟩ := free_cons.mp h
    have h3 := cleanupIn_names names ns h2
    cases n with
    | elem t a x cs tl =>
      obtain ⟨g1, g2⟩ := free_elem.mp h1
      unfold cleanupInTable
      split
      · exact free_append.mpr ⟨cleanupIn_names names cs g2, h3⟩
      · exact free_cons.mpr ⟨free_elem.mpr ⟨g1, cleanupList_names names cs g2⟩, h3⟩
    | pi => exact free_cons.mpr ⟨h1, h3⟩
    | comment => exact free_cons.mpr ⟨h1, h3⟩
end

theorem addAttrs_names {names : List QName} (a : Dict QName String) {n : Node} (h : Free names [n]) : Free names [addAttrs a n] := by
  cases n with
  | elem t b x cs tl => exact free_elem.mpr (free_elem.mp h)
  | pi => exact h
  | comment => exact h

theorem modifyFirst_names {names : List QName} {p : Node → Bool} {g : Node → Node} (hg : ∀ n, Free names [n] → Free names [g n]) :
    ∀ {ns : List Node}, Free names ns → Free names (modifyFirst p g ns)
  | [], h => h
  | n :: ns, h => by
    obtain ⟨h1, h2⟩ := free_cons.mp h
    unfold modifyFirst
    split
    · exact free_cons.mpr ⟨hg n h1, h2⟩
    · exact free_cons.mpr ⟨h1, modifyFirst_names hg h2⟩

theorem children_names {names : List QName} {n : Node} (h : Free names [n]) : Free names n.children := by
  cases n with
  | elem t a x cs tl => exact (free_elem.mp h).2
  | pi => exact fun _ _ h => (by cases h)
  | comment => exact fun _ _ h => (by cases h)

theorem makeNote_names {names : List QName} (hn : name "GR.NOTES" ∉ names) {a : Dict QName String} {cs : List Node} {k : Note} (h : Free names cs)
    (hk : makeNote a cs = .ok k) : Free names k.nodes := by
  unfold makeNote at hk
  split at hk
  · cases hk
  · next cell hc =>
    have h1 := children_names (free_mem.mp h cell (List.mem_of_find?_eq_some hc))
    split at hk
    · cases hk; exact modifyFirst_names (fun n h => addAttrs_names a h) h1
    · cases hk
      exact addAttrs_names a (free_elem.mpr ⟨hn, h1⟩)

theorem addTail_names {names : List QName} (s : String) {n : Node} (h : Free names [n]) : Free names [addTail s n] := setTail_free _ h

theorem putNote_names {names : List QName} {text : Option String} {before : List Node} {k : Note} (h : Free names before) (hk : Free names k.nodes) :
    Free names (putNote text before k).2 := by
  unfold putNote
  split
  · exact free_append.mpr ⟨h, hk⟩
  · split
    · exact hk
    · next p ps e =>
      have e' : before = ps.reverse ++ [p] := by rw [← List.reverse_reverse before, e]; simp
      rw [e'] at h
      obtain ⟨h1, h2⟩ := free_append.mp h
      exact free_append.mpr ⟨free_append.mpr ⟨h1, addTail_names _ h2⟩, hk⟩

theorem putNotes_names {names : List QName} : ∀ {ks : List Note} {text : Option String} {before : List Node}, Free names before →
    (∀ k ∈ ks, Free names k.nodes) → Free names (putNotes text before ks).2
  | [], _, _, h, _ => h
  | k :: ks, _, _, h, hk => by
    unfold putNotes
    exact putNotes_names (putNote_names h (hk k List.mem_cons_self)) (fun k' hk' => hk k' (List.mem_cons_of_mem _ hk'))

theorem closeElem_names {names : List QName} {t : QName} {a : Dict QName String} {x : Option String} {cs : List Node} {tl : Option String} {notes : List Note}
    {r : List Node × List Note} (h1 : t ∉ names) (g1 : Free names cs) (g2 : ∀ k ∈ notes, Free names k.nodes) (he : closeElem t a x cs tl notes = .ok r) :
    Free names r.1 ∧ ∀ k ∈ r.2, Free names k.nodes := by
  have hno : ∀ k ∈ ([] : List Note), Free names k.nodes := fun k hk => by cases hk
  unfold closeElem at he
  split at he
  · split at he
    · cases he; exact ⟨free_elem.mpr ⟨h1, g1⟩, hno⟩
    · split at he
      · cases he
        refine ⟨free_elem.mpr ⟨h1, free_append.mpr ⟨putNotes_names ?_ g2, ?_⟩⟩, hno⟩
        · exact free_mem.mpr (fun n hn => free_mem.mp g1 n (List.takeWhile_sublist _ |>.subset hn))
        · exact free_mem.mpr (fun n hn => free_mem.mp g1 n (List.dropWhile_sublist _ |>.subset hn))
      · cases he
  · split at he
    · cases he; exact ⟨free_elem.mpr ⟨h1, g1⟩, g2⟩
    · cases he; exact ⟨free_elem.mpr ⟨h1, g1⟩, g2⟩

mutual
theorem move_names (names : List QName) (hn : name "GR.NOTES" ∉ names) (s : Bool) (n : Node) (h : Free names [n]) (r : List Node × List Note × Bool)
    (he : moveNode s n = .ok r) : Free names r.1 ∧ ∀ k ∈ r.2.1, Free names k.nodes := by
  cases n with
  | elem t a x cs tl =>
    obtain ⟨h1, h2⟩ := free_elem.mp h
    unfold moveNode at he
    split at he
    · cases he; exact ⟨h, fun k hk => by cases hk⟩
    · split at he
      · split at he
        · obtain ⟨⟨cs', notes, s'⟩, g, he⟩ := bind_ok he
          obtain ⟨g1, g2⟩ := moveFirst_names names hn cs h2 _ g
          obtain ⟨k, hk, he⟩ := bind_ok he
          cases he
          refine ⟨fun _ _ h => (by cases h), ?_⟩
          intro k' hk'
          rcases List.mem_cons.mp hk' with rfl | hk'
          · exact makeNote_names hn g1 hk
          · exact g2 k' hk'
        · obtain ⟨k, hk, he⟩ := bind_ok he
          obtain ⟨lost, -, he⟩ := bind_ok he
          split at he
          · cases he
            refine ⟨fun _ _ h => (by cases h), ?_⟩
            intro k' hk'
            rcases List.mem_cons.mp hk' with rfl | hk'
            · exact makeNote_names hn h2 hk
            · cases hk'
          · cases he
      · obtain ⟨⟨cs', notes, s'⟩, g, he⟩ := bind_ok he
        obtain ⟨g1, g2⟩ := moveList_names names hn false cs h2 _ g
        obtain ⟨r', hr, he⟩ := bind_ok he
        cases he
        exact closeElem_names h1 g1 g2 hr
  | pi => cases he; exact ⟨h, fun k hk => by cases hk⟩
  | comment => cases he; exact ⟨h, fun k hk => by cases hk⟩
theorem moveList_names (names : List QName) (hn : name "GR.NOTES" ∉ names) (s : Bool) (ns : List Node) (h : Free names ns) (r : List Node × List Note × Bool)
    (he : moveList s ns = .ok r) : Free names r.1 ∧ ∀ k ∈ r.2.1, Free names k.nodes := by
  cases ns with
  | nil => cases he; exact ⟨h, fun k hk => by cases hk⟩
  | cons n ns =>
    obtain ⟨h1, h2⟩ := free_cons.mp h
    unfold moveList at he
    obtain ⟨⟨l1, k1, s1⟩, e1, he⟩ := bind_ok he
    obtain ⟨⟨l2, k2, s2⟩, e2, he⟩ := bind_ok he
    cases he
    obtain ⟨a1, a2⟩ := move_names names hn s n h1 _ e1
    obtain ⟨b1, b2⟩ := moveList_names names hn _ ns h2 _ e2
    exact ⟨free_append.mpr ⟨a1, b1⟩, fun k hk => (List.mem_append.mp hk).elim (a2 k) (b2 k)⟩
theorem moveFirst_names (names : List QName) (hn : name "GR.NOTES" ∉ names) (ns : List Node) (h : Free names ns) (r : List Node × List Note × Bool)
    (he : moveFirst ns = .ok r) : Free names r.1 ∧ ∀ k ∈ r.2.1, Free names k.nodes := by
  cases ns with
  | nil => cases he; exact ⟨h, fun k hk => by cases hk⟩
  | cons n ns =>
    obtain ⟨h1, h2⟩ := free_cons.mp h
    unfold moveFirst at he
    split at he
    · obtain ⟨⟨l1, k1, s1⟩, e1, he⟩ := bind_ok he
      cases he
      obtain ⟨a1, a2⟩ := move_names names hn false n h1 _ e1
      exact ⟨free_append.mpr ⟨a1, h2⟩, a2⟩
    · obtain ⟨⟨l1, k1, s1⟩, e1, he⟩ := bind_ok he
      cases he
      obtain ⟨a1, a2⟩ := moveFirst_names names hn ns h2 _ e1
      exact ⟨free_cons.mpr ⟨h1, a1⟩, a2⟩
end

/-- all the blocks are free of these names -/
def OpenFree (names : List QName) (o : Open) : Prop := ∀ cs ∈ o, Free names cs

theorem open_add {names : List QName} {n : Node} {o : Open} (h : OpenFree names o) (hn : Free names [n]) : OpenFree names (o.add n) := by
  cases o with
  | nil => exact h
  | cons cs rest =>
    intro c hc
    rcases List.mem_cons.mp hc with rfl | hc
    · exact free_append.mpr ⟨h cs List.mem_cons_self, hn⟩
    · exact h c (List.mem_cons_of_mem _ hc)

theorem open_push {names : List QName} : ∀ {k : Nat} {o : Open}, OpenFree names o → OpenFree names (o.push k)
  | 0, _, h => h
  | k + 1, o, h => open_push (k := k) (fun c hc => by
    rcases List.mem_cons.mp hc with rfl | hc
    · exact fun _ _ h => (by cases h)
    · exact h c hc)

theorem open_close {names : List QName} (hb : name "BLK" ∉ names) {o : Open} (h : OpenFree names o) : OpenFree names o.close := by
  cases o with
  | nil => exact h
  | cons cs o =>
    cases o with
    | nil => exact h
    | cons p rest =>
      intro c hc
      rcases List.mem_cons.mp hc with rfl | hc
      · exact free_append.mpr ⟨h p (by simp), free_elem.mpr ⟨hb, h cs (by simp)⟩⟩
      · exact h c (by simp [hc])

theorem open_pop {names : List QName} (hb : name "BLK" ∉ names) : ∀ {k : Nat} {o : Open}, OpenFree names o → OpenFree names (o.pop k)
  | 0, _, h => h
  | k + 1, _, h => open_pop hb (k := k) (open_close hb h)

theorem open_level {names : List QName} (hb : name "BLK" ∉ names) {k : Nat} {o : Open} (h : OpenFree names o) : OpenFree names (o.toLevel k) := by
  unfold Open.toLevel
  split
  · exact open_push h
  · exact open_pop hb h

theorem cellsOf_names {names : List QName} {n cell : Node} (h : Free names [n]) (hc : cell ∈ cellsOf n) : Free names [cell] :=
  free_mem.mp (children_names h) cell (List.mem_of_mem_filter hc)

theorem placed_names {names : List QName} (hn : ∀ q ∈ createdNames, q ∉ names) {cfg : Fmx.Config} {raw row m : Node} (h : Free names [row])
    (hm : placedNode cfg raw row = .ok m) : Free names [m] := by
  unfold placedNode at hm
  split at hm
  · cases hm
    unfold typedRow
    split
    · obtain ⟨h1, h2⟩ := free_elem.mp h
      refine free_elem.mpr ⟨h1, free_mem.mpr ?_⟩
      intro n hn
      obtain ⟨c, hc, rfl⟩ := List.mem_map.mp hn
      have hcf := free_mem.mp h2 c hc
      split
      · cases c with
        | elem t a x cs tl => exact free_elem.mpr (free_elem.mp hcf)
        | pi => exact hcf
        | comment => exact hcf
      · exact hcf
    · exact h
  · next htag =>
    have hg := guess_tag (raw.attr (cfg.q "rowstyle"))
    have hin : name (infoOf cfg raw).tag ∈ createdNames := by
      simp only [List.mem_cons, List.not_mem_nil, or_false] at hg
      rcases hg with e | e | e
      · exact absurd e htag
      · unfold infoOf; rw [e]; simp [createdNames]
      · unfold infoOf; rw [e]; simp [createdNames]
    unfold titleElem at hm
    obtain ⟨src, hsrc, hm⟩ := bind_ok hm
    cases hm
    refine free_elem.mpr ⟨hn _ hin, ?_⟩
    unfold titleSource at hsrc
    split at hsrc
    · obtain ⟨_, _, hsrc⟩ := bind_ok hsrc
      obtain ⟨_, _, hsrc⟩ := bind_ok hsrc
      obtain ⟨cell, hc, hsrc⟩ := bind_ok hsrc
      cases hsrc
      exact children_names (cellsOf_names h (List.mem_of_getElem? (pyGetNat_some hc)))
    · obtain ⟨cell, hc, hsrc⟩ := bind_ok hsrc
      cases hsrc
      exact children_names (cellsOf_names h (List.mem_of_getElem? (pyGetNat_some hc)))

theorem group_names {names : List QName} (hn : ∀ q ∈ createdNames, q ∉ names) {cfg : Fmx.Config} : ∀ {rows : List (Node × Node)} {o o' : Open},
    (∀ r ∈ rows, Free names [r.2]) → OpenFree names o → groupRows cfg o rows = .ok o' → OpenFree names o'
  | [], _, _, _, h, he => by cases he; exact h
  | (raw, row) :: rows, _, _, hr, h, he => by
    have hb : name "BLK" ∉ names := hn _ (by simp [createdNames])
    unfold groupRows at he
    split at he
    · exact group_names hn (fun r hr' => hr r (List.mem_cons_of_mem _ hr')) (open_add h (hr (raw, row) List.mem_cons_self)) he
    · obtain ⟨m, hm, he⟩ := bind_ok he
      exact group_names hn (fun r hr' => hr r (List.mem_cons_of_mem _ hr')) (open_add (open_level hb h) (placed_names hn (hr (raw, row) List.mem_cons_self) hm)) he

mutual
theorem insert_names {names : List QName} (hn : ∀ q ∈ createdNames, q ∉ names) (cfg : Fmx.Config) (n m : Node) (h : Free names [n]) (he : insertBlk cfg n = .ok m) :
    Free names [m] := by
  cases n with
  | elem t a x cs tl =>
    obtain ⟨h1, h2⟩ := free_elem.mp h
    unfold insertBlk at he
    obtain ⟨cs', hcs, he⟩ := bind_ok he
    have h3 := insertList_names hn cfg cs cs' h2 hcs
    split at he
    · obtain ⟨g, hg, he⟩ := bind_ok he
      cases he
      refine free_elem.mpr ⟨h1, ?_⟩
      unfold groupChildren at hg
      obtain ⟨o, ho, hg⟩ := bind_ok hg
      have h4 : OpenFree names o := group_names hn (fun r hr => free_mem.mp h3 _ (List.of_mem_zip (b := r.2) (a := r.1) hr).2)
        (fun c hc => by rw [List.mem_singleton.mp hc]; exact fun _ _ h => (by cases h)) ho
      have h5 := open_pop (hn (name "BLK") (by simp [createdNames])) (k := o.length - 1) h4
      split at hg
      · next e => cases hg; exact h5 _ (by rw [e]; exact List.mem_cons_self)
      · cases hg; exact fun _ _ h => (by cases h)
    · cases he; exact free_elem.mpr ⟨h1, h3⟩
  | pi => cases he; exact h
  | comment => cases he; exact h
theorem insertList_names {names : List QName} (hn : ∀ q ∈ createdNames, q ∉ names) (cfg : Fmx.Config) (ns ms : List Node) (h : Free names ns)
    (he : insertBlkList cfg ns = .ok ms) : Free names ms := by
  cases ns with
  | nil => cases he; exact h
  | cons n ns =>
    obtain ⟨h1, h2⟩ := free_cons.mp h
    unfold insertBlkList at he
    obtain ⟨m, hm, he⟩ := bind_ok he
    obtain ⟨ms, hms, he⟩ := bind_ok he
    cases he
    exact free_cons.mpr ⟨insert_names hn cfg n m h1 hm, insertList_names hn cfg ns ms h2 hms⟩
end

mutual
theorem drop_names (names : List QName) (cfg : Fmx.Config) (b : Bool) (n : Node) (h : Free names [n]) : Free names [dropNode cfg b n] := by
  cases n with
  | elem t a x cs tl =>
    obtain ⟨h1, h2⟩ := free_elem.mp h
    unfold dropNode
    exact free_elem.mpr ⟨h1, dropList_names names cfg _ cs h2⟩
  | pi => exact h
  | comment => exact h
theorem dropList_names (names : List QName) (cfg : Fmx.Config) (b : Bool) (ns : List Node) (h : Free names ns) : Free names (dropList cfg b ns) := by
  cases ns with
  | nil => exact h
  | cons n ns =>
    obtain ⟨h1, h2⟩ := free_cons.mp h
    unfold dropList
    exact free_cons.mpr ⟨drop_names names cfg b n h1, dropList_names names cfg b ns h2⟩
end

/-- the finalisation creates no other elements -/
theorem finalize_names {names : List QName} (hn : ∀ q ∈ createdNames, q ∉ names) {cfg : Fmx.Config} {root out : Node} (h : Free names [root])
    (he : finalize cfg root = .ok out) : Free names [out] := by
  unfold finalize at he
  simp only at he
  obtain ⟨x, h1, he⟩ := bind_ok he
  obtain ⟨y, h2, he⟩ := bind_ok he
  cases he
  refine drop_names names cfg _ _ (insert_names hn cfg _ _ ?_ h2)
  unfold extractGrNotes at h1
  obtain ⟨⟨l, ks, s⟩, h3, h1⟩ := bind_ok h1
  have h4 := (move_names names (hn _ (by simp [createdNames])) _ _ (cleanup_names names _ (by rw [updateNoSeq_num]; exact num_names names [] 0 root h)) _ h3).1
  simp only at h1
  split at h1
  · cases h1; exact h4
  · cases h1

/-! ### the numbers of the tables which are in no table -/

/-- **C51**: the tables of a finalised document which are in no table are numbered from `0001`, if rows and `CORPUS` only are in tables. -/
theorem C51_final_top_level_partial {cfg : Fmx.Config} {root out : Node} (hroot : TablesApart root) (h : finalize cfg root = .ok out) (i : Nat) (T : Node)
    (hT : (topTables out)[i]? = some T) : T.attr (name "NO.SEQ") = some (fourDigits (i + 1)) := by
  unfold finalize at h
  simp only at h
  obtain ⟨x, h1, h⟩ := bind_ok h
  obtain ⟨y, h2, h⟩ := bind_ok h
  cases h
  unfold extractGrNotes at h1
  obtain ⟨⟨l, ks, s⟩, h3, h1⟩ := bind_ok h1
  rw [updateNoSeq_num] at h3
  obtain ⟨rfl, n', rfl, g1, g2⟩ := move_tables _ _ (cleanup_apart _ (num_apart [] 0 root hroot)) _ _ _ h3
  simp only at h1
  cases h1
  rw [drop_tables] at hT
  rw [List.getElem?_map] at hT
  obtain ⟨T1, hT1, rfl⟩ := Option.map_eq_some_iff.mp hT
  obtain ⟨T2, hT2, e2⟩ := all₂_get (insert_tables cfg _ g1 _ h2) hT1
  obtain ⟨T3, hT3, _, _, e3⟩ := all₂_get g2 hT2
  rw [cleanup_tables, List.getElem?_map] at hT3
  obtain ⟨T4, hT4, rfl⟩ := Option.map_eq_some_iff.mp hT3
  have e4 := (num_top [] 0 root).2 i T4 hT4
  obtain ⟨a, x, cs, tl, rfl⟩ := tag_elem (topTables_tag _ T4 (List.mem_of_getElem? hT4))
  obtain ⟨_, x', cs', e5⟩ := move_table e3
  cases e5
  unfold insertBlk at e2
  obtain ⟨cs'', _, e2⟩ := bind_ok e2
  rw [if_neg (by decide)] at e2
  cases e2
  have : fourDigits (i + 1) = seqText ([] ++ [0 + i + 1]) := by simp [seqText]
  rw [this]
  exact e4

/-! ### conversions -/

mutual
theorem allTables_apart (n : Node) (h : ∀ T ∈ topTables n, Free [name "TBL"] T.children) : allTables n = topTables n := by
  cases n with
  | elem t a x cs tl =>
    unfold allTables topTables
    unfold topTables at h
    split
    · next e =>
      rw [if_pos e] at h
      rw [allTablesList_none cs (h _ (List.mem_singleton.mpr rfl))]
    · next e =>
      rw [if_neg e] at h
      exact allTablesList_apart cs h
  | pi => rfl
  | comment => rfl
theorem allTablesList_apart (ns : List Node) (h : ∀ T ∈ topTablesList ns, Free [name "TBL"] T.children) : allTablesList ns = topTablesList ns := by
  cases ns with
  | nil => rfl
  | cons n ns =>
    unfold allTablesList topTablesList
    rw [allTables_apart n (fun T hT => h T (List.mem_append_left _ hT)), allTablesList_apart ns (fun T hT => h T (List.mem_append_right _ hT))]
theorem allTables_none (n : Node) (h : Free [name "TBL"] [n]) : allTables n = [] := by
  cases n with
  | elem t a x cs tl =>
    obtain ⟨h1, h2⟩ := free_elem.mp h
    unfold allTables
    rw [if_neg (show ¬ t = name "TBL" from not_one h1), allTablesList_none cs h2]
  | pi => rfl
  | comment => rfl
theorem allTablesList_none (ns : List Node) (h : Free [name "TBL"] ns) : allTablesList ns = [] := by
  cases ns with
  | nil => rfl
  | cons n ns =>
    obtain ⟨h1, h2⟩ := free_cons.mp h
    unfold allTablesList
    rw [allTables_none n h1, allTablesList_none ns h2]
    rfl
end

mutual
theorem topTables_none (n : Node) (h : Free [name "TBL"] [n]) : topTables n = [] := by
  cases n with
  | elem t a x cs tl =>
    obtain ⟨h1, h2⟩ := free_elem.mp h
    unfold topTables
    rw [if_neg (show ¬ t = name "TBL" from not_one h1), topTablesList_none cs h2]
  | pi => rfl
  | comment => rfl
theorem topTablesList_none (ns : List Node) (h : Free [name "TBL"] ns) : topTablesList ns = [] := by
  cases ns with
  | nil => rfl
  | cons n ns =>
    obtain ⟨h1, h2⟩ := free_cons.mp h
    unfold topTablesList
    rw [topTables_none n h1, topTablesList_none ns h2]
    rfl
end

mutual
theorem free_names {t : QName} : ∀ {n : Node}, Fmx2Cals.free t n → Free [t] [n]
  | .elem .., h => free_elem.mpr ⟨fun hm => h.1 (List.mem_singleton.mp hm), freeList_names h.2⟩
  | .pi .., _ => fun _ _ h => absurd h (by simp only [toksList, toks, List.append_nil]; simp only [List.mem_cons, reduceCtorEq, false_or]; exact no_opening _ _ _)
  | .comment .., _ => fun _ _ h => absurd h (by simp only [toksList, toks, List.append_nil]; simp only [List.mem_cons, reduceCtorEq, false_or]; exact no_opening _ _ _)
theorem freeList_names {t : QName} : ∀ {ns : List Node}, Fmx2Cals.freeList t ns → Free [t] ns
  | [], _ => fun _ _ h => (by cases h)
  | _ :: _, h => free_cons.mpr ⟨free_names h.1, freeList_names h.2⟩
end

/-- the settled documents, among those without nested tables -/
theorem settled_of {cfg : Fmx.Config} {root out : Node} (hroot : TablesApart root) (h : finalize cfg root = .ok out)
    (hin : ∀ T ∈ topTables out, ∀ t a, Tok.opening t a ∈ toksList T.children → t ≠ name "TBL")
    (hty : ∀ e ∈ preorder out, e.tag? = some (name "ROW") → e.attr (name "TYPE") = none)
    (hst : ∀ e ∈ preorder out, e.tag? = some (name "CORPUS") → ∀ c ∈ e.children, c.attr ⟨cfg.calsNs, "rowstyle"⟩ = none) : Settled cfg.calsNs out := by
  have hfree : ∀ T ∈ topTables out, Free [name "TBL"] T.children := fun T hT t a ht hm => hin T hT t a ht (List.mem_singleton.mp hm)
  have hall := allTables_apart out hfree
  refine ⟨⟨C51_final_top_level_partial hroot h, ?_⟩, ?_, hty, hst⟩
  · intro T hT
    rw [hall] at hT
    obtain ⟨i, hi⟩ := List.mem_iff_getElem?.mp hT
    refine ⟨_, C51_final_top_level_partial hroot h i T hi, ?_⟩
    intro i U hU
    rw [topTablesList_none _ (hfree T hT)] at hU
    cases hU
  · intro T hT c hc e
    rw [hall] at hT
    have := free_mem.mp (hfree T hT) c hc
    obtain ⟨_, _, _, _, rfl⟩ := tag_elem e
    exact (free_elem.mp this).1 (List.mem_singleton.mpr rfl)

open _root_.Benker.Convert in
/-- the conversion finds nothing to do in a document without tables -/
theorem again_tables {c : Conv} {q : QName} (hc : ∀ t, c.isTable t = decide (t = q)) {out : Node} (h : Free [q] [out]) :
    (∃ limit, transformTables c limit out = .ok out) ∧ ∀ limit out', transformTables c limit out = .ok out' → out' = out := by
  have hf : tableFree c out = true := tableFree_of (names := [q]) (fun t ht => List.mem_singleton.mpr (by rw [hc] at ht; exact of_decide_eq_true ht)) out h
  have hs : c.selects out = false := by
    cases out with
    | elem t a x cs tl =>
      rw [selects_elem, hc, decide_eq_false_iff_not]
      exact fun e => (free_elem.mp h).1 (List.mem_singleton.mpr e)
    | pi => rfl
    | comment => rfl
  exact ⟨(C58_replacement c out out hs).mpr (replacedInside_free out [] hf), fun limit out' ho => C58_untouched c limit out out' hf ho⟩

open _root_.Benker.Convert in
/-- **C101**, Word to CALS: a document which was converted is left as it is when it is converted again, whatever the options. -/
theorem C101_word_to_cals (pw pw' : Ooxml.Config) (bc bc' : Cals.Config) (limit : Nat) (doc out : Node) (h : transformTables (ooxml2cals pw bc) limit doc = .ok out) :
    (∃ limit', transformTables (ooxml2cals pw' bc') limit' out = .ok out) ∧
    ∀ limit' out', transformTables (ooxml2cals pw' bc') limit' out = .ok out' → out' = out :=
  again_tables (q := Ooxml.w "tbl") (fun _ => rfl) (free_names ((C58_none_left ⟨none, [], id⟩ pw bc ⟨false, false, none, [], id⟩ limit doc out).2.1 h))

/-- **C101**, Formex to CALS: a document which was converted is left as it is when it is converted again, with the same Formex namespace. -/
theorem C101_formex_to_cals (c c' : Fmx2Cals.Config) (hns : c'.parser.ns = c.parser.ns) (limit : Nat) (doc out : Node)
    (h : Fmx2Cals.transformTables c limit doc = .ok out) :
    (∃ limit', Fmx2Cals.transformTables c' limit' out = .ok out) ∧ ∀ limit' out', Fmx2Cals.transformTables c' limit' out = .ok out' → out' = out := by
  have hf : Fmx2Cals.free ⟨c'.parser.ns, "CORPUS"⟩ out := by rw [hns]; exact Fmx2Cals.C83_none_left c limit doc out h
  exact ⟨(Fmx2Cals.C83_replacement c' out out (Fmx2Cals.free_tag hf)).mpr (Fmx2Cals.free_inside 0 hf),
    fun limit' out' ho => Fmx2Cals.C83_untouched c' limit' out out' hf ho⟩

/-- the tables of a document converted to Formex are apart -/
theorem mid_apart {c : Convert.Conv} {q : QName} (hc : ∀ t, c.isTable t = decide (t = q))
    (htag : ∀ {ctx : List Node} {n e : Node}, c.convert ctx n = .ok e → e.tag? = some (name "TBL")) {doc mid : Node} {limit : Nat}
    (hroot : doc.tag? ≠ some q) (hfree : Shown.FreeAround (· = q) (["TBL", "CORPUS", "ROW"].map name) doc)
    (htables : Convert.transformTables c limit doc = .ok mid) : TablesApart mid := by
  have hsel : c.selects doc = false := by
    cases doc with
    | elem t a x cs tl =>
      rw [Convert.selects_elem, hc, decide_eq_false_iff_not]
      exact fun e => hroot (by rw [e]; rfl)
    | pi => rfl
    | comment => rfl
  have hT : (fun t => c.isTable t = true) = (· = q) := by
    funext t
    rw [hc]
    exact propext decide_eq_true_iff
  have hrep := replaced_around ((Convert.C58_replacement _ doc mid hsel).mp ⟨limit, htables⟩)
  rw [hT] at hrep
  refine around_apart ?_ hrep hfree
  rintro ctx n m t _ _ ⟨e, he, hi⟩
  rw [hi.same.1]
  have := htag he
  cases e <;> exact this

/-- **C101**, CALS to Formex: a document which was converted is left as it is when it is converted again, with the same namespaces, if there were no Formex tables in it,
and if in the result no table is in another one, no row has a type, and what is in a `CORPUS` has no CALS style (see `C101_typed_counterexample`). -/
theorem C101_cals_to_formex_partial (pc pc' : CalsP.Config) (bc bc' : Fmx.Config) (hpc : pc'.ns = pc.ns) (hbc : bc'.calsNs = bc.calsNs) (doc mid out : Node) (limit : Nat)
    (hroot : doc.tag? ≠ some ⟨pc.ns, "table"⟩) (hfree : Shown.FreeAround (· = ⟨pc.ns, "table"⟩) (["TBL", "CORPUS", "ROW"].map name) doc)
    (htables : Convert.transformTables (Convert.cals2formex pc bc) limit doc = .ok mid) (hfin : finalize bc mid = .ok out)
    (hin : ∀ T ∈ topTables out, ∀ t a, Tok.opening t a ∈ toksList T.children → t ≠ name "TBL")
    (hty : ∀ e ∈ preorder out, e.tag? = some (name "ROW") → e.attr (name "TYPE") = none)
    (hst : ∀ e ∈ preorder out, e.tag? = some (name "CORPUS") → ∀ c ∈ e.children, c.attr ⟨bc.calsNs, "rowstyle"⟩ = none) :
    (∃ limit', Convert.transformTables (Convert.cals2formex pc' bc') limit' out = .ok out) ∧
    (∀ limit' mid', Convert.transformTables (Convert.cals2formex pc' bc') limit' out = .ok mid' → mid' = out) ∧ finalize bc' out = .ok out := by
  have hap := mid_apart (c := Convert.cals2formex pc bc) (q := ⟨pc.ns, "table"⟩) (fun t => rfl) cals2formex_tag hroot hfree htables
  have hf := finalize_names (names := [⟨pc.ns, "table"⟩]) (by
    intro q hq hm
    rw [List.mem_singleton.mp hm] at hq
    have := List.mem_map_of_mem (f := QName.name) hq
    simp [createdNames, name] at this) (free_names ((Convert.C58_none_left pc ⟨fun _ => .ok 0, id, fun _ => "", 0, none⟩ ⟨none, [], false, [], id⟩ bc limit doc mid).1 htables)) hfin
  have h1 := again_tables (c := Convert.cals2formex pc' bc') (q := ⟨pc.ns, "table"⟩) (fun t => by rw [← hpc]; rfl) hf
  exact ⟨h1.1, h1.2, C101_finalised_again_partial bc bc' hbc mid out hfin (settled_of hap hfin hin hty hst)⟩

/-- **C101**, Word to Formex: the same (see `C101_typed_counterexample`). -/
theorem C101_word_to_formex_partial (pc pc' : Ooxml.Config) (bc bc' : Fmx.Config) (hbc : bc'.calsNs = bc.calsNs) (doc mid out : Node) (limit : Nat)
    (hroot : doc.tag? ≠ some (OoxmlSpec.name "tbl")) (hfree : Shown.FreeAround (· = OoxmlSpec.name "tbl") (["TBL", "CORPUS", "ROW"].map name) doc)
    (htables : Convert.transformTables (Convert.ooxml2formex pc bc) limit doc = .ok mid) (hfin : finalize bc mid = .ok out)
    (hin : ∀ T ∈ topTables out, ∀ t a, Tok.opening t a ∈ toksList T.children → t ≠ name "TBL")
    (hty : ∀ e ∈ preorder out, e.tag? = some (name "ROW") → e.attr (name "TYPE") = none)
    (hst : ∀ e ∈ preorder out, e.tag? = some (name "CORPUS") → ∀ c ∈ e.children, c.attr ⟨bc.calsNs, "rowstyle"⟩ = none) :
    (∃ limit', Convert.transformTables (Convert.ooxml2formex pc' bc') limit' out = .ok out) ∧
    (∀ limit' mid', Convert.transformTables (Convert.ooxml2formex pc' bc') limit' out = .ok mid' → mid' = out) ∧ finalize bc' out = .ok out := by
  have hap := mid_apart (c := Convert.ooxml2formex pc bc) (q := OoxmlSpec.name "tbl") (fun t => rfl) ooxml2formex_tag hroot hfree htables
  have hf := finalize_names (names := [OoxmlSpec.name "tbl"]) (by
    intro q hq hm
    rw [List.mem_singleton.mp hm] at hq
    have := List.mem_map_of_mem (f := QName.name) hq
    simp [createdNames, name, OoxmlSpec.name] at this) (free_names ((Convert.C58_none_left ⟨none, [], id⟩ pc ⟨none, [], false, [], id⟩ bc limit doc mid).2.2 htables)) hfin
  have h1 := again_tables (c := Convert.ooxml2formex pc' bc') (q := OoxmlSpec.name "tbl") (fun t => rfl) hf
  exact ⟨h1.1, h1.2, C101_finalised_again_partial bc bc' hbc mid out hfin (settled_of hap hfin hin hty hst)⟩

/-! ### examples -/

/-- a conversion to Formex -/
def formexOf (conv : Convert.Conv) (bc : Fmx.Config) (doc : Node) : Option Node :=
  match Convert.transformTables conv 100 doc with
  | .ok mid => (finalize bc mid).toOption
  | .error _ => none

theorem formexOf_ok {conv : Convert.Conv} {bc : Fmx.Config} {doc out : Node} (h : formexOf conv bc doc = some out) :
    ∃ mid, Convert.transformTables conv 100 doc = .ok mid ∧ finalize bc mid = .ok out := by
  unfold formexOf at h
  cases h1 : Convert.transformTables conv 100 doc with
  | error e => rw [h1] at h; cases h
  | ok mid =>
    rw [h1] at h
    simp only at h
    cases h2 : finalize bc mid with
    | error e => rw [h2] at h; cases h
    | ok out' => rw [h2] at h; cases h; exact ⟨mid, rfl, h2⟩

/-- a CALS document with a table whose only row has this style -/
def styledDoc (style : String) : Node :=
  withTables (.elem (qn "table") [] none [.elem (qn "tgroup") [(qn "cols", "1")] none [.elem (qn "colspec") [(qn "colname", "c1")] none [] none,
    .elem (qn "tbody") [] none [.elem (qn "row") [(qn "rowstyle", style)] none [.elem (qn "entry") [] (some "text") [] none] none] none] none] none)

/-- the types of the rows, in document order -/
def rowTypes (n : Node) : List (Option String) := ((preorder n).filter (fun e => e.tag? = some (name "ROW"))).map (fun e => e.attr (name "TYPE"))

/-- the numbers of the tables, in document order -/
def tableNumbers (n : Node) : List (Option String) := (allTables n).map (fun T => T.attr (name "NO.SEQ"))

def againCfg : Fmx.Config := ⟨true, true, some "c", ['m', 'm'], id⟩
def againConv : Convert.Conv := Convert.cals2formex ⟨none, ['m', 'm'], id⟩ againCfg

theorem image_of {α β : Type} {o : Option α} {g : α → β} {b : β} (h : o.map g = some b) : ∃ a, o = some a ∧ g a = b := Option.map_eq_some_iff.mp h

/-- C101 does not hold of the rows whose CALS style gives a type: the type is lost when the document is converted again. -/
theorem C101_typed_counterexample : ∃ (pc : CalsP.Config) (bc : Fmx.Config) (doc mid out mid' out' : Node),
    Convert.transformTables (Convert.cals2formex pc bc) 100 doc = .ok mid ∧ finalize bc mid = .ok out ∧
    Convert.transformTables (Convert.cals2formex pc bc) 100 out = .ok mid' ∧ finalize bc mid' = .ok out' ∧
    rowTypes out = [some "TOTAL", some "TOTAL"] ∧ rowTypes out' = [none, none] ∧ out' ≠ out := by
  obtain ⟨out', h', hr'⟩ := image_of (show ((formexOf againConv againCfg (styledDoc "ROW-TOTAL")).bind (formexOf againConv againCfg)).map rowTypes = some [none, none] by decide +kernel)
  obtain ⟨out, h, hr⟩ := image_of (show (formexOf againConv againCfg (styledDoc "ROW-TOTAL")).map rowTypes = some [some "TOTAL", some "TOTAL"] by decide +kernel)
  rw [h] at h'
  obtain ⟨mid, h1, h2⟩ := formexOf_ok h
  obtain ⟨mid', h3, h4⟩ := formexOf_ok h'
  refine ⟨⟨none, ['m', 'm'], id⟩, againCfg, _, mid, out, mid', out', h1, h2, h3, h4, hr, hr', ?_⟩
  rintro rfl
  rw [hr] at hr'
  exact absurd hr' (by decide)

/-- C101 does not hold of the tables which are in a table which is the child of a table: their numbers change when the document is finalised again. -/
theorem C101_nested_counterexample : ∃ (bc : Fmx.Config) (root out out' : Node), finalize bc root = .ok out ∧ finalize bc out = .ok out' ∧
    tableNumbers out = [some "0001", some "0001.0001.0001"] ∧ tableNumbers out' = [some "0001", some "0001.0001"] ∧ out' ≠ out := by
  obtain ⟨out', h', hr'⟩ := image_of (show ((finalize againCfg nestedChild).toOption.bind (fun n => (finalize againCfg n).toOption)).map tableNumbers =
    some [some "0001", some "0001.0001"] by decide +kernel)
  obtain ⟨out, h, hr⟩ := image_of (show (finalize againCfg nestedChild).toOption.map tableNumbers = some [some "0001", some "0001.0001.0001"] by decide +kernel)
  rw [h] at h'
  have e : ∀ {x : Except PyErr Node} {n : Node}, x.toOption = some n → x = .ok n := by
    intro x n hx
    cases x <;> cases hx
    rfl
  refine ⟨againCfg, nestedChild, out, out', e h, e h', hr, hr', ?_⟩
  rintro rfl
  rw [hr] at hr'
  exact absurd hr' (by decide)

/-- the conditions of C101 on a document, as a test -/
def settledTest (cals : Option String) (n : Node) : Bool :=
  (topTables n).all (fun T => (toksList T.children).all (fun | .opening t _ => decide (t ≠ name "TBL") | _ => true)) &&
  (preorder n).all (fun e => decide (e.tag? = some (name "ROW") → e.attr (name "TYPE") = none)) &&
  (preorder n).all (fun e => decide (e.tag? = some (name "CORPUS") → ∀ c ∈ e.children, c.attr ⟨cals, "rowstyle"⟩ = none))

theorem settledTest_ok {cals : Option String} {n : Node} (h : settledTest cals n = true) :
    (∀ T ∈ topTables n, ∀ t a, Tok.opening t a ∈ toksList T.children → t ≠ name "TBL") ∧
    (∀ e ∈ preorder n, e.tag? = some (name "ROW") → e.attr (name "TYPE") = none) ∧
    ∀ e ∈ preorder n, e.tag? = some (name "CORPUS") → ∀ c ∈ e.children, c.attr ⟨cals, "rowstyle"⟩ = none := by
  unfold settledTest at h
  simp only [Bool.and_eq_true, List.all_eq_true, decide_eq_true_iff] at h
  refine ⟨?_, h.1.2, h.2⟩
  intro T hT t a ht
  have := h.1.1 T hT _ ht
  simpa using this

/-- not vacuous: a document with twice a CALS table with a header, a body and a footer -/
example : ∃ (mid out : Node), (withTables footTable).tag? ≠ some ⟨none, "table"⟩ ∧
    Shown.FreeAround (· = ⟨none, "table"⟩) (["TBL", "CORPUS", "ROW"].map name) (withTables footTable) ∧
    Convert.transformTables (Convert.cals2formex ⟨none, ['m', 'm'], id⟩ againCfg) 100 (withTables footTable) = .ok mid ∧ finalize againCfg mid = .ok out ∧
    (topTables out).length = 2 ∧ (∀ T ∈ topTables out, ∀ t a, Tok.opening t a ∈ toksList T.children → t ≠ name "TBL") ∧
    (∀ e ∈ preorder out, e.tag? = some (name "ROW") → e.attr (name "TYPE") = none) ∧
    (∀ e ∈ preorder out, e.tag? = some (name "CORPUS") → ∀ c ∈ e.children, c.attr ⟨againCfg.calsNs, "rowstyle"⟩ = none) := by
  obtain ⟨out, h, hr⟩ := image_of (show (formexOf againConv againCfg (withTables footTable)).map (fun n => (settledTest againCfg.calsNs n, (topTables n).length)) = some (true, 2) by
    decide +kernel)
  obtain ⟨mid, h1, h2⟩ := formexOf_ok h
  obtain ⟨hr1, hr2⟩ := Prod.mk.inj hr
  exact ⟨mid, out, by decide, withTables_free, h1, h2, hr2, settledTest_ok hr1⟩

/-- not vacuous: a document with twice a Word table with merged cells -/
example : ∃ (mid out : Node), (withTables wordMerge).tag? ≠ some (OoxmlSpec.name "tbl") ∧
    Shown.FreeAround (· = OoxmlSpec.name "tbl") (["TBL", "CORPUS", "ROW"].map name) (withTables wordMerge) ∧
    Convert.transformTables (Convert.ooxml2formex wConfig againCfg) 100 (withTables wordMerge) = .ok mid ∧ finalize againCfg mid = .ok out ∧
    (topTables out).length = 2 ∧ (∀ T ∈ topTables out, ∀ t a, Tok.opening t a ∈ toksList T.children → t ≠ name "TBL") ∧
    (∀ e ∈ preorder out, e.tag? = some (name "ROW") → e.attr (name "TYPE") = none) ∧
    (∀ e ∈ preorder out, e.tag? = some (name "CORPUS") → ∀ c ∈ e.children, c.attr ⟨againCfg.calsNs, "rowstyle"⟩ = none) := by
  obtain ⟨out, h, hr⟩ := image_of (show (formexOf (Convert.ooxml2formex wConfig againCfg) againCfg (withTables wordMerge)).map (fun n => (settledTest againCfg.calsNs n, (topTables n).length)) =
    some (true, 2) by decide +kernel)
  obtain ⟨mid, h1, h2⟩ := formexOf_ok h
  obtain ⟨hr1, hr2⟩ := Prod.mk.inj hr
  exact ⟨mid, out, by decide, withTables_free, h1, h2, hr2, settledTest_ok hr1⟩

/-- not vacuous: tables in the cells of tables, with their numbers -/
def nestedCells : Node :=
  let tbl := fun (no : String) (cs : List Node) => Node.elem (name "TBL") [(name "NO.SEQ", no)] none
    [.elem (name "CORPUS") [] none [.elem (name "ROW") [] none [.elem (name "CELL") [(name "COL", "1")] (some "text") cs none] none] none] none
  .elem (name "DOC") [] none [tbl "0001" [tbl "0001.0001" [], tbl "0001.0002" []], tbl "0002" []] none

example : Settled none nestedCells := by
  refine ⟨⟨?_, ?_⟩, ?_, by decide +kernel, by decide +kernel⟩
  · intro i T hT
    have h : (topTables nestedCells).length = 2 := by decide +kernel
    have hi := (List.getElem?_eq_some_iff.mp hT).1
    rw [h] at hi
    have h0 : ((topTables nestedCells)[0]?).map (fun T => T.attr (name "NO.SEQ")) = some (some (fourDigits 1)) := by decide +kernel
    have h1 : ((topTables nestedCells)[1]?).map (fun T => T.attr (name "NO.SEQ")) = some (some (fourDigits 2)) := by decide +kernel
    match i, hi with
    | 0, _ => rw [hT] at h0; exact Option.some.inj h0
    | 1, _ => rw [hT] at h1; exact Option.some.inj h1
  · intro T hT
    have key : ∀ T ∈ allTables nestedCells, ∃ s ∈ (T.attr (name "NO.SEQ")).toList, (topTablesList T.children).map (fun U => U.attr (name "NO.SEQ")) =
        (List.range (topTablesList T.children).length).map (fun i => some (s ++ "." ++ fourDigits (i + 1))) := by decide +kernel
    obtain ⟨s, hs, h⟩ := key T hT
    refine ⟨s, Option.mem_toList.mp hs, ?_⟩
    intro i U hU
    have e := congrArg (fun l => l[i]?) h
    have hi := (List.getElem?_eq_some_iff.mp hU).1
    simp only [List.getElem?_map, hU, Option.map_some, List.getElem?_range hi] at e
    exact Option.some.inj e
  · decide +kernel

end Benker
