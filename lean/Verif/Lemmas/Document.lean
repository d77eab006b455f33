import Verif.Spec.Document
import Verif.Props.Converter
import Verif.Props.FormexFinalised

/-! Documents which are the same up to their tables: what the conversion and the finalisation do. -/

namespace Benker
open FmxSpec Fmx CalsSpec Shown

variable {isT isT' : QName → Prop} {R S : List Node → Node → Node → Prop}

mutual
theorem _root_.Benker.Shown.Around.imp (h : ∀ ctx n n', R ctx n n' → S ctx n n') : ∀ {ctx : List Node} {n n' : Node}, Around isT R ctx n n' → Around isT S ctx n n'
  | _, _, _, .table _ _ _ _ _ _ _ h1 h2 h3 => .table _ _ _ _ _ _ _ h1 (h _ _ _ h2) h3
  | _, _, _, .elem _ _ _ _ _ _ _ h1 h2 => .elem _ _ _ _ _ _ _ h1 (h2.imp h)
  | _, _, _, .pi .. => .pi ..
  | _, _, _, .comment .. => .comment ..
theorem _root_.Benker.Shown.AroundList.imp (h : ∀ ctx n n', R ctx n n' → S ctx n n') : ∀ {ctx ns ns' : List Node}, AroundList isT R ctx ns ns' → AroundList isT S ctx ns ns'
  | _, _, _, .nil _ => .nil _
  | _, _, _, .cons _ _ _ _ _ h1 h2 => .cons _ _ _ _ _ (h1.imp h) (h2.imp h)
end

mutual
theorem _root_.Benker.Shown.Around.imp_tag {R' : List Node → Node → Node → Prop} (h : ∀ ctx n m t, n.tag? = some t → isT t → R ctx n m → R' ctx n m) :
    ∀ {ctx : List Node} {n m : Node}, Around isT R ctx n m → Around isT R' ctx n m
  | _, _, _, .table ctx t a x cs tl m h1 h2 h3 => .table _ _ _ _ _ _ _ h1 (h _ _ _ _ rfl h1 h2) h3
  | _, _, _, .elem ctx t a x cs cs' tl h1 h2 => .elem _ _ _ _ _ _ _ h1 (h2.imp_tag h)
  | _, _, _, .pi .. => .pi ..
  | _, _, _, .comment .. => .comment ..
theorem _root_.Benker.Shown.AroundList.imp_tag {R' : List Node → Node → Node → Prop} (h : ∀ ctx n m t, n.tag? = some t → isT t → R ctx n m → R' ctx n m) :
    ∀ {ctx ns ms : List Node}, AroundList isT R ctx ns ms → AroundList isT R' ctx ns ms
  | _, _, _, .nil _ => .nil _
  | _, _, _, .cons _ _ _ _ _ h1 h2 => .cons _ _ _ _ _ (h1.imp_tag h) (h2.imp_tag h)
end


theorem tag_elem {n : Node} {t : QName} (h : n.tag? = some t) : ∃ a x cs tl, n = .elem t a x cs tl := by
  cases n with
  | elem t' a x cs tl => cases h; exact ⟨a, x, cs, tl, rfl⟩
  | pi => cases h
  | comment => cases h

mutual
/-- two replacements in a row: the tables of the second are those which the first has put -/
theorem _root_.Benker.Shown.Around.trans {P : Node → Node → Prop} (hR : ∀ ctx n m t, n.tag? = some t → isT t → R ctx n m → ∃ t, m.tag? = some t ∧ isT' t)
    (hno : ∀ t, isT' t → t ∈ names) : ∀ {ctx ctx' : List Node} {n m o : Node}, Around isT R ctx n m → FreeAround isT names n → Around isT' (fun _ => P) ctx' m o →
      Around isT (fun ctx n o => ∃ m, R ctx n m ∧ P m o) ctx n o
  | _, _, _, _, _, .table ctx t a x cs tl m h1 h2 h3, _, h4 => by
    obtain ⟨t', ht', hT⟩ := hR _ _ _ _ rfl h1 h2
    obtain ⟨a', x', cs', tl', rfl⟩ := tag_elem ht'
    cases h4 with
    | table _ _ _ _ _ _ _ g1 g2 g3 => exact .table _ _ _ _ _ _ _ h1 ⟨_, h2, g2⟩ (by rw [g3]; exact h3)
    | elem _ _ _ _ _ _ _ g1 g2 => exact absurd hT g1
  | _, _, _, _, _, .elem ctx t a x cs cs' tl h1 h2, hf, h4 => by
    rcases hf with hf | ⟨hf1, hf2⟩
    · exact absurd hf h1
    cases h4 with
    | table _ _ _ _ _ _ _ g1 g2 g3 => exact absurd (hno t g1) hf1
    | elem _ _ _ _ _ _ _ g1 g2 => exact .elem _ _ _ _ _ _ _ h1 (h2.trans hR hno hf2 g2)
  | _, _, _, _, _, .pi .., _, h4 => by cases h4; exact .pi ..
  | _, _, _, _, _, .comment .., _, h4 => by cases h4; exact .comment ..
theorem _root_.Benker.Shown.AroundList.trans {P : Node → Node → Prop} (hR : ∀ ctx n m t, n.tag? = some t → isT t → R ctx n m → ∃ t, m.tag? = some t ∧ isT' t)
    (hno : ∀ t, isT' t → t ∈ names) : ∀ {ctx ctx' : List Node} {n m o : List Node}, AroundList isT R ctx n m → FreeAroundList isT names n →
      AroundList isT' (fun _ => P) ctx' m o → AroundList isT (fun ctx n o => ∃ m, R ctx n m ∧ P m o) ctx n o
  | _, _, _, _, _, .nil _, _, h => by cases h; exact .nil _
  | _, _, _, _, _, .cons _ _ _ _ _ h1 h2, hf, h => by
    cases h with
    | cons _ _ _ _ _ g1 g2 => exact .cons _ _ _ _ _ (h1.trans hR hno hf.1 g1) (h2.trans hR hno hf.2 g2)
end

/-! ### the converter -/

theorem setTail_same {n : Node} {tl : Option String} (h : n.tail = tl) : n.setTail tl = n := by
  cases n <;> cases h <;> rfl

theorem tail_setTail (n : Node) (tl : Option String) : (n.setTail tl).tail = tl := by
  cases n <;> rfl

mutual
/-- the converter replaces the tables, then the tables in the replacements -/
theorem replaced_around {c : Convert.Conv} : ∀ {ctx : List Node} {n m : Node}, Convert.Replaced c ctx n m →
    Around (fun t => c.isTable t = true) (fun ctx T M => ∃ e, c.convert ctx T = .ok e ∧ Convert.ReplacedInside c ctx (e.setTail T.tail) M) ctx n m
  | _, _, _, .table ctx n e m hs he hi => by
    cases n with
    | elem t a x cs tl =>
      refine .table _ _ _ _ _ _ _ hs ⟨e, he, hi⟩ ?_
      rw [hi.same.2.2.2.1, tail_setTail]
      rfl
    | pi => cases hs
    | comment => cases hs
  | _, _, _, .other _ _ _ hs hi => replacedInside_around hi hs
theorem replacedInside_around {c : Convert.Conv} : ∀ {ctx : List Node} {n m : Node}, Convert.ReplacedInside c ctx n m → c.selects n = false →
    Around (fun t => c.isTable t = true) (fun ctx T M => ∃ e, c.convert ctx T = .ok e ∧ Convert.ReplacedInside c ctx (e.setTail T.tail) M) ctx n m
  | _, _, _, .elem _ t a x cs cs' tl hl, hs => .elem _ _ _ _ _ _ _ (by
      have : c.isTable t = false := hs
      rw [this]; simp) (replacedList_around hl)
  | _, _, _, .pi .., _ => .pi ..
  | _, _, _, .comment .., _ => .comment ..
theorem replacedList_around {c : Convert.Conv} : ∀ {ctx ns ms : List Node}, Convert.ReplacedList c ctx ns ms →
    AroundList (fun t => c.isTable t = true) (fun ctx T M => ∃ e, c.convert ctx T = .ok e ∧ Convert.ReplacedInside c ctx (e.setTail T.tail) M) ctx ns ms
  | _, _, _, .nil _ => .nil _
  | _, _, _, .cons _ _ _ _ _ h hs => .cons _ _ _ _ _ (replaced_around h) (replacedList_around hs)
end

mutual
/-- the converter succeeds if it does so on each table, and if there are no tables in what it makes -/
theorem replaced_of {c : Convert.Conv} {P : List Node → Node → Prop}
    (hP : ∀ ctx T, P ctx T → ∃ e, c.convert ctx T = .ok e ∧ ∃ m, Convert.ReplacedInside c ctx (e.setTail T.tail) m) :
    ∀ (n : Node) (ctx : List Node), EachTable (fun t => c.isTable t = true) P ctx n → ∃ m, Convert.Replaced c ctx n m := by
  intro n ctx h
  cases n with
  | elem t a x cs tl =>
    rcases h with ⟨h1, h2⟩ | ⟨h1, h2⟩
    · obtain ⟨e, he, m, hm⟩ := hP _ _ h2
      exact ⟨m, .table _ _ e _ h1 he hm⟩
    · obtain ⟨cs', hcs⟩ := replacedList_of hP cs ctx h2
      exact ⟨_, .other _ _ _ (by show c.isTable t = false; simpa using h1) (.elem _ _ _ _ _ _ _ hcs)⟩
  | pi => exact ⟨_, .other _ _ _ rfl (.pi ..)⟩
  | comment => exact ⟨_, .other _ _ _ rfl (.comment ..)⟩
theorem replacedList_of {c : Convert.Conv} {P : List Node → Node → Prop}
    (hP : ∀ ctx T, P ctx T → ∃ e, c.convert ctx T = .ok e ∧ ∃ m, Convert.ReplacedInside c ctx (e.setTail T.tail) m) :
    ∀ (ns ctx : List Node), EachTableList (fun t => c.isTable t = true) P ctx ns → ∃ ms, Convert.ReplacedList c ctx ns ms := by
  intro ns ctx h
  cases ns with
  | nil => exact ⟨[], .nil _⟩
  | cons n ns =>
    obtain ⟨m, h1⟩ := replaced_of hP n _ h.1
    obtain ⟨ms, h2⟩ := replacedList_of hP ns ctx h.2
    exact ⟨m :: ms, .cons _ _ _ _ _ h1 h2⟩
end

mutual
theorem replacedInside_free {c : Convert.Conv} : ∀ (n : Node) (ctx : List Node), Convert.tableFree c n = true → Convert.Replaced c ctx n n := by
  intro n ctx h
  cases n with
  | elem t a x cs tl =>
    simp only [Convert.tableFree, Bool.and_eq_true, Bool.not_eq_true'] at h
    exact .other _ _ _ h.1 (.elem _ _ _ _ _ _ _ (replacedList_free cs ctx h.2))
  | pi => exact .other _ _ _ rfl (.pi ..)
  | comment => exact .other _ _ _ rfl (.comment ..)
theorem replacedList_free {c : Convert.Conv} : ∀ (ns ctx : List Node), Convert.tableFreeList c ns = true → Convert.ReplacedList c ctx ns ns := by
  intro ns ctx h
  cases ns with
  | nil => exact .nil _
  | cons n ns =>
    simp only [Convert.tableFreeList, Bool.and_eq_true] at h
    exact .cons _ _ _ _ _ (replacedInside_free n _ h.1) (replacedList_free ns ctx h.2)
end

/-! ### the finalisation -/

/-- a Formex table -/
def isTbl (t : QName) : Prop := t = name "TBL"

mutual
theorem num_around (pre : List Nat) (k : Nat) (n : Node) (ctx : List Node) :
    Around isTbl (fun _ T T' => ∃ pre k, T' = (num pre k T).1) ctx n (num pre k n).1 := by
  cases n with
  | elem t a x cs tl =>
    by_cases ht : t = name "TBL"
    · refine .table _ _ _ _ _ _ _ ht ⟨pre, k, rfl⟩ ?_
      unfold num
      rw [if_pos ht]
      rfl
    · have e : (num pre k (.elem t a x cs tl)).1 = .elem t a x (numList pre k cs).1 tl := by
        unfold num
        rw [if_neg ht]
      rw [e]
      exact .elem _ _ _ _ _ _ _ ht (numList_around pre k cs ctx)
  | pi => exact .pi ..
  | comment => exact .comment ..
theorem numList_around (pre : List Nat) (k : Nat) (ns ctx : List Node) :
    AroundList isTbl (fun _ T T' => ∃ pre k, T' = (num pre k T).1) ctx ns (numList pre k ns).1 := by
  cases ns with
  | nil => exact .nil _
  | cons n ns =>
    unfold numList
    exact .cons _ _ _ _ _ (num_around pre k n _) (numList_around pre _ ns ctx)
end

mutual
theorem cleanup_around (n : Node) (ctx : List Node) : Around isTbl (fun _ T T' => T' = cleanupNode T) ctx n (cleanupNode n) := by
  cases n with
  | elem t a x cs tl =>
    by_cases ht : t = name "TBL"
    · exact .table _ _ _ _ _ _ _ ht rfl (by unfold cleanupNode; rfl)
    · have e : cleanupNode (.elem t a x cs tl) = .elem t a x (cleanupList cs) tl := by
        unfold cleanupNode
        rw [if_neg (show t ≠ f "TBL" from ht)]
      rw [e]
      exact .elem _ _ _ _ _ _ _ ht (cleanupList_around cs ctx)
  | pi => exact .pi ..
  | comment => exact .comment ..
theorem cleanupList_around (ns ctx : List Node) : AroundList isTbl (fun _ T T' => T' = cleanupNode T) ctx ns (cleanupList ns) := by
  cases ns with
  | nil => exact .nil _
  | cons n ns => exact .cons _ _ _ _ _ (cleanup_around n _) (cleanupList_around ns ctx)
end

mutual
theorem extract_around (n : Node) (ctx : List Node) (hn : TablesApart n) (l : List Node) (ks : List Note) (h : extractNode n = .ok (l, ks)) :
    ks = [] ∧ ∃ n', l = [n'] ∧ Around isTbl (fun _ T T' => extractNode T = .ok ([T'], [])) ctx n n' := by
  cases n with
  | elem t a x cs tl =>
    by_cases ht : t = name "TBL"
    · subst ht
      obtain ⟨rfl, x', cs', rfl⟩ := extract_table h
      exact ⟨rfl, _, rfl, .table _ _ _ _ _ _ _ rfl h rfl⟩
    · rcases hn with hn | ⟨h1, h2, h3⟩
      · exact absurd hn ht
      unfold extractNode at h
      obtain ⟨⟨cs', notes⟩, hl, h⟩ := bind_ok h
      obtain ⟨rfl, g⟩ := extractList_around cs ctx h3 _ _ hl
      simp only at h
      rw [if_neg (show t ≠ f "TBL" from ht), if_neg (show t ≠ f "ROW" from h2)] at h
      cases h
      exact ⟨rfl, _, rfl, .elem _ _ _ _ _ _ _ ht g⟩
  | pi => unfold extractNode at h; cases h; exact ⟨rfl, _, rfl, .pi ..⟩
  | comment => unfold extractNode at h; cases h; exact ⟨rfl, _, rfl, .comment ..⟩
theorem extractList_around (ns ctx : List Node) (hn : TablesApartList ns) (l : List Node) (ks : List Note) (h : extractList ns = .ok (l, ks)) :
    ks = [] ∧ AroundList isTbl (fun _ T T' => extractNode T = .ok ([T'], [])) ctx ns l := by
  cases ns with
  | nil => unfold extractList at h; cases h; exact ⟨rfl, .nil _⟩
  | cons n ns =>
    unfold extractList at h
    obtain ⟨⟨l1, k1⟩, g1, h⟩ := bind_ok h
    obtain ⟨⟨l2, k2⟩, g2, h⟩ := bind_ok h
    cases h
    obtain ⟨rfl, n', rfl, e1⟩ := extract_around n (ns ++ ctx) hn.1 _ _ g1
    obtain ⟨rfl, e2⟩ := extractList_around ns ctx hn.2 _ _ g2
    exact ⟨rfl, .cons _ _ _ _ _ e1 e2⟩
end

mutual
/-- out of the tables, nothing changes -/
theorem move_around (s : Bool) (n : Node) (ctx : List Node) (hn : TablesApart n) (l : List Node) (ks : List Note) (s' : Bool) (h : moveNode s n = .ok (l, ks, s')) :
    ks = [] ∧ ∃ n', l = [n'] ∧ Around isTbl (fun _ T T' => ∃ s s', moveNode s T = .ok ([T'], [], s')) ctx n n' := by
  cases n with
  | elem t a x cs tl =>
    by_cases ht : t = name "TBL"
    · subst ht
      obtain ⟨rfl, x', cs', rfl⟩ := move_table h
      exact ⟨rfl, _, rfl, .table _ _ _ _ _ _ _ rfl ⟨_, _, h⟩ rfl⟩
    · rcases hn with hn | ⟨h1, h2, h3⟩
      · exact absurd hn ht
      obtain ⟨s1, s2, cs', hl, rfl⟩ := move_other ht h2 h
      obtain ⟨rfl, g⟩ := moveList_around _ cs ctx h3 _ _ _ hl
      exact ⟨rfl, _, rfl, .elem _ _ _ _ _ _ _ ht g⟩
  | pi => unfold moveNode at h; cases h; exact ⟨rfl, _, rfl, .pi ..⟩
  | comment => unfold moveNode at h; cases h; exact ⟨rfl, _, rfl, .comment ..⟩
theorem moveList_around (s : Bool) (ns ctx : List Node) (hn : TablesApartList ns) (l : List Node) (ks : List Note) (s' : Bool)
    (h : moveList s ns = .ok (l, ks, s')) : ks = [] ∧ AroundList isTbl (fun _ T T' => ∃ s s', moveNode s T = .ok ([T'], [], s')) ctx ns l := by
  cases ns with
  | nil => unfold moveList at h; cases h; exact ⟨rfl, .nil _⟩
  | cons n ns =>
    unfold moveList at h
    obtain ⟨⟨l1, k1, s1⟩, g1, h⟩ := bind_ok h
    obtain ⟨⟨l2, k2, s2⟩, g2, h⟩ := bind_ok h
    cases h
    obtain ⟨rfl, n', rfl, e1⟩ := move_around _ n _ hn.1 _ _ _ g1
    obtain ⟨rfl, e2⟩ := moveList_around _ ns ctx hn.2 _ _ _ g2
    exact ⟨rfl, .cons _ _ _ _ _ e1 e2⟩
end

mutual
theorem insert_around (cfg : Config) (n : Node) (ctx : List Node) (hn : TablesApart n) (n' : Node) (h : insertBlk cfg n = .ok n') :
    Around isTbl (fun _ T T' => insertBlk cfg T = .ok T') ctx n n' := by
  cases n with
  | elem t a x cs tl =>
    by_cases ht : t = name "TBL"
    · refine .table _ _ _ _ _ _ _ ht h ?_
      unfold insertBlk at h
      obtain ⟨cs', _, h⟩ := bind_ok h
      rw [if_neg (show t ≠ f "CORPUS" from by rw [ht]; decide)] at h
      cases h
      rfl
    · rcases hn with hn | ⟨h1, h2, h3⟩
      · exact absurd hn ht
      unfold insertBlk at h
      obtain ⟨cs', hl, h⟩ := bind_ok h
      rw [if_neg (show t ≠ f "CORPUS" from h1)] at h
      cases h
      exact .elem _ _ _ _ _ _ _ ht (insertList_around cfg cs ctx h3 cs' hl)
  | pi => unfold insertBlk at h; cases h; exact .pi ..
  | comment => unfold insertBlk at h; cases h; exact .comment ..
theorem insertList_around (cfg : Config) (ns ctx : List Node) (hn : TablesApartList ns) (ns' : List Node) (h : insertBlkList cfg ns = .ok ns') :
    AroundList isTbl (fun _ T T' => insertBlk cfg T = .ok T') ctx ns ns' := by
  cases ns with
  | nil => unfold insertBlkList at h; cases h; exact .nil _
  | cons n ns =>
    unfold insertBlkList at h
    obtain ⟨n1, g1, h⟩ := bind_ok h
    obtain ⟨n2, g2, h⟩ := bind_ok h
    cases h
    exact .cons _ _ _ _ _ (insert_around cfg n _ hn.1 _ g1) (insertList_around cfg ns ctx hn.2 _ g2)
end

mutual
theorem drop_around (cfg : Config) (n : Node) (ctx : List Node) : Around isTbl (fun _ T T' => T' = dropNode cfg false T) ctx n (dropNode cfg false n) := by
  cases n with
  | elem t a x cs tl =>
    by_cases ht : t = name "TBL"
    · exact .table _ _ _ _ _ _ _ ht rfl (by unfold dropNode; rfl)
    · have ht' : decide (t = f "TBL") = false := decide_eq_false ht
      have e : dropNode cfg false (.elem t a x cs tl) = .elem t a x (dropList cfg false cs) tl := by
        simp only [dropNode, Bool.false_or, ht', Bool.false_and, Bool.false_eq_true, if_false]
      rw [e]
      exact .elem _ _ _ _ _ _ _ ht (dropList_around cfg cs ctx)
  | pi => exact .pi ..
  | comment => exact .comment ..
theorem dropList_around (cfg : Config) (ns ctx : List Node) : AroundList isTbl (fun _ T T' => T' = dropNode cfg false T) ctx ns (dropList cfg false ns) := by
  cases ns with
  | nil => exact .nil _
  | cons n ns =>
    unfold dropList
    exact .cons _ _ _ _ _ (drop_around cfg n _) (dropList_around cfg ns ctx)
end

mutual
theorem freeAround_self (n : Node) : FreeAround isTbl [name "TBL"] n := by
  cases n with
  | elem t a x cs tl =>
    by_cases ht : t = name "TBL"
    · exact .inl ht
    · exact .inr ⟨by simp [ht], freeAroundList_self cs⟩
  | pi => exact trivial
  | comment => exact trivial
theorem freeAroundList_self (ns : List Node) : FreeAroundList isTbl [name "TBL"] ns := by
  cases ns with
  | nil => exact trivial
  | cons n ns => exact ⟨freeAround_self n, freeAroundList_self ns⟩
end

theorem num_tag (pre : List Nat) (k : Nat) (n : Node) : (num pre k n).1.tag? = n.tag? := by
  cases n with
  | elem t a x cs tl => unfold num; split <;> rfl
  | pi => rfl
  | comment => rfl

theorem cleanup_tag (n : Node) : (cleanupNode n).tag? = n.tag? := by
  cases n <;> rfl

theorem drop_tag (cfg : Config) (b : Bool) (n : Node) : (dropNode cfg b n).tag? = n.tag? := by
  cases n <;> rfl

/-- the final form of a table; if the rows of notes of the document (`apart`) are apart, then all its rows have been treated -/
def FinalForm (apart : Prop) (cfg : Config) (T F : Node) : Prop :=
  ∃ pre k E B, MovedAs apart (cleanupNode (num pre k T).1) E ∧ insertBlk cfg E = .ok B ∧ F = dropNode cfg false B

/-- **the finalisation changes nothing out of the tables** -/
theorem finalize_around {cfg : Config} {root out : Node} (hroot : TablesApart root) (h : finalize cfg root = .ok out) (ctx : List Node) :
    Around isTbl (fun _ => FinalForm (NotesApart root) cfg) ctx root out := by
  unfold finalize at h
  simp only at h
  obtain ⟨e, h1, h⟩ := bind_ok h
  obtain ⟨b, h2, h⟩ := bind_ok h
  cases h
  unfold extractGrNotes at h1
  obtain ⟨⟨l, ks, s⟩, h1, h3⟩ := bind_ok h1
  have hmoved : NotesApart root → extractNode (cleanupNode (num [] 0 root).1) = .ok (l, ks) := fun hn => by
    rw [← updateNoSeq_num]
    exact moved_apart hn h1
  rw [updateNoSeq_num] at h1
  have hap := cleanup_apart _ (num_apart [] 0 root hroot)
  obtain ⟨_, _, rfl, g1, _⟩ := move_tables _ _ hap _ _ _ h1
  obtain ⟨rfl, _, e', a3'⟩ := move_around _ _ [] hap _ _ _ h1
  cases e'
  simp only at h3
  cases h3
  have a3 : Around isTbl (fun _ => MovedAs (NotesApart root)) [] (cleanupNode (num [] 0 root).1) e := by
    by_cases hn : NotesApart root
    · obtain ⟨_, _, e', g⟩ := extract_around _ [] hap _ _ (hmoved hn)
      cases e'
      refine g.imp_tag (fun ctx T E t ht hT hE => ⟨?_, fun _ => hE⟩)
      obtain ⟨a, x, cs, tl, rfl⟩ := tag_elem (ht.trans (congrArg some hT))
      obtain ⟨_, x', cs', e⟩ := extract_table hE
      rw [List.singleton_inj.mp e]
      rfl
    · refine a3'.imp_tag (fun ctx T E t ht hT hE => ⟨?_, fun h => absurd h hn⟩)
      obtain ⟨s, s', hE⟩ := hE
      exact moved_tag (ht.trans (congrArg some hT)) hE
  have a1 := num_around [] 0 root ctx
  have a2 := cleanup_around (num [] 0 root).1 []
  have a4 := insert_around cfg _ [] g1 _ h2
  have a5 := drop_around cfg b []
  have t1 := a1.trans (isT' := isTbl) (names := [name "TBL"]) (P := fun T T' => T' = cleanupNode T) (by
    rintro _ n _ t ht hT ⟨pre, k, rfl⟩
    exact ⟨t, by rw [num_tag]; exact ht, hT⟩) (fun t ht => List.mem_singleton.mpr ht) (freeAround_self _) a2
  have t2 := t1.trans (isT' := isTbl) (names := [name "TBL"]) (P := MovedAs (NotesApart root)) (by
    rintro _ n _ t ht hT ⟨_, ⟨pre, k, rfl⟩, rfl⟩
    exact ⟨t, by rw [cleanup_tag, num_tag]; exact ht, hT⟩) (fun t ht => List.mem_singleton.mpr ht) (freeAround_self _) a3
  have t3 := t2.trans (isT' := isTbl) (names := [name "TBL"]) (P := fun T T' => insertBlk cfg T = .ok T') (by
    rintro _ n _ t ht hT ⟨_, ⟨_, ⟨pre, k, rfl⟩, rfl⟩, hE⟩
    exact ⟨_, hE.1, rfl⟩) (fun t ht => List.mem_singleton.mpr ht) (freeAround_self _) a4
  have hy : ∀ {E B : Node}, E.tag? = some (name "TBL") → insertBlk cfg E = .ok B → B.tag? = some (name "TBL") := by
    intro E B hE hB
    obtain ⟨a, x, cs, tl, rfl⟩ := tag_elem hE
    unfold insertBlk at hB
    obtain ⟨cs', _, hB⟩ := bind_ok hB
    rw [if_neg (by decide)] at hB
    cases hB
    rfl
  have t4 := t3.trans (isT' := isTbl) (names := [name "TBL"]) (P := fun T T' => T' = dropNode cfg false T) (by
    rintro _ n _ t ht hT ⟨_, ⟨_, ⟨_, ⟨pre, k, rfl⟩, rfl⟩, hE⟩, hB⟩
    exact ⟨_, hy hE.1 hB, rfl⟩) (fun t ht => List.mem_singleton.mpr ht) (freeAround_self _) a5
  refine t4.imp ?_
  rintro _ T F ⟨B, ⟨E, ⟨_, ⟨_, ⟨pre, k, rfl⟩, rfl⟩, hE⟩, hB⟩, rfl⟩
  exact ⟨pre, k, E, B, hE, hB, rfl⟩

theorem finalForm_tag {apart : Prop} {cfg : Config} {T F : Node} (h : FinalForm apart cfg T F) : F.tag? = some (name "TBL") := by
  obtain ⟨pre, k, E, B, hE, hB, rfl⟩ := h
  obtain ⟨a, x, cs, tl, rfl⟩ := tag_elem hE.1
  unfold insertBlk at hB
  obtain ⟨cs', _, hB⟩ := bind_ok hB
  rw [if_neg (by decide)] at hB
  cases hB
  rfl

mutual
/-- if the tables become Formex tables, and if there were no Formex table in the rest, then the document can be finalised -/
theorem around_apart (hR : ∀ ctx n m t, n.tag? = some t → isT t → R ctx n m → m.tag? = some (name "TBL")) :
    ∀ {ctx : List Node} {n m : Node}, Around isT R ctx n m → FreeAround isT (["TBL", "CORPUS", "ROW"].map name) n → TablesApart m
  | _, _, _, .table ctx t a x cs tl m h1 h2 _, _ => by
    obtain ⟨_, _, _, _, rfl⟩ := tag_elem (hR _ _ _ _ rfl h1 h2)
    exact .inl rfl
  | _, _, _, .elem ctx t a x cs cs' tl h1 h2, hf => by
    rcases hf with hf | ⟨hf1, hf2⟩
    · exact absurd hf h1
    · exact .inr ⟨fun e => hf1 (by rw [e]; simp), fun e => hf1 (by rw [e]; simp), aroundList_apart hR h2 hf2⟩
  | _, _, _, .pi .., _ => trivial
  | _, _, _, .comment .., _ => trivial
theorem aroundList_apart (hR : ∀ ctx n m t, n.tag? = some t → isT t → R ctx n m → m.tag? = some (name "TBL")) :
    ∀ {ctx : List Node} {n m : List Node}, AroundList isT R ctx n m → FreeAroundList isT (["TBL", "CORPUS", "ROW"].map name) n → TablesApartList m
  | _, _, _, .nil _, _ => trivial
  | _, _, _, .cons _ _ _ _ _ h1 h2, hf => ⟨around_apart hR h1 hf.1, aroundList_apart hR h2 hf.2⟩
end

mutual
/-- every table of the result is the image of a table -/
theorem around_tables (hR : ∀ ctx n m t, n.tag? = some t → isT t → R ctx n m → m.tag? = some (name "TBL")) {P : List Node → Node → Prop} {Q : Node → Prop}
    (hQ : ∀ ctx n m, P ctx n → R ctx n m → Q m) : ∀ {ctx : List Node} {n m : Node}, Around isT R ctx n m → FreeAround isT (["TBL", "CORPUS", "ROW"].map name) n →
      EachTable isT P ctx n → ∀ T ∈ topTables m, Q T
  | _, _, _, .table ctx t a x cs tl m h1 h2 _, _, hp => by
    intro T hT
    obtain ⟨_, _, _, _, rfl⟩ := tag_elem (hR _ _ _ _ rfl h1 h2)
    rw [topTables, if_pos rfl, List.mem_singleton] at hT
    subst hT
    rcases hp with ⟨_, hp⟩ | ⟨hp, _⟩
    · exact hQ _ _ _ hp h2
    · exact absurd h1 hp
  | _, _, _, .elem ctx t a x cs cs' tl h1 h2, hf, hp => by
    intro T hT
    rcases hf with hf | ⟨hf1, hf2⟩
    · exact absurd hf h1
    rcases hp with ⟨hp, _⟩ | ⟨_, hp⟩
    · exact absurd hp h1
    rw [topTables, if_neg (fun e => hf1 (by rw [e]; simp))] at hT
    exact aroundList_tables hR hQ h2 hf2 hp T hT
  | _, _, _, .pi .., _, _ => by intro T hT; cases hT
  | _, _, _, .comment .., _, _ => by intro T hT; cases hT
theorem aroundList_tables (hR : ∀ ctx n m t, n.tag? = some t → isT t → R ctx n m → m.tag? = some (name "TBL")) {P : List Node → Node → Prop} {Q : Node → Prop}
    (hQ : ∀ ctx n m, P ctx n → R ctx n m → Q m) : ∀ {ctx : List Node} {n m : List Node}, AroundList isT R ctx n m →
      FreeAroundList isT (["TBL", "CORPUS", "ROW"].map name) n → EachTableList isT P ctx n → ∀ T ∈ topTablesList m, Q T
  | _, _, _, .nil _, _, _ => by intro T hT; cases hT
  | _, _, _, .cons _ _ _ _ _ h1 h2, hf, hp => by
    intro T hT
    rw [topTablesList] at hT
    rcases List.mem_append.mp hT with hT | hT
    · exact around_tables hR hQ h1 hf.1 hp.1 T hT
    · exact aroundList_tables hR hQ h2 hf.2 hp.2 T hT
end

end Benker
