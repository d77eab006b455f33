import Verif.Spec.Formex
import Verif.Model.FormexFinal
import Verif.Lemmas.Dict
import Verif.Lemmas.Except
import Verif.Lemmas.FormexRow
import Verif.Lemmas.FormexNotes

/-! The finalisation of a Formex document creates no table: how often a number appears can only decrease. -/

namespace Benker
open FmxSpec Fmx

/-- is it a table which has this number? -/
def hasNo (v : Option String) (t : QName) (a : Dict QName String) : Nat :=
  if t = name "TBL" ∧ Dict.get? a (name "NO.SEQ") = v then 1 else 0

mutual
/-- how many tables of a node have this number -/
def cnt (v : Option String) : Node → Nat
  | .elem t a _ cs _ => hasNo v t a + cntList v cs
  | _ => 0
def cntList (v : Option String) : List Node → Nat
  | [] => 0
  | n :: ns => cnt v n + cntList v ns
end

mutual
theorem count_allTables (v : Option String) (n : Node) : ((allTables n).map (fun T => T.attr (name "NO.SEQ"))).count v = cnt v n := by
  cases n with
  | elem t a x cs tl =>
    unfold allTables cnt hasNo
    by_cases ht : t = name "TBL"
    · rw [if_pos ht, List.map_cons, List.count_cons, count_allTablesList v cs]
      have hat : (Node.elem t a x cs tl).attr (name "NO.SEQ") = Dict.get? a (name "NO.SEQ") := rfl
      rw [hat]
      by_cases hv : Dict.get? a (name "NO.SEQ") = v
      · simp [ht, hv]; omega
      · simp [ht, hv]
    · rw [if_neg ht, count_allTablesList v cs]
      simp [ht]
  | pi => rfl
  | comment => rfl
theorem count_allTablesList (v : Option String) (ns : List Node) :
    ((allTablesList ns).map (fun T => T.attr (name "NO.SEQ"))).count v = cntList v ns := by
  cases ns with
  | nil => rfl
  | cons n ns =>
    unfold allTablesList cntList
    rw [List.map_append, List.count_append, count_allTables v n, count_allTablesList v ns]
end

theorem cntList_append (v : Option String) (l l' : List Node) : cntList v (l ++ l') = cntList v l + cntList v l' := by
  induction l with
  | nil => simp [cntList]
  | cons n ns ih => simp only [List.cons_append, cntList, ih]; omega

/-! ### tables in tables -/

mutual
theorem cnt_cleanup (v : Option String) (n : Node) : cnt v (cleanupNode n) ≤ cnt v n := by
  cases n with
  | elem t a x cs tl =>
    unfold cleanupNode cnt
    split
    · have := cnt_cleanupInTable v cs; omega
    · have := cnt_cleanupList v cs; omega
  | pi => exact Nat.le_refl _
  | comment => exact Nat.le_refl _
theorem cnt_cleanupList (v : Option String) (ns : List Node) : cntList v (cleanupList ns) ≤ cntList v ns := by
  cases ns with
  | nil => exact Nat.le_refl _
  | cons n ns =>
    unfold cleanupList cntList
    have := cnt_cleanup v n; have := cnt_cleanupList v ns; omega
theorem cnt_cleanupInTable (v : Option String) (ns : List Node) : cntList v (cleanupInTable ns) ≤ cntList v ns := by
  cases ns with
  | nil => exact Nat.le_refl _
  | cons n ns =>
    have h := cnt_cleanupInTable v ns
    cases n with
    | elem t a x cs tl =>
      unfold cleanupInTable
      split
      · rw [cntList_append]
        have := cnt_cleanupInTable v cs
        simp only [cntList, cnt]; omega
      · have := cnt_cleanupList v cs
        unfold cntList cnt; omega
    | pi => unfold cleanupInTable cntList; omega
    | comment => unfold cleanupInTable cntList; omega
end

/-! ### notes -/

theorem cnt_setTail (v : Option String) (tl : Option String) (n : Node) : cnt v (n.setTail tl) = cnt v n := by
  cases n <;> rfl

def cntNotes (v : Option String) : List Note → Nat
  | [] => 0
  | k :: ks => cntList v k.nodes + cntNotes v ks

theorem cntNotes_append (v : Option String) (l l' : List Note) : cntNotes v (l ++ l') = cntNotes v l + cntNotes v l' := by
  induction l with
  | nil => simp [cntNotes]
  | cons n ns ih => simp only [List.cons_append, cntNotes, ih]; omega

theorem cnt_addAttrs (v : Option String) (e : Dict QName String) (n : Node) (h : n.tag? = some (f "GR.NOTES")) : cnt v (addAttrs e n) = cnt v n := by
  cases n with
  | elem t a x cs tl =>
    injection h with h
    unfold addAttrs cnt hasNo
    have : t ≠ name "TBL" := by rw [h]; decide
    simp [this]
  | pi => rfl
  | comment => rfl

theorem cnt_modifyFirst (v : Option String) (e : Dict QName String) (ns : List Node) :
    cntList v (modifyFirst (isElem "GR.NOTES") (addAttrs e) ns) = cntList v ns := by
  induction ns with
  | nil => rfl
  | cons n ns ih =>
    unfold modifyFirst
    split
    · rename_i h
      unfold cntList
      rw [cnt_addAttrs v e n (of_decide_eq_true h)]
    · unfold cntList; rw [ih]

theorem cntList_mem (v : Option String) {n : Node} {ns : List Node} (h : n ∈ ns) : cnt v n ≤ cntList v ns := by
  induction ns with
  | nil => cases h
  | cons m ns ih =>
    unfold cntList
    rcases List.mem_cons.mp h with rfl | h
    · omega
    · have := ih h; omega

theorem cnt_children (v : Option String) (n : Node) : cntList v n.children ≤ cnt v n := by
  cases n with
  | elem t a x cs tl => unfold cnt; simp only [Node.children]; omega
  | pi => exact Nat.le_refl _
  | comment => exact Nat.le_refl _

theorem cnt_makeNote (v : Option String) {a : Dict QName String} {cs : List Node} {k : Note} (h : makeNote a cs = .ok k) :
    cntList v k.nodes ≤ cntList v cs := by
  unfold makeNote at h
  split at h
  · cases h
  · rename_i cell hc
    have h1 := cntList_mem v (List.mem_of_find?_eq_some hc)
    have h2 := cnt_children v cell
    split at h
    · cases h
      simp only [cnt_modifyFirst]; omega
    · cases h
      simp only [cntList]
      rw [cnt_addAttrs v a _ rfl]
      unfold cnt hasNo
      have : f "GR.NOTES" ≠ name "TBL" := by decide
      simp [this]; omega

theorem cnt_putNotes (v : Option String) (ks : List Note) (text : Option String) (before : List Node) :
    cntList v (putNotes text before ks).2 = cntList v before + cntNotes v ks := by
  induction ks generalizing text before with
  | nil => simp [putNotes, cntNotes]
  | cons k ks ih =>
    unfold putNotes cntNotes
    simp only [ih]
    have : cntList v (putNote text before k).2 = cntList v before + cntList v k.nodes := by
      unfold putNote
      split
      · simp [cntList_append]
      · split
        · rename_i hb
          have : before = [] := by simpa using hb
          subst this; simp [cntList]
        · rename_i p ps hb
          have : before = ps.reverse ++ [p] := by
            have := congrArg List.reverse hb
            simpa using this
          subst this
          simp only [cntList_append, addTail]
          simp only [cntList, cnt_setTail]
    omega

theorem cnt_takeDrop (v : Option String) (p : Node → Bool) (cs : List Node) : cntList v (cs.takeWhile p) + cntList v (cs.dropWhile p) = cntList v cs := by
  rw [← cntList_append, List.takeWhile_append_dropWhile]

theorem hasNo_erase (v : Option String) {t : QName} (h : t ≠ name "TBL") (a b : Dict QName String) : hasNo v t a = hasNo v t b := by
  unfold hasNo; simp [h]

theorem cnt_closeElem (v : Option String) {t : QName} {a : Dict QName String} {x tl : Option String} {cs : List Node} {notes : List Note} {l : List Node}
    {ks : List Note} (h : closeElem t a x cs tl notes = .ok (l, ks)) : cntList v l + cntNotes v ks ≤ hasNo v t a + (cntList v cs + cntNotes v notes) := by
  unfold closeElem at h
  split at h
  · split at h
    · rename_i hn
      cases h
      simp only [cntList, cnt, cntNotes] at *; omega
    · split at h
      · cases h
        simp only [cntList, cnt, cntNotes, cntList_append, cnt_putNotes] at *
        have := cnt_takeDrop v (fun c => !isElem "CORPUS" c) cs
        omega
      · cases h
  · rename_i ht
    split at h
    · cases h
      simp only [cntList, cnt] at *
      rw [hasNo_erase v ht _ a]; omega
    · cases h
      simp only [cntList, cnt] at *; omega

mutual
theorem cnt_move (v : Option String) (s : Bool) (n : Node) (l : List Node) (ks : List Note) (s' : Bool) (h : moveNode s n = .ok (l, ks, s')) :
    cntList v l + cntNotes v ks ≤ cnt v n := by
  cases n with
  | elem t a x cs tl =>
    unfold moveNode at h
    split at h
    · cases h; simp [cntList, cntNotes]
    · split at h
      · split at h
        · obtain ⟨⟨cs', notes, s1⟩, h1, h⟩ := bind_ok h
          obtain ⟨k, hk, h⟩ := bind_ok h
          cases h
          have ih := cnt_moveFirst v cs cs' notes _ h1
          have := cnt_makeNote v hk
          simp only [cntList, cntNotes, cnt] at *; omega
        · obtain ⟨k, hk, h⟩ := bind_ok h
          obtain ⟨lost, _, h⟩ := bind_ok h
          split at h
          · cases h
            have := cnt_makeNote v hk
            simp only [cntList, cntNotes, cnt] at *; omega
          · cases h
      · obtain ⟨⟨cs', notes, s1⟩, h1, h⟩ := bind_ok h
        obtain ⟨r, hr, h⟩ := bind_ok h
        cases h
        have ih := cnt_moveList v false cs cs' notes _ h1
        have := cnt_closeElem v hr
        simp only [cnt] at *; omega
  | pi => unfold moveNode at h; cases h; simp [cntList, cntNotes]
  | comment => unfold moveNode at h; cases h; simp [cntList, cntNotes]
theorem cnt_moveList (v : Option String) (s : Bool) (ns l : List Node) (ks : List Note) (s' : Bool) (h : Fmx.moveList s ns = .ok (l, ks, s')) :
    cntList v l + cntNotes v ks ≤ cntList v ns := by
  cases ns with
  | nil => unfold Fmx.moveList at h; cases h; simp [cntList, cntNotes]
  | cons n ns =>
    unfold Fmx.moveList at h
    obtain ⟨⟨l1, k1, s1⟩, h1, h⟩ := bind_ok h
    obtain ⟨⟨l2, k2, s2⟩, h2, h⟩ := bind_ok h
    cases h
    have := cnt_move v s n l1 k1 _ h1
    have := cnt_moveList v _ ns l2 k2 _ h2
    simp only [cntList, cntList_append, cntNotes_append]; omega
theorem cnt_moveFirst (v : Option String) (ns l : List Node) (ks : List Note) (s' : Bool) (h : moveFirst ns = .ok (l, ks, s')) :
    cntList v l + cntNotes v ks ≤ cntList v ns := by
  cases ns with
  | nil => unfold moveFirst at h; cases h; simp [cntList, cntNotes]
  | cons n ns =>
    unfold moveFirst at h
    split at h
    · obtain ⟨⟨l1, k1, s1⟩, h1, h⟩ := bind_ok h
      cases h
      have := cnt_move v false n _ _ _ h1
      simp only [cntList, cntList_append]; omega
    · obtain ⟨⟨l1, k1, s1⟩, h1, h⟩ := bind_ok h
      cases h
      have := cnt_moveFirst v ns _ _ _ h1
      simp only [cntList]; omega
end

theorem cnt_extractGrNotes (v : Option String) {n out : Node} (h : extractGrNotes n = .ok out) : cnt v out ≤ cnt v n := by
  unfold extractGrNotes at h
  obtain ⟨⟨l, ks, s⟩, h1, h⟩ := bind_ok h
  have := cnt_move v false n l ks s h1
  simp only at h
  split at h
  · cases h
    simp only [cntList, cntNotes] at this; omega
  · cases h

/-! ### blocks -/

def cntOpen (v : Option String) : Open → Nat
  | [] => 0
  | cs :: rest => cntList v cs + cntOpen v rest

theorem cntOpen_push (v : Option String) (k : Nat) (o : Open) : cntOpen v (o.push k) = cntOpen v o := by
  induction k generalizing o with
  | zero => rfl
  | succ k ih => unfold Open.push; rw [ih]; simp [cntOpen, cntList]

theorem cntOpen_close (v : Option String) (o : Open) : cntOpen v o.close = cntOpen v o := by
  unfold Open.close
  split
  · have : f "BLK" ≠ name "TBL" := by decide
    simp [cntOpen, cntList_append, cntList, blkElem, cnt, hasNo, this]; omega
  · rfl

theorem cntOpen_pop (v : Option String) (k : Nat) (o : Open) : cntOpen v (o.pop k) = cntOpen v o := by
  induction k generalizing o with
  | zero => rfl
  | succ k ih => unfold Open.pop; rw [ih, cntOpen_close]

theorem cntOpen_toLevel (v : Option String) (k : Nat) (o : Open) : cntOpen v (o.toLevel k) = cntOpen v o := by
  unfold Open.toLevel
  split
  · exact cntOpen_push v _ o
  · exact cntOpen_pop v _ o

theorem cntOpen_add (v : Option String) (n : Node) (o : Open) : cntOpen v (o.add n) ≤ cntOpen v o + cnt v n := by
  unfold Open.add
  split
  · simp [cntOpen]
  · simp only [cntOpen, cntList_append, cntList]; omega

theorem hasNo_setType (v : Option String) (t : QName) (a : Dict QName String) (ty : String) : hasNo v t (Dict.set a (f "TYPE") ty) = hasNo v t a := by
  unfold hasNo
  have : f "TYPE" ≠ name "NO.SEQ" := by decide
  rw [Dict.get?_set, if_neg this]

theorem cnt_setType (v : Option String) (ty : String) (n : Node) : cnt v (setAttr (f "TYPE") ty n) = cnt v n := by
  cases n with
  | elem t a x cs tl => unfold setAttr cnt; rw [hasNo_setType]
  | pi => rfl
  | comment => rfl

theorem cnt_typedRow (v : Option String) (type : Option String) (n : Node) : cnt v (typedRow type n) = cnt v n := by
  unfold typedRow
  split
  · rename_i ty t a x cs tl
    unfold cnt
    rw [hasNo_setType]
    congr 1
    induction cs with
    | nil => rfl
    | cons c cs ih =>
      simp only [List.map_cons, cntList, ih]
      split
      · rw [cnt_setType]
      · rfl
  · rfl

theorem cnt_titleElem (v : Option String) {cfg : Config} {tag : String} (htag : tag = "TI.BLK" ∨ tag = "STI.BLK") {raw row n : Node}
    (h : titleElem cfg tag raw row = .ok n) : cnt v n ≤ cnt v row := by
  unfold titleElem at h
  obtain ⟨src, hs, h⟩ := bind_ok h
  cases h
  have hmem : src.1 ∈ cellsOf row := by
    unfold titleSource at hs
    have hget : ∀ (l : List Node) (i : Nat) c, pyGetNat l i = .ok c → c ∈ l := by
      intro l i c h
      unfold pyGetNat at h
      cases hl : l[i]? with
      | none => rw [hl] at h; cases h
      | some b => rw [hl] at h; cases h; exact List.mem_of_getElem? hl
    split at hs
    · obtain ⟨c, hc, hs⟩ := bind_ok hs
      obtain ⟨sp, hsp, hs⟩ := bind_ok hs
      obtain ⟨cell, hcell, hs⟩ := bind_ok hs
      cases hs; exact hget _ _ _ hcell
    · obtain ⟨cell, hcell, hs⟩ := bind_ok hs
      cases hs; exact hget _ _ _ hcell
  have h1 := cntList_mem v (List.mem_filter.mp hmem).1
  have h2 := cnt_children v src.1
  have h3 := cnt_children v row
  have ht : f tag ≠ name "TBL" := by rcases htag with rfl | rfl <;> decide
  show hasNo v (f tag) _ + cntList v src.1.children ≤ _
  unfold hasNo
  simp only [ht, false_and, if_false]
  omega

theorem guess_tag (s : Option String) : (guessRowInfo s).tag ∈ ["ROW", "TI.BLK", "STI.BLK"] := by
  cases s with
  | none => decide
  | some s =>
    unfold guessRowInfo
    simp only
    cases hm : rowMatches s.toList with
    | nil => simp
    | cons m tl =>
      obtain ⟨⟨w, hw, e1⟩, _⟩ := rowMatches_mem (by rw [hm]; exact List.mem_cons_self : m ∈ rowMatches s.toList)
      simp only [e1, String.ofList_toList]
      exact hw

theorem cnt_placedNode (v : Option String) {cfg : Config} {raw row n : Node} (h : placedNode cfg raw row = .ok n) : cnt v n ≤ cnt v row := by
  unfold placedNode at h
  split at h
  · cases h; exact Nat.le_of_eq (cnt_typedRow v _ _)
  · rename_i hr
    refine cnt_titleElem v ?_ h
    have := guess_tag (raw.attr (cfg.q "rowstyle"))
    unfold infoOf at hr ⊢
    simpa [hr] using this

theorem cnt_groupRows (v : Option String) (cfg : Config) (rows : List (Node × Node)) (o o' : Open) (h : groupRows cfg o rows = .ok o') :
    cntOpen v o' ≤ cntOpen v o + cntList v (rows.map (·.2)) := by
  induction rows generalizing o with
  | nil => cases h; simp [cntList]
  | cons p rows ih =>
    obtain ⟨raw, row⟩ := p
    unfold groupRows at h
    simp only [List.map_cons, cntList]
    split at h
    · have := ih _ h
      have := cntOpen_add v row o
      omega
    · obtain ⟨n, hn, h⟩ := bind_ok h
      have := ih _ h
      have := cntOpen_add v n (o.toLevel (infoOf cfg raw).level)
      have := cntOpen_toLevel v (infoOf cfg raw).level o
      have := cnt_placedNode v hn
      omega

theorem cnt_groupChildren (v : Option String) (cfg : Config) (rows : List (Node × Node)) (g : List Node) (h : groupChildren cfg rows = .ok g) :
    cntList v g ≤ cntList v (rows.map (·.2)) := by
  unfold groupChildren at h
  obtain ⟨o, ho, h⟩ := bind_ok h
  have h1 := cnt_groupRows v cfg rows [[]] o ho
  have h2 := cntOpen_pop v (o.length - 1) o
  generalize o.pop (o.length - 1) = r at *
  split at h
  · cases h
    simp only [cntOpen, cntList] at h1 h2; omega
  · cases h; simp [cntList]

theorem cntList_sublist (v : Option String) {l l' : List Node} (h : List.Sublist l l') : cntList v l ≤ cntList v l' := by
  induction h with
  | slnil => exact Nat.le_refl _
  | cons a _ ih => simp only [cntList]; omega
  | cons_cons a _ ih => simp only [cntList]; omega

theorem zip_snd_sublist (l l' : List Node) : List.Sublist ((l.zip l').map (·.2)) l' := by
  induction l generalizing l' with
  | nil => simp
  | cons a l ih =>
    cases l' with
    | nil => simp
    | cons b l' => simpa using ih l'

mutual
theorem cnt_insertBlk (v : Option String) (cfg : Config) (n out : Node) (h : insertBlk cfg n = .ok out) : cnt v out ≤ cnt v n := by
  cases n with
  | elem t a x cs tl =>
    unfold insertBlk at h
    obtain ⟨cs', h1, h⟩ := bind_ok h
    have ih := cnt_insertBlkList v cfg cs cs' h1
    split at h
    · obtain ⟨g, hg, h⟩ := bind_ok h
      cases h
      have := cnt_groupChildren v cfg _ g hg
      have := cntList_sublist v (zip_snd_sublist cs cs')
      simp only [cnt]; omega
    · cases h; simp only [cnt]; omega
  | pi => unfold insertBlk at h; cases h; exact Nat.le_refl _
  | comment => unfold insertBlk at h; cases h; exact Nat.le_refl _
theorem cnt_insertBlkList (v : Option String) (cfg : Config) (ns out : List Node) (h : insertBlkList cfg ns = .ok out) :
    cntList v out ≤ cntList v ns := by
  cases ns with
  | nil => unfold insertBlkList at h; cases h; exact Nat.le_refl _
  | cons n ns =>
    unfold insertBlkList at h
    obtain ⟨m, h1, h⟩ := bind_ok h
    obtain ⟨ms, h2, h⟩ := bind_ok h
    cases h
    have := cnt_insertBlk v cfg n m h1
    have := cnt_insertBlkList v cfg ns ms h2
    simp only [cntList]; omega
end

/-! ### attributes -/

mutual
theorem cnt_drop (v : Option String) (cfg : Config) (b : Bool) (n : Node) : cnt v (dropNode cfg b n) = cnt v n := by
  cases n with
  | elem t a x cs tl =>
    unfold dropNode
    simp only [cnt, cnt_dropList v cfg _ cs]
    congr 1
    split
    · rename_i ht
      rw [Bool.and_eq_true, decide_eq_true_iff] at ht
      refine hasNo_erase v ?_ _ _
      rintro rfl
      exact absurd ht.2 (by decide)
    · rfl
  | pi => rfl
  | comment => rfl
theorem cnt_dropList (v : Option String) (cfg : Config) (b : Bool) (ns : List Node) : cntList v (dropList cfg b ns) = cntList v ns := by
  cases ns with
  | nil => rfl
  | cons n ns => unfold dropList; simp only [cntList, cnt_drop v cfg b n, cnt_dropList v cfg b ns]
end

theorem cnt_finalize (v : Option String) {cfg : Config} {root out : Node} (h : finalize cfg root = .ok out) : cnt v out ≤ cnt v (updateNoSeq root) := by
  unfold finalize at h
  obtain ⟨r1, h1, h⟩ := bind_ok h
  obtain ⟨r2, h2, h⟩ := bind_ok h
  cases h
  have := cnt_cleanup v (updateNoSeq root)
  have := cnt_extractGrNotes v h1
  have := cnt_insertBlk v cfg _ _ h2
  rw [cnt_drop]; omega

end Benker
