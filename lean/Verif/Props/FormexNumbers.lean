import Verif.Spec.Formex
import Verif.Model.FormexFinal
import Verif.Lemmas.Dict
import Verif.Lemmas.CalsRoundTrip
import Verif.Lemmas.FormexFinal

/-! C51: tables are numbered hierarchically. -/

namespace Benker
open FmxSpec Fmx

/-! ### the stack of counters -/

theorem modify_last (l : List Nat) (k : Nat) (g : Nat → Nat) : (l ++ [k]).modify l.length g = l ++ [g k] := by
  induction l with
  | nil => rfl
  | cons a l ih => simpa using ih

theorem bump_eq (s : List Nat) (L : Nat) (h : L ≤ s.length) : bumpStack s (L + 1) = s.take L ++ [s.getD L 0 + 1] := by
  unfold bumpStack
  have hlen : (s.take L).length = L := by simp [h]
  have key : (if s.length < L + 1 then s ++ List.replicate (L + 1 - s.length) 0 else s.take (L + 1)) = s.take L ++ [s.getD L 0] := by
    split
    · have : s.length = L := by omega
      subst this
      simp [List.getD]
    · have hl : L < s.length := by omega
      rw [List.take_add_one]
      simp [List.getD, List.getElem?_eq_getElem hl]
  simp only
  rw [key]
  have := modify_last (s.take L) (s.getD L 0) (· + 1)
  rw [hlen] at this
  simpa using this

mutual
/-- numbering without a stack: `pre` is the number of the table around, `k` the number of tables met in it -/
def num (pre : List Nat) (k : Nat) : Node → Node × Nat
  | .elem t a x cs tl =>
    if t = name "TBL" then
      (.elem t (Dict.set a (name "NO.SEQ") (noSeqText (pre ++ [k + 1]))) x (numList (pre ++ [k + 1]) 0 cs).1 tl, k + 1)
    else
      let r := numList pre k cs
      (.elem t a x r.1 tl, r.2)
  | n => (n, k)
def numList (pre : List Nat) (k : Nat) : List Node → List Node × Nat
  | [] => ([], k)
  | n :: ns =>
    let r := num pre k n
    let r' := numList pre r.2 ns
    (r.1 :: r'.1, r'.2)
end

mutual
theorem number_num (L : Nat) (s : List Nat) (h : L ≤ s.length) (n : Node) :
    (numberNode L s n).1 = (num (s.take L) (s.getD L 0) n).1 ∧ (numberNode L s n).2.take L = s.take L ∧ L ≤ (numberNode L s n).2.length ∧
      (numberNode L s n).2.getD L 0 = (num (s.take L) (s.getD L 0) n).2 := by
  cases n with
  | elem t a x cs tl =>
    unfold numberNode num
    by_cases ht : t = name "TBL"
    · rw [if_pos (show t = f "TBL" from ht), if_pos ht]
      simp only [bump_eq s L h]
      have hlen : (s.take L ++ [s.getD L 0 + 1]).length = L + 1 := by simp [h]
      obtain ⟨h1, h2, h3, _⟩ := numberList_num (L + 1) (s.take L ++ [s.getD L 0 + 1]) (by omega) cs
      have htake : (s.take L ++ [s.getD L 0 + 1]).take (L + 1) = s.take L ++ [s.getD L 0 + 1] := List.take_of_length_le (by omega)
      rw [htake] at h1 h2
      have hget : (s.take L ++ [s.getD L 0 + 1]).getD (L + 1) 0 = 0 := by
        rw [List.getD_eq_getElem?_getD, List.getElem?_eq_none (by omega)]; rfl
      rw [hget] at h1
      refine ⟨by rw [h1]; rfl, ?_, by omega, ?_⟩
      · have := congrArg (List.take L) h2
        rw [List.take_take, List.take_append_of_le_length (by simp [h]), List.take_take] at this
        simpa using this
      · have := congrArg (fun l => l.getD L 0) h2
        simp only [List.getD_eq_getElem?_getD] at this ⊢
        rw [List.getElem?_take_of_lt (by omega)] at this
        rw [this]
        simp [h]
    · rw [if_neg (show ¬ t = f "TBL" from ht), if_neg ht]
      obtain ⟨h1, h2, h3, h4⟩ := numberList_num L s h cs
      exact ⟨by simp only [h1], h2, h3, h4⟩
  | pi => exact ⟨rfl, rfl, h, rfl⟩
  | comment => exact ⟨rfl, rfl, h, rfl⟩
theorem numberList_num (L : Nat) (s : List Nat) (h : L ≤ s.length) (ns : List Node) :
    (numberList L s ns).1 = (numList (s.take L) (s.getD L 0) ns).1 ∧ (numberList L s ns).2.take L = s.take L ∧
      L ≤ (numberList L s ns).2.length ∧ (numberList L s ns).2.getD L 0 = (numList (s.take L) (s.getD L 0) ns).2 := by
  cases ns with
  | nil => exact ⟨rfl, rfl, h, rfl⟩
  | cons n ns =>
    unfold numberList numList
    obtain ⟨h1, h2, h3, h4⟩ := number_num L s h n
    obtain ⟨g1, g2, g3, g4⟩ := numberList_num L (numberNode L s n).2 h3 ns
    rw [h2, h4] at g1 g4
    exact ⟨by simp only [h1, g1], by simp only [g2, h2], g3, g4⟩
end

theorem updateNoSeq_num (root : Node) : updateNoSeq root = (num [] 0 root).1 := by
  have := (number_num 0 [] (by simp) root).1
  simpa [updateNoSeq] using this

/-! ### what the numbering does -/

theorem fourDigits_eq (n : Nat) : String.ofList (pad4 n) = fourDigits n := rfl

theorem seqText_eq (l : List Nat) : noSeqText l = seqText l := by
  unfold noSeqText
  induction l with
  | nil => rfl
  | cons n l ih =>
    cases l with
    | nil => simp [seqText, fourDigits_eq]
    | cons m l => simp only [seqText, ← ih, List.map_cons]; simp [String.intercalate_cons_cons, fourDigits_eq]

theorem seqText_snoc (pre : List Nat) (k : Nat) :
    seqText (pre ++ [k]) = if pre = [] then fourDigits k else seqText pre ++ "." ++ fourDigits k := by
  induction pre with
  | nil => rfl
  | cons n l ih =>
    cases l with
    | nil => simp [seqText]
    | cons m l =>
      simp only [List.cons_append] at ih ⊢
      rw [seqText, ih]
      simp [seqText, String.append_assoc]

mutual
theorem num_top (pre : List Nat) (k : Nat) (n : Node) :
    (num pre k n).2 = k + (topTables (num pre k n).1).length ∧
      ∀ (i : Nat) T, (topTables (num pre k n).1)[i]? = some T → T.attr (name "NO.SEQ") = some (seqText (pre ++ [k + i + 1])) := by
  cases n with
  | elem t a x cs tl =>
    unfold num
    by_cases ht : t = name "TBL"
    · rw [if_pos ht]
      simp only [topTables, if_pos ht]
      refine ⟨rfl, ?_⟩
      intro i T hT
      cases i with
      | zero =>
        simp at hT
        subst hT
        show Dict.get? (Dict.set _ _ _) _ = _
        rw [Dict.get?_set, if_pos rfl, seqText_eq]
      | succ i => simp at hT
    · rw [if_neg ht]
      simp only [topTables, if_neg ht]
      exact numList_top pre k cs
  | pi => exact ⟨rfl, by intro i T h; simp [num, topTables] at h⟩
  | comment => exact ⟨rfl, by intro i T h; simp [num, topTables] at h⟩
theorem numList_top (pre : List Nat) (k : Nat) (ns : List Node) :
    (numList pre k ns).2 = k + (topTablesList (numList pre k ns).1).length ∧
      ∀ (i : Nat) T, (topTablesList (numList pre k ns).1)[i]? = some T → T.attr (name "NO.SEQ") = some (seqText (pre ++ [k + i + 1])) := by
  cases ns with
  | nil => exact ⟨rfl, by intro i T h; simp [numList, topTablesList] at h⟩
  | cons n ns =>
    unfold numList
    obtain ⟨h1, h2⟩ := num_top pre k n
    obtain ⟨g1, g2⟩ := numList_top pre (num pre k n).2 ns
    simp only [topTablesList, List.length_append]
    refine ⟨by omega, ?_⟩
    intro i T hT
    by_cases hi : i < (topTables (num pre k n).1).length
    · rw [List.getElem?_append_left hi] at hT
      exact h2 i T hT
    · rw [List.getElem?_append_right (by omega)] at hT
      have := g2 _ T hT
      rw [this, h1]
      congr 4; omega
end

mutual
theorem num_inner (pre : List Nat) (k : Nat) (n T : Node) (hT : T ∈ allTables (num pre k n).1) :
    ∃ s, T.attr (name "NO.SEQ") = some s ∧
      ∀ (i : Nat) U, (topTablesList T.children)[i]? = some U → U.attr (name "NO.SEQ") = some (s ++ "." ++ fourDigits (i + 1)) := by
  cases n with
  | elem t a x cs tl =>
    unfold num at hT
    by_cases ht : t = name "TBL"
    · rw [if_pos ht] at hT
      simp only [allTables, if_pos ht] at hT
      rcases List.mem_cons.mp hT with rfl | hT
      · refine ⟨seqText (pre ++ [k + 1]), ?_, ?_⟩
        · show Dict.get? (Dict.set _ _ _) _ = _
          rw [Dict.get?_set, if_pos rfl, seqText_eq]
        · intro i U hU
          rw [(numList_top (pre ++ [k + 1]) 0 cs).2 i U hU, seqText_snoc (pre ++ [k + 1])]
          simp
      · exact numList_inner _ _ cs T hT
    · rw [if_neg ht] at hT
      simp only [allTables, if_neg ht] at hT
      exact numList_inner _ _ cs T hT
  | pi => simp [num, allTables] at hT
  | comment => simp [num, allTables] at hT
theorem numList_inner (pre : List Nat) (k : Nat) (ns : List Node) (T : Node) (hT : T ∈ allTablesList (numList pre k ns).1) :
    ∃ s, T.attr (name "NO.SEQ") = some s ∧
      ∀ (i : Nat) U, (topTablesList T.children)[i]? = some U → U.attr (name "NO.SEQ") = some (s ++ "." ++ fourDigits (i + 1)) := by
  cases ns with
  | nil => simp [numList, allTablesList] at hT
  | cons n ns =>
    unfold numList at hT
    simp only [allTablesList] at hT
    rcases List.mem_append.mp hT with hT | hT
    · exact num_inner _ _ n T hT
    · exact numList_inner _ _ ns T hT
end

/-- The tables which are in no other table are numbered from 1, in document order. -/
theorem C51_top_level_partial (root : Node) (i : Nat) (T : Node) (h : (topTables (updateNoSeq root))[i]? = some T) :
    T.attr (name "NO.SEQ") = some (fourDigits (i + 1)) := by
  rw [updateNoSeq_num] at h
  have := (num_top [] 0 root).2 i T h
  simpa [seqText] using this

/-- The tables directly inside a table have its number followed by their rank in it. -/
theorem C51_nested_partial (root T : Node) (hT : T ∈ allTables (updateNoSeq root)) :
    ∃ s, T.attr (name "NO.SEQ") = some s ∧
      ∀ (i : Nat) U, (topTablesList T.children)[i]? = some U → U.attr (name "NO.SEQ") = some (s ++ "." ++ fourDigits (i + 1)) := by
  rw [updateNoSeq_num] at hT
  exact num_inner [] 0 root T hT

theorem filter_set_ne (a : Dict QName String) (k : QName) (v : String) :
    (Dict.set a k v).filter (fun p => p.1 ≠ k) = a.filter (fun p => p.1 ≠ k) := by
  induction a with
  | nil => simp [Dict.set]
  | cons p a ih =>
    obtain ⟨q, w⟩ := p
    unfold Dict.set
    by_cases h : q = k
    · subst h; simp
    · simp [h]; simpa using ih

mutual
theorem num_without (pre : List Nat) (k : Nat) (n : Node) : withoutNumbers (num pre k n).1 = withoutNumbers n := by
  cases n with
  | elem t a x cs tl =>
    unfold num
    by_cases ht : t = name "TBL"
    · rw [if_pos ht]
      simp only [withoutNumbers, if_pos ht, numList_without]
      congr 1
      exact filter_set_ne a _ _
    · rw [if_neg ht]
      simp only [withoutNumbers, if_neg ht, numList_without]
  | pi => rfl
  | comment => rfl
theorem numList_without (pre : List Nat) (k : Nat) (ns : List Node) : withoutNumbersList (numList pre k ns).1 = withoutNumbersList ns := by
  cases ns with
  | nil => rfl
  | cons n ns =>
    unfold numList
    simp only [withoutNumbersList, num_without, numList_without]
end

/-- Nothing else changes in the document. -/
theorem C51_rest_unchanged (root : Node) : withoutNumbers (updateNoSeq root) = withoutNumbers root := by
  rw [updateNoSeq_num]; exact num_without [] 0 root

/-! ### uniqueness and order -/

mutual
/-- the numbers given to the tables of a node, in document order -/
def seqs (pre : List Nat) (k : Nat) : Node → List (List Nat)
  | .elem t _ _ cs _ => if t = name "TBL" then (pre ++ [k + 1]) :: seqsList (pre ++ [k + 1]) 0 cs else seqsList pre k cs
  | _ => []
def seqsList (pre : List Nat) (k : Nat) : List Node → List (List Nat)
  | [] => []
  | n :: ns => seqs pre k n ++ seqsList pre (num pre k n).2 ns
end

mutual
theorem num_seqs (pre : List Nat) (k : Nat) (n : Node) :
    (allTables (num pre k n).1).map (fun T => T.attr (name "NO.SEQ")) = (seqs pre k n).map (fun p => some (seqText p)) := by
  cases n with
  | elem t a x cs tl =>
    unfold num
    by_cases ht : t = name "TBL"
    · rw [if_pos ht]
      simp only [allTables, if_pos ht, seqs, List.map_cons, numList_seqs (pre ++ [k + 1]) 0 cs]
      congr 1
      show Dict.get? (Dict.set _ _ _) _ = _
      rw [Dict.get?_set, if_pos rfl, seqText_eq]
    · rw [if_neg ht]
      simp only [allTables, if_neg ht, seqs, numList_seqs pre k cs]
  | pi => rfl
  | comment => rfl
theorem numList_seqs (pre : List Nat) (k : Nat) (ns : List Node) :
    (allTablesList (numList pre k ns).1).map (fun T => T.attr (name "NO.SEQ")) = (seqsList pre k ns).map (fun p => some (seqText p)) := by
  cases ns with
  | nil => rfl
  | cons n ns =>
    unfold numList
    simp only [allTablesList, seqsList, List.map_append, num_seqs pre k n, numList_seqs pre _ ns]
end

/-- `p` begins with `pre`, then a component in `(k, k']` -/
def Between (pre : List Nat) (k k' : Nat) (p : List Nat) : Prop := ∃ j rest, p = pre ++ j :: rest ∧ k < j ∧ j ≤ k'

theorem seqBefore_between {pre p q : List Nat} {k k' k'' : Nat} (hp : Between pre k k' p) (hq : Between pre k' k'' q) : SeqBefore p q := by
  obtain ⟨i, r, rfl, _, h2⟩ := hp
  obtain ⟨j, s, rfl, h3, _⟩ := hq
  exact .inr ⟨pre, i, j, r, s, rfl, rfl, by omega⟩

mutual
theorem seqs_sorted (pre : List Nat) (k : Nat) (n : Node) :
    k ≤ (num pre k n).2 ∧ (∀ p ∈ seqs pre k n, Between pre k (num pre k n).2 p) ∧ (seqs pre k n).Pairwise SeqBefore := by
  cases n with
  | elem t a x cs tl =>
    unfold num
    by_cases ht : t = name "TBL"
    · obtain ⟨_, h2, h3⟩ := seqsList_sorted (pre ++ [k + 1]) 0 cs
      rw [if_pos ht]
      simp only [seqs, if_pos ht]
      refine ⟨by omega, ?_, ?_⟩
      · intro p hp
        rcases List.mem_cons.mp hp with rfl | hp
        · exact ⟨k + 1, [], rfl, by omega, by omega⟩
        · obtain ⟨j, r, rfl, _, _⟩ := h2 p hp
          exact ⟨k + 1, j :: r, by simp, by omega, by omega⟩
      · refine List.Pairwise.cons ?_ h3
        intro p hp
        obtain ⟨j, r, rfl, _, _⟩ := h2 p hp
        exact .inl ⟨j :: r, by simp, rfl⟩
    · rw [if_neg ht]
      simp only [seqs, if_neg ht]
      exact seqsList_sorted pre k cs
  | pi => exact ⟨Nat.le_refl _, (by intro p hp; cases hp), .nil⟩
  | comment => exact ⟨Nat.le_refl _, (by intro p hp; cases hp), .nil⟩
theorem seqsList_sorted (pre : List Nat) (k : Nat) (ns : List Node) :
    k ≤ (numList pre k ns).2 ∧ (∀ p ∈ seqsList pre k ns, Between pre k (numList pre k ns).2 p) ∧ (seqsList pre k ns).Pairwise SeqBefore := by
  cases ns with
  | nil => exact ⟨Nat.le_refl _, (by intro p hp; cases hp), .nil⟩
  | cons n ns =>
    unfold numList
    obtain ⟨h1, h2, h3⟩ := seqs_sorted pre k n
    obtain ⟨g1, g2, g3⟩ := seqsList_sorted pre (num pre k n).2 ns
    simp only [seqsList]
    refine ⟨by omega, ?_, List.pairwise_append.mpr ⟨h3, g3, ?_⟩⟩
    · intro p hp
      rcases List.mem_append.mp hp with hp | hp
      · obtain ⟨j, r, e, l1, l2⟩ := h2 p hp
        exact ⟨j, r, e, l1, by omega⟩
      · obtain ⟨j, r, e, l1, l2⟩ := g2 p hp
        exact ⟨j, r, e, by omega, by omega⟩
    · intro p hp q hq
      exact seqBefore_between (h2 p hp) (g2 q hq)
end

/-- The numbers follow the document order. -/
theorem C51_document_order_partial (root : Node) :
    ∃ ps : List (List Nat), ps.Pairwise SeqBefore ∧
      (allTables (updateNoSeq root)).map (fun T => T.attr (name "NO.SEQ")) = ps.map (fun p => some (seqText p)) := by
  rw [updateNoSeq_num]
  exact ⟨seqs [] 0 root, (seqs_sorted [] 0 root).2.2, num_seqs [] 0 root⟩

theorem seqBefore_ne {p q : List Nat} (h : SeqBefore p q) : p ≠ q := by
  rintro rfl
  rcases h with ⟨d, hd, h⟩ | ⟨c, i, j, p', q', h1, h2, h3⟩
  · exact hd (by simpa using h)
  · rw [h1] at h2
    have := List.append_cancel_left h2
    injection this with e _
    omega

theorem fourDigits_digits (n : Nat) : ∀ c ∈ (fourDigits n).toList, c ≠ '.' := by
  intro c hc
  unfold fourDigits at hc
  rw [String.toList_ofList] at hc
  rcases List.mem_append.mp hc with hc | hc
  · rw [(List.mem_replicate.mp hc).2]; decide
  · have := natDigits_isDigit n c hc
    rintro rfl
    revert this; decide

theorem fourDigits_inj {m n : Nat} (h : fourDigits m = fourDigits n) : m = n := by
  have hv : ∀ n, Units.digitsVal (fourDigits n).toList = n := by
    intro n
    unfold fourDigits Units.digitsVal
    rw [String.toList_ofList, Nat.ofDigitChars_append]
    have : Nat.ofDigitChars 10 (List.replicate (4 - (Nat.toDigits 10 n).length) '0') 0 = 0 := by
      generalize 4 - (Nat.toDigits 10 n).length = k
      induction k with
      | zero => rfl
      | succ k ih => rw [List.replicate_succ]; simpa [Nat.ofDigitChars] using ih
    rw [this]
    exact digitsVal_natDigits n
  rw [← hv m, h, hv n]

theorem split_dot {a b r s : List Char} (ha : ∀ c ∈ a, c ≠ '.') (hb : ∀ c ∈ b, c ≠ '.') (h : a ++ '.' :: r = b ++ '.' :: s) : a = b ∧ r = s := by
  induction a generalizing b with
  | nil =>
    cases b with
    | nil => simpa using h
    | cons d b => injection h with h1 _; exact absurd h1.symm (hb d (by simp))
  | cons c a ih =>
    cases b with
    | nil => injection h with h1 _; exact absurd h1 (ha c (by simp))
    | cons d b =>
      injection h with h1 h2
      obtain ⟨h3, h4⟩ := ih (fun c hc => ha c (by simp [hc])) (fun c hc => hb c (by simp [hc])) h2
      exact ⟨by rw [h1, h3], h4⟩

theorem seqText_inj : ∀ {p q : List Nat}, p ≠ [] → q ≠ [] → seqText p = seqText q → p = q
  | [], _, h, _, _ => absurd rfl h
  | _, [], _, h, _ => absurd rfl h
  | [m], [n], _, _, h => by rw [fourDigits_inj h]
  | [m], n :: k :: l, _, _, h => by
    exfalso
    have := congrArg String.toList h
    simp only [seqText, String.toList_append] at this
    exact fourDigits_digits m '.' (by rw [this]; simp) rfl
  | m :: k :: l, [n], _, _, h => by
    exfalso
    have := congrArg String.toList h
    simp only [seqText, String.toList_append] at this
    exact fourDigits_digits n '.' (by rw [← this]; simp) rfl
  | m :: k :: l, n :: k' :: l', _, _, h => by
    have := congrArg String.toList h
    simp only [seqText, String.toList_append] at this
    rw [List.append_assoc, List.append_assoc] at this
    obtain ⟨h1, h2⟩ := split_dot (fourDigits_digits m) (fourDigits_digits n) this
    rw [fourDigits_inj (String.toList_inj.mp h1), seqText_inj (p := k :: l) (q := k' :: l') (by simp) (by simp) (String.toList_inj.mp h2)]

/-- Two different tables are given different numbers. -/
theorem numbers_nodup (root : Node) : ((allTables (updateNoSeq root)).map (fun T => T.attr (name "NO.SEQ"))).Nodup := by
  rw [updateNoSeq_num, num_seqs]
  unfold List.Nodup
  rw [List.pairwise_map]
  have h := seqs_sorted [] 0 root
  refine (List.Pairwise.imp_of_mem ?_ h.2.2)
  intro p q hp hq hpq e
  obtain ⟨i, r, rfl, _⟩ := h.2.1 p hp
  obtain ⟨j, s, rfl, _⟩ := h.2.1 q hq
  injection e with e
  exact seqBefore_ne hpq (seqText_inj (by simp) (by simp) e)

/-- In the finalised document two different tables have different numbers. -/
theorem C51_unique (cfg : Config) (root out : Node) (h : finalize cfg root = .ok out) :
    ((allTables out).map (fun T => T.attr (name "NO.SEQ"))).Nodup := by
  rw [List.nodup_iff_count]
  intro v
  rw [count_allTables]
  have h1 := cnt_finalize v h
  have h2 := List.nodup_iff_count.mp (numbers_nodup root) v
  rw [count_allTables] at h2
  omega

/-- two tables, the first with two inner tables -/
def numbersDemo : Node :=
  let tbl := fun (cs : List Node) => Node.elem (name "TBL") [] none cs none
  .elem (name "DOC") [] none [tbl [.elem (name "CORPUS") [] none [tbl [], tbl []] none], .elem (name "P") [] none [tbl []] none] none

example : (allTables (updateNoSeq numbersDemo)).map (fun T => T.attr (name "NO.SEQ")) =
    [some "0001", some "0001.0001", some "0001.0002", some "0002"] := by
  decide +kernel

example : (match finalize ⟨false, false, none, "mm".toList, id⟩ numbersDemo with
    | .ok out => (allTables out).map (fun T => T.attr (name "NO.SEQ")) == [some "0001", some "0001.0001", some "0001.0002", some "0002"]
    | .error _ => false) = true := by
  decide +kernel

/-! ### after the inner tables have been opened

`finalize_tree` numbers the tables before it replaces a table which is the child of a table by its children: the tables which were inside keep the number
they had, which is then longer than their nesting.  The theorems above about the ranks are those of the numbering step (hence `_partial`). -/

/-- a table which is the child of a table, and contains a table -/
def nestedChild : Node :=
  let tbl := fun (cs : List Node) => Node.elem (name "TBL") [] none cs none
  .elem (name "DOC") [] none [tbl [tbl [.elem (name "CORPUS") [] none [tbl []] none]]] none

/-- In the finalised document the number of a table is not always that of the enclosing table followed by its rank. -/
theorem C51_counterexample :
    (allTables (cleanupNode (updateNoSeq nestedChild))).map (fun T => T.attr (name "NO.SEQ")) = [some "0001", some "0001.0001.0001"] := by
  decide +kernel

mutual
/-- no table is the child of a table -/
def noChildTable (inTable : Bool) : Node → Bool
  | .elem t _ _ cs _ => !(inTable && t = name "TBL") && noChildTableList (t = name "TBL") cs
  | _ => true
def noChildTableList (inTable : Bool) : List Node → Bool
  | [] => true
  | n :: ns => noChildTable inTable n && noChildTableList inTable ns
end

mutual
theorem cleanupNode_id (b : Bool) (n : Node) (h : noChildTable b n = true) : cleanupNode n = n := by
  cases n with
  | elem t a x cs tl =>
    unfold noChildTable at h
    rw [Bool.and_eq_true] at h
    unfold cleanupNode
    by_cases ht : t = name "TBL"
    · rw [if_pos (show t = f "TBL" from ht), cleanupInTable_id cs (by simpa [ht] using h.2)]
    · rw [if_neg (show ¬ t = f "TBL" from ht), cleanupList_id false cs (by simpa [ht] using h.2)]
  | pi => rfl
  | comment => rfl
theorem cleanupList_id (b : Bool) (ns : List Node) (h : noChildTableList b ns = true) : cleanupList ns = ns := by
  cases ns with
  | nil => rfl
  | cons n ns =>
    unfold noChildTableList at h
    rw [Bool.and_eq_true] at h
    unfold cleanupList
    rw [cleanupNode_id b n h.1, cleanupList_id b ns h.2]
theorem cleanupInTable_id (ns : List Node) (h : noChildTableList true ns = true) : cleanupInTable ns = ns := by
  cases ns with
  | nil => rfl
  | cons n ns =>
    unfold noChildTableList at h
    rw [Bool.and_eq_true] at h
    have h2 := cleanupInTable_id ns h.2
    cases n with
    | elem t a x cs tl =>
      have h1 := h.1
      unfold noChildTable at h1
      rw [Bool.and_eq_true] at h1
      have ht : ¬ t = name "TBL" := by intro e; simp [e] at h1
      unfold cleanupInTable
      rw [if_neg (show ¬ t = f "TBL" from ht), h2, cleanupList_id false cs (by simpa [ht] using h1.2)]
    | pi => unfold cleanupInTable; rw [h2]
    | comment => unfold cleanupInTable; rw [h2]
end

mutual
theorem noChildTable_num (pre : List Nat) (k : Nat) (b : Bool) (n : Node) : noChildTable b (num pre k n).1 = noChildTable b n := by
  cases n with
  | elem t a x cs tl =>
    unfold num
    split
    · simp only [noChildTable, noChildTableList_num]
    · simp only [noChildTable, noChildTableList_num]
  | pi => rfl
  | comment => rfl
theorem noChildTableList_num (pre : List Nat) (k : Nat) (b : Bool) (ns : List Node) :
    noChildTableList b (numList pre k ns).1 = noChildTableList b ns := by
  cases ns with
  | nil => rfl
  | cons n ns =>
    unfold numList
    simp only [noChildTableList, noChildTable_num, noChildTableList_num]
end

/-- When no table is the child of a table, the step which opens such tables changes nothing: the numbers stay hierarchical. -/
theorem C51_cleanup_neutral (root : Node) (h : noChildTable false root = true) : cleanupNode (updateNoSeq root) = updateNoSeq root := by
  rw [updateNoSeq_num]
  exact cleanupNode_id false _ (by rw [noChildTable_num]; exact h)

example : noChildTable false numbersDemo = true := by decide +kernel

end Benker
