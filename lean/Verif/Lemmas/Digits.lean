import Verif.Spec.Digits
import Verif.Model.Parser
import Verif.Lemmas.Regex

/-! Numbers read in texts. -/

namespace Benker
open CalsSpec

theorem mem_takeWhile {α : Type} {p : α → Bool} {l : List α} {c : α} (h : c ∈ l.takeWhile p) : p c = true := by
  induction l with
  | nil => cases h
  | cons a l ih =>
    rw [List.takeWhile_cons] at h
    split at h
    · rcases List.mem_cons.mp h with rfl | h
      · assumption
      · exact ih h
    · cases h

namespace Unicode

theorem isDigit_iff {c : Char} : isDigit c = true ↔ IsDigit c := Option.isSome_iff_exists

instance (c : Char) : Decidable (IsDigit c) := decidable_of_iff (isDigit c = true) isDigit_iff

theorem value_eq (ds : List Char) : value ds = CalsSpec.decimal ds := rfl

theorem decimal_zero {c : Char} {d : Nat} (h : decimal c = some d) : ∃ z ∈ zeros, z ≤ c.toNat ∧ c.toNat < z + 10 ∧ d = c.toNat - z := by
  unfold decimal at h
  obtain ⟨z, hz, rfl⟩ := Option.map_eq_some_iff.mp h
  have h1 := List.find?_some hz
  simp only [Bool.and_eq_true, decide_eq_true_eq] at h1
  exact ⟨z, List.mem_of_find?_eq_some hz, h1.1, h1.2, rfl⟩

theorem apart : ∀ z ∈ zeros, ∀ s ∈ spaces, s < z ∨ z + 10 ≤ s := by decide +kernel

theorem digit_not_space {c : Char} (h : IsDigit c) : isSpace c = false := by
  obtain ⟨d, h⟩ := h
  obtain ⟨z, hz, h1, h2, _⟩ := decimal_zero h
  cases hs : isSpace c with
  | false => rfl
  | true =>
    have := apart z hz _ (List.contains_iff_mem.mp hs)
    omega

/-- the ASCII digits -/
theorem decimal_ascii {c : Char} (h : c.isDigit = true) : decimal c = some (c.toNat - 48) := by
  have h' : 48 ≤ c.toNat ∧ c.toNat ≤ 57 := by
    simp only [Char.isDigit, Bool.and_eq_true, decide_eq_true_eq] at h
    exact ⟨h.1, h.2⟩
  unfold decimal zeros
  rw [List.find?_cons_of_pos (by simp only [Bool.and_eq_true, decide_eq_true_eq]; omega)]
  rfl

theorem isDigit_ascii {c : Char} (h : c.isDigit = true) : IsDigit c := ⟨_, decimal_ascii h⟩

theorem value_ascii {ds : List Char} (h : ∀ c ∈ ds, c.isDigit = true) : value ds = Units.digitsVal ds := by
  have key : ∀ (l : List Char) (v : Nat), (∀ c ∈ l, c.isDigit = true) →
      l.foldl (fun v c => 10 * v + (decimal c).getD 0) v = l.foldl (fun v c => 10 * v + (c.toNat - '0'.toNat)) v := by
    intro l
    induction l with
    | nil => intro v _; rfl
    | cons c l ih =>
      intro v h
      simp only [List.foldl_cons]
      rw [ih _ (fun c hc => h c (by simp [hc])), decimal_ascii (h c (by simp))]
      rfl
  unfold value Units.digitsVal
  rw [key _ _ h, Nat.ofDigitChars_eq_foldl]

/-! ### groups of digits -/

theorem digits_underscore : decimal '_' = none := by decide +kernel

theorem digit_ne {c : Char} (h : IsDigit c) : c ≠ '_' ∧ c ≠ '-' ∧ c ≠ '+' := by
  refine ⟨?_, ?_, ?_⟩ <;> (rintro rfl; obtain ⟨d, h⟩ := h; revert h; rw [show decimal _ = none by decide +kernel]; intro h; cases h)

theorem grouped_digits {l : List Char} (h : grouped l = true) : Digits l (l.filter (· ≠ '_')) := by
  fun_induction grouped l with
  | case1 => cases h
  | case2 c =>
    have hc := isDigit_iff.mp h
    rw [List.filter_cons_of_pos (by simpa using (digit_ne hc).1)]
    exact .one c hc
  | case3 c r ih =>
    simp only [Bool.and_eq_true] at h
    have hc := isDigit_iff.mp h.1
    rw [List.filter_cons_of_pos (by simpa using (digit_ne hc).1), List.filter_cons_of_neg (by simp)]
    exact .under c _ _ hc (ih h.2)
  | case4 c r _ _ ih =>
    simp only [Bool.and_eq_true] at h
    have hc := isDigit_iff.mp h.1
    rw [List.filter_cons_of_pos (by simpa using (digit_ne hc).1)]
    exact .more c _ _ hc (ih h.2)

theorem digits_grouped {l ds : List Char} (h : Digits l ds) : grouped l = true ∧ l.filter (· ≠ '_') = ds := by
  induction h with
  | one c h =>
    refine ⟨isDigit_iff.mpr h, ?_⟩
    rw [List.filter_cons_of_pos (by simpa using (digit_ne h).1)]; rfl
  | more c text ds h hs ih =>
    refine ⟨?_, ?_⟩
    · cases hs with
      | one c' h' => rw [grouped.eq_4 _ _ (by simp) (by intro r; simp; exact fun e => absurd e (digit_ne h').1)]; simp [isDigit_iff.mpr h, ih.1]
      | more c' _ _ h' => rw [grouped.eq_4 _ _ (by simp) (by intro r; simp; exact fun e => absurd e (digit_ne h').1)]; simp [isDigit_iff.mpr h, ih.1]
      | under c' _ _ h' => rw [grouped.eq_4 _ _ (by simp) (by intro r; simp; exact fun e => absurd e (digit_ne h').1)]; simp [isDigit_iff.mpr h, ih.1]
    · rw [List.filter_cons_of_pos (by simpa using (digit_ne h).1), ih.2]
  | under c text ds h hs ih =>
    refine ⟨by rw [grouped.eq_3]; simp [isDigit_iff.mpr h, ih.1], ?_⟩
    rw [List.filter_cons_of_pos (by simpa using (digit_ne h).1), List.filter_cons_of_neg (by simp), ih.2]

theorem digits_first {l ds : List Char} (h : Digits l ds) : ∃ c r, l = c :: r ∧ IsDigit c := by
  cases h with
  | one c h => exact ⟨c, [], rfl, h⟩
  | more c t _ h => exact ⟨c, t, rfl, h⟩
  | under c t _ h => exact ⟨c, '_' :: t, rfl, h⟩

theorem digits_last {l ds : List Char} (h : Digits l ds) : ∃ r c, l = r ++ [c] ∧ IsDigit c := by
  induction h with
  | one c h => exact ⟨[], c, rfl, h⟩
  | more c t _ h _ ih => obtain ⟨r, c', rfl, hc⟩ := ih; exact ⟨c :: r, c', rfl, hc⟩
  | under c t _ h _ ih => obtain ⟨r, c', rfl, hc⟩ := ih; exact ⟨c :: '_' :: r, c', rfl, hc⟩

/-! ### spaces around -/

theorem dropWhile_all {p : Char → Bool} {pre l : List Char} (h : ∀ c ∈ pre, p c = true) : (pre ++ l).dropWhile p = l.dropWhile p := by
  induction pre with
  | nil => rfl
  | cons c pre ih =>
    rw [List.cons_append, List.dropWhile_cons, if_pos (h c (by simp))]
    exact ih (fun c hc => h c (by simp [hc]))

theorem strip_spaces {pre mid post : List Char} (h : ∀ c ∈ pre ++ post, isSpace c = true)
    (h1 : ∀ c ∈ mid.head?, isSpace c = false) (h2 : ∀ c ∈ mid.getLast?, isSpace c = false) (hne : mid ≠ []) : strip (pre ++ mid ++ post) = mid := by
  unfold strip
  rw [List.append_assoc, dropWhile_all (fun c hc => h c (by simp [hc]))]
  have e1 : (mid ++ post).dropWhile isSpace = mid ++ post := by
    cases mid with
    | nil => exact absurd rfl hne
    | cons c r => rw [List.cons_append, List.dropWhile_cons, if_neg (by simp [h1 c rfl])]
  rw [e1, List.reverse_append, dropWhile_all (fun c hc => h c (by simp [List.mem_reverse.mp hc]))]
  have e2 : mid.reverse.dropWhile isSpace = mid.reverse := by
    cases hm : mid.reverse with
    | nil => rfl
    | cons c r =>
      have : mid.getLast? = some c := by rw [← List.head?_reverse, hm]; rfl
      rw [List.dropWhile_cons, if_neg (by simp [h2 c this])]
  rw [e2, List.reverse_reverse]

theorem strip_text (l : List Char) : ∃ pre post, l = pre ++ strip l ++ post ∧ ∀ c ∈ pre ++ post, isSpace c = true := by
  refine ⟨l.takeWhile isSpace, ((l.dropWhile isSpace).reverse.takeWhile isSpace).reverse, ?_, ?_⟩
  · unfold strip
    rw [List.append_assoc, ← List.reverse_append, List.takeWhile_append_dropWhile, List.reverse_reverse, List.takeWhile_append_dropWhile]
  · intro c hc
    rcases List.mem_append.mp hc with hc | hc
    · exact mem_takeWhile hc
    · exact mem_takeWhile (List.mem_reverse.mp hc)

end Unicode

/-! ### integers -/

theorem intDigits_ok {l : List Char} {n : Nat} : intDigits l = .ok n ↔ ∃ ds, Digits l ds ∧ n = decimal ds := by
  unfold intDigits
  constructor
  · intro h
    split at h
    · rename_i hg
      exact ⟨_, Unicode.grouped_digits hg, (Except.ok.inj h).symm⟩
    · cases h
  · rintro ⟨ds, h, rfl⟩
    obtain ⟨h1, h2⟩ := Unicode.digits_grouped h
    rw [if_pos h1, h2]; rfl

theorem map_ok {f : Nat → Int} {e : Except PyErr Nat} {n : Int} : e.map f = .ok n ↔ ∃ k, e = .ok k ∧ n = f k := by
  cases e with
  | error e => exact ⟨fun h => (by cases h), fun ⟨_, h, _⟩ => (by cases h)⟩
  | ok k => exact ⟨fun h => ⟨k, rfl, (Except.ok.inj h).symm⟩, fun ⟨_, h, e⟩ => by cases h; rw [e]; rfl⟩

/-- `int` accepts the texts which are integers -/
theorem pyInt_iff {s : String} {n : Int} : pyInt s = .ok n ↔ IsInteger s n := by
  constructor
  · intro h
    obtain ⟨pre, post, e, hsp⟩ := Unicode.strip_text s.toList
    unfold pyInt at h
    split at h
    · rename_i l hl
      obtain ⟨k, hk, rfl⟩ := map_ok.mp h
      obtain ⟨ds, hd, rfl⟩ := intDigits_ok.mp hk
      exact ⟨pre, ['-'], l, ds, post, by rw [hl] at e; exact e, hsp, hd, .inr ⟨rfl, rfl⟩⟩
    · rename_i l hl
      obtain ⟨k, hk, rfl⟩ := map_ok.mp h
      obtain ⟨ds, hd, rfl⟩ := intDigits_ok.mp hk
      exact ⟨pre, ['+'], l, ds, post, by rw [hl] at e; exact e, hsp, hd, .inl ⟨.inr rfl, rfl⟩⟩
    · obtain ⟨k, hk, rfl⟩ := map_ok.mp h
      obtain ⟨ds, hd, rfl⟩ := intDigits_ok.mp hk
      exact ⟨pre, [], _, ds, post, e, hsp, hd, .inl ⟨.inl rfl, rfl⟩⟩
  · rintro ⟨pre, sign, text, ds, post, e, hsp, hd, hn⟩
    obtain ⟨c, r, e1, hc⟩ := Unicode.digits_first hd
    obtain ⟨r', c', e2, hc'⟩ := Unicode.digits_last hd
    have hi := intDigits_ok.mpr ⟨ds, hd, rfl⟩
    have hlast : ∀ sg : List Char, ∀ x ∈ (sg ++ text).getLast?, Unicode.isSpace x = false := by
      intro sg x hx
      rw [e2, ← List.append_assoc, List.getLast?_concat] at hx
      cases hx
      exact Unicode.digit_not_space hc'
    have hs : Unicode.strip s.toList = sign ++ text := by
      rw [e]
      refine Unicode.strip_spaces hsp ?_ (hlast sign) (by rw [e1]; simp)
      rcases hn with ⟨rfl | rfl, _⟩ | ⟨rfl, _⟩
      · rw [e1]; intro x hx; cases hx; exact Unicode.digit_not_space hc
      · intro x hx; cases hx; decide +kernel
      · intro x hx; cases hx; decide +kernel
    unfold pyInt
    rw [hs]
    rcases hn with ⟨rfl | rfl, rfl⟩ | ⟨rfl, rfl⟩
    · rw [List.nil_append]
      split
      · exact absurd (List.cons.inj e1).1.symm (Unicode.digit_ne hc).2.1
      · exact absurd (List.cons.inj e1).1.symm (Unicode.digit_ne hc).2.2
      · rw [hi]; rfl
    · show (intDigits text).map _ = _; rw [hi]; rfl
    · show (intDigits text).map _ = _; rw [hi]; rfl

theorem digits_ascii {l : List Char} (hne : l ≠ []) (h : ∀ c ∈ l, c.isDigit = true) : Digits l l := by
  induction l with
  | nil => exact absurd rfl hne
  | cons c l ih =>
    cases l with
    | nil => exact .one c (Unicode.isDigit_ascii (h c (by simp)))
    | cons c' l => exact .more c _ _ (Unicode.isDigit_ascii (h c (by simp))) (ih (by simp) (fun x hx => h x (by simp [List.mem_cons.mp hx])))

/-- a text of ASCII digits is a number -/
theorem isNumber_ascii {s : String} (hne : s.toList ≠ []) (h : ∀ c ∈ s.toList, c.isDigit = true) : IsNumber s (Units.digitsVal s.toList) :=
  ⟨[], [], s.toList, s.toList, [], by simp, by simp, digits_ascii hne h, .inl ⟨.inl rfl, by rw [← Unicode.value_eq, Unicode.value_ascii h]⟩⟩

theorem isNumber_ne {s : String} {n : Nat} (h : IsNumber s n) : s ≠ "" := by
  obtain ⟨pre, sign, text, ds, post, e, _, hd, _⟩ := h
  rintro rfl
  obtain ⟨c, r, rfl, _⟩ := Unicode.digits_first hd
  have e := congrArg List.length e
  simp at e

theorem pyInt_number {s : String} {n : Nat} (h : IsNumber s n) : pyInt s = .ok (n : Int) := pyInt_iff.mpr h

theorem pyInt_ok {s : String} {n : Int} (h : pyInt s = .ok n) : IsInteger s n := pyInt_iff.mp h

/-! ### the first number of a text -/

theorem notDigit {c : Char} (h : ¬ IsDigit c) : Unicode.isDigit c = false := Bool.eq_false_iff.mpr (fun h' => h (Unicode.isDigit_iff.mp h'))

theorem firstInt_number {s : String} {n : Nat} (h : FirstNumber s n) : firstInt s = .ok (n : Int) := by
  obtain ⟨pre, ds, post, h1, h2, h3, h4, h5, h6⟩ := h
  unfold firstInt
  have : Re.find1 (Re.plus Unicode.isDigit) s.toList = some ds := by
    rw [h1]
    unfold Re.find1
    rw [List.append_assoc, Re.search_skip]
    · obtain ⟨tl, h⟩ := Re.plus_run Unicode.isDigit ds post h3 (fun c hc => Unicode.isDigit_iff.mpr (h4 c hc)) (by
        intro c r e
        subst e
        exact notDigit (h5 c (by simp)))
      exact Re.search_head _ _ _ (tl.map (·.1)) (by rw [h]; rfl)
    · intro a b e hb
      rw [Re.plus_stop]
      · rfl
      · cases b with
        | nil => exact absurd rfl hb
        | cons c b =>
          intro c' r e'
          cases e'
          exact notDigit (h2 c (by rw [e]; simp))
  rw [this]
  show Except.ok ((Unicode.value ds : Nat) : Int) = _
  rw [Unicode.value_eq, h6]

theorem firstInt_ok {s : String} {n : Int} (h : firstInt s = .ok n) : ∃ k : Nat, n = k ∧ FirstNumber s k := by
  let pre := s.toList.takeWhile (fun c => ! Unicode.isDigit c)
  let rest := s.toList.dropWhile (fun c => ! Unicode.isDigit c)
  let ds := rest.takeWhile Unicode.isDigit
  let post := rest.dropWhile Unicode.isDigit
  have e1 : s.toList = pre ++ rest := (List.takeWhile_append_dropWhile).symm
  have e2 : rest = ds ++ post := (List.takeWhile_append_dropWhile).symm
  have hpre : ∀ c ∈ pre, Unicode.isDigit c = false := by
    intro c hc
    have := mem_takeWhile hc
    simpa using this
  have hrest : rest = [] ∨ ∃ c r, rest = c :: r ∧ Unicode.isDigit c = true := by
    cases hr : rest with
    | nil => exact .inl rfl
    | cons c r =>
      refine .inr ⟨c, r, rfl, ?_⟩
      have := List.head?_dropWhile_not (fun c : Char => ! Unicode.isDigit c) s.toList
      have hh : (List.dropWhile (fun c => ! Unicode.isDigit c) s.toList).head? = some c := by
        show rest.head? = _
        rw [hr]; rfl
      rw [hh] at this
      simpa using this
  rcases hrest with hr | ⟨c, r, hr, hc⟩
  · exfalso
    unfold firstInt at h
    have : Re.find1 (Re.plus Unicode.isDigit) s.toList = none := by
      rw [e1]
      unfold Re.find1
      rw [Re.search_skip]
      · rw [hr]; rfl
      · intro a b e hb
        rw [Re.plus_stop]
        · rfl
        · rw [hr, List.append_nil]
          intro c' r' e'
          subst e'
          exact hpre c' (by rw [e]; simp)
    rw [this] at h
    cases h
  · have hf : FirstNumber s (decimal ds) := by
      refine ⟨pre, ds, post, by rw [List.append_assoc, ← e2]; exact e1, fun c hc h' => ?_, ?_, ?_, ?_, rfl⟩
      · have := hpre c hc
        rw [Unicode.isDigit_iff.mpr h'] at this
        cases this
      · show List.takeWhile _ rest ≠ []
        rw [hr, List.takeWhile_cons, if_pos hc]; simp
      · intro c hc; exact Unicode.isDigit_iff.mp (mem_takeWhile hc)
      · intro c hc h'
        have := List.head?_dropWhile_not Unicode.isDigit rest
        have hh : (List.dropWhile Unicode.isDigit rest).head? = some c := hc
        rw [hh] at this
        have this : Unicode.isDigit c = false := this
        rw [Unicode.isDigit_iff.mpr h'] at this
        cases this
    have := firstInt_number hf
    rw [h] at this
    exact ⟨_, Except.ok.inj this, hf⟩

end Benker
