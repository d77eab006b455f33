import Verif.Lemmas.Alphabet

/-! Properties C01, C02, C03: column labels. -/

namespace Benker
variable {α : Type}

/-- Spec: `a` comes before `b` in the alphabet. -/
def Precedes (alphabet : List α) (a b : α) : Prop :=
  ∃ i j : Nat, i < j ∧ alphabet[i]? = some a ∧ alphabet[j]? = some b

/-- Spec: spreadsheet order of words: shorter first, words of the same length compared
letter by letter from the left. -/
inductive LexBefore (alphabet : List α) : List α → List α → Prop
  | head {a b : α} {u v : List α} : Precedes alphabet a b → LexBefore alphabet (a :: u) (b :: v)
  | tail {a : α} {u v : List α} : LexBefore alphabet u v → LexBefore alphabet (a :: u) (a :: v)

def LabelBefore (alphabet u v : List α) : Prop :=
  u.length < v.length ∨ (u.length = v.length ∧ LexBefore alphabet u v)

/-- **C01.** Encoding a non-negative integer succeeds, uses letters of the alphabet only, and decoding gives the integer back. -/
theorem C01_label_roundtrip [DecidableEq α] (alphabet : List α) (hne : alphabet ≠ [])
    (hnd : alphabet.Nodup) (n : Nat) :
    ∃ w, intToAlphabet (n : Int) alphabet = .ok w ∧ (∀ c ∈ w, c ∈ alphabet) ∧
      alphabetToInt w alphabet = .ok n := by
  obtain ⟨w, hw, hmem⟩ := loop_ok alphabet hne n []
  rw [← intToAlphabet_eq_loop alphabet hne] at hw
  simp only [List.append_nil] at hw
  refine ⟨w, hw, hmem, ?_⟩
  rw [intToAlphabet_eq_loop alphabet hne] at hw
  have := from_loop alphabet hne hnd n [] w hw
  rw [alphabetToInt, this]; rfl

/-- **C01.** Encoding raises exactly on negative integers, and then raises `ValueError`. -/
theorem C01_label_error (alphabet : List α) (hne : alphabet ≠ []) (n : Int) :
    (intToAlphabet n alphabet = .error .valueError ↔ n < 0) ∧
    ((∃ e, intToAlphabet n alphabet = .error e) ↔ n < 0) := by
  rcases Int.lt_or_le n 0 with h | h
  · have : intToAlphabet n alphabet = .error .valueError := by
      unfold intToAlphabet; rw [if_neg (by omega), if_pos h]
    simp [this, h]
  · obtain ⟨m, rfl⟩ := Int.eq_ofNat_of_zero_le h
    obtain ⟨w, hw, _⟩ := loop_ok alphabet hne m []
    rw [← intToAlphabet_eq_loop alphabet hne] at hw
    have hm : ¬ ((m : Int) < 0) := by omega
    simp [hw, hm]

/-- The default alphabet meets the hypotheses. -/
example : asciiUppercase ≠ [] ∧ asciiUppercase.Nodup ∧ asciiUppercase.length = 26 := by decide
example : intToAlphabet 28 asciiUppercase = .ok ['A', 'B'] ∧
    alphabetToInt ['A', 'B'] asciiUppercase = .ok 28 := by
  refine ⟨?_, by decide⟩
  have h := intToAlphabet_eq_loop asciiUppercase (by decide) 28
  have h2 := loop_from asciiUppercase (by decide) ['A', 'B'] 0 28 [] (by decide)
  exact h.trans (h2.trans (loop_zero _ _))

/-- **C02.** Decoding a word over the alphabet succeeds and encoding the result gives the word back. -/
theorem C02_word_roundtrip [DecidableEq α] (alphabet : List α) (hne : alphabet ≠ [])
    (w : List α) (hw : ∀ c ∈ w, c ∈ alphabet) :
    ∃ n, alphabetToInt w alphabet = .ok n ∧ intToAlphabet (n : Int) alphabet = .ok w := by
  rcases from_ok_or alphabet w 0 with ⟨n, hn⟩ | h
  · refine ⟨n, hn, ?_⟩
    rw [intToAlphabet_eq_loop alphabet hne, loop_from alphabet hne w 0 n [] hn, loop_zero]; simp
  · obtain ⟨c, hc, hc'⟩ := (from_error alphabet w 0).mp h
    exact absurd (hw c hc) hc'

/-- **C02.** Decoding raises exactly on words with a letter outside the alphabet, and raises `ValueError`. -/
theorem C02_word_error [DecidableEq α] (alphabet w : List α) :
    (alphabetToInt w alphabet = .error .valueError ↔ ∃ c ∈ w, c ∉ alphabet) ∧
    ((∃ e, alphabetToInt w alphabet = .error e) ↔ ∃ c ∈ w, c ∉ alphabet) := by
  refine ⟨from_error alphabet w 0, ?_⟩
  constructor
  · rintro ⟨e, he⟩
    rcases from_ok_or alphabet w 0 with ⟨n, hn⟩ | h
    · rw [alphabetToInt] at he; rw [hn] at he; cases he
    · exact (from_error alphabet w 0).mp h
  · intro h; exact ⟨_, (from_error alphabet w 0).mpr h⟩

theorem upper_index (c : Char) : asciiUppercase.findIdx? (· = c) = if 'A' ≤ c ∧ c ≤ 'Z' then some (c.toNat - 65) else none := by
  split
  · next h =>
    have h1 : 65 ≤ c.toNat := h.1
    have h2 : c.toNat ≤ 90 := h.2
    have : c = Char.ofNat c.toNat := (Char.ofNat_toNat c).symm
    have hall : ∀ k, k < 26 → asciiUppercase.findIdx? (· = Char.ofNat (65 + k)) = some k := by decide +kernel
    have := hall (c.toNat - 65) (by omega)
    rwa [show 65 + (c.toNat - 65) = c.toNat by omega, Char.ofNat_toNat] at this
  · next h =>
    rw [List.findIdx?_eq_none_iff]
    intro x hx
    have hall : ∀ x ∈ asciiUppercase, 'A' ≤ x ∧ x ≤ 'Z' := by decide
    exact decide_eq_false (fun e => h (e ▸ hall x hx))

/-- **C02.** By default the words are those of the letters from A to Z, which are the digits 1 to 26 of a number in base 26. -/
theorem C02_default (w : List Char) :
    ((∀ c ∈ w, 'A' ≤ c ∧ c ≤ 'Z') → alphabetToInt w asciiUppercase = .ok (w.foldl (fun v c => 26 * v + (c.toNat - 'A'.toNat + 1)) 0)) ∧
    ((∃ c ∈ w, ¬ ('A' ≤ c ∧ c ≤ 'Z')) → alphabetToInt w asciiUppercase = .error .valueError) := by
  have h26 : asciiUppercase.length = 26 := by decide
  unfold alphabetToInt
  generalize 0 = v
  induction w generalizing v with
  | nil => exact ⟨fun _ => rfl, fun ⟨_, h, _⟩ => (by cases h)⟩
  | cons c w ih =>
    simp only [alphabetToIntFrom, upper_index, h26, List.foldl_cons]
    by_cases hc : 'A' ≤ c ∧ c ≤ 'Z'
    · rw [if_pos hc]
      simp only
      rw [show v * 26 + (c.toNat - 65 + 1) = 26 * v + (c.toNat - 'A'.toNat + 1) by rw [Nat.mul_comm]; rfl]
      refine ⟨fun h => (ih _).1 (fun x hx => h x (List.mem_cons_of_mem _ hx)), fun ⟨x, hx, h⟩ => ?_⟩
      rcases List.mem_cons.mp hx with rfl | hx
      · exact absurd hc h
      · exact (ih _).2 ⟨x, hx, h⟩
    · rw [if_neg hc]
      exact ⟨fun h => absurd (h c (List.mem_cons_self ..)) hc, fun _ => rfl⟩

example : (∀ c ∈ ['Z', 'A', 'Q'], c ∈ asciiUppercase) ∧ (∃ c ∈ ['A', '@'], c ∉ asciiUppercase) := by decide

theorem lexBefore_lt [DecidableEq α] (alphabet : List α) (hnd : alphabet.Nodup) :
    ∀ (u v : List α) (s m n : Nat), u.length = v.length → LexBefore alphabet u v →
      alphabetToIntFrom alphabet s u = .ok m → alphabetToIntFrom alphabet s v = .ok n → m < n := by
  intro u v s m n hl h
  induction h generalizing s with
  | @head a b u v hp =>
    intro h1 h2
    obtain ⟨i, j, hij, ha, hb⟩ := hp
    simp only [alphabetToIntFrom, findIdx_of_getElem? alphabet hnd _ _ ha,
      findIdx_of_getElem? alphabet hnd _ _ hb] at h1 h2
    exact from_lt alphabet u v _ _ m n (by simpa using hl) (by omega) h1 h2
  | @tail a u v _ ih =>
    intro h1 h2
    rw [alphabetToIntFrom] at h1 h2
    split at h1
    · cases h1
    · rename_i i hi
      simp only [hi] at h2
      exact ih _ (by simpa using hl) h1 h2

theorem lex_total [DecidableEq α] (alphabet : List α) : ∀ (u v : List α), (∀ c ∈ u, c ∈ alphabet) → (∀ c ∈ v, c ∈ alphabet) →
    u.length = v.length → u = v ∨ LexBefore alphabet u v ∨ LexBefore alphabet v u := by
  intro u
  induction u with
  | nil => intro v _ _ hl; left; cases v with | nil => rfl | cons => simp at hl
  | cons a u ih =>
    intro v hu hv hl
    cases v with
    | nil => simp at hl
    | cons b v =>
      by_cases hab : a = b
      · subst hab
        rcases ih v (fun c hc => hu c (by simp [hc])) (fun c hc => hv c (by simp [hc])) (by simpa using hl) with h | h | h
        · left; rw [h]
        · exact .inr (.inl (.tail h))
        · exact .inr (.inr (.tail h))
      · obtain ⟨i, hi, ha⟩ := List.mem_iff_getElem.mp (hu a (by simp))
        obtain ⟨j, hj, hb⟩ := List.mem_iff_getElem.mp (hv b (by simp))
        rcases Nat.lt_trichotomy i j with h | h | h
        · exact .inr (.inl (.head ⟨i, j, h, by simp [hi, ha], by simp [hj, hb]⟩))
        · subst h; exact absurd (ha.symm.trans hb) hab
        · exact .inr (.inr (.head ⟨j, i, h, by simp [hj, hb], by simp [hi, ha]⟩))

/-- **C03.** Labels are in spreadsheet order: `m < n` iff the label of `m` comes before the label of `n`. -/
theorem C03_label_order [DecidableEq α] (alphabet : List α) (hne : alphabet ≠ [])
    (hnd : alphabet.Nodup) (m n : Nat) (u v : List α)
    (hu : intToAlphabet (m : Int) alphabet = .ok u) (hv : intToAlphabet (n : Int) alphabet = .ok v) :
    m < n ↔ LabelBefore alphabet u v := by
  obtain ⟨u', hu', mu, du⟩ := C01_label_roundtrip alphabet hne hnd m
  obtain ⟨v', hv', mv, dv⟩ := C01_label_roundtrip alphabet hne hnd n
  rw [hu] at hu'; cases hu'
  rw [hv] at hv'; cases hv'
  have key : ∀ (u v : List α) (m n : Nat), alphabetToInt u alphabet = .ok m →
      alphabetToInt v alphabet = .ok n → LabelBefore alphabet u v → m < n := by
    intro u v m n du dv h
    rcases h with h | ⟨hl, h⟩
    · exact from_len_lt alphabet u v m n h du dv
    · exact lexBefore_lt alphabet hnd u v 0 m n hl h du dv
  refine ⟨fun hlt => ?_, key u v m n du dv⟩
  rcases Nat.lt_trichotomy u.length v.length with h | h | h
  · exact .inl h
  · rcases lex_total alphabet u v mu mv h with h' | h' | h'
    · subst h'; rw [du] at dv; cases dv; omega
    · exact .inr ⟨h, h'⟩
    · have := key v u n m dv du (.inr ⟨h.symm, h'⟩); omega
  · have := key v u n m dv du (.inl h); omega

/-- **C03.** No two columns share a label. -/
theorem C03_label_injective [DecidableEq α] (alphabet : List α) (hne : alphabet ≠ [])
    (hnd : alphabet.Nodup) (m n : Nat) (h : intToAlphabet (m : Int) alphabet = intToAlphabet (n : Int) alphabet) :
    m = n := by
  obtain ⟨u, hu, _, du⟩ := C01_label_roundtrip alphabet hne hnd m
  obtain ⟨v, hv, _, dv⟩ := C01_label_roundtrip alphabet hne hnd n
  rw [hu, hv] at h; cases h
  rw [du] at dv; cases dv; rfl

/-- The order relation is not trivial: "Z" is before "AA", "AB" is before "BA". -/
example : LabelBefore asciiUppercase ['Z'] ['A', 'A'] ∧ LabelBefore asciiUppercase ['A', 'B'] ['B', 'A'] :=
  ⟨.inl (by decide), .inr ⟨by decide, .head ⟨0, 1, by decide, by decide, by decide⟩⟩⟩

end Benker
