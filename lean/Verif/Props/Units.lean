import Verif.Lemmas.Units
import Verif.Props.Names

/-! C56, C57, C60: widths and units. -/

namespace Benker.Units
open Re

/-- value of a list of decimal digits -/
def digitsNumber : List Nat → Nat
  | ds => ds.foldl (fun v d => 10 * v + d) 0

/-- the text of a list of decimal digits -/
def digitsText (ds : List Nat) : List Char := ds.map Nat.digitChar

theorem digitChar_isDigit : ∀ d < 10, (Nat.digitChar d).isDigit = true ∧ (Nat.digitChar d).toNat - 48 = d := by decide

theorem digitsText_isDigit (ds : List Nat) (h : ∀ d ∈ ds, d < 10) : ∀ c ∈ digitsText ds, c.isDigit = true := by
  intro c hc
  obtain ⟨d, hd, rfl⟩ := List.mem_map.mp hc
  exact (digitChar_isDigit d (h d hd)).1

theorem ofDigitChars_text (ds : List Nat) (h : ∀ d ∈ ds, d < 10) : ∀ v, Nat.ofDigitChars 10 (digitsText ds) v = ds.foldl (fun v d => 10 * v + d) v := by
  induction ds with
  | nil => intro v; rfl
  | cons d ds ih =>
    intro v
    have := (digitChar_isDigit d (h d (by simp))).2
    show Nat.ofDigitChars 10 (Nat.digitChar d :: digitsText ds) v = _
    rw [Nat.ofDigitChars_cons, ih (fun x hx => h x (by simp [hx]))]
    simp only [List.foldl_cons]
    congr 1
    show 10 * v + ((Nat.digitChar d).toNat - 48) = _
    rw [this]

theorem digitsVal_text (ds : List Nat) (h : ∀ d ∈ ds, d < 10) : digitsVal (digitsText ds) = digitsNumber ds := ofDigitChars_text ds h 0

/-- exact value of a decimal number written with a list of digits before and after the point -/
def decimal (neg : Bool) (ip fp : List Nat) : Rat :=
  (if neg then -1 else 1) * ((digitsNumber ip : Rat) + (digitsNumber fp : Rat) / 10 ^ fp.length)

/-- text of a decimal number: sign, digits, and a point and digits if there are decimals -/
def decimalText (sign : List Char) (ip fp : List Nat) : List Char :=
  sign ++ digitsText ip ++ (if fp = [] then [] else '.' :: digitsText fp)

theorem unsignedVal_text (ip fp : List Nat) (hi : ∀ d ∈ ip, d < 10) (hf : ∀ d ∈ fp, d < 10) :
    unsignedVal (digitsText ip ++ (if fp = [] then [] else '.' :: digitsText fp)) = (digitsNumber ip : Rat) + (digitsNumber fp : Rat) / 10 ^ fp.length := by
  have hnp : ∀ c ∈ digitsText ip, (decide (c ≠ '.')) = true := by
    intro c hc
    have := digitsText_isDigit ip hi c hc
    rw [decide_eq_true_eq]
    rintro rfl
    revert this; decide
  unfold unsignedVal
  rw [List.span_eq_takeWhile_dropWhile]
  by_cases h : fp = []
  · subst h
    rw [if_pos rfl, List.append_nil, show List.takeWhile (fun c => decide (c ≠ '.')) (digitsText ip) = digitsText ip by
      have := List.takeWhile_append_of_pos (l₂ := []) hnp; simpa using this, show List.dropWhile (fun c => decide (c ≠ '.')) (digitsText ip) = [] by
      have := List.dropWhile_append_of_pos (l₂ := []) hnp; simpa using this]
    simp only [digitsVal_text ip hi]
    simp [digitsNumber]
  · rw [if_neg h]
    have e1 : List.takeWhile (fun c => decide (c ≠ '.')) (digitsText ip ++ '.' :: digitsText fp) = digitsText ip := by
      rw [List.takeWhile_append_of_pos hnp]; simp
    have e2 : List.dropWhile (fun c => decide (c ≠ '.')) (digitsText ip ++ '.' :: digitsText fp) = '.' :: digitsText fp := by
      rw [List.dropWhile_append_of_pos hnp]; simp
    rw [e1, e2]
    simp only [digitsVal_text ip hi, digitsVal_text fp hf]
    simp [digitsText]

theorem digit_not_sign (c : Char) (h : c.isDigit = true) : isSign c = false ∧ c ≠ '-' ∧ c ≠ '+' := by
  have : c ≠ '-' := by rintro rfl; revert h; decide
  have h2 : c ≠ '+' := by rintro rfl; revert h; decide
  simp [isSign, this, h2]

/-- the units -/
def unitNames : List String := ["cm", "dm", "ft", "in", "mm", "pc", "pt", "px", "m"]

/-- a text which may follow a width: its first character is neither a digit, a point nor a small letter -/
def PlainEnd (post : List Char) : Prop := ∀ c r, post = c :: r → c.isDigit = false ∧ c ≠ '.' ∧ c.isLower = false

theorem unit_match (u : List Char) (hu : u = [] ∨ ∃ n ∈ unitNames, u = n.toList) (post : List Char) (hp : PlainEnd post) :
    ∃ r tl, Re.opt unitRe (u ++ post) = (u, r) :: tl := by
  rcases hu with rfl | ⟨n, hn, rfl⟩
  · refine ⟨post, [], ?_⟩
    rw [opt_apply, List.nil_append]
    have : unitRe post = [] := by
      unfold unitRe Re.alts
      apply List.flatMap_eq_nil_iff.mpr
      intro a ha
      cases post with
      | nil => revert a; decide
      | cons c r =>
        have hc := (hp c r rfl).2.2
        have hne : ∀ d : Char, d.isLower = true → d ≠ c := by rintro d hd rfl; rw [hc] at hd; cases hd
        simp only [List.mem_cons, List.not_mem_nil, or_false] at ha
        rcases ha with rfl | rfl | rfl | rfl | rfl | rfl | rfl | rfl | rfl <;>
          simp [Re.lit, hne 'c' (by decide), hne 'd' (by decide), hne 'f' (by decide), hne 'i' (by decide), hne 'm' (by decide), hne 'p' (by decide)]
    rw [this]; rfl
  · simp only [unitNames, List.mem_cons, List.not_mem_nil, or_false] at hn
    rcases hn with rfl | rfl | rfl | rfl | rfl | rfl | rfl | rfl | rfl
    iterate 8 exact ⟨post, _, rfl⟩
    refine ⟨post, [([], 'm' :: post)], ?_⟩
    cases post with
    | nil => decide
    | cons c r =>
      have hc := (hp c r rfl).2.2
      have hm : 'm' ≠ c := by rintro rfl; revert hc; decide
      simp [Re.opt, unitRe, Re.alts, Re.lit, List.isPrefixOf, hm]

/-- the number at the beginning of a text -/
theorem number_match (sign : List Char) (hs : sign = [] ∨ sign = ['+'] ∨ sign = ['-']) (ip fp : List Nat) (hi : ∀ d ∈ ip, d < 10)
    (hf : ∀ d ∈ fp, d < 10) (hne : ip ≠ [] ∨ fp ≠ []) (rest : List Char) (hr : ∀ c r, rest = c :: r → c.isDigit = false ∧ c ≠ '.') :
    ∃ tl, numberRe (decimalText sign ip fp ++ rest) = (decimalText sign ip fp, rest) :: tl := by
  have hi' := digitsText_isDigit ip hi
  have hf' := digitsText_isDigit fp hf
  have hns : NotStart Char.isDigit rest := fun c r e => (hr c r e).1
  have hb : ∃ tl, bodyRe (digitsText ip ++ (if fp = [] then [] else '.' :: digitsText fp) ++ rest) =
      (digitsText ip ++ (if fp = [] then [] else '.' :: digitsText fp), rest) :: tl := by
    by_cases h : fp = []
    · subst h
      rw [if_pos rfl, List.append_nil]
      have : digitsText ip ≠ [] := by
        rcases hne with h | h
        · simpa [digitsText] using h
        · exact absurd rfl h
      exact body_int _ _ hi' this ⟨hns, fun r e => absurd rfl (hr _ r e).2⟩
    · rw [if_neg h]
      have : digitsText fp ≠ [] := by simpa [digitsText] using h
      have := body_frac _ _ rest hi' hf' this hns
      simpa using this
  obtain ⟨tl, hb⟩ := hb
  unfold decimalText
  have hsigned : ∀ c, isSign c = true → sign = [c] → ∃ tl, numberRe (sign ++ digitsText ip ++ (if fp = [] then [] else '.' :: digitsText fp) ++ rest) =
      (sign ++ digitsText ip ++ (if fp = [] then [] else '.' :: digitsText fp), rest) :: tl := by
    rintro c hc rfl
    obtain ⟨tl', h⟩ := number_signed c hc _ _ _ hb
    exact ⟨tl', by simpa using h⟩
  rcases hs with rfl | rfl | rfl
  · rw [List.nil_append, number_unsigned]
    · exact ⟨tl, hb⟩
    · intro c r e
      cases hip : digitsText ip with
      | cons d ds =>
        rw [hip] at e hi'
        injection e with e _
        rw [← e]; exact (digit_not_sign _ (hi' d (by simp))).1
      | nil =>
        rw [hip] at e
        by_cases h : fp = []
        · rcases hne with h' | h'
          · exact absurd (by simpa [digitsText] using hip) h'
          · exact absurd h h'
        · rw [if_neg h] at e
          injection e with e _
          rw [← e]; decide
  · exact hsigned '+' (by decide) rfl
  · exact hsigned '-' (by decide) rfl

theorem decimalVal_text (sign : List Char) (hs : sign = [] ∨ sign = ['+'] ∨ sign = ['-']) (ip fp : List Nat) (hi : ∀ d ∈ ip, d < 10)
    (hf : ∀ d ∈ fp, d < 10) (hne : ip ≠ [] ∨ fp ≠ []) : decimalVal (decimalText sign ip fp) = decimal (sign = ['-']) ip fp := by
  have hu := unsignedVal_text ip fp hi hf
  unfold decimalText decimal
  rcases hs with rfl | rfl | rfl
  · rw [List.nil_append]
    have : decimalVal (digitsText ip ++ (if fp = [] then [] else '.' :: digitsText fp)) =
        unsignedVal (digitsText ip ++ (if fp = [] then [] else '.' :: digitsText fp)) := by
      have hh : ∀ c r, digitsText ip ++ (if fp = [] then [] else '.' :: digitsText fp) = c :: r → c ≠ '-' ∧ c ≠ '+' := by
        intro c r e
        cases hip : digitsText ip with
        | cons d ds =>
          have := digitsText_isDigit ip hi d (by rw [hip]; simp)
          rw [hip] at e; injection e with e _; rw [← e]; exact (digit_not_sign d this).2
        | nil =>
          rw [hip] at e
          split at e
          · cases e
          · injection e with e _; rw [← e]; decide
      generalize digitsText ip ++ (if fp = [] then [] else '.' :: digitsText fp) = t at hh
      unfold decimalVal
      split
      · exact absurd rfl (hh _ _ rfl).1
      · exact absurd rfl (hh _ _ rfl).2
      · rfl
    rw [this, hu]; simp
  · show unsignedVal _ = _
    simp [hu]
  · show - unsignedVal _ = _
    rw [show ([].append (digitsText ip)).append (if fp = [] then [] else '.' :: digitsText fp) =
      digitsText ip ++ (if fp = [] then [] else '.' :: digitsText fp) from rfl, hu]
    simp

/-- **C56**: a decimal number (optional sign, digits, optional decimals, at least one digit) followed by a known unit, or by no
unit, gives the value of this number and this unit, or the default unit.  What precedes the number is ignored if it
contains neither digit, sign nor point; what follows is ignored if it does not begin with a digit, a point or a small letter. -/
theorem C56_parse_width (fl : Rat → Rat) (default pre post sign : List Char) (hs : sign = [] ∨ sign = ['+'] ∨ sign = ['-'])
    (ip fp : List Nat) (hi : ∀ d ∈ ip, d < 10) (hf : ∀ d ∈ fp, d < 10) (hne : ip ≠ [] ∨ fp ≠ [])
    (unit : List Char) (hu : unit = [] ∨ ∃ n ∈ unitNames, unit = n.toList)
    (hpre : ∀ c ∈ pre, c.isDigit = false ∧ c ≠ '+' ∧ c ≠ '-' ∧ c ≠ '.') (hpost : PlainEnd post) :
    parseWidth fl (pre ++ (decimalText sign ip fp ++ (unit ++ post))) default =
      .ok (fl (decimal (sign = ['-']) ip fp), if unit = [] then default else unit) := by
  have hrest : ∀ c r, unit ++ post = c :: r → c.isDigit = false ∧ c ≠ '.' := by
    intro c r e
    rcases hu with rfl | ⟨n, hn, rfl⟩
    · exact ⟨(hpost c r e).1, (hpost c r e).2.1⟩
    · simp only [unitNames, List.mem_cons, List.not_mem_nil, or_false] at hn
      rcases hn with rfl | rfl | rfl | rfl | rfl | rfl | rfl | rfl | rfl <;> (injection e with e _; rw [← e]; decide)
  obtain ⟨tl, h1⟩ := number_match sign hs ip fp hi hf hne (unit ++ post) hrest
  obtain ⟨r, tl2, h2⟩ := unit_match unit hu post hpost
  have hfind : Re.find2 numberRe unitRe (pre ++ (decimalText sign ip fp ++ (unit ++ post))) = some (decimalText sign ip fp, unit) := by
    unfold Re.find2
    rw [search_skip]
    · exact search_head _ _ _ _ (by rw [h1, List.flatMap_cons]; simp only [h2]; rfl)
    · intro a b e hb
      cases b with
      | nil => exact absurd rfl hb
      | cons c b =>
        have := hpre c (by rw [e]; simp)
        rw [List.cons_append, number_none c _ this.1 (by simp [isSign, this.2.1, this.2.2.1]) this.2.2.2]
        rfl
  unfold parseWidth
  rw [hfind]
  simp only [decimalVal_text sign hs ip fp hi hf hne]

/-- A text without digit is refused. -/
theorem C56_no_number (fl : Rat → Rat) (default s : List Char) (h : ∀ c ∈ s, c.isDigit = false) :
    parseWidth fl s default = .error .indexError := by
  have : Re.find2 numberRe unitRe s = none := by
    unfold Re.find2
    have := search_skip (fun s => (numberRe s).flatMap (fun m => (Re.opt unitRe m.2).map (fun n => (m.1, n.1)))) s [] (by
      intro a b e _
      have hb : ∀ c ∈ b, c.isDigit = false := fun c hc => h c (by rw [e]; simp [hc])
      rw [List.append_nil, number_no_digit b hb]; rfl)
    rw [List.append_nil] at this
    rw [this]
    show ((numberRe []).flatMap _).head? = none
    rw [number_no_digit [] (by simp)]; rfl
  unfold parseWidth; rw [this]

example : parseWidth id "-12.50pt".toList = .ok (-25 / 2, "pt".toList) := by
  have := C56_parse_width id ['m', 'm'] [] [] ['-'] (by simp) [1, 2] [5, 0] (by simp) (by simp) (by simp) ['p', 't']
    (.inr ⟨"pt", by simp [unitNames], rfl⟩) (by simp) (by intro c r e; cases e)
  refine Eq.trans this ?_
  norm_num [decimal, digitsNumber]; rfl
example : parseWidth id "210".toList = .ok (210, "mm".toList) := by
  have := C56_parse_width id ['m', 'm'] [] [] [] (by simp) [2, 1, 0] [] (by simp) (by simp) (by simp) []
    (.inl rfl) (by simp) (by intro c r e; cases e)
  refine Eq.trans this ?_
  norm_num [decimal, digitsNumber]; rfl

/-- A percentage, which the documentation of the CALS builder announces as a possible table width, is read as a length in the
default unit. -/
theorem C56_percentage_misread (fl : Rat → Rat) (ip : List Nat) (hi : ∀ d ∈ ip, d < 10) (hne : ip ≠ []) :
    parseWidth fl (digitsText ip ++ ['%']) = .ok (fl (digitsNumber ip), ['m', 'm']) := by
  have := C56_parse_width fl ['m', 'm'] [] ['%'] [] (by simp) ip [] hi (by simp) (.inl hne) [] (.inl rfl) (by simp)
    (by intro c r e; injection e with e _; rw [← e]; decide)
  simp only [List.nil_append, decimalText, if_true, List.append_nil] at this
  rw [this]
  norm_num [decimal, digitsNumber]

/-! ### conversion -/

/-- **C57**: for every value and every pair of known units, the result is the double nearest to a number of thousandths which is the
exact conversion rounded to three decimals (up to the accuracy of floating point computation). -/
theorem C57_convert_value (fl : Rat → Rat) (hfl : FloatModel fl) (v : Rat) (u w : String) (a b : Rat) (hu : metres u = some a) (hw : metres w = some b) :
    ∃ k : Int, convertValue fl v u.toList w.toList = .ok (fl ((k : Rat) / 1000)) ∧
      |(k : Rat) / 1000 - v * a / b| ≤ 1 / 2000 + |v * a / b| / 10 ^ 14 := by
  obtain ⟨t, h1, d, h2, h3⟩ := convert_raw hfl v u w a b hu hw
  refine ⟨roundEven (t * 1000), ?_, ?_⟩
  · rw [h1]; unfold pyRound; norm_num
  · have e1 := roundEven_error (t * 1000)
    generalize v * a / b = x at *
    have e2 : |t - x| ≤ |x| / 10 ^ 14 := by
      have : t - x = x * (d - 1) := by rw [h2]; ring
      rw [this, abs_mul]
      calc |x| * |d - 1| ≤ |x| * (9 / 10 ^ 15) := mul_le_mul_of_nonneg_left h3 (abs_nonneg x)
        _ ≤ |x| / 10 ^ 14 := by have := abs_nonneg x; rw [le_div_iff₀ (by positivity)]; nlinarith
    rw [abs_le] at e1 e2 ⊢
    constructor <;> linarith [e1.1, e1.2, e2.1, e2.2]

/-- **C57** (exact conversions): when the exact result is a number of thousandths below a hundred million, it is found exactly.
`x` is the decimal number the value was read from. -/
theorem C57_exact (fl : Rat → Rat) (hfl : FloatModel fl) (x : Rat) (u w : String) (a b : Rat) (hu : metres u = some a) (hw : metres w = some b)
    (k : Int) (hk : x * a / b = k / 1000) (hk2 : |(k : Rat)| ≤ 10 ^ 11) :
    convertValue fl (fl x) u.toList w.toList = .ok (fl ((k : Rat) / 1000)) := by
  obtain ⟨t, h1, d, h2, h3⟩ := convert_raw hfl (fl x) u w a b hu hw
  obtain ⟨d', f, h4⟩ := fl_factor hfl x
  have h5 : t * 1000 - k = k * (d' * d - 1) := by
    rw [h2, h4]
    have : x * d' * a / b * d * 1000 - k = (x * a / b) * (d' * d) * 1000 - k := by ring
    rw [this, hk]; ring
  have h6 : |d' * d - 1| ≤ 1 / 10 ^ 14 := by
    have fl1 := f.1; have fl2 := f.2
    rw [pow_one] at fl1 fl2
    rw [abs_le] at h3 ⊢
    unfold ulp at *
    constructor <;> nlinarith
  have h7 : |t * 1000 - k| < 1 / 2 := by
    rw [h5, abs_mul]
    calc |(k : Rat)| * |d' * d - 1| ≤ 10 ^ 11 * (1 / 10 ^ 14) := mul_le_mul hk2 h6 (abs_nonneg _) (by norm_num)
      _ < 1 / 2 := by norm_num
  rw [h1]
  unfold pyRound
  have : (t * (10 ^ 3 : Nat)) = t * 1000 := by norm_num
  rw [this, roundEven_near _ k h7]
  norm_num

/-- **C57** (unknown units) -/
theorem C57_unknown_unit (fl : Rat → Rat) (v : Rat) (u w : String) (h : metres u = none ∨ metres w = none) :
    convertValue fl v u.toList w.toList = .error .keyError := by
  have key : ∀ n : String, metres n = none → Dict.get? (unitsTable fl) n.toList = none := by
    intro n hn
    unfold Dict.get?
    rw [Option.map_eq_none_iff, List.find?_eq_none]
    intro p hp
    simp only [unitsTable, List.mem_cons, List.not_mem_nil, or_false] at hp
    rw [decide_eq_true_eq]
    intro e
    have inj : ∀ s : String, n.toList = s.toList → n = s := fun s e => String.toList_inj.mp e
    rcases hp with rfl | rfl | rfl | rfl | rfl | rfl | rfl | rfl | rfl
    · have := inj "mm" e.symm; subst this; revert hn; simp [metres]
    · have := inj "dm" e.symm; subst this; revert hn; simp [metres]
    · have := inj "cm" e.symm; subst this; revert hn; simp [metres]
    · have := inj "m" e.symm; subst this; revert hn; simp [metres]
    · have := inj "in" e.symm; subst this; revert hn; simp [metres]
    · have := inj "ft" e.symm; subst this; revert hn; simp [metres]
    · have := inj "px" e.symm; subst this; revert hn; simp [metres]
    · have := inj "pt" e.symm; subst this; revert hn; simp [metres]
    · have := inj "pc" e.symm; subst this; revert hn; simp [metres]
  unfold convertValue
  rcases h with h | h
  · rw [key u h]
  · rw [key w h]; cases Dict.get? (unitsTable fl) u.toList <;> rfl

example : metres "in" = some (254 / 10000) ∧ metres "mm" = some (1 / 1000) ∧ FloatModel id := by
  refine ⟨rfl, rfl, ?_⟩
  intro q; simp; positivity
/-- one inch is 25.4 mm, exactly -/
example (fl : Rat → Rat) (hfl : FloatModel fl) : convertValue fl (fl 1) "in".toList "mm".toList = .ok (fl (254 / 10)) := by
  have := C57_exact fl hfl 1 "in" "mm" _ _ rfl rfl 25400 (by norm_num) (by norm_num)
  rw [this]; norm_num

/-! ### rewriting of widths -/

theorem digitChar_of_isDigit (c : Char) (h : c.isDigit = true) : Nat.digitChar (c.toNat - 48) = c ∧ c.toNat - 48 < 10 := by
  have h' : 48 ≤ c.toNat ∧ c.toNat ≤ 57 := by
    unfold Char.isDigit at h
    simp only [Bool.and_eq_true, decide_eq_true_eq] at h
    exact ⟨h.1, h.2⟩
  have key : ∀ n, 48 ≤ n → n ≤ 57 → Nat.digitChar (n - 48) = Char.ofNat n ∧ n - 48 < 10 := by
    intro n h1 h2
    obtain ⟨m, rfl⟩ : ∃ m, n = m + 48 := ⟨n - 48, by omega⟩
    have : m < 10 := by omega
    have : ∀ m < 10, Nat.digitChar (m + 48 - 48) = Char.ofNat (m + 48) ∧ m + 48 - 48 < 10 := by decide
    exact this m ‹_›
  have := key c.toNat h'.1 h'.2
  rw [Char.ofNat_toNat] at this
  exact this

/-- the digits of a natural number -/
theorem natDigits_text (n : Nat) : ∃ ds, Coord.natDigits n = digitsText ds ∧ (∀ d ∈ ds, d < 10) ∧ digitsNumber ds = n ∧ ds ≠ [] := by
  have hd := natDigits_isDigit n
  refine ⟨(Coord.natDigits n).map (fun c => c.toNat - 48), ?_, ?_, ?_, ?_⟩
  · unfold digitsText
    rw [List.map_map]
    conv_lhs => rw [← List.map_id (Coord.natDigits n)]
    apply List.map_congr_left
    intro c hc
    exact (digitChar_of_isDigit c (hd c hc)).1.symm
  · intro d hdm
    obtain ⟨c, hc, rfl⟩ := List.mem_map.mp hdm
    exact (digitChar_of_isDigit c (hd c hc)).2
  · have h1 : Nat.ofDigitChars 10 (Coord.natDigits n) 0 = n := by simp [Coord.natDigits, Nat.ofDigitChars_ten_toDigits]
    have h2 : ∀ (l : List Char) v, (∀ c ∈ l, c.isDigit = true) → Nat.ofDigitChars 10 l v = (l.map (fun c => c.toNat - 48)).foldl (fun v d => 10 * v + d) v := by
      intro l
      induction l with
      | nil => intro v _; rfl
      | cons c l ih =>
        intro v hl
        rw [Nat.ofDigitChars_cons, ih _ (fun x hx => hl x (by simp [hx]))]
        rfl
    unfold digitsNumber
    rw [← h2 _ _ hd]; exact h1
  · intro h
    have h1 : Coord.natDigits n = [] := by simpa using h
    have h2 : 0 < (Coord.natDigits n).length := by
      unfold Coord.natDigits
      exact Nat.length_toDigits_pos
    rw [h1] at h2; simp at h2

/-- a number written with two decimals -/
theorem format2_text (q : Rat) : ∃ sign ip fp, format2 q = decimalText sign ip fp ∧ (sign = [] ∨ sign = ['+'] ∨ sign = ['-']) ∧
    (∀ d ∈ ip, d < 10) ∧ (∀ d ∈ fp, d < 10) ∧ ip ≠ [] ∧ decimal (sign = ['-']) ip fp = (roundEven (q * 100) : Rat) / 100 := by
  obtain ⟨ds, h1, h2, h3, h4⟩ := natDigits_text ((roundEven (q * 100)).natAbs / 100)
  have small : ∀ d < 10, Coord.natDigits d = digitsText [d] := by decide
  generalize hn : roundEven (q * 100) = n at *
  have ha : n.natAbs % 100 / 10 < 10 := by omega
  have hb : n.natAbs % 10 < 10 := by omega
  refine ⟨if n < 0 then ['-'] else [], ds, [n.natAbs % 100 / 10, n.natAbs % 10], ?_, ?_, h2, ?_, h4, ?_⟩
  · unfold format2
    simp only [hn, h1, small _ ha, small _ hb]
    simp [decimalText, digitsText]
  · split <;> simp
  · intro d hd
    simp only [List.mem_cons, List.not_mem_nil, or_false] at hd
    rcases hd with rfl | rfl <;> omega
  · unfold decimal
    rw [h3]
    have e : (n.natAbs : Rat) = ((n.natAbs / 100 : Nat) : Rat) * 100 + ((digitsNumber [n.natAbs % 100 / 10, n.natAbs % 10] : Nat) : Rat) := by
      have : n.natAbs = n.natAbs / 100 * 100 + digitsNumber [n.natAbs % 100 / 10, n.natAbs % 10] := by
        simp only [digitsNumber, List.foldl_cons, List.foldl_nil]; omega
      exact_mod_cast this
    by_cases hneg : n < 0
    · have e2 : (n : Rat) = - (n.natAbs : Rat) := by
        have : (n : Int) = - (n.natAbs : Int) := by omega
        exact_mod_cast this
      simp only [hneg, if_true, decide_true]
      rw [e2, e]; norm_num; ring
    · have e2 : (n : Rat) = (n.natAbs : Rat) := by
        have : ((n.natAbs : Int) : Rat) = (n : Rat) := by congr 1; omega
        rw [← this]; rfl
      simp only [hneg, if_false]
      rw [e2, e]; norm_num; ring

/-- **C60**: a width written by the converters (two decimals, known unit, below a hundred million) is left unchanged when it is read
and written again in the same unit. -/
theorem C60_width_stable (fl : Rat → Rat) (hfl : FloatModel fl) (q : Rat) (u : String) (hu : u ∈ unitNames)
    (hsmall : |(roundEven (q * 100) : Rat)| ≤ 10 ^ 10) :
    rewriteWidth fl u.toList (format2 q ++ u.toList) = .ok (format2 q ++ u.toList) := by
  obtain ⟨sign, ip, fp, h1, h2, h3, h4, h5, h6⟩ := format2_text q
  have hne : u.toList ≠ [] := by
    simp only [unitNames, List.mem_cons, List.not_mem_nil, or_false] at hu
    rcases hu with rfl | rfl | rfl | rfl | rfl | rfl | rfl | rfl | rfl <;> decide
  have hm : ∃ a, metres u = some a ∧ a ≠ 0 := by
    simp only [unitNames, List.mem_cons, List.not_mem_nil, or_false] at hu
    rcases hu with rfl | rfl | rfl | rfl | rfl | rfl | rfl | rfl | rfl <;> exact ⟨_, rfl, by norm_num⟩
  obtain ⟨a, ha, ha0⟩ := hm
  have hp := C56_parse_width fl ['m', 'm'] [] [] sign h2 ip fp h3 h4 (.inl h5) u.toList (.inr ⟨u, hu, rfl⟩) (by simp) (by intro c r e; cases e)
  rw [h6, if_neg hne, List.nil_append, List.append_nil, ← h1] at hp
  generalize hn : roundEven (q * 100) = n at *
  have hc := C57_exact fl hfl ((n : Rat) / 100) u u a a ha ha (10 * n) (by push_cast; field_simp; ring) (by
    push_cast; rw [abs_mul]
    calc _ ≤ (10 : Rat) * 10 ^ 10 := by rw [abs_of_pos (by norm_num : (0 : Rat) < 10)]; linarith
      _ = _ := by norm_num)
  have he : ((10 * n : Int) : Rat) / 1000 = (n : Rat) / 100 := by push_cast; ring
  rw [he] at hc
  have hr : roundEven (fl ((n : Rat) / 100) * 100) = n := by
    apply roundEven_near
    have := hfl ((n : Rat) / 100)
    have e : fl ((n : Rat) / 100) * 100 - n = (fl ((n : Rat) / 100) - n / 100) * 100 := by ring
    rw [e, abs_mul]
    rw [abs_div] at this
    have h100 : |(100 : Rat)| = 100 := by norm_num
    rw [h100] at this ⊢
    calc _ ≤ (|(n : Rat)| / 100 / 2 ^ 53) * 100 := mul_le_mul_of_nonneg_right this (by norm_num)
      _ < 1 / 2 := by
        have : |(n : Rat)| / 100 / 2 ^ 53 * 100 = |(n : Rat)| / 2 ^ 53 := by ring
        rw [this, div_lt_iff₀ (by positivity)]
        calc _ ≤ _ := hsmall
          _ < _ := by norm_num
  have hf : format2 (fl ((n : Rat) / 100)) = format2 q := by
    unfold format2; simp only [hn, hr]
  unfold rewriteWidth
  rw [hp]
  show (do let v ← convertValue fl (fl ((n : Rat) / 100)) u.toList u.toList; pure (format2 v ++ u.toList)) = _
  rw [hc]
  show Except.ok (format2 (fl ((n : Rat) / 100)) ++ u.toList) = _
  rw [hf]

example : "pt" ∈ unitNames ∧ |(roundEven ((12341 / 1000 : Rat) * 100) : Rat)| ≤ 10 ^ 10 := by
  refine ⟨by simp [unitNames], ?_⟩
  rw [roundEven_near (12341 / 1000 * 100) 1234 (by norm_num)] <;> norm_num

end Benker.Units
