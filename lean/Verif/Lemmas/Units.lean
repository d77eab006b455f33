import Verif.Model.Units
import Verif.Spec.Units
import Verif.Lemmas.Regex
import Verif.Lemmas.Dict
import Mathlib.Tactic.Linarith
import Mathlib.Tactic.Positivity
import Mathlib.Tactic.FieldSimp
import Mathlib.Tactic.NormNum
import Mathlib.Tactic.Ring
import Mathlib.Data.Rat.Floor

namespace Benker.Units
open Re

/-! ### the pattern of numbers -/

def isSign (c : Char) : Bool := c = '+' || c = '-'

/-- text which does not go on a number: neither a digit, nor a point followed by a digit -/
def EndsNumber (rest : List Char) : Prop := NotStart Char.isDigit rest ∧ ∀ r, rest = '.' :: r → NotStart Char.isDigit r

/-- the unsigned part of the pattern -/
def bodyRe : Re := Re.seq (Re.opt (Re.seq (Re.star Char.isDigit) (Re.cls (· = '.')))) (Re.plus Char.isDigit)

theorem body_frac (ip fp rest : List Char) (hi : ∀ c ∈ ip, c.isDigit = true) (hf : ∀ c ∈ fp, c.isDigit = true) (hne : fp ≠ [])
    (hr : NotStart Char.isDigit rest) : ∃ tl, bodyRe (ip ++ '.' :: (fp ++ rest)) = (ip ++ '.' :: fp, rest) :: tl := by
  have h1 := star_seq_char Char.isDigit '.' (by decide) ip ('.' :: (fp ++ rest)) hi (by
    intro c r e; injection e with e _; rw [← e]; decide)
  obtain ⟨tl, h2⟩ := plus_run Char.isDigit fp rest hne hf hr
  unfold bodyRe
  rw [seq_apply, opt_apply, h1]
  simp only [afterChar, if_true, List.flatMap_append, List.flatMap_cons, List.flatMap_nil, List.append_nil, h2, List.map_cons]
  exact ⟨_, by simp; rfl⟩

theorem body_int (ip rest : List Char) (hi : ∀ c ∈ ip, c.isDigit = true) (hne : ip ≠ []) (hr : EndsNumber rest) :
    ∃ tl, bodyRe (ip ++ rest) = (ip, rest) :: tl := by
  have h1 := star_seq_char Char.isDigit '.' (by decide) ip rest hi hr.1
  obtain ⟨tl, h2⟩ := plus_run Char.isDigit ip rest hne hi hr.1
  unfold bodyRe
  rw [seq_apply, opt_apply, h1]
  have h3 : (afterChar '.' ip rest).flatMap (fun m => ((Re.plus Char.isDigit) m.2).map (fun n => (m.1 ++ n.1, n.2))) = [] := by
    cases rest with
    | nil => rfl
    | cons c r =>
      rw [afterChar_cons]
      split
      · next h =>
        subst h
        simp [plus_stop _ _ (hr.2 r rfl)]
      · rfl
  simp only [List.flatMap_append, h3, List.nil_append, List.flatMap_cons, List.flatMap_nil, List.append_nil, h2, List.map_cons]
  exact ⟨_, rfl⟩

theorem number_unsigned (s : List Char) (hs : NotStart isSign s) : numberRe s = bodyRe s := by
  have : Re.cls (fun c => c = '+' || c = '-') s = [] := by
    cases s with
    | nil => rfl
    | cons c r => have := hs c r rfl; unfold isSign at this; simp [Re.cls, this]
  unfold numberRe
  show (Re.opt _ s).flatMap _ = _
  unfold Re.opt
  rw [this]
  simp only [List.nil_append, List.flatMap_cons, List.flatMap_nil, List.append_nil]
  exact List.map_id' _

theorem number_signed (c : Char) (hc : isSign c = true) (s : List Char) (m : List Char × List Char) (tl) (h : bodyRe s = m :: tl) :
    ∃ tl', numberRe (c :: s) = (c :: m.1, m.2) :: tl' := by
  unfold isSign at hc
  unfold numberRe
  show ∃ tl', (Re.opt _ (c :: s)).flatMap _ = _
  unfold Re.opt
  simp only [Re.cls, hc, if_true, List.cons_append, List.nil_append, List.flatMap_cons]
  show ∃ tl', (bodyRe s).map _ ++ _ = _
  rw [h]
  exact ⟨_, rfl⟩

/-- nothing matches at a character which is neither a digit, a sign nor a point -/
theorem number_none (c : Char) (r : List Char) (hd : c.isDigit = false) (hs : isSign c = false) (hp : c ≠ '.') : numberRe (c :: r) = [] := by
  have hn : NotStart Char.isDigit (c :: r) := by intro a b e; injection e with e _; rw [← e]; exact hd
  rw [number_unsigned _ (by intro a b e; injection e with e _; rw [← e]; exact hs)]
  have h1 := star_seq_char Char.isDigit '.' (by decide) [] (c :: r) (by simp) hn
  unfold bodyRe
  rw [List.nil_append] at h1
  rw [seq_apply, opt_apply, h1]
  simp [afterChar, hp, plus_stop _ _ hn]

/-- the same after a sign or a point: a number needs a digit -/
theorem number_no_digit (s : List Char) (hd : ∀ c ∈ s, c.isDigit = false) : numberRe s = [] := by
  have hplus : ∀ t : List Char, (∀ c ∈ t, c.isDigit = false) → Re.plus Char.isDigit t = [] := fun t ht =>
    plus_stop _ _ (fun c r e => ht c (by simp [e]))
  have hbody : ∀ t : List Char, (∀ c ∈ t, c.isDigit = false) → bodyRe t = [] := by
    intro t ht
    unfold bodyRe
    rw [seq_apply, opt_apply]
    apply List.flatMap_eq_nil_iff.mpr
    intro m hm
    have hsub : ∀ c ∈ m.2, c.isDigit = false := by
      rcases List.mem_append.mp hm with hm | hm
      · rw [seq_apply, star_stop _ _ (fun c r e => ht c (by simp [e]))] at hm
        simp only [List.flatMap_cons, List.flatMap_nil, List.append_nil, List.nil_append] at hm
        obtain ⟨n, hn, rfl⟩ := List.mem_map.mp hm
        intro c hc
        cases t with
        | nil => simp [Re.cls] at hn
        | cons a t =>
          rw [cls_cons] at hn
          split at hn
          · rw [List.mem_singleton] at hn; subst hn; exact ht c (by simp [hc])
          · simp at hn
      · rw [List.mem_singleton] at hm; subst hm; exact ht
    rw [hplus m.2 hsub]; rfl
  unfold numberRe
  show (Re.opt _ s).flatMap (fun m => (bodyRe m.2).map _) = _
  unfold Re.opt
  apply List.flatMap_eq_nil_iff.mpr
  intro m hm
  have hsub : ∀ c ∈ m.2, c.isDigit = false := by
    rcases List.mem_append.mp hm with hm | hm
    · intro c hc
      cases s with
      | nil => simp [Re.cls] at hm
      | cons a s =>
        rw [cls_cons] at hm
        split at hm
        · rw [List.mem_singleton] at hm; subst hm; exact hd c (by simp [hc])
        · simp at hm
    · rw [List.mem_singleton] at hm; subst hm; exact hd
  rw [hbody m.2 hsub]; rfl

/-! ### rounding -/

theorem floor_bounds (q : Rat) : (q.floor : Rat) ≤ q ∧ q < (q.floor : Rat) + 1 := by
  have h1 := Int.floor_le q
  have h2 := Int.lt_floor_add_one q
  exact ⟨h1, h2⟩

theorem roundEven_error (q : Rat) : |(roundEven q : Rat) - q| ≤ 1 / 2 := by
  obtain ⟨h1, h2⟩ := floor_bounds q
  unfold roundEven
  simp only
  split
  · rw [abs_le]; constructor <;> linarith
  · split
    · push_cast; rw [abs_le]; constructor <;> linarith
    · split
      · rw [abs_le]; constructor <;> linarith
      · push_cast; rw [abs_le]; constructor <;> linarith

theorem roundEven_near (q : Rat) (k : Int) (h : |q - k| < 1 / 2) : roundEven q = k := by
  have h1 := roundEven_error q
  rw [abs_le] at h1
  rw [abs_lt] at h
  have h2 : ((roundEven q : Rat) - k) < 1 := by linarith
  have h3 : -1 < ((roundEven q : Rat) - k) := by linarith
  have h4 : roundEven q - k < 1 := by exact_mod_cast h2
  have h5 : -1 < roundEven q - k := by exact_mod_cast h3
  omega

/-! ### accumulated relative errors -/

def ulp : Rat := 1 / 2 ^ 53

/-- a product of `n` factors, each within one unit of relative error of 1 -/
def Factor (n : Nat) (x : Rat) : Prop := (1 - ulp) ^ n ≤ x ∧ x ≤ (1 + ulp) ^ n

theorem ulp_pos : 0 < ulp := by unfold ulp; positivity
theorem one_sub_ulp_pos : 0 < 1 - ulp := by unfold ulp; norm_num

theorem Factor.pos {n : Nat} {x : Rat} (h : Factor n x) : 0 < x := lt_of_lt_of_le (pow_pos one_sub_ulp_pos n) h.1

theorem Factor.mul {m n : Nat} {x y : Rat} (hx : Factor m x) (hy : Factor n y) : Factor (m + n) (x * y) := by
  constructor
  · rw [pow_add]
    exact mul_le_mul hx.1 hy.1 (le_of_lt (pow_pos one_sub_ulp_pos n)) (le_of_lt hx.pos)
  · rw [pow_add]
    have := one_sub_ulp_pos; have := ulp_pos
    exact mul_le_mul hx.2 hy.2 (le_of_lt hy.pos) (by positivity)

theorem Factor.mono {m n : Nat} {x : Rat} (hx : Factor m x) (h : m ≤ n) : Factor n x := by
  have := one_sub_ulp_pos; have := ulp_pos
  constructor
  · exact le_trans (pow_le_pow_of_le_one (by linarith) (by linarith) h) hx.1
  · exact le_trans hx.2 (pow_le_pow_right₀ (by linarith) h)

theorem fl_factor {fl : Rat → Rat} (hfl : FloatModel fl) (q : Rat) : ∃ d, Factor 1 d ∧ fl q = q * d := by
  have h := hfl q
  by_cases hq : q = 0
  · subst hq
    simp at h
    have := ulp_pos
    exact ⟨1, ⟨by rw [pow_one]; linarith, by rw [pow_one]; linarith⟩, by rw [h]; ring⟩
  · refine ⟨fl q / q, ?_, by field_simp⟩
    have e : |fl q / q - 1| ≤ ulp := by
      have : fl q / q - 1 = (fl q - q) / q := by field_simp
      rw [this, abs_div, div_le_iff₀ (abs_pos.mpr hq)]
      unfold ulp
      calc _ ≤ _ := h
        _ = _ := by ring
    rw [abs_le] at e
    exact ⟨by rw [pow_one]; linarith, by rw [pow_one]; linarith⟩

/-- a known unit is stored with at most four rounding errors -/
theorem unit_factor {fl : Rat → Rat} (hfl : FloatModel fl) (u : String) (e : Rat) (hu : metres u = some e) :
    ∃ a d, Dict.get? (unitsTable fl) u.toList = some a ∧ Factor 4 d ∧ a = e * d ∧ 0 < e := by
  obtain ⟨d1, f1, h1⟩ := fl_factor hfl (1 / 1000)
  obtain ⟨d2, f2, h2⟩ := fl_factor hfl (254 / 10)
  have hin := fl_factor hfl (fl (1 / 1000) * fl (254 / 10))
  obtain ⟨d3, f3, h3⟩ := hin
  have fin : Factor 3 (d1 * d2 * d3) := (f1.mul f2).mul f3
  have ein : fl (fl (1 / 1000) * fl (254 / 10)) = 254 / 10000 * (d1 * d2 * d3) := by rw [h3, h1, h2]; ring
  unfold metres at hu
  split at hu
  · next h => subst h; injection hu with hu; subst hu
              exact ⟨_, d1, rfl, f1.mono (by omega), h1, by norm_num⟩
  split at hu
  · next h => subst h; injection hu with hu; subst hu
              obtain ⟨d, f, h⟩ := fl_factor hfl (1 / 100)
              exact ⟨_, d, rfl, f.mono (by omega), h, by norm_num⟩
  split at hu
  · next h => subst h; injection hu with hu; subst hu
              obtain ⟨d, f, h⟩ := fl_factor hfl (1 / 10)
              exact ⟨_, d, rfl, f.mono (by omega), h, by norm_num⟩
  split at hu
  · next h => subst h; injection hu with hu; subst hu
              obtain ⟨d, f, h⟩ := fl_factor hfl 1
              exact ⟨_, d, rfl, f.mono (by omega), h, by norm_num⟩
  split at hu
  · next h => subst h; injection hu with hu; subst hu
              exact ⟨_, d1 * d2 * d3, rfl, fin.mono (by omega), ein, by norm_num⟩
  split at hu
  · next h => subst h; injection hu with hu; subst hu
              obtain ⟨d, f, h⟩ := fl_factor hfl (3048 / 10000)
              exact ⟨_, d, rfl, f.mono (by omega), h, by norm_num⟩
  split at hu
  · next h => subst h; injection hu with hu; subst hu
              obtain ⟨d, f, h⟩ := fl_factor hfl (fl (fl (1 / 1000) * fl (254 / 10)) / 72)
              exact ⟨_, d1 * d2 * d3 * d, rfl, fin.mul f, by rw [h, ein]; ring, by norm_num⟩
  split at hu
  · next h => subst h; injection hu with hu; subst hu
              obtain ⟨d, f, h⟩ := fl_factor hfl (fl (fl (1 / 1000) * fl (254 / 10)) / 72)
              exact ⟨_, d1 * d2 * d3 * d, rfl, fin.mul f, by rw [h, ein]; ring, by norm_num⟩
  split at hu
  · next h => subst h; injection hu with hu; subst hu
              obtain ⟨d, f, h⟩ := fl_factor hfl (fl (fl (1 / 1000) * fl (254 / 10)) / 12)
              exact ⟨_, d1 * d2 * d3 * d, rfl, fin.mul f, by rw [h, ein]; ring, by norm_num⟩
  · cases hu

/-- before rounding to three decimals, the computed value is the exact one up to a relative error of 10⁻¹⁴ -/
theorem convert_raw {fl : Rat → Rat} (hfl : FloatModel fl) (v : Rat) (u w : String) (a b : Rat) (hu : metres u = some a) (hw : metres w = some b) :
    ∃ t, convertValue fl v u.toList w.toList = .ok (pyRound fl t 3) ∧ ∃ d, t = v * a / b * d ∧ |d - 1| ≤ 9 / 10 ^ 15 := by
  obtain ⟨a', da, ea, fa, rfl, ha⟩ := unit_factor hfl u a hu
  obtain ⟨b', db, eb, fb, rfl, hb⟩ := unit_factor hfl w b hw
  obtain ⟨d1, f1, h1⟩ := fl_factor hfl (v * (a * da))
  obtain ⟨d2, f2, h2⟩ := fl_factor hfl (fl (v * (a * da)) / (b * db))
  refine ⟨_, by unfold convertValue; rw [ea, eb], da * d1 * d2 / db, ?_, ?_⟩
  · rw [h2, h1]
    have := fb.pos
    field_simp
  · have f6 : Factor 6 (da * d1 * d2) := (fa.mul f1).mul f2
    have hdb := fb.pos
    have k1 : (1 - 9 / 10 ^ 15) * (1 + ulp) ^ 4 ≤ (1 - ulp) ^ 6 := by unfold ulp; norm_num
    have k2 : (1 + ulp) ^ 6 ≤ (1 + 9 / 10 ^ 15) * (1 - ulp) ^ 4 := by unfold ulp; norm_num
    rw [abs_le]
    constructor
    · have : 1 - 9 / 10 ^ 15 ≤ da * d1 * d2 / db := by
        rw [le_div_iff₀ hdb]
        calc (1 - 9 / 10 ^ 15) * db ≤ (1 - 9 / 10 ^ 15) * (1 + ulp) ^ 4 := mul_le_mul_of_nonneg_left fb.2 (by norm_num)
          _ ≤ _ := k1
          _ ≤ _ := f6.1
      linarith
    · have : da * d1 * d2 / db ≤ 1 + 9 / 10 ^ 15 := by
        rw [div_le_iff₀ hdb]
        calc _ ≤ _ := f6.2
          _ ≤ _ := k2
          _ ≤ (1 + 9 / 10 ^ 15) * db := mul_le_mul_of_nonneg_left fb.1 (by norm_num)
      linarith

end Benker.Units
