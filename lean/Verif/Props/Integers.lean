import Verif.Lemmas.Alike
import Verif.Lemmas.CalsRoundTrip
import Verif.Model.Ooxml

/-! C106: which texts are numbers for the parsers, and what the cells span when numbers tell it. -/

namespace Benker
open Cals CalsSpec DocSpec

/-- texts which are integers are read so, the others raise `ValueError` -/
theorem C106_integers (s : String) :
    (∀ n, pyInt s = .ok n ↔ IsInteger s n) ∧ ((∀ n, ¬ IsInteger s n) → pyInt s = .error .valueError) := by
  refine ⟨fun n => pyInt_iff, fun h => ?_⟩
  have he : ∀ l e, intDigits l = .error e → e = .valueError := by
    intro l e he
    unfold intDigits at he
    split at he
    · cases he
    · cases he; rfl
  have hm : ∀ (f : Nat → Int) (x : Except PyErr Nat) e, x.map f = .error e → x = .error e := by
    intro f x e h
    cases x with
    | error _ => exact congrArg _ (Except.error.inj h)
    | ok _ => cases h
  cases hs : pyInt s with
  | ok n => exact absurd (pyInt_iff.mp hs) (h n)
  | error e =>
    congr 1
    unfold pyInt at hs
    split at hs <;> exact he _ _ (hm _ _ _ hs)

/-- a text is one integer at most -/
theorem C106_one (s : String) (n m : Int) (h : IsInteger s n) (h' : IsInteger s m) : n = m :=
  Except.ok.inj ((pyInt_iff.mpr h).symm.trans (pyInt_iff.mpr h'))

/-- the number of a text is read after its first digits; a text without digit raises `IndexError` -/
theorem C106_first (s : String) :
    (∀ n : Nat, firstInt s = .ok (n : Int) ↔ FirstNumber s n) ∧ (∀ n : Int, firstInt s = .ok n → 0 ≤ n) ∧
    ((∀ c ∈ s.toList, ¬ IsDigit c) ↔ firstInt s = .error .indexError) := by
  refine ⟨fun n => ⟨fun h => ?_, firstInt_number⟩, fun n h => ?_, fun h => ?_, fun h c hc hd => ?_⟩
  · obtain ⟨k, e, hk⟩ := firstInt_ok h
    have e : n = k := by omega
    exact e ▸ hk
  · obtain ⟨k, e, _⟩ := firstInt_ok h
    omega
  · cases hs : firstInt s with
    | ok n =>
      obtain ⟨k, _, pre, ds, post, e, _, hne, hds, _⟩ := firstInt_ok hs
      obtain ⟨c, r, rfl⟩ := List.exists_cons_of_ne_nil hne
      exact absurd (hds c (List.mem_cons_self ..)) (h c (by rw [e]; simp))
    | error e =>
      unfold firstInt at hs
      split at hs <;> cases hs
      rfl
  · have hx : ∃ l1 x l2, s.toList = l1 ++ x :: l2 ∧ (∀ c ∈ l1, ¬ IsDigit c) ∧ IsDigit x := by
      clear h
      generalize s.toList = l at hc
      induction l with
      | nil => cases hc
      | cons a l ih =>
        by_cases ha : IsDigit a
        · exact ⟨[], a, l, rfl, fun _ h => (by cases h), ha⟩
        · rcases List.mem_cons.mp hc with rfl | hc
          · exact absurd hd ha
          · obtain ⟨l1, x, l2, e, h1, h2⟩ := ih hc
            exact ⟨a :: l1, x, l2, by rw [e]; rfl, fun c hc => (List.mem_cons.mp hc).elim (fun e => e ▸ ha) (h1 c), h2⟩
    obtain ⟨l1, x, l2, e, h1, h2⟩ := hx
    have hf : FirstNumber s (CalsSpec.decimal (x :: l2.takeWhile Unicode.isDigit)) := by
      refine ⟨l1, x :: l2.takeWhile Unicode.isDigit, l2.dropWhile Unicode.isDigit, ?_, h1, List.cons_ne_nil _ _, ?_, ?_, rfl⟩
      · rw [e, List.append_assoc, List.cons_append, List.takeWhile_append_dropWhile]
      · intro c hc
        rcases List.mem_cons.mp hc with rfl | hc
        · exact h2
        · exact Unicode.isDigit_iff.mp (mem_takeWhile hc)
      · intro c hc hd
        have := List.head?_dropWhile_not Unicode.isDigit l2
        rw [Option.mem_def.mp hc] at this
        simp [Unicode.isDigit_iff.mpr hd] at this
    rw [firstInt_number hf] at h
    cases h

/-- what a CALS entry at a column spans: `namest` and `nameend` by their first numbers, the column if they are missing, and `morerows` -/
theorem C106_cals_entry (pc : CalsP.Config) (col : Int) (hcol : 0 ≤ col) (e : Node) (w h : Int) :
    CalsP.entrySpan pc col e = .ok (w, h) ↔
      ∃ first last more : Int,
        (match e.attr (pc.q "namest") with | none => first = col | some s => ReadsFirst s first) ∧
        (match e.attr (pc.q "nameend") with | none => last = col | some s => ReadsFirst s last) ∧
        (match e.attr (pc.q "morerows") with | none => more = 0 | some s => IsInteger s more) ∧
        w = last - first + 1 ∧ h = more + 1 := by
  have hr : ∀ s n, firstInt s = .ok n ↔ ReadsFirst s n := fun s n => ⟨firstInt_ok, readsFirst_ok⟩
  have hh : firstInt (String.ofList (Coord.intDigits col)) = .ok col := firstInt_intStr hcol
  have h0 : pyInt "0" = .ok 0 := by decide +kernel
  have hf : ∀ (v : Option String) n, firstInt (v.getD (String.ofList (Coord.intDigits col))) = .ok n ↔
      (match v with | none => n = col | some s => ReadsFirst s n) := by
    intro v n
    cases v with
    | none => simp only [Option.getD_none, hh]; exact ⟨fun e => (Except.ok.inj e).symm, fun e => e ▸ rfl⟩
    | some s => exact hr s n
  have hi : ∀ (v : Option String) n, pyInt (v.getD "0") = .ok n ↔ (match v with | none => n = 0 | some s => IsInteger s n) := by
    intro v n
    cases v with
    | none => simp only [Option.getD_none, h0]; exact ⟨fun e => (Except.ok.inj e).symm, fun e => e ▸ rfl⟩
    | some s => exact pyInt_iff
  unfold CalsP.entrySpan
  dsimp only
  constructor
  · intro he
    obtain ⟨a, ha, he⟩ := bind_ok he
    obtain ⟨b, hb, he⟩ := bind_ok he
    obtain ⟨m, hm, he⟩ := bind_ok he
    cases he
    exact ⟨a, b, m, (hf _ _).mp ha, (hf _ _).mp hb, (hi _ _).mp hm, rfl, rfl⟩
  · rintro ⟨a, b, m, ha, hb, hm, rfl, rfl⟩
    rw [(hf _ _).mpr ha, (hf _ _).mpr hb, (hi _ _).mpr hm]
    rfl

/-- what a Word cell spans: `w:gridSpan`, one column if it is missing -/
theorem C106_word_cell (tc : Node) (w : Int) :
    Ooxml.tcWidth tc = .ok w ↔ match Ooxml.attrOf (some tc) [["tcPr"], ["gridSpan"]] "val" with | none => w = 1 | some s => IsInteger s w := by
  have h1 : pyInt "1" = .ok 1 := by decide +kernel
  unfold Ooxml.tcWidth
  cases Ooxml.attrOf (some tc) [["tcPr"], ["gridSpan"]] "val" with
  | none => simp only [Option.getD_none, h1]; exact ⟨fun e => (Except.ok.inj e).symm, fun e => e ▸ rfl⟩
  | some s => exact pyInt_iff

/-- what a Formex cell spans: `COLSPAN` and `ROWSPAN`, one if they are missing; `namest` with `nameend`, and `morerows`, prevail if they are not empty -/
theorem C106_formex_cell (pc : FmxP.Config) (e : Node) (w h : Int) :
    FmxP.cellSpan pc e = .ok (w, h) ↔
      ∃ cols rows : Int,
        (match e.attr (pc.f "COLSPAN") with | none => cols = 1 | some s => IsInteger s cols) ∧
        (match e.attr (pc.f "ROWSPAN") with | none => rows = 1 | some s => IsInteger s rows) ∧
        (match (e.attr (pc.q "namest")).filter (· ≠ ""), (e.attr (pc.q "nameend")).filter (· ≠ "") with
          | some a, some b => ∃ first last, ReadsFirst a first ∧ ReadsFirst b last ∧ w = last - first + 1
          | _, _ => w = cols) ∧
        (match (e.attr (pc.q "morerows")).filter (· ≠ "") with
          | some m => ∃ more, IsInteger m more ∧ h = more + 1
          | none => h = rows) := by
  have hr : ∀ s n, firstInt s = .ok n ↔ ReadsFirst s n := fun s n => ⟨firstInt_ok, readsFirst_ok⟩
  have h1 : pyInt "1" = .ok 1 := by decide +kernel
  have hi : ∀ (v : Option String) n, pyInt (v.getD "1") = .ok n ↔ (match v with | none => n = 1 | some s => IsInteger s n) := by
    intro v n
    cases v with
    | none => simp only [Option.getD_none, h1]; exact ⟨fun e => (Except.ok.inj e).symm, fun e => e ▸ rfl⟩
    | some s => exact pyInt_iff
  have hw : ∀ (x y : Option String) c, spanWidth x y c = .ok w ↔ (match x.filter (· ≠ ""), y.filter (· ≠ "") with
          | some a, some b => ∃ first last, ReadsFirst a first ∧ ReadsFirst b last ∧ w = last - first + 1
          | _, _ => w = c) := by
    intro x y c
    have triv : (pure c : Except PyErr Int) = .ok w ↔ w = c := ⟨fun e => (Except.ok.inj e).symm, fun e => e ▸ rfl⟩
    cases x with
    | none => exact triv
    | some a =>
      cases y with
      | none => by_cases ha : a = "" <;> simp only [spanWidth, Option.filter, ha] <;> simpa using triv
      | some b =>
        by_cases ha : a = ""
        · simpa [spanWidth, Option.filter, ha] using triv
        · by_cases hb : b = ""
          · simpa [spanWidth, Option.filter, ha, hb] using triv
          · simp only [spanWidth, Option.filter, ha, hb, ne_eq, not_false_eq_true, and_self, if_true, decide_true]
            constructor
            · intro e
              obtain ⟨p, hp, e⟩ := bind_ok e
              obtain ⟨q, hq, e⟩ := bind_ok e
              exact ⟨p, q, (hr _ _).mp hp, (hr _ _).mp hq, (Except.ok.inj e).symm⟩
            · rintro ⟨p, q, hp, hq, rfl⟩
              rw [(hr _ _).mpr hp, (hr _ _).mpr hq]
              rfl
  have hh : ∀ (z : Option String) c, spanHeight z c = .ok h ↔ (match z.filter (· ≠ "") with
          | some m => ∃ more, IsInteger m more ∧ h = more + 1
          | none => h = c) := by
    intro z c
    have triv : (pure c : Except PyErr Int) = .ok h ↔ h = c := ⟨fun e => (Except.ok.inj e).symm, fun e => e ▸ rfl⟩
    cases z with
    | none => exact triv
    | some m =>
      by_cases hm : m = ""
      · simpa [spanHeight, Option.filter, hm] using triv
      · simp only [spanHeight, Option.filter, hm, ne_eq, not_false_eq_true, if_false, if_true, decide_true]
        constructor
        · intro e
          obtain ⟨p, hp, e⟩ := bind_ok e
          exact ⟨p, pyInt_iff.mp hp, (Except.ok.inj e).symm⟩
        · rintro ⟨p, hp, rfl⟩
          rw [pyInt_iff.mpr hp]
          rfl
  rw [cellSpan_eq]
  constructor
  · intro he
    obtain ⟨a, ha, he⟩ := bind_ok he
    obtain ⟨b, hb, he⟩ := bind_ok he
    obtain ⟨c, hc, he⟩ := bind_ok he
    obtain ⟨d, hd, he⟩ := bind_ok he
    cases he
    exact ⟨a, b, (hi _ _).mp ha, (hi _ _).mp hb, (hw _ _ _).mp hc, (hh _ _).mp hd⟩
  · rintro ⟨a, b, ha, hb, hc, hd⟩
    rw [(hi _ _).mpr ha, (hi _ _).mpr hb]
    show (do let w ← spanWidth _ _ a; let v ← spanHeight _ b; pure (w, v)) = _
    rw [(hw _ _ _).mpr hc]
    show (do let v ← spanHeight _ b; pure (w, v)) = _
    rw [(hh _ _).mpr hd]
    rfl

/-! ### non-vacuity -/

/-- spaces, a sign, an underscore; digits of other scripts -/
example : IsInteger "\t+1_0\n" 10 ∧ IsInteger "-07" (-7) ∧ IsInteger "٣" 3 ∧ IsInteger "१२" 12 := by
  refine ⟨pyInt_iff.mp ?_, pyInt_iff.mp ?_, pyInt_iff.mp ?_, pyInt_iff.mp ?_⟩ <;> decide +kernel

/-- what is not an integer: nothing, a sign alone, two signs, a number with a point, two underscores, an underscore at an end, a superscript -/
example : ∀ s ∈ ["", " ", "+", "--1", "1.0", "1__0", "_1", "1_", "1 0", "²", "c1"], pyInt s = .error .valueError := by decide +kernel

example : FirstNumber "col03 to 12" 3 ∧ FirstNumber "c٣x" 3 := by
  refine ⟨((C106_first _).1 3).mp ?_, ((C106_first _).1 3).mp ?_⟩ <;> decide +kernel

example : firstInt "first" = .error .indexError := by decide +kernel

/-- an entry from `col02` to `col٣`, with ` 1 ` more row -/
example : CalsP.entrySpan ⟨none, [], id⟩ 1 (.elem ⟨none, "entry"⟩ [(⟨none, "namest"⟩, "col02"), (⟨none, "nameend"⟩, "col٣"), (⟨none, "morerows"⟩, " 1 ")] none [] none) = .ok (2, 2) := by
  decide +kernel

end Benker
