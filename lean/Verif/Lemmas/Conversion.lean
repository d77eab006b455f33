import Verif.Lemmas.CalsWritten
import Verif.Lemmas.Layout
import Verif.Spec.Conversion

/-! The picture of a table, and that of the CALS document which is written. -/

namespace Benker
open PyM Cals CalsSpec Benker.Shown

theorem All₂.trans {α β γ : Type} {R : α → β → Prop} {S : β → γ → Prop} {T : α → γ → Prop} {l : List α} {m : List β} {k : List γ} (h : All₂ R l m)
    (h' : All₂ S m k) (hT : ∀ a b c, R a b → S b c → T a c) : All₂ T l k := by
  induction h generalizing k with
  | nil => cases h'; exact .nil
  | cons hab _ ih => cases h' with | cons hbc h' => exact .cons (hT _ _ _ hab hbc) (ih h')

theorem All₂.map_left {α β γ : Type} {R : α → β → Prop} {f : γ → α} {l : List γ} {m : List β} (h : All₂ (fun a b => R (f a) b) l m) : All₂ R (l.map f) m := by
  induction h with
  | nil => exact .nil
  | cons hab _ ih => exact .cons hab ih

theorem All₂.map_right {α β γ : Type} {R : α → β → Prop} {f : γ → β} {l : List α} {m : List γ} (h : All₂ (fun a b => R a (f b)) l m) : All₂ R l (m.map f) := by
  induction h with
  | nil => exact .nil
  | cons hab _ ih => exact .cons hab ih

theorem All₂.of_map_left {α β γ : Type} {R : α → β → Prop} {f : γ → α} : ∀ {l : List γ} {m : List β}, All₂ R (l.map f) m → All₂ (fun a b => R (f a) b) l m
  | [], _, h => by cases h; exact .nil
  | _ :: _, _, h => by cases h with | cons hab h => exact .cons hab h.of_map_left

theorem All₂.and {α β : Type} {R S : α → β → Prop} {l : List α} {m : List β} (h : All₂ R l m) (h' : All₂ S l m) : All₂ (fun a b => R a b ∧ S a b) l m := by
  induction h with
  | nil => exact .nil
  | cons hab _ ih => cases h' with | cons hab' h' => exact .cons ⟨hab, hab'⟩ (ih h')

theorem all₂_split {α β γ : Type} {R : α → β → Prop} {S : α → γ → Prop} {T : β → γ → Prop} {l : List α} {m : List β} (h : All₂ R l m)
    (g : ∀ a ∈ l, ∀ b ∈ m, R a b → ∃ c, S a c ∧ T b c) : ∃ k : List γ, All₂ S l k ∧ All₂ T m k := by
  induction h with
  | nil => exact ⟨[], .nil, .nil⟩
  | cons hab _ ih =>
    obtain ⟨c, h1, h2⟩ := g _ (by simp) _ (by simp) hab
    obtain ⟨k, h3, h4⟩ := ih (fun a ha b hb => g a (by simp [ha]) b (by simp [hb]))
    exact ⟨c :: k, .cons h1 h3, .cons h2 h4⟩

theorem all₂_from {α β : Type} {R : α → β → Prop} {l : List α} {m : List β} (h : All₂ R l m) {i : Nat} {b : β} (hb : m[i]? = some b) :
    ∃ a, l[i]? = some a ∧ R a b := by
  induction h generalizing i with
  | nil => simp at hb
  | cons hab _ ih =>
    cases i with
    | zero => simp only [List.getElem?_cons_zero, Option.some.injEq] at hb; subst hb; exact ⟨_, rfl, hab⟩
    | succ i => exact ih hb

theorem all₂_to {α β : Type} {R : α → β → Prop} {l : List α} {m : List β} (h : All₂ R l m) {i : Nat} {a : α} (ha : l[i]? = some a) :
    ∃ b, m[i]? = some b ∧ R a b := by
  induction h generalizing i with
  | nil => simp at ha
  | cons hab _ ih =>
    cases i with
    | zero => simp only [List.getElem?_cons_zero, Option.some.injEq] at ha; subst ha; exact ⟨_, rfl, hab⟩
    | succ i => exact ih ha

theorem all₂_of_get {α β : Type} {R : α → β → Prop} : ∀ {l : List α} {m : List β}, l.length = m.length →
    (∀ (i : Nat) (a : α) (b : β), l[i]? = some a → m[i]? = some b → R a b) → All₂ R l m
  | [], [], _, _ => .nil
  | [], _ :: _, h, _ => by simp at h
  | _ :: _, [], h, _ => by simp at h
  | a :: l, b :: m, h, hR => .cons (hR 0 a b rfl rfl) (all₂_of_get (by simpa using h) (fun i a b h1 h2 => hR (i + 1) a b h1 h2))

/-- two lists of lists which correspond to each other when they are put end to end, where each element tells the number of its list -/
theorem all₂_unflat {α β γ δ : Type} {R : γ → δ → Prop} (f : α → List γ) (g : β → List δ) (key : γ → Int) (key' : δ → Int)
    (hR : ∀ a b, R a b → key a = key' b) : ∀ (l : List α) (m : List β) (n : Int), l.length = m.length →
    (∀ (i : Nat) (a : α), l[i]? = some a → ∀ x ∈ f a, key x = n + i) → (∀ (i : Nat) (b : β), m[i]? = some b → ∀ x ∈ g b, key' x = n + i) →
    All₂ R (l.flatMap f) (m.flatMap g) → All₂ (fun a b => All₂ R (f a) (g b)) l m
  | [], [], _, _, _, _, _ => .nil
  | [], _ :: _, _, h, _, _, _ => by simp at h
  | _ :: _, [], _, h, _, _, _ => by simp at h
  | a :: l, b :: m, n, h, h1, h2, h3 => by
    rw [List.flatMap_cons, List.flatMap_cons] at h3
    have ha : ∀ x ∈ f a, key x = n := fun x hx => by have := h1 0 a rfl x hx; simpa using this
    have hb : ∀ x ∈ g b, key' x = n := fun x hx => by have := h2 0 b rfl x hx; simpa using this
    have hl : ∀ x ∈ l.flatMap f, n < key x := by
      intro x hx
      obtain ⟨c, hc, hx⟩ := List.mem_flatMap.mp hx
      obtain ⟨i, hi⟩ := List.mem_iff_getElem?.mp hc
      have := h1 (i + 1) c hi x hx
      omega
    have hm : ∀ x ∈ m.flatMap g, n < key' x := by
      intro x hx
      obtain ⟨c, hc, hx⟩ := List.mem_flatMap.mp hx
      obtain ⟨i, hi⟩ := List.mem_iff_getElem?.mp hc
      have := h2 (i + 1) c hi x hx
      omega
    have key1 : ∀ (u : List γ) (v : List δ) (u' : List γ) (v' : List δ), (∀ x ∈ u, key x = n) → (∀ x ∈ v, key' x = n) → (∀ x ∈ u', n < key x) →
        (∀ x ∈ v', n < key' x) → All₂ R (u ++ u') (v ++ v') → All₂ R u v ∧ All₂ R u' v' := by
      intro u
      induction u with
      | nil =>
        intro v u' v' _ hv hu' _ hall
        cases v with
        | nil => exact ⟨.nil, hall⟩
        | cons y v =>
          exfalso
          obtain ⟨x, hx, hxy⟩ := hall.mem_right (b := y) (by simp)
          have e1 := hu' x (by simpa using hx)
          have e2 := hv y (by simp)
          have e3 := hR _ _ hxy
          omega
      | cons x u ih =>
        intro v u' v' hu hv hu' hv' hall
        cases v with
        | nil =>
          exfalso
          obtain ⟨y, hy, hxy⟩ := hall.mem_left (a := x) (by simp)
          have e1 := hv' y (by simpa using hy)
          have e2 := hu x (by simp)
          have e3 := hR _ _ hxy
          omega
        | cons y v =>
          cases hall with
          | cons hxy hall =>
            obtain ⟨i1, i2⟩ := ih v u' v' (fun z hz => hu z (by simp [hz])) (fun z hz => hv z (by simp [hz])) hu' hv' hall
            exact ⟨.cons hxy i1, i2⟩
    obtain ⟨i1, i2⟩ := key1 _ _ _ _ ha hb hl hm h3
    refine .cons i1 (all₂_unflat f g key key' hR l m (n + 1) (by simpa using h) ?_ ?_ i2)
    · intro i c hi x hx
      have := h1 (i + 1) c hi x hx
      omega
    · intro i c hi x hx
      have := h2 (i + 1) c hi x hx
      omega

/-- the rows of a table show the picture -/
def TableShows (p : Picture) (rows : List (View Content)) : Prop :=
  All₂ (fun l r => r.nature = some l.kind ∧ All₂ (fun b c => c.box = b.1 ∧ contentToks c.content = b.2) l.cells r.owned) p rows

/-- each rectangle starts in its line -/
def Starts (p : Picture) : Prop := ∀ (i : Nat) (l : Line), p[i]? = some l → ∀ c ∈ l.cells, c.1.min.y = (i : Int) + 1

theorem range_of_sorted {n : Nat} {l : List Nat} (hp : l.Perm (List.range n)) (hs : l.Pairwise (· < ·)) : l = List.range n :=
  hp.eq_of_pairwise (le := (· < ·)) (fun a b _ _ h1 h2 => by omega) hs List.pairwise_lt_range

/-- a picture whose lines are already in the right order does not change -/
theorem regrouped_same {sorting : List String} {p q : Picture} (h : Regrouped sorting p q) (hg : Grouped sorting p) (hp : Starts p) (hq : Starts q) : q = p := by
  obtain ⟨rank, order, h1, h2, h3, h4⟩ := h
  have hs := hg rank h1
  have hmem : ∀ i ∈ order, ∃ l, p[i]? = some l := by
    intro i hi
    have := List.mem_range.mp (h2.mem_iff.mp hi)
    exact ⟨p[i], List.getElem?_eq_getElem this⟩
  have hlt : order.Pairwise (· < ·) := by
    refine h3.imp_of_mem ?_
    intro i j hi hj h
    obtain ⟨l, hl⟩ := hmem i hi
    obtain ⟨m, hm⟩ := hmem j hj
    rcases h l m hl hm with h | ⟨_, h⟩
    · refine Classical.byContradiction fun hn => ?_
      have hij : j ≤ i := by omega
      rcases Nat.lt_or_eq_of_le hij with hij | rfl
      · obtain ⟨hi', rfl⟩ := List.getElem?_eq_some_iff.mp hl
        obtain ⟨hj', rfl⟩ := List.getElem?_eq_some_iff.mp hm
        have := List.pairwise_iff_getElem.mp hs j i hj' hi' hij
        omega
      · rw [hl] at hm; cases hm; omega
    · exact h
  have ho := range_of_sorted h2 hlt
  subst ho
  have hlen : p.length = q.length := by have := h4.length; simpa using this
  apply List.ext_getElem?
  intro i
  by_cases hi : i < p.length
  · obtain ⟨m, hm, l, hl, hk, hall⟩ := all₂_to h4 (i := i) (a := i) (by simp [hi])
    rw [hm, hl]
    have e1 := hp i l hl
    have e2 := hq i m hm
    obtain ⟨k1, c1⟩ := l
    obtain ⟨k2, c2⟩ := m
    simp only at hk hall e1 e2
    subst hk
    congr 2
    clear hm hl
    induction hall with
    | nil => rfl
    | @cons a b _ _ hab _ ih =>
      rw [ih (fun c hc => e1 c (by simp [hc])) (fun c hc => e2 c (by simp [hc]))]
      congr 1
      have f1 := e1 a (by simp)
      have f2 := e2 b (by simp)
      obtain ⟨⟨⟨ax, ay⟩, ⟨bx, by'⟩⟩, s⟩ := a
      obtain ⟨⟨⟨cx, cy⟩, ⟨dx, dy⟩⟩, s'⟩ := b
      simp only at hab f1 f2
      obtain ⟨g1, g2, g3, rfl⟩ := hab
      subst g1 g2 f1 f2
      have : dy = by' := by omega
      rw [this]
  · rw [List.getElem?_eq_none (by omega), List.getElem?_eq_none (by omega)]

theorem shows_get {p : Picture} {rows : List (View Content)} (h : TableShows p rows) {cells : List (Cell Content)} (hd : Describes .row cells rows)
    {r : View Content} (hr : r ∈ rows) : ∃ l, p[(r.pos - 1).toNat]? = some l ∧ r.nature = some l.kind ∧ (r.pos - 1).toNat < rows.length ∧ 1 ≤ r.pos ∧
      All₂ (fun b c => c.box = b.1 ∧ contentToks c.content = b.2) l.cells r.owned := by
  obtain ⟨i, hi⟩ := List.mem_iff_getElem?.mp hr
  obtain ⟨l, hl, h1, h2⟩ := all₂_from h hi
  obtain ⟨hlt, rfl⟩ := List.getElem?_eq_some_iff.mp hi
  have e := hd.pos i hlt
  have : (rows[i].pos - 1).toNat = i := by omega
  rw [this]
  exact ⟨l, hl, h1, hlt, by omega, h2⟩

theorem positions_of {cells : List (Cell Content)} {rows : List (View Content)} (hd : Describes .row cells rows) :
    rows.map (fun r => (r.pos - 1).toNat) = List.range rows.length := by
  apply List.ext_getElem
  · simp
  · intro i h1 h2
    simp only [List.length_map] at h1
    have := hd.pos i h1
    simp only [List.getElem_map, List.getElem_range]
    omega

/-- **the picture of a table, and that of the CALS document which is written** -/
theorem cals_shown {ns : Option String} {u : List Char} {tg : Bool} {sorting : Option (List String)} {fl : Rat → Rat} {bc : Cals.Config}
    (hcfg : Cals.Config.new ns u tg sorting fl = .ok bc)
    {t : Table Content} (hi : t.Inv) {rows cols : List (View Content)} (hrows : eval (Table.views .row) t = .ok rows)
    (hcols : eval (Table.views .col) t = .ok cols)
    (hne : t.cells ≠ []) (hdis : DisjointCells t.cells)
    (hfull : ∀ p : Coord, 1 ≤ p.x → p.x ≤ cols.length → 1 ≤ p.y → p.y ≤ rows.length → Covered t.cells p)
    (hord : ∀ r ∈ rows, r.owned.Pairwise (fun a b => a.min.x < b.min.x))
    {p : Picture} (hp : TableShows p rows) (hkind : ∀ l ∈ p, l.kind ∈ ["header", "body", "footer"])
    (hone : OneKind p) (hplain : Without bc.ns calsNames p)
    {tree : Node} (h : eval (Cals.generate bc) t = .ok tree) :
    ∃ (d : CalsDoc) (q : Picture), d.table = tree ∧ d.Nested bc.ns ∧ d.Drawn bc.ns cols.length rows.length ∧ d.Columns bc.ns cols.length ∧
      CalsShows d q ∧ Regrouped bc.tgroupSorting p q ∧ (Grouped bc.tgroupSorting p → q = p) := by
  have hr : rows = t.baseViews .row := by
    unfold eval at hrows; rw [Table.views_run .row t hi.grid] at hrows; cases hrows; rfl
  have hd : Describes .row t.grid.cells rows := by rw [hr]; exact Table.base_describes hi .row
  have hbody : "body" ∈ bc.tgroupSorting := by
    unfold Cals.Config.new at hcfg
    split at hcfg
    · cases hcfg
      rename_i h1
      simp only [List.all_cons, List.all_nil, Bool.and_true, Bool.and_eq_true] at h1
      rcases sortingDict_get (sortingOption sorting) "body" with ⟨h2, _⟩ | ⟨i, _, h2, _⟩
      · have := h1.2.2
        unfold Dict.has at this
        rw [h2] at this
        simp at this
      · exact List.mem_of_getElem? h2
    · cases hcfg
  -- the row of a cell and its line
  have hcell : ∀ c ∈ t.cells, ∃ l ∈ p, ∃ b ∈ l.cells, c.box = b.1 ∧ contentToks c.content = b.2 := by
    intro c hc
    rw [show t.cells = t.grid.cells from rfl, ← owned_eq hi hd hord] at hc
    obtain ⟨r, hr', hc⟩ := List.mem_flatMap.mp hc
    obtain ⟨l, hl, _, _, _, hall⟩ := shows_get hp hd hr'
    obtain ⟨b, hb, h1, h2⟩ := hall.mem_right hc
    exact ⟨l, List.mem_of_getElem? hl, b, hb, h1, h2⟩
  have hspan : ∀ c ∈ t.cells, ∀ r ∈ rows, ∀ r' ∈ rows, c.min.y ≤ r.pos → r.pos ≤ c.max.y → c.min.y ≤ r'.pos → r'.pos ≤ c.max.y → r.nature = r'.nature := by
    intro c hc r hr r' hr' h1 h2 h3 h4
    obtain ⟨l, hl, b, hb, e, _⟩ := hcell c hc
    obtain ⟨m, hm, n1, _, p1, _⟩ := shows_get hp hd hr
    obtain ⟨m', hm', n2, _, p2, _⟩ := shows_get hp hd hr'
    simp only [Cell.min, Cell.max] at h1 h2 h3 h4
    rw [e] at h1 h2 h3 h4
    rw [n1, n2, hone l hl b hb _ m hm (by omega) (by omega), hone l hl b hb _ m' hm' (by omega) (by omega)]
  have hplain' : ∀ c ∈ t.cells, NoCalsElement bc.ns c.content := by
    intro c hc tg a htok hns
    obtain ⟨l, hl, b, hb, _, e⟩ := hcell c hc
    rw [e] at htok
    exact hplain l hl b hb tg a htok hns
  obtain ⟨d, order, w1, w2, w3, w4, w5, w6, w7⟩ := cals_written hcfg hi hrows hcols hne hdis hfull hord hspan hplain' h
  have hrank : ∀ n, RankIs bc.tgroupSorting n (rank bc n) := fun n => rank_spec bc hbody n
  have hmem : ∀ r ∈ order, r ∈ rows := fun r hr => w5.mem_iff.mp hr
  obtain ⟨q, hq1, hq2⟩ := all₂_split (S := fun r m => ∃ l, p[(r.pos - 1).toNat]? = some l ∧ Moved l m)
    (T := fun x l => KindOf x.1 l.kind ∧ l.cells = x.2.entries.map (fun e => (e.box, insideToks e.node))) w7 (by
    rintro r hr x - ⟨htag, hent⟩
    obtain ⟨l, hl, n1, _, _, hall⟩ := shows_get hp hd (hmem r hr)
    refine ⟨⟨l.kind, x.2.entries.map (fun e => (e.box, insideToks e.node))⟩, ⟨l, hl, rfl, ?_⟩, ⟨_, htag, ?_⟩, rfl⟩
    · refine All₂.map_right (hall.trans hent ?_)
      rintro b c e ⟨e1, e2⟩ he
      refine ⟨?_, ?_, ?_, ?_⟩
      · rw [he.box, ← e1]; rfl
      · rw [he.box, ← e1]; rfl
      · rw [he.box, ← e1]; simp only [newBox]; omega
      · rw [he.entry.content, e2]
    · have := hkind l (List.mem_of_getElem? hl)
      rw [n1]
      show (groupTag (some l.kind), l.kind) ∈ _
      simp only [List.mem_cons, List.not_mem_nil, or_false] at this
      rcases this with e | e | e <;> rw [e] <;> simp [groupTag])
  have hre : Regrouped bc.tgroupSorting p q := by
    refine ⟨fun k => rank bc (some k), order.map (fun r => (r.pos - 1).toNat), fun k => hrank _, ?_, ?_, All₂.map_left hq1⟩
    · have := w5.map (fun r : View Content => (r.pos - 1).toNat)
      rw [positions_of hd, ← hp.length] at this
      exact this
    · rw [List.pairwise_map]
      refine (w6 (rank bc) hrank).imp_of_mem ?_
      intro r r' hr hr' hrr l m hl hm
      obtain ⟨l', hl', n1, _, p1, _⟩ := shows_get hp hd (hmem r hr)
      obtain ⟨m', hm', n2, _, p2, _⟩ := shows_get hp hd (hmem r' hr')
      rw [hl] at hl'; cases hl'
      rw [hm] at hm'; cases hm'
      rw [n1, n2] at hrr
      rcases hrr with h | ⟨h, h'⟩
      · exact .inl h
      · exact .inr ⟨h, by omega⟩
  refine ⟨d, q, w1, w2, w3, w4, hq2, hre, ?_⟩
  intro hg
  refine regrouped_same hre hg ?_ ?_
  · intro i l hl c hc
    obtain ⟨r, hr, n1, hall⟩ := all₂_to hp hl
    obtain ⟨cell, hcell, e1, _⟩ := hall.mem_left hc
    obtain ⟨hlt, rfl⟩ := List.getElem?_eq_some_iff.mp hr
    have h1 := ((hd.owned _ (List.getElem_mem hlt) cell).mp hcell).2
    have h2 := hd.pos i hlt
    rw [← e1]
    have : cell.box.min.y = rows[i].pos := h1
    omega
  · intro i l hl c hc
    obtain ⟨x, hx, _, e⟩ := all₂_from hq2 hl
    rw [e] at hc
    obtain ⟨en, hen, rfl⟩ := List.mem_map.mp hc
    exact w3.starts i x hx en hen

end Benker
