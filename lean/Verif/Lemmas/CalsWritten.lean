import Verif.Props.CalsDoc

/-! The CALS builder writes documents which are drawn: the rows of the table, in the order of the groups. -/

namespace Benker
open PyM Cals CalsSpec

/-! ### groups of rows -/

theorem groupBy_head [DecidableEq κ] (key : α → κ) (x : α) (l : List α) : ∃ g rest, groupBy key (x :: l) = (x :: g) :: rest := by
  unfold groupBy
  split
  · split
    · exact ⟨_, _, rfl⟩
    · exact ⟨_, _, rfl⟩
  · exact ⟨_, _, rfl⟩

theorem groupBy_adjacent [DecidableEq κ] (key : α → κ) {x y : α} (h : key x = key y) (post : List α) :
    ∀ pre : List α, ∃ g ∈ groupBy key (pre ++ x :: y :: post), ∃ a b, g = a ++ x :: y :: b
  | [] => by
    obtain ⟨g, rest, e⟩ := groupBy_head key y post
    refine ⟨x :: y :: g, ?_, [], g, rfl⟩
    rw [List.nil_append, groupBy, e]
    simp [h]
  | z :: pre => by
    obtain ⟨g, hg, a, b, rfl⟩ := groupBy_adjacent key h post pre
    rw [List.cons_append, groupBy]
    split
    · rename_i u us rest e
      rw [e] at hg
      split
      · rcases List.mem_cons.mp hg with e' | hg
        · exact ⟨z :: (a ++ x :: y :: b), by rw [e']; simp, z :: a, b, by simp⟩
        · exact ⟨_, List.mem_cons_of_mem _ hg, a, b, rfl⟩
      · exact ⟨_, List.mem_cons_of_mem _ hg, a, b, rfl⟩
    · exact ⟨_, List.mem_cons_of_mem _ hg, a, b, rfl⟩

/-- two rows of the same nature which follow each other still do so when they are written -/
theorem rowGroups_adjacent (cfg : Cals.Config) {r r' : View Content} (h : r.nature = r'.nature) (pre post : List (View Content)) :
    ∃ a b, (rowGroups cfg (pre ++ r :: r' :: post)).flatten = a ++ r :: r' :: b := by
  obtain ⟨g, hg, a, b, rfl⟩ := groupBy_adjacent (fun r : View Content => r.nature) h post pre
  have hg' : a ++ r :: r' :: b ∈ rowGroups cfg (pre ++ r :: r' :: post) := (sortedBy_perm _ _).mem_iff.mpr hg
  obtain ⟨u, v, e⟩ := List.append_of_mem hg'
  refine ⟨u.flatten ++ a, b ++ v.flatten, ?_⟩
  rw [e]
  simp

/-- the row where a line of the table is written, counted from 1 -/
def newRow (order : List (View Content)) (y : Int) : Int := (order.findIdx (fun r => r.pos == y) : Nat) + 1

/-- the rectangle of a cell where it is written -/
def newBox (order : List (View Content)) (b : Box) : Box :=
  ⟨⟨b.min.x, newRow order b.min.y⟩, ⟨b.max.x, newRow order b.min.y + (b.max.y - b.min.y)⟩⟩

theorem newRow_of {order a b : List (View Content)} {r : View Content} (hn : (order.map (·.pos)).Nodup) (h : order = a ++ r :: b) :
    newRow order r.pos = (a.length : Int) + 1 := by
  subst h
  unfold newRow
  rw [List.findIdx_append, if_neg, List.findIdx_cons]
  · simp
  · rw [List.map_append, List.nodup_append] at hn
    rw [List.findIdx_lt_length]
    rintro ⟨x, hx, he⟩
    exact hn.2.2 x.pos (List.mem_map_of_mem hx) r.pos (by simp) (eq_of_beq he)

/-! ### the elements written -/

/-- an entry which is written for a cell -/
structure EntryOf (bc : Cals.Config) (order : List (View Content)) (c : Cell Content) (e : DocEntry) : Prop where
  entry : EntryFor bc c e.node
  box : e.box = newBox order c.box

/-- a row which is written for a row of a table -/
structure RowOf (bc : Cals.Config) (order : List (View Content)) (r : View Content) (d : DocRow) : Prop where
  tag : d.node.tag? = some (bc.q "row")
  children : d.node.children = d.entries.map (·.node)
  entries : All₂ (EntryOf bc order) r.owned d.entries

theorem holds_refl (ns : Option String) : ∀ l : List Node, Holds ns l l
  | [] => .nil
  | n :: l => .take n l l (holds_refl ns l)

theorem holds_append {ns : Option String} {a a' b b' : List Node} (h : Holds ns a a') (h' : Holds ns b b') : Holds ns (a ++ b) (a' ++ b') := by
  induction h with
  | nil => exact h'
  | take n p q _ ih => exact .take n _ _ ih
  | skip n p q hn _ ih => exact .skip n _ _ hn ih

theorem noCals_pi (ns : Option String) (a b : String) : NoCals ns [.pi a b none] := by
  intro t x h
  simp [toksList, toks, textToks] at h

theorem all₂_of_map {R : α → β → Prop} {S : α → γ → Prop} {f : γ → β} {l : List α} {m : List β} (h : All₂ R l m)
    (g : ∀ a ∈ l, ∀ b, R a b → ∃ c, f c = b ∧ S a c) : ∃ k : List γ, k.map f = m ∧ All₂ S l k := by
  induction h with
  | nil => exact ⟨[], rfl, .nil⟩
  | cons hab _ ih =>
    obtain ⟨c, h1, h2⟩ := g _ (by simp) _ hab
    obtain ⟨k, h3, h4⟩ := ih (fun a ha => g a (by simp [ha]))
    exact ⟨c :: k, by simp [h1, h3], .cons h2 h4⟩

theorem row_written {bc : Cals.Config} (order : List (View Content)) {r : View Content} {nodes : List Node} (h : RowFor bc r nodes) :
    ∃ d : DocRow, Holds bc.ns [d.node] nodes ∧ RowOf bc order r d := by
  obtain ⟨row, hn, h1, _, _, h2⟩ := h
  obtain ⟨es, h3, h4⟩ := all₂_of_map (S := EntryOf bc order) (f := fun e : DocEntry => e.node) h2
    (fun c _ e he => ⟨⟨e, newBox order c.box⟩, rfl, he, rfl⟩)
  refine ⟨⟨row, es⟩, ?_, h1, h3.symm, h4⟩
  rcases hn with ⟨rfl, _⟩ | ⟨d1, d2, rfl, _⟩
  · exact holds_refl _ _
  · exact .skip _ _ _ (noCals_pi _ _ _) (.take _ _ _ (.skip _ _ _ (noCals_pi _ _ _) .nil))

theorem rows_written {bc : Cals.Config} (order : List (View Content)) {g : List (View Content)} {nodes : List (List Node)} (h : All₂ (RowFor bc) g nodes) :
    ∃ ds : List DocRow, Holds bc.ns (ds.map (·.node)) nodes.flatten ∧ All₂ (RowOf bc order) g ds := by
  induction h with
  | nil => exact ⟨[], .nil, .nil⟩
  | cons hr _ ih =>
    obtain ⟨d, h1, h2⟩ := row_written order hr
    obtain ⟨ds, h3, h4⟩ := ih
    exact ⟨d :: ds, holds_append h1 h3, .cons h2 h4⟩

/-- a body which is written for a group of rows -/
structure BodyOf (bc : Cals.Config) (order : List (View Content)) (g : List (View Content)) (d : DocBody) : Prop where
  tag : d.node.tag? = some (bc.q (groupTag (groupNature g)))
  children : Holds bc.ns (d.rows.map (·.node)) d.node.children
  rows : All₂ (RowOf bc order) g d.rows

/-- all the rows of the bodies -/
theorem rows_of_bodies {bc : Cals.Config} {order : List (View Content)} {groups : List (List (View Content))} {bodies : List DocBody}
    (hc : ∀ g ∈ groups, ∀ r ∈ g, r.nature = groupNature g) (h : All₂ (BodyOf bc order) groups bodies) :
    All₂ (fun r x => RowOf bc order r x.2 ∧ x.1.tag? = some (bc.q (groupTag r.nature))) groups.flatten
      (bodies.flatMap (fun b => b.rows.map (fun r => (b.node, r)))) := by
  induction h with
  | nil => exact .nil
  | @cons g b gs bs hb _ ih =>
    rw [List.flatten_cons, List.flatMap_cons]
    refine All₂.append ?_ (ih (fun g hg => hc g (by simp [hg])))
    have hg := hc g (by simp)
    have h1 := hb.tag
    have h2 := hb.rows
    generalize groupNature g = nat at hg h1
    generalize b.rows = rs at h2
    clear hb hc
    induction h2 with
    | nil => exact .nil
    | cons hr _ ih =>
      exact .cons ⟨hr, by rw [hg _ (by simp)]; exact h1⟩ (ih (fun r hr => hg r (by simp [hr])))

theorem entry_spans {bc : Cals.Config} {c : Cell Content} {e : Node} (hv : c.box.Valid) (h : EntryFor bc c e) :
    SpansColumns (e.attr ⟨bc.ns, "namest"⟩) (e.attr ⟨bc.ns, "nameend"⟩) (c.box.max.x - c.box.min.x + 1) ∧
    SpansRows (e.attr ⟨bc.ns, "morerows"⟩) (c.box.max.y - c.box.min.y + 1) := by
  unfold Box.Valid at hv
  refine ⟨?_, ?_⟩
  · by_cases hc : c.min.x = c.max.x
    · obtain ⟨h1, h2⟩ := h.oneColumn hc
      refine .inl ⟨h1, h2, ?_⟩
      simp only [Cell.min, Cell.max] at hc; omega
    · obtain ⟨h1, h2⟩ := h.columns hc
      obtain ⟨a, ha⟩ := Int.eq_ofNat_of_zero_le (show 0 ≤ c.min.x by simp only [Cell.min]; omega)
      obtain ⟨b, hb⟩ := Int.eq_ofNat_of_zero_le (show 0 ≤ c.max.x by simp only [Cell.max]; omega)
      rw [ha] at h1
      rw [hb] at h2
      refine .inr ⟨_, _, a, b, h1, h2, firstNumber_col, firstNumber_col, ?_⟩
      simp only [Cell.min, Cell.max] at ha hb
      rw [ha, hb]
  · by_cases hc : c.min.y = c.max.y
    · refine .inl ⟨h.oneRow hc, ?_⟩
      simp only [Cell.min, Cell.max] at hc; omega
    · have h1 := h.rows hc
      obtain ⟨a, ha⟩ := Int.eq_ofNat_of_zero_le (show 0 ≤ c.max.y - c.min.y by simp only [Cell.min, Cell.max]; omega)
      rw [ha] at h1
      refine .inr ⟨_, a, h1, isNumber_intStr, ?_⟩
      simp only [Cell.min, Cell.max] at ha
      omega

/-! ### the document -/

theorem all₂_flatMap {α β γ δ : Type} {R : α → β → Prop} {S : γ → δ → Prop} {f : α → List γ} {g : β → List δ} {l : List α} {m : List β} (h : All₂ R l m)
    (hR : ∀ a b, R a b → All₂ S (f a) (g b)) : All₂ S (l.flatMap f) (m.flatMap g) := by
  induction h with
  | nil => exact .nil
  | cons hab _ ih => rw [List.flatMap_cons, List.flatMap_cons]; exact (hR _ _ hab).append ih

theorem all₂_pairwise {α β : Type} {R : α → β → Prop} {P : α → α → Prop} {Q : β → β → Prop} {l : List α} {m : List β} (h : All₂ R l m)
    (hp : l.Pairwise P) (hPQ : ∀ a ∈ l, ∀ a' ∈ l, ∀ b b', R a b → R a' b' → P a a' → Q b b') : m.Pairwise Q := by
  induction h with
  | nil => exact .nil
  | @cons a b l m hab hrest ih =>
    rw [List.pairwise_cons] at hp ⊢
    refine ⟨?_, ih hp.2 (fun a ha a' ha' => hPQ a (by simp [ha]) a' (by simp [ha']))⟩
    intro b' hb'
    obtain ⟨a', ha', hr⟩ := hrest.mem_right hb'
    exact hPQ a (by simp) a' (by simp [ha']) b b' hab hr (hp.1 a' ha')

theorem sorted_stable {α : Type} (key : α → Int) (pos : α → Int) {l m : List α} (hl : l.Pairwise (fun a b => pos a < pos b))
    (h1 : m.Pairwise (fun a b => key a ≤ key b)) (h2 : ∀ k, m.filter (fun a => key a = k) = l.filter (fun a => key a = k)) :
    m.Pairwise (fun a b => key a < key b ∨ key a = key b ∧ pos a < pos b) := by
  rw [List.pairwise_iff_forall_sublist] at h1 ⊢
  intro a b hab
  have hle := h1 hab
  by_cases he : key a = key b
  · refine .inr ⟨he, ?_⟩
    have hs := hab.filter (fun x => key x = key b)
    rw [h2] at hs
    simp only [List.filter_cons, he, decide_true, if_true, List.filter_nil] at hs
    rw [List.pairwise_iff_forall_sublist] at hl
    exact hl (hs.trans List.filter_sublist)
  · exact .inl (by omega)

/-- **what the CALS builder writes is drawn**: the rows of a table without holes nor overlaps, where no cell spans rows of different natures, are
written in the order of the groups; each of the cells keeps its columns, its number of rows and its content -/
theorem cals_written {ns : Option String} {u : List Char} {tg : Bool} {sorting : Option (List String)} {fl : Rat → Rat} {bc : Cals.Config}
    (hcfg : Cals.Config.new ns u tg sorting fl = .ok bc)
    {t : Table Content} (hi : t.Inv) {rows cols : List (View Content)} (hrows : eval (Table.views .row) t = .ok rows)
    (hcols : eval (Table.views .col) t = .ok cols)
    (hne : t.cells ≠ []) (hdis : DisjointCells t.cells)
    (hfull : ∀ p : Coord, 1 ≤ p.x → p.x ≤ cols.length → 1 ≤ p.y → p.y ≤ rows.length → Covered t.cells p)
    (hord : ∀ r ∈ rows, r.owned.Pairwise (fun a b => a.min.x < b.min.x))
    (hspan : ∀ c ∈ t.cells, ∀ r ∈ rows, ∀ r' ∈ rows, c.min.y ≤ r.pos → r.pos ≤ c.max.y → c.min.y ≤ r'.pos → r'.pos ≤ c.max.y → r.nature = r'.nature)
    (hplain : ∀ c ∈ t.cells, NoCalsElement bc.ns c.content)
    {tree : Node} (h : eval (Cals.generate bc) t = .ok tree) :
    ∃ (d : CalsDoc) (order : List (View Content)), d.table = tree ∧ d.Nested bc.ns ∧ d.Drawn bc.ns cols.length rows.length ∧ d.Columns bc.ns cols.length ∧
      order.Perm rows ∧
      (∀ rk : Option String → Int, (∀ n, RankIs bc.tgroupSorting n (rk n)) →
        order.Pairwise (fun r r' => rk r.nature < rk r'.nature ∨ rk r.nature = rk r'.nature ∧ r.pos < r'.pos)) ∧
      All₂ (fun r x => x.1.tag? = some (bc.q (groupTag r.nature)) ∧ All₂ (EntryOf bc order) r.owned x.2.entries) order d.rows := by
  obtain ⟨bb, hbb, he⟩ := generate_eq hi bc
  have hr : rows = t.baseViews .row := by
    unfold eval at hrows; rw [Table.views_run .row t hi.grid] at hrows; cases hrows; rfl
  have hc : cols = t.baseViews .col := by
    unfold eval at hcols; rw [Table.views_run .col t hi.grid] at hcols; cases hcols; rfl
  have hdr : Describes .row t.grid.cells rows := by rw [hr]; exact Table.base_describes hi .row
  have hdc : Describes .col t.grid.cells cols := by rw [hc]; exact Table.base_describes hi .col
  rw [he, ← hr, ← hc] at h
  obtain ⟨attrs, tattrs, colspecs, bodies, B, hB, hB1, hB2, rfl, h1, h1', h2, h3⟩ := buildTree_raw h
  have howned := owned_eq hi hdr hord
  obtain ⟨g1, g2, g3, g4⟩ := rowGroups_spec bc rows
  have hadj : ∀ (pre post : List (View Content)) (r r' : View Content), rows = pre ++ r :: r' :: post → r.nature = r'.nature →
      ∃ a b, (rowGroups bc rows).flatten = a ++ r :: r' :: b := by
    intro pre post r r' e hn; rw [e]; exact rowGroups_adjacent bc hn pre post
  obtain ⟨order, horder⟩ : ∃ order, order = (rowGroups bc rows).flatten := ⟨_, rfl⟩
  rw [← horder] at g2 g3 g4 hadj
  have hvalid : ∀ c ∈ t.grid.cells, c.box.Valid := hi.grid.valid
  -- the document
  obtain ⟨ds, hds1, hds2⟩ := all₂_of_map (S := BodyOf bc order) (f := fun b : DocBody => b.node) h3 (by
    rintro g hg body ⟨nodes, rfl, hn⟩
    obtain ⟨ds, e1, e2⟩ := rows_written order (hn.imp_mem (fun r hr ns hb => buildRow_ok (fun c hc => by
      have : r ∈ rows := g2.mem_iff.mp (by rw [horder]; exact List.mem_flatten.mpr ⟨g, hg, hr⟩)
      exact hvalid c ((hdr.owned r this c).mp hc).1) hb))
    exact ⟨⟨_, ds⟩, rfl, rfl, e1, e2⟩)
  have hall := rows_of_bodies (fun g hg => (g1 g hg).2) hds2
  rw [← horder] at hall
  -- positions
  have hpos : rows.Pairwise (fun r r' => r.pos < r'.pos) := by
    rw [List.pairwise_iff_getElem]
    intro i j hi' hj hij
    rw [hdr.pos i hi', hdr.pos j hj]; omega
  have hnd : (order.map (·.pos)).Nodup := by
    refine (g2.map _).nodup_iff.mpr ?_
    exact List.pairwise_map.mpr (hpos.imp (fun h => by omega))
  have hlen : order.length = rows.length := g2.length_eq
  have at1 : ∀ (j : Nat) (r : View Content), order[j]? = some r → newRow order r.pos = (j : Int) + 1 := by
    intro j r hj
    obtain ⟨hlt, e⟩ := List.getElem?_eq_some_iff.mp hj
    have hsplit : order = order.take j ++ r :: order.drop (j + 1) := by
      rw [← e, List.getElem_cons_drop, List.take_append_drop]
    have := newRow_of hnd hsplit
    rw [this, List.length_take, Nat.min_eq_left (by omega)]
  have rowAt : ∀ y : Int, 1 ≤ y → y ≤ rows.length → ∃ (j : Nat) (r : View Content), order[j]? = some r ∧ r ∈ rows ∧ r.pos = y := by
    intro y h1 h2
    have hlt : (y - 1).toNat < rows.length := by omega
    have hm : rows[(y - 1).toNat] ∈ order := g2.mem_iff.mpr (List.getElem_mem hlt)
    obtain ⟨j, hj, e⟩ := List.mem_iff_getElem.mp hm
    refine ⟨j, _, List.getElem?_eq_some_iff.mpr ⟨hj, e⟩, List.getElem_mem hlt, ?_⟩
    rw [hdr.pos _ hlt]; omega
  have step : ∀ (i : Nat) (hi' : i + 1 < rows.length), rows[i].nature = rows[i + 1].nature → newRow order ((i : Int) + 2) = newRow order ((i : Int) + 1) + 1 := by
    intro i hi' hn
    have hsplit : rows = rows.take i ++ rows[i] :: rows[i + 1] :: rows.drop (i + 2) := by
      rw [List.getElem_cons_drop, List.getElem_cons_drop, List.take_append_drop]
    obtain ⟨a, b, e⟩ := hadj _ _ _ _ hsplit hn
    have e1 := newRow_of hnd e
    have e2 := newRow_of (a := a ++ [rows[i]]) (b := b) (r := rows[i + 1]) hnd (by rw [e]; simp)
    rw [hdr.pos _ (by omega)] at e1
    rw [hdr.pos _ hi', List.length_append] at e2
    rw [e1]
    rw [show (i : Int) + 2 = ((i + 1 : Nat) : Int) + 1 by omega, e2]
    simp
  have run : ∀ c ∈ t.grid.cells, ∀ k : Nat, c.min.y + k ≤ c.max.y → newRow order (c.min.y + k) = newRow order c.min.y + k := by
    intro c hc k
    have hv := hvalid c hc
    have hin := hdr.enough c hc
    unfold Box.Valid at hv
    simp only [Cell.min, Cell.max, lastLine] at hv hin ⊢
    induction k with
    | zero => intro _; simp
    | succ k ih =>
      intro hk
      have hk1 : (c.box.min.y + k - 1).toNat + 1 < rows.length := by omega
      have hs := step (c.box.min.y + k - 1).toNat hk1 (by
        refine hspan c hc _ (List.getElem_mem (by omega)) _ (List.getElem_mem hk1) ?_ ?_ ?_ ?_ <;> rw [hdr.pos] <;> simp only [Cell.min, Cell.max] <;> omega)
      rw [show ((c.box.min.y + k - 1).toNat : Int) + 2 = c.box.min.y + ((k + 1 : Nat) : Int) by omega,
        show ((c.box.min.y + k - 1).toNat : Int) + 1 = c.box.min.y + (k : Int) by omega, ih (by omega)] at hs
      rw [hs]; omega
  have back : ∀ c ∈ t.grid.cells, ∀ p : Coord, InBox p (newBox order c.box) → ∃ y, InBox ⟨p.x, y⟩ c.box ∧ newRow order y = p.y := by
    intro c hc p hp
    have := run c hc (p.y - newRow order c.box.min.y).toNat
    unfold newBox InBox at hp
    simp only [Cell.min, Cell.max] at hp this
    refine ⟨c.box.min.y + (p.y - newRow order c.box.min.y).toNat, ?_, ?_⟩
    · unfold InBox; simp only; omega
    · rw [this (by omega)]; omega
  have forth : ∀ c ∈ t.grid.cells, ∀ x y, InBox ⟨x, y⟩ c.box → InBox ⟨x, newRow order y⟩ (newBox order c.box) := by
    intro c hc x y hp
    have := run c hc (y - c.box.min.y).toNat
    unfold InBox at hp
    simp only [Cell.min, Cell.max] at hp this
    rw [show c.box.min.y + ((y - c.box.min.y).toNat : Int) = y by omega] at this
    unfold newBox InBox
    simp only
    rw [this (by omega)]; omega
  have bounds : ∀ y : Int, 1 ≤ y → y ≤ rows.length → 1 ≤ newRow order y ∧ newRow order y ≤ rows.length := by
    intro y h1 h2
    obtain ⟨j, r, hj, _, rfl⟩ := rowAt y h1 h2
    rw [at1 j r hj]
    have := (List.getElem?_eq_some_iff.mp hj).1
    omega
  have inj : ∀ y y' : Int, 1 ≤ y → y ≤ rows.length → 1 ≤ y' → y' ≤ rows.length → newRow order y = newRow order y' → y = y' := by
    intro y y' h1 h2 h3 h4 e
    obtain ⟨j, r, hj, _, rfl⟩ := rowAt y h1 h2
    obtain ⟨j', r', hj', _, rfl⟩ := rowAt y' h3 h4
    rw [at1 j r hj, at1 j' r' hj'] at e
    have : j = j' := by omega
    subst this
    rw [hj] at hj'; cases hj'; rfl
  -- the entries
  have hentries : All₂ (EntryOf bc order) (order.flatMap (·.owned))
      ((ds.flatMap (fun b => b.rows.map (fun r => (b.node, r)))).flatMap (fun r => r.2.entries)) :=
    all₂_flatMap hall (fun r x hx => hx.1.entries)
  have hentries' : ∀ x ∈ (CalsDoc.mk (Node.elem (bc.q "table") attrs none [.elem (bc.q "tgroup") tattrs none (colspecs ++ bodies) none] none)
      (.elem (bc.q "tgroup") tattrs none (colspecs ++ bodies) none) [] ds).entries, ∃ c ∈ t.grid.cells, EntryOf bc order c x.2 := by
    intro x hx
    obtain ⟨r, hr, hx⟩ := List.mem_flatMap.mp hx
    obtain ⟨e, he, rfl⟩ := List.mem_map.mp hx
    obtain ⟨c, hc, hce⟩ := hentries.mem_right (List.mem_flatMap.mpr ⟨r, hr, he⟩)
    obtain ⟨v, hv, hc⟩ := List.mem_flatMap.mp hc
    exact ⟨c, ((hdr.owned v (g2.mem_iff.mp hv) c).mp hc).1, hce⟩
  obtain ⟨cs, hcs1, hcs2⟩ : ∃ cs : List DocCol, cs.map (·.node) = colspecs ∧ ∀ (i : Nat) (c : DocCol), cs[i]? = some c → c.num = i + 1 := by
    refine ⟨colspecs.zipIdx.map (fun x => ⟨x.1, x.2 + 1⟩), ?_, ?_⟩
    · rw [List.map_map]
      exact List.zipIdx_map_fst 0 colspecs
    · intro i c hc
      rw [List.getElem?_map, List.getElem?_zipIdx] at hc
      cases hcc : colspecs[i]? with
      | none => rw [hcc] at hc; cases hc
      | some n => rw [hcc] at hc; simp at hc; rw [← hc]
  have hcolspec : ∀ (i : Nat) (c : DocCol), cs[i]? = some c → i < cols.length ∧ ColspecFor bc ((i : Int) + 1) c.node := by
    intro i c hc
    obtain ⟨hlt, e⟩ := List.getElem?_eq_some_iff.mp hc
    have hl := h2.length
    have hl' : cs.length = colspecs.length := by rw [← hcs1, List.length_map]
    have hb := h2.getElem i (by omega) (by omega)
    have := buildColspec_ok hb
    rw [hdc.pos i (by omega)] at this
    refine ⟨by omega, ?_⟩
    have e' : colspecs[i]'(by omega) = c.node := by
      rw [← e]; simp only [← hcs1, List.getElem_map]
    rw [← e']; exact this
  refine ⟨⟨_, .elem (bc.q "tgroup") tattrs none (colspecs ++ bodies) none, cs, ds⟩, order, rfl, ?_, ?_, ?_, g2, ?_, ?_⟩
  · refine ⟨rfl, holds_refl _ _, rfl, ?_, ?_, ?_, ?_, ?_⟩
    · rw [hcs1, hds1]; exact holds_refl _ _
    · intro c hc
      obtain ⟨i, hlt, e⟩ := List.mem_iff_getElem.mp hc
      obtain ⟨_, hs⟩ := hcolspec i c (List.getElem?_eq_some_iff.mpr ⟨hlt, e⟩)
      refine ⟨hs.tag, ?_⟩
      intro tk a hm
      have := hs.empty.1
      unfold insideToks at this
      rw [(List.append_eq_nil_iff.mp this).2] at hm
      cases hm
    · intro b hb
      obtain ⟨g, _, hg⟩ := hds2.mem_right hb
      refine ⟨⟨_, ?_, hg.tag⟩, hg.children⟩
      unfold groupTag
      split
      · simp
      split <;> simp
    · intro r hr
      obtain ⟨v, _, hv, _⟩ := hall.mem_right hr
      refine ⟨hv.tag, ?_⟩
      rw [hv.children]; exact holds_refl _ _
    · intro e he
      obtain ⟨c, hc, hce⟩ := hentries' e he
      refine ⟨hce.entry.tag, ?_⟩
      intro tk a hm
      have := hplain c hc tk a
      rw [← hce.entry.content] at this
      exact this (List.mem_append_right _ hm)
  · have hpos1 : 1 ≤ cols.length ∧ 1 ≤ rows.length := by
      obtain ⟨c, hc⟩ := List.exists_mem_of_ne_nil _ hne
      have e1 := hdc.enough c hc
      have e2 := lines_valid .col c (hvalid c hc)
      have e3 := hdr.enough c hc
      have e4 := lines_valid .row c (hvalid c hc)
      omega
    refine ⟨?_, hpos1, ?_, ?_, ?_, ?_, ?_, ?_⟩
    · rw [← hlen]; exact hall.length.symm
    · intro i x hx e he
      obtain ⟨hlt, ex⟩ := List.getElem?_eq_some_iff.mp hx
      have hl := hall.length
      obtain ⟨hro, _⟩ := hall.getElem i (by rw [hl]; exact hlt) hlt
      have ex' : (ds.flatMap (fun b => b.rows.map (fun r => (b.node, r))))[i]'hlt = x := ex
      rw [ex'] at hro
      obtain ⟨c, hc, hce⟩ := hro.entries.mem_right he
      have hm := ((hdr.owned _ (g2.mem_iff.mp (List.getElem_mem (by rw [hl]; exact hlt))) c).mp hc).2
      unfold StartsIn firstLine at hm
      simp only [Cell.min] at hm
      rw [hce.box]
      show newRow order c.box.min.y = _
      rw [hm]
      exact at1 i _ (List.getElem?_eq_getElem (by rw [hl]; exact hlt))
    · intro x hx
      obtain ⟨r, hr, hro, _⟩ := hall.mem_right hx
      refine all₂_pairwise hro.entries (hord r (g2.mem_iff.mp hr)) ?_
      intro a _ a' _ b b' h1 h2 hlt
      rw [h1.box, h2.box]
      exact hlt
    · intro e he
      obtain ⟨c, hc, hce⟩ := hentries' e he
      have := entry_spans (hvalid c hc) hce.entry
      rw [hce.box]
      unfold newBox
      simp only
      rw [show newRow order c.box.min.y + (c.box.max.y - c.box.min.y) - newRow order c.box.min.y + 1 = c.box.max.y - c.box.min.y + 1 by omega]
      exact this
    · intro e he
      obtain ⟨c, hc, hce⟩ := hentries' e he
      have hv := hvalid c hc
      have h1 := hdc.enough c hc
      have h2 := hdr.enough c hc
      have h3 := run c hc (c.max.y - c.min.y).toNat
      unfold Box.Valid at hv
      simp only [lastLine, Cell.max, Cell.min] at h1 h2 h3
      have h3 := h3 (by omega)
      rw [show c.box.min.y + ((c.box.max.y - c.box.min.y).toNat : Int) = c.box.max.y by omega] at h3
      have h4 := bounds c.box.max.y (by omega) h2
      rw [hce.box]
      unfold newBox
      simp only
      omega
    · have hp : (order.flatMap (·.owned)).Pairwise (fun a b : Cell Content => ¬ Overlap a.box b.box) := by
        have : (order.flatMap (·.owned)).Perm t.grid.cells := by rw [← howned]; exact g2.flatMap_right _
        refine (this.pairwise_iff ?_).mpr hdis
        intro a b hab ⟨p, h1, h2⟩
        exact hab ⟨p, h2, h1⟩
      have hp' := all₂_pairwise (Q := fun a b : DocEntry => ¬ Overlap a.box b.box) hentries hp (by
        intro a ha a' ha' b b' h1 h2 hno ⟨p, p1, p2⟩
        have hm : ∀ a ∈ order.flatMap (·.owned), a ∈ t.grid.cells := by
          intro a ha
          obtain ⟨v, hv, hc⟩ := List.mem_flatMap.mp ha
          exact ((hdr.owned v (g2.mem_iff.mp hv) a).mp hc).1
        rw [h1.box] at p1
        rw [h2.box] at p2
        obtain ⟨y1, i1, e1⟩ := back a (hm a ha) p p1
        obtain ⟨y2, i2, e2⟩ := back a' (hm a' ha') p p2
        have b1 := hdr.enough a (hm a ha)
        have b2 := hdr.enough a' (hm a' ha')
        have v1 := hvalid a (hm a ha)
        have v2 := hvalid a' (hm a' ha')
        have q1 := i1
        have q2 := i2
        unfold InBox at q1 q2
        unfold Box.Valid at v1 v2
        simp only [lastLine, Cell.max] at b1 b2 q1 q2
        have : y1 = y2 := inj y1 y2 (by omega) (by omega) (by omega) (by omega) (by rw [e1, e2])
        subst this
        exact hno ⟨_, i1, i2⟩)
      have e : ∀ l : List (Node × DocRow), (l.flatMap (fun r => r.2.entries.map (fun e => (r.1, e)))).map (·.2) = l.flatMap (fun r => r.2.entries) := by
        intro l
        rw [List.map_flatMap]
        congr 1
        funext r
        rw [List.map_map]
        exact List.map_id _
      rw [← e, List.pairwise_map] at hp'
      exact hp'
    · intro p h1 h2 h3 h4
      have hlt : (p.y - 1).toNat < order.length := by omega
      have hr := g2.mem_iff.mp (List.getElem_mem hlt)
      obtain ⟨i, hi', e⟩ := List.mem_iff_getElem.mp hr
      have hp' := hdr.pos i hi'
      rw [e] at hp'
      obtain ⟨c, hc, hcp⟩ := hfull ⟨p.x, order[(p.y - 1).toNat].pos⟩ h1 h2 (by simp only [hp']; omega) (by simp only [hp']; omega)
      have hf := forth c hc _ _ hcp
      rw [at1 _ _ (List.getElem?_eq_getElem hlt), show (((p.y - 1).toNat : Nat) : Int) + 1 = p.y by omega] at hf
      have hcm : c ∈ order.flatMap (·.owned) := by
        have : (order.flatMap (·.owned)).Perm t.grid.cells := by rw [← howned]; exact g2.flatMap_right _
        exact this.mem_iff.mpr hc
      obtain ⟨e, he, hce⟩ := hentries.mem_left hcm
      obtain ⟨x, hx, he⟩ := List.mem_flatMap.mp he
      refine ⟨(x.1, e), List.mem_flatMap.mpr ⟨x, hx, List.mem_map.mpr ⟨e, he, rfl⟩⟩, ?_⟩
      rw [hce.box]; exact hf
  · refine ⟨?_, ?_, ?_⟩
    · intro i c hc
      obtain ⟨_, hs⟩ := hcolspec i c hc
      refine .inr ⟨_, hs.colnum, ?_⟩
      rw [hcs2 i c hc]
      exact isNumber_intStr
    · intro c hc
      obtain ⟨i, hlt, e⟩ := List.mem_iff_getElem.mp hc
      have h0 := List.getElem?_eq_some_iff.mpr ⟨hlt, e⟩
      have h1 := (hcolspec i c h0).1
      have h2 := hcs2 i c h0
      omega
    · rw [List.pairwise_iff_getElem]
      intro i j hi' hj hij
      rw [hcs2 i _ (List.getElem?_eq_getElem hi'), hcs2 j _ (List.getElem?_eq_getElem hj)]
      omega
  · intro rk hrk
    have hrank : rk = rank bc := by
      funext n; exact rankIs_unique (hrk n) (rank_spec bc (config_new_sorting hcfg "body" (by simp)) n)
    rw [hrank]
    exact sorted_stable (fun r : View Content => rank bc r.nature) (fun r => r.pos) hpos g3 g4
  · exact hall.imp (fun r x hx => ⟨hx.2, hx.1.entries⟩)

end Benker
