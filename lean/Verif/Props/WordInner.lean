import Verif.Spec.Inner
import Verif.Props.FormexDocument

/-! C98, continued: Word tables inside Word tables. -/

namespace Benker
open PyM CalsSpec Kept Shown

theorem deep_mono {isT : QName → Prop} {R : List Node → Node → Node → Prop} : ∀ {k k' : Nat} {ctx n m}, k ≤ k' → Deep isT R k ctx n m → Deep isT R k' ctx n m
  | 0, _, _, _, _, _, h => by cases h
  | k + 1, 0, _, _, _, hk, _ => by omega
  | k + 1, k' + 1, _, _, _, hk, h => by
    unfold Deep at h ⊢
    exact h.imp (fun ctx T M ⟨e, h1, h2, h3⟩ => ⟨e, h1, h2, deep_mono (by omega) h3⟩)

mutual
theorem replaced_deep {c : Convert.Conv} {R : List Node → Node → Node → Prop}
    (hR : ∀ ctx T e, c.convert ctx T = .ok e → R ctx T (e.setTail T.tail) ∧ c.selects e = false) :
    ∀ {ctx : List Node} {n m : Node}, Convert.Replaced c ctx n m → ∃ k, Deep (fun t => c.isTable t = true) R k ctx n m
  | _, _, _, .table ctx n e m hs he hi => by
    have hno : c.selects (e.setTail n.tail) = false := by
      have := (hR ctx n e he).2
      cases e <;> exact this
    obtain ⟨k, hk⟩ := replacedInside_deep hR hi hno
    refine ⟨k + 1, ?_⟩
    cases n with
    | elem t a x cs tl =>
      refine .table _ _ _ _ _ _ _ hs ⟨_, (hR _ _ _ he).1, tail_setTail .., hk⟩ ?_
      rw [hi.same.2.2.2.1, tail_setTail]
      rfl
    | pi => cases hs
    | comment => cases hs
  | _, _, _, .other _ _ _ hs hi => replacedInside_deep hR hi hs
theorem replacedInside_deep {c : Convert.Conv} {R : List Node → Node → Node → Prop}
    (hR : ∀ ctx T e, c.convert ctx T = .ok e → R ctx T (e.setTail T.tail) ∧ c.selects e = false) :
    ∀ {ctx : List Node} {n m : Node}, Convert.ReplacedInside c ctx n m → c.selects n = false → ∃ k, Deep (fun t => c.isTable t = true) R k ctx n m
  | _, _, _, .elem _ t a x cs cs' tl hl, hs => by
    obtain ⟨k, hk⟩ := replacedList_deep hR hl
    exact ⟨k + 1, .elem _ _ _ _ _ _ _ (by
      have : c.isTable t = false := hs
      rw [this]; simp) hk⟩
  | _, _, _, .pi .., _ => ⟨1, .pi ..⟩
  | _, _, _, .comment .., _ => ⟨1, .comment ..⟩
theorem replacedList_deep {c : Convert.Conv} {R : List Node → Node → Node → Prop}
    (hR : ∀ ctx T e, c.convert ctx T = .ok e → R ctx T (e.setTail T.tail) ∧ c.selects e = false) :
    ∀ {ctx ns ms : List Node}, Convert.ReplacedList c ctx ns ms → ∃ k, AroundList (fun t => c.isTable t = true)
      (fun ctx T M => ∃ e, R ctx T e ∧ e.tail = T.tail ∧ Deep (fun t => c.isTable t = true) R k ctx e M) ctx ns ms
  | _, _, _, .nil _ => ⟨0, .nil _⟩
  | _, _, _, .cons _ _ _ _ _ h hs => by
    obtain ⟨k1, h1⟩ := replaced_deep hR h
    obtain ⟨k2, h2⟩ := replacedList_deep hR hs
    refine ⟨max k1 k2, .cons _ _ _ _ _ ?_ ?_⟩
    · cases k1 with
      | zero => cases h1
      | succ k1 =>
        unfold Deep at h1
        exact h1.imp (fun ctx T M ⟨e, a, b, d⟩ => ⟨e, a, b, deep_mono (by omega) d⟩)
    · exact h2.imp (fun ctx T M ⟨e, a, b, d⟩ => ⟨e, a, b, deep_mono (by omega) d⟩)
end

open OoxmlSpec in
/-- **C98**, Word to CALS, tables inside tables: for every document which is not itself a table, if it is converted, then the result is the same document where all the
Word tables are replaced, also those inside tables: each one is replaced by a CALS table, then the Word tables which are inside this CALS table are replaced in the same way.
If a Word table is drawn on a grid, then the CALS table tells its looks, before the tables inside are replaced; if moreover it can be written in CALS as it is, then the
CALS table is drawn on the same grid and shows the same, the Word tables inside its cells included. -/
theorem C98_word_to_cals_inner (pc : Ooxml.Config) (hfl : Units.FloatModel pc.fl) (hrepr : ∀ x, ' ' ∉ (pc.repr x).toList) (bc : Cals.Config)
    (ns : Option String) (u : List Char) (tg : Bool) (sorting : Option (List String)) (fl : Rat → Rat)
    (hcfg : Cals.Config.new ns u tg sorting fl = .ok bc) (doc out : Node) (limit : Nat) (hroot : doc.tag? ≠ some (OoxmlSpec.name "tbl"))
    (htables : Convert.transformTables (Convert.ooxml2cals pc bc) limit doc = .ok out) :
    ∃ depth, Deep (· = OoxmlSpec.name "tbl") (fun following T C => C.tag? = some ⟨bc.ns, "table"⟩ ∧
      ∀ (styles : Node → Styles) (nature : Node → String) (W : Nat), GoodTable pc (Convert.firstSectList following) styles nature W T → kids ["tr"] T ≠ [] →
        (PlainTable pc.styles T → WordLooksKept pc bc.ns bc.tgroupSorting tg (Units.rewriteWidth fl u) (Convert.firstSectList following) W T C) ∧
        (OneKind (wordPicture T) → Without bc.ns calsNames (wordPicture T) →
          ∃ (d : CalsDoc) (p : Picture), d.table = C ∧ InCals bc.ns d W (kids ["tr"] T).length p ∧ Regrouped bc.tgroupSorting (wordPicture T) p ∧
            (Grouped bc.tgroupSorting (wordPicture T) → p = wordPicture T))) depth [] doc out := by
  have hsel : (Convert.ooxml2cals pc bc).selects doc = false := by
    cases doc with
    | elem t a x cs tl => exact decide_eq_false_iff_not.mpr (fun e => hroot (by rw [e]; rfl))
    | pi => rfl
    | comment => rfl
  have hT : (fun t => (Convert.ooxml2cals pc bc).isTable t = true) = (· = OoxmlSpec.name "tbl") := by
    funext t
    exact propext decide_eq_true_iff
  rw [← hT]
  refine replaced_deep ?_ ((Convert.C58_replacement _ doc out hsel).mp ⟨limit, htables⟩)
  intro ctx T e he
  have he' := he
  unfold Convert.ooxml2cals at he'
  obtain ⟨t, ht, hgen⟩ := Convert.thenGenerate_ok he'
  have htag := Cals.generate_tag _ _ _ hgen
  refine ⟨⟨by rw [(Convert.setTail_same e T.tail).1]; exact htag, ?_⟩, ?_⟩
  · intro styles nature W hg hne
    constructor
    · intro hpl
      obtain ⟨chain, tgroup, colspecs, bodies, order, k1, k2, k3, k4, k5, k6, k7, k8⟩ := C95_word_to_cals_partial pc hfl hrepr bc ns u tg sorting fl hcfg ctx styles nature W T hg hne
        hpl e he
      have ht' := setTail_attr e T.tail
      have hw := whole_attr tg tgroup e T.tail
      refine ⟨chain, tgroup, if tg then tgroup else e.setTail T.tail, colspecs, bodies, order, k1, by rw [setTail_children]; exact k2, rfl, k3, ?_, k5, k6, k7, ?_⟩
      · rw [ht']
        exact wordTableKept_tail ht' hw k4
      · exact k8.imp (fun l row h => ⟨h.1, h.2.2.imp (fun b out h => wordCellKept_tail hw h.1)⟩)
    · intro hone hplain
      obtain ⟨d, p, rfl, hn, hd, hc, hs, hr, hq⟩ := C85_word_to_cals pc bc ns u tg sorting fl hcfg ctx styles nature W T hg hne hone hplain _ he
      obtain ⟨hn', hd', hc', hp'⟩ := withTail_table T.tail hn hd hc hs
      exact ⟨CalsDoc.withTail d T.tail, p, rfl, ⟨hn', hd', hc', hp'⟩, hr, hq⟩
  · cases e with
    | elem t' a x cs tl =>
      refine decide_eq_false_iff_not.mpr (fun h => ?_)
      have : t' = ⟨bc.ns, "table"⟩ := Option.some.inj htag
      rw [this] at h
      have := congrArg QName.name h
      revert this
      show "table" = "tbl" → False
      decide
    | pi => rfl
    | comment => rfl

/-! ### success -/

mutual
theorem every_imp {isT : QName → Prop} {P Q : Node → Prop} (h : ∀ n, P n → Q n) : ∀ n, EveryTable isT P n → EveryTable isT Q n
  | .elem _ _ _ cs _, h' => ⟨fun ht => h _ (h'.1 ht), everyList_imp h cs h'.2⟩
  | .pi .., _ => trivial
  | .comment .., _ => trivial
theorem everyList_imp {isT : QName → Prop} {P Q : Node → Prop} (h : ∀ n, P n → Q n) : ∀ ns, EveryTableList isT P ns → EveryTableList isT Q ns
  | [], _ => trivial
  | n :: ns, h' => ⟨every_imp h n h'.1, everyList_imp h ns h'.2⟩
end

theorem everyList_mem {isT : QName → Prop} {P : Node → Prop} : ∀ {ns : List Node}, EveryTableList isT P ns ↔ ∀ n ∈ ns, EveryTable isT P n
  | [] => ⟨fun _ _ h => (by cases h), fun _ => trivial⟩
  | n :: ns => by
    show EveryTable isT P n ∧ EveryTableList isT P ns ↔ _
    rw [everyList_mem]
    simp

mutual
/-- number of elements -/
def weight : Node → Nat
  | .elem _ _ _ cs _ => weightList cs + 1
  | _ => 1
def weightList : List Node → Nat
  | [] => 0
  | n :: ns => weight n + weightList ns
end

theorem weight_mem : ∀ {ns : List Node} {n : Node}, n ∈ ns → weight n ≤ weightList ns
  | m :: ns, n, h => by
    show _ ≤ weight m + weightList ns
    rcases List.mem_cons.mp h with rfl | h
    · omega
    · have := weight_mem h
      omega

theorem weight_children {n m : Node} (h : m ∈ n.children) : weight m < weight n := by
  cases n with
  | elem t a x cs tl =>
    have := weight_mem (show m ∈ cs from h)
    show _ < weightList cs + 1
    omega
  | pi => cases h
  | comment => cases h

mutual
theorem every_weight {isT : QName → Prop} {P : Node → Prop} {k : Nat} : ∀ n, weight n < k → EveryTable isT P n → EveryTable isT (fun n => P n ∧ weight n < k) n
  | .elem t a x cs tl, hk, h => ⟨fun ht => ⟨h.1 ht, hk⟩, everyList_weight cs (by
      have : weight (.elem t a x cs tl) = weightList cs + 1 := rfl
      omega) h.2⟩
  | .pi .., _, _ => trivial
  | .comment .., _, _ => trivial
theorem everyList_weight {isT : QName → Prop} {P : Node → Prop} {k : Nat} : ∀ ns, weightList ns < k → EveryTableList isT P ns → EveryTableList isT (fun n => P n ∧ weight n < k) ns
  | [], _, _ => trivial
  | n :: ns, hk, h => by
    have : weightList (n :: ns) = weight n + weightList ns := rfl
    exact ⟨every_weight n (by omega) h.1, everyList_weight ns (by omega) h.2⟩
end

theorem every_setTail {isT : QName → Prop} {P : Node → Prop} (hP : ∀ n tl, P n → P (n.setTail tl)) {n : Node} (tl : Option String) (h : EveryTable isT P n) :
    EveryTable isT P (n.setTail tl) := by
  cases n with
  | elem t a x cs tl' => exact ⟨fun ht => hP _ tl (h.1 ht), h.2⟩
  | pi => trivial
  | comment => trivial

theorem every_child {isT : QName → Prop} {P : Node → Prop} {n m : Node} (h : EveryTable isT P n) (hm : m ∈ n.children) : EveryTable isT P m := by
  cases n with
  | elem t a x cs tl => exact everyList_mem.mp h.2 m hm
  | pi => cases hm
  | comment => cases hm

theorem steps_all : ∀ (ns : List Node) (f : CellElem), CellElem.steps f (ns.map (fun n => some (.node n))) = .ok ⟨f.text, f.children ++ ns⟩
  | [], f => by simp [CellElem.steps]
  | n :: ns, f => by
    have := steps_all ns ⟨f.text, f.children ++ [n]⟩
    simp only [List.map_cons, CellElem.steps, CellElem.step]
    rw [this]
    simp

/-- all the tables in what the CALS builder writes are in the contents of the cells -/
theorem cals_every {bc : Cals.Config} {t : Table Content} (hi : t.Inv) {isT : QName → Prop} {P : Node → Prop} (hown : ∀ n ∈ calsNames, ¬ isT ⟨bc.ns, n⟩)
    (hin : ∀ c ∈ t.cells, ∃ ns : List Node, c.content = some (Content.seq (ns.map (fun n => some (.node n)))) ∧ ∀ n ∈ ns, EveryTable isT P n)
    {tree : Node} (h : eval (Cals.generate bc) t = .ok tree) : EveryTable isT P tree := by
  obtain ⟨bb, hbb, he⟩ := generate_eq hi bc
  have hdr : Describes .row t.grid.cells (t.baseViews .row) := Table.base_describes hi .row
  rw [he] at h
  obtain ⟨attrs, tattrs, colspecs, bodies, B, hB, hB1, hB2, rfl, h1, h1', h2, h3⟩ := Benker.buildTree_raw h
  refine ⟨fun ht => absurd ht (hown _ (by simp [calsNames])), ⟨fun ht => absurd ht (hown _ (by simp [calsNames])), everyList_mem.mpr ?_⟩, trivial⟩
  intro n hn
  rcases List.mem_append.mp hn with hn | hn
  · obtain ⟨v, _, hv⟩ := h2.mem_right hn
    unfold Cals.buildColspec at hv
    obtain ⟨_, _, hv⟩ := bind_ok hv
    obtain ⟨_, _, hv⟩ := bind_ok hv
    obtain ⟨_, _, hv⟩ := bind_ok hv
    cases hv
    exact ⟨fun ht => absurd ht (hown _ (by simp [calsNames])), trivial⟩
  · obtain ⟨g, hg, nodes, rfl, hb⟩ := h3.mem_right hn
    refine ⟨fun ht => absurd ht (hown _ ?_), everyList_mem.mpr ?_⟩
    · unfold Cals.groupTag
      split
      · simp [calsNames]
      · split <;> simp [calsNames]
    · intro n hn
      obtain ⟨ns, hns, hn⟩ := List.mem_flatten.mp hn
      obtain ⟨r, hr, hr2⟩ := hb.mem_right hns
      have hrm : r ∈ t.baseViews .row := (Benker.rowGroups_spec bc _).2.1.mem_iff.mp (List.mem_flatten.mpr ⟨g, hg, hr⟩)
      unfold Cals.buildRow at hr2
      obtain ⟨a, g1, hr2⟩ := bind_ok hr2
      obtain ⟨es, g2, hr2⟩ := bind_ok hr2
      have hrow : EveryTable isT P (.elem (bc.q "row") a none es none) := by
        refine ⟨fun ht => absurd ht (hown _ (by simp [calsNames])), everyList_mem.mpr ?_⟩
        intro e hm
        obtain ⟨c, hcm, hce⟩ := (mapM_ok_all₂ g2).mem_right hm
        have hcell := ((hdr.owned r hrm c).mp hcm).1
        obtain ⟨ns, hc, hns⟩ := hin c hcell
        unfold Cals.buildCell at hce
        rw [hc] at hce
        split at hce
        · cases hce
        · obtain ⟨_, _, hce⟩ := bind_ok hce
          obtain ⟨f, hf, hce⟩ := bind_ok hce
          have hf : CellElem.steps ⟨none, []⟩ (ns.map (fun n => some (.node n))) = .ok f := hf
          rw [steps_all] at hf
          cases hf
          cases hce
          exact ⟨fun ht => absurd ht (hown _ (by simp [calsNames])), everyList_mem.mpr (by simpa using hns)⟩
      simp only at hr2
      split at hr2
      · obtain ⟨i, _, hr2⟩ := bind_ok hr2
        obtain ⟨j, _, hr2⟩ := bind_ok hr2
        obtain ⟨k, _, hr2⟩ := bind_ok hr2
        cases hr2
        simp only [List.mem_cons, List.not_mem_nil, or_false] at hn
        rcases hn with rfl | rfl | rfl
        · trivial
        · exact hrow
        · trivial
      · cases hr2
        rw [List.mem_singleton.mp hn]
        exact hrow

theorem text_no_opening {t : QName} {a : Dict QName String} {x : Option String} : Tok.opening t a ∉ textToks x := by
  cases x <;> simp [textToks]

mutual
theorem section_every : ∀ (n : Node), WithoutSection n ↔ EveryTable (· = OoxmlSpec.name "sectPr") (fun _ => False) n
  | .elem t a x cs tl => by
    show _ ↔ (t = _ → False) ∧ EveryTableList (· = OoxmlSpec.name "sectPr") (fun _ => False) cs
    rw [← sections_every cs]
    unfold WithoutSection
    simp only [toks, List.mem_append, List.mem_cons, text_no_opening, List.not_mem_nil, Tok.opening.injEq, reduceCtorEq, or_false, false_or, not_or]
    constructor
    · intro h
      exact ⟨fun e => (h a).1 ⟨e.symm, rfl⟩, fun a ha => (h a).2 ha⟩
    · rintro ⟨h1, h2⟩ a
      exact ⟨fun e => h1 e.1.symm, h2 a⟩
  | .pi .. => by simp [WithoutSection, EveryTable, toks, text_no_opening]
  | .comment .. => by simp [WithoutSection, EveryTable, toks, text_no_opening]
theorem sections_every : ∀ (ns : List Node), (∀ a, Tok.opening (OoxmlSpec.name "sectPr") a ∉ toksList ns) ↔
    EveryTableList (· = OoxmlSpec.name "sectPr") (fun _ => False) ns
  | [] => by simp [toksList, EveryTableList]
  | n :: ns => by
    show _ ↔ EveryTable _ _ n ∧ EveryTableList _ _ ns
    rw [← section_every n, ← sections_every ns]
    unfold WithoutSection
    simp only [toksList, List.mem_append, not_or]
    exact ⟨fun h => ⟨fun a => (h a).1, fun a => (h a).2⟩, fun h a => ⟨h.1 a, h.2 a⟩⟩
end

mutual
theorem firstSect_none : ∀ (n : Node), EveryTable (· = OoxmlSpec.name "sectPr") (fun _ => False) n → Convert.firstSect n = none
  | .elem t a x cs tl, h => by
    unfold Convert.firstSect
    rw [if_neg (show ¬ t = Ooxml.w "sectPr" from fun e => h.1 e)]
    exact firstSectList_none cs h.2
  | .pi .., _ => rfl
  | .comment .., _ => rfl
theorem firstSectList_none : ∀ (ns : List Node), EveryTableList (· = OoxmlSpec.name "sectPr") (fun _ => False) ns → Convert.firstSectList ns = none
  | [], _ => rfl
  | n :: ns, h => by
    unfold Convert.firstSectList
    rw [firstSect_none n h.1]
    exact firstSectList_none ns h.2
end

theorem firstSectList_append (ctx : List Node) : ∀ (ns : List Node), EveryTableList (· = OoxmlSpec.name "sectPr") (fun _ => False) ns →
    Convert.firstSectList (ns ++ ctx) = Convert.firstSectList ctx
  | [], _ => rfl
  | n :: ns, h => by
    show Convert.firstSectList (n :: (ns ++ ctx)) = _
    rw [Convert.firstSectList, firstSect_none n h.1]
    exact firstSectList_append ctx ns h.2

/-- the properties of a Word table do not depend on the text which follows it -/
theorem goodTable_tail {pc : Ooxml.Config} {sect : Option Node} {styles : Node → Styles} {nature : Node → String} {W : Nat} {T : Node} (tl : Option String)
    (h : OoxmlSpec.GoodTable pc sect styles nature W T) : OoxmlSpec.GoodTable pc sect styles nature W (T.setTail tl) := by
  cases T with
  | elem t a x cs tl' => exact ⟨h.tag, h.style, h.wide, h.columns, h.children, h.supported⟩
  | pi => exact absurd h.tag (by simp [Node.tag?])
  | comment => exact absurd h.tag (by simp [Node.tag?])

theorem wanted_mem {content : Node → Option Content} {styles : Node → Styles} : ∀ {rows : List (String × List Node)} {r : Int} {c : Cell Content},
    c ∈ OoxmlSpec.wanted content styles r rows → ∃ row ∈ rows, ∃ tc ∈ row.2, c.content = content tc
  | (nat, tcs) :: rows, r, c, h => by
    unfold OoxmlSpec.wanted at h
    rcases List.mem_append.mp h with h | h
    · obtain ⟨s, hs, rfl⟩ := List.mem_map.mp h
      exact ⟨_, List.mem_cons_self, s.2, place_mem (List.mem_filter.mp hs).1, rfl⟩
    · obtain ⟨row, h1, h2⟩ := wanted_mem h
      exact ⟨row, List.mem_cons_of_mem _ h1, h2⟩
where
  place_mem : ∀ {tcs : List Node} {c : Int} {s : Int × Node}, s ∈ OoxmlSpec.place c tcs → s.2 ∈ tcs
    | tc :: tcs, c, s, h => by
      unfold OoxmlSpec.place at h
      rcases List.mem_cons.mp h with rfl | h
      · exact List.mem_cons_self
      · exact List.mem_cons_of_mem _ (place_mem h)

theorem kids_child {names : List String} {n m : Node} (h : m ∈ OoxmlSpec.kids names n) : m ∈ n.children :=
  (List.mem_filter.mp h).1

/-- a table in a document, whose tables inside are good -/
def GoodInner (pc : Ooxml.Config) (sect : Option Node) (T : Node) : Prop :=
  ∃ (styles : Node → Styles) (nature : Node → String) (W : Nat), OoxmlSpec.GoodTable pc sect styles nature W T ∧ OoxmlSpec.kids ["tr"] T ≠ []

theorem weight_setTail (n : Node) (tl : Option String) : weight (n.setTail tl) = weight n := by cases n <;> rfl

/-- what is inside the CALS table which is made of a Word table -/
theorem word_inside {pc : Ooxml.Config} {bc : Cals.Config} {ctx : List Node} {T e : Node} {isT : QName → Prop} {P : Node → Prop} (hown : ∀ n ∈ calsNames, ¬ isT ⟨bc.ns, n⟩)
    (hP : ∀ n tl, P n → P (n.setTail tl)) (hg : GoodInner pc (Convert.firstSectList ctx) T) (hT : EveryTable isT P T)
    (he : (Convert.ooxml2cals pc bc).convert ctx T = .ok e) : EveryTable isT (fun n => P n ∧ weight n < weight T) e := by
  obtain ⟨styles, nature, W, hg, hne⟩ := hg
  unfold Convert.ooxml2cals at he
  obtain ⟨t, ht, hgen⟩ := Convert.thenGenerate_ok he
  have hinv := (Ooxml.parsed_reachable (eval_eq ht)).inv
  obtain ⟨t', s', st, nat, h1, h2, h3, h4, h5⟩ := Ooxml.word_reading pc _ styles nature W T hg PState.init
  have e1 : eval (Ooxml.parseTable pc (Convert.firstSectList ctx) T) PState.init = .ok (some t') := by unfold eval; rw [h1]
  rw [ht] at e1
  cases e1
  refine cals_every hinv hown ?_ hgen
  intro c hc
  rw [show t.cells = t.grid.cells from rfl, h2] at hc
  obtain ⟨row, hrow, tc, htc, hc⟩ := wanted_mem hc
  obtain ⟨tr, htr, rfl⟩ := List.mem_map.mp hrow
  have htr' := kids_child htr
  have htc' := kids_child htc
  refine ⟨(OoxmlSpec.kids ["p", "tbl"] tc).map (·.setTail none), by rw [hc, OoxmlSpec.paragraphs]; simp [Function.comp_def], ?_⟩
  intro n hn
  obtain ⟨m, hm, rfl⟩ := List.mem_map.mp hn
  have hm' := kids_child hm
  have w1 := weight_children htr'
  have w2 := weight_children htc'
  have w3 := weight_children hm'
  have := every_weight (k := weight T) m (by omega) (every_child (every_child (every_child hT htr') htc') hm')
  exact every_setTail (fun n tl h => ⟨hP n tl h.1, by rw [weight_setTail]; exact h.2⟩) none this

mutual
/-- all the tables of a node without sections are in the same section -/
theorem every_each {Q : Node → Prop} {so : Option Node} : ∀ (n : Node) (ctx : List Node), Convert.firstSectList ctx = so →
    EveryTable (· = OoxmlSpec.name "tbl") Q n → EveryTable (· = OoxmlSpec.name "sectPr") (fun _ => False) n →
    EachTable (· = OoxmlSpec.name "tbl") (fun ctx T => Convert.firstSectList ctx = so ∧ T.tag? = some (OoxmlSpec.name "tbl") ∧ EveryTable (· = OoxmlSpec.name "tbl") Q T ∧
      EveryTable (· = OoxmlSpec.name "sectPr") (fun _ => False) T) ctx n
  | .elem t a x cs tl, ctx, hc, h1, h2 => by
    by_cases ht : t = OoxmlSpec.name "tbl"
    · exact .inl ⟨ht, hc, by rw [ht]; rfl, h1, h2⟩
    · exact .inr ⟨ht, everyList_each cs ctx hc h1.2 h2.2⟩
  | .pi .., _, _, _, _ => trivial
  | .comment .., _, _, _, _ => trivial
theorem everyList_each {Q : Node → Prop} {so : Option Node} : ∀ (ns : List Node) (ctx : List Node), Convert.firstSectList ctx = so →
    EveryTableList (· = OoxmlSpec.name "tbl") Q ns → EveryTableList (· = OoxmlSpec.name "sectPr") (fun _ => False) ns →
    EachTableList (· = OoxmlSpec.name "tbl") (fun ctx T => Convert.firstSectList ctx = so ∧ T.tag? = some (OoxmlSpec.name "tbl") ∧ EveryTable (· = OoxmlSpec.name "tbl") Q T ∧
      EveryTable (· = OoxmlSpec.name "sectPr") (fun _ => False) T) ctx ns
  | [], _, _, _, _ => trivial
  | n :: ns, ctx, hc, h1, h2 => ⟨every_each n (ns ++ ctx) (by rw [firstSectList_append ctx ns h2.2]; exact hc) h1.1 h2.1, everyList_each ns ctx hc h1.2 h2.2⟩
end

/-- the conversion of a table whose tables inside are all good -/
theorem inner_replaced {pc : Ooxml.Config} {bc : Cals.Config} (hu : Accepted.KnownUnit bc.widthUnit) {so : Option Node} (ho : Accepted.KnownOrientation so) :
    ∀ (N : Nat) (ctx : List Node) (T : Node), weight T < N → Convert.firstSectList ctx = so → T.tag? = some (OoxmlSpec.name "tbl") →
      EveryTable (· = OoxmlSpec.name "tbl") (GoodInner pc so) T → EveryTable (· = OoxmlSpec.name "sectPr") (fun _ => False) T →
      ∃ e, (Convert.ooxml2cals pc bc).convert ctx T = .ok e ∧ ∃ m, Convert.ReplacedInside (Convert.ooxml2cals pc bc) ctx (e.setTail T.tail) m
  | 0, _, _, h, _, _, _, _ => by omega
  | N + 1, ctx, T, hw, hc, htag, h1, h2 => by
    have hgood : GoodInner pc so T := by
      cases T with
      | elem t a x cs tl => exact h1.1 (Option.some.inj htag)
      | pi => cases htag
      | comment => cases htag
    have hg' : GoodInner pc (Convert.firstSectList ctx) T := by rw [hc]; exact hgood
    obtain ⟨styles, nature, W, hg, hne⟩ := id hg'
    obtain ⟨t, s', rows, cols, e1, -⟩ := word_shows pc _ styles nature W T hg hne PState.init
    have e1' : eval (Ooxml.parseTable pc (Convert.firstSectList ctx) T) PState.init = .ok (some t) := by unfold eval; rw [e1]
    obtain ⟨e, he⟩ := (C87_word_to_cals pc bc ctx T hu (by rw [hc]; exact ho)).mpr ⟨t, e1'⟩
    refine ⟨e, he, ?_⟩
    have a1 := word_inside (isT := (· = OoxmlSpec.name "tbl")) (P := GoodInner pc so) (by
      intro n hn h
      have : n = "tbl" := congrArg QName.name h
      rw [this] at hn
      revert hn
      decide) (fun n tl ⟨st, na, w, g1, g2⟩ => ⟨st, na, w, goodTable_tail tl g1, by cases n <;> exact g2⟩) hg' h1 he
    have a2 := word_inside (isT := (· = OoxmlSpec.name "sectPr")) (P := fun _ => False) (by
      intro n hn h
      have : n = "sectPr" := congrArg QName.name h
      rw [this] at hn
      revert hn
      decide) (fun _ _ h => h) hg' h2 he
    have htage : e.tag? = some ⟨bc.ns, "table"⟩ := by
      unfold Convert.ooxml2cals at he
      obtain ⟨t, ht, hgen⟩ := Convert.thenGenerate_ok he
      exact Cals.generate_tag _ _ _ hgen
    have hsel : (Convert.ooxml2cals pc bc).selects (e.setTail T.tail) = false := by
      cases e with
      | elem t' a x cs tl =>
        refine decide_eq_false_iff_not.mpr (fun h => ?_)
        have : t' = ⟨bc.ns, "table"⟩ := Option.some.inj htage
        rw [this] at h
        have := congrArg QName.name h
        revert this
        show "table" = "tbl" → False
        decide
      | pi => rfl
      | comment => rfl
    have hT : (fun t => (Convert.ooxml2cals pc bc).isTable t = true) = (· = OoxmlSpec.name "tbl") := by
      funext t
      exact propext decide_eq_true_iff
    have a1' := every_setTail (fun n tl ⟨⟨st, na, w, g1, g2⟩, g3⟩ => ⟨⟨st, na, w, goodTable_tail tl g1, by cases n <;> exact g2⟩, by rw [weight_setTail]; exact g3⟩) T.tail a1
    have a2' := every_setTail (fun _ _ h => h) T.tail (every_imp (fun _ h => h.1) _ a2)
    have hE := every_each (so := so) (e.setTail T.tail) ctx hc a1' a2'
    rw [← hT] at hE
    obtain ⟨m, hm⟩ := replaced_of (c := Convert.ooxml2cals pc bc) (by
      rintro ctx' T' ⟨hc', htag', b1, b2⟩
      rw [hT] at b1
      have hw' : weight T' < weight T := by
        cases T' with
        | elem t a x cs tl => exact (b1.1 (Option.some.inj htag')).2
        | pi => cases htag'
        | comment => cases htag'
      exact inner_replaced hu ho N ctx' T' (by omega) hc' htag' (every_imp (fun _ h => h.1) _ b1) b2) _ ctx hE
    cases hm with
    | other _ _ _ _ h => exact ⟨m, h⟩
    | table _ _ e' _ hs => rw [hsel] at hs; cases hs

mutual
theorem each_tagged {q : QName} {P : List Node → Node → Prop} : ∀ (n : Node) (ctx : List Node), EachTable (· = q) P ctx n →
    EachTable (· = q) (fun ctx T => T.tag? = some q ∧ P ctx T) ctx n
  | .elem t a x cs tl, ctx, h => by
    rcases h with ⟨h1, h2⟩ | ⟨h1, h2⟩
    · exact .inl ⟨h1, by rw [h1]; rfl, h2⟩
    · exact .inr ⟨h1, eachList_tagged cs ctx h2⟩
  | .pi .., _, _ => trivial
  | .comment .., _, _ => trivial
theorem eachList_tagged {q : QName} {P : List Node → Node → Prop} : ∀ (ns : List Node) (ctx : List Node), EachTableList (· = q) P ctx ns →
    EachTableList (· = q) (fun ctx T => T.tag? = some q ∧ P ctx T) ctx ns
  | [], _, _ => trivial
  | n :: ns, ctx, h => ⟨each_tagged n _ h.1, eachList_tagged ns ctx h.2⟩
end

open OoxmlSpec in
/-- **C98**, Word to CALS, tables inside tables: a document whose tables, and the tables inside, at any depth, are all drawn on grids, where there is no section inside the
tables and all the orientations are known, is converted. -/
theorem C98_word_to_cals_inner_succeeds (pc : Ooxml.Config) (bc : Cals.Config) (hu : Accepted.KnownUnit bc.widthUnit) (doc : Node)
    (hroot : doc.tag? ≠ some (OoxmlSpec.name "tbl"))
    (hall : EachTable (· = OoxmlSpec.name "tbl") (fun following T => WithoutSection T ∧ Accepted.KnownOrientation (Convert.firstSectList following) ∧
      EveryTable (· = OoxmlSpec.name "tbl") (fun T' => ∃ (styles : Node → Styles) (nature : Node → String) (W : Nat),
        GoodTable pc (Convert.firstSectList following) styles nature W T' ∧ kids ["tr"] T' ≠ []) T) [] doc) :
    ∃ limit out, Convert.transformTables (Convert.ooxml2cals pc bc) limit doc = .ok out := by
  have hsel : (Convert.ooxml2cals pc bc).selects doc = false := by
    cases doc with
    | elem t a x cs tl => exact decide_eq_false_iff_not.mpr (fun e => hroot (by rw [e]; rfl))
    | pi => rfl
    | comment => rfl
  have hT : (fun t => (Convert.ooxml2cals pc bc).isTable t = true) = (· = OoxmlSpec.name "tbl") := by
    funext t
    exact propext decide_eq_true_iff
  have hall' := each_tagged doc [] hall
  rw [← hT] at hall'
  obtain ⟨out, hout⟩ := replaced_of (c := Convert.ooxml2cals pc bc) (by
    rintro ctx T ⟨htag, h1, h2, h3⟩
    rw [hT] at h3
    exact inner_replaced hu h2 (weight T + 1) ctx T (by omega) rfl htag h3 ((section_every T).mp h1)) doc [] hall'
  obtain ⟨limit, hl⟩ := (Convert.C58_replacement _ doc out hsel).mpr hout
  exact ⟨limit, out, hl⟩

/-! ### example -/

open Ooxml OoxmlSpec in
/-- a Word table with another one in a cell -/
def wordOuter : Node := wEl "tbl" [] [
  wEl "tblPr" [] [],
  wEl "tr" [] [wEl "tc" [] [wEl "tcPr" [] [], wEl "p" [] [], wordMerge, wEl "p" [] []], tcDemo none none "a"],
  wEl "tr" [] [tcDemo (some "2") none "b"]]

open Ooxml OoxmlSpec in
theorem wordOuter_good : GoodTable wConfig none stylesOf natureOf 2 wordOuter := by
  refine ⟨rfl, ⟨_, rfl⟩, by decide, by decide +kernel, ?_, ?_⟩
  · refine ⟨wordOuter.children.take 1, wordOuter.children.drop 1, rfl, ?_, ?_⟩
    · intro c hc
      simp only [wordOuter, wEl, Node.children, List.take, List.mem_cons, List.not_mem_nil, or_false] at hc
      rcases hc with rfl
      left; decide +kernel
    · intro c hc
      simp only [wordOuter, wEl, Node.children, List.drop, List.mem_cons, List.not_mem_nil, or_false] at hc
      rcases hc with rfl | rfl
      all_goals
        refine .inr ⟨rfl, ?_, by decide +kernel, by decide +kernel, ⟨_, rfl⟩⟩
        intro c hc
        simp only [Node.children, List.mem_cons, List.not_mem_nil, or_false] at hc
      · rcases hc with rfl | rfl <;> exact .inr ⟨rfl, ⟨by decide +kernel, by decide +kernel, by decide +kernel, fun _ => by decide +kernel⟩⟩
      · rcases hc with rfl; exact .inr ⟨rfl, ⟨by decide +kernel, by decide +kernel, by decide +kernel, fun _ => by decide +kernel⟩⟩
  · decide +kernel

mutual
/-- the tables of a node, also those inside tables -/
def tablesIn (q : QName) : Node → List Node
  | .elem t a x cs tl => (if t = q then [.elem t a x cs tl] else []) ++ tablesInList q cs
  | _ => []
def tablesInList (q : QName) : List Node → List Node
  | [] => []
  | n :: ns => tablesIn q n ++ tablesInList q ns
end

mutual
theorem every_of {q : QName} {P : Node → Prop} : ∀ (n : Node), (∀ T ∈ tablesIn q n, P T) → EveryTable (· = q) P n
  | .elem t a x cs tl, h => ⟨fun ht => h _ (by simp [tablesIn, ht]), everyList_of cs (fun T hT => h T (by simp [tablesIn, hT]))⟩
  | .pi .., _ => trivial
  | .comment .., _ => trivial
theorem everyList_of {q : QName} {P : Node → Prop} : ∀ (ns : List Node), (∀ T ∈ tablesInList q ns, P T) → EveryTableList (· = q) P ns
  | [], _ => trivial
  | n :: ns, h => ⟨every_of n (fun T hT => h T (by simp [tablesInList, hT])), everyList_of ns (fun T hT => h T (by simp [tablesInList, hT]))⟩
end

open OoxmlSpec in
theorem wordOuter_each : EachTable (· = OoxmlSpec.name "tbl") (fun following T => WithoutSection T ∧ Accepted.KnownOrientation (Convert.firstSectList following) ∧
      EveryTable (· = OoxmlSpec.name "tbl") (fun T' => ∃ (styles : Node → Styles) (nature : Node → String) (W : Nat),
        GoodTable wConfig (Convert.firstSectList following) styles nature W T' ∧ kids ["tr"] T' ≠ []) T) [] (withTables wordOuter) := by
  have hm : kids ["tr"] wordMerge ≠ [] := by
    intro h
    have : (kids ["tr"] wordMerge).length = 4 := by decide +kernel
    rw [h] at this; cases this
  have ho : kids ["tr"] wordOuter ≠ [] := by
    intro h
    have : (kids ["tr"] wordOuter).length = 2 := by decide +kernel
    rw [h] at this; cases this
  have ht : tablesIn (OoxmlSpec.name "tbl") wordOuter = [wordOuter, wordMerge] := by rfl
  have hP : WithoutSection wordOuter ∧ Accepted.KnownOrientation (Convert.firstSectList []) ∧
      EveryTable (· = OoxmlSpec.name "tbl") (fun T' => ∃ (styles : Node → Styles) (nature : Node → String) (W : Nat),
        GoodTable wConfig none styles nature W T' ∧ kids ["tr"] T' ≠ []) wordOuter := by
    refine ⟨(section_every _).mpr (every_of _ ?_), (by intro n hn; cases hn), every_of _ ?_⟩
    · have e : tablesIn (OoxmlSpec.name "sectPr") wordOuter = [] := by rfl
      rw [e]
      intro T h
      cases h
    · rw [ht]
      intro T h
      simp only [List.mem_cons, List.not_mem_nil, or_false] at h
      rcases h with rfl | rfl
      · exact ⟨_, _, _, wordOuter_good, ho⟩
      · exact ⟨_, _, _, wordMerge_good, hm⟩
  exact withTables_each (by decide) hP hP

open OoxmlSpec in
/-- not vacuous: a document with twice a Word table with another one in a cell -/
example : ∃ (limit : Nat) (out : Node), Units.FloatModel wConfig.fl ∧ (∀ x, ' ' ∉ (wConfig.repr x).toList) ∧
    Cals.Config.new none ['m', 'm'] false none id = .ok calsConfig ∧ Accepted.KnownUnit calsConfig.widthUnit ∧ (withTables wordOuter).tag? ≠ some (OoxmlSpec.name "tbl") ∧
    EachTable (· = OoxmlSpec.name "tbl") (fun following T => WithoutSection T ∧ Accepted.KnownOrientation (Convert.firstSectList following) ∧
      EveryTable (· = OoxmlSpec.name "tbl") (fun T' => ∃ (styles : Node → Styles) (nature : Node → String) (W : Nat),
        GoodTable wConfig (Convert.firstSectList following) styles nature W T' ∧ kids ["tr"] T' ≠ []) T) [] (withTables wordOuter) ∧
    OneKind (wordPicture wordOuter) ∧ Without calsConfig.ns calsNames (wordPicture wordOuter) ∧ PlainTable wConfig.styles wordOuter ∧
    (tablesIn (OoxmlSpec.name "tbl") (withTables wordOuter)).length = 4 ∧
    Convert.transformTables (Convert.ooxml2cals wConfig calsConfig) limit (withTables wordOuter) = .ok out := by
  obtain ⟨limit, out, h⟩ := C98_word_to_cals_inner_succeeds wConfig calsConfig mm_known (withTables wordOuter) (by decide) wordOuter_each
  exact ⟨limit, out, by intro q; simp [wConfig]; positivity, fun _ => by simp [wConfig], rfl, mm_known, by decide, wordOuter_each, oneKind_of (by decide +kernel),
    without_of (by decide +kernel), plainTable_of (by decide +kernel) (by decide +kernel) (by decide +kernel), by decide +kernel, h⟩

end Benker
