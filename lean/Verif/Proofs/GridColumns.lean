import Verif.Proofs.GridRoutes
namespace Seiren.Grid
open Spec

/-! # Roads above and below the middles of tables

A road up passes through no table with a relation end at its lower side.  The same holds for roads down if no relation ends at
the last column of a table.  So the middle of a column of tables can be followed from any place to any other unless there is
a table with ends between them. -/

section
variable {ns : List Nat} {cs : List (NodeRef × NodeRef)}

local notation "ES" => allEnds ns cs
local notation "PL" => places ns (allEnds ns cs)

theorem Ok.one {ns : List Nat} {cs : List (NodeRef × NodeRef)} (h : Ok ns cs) {c r m : Nat} (hm : Tab ns c r m) : (1 : Rat) ≤ m := by
  exact_mod_cast h.pos _ _ hm.2

/-- The upper end of a table comes with a lower one. -/
theorem up_down (h : Ok ns cs) {c r m : Nat} (hm : Tab ns c r m) {y : Rat} (hy : y = rowTop ns r)
    (he : (⟨200 + 380 * (c : Rat), y⟩, .up) ∈ ES) : (⟨200 + 380 * (c : Rat), rowTop ns r + 35 * (m : Rat)⟩, .down) ∈ ES := by
  obtain ⟨c', r', m', hm', hp, hd⟩ := allEnds_cases h he
  simp only [Point.mk.injEq] at hp
  have e : (c' : Rat) = c := by linarith [hp.1]
  have e : c' = c := by exact_mod_cast e
  subst e
  have e : r' = r := by
    have h1 := h.one hm
    have h2 := h.one hm'
    rcases Nat.lt_trichotomy r r' with hlt | rfl | hlt
    · have := hm.apart hlt; linarith [hp.2]
    · rfl
    · have := hm'.apart hlt; linarith [hp.2]
  subst e
  obtain rfl := hm.unique hm'
  exact hd

/-- A place above or below the middle of a table is not inside it. -/
theorem col_pos (h : Ok ns cs) {n : RouteNodeData} (hn : n ∈ PL) {c r m : Nat} (hm : Tab ns c r m)
    (hx : n.location.x = 200 + 380 * (c : Rat)) : n.location.y ≤ rowTop ns r ∨ rowTop ns r + 35 * (m : Rat) ≤ n.location.y := by
  by_contra hc
  push Not at hc
  rcases inside_place h hn hm hc.1 hc.2 (by rw [hx]; linarith) (by rw [hx]; linarith) with ⟨⟨-, h1⟩ | ⟨-, h1⟩, -⟩ <;> linarith

/-- The places above and below the middles of tables. -/
theorem col_cases (h : Ok ns cs) {n : RouteNodeData} (hn : n ∈ PL) {c : Nat} (hx : n.location.x = 200 + 380 * (c : Rat)) :
    (n.orientation = none ∧ ¬ CloseToTable ns n.location ∧ ∃ j ∈ corners ns, n.location.y = j.y) ∨
    (∃ r m, Tab ns c r m ∧ n.orientation = some .up ∧ n.location = ⟨200 + 380 * (c : Rat), rowTop ns r⟩ ∧
      (⟨200 + 380 * (c : Rat), rowTop ns r⟩, .up) ∈ ES) ∨
    (∃ r m, Tab ns c r m ∧ n.orientation = some .down ∧ n.location = ⟨200 + 380 * (c : Rat), rowTop ns r + 35 * (m : Rat)⟩ ∧
      (⟨200 + 380 * (c : Rat), rowTop ns r + 35 * (m : Rat)⟩, .down) ∈ ES) := by
  have street : ∀ {i : Nat}, n.location.x ≠ 10 + 380 * (i : Rat) := by
    intro i hi
    rcases street_off (k := c) hi with h1 | h1 <;> linarith
  have same : ∀ {c' : Nat} {a : Rat}, 50 ≤ a → a ≤ 350 → n.location.x = a + 380 * (c' : Rat) → c' = c := fun h1 h2 h3 =>
    same_col h1 h2 h3 (by rw [hx]; linarith) (by rw [hx]; linarith)
  rcases place_cases h hn with ⟨-, c', r', m', -, hx' | hx', -⟩ | ⟨-, c', r', m', -, -, -, -, j, hj, hx', -⟩ |
      ⟨ho, hclose, c', r', m', -, -, hj, -⟩ | ⟨c', r', m', hm', he⟩
  · exact absurd hx' street
  · exact absurd (by rw [hx']; push_cast; ring) (street (i := c' + 1))
  · obtain ⟨i, -, hi⟩ := street_x hj
    exact absurd (hx'.trans hi) street
  · exact .inl ⟨ho, hclose, hj⟩
  · rcases he with ⟨-, hx', -⟩ | ⟨-, hx', -⟩ | ⟨ho, hl, he, -⟩ | ⟨ho, hl, he⟩
    · obtain rfl := same (le_refl _) (by norm_num) hx'
      linarith
    · obtain rfl := same (by norm_num) (le_refl _) hx'
      linarith
    · obtain rfl := same (c' := c') (a := 200) (by norm_num) (by norm_num) (by rw [hl])
      exact .inr (.inl ⟨r', m', hm', ho, hl, he⟩)
    · obtain rfl := same (c' := c') (a := 200) (by norm_num) (by norm_num) (by rw [hl])
      exact .inr (.inr ⟨r', m', hm', ho, hl, he⟩)

/-- Between `p` and `q` there is no table of column `c` at whose lower side relations may end. -/
def Clear (ns : List Nat) (cs : List (NodeRef × NodeRef)) (c : Nat) (y y' : Rat) : Prop :=
  ∀ r m, Tab ns c r m → y ≤ rowTop ns r → rowTop ns r + 35 * (m : Rat) ≤ y' →
    (⟨200 + 380 * (c : Rat), rowTop ns r + 35 * (m : Rat)⟩, .down) ∉ allEnds ns cs

theorem Clear.mono {c : Nat} {y y' z z' : Rat} (h : Clear ns cs c y y') (h1 : y ≤ z) (h2 : z' ≤ y') : Clear ns cs c z z' :=
  fun r m hm h3 h4 => h r m hm (h1.trans h3) (h4.trans h2)

/-- Places in the same column that may be left in the same direction are the same if they are at the same height. -/
theorem col_unique (h : Ok ns cs) {n n' : RouteNodeData} (hn : n ∈ PL) (hn' : n' ∈ PL) {c : Nat}
    (hx : n.location.x = 200 + 380 * (c : Rat)) (hloc : n'.location = n.location) {d : Orientation} (ho : Open d n) (ho' : Open d n') :
    n = n' := by
  have hx' : n'.location.x = 200 + 380 * (c : Rat) := by rw [hloc, hx]
  suffices n.orientation = n'.orientation by
    obtain ⟨l, o⟩ := n
    obtain ⟨l', o'⟩ := n'
    simp only at hloc this
    rw [hloc, this]
  have close : ∀ {p : RouteNodeData} {r m : Nat}, Tab ns c r m → p.location = ⟨200 + 380 * (c : Rat), rowTop ns r⟩ ∨
      p.location = ⟨200 + 380 * (c : Rat), rowTop ns r + 35 * (m : Rat)⟩ → CloseToTable ns p.location := by
    intro p r m hm hl
    have h1 := h.one hm
    refine ⟨_, hm.mem, ?_⟩
    rcases hl with hl | hl <;> rw [hl] <;> simp only <;> refine ⟨by linarith, by linarith, by linarith, by linarith⟩
  rcases col_cases h hn hx with ⟨h1, h2, -⟩ | ⟨r, m, hm, h1, h2, -⟩ | ⟨r, m, hm, h1, h2, -⟩ <;>
    rcases col_cases h hn' hx' with ⟨h1', h2', -⟩ | ⟨r', m', hm', h1', h2', -⟩ | ⟨r', m', hm', h1', h2', -⟩
  · rw [h1, h1']
  · exact absurd (close (p := n) hm' (.inl (by rw [← hloc, h2']))) h2
  · exact absurd (close (p := n) hm' (.inr (by rw [← hloc, h2']))) h2
  · exact absurd (close (p := n') hm (.inl (by rw [hloc, h2]))) h2'
  · rw [h1, h1']
  · exfalso
    rcases ho with ho | ho <;> rcases ho' with ho' | ho' <;> simp_all
  · exact absurd (close (p := n') hm (.inr (by rw [hloc, h2]))) h2'
  · exfalso
    rcases ho with ho | ho <;> rcases ho' with ho' | ho' <;> simp_all
  · rw [h1, h1']

/-- A road up leads to the nearest place above that may be left downwards. -/
theorem up_nearest {a b : Nat} {n m k : RouteNodeData} (hr : NeighbourIn ns PL .up a b) (hn : (PL)[a]? = some n)
    (hm : (PL)[b]? = some m) (hk : k ∈ PL) (ha : Ahead .up n k) : k.location.y ≤ m.location.y := by
  obtain ⟨⟨hx, hy⟩, -, -⟩ := neighbour_ahead hr hn hm
  have hle := neighbour_le hr hn hm hk ha (fun hob => hob.1 rfl)
  obtain ⟨⟨hx', hy'⟩, -, -⟩ := ha
  simp only [distance, hx, hx', sub_self, abs_zero, zero_add] at hle
  rw [abs_of_pos (by linarith), abs_of_pos (by linarith)] at hle
  linarith

/-- A road up passes through no table with an end at its lower side. -/
theorem clear_up (h : Ok ns cs) {a b : Nat} {n m : RouteNodeData} (hr : NeighbourIn ns PL .up a b) (hn : (PL)[a]? = some n)
    (hm : (PL)[b]? = some m) {c : Nat} (hx : n.location.x = 200 + 380 * (c : Rat)) : Clear ns cs c m.location.y n.location.y := by
  intro r w hw h1 h2 he
  have hw1 := h.one hw
  have hnm := List.mem_of_getElem? hn
  obtain ⟨⟨hx', hy⟩, ho, ho'⟩ := neighbour_ahead hr hn hm
  have hp : (⟨⟨200 + 380 * (c : Rat), rowTop ns r + 35 * (w : Rat)⟩, some .down⟩ : RouteNodeData) ∈ PL := mem_place_end he
  have hlt : rowTop ns r + 35 * (w : Rat) < n.location.y := by
    rcases eq_or_lt_of_le h2 with heq | hlt
    · exfalso
      rcases col_cases h hnm hx with ⟨-, hclose, -⟩ | ⟨r', m', hm', -, hl, -⟩ | ⟨r', m', hm', ho1, -⟩
      · apply hclose
        refine ⟨_, hw.mem, ?_⟩
        simp only
        refine ⟨by linarith, by linarith, by linarith, by linarith⟩
      · have hl : n.location.y = rowTop ns r' := by rw [hl]
        rcases Nat.lt_trichotomy r r' with hlt | rfl | hlt
        · have := hw.apart hlt; linarith
        · linarith
        · have := hm'.apart hlt
          have := h.one hm'
          linarith
      · exact not_open ho ho1 (by simp)
    · exact hlt
  have := up_nearest hr hn hm hp ⟨⟨hx.symm, hlt⟩, ho, .inr rfl⟩
  simp only at this
  linarith

/-- The middle of a column of tables can be followed if there is no table with ends in between. -/
theorem column_up (h : Ok ns cs) {c : Nat} {a : RouteNodeData} (ha : a ∈ PL) (hax : a.location.x = 200 + 380 * (c : Rat))
    (hao : Open .down a) : ∀ (N : Nat) (z : RouteNodeData), z ∈ PL → z.location.x = 200 + 380 * (c : Rat) → Open .up z →
      a.location.y < z.location.y → Clear ns cs c a.location.y z.location.y →
      ((PL).filter fun p => p.location.x = 200 + 380 * (c : Rat) ∧ p.location.y < z.location.y).length ≤ N →
      ∃ k, Trip ns PL z a k ∧ k ≤ segmentCost z.location a.location := by
  intro N
  induction N with
  | zero =>
    intro z hz hzx hzo hlt hcl hN
    have : a ∈ (PL).filter fun p => p.location.x = 200 + 380 * (c : Rat) ∧ p.location.y < z.location.y :=
      List.mem_filter.mpr ⟨ha, by simp [hlt, hax]⟩
    rw [List.eq_nil_of_length_eq_zero (Nat.le_zero.mp hN)] at this
    cases this
  | succ N ih =>
    intro z hz hzx hzo hlt hcl hN
    obtain ⟨i, hi⟩ := List.getElem?_of_mem hz
    have hah : Ahead .up z a := ⟨⟨hax.trans hzx.symm, hlt⟩, hzo, hao⟩
    obtain ⟨j, b, hj, hnb⟩ := neighbour_exists (ns := ns) hi ha hah
    have hbm := List.mem_of_getElem? hj
    have hroad : RoadBetween ns PL z b := ⟨i, j, hi, hj, .up, .inl hnb⟩
    obtain ⟨⟨hbx, hby⟩, -, hbo⟩ := neighbour_ahead hnb hi hj
    have hle := up_nearest hnb hi hj ha hah
    have hbx' : b.location.x = 200 + 380 * (c : Rat) := hbx.trans hzx
    rcases eq_or_lt_of_le hle with heq | hlt'
    · have hloc : a.location = b.location := by
        have e1 : a.location.x = b.location.x := hax.trans hbx'.symm
        generalize a.location = p at heq e1
        generalize b.location = q at heq e1
        obtain ⟨x, y⟩ := p
        obtain ⟨x', y'⟩ := q
        simp only at heq e1
        rw [heq, e1]
      have e := col_unique h ha hbm hax hloc.symm hao hbo
      subst e
      exact ⟨_, Trip.one hroad, le_refl _⟩
    · have hbn : Open .up b := by
        rcases col_cases h hbm hbx' with ⟨h1, -⟩ | ⟨r, m, hm, h1, -⟩ | ⟨r, m, hm, h1, hl, he⟩
        · exact .inl h1
        · exact .inr h1
        · exfalso
          have hl : b.location.y = rowTop ns r + 35 * (m : Rat) := by rw [hl]
          rcases col_pos h ha hm hax with h2 | h2
          · exact hcl r m hm h2 (by linarith) he
          · linarith
      obtain ⟨k, hk, hkl⟩ := ih b hbm hbx' hbn hlt' (hcl.mono (le_refl _) hby.le) (by
        have hsub : ((PL).filter fun p => p.location.x = 200 + 380 * (c : Rat) ∧ p.location.y < b.location.y).length <
            ((PL).filter fun p => p.location.x = 200 + 380 * (c : Rat) ∧ p.location.y < z.location.y).length := by
          have e : (PL).filter (fun p => p.location.x = 200 + 380 * (c : Rat) ∧ p.location.y < b.location.y) =
              ((PL).filter fun p => p.location.x = 200 + 380 * (c : Rat) ∧ p.location.y < z.location.y).filter
                fun p => decide (p.location.y < b.location.y) := by
            rw [List.filter_filter]
            apply List.filter_congr
            intro p _
            simp only [Bool.decide_and, ← Bool.and_assoc]
            by_cases h1 : p.location.y < b.location.y
            · have h2 : p.location.y < z.location.y := lt_trans h1 hby
              simp [h1, h2]
            · simp [h1]
          rw [e]
          have hmf : b ∈ (PL).filter fun p => p.location.x = 200 + 380 * (c : Rat) ∧ p.location.y < z.location.y :=
            List.mem_filter.mpr ⟨hbm, by simp [hby, hbx']⟩
          exact List.length_filter_lt_length_iff_exists.mpr ⟨_, hmf, by simp⟩
        omega)
      refine ⟨_, .go hroad hk, ?_⟩
      have := segmentCost_add (p := a.location) (q := b.location) (r := z.location) (hbx'.trans hax.symm) (hzx.trans hax.symm) hlt' hby
      rw [segmentCost_comm z.location a.location, segmentCost_comm z.location b.location]
      rw [segmentCost_comm b.location a.location] at hkl
      omega

theorem column_trip (h : Ok ns cs) {c : Nat} {a z : RouteNodeData} (ha : a ∈ PL) (hax : a.location.x = 200 + 380 * (c : Rat))
    (hao : Open .down a) (hz : z ∈ PL) (hzx : z.location.x = 200 + 380 * (c : Rat)) (hzo : Open .up z)
    (hlt : a.location.y < z.location.y) (hcl : Clear ns cs c a.location.y z.location.y) :
    ∃ k, Trip ns PL z a k ∧ k ≤ segmentCost z.location a.location :=
  column_up h ha hax hao _ z hz hzx hzo hlt hcl (le_refl _)

/-! ## Roads down -/

theorem NoLater.mem_append {α : Type} {a b : α} {l l' : List α} (h : NoLater a b l) (ha : a ∈ l) : NoLater a b (l ++ l') := by
  intro l1 l2 he hb
  rcases List.append_eq_append_iff.mp he with ⟨s, rfl, hs⟩ | ⟨s, rfl, hs⟩
  · exact List.mem_append_left _ ha
  · exact h l1 s rfl hb

/-- The upper side of the frames of a row comes before all lower heights. -/
theorem corner_heights {c r m : Nat} (hm : Tab ns c r m) {y : Rat} (hy : rowTop ns r - 40 < y) :
    NoLater (rowTop ns r - 40) y ((corners ns).map Point.y) := by
  have e : (corners ns).map Point.y = (tableRects ns).flatMap fun R => (frameCorners R).map Point.y := by
    rw [corners, List.map_flatMap]
  rw [e]
  have hlt : 3 * r + c < ns.length := List.getElem?_eq_some_iff.mp hm.2 |>.1
  have hsplit : tableRects ns = (ns.zipIdx.take (3 * r + c + 1)).map (fun (n, k) => tableRect ns k n) ++
      (ns.zipIdx.drop (3 * r + c + 1)).map (fun (n, k) => tableRect ns k n) := by
    rw [← List.map_append, List.take_append_drop]; rfl
  rw [hsplit, List.flatMap_append]
  apply NoLater.mem_append
  · apply NoLater.flatMap
    intro R hR
    obtain ⟨⟨w, k⟩, hk, rfl⟩ := List.mem_map.mp hR
    obtain ⟨i, hi⟩ := List.getElem?_of_mem hk
    have hi' : i < 3 * r + c + 1 := by
      have := (List.getElem?_eq_some_iff.mp hi).1
      rw [List.length_take] at this
      omega
    rw [List.getElem?_take, if_pos hi', List.getElem?_zipIdx, Option.map_eq_some_iff] at hi
    obtain ⟨v, hv, he⟩ := hi
    simp only [Nat.zero_add, Prod.mk.injEq] at he
    obtain ⟨rfl, rfl⟩ := he
    have hw := tab_of hv
    have hc := hm.1
    have hle : i / 3 ≤ r := by omega
    have hv0 : (0 : Rat) ≤ v := by exact_mod_cast Nat.zero_le v
    have ec : (frameCorners (tableRect ns i v)).map Point.y = [rowTop ns (i / 3) - 40] ++ [rowTop ns (i / 3) - 40,
        rowTop ns (i / 3) + 35 * (v : Rat) + 40, rowTop ns (i / 3) + 35 * (v : Rat) + 40] := rfl
    simp only
    rw [ec]
    rcases Nat.lt_or_ge (i / 3) r with hlt' | hge
    · have := hw.apart hlt'
      apply NoLater.absent
      simp only [List.cons_append, List.nil_append, List.mem_cons, List.not_mem_nil, or_false]
      rintro (h1 | h1 | h1 | h1) <;> linarith
    · have : i / 3 = r := by omega
      rw [this]
      refine .first (by simp) ?_
      simp only [List.mem_cons, List.not_mem_nil, or_false]
      intro h1
      linarith
  · refine List.mem_flatMap.mpr ⟨tableRect ns (3 * r + c) m, ?_, ?_⟩
    · refine List.mem_map.mpr ⟨(m, 3 * r + c), ?_, rfl⟩
      apply List.mem_of_getElem? (i := 3 * r + c)
      rw [List.getElem?_take, if_pos (by omega), List.getElem?_zipIdx, hm.2]
      simp
    · rw [hm.rect]
      simp [frameCorners]

/-- The crossings on the way from an end. -/
noncomputable def cross (ns : List Nat) (e : Point × Orientation) : List Point :=
  ((corners ns).filter fun j => @decide (Sees ns e.1 e.2 j) (Classical.propDecidable _)).map (crossingAt e.1 e.2)

theorem cross_up (p : Point) : cross ns (p, .up) =
    (((corners ns).map Point.y).filter fun y => decide (y ≤ p.y)).map fun y => (⟨p.x, y⟩ : Point) := by
  rw [List.filter_map, List.map_map]
  unfold cross
  congr 1
  apply List.filter_congr
  intro j _
  simp only [Function.comp_apply, Sees]
  exact decide_eq_decide.mpr Iff.rfl

theorem cross_down (p : Point) : cross ns (p, .down) =
    (((corners ns).map Point.y).filter fun y => decide (p.y ≤ y)).map fun y => (⟨p.x, y⟩ : Point) := by
  rw [List.filter_map, List.map_map]
  unfold cross
  congr 1
  apply List.filter_congr
  intro j _
  simp only [Function.comp_apply, Sees]
  exact decide_eq_decide.mpr Iff.rfl

theorem mem_heights {c r m : Nat} (hm : Tab ns c r m) : rowTop ns r - 40 ∈ (corners ns).map Point.y :=
  List.mem_map.mpr ⟨⟨10 + 380 * (c : Rat), rowTop ns r - 40⟩, mem_corners.mpr ⟨c, r, m, hm, .inl rfl, .inl rfl⟩, rfl⟩

/-- No relation ends at the last column of a table in the `c`-th column of tables. -/
def NoLast (ns : List Nat) (cs : List (NodeRef × NodeRef)) (c : Nat) : Prop :=
  ∀ e ∈ cs, ∀ k j, k % 3 = c → ns[k]? = some (j + 2) → e.1 ≠ .column k j ∧ e.2 ≠ .column k j

/-- A whole table has upper and lower ends. -/
theorem table_ends {k n : Nat} (hn : ns[k]? = some n) : endsOf ns (.table k) =
    [(⟨200 + 380 * ((k % 3 : Nat) : Rat), rowTop ns (k / 3)⟩, .up), (sideMiddle (refRect ns (.table k)) .right, .right),
      (⟨200 + 380 * ((k % 3 : Nat) : Rat), rowTop ns (k / 3) + 35 * (n : Rat)⟩, .down),
      (sideMiddle (refRect ns (.table k)) .left, .left)] := by
  simp only [endsOf, sidesOf, refRect, hn, Option.getD_some, tableRect, List.map_cons, List.map_nil, sideMiddle, List.cons.injEq,
    Prod.mk.injEq, Point.mk.injEq, and_true, true_and]
  refine ⟨by ring, by ring⟩

/-- The last column of a table has a lower end. -/
theorem last_ends {k j : Nat} (hn : ns[k]? = some (j + 2)) : endsOf ns (.column k j) =
    [(⟨350 + 380 * ((k % 3 : Nat) : Rat), rowTop ns (k / 3) + 35 * ((j + 2 : Nat) : Rat) - 35 / 2⟩, .right),
      (⟨200 + 380 * ((k % 3 : Nat) : Rat), rowTop ns (k / 3) + 35 * ((j + 2 : Nat) : Rat)⟩, .down),
      (⟨50 + 380 * ((k % 3 : Nat) : Rat), rowTop ns (k / 3) + 35 * ((j + 2 : Nat) : Rat) - 35 / 2⟩, .left)] := by
  simp only [endsOf, sidesOf, hn, if_true, refRect, lineRect, List.map_cons, List.map_nil, sideMiddle, List.cons.injEq,
    Prod.mk.injEq, Point.mk.injEq, and_true, true_and]
  push_cast
  refine ⟨⟨by ring, by ring⟩, ⟨by ring, by ring⟩, by ring⟩

/-- The lower end of a table comes with an upper one if no relation ends at the last column of a table of
its column of tables. -/
theorem down_up (h : Ok ns cs) {c r m : Nat} (hd : NoLast ns cs c) (hm : Tab ns c r m)
    (he : (⟨200 + 380 * (c : Rat), rowTop ns r + 35 * (m : Rat)⟩, .down) ∈ ES) :
    (⟨200 + 380 * (c : Rat), rowTop ns r⟩, .up) ∈ ES := by
  have key : ∀ e, ValidRef ns e → (∀ k j, k % 3 = c → ns[k]? = some (j + 2) → e ≠ .column k j) →
      ((⟨200 + 380 * (c : Rat), rowTop ns r + 35 * (m : Rat)⟩ : Point), Orientation.down) ∈ endsOf ns e →
      ((⟨200 + 380 * (c : Rat), rowTop ns r⟩ : Point), Orientation.up) ∈ endsOf ns e := by
    intro e hv hl hmem
    cases e with
    | column k j =>
      exfalso
      by_cases hlast : ns[k]? = some (j + 2)
      · have hkc : k % 3 ≠ c := fun h1 => hl k j h1 hlast rfl
        rw [last_ends hlast] at hmem
        simp only [List.mem_cons, Prod.mk.injEq, Point.mk.injEq, List.not_mem_nil, or_false, reduceCtorEq, and_false, false_or, and_true] at hmem
        have e1 : (c : Rat) = ((k % 3 : Nat) : Rat) := by linarith [hmem.1]
        exact hkc (by exact_mod_cast e1.symm)
      · simp [endsOf, sidesOf, if_neg hlast] at hmem
    | table k =>
      obtain ⟨n, hn⟩ := hv
      have hk := tab_of hn
      rw [table_ends hn] at hmem ⊢
      simp only [List.mem_cons, Prod.mk.injEq, Point.mk.injEq, List.not_mem_nil, or_false, reduceCtorEq, and_false, false_or, and_true] at hmem
      have e1 : (c : Rat) = ((k % 3 : Nat) : Rat) := by linarith [hmem.1]
      have e1 : c = k % 3 := by exact_mod_cast e1
      have h1 := h.one hm
      have h2 := h.one hk
      have e2 : r = k / 3 := by
        rcases Nat.lt_trichotomy r (k / 3) with hlt | heq | hlt
        · have := hm.apart hlt; linarith [hmem.2]
        · exact heq
        · have := hk.apart hlt; linarith [hmem.2]
      rw [← e1, ← e2]
      simp
  obtain ⟨e, hec, hmem⟩ := List.mem_flatMap.mp he
  refine List.mem_flatMap.mpr ⟨e, hec, ?_⟩
  rcases List.mem_append.mp hmem with hmem | hmem
  · exact List.mem_append_left _ (key _ (h.valid e hec).1 (fun k j hkc hkj => (hd e hec k j hkc hkj).1) hmem)
  · exact List.mem_append_right _ (key _ (h.valid e hec).2 (fun k j hkc hkj => (hd e hec k j hkc hkj).2) hmem)

/-- The place above a table in the same column. -/
theorem above_place (h : Ok ns cs) {c r m : Nat} (hm : Tab ns c r m) (he : (⟨200 + 380 * (c : Rat), rowTop ns r⟩, .up) ∈ ES) :
    (⟨⟨200 + 380 * (c : Rat), rowTop ns r - 40⟩, none⟩ : RouteNodeData) ∈ PL := by
  rw [mem_places]
  refine .inl ⟨rfl, mem_crossings.mpr ⟨?_, .inr ⟨_, _, ⟨10 + 380 * (c : Rat), rowTop ns r - 40⟩, he,
    mem_corners.mpr ⟨c, r, m, hm, .inl rfl, .inl rfl⟩, ?_, rfl⟩⟩⟩
  · rintro ⟨R, hR, h1, h2, h3, h4⟩
    obtain ⟨c', r', m', hm', rfl⟩ := mem_rects.mp hR
    simp only at h1 h2 h3 h4
    have h5 := h.one hm'
    rcases Nat.lt_trichotomy r r' with hlt | rfl | hlt
    · have := hm.apart hlt
      have := h.one hm
      linarith
    · linarith
    · have := hm'.apart hlt
      linarith
  · simp only [Sees]
    linarith

/-- Above a table with ends, the crossing is listed before all crossings below. -/
theorem above_first (h : Ok ns cs) {c r m : Nat} (hd : NoLast ns cs c) (hm : Tab ns c r m)
    (he : (⟨200 + 380 * (c : Rat), rowTop ns r⟩, .up) ∈ ES) {y : Rat} (hy : rowTop ns r - 40 < y) :
    NoLater (⟨⟨200 + 380 * (c : Rat), rowTop ns r - 40⟩, none⟩ : RouteNodeData) ⟨⟨200 + 380 * (c : Rat), y⟩, none⟩ PL := by
  have hclose : ¬ CloseToTable ns ⟨200 + 380 * (c : Rat), rowTop ns r - 40⟩ := by
    rcases mem_places.mp (above_place h hm he) with ⟨-, hc⟩ | ⟨o, ho, -⟩
    · exact (mem_crossings.mp hc).1
    · cases ho
  apply places_order hclose
  apply NoLater.append
  · exact .absent fun hc => corner_x hc (c := c) rfl
  change NoLater _ _ ((allEnds ns cs).flatMap (cross ns))
  have key : ∀ e, ValidRef ns e → (∀ k j, k % 3 = c → ns[k]? = some (j + 2) → e ≠ .column k j) →
      NoLater (⟨200 + 380 * (c : Rat), rowTop ns r - 40⟩ : Point) ⟨200 + 380 * (c : Rat), y⟩ ((endsOf ns e).flatMap (cross ns)) := by
    intro e hv hl
    have side : ∀ p o, (o = .left ∨ o = .right) → (⟨200 + 380 * (c : Rat), y⟩ : Point) ∉ cross ns (p, o) := by
      intro p o ho hmem
      obtain ⟨j, hj, hcr⟩ := List.mem_map.mp hmem
      have hj := (List.mem_filter.mp hj).1
      have hx : j.x = 200 + 380 * (c : Rat) := by
        rcases ho with rfl | rfl <;> simp only [crossingAt, Point.mk.injEq] at hcr <;> exact hcr.1
      exact corner_x hj hx
    cases e with
    | column k j =>
      apply NoLater.absent
      intro hmem
      obtain ⟨⟨p, o⟩, hp, hm'⟩ := List.mem_flatMap.mp hmem
      by_cases hne : ns[k]? = some (j + 2)
      · have hkc : k % 3 ≠ c := fun h1 => hl k j h1 hne rfl
        rw [last_ends hne] at hp
        simp only [List.mem_cons, Prod.mk.injEq, List.not_mem_nil, or_false] at hp
        rcases hp with ⟨-, rfl⟩ | ⟨rfl, rfl⟩ | ⟨-, rfl⟩
        · exact side _ _ (.inr rfl) hm'
        · obtain ⟨j', -, hcr⟩ := List.mem_map.mp hm'
          simp only [crossingAt, Point.mk.injEq] at hcr
          have e1 : ((k % 3 : Nat) : Rat) = c := by linarith [hcr.1]
          exact hkc (by exact_mod_cast e1)
        · exact side _ _ (.inl rfl) hm'
      simp only [endsOf, sidesOf, if_neg hne, List.map_cons, List.map_nil, List.mem_cons, Prod.mk.injEq, List.not_mem_nil, or_false] at hp
      rcases hp with ⟨-, rfl⟩ | ⟨-, rfl⟩
      · exact side _ _ (.inr rfl) hm'
      · exact side _ _ (.inl rfl) hm'
    | table k =>
      obtain ⟨n, hn⟩ := hv
      have hk := tab_of hn
      have hn0 : (0 : Rat) ≤ n := by exact_mod_cast Nat.zero_le n
      rw [table_ends hn]
      simp only [List.flatMap_cons, List.flatMap_nil, List.append_nil]
      have hright : NoLater (⟨200 + 380 * (c : Rat), rowTop ns r - 40⟩ : Point) ⟨200 + 380 * (c : Rat), y⟩
          (cross ns (sideMiddle (refRect ns (.table k)) .right, .right)) := .absent (side _ _ (.inr rfl))
      have hleft : NoLater (⟨200 + 380 * (c : Rat), rowTop ns r - 40⟩ : Point) ⟨200 + 380 * (c : Rat), y⟩
          (cross ns (sideMiddle (refRect ns (.table k)) .left, .left)) := .absent (side _ _ (.inl rfl))
      by_cases hcc : k % 3 = c
      · rw [hcc]
        rw [hcc] at hk
        have hup : NoLater (⟨200 + 380 * (c : Rat), rowTop ns r - 40⟩ : Point) ⟨200 + 380 * (c : Rat), y⟩
            (cross ns (⟨200 + 380 * (c : Rat), rowTop ns (k / 3)⟩, .up)) := by
          rw [cross_up]
          by_cases hle : rowTop ns r - 40 ≤ rowTop ns (k / 3)
          · exact ((corner_heights hm hy).filter (by simpa using hle)).map (f := fun z => (⟨200 + 380 * (c : Rat), z⟩ : Point)) (by simp)
          · apply NoLater.absent
            simp only [List.mem_map, List.mem_filter, decide_eq_true_eq, Point.mk.injEq, true_and, exists_eq_right, not_and]
            intro _
            push Not at hle ⊢
            linarith
        by_cases hle : rowTop ns (k / 3) + 35 * (n : Rat) ≤ rowTop ns r - 40
        · refine hup.append (hright.append (.append ?_ hleft))
          rw [cross_down]
          exact ((corner_heights hm hy).filter (by simpa using hle)).map (f := fun z => (⟨200 + 380 * (c : Rat), z⟩ : Point)) (by simp)
        · refine NoLater.mem_append hup ?_
          rw [cross_up]
          refine List.mem_map.mpr ⟨rowTop ns r - 40, List.mem_filter.mpr ⟨mem_heights hm, ?_⟩, rfl⟩
          simp only [decide_eq_true_eq]
          rcases Nat.lt_or_ge (k / 3) r with hlt | hge
          · have := hk.apart hlt
            linarith
          · rcases Nat.eq_or_lt_of_le hge with heq | hlt
            · rw [heq]; linarith
            · have := hm.apart hlt
              have := h.one hm
              linarith
      · have hne : ∀ p o, (o = .up ∨ o = .down) → p.x = 200 + 380 * ((k % 3 : Nat) : Rat) →
            (⟨200 + 380 * (c : Rat), y⟩ : Point) ∉ cross ns (p, o) := by
          intro p o ho hx hmem
          obtain ⟨j, -, hcr⟩ := List.mem_map.mp hmem
          have : p.x = 200 + 380 * (c : Rat) := by
            rcases ho with rfl | rfl <;> simp only [crossingAt, Point.mk.injEq] at hcr <;> exact hcr.1
          have : ((k % 3 : Nat) : Rat) = c := by linarith
          exact hcc (by exact_mod_cast this)
        exact (NoLater.absent (hne _ _ (.inl rfl) rfl)).append (hright.append (.append (.absent (hne _ _ (.inr rfl) rfl)) hleft))
  unfold allEnds
  rw [List.flatMap_assoc]
  apply NoLater.flatMap
  intro e hec
  rw [List.flatMap_append]
  exact (key _ (h.valid e hec).1 fun k j hkc hkj => (hd e hec k j hkc hkj).1).append (key _ (h.valid e hec).2 fun k j hkc hkj => (hd e hec k j hkc hkj).2)

/-- A table between two places of a column is in the way. -/
theorem between_meets (h : Ok ns cs) {c r m : Nat} (hm : Tab ns c r m) {p q : Point} (hp : p.x = 200 + 380 * (c : Rat))
    (hq : q.x = 200 + 380 * (c : Rat)) (h1 : p.y ≤ rowTop ns r) (h2 : rowTop ns r + 35 * (m : Rat) ≤ q.y) :
    Meets (inside ⟨⟨50 + 380 * (c : Rat), rowTop ns r⟩, ⟨300, 35 * (m : Rat)⟩⟩) p q := by
  have hm1 := h.one hm
  have hpos : 0 < q.y - p.y := by linarith
  refine ⟨(rowTop ns r + 1 - p.y) / (q.y - p.y), div_nonneg (by linarith) hpos.le, (div_le_one hpos).mpr (by linarith), ?_⟩
  have e : (rowTop ns r + 1 - p.y) / (q.y - p.y) * (q.y - p.y) = rowTop ns r + 1 - p.y := div_mul_cancel₀ _ (ne_of_gt hpos)
  simp only [InRect, lerp, inside, hp, hq, e]
  refine ⟨by linarith, by linarith, by linarith, by linarith⟩

/-- Nor does a road down, if no relation ends at the last column of a table. -/
theorem clear_down (h : Ok ns cs) {c : Nat} (hd : NoLast ns cs c) {a b : Nat} {n m : RouteNodeData} (hr : NeighbourIn ns PL .down a b)
    (hn : (PL)[a]? = some n) (hm : (PL)[b]? = some m) (hx : n.location.x = 200 + 380 * (c : Rat)) :
    Clear ns cs c n.location.y m.location.y := by
  intro r w hw h1 h2 he
  have hw1 := h.one hw
  have hnm := List.mem_of_getElem? hn
  have hmm := List.mem_of_getElem? hm
  obtain ⟨⟨hx', hy⟩, ho, ho'⟩ := neighbour_ahead hr hn hm
  have hmx : m.location.x = 200 + 380 * (c : Rat) := hx'.trans hx
  -- the table has an upper end
  have hup : (⟨200 + 380 * (c : Rat), rowTop ns r⟩, .up) ∈ ES := down_up h hd hw he
  have habove := above_place h hw hup
  have hob : Obstructed ns .down n.location m.location := ⟨by simp, _, hw.mem, between_meets h hw hx hmx h1 h2⟩
  have hfirst := eligible_first hr hn hm hob
  rcases lt_trichotomy n.location.y (rowTop ns r - 40) with hlt | heq | hgt
  · have hah : Ahead .down n ⟨⟨200 + 380 * (c : Rat), rowTop ns r - 40⟩, none⟩ := ⟨⟨hx.symm, hlt⟩, ho, .inl rfl⟩
    have hno : NoLater (⟨⟨200 + 380 * (c : Rat), rowTop ns r - 40⟩, none⟩ : RouteNodeData) m PL := by
      cases hmo : m.orientation with
      | none =>
        have := above_first h hd hw hup (y := m.location.y) (by linarith)
        rw [rnd_eq (n := m) hmo hmx rfl]
        exact this
      | some o => exact ends_last habove hmo
    refine hno.not_first ?_ hm hah hfirst
    intro e
    rw [← e] at h2
    simp only at h2
    linarith
  · have hpl : (⟨⟨200 + 380 * (c : Rat), rowTop ns r⟩, some .up⟩ : RouteNodeData) ∈ PL := mem_place_end hup
    have hle := neighbour_le hr hn hm hpl ⟨⟨hx.symm, by simp only; linarith⟩, ho, .inr rfl⟩ (by
      rintro ⟨-, R, hR, hmeet⟩
      obtain ⟨c', r', m', hm', rfl⟩ := mem_rects.mp hR
      obtain ⟨t, t0, t1, -, -, h3, h4⟩ := hmeet
      simp only [lerp, inside, heq] at h3 h4
      have h5 := h.one hm'
      rcases Nat.lt_trichotomy r r' with hlt | rfl | hlt
      · have := hw.apart hlt; linarith
      · linarith
      · have := hm'.apart hlt
        linarith)
    simp only [distance, hx, hmx, sub_self, abs_zero, zero_add] at hle
    rw [abs_sub_comm, abs_of_pos (by linarith), abs_sub_comm, abs_of_pos (by linarith)] at hle
    linarith
  · rcases col_cases h hnm hx with ⟨-, hclose, -⟩ | ⟨r', m', hm', ho1, -⟩ | ⟨r', m', hm', -, hl, -⟩
    · apply hclose
      have hs : Step (rowTop ns r - 40) := by
        obtain ⟨i, hi⟩ := rowTop_step ns r
        exact ⟨i - 16, by rw [hi]; push_cast; ring⟩
      have := hs.apart (place_step h hnm) hgt
      refine ⟨_, hw.mem, ?_⟩
      simp only
      refine ⟨by linarith, by linarith, by linarith, by linarith⟩
    · exact not_open ho ho1 (by simp)
    · have hl : n.location.y = rowTop ns r' + 35 * (m' : Rat) := by rw [hl]
      have hm1 := h.one hm'
      rcases Nat.lt_trichotomy r r' with hlt | rfl | hlt
      · have := hw.apart hlt; linarith
      · obtain rfl := hw.unique hm'
        linarith
      · have := hm'.apart hlt
        linarith

/-- Roads above and below the middle of tables pass no table with ends at its lower side. -/
theorem clear_road (h : Ok ns cs) {c : Nat} (hd : NoLast ns cs c) {n m : RouteNodeData} (hr : RoadBetween ns PL n m)
    (hx : n.location.x = 200 + 380 * (c : Rat)) (hx' : m.location.x = n.location.x) (hlt : n.location.y < m.location.y) :
    Clear ns cs c n.location.y m.location.y ∧ Open .down n ∧ Open .up m := by
  obtain ⟨a, b, ha, hb, d, hn | hn⟩ := hr
  · obtain ⟨ht, ho, ho'⟩ := neighbour_ahead hn ha hb
    cases d
    · have := ht.2; linarith
    · exact ⟨clear_down h hd hn ha hb hx, ho, ho'⟩
    · have := ht.2; linarith
    · have := ht.2; linarith
  · obtain ⟨ht, ho, ho'⟩ := neighbour_ahead hn hb ha
    cases d
    · exact ⟨clear_up h hn hb ha (hx'.trans hx), ho', ho⟩
    · have := ht.2; linarith
    · have := ht.2; linarith
    · have := ht.2; linarith

theorem col_cost {p q : Point} (hx : q.x = p.x) (h : p.y + 5 / 2 ≤ q.y) : 1 ≤ segmentCost p q := by
  refine Rat.le_floor_iff.mpr ?_
  rw [hx, sub_self, abs_zero, abs_of_nonneg (by linarith)]
  push_cast
  linarith

theorem point_eq {p q : Point} (hx : p.x = q.x) (hy : p.y = q.y) : p = q := by
  obtain ⟨x, y⟩ := p
  obtain ⟨x', y'⟩ := q
  simp only at hx hy
  rw [hx, hy]

/-- Turning back above or below the middle of a table is never shorter than going straight. -/
theorem turn_trip (h : Ok ns cs) {c : Nat} (hd : NoLast ns cs c) {n m o : RouteNodeData} (h1 : RoadBetween ns PL n m)
    (h2 : RoadBetween ns PL m o) (hx : m.location.x = 200 + 380 * (c : Rat)) (hn : n.location.x = m.location.x) (ho : o.location.x = m.location.x)
    (hside : n.location.y < m.location.y ∧ o.location.y < m.location.y ∨ m.location.y < n.location.y ∧ m.location.y < o.location.y) :
    n.location = o.location ∨ ∃ k, Trip ns PL n o k ∧ k < segmentCost n.location m.location + segmentCost m.location o.location := by
  have pos := fun p q => segmentCost_nonneg p q
  have hnm := h1.left
  have hmm := h2.left
  have hom := h2.symm.left
  -- above `m`, with `p` higher than `q`
  have above : ∀ {p q : RouteNodeData}, RoadBetween ns PL p m → RoadBetween ns PL q m → p.location.x = m.location.x →
      q.location.x = m.location.x → p.location.y < q.location.y → q.location.y < m.location.y →
      ∃ k, Trip ns PL q p k ∧ k < segmentCost p.location m.location + segmentCost q.location m.location := by
    intro p q r1 r2 px qx hpq hqm
    obtain ⟨c1, o1, o2⟩ := clear_road h hd r1 (px.trans hx) px.symm (hpq.trans hqm)
    obtain ⟨c3, o3, o4⟩ := clear_road h hd r2 (qx.trans hx) qx.symm hqm
    have hq : Open .up q := by
      rcases col_cases h r2.left (qx.trans hx) with ⟨h1, -⟩ | ⟨r, w, hw, h1, -⟩ | ⟨r, w, hw, h1, hl, he⟩
      · exact .inl h1
      · exact .inr h1
      · exfalso
        have hl : q.location.y = rowTop ns r + 35 * (w : Rat) := by rw [hl]
        rcases col_pos h r1.left hw (px.trans hx) with h2 | h2
        · exact c1 r w hw h2 (by linarith) he
        · linarith
    obtain ⟨k, hk, hkl⟩ := column_trip h r1.left (px.trans hx) o1 r2.left (qx.trans hx) hq hpq (c1.mono (le_refl _) hqm.le)
    refine ⟨k, hk, ?_⟩
    have e1 := segmentCost_add (p := p.location) (q := q.location) (r := m.location) (qx.trans px.symm) px.symm hpq hqm
    have e2 := col_cost (p := q.location) (q := m.location) qx.symm ((place_step h r2.left).apart (place_step h hmm) hqm)
    rw [segmentCost_comm] at hkl
    omega
  have below : ∀ {p q : RouteNodeData}, RoadBetween ns PL p m → RoadBetween ns PL q m → p.location.x = m.location.x →
      q.location.x = m.location.x → m.location.y < p.location.y → p.location.y < q.location.y →
      ∃ k, Trip ns PL q p k ∧ k < segmentCost p.location m.location + segmentCost q.location m.location := by
    intro p q r1 r2 px qx hmp hpq
    obtain ⟨c1, o1, o2⟩ := clear_road h hd r1.symm hx px hmp
    obtain ⟨c3, o3, o4⟩ := clear_road h hd r2.symm hx qx (hmp.trans hpq)
    have hp : Open .down p := by
      rcases col_cases h r1.left (px.trans hx) with ⟨h1, -⟩ | ⟨r, w, hw, h1, hl, he⟩ | ⟨r, w, hw, h1, -⟩
      · exact .inl h1
      · exfalso
        have hl : p.location.y = rowTop ns r := by rw [hl]
        rcases col_pos h r2.left hw (qx.trans hx) with h2 | h2
        · linarith
        · exact c3 r w hw (by linarith) h2 (up_down h hw rfl he)
      · exact .inr h1
    obtain ⟨k, hk, hkl⟩ := column_trip h r1.left (px.trans hx) hp r2.left (qx.trans hx) o4 hpq (c3.mono hmp.le (le_refl _))
    refine ⟨k, hk, ?_⟩
    have e1 := segmentCost_add (p := m.location) (q := p.location) (r := q.location) px qx hmp hpq
    have e2 := col_cost (p := m.location) (q := p.location) px ((place_step h hmm).apart (place_step h r1.left) hmp)
    rw [segmentCost_comm p.location m.location, segmentCost_comm q.location m.location]
    rw [segmentCost_comm q.location p.location] at hkl
    omega
  rw [segmentCost_comm m.location o.location]
  rcases lt_trichotomy n.location.y o.location.y with hlt | heq | hgt
  · right
    rcases hside with ⟨s1, s2⟩ | ⟨s1, s2⟩
    · obtain ⟨k, hk, hkl⟩ := above h1 h2.symm hn ho hlt s2
      exact ⟨k, hk.symm, hkl⟩
    · obtain ⟨k, hk, hkl⟩ := below h1 h2.symm hn ho s1 hlt
      exact ⟨k, hk.symm, hkl⟩
  · exact .inl (point_eq (hn.trans ho.symm) heq)
  · right
    rcases hside with ⟨s1, s2⟩ | ⟨s1, s2⟩
    · obtain ⟨k, hk, hkl⟩ := above h2.symm h1 ho hn hgt s1
      exact ⟨k, hk, by omega⟩
    · obtain ⟨k, hk, hkl⟩ := below h2.symm h1 ho hn s2 hgt
      exact ⟨k, hk, by omega⟩

end

end Seiren.Grid
