import Verif.Props.StayTables
import Verif.Props.Beside
/-! # C114: where lines meet

Lines along the same street are drawn on top of each other wherever their heights overlap; lines along different streets, and straight
lines, have no point in common with each other. -/

namespace Seiren
open Spec Grid

/-- Relation number `i` is one between columns whose tables stand in neighbouring columns of the drawing, at most eight rows apart. -/
def Spec.Street (m : Module) (i k j k' j' : Nat) : Prop :=
  (connections [] m.entries)[i]? = some (.column k j, .column k' j') ∧ (k' % 3 = k % 3 + 1 ∨ k % 3 = k' % 3 + 1) ∧ RowsWithin 8 k k'

/-- Relation number `i` is one between table number `k`, or its last column, and the table below. -/
def Spec.Straight (m : Module) (i k : Nat) : Prop :=
  ∃ s, AtBottom (lineNumbers (definitions m.entries)) k s ∧
    ((connections [] m.entries)[i]? = some (s, .table (k + 3)) ∨ (connections [] m.entries)[i]? = some (.table (k + 3), s))

/-- The middle of the gap between two neighbouring columns of the drawing. -/
def Spec.middleOfGap (k k' : Nat) : Rat := 390 + 380 * (min (k % 3) (k' % 3) : Nat)

/-- The line is at this height somewhere: the height is one between those of its ends. -/
def Spec.HasHeight (m : Module) (k j k' j' : Nat) (y : Rat) : Prop :=
  Within (lineHeight (lineNumbers (definitions m.entries)) k j) (lineHeight (lineNumbers (definitions m.entries)) k' j') y

/-- The lines number `i` and `i'` of a drawing. -/
def Spec.LinesOf (q : Queue) (m : Module) (i i' : Nat) (ps ps' : List Point) : Prop :=
  ∃ d g e e', drawEdgePath q (laidOut m.intoMir) .new = .ok (d, g) ∧ d.edges[i]? = some e ∧ e.pathPoints = some ps ∧
    d.edges[i']? = some e' ∧ e'.pathPoints = some ps'

theorem facing_near {k k' : Nat} (hcol : k' % 3 = k % 3 + 1 ∨ k % 3 = k' % 3 + 1) :
    |facing (k % 3) (k' % 3) - middleOfGap k k'| ≤ 40 ∧ |facing (k' % 3) (k % 3) - middleOfGap k k'| ≤ 40 := by
  unfold facing middleOfGap
  rcases hcol with h | h
  · rw [if_pos (by omega), if_neg (by omega), min_eq_left (by omega), h, abs_le, abs_le]
    push_cast
    refine ⟨⟨?_, ?_⟩, ?_, ?_⟩ <;> linarith
  · rw [if_neg (by omega), if_pos (by omega), min_eq_right (by omega), h, abs_le, abs_le]
    push_cast
    refine ⟨⟨?_, ?_⟩, ?_, ?_⟩ <;> linarith

theorem Spec.Within.near {u v w c d : Rat} (h : Within u v w) (hu : |u - c| ≤ d) (hv : |v - c| ≤ d) : |w - c| ≤ d := by
  obtain ⟨h1, h2⟩ := h
  rw [abs_le] at *
  rcases le_total u v with h | h
  · rw [min_eq_left h] at h1
    rw [max_eq_right h] at h2
    constructor <;> linarith
  · rw [min_eq_right h] at h1
    rw [max_eq_left h] at h2
    constructor <;> linarith

theorem Spec.OnBracket.near {x d : Rat} {a b z : Point} (h : OnBracket x a b z) (ha : |a.x - x| ≤ d) (hb : |b.x - x| ≤ d) :
    |z.x - x| ≤ d ∧ Within a.y b.y z.y := by
  have h0 : |x - x| ≤ d := by rw [sub_self, abs_zero]; exact (abs_nonneg _).trans ha
  rcases h with ⟨hy, hx⟩ | ⟨hx, hy⟩ | ⟨hy, hx⟩
  · exact ⟨hx.near ha h0, by rw [hy]; exact ⟨min_le_left _ _, le_max_left _ _⟩⟩
  · exact ⟨by rw [hx]; exact h0, hy⟩
  · exact ⟨hx.near h0 hb, by rw [hy]; exact ⟨min_le_right _ _, le_max_right _ _⟩⟩

/-- The points of a street line are in the gap, at the heights between its ends. -/
theorem street_near {ns : List Nat} {k j k' j' : Nat} {z : Point} (hcol : k' % 3 = k % 3 + 1 ∨ k % 3 = k' % 3 + 1)
    (h : OnStreetLine ns k j k' j' z) : |z.x - middleOfGap k k'| ≤ 40 ∧ Within (lineHeight ns k j) (lineHeight ns k' j') z.y := by
  rw [OnStreetLine, ← middleOfGap] at h
  obtain ⟨h1, h2⟩ := facing_near hcol
  exact h.near h1 h2

/-- And those in the middle of the gap at these heights are on it. -/
theorem street_middle {ns : List Nat} {k j k' j' : Nat} {y : Rat} (h : Within (lineHeight ns k j) (lineHeight ns k' j') y) :
    OnStreetLine ns k j k' j' ⟨middleOfGap k k', y⟩ := .inr (.inl ⟨rfl, h⟩)

theorem middle_inj {k k' l l' : Nat} (h : |middleOfGap k k' - middleOfGap l l'| ≤ 80) : middleOfGap k k' = middleOfGap l l' := by
  unfold middleOfGap at *
  generalize min (k % 3) (k' % 3) = a at *
  generalize min (l % 3) (l' % 3) = b at *
  rw [abs_le] at h
  have h1 : (380 * a : Rat) ≤ 380 * b + 80 := by linarith [h.1, h.2]
  have h2 : (380 * b : Rat) ≤ 380 * a + 80 := by linarith [h.1, h.2]
  have h3 : 380 * a ≤ 380 * b + 80 := by exact_mod_cast h1
  have h4 : 380 * b ≤ 380 * a + 80 := by exact_mod_cast h2
  rw [show a = b by omega]

/-- **C114.** Two lines along streets have a point in common exactly if they are in the same gap and reach a common height; then they
both cover the middle of the gap at all heights they both reach. -/
theorem C114_streets {q : Queue} {QI : List Entry → Prop} (hq : q.Lawful QI) (m : Module)
    (hsize : (placeNodes m.intoMir).2.size.height ≤ 1000000000) (i k j k' j' i' l o l' o' : Nat)
    (h : Street m i k j k' j') (h' : Street m i' l o l' o') :
    ∃ ps ps', LinesOf q m i i' ps ps' ∧
      ((∃ z, Covers ps z ∧ Covers ps' z) ↔
        middleOfGap k k' = middleOfGap l l' ∧ ∃ y, HasHeight m k j k' j' y ∧ HasHeight m l o l' o' y) ∧
      (middleOfGap k k' = middleOfGap l l' → ∀ y, HasHeight m k j k' j' y → HasHeight m l o l' o' y →
        Covers ps ⟨middleOfGap k k', y⟩ ∧ Covers ps' ⟨middleOfGap k k', y⟩) := by
  obtain ⟨d, g, e, ps, h1, h2, h3, h4⟩ := C112_points hq m hsize i k j k' j' h.2.1 h.2.2 h.1
  obtain ⟨d', g', e', ps', h1', h2', h3', h4'⟩ := C112_points hq m hsize i' l o l' o' h'.2.1 h'.2.2 h'.1
  cases h1.symm.trans h1'
  have key : middleOfGap k k' = middleOfGap l l' → ∀ y, HasHeight m k j k' j' y → HasHeight m l o l' o' y →
      Covers ps ⟨middleOfGap k k', y⟩ ∧ Covers ps' ⟨middleOfGap k k', y⟩ :=
    fun hg y hy hy' => ⟨(h4 _).mpr (street_middle hy), (h4' _).mpr (hg ▸ street_middle hy')⟩
  refine ⟨ps, ps', ⟨d, g, e, e', h1, h2, h3, h2', h3'⟩, ⟨?_, ?_⟩, key⟩
  · rintro ⟨z, hz, hz'⟩
    obtain ⟨a1, a2⟩ := street_near h.2.1 ((h4 z).mp hz)
    obtain ⟨b1, b2⟩ := street_near h'.2.1 ((h4' z).mp hz')
    refine ⟨middle_inj ?_, z.y, a2, b2⟩
    rw [abs_le] at *
    constructor <;> linarith [a1.1, a1.2, b1.1, b1.2]
  · rintro ⟨hg, y, hy, hy'⟩
    exact ⟨_, key hg y hy hy'⟩

theorem Spec.Straight.covers {q : Queue} {QI : List Entry → Prop} (hq : q.Lawful QI) {m : Module}
    (hsize : (placeNodes m.intoMir).2.size.height ≤ 1000000000) {i k : Nat} (h : Straight m i k) :
    ∃ n d g e ps, (lineNumbers (definitions m.entries))[k]? = some n ∧ drawEdgePath q (laidOut m.intoMir) .new = .ok (d, g) ∧
      d.edges[i]? = some e ∧ e.pathPoints = some ps ∧ ∀ z, Covers ps z ↔ OnPlumbLine (lineNumbers (definitions m.entries)) k n z := by
  obtain ⟨s, hs, hi⟩ := h
  obtain ⟨n', hn'⟩ : ValidRef (lineNumbers (definitions m.entries)) (.table (k + 3)) := by
    rcases hi with hi | hi
    · exact ((ok_module m).valid _ (List.mem_of_getElem? hi)).2
    · exact ((ok_module m).valid _ (List.mem_of_getElem? hi)).1
  have hlt := (List.getElem?_eq_some_iff.mp hn').1
  obtain ⟨n, hn⟩ : ∃ n, (lineNumbers (definitions m.entries))[k]? = some n := ⟨_, List.getElem?_eq_getElem (by omega)⟩
  obtain ⟨d, g, e, ps, h⟩ := C112_straight hq m hsize i k n s hn hs hi
  exact ⟨n, d, g, e, ps, hn, h⟩

theorem plumb_heights {ns : List Nat} {k n : Nat} (hn : ns[k]? = some n) {z : Point} (h : OnPlumbLine ns k n z) :
    rowTop ns (k / 3) + 35 * (n : Rat) ≤ z.y ∧ z.y ≤ rowTop ns (k / 3 + 1) := by
  have := (tab_of hn).apart (r' := k / 3 + 1) (by omega)
  obtain ⟨-, h1, h2⟩ := h
  rw [min_eq_left (by linarith)] at h1
  rw [max_eq_right (by linarith)] at h2
  exact ⟨h1, h2⟩

theorem lineNumbers_pos {ds : List EntityDefinition} {k n : Nat} (h : (lineNumbers ds)[k]? = some n) : 1 ≤ n := by
  rw [lineNumbers, List.getElem?_map, Option.map_eq_some_iff] at h
  obtain ⟨d, -, rfl⟩ := h
  omega

/-- **C114.** Two straight lines below different tables have no point in common; below the same table they cover the same points. -/
theorem C114_straight {q : Queue} {QI : List Entry → Prop} (hq : q.Lawful QI) (m : Module)
    (hsize : (placeNodes m.intoMir).2.size.height ≤ 1000000000) (i k i' k' : Nat) (h : Straight m i k) (h' : Straight m i' k') :
    ∃ ps ps', LinesOf q m i i' ps ps' ∧ (k ≠ k' → ∀ z, ¬ (Covers ps z ∧ Covers ps' z)) ∧ (k = k' → ∀ z, Covers ps z ↔ Covers ps' z) := by
  obtain ⟨n, d, g, e, ps, hn, h1, h2, h3, h4⟩ := h.covers hq hsize
  obtain ⟨n', d', g', e', ps', hn', h1', h2', h3', h4'⟩ := h'.covers hq hsize
  cases h1.symm.trans h1'
  refine ⟨ps, ps', ⟨d, g, e, e', h1, h2, h3, h2', h3'⟩, ?_, ?_⟩
  · rintro hne z ⟨hz, hz'⟩
    rw [h4] at hz
    rw [h4'] at hz'
    have hx : (200 + 380 * ((k % 3 : Nat) : Rat)) = 200 + 380 * ((k' % 3 : Nat) : Rat) := hz.1.symm.trans hz'.1
    have hx : k % 3 = k' % 3 := by
      have : (380 * (k % 3 : Nat) : Rat) = 380 * (k' % 3 : Nat) := by linarith
      have : 380 * (k % 3) = 380 * (k' % 3) := by exact_mod_cast this
      omega
    have p1 : (1 : Rat) ≤ n := by exact_mod_cast lineNumbers_pos hn
    have p2 : (1 : Rat) ≤ n' := by exact_mod_cast lineNumbers_pos hn'
    have a := plumb_heights hn hz
    have b := plumb_heights hn' hz'
    rcases lt_trichotomy (k / 3) (k' / 3) with hr | hr | hr
    · have := rowTop_mono (lineNumbers (definitions m.entries)) (k / 3 + 1) (k' / 3) hr
      linarith [a.2, b.1]
    · omega
    · have := rowTop_mono (lineNumbers (definitions m.entries)) (k' / 3 + 1) (k / 3) hr
      linarith [b.2, a.1]
  · rintro rfl z
    cases hn.symm.trans hn'
    rw [h4, h4']

/-- **C114.** A straight line and a line along a street have no point in common. -/
theorem C114_street_straight {q : Queue} {QI : List Entry → Prop} (hq : q.Lawful QI) (m : Module)
    (hsize : (placeNodes m.intoMir).2.size.height ≤ 1000000000) (i k j k' j' i' l : Nat) (h : Street m i k j k' j') (h' : Straight m i' l) :
    ∃ ps ps', LinesOf q m i i' ps ps' ∧ ∀ z, ¬ (Covers ps z ∧ Covers ps' z) := by
  obtain ⟨d, g, e, ps, h1, h2, h3, h4⟩ := C112_points hq m hsize i k j k' j' h.2.1 h.2.2 h.1
  obtain ⟨n', d', g', e', ps', hn', h1', h2', h3', h4'⟩ := h'.covers hq hsize
  cases h1.symm.trans h1'
  refine ⟨ps, ps', ⟨d, g, e, e', h1, h2, h3, h2', h3'⟩, ?_⟩
  rintro z ⟨hz, hz'⟩
  have hx := (street_near h.2.1 ((h4 z).mp hz)).1
  rw [((h4' z).mp hz').1, middleOfGap, abs_le] at hx
  generalize min (k % 3) (k' % 3) = a at hx
  generalize l % 3 = b at hx
  have h5 : (380 * b + 200 : Rat) ≤ 380 * a + 430 := by linarith [hx.2]
  have h6 : (380 * a + 350 : Rat) ≤ 380 * b + 200 := by linarith [hx.1]
  have h5 : 380 * b + 200 ≤ 380 * a + 430 := by exact_mod_cast h5
  have h6 : 380 * a + 350 ≤ 380 * b + 200 := by exact_mod_cast h6
  omega

/-- Relation number `i` is one between two columns of table number `k`. -/
def Spec.OneTable (m : Module) (i k j j' : Nat) : Prop := (connections [] m.entries)[i]? = some (.column k j, .column k j') ∧ j ≠ j'

/-- Its line stays in the gap at one of the two sides of the table, at the heights between the two columns. -/
theorem Spec.OneTable.covers {q : Queue} {QI : List Entry → Prop} (hq : q.Lawful QI) {m : Module}
    (hsize : (placeNodes m.intoMir).2.size.height ≤ 1000000000) {i k j j' : Nat} (h : OneTable m i k j j') :
    ∃ d g e ps, drawEdgePath q (laidOut m.intoMir) .new = .ok (d, g) ∧ d.edges[i]? = some e ∧ e.pathPoints = some ps ∧
      ∀ z, Covers ps z → (|z.x - (390 + 380 * (k % 3 : Nat))| ≤ 40 ∨ |z.x - (10 + 380 * (k % 3 : Nat))| ≤ 40) ∧ HasHeight m k j k j' z.y := by
  obtain ⟨d, g, e, ps, y, y', h1, h2, h3, rfl, rfl, h4⟩ := C108_beside hq m hsize i k j j' h.2 h.1
  refine ⟨d, g, e, ps, h1, h2, h3, fun z hz => ?_⟩
  rcases h4 with h4 | h4
  · obtain ⟨h5, h6⟩ := ((h4.covers z).mp hz).near (d := 40) (by rw [abs_le]; constructor <;> linarith) (by rw [abs_le]; constructor <;> linarith)
    exact ⟨.inl h5, h6⟩
  · obtain ⟨h5, h6⟩ := ((h4.covers z).mp hz).near (d := 40) (by rw [abs_le]; constructor <;> linarith) (by rw [abs_le]; constructor <;> linarith)
    exact ⟨.inr h5, h6⟩

/-- **C114.** A straight line and one between two columns of a table have no point in common. -/
theorem C114_one_table_straight {q : Queue} {QI : List Entry → Prop} (hq : q.Lawful QI) (m : Module)
    (hsize : (placeNodes m.intoMir).2.size.height ≤ 1000000000) (i k j j' i' l : Nat) (h : OneTable m i k j j') (h' : Straight m i' l) :
    ∃ ps ps', LinesOf q m i i' ps ps' ∧ ∀ z, ¬ (Covers ps z ∧ Covers ps' z) := by
  obtain ⟨d, g, e, ps, h1, h2, h3, h4⟩ := h.covers hq hsize
  obtain ⟨n', d', g', e', ps', hn', h1', h2', h3', h4'⟩ := h'.covers hq hsize
  cases h1.symm.trans h1'
  refine ⟨ps, ps', ⟨d, g, e, e', h1, h2, h3, h2', h3'⟩, ?_⟩
  rintro z ⟨hz, hz'⟩
  have hx := (h4 z hz).1
  rw [((h4' z).mp hz').1, abs_le, abs_le] at hx
  generalize k % 3 = a at hx
  generalize l % 3 = b at hx
  rcases hx with hx | hx
  · have h5 : (380 * b + 200 : Rat) ≤ 380 * a + 430 := by linarith [hx.2]
    have h6 : (380 * a + 350 : Rat) ≤ 380 * b + 200 := by linarith [hx.1]
    have h5 : 380 * b + 200 ≤ 380 * a + 430 := by exact_mod_cast h5
    have h6 : 380 * a + 350 ≤ 380 * b + 200 := by exact_mod_cast h6
    omega
  · have h5 : (380 * b + 200 : Rat) ≤ 380 * a + 50 := by linarith [hx.2]
    have h6 : (380 * a : Rat) ≤ 380 * b + 200 + 30 := by linarith [hx.1]
    have h5 : 380 * b + 200 ≤ 380 * a + 50 := by exact_mod_cast h5
    have h6 : 380 * a ≤ 380 * b + 200 + 30 := by exact_mod_cast h6
    omega

theorem line_in_row {m : Module} {k j : Nat} (h : ValidRef (lineNumbers (definitions m.entries)) (.column k j)) :
    rowTop (lineNumbers (definitions m.entries)) (k / 3) < lineHeight (lineNumbers (definitions m.entries)) k j ∧
      lineHeight (lineNumbers (definitions m.entries)) k j < rowTop (lineNumbers (definitions m.entries)) (k / 3 + 1) := by
  obtain ⟨n, hn, hj⟩ := h
  have := (tab_of hn).apart (r' := k / 3 + 1) (by omega)
  have h0 : (0 : Rat) ≤ j := by exact_mod_cast Nat.zero_le j
  have h1 : (j : Rat) + 1 < n := by exact_mod_cast hj
  rw [lineHeight]
  constructor <;> linarith

/-- **C114.** The lines between two columns of a table and between two columns of a table in another row have no point in common. -/
theorem C114_rows {q : Queue} {QI : List Entry → Prop} (hq : q.Lawful QI) (m : Module)
    (hsize : (placeNodes m.intoMir).2.size.height ≤ 1000000000) (i k j j' i' l o o' : Nat) (h : OneTable m i k j j')
    (h' : OneTable m i' l o o') (hrow : k / 3 ≠ l / 3) :
    ∃ ps ps', LinesOf q m i i' ps ps' ∧ ∀ z, ¬ (Covers ps z ∧ Covers ps' z) := by
  obtain ⟨d, g, e, ps, h1, h2, h3, h4⟩ := h.covers hq hsize
  obtain ⟨d', g', e', ps', h1', h2', h3', h4'⟩ := h'.covers hq hsize
  cases h1.symm.trans h1'
  refine ⟨ps, ps', ⟨d, g, e, e', h1, h2, h3, h2', h3'⟩, ?_⟩
  rintro z ⟨hz, hz'⟩
  obtain ⟨v1, v2⟩ := (ok_module m).valid _ (List.mem_of_getElem? h.1)
  obtain ⟨w1, w2⟩ := (ok_module m).valid _ (List.mem_of_getElem? h'.1)
  obtain ⟨a1, a2⟩ := (h4 z hz).2
  obtain ⟨b1, b2⟩ := (h4' z hz').2
  have a1 := (lt_min (line_in_row v1).1 (line_in_row v2).1).trans_le a1
  have a2 := a2.trans_lt (max_lt (line_in_row v1).2 (line_in_row v2).2)
  have b1 := (lt_min (line_in_row w1).1 (line_in_row w2).1).trans_le b1
  have b2 := b2.trans_lt (max_lt (line_in_row w1).2 (line_in_row w2).2)
  rcases Nat.lt_or_gt_of_ne hrow with hr | hr
  · have := rowTop_mono (lineNumbers (definitions m.entries)) (k / 3 + 1) (l / 3) hr
    linarith
  · have := rowTop_mono (lineNumbers (definitions m.entries)) (l / 3 + 1) (k / 3) hr
    linarith

/-! Four tables, three of them side by side, with six relations: along the first gap at different heights, along the first gap and the
second, and two straight ones below the first table. -/

def manyLines : Module :=
  ⟨none, [.definition ⟨c!"a", [⟨c!"x", .int, none⟩, ⟨c!"y", .int, none⟩]⟩,
    .definition ⟨c!"b", [⟨c!"x", .int, none⟩, ⟨c!"y", .int, none⟩, ⟨c!"z", .int, none⟩]⟩, .definition ⟨c!"c", [⟨c!"x", .int, none⟩]⟩,
    .definition ⟨c!"d", []⟩, .relation ⟨.field c!"a" c!"x", .field c!"b" c!"x"⟩, .relation ⟨.field c!"a" c!"y", .field c!"b" c!"z"⟩,
    .relation ⟨.field c!"b" c!"y", .field c!"a" c!"x"⟩, .relation ⟨.field c!"b" c!"z", .field c!"c" c!"x"⟩,
    .relation ⟨.field c!"a" c!"y", .entity c!"d"⟩, .relation ⟨.entity c!"d", .entity c!"a"⟩]⟩

/-- It meets the hypotheses. -/
theorem manyLines_meet : (placeNodes manyLines.intoMir).2.size.height ≤ 1000000000 ∧ Street manyLines 0 0 0 1 0 ∧
    Street manyLines 1 0 1 1 2 ∧ Street manyLines 2 1 1 0 0 ∧ Street manyLines 3 1 2 2 0 ∧ Straight manyLines 4 0 ∧ Straight manyLines 5 0 :=
  ⟨by decide +kernel, ⟨by decide +kernel, .inl rfl, by decide, by decide⟩, ⟨by decide +kernel, .inl rfl, by decide, by decide⟩,
    ⟨by decide +kernel, .inr rfl, by decide, by decide⟩, ⟨by decide +kernel, .inl rfl, by decide, by decide⟩,
    ⟨.column 0 1, ⟨rfl, by decide +kernel⟩, .inl (by decide +kernel)⟩, ⟨.table 0, rfl, .inr (by decide +kernel)⟩⟩

set_option maxRecDepth 1000000 in
/-- The first three lines, without the other tables: the first two have no point in common, the third has some with each of them. -/
theorem C114_lines : pathsOf (drawEdgePath BinHeap.queue (laidOut (⟨none, [.definition ⟨c!"a", [⟨c!"x", .int, none⟩, ⟨c!"y", .int, none⟩]⟩,
      .definition ⟨c!"b", [⟨c!"x", .int, none⟩, ⟨c!"y", .int, none⟩, ⟨c!"z", .int, none⟩]⟩,
      .relation ⟨.field c!"a" c!"x", .field c!"b" c!"x"⟩, .relation ⟨.field c!"a" c!"y", .field c!"b" c!"z"⟩,
      .relation ⟨.field c!"b" c!"y", .field c!"a" c!"x"⟩]⟩ : Module).intoMir) .new) =
    some [some [⟨350, 205/2⟩, ⟨390, 205/2⟩, ⟨430, 205/2⟩],
      some [⟨350, 275/2⟩, ⟨390, 275/2⟩, ⟨390, 345/2⟩, ⟨430, 345/2⟩],
      some [⟨430, 275/2⟩, ⟨390, 275/2⟩, ⟨390, 205/2⟩, ⟨350, 205/2⟩]] := by
  decide +kernel

/-- The second and the third relation both have the height 275/2. -/
example : middleOfGap 0 1 = middleOfGap 1 0 ∧ HasHeight manyLines 0 1 1 2 (275/2) ∧ HasHeight manyLines 1 1 0 0 (275/2) ∧
    ¬ ∃ y, HasHeight manyLines 0 0 1 0 y ∧ HasHeight manyLines 0 1 1 2 y := by
  have e : lineNumbers (definitions manyLines.entries) = [3, 4, 2, 1] := by decide +kernel
  simp only [HasHeight, Within, lineHeight, e]
  refine ⟨by norm_num [middleOfGap], by norm_num [rowTop], by norm_num [rowTop], ?_⟩
  rintro ⟨y, ⟨h1, h2⟩, h3, h4⟩
  norm_num at h1 h2 h3 h4
  linarith

/-- Two tables, one below the other, with a relation between two columns each and one between them. -/
example : OneTable ⟨none, [.definition ⟨c!"a", [⟨c!"x", .int, none⟩, ⟨c!"y", .int, none⟩]⟩, .definition ⟨c!"b", []⟩, .definition ⟨c!"c", []⟩,
      .definition ⟨c!"d", [⟨c!"x", .int, none⟩, ⟨c!"y", .int, none⟩]⟩, .relation ⟨.field c!"a" c!"x", .field c!"a" c!"y"⟩,
      .relation ⟨.field c!"d" c!"y", .field c!"d" c!"x"⟩, .relation ⟨.entity c!"a", .entity c!"d"⟩]⟩ 0 0 0 1 ∧
    OneTable ⟨none, [.definition ⟨c!"a", [⟨c!"x", .int, none⟩, ⟨c!"y", .int, none⟩]⟩, .definition ⟨c!"b", []⟩, .definition ⟨c!"c", []⟩,
      .definition ⟨c!"d", [⟨c!"x", .int, none⟩, ⟨c!"y", .int, none⟩]⟩, .relation ⟨.field c!"a" c!"x", .field c!"a" c!"y"⟩,
      .relation ⟨.field c!"d" c!"y", .field c!"d" c!"x"⟩, .relation ⟨.entity c!"a", .entity c!"d"⟩]⟩ 1 3 1 0 ∧
    Straight ⟨none, [.definition ⟨c!"a", [⟨c!"x", .int, none⟩, ⟨c!"y", .int, none⟩]⟩, .definition ⟨c!"b", []⟩, .definition ⟨c!"c", []⟩,
      .definition ⟨c!"d", [⟨c!"x", .int, none⟩, ⟨c!"y", .int, none⟩]⟩, .relation ⟨.field c!"a" c!"x", .field c!"a" c!"y"⟩,
      .relation ⟨.field c!"d" c!"y", .field c!"d" c!"x"⟩, .relation ⟨.entity c!"a", .entity c!"d"⟩]⟩ 2 0 :=
  ⟨⟨by decide +kernel, by decide⟩, ⟨by decide +kernel, by decide⟩, .table 0, rfl, .inl (by decide +kernel)⟩

end Seiren
