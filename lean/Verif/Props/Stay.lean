import Verif.Props.Rows
/-! # C112: lines along a street stay where they are

A relation between two columns in neighbouring columns of the drawing covers certain points, which depend on nothing but where the two
columns are. So nothing that is added to the module moves its line. -/

namespace Seiren
open Spec Grid

/-- The point is on the segment. -/
def Spec.OnSegment (a b z : Point) : Prop := ∃ t : Rat, 0 ≤ t ∧ t ≤ 1 ∧ z = lerp a b t

/-- The point is on one of the segments between the points of the path. -/
def Spec.Covers : List Point → Point → Prop
  | a :: b :: ps, z => OnSegment a b z ∨ Covers (b :: ps) z
  | _, _ => False

/-- Between two numbers. -/
def Spec.Within (u v w : Rat) : Prop := min u v ≤ w ∧ w ≤ max u v

/-- Level to the line at `x`, along it, and level again. -/
def Spec.OnBracket (x : Rat) (a b z : Point) : Prop :=
  (z.y = a.y ∧ Within a.x x z.x) ∨ (z.x = x ∧ Within a.y b.y z.y) ∨ (z.y = b.y ∧ Within x b.x z.x)

theorem within_lerp {u v w : Rat} : Within u v w ↔ ∃ t : Rat, 0 ≤ t ∧ t ≤ 1 ∧ w = u + t * (v - u) := by
  constructor
  · rintro ⟨h1, h2⟩
    rcases lt_trichotomy u v with h | rfl | h
    · rw [min_eq_left h.le] at h1
      rw [max_eq_right h.le] at h2
      refine ⟨(w - u) / (v - u), div_nonneg (by linarith) (by linarith), (div_le_one (by linarith)).mpr (by linarith), ?_⟩
      rw [div_mul_cancel₀ _ (by linarith)]
      ring
    · rw [min_self] at h1
      rw [max_self] at h2
      exact ⟨0, le_refl _, by norm_num, by linarith⟩
    · rw [min_eq_right h.le] at h1
      rw [max_eq_left h.le] at h2
      refine ⟨(u - w) / (u - v), div_nonneg (by linarith) (by linarith), (div_le_one (by linarith)).mpr (by linarith), ?_⟩
      have : (u - w) / (u - v) * (v - u) = -((u - w) / (u - v) * (u - v)) := by ring
      rw [this, div_mul_cancel₀ _ (by linarith)]
      ring
  · rintro ⟨t, h0, h1, rfl⟩
    rcases le_total u v with h | h
    · rw [Within, min_eq_left h, max_eq_right h]
      have := mul_nonneg h0 (sub_nonneg.mpr h)
      have := mul_nonneg (sub_nonneg.mpr h1) (sub_nonneg.mpr h)
      constructor <;> nlinarith
    · rw [Within, min_eq_right h, max_eq_left h]
      have := mul_nonneg h0 (sub_nonneg.mpr h)
      have := mul_nonneg (sub_nonneg.mpr h1) (sub_nonneg.mpr h)
      constructor <;> nlinarith

theorem onSegment_level {a b z : Point} (h : a.y = b.y) : OnSegment a b z ↔ z.y = a.y ∧ Within a.x b.x z.x := by
  rw [within_lerp]
  constructor
  · rintro ⟨t, h0, h1, rfl⟩
    exact ⟨by simp [lerp, h], t, h0, h1, rfl⟩
  · rintro ⟨hy, t, h0, h1, hx⟩
    refine ⟨t, h0, h1, ?_⟩
    cases z
    simp only at hx hy
    simp [lerp, h, hx, hy]

theorem onSegment_upright {a b z : Point} (h : a.x = b.x) : OnSegment a b z ↔ z.x = a.x ∧ Within a.y b.y z.y := by
  rw [within_lerp]
  constructor
  · rintro ⟨t, h0, h1, rfl⟩
    exact ⟨by simp [lerp, h], t, h0, h1, rfl⟩
  · rintro ⟨hy, t, h0, h1, hx⟩
    refine ⟨t, h0, h1, ?_⟩
    cases z
    simp only at hx hy
    simp [lerp, h, hx, hy]

theorem within_down {u v w z : Rat} (h1 : u ≤ v) (h2 : v ≤ w) : Within u v z ∨ Within v w z ↔ Within u w z := by
  simp only [Within, min_eq_left h1, max_eq_right h1, min_eq_left h2, max_eq_right h2, min_eq_left (h1.trans h2), max_eq_right (h1.trans h2)]
  constructor
  · rintro (⟨a, b⟩ | ⟨a, b⟩)
    · exact ⟨a, b.trans h2⟩
    · exact ⟨h1.trans a, b⟩
  · rintro ⟨a, b⟩
    rcases le_total z v with h | h
    · exact .inl ⟨a, h⟩
    · exact .inr ⟨h, b⟩

theorem within_comm {u v w : Rat} : Within u v w ↔ Within v u w := by unfold Within; rw [min_comm, max_comm]

theorem within_up {u v w z : Rat} (h1 : v ≤ u) (h2 : w ≤ v) : Within u v z ∨ Within v w z ↔ Within u w z := by
  rw [within_comm (u := u) (v := v), within_comm (u := v) (v := w), within_comm (u := u) (v := w), or_comm]
  exact within_down h2 h1

/-- The points of an upright part, and of what comes after it. -/
theorem covers_mid {x : Rat} (b : Point) {R : Rat → Rat → Prop}
    (hR : ∀ {u v w z : Rat}, (R u v ∨ u = v) → (R v w ∨ v = w) → (Within u v z ∨ Within v w z ↔ Within u w z)) :
    ∀ (mid : List Point) (p : Point) (y : Rat) (z : Point), (p :: mid).getLast? = some ⟨x, y⟩ → (∀ p' ∈ p :: mid, p'.x = x) →
    (p :: mid).Pairwise (fun p q => R p.y q.y) →
    (Covers (p :: mid ++ [b]) z ↔ (z.x = x ∧ Within p.y y z.y) ∧ mid ≠ [] ∨ OnSegment ⟨x, y⟩ b z) := by
  intro mid
  induction mid with
  | nil =>
    intro p y z hl _ _
    cases hl
    simp [Covers]
  | cons p' mid ih =>
    intro p y z hl hx hp
    have hl' : (p' :: mid).getLast? = some ⟨x, y⟩ := by simpa using hl
    rw [List.pairwise_cons] at hp
    have := ih p' y z hl' (fun q hq => hx q (List.mem_cons_of_mem _ hq)) hp.2
    rw [show p :: p' :: mid ++ [b] = p :: (p' :: mid ++ [b]) from rfl]
    rw [show p' :: mid ++ [b] = p' :: (mid ++ [b]) from rfl] at this ⊢
    rw [Covers, this, onSegment_upright (by rw [hx p (by simp), hx p' (by simp)]), hx p (by simp)]
    have h1 := hp.1 p' (by simp)
    cases mid with
    | nil =>
      cases hl'
      simp
    | cons p2 mid =>
      have h2 : R p'.y y := by
        rw [List.pairwise_cons] at hp
        have hmem : (⟨x, y⟩ : Point) ∈ p2 :: mid := by
          have : (p2 :: mid).getLast? = some ⟨x, y⟩ := by simpa using hl'
          exact List.mem_of_getLast? this
        exact hp.2.1 _ hmem
      have := hR (z := z.y) (.inl h1) (.inl h2)
      simp only [ne_eq, reduceCtorEq, not_false_eq_true, and_true]
      tauto

/-- The points of a line with two turns. -/
theorem Spec.Direct.covers {x : Rat} {a b : Point} {ps : List Point} (h : Direct x a b ps) (z : Point) : Covers ps z ↔ OnBracket x a b z := by
  obtain ⟨mid, rfl, hh, hl, hx, hp⟩ := h
  cases mid with
  | nil => cases hh
  | cons p mid =>
    cases hh
    have key : Covers (⟨x, a.y⟩ :: mid ++ [b]) z ↔ (z.x = x ∧ Within a.y b.y z.y) ∧ mid ≠ [] ∨ OnSegment ⟨x, b.y⟩ b z := by
      rcases hp with hp | hp
      · refine covers_mid b (R := (· < ·)) (fun h1 h2 => within_down ?_ ?_) mid _ _ z hl hx hp
        · rcases h1 with h1 | rfl; exacts [h1.le, le_refl _]
        · rcases h2 with h2 | rfl; exacts [h2.le, le_refl _]
      · refine covers_mid b (R := fun u v => v < u) (fun h1 h2 => within_up ?_ ?_) mid _ _ z hl hx hp
        · rcases h1 with h1 | rfl; exacts [h1.le, le_refl _]
        · rcases h2 with h2 | rfl; exacts [h2.le, le_refl _]
    rw [show a :: ⟨x, a.y⟩ :: mid ++ [b] = a :: (⟨x, a.y⟩ :: (mid ++ [b])) from rfl, Covers]
    rw [show (⟨x, a.y⟩ : Point) :: mid ++ [b] = ⟨x, a.y⟩ :: (mid ++ [b]) from rfl] at key
    rw [key, onSegment_level (a := a) (b := ⟨x, a.y⟩) rfl, onSegment_level (a := ⟨x, b.y⟩) (b := b) rfl]
    unfold OnBracket
    by_cases hm : mid = []
    · subst hm
      have hab : a.y = b.y := by simpa using hl
      rw [← hab]
      simp only [ne_eq, not_true, and_false, false_or]
      constructor
      · rintro (h | h)
        · exact .inl h
        · exact .inr (.inr h)
      · rintro (h | ⟨h1, h2⟩ | h)
        · exact .inl h
        · refine .inl ⟨?_, ?_⟩
          · obtain ⟨h2, h3⟩ := h2
            rw [min_self] at h2
            rw [max_self] at h3
            exact le_antisymm h3 h2
          · rw [h1]
            exact ⟨min_le_right _ _, le_max_right _ _⟩
        · exact .inr h
    · simp only [ne_eq, hm, not_false_eq_true, and_true]

/-- The side of a table in column `c` of the drawing that faces one in column `c'`. -/
def Spec.facing (c c' : Nat) : Rat := if c < c' then 350 + 380 * (c : Rat) else 50 + 380 * (c : Rat)

/-- The points of the line between two columns: out of the facing sides and along the middle of the gap. -/
def Spec.OnStreetLine (ns : List Nat) (k j k' j' : Nat) : Point → Prop :=
  OnBracket (390 + 380 * (min (k % 3) (k' % 3) : Nat)) ⟨facing (k % 3) (k' % 3), lineHeight ns k j⟩
    ⟨facing (k' % 3) (k % 3), lineHeight ns k' j'⟩

/-- **C112.** The points covered by the line of a relation between two columns, the tables in neighbouring columns of the drawing and at
most eight rows apart. -/
theorem C112_points {q : Queue} {QI : List Entry → Prop} (hq : q.Lawful QI) (m : Module)
    (hsize : (placeNodes m.intoMir).2.size.height ≤ 1000000000) (i k j k' j' : Nat) (hcol : k' % 3 = k % 3 + 1 ∨ k % 3 = k' % 3 + 1)
    (hrow : RowsWithin 8 k k') (hi : (connections [] m.entries)[i]? = some (.column k j, .column k' j')) :
    ∃ doc' g' e ps, drawEdgePath q (laidOut m.intoMir) .new = .ok (doc', g') ∧ doc'.edges[i]? = some e ∧ e.pathPoints = some ps ∧
      ∀ z, Covers ps z ↔ OnStreetLine (lineNumbers (definitions m.entries)) k j k' j' z := by
  rcases hcol with hcol | hcol
  · obtain ⟨doc', g', e, ps, h, he, hps, hd⟩ := C109_to_the_right hq m hsize i k j k' j' hcol hrow hi
    refine ⟨doc', g', e, ps, h, he, hps, fun z => ?_⟩
    rw [hd.covers, OnStreetLine, min_eq_left (by omega), facing, facing, if_pos (by omega), if_neg (by omega)]
    have : (430 + 380 * ((k % 3 : Nat) : Rat)) = 50 + 380 * ((k' % 3 : Nat) : Rat) := by rw [hcol]; push_cast; ring
    rw [this]
  · obtain ⟨doc', g', e, ps, h, he, hps, hd⟩ := C109_to_the_left hq m hsize i k' j' k j hcol hrow.symm hi
    refine ⟨doc', g', e, ps, h, he, hps, fun z => ?_⟩
    rw [hd.covers, OnStreetLine, min_eq_right (by omega), facing, facing, if_neg (by omega), if_pos (by omega)]
    have : (430 + 380 * ((k' % 3 : Nat) : Rat)) = 50 + 380 * ((k % 3 : Nat) : Rat) := by rw [hcol]; push_cast; ring
    rw [this]

theorem connections_append (defs : List EntityDefinition) (es es' : List ModuleEntry) :
    connections defs (es ++ es') = connections defs es ++ connections (defs ++ definitions es) es' := by
  induction es generalizing defs with
  | nil => simp [connections, definitions]
  | cons e es ih =>
    cases e with
    | definition d => simp [connections, definitions, ih]
    | relation r =>
      simp only [List.cons_append, connections, definitions]
      split <;> simp [ih]

/-- **C112.** Whatever is added at the end of a module, tables or relations, the line of such a relation covers the same points as before. -/
theorem C112_added {q : Queue} {QI : List Entry → Prop} (hq : q.Lawful QI) (m : Module) (more : List ModuleEntry)
    (hsize : (placeNodes m.intoMir).2.size.height ≤ 1000000000)
    (hsize' : (placeNodes (⟨m.name, m.entries ++ more⟩ : Module).intoMir).2.size.height ≤ 1000000000) (i k j k' j' : Nat)
    (hcol : k' % 3 = k % 3 + 1 ∨ k % 3 = k' % 3 + 1) (hrow : RowsWithin 8 k k')
    (hi : (connections [] m.entries)[i]? = some (.column k j, .column k' j')) :
    ∃ d g e ps d' g' e' ps', drawEdgePath q (laidOut m.intoMir) .new = .ok (d, g) ∧ d.edges[i]? = some e ∧ e.pathPoints = some ps ∧
      drawEdgePath q (laidOut (⟨m.name, m.entries ++ more⟩ : Module).intoMir) .new = .ok (d', g') ∧ d'.edges[i]? = some e' ∧
      e'.pathPoints = some ps' ∧ ∀ z, Covers ps z ↔ Covers ps' z := by
  obtain ⟨d, g, e, ps, h1, h2, h3, h4⟩ := C112_points hq m hsize i k j k' j' hcol hrow hi
  have hi' : (connections [] (m.entries ++ more))[i]? = some (.column k j, .column k' j') := by
    rw [connections_append, List.getElem?_append_left (List.getElem?_eq_some_iff.mp hi).1]
    exact hi
  obtain ⟨d', g', e', ps', h1', h2', h3', h4'⟩ := C112_points hq ⟨m.name, m.entries ++ more⟩ hsize' i k j k' j' hcol hrow hi'
  refine ⟨d, g, e, ps, d', g', e', ps', h1, h2, h3, h1', h2', h3', fun z => ?_⟩
  rw [h4, h4']
  obtain ⟨⟨n, hn, -⟩, ⟨n', hn', -⟩⟩ := (ok_module m).valid _ (List.mem_of_getElem? hi)
  have l1 := (List.getElem?_eq_some_iff.mp hn).1
  have l2 := (List.getElem?_eq_some_iff.mp hn').1
  have hl : lineNumbers (definitions (m.entries ++ more)) = lineNumbers (definitions m.entries) ++ lineNumbers (definitions more) := by
    rw [definitions_append]
    simp [lineNumbers]
  simp only [OnStreetLine, lineHeight, hl]
  rw [rowTop_prefix _ _ _ (by omega), rowTop_prefix _ _ _ (by omega)]

/-! The first relation of `twoRows` (C109), and what is added: two tables, one of them in the row of the second table, and a relation. -/

def addedLater : List ModuleEntry :=
  [.definition ⟨c!"f", [⟨c!"x", .int, none⟩, ⟨c!"y", .int, none⟩, ⟨c!"z", .int, none⟩]⟩, .definition ⟨c!"g", []⟩,
    .relation ⟨.field c!"a" c!"y", .field c!"e" c!"x"⟩]

/-- It meets the hypotheses. -/
example : (connections [] twoRows.entries)[0]? = some (.column 0 0, .column 4 0) ∧ 4 % 3 = 0 % 3 + 1 ∧ RowsWithin 8 0 4 ∧
    (placeNodes twoRows.intoMir).2.size.height ≤ 1000000000 ∧
    (placeNodes (⟨twoRows.name, twoRows.entries ++ addedLater⟩ : Module).intoMir).2.size.height ≤ 1000000000 := by
  refine ⟨by decide +kernel, rfl, ⟨by decide, by decide⟩, by decide +kernel, by decide +kernel⟩

set_option maxRecDepth 1000000 in
/-- Its line has other points than before (see `C109_lines`), but on the same segments. -/
theorem C112_line : ((pathsOf (drawEdgePath BinHeap.queue (laidOut (⟨twoRows.name, twoRows.entries ++ addedLater⟩ : Module).intoMir) .new)).bind
      (·[0]?)) =
    some (some [⟨350, 205/2⟩, ⟨390, 205/2⟩, ⟨390, 275/2⟩, ⟨390, 160⟩, ⟨390, 195⟩, ⟨390, 575/2⟩, ⟨430, 575/2⟩]) := by
  decide +kernel

end Seiren
