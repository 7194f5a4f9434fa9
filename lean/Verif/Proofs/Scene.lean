import Verif.Proofs.Reach
import Verif.Props.Ports
/-! # The route graph of a laid-out document -/

namespace Seiren
open Spec

/-- The bottom of table number `k` with `n` lines. -/
def bot (ns : List Nat) (k n : Nat) : Rat := rowTop ns (k / 3) + 35 * (n : Rat)

/-- The column number as a rational. -/
def col (k : Nat) : Rat := ((k % 3 : Nat) : Rat)

theorem col_cases (k : Nat) : (k % 3 = 0 ∧ col k = 0) ∨ (k % 3 = 1 ∧ col k = 1) ∨ (k % 3 = 2 ∧ col k = 2) := by
  unfold col
  have : k % 3 = 0 ∨ k % 3 = 1 ∨ k % 3 = 2 := by omega
  rcases this with h | h | h <;> rw [h] <;> simp

/-- A port of table `k` (or of one of its lines) with the given orientation may be here. -/
def PortAt (ns : List Nat) (k n : Nat) : Orientation → Point → Prop
  | .up, p => p.x = 200 + 380 * col k ∧ p.y = rowTop ns (k / 3)
  | .down, p => p.x = 200 + 380 * col k ∧ p.y = bot ns k n
  | .left, p => p.x = 50 + 380 * col k ∧ rowTop ns (k / 3) < p.y ∧ p.y < bot ns k n
  | .right, p => p.x = 350 + 380 * col k ∧ rowTop ns (k / 3) < p.y ∧ p.y < bot ns k n

/-- What is used of a laid-out document. -/
structure Scene (ns : List Nat) (doc : Document) : Prop where
  rects : ∀ r, r ∈ shapeRects doc ↔ ∃ k n, ns[k]? = some n ∧ r = tableRect ns k n
  pos : ∀ n ∈ ns, 1 ≤ n
  small : ∀ (k n : Nat), ns[k]? = some n → bot ns k n ≤ 1000000000
  ports : ∀ p ∈ doc.edges.flatMap (edgePorts doc), ∃ k n, ns[k]? = some n ∧ PortAt ns k n p.orientation p.location
  ids : ∀ p ∈ doc.edges.flatMap (edgePorts doc), ∀ q ∈ doc.edges.flatMap (edgePorts doc), p.id = q.id → p = q
  grid : ∀ p ∈ doc.edges.flatMap (edgePorts doc), ∃ z : Int, p.location.y = 5 / 2 * (z : Rat)

theorem rowTop_ge (ns : List Nat) (r : Nat) : 50 ≤ rowTop ns r := rowTop_mono ns 0 r (Nat.zero_le _)

theorem rowTop_int (ns : List Nat) (r : Nat) : ∃ z : Int, rowTop ns r = (z : Rat) := by
  induction r with
  | zero => exact ⟨50, by simp [rowTop]⟩
  | succ r ih =>
    obtain ⟨z, hz⟩ := ih
    exact ⟨z + 35 * (tallest ns r : Int) + 80, by simp [rowTop, hz]⟩

theorem rowTop_five (ns : List Nat) (r : Nat) : ∃ z : Int, rowTop ns r = 5 * (z : Rat) := by
  induction r with
  | zero => exact ⟨10, by norm_num [rowTop]⟩
  | succ r ih =>
    obtain ⟨z, hz⟩ := ih
    exact ⟨z + 7 * (tallest ns r : Int) + 16, by simp only [rowTop, hz]; push_cast; ring⟩

theorem bot_gt {ns : List Nat} {doc : Document} (h : Scene ns doc) {k n : Nat} (hk : ns[k]? = some n) :
    rowTop ns (k / 3) + 35 ≤ bot ns k n := by
  have h1 : (1 : Rat) ≤ (n : Rat) := by exact_mod_cast h.pos n (List.mem_of_getElem? hk)
  unfold bot; linarith

/-- Tables of the same column are 80 apart. -/
theorem column_sep (ns : List Nat) {k n k' n' : Nat} (hk : ns[k]? = some n) (hk' : ns[k']? = some n') (hc : k % 3 = k' % 3) :
    (k = k' ∧ n = n') ∨ bot ns k n + 80 ≤ rowTop ns (k' / 3) ∨ bot ns k' n' + 80 ≤ rowTop ns (k / 3) := by
  rcases Nat.lt_trichotomy (k / 3) (k' / 3) with hlt | heq | hlt
  · exact Or.inr (Or.inl (bottom_le ns k n _ hk hlt))
  · have : k = k' := by omega
    subst this
    rw [hk] at hk'
    exact Or.inl ⟨rfl, Option.some.inj hk'⟩
  · exact Or.inr (Or.inr (bottom_le ns k' n' _ hk' hlt))

/-! ## Rectangles -/

theorem inset_out (ns : List Nat) (k n : Nat) (m : Rat) (hm : 0 ≤ m) :
    (tableRect ns k n).insetBy (-m) (-m) =
      ⟨⟨50 + 380 * col k - m, rowTop ns (k / 3) - m⟩, ⟨300 + m * 2, 35 * (n : Rat) + m * 2⟩⟩ := by
  have h0 : (0 : Rat) ≤ (n : Rat) := Nat.cast_nonneg _
  simp only [Rect.insetBy, tableRect, col, Rect.mk.injEq, Point.mk.injEq, Size.mk.injEq]
  refine ⟨⟨by ring, by ring⟩, ?_, ?_⟩
  · rw [max_eq_left (by linarith)]; ring
  · rw [max_eq_left (by linarith)]; ring

theorem inset_one (ns : List Nat) (k n : Nat) (hn : 1 ≤ n) :
    (tableRect ns k n).insetBy 1 1 =
      ⟨⟨50 + 380 * col k + 1, rowTop ns (k / 3) + 1⟩, ⟨298, 35 * (n : Rat) - 2⟩⟩ := by
  have h0 : (1 : Rat) ≤ (n : Rat) := by exact_mod_cast hn
  simp only [Rect.insetBy, tableRect, col, Rect.mk.injEq, Size.mk.injEq]
  refine ⟨trivial, ?_, ?_⟩
  · rw [max_eq_left (by norm_num)]; norm_num
  · rw [max_eq_left (by linarith)]; ring

theorem not_intersects (r : Rect) (p q : Point)
    (h : (p.x < r.minX ∧ q.x < r.minX) ∨ (r.maxX < p.x ∧ r.maxX < q.x) ∨ (p.y < r.minY ∧ q.y < r.minY) ∨
      (r.maxY < p.y ∧ r.maxY < q.y)) : r.intersectsLine p q = false := by
  rw [Bool.eq_false_iff, Ne, C49_intersects_line_exact]
  rintro ⟨⟨t, h0, h1, hin⟩, -⟩
  simp only [InRect, lerp, Rect.minX, Rect.maxX, Rect.minY, Rect.maxY] at hin h
  have e : ∀ a b : Rat, a + t * (b - a) = (1 - t) * a + t * b := fun a b => by ring
  rw [e, e] at hin
  have h1' : 0 ≤ 1 - t := by linarith
  have conv_lt : ∀ a b c : Rat, a < c → b < c → (1 - t) * a + t * b < c := by
    intro a b c ha hb
    rcases eq_or_lt_of_le h0 with he | hp
    · rw [← he]; simpa using ha
    · have h3 : t * b < t * c := mul_lt_mul_of_pos_left hb hp
      have h4 : (1 - t) * a ≤ (1 - t) * c := mul_le_mul_of_nonneg_left (le_of_lt ha) h1'
      have h5 : (1 - t) * c + t * c = c := by ring
      linarith
  have conv_gt : ∀ a b c : Rat, c < a → c < b → c < (1 - t) * a + t * b := by
    intro a b c ha hb
    rcases eq_or_lt_of_le h0 with he | hp
    · rw [← he]; simpa using ha
    · have h3 : t * c < t * b := mul_lt_mul_of_pos_left hb hp
      have h4 : (1 - t) * c ≤ (1 - t) * a := mul_le_mul_of_nonneg_left (le_of_lt ha) h1'
      have h5 : (1 - t) * c + t * c = c := by ring
      linarith
  obtain ⟨g1, g2, g3, g4⟩ := hin
  rcases h with ⟨a, b⟩ | ⟨a, b⟩ | ⟨a, b⟩ | ⟨a, b⟩
  · linarith [conv_lt _ _ _ a b]
  · linarith [conv_gt _ _ _ a b]
  · linarith [conv_lt _ _ _ a b]
  · linarith [conv_gt _ _ _ a b]

theorem Scene.free {ns : List Nat} {doc : Document} (h : Scene ns doc) (p q : Point)
    (hs : ∀ (k n : Nat), ns[k]? = some n →
      (p.x ≤ 50 + 380 * col k ∧ q.x ≤ 50 + 380 * col k) ∨ (350 + 380 * col k ≤ p.x ∧ 350 + 380 * col k ≤ q.x) ∨
      (p.y ≤ rowTop ns (k / 3) ∧ q.y ≤ rowTop ns (k / 3)) ∨ (bot ns k n ≤ p.y ∧ bot ns k n ≤ q.y)) :
    Free (collisionRects doc) p q := by
  intro r hr
  unfold collisionRects at hr
  rw [List.mem_map] at hr
  obtain ⟨r0, hr0, rfl⟩ := hr
  rw [h.rects] at hr0
  obtain ⟨k, n, hk, rfl⟩ := hr0
  have hn := h.pos n (List.mem_of_getElem? hk)
  rw [inset_one ns k n hn]
  apply not_intersects
  simp only [Rect.minX, Rect.maxX, Rect.minY, Rect.maxY]
  have := hs k n hk
  unfold bot at this
  rcases this with ⟨a, b⟩ | ⟨a, b⟩ | ⟨a, b⟩ | ⟨a, b⟩
  · left; constructor <;> linarith
  · right; left; constructor <;> linarith
  · right; right; left; constructor <;> linarith
  · right; right; right; constructor <;> linarith

/-! ## Junctions -/

theorem Scene.corner_iff {ns : List Nat} {doc : Document} (h : Scene ns doc) (j : Point) :
    j ∈ junctionsAroundShapes doc ↔ ∃ k n, ns[k]? = some n ∧ (j.x = 10 + 380 * col k ∨ j.x = 390 + 380 * col k) ∧
      (j.y = rowTop ns (k / 3) - 40 ∨ j.y = bot ns k n + 40) := by
  unfold junctionsAroundShapes
  rw [List.mem_flatMap]
  have e : SHAPE_JUNCTION_MARGIN = 40 := by norm_num [SHAPE_JUNCTION_MARGIN, RECORD_SPACE]
  obtain ⟨x, y⟩ := j
  constructor
  · rintro ⟨r, hr, hj⟩
    rw [h.rects] at hr
    obtain ⟨k, n, hk, rfl⟩ := hr
    refine ⟨k, n, hk, ?_⟩
    rw [e, inset_out ns k n 40 (by norm_num)] at hj
    simp only [Rect.maxX, Rect.minX, Rect.maxY, Rect.minY, List.mem_cons, List.not_mem_nil, or_false, Point.mk.injEq] at hj
    unfold bot
    rcases hj with ⟨h1, h2⟩ | ⟨h1, h2⟩ | ⟨h1, h2⟩ | ⟨h1, h2⟩ <;> constructor <;> simp only
    · left; linarith
    · left; linarith
    · right; linarith
    · left; linarith
    · right; linarith
    · right; linarith
    · left; linarith
    · right; linarith
  · rintro ⟨k, n, hk, hx, hy⟩
    refine ⟨_, (h.rects _).mpr ⟨k, n, hk, rfl⟩, ?_⟩
    rw [e, inset_out ns k n 40 (by norm_num)]
    simp only [Rect.maxX, Rect.minX, Rect.maxY, Rect.minY, List.mem_cons, List.not_mem_nil, or_false, Point.mk.injEq]
    unfold bot at hy
    simp only at hx hy
    rcases hx with hx | hx <;> rcases hy with hy | hy
    · left; constructor <;> linarith
    · right; right; right; constructor <;> linarith
    · right; left; constructor <;> linarith
    · right; right; left; constructor <;> linarith

theorem foldl_max_le (l : List Rect) (P : Rect → Prop) [DecidablePred P] (f : Rect → Rat) (a B : Rat) (ha : a ≤ B)
    (h : ∀ r ∈ l, P r → f r ≤ B) : l.foldl (fun m r => if P r then max m (f r) else m) a ≤ B := by
  induction l generalizing a with
  | nil => exact ha
  | cons r l ih =>
    rw [List.foldl_cons]
    apply ih
    · split
      · rename_i hp; exact max_le ha (h r (by simp) hp)
      · exact ha
    · intro s hs; exact h s (by simp [hs])

theorem foldl_min_ge (l : List Rect) (P : Rect → Prop) [DecidablePred P] (f : Rect → Rat) (a B : Rat) (ha : B ≤ a)
    (h : ∀ r ∈ l, P r → B ≤ f r) : B ≤ l.foldl (fun m r => if P r then min m (f r) else m) a := by
  induction l generalizing a with
  | nil => exact ha
  | cons r l ih =>
    rw [List.foldl_cons]
    apply ih
    · split
      · rename_i hp; exact le_min ha (h r (by simp) hp)
      · exact ha
    · intro s hs; exact h s (by simp [hs])

/-- The point 40 outside a port. -/
def exitOf : Orientation → Point → Point
  | .up, p => ⟨p.x, p.y - 40⟩
  | .down, p => ⟨p.x, p.y + 40⟩
  | .left, p => ⟨p.x - 40, p.y⟩
  | .right, p => ⟨p.x + 40, p.y⟩

theorem f32Max_big : (1000000000 : Rat) ≤ f32Max := by unfold f32Max; norm_num

theorem Scene.fat {ns : List Nat} {doc : Document} (h : Scene ns doc) (r : Rect)
    (hr : r ∈ (shapeRects doc).map fun r => r.insetBy (-SHAPE_JUNCTION_MARGIN) (-SHAPE_JUNCTION_MARGIN)) :
    ∃ k n, ns[k]? = some n ∧ r.minX = 10 + 380 * col k ∧ r.maxX = 390 + 380 * col k ∧ r.minY = rowTop ns (k / 3) - 40 ∧
      r.maxY = bot ns k n + 40 := by
  rw [List.mem_map] at hr
  obtain ⟨r0, hr0, rfl⟩ := hr
  rw [h.rects] at hr0
  obtain ⟨k, n, hk, rfl⟩ := hr0
  have e : SHAPE_JUNCTION_MARGIN = 40 := by norm_num [SHAPE_JUNCTION_MARGIN, RECORD_SPACE]
  rw [e, inset_out ns k n 40 (by norm_num)]
  refine ⟨k, n, hk, ?_⟩
  simp only [Rect.maxX, Rect.minX, Rect.maxY, Rect.minY, bot]
  refine ⟨by linarith, by linarith, trivial, by linarith⟩

theorem Scene.exit_crossing {ns : List Nat} {doc : Document} (h : Scene ns doc) {p : TerminalPort} {k n : Nat}
    (hk : ns[k]? = some n) (hp : PortAt ns k n p.orientation p.location) :
    exitOf p.orientation p.location ∈ junctionsFromTerminalPort doc p (junctionsAroundShapes doc) := by
  have hbot := h.small k n hk
  have hgt := bot_gt h hk
  have hf := f32Max_big
  have htop := rowTop_ge ns (k / 3)
  unfold junctionsFromTerminalPort
  cases ho : p.orientation <;> rw [ho] at hp <;> simp only [PortAt] at hp <;> simp only [exitOf, List.mem_filterMap]
  · -- up
    refine ⟨⟨10 + 380 * col k, rowTop ns (k / 3) - 40⟩, (h.corner_iff _).mpr ⟨k, n, hk, Or.inl rfl, Or.inl rfl⟩, ?_⟩
    rw [if_pos]
    · rw [hp.2]
    · refine ⟨by simp only; linarith, ?_⟩
      apply foldl_min_ge
      · simp only; linarith
      · rintro r hr ⟨h1, -⟩; simp only; linarith
  · -- down
    refine ⟨⟨10 + 380 * col k, bot ns k n + 40⟩, (h.corner_iff _).mpr ⟨k, n, hk, Or.inl rfl, Or.inr rfl⟩, ?_⟩
    rw [if_pos]
    · rw [hp.2]
    · refine ⟨by simp only; linarith, ?_⟩
      apply foldl_max_le
      · simp only; linarith
      · rintro r hr ⟨h1, -⟩; simp only; linarith
  · -- left
    refine ⟨⟨10 + 380 * col k, rowTop ns (k / 3) - 40⟩, (h.corner_iff _).mpr ⟨k, n, hk, Or.inl rfl, Or.inl rfl⟩, ?_⟩
    rw [if_pos]
    · rw [hp.1]; simp only [Option.some.injEq, Point.mk.injEq, and_true]; ring
    · refine ⟨by simp only; linarith, ?_⟩
      apply foldl_max_le
      · rcases col_cases k with ⟨-, hc⟩ | ⟨-, hc⟩ | ⟨-, hc⟩ <;> simp only [hc] <;> norm_num
      · rintro r hr ⟨h1, -⟩
        obtain ⟨k', n', -, hx0, hx, -⟩ := h.fat r hr
        rw [hx, hp.1] at h1
        rw [hx]
        rcases col_cases k with ⟨-, hc⟩ | ⟨-, hc⟩ | ⟨-, hc⟩ <;> rcases col_cases k' with ⟨-, hc'⟩ | ⟨-, hc'⟩ | ⟨-, hc'⟩ <;>
          simp only [hc, hc'] at h1 ⊢ <;> linarith
  · -- right
    refine ⟨⟨390 + 380 * col k, rowTop ns (k / 3) - 40⟩, (h.corner_iff _).mpr ⟨k, n, hk, Or.inr rfl, Or.inl rfl⟩, ?_⟩
    rw [if_pos]
    · rw [hp.1]; simp only [Option.some.injEq, Point.mk.injEq, and_true]; ring
    · refine ⟨by simp only; linarith, ?_⟩
      apply foldl_min_ge
      · rcases col_cases k with ⟨-, hc⟩ | ⟨-, hc⟩ | ⟨-, hc⟩ <;> simp only [hc] <;> linarith
      · rintro r hr ⟨h1, -⟩
        obtain ⟨k', n', -, hx, -⟩ := h.fat r hr
        rw [hx, hp.1] at h1
        rw [hx]
        rcases col_cases k with ⟨-, hc⟩ | ⟨-, hc⟩ | ⟨-, hc⟩ <;> rcases col_cases k' with ⟨-, hc'⟩ | ⟨-, hc'⟩ | ⟨-, hc'⟩ <;>
          simp only [hc, hc'] at h1 ⊢ <;> linarith

/-- Where crossing junctions can be. -/
theorem crossing_shape {doc : Document} {p : TerminalPort} {others : List Point} {j : Point}
    (hj : j ∈ junctionsFromTerminalPort doc p others) :
    ∃ c ∈ others, match p.orientation with
      | .up => j = ⟨p.location.x, c.y⟩
      | .down => j = ⟨p.location.x, c.y⟩
      | .left => j = ⟨c.x, p.location.y⟩
      | .right => j = ⟨c.x, p.location.y⟩ := by
  unfold junctionsFromTerminalPort at hj
  cases ho : p.orientation <;> rw [ho] at hj <;> simp only [List.mem_filterMap] at hj <;>
    (obtain ⟨c, hc, hj⟩ := hj
     split at hj
     · cases hj; exact ⟨c, hc, rfl⟩
     · cases hj)

/-- The junctions of the route graph. -/
def junctionsOf (doc : Document) : List Point :=
  removeOverlapped doc (junctionsAroundShapes doc ++ crossingJunctions doc (junctionsAroundShapes doc))

/-- The ports of the route graph. -/
def portsOfEdges (doc : Document) : List TerminalPort := doc.edges.flatMap (edgePorts doc)

/-- The point keeps a distance of more than 39 from table `k`. -/
def Clear (ns : List Nat) (j : Point) (k n : Nat) : Prop :=
  ¬ (11 + 380 * col k ≤ j.x ∧ j.x ≤ 389 + 380 * col k ∧ rowTop ns (k / 3) - 39 ≤ j.y ∧ j.y ≤ bot ns k n + 39)

theorem Scene.mem_junctions {ns : List Nat} {doc : Document} (h : Scene ns doc) (j : Point) :
    j ∈ junctionsOf doc ↔ (j ∈ junctionsAroundShapes doc ∨
        ∃ p ∈ portsOfEdges doc, j ∈ junctionsFromTerminalPort doc p (junctionsAroundShapes doc)) ∧
      ∀ (k n : Nat), ns[k]? = some n → Clear ns j k n := by
  unfold junctionsOf removeOverlapped
  rw [List.mem_filter, List.mem_append]
  have e : -(SHAPE_JUNCTION_MARGIN - 1) = -(39 : Rat) := by norm_num [SHAPE_JUNCTION_MARGIN, RECORD_SPACE]
  apply and_congr
  · apply or_congr_right
    simp only [crossingJunctions, portsOfEdges, List.mem_flatMap]
    constructor
    · rintro ⟨e, he, p, hp, hj⟩; exact ⟨p, ⟨e, he, hp⟩, hj⟩
    · rintro ⟨p, ⟨e, he, hp⟩, hj⟩; exact ⟨e, he, p, hp, hj⟩
  · rw [Bool.not_eq_true', List.any_eq_false]
    constructor
    · intro hh k n hk hc
      apply hh ((tableRect ns k n).insetBy (-39) (-39))
      · rw [List.mem_map]
        exact ⟨_, (h.rects _).mpr ⟨k, n, hk, rfl⟩, by rw [e]⟩
      · rw [inset_out ns k n 39 (by norm_num)]
        simp only [Rect.containsPoint, Bool.and_eq_true, decide_eq_true_eq]
        simp only [Rect.minX, Rect.maxX, Rect.minY, Rect.maxY]
        unfold bot at hc
        refine ⟨⟨⟨?_, ?_⟩, ?_⟩, ?_⟩ <;> linarith [hc.1, hc.2.1, hc.2.2.1, hc.2.2.2]
    · intro hh r hr hc
      rw [List.mem_map] at hr
      obtain ⟨r0, hr0, rfl⟩ := hr
      rw [h.rects] at hr0
      obtain ⟨k, n, hk, rfl⟩ := hr0
      apply hh k n hk
      rw [e, inset_out ns k n 39 (by norm_num)] at hc
      simp only [Rect.containsPoint, Bool.and_eq_true, decide_eq_true_eq] at hc
      simp only [Rect.minX, Rect.maxX, Rect.minY, Rect.maxY] at hc
      unfold bot
      refine ⟨?_, ?_, ?_, ?_⟩ <;> linarith [hc.1.1.1, hc.1.1.2, hc.1.2, hc.2]

/-- Corners are junctions. -/
theorem Scene.corner_mem {ns : List Nat} {doc : Document} (h : Scene ns doc) {j : Point} (hj : j ∈ junctionsAroundShapes doc) :
    j ∈ junctionsOf doc := by
  rw [h.mem_junctions]
  refine ⟨Or.inl hj, ?_⟩
  intro k n hk hc
  obtain ⟨k', n', -, hx, -⟩ := (h.corner_iff j).mp hj
  obtain ⟨h1, h2, -⟩ := hc
  rcases col_cases k with ⟨-, hc⟩ | ⟨-, hc⟩ | ⟨-, hc⟩ <;> rcases col_cases k' with ⟨-, hc'⟩ | ⟨-, hc'⟩ | ⟨-, hc'⟩ <;>
    rcases hx with hx | hx <;> simp only [hc, hc'] at hx h1 h2 <;> linarith

/-- The exit of every port is a junction. -/
theorem Scene.exit_mem {ns : List Nat} {doc : Document} (h : Scene ns doc) {p : TerminalPort} (hp : p ∈ portsOfEdges doc) :
    exitOf p.orientation p.location ∈ junctionsOf doc := by
  obtain ⟨k, n, hk, hpa⟩ := h.ports p hp
  rw [h.mem_junctions]
  refine ⟨Or.inr ⟨p, hp, h.exit_crossing hk hpa⟩, ?_⟩
  intro k' n' hk' hc
  obtain ⟨h1, h2, h3, h4⟩ := hc
  cases ho : p.orientation <;> rw [ho] at hpa h1 h2 h3 h4 <;> simp only [PortAt] at hpa <;> simp only [exitOf] at h1 h2 h3 h4
  · rw [hpa.1] at h1 h2
    have hcc : k % 3 = k' % 3 := by
      rcases col_cases k with ⟨e, hc⟩ | ⟨e, hc⟩ | ⟨e, hc⟩ <;> rcases col_cases k' with ⟨e', hc'⟩ | ⟨e', hc'⟩ | ⟨e', hc'⟩ <;>
        simp only [hc, hc'] at h1 h2 <;> first | (exfalso; linarith) | (rw [e, e'])
    have g := bot_gt h hk
    have g' := bot_gt h hk'
    rcases column_sep ns hk hk' hcc with ⟨rfl, rfl⟩ | hs | hs <;> linarith
  · rw [hpa.1] at h1 h2
    have hcc : k % 3 = k' % 3 := by
      rcases col_cases k with ⟨e, hc⟩ | ⟨e, hc⟩ | ⟨e, hc⟩ <;> rcases col_cases k' with ⟨e', hc'⟩ | ⟨e', hc'⟩ | ⟨e', hc'⟩ <;>
        simp only [hc, hc'] at h1 h2 <;> first | (exfalso; linarith) | (rw [e, e'])
    have g := bot_gt h hk
    have g' := bot_gt h hk'
    rcases column_sep ns hk hk' hcc with ⟨rfl, rfl⟩ | hs | hs <;> linarith
  · rw [hpa.1] at h1 h2
    rcases col_cases k with ⟨-, hc⟩ | ⟨-, hc⟩ | ⟨-, hc⟩ <;> rcases col_cases k' with ⟨-, hc'⟩ | ⟨-, hc'⟩ | ⟨-, hc'⟩ <;>
      simp only [hc, hc'] at h1 h2 <;> linarith
  · rw [hpa.1] at h1 h2
    rcases col_cases k with ⟨-, hc⟩ | ⟨-, hc⟩ | ⟨-, hc⟩ <;> rcases col_cases k' with ⟨-, hc'⟩ | ⟨-, hc'⟩ | ⟨-, hc'⟩ <;>
      simp only [hc, hc'] at h1 h2 <;> linarith

/-- Where junctions are: on the streets between the columns, or in the middle of a column at a whole height. -/
theorem Scene.junction_shape {ns : List Nat} {doc : Document} (h : Scene ns doc) {j : Point} (hj : j ∈ junctionsOf doc) :
    (∃ k n, ns[k]? = some n ∧ (j.x = 10 + 380 * col k ∨ j.x = 390 + 380 * col k)) ∨
    (∃ k n, ns[k]? = some n ∧ j.x = 200 + 380 * col k ∧ ∃ z : Int, j.y = (z : Rat)) := by
  have hint : ∀ c ∈ junctionsAroundShapes doc, ∃ z : Int, c.y = (z : Rat) := by
    intro c hc
    obtain ⟨k, n, -, -, hy⟩ := (h.corner_iff c).mp hc
    obtain ⟨z, hz⟩ := rowTop_int ns (k / 3)
    rcases hy with hy | hy
    · exact ⟨z - 40, by rw [hy, hz]; push_cast; ring⟩
    · exact ⟨z + 35 * (n : Int) + 40, by rw [hy, bot, hz]; push_cast; ring⟩
  have hstreet : ∀ c ∈ junctionsAroundShapes doc, ∃ k n, ns[k]? = some n ∧ (c.x = 10 + 380 * col k ∨ c.x = 390 + 380 * col k) := by
    intro c hc
    obtain ⟨k, n, hk, hx, -⟩ := (h.corner_iff c).mp hc
    exact ⟨k, n, hk, hx⟩
  obtain ⟨hj, -⟩ := (h.mem_junctions j).mp hj
  rcases hj with hj | ⟨p, hp, hj⟩
  · exact Or.inl (hstreet j hj)
  · obtain ⟨c, hc, hs⟩ := crossing_shape hj
    obtain ⟨k, n, hk, hpa⟩ := h.ports p hp
    cases ho : p.orientation <;> rw [ho] at hs hpa <;> simp only [PortAt] at hs hpa
    · right
      obtain ⟨z, hz⟩ := hint c hc
      exact ⟨k, n, hk, by rw [hs]; exact hpa.1, z, by rw [hs]; exact hz⟩
    · right
      obtain ⟨z, hz⟩ := hint c hc
      exact ⟨k, n, hk, by rw [hs]; exact hpa.1, z, by rw [hs]; exact hz⟩
    · left; rw [hs]; exact hstreet c hc
    · left; rw [hs]; exact hstreet c hc

/-- Heights of junctions. -/
theorem Scene.junction_y {ns : List Nat} {doc : Document} (h : Scene ns doc) {j : Point} (hj : j ∈ junctionsOf doc) :
    10 ≤ j.y ∧ ∃ k n, ns[k]? = some n ∧ j.y ≤ bot ns k n + 40 := by
  have hc : ∀ c ∈ junctionsAroundShapes doc, 10 ≤ c.y ∧ ∃ k n, ns[k]? = some n ∧ c.y ≤ bot ns k n + 40 := by
    intro c hc
    obtain ⟨k, n, hk, -, hy⟩ := (h.corner_iff c).mp hc
    have h1 := rowTop_ge ns (k / 3)
    have h2 := bot_gt h hk
    rcases hy with hy | hy
    · exact ⟨by linarith, k, n, hk, by linarith⟩
    · exact ⟨by linarith, k, n, hk, by linarith⟩
  obtain ⟨hj, -⟩ := (h.mem_junctions j).mp hj
  rcases hj with hj | ⟨p, hp, hj⟩
  · exact hc j hj
  · obtain ⟨c, hcm, hs⟩ := crossing_shape hj
    obtain ⟨k, n, hk, hpa⟩ := h.ports p hp
    have h1 := rowTop_ge ns (k / 3)
    have h2 := bot_gt h hk
    cases ho : p.orientation <;> rw [ho] at hs hpa <;> simp only [PortAt] at hs hpa
    · rw [hs]; exact hc c hcm
    · rw [hs]; exact hc c hcm
    · rw [hs]; exact ⟨by simp only; linarith, k, n, hk, by simp only; linarith⟩
    · rw [hs]; exact ⟨by simp only; linarith, k, n, hk, by simp only; linarith⟩

/-! ## The graph before edges are added -/

theorem Scene.port_on_table {ns : List Nat} {doc : Document} (h : Scene ns doc) {o : Orientation} {p : Point} {k n : Nat}
    (hk : ns[k]? = some n) (hp : PortAt ns k n o p) :
    50 + 380 * col k ≤ p.x ∧ p.x ≤ 350 + 380 * col k ∧ rowTop ns (k / 3) ≤ p.y ∧ p.y ≤ bot ns k n := by
  have h2 := bot_gt h hk
  cases o <;> simp only [PortAt] at hp <;> refine ⟨?_, ?_, ?_, ?_⟩ <;> linarith [hp.1, hp.2]

theorem Scene.junction_not_port {ns : List Nat} {doc : Document} (h : Scene ns doc) {j : Point} (hj : j ∈ junctionsOf doc)
    {o : Orientation} {k n : Nat} (hk : ns[k]? = some n) (hp : PortAt ns k n o j) : False := by
  obtain ⟨-, hc⟩ := (h.mem_junctions j).mp hj
  obtain ⟨h1, h2, h3, h4⟩ := h.port_on_table hk hp
  exact hc k n hk ⟨by linarith, by linarith, by linarith, by linarith⟩

theorem Scene.port_orientation {ns : List Nat} {doc : Document} (h : Scene ns doc) {o o' : Orientation} {p : Point}
    {k n k' n' : Nat} (hk : ns[k]? = some n) (hk' : ns[k']? = some n') (hp : PortAt ns k n o p) (hp' : PortAt ns k' n' o' p) :
    o = o' := by
  have hcol : ∀ x : Rat, (∃ a : Rat, (a = 50 ∨ a = 200 ∨ a = 350) ∧ x = a) → True := fun _ _ => trivial
  have g := bot_gt h hk
  have g' := bot_gt h hk'
  have vert : p.x = 200 + 380 * col k → p.x = 200 + 380 * col k' → k % 3 = k' % 3 := by
    intro e1 e2
    rw [e1] at e2
    rcases col_cases k with ⟨e, hc⟩ | ⟨e, hc⟩ | ⟨e, hc⟩ <;> rcases col_cases k' with ⟨e', hc'⟩ | ⟨e', hc'⟩ | ⟨e', hc'⟩ <;>
      simp only [hc, hc'] at e2 <;> first | (exfalso; linarith) | (rw [e, e'])
  have kill : ∀ a b : Rat, (a = 50 ∨ a = 200 ∨ a = 350) → (b = 50 ∨ b = 200 ∨ b = 350) → p.x = a + 380 * col k →
      p.x = b + 380 * col k' → a = b := by
    intro a b ha hb e1 e2
    rw [e1] at e2
    rcases col_cases k with ⟨e, hc⟩ | ⟨e, hc⟩ | ⟨e, hc⟩ <;> rcases col_cases k' with ⟨e', hc'⟩ | ⟨e', hc'⟩ | ⟨e', hc'⟩ <;>
      rcases ha with ha | ha | ha <;> rcases hb with hb | hb | hb <;>
      simp only [hc, hc', ha, hb] at e2 ⊢ <;> (exfalso; linarith)
  cases o <;> cases o' <;> simp only [PortAt] at hp hp' <;> first
    | rfl
    | (exfalso
       have hcc := vert hp.1 hp'.1
       rcases column_sep ns hk hk' hcc with ⟨rfl, rfl⟩ | hs | hs <;> linarith [hp.2, hp'.2])
    | (exfalso
       have := kill _ _ (by norm_num) (by norm_num) hp.1 hp'.1
       norm_num at this)

/-- The graph before edges are added exists, and its nodes are the junctions and the ports. -/
structure SceneGraph (doc : Document) (g : RouteGraph) : Prop where
  built : buildRouteGraph doc .new = .ok (connectNearest doc g)
  wf : WellFormed g
  edges : g.edges = []
  nodes : ∀ n, n ∈ g.nodes ↔ (∃ j ∈ junctionsOf doc, n = ⟨j, none⟩) ∨ ∃ p ∈ portsOfEdges doc, n = ⟨p.location, some p.orientation⟩
  ports : ∀ p ∈ portsOfEdges doc, ∃ i, g.getTerminalPort p.id = some i ∧ g.nodes[i]? = some ⟨p.location, some p.orientation⟩

theorem Scene.graph {ns : List Nat} {doc : Document} (h : Scene ns doc) : ∃ g, SceneGraph doc g := by
  obtain ⟨g1, h1, h2, h3, -, h5, -⟩ := addJunctions_ok (junctionsOf doc) .new wellFormed_new (by
    intro j _ n hn; cases hn)
  have hnodes1 : ∀ n, n ∈ g1.nodes ↔ ∃ j ∈ junctionsOf doc, n = ⟨j, none⟩ := by
    intro n; rw [h5]; simp [RouteGraph.new]
  obtain ⟨g2, k1, k2, k3, k4, -, k6, -⟩ := addTerminalPorts_ok (portsOfEdges doc) g1 h2 (by
      intro p hp n hn hl
      rw [hnodes1] at hn
      obtain ⟨j, hj, rfl⟩ := hn
      obtain ⟨k, n, hk, hpa⟩ := h.ports p hp
      simp only at hl
      rw [← hl] at hpa
      exact (h.junction_not_port hj hk hpa).elim) (by
      intro p hp q hq hl
      obtain ⟨k, n, hk, hpa⟩ := h.ports p hp
      obtain ⟨k', n', hk', hpa'⟩ := h.ports q hq
      rw [← hl] at hpa'
      exact h.port_orientation hk hk' hpa hpa') h.ids
  refine ⟨g2, ?_, k2, by rw [k3, h3]; rfl, ?_, k6⟩
  · unfold buildRouteGraph
    unfold junctionsOf at h1
    unfold portsOfEdges at k1
    simp only [h1, k1]
  · intro n
    rw [k4, hnodes1]

end Seiren
