import Verif.Props.Routing
import Mathlib.Algebra.Order.Field.Basic
/-! # C38: paths and tables -/

namespace Seiren
open Spec

/-! ## Rectangles -/

theorem crosses_x {r : Rect} {a b : Point} (h : Crosses r a b) (hx : a.x = b.x) :
    r.origin.x < a.x ∧ a.x < r.origin.x + r.size.width := by
  obtain ⟨t, -, -, h1, h2, -, -⟩ := h
  simp only [lerp, hx, sub_self, mul_zero, add_zero] at h1 h2
  rw [hx]; exact ⟨h1, h2⟩

/-- The rectangle without a border of width 1. -/
def Spec.core (r : Rect) : Rect := ⟨⟨r.origin.x + 1, r.origin.y + 1⟩, ⟨r.size.width - 2, r.size.height - 2⟩⟩

theorem core_table (ns : List Nat) (k n : Nat) (hn : 1 ≤ n) : (tableRect ns k n).insetBy 1 1 = core (tableRect ns k n) := by
  rw [inset_one ns k n hn]
  simp only [core, tableRect, col, Rect.mk.injEq, Size.mk.injEq]
  exact ⟨trivial, by norm_num, trivial⟩

/-- If the part up to a nearer point is not free, neither is the line to a farther one. -/
theorem free_nearer {rects : List Rect} {d : Orientation} (hd : d = .left ∨ d = .right) {n f b : RouteNodeData}
    (hf : Towards d n.location f.location) (hb : Towards d n.location b.location) (hn : ¬ Nearer d f b)
    (h : Free rects n.location b.location) : Free rects n.location f.location := by
  intro r hr
  have hb' := h r hr
  rw [Bool.eq_false_iff, Ne, C49_intersects_line_exact] at hb' ⊢
  rintro ⟨⟨t, t0, t1, hin⟩, hno⟩
  apply hb'
  obtain ⟨⟨nx, ny⟩, no⟩ := n
  obtain ⟨⟨fx, fy⟩, fo⟩ := f
  obtain ⟨⟨bx, bby⟩, bo⟩ := b
  simp only [InRect, lerp] at hin
  rcases hd with rfl | rfl <;> simp only [Towards, Nearer, not_lt, gt_iff_lt] at hf hb hn <;> simp only at hno ⊢
  · obtain ⟨rfl, hf⟩ := hf
    obtain ⟨rfl, hb⟩ := hb
    rw [if_pos hf] at hno
    rw [if_pos hb]
    constructor
    · have hpos : 0 < nx - bx := by linarith
      refine ⟨t * ((nx - fx) / (nx - bx)), ?_, ?_, ?_⟩
      · exact mul_nonneg t0 (div_nonneg (by linarith) (le_of_lt hpos))
      · have : (nx - fx) / (nx - bx) ≤ 1 := by rw [div_le_one hpos]; linarith
        have h0 : 0 ≤ (nx - fx) / (nx - bx) := div_nonneg (by linarith) (le_of_lt hpos)
        calc t * ((nx - fx) / (nx - bx)) ≤ 1 * 1 := mul_le_mul t1 this h0 (by norm_num)
          _ = 1 := by norm_num
      · have e : t * ((nx - fx) / (nx - bx)) * (bx - nx) = t * (fx - nx) := by
          have : nx - bx ≠ 0 := ne_of_gt hpos
          field_simp; ring
        simp only [InRect, lerp]
        rw [e]
        simpa using hin
    · rintro ⟨c1, c2, c3, c4⟩
      exact hno ⟨by linarith, c2, c3, c4⟩
  · obtain ⟨rfl, hf⟩ := hf
    obtain ⟨rfl, hb⟩ := hb
    rw [if_neg (by linarith)] at hno
    rw [if_neg (by linarith)]
    constructor
    · have hpos : 0 < bx - nx := by linarith
      refine ⟨t * ((fx - nx) / (bx - nx)), ?_, ?_, ?_⟩
      · exact mul_nonneg t0 (div_nonneg (by linarith) (le_of_lt hpos))
      · have : (fx - nx) / (bx - nx) ≤ 1 := by rw [div_le_one hpos]; linarith
        have h0 : 0 ≤ (fx - nx) / (bx - nx) := div_nonneg (by linarith) (le_of_lt hpos)
        calc t * ((fx - nx) / (bx - nx)) ≤ 1 * 1 := mul_le_mul t1 this h0 (by norm_num)
          _ = 1 := by norm_num
      · have e : t * ((fx - nx) / (bx - nx)) * (bx - nx) = t * (fx - nx) := by
          have : bx - nx ≠ 0 := ne_of_gt hpos
          field_simp
        simp only [InRect, lerp]
        rw [e]
        simpa using hin
    · rintro ⟨c1, c2, c3, c4⟩
      exact hno ⟨c1, by linarith, c3, c4⟩

/-- A chosen horizontal neighbour is freely reachable, unless nothing is in that direction. -/
theorem chosen_free {rects : List Rect} {g : RouteGraph} {a b : RouteNodeId} {n m : RouteNodeData} (hn : g.nodes[a]? = some n)
    (hm : g.nodes[b]? = some m) (h : Chosen rects g a b) {d : Orientation} (hd : d = .left ∨ d = .right)
    (ht : Towards d n.location m.location) :
    Free rects n.location m.location ∨ ∀ c ∈ g.nodes, Linked d n c → ¬ Free rects n.location c.location := by
  obtain ⟨n', m', d', hn', hm', h⟩ := h
  rw [hn] at hn'; rw [hm] at hm'
  cases hn'; cases hm'
  have hs := nearest_spec rects n d' g.indexed
  unfold nearestOf at h
  rw [h] at hs
  obtain ⟨-, h2, h3⟩ := hs
  have hdd := h2.1.unique ht
  subst hdd
  by_cases hf : Free rects n.location m.location
  · exact Or.inl hf
  · right
    intro c hc hl hfc
    obtain ⟨i, hi⟩ := List.getElem?_of_mem hc
    exact hf (free_nearer hd ht hl.1 (h3 (i, c) ((mem_indexed g _ _).mpr hi) hl hfc) hfc)

/-! ## Nodes and tables -/

theorem Scene.node_outside {ns : List Nat} {doc : Document} (h : Scene ns doc) {g : RouteGraph} (hg : SceneGraph doc g)
    {c : RouteNodeData} (hc : c ∈ g.nodes) {k n : Nat} (hk : ns[k]? = some n) : ¬ Interior (tableRect ns k n) c.location := by
  rintro ⟨h1, h2, h3, h4⟩
  simp only [tableRect] at h1 h2 h3 h4
  change 50 + 380 * col k < _ at h1
  change _ < 50 + 380 * col k + 300 at h2
  change _ < bot ns k n at h4
  rcases hg.between hc with ⟨-, hj⟩ | ⟨p, hp, hloc, -⟩
  · exact ((h.mem_junctions _).mp hj).2 k n hk ⟨by linarith, by linarith, by linarith, by linarith⟩
  · obtain ⟨k', n', hk', hpa⟩ := h.ports p hp
    rw [hloc] at h1 h2 h3 h4
    obtain ⟨g1, g2, g3, g4⟩ := h.port_on_table hk' hpa
    have hc : k % 3 = k' % 3 := by
      rcases col_cases k with ⟨e, hc⟩ | ⟨e, hc⟩ | ⟨e, hc⟩ <;> rcases col_cases k' with ⟨e', hc'⟩ | ⟨e', hc'⟩ | ⟨e', hc'⟩ <;>
        simp only [hc, hc'] at h1 h2 g1 g2 <;> first | (exfalso; linarith) | (rw [e, e'])
    rcases column_sep ns hk hk' hc with ⟨rfl, rfl⟩ | hs | hs
    · cases ho : p.orientation <;> rw [ho] at hpa <;> simp only [PortAt] at hpa <;> linarith [hpa.1, hpa.2]
    · linarith
    · linarith

/-- The places of nodes: on a street, in the middle of a column, or at the side of a table. -/
theorem Scene.node_x {ns : List Nat} {doc : Document} (h : Scene ns doc) {g : RouteGraph} (hg : SceneGraph doc g)
    {c : RouteNodeData} (hc : c ∈ g.nodes) :
    ∃ k n, ns[k]? = some n ∧ (c.location.x = 10 + 380 * col k ∨ c.location.x = 390 + 380 * col k ∨ c.location.x = 200 + 380 * col k ∨
      c.location.x = 50 + 380 * col k ∨ c.location.x = 350 + 380 * col k) := by
  rcases hg.between hc with ⟨-, hj⟩ | ⟨p, hp, hloc, -⟩
  · rcases h.junction_shape hj with ⟨k, n, hk, hx | hx⟩ | ⟨k, n, hk, hx, -⟩
    · exact ⟨k, n, hk, Or.inl hx⟩
    · exact ⟨k, n, hk, Or.inr (Or.inl hx)⟩
    · exact ⟨k, n, hk, Or.inr (Or.inr (Or.inl hx))⟩
  · obtain ⟨k, n, hk, hpa⟩ := h.ports p hp
    rw [hloc]
    refine ⟨k, n, hk, ?_⟩
    cases ho : p.orientation <;> rw [ho] at hpa <;> simp only [PortAt] at hpa <;> rw [hpa.1] <;> simp

/-- A free line from a node does not enter the core of a table. -/
theorem Scene.free_core {ns : List Nat} {doc : Document} (h : Scene ns doc) {g : RouteGraph} (hg : SceneGraph doc g)
    {c d : RouteNodeData} (hc : c ∈ g.nodes) (hy : c.location.y = d.location.y)
    (hf : Free (collisionRects doc) c.location d.location)
    {k n : Nat} (hk : ns[k]? = some n) : ¬ Crosses (core (tableRect ns k n)) c.location d.location := by
  rintro ⟨t, t0, t1, hin⟩
  have hmem : core (tableRect ns k n) ∈ collisionRects doc := by
    rw [collisionRects, List.mem_map]
    exact ⟨_, (h.rects _).mpr ⟨k, n, hk, rfl⟩, core_table ns k n (h.pos n (List.mem_of_getElem? hk))⟩
  have hr := hf _ hmem
  rw [Bool.eq_false_iff, Ne, C49_intersects_line_exact] at hr
  apply hr
  refine ⟨⟨t, t0, t1, le_of_lt hin.1, le_of_lt hin.2.1, le_of_lt hin.2.2.1, le_of_lt hin.2.2.2⟩, ?_⟩
  have hout := h.node_outside hg hc hk
  intro hcon
  apply hout
  simp only [core, Rect.minX, Rect.maxX, Rect.minY, Rect.maxY] at hcon
  unfold Interior
  split at hcon
  · obtain ⟨c1, c2, c3, c4⟩ := hcon
    exact ⟨by linarith, by linarith, by linarith, by linarith⟩
  · obtain ⟨c1, c2, c3, c4⟩ := hcon
    exact ⟨by linarith, by linarith, by linarith, by linarith⟩

/-- A line that is not free passes through a table. -/
theorem Scene.not_free {ns : List Nat} {doc : Document} (h : Scene ns doc) {p q : Point}
    (hf : ¬ Free (collisionRects doc) p q) : ∃ (k n : Nat), ns[k]? = some n ∧ Crosses (tableRect ns k n) p q := by
  unfold Free at hf
  push Not at hf
  obtain ⟨r, hr, hi⟩ := hf
  rw [collisionRects, List.mem_map] at hr
  obtain ⟨r0, hr0, rfl⟩ := hr
  obtain ⟨k, n, hk, rfl⟩ := (h.rects _).mp hr0
  rw [core_table ns k n (h.pos n (List.mem_of_getElem? hk))] at hi
  have hi : (core (tableRect ns k n)).intersectsLine p q = true := by simpa using hi
  rw [C49_intersects_line_exact] at hi
  obtain ⟨⟨t, t0, t1, h1, h2, h3, h4⟩, -⟩ := hi
  simp only [core] at h1 h2 h3 h4
  exact ⟨k, n, hk, t, t0, t1, by linarith, by linarith, by linarith, by linarith⟩

/-! ## C38 -/

/-- The rectangles of the tables of a document. -/
def Spec.IsTable (doc : Document) (r : Rect) : Prop := ∃ t ∈ tables doc, rectOf (laidOut doc) t = some r

/-- Every node of the graph that lies in direction `d` of `n`, in a line both nodes allow, is behind a table. -/
def Spec.Blocked (doc : Document) (g : RouteGraph) (d : Orientation) (n : RouteNodeData) : Prop :=
  ∀ c ∈ g.nodes, Linked d n c → ∃ r, IsTable doc r ∧ Crosses r n.location c.location

theorem isTable_iff {doc : Document} (hd : Drawable doc) (r : Rect) :
    IsTable doc r ↔ ∃ (k n : Nat), (lineCounts doc)[k]? = some n ∧ r = tableRect (lineCounts doc) k n := by
  constructor
  · rintro ⟨t, ht, hr⟩
    obtain ⟨k, hk⟩ := List.getElem?_of_mem ht
    rw [rectOf_laidOut, rectOf_table hd.tabular k t hk] at hr
    exact ⟨k, _, by simp [lineCounts, hk], (Option.some.inj hr).symm⟩
  · rintro ⟨k, n, hk, rfl⟩
    simp only [lineCounts, List.getElem?_map, Option.map_eq_some_iff] at hk
    obtain ⟨t, ht, rfl⟩ := hk
    exact ⟨t, List.mem_of_getElem? ht, by rw [rectOf_laidOut, rectOf_table hd.tabular k t ht]⟩

/-- **C38, the part that holds.** The full property, that no segment passes through the interior of a table, is false
(`C38_refuted`).  What holds:
1. no point of a path is in the interior of a table;
2. a vertical segment passes through a table only along the middle of the table;
3. a horizontal segment passes through no table (not counting a border of width 1), unless at one of its ends every
   possible neighbour in the direction of the segment is behind a table. -/
theorem C38_paths_avoid_tables_partial {q : Queue} {QI : List Entry → Prop} (hq : q.Lawful QI) (doc : Document) (hd : Drawable doc)
    (hsize : (placeNodes doc).2.size.height ≤ 1000000000) (doc' : Document) (g' : RouteGraph)
    (h : drawEdgePath q (laidOut doc) .new = .ok (doc', g')) (e : EdgeData) (he : e ∈ doc'.edges) (ps : List Point)
    (hps : e.pathPoints = some ps) :
    (∀ p ∈ ps, ∀ r, IsTable doc r → ¬ Interior r p) ∧
    ∀ (k : Nat) (a b : Point), ps[k]? = some a → ps[k + 1]? = some b →
      (a.x = b.x → ∀ r, IsTable doc r → Crosses r a b → a.x = r.origin.x + r.size.width / 2) ∧
      (a.y = b.y → (∀ r, IsTable doc r → ¬ Crosses (core r) a b) ∨
        ∃ n m d, n ∈ g'.nodes ∧ m ∈ g'.nodes ∧ n.location = a ∧ m.location = b ∧ Towards d a b ∧
          (Blocked doc g' d n ∨ Blocked doc g' (opposite d) m)) := by
  have hsc := scene_laidOut hd hsize
  obtain ⟨g, hg, rfl, hr, -⟩ := drawn_edge hq hd hsize h he hps
  obtain ⟨s, s', -, -, p0, -, r0, -, i, j, w, c, -, -, hw, -, hl, -⟩ := hr.path
  constructor
  · intro p hp r hr
    obtain ⟨n, hn, rfl⟩ := hl.mem p hp
    rw [(connect_nodes _ g).1] at hn
    obtain ⟨k, m, hk, rfl⟩ := (isTable_iff hd r).mp hr
    exact hsc.node_outside hg hn hk
  · intro k a b ha hb
    obtain ⟨x, y, n, m, d, -, -, hn, hm, rfl, rfl, hlk, hj⟩ := segment_linked hg hl (walk_route hw).2.2 k a b ha hb
    have hnm := List.mem_of_getElem? hn
    have hmm := List.mem_of_getElem? hm
    constructor
    · intro hx r hr hcr
      obtain ⟨k1, n1, hk1, rfl⟩ := (isTable_iff hd r).mp hr
      obtain ⟨c1, c2⟩ := crosses_x hcr hx
      obtain ⟨k2, n2, hk2, hxx⟩ := hsc.node_x hg hnm
      simp only [tableRect] at c1 c2 ⊢
      change 50 + 380 * col k1 < _ at c1
      change _ < 50 + 380 * col k1 + 300 at c2
      change _ = 50 + 380 * col k1 + 300 / 2
      rcases col_cases k1 with ⟨-, hc⟩ | ⟨-, hc⟩ | ⟨-, hc⟩ <;> rcases col_cases k2 with ⟨-, hc'⟩ | ⟨-, hc'⟩ | ⟨-, hc'⟩ <;>
        simp only [hc, hc'] at c1 c2 hxx ⊢ <;> rcases hxx with hxx | hxx | hxx | hxx | hxx <;> first | (exfalso; linarith) | linarith
    · intro hy
      have hdh : d = .left ∨ d = .right := by
        have ht := hlk.1
        cases d <;> simp only [Towards] at ht
        · linarith
        · linarith
        · exact Or.inl rfl
        · exact Or.inr rfl
      have hdh' : opposite d = .left ∨ opposite d = .right := by
        rcases hdh with rfl | rfl <;> simp [opposite]
      have key : Free (collisionRects (laidOut doc)) n.location m.location ∨
          Free (collisionRects (laidOut doc)) m.location n.location ∨
          (∀ c ∈ g.nodes, Linked d n c → ¬ Free (collisionRects (laidOut doc)) n.location c.location) ∨
          (∀ c ∈ g.nodes, Linked (opposite d) m c → ¬ Free (collisionRects (laidOut doc)) m.location c.location) := by
        rw [joined_connect] at hj
        rcases hj with hj | hj | hj
        · exfalso
          unfold Joined at hj
          rw [hg.edges] at hj
          simp at hj
        · rcases chosen_free hn hm hj hdh hlk.1 with h1 | h1
          · exact Or.inl h1
          · exact Or.inr (Or.inr (Or.inl h1))
        · rcases chosen_free hm hn hj hdh' hlk.1.symm with h1 | h1
          · exact Or.inr (Or.inl h1)
          · exact Or.inr (Or.inr (Or.inr h1))
      have hblock : ∀ (d : Orientation) (n : RouteNodeData),
          (∀ c ∈ g.nodes, Linked d n c → ¬ Free (collisionRects (laidOut doc)) n.location c.location) →
          Blocked doc (connectNearest (laidOut doc) g) d n := by
        intro d n hh c hc hl
        rw [(connect_nodes _ g).1] at hc
        obtain ⟨k, m, hk, hcr⟩ := hsc.not_free (hh c hc hl)
        exact ⟨_, (isTable_iff hd _).mpr ⟨k, m, hk, rfl⟩, hcr⟩
      rcases key with h1 | h1 | h1 | h1
      · left
        intro r hr
        obtain ⟨k1, n1, hk1, rfl⟩ := (isTable_iff hd r).mp hr
        exact hsc.free_core hg hnm hy h1 hk1
      · left
        intro r hr
        obtain ⟨k1, n1, hk1, rfl⟩ := (isTable_iff hd r).mp hr
        intro hcr
        apply hsc.free_core hg hmm hy.symm h1 hk1
        obtain ⟨t, t0, t1, hin⟩ := hcr
        refine ⟨1 - t, by linarith, by linarith, ?_⟩
        have : lerp m.location n.location (1 - t) = lerp n.location m.location t := by
          simp only [lerp, Point.mk.injEq]; constructor <;> ring
        rw [this]; exact hin
      · right
        exact ⟨n, m, d, by rw [(connect_nodes _ g).1]; exact hnm, by rw [(connect_nodes _ g).1]; exact hmm, rfl, rfl, hlk.1,
          Or.inl (hblock _ _ h1)⟩
      · right
        exact ⟨n, m, d, by rw [(connect_nodes _ g).1]; exact hnm, by rw [(connect_nodes _ g).1]; exact hmm, rfl, rfl, hlk.1,
          Or.inr (hblock _ _ h1)⟩

/-- Two columns joined through the table between them. -/
def throughTable : Module :=
  ⟨none, [.definition ⟨c!"a", [⟨c!"id", .int, none⟩]⟩, .definition ⟨c!"b", [⟨c!"x", .int, none⟩]⟩,
    .definition ⟨c!"c", [⟨c!"id", .int, none⟩]⟩, .relation ⟨.field c!"a" c!"id", .field c!"c" c!"id"⟩]⟩

/-- Seven tables; the first and the last of the first column are joined. -/
def downTheColumn : Module :=
  ⟨none, (['a', 'b', 'c', 'd', 'e', 'f', 'g'].map fun n => .definition ⟨[n], [⟨c!"x", .int, none⟩]⟩) ++
    [.relation ⟨.field c!"a" c!"x", .entity c!"g"⟩]⟩

set_option maxRecDepth 100000 in
theorem throughTable_paths : pathsOf (drawEdgePath BinHeap.queue (laidOut throughTable.intoMir) .new) =
    some [some [⟨350, 205/2⟩, ⟨390, 205/2⟩, ⟨770, 205/2⟩, ⟨810, 205/2⟩]] := by decide +kernel

set_option maxRecDepth 100000 in
theorem downTheColumn_paths : pathsOf (drawEdgePath BinHeap.queue (laidOut downTheColumn.intoMir) .new) =
    some [some [⟨200, 120⟩, ⟨200, 160⟩, ⟨200, 310⟩, ⟨200, 350⟩]] := by decide +kernel

theorem pathsOf_some {r : Except Panic (Document × RouteGraph)} {l : List (Option (List Point))} (h : pathsOf r = some l) :
    ∃ d g, r = .ok (d, g) ∧ d.edges.map (·.pathPoints) = l := by
  unfold pathsOf at h
  split at h
  · exact ⟨_, _, rfl, Option.some.inj h⟩
  · cases h

/-- **C38 is false as stated**: a horizontal segment of the path of `throughTable` passes through the table `b`, and a
vertical segment of the path of `downTheColumn` passes through the table `d`. -/
theorem C38_refuted :
    (∃ (m : Module) (doc' : Document) (g' : RouteGraph) (e : EdgeData) (ps : List Point) (a b : Point) (r : Rect),
      drawEdgePath BinHeap.queue (laidOut m.intoMir) .new = .ok (doc', g') ∧ e ∈ doc'.edges ∧ e.pathPoints = some ps ∧
      ps[1]? = some a ∧ ps[2]? = some b ∧ a.y = b.y ∧ IsTable m.intoMir r ∧ Crosses r a b) ∧
    (∃ (m : Module) (doc' : Document) (g' : RouteGraph) (e : EdgeData) (ps : List Point) (a b : Point) (r : Rect),
      drawEdgePath BinHeap.queue (laidOut m.intoMir) .new = .ok (doc', g') ∧ e ∈ doc'.edges ∧ e.pathPoints = some ps ∧
      ps[1]? = some a ∧ ps[2]? = some b ∧ a.x = b.x ∧ IsTable m.intoMir r ∧ Crosses r a b) := by
  constructor
  · obtain ⟨d, g, h1, h2⟩ := pathsOf_some throughTable_paths
    obtain ⟨e, he⟩ : ∃ e, d.edges = [e] := by
      cases hd : d.edges with
      | nil => rw [hd] at h2; cases h2
      | cons e l =>
        cases l with
        | nil => exact ⟨e, rfl⟩
        | cons x l => rw [hd] at h2; simp at h2
    rw [he] at h2
    simp only [List.map_cons, List.map_nil, List.cons.injEq, and_true] at h2
    refine ⟨throughTable, d, g, e, _, ⟨390, 205/2⟩, ⟨770, 205/2⟩, ⟨⟨430, 50⟩, ⟨300, 70⟩⟩, h1, by rw [he]; simp, h2, rfl, rfl, rfl, ?_, ?_⟩
    · have ht : tables throughTable.intoMir = [3, 6, 9] := by decide +kernel
      refine ⟨6, by rw [ht]; simp, by decide +kernel⟩
    · exact ⟨1/2, by norm_num, by norm_num, by simp only [Interior, lerp]; norm_num⟩
  · obtain ⟨d, g, h1, h2⟩ := pathsOf_some downTheColumn_paths
    obtain ⟨e, he⟩ : ∃ e, d.edges = [e] := by
      cases hd : d.edges with
      | nil => rw [hd] at h2; cases h2
      | cons e l =>
        cases l with
        | nil => exact ⟨e, rfl⟩
        | cons x l => rw [hd] at h2; simp at h2
    rw [he] at h2
    simp only [List.map_cons, List.map_nil, List.cons.injEq, and_true] at h2
    refine ⟨downTheColumn, d, g, e, _, ⟨200, 160⟩, ⟨200, 310⟩, ⟨⟨50, 200⟩, ⟨300, 70⟩⟩, h1, by rw [he]; simp, h2, rfl, rfl, rfl, ?_, ?_⟩
    · have ht : tables downTheColumn.intoMir = [3, 6, 9, 12, 15, 18, 21] := by decide +kernel
      refine ⟨12, by rw [ht]; simp, by decide +kernel⟩
    · exact ⟨1/2, by norm_num, by norm_num, by simp only [Interior, lerp]; norm_num⟩

end Seiren
