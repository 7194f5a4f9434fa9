import Verif.Proofs.Scene
/-! # Every port of the route graph can be reached from every other -/

namespace Seiren
open Spec

variable {ns : List Nat} {doc : Document}

theorem SceneGraph.junction_at {g : RouteGraph} (hg : SceneGraph doc g) {j : Point} (hj : j ∈ junctionsOf doc) :
    ∃ i : RouteNodeId, g.nodes[i]? = some ⟨j, none⟩ :=
  List.getElem?_of_mem ((hg.nodes _).mpr (Or.inl ⟨j, hj, rfl⟩))

/-- The x coordinate of a street between columns. -/
def IsStreet (X : Rat) : Prop := ∃ k : Nat, X = 10 + 380 * col k ∨ X = 390 + 380 * col k

/-- All nodes of a street are junctions. -/
theorem Scene.street_none (h : Scene ns doc) {g : RouteGraph} (hg : SceneGraph doc g) {X : Rat} (hX : IsStreet X)
    (c : RouteNodeData) (hc : c ∈ g.nodes) (hx : c.location.x = X) : c.orientation = none := by
  rw [hg.nodes] at hc
  rcases hc with ⟨j, -, rfl⟩ | ⟨p, hp, rfl⟩
  · rfl
  · exfalso
    obtain ⟨k, n, hk, hpa⟩ := h.ports p hp
    obtain ⟨k', hk'⟩ := hX
    simp only at hx
    cases ho : p.orientation <;> rw [ho] at hpa <;> simp only [PortAt] at hpa <;> obtain ⟨h1, -⟩ := hpa <;>
      rcases col_cases k with ⟨-, hc⟩ | ⟨-, hc⟩ | ⟨-, hc⟩ <;> rcases col_cases k' with ⟨-, hc'⟩ | ⟨-, hc'⟩ | ⟨-, hc'⟩ <;>
      simp only [hc, hc'] at h1 hk' <;> rcases hk' with hk' | hk' <;> linarith

theorem Scene.street_free (h : Scene ns doc) {X : Rat} (hX : IsStreet X) (p q : Point) (hp : p.x = X) (hq : q.x = X) :
    Free (collisionRects doc) p q := by
  apply h.free
  intro k n hk
  rw [hp, hq]
  obtain ⟨k', hk'⟩ := hX
  have : X ≤ 50 + 380 * col k ∨ 350 + 380 * col k ≤ X := by
    rcases col_cases k with ⟨-, hc⟩ | ⟨-, hc⟩ | ⟨-, hc⟩ <;> rcases col_cases k' with ⟨-, hc'⟩ | ⟨-, hc'⟩ | ⟨-, hc'⟩ <;>
      rcases hk' with hk' | hk' <;> simp only [hc, hc'] at hk' ⊢ <;>
      first | (left; linarith) | (right; linarith)
  rcases this with h1 | h1
  · exact Or.inl ⟨h1, h1⟩
  · exact Or.inr (Or.inl ⟨h1, h1⟩)

/-- Street nodes are connected upwards. -/
theorem Scene.street_reach (h : Scene ns doc) {g : RouteGraph} (hg : SceneGraph doc g) {X y y' : Rat} (hX : IsStreet X)
    {a b : RouteNodeId} (ha : g.nodes[a]? = some ⟨⟨X, y⟩, none⟩) (hb : g.nodes[b]? = some ⟨⟨X, y'⟩, none⟩) (hle : y' ≤ y) :
    Reaches (connectNearest doc g) a b (y - y') :=
  line_reach doc g hg.wf .up (Or.inl rfl) X (fun c hc hx => h.street_none hg hX c hc hx)
    (fun p q hp hq => h.street_free hX p q hp hq) a b _ _ ha hb rfl rfl hle

/-- The top line is connected. -/
theorem Scene.top_reach (h : Scene ns doc) {g : RouteGraph} (hg : SceneGraph doc g) {x x' : Rat}
    {a b : RouteNodeId} (ha : g.nodes[a]? = some ⟨⟨x, 10⟩, none⟩) (hb : g.nodes[b]? = some ⟨⟨x', 10⟩, none⟩) (hle : x' ≤ x) :
    Reaches (connectNearest doc g) a b (x - x') := by
  refine line_reach doc g hg.wf .left (Or.inr rfl) 10 ?_ ?_ a b _ _ ha hb rfl rfl hle
  · intro c hc hy
    rw [hg.nodes] at hc
    rcases hc with ⟨j, -, rfl⟩ | ⟨p, hp, rfl⟩
    · rfl
    · exfalso
      obtain ⟨k, n, hk, hpa⟩ := h.ports p hp
      have h1 := (h.port_on_table hk hpa).2.2.1
      have h2 := rowTop_ge ns (k / 3)
      simp only [across] at hy
      linarith
  · intro p q hp hq
    simp only [across] at hp hq
    apply h.free
    intro k n hk
    have h2 := rowTop_ge ns (k / 3)
    exact Or.inr (Or.inr (Or.inl ⟨by linarith, by linarith⟩))

/-- The street nodes at the top exist. -/
theorem Scene.top_node (h : Scene ns doc) {g : RouteGraph} (hg : SceneGraph doc g) {k n : Nat} (hk : ns[k]? = some n) :
    ∃ i : RouteNodeId, g.nodes[i]? = some ⟨⟨10 + 380 * col k, 10⟩, none⟩ := by
  have hlt : k < ns.length := (List.getElem?_eq_some_iff.mp hk).1
  have hlt' : k % 3 < ns.length := lt_of_le_of_lt (Nat.mod_le _ _) hlt
  have hcol : col (k % 3) = col k := by simp [col]
  apply hg.junction_at
  apply h.corner_mem
  rw [h.corner_iff]
  refine ⟨k % 3, ns[k % 3], List.getElem?_eq_getElem hlt', Or.inl (by rw [hcol]), Or.inl ?_⟩
  have : k % 3 / 3 = 0 := by omega
  rw [this, rowTop]; norm_num

theorem Scene.top_node_right (h : Scene ns doc) {g : RouteGraph} (hg : SceneGraph doc g) {k n : Nat} (hk : ns[k]? = some n) :
    ∃ i : RouteNodeId, g.nodes[i]? = some ⟨⟨390 + 380 * col k, 10⟩, none⟩ := by
  have hlt : k < ns.length := (List.getElem?_eq_some_iff.mp hk).1
  have hlt' : k % 3 < ns.length := lt_of_le_of_lt (Nat.mod_le _ _) hlt
  have hcol : col (k % 3) = col k := by simp [col]
  apply hg.junction_at
  apply h.corner_mem
  rw [h.corner_iff]
  refine ⟨k % 3, ns[k % 3], List.getElem?_eq_getElem hlt', Or.inr (by rw [hcol]), Or.inl ?_⟩
  have : k % 3 / 3 = 0 := by omega
  rw [this, rowTop]; norm_num

/-- Where the nodes are that a port's first step could lead to. -/
theorem SceneGraph.between {g : RouteGraph} (hg : SceneGraph doc g) {c : RouteNodeData} (hc : c ∈ g.nodes) :
    (c.orientation = none ∧ c.location ∈ junctionsOf doc) ∨
    ∃ p ∈ portsOfEdges doc, c.location = p.location ∧ c.orientation = some p.orientation := by
  rw [hg.nodes] at hc
  rcases hc with ⟨j, hj, rfl⟩ | ⟨p, hp, rfl⟩
  · exact Or.inl ⟨rfl, hj⟩
  · exact Or.inr ⟨p, hp, rfl, rfl⟩

theorem connectable_some {n : RouteNodeData} {o d : Orientation} (ho : n.orientation = some o) (h : n.isConnectable d = true) :
    o = d := by
  simpa [RouteNodeData.isConnectable, ho] using h

/-- In column arithmetic: a whole number greater than another is at least one greater. -/
theorem int_gap {a b : Rat} (ha : ∃ z : Int, a = (z : Rat)) (hb : ∃ z : Int, b = (z : Rat)) (h : a < b) : a + 1 ≤ b := by
  obtain ⟨x, rfl⟩ := ha
  obtain ⟨y, rfl⟩ := hb
  have : x < y := by exact_mod_cast h
  have : x + 1 ≤ y := this
  exact_mod_cast this

/-- A junction in the middle of a column, at a whole height. -/
theorem Scene.mid_junction (h : Scene ns doc) {j : Point} (hj : j ∈ junctionsOf doc) {k n : Nat} (_hk : ns[k]? = some n)
    (hx : j.x = 200 + 380 * col k) : ∃ z : Int, j.y = (z : Rat) := by
  rcases h.junction_shape hj with ⟨k', n', -, hx'⟩ | ⟨k', n', -, -, hz⟩
  · exfalso
    rw [hx] at hx'
    rcases col_cases k with ⟨-, hc⟩ | ⟨-, hc⟩ | ⟨-, hc⟩ <;> rcases col_cases k' with ⟨-, hc'⟩ | ⟨-, hc'⟩ | ⟨-, hc'⟩ <;>
      simp only [hc, hc'] at hx' <;> rcases hx' with hx' | hx' <;> linarith
  · exact hz

/-- No junction is strictly between the street and the side of a column's tables, or between the street and its middle. -/
theorem Scene.no_junction (h : Scene ns doc) {j : Point} (hj : j ∈ junctionsOf doc) (k : Nat) :
    ¬ (10 + 380 * col k < j.x ∧ j.x < 200 + 380 * col k) ∧ ¬ (200 + 380 * col k < j.x ∧ j.x < 390 + 380 * col k) := by
  rcases h.junction_shape hj with ⟨k', n', -, hx⟩ | ⟨k', n', -, hx, -⟩
  · constructor <;> rintro ⟨h1, h2⟩ <;>
    rcases col_cases k with ⟨-, hc⟩ | ⟨-, hc⟩ | ⟨-, hc⟩ <;> rcases col_cases k' with ⟨-, hc'⟩ | ⟨-, hc'⟩ | ⟨-, hc'⟩ <;>
      simp only [hc, hc'] at hx h1 h2 <;> rcases hx with hx | hx <;> linarith
  · constructor <;> rintro ⟨h1, h2⟩ <;>
    rcases col_cases k with ⟨-, hc⟩ | ⟨-, hc⟩ | ⟨-, hc⟩ <;> rcases col_cases k' with ⟨-, hc'⟩ | ⟨-, hc'⟩ | ⟨-, hc'⟩ <;>
      simp only [hc, hc'] at hx h1 h2 <;> linarith

theorem bot_int (ns : List Nat) (k n : Nat) : ∃ z : Int, bot ns k n = (z : Rat) := by
  obtain ⟨z, hz⟩ := rowTop_int ns (k / 3)
  exact ⟨z + 35 * (n : Int), by rw [bot, hz]; push_cast; ring⟩

theorem same_column {k k' : Nat} (h : (200 : Rat) + 380 * col k = 200 + 380 * col k') : k % 3 = k' % 3 := by
  rcases col_cases k with ⟨e, hc⟩ | ⟨e, hc⟩ | ⟨e, hc⟩ <;> rcases col_cases k' with ⟨e', hc'⟩ | ⟨e', hc'⟩ | ⟨e', hc'⟩ <;>
    simp only [hc, hc'] at h <;> first | (exfalso; linarith) | (rw [e, e'])

/-- Points of one column, above or below its tables by at most 40, are apart from all tables. -/
theorem column_free {k n : Nat} (hk : ns[k]? = some n) (p q : Point)
    (hx : 10 + 380 * col k ≤ p.x ∧ p.x ≤ 390 + 380 * col k ∧ 10 + 380 * col k ≤ q.x ∧ q.x ≤ 390 + 380 * col k)
    (hy : (rowTop ns (k / 3) - 40 ≤ p.y ∧ p.y ≤ rowTop ns (k / 3) ∧ rowTop ns (k / 3) - 40 ≤ q.y ∧ q.y ≤ rowTop ns (k / 3)) ∨
      (bot ns k n ≤ p.y ∧ p.y ≤ bot ns k n + 40 ∧ bot ns k n ≤ q.y ∧ q.y ≤ bot ns k n + 40))
    (hpos : ∀ (k n : Nat), ns[k]? = some n → rowTop ns (k / 3) ≤ bot ns k n) :
    ∀ (k n : Nat), ns[k]? = some n →
      (p.x ≤ 50 + 380 * col k ∧ q.x ≤ 50 + 380 * col k) ∨ (350 + 380 * col k ≤ p.x ∧ 350 + 380 * col k ≤ q.x) ∨
      (p.y ≤ rowTop ns (k / 3) ∧ q.y ≤ rowTop ns (k / 3)) ∨ (bot ns k n ≤ p.y ∧ bot ns k n ≤ q.y) := by
  intro k' n' hk'
  obtain ⟨x1, x2, x3, x4⟩ := hx
  by_cases hc : k % 3 = k' % 3
  · have g1 := hpos k n hk
    have g2 := hpos k' n' hk'
    right; right
    rcases column_sep ns hk hk' hc with ⟨rfl, rfl⟩ | hs | hs
    · rcases hy with ⟨y1, y2, y3, y4⟩ | ⟨y1, y2, y3, y4⟩
      · exact Or.inl ⟨y2, y4⟩
      · exact Or.inr ⟨y1, y3⟩
    · left
      rcases hy with ⟨y1, y2, y3, y4⟩ | ⟨y1, y2, y3, y4⟩ <;> constructor <;> linarith
    · right
      rcases hy with ⟨y1, y2, y3, y4⟩ | ⟨y1, y2, y3, y4⟩ <;> constructor <;> linarith
  · rcases col_cases k with ⟨e, hc1⟩ | ⟨e, hc1⟩ | ⟨e, hc1⟩ <;> rcases col_cases k' with ⟨e', hc2⟩ | ⟨e', hc2⟩ | ⟨e', hc2⟩ <;>
      simp only [hc1, hc2] at x1 x2 x3 x4 ⊢ <;>
      first
        | (exact absurd (e.trans e'.symm) hc)
        | (left; constructor <;> linarith)
        | (right; left; constructor <;> linarith)

theorem Scene.bots (h : Scene ns doc) : ∀ (k n : Nat), ns[k]? = some n → rowTop ns (k / 3) ≤ bot ns k n := by
  intro k n hk
  have := bot_gt h hk
  linarith

/-- A port is joined to its exit. -/
theorem Scene.port_exit (h : Scene ns doc) {g : RouteGraph} (hg : SceneGraph doc g) {p : TerminalPort}
    (hp : p ∈ portsOfEdges doc) {a b : RouteNodeId} (ha : g.nodes[a]? = some ⟨p.location, some p.orientation⟩)
    (hb : g.nodes[b]? = some ⟨exitOf p.orientation p.location, none⟩) : Joined (connectNearest doc g) a b := by
  obtain ⟨k, n, hk, hpa⟩ := h.ports p hp
  have g1 := bot_gt h hk
  refine joined_nearest doc g hg.wf a b _ _ p.orientation ha hb ?_ ?_ ?_
  · refine ⟨?_, by simp [RouteNodeData.isConnectable], by simp [RouteNodeData.isConnectable]⟩
    cases p.orientation <;> simp [Towards, exitOf]
  · apply h.free
    cases ho : p.orientation <;> rw [ho] at hpa <;> simp only [PortAt] at hpa
    · refine column_free hk p.location (exitOf .up p.location) ?_ ?_ h.bots <;> simp only [exitOf]
      · simp only [hpa.1]; refine ⟨?_, ?_, ?_, ?_⟩ <;> linarith
      · left; simp only [hpa.2]; refine ⟨?_, ?_, ?_, ?_⟩ <;> linarith
    · refine column_free hk p.location (exitOf .down p.location) ?_ ?_ h.bots <;> simp only [exitOf]
      · simp only [hpa.1]; refine ⟨?_, ?_, ?_, ?_⟩ <;> linarith
      · right; simp only [hpa.2]; refine ⟨?_, ?_, ?_, ?_⟩ <;> linarith
    · intro k' n' hk'
      simp only [exitOf, hpa.1]
      rcases col_cases k with ⟨e, hc1⟩ | ⟨e, hc1⟩ | ⟨e, hc1⟩ <;> rcases col_cases k' with ⟨e', hc2⟩ | ⟨e', hc2⟩ | ⟨e', hc2⟩ <;>
        simp only [hc1, hc2] <;> first | (left; constructor <;> linarith) | (right; left; constructor <;> linarith)
    · intro k' n' hk'
      simp only [exitOf, hpa.1]
      rcases col_cases k with ⟨e, hc1⟩ | ⟨e, hc1⟩ | ⟨e, hc1⟩ <;> rcases col_cases k' with ⟨e', hc2⟩ | ⟨e', hc2⟩ | ⟨e', hc2⟩ <;>
        simp only [hc1, hc2] <;> first | (left; constructor <;> linarith) | (right; left; constructor <;> linarith)
  · intro c hc hl hn
    obtain ⟨ht, -, hcon⟩ := hl
    rcases hg.between hc with ⟨-, hj⟩ | ⟨q, hq, hloc, hor⟩
    · -- a junction
      have hclear := ((h.mem_junctions _).mp hj).2 k n hk
      cases ho : p.orientation <;> rw [ho] at hpa ht hn <;> simp only [PortAt] at hpa <;> simp only [Towards] at ht <;>
        simp only [Nearer, exitOf] at hn
      · have hx : c.location.x = 200 + 380 * col k := by rw [ht.1, hpa.1]
        have hz := h.mid_junction hj hk hx
        obtain ⟨z, hz'⟩ := rowTop_int ns (k / 3)
        have := int_gap (a := rowTop ns (k / 3) - 40) (b := c.location.y) ⟨z - 40, by rw [hz']; push_cast; ring⟩ hz (by linarith)
        exact hclear ⟨by linarith, by linarith, by linarith, by linarith⟩
      · have hx : c.location.x = 200 + 380 * col k := by rw [ht.1, hpa.1]
        have hz := h.mid_junction hj hk hx
        obtain ⟨z, hz'⟩ := bot_int ns k n
        have := int_gap (a := c.location.y) (b := bot ns k n + 40) hz ⟨z + 40, by rw [hz']; push_cast; ring⟩ (by linarith)
        exact hclear ⟨by linarith, by linarith, by linarith, by linarith⟩
      · exact (h.no_junction hj k).1 ⟨by linarith, by linarith⟩
      · exact (h.no_junction hj k).2 ⟨by linarith, by linarith⟩
    · -- a port
      have hd := connectable_some hor hcon
      obtain ⟨k', n', hk', hqa⟩ := h.ports q hq
      have g2 := bot_gt h hk'
      rw [hd] at hqa
      rw [← hloc] at hqa
      cases ho : p.orientation <;> rw [ho] at hpa ht hn hqa <;> simp only [PortAt] at hpa <;> simp only [Towards] at ht <;>
        simp only [Nearer, exitOf] at hn <;> simp only [opposite, PortAt] at hqa
      · have hcc := same_column (k := k) (k' := k') (by linarith)
        rcases column_sep ns hk hk' hcc with ⟨rfl, rfl⟩ | hs | hs <;> linarith
      · have hcc := same_column (k := k) (k' := k') (by linarith)
        rcases column_sep ns hk hk' hcc with ⟨rfl, rfl⟩ | hs | hs <;> linarith
      · rcases col_cases k with ⟨e, hc1⟩ | ⟨e, hc1⟩ | ⟨e, hc1⟩ <;> rcases col_cases k' with ⟨e', hc2⟩ | ⟨e', hc2⟩ | ⟨e', hc2⟩ <;>
          simp only [hc1, hc2] at hpa hqa <;> linarith
      · rcases col_cases k with ⟨e, hc1⟩ | ⟨e, hc1⟩ | ⟨e, hc1⟩ <;> rcases col_cases k' with ⟨e', hc2⟩ | ⟨e', hc2⟩ | ⟨e', hc2⟩ <;>
          simp only [hc1, hc2] at hpa hqa <;> linarith

/-- A node in the middle of a column, 40 above or below a table, is joined to the street on its left. -/
theorem Scene.exit_corner (h : Scene ns doc) {g : RouteGraph} (hg : SceneGraph doc g) {k n : Nat} (hk : ns[k]? = some n)
    {y : Rat} (hy : y = rowTop ns (k / 3) - 40 ∨ y = bot ns k n + 40) {a b : RouteNodeId}
    (ha : g.nodes[a]? = some ⟨⟨200 + 380 * col k, y⟩, none⟩) (hb : g.nodes[b]? = some ⟨⟨10 + 380 * col k, y⟩, none⟩) :
    Joined (connectNearest doc g) a b := by
  have g1 := bot_gt h hk
  refine joined_nearest doc g hg.wf a b _ _ .left ha hb ?_ ?_ ?_
  · refine ⟨?_, by simp [RouteNodeData.isConnectable], by simp [RouteNodeData.isConnectable]⟩
    simp only [Towards, true_and]; linarith
  · apply h.free
    apply column_free hk
    · simp only; refine ⟨?_, ?_, ?_, ?_⟩ <;> linarith
    · simp only
      rcases hy with rfl | rfl
      · left; refine ⟨?_, ?_, ?_, ?_⟩ <;> linarith
      · right; refine ⟨?_, ?_, ?_, ?_⟩ <;> linarith
    · exact h.bots
  · intro c hc hl hn
    obtain ⟨ht, -, hcon⟩ := hl
    simp only [Nearer] at hn
    simp only [Towards] at ht
    rcases hg.between hc with ⟨-, hj⟩ | ⟨q, hq, hloc, hor⟩
    · exact (h.no_junction hj k).1 ⟨hn, ht.2⟩
    · have hd := connectable_some hor hcon
      obtain ⟨k', n', hk', hqa⟩ := h.ports q hq
      rw [hd, ← hloc] at hqa
      simp only [opposite, PortAt] at hqa
      rcases col_cases k with ⟨e, hc1⟩ | ⟨e, hc1⟩ | ⟨e, hc1⟩ <;> rcases col_cases k' with ⟨e', hc2⟩ | ⟨e', hc2⟩ | ⟨e', hc2⟩ <;>
        simp only [hc1, hc2] at hn ht hqa <;> linarith

theorem col_le (k : Nat) : 0 ≤ col k ∧ col k ≤ 2 := by
  rcases col_cases k with ⟨-, hc⟩ | ⟨-, hc⟩ | ⟨-, hc⟩ <;> rw [hc] <;> norm_num

/-- From any street node the top left corner can be reached. -/
theorem Scene.street_hub (h : Scene ns doc) {g : RouteGraph} (hg : SceneGraph doc g) {k n : Nat} (hk : ns[k]? = some n)
    {X y : Rat} (hX : X = 10 + 380 * col k ∨ X = 390 + 380 * col k) {a hub : RouteNodeId}
    (ha : g.nodes[a]? = some ⟨⟨X, y⟩, none⟩) (hy : 10 ≤ y) (hhub : g.nodes[hub]? = some ⟨⟨10, 10⟩, none⟩) :
    Reaches (connectNearest doc g) a hub (y + 1140) := by
  obtain ⟨t, ht⟩ : ∃ t : RouteNodeId, g.nodes[t]? = some ⟨⟨X, 10⟩, none⟩ := by
    rcases hX with rfl | rfl
    · exact h.top_node hg hk
    · exact h.top_node_right hg hk
  have r1 := h.street_reach hg ⟨k, hX⟩ ha ht hy
  have hc := col_le k
  have hXr : 10 ≤ X ∧ X ≤ 1150 := by rcases hX with rfl | rfl <;> constructor <;> linarith
  have r2 := h.top_reach hg ht hhub hXr.1
  exact (r1.trans r2).mono (by linarith)

/-- Every port reaches the top left corner. -/
theorem Scene.port_hub (h : Scene ns doc) {g : RouteGraph} (hg : SceneGraph doc g) {p : TerminalPort}
    (hp : p ∈ portsOfEdges doc) {a hub : RouteNodeId} (ha : g.nodes[a]? = some ⟨p.location, some p.orientation⟩)
    (hhub : g.nodes[hub]? = some ⟨⟨10, 10⟩, none⟩) :
    Reaches (connectNearest doc g) a hub (p.location.y + 1500) := by
  obtain ⟨k, n, hk, hpa⟩ := h.ports p hp
  have htab := h.port_on_table hk hpa
  have htop := rowTop_ge ns (k / 3)
  have hc := col_le k
  obtain ⟨b, hb⟩ := hg.junction_at (h.exit_mem hp)
  have hj := h.port_exit hg hp ha hb
  have hnodes := (connect_nodes doc g).1
  have r1 : Reaches (connectNearest doc g) a b 40 := by
    apply reach_edge (by rw [hnodes]; exact ha) (by rw [hnodes]; exact hb) hj (by norm_num)
    unfold Point.distSq
    cases p.orientation <;> simp only [exitOf] <;> ring
  have upDown : ∀ y, exitOf p.orientation p.location = ⟨200 + 380 * col k, y⟩ →
      (y = rowTop ns (k / 3) - 40 ∨ y = bot ns k n + 40) → y ≤ p.location.y + 40 → 10 ≤ y →
      Reaches (connectNearest doc g) a hub (p.location.y + 1500) := by
    intro y hexit hy hle h10
    rw [hexit] at hb
    have hcorner : (⟨10 + 380 * col k, y⟩ : Point) ∈ junctionsOf doc := by
      apply h.corner_mem
      rw [h.corner_iff]
      exact ⟨k, n, hk, Or.inl rfl, hy⟩
    obtain ⟨c, hcn⟩ := hg.junction_at hcorner
    have hj2 := h.exit_corner hg hk hy hb hcn
    have r2 : Reaches (connectNearest doc g) b c 190 := by
      apply reach_edge (by rw [hnodes]; exact hb) (by rw [hnodes]; exact hcn) hj2 (by norm_num)
      unfold Point.distSq
      simp only; ring
    have r3 := h.street_hub hg hk (Or.inl rfl) hcn h10 hhub
    exact (r1.trans (r2.trans r3)).mono (by linarith)
  cases ho : p.orientation <;> rw [ho] at hpa <;> simp only [PortAt] at hpa
  · refine upDown (rowTop ns (k / 3) - 40) ?_ (Or.inl rfl) (by linarith) (by linarith)
    simp only [ho, exitOf, hpa.1, hpa.2]
  · refine upDown (bot ns k n + 40) ?_ (Or.inr rfl) (by linarith) (by linarith)
    simp only [ho, exitOf, hpa.1, hpa.2]
  · rw [ho] at hb
    simp only [exitOf] at hb
    have r3 := h.street_hub hg hk (X := p.location.x - 40) (Or.inl (by linarith)) hb (by linarith) hhub
    exact (r1.trans r3).mono (by linarith)
  · rw [ho] at hb
    simp only [exitOf] at hb
    have r3 := h.street_hub hg hk (X := p.location.x + 40) (Or.inr (by linarith)) hb (by linarith) hhub
    exact (r1.trans r3).mono (by linarith)

/-- Any two ports reach each other, at a cost below the limit. -/
theorem Scene.ports_reach (h : Scene ns doc) {g : RouteGraph} (hg : SceneGraph doc g) {p q : TerminalPort}
    (hp : p ∈ portsOfEdges doc) (hq : q ∈ portsOfEdges doc) {a b : RouteNodeId}
    (ha : g.nodes[a]? = some ⟨p.location, some p.orientation⟩) (hb : g.nodes[b]? = some ⟨q.location, some q.orientation⟩) :
    Reaches (connectNearest doc g) a b 2000003000 := by
  obtain ⟨k, n, hk, hpa⟩ := h.ports p hp
  obtain ⟨k', n', hk', hqa⟩ := h.ports q hq
  have h1 := (h.port_on_table hk hpa).2.2.2
  have h2 := (h.port_on_table hk' hqa).2.2.2
  have h3 := h.small k n hk
  have h4 := h.small k' n' hk'
  have h0 : (0 : Nat) < ns.length := lt_of_le_of_lt (Nat.zero_le _) (List.getElem?_eq_some_iff.mp hk).1
  obtain ⟨hub, hhub⟩ := h.top_node hg (List.getElem?_eq_getElem h0)
  have hc0 : (10 : Rat) + 380 * col 0 = 10 := by simp [col]
  rw [hc0] at hhub
  have r1 := h.port_hub hg hp ha hhub
  have r2 := h.port_hub hg hq hb hhub
  exact (r1.trans r2.symm).mono (by linarith)

end Seiren
