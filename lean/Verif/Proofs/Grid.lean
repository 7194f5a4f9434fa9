import Verif.Proofs.Walks
import Verif.Props.Avoid
import Verif.Props.PathData
/-! # Distances in the route graph; where paths turn back -/

namespace Seiren
open Spec

theorem col_int (k : Nat) : ∃ z : Int, 380 * col k = 10 * (z : Rat) := by
  rcases col_cases k with ⟨-, hc⟩ | ⟨-, hc⟩ | ⟨-, hc⟩ <;> rw [hc]
  · exact ⟨0, by norm_num⟩
  · exact ⟨38, by norm_num⟩
  · exact ⟨76, by norm_num⟩

/-- The nodes of the route graph lie on a grid. -/
theorem Scene.node_grid {ns : List Nat} {doc : Document} (h : Scene ns doc) {g : RouteGraph} (hg : SceneGraph doc g)
    {c : RouteNodeData} (hc : c ∈ g.nodes) :
    (∃ z : Int, c.location.x = 10 * (z : Rat)) ∧ ∃ z : Int, c.location.y = 5 / 2 * (z : Rat) := by
  constructor
  · obtain ⟨k, n, -, hx⟩ := h.node_x hg hc
    obtain ⟨z, hz⟩ := col_int k
    rw [hz] at hx
    rcases hx with hx | hx | hx | hx | hx <;> rw [hx]
    · exact ⟨1 + z, by push_cast; ring⟩
    · exact ⟨39 + z, by push_cast; ring⟩
    · exact ⟨20 + z, by push_cast; ring⟩
    · exact ⟨5 + z, by push_cast; ring⟩
    · exact ⟨35 + z, by push_cast; ring⟩
  · have hcorner : ∀ c ∈ junctionsAroundShapes doc, ∃ z : Int, c.y = 5 / 2 * (z : Rat) := by
      intro c hc
      obtain ⟨k, n, -, -, hy⟩ := (h.corner_iff c).mp hc
      obtain ⟨z, hz⟩ := rowTop_five ns (k / 3)
      rcases hy with hy | hy
      · exact ⟨2 * z - 16, by rw [hy, hz]; push_cast; ring⟩
      · exact ⟨2 * z + 14 * (n : Int) + 16, by rw [hy, bot, hz]; push_cast; ring⟩
    rcases hg.between hc with ⟨-, hj⟩ | ⟨p, hp, hloc, -⟩
    · obtain ⟨hj, -⟩ := (h.mem_junctions _).mp hj
      rcases hj with hj | ⟨p, hp, hj⟩
      · exact hcorner _ hj
      · obtain ⟨d, hd, hs⟩ := crossing_shape hj
        cases ho : p.orientation <;> rw [ho] at hs <;> simp only at hs <;> rw [hs]
        · exact hcorner d hd
        · exact hcorner d hd
        · exact h.grid p hp
        · exact h.grid p hp
    · rw [hloc]; exact h.grid p hp

theorem int_one_le {z : Int} (h : z ≠ 0) : (1 : Rat) ≤ |(z : Rat)| := by
  have : (1 : Int) ≤ |z| := Int.one_le_abs h
  exact_mod_cast this

/-- Linked nodes are at least 2 apart. -/
theorem Scene.segmentCost_pos {ns : List Nat} {doc : Document} (h : Scene ns doc) {g : RouteGraph} (hg : SceneGraph doc g)
    {n m : RouteNodeData} (hn : n ∈ g.nodes) (hm : m ∈ g.nodes) (hne : n.location ≠ m.location) :
    2 ≤ segmentCost n.location m.location := by
  obtain ⟨⟨x, hx⟩, ⟨y, hy⟩⟩ := h.node_grid hg hn
  obtain ⟨⟨x', hx'⟩, ⟨y', hy'⟩⟩ := h.node_grid hg hm
  unfold segmentCost
  have key : (2 : Rat) ≤ |m.location.x - n.location.x| + |m.location.y - n.location.y| := by
    have ex : m.location.x - n.location.x = 10 * ((x' - x : Int) : Rat) := by rw [hx, hx']; push_cast; ring
    have ey : m.location.y - n.location.y = 5 / 2 * ((y' - y : Int) : Rat) := by rw [hy, hy']; push_cast; ring
    rw [ex, ey, abs_mul, abs_mul, abs_of_pos (by norm_num : (0 : Rat) < 10), abs_of_pos (by norm_num : (0 : Rat) < 5 / 2)]
    have a1 := abs_nonneg ((x' - x : Int) : Rat)
    have a2 := abs_nonneg ((y' - y : Int) : Rat)
    by_cases e1 : x' - x = 0
    · by_cases e2 : y' - y = 0
      · exfalso
        apply hne
        have q1 : x' = x := by omega
        have q2 : y' = y := by omega
        rw [q1, ← hx] at hx'; rw [q2, ← hy] at hy'
        cases hl : n.location; cases hl' : m.location
        rw [hl, hl'] at hx' hy'
        simp only at hx' hy'
        rw [hx', hy']
      · have := int_one_le e2
        linarith
    · have := int_one_le e1
      linarith
  rw [Rat.le_floor_iff]
  exact_mod_cast key

/-! ## Turning back -/

theorem nearer_lerp {d : Orientation} {b : Point} {n f : RouteNodeData} (hn : Towards d b n.location) (hf : Towards d b f.location)
    (h : Nearer d f n) : ∃ s, 0 < s ∧ s < 1 ∧ n.location = lerp b f.location s := by
  obtain ⟨bx, by'⟩ := b
  obtain ⟨⟨nx, ny⟩, no⟩ := n
  obtain ⟨⟨fx, fy⟩, fo⟩ := f
  cases d <;> simp only [Towards, Nearer, gt_iff_lt] at hn hf h <;> simp only [lerp, Point.mk.injEq] <;> obtain ⟨h1, h2⟩ := hn <;>
    obtain ⟨h3, h4⟩ := hf
  · have hpos : 0 < by' - fy := by linarith
    refine ⟨(by' - ny) / (by' - fy), div_pos (by linarith) hpos, (div_lt_one hpos).mpr (by linarith), ?_, ?_⟩
    · rw [h1, h3]; ring
    · field_simp; ring
  · have hpos : 0 < fy - by' := by linarith
    refine ⟨(ny - by') / (fy - by'), div_pos (by linarith) hpos, (div_lt_one hpos).mpr (by linarith), ?_, ?_⟩
    · rw [h1, h3]; ring
    · field_simp; ring
  · have hpos : 0 < bx - fx := by linarith
    refine ⟨(bx - nx) / (bx - fx), div_pos (by linarith) hpos, (div_lt_one hpos).mpr (by linarith), ?_, ?_⟩
    · field_simp; ring
    · rw [h1, h3]; ring
  · have hpos : 0 < fx - bx := by linarith
    refine ⟨(nx - bx) / (fx - bx), div_pos (by linarith) hpos, (div_lt_one hpos).mpr (by linarith), ?_, ?_⟩
    · field_simp; ring
    · rw [h1, h3]; ring

/-- A line that goes on through a port of a table into the table passes through the table. -/
theorem Scene.through_port {ns : List Nat} {doc : Document} (h : Scene ns doc) {k n : Nat} (hk : ns[k]? = some n) {d : Orientation}
    {b p f : Point} (hp : PortAt ns k n (opposite d) p) (hb : Towards d b p) (hf : Towards d p f) : Crosses (tableRect ns k n) b f := by
  have hgt := bot_gt h hk
  obtain ⟨bx, by'⟩ := b
  obtain ⟨nx, ny⟩ := p
  obtain ⟨fx, fy⟩ := f
  unfold bot at hgt
  cases d <;> simp only [Towards] at hb hf <;> simp only [opposite, PortAt, bot] at hp <;> obtain ⟨h1, h2⟩ := hb <;>
    obtain ⟨h3, h4⟩ := hf
  · have hpos : 0 < by' - fy := by linarith
    have m1 : max fy (ny - 1) < ny := max_lt h4 (by linarith)
    refine ⟨(by' - max fy (ny - 1)) / (by' - fy), div_nonneg (by linarith) hpos.le, (div_le_one hpos).mpr (by linarith [le_max_left fy (ny - 1)]), ?_⟩
    have e : by' + (by' - max fy (ny - 1)) / (by' - fy) * (fy - by') = max fy (ny - 1) := by field_simp; ring
    simp only [Interior, lerp, tableRect, e]
    have m2 := le_max_right fy (ny - 1)
    have e0 : bx + (by' - max fy (ny - 1)) / (by' - fy) * (fx - bx) = nx := by rw [h3, h1]; ring
    rw [e0, hp.1]
    unfold col
    refine ⟨by linarith, by linarith, by linarith, by linarith⟩
  · have hpos : 0 < fy - by' := by linarith
    have m1 : ny < min fy (ny + 1) := lt_min h4 (by linarith)
    refine ⟨(min fy (ny + 1) - by') / (fy - by'), div_nonneg (by linarith) hpos.le, (div_le_one hpos).mpr (by linarith [min_le_left fy (ny + 1)]), ?_⟩
    have e : by' + (min fy (ny + 1) - by') / (fy - by') * (fy - by') = min fy (ny + 1) := by field_simp; ring
    simp only [Interior, lerp, tableRect, e]
    have m2 := min_le_right fy (ny + 1)
    have e0 : bx + (min fy (ny + 1) - by') / (fy - by') * (fx - bx) = nx := by rw [h3, h1]; ring
    rw [e0, hp.1]
    unfold col
    refine ⟨by linarith, by linarith, by linarith, by linarith⟩
  · have hpos : 0 < bx - fx := by linarith
    have m1 : max fx (nx - 1) < nx := max_lt h4 (by linarith)
    refine ⟨(bx - max fx (nx - 1)) / (bx - fx), div_nonneg (by linarith) hpos.le, (div_le_one hpos).mpr (by linarith [le_max_left fx (nx - 1)]), ?_⟩
    have e : bx + (bx - max fx (nx - 1)) / (bx - fx) * (fx - bx) = max fx (nx - 1) := by field_simp; ring
    simp only [Interior, lerp, tableRect, e]
    have m2 := le_max_right fx (nx - 1)
    have e0 : by' + (bx - max fx (nx - 1)) / (bx - fx) * (fy - by') = ny := by rw [h3, h1]; ring
    rw [e0]
    have := hp.1
    unfold col at this
    refine ⟨by linarith, by linarith, by linarith [hp.2.1], by linarith [hp.2.2]⟩
  · have hpos : 0 < fx - bx := by linarith
    have m1 : nx < min fx (nx + 1) := lt_min h4 (by linarith)
    refine ⟨(min fx (nx + 1) - bx) / (fx - bx), div_nonneg (by linarith) hpos.le, (div_le_one hpos).mpr (by linarith [min_le_left fx (nx + 1)]), ?_⟩
    have e : bx + (min fx (nx + 1) - bx) / (fx - bx) * (fx - bx) = min fx (nx + 1) := by field_simp; ring
    simp only [Interior, lerp, tableRect, e]
    have m2 := min_le_right fx (nx + 1)
    have e0 : by' + (min fx (nx + 1) - bx) / (fx - bx) * (fy - by') = ny := by rw [h3, h1]; ring
    rw [e0]
    have := hp.1
    unfold col at this
    refine ⟨by linarith, by linarith, by linarith [hp.2.1], by linarith [hp.2.2]⟩

/-- If the far node of two in the same direction is joined, then the line to one of them passes through a table. -/
theorem Scene.detour {ns : List Nat} {doc : Document} (h : Scene ns doc) {g : RouteGraph} (hg : SceneGraph doc g)
    {b near far : RouteNodeId} {nb nn nf : RouteNodeData} (hb : g.nodes[b]? = some nb) (hn : g.nodes[near]? = some nn)
    (hf : g.nodes[far]? = some nf) {d : Orientation} (hln : Linked d nb nn) (hlf : Linked d nb nf) (hnear : Nearer d nf nn)
    (hj : Joined (connectNearest doc g) b far) :
    ∃ (k n : Nat), ns[k]? = some n ∧ (Crosses (tableRect ns k n) nb.location nn.location ∨ Crosses (tableRect ns k n) nb.location nf.location) := by
  obtain ⟨s, s0, s1, hs⟩ := nearer_lerp hln.1 hlf.1 hnear
  have sub : ∀ r, Crosses r nf.location nn.location → Crosses r nb.location nf.location := by
    rintro r ⟨t, t0, t1, hin⟩
    refine ⟨1 + t * (s - 1), ?_, ?_, ?_⟩
    · nlinarith
    · nlinarith
    · rw [hs] at hin
      have : lerp nf.location (lerp nb.location nf.location s) t = lerp nb.location nf.location (1 + t * (s - 1)) := by
        simp only [lerp, Point.mk.injEq]; constructor <;> ring
      rw [this] at hin; exact hin
  have htow : Towards d nn.location nf.location := by
    have h1 := hln.1
    have h2 := hlf.1
    have h3 := hnear
    cases d <;> simp only [Towards, Nearer, gt_iff_lt] at h1 h2 h3 ⊢ <;> exact ⟨by rw [h1.1, h2.1], h3⟩
  rw [joined_connect] at hj
  rcases hj with hj | hj | hj
  · unfold Joined at hj
    rw [hg.edges] at hj
    simp at hj
  · obtain ⟨n1, m1, d1, e1, e2, hch⟩ := hj
    rw [hb] at e1; rw [hf] at e2
    cases e1; cases e2
    have hsp := nearest_spec (collisionRects doc) nb d1 g.indexed
    unfold nearestOf at hch
    rw [hch] at hsp
    obtain ⟨-, q2, q3⟩ := hsp
    have : d1 = d := q2.1.unique hlf.1
    subst this
    have hfree : ¬ Free (collisionRects doc) nb.location nn.location := by
      intro hfr
      exact q3 (near, nn) ((mem_indexed g _ _).mpr hn) hln hfr hnear
    obtain ⟨k, n, hk, hc⟩ := h.not_free hfree
    exact ⟨k, n, hk, Or.inl hc⟩
  · obtain ⟨n1, m1, d1, e1, e2, hch⟩ := hj
    rw [hf] at e1; rw [hb] at e2
    cases e1; cases e2
    have hsp := nearest_spec (collisionRects doc) nf d1 g.indexed
    unfold nearestOf at hch
    rw [hch] at hsp
    obtain ⟨-, q2, q3⟩ := hsp
    have : d1 = opposite d := q2.1.unique hlf.symm.1
    subst this
    rcases hg.between (List.mem_of_getElem? hn) with ⟨hno, -⟩ | ⟨p, hp, hloc, hor⟩
    · have hlk : Linked (opposite d) nf nn := by
        refine ⟨htow.symm, q2.2.1, ?_⟩
        simp [RouteNodeData.isConnectable, hno]
      have hfree : ¬ Free (collisionRects doc) nf.location nn.location := by
        intro hfr
        refine q3 (near, nn) ((mem_indexed g _ _).mpr hn) hlk hfr ?_
        have h1 := hln.1
        cases d <;> simp only [Towards] at h1 <;> simp only [opposite, Nearer, gt_iff_lt] <;> exact h1.2
      obtain ⟨k, n, hk, hc⟩ := h.not_free hfree
      exact ⟨k, n, hk, Or.inr (sub _ hc)⟩
    · obtain ⟨k, n, hk, hpa⟩ := h.ports p hp
      have := connectable_some hor hln.2.2
      rw [this, ← hloc] at hpa
      exact ⟨k, n, hk, Or.inr (h.through_port hk hpa hln.1 htow)⟩

/-! ## Paths consist of nodes of the graph -/

theorem pathLocations_nodes (g : RouteGraph) (w : List RouteNodeId) (ps : List Point) (h : pathLocations g w = .ok ps) :
    ∀ p ∈ ps, ∃ n ∈ g.nodes, n.location = p := by
  induction w generalizing ps with
  | nil => cases h; simp
  | cons i w ih =>
    rw [pathLocations] at h
    cases hn : g.getNode i with
    | none => rw [hn] at h; cases h
    | some n =>
      rw [hn] at h
      simp only at h
      cases hw : pathLocations g w with
      | error e => rw [hw] at h; cases h
      | ok rest =>
        rw [hw] at h
        cases h
        intro p hp
        rcases List.mem_cons.mp hp with rfl | hp
        · exact ⟨n, List.mem_of_getElem? hn, rfl⟩
        · exact ih rest hw p hp

theorem collectPaths_nodes (q : Queue) (doc : Document) (g : RouteGraph) (es : List EdgeData) (pss : List (List Point))
    (h : collectPaths q doc g es = .ok pss) : ∀ ps ∈ pss, ∀ p ∈ ps, ∃ n ∈ g.nodes, n.location = p := by
  induction es generalizing pss with
  | nil => cases h; simp
  | cons e es ih =>
    rw [collectPaths] at h
    cases hf : findShortestEdgesPath q doc g e with
    | error err => rw [hf] at h; cases h
    | ok r =>
      rw [hf] at h
      simp only at h
      cases hc : collectPaths q doc g es with
      | error err => rw [hc] at h; cases h
      | ok rest =>
        rw [hc] at h
        cases h
        cases r with
        | none => exact ih rest hc
        | some ps0 =>
          intro ps hps
          rcases List.mem_cons.mp hps with rfl | hps
          · unfold findShortestEdgesPath at hf
            split at hf
            · split at hf
              · cases hf
              · cases hf
              · split at hf
                · cases hf
                · rename_i hl; cases hf; exact pathLocations_nodes g _ _ hl
            · cases hf
          · exact ih rest hc ps hps

theorem assignPaths_mem (es : List EdgeData) (pss : List (List Point)) (es' : List EdgeData) (h : assignPaths es pss = .ok es') :
    ∀ e ∈ es', ∃ ps ∈ pss, e.pathPoints = some ps := by
  induction es generalizing pss es' with
  | nil => cases h; simp
  | cons e es ih =>
    cases pss with
    | nil => cases h
    | cons p pss =>
      rw [assignPaths] at h
      cases ha : assignPaths es pss with
      | error err => rw [ha] at h; cases h
      | ok rest =>
        rw [ha] at h
        cases h
        intro e' he'
        rcases List.mem_cons.mp he' with rfl | he'
        · exact ⟨p, by simp, rfl⟩
        · obtain ⟨ps, hp, he⟩ := ih pss rest ha e' he'
          exact ⟨ps, by simp [hp], he⟩

/-- Every point of a drawn path is on the grid of the route graph. -/
theorem drawn_grid {q : Queue} {doc : Document} (hd : Drawable doc) (hsize : (placeNodes doc).2.size.height ≤ 1000000000)
    {doc' : Document} {g' : RouteGraph} (h : drawEdgePath q (laidOut doc) .new = .ok (doc', g')) {e : EdgeData} (he : e ∈ doc'.edges)
    {ps : List Point} (hps : e.pathPoints = some ps) {p : Point} (hp : p ∈ ps) :
    (∃ z : Int, p.x = 10 * (z : Rat)) ∧ ∃ z : Int, p.y = 5 / 2 * (z : Rat) := by
  have hscene := scene_laidOut hd hsize
  obtain ⟨g, hg⟩ := hscene.graph
  rw [drawEdgePath, hg.built] at h
  simp only at h
  cases hc : collectPaths q (laidOut doc) (connectNearest (laidOut doc) g) (laidOut doc).edges with
  | error e => rw [hc] at h; cases h
  | ok pss =>
    rw [hc] at h
    simp only at h
    cases ha : assignPaths (laidOut doc).edges pss with
    | error e => rw [ha] at h; cases h
    | ok es =>
      rw [ha] at h
      cases h
      obtain ⟨ps', hps', he'⟩ := assignPaths_mem _ _ _ ha e he
      rw [hps] at he'
      cases he'
      obtain ⟨n, hn, rfl⟩ := collectPaths_nodes q _ _ _ _ hc ps hps' p hp
      rw [(connect_nodes (laidOut doc) g).1] at hn
      exact hscene.node_grid hg hn

end Seiren
