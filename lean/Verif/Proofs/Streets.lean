import Verif.Spec.Streets
import Verif.Props.Avoid
/-! # The route graph is the road map -/

namespace Seiren
open Spec

/-! ## The list of nodes -/

theorem eraseDups_concat {α : Type} [BEq α] [LawfulBEq α] [DecidableEq α] (l : List α) (x : α) :
    (l ++ [x]).eraseDups = if x ∈ l then l.eraseDups else l.eraseDups ++ [x] := by
  rw [List.eraseDups_append]
  by_cases h : x ∈ l
  · simp [h, List.removeAll]
  · have e : [x].eraseDups = [x] := by rw [List.eraseDups_cons]; simp
    simp [h, List.removeAll, e]

theorem addNodeAt_nodes {g g' : RouteGraph} {loc : Point} {o : Option Orientation} {i : RouteNodeId}
    (h : g.addNodeAt loc o = .ok (g', i)) (pre : List RouteNodeData) (hp : g.nodes = pre.eraseDups) :
    g'.nodes = (pre ++ [(⟨loc, o⟩ : RouteNodeData)]).eraseDups := by
  rw [eraseDups_concat]
  obtain ⟨-, -, h3, hc⟩ := addNodeAt_ok h
  rcases hc with rfl | ⟨hn, -, hl⟩
  · rw [if_pos, hp]
    have := List.mem_of_getElem? h3
    rw [hp] at this
    simpa using this
  · rw [if_neg, hn, hp]
    intro hm
    apply hl
    rw [hp, List.mem_map]
    exact ⟨_, by simpa using hm, rfl⟩

theorem addJunctions_nodes (js : List Point) {g g' : RouteGraph} (h : addJunctions g js = .ok g') (pre : List RouteNodeData)
    (hp : g.nodes = pre.eraseDups) : g'.nodes = (pre ++ js.map fun j => (⟨j, none⟩ : RouteNodeData)).eraseDups := by
  induction js generalizing g pre with
  | nil => cases h; simpa using hp
  | cons j js ih =>
    rw [addJunctions] at h
    split at h
    · cases h
    · rename_i g1 i h1
      have := ih h _ (addNodeAt_nodes (o := none) h1 pre hp)
      rw [this]
      simp

theorem addTerminalPorts_nodes (ps : List TerminalPort) {g g' : RouteGraph} (h : addTerminalPorts g ps = .ok g')
    (pre : List RouteNodeData) (hp : g.nodes = pre.eraseDups) :
    g'.nodes = (pre ++ ps.map fun p => (⟨p.location, some p.orientation⟩ : RouteNodeData)).eraseDups := by
  induction ps generalizing g pre with
  | nil => cases h; simpa using hp
  | cons p ps ih =>
    rw [addTerminalPorts] at h
    split at h
    · cases h
    · rename_i g1 i h1
      unfold RouteGraph.addTerminalPort at h1
      cases h2 : g.addNodeAt p.location (some p.orientation) with
      | error e => rw [h2] at h1; cases h1
      | ok r =>
        rw [h2] at h1
        cases h1
        have := ih h (pre ++ [⟨p.location, some p.orientation⟩]) (addNodeAt_nodes h2 pre hp)
        rw [this]
        simp

theorem built_nodes {doc : Document} {g : RouteGraph} (h : buildRouteGraph doc .new = .ok g) :
    g.nodes = ((junctionsOf doc).map (fun j => (⟨j, none⟩ : RouteNodeData)) ++
      (portsOfEdges doc).map fun p => (⟨p.location, some p.orientation⟩ : RouteNodeData)).eraseDups := by
  unfold buildRouteGraph at h
  simp only at h
  split at h
  · cases h
  · rename_i g1 h1
    split at h
    · cases h
    · rename_i g2 h2
      cases h
      rw [(connect_nodes doc g2).1]
      have e1 := addJunctions_nodes _ h1 [] rfl
      have e2 := addTerminalPorts_nodes _ h2 _ e1
      rw [e2]
      rfl

/-! ## Lists of crossings -/

theorem le_foldl_min (l : List Rect) (P : Rect → Prop) [DecidablePred P] (f : Rect → Rat) (a B : Rat) :
    B ≤ l.foldl (fun m r => if P r then min m (f r) else m) a ↔ B ≤ a ∧ ∀ r ∈ l, P r → B ≤ f r := by
  induction l generalizing a with
  | nil => simp
  | cons r l ih =>
    rw [List.foldl_cons, ih]
    simp only [List.mem_cons, forall_eq_or_imp]
    split
    · rename_i hp; simp only [le_min_iff, hp, true_implies]; tauto
    · rename_i hp; simp only [hp, false_implies, true_and]

theorem foldl_max_le_iff (l : List Rect) (P : Rect → Prop) [DecidablePred P] (f : Rect → Rat) (a B : Rat) :
    l.foldl (fun m r => if P r then max m (f r) else m) a ≤ B ↔ a ≤ B ∧ ∀ r ∈ l, P r → f r ≤ B := by
  induction l generalizing a with
  | nil => simp
  | cons r l ih =>
    rw [List.foldl_cons, ih]
    simp only [List.mem_cons, forall_eq_or_imp]
    split
    · rename_i hp; simp only [max_le_iff, hp, true_implies]; tauto
    · rename_i hp; simp only [hp, false_implies, true_and]

theorem ray_left (r : Rect) (c : Point) (h : r.maxX < c.x) (hw : r.minX ≤ r.maxX) (hm : f32Min ≤ r.minX) :
    r.intersectsLine c ⟨f32Min, c.y⟩ = true ↔ r.minY ≤ c.y ∧ c.y ≤ r.maxY := by
  rw [C49_intersects_line_exact]
  have hlt : f32Min < c.x := by linarith
  simp only [hlt, if_true, Meets, lerp, InRect]
  simp only [Rect.minX, Rect.maxX, Rect.minY, Rect.maxY] at *
  constructor
  · rintro ⟨⟨t, -, -, -, -, h3, h4⟩, -⟩
    simp only [sub_self, mul_zero, add_zero] at h3 h4
    exact ⟨h3, h4⟩
  · rintro ⟨h3, h4⟩
    refine ⟨⟨(c.x - (r.origin.x + r.size.width)) / (c.x - f32Min), ?_, ?_, ?_⟩, ?_⟩
    · apply div_nonneg <;> linarith
    · rw [div_le_one (by linarith)]; linarith
    · have e : c.x + (c.x - (r.origin.x + r.size.width)) / (c.x - f32Min) * (f32Min - c.x) = r.origin.x + r.size.width := by
        have : c.x - f32Min ≠ 0 := by intro h0; linarith
        field_simp
        ring
      rw [e]
      simp only [sub_self, mul_zero, add_zero]
      exact ⟨by linarith, le_refl _, h3, h4⟩
    · rintro ⟨h5, -⟩; linarith

theorem ray_right (r : Rect) (c : Point) (h : c.x < r.minX) (hw : r.minX ≤ r.maxX) (hm : r.minX ≤ f32Max) :
    r.intersectsLine c ⟨f32Max, c.y⟩ = true ↔ r.minY ≤ c.y ∧ c.y ≤ r.maxY := by
  rw [C49_intersects_line_exact]
  have hlt : ¬ f32Max < c.x := by intro h0; linarith
  simp only [hlt, if_false, Meets, lerp, InRect]
  simp only [Rect.minX, Rect.maxX, Rect.minY, Rect.maxY] at *
  constructor
  · rintro ⟨⟨t, -, -, -, -, h3, h4⟩, -⟩
    simp only [sub_self, mul_zero, add_zero] at h3 h4
    exact ⟨h3, h4⟩
  · rintro ⟨h3, h4⟩
    refine ⟨⟨(r.origin.x - c.x) / (f32Max - c.x), ?_, ?_, ?_⟩, ?_⟩
    · apply div_nonneg <;> linarith
    · rw [div_le_one (by linarith)]; linarith
    · have e : c.x + (r.origin.x - c.x) / (f32Max - c.x) * (f32Max - c.x) = r.origin.x := by
        have : f32Max - c.x ≠ 0 := by intro h0; linarith
        field_simp
        ring
      rw [e]
      simp only [sub_self, mul_zero, add_zero]
      exact ⟨le_refl _, by linarith, h3, h4⟩
    · rintro ⟨h5, -⟩; linarith

theorem mem_tableRects (ns : List Nat) (r : Rect) : r ∈ tableRects ns ↔ ∃ k n, ns[k]? = some n ∧ r = tableRect ns k n := by
  simp only [tableRects, List.mem_map, Prod.exists, List.mem_zipIdx_iff_getElem?]
  constructor
  · rintro ⟨n, k, h, rfl⟩; exact ⟨k, n, h, rfl⟩
  · rintro ⟨k, n, h, rfl⟩; exact ⟨n, k, h, rfl⟩

theorem margin_eq : SHAPE_JUNCTION_MARGIN = 40 := by norm_num [SHAPE_JUNCTION_MARGIN, RECORD_SPACE]

theorem insetBy_out (ns : List Nat) (r : Rect) (hr : r ∈ tableRects ns) (m : Rat) (hm : 0 ≤ m) :
    (r.insetBy (-m) (-m)).minX = r.origin.x - m ∧ (r.insetBy (-m) (-m)).maxX = r.origin.x + r.size.width + m ∧
    (r.insetBy (-m) (-m)).minY = r.origin.y - m ∧ (r.insetBy (-m) (-m)).maxY = r.origin.y + r.size.height + m := by
  obtain ⟨k, n, -, rfl⟩ := (mem_tableRects ns r).mp hr
  rw [inset_out ns k n m hm]
  simp only [Rect.minX, Rect.maxX, Rect.minY, Rect.maxY, tableRect, col]
  refine ⟨trivial, by ring, trivial, by ring⟩

theorem corners_eq {ns : List Nat} {doc : Document} (hs : shapeRects doc = tableRects ns) : junctionsAroundShapes doc = corners ns := by
  rw [junctionsAroundShapes, corners, hs]
  apply List.flatMap_congr
  intro r hr
  obtain ⟨h1, h2, h3, h4⟩ := insetBy_out ns r hr 40 (by norm_num)
  simp only [margin_eq, h1, h2, h3, h4, frameCorners]
  have : (r.insetBy (-40) (-40)).origin = ⟨r.origin.x - 40, r.origin.y - 40⟩ := by
    rw [← h1, ← h3]; rfl
  rw [this]

theorem removeOverlapped_eq {ns : List Nat} {doc : Document} (hs : shapeRects doc = tableRects ns) (js : List Point) :
    removeOverlapped doc js = js.filter fun p => @decide (¬ CloseToTable ns p) (Classical.propDecidable _) := by
  rw [removeOverlapped, hs]
  apply List.filter_congr
  intro p _
  rw [Bool.eq_iff_iff, @decide_eq_true_iff _ (Classical.propDecidable _), Bool.not_eq_true', Bool.eq_false_iff, Ne, CloseToTable]
  apply not_congr
  simp only [List.any_eq_true, List.mem_map, exists_exists_and_eq_and]
  apply exists_congr
  intro r
  apply and_congr_right
  intro hr
  obtain ⟨h1, h2, h3, h4⟩ := insetBy_out ns r hr 39 (by norm_num)
  have e : SHAPE_JUNCTION_MARGIN - 1 = 39 := by rw [margin_eq]; norm_num
  rw [e]
  simp only [Rect.containsPoint, h1, h2, h3, h4, Bool.and_eq_true, decide_eq_true_eq, ge_iff_le, and_assoc]

theorem junctionsFromTerminalPort_eq {ns : List Nat} {doc : Document} (h : Scene ns doc) (hs : shapeRects doc = tableRects ns)
    {p : TerminalPort} (hp : p ∈ portsOfEdges doc) (js : List Point) (hj : ∀ j ∈ js, 0 ≤ j.x ∧ j.x ≤ f32Max) :
    junctionsFromTerminalPort doc p js =
      (js.filter fun j => @decide (Sees ns p.location p.orientation j) (Classical.propDecidable _)).map
        (crossingAt p.location p.orientation) := by
  have hfm : ∀ (P : Point → Prop) [DecidablePred P] (Q : Point → Prop) (f : Point → Point), (∀ j ∈ js, P j ↔ Q j) →
      js.filterMap (fun j => if P j then some (f j) else none) =
        (js.filter fun j => @decide (Q j) (Classical.propDecidable _)).map f := by
    intro P _ Q f hPQ
    clear hj
    induction js with
    | nil => rfl
    | cons j js ih =>
      have e := hPQ j (by simp)
      by_cases hq : Q j
      · simp [hq, e.mpr hq, ih fun k hk => hPQ k (by simp [hk])]
      · have hq' : ¬ P j := fun h => hq (e.mp h)
        simp [hq, hq', ih fun k hk => hPQ k (by simp [hk])]
  obtain ⟨k, n, hk, hpa⟩ := h.ports p hp
  have hbot := h.small k n hk
  have hgt := bot_gt h hk
  have hf := f32Max_big
  have htop := rowTop_ge ns (k / 3)
  have hcol := col_le k
  have hmin : f32Min = - f32Max := by simp [f32Max, f32Min]
  unfold junctionsFromTerminalPort
  simp only [hs, margin_eq]
  cases ho : p.orientation <;> rw [ho] at hpa <;> simp only [PortAt] at hpa <;> simp only
  · -- up
    apply hfm _ (fun j => Sees ns p.location .up j) (fun j => ⟨p.location.x, j.y⟩)
    intro j _
    simp only [Sees, and_iff_left_iff_imp]
    intro hjy
    rw [le_foldl_min]
    refine ⟨by rw [hpa.2] at hjy; linarith, ?_⟩
    rintro r - ⟨h1, -⟩
    linarith
  · -- down
    apply hfm _ (fun j => Sees ns p.location .down j) (fun j => ⟨p.location.x, j.y⟩)
    intro j _
    simp only [Sees, ge_iff_le, and_iff_left_iff_imp]
    intro hjy
    rw [foldl_max_le_iff]
    refine ⟨by rw [hpa.2] at hjy; linarith, ?_⟩
    rintro r - ⟨h1, -⟩
    linarith
  · -- left
    apply hfm _ (fun j => Sees ns p.location .left j) (fun j => ⟨j.x, p.location.y⟩)
    intro j hjm
    simp only [Sees, ge_iff_le]
    apply and_congr_right
    intro _
    rw [foldl_max_le_iff]
    simp only [List.mem_map, forall_exists_index, and_imp, forall_apply_eq_imp_iff₂, (hj j hjm).1, true_and]
    apply forall_congr'
    intro r
    apply imp_congr_right
    intro hr
    obtain ⟨h1, h2, h3, h4⟩ := insetBy_out ns r hr 40 (by norm_num)
    obtain ⟨k', n', -, e⟩ := (mem_tableRects ns r).mp hr
    have hw : r.size.width = 300 := by rw [e]; rfl
    have hx : r.origin.x = 50 + 380 * col k' := by rw [e]; rfl
    have hcol' := col_le k'
    rw [h2]
    constructor
    · intro g ha hlt
      exact g hlt ((ray_left _ _ (by rw [h2]; exact hlt) (by rw [h1, h2, hw]; linarith) (by rw [h1, hx, hmin]; linarith)).mpr
        (by rw [h3, h4]; exact ha))
    · intro g hlt hi
      have := (ray_left _ _ (by rw [h2]; exact hlt) (by rw [h1, h2, hw]; linarith) (by rw [h1, hx, hmin]; linarith)).mp hi
      rw [h3, h4] at this
      exact g this hlt
  · -- right
    apply hfm _ (fun j => Sees ns p.location .right j) (fun j => ⟨j.x, p.location.y⟩)
    intro j hjm
    simp only [Sees, ge_iff_le]
    apply and_congr_right
    intro _
    rw [le_foldl_min]
    simp only [List.mem_map, forall_exists_index, and_imp, forall_apply_eq_imp_iff₂, (hj j hjm).2, true_and]
    apply forall_congr'
    intro r
    apply imp_congr_right
    intro hr
    obtain ⟨h1, h2, h3, h4⟩ := insetBy_out ns r hr 40 (by norm_num)
    obtain ⟨k', n', -, e⟩ := (mem_tableRects ns r).mp hr
    have hw : r.size.width = 300 := by rw [e]; rfl
    have hx : r.origin.x = 50 + 380 * col k' := by rw [e]; rfl
    have hcol' := col_le k'
    rw [h1]
    constructor
    · intro g ha hlt
      exact g hlt ((ray_right _ _ (by rw [h1]; exact hlt) (by rw [h1, h2, hw]; linarith) (by rw [h1, hx]; linarith)).mpr
        (by rw [h3, h4]; exact ha))
    · intro g hlt hi
      have := (ray_right _ _ (by rw [h1]; exact hlt) (by rw [h1, h2, hw]; linarith) (by rw [h1, hx]; linarith)).mp hi
      rw [h3, h4] at this
      exact g this hlt

/-! ## Roads -/

theorem ahead_iff (d : Orientation) (n m : RouteNodeData) : Ahead d n m ↔ Linked d n m := by
  have : ∀ (e : Orientation) (k : RouteNodeData), Open e k ↔ k.isConnectable e = true := by
    rintro e ⟨l, o⟩
    cases o with
    | none => simp [Open, RouteNodeData.isConnectable]
    | some o => simp [Open, RouteNodeData.isConnectable]
  simp only [Ahead, Linked, this]

theorem nearest_exact (rects : List Rect) (n : RouteNodeData) (d : Orientation) (l : List (RouteNodeId × RouteNodeData)) :
    match (l.foldl (nearestStep rects n) {}).get d with
    | none => ∀ b ∈ l, ¬ Linked d n b.2
    | some f => f ∈ l ∧ Linked d n f.2 ∧
        (Free rects n.location f.2.location ∨ l.find? (fun b => decide (Linked d n b.2)) = some f) ∧
        (∀ b ∈ l, Linked d n b.2 → Free rects n.location b.2.location → ¬ Nearer d f.2 b.2) ∧
        ∀ b, l.find? (fun b => decide (Linked d n b.2)) = some b → ¬ Nearer d f.2 b.2 := by
  induction l using List.reverseRecOn with
  | nil => cases d <;> simp [Nearest.get]
  | append_singleton l b ih =>
    rw [List.foldl_append, List.foldl_cons, List.foldl_nil, nearestStep_get]
    have hirr : ∀ m : RouteNodeData, ¬ Nearer d m m := by intro m; cases d <;> simp [Nearer]
    by_cases hl : Linked d n b.2
    · rw [if_pos hl]
      cases hf : (l.foldl (nearestStep rects n) {}).get d with
      | none =>
        rw [hf] at ih
        have hnone : l.find? (fun b => decide (Linked d n b.2)) = none := by
          rw [List.find?_eq_none]; intro x hx; simpa using ih x hx
        have hfind : (l ++ [b]).find? (fun b => decide (Linked d n b.2)) = some b := by
          rw [List.find?_append, hnone]; simp [hl]
        simp only [takeCandidate, hfind]
        refine ⟨by simp, hl, Or.inr trivial, ?_, ?_⟩
        · intro c hc hcl _
          rw [List.mem_append, List.mem_singleton] at hc
          rcases hc with hc | rfl
          · exact absurd hcl (ih c hc)
          · exact hirr _
        · intro c hc
          cases hc
          exact hirr _
      | some f =>
        rw [hf] at ih
        simp only [takeCandidate]
        obtain ⟨h1, h2, h3, h4, h5⟩ := ih
        have hfind : (l ++ [b]).find? (fun b => decide (Linked d n b.2)) = l.find? (fun b => decide (Linked d n b.2)) := by
          rw [List.find?_append]
          cases hx : l.find? (fun b => decide (Linked d n b.2)) with
          | none =>
            rw [List.find?_eq_none] at hx
            exact absurd h2 (by simpa using hx f h1)
          | some x => rfl
        rw [hfind]
        by_cases hn : Nearer d f.2 b.2 ∧ Free rects n.location b.2.location
        · have : (decide (Nearer d f.2 b.2) && !rects.any (·.intersectsLine n.location b.2.location)) = true := by
            rw [Bool.and_eq_true, free_iff, decide_eq_true_iff]; exact hn
          rw [if_pos this]
          refine ⟨by simp, hl, Or.inl hn.2, ?_, ?_⟩
          · intro c hc hcl hfr
            rw [List.mem_append, List.mem_singleton] at hc
            rcases hc with hc | rfl
            · exact not_nearer_trans hn.1 (h4 c hc hcl hfr)
            · exact hirr _
          · intro c hc
            exact not_nearer_trans hn.1 (h5 c hc)
        · have : ¬ (decide (Nearer d f.2 b.2) && !rects.any (·.intersectsLine n.location b.2.location)) = true := by
            rw [Bool.and_eq_true, free_iff, decide_eq_true_iff]; exact hn
          rw [if_neg this]
          refine ⟨by simp [h1], h2, h3, ?_, h5⟩
          intro c hc hcl hfr
          rw [List.mem_append, List.mem_singleton] at hc
          rcases hc with hc | rfl
          · exact h4 c hc hcl hfr
          · exact fun hh => hn ⟨hh, hfr⟩
    · rw [if_neg hl]
      have hfind : (l ++ [b]).find? (fun b => decide (Linked d n b.2)) = l.find? (fun b => decide (Linked d n b.2)) := by
        rw [List.find?_append]
        simp [hl]
      rw [hfind]
      cases hf : (l.foldl (nearestStep rects n) {}).get d with
      | none =>
        rw [hf] at ih
        intro c hc
        rw [List.mem_append, List.mem_singleton] at hc
        rcases hc with hc | rfl
        · exact ih c hc
        · exact hl
      | some f =>
        rw [hf] at ih
        refine ⟨by simp [ih.1], ih.2.1, ih.2.2.1, ?_, ih.2.2.2.2⟩
        intro c hc hcl hfr
        rw [List.mem_append, List.mem_singleton] at hc
        rcases hc with hc | rfl
        · exact ih.2.2.2.1 c hc hcl hfr
        · exact absurd hcl hl

theorem find_indexed (g : RouteGraph) (P : RouteNodeData → Prop) [DecidablePred P] (b : Nat) (m : RouteNodeData) :
    g.indexed.find? (fun b => decide (P b.2)) = some (b, m) ↔
      g.nodes[b]? = some m ∧ P m ∧ ∀ c k, g.nodes[c]? = some k → P k → b ≤ c := by
  have key : ∀ (l : List RouteNodeData) (s : Nat), (l.zipIdx s |>.map fun p => (p.2, p.1)).find? (fun b => decide (P b.2)) = some (b, m) ↔
      s ≤ b ∧ l[b - s]? = some m ∧ P m ∧ ∀ c k, l[c]? = some k → P k → b ≤ s + c := by
    intro l
    induction l with
    | nil => simp
    | cons x l ih =>
      intro s
      rw [List.zipIdx_cons, List.map_cons, List.find?_cons]
      by_cases hx : P x
      · simp only [hx, decide_true, Option.some.injEq, Prod.mk.injEq]
        constructor
        · rintro ⟨rfl, rfl⟩
          exact ⟨le_refl _, by simp, hx, fun c k _ _ => Nat.le_add_right _ _⟩
        · rintro ⟨h1, h2, h3, h4⟩
          have := h4 0 x rfl hx
          have e : b = s := by omega
          subst e
          simp only [Nat.sub_self, List.getElem?_cons_zero, Option.some.injEq] at h2
          exact ⟨rfl, h2⟩
      · simp only [hx, decide_false]
        rw [ih (s + 1)]
        constructor
        · rintro ⟨h1, h2, h3, h4⟩
          refine ⟨by omega, ?_, h3, ?_⟩
          · have : b - s = (b - (s + 1)) + 1 := by omega
            rw [this, List.getElem?_cons_succ]; exact h2
          · intro c k hc hk
            cases c with
            | zero => simp only [List.getElem?_cons_zero, Option.some.injEq] at hc; subst hc; exact absurd hk hx
            | succ c =>
              have := h4 c k (by simpa using hc) hk
              omega
        · rintro ⟨h1, h2, h3, h4⟩
          have hne : b ≠ s := by
            rintro rfl
            simp only [Nat.sub_self, List.getElem?_cons_zero, Option.some.injEq] at h2
            subst h2
            exact hx h3
          refine ⟨by omega, ?_, h3, ?_⟩
          · have : b - s = (b - (s + 1)) + 1 := by omega
            rw [this, List.getElem?_cons_succ] at h2; exact h2
          · intro c k hc hk
            have := h4 (c + 1) k (by simpa using hc) hk
            omega
  have := key g.nodes 0
  simpa [RouteGraph.indexed] using this

theorem distance_iff {d : Orientation} {n m k : RouteNodeData} (hm : Linked d n m) (hk : Linked d n k) :
    ¬ Nearer d m k ↔ distance n.location m.location ≤ distance n.location k.location := by
  obtain ⟨hm, -⟩ := hm
  obtain ⟨hk, -⟩ := hk
  unfold distance
  cases d <;> simp only [Towards] at hm hk <;> simp only [Nearer, not_lt, gt_iff_lt, hm.1, hk.1, sub_self, abs_zero, zero_add, add_zero]
  · rw [abs_of_pos (by linarith [hm.2]), abs_of_pos (by linarith [hk.2])]; constructor <;> intro <;> linarith
  · rw [abs_of_neg (by linarith [hm.2]), abs_of_neg (by linarith [hk.2])]; constructor <;> intro <;> linarith
  · rw [abs_of_pos (by linarith [hm.2]), abs_of_pos (by linarith [hk.2])]; constructor <;> intro <;> linarith
  · rw [abs_of_neg (by linarith [hm.2]), abs_of_neg (by linarith [hk.2])]; constructor <;> intro <;> linarith

theorem chosen_iff (ns : List Nat) (rects : List Rect) (g : RouteGraph) (hg : WellFormed g)
    (hobs : ∀ d n m, n ∈ g.nodes → m ∈ g.nodes → Linked d n m → (Free rects n.location m.location ↔ ¬ Obstructed ns d n.location m.location))
    (a b : Nat) : Chosen rects g a b ↔ ∃ d, NeighbourIn ns g.nodes d a b := by
  have main : ∀ (a : Nat) (n : RouteNodeData) (d : Orientation), g.nodes[a]? = some n →
      match (nearestOf rects g n).get d with
      | none => ∀ c, ¬ Eligible ns g.nodes d n c
      | some f => g.nodes[f.1]? = some f.2 ∧ Linked d n f.2 ∧ Eligible ns g.nodes d n f.1 ∧
          ∀ c k, g.nodes[c]? = some k → Eligible ns g.nodes d n c → distance n.location f.2.location ≤ distance n.location k.location := by
    intro a n d ha
    have hs := nearest_exact rects n d g.indexed
    unfold nearestOf
    cases hf : (g.indexed.foldl (nearestStep rects n) {}).get d with
    | none =>
      rw [hf] at hs
      rintro c ⟨m, hm, hl, -⟩
      exact hs (c, m) ((mem_indexed g _ _).mpr hm) ((ahead_iff _ _ _).mp hl)
    | some f =>
      obtain ⟨i, f⟩ := f
      rw [hf] at hs
      obtain ⟨h1, h2, h3, h4, h5⟩ := hs
      have hi := (mem_indexed g _ _).mp h1
      refine ⟨hi, h2, ⟨f, hi, (ahead_iff _ _ _).mpr h2, ?_⟩, ?_⟩
      · rcases h3 with h3 | h3
        · exact Or.inl ((hobs d n f (List.mem_of_getElem? ha) (List.mem_of_getElem? hi) h2).mp h3)
        · right
          intro c k hc hk
          exact ((find_indexed g (Linked d n) i f).mp h3).2.2 c k hc ((ahead_iff _ _ _).mp hk)
      · rintro c k hc ⟨k', hk', hl, he⟩
        rw [hc] at hk'
        cases hk'
        have hl := (ahead_iff _ _ _).mp hl
        rw [← distance_iff h2 hl]
        rcases he with he | he
        · exact h4 (c, k) ((mem_indexed g _ _).mpr hc) hl ((hobs d n k (List.mem_of_getElem? ha) (List.mem_of_getElem? hc) hl).mpr he)
        · exact h5 (c, k) ((find_indexed g (Linked d n) c k).mpr ⟨hc, hl, fun c' k' hc' hk' => he c' k' hc' ((ahead_iff _ _ _).mpr hk')⟩)
  constructor
  · rintro ⟨n, m, d, hn, hm, h⟩
    have := main a n d hn
    rw [h] at this
    exact ⟨d, n, m, hn, hm, this.2.2.1, this.2.2.2⟩
  · rintro ⟨d, n, m, hn, hm, he, hmin⟩
    have := main a n d hn
    cases hf : (nearestOf rects g n).get d with
    | none => rw [hf] at this; exact absurd he (this b)
    | some f =>
      obtain ⟨i, f⟩ := f
      rw [hf] at this
      obtain ⟨hi, hl, hef, hminf⟩ := this
      obtain ⟨m', hm', hlm, -⟩ := id he
      rw [hm] at hm'
      cases hm'
      have hlm := (ahead_iff _ _ _).mp hlm
      have d1 := hmin i f hi hef
      have d2 := hminf b m hm he
      rw [← distance_iff hlm hl] at d1
      rw [← distance_iff hl hlm] at d2
      have hloc : f.location = m.location := by
        have t1 := hl.1
        have t2 := hlm.1
        obtain ⟨⟨fx, fy⟩, fo⟩ := f
        obtain ⟨⟨mx, my⟩, mo⟩ := m
        simp only [Point.mk.injEq]
        cases d <;> simp only [Nearer, Towards, not_lt, gt_iff_lt] at d1 d2 t1 t2 <;> constructor <;> linarith [t1.1, t2.1]
      have hib : i = b := by
        have e1 : (g.nodes.map (·.location))[i]? = some m.location := by simp [hi, hloc]
        have e2 : (g.nodes.map (·.location))[b]? = some m.location := by simp [hm]
        have hlt : i < (g.nodes.map (·.location)).length := (List.getElem?_eq_some_iff.mp e1).1
        exact (List.getElem?_inj hlt hg.locations).mp (e1.trans e2.symm)
      subst hib
      exact ⟨n, f, d, hn, hi, hf⟩

theorem Scene.obstructed_iff {ns : List Nat} {doc : Document} (h : Scene ns doc) {g : RouteGraph} (hg : SceneGraph doc g)
    (d : Orientation) (n m : RouteNodeData) (hn : n ∈ g.nodes) (hm : m ∈ g.nodes) (hl : Linked d n m) :
    Free (collisionRects doc) n.location m.location ↔ ¬ Obstructed ns d n.location m.location := by
  have hcore : ∀ k n, ns[k]? = some n → (tableRect ns k n).insetBy 1 1 = inside (tableRect ns k n) :=
    fun k n hk => core_table ns k n (h.pos n (List.mem_of_getElem? hk))
  have hfree : Free (collisionRects doc) n.location m.location ↔
      ∀ k i, ns[k]? = some i → (inside (tableRect ns k i)).intersectsLine n.location m.location = false := by
    unfold Free collisionRects
    constructor
    · intro hf k i hk
      exact hf _ (List.mem_map.mpr ⟨_, (h.rects _).mpr ⟨k, i, hk, rfl⟩, hcore k i hk⟩)
    · intro hf r hr
      obtain ⟨r0, hr0, rfl⟩ := List.mem_map.mp hr
      obtain ⟨k, i, hk, rfl⟩ := (h.rects _).mp hr0
      rw [hcore k i hk]
      exact hf k i hk
  rw [hfree]
  have ht := hl.1
  by_cases hup : d = .up
  · subst hup
    simp only [Obstructed, ne_eq, not_true_eq_false, false_and, not_false_eq_true, iff_true]
    intro k i hk
    rw [Bool.eq_false_iff, Ne, C49_intersects_line_exact]
    rintro ⟨⟨t, t0, t1, h1, h2, h3, h4⟩, hcon⟩
    simp only [Towards] at ht
    have hno := h.node_outside hg hn hk
    have hmo := h.node_outside hg hm hk
    obtain ⟨k', -, -, hx⟩ := h.node_x hg hn
    have hlt : ¬ m.location.x < n.location.x := by rw [ht.1]; exact lt_irrefl _
    simp only [hlt, if_false, inside, tableRect, Rect.minX, Rect.maxX, Rect.minY, Rect.maxY] at hcon
    simp only [inside, tableRect, lerp, ht.1, sub_self, mul_zero, add_zero] at h1 h2 h3 h4
    have hp : (0 : Rat) ≤ t * (n.location.y - m.location.y) := mul_nonneg t0 (by linarith [ht.2])
    have hp' : (0 : Rat) ≤ (1 - t) * (n.location.y - m.location.y) := mul_nonneg (by linarith) (by linarith [ht.2])
    have g1 : m.location.y ≤ rowTop ns (k / 3) + 1 + (35 * (i : Rat) - 2) := by nlinarith
    have g2 : rowTop ns (k / 3) + 1 ≤ n.location.y := by nlinarith
    simp only [Interior, tableRect, not_and, not_lt] at hno hmo
    have e1 : ((k % 3 : Nat) : Rat) = col k := rfl
    rw [e1] at h1 h2 hcon hno hmo
    rw [ht.1] at hmo
    apply hcon
    have hx1 : 50 + 380 * col k + 1 < n.location.x ∧ n.location.x < 50 + 380 * col k + 1 + (300 - 2) := by
      rcases col_cases k with ⟨-, hc⟩ | ⟨-, hc⟩ | ⟨-, hc⟩ <;> rcases col_cases k' with ⟨-, hc'⟩ | ⟨-, hc'⟩ | ⟨-, hc'⟩ <;>
        simp only [hc, hc'] at h1 h2 hx ⊢ <;> rcases hx with hx | hx | hx | hx | hx <;> rw [hx] at h1 h2 ⊢ <;>
        first | (exfalso; linarith) | (constructor <;> linarith)
    refine ⟨hx1.1, by rw [ht.1]; exact hx1.2, ?_, ?_⟩
    · by_contra hcc
      have := hno (by linarith [hx1.1]) (by linarith [hx1.2]) (by linarith)
      have hi : (1 : Rat) ≤ (i : Rat) := by exact_mod_cast h.pos i (List.mem_of_getElem? hk)
      linarith
    · by_contra hcc
      have hi : (1 : Rat) ≤ (i : Rat) := by exact_mod_cast h.pos i (List.mem_of_getElem? hk)
      have := hmo (by linarith [hx1.1]) (by linarith [hx1.2]) (by linarith)
      linarith
  · simp only [Obstructed, ne_eq, hup, not_false_eq_true, true_and, not_exists, not_and, mem_tableRects, forall_exists_index, and_imp]
    have key : ∀ k i, ns[k]? = some i →
        ((inside (tableRect ns k i)).intersectsLine n.location m.location = false ↔ ¬ Meets (inside (tableRect ns k i)) n.location m.location) := by
      intro k i hk
      rw [Bool.eq_false_iff, Ne, C49_intersects_line_exact]
      apply not_congr
      rw [and_iff_left_iff_imp]
      intro _ hcon
      apply h.node_outside hg hn hk
      simp only [inside, Rect.minX, Rect.maxX, Rect.minY, Rect.maxY] at hcon
      unfold Interior
      cases d with
      | up => exact absurd rfl hup
      | down =>
        simp only [Towards] at ht
        have hlt : ¬ m.location.x < n.location.x := by rw [ht.1]; exact lt_irrefl _
        rw [if_neg hlt, ht.1] at hcon
        obtain ⟨c1, c2, c3, c4⟩ := hcon
        exact ⟨by linarith, by linarith, by linarith, by linarith [ht.2]⟩
      | left =>
        simp only [Towards] at ht
        rw [if_pos ht.2, ht.1] at hcon
        obtain ⟨c1, c2, c3, c4⟩ := hcon
        exact ⟨by linarith [ht.2], by linarith, by linarith, by linarith⟩
      | right =>
        simp only [Towards] at ht
        have hlt : ¬ m.location.x < n.location.x := by linarith [ht.2]
        rw [if_neg hlt, ht.1] at hcon
        obtain ⟨c1, c2, c3, c4⟩ := hcon
        exact ⟨by linarith, by linarith [ht.2], by linarith, by linarith⟩
    constructor
    · rintro hf r k i hk rfl
      exact (key k i hk).mp (hf k i hk)
    · intro hf k i hk
      exact (key k i hk).mpr (hf _ k i hk rfl)

end Seiren
