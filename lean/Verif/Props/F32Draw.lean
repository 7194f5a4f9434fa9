import Verif.Proofs.F32Routing
import Verif.Proofs.Grid
import Verif.Props.Routing
/-! # C57: the whole drawing is exact in single precision -/

namespace Seiren
open Spec

/-- The rectangle of a line. -/
def LineRect (r : Rect) : Prop := ∃ x y : Nat, r = ⟨⟨x, y⟩, ⟨300, 35⟩⟩ ∧ x + 300 ≤ 2 ^ 22 ∧ y + 35 ≤ 2 ^ 22

section
variable {rnd sq : Rat → Rat} (H : Rounding rnd sq)

include H in
theorem Rounding.half {q : Rat} (z : Int) (e : q = (z : Rat) / 2) (h0 : -2 ^ 23 ≤ z) (h1 : z ≤ 2 ^ 23 + 100) : rnd q = q := by
  rw [e]; exact H.exact _ (isF32_half z (abs_lt.mpr ⟨by omega, by omega⟩))

include H in
theorem drawFieldR_eq (clip : Str) (i : Nat) (f : FieldShape) {r : Rect} (hr : LineRect r) :
    drawFieldR rnd clip i f r = drawField clip i f r := by
  obtain ⟨x, y, rfl, hx, hy⟩ := hr
  have e1 : rnd ((x : Rat) + 300) = x + 300 := H.half (2 * x + 600) (by push_cast; ring) (by omega) (by omega)
  have e2 : rnd ((x : Rat) + px) = x + px := H.half (2 * x + 24) (by unfold px; push_cast; ring) (by omega) (by omega)
  have e3 : rnd ((35 : Rat) / 2) = 35 / 2 := H.half 35 (by norm_num) (by norm_num) (by norm_num)
  have e4 : rnd ((y : Rat) + 35 / 2) = y + 35 / 2 := H.half (2 * y + 35) (by push_cast; ring) (by omega) (by omega)
  have e5 : rnd ((300 : Rat) / 5) = 300 / 5 := H.half 120 (by norm_num) (by norm_num) (by norm_num)
  have e6 : rnd ((300 : Rat) / 5 * 4) = 300 / 5 * 4 := H.half 480 (by norm_num) (by norm_num) (by norm_num)
  have e7 : rnd ((x : Rat) + 300 / 5 * 4) = x + 300 / 5 * 4 := H.half (2 * x + 480) (by push_cast; ring) (by omega) (by omega)
  have e8 : rnd ((x : Rat) + 300 - px) = x + 300 - px :=
    H.half (2 * x + 576) (by unfold px; push_cast; ring) (by omega) (by omega)
  have e9 : rnd ((35 : Rat) / 2 - 6) = 35 / 2 - 6 := H.half 23 (by norm_num) (by norm_num) (by norm_num)
  have e10 : rnd ((x : Rat) + 300 - px - (35 / 2 - 6)) = x + 300 - px - (35 / 2 - 6) :=
    H.half (2 * x + 553) (by unfold px; push_cast; ring) (by omega) (by omega)
  simp only [drawFieldR, drawField, Rect.maxXR, Rect.midYR, Rect.maxX, Rect.midY, Rect.minX, Rect.minY, Rect.width, Rect.height,
    e1, e2, e3, e4, e5, e6, e7, e8, e9, e10]
  rfl

include H in
theorem drawFieldsR_eq (doc : Document) (clip : Str) (l : List (NodeId × Nat))
    (h : ∀ p ∈ l, ∀ r, rectOf doc p.1 = some r → LineRect r) : drawFieldsR rnd doc clip l = drawFields doc clip l := by
  induction l with
  | nil => rfl
  | cons p l ih =>
    obtain ⟨f, i⟩ := p
    have ih := ih (fun p' hp' => h p' (by simp [hp']))
    rw [drawFieldsR, drawFields]
    cases hn : doc.getNode f with
    | none => exact ih
    | some n =>
      simp only
      cases n.kind with
      | body => exact ih
      | record _ => exact ih
      | field s =>
        simp only
        cases hr : n.rect with
        | none => rfl
        | some r =>
          simp only [ih]
          rw [drawFieldR_eq H _ _ _ (h (f, i) (by simp) r (by rw [rectOf_eq, hn]; exact hr))]
          rfl

include H in
theorem drawRecordsR_eq (doc : Document) (l : List (NodeId × Nat))
    (h : ∀ p ∈ l, ∀ c ∈ childrenOf doc p.1, ∀ r, rectOf doc c = some r → LineRect r) :
    drawRecordsR rnd doc l = drawRecords doc l := by
  induction l with
  | nil => rfl
  | cons p l ih =>
    obtain ⟨t, i⟩ := p
    have ih := ih (fun p' hp' => h p' (by simp [hp']))
    rw [drawRecordsR, drawRecords]
    cases hn : doc.getNode t with
    | none => exact ih
    | some n =>
      simp only
      cases n.kind with
      | body => exact ih
      | field _ => exact ih
      | record s =>
        simp only
        have hf : drawFieldsR rnd doc (clipPathId i) n.children.zipIdx = drawFields doc (clipPathId i) n.children.zipIdx := by
          apply drawFieldsR_eq H
          intro c hc
          have hc' := List.mem_of_getElem? (List.mem_zipIdx_iff_getElem?.mp hc)
          have hn' : doc.nodes[t]? = some n := hn
          exact h (t, i) (by simp) c.1 (by simp [childrenOf, hn', hc'])
        rw [hf, ih]
        rfl

include H in
theorem cornerR_eq (i : Nat) (bp : Point) {pt : Point} (hx : Coord pt.x) (hy : Coord pt.y) (fp : Point) :
    cornerR rnd i bp pt fp = corner i bp pt fp := by
  obtain ⟨a, ha, ea⟩ := hx
  obtain ⟨b, hb, eb⟩ := hy
  have e1 : rnd (pt.x + pathRadius) = pt.x + pathRadius :=
    H.half (a + 12) (by rw [ea, pathRadius]; push_cast; ring) (by omega) (by omega)
  have e2 : rnd (pt.x - pathRadius) = pt.x - pathRadius :=
    H.half (a - 12) (by rw [ea, pathRadius]; push_cast; ring) (by omega) (by omega)
  have e3 : rnd (pt.y + pathRadius) = pt.y + pathRadius :=
    H.half (b + 12) (by rw [eb, pathRadius]; push_cast; ring) (by omega) (by omega)
  have e4 : rnd (pt.y - pathRadius) = pt.y - pathRadius :=
    H.half (b - 12) (by rw [eb, pathRadius]; push_cast; ring) (by omega) (by omega)
  unfold cornerR corner
  simp only [e1, e2, e3, e4]
  rfl

include H in
theorem pathDataR_eq (ps : List Point) (h : ∀ p ∈ ps, Coord p.x ∧ Coord p.y) : pathDataR rnd ps = pathData ps := by
  have key : ∀ (l : List Point) (i : Nat) (bp : Point), (∀ p ∈ l, Coord p.x ∧ Coord p.y) →
      pathTailR rnd i bp l = pathTail i bp l := by
    intro l
    induction l with
    | nil => intro i bp _; rfl
    | cons p l ih =>
      intro i bp hl
      cases l with
      | nil => rfl
      | cons fp rest =>
        rw [pathTailR, pathTail, cornerR_eq H i bp (hl p (by simp)).1 (hl p (by simp)).2 fp,
          ih (i + 1) p (fun p' hp' => hl p' (by simp only [List.mem_cons] at hp' ⊢; exact Or.inr hp'))]
        rfl
  match ps with
  | [] => rfl
  | [p] => rfl
  | p :: q :: rest =>
    rw [pathDataR, pathData, key (q :: rest) 1 p (fun p' hp' => h p' (by simp only [List.mem_cons] at hp' ⊢; exact Or.inr hp'))]
    rfl

include H in
theorem drawEdgesR_eq (es : List EdgeData)
    (h : ∀ e ∈ es, ∀ ps, e.pathPoints = some ps → ∀ p ∈ ps, Coord p.x ∧ Coord p.y) : drawEdgesR rnd es = drawEdges es := by
  induction es with
  | nil => rfl
  | cons e es ih =>
    have hc : drawEdgeConnectionR rnd e = drawEdgeConnection e := by
      unfold drawEdgeConnectionR drawEdgeConnection
      cases hp : e.pathPoints with
      | none => rfl
      | some ps =>
        simp only
        rw [pathDataR_eq H ps (h e (by simp) ps hp)]
        rfl
    rw [drawEdgesR, drawEdges, hc, ih (fun e' he' => h e' (by simp [he']))]
    rfl

include H in
theorem renderR_eq (vb : Option Rect) (doc : Document)
    (h1 : ∀ t ∈ tables doc, ∀ c ∈ childrenOf doc t, ∀ r, rectOf doc c = some r → LineRect r)
    (h2 : ∀ e ∈ doc.edges, ∀ ps, e.pathPoints = some ps → ∀ p ∈ ps, Coord p.x ∧ Coord p.y) :
    renderR rnd vb doc = render vb doc := by
  unfold renderR render
  rw [drawEdgesR_eq H _ h2, drawRecordsR_eq H]
  · rfl
  · intro p hp
    rw [bodyChildren_eq] at hp
    exact h1 p.1 (List.mem_of_getElem? (List.mem_zipIdx_iff_getElem?.mp hp))

end

/-! ## C57 -/

/-- **C57** For every module with at least one table whose diagram is at most 2^22 units high, the whole program after
parsing (placement, ports, routing, rendering), computed in 32-bit floating point with every operation rounded and with
the correctly rounded square root, produces exactly the drawing of the exact model, for every priority queue.  No
operation overflows: the result does not depend on what an overflowing operation gives (`ovf`). -/
theorem C57_f32_drawing (ovf : Rat → Rat) (q : Queue) (m : Module) (hne : tables m.intoMir ≠ [])
    (hh : diagramHeight m.intoMir ≤ 2 ^ 22) :
    drawModuleR (roundOr ovf) sqrtF32 q m = drawModule q m := by
  have H := rounding_f32 ovf
  obtain ⟨e1, e2⟩ := placed_exact H.exact m hne hh
  have hd := drawable_intoMir m
  rw [e1] at e2
  unfold drawModuleR drawModule
  rw [e1]
  simp only
  rw [e2]
  generalize m.intoMir = doc at *
  have hv := placed_viewBox hd.tabular hne
  have hheight : (placeNodes doc).2.size.height = diagramHeight doc := by rw [hv]; rfl
  have hscene := scene_laidOut hd (by rw [hheight]; linarith)
  have hlow : Low (lineCounts doc) := by
    intro k n hk
    rw [lineCounts, List.getElem?_map, Option.map_eq_some_iff] at hk
    obtain ⟨t, ht, rfl⟩ := hk
    have htm := List.mem_of_getElem? ht
    obtain ⟨h0, -, -, hbox⟩ := C23_view_box_partial doc hd.tabular hne
    obtain ⟨r, hr, -, -, -, h4⟩ := hbox t (List.mem_append.mpr (Or.inl htm))
    rw [rectOf_table hd.tabular k t ht] at hr
    cases hr
    rw [h0, hheight] at h4
    simp only [tableRect] at h4
    unfold bot
    linarith
  obtain ⟨g, hg⟩ := hscene.graph
  have hgrid := SceneGraph.grid hscene hlow hg
  change (match drawEdgePathR (roundOr ovf) sqrtF32 q (laidOut doc) .new with
    | .error p => (.error (.panic p) : Except RenderError Element)
    | .ok (d, _) => renderR (roundOr ovf) (some (placeNodes doc).2) d) = (match drawEdgePath q (laidOut doc) .new with
    | .error p => (.error (.panic p) : Except RenderError Element)
    | .ok (d, _) => render (some (placeNodes doc).2) d)
  rw [drawEdgePathR_eq H q hscene hlow]
  cases hres : drawEdgePath q (laidOut doc) .new with
  | error e => rfl
  | ok dg =>
    obtain ⟨d, g'⟩ := dg
    simp only
    rw [drawEdgePath, hg.built] at hres
    simp only at hres
    cases hc : collectPaths q (laidOut doc) (connectNearest (laidOut doc) g) (laidOut doc).edges with
    | error e => rw [hc] at hres; cases hres
    | ok pss =>
      rw [hc] at hres
      simp only at hres
      cases ha : assignPaths (laidOut doc).edges pss with
      | error e => rw [ha] at hres; cases hres
      | ok es =>
        rw [ha] at hres
        cases hres
        refine renderR_eq H _ _ ?_ ?_
        · intro t ht c hc r hr
          change t ∈ tables (laidOut doc) at ht
          change c ∈ childrenOf (laidOut doc) t at hc
          change rectOf (laidOut doc) c = some r at hr
          rw [tables_laidOut] at ht
          rw [childrenOf_laidOut] at hc
          obtain ⟨k, hk⟩ := List.getElem?_of_mem ht
          obtain ⟨j, hj⟩ := List.getElem?_of_mem hc
          rw [rectOf_laidOut, rectOf_line hd.tabular k j t c hk hj] at hr
          cases hr
          have hkn : (lineCounts doc)[k]? = some (childrenOf doc t).length := by
            simp [lineCounts, hk]
          have hjl : j + 1 ≤ (childrenOf doc t).length := (List.getElem?_eq_some_iff.mp hj).1
          have hb := hlow k _ hkn
          obtain ⟨b, hb'⟩ := rowTop_nat (lineCounts doc) (k / 3)
          unfold bot at hb
          rw [hb'] at hb
          have hb2 : b + 35 * (childrenOf doc t).length + 50 ≤ 2 ^ 22 := by exact_mod_cast hb
          refine ⟨50 + 380 * (k % 3), b + 35 * j, ?_, by omega, by omega⟩
          unfold lineRect
          rw [hb']
          push_cast
          rfl
        · intro e he ps hps p hp
          obtain ⟨ps', hps', he'⟩ := assignPaths_mem _ _ _ ha e he
          rw [hps] at he'
          cases he'
          obtain ⟨n, hn, rfl⟩ := collectPaths_nodes q _ _ _ _ hc ps hps' p hp
          rw [(connect_nodes (laidOut doc) g).1] at hn
          exact hgrid n hn

/-- **C57** The square root used there is the correctly rounded one of IEEE 754: the result is in the format and no other
number of the format is nearer to the exact root, that is, the exact root is on the near side of the midpoint between the
result and any other number (stated through squares, to stay within the rationals). -/
theorem C57_square_root (q : Rat) (hlo : 2 ^ (-149 : Int) ≤ q) (hhi : q ≤ f32Max) :
    IsF32 (sqrtF32 q) ∧ 0 < sqrtF32 q ∧
    (∀ r, IsF32 r → 0 ≤ r → r < sqrtF32 q → ((r + sqrtF32 q) / 2) ^ 2 ≤ q) ∧
    (∀ r, IsF32 r → sqrtF32 q < r → q ≤ ((r + sqrtF32 q) / 2) ^ 2) :=
  sqrtF32_nearest q (lt_of_lt_of_le (two_zpow_pos _) hlo) hlo hhi

/-! A module with a relation meeting the hypotheses of `C57_f32_drawing`. -/
set_option maxRecDepth 100000 in
example :
    let m : Module := ⟨some c!"blog", [.definition ⟨c!"users", [⟨c!"id", .int, some .primaryKey⟩]⟩,
      .definition ⟨c!"posts", [⟨c!"id", .int, some .primaryKey⟩, ⟨c!"created_by", .int, some .foreignKey⟩]⟩,
      .relation ⟨.field c!"posts" c!"created_by", .field c!"users" c!"id"⟩]⟩
    tables m.intoMir ≠ [] ∧ diagramHeight m.intoMir ≤ 2 ^ 22 ∧ m.intoMir.edges ≠ [] := by
  decide +kernel

/-! The square root does round: the root of 2 is irrational; and it is exact where it can be. -/
set_option maxRecDepth 100000 in
example : sqrtF32 2 = 11863283 / 2 ^ 23 ∧ sqrtF32 0 = 0 ∧ sqrtF32 (1225 / 4) = 35 / 2 ∧ sqrtF32 (2 ^ (-149 : Int)) =
    11863283 / 2 ^ 98 := by
  decide +kernel

end Seiren
