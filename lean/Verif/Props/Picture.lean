import Verif.Spec.Picture
import Verif.Props.Drawing
import Verif.Props.Streets
/-! # C58: the whole picture of a module -/

namespace Seiren
open Spec

/-- Path commands follow a route: a move to the first point, one piece for each inner point as `Drawn` says, a line to the
last point. -/
def Spec.FollowsRoute (ps : List Point) (cs : List PathCommand) : Prop :=
  ∃ (a b : Point) (pieces : List (List PathCommand)), ps.head? = some a ∧ ps.getLast? = some b ∧
    cs = .moveTo a :: pieces.flatten ++ [.lineTo b] ∧ pieces.length + 2 = ps.length ∧
    ∀ (k : Nat) (x y z : Point), ps[k]? = some x → ps[k + 1]? = some y → ps[k + 2]? = some z →
      ∃ l, pieces[k]? = some l ∧ Drawn x y z l

/-- A point of the grid of all routes: its first coordinate is a multiple of 10, the second one of 2.5. -/
def Spec.OnGrid (p : Point) : Prop := (∃ z : Int, p.x = 10 * (z : Rat)) ∧ ∃ z : Int, p.y = 5 / 2 * (z : Rat)

/-- How a relation between two tables or columns is drawn: along a route of horizontal and vertical lines on the grid, from
the middle of a side of its first end to the middle of a side of its second end.  The route is a shortest one on the road map
that belongs to the tables and to all relations `rs`. -/
def Spec.ShowsRelation (ns : List Nat) (rs : List (NodeRef × NodeRef)) (c : NodeRef × NodeRef) (els : List Element) : Prop :=
  ∃ (ps : List Point) (cs : List PathCommand) (a b : Point) (o o' : Orientation),
    els = picRelation a b cs ∧ ps.head? = some a ∧ ps.getLast? = some b ∧
    HasSide ns c.1 o ∧ a = sideMiddle (refRect ns c.1) o ∧ HasSide ns c.2 o' ∧ b = sideMiddle (refRect ns c.2) o' ∧
    (∀ (k : Nat) (x y : Point), ps[k]? = some x → ps[k + 1]? = some y → AxisAligned x y) ∧
    (∀ p ∈ ps, OnGrid p) ∧ ShortestRoute ns rs c ps ∧ FollowsRoute ps cs

/-! ## Lines and tables -/

theorem drawField_header (k : Nat) (d : EntityDefinition) (x y : Rat) :
    drawField (clipPathId k) 0 (headerShape d) ⟨⟨x, y⟩, ⟨300, 35⟩⟩ = picHeader k x y d.name := by
  rfl

theorem drawField_column (clip : Str) (j : Nat) (f : EntityField) (x y : Rat) :
    drawField clip (j + 1) (fieldShape f) ⟨⟨x, y⟩, ⟨300, 35⟩⟩ = picColumn x y f := by
  have e1 : x + 300 / 5 * 4 = x + 240 := by norm_num
  have e3 : (35 : Rat) / 2 - 6 = 23 / 2 := by norm_num
  have e2 : x + 300 - px - 23 / 2 = x + 553 / 2 := by unfold px; linarith
  have e4 : x + px = x + 12 := rfl
  obtain ⟨name, ty, key⟩ := f
  simp only [drawField, fieldShape, Rect.minX, Rect.minY, Rect.maxX, Rect.midY, Rect.width, Rect.height, e1, e3, e2, e4,
    picColumn, gt_iff_lt, Nat.add_one_pos, if_true, List.nil_append]
  cases key with
  | none => cases ty <;> rfl
  | some k => cases ty <;> cases k <;> rfl

theorem flatMap_zipIdx_congr {α β γ : Type} (l : List α) (l' : List β) (i : Nat) (f : α × Nat → List γ) (g : β × Nat → List γ)
    (hlen : l.length = l'.length)
    (h : ∀ (k : Nat) (a : α) (b : β), l[k]? = some a → l'[k]? = some b → f (a, i + k) = g (b, i + k)) :
    (l.zipIdx i).flatMap f = (l'.zipIdx i).flatMap g := by
  induction l generalizing l' i with
  | nil =>
    cases l' with
    | nil => rfl
    | cons b l' => cases hlen
  | cons a l ih =>
    cases l' with
    | nil => cases hlen
    | cons b l' =>
      rw [List.zipIdx_cons, List.zipIdx_cons, List.flatMap_cons, List.flatMap_cons, ih l' (i + 1) (by simpa using hlen)]
      · rw [show f (a, i) = g (b, i) from h 0 a b rfl rfl]
      · intro k a' b' ha hb
        have := h (k + 1) a' b' (by simpa using ha) (by simpa using hb)
        rwa [show i + 1 + k = i + (k + 1) by omega]

/-- The nodes of table `k`. -/
theorem def_nodes (m : Module) (k : Nat) (d : EntityDefinition) (hk : (definitions m.entries)[k]? = some d) :
    ∃ t n, (tables m.intoMir)[k]? = some t ∧ m.intoMir.nodes[t]? = some n ∧ n.kind = .record recordShape ∧
      n.children.length = d.fields.length + 1 ∧
      ∀ (j : Nat) (f : FieldShape), (headerShape d :: d.fields.map fieldShape)[j]? = some f →
        ∃ l ln, n.children[j]? = some l ∧ m.intoMir.nodes[l]? = some ln ∧ ln.kind = .field f := by
  obtain ⟨h, hb⟩ := intoMir_nodes m
  refine ⟨1 + sizeOf' ((definitions m.entries).take k) + d.fields.length + 1,
    { kind := .record recordShape, children := List.range' (1 + sizeOf' ((definitions m.entries).take k)) (d.fields.length + 1) },
    ?_, ?_, rfl, ?_, ?_⟩
  · rw [tables_intoMir, recordIds_getElem, refId, hk]; rfl
  · rw [h]; exact record_node 1 _ k d hk [_] rfl
  · simp
  · intro j f hf
    have hj : j < d.fields.length + 1 := by simpa using (List.getElem?_eq_some_iff.mp hf).1
    refine ⟨1 + sizeOf' ((definitions m.entries).take k) + j, NodeData.new (.field f), ?_, ?_, rfl⟩
    · rw [List.getElem?_range' hj]; simp
    · obtain ⟨post, e, -⟩ := nodesFrom_split 1 (definitions m.entries) k d hk
      rw [h, e]
      have e2 : 1 + sizeOf' ((definitions m.entries).take k) + j = sizeOf' ((definitions m.entries).take k) + j + 1 := by omega
      rw [e2, List.getElem?_cons_succ, List.getElem?_append_right (by rw [nodesFrom_length]; omega), nodesFrom_length,
        Nat.add_sub_cancel_left, List.getElem?_append_left (by simp [defSize]; omega), defNodes,
        List.getElem?_append_left (by simpa using hj)]
      cases j with
      | zero => simp at hf; simp [hf]
      | succ j =>
        simp only [List.getElem?_cons_succ, List.getElem?_map, Option.map_eq_some_iff] at hf
        obtain ⟨c, hc, rfl⟩ := hf
        simp [hc]

/-- The elements of table `k` in a document that has the nodes of the laid out one. -/
theorem tableEls_picture (m : Module) {doc' : Document} (hn : doc'.nodes = (laidOut m.intoMir).nodes) (k : Nat) (d : EntityDefinition)
    (hk : (definitions m.entries)[k]? = some d) (t : NodeId) (ht : (tables m.intoMir)[k]? = some t) :
    tableEls doc' (t, k) = picTable (lineNumbers (definitions m.entries)) d k ∧
    clipOf doc' (t, k) = some (picClip (lineNumbers (definitions m.entries)) d k) := by
  have hd := tabular_intoMir m
  obtain ⟨t', n, ht', hnt, hkind, hlen, hlines⟩ := def_nodes m k d hk
  rw [ht] at ht'
  cases ht'
  have hch : childrenOf m.intoMir t = n.children := by simp [childrenOf, hnt]
  have hns : lineCounts m.intoMir = lineNumbers (definitions m.entries) := lineCounts_intoMir m
  have hrect : ∀ i, rectOf doc' i = rectOf (laidOut m.intoMir) i := by intro i; unfold rectOf; rw [hn]
  -- the node of the table after the layout
  obtain ⟨n', hn', hk', hc'⟩ : ∃ n', doc'.nodes[t]? = some n' ∧ n'.kind = .record recordShape ∧ n'.children = n.children := by
    have := laidOut_kind m.intoMir t
    rw [← hn, hnt] at this
    simp only [Option.map_some, Option.map_eq_some_iff, Prod.mk.injEq] at this
    obtain ⟨n', h1, h2, h3⟩ := this
    exact ⟨n', h1, h2.trans hkind, h3⟩
  have hr : rectOf doc' t = some (tableRect (lineNumbers (definitions m.entries)) k (d.fields.length + 1)) := by
    rw [hrect, rectOf_laidOut, rectOf_table hd k t ht, hch, hlen, hns]
  constructor
  · simp only [tableEls, hn', hk', hr, hc']
    unfold picTable
    simp only
    have hb : leaf c!"rect" (recordRectAttrs (tableRect (lineNumbers (definitions m.entries)) k (d.fields.length + 1)).origin
        (tableRect (lineNumbers (definitions m.entries)) k (d.fields.length + 1)).size ++ colorAttr c!"stroke" recordShape.borderColor ++
        colorAttr c!"fill" recordShape.bgColor) = picFrame (tableX k) (rowTop (lineNumbers (definitions m.entries)) (k / 3)) (d.fields.length + 1)
        [(c!"stroke", .str c!"#494949"), (c!"fill", .str c!"#212121")] := rfl
    rw [hb]
    congr 1
    have hl := flatMap_zipIdx_congr n.children (headerShape d :: d.fields.map fieldShape) 0 (lineEls doc' (clipPathId k))
      (fun fj => drawField (clipPathId k) fj.2 fj.1 (lineRect (lineNumbers (definitions m.entries)) k fj.2)) (by simp [hlen]) ?_
    · rw [hl, List.zipIdx_cons, List.flatMap_cons]
      congr 1
      · have : lineRect (lineNumbers (definitions m.entries)) k 0 =
            ⟨⟨tableX k, rowTop (lineNumbers (definitions m.entries)) (k / 3)⟩, ⟨300, 35⟩⟩ := by
          simp [lineRect, tableX]
        rw [this, drawField_header]
      · rw [List.zipIdx_map, List.flatMap_map, List.zipIdx_succ, List.flatMap_map]
        apply List.flatMap_congr
        rintro ⟨f, j⟩ -
        have : lineRect (lineNumbers (definitions m.entries)) k (j + 1) =
            ⟨⟨tableX k, rowTop (lineNumbers (definitions m.entries)) (k / 3) + 35 * ((j : Rat) + 1)⟩, ⟨300, 35⟩⟩ := by
          simp [lineRect, tableX]
        simp only [Prod.map, id]
        rw [this]
        exact drawField_column _ _ _ _ _
    · intro j l f hl hf
      obtain ⟨l', ln, h1, h2, h3⟩ := hlines j f hf
      rw [hl] at h1
      cases h1
      obtain ⟨ln', h4, h5⟩ : ∃ ln', doc'.nodes[l]? = some ln' ∧ ln'.kind = .field f := by
        have := laidOut_kind m.intoMir l
        rw [← hn, h2] at this
        simp only [Option.map_some, Option.map_eq_some_iff, Prod.mk.injEq] at this
        obtain ⟨n', h6, h7, -⟩ := this
        exact ⟨n', h6, h7.trans h3⟩
      have h6 : rectOf doc' l = some (lineRect (lineNumbers (definitions m.entries)) k j) := by
        rw [hrect, rectOf_laidOut, rectOf_line hd k j t l ht (by rw [hch]; exact hl), hns]
      simp only [lineEls, h4, h5, h6, Nat.zero_add]
  · simp only [clipOf, isTable, hn', hk', hr, if_true, Option.map_some]
    rfl

/-! ## Relations -/

theorem forall₂_of_getElem {α β : Type} {R : α → β → Prop} {l : List α} {l' : List β} (hlen : l.length = l'.length)
    (h : ∀ (k : Nat) (a : α) (b : β), l[k]? = some a → l'[k]? = some b → R a b) : List.Forall₂ R l l' := by
  induction l generalizing l' with
  | nil =>
    cases l' with
    | nil => exact .nil
    | cons b l' => cases hlen
  | cons a l ih =>
    cases l' with
    | nil => cases hlen
    | cons b l' => exact .cons (h 0 a b rfl rfl) (ih (by simpa using hlen) fun k a' b' ha hb => h (k + 1) a' b' (by simpa using ha) (by simpa using hb))

/-- The ports of what a relation end refers to. -/
theorem ports_ref (m : Module) (r : NodeRef) (i : NodeId) (hi : nodeOf m.intoMir r = some i) (a : Point) (o : Orientation)
    (ha : (a, o) ∈ portsOf (laidOut m.intoMir) i) :
    HasSide (lineNumbers (definitions m.entries)) r o ∧ a = sideMiddle (refRect (lineNumbers (definitions m.entries)) r) o := by
  have hd := tabular_intoMir m
  have hp := (drawable_intoMir m).noPorts
  have hns : lineCounts m.intoMir = lineNumbers (definitions m.entries) := lineCounts_intoMir m
  rw [nodeOf_intoMir] at hi
  cases r with
  | table k =>
    have ht : (tables m.intoMir)[k]? = some i := by rw [tables_intoMir, recordIds_getElem]; exact hi
    rw [portsOf_table hd hp k i ht, hns] at ha
    have hcount : (lineNumbers (definitions m.entries))[k]? = some (childrenOf m.intoMir i).length := by
      rw [← hns, lineCounts, List.getElem?_map, ht]; rfl
    refine ⟨trivial, ?_⟩
    rw [refRect, hcount, Option.getD_some]
    simp only [List.mem_map, Prod.mk.injEq] at ha
    obtain ⟨o', -, rfl, rfl⟩ := ha
    rfl
  | column k j =>
    obtain ⟨h, hb⟩ := intoMir_nodes m
    simp only [refId, Option.bind_eq_some_iff] at hi
    obtain ⟨d, hk, hi⟩ := hi
    split at hi
    case isFalse => cases hi
    case isTrue hj =>
      cases hi
      have ht : (tables m.intoMir)[k]? = some (1 + sizeOf' ((definitions m.entries).take k) + d.fields.length + 1) := by
        rw [tables_intoMir, recordIds_getElem, refId, hk]; rfl
      have hch := childrenOf_record m.intoMir [bodyNode (recordIds 1 (definitions m.entries))] 1 _ rfl h k d hk
      have hcj : (childrenOf m.intoMir (1 + sizeOf' ((definitions m.entries).take k) + d.fields.length + 1))[j + 1]? =
          some (1 + sizeOf' ((definitions m.entries).take k) + 1 + j) := by
        rw [hch, List.getElem?_range' (by omega)]
        simp only [Option.some.injEq, Nat.one_mul]
        omega
      rw [portsOf_line hd hp k (j + 1) _ _ ht hcj, hns, hch, List.length_range', lineOrientations, if_neg (by omega),
        if_neg (by omega)] at ha
      simp only [List.mem_map, Prod.mk.injEq] at ha
      obtain ⟨o', ho, rfl, rfl⟩ := ha
      refine ⟨?_, rfl⟩
      split at ho
      case isTrue hlast =>
        simp only [List.mem_cons, List.not_mem_nil, or_false] at ho
        rcases ho with rfl | rfl | rfl
        · trivial
        · simp only [HasSide, lineNumbers, List.getElem?_map, hk, Option.map_some, Option.some.injEq]
          omega
        · trivial
      case isFalse =>
        simp only [List.mem_cons, List.not_mem_nil, or_false] at ho
        rcases ho with rfl | rfl <;> trivial

/-- The drawing of a module is the picture of its tables, followed by what is drawn for its edges. -/
theorem picture_blocks {q : Queue} {QI : List Entry → Prop} (hq : q.Lawful QI) (m : Module) (hne : definitions m.entries ≠ [])
    (hsize : picHeight (lineNumbers (definitions m.entries)) ≤ 1000000000) :
    (placeNodes m.intoMir).2.size.height ≤ 1000000000 ∧
    ∀ el, drawModule q m = .ok el → ∀ doc' g', drawEdgePath q (laidOut m.intoMir) .new = .ok (doc', g') →
      ∃ bs : List (List Element), List.Forall₂ (fun e b => drawEdgeConnection e = .ok b) doc'.edges bs ∧
        el = picture (definitions m.entries) bs.flatten := by
  have hd := drawable_intoMir m
  have hns : lineCounts m.intoMir = lineNumbers (definitions m.entries) := lineCounts_intoMir m
  have htlen : (tables m.intoMir).length = (definitions m.entries).length := by rw [tables_intoMir, recordIds_length]
  have htne : tables m.intoMir ≠ [] := by
    intro h0
    rw [h0] at htlen
    exact hne (List.length_eq_zero_iff.mp htlen.symm)
  have hv : (placeNodes m.intoMir).2 = ⟨⟨0, 0⟩, ⟨1160, picHeight (lineNumbers (definitions m.entries))⟩⟩ := by
    have := placed_viewBox hd.tabular htne
    simp only at this
    rw [this, hns, htlen, picHeight]
    simp [lineNumbers]
  refine ⟨by rw [hv]; exact hsize, ?_⟩
  intro el h doc' g' h1
  obtain ⟨doc2, g2, h2, hn, hb, -, -⟩ := drawn_connections hq m (by rw [hv]; exact hsize)
  rw [h1] at h2
  cases h2
  rw [drawModule_eq, h1] at h
  simp only at h
  obtain ⟨hu, bs, hbs, rfl⟩ := render_ok h
  have htab : tables doc' = tables m.intoMir := by
    rw [← tables_laidOut m.intoMir, tables, tables, childrenOf, childrenOf, hn, hb, (laidOut_rest m.intoMir).2.1]
  have hpair : ∀ (k : Nat) (t : NodeId) (d : EntityDefinition), (tables m.intoMir)[k]? = some t → (definitions m.entries)[k]? = some d →
      _ ∧ _ := fun k t d ht hk => tableEls_picture m hn k d hk t ht
  refine ⟨bs, hbs, ?_⟩
  · have e1 : (tables doc').zipIdx.flatMap (tableEls doc') =
        (definitions m.entries).zipIdx.flatMap (fun (d, k) => picTable (lineNumbers (definitions m.entries)) d k) := by
      rw [htab]
      apply flatMap_zipIdx_congr _ _ _ _ _ htlen
      intro k t d ht hk
      simp only [Nat.zero_add]
      exact (hpair k t d ht hk).1
    have e2 : (tables doc').zipIdx.filterMap (clipOf doc') =
        (definitions m.entries).zipIdx.map (fun (d, k) => picClip (lineNumbers (definitions m.entries)) d k) := by
      rw [htab]
      have := flatMap_zipIdx_congr (tables m.intoMir) (definitions m.entries) 0 (fun p => (clipOf doc' p).toList)
        (fun p => [picClip (lineNumbers (definitions m.entries)) p.1 p.2]) htlen (by
          intro k t d ht hk
          simp only [Nat.zero_add]
          rw [(hpair k t d ht hk).2]
          rfl)
      rw [List.filterMap_eq_flatMap_toList, this, List.map_eq_flatMap]
    unfold rootOf picture defsEl
    simp only
    rw [e1, e2, hv]
    rfl

/-! ## C58 -/

/-- **C58.** Whenever a module with at least one table is drawn, the SVG is exactly the picture written down in
`Spec/Picture.lean` for its definitions, followed by one drawn route for every connection the module asks for, in order. -/
theorem C58_picture {q : Queue} {QI : List Entry → Prop} (hq : q.Lawful QI) (m : Module) (hne : definitions m.entries ≠ [])
    (hsize : picHeight (lineNumbers (definitions m.entries)) ≤ 1000000000) (el : Element) (h : drawModule q m = .ok el) :
    ∃ relations : List (List Element), el = picture (definitions m.entries) relations.flatten ∧
      List.Forall₂ (ShowsRelation (lineNumbers (definitions m.entries)) (connections [] m.entries)) (connections [] m.entries) relations := by
  have hd := drawable_intoMir m
  obtain ⟨hsize', hblocks⟩ := picture_blocks hq m hne hsize
  obtain ⟨doc', g', h1, hn, hb, hps, hmap⟩ := drawn_connections hq m hsize'
  obtain ⟨bs, hbs, rfl⟩ := hblocks el h doc' g' h1
  refine ⟨bs, rfl, ?_⟩
  · have hlen : (connections [] m.entries).length = bs.length := by
      have := congrArg List.length hmap
      simp only [List.length_map] at this
      rw [← this, hbs.length_eq]
    refine forall₂_of_getElem hlen ?_
    intro i c b hc hbi
    obtain ⟨e, he⟩ : ∃ e, doc'.edges[i]? = some e := by
      have : i < doc'.edges.length := by
        rw [hbs.length_eq]; exact (List.getElem?_eq_some_iff.mp hbi).1
      exact ⟨_, List.getElem?_eq_getElem this⟩
    have hdraw : drawEdgeConnection e = .ok b := by
      have h2 := List.forall₂_iff_get.mp hbs
      obtain ⟨l1, e1⟩ := List.getElem?_eq_some_iff.mp he
      obtain ⟨l2, e2⟩ := List.getElem?_eq_some_iff.mp hbi
      have := h2.2 i l1 l2
      rwa [List.get_eq_getElem, List.get_eq_getElem, e1, e2] at this
    have hends : nodeOf m.intoMir c.1 = some e.sourceId ∧ nodeOf m.intoMir c.2 = some e.targetId := by
      have := congrArg (fun l => l[i]?) hmap
      simp only [List.getElem?_map, he, hc, Option.map_some, Option.some.injEq, Prod.mk.injEq] at this
      exact ⟨this.1.symm, this.2.symm⟩
    obtain ⟨ps, cs, a, z, hpe, hcs, ha, hz, rfl⟩ := drawEdge_ok hdraw
    have hmem := List.mem_of_getElem? he
    obtain ⟨a', z', o, o', ha', hz', ho, ho'⟩ := C33_paths_connect_ports hq m.intoMir hd hsize' doc' g' h1 e hmem ps hpe
    rw [ha] at ha'
    cases ha'
    rw [hz] at hz'
    cases hz'
    obtain ⟨s1, s2⟩ := ports_ref m c.1 _ hends.1 a o ho
    obtain ⟨t1, t2⟩ := ports_ref m c.2 _ hends.2 z o' ho'
    have hshort : ShortestRoute (lineNumbers (definitions m.entries)) (connections [] m.entries) c ps := by
      obtain ⟨-, hall⟩ := List.forall₂_iff_get.mp (C67_shortest_routes hq m hsize' doc' g' h1)
      obtain ⟨l1, e1⟩ := List.getElem?_eq_some_iff.mp hc
      obtain ⟨l2, e2⟩ := List.getElem?_eq_some_iff.mp he
      have := hall i l1 l2
      rw [List.get_eq_getElem, List.get_eq_getElem, e1, e2] at this
      obtain ⟨ps', hp', hs'⟩ := this
      rw [hpe] at hp'
      cases hp'
      exact hs'
    refine ⟨ps, cs, a, z, o, o', rfl, ha, hz, s1, s2, t1, t2, ?_, fun p hp => drawn_grid hd hsize' h1 hmem hpe hp, hshort, C45_path_data ps cs hcs⟩
    intro k x y hx hy
    rcases C34_paths_orthogonal hq m.intoMir hd hsize' doc' g' h1 e hmem ps hpe k x y hx hy with ⟨h2, h3⟩ | ⟨h2, h3⟩
    · exact ⟨fun e => h3 (by rw [e]), Or.inl h2⟩
    · exact ⟨fun e => h2 (by rw [e]), Or.inr h3⟩

/-! A module meeting the hypotheses: it is drawn, and it has a relation. -/
set_option maxRecDepth 100000 in
example : definitions threeTables.entries ≠ [] ∧ picHeight (lineNumbers (definitions threeTables.entries)) ≤ 1000000000 ∧
    (drawModule BinHeap.queue threeTables).toOption.isSome = true ∧ (connections [] threeTables.entries).length = 1 := by
  decide +kernel

/-- The picture of a small table. -/
example : picTable (lineNumbers [⟨c!"t", [⟨c!"id", .int, some .primaryKey⟩]⟩]) ⟨c!"t", [⟨c!"id", .int, some .primaryKey⟩]⟩ 0 =
    [picFrame 50 50 2 [(c!"stroke", .str c!"#494949"), (c!"fill", .str c!"#212121")]] ++ picHeader 0 50 50 c!"t" ++
      picColumn 50 85 ⟨c!"id", .int, some .primaryKey⟩ := by
  have e1 : tableX 0 = 50 := by decide +kernel
  have e2 : (50 : Rat) + 35 * ((0 : Nat) + 1) = 85 := by decide +kernel
  simp only [picTable, e1, List.zipIdx_cons, List.zipIdx_nil, List.flatMap_cons, List.flatMap_nil, rowTop, Nat.zero_div, e2]
  rfl

end Seiren
