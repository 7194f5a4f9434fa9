import Verif.Proofs.Render
import Verif.Props.PathData
import Verif.Props.Routing
import Verif.Model.Main
import Mathlib.Data.List.Nodup
/-! # C42–C44: the SVG document -/

namespace Seiren
open Spec

/-! ## C42 -/

/-- **C42.** `render` returns `InvalidLayout(id)` exactly if `id` is the first table or line without position or size
(tables first), or all of them are placed and `id` is the source of the first edge that cannot be drawn, which has no
path. -/
theorem C42_invalid_layout_exact (v : Option Rect) (doc : Document) (id : NodeId) :
    render v doc = .error (.invalidLayout id) ↔
      (unplaced doc).head? = some id ∨
      (unplaced doc = [] ∧ ∃ l e l', doc.edges = l ++ e :: l' ∧ (∀ x ∈ l, CanDraw x) ∧ e.pathPoints = none ∧ e.sourceId = id) := by
  rw [render_eq]
  cases hu : unplaced doc with
  | cons x xs => simp
  | nil =>
    simp only [List.head?_nil, reduceCtorEq, false_or, true_and]
    have h := drawEdges_error doc.edges (.invalidLayout id)
    constructor
    · intro h1
      have : drawEdges doc.edges = .error (.invalidLayout id) := by
        cases h2 : drawEdges doc.edges with
        | error y => rw [h2] at h1; simpa using h1
        | ok y => rw [h2] at h1; cases h1
      obtain ⟨l, e, l', h3, h4, h5⟩ := h.mp this
      have h6 := ((drawEdge_cases e).2.1 id).mp h5
      exact ⟨l, e, l', h3, h4, h6.1, h6.2⟩
    · rintro ⟨l, e, l', h3, h4, h5, h6⟩
      rw [h.mpr ⟨l, e, l', h3, h4, ((drawEdge_cases e).2.1 id).mpr ⟨h5, h6⟩⟩]

/-- `render` panics exactly if all tables and lines are placed and the first edge that cannot be drawn has a path; the
panic is then that of its path (see C46). -/
theorem C42_panic_exact (v : Option Rect) (doc : Document) (p : Panic) :
    render v doc = .error (.panic p) ↔
      unplaced doc = [] ∧ ∃ l e l' ps, doc.edges = l ++ e :: l' ∧ (∀ x ∈ l, CanDraw x) ∧ e.pathPoints = some ps ∧
        pathData ps = .error p := by
  rw [render_eq]
  cases hu : unplaced doc with
  | cons x xs => simp
  | nil =>
    simp only [List.head?_nil, true_and]
    have h := drawEdges_error doc.edges (.panic p)
    constructor
    · intro h1
      have : drawEdges doc.edges = .error (.panic p) := by
        cases h2 : drawEdges doc.edges with
        | error y => rw [h2] at h1; simpa using h1
        | ok y => rw [h2] at h1; cases h1
      obtain ⟨l, e, l', h3, h4, h5⟩ := h.mp this
      obtain ⟨ps, h6, h7⟩ := ((drawEdge_cases e).2.2 p).mp h5
      exact ⟨l, e, l', ps, h3, h4, h6, h7⟩
    · rintro ⟨l, e, l', ps, h3, h4, h5, h6⟩
      rw [h.mpr ⟨l, e, l', h3, h4, ((drawEdge_cases e).2.2 p).mpr ⟨ps, h5, h6⟩⟩]

/-- `render` succeeds exactly if all tables and lines are placed and all edges can be drawn. -/
theorem C42_ok_exact (v : Option Rect) (doc : Document) :
    (∃ el, render v doc = .ok el) ↔ unplaced doc = [] ∧ ∀ e ∈ doc.edges, CanDraw e := by
  rw [render_eq]
  cases hu : unplaced doc with
  | cons x xs => simp
  | nil =>
    simp only [List.head?_nil, true_and]
    constructor
    · rintro ⟨el, h⟩ e he
      cases h2 : drawEdges doc.edges with
      | error y => rw [h2] at h; cases h
      | ok y =>
        obtain ⟨bs, h3, -⟩ := (drawEdges_ok _ _).mp h2
        obtain ⟨b, -, hb⟩ : ∃ b ∈ bs, drawEdgeConnection e = .ok b := by
          clear h h2 hu
          generalize doc.edges = l at h3 he
          induction h3 with
          | nil => cases he
          | cons h4 _ ih =>
            rw [List.mem_cons] at he
            rcases he with rfl | he
            · exact ⟨_, by simp, h4⟩
            · obtain ⟨b, hb, h5⟩ := ih he
              exact ⟨b, by simp [hb], h5⟩
        exact (drawEdge_cases e).1.mp ⟨b, hb⟩
    · intro h
      cases h2 : drawEdges doc.edges with
      | ok y => exact ⟨_, rfl⟩
      | error x =>
        obtain ⟨l, e, l', h3, -, h4⟩ := (drawEdges_error _ _).mp h2
        obtain ⟨els, h5⟩ := (drawEdge_cases e).1.mpr (h e (by rw [h3]; simp))
        rw [h5] at h4; cases h4

/-- The layout steps place everything that is drawn. -/
theorem unplaced_laidOut {doc : Document} (hd : Tabular doc) : unplaced (laidOut doc) = [] := by
  unfold unplaced
  rw [List.filter_eq_nil_iff]
  intro i hi
  have hmem : i ∈ tables doc ++ (tables doc).flatMap (childrenOf doc) := by
    rw [List.mem_append, List.mem_flatMap] at hi ⊢
    rcases hi with hi | ⟨t, ht, hi⟩
    · rw [shownTables, List.mem_filter, tables_laidOut] at hi
      exact Or.inl hi.1
    · rw [shownTables, List.mem_filter, tables_laidOut] at ht
      rw [shownLines, List.mem_filter, childrenOf_laidOut] at hi
      exact Or.inr ⟨t, ht.1, hi.1⟩
  rw [rectOf_laidOut]
  rw [List.mem_append, List.mem_flatMap] at hmem
  rcases hmem with ht | ⟨t, ht, hl⟩
  · obtain ⟨k, hk⟩ := List.getElem?_of_mem ht
    rw [rectOf_table hd k i hk]; simp
  · obtain ⟨k, hk⟩ := List.getElem?_of_mem ht
    obtain ⟨j, hj⟩ := List.getElem?_of_mem hl
    rw [rectOf_line hd k j t i hk hj]; simp

theorem unplaced_congr {doc doc' : Document} (hn : doc'.nodes = doc.nodes) (hb : doc'.bodyId = doc.bodyId) :
    unplaced doc' = unplaced doc := by
  unfold unplaced shownTables shownLines tables childrenOf rectOf isTable isLine
  rw [hn, hb]

/-- **C42**, after the three layout steps `InvalidLayout` is never returned: every drawable document is drawn, unless the
renderer panics because of a path with one point or a turnaround (C40, C41, C46). -/
theorem C42_never_after_layout {q : Queue} {QI : List Entry → Prop} (hq : q.Lawful QI) (doc : Document) (hd : Drawable doc)
    (hsize : (placeNodes doc).2.size.height ≤ 1000000000) {doc' : Document} {g' : RouteGraph}
    (h : drawEdgePath q (laidOut doc) .new = .ok (doc', g')) (v : Option Rect) (id : NodeId) :
    render v doc' ≠ .error (.invalidLayout id) := by
  obtain ⟨doc2, g2, h1, hn, hb, -, hps⟩ := C32_routing_never_panics hq doc hd hsize
  rw [h1] at h
  simp only [Except.ok.injEq, Prod.mk.injEq] at h
  obtain ⟨rfl, rfl⟩ := h
  intro herr
  have hu : unplaced doc2 = [] := by
    rw [unplaced_congr hn (by rw [hb, (laidOut_rest doc).2.1]), unplaced_laidOut hd.tabular]
  rcases (C42_invalid_layout_exact v doc2 id).mp herr with h2 | ⟨-, l, e, l', h2, -, h3, -⟩
  · rw [hu] at h2; cases h2
  · obtain ⟨ps, h4, -⟩ := hps e (by rw [h2]; simp)
    rw [h3] at h4; cases h4

/-- An unplaced table; the error names it. -/
example : let doc : Document := ⟨[⟨none, none, [], .body, [1, 2]⟩, ⟨some ⟨0, 0⟩, some ⟨1, 1⟩, [], .record {}, []⟩,
      ⟨none, none, [], .record {}, []⟩], [], 0⟩
    unplaced doc = [2] ∧ (match render none doc with | .error (.invalidLayout id) => some id | _ => none) = some 2 := by
  decide +kernel

/-! ## C43 -/

/-- The element is a rectangle with the geometry of `r`. -/
def Spec.IsRect (e : Element) (r : Rect) : Prop :=
  e.name = c!"rect" ∧ e.attr c!"x" = some (.num r.origin.x) ∧ e.attr c!"y" = some (.num r.origin.y) ∧
    e.attr c!"width" = some (.num r.size.width) ∧ e.attr c!"height" = some (.num r.size.height)

/-- The element has the colour as value of the attribute (no value if there is no colour). -/
def Spec.HasColor (e : Element) (k : Str) (c : Option WebColor) : Prop := e.attr k = c.map fun c => .str c.display

/-- The element is the given text, written at the point in the given style; `anchor` tells which end of the text is at
the point. -/
structure Spec.IsText (e : Element) (s : TextSpan) (p : Point) (anchor : Str) : Prop where
  name : e.name = c!"text"
  text : e.text = some s.text
  x : e.attr c!"x" = some (.num p.x)
  y : e.attr c!"y" = some (.num p.y)
  anchor : e.attr c!"text-anchor" = some (.str anchor)
  baseline : e.attr c!"dominant-baseline" = some (.str c!"middle")
  color : HasColor e c!"fill" s.color
  family : e.attr c!"font-family" = s.fontFamily.map fun f => .str f.display
  weight : e.attr c!"font-weight" = s.fontWeight.map fun f => .str f.display
  size : e.attr c!"font-size" = s.fontSize.map fun f => .str f.display

/-- How a line of a table is shown in the rectangle `r`: the background if there is a colour, clipped to the table; a line
at the top unless it is the first line; the title at the left, the subtitle ending at four fifths of the width, the badge
at the right on a circle: all of them at half the height. -/
structure Spec.ShowsLine (clip : Str) (first : Bool) (f : FieldShape) (r : Rect) (els : List Element) : Prop where
  parts : ∃ (bg sep sub badge : List Element) (title : Element), els = bg ++ sep ++ [title] ++ sub ++ badge ∧
    (match f.bgColor with
      | none => bg = []
      | some c => ∃ b, bg = [b] ∧ IsRect b r ∧ HasColor b c!"fill" (some c) ∧
          b.attr c!"clip-path" = some (.str (c!"url(#" ++ clip ++ c!")"))) ∧
    (if first then sep = [] else ∃ b, sep = [b] ∧ b.name = c!"line" ∧
        b.attr c!"x1" = some (.num r.origin.x) ∧ b.attr c!"y1" = some (.num r.origin.y) ∧
        b.attr c!"x2" = some (.num (r.origin.x + r.size.width)) ∧ b.attr c!"y2" = some (.num r.origin.y) ∧
        HasColor b c!"stroke" f.borderColor) ∧
    IsText title f.title ⟨r.origin.x + 12, r.origin.y + r.size.height / 2⟩ c!"start" ∧
    (match f.subtitle with
      | none => sub = []
      | some s => ∃ b, sub = [b] ∧
          IsText b s ⟨r.origin.x + 4 * r.size.width / 5, r.origin.y + r.size.height / 2⟩ c!"end") ∧
    (match f.badge with
      | none => badge = []
      | some b => ∃ (circle : List Element) (t : Element), badge = circle ++ [t] ∧
          (let radius := r.size.height / 2 - 6
           let centre : Point := ⟨r.origin.x + r.size.width - 12 - radius, r.origin.y + r.size.height / 2⟩
           (match b.bgColor with
            | none => circle = []
            | some c => ∃ e, circle = [e] ∧ e.name = c!"circle" ∧ e.attr c!"cx" = some (.num centre.x) ∧
                e.attr c!"cy" = some (.num centre.y) ∧ e.attr c!"r" = some (.num radius) ∧ HasColor e c!"fill" (some c)) ∧
           ∃ s : TextSpan, s.text = b.text ∧ s.color = b.color ∧ IsText t s centre c!"middle"))

/-- How table number `k` is shown: its rectangle, then its lines in order. -/
def Spec.ShowsTable (doc : Document) (tk : NodeId × Nat) (els : List Element) : Prop :=
  ∃ (n : NodeData) (rec : RecordShape) (r : Rect) (b : Element) (lines : List (List Element)),
    doc.nodes[tk.1]? = some n ∧ n.kind = .record rec ∧ rectOf doc tk.1 = some r ∧ els = b :: lines.flatten ∧
    IsRect b r ∧ HasColor b c!"fill" rec.bgColor ∧ HasColor b c!"stroke" rec.borderColor ∧
    List.Forall₂ (fun (li : NodeId × Nat) l => ∃ (ln : NodeData) (f : FieldShape) (lr : Rect), doc.nodes[li.1]? = some ln ∧
        ln.kind = .field f ∧ rectOf doc li.1 = some lr ∧ ShowsLine (clipPathId tk.2) (li.2 == 0) f lr l)
      ((childrenOf doc tk.1).zipIdx.filter fun li => isLine doc li.1) lines

/-- How an edge is shown: its path, and circles at the two ends. -/
def Spec.ShowsEdge (e : EdgeData) (els : List Element) : Prop :=
  ∃ (ps : List Point) (d : List PathCommand) (a b : Point) (p c1 c2 : Element), e.pathPoints = some ps ∧ pathData ps = .ok d ∧
    ps.head? = some a ∧ ps.getLast? = some b ∧ els = [p, c1, c2] ∧
    p.name = c!"path" ∧ p.attr c!"d" = some (.path d) ∧
    (∀ c q, (c, q) ∈ [(c1, a), (c2, b)] → c.name = c!"circle" ∧ c.attr c!"cx" = some (.num q.x) ∧
      c.attr c!"cy" = some (.num q.y) ∧ c.attr c!"r" = some (.num 4)) ∧
    ∀ x ∈ els, x.text = none ∧ x.attr c!"clip-path" = none

theorem isText_drawText (s : TextSpan) (p : Point) (a : SVGAnchor) : IsText (drawText s p a) s p a.textAnchor := by
  obtain ⟨t, c, ff, fw, fs⟩ := s
  cases c <;> cases ff <;> cases fw <;> cases fs <;> constructor <;> rfl

theorem showsLine_drawField (clip : Str) (i : Nat) (f : FieldShape) (r : Rect) :
    ShowsLine clip (i == 0) f r (drawField clip i f r) := by
  refine ⟨_, _, _, _, _, rfl, ?_, ?_, ?_, ?_, ?_⟩
  · cases f.bgColor with
    | none => rfl
    | some c => exact ⟨_, rfl, ⟨rfl, rfl, rfl, rfl, rfl⟩, rfl, rfl⟩
  · cases i with
    | zero => rfl
    | succ i =>
      simp only [Nat.add_one_pos, gt_iff_lt, if_true, Nat.add_one_ne_zero, beq_iff_eq, if_false]
      refine ⟨_, rfl, rfl, ?_⟩
      cases f.borderColor <;> exact ⟨rfl, rfl, rfl, rfl, rfl⟩
  · exact isText_drawText _ _ _
  · cases f.subtitle with
    | none => rfl
    | some s =>
      refine ⟨_, rfl, ?_⟩
      have : r.origin.x + 4 * r.size.width / 5 = r.minX + r.width / 5 * 4 := by
        simp only [Rect.minX, Rect.width]; ring
      rw [this]
      exact isText_drawText _ _ _
  · cases f.badge with
    | none => rfl
    | some b =>
      refine ⟨_, _, rfl, ?_, ?_⟩
      · cases b.bgColor with
        | none => rfl
        | some c => exact ⟨_, rfl, rfl, rfl, rfl, rfl, rfl⟩
      · exact ⟨_, rfl, rfl, isText_drawText _ _ _⟩

theorem flatMap_blocks {α β : Type} (l : List α) (p : α → Bool) (f : α → List β) (h : ∀ a ∈ l, p a = false → f a = []) :
    l.flatMap f = ((l.filter p).map f).flatten := by
  induction l with
  | nil => rfl
  | cons a l ih =>
    rw [List.flatMap_cons, ih fun b hb => h b (by simp [hb]), List.filter_cons]
    cases hp : p a with
    | true => simp
    | false => simp [h a (by simp) hp]

theorem forall₂_map_right {α β : Type} (R : α → β → Prop) (f : α → β) (l : List α) (h : ∀ a ∈ l, R a (f a)) :
    List.Forall₂ R l (l.map f) := by
  induction l with
  | nil => exact .nil
  | cons a l ih => exact .cons (h a (by simp)) (ih fun b hb => h b (by simp [hb]))

theorem mem_zipIdx_fst {α : Type} {l : List α} {i : Nat} {p : α × Nat} (h : p ∈ l.zipIdx i) : p.1 ∈ l := by
  have : p.1 ∈ (l.zipIdx i).map Prod.fst := List.mem_map.mpr ⟨p, h, rfl⟩
  rwa [List.zipIdx_map_fst] at this

theorem unplaced_nil {doc : Document} (h : unplaced doc = []) :
    (∀ t ∈ tables doc, isTable doc t = true → ∃ r, rectOf doc t = some r) ∧
    ∀ t ∈ tables doc, isTable doc t = true → ∀ l ∈ childrenOf doc t, isLine doc l = true → ∃ r, rectOf doc l = some r := by
  unfold unplaced at h
  rw [List.filter_eq_nil_iff] at h
  have key : ∀ i, i ∈ shownTables doc ++ (shownTables doc).flatMap (shownLines doc) → ∃ r, rectOf doc i = some r := by
    intro i hi
    have := h i hi
    cases hr : rectOf doc i with
    | none => simp [hr] at this
    | some r => exact ⟨r, rfl⟩
  constructor
  · intro t ht h1
    exact key t (List.mem_append.mpr (Or.inl (List.mem_filter.mpr ⟨ht, h1⟩)))
  · intro t ht h1 l hl h2
    exact key l (List.mem_append.mpr (Or.inr (List.mem_flatMap.mpr
      ⟨t, List.mem_filter.mpr ⟨ht, h1⟩, List.mem_filter.mpr ⟨hl, h2⟩⟩)))

theorem isTable_kind {doc : Document} {t : NodeId} (h : isTable doc t = true) :
    ∃ n rec, doc.nodes[t]? = some n ∧ n.kind = .record rec := by
  unfold isTable at h
  cases hn : doc.nodes[t]? with
  | none => rw [hn] at h; simp at h
  | some n =>
    rw [hn] at h
    simp only at h
    cases hk : n.kind <;> rw [hk] at h <;> simp at h
    exact ⟨n, _, rfl, hk⟩

theorem isLine_kind {doc : Document} {t : NodeId} (h : isLine doc t = true) :
    ∃ n f, doc.nodes[t]? = some n ∧ n.kind = .field f := by
  unfold isLine at h
  cases hn : doc.nodes[t]? with
  | none => rw [hn] at h; simp at h
  | some n =>
    rw [hn] at h
    simp only at h
    cases hk : n.kind <;> rw [hk] at h <;> simp at h
    exact ⟨n, _, rfl, hk⟩

theorem tableEls_not {doc : Document} {p : NodeId × Nat} (h : isTable doc p.1 = false) : tableEls doc p = [] := by
  unfold tableEls
  unfold isTable at h
  cases hn : doc.nodes[p.1]? with
  | none => rfl
  | some n =>
    rw [hn] at h
    simp only at h ⊢
    cases hk : n.kind <;> rw [hk] at h <;> simp at h ⊢

theorem lineEls_not {doc : Document} {clip : Str} {p : NodeId × Nat} (h : isLine doc p.1 = false) : lineEls doc clip p = [] := by
  unfold lineEls
  unfold isLine at h
  cases hn : doc.nodes[p.1]? with
  | none => rfl
  | some n =>
    rw [hn] at h
    simp only at h ⊢
    cases hk : n.kind <;> rw [hk] at h <;> simp at h ⊢

theorem showsTable_tableEls {doc : Document} (hu : unplaced doc = []) {p : NodeId × Nat} (hp : p.1 ∈ tables doc)
    (ht : isTable doc p.1 = true) : ShowsTable doc p (tableEls doc p) := by
  obtain ⟨n, rec, hn, hk⟩ := isTable_kind ht
  obtain ⟨r, hr⟩ := (unplaced_nil hu).1 _ hp ht
  have hc : childrenOf doc p.1 = n.children := by simp [childrenOf, hn]
  refine ⟨n, rec, r, leaf c!"rect" (recordRectAttrs r.origin r.size ++ colorAttr c!"stroke" rec.borderColor ++ colorAttr c!"fill" rec.bgColor),
    ((childrenOf doc p.1).zipIdx.filter fun li => isLine doc li.1).map (lineEls doc (clipPathId p.2)),
    hn, hk, hr, ?_, ?_, ?_, ?_, ?_⟩
  · simp only [tableEls, hn, hk, hr]
    congr 1
    rw [hc]
    exact flatMap_blocks _ _ _ fun a _ ha => lineEls_not ha
  · exact ⟨rfl, rfl, rfl, rfl, rfl⟩
  · cases rec.bgColor <;> cases rec.borderColor <;> rfl
  · cases rec.bgColor <;> cases rec.borderColor <;> rfl
  · apply forall₂_map_right
    intro li hli
    rw [List.mem_filter] at hli
    obtain ⟨ln, f, hln, hf⟩ := isLine_kind hli.2
    obtain ⟨lr, hlr⟩ := (unplaced_nil hu).2 _ hp ht _ (mem_zipIdx_fst hli.1) hli.2
    refine ⟨ln, f, lr, hln, hf, hlr, ?_⟩
    have : lineEls doc (clipPathId p.2) li = drawField (clipPathId p.2) li.2 f lr := by
      simp only [lineEls, hln, hf, hlr]
    rw [this]
    exact showsLine_drawField _ _ _ _

theorem showsEdge_of_ok {e : EdgeData} {els : List Element} (h : drawEdgeConnection e = .ok els) : ShowsEdge e els := by
  obtain ⟨ps, d, a, b, h1, h2, h3, h4, rfl⟩ := drawEdge_ok h
  refine ⟨ps, d, a, b, _, _, _, h1, h2, h3, h4, rfl, rfl, rfl, ?_, ?_⟩
  · intro c q hc
    simp only [List.mem_cons, Prod.mk.injEq, List.not_mem_nil, or_false] at hc
    rcases hc with ⟨rfl, rfl⟩ | ⟨rfl, rfl⟩ <;> exact ⟨rfl, rfl, rfl, rfl⟩
  · intro x hx
    simp only [List.mem_cons, List.not_mem_nil, or_false] at hx
    rcases hx with rfl | rfl | rfl <;> exact ⟨rfl, rfl⟩

theorem render_ok {v : Option Rect} {doc : Document} {el : Element} (h : render v doc = .ok el) :
    unplaced doc = [] ∧ ∃ bs, List.Forall₂ (fun e b => drawEdgeConnection e = .ok b) doc.edges bs ∧
      el = rootOf v doc bs.flatten := by
  rw [render_eq] at h
  cases hu : unplaced doc with
  | cons x xs => rw [hu] at h; cases h
  | nil =>
    rw [hu] at h
    simp only [List.head?_nil] at h
    cases h2 : drawEdges doc.edges with
    | error y => rw [h2] at h; cases h
    | ok y =>
      rw [h2] at h
      simp only [Except.ok.injEq] at h
      obtain ⟨bs, h3, rfl⟩ := (drawEdges_ok _ _).mp h2
      exact ⟨rfl, bs, h3, h.symm⟩

/-- **C43.** The SVG has, after the background and the definitions, for each table in order its rectangle and then its
lines in order, and then for each edge in order a path and the circles at its ends, and nothing else. -/
theorem C43_shows_document (v : Option Rect) (doc : Document) (el : Element) (h : render v doc = .ok el) :
    el.name = c!"svg" ∧ el.attr c!"viewBox" = v.map (fun v => .nums [v.origin.x, v.origin.y, v.size.width, v.size.height]) ∧
    ∃ (bg defs : Element) (tableEls edgeEls : List (List Element)),
      el.children = bg :: defs :: (tableEls.flatten ++ edgeEls.flatten) ∧
      bg.name = c!"rect" ∧ bg.attr c!"width" = some (.str c!"100%") ∧ bg.attr c!"height" = some (.str c!"100%") ∧
      bg.text = none ∧ defs.name = c!"defs" ∧ defs.text = none ∧
      List.Forall₂ (ShowsTable doc) ((tables doc).zipIdx.filter fun tk => isTable doc tk.1) tableEls ∧
      List.Forall₂ ShowsEdge doc.edges edgeEls := by
  obtain ⟨hu, bs, hbs, rfl⟩ := render_ok h
  refine ⟨rfl, by cases v <;> rfl, bgEl, defsEl doc, ((tables doc).zipIdx.filter fun tk => isTable doc tk.1).map (tableEls doc), bs, ?_,
    ?_, ?_, ?_, ?_, ?_, ?_, ?_, ?_⟩
  · simp only [rootOf, Element.children]
    rw [flatMap_blocks _ (fun tk => isTable doc tk.1) _ fun a _ ha => tableEls_not ha]
    rfl
  · rfl
  · rfl
  · rfl
  · rfl
  · rfl
  · rfl
  · apply forall₂_map_right
    intro tk htk
    rw [List.mem_filter] at htk
    exact showsTable_tableEls hu (mem_zipIdx_fst htk.1) htk.2
  · exact hbs.imp fun _ _ => showsEdge_of_ok

/-! ### The texts -/

/-- The texts of a list of elements, in order. -/
def Spec.textsOf (els : List Element) : List Str := els.filterMap (·.text)

/-- The texts of a line. -/
def Spec.Line.texts (l : Line) : List Str := l.title :: (l.subtitle.toList ++ l.badge.toList)

theorem textsOf_append (a b : List Element) : textsOf (a ++ b) = textsOf a ++ textsOf b := List.filterMap_append

theorem textsOf_flatten (ls : List (List Element)) : textsOf ls.flatten = ls.flatMap textsOf := by
  induction ls with
  | nil => rfl
  | cons a ls ih => rw [List.flatten_cons, textsOf_append, ih, List.flatMap_cons]

theorem textsOf_drawField (clip : Str) (i : Nat) (f : FieldShape) (r : Rect) :
    textsOf (drawField clip i f r) = (⟨f.title.text, f.subtitle.map (·.text), f.badge.map (·.text)⟩ : Line).texts := by
  obtain ⟨t, s, b, bg, bc⟩ := f
  have hb : ∀ b : Option Badge, ∀ x : Rat, ∀ y z : Rat, textsOf (match b with
      | some b => (match b.bgColor with
         | some bg => [leaf c!"circle" [(c!"cx", .num x), (c!"cy", .num y), (c!"r", .num z), (c!"fill", .str bg.display)]]
         | none => []) ++ [drawText b.intoTextSpan ⟨x, y⟩ .middle]
      | none => []) = (b.map (·.text)).toList := by
    intro b x y z
    cases b with
    | none => rfl
    | some b => obtain ⟨bt, bcol, bbg⟩ := b; cases bbg <;> rfl
  unfold drawField
  simp only [textsOf_append]
  refine (congrArg₂ (· ++ ·) rfl (hb b _ _ _)).trans ?_
  cases bg <;> cases i <;> cases s <;> rfl

theorem lines_texts {doc : Document} (clip : Str) (l : List NodeId) (ls : List Line) (i : Nat)
    (h : l.mapM (lineOf doc) = some ls) (hr : ∀ x ∈ l, isLine doc x = true → ∃ r, rectOf doc x = some r) :
    textsOf ((l.zipIdx i).flatMap (lineEls doc clip)) = ls.flatMap Line.texts := by
  induction l generalizing ls i with
  | nil => simp at h; subst h; rfl
  | cons x l ih =>
    rw [List.mapM_cons] at h
    cases hx : lineOf doc x with
    | none => rw [hx] at h; cases h
    | some y =>
      cases hl : l.mapM (lineOf doc) with
      | none => rw [hx, hl] at h; cases h
      | some ys =>
        rw [hx, hl] at h
        simp only [Option.bind_eq_bind, Option.bind_some, Option.pure_def, Option.some.injEq] at h
        subst h
        rw [List.zipIdx_cons, List.flatMap_cons, textsOf_append, ih ys (i + 1) hl fun z hz => hr z (by simp [hz]), List.flatMap_cons]
        congr 1
        unfold lineOf at hx
        cases hn : doc.nodes[x]? with
        | none => rw [hn] at hx; cases hx
        | some n =>
          rw [hn] at hx
          simp only at hx
          cases hk : n.kind with
          | body => rw [hk] at hx; cases hx
          | record _ => rw [hk] at hx; cases hx
          | field f =>
            rw [hk] at hx
            simp only [Option.some.injEq] at hx
            subst hx
            obtain ⟨r, hr⟩ := hr x (by simp) (by simp [isLine, hn, hk])
            simp only [lineEls, hn, hk, hr]
            exact textsOf_drawField _ _ _ _

theorem tables_texts {doc : Document} (l : List NodeId) (ts : List (List Line)) (i : Nat)
    (h : l.mapM (tableOf doc) = some ts) (hr : ∀ x ∈ l, isTable doc x = true → ∃ r, rectOf doc x = some r)
    (hl : ∀ t ∈ l, isTable doc t = true → ∀ x ∈ childrenOf doc t, isLine doc x = true → ∃ r, rectOf doc x = some r) :
    textsOf ((l.zipIdx i).flatMap (tableEls doc)) = ts.flatMap fun ls => ls.flatMap Line.texts := by
  induction l generalizing ts i with
  | nil => simp at h; subst h; rfl
  | cons x l ih =>
    rw [List.mapM_cons] at h
    cases hx : tableOf doc x with
    | none => rw [hx] at h; cases h
    | some y =>
      cases hm : l.mapM (tableOf doc) with
      | none => rw [hx, hm] at h; cases h
      | some ys =>
        rw [hx, hm] at h
        simp only [Option.bind_eq_bind, Option.bind_some, Option.pure_def, Option.some.injEq] at h
        subst h
        rw [List.zipIdx_cons, List.flatMap_cons, textsOf_append, ih ys (i + 1) hm (fun z hz => hr z (by simp [hz]))
          (fun z hz => hl z (by simp [hz])), List.flatMap_cons]
        congr 1
        unfold tableOf at hx
        cases hn : doc.nodes[x]? with
        | none => rw [hn] at hx; cases hx
        | some n =>
          rw [hn] at hx
          simp only at hx
          cases hk : n.kind with
          | body => rw [hk] at hx; cases hx
          | field _ => rw [hk] at hx; cases hx
          | record rec =>
            rw [hk] at hx
            simp only at hx
            have ht : isTable doc x = true := by simp [isTable, hn, hk]
            obtain ⟨r, hr⟩ := hr x (by simp) ht
            have hl := hl x (by simp) ht
            simp only [childrenOf, hn] at hl
            simp only [tableEls, hn, hk, hr]
            have := lines_texts (clipPathId i) n.children y 0 hx hl
            rw [← this]
            rfl

theorem tablesOf_congr {doc doc' : Document} (hb : doc'.bodyId = doc.bodyId)
    (h : ∀ i : NodeId, (doc'.nodes[i]?).map (fun n => (n.kind, n.children)) = (doc.nodes[i]?).map fun n => (n.kind, n.children)) :
    tablesOf doc' = tablesOf doc := by
  have hl : lineOf doc' = lineOf doc := by
    funext i
    have := h i
    unfold lineOf
    cases h1 : doc'.nodes[i]? <;> cases h2 : doc.nodes[i]? <;> rw [h1, h2] at this <;> simp at this
    simp only [this.1]
  have ht : tableOf doc' = tableOf doc := by
    funext i
    have := h i
    unfold tableOf
    cases h1 : doc'.nodes[i]? <;> cases h2 : doc.nodes[i]? <;> rw [h1, h2] at this <;> simp at this
    simp only [this.1, this.2, hl]
  unfold tablesOf
  have := h doc.bodyId
  rw [hb]
  cases h1 : doc'.nodes[doc.bodyId]? <;> cases h2 : doc.nodes[doc.bodyId]? <;> rw [h1, h2] at this <;> simp at this
  simp only [this.2, ht]

theorem laidOut_kind (doc : Document) (i : NodeId) :
    ((laidOut doc).nodes[i]?).map (fun n => (n.kind, n.children)) = (doc.nodes[i]?).map fun n => (n.kind, n.children) := by
  have h1 := congrArg (fun l => l[i]?) (C24_touches_positions_only doc).1
  simp only [List.getElem?_map] at h1
  rw [laidOut, placeTerminalPorts_eq, (addPortsAll_getElem _ _ i).1]
  cases h2 : (placeNodes doc).1.nodes[i]? <;> cases h3 : doc.nodes[i]? <;> rw [h2, h3] at h1 <;> simp [forgetPos] at h1 ⊢
  rw [addPorts_eq]
  exact ⟨h1.2.1, h1.2.2⟩

/-- **C43** for documents: the texts of the SVG, in order, are the texts of the lines of the tables. -/
theorem C43_texts (v : Option Rect) (doc : Document) (ts : List (List Line)) (ht : tablesOf doc = some ts) (el : Element)
    (h : render v doc = .ok el) : textsOf el.children = ts.flatMap fun ls => ls.flatMap Line.texts := by
  obtain ⟨hu, bs, hbs, rfl⟩ := render_ok h
  have h1 : textsOf bs.flatten = [] := by
    rw [textsOf_flatten, List.flatMap_eq_nil_iff]
    intro b hb
    clear h hu ht
    generalize doc.edges = l at hbs
    induction hbs with
    | nil => cases hb
    | cons h1 _ ih =>
      rw [List.mem_cons] at hb
      rcases hb with rfl | hb
      · obtain ⟨_, _, _, _, _, _, _, _, _, _, _, _, _, _, _, h2⟩ := showsEdge_of_ok h1
        rw [textsOf, List.filterMap_eq_nil_iff]
        exact fun x hx => (h2 x hx).1
      · exact ih hb
  have htab : (tables doc).mapM (tableOf doc) = some ts := by
    unfold tablesOf at ht
    unfold tables childrenOf
    cases hb : doc.nodes[doc.bodyId]? with
    | none => rw [hb] at ht; cases ht
    | some b => rw [hb] at ht; exact ht
  have h2 := tables_texts (tables doc) ts 0 htab (unplaced_nil hu).1 (unplaced_nil hu).2
  rw [← h2]
  show textsOf (_ :: _ :: ((tables doc).zipIdx.flatMap (tableEls doc) ++ bs.flatten)) = _
  rw [show ∀ a b c, textsOf (a :: b :: c) = textsOf [a, b] ++ textsOf c from fun a b c => textsOf_append [a, b] c,
    textsOf_append, h1, List.append_nil]
  rfl

/-- **C43** for modules: whenever a module is drawn, the texts of the SVG are, table by table and line by line, the names,
types and keys of the module's definitions, and there is one path for every relation whose ends are defined before it. -/
theorem C43_module {q : Queue} {QI : List Entry → Prop} (hq : q.Lawful QI) (m : Module)
    (hsize : (placeNodes m.intoMir).2.size.height ≤ 1000000000) (el : Element) (h : drawModule q m = .ok el) :
    textsOf el.children = (definitions m.entries).flatMap (fun d => (expectedLines d).flatMap Line.texts) ∧
    (el.children.filter fun e => e.name == c!"path").length = (connections [] m.entries).length := by
  obtain ⟨doc', g', h1, hn, hb, he, -⟩ := C32_routing_never_panics hq m.intoMir (drawable_intoMir m) hsize
  have h2 : render (some (placeNodes m.intoMir).2) doc' = .ok el := by
    have : drawModule q m = (match drawEdgePath q (laidOut m.intoMir) .new with
      | .error p => .error (.panic p)
      | .ok (doc, _) => render (some (placeNodes m.intoMir).2) doc) := rfl
    rw [this, h1] at h
    exact h
  constructor
  · have ht : tablesOf doc' = some ((definitions m.entries).map expectedLines) := by
      rw [← C15_tables_faithful m]
      apply tablesOf_congr hb
      intro i
      rw [hn]
      exact laidOut_kind _ _
    rw [C43_texts _ _ _ ht el h2, List.flatMap_map]
  · obtain ⟨hu, bs, hbs, rfl⟩ := render_ok h2
    have hbl : ∀ bs : List (List Element), ∀ es : List EdgeData,
        List.Forall₂ (fun e b => drawEdgeConnection e = .ok b) es bs →
        (bs.flatten.filter fun e => e.name == c!"path").length = es.length := by
      intro bs es hf
      induction hf with
      | nil => rfl
      | cons h3 _ ih =>
        obtain ⟨_, _, _, _, _, _, _, _, rfl⟩ := drawEdge_ok h3
        rw [List.flatten_cons, List.filter_append, List.length_append, ih, List.length_cons, Nat.add_comm]
        rfl
    have hline : ∀ clip i f r, (drawField clip i f r).filter (fun e => e.name == c!"path") = [] := by
      intro clip i f r
      obtain ⟨t, s, b, bg, bc⟩ := f
      rw [List.filter_eq_nil_iff]
      intro e he
      simp only [drawField, List.mem_append, List.mem_singleton] at he
      rcases he with (((he | he) | rfl) | he) | he
      · cases bg <;> simp at he; subst he; simp [leaf, Element.name]
      · split at he <;> simp at he; subst he; simp [leaf, Element.name]
      · simp [drawText, Element.name]
      · cases s <;> simp at he; subst he; simp [drawText, Element.name]
      · cases b with
        | none => simp at he
        | some b =>
          simp only [List.mem_append, List.mem_singleton] at he
          rcases he with he | rfl
          · split at he <;> simp at he; subst he; simp [leaf, Element.name]
          · simp [drawText, Element.name]
    have htab : ((tables doc').zipIdx.flatMap (tableEls doc')).filter (fun e => e.name == c!"path") = [] := by
      rw [List.filter_flatMap, List.flatMap_eq_nil_iff]
      intro p _
      unfold tableEls
      split
      · split
        · split
          · rw [List.filter_cons_of_neg (by simp [leaf, Element.name]), List.filter_flatMap, List.flatMap_eq_nil_iff]
            intro li _
            unfold lineEls
            split
            · split
              · split
                · exact hline _ _ _ _
                · rfl
              · rfl
            · rfl
          · rfl
        · rfl
      · rfl
    show ((_ :: _ :: ((tables doc').zipIdx.flatMap (tableEls doc') ++ bs.flatten)).filter _).length = _
    rw [List.filter_cons_of_neg (by simp [bgEl, leaf, Element.name]), List.filter_cons_of_neg (by simp [defsEl, Element.name]),
      List.filter_append, htab, List.nil_append, hbl _ _ hbs]
    have e1 := congrArg List.length he
    have e2 := congrArg List.length (C17_relations m).1
    simp only [List.length_map] at e1 e2
    rw [e1, e2]

/-! ## C44 -/

theorem clipPathId_inj {i j : Nat} (h : clipPathId i = clipPathId j) : i = j := by
  unfold clipPathId at h
  have := congrArg (fun s => Nat.ofDigitChars 10 s 0) (List.append_cancel_left h)
  simpa only [Nat.ofDigitChars_toDigits (show 1 < 10 by decide) (show 10 ≤ 10 by decide)] using this

theorem clipRef_drawField {clip : Str} {i : Nat} {f : FieldShape} {r : Rect} {e : Element} (he : e ∈ drawField clip i f r)
    {ref : AttrVal} (href : e.attr c!"clip-path" = some ref) : ref = .str (c!"url(#" ++ clip ++ c!")") := by
  obtain ⟨t, s, b, bg, bc⟩ := f
  have htext : ∀ (s : TextSpan) p a, (drawText s p a).attr c!"clip-path" = none := by
    intro s p a
    obtain ⟨_, c, ff, fw, fs⟩ := s
    cases c <;> cases ff <;> cases fw <;> cases fs <;> rfl
  simp only [drawField, List.mem_append, List.mem_singleton] at he
  rcases he with (((he | he) | rfl) | he) | he
  · cases bg <;> simp at he; subst he; cases href; rfl
  · split at he <;> simp at he; subst he; cases bc <;> cases href
  · rw [htext] at href; cases href
  · cases s <;> simp at he; subst he; rw [htext] at href; cases href
  · cases b with
    | none => simp at he
    | some b =>
      simp only [List.mem_append, List.mem_singleton] at he
      rcases he with he | rfl
      · split at he <;> simp at he; subst he; cases href
      · rw [htext] at href; cases href

/-- **C44.** The definitions are clip paths with pairwise different ids; every reference to a clip path, in the elements
drawn for a table, names one of them, which consists of a rectangle, the rectangle of the table; nothing else refers to a
clip path. -/
theorem C44_clip_paths (v : Option Rect) (doc : Document) (el : Element) (h : render v doc = .ok el) :
    ∃ (bg defs : Element) (tableEls edgeEls : List (List Element)),
      el.children = bg :: defs :: (tableEls.flatten ++ edgeEls.flatten) ∧ defs.name = c!"defs" ∧
      (∀ c ∈ defs.children, c.name = c!"clipPath") ∧
      (∃ ids : List Str, defs.children.map (·.attr c!"id") = ids.map (fun i => some (.str i)) ∧ ids.Nodup) ∧
      List.Forall₂ (fun t els => ∀ e ∈ els, ∀ ref, e.attr c!"clip-path" = some ref →
          ∃ c ∈ defs.children, ∃ id r x, c.attr c!"id" = some (.str id) ∧ ref = .str (c!"url(#" ++ id ++ c!")") ∧
            rectOf doc t = some r ∧ c.children = [x] ∧ IsRect x r) (shownTables doc) tableEls ∧
      (∀ e ∈ bg :: defs :: edgeEls.flatten, e.attr c!"clip-path" = none) := by
  obtain ⟨hu, bs, hbs, rfl⟩ := render_ok h
  have hpl := unplaced_nil hu
  refine ⟨bgEl, defsEl doc, ((tables doc).zipIdx.filter fun tk => isTable doc tk.1).map (tableEls doc), bs, ?_, rfl, ?_, ?_, ?_, ?_⟩
  · simp only [rootOf, Element.children]
    rw [flatMap_blocks _ (fun tk => isTable doc tk.1) _ fun a _ ha => tableEls_not ha]
    rfl
  · intro c hc
    simp only [defsEl, Element.children, List.mem_filterMap] at hc
    obtain ⟨p, -, hp⟩ := hc
    unfold clipOf at hp
    split at hp
    · cases hr : rectOf doc p.1 with
      | none => rw [hr] at hp; cases hp
      | some r => rw [hr] at hp; simp at hp; subst hp; rfl
    · cases hp
  · refine ⟨((tables doc).zipIdx.filter fun tk => isTable doc tk.1).map fun tk => clipPathId tk.2, ?_, ?_⟩
    · simp only [Element.children]
      have key : ∀ l : List (NodeId × Nat), (∀ p ∈ l, isTable doc p.1 = true → ∃ r, rectOf doc p.1 = some r) →
          (l.filterMap (clipOf doc)).map (·.attr c!"id") =
            ((l.filter fun tk => isTable doc tk.1).map fun tk => clipPathId tk.2).map fun i => some (.str i) := by
        intro l hl
        induction l with
        | nil => rfl
        | cons p l ih =>
          have ih := ih fun x hx => hl x (by simp [hx])
          rw [List.filterMap_cons, List.filter_cons]
          cases ht : isTable doc p.1 with
          | false =>
            have : clipOf doc p = none := by simp [clipOf, ht]
            rw [this]
            simpa using ih
          | true =>
            obtain ⟨r, hr⟩ := hl p (by simp) ht
            have : clipOf doc p = some (.mk c!"clipPath" [(c!"id", .str (clipPathId p.2))] [leaf c!"rect" (recordRectAttrs r.origin r.size)] none) := by
              simp [clipOf, ht, hr]
            rw [this]
            simp only [List.map_cons, ih, if_true]
            rfl
      exact key _ fun p hp ht => hpl.1 _ (mem_zipIdx_fst hp) ht
    · have h1 : ((tables doc).zipIdx.map Prod.snd).Nodup := by
        rw [List.zipIdx_map_snd]; exact List.nodup_range'
      have h2 : (((tables doc).zipIdx.filter fun tk => isTable doc tk.1).map Prod.snd).Nodup :=
        h1.sublist (List.filter_sublist.map _)
      have h3 := h2.map (f := clipPathId) fun a b hab => clipPathId_inj hab
      rwa [List.map_map] at h3
  · have hsh : shownTables doc = ((tables doc).zipIdx.filter fun tk => isTable doc tk.1).map Prod.fst := by
      unfold shownTables
      have : ∀ (l : List NodeId) (i : Nat), l.filter (isTable doc) = ((l.zipIdx i).filter fun tk => isTable doc tk.1).map Prod.fst := by
        intro l
        induction l with
        | nil => intro i; rfl
        | cons a l ih =>
          intro i
          rw [List.zipIdx_cons, List.filter_cons, List.filter_cons, ih (i + 1)]
          split <;> simp
      exact this _ 0
    rw [hsh, List.forall₂_map_left_iff]
    apply forall₂_map_right
    intro tk htk e he ref href
    rw [List.mem_filter] at htk
    obtain ⟨n, rec, hn, hk⟩ := isTable_kind htk.2
    obtain ⟨r, hr⟩ := hpl.1 _ (mem_zipIdx_fst htk.1) htk.2
    refine ⟨_, List.mem_filterMap.mpr ⟨tk, htk.1, by simp only [clipOf, htk.2, hr, if_true, Option.map_some]; rfl⟩, clipPathId tk.2, r, _, rfl, ?_, hr, rfl,
      ⟨rfl, rfl, rfl, rfl, rfl⟩⟩
    simp only [tableEls, hn, hk, hr, List.mem_cons, List.mem_flatMap] at he
    rcases he with rfl | ⟨li, -, he⟩
    · cases hb : rec.bgColor <;> cases hc : rec.borderColor <;> rw [hb, hc] at href <;> cases href
    · unfold lineEls at he
      split at he
      · split at he
        · split at he
          · exact clipRef_drawField he href
          · cases he
        · cases he
      · cases he
  · intro e he
    simp only [List.mem_cons, List.mem_flatten] at he
    rcases he with rfl | rfl | ⟨b, hb, he⟩
    · rfl
    · rfl
    · clear h hu hpl
      generalize doc.edges = l at hbs
      induction hbs with
      | nil => cases hb
      | cons h1 _ ih =>
        rw [List.mem_cons] at hb
        rcases hb with rfl | hb
        · obtain ⟨_, _, _, _, _, _, _, _, _, _, _, _, _, _, _, h2⟩ := showsEdge_of_ok h1
          exact (h2 e he).2
        · exact ih hb

/-- A drawn module with three tables and two relations: its texts, number of paths, and clip paths. -/
def drawnExample : Module :=
  ⟨none, [.definition ⟨c!"a", [⟨c!"x", .int, some .primaryKey⟩]⟩, .definition ⟨c!"b", [⟨c!"y", .uuid, none⟩]⟩,
    .definition ⟨c!"c", []⟩, .relation ⟨.field c!"a" c!"x", .field c!"b" c!"y"⟩, .relation ⟨.entity c!"c", .entity c!"b"⟩]⟩

set_option maxRecDepth 100000 in
example : (match drawModule BinHeap.queue drawnExample with
    | .ok el => some (textsOf el.children, (el.children.filter fun e => e.name == c!"path").length,
        el.children.flatMap fun e => e.children.map (·.attr c!"id"))
    | .error _ => none) =
    some ([c!"a", c!"x", c!"int", c!"PK", c!"b", c!"y", c!"uuid", c!"c"], 2,
      [some (.str c!"record-clip-path-0"), some (.str c!"record-clip-path-1"), some (.str c!"record-clip-path-2")]) := by
  decide +kernel

end Seiren
