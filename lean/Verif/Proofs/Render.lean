import Verif.Model.Renderer
import Verif.Spec.Layout
import Mathlib.Data.List.Forall2
/-! # What `render` computes -/

namespace Seiren
open Spec

/-! ## Specification -/

/-- The node is a table. -/
def Spec.isTable (doc : Document) (id : NodeId) : Bool :=
  match doc.nodes[id]? with
  | some n => match n.kind with
    | .record _ => true
    | _ => false
  | none => false

/-- The node is a line of a table. -/
def Spec.isLine (doc : Document) (id : NodeId) : Bool :=
  match doc.nodes[id]? with
  | some n => match n.kind with
    | .field _ => true
    | _ => false
  | none => false

/-- The tables to be drawn: the children of the root that are tables. -/
def Spec.shownTables (doc : Document) : List NodeId := (tables doc).filter (isTable doc)

/-- The lines to be drawn for a table. -/
def Spec.shownLines (doc : Document) (t : NodeId) : List NodeId := (childrenOf doc t).filter (isLine doc)

/-- The tables and lines to be drawn that have no position or no size, tables first. -/
def Spec.unplaced (doc : Document) : List NodeId :=
  (shownTables doc ++ (shownTables doc).flatMap (shownLines doc)).filter fun id => (rectOf doc id).isNone

/-- The edge has a path, and the path can be drawn (C46 says which paths can). -/
def Spec.CanDraw (e : EdgeData) : Prop := ∃ ps d, e.pathPoints = some ps ∧ pathData ps = .ok d

/-! ## Clip paths -/

/-- The clip path of a table. -/
def clipOf (doc : Document) (p : NodeId × Nat) : Option Element :=
  if isTable doc p.1 then (rectOf doc p.1).map fun r =>
    .mk c!"clipPath" [(c!"id", .str (clipPathId p.2))] [leaf c!"rect" (recordRectAttrs r.origin r.size)] none
  else none

theorem rectOf_none {doc : Document} {id : NodeId} {n : NodeData} (hn : doc.nodes[id]? = some n) :
    rectOf doc id = none ↔ n.origin = none ∨ n.size = none := by
  unfold rectOf
  rw [hn]
  cases ho : n.origin <;> cases hs : n.size <;> simp [ho, hs]

theorem clipPaths_eq (doc : Document) (l : List NodeId) (i : Nat) :
    clipPaths doc (l.zipIdx i) =
      match (l.filter fun id => isTable doc id && (rectOf doc id).isNone).head? with
      | some id => .error (.invalidLayout id)
      | none => .ok ((l.zipIdx i).filterMap (clipOf doc)) := by
  induction l generalizing i with
  | nil => rfl
  | cons id l ih =>
    rw [List.zipIdx_cons, clipPaths, List.filter_cons, Document.getNode]
    cases hn : doc.nodes[id]? with
    | none =>
      have h1 : isTable doc id = false := by simp [isTable, hn]
      simp only [ih, h1, Bool.false_and, Bool.false_eq_true, if_false, List.filterMap_cons, clipOf]
    | some n =>
      simp only
      cases hk : n.kind with
      | body =>
        have h1 : isTable doc id = false := by simp [isTable, hn, hk]
        simp only [ih, h1, Bool.false_and, Bool.false_eq_true, if_false, List.filterMap_cons, clipOf]
      | field f =>
        have h1 : isTable doc id = false := by simp [isTable, hn, hk]
        simp only [ih, h1, Bool.false_and, Bool.false_eq_true, if_false, List.filterMap_cons, clipOf]
      | record r =>
        have h1 : isTable doc id = true := by simp [isTable, hn, hk]
        cases ho : n.origin with
        | none =>
          have h2 : rectOf doc id = none := (rectOf_none hn).mpr (Or.inl ho)
          simp [h1, h2]
        | some o =>
          cases hs : n.size with
          | none =>
            have h2 : rectOf doc id = none := (rectOf_none hn).mpr (Or.inr hs)
            simp [h1, h2]
          | some s =>
            have h2 : rectOf doc id = some ⟨o, s⟩ := by simp [rectOf, hn, ho, hs]
            simp only [h1, h2, Option.isNone_some, Bool.and_false, Bool.false_eq_true, if_false, ih, List.filterMap_cons, clipOf,
              if_true, Option.map_some]
            cases (l.filter fun id => isTable doc id && (rectOf doc id).isNone).head? <;> rfl

/-! ## Lines -/

/-- The elements of a line. -/
def lineEls (doc : Document) (clip : Str) (p : NodeId × Nat) : List Element :=
  match doc.nodes[p.1]? with
  | some n => match n.kind with
    | .field f => match rectOf doc p.1 with
      | some r => drawField clip p.2 f r
      | none => []
    | _ => []
  | none => []

theorem drawFields_eq (doc : Document) (clip : Str) (l : List NodeId) (i : Nat) :
    drawFields doc clip (l.zipIdx i) =
      match (l.filter fun id => isLine doc id && (rectOf doc id).isNone).head? with
      | some id => .error (.invalidLayout id)
      | none => .ok ((l.zipIdx i).flatMap (lineEls doc clip)) := by
  induction l generalizing i with
  | nil => rfl
  | cons id l ih =>
    rw [List.zipIdx_cons, drawFields, List.filter_cons, Document.getNode]
    cases hn : doc.nodes[id]? with
    | none =>
      have h1 : isLine doc id = false := by simp [isLine, hn]
      simp only [ih, h1, Bool.false_and, Bool.false_eq_true, if_false, List.flatMap_cons, lineEls, hn, List.nil_append]
    | some n =>
      simp only
      cases hk : n.kind with
      | body =>
        have h1 : isLine doc id = false := by simp [isLine, hn, hk]
        simp only [ih, h1, Bool.false_and, Bool.false_eq_true, if_false, List.flatMap_cons, lineEls, hn, hk, List.nil_append]
      | record f =>
        have h1 : isLine doc id = false := by simp [isLine, hn, hk]
        simp only [ih, h1, Bool.false_and, Bool.false_eq_true, if_false, List.flatMap_cons, lineEls, hn, hk, List.nil_append]
      | field f =>
        have h1 : isLine doc id = true := by simp [isLine, hn, hk]
        have hr : n.rect = rectOf doc id := by
          simp only [NodeData.rect, rectOf, hn]
          cases n.origin <;> cases n.size <;> rfl
        simp only [hr]
        cases h2 : rectOf doc id with
        | none => simp [h1]
        | some r =>
          simp only [h1, Option.isNone_some, Bool.and_false, Bool.false_eq_true, if_false, ih, List.flatMap_cons, lineEls, hn, hk, h2]
          cases (l.filter fun id => isLine doc id && (rectOf doc id).isNone).head? <;> rfl

/-! ## Tables -/

/-- The elements of a table. -/
def tableEls (doc : Document) (p : NodeId × Nat) : List Element :=
  match doc.nodes[p.1]? with
  | some n => match n.kind with
    | .record rec => match rectOf doc p.1 with
      | some r => leaf c!"rect" (recordRectAttrs r.origin r.size ++ colorAttr c!"stroke" rec.borderColor ++ colorAttr c!"fill" rec.bgColor) ::
          n.children.zipIdx.flatMap (lineEls doc (clipPathId p.2))
      | none => []
    | _ => []
  | none => []

theorem drawRecords_eq (doc : Document) (l : List NodeId) (i : Nat)
    (h : ∀ id ∈ l, isTable doc id = true → (rectOf doc id).isSome) :
    drawRecords doc (l.zipIdx i) =
      match ((l.filter (isTable doc)).flatMap fun t =>
          (childrenOf doc t).filter fun id => isLine doc id && (rectOf doc id).isNone).head? with
      | some id => .error (.invalidLayout id)
      | none => .ok ((l.zipIdx i).flatMap (tableEls doc)) := by
  induction l generalizing i with
  | nil => rfl
  | cons id l ih =>
    have ih := ih (i + 1) (fun x hx => h x (by simp [hx]))
    rw [List.zipIdx_cons, drawRecords, List.filter_cons, Document.getNode]
    cases hn : doc.nodes[id]? with
    | none =>
      have h1 : isTable doc id = false := by simp [isTable, hn]
      simp only [ih, h1, Bool.false_eq_true, if_false, List.flatMap_cons, tableEls, hn, List.nil_append]
    | some n =>
      simp only
      cases hk : n.kind with
      | body =>
        have h1 : isTable doc id = false := by simp [isTable, hn, hk]
        simp only [ih, h1, Bool.false_eq_true, if_false, List.flatMap_cons, tableEls, hn, hk, List.nil_append]
      | field f =>
        have h1 : isTable doc id = false := by simp [isTable, hn, hk]
        simp only [ih, h1, Bool.false_eq_true, if_false, List.flatMap_cons, tableEls, hn, hk, List.nil_append]
      | record rec =>
        have h1 : isTable doc id = true := by simp [isTable, hn, hk]
        have h2 := h id (by simp) h1
        obtain ⟨o, s, ho, hs⟩ : ∃ o s, n.origin = some o ∧ n.size = some s := by
          unfold rectOf at h2
          rw [hn] at h2
          cases ho : n.origin <;> cases hs : n.size <;> simp [ho, hs] at h2
          exact ⟨_, _, rfl, rfl⟩
        have hr : rectOf doc id = some ⟨o, s⟩ := by simp [rectOf, hn, ho, hs]
        have hc : childrenOf doc id = n.children := by simp [childrenOf, hn]
        simp only [ho, hs, drawFields_eq, ih, h1, if_true, List.flatMap_cons, tableEls, hn, hk, hr, hc, List.head?_append]
        cases ((n.children.filter fun id => isLine doc id && (rectOf doc id).isNone).head?) with
        | some x => rfl
        | none =>
          simp only [Option.none_or]
          cases (((l.filter (isTable doc)).flatMap fun t =>
            (childrenOf doc t).filter fun id => isLine doc id && (rectOf doc id).isNone).head?) <;> rfl

/-! ## Edges -/

theorem drawEdge_ok {e : EdgeData} {els : List Element} (h : drawEdgeConnection e = .ok els) :
    ∃ ps d a b, e.pathPoints = some ps ∧ pathData ps = .ok d ∧ ps.head? = some a ∧ ps.getLast? = some b ∧
      els = [leaf c!"path" [(c!"stroke", .str strokeColor.display), (c!"stroke-width", .num (3/2)),
             (c!"fill", .str c!"transparent"), (c!"d", .path d)], endCircle a, endCircle b] := by
  unfold drawEdgeConnection at h
  cases hp : e.pathPoints with
  | none => rw [hp] at h; cases h
  | some ps =>
    rw [hp] at h
    simp only at h
    cases hd : pathData ps with
    | error p => rw [hd] at h; cases h
    | ok d =>
      rw [hd] at h
      cases ha : ps.head? with
      | none => rw [ha] at h; simp at h
      | some a =>
        cases hb : ps.getLast? with
        | none => rw [ha, hb] at h; simp at h
        | some b =>
          rw [ha, hb] at h
          simp only [Except.ok.injEq] at h
          exact ⟨ps, d, a, b, rfl, hd, ha, hb, h.symm⟩

theorem pathData_ends {ps : List Point} {d : List PathCommand} (h : pathData ps = .ok d) :
    ∃ a b, ps.head? = some a ∧ ps.getLast? = some b := by
  cases ps with
  | nil => cases h
  | cons a ps => exact ⟨a, _, rfl, List.getLast?_eq_some_getLast (by simp)⟩

theorem drawEdge_cases (e : EdgeData) :
    ((∃ els, drawEdgeConnection e = .ok els) ↔ CanDraw e) ∧
    (∀ id, drawEdgeConnection e = .error (.invalidLayout id) ↔ e.pathPoints = none ∧ e.sourceId = id) ∧
    (∀ p, drawEdgeConnection e = .error (.panic p) ↔ ∃ ps, e.pathPoints = some ps ∧ pathData ps = .error p) := by
  refine ⟨⟨?_, ?_⟩, ?_, ?_⟩
  · rintro ⟨els, h⟩
    obtain ⟨ps, d, -, -, h1, h2, -⟩ := drawEdge_ok h
    exact ⟨ps, d, h1, h2⟩
  · rintro ⟨ps, d, h1, h2⟩
    obtain ⟨a, b, ha, hb⟩ := pathData_ends h2
    exact ⟨_, by simp only [drawEdgeConnection, h1, h2, ha, hb]; rfl⟩
  · intro id
    constructor
    · intro h
      unfold drawEdgeConnection at h
      cases hp : e.pathPoints with
      | none => rw [hp] at h; simp at h; exact ⟨rfl, h⟩
      | some ps =>
        rw [hp] at h
        simp only at h
        split at h <;> simp at h
    · rintro ⟨h1, rfl⟩
      simp [drawEdgeConnection, h1]
  · intro p
    constructor
    · intro h
      unfold drawEdgeConnection at h
      cases hp : e.pathPoints with
      | none => rw [hp] at h; simp at h
      | some ps =>
        rw [hp] at h
        simp only at h
        refine ⟨ps, rfl, ?_⟩
        cases hd : pathData ps with
        | error q => rw [hd] at h; simp at h; rw [h]
        | ok d =>
          obtain ⟨a, b, ha, hb⟩ := pathData_ends hd
          rw [hd, ha, hb] at h
          simp at h
    · rintro ⟨ps, h1, h2⟩
      simp [drawEdgeConnection, h1, h2]

theorem drawEdges_ok (es : List EdgeData) (els : List Element) :
    drawEdges es = .ok els ↔ ∃ bs, List.Forall₂ (fun e b => drawEdgeConnection e = .ok b) es bs ∧ els = bs.flatten := by
  induction es generalizing els with
  | nil =>
    simp only [drawEdges, Except.ok.injEq]
    constructor
    · rintro rfl; exact ⟨[], .nil, rfl⟩
    · rintro ⟨bs, h, rfl⟩; cases h; rfl
  | cons e es ih =>
    simp only [drawEdges]
    constructor
    · intro h
      cases h1 : drawEdgeConnection e with
      | error x => rw [h1] at h; cases h
      | ok b =>
        rw [h1] at h
        cases h2 : drawEdges es with
        | error x => rw [h2] at h; cases h
        | ok rest =>
          rw [h2] at h
          simp only [Except.ok.injEq] at h
          obtain ⟨bs, h3, rfl⟩ := (ih rest).mp h2
          exact ⟨b :: bs, .cons h1 h3, by simp [← h]⟩
    · rintro ⟨bs, h, rfl⟩
      cases h with
      | cons h1 h2 =>
        rw [h1]
        simp only [(ih _).mpr ⟨_, h2, rfl⟩, List.flatten_cons]

theorem drawEdges_error (es : List EdgeData) (x : RenderError) :
    drawEdges es = .error x ↔ ∃ l e l', es = l ++ e :: l' ∧ (∀ y ∈ l, CanDraw y) ∧ drawEdgeConnection e = .error x := by
  induction es with
  | nil =>
    simp only [drawEdges, reduceCtorEq, false_iff]
    rintro ⟨l, e, l', h, -⟩
    simp at h
  | cons e es ih =>
    simp only [drawEdges]
    cases h1 : drawEdgeConnection e with
    | error y =>
      have hno : ¬ CanDraw e := by
        intro h
        obtain ⟨els, h2⟩ := (drawEdge_cases e).1.mpr h
        rw [h1] at h2; cases h2
      simp only [Except.error.injEq]
      constructor
      · rintro rfl; exact ⟨[], e, es, rfl, by simp, h1⟩
      · rintro ⟨l, e', l', h2, h3, h4⟩
        cases l with
        | nil =>
          simp only [List.nil_append, List.cons.injEq] at h2
          rw [← h2.1, h1] at h4
          simpa using h4
        | cons z l =>
          simp only [List.cons_append, List.cons.injEq] at h2
          rw [← h2.1] at h3
          exact absurd (h3 e (by simp)) hno
    | ok b =>
      have hyes : CanDraw e := (drawEdge_cases e).1.mp ⟨b, h1⟩
      constructor
      · intro h
        cases h2 : drawEdges es with
        | ok rest => rw [h2] at h; cases h
        | error y =>
          rw [h2] at h
          simp only [Except.error.injEq] at h
          rw [h] at h2
          obtain ⟨l, e', l', rfl, h4, h5⟩ := ih.mp h2
          refine ⟨e :: l, e', l', rfl, ?_, h5⟩
          intro y hy
          rw [List.mem_cons] at hy
          rcases hy with rfl | hy
          · exact hyes
          · exact h4 y hy
      · rintro ⟨l, e', l', h2, h3, h4⟩
        cases l with
        | nil =>
          simp only [List.nil_append, List.cons.injEq] at h2
          rw [← h2.1, h1] at h4
          cases h4
        | cons z l =>
          simp only [List.cons_append, List.cons.injEq] at h2
          have := ih.mpr ⟨l, e', l', h2.2, fun y hy => h3 y (by simp [hy]), h4⟩
          rw [this]

/-! ## The whole -/

theorem bodyChildren_eq (doc : Document) : doc.bodyChildren = tables doc := by
  unfold Document.bodyChildren tables childrenOf Document.getNode
  cases doc.nodes[doc.bodyId]? <;> rfl

theorem unplaced_eq (doc : Document) :
    unplaced doc = ((tables doc).filter fun id => isTable doc id && (rectOf doc id).isNone) ++
      ((tables doc).filter (isTable doc)).flatMap fun t =>
        (childrenOf doc t).filter fun id => isLine doc id && (rectOf doc id).isNone := by
  unfold unplaced shownTables shownLines
  rw [List.filter_append, List.filter_filter, List.filter_flatMap]
  congr 1
  · congr 1; funext id; rw [Bool.and_comm]
  · congr 1; funext t; rw [List.filter_filter]; congr 1; funext id; rw [Bool.and_comm]

/-- The background. -/
def bgEl : Element :=
  leaf c!"rect" [(c!"width", .str c!"100%"), (c!"height", .str c!"100%"), (c!"fill", .str backgroundColor.display)]

/-- The definitions. -/
def defsEl (doc : Document) : Element := .mk c!"defs" [] ((tables doc).zipIdx.filterMap (clipOf doc)) none

/-- The root element for given table and edge elements. -/
def rootOf (viewBox : Option Rect) (doc : Document) (edges : List Element) : Element :=
  .mk c!"svg" (match viewBox with
      | some v => [(c!"viewBox", AttrVal.nums [v.minX, v.minY, v.width, v.height])]
      | none => [])
    (bgEl :: defsEl doc :: (tables doc).zipIdx.flatMap (tableEls doc) ++ edges) none

theorem render_eq (viewBox : Option Rect) (doc : Document) :
    render viewBox doc =
      match (unplaced doc).head? with
      | some id => .error (.invalidLayout id)
      | none => match drawEdges doc.edges with
        | .error x => .error x
        | .ok els => .ok (rootOf viewBox doc els) := by
  unfold render
  rw [bodyChildren_eq, clipPaths_eq doc (tables doc) 0, unplaced_eq, List.head?_append]
  cases h1 : ((tables doc).filter fun id => isTable doc id && (rectOf doc id).isNone).head? with
  | some id => rfl
  | none =>
    have h : ∀ id ∈ tables doc, isTable doc id = true → (rectOf doc id).isSome := by
      intro id hid ht
      rw [List.head?_eq_none_iff, List.filter_eq_nil_iff] at h1
      have := h1 id hid
      rw [ht] at this
      cases hr : rectOf doc id with
      | none => simp [hr] at this
      | some r => rfl
    rw [drawRecords_eq doc (tables doc) 0 h]
    simp only [Option.none_or]
    cases ((((tables doc).filter (isTable doc)).flatMap fun t =>
            (childrenOf doc t).filter fun id => isLine doc id && (rectOf doc id).isNone).head?) with
    | some id => rfl
    | none =>
      simp only
      cases drawEdges doc.edges <;> rfl

end Seiren
