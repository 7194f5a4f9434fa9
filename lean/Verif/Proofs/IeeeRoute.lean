import Verif.Proofs.IeeePlace
/-! # Routing with values of `f32` -/

namespace Seiren
open Spec

/-! ## Lists -/

theorem flatMap_fl {α α' β β' : Type} (φ : α → α') (ψ : β → β') (f : α → List β) (F : α' → List β') (l : List α)
    (h : ∀ a ∈ l, F (φ a) = (f a).map ψ) : (l.map φ).flatMap F = (l.flatMap f).map ψ := by
  induction l with
  | nil => rfl
  | cons a l ih =>
    rw [List.map_cons, List.flatMap_cons, List.flatMap_cons, List.map_append, h a (by simp), ih fun b hb => h b (List.mem_cons_of_mem _ hb)]

theorem filterMap_fl {α α' β β' : Type} (φ : α → α') (ψ : β → β') (f : α → Option β) (F : α' → Option β') (l : List α)
    (h : ∀ a ∈ l, F (φ a) = (f a).map ψ) : (l.map φ).filterMap F = (l.filterMap f).map ψ := by
  induction l with
  | nil => rfl
  | cons a l ih =>
    have ih := ih fun b hb => h b (List.mem_cons_of_mem _ hb)
    have ha := h a (by simp)
    rw [List.map_cons, List.filterMap_cons, List.filterMap_cons, ha]
    cases f a <;> simp [ih]

theorem filter_fl {α α' : Type} (φ : α → α') (p : α → Bool) (P : α' → Bool) (l : List α)
    (h : ∀ a ∈ l, P (φ a) = p a) : (l.map φ).filter P = (l.filter p).map φ := by
  induction l with
  | nil => rfl
  | cons a l ih =>
    have ih := ih fun b hb => h b (List.mem_cons_of_mem _ hb)
    rw [List.map_cons, List.filter_cons, List.filter_cons, h a (by simp)]
    cases p a <;> simp [ih]

theorem any_fl {α α' : Type} (φ : α → α') (p : α → Bool) (P : α' → Bool) (l : List α)
    (h : ∀ a ∈ l, P (φ a) = p a) : (l.map φ).any P = l.any p := by
  induction l with
  | nil => rfl
  | cons a l ih => rw [List.map_cons, List.any_cons, List.any_cons, h a (by simp), ih fun b hb => h b (List.mem_cons_of_mem _ hb)]

theorem map_fl {α α' β β' : Type} (φ : α → α') (ψ : β → β') (f : α → β) (F : α' → β') (l : List α)
    (h : ∀ a ∈ l, F (φ a) = ψ (f a)) : (l.map φ).map F = (l.map f).map ψ := by
  rw [List.map_map, List.map_map]
  exact List.map_congr_left h

theorem foldl_fl {α α' β β' : Type} (φ : α → α') (ψ : β → β') (P : β → Prop) (f : β → α → β) (F : β' → α' → β') (l : List α)
    (h : ∀ a ∈ l, ∀ b, P b → F (ψ b) (φ a) = ψ (f b a) ∧ P (f b a)) (b : β) (hb : P b) :
    (l.map φ).foldl F (ψ b) = ψ (l.foldl f b) ∧ P (l.foldl f b) := by
  induction l generalizing b with
  | nil => exact ⟨rfl, hb⟩
  | cons a l ih =>
    obtain ⟨e, hp⟩ := h a (by simp) b hb
    rw [List.map_cons, List.foldl_cons, List.foldl_cons, e]
    exact ih (fun a ha => h a (List.mem_cons_of_mem _ ha)) _ hp

theorem find_fl {α α' : Type} (φ : α → α') (p : α → Bool) (P : α' → Bool) (l : List α)
    (h : ∀ a ∈ l, P (φ a) = p a) : (l.map φ).find? P = (l.find? p).map φ := by
  induction l with
  | nil => rfl
  | cons a l ih =>
    have ih := ih fun b hb => h b (List.mem_cons_of_mem _ hb)
    rw [List.map_cons, List.find?_cons, List.find?_cons, h a (by simp), ih]
    cases p a <;> rfl

/-! ## Results -/

/-- Both computations fail alike, or both succeed with the same value, which satisfies `P`. -/
def SameRun {ε α β : Type} (φ : α → β) (P : α → Prop) : Except ε α → Except ε β → Prop
  | .error e, y => y = .error e
  | .ok a, y => y = .ok (φ a) ∧ P a

/-! ## The document -/

theorem shapeRects_fl (d : Document) : shapeRectsFl d.fl = (shapeRects d).map Rect.fl := by
  unfold shapeRectsFl shapeRects
  rw [bodyChildren_fl]
  have h := filterMap_fl id NodeData.fl d.getNode d.fl.getNode d.bodyChildren fun a _ => getNode_fl d a
  rw [List.map_id] at h
  rw [h]
  exact filterMap_fl NodeData.fl Rect.fl NodeData.rect FlNodeData.rect _ fun n _ => rect_fl n

theorem shapeRects_num {d : Document} (hd : DocNum d) : ∀ r ∈ shapeRects d, RectNum 59 r := by
  intro r hr
  obtain ⟨n, hn, hr⟩ := List.mem_filterMap.mp hr
  obtain ⟨id, -, hg⟩ := List.mem_filterMap.mp hn
  exact nodeNum_rect (docNum_get hd hg) hr

theorem edgePorts_fl (d : Document) (e : EdgeData) : edgePortsFl d.fl e.fl = (edgePorts d e).map TerminalPort.fl := by
  unfold edgePortsFl edgePorts
  rw [show e.fl.sourceId = e.sourceId from rfl, show e.fl.targetId = e.targetId from rfl, getNode_fl, getNode_fl]
  cases d.getNode e.sourceId <;> cases d.getNode e.targetId <;> simp [NodeData.fl]

theorem edgePorts_num {d : Document} (hd : DocNum d) (e : EdgeData) : ∀ p ∈ edgePorts d e, PointNum 60 p.location := by
  intro p hp
  unfold edgePorts at hp
  cases hs : d.getNode e.sourceId with
  | none => rw [hs] at hp; simp at hp
  | some s =>
    cases ht : d.getNode e.targetId with
    | none => rw [hs, ht] at hp; simp at hp
    | some t =>
      rw [hs, ht] at hp
      rcases List.mem_append.mp hp with h | h
      · exact (docNum_get hd hs).ports p h
      · exact (docNum_get hd ht).ports p h

/-! ## Margins -/

theorem num_negMargin : Num 59 (-marginR roundF32) := by
  rw [show -marginR roundF32 = ((-40 : Int) : Rat) by decide +kernel]
  exact num_ofInt _ (by norm_num) (by norm_num)

theorem inset_fl (tie : Fl → Fl → Bool) {r : Rect} (hr : RectNum 59 r) :
    r.fl.insetBy tie (Fl.neg flMargin) (Fl.neg flMargin) = (r.insetByR roundF32 (-marginR roundF32) (-marginR roundF32)).fl ∧
    RectNum 60 (r.insetByR roundF32 (-marginR roundF32) (-marginR roundF32)) := by
  refine fl_inset (by norm_num) hr tie (by decide +kernel) num_negMargin (by decide +kernel) ?_
  rw [show roundF32 (-marginR roundF32 * 2) = ((-80 : Int) : Rat) by decide +kernel]
  exact num_ofInt _ (by norm_num) (by norm_num)

theorem inset1_fl (tie : Fl → Fl → Bool) {r : Rect} (hr : RectNum 59 r) :
    r.fl.insetBy tie (Fl.neg (Fl.sub flMargin Fl.one)) (Fl.neg (Fl.sub flMargin Fl.one)) =
      (r.insetByR roundF32 (-(roundF32 (marginR roundF32 - 1))) (-(roundF32 (marginR roundF32 - 1)))).fl ∧
    RectNum 60 (r.insetByR roundF32 (-(roundF32 (marginR roundF32 - 1))) (-(roundF32 (marginR roundF32 - 1)))) := by
  refine fl_inset (by norm_num) hr tie (by decide +kernel) ?_ (by decide +kernel) ?_
  · rw [show -(roundF32 (marginR roundF32 - 1)) = ((-39 : Int) : Rat) by decide +kernel]
    exact num_ofInt _ (by norm_num) (by norm_num)
  · rw [show roundF32 (-(roundF32 (marginR roundF32 - 1)) * 2) = ((-78 : Int) : Rat) by decide +kernel]
    exact num_ofInt _ (by norm_num) (by norm_num)

theorem insetOne_fl (tie : Fl → Fl → Bool) {r : Rect} (hr : RectNum 59 r) :
    r.fl.insetBy tie Fl.one Fl.one = (r.insetByR roundF32 1 1).fl ∧ RectNum 60 (r.insetByR roundF32 1 1) := by
  refine fl_inset (by norm_num) hr tie ofNum_one ?_ (by decide +kernel) ?_
  · exact num_lit 1 (by norm_num) (by norm_num)
  · rw [show roundF32 (1 * 2) = ((2 : Int) : Rat) by decide +kernel]
    exact num_ofInt _ (by norm_num) (by norm_num)

/-! ## Junctions -/

theorem junctionsAroundShapes_fl (tie : Fl → Fl → Bool) {d : Document} (hd : DocNum d) :
    junctionsAroundShapesFl tie d.fl = (junctionsAroundShapesR roundF32 d).map Point.fl ∧
    ∀ p ∈ junctionsAroundShapesR roundF32 d, PointNum 61 p := by
  unfold junctionsAroundShapesFl junctionsAroundShapesR
  constructor
  · rw [shapeRects_fl]
    refine flatMap_fl _ _ _ _ _ fun r hr => ?_
    obtain ⟨e, hn⟩ := inset_fl tie (shapeRects_num hd r hr)
    simp only [e]
    generalize r.insetByR roundF32 (-marginR roundF32) (-marginR roundF32) = j at *
    rw [(fl_maxX (by norm_num) hn).1, (fl_maxY (by norm_num) hn).1]
    rfl
  · intro p hp
    obtain ⟨r, hr, hp⟩ := List.mem_flatMap.mp hp
    obtain ⟨e, hn⟩ := inset_fl tie (shapeRects_num hd r hr)
    generalize r.insetByR roundF32 (-marginR roundF32) (-marginR roundF32) = j at *
    have n1 := (fl_maxX (by norm_num) hn).2
    have n2 := (fl_maxY (by norm_num) hn).2
    have n3 : Num 61 j.minX := hn.o.x.mono (by norm_num)
    have n4 : Num 61 j.minY := hn.o.y.mono (by norm_num)
    simp only [List.mem_cons, List.not_mem_nil, or_false] at hp
    rcases hp with rfl | rfl | rfl | rfl
    · exact ⟨n3, n4⟩
    · exact ⟨n1, n4⟩
    · exact ⟨n1, n2⟩
    · exact ⟨n3, n2⟩

theorem isF32_max' {p q : Rat} (hp : IsF32 p) (hq : IsF32 q) : IsF32 (max p q) := by
  rcases max_choice p q with e | e <;> rw [e] <;> assumption

theorem isF32_min' {p q : Rat} (hp : IsF32 p) (hq : IsF32 q) : IsF32 (min p q) := by
  rcases min_choice p q with e | e <;> rw [e] <;> assumption

theorem junctionsFromTerminalPort_fl (tie : Fl → Fl → Bool) {d : Document} (hd : DocNum d) {port : TerminalPort} (hp : PointNum 60 port.location)
    {others : List Point} (ho : ∀ p ∈ others, PointNum 61 p) :
    junctionsFromTerminalPortFl tie d.fl port.fl (others.map Point.fl) = (junctionsFromTerminalPortR roundF32 d port others).map Point.fl ∧
    ∀ p ∈ junctionsFromTerminalPortR roundF32 d port others, PointNum 61 p := by
  have hrects : (shapeRectsFl d.fl).map (fun r => r.insetBy tie (Fl.neg flMargin) (Fl.neg flMargin)) =
      ((shapeRects d).map fun r => r.insetByR roundF32 (-marginR roundF32) (-marginR roundF32)).map Rect.fl := by
    rw [shapeRects_fl]
    exact map_fl _ _ _ _ _ fun r hr => (inset_fl tie (shapeRects_num hd r hr)).1
  have hnum : ∀ r ∈ (shapeRects d).map fun r => r.insetByR roundF32 (-marginR roundF32) (-marginR roundF32), RectNum 60 r := by
    intro r hr
    obtain ⟨s, hs, rfl⟩ := List.mem_map.mp hr
    exact (inset_fl tie (shapeRects_num hd s hs)).2
  have fx : IsF32 port.location.x := hp.x.fmt
  have fy : IsF32 port.location.y := hp.y.fmt
  have fmin : IsF32 f32Min := isF32_neg isF32_max
  have ex : port.fl.location.x = ofNum port.location.x := rfl
  have ey : port.fl.location.y = ofNum port.location.y := rfl
  have el : port.fl.location = port.location.fl := rfl
  have z : Fl.zero0 = ofNum 0 := rfl
  have n60 : Num 61 port.location.x := hp.x.mono (by norm_num)
  have n61 : Num 61 port.location.y := hp.y.mono (by norm_num)
  unfold junctionsFromTerminalPortFl junctionsFromTerminalPortR
  simp only [hrects, show port.fl.orientation = port.orientation from rfl]
  generalize (shapeRects d).map (fun r => r.insetByR roundF32 (-marginR roundF32) (-marginR roundF32)) = rects at hnum
  cases port.orientation with
  | left =>
    simp only
    have el' : (FlPoint.mk Fl.MIN port.fl.location.y) = (Point.mk f32Min port.location.y).fl := by rw [ofNum_MIN]; rfl
    obtain ⟨e, hF⟩ := foldl_fl Rect.fl ofNum IsF32
      (fun minX (r : Rect) => if r.maxXR roundF32 < port.location.x ∧ r.intersectsLineR roundF32 port.location ⟨f32Min, port.location.y⟩ then max minX (r.maxXR roundF32) else minX)
      (fun minX (r : FlRect) => if Fl.lt r.maxX port.fl.location.x && r.intersectsLine tie port.fl.location ⟨Fl.MIN, port.fl.location.y⟩ then Fl.max tie minX r.maxX else minX)
      rects (by
        intro r hr a ha
        obtain ⟨e1, n1⟩ := fl_maxX (by norm_num) (hnum r hr)
        rw [el', el, fl_intersects (by norm_num) (hnum r hr) tie (by norm_num) (b := ⟨f32Min, port.location.y⟩) hp ⟨fmin, fy⟩, e1, ← el, ex, fl_lt n1.fmt fx, fl_max ha n1.fmt]
        simp only [Bool.and_eq_true, decide_eq_true_eq]
        split
        · exact ⟨rfl, isF32_max' ha n1.fmt⟩
        · exact ⟨rfl, ha⟩) 0 isF32_zero
    rw [z, e]
    generalize rects.foldl _ (0 : Rat) = lim at hF ⊢
    constructor
    · refine filterMap_fl _ _ _ _ _ fun j hj => ?_
      rw [ex, ey, show j.fl.x = ofNum j.x from rfl, fl_le (ho j hj).x.fmt fx, fl_le hF (ho j hj).x.fmt]
      simp only [Bool.and_eq_true, decide_eq_true_eq, ge_iff_le]
      split <;> rfl
    · intro p hp
      obtain ⟨j, hj, hp⟩ := List.mem_filterMap.mp hp
      split at hp
      · cases hp; exact ⟨(ho j hj).x, n61⟩
      · cases hp
  | right =>
    simp only
    have el' : (FlPoint.mk Fl.MAX port.fl.location.y) = (Point.mk f32Max port.location.y).fl := by rw [ofNum_MAX]; rfl
    obtain ⟨e, hF⟩ := foldl_fl Rect.fl ofNum IsF32
      (fun maxX (r : Rect) => if r.minX > port.location.x ∧ r.intersectsLineR roundF32 port.location ⟨f32Max, port.location.y⟩ then min maxX r.minX else maxX)
      (fun maxX (r : FlRect) => if Fl.lt port.fl.location.x r.minX && r.intersectsLine tie port.fl.location ⟨Fl.MAX, port.fl.location.y⟩ then Fl.min tie maxX r.minX else maxX)
      rects (by
        intro r hr a ha
        have e1 : r.fl.minX = ofNum r.minX := rfl
        have n1 : IsF32 r.minX := (hnum r hr).o.x.fmt
        rw [el', el, fl_intersects (by norm_num) (hnum r hr) tie (by norm_num) (b := ⟨f32Max, port.location.y⟩) hp ⟨isF32_max, fy⟩, e1, ← el, ex, fl_lt fx n1, fl_min ha n1]
        simp only [Bool.and_eq_true, decide_eq_true_eq, gt_iff_lt]
        split
        · exact ⟨rfl, isF32_min' ha n1⟩
        · exact ⟨rfl, ha⟩) f32Max isF32_max
    rw [ofNum_MAX] at e ⊢
    rw [e]
    generalize rects.foldl _ f32Max = lim at hF ⊢
    constructor
    · refine filterMap_fl _ _ _ _ _ fun j hj => ?_
      rw [ex, ey, show j.fl.x = ofNum j.x from rfl, fl_le fx (ho j hj).x.fmt, fl_le (ho j hj).x.fmt hF]
      simp only [Bool.and_eq_true, decide_eq_true_eq, ge_iff_le]
      split <;> rfl
    · intro p hp
      obtain ⟨j, hj, hp⟩ := List.mem_filterMap.mp hp
      split at hp
      · cases hp; exact ⟨(ho j hj).x, n61⟩
      · cases hp
  | up =>
    simp only
    have el' : (FlPoint.mk port.fl.location.x Fl.MAX) = (Point.mk port.location.x f32Max).fl := by rw [ofNum_MAX]; rfl
    obtain ⟨e, hF⟩ := foldl_fl Rect.fl ofNum IsF32
      (fun maxY (r : Rect) => if r.minY > port.location.y ∧ r.intersectsLineR roundF32 port.location ⟨port.location.x, f32Max⟩ then min maxY r.minY else maxY)
      (fun maxY (r : FlRect) => if Fl.lt port.fl.location.y r.minY && r.intersectsLine tie port.fl.location ⟨port.fl.location.x, Fl.MAX⟩ then Fl.min tie maxY r.minY else maxY)
      rects (by
        intro r hr a ha
        have e1 : r.fl.minY = ofNum r.minY := rfl
        have n1 : IsF32 r.minY := (hnum r hr).o.y.fmt
        rw [el', el, fl_intersects (by norm_num) (hnum r hr) tie (by norm_num) (b := ⟨port.location.x, f32Max⟩) hp ⟨fx, isF32_max⟩, e1, ← el, ey, fl_lt fy n1, fl_min ha n1]
        simp only [Bool.and_eq_true, decide_eq_true_eq, gt_iff_lt]
        split
        · exact ⟨rfl, isF32_min' ha n1⟩
        · exact ⟨rfl, ha⟩) f32Max isF32_max
    rw [ofNum_MAX] at e ⊢
    rw [e]
    generalize rects.foldl _ f32Max = lim at hF ⊢
    constructor
    · refine filterMap_fl _ _ _ _ _ fun j hj => ?_
      rw [ex, ey, show j.fl.y = ofNum j.y from rfl, fl_le (ho j hj).y.fmt fy, fl_le (ho j hj).y.fmt hF]
      simp only [Bool.and_eq_true, decide_eq_true_eq]
      split <;> rfl
    · intro p hp
      obtain ⟨j, hj, hp⟩ := List.mem_filterMap.mp hp
      split at hp
      · cases hp; exact ⟨n60, (ho j hj).y⟩
      · cases hp
  | down =>
    simp only
    have el' : (FlPoint.mk port.fl.location.x Fl.MIN) = (Point.mk port.location.x f32Min).fl := by rw [ofNum_MIN]; rfl
    obtain ⟨e, hF⟩ := foldl_fl Rect.fl ofNum IsF32
      (fun minY (r : Rect) => if r.maxYR roundF32 < port.location.y ∧ r.intersectsLineR roundF32 port.location ⟨port.location.x, f32Min⟩ then max minY (r.maxYR roundF32) else minY)
      (fun minY (r : FlRect) => if Fl.lt r.maxY port.fl.location.y && r.intersectsLine tie port.fl.location ⟨port.fl.location.x, Fl.MIN⟩ then Fl.max tie minY r.maxY else minY)
      rects (by
        intro r hr a ha
        obtain ⟨e1, n1⟩ := fl_maxY (by norm_num) (hnum r hr)
        rw [el', el, fl_intersects (by norm_num) (hnum r hr) tie (by norm_num) (b := ⟨port.location.x, f32Min⟩) hp ⟨fx, fmin⟩, e1, ← el, ey, fl_lt n1.fmt fy, fl_max ha n1.fmt]
        simp only [Bool.and_eq_true, decide_eq_true_eq]
        split
        · exact ⟨rfl, isF32_max' ha n1.fmt⟩
        · exact ⟨rfl, ha⟩) 0 isF32_zero
    rw [z, e]
    generalize rects.foldl _ (0 : Rat) = lim at hF ⊢
    constructor
    · refine filterMap_fl _ _ _ _ _ fun j hj => ?_
      rw [ex, ey, show j.fl.y = ofNum j.y from rfl, fl_le fy (ho j hj).y.fmt, fl_le hF (ho j hj).y.fmt]
      simp only [Bool.and_eq_true, decide_eq_true_eq, ge_iff_le]
      split <;> rfl
    · intro p hp
      obtain ⟨j, hj, hp⟩ := List.mem_filterMap.mp hp
      split at hp
      · cases hp; exact ⟨n60, (ho j hj).y⟩
      · cases hp

theorem crossingJunctions_fl (tie : Fl → Fl → Bool) {d : Document} (hd : DocNum d) {js : List Point} (hj : ∀ p ∈ js, PointNum 61 p) :
    crossingJunctionsFl tie d.fl (js.map Point.fl) = (crossingJunctionsR roundF32 d js).map Point.fl ∧
    ∀ p ∈ crossingJunctionsR roundF32 d js, PointNum 61 p := by
  unfold crossingJunctionsFl crossingJunctionsR
  constructor
  · refine flatMap_fl EdgeData.fl _ _ _ _ fun e _ => ?_
    rw [edgePorts_fl]
    exact flatMap_fl _ _ _ _ _ fun p hp => (junctionsFromTerminalPort_fl tie hd (edgePorts_num hd e p hp) hj).1
  · intro p hp
    obtain ⟨e, -, hp⟩ := List.mem_flatMap.mp hp
    obtain ⟨pt, hpt, hp⟩ := List.mem_flatMap.mp hp
    exact (junctionsFromTerminalPort_fl tie hd (edgePorts_num hd e pt hpt) hj).2 p hp

theorem removeOverlapped_fl (tie : Fl → Fl → Bool) {d : Document} (hd : DocNum d) {js : List Point} (hj : ∀ p ∈ js, PointNum 61 p) :
    removeOverlappedFl tie d.fl (js.map Point.fl) = (removeOverlappedR roundF32 d js).map Point.fl := by
  unfold removeOverlappedFl removeOverlappedR
  simp only
  have hrects : (shapeRectsFl d.fl).map (fun r => r.insetBy tie (Fl.neg (Fl.sub flMargin Fl.one)) (Fl.neg (Fl.sub flMargin Fl.one))) =
      ((shapeRects d).map fun r => r.insetByR roundF32 (-(roundF32 (marginR roundF32 - 1))) (-(roundF32 (marginR roundF32 - 1)))).map Rect.fl := by
    rw [shapeRects_fl]
    exact map_fl _ _ _ _ _ fun r hr => (inset1_fl tie (shapeRects_num hd r hr)).1
  rw [hrects]
  refine filter_fl _ _ _ _ fun j h => ?_
  congr 1
  refine any_fl _ _ _ _ fun r hr => ?_
  obtain ⟨s, hs, rfl⟩ := List.mem_map.mp hr
  exact fl_contains (by norm_num) (inset1_fl tie (shapeRects_num hd s hs)).2 (hj j h)

/-! ## The graph -/

def RouteNodeData.fl (n : RouteNodeData) : FlRouteNodeData := ⟨n.location.fl, n.orientation⟩

/-- The graph with locations as values of `f32`. -/
def RouteGraph.fl (g : RouteGraph) : FlRouteGraph := ⟨g.nodes.map RouteNodeData.fl, g.edges, g.terminalPorts⟩

def GraphNum (g : RouteGraph) : Prop := ∀ n ∈ g.nodes, PointNum 61 n.location

theorem addNodeAt_fl {g : RouteGraph} (hg : GraphNum g) {loc : Point} (hl : PointNum 61 loc) (o : Option Orientation) :
    SameRun (fun p : RouteGraph × RouteNodeId => (p.1.fl, p.2)) (fun p => GraphNum p.1) (g.addNodeAt loc o) (g.fl.addNodeAt loc.fl o) := by
  have hf : g.fl.nodes.zipIdx.find? (fun p => p.1.location.beq loc.fl) =
      (g.nodes.zipIdx.find? (fun p => p.1.location = loc)).map (Prod.map RouteNodeData.fl id) := by
    unfold RouteGraph.fl
    simp only
    rw [List.zipIdx_map]
    refine find_fl _ _ _ _ fun p hp => ?_
    exact fl_beq (hg p.1 (List.mem_of_getElem (List.mem_zipIdx' hp).2.symm)) hl
  unfold RouteGraph.addNodeAt FlRouteGraph.addNodeAt
  rw [hf]
  cases g.nodes.zipIdx.find? (fun p => p.1.location = loc) with
  | none =>
    refine ⟨?_, ?_⟩
    · simp [RouteGraph.fl, RouteNodeData.fl]
    · intro n hn
      rcases List.mem_append.mp hn with h | h
      · exact hg n h
      · rw [List.mem_singleton.mp h]; exact hl
  | some p =>
    obtain ⟨n, i⟩ := p
    simp only [Option.map_some, Prod.map_apply, id_eq, show n.fl.orientation = n.orientation from rfl]
    split
    · exact rfl
    · exact ⟨rfl, hg⟩

theorem addJunctions_fl (js : List Point) (hj : ∀ p ∈ js, PointNum 61 p) (g : RouteGraph) (hg : GraphNum g) :
    SameRun RouteGraph.fl GraphNum (addJunctions g js) (addJunctionsFl g.fl (js.map Point.fl)) := by
  induction js generalizing g with
  | nil => exact ⟨rfl, hg⟩
  | cons j js ih =>
    unfold addJunctions
    rw [List.map_cons, addJunctionsFl]
    have h := addNodeAt_fl hg (hj j (by simp)) none
    unfold RouteGraph.addNode FlRouteGraph.addNode
    cases ha : g.addNodeAt j none with
    | error e => rw [ha] at h; rw [show g.fl.addNodeAt j.fl none = _ from h]; exact rfl
    | ok p =>
      rw [ha] at h
      obtain ⟨h1, h2⟩ := h
      rw [h1]
      exact ih (fun p hp => hj p (List.mem_cons_of_mem _ hp)) p.1 h2

theorem addTerminalPorts_fl (ps : List TerminalPort) (hp : ∀ p ∈ ps, PointNum 60 p.location) (g : RouteGraph) (hg : GraphNum g) :
    SameRun RouteGraph.fl GraphNum (addTerminalPorts g ps) (addTerminalPortsFl g.fl (ps.map TerminalPort.fl)) := by
  induction ps generalizing g with
  | nil => exact ⟨rfl, hg⟩
  | cons p ps ih =>
    unfold addTerminalPorts
    rw [List.map_cons, addTerminalPortsFl]
    have h := addNodeAt_fl hg ((hp p (by simp)).mono (show 60 ≤ 61 by norm_num)) (some p.orientation)
    unfold RouteGraph.addTerminalPort FlRouteGraph.addTerminalPort
    rw [show p.fl.location = p.location.fl from rfl, show p.fl.orientation = p.orientation from rfl]
    cases ha : g.addNodeAt p.location (some p.orientation) with
    | error e => rw [ha] at h; rw [show g.fl.addNodeAt p.location.fl (some p.orientation) = _ from h]; exact rfl
    | ok r =>
      rw [ha] at h
      obtain ⟨h1, h2⟩ := h
      rw [h1]
      exact ih (fun p h => hp p (List.mem_cons_of_mem _ h)) { r.1 with terminalPorts := (p.id, r.2) :: r.1.terminalPorts } h2

/-! ## Neighbours -/

def candFl (c : RouteNodeId × RouteNodeData) : RouteNodeId × FlRouteNodeData := (c.1, c.2.fl)

def Nearest.fl (s : Nearest) : FlNearest := ⟨s.left.map candFl, s.right.map candFl, s.up.map candFl, s.down.map candFl⟩

def CandNum (c : Option (RouteNodeId × RouteNodeData)) : Prop := ∀ p, c = some p → PointNum 61 p.2.location

structure NearestNum (s : Nearest) : Prop where
  left : CandNum s.left
  right : CandNum s.right
  up : CandNum s.up
  down : CandNum s.down

theorem takeCandidate_fl {cur : Option (RouteNodeId × RouteNodeData)} (hc : CandNum cur) {nearer : RouteNodeData → Bool} {nearerF : FlRouteNodeData → Bool}
    (hn : ∀ c : RouteNodeData, PointNum 61 c.location → nearerF c.fl = nearer c) (nc : Bool) {b : RouteNodeId × RouteNodeData} (hb : PointNum 61 b.2.location) :
    takeCandidateFl (cur.map candFl) nearerF nc (candFl b) = (takeCandidate cur nearer nc b).map candFl ∧ CandNum (takeCandidate cur nearer nc b) := by
  unfold takeCandidateFl takeCandidate
  cases cur with
  | none => exact ⟨rfl, fun p hp => by cases hp; exact hb⟩
  | some c =>
    have h := hn c.2 (hc c rfl)
    simp only [Option.map_some]
    rw [show (candFl c).2 = c.2.fl from rfl, h]
    split
    · exact ⟨rfl, fun p hp => by cases hp; exact hb⟩
    · exact ⟨rfl, hc⟩

theorem nearestStep_fl (tie : Fl → Fl → Bool) {rects : List Rect} (hr : ∀ r ∈ rects, RectNum 60 r) {n : RouteNodeData} (hn : PointNum 61 n.location)
    {b : RouteNodeId × RouteNodeData} (hb : PointNum 61 b.2.location) (acc : Nearest) (ha : NearestNum acc) :
    nearestStepFl tie (rects.map Rect.fl) n.fl acc.fl (candFl b) = (nearestStepR roundF32 rects n acc b).fl ∧
    NearestNum (nearestStepR roundF32 rects n acc b) := by
  have hnc : (rects.map Rect.fl).any (·.intersectsLine tie n.location.fl b.2.location.fl) = rects.any (·.intersectsLineR roundF32 n.location b.2.location) :=
    any_fl _ _ _ _ fun r h => fl_intersects (by norm_num) (hr r h) tie (by norm_num) hn ⟨hb.x.fmt, hb.y.fmt⟩
  unfold nearestStepFl nearestStepR
  simp only [show n.fl.location = n.location.fl from rfl, show (candFl b).2 = b.2.fl from rfl, show b.2.fl.location = b.2.location.fl from rfl, hnc,
    show ∀ o, n.fl.isConnectable o = n.isConnectable o from fun _ => rfl, show ∀ o, b.2.fl.isConnectable o = b.2.isConnectable o from fun _ => rfl]
  generalize (!rects.any (·.intersectsLineR roundF32 n.location b.2.location)) = nc
  have px : IsF32 n.location.x := hn.x.fmt
  have py : IsF32 n.location.y := hn.y.fmt
  have qx : IsF32 b.2.location.x := hb.x.fmt
  have qy : IsF32 b.2.location.y := hb.y.fmt
  simp only [show ∀ p : Point, p.fl.x = ofNum p.x from fun _ => rfl, show ∀ p : Point, p.fl.y = ofNum p.y from fun _ => rfl,
    fl_eq qx px, fl_eq qy py, fl_lt qx px, fl_lt qy py, fl_lt px qx, fl_lt py qy, Bool.and_eq_true, decide_eq_true_eq, gt_iff_lt]
  have t1 := takeCandidate_fl ha.up (nearer := fun c => decide (c.location.y < b.2.location.y)) (nearerF := fun c => Fl.lt c.location.y (ofNum b.2.location.y))
    (fun c hc => fl_lt hc.y.fmt qy) nc hb
  have t2 := takeCandidate_fl ha.down (nearer := fun c => decide (b.2.location.y < c.location.y)) (nearerF := fun c => Fl.lt (ofNum b.2.location.y) c.location.y)
    (fun c hc => fl_lt qy hc.y.fmt) nc hb
  have t3 := takeCandidate_fl ha.left (nearer := fun c => decide (c.location.x < b.2.location.x)) (nearerF := fun c => Fl.lt c.location.x (ofNum b.2.location.x))
    (fun c hc => fl_lt hc.x.fmt qx) nc hb
  have t4 := takeCandidate_fl ha.right (nearer := fun c => decide (b.2.location.x < c.location.x)) (nearerF := fun c => Fl.lt (ofNum b.2.location.x) c.location.x)
    (fun c hc => fl_lt qx hc.x.fmt) nc hb
  split
  · split
    · exact ⟨by unfold Nearest.fl; simp only [FlNearest.mk.injEq, true_and, and_true]; exact t1.1, ⟨ha.left, ha.right, t1.2, ha.down⟩⟩
    · exact ⟨rfl, ha⟩
  split
  · split
    · exact ⟨by unfold Nearest.fl; simp only [FlNearest.mk.injEq, true_and]; exact t2.1, ⟨ha.left, ha.right, ha.up, t2.2⟩⟩
    · exact ⟨rfl, ha⟩
  split
  · split
    · exact ⟨by unfold Nearest.fl; simp only [FlNearest.mk.injEq, and_true]; exact t3.1, ⟨t3.2, ha.right, ha.up, ha.down⟩⟩
    · exact ⟨rfl, ha⟩
  split
  · split
    · exact ⟨by unfold Nearest.fl; simp only [FlNearest.mk.injEq, true_and, and_true]; exact t4.1, ⟨ha.left, t4.2, ha.up, ha.down⟩⟩
    · exact ⟨rfl, ha⟩
  · exact ⟨rfl, ha⟩

theorem indexed_fl (g : RouteGraph) : g.fl.indexed = g.indexed.map candFl := by
  unfold FlRouteGraph.indexed RouteGraph.indexed RouteGraph.fl
  simp only
  rw [List.zipIdx_map, List.map_map, List.map_map]
  rfl

theorem indexed_num {g : RouteGraph} (hg : GraphNum g) : ∀ p ∈ g.indexed, PointNum 61 p.2.location := by
  intro p hp
  obtain ⟨q, hq, rfl⟩ := List.mem_map.mp hp
  exact hg q.1 (List.mem_of_getElem (List.mem_zipIdx' hq).2.symm)

theorem nearestOf_fl (tie : Fl → Fl → Bool) {rects : List Rect} (hr : ∀ r ∈ rects, RectNum 60 r) {g : RouteGraph} (hg : GraphNum g) {n : RouteNodeData}
    (hn : PointNum 61 n.location) : nearestOfFl tie (rects.map Rect.fl) g.fl n.fl = (nearestOfR roundF32 rects g n).fl := by
  unfold nearestOfFl nearestOfR
  rw [indexed_fl]
  exact (foldl_fl candFl Nearest.fl NearestNum (nearestStepR roundF32 rects n) _ g.indexed
    (fun b hb acc ha => nearestStep_fl tie hr hn (indexed_num hg b hb) acc ha) {}
    ⟨(nofun), (nofun), (nofun), (nofun)⟩).1

theorem toEdges_fl (s : Nearest) (a : RouteNodeId) : s.fl.toEdges a = s.toEdges a := by
  unfold FlNearest.toEdges Nearest.toEdges Nearest.fl
  cases s.left <;> cases s.right <;> cases s.up <;> cases s.down <;> rfl

theorem addEdges_fl (es : List (RouteNodeId × RouteNodeId)) (g : RouteGraph) :
    es.foldl (fun g (a, b) => g.addEdge a b) g.fl = (es.foldl (fun g (a, b) => g.addEdge a b) g).fl ∧
    (es.foldl (fun g (a, b) => g.addEdge a b) g).nodes = g.nodes := by
  induction es generalizing g with
  | nil => exact ⟨rfl, rfl⟩
  | cons e es ih =>
    rw [List.foldl_cons, List.foldl_cons]
    have h : g.fl.addEdge e.1 e.2 = (g.addEdge e.1 e.2).fl ∧ (g.addEdge e.1 e.2).nodes = g.nodes := by
      unfold FlRouteGraph.addEdge RouteGraph.addEdge
      rw [show g.fl.bare.neighbors e.1 = g.neighbors e.1 from rfl]
      split <;> exact ⟨rfl, rfl⟩
    simp only
    rw [h.1]
    exact ⟨(ih _).1, (ih _).2.trans h.2⟩

theorem connectNearest_fl (tie : Fl → Fl → Bool) {d : Document} (hd : DocNum d) {g : RouteGraph} (hg : GraphNum g) :
    connectNearestFl tie d.fl g.fl = (connectNearestR roundF32 d g).fl ∧ GraphNum (connectNearestR roundF32 d g) := by
  have hrects : collisionRectsFl tie d.fl = (collisionRectsR roundF32 d).map Rect.fl := by
    unfold collisionRectsFl collisionRectsR
    rw [shapeRects_fl]
    exact map_fl _ _ _ _ _ fun r hr => (insetOne_fl tie (shapeRects_num hd r hr)).1
  have hnum : ∀ r ∈ collisionRectsR roundF32 d, RectNum 60 r := by
    intro r hr
    obtain ⟨s, hs, rfl⟩ := List.mem_map.mp hr
    exact (insetOne_fl tie (shapeRects_num hd s hs)).2
  unfold connectNearestFl connectNearestR
  simp only
  have he : (g.fl.indexed.flatMap fun (a, n) => (nearestOfFl tie (collisionRectsFl tie d.fl) g.fl n).toEdges a) =
      g.indexed.flatMap fun (a, n) => (nearestOfR roundF32 (collisionRectsR roundF32 d) g n).toEdges a := by
    rw [indexed_fl, hrects]
    have := flatMap_fl candFl id (fun (p : RouteNodeId × RouteNodeData) => (nearestOfR roundF32 (collisionRectsR roundF32 d) g p.2).toEdges p.1)
      (fun (p : RouteNodeId × FlRouteNodeData) => (nearestOfFl tie ((collisionRectsR roundF32 d).map Rect.fl) g.fl p.2).toEdges p.1) g.indexed
      (fun p hp => by
        rw [List.map_id, show (candFl p).2 = p.2.fl from rfl, nearestOf_fl tie hnum hg (indexed_num hg p hp), toEdges_fl]; rfl)
    rw [List.map_id] at this
    exact this
  rw [he]
  obtain ⟨e1, e2⟩ := addEdges_fl (g.indexed.flatMap fun (a, n) => (nearestOfR roundF32 (collisionRectsR roundF32 d) g n).toEdges a) g
  refine ⟨e1, ?_⟩
  intro n hn
  rw [e2] at hn
  exact hg n hn

theorem buildRouteGraph_fl (tie : Fl → Fl → Bool) {d : Document} (hd : DocNum d) {g : RouteGraph} (hg : GraphNum g) :
    SameRun RouteGraph.fl GraphNum (buildRouteGraphR roundF32 d g) (buildRouteGraphFl tie d.fl g.fl) := by
  unfold buildRouteGraphR buildRouteGraphFl
  simp only
  obtain ⟨e1, n1⟩ := junctionsAroundShapes_fl tie hd
  obtain ⟨e2, n2⟩ := crossingJunctions_fl tie hd n1
  have n3 : ∀ p ∈ junctionsAroundShapesR roundF32 d ++ crossingJunctionsR roundF32 d (junctionsAroundShapesR roundF32 d), PointNum 61 p := by
    intro p hp
    rcases List.mem_append.mp hp with h | h
    · exact n1 p h
    · exact n2 p h
  rw [e1, e2, ← List.map_append, removeOverlapped_fl tie hd n3]
  have h := addJunctions_fl (removeOverlappedR roundF32 d (junctionsAroundShapesR roundF32 d ++ crossingJunctionsR roundF32 d (junctionsAroundShapesR roundF32 d)))
    (fun p hp => n3 p (List.mem_filter.mp hp).1) g hg
  generalize addJunctions g _ = r1 at h ⊢
  generalize addJunctionsFl g.fl _ = r2 at h ⊢
  cases r1 with
  | error e => rw [show r2 = .error e from h]; exact rfl
  | ok g1 =>
    obtain ⟨rfl, hg1⟩ := h
    simp only
    have hports : d.fl.edges.flatMap (edgePortsFl d.fl) = (d.edges.flatMap (edgePorts d)).map TerminalPort.fl :=
      flatMap_fl EdgeData.fl _ _ _ _ fun e _ => edgePorts_fl d e
    rw [hports]
    have h := addTerminalPorts_fl (d.edges.flatMap (edgePorts d)) (fun p hp => by
      obtain ⟨e, -, hp⟩ := List.mem_flatMap.mp hp
      exact edgePorts_num hd e p hp) g1 hg1
    generalize addTerminalPorts g1 _ = r1 at h ⊢
    generalize addTerminalPortsFl g1.fl _ = r2 at h ⊢
    cases r1 with
    | error e => rw [show r2 = .error e from h]; exact rfl
    | ok g2 =>
      obtain ⟨rfl, hg2⟩ := h
      simp only
      obtain ⟨e, n⟩ := connectNearest_fl tie hd hg2
      rw [e]
      exact ⟨rfl, n⟩

/-! ## The search -/

theorem edgeCost_fl {g : RouteGraph} (hg : GraphNum g) : edgeCostFl g.fl = edgeCostR roundF32 sqrtF32 g := by
  funext a b
  unfold edgeCostFl edgeCostR
  have h : ∀ a, g.fl.getNode a = (g.getNode a).map RouteNodeData.fl := fun a => by simp [FlRouteGraph.getNode, RouteGraph.getNode, RouteGraph.fl]
  rw [h, h]
  cases ha : g.getNode a with
  | none => rfl
  | some n =>
    cases hb : g.getNode b with
    | none => rfl
    | some m =>
      exact fl_distance (by norm_num) (by norm_num) (hg n (List.mem_of_getElem? ha)) (hg m (List.mem_of_getElem? hb))

theorem astarLoopW_congr (w : Nat → Nat) (q : Queue) {g h : RouteGraph} (he : g.edges = h.edges) (hn : g.nodes.length = h.nodes.length)
    (cost : RouteNodeId → RouteNodeId → Nat) (goal : RouteNodeId) (fuel : Nat) (st : AstarState) :
    astarLoopW w q g cost goal fuel st = astarLoopW w q h cost goal fuel st := by
  have hnb : ∀ a, g.neighbors a = h.neighbors a := fun a => by unfold RouteGraph.neighbors; rw [he]
  induction fuel generalizing st with
  | zero => rfl
  | succ fuel ih =>
    unfold astarLoopW
    simp only [hn, hnb, ih]

theorem astarW_bare (w : Nat → Nat) (q : Queue) (g : RouteGraph) (cost : RouteNodeId → RouteNodeId → Nat) (s t : RouteNodeId) :
    astarW w q g.fl.bare cost s t = astarW w q g cost s t := by
  unfold astarW
  rw [astarLoopW_congr w q (g := g.fl.bare) (h := g) rfl (by simp [FlRouteGraph.bare, RouteGraph.fl])]
  rfl

theorem computeShortestPath_fl (w : Nat → Nat) (q : Queue) {g : RouteGraph} (hg : GraphNum g) (s t : RouteNodeId) :
    computeShortestPathFl w q g.fl s t = computeShortestPathM w (edgeCostR roundF32 sqrtF32) q g s t := by
  unfold computeShortestPathFl computeShortestPathM
  rw [edgeCost_fl hg, astarW_bare]
  cases astarW w q g (edgeCostR roundF32 sqrtF32 g) s t with
  | error e => rfl
  | ok r => cases r <;> rfl

theorem bestPath_fl (w : Nat → Nat) (q : Queue) {g : RouteGraph} (hg : GraphNum g) (ps : List (TerminalPort × TerminalPort)) (least : Nat)
    (path : Option (List RouteNodeId)) :
    bestPathFl w q g.fl (ps.map fun p => (p.1.fl, p.2.fl)) least path = bestPathM w (edgeCostR roundF32 sqrtF32) q g ps least path := by
  induction ps generalizing least path with
  | nil => rfl
  | cons p ps ih =>
    obtain ⟨src, dst⟩ := p
    rw [List.map_cons, bestPathFl, bestPathM]
    simp only [computeShortestPath_fl w q hg, ih]
    rfl

theorem pathLocations_fl {g : RouteGraph} (hg : GraphNum g) (ids : List RouteNodeId) :
    SameRun (List.map Point.fl) (fun ps => ∀ p ∈ ps, PointNum 61 p) (pathLocations g ids) (pathLocationsFl g.fl ids) := by
  induction ids with
  | nil => exact ⟨rfl, by simp⟩
  | cons id ids ih =>
    unfold pathLocations pathLocationsFl
    rw [show g.fl.getNode id = (g.getNode id).map RouteNodeData.fl by simp [FlRouteGraph.getNode, RouteGraph.getNode, RouteGraph.fl]]
    cases hn : g.getNode id with
    | none => exact rfl
    | some n =>
      simp only [Option.map_some]
      generalize pathLocations g ids = r1 at ih
      generalize pathLocationsFl g.fl ids = r2 at ih
      cases r1 with
      | error e => rw [show r2 = .error e from ih]; exact rfl
      | ok ps =>
        obtain ⟨rfl, h⟩ := ih
        refine ⟨rfl, ?_⟩
        intro p hp
        rcases List.mem_cons.mp hp with rfl | hp
        · exact hg n (List.mem_of_getElem? hn)
        · exact h p hp

theorem portPairs_fl (s t : NodeData) : portPairsFl s.fl t.fl = (portPairs s t).map fun p => (p.1.fl, p.2.fl) := by
  unfold portPairsFl portPairs
  refine flatMap_fl TerminalPort.fl _ _ _ _ fun p _ => ?_
  exact map_fl TerminalPort.fl _ _ _ _ fun q _ => rfl

theorem findShortestEdgesPath_fl (w : Nat → Nat) (q : Queue) (d : Document) {g : RouteGraph} (hg : GraphNum g) (e : EdgeData) :
    SameRun (Option.map (List.map Point.fl)) (fun r => ∀ ps, r = some ps → ∀ p ∈ ps, PointNum 61 p)
      (findShortestEdgesPathM w (edgeCostR roundF32 sqrtF32) q d g e) (findShortestEdgesPathFl w q d.fl g.fl e.fl) := by
  unfold findShortestEdgesPathM findShortestEdgesPathFl
  rw [show e.fl.sourceId = e.sourceId from rfl, show e.fl.targetId = e.targetId from rfl, getNode_fl, getNode_fl]
  cases d.getNode e.sourceId with
  | none => exact ⟨rfl, by simp⟩
  | some s =>
    cases d.getNode e.targetId with
    | none => exact ⟨rfl, by simp⟩
    | some t =>
      simp only [Option.map_some]
      rw [portPairs_fl, bestPath_fl w q hg]
      cases bestPathM w (edgeCostR roundF32 sqrtF32) q g (portPairs s t) ROUTE_COST_MAX none with
      | error e => exact rfl
      | ok r =>
        cases r with
        | none => exact ⟨rfl, by simp⟩
        | some path =>
          simp only
          have h := pathLocations_fl hg path
          generalize pathLocations g path = r1 at h
          generalize pathLocationsFl g.fl path = r2 at h
          cases r1 with
          | error e => rw [show r2 = .error e from h]; exact rfl
          | ok ps =>
            obtain ⟨rfl, h⟩ := h
            exact ⟨rfl, fun ps' hp => by cases hp; exact h⟩

theorem collectPaths_fl (w : Nat → Nat) (q : Queue) (d : Document) {g : RouteGraph} (hg : GraphNum g) (es : List EdgeData) :
    SameRun (List.map (List.map Point.fl)) (fun pss => ∀ ps ∈ pss, ∀ p ∈ ps, PointNum 61 p)
      (collectPathsM w (edgeCostR roundF32 sqrtF32) q d g es) (collectPathsFl w q d.fl g.fl (es.map EdgeData.fl)) := by
  induction es with
  | nil => exact ⟨rfl, by simp⟩
  | cons e es ih =>
    unfold collectPathsM
    rw [List.map_cons, collectPathsFl]
    have h := findShortestEdgesPath_fl w q d hg e
    generalize findShortestEdgesPathM w (edgeCostR roundF32 sqrtF32) q d g e = r1 at h
    generalize findShortestEdgesPathFl w q d.fl g.fl e.fl = r2 at h
    cases r1 with
    | error e => rw [show r2 = .error e from h]; exact rfl
    | ok r =>
      obtain ⟨rfl, h⟩ := h
      simp only
      generalize collectPathsM w (edgeCostR roundF32 sqrtF32) q d g es = s1 at ih
      generalize collectPathsFl w q d.fl g.fl (es.map EdgeData.fl) = s2 at ih
      cases s1 with
      | error e => rw [show s2 = .error e from ih]; exact rfl
      | ok rest =>
        obtain ⟨rfl, h2⟩ := ih
        cases r with
        | none => exact ⟨rfl, h2⟩
        | some ps =>
          refine ⟨rfl, ?_⟩
          intro ps' hp
          rcases List.mem_cons.mp hp with rfl | hp
          · exact h _ rfl
          · exact h2 ps' hp

/-- All points of the path are numbers of the format. -/
def EdgeNum (e : EdgeData) : Prop := ∀ ps, e.pathPoints = some ps → ∀ p ∈ ps, PointNum 61 p

theorem assignPaths_fl (es : List EdgeData) (pss : List (List Point)) (hp : ∀ ps ∈ pss, ∀ p ∈ ps, PointNum 61 p) :
    SameRun (List.map EdgeData.fl) (fun es => ∀ e ∈ es, EdgeNum e) (assignPaths es pss) (assignPathsFl (es.map EdgeData.fl) (pss.map (List.map Point.fl))) := by
  induction es generalizing pss with
  | nil => exact ⟨rfl, by simp⟩
  | cons e es ih =>
    cases pss with
    | nil => exact rfl
    | cons ps pss =>
      have ih := ih pss fun ps h => hp ps (List.mem_cons_of_mem _ h)
      rw [List.map_cons, List.map_cons, assignPaths, assignPathsFl]
      generalize assignPaths es pss = s1 at ih
      generalize assignPathsFl (es.map EdgeData.fl) (pss.map (List.map Point.fl)) = s2 at ih
      cases s1 with
      | error e => rw [show s2 = .error e from ih]; exact rfl
      | ok rest =>
        obtain ⟨rfl, h2⟩ := ih
        refine ⟨rfl, ?_⟩
        intro e' he
        rcases List.mem_cons.mp he with rfl | he
        · intro ps' h; cases h; exact hp ps (by simp)
        · exact h2 e' he

/-- `draw_edge_path` gives the same with values of `f32`. -/
theorem drawEdgePath_fl (w : Nat → Nat) (tie : Fl → Fl → Bool) (q : Queue) {d : Document} (hd : DocNum d) {g : RouteGraph} (hg : GraphNum g) :
    SameRun (fun p : Document × RouteGraph => (p.1.fl, p.2.fl)) (fun p => DocNum p.1 ∧ ∀ e ∈ p.1.edges, EdgeNum e)
      (drawEdgePathM w (buildRouteGraphR roundF32) (edgeCostR roundF32 sqrtF32) q d g) (drawEdgePathFl w tie q d.fl g.fl) := by
  unfold drawEdgePathM drawEdgePathFl
  have h := buildRouteGraph_fl tie hd hg
  generalize buildRouteGraphR roundF32 d g = r1 at h
  generalize buildRouteGraphFl tie d.fl g.fl = r2 at h
  cases r1 with
  | error e => rw [show r2 = .error e from h]; exact rfl
  | ok g1 =>
    obtain ⟨rfl, hg1⟩ := h
    simp only
    have h := collectPaths_fl w q d hg1 d.edges
    rw [show d.fl.edges = d.edges.map EdgeData.fl from rfl]
    generalize collectPathsM w (edgeCostR roundF32 sqrtF32) q d g1 d.edges = r1 at h
    generalize collectPathsFl w q d.fl g1.fl (d.edges.map EdgeData.fl) = r2 at h
    cases r1 with
    | error e => rw [show r2 = .error e from h]; exact rfl
    | ok pss =>
      obtain ⟨rfl, hp⟩ := h
      simp only
      have h := assignPaths_fl d.edges pss hp
      generalize assignPaths d.edges pss = r1 at h
      generalize assignPathsFl (d.edges.map EdgeData.fl) (pss.map (List.map Point.fl)) = r2 at h
      cases r1 with
      | error e => rw [show r2 = .error e from h]; exact rfl
      | ok es =>
        obtain ⟨rfl, he⟩ := h
        exact ⟨rfl, hd, he⟩

end Seiren
