import Verif.Proofs.IeeeRoute
/-! # Rendering with values of `f32` -/

namespace Seiren

mutual
/-- The element with the text of every attribute in place of its value. -/
def Spec.shown : Element → Element
  | .mk name attrs children text =>
    .mk name (attrs.map fun a => (a.1, .str (a.2.displayWith displayF32))) (shownAll children) text

/-- The same for a list of elements. -/
def Spec.shownAll : List Element → List Element
  | [] => []
  | e :: es => Spec.shown e :: Spec.shownAll es
end

open Spec

theorem shownAll_append (a b : List Element) : shownAll (a ++ b) = shownAll a ++ shownAll b := by
  induction a with
  | nil => rfl
  | cons e es ih => rw [List.cons_append, shownAll, ih, shownAll, List.cons_append]

/-- The text of an attribute. -/
def shownAttr (a : Str × AttrVal) : Str × AttrVal := (a.1, .str (a.2.displayWith displayF32))

theorem shown_mk (n : Str) (a : List (Str × AttrVal)) (c : List Element) (t : Option Str) :
    shown (.mk n a c t) = .mk n (a.map shownAttr) (shownAll c) t := by rw [shown]; rfl

theorem shown_leaf (n : Str) (a : List (Str × AttrVal)) : shown (leaf n a) = leaf n (a.map shownAttr) := by
  unfold leaf; rw [shown_mk]; rfl

theorem attr_num (k : Str) (q : Rat) : shownAttr (k, .num q) = flAttr k (ofNum q) := by
  unfold shownAttr flAttr
  rw [display_ofNum]
  rfl

theorem attr_str (k s : Str) : shownAttr (k, .str s) = (k, .str s) := rfl

theorem colorAttr_shown (k : Str) (c : Option WebColor) : (colorAttr k c).map shownAttr = colorAttr k c := by
  cases c <;> rfl

theorem drawText_fl (span : TextSpan) (o : Point) (anchor : SVGAnchor) : drawTextFl span o.fl anchor = shown (drawText span o anchor) := by
  unfold drawTextFl drawText
  rw [shown_mk]
  simp only [List.map_append, List.map_cons, List.map_nil, attr_num, attr_str, colorAttr_shown, shownAll]
  cases span.fontFamily <;> cases span.fontWeight <;> cases span.fontSize <;> rfl

theorem recordRectAttrs_fl (o : Point) (s : Size) : recordRectAttrsFl o.fl s.fl = (recordRectAttrs o s).map shownAttr := by
  unfold recordRectAttrsFl recordRectAttrs
  simp only [List.map_cons, List.map_nil, attr_num]
  rw [show ofNum borderRadius = flBorderRadius from ofNum_ne_zero (by unfold borderRadius; norm_num)]
  rfl

theorem clipPaths_fl (d : Document) (l : List (NodeId × Nat)) : clipPathsFl d.fl l = (clipPaths d l).map shownAll := by
  induction l with
  | nil => rfl
  | cons p l ih =>
    obtain ⟨id, i⟩ := p
    rw [clipPathsFl, clipPaths, getNode_fl]
    cases d.getNode id with
    | none => exact ih
    | some n =>
      simp only [Option.map_some]
      rw [show n.fl.kind = n.kind from rfl, show n.fl.origin = n.origin.map Point.fl from rfl, show n.fl.size = n.size.map Size.fl from rfl]
      cases n.kind with
      | body => exact ih
      | field f => exact ih
      | record r =>
        simp only
        cases n.origin with
        | none => rfl
        | some o =>
          simp only [Option.map_some]
          cases n.size with
          | none => rfl
          | some s =>
            simp only [Option.map_some]
            rw [ih]
            cases clipPaths d l with
            | error e => rfl
            | ok es =>
              simp only [Except.map]
              rw [shownAll, shown_mk, shownAll, shown_leaf, shownAll, recordRectAttrs_fl]
              rfl

/-! ## Fields -/

theorem subtitle_fl {r : Rect} (hr : RectNum 59 r) :
    Fl.add r.fl.minX (Fl.mul (Fl.div r.fl.size.width (.fin 5)) (.fin 4)) = ofNum (roundF32 (r.minX + roundF32 (roundF32 (r.width / 5) * 4))) := by
  have e5 : Fl.fin 5 = ofNum 5 := (ofNum_ne_zero (by norm_num)).symm
  have e4 : Fl.fin 4 = ofNum 4 := (ofNum_ne_zero (by norm_num)).symm
  have n5 : Num 3 5 := num_lit 5 (by norm_num) (by norm_num)
  have n4 : Num 2 4 := num_lit 4 (by norm_num) (by norm_num)
  have w0 : 0 ≤ r.width := hr.s.w0
  have w1 : r.width ≤ 2 ^ 59 := (abs_le.mp hr.s.w.le).2
  have p0 : 0 ≤ r.width / 5 := by positivity
  have hle : |r.width / 5| ≤ 2 ^ 59 := by rw [abs_of_nonneg p0]; linarith
  have n1 : Num 59 (roundF32 (r.width / 5)) := num_round (by norm_num) hle
  have r0 := roundF32_nonneg p0
  have hle2 : |roundF32 (r.width / 5) * 4| ≤ 2 ^ 61 := by
    rw [abs_of_nonneg (by linarith)]
    have := (abs_le.mp n1.le).2
    norm_num at this ⊢
    linarith
  have n2 : Num 61 (roundF32 (roundF32 (r.width / 5) * 4)) := num_round (by norm_num) hle2
  rw [e5, e4, show r.fl.size.width = ofNum r.width from rfl, show r.fl.minX = ofNum r.minX from rfl,
    fl_div (p := r.width) hr.s.w.fmt n5.fmt w0 (by norm_num) (below_of_le (k := 59) (by norm_num) hle),
    fl_mul n1.fmt n4.fmt r0 (by norm_num) (below_of_le (k := 61) (by norm_num) hle2)]
  exact fl_add' (k := 61) (by norm_num) (hr.o.x.mono (by norm_num)) n2

theorem px_fl : flPx = ofNum px := (ofNum_ne_zero (by norm_num)).symm

theorem num_px : Num 59 px := num_lit 12 (by norm_num) (by norm_num)

theorem badge_fl {r : Rect} (hr : RectNum 59 r) :
    Fl.sub (Fl.div r.fl.size.height Fl.two) (.fin 6) = ofNum (roundF32 (roundF32 (r.height / 2) - 6)) ∧
    Fl.sub (Fl.sub r.fl.maxX flPx) (Fl.sub (Fl.div r.fl.size.height Fl.two) (.fin 6)) =
      ofNum (roundF32 (roundF32 (r.maxXR roundF32 - px) - roundF32 (roundF32 (r.height / 2) - 6))) := by
  have e6 : Fl.fin 6 = ofNum 6 := (ofNum_ne_zero (by norm_num)).symm
  have n6 : Num 59 6 := num_lit 6 (by norm_num) (by norm_num)
  have nh : Num 59 (roundF32 (r.height / 2)) := num_half (by norm_num) hr.s.h
  obtain ⟨ex, nx⟩ := fl_maxX (by norm_num) hr
  have e1 : Fl.sub (Fl.div r.fl.size.height Fl.two) (.fin 6) = ofNum (roundF32 (roundF32 (r.height / 2) - 6)) := by
    rw [e6, show r.fl.size.height = ofNum r.height from rfl, fl_half (k := 59) (q := r.height) (by norm_num) hr.s.h hr.s.h0]
    exact fl_sub' (by norm_num) nh n6
  refine ⟨e1, ?_⟩
  have n1 := num_sub (by norm_num) nh n6
  have npx := num_px.mono (show 59 ≤ 60 by norm_num)
  rw [e1, ex, px_fl, fl_sub' (by norm_num) nx npx]
  exact fl_sub' (k := 61) (by norm_num) (num_sub (by norm_num) nx npx) (n1.mono (by norm_num))

theorem drawField_fl (clipId : Str) (i : Nat) (f : FieldShape) {r : Rect} (hr : RectNum 59 r) :
    drawFieldFl clipId i f r.fl = shownAll (drawFieldR roundF32 clipId i f r) := by
  obtain ⟨ex, nx⟩ := fl_maxX (by norm_num) hr
  obtain ⟨ey, ny⟩ := fl_midY (by norm_num) hr
  obtain ⟨eb, eb2⟩ := badge_fl hr
  have es := subtitle_fl hr
  have ep : Fl.add r.fl.minX flPx = ofNum (roundF32 (r.minX + px)) := by
    rw [px_fl]; exact fl_add' (by norm_num) hr.o.x num_px
  unfold drawFieldFl drawFieldR
  simp only [shownAll_append]
  rw [eb2, eb, es, ep, ex, ey]
  refine congrArg₂ (· ++ ·) (congrArg₂ (· ++ ·) (congrArg₂ (· ++ ·) (congrArg₂ (· ++ ·) ?_ ?_) ?_) ?_) ?_
  · cases f.bgColor with
    | none => rfl
    | some bg =>
      simp only [shownAll]
      rw [shown_leaf]
      simp only [List.map_cons, List.map_nil, attr_num, attr_str]
      rfl
  · split
    · simp only [shownAll]
      rw [shown_leaf]
      simp only [List.map_append, List.map_cons, List.map_nil, attr_num]
      cases f.borderColor with
      | none => rfl
      | some bc =>
        have h1 : shownAttr (c!"stroke-width", .num 1) = (c!"stroke-width", .str c!"1") := by
          unfold shownAttr
          rw [show (AttrVal.num 1).displayWith displayF32 = displayF32 1 from rfl, show displayF32 1 = c!"1" by decide +kernel]
        simp only [List.map_cons, List.map_nil, h1, attr_str]
        rfl
    · rfl
  · rw [shownAll, shownAll, ← drawText_fl]; rfl
  · cases f.subtitle with
    | none => rfl
    | some s => simp only; rw [shownAll, shownAll, ← drawText_fl]; rfl
  · cases f.badge with
    | none => rfl
    | some b =>
      simp only [shownAll_append]
      refine congrArg₂ (· ++ ·) ?_ ?_
      · cases b.bgColor with
        | none => rfl
        | some bg =>
          simp only [shownAll]
          rw [shown_leaf]
          simp only [List.map_cons, List.map_nil, attr_num, attr_str]
      · rw [shownAll, shownAll, ← drawText_fl]; rfl

theorem drawFields_fl {d : Document} (hd : DocNum d) (clipId : Str) (l : List (NodeId × Nat)) :
    drawFieldsFl d.fl clipId l = (drawFieldsR roundF32 d clipId l).map shownAll := by
  induction l with
  | nil => rfl
  | cons p l ih =>
    obtain ⟨id, i⟩ := p
    rw [drawFieldsFl, drawFieldsR, getNode_fl]
    cases hg : d.getNode id with
    | none => exact ih
    | some n =>
      simp only [Option.map_some]
      rw [show n.fl.kind = n.kind from rfl]
      cases n.kind with
      | body => exact ih
      | record r => exact ih
      | field f =>
        simp only
        rw [rect_fl]
        cases hr : n.rect with
        | none => rfl
        | some r =>
          simp only [Option.map_some]
          rw [ih]
          cases drawFieldsR roundF32 d clipId l with
          | error e => rfl
          | ok es =>
            simp only [Except.map]
            rw [shownAll_append, drawField_fl clipId i f (nodeNum_rect (docNum_get hd hg) hr)]

theorem drawRecords_fl {d : Document} (hd : DocNum d) (l : List (NodeId × Nat)) :
    drawRecordsFl d.fl l = (drawRecordsR roundF32 d l).map shownAll := by
  induction l with
  | nil => rfl
  | cons p l ih =>
    obtain ⟨id, i⟩ := p
    rw [drawRecordsFl, drawRecordsR, getNode_fl]
    cases d.getNode id with
    | none => exact ih
    | some n =>
      simp only [Option.map_some]
      rw [show n.fl.kind = n.kind from rfl, show n.fl.origin = n.origin.map Point.fl from rfl, show n.fl.size = n.size.map Size.fl from rfl,
        show n.fl.children = n.children from rfl]
      cases n.kind with
      | body => exact ih
      | field f => exact ih
      | record r =>
        simp only
        cases n.origin with
        | none => rfl
        | some o =>
          simp only [Option.map_some]
          cases n.size with
          | none => rfl
          | some s =>
            simp only [Option.map_some]
            rw [drawFields_fl hd, ih]
            cases drawFieldsR roundF32 d (clipPathId i) n.children.zipIdx with
            | error e => rfl
            | ok fields =>
              simp only [Except.map]
              cases drawRecordsR roundF32 d l with
              | error e => rfl
              | ok es =>
                simp only [List.cons_append, shownAll, shownAll_append, shown_leaf, List.map_append, colorAttr_shown, recordRectAttrs_fl]

/-! ## Paths -/

theorem pathRadius_fl : flPathRadius = ofNum pathRadius := (ofNum_ne_zero (by norm_num)).symm

theorem num_pathRadius : Num 61 pathRadius := num_lit 6 (by norm_num) (by norm_num)

theorem lineTo_fl (p : Point) : flLineTo p.fl = (PathCommand.lineTo p).displayWith displayF32 := by
  unfold flLineTo PathCommand.displayWith Point.fl
  simp only [display_ofNum]

theorem moveTo_fl (p : Point) : flMoveTo p.fl = (PathCommand.moveTo p).displayWith displayF32 := by
  unfold flMoveTo PathCommand.displayWith Point.fl
  simp only [display_ofNum]

theorem quadTo_fl (c p : Point) : flQuadTo c.fl p.fl = (PathCommand.quadTo c p).displayWith displayF32 := by
  unfold flQuadTo PathCommand.displayWith Point.fl
  simp only [display_ofNum]

theorem corner_fl (i : Nat) {bp pt fp : Point} (h1 : PointNum 61 bp) (h2 : PointNum 61 pt) (h3 : PointNum 61 fp) :
    cornerFl i bp.fl pt.fl fp.fl = (cornerR roundF32 i bp pt fp).map (List.map (PathCommand.displayWith displayF32)) := by
  have ax : Fl.add pt.fl.x flPathRadius = ofNum (roundF32 (pt.x + pathRadius)) := by rw [pathRadius_fl]; exact fl_add' (by norm_num) h2.x num_pathRadius
  have ay : Fl.add pt.fl.y flPathRadius = ofNum (roundF32 (pt.y + pathRadius)) := by rw [pathRadius_fl]; exact fl_add' (by norm_num) h2.y num_pathRadius
  have sx : Fl.sub pt.fl.x flPathRadius = ofNum (roundF32 (pt.x - pathRadius)) := by rw [pathRadius_fl]; exact fl_sub' (by norm_num) h2.x num_pathRadius
  have sy : Fl.sub pt.fl.y flPathRadius = ofNum (roundF32 (pt.y - pathRadius)) := by rw [pathRadius_fl]; exact fl_sub' (by norm_num) h2.y num_pathRadius
  have pf : ∀ x y, (⟨ofNum x, ofNum y⟩ : FlPoint) = (Point.mk x y).fl := fun _ _ => rfl
  unfold cornerFl cornerR
  rw [fl_direction h1 h2, fl_direction h2 h3, ax, ay, sx, sy, show pt.fl.x = ofNum pt.x from rfl, show pt.fl.y = ofNum pt.y from rfl]
  simp only [pf, lineTo_fl, quadTo_fl]
  cases bp.orthogonalDirection pt <;> cases pt.orthogonalDirection fp <;> rfl

theorem pathTail_fl (i : Nat) {bp : Point} (hb : PointNum 61 bp) (ps : List Point) (hp : ∀ p ∈ ps, PointNum 61 p) :
    pathTailFl i bp.fl (ps.map Point.fl) = (pathTailR roundF32 i bp ps).map (List.map (PathCommand.displayWith displayF32)) := by
  induction ps generalizing i bp with
  | nil => rfl
  | cons pt ps ih =>
    cases ps with
    | nil => simp only [List.map_cons, List.map_nil, pathTailFl, pathTailR, lineTo_fl]; rfl
    | cons fp rest =>
      have h2 := hp pt (by simp)
      have ih := ih (i + 1) h2 fun p h => hp p (List.mem_cons_of_mem _ h)
      simp only [List.map_cons] at ih ⊢
      rw [pathTailFl, pathTailR, corner_fl i hb h2 (hp fp (by simp)), ih]
      cases cornerR roundF32 i bp pt fp with
      | error e => rfl
      | ok segs =>
        simp only [Except.map]
        cases pathTailR roundF32 (i + 1) pt (fp :: rest) with
        | error e => rfl
        | ok segs' => simp only [List.map_append]

theorem pathData_fl (ps : List Point) (hp : ∀ p ∈ ps, PointNum 61 p) :
    pathDataFl (ps.map Point.fl) = (pathDataR roundF32 ps).map (List.map (PathCommand.displayWith displayF32)) := by
  match ps with
  | [] => rfl
  | [p] => rfl
  | p :: q :: rest =>
    have h := pathTail_fl 1 (hp p (by simp)) (q :: rest) fun p h => hp p (List.mem_cons_of_mem _ h)
    simp only [List.map_cons] at h ⊢
    rw [pathDataFl, pathDataR, h]
    cases pathTailR roundF32 1 p (q :: rest) with
    | error e => rfl
    | ok segs => simp only [Except.map, List.map_cons, moveTo_fl]

theorem strokeWidth_fl : flAttr c!"stroke-width" (.fin (3/2)) = shownAttr (c!"stroke-width", .num (3/2)) := by
  rw [attr_num, ofNum_ne_zero (by norm_num)]

theorem endCircle_fl (p : Point) : endCircleFl p.fl = shown (endCircle p) := by
  unfold endCircleFl endCircle
  rw [shown_leaf, strokeWidth_fl]
  simp only [List.map_cons, List.map_nil, attr_str]
  simp only [attr_num]
  rw [show ofNum 4 = Fl.fin 4 from ofNum_ne_zero (by norm_num)]
  rfl

theorem drawEdgeConnection_fl {e : EdgeData} (he : EdgeNum e) : drawEdgeConnectionFl e.fl = (drawEdgeConnectionR roundF32 e).map shownAll := by
  unfold drawEdgeConnectionFl drawEdgeConnectionR
  rw [show e.fl.pathPoints = e.pathPoints.map (·.map Point.fl) from rfl, show e.fl.sourceId = e.sourceId from rfl]
  cases hp : e.pathPoints with
  | none => rfl
  | some ps =>
    simp only [Option.map_some]
    rw [pathData_fl ps (he ps hp), List.head?_map, List.getLast?_map]
    cases pathDataR roundF32 ps with
    | error p => rfl
    | ok d =>
      simp only [Except.map]
      cases ps.head? with
      | none => rfl
      | some s =>
        cases ps.getLast? with
        | none => rfl
        | some t =>
          simp only [Option.map_some]
          rw [shownAll, shownAll, shownAll, shownAll, shown_leaf, endCircle_fl, endCircle_fl, strokeWidth_fl]
          rfl

theorem drawEdges_fl (es : List EdgeData) (he : ∀ e ∈ es, EdgeNum e) : drawEdgesFl (es.map EdgeData.fl) = (drawEdgesR roundF32 es).map shownAll := by
  induction es with
  | nil => rfl
  | cons e es ih =>
    have ih := ih fun e h => he e (List.mem_cons_of_mem _ h)
    rw [List.map_cons, drawEdgesFl, drawEdgesR, drawEdgeConnection_fl (he e (by simp)), ih]
    cases drawEdgeConnectionR roundF32 e with
    | error err => rfl
    | ok els =>
      simp only [Except.map]
      cases drawEdgesR roundF32 es with
      | error err => rfl
      | ok rest => simp only [shownAll_append]

/-- `render` gives the same with values of `f32`. -/
theorem render_fl (v : Option Rect) {d : Document} (hd : DocNum d) (he : ∀ e ∈ d.edges, EdgeNum e) :
    renderFl (v.map Rect.fl) d.fl = (renderR roundF32 v d).map shown := by
  unfold renderFl renderR
  rw [bodyChildren_fl, clipPaths_fl, drawRecords_fl hd, show d.fl.edges = d.edges.map EdgeData.fl from rfl, drawEdges_fl _ he]
  cases clipPaths d d.bodyChildren.zipIdx with
  | error e => rfl
  | ok clips =>
    simp only [Except.map]
    cases drawRecordsR roundF32 d d.bodyChildren.zipIdx with
    | error e => rfl
    | ok records =>
      simp only
      cases drawEdgesR roundF32 d.edges with
      | error e => rfl
      | ok edges =>
        simp only
        simp only [shown_mk, List.cons_append, shownAll, shownAll_append, shown_leaf]
        cases v with
        | none => rfl
        | some v =>
          simp only [Option.map_some, List.map_cons, List.map_nil, attr_str]
          have : shownAttr (c!"viewBox", .nums [v.minX, v.minY, v.width, v.height]) = (c!"viewBox", AttrVal.str (joinWith c!", "
              [v.fl.minX.display, v.fl.minY.display, v.fl.size.width.display, v.fl.size.height.display])) := by
            unfold shownAttr
            simp only [AttrVal.displayWith, List.map_cons, List.map_nil, show v.fl.minX = ofNum v.minX from rfl, show v.fl.minY = ofNum v.minY from rfl,
              show v.fl.size.width = ofNum v.width from rfl, show v.fl.size.height = ofNum v.height from rfl, display_ofNum]
          rw [this]

mutual
/-- The text of an element is the text of what is shown. -/
theorem toText_shown (esc : Str → Str) (e : Element) : (shown e).toText esc = e.toTextWith displayF32 esc := by
  match e with
  | .mk n a c t =>
    rw [shown_mk, Element.toText, Element.toTextWith, childrenText_shown esc c, List.map_map]
    have : (shownAll c).isEmpty = c.isEmpty := by cases c <;> simp [shownAll]
    rw [this]
    rfl
theorem childrenText_shown (esc : Str → Str) (es : List Element) : childrenText esc (shownAll es) = childrenTextWith displayF32 esc es := by
  match es with
  | [] => simp [shownAll, childrenText, childrenTextWith]
  | e :: es => rw [shownAll, childrenText, childrenTextWith, toText_shown esc e, childrenText_shown esc es]
end

theorem svgText_shown (esc : Str → Str) (e : Element) : svgText esc (shown e) = svgTextM esc e := by
  unfold svgText svgTextM
  rw [← toText_shown]
  obtain ⟨n, a, c, t⟩ := e
  rw [shown_mk]
  unfold withNamespace
  rw [shown_mk]
  rfl

end Seiren
