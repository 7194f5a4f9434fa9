import Verif.Proofs.IeeeGeom
import Verif.Proofs.MirTabular
/-! # Placement with values of `f32` -/

namespace Seiren
open Spec

def TerminalPort.fl (p : TerminalPort) : FlTerminalPort := ⟨p.id, p.location.fl, p.orientation⟩

def NodeData.fl (n : NodeData) : FlNodeData :=
  ⟨n.origin.map Point.fl, n.size.map Size.fl, n.terminalPorts.map TerminalPort.fl, n.kind, n.children⟩

def EdgeData.fl (e : EdgeData) : FlEdgeData := ⟨e.sourceId, e.targetId, e.pathPoints.map (·.map Point.fl)⟩

/-- The document with coordinates as values of `f32`. -/
def Document.fl (d : Document) : FlDocument := ⟨d.nodes.map NodeData.fl, d.edges.map EdgeData.fl, d.bodyId⟩

/-- All coordinates are numbers of the format, and not too large. -/
structure NodeNum (n : NodeData) : Prop where
  origin : ∀ o, n.origin = some o → PointNum 59 o
  size : ∀ s, n.size = some s → SizeNum 59 s
  ports : ∀ p ∈ n.terminalPorts, PointNum 60 p.location

def DocNum (d : Document) : Prop := ∀ n ∈ d.nodes, NodeNum n

theorem getNode_fl (d : Document) (id : NodeId) : d.fl.getNode id = (d.getNode id).map NodeData.fl := by
  simp [FlDocument.getNode, Document.getNode, Document.fl]

theorem bodyChildren_fl (d : Document) : d.fl.bodyChildren = d.bodyChildren := by
  unfold FlDocument.bodyChildren Document.bodyChildren
  rw [getNode_fl, show d.fl.bodyId = d.bodyId from rfl]
  cases d.getNode d.bodyId <;> rfl

theorem modify_map {α β : Type} (h : α → β) (f : α → α) (F : β → β) (hf : ∀ a, F (h a) = h (f a)) (l : List α) (i : Nat) :
    (l.map h).modify i F = (l.modify i f).map h := by
  apply List.ext_getElem?
  intro j
  rw [List.getElem?_modify, List.getElem?_map, List.getElem?_map, List.getElem?_modify]
  cases l[j]? with
  | none => rfl
  | some a =>
    by_cases hij : i = j
    · simp [hij, hf]
    · simp [hij]

theorem modifyNode_fl (d : Document) (id : NodeId) (f : NodeData → NodeData) (F : FlNodeData → FlNodeData)
    (hf : ∀ n : NodeData, F n.fl = (f n).fl) : d.fl.modifyNode id F = (d.modifyNode id f).fl := by
  unfold FlDocument.modifyNode Document.modifyNode Document.fl
  simp only [modify_map NodeData.fl f F hf]

theorem mem_modify {α : Type} {l : List α} {i : Nat} {f : α → α} {a : α} (h : a ∈ l.modify i f) : a ∈ l ∨ ∃ b ∈ l, a = f b := by
  obtain ⟨j, hj⟩ := List.getElem?_of_mem h
  rw [List.getElem?_modify] at hj
  cases hl : l[j]? with
  | none => rw [hl] at hj; simp at hj
  | some b =>
    rw [hl] at hj
    have hb := List.mem_of_getElem? hl
    by_cases hij : i = j
    · simp [hij] at hj; exact Or.inr ⟨b, hb, hj.symm⟩
    · simp [hij] at hj; exact Or.inl (hj ▸ hb)

theorem docNum_modify {d : Document} (hd : DocNum d) (id : NodeId) (f : NodeData → NodeData) (hf : ∀ n, NodeNum n → NodeNum (f n)) :
    DocNum (d.modifyNode id f) := by
  intro n hn
  rcases mem_modify hn with h | ⟨m, hm, rfl⟩
  · exact hd n h
  · exact hf m (hd m hm)

theorem docNum_get {d : Document} (hd : DocNum d) {id : NodeId} {n : NodeData} (h : d.getNode id = some n) : NodeNum n :=
  hd n (List.mem_of_getElem? h)

theorem nodeNum_rect {n : NodeData} (h : NodeNum n) {r : Rect} (hr : n.rect = some r) : RectNum 59 r := by
  unfold NodeData.rect at hr
  cases ho : n.origin with
  | none => rw [ho] at hr; cases hr
  | some o =>
    cases hs : n.size with
    | none => rw [ho, hs] at hr; cases hr
    | some s =>
      rw [ho, hs] at hr
      simp only [Option.bind_some, Option.map_some, Option.some.injEq] at hr
      subst hr
      exact ⟨h.origin o ho, h.size s hs⟩

theorem rect_fl (n : NodeData) : n.fl.rect = n.rect.map Rect.fl := by
  unfold FlNodeData.rect NodeData.rect NodeData.fl
  cases n.origin <;> cases n.size <;> rfl

/-! ## What placement does not change -/

/-- Kinds and children of the nodes. -/
def skeleton (d : Document) : List (ShapeKind × List NodeId) := d.nodes.map fun n => (n.kind, n.children)

theorem skeleton_modify (d : Document) (id : NodeId) (f : NodeData → NodeData)
    (hf : ∀ n, (f n).kind = n.kind ∧ (f n).children = n.children) : skeleton (d.modifyNode id f) = skeleton d := by
  unfold skeleton Document.modifyNode
  apply List.ext_getElem?
  intro j
  simp only [List.getElem?_map, List.getElem?_modify]
  cases d.nodes[j]? with
  | none => rfl
  | some a =>
    by_cases hij : id = j
    · simp [hij, hf]
    · simp [hij]

/-! ## Bounds on rounding -/

/-- Rounding a sum goes no further than twice the second summand. -/
theorem round_add_le {p q : Rat} (hp : IsF32 p) (hq : 0 ≤ q) : p ≤ roundF32 (p + q) ∧ roundF32 (p + q) ≤ p + 2 * q := by
  have h := roundF32_nearest (p + q) p hp
  rw [show p - (p + q) = -q by ring, abs_neg, abs_of_nonneg hq] at h
  have h' := abs_le.mp h
  constructor <;> linarith

theorem round_le_two {q : Rat} (hq : 0 ≤ q) : roundF32 q ≤ 2 * q := by
  have := (round_add_le isF32_zero hq).2
  rwa [zero_add, zero_add] at this

/-! ## The fields of a record -/

theorem num_lit {k : Nat} (n : Nat) (h : n < 2 ^ 24) (hk : n ≤ 2 ^ k) : Num k (n : Rat) := by
  have := num_ofInt (k := k) (n : Int) (by rw [abs_of_nonneg (by omega)]; omega)
    (by rw [Int.cast_natCast, abs_of_nonneg (Nat.cast_nonneg n)]; exact_mod_cast hk)
  rwa [Int.cast_natCast] at this

theorem lineHeight_fl : flLineHeight = ofNum LINE_HEIGHT := (ofNum_ne_zero (by norm_num)).symm
theorem recordWidth_fl : flRecordWidth = ofNum RECORD_WIDTH := (ofNum_ne_zero (by norm_num)).symm
theorem recordSpace_fl : flRecordSpace = ofNum RECORD_SPACE := (ofNum_ne_zero (by norm_num)).symm
theorem origin_fl : flOrigin = ofNum ORIGIN.x ∧ flOrigin = ofNum ORIGIN.y :=
  ⟨(ofNum_ne_zero (by norm_num)).symm, (ofNum_ne_zero (by norm_num)).symm⟩

theorem num_lineHeight : Num 6 LINE_HEIGHT := num_lit 35 (by norm_num) (by norm_num)
theorem num_recordWidth : Num 9 RECORD_WIDTH := num_lit 300 (by norm_num) (by norm_num)
theorem num_recordSpace : Num 7 RECORD_SPACE := num_lit 80 (by norm_num) (by norm_num)
theorem num_originX : Num 6 ORIGIN.x := num_lit 50 (by norm_num) (by norm_num)
theorem num_originY : Num 6 ORIGIN.y := num_lit 50 (by norm_num) (by norm_num)

/-- Heights of lines. -/
theorem fl_lines {n : Nat} (h : n ≤ 2 ^ 40) :
    Fl.mul flLineHeight (Fl.ofNat n) = ofNum (roundF32 (LINE_HEIGHT * roundF32 n)) ∧ Num 46 (roundF32 (LINE_HEIGHT * roundF32 n)) ∧
    0 ≤ roundF32 (LINE_HEIGHT * roundF32 n) ∧ roundF32 (LINE_HEIGHT * roundF32 n) ≤ 140 * n := by
  have h0 : (0 : Rat) ≤ n := Nat.cast_nonneg n
  have hn : (n : Rat) ≤ 2 ^ 40 := by exact_mod_cast h
  have n1 : Num 40 (roundF32 n) := num_round (by norm_num) (by rwa [abs_of_nonneg h0])
  have r0 := roundF32_nonneg h0
  have r2 := round_le_two h0
  have l35 : LINE_HEIGHT = 35 := rfl
  have hp : 0 ≤ LINE_HEIGHT * roundF32 n := mul_nonneg (by rw [l35]; norm_num) r0
  have hle : |LINE_HEIGHT * roundF32 n| ≤ 2 ^ 46 := by
    rw [abs_of_nonneg hp, l35]
    have := (abs_le.mp n1.le).2
    norm_num at this ⊢
    linarith
  refine ⟨?_, num_round (by norm_num) hle, roundF32_nonneg hp, ?_⟩
  · rw [lineHeight_fl, fl_ofNat (hn.trans (by norm_num))]
    exact fl_mul num_lineHeight.fmt n1.fmt (by rw [l35]; norm_num) r0 (below_of_le (k := 46) (by norm_num) hle)
  · have := round_le_two hp
    rw [l35] at this ⊢
    linarith

theorem num_field {x y : Rat} (hx : Num 59 x) (hy : Num 59 y) {s : Size} (hs : SizeNum 59 s) {n : NodeData} (h : NodeNum n) :
    NodeNum { n with origin := some ⟨x, y⟩, size := some s } :=
  ⟨fun o ho => by cases ho; exact ⟨hx, hy⟩, fun t ht => by cases ht; exact hs, h.ports⟩

theorem placeFields_fl {x baseY : Rat} (hx : Num 59 x) (hy : Num 58 baseY) (fields : List (NodeId × Nat)) (hf : ∀ p ∈ fields, p.2 ≤ 2 ^ 40)
    (d : Document) (hd : DocNum d) :
    placeFieldsFl (ofNum x) (ofNum baseY) d.fl fields = (placeFieldsR roundF32 x baseY d fields).fl ∧
    DocNum (placeFieldsR roundF32 x baseY d fields) ∧ skeleton (placeFieldsR roundF32 x baseY d fields) = skeleton d := by
  induction fields generalizing d with
  | nil => exact ⟨rfl, hd, rfl⟩
  | cons p ps ih =>
    obtain ⟨id, i⟩ := p
    have hi : i ≤ 2 ^ 40 := hf (id, i) (by simp)
    have ih := fun d hd => ih (fun p hp => hf p (List.mem_cons_of_mem _ hp)) d hd
    obtain ⟨e1, n1, -, -⟩ := fl_lines hi
    have n1' := n1.mono (show 46 ≤ 58 by norm_num)
    have ny := num_add (by norm_num) hy n1'
    have ey := fl_add' (by norm_num) hy n1'
    unfold placeFieldsFl placeFieldsR
    rw [List.foldl_cons, List.foldl_cons]
    simp only
    rw [e1, ey, getNode_fl]
    cases hg : d.getNode id with
    | none => exact ih d hd
    | some n =>
      simp only [Option.map_some]
      have hk : n.fl.kind = n.kind := rfl
      rw [hk]
      cases hkind : n.kind with
      | body => exact ih d hd
      | record r => exact ih d hd
      | field f =>
        simp only
        have hs : SizeNum 59 ⟨RECORD_WIDTH, LINE_HEIGHT⟩ :=
          ⟨num_recordWidth.mono (by norm_num), num_lineHeight.mono (by norm_num), by unfold RECORD_WIDTH; norm_num, by unfold LINE_HEIGHT; norm_num⟩
        rw [modifyNode_fl d id (fun n => { n with origin := some ⟨x, roundF32 (baseY + roundF32 (LINE_HEIGHT * roundF32 i))⟩, size := some ⟨RECORD_WIDTH, LINE_HEIGHT⟩ })]
        · have := ih _ (docNum_modify hd id _ fun n hn => num_field hx ny hs hn)
          rw [skeleton_modify] at this
          · exact this
          · intro n; exact ⟨rfl, rfl⟩
        · intro n
          simp [NodeData.fl, Point.fl, Size.fl, recordWidth_fl, lineHeight_fl]

/-! ## The records -/

def PlaceState.fl (st : PlaceState) : FlPlaceState := ⟨st.doc.fl, ofNum st.baseY, ofNum st.maxHeight⟩

structure StNum (b : Rat) (st : PlaceState) : Prop where
  doc : DocNum st.doc
  yF : IsF32 st.baseY
  y0 : 0 ≤ st.baseY
  hF : IsF32 st.maxHeight
  h0 : st.maxHeight = f32Min ∨ 0 ≤ st.maxHeight
  le : st.baseY + 4 * (max st.maxHeight 0 + 80) ≤ b

/-- A new row. -/
theorem newRow_fl {b : Rat} (hb : b ≤ 2 ^ 57) {st : PlaceState} (h : StNum b st) (hm : 0 ≤ st.maxHeight) :
    Fl.add (ofNum st.baseY) (Fl.add (ofNum st.maxHeight) flRecordSpace) =
      ofNum (roundF32 (st.baseY + roundF32 (st.maxHeight + RECORD_SPACE))) ∧
    StNum (b + 320) { st with baseY := roundF32 (st.baseY + roundF32 (st.maxHeight + RECORD_SPACE)), maxHeight := f32Min } := by
  have l80 : RECORD_SPACE = 80 := rfl
  have hle := h.le
  rw [max_eq_left hm] at hle
  have hy0 := h.y0
  have nh : Num 57 st.maxHeight := ⟨h.hF, by rw [abs_of_nonneg hm]; linarith⟩
  have ny : Num 58 st.baseY := ⟨h.yF, by rw [abs_of_nonneg h.y0]; norm_num at hb ⊢; linarith⟩
  have ns := num_recordSpace.mono (show 7 ≤ 57 by norm_num)
  have n1 := num_add (by norm_num) nh ns
  have s0 : 0 ≤ st.maxHeight + RECORD_SPACE := by rw [l80]; linarith
  have r0 := roundF32_nonneg s0
  have r1 := round_le_two s0
  have r2 := round_add_le h.yF r0
  refine ⟨?_, h.doc, (num_add (by norm_num) ny n1).fmt, h.y0.trans r2.1, isF32_neg isF32_max, Or.inl rfl, ?_⟩
  · rw [recordSpace_fl, fl_add' (by norm_num) nh ns, fl_add' (by norm_num) ny n1]
  · have : max f32Min 0 = 0 := max_eq_right (by unfold f32Min; norm_num)
    simp only [this]
    rw [l80] at *
    linarith [r2.2]

theorem recordX_fl (i : Nat) :
    Fl.add flOrigin (Fl.mul (Fl.add flRecordWidth flRecordSpace) (Fl.ofNat (i % GRID_N_COLUMNS))) =
      ofNum (roundF32 (ORIGIN.x + roundF32 (roundF32 (RECORD_WIDTH + RECORD_SPACE) * roundF32 (i % GRID_N_COLUMNS : Nat)))) ∧
    Num 59 (roundF32 (ORIGIN.x + roundF32 (roundF32 (RECORD_WIDTH + RECORD_SPACE) * roundF32 (i % GRID_N_COLUMNS : Nat)))) := by
  have h : i % GRID_N_COLUMNS = 0 ∨ i % GRID_N_COLUMNS = 1 ∨ i % GRID_N_COLUMNS = 2 := by
    unfold GRID_N_COLUMNS; omega
  have n1 := num_add (by norm_num) num_recordWidth (num_recordSpace.mono (show 7 ≤ 9 by norm_num))
  have hk : ((i % GRID_N_COLUMNS : Nat) : Rat) ≤ 2 ∧ (0 : Rat) ≤ (i % GRID_N_COLUMNS : Nat) := by
    refine ⟨?_, Nat.cast_nonneg _⟩
    rcases h with h | h | h <;> rw [h] <;> norm_num
  have n2 : Num 1 (roundF32 (i % GRID_N_COLUMNS : Nat)) := num_round (by norm_num) (by rw [abs_of_nonneg hk.2]; rw [pow_one]; exact hk.1)
  have p1 : 0 ≤ roundF32 (RECORD_WIDTH + RECORD_SPACE) := roundF32_nonneg (by unfold RECORD_WIDTH RECORD_SPACE; norm_num)
  have p2 := roundF32_nonneg hk.2
  have hle : |roundF32 (RECORD_WIDTH + RECORD_SPACE) * roundF32 (i % GRID_N_COLUMNS : Nat)| ≤ 2 ^ 11 := by
    rw [abs_mul]
    calc _ ≤ (2 : Rat) ^ 10 * 2 ^ 1 := mul_le_mul n1.le n2.le (abs_nonneg _) (by positivity)
      _ = 2 ^ 11 := by norm_num
  have n3 : Num 11 _ := num_round (by norm_num) hle
  have n4 := num_originX.mono (show 6 ≤ 11 by norm_num)
  refine ⟨?_, (num_add (by norm_num) n4 n3).mono (by norm_num)⟩
  rw [recordWidth_fl, recordSpace_fl, fl_add' (k := 9) (by norm_num) num_recordWidth (num_recordSpace.mono (by norm_num)),
    fl_ofNat (hk.1.trans (by norm_num)), fl_mul n1.fmt n2.fmt p1 p2 (below_of_le (k := 11) (by norm_num) hle), origin_fl.1,
    fl_add' (by norm_num) n4 n3]

theorem placeRecord_fl (tie : Fl → Fl → Bool) {b : Rat} {st : PlaceState} (h : StNum b st) {id i : Nat} {r : RecordShape} {ch : List NodeId}
    (hsk : (skeleton st.doc)[id]? = some (.record r, ch)) (hi : i > 0 → 0 ≤ st.maxHeight) (hc : ch.length ≤ 2 ^ 40)
    (hb : b + 560 * ch.length + 320 ≤ 2 ^ 57) :
    placeRecordFl tie st.fl (id, i) = (placeRecordR roundF32 st (id, i)).fl ∧
    StNum (b + 560 * ch.length + 320) (placeRecordR roundF32 st (id, i)) ∧ 0 ≤ (placeRecordR roundF32 st (id, i)).maxHeight ∧
    skeleton (placeRecordR roundF32 st (id, i)).doc = skeleton st.doc := by
  have hc0 : (0 : Rat) ≤ ch.length := Nat.cast_nonneg _
  -- the new row
  have key : ∃ st' : PlaceState, StNum (b + 320) st' ∧ st'.doc = st.doc ∧
      (if i > 0 ∧ i % GRID_N_COLUMNS = 0 then
        { st with baseY := roundF32 (st.baseY + roundF32 (st.maxHeight + RECORD_SPACE)), maxHeight := f32Min } else st) = st' ∧
      (if i > 0 ∧ i % GRID_N_COLUMNS = 0 then
        { st.fl with baseY := Fl.add st.fl.baseY (Fl.add st.fl.maxHeight flRecordSpace), maxHeight := Fl.MIN } else st.fl) = st'.fl := by
    by_cases hrow : i > 0 ∧ i % GRID_N_COLUMNS = 0
    · rw [if_pos hrow, if_pos hrow]
      obtain ⟨e, hn⟩ := newRow_fl (by linarith) h (hi hrow.1)
      refine ⟨_, hn, rfl, rfl, ?_⟩
      unfold PlaceState.fl
      simp only [FlPlaceState.mk.injEq]
      exact ⟨trivial, e, ofNum_MIN⟩
    · rw [if_neg hrow, if_neg hrow]
      exact ⟨st, ⟨h.doc, h.yF, h.y0, h.hF, h.h0, by linarith [h.le]⟩, rfl, rfl, rfl⟩
  obtain ⟨st', hst, hdoc, e1, e2⟩ := key
  unfold placeRecordFl placeRecordR
  simp only
  rw [e1, e2]
  clear e1 e2
  obtain ⟨d', y', m'⟩ := st'
  subst hdoc
  have hg : ∃ n, st.doc.getNode id = some n ∧ n.kind = .record r ∧ n.children = ch := by
    unfold skeleton at hsk
    rw [List.getElem?_map] at hsk
    cases hn : st.doc.nodes[id]? with
    | none => rw [hn] at hsk; cases hsk
    | some n =>
      rw [hn] at hsk
      simp only [Option.map_some, Option.some.injEq, Prod.mk.injEq] at hsk
      exact ⟨n, hn, hsk⟩
  obtain ⟨n, hn, hk, rfl⟩ := hg
  have hfl : (PlaceState.mk st.doc y' m').fl.doc.getNode id = some n.fl := by
    show st.doc.fl.getNode id = _
    rw [getNode_fl, hn]; rfl
  rw [hfl]
  simp only
  rw [hn]
  simp only
  rw [show n.fl.kind = n.kind from rfl, hk, show n.fl.children = n.children from rfl]
  simp only
  obtain ⟨ex, nx⟩ := recordX_fl i
  obtain ⟨eh, nh, h0, hle⟩ := fl_lines hc
  generalize roundF32 (ORIGIN.x + roundF32 (roundF32 (RECORD_WIDTH + RECORD_SPACE) * roundF32 (i % GRID_N_COLUMNS : Nat))) = x at ex nx ⊢
  generalize hH : roundF32 (LINE_HEIGHT * roundF32 (n.children.length : Nat)) = H at eh nh h0 hle ⊢
  rw [ex, eh]
  have hY := hst.le
  have y0 := hst.y0
  simp only at hY y0
  have hmx : 0 ≤ max m' 0 := le_max_right _ _
  have ny : Num 58 y' := ⟨hst.yF, by rw [abs_of_nonneg y0]; norm_num at hb ⊢; linarith⟩
  have hs : SizeNum 59 ⟨RECORD_WIDTH, H⟩ :=
    ⟨num_recordWidth.mono (by norm_num), nh.mono (by norm_num), by unfold RECORD_WIDTH; norm_num, h0⟩
  have hd1 : DocNum (st.doc.modifyNode id fun n => { n with origin := some ⟨x, y'⟩, size := some ⟨RECORD_WIDTH, H⟩ }) :=
    docNum_modify hst.doc id _ fun n hn => num_field nx (ny.mono (by norm_num)) hs hn
  have hsk1 : skeleton (st.doc.modifyNode id fun n => { n with origin := some ⟨x, y'⟩, size := some ⟨RECORD_WIDTH, H⟩ }) = skeleton st.doc :=
    skeleton_modify _ _ _ fun n => ⟨rfl, rfl⟩
  have hzip : ∀ p ∈ n.children.zipIdx, p.2 ≤ 2 ^ 40 := by
    intro p hp
    have := (List.mem_zipIdx hp).2.1
    omega
  obtain ⟨ef, hd2, hsk2⟩ := placeFields_fl nx ny n.children.zipIdx hzip _ hd1
  have hmax : 0 ≤ max H m' := le_max_of_le_left h0
  refine ⟨?_, ?_, hmax, hsk2.trans hsk1⟩
  · unfold PlaceState.fl
    simp only [FlPlaceState.mk.injEq]
    refine ⟨?_, trivial, fl_max nh.fmt hst.hF tie⟩
    rw [← ef]
    congr 1
    refine modifyNode_fl _ _ _ _ fun n => ?_
    simp [NodeData.fl, Point.fl, Size.fl, recordWidth_fl]
  · refine ⟨hd2, hst.yF, hst.y0, ?_, Or.inr hmax, ?_⟩
    · rcases max_choice H m' with e | e
      · show IsF32 (max H m'); rw [e]; exact nh.fmt
      · show IsF32 (max H m'); rw [e]; exact hst.hF
    · show y' + 4 * (max (max H m') 0 + 80) ≤ _
      rw [max_eq_left hmax]
      have : max H m' ≤ max m' 0 + H := by
        rcases max_choice H m' with e | e <;> rw [e]
        · linarith
        · linarith [le_max_left m' 0]
      linarith

/-- How high the records can become. -/
def heightBound (sk : List (ShapeKind × List NodeId)) (ids : List NodeId) : Rat :=
  (ids.map fun id => match sk[id]? with | some (_, ch) => 560 * (ch.length : Rat) + 320 | none => 0).sum

theorem placeRecords_fl (tie : Fl → Fl → Bool) (ids : List NodeId) (k : Nat) {b : Rat} {st : PlaceState} (h : StNum b st)
    (hk : k > 0 → 0 ≤ st.maxHeight)
    (hsk : ∀ id ∈ ids, ∃ r ch, (skeleton st.doc)[id]? = some (.record r, ch) ∧ ch.length ≤ 2 ^ 40)
    (hb : b + heightBound (skeleton st.doc) ids ≤ 2 ^ 57) :
    (ids.zipIdx k).foldl (placeRecordFl tie) st.fl = ((ids.zipIdx k).foldl (placeRecordR roundF32) st).fl ∧
    StNum (b + heightBound (skeleton st.doc) ids) ((ids.zipIdx k).foldl (placeRecordR roundF32) st) ∧
    skeleton ((ids.zipIdx k).foldl (placeRecordR roundF32) st).doc = skeleton st.doc := by
  induction ids generalizing k b st with
  | nil => exact ⟨rfl, by simpa [heightBound] using h, rfl⟩
  | cons id ids ih =>
    obtain ⟨r, ch, hs, hc⟩ := hsk id (by simp)
    have hh : heightBound (skeleton st.doc) (id :: ids) = 560 * ch.length + 320 + heightBound (skeleton st.doc) ids := by
      simp [heightBound, hs]
    have hpos : 0 ≤ heightBound (skeleton st.doc) ids := by
      refine List.sum_nonneg ?_
      intro x hx
      obtain ⟨i, -, rfl⟩ := List.mem_map.mp hx
      split
      · positivity
      · exact le_refl 0
    rw [hh] at hb
    obtain ⟨e1, h1, h2, h3⟩ := placeRecord_fl tie h (i := k) hs hk hc (by linarith)
    have := ih (k + 1) h1 (fun _ => h2) (by rw [h3]; exact fun i hi => hsk i (List.mem_cons_of_mem _ hi)) (by rw [h3]; linarith)
    rw [List.zipIdx_cons, List.foldl_cons, List.foldl_cons, e1, hh]
    obtain ⟨a1, a2, a3⟩ := this
    rw [h3] at a2 a3
    refine ⟨a1, ?_, a3⟩
    convert a2 using 1
    ring

/-- `place_nodes` gives the same with values of `f32`. -/
theorem placeNodes_fl (tie : Fl → Fl → Bool) {d : Document} (hd : DocNum d)
    (hsk : ∀ id ∈ d.bodyChildren, ∃ r ch, (skeleton d)[id]? = some (.record r, ch) ∧ ch.length ≤ 2 ^ 40)
    (hb : 370 + heightBound (skeleton d) d.bodyChildren ≤ 2 ^ 57) :
    placeNodesFl tie d.fl = ((placeNodesR roundF32 d).1.fl, (placeNodesR roundF32 d).2.fl) ∧
    DocNum (placeNodesR roundF32 d).1 ∧ skeleton (placeNodesR roundF32 d).1 = skeleton d := by
  have h0 : StNum 370 { doc := d, baseY := ORIGIN.y, maxHeight := f32Min } := by
    refine ⟨hd, num_originY.fmt, ?_, isF32_neg isF32_max, Or.inl rfl, ?_⟩
    · show (0 : Rat) ≤ 50; norm_num
    · show (50 : Rat) + 4 * (max f32Min 0 + 80) ≤ 370
      rw [max_eq_right (by unfold f32Min; norm_num)]; norm_num
  obtain ⟨e, h1, h2⟩ := placeRecords_fl tie d.bodyChildren 0 h0 (by simp) hsk hb
  unfold placeNodesFl placeNodesR
  simp only
  rw [bodyChildren_fl]
  have e0 : ({ doc := d.fl, baseY := flOrigin, maxHeight := Fl.MIN } : FlPlaceState) =
      (PlaceState.mk d ORIGIN.y f32Min).fl := by
    unfold PlaceState.fl; rw [← origin_fl.2, ofNum_MIN]
  rw [e0, e]
  generalize (d.bodyChildren.zipIdx.foldl (placeRecordR roundF32) { doc := d, baseY := ORIGIN.y, maxHeight := f32Min }) = st at *
  refine ⟨?_, h1.doc, h2⟩
  have hw : Fl.add (Fl.add (Fl.mul flOrigin Fl.two) (Fl.mul (Fl.ofNat GRID_N_COLUMNS) flRecordWidth)) (Fl.mul (Fl.ofNat (GRID_N_COLUMNS - 1)) flRecordSpace) =
      ofNum (roundF32 (roundF32 (roundF32 (ORIGIN.x * 2) + roundF32 (roundF32 GRID_N_COLUMNS * RECORD_WIDTH)) + roundF32 (roundF32 (GRID_N_COLUMNS - 1 : Nat) * RECORD_SPACE))) := by
    decide +kernel
  have hy0 := h1.y0
  have hle := h1.le
  have hm0 : 0 ≤ max st.maxHeight 0 := le_max_right _ _
  have hyle : st.baseY ≤ 2 ^ 57 := by linarith
  have hs : |st.baseY + st.maxHeight| ≤ f32Max := by
    rcases h1.h0 with h | h
    · rw [h, abs_le]
      unfold f32Min f32Max
      norm_num at hyle ⊢
      constructor <;> linarith
    · rw [abs_of_nonneg (by linarith)]
      rw [max_eq_left h] at hle
      unfold f32Max
      norm_num at hb ⊢
      linarith
  have hF : IsF32 (roundF32 (st.baseY + st.maxHeight)) := roundF32_isF32 _ hs
  have hlt : |roundF32 (st.baseY + st.maxHeight) + ORIGIN.y| < 2 ^ 128 - 2 ^ 103 := by
    refine (abs_add_le _ _).trans_lt ?_
    have := isF32_abs hF
    have h50 : |ORIGIN.y| = 50 := by show |(50 : Rat)| = 50; norm_num
    rw [h50]
    unfold f32Max at this
    norm_num at this ⊢
    linarith
  rw [hw]
  simp only [PlaceState.fl, Rect.fl, Point.fl, Size.fl, Point.zero, Prod.mk.injEq, FlRect.mk.injEq, FlSize.mk.injEq, true_and]
  refine ⟨rfl, ?_⟩
  rw [fl_add h1.yF h1.hF (hs.trans_lt f32Max_lt), origin_fl.2, fl_add hF num_originY.fmt hlt]

/-! ## Ports -/

/-- The coordinates of ports as values of `f32`. -/
def portsFl (ps : List (Rat × Rat × Orientation)) : List (Fl × Fl × Orientation) := ps.map fun (x, y, o) => (ofNum x, ofNum y, o)

theorem addPorts_fl (id : NodeId) (ps : List (Rat × Rat × Orientation)) (n : NodeData) :
    addPortsFl id (portsFl ps) n.fl = (addPorts id ps n).fl := by
  induction ps generalizing n with
  | nil => rfl
  | cons p ps ih =>
    obtain ⟨x, y, o⟩ := p
    unfold addPortsFl addPorts portsFl at *
    rw [List.map_cons, List.foldl_cons, List.foldl_cons, ← ih]
    congr 1
    simp [FlNodeData.addTerminalPort, NodeData.addTerminalPort, NodeData.fl, TerminalPort.fl, Point.fl]

theorem addPorts_num (id : NodeId) (ps : List (Rat × Rat × Orientation)) (hp : ∀ p ∈ ps, PointNum 60 ⟨p.1, p.2.1⟩) (n : NodeData) (hn : NodeNum n) :
    NodeNum (addPorts id ps n) := by
  induction ps generalizing n with
  | nil => exact hn
  | cons p ps ih =>
    unfold addPorts at *
    rw [List.foldl_cons]
    refine ih (fun p h => hp p (List.mem_cons_of_mem _ h)) _ ⟨hn.origin, hn.size, ?_⟩
    intro q hq
    simp only [NodeData.addTerminalPort, List.mem_append, List.mem_singleton] at hq
    rcases hq with hq | rfl
    · exact hn.ports q hq
    · exact hp p (by simp)

theorem addPorts_same (id : NodeId) (ps : List (Rat × Rat × Orientation)) (n : NodeData) :
    (addPorts id ps n).kind = n.kind ∧ (addPorts id ps n).children = n.children := by
  induction ps generalizing n with
  | nil => exact ⟨rfl, rfl⟩
  | cons p ps ih => unfold addPorts at *; rw [List.foldl_cons]; exact ih _

theorem ports_fl {r : Rect} (hr : RectNum 59 r) :
    fourPortsFl r.fl = portsFl (fourPortsR roundF32 r) ∧ (∀ p ∈ fourPortsR roundF32 r, PointNum 60 ⟨p.1, p.2.1⟩) ∧
    ∀ i c, fieldPortsFl i c r.fl = portsFl (fieldPortsR roundF32 i c r) ∧ ∀ p ∈ fieldPortsR roundF32 i c r, PointNum 60 ⟨p.1, p.2.1⟩ := by
  obtain ⟨e1, n1⟩ := fl_maxX (by norm_num) hr
  obtain ⟨e2, n2⟩ := fl_maxY (by norm_num) hr
  obtain ⟨e3, n3⟩ := fl_midX (by norm_num) hr
  obtain ⟨e4, n4⟩ := fl_midY (by norm_num) hr
  have n5 : Num 60 r.minX := hr.o.x.mono (by norm_num)
  have n6 : Num 60 r.minY := hr.o.y.mono (by norm_num)
  have e5 : r.fl.minX = ofNum r.minX := rfl
  have e6 : r.fl.minY = ofNum r.minY := rfl
  have a : fourPortsFl r.fl = portsFl (fourPortsR roundF32 r) := by
    simp [fourPortsFl, fourPortsR, portsFl, e1, e2, e3, e4, e5, e6]
  have b : ∀ p ∈ fourPortsR roundF32 r, PointNum 60 ⟨p.1, p.2.1⟩ := by
    simp only [fourPortsR, List.mem_cons, List.not_mem_nil, or_false]
    rintro p (rfl | rfl | rfl | rfl)
    · exact ⟨n3, n6⟩
    · exact ⟨n1, n4⟩
    · exact ⟨n3, n2⟩
    · exact ⟨n5, n4⟩
  refine ⟨a, b, ?_⟩
  intro i c
  unfold fieldPortsFl fieldPortsR
  split
  · exact ⟨a, b⟩
  split
  · refine ⟨by simp [portsFl, e1, e3, e4, e5, e6], ?_⟩
    simp only [List.mem_cons, List.not_mem_nil, or_false]
    rintro p (rfl | rfl | rfl)
    · exact ⟨n3, n6⟩
    · exact ⟨n1, n4⟩
    · exact ⟨n5, n4⟩
  split
  · refine ⟨by simp [portsFl, e1, e2, e3, e4, e5], ?_⟩
    simp only [List.mem_cons, List.not_mem_nil, or_false]
    rintro p (rfl | rfl | rfl)
    · exact ⟨n1, n4⟩
    · exact ⟨n3, n2⟩
    · exact ⟨n5, n4⟩
  · refine ⟨by simp [portsFl, e1, e4, e5], ?_⟩
    simp only [List.mem_cons, List.not_mem_nil, or_false]
    rintro p (rfl | rfl)
    · exact ⟨n1, n4⟩
    · exact ⟨n5, n4⟩

theorem placeFieldPorts_fl (c : Nat) (fields : List (NodeId × Nat)) (d : Document) (hd : DocNum d) :
    placeFieldPortsFl c d.fl fields = (placeFieldPortsR roundF32 c d fields).fl ∧ DocNum (placeFieldPortsR roundF32 c d fields) := by
  induction fields generalizing d with
  | nil => exact ⟨rfl, hd⟩
  | cons p ps ih =>
    obtain ⟨id, i⟩ := p
    unfold placeFieldPortsFl placeFieldPortsR
    rw [List.foldl_cons, List.foldl_cons]
    simp only
    rw [getNode_fl]
    cases hg : d.getNode id with
    | none => exact ih d hd
    | some n =>
      simp only [Option.map_some]
      rw [rect_fl]
      cases hr : n.rect with
      | none => exact ih d hd
      | some r =>
        simp only [Option.map_some]
        obtain ⟨-, -, h⟩ := ports_fl (nodeNum_rect (docNum_get hd hg) hr)
        obtain ⟨e, hn⟩ := h i c
        rw [e, modifyNode_fl d id (addPorts id (fieldPortsR roundF32 i c r)) _ (addPorts_fl id _)]
        exact ih _ (docNum_modify hd id _ (addPorts_num id _ hn))

theorem placeTerminalPorts_fl (d : Document) (hd : DocNum d) :
    placeTerminalPortsFl d.fl = (placeTerminalPortsR roundF32 d).fl ∧ DocNum (placeTerminalPortsR roundF32 d) := by
  unfold placeTerminalPortsFl placeTerminalPortsR
  rw [bodyChildren_fl]
  have key : ∀ (ids : List NodeId) (d : Document), DocNum d →
      ids.foldl placeRecordPortsFl d.fl = (ids.foldl (placeRecordPortsR roundF32) d).fl ∧ DocNum (ids.foldl (placeRecordPortsR roundF32) d) := by
    intro ids
    induction ids with
    | nil => intro d hd; exact ⟨rfl, hd⟩
    | cons id ids ih =>
      intro d hd
      rw [List.foldl_cons, List.foldl_cons]
      have step : placeRecordPortsFl d.fl id = (placeRecordPortsR roundF32 d id).fl ∧ DocNum (placeRecordPortsR roundF32 d id) := by
        unfold placeRecordPortsFl placeRecordPortsR
        rw [getNode_fl]
        cases hg : d.getNode id with
        | none => exact ⟨rfl, hd⟩
        | some n =>
          simp only [Option.map_some]
          rw [rect_fl]
          cases hr : n.rect with
          | none => exact ⟨rfl, hd⟩
          | some r =>
            simp only [Option.map_some]
            obtain ⟨e, hn, -⟩ := ports_fl (nodeNum_rect (docNum_get hd hg) hr)
            rw [e, modifyNode_fl d id (addPorts id (fourPortsR roundF32 r)) _ (addPorts_fl id _)]
            exact placeFieldPorts_fl _ _ _ (docNum_modify hd id _ (addPorts_num id _ hn))
      rw [step.1]
      exact ih _ step.2
  exact key _ d hd

end Seiren
