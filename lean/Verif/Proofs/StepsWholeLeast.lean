import Verif.Proofs.StepsWholeBound
/-! # How many steps the whole program takes at least: no loop is left out of the count -/

namespace Seiren
open Steps Spec

/-- A loop whose rounds keep an invariant and have a least cost for each element. -/
theorem sum_loop {α σ : Type} (f : σ → α → Steps σ) (I : σ → Prop) (cost : α → Nat) (s : σ) (xs : List α) (hI : I s)
    (h : ∀ s, ∀ x ∈ xs, I s → cost x ≤ (f s x).steps ∧ I (f s x).val) : xs.length + (xs.map cost).sum ≤ (loop f s xs).steps := by
  induction xs generalizing s with
  | nil => exact Nat.zero_le _
  | cons x xs ih =>
    rw [loop, round_steps, andThen_steps, List.length_cons, List.map_cons, List.sum_cons]
    have h1 := h s x (by simp) hI
    have h2 := ih (f s x).val h1.2 fun s x hx => h s x (by simp [hx])
    omega

/-! ## `into_mir` -/

theorem le_sAddDefinition (d : EntityDefinition) (doc : Document) (paths : NodePaths) :
    2 * d.fields.length ≤ (sAddDefinition d doc paths).steps := by
  rw [sAddDefinition, andThen_steps, sAddFields_steps, andThen_steps, done_steps]
  have := sum_loop (fun (doc' : Document) id => done (doc'.modifyNode
    ((sAddFields d.name d.fields (doc.createField (headerShape d)).1 paths).val.1.createRecord recordShape).2 (·.appendChild id))) (fun _ => True) (fun _ => 0)
    ((((sAddFields d.name d.fields (doc.createField (headerShape d)).1 paths).val.1.createRecord recordShape).1).modifyNode
      ((sAddFields d.name d.fields (doc.createField (headerShape d)).1 paths).val.1.createRecord recordShape).2
      (·.appendChild (doc.createField (headerShape d)).2))
    (sAddFields d.name d.fields (doc.createField (headerShape d)).1 paths).val.2.2 trivial (fun _ _ _ _ => ⟨Nat.zero_le _, trivial⟩)
  have hl : (sAddFields d.name d.fields (doc.createField (headerShape d)).1 paths).val.2.2.length = d.fields.length := by
    rw [sAddFields_val, addFields_length]
  rw [hl] at this
  omega

theorem le_sIntoMir (m : Module) : m.entries.length + 2 * columnCount (definitions m.entries) ≤ m.sIntoMir.steps := by
  rw [Module.sIntoMir, andThen_steps, done_steps, Nat.add_zero]
  refine le_trans ?_ (sum_loop _ (fun _ => True) (fun e => match e with | .definition d => 2 * d.fields.length | .relation _ => 0) _ _ trivial ?_)
  · refine Nat.add_le_add_left ?_ _
    generalize m.entries = es
    induction es with
    | nil => exact Nat.zero_le _
    | cons e es ih =>
      cases e with
      | definition d => simp only [List.map_cons, List.sum_cons, definitions, columnCount] at ih ⊢; omega
      | relation r => simp only [List.map_cons, List.sum_cons, definitions] at ih ⊢; omega
  · intro st e _ _
    refine ⟨?_, trivial⟩
    cases e with
    | definition d => exact le_sAddDefinition d _ _
    | relation r => exact Nat.le_refl _

/-! ## Placing -/

/-- A part of the data of nodes that a change of one node leaves alone. -/
theorem kept_modify {γ : Type} (π : NodeData → γ) (doc : Document) (i : NodeId) (f : NodeData → NodeData) (hf : ∀ n, π (f n) = π n) (j : NodeId) :
    ((doc.modifyNode i f).getNode j).map π = (doc.getNode j).map π := by
  unfold Document.getNode Document.modifyNode
  simp only [List.getElem?_modify]
  by_cases h : i = j
  · subst h; cases doc.nodes[i]? with
    | none => rfl
    | some n => simp [hf]
  · cases doc.nodes[j]? <;> simp [h]

theorem kept_foldl {α γ : Type} (π : NodeData → γ) (f : Document → α → Document) (xs : List α)
    (h : ∀ doc x j, ((f doc x).getNode j).map π = (doc.getNode j).map π) (doc : Document) (j : NodeId) :
    ((xs.foldl f doc).getNode j).map π = (doc.getNode j).map π := by
  induction xs generalizing doc with
  | nil => rfl
  | cons x xs ih => rw [List.foldl_cons, ih, h]

/-- What placing keeps. -/
def Spec.form (n : NodeData) : ShapeKind × List NodeId := (n.kind, n.children)

/-- What adding ports keeps. -/
def Spec.extent (n : NodeData) : Option Rect × List NodeId := (n.rect, n.children)

theorem form_placeFields (x y : Rat) (cs : List (NodeId × Nat)) (doc : Document) (j : NodeId) :
    ((placeFields x y doc cs).getNode j).map form = (doc.getNode j).map form := by
  unfold placeFields
  refine kept_foldl _ _ _ (fun doc c j => ?_) _ _
  cases hn : doc.getNode c.1 with
  | none => simp only [hn]
  | some n =>
    simp only [hn]
    cases n.kind with
    | field f => exact kept_modify _ _ _ _ (by intros; rfl) _
    | _ => rfl

theorem le_sPlaceFields (x y : Rat) (doc : Document) (ids : List NodeId) : 2 * ids.length ≤ (sPlaceFields x y doc ids).steps := by
  rw [sPlaceFields, andThen_steps, collect_steps, collect_val]
  refine le_trans ?_ (Nat.add_le_add_left (sum_loop _ (fun _ => True) (fun _ => 0) _ _ trivial (fun _ _ _ _ => ⟨Nat.zero_le _, trivial⟩)) _)
  rw [List.length_zipIdx]; omega

theorem le_sPlaceRecord (st : PlaceState) (c : NodeId × Nat) :
    (∀ n, st.doc.getNode c.1 = some n → (∃ r, n.kind = .record r) → 2 * n.children.length ≤ (sPlaceRecord st c).steps) ∧
      ∀ j, ((sPlaceRecord st c).val.doc.getNode j).map form = (st.doc.getNode j).map form := by
  unfold sPlaceRecord
  simp only
  have hdoc : (if c.2 > 0 ∧ c.2 % GRID_N_COLUMNS = 0 then
      { st with baseY := st.baseY + (st.maxHeight + RECORD_SPACE), maxHeight := f32Min } else st : PlaceState).doc = st.doc := by
    split <;> rfl
  generalize (if c.2 > 0 ∧ c.2 % GRID_N_COLUMNS = 0 then
      { st with baseY := st.baseY + (st.maxHeight + RECORD_SPACE), maxHeight := f32Min } else st : PlaceState) = st' at hdoc ⊢
  rw [← hdoc]
  cases hn : st'.doc.getNode c.1 with
  | none => exact ⟨(fun _ h => nomatch h), fun _ => rfl⟩
  | some n =>
    simp only [Option.some.injEq]
    cases hk : n.kind with
    | record r =>
      simp only [andThen_steps, andThen_val, done_steps, done_val, sPlaceFields_val]
      refine ⟨?_, fun j => ?_⟩
      · rintro _ rfl -
        exact (le_sPlaceFields _ _ _ _).trans (Nat.le_add_right _ _)
      · rw [form_placeFields]
        exact kept_modify _ _ _ _ (by intros; rfl) _
    | _ => refine ⟨?_, fun _ => rfl⟩; rintro _ rfl ⟨r, hr⟩; rw [hk] at hr; cases hr

theorem le_sPlaceNodes {doc : Document} (hd : Tabular doc) : 2 * doc.bodyChildren.length + 2 * linesOf doc ≤ (sPlaceNodes doc).steps := by
  rw [sPlaceNodes, andThen_steps, collect_steps, collect_val, andThen_steps, done_steps]
  have h := sum_loop sPlaceRecord (fun st => ∀ j, (st.doc.getNode j).map form = (doc.getNode j).map form) (fun c => 0 + 2 * (childrenOf doc c.1).length)
    { doc := doc, baseY := ORIGIN.y, maxHeight := f32Min } doc.bodyChildren.zipIdx (fun _ => rfl) (by
      intro st c hc hst
      have h := le_sPlaceRecord st c
      refine ⟨?_, fun j => (h.2 j).trans (hst j)⟩
      have hmem : c.1 ∈ tables doc := by
        rw [← bodyChildren_eq]
        exact List.fst_mem_of_mem_zipIdx hc
      obtain ⟨n, r, hn, hr⟩ := hd.isTable c.1 hmem
      have hc' := hst c.1
      rw [show doc.getNode c.1 = some n from hn, Option.map_some, Option.map_eq_some_iff] at hc'
      obtain ⟨n', hn', hf⟩ := hc'
      simp only [form, Prod.mk.injEq] at hf
      have := h.1 n' hn' ⟨r, hf.1.trans hr⟩
      rw [childrenOf_of_getNode (show doc.getNode c.1 = some n from hn), ← hf.2]
      omega)
  rw [sum_linear (fun c : NodeId × Nat => (childrenOf doc c.1).length), zipIdx_sum (fun i => (childrenOf doc i).length), List.length_zipIdx] at h
  simp only [linesOf]
  omega

theorem le_sAddNodePorts (doc : Document) (id : NodeId) (ps : List (Rat × Rat × Orientation)) : ps.length ≤ (sAddNodePorts doc id ps).steps := by
  rw [sAddNodePorts]
  refine le_trans ?_ (sum_loop _ (fun _ => True) (fun _ => 0) _ _ trivial (fun _ _ _ _ => ⟨Nat.zero_le _, trivial⟩))
  omega

theorem two_le_fieldPorts (i n : Nat) (r : Rect) : 2 ≤ (fieldPorts i n r).length := by
  unfold fieldPorts
  split_ifs <;> simp [fourPorts]

theorem extent_addPorts (id : NodeId) (ps : List (Rat × Rat × Orientation)) (n : NodeData) : extent (addPorts id ps n) = extent n := by
  rw [extent, addPorts_rect, addPorts_children]; rfl

theorem extent_placeFieldPorts (k : Nat) (cs : List (NodeId × Nat)) (doc : Document) (j : NodeId) :
    ((placeFieldPorts k doc cs).getNode j).map extent = (doc.getNode j).map extent := by
  unfold placeFieldPorts
  refine kept_foldl _ _ _ (fun doc c j => ?_) _ _
  cases hn : doc.getNode c.1 with
  | none => simp only [hn]
  | some n =>
    simp only [hn]
    cases n.rect with
    | none => rfl
    | some r => exact kept_modify _ _ _ _ (extent_addPorts _ _) _

/-- All of these nodes have a place. -/
def Spec.HavePlaces (doc : Document) (ids : List NodeId) : Prop := ∀ i ∈ ids, ∃ n r, doc.getNode i = some n ∧ n.rect = some r

theorem havePlaces_congr {doc doc' : Document} {ids : List NodeId} (h : ∀ j, (doc'.getNode j).map extent = (doc.getNode j).map extent)
    (hp : HavePlaces doc ids) : HavePlaces doc' ids := by
  intro i hi
  obtain ⟨n, r, hn, hr⟩ := hp i hi
  have h' := h i
  rw [hn, Option.map_some, Option.map_eq_some_iff] at h'
  obtain ⟨n', hn', hf⟩ := h'
  simp only [extent, Prod.mk.injEq] at hf
  exact ⟨n', r, hn', hf.1.trans hr⟩

theorem le_sPlaceFieldPorts {doc : Document} {ids : List NodeId} (hp : HavePlaces doc ids) : 4 * ids.length ≤ (sPlaceFieldPorts doc ids).steps := by
  rw [sPlaceFieldPorts, andThen_steps, collect_steps, collect_val]
  refine le_trans ?_ (Nat.add_le_add_left (sum_loop _ (fun d => ∀ j, (d.getNode j).map extent = (doc.getNode j).map extent) (fun _ => 2) _ _
    (fun _ => rfl) (fun d c hc hd => ?_)) _)
  · rw [List.length_zipIdx, List.map_const', List.sum_replicate_nat, List.length_zipIdx]; omega
  · obtain ⟨n, r, hn, hr⟩ := havePlaces_congr hd hp c.1 (List.fst_mem_of_mem_zipIdx hc)
    simp only [hn, hr]
    refine ⟨(two_le_fieldPorts _ _ _).trans (le_sAddNodePorts _ _ _), fun j => ?_⟩
    rw [sAddNodePorts_val, kept_modify _ _ _ _ (extent_addPorts _ _), hd]

theorem le_sPlaceRecordPorts {doc : Document} {i : NodeId} {n : NodeData} {r : Rect} (hn : doc.getNode i = some n) (hr : n.rect = some r)
    (hp : HavePlaces doc n.children) :
    4 + 4 * n.children.length ≤ (sPlaceRecordPorts doc i).steps ∧
      ∀ j, ((sPlaceRecordPorts doc i).val.getNode j).map extent = (doc.getNode j).map extent := by
  unfold sPlaceRecordPorts
  simp only [hn, hr, andThen_steps, andThen_val, sPlaceFieldPorts_val, sAddNodePorts_val]
  have hk : ∀ j, ((doc.modifyNode i (addPorts i (fourPorts r))).getNode j).map extent = (doc.getNode j).map extent :=
    kept_modify _ _ _ _ (extent_addPorts _ _)
  refine ⟨Nat.add_le_add (le_sAddNodePorts doc i (fourPorts r)) (le_sPlaceFieldPorts (havePlaces_congr hk hp)), fun j => ?_⟩
  rw [extent_placeFieldPorts, hk]

theorem le_sPlaceTerminalPorts {doc : Document} (hp : HavePlaces doc doc.bodyChildren)
    (hc : ∀ i ∈ doc.bodyChildren, HavePlaces doc (childrenOf doc i)) :
    6 * doc.bodyChildren.length + 4 * linesOf doc ≤ (sPlaceTerminalPorts doc).steps := by
  rw [sPlaceTerminalPorts, andThen_steps, collect_steps, collect_val]
  have h := sum_loop sPlaceRecordPorts (fun d => ∀ j, (d.getNode j).map extent = (doc.getNode j).map extent)
    (fun i => 4 + 4 * (childrenOf doc i).length) doc doc.bodyChildren (fun _ => rfl) (by
      intro d i hi hd
      obtain ⟨n, r, hn, hr⟩ := hp i hi
      have h' := hd i
      rw [hn, Option.map_some, Option.map_eq_some_iff] at h'
      obtain ⟨n', hn', hf⟩ := h'
      simp only [extent, Prod.mk.injEq] at hf
      have hch : childrenOf doc i = n'.children := by rw [childrenOf_of_getNode hn, hf.2]
      have h := le_sPlaceRecordPorts hn' (hf.1.trans hr) (by rw [← hch]; exact havePlaces_congr hd (hc i hi))
      rw [← hch] at h
      exact ⟨h.1, fun j => (h.2 j).trans (hd j)⟩)
  rw [sum_linear (fun i => (childrenOf doc i).length)] at h
  simp only [linesOf]
  omega

/-! ## Rendering -/

theorem le_sClipPaths {doc : Document} {cs : List (NodeId × Nat)} {es : List Element} (h : clipPaths doc cs = .ok es) :
    cs.length ≤ (sClipPaths doc cs).steps := by
  induction cs generalizing es with
  | nil => exact Nat.zero_le _
  | cons c cs ih =>
    obtain ⟨id, i⟩ := c
    rw [clipPaths] at h
    rw [sClipPaths, round_steps, List.length_cons]
    refine Nat.succ_le_succ ?_
    cases hn : doc.getNode id with
    | none => simp only [hn] at h; exact ih h
    | some n =>
      simp only [hn] at h ⊢
      cases hk : n.kind with
      | record r =>
        simp only [hk] at h ⊢
        cases ho : n.origin with
        | none => simp [ho] at h
        | some o =>
          cases hs : n.size with
          | none => simp [ho, hs] at h
          | some s =>
            simp only [ho, hs] at h ⊢
            rw [andThenE_steps, sClipPaths_val]
            cases hc : clipPaths doc cs with
            | error e => simp [hc] at h
            | ok es' => exact (ih hc).trans (Nat.le_add_right _ _)
      | _ => simp only [hk] at h ⊢; exact ih h

theorem le_sDrawFields {doc : Document} {clip : Str} {cs : List (NodeId × Nat)} {es : List Element} (h : drawFields doc clip cs = .ok es) :
    cs.length ≤ (sDrawFields doc clip cs).steps := by
  induction cs generalizing es with
  | nil => exact Nat.zero_le _
  | cons c cs ih =>
    obtain ⟨id, i⟩ := c
    rw [drawFields] at h
    rw [sDrawFields, round_steps, List.length_cons]
    refine Nat.succ_le_succ ?_
    cases hn : doc.getNode id with
    | none => simp only [hn] at h; exact ih h
    | some n =>
      simp only [hn] at h ⊢
      cases hk : n.kind with
      | field f =>
        simp only [hk] at h ⊢
        cases hr : n.rect with
        | none => simp [hr] at h
        | some r =>
          simp only [hr] at h ⊢
          rw [andThenE_steps, sDrawFields_val]
          cases hc : drawFields doc clip cs with
          | error e => simp [hc] at h
          | ok es' => exact (ih hc).trans (Nat.le_add_right _ _)
      | _ => simp only [hk] at h ⊢; exact ih h

theorem le_sDrawRecords {doc : Document} {cs : List (NodeId × Nat)} {es : List Element}
    (hrec : ∀ c ∈ cs, ∃ n r, doc.getNode c.1 = some n ∧ n.kind = .record r) (h : drawRecords doc cs = .ok es) :
    cs.length + (cs.map fun c => (childrenOf doc c.1).length).sum ≤ (sDrawRecords doc cs).steps := by
  induction cs generalizing es with
  | nil => exact Nat.zero_le _
  | cons c cs ih =>
    obtain ⟨n, r, hn, hk⟩ := hrec c (by simp)
    obtain ⟨id, i⟩ := c
    simp only at hn
    rw [drawRecords] at h
    rw [sDrawRecords, round_steps, List.length_cons, List.map_cons, List.sum_cons, childrenOf_of_getNode hn]
    simp only [hn, hk] at h ⊢
    cases ho : n.origin with
    | none => simp [ho] at h
    | some o =>
      cases hs : n.size with
      | none => simp [ho, hs] at h
      | some s =>
        simp only [ho, hs] at h ⊢
        rw [andThenE_steps, sDrawFields_val]
        cases hf : drawFields doc (clipPathId i) n.children.zipIdx with
        | error e => simp [hf] at h
        | ok fs =>
          have hf' := le_sDrawFields hf
          rw [List.length_zipIdx] at hf'
          simp only [hf, andThenE_steps, sDrawRecords_val] at h ⊢
          cases hc : drawRecords doc cs with
          | error e => simp [hc] at h
          | ok es' =>
            have := ih (fun c hc => hrec c (by simp [hc])) hc
            simp only
            omega

theorem corner_nonempty {i : Nat} {bp pt fp : Point} {segs : List PathSeg} (h : corner i bp pt fp = .ok segs) : 1 ≤ segs.length := by
  unfold corner at h
  split at h <;> simp at h <;> subst h <;> simp

theorem le_sPathTail {i : Nat} {bp : Point} {ps : List Point} {segs : List PathSeg} (h : pathTail i bp ps = .ok segs) :
    ps.length ≤ (sPathTail i bp ps).steps ∧ ps.length ≤ segs.length := by
  induction ps generalizing i bp segs with
  | nil => exact ⟨Nat.zero_le _, Nat.zero_le _⟩
  | cons p ps ih =>
    cases ps with
    | nil => simp only [pathTail, Except.ok.injEq] at h; subst h; exact ⟨Nat.le_refl _, Nat.le_refl _⟩
    | cons q ps =>
      rw [pathTail] at h
      rw [sPathTail, round_steps]
      cases hc : corner i bp p q with
      | error e => simp [hc] at h
      | ok s =>
        simp only [hc, andThenE_steps, sPathTail_val] at h ⊢
        cases ht : pathTail (i + 1) p (q :: ps) with
        | error e => simp [ht] at h
        | ok s' =>
          simp only [ht, Except.ok.injEq] at h ⊢
          subst h
          have h1 := ih ht
          have h2 := corner_nonempty hc
          rw [List.length_append, List.length_cons]
          omega

theorem le_sPathData {ps : List Point} {d : List PathSeg} (h : pathData ps = .ok d) : 2 * ps.length ≤ (sPathData ps).steps := by
  match ps, h with
  | [], h => simp [pathData] at h
  | [_], h => simp [pathData] at h
  | p :: q :: rest, h =>
    rw [sPathData, round_steps, andThenE_steps, sPathTail_val]
    cases ht : pathTail 1 p (q :: rest) with
    | error e => simp [pathData, ht] at h
    | ok segs =>
      have h1 := le_sPathTail ht
      simp only [andThen_steps, collect_steps, done_steps, List.length_cons] at h1 ⊢
      omega

theorem le_sDrawEdgeConnection {e : EdgeData} {els : List Element} (h : drawEdgeConnection e = .ok els) :
    2 * (e.pathPoints.getD []).length ≤ (sDrawEdgeConnection e).steps := by
  unfold drawEdgeConnection at h
  unfold sDrawEdgeConnection
  cases hp : e.pathPoints with
  | none => exact Nat.zero_le _
  | some ps =>
    simp only [hp, andThen_steps, Option.getD_some] at h ⊢
    cases hd : pathData ps with
    | error p => simp [hd] at h
    | ok d => exact (le_sPathData hd).trans (Nat.le_add_right _ _)

theorem le_sDrawEdges {es : List EdgeData} {els : List Element} (h : drawEdges es = .ok els) :
    es.length + 2 * (es.map fun e => (e.pathPoints.getD []).length).sum ≤ (sDrawEdges es).steps := by
  induction es generalizing els with
  | nil => exact Nat.zero_le _
  | cons e es ih =>
    rw [drawEdges] at h
    rw [sDrawEdges, round_steps, andThenE_steps, sDrawEdgeConnection_val, List.length_cons, List.map_cons, List.sum_cons]
    cases hc : drawEdgeConnection e with
    | error p => simp [hc] at h
    | ok a =>
      simp only [hc, andThenE_steps, sDrawEdges_val] at h ⊢
      cases he : drawEdges es with
      | error p => simp [he] at h
      | ok b =>
        have h1 := le_sDrawEdgeConnection hc
        have h2 := ih he
        simp only
        omega

theorem le_sRender {v : Option Rect} {doc : Document} {root : Element} (hrec : ∀ i ∈ doc.bodyChildren, ∃ n r, doc.getNode i = some n ∧ n.kind = .record r)
    (h : render v doc = .ok root) :
    2 * doc.bodyChildren.length + linesOf doc + (doc.edges.length + 2 * (doc.edges.map fun e => (e.pathPoints.getD []).length).sum) ≤
      (sRender v doc).steps := by
  unfold render at h
  unfold sRender
  rw [andThenE_steps, sClipPaths_val]
  cases h1 : clipPaths doc doc.bodyChildren.zipIdx with
  | error e => simp [h1] at h
  | ok clips =>
    simp only [h1, andThenE_steps, sDrawRecords_val] at h ⊢
    cases h2 : drawRecords doc doc.bodyChildren.zipIdx with
    | error e => simp [h2] at h
    | ok records =>
      simp only [h2, sDrawEdges_val] at h ⊢
      cases h3 : drawEdges doc.edges with
      | error e => simp [h3] at h
      | ok edges =>
        have a1 := le_sClipPaths h1
        have a2 := le_sDrawRecords (fun c hc => hrec c.1 (List.fst_mem_of_mem_zipIdx hc)) h2
        have a3 := le_sDrawEdges h3
        rw [zipIdx_sum (fun i => (childrenOf doc i).length)] at a2
        rw [List.length_zipIdx] at a1 a2
        unfold linesOf
        simp only
        omega

end Seiren
