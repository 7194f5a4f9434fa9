import Verif.Proofs.StepsWhole
import Verif.Proofs.MirTabular
import Verif.Props.Bounds
import Verif.Props.OutputSize
/-! # How many steps the whole program takes at most -/

namespace Seiren
open Steps Spec

/-- A loop whose rounds keep an invariant, with a cost for each element. -/
theorem loop_sum {α σ : Type} (f : σ → α → Steps σ) (I : σ → Prop) (cost : α → Nat) (s : σ) (xs : List α) (hI : I s)
    (h : ∀ s, ∀ x ∈ xs, I s → (f s x).steps ≤ cost x ∧ I (f s x).val) : (loop f s xs).steps ≤ xs.length + (xs.map cost).sum := by
  induction xs generalizing s with
  | nil => exact Nat.zero_le _
  | cons x xs ih =>
    rw [loop, round_steps, andThen_steps, List.length_cons, List.map_cons, List.sum_cons]
    have h1 := h s x (by simp) hI
    have h2 := ih (f s x).val h1.2 fun s x hx => h s x (by simp [hx])
    omega

/-! ## `into_mir` -/

theorem sAddFields_steps (entity : Str) (fs : List EntityField) (doc : Document) (paths : NodePaths) :
    (sAddFields entity fs doc paths).steps = fs.length := by
  induction fs generalizing doc paths with
  | nil => rfl
  | cons f fs ih => rw [sAddFields, round_steps, andThen_steps, done_steps, ih, List.length_cons]

theorem addFields_length (entity : Str) (fs : List EntityField) (doc : Document) (paths : NodePaths) :
    (addFields entity fs doc paths).2.2.length = fs.length := by
  induction fs generalizing doc paths with
  | nil => rfl
  | cons f fs ih => rw [addFields, List.length_cons, List.length_cons, ih]

theorem sAddDefinition_le (d : EntityDefinition) (doc : Document) (paths : NodePaths) :
    (sAddDefinition d doc paths).steps ≤ 2 * d.fields.length := by
  rw [sAddDefinition, andThen_steps, sAddFields_steps, andThen_steps, done_steps]
  have := loop_le (fun (doc' : Document) id => done (doc'.modifyNode
    ((sAddFields d.name d.fields (doc.createField (headerShape d)).1 paths).val.1.createRecord recordShape).2 (·.appendChild id))) 0
    ((((sAddFields d.name d.fields (doc.createField (headerShape d)).1 paths).val.1.createRecord recordShape).1).modifyNode
      ((sAddFields d.name d.fields (doc.createField (headerShape d)).1 paths).val.1.createRecord recordShape).2
      (·.appendChild (doc.createField (headerShape d)).2))
    (sAddFields d.name d.fields (doc.createField (headerShape d)).1 paths).val.2.2 (fun _ _ _ => Nat.le_refl _)
  have hl : (sAddFields d.name d.fields (doc.createField (headerShape d)).1 paths).val.2.2.length = d.fields.length := by
    rw [sAddFields_val, addFields_length]
  rw [hl] at this
  omega

theorem sIntoMir_le (m : Module) : m.sIntoMir.steps ≤ m.entries.length + 2 * columnCount (definitions m.entries) := by
  rw [Module.sIntoMir, andThen_steps, done_steps, Nat.add_zero]
  refine (loop_sum _ (fun _ => True) (fun e => match e with | .definition d => 2 * d.fields.length | .relation _ => 0) _ _ trivial ?_).trans ?_
  · intro st e _ _
    refine ⟨?_, trivial⟩
    cases e with
    | definition d => exact sAddDefinition_le d _ _
    | relation r => exact Nat.le_refl _
  · refine Nat.add_le_add_left ?_ _
    generalize m.entries = es
    induction es with
    | nil => exact Nat.zero_le _
    | cons e es ih =>
      cases e with
      | definition d => simp only [List.map_cons, List.sum_cons, definitions, columnCount] at ih ⊢; omega
      | relation r => simp only [List.map_cons, List.sum_cons, definitions] at ih ⊢; omega

/-! ## Placing -/

theorem childrenOf_modify (doc : Document) (i : NodeId) (f : NodeData → NodeData) (hf : ∀ n, (f n).children = n.children) (j : NodeId) :
    childrenOf (doc.modifyNode i f) j = childrenOf doc j := by
  unfold childrenOf Document.modifyNode
  simp only [List.getElem?_modify]
  by_cases h : i = j
  · subst h; cases doc.nodes[i]? with
    | none => rfl
    | some n => simp [hf]
  · cases doc.nodes[j]? <;> simp [h]

theorem childrenOf_foldl {α : Type} (f : Document → α → Document) (xs : List α) (h : ∀ doc x j, childrenOf (f doc x) j = childrenOf doc j)
    (doc : Document) (j : NodeId) : childrenOf (xs.foldl f doc) j = childrenOf doc j := by
  induction xs generalizing doc with
  | nil => rfl
  | cons x xs ih => rw [List.foldl_cons, ih, h]

theorem childrenOf_placeFields (x y : Rat) (cs : List (NodeId × Nat)) (doc : Document) (j : NodeId) :
    childrenOf (placeFields x y doc cs) j = childrenOf doc j := by
  unfold placeFields
  refine childrenOf_foldl _ _ (fun doc c j => ?_) _ _
  cases hn : doc.getNode c.1 with
  | none => simp only [hn]
  | some n =>
    simp only [hn]
    cases n.kind with
    | field f => exact childrenOf_modify _ _ _ (by intros; rfl) _
    | _ => rfl

theorem childrenOf_of_getNode {doc : Document} {i : NodeId} {n : NodeData} (h : doc.getNode i = some n) : childrenOf doc i = n.children := by
  unfold childrenOf
  rw [show doc.nodes[i]? = some n from h]

theorem sPlaceFields_le (x y : Rat) (doc : Document) (ids : List NodeId) : (sPlaceFields x y doc ids).steps ≤ 2 * ids.length := by
  rw [sPlaceFields, andThen_steps, collect_steps, collect_val]
  refine (Nat.add_le_add_left (loop_le _ 0 _ _ (fun _ _ _ => Nat.le_refl _)) _).trans ?_
  rw [List.length_zipIdx]; omega

theorem sPlaceRecord_le (st : PlaceState) (c : NodeId × Nat) :
    (sPlaceRecord st c).steps ≤ 2 * (childrenOf st.doc c.1).length ∧ ∀ j, childrenOf (sPlaceRecord st c).val.doc j = childrenOf st.doc j := by
  unfold sPlaceRecord
  simp only
  have hdoc : (if c.2 > 0 ∧ c.2 % GRID_N_COLUMNS = 0 then
      { st with baseY := st.baseY + (st.maxHeight + RECORD_SPACE), maxHeight := f32Min } else st : PlaceState).doc = st.doc := by
    split <;> rfl
  generalize (if c.2 > 0 ∧ c.2 % GRID_N_COLUMNS = 0 then
      { st with baseY := st.baseY + (st.maxHeight + RECORD_SPACE), maxHeight := f32Min } else st : PlaceState) = st' at hdoc ⊢
  rw [← hdoc]
  cases hn : st'.doc.getNode c.1 with
  | none => exact ⟨Nat.zero_le _, fun _ => rfl⟩
  | some n =>
    simp only
    cases n.kind with
    | record r =>
      simp only [andThen_steps, andThen_val, done_steps, done_val, sPlaceFields_val, childrenOf_of_getNode hn]
      refine ⟨(Nat.add_zero _).le.trans (sPlaceFields_le _ _ _ _), fun j => ?_⟩
      rw [childrenOf_placeFields]
      exact childrenOf_modify _ _ _ (by intros; rfl) _
    | _ => exact ⟨Nat.zero_le _, fun _ => rfl⟩

theorem zipIdx_sum {α : Type} (f : α → Nat) (xs : List α) (k : Nat) : ((xs.zipIdx k).map fun c => f c.1).sum = (xs.map f).sum := by
  induction xs generalizing k with
  | nil => rfl
  | cons x xs ih => rw [List.zipIdx_cons, List.map_cons, List.sum_cons, ih, List.map_cons, List.sum_cons]

theorem sum_linear {α : Type} (f : α → Nat) (a b : Nat) (xs : List α) : (xs.map fun x => a + b * f x).sum = a * xs.length + b * (xs.map f).sum := by
  induction xs with
  | nil => rfl
  | cons x xs ih => simp only [List.map_cons, List.sum_cons, List.length_cons, ih]; ring

/-- The lines of all tables of a document. -/
def linesOf (doc : Document) : Nat := (doc.bodyChildren.map fun i => (childrenOf doc i).length).sum

theorem sPlaceNodes_le (doc : Document) : (sPlaceNodes doc).steps ≤ 2 * doc.bodyChildren.length + 2 * linesOf doc := by
  rw [sPlaceNodes, andThen_steps, collect_steps, collect_val, andThen_steps, done_steps]
  have h := loop_sum sPlaceRecord (fun st => ∀ j, childrenOf st.doc j = childrenOf doc j) (fun c => 0 + 2 * (childrenOf doc c.1).length)
    { doc := doc, baseY := ORIGIN.y, maxHeight := f32Min } doc.bodyChildren.zipIdx (fun _ => rfl) (by
      intro st c _ hst
      have h := sPlaceRecord_le st c
      rw [hst] at h
      exact ⟨by omega, fun j => (h.2 j).trans (hst j)⟩)
  rw [sum_linear (fun c : NodeId × Nat => (childrenOf doc c.1).length), zipIdx_sum (fun i => (childrenOf doc i).length), List.length_zipIdx] at h
  simp only [linesOf]
  omega

theorem sAddNodePorts_le (doc : Document) (id : NodeId) (ps : List (Rat × Rat × Orientation)) : (sAddNodePorts doc id ps).steps ≤ ps.length := by
  rw [sAddNodePorts]
  refine (loop_le _ 0 _ _ (fun _ _ _ => Nat.le_refl _)).trans ?_
  omega

theorem fieldPorts_length (i n : Nat) (r : Rect) : (fieldPorts i n r).length ≤ 4 := by
  unfold fieldPorts
  split_ifs <;> simp [fourPorts]

theorem sPlaceFieldPorts_le (doc : Document) (ids : List NodeId) : (sPlaceFieldPorts doc ids).steps ≤ 6 * ids.length := by
  rw [sPlaceFieldPorts, andThen_steps, collect_steps, collect_val]
  refine (Nat.add_le_add_left (loop_le _ 4 _ _ (fun doc c _ => ?_)) _).trans ?_
  · cases doc.getNode c.1 with
    | none => exact Nat.zero_le _
    | some n =>
      simp only
      cases n.rect with
      | none => exact Nat.zero_le _
      | some r => exact (sAddNodePorts_le _ _ _).trans (fieldPorts_length _ _ _)
  · rw [List.length_zipIdx]; omega

theorem childrenOf_placeFieldPorts (k : Nat) (cs : List (NodeId × Nat)) (doc : Document) (j : NodeId) :
    childrenOf (placeFieldPorts k doc cs) j = childrenOf doc j := by
  unfold placeFieldPorts
  refine childrenOf_foldl _ _ (fun doc c j => ?_) _ _
  cases hn : doc.getNode c.1 with
  | none => simp only [hn]
  | some n =>
    simp only [hn]
    cases n.rect with
    | none => rfl
    | some r => exact childrenOf_modify _ _ _ (addPorts_children _ _) _

theorem sPlaceRecordPorts_le (doc : Document) (i : NodeId) :
    (sPlaceRecordPorts doc i).steps ≤ 4 + 6 * (childrenOf doc i).length ∧ ∀ j, childrenOf (sPlaceRecordPorts doc i).val j = childrenOf doc j := by
  unfold sPlaceRecordPorts
  cases hn : doc.getNode i with
  | none => exact ⟨Nat.zero_le _, fun _ => rfl⟩
  | some n =>
    simp only
    cases n.rect with
    | none => exact ⟨Nat.zero_le _, fun _ => rfl⟩
    | some r =>
      simp only [andThen_steps, andThen_val, sPlaceFieldPorts_val, sAddNodePorts_val, childrenOf_of_getNode hn]
      refine ⟨Nat.add_le_add (sAddNodePorts_le _ _ _) (sPlaceFieldPorts_le _ _), fun j => ?_⟩
      rw [childrenOf_placeFieldPorts]
      exact childrenOf_modify _ _ _ (addPorts_children _ _) _

theorem sPlaceTerminalPorts_le (doc : Document) : (sPlaceTerminalPorts doc).steps ≤ 6 * doc.bodyChildren.length + 6 * linesOf doc := by
  rw [sPlaceTerminalPorts, andThen_steps, collect_steps, collect_val]
  have h := loop_sum sPlaceRecordPorts (fun d => ∀ j, childrenOf d j = childrenOf doc j) (fun i => 4 + 6 * (childrenOf doc i).length)
    doc doc.bodyChildren (fun _ => rfl) (by
      intro d i _ hd
      have h := sPlaceRecordPorts_le d i
      rw [hd] at h
      exact ⟨h.1, fun j => (h.2 j).trans (hd j)⟩)
  rw [sum_linear (fun i => (childrenOf doc i).length)] at h
  simp only [linesOf]
  omega

/-! ## Rendering -/

theorem sClipPaths_le (doc : Document) (cs : List (NodeId × Nat)) : (sClipPaths doc cs).steps ≤ cs.length := by
  induction cs with
  | nil => exact Nat.le_refl _
  | cons c cs ih =>
    obtain ⟨id, i⟩ := c
    rw [sClipPaths, round_steps, List.length_cons]
    refine Nat.succ_le_succ ?_
    cases doc.getNode id with
    | none => exact ih
    | some n =>
      simp only
      cases n.kind with
      | record r =>
        simp only
        cases n.origin with
        | none => exact Nat.zero_le _
        | some o =>
          simp only
          cases n.size with
          | none => exact Nat.zero_le _
          | some s => simp only [andThenE_steps]; cases (sClipPaths doc cs).val <;> simpa using ih
      | _ => exact ih

theorem sDrawFields_le (doc : Document) (clip : Str) (cs : List (NodeId × Nat)) : (sDrawFields doc clip cs).steps ≤ cs.length := by
  induction cs with
  | nil => exact Nat.le_refl _
  | cons c cs ih =>
    obtain ⟨id, i⟩ := c
    rw [sDrawFields, round_steps, List.length_cons]
    refine Nat.succ_le_succ ?_
    cases doc.getNode id with
    | none => exact ih
    | some n =>
      simp only
      cases n.kind with
      | field f =>
        simp only
        cases n.rect with
        | none => exact Nat.zero_le _
        | some r => simp only [andThenE_steps]; cases (sDrawFields doc clip cs).val <;> simpa using ih
      | _ => exact ih

theorem sDrawRecords_le (doc : Document) (cs : List (NodeId × Nat)) :
    (sDrawRecords doc cs).steps ≤ cs.length + (cs.map fun c => (childrenOf doc c.1).length).sum := by
  induction cs with
  | nil => exact Nat.le_refl _
  | cons c cs ih =>
    obtain ⟨id, i⟩ := c
    rw [sDrawRecords, round_steps, List.length_cons, List.map_cons, List.sum_cons]
    cases hn : doc.getNode id with
    | none => simp only; omega
    | some n =>
      simp only [childrenOf_of_getNode hn]
      cases n.kind with
      | record r =>
        simp only
        cases n.origin with
        | none => simp only [done_steps]; omega
        | some o =>
          simp only
          cases n.size with
          | none => simp only [done_steps]; omega
          | some s =>
            have hf := sDrawFields_le doc (clipPathId i) n.children.zipIdx
            rw [List.length_zipIdx] at hf
            simp only [andThenE_steps]
            cases (sDrawFields doc (clipPathId i) n.children.zipIdx).val with
            | error e => simp only; omega
            | ok fs => simp only; cases (sDrawRecords doc cs).val <;> simp only [done_steps] <;> omega
      | _ => simp only; omega

theorem sPathTail_le (i : Nat) (bp : Point) (ps : List Point) : (sPathTail i bp ps).steps ≤ ps.length := by
  induction ps generalizing i bp with
  | nil => exact Nat.le_refl _
  | cons p ps ih =>
    cases ps with
    | nil => exact Nat.le_refl _
    | cons q ps =>
      rw [sPathTail, round_steps, List.length_cons]
      refine Nat.succ_le_succ ?_
      cases corner i bp p q with
      | error e => exact Nat.zero_le _
      | ok segs =>
        have := ih (i + 1) p
        simp only [andThenE_steps]
        cases (sPathTail (i + 1) p (q :: ps)).val <;> simpa using this

theorem sPathData_le (ps : List Point) : (sPathData ps).steps ≤ 3 * ps.length := by
  match ps with
  | [] => exact Nat.zero_le _
  | [_] => exact Nat.zero_le _
  | p :: q :: rest =>
    have h1 := sPathTail_le 1 p (q :: rest)
    rw [sPathData, round_steps, andThenE_steps, sPathTail_val]
    cases h : pathTail 1 p (q :: rest) with
    | error e => simp only [List.length_cons] at h1 ⊢; omega
    | ok segs =>
      have h2 := pathData_length (ps := p :: q :: rest) (cs := .moveTo p :: segs) (by simp only [pathData, h])
      simp only [andThen_steps, collect_steps, done_steps, List.length_cons] at h1 h2 ⊢
      omega

theorem sDrawEdgeConnection_le (e : EdgeData) (N : Nat) (h : ∀ ps, e.pathPoints = some ps → ps.length ≤ N) : (sDrawEdgeConnection e).steps ≤ 3 * N := by
  unfold sDrawEdgeConnection
  cases hp : e.pathPoints with
  | none => exact Nat.zero_le _
  | some ps =>
    have h1 := sPathData_le ps
    have h2 := h ps hp
    simp only [andThen_steps, done_steps]
    omega

theorem sDrawEdges_le (es : List EdgeData) (N : Nat) (h : ∀ e ∈ es, ∀ ps, e.pathPoints = some ps → ps.length ≤ N) :
    (sDrawEdges es).steps ≤ es.length * (3 * N + 1) := by
  induction es with
  | nil => exact Nat.zero_le _
  | cons e es ih =>
    have h1 := sDrawEdgeConnection_le e N (h e (by simp))
    have h2 := ih fun e' he' => h e' (by simp [he'])
    rw [sDrawEdges, round_steps, andThenE_steps, List.length_cons, Nat.succ_mul]
    cases (sDrawEdgeConnection e).val with
    | error p => simp only; omega
    | ok els => simp only [andThenE_steps]; cases (sDrawEdges es).val <;> simp only [done_steps] <;> omega

theorem sRender_le (v : Option Rect) (doc : Document) (N : Nat) (h : ∀ e ∈ doc.edges, ∀ ps, e.pathPoints = some ps → ps.length ≤ N) :
    (sRender v doc).steps ≤ 2 * doc.bodyChildren.length + linesOf doc + doc.edges.length * (3 * N + 1) := by
  have h1 := sClipPaths_le doc doc.bodyChildren.zipIdx
  have h2 := sDrawRecords_le doc doc.bodyChildren.zipIdx
  have h3 := sDrawEdges_le doc.edges N h
  rw [zipIdx_sum (fun i => (childrenOf doc i).length)] at h2
  rw [List.length_zipIdx] at h1 h2
  unfold linesOf sRender
  rw [andThenE_steps]
  cases (sClipPaths doc doc.bodyChildren.zipIdx).val with
  | error e => simp only; omega
  | ok clips =>
    simp only [andThenE_steps]
    cases (sDrawRecords doc doc.bodyChildren.zipIdx).val with
    | error e => simp only; omega
    | ok records =>
      simp only
      cases (sDrawEdges doc.edges).val <;> simp only [done_steps] <;> omega

end Seiren
