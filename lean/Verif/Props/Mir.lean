import Verif.Proofs.MirEdges
/-! # C15–C19: from the module to the document -/

namespace Seiren
open Spec

/-! ## C15 -/

/-- What a node shows as a line. -/
def lineOfNode (n : NodeData) : Option Line :=
  match n.kind with
  | .field f => some ⟨f.title.text, f.subtitle.map (·.text), f.badge.map (·.text)⟩
  | _ => none

theorem lines_range (doc : Document) (pre L post : List NodeData) (h : doc.nodes = pre ++ (L ++ post)) :
    (List.range' pre.length L.length).mapM (lineOf doc) = L.mapM lineOfNode := by
  induction L generalizing pre with
  | nil => rfl
  | cons n L ih =>
    have := ih (pre ++ [n]) (by simp [h])
    simp only [List.length_append, List.length_cons, List.length_nil, Nat.zero_add] at this
    have e : lineOf doc pre.length = lineOfNode n := by
      unfold lineOf
      rw [h, List.getElem?_append_right (le_refl _)]
      simp only [Nat.sub_self, List.cons_append, List.getElem?_cons_zero, lineOfNode]
      cases n.kind <;> rfl
    rw [List.length_cons, List.range'_succ, List.mapM_cons, List.mapM_cons, this, e]

theorem lines_defNodes (d : EntityDefinition) :
    (NodeData.new (.field (headerShape d)) :: d.fields.map (fun f => NodeData.new (.field (fieldShape f)))).mapM
      lineOfNode = some (expectedLines d) := by
  have h : ∀ fs : List EntityField, (fs.map (fun f => NodeData.new (.field (fieldShape f)))).mapM lineOfNode =
      some (fs.map fun f => (⟨f.name, some (typeText f.fieldType), f.fieldKey.map keyText⟩ : Line)) := by
    intro fs
    induction fs with
    | nil => rfl
    | cons f fs ih =>
      rw [List.map_cons, List.mapM_cons, ih]
      have : lineOfNode (NodeData.new (.field (fieldShape f))) =
          some ⟨f.name, some (typeText f.fieldType), f.fieldKey.map keyText⟩ := by
        obtain ⟨name, ty, key⟩ := f
        cases ty <;> rcases key with _ | ⟨⟨⟩⟩ <;> rfl
      rw [this]; rfl
  rw [List.mapM_cons, h]; rfl

theorem tables_from (doc : Document) (b : Nat) (ds : List EntityDefinition) (pre : List NodeData)
    (hb : pre.length = b) (h : doc.nodes = pre ++ nodesFrom b ds) :
    (recordIds b ds).mapM (tableOf doc) = some (ds.map expectedLines) := by
  induction ds generalizing b pre with
  | nil => rfl
  | cons d ds ih =>
    have ih' := ih (b + defSize d) (pre ++ defNodes b d) (by simp [hb]) (by simp [h, nodesFrom])
    rw [recordIds, List.mapM_cons, ih']
    have : tableOf doc (b + d.fields.length + 1) = some (expectedLines d) := by
      unfold tableOf
      have e : doc.nodes = (pre ++ (NodeData.new (.field (headerShape d)) ::
          d.fields.map (fun f => NodeData.new (.field (fieldShape f))))) ++
          ({ kind := .record recordShape, children := List.range' b (d.fields.length + 1) } ::
            nodesFrom (b + defSize d) ds) := by
        simp [h, nodesFrom, defNodes]
      have hlen : (pre ++ (NodeData.new (.field (headerShape d)) ::
          d.fields.map (fun f => NodeData.new (.field (fieldShape f))))).length = b + d.fields.length + 1 := by
        simp [hb]; omega
      rw [e, ← hlen, List.getElem?_append_right (le_refl _)]
      simp only [Nat.sub_self, List.getElem?_cons_zero]
      have := lines_range doc pre (NodeData.new (.field (headerShape d)) ::
          d.fields.map (fun f => NodeData.new (.field (fieldShape f)))) _ (e.trans (List.append_assoc _ _ _))
      rw [hb] at this
      simp only [List.length_cons, List.length_map] at this
      rw [this, lines_defNodes]
    rw [this]; rfl

/-- C15: the document shows, in order, exactly the tables of the module, each with its header and its columns in order,
with name, type and key. -/
theorem C15_tables_faithful (m : Module) :
    tablesOf m.intoMir = some ((definitions m.entries).map expectedLines) := by
  obtain ⟨h, hb⟩ := intoMir_nodes m
  unfold tablesOf
  rw [hb, h]
  exact tables_from m.intoMir 1 _ [bodyNode (recordIds 1 (definitions m.entries))] rfl h

/-- A module with two tables, one defined twice, and a relation. -/
def exampleModule : Module :=
  ⟨some c!"G", [
    .definition ⟨c!"users", [⟨c!"id", .int, some .primaryKey⟩, ⟨c!"name", .text, none⟩]⟩,
    .relation ⟨.field c!"posts" c!"by", .field c!"users" c!"id"⟩,
    .definition ⟨c!"posts", [⟨c!"id", .uuid, none⟩, ⟨c!"by", .int, some .foreignKey⟩]⟩,
    .relation ⟨.field c!"posts" c!"by", .field c!"users" c!"id"⟩,
    .definition ⟨c!"users", [⟨c!"id", .timestamp, none⟩]⟩,
    .relation ⟨.entity c!"posts", .field c!"users" c!"id"⟩,
    .relation ⟨.entity c!"posts", .field c!"users" c!"name"⟩]⟩

example : tablesOf exampleModule.intoMir = some [
    [⟨c!"users", none, none⟩, ⟨c!"id", some c!"int", some c!"PK"⟩, ⟨c!"name", some c!"text", none⟩],
    [⟨c!"posts", none, none⟩, ⟨c!"id", some c!"uuid", none⟩, ⟨c!"by", some c!"int", some c!"FK"⟩],
    [⟨c!"users", none, none⟩, ⟨c!"id", some c!"timestamp", none⟩]] := by decide

/-! ## C16 -/

/-- Nodes reachable from the root by going to children. -/
inductive Spec.Reach (doc : Document) : NodeId → Prop where
  | root : Reach doc doc.bodyId
  | child (p c : NodeId) (n : NodeData) (hp : Reach doc p) (hn : doc.nodes[p]? = some n) (hc : c ∈ n.children) : Reach doc c

theorem children_perm (b : Nat) (ds : List EntityDefinition) :
    (recordIds b ds ++ (nodesFrom b ds).flatMap (·.children)).Perm (List.range' b (sizeOf' ds)) := by
  induction ds generalizing b with
  | nil => simp [recordIds, nodesFrom, sizeOf']
  | cons d ds ih =>
    have e : (defNodes b d).flatMap (·.children) = List.range' b (d.fields.length + 1) := by
      simp [defNodes, NodeData.new, List.flatMap_map]
    have e2 : List.range' b (sizeOf' (d :: ds)) =
        List.range' b (d.fields.length + 1) ++ ((b + d.fields.length + 1) :: List.range' (b + defSize d) (sizeOf' ds)) := by
      have h1 : sizeOf' (d :: ds) = (d.fields.length + 1) + (sizeOf' ds + 1) := by simp [sizeOf', defSize]; omega
      rw [h1, ← List.range'_append_1]
      simp [defSize, Nat.add_assoc, List.range'_succ]
    rw [recordIds, nodesFrom, List.flatMap_append, e, e2]
    refine List.Perm.trans ?_ (List.Perm.append_left _ (List.Perm.cons _ (ih (b + defSize d))))
    simp only [List.cons_append]
    refine List.Perm.trans ?_ List.perm_middle.symm
    refine List.Perm.cons _ ?_
    rw [← List.append_assoc, ← List.append_assoc]
    exact List.Perm.append_right _ List.perm_append_comm

/-- A node that is a line of a table. -/
def Spec.IsField (doc : Document) (id : NodeId) : Prop := ∃ n f, doc.nodes[id]? = some n ∧ n.kind = .field f

/-- A node that is a table. -/
def Spec.IsRecord (doc : Document) (id : NodeId) : Prop := ∃ n r, doc.nodes[id]? = some n ∧ n.kind = .record r

theorem defNodes_field (doc : Document) (pre post : List NodeData) (b : Nat) (d : EntityDefinition)
    (hb : pre.length = b) (h : doc.nodes = pre ++ (defNodes b d ++ post)) (c : Nat)
    (hc : c ∈ List.range' b (d.fields.length + 1)) : IsField doc c := by
  rw [List.mem_range'_1] at hc
  obtain ⟨i, rfl⟩ := Nat.exists_eq_add_of_le hc.1
  have hi : i < d.fields.length + 1 := by omega
  have hl : (b + i) - pre.length = i := by omega
  unfold IsField
  rw [h, List.getElem?_append_right (by omega), hl, List.getElem?_append_left (by simp [defSize]; omega), defNodes,
    List.getElem?_append_left (by simpa using hi)]
  cases i with
  | zero => exact ⟨_, _, rfl, rfl⟩
  | succ i =>
    have hi' : i < d.fields.length := by omega
    simp [NodeData.new, hi']

theorem nodesFrom_kinds (doc : Document) (b : Nat) (ds : List EntityDefinition) (pre : List NodeData)
    (hb : pre.length = b) (h : doc.nodes = pre ++ nodesFrom b ds) :
    (∀ n ∈ nodesFrom b ds, (∃ f, n.kind = .field f ∧ n.children = []) ∨
      (∃ r, n.kind = .record r ∧ ∀ c ∈ n.children, IsField doc c)) ∧ ∀ i ∈ recordIds b ds, IsRecord doc i := by
  induction ds generalizing b pre with
  | nil => simp [nodesFrom, recordIds]
  | cons d ds ih =>
    have h' : doc.nodes = pre ++ (defNodes b d ++ nodesFrom (b + defSize d) ds) := h
    have ih' := ih (b + defSize d) (pre ++ defNodes b d) (by simp [hb]) (by rw [h', List.append_assoc])
    constructor
    · intro n hn
      rw [nodesFrom, List.mem_append] at hn
      rcases hn with hn | hn
      · simp only [defNodes, List.cons_append, List.mem_cons, List.mem_append, List.mem_map,
          List.not_mem_nil, or_false] at hn
        rcases hn with rfl | ⟨f, -, rfl⟩ | rfl
        · exact Or.inl ⟨_, rfl, rfl⟩
        · exact Or.inl ⟨_, rfl, rfl⟩
        · exact Or.inr ⟨_, rfl, fun c hc => defNodes_field doc pre _ b d hb h' c hc⟩
      · exact ih'.1 n hn
    · intro i hi
      rw [recordIds, List.mem_cons] at hi
      rcases hi with rfl | hi
      · have := record_node b (d :: ds) 0 d rfl pre hb
        rw [← h] at this
        exact ⟨_, _, by simpa [sizeOf'] using this, rfl⟩
      · exact ih'.2 i hi

/-- C16: the document is a tree: the ids of all nodes but the root occur exactly once among the children of all nodes,
and nothing else does; the children of the root are tables, the children of a table are lines, lines have no children;
every node is reached from the root; the ends of every edge are nodes other than the root. -/
theorem C16_tree (m : Module) :
    let doc := m.intoMir
    (doc.nodes.flatMap (·.children)).Perm (List.range' 1 (doc.nodes.length - 1)) ∧
    doc.bodyId = 0 ∧
    (∀ (i : Nat) (n : NodeData), doc.nodes[i]? = some n → match n.kind with
      | .body => i = 0 ∧ ∀ c ∈ n.children, IsRecord doc c
      | .record _ => i ≠ 0 ∧ ∀ c ∈ n.children, IsField doc c
      | .field _ => i ≠ 0 ∧ n.children = []) ∧
    (∀ i, i < doc.nodes.length → Reach doc i) ∧
    (∀ e ∈ doc.edges, (0 < e.sourceId ∧ e.sourceId < doc.nodes.length) ∧
      (0 < e.targetId ∧ e.targetId < doc.nodes.length)) := by
  obtain ⟨h, hb⟩ := intoMir_nodes m
  intro doc
  have hk := nodesFrom_kinds doc 1 _ [bodyNode (recordIds 1 (definitions m.entries))] rfl h
  have hperm : (doc.nodes.flatMap (·.children)).Perm (List.range' 1 (doc.nodes.length - 1)) := by
    have := children_perm 1 (definitions m.entries)
    simp only [doc, h, List.flatMap_cons, List.length_cons, nodesFrom_length, Nat.add_sub_cancel]
    exact this
  have hkind : ∀ (i : Nat) (n : NodeData), doc.nodes[i]? = some n → match n.kind with
      | .body => i = 0 ∧ ∀ c ∈ n.children, IsRecord doc c
      | .record _ => i ≠ 0 ∧ ∀ c ∈ n.children, IsField doc c
      | .field _ => i ≠ 0 ∧ n.children = [] := by
    intro i n hn
    have hn' := hn
    simp only [doc, h] at hn
    cases i with
    | zero =>
      simp only [List.getElem?_cons_zero, Option.some.injEq] at hn
      subst hn
      exact ⟨rfl, hk.2⟩
    | succ i =>
      rw [List.getElem?_cons_succ] at hn
      rcases hk.1 n (List.mem_of_getElem? hn) with ⟨f, h1, h2⟩ | ⟨r, h1, h2⟩
      · rw [h1]; exact ⟨by omega, h2⟩
      · rw [h1]; exact ⟨by omega, h2⟩
  refine ⟨hperm, hb, hkind, ?_, ?_⟩
  · -- every node but the root has a parent; a record's parent is the root, a field's parent is a record
    have hparent : ∀ i, 0 < i → i < doc.nodes.length → ∃ (p : Nat) (n : NodeData), doc.nodes[p]? = some n ∧ i ∈ n.children := by
      intro i h0 hi
      have : i ∈ doc.nodes.flatMap (·.children) := by
        rw [hperm.mem_iff, List.mem_range'_1]; omega
      rw [List.mem_flatMap] at this
      obtain ⟨n, hn, hc⟩ := this
      obtain ⟨p, hp⟩ := List.getElem?_of_mem hn
      exact ⟨p, n, hp, hc⟩
    have hrec : ∀ i, IsRecord doc i → Reach doc i := by
      rintro i ⟨n, r, hn, hr⟩
      have h0 := hkind i n hn
      rw [hr] at h0
      obtain ⟨p, np, hp, hc⟩ := hparent i (Nat.pos_of_ne_zero h0.1) (List.getElem?_eq_some_iff.mp hn).1
      have hpk := hkind p np hp
      cases hkp : np.kind with
      | body =>
        rw [hkp] at hpk
        refine Reach.child p i np ?_ hp hc
        rw [hpk.1, ← show doc.bodyId = 0 from hb]; exact Reach.root
      | record r' =>
        rw [hkp] at hpk
        obtain ⟨n', f, hn', hf⟩ := hpk.2 i hc
        rw [hn] at hn'
        cases hn'
        rw [hr] at hf; cases hf
      | field f =>
        rw [hkp] at hpk
        rw [hpk.2] at hc; cases hc
    intro i hi
    obtain ⟨n, hn⟩ : ∃ n, doc.nodes[i]? = some n := ⟨_, List.getElem?_eq_getElem hi⟩
    have h0 := hkind i n hn
    cases hkn : n.kind with
    | body =>
      rw [hkn] at h0
      rw [h0.1, ← show doc.bodyId = 0 from hb]; exact Reach.root
    | record r => exact hrec i ⟨n, r, hn, hkn⟩
    | field f =>
      rw [hkn] at h0
      obtain ⟨p, np, hp, hc⟩ := hparent i (Nat.pos_of_ne_zero h0.1) hi
      have hpk := hkind p np hp
      cases hkp : np.kind with
      | body =>
        rw [hkp] at hpk
        obtain ⟨n', r, hn', hr⟩ := hpk.2 i hc
        rw [hn] at hn'
        cases hn'
        rw [hkn] at hr; cases hr
      | record r => exact Reach.child p i np (hrec p ⟨np, r, hp, hkp⟩) hp hc
      | field f' =>
        rw [hkp] at hpk
        rw [hpk.2] at hc; cases hc
  · intro e he
    have hmem : (some e.sourceId, some e.targetId) ∈ edgeEnds doc := List.mem_map.mpr ⟨e, he, rfl⟩
    rw [(connections_refId m).1, List.mem_map] at hmem
    obtain ⟨⟨s, t⟩, -, hst⟩ := hmem
    simp only [Prod.mk.injEq] at hst
    have hbound : ∀ r i, refId 1 (definitions m.entries) r = some i → 0 < i ∧ i < doc.nodes.length := by
      intro r i hr
      have hl : doc.nodes.length = 1 + sizeOf' (definitions m.entries) := by
        rw [show doc.nodes = _ from h, List.length_cons, nodesFrom_length, Nat.add_comm]
      have hsum : ∀ k d, (definitions m.entries)[k]? = some d →
          sizeOf' ((definitions m.entries).take k) + defSize d ≤ sizeOf' (definitions m.entries) := by
        intro k d hd
        obtain ⟨post, e, -⟩ := nodesFrom_split 1 _ k d hd
        have := congrArg List.length e
        simp only [List.length_append, nodesFrom_length, defNodes_length] at this
        omega
      cases r with
      | table k =>
        simp only [refId, Option.map_eq_some_iff] at hr
        obtain ⟨d, hd, rfl⟩ := hr
        have := hsum k d hd
        simp only [defSize] at this
        constructor
        · exact Nat.succ_pos _
        · rw [hl]
          exact (by omega : 1 + sizeOf' (List.take k (definitions m.entries)) + d.fields.length + 1 <
            1 + sizeOf' (definitions m.entries))
      | column k j =>
        simp only [refId, Option.bind_eq_some_iff] at hr
        obtain ⟨d, hd, hr⟩ := hr
        have := hsum k d hd
        simp only [defSize] at this
        split at hr
        · rename_i hj
          simp only [Option.some.injEq] at hr
          subst hr
          rw [hl]
          exact (by omega : 0 < 1 + sizeOf' (List.take k (definitions m.entries)) + 1 + j ∧
            1 + sizeOf' (List.take k (definitions m.entries)) + 1 + j < 1 + sizeOf' (definitions m.entries))
        · cases hr
    exact ⟨hbound s _ hst.1, hbound t _ hst.2⟩

example : exampleModule.intoMir.nodes.flatMap (·.children) = [4, 8, 11, 1, 2, 3, 5, 6, 7, 9, 10] ∧
    exampleModule.intoMir.nodes.length = 12 := by decide

/-! ## C17 -/

/-- C17: the edges of the document are, in order, the connections the module asks for: one for each relation both of
whose ends are defined before it, between the most recent definitions.  No edge has a path yet. -/
theorem C17_relations (m : Module) :
    m.intoMir.edges.map (fun e => (some e.sourceId, some e.targetId)) =
      (connections [] m.entries).map (fun c => (nodeOf m.intoMir c.1, nodeOf m.intoMir c.2)) ∧
    ∀ e ∈ m.intoMir.edges, e.pathPoints = none := by
  refine ⟨?_, (connections_refId m).2⟩
  have := (connections_refId m).1
  simp only [nodeOf_intoMir]
  exact this

/-- The relation written before `posts` is dropped; `users.id` means the first, later the second `users`;
`users.name` still means the first. -/
example : connections [] exampleModule.entries =
    [(.column 1 1, .column 0 0), (.table 1, .column 2 0), (.table 1, .column 0 1)] ∧
    exampleModule.intoMir.edges.map (fun e => (e.sourceId, e.targetId)) = [(7, 2), (8, 10), (8, 3)] := by decide

/-! ## C18 -/

/-- A path names something among the given definitions. -/
def Spec.Defined (defs : List EntityDefinition) : EntityPath → Prop
  | .entity n => ∃ d ∈ defs, d.name = n
  | .field e f => ∃ d ∈ defs, d.name = e ∧ ∃ c ∈ d.fields, c.name = f

/-- The relations of a module. -/
def Spec.relations : List ModuleEntry → List EntityRelation
  | [] => []
  | .definition _ :: es => relations es
  | .relation r :: es => r :: relations es

theorem resolve_isSome (defs : List EntityDefinition) (p : EntityPath) : (resolve defs p).isSome ↔ Defined defs p := by
  have h0 : ∀ l : List NodeRef, l.getLast?.isSome ↔ ∃ x, x ∈ l := by
    intro l
    rw [Option.isSome_iff_ne_none, ne_eq, List.getLast?_eq_none_iff]
    exact List.ne_nil_iff_exists_cons.trans ⟨fun ⟨a, l, h⟩ => ⟨a, by simp [h]⟩, fun ⟨x, hx⟩ =>
      List.ne_nil_iff_exists_cons.mp (List.ne_nil_of_mem hx)⟩
  have hz : ∀ {α : Type} (l : List α) (a : α), a ∈ l → ∃ k, (a, k) ∈ l.zipIdx := by
    intro α l a ha
    obtain ⟨i, hi⟩ := List.getElem?_of_mem ha
    exact ⟨i, List.mem_zipIdx_iff_getElem?.mpr hi⟩
  have hz' : ∀ {α : Type} (l : List α) (a : α) (k : Nat), (a, k) ∈ l.zipIdx → a ∈ l := by
    intro α l a k h
    exact List.mem_of_getElem? (List.mem_zipIdx_iff_getElem?.mp h)
  rw [resolve, h0]
  cases p with
  | entity n =>
    simp only [candidates, List.mem_filterMap, Defined]
    constructor
    · rintro ⟨x, ⟨d, k⟩, hm, hx⟩
      refine ⟨d, hz' _ _ _ hm, ?_⟩
      by_contra hne
      simp [hne] at hx
    · rintro ⟨d, hd, rfl⟩
      obtain ⟨k, hk⟩ := hz _ _ hd
      exact ⟨.table k, (d, k), hk, by simp⟩
  | field e f =>
    simp only [candidates, List.mem_flatMap, Defined]
    constructor
    · rintro ⟨x, ⟨d, k⟩, hm, hx⟩
      refine ⟨d, hz' _ _ _ hm, ?_⟩
      by_cases hne : d.name = e
      · refine ⟨hne, ?_⟩
        simp only [hne, if_true, List.mem_filterMap] at hx
        obtain ⟨⟨c, j⟩, hc, hx⟩ := hx
        refine ⟨c, hz' _ _ _ hc, ?_⟩
        by_contra hne
        simp [hne] at hx
      · simp [hne] at hx
    · rintro ⟨d, hd, rfl, c, hc, rfl⟩
      obtain ⟨k, hk⟩ := hz _ _ hd
      obtain ⟨j, hj⟩ := hz _ _ hc
      refine ⟨.column k j, (d, k), hk, ?_⟩
      simp only [if_true, List.mem_filterMap]
      exact ⟨(c, j), hj, by simp⟩

theorem connections_length (defs : List EntityDefinition) (es : List ModuleEntry)
    (h : ∀ pre r post, es = pre ++ .relation r :: post →
      Defined (defs ++ definitions pre) r.startPath ∧ Defined (defs ++ definitions pre) r.endPath) :
    (connections defs es).length = (relations es).length := by
  induction es generalizing defs with
  | nil => rfl
  | cons e es ih =>
    cases e with
    | definition d =>
      apply ih
      intro pre r post he
      have := h (.definition d :: pre) r post (by simp [he])
      simpa [definitions] using this
    | relation r =>
      have hr := h [] r es rfl
      simp only [definitions, List.append_nil] at hr
      rw [← resolve_isSome, ← resolve_isSome, Option.isSome_iff_exists, Option.isSome_iff_exists] at hr
      obtain ⟨⟨s, hs⟩, ⟨t, ht⟩⟩ := hr
      simp only [connections, hs, ht, relations, List.length_cons]
      congr 1
      apply ih
      intro pre r' post he
      have := h (.relation r :: pre) r' post (by simp [he])
      simpa [definitions] using this

/-- C18 in part: if the ends of every relation are defined before the relation, no relation is lost (with C17: the
edges are then the relations, in order).  Missing: relations written before a definition they need are dropped. -/
theorem C18_no_relation_lost_partial (m : Module)
    (h : ∀ pre r post, m.entries = pre ++ .relation r :: post →
      Defined (definitions pre) r.startPath ∧ Defined (definitions pre) r.endPath) :
    m.intoMir.edges.length = (relations m.entries).length := by
  have h1 := congrArg List.length (C17_relations m).1
  rw [List.length_map, List.length_map] at h1
  rw [h1]
  exact connections_length [] m.entries (by simpa using h)

/-- C18 as stated is false: a relation whose ends are defined in the module, but later, gives no edge. -/
theorem C18_no_relation_lost_refuted : ∃ m : Module,
    (∀ r ∈ relations m.entries, Defined (definitions m.entries) r.startPath ∧ Defined (definitions m.entries) r.endPath) ∧
    (relations m.entries).length = 1 ∧ m.intoMir.edges = [] := by
  refine ⟨⟨none, [.relation ⟨.field c!"a" c!"x", .field c!"a" c!"y"⟩,
    .definition ⟨c!"a", [⟨c!"x", .int, none⟩, ⟨c!"y", .int, none⟩]⟩]⟩, ?_, rfl, by decide⟩
  intro r hr
  simp only [relations, List.mem_singleton] at hr
  subst hr
  simp [Defined, definitions]

/-- A module as the partial theorem wants it. -/
example : let m : Module := ⟨none, [.definition ⟨c!"a", [⟨c!"x", .int, none⟩, ⟨c!"y", .int, none⟩]⟩,
      .relation ⟨.field c!"a" c!"x", .field c!"a" c!"y"⟩, .definition ⟨c!"b", []⟩,
      .relation ⟨.entity c!"b", .field c!"a" c!"y"⟩]⟩
    m.intoMir.edges.length = 2 ∧ (relations m.entries).length = 2 := by decide

/-! ## C19 -/

/-- C19: modules with the same definitions, in the same order, give the same nodes, whatever relations they contain and
wherever these are written, and whatever the modules are called. -/
theorem C19_relations_do_not_influence_tables (m m' : Module)
    (h : definitions m.entries = definitions m'.entries) :
    m.intoMir.nodes = m'.intoMir.nodes ∧ m.intoMir.bodyId = m'.intoMir.bodyId := by
  rw [(intoMir_nodes m).1, (intoMir_nodes m').1, (intoMir_nodes m).2, (intoMir_nodes m').2, h]
  exact ⟨rfl, rfl⟩

example : definitions exampleModule.entries =
    definitions (⟨none, exampleModule.entries.reverse.reverse.filter
      (fun e => match e with | .definition _ => true | _ => false)⟩ : Module).entries := by decide

end Seiren
