import Verif.Proofs.PlaceTabular
import Verif.Props.Mir
/-! # Documents built from modules are documents of tables -/

namespace Seiren
open Spec

theorem tables_intoMir (m : Module) : tables m.intoMir = recordIds 1 (definitions m.entries) := by
  obtain ⟨h, hb⟩ := intoMir_nodes m
  simp [tables, childrenOf, hb, h, bodyNode]

theorem childrenOf_record (doc : Document) (pre : List NodeData) (b : Nat) (ds : List EntityDefinition)
    (hb : pre.length = b) (h : doc.nodes = pre ++ nodesFrom b ds) (k : Nat) (d : EntityDefinition) (hd : ds[k]? = some d) :
    childrenOf doc (b + sizeOf' (ds.take k) + d.fields.length + 1) =
      List.range' (b + sizeOf' (ds.take k)) (d.fields.length + 1) := by
  unfold childrenOf
  rw [h, record_node b ds k d hd pre hb]

theorem flatMap_childrenOf (doc : Document) (pre : List NodeData) (b : Nat) (ds : List EntityDefinition)
    (hb : pre.length = b) (h : doc.nodes = pre ++ nodesFrom b ds) :
    (recordIds b ds).flatMap (childrenOf doc) = (nodesFrom b ds).flatMap (·.children) := by
  induction ds generalizing b pre with
  | nil => rfl
  | cons d ds ih =>
    have ih' := ih (pre ++ defNodes b d) (b + defSize d) (by simp [hb]) (by simp [h, nodesFrom])
    have := childrenOf_record doc pre b (d :: ds) hb h 0 d rfl
    simp only [List.take_zero, sizeOf', List.map_nil, List.sum_nil, Nat.add_zero] at this
    rw [recordIds, nodesFrom, List.flatMap_cons, List.flatMap_append, ih', this]
    simp [defNodes, NodeData.new, List.flatMap_map]

/-- The document built from any module is a document of tables. -/
theorem tabular_intoMir (m : Module) : Tabular m.intoMir := by
  obtain ⟨h, hb⟩ := intoMir_nodes m
  have hk := nodesFrom_kinds m.intoMir 1 _ [bodyNode (recordIds 1 (definitions m.entries))] rfl h
  refine ⟨⟨bodyNode (recordIds 1 (definitions m.entries)), by simp [h, hb]⟩, ?_, ?_, ?_⟩
  · rw [tables_intoMir]; exact hk.2
  · intro t ht l hl
    rw [tables_intoMir] at ht
    obtain ⟨n, r, hn, hr⟩ := hk.2 t ht
    have := (C16_tree m).2.2.1 t n hn
    rw [hr] at this
    refine this.2 l ?_
    simpa [childrenOf, hn] using hl
  · rw [tables_intoMir, flatMap_childrenOf m.intoMir [bodyNode (recordIds 1 (definitions m.entries))] 1 _ rfl h]
    exact (children_perm 1 _).nodup_iff.mpr List.nodup_range'

/-- The table of definition `k` and its lines. -/
theorem lineCounts_intoMir (m : Module) :
    lineCounts m.intoMir = (definitions m.entries).map fun d => d.fields.length + 1 := by
  obtain ⟨h, hb⟩ := intoMir_nodes m
  apply List.ext_getElem?
  intro k
  simp only [lineCounts, List.getElem?_map, tables_intoMir, recordIds_getElem, refId]
  cases hd : (definitions m.entries)[k]? with
  | none => rfl
  | some d =>
    simp only [Option.map_some]
    rw [childrenOf_record m.intoMir [bodyNode (recordIds 1 (definitions m.entries))] 1 _ rfl h k d hd]
    simp

end Seiren
