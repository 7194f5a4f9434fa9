import Verif.Props.Mir
/-! # C18, continued: exactly which modules lose relations, and how to write a module so that it loses none -/

namespace Seiren
open Spec

theorem connections_le (defs : List EntityDefinition) (es : List ModuleEntry) :
    (connections defs es).length ≤ (relations es).length := by
  induction es generalizing defs with
  | nil => simp [connections]
  | cons e es ih =>
    cases e with
    | definition d => simpa [connections, relations] using ih (defs ++ [d])
    | relation r =>
      simp only [connections, relations, List.length_cons]
      split
      · simpa using ih defs
      · exact (ih defs).trans (Nat.le_succ _)

theorem connections_all {defs : List EntityDefinition} {es : List ModuleEntry}
    (h : (connections defs es).length = (relations es).length) (pre : List ModuleEntry) (r : EntityRelation) (post : List ModuleEntry)
    (he : es = pre ++ .relation r :: post) :
    Defined (defs ++ definitions pre) r.startPath ∧ Defined (defs ++ definitions pre) r.endPath := by
  induction es generalizing defs pre with
  | nil => simp at he
  | cons e es ih =>
    cases e with
    | definition d =>
      cases pre with
      | nil => simp at he
      | cons p pre =>
        simp only [List.cons_append, List.cons.injEq] at he
        obtain ⟨rfl, he⟩ := he
        have := ih (defs := defs ++ [d]) (by simpa [connections, relations] using h) pre he
        simpa [definitions] using this
    | relation r' =>
      have hle := connections_le defs es
      simp only [connections, relations, List.length_cons] at h
      split at h
      · rename_i s t hs ht
        cases pre with
        | nil =>
          simp only [List.nil_append, List.cons.injEq, ModuleEntry.relation.injEq] at he
          obtain ⟨rfl, -⟩ := he
          simp only [definitions, List.append_nil]
          exact ⟨(resolve_isSome _ _).mp (by simp [hs]), (resolve_isSome _ _).mp (by simp [ht])⟩
        | cons p pre =>
          simp only [List.cons_append, List.cons.injEq] at he
          obtain ⟨rfl, he⟩ := he
          have := ih (defs := defs) (by simpa using h) pre he
          simpa [definitions] using this
      · omega

/-- C18, exactly: no relation is lost if and only if the ends of every relation are defined before it. -/
theorem C18_exactly_partial (m : Module) :
    m.intoMir.edges.length = (relations m.entries).length ↔
      ∀ pre r post, m.entries = pre ++ .relation r :: post →
        Defined (definitions pre) r.startPath ∧ Defined (definitions pre) r.endPath := by
  refine ⟨fun h pre r post he => ?_, C18_no_relation_lost_partial m⟩
  have h1 := congrArg List.length (C17_relations m).1
  rw [List.length_map, List.length_map] at h1
  have := connections_all (h1 ▸ h) pre r post he
  simpa using this

/-- The same module with all definitions first. -/
def Spec.definitionsFirst (m : Module) : Module :=
  ⟨m.name, (definitions m.entries).map .definition ++ (relations m.entries).map .relation⟩

theorem definitions_split (ds : List EntityDefinition) (rs : List EntityRelation) :
    definitions (ds.map .definition ++ rs.map .relation) = ds ∧ relations (ds.map .definition ++ rs.map .relation) = rs := by
  induction ds with
  | nil =>
    induction rs with
    | nil => simp [definitions, relations]
    | cons r rs ih => simpa [definitions, relations] using ih
  | cons d ds ih => simpa [definitions, relations] using ih

/-- C18 for modules whose definitions are written first: every relation whose ends are defined becomes an edge.  Writing the
definitions first changes no table (see C19) and loses no relation that was not lost before. -/
theorem C18_definitions_first (m : Module)
    (h : ∀ r ∈ relations m.entries, Defined (definitions m.entries) r.startPath ∧ Defined (definitions m.entries) r.endPath) :
    (definitionsFirst m).intoMir.edges.length = (relations m.entries).length ∧ (definitionsFirst m).intoMir.nodes = m.intoMir.nodes ∧
      m.intoMir.edges.length ≤ (definitionsFirst m).intoMir.edges.length := by
  obtain ⟨hd, hr⟩ := definitions_split (definitions m.entries) (relations m.entries)
  have h1 : (definitionsFirst m).intoMir.edges.length = (relations m.entries).length := by
    have : (relations m.entries).length = (relations (definitionsFirst m).entries).length := by simp only [definitionsFirst, hr]
    rw [this]
    refine (C18_exactly_partial _).mpr fun pre r post he => ?_
    simp only [definitionsFirst] at he
    rcases List.append_eq_append_iff.mp he with ⟨x, hp, hx⟩ | ⟨x, hp, hx⟩
    · obtain ⟨rs1, rs2, h1, rfl, h2⟩ := List.map_eq_append_iff.mp hx
      obtain ⟨r', rs3, rfl, h3, -⟩ := List.map_eq_cons_iff.mp h2
      cases h3
      have hpre : definitions pre = definitions m.entries := by
        rw [hp]; exact (definitions_split _ rs1).1
      rw [hpre]
      exact h r (by rw [h1]; simp)
    · cases x with
      | nil =>
        simp only [List.append_nil] at hp
        simp only [List.nil_append] at hx
        have hpre : definitions pre = definitions m.entries := by
          have := (definitions_split (definitions m.entries) []).1
          rw [← hp]; simpa using this
        rw [hpre]
        refine h r ?_
        obtain ⟨r', rs3, hr', h3, -⟩ := List.map_eq_cons_iff.mp hx.symm
        cases h3
        rw [hr']; simp
      | cons e x =>
        simp only [List.cons_append, List.cons.injEq] at hx
        obtain ⟨rfl, -⟩ := hx
        have : ModuleEntry.relation r ∈ (definitions m.entries).map ModuleEntry.definition := by rw [hp]; simp
        simp at this
  refine ⟨h1, (C19_relations_do_not_influence_tables _ _ (by simp only [definitionsFirst, hd])).1, ?_⟩
  rw [h1]
  have h2 := congrArg List.length (C17_relations m).1
  rw [List.length_map, List.length_map] at h2
  rw [h2]
  exact connections_le [] m.entries

/-- The module of the refutation, with its relation behind the table. -/
example : let m : Module := ⟨none, [.relation ⟨.field c!"a" c!"x", .field c!"a" c!"y"⟩,
      .definition ⟨c!"a", [⟨c!"x", .int, none⟩, ⟨c!"y", .int, none⟩]⟩]⟩
    m.intoMir.edges.length = 0 ∧ (definitionsFirst m).intoMir.edges.length = 1 ∧ (relations m.entries).length = 1 := by decide

end Seiren
