import Verif.Props.RelationOrder
import Verif.Props.Determined
/-! # C92: adding relations and tables at the end -/

namespace Seiren
open Spec

/-- The module with one more entry at its end. -/
def Spec.addEntry (m : Module) (e : ModuleEntry) : Module := ⟨m.name, m.entries ++ [e]⟩

/-- The lines along which the relations of a module are drawn; `none` if routing panics. -/
def Spec.lines (q : Queue) (m : Module) : Option (List (Option (List Point))) := pathsOf (drawEdgePath q (laidOut m.intoMir) .new)

theorem connections_append_relation (defs : List EntityDefinition) (es : List ModuleEntry) (r : EntityRelation) {s t : NodeRef}
    (hs : resolve (defs ++ definitions es) r.startPath = some s) (ht : resolve (defs ++ definitions es) r.endPath = some t) :
    connections defs (es ++ [.relation r]) = connections defs es ++ [(s, t)] := by
  induction es generalizing defs with
  | nil =>
    simp only [definitions, List.append_nil] at hs ht
    simp only [List.nil_append, connections, hs, ht]
  | cons e es ih =>
    cases e with
    | definition d =>
      simp only [definitions] at hs ht
      simp only [List.cons_append, connections]
      exact ih (defs ++ [d]) (by rw [List.append_assoc]; exact hs) (by rw [List.append_assoc]; exact ht)
    | relation r' =>
      simp only [List.cons_append, connections]
      rw [ih defs hs ht]
      split <;> rfl

theorem definitions_append_relation (es : List ModuleEntry) (r : EntityRelation) : definitions (es ++ [.relation r]) = definitions es := by
  induction es with
  | nil => rfl
  | cons e es ih => cases e <;> simp only [List.cons_append, definitions, ih]

/-- **C92.** The full claim, that adding a relation or a table at the end leaves the lines of the relations before alone, is false
(`C92_refuted_relation`, `C92_refuted_table`).  What holds: adding a relation between tables and columns at which relations end already
leaves them alone. -/
theorem C92_added_relation_partial {q : Queue} {QI : List Entry → Prop} (hq : q.Lawful QI) (m : Module) (r : EntityRelation)
    (hsize : picHeight (lineNumbers (definitions m.entries)) ≤ 1000000000) (s t : NodeRef)
    (hs : resolve (definitions m.entries) r.startPath = some s) (ht : resolve (definitions m.entries) r.endPath = some t)
    (hs' : ∃ c ∈ connections [] m.entries, s = c.1 ∨ s = c.2) (ht' : ∃ c ∈ connections [] m.entries, t = c.1 ∨ t = c.2) :
    ∃ ls l, lines q m = some ls ∧ lines q (addEntry m (.relation r)) = some (ls ++ [some l]) := by
  have hdef : definitions (addEntry m (.relation r)).entries = definitions m.entries := definitions_append_relation m.entries r
  have hcon : connections [] (addEntry m (.relation r)).entries = connections [] m.entries ++ [(s, t)] :=
    connections_append_relation [] m.entries r (by simpa using hs) (by simpa using ht)
  have hne : definitions m.entries ≠ [] := by
    intro h0
    rw [h0] at hs
    revert hs
    cases r.startPath <;> simp [resolve, candidates]
  have hne' : definitions (addEntry m (.relation r)).entries ≠ [] := by rw [hdef]; exact hne
  have ha := (picture_blocks hq m hne hsize).1
  have hb := (picture_blocks hq (addEntry m (.relation r)) hne' (by rw [hdef]; exact hsize)).1
  have hms : mentions (connections [] m.entries) = mentions (connections [] (addEntry m (.relation r)).entries) := by
    rw [hcon, mentions, mentions, List.flatMap_append, eraseDups_append_sub]
    have hin : ∀ x, (∃ c ∈ connections [] m.entries, x = c.1 ∨ x = c.2) → x ∈ (connections [] m.entries).flatMap fun c => [c.1, c.2] := by
      intro x ⟨c, hc, hx⟩
      exact List.mem_flatMap.mpr ⟨c, hc, by simpa using hx⟩
    intro x hx
    simp only [List.flatMap_cons, List.flatMap_nil, List.append_nil, List.mem_cons, List.not_mem_nil, or_false] at hx
    rcases hx with rfl | rfl
    · exact hin _ hs'
    · exact hin _ ht'
  obtain ⟨da, ga, db, gb, hda, hdb, -, -, hsame⟩ := C72_relation_order_partial hq m (addEntry m (.relation r)) ha hb (by rw [hdef]) hms
  obtain ⟨da', ga', hda', -, -, -, hma⟩ := drawn_connections hq m ha
  obtain ⟨db', gb', hdb', -, -, hpb, hmb⟩ := drawn_connections hq (addEntry m (.relation r)) hb
  rw [hda] at hda'
  rw [hdb] at hdb'
  cases hda'
  cases hdb'
  have hla : da.edges.length = (connections [] m.entries).length := by simpa using congrArg List.length hma
  have hlb : db.edges.length = (connections [] m.entries).length + 1 := by
    have := congrArg List.length hmb
    rw [hcon] at this
    simpa using this
  obtain ⟨l, hl, -⟩ := hpb (db.edges[da.edges.length]'(by omega)) (List.getElem_mem _)
  refine ⟨da.edges.map (·.pathPoints), l, by simp only [lines, hda, pathsOf], ?_⟩
  simp only [lines, hdb, pathsOf, Option.some.injEq]
  apply List.ext_getElem?
  intro i
  rcases Nat.lt_trichotomy i da.edges.length with hi | rfl | hi
  · obtain ⟨e, e', ps, h1, h2, h3, h4⟩ := hsame i i _ (List.getElem?_eq_getElem (by omega))
      (by rw [hcon, List.getElem?_append_left (by omega)]; exact List.getElem?_eq_getElem _)
    rw [List.getElem?_append_left (by simpa using hi), List.getElem?_map, List.getElem?_map, h1, h2, Option.map_some, Option.map_some,
      h3, h4]
  · rw [List.getElem?_append_right (by simp), List.getElem?_map, List.getElem?_eq_getElem (by omega)]
    simp [hl]
  · rw [List.getElem?_eq_none (by simp; omega), List.getElem?_eq_none (by simp; omega)]

/-- Tables with the given numbers of columns; the tables are called `a`, `b`, ..., and so are the columns of each. -/
def lettered (ns : List Nat) : List ModuleEntry :=
  ns.zipIdx.map fun p => .definition ⟨[Char.ofNat (97 + p.2)], (List.range p.1).map fun j => ⟨[Char.ofNat (97 + j)], .int, none⟩⟩

/-- Three tables of one column side by side, and a relation from the third to the first. -/
def threeInARow : Module := ⟨none, lettered [1, 1, 1] ++ [.relation ⟨.field c!"c" c!"a", .field c!"a" c!"a"⟩]⟩

set_option maxRecDepth 1000000 in
/-- **C92 is false as stated**: the straight line of the relation of `threeInARow` goes down and up again once there is a relation
from the first to the second table as well. -/
theorem C92_refuted_relation :
    lines BinHeap.queue threeInARow = some [some [⟨810, 205 / 2⟩, ⟨770, 205 / 2⟩, ⟨390, 205 / 2⟩, ⟨350, 205 / 2⟩]] ∧
    (lines BinHeap.queue (addEntry threeInARow (.relation ⟨.field c!"a" c!"a", .field c!"b" c!"a"⟩))).map (·[0]?) =
      some (some (some [⟨810, 205 / 2⟩, ⟨770, 205 / 2⟩, ⟨770, 160⟩, ⟨580, 160⟩, ⟨390, 160⟩, ⟨390, 205 / 2⟩, ⟨350, 205 / 2⟩])) := by
  decide +kernel

/-- Four tables in two rows, with a relation from the third to a column of the fourth. -/
def fourInRows : Module := ⟨none, lettered [2, 3, 1, 1] ++ [.relation ⟨.entity c!"c", .field c!"d" c!"a"⟩]⟩

set_option maxRecDepth 1000000 in
/-- **C92 is false as stated** for added tables: with a fifth table, the line of `fourInRows` turns elsewhere. -/
theorem C92_refuted_table :
    ∃ l l', lines BinHeap.queue fourInRows = some [some l] ∧
      lines BinHeap.queue (addEntry fourInRows (.definition ⟨c!"e", [⟨c!"a", .int, none⟩]⟩)) = some [some l'] ∧
      ⟨770, 645 / 2⟩ ∈ l ∧ ⟨770, 645 / 2⟩ ∉ l' ∧ ⟨390, 230⟩ ∈ l' ∧ ⟨390, 230⟩ ∉ l := by
  refine ⟨((lines BinHeap.queue fourInRows).bind (·[0]?)).join.getD [],
    ((lines BinHeap.queue (addEntry fourInRows (.definition ⟨c!"e", [⟨c!"a", .int, none⟩]⟩))).bind (·[0]?)).join.getD [], ?_⟩
  decide +kernel

set_option maxRecDepth 1000000 in
/-- A module with a relation that joins ends mentioned before. -/
example : ∃ (m : Module) (r : EntityRelation) (s t : NodeRef), picHeight (lineNumbers (definitions m.entries)) ≤ 1000000000 ∧
    resolve (definitions m.entries) r.startPath = some s ∧ resolve (definitions m.entries) r.endPath = some t ∧
    (∃ c ∈ connections [] m.entries, s = c.1 ∨ s = c.2) ∧ (∃ c ∈ connections [] m.entries, t = c.1 ∨ t = c.2) ∧
    (s, t) ∉ connections [] m.entries ∧ (t, s) ∉ connections [] m.entries ∧ s ≠ t :=
  ⟨⟨none, lettered [1, 1, 1] ++ [.relation ⟨.field c!"c" c!"a", .field c!"a" c!"a"⟩, .relation ⟨.entity c!"b", .field c!"a" c!"a"⟩]⟩,
    ⟨.entity c!"b", .field c!"c" c!"a"⟩, .table 1, .column 2 0, by decide +kernel⟩

end Seiren
