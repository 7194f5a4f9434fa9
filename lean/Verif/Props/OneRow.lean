import Verif.Proofs.OneRow
import Verif.Props.Streets
import Verif.Props.Drawing
import Verif.Props.Avoid
/-! # Modules with at most two tables -/

namespace Seiren
open Spec

/-- Connections join tables and columns that exist. -/
theorem connections_valid (m : Module) : ∀ c ∈ connections [] m.entries,
    ValidRef (lineNumbers (definitions m.entries)) c.1 ∧ ValidRef (lineNumbers (definitions m.entries)) c.2 := by
  have key : ∀ r i, nodeOf m.intoMir r = some i → ValidRef (lineNumbers (definitions m.entries)) r := by
    intro r i h
    rw [nodeOf_intoMir] at h
    cases r with
    | table k =>
      simp only [refId] at h
      cases hk : (definitions m.entries)[k]? with
      | none => rw [hk] at h; cases h
      | some d => exact ⟨d.fields.length + 1, by simp [lineNumbers, hk]⟩
    | column k j =>
      simp only [refId] at h
      cases hk : (definitions m.entries)[k]? with
      | none => rw [hk] at h; cases h
      | some d =>
        rw [hk, Option.bind_some] at h
        split at h
        · exact ⟨d.fields.length + 1, by simp [lineNumbers, hk], by omega⟩
        · cases h
  intro c hc
  have h := (C17_relations m).1
  have : (nodeOf m.intoMir c.1, nodeOf m.intoMir c.2) ∈
      m.intoMir.edges.map (fun e => (some e.sourceId, some e.targetId)) := by
    rw [h]; exact List.mem_map.mpr ⟨c, hc, rfl⟩
  obtain ⟨e, -, he⟩ := List.mem_map.mp this
  simp only [Prod.mk.injEq] at he
  exact ⟨key _ _ he.1.symm, key _ _ he.2.symm⟩

theorem oneRow_module (m : Module) (h : (definitions m.entries).length ≤ 3) :
    OneRow (lineNumbers (definitions m.entries)) (connections [] m.entries) := by
  refine ⟨by simpa [lineNumbers] using h, ?_, connections_valid m⟩
  intro k n hk
  simp only [lineNumbers, List.getElem?_map, Option.map_eq_some_iff] at hk
  obtain ⟨d, -, rfl⟩ := hk
  omega

/-- Every path is a shortest route of one of the connections. -/
theorem edge_route {q : Queue} {QI : List Entry → Prop} (hq : q.Lawful QI) (m : Module)
    (hsize : (placeNodes m.intoMir).2.size.height ≤ 1000000000) (doc' : Document) (g' : RouteGraph)
    (h : drawEdgePath q (laidOut m.intoMir) .new = .ok (doc', g')) (e : EdgeData) (he : e ∈ doc'.edges) (ps : List Point)
    (hps : e.pathPoints = some ps) : ∃ c ∈ connections [] m.entries,
      ShortestRoute (lineNumbers (definitions m.entries)) (connections [] m.entries) c ps := by
  have hall := C67_shortest_routes hq m hsize doc' g' h
  generalize doc'.edges = es at hall he
  generalize hcs : connections [] m.entries = cs at hall ⊢
  have key : ∀ {l : List (NodeRef × NodeRef)} {es : List EdgeData}, List.Forall₂ (fun c e => ∃ ps, e.pathPoints = some ps ∧
        ShortestRoute (lineNumbers (definitions m.entries)) cs c ps) l es → e ∈ es →
      ∃ c ∈ l, ShortestRoute (lineNumbers (definitions m.entries)) cs c ps := by
    intro l es hl
    induction hl with
    | nil => simp
    | cons h1 _ ih =>
      intro he
      rcases List.mem_cons.mp he with rfl | he
      · obtain ⟨ps', h2, h3⟩ := h1
        rw [hps] at h2
        cases h2
        exact ⟨_, List.mem_cons_self, h3⟩
      · obtain ⟨c, hc, h3⟩ := ih he
        exact ⟨c, List.mem_cons_of_mem _ hc, h3⟩
  exact key hall he

/-- Consecutive points of a route are joined by a road. -/
theorem follows_road {ns : List Nat} {pl : List RouteNodeData} {w : List Nat} {ps : List Point} (h : Follows ns pl w ps) {k : Nat}
    {a b : Point} (ha : ps[k]? = some a) (hb : ps[k + 1]? = some b) :
    ∃ i j n m, w[k]? = some i ∧ w[k + 1]? = some j ∧ pl[i]? = some n ∧ pl[j]? = some m ∧ n.location = a ∧ m.location = b ∧
      Road ns pl i j := by
  obtain ⟨hr, hl⟩ := h
  rw [List.forall₂_iff_get] at hl
  obtain ⟨hlen, hget⟩ := hl
  obtain ⟨h1, h2⟩ := List.getElem?_eq_some_iff.mp ha
  obtain ⟨h3, h4⟩ := List.getElem?_eq_some_iff.mp hb
  obtain ⟨n, hn, hna⟩ := hget k (by omega) h1
  obtain ⟨m, hm, hmb⟩ := hget (k + 1) (by omega) h3
  simp only [List.get_eq_getElem] at hn hna hm hmb
  have e1 : w[k]? = some (w[k]'(by omega)) := List.getElem?_eq_getElem (by omega)
  have e2 : w[k + 1]? = some (w[k + 1]'(by omega)) := List.getElem?_eq_getElem (by omega)
  exact ⟨_, _, n, m, e1, e2, hn, hm, hna.trans h2, hmb.trans h4, hr k _ _ e1 e2⟩

theorem crosses_swap {r : Rect} {a b : Point} (h : Crosses r a b) : Crosses r b a := by
  obtain ⟨t, t0, t1, hin⟩ := h
  refine ⟨1 - t, by linarith, by linarith, ?_⟩
  have : lerp b a (1 - t) = lerp a b t := by simp only [lerp, Point.mk.injEq]; constructor <;> ring
  rw [this]; exact hin

/-- **C38** for modules with at most two tables: no path passes through a table.  (With three tables it may: `C38_refuted`.) -/
theorem C38_two_tables {q : Queue} {QI : List Entry → Prop} (hq : q.Lawful QI) (m : Module)
    (htwo : (definitions m.entries).length ≤ 2) (hsize : (placeNodes m.intoMir).2.size.height ≤ 1000000000) (doc' : Document)
    (g' : RouteGraph) (h : drawEdgePath q (laidOut m.intoMir) .new = .ok (doc', g')) (e : EdgeData) (he : e ∈ doc'.edges)
    (ps : List Point) (hps : e.pathPoints = some ps) : ¬ PassesThrough m.intoMir ps := by
  rintro ⟨k, a, b, r, ha, hb, hr, hc⟩
  have hrow := oneRow_module m (by omega)
  have hlen : (lineNumbers (definitions m.entries)).length ≤ 2 := by simpa [lineNumbers] using htwo
  obtain ⟨i, w, hi, rfl⟩ := (isTable_iff (drawable_intoMir m) r).mp hr
  rw [lineCounts_intoMir] at hi hc
  obtain ⟨c, -, ⟨⟨ws, hf⟩, -⟩, -⟩ := edge_route hq m hsize doc' g' h e he ps hps
  obtain ⟨x, y, n, n', -, -, hn, hn', rfl, rfl, d, hroad | hroad⟩ := follows_road hf ha hb
  · exact no_road hrow hlen hroad hn hn' hi hc
  · exact no_road hrow hlen hroad hn' hn hi (crosses_swap hc)

/-- **C40** for modules with at most two tables: the module is drawn exactly if no relation joins an end to itself or a table
to its own last or middle line. -/
theorem C40_two_tables {q : Queue} {QI : List Entry → Prop} (hq : q.Lawful QI) (m : Module)
    (htwo : (definitions m.entries).length ≤ 2) (hsize : (placeNodes m.intoMir).2.size.height ≤ 1000000000) :
    (∃ el, drawModule q m = .ok el) ↔ ∀ c ∈ connections [] m.entries, ¬ Meet (definitions m.entries) c.1 c.2 := by
  constructor
  · rintro ⟨el, hel⟩ c hc hmeet
    obtain ⟨p, hp⟩ := C41_refuted hq m hsize c.1 c.2 hc hmeet
    rw [hel] at hp
    cases hp
  · intro hmeet
    exact C40_rendering_never_panics_partial hq m hsize hmeet fun doc' g' h e he ps hps =>
      C38_two_tables hq m htwo hsize doc' g' h e he ps hps

/-- `neighbours` has two tables and a relation between different columns: it is drawn, and its path (`neighbours_paths`) passes
through no table. -/
example : (definitions neighbours.entries).length = 2 ∧ (∃ el, drawModule BinHeap.queue neighbours = .ok el) ∧
    ¬ PassesThrough neighbours.intoMir [⟨350, 205/2⟩, ⟨390, 205/2⟩, ⟨430, 205/2⟩] := by
  have hsize : (placeNodes neighbours.intoMir).2.size.height ≤ 1000000000 := by decide +kernel
  have hlen : (definitions neighbours.entries).length = 2 := by decide +kernel
  refine ⟨hlen, (C40_two_tables BinHeap.lawful _ (by omega) hsize).mpr ?_, ?_⟩
  · have : connections [] neighbours.entries = [(.column 0 0, .column 1 0)] := by decide +kernel
    rw [this]
    simp [Meet]
  · obtain ⟨d, g, h1, h2⟩ := pathsOf_some neighbours_paths
    have hmem : (some [⟨350, 205/2⟩, ⟨390, 205/2⟩, ⟨430, 205/2⟩] : Option (List Point)) ∈ d.edges.map (·.pathPoints) := by rw [h2]; simp
    obtain ⟨e, he, hps⟩ := List.mem_map.mp hmem
    exact C38_two_tables BinHeap.lawful _ (by omega) hsize d g h1 e he _ hps

/-- A table joined to its own last column is not drawn. -/
example : ¬ ∃ el, drawModule BinHeap.queue ⟨none, [.definition ⟨c!"a", [⟨c!"x", .int, none⟩, ⟨c!"y", .int, none⟩]⟩,
    .relation ⟨.entity c!"a", .field c!"a" c!"y"⟩]⟩ = .ok el := by
  rw [C40_two_tables BinHeap.lawful _ (by decide +kernel) (by decide +kernel)]
  intro h
  exact h (.table 0, .column 0 1) (by decide +kernel) ⟨rfl, _, rfl, .inl rfl⟩

end Seiren
