import Verif.Proofs.StepsWholeLeast
import Verif.Props.StepsWhole
import Verif.Props.StepsLeast
import Verif.Proofs.StorageDraw
/-! # C102, from below: every loop of the program is counted -/

namespace Seiren
open Spec Steps StepBound

theorem havePlaces_tables {doc : Document} (hd : Tabular doc) : HavePlaces (placeNodes doc).1 (tables doc) ∧
    ∀ t ∈ tables doc, HavePlaces (placeNodes doc).1 (childrenOf doc t) := by
  have key : ∀ {i r}, rectOf (placeNodes doc).1 i = some r → ∃ n r, (placeNodes doc).1.getNode i = some n ∧ n.rect = some r := by
    intro i r h
    rw [rectOf_eq, Option.bind_eq_some_iff] at h
    obtain ⟨n, hn, hr⟩ := h
    exact ⟨n, r, hn, hr⟩
  refine ⟨fun t ht => ?_, fun t ht l hl => ?_⟩
  · obtain ⟨k, hk⟩ := List.mem_iff_getElem?.mp ht
    exact key (rectOf_table hd k t hk)
  · obtain ⟨k, hk⟩ := List.mem_iff_getElem?.mp ht
    obtain ⟨j, hj⟩ := List.mem_iff_getElem?.mp hl
    exact key (rectOf_line hd k j t l hk hj)

theorem routed_keeps {q : Queue} {doc doc' : Document} {g g' : RouteGraph} (h : drawEdgePath q doc g = .ok (doc', g')) :
    doc'.nodes = doc.nodes ∧ doc'.bodyId = doc.bodyId ∧ doc'.edges.length = doc.edges.length := by
  unfold drawEdgePath at h
  split at h
  · cases h
  · split at h
    · cases h
    · split at h
      · cases h
      next hp =>
        cases h
        exact ⟨rfl, rfl, assignPaths_length hp⟩

/-- **C102**, from below: if a module with `E` entries, among them `T` tables with `K` columns in all, and `R` drawn relations is drawn, and the lines of
the relations have `L` points in all, this takes at least `E + 17 T + 9 K + R + 2 L` steps besides those for routing (for which see
`C100_every_loop`). -/
theorem C102_every_loop (q : Queue) (m : Module) (root : Element) (h : drawModule q m = .ok root) :
    ∃ doc' g', drawEdgePath q (laidOut m.intoMir) .new = .ok (doc', g') ∧
      let T := (definitions m.entries).length
      let K := columnCount (definitions m.entries)
      let R := (connections [] m.entries).length
      let L := (doc'.edges.map fun e => (e.pathPoints.getD []).length).sum
      m.entries.length + 17 * T + 9 * K + R + 2 * L + (sDrawEdgePath q (laidOut m.intoMir) .new).steps ≤ (sDrawModule q m).steps := by
  unfold drawModule at h
  simp only at h
  rw [show placeTerminalPorts (placeNodes m.intoMir).1 = laidOut m.intoMir from rfl] at h
  cases h1 : drawEdgePath q (laidOut m.intoMir) .new with
  | error p => simp [h1] at h
  | ok r =>
    obtain ⟨doc', g'⟩ := r
    simp only [h1] at h
    refine ⟨doc', g', rfl, ?_⟩
    intro T K R L
    obtain ⟨hn, hb, hlen⟩ := routed_keeps h1
    have h0 : (sDrawModule q m).steps = m.sIntoMir.steps + ((sPlaceNodes m.intoMir).steps + ((sPlaceTerminalPorts (placeNodes m.intoMir).1).steps +
        ((sDrawEdgePath q (laidOut m.intoMir) .new).steps + (sRender (some (placeNodes m.intoMir).2) doc').steps))) := by
      rw [sDrawModule, andThen_steps, sIntoMir_val, andThen_steps, sPlaceNodes_val, andThen_steps, sPlaceTerminalPorts_val, andThen_steps,
        sDrawEdgePath_val]
      rw [show placeTerminalPorts (placeNodes m.intoMir).1 = laidOut m.intoMir from rfl, h1]
    have hd := tabular_intoMir m
    have hT : m.intoMir.bodyChildren.length = T := by rw [Seiren.bodyChildren_eq, tables_intoMir, recordIds_length]
    have hR : doc'.edges.length = R := by
      rw [hlen, (laidOut_edges m.intoMir).1]
      simpa using congrArg List.length (C17_relations m).1
    have hL := linesOf_intoMir m
    have hp := linesOf_congr (doc := m.intoMir) (doc' := (placeNodes m.intoMir).1) (C24_touches_positions_only m.intoMir).2.2 (childrenOf_placed _)
    have hr := linesOf_congr (doc := m.intoMir) (doc' := doc') (hb.trans (laidOut_edges m.intoMir).2) (fun i => by
      rw [← childrenOf_laidOut m.intoMir i, childrenOf, hn]; rfl)
    have hbody : (placeNodes m.intoMir).1.bodyChildren = tables m.intoMir := by
      rw [Seiren.bodyChildren_eq, tables, childrenOf_placed, (C24_touches_positions_only m.intoMir).2.2]; rfl
    have hbody' : doc'.bodyChildren = tables m.intoMir := by
      rw [Seiren.bodyChildren_eq, tables, hb, (laidOut_edges m.intoMir).2, tables, ← childrenOf_laidOut m.intoMir, childrenOf, hn]; rfl
    have s1 := le_sIntoMir m
    have s2 := le_sPlaceNodes hd
    have s3 := le_sPlaceTerminalPorts (doc := (placeNodes m.intoMir).1) (by rw [hbody]; exact (havePlaces_tables hd).1) (by
      intro i hi
      rw [hbody] at hi
      rw [childrenOf_placed]
      exact (havePlaces_tables hd).2 i hi)
    have s4 := le_sRender (doc := doc') (by
      intro i hi
      rw [hbody'] at hi
      obtain ⟨n, r, hin, hk⟩ := hd.isTable i hi
      have hki := laidOut_kind m.intoMir i
      rw [hin, Option.map_some, Option.map_eq_some_iff, ← hn] at hki
      obtain ⟨n', hn', hk'⟩ := hki
      simp only [Prod.mk.injEq] at hk'
      exact ⟨n', r, hn', hk'.1.trans hk⟩) h
    rw [hp.1, hp.2] at s3
    rw [hR, hr.1, hr.2] at s4
    change _ + 2 * K ≤ _ at s1
    change _ = T + K at hL
    change _ + (_ + 2 * L) ≤ _ at s4
    omega

set_option maxRecDepth 1000000 in
/-- Three tables, four columns, one relation with six points: at least 4 + 51 + 36 + 1 + 12 = 104 of the 114 steps besides routing (see the
examples of `Verif/Props/StepsWhole.lean`) are accounted for. -/
example : (drawModule BinHeap.queue threeTables).isOk = true ∧ threeTables.entries.length = 4 ∧
    (definitions threeTables.entries).length = 3 ∧ columnCount (definitions threeTables.entries) = 4 ∧
    (connections [] threeTables.entries).length = 1 := by
  decide +kernel

end Seiren
