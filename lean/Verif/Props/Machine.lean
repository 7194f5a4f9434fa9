import Verif.Proofs.Machine
import Verif.Props.F32Draw
/-! # C61: path costs fit into 32 bits -/

namespace Seiren
open Spec

/-- **C61.** While the edges of a document of height at most 10^9 are routed, no sum of path costs exceeds 32 bits, neither a
cost that is returned nor one that is only queued: the result is the same whatever sums of 2^32 and more give (`w`). -/
theorem C61_costs_fit (w : Nat → Nat) (hw : ∀ n < 4294967296, w n = n) {q : Queue} {QI : List Entry → Prop} (hq : q.Lawful QI)
    (doc : Document) (hd : Drawable doc) (hsize : (placeNodes doc).2.size.height ≤ 1000000000) :
    drawEdgePathM w buildRouteGraph edgeCost q (laidOut doc) .new = drawEdgePath q (laidOut doc) .new := by
  have h := scene_laidOut hd hsize
  obtain ⟨g, hg⟩ := h.graph
  unfold drawEdgePathM drawEdgePath
  rw [hg.built]
  simp only
  rw [h.collectPathsM_eq hw hq hg edgeCost (fun _ _ _ => rfl) _ (fun _ he => he)]
  rfl

theorem scene_of_height (doc : Document) (hd : Drawable doc) (hne : tables doc ≠ []) (hh : diagramHeight doc ≤ 2 ^ 22) :
    Scene (lineCounts doc) (laidOut doc) ∧ Low (lineCounts doc) := by
  have hv := placed_viewBox hd.tabular hne
  have hheight : (placeNodes doc).2.size.height = diagramHeight doc := by rw [hv]; rfl
  refine ⟨scene_laidOut hd (by rw [hheight]; linarith), ?_⟩
  intro k n hk
  rw [lineCounts, List.getElem?_map, Option.map_eq_some_iff] at hk
  obtain ⟨t, ht, rfl⟩ := hk
  have htm := List.mem_of_getElem? ht
  obtain ⟨h0, -, -, hbox⟩ := C23_view_box_partial doc hd.tabular hne
  obtain ⟨r, hr, -, -, -, h4⟩ := hbox t (List.mem_append.mpr (Or.inl htm))
  rw [rectOf_table hd.tabular k t ht] at hr
  cases hr
  rw [h0, hheight] at h4
  simp only [tableRect] at h4
  unfold bot
  linarith

/-- **C61.** The drawing computed as on the machine, with 32-bit floating point numbers and 32-bit path costs, is that of the
exact model, for every module with a table whose diagram is at most 2^22 high. -/
theorem C61_machine_drawing (ovf : Rat → Rat) (w : Nat → Nat) (hw : ∀ n < 4294967296, w n = n) {q : Queue}
    {QI : List Entry → Prop} (hq : q.Lawful QI) (m : Module) (hne : tables m.intoMir ≠ [])
    (hh : diagramHeight m.intoMir ≤ 2 ^ 22) :
    drawModuleM (roundOr ovf) sqrtF32 w q m = drawModule q m := by
  rw [← C57_f32_drawing ovf q m hne hh]
  have H := rounding_f32 ovf
  obtain ⟨e1, e2⟩ := placed_exact H.exact m hne hh
  have hd := drawable_intoMir m
  rw [e1] at e2
  unfold drawModuleM drawModuleR
  rw [e1]
  simp only
  rw [e2]
  generalize m.intoMir = doc at *
  obtain ⟨hscene, hlow⟩ := scene_of_height doc hd hne hh
  obtain ⟨g, hg⟩ := hscene.graph
  have hgrid := SceneGraph.grid hscene hlow hg
  have hcost : ∀ a b, Joined (connectNearest (laidOut doc) g) a b →
      edgeCostR (roundOr ovf) sqrtF32 (connectNearest (laidOut doc) g) a b = edgeCost (connectNearest (laidOut doc) g) a b := by
    intro a b hj
    obtain ⟨n, m, d, hn, hm, hl⟩ := hg.joined_linked hj
    have hn' : (connectNearest (laidOut doc) g).getNode a = some n := by
      rw [RouteGraph.getNode, (connect_nodes _ g).1]; exact hn
    have hm' : (connectNearest (laidOut doc) g).getNode b = some m := by
      rw [RouteGraph.getNode, (connect_nodes _ g).1]; exact hm
    have hcn := hgrid n (List.mem_of_getElem? hn)
    have hcm := hgrid m (List.mem_of_getElem? hm)
    simp only [edgeCostR, edgeCost, hn', hm']
    exact distanceR_axis H hcn.1 hcn.2 hcm.1 hcm.2 hl.1.axis
  have : drawEdgePathM w (buildRouteGraphR (roundOr ovf)) (edgeCostR (roundOr ovf) sqrtF32) q (laidOut doc) .new =
      drawEdgePathR (roundOr ovf) sqrtF32 q (laidOut doc) .new := by
    rw [drawEdgePathR_eq H q hscene hlow]
    unfold drawEdgePathM drawEdgePath
    rw [buildRouteGraphR_eq H hscene hlow, hg.built]
    simp only
    rw [hscene.collectPathsM_eq hw hq hg _ hcost _ (fun _ he => he)]
    rfl
  change (match drawEdgePathM w (buildRouteGraphR (roundOr ovf)) (edgeCostR (roundOr ovf) sqrtF32) q (laidOut doc) .new with
    | .error p => (.error (.panic p) : Except RenderError Element)
    | .ok (d, _) => renderR (roundOr ovf) (some (placeNodes doc).2) d) = _
  rw [this]
  rfl

/-! A module with a relation meeting the hypotheses. -/
set_option maxRecDepth 100000 in
example : tables threeTables.intoMir ≠ [] ∧ diagramHeight threeTables.intoMir ≤ 2 ^ 22 ∧
    (placeNodes threeTables.intoMir).2.size.height ≤ 1000000000 ∧ threeTables.intoMir.edges ≠ [] := by
  decide +kernel

/-- The sums of a machine that wraps around. -/
example : ∀ n < 4294967296, (fun n => n % 4294967296) n = n := fun _ h => Nat.mod_eq_of_lt h

end Seiren
