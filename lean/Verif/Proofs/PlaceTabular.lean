import Verif.Proofs.Place
/-! # `place_nodes` on documents of tables, in closed form -/

namespace Seiren
open Spec

theorem bodyChildren_eq (doc : Document) : doc.bodyChildren = tables doc := rfl

theorem lineAssign_eq (doc : Document) (x b : Rat) (ls : List NodeId) (k : Nat)
    (h : ∀ l ∈ ls, ∃ n f, doc.nodes[l]? = some n ∧ n.kind = .field f) :
    lineAssign doc x b (ls.zipIdx k) =
      (ls.zipIdx k).map fun p => (p.1, (⟨⟨x, b + 35 * (p.2 : Rat)⟩, ⟨300, 35⟩⟩ : Rect)) := by
  induction ls generalizing k with
  | nil => rfl
  | cons l ls ih =>
    obtain ⟨n, f, hn, hk⟩ := h l (by simp)
    have := ih (k + 1) (fun l hl => h l (by simp [hl]))
    simp only [lineAssign, List.zipIdx_cons, List.filterMap_cons, Document.getNode, hn, hk, List.map_cons] at this ⊢
    rw [this]
    rfl

/-- The expected assignments for one table. -/
def tableAssign (doc : Document) (ns : List Nat) (t : NodeId) (k : Nat) : List (NodeId × Rect) :=
  (t, tableRect ns k (childrenOf doc t).length) ::
    (childrenOf doc t).zipIdx.map fun p => (p.1, lineRect ns k p.2)

/-- The expected assignments for all tables. -/
def allAssign (doc : Document) : List (NodeId × Rect) :=
  (tables doc).zipIdx.flatMap fun p => tableAssign doc (lineCounts doc) p.1 p.2

theorem tallest_take_succ (ns : List Nat) (k n : Nat) (h : ns[k]? = some n) :
    tallest (ns.take (k + 1)) (k / 3) = max n (if k % 3 = 0 then 0 else tallest (ns.take k) (k / 3)) := by
  obtain ⟨r, hr⟩ : ∃ r, k = 3 * r ∨ k = 3 * r + 1 ∨ k = 3 * r + 2 := ⟨k / 3, by omega⟩
  rcases hr with rfl | rfl | rfl
  · have e1 : 3 * r / 3 = r := by omega
    have e2 : 3 * r % 3 = 0 := by omega
    simp [tallest, e1, h]
  · have e1 : (3 * r + 1) / 3 = r := by omega
    have e2 : (3 * r + 1) % 3 = 1 := by omega
    simp [tallest, e1, e2, h, show 3 * r < 3 * r + 1 + 1 by omega]
    omega
  · have e1 : (3 * r + 2) / 3 = r := by omega
    have e2 : (3 * r + 2) % 3 = 2 := by omega
    simp [tallest, e1, e2, h, show 3 * r < 3 * r + 1 + 1 by omega, show 3 * r < 3 * r + 2 + 1 by omega]
    omega

theorem tallest_take (ns : List Nat) (k r : Nat) (h : 3 * r + 2 < k) : tallest (ns.take k) r = tallest ns r := by
  simp [tallest, show 3 * r < k by omega, show 3 * r + 1 < k by omega, h]

/-- The state expected after `k` tables. -/
def Expected (doc : Document) (k : Nat) (st : AssignState) : Prop :=
  st.us = ((tables doc).take k).zipIdx.flatMap (fun p => tableAssign doc (lineCounts doc) p.1 p.2) ∧
  (k = 0 → st.baseY = 50 ∧ st.maxHeight = f32Min) ∧
  (0 < k → st.baseY = rowTop (lineCounts doc) ((k - 1) / 3) ∧
    st.maxHeight = 35 * (tallest ((lineCounts doc).take k) ((k - 1) / 3) : Rat))

theorem cast_max_mul (a b : Nat) : max (35 * (a : Rat)) (35 * (b : Rat)) = 35 * ((max a b : Nat) : Rat) := by
  rw [← mul_max_of_nonneg _ _ (by norm_num : (0 : Rat) ≤ 35)]
  push_cast
  rfl

theorem max_f32Min (n : Nat) : max (35 * (n : Rat)) f32Min = 35 * (n : Rat) := by
  apply max_eq_left
  have : (0 : Rat) ≤ n := Nat.cast_nonneg n
  unfold f32Min
  linarith

theorem Expected.step {doc : Document} (hd : Tabular doc) {k : Nat} {st : AssignState} (h : Expected doc k st)
    (t : NodeId) (ht : (tables doc)[k]? = some t) : Expected doc (k + 1) (assignStep doc st (t, k)) := by
  have hk : k < (tables doc).length := (List.getElem?_eq_some_iff.mp ht).1
  obtain ⟨n, r, hn, hkind⟩ := hd.isTable t (List.mem_of_getElem? ht)
  have hch : childrenOf doc t = n.children := by simp [childrenOf, hn]
  have hns : (lineCounts doc)[k]? = some n.children.length := by
    simp [lineCounts, ht, hch]
  obtain ⟨hus, h0, hpos⟩ := h
  have hla : ∀ b, lineAssign doc (ORIGIN.x + (RECORD_WIDTH + RECORD_SPACE) * (k % GRID_N_COLUMNS : Nat)) b n.children.zipIdx =
      n.children.zipIdx.map fun p => (p.1, (⟨⟨50 + 380 * ((k % 3 : Nat) : Rat), b + 35 * (p.2 : Rat)⟩, ⟨300, 35⟩⟩ : Rect)) := by
    intro b
    have hx : ORIGIN.x + (RECORD_WIDTH + RECORD_SPACE) * ((k % GRID_N_COLUMNS : Nat) : Rat) = 50 + 380 * ((k % 3 : Nat) : Rat) := by
      simp only [ORIGIN, RECORD_WIDTH, RECORD_SPACE, GRID_N_COLUMNS]; norm_num
    rw [lineAssign_eq doc _ b n.children 0 (by rw [← hch]; exact hd.isLine t (List.mem_of_getElem? ht)), hx]
  have hx : ORIGIN.x + (RECORD_WIDTH + RECORD_SPACE) * ((k % GRID_N_COLUMNS : Nat) : Rat) = 50 + 380 * ((k % 3 : Nat) : Rat) := by
    simp only [ORIGIN, RECORD_WIDTH, RECORD_SPACE, GRID_N_COLUMNS]; norm_num
  -- the row after the test of lines 278-282
  have hrow : ∃ mh : Rat, (if k > 0 ∧ k % GRID_N_COLUMNS = 0 then
      ({ st with baseY := st.baseY + (st.maxHeight + RECORD_SPACE), maxHeight := f32Min } : AssignState) else st) =
        ⟨st.us, rowTop (lineCounts doc) (k / 3), mh⟩ ∧
      max (35 * (n.children.length : Rat)) mh = 35 * (tallest ((lineCounts doc).take (k + 1)) (k / 3) : Rat) := by
    rw [tallest_take_succ _ _ _ hns]
    by_cases hk0 : k = 0
    · subst hk0
      obtain ⟨hb, hm⟩ := h0 rfl
      refine ⟨st.maxHeight, ?_, ?_⟩
      · simp only [gt_iff_lt, Nat.lt_irrefl, false_and, if_false, Nat.zero_div, rowTop, ← hb]
      · rw [hm, max_f32Min]; simp
    · obtain ⟨hb, hm⟩ := hpos (Nat.pos_of_ne_zero hk0)
      by_cases hr : k % 3 = 0
      · refine ⟨f32Min, ?_, by rw [max_f32Min]; simp [hr]⟩
        have hg : k > 0 ∧ k % GRID_N_COLUMNS = 0 := ⟨Nat.pos_of_ne_zero hk0, hr⟩
        have e : k / 3 = (k - 1) / 3 + 1 := by omega
        rw [if_pos hg, e, rowTop, hb, hm, tallest_take _ _ _ (by omega)]
        simp only [AssignState.mk.injEq, true_and, and_true, RECORD_SPACE]
        ring
      · have e : (k - 1) / 3 = k / 3 := by omega
        rw [e] at hb hm
        refine ⟨st.maxHeight, ?_, ?_⟩
        · have hg : ¬ (k > 0 ∧ k % GRID_N_COLUMNS = 0) := fun hh => hr hh.2
          rw [if_neg hg, ← hb]
        · rw [hm, cast_max_mul]
          simp [hr]
  obtain ⟨mh, hrow, hmax⟩ := hrow
  unfold assignStep
  simp only
  rw [hrow]
  simp only [Document.getNode, hn, hkind]
  refine ⟨?_, by omega, fun _ => ⟨rfl, ?_⟩⟩
  · simp only
    rw [hus, List.take_add_one, ht, List.zipIdx_append, List.flatMap_append]
    simp only [List.length_take, Nat.min_eq_left (le_of_lt hk), Nat.zero_add, Option.toList_some, List.zipIdx_cons,
      List.zipIdx_nil, List.flatMap_cons, List.flatMap_nil, List.append_nil]
    congr 1
    rw [hla, hx]
    simp only [tableAssign, hch]
    rfl
  · simp only [LINE_HEIGHT, Nat.add_sub_cancel]
    exact hmax

theorem assignments_expected {doc : Document} (hd : Tabular doc) :
    Expected doc (tables doc).length (assignments doc) := by
  have key : ∀ (suf : List NodeId) (k : Nat) (st : AssignState), (tables doc).drop k = suf → Expected doc k st →
      Expected doc (k + suf.length) ((suf.zipIdx k).foldl (assignStep doc) st) := by
    intro suf
    induction suf with
    | nil => intro k st _ h; simpa using h
    | cons t suf ih =>
      intro k st hdrop h
      have ht : (tables doc)[k]? = some t := by
        have := congrArg (·[0]?) hdrop
        simpa [List.getElem?_drop] using this
      have hdrop' : (tables doc).drop (k + 1) = suf := by
        rw [← List.drop_drop, hdrop]; rfl
      have := ih (k + 1) _ hdrop' (h.step hd t ht)
      rw [List.zipIdx_cons, List.foldl_cons, List.length_cons]
      rwa [show k + (suf.length + 1) = k + 1 + suf.length by omega]
  have := key (tables doc) 0 ⟨[], ORIGIN.y, f32Min⟩ rfl ⟨by simp, fun _ => ⟨rfl, rfl⟩, fun h => absurd h (lt_irrefl _)⟩
  rw [Nat.zero_add] at this
  exact this

theorem assignments_us {doc : Document} (hd : Tabular doc) : (assignments doc).us = allAssign doc := by
  have := (assignments_expected hd).1
  rw [List.take_of_length_le (le_refl _)] at this
  exact this

theorem allAssign_ids (doc : Document) : ((allAssign doc).map (·.1)).Perm
    (tables doc ++ (tables doc).flatMap (childrenOf doc)) := by
  have key : ∀ (l : List NodeId) (k : Nat) (ns : List Nat),
      (((l.zipIdx k).flatMap fun p => tableAssign doc ns p.1 p.2).map (·.1)).Perm (l ++ l.flatMap (childrenOf doc)) := by
    intro l
    induction l with
    | nil => intro k ns; simp
    | cons t l ih =>
      intro k ns
      have e : (tableAssign doc ns t k).map (·.1) = t :: childrenOf doc t := by
        simp [tableAssign, List.map_map, Function.comp_def, List.zipIdx_map_fst]
      simp only [List.zipIdx_cons, List.flatMap_cons, List.map_append, e, List.cons_append]
      refine List.Perm.cons _ ?_
      refine (List.Perm.append_left _ (ih (k + 1) ns)).trans ?_
      rw [← List.append_assoc, ← List.append_assoc]
      exact List.Perm.append_right _ List.perm_append_comm
  exact key _ _ _

theorem lastRect_of_mem (us : List (NodeId × Rect)) (h : (us.map (·.1)).Nodup) (i : NodeId) (r : Rect)
    (hm : (i, r) ∈ us) : lastRect us i = some r := by
  have : us.filter (fun u => u.1 = i) = [(i, r)] := by
    induction us with
    | nil => cases hm
    | cons u us ih =>
      rw [List.map_cons, List.nodup_cons] at h
      rw [List.mem_cons] at hm
      rcases hm with rfl | hm
      · simp only [List.filter_cons, decide_true, if_true]
        congr 1
        rw [List.filter_eq_nil_iff]
        intro v hv
        simp only [decide_eq_true_iff]
        intro hvi
        exact h.1 (List.mem_map.mpr ⟨v, hv, hvi⟩)
      · have hne : u.1 ≠ i := by
          rintro rfl
          exact h.1 (List.mem_map.mpr ⟨_, hm, rfl⟩)
        simp only [List.filter_cons, hne, decide_false]
        exact ih h.2 hm
  simp [lastRect, this]

theorem lastRect_of_not_mem (us : List (NodeId × Rect)) (i : NodeId) (h : i ∉ us.map (·.1)) : lastRect us i = none := by
  have : us.filter (fun u => u.1 = i) = [] := by
    rw [List.filter_eq_nil_iff]
    intro v hv hvi
    simp only [decide_eq_true_iff] at hvi
    exact h (List.mem_map.mpr ⟨v, hv, hvi⟩)
  simp [lastRect, this]

/-- The node of table `k` after `place_nodes`. -/
theorem placed_table {doc : Document} (hd : Tabular doc) (k : Nat) (t : NodeId) (ht : (tables doc)[k]? = some t)
    (n : NodeData) (hn : doc.nodes[t]? = some n) :
    (placeNodes doc).1.nodes[t]? = some (setRect (tableRect (lineCounts doc) k n.children.length) n) := by
  rw [(placeNodes_eq doc).1, (setRects_getElem doc _ t).1, assignments_us hd,
    lastRect_of_mem _ ((allAssign_ids doc).nodup_iff.mpr hd.nodup) t (tableRect (lineCounts doc) k n.children.length), hn]
  · rfl
  · simp only [allAssign, List.mem_flatMap]
    refine ⟨(t, k), List.mem_zipIdx_iff_getElem?.mpr ht, ?_⟩
    simp [tableAssign, childrenOf, hn]

/-- The node of line `j` of table `k` after `place_nodes`. -/
theorem placed_line {doc : Document} (hd : Tabular doc) (k j : Nat) (t l : NodeId) (ht : (tables doc)[k]? = some t)
    (hl : (childrenOf doc t)[j]? = some l) (n : NodeData) (hn : doc.nodes[l]? = some n) :
    (placeNodes doc).1.nodes[l]? = some (setRect (lineRect (lineCounts doc) k j) n) := by
  rw [(placeNodes_eq doc).1, (setRects_getElem doc _ l).1, assignments_us hd,
    lastRect_of_mem _ ((allAssign_ids doc).nodup_iff.mpr hd.nodup) l (lineRect (lineCounts doc) k j), hn]
  · rfl
  · simp only [allAssign, List.mem_flatMap]
    refine ⟨(t, k), List.mem_zipIdx_iff_getElem?.mpr ht, ?_⟩
    simp only [tableAssign, List.mem_cons, List.mem_map]
    exact Or.inr ⟨(l, j), List.mem_zipIdx_iff_getElem?.mpr hl, rfl⟩

/-- Nodes that are neither tables nor lines are not touched. -/
theorem placed_other {doc : Document} (hd : Tabular doc) (i : NodeId)
    (hi : i ∉ tables doc ++ (tables doc).flatMap (childrenOf doc)) :
    (placeNodes doc).1.nodes[i]? = doc.nodes[i]? := by
  rw [(placeNodes_eq doc).1, (setRects_getElem doc _ i).1, assignments_us hd, lastRect_of_not_mem]
  · cases doc.nodes[i]? <;> rfl
  · rwa [(allAssign_ids doc).mem_iff]

/-- The view box. -/
theorem placed_viewBox {doc : Document} (hd : Tabular doc) (h : tables doc ≠ []) :
    let r := ((tables doc).length - 1) / 3
    (placeNodes doc).2 = ⟨⟨0, 0⟩, ⟨1160, rowTop (lineCounts doc) r + 35 * (tallest (lineCounts doc) r : Rat) + 50⟩⟩ := by
  have hl : 0 < (tables doc).length := List.length_pos_iff.mpr h
  have := (assignments_expected hd).2.2 hl
  rw [List.take_of_length_le (by simp [lineCounts])] at this
  rw [(placeNodes_eq doc).2, this.1, this.2]
  rfl

end Seiren
