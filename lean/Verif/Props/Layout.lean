import Verif.Proofs.MirTabular
/-!
# C20–C25: placing tables and columns

The theorems hold for every document of tables (`Tabular`); by `tabular_intoMir` the document built from any module is
one.
-/

namespace Seiren
open Spec

/-! ## C20 -/

/-- Two rectangles are apart by at least `d` horizontally or vertically. -/
def Spec.Apart (d : Rat) (a b : Rect) : Prop :=
  a.origin.x + a.size.width + d ≤ b.origin.x ∨ b.origin.x + b.size.width + d ≤ a.origin.x ∨
    a.origin.y + a.size.height + d ≤ b.origin.y ∨ b.origin.y + b.size.height + d ≤ a.origin.y

theorem rectOf_table {doc : Document} (hd : Tabular doc) (k : Nat) (t : NodeId) (ht : (tables doc)[k]? = some t) :
    rectOf (placeNodes doc).1 t = some (tableRect (lineCounts doc) k (childrenOf doc t).length) := by
  obtain ⟨n, r, hn, -⟩ := hd.isTable t (List.mem_of_getElem? ht)
  rw [rectOf, placed_table hd k t ht n hn]
  simp [setRect, childrenOf, hn]

theorem rectOf_line {doc : Document} (hd : Tabular doc) (k j : Nat) (t l : NodeId) (ht : (tables doc)[k]? = some t)
    (hl : (childrenOf doc t)[j]? = some l) :
    rectOf (placeNodes doc).1 l = some (lineRect (lineCounts doc) k j) := by
  obtain ⟨n, f, hn, -⟩ := hd.isLine t (List.mem_of_getElem? ht) l (List.mem_of_getElem? hl)
  rw [rectOf, placed_line hd k j t l ht hl n hn]
  simp [setRect]

theorem rowTop_step (ns : List Nat) (r : Nat) : rowTop ns r + 35 * (tallest ns r : Rat) + 80 = rowTop ns (r + 1) := rfl

theorem rowTop_mono (ns : List Nat) (r s : Nat) (h : r ≤ s) : rowTop ns r ≤ rowTop ns s := by
  induction s with
  | zero => rw [Nat.le_zero.mp h]
  | succ s ih =>
    rcases Nat.lt_or_ge r (s + 1) with h' | h'
    · have := ih (by omega)
      have h0 : (0 : Rat) ≤ (tallest ns s : Rat) := Nat.cast_nonneg _
      rw [← rowTop_step]
      linarith
    · rw [show r = s + 1 by omega]

theorem le_tallest (ns : List Nat) (k n : Nat) (h : ns[k]? = some n) : n ≤ tallest ns (k / 3) := by
  obtain ⟨r, hr⟩ : ∃ r, k = 3 * r ∨ k = 3 * r + 1 ∨ k = 3 * r + 2 := ⟨k / 3, by omega⟩
  rcases hr with rfl | rfl | rfl
  · simp [tallest, show 3 * r / 3 = r by omega, h]
  · simp [tallest, show (3 * r + 1) / 3 = r by omega, h]
  · simp [tallest, show (3 * r + 2) / 3 = r by omega, h]

theorem lineCounts_getElem {doc : Document} (k : Nat) (t : NodeId) (ht : (tables doc)[k]? = some t) :
    (lineCounts doc)[k]? = some (childrenOf doc t).length := by
  simp [lineCounts, ht]

theorem bottom_le (ns : List Nat) (k n s : Nat) (h : ns[k]? = some n) (hs : k / 3 < s) :
    rowTop ns (k / 3) + 35 * (n : Rat) + 80 ≤ rowTop ns s := by
  have h1 : (n : Rat) ≤ (tallest ns (k / 3) : Rat) := by exact_mod_cast le_tallest ns k n h
  have h2 := rowTop_mono ns (k / 3 + 1) s hs
  rw [← rowTop_step] at h2
  linarith

/-- C20: after `place_nodes` any two different tables have rectangles that are at least 80 apart. -/
theorem C20_tables_never_overlap (doc : Document) (hd : Tabular doc) (t t' : NodeId) (ht : t ∈ tables doc)
    (ht' : t' ∈ tables doc) (hne : t ≠ t') :
    ∃ r r', rectOf (placeNodes doc).1 t = some r ∧ rectOf (placeNodes doc).1 t' = some r' ∧ Apart 80 r r' := by
  obtain ⟨k, hk⟩ := List.getElem?_of_mem ht
  obtain ⟨k', hk'⟩ := List.getElem?_of_mem ht'
  refine ⟨_, _, rectOf_table hd k t hk, rectOf_table hd k' t' hk', ?_⟩
  have hkk : k ≠ k' := by rintro rfl; rw [hk] at hk'; exact hne (Option.some.inj hk')
  simp only [Apart, tableRect]
  rcases Nat.lt_trichotomy (k / 3) (k' / 3) with h | h | h
  · right; right; left
    exact bottom_le _ _ _ _ (lineCounts_getElem k t hk) h
  · rcases Nat.lt_or_ge (k % 3) (k' % 3) with h2 | h2
    · left
      have : ((k % 3 : Nat) : Rat) + 1 ≤ ((k' % 3 : Nat) : Rat) := by exact_mod_cast h2
      linarith
    · right; left
      have h3 : k' % 3 < k % 3 := by omega
      have : ((k' % 3 : Nat) : Rat) + 1 ≤ ((k % 3 : Nat) : Rat) := by exact_mod_cast h3
      linarith
  · right; right; right
    exact bottom_le _ _ _ _ (lineCounts_getElem k' t' hk') h

/-- A module with four tables of different lengths: the rectangles of its tables. -/
def fourTables : Module :=
  ⟨none, [.definition ⟨c!"a", [⟨c!"x", .int, none⟩]⟩, .definition ⟨c!"b", []⟩,
    .definition ⟨c!"c", [⟨c!"x", .int, none⟩, ⟨c!"y", .int, none⟩]⟩, .definition ⟨c!"d", []⟩]⟩

example : (tables fourTables.intoMir).map (rectOf (placeNodes fourTables.intoMir).1) =
    [some ⟨⟨50, 50⟩, ⟨300, 70⟩⟩, some ⟨⟨430, 50⟩, ⟨300, 35⟩⟩, some ⟨⟨810, 50⟩, ⟨300, 105⟩⟩,
      some ⟨⟨50, 235⟩, ⟨300, 35⟩⟩] := by decide +kernel

/-! ## C21 -/

/-- C21: table number `k` is 300 wide, 35 high per line, in column `k mod 3` at `x = 50 + 380 (k mod 3)`; the first
row starts at `y = 50`; tables of the same row start at the same height; a table is at least 80 below every table of
the row above, and exactly 80 below one of them. -/
theorem C21_grid (doc : Document) (hd : Tabular doc) (k : Nat) (t : NodeId) (ht : (tables doc)[k]? = some t) :
    ∃ r, rectOf (placeNodes doc).1 t = some r ∧
      r.size.width = 300 ∧ r.size.height = 35 * ((childrenOf doc t).length : Rat) ∧
      r.origin.x = 50 + 380 * ((k % 3 : Nat) : Rat) ∧
      (k < 3 → r.origin.y = 50) ∧
      (∀ k' t' r', (tables doc)[k']? = some t' → rectOf (placeNodes doc).1 t' = some r' →
        (k' / 3 = k / 3 → r'.origin.y = r.origin.y) ∧
        (k' / 3 + 1 = k / 3 → r'.origin.y + r'.size.height + 80 ≤ r.origin.y)) ∧
      (3 ≤ k → ∃ k' t' r', (tables doc)[k']? = some t' ∧ rectOf (placeNodes doc).1 t' = some r' ∧
        k' / 3 + 1 = k / 3 ∧ r'.origin.y + r'.size.height + 80 = r.origin.y) := by
  refine ⟨_, rectOf_table hd k t ht, rfl, rfl, rfl, ?_, ?_, ?_⟩
  · intro h
    simp [tableRect, show k / 3 = 0 by omega, rowTop]
  · intro k' t' r' ht' hr'
    rw [rectOf_table hd k' t' ht'] at hr'
    cases hr'
    constructor
    · intro h
      simp [tableRect, h]
    · intro h
      exact bottom_le _ _ _ _ (lineCounts_getElem k' t' ht') (by omega)
  · intro h
    have hk : k < (tables doc).length := (List.getElem?_eq_some_iff.mp ht).1
    have ex : ∃ k', k' / 3 + 1 = k / 3 ∧ ∃ n, (lineCounts doc)[k']? = some n ∧ n = tallest (lineCounts doc) (k / 3 - 1) := by
      have hl : (lineCounts doc).length = (tables doc).length := by simp [lineCounts]
      have g : ∀ i, i < k → ∃ n, (lineCounts doc)[i]? = some n := fun i hi =>
        ⟨_, List.getElem?_eq_getElem (by omega)⟩
      obtain ⟨a, ha⟩ := g (3 * (k / 3 - 1)) (by omega)
      obtain ⟨b, hb⟩ := g (3 * (k / 3 - 1) + 1) (by omega)
      obtain ⟨c, hc⟩ := g (3 * (k / 3 - 1) + 2) (by omega)
      have ht : tallest (lineCounts doc) (k / 3 - 1) = max (max a b) c := by simp [tallest, ha, hb, hc]
      rw [ht]
      rcases le_total a b with hab | hab <;> rcases le_total (max a b) c with habc | habc
      · exact ⟨_, by omega, c, hc, by omega⟩
      · exact ⟨3 * (k / 3 - 1) + 1, by omega, b, hb, by omega⟩
      · exact ⟨3 * (k / 3 - 1) + 2, by omega, c, hc, by omega⟩
      · exact ⟨3 * (k / 3 - 1), by omega, a, ha, by omega⟩
    obtain ⟨k', hk', n, hn, hmax⟩ := ex
    have hk'l : k' < (tables doc).length := by omega
    refine ⟨k', _, _, List.getElem?_eq_getElem hk'l, rectOf_table hd k' _ (List.getElem?_eq_getElem hk'l), hk', ?_⟩
    have := lineCounts_getElem k' _ (List.getElem?_eq_getElem hk'l)
    rw [hn] at this
    have hlen := Option.some.inj this
    simp only [tableRect]
    rw [← hlen, hmax, show k' / 3 = k / 3 - 1 by omega]
    rw [rowTop_step, show k / 3 - 1 + 1 = k / 3 by omega]

example : (tables fourTables.intoMir)[3]? = some 11 ∧
    rectOf (placeNodes fourTables.intoMir).1 11 = some ⟨⟨50, 235⟩, ⟨300, 35⟩⟩ := by decide +kernel

/-! ## C22 -/

/-- C22: the lines of a table tile it: line `j` has the table's x and width, is 35 high and starts `35 j` below the
table's top (so each starts where the previous one ends), and the last one ends where the table ends. -/
theorem C22_lines_tile_table (doc : Document) (hd : Tabular doc) (t : NodeId) (ht : t ∈ tables doc) :
    ∃ r, rectOf (placeNodes doc).1 t = some r ∧
      r.size.height = 35 * ((childrenOf doc t).length : Rat) ∧
      ∀ (j : Nat) l, (childrenOf doc t)[j]? = some l → ∃ s, rectOf (placeNodes doc).1 l = some s ∧
        s.origin.x = r.origin.x ∧ s.size.width = r.size.width ∧ s.size.height = 35 ∧
        s.origin.y = r.origin.y + 35 * (j : Rat) ∧
        (j + 1 = (childrenOf doc t).length → s.origin.y + s.size.height = r.origin.y + r.size.height) := by
  obtain ⟨k, hk⟩ := List.getElem?_of_mem ht
  refine ⟨_, rectOf_table hd k t hk, rfl, ?_⟩
  intro j l hl
  refine ⟨_, rectOf_line hd k j t l hk hl, rfl, rfl, rfl, rfl, ?_⟩
  intro hj
  simp only [lineRect, tableRect, ← hj]
  push_cast
  ring

example : (childrenOf fourTables.intoMir 9).map (rectOf (placeNodes fourTables.intoMir).1) =
    [some ⟨⟨810, 50⟩, ⟨300, 35⟩⟩, some ⟨⟨810, 85⟩, ⟨300, 35⟩⟩, some ⟨⟨810, 120⟩, ⟨300, 35⟩⟩] := by decide +kernel

/-! ## C23 -/

/-- C23 for documents with at least one table: the view box starts at the origin, has positive size and contains every
table and line with a margin of 50 on every side.  Missing: the empty document, for which the claim fails. -/
theorem C23_view_box_partial (doc : Document) (hd : Tabular doc) (hne : tables doc ≠ []) :
    let v := (placeNodes doc).2
    v.origin = ⟨0, 0⟩ ∧ 0 < v.size.width ∧ 0 < v.size.height ∧
    ∀ i ∈ tables doc ++ (tables doc).flatMap (childrenOf doc), ∃ r, rectOf (placeNodes doc).1 i = some r ∧
      v.origin.x + 50 ≤ r.origin.x ∧ r.origin.x + r.size.width + 50 ≤ v.origin.x + v.size.width ∧
      v.origin.y + 50 ≤ r.origin.y ∧ r.origin.y + r.size.height + 50 ≤ v.origin.y + v.size.height := by
  intro v
  have hv : v = _ := placed_viewBox hd hne
  have htop : ∀ r, (50 : Rat) ≤ rowTop (lineCounts doc) r := fun r => rowTop_mono (lineCounts doc) 0 r (Nat.zero_le _)
  have htable : ∀ (k : Nat) t, (tables doc)[k]? = some t → rowTop (lineCounts doc) (k / 3) +
      35 * ((childrenOf doc t).length : Rat) + 50 ≤ v.origin.y + v.size.height := by
    intro k t hk
    have hlen : k < (tables doc).length := (List.getElem?_eq_some_iff.mp hk).1
    rw [hv]
    simp only [zero_add]
    rcases Nat.lt_or_ge (k / 3) (((tables doc).length - 1) / 3) with h | h
    · have := bottom_le _ _ _ _ (lineCounts_getElem k t hk) h
      have h0 : (0 : Rat) ≤ (tallest (lineCounts doc) (((tables doc).length - 1) / 3) : Rat) := Nat.cast_nonneg _
      linarith
    · have e : k / 3 = ((tables doc).length - 1) / 3 := by omega
      have : ((childrenOf doc t).length : Rat) ≤ (tallest (lineCounts doc) (k / 3) : Rat) := by
        exact_mod_cast le_tallest _ _ _ (lineCounts_getElem k t hk)
      rw [← e]
      linarith
  have hx : ∀ k : Nat, (0 : Rat) ≤ ((k % 3 : Nat) : Rat) ∧ ((k % 3 : Nat) : Rat) ≤ 2 := fun k =>
    ⟨Nat.cast_nonneg _, by exact_mod_cast (by omega : k % 3 ≤ 2)⟩
  refine ⟨by rw [hv], by rw [hv]; norm_num, ?_, ?_⟩
  · rw [hv]
    have h0 : (0 : Rat) ≤ (tallest (lineCounts doc) (((tables doc).length - 1) / 3) : Rat) := Nat.cast_nonneg _
    have := htop (((tables doc).length - 1) / 3)
    simp only
    linarith
  · intro i hi
    have h0x : v.origin.x = 0 := by rw [hv]
    have h0y : v.origin.y = 0 := by rw [hv]
    have h0w : v.size.width = 1160 := by rw [hv]
    rw [List.mem_append, List.mem_flatMap] at hi
    rcases hi with hi | ⟨t, ht, hi⟩
    · obtain ⟨k, hk⟩ := List.getElem?_of_mem hi
      refine ⟨_, rectOf_table hd k i hk, ?_⟩
      have h1 := htable k i hk
      have h2 := hx k
      have h3 := htop (k / 3)
      rw [h0x, h0w]
      refine ⟨?_, ?_, ?_, ?_⟩ <;> simp only [tableRect] <;> linarith
    · obtain ⟨k, hk⟩ := List.getElem?_of_mem ht
      obtain ⟨j, hj⟩ := List.getElem?_of_mem hi
      refine ⟨_, rectOf_line hd k j t i hk hj, ?_⟩
      have h1 := htable k t hk
      have h2 := hx k
      have h3 := htop (k / 3)
      have h4 : (j : Rat) + 1 ≤ ((childrenOf doc t).length : Rat) := by
        exact_mod_cast (List.getElem?_eq_some_iff.mp hj).1
      have h5 : (0 : Rat) ≤ j := Nat.cast_nonneg _
      rw [h0x, h0w]
      refine ⟨?_, ?_, ?_, ?_⟩ <;> simp only [lineRect] <;> linarith

example : tables fourTables.intoMir ≠ [] ∧ (placeNodes fourTables.intoMir).2 = ⟨⟨0, 0⟩, ⟨1160, 320⟩⟩ := by
  decide +kernel

/-- C23 is false for a module without tables: its view box has a negative height. -/
theorem C23_view_box_refuted : ∀ m : Module, definitions m.entries = [] →
    (placeNodes m.intoMir).2.size.height < 0 := by
  intro m h
  have hd := tabular_intoMir m
  have ht : (tables m.intoMir) = [] := by rw [tables_intoMir, h]; rfl
  have := (assignments_expected hd).2.1 (by rw [ht]; rfl)
  rw [(placeNodes_eq m.intoMir).2, this.1, this.2]
  unfold f32Min
  norm_num

example : definitions (⟨some c!"empty", [.relation ⟨.entity c!"a", .entity c!"b"⟩]⟩ : Module).entries = [] := rfl

/-! ## C24 -/

/-- The positions assigned depend only on the kinds and the children of the nodes. -/
theorem assignments_congr (d d' : Document) (hb : d.bodyId = d'.bodyId)
    (h : ∀ i : Nat, (d.nodes[i]?).map (fun n => (n.kind, n.children)) = (d'.nodes[i]?).map (fun n => (n.kind, n.children))) :
    assignments d = assignments d' := by
  have hcases : ∀ i : Nat, (d.nodes[i]? = none ∧ d'.nodes[i]? = none) ∨
      ∃ n n', d.nodes[i]? = some n ∧ d'.nodes[i]? = some n' ∧ n.kind = n'.kind ∧ n.children = n'.children := by
    intro i
    have hi := h i
    cases h1 : d.nodes[i]? with
    | none =>
      cases h2 : d'.nodes[i]? with
      | none => exact Or.inl ⟨rfl, rfl⟩
      | some n' => rw [h1, h2] at hi; cases hi
    | some n =>
      cases h2 : d'.nodes[i]? with
      | none => rw [h1, h2] at hi; cases hi
      | some n' =>
        rw [h1, h2] at hi
        simp only [Option.map_some, Option.some.injEq, Prod.mk.injEq] at hi
        exact Or.inr ⟨n, n', rfl, rfl, hi.1, hi.2⟩
  have hla : ∀ x b ls, lineAssign d x b ls = lineAssign d' x b ls := by
    intro x b ls
    unfold lineAssign
    congr 1
    funext ⟨f, j⟩
    simp only [Document.getNode]
    rcases hcases f with ⟨h1, h2⟩ | ⟨n, n', h1, h2, h3, -⟩
    · rw [h1, h2]
    · rw [h1, h2]; simp only [h3]
  have hstep : assignStep d = assignStep d' := by
    funext st ⟨c, k⟩
    unfold assignStep
    simp only [Document.getNode, hla]
    rcases hcases c with ⟨h1, h2⟩ | ⟨n, n', h1, h2, h3, h4⟩
    · rw [h1, h2]
    · rw [h1, h2]; simp only [h3, h4]
  have hbc : d.bodyChildren = d'.bodyChildren := by
    unfold Document.bodyChildren Document.getNode
    rw [hb]
    rcases hcases d'.bodyId with ⟨h1, h2⟩ | ⟨n, n', h1, h2, h3, h4⟩
    · rw [h1, h2]
    · rw [h1, h2]; exact h4
  unfold assignments
  rw [hstep, hbc]

/-- C24: for every document whatsoever `place_nodes` changes positions and sizes only. -/
theorem C24_touches_positions_only (doc : Document) :
    (placeNodes doc).1.nodes.map forgetPos = doc.nodes.map forgetPos ∧
      (placeNodes doc).1.edges = doc.edges ∧ (placeNodes doc).1.bodyId = doc.bodyId := by
  rw [(placeNodes_eq doc).1]
  refine ⟨?_, (setRects_getElem doc _ 0).2.1, (setRects_getElem doc _ 0).2.2.1⟩
  apply List.ext_getElem?
  intro i
  rw [List.getElem?_map, List.getElem?_map, (setRects_getElem doc _ i).1]
  cases doc.nodes[i]? with
  | none => rfl
  | some n =>
    simp only [Option.map_some, Option.some.injEq]
    cases lastRect (assignments doc).us i <;> rfl

theorem forget_fields (d d' : Document) (h : d.nodes.map forgetPos = d'.nodes.map forgetPos) (i : Nat) :
    (d.nodes[i]?).map (fun n => (n.kind, n.children)) = (d'.nodes[i]?).map (fun n => (n.kind, n.children)) := by
  have := congrArg (fun l : List NodeData => (l[i]?).map (fun n => (n.kind, n.children))) h
  simpa [List.getElem?_map, Option.map_map, Function.comp_def, forgetPos] using this

/-- C24: the view box, and the positions of tables and lines, do not depend on earlier positions. -/
theorem C24_independent_of_earlier_positions (d d' : Document) (hb : d.bodyId = d'.bodyId)
    (h : d.nodes.map forgetPos = d'.nodes.map forgetPos) :
    (placeNodes d).2 = (placeNodes d').2 ∧
      (Tabular d → ∀ i ∈ tables d ++ (tables d).flatMap (childrenOf d),
        (placeNodes d).1.nodes[i]? = (placeNodes d').1.nodes[i]?) := by
  have ha := assignments_congr d d' hb (forget_fields d d' h)
  refine ⟨by rw [(placeNodes_eq d).2, (placeNodes_eq d').2, ha], ?_⟩
  intro hd i hi
  rw [(placeNodes_eq d).1, (placeNodes_eq d').1, (setRects_getElem d _ i).1, (setRects_getElem d' _ i).1, ← ha]
  have hmem : i ∈ (assignments d).us.map (·.1) := by
    rw [assignments_us hd, (allAssign_ids d).mem_iff]; exact hi
  rw [List.mem_map] at hmem
  obtain ⟨⟨i', r⟩, hir, rfl⟩ := hmem
  have hnd : ((assignments d).us.map (·.1)).Nodup := by
    rw [assignments_us hd]; exact (allAssign_ids d).nodup_iff.mpr hd.nodup
  rw [lastRect_of_mem _ hnd i' r hir]
  have e := congrArg (fun l : List NodeData => l[i']?) h
  simp only [List.getElem?_map] at e
  cases h1 : d.nodes[i']? with
  | none =>
    cases h2 : d'.nodes[i']? with
    | none => rfl
    | some n' => rw [h1, h2] at e; cases e
  | some n =>
    cases h2 : d'.nodes[i']? with
    | none => rw [h1, h2] at e; cases e
    | some n' =>
      rw [h1, h2] at e
      simp only [Option.map_some, Option.some.injEq] at e ⊢
      obtain ⟨o, s, p, kd, ch⟩ := n
      obtain ⟨o', s', p', kd', ch'⟩ := n'
      simp only [forgetPos, NodeData.mk.injEq] at e
      simp [applyRect, setRect, e.2.2.1, e.2.2.2.1, e.2.2.2.2]

/-- C24: for every document whatsoever, placing twice is the same as placing once. -/
theorem C24_idempotent (doc : Document) : placeNodes (placeNodes doc).1 = placeNodes doc := by
  have ha : assignments (placeNodes doc).1 = assignments doc :=
    assignments_congr _ _ (C24_touches_positions_only doc).2.2
      (forget_fields _ _ (C24_touches_positions_only doc).1)
  refine Prod.ext ?_ (by rw [(placeNodes_eq _).2, (placeNodes_eq doc).2, ha])
  rw [(placeNodes_eq (placeNodes doc).1).1, ha, (placeNodes_eq doc).1]
  have h1 := setRects_getElem (setRects doc (assignments doc).us) (assignments doc).us
  have h2 := setRects_getElem doc (assignments doc).us
  have hn : (setRects (setRects doc (assignments doc).us) (assignments doc).us).nodes =
      (setRects doc (assignments doc).us).nodes := by
    apply List.ext_getElem?
    intro i
    rw [(h1 i).1, (h2 i).1]
    cases doc.nodes[i]? with
    | none => rfl
    | some n =>
      simp only [Option.map_some, Option.some.injEq]
      cases lastRect (assignments doc).us i <;> rfl
  cases hA : setRects (setRects doc (assignments doc).us) (assignments doc).us with
  | mk n1 e1 b1 =>
    cases hB : setRects doc (assignments doc).us with
    | mk n2 e2 b2 =>
      have g1 := h1 0
      rw [hA] at hn g1
      rw [hB] at hn g1
      simp only at hn g1
      simp [hn, g1.2.1, g1.2.2.1]

/-- The same document with other positions. -/
example : let d := fourTables.intoMir
    let d' := { d with nodes := d.nodes.map fun n => { n with origin := some ⟨7, 7⟩ } }
    d.nodes.map forgetPos = d'.nodes.map forgetPos ∧ d.nodes ≠ d'.nodes ∧
      (placeNodes d').2 = ⟨⟨0, 0⟩, ⟨1160, 320⟩⟩ := by decide +kernel

/-! ## C25 -/

theorem rowTop_prefix (ns extra : List Nat) (r : Nat) (h : 3 * r ≤ ns.length) :
    rowTop (ns ++ extra) r = rowTop ns r := by
  induction r with
  | zero => rfl
  | succ r ih =>
    rw [rowTop, rowTop, ih (by omega)]
    congr 3
    simp only [tallest]
    rw [List.getElem?_append_left (by omega), List.getElem?_append_left (by omega), List.getElem?_append_left (by omega)]

theorem definitions_append (a b : List ModuleEntry) : definitions (a ++ b) = definitions a ++ definitions b := by
  induction a with
  | nil => rfl
  | cons e a ih => cases e <;> simp [definitions, ih]

theorem nodesFrom_append (b : Nat) (ds es : List EntityDefinition) :
    nodesFrom b (ds ++ es) = nodesFrom b ds ++ nodesFrom (b + sizeOf' ds) es := by
  induction ds generalizing b with
  | nil => simp [nodesFrom, sizeOf']
  | cons d ds ih => simp [nodesFrom, ih, sizeOf', Nat.add_assoc]

theorem recordIds_append (b : Nat) (ds es : List EntityDefinition) :
    recordIds b (ds ++ es) = recordIds b ds ++ recordIds (b + sizeOf' ds) es := by
  induction ds generalizing b with
  | nil => simp [recordIds, sizeOf']
  | cons d ds ih => simp [recordIds, ih, sizeOf', Nat.add_assoc]

/-- C25: appending entries to a module leaves all nodes of existing tables and lines — with their positions and sizes —
unchanged.  (Node 0 is the root, which has no position.) -/
theorem C25_appending_never_moves (m : Module) (extra : List ModuleEntry) (i : Nat) (hi : 0 < i)
    (hlt : i < m.intoMir.nodes.length) :
    (placeNodes (⟨m.name, m.entries ++ extra⟩ : Module).intoMir).1.nodes[i]? = (placeNodes m.intoMir).1.nodes[i]? ∧
      rectOf (placeNodes m.intoMir).1 i ≠ none := by
  set m' : Module := ⟨m.name, m.entries ++ extra⟩ with hm'
  have hd := tabular_intoMir m
  have hd' := tabular_intoMir m'
  obtain ⟨hn, hb⟩ := intoMir_nodes m
  obtain ⟨hn', hb'⟩ := intoMir_nodes m'
  have hdefs : definitions m'.entries = definitions m.entries ++ definitions extra := definitions_append _ _
  rw [hdefs] at hn'
  -- old nodes are the same before placing
  have hnode : ∀ i : Nat, 0 < i → i < m.intoMir.nodes.length → m'.intoMir.nodes[i]? = m.intoMir.nodes[i]? := by
    intro i hi hlt
    cases i with
    | zero => omega
    | succ i =>
      rw [hn, List.length_cons] at hlt
      rw [hn, hn', nodesFrom_append, List.getElem?_cons_succ, List.getElem?_cons_succ,
        List.getElem?_append_left (by omega)]
  have htab : ∀ (k : Nat) t, (tables m.intoMir)[k]? = some t → (tables m'.intoMir)[k]? = some t := by
    intro k t ht
    rw [tables_intoMir, hdefs, recordIds_append]
    rw [tables_intoMir] at ht
    rw [List.getElem?_append_left (List.getElem?_eq_some_iff.mp ht).1, ht]
  have hpos : ∀ t ∈ tables m.intoMir, 0 < t ∧ t < m.intoMir.nodes.length := by
    intro t ht
    obtain ⟨n, r, h1, h2⟩ := hd.isTable t ht
    refine ⟨Nat.pos_of_ne_zero ?_, (List.getElem?_eq_some_iff.mp h1).1⟩
    rintro rfl
    rw [hn] at h1
    simp only [List.getElem?_cons_zero, Option.some.injEq] at h1
    rw [← h1] at h2; cases h2
  have hch : ∀ t ∈ tables m.intoMir, childrenOf m'.intoMir t = childrenOf m.intoMir t := by
    intro t ht
    unfold childrenOf
    rw [hnode t (hpos t ht).1 (hpos t ht).2]
  have hcounts : lineCounts m'.intoMir = lineCounts m.intoMir ++
      (definitions extra).map (fun d => d.fields.length + 1) := by
    rw [lineCounts_intoMir, lineCounts_intoMir, hdefs, List.map_append]
  have hrow : ∀ (k : Nat) t, (tables m.intoMir)[k]? = some t →
      rowTop (lineCounts m'.intoMir) (k / 3) = rowTop (lineCounts m.intoMir) (k / 3) := by
    intro k t ht
    rw [hcounts, rowTop_prefix]
    have := (List.getElem?_eq_some_iff.mp ht).1
    have hl : (lineCounts m.intoMir).length = (tables m.intoMir).length := by simp [lineCounts]
    omega
  -- node i is a table or a line
  have hmem : i ∈ tables m.intoMir ++ (tables m.intoMir).flatMap (childrenOf m.intoMir) := by
    rw [tables_intoMir, flatMap_childrenOf m.intoMir [bodyNode (recordIds 1 (definitions m.entries))] 1 _ rfl hn,
      (children_perm 1 _).mem_iff, List.mem_range'_1]
    rw [hn, List.length_cons, nodesFrom_length] at hlt
    omega
  rw [List.mem_append, List.mem_flatMap] at hmem
  rcases hmem with ht | ⟨t, ht, hl⟩
  · obtain ⟨k, hk⟩ := List.getElem?_of_mem ht
    obtain ⟨n, r, h1, h2⟩ := hd.isTable i ht
    have h1' : m'.intoMir.nodes[i]? = some n := by rw [hnode i hi hlt, h1]
    refine ⟨?_, by rw [rectOf_table hd k i hk]; simp⟩
    rw [placed_table hd k i hk n h1, placed_table hd' k i (htab k i hk) n h1']
    simp only [tableRect, hrow k i hk]
  · obtain ⟨k, hk⟩ := List.getElem?_of_mem ht
    obtain ⟨j, hj⟩ := List.getElem?_of_mem hl
    obtain ⟨n, f, h1, h2⟩ := hd.isLine t ht i hl
    have h1' : m'.intoMir.nodes[i]? = some n := by rw [hnode i hi hlt, h1]
    have hj' : (childrenOf m'.intoMir t)[j]? = some i := by rw [hch t ht, hj]
    refine ⟨?_, by rw [rectOf_line hd k j t i hk hj]; simp⟩
    rw [placed_line hd k j t i hk hj n h1, placed_line hd' k j t i (htab k t hk) hj' n h1']
    simp only [lineRect, hrow k t hk]

/-- Appending a long table and a relation to four tables. -/
example : let extra : List ModuleEntry := [.definition ⟨c!"e", [⟨c!"x", .int, none⟩, ⟨c!"y", .int, none⟩]⟩,
      .relation ⟨.field c!"e" c!"x", .field c!"a" c!"x"⟩]
    (tables (⟨none, fourTables.entries ++ extra⟩ : Module).intoMir).map
      (rectOf (placeNodes (⟨none, fourTables.entries ++ extra⟩ : Module).intoMir).1) =
    [some ⟨⟨50, 50⟩, ⟨300, 70⟩⟩, some ⟨⟨430, 50⟩, ⟨300, 35⟩⟩, some ⟨⟨810, 50⟩, ⟨300, 105⟩⟩,
      some ⟨⟨50, 235⟩, ⟨300, 35⟩⟩, some ⟨⟨430, 235⟩, ⟨300, 105⟩⟩] := by decide +kernel

end Seiren
