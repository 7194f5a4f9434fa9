import Verif.Proofs.GridBottom
/-! # Modules with relations that end at last columns

If no column of tables has both a whole table and the last column of a table as ends of relations, the module is drawn.
`C40_refuted` shows a module in which one column of tables has both. -/

namespace Seiren.Grid
open Spec

section
variable {ns : List Nat} {cs : List (NodeRef × NodeRef)}

local notation "PL" => places ns (allEnds ns cs)

/-- The first pair of ends of two last columns are those at the right. -/
theorem right_first {A B : NodeRef} {ka ja kb jb : Nat} (hA : A = .column ka ja) (hB : B = .column kb jb) (na : ns[ka]? = some (ja + 2))
    (nb : ns[kb]? = some (jb + 2)) {s z : Point} (hs : (s, .right) ∈ endsOf ns A) (hz : (z, .right) ∈ endsOf ns B) :
    (endPairs (endsOf ns A) (endsOf ns B))[0]? = some ((s, .right), (z, .right)) := by
  subst hA hB
  rw [last_ends na] at hs ⊢
  rw [last_ends nb] at hz ⊢
  simp only [List.mem_cons, Prod.mk.injEq, reduceCtorEq, and_true, and_false, List.not_mem_nil, or_false] at hs hz
  subst hs hz
  rfl

/-- If no relation ends at a whole table of a column of tables, a shortest route does not turn back at a road through a table of
the column. -/
theorem no_turn_last (h : Ok ns cs) {c : NodeRef × NodeRef} (hc : c ∈ cs) {ps : List Point}
    (hs : ShortestRoute ns cs c ps) {k : Nat} {p q r : Point} {d : Orientation} (hp : ps[k]? = some p) (hq : ps[k + 1]? = some q)
    (hr : ps[k + 2]? = some r) (h1 : Heads d p q) (h2 : Heads (opposite d) q r) {i w : Nat} (hi : ns[i]? = some w)
    (hu : NoUp ns cs (i % 3)) (hcr : Crosses (tableRect ns i w) p q ∨ Crosses (tableRect ns i w) q r) : p = r := by
  by_cases hd : d = .left ∨ d = .right
  · exact side_turn h hc hs hp hq hr h1 h2 hd hi hcr
  exfalso
  obtain ⟨⟨⟨ws, hf⟩, ⟨a, oa, hha, hae⟩, ⟨b, ob, hhb, hbe⟩⟩, hmin, kk, x, y, hxy, hx1, hy1, htie⟩ := hs
  obtain ⟨v1, v2⟩ := h.valid c hc
  obtain ⟨s1, s2⟩ := endsOf_allEnds (ns := ns) hc
  obtain ⟨l, hch, rfl, hmem⟩ := follows_chain hf
  have hcost : routeCost (l.map (·.location)) = pathCost l := (pathCost_eq l).symm
  -- every trip between the ends costs at least as much
  have least : ∀ s' z' k, Trip ns PL s' z' k → (∃ o, (s'.location, o) ∈ endsOf ns c.1) → (∃ o, (z'.location, o) ∈ endsOf ns c.2) →
      pathCost l ≤ k := by
    intro s' z' k' ht hs' hz'
    obtain ⟨ps', hps', hk'⟩ := trip_route ht hs' hz'
    have := hmin ps' hps'
    omega
  -- the places of the route
  have split : ∃ l1 n m o l2, l = l1 ++ n :: m :: o :: l2 ∧ n.location = p ∧ m.location = q ∧ o.location = r := by
    rw [List.getElem?_map, Option.map_eq_some_iff] at hp hq hr
    obtain ⟨n, hn, rfl⟩ := hp
    obtain ⟨m, hm, rfl⟩ := hq
    obtain ⟨o, ho, rfl⟩ := hr
    refine ⟨l.take k, n, m, o, l.drop (k + 3), ?_, rfl, rfl, rfl⟩
    obtain ⟨a1, b1⟩ := List.getElem?_eq_some_iff.mp hn
    obtain ⟨a2, b2⟩ := List.getElem?_eq_some_iff.mp hm
    obtain ⟨a3, b3⟩ := List.getElem?_eq_some_iff.mp ho
    rw [← b1, ← b2, ← b3, ← List.drop_eq_getElem_cons a3, ← List.drop_eq_getElem_cons a2, ← List.drop_eq_getElem_cons a1,
      List.take_append_drop]
  obtain ⟨l1, n, m, o, l2, hl, rfl, rfl, rfl⟩ := split
  have road1 : RoadBetween ns PL n m := hch l1 n m (o :: l2) hl
  have road2 : RoadBetween ns PL m o := hch (l1 ++ [n]) m o l2 (by rw [hl]; simp)
  have hx1' : n.location.x = m.location.x := by
    cases d <;> simp only [Heads, reduceCtorEq, or_false, or_true, not_true_eq_false, not_false_eq_true] at h1 hd
    · exact h1.1.symm
    · exact h1.1.symm
  have hx2 : o.location.x = m.location.x := by
    cases d <;> simp only [Heads, opposite, reduceCtorEq, or_false, or_true, not_true_eq_false, not_false_eq_true] at h2 hd
    · exact h2.1
    · exact h2.1
  have hya := road_apart road1 hx1'
  have hyb := road_apart road2 hx2.symm
  have hmid : m.location.x = 200 + 380 * ((i % 3 : Nat) : Rat) := by
    rcases hcr with hcr | hcr
    · rw [← hx1']; exact (cross_middle h road1 hx1' hi hcr).1
    · exact (cross_middle h road2 hx2.symm hi hcr).1
  have hside : n.location.y < m.location.y ∧ o.location.y < m.location.y ∨ m.location.y < n.location.y ∧ m.location.y < o.location.y := by
    cases d <;> simp only [Heads, opposite, reduceCtorEq, or_false, or_true, not_true_eq_false, not_false_eq_true] at h1 h2 hd
    · exact .inr ⟨h1.2, lt_of_le_of_ne h2.2 hyb⟩
    · exact .inl ⟨lt_of_le_of_ne h1.2 hya, h2.2⟩
  -- the first and last place
  obtain ⟨s, hs⟩ : ∃ s, l.head? = some s := by rw [hl]; cases l1 <;> simp
  obtain ⟨z, hz⟩ : ∃ z, l.getLast? = some z := by
    rw [hl]
    simp [List.getLast?_append, List.getLast?_cons]
  rw [List.head?_map, hs, Option.map_some, Option.some.injEq] at hha hx1
  rw [List.getLast?_map, hz, Option.map_some, Option.some.injEq] at hhb hy1
  have hse : ∃ o, (s.location, o) ∈ endsOf ns c.1 := ⟨oa, by rw [hha]; exact hae⟩
  have hze : ∃ o, (z.location, o) ∈ endsOf ns c.2 := ⟨ob, by rw [hhb]; exact hbe⟩
  -- the parts of the route before and after a place
  have parts : ∀ {m1 m2 : List RouteNodeData} {u : RouteNodeData}, l = m1 ++ u :: m2 →
      (u :: m1.reverse).getLast? = some s ∧ (u :: m2).getLast? = some z ∧ Chain ns PL (u :: m1.reverse) ∧ Chain ns PL (u :: m2) ∧
        pathCost l = pathCost (u :: m1.reverse) + pathCost (u :: m2) := by
    intro m1 m2 u he
    have e1 : u :: m1.reverse = (m1 ++ [u]).reverse := by simp
    have e2 : l = (m1 ++ [u]) ++ m2 := by rw [he]; simp
    refine ⟨?_, ?_, ?_, ?_, ?_⟩
    · rw [e1, List.getLast?_reverse]
      rw [he] at hs
      cases m1 <;> simpa using hs
    · rw [he, List.getLast?_append_of_ne_nil _ (by simp)] at hz
      exact hz
    · rw [e1]
      rw [e2] at hch
      exact hch.prefix.reverse
    · rw [he] at hch
      exact hch.suffix
    · rw [e1, pathCost_reverse, he, pathCost_append]
  -- no turn at the top
  have hnt : NoTop (i % 3) l := by
    intro m1 a' b' d' m2 he hbx ha hd' ⟨g1, g2⟩
    have r1 := hch m1 a' b' (d' :: m2) he
    have r2 := hch (m1 ++ [a']) b' d' m2 (by rw [he]; simp)
    obtain ⟨x', ht, hlt⟩ := top_turn h hu r1.symm r2 hbx ha hd' g1 g2
    obtain ⟨p1, -, p3, -, p5⟩ := parts he
    obtain ⟨-, q2, -, q4, -⟩ := parts (m1 := m1 ++ [a', b']) (u := d') (m2 := m2) (by rw [he]; simp)
    have t1 := p3.trip r1.left p1
    have t2 := q4.trip r2.symm.left q2
    have := least s z _ ((t1.symm.append ht).append t2) hse hze
    rw [p5] at this
    simp only [pathCost] at this
    omega
  rcases hside with ⟨g1, g2⟩ | ⟨g1, g2⟩
  · -- down and up again
    obtain ⟨p1, p2, p3, p4, p5⟩ := parts (m1 := l1 ++ [n]) (u := m) (m2 := o :: l2) (by rw [hl]; simp)
    have hmo := nup_none h hu road1.symm.left hmid (road_open road1 hx1'.symm g1).2
    have er : m :: (l1 ++ [n]).reverse = m :: n :: l1.reverse := by simp
    rw [er] at p1 p3 p5
    have nt1 : NoTop (i % 3) (m :: n :: l1.reverse) := by
      have : l.reverse = (o :: l2).reverse ++ (m :: n :: l1.reverse) := by rw [hl]; simp
      have h3 := hnt.reverse
      rw [this] at h3
      exact h3.suffix
    have nt2 : NoTop (i % 3) (m :: o :: l2) := by
      have : l = (l1 ++ [n]) ++ (m :: o :: l2) := by rw [hl]; simp
      rw [this] at hnt
      exact hnt.suffix
    obtain ⟨P, kP, RP⟩ := rise_of_chain h hu p3 nt1 hmid hx1' g1 p1
    obtain ⟨Q, kQ, RQ⟩ := rise_of_chain h hu p4 nt2 hmid hx2 g2 p2
    have hc3 : i % 3 < 3 := Nat.mod_lt _ (by omega)
    have tie : s.location.x = 200 + 380 * ((i % 3 : Nat) : Rat) → z.location.x = 200 + 380 * ((i % 3 : Nat) : Rat) →
        ∀ s' z' k, Trip ns PL s' z' k → (s'.location, .right) ∈ endsOf ns c.1 → (z'.location, .right) ∈ endsOf ns c.2 →
          pathCost l < k := by
      intro hsx hzx s' z' k' ht hs' hz'
      obtain ⟨o1, ho1⟩ := hse
      obtain ⟨o2, ho2⟩ := hze
      obtain ⟨ka, ja, eA, ca, na, la⟩ := mid_end hu v1 s1 hsx ho1
      obtain ⟨kb, jb, eB, cb, nb, lb⟩ := mid_end hu v2 s2 hzx ho2
      have h0 := right_first eA eB na nb hs' hz'
      have hkk : 0 < kk := by
        rcases Nat.eq_zero_or_pos kk with rfl | hpos
        · exfalso
          rw [h0, Option.some.injEq, Prod.mk.injEq] at hxy
          rw [← hxy.1] at hx1
          rw [eA, last_ends na, ca] at hs'
          simp only [List.mem_cons, Prod.mk.injEq, reduceCtorEq, and_true, and_false, List.not_mem_nil, or_false] at hs'
          have : s.location.x = 350 + 380 * ((i % 3 : Nat) : Rat) := by rw [hx1]; simp only [hs']
          linarith
        · exact hpos
      obtain ⟨i', w', p', ps', hi', rfl, hf', hl', hk'⟩ := ht.follows (places_nodup ns _)
      have := htie 0 _ _ hkk h0 _ ⟨_, hf'⟩ rfl hl'
      omega
    rcases le_total P.location.y Q.location.y with hle | hle
    · refine bottom_turn h hc3 hu v1 v2 s1 s2 road1.symm.left hmid hmo RP RQ hse hze ?_ ?_ hle
      · intro s' z' k' ht hs' hz'
        have := least s' z' k' ht hs' hz'
        omega
      · intro a1 a2 s' z' k' ht hs' hz'
        have := tie a1 a2 s' z' k' ht hs' hz'
        omega
    · refine bottom_turn h hc3 hu v2 v1 s2 s1 road1.symm.left hmid hmo RQ RP hze hse ?_ ?_ hle
      · intro s' z' k' ht hs' hz'
        have := least z' s' k' ht.symm hz' hs'
        omega
      · intro a1 a2 s' z' k' ht hs' hz'
        have := tie a2 a1 z' s' k' ht.symm hz' hs'
        omega
  · exact hnt l1 n m o l2 hl hmid hx1' hx2 ⟨g1, g2⟩

end

end Seiren.Grid

namespace Seiren
open Spec

/-- A relation ends at the table or column. -/
def Spec.IsEnd (cs : List (NodeRef × NodeRef)) (e : NodeRef) : Prop := ∃ c ∈ cs, e = c.1 ∨ e = c.2

/-- A whole table. -/
def Spec.WholeTable : NodeRef → Prop
  | .table _ => True
  | .column _ _ => False

theorem noUp_module (m : Module) (i : Nat) (h : ∀ e, IsEnd (connections [] m.entries) e → InColumn i e → ¬ WholeTable e) :
    Grid.NoUp (lineNumbers (definitions m.entries)) (connections [] m.entries) i := by
  intro y hy
  simp only [allEnds, List.mem_flatMap, List.mem_append] at hy
  obtain ⟨c, hc, hy⟩ := hy
  obtain ⟨v1, v2⟩ := (Grid.ok_module m).valid c hc
  have key : ∀ e, IsEnd (connections [] m.entries) e → ValidRef (lineNumbers (definitions m.entries)) e →
      ((⟨200 + 380 * (i : Rat), y⟩ : Point), Orientation.up) ∉ endsOf (lineNumbers (definitions m.entries)) e := by
    intro e he hv hmem
    cases e with
    | table k =>
      obtain ⟨n, hn⟩ := hv
      rw [Grid.table_ends hn] at hmem
      simp only [List.mem_cons, Prod.mk.injEq, Point.mk.injEq, reduceCtorEq, and_true, and_false, List.not_mem_nil, or_false] at hmem
      have e1 : ((k % 3 : Nat) : Rat) = i := by linarith [hmem.1]
      have e1 : k % 3 = i := by exact_mod_cast e1
      exact h _ he e1 trivial
    | column k j =>
      by_cases hn : (lineNumbers (definitions m.entries))[k]? = some (j + 2) <;> simp [endsOf, sidesOf, hn] at hmem
  rcases hy with hy | hy
  · exact key _ ⟨c, hc, .inl rfl⟩ v1 hy
  · exact key _ ⟨c, hc, .inr rfl⟩ v2 hy

/-- **C40** for every module in which no column of tables has both a whole table and the last column of a table as ends of
relations: it is drawn exactly if no relation joins an end to itself or a table to its own middle line.  (In `C40_refuted` one
column of tables has both.) -/
theorem C40_any_columns {q : Queue} {QI : List Entry → Prop} (hq : q.Lawful QI) (m : Module)
    (hmix : ∀ e e' i, IsEnd (connections [] m.entries) e → IsEnd (connections [] m.entries) e' → InColumn i e → InColumn i e' →
      WholeTable e → ¬ LastColumn (definitions m.entries) e')
    (hsize : (placeNodes m.intoMir).2.size.height ≤ 1000000000) :
    (∃ el, drawModule q m = .ok el) ↔ ∀ c ∈ connections [] m.entries, ¬ Meet (definitions m.entries) c.1 c.2 := by
  constructor
  · rintro ⟨el, hel⟩ c hc hmeet
    obtain ⟨p, hp⟩ := C41_refuted hq m hsize c.1 c.2 hc hmeet
    rw [hel] at hp
    cases hp
  · intro hmeet
    refine drawn_unless_turn hq m hsize hmeet fun doc' g' h1 e he ps hpe k hk => ?_
    obtain ⟨a, b, c, d, r, ha, hb, hc, hd1, hd2, hne, htab, hcr⟩ :=
      turnsBack_crosses hq _ (drawable_intoMir m) hsize doc' g' h1 e he ps hpe k hk
    obtain ⟨con, hcon, hs⟩ := edge_route hq m hsize doc' g' h1 e he ps hpe
    obtain ⟨i, w, hi, rfl⟩ := (isTable_iff (drawable_intoMir m) r).mp htab
    rw [lineCounts_intoMir] at hi hcr
    by_cases hw : ∃ e, IsEnd (connections [] m.entries) e ∧ InColumn (i % 3) e ∧ WholeTable e
    · obtain ⟨e, he1, he2, he3⟩ := hw
      refine hne (Grid.no_turn (Grid.ok_module m) hcon hs ha hb hc hd1 hd2 hi (noLast_module m _ ?_) hcr)
      exact fun c hc e' he' hcol => hmix e e' _ he1 ⟨c, hc, he'⟩ he2 hcol he3
    · push Not at hw
      exact hne (Grid.no_turn_last (Grid.ok_module m) hcon hs ha hb hc hd1 hd2 hi (noUp_module m _ hw) hcr)

/-- Seven tables.  The relations end at last columns in the first column of tables, and at a whole table in the second one. -/
def lastColumns : Module :=
  ⟨none, [.definition ⟨c!"a", [⟨c!"x", .int, none⟩]⟩, .definition ⟨c!"b", []⟩, .definition ⟨c!"c", []⟩,
    .definition ⟨c!"d", [⟨c!"x", .int, none⟩]⟩, .definition ⟨c!"e", []⟩, .definition ⟨c!"f", []⟩,
    .definition ⟨c!"g", [⟨c!"x", .int, none⟩]⟩, .relation ⟨.field c!"a" c!"x", .field c!"g" c!"x"⟩,
    .relation ⟨.field c!"d" c!"x", .entity c!"e"⟩]⟩

theorem lastColumns_connections : connections [] lastColumns.entries = [(.column 0 0, .column 6 0), (.column 3 0, .table 4)] := by
  decide +kernel

/-- It is drawn, although relations end at last columns and at a whole table. -/
example : (∃ el, drawModule BinHeap.queue lastColumns = .ok el) ∧ (∃ e, IsEnd (connections [] lastColumns.entries) e ∧ WholeTable e) ∧
    ∃ e, IsEnd (connections [] lastColumns.entries) e ∧ LastColumn (definitions lastColumns.entries) e := by
  have hsize : (placeNodes lastColumns.intoMir).2.size.height ≤ 1000000000 := by decide +kernel
  refine ⟨(C40_any_columns BinHeap.lawful _ ?_ hsize).mpr ?_, ⟨.table 4, ?_, trivial⟩, .column 3 0, ?_, _, rfl, rfl⟩
  · rw [lastColumns_connections]
    rintro e e' i ⟨c, hc, he⟩ ⟨c', hc', he'⟩ h1 h2 h3
    simp only [List.mem_cons, List.not_mem_nil, or_false] at hc hc'
    rcases hc with rfl | rfl <;> rcases he with rfl | rfl <;> simp only [WholeTable] at h3
    simp only [InColumn] at h1
    rcases hc' with rfl | rfl <;> rcases he' with rfl | rfl <;> simp only [InColumn] at h2 <;>
      first | omega | simp [LastColumn]
  · rw [lastColumns_connections]
    simp [Meet]
  · rw [lastColumns_connections]
    exact ⟨_, List.mem_cons_of_mem _ List.mem_cons_self, .inr rfl⟩
  · rw [lastColumns_connections]
    exact ⟨_, List.mem_cons_of_mem _ List.mem_cons_self, .inl rfl⟩

end Seiren
