import Verif.Proofs.GridWays
namespace Seiren.Grid
open Spec

/-! # The bottom of a column of places

Where no relation ends at a whole table of a column of tables, a shortest route does not go down and up again in the middle of
the column. -/

section
variable {ns : List Nat} {cs : List (NodeRef × NodeRef)}

local notation "ES" => allEnds ns cs
local notation "PL" => places ns (allEnds ns cs)

/-- A crossing above a row that has no table in the column is listed before all crossings below. -/
theorem crossing_first (h : Ok ns cs) {c : Nat} (hc3 : c < 3) (hu : NoUp ns cs c) {k R w : Nat} (hk : Tab ns k R w)
    (hno : ∀ w', ¬ Tab ns c R w') (hq : (⟨⟨200 + 380 * (c : Rat), rowTop ns R - 40⟩, none⟩ : RouteNodeData) ∈ PL) {y : Rat}
    (hy : rowTop ns R - 40 < y) :
    NoLater (⟨⟨200 + 380 * (c : Rat), rowTop ns R - 40⟩, none⟩ : RouteNodeData) ⟨⟨200 + 380 * (c : Rat), y⟩, none⟩ PL := by
  have hclose : ¬ CloseToTable ns ⟨200 + 380 * (c : Rat), rowTop ns R - 40⟩ := by
    rcases mem_places.mp hq with ⟨-, hc⟩ | ⟨o, ho, -⟩
    · exact (mem_crossings.mp hc).1
    · cases ho
  apply places_order hclose
  apply NoLater.append
  · exact .absent fun hc => corner_x hc (c := c) rfl
  change NoLater _ _ ((allEnds ns cs).flatMap (cross ns))
  apply NoLater.flatMap
  rintro ⟨p, o⟩ he
  -- only ends in the middle of the column matter
  by_cases hmem : (⟨200 + 380 * (c : Rat), y⟩ : Point) ∈ cross ns (p, o)
  · obtain ⟨j, hj, hcr⟩ := List.mem_map.mp hmem
    have hj' := (List.mem_filter.mp hj).1
    obtain ⟨c', r', m', hm', hcase⟩ := allEnds_cases h he
    have same : ∀ {x : Rat}, x = 200 + 380 * (c' : Rat) → x = 200 + 380 * (c : Rat) → c' = c := by
      intro x h1 h2
      have : (c' : Rat) = c := by linarith
      exact_mod_cast this
    cases o <;> simp only [crossingAt, Point.mk.injEq] at hcr hcase
    · obtain rfl := same (by rw [hcase.1]) hcr.1
      rw [hcase.1] at he
      exact absurd he (hu _)
    · obtain rfl := same (by rw [hcase]) hcr.1
      have hlt : r' < R := by
        by_contra hge
        push Not at hge
        obtain ⟨w', hw'⟩ := hm'.earlier (c' := c') (r' := R) hc3 (by omega)
        exact hno w' hw'
      have hap := hm'.apart hlt
      have hpx : p.x = 200 + 380 * (c' : Rat) := hcr.1
      rw [cross_down, hpx]
      refine ((corner_heights hk hy).filter ?_).map (f := fun z => (⟨200 + 380 * (c' : Rat), z⟩ : Point)) (by simp)
      simp only [decide_eq_true_eq, hcase]
      linarith
    · exact absurd hcr.1 (corner_x hj')
    · exact absurd hcr.1 (corner_x hj')
  · exact .absent hmem

/-- A crossing that a road down skips is at the upper side of the frame of a row only if the row has a table in the column. -/
theorem skipped_good (h : Ok ns cs) {c : Nat} (hc3 : c < 3) (hu : NoUp ns cs c) {q a b : RouteNodeData} (hq : q ∈ PL)
    (hqx : q.location.x = 200 + 380 * (c : Rat)) (hqo : q.orientation = none) (hr : RoadBetween ns PL a b)
    (ha : a.location.x = 200 + 380 * (c : Rat)) (hb : b.location.x = 200 + 380 * (c : Rat)) (h1 : a.location.y < q.location.y)
    (h2 : q.location.y < b.location.y) : Good ns c q.location.y := by
  intro k R w hk hy
  by_contra hno
  push Not at hno
  obtain ⟨i, j, hi, hj, hd | hd⟩ := road_vertical hr (hb.trans ha.symm) (h1.trans h2)
  · obtain ⟨⟨-, -⟩, hoa, hob⟩ := neighbour_ahead hd hi hj
    have hah : Ahead .down a q := ⟨⟨hqx.trans ha.symm, h1⟩, hoa, .inl hqo⟩
    have hob' : Obstructed ns .down a.location b.location := by
      by_contra hfree
      have hf : ¬ Obstructed ns .down a.location q.location := by
        rintro ⟨-, R', hR', t, t0, t1, hin⟩
        apply hfree
        refine ⟨by simp, R', hR', ?_⟩
        have hpos : 0 < b.location.y - a.location.y := by linarith
        refine ⟨t * ((q.location.y - a.location.y) / (b.location.y - a.location.y)), ?_, ?_, ?_⟩
        · exact mul_nonneg t0 (div_nonneg (by linarith) hpos.le)
        · have : (q.location.y - a.location.y) / (b.location.y - a.location.y) ≤ 1 := (div_le_one hpos).mpr (by linarith)
          exact mul_le_one₀ t1 (div_nonneg (by linarith) hpos.le) this
        · have e : t * ((q.location.y - a.location.y) / (b.location.y - a.location.y)) * (b.location.y - a.location.y) =
              t * (q.location.y - a.location.y) := by
            rw [mul_assoc, div_mul_cancel₀ _ (ne_of_gt hpos)]
          simp only [InRect, lerp, ha, hb, hqx, sub_self, mul_zero, e] at hin ⊢
          exact hin
      have hle := neighbour_le hd hi hj hq hah hf
      simp only [distance, ha, hb, hqx, sub_self, abs_zero, zero_add] at hle
      rw [abs_of_neg (by linarith), abs_of_neg (by linarith)] at hle
      linarith
    have hqe : q = ⟨⟨200 + 380 * (c : Rat), rowTop ns R - 40⟩, none⟩ := rnd_eq hqo hqx hy
    have hbe : b = ⟨⟨200 + 380 * (c : Rat), b.location.y⟩, none⟩ := rnd_eq (nup_none h hu hr.symm.left hb hob) hb rfl
    have hnl := crossing_first h hc3 hu hk hno (hqe ▸ hq) (y := b.location.y) (by linarith)
    rw [← hqe, ← hbe] at hnl
    refine hnl.not_first ?_ hj hah (eligible_first hd hi hj hob')
    intro e
    rw [e] at h2
    exact lt_irrefl _ h2
  · have := up_nearest hd hj hi hq ⟨⟨hqx.trans hb.symm, h2⟩, (neighbour_ahead hd hj hi).2.1, nup_open h hu hq hqx⟩
    linarith

/-! ## Ends -/

/-- An end in the middle of the column belongs to a last column. -/
theorem mid_end {c : Nat} (hu : NoUp ns cs c) {e : NodeRef} (hv : ValidRef ns e) (hsub : ∀ x ∈ endsOf ns e, x ∈ ES) {p : Point}
    (hx : p.x = 200 + 380 * (c : Rat)) {o : Orientation} (hp : (p, o) ∈ endsOf ns e) :
    ∃ k j, e = .column k j ∧ k % 3 = c ∧ ns[k]? = some (j + 2) ∧ p = ⟨200 + 380 * (c : Rat), rowTop ns (k / 3) + 35 * ((j + 2 : Nat) : Rat)⟩ := by
  have off : ∀ {k : Nat} {a : Rat}, a = 50 ∨ a = 350 → p.x ≠ a + 380 * (k : Rat) := by
    intro k a ha he
    rw [hx] at he
    rcases Nat.lt_trichotomy k c with hlt | rfl | hlt
    · have : (k : Rat) + 1 ≤ c := by exact_mod_cast hlt
      rcases ha with rfl | rfl <;> linarith
    · rcases ha with rfl | rfl <;> linarith
    · have : (c : Rat) + 1 ≤ k := by exact_mod_cast hlt
      rcases ha with rfl | rfl <;> linarith
  have same : ∀ {k : Nat}, p.x = 200 + 380 * ((k % 3 : Nat) : Rat) → k % 3 = c := by
    intro k hk
    have : ((k % 3 : Nat) : Rat) = c := by linarith
    exact_mod_cast this
  have side : ∀ {k : Nat} {r : Rect}, r.origin.x = 50 + 380 * ((k % 3 : Nat) : Rat) → r.size.width = 300 →
      p ≠ sideMiddle r .left ∧ p ≠ sideMiddle r .right := by
    intro k r h1 h2
    constructor
    · intro he
      refine off (k := k % 3) (.inl rfl) ?_
      rw [he]
      simp only [sideMiddle, h1]
    · intro he
      refine off (k := k % 3) (.inr rfl) ?_
      rw [he]
      simp only [sideMiddle, h1, h2]
      ring
  cases e with
  | table k =>
    obtain ⟨n, hn⟩ := hv
    have hcol : k % 3 = c := by
      have hp' := hp
      rw [table_ends hn] at hp'
      simp only [List.mem_cons, Prod.mk.injEq, List.not_mem_nil, or_false] at hp'
      have hs := side (k := k) (r := refRect ns (.table k)) (by simp [refRect, tableRect]) (by simp [refRect, tableRect])
      rcases hp' with ⟨rfl, -⟩ | ⟨hp', -⟩ | ⟨rfl, -⟩ | ⟨hp', -⟩
      · exact same rfl
      · exact absurd hp' hs.2
      · exact same rfl
      · exact absurd hp' hs.1
    exfalso
    refine hu (rowTop ns (k / 3)) (hsub _ ?_)
    rw [table_ends hn, hcol]
    simp
  | column k j =>
    by_cases hn : ns[k]? = some (j + 2)
    · have hp' := hp
      rw [last_ends hn] at hp'
      simp only [List.mem_cons, Prod.mk.injEq, List.not_mem_nil, or_false] at hp'
      rcases hp' with ⟨rfl, -⟩ | ⟨rfl, -⟩ | ⟨rfl, -⟩
      · exact absurd rfl (off (k := k % 3) (.inr rfl))
      · have := same (k := k) rfl
        refine ⟨k, j, rfl, this, hn, ?_⟩
        rw [this]
      · exact absurd rfl (off (k := k % 3) (.inl rfl))
    · exfalso
      have hs := side (k := k) (r := refRect ns (.column k j)) (by simp [refRect, lineRect]) (by simp [refRect, lineRect])
      simp only [endsOf, sidesOf, if_neg hn, List.map_cons, List.map_nil, List.mem_cons, Prod.mk.injEq, List.not_mem_nil, or_false] at hp
      rcases hp with ⟨hp, -⟩ | ⟨hp, -⟩
      · exact hs.2 hp
      · exact hs.1 hp

/-! ## Where a rise ends -/

theorem Rise.cases (h : Ok ns cs) {c : Nat} (hu : NoUp ns cs c) {e : NodeRef} (hv : ValidRef ns e) (hsub : ∀ x ∈ endsOf ns e, x ∈ ES)
    {m z p : RouteNodeData} {k k' : Int} (hR : Rise ns cs c m z k p k') (hz : ∃ o, (z.location, o) ∈ endsOf ns e) :
    (∃ t j, e = .column t j ∧ t % 3 = c ∧ ns[t]? = some (j + 2) ∧ z.location = p.location ∧ k' = 0 ∧
      p.location.y = rowTop ns (t / 3) + 35 * ((j + 2 : Nat) : Rat)) ∨
    (p.orientation = none ∧ ∃ o k'', RoadBetween ns PL p o ∧ o.location.x ≠ p.location.x ∧ Trip ns PL o z k'' ∧
      k' = segmentCost p.location o.location + k'') := by
  rcases hR.leave with ⟨rfl, rfl⟩ | ⟨o, k'', hr, hne, ht, he⟩
  · left
    obtain ⟨o, ho⟩ := hz
    obtain ⟨t, j, h1, h2, h3, h4⟩ := mid_end hu hv hsub hR.col ho
    exact ⟨t, j, h1, h2, h3, rfl, rfl, by rw [h4]⟩
  · right
    refine ⟨middle_none h hr.left hR.col ?_, o, k'', hr, hne, ht, he⟩
    rcases lt_or_gt_of_ne hne with hlt | hlt
    · exact .inl (road_right_ahead hr.symm hlt).2.2
    · exact .inr (road_right_ahead hr hlt).2.1

/-- From the street after the column to the right end of a last column. -/
theorem right_last (h : Ok ns cs) {c r w k j : Nat} (hT : Tab ns c r w) (hk : k % 3 = c) (hn : ns[k]? = some (j + 2))
    (hsub : ∀ x ∈ endsOf ns (.column k j), x ∈ ES) : ∃ z x, Trip ns PL (street (c + 1) (rowTop ns r - 40)) z x ∧
      (z.location, .right) ∈ endsOf ns (.column k j) ∧
      (x : Rat) ≤ |rowTop ns (k / 3) + 35 * ((j + 2 : Nat) : Rat) - 35 / 2 - (rowTop ns r - 40)| + 40 := by
  subst hk
  obtain ⟨f1, f2⟩ := frame_places (cs := cs) h (⟨r, w, hT, .inl rfl⟩ : FrameSide ns (k % 3) (rowTop ns r - 40))
  have hl : (⟨350 + 380 * ((k % 3 : Nat) : Rat), rowTop ns (k / 3) + 35 * ((j + 2 : Nat) : Rat) - 35 / 2⟩, .right) ∈ endsOf ns (.column k j) := by
    rw [last_ends hn]; simp
  obtain ⟨g1, k1, t1, b1⟩ := right_trip h (mem_place_end (hsub _ hl))
  obtain ⟨k2, t2, b2⟩ := along h f2 g1
  exact ⟨_, _, t2.append t1, hl, by push_cast at *; linarith⟩

theorem reach_both {A B : NodeRef} {i : Nat} {y b b' : Rat} (ha : Reach ns cs A i y b) (hb : Reach ns cs B i y b') {K : Int}
    (hmin : ∀ s' z' k, Trip ns PL s' z' k → (∃ o, (s'.location, o) ∈ endsOf ns A) → (∃ o, (z'.location, o) ∈ endsOf ns B) → K ≤ k) :
    (K : Rat) ≤ b + b' := by
  obtain ⟨s, k, t, hs, hk⟩ := ha
  obtain ⟨z, k', t', hz, hk'⟩ := hb
  have := hmin s z _ (t.symm.append t') hs hz
  have : (K : Rat) ≤ ((k + k' : Int) : Rat) := by exact_mod_cast this
  push_cast at this
  linarith

/-- A shortest route does not come down and go up again in the middle of the column. -/
theorem bottom_turn (h : Ok ns cs) {c : Nat} (hc3 : c < 3) (hu : NoUp ns cs c) {A B : NodeRef} (hA : ValidRef ns A) (hB : ValidRef ns B)
    (subA : ∀ x ∈ endsOf ns A, x ∈ ES) (subB : ∀ x ∈ endsOf ns B, x ∈ ES) {m s z P Q : RouteNodeData} {k1 k2 kP kQ : Int}
    (hm : m ∈ PL) (hmx : m.location.x = 200 + 380 * (c : Rat)) (hmo : m.orientation = none) (RP : Rise ns cs c m s k1 P kP)
    (RQ : Rise ns cs c m z k2 Q kQ) (hs : ∃ o, (s.location, o) ∈ endsOf ns A) (hz : ∃ o, (z.location, o) ∈ endsOf ns B)
    (hmin : ∀ s' z' k, Trip ns PL s' z' k → (∃ o, (s'.location, o) ∈ endsOf ns A) → (∃ o, (z'.location, o) ∈ endsOf ns B) → k1 + k2 ≤ k)
    (htie : s.location.x = 200 + 380 * (c : Rat) → z.location.x = 200 + 380 * (c : Rat) → ∀ s' z' k, Trip ns PL s' z' k →
      (s'.location, .right) ∈ endsOf ns A → (z'.location, .right) ∈ endsOf ns B → k1 + k2 < k)
    (hle : P.location.y ≤ Q.location.y) : False := by
  have eP := RP.cost
  have eQ := RQ.cost
  have aP := RP.above
  have aQ := RQ.above
  have tP := RP.trip
  have tQ := RQ.trip
  -- from P to Q
  have direct : ∀ {k : Int}, Trip ns PL P Q k → Q.location.y - P.location.y < (k : Rat) := by
    intro k ht
    by_contra hlt
    push Not at hlt
    have := hmin s z _ (tP.symm.append (ht.append tQ)) hs hz
    have : ((k1 + k2 : Int) : Rat) ≤ ((kP + (k + kQ) : Int) : Rat) := by exact_mod_cast this
    push_cast at this
    linarith
  rcases eq_or_lt_of_le hle with heq | hlt
  · obtain rfl := nup_same h hu RP.mem RQ.mem RP.col RQ.col heq
    have := direct (.here RP.mem)
    push_cast at this
    linarith
  by_cases hcl : Clear ns cs c P.location.y Q.location.y
  · rcases nup_cases h hu RQ.mem RQ.col with ⟨hQo, -⟩ | ⟨r, w, hw, -, hl, he⟩
    · obtain ⟨k, hk, hkl⟩ := column_trip h RP.mem RP.col (nup_open h hu RP.mem RP.col) RQ.mem RQ.col (.inl hQo) hlt hcl
      have := direct hk.symm
      have e := mid_cost h RP.mem RQ.mem RP.col RQ.col hle
      rw [segmentCost_comm] at hkl
      have : (k : Rat) ≤ segmentCost P.location Q.location := by exact_mod_cast hkl
      linarith
    · have hl : Q.location.y = rowTop ns r + 35 * (w : Rat) := by rw [hl]
      refine hcl r w hw ?_ (le_of_eq hl.symm) he
      rcases col_pos h RP.mem hw RP.col with h1 | h1
      · exact h1
      · linarith
  unfold Clear at hcl
  push Not at hcl
  obtain ⟨r, w, hT, hT1, hT2, -⟩ := hcl
  have hw1 := h.one hT
  have hPA := gap_above h hu RP.mem RP.col hT hT1
  have hfr : FrameSide ns c (rowTop ns r - 40) := ⟨r, w, hT, .inl rfl⟩
  -- the first end
  have reachP : (∃ t j, A = .column t j ∧ t % 3 = c ∧ ns[t]? = some (j + 2) ∧ s.location = P.location ∧ kP = 0 ∧
        P.location.y = rowTop ns (t / 3) + 35 * ((j + 2 : Nat) : Rat)) ∨
      ∃ i, (i = c ∨ i = c + 1) ∧ Reach ns cs A i (rowTop ns r - 40) (rowTop ns r - 40 - P.location.y + kP - 190) := by
    rcases RP.cases h hu hA subA hs with h1 | ⟨hPo, o, k'', hr, hne, ht, he⟩
    · exact .inl h1
    · right
      obtain ⟨i, hi, hre⟩ := reach_crossing h hA subA hT RP.col hr hne ht hs (by
        intro k R w' hk hy
        refine hT.earlier (c' := c) (r' := R) hc3 ?_
        by_contra hgt
        have hlt' : r < R := by omega
        have := hT.apart hlt'
        linarith) ⟨c, r, w, hT, by linarith⟩
      refine ⟨i, hi, hre.mono ?_⟩
      rw [abs_of_nonpos (by linarith), ← he]
      linarith
  -- the second end
  have reachQ : (∃ t j, B = .column t j ∧ t % 3 = c ∧ ns[t]? = some (j + 2) ∧ z.location = Q.location ∧ kQ = 0 ∧
        Q.location.y = rowTop ns (t / 3) + 35 * ((j + 2 : Nat) : Rat)) ∨
      ∃ i, (i = c ∨ i = c + 1) ∧ Reach ns cs B i (rowTop ns r - 40) (Q.location.y - (rowTop ns r - 40) + kQ - 190) := by
    rcases RQ.cases h hu hB subB hz with h1 | ⟨hQo, o, k'', hr, hne, ht, he⟩
    · exact .inl h1
    · right
      have hgood : Good ns c Q.location.y := by
        rcases RP.between Q RQ.mem RQ.col hlt aQ with ⟨k0, t0, e0⟩ | ⟨a, b, hab, ha, hb, h1, h2⟩
        · exfalso
          have := hmin s z _ (t0.symm.append tQ) hs hz
          have : ((k1 + k2 : Int) : Rat) ≤ ((k0 + kQ : Int) : Rat) := by exact_mod_cast this
          push_cast at this
          linarith
        · exact skipped_good h hc3 hu RQ.mem RQ.col hQo hab ha hb h1 h2
      have hunder : Under ns Q.location.y := by
        rcases col_cases h hm hmx with ⟨-, -, j, hj, hjy⟩ | ⟨r', m', hm', ho', -⟩ | ⟨r', m', hm', ho', -⟩
        · obtain ⟨k, R, w', hk, -, hy⟩ := mem_corners.mp hj
          have := h.one hk
          refine ⟨k, R, w', hk, ?_⟩
          rcases hy with hy | hy <;> linarith
        · rw [hmo] at ho'; cases ho'
        · rw [hmo] at ho'; cases ho'
      obtain ⟨i, hi, hre⟩ := reach_crossing h hB subB hT RQ.col hr hne ht hz hgood hunder
      refine ⟨i, hi, hre.mono ?_⟩
      rw [abs_of_nonneg (by linarith), ← he]
  rcases reachP with ⟨t, j, rfl, htc, htn, hsl, rfl, hPy⟩ | ⟨i, hi, hre⟩ <;>
    rcases reachQ with ⟨t', j', rfl, htc', htn', hzl, rfl, hQy⟩ | ⟨i', hi', hre'⟩
  · -- both at lower sides
    obtain ⟨s', x, tx, hs', bx⟩ := right_last h hT htc htn subA
    obtain ⟨z', x', tx', hz', bx'⟩ := right_last h hT htc' htn' subB
    have := htie (by rw [hsl, RP.col]) (by rw [hzl, RQ.col]) s' z' _ (tx.symm.append tx') hs' hz'
    have : ((k1 + k2 : Int) : Rat) < ((x + x' : Int) : Rat) := by exact_mod_cast this
    push_cast at this eP eQ
    rw [← hPy, abs_of_nonpos (by linarith)] at bx
    have hQT : rowTop ns r - 40 ≤ Q.location.y - 35 / 2 := by linarith
    rw [← hQy, abs_of_nonneg (by linarith)] at bx'
    have hgap := gap_below h hm hmx hmo (r := t' / 3) (m := j' + 2) (by rw [← htc']; exact tab_of htn') (by rw [← hQy]; exact aQ.le)
    rw [← hQy] at hgap
    linarith
  · have hre := reach_last h hT htc htn subA i' hi'
    have := reach_both hre hre' hmin
    push_cast at this eP eQ
    push_cast at hPy
    rw [← hPy, abs_of_nonpos (by linarith)] at this
    linarith
  · have hre' := reach_last h hT htc' htn' subB i hi
    have := reach_both hre hre' hmin
    push_cast at this eP eQ
    push_cast at hQy
    rw [← hQy, abs_of_nonneg (by linarith)] at this
    linarith
  · have := reach_both hre (hre'.other h hfr hi' hi) hmin
    push_cast at this
    linarith

end

end Seiren.Grid
