import Verif.Proofs.GridRoads
/-! # Routes between rows

If relations end at sides of tables only, all places at which a route can turn up or down are on the streets between the columns of tables.
These have a crossing above every full row, so no road passes the height above a full row without stopping. -/

namespace Seiren.Grid
open Spec

section
variable {ns : List Nat} {cs : List (NodeRef × NodeRef)}

local notation "PL" => places ns (allEnds ns cs)

/-- All ends are at the left or right side of something. -/
def SideEnds (ns : List Nat) (cs : List (NodeRef × NodeRef)) : Prop := ∀ e ∈ allEnds ns cs, e.2 = .left ∨ e.2 = .right

/-- A place that can be left up or down is on a street. -/
theorem vertical_street (h : Ok ns cs) (hs : SideEnds ns cs) {n : RouteNodeData} (hn : n ∈ PL) {d : Orientation} (hd : d = .up ∨ d = .down)
    (ho : Open d n) : n.orientation = none ∧ ∃ i : Nat, i ≤ 3 ∧ n.location.x = 10 + 380 * (i : Rat) := by
  have key : ∀ p, (p, Orientation.up) ∉ allEnds ns cs ∧ (p, Orientation.down) ∉ allEnds ns cs := by
    intro p
    constructor
    · intro hm; rcases hs _ hm with h | h <;> cases h
    · intro hm; rcases hs _ hm with h | h <;> cases h
  rcases place_cases h hn with ⟨h0, c, r, m, hm, hx, -⟩ | ⟨h0, c, r, m, -, -, -, -, j, hj, hx, -⟩ | ⟨-, -, c, r, m, -, -, -, hm⟩ | ⟨c, r, m, -, he⟩
  · refine ⟨h0, ?_⟩
    have hc := hm.1
    rcases hx with hx | hx
    · exact ⟨c, by omega, hx⟩
    · exact ⟨c + 1, by omega, by push_cast; linarith⟩
  · obtain ⟨i, hi, hjx⟩ := street_x hj
    exact ⟨h0, i, hi, hx.trans hjx⟩
  · rcases hm with ⟨hm, -⟩ | ⟨hm, -⟩
    · exact absurd hm (key _).1
    · exact absurd hm (key _).2
  · exfalso
    rcases he with ⟨h0, -⟩ | ⟨h0, -⟩ | ⟨-, -, hm, -⟩ | ⟨-, -, hm⟩
    · unfold Open at ho
      rw [h0] at ho
      rcases hd with rfl | rfl <;> rcases ho with ho | ho <;> cases ho
    · unfold Open at ho
      rw [h0] at ho
      rcases hd with rfl | rfl <;> rcases ho with ho | ho <;> cases ho
    · exact absurd hm (key _).1
    · exact absurd hm (key _).2

/-- Nothing stands on the streets. -/
theorem street_clear {i : Nat} {p q : Point} (hp : p.x = 10 + 380 * (i : Rat)) (hq : q.x = 10 + 380 * (i : Rat)) (d : Orientation) :
    ¬ Obstructed ns d p q := by
  rintro ⟨-, R, hR, t, -, -, h1, h2, -⟩
  obtain ⟨c, r, m, -, rfl⟩ := mem_rects.mp hR
  simp only [inside, lerp, hp, hq, sub_self, mul_zero, add_zero] at h1 h2
  rcases street_off (i := i) (k := c) rfl with h3 | h3 <;> linarith

/-- Above a full row every street has a crossing. -/
theorem full_row {r : Nat} (hfull : ∀ c < 3, ∃ m, Tab ns c r m) {i : Nat} (hi : i ≤ 3) :
    (⟨⟨10 + 380 * (i : Rat), rowTop ns r - 40⟩, none⟩ : RouteNodeData) ∈ PL := by
  by_cases h3 : i < 3
  · obtain ⟨m, hm⟩ := hfull i h3
    exact corner_place (mem_corners.mpr ⟨i, r, m, hm, .inl rfl, .inl rfl⟩) rfl
  · obtain rfl : i = 3 := by omega
    obtain ⟨m, hm⟩ := hfull 2 (by omega)
    exact corner_place (mem_corners.mpr ⟨2, r, m, hm, .inr (by norm_num), .inl rfl⟩) rfl

theorem neighbour_stops (h : Ok ns cs) (hs : SideEnds ns cs) {r : Nat} (hfull : ∀ c < 3, ∃ m, Tab ns c r m) {d : Orientation} {a b : Nat}
    (hr : NeighbourIn ns PL d a b) {n m : RouteNodeData} (hn : PL[a]? = some n) (hm : PL[b]? = some m) :
    ¬ (n.location.y < rowTop ns r - 40 ∧ rowTop ns r - 40 < m.location.y) ∧
    ¬ (m.location.y < rowTop ns r - 40 ∧ rowTop ns r - 40 < n.location.y) := by
  obtain ⟨n', m', hn', hm', ⟨m'', hm'', hah, -⟩, hmin⟩ := hr
  rw [hn] at hn'; cases hn'
  rw [hm] at hm' hm''; cases hm'; cases hm''
  obtain ⟨ht, ho, ho'⟩ := hah
  have stop : (d = .up ∨ d = .down) → Towards d n.location ⟨n.location.x, rowTop ns r - 40⟩ →
      distance n.location m.location ≤ distance n.location ⟨n.location.x, rowTop ns r - 40⟩ := by
    intro hd htw
    obtain ⟨-, i, hi, hx⟩ := vertical_street h hs (List.mem_of_getElem? hn) hd ho
    obtain ⟨k, hk⟩ := List.getElem?_of_mem (full_row (cs := cs) hfull hi)
    have := hmin k _ hk ⟨_, hk, ⟨by rw [← hx]; exact htw, ho, .inl rfl⟩, .inl (street_clear hx rfl d)⟩
    rw [← hx] at this
    exact this
  cases d
  · obtain ⟨e1, e2⟩ := ht
    refine ⟨fun hh => by linarith [hh.1, hh.2], fun hh => ?_⟩
    have := stop (.inl rfl) ⟨rfl, hh.2⟩
    simp only [distance, e1, sub_self, abs_zero, zero_add] at this
    rw [abs_of_pos (by linarith), abs_of_pos (by linarith [hh.2])] at this
    linarith [hh.1]
  · obtain ⟨e1, e2⟩ := ht
    refine ⟨fun hh => ?_, fun hh => by linarith [hh.1, hh.2]⟩
    have := stop (.inr rfl) ⟨rfl, hh.1⟩
    simp only [distance, e1, sub_self, abs_zero, zero_add] at this
    rw [abs_of_neg (by linarith), abs_of_neg (by linarith [hh.1])] at this
    linarith [hh.2]
  · have e := ht.1
    exact ⟨fun hh => by linarith [hh.1, hh.2], fun hh => by linarith [hh.1, hh.2]⟩
  · have e := ht.1
    exact ⟨fun hh => by linarith [hh.1, hh.2], fun hh => by linarith [hh.1, hh.2]⟩

theorem road_stops (h : Ok ns cs) (hs : SideEnds ns cs) {r : Nat} (hfull : ∀ c < 3, ∃ m, Tab ns c r m) {a b : Nat}
    (hr : Road ns PL a b) {n m : RouteNodeData} (hn : PL[a]? = some n) (hm : PL[b]? = some m) :
    ¬ (n.location.y < rowTop ns r - 40 ∧ rowTop ns r - 40 < m.location.y) := by
  obtain ⟨d, hr | hr⟩ := hr
  · exact (neighbour_stops h hs hfull hr hn hm).1
  · exact (neighbour_stops h hs hfull hr hm hn).2

/-- A route from above to below that height has a point at it. -/
theorem route_stops (h : Ok ns cs) (hs : SideEnds ns cs) {r : Nat} (hfull : ∀ c < 3, ∃ m, Tab ns c r m) {w : List Nat} {ps : List Point}
    (hf : Follows ns PL w ps) {a b : Point} (ha : ps.head? = some a) (hb : ps.getLast? = some b) (hay : a.y < rowTop ns r - 40)
    (hby : rowTop ns r - 40 < b.y) : ∃ p ∈ ps, p.y = rowTop ns r - 40 := by
  obtain ⟨hroad, hl⟩ := hf
  induction hl generalizing a with
  | nil => cases ha
  | @cons i p w ps hi hl ih =>
    rw [List.head?_cons, Option.some.injEq] at ha
    subst ha
    cases hl with
    | nil =>
      rw [List.getLast?_singleton, Option.some.injEq] at hb
      subst hb
      linarith
    | @cons j p' w ps hj hl =>
      obtain ⟨n, hn, rfl⟩ := hi
      have hj' := hj
      obtain ⟨m, hm, rfl⟩ := hj'
      have h1 := road_stops h hs hfull (hroad 0 i j rfl rfl) hn hm
      rcases lt_trichotomy m.location.y (rowTop ns r - 40) with hlt | heq | hgt
      · obtain ⟨p, hp, hpy⟩ := ih rfl (by rw [List.getLast?_cons_cons] at hb; exact hb) hlt
          (fun k a b hk hk' => hroad (k + 1) a b (by simpa using hk) (by simpa using hk'))
        exact ⟨p, by simp only [List.mem_cons] at hp ⊢; tauto, hpy⟩
      · exact ⟨_, by simp, heq⟩
      · exact absurd ⟨hay, hgt⟩ h1

theorem rowTop_lt {a b : Nat} (h : a < b) : rowTop ns a < rowTop ns b := by
  have := rows_apart (ns := ns) h
  have h0 : (0 : Rat) ≤ tallest ns a := by exact_mod_cast Nat.zero_le _
  linarith

/-- A route that passes the heights above the rows `1, …, N` has at least `N + 2` points. -/
theorem rows_length (h : Ok ns cs) (hs : SideEnds ns cs) {N : Nat} (hfull : ∀ r, 1 ≤ r → r ≤ N → ∀ c < 3, ∃ m, Tab ns c r m) {w : List Nat}
    {ps : List Point} (hf : Follows ns PL w ps) {a b : Point} (ha : ps.head? = some a) (hb : ps.getLast? = some b)
    (hay : a.y < rowTop ns 1 - 40) (hby : rowTop ns N - 40 < b.y) (hN : 1 ≤ N) : N + 2 ≤ ps.length := by
  have hmono : ∀ {i j}, i ≤ j → rowTop ns i ≤ rowTop ns j := by
    intro i j hij
    rcases Nat.lt_or_ge i j with hlt | hge
    · exact (rowTop_lt hlt).le
    · rw [show i = j by omega]
  have hinj : ∀ {i j}, rowTop ns i = rowTop ns j → i = j := by
    intro i j he
    rcases Nat.lt_trichotomy i j with hlt | rfl | hlt
    · exact absurd he (rowTop_lt hlt).ne
    · rfl
    · exact absurd he (rowTop_lt hlt).ne'
  let hs' : List Rat := a.y :: b.y :: (List.range N).map fun i => rowTop ns (i + 1) - 40
  have hsub : ∀ y ∈ hs', y ∈ ps.map Point.y := by
    intro y hy
    simp only [hs', List.mem_cons, List.mem_map, List.mem_range] at hy
    rcases hy with rfl | rfl | ⟨i, hi, rfl⟩
    · exact List.mem_map.mpr ⟨a, List.mem_of_mem_head? ha, rfl⟩
    · exact List.mem_map.mpr ⟨b, List.mem_of_mem_getLast? hb, rfl⟩
    · obtain ⟨p, hp, hpy⟩ := route_stops h hs (hfull (i + 1) (by omega) (by omega)) hf ha hb (by linarith [hmono (show 1 ≤ i + 1 by omega)])
        (by linarith [hmono (show i + 1 ≤ N by omega)])
      exact List.mem_map.mpr ⟨p, hp, hpy⟩
  have hnd : hs'.Nodup := by
    refine List.nodup_cons.mpr ⟨?_, List.nodup_cons.mpr ⟨?_, ?_⟩⟩
    · simp only [List.mem_cons, List.mem_map, List.mem_range, not_or, not_exists, not_and]
      refine ⟨by linarith [hmono hN], fun i hi he => by linarith [hmono (show 1 ≤ i + 1 by omega)]⟩
    · simp only [List.mem_map, List.mem_range, not_exists, not_and]
      exact fun i hi he => by linarith [hmono (show i + 1 ≤ N by omega)]
    · refine List.Nodup.map (fun i j he => ?_) List.nodup_range
      have := hinj (sub_left_injective he)
      omega
  have := (hnd.subperm hsub).length_le
  simp only [hs', List.length_cons, List.length_map, List.length_range] at this
  omega

end
end Seiren.Grid
