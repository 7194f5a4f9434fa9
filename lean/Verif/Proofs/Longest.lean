import Verif.Proofs.Beside
/-! # A route for every relation (for C111)

Whatever two tables or columns a relation joins, there is a route out of the sides of the first, along a street, over or under one table
of the middle column if need be, along the street there, and into the second. -/

namespace Seiren

/-- The height of the middle of a table or column. -/
def Spec.midHeight (ns : List Nat) (r : NodeRef) : Rat := (Spec.refRect ns r).origin.y + (Spec.refRect ns r).size.height / 2

namespace Grid
open Spec
variable {ns : List Nat} {cs : List (NodeRef × NodeRef)}

local notation "ES" => allEnds ns cs
local notation "PL" => places ns (allEnds ns cs)

/-- From the streets at both sides of a table or column it is 40 to its middle. -/
theorem reach_side (h : Ok ns cs) {r : NodeRef} (hs : ∀ x ∈ endsOf ns r, x ∈ ES) {i : Nat}
    (hi : i = tableNumber r % 3 ∨ i = tableNumber r % 3 + 1) : street i (midHeight ns r) ∈ PL ∧ Reach ns cs r i (midHeight ns r) 40 := by
  rcases hi with rfl | rfl
  · have he := has_left (ns := ns) r
    have hx := left_x (ns := ns) r
    have e : sideMiddle (refRect ns r) .left = ⟨50 + 380 * ((tableNumber r % 3 : Nat) : Rat), midHeight ns r⟩ := by
      rw [← hx]; rfl
    rw [e] at he
    obtain ⟨s1, k, t, l⟩ := left_trip h (mem_places.mpr (.inr ⟨_, rfl, hs _ he⟩))
    exact ⟨s1, _, k, t, ⟨_, he⟩, l⟩
  · have he := has_right (ns := ns) r
    have hx := right_x (ns := ns) r
    have e : sideMiddle (refRect ns r) .right = ⟨350 + 380 * ((tableNumber r % 3 : Nat) : Rat), midHeight ns r⟩ := by
      rw [← hx]; rfl
    rw [e] at he
    obtain ⟨s1, k, t, l⟩ := right_trip h (mem_places.mpr (.inr ⟨_, rfl, hs _ he⟩))
    exact ⟨s1, _, k, t, ⟨_, he⟩, l⟩

theorem isRoute_of_trip {s t : NodeRef} {a z : RouteNodeData} {k : Int} (ht : Trip ns PL a z k) (ha : ∃ o, (a.location, o) ∈ endsOf ns s)
    (hz : ∃ o, (z.location, o) ∈ endsOf ns t) : ∃ ps, IsRoute ns cs (s, t) ps ∧ routeCost ps = k := by
  obtain ⟨i, w, p, ps, -, hp, hf, hl, hcost⟩ := ht.follows (places_nodup _ _)
  obtain ⟨o, ha⟩ := ha
  obtain ⟨o', hz⟩ := hz
  exact ⟨_, ⟨⟨_, hf⟩, ⟨_, o, rfl, hp ▸ ha⟩, ⟨_, o', hl, hz⟩⟩, hcost⟩

/-- A street passes both. -/
theorem near_route (h : Ok ns cs) {s t : NodeRef} (hm : (s, t) ∈ cs) {i : Nat} (hs : i = tableNumber s % 3 ∨ i = tableNumber s % 3 + 1)
    (ht : i = tableNumber t % 3 ∨ i = tableNumber t % 3 + 1) :
    ∃ ps, IsRoute ns cs (s, t) ps ∧ (routeCost ps : Rat) ≤ 80 + |midHeight ns t - midHeight ns s| := by
  have sub : ∀ x, x ∈ endsOf ns s ∨ x ∈ endsOf ns t → x ∈ ES := fun x hx =>
    List.mem_flatMap.mpr ⟨_, hm, List.mem_append.mpr hx⟩
  obtain ⟨p1, a, k1, t1, e1, l1⟩ := reach_side h (fun x hx => sub x (.inl hx)) hs
  obtain ⟨p2, z, k2, t2, e2, l2⟩ := reach_side h (fun x hx => sub x (.inr hx)) ht
  obtain ⟨k3, t3, l3⟩ := along h p1 p2
  obtain ⟨ps, hr, hc⟩ := isRoute_of_trip ((t1.symm.append t3).append t2) e1 e2
  refine ⟨ps, hr, ?_⟩
  rw [hc]
  push_cast
  linarith

/-- A way from one street at the middle column to the other. -/
def Across (ns : List Nat) (cs : List (NodeRef × NodeRef)) (y : Rat) : Prop :=
  street 1 y ∈ places ns (allEnds ns cs) ∧ street 2 y ∈ places ns (allEnds ns cs) ∧
    ∃ k, Trip ns (places ns (allEnds ns cs)) (street 1 y) (street 2 y) k ∧ (k : Rat) ≤ 380

theorem frame_across (h : Ok ns cs) {y : Rat} (hf : FrameSide ns 1 y) : Across ns cs y := by
  obtain ⟨f1, f2⟩ := frame_places (cs := cs) h hf
  exact ⟨f1, f2, frame_trip h hf⟩

/-- A table stands between them: over or under any table of the middle column. -/
theorem far_route (h : Ok ns cs) {s t : NodeRef} (hm : (s, t) ∈ cs)
    (hc : tableNumber s % 3 = 0 ∧ tableNumber t % 3 = 2 ∨ tableNumber s % 3 = 2 ∧ tableNumber t % 3 = 0) {y : Rat} (hf : Across ns cs y) :
    ∃ ps, IsRoute ns cs (s, t) ps ∧ (routeCost ps : Rat) ≤ 460 + |y - midHeight ns s| + |midHeight ns t - y| := by
  have sub : ∀ x, x ∈ endsOf ns s ∨ x ∈ endsOf ns t → x ∈ ES := fun x hx =>
    List.mem_flatMap.mpr ⟨_, hm, List.mem_append.mpr hx⟩
  obtain ⟨f1, f2, kf, tf, lf⟩ := hf
  rcases hc with ⟨c1, c2⟩ | ⟨c1, c2⟩
  · obtain ⟨p1, a, k1, t1, e1, l1⟩ := reach_side h (i := 1) (fun x hx => sub x (.inl hx)) (by omega)
    obtain ⟨p2, z, k2, t2, e2, l2⟩ := reach_side h (i := 2) (fun x hx => sub x (.inr hx)) (by omega)
    obtain ⟨k3, t3, l3⟩ := along h p1 f1
    obtain ⟨k4, t4, l4⟩ := along h f2 p2
    obtain ⟨ps, hr, hc⟩ := isRoute_of_trip ((((t1.symm.append t3).append tf).append t4).append t2) e1 e2
    refine ⟨ps, hr, ?_⟩
    rw [hc]
    push_cast
    linarith
  · obtain ⟨p1, a, k1, t1, e1, l1⟩ := reach_side h (i := 2) (fun x hx => sub x (.inl hx)) (by omega)
    obtain ⟨p2, z, k2, t2, e2, l2⟩ := reach_side h (i := 1) (fun x hx => sub x (.inr hx)) (by omega)
    obtain ⟨k3, t3, l3⟩ := along h p1 f2
    obtain ⟨k4, t4, l4⟩ := along h f1 p2
    obtain ⟨ps, hr, hc⟩ := isRoute_of_trip ((((t1.symm.append t3).append tf.symm).append t4).append t2) e1 e2
    refine ⟨ps, hr, ?_⟩
    rw [hc]
    push_cast
    linarith

/-- No table of the middle column nor its frame is at this height. -/
def FreeMiddle (ns : List Nat) (y : Rat) : Prop := ∀ r w, Tab ns 1 r w → y < rowTop ns r - 40 ∨ rowTop ns r + 35 * (w : Rat) + 40 < y

theorem street_crossing {e : Point} {o : Orientation} (he : (e, o) ∈ ES) {j : Point} (hj : j ∈ corners ns) (hs : Sees ns e o j)
    (ho : o = .left ∨ o = .right) {i : Nat} (hi : j.x = 10 + 380 * (i : Rat)) : street i e.y ∈ PL := by
  refine mem_places.mpr (.inl ⟨rfl, mem_crossings.mpr ⟨?_, .inr ⟨e, o, j, he, hj, hs, ?_⟩⟩⟩)
  · rintro ⟨R, hR, h1, h2, -⟩
    obtain ⟨c, r, m, hm, rfl⟩ := mem_rects.mp hR
    simp only at h1 h2
    rcases Nat.lt_or_ge c i with hlt | hge
    · have : (c : Rat) + 1 ≤ i := by exact_mod_cast hlt
      linarith
    · have : (i : Rat) ≤ c := by exact_mod_cast hge
      linarith
  · rcases ho with rfl | rfl <;> simp only [crossingAt] <;> rw [hi]

/-- Straight past the middle column at the height of one of them. -/
theorem free_across (h : Ok ns cs) {s t : NodeRef} (hs : ∀ x ∈ endsOf ns s, x ∈ ES) (ht : ∀ x ∈ endsOf ns t, x ∈ ES)
    (vs : ValidRef ns s) (vt : ValidRef ns t) (c1 : tableNumber s % 3 = 0) (c2 : tableNumber t % 3 = 2) {y : Rat}
    (hy : y = midHeight ns s ∨ y = midHeight ns t) (hf : FreeMiddle ns y) : Across ns cs y := by
  have number : ∀ {r : NodeRef}, ValidRef ns r → ∃ n, Tab ns (tableNumber r % 3) (tableNumber r / 3) n := by
    intro r hr
    cases r with
    | table k => obtain ⟨n, hn⟩ := hr; exact ⟨n, tab_of hn⟩
    | column k j => obtain ⟨n, hn, -⟩ := hr; exact ⟨n, tab_of hn⟩
  have both : street 1 y ∈ PL ∧ street 2 y ∈ PL := by
    rcases hy with rfl | rfl
    · obtain ⟨n, hn⟩ := number vt
      rw [c2] at hn
      have he := has_right (ns := ns) s
      have hx := right_x (ns := ns) s
      have e : sideMiddle (refRect ns s) .right = ⟨350 + 380 * ((tableNumber s % 3 : Nat) : Rat), midHeight ns s⟩ := by rw [← hx]; rfl
      rw [e, c1] at he
      refine ⟨(reach_side h hs (.inr (by omega))).1, street_crossing (hs _ he) (j := ⟨10 + 380 * ((2 : Nat) : Rat), rowTop ns (tableNumber t / 3) - 40⟩)
        (mem_corners.mpr ⟨2, _, n, hn, .inl rfl, .inl rfl⟩) ⟨by norm_num, ?_⟩ (.inr rfl) rfl⟩
      rintro R hR ⟨a1, a2⟩ hlt
      obtain ⟨c, r, m, hm, rfl⟩ := mem_rects.mp hR
      simp only at a1 a2 hlt ⊢
      rcases col3 hm.1 with rfl | rfl | rfl
      · norm_num at hlt
      · rcases hf r m hm with e | e <;> linarith
      · push_cast; linarith
    · obtain ⟨n, hn⟩ := number vs
      rw [c1] at hn
      have he := has_left (ns := ns) t
      have hx := left_x (ns := ns) t
      have e : sideMiddle (refRect ns t) .left = ⟨50 + 380 * ((tableNumber t % 3 : Nat) : Rat), midHeight ns t⟩ := by rw [← hx]; rfl
      rw [e, c2] at he
      refine ⟨street_crossing (ht _ he) (j := ⟨10 + 380 * ((1 : Nat) : Rat), rowTop ns (tableNumber s / 3) - 40⟩)
        (mem_corners.mpr ⟨0, _, n, hn, .inr (by norm_num), .inl rfl⟩) ⟨by norm_num, ?_⟩ (.inl rfl) rfl, (reach_side h ht (.inl (by omega))).1⟩
      rintro R hR ⟨a1, a2⟩ hlt
      obtain ⟨c, r, m, hm, rfl⟩ := mem_rects.mp hR
      simp only at a1 a2 hlt ⊢
      rcases col3 hm.1 with rfl | rfl | rfl
      · push_cast; linarith
      · rcases hf r m hm with e | e <;> linarith
      · norm_num at hlt
  refine ⟨both.1, both.2, ?_⟩
  obtain ⟨k, hk, hkl⟩ := row_trip h both.2 (.inl rfl) _ _ both.1 (.inl rfl) rfl (by simp only; push_cast; linarith) (by
    rintro k r' w' hk' ⟨p1, p2, p3, p4⟩
    obtain ⟨a1, a2⟩ := nextStreet p1 p2
    have : k = 1 := by omega
    subst this
    simp only at p3 p4
    rcases hf r' w' hk' with e | e <;> linarith) (le_refl _)
  refine ⟨k, hk, hkl.trans (le_of_eq ?_)⟩
  simp only
  push_cast
  ring

end Grid
end Seiren
