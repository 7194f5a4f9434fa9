import Verif.Proofs.OneRow
import Verif.Proofs.Walks
import Mathlib.Data.Finset.Max
import Mathlib.Data.Finset.Card
/-! # Trips on the road map, and which places come first -/

namespace Seiren
open Spec

/-! ## Trips -/

/-- Two places are joined by a road. -/
def RoadBetween (ns : List Nat) (pl : List RouteNodeData) (n m : RouteNodeData) : Prop :=
  ∃ a b : Nat, pl[a]? = some n ∧ pl[b]? = some m ∧ Road ns pl a b

theorem RoadBetween.symm {ns : List Nat} {pl : List RouteNodeData} {n m : RouteNodeData} (h : RoadBetween ns pl n m) :
    RoadBetween ns pl m n := by
  obtain ⟨a, b, ha, hb, d, hr⟩ := h
  exact ⟨b, a, hb, ha, d, hr.symm⟩

theorem RoadBetween.left {ns : List Nat} {pl : List RouteNodeData} {n m : RouteNodeData} (h : RoadBetween ns pl n m) : n ∈ pl := by
  obtain ⟨a, b, ha, -, -⟩ := h
  exact List.mem_of_getElem? ha

/-- A trip along roads from one place to another, and its cost. -/
inductive Trip (ns : List Nat) (pl : List RouteNodeData) : RouteNodeData → RouteNodeData → Int → Prop
  | here {n : RouteNodeData} : n ∈ pl → Trip ns pl n n 0
  | go {n m z : RouteNodeData} {c : Int} : RoadBetween ns pl n m → Trip ns pl m z c →
      Trip ns pl n z (segmentCost n.location m.location + c)

theorem segmentCost_comm (a b : Point) : segmentCost a b = segmentCost b a := by
  unfold segmentCost
  rw [abs_sub_comm b.x, abs_sub_comm b.y]

theorem segmentCost_nonneg (a b : Point) : 0 ≤ segmentCost a b :=
  Rat.le_floor_iff.mpr (by have := abs_nonneg (b.x - a.x); have := abs_nonneg (b.y - a.y); push_cast; linarith)

theorem Trip.append {ns : List Nat} {pl : List RouteNodeData} {a b z : RouteNodeData} {c c' : Int} (h : Trip ns pl a b c)
    (h' : Trip ns pl b z c') : Trip ns pl a z (c + c') := by
  induction h with
  | here _ => rw [Int.zero_add]; exact h'
  | go hr _ ih => rw [Int.add_assoc]; exact .go hr (ih h')

theorem Trip.one {ns : List Nat} {pl : List RouteNodeData} {a b : RouteNodeData} (h : RoadBetween ns pl a b) :
    Trip ns pl a b (segmentCost a.location b.location) := by
  have := Trip.go h (.here h.symm.left)
  rwa [Int.add_zero] at this

theorem Trip.symm {ns : List Nat} {pl : List RouteNodeData} {a z : RouteNodeData} {c : Int} (h : Trip ns pl a z c) :
    Trip ns pl z a c := by
  induction h with
  | here h => exact .here h
  | go hr _ ih =>
    have := ih.append (Trip.one hr.symm)
    rwa [segmentCost_comm, Int.add_comm] at this

theorem Trip.nonneg {ns : List Nat} {pl : List RouteNodeData} {a z : RouteNodeData} {c : Int} (h : Trip ns pl a z c) : 0 ≤ c := by
  induction h with
  | here _ => exact Int.le_refl 0
  | go hr _ ih => have := segmentCost_nonneg; exact Int.add_nonneg (this _ _) ih

theorem Trip.left {ns : List Nat} {pl : List RouteNodeData} {a z : RouteNodeData} {c : Int} (h : Trip ns pl a z c) : a ∈ pl := by
  cases h with
  | here h => exact h
  | go hr _ => exact hr.left

/-- A trip is a route. -/
theorem Trip.follows {ns : List Nat} {pl : List RouteNodeData} (hnd : pl.Nodup) {a z : RouteNodeData} {c : Int} (h : Trip ns pl a z c) :
    ∃ i w p ps, pl[i]? = some a ∧ p = a.location ∧ Follows ns pl (i :: w) (p :: ps) ∧ (p :: ps).getLast? = some z.location ∧
      routeCost (p :: ps) = c := by
  induction h with
  | here h =>
    rename_i n
    obtain ⟨i, hi⟩ := List.getElem?_of_mem h
    refine ⟨i, [], n.location, [], hi, rfl, ⟨?_, .cons ⟨n, hi, rfl⟩ .nil⟩, rfl, rfl⟩
    intro k x y _ hy
    simp at hy
  | go hr ht ih =>
    rename_i n m z c
    obtain ⟨j, w, p, ps, hj, rfl, ⟨hf1, hf2⟩, hlast, hcost⟩ := ih
    obtain ⟨a, b, ha, hb, hroad⟩ := hr
    have hjb : j = b := by
      have hlt : j < pl.length := (List.getElem?_eq_some_iff.mp hj).1
      exact (List.getElem?_inj hlt hnd).mp (hj.trans hb.symm)
    subst hjb
    refine ⟨a, j :: w, n.location, m.location :: ps, ha, rfl, ⟨?_, .cons ⟨n, ha, rfl⟩ hf2⟩, ?_, ?_⟩
    · intro k x y hx hy
      cases k with
      | zero =>
        simp only [List.getElem?_cons_zero, Nat.zero_add, List.getElem?_cons_succ, Option.some.injEq] at hx hy
        rw [← hx, ← hy]; exact hroad
      | succ k => exact hf1 k x y hx hy
    · rw [List.getLast?_cons_cons]; exact hlast
    · rw [routeCost, hcost]

/-- A route is a trip. -/
theorem trip_of_follows {ns : List Nat} {pl : List RouteNodeData} : ∀ {w : List Nat} {ps : List Point} {i : Nat} {p : Point}
    {n : RouteNodeData}, Follows ns pl (i :: w) (p :: ps) → pl[i]? = some n →
    ∃ j z, (i :: w).getLast? = some j ∧ pl[j]? = some z ∧ (p :: ps).getLast? = some z.location ∧ Trip ns pl n z (routeCost (p :: ps)) := by
  intro w
  induction w with
  | nil =>
    intro ps i p n h hn
    obtain ⟨-, h2⟩ := h
    cases h2 with
    | cons h3 h4 =>
      cases h4
      obtain ⟨n', hn', rfl⟩ := h3
      rw [hn] at hn'
      cases hn'
      exact ⟨i, n, rfl, hn, rfl, .here (List.mem_of_getElem? hn)⟩
  | cons j w ih =>
    intro ps i p n h hn
    obtain ⟨h1, h2⟩ := h
    cases h2 with
    | cons h3 h4 =>
      obtain ⟨n', hn', rfl⟩ := h3
      rw [hn] at hn'
      cases hn'
      cases ps with
      | nil => cases h4
      | cons q ps =>
        have hq := h4
        cases hq with
        | cons h5 h6 =>
          obtain ⟨m, hm, rfl⟩ := h5
          obtain ⟨l, z, e1, e2, e3, e4⟩ := ih (ps := ps) (i := j) (p := m.location) (n := m)
            ⟨fun k x y hx hy => h1 (k + 1) x y hx hy, h4⟩ hm
          refine ⟨l, z, by rw [List.getLast?_cons_cons]; exact e1, e2, by rw [List.getLast?_cons_cons]; exact e3, ?_⟩
          rw [routeCost]
          exact .go ⟨i, j, hn, hm, h1 0 i j rfl rfl⟩ e4

theorem follows_drop {ns : List Nat} {pl : List RouteNodeData} {w : List Nat} {ps : List Point} (h : Follows ns pl w ps) (k : Nat) :
    Follows ns pl (w.drop k) (ps.drop k) := by
  obtain ⟨h1, h2⟩ := h
  constructor
  · intro i x y hx hy
    rw [List.getElem?_drop] at hx hy
    exact h1 (k + i) x y hx (by rw [Nat.add_assoc]; exact hy)
  · rw [List.forall₂_iff_get] at h2 ⊢
    obtain ⟨hl, hg⟩ := h2
    refine ⟨by simp [hl], ?_⟩
    intro i hi hi'
    simp only [List.get_eq_getElem, List.getElem_drop]
    exact hg (k + i) (by simp at hi; omega) (by simp at hi'; omega)

theorem follows_take {ns : List Nat} {pl : List RouteNodeData} {w : List Nat} {ps : List Point} (h : Follows ns pl w ps) (k : Nat) :
    Follows ns pl (w.take k) (ps.take k) := by
  obtain ⟨h1, h2⟩ := h
  constructor
  · intro i x y hx hy
    rw [List.getElem?_take] at hx hy
    split at hx
    · split at hy
      · exact h1 i x y hx hy
      · cases hy
    · cases hx
  · rw [List.forall₂_iff_get] at h2 ⊢
    obtain ⟨hl, hg⟩ := h2
    refine ⟨by simp [hl], ?_⟩
    intro i hi hi'
    simp only [List.get_eq_getElem, List.getElem_take]
    exact hg i (by simp at hi; omega) (by simp at hi'; omega)

theorem routeCost_split : ∀ (ps : List Point) (k : Nat) (a b : Point), ps[k]? = some a → ps[k + 1]? = some b →
    routeCost ps = routeCost (ps.take (k + 1)) + segmentCost a b + routeCost (ps.drop (k + 1)) := by
  intro ps
  induction ps with
  | nil => intro k a b ha; simp at ha
  | cons p ps ih =>
    intro k a b ha hb
    cases k with
    | zero =>
      simp only [List.getElem?_cons_zero, Option.some.injEq, Nat.zero_add, List.getElem?_cons_succ] at ha hb
      subst ha
      cases ps with
      | nil => simp at hb
      | cons q ps =>
        simp only [List.getElem?_cons_zero, Option.some.injEq] at hb
        subst hb
        simp [routeCost]
    | succ k =>
      simp only [List.getElem?_cons_succ] at ha hb
      have := ih k a b ha hb
      cases ps with
      | nil => simp at ha
      | cons q ps =>
        rw [routeCost, this]
        simp only [List.take_succ_cons, List.drop_succ_cons, routeCost]
        ring

/-- A route, cut at one of its roads. -/
theorem follows_cut {ns : List Nat} {pl : List RouteNodeData} {w : List Nat} {ps : List Point} (h : Follows ns pl w ps) {k : Nat}
    {a b : Point} (ha : ps[k]? = some a) (hb : ps[k + 1]? = some b) :
    ∃ i j n m s z c c', w[k]? = some i ∧ w[k + 1]? = some j ∧ pl[i]? = some n ∧ pl[j]? = some m ∧ n.location = a ∧ m.location = b ∧
      RoadBetween ns pl n m ∧ ps.head? = some s.location ∧ ps.getLast? = some z.location ∧
      Trip ns pl s n c ∧ Trip ns pl m z c' ∧ routeCost ps = c + segmentCost a b + c' := by
  have hcost := routeCost_split ps k a b ha hb
  have ht := follows_take h (k + 1)
  have hd := follows_drop h (k + 1)
  obtain ⟨h1, h2⟩ := h
  have hlen := h2.length_eq
  obtain ⟨hk, -⟩ := List.getElem?_eq_some_iff.mp ha
  obtain ⟨hk', -⟩ := List.getElem?_eq_some_iff.mp hb
  rw [List.forall₂_iff_get] at h2
  obtain ⟨n, hn, hna⟩ := h2.2 k (by omega) hk
  obtain ⟨m, hm, hmb⟩ := h2.2 (k + 1) (by omega) hk'
  obtain ⟨s, hs, hsa⟩ := h2.2 0 (by omega) (by omega)
  simp only [List.get_eq_getElem] at hn hna hm hmb hs hsa
  have e1 : w[k]? = some (w[k]'(by omega)) := List.getElem?_eq_getElem (by omega)
  have e2 : w[k + 1]? = some (w[k + 1]'(by omega)) := List.getElem?_eq_getElem (by omega)
  rw [List.getElem?_eq_getElem hk, Option.some.injEq] at ha
  rw [List.getElem?_eq_getElem hk', Option.some.injEq] at hb
  -- the first part
  have ht' : ∃ z, Trip ns pl s z (routeCost (ps.take (k + 1))) ∧ pl[w[k]'(by omega)]? = some z := by
    cases w with
    | nil => simp at e1
    | cons i0 w =>
      cases ps with
      | nil => simp at hk
      | cons p0 ps =>
        rw [List.take_succ_cons, List.take_succ_cons] at ht
        obtain ⟨l, z, e3, e4, -, e5⟩ := trip_of_follows ht hs
        rw [← List.take_succ_cons, List.getLast?_take, if_neg (by omega), Nat.add_sub_cancel, e1, Option.some_or, Option.some.injEq] at e3
        rw [List.take_succ_cons]
        exact ⟨z, e5, by rw [e3]; exact e4⟩
  obtain ⟨n', ht', hn'⟩ := ht'
  rw [hn] at hn'
  cases hn'
  -- the last part
  rw [List.drop_eq_getElem_cons (by omega), List.drop_eq_getElem_cons hk'] at hd
  obtain ⟨l, z, -, -, e5, e6⟩ := trip_of_follows hd hm
  rw [← List.drop_eq_getElem_cons hk'] at e5 e6
  rw [List.getLast?_drop, if_neg (by omega)] at e5
  refine ⟨_, _, n, m, s, z, _, _, e1, e2, hn, hm, hna.trans ha, hmb.trans hb, ⟨_, _, hn, hm, h1 k _ _ e1 e2⟩, ?_, e5, ht', e6, hcost⟩
  rw [List.head?_eq_getElem?, List.getElem?_eq_getElem (by omega), hsa]

/-! ## Which places come first -/

/-- `a` is in the list, and not after the first `b`: every beginning of the list that contains `b` contains `a`. -/
def NoLater {α : Type} (a b : α) (l : List α) : Prop := ∀ l1 l2, l = l1 ++ l2 → b ∈ l1 → a ∈ l1

theorem NoLater.append {α : Type} {a b : α} {l l' : List α} (h : NoLater a b l) (h' : NoLater a b l') : NoLater a b (l ++ l') := by
  intro l1 l2 he hb
  rcases List.append_eq_append_iff.mp he with ⟨s, rfl, hs⟩ | ⟨s, rfl, hs⟩
  · rcases List.mem_append.mp hb with hb | hb
    · exact List.mem_append_left _ (h l [] (by simp) hb)
    · exact List.mem_append_right _ (h' s l2 hs hb)
  · exact h l1 s rfl hb

theorem NoLater.absent {α : Type} {a b : α} {l : List α} (h : b ∉ l) : NoLater a b l := by
  intro l1 l2 he hb
  exact absurd (he ▸ List.mem_append_left _ hb) h

theorem NoLater.first {α : Type} {a b : α} {l l' : List α} (ha : a ∈ l) (hb : b ∉ l) : NoLater a b (l ++ l') := by
  intro l1 l2 he hb'
  rcases List.append_eq_append_iff.mp he with ⟨s, rfl, hs⟩ | ⟨s, rfl, hs⟩
  · exact List.mem_append_left _ ha
  · exact absurd (List.mem_append_left _ hb') hb

theorem NoLater.flatMap {α β : Type} {a b : β} {f : α → List β} {l : List α} (h : ∀ x ∈ l, NoLater a b (f x)) :
    NoLater a b (l.flatMap f) := by
  induction l with
  | nil => exact .absent (by simp)
  | cons x l ih =>
    rw [List.flatMap_cons]
    exact (h x List.mem_cons_self).append (ih fun y hy => h y (List.mem_cons_of_mem _ hy))

/-- If `b` comes only from `t`, and `a` comes from `s`, and `s` is not after `t`, then `a` is not after `b`. -/
theorem NoLater.source {α β : Type} {s t : α} {a b : β} {f : α → List β} {l : List α} (h : NoLater s t l) (hst : s ≠ t)
    (hb : ∀ x ∈ l, b ∈ f x → x = t) (ha : a ∈ f s) : NoLater a b (l.flatMap f) := by
  induction l using List.reverseRecOn with
  | nil => exact .absent (by simp)
  | append_singleton l x ih =>
    have hl : NoLater s t l := fun l1 l2 he => h l1 (l2 ++ [x]) (by rw [he, List.append_assoc])
    have ih' := ih hl fun y hy => hb y (List.mem_append_left _ hy)
    rw [List.flatMap_append]
    by_cases hx : b ∈ [x].flatMap f
    · have hxt : x = t := hb x (by simp) (by simpa using hx)
      subst hxt
      have hs : s ∈ l := by
        have := h (l ++ [x]) [] (by simp) (by simp)
        rcases List.mem_append.mp this with h1 | h1
        · exact h1
        · exact absurd (List.mem_singleton.mp h1) hst
      by_cases hb' : b ∈ l.flatMap f
      · have hal : a ∈ l.flatMap f := List.mem_flatMap.mpr ⟨s, hs, ha⟩
        intro l1 l2 he hb1
        rcases List.append_eq_append_iff.mp he with ⟨u, rfl, -⟩ | ⟨u, hu, -⟩
        · exact List.mem_append_left _ hal
        · exact ih' l1 u hu hb1
      · exact .first (List.mem_flatMap.mpr ⟨s, hs, ha⟩) hb'
    · exact ih'.append (.absent hx)

theorem NoLater.filter {α : Type} {a b : α} {l : List α} (h : NoLater a b l) {p : α → Bool} (ha : p a = true) :
    NoLater a b (l.filter p) := by
  intro l1 l2 he hb
  obtain ⟨s1, s2, rfl, rfl, rfl⟩ := List.filter_eq_append_iff.mp he
  rw [List.mem_filter] at hb ⊢
  exact ⟨h s1 s2 rfl hb.1, ha⟩

theorem NoLater.map {α β : Type} {a b : α} {l : List α} (h : NoLater a b l) {f : α → β} (hf : ∀ x, f x = f b → x = b) :
    NoLater (f a) (f b) (l.map f) := by
  intro l1 l2 he hb
  obtain ⟨s1, s2, rfl, rfl, rfl⟩ := List.map_eq_append_iff.mp he
  obtain ⟨x, hx, hxb⟩ := List.mem_map.mp hb
  exact List.mem_map.mpr ⟨a, h s1 s2 rfl (hf x hxb ▸ hx), rfl⟩

theorem NoLater.eraseDups {α : Type} [DecidableEq α] {a b : α} {l : List α} (h : NoLater a b l) : NoLater a b l.eraseDups := by
  induction l using List.reverseRecOn with
  | nil => exact .absent (by simp)
  | append_singleton l x ih =>
    have ih := ih fun l1 l2 he => h l1 (l2 ++ [x]) (by rw [he, List.append_assoc])
    rw [eraseDups_concat]
    split
    · exact ih
    · intro l1 l2 he hb
      rcases List.append_eq_append_iff.mp he with ⟨u, rfl, hu⟩ | ⟨u, hu, -⟩
      · cases u with
        | nil =>
          rw [List.append_nil] at hb ⊢
          exact ih _ [] (by simp) hb
        | cons y u =>
          rw [List.cons_append, List.cons.injEq] at hu
          obtain ⟨rfl, hu⟩ := hu
          have hnil : u = [] := List.eq_nil_of_append_eq_nil hu.symm |>.1
          subst hnil
          have := h (l ++ [x]) [] (by simp) (by
            rcases List.mem_append.mp hb with h1 | h1
            · exact List.mem_append_left _ (List.mem_eraseDups.mp h1)
            · exact List.mem_append_right _ h1)
          rcases List.mem_append.mp this with h1 | h1
          · exact List.mem_append_left _ (List.mem_eraseDups.mpr h1)
          · exact List.mem_append_right _ h1
      · exact ih l1 u hu hb

/-- The first place that is ahead does not come after another one. -/
theorem NoLater.not_first {pl : List RouteNodeData} {k m : RouteNodeData} (h : NoLater k m pl) (hne : k ≠ m) {d : Orientation}
    {n : RouteNodeData} {b : Nat} (hb : pl[b]? = some m) (ha : Ahead d n k) (hf : ∀ c x, pl[c]? = some x → Ahead d n x → b ≤ c) :
    False := by
  have hlt := (List.getElem?_eq_some_iff.mp hb).1
  have hmem : k ∈ pl.take (b + 1) := h (pl.take (b + 1)) (pl.drop (b + 1)) (List.take_append_drop _ _).symm (by
    rw [List.mem_take_iff_getElem]
    exact ⟨b, by omega, (List.getElem?_eq_some_iff.mp hb).2⟩)
  obtain ⟨i, hi, hk⟩ := List.mem_take_iff_getElem.mp hmem
  have hik : pl[i]? = some k := List.getElem?_eq_some_iff.mpr ⟨by omega, hk⟩
  have := hf i k hik ha
  have : i = b := by omega
  subst this
  rw [hik] at hb
  exact hne (Option.some.inj hb)

/-! ## Neighbours -/

/-- If some place is ahead, there is a neighbour. -/
theorem neighbour_exists {ns : List Nat} {pl : List RouteNodeData} {d : Orientation} {a : Nat} {n k : RouteNodeData}
    (hn : pl[a]? = some n) (hk : k ∈ pl) (ha : Ahead d n k) : ∃ b m, pl[b]? = some m ∧ NeighbourIn ns pl d a b := by
  classical
  -- the first place ahead is eligible
  obtain ⟨c0, hc0⟩ := List.getElem?_of_mem hk
  have hex : ∃ c, ∃ x, pl[c]? = some x ∧ Ahead d n x := ⟨c0, k, hc0, ha⟩
  obtain ⟨x, hx, hax⟩ := Nat.find_spec hex
  have hel : Eligible ns pl d n (Nat.find hex) :=
    ⟨x, hx, hax, .inr fun c y hy hay => Nat.find_min' hex ⟨y, hy, hay⟩⟩
  -- the nearest of the eligible ones
  let s := (Finset.range pl.length).filter fun c => Eligible ns pl d n c
  have hs : s.Nonempty := ⟨Nat.find hex, by
    simp only [s, Finset.mem_filter, Finset.mem_range]
    exact ⟨(List.getElem?_eq_some_iff.mp hx).1, hel⟩⟩
  obtain ⟨b, hb, hmin⟩ := s.exists_min_image (fun c => distance n.location ((pl[c]?.getD n).location)) hs
  simp only [s, Finset.mem_filter, Finset.mem_range] at hb hmin
  obtain ⟨m, hm, hme⟩ := hb.2
  refine ⟨b, m, hm, n, m, hn, hm, hb.2, ?_⟩
  intro c y hy hey
  have := hmin c ⟨(List.getElem?_eq_some_iff.mp hy).1, hey⟩
  rwa [hm, hy] at this

theorem nodup_eraseDups {α : Type} [DecidableEq α] (l : List α) : l.eraseDups.Nodup := by
  induction l using List.reverseRecOn with
  | nil => simp
  | append_singleton l x ih =>
    rw [eraseDups_concat]
    split
    · exact ih
    · next h =>
      rw [List.nodup_append]
      refine ⟨ih, by simp, ?_⟩
      intro y hy z hz
      rw [List.mem_singleton] at hz
      subst hz
      rintro rfl
      exact h (List.mem_eraseDups.mp hy)

theorem places_nodup (ns : List Nat) (es : List (Point × Orientation)) : (places ns es).Nodup := nodup_eraseDups _

end Seiren
