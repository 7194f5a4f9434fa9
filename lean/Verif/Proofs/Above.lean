import Verif.Proofs.Neighbours
/-! # Routes between tables one above the other -/

namespace Seiren
open Spec
namespace Grid

variable {ns : List Nat} {cs : List (NodeRef × NodeRef)}

local notation "ES" => allEnds ns cs
local notation "PL" => places ns (allEnds ns cs)

/-- The vertical lines with places. -/
theorem place_lines (h : Ok ns cs) {n : RouteNodeData} (hn : n ∈ PL) :
    ∃ (i : Nat) (a : Rat), (a = 10 ∨ a = 50 ∨ a = 200 ∨ a = 350) ∧ n.location.x = a + 380 * (i : Rat) := by
  obtain ⟨i, -, ⟨-, hi⟩ | ⟨-, ⟨-, hi⟩ | hi | ⟨-, hi⟩⟩⟩ := place_x h hn <;> exact ⟨i, _, by norm_num, hi⟩

/-- They are at least 40 apart. -/
theorem lines_apart (h : Ok ns cs) {n m : RouteNodeData} (hn : n ∈ PL) (hm : m ∈ PL) (hne : m.location.x ≠ n.location.x) :
    40 ≤ |m.location.x - n.location.x| := by
  obtain ⟨i, a, ha, hi⟩ := place_lines h hn
  obtain ⟨j, b, hb, hj⟩ := place_lines h hm
  rw [hi, hj] at hne ⊢
  rw [le_abs]
  rcases Nat.lt_trichotomy i j with hij | rfl | hij
  · have : (i : Rat) + 1 ≤ j := by exact_mod_cast hij
    left
    rcases ha with rfl | rfl | rfl | rfl <;> rcases hb with rfl | rfl | rfl | rfl <;> linarith
  · rcases ha with rfl | rfl | rfl | rfl <;> rcases hb with rfl | rfl | rfl | rfl <;>
      first
      | exact absurd rfl hne
      | (left; linarith)
      | (right; linarith)
  · have : (j : Rat) + 1 ≤ i := by exact_mod_cast hij
    right
    rcases ha with rfl | rfl | rfl | rfl <;> rcases hb with rfl | rfl | rfl | rfl <;> linarith

/-- Off the middle of a column of tables one is at least 150 away from it. -/
theorem off_column (h : Ok ns cs) {n : RouteNodeData} (hn : n ∈ PL) {c : Nat} (hne : n.location.x ≠ 200 + 380 * (c : Rat)) :
    150 ≤ |n.location.x - (200 + 380 * (c : Rat))| := by
  obtain ⟨i, a, ha, hi⟩ := place_lines h hn
  rw [hi] at hne ⊢
  rw [le_abs]
  rcases Nat.lt_trichotomy i c with hij | rfl | hij
  · have : (i : Rat) + 1 ≤ c := by exact_mod_cast hij
    right
    rcases ha with rfl | rfl | rfl | rfl <;> linarith
  · rcases ha with rfl | rfl | rfl | rfl <;>
      first
      | exact absurd rfl hne
      | (left; linarith)
      | (right; linarith)
  · have : (c : Rat) + 1 ≤ i := by exact_mod_cast hij
    left
    rcases ha with rfl | rfl | rfl | rfl <;> linarith

theorem column_cost (h : Ok ns cs) {a b : Point} (hl : Linked ns cs a b) {c : Nat} (ha : a.x = 200 + 380 * (c : Rat))
    (hb : b.x = 200 + 380 * (c : Rat)) : (segmentCost a b : Rat) = |b.y - a.y| := by
  obtain ⟨⟨n, hn, rfl⟩, m, hm, rfl⟩ := linked_mem hl
  rcases le_total n.location.y m.location.y with hle | hle
  · rw [mid_cost h hn hm ha hb hle, abs_of_nonneg (by linarith)]
  · rw [segmentCost_comm, mid_cost h hm hn hb ha hle, abs_of_nonpos (by linarith)]
    ring

/-- A path in the middle of a column costs at least the difference in height. -/
theorem column_lower (h : Ok ns cs) {c : Nat} : ∀ (ps : List Point) (a b : Point), ps.IsChain (Linked ns cs) → ps.head? = some a →
    ps.getLast? = some b → (∀ p ∈ ps, p.x = 200 + 380 * (c : Rat)) → |b.y - a.y| ≤ (routeCost ps : Rat) := by
  intro ps
  induction ps with
  | nil => intro a b _ ha; cases ha
  | cons q ps ih =>
    intro a b hc ha hb hx
    cases ha
    cases ps with
    | nil => cases hb; simp [routeCost]
    | cons z ps =>
      rw [List.isChain_cons_cons] at hc
      rw [List.getLast?_cons_cons] at hb
      have := ih z b hc.2 rfl hb (fun p hp => hx p (List.mem_cons_of_mem _ hp))
      rw [routeCost, Int.cast_add, column_cost h hc.1 (hx q (by simp)) (hx z (by simp))]
      have := abs_sub_le b.y z.y q.y
      linarith

/-- If it costs no more, it only goes down. -/
theorem column_straight (h : Ok ns cs) {c : Nat} : ∀ (ps : List Point) (a b : Point), ps.IsChain (Linked ns cs) → ps.head? = some a →
    ps.getLast? = some b → (∀ p ∈ ps, p.x = 200 + 380 * (c : Rat)) → ps.Nodup → (routeCost ps : Rat) ≤ b.y - a.y →
    ps.IsChain (fun p q => p.y < q.y) := by
  intro ps
  induction ps with
  | nil => intro a b _ ha; cases ha
  | cons q ps ih =>
    intro a b hc ha hb hx hn hle
    cases ha
    cases ps with
    | nil => exact .singleton _
    | cons z ps =>
      rw [List.isChain_cons_cons] at hc
      rw [List.getLast?_cons_cons] at hb
      have hx' := fun p hp => hx p (List.mem_cons_of_mem q hp)
      have low := column_lower h (z :: ps) z b hc.2 rfl hb hx'
      rw [routeCost, Int.cast_add, column_cost h hc.1 (hx q (by simp)) (hx z (by simp))] at hle
      have t1 := le_abs_self (b.y - z.y)
      have t2 := le_abs_self (z.y - q.y)
      have hlt : q.y < z.y := by
        have : q.y ≤ z.y := by
          have := abs_nonneg (z.y - q.y)
          linarith
        refine lt_of_le_of_ne this fun e => ?_
        refine (List.nodup_cons.mp hn).1 ?_
        rw [point_eq (hx q (by simp) |>.trans (hx z (by simp)).symm) e]
        simp
      rw [List.isChain_cons_cons]
      exact ⟨hlt, ih z b hc.2 rfl hb hx' (List.nodup_cons.mp hn).2 (by linarith)⟩

/-- From a side of a table one has to go at least 40 to the left or to the right. -/
theorem side_step (h : Ok ns cs) {a b : Point} (hl : Linked ns cs a b) {c : Nat} (ha : |a.x - (200 + 380 * (c : Rat))| = 150) :
    40 ≤ |b.x - a.x| := by
  obtain ⟨n, m, rfl, rfl, hr⟩ := hl
  refine lines_apart h hr.left hr.symm.left fun e => ?_
  refine no_vertical hr e ?_
  have ne : ∀ (i : Nat), n.location.x ≠ 10 + 380 * (i : Rat) ∧ n.location.x ≠ 200 + 380 * (i : Rat) := by
    intro i
    rcases abs_cases (n.location.x - (200 + 380 * (c : Rat))) with ⟨e, -⟩ | ⟨e, -⟩ <;> rw [e] at ha <;>
      rcases Nat.lt_trichotomy i c with hij | rfl | hij
    · have : (i : Rat) + 1 ≤ c := by exact_mod_cast hij
      constructor <;> intro e <;> linarith
    · constructor <;> intro e <;> linarith
    · have : (c : Rat) + 1 ≤ i := by exact_mod_cast hij
      constructor <;> intro e <;> linarith
    · have : (i : Rat) + 1 ≤ c := by exact_mod_cast hij
      constructor <;> intro e <;> linarith
    · constructor <;> intro e <;> linarith
    · have : (c : Rat) + 1 ≤ i := by exact_mod_cast hij
      constructor <;> intro e <;> linarith
  obtain ⟨i, -, ⟨-, hi⟩ | ⟨-, ⟨ho, -⟩ | hi | ⟨ho, -⟩⟩⟩ := place_x h hr.left
  · exact absurd hi (ne i).1
  · exact .inl ho
  · exact absurd hi (ne i).2
  · exact .inr ho

/-- The way from the lower side of a table to the upper side of the next one. -/
theorem down_route (h : Ok ns cs) {c : Nat} {y y' : Rat} (h1 : (⟨200 + 380 * (c : Rat), y⟩, .down) ∈ ES)
    (h2 : (⟨200 + 380 * (c : Rat), y'⟩, .up) ∈ ES) (hlt : y < y') (hcl : Clear ns cs c y y') :
    ∃ w ps, Follows ns PL w ps ∧ ps.head? = some ⟨200 + 380 * (c : Rat), y⟩ ∧ ps.getLast? = some ⟨200 + 380 * (c : Rat), y'⟩ ∧
      (routeCost ps : Rat) ≤ y' - y := by
  have p1 : (⟨⟨200 + 380 * (c : Rat), y⟩, some .down⟩ : RouteNodeData) ∈ PL := mem_places.mpr (.inr ⟨_, rfl, h1⟩)
  have p2 : (⟨⟨200 + 380 * (c : Rat), y'⟩, some .up⟩ : RouteNodeData) ∈ PL := mem_places.mpr (.inr ⟨_, rfl, h2⟩)
  obtain ⟨k, t, l⟩ := column_trip h p1 rfl (.inr rfl) p2 rfl (.inr rfl) hlt hcl
  obtain ⟨i, w, p, ps, -, hp, hf, hl, hcost⟩ := t.symm.follows (places_nodup _ _)
  refine ⟨_, _, hf, by rw [hp]; rfl, hl, ?_⟩
  rw [hcost]
  have := cost_le (⟨200 + 380 * (c : Rat), y'⟩ : Point) ⟨200 + 380 * (c : Rat), y⟩
  simp only [sub_self, abs_zero, zero_add] at this
  rw [abs_of_neg (by linarith)] at this
  have l' : (k : Rat) ≤ (segmentCost ⟨200 + 380 * (c : Rat), y'⟩ ⟨200 + 380 * (c : Rat), y⟩ : Int) := by exact_mod_cast l
  linarith

/-- A cheapest route between ends of two tables one above the other. -/
theorem down_shortest (h : Ok ns cs) {c : Nat} {y y' : Rat} (h1 : (⟨200 + 380 * (c : Rat), y⟩, .down) ∈ ES)
    (h2 : (⟨200 + 380 * (c : Rat), y'⟩, .up) ∈ ES) (hlt : y < y') (hcl : Clear ns cs c y y') {r : Nat}
    (hr1 : rowTop ns r ≤ y) (hr2 : y' ≤ rowTop ns (r + 1))
    {w : List Nat} {ps : List Point} (hf : Follows ns PL w ps) (hn : ps.Nodup)
    (hmin : ∀ w' ps', Follows ns PL w' ps' → ps'.head? = some ⟨200 + 380 * (c : Rat), y⟩ →
      ps'.getLast? = some ⟨200 + 380 * (c : Rat), y'⟩ → routeCost ps ≤ routeCost ps')
    {a b : Point} (ha : ps.head? = some a) (hb : ps.getLast? = some b)
    (hea : a = ⟨200 + 380 * (c : Rat), y⟩ ∨ a.x = 200 + 380 * (c : Rat) ∧ a.y < y ∨
      |a.x - (200 + 380 * (c : Rat))| = 150 ∧ a.y ≤ y - 35 / 2)
    (heb : b = ⟨200 + 380 * (c : Rat), y'⟩ ∨ b.x = 200 + 380 * (c : Rat) ∧ y' < b.y ∨
      |b.x - (200 + 380 * (c : Rat))| = 150 ∧ y' + 35 / 2 ≤ b.y) :
    a = ⟨200 + 380 * (c : Rat), y⟩ ∧ b = ⟨200 + 380 * (c : Rat), y'⟩ ∧ (∀ p ∈ ps, p.x = 200 + 380 * (c : Rat)) ∧
      ps.Pairwise (fun p q => p.y < q.y) := by
  obtain ⟨hc, hmem⟩ := follows_linked hf
  obtain ⟨w', ps', hf', ha', hb', hcost⟩ := down_route h h1 h2 hlt hcl
  have hle : (routeCost ps : Rat) ≤ y' - y := by
    have : (routeCost ps : Rat) ≤ routeCost ps' := by exact_mod_cast hmin w' ps' hf' ha' hb'
    linarith
  have hma : a ∈ ps := List.mem_of_mem_head? ha
  have hmb : b ∈ ps := List.mem_of_getLast? hb
  by_cases hall : ∀ p ∈ ps, p.x = 200 + 380 * (c : Rat)
  · have low := column_lower h ps a b hc ha hb hall
    have l2 := le_abs_self (b.y - a.y)
    have ea : a = ⟨200 + 380 * (c : Rat), y⟩ := by
      rcases hea with e | ⟨-, e⟩ | ⟨e, -⟩
      · exact e
      · exfalso
        rcases heb with rfl | ⟨-, e'⟩ | ⟨-, e'⟩
        · simp only at low l2; linarith
        · linarith
        · linarith
      · rw [hall a hma, sub_self, abs_zero] at e
        norm_num at e
    have eb : b = ⟨200 + 380 * (c : Rat), y'⟩ := by
      subst ea
      simp only at low l2
      rcases heb with e | ⟨-, e⟩ | ⟨e, -⟩
      · exact e
      · exfalso; linarith
      · rw [hall b hmb, sub_self, abs_zero] at e
        norm_num at e
    refine ⟨ea, eb, hall, ?_⟩
    have := column_straight h ps a b hc ha hb hall hn (by rw [ea, eb]; exact hle)
    have tr : IsTrans Point (fun p q => p.y < q.y) := ⟨fun _ _ _ => lt_trans⟩
    exact List.isChain_iff_pairwise.mp this
  · exfalso
    push Not at hall
    obtain ⟨p, hp, hpx⟩ := hall
    obtain ⟨n, hnn, rfl⟩ := hmem p hp
    have far := off_column h hnn hpx
    have hs : Strip ns cs r 0 y y' :=
      ⟨le_of_lt hlt, hr1, hr2, ⟨⟨⟨200 + 380 * (c : Rat), y⟩, some .down⟩, mem_places.mpr (.inr ⟨_, rfl, h1⟩), rfl⟩,
        ⟨⟨200 + 380 * (c : Rat), y'⟩, some .up⟩, mem_places.mpr (.inr ⟨_, rfl, h2⟩), rfl⟩
    have low := fun p hp => path_lower (p := p) h hs hc ha hb hp
    have hya : a.y ≤ y := by rcases hea with rfl | ⟨-, e⟩ | ⟨-, e⟩ <;> first | exact le_refl _ | linarith
    have hyb : y' ≤ b.y := by rcases heb with rfl | ⟨-, e⟩ | ⟨-, e⟩ <;> first | exact le_refl _ | linarith
    have hdy : |Loss.clip y y' b.y - Loss.clip y y' a.y| = y' - y := by
      have e1 : Loss.clip y y' b.y = y' := by rw [Loss.clip, min_eq_left hyb, max_eq_right (le_of_lt hlt)]
      have e2 : Loss.clip y y' a.y = y := by rw [Loss.clip, max_eq_left ((min_le_right _ _).trans hya)]
      rw [e1, e2, abs_of_pos (by linarith : 0 < y' - y)]
    simp only [hdy, Nat.cast_zero, mul_zero, zero_add] at low
    have hxa : a.x = 200 + 380 * (c : Rat) ∨ |a.x - (200 + 380 * (c : Rat))| = 150 ∧ a.y ≤ y - 35 / 2 := by
      rcases hea with rfl | ⟨e, -⟩ | e
      · exact .inl rfl
      · exact .inl e
      · exact .inr e
    have hxb : b.x = 200 + 380 * (c : Rat) ∨ |b.x - (200 + 380 * (c : Rat))| = 150 ∧ y' + 35 / 2 ≤ b.y := by
      rcases heb with rfl | ⟨e, -⟩ | e
      · exact .inl rfl
      · exact .inl e
      · exact .inr e
    rcases hxa with hxa | ⟨hxa, hya'⟩ <;> rcases hxb with hxb | ⟨hxb, hyb'⟩
    · have := low _ hp
      rw [hxa, hxb, abs_sub_comm (200 + 380 * (c : Rat))] at this
      linarith
    · have := low _ hma
      rw [sub_self, abs_zero, hxa, hxb] at this
      linarith
    · have := low _ hmb
      rw [sub_self, abs_zero, hxb, abs_sub_comm, hxa] at this
      linarith
    · by_cases hx : b.x = a.x
      · match ps, ha, hb, hc, low with
        | [q], ha, hb, _, _ =>
          have e : a = b := Option.some.inj (ha.symm.trans hb)
          rw [e] at hya
          linarith
        | q :: z :: ps, ha, hb, hc, low =>
          cases ha
          rw [List.isChain_cons_cons] at hc
          have s := side_step h hc.1 hxa
          have := low z (by simp)
          rw [hx, abs_sub_comm a.x] at this
          linarith
      · have := low _ hma
        rw [sub_self, abs_zero] at this
        have : 300 ≤ |b.x - a.x| := by
          rcases abs_cases (a.x - (200 + 380 * (c : Rat))) with ⟨e, -⟩ | ⟨e, -⟩ <;>
            rcases abs_cases (b.x - (200 + 380 * (c : Rat))) with ⟨e', -⟩ | ⟨e', -⟩ <;> rw [e] at hxa <;> rw [e'] at hxb
          · exact absurd (by linarith) hx
          · rw [le_abs]; right; linarith
          · rw [le_abs]; left; linarith
          · exact absurd (by linarith) hx
        linarith

end Grid
end Seiren
