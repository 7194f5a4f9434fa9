import Verif.Proofs.Neighbours
/-! # Routes between columns of tables that stand in the same column of the drawing

Such a route leaves the one table at one side and enters the other one, which may be the same, at the same side: to get to the other side
it would have to go around. -/

namespace Seiren
open Spec
namespace Grid
variable {ns : List Nat} {cs : List (NodeRef × NodeRef)}

local notation "ES" => allEnds ns cs
local notation "PL" => places ns (allEnds ns cs)

/-- The ends of a column, and the lower one only for the last. -/
theorem column_ends {k j : Nat} {a : Point} {o : Orientation} (h : (a, o) ∈ endsOf ns (.column k j)) :
    a = sideMiddle (lineRect ns k (j + 1)) .right ∨ a = sideMiddle (lineRect ns k (j + 1)) .left ∨
      a.x = 200 + 380 * ((k % 3 : Nat) : Rat) ∧ a.y = (sideMiddle (lineRect ns k (j + 1)) .right).y + 35 / 2 ∧ ns[k]? = some (j + 2) := by
  simp only [endsOf, List.mem_map, Prod.mk.injEq] at h
  obtain ⟨o', ho, rfl, rfl⟩ := h
  have hup : o' ≠ .up := by
    rintro rfl
    simp only [sidesOf] at ho
    split at ho <;> simp at ho
  cases o'
  · exact absurd rfl hup
  · simp only [sidesOf] at ho
    split at ho
    · rename_i hn
      refine .inr (.inr ⟨?_, ?_, hn⟩) <;> simp only [refRect, lineRect, sideMiddle] <;> ring
    · simp at ho
  · exact .inr (.inl rfl)
  · exact .inl rfl

/-- The way along the right side. -/
theorem beside_route (h : Ok ns cs) {c : Nat} {y y' : Rat} (h1 : (⟨350 + 380 * (c : Rat), y⟩, .right) ∈ ES)
    (h2 : (⟨350 + 380 * (c : Rat), y'⟩, .right) ∈ ES) :
    ∃ w ps, Follows ns PL w ps ∧ ps.head? = some ⟨350 + 380 * (c : Rat), y⟩ ∧ ps.getLast? = some ⟨350 + 380 * (c : Rat), y'⟩ ∧
      (routeCost ps : Rat) ≤ 80 + |y' - y| := by
  have p1 : (⟨⟨350 + 380 * (c : Rat), y⟩, some .right⟩ : RouteNodeData) ∈ PL := mem_places.mpr (.inr ⟨_, rfl, h1⟩)
  have p2 : (⟨⟨350 + 380 * (c : Rat), y'⟩, some .right⟩ : RouteNodeData) ∈ PL := mem_places.mpr (.inr ⟨_, rfl, h2⟩)
  obtain ⟨s1, k1, t1, l1⟩ := right_trip h p1
  obtain ⟨s2, k2, t2, l2⟩ := right_trip h p2
  obtain ⟨k3, t3, l3⟩ := along h s1 s2
  obtain ⟨i, w, p, ps, -, hp, hf, hl, hcost⟩ := ((t1.symm.append t3).append t2).follows (places_nodup _ _)
  refine ⟨_, _, hf, by rw [hp]; rfl, hl, ?_⟩
  rw [hcost]
  push_cast
  linarith

/-- A cheapest route between two columns of tables one above the other, or of one table, if one of them is not a last column. -/
theorem beside (h : Ok ns cs) {k k' j j' : Nat} (hcol : k' % 3 = k % 3) (hjj : k ≠ k' ∨ j ≠ j') (hvs : ValidRef ns (.column k j))
    (hvt : ValidRef ns (.column k' j')) {r d : Nat} (hrs : r ≤ k / 3 ∧ k / 3 ≤ r + d) (hrt : r ≤ k' / 3 ∧ k' / 3 ≤ r + d)
    (hlast : (d ≤ 3 ∧ (ns[k]? ≠ some (j + 2) ∨ ns[k']? ≠ some (j' + 2))) ∨ d ≤ 17 ∧ ns[k]? ≠ some (j + 2) ∧ ns[k']? ≠ some (j' + 2))
    (hs : ∀ x ∈ endsOf ns (.column k j), x ∈ ES) (ht : ∀ x ∈ endsOf ns (.column k' j'), x ∈ ES)
    {ps : List Point} (hr : ∃ w, Follows ns PL w ps) (hn : ps.Nodup) {a b : Point} {o o' : Orientation} (ha : ps.head? = some a)
    (hb : ps.getLast? = some b) (hae : (a, o) ∈ endsOf ns (.column k j)) (hbe : (b, o') ∈ endsOf ns (.column k' j'))
    (hmin : ∀ w' ps' a' b' u u', Follows ns PL w' ps' → ps'.head? = some a' → ps'.getLast? = some b' → (a', u) ∈ endsOf ns (.column k j) →
      (b', u') ∈ endsOf ns (.column k' j') → routeCost ps ≤ routeCost ps') :
    Direct ((sideMiddle (lineRect ns k (j + 1)) .right).x + 40) (sideMiddle (lineRect ns k (j + 1)) .right)
      (sideMiddle (lineRect ns k' (j' + 1)) .right) ps ∨
    Direct ((sideMiddle (lineRect ns k (j + 1)) .left).x - 40) (sideMiddle (lineRect ns k (j + 1)) .left)
      (sideMiddle (lineRect ns k' (j' + 1)) .left) ps := by
  obtain ⟨w, hf⟩ := hr
  obtain ⟨hc, hmem⟩ := follows_linked hf
  have ra := ref_row hvs (.inr rfl : (Orientation.right = .left ∨ Orientation.right = .right))
  have rb := ref_row hvt (.inr rfl : (Orientation.right = .left ∨ Orientation.right = .right))
  simp only [tableNumber] at ra rb
  have ra : rowTop ns r ≤ _ ∧ _ ≤ rowTop ns (r + d + 1) :=
    ⟨(rowTop_mono ns _ _ hrs.1).trans ra.1, ra.2.trans (rowTop_mono ns _ _ (by omega))⟩
  have rb : rowTop ns r ≤ _ ∧ _ ≤ rowTop ns (r + d + 1) :=
    ⟨(rowTop_mono ns _ _ hrt.1).trans rb.1, rb.2.trans (rowTop_mono ns _ _ (by omega))⟩
  have fa := column_ends hae
  have fb := column_ends hbe
  have a1 := hs _ (has_right _)
  have b1 := ht _ (has_right _)
  have m1 := fun w' ps' (hf' : Follows ns PL w' ps') h1 h2 => hmin w' ps' _ _ _ _ hf' h1 h2 (has_right _) (has_right _)
  have eq : ∀ k j : Nat, sideMiddle (lineRect ns k (j + 1)) .right =
      ⟨350 + 380 * ((k % 3 : Nat) : Rat), rowTop ns (k / 3) + 35 * ((j + 1 : Nat) : Rat) + 35 / 2⟩ := by
    intro k j; simp only [lineRect, sideMiddle, Point.mk.injEq, and_true]; ring
  have el : ∀ k j : Nat, sideMiddle (lineRect ns k (j + 1)) .left =
      ⟨50 + 380 * ((k % 3 : Nat) : Rat), rowTop ns (k / 3) + 35 * ((j + 1 : Nat) : Rat) + 35 / 2⟩ := fun k j => rfl
  have hne : rowTop ns (k / 3) + 35 * ((j + 1 : Nat) : Rat) + 35 / 2 ≠ rowTop ns (k' / 3) + 35 * ((j' + 1 : Nat) : Rat) + 35 / 2 := by
    have low : ∀ {k k' j j' : Nat}, ValidRef ns (.column k j) → k / 3 < k' / 3 →
        rowTop ns (k / 3) + 35 * ((j + 1 : Nat) : Rat) + 35 / 2 < rowTop ns (k' / 3) + 35 * ((j' + 1 : Nat) : Rat) + 35 / 2 := by
      rintro k k' j j' ⟨n, hn, hj⟩ hlt
      have g1 := rows_apart (ns := ns) hlt
      have g2 : (n : Rat) ≤ tallest ns (k / 3) := by exact_mod_cast (tab_of hn).le
      have g3 : (j : Rat) + 2 ≤ n := by exact_mod_cast hj
      have g4 : (0 : Rat) ≤ j' := Nat.cast_nonneg j'
      push_cast
      linarith
    rcases Nat.lt_trichotomy (k / 3) (k' / 3) with hlt | e | hlt
    · exact ne_of_lt (low hvs hlt)
    · intro e'
      rw [e] at e'
      have : ((j + 1 : Nat) : Rat) = ((j' + 1 : Nat) : Rat) := by linarith
      have : j + 1 = j' + 1 := by exact_mod_cast this
      rcases hjj with hjj | hjj
      · omega
      · omega
    · exact ne_of_gt (low hvt hlt)
  simp only [refRect, eq, el, hcol] at ra rb fa fb a1 b1 m1 ⊢
  generalize rowTop ns (k / 3) + 35 * ((j + 1 : Nat) : Rat) + 35 / 2 = ya at *
  generalize rowTop ns (k' / 3) + 35 * ((j' + 1 : Nat) : Rat) + 35 / 2 = yb at *
  generalize hcc : k % 3 = c at *
  obtain ⟨w', ps', hf', ha', hb', hcost⟩ := beside_route h a1 b1
  have hle : (routeCost ps : Rat) ≤ 80 + |yb - ya| := by
    have : (routeCost ps : Rat) ≤ routeCost ps' := by exact_mod_cast m1 w' ps' hf' ha' hb'
    linarith
  have pa : (⟨⟨350 + 380 * (c : Rat), ya⟩, some .right⟩ : RouteNodeData) ∈ PL := mem_places.mpr (.inr ⟨_, rfl, a1⟩)
  have pb : (⟨⟨350 + 380 * (c : Rat), yb⟩, some .right⟩ : RouteNodeData) ∈ PL := mem_places.mpr (.inr ⟨_, rfl, b1⟩)
  have hstrip : Strip ns cs r d (min ya yb) (max ya yb) := by
    refine ⟨min_le_max, le_min ra.1 rb.1, max_le ra.2 rb.2, ?_, ?_⟩
    · rcases min_choice ya yb with e | e <;> rw [e]
      · exact ⟨_, pa, rfl⟩
      · exact ⟨_, pb, rfl⟩
    · rcases max_choice ya yb with e | e <;> rw [e]
      · exact ⟨_, pa, rfl⟩
      · exact ⟨_, pb, rfl⟩
  have low := fun p hp => path_lower (p := p) h hstrip hc ha hb hp
  have far : ∀ ea eb : Rat, |a.y - ya| ≤ ea → |b.y - yb| ≤ eb →
      |yb - ya| - ea - eb ≤ |Loss.clip (min ya yb) (max ya yb) b.y - Loss.clip (min ya yb) (max ya yb) a.y| := by
    intro ea eb na nb
    have n1 := Loss.clip_near (min_le_left ya yb) (le_max_left ya yb) a.y
    have n2 := Loss.clip_near (min_le_right ya yb) (le_max_right ya yb) b.y
    have t1 := abs_sub_le yb (Loss.clip (min ya yb) (max ya yb) b.y) ya
    have t2 := abs_sub_le (Loss.clip (min ya yb) (max ya yb) b.y) (Loss.clip (min ya yb) (max ya yb) a.y) ya
    rw [abs_sub_comm yb (Loss.clip _ _ _)] at t1
    linarith
  -- an end at the side, or the lower end if there are few rows
  have fa' : (a = ⟨350 + 380 * (c : Rat), ya⟩ ∨ a = ⟨50 + 380 * (c : Rat), ya⟩) ∨
      (d : Rat) ≤ 3 ∧ a.x = 200 + 380 * (c : Rat) ∧ |a.y - ya| ≤ 35 / 2 ∧ ns[k]? = some (j + 2) := by
    rcases fa with e | e | ⟨e, e', l⟩
    · exact .inl (.inl e)
    · exact .inl (.inr e)
    · rcases hlast with ⟨e0, -⟩ | ⟨-, l', -⟩
      · exact .inr ⟨by exact_mod_cast e0, e, by rw [e', add_sub_cancel_left]; norm_num, l⟩
      · exact absurd l l'
  have fb' : (b = ⟨350 + 380 * (c : Rat), yb⟩ ∨ b = ⟨50 + 380 * (c : Rat), yb⟩) ∨
      (d : Rat) ≤ 3 ∧ b.x = 200 + 380 * (c : Rat) ∧ |b.y - yb| ≤ 35 / 2 ∧ ns[k']? = some (j' + 2) := by
    rcases fb with e | e | ⟨e, e', l⟩
    · exact .inl (.inl e)
    · exact .inl (.inr e)
    · rcases hlast with ⟨e0, -⟩ | ⟨-, -, l'⟩
      · exact .inr ⟨by exact_mod_cast e0, e, by rw [e', add_sub_cancel_left]; norm_num, l⟩
      · exact absurd l l'
  have hd : (d : Rat) ≤ 17 := by
    have : d ≤ 17 := by rcases hlast with ⟨e, -⟩ | ⟨e, -⟩ <;> omega
    exact_mod_cast this
  have start := low a (List.mem_of_mem_head? ha)
  rw [sub_self, abs_zero, zero_add] at start
  -- the excursion
  have stay : ∀ i : Nat, a.y = ya → b.y = yb → a.x = b.x → (a.x = -30 + 380 * (i : Rat) ∨ a.x = 50 + 380 * (i : Rat)) →
      ∀ z ∈ ps, -30 + 380 * (i : Rat) ≤ z.x ∧ z.x ≤ 50 + 380 * (i : Rat) := by
    intro i hay hby hab hax z hz
    obtain ⟨n, hnn, rfl⟩ := hmem z hz
    have hlow := low _ hz
    rw [← hab, abs_sub_comm a.x] at hlow
    have hfar := far 0 0 (by rw [hay, sub_self, abs_zero]) (by rw [hby, sub_self, abs_zero])
    obtain ⟨o1, o2⟩ := off_band h hnn i
    have hsmall : |n.location.x - a.x| < 150 := by linarith
    rw [abs_lt] at hsmall
    constructor
    · by_contra hlt
      push Not at hlt
      have := o1 hlt
      rcases hax with hax | hax <;> linarith
    · by_contra hlt
      push Not at hlt
      have := o2 hlt
      rcases hax with hax | hax <;> linarith
  rcases fa' with fa' | ⟨d0, ea, na, la⟩ <;> rcases fb' with fb' | ⟨d0', eb, nb, lb⟩
  · have hay : a.y = ya := by rcases fa' with rfl | rfl <;> rfl
    have hby : b.y = yb := by rcases fb' with rfl | rfl <;> rfl
    have hfar := far 0 0 (by rw [hay, sub_self, abs_zero]) (by rw [hby, sub_self, abs_zero])
    have near : |b.x - a.x| < 300 := by linarith
    rw [abs_lt] at near
    rcases fa' with rfl | rfl <;> rcases fb' with rfl | rfl
    · left
      have e1 : (350 + 380 * (c : Rat)) + 40 = 10 + 380 * ((c + 1 : Nat) : Rat) := by push_cast; ring
      have e2 : 350 + 380 * (c : Rat) = -30 + 380 * ((c + 1 : Nat) : Rat) := by push_cast; ring
      rw [e1]
      exact band_path h hc hn (fun e => hne (congrArg Point.y e)) (.inl e2) (.inl e2) ha hb (stay _ rfl rfl rfl (.inl e2))
    · simp only at near; linarith
    · simp only at near; linarith
    · right
      have e1 : (50 + 380 * (c : Rat)) - 40 = 10 + 380 * (c : Rat) := by ring
      rw [e1]
      exact band_path h hc hn (fun e => hne (congrArg Point.y e)) (.inr rfl) (.inr rfl) ha hb (stay _ rfl rfl rfl (.inr rfl))
  · exfalso
    have hay : a.y = ya := by rcases fa' with rfl | rfl <;> rfl
    have hfar := far 0 (35 / 2) (by rw [hay, sub_self, abs_zero]) nb
    have near : |b.x - a.x| < 150 := by linarith
    rw [abs_lt] at near
    rcases fa' with rfl | rfl <;> simp only at near <;> linarith
  · exfalso
    have hby : b.y = yb := by rcases fb' with rfl | rfl <;> rfl
    have hfar := far (35 / 2) 0 na (by rw [hby, sub_self, abs_zero])
    have near : |b.x - a.x| < 150 := by linarith
    rw [abs_lt] at near
    rcases fb' with rfl | rfl <;> simp only at near <;> linarith
  · exfalso
    rcases hlast with ⟨-, l | l⟩ | ⟨-, l, -⟩
    · exact l la
    · exact l lb
    · exact l la

end Grid
end Seiren
