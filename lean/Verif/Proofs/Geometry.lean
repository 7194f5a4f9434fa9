import Mathlib.Tactic.Linarith
import Mathlib.Tactic.FieldSimp
import Mathlib.Tactic.Ring
import Verif.Spec.Geometry
/-! # The line-clipping algorithm computes the common part of a segment and a rectangle -/

namespace Seiren
open Spec

/-- The test of geometry.rs:241 for the segment from `p` (left) to `q` (right). -/
def EarlyOut (r : Rect) (p q : Point) : Prop :=
  p.x > r.minX ∧ q.x < r.maxX ∧ p.y > r.minY ∧ q.y < r.maxY

/-- The end points from left to right (geometry.rs:230-234). -/
def ordered (a b : Point) : Point × Point := if b.x < a.x then (b, a) else (a, b)

theorem slab_pos {lo hi x d t : Rat} (hd : 0 < d) :
    (lo ≤ x + t * d ∧ x + t * d ≤ hi) ↔ (x - lo) / (-d) ≤ t ∧ t ≤ (hi - x) / d := by
  rw [div_neg, neg_le, le_div_iff₀ hd, le_div_iff₀ hd]
  constructor <;> rintro ⟨h1, h2⟩ <;> constructor <;> linarith

theorem slab_neg {lo hi x d t : Rat} (hd : d < 0) :
    (lo ≤ x + t * d ∧ x + t * d ≤ hi) ↔ (hi - x) / d ≤ t ∧ t ≤ (x - lo) / (-d) := by
  have hd' : 0 < -d := by linarith
  have e : (hi - x) / d = (x - hi) / (-d) := by rw [div_neg, ← neg_div]; congr 1; ring
  rw [e, le_div_iff₀ hd', div_le_iff₀ hd']
  constructor <;> rintro ⟨h1, h2⟩ <;> constructor <;> linarith

theorem intersectedLine_ordered (r : Rect) (a b : Point) :
    r.intersectedLine a b = r.intersectedLine (ordered a b).1 (ordered a b).2 := by
  unfold ordered
  split
  · rename_i h
    have h' : ¬ a.x < b.x := by linarith
    simp only [Rect.intersectedLine, h, h', if_true, if_false]
  · rfl

/-- Exact result for a segment given from left to right. -/
theorem intersectedLine_spec (r : Rect) (p q : Point) (hx : p.x ≤ q.x) :
    match r.intersectedLine p q with
    | none => EarlyOut r p q ∨ ¬ Meets r p q
    | some (u, v) => ¬ EarlyOut r p q ∧ ∃ t1 t2 : Rat, 0 ≤ t1 ∧ t1 ≤ t2 ∧ t2 ≤ 1 ∧
        u = lerp p q t1 ∧ v = lerp p q t2 ∧
        ∀ t, 0 ≤ t → t ≤ 1 → (InRect r (lerp p q t) ↔ t1 ≤ t ∧ t ≤ t2) := by
  have hx' : ¬ q.x < p.x := by linarith
  unfold Rect.intersectedLine
  simp only [hx', if_false]
  by_cases hE : EarlyOut r p q
  · have : p.x > r.minX ∧ p.x + (q.x - p.x) < r.maxX ∧ p.y > r.minY ∧ p.y + (q.y - p.y) < r.maxY := by
      simpa [EarlyOut] using hE
    simp only [this, and_self, if_true]
    exact Or.inl hE
  · have : ¬ (p.x > r.minX ∧ p.x + (q.x - p.x) < r.maxX ∧ p.y > r.minY ∧ p.y + (q.y - p.y) < r.maxY) := by
      simpa [EarlyOut] using hE
    simp only [this, if_false]
    -- abbreviations
    obtain ⟨dx, hdx⟩ : ∃ dx, dx = q.x - p.x := ⟨_, rfl⟩
    obtain ⟨dy, hdy⟩ : ∃ dy, dy = q.y - p.y := ⟨_, rfl⟩
    have hlerp : ∀ t, lerp p q t = ⟨p.x + t * dx, p.y + t * dy⟩ := by intro t; simp [lerp, hdx, hdy]
    have hin : ∀ t, InRect r (lerp p q t) ↔
        (r.minX ≤ p.x + t * dx ∧ p.x + t * dx ≤ r.maxX) ∧ (r.minY ≤ p.y + t * dy ∧ p.y + t * dy ≤ r.maxY) := by
      intro t; rw [hlerp]; simp [InRect, Rect.minX, Rect.maxX, Rect.minY, Rect.maxY, and_assoc]
    rw [← hdx, ← hdy]
    have hdx0 : 0 ≤ dx := by linarith
    -- the two arrays as bounds
    have key : ∀ (lo hi : Rat), (∀ t, 0 ≤ t → t ≤ 1 → (InRect r (lerp p q t) ↔ lo ≤ t ∧ t ≤ hi)) → 0 ≤ lo → hi ≤ 1 →
        match (if lo > hi then none else some ((⟨p.x + dx * lo, p.y + dy * lo⟩ : Point), (⟨p.x + dx * hi, p.y + dy * hi⟩ : Point))) with
        | none => EarlyOut r p q ∨ ¬ Meets r p q
        | some (u, v) => ¬ EarlyOut r p q ∧ ∃ t1 t2 : Rat, 0 ≤ t1 ∧ t1 ≤ t2 ∧ t2 ≤ 1 ∧
            u = lerp p q t1 ∧ v = lerp p q t2 ∧
            ∀ t, 0 ≤ t → t ≤ 1 → (InRect r (lerp p q t) ↔ t1 ≤ t ∧ t ≤ t2) := by
      intro lo hi h h0 h1
      split
      · rename_i heq
        split at heq
        · right
          rintro ⟨t, ht0, ht1, ht⟩
          have := (h t ht0 ht1).1 ht
          linarith
        · simp at heq
      · rename_i u v heq
        split at heq
        · simp at heq
        · rename_i hle
          simp only [Option.some.injEq, Prod.mk.injEq] at heq
          refine ⟨hE, lo, hi, h0, by linarith, h1, ?_, ?_, h⟩
          · rw [hlerp, ← heq.1, mul_comm dx, mul_comm dy]
          · rw [hlerp, ← heq.2, mul_comm dx, mul_comm dy]
    -- a degenerate direction: the coordinate does not move
    have par : ∀ (P : Prop) [Decidable P] (X : Option (Point × Point)), (P → ¬ Meets r p q) →
        (¬ P → match X with
          | none => EarlyOut r p q ∨ ¬ Meets r p q
          | some (u, v) => ¬ EarlyOut r p q ∧ ∃ t1 t2 : Rat, 0 ≤ t1 ∧ t1 ≤ t2 ∧ t2 ≤ 1 ∧
              u = lerp p q t1 ∧ v = lerp p q t2 ∧
              ∀ t, 0 ≤ t → t ≤ 1 → (InRect r (lerp p q t) ↔ t1 ≤ t ∧ t ≤ t2)) →
        match (if P then none else X) with
          | none => EarlyOut r p q ∨ ¬ Meets r p q
          | some (u, v) => ¬ EarlyOut r p q ∧ ∃ t1 t2 : Rat, 0 ≤ t1 ∧ t1 ≤ t2 ∧ t2 ≤ 1 ∧
              u = lerp p q t1 ∧ v = lerp p q t2 ∧
              ∀ t, 0 ≤ t → t ≤ 1 → (InRect r (lerp p q t) ↔ t1 ≤ t ∧ t ≤ t2) := by
      intro P _ X h1 h2
      by_cases hP : P
      · simp only [hP, if_true]; exact Or.inr (h1 hP)
      · simp only [hP, if_false]; exact h2 hP
    have nm : ∀ P : Prop, (∀ t, InRect r (lerp p q t) → ¬ P) → P → ¬ Meets r p q := by
      rintro P h hP ⟨t, _, _, ht⟩; exact h t ht hP
    have zx : dx = 0 ∨ 0 < dx := by rcases eq_or_lt_of_le hdx0 with h | h <;> [left; right] <;> [exact h.symm; exact h]
    have zy : dy < 0 ∨ dy = 0 ∨ 0 < dy := lt_trichotomy dy 0
    rcases zx with e1 | hpos <;> rcases zy with hy | e2 | hy
    · have e2 : ¬ dy = 0 := by linarith
      have hy' : ¬ 0 < dy := by linarith
      simp only [neg_neg, neg_eq_zero, e1, e2, true_and, false_and, or_false, if_false, not_true, ne_eq,
        not_false_eq_true, neg_lt_zero, hy', if_true, Rect.foldMax, Rect.foldMin, List.cons_append, List.nil_append,
        List.foldl]
      apply par
      · apply nm; intro t; rw [hin, e1]; intro h; rintro (h' | h') <;> linarith [h.1.1, h.1.2]
      · intro hP
        simp only [not_or, not_lt, sub_nonneg] at hP
        simp only [e1] at key
        apply key
        · intro t h0 h1
          rw [hin, slab_neg hy, e1]
          simp only [max_le_iff, le_min_iff, mul_zero, add_zero, hP, true_and]
          tauto
        · simp
        · simp
    · simp only [neg_neg, neg_eq_zero, e1, e2, true_and, if_false, not_true, ne_eq, Rect.foldMax, Rect.foldMin,
        List.foldl]
      apply par
      · apply nm; intro t; rw [hin, e1, e2]; intro h
        rintro (h' | h' | h' | h') <;> linarith [h.1.1, h.1.2, h.2.1, h.2.2]
      · intro hP
        simp only [not_or, not_lt, sub_nonneg] at hP
        simp only [e1, e2] at key
        have h := key (max 0 0) (min 1 1) (by
          intro t h0 h1
          rw [hin, e1, e2]
          simp only [max_le_iff, le_min_iff, mul_zero, add_zero, hP, and_self, h0, h1]) (by simp) (by simp)
        convert h using 2
    · have e2 : ¬ dy = 0 := by linarith
      simp only [neg_neg, neg_eq_zero, e1, e2, true_and, false_and, or_false, if_false, not_true, ne_eq,
        not_false_eq_true, neg_lt_zero, hy, if_true, Rect.foldMax, Rect.foldMin, List.cons_append, List.nil_append,
        List.foldl]
      apply par
      · apply nm; intro t; rw [hin, e1]; intro h; rintro (h' | h') <;> linarith [h.1.1, h.1.2]
      · intro hP
        simp only [not_or, not_lt, sub_nonneg] at hP
        simp only [e1] at key
        apply key
        · intro t h0 h1
          rw [hin, slab_pos hy, e1]
          simp only [max_le_iff, le_min_iff, mul_zero, add_zero, hP, true_and]
          tauto
        · simp
        · simp
    · have e1 : ¬ dx = 0 := by linarith
      have e2 : ¬ dy = 0 := by linarith
      have hy' : ¬ 0 < dy := by linarith
      simp only [neg_neg, neg_eq_zero, e1, e2, false_and, false_or, if_false, if_true, ne_eq, not_false_eq_true,
        neg_lt_zero, hpos, hy', Rect.foldMax, Rect.foldMin, List.cons_append, List.nil_append, List.foldl]
      apply key
      · intro t h0 h1
        rw [hin, slab_pos hpos, slab_neg hy]
        simp only [max_le_iff, le_min_iff]
        tauto
      · simp
      · simp
    · have e1 : ¬ dx = 0 := by linarith
      simp only [neg_neg, neg_eq_zero, e1, e2, true_and, false_and, false_or, if_false, if_true, ne_eq, not_true,
        not_false_eq_true,
        neg_lt_zero, hpos, Rect.foldMax, Rect.foldMin, List.cons_append, List.nil_append, List.foldl]
      apply par
      · apply nm; intro t; rw [hin, e2]; intro h; rintro (h' | h') <;> linarith [h.2.1, h.2.2]
      · intro hP
        simp only [not_or, not_lt, sub_nonneg] at hP
        simp only [e2] at key
        apply key
        · intro t h0 h1
          rw [hin, slab_pos hpos, e2]
          simp only [max_le_iff, le_min_iff, mul_zero, add_zero, hP, and_true]
          tauto
        · simp
        · simp
    · have e1 : ¬ dx = 0 := by linarith
      have e2 : ¬ dy = 0 := by linarith
      simp only [neg_neg, neg_eq_zero, e1, e2, false_and, false_or, if_false, if_true, ne_eq, not_false_eq_true,
        neg_lt_zero, hpos, hy, Rect.foldMax, Rect.foldMin, List.cons_append, List.nil_append, List.foldl]
      apply key
      · intro t h0 h1
        rw [hin, slab_pos hpos, slab_pos hy]
        simp only [max_le_iff, le_min_iff]
        tauto
      · simp
      · simp
end Seiren
