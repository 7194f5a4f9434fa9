import Verif.Proofs.Ieee
import Verif.Props.Display
/-!
# C94: the special values of `f32`

The functions of geometry.rs on all values of `f32`, with the two zeros, the infinities and `NaN` (`Verif/Model/Ieee.lean`).
-/

namespace Seiren
open Spec

/-- The coordinates are those of the point. -/
structure Spec.PointVal (P : FlPoint) (p : Point) : Prop where
  x : Val P.x p.x
  y : Val P.y p.y

/-- The numbers are those of the rectangle. -/
structure Spec.RectVal (R : FlRect) (r : Rect) : Prop where
  x : Val R.origin.x r.origin.x
  y : Val R.origin.y r.origin.y
  w : Val R.size.width r.size.width
  h : Val R.size.height r.size.height

/-- Both cases of a possible line are the same. -/
def Spec.LineVal : Option (FlPoint × FlPoint) → Option (Point × Point) → Prop
  | none, none => True
  | some (P, Q), some (p, q) => PointVal P p ∧ PointVal Q q
  | _, _ => False

/-! ## The two ends of the part of a line inside -/

/-- A number, or an infinity for a number above 1 or below 0. -/
def Ext (x : Fl) (q : Rat) : Prop := Val x q ∨ (x = .inf false ∧ 1 < q) ∨ (x = .inf true ∧ q < 0)

def Hi (x : Fl) (q : Rat) : Prop := 0 ≤ q ∧ (Val x q ∨ (x = .inf false ∧ 1 < q))

def Lo (x : Fl) (q : Rat) : Prop := q ≤ 1 ∧ (Val x q ∨ (x = .inf true ∧ q < 0))

theorem lt_inf {x : Fl} {q : Rat} (h : Val x q) (s : Bool) : Fl.lt x (.inf s) = !s ∧ Fl.lt (.inf s) x = s := by
  rcases h.cases with ⟨t, rfl, rfl⟩ | ⟨rfl, h0⟩ <;> exact ⟨rfl, rfl⟩

section
variable (tie : Fl → Fl → Bool) {x y : Fl} {p q : Rat}

theorem hi_max (hx : Ext x p) (hy : Hi y q) : Hi (Fl.max tie x y) (max p q) := by
  obtain ⟨h0, hy⟩ := hy
  refine ⟨le_max_of_le_right h0, ?_⟩
  rcases hx with hx | ⟨rfl, hp⟩ | ⟨rfl, hp⟩ <;> rcases hy with hy | ⟨rfl, hq⟩
  · exact Or.inl (val_max tie hx hy)
  · right
    refine ⟨?_, lt_max_of_lt_right hq⟩
    rw [Fl.max, if_neg (val_ne_nan hx), if_neg (by simp), (lt_inf hx false).1]
    rfl
  · right
    refine ⟨?_, lt_max_of_lt_left hp⟩
    rw [Fl.max, if_neg (by simp), if_neg (val_ne_nan hy), (lt_inf hy false).2, (lt_inf hy false).1]
    rfl
  · right
    refine ⟨?_, lt_max_of_lt_left hp⟩
    simp [Fl.max, Fl.lt]
  · left
    rw [max_eq_right (by linarith), Fl.max, if_neg (by simp), if_neg (val_ne_nan hy), (lt_inf hy true).2, if_pos rfl]
    exact hy
  · right
    refine ⟨?_, lt_max_of_lt_right hq⟩
    simp [Fl.max, Fl.lt]

theorem lo_min (hx : Ext x p) (hy : Lo y q) : Lo (Fl.min tie x y) (min p q) := by
  obtain ⟨h0, hy⟩ := hy
  refine ⟨min_le_of_right_le h0, ?_⟩
  rcases hx with hx | ⟨rfl, hp⟩ | ⟨rfl, hp⟩ <;> rcases hy with hy | ⟨rfl, hq⟩
  · exact Or.inl (val_min tie hx hy)
  · right
    refine ⟨?_, min_lt_of_right_lt hq⟩
    rw [Fl.min, if_neg (val_ne_nan hx), if_neg (by simp), (lt_inf hx true).1, (lt_inf hx true).2]
    rfl
  · left
    rw [min_eq_right (by linarith), Fl.min, if_neg (by simp), if_neg (val_ne_nan hy), (lt_inf hy false).2, (lt_inf hy false).1]
    exact hy
  · right
    refine ⟨?_, min_lt_of_right_lt hq⟩
    simp [Fl.min, Fl.lt]
  · right
    refine ⟨?_, min_lt_of_left_lt hp⟩
    rw [Fl.min, if_neg (by simp), if_neg (val_ne_nan hy), (lt_inf hy true).2]
    rfl
  · right
    refine ⟨?_, min_lt_of_left_lt hp⟩
    simp [Fl.min, Fl.lt]

theorem lo_lt_hi (hx : Lo x p) (hy : Hi y q) : Fl.lt x y = decide (p < q) := by
  obtain ⟨h1, hx⟩ := hx
  obtain ⟨h0, hy⟩ := hy
  rcases hx with hx | ⟨rfl, hp⟩ <;> rcases hy with hy | ⟨rfl, hq⟩
  · exact val_lt hx hy
  · rw [(lt_inf hx false).1, decide_eq_true (by linarith)]; rfl
  · rw [(lt_inf hy true).2, decide_eq_true (by linarith)]
  · rw [decide_eq_true (by linarith)]; rfl

theorem foldMax_cons (v : Rat) (l : List Rat) : Rect.foldMax (v :: l) = l.foldl (fun m v => max v m) v := rfl

theorem hi_fold {X : List Fl} {l : List Rat} (h : List.Forall₂ Ext X l) :
    Hi ((Fl.zero0 :: Fl.zero0 :: X).foldl (fun m v => Fl.max tie v m) .nan) (Rect.foldMax (0 :: 0 :: l)) := by
  have key : ∀ {X : List Fl} {l : List Rat}, List.Forall₂ Ext X l → ∀ y q, Hi y q →
      Hi (X.foldl (fun m v => Fl.max tie v m) y) (l.foldl (fun m v => max v m) q) := by
    intro X l h
    induction h with
    | nil => intro y q hy; exact hy
    | cons hx _ ih => intro y q hy; exact ih _ _ (hi_max tie hx hy)
  have h0 : Hi Fl.zero0 0 := ⟨le_refl 0, Or.inl rfl⟩
  have e0 : Ext Fl.zero0 0 := Or.inl rfl
  have : Fl.max tie Fl.zero0 .nan = Fl.zero0 := by simp [Fl.max, Fl.zero0]
  rw [List.foldl_cons, this, foldMax_cons]
  exact key (List.Forall₂.cons e0 h) _ _ h0

theorem lo_fold {X : List Fl} {l : List Rat} (h : List.Forall₂ Ext X l) :
    Lo ((Fl.one :: Fl.one :: X).foldl (fun m v => Fl.min tie v m) .nan) (Rect.foldMin (1 :: 1 :: l)) := by
  have key : ∀ {X : List Fl} {l : List Rat}, List.Forall₂ Ext X l → ∀ y q, Lo y q →
      Lo (X.foldl (fun m v => Fl.min tie v m) y) (l.foldl (fun m v => min v m) q) := by
    intro X l h
    induction h with
    | nil => intro y q hy; exact hy
    | cons hx _ ih => intro y q hy; exact ih _ _ (lo_min tie hx hy)
  have : Fl.min tie Fl.one .nan = Fl.one := by simp [Fl.min, Fl.one]
  rw [List.foldl_cons, this]
  exact key (List.Forall₂.cons (Or.inl val_one) h) _ _ ⟨le_refl 1, Or.inl val_one⟩

/-- A quotient that is too large becomes an infinity. -/
theorem ext_div (hx : Val x p) (hy : Val y q) (hq : q ≠ 0) : Ext (Fl.div x y) (roundF32 (p / q)) := by
  rcases lt_or_ge |p / q| (2 ^ 128 - 2 ^ 103) with h | h
  · exact Or.inl (val_div hx hy hq h)
  · right
    have hp : p ≠ 0 := by rintro rfl; norm_num at h
    have hx' : x = .fin p := by rcases hx.cases with ⟨_, _, h0⟩ | ⟨h0, _⟩; exact absurd h0 hp; exact h0
    have hy' : y = .fin q := by rcases hy.cases with ⟨_, _, h0⟩ | ⟨h0, _⟩; exact absurd h0 hq; exact h0
    have hpq : p / q ≠ 0 := div_ne_zero hp hq
    have e : Fl.div x y = .inf (decide (p / q < 0)) := by
      subst hx' hy'
      show Fl.ofRat _ (p / q) = _
      rw [Fl.ofRat, if_neg hpq, if_pos h]
    have hM := roundF32_exact f32Max isF32_max
    have hbig : (1 : Rat) < f32Max := by unfold f32Max; norm_num
    rcases lt_or_gt_of_ne hpq with h0 | h0
    · right
      rw [e, decide_eq_true h0]
      rw [abs_of_neg h0] at h
      have := roundF32_le (f32Max_lt.le.trans h)
      rw [hM, roundF32_neg] at this
      exact ⟨rfl, by linarith⟩
    · left
      rw [e, decide_eq_false (by linarith)]
      rw [abs_of_pos h0] at h
      have := roundF32_le (f32Max_lt.le.trans h)
      rw [hM] at this
      exact ⟨rfl, by linarith⟩

end

/-! ## Clipping -/

/-- geometry.rs:241-310, the part of `FlRect.intersectedLine` after the ends are put in order. -/
def flClip (tie : Fl → Fl → Bool) (left right top bottom x y dx dy : Fl) : Option (FlPoint × FlPoint) :=
  if Fl.lt left x && Fl.lt (Fl.add x dx) right && Fl.lt top y && Fl.lt (Fl.add y dy) bottom then none
  else
    if (Fl.eq (.neg dx) Fl.zero0 && Fl.lt (.sub x left) Fl.zero0) || (Fl.eq (.neg (.neg dx)) Fl.zero0 && Fl.lt (.sub right x) Fl.zero0) ||
        (Fl.eq (.neg dy) Fl.zero0 && Fl.lt (.sub y top) Fl.zero0) || (Fl.eq (.neg (.neg dy)) Fl.zero0 && Fl.lt (.sub bottom y) Fl.zero0) then none
    else
      let (negarr, posarr) :=
        if !Fl.eq (.neg dx) Fl.zero0 then
          if Fl.lt (.neg dx) Fl.zero0 then ([Fl.zero0, Fl.zero0, .div (.sub x left) (.neg dx)], [Fl.one, Fl.one, .div (.sub right x) (.neg (.neg dx))])
          else ([Fl.zero0, Fl.zero0, .div (.sub right x) (.neg (.neg dx))], [Fl.one, Fl.one, .div (.sub x left) (.neg dx)])
        else ([Fl.zero0, Fl.zero0], [Fl.one, Fl.one])
      let (negarr, posarr) :=
        if !Fl.eq (.neg dy) Fl.zero0 then
          if Fl.lt (.neg dy) Fl.zero0 then (negarr ++ [.div (.sub y top) (.neg dy)], posarr ++ [.div (.sub bottom y) (.neg (.neg dy))])
          else (negarr ++ [.div (.sub bottom y) (.neg (.neg dy))], posarr ++ [.div (.sub y top) (.neg dy)])
        else (negarr, posarr)
      let rn1 := negarr.foldl (fun m v => Fl.max tie v m) Fl.nan
      let rn2 := posarr.foldl (fun m v => Fl.min tie v m) Fl.nan
      if Fl.lt rn2 rn1 then none
      else some (⟨.add x (.mul (.neg (.neg dx)) rn1), .add y (.mul (.neg (.neg dy)) rn1)⟩, ⟨.add x (.mul (.neg (.neg dx)) rn2), .add y (.mul (.neg (.neg dy)) rn2)⟩)

theorem intersectedLine_flClip (tie : Fl → Fl → Bool) (R : FlRect) (A B : FlPoint) : R.intersectedLine tie A B =
    if Fl.lt B.x A.x then flClip tie R.minX R.maxX R.minY R.maxY B.x B.y (.sub A.x B.x) (.sub A.y B.y)
    else flClip tie R.minX R.maxX R.minY R.maxY A.x A.y (.sub B.x A.x) (.sub B.y A.y) := by
  unfold FlRect.intersectedLine
  by_cases h : Fl.lt B.x A.x = true
  · rw [if_pos h, if_pos h]; rfl
  · rw [if_neg h, if_neg h]; rfl

/-- The same for the rounded model. -/
def ratClip (left right top bottom x y dx dy : Rat) : Option (Point × Point) :=
  if x > left ∧ roundF32 (x + dx) < right ∧ y > top ∧ roundF32 (y + dy) < bottom then none
  else
    if (-dx = 0 ∧ roundF32 (x - left) < 0) ∨ (- -dx = 0 ∧ roundF32 (right - x) < 0) ∨ (-dy = 0 ∧ roundF32 (y - top) < 0) ∨
        (- -dy = 0 ∧ roundF32 (bottom - y) < 0) then none
    else
      let (negarr, posarr) :=
        if -dx ≠ 0 then
          if -dx < 0 then ([0, 0, roundF32 (roundF32 (x - left) / -dx)], [1, 1, roundF32 (roundF32 (right - x) / - -dx)])
          else ([0, 0, roundF32 (roundF32 (right - x) / - -dx)], [1, 1, roundF32 (roundF32 (x - left) / -dx)])
        else ([0, 0], [1, 1])
      let (negarr, posarr) :=
        if -dy ≠ 0 then
          if -dy < 0 then (negarr ++ [roundF32 (roundF32 (y - top) / -dy)], posarr ++ [roundF32 (roundF32 (bottom - y) / - -dy)])
          else (negarr ++ [roundF32 (roundF32 (bottom - y) / - -dy)], posarr ++ [roundF32 (roundF32 (y - top) / -dy)])
        else (negarr, posarr)
      let rn1 := Rect.foldMax negarr
      let rn2 := Rect.foldMin posarr
      if rn1 > rn2 then none
      else some (⟨roundF32 (x + roundF32 (- -dx * rn1)), roundF32 (y + roundF32 (- -dy * rn1))⟩,
        ⟨roundF32 (x + roundF32 (- -dx * rn2)), roundF32 (y + roundF32 (- -dy * rn2))⟩)

theorem intersectedLineR_ratClip (r : Rect) (a b : Point) : r.intersectedLineR roundF32 a b =
    if b.x < a.x then ratClip r.minX (r.maxXR roundF32) r.minY (r.maxYR roundF32) b.x b.y (roundF32 (a.x - b.x)) (roundF32 (a.y - b.y))
    else ratClip r.minX (r.maxXR roundF32) r.minY (r.maxYR roundF32) a.x a.y (roundF32 (b.x - a.x)) (roundF32 (b.y - a.y)) := by
  unfold Rect.intersectedLineR
  by_cases h : b.x < a.x
  · rw [if_pos h, if_pos h]; rfl
  · rw [if_neg h, if_neg h]; rfl

/-- Between two ends. -/
theorem between {x d t : Rat} (hd : IsF32 d) (hx : |x| < 2 ^ 128 - 2 ^ 103) (hxd : |x + d| < 2 ^ 128 - 2 ^ 103) (h0 : 0 ≤ t) (h1 : t ≤ 1) :
    |d * t| < 2 ^ 128 - 2 ^ 103 ∧ |x + roundF32 (d * t)| < 2 ^ 128 - 2 ^ 103 := by
  have hd' := (isF32_abs hd).trans_lt f32Max_lt
  rw [abs_lt] at hx hxd hd' ⊢
  rw [abs_lt]
  rcases le_total 0 d with h | h
  · have a0 : 0 ≤ d * t := mul_nonneg h h0
    have a1 : d * t ≤ d := mul_le_of_le_one_right h h1
    have b0 := roundF32_nonneg a0
    have b1 := roundF32_le a1
    rw [roundF32_exact d hd] at b1
    constructor <;> constructor <;> linarith
  · have a0 : d * t ≤ 0 := mul_nonpos_of_nonpos_of_nonneg h h0
    have a1 : d ≤ d * t := by nlinarith
    have b0 := roundF32_le a0
    rw [roundF32_zero] at b0
    have b1 := roundF32_le a1
    rw [roundF32_exact d hd] at b1
    constructor <;> constructor <;> linarith

section
variable (tie : Fl → Fl → Bool) {left right top bottom x y dx dy : Fl} {l r t b x' y' u v : Rat}

theorem clip_val (hl : Val left l) (hr : Val right r) (ht : Val top t) (hb : Val bottom b) (hx : Val x x') (hy : Val y y')
    (hdx : Val dx u) (hdy : Val dy v) (h1 : |x' + u| < 2 ^ 128 - 2 ^ 103) (h2 : |y' + v| < 2 ^ 128 - 2 ^ 103)
    (h3 : |x' - l| < 2 ^ 128 - 2 ^ 103) (h4 : |r - x'| < 2 ^ 128 - 2 ^ 103) (h5 : |y' - t| < 2 ^ 128 - 2 ^ 103)
    (h6 : |b - y'| < 2 ^ 128 - 2 ^ 103) :
    LineVal (flClip tie left right top bottom x y dx dy) (ratClip l r t b x' y' u v) := by
  have z0 : Val Fl.zero0 0 := rfl
  have q1 := val_sub hx hl h3
  have q2 := val_sub hr hx h4
  have q3 := val_sub hy ht h5
  have q4 := val_sub hb hy h6
  have p1 := val_neg hdx
  have p2 := val_neg p1
  have p3 := val_neg hdy
  have p4 := val_neg p3
  unfold flClip ratClip
  rw [val_lt hl hx, val_lt (val_add hx hdx h1) hr, val_lt ht hy, val_lt (val_add hy hdy h2) hb, val_eq p1 z0, val_eq p2 z0, val_eq p3 z0,
    val_eq p4 z0, val_lt q1 z0, val_lt q2 z0, val_lt q3 z0, val_lt q4 z0, val_lt p1 z0, val_lt p3 z0]
  simp only [Bool.and_eq_true, decide_eq_true_eq, Bool.or_eq_true, Bool.not_eq_true', decide_eq_false_iff_not, gt_iff_lt, and_assoc, or_assoc,
    ← ne_eq]
  split
  · trivial
  split
  · trivial
  have e1 := fun h => ext_div q1 p1 h
  have e2 := fun h => ext_div q2 p2 h
  have e3 := fun h => ext_div q3 p3 h
  have e4 := fun h => ext_div q4 p4 h
  have main : ∀ (N P : List Fl) (n p : List Rat), List.Forall₂ Ext N n → List.Forall₂ Ext P p →
      LineVal
        (if Fl.lt ((Fl.one :: Fl.one :: P).foldl (fun m v => Fl.min tie v m) Fl.nan) ((Fl.zero0 :: Fl.zero0 :: N).foldl (fun m v => Fl.max tie v m) Fl.nan) = true then none
        else some (⟨.add x (.mul (.neg (.neg dx)) ((Fl.zero0 :: Fl.zero0 :: N).foldl (fun m v => Fl.max tie v m) Fl.nan)),
            .add y (.mul (.neg (.neg dy)) ((Fl.zero0 :: Fl.zero0 :: N).foldl (fun m v => Fl.max tie v m) Fl.nan))⟩,
          ⟨.add x (.mul (.neg (.neg dx)) ((Fl.one :: Fl.one :: P).foldl (fun m v => Fl.min tie v m) Fl.nan)),
            .add y (.mul (.neg (.neg dy)) ((Fl.one :: Fl.one :: P).foldl (fun m v => Fl.min tie v m) Fl.nan))⟩))
        (if Rect.foldMin (1 :: 1 :: p) < Rect.foldMax (0 :: 0 :: n) then none
        else some (⟨roundF32 (x' + roundF32 (- -u * Rect.foldMax (0 :: 0 :: n))), roundF32 (y' + roundF32 (- -v * Rect.foldMax (0 :: 0 :: n)))⟩,
          ⟨roundF32 (x' + roundF32 (- -u * Rect.foldMin (1 :: 1 :: p))), roundF32 (y' + roundF32 (- -v * Rect.foldMin (1 :: 1 :: p)))⟩)) := by
    intro N P n p hN hP
    have hi := hi_fold tie hN
    have lo := lo_fold tie hP
    generalize (Fl.one :: Fl.one :: P).foldl (fun m v => Fl.min tie v m) Fl.nan = m2 at lo ⊢
    generalize (Fl.zero0 :: Fl.zero0 :: N).foldl (fun m v => Fl.max tie v m) Fl.nan = m1 at hi ⊢
    generalize Rect.foldMin (1 :: 1 :: p) = s2 at lo ⊢
    generalize Rect.foldMax (0 :: 0 :: n) = s1 at hi ⊢
    rw [lo_lt_hi lo hi]
    simp only [decide_eq_true_eq]
    split
    · trivial
    · rename_i hle
      have hle := not_lt.mp hle
      obtain ⟨a0, hi⟩ := hi
      obtain ⟨a1, lo⟩ := lo
      have v1 : Val m1 s1 := by rcases hi with h | ⟨-, h⟩; exact h; linarith
      have v2 : Val m2 s2 := by rcases lo with h | ⟨-, h⟩; exact h; linarith
      have xb := (isF32_abs hx.format).trans_lt f32Max_lt
      have yb := (isF32_abs hy.format).trans_lt f32Max_lt
      have bx := fun {t : Rat} h0 h1' => between (t := t) hdx.format xb h1 h0 h1'
      have by' := fun {t : Rat} h0 h1' => between (t := t) hdy.format yb h2 h0 h1'
      rw [neg_neg] at p2 p4
      rw [neg_neg, neg_neg]
      have c1 := bx a0 (hle.trans a1)
      have c2 := by' a0 (hle.trans a1)
      have c3 := bx (a0.trans hle) a1
      have c4 := by' (a0.trans hle) a1
      exact ⟨⟨val_add hx (val_mul p2 v1 c1.1) c1.2, val_add hy (val_mul p4 v1 c2.1) c2.2⟩,
        ⟨val_add hx (val_mul p2 v2 c3.1) c3.2, val_add hy (val_mul p4 v2 c4.1) c4.2⟩⟩
  have hne : ∀ {q : Rat}, -q ≠ 0 → - -q ≠ 0 := fun h => neg_ne_zero.mpr h
  by_cases d1 : -u ≠ 0
  all_goals first | simp only [if_pos d1] | simp only [if_neg d1]
  all_goals by_cases d2 : -v ≠ 0
  all_goals first | simp only [if_pos d2] | simp only [if_neg d2]
  all_goals by_cases d3 : -u < 0
  all_goals try first | simp only [if_pos d3] | simp only [if_neg d3]
  all_goals by_cases d4 : -v < 0
  all_goals try first | simp only [if_pos d4] | simp only [if_neg d4]
  all_goals
    refine main _ _ _ _ ?_ ?_ <;>
    first
      | exact .cons (e1 d1) (.cons (e3 d2) .nil)
      | exact .cons (e1 d1) (.cons (e4 (hne d2)) .nil)
      | exact .cons (e2 (hne d1)) (.cons (e3 d2) .nil)
      | exact .cons (e2 (hne d1)) (.cons (e4 (hne d2)) .nil)
      | exact .cons (e1 d1) .nil
      | exact .cons (e2 (hne d1)) .nil
      | exact .cons (e3 d2) .nil
      | exact .cons (e4 (hne d2)) .nil
      | exact .nil

end

/-! ## C94 -/

/-- **C94, the operations.** On finite values every operation gives the value of the exact result, rounded, as long as this is not
above the largest number by half a unit or more; comparisons are those of the numbers; the two zeros cannot be told apart by any
of them. -/
theorem C94_operations (tie : Fl → Fl → Bool) {x y : Fl} {p q : Rat} (hx : Val x p) (hy : Val y q) :
    Val (Fl.neg x) (-p) ∧
    (|p + q| < 2 ^ 128 - 2 ^ 103 → Val (Fl.add x y) (roundF32 (p + q))) ∧
    (|p - q| < 2 ^ 128 - 2 ^ 103 → Val (Fl.sub x y) (roundF32 (p - q))) ∧
    (|p * q| < 2 ^ 128 - 2 ^ 103 → Val (Fl.mul x y) (roundF32 (p * q))) ∧
    (q ≠ 0 → |p / q| < 2 ^ 128 - 2 ^ 103 → Val (Fl.div x y) (roundF32 (p / q))) ∧
    Val (Fl.max tie x y) (max p q) ∧ Val (Fl.min tie x y) (min p q) ∧
    (Fl.lt x y = true ↔ p < q) ∧ (Fl.le x y = true ↔ p ≤ q) ∧ (Fl.eq x y = true ↔ p = q) := by
  refine ⟨val_neg hx, val_add hx hy, val_sub hx hy, val_mul hx hy, val_div hx hy, val_max tie hx hy, val_min tie hx hy, ?_, ?_, ?_⟩
  · rw [val_lt hx hy, decide_eq_true_eq]
  · rw [val_le hx hy, decide_eq_true_eq]
  · rw [val_eq hx hy, decide_eq_true_eq]

theorem round_abs {q : Rat} (h : |q| ≤ 2 ^ 127) : |roundF32 q| ≤ 2 ^ 127 := by
  have e : roundF32 (2 ^ 127) = 2 ^ 127 := roundF32_exact _ ⟨2 ^ 23, 104, by norm_num, by norm_num, by norm_num, by norm_num⟩
  rw [abs_le] at h ⊢
  have h1 := roundF32_le h.1
  have h2 := roundF32_le h.2
  rw [roundF32_neg] at h1
  rw [e] at h1 h2
  exact ⟨h1, h2⟩

/-- No number of a rectangle is above 2^126. -/
structure Spec.RectBelow (r : Rect) : Prop where
  x : |r.origin.x| ≤ 2 ^ 126
  y : |r.origin.y| ≤ 2 ^ 126
  w : |r.size.width| ≤ 2 ^ 126
  h : |r.size.height| ≤ 2 ^ 126

theorem add_below {p q : Rat} (hp : |p| ≤ 2 ^ 126) (hq : |q| ≤ 2 ^ 126) : |p + q| ≤ 2 ^ 127 := by
  have := abs_add_le p q
  linarith

theorem sub_below {p q : Rat} (hp : |p| ≤ 2 ^ 126) (hq : |q| ≤ 2 ^ 126) : |p - q| ≤ 2 ^ 127 := by
  have := abs_sub p q
  linarith

theorem add_fits {p q : Rat} (hp : |p| ≤ 2 ^ 126) (hq : |q| ≤ 2 ^ 127) : |p + q| < 2 ^ 128 - 2 ^ 103 := by
  have := abs_add_le p q
  norm_num at *
  linarith

theorem sub_fits {p q : Rat} (hp : |p| ≤ 2 ^ 126) (hq : |q| ≤ 2 ^ 127) : |p - q| < 2 ^ 128 - 2 ^ 103 := by
  have := abs_sub p q
  norm_num at *
  linarith

theorem sub_fits' {p q : Rat} (hp : |p| ≤ 2 ^ 127) (hq : |q| ≤ 2 ^ 126) : |p - q| < 2 ^ 128 - 2 ^ 103 := by
  rw [abs_sub_comm]
  exact sub_fits hq hp

theorem le_127 {p : Rat} (hp : |p| ≤ 2 ^ 126) : |p| ≤ 2 ^ 127 := hp.trans (by norm_num)

section
variable {R : FlRect} {r : Rect} (hR : RectVal R r) (hr : RectBelow r)
include hR hr

theorem val_maxX : Val R.maxX (r.maxXR roundF32) := val_add hR.x hR.w (add_fits hr.x (le_127 hr.w))
theorem val_maxY : Val R.maxY (r.maxYR roundF32) := val_add hR.y hR.h (add_fits hr.y (le_127 hr.h))

omit hR hr in
theorem half_below {p : Rat} (h : |p| ≤ 2 ^ 126) : |p / 2| ≤ 2 ^ 127 := by
  rw [abs_div, abs_of_pos (by norm_num : (0 : Rat) < 2)]
  linarith

theorem val_midX : Val R.midX (r.midXR roundF32) := by
  have h := half_below hr.w
  exact val_add hR.x (val_div hR.w val_two (by norm_num) (h.trans_lt (by norm_num))) (add_fits hr.x (round_abs h))

theorem val_midY : Val R.midY (r.midYR roundF32) := by
  have h := half_below hr.h
  exact val_add hR.y (val_div hR.h val_two (by norm_num) (h.trans_lt (by norm_num))) (add_fits hr.y (round_abs h))

/-- **C94, the geometry.** As long as no number is above 2^126, the functions of geometry.rs compute on the values of `f32` what
the model with rounded rational numbers computes: the corners and middles of a rectangle, a smaller or larger one, whether it
contains a point, whether and where a line meets it, and the direction of a line.  In particular the zeros with a sign, the `NaN`
the folds of `intersected_line` start with, and the infinities that its divisions can give, make no difference. -/
theorem C94_geometry (tie : Fl → Fl → Bool) {A B : FlPoint} {a b : Point} (hA : PointVal A a) (hB : PointVal B b)
    (ha : |a.x| ≤ 2 ^ 126 ∧ |a.y| ≤ 2 ^ 126) (hb : |b.x| ≤ 2 ^ 126 ∧ |b.y| ≤ 2 ^ 126) :
    Val R.midX (r.midXR roundF32) ∧ Val R.maxX (r.maxXR roundF32) ∧ Val R.midY (r.midYR roundF32) ∧ Val R.maxY (r.maxYR roundF32) ∧
    RectVal (R.insetBy tie A.x A.y) (r.insetByR roundF32 a.x a.y) ∧
    R.containsPoint A = r.containsPointR roundF32 a ∧
    LineVal (R.intersectedLine tie A B) (r.intersectedLineR roundF32 a b) ∧
    R.intersectsLine tie A B = r.intersectsLineR roundF32 a b ∧
    A.orthogonalDirection B = a.orthogonalDirection b := by
  have mx := val_maxX hR hr
  have my := val_maxY hR hr
  have hline : LineVal (R.intersectedLine tie A B) (r.intersectedLineR roundF32 a b) := by
    rw [intersectedLine_flClip, intersectedLineR_ratClip, val_lt hB.x hA.x]
    simp only [decide_eq_true_eq]
    have bx : |r.maxXR roundF32| ≤ 2 ^ 127 := round_abs (add_below hr.x hr.w)
    have by' : |r.maxYR roundF32| ≤ 2 ^ 127 := round_abs (add_below hr.y hr.h)
    have key : ∀ {A B : FlPoint} {a b : Point}, PointVal A a → PointVal B b → |a.x| ≤ 2 ^ 126 ∧ |a.y| ≤ 2 ^ 126 →
        |b.x| ≤ 2 ^ 126 ∧ |b.y| ≤ 2 ^ 126 → LineVal (flClip tie R.minX R.maxX R.minY R.maxY A.x A.y (.sub B.x A.x) (.sub B.y A.y))
          (ratClip r.minX (r.maxXR roundF32) r.minY (r.maxYR roundF32) a.x a.y (roundF32 (b.x - a.x)) (roundF32 (b.y - a.y))) := by
      intro A B a b hA hB ha hb
      have sx := sub_below hb.1 ha.1
      have sy := sub_below hb.2 ha.2
      exact clip_val tie hR.x mx hR.y my hA.x hA.y (val_sub hB.x hA.x (sub_fits hb.1 (le_127 ha.1)))
        (val_sub hB.y hA.y (sub_fits hb.2 (le_127 ha.2))) (add_fits ha.1 (round_abs sx)) (add_fits ha.2 (round_abs sy))
        (sub_fits ha.1 (le_127 hr.x)) (sub_fits' bx ha.1) (sub_fits ha.2 (le_127 hr.y)) (sub_fits' by' ha.2)
    split
    · exact key hB hA hb ha
    · exact key hA hB ha hb
  refine ⟨val_midX hR hr, mx, val_midY hR hr, my, ?_, ?_, hline, ?_, ?_⟩
  · have two : ∀ {p : Rat}, |p| ≤ 2 ^ 126 → |p * 2| ≤ 2 ^ 127 := by
      intro p hp
      rw [abs_mul, abs_of_pos (by norm_num : (0 : Rat) < 2)]
      linarith
    have inset : ∀ {X W : Fl} {p w : Rat}, Val X p → |p| ≤ 2 ^ 126 → Val W w → |w| ≤ 2 ^ 126 →
        Val (Fl.max tie (Fl.sub W (Fl.mul X Fl.two)) Fl.zero0) (max (roundF32 (w - roundF32 (p * 2))) 0) := by
      intro X W p w hX hp hW hw
      exact val_max tie (val_sub hW (val_mul hX val_two ((two hp).trans_lt (by norm_num))) (sub_fits hw (round_abs (two hp)))) (val_zero _)
    exact ⟨val_add hR.x hA.x (add_fits hr.x (le_127 ha.1)), val_add hR.y hA.y (add_fits hr.y (le_127 ha.2)),
      inset hA.x ha.1 hR.w hr.w, inset hA.y ha.2 hR.h hr.h⟩
  · have e1 : Fl.le R.minX A.x = decide (r.minX ≤ a.x) := val_le hR.x hA.x
    have e2 : Fl.le R.minY A.y = decide (r.minY ≤ a.y) := val_le hR.y hA.y
    rw [FlRect.containsPoint, Rect.containsPointR, e1, val_le hA.x mx, e2, val_le hA.y my]
  · rw [FlRect.intersectsLine, Rect.intersectsLineR]
    revert hline
    cases R.intersectedLine tie A B <;> cases r.intersectedLineR roundF32 a b <;> intro h <;> first | rfl | cases h
  · rw [FlPoint.orthogonalDirection, Point.orthogonalDirection, val_lt hB.x hA.x, val_lt hA.x hB.x, val_lt hB.y hA.y]
    simp only [decide_eq_true_eq, gt_iff_lt]

end

theorem round_below {q B : Rat} (hB : IsF32 B) (h : |q| ≤ B) : |roundF32 q| ≤ B := by
  rw [abs_le] at h ⊢
  have h1 := roundF32_le h.1
  have h2 := roundF32_le h.2
  rw [roundF32_neg] at h1
  rw [roundF32_exact B hB] at h1 h2
  exact ⟨h1, h2⟩

/-- The sum of a number and the rounded way from it to a smaller one does not become too large. -/
theorem way_back {p q : Rat} (hp : IsF32 p) (hq : |q| ≤ 2 ^ 100) : |p + roundF32 (q - p)| < 2 ^ 128 - 2 ^ 103 := by
  have h100 : IsF32 (2 ^ 100) := ⟨1, 100, by norm_num, by norm_num, by norm_num, by norm_num⟩
  have hM : f32Max + 2 ^ 102 < 2 ^ 128 - 2 ^ 103 := by unfold f32Max; norm_num
  obtain ⟨p1, p2⟩ := abs_le.mp (isF32_abs hp)
  obtain ⟨q1, q2⟩ := abs_le.mp hq
  have hfit : |q - p| < 2 ^ 128 - 2 ^ 103 := by rw [abs_lt]; constructor <;> linarith
  obtain ⟨r1, r2⟩ := abs_le.mp (isF32_abs (roundF32_format hfit))
  rw [abs_lt]
  rcases le_total 0 p with h | h
  · have := roundF32_le (p := q - p) (q := 2 ^ 100) (by linarith)
    rw [roundF32_exact _ h100] at this
    constructor <;> linarith
  · have := roundF32_le (p := -2 ^ 100) (q := q - p) (by linarith)
    rw [roundF32_neg, roundF32_exact _ h100] at this
    constructor <;> linarith

/-- **C94, far ends.** The lines the router sends to `f32::MAX` and `f32::MIN` (layout.rs:570-618), and all others from a point to
any finite one: as long as the rectangle and the starting point are below 2^100, the result is that of the rounded model. -/
theorem C94_far_lines (tie : Fl → Fl → Bool) {R : FlRect} {r : Rect} (hR : RectVal R r) {A B : FlPoint} {a b : Point}
    (hA : PointVal A a) (hB : PointVal B b) (ha : |a.x| ≤ 2 ^ 100 ∧ |a.y| ≤ 2 ^ 100) (ho : |r.origin.x| ≤ 2 ^ 100 ∧ |r.origin.y| ≤ 2 ^ 100)
    (hs : |r.size.width| ≤ 2 ^ 100 ∧ |r.size.height| ≤ 2 ^ 100) :
    LineVal (R.intersectedLine tie A B) (r.intersectedLineR roundF32 a b) ∧
    R.intersectsLine tie A B = r.intersectsLineR roundF32 a b := by
  have hM : f32Max + 2 ^ 102 < 2 ^ 128 - 2 ^ 103 := by unfold f32Max; norm_num
  have hr : RectBelow r := ⟨ho.1.trans (by norm_num), ho.2.trans (by norm_num), hs.1.trans (by norm_num), hs.2.trans (by norm_num)⟩
  have mx := val_maxX hR hr
  have my := val_maxY hR hr
  have h101 : IsF32 (2 ^ 101) := ⟨1, 101, by norm_num, by norm_num, by norm_num, by norm_num⟩
  have bx : |r.maxXR roundF32| ≤ 2 ^ 101 := round_below h101 (by have := abs_add_le r.origin.x r.size.width; linarith)
  have by' : |r.maxYR roundF32| ≤ 2 ^ 101 := round_below h101 (by have := abs_add_le r.origin.y r.size.height; linarith)
  have diff : ∀ {p q : Rat}, IsF32 p → |q| ≤ 2 ^ 101 → |p - q| < 2 ^ 128 - 2 ^ 103 := by
    intro p q hp hq
    have h1 := isF32_abs hp
    have h2 := abs_sub p q
    linarith
  have diff' : ∀ {p q : Rat}, |p| ≤ 2 ^ 101 → IsF32 q → |p - q| < 2 ^ 128 - 2 ^ 103 := by
    intro p q hp hq
    rw [abs_sub_comm]
    exact diff hq hp
  have w : ∀ {p : Rat}, |p| ≤ 2 ^ 100 → |p| ≤ 2 ^ 101 := fun h => h.trans (by norm_num)
  have out : ∀ {p q : Rat}, |p| ≤ 2 ^ 100 → IsF32 q → |p + roundF32 (q - p)| < 2 ^ 128 - 2 ^ 103 := by
    intro p q hp hq
    have h1 := isF32_abs (roundF32_format (diff hq (w hp)))
    have h2 := abs_add_le p (roundF32 (q - p))
    linarith
  have hline : LineVal (R.intersectedLine tie A B) (r.intersectedLineR roundF32 a b) := by
    rw [intersectedLine_flClip, intersectedLineR_ratClip, val_lt hB.x hA.x]
    simp only [decide_eq_true_eq]
    split
    · exact clip_val tie hR.x mx hR.y my hB.x hB.y (val_sub hA.x hB.x (diff' (w ha.1) hB.x.format))
        (val_sub hA.y hB.y (diff' (w ha.2) hB.y.format)) (way_back hB.x.format ha.1) (way_back hB.y.format ha.2)
        (diff hB.x.format (w ho.1)) (diff' bx hB.x.format) (diff hB.y.format (w ho.2)) (diff' by' hB.y.format)
    · exact clip_val tie hR.x mx hR.y my hA.x hA.y (val_sub hB.x hA.x (diff hB.x.format (w ha.1)))
        (val_sub hB.y hA.y (diff hB.y.format (w ha.2))) (out ha.1 hB.x.format) (out ha.2 hB.y.format)
        (diff hA.x.format (w ho.1)) (diff' bx hA.x.format) (diff hA.y.format (w ho.2)) (diff' by' hA.y.format)
  refine ⟨hline, ?_⟩
  rw [FlRect.intersectsLine, Rect.intersectsLineR]
  revert hline
  cases R.intersectedLine tie A B <;> cases r.intersectedLineR roundF32 a b <;> intro h <;> first | rfl | cases h

theorem isF32_least {q : Rat} (h : IsF32 q) (h0 : 0 < q) : 2 ^ (-149 : Int) ≤ q := by
  obtain ⟨m, e, -, h2, -, rfl⟩ := h
  have he := two_zpow_pos e
  have hm : (0 : Rat) < m := by
    by_contra hc
    have := mul_nonpos_of_nonpos_of_nonneg (not_lt.mp hc) he.le
    linarith
  have hm : (1 : Rat) ≤ m := by
    have : 0 < m := by exact_mod_cast hm
    exact_mod_cast this
  calc (2 : Rat) ^ (-149 : Int) ≤ 2 ^ e := zpow_le_zpow_right₀ (by norm_num) h2
    _ ≤ m * 2 ^ e := le_mul_of_one_le_left he.le hm

theorem val_sqrt {x : Fl} {q : Rat} (h : Val x q) (h0 : 0 ≤ q) : Val (Fl.sqrt x) (sqrtF32 q) := by
  rcases h.cases with ⟨s, rfl, rfl⟩ | ⟨rfl, hq⟩
  · simp [Fl.sqrt, Val, sqrtF32]
  · have hpos : 0 < q := lt_of_le_of_ne h0 (Ne.symm hq)
    obtain ⟨h1, h2, -⟩ := sqrtF32_nearest q hpos (isF32_least h.format hpos) (isF32_le_max h.format)
    rw [Fl.sqrt, if_neg (by linarith)]
    exact ⟨rfl, h2.ne', h1⟩

theorem val_toU32 {x : Fl} {q : Rat} (h : Val x q) : x.toU32 = min q.floor.toNat 4294967295 := by
  rcases h.cases with ⟨s, rfl, rfl⟩ | ⟨rfl, hq⟩
  · rw [show (0 : Rat).floor = 0 from Rat.floor_intCast 0]; rfl
  · rfl

/-- **C94, distances.** The cost of a way between two points (layout.rs:840-841) is that of the rounded model, as long as the
coordinates are not above 2^62; above 2^64 the squares of the differences can be infinite. -/
theorem C94_distance {A B : FlPoint} {a b : Point} (hA : PointVal A a) (hB : PointVal B b)
    (ha : |a.x| ≤ 2 ^ 62 ∧ |a.y| ≤ 2 ^ 62) (hb : |b.x| ≤ 2 ^ 62 ∧ |b.y| ≤ 2 ^ 62) :
    (A.distance B).toU32 = a.distanceU32R roundF32 sqrtF32 b := by
  have f63 : IsF32 (2 ^ 63) := ⟨1, 63, by norm_num, by norm_num, by norm_num, by norm_num⟩
  have f126 : IsF32 (2 ^ 126) := ⟨2 ^ 22, 104, by norm_num, by norm_num, by norm_num, by norm_num⟩
  have part : ∀ {X Y : Fl} {p q : Rat}, Val X p → Val Y q → |p| ≤ 2 ^ 62 → |q| ≤ 2 ^ 62 →
      Val (Fl.mul (Fl.sub X Y) (Fl.sub X Y)) (roundF32 (roundF32 (p - q) * roundF32 (p - q))) ∧
      |roundF32 (roundF32 (p - q) * roundF32 (p - q))| ≤ 2 ^ 126 ∧ 0 ≤ roundF32 (roundF32 (p - q) * roundF32 (p - q)) := by
    intro X Y p q hX hY hp hq
    have h1 : |p - q| ≤ 2 ^ 63 := by have := abs_sub p q; linarith
    have h2 := round_below f63 h1
    have v := val_sub hX hY (h1.trans_lt (by norm_num))
    generalize roundF32 (p - q) = d at h2 v ⊢
    have h3 : |d * d| ≤ 2 ^ 126 := by
      rw [abs_mul]
      have := mul_le_mul h2 h2 (abs_nonneg d) (by norm_num)
      norm_num at this ⊢
      exact this
    refine ⟨val_mul v v (h3.trans_lt (by norm_num)), ?_, roundF32_nonneg (mul_self_nonneg d)⟩
    exact round_below f126 h3
  obtain ⟨v1, b1, n1⟩ := part hA.x hB.x ha.1 hb.1
  obtain ⟨v2, b2, n2⟩ := part hA.y hB.y ha.2 hb.2
  exact val_toU32 (val_sqrt (val_add v1 v2 (add_fits b1 (le_127 b2))) (roundF32_nonneg (by linarith)))

/-! ## What the special values do -/

/-- Neither `NaN` nor negative. -/
def Spec.AtLeastZero (x : Fl) : Prop := Fl.le Fl.zero0 x = true

theorem le_zero_max (tie : Fl → Fl → Bool) (x : Fl) : AtLeastZero (Fl.max tie x Fl.zero0) := by
  unfold AtLeastZero Fl.max
  by_cases hn : x = .nan
  · rw [if_pos hn]; decide
  rw [if_neg hn, if_neg (by decide)]
  by_cases h1 : Fl.lt x Fl.zero0 = true
  · rw [if_pos h1]; decide
  rw [if_neg h1]
  have hx : Fl.le Fl.zero0 x = true := by
    cases x with
    | nan => exact absurd rfl hn
    | inf s => cases s <;> simp_all [Fl.lt, Fl.le, Fl.zero0]
    | zero s => rfl
    | fin q =>
      have h1 : ¬ q < 0 := fun h => h1 (decide_eq_true h)
      show (decide (0 < q) || decide (0 = q)) = true
      rw [← Bool.decide_or]
      exact decide_eq_true (lt_or_eq_of_le (not_lt.mp h1))
  by_cases h2 : Fl.lt Fl.zero0 x = true
  · rw [if_pos h2]; exact hx
  rw [if_neg h2]
  split
  · exact hx
  · decide

/-- **C94, sizes.** Whatever the values are, `NaN` and infinities included: an inset rectangle has no negative size and none that is
`NaN`, as the comment of `inset_by` says. -/
theorem C94_inset_size (tie : Fl → Fl → Bool) (R : FlRect) (dx dy : Fl) :
    AtLeastZero (R.insetBy tie dx dy).size.width ∧ AtLeastZero (R.insetBy tie dx dy).size.height :=
  ⟨le_zero_max tie _, le_zero_max tie _⟩

theorem add_nan (x : Fl) : Fl.add .nan x = .nan ∧ Fl.add x .nan = .nan := by cases x <;> exact ⟨rfl, rfl⟩
theorem lt_nan (x : Fl) : Fl.lt .nan x = false ∧ Fl.lt x .nan = false := by cases x <;> exact ⟨rfl, rfl⟩
theorem eq_nan (x : Fl) : Fl.eq .nan x = false ∧ Fl.eq x .nan = false := by cases x <;> exact ⟨rfl, rfl⟩
theorem div_nan (x : Fl) : Fl.div x .nan = .nan := by cases x <;> rfl

/-- **C94, `NaN`.** A line that starts where both coordinates are `NaN` is said to meet every rectangle, and the places where it
does are `NaN`. -/
theorem C94_nan_line (tie : Fl → Fl → Bool) (R : FlRect) (B : FlPoint) :
    R.intersectsLine tie ⟨.nan, .nan⟩ B = true ∧ R.containsPoint ⟨.nan, .nan⟩ = false ∧
    R.intersectedLine tie ⟨.nan, .nan⟩ B = some (⟨.nan, .nan⟩, ⟨.nan, .nan⟩) := by
  have h : R.intersectedLine tie ⟨.nan, .nan⟩ B = some (⟨.nan, .nan⟩, ⟨.nan, .nan⟩) := by
    rw [intersectedLine_flClip]
    simp only [(lt_nan _).2, Bool.false_eq_true, if_false]
    have s1 : ∀ x, Fl.sub x .nan = .nan := fun x => (add_nan x).2
    have s2 : ∀ x, Fl.sub .nan x = .nan := fun x => (add_nan _).1
    unfold flClip
    simp only [s1, s2, (lt_nan _).2, (lt_nan _).1, (eq_nan _).1, Fl.neg, div_nan, (add_nan _).1, Bool.and_false, Bool.or_false,
      Bool.false_eq_true, if_false, Bool.not_false, if_true]
    have z : Fl.max tie Fl.zero0 .nan = Fl.zero0 := by simp [Fl.max, Fl.zero0]
    have z2 : Fl.max tie Fl.zero0 Fl.zero0 = Fl.zero0 := by simp only [Fl.max, ite_self]
    have z3 : Fl.max tie .nan Fl.zero0 = Fl.zero0 := by simp [Fl.max]
    have o : Fl.min tie Fl.one .nan = Fl.one := by simp [Fl.min, Fl.one]
    have o2 : Fl.min tie Fl.one Fl.one = Fl.one := by simp only [Fl.min, ite_self]
    have o3 : Fl.min tie .nan Fl.one = Fl.one := by simp [Fl.min]
    simp only [List.cons_append, List.nil_append, List.foldl_cons, List.foldl_nil, z, z2, z3, o, o2, o3]
    rfl
  refine ⟨?_, ?_, h⟩
  · rw [FlRect.intersectsLine, h]; rfl
  · simp [FlRect.containsPoint, Fl.le, (lt_nan _).2, (eq_nan _).2]

/-- The place of a value on the line of numbers with both ends added; `NaN` has none, both zeros have the same. -/
def Spec.onLine : Fl → Option (WithBot (WithTop Rat))
  | .nan => none
  | .inf true => some ⊥
  | .inf false => some ((⊤ : WithTop Rat) : WithBot (WithTop Rat))
  | .zero _ => some (((0 : Rat) : WithTop Rat) : WithBot (WithTop Rat))
  | .fin q => some ((q : WithTop Rat) : WithBot (WithTop Rat))

/-- **C94, comparisons**: of all values, as the order of the line of numbers with both ends; `NaN` is neither below, nor above, nor
equal to anything. -/
theorem C94_order (x y : Fl) :
    (Fl.lt x y = true ↔ ∃ a b, onLine x = some a ∧ onLine y = some b ∧ a < b) ∧
    (Fl.eq x y = true ↔ ∃ a, onLine x = some a ∧ onLine y = some a) ∧
    (Fl.le x y = true ↔ ∃ a b, onLine x = some a ∧ onLine y = some b ∧ a ≤ b) := by
  have h1 : Fl.lt x y = true ↔ ∃ a b, onLine x = some a ∧ onLine y = some b ∧ a < b := by
    rcases x with _ | (_ | _) | s | p <;> rcases y with _ | (_ | _) | t | q <;> simp [Fl.lt, onLine]
    all_goals first | exact WithBot.coe_lt_coe.mpr (WithTop.coe_lt_top _) | exact le_refl (0 : Rat) | exact Iff.rfl
  have h2 : Fl.eq x y = true ↔ ∃ a, onLine x = some a ∧ onLine y = some a := by
    rcases x with _ | (_ | _) | s | p <;> rcases y with _ | (_ | _) | t | q <;> simp [Fl.eq, onLine]
    all_goals first | exact rfl | exact Iff.rfl | exact eq_comm | exact fun h => WithTop.zero_ne_top (WithBot.coe_injective h) | exact fun h => WithTop.zero_ne_top (WithBot.coe_injective h.symm)
  refine ⟨h1, h2, ?_⟩
  rw [Fl.le, Bool.or_eq_true, h1, h2]
  constructor
  · rintro (⟨a, b, ha, hb, h⟩ | ⟨a, ha, hb⟩)
    · exact ⟨a, b, ha, hb, h.le⟩
    · exact ⟨a, a, ha, hb, le_refl a⟩
  · rintro ⟨a, b, ha, hb, h⟩
    rcases lt_or_eq_of_le h with h | rfl
    · exact Or.inl ⟨a, b, ha, hb, h⟩
    · exact Or.inr ⟨a, ha, hb⟩

theorem ofRat_ne_nan (s : Bool) (q : Rat) : Fl.ofRat s q ≠ .nan := by
  unfold Fl.ofRat
  split
  · simp
  · split
    · simp
    · split <;> simp

/-- **C94, where `NaN` comes from**: an operand that is `NaN`, infinities that cancel, zero times infinity, zero by zero, infinity by
infinity, the root of a negative number; `max` and `min` never make one. -/
theorem C94_nan (tie : Fl → Fl → Bool) (x y : Fl) :
    (Fl.add x y = .nan ↔ x = .nan ∨ y = .nan ∨ ∃ s, x = .inf s ∧ y = .inf !s) ∧
    (Fl.sub x y = .nan ↔ x = .nan ∨ y = .nan ∨ ∃ s, x = .inf s ∧ y = .inf s) ∧
    (Fl.mul x y = .nan ↔ x = .nan ∨ y = .nan ∨ ∃ s t, (x = .inf s ∧ y = .zero t) ∨ (x = .zero s ∧ y = .inf t)) ∧
    (Fl.div x y = .nan ↔ x = .nan ∨ y = .nan ∨ ∃ s t, (x = .inf s ∧ y = .inf t) ∨ (x = .zero s ∧ y = .zero t)) ∧
    (Fl.sqrt x = .nan ↔ x = .nan ∨ Fl.lt x Fl.zero0 = true) ∧
    (Fl.max tie x y = .nan ↔ x = .nan ∧ y = .nan) ∧ (Fl.min tie x y = .nan ↔ x = .nan ∧ y = .nan) := by
  refine ⟨?_, ?_, ?_, ?_, ?_, ?_, ?_⟩
  · rcases x with _ | (_ | _) | s | p <;> rcases y with _ | (_ | _) | t | q <;> simp [Fl.add, ofRat_ne_nan]
  · rcases x with _ | (_ | _) | s | p <;> rcases y with _ | (_ | _) | t | q <;> simp [Fl.sub, Fl.neg, Fl.add, ofRat_ne_nan]
  · rcases x with _ | s | s | p <;> rcases y with _ | t | t | q <;> simp [Fl.mul, ofRat_ne_nan]
  · rcases x with _ | s | s | p <;> rcases y with _ | t | t | q <;> simp [Fl.div, ofRat_ne_nan]
  · rcases x with _ | (_ | _) | s | p <;> simp [Fl.sqrt, Fl.lt, Fl.zero0]
    all_goals first | exact le_refl (0 : Rat) | exact Iff.rfl
  · unfold Fl.max
    by_cases hx : x = .nan
    · simp [hx]
    · by_cases hy : y = .nan
      · simp [hx, hy]
      · simp only [hx, hy, if_false, and_self, iff_false]
        split
        · exact hy
        · split
          · exact hx
          · split <;> assumption
  · unfold Fl.min
    by_cases hx : x = .nan
    · simp [hx]
    · by_cases hy : y = .nan
      · simp [hx, hy]
      · simp only [hx, hy, if_false, and_self, iff_false]
        split
        · exact hx
        · split
          · exact hy
          · split <;> assumption

theorem ofRat_inf (s t : Bool) (q : Rat) : Fl.ofRat s q = .inf t ↔ 2 ^ 128 - 2 ^ 103 ≤ |q| ∧ (t = true ↔ q < 0) := by
  unfold Fl.ofRat
  split
  · rename_i h
    constructor
    · intro h'; cases h'
    · rintro ⟨h1, -⟩; rw [h] at h1; norm_num at h1
  · split
    · rename_i h
      simp only [Fl.inf.injEq, h, true_and]
      cases t <;> simp
    · rename_i h
      split <;> simp [h]

/-- **C94, overflow**: a sum, difference, product or quotient of finite values is infinite exactly if it is too large, and then has
the sign of the exact result; a number other than zero divided by a zero is infinite, with the sign of both. -/
theorem C94_overflow {x y : Fl} {p q : Rat} (hx : Val x p) (hy : Val y q) (s : Bool) :
    (Fl.add x y = .inf s ↔ 2 ^ 128 - 2 ^ 103 ≤ |p + q| ∧ (s = true ↔ p + q < 0)) ∧
    (Fl.sub x y = .inf s ↔ 2 ^ 128 - 2 ^ 103 ≤ |p - q| ∧ (s = true ↔ p - q < 0)) ∧
    (Fl.mul x y = .inf s ↔ 2 ^ 128 - 2 ^ 103 ≤ |p * q| ∧ (s = true ↔ p * q < 0)) ∧
    (q ≠ 0 → (Fl.div x y = .inf s ↔ 2 ^ 128 - 2 ^ 103 ≤ |p / q| ∧ (s = true ↔ p / q < 0))) ∧
    (p ≠ 0 → q = 0 → Fl.div x y = .inf (x.sign ^^ y.sign)) := by
  have add : ∀ {x y : Fl} {p q : Rat}, Val x p → Val y q → (Fl.add x y = .inf s ↔ 2 ^ 128 - 2 ^ 103 ≤ |p + q| ∧ (s = true ↔ p + q < 0)) := by
    intro x y p q hx hy
    rcases hx.cases with ⟨a, rfl, rfl⟩ | ⟨rfl, h0⟩ <;> rcases hy.cases with ⟨b, rfl, rfl⟩ | ⟨rfl, h1⟩
    · constructor
      · intro h; cases h
      · rintro ⟨h, -⟩; norm_num at h
    · exact ofRat_inf _ _ _
    · exact ofRat_inf _ _ _
    · exact ofRat_inf _ _ _
  refine ⟨add hx hy, ?_, ?_, ?_, ?_⟩
  · rw [sub_eq_add_neg p q]
    exact add hx (val_neg hy)
  · rcases hx.cases with ⟨a, rfl, rfl⟩ | ⟨rfl, h0⟩ <;> rcases hy.cases with ⟨b, rfl, rfl⟩ | ⟨rfl, h1⟩ <;> exact ofRat_inf _ _ _
  · intro hq
    rcases hx.cases with ⟨a, rfl, rfl⟩ | ⟨rfl, h0⟩ <;> rcases hy.cases with ⟨b, rfl, rfl⟩ | ⟨rfl, h1⟩
    · exact absurd rfl hq
    · exact ofRat_inf _ _ _
    · exact absurd rfl hq
    · exact ofRat_inf _ _ _
  · intro hp hq
    rcases hx.cases with ⟨a, rfl, rfl⟩ | ⟨rfl, h0⟩ <;> rcases hy.cases with ⟨b, rfl, rfl⟩ | ⟨rfl, h1⟩
    · exact absurd rfl hp
    · exact absurd hq h1
    · rfl
    · exact absurd hq h1

/-- **C94, infinite operands** and conversion to `u32`: infinity stays infinite, with the sign of both factors; a finite number
divided by it is zero; the conversion takes the infinities to the bounds of the range and `NaN` to 0. -/
theorem C94_infinite (s : Bool) (y : Fl) :
    (y ≠ .nan → y ≠ .inf (!s) → Fl.add (.inf s) y = .inf s ∧ Fl.add y (.inf s) = .inf s) ∧
    (y ≠ .nan → (∀ t, y ≠ .zero t) → Fl.mul (.inf s) y = .inf (s ^^ y.sign) ∧ Fl.mul y (.inf s) = .inf (y.sign ^^ s)) ∧
    (y ≠ .nan → (∀ t, y ≠ .inf t) → Fl.div (.inf s) y = .inf (s ^^ y.sign) ∧ Fl.div y (.inf s) = .zero (y.sign ^^ s)) ∧
    Fl.sqrt (.inf false) = .inf false ∧
    Fl.toU32 (.inf false) = 2 ^ 32 - 1 ∧ Fl.toU32 (.inf true) = 0 ∧ Fl.toU32 .nan = 0 := by
  refine ⟨?_, ?_, ?_, rfl, rfl, rfl, rfl⟩
  · intro h1 h2
    rcases y with _ | t | t | q
    · exact absurd rfl h1
    · cases s <;> cases t <;> first | exact absurd rfl h2 | exact ⟨rfl, rfl⟩
    · exact ⟨rfl, rfl⟩
    · exact ⟨rfl, rfl⟩
  · intro h1 h2
    rcases y with _ | t | t | q
    · exact absurd rfl h1
    · exact ⟨rfl, rfl⟩
    · exact absurd rfl (h2 t)
    · exact ⟨rfl, rfl⟩
  · intro h1 h2
    rcases y with _ | t | t | q
    · exact absurd rfl h1
    · exact absurd rfl (h2 t)
    · exact ⟨rfl, rfl⟩
    · exact ⟨rfl, rfl⟩

theorem sign_ofRat (s : Bool) (q : Rat) : (Fl.ofRat s q).sign = if q = 0 then s else decide (q < 0) := by
  unfold Fl.ofRat
  split
  · rfl
  · split
    · rfl
    · split
      · rfl
      · rename_i h0 h1 h2
        show decide (roundF32 q < 0) = decide (q < 0)
        rcases lt_or_gt_of_ne h0 with h | h
        · have := roundF32_le h.le
          rw [roundF32_zero] at this
          rw [decide_eq_true h, decide_eq_true (lt_of_le_of_ne this h2)]
        · have := roundF32_nonneg h.le
          rw [decide_eq_false (by linarith), decide_eq_false (by linarith)]

theorem sign_mul_rat {p q : Rat} (hp : p ≠ 0) (hq : q ≠ 0) : decide (p * q < 0) = (decide (p < 0) ^^ decide (q < 0)) := by
  rcases lt_or_gt_of_ne hp with h | h <;> rcases lt_or_gt_of_ne hq with h' | h'
  · simp [h, h', (mul_pos_of_neg_of_neg h h').le]
  · simp [h, h'.le, mul_neg_of_neg_of_pos h h']
  · simp [h.le, h', mul_neg_of_pos_of_neg h h']
  · rw [decide_eq_false (not_lt.2 (mul_pos h h').le), decide_eq_false (not_lt.2 h.le), decide_eq_false (not_lt.2 h'.le)]; rfl

/-- **C94, signs**: those of zeros included. -/
theorem C94_signs {x y : Fl} {p q : Rat} (hx : Val x p) (hy : Val y q) :
    (Fl.neg x).sign = !x.sign ∧
    (p ≠ 0 → (x.sign = true ↔ p < 0)) ∧
    (Fl.mul x y).sign = (x.sign ^^ y.sign) ∧
    (q ≠ 0 → (Fl.div x y).sign = (x.sign ^^ y.sign)) ∧
    (p + q = 0 → Fl.add x y = .zero (p = 0 ∧ x.sign = true ∧ y.sign = true)) ∧
    (p + q ≠ 0 → ((Fl.add x y).sign = true ↔ p + q < 0)) := by
  refine ⟨?_, ?_, ?_, ?_, ?_, ?_⟩
  · rcases hx.cases with ⟨a, rfl, rfl⟩ | ⟨rfl, h0⟩
    · rfl
    · show decide (-p < 0) = !decide (p < 0)
      rcases lt_or_gt_of_ne h0 with h | h
      · rw [decide_eq_true h, decide_eq_false (by linarith)]; rfl
      · rw [decide_eq_false (p := p < 0) (by linarith), decide_eq_true (by linarith)]; rfl
  · intro h
    rcases hx.cases with ⟨a, rfl, rfl⟩ | ⟨rfl, h0⟩
    · exact absurd rfl h
    · exact decide_eq_true_iff
  · rcases hx.cases with ⟨a, rfl, rfl⟩ | ⟨rfl, h0⟩ <;> rcases hy.cases with ⟨b, rfl, rfl⟩ | ⟨rfl, h1⟩ <;> refine (sign_ofRat _ _).trans ?_
    · rw [if_pos (by simp [Fl.toRat])]
    · rw [if_pos (by simp [Fl.toRat])]
    · rw [if_pos (by simp [Fl.toRat])]
    · exact (if_neg (mul_ne_zero h0 h1)).trans (sign_mul_rat h0 h1)
  · intro hq
    rcases hx.cases with ⟨a, rfl, rfl⟩ | ⟨rfl, h0⟩ <;> rcases hy.cases with ⟨b, rfl, rfl⟩ | ⟨rfl, h1⟩
    · exact absurd rfl hq
    · refine (sign_ofRat _ _).trans ?_
      rw [if_pos (by simp [Fl.toRat])]
    · exact absurd rfl hq
    · refine (sign_ofRat _ _).trans ?_
      refine (if_neg (div_ne_zero h0 h1)).trans ?_
      show decide (p / q < 0) = _
      rw [div_eq_mul_inv, sign_mul_rat h0 (inv_ne_zero h1)]
      simp [Fl.sign]
  · intro h
    rcases hx.cases with ⟨a, rfl, rfl⟩ | ⟨rfl, h0⟩ <;> rcases hy.cases with ⟨b, rfl, rfl⟩ | ⟨rfl, h1⟩
    · cases a <;> cases b <;> simp [Fl.add, Fl.sign]
    · exact absurd (by simpa using h) h1
    · exact absurd (by simpa using h) h0
    · show Fl.ofRat false (p + q) = _
      simp [h, Fl.ofRat, h0]
  · intro h
    rcases hx.cases with ⟨a, rfl, rfl⟩ | ⟨rfl, h0⟩ <;> rcases hy.cases with ⟨b, rfl, rfl⟩ | ⟨rfl, h1⟩
    · exact absurd (by simp) h
    · have e : (Fl.add (.zero a) (.fin q)).sign = decide (0 + q < 0) := (sign_ofRat _ _).trans (if_neg h)
      rw [e]; exact decide_eq_true_iff
    · have e : (Fl.add (.fin p) (.zero b)).sign = decide (p + 0 < 0) := (sign_ofRat _ _).trans (if_neg h)
      rw [e]; exact decide_eq_true_iff
    · have e : (Fl.add (.fin p) (.fin q)).sign = decide (p + q < 0) := (sign_ofRat _ _).trans (if_neg h)
      rw [e]; exact decide_eq_true_iff

/-- The unit test of geometry.rs:432-433, which needs an infinity: `f32::MAX * 2.0` is one, and the size becomes zero. -/
example (tie : Fl → Fl → Bool) : (FlRect.mk ⟨.MIN, .MIN⟩ ⟨.one, .one⟩).insetBy tie .MAX .MAX = ⟨⟨.zero false, .zero false⟩, ⟨.zero false, .zero false⟩⟩ := by
  have e : Fl.mul .MAX .two = .inf false := by decide +kernel
  have e2 : Fl.sub .one (.inf false) = .inf true := rfl
  have e3 : Fl.max tie (.inf true) Fl.zero0 = .zero false := by simp [Fl.max, Fl.lt, Fl.zero0]
  have e4 : Fl.add .MIN .MAX = .zero false := by decide +kernel
  rw [FlRect.insetBy]
  simp only [e, e2, e3, e4]

/-- Values meeting the hypotheses of `C94_geometry` and `C94_far_lines`, with a negative zero and a quotient that is infinite: the
line from (-0.0, 2^-149) to (2^-149, 100), met by the unit square, which it enters at the place (-0.0, 2^-149) and leaves at (0, 1). -/
example : PointVal ⟨.zero true, .fin (1 / 2 ^ 149)⟩ ⟨0, 1 / 2 ^ 149⟩ ∧ PointVal ⟨.fin (1 / 2 ^ 149), .fin 100⟩ ⟨1 / 2 ^ 149, 100⟩ ∧
    RectVal ⟨⟨.zero false, .zero true⟩, ⟨.one, .one⟩⟩ ⟨⟨0, 0⟩, ⟨1, 1⟩⟩ ∧
    Fl.div (Fl.sub .one (.zero true)) (.fin (1 / 2 ^ 149)) = .inf false ∧
    (FlRect.mk ⟨.zero false, .zero true⟩ ⟨.one, .one⟩).intersectedLine (fun _ _ => true) ⟨.zero true, .fin (1 / 2 ^ 149)⟩ ⟨.fin (1 / 2 ^ 149), .fin 100⟩ =
      some (⟨.zero true, .fin (1 / 2 ^ 149)⟩, ⟨.zero false, .fin 1⟩) := by
  have h1 : IsF32 (1 / 2 ^ 149) := ⟨1, -149, by norm_num, by norm_num, by norm_num, by norm_num⟩
  have h2 : IsF32 100 := ⟨100, 0, by norm_num, by norm_num, by norm_num, by norm_num⟩
  exact ⟨⟨rfl, rfl, by norm_num, h1⟩, ⟨⟨rfl, by norm_num, h1⟩, rfl, by norm_num, h2⟩, ⟨rfl, rfl, val_one, val_one⟩, by decide +kernel, by decide +kernel⟩

/-! ## The numbers of a picture -/

/-- **C94, the picture.** In the picture of a module with a table, at most 2^22 high, the only zeros are the two of the origin of the
view box, which are literals of the code; every other number is positive.  So no zero with a sign can be printed. -/
theorem C94_positive {q : Queue} {QI : List Entry → Prop} (hq : q.Lawful QI) (m : Module) (hne : definitions m.entries ≠ [])
    (hh : picHeight (lineNumbers (definitions m.entries)) ≤ 2 ^ 22) (el : Element) (h : drawModule q m = .ok el) :
    ∃ height children, el = .mk c!"svg" [(c!"viewBox", .nums [0, 0, 1160, height])] children none ∧ 0 < height ∧
      AllNumsList (fun x => 0 < x) children := by
  obtain ⟨height, children, e, h1, h2⟩ := good_drawing hq m hne hh el h
  exact ⟨height, children, e, h1.1, allNumsList_mono (fun _ h => h.1) _ h2⟩

end Seiren
