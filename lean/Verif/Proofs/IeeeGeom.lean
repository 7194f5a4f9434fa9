import Verif.Proofs.IeeeNum
/-! # Points and rectangles as values of `f32` -/

namespace Seiren
open Spec

/-- The point with coordinates as values of `f32`. -/
def Point.fl (p : Point) : FlPoint := ⟨ofNum p.x, ofNum p.y⟩
/-- The size with numbers as values of `f32`. -/
def Size.fl (s : Size) : FlSize := ⟨ofNum s.width, ofNum s.height⟩
/-- The rectangle with numbers as values of `f32`. -/
def Rect.fl (r : Rect) : FlRect := ⟨r.origin.fl, r.size.fl⟩

structure PointNum (k : Nat) (p : Point) : Prop where
  x : Num k p.x
  y : Num k p.y

structure SizeNum (k : Nat) (s : Size) : Prop where
  w : Num k s.width
  h : Num k s.height
  w0 : 0 ≤ s.width
  h0 : 0 ≤ s.height

structure RectNum (k : Nat) (r : Rect) : Prop where
  o : PointNum k r.origin
  s : SizeNum k r.size

theorem PointNum.mono {k l : Nat} {p : Point} (h : PointNum k p) (hkl : k ≤ l) : PointNum l p := ⟨h.x.mono hkl, h.y.mono hkl⟩

theorem PointNum.val {k : Nat} {p : Point} (h : PointNum k p) : PointVal p.fl p := ⟨val_ofNum h.x.fmt, val_ofNum h.y.fmt⟩

theorem RectNum.val {k : Nat} {r : Rect} (h : RectNum k r) : RectVal r.fl r :=
  ⟨val_ofNum h.o.x.fmt, val_ofNum h.o.y.fmt, val_ofNum h.s.w.fmt, val_ofNum h.s.h.fmt⟩

theorem ofNum_two : Fl.two = ofNum 2 := (ofNum_ne_zero (by norm_num)).symm
theorem ofNum_one : Fl.one = ofNum 1 := (ofNum_ne_zero (by norm_num)).symm
theorem ofNum_MAX : Fl.MAX = ofNum f32Max := (ofNum_ne_zero (by unfold f32Max; norm_num)).symm
theorem ofNum_MIN : Fl.MIN = ofNum f32Min := (ofNum_ne_zero (by unfold f32Min; norm_num)).symm

theorem num_half {k : Nat} (hk : k ≤ 104) {q : Rat} (h : Num k q) : Num k (roundF32 (q / 2)) := by
  refine num_round hk ?_
  rw [abs_div, abs_two]
  have := abs_nonneg q
  linarith [h.le]

theorem fl_half {k : Nat} (hk : k ≤ 104) {q : Rat} (h : Num k q) (h0 : 0 ≤ q) : Fl.div (ofNum q) Fl.two = ofNum (roundF32 (q / 2)) := by
  rw [ofNum_two]
  refine fl_div h.fmt val_two.format h0 (by norm_num) (below_of_le (k := k) (by omega) ?_)
  rw [abs_div, abs_two]
  have := abs_nonneg q
  linarith [h.le]

theorem fl_add' {k : Nat} (hk : k + 1 ≤ 104) {p q : Rat} (hp : Num k p) (hq : Num k q) :
    Fl.add (ofNum p) (ofNum q) = ofNum (roundF32 (p + q)) :=
  fl_add hp.fmt hq.fmt (below_of_le (k := k + 1) (by omega) (abs_add_two hp.le hq.le))

theorem fl_sub' {k : Nat} (hk : k + 1 ≤ 104) {p q : Rat} (hp : Num k p) (hq : Num k q) :
    Fl.sub (ofNum p) (ofNum q) = ofNum (roundF32 (p - q)) :=
  fl_sub hp.fmt hq.fmt (below_of_le (k := k + 1) (by omega) (abs_sub_two hp.le hq.le))

section
variable {k : Nat} (hk : k + 1 ≤ 100) {r : Rect} (hr : RectNum k r)
include hk hr

theorem fl_maxX : r.fl.maxX = ofNum (r.maxXR roundF32) ∧ Num (k + 1) (r.maxXR roundF32) :=
  ⟨fl_add' (by omega) hr.o.x hr.s.w, num_add (by omega) hr.o.x hr.s.w⟩

theorem fl_maxY : r.fl.maxY = ofNum (r.maxYR roundF32) ∧ Num (k + 1) (r.maxYR roundF32) :=
  ⟨fl_add' (by omega) hr.o.y hr.s.h, num_add (by omega) hr.o.y hr.s.h⟩

theorem fl_midX : r.fl.midX = ofNum (r.midXR roundF32) ∧ Num (k + 1) (r.midXR roundF32) := by
  have h := num_half (by omega) hr.s.w
  refine ⟨?_, num_add (by omega) hr.o.x h⟩
  rw [FlRect.midX, show r.fl.size.width = ofNum r.size.width from rfl, fl_half (by omega) hr.s.w hr.s.w0]
  exact fl_add' (by omega) hr.o.x h

theorem fl_midY : r.fl.midY = ofNum (r.midYR roundF32) ∧ Num (k + 1) (r.midYR roundF32) := by
  have h := num_half (by omega) hr.s.h
  refine ⟨?_, num_add (by omega) hr.o.y h⟩
  rw [FlRect.midY, show r.fl.size.height = ofNum r.size.height from rfl, fl_half (by omega) hr.s.h hr.s.h0]
  exact fl_add' (by omega) hr.o.y h

theorem fl_inset (tie : Fl → Fl → Bool) {a : Rat} {A : Fl} (hA : A = ofNum a) (ha : Num k a) (hm : Fl.mul A Fl.two = ofNum (roundF32 (a * 2)))
    (ha2 : Num k (roundF32 (a * 2))) :
    r.fl.insetBy tie A A = (r.insetByR roundF32 a a).fl ∧ RectNum (k + 1) (r.insetByR roundF32 a a) := by
  have hk' : k + 1 ≤ 104 := by omega
  have s1 := num_sub hk' hr.s.w ha2
  have s2 := num_sub hk' hr.s.h ha2
  have z : Fl.zero0 = ofNum 0 := rfl
  have nmax : ∀ {x : Rat}, Num (k + 1) x → Num (k + 1) (max x 0) := by
    intro x hx
    rcases max_choice x 0 with e | e <;> rw [e]
    · exact hx
    · exact num_zero _
  constructor
  · rw [FlRect.insetBy, hm, hA]
    simp only [Rect.fl, Point.fl, Size.fl, Rect.insetByR]
    rw [fl_add' hk' hr.o.x ha, fl_add' hk' hr.o.y ha, fl_sub' hk' hr.s.w ha2, fl_sub' hk' hr.s.h ha2, z, fl_max s1.fmt isF32_zero, fl_max s2.fmt isF32_zero]
  · exact ⟨⟨num_add hk' hr.o.x ha, num_add hk' hr.o.y ha⟩, ⟨nmax s1, nmax s2, le_max_right _ _, le_max_right _ _⟩⟩

theorem fl_contains {l : Nat} {p : Point} (hp : PointNum l p) : r.fl.containsPoint p.fl = r.containsPointR roundF32 p := by
  obtain ⟨e1, n1⟩ := fl_maxX hk hr
  obtain ⟨e2, n2⟩ := fl_maxY hk hr
  unfold FlRect.containsPoint Rect.containsPointR
  rw [e1, e2]
  rw [show r.fl.minX = ofNum r.minX from rfl, show r.fl.minY = ofNum r.minY from rfl, show p.fl.x = ofNum p.x from rfl,
    show p.fl.y = ofNum p.y from rfl, fl_le (p := r.minX) hr.o.x.fmt hp.x.fmt, fl_le hp.x.fmt n1.fmt, fl_le (p := r.minY) hr.o.y.fmt hp.y.fmt, fl_le hp.y.fmt n2.fmt]

theorem fl_intersects (tie : Fl → Fl → Bool) {l : Nat} (hl : l ≤ 100) {a b : Point} (ha : PointNum l a) (hb : IsF32 b.x ∧ IsF32 b.y) :
    r.fl.intersectsLine tie a.fl b.fl = r.intersectsLineR roundF32 a b := by
  have p100 : ∀ {j : Nat} {q : Rat}, j ≤ 100 → |q| ≤ 2 ^ j → |q| ≤ 2 ^ 100 := fun h h' => h'.trans (pow_le_pow_right₀ (by norm_num) h)
  exact (C94_far_lines tie hr.val ha.val ⟨val_ofNum hb.1, val_ofNum hb.2⟩ ⟨p100 hl ha.x.le, p100 hl ha.y.le⟩
    ⟨p100 (by omega) hr.o.x.le, p100 (by omega) hr.o.y.le⟩ ⟨p100 (by omega) hr.s.w.le, p100 (by omega) hr.s.h.le⟩).2

end

theorem fl_direction {k l : Nat} {a b : Point} (ha : PointNum k a) (hb : PointNum l b) :
    a.fl.orthogonalDirection b.fl = a.orthogonalDirection b := by
  unfold FlPoint.orthogonalDirection Point.orthogonalDirection
  simp only [Point.fl, fl_lt hb.x.fmt ha.x.fmt, fl_lt ha.x.fmt hb.x.fmt, fl_lt hb.y.fmt ha.y.fmt, decide_eq_true_eq, gt_iff_lt]

theorem fl_distance {k l : Nat} (hk : k ≤ 62) (hl : l ≤ 62) {a b : Point} (ha : PointNum k a) (hb : PointNum l b) :
    (a.fl.distance b.fl).toU32 = a.distanceU32R roundF32 sqrtF32 b := by
  have p62 : ∀ {j : Nat} {q : Rat}, j ≤ 62 → |q| ≤ 2 ^ j → |q| ≤ 2 ^ 62 := fun h h' => h'.trans (pow_le_pow_right₀ (by norm_num) h)
  exact C94_distance ha.val hb.val ⟨p62 hk ha.x.le, p62 hk ha.y.le⟩ ⟨p62 hl hb.x.le, p62 hl hb.y.le⟩

theorem fl_beq {k l : Nat} {a b : Point} (ha : PointNum k a) (hb : PointNum l b) : a.fl.beq b.fl = decide (a = b) := by
  unfold FlPoint.beq
  simp only [Point.fl, fl_eq ha.x.fmt hb.x.fmt, fl_eq ha.y.fmt hb.y.fmt]
  obtain ⟨x, y⟩ := a
  obtain ⟨x', y'⟩ := b
  simp only [Point.mk.injEq, Bool.decide_and]

end Seiren
