import Verif.Model.Renderer
import Verif.Props.Geometry
import Mathlib.Tactic.Ring
/-! # C45, C46: the `d` attribute of an edge -/

namespace Seiren
open Spec

/-! ## Specification -/

/-- The direction in which one goes from `p` to `q`; a move that is not horizontal or vertical counts as horizontal, no
move at all as down. -/
def Spec.Heads : Orientation → Point → Point → Prop
  | .left, p, q => q.x < p.x
  | .right, p, q => p.x < q.x
  | .up, p, q => q.x = p.x ∧ q.y < p.y
  | .down, p, q => q.x = p.x ∧ p.y ≤ q.y

theorem heads_iff (p q : Point) (d : Orientation) : Heads d p q ↔ p.orthogonalDirection q = d := by
  unfold Point.orthogonalDirection
  constructor
  · intro h
    cases d <;> simp only [Heads] at h
    · rw [if_neg (by linarith), if_neg (by linarith), if_pos h.2]
    · rw [if_neg (by linarith), if_neg (by linarith), if_neg (by linarith)]
    · rw [if_pos h]
    · rw [if_neg (by linarith), if_pos h]
  · intro h
    split at h
    · subst h; assumption
    · split at h
      · subst h; assumption
      · split at h
        · subst h
          exact ⟨by linarith, by assumption⟩
        · subst h
          exact ⟨by linarith, by linarith⟩

theorem Spec.Towards.heads {d : Orientation} {p q : Point} (h : Towards d p q) : Heads d p q := by
  cases d <;> simp only [Towards, Heads] at h ⊢
  · exact h
  · exact ⟨h.1, le_of_lt h.2⟩
  · exact h.2
  · exact h.2

/-- Consecutive points number `k`, `k + 1`, `k + 2`, where the second move is opposite to the first. -/
def Spec.TurnsBack (ps : List Point) (k : Nat) : Prop :=
  ∃ a b c d, ps[k]? = some a ∧ ps[k + 1]? = some b ∧ ps[k + 2]? = some c ∧ Heads d a b ∧ Heads (opposite d) b c

/-- The point at distance `l` from `p` in direction `d`. -/
def Spec.step (d : Orientation) (p : Point) (l : Rat) : Point :=
  match d with
  | .up => ⟨p.x, p.y - l⟩
  | .down => ⟨p.x, p.y + l⟩
  | .left => ⟨p.x - l, p.y⟩
  | .right => ⟨p.x + l, p.y⟩

/-- How the inner point `b` between `a` and `c` is drawn: a line to it if the direction is kept, otherwise a line to the
point 6 before it and a curve, with `b` as control point, to the point 6 after it. -/
def Spec.Drawn (a b c : Point) (cs : List PathCommand) : Prop :=
  ∃ d d', Heads d a b ∧ Heads d' b c ∧ d' ≠ opposite d ∧
    (d = d' → cs = [.lineTo b]) ∧
    (d ≠ d' → cs = [.lineTo (step (opposite d) b 6), .quadTo b (step d' b 6)])

/-! ## One corner -/

theorem heads_unique {d d' : Orientation} {p q : Point} (h : Heads d p q) (h' : Heads d' p q) : d = d' := by
  rw [heads_iff] at h h'; rw [← h, ← h']

theorem corner_ok (i : Nat) (a b c : Point) (cs : List PathCommand) : corner i a b c = .ok cs ↔ Drawn a b c cs := by
  constructor
  · intro h
    refine ⟨a.orthogonalDirection b, b.orthogonalDirection c, (heads_iff _ _ _).mpr rfl, (heads_iff _ _ _).mpr rfl, ?_⟩
    unfold corner at h
    cases h1 : a.orthogonalDirection b <;> cases h2 : b.orthogonalDirection c <;> rw [h1, h2] at h <;>
      simp only [Except.ok.injEq, reduceCtorEq] at h <;>
      simp [opposite, step, ← h, pathRadius]
  · rintro ⟨d, d', h1, h2, hne, he, hn⟩
    rw [heads_iff] at h1 h2
    unfold corner
    rw [h1, h2]
    cases d <;> cases d' <;> simp only [opposite, ne_eq, not_true_eq_false] at hne <;>
      first
      | (rw [he rfl])
      | (rw [hn (by decide)]; simp [step, opposite, pathRadius])

theorem corner_error (i : Nat) (a b c : Point) (e : Panic) :
    corner i a b c = .error e ↔ e = .turnaround i ∧ ∃ d, Heads d a b ∧ Heads (opposite d) b c := by
  constructor
  · intro h
    unfold corner at h
    cases h1 : a.orthogonalDirection b <;> cases h2 : b.orthogonalDirection c <;> rw [h1, h2] at h <;>
      simp only [Except.error.injEq, reduceCtorEq] at h <;>
      exact ⟨h.symm, _, (heads_iff _ _ _).mpr h1, (heads_iff _ _ _).mpr h2⟩
  · rintro ⟨rfl, d, h1, h2⟩
    rw [heads_iff] at h1 h2
    unfold corner
    rw [h1, h2]
    cases d <;> rfl

/-! ## The tail of the path -/

theorem turnsBack_cons (a : Point) (ps : List Point) (k : Nat) : TurnsBack (a :: ps) (k + 1) ↔ TurnsBack ps k := by
  unfold TurnsBack; simp

theorem pathTail_error (ps : List Point) (i : Nat) (a : Point) (e : Panic) :
    pathTail i a ps = .error e ↔
      ∃ k, TurnsBack (a :: ps) k ∧ (∀ j < k, ¬ TurnsBack (a :: ps) j) ∧ e = .turnaround (i + k) := by
  induction ps generalizing i a with
  | nil =>
    simp only [pathTail, reduceCtorEq, false_iff]
    rintro ⟨k, ⟨x, y, z, d, -, h2, -⟩, -⟩
    simp at h2
  | cons b ps ih =>
    cases ps with
    | nil =>
      simp only [pathTail, reduceCtorEq, false_iff]
      rintro ⟨k, ⟨x, y, z, d, -, -, h2, -⟩, -⟩
      simp at h2
    | cons c ps =>
      have hzero : TurnsBack (a :: b :: c :: ps) 0 ↔ ∃ d, Heads d a b ∧ Heads (opposite d) b c := by
        constructor
        · rintro ⟨x, y, z, d, h1, h2, h3, h4, h5⟩
          simp at h1 h2 h3
          subst h1 h2 h3
          exact ⟨d, h4, h5⟩
        · rintro ⟨d, h4, h5⟩
          exact ⟨a, b, c, d, rfl, rfl, rfl, h4, h5⟩
      simp only [pathTail]
      cases hc : corner i a b c with
      | error e' =>
        obtain ⟨rfl, hd⟩ := (corner_error i a b c e').mp hc
        simp only [Except.error.injEq]
        constructor
        · rintro rfl
          exact ⟨0, hzero.mpr hd, by simp, by simp⟩
        · rintro ⟨k, -, h2, rfl⟩
          cases k with
          | zero => simp
          | succ k => exact absurd (hzero.mpr hd) (h2 0 (by omega))
      | ok cs =>
        have hno : ¬ TurnsBack (a :: b :: c :: ps) 0 := by
          intro h
          have := (corner_error i a b c (.turnaround i)).mpr ⟨rfl, hzero.mp h⟩
          rw [hc] at this
          cases this
        have ih' := ih (i + 1) b
        constructor
        · intro h
          cases ht : pathTail (i + 1) b (c :: ps) with
          | ok x => rw [ht] at h; cases h
          | error e' =>
            rw [ht] at h
            simp only [Except.error.injEq] at h
            subst h
            obtain ⟨k, h1, h2, h3⟩ := ih'.mp ht
            refine ⟨k + 1, (turnsBack_cons _ _ _).mpr h1, ?_, ?_⟩
            · intro j hj
              cases j with
              | zero => exact hno
              | succ j => rw [turnsBack_cons]; exact h2 j (by omega)
            · rw [h3]; congr 1; omega
        · rintro ⟨k, h1, h2, rfl⟩
          cases k with
          | zero => exact absurd h1 hno
          | succ k =>
            have := ih'.mpr ⟨k, (turnsBack_cons _ _ _).mp h1, fun j hj hh => h2 (j + 1) (by omega) ((turnsBack_cons _ _ _).mpr hh),
              by rw [show i + (k + 1) = i + 1 + k by omega]⟩
            rw [this]

/-! ## C46 -/

/-- **C46.** Drawing an edge panics exactly if the path has fewer than two points or turns back somewhere; the panic names
the first point where it does. -/
theorem C46_turnaround_exact (ps : List Point) (e : Panic) :
    pathData ps = .error e ↔
      (ps.length < 2 ∧ e = .pathTooShort) ∨
      ∃ k, TurnsBack ps k ∧ (∀ j < k, ¬ TurnsBack ps j) ∧ e = .turnaround (k + 1) := by
  cases ps with
  | nil =>
    simp only [pathData, Except.error.injEq, List.length_nil, Nat.zero_lt_succ, true_and]
    constructor
    · rintro rfl; exact Or.inl rfl
    · rintro (rfl | ⟨k, ⟨x, y, z, d, h1, -⟩, -⟩)
      · rfl
      · simp at h1
  | cons a ps =>
    cases ps with
    | nil =>
      simp only [pathData, Except.error.injEq, List.length_singleton, Nat.one_lt_ofNat, true_and]
      constructor
      · rintro rfl; exact Or.inl rfl
      · rintro (rfl | ⟨k, ⟨x, y, z, d, -, h1, -⟩, -⟩)
        · rfl
        · simp at h1
    | cons b ps =>
      have key := pathTail_error (b :: ps) 1 a e
      have hl : ¬ (a :: b :: ps).length < 2 := by simp
      simp only [hl, false_and, false_or]
      simp only [pathData]
      simp only [Nat.add_comm 1] at key
      rw [← key]
      cases pathTail 1 a (b :: ps) <;> simp

/-- **C46** for the paths the router makes: only horizontal and vertical moves.  Then to turn back is to go straight
back. -/
theorem C46_orthogonal (ps : List Point) (hps : ∀ (k : Nat) (a b : Point), ps[k]? = some a → ps[k + 1]? = some b → AxisAligned a b) :
    (∃ e, pathData ps = .error e) ↔
      ps.length < 2 ∨ ∃ (k : Nat) (a b c : Point) (d : Orientation), ps[k]? = some a ∧ ps[k + 1]? = some b ∧ ps[k + 2]? = some c ∧
        Towards d a b ∧ Towards (opposite d) b c := by
  simp only [C46_turnaround_exact]
  constructor
  · rintro ⟨e, ⟨h, -⟩ | ⟨k, ⟨a, b, c, d, h1, h2, h3, h4, h5⟩, -⟩⟩
    · exact Or.inl h
    · refine Or.inr ⟨k, a, b, c, d, h1, h2, h3, ?_, ?_⟩
      · exact ((C51_orthogonal_direction a b (hps k a b h1 h2)).1 d).mp ((heads_iff _ _ _).mp h4)
      · exact ((C51_orthogonal_direction b c (hps (k + 1) b c h2 h3)).1 _).mp ((heads_iff _ _ _).mp h5)
  · rintro (h | ⟨k, a, b, c, d, h1, h2, h3, h4, h5⟩)
    · exact ⟨_, Or.inl ⟨h, rfl⟩⟩
    · have hex : ∃ k, TurnsBack ps k := ⟨k, a, b, c, d, h1, h2, h3, h4.heads, h5.heads⟩
      classical
      refine ⟨_, Or.inr ⟨Nat.find hex, Nat.find_spec hex, fun j hj => Nat.find_min hex hj, rfl⟩⟩

example : pathData [⟨0, 0⟩, ⟨10, 0⟩, ⟨10, 30⟩, ⟨10, 20⟩] = .error (.turnaround 2) := by decide +kernel
example : pathData [⟨0, 0⟩] = .error .pathTooShort := by decide +kernel

/-! ## C45 -/

theorem pathTail_ok (ps : List Point) (i : Nat) (a : Point) (cs : List PathCommand) (h : pathTail i a ps = .ok cs) (hps : ps ≠ []) :
    ∃ pieces : List (List PathCommand), cs = pieces.flatten ++ [.lineTo (ps.getLast hps)] ∧ pieces.length + 1 = ps.length ∧
      ∀ (k : Nat) (x y z : Point), (a :: ps)[k]? = some x → (a :: ps)[k + 1]? = some y → (a :: ps)[k + 2]? = some z →
        ∃ l, pieces[k]? = some l ∧ Drawn x y z l := by
  induction ps generalizing i a cs with
  | nil => exact absurd rfl hps
  | cons b ps ih =>
    cases ps with
    | nil =>
      simp only [pathTail, Except.ok.injEq] at h
      refine ⟨[], by simp [← h], rfl, ?_⟩
      intro k x y z _ _ hz
      simp at hz
    | cons c ps =>
      simp only [pathTail] at h
      cases hc : corner i a b c with
      | error e => rw [hc] at h; cases h
      | ok l =>
        rw [hc] at h
        cases ht : pathTail (i + 1) b (c :: ps) with
        | error e => rw [ht] at h; cases h
        | ok cs' =>
          rw [ht] at h
          simp only [Except.ok.injEq] at h
          obtain ⟨pieces, h1, h2, h3⟩ := ih (i + 1) b cs' ht (by simp)
          refine ⟨l :: pieces, ?_, by simp [h2], ?_⟩
          · rw [← h, h1]; simp
          · intro k x y z hx hy hz
            cases k with
            | zero =>
              simp only [List.getElem?_cons_zero, zero_add, List.getElem?_cons_succ, Option.some.injEq] at hx hy hz
              subst hx hy hz
              exact ⟨l, rfl, (corner_ok i a b c l).mp hc⟩
            | succ k =>
              obtain ⟨l', h4, h5⟩ := h3 k x y z (by simpa using hx) (by simpa using hy) (by simpa using hz)
              exact ⟨l', by simpa using h4, h5⟩

/-- **C45.** If path data are produced, they are: a move to the first point, one piece for each inner point as `Drawn`
says, a line to the last point. -/
theorem C45_path_data (ps : List Point) (cs : List PathCommand) (h : pathData ps = .ok cs) :
    ∃ (a b : Point) (pieces : List (List PathCommand)), ps.head? = some a ∧ ps.getLast? = some b ∧
      cs = .moveTo a :: pieces.flatten ++ [.lineTo b] ∧ pieces.length + 2 = ps.length ∧
      ∀ (k : Nat) (x y z : Point), ps[k]? = some x → ps[k + 1]? = some y → ps[k + 2]? = some z →
        ∃ l, pieces[k]? = some l ∧ Drawn x y z l := by
  cases ps with
  | nil => cases h
  | cons a ps =>
    cases ps with
    | nil => cases h
    | cons b ps =>
      simp only [pathData] at h
      cases ht : pathTail 1 a (b :: ps) with
      | error e => rw [ht] at h; cases h
      | ok cs' =>
        rw [ht] at h
        simp only [Except.ok.injEq] at h
        obtain ⟨pieces, h1, h2, h3⟩ := pathTail_ok (b :: ps) 1 a cs' ht (by simp)
        refine ⟨a, (b :: ps).getLast (by simp), pieces, rfl, ?_, ?_, ?_, h3⟩
        · rw [List.getLast?_cons_cons]; exact List.getLast?_eq_some_getLast _
        · rw [← h, h1]; simp
        · simp only [List.length_cons] at h2 ⊢; omega

/-- The points a command names. -/
def Spec.pointsOf : PathCommand → List Point
  | .moveTo p => [p]
  | .lineTo p => [p]
  | .quadTo c p => [c, p]

/-- **C45.** On a path of horizontal and vertical moves, every point named for an inner point `y` of the path is on the
line through `x` and `y` or on the line through `y` and `z`, at distance at most 6 from `y`. -/
theorem C45_points_on_route (x y z : Point) (hxy : AxisAligned x y) (hyz : AxisAligned y z) (cs : List PathCommand)
    (h : Drawn x y z cs) (c : PathCommand) (hc : c ∈ cs) (p : Point) (hp : p ∈ pointsOf c) :
    ((∃ t, p = lerp x y t) ∨ ∃ t, p = lerp y z t) ∧ |p.x - y.x| + |p.y - y.y| ≤ 6 := by
  obtain ⟨d, d', h1, h2, hne, he, hn⟩ := h
  have t1 : Towards d x y := ((C51_orthogonal_direction x y hxy).1 d).mp ((heads_iff _ _ _).mp h1)
  have t2 : Towards d' y z := ((C51_orthogonal_direction y z hyz).1 d').mp ((heads_iff _ _ _).mp h2)
  have onLine : ∀ (d : Orientation) (a b : Point), Towards d a b → ∀ l : Rat,
      (∃ t, step d a l = lerp a b t) ∧ ∃ t, step (opposite d) b l = lerp a b t := by
    intro d a b hab l
    obtain ⟨ax, ay⟩ := a
    obtain ⟨bx, bY⟩ := b
    cases d <;> simp only [Towards] at hab <;> obtain ⟨rfl, hlt⟩ := hab <;> simp only [step, opposite, lerp, Point.mk.injEq]
    · have : bY - ay ≠ 0 := by intro h; linarith
      exact ⟨⟨-l / (bY - ay), by ring, by field_simp; ring⟩, ⟨1 + l / (bY - ay), by ring, by field_simp; ring⟩⟩
    · have : bY - ay ≠ 0 := by intro h; linarith
      exact ⟨⟨l / (bY - ay), by ring, by field_simp⟩, ⟨1 - l / (bY - ay), by ring, by field_simp; ring⟩⟩
    · have : bx - ax ≠ 0 := by intro h; linarith
      exact ⟨⟨-l / (bx - ax), by field_simp; ring, by ring⟩, ⟨1 + l / (bx - ax), by field_simp; ring, by ring⟩⟩
    · have : bx - ax ≠ 0 := by intro h; linarith
      exact ⟨⟨l / (bx - ax), by field_simp, by ring⟩, ⟨1 - l / (bx - ax), by field_simp; ring, by ring⟩⟩
  have dist : ∀ (d : Orientation), |(step d y 6).x - y.x| + |(step d y 6).y - y.y| ≤ 6 := by
    intro d
    cases d <;> simp [step]
  have hy : ∃ t, y = lerp x y t := ⟨1, by simp [lerp]⟩
  by_cases hd : d = d'
  · rw [he hd] at hc
    simp only [List.mem_singleton] at hc
    subst hc
    simp only [pointsOf, List.mem_singleton] at hp
    subst hp
    exact ⟨Or.inl hy, by simp⟩
  · rw [hn hd] at hc
    simp only [List.mem_cons, List.not_mem_nil, or_false] at hc
    rcases hc with rfl | rfl
    · simp only [pointsOf, List.mem_singleton] at hp
      subst hp
      exact ⟨Or.inl ((onLine d x y t1 6).2), dist _⟩
    · simp only [pointsOf, List.mem_cons, List.not_mem_nil, or_false] at hp
      rcases hp with rfl | rfl
      · exact ⟨Or.inl hy, by simp⟩
      · exact ⟨Or.inr ((onLine d' y z t2 6).1), dist _⟩

example : pathData [⟨0, 0⟩, ⟨10, 0⟩, ⟨20, 0⟩, ⟨20, 30⟩] =
    .ok [.moveTo ⟨0, 0⟩, .lineTo ⟨10, 0⟩, .lineTo ⟨14, 0⟩, .quadTo ⟨20, 0⟩ ⟨20, 6⟩, .lineTo ⟨20, 30⟩] := by decide +kernel

end Seiren
