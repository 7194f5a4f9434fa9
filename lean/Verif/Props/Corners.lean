import Verif.Proofs.Corners
import Verif.Props.PathData
/-! # C89: rounded corners and the lengths of segments -/

namespace Seiren
open Spec

/-- The lines of path data, from where to where, if the pen starts at `p`. -/
def Spec.linesOf (p : Point) : List PathCommand → List (Point × Point)
  | [] => []
  | .moveTo q :: cs => linesOf q cs
  | .lineTo q :: cs => (p, q) :: linesOf q cs
  | .quadTo _ q :: cs => linesOf q cs

/-- How far it is from `p` to `q` in direction `d`; negative if `q` is behind. -/
def Spec.advance (d : Orientation) (p q : Point) : Rat :=
  match d with
  | .up => p.y - q.y
  | .down => q.y - p.y
  | .left => p.x - q.x
  | .right => q.x - p.x

/-- There is one line for each segment of the path, and none of them goes back. -/
def Spec.LinesForward (ps : List Point) (cs : List PathCommand) : Prop :=
  (linesOf ⟨0, 0⟩ cs).length + 1 = ps.length ∧
    ∀ (k : Nat) (a b s t : Point) (d : Orientation), ps[k]? = some a → ps[k + 1]? = some b → Towards d a b →
      (linesOf ⟨0, 0⟩ cs)[k]? = some (s, t) → 0 ≤ advance d s t

/-- The line on a segment starts at its first point or 6 behind it, and ends at its last point or 6 before it. -/
theorem tail_lines (ps : List Point) (i : Nat) (a : Point) (cs : List PathCommand) (h : pathTail i a ps = .ok cs) (s0 : Point)
    (hs : ∀ b d, ps[0]? = some b → Heads d a b → s0 = a ∨ s0 = step d a 6) :
    (linesOf s0 cs).length = ps.length ∧
      ∀ (k : Nat) (x y : Point) (d : Orientation), (a :: ps)[k]? = some x → (a :: ps)[k + 1]? = some y → Heads d x y →
        ∃ s t, (linesOf s0 cs)[k]? = some (s, t) ∧ (s = x ∨ s = step d x 6) ∧ (t = y ∨ t = step (opposite d) y 6) := by
  induction ps generalizing i a cs s0 with
  | nil =>
    simp only [pathTail, Except.ok.injEq] at h
    subst h
    exact ⟨rfl, by intro k x y d _ hy; simp at hy⟩
  | cons b ps ih =>
    cases ps with
    | nil =>
      simp only [pathTail, Except.ok.injEq] at h
      subst h
      refine ⟨rfl, ?_⟩
      intro k x y d hx hy hd
      cases k with
      | zero =>
        simp at hx hy
        subst hx hy
        exact ⟨s0, _, rfl, hs _ d rfl hd, .inl rfl⟩
      | succ k => simp at hy
    | cons c ps =>
      simp only [pathTail] at h
      cases hc : corner i a b c with
      | error e => rw [hc] at h; cases h
      | ok l =>
        rw [hc] at h
        cases ht : pathTail (i + 1) b (c :: ps) with
        | error e => rw [ht] at h; cases h
        | ok cs' =>
          rw [ht] at h
          simp only [Except.ok.injEq] at h
          subst h
          obtain ⟨d1, d2, h1, h2, -, hstraight, hturn⟩ := (corner_ok i a b c l).mp hc
          have key : ∃ t s1, linesOf s0 (l ++ cs') = (s0, t) :: linesOf s1 cs' ∧ (t = b ∨ t = step (opposite d1) b 6) ∧
              (s1 = b ∨ s1 = step d2 b 6) := by
            by_cases hd : d1 = d2
            · rw [hstraight hd]
              exact ⟨b, b, rfl, .inl rfl, .inl rfl⟩
            · rw [hturn hd]
              exact ⟨_, _, rfl, .inr rfl, .inr rfl⟩
          obtain ⟨t, s1, e, ht1, hs1⟩ := key
          obtain ⟨ih1, ih2⟩ := ih (i + 1) b cs' ht s1 (by
            intro b' d' hb' hd'
            simp at hb'
            subst hb'
            rw [heads_unique hd' h2]
            exact hs1)
          rw [e]
          refine ⟨by simp [ih1], ?_⟩
          intro k x y d hx hy hd
          cases k with
          | zero =>
            simp at hx hy
            subst hx hy
            refine ⟨s0, t, rfl, hs _ d rfl hd, ?_⟩
            rw [heads_unique hd h1]
            exact ht1
          | succ k =>
            obtain ⟨s', t', h3, h4⟩ := ih2 k x y d (by simpa using hx) (by simpa using hy) hd
            exact ⟨s', t', by simpa using h3, h4⟩

theorem path_lines (ps : List Point) (cs : List PathCommand) (h : pathData ps = .ok cs) :
    (linesOf ⟨0, 0⟩ cs).length + 1 = ps.length ∧
      ∀ (k : Nat) (x y : Point) (d : Orientation), ps[k]? = some x → ps[k + 1]? = some y → Heads d x y →
        ∃ s t, (linesOf ⟨0, 0⟩ cs)[k]? = some (s, t) ∧ (s = x ∨ s = step d x 6) ∧ (t = y ∨ t = step (opposite d) y 6) := by
  cases ps with
  | nil => cases h
  | cons a ps =>
    cases ps with
    | nil => cases h
    | cons b ps =>
      simp only [pathData] at h
      cases ht : pathTail 1 a (b :: ps) with
      | error e => rw [ht] at h; cases h
      | ok cs' =>
        rw [ht] at h
        simp only [Except.ok.injEq] at h
        subst h
        obtain ⟨h1, h2⟩ := tail_lines (b :: ps) 1 a cs' ht a fun _ _ _ _ => .inl rfl
        exact ⟨by simp only [linesOf, h1, List.length_cons], h2⟩

/-- A line is at most 12 shorter than its segment. -/
theorem advance_ge {d : Orientation} {x y s t : Point} (h : Towards d x y) (hs : s = x ∨ s = step d x 6)
    (ht : t = y ∨ t = step (opposite d) y 6) : distance x y - 12 ≤ advance d s t := by
  obtain ⟨x1, x2⟩ := x
  obtain ⟨y1, y2⟩ := y
  cases d <;> simp only [Towards] at h <;> obtain ⟨rfl, hlt⟩ := h <;> unfold distance <;>
    rcases hs with rfl | rfl <;> rcases ht with rfl | rfl <;> simp only [advance, step, opposite, sub_self, abs_zero] <;>
    first
    | (rw [abs_of_pos (by linarith)]; linarith)
    | (rw [abs_of_neg (by linarith)]; linarith)

theorem oddTables_module (m : Module) (h : ∀ c ∈ connections [] m.entries, ∀ k d, c.1 = .table k ∨ c.2 = .table k →
    (definitions m.entries)[k]? = some d → d.fields.length % 2 = 0) :
    Grid.OddTables (lineNumbers (definitions m.entries)) (connections [] m.entries) := by
  intro c hc k n hk hn
  simp only [lineNumbers, List.getElem?_map, Option.map_eq_some_iff] at hn
  obtain ⟨d, hd, rfl⟩ := hn
  have := h c hc k d hk hd
  omega

section
variable {q : Queue} {QI : List Entry → Prop} (hq : q.Lawful QI) (m : Module)
  (hsize : (placeNodes m.intoMir).2.size.height ≤ 1000000000) (doc' : Document) (g' : RouteGraph)
  (h : drawEdgePath q (laidOut m.intoMir) .new = .ok (doc', g')) (e : EdgeData) (he : e ∈ doc'.edges) (ps : List Point)
  (hps : e.pathPoints = some ps)
include hq hsize h he hps

/-- **C89**, lengths: horizontal segments of a path are at least 40 long, vertical ones at least 12.5, except that there may be vertical
ones of length 5 if a relation ends at a whole table with an odd number of columns. -/
theorem C89_segments (k : Nat) (a b : Point) (ha : ps[k]? = some a) (hb : ps[k + 1]? = some b) :
    (a.y = b.y → 40 ≤ |a.x - b.x|) ∧ (a.x = b.x → 25 / 2 ≤ |a.y - b.y| ∨ |a.y - b.y| = 5 ∧
      ∃ c ∈ connections [] m.entries, ∃ k d, (c.1 = .table k ∨ c.2 = .table k) ∧ (definitions m.entries)[k]? = some d ∧
        d.fields.length % 2 = 1) := by
  obtain ⟨con, -, hs, -⟩ := edge_route hq m hsize doc' g' h e he ps hps
  have key := Grid.route_length (Grid.ok_module m) hs ha hb
  unfold distance at key
  constructor
  · intro hy
    rw [hy, sub_self, abs_zero, add_zero] at key
    rcases key with ⟨-, hx, h5⟩ | ⟨-, h40⟩
    · rw [hx, sub_self, abs_zero] at h5
      norm_num at h5
    · exact h40 rfl
  · intro hx
    rw [hx, sub_self, abs_zero, zero_add] at key
    rcases key with ⟨ho, -, h5⟩ | ⟨h1, -⟩
    · refine .inr ⟨h5, ?_⟩
      by_contra hno
      apply ho
      apply oddTables_module
      intro c hc k d hk hd
      by_contra hne
      exact hno ⟨c, hc, k, d, hk, hd, by omega⟩
    · exact .inl h1

/-- **C89.** The full claim, that no line of a path goes back, is false (`C89_refuted`).  What holds for all modules: there is one line for
each segment, and it goes forward unless the segment is vertical and of length 5. -/
theorem C89_lines_partial (cs : List PathCommand) (hcs : pathData ps = .ok cs) :
    (linesOf ⟨0, 0⟩ cs).length + 1 = ps.length ∧
      ∀ (k : Nat) (a b s t : Point) (d : Orientation), ps[k]? = some a → ps[k + 1]? = some b → Towards d a b →
        (linesOf ⟨0, 0⟩ cs)[k]? = some (s, t) → 0 < advance d s t ∨ (a.x = b.x ∧ |a.y - b.y| = 5 ∧ -7 ≤ advance d s t) := by
  obtain ⟨h1, h2⟩ := path_lines ps cs hcs
  refine ⟨h1, ?_⟩
  intro k a b s t d ha hb hd hl
  obtain ⟨s', t', hl', hs, ht⟩ := h2 k a b d ha hb hd.heads
  rw [hl] at hl'
  cases hl'
  have hadv := advance_ge hd hs ht
  obtain ⟨con, -, hr, -⟩ := edge_route hq m hsize doc' g' h e he ps hps
  rcases Grid.route_length (Grid.ok_module m) hr ha hb with ⟨-, hx, h5⟩ | ⟨h3, -⟩
  · right
    refine ⟨hx, ?_, by linarith⟩
    unfold distance at h5
    rw [hx, sub_self, abs_zero, zero_add] at h5
    exact h5
  · left; linarith

/-- **C89** if no relation ends at a whole table with an odd number of columns: no line of a path goes back. -/
theorem C89_forward_partial (cs : List PathCommand) (hcs : pathData ps = .ok cs)
    (heven : ∀ c ∈ connections [] m.entries, ∀ k d, c.1 = .table k ∨ c.2 = .table k → (definitions m.entries)[k]? = some d →
      d.fields.length % 2 = 0) : LinesForward ps cs := by
  obtain ⟨h1, h2⟩ := C89_lines_partial hq m hsize doc' g' h e he ps hps cs hcs
  refine ⟨h1, ?_⟩
  intro k a b s t d ha hb hd hl
  rcases h2 k a b s t d ha hb hd hl with h3 | ⟨hx, h5, -⟩
  · exact h3.le
  · exfalso
    rcases (C89_segments hq m hsize doc' g' h e he ps hps k a b ha hb).2 hx with h3 | ⟨-, c, hc, k, d, hk, hd, hodd⟩
    · rw [h5] at h3; norm_num at h3
    · have := heven c hc k d hk hd
      omega

end

/-- Three tables with three columns, none, and two; a relation between the first and the last table. -/
def kinked : Module :=
  ⟨none, [.definition ⟨c!"a", [⟨c!"x", .int, none⟩, ⟨c!"y", .int, none⟩, ⟨c!"z", .int, none⟩]⟩, .definition ⟨c!"b", []⟩,
    .definition ⟨c!"c", [⟨c!"x", .int, none⟩, ⟨c!"y", .int, none⟩]⟩, .relation ⟨.entity c!"a", .entity c!"c"⟩]⟩

set_option maxRecDepth 1000000 in
/-- **C89, refutation.** From (390, 120), where the path turns down, to (390, 125), where it turns right, there is no room for two
corners of radius 6: the first one ends at (390, 126), and the line from there to the second one goes up to (390, 119). -/
theorem C89_refuted : ∃ ps cs, pathsOf (drawEdgePath BinHeap.queue (laidOut kinked.intoMir) .new) = some [some ps] ∧
    (placeNodes kinked.intoMir).2.size.height ≤ 1000000000 ∧ pathData ps = .ok cs ∧ ¬ LinesForward ps cs := by
  refine ⟨[⟨350, 120⟩, ⟨390, 120⟩, ⟨390, 125⟩, ⟨770, 125⟩, ⟨770, 205 / 2⟩, ⟨810, 205 / 2⟩],
    [.moveTo ⟨350, 120⟩, .lineTo ⟨384, 120⟩, .quadTo ⟨390, 120⟩ ⟨390, 126⟩, .lineTo ⟨390, 119⟩, .quadTo ⟨390, 125⟩ ⟨396, 125⟩,
      .lineTo ⟨764, 125⟩, .quadTo ⟨770, 125⟩ ⟨770, 119⟩, .lineTo ⟨770, 217 / 2⟩, .quadTo ⟨770, 205 / 2⟩ ⟨776, 205 / 2⟩,
      .lineTo ⟨810, 205 / 2⟩], by decide +kernel, by decide +kernel, by decide +kernel, ?_⟩
  rintro ⟨-, h⟩
  have := h 1 ⟨390, 120⟩ ⟨390, 125⟩ ⟨390, 126⟩ ⟨390, 119⟩ .down rfl rfl ⟨rfl, by norm_num⟩ rfl
  norm_num [advance] at this

set_option maxRecDepth 1000000 in
/-- `threeTables` meets the hypotheses of `C89_forward_partial`. -/
example : (placeNodes threeTables.intoMir).2.size.height ≤ 1000000000 ∧
    (pathsOf (drawEdgePath BinHeap.queue (laidOut threeTables.intoMir) .new)).isSome = true ∧
    ∀ c ∈ connections [] threeTables.entries, ¬ ∃ k, c.1 = .table k ∨ c.2 = .table k := by
  refine ⟨by decide +kernel, by decide +kernel, ?_⟩
  have : connections [] threeTables.entries = [(.column 0 0, .column 2 1)] := by decide +kernel
  rw [this]
  simp

end Seiren
