import Verif.Props.Longest
import Verif.Props.Stay
import Verif.Props.AddedRelation
/-! # C113: what additions do to the length of a line

Adding at the end of a module can change the way a line takes (`C92_refuted_relation`).  It cannot change its length much: not at all, up
to rounding, if the tables are in neighbouring columns of the drawing, and by the height of one table if there is a column between them. -/

namespace Seiren
open Spec Grid

theorem midHeight_column (ns : List Nat) (k j : Nat) : midHeight ns (.column k j) = lineHeight ns k j := by
  simp only [midHeight, refRect, lineRect, lineHeight]
  push_cast
  ring

theorem slack_added (m : Module) (more : List ModuleEntry) : slack m ≤ slack ⟨m.name, m.entries ++ more⟩ := by
  unfold slack
  rw [definitions_append, List.length_append]
  have : ((definitions m.entries).length + 2) / 3 ≤ ((definitions m.entries).length + (definitions more).length + 2) / 3 :=
    Nat.div_le_div_right (by omega)
  have : ((((definitions m.entries).length + 2) / 3 : Nat) : Rat) ≤
      (((definitions m.entries).length + (definitions more).length + 2) / 3 : Nat) := by exact_mod_cast this
  linarith

/-- The relations there are stay where they are, and so do the lines of the tables. -/
theorem added_at (m : Module) (more : List ModuleEntry) {i k j k' j' : Nat}
    (hi : (connections [] m.entries)[i]? = some (.column k j, .column k' j')) :
    (connections [] (m.entries ++ more))[i]? = some (.column k j, .column k' j') ∧
      lineHeight (lineNumbers (definitions (m.entries ++ more))) k j = lineHeight (lineNumbers (definitions m.entries)) k j ∧
      lineHeight (lineNumbers (definitions (m.entries ++ more))) k' j' = lineHeight (lineNumbers (definitions m.entries)) k' j' := by
  obtain ⟨⟨n, hn, -⟩, ⟨n', hn', -⟩⟩ := (ok_module m).valid _ (List.mem_of_getElem? hi)
  have l1 := (List.getElem?_eq_some_iff.mp hn).1
  have l2 := (List.getElem?_eq_some_iff.mp hn').1
  have hl : lineNumbers (definitions (m.entries ++ more)) = lineNumbers (definitions m.entries) ++ lineNumbers (definitions more) := by
    rw [definitions_append]
    simp [lineNumbers]
  refine ⟨?_, ?_, ?_⟩
  · rw [connections_append, List.getElem?_append_left (List.getElem?_eq_some_iff.mp hi).1]
    exact hi
  · rw [lineHeight, lineHeight, hl, rowTop_prefix _ _ _ (by omega)]
  · rw [lineHeight, lineHeight, hl, rowTop_prefix _ _ _ (by omega)]

/-- **C113.** Whatever is added at the end of a module, the line between two columns, the tables in neighbouring columns of the drawing,
stays as long as it is, up to rounding. -/
theorem C113_near {q : Queue} {QI : List Entry → Prop} (hq : q.Lawful QI) (m : Module) (more : List ModuleEntry)
    (hsize : (placeNodes m.intoMir).2.size.height ≤ 1000000000)
    (hsize' : (placeNodes (⟨m.name, m.entries ++ more⟩ : Module).intoMir).2.size.height ≤ 1000000000) (i k j k' j' : Nat)
    (hcol : k' % 3 = k % 3 + 1 ∨ k % 3 = k' % 3 + 1)
    (hi : (connections [] m.entries)[i]? = some (.column k j, .column k' j')) :
    ∃ d g e ps d' g' e' ps', drawEdgePath q (laidOut m.intoMir) .new = .ok (d, g) ∧ d.edges[i]? = some e ∧ e.pathPoints = some ps ∧
      drawEdgePath q (laidOut (⟨m.name, m.entries ++ more⟩ : Module).intoMir) .new = .ok (d', g') ∧ d'.edges[i]? = some e' ∧
      e'.pathPoints = some ps' ∧ |pathLength ps' - pathLength ps| ≤ slack ⟨m.name, m.entries ++ more⟩ := by
  obtain ⟨hi', hh, hh'⟩ := added_at m more hi
  have hd : |((k % 3 : Nat) : Rat) - (k' % 3 : Nat)| = 1 := by
    rcases hcol with h | h <;> rw [h] <;> push_cast <;> norm_num
  obtain ⟨d, g, e, ps, h1, h2, h3, u⟩ := C111_near hq m hsize i _ _ hi (by simp only [tableNumber]; omega)
  obtain ⟨_, _, _, _, r1, r2, r3, l⟩ := C111_at_least hq m hsize i k j k' j' hi
  rw [h1] at r1; cases r1
  rw [h2] at r2; cases r2
  rw [h3] at r3; cases r3
  obtain ⟨d', g', e', ps', h1', h2', h3', u'⟩ := C111_near hq ⟨m.name, m.entries ++ more⟩ hsize' i _ _ hi' (by simp only [tableNumber]; omega)
  obtain ⟨_, _, _, _, r1, r2, r3, l'⟩ := C111_at_least hq ⟨m.name, m.entries ++ more⟩ hsize' i k j k' j' hi'
  rw [h1'] at r1; cases r1
  rw [h2'] at r2; cases r2
  rw [h3'] at r3; cases r3
  refine ⟨d, g, e, ps, d', g', e', ps', h1, h2, h3, h1', h2', h3', ?_⟩
  rw [midHeight_column, midHeight_column, abs_sub_comm] at u u'
  simp only [hh, hh'] at u' l'
  rw [hd] at l l'
  have := slack_added m more
  rw [abs_le]
  constructor <;> linarith

/-- The line between two columns is as long as they are apart in height, up to the height of a line of a table. -/
theorem height_le_length {q : Queue} {QI : List Entry → Prop} (hq : q.Lawful QI) (m : Module)
    (hsize : (placeNodes m.intoMir).2.size.height ≤ 1000000000) (i k j k' j' : Nat)
    (hi : (connections [] m.entries)[i]? = some (.column k j, .column k' j')) (d : Document) (g : RouteGraph)
    (h : drawEdgePath q (laidOut m.intoMir) .new = .ok (d, g)) (e : EdgeData) (he : d.edges[i]? = some e) (ps : List Point)
    (hps : e.pathPoints = some ps) :
    |lineHeight (lineNumbers (definitions m.entries)) k j - lineHeight (lineNumbers (definitions m.entries)) k' j'| - 35 ≤ pathLength ps := by
  obtain ⟨_, _, he', hps', hr, -⟩ := path_at hq m hsize d g h i _ hi
  rw [he] at he'; cases he'
  rw [hps] at hps'; cases hps'
  obtain ⟨-, ⟨a, o, ha, hae⟩, ⟨b, o', hb, hbe⟩⟩ := hr
  have hdist : distance a b ≤ pathLength ps := by
    cases ps with
    | nil => cases ha
    | cons p ps => cases ha; exact distance_le_length _ _ _ hb
  refine le_trans ?_ hdist
  have ends : ∀ {k j : Nat} {a : Point} {o : Orientation}, (a, o) ∈ endsOf (lineNumbers (definitions m.entries)) (.column k j) →
      |a.y - lineHeight (lineNumbers (definitions m.entries)) k j| ≤ 35 / 2 := by
    intro k j a o h
    rcases column_ends h with rfl | rfl | ⟨h1, h2, -⟩
    · simp only [sideMiddle, lineRect, lineHeight]
      push_cast
      rw [sub_self, abs_zero]
      norm_num
    · simp only [sideMiddle, lineRect, lineHeight]
      push_cast
      rw [sub_self, abs_zero]
      norm_num
    · rw [h2]
      simp only [sideMiddle, lineRect, lineHeight]
      push_cast
      rw [abs_le]
      constructor <;> linarith
  have e1 := abs_le.mp (ends hae)
  have e2 := abs_le.mp (ends hbe)
  unfold distance
  have h0 := abs_nonneg (a.x - b.x)
  have l1 := neg_abs_le (a.y - b.y)
  have l2 := le_abs_self (a.y - b.y)
  rw [sub_le_iff_le_add, abs_le]
  constructor <;> linarith

/-- **C113.** The same for two tables in one column of the drawing, or for two columns of one table: the length changes by at most 115,
up to rounding. -/
theorem C113_same {q : Queue} {QI : List Entry → Prop} (hq : q.Lawful QI) (m : Module) (more : List ModuleEntry)
    (hsize : (placeNodes m.intoMir).2.size.height ≤ 1000000000)
    (hsize' : (placeNodes (⟨m.name, m.entries ++ more⟩ : Module).intoMir).2.size.height ≤ 1000000000) (i k j k' j' : Nat)
    (hcol : k % 3 = k' % 3) (hi : (connections [] m.entries)[i]? = some (.column k j, .column k' j')) :
    ∃ d g e ps d' g' e' ps', drawEdgePath q (laidOut m.intoMir) .new = .ok (d, g) ∧ d.edges[i]? = some e ∧ e.pathPoints = some ps ∧
      drawEdgePath q (laidOut (⟨m.name, m.entries ++ more⟩ : Module).intoMir) .new = .ok (d', g') ∧ d'.edges[i]? = some e' ∧
      e'.pathPoints = some ps' ∧ |pathLength ps' - pathLength ps| ≤ 115 + slack ⟨m.name, m.entries ++ more⟩ := by
  obtain ⟨hi', hh, hh'⟩ := added_at m more hi
  obtain ⟨d, g, e, ps, h1, h2, h3, u⟩ := C111_near hq m hsize i _ _ hi (by simp only [tableNumber]; omega)
  have l := height_le_length hq m hsize i k j k' j' hi d g h1 e h2 ps h3
  obtain ⟨d', g', e', ps', h1', h2', h3', u'⟩ := C111_near hq ⟨m.name, m.entries ++ more⟩ hsize' i _ _ hi' (by simp only [tableNumber]; omega)
  have l' := height_le_length hq ⟨m.name, m.entries ++ more⟩ hsize' i k j k' j' hi' d' g' h1' e' h2' ps' h3'
  refine ⟨d, g, e, ps, d', g', e', ps', h1, h2, h3, h1', h2', h3', ?_⟩
  rw [midHeight_column, midHeight_column, abs_sub_comm] at u u'
  simp only [hh, hh'] at u' l'
  have := slack_added m more
  rw [abs_le]
  constructor <;> linarith

/-- Beside any table one can pass the middle column at a height nearby: the way up or down is at most half as long as the table in the
middle is high, and 40. -/
theorem pass_nearby (ns : List Nat) (r : Nat) {h : Rat} (h1 : rowTop ns r ≤ h) (h2 : h ≤ rowTop ns r + 35 * (tallest ns r : Rat)) :
    ∃ y, PassesMiddle ns y ∧ |y - h| ≤ (35 * (ns[3 * r + 1]?.getD 0 : Nat) + 80 : Rat) / 2 := by
  have step : rowTop ns (r + 1) = rowTop ns r + 35 * (tallest ns r : Rat) + 80 := rfl
  have above : ∀ k n : Nat, ns[k]? = some n → k / 3 < r → rowTop ns (k / 3) + 35 * (n : Rat) + 80 ≤ rowTop ns r := by
    intro k n hn hr
    have g1 : rowTop ns (k / 3 + 1) = rowTop ns (k / 3) + 35 * (tallest ns (k / 3) : Rat) + 80 := rfl
    have g2 : (n : Rat) ≤ tallest ns (k / 3) := by exact_mod_cast (tab_of hn).le
    have g3 := rowTop_mono ns (k / 3 + 1) r hr
    linarith
  have below : ∀ k : Nat, r < k / 3 → rowTop ns r + 35 * (tallest ns r : Rat) + 80 ≤ rowTop ns (k / 3) := by
    intro k hr
    rw [← step]
    exact rowTop_mono ns (r + 1) (k / 3) hr
  have w0 : (0 : Rat) ≤ (ns[3 * r + 1]?.getD 0 : Nat) := Nat.cast_nonneg _
  -- a height in the row at which the table in the middle is passed
  have pass : ∀ y, rowTop ns r - 40 ≤ y → y ≤ rowTop ns r + 35 * (tallest ns r : Rat) + 40 →
      (∀ n, ns[3 * r + 1]? = some n → y ≤ rowTop ns r - 40 ∨ rowTop ns r + 35 * (n : Rat) + 40 ≤ y) → PassesMiddle ns y := by
    intro y y1 y2 hy k n hn hk
    rcases Nat.lt_trichotomy (k / 3) r with hr | hr | hr
    · exact .inr (by linarith [above k n hn hr])
    · rw [hr]
      exact hy n (by rw [← hn]; congr 1; omega)
    · exact .inl (by linarith [below k hr])
  cases hw : ns[3 * r + 1]? with
  | none =>
    refine ⟨h, pass h (by linarith) (by linarith) (fun n hn => by rw [hw] at hn; cases hn), ?_⟩
    rw [sub_self, abs_zero]
    norm_num
  | some n =>
    have hn0 : (0 : Rat) ≤ n := Nat.cast_nonneg n
    have g2 : (n : Rat) ≤ tallest ns r := by
      have := (tab_of hw).le
      rw [show (3 * r + 1) / 3 = r by omega] at this
      exact_mod_cast this
    simp only [Option.getD_some]
    by_cases hb : rowTop ns r + 35 * (n : Rat) + 40 ≤ h
    · refine ⟨h, pass h (by linarith) (by linarith) (fun n' hn' => by rw [hw] at hn'; cases hn'; exact .inr hb), ?_⟩
      rw [sub_self, abs_zero]
      linarith
    by_cases hc : h - (rowTop ns r - 40) ≤ (35 * (n : Rat) + 80) / 2
    · refine ⟨rowTop ns r - 40, pass _ (le_refl _) (by linarith) (fun _ _ => .inl (le_refl _)), ?_⟩
      rw [abs_le]
      constructor <;> linarith
    · refine ⟨rowTop ns r + 35 * (n : Rat) + 40, pass _ (by linarith) (by linarith)
        (fun n' hn' => by rw [hw] at hn'; cases hn'; exact .inr (le_refl _)), ?_⟩
      rw [abs_le]
      constructor <;> linarith

/-- Up to rounding, the line between a column in the first and one in the third column of the drawing is longer than the direct way by at
most 80 and the height of the table in the middle of the row of either of them. -/
theorem far_length {q : Queue} {QI : List Entry → Prop} (hq : q.Lawful QI) (m : Module)
    (hsize : (placeNodes m.intoMir).2.size.height ≤ 1000000000) (i k j k' j' : Nat)
    (hfar : k % 3 = 0 ∧ k' % 3 = 2 ∨ k % 3 = 2 ∧ k' % 3 = 0)
    (hi : (connections [] m.entries)[i]? = some (.column k j, .column k' j')) (r : Nat) (hr : r = k / 3 ∨ r = k' / 3) :
    ∃ d g e ps, drawEdgePath q (laidOut m.intoMir) .new = .ok (d, g) ∧ d.edges[i]? = some e ∧ e.pathPoints = some ps ∧
      460 + |lineHeight (lineNumbers (definitions m.entries)) k j - lineHeight (lineNumbers (definitions m.entries)) k' j'| ≤ pathLength ps ∧
      pathLength ps ≤ 460 + |lineHeight (lineNumbers (definitions m.entries)) k j - lineHeight (lineNumbers (definitions m.entries)) k' j'| +
        (35 * ((lineNumbers (definitions m.entries))[3 * r + 1]?.getD 0 : Nat) + 80) + slack m := by
  have hd : |((k % 3 : Nat) : Rat) - (k' % 3 : Nat)| = 2 := by
    rcases hfar with ⟨a, b⟩ | ⟨a, b⟩ <;> rw [a, b] <;> norm_num
  obtain ⟨d, g, e, ps, h1, h2, h3, l⟩ := C111_at_least hq m hsize i k j k' j' hi
  obtain ⟨_, _, _, _, r1, r2, r3, u⟩ := C111_far hq m hsize i _ _ hi (by simpa only [tableNumber] using hfar)
  rw [h1] at r1; cases r1
  rw [h2] at r2; cases r2
  rw [h3] at r3; cases r3
  refine ⟨d, g, e, ps, h1, h2, h3, by rw [hd] at l; linarith, ?_⟩
  simp only [midHeight_column] at u
  obtain ⟨⟨n, hn, hj⟩, ⟨n', hn', hj'⟩⟩ := (ok_module m).valid _ (List.mem_of_getElem? hi)
  have inside : ∀ {k j n : Nat}, (lineNumbers (definitions m.entries))[k]? = some n → j + 1 < n →
      rowTop (lineNumbers (definitions m.entries)) (k / 3) ≤ lineHeight (lineNumbers (definitions m.entries)) k j ∧
      lineHeight (lineNumbers (definitions m.entries)) k j ≤ rowTop (lineNumbers (definitions m.entries)) (k / 3) +
        35 * (tallest (lineNumbers (definitions m.entries)) (k / 3) : Rat) := by
    intro k j n hn hj
    have g2 : (n : Rat) ≤ tallest (lineNumbers (definitions m.entries)) (k / 3) := by exact_mod_cast (tab_of hn).le
    have g3 : (j : Rat) + 2 ≤ n := by exact_mod_cast hj
    have g0 : (0 : Rat) ≤ j := Nat.cast_nonneg j
    rw [lineHeight]
    constructor <;> linarith
  generalize lineNumbers (definitions m.entries) = ns at *
  rcases hr with rfl | rfl
  · obtain ⟨y, hy, hle⟩ := pass_nearby _ _ (inside hn hj).1 (inside hn hj).2
    have b := u y hy
    have t := abs_add_le (lineHeight ns k' j' - lineHeight ns k j) (lineHeight ns k j - y)
    rw [sub_add_sub_cancel] at t
    rw [abs_sub_comm (lineHeight ns k j) y] at t
    rw [abs_sub_comm (lineHeight ns k j) (lineHeight ns k' j')]
    linarith
  · obtain ⟨y, hy, hle⟩ := pass_nearby _ _ (inside hn' hj').1 (inside hn' hj').2
    have b := u y hy
    have t := abs_add_le (y - lineHeight ns k' j') (lineHeight ns k' j' - lineHeight ns k j)
    rw [sub_add_sub_cancel] at t
    rw [abs_sub_comm (lineHeight ns k' j') y] at b
    rw [abs_sub_comm (lineHeight ns k j) (lineHeight ns k' j')]
    linarith

/-- **C113.** Whatever is added at the end of a module, the length of the line between two columns, one table in the first and one in the
third column of the drawing, changes by at most 80 and the height of the table that is then in the middle of the row of either of them, up
to rounding. -/
theorem C113_far {q : Queue} {QI : List Entry → Prop} (hq : q.Lawful QI) (m : Module) (more : List ModuleEntry)
    (hsize : (placeNodes m.intoMir).2.size.height ≤ 1000000000)
    (hsize' : (placeNodes (⟨m.name, m.entries ++ more⟩ : Module).intoMir).2.size.height ≤ 1000000000) (i k j k' j' : Nat)
    (hfar : k % 3 = 0 ∧ k' % 3 = 2 ∨ k % 3 = 2 ∧ k' % 3 = 0)
    (hi : (connections [] m.entries)[i]? = some (.column k j, .column k' j')) (r : Nat) (hr : r = k / 3 ∨ r = k' / 3) :
    ∃ d g e ps d' g' e' ps', drawEdgePath q (laidOut m.intoMir) .new = .ok (d, g) ∧ d.edges[i]? = some e ∧ e.pathPoints = some ps ∧
      drawEdgePath q (laidOut (⟨m.name, m.entries ++ more⟩ : Module).intoMir) .new = .ok (d', g') ∧ d'.edges[i]? = some e' ∧
      e'.pathPoints = some ps' ∧
      |pathLength ps' - pathLength ps| ≤ (35 * ((lineNumbers (definitions (m.entries ++ more)))[3 * r + 1]?.getD 0 : Nat) + 80) +
        slack ⟨m.name, m.entries ++ more⟩ := by
  obtain ⟨hi', hh, hh'⟩ := added_at m more hi
  obtain ⟨d, g, e, ps, h1, h2, h3, l, u⟩ := far_length hq m hsize i k j k' j' hfar hi r hr
  obtain ⟨d', g', e', ps', h1', h2', h3', l', u'⟩ := far_length hq ⟨m.name, m.entries ++ more⟩ hsize' i k j k' j' hfar hi' r hr
  refine ⟨d, g, e, ps, d', g', e', ps', h1, h2, h3, h1', h2', h3', ?_⟩
  have hmore : (lineNumbers (definitions m.entries))[3 * r + 1]?.getD 0 ≤
      (lineNumbers (definitions (m.entries ++ more)))[3 * r + 1]?.getD 0 := by
    have hl : lineNumbers (definitions (m.entries ++ more)) = lineNumbers (definitions m.entries) ++ lineNumbers (definitions more) := by
      rw [definitions_append]
      simp [lineNumbers]
    rw [hl]
    cases h : (lineNumbers (definitions m.entries))[3 * r + 1]? with
    | none => simp
    | some n => rw [List.getElem?_append_left (List.getElem?_eq_some_iff.mp h).1, h]
  have hmore' : (((lineNumbers (definitions m.entries))[3 * r + 1]?.getD 0 : Nat) : Rat) ≤
      ((lineNumbers (definitions (m.entries ++ more)))[3 * r + 1]?.getD 0 : Nat) := by exact_mod_cast hmore
  have := slack_added m more
  simp only [hh, hh'] at l' u'
  rw [abs_le]
  constructor <;> linarith

/-! ## Whole tables -/

/-- A table or column stays where it is. -/
theorem refRect_added (m : Module) (more : List ModuleEntry) {r : NodeRef} (hr : ValidRef (lineNumbers (definitions m.entries)) r) :
    refRect (lineNumbers (definitions (m.entries ++ more))) r = refRect (lineNumbers (definitions m.entries)) r := by
  have hl : lineNumbers (definitions (m.entries ++ more)) = lineNumbers (definitions m.entries) ++ lineNumbers (definitions more) := by
    rw [definitions_append]
    simp [lineNumbers]
  rw [hl]
  cases r with
  | table k =>
    obtain ⟨n, hn⟩ := hr
    have hlt := (List.getElem?_eq_some_iff.mp hn).1
    rw [refRect, refRect, tableRect, tableRect, rowTop_prefix _ _ _ (by omega), List.getElem?_append_left hlt]
  | column k j =>
    obtain ⟨n, hn, -⟩ := hr
    have hlt := (List.getElem?_eq_some_iff.mp hn).1
    rw [refRect, refRect, lineRect, lineRect, rowTop_prefix _ _ _ (by omega)]

theorem mid_apart (a b : Rect) : |b.origin.y + b.size.height / 2 - (a.origin.y + a.size.height / 2)| ≤
    apart a.origin.y (a.origin.y + a.size.height) b.origin.y (b.origin.y + b.size.height) + (a.size.height + b.size.height) / 2 := by
  unfold apart
  have h1 := le_max_right 0 (max (b.origin.y - (a.origin.y + a.size.height)) (a.origin.y - (b.origin.y + b.size.height)))
  have h2 := le_max_left (b.origin.y - (a.origin.y + a.size.height)) (a.origin.y - (b.origin.y + b.size.height))
  have h3 := le_max_right (b.origin.y - (a.origin.y + a.size.height)) (a.origin.y - (b.origin.y + b.size.height))
  rw [abs_le]
  constructor <;> linarith

theorem gap_x {ns : List Nat} {s t : NodeRef} (h : tableNumber t % 3 = tableNumber s % 3 + 1 ∨ tableNumber s % 3 = tableNumber t % 3 + 1) :
    80 ≤ apart (refRect ns s).origin.x ((refRect ns s).origin.x + (refRect ns s).size.width) (refRect ns t).origin.x
      ((refRect ns t).origin.x + (refRect ns t).size.width) := by
  have ex : ∀ r : NodeRef, (refRect ns r).origin.x = 50 + 380 * ((tableNumber r % 3 : Nat) : Rat) ∧ (refRect ns r).size.width = 300 := by
    intro r
    cases r <;> exact ⟨rfl, rfl⟩
  rw [(ex s).1, (ex s).2, (ex t).1, (ex t).2]
  unfold apart
  rcases h with h | h
  · refine le_trans ?_ ((le_max_left _ _).trans (le_max_right _ _))
    rw [h]
    push_cast
    linarith
  · refine le_trans ?_ ((le_max_right _ _).trans (le_max_right _ _))
    rw [h]
    push_cast
    linarith

/-- **C113.** For all tables and columns in the same or in neighbouring columns of the drawing: whatever is added at the end, the length of
the line between them changes by at most half of both heights, 80 if it is the same column of the drawing, and rounding. -/
theorem C113_tables {q : Queue} {QI : List Entry → Prop} (hq : q.Lawful QI) (m : Module) (more : List ModuleEntry)
    (hsize : (placeNodes m.intoMir).2.size.height ≤ 1000000000)
    (hsize' : (placeNodes (⟨m.name, m.entries ++ more⟩ : Module).intoMir).2.size.height ≤ 1000000000) (i : Nat) (s t : NodeRef)
    (hnear : tableNumber s % 3 ≤ tableNumber t % 3 + 1 ∧ tableNumber t % 3 ≤ tableNumber s % 3 + 1)
    (hi : (connections [] m.entries)[i]? = some (s, t)) :
    ∃ d g e ps d' g' e' ps', drawEdgePath q (laidOut m.intoMir) .new = .ok (d, g) ∧ d.edges[i]? = some e ∧ e.pathPoints = some ps ∧
      drawEdgePath q (laidOut (⟨m.name, m.entries ++ more⟩ : Module).intoMir) .new = .ok (d', g') ∧ d'.edges[i]? = some e' ∧
      e'.pathPoints = some ps' ∧
      |pathLength ps' - pathLength ps| ≤ ((refRect (lineNumbers (definitions m.entries)) s).size.height +
        (refRect (lineNumbers (definitions m.entries)) t).size.height) / 2 +
        (if tableNumber s % 3 = tableNumber t % 3 then 80 else 0) + slack ⟨m.name, m.entries ++ more⟩ := by
  have hi' : (connections [] (m.entries ++ more))[i]? = some (s, t) := by
    rw [connections_append, List.getElem?_append_left (List.getElem?_eq_some_iff.mp hi).1]
    exact hi
  obtain ⟨vs, vt⟩ := (ok_module m).valid _ (List.mem_of_getElem? hi)
  obtain ⟨d, g, e, ps, h1, h2, h3, u⟩ := C111_near hq m hsize i _ _ hi hnear
  obtain ⟨_, _, _, _, r1, r2, r3, l⟩ := C111_between hq m hsize i _ _ hi
  rw [h1] at r1; cases r1
  rw [h2] at r2; cases r2
  rw [h3] at r3; cases r3
  obtain ⟨d', g', e', ps', h1', h2', h3', u'⟩ := C111_near hq ⟨m.name, m.entries ++ more⟩ hsize' i _ _ hi' hnear
  obtain ⟨_, _, _, _, r1, r2, r3, l'⟩ := C111_between hq ⟨m.name, m.entries ++ more⟩ hsize' i _ _ hi'
  rw [h1'] at r1; cases r1
  rw [h2'] at r2; cases r2
  rw [h3'] at r3; cases r3
  refine ⟨d, g, e, ps, d', g', e', ps', h1, h2, h3, h1', h2', h3', ?_⟩
  simp only [midHeight, refRect_added m more vs, refRect_added m more vt] at u u' l l'
  have sl := slack_added m more
  have ma := mid_apart (refRect (lineNumbers (definitions m.entries)) s) (refRect (lineNumbers (definitions m.entries)) t)
  unfold between at l l'
  have gap : 80 ≤ apart (refRect (lineNumbers (definitions m.entries)) s).origin.x
      ((refRect (lineNumbers (definitions m.entries)) s).origin.x + (refRect (lineNumbers (definitions m.entries)) s).size.width)
      (refRect (lineNumbers (definitions m.entries)) t).origin.x
      ((refRect (lineNumbers (definitions m.entries)) t).origin.x + (refRect (lineNumbers (definitions m.entries)) t).size.width) +
      (if tableNumber s % 3 = tableNumber t % 3 then 80 else 0) := by
    by_cases hc : tableNumber s % 3 = tableNumber t % 3
    · rw [if_pos hc]
      have : 0 ≤ apart (refRect (lineNumbers (definitions m.entries)) s).origin.x
        ((refRect (lineNumbers (definitions m.entries)) s).origin.x + (refRect (lineNumbers (definitions m.entries)) s).size.width)
        (refRect (lineNumbers (definitions m.entries)) t).origin.x
        ((refRect (lineNumbers (definitions m.entries)) t).origin.x + (refRect (lineNumbers (definitions m.entries)) t).size.width) :=
        le_max_left _ _
      linarith
    · rw [if_neg hc, add_zero]
      exact gap_x (by omega)
  rw [abs_le]
  constructor <;> linarith

/-! ## Any two modules -/

/-- **C113.** In any two modules, the lines between two columns that stand at the same places, the tables in neighbouring columns of the
drawing, are equally long up to rounding: neither other tables nor other relations nor their order matter. -/
theorem C113_modules {q : Queue} {QI : List Entry → Prop} (hq : q.Lawful QI) (a b : Module)
    (ha : (placeNodes a.intoMir).2.size.height ≤ 1000000000) (hb : (placeNodes b.intoMir).2.size.height ≤ 1000000000) (i i' k j k' j' : Nat)
    (hcol : k' % 3 = k % 3 + 1 ∨ k % 3 = k' % 3 + 1)
    (hi : (connections [] a.entries)[i]? = some (.column k j, .column k' j'))
    (hi' : (connections [] b.entries)[i']? = some (.column k j, .column k' j'))
    (h1 : lineHeight (lineNumbers (definitions a.entries)) k j = lineHeight (lineNumbers (definitions b.entries)) k j)
    (h2 : lineHeight (lineNumbers (definitions a.entries)) k' j' = lineHeight (lineNumbers (definitions b.entries)) k' j') :
    ∃ d g e ps d' g' e' ps', drawEdgePath q (laidOut a.intoMir) .new = .ok (d, g) ∧ d.edges[i]? = some e ∧ e.pathPoints = some ps ∧
      drawEdgePath q (laidOut b.intoMir) .new = .ok (d', g') ∧ d'.edges[i']? = some e' ∧ e'.pathPoints = some ps' ∧
      |pathLength ps' - pathLength ps| ≤ max (slack a) (slack b) := by
  have hd : |((k % 3 : Nat) : Rat) - (k' % 3 : Nat)| = 1 := by
    rcases hcol with h | h <;> rw [h] <;> push_cast <;> norm_num
  obtain ⟨d, g, e, ps, e1, e2, e3, u⟩ := C111_near hq a ha i _ _ hi (by simp only [tableNumber]; omega)
  obtain ⟨_, _, _, _, r1, r2, r3, l⟩ := C111_at_least hq a ha i k j k' j' hi
  rw [e1] at r1; cases r1
  rw [e2] at r2; cases r2
  rw [e3] at r3; cases r3
  obtain ⟨d', g', e', ps', f1, f2, f3, u'⟩ := C111_near hq b hb i' _ _ hi' (by simp only [tableNumber]; omega)
  obtain ⟨_, _, _, _, r1, r2, r3, l'⟩ := C111_at_least hq b hb i' k j k' j' hi'
  rw [f1] at r1; cases r1
  rw [f2] at r2; cases r2
  rw [f3] at r3; cases r3
  refine ⟨d, g, e, ps, d', g', e', ps', e1, e2, e3, f1, f2, f3, ?_⟩
  rw [midHeight_column, midHeight_column, abs_sub_comm] at u u'
  rw [h1, h2, hd] at l
  rw [h1, h2] at u
  rw [hd] at l'
  have m1 := le_max_left (slack a) (slack b)
  have m2 := le_max_right (slack a) (slack b)
  rw [abs_le]
  constructor <;> linarith

/-! The first relation of `twoRows` (C109), with what is added in C112, and the relation of `threeInARow` (C92), with the relation that
makes it go around. -/

/-- They meet the hypotheses. -/
example : (connections [] twoRows.entries)[0]? = some (.column 0 0, .column 4 0) ∧ 4 % 3 = 0 % 3 + 1 ∧
    (placeNodes twoRows.intoMir).2.size.height ≤ 1000000000 ∧
    (placeNodes (⟨twoRows.name, twoRows.entries ++ addedLater⟩ : Module).intoMir).2.size.height ≤ 1000000000 := by
  refine ⟨by decide +kernel, rfl, by decide +kernel, by decide +kernel⟩

/-- A relation between two whole tables side by side. -/
def tablesBeside : Module := ⟨none, lettered [1, 3, 1] ++ [.relation ⟨.entity c!"b", .entity c!"c"⟩]⟩

example : (connections [] tablesBeside.entries)[0]? = some (.table 1, .table 2) ∧
    (placeNodes tablesBeside.intoMir).2.size.height ≤ 1000000000 ∧
    (placeNodes (⟨tablesBeside.name, tablesBeside.entries ++ addedLater⟩ : Module).intoMir).2.size.height ≤ 1000000000 := by
  refine ⟨by decide +kernel, by decide +kernel, by decide +kernel⟩

def intoTheMiddle : List ModuleEntry := [.relation ⟨.field c!"a" c!"a", .field c!"b" c!"a"⟩]

example : (connections [] threeInARow.entries)[0]? = some (.column 2 0, .column 0 0) ∧
    (placeNodes threeInARow.intoMir).2.size.height ≤ 1000000000 ∧
    (placeNodes (⟨threeInARow.name, threeInARow.entries ++ intoTheMiddle⟩ : Module).intoMir).2.size.height ≤ 1000000000 ∧
    (lineNumbers (definitions (threeInARow.entries ++ intoTheMiddle)))[3 * 0 + 1]? = some 2 ∧
    slack ⟨threeInARow.name, threeInARow.entries ++ intoTheMiddle⟩ = 28 := by
  refine ⟨by decide +kernel, by decide +kernel, by decide +kernel, by decide +kernel, by decide +kernel⟩

/-- Four tables, and a relation between the first and the one below it. -/
def firstAndFourth : Module := ⟨none, lettered [1, 2, 1, 2] ++ [.relation ⟨.field c!"d" c!"b", .field c!"a" c!"a"⟩]⟩

example : (connections [] firstAndFourth.entries)[0]? = some (.column 3 1, .column 0 0) ∧ 3 % 3 = 0 % 3 ∧
    (placeNodes firstAndFourth.intoMir).2.size.height ≤ 1000000000 ∧
    (placeNodes (⟨firstAndFourth.name, firstAndFourth.entries ++ intoTheMiddle⟩ : Module).intoMir).2.size.height ≤ 1000000000 := by
  refine ⟨by decide +kernel, rfl, by decide +kernel, by decide +kernel⟩

/-- Five tables with one relation, alone or after others. -/
def onlyFirst (rs : List ModuleEntry) : Module := ⟨none, lettered [2, 1, 1, 1, 1] ++ rs ++ [.relation ⟨.field c!"a" c!"a", .field c!"e" c!"a"⟩]⟩

/-- Two modules that meet the hypotheses of `C113_modules`. -/
example : (connections [] (onlyFirst []).entries)[0]? = some (.column 0 0, .column 4 0) ∧
    (connections [] (onlyFirst intoTheMiddle).entries)[1]? = some (.column 0 0, .column 4 0) ∧
    lineHeight (lineNumbers (definitions (onlyFirst []).entries)) 4 0 =
      lineHeight (lineNumbers (definitions (onlyFirst intoTheMiddle).entries)) 4 0 ∧
    (placeNodes (onlyFirst []).intoMir).2.size.height ≤ 1000000000 ∧
    (placeNodes (onlyFirst intoTheMiddle).intoMir).2.size.height ≤ 1000000000 := by
  refine ⟨by decide +kernel, by decide +kernel, by decide +kernel, by decide +kernel, by decide +kernel⟩

set_option maxRecDepth 1000000 in
/-- The line of `threeInARow` gets longer by 115; `C113_far` allows 150 and 28. -/
theorem C113_lines :
    (((pathsOf (drawEdgePath BinHeap.queue (laidOut threeInARow.intoMir) .new)).bind (·[0]?)).join.map pathLength) = some 460 ∧
    (((pathsOf (drawEdgePath BinHeap.queue (laidOut (⟨threeInARow.name, threeInARow.entries ++ intoTheMiddle⟩ : Module).intoMir) .new)).bind
      (·[0]?)).join.map pathLength) = some 575 := by
  decide +kernel

end Seiren
