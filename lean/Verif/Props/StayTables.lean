import Verif.Props.Additions
import Verif.Props.Above
/-! # C112 for whole tables

Lines between whole tables that are joined directly (C106) or straight down (C107) stay where they are as well. -/

namespace Seiren
open Spec Grid

theorem lineNumbers_added (m : Module) (more : List ModuleEntry) :
    lineNumbers (definitions (m.entries ++ more)) = lineNumbers (definitions m.entries) ++ lineNumbers (definitions more) := by
  rw [definitions_append]
  simp [lineNumbers]

theorem connection_added (m : Module) (more : List ModuleEntry) {i : Nat} {c : NodeRef × NodeRef}
    (hi : (connections [] m.entries)[i]? = some c) : (connections [] (m.entries ++ more))[i]? = some c := by
  rw [connections_append, List.getElem?_append_left (List.getElem?_eq_some_iff.mp hi).1]
  exact hi

theorem lineNumbers_lengths {ds ds' : List EntityDefinition} (h : ds.map (·.fields.length) = ds'.map (·.fields.length)) :
    lineNumbers ds = lineNumbers ds' := by
  have key : ∀ ds : List EntityDefinition, lineNumbers ds = (ds.map (·.fields.length)).map (· + 1) := by
    intro ds
    simp [lineNumbers, Function.comp_def]
  rw [key, key, h]

/-- The points of a straight line down. -/
theorem Spec.Plumb.covers {a b : Point} {ps : List Point} (h : Plumb a b ps) (hab : a ≠ b) (z : Point) :
    Covers ps z ↔ z.x = a.x ∧ Within a.y b.y z.y := by
  obtain ⟨hh, hl, hx, hp⟩ := h
  induction ps generalizing a with
  | nil => cases hh
  | cons p ps ih =>
    cases hh
    cases ps with
    | nil =>
      cases hl
      exact absurd rfl hab
    | cons p' ps =>
      have hl' : (p' :: ps).getLast? = some b := by simpa using hl
      rw [List.pairwise_cons] at hp
      have h1 := hp.1 p' (by simp)
      have ex := hx p' (by simp)
      rw [Covers, onSegment_upright ex.symm]
      by_cases hb : p' = b
      · subst hb
        have : ps = [] := by
          cases ps with
          | nil => rfl
          | cons p2 ps =>
            have hm : p' ∈ p2 :: ps := List.mem_of_getLast? (by simpa using hl')
            rw [List.pairwise_cons] at hp
            exact absurd (hp.2.1 _ hm) (lt_irrefl _)
        subst this
        simp [Covers]
      · have h2 : p'.y ≤ b.y := by
          cases ps with
          | nil => cases hl'; exact absurd rfl hb
          | cons p2 ps =>
            have hm : b ∈ p2 :: ps := List.mem_of_getLast? (by simpa using hl')
            rw [List.pairwise_cons] at hp
            exact (hp.2.1 _ hm).le
        rw [ih hb rfl hl' (fun q hq => (hx q (List.mem_cons_of_mem _ hq)).trans ex.symm) hp.2, ex, ← within_down h1.le h2]
        tauto

theorem onSegment_comm {a b z : Point} : OnSegment a b z ↔ OnSegment b a z := by
  have key : ∀ {a b : Point}, OnSegment a b z → OnSegment b a z := by
    rintro a b ⟨t, h0, h1, rfl⟩
    refine ⟨1 - t, by linarith, by linarith, ?_⟩
    simp only [lerp, Point.mk.injEq]
    constructor <;> ring
  exact ⟨key, key⟩

theorem covers_two (ps : List Point) (a b z : Point) : Covers (ps ++ [a, b]) z ↔ Covers (ps ++ [a]) z ∨ OnSegment a b z := by
  induction ps with
  | nil => simp [Covers]
  | cons p ps ih =>
    cases ps with
    | nil => simp [Covers]
    | cons p' ps =>
      simp only [List.cons_append, Covers] at ih ⊢
      rw [ih]
      tauto

/-- A path covers the same points in both directions. -/
theorem covers_reverse (ps : List Point) (z : Point) : Covers ps.reverse z ↔ Covers ps z := by
  induction ps with
  | nil => rfl
  | cons p ps ih =>
    cases ps with
    | nil => rfl
    | cons p' ps =>
      rw [List.reverse_cons] at ih
      rw [List.reverse_cons, List.reverse_cons, List.append_assoc, List.singleton_append, covers_two, ih, onSegment_comm, Covers]
      tauto

/-- Straight down from the lower side of the table with number `k` to the row below. -/
def Spec.OnPlumbLine (ns : List Nat) (k n : Nat) (z : Point) : Prop :=
  z.x = 200 + 380 * ((k % 3 : Nat) : Rat) ∧ Within (rowTop ns (k / 3) + 35 * (n : Rat)) (rowTop ns (k / 3 + 1)) z.y

/-- **C112.** The line between a table, or its last column, and the table below covers exactly the points straight between them. -/
theorem C112_straight {q : Queue} {QI : List Entry → Prop} (hq : q.Lawful QI) (m : Module)
    (hsize : (placeNodes m.intoMir).2.size.height ≤ 1000000000) (i k n : Nat) (s : NodeRef)
    (hn : (lineNumbers (definitions m.entries))[k]? = some n) (hs : AtBottom (lineNumbers (definitions m.entries)) k s)
    (hi : (connections [] m.entries)[i]? = some (s, .table (k + 3)) ∨ (connections [] m.entries)[i]? = some (.table (k + 3), s)) :
    ∃ d g e ps, drawEdgePath q (laidOut m.intoMir) .new = .ok (d, g) ∧ d.edges[i]? = some e ∧ e.pathPoints = some ps ∧
      ∀ z, Covers ps z ↔ OnPlumbLine (lineNumbers (definitions m.entries)) k n z := by
  have hne : (⟨200 + 380 * ((k % 3 : Nat) : Rat), rowTop (lineNumbers (definitions m.entries)) (k / 3) + 35 * (n : Rat)⟩ : Point) ≠
      ⟨200 + 380 * ((k % 3 : Nat) : Rat), rowTop (lineNumbers (definitions m.entries)) (k / 3 + 1)⟩ := by
    intro h
    have h := (Point.mk.injEq _ _ _ _ ▸ h : _ ∧ _).2
    have := (tab_of hn).apart (r' := k / 3 + 1) (by omega)
    linarith
  rcases hi with hi | hi
  · obtain ⟨d, g, e, ps, h1, h2, h3, h4⟩ := C107_down hq m hsize i k n s hi hn hs
    exact ⟨d, g, e, ps, h1, h2, h3, h4.covers hne⟩
  · obtain ⟨d, g, e, ps, h1, h2, h3, h4⟩ := C107_up hq m hsize i k n s hi hn hs
    exact ⟨d, g, e, ps, h1, h2, h3, fun z => by rw [← covers_reverse, h4.covers hne]; rfl⟩

/-- **C112.** Whatever is added at the end of a module, this line covers the same points as before. -/
theorem C112_below {q : Queue} {QI : List Entry → Prop} (hq : q.Lawful QI) (m : Module) (more : List ModuleEntry)
    (hsize : (placeNodes m.intoMir).2.size.height ≤ 1000000000)
    (hsize' : (placeNodes (⟨m.name, m.entries ++ more⟩ : Module).intoMir).2.size.height ≤ 1000000000) (i k : Nat) (s : NodeRef)
    (hs : AtBottom (lineNumbers (definitions m.entries)) k s)
    (hi : (connections [] m.entries)[i]? = some (s, .table (k + 3)) ∨ (connections [] m.entries)[i]? = some (.table (k + 3), s)) :
    ∃ d g e ps d' g' e' ps', drawEdgePath q (laidOut m.intoMir) .new = .ok (d, g) ∧ d.edges[i]? = some e ∧ e.pathPoints = some ps ∧
      drawEdgePath q (laidOut (⟨m.name, m.entries ++ more⟩ : Module).intoMir) .new = .ok (d', g') ∧ d'.edges[i]? = some e' ∧
      e'.pathPoints = some ps' ∧ ∀ z, Covers ps z ↔ Covers ps' z := by
  obtain ⟨n', hn'⟩ : ValidRef (lineNumbers (definitions m.entries)) (.table (k + 3)) := by
    rcases hi with hi | hi
    · exact ((ok_module m).valid _ (List.mem_of_getElem? hi)).2
    · exact ((ok_module m).valid _ (List.mem_of_getElem? hi)).1
  have hlt := (List.getElem?_eq_some_iff.mp hn').1
  obtain ⟨n, hn⟩ : ∃ n, (lineNumbers (definitions m.entries))[k]? = some n := ⟨_, List.getElem?_eq_getElem (by omega)⟩
  have hn2 : (lineNumbers (definitions (m.entries ++ more)))[k]? = some n := by
    rw [lineNumbers_added, List.getElem?_append_left (by omega), hn]
  have hs2 : AtBottom (lineNumbers (definitions (m.entries ++ more))) k s := by
    cases s with
    | table j => exact hs
    | column j l => exact ⟨hs.1, by rw [hn2, ← hn]; exact hs.2⟩
  obtain ⟨d, g, e, ps, h1, h2, h3, h4⟩ := C112_straight hq m hsize i k n s hn hs hi
  obtain ⟨d', g', e', ps', h1', h2', h3', h4'⟩ := C112_straight hq ⟨m.name, m.entries ++ more⟩ hsize' i k n s hn2 hs2
    (hi.imp (connection_added m more) (connection_added m more))
  refine ⟨d, g, e, ps, d', g', e', ps', h1, h2, h3, h1', h2', h3', fun z => ?_⟩
  rw [h4, h4']
  simp only [OnPlumbLine, lineNumbers_added]
  rw [rowTop_prefix _ _ _ (by omega), rowTop_prefix _ _ _ (by omega)]

/-- **C112.** The same for tables or columns side by side that are joined directly (C106). -/
theorem C112_beside {q : Queue} {QI : List Entry → Prop} (hq : q.Lawful QI) (m : Module) (more : List ModuleEntry)
    (hsize : (placeNodes m.intoMir).2.size.height ≤ 1000000000)
    (hsize' : (placeNodes (⟨m.name, m.entries ++ more⟩ : Module).intoMir).2.size.height ≤ 1000000000) (i : Nat) (s t : NodeRef)
    (hst : SideBySide s t) (hnear : Near (lineNumbers (definitions m.entries)) s t)
    (hi : (connections [] m.entries)[i]? = some (s, t) ∨ (connections [] m.entries)[i]? = some (t, s)) :
    ∃ d g e ps d' g' e' ps', drawEdgePath q (laidOut m.intoMir) .new = .ok (d, g) ∧ d.edges[i]? = some e ∧ e.pathPoints = some ps ∧
      drawEdgePath q (laidOut (⟨m.name, m.entries ++ more⟩ : Module).intoMir) .new = .ok (d', g') ∧ d'.edges[i]? = some e' ∧
      e'.pathPoints = some ps' ∧ ∀ z, Covers ps z ↔ Covers ps' z := by
  obtain ⟨vs, vt⟩ : ValidRef (lineNumbers (definitions m.entries)) s ∧ ValidRef (lineNumbers (definitions m.entries)) t := by
    rcases hi with hi | hi
    · exact (ok_module m).valid _ (List.mem_of_getElem? hi)
    · exact ((ok_module m).valid _ (List.mem_of_getElem? hi)).symm
  have es := refRect_added m more vs
  have et := refRect_added m more vt
  have hnear' : Near (lineNumbers (definitions (m.entries ++ more))) s t := by
    unfold Near at hnear ⊢
    rw [es, et]
    exact hnear
  rcases hi with hi | hi
  · obtain ⟨d, g, e, ps, h1, h2, h3, h4⟩ := C106_to_the_right hq m hsize i s t hi hst hnear
    obtain ⟨d', g', e', ps', h1', h2', h3', h4'⟩ := C106_to_the_right hq ⟨m.name, m.entries ++ more⟩ hsize' i s t (connection_added m more hi) hst hnear'
    refine ⟨d, g, e, ps, d', g', e', ps', h1, h2, h3, h1', h2', h3', fun z => ?_⟩
    simp only [es, et] at h4'
    rw [h4.covers, h4'.covers]
  · obtain ⟨d, g, e, ps, h1, h2, h3, h4⟩ := C106_to_the_left hq m hsize i s t hi hst hnear
    obtain ⟨d', g', e', ps', h1', h2', h3', h4'⟩ := C106_to_the_left hq ⟨m.name, m.entries ++ more⟩ hsize' i s t (connection_added m more hi) hst hnear'
    refine ⟨d, g, e, ps, d', g', e', ps', h1, h2, h3, h1', h2', h3', fun z => ?_⟩
    simp only [es, et] at h4'
    rw [h4.covers, h4'.covers]

/-- **C112.** What other relations there are, and in which order, does not matter to such lines: in modules whose tables have the same
numbers of columns they cover the same points (compare C72). -/
theorem C112_other_relations {q : Queue} {QI : List Entry → Prop} (hq : q.Lawful QI) (m m' : Module)
    (hsize : (placeNodes m.intoMir).2.size.height ≤ 1000000000) (hsize' : (placeNodes m'.intoMir).2.size.height ≤ 1000000000)
    (hns : (definitions m.entries).map (·.fields.length) = (definitions m'.entries).map (·.fields.length)) (i i' k j k' j' : Nat)
    (hcol : k' % 3 = k % 3 + 1 ∨ k % 3 = k' % 3 + 1) (hrow : RowsWithin 8 k k')
    (hi : (connections [] m.entries)[i]? = some (.column k j, .column k' j'))
    (hi' : (connections [] m'.entries)[i']? = some (.column k j, .column k' j')) :
    ∃ d g e ps d' g' e' ps', drawEdgePath q (laidOut m.intoMir) .new = .ok (d, g) ∧ d.edges[i]? = some e ∧ e.pathPoints = some ps ∧
      drawEdgePath q (laidOut m'.intoMir) .new = .ok (d', g') ∧ d'.edges[i']? = some e' ∧
      e'.pathPoints = some ps' ∧ ∀ z, Covers ps z ↔ Covers ps' z := by
  have hl := lineNumbers_lengths hns
  obtain ⟨d, g, e, ps, h1, h2, h3, h4⟩ := C112_points hq m hsize i k j k' j' hcol hrow hi
  obtain ⟨d', g', e', ps', h1', h2', h3', h4'⟩ := C112_points hq m' hsize' i' k j k' j' hcol hrow hi'
  refine ⟨d, g, e, ps, d', g', e', ps', h1, h2, h3, h1', h2', h3', fun z => ?_⟩
  rw [h4, h4', hl]

/-- **C112.** The same for straight lines. -/
theorem C112_other_relations_below {q : Queue} {QI : List Entry → Prop} (hq : q.Lawful QI) (m m' : Module)
    (hsize : (placeNodes m.intoMir).2.size.height ≤ 1000000000) (hsize' : (placeNodes m'.intoMir).2.size.height ≤ 1000000000)
    (hns : (definitions m.entries).map (·.fields.length) = (definitions m'.entries).map (·.fields.length)) (i i' k : Nat) (s : NodeRef)
    (hs : AtBottom (lineNumbers (definitions m.entries)) k s)
    (hi : (connections [] m.entries)[i]? = some (s, .table (k + 3)) ∨ (connections [] m.entries)[i]? = some (.table (k + 3), s))
    (hi' : (connections [] m'.entries)[i']? = some (s, .table (k + 3)) ∨ (connections [] m'.entries)[i']? = some (.table (k + 3), s)) :
    ∃ d g e ps d' g' e' ps', drawEdgePath q (laidOut m.intoMir) .new = .ok (d, g) ∧ d.edges[i]? = some e ∧ e.pathPoints = some ps ∧
      drawEdgePath q (laidOut m'.intoMir) .new = .ok (d', g') ∧ d'.edges[i']? = some e' ∧
      e'.pathPoints = some ps' ∧ ∀ z, Covers ps z ↔ Covers ps' z := by
  have hl := lineNumbers_lengths hns
  obtain ⟨n', hn'⟩ : ValidRef (lineNumbers (definitions m.entries)) (.table (k + 3)) := by
    rcases hi with hi | hi
    · exact ((ok_module m).valid _ (List.mem_of_getElem? hi)).2
    · exact ((ok_module m).valid _ (List.mem_of_getElem? hi)).1
  have hlt := (List.getElem?_eq_some_iff.mp hn').1
  obtain ⟨n, hn⟩ : ∃ n, (lineNumbers (definitions m.entries))[k]? = some n := ⟨_, List.getElem?_eq_getElem (by omega)⟩
  obtain ⟨d, g, e, ps, h1, h2, h3, h4⟩ := C112_straight hq m hsize i k n s hn hs hi
  obtain ⟨d', g', e', ps', h1', h2', h3', h4'⟩ := C112_straight hq m' hsize' i' k n s (hl ▸ hn) (hl ▸ hs) hi'
  refine ⟨d, g, e, ps, d', g', e', ps', h1, h2, h3, h1', h2', h3', fun z => ?_⟩
  rw [h4, h4', hl]

/-! The module of C107, with two tables of three columns in the row of the lower table and a relation added; that of C106, with a table. -/

/-- They meet the hypotheses. -/
example : (connections [] oneAbove.entries)[0]? = some (.column 0 0, .table (0 + 3)) ∧
    (connections [] oneAbove.entries)[1]? = some (.table (0 + 3), .table 0) ∧
    (lineNumbers (definitions oneAbove.entries))[0]? = some 2 ∧ AtBottom (lineNumbers (definitions oneAbove.entries)) 0 (.column 0 0) ∧
    AtBottom (lineNumbers (definitions oneAbove.entries)) 0 (.table 0) ∧ (placeNodes oneAbove.intoMir).2.size.height ≤ 1000000000 ∧
    (placeNodes (⟨oneAbove.name, oneAbove.entries ++ addedLater⟩ : Module).intoMir).2.size.height ≤ 1000000000 :=
  ⟨by decide +kernel, by decide +kernel, by decide +kernel, ⟨rfl, by decide +kernel⟩, rfl, by decide +kernel, by decide +kernel⟩

example : (connections [] sideBySide.entries)[1]? = some (.column 1 1, .column 0 0) ∧ SideBySide (.column 0 0) (.column 1 1) ∧
    Near (lineNumbers (definitions sideBySide.entries)) (.column 0 0) (.column 1 1) ∧
    (placeNodes sideBySide.intoMir).2.size.height ≤ 1000000000 ∧
    (placeNodes (⟨sideBySide.name, sideBySide.entries ++ addedLater⟩ : Module).intoMir).2.size.height ≤ 1000000000 :=
  ⟨by decide +kernel, ⟨rfl, by decide⟩, .inr ⟨0, 0, 1, rfl, rfl⟩, by decide +kernel, by decide +kernel⟩

/-- The relations of `oneAbove` twice, those of `sideBySide` the other way round. -/
example : (definitions oneAbove.entries).map (·.fields.length) = (definitions (oneAbove.entries ++ oneAbove.entries.drop 4)).map (·.fields.length) ∧
    (connections [] (oneAbove.entries ++ oneAbove.entries.drop 4))[2]? = some (.column 0 0, .table (0 + 3)) ∧
    (definitions sideBySide.entries).map (·.fields.length) =
      (definitions (sideBySide.entries.take 2 ++ (sideBySide.entries.drop 2).reverse)).map (·.fields.length) ∧
    (connections [] (sideBySide.entries.take 2 ++ (sideBySide.entries.drop 2).reverse))[0]? = some (.column 1 1, .column 0 0) :=
  ⟨by decide +kernel, by decide +kernel, by decide +kernel, by decide +kernel⟩

end Seiren
