import Verif.Props.Corners
import Verif.Proofs.Clearance
/-! # C91: how close the lines of relations come to tables -/

namespace Seiren
open Spec

/-- A path stays 5 away from each table, except where it ends at the table or passes through it. -/
def StaysClear (ns : List Nat) (ps : List Point) : Prop :=
  ∀ (k i w : Nat) (a b : Point), ps[k]? = some a → ps[k + 1]? = some b → ns[i]? = some w →
    Crosses (tableRect ns i w) a b ∨ Leaves (tableRect ns i w) a b ∨ Leaves (tableRect ns i w) b a ∨ ClearOf 5 (tableRect ns i w) a b

theorem box_table {ns : List Nat} {i w : Nat} (hi : ns[i]? = some w) : Grid.box ns (i % 3) (i / 3) w = tableRect ns i w := by
  have := (Grid.tab_of hi).rect
  rw [Nat.div_add_mod] at this
  exact this.symm

section
variable {q : Queue} {QI : List Entry → Prop} (hq : q.Lawful QI) (m : Module)
  (hsize : (placeNodes m.intoMir).2.size.height ≤ 1000000000) (doc' : Document) (g' : RouteGraph)
  (h : drawEdgePath q (laidOut m.intoMir) .new = .ok (doc', g')) (e : EdgeData) (he : e ∈ doc'.edges) (ps : List Point)
  (hps : e.pathPoints = some ps)
include hq hsize h he hps

/-- **C91**, points: each point of a path is on a side of the table, or 40 away from it. -/
theorem C91_points (p : Point) (hp : p ∈ ps) (i w : Nat) (hi : (lineNumbers (definitions m.entries))[i]? = some w) :
    (∃ o, OnSide (tableRect (lineNumbers (definitions m.entries)) i w) o p) ∨
      FarFrom 40 (tableRect (lineNumbers (definitions m.entries)) i w) p := by
  obtain ⟨con, -, ⟨⟨wk, -, hf⟩, -⟩, -⟩ := edge_route hq m hsize doc' g' h e he ps hps
  obtain ⟨hlen, hget⟩ := List.forall₂_iff_get.mp hf
  obtain ⟨k, hk, rfl⟩ := List.getElem_of_mem hp
  obtain ⟨n, hn, en⟩ := hget k (hlen ▸ hk) hk
  simp only [List.get_eq_getElem] at hn en
  have := Grid.place_beside (Grid.ok_module m) (List.mem_of_getElem? hn) (Grid.tab_of hi)
  rw [box_table hi, en] at this
  rcases this with ⟨o, -, ho⟩ | hb
  · exact .inl ⟨o, ho⟩
  · refine .inr (Grid.far_of ?_)
    unfold Grid.Beside at hb
    rw [← box_table hi]
    rcases hb with hb | hb | hb | hb
    · exact .inl hb
    · exact .inr (.inl (by simp only; linarith))
    · exact .inr (.inr (.inl hb))
    · exact .inr (.inr (.inr hb))

/-- **C91.** The full claim, `StaysClear`, is false (`C91_refuted`).  What holds for all modules: a line that neither passes through a
table nor ends at it runs along its lower side or stays 5 away from it; the former only if some relation ends at a whole table with an
odd number of columns. -/
theorem C91_clear_partial (k i w : Nat) (a b : Point) (ha : ps[k]? = some a) (hb : ps[k + 1]? = some b)
    (hi : (lineNumbers (definitions m.entries))[i]? = some w) :
    Crosses (tableRect (lineNumbers (definitions m.entries)) i w) a b ∨
      Leaves (tableRect (lineNumbers (definitions m.entries)) i w) a b ∨
      Leaves (tableRect (lineNumbers (definitions m.entries)) i w) b a ∨
      (AlongBottom (tableRect (lineNumbers (definitions m.entries)) i w) a b ∧
        ∃ c ∈ connections [] m.entries, ∃ k d, (c.1 = .table k ∨ c.2 = .table k) ∧ (definitions m.entries)[k]? = some d ∧
          d.fields.length % 2 = 1) ∨
      ClearOf 5 (tableRect (lineNumbers (definitions m.entries)) i w) a b := by
  obtain ⟨con, -, ⟨⟨wk, hw⟩, -⟩, -⟩ := edge_route hq m hsize doc' g' h e he ps hps
  obtain ⟨s, t, n, n', -, -, hn, hn', rfl, rfl, hr⟩ := follows_road hw ha hb
  have := Grid.road_clear (Grid.ok_module m) ⟨s, t, hn, hn', hr⟩ (Grid.tab_of hi)
  rw [box_table hi] at this
  rcases this with h1 | h1 | h1 | ⟨hodd, h1⟩ | h1
  · exact .inl h1
  · exact .inr (.inl h1)
  · exact .inr (.inr (.inl h1))
  · refine .inr (.inr (.inr (.inl ⟨h1, ?_⟩)))
    by_contra hno
    apply hodd
    apply oddTables_module
    intro c hc k d hk hd
    by_contra hne
    exact hno ⟨c, hc, k, d, hk, hd, by omega⟩
  · exact .inr (.inr (.inr (.inr h1)))

/-- **C91** if no relation ends at a whole table with an odd number of columns. -/
theorem C91_even_partial (heven : ∀ c ∈ connections [] m.entries, ∀ k d, c.1 = .table k ∨ c.2 = .table k →
    (definitions m.entries)[k]? = some d → d.fields.length % 2 = 0) : StaysClear (lineNumbers (definitions m.entries)) ps := by
  intro k i w a b ha hb hi
  rcases C91_clear_partial hq m hsize doc' g' h e he ps hps k i w a b ha hb hi with h1 | h1 | h1 | ⟨-, c, hc, k, d, hk, hd, h2⟩ | h1
  · exact .inl h1
  · exact .inr (.inl h1)
  · exact .inr (.inr (.inl h1))
  · have := heven c hc k d hk hd
    omega
  · exact .inr (.inr (.inr h1))

end

/-- Three tables with three columns, one, and three; a relation between the first and the last table. -/
def skirting : Module :=
  ⟨none, [.definition ⟨c!"a", [⟨c!"x", .int, none⟩, ⟨c!"y", .int, none⟩, ⟨c!"z", .int, none⟩]⟩,
    .definition ⟨c!"b", [⟨c!"x", .int, none⟩]⟩,
    .definition ⟨c!"c", [⟨c!"x", .int, none⟩, ⟨c!"y", .int, none⟩, ⟨c!"z", .int, none⟩]⟩, .relation ⟨.entity c!"a", .entity c!"c"⟩]⟩

set_option maxRecDepth 1000000 in
/-- **C91, refutation.** The line from (390, 120) to (770, 120) runs along the lower side of the second table, which is at height 120. -/
theorem C91_refuted : ∃ ps, pathsOf (drawEdgePath BinHeap.queue (laidOut skirting.intoMir) .new) = some [some ps] ∧
    (placeNodes skirting.intoMir).2.size.height ≤ 1000000000 ∧ ¬ StaysClear (lineNumbers (definitions skirting.entries)) ps := by
  refine ⟨[⟨350, 120⟩, ⟨390, 120⟩, ⟨770, 120⟩, ⟨810, 120⟩], by decide +kernel, by decide +kernel, ?_⟩
  intro h
  have hns : lineNumbers (definitions skirting.entries) = [4, 2, 4] := by decide +kernel
  rw [hns] at h
  have key := h 1 1 2 ⟨390, 120⟩ ⟨770, 120⟩ rfl rfl rfl
  have hr : tableRect [4, 2, 4] 1 2 = ⟨⟨430, 50⟩, ⟨300, 70⟩⟩ := by decide +kernel
  rw [hr] at key
  rcases key with ⟨t, -, -, -, -, -, h4⟩ | ⟨o, ho, -⟩ | ⟨o, ho, -⟩ | hc
  · norm_num [lerp] at h4
  · cases o <;> norm_num [OnSide] at ho
  · cases o <;> norm_num [OnSide] at ho
  · have := hc (1 / 2) (by norm_num) (by norm_num) ⟨580, 120⟩ ⟨by norm_num, by norm_num, by norm_num, by norm_num⟩
    norm_num [lerp] at this

/-- Three tables with one column, two, and one; a relation between the first table and the column of the last one. -/
def narrow : Module :=
  ⟨none, [.definition ⟨c!"a", [⟨c!"x", .int, none⟩]⟩, .definition ⟨c!"b", [⟨c!"x", .int, none⟩, ⟨c!"y", .int, none⟩]⟩,
    .definition ⟨c!"c", [⟨c!"x", .int, none⟩]⟩, .relation ⟨.entity c!"a", .field c!"c" c!"x"⟩]⟩

set_option maxRecDepth 1000000 in
/-- The distance 5 in **C91** cannot be increased: the second table ends at height 155, and the path runs below it at 160. -/
theorem C91_five : ∃ ps, pathsOf (drawEdgePath BinHeap.queue (laidOut narrow.intoMir) .new) = some [some ps] ∧
    (placeNodes narrow.intoMir).2.size.height ≤ 1000000000 ∧ (lineNumbers (definitions narrow.entries))[1]? = some 3 ∧
    ps[2]? = some ⟨390, 160⟩ ∧ ps[3]? = some ⟨770, 160⟩ ∧
    ∀ d, 5 < d → ¬ ClearOf d (tableRect (lineNumbers (definitions narrow.entries)) 1 3) ⟨390, 160⟩ ⟨770, 160⟩ := by
  refine ⟨[⟨350, 85⟩, ⟨390, 85⟩, ⟨390, 160⟩, ⟨770, 160⟩, ⟨770, 205 / 2⟩, ⟨810, 205 / 2⟩], by decide +kernel, by decide +kernel,
    by decide +kernel, rfl, rfl, ?_⟩
  intro d hd hc
  have hr : tableRect (lineNumbers (definitions narrow.entries)) 1 3 = ⟨⟨430, 50⟩, ⟨300, 105⟩⟩ := by decide +kernel
  rw [hr] at hc
  have := hc (1 / 2) (by norm_num) (by norm_num) ⟨580, 155⟩ ⟨by norm_num, by norm_num, by norm_num, by norm_num⟩
  norm_num [lerp] at this
  rcases this with h | h <;> linarith

set_option maxRecDepth 1000000 in
/-- `threeTables` meets the hypotheses of `C91_even_partial`. -/
example : (placeNodes threeTables.intoMir).2.size.height ≤ 1000000000 ∧
    (pathsOf (drawEdgePath BinHeap.queue (laidOut threeTables.intoMir) .new)).isSome = true ∧
    ∀ c ∈ connections [] threeTables.entries, ¬ ∃ k, c.1 = .table k ∨ c.2 = .table k := by
  refine ⟨by decide +kernel, by decide +kernel, ?_⟩
  have : connections [] threeTables.entries = [(.column 0 0, .column 2 1)] := by decide +kernel
  rw [this]
  simp

end Seiren
