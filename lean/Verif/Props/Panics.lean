import Verif.Props.Drawing
/-! # C86: the ways in which the program can fail to draw a module -/

namespace Seiren
open Spec

/-- **C86.** Drawing a module fails in two ways only.  The first relation that cannot be drawn decides: if its ends have a port at the
same place, the program panics because the path has less than two points (renderer.rs:288), otherwise because the path turns back
(renderer.rs:357).  The other panics of the code (layout.rs:112, 512, 700, 818, 846) and the error `InvalidLayout` do not occur. -/
theorem C86_failures {q : Queue} {QI : List Entry → Prop} (hq : q.Lawful QI) (m : Module)
    (hsize : (placeNodes m.intoMir).2.size.height ≤ 1000000000) (x : RenderError) (h : drawModule q m = .error x) :
    ∃ pre s t post, connections [] m.entries = pre ++ (s, t) :: post ∧ (∀ c ∈ pre, ¬ Meet (definitions m.entries) c.1 c.2) ∧
      ((Meet (definitions m.entries) s t ∧ x = .panic .pathTooShort) ∨
        (¬ Meet (definitions m.entries) s t ∧ ∃ k, x = .panic (.turnaround (k + 1)))) := by
  obtain ⟨doc', g', h1, hn, hb, hps, hmap⟩ := drawn_connections hq m hsize
  rw [drawModule_eq, h1] at h
  simp only at h
  cases x with
  | invalidLayout id => exact absurd h (C42_never_after_layout hq _ (drawable_intoMir m) hsize h1 _ id)
  | panic p =>
    obtain ⟨-, l, e, l', ps, hl, hcan, hpe, hpd⟩ := (C42_panic_exact _ _ _).mp h
    have hlen : doc'.edges.length = (connections [] m.entries).length := by
      simpa using congrArg List.length hmap
    -- the connection of an edge
    have hconn : ∀ (i : Nat) (e : EdgeData) (ps : List Point), doc'.edges[i]? = some e → e.pathPoints = some ps →
        ∃ s t, (connections [] m.entries)[i]? = some (s, t) ∧ (ps.length = 1 ↔ Meet (definitions m.entries) s t) := by
      intro i e ps he hpe
      have hi : i < (connections [] m.entries).length := by
        rw [← hlen]; exact (List.getElem?_eq_some_iff.mp he).1
      exact ⟨_, _, List.getElem?_eq_getElem hi, C41_self_relations_partial hq m hsize doc' g' h1 i _ _ e ps
        (List.getElem?_eq_getElem hi) he hpe⟩
    have hel : doc'.edges[l.length]? = some e := by rw [hl]; simp
    obtain ⟨s, t, hst, hiff⟩ := hconn _ e ps hel hpe
    obtain ⟨hlt, hst'⟩ := List.getElem?_eq_some_iff.mp hst
    refine ⟨(connections [] m.entries).take l.length, s, t, (connections [] m.entries).drop (l.length + 1), ?_, ?_, ?_⟩
    · rw [← hst', List.cons_getElem_drop_succ, List.take_append_drop]
    · intro c hc hmeet
      obtain ⟨i, hi⟩ := List.getElem?_of_mem hc
      have hil : i < l.length := by
        have := (List.getElem?_eq_some_iff.mp hi).1
        rw [List.length_take] at this; omega
      rw [List.getElem?_take_of_lt hil] at hi
      have hei : doc'.edges[i]? = some l[i] := by
        rw [hl, List.getElem?_append_left hil, List.getElem?_eq_getElem hil]
      obtain ⟨ps', d, h2, h3⟩ := hcan l[i] (List.getElem_mem hil)
      obtain ⟨s', t', h4, h5⟩ := hconn i _ ps' hei h2
      rw [hi] at h4
      cases h4
      have := (C46_turnaround_exact ps' .pathTooShort).mpr (Or.inl ⟨by have := h5.mpr hmeet; omega, rfl⟩)
      rw [h3] at this
      cases this
    · rcases (C46_turnaround_exact ps p).mp hpd with ⟨hshort, rfl⟩ | ⟨k, hk, -, rfl⟩
      · left
        refine ⟨hiff.mp ?_, rfl⟩
        obtain ⟨ps', h2, h3⟩ := hps e (List.mem_of_getElem? hel)
        rw [hpe] at h2; cases h2
        have := List.length_pos_iff.mpr h3
        omega
      · right
        refine ⟨fun hmeet => ?_, k, rfl⟩
        have h1l := hiff.mpr hmeet
        obtain ⟨a, b, c, d, ha, hb', -⟩ := hk
        have := (List.getElem?_eq_some_iff.mp hb').1
        omega

/-- **C86**, consequences: a module without relations is always drawn; one whose first relation has both ends at the same port never is,
and the reason is always the same. -/
theorem C86_first {q : Queue} {QI : List Entry → Prop} (hq : q.Lawful QI) (m : Module)
    (hsize : (placeNodes m.intoMir).2.size.height ≤ 1000000000) :
    (connections [] m.entries = [] → ∃ el, drawModule q m = .ok el) ∧
    ∀ c, (connections [] m.entries).head? = some c → Meet (definitions m.entries) c.1 c.2 →
      drawModule q m = .error (.panic .pathTooShort) := by
  constructor
  · intro hc
    cases hd : drawModule q m with
    | ok el => exact ⟨el, rfl⟩
    | error x =>
      obtain ⟨pre, s, t, post, h1, -⟩ := C86_failures hq m hsize x hd
      rw [hc] at h1
      simp at h1
  · intro c hc hmeet
    obtain ⟨p, hp⟩ := C41_refuted hq m hsize c.1 c.2 (List.mem_of_mem_head? hc) hmeet
    obtain ⟨pre, s, t, post, h1, h2, h3⟩ := C86_failures hq m hsize _ hp
    cases pre with
    | cons y ys =>
      rw [h1] at hc
      simp only [List.cons_append, List.head?_cons, Option.some.injEq] at hc
      subst hc
      exact absurd hmeet (h2 _ (by simp))
    | nil =>
      rw [h1] at hc
      simp only [List.nil_append, List.head?_cons, Option.some.injEq] at hc
      subst hc
      rcases h3 with ⟨-, h3⟩ | ⟨h3, -⟩
      · rw [hp, h3]
      · exact absurd hmeet h3

/-- The points of the path of relation `i`. -/
def Spec.routeAt (doc : Document) (i : Nat) : Option (List Point) := (doc.edges[i]?).bind EdgeData.pathPoints

/-- A path that can be drawn: at least two points, and no turning back. -/
def Spec.GoesOn (ps : List Point) : Prop := 2 ≤ ps.length ∧ ∀ k, ¬ TurnsBack ps k

theorem goesOn_iff (ps : List Point) : GoesOn ps ↔ ∃ d, pathData ps = .ok d := by
  constructor
  · rintro ⟨h1, h2⟩
    cases h : pathData ps with
    | ok d => exact ⟨d, rfl⟩
    | error p =>
      rcases (C46_turnaround_exact ps p).mp h with ⟨h3, -⟩ | ⟨k, h3, -⟩
      · omega
      · exact absurd h3 (h2 k)
  · rintro ⟨d, hd⟩
    constructor
    · by_contra hlt
      have := (C46_turnaround_exact ps .pathTooShort).mpr (Or.inl ⟨by omega, rfl⟩)
      rw [hd] at this; cases this
    · intro k hk
      classical
      have hex : ∃ k, TurnsBack ps k := ⟨k, hk⟩
      have := (C46_turnaround_exact ps (.turnaround (Nat.find hex + 1))).mpr
        (Or.inr ⟨Nat.find hex, Nat.find_spec hex, fun j hj => Nat.find_min hex hj, rfl⟩)
      rw [hd] at this; cases this

/-- **C86**, exactly: drawing fails with `x` if and only if some relation is the first one whose path cannot be drawn, and `x` is the
panic for its path: too short if its ends share a port, otherwise a turnaround at the first place where the path turns back. -/
theorem C86_exact {q : Queue} {QI : List Entry → Prop} (hq : q.Lawful QI) (m : Module)
    (hsize : (placeNodes m.intoMir).2.size.height ≤ 1000000000) (x : RenderError) :
    drawModule q m = .error x ↔
      ∃ doc' g' pre s t post ps, drawEdgePath q (laidOut m.intoMir) .new = .ok (doc', g') ∧
        connections [] m.entries = pre ++ (s, t) :: post ∧
        (∀ i < pre.length, ∃ ps, routeAt doc' i = some ps ∧ GoesOn ps) ∧ routeAt doc' pre.length = some ps ∧
        ((Meet (definitions m.entries) s t ∧ x = .panic .pathTooShort) ∨
          (¬ Meet (definitions m.entries) s t ∧ ∃ k, TurnsBack ps k ∧ (∀ j < k, ¬ TurnsBack ps j) ∧ x = .panic (.turnaround (k + 1)))) := by
  obtain ⟨doc', g', h1, hn, hb, hps, hmap⟩ := drawn_connections hq m hsize
  have hlen : doc'.edges.length = (connections [] m.entries).length := by
    simpa using congrArg List.length hmap
  have hmeet : ∀ (i : Nat) (s t : NodeRef) (ps : List Point), (connections [] m.entries)[i]? = some (s, t) →
      routeAt doc' i = some ps → (ps.length < 2 ↔ Meet (definitions m.entries) s t) := by
    intro i s t ps hst hl
    obtain ⟨e, he, hpe⟩ := Option.bind_eq_some_iff.mp hl
    rw [← C41_self_relations_partial hq m hsize doc' g' h1 i s t e ps hst he hpe]
    obtain ⟨ps', h2, h3⟩ := hps e (List.mem_of_getElem? he)
    rw [hpe] at h2; cases h2
    have := List.length_pos_iff.mpr h3
    omega
  have hplaced : unplaced doc' = [] := by
    cases hr : render (some (placeNodes m.intoMir).2) doc' with
    | ok el => exact ((C42_ok_exact _ _).mp ⟨el, hr⟩).1
    | error x =>
      cases x with
      | invalidLayout id => exact absurd hr (C42_never_after_layout hq _ (drawable_intoMir m) hsize h1 _ id)
      | panic p => exact ((C42_panic_exact _ _ _).mp hr).1
  rw [drawModule_eq, h1]
  simp only
  constructor
  · intro h
    cases x with
    | invalidLayout id => exact absurd h (C42_never_after_layout hq _ (drawable_intoMir m) hsize h1 _ id)
    | panic p =>
      obtain ⟨-, l, e, l', ps, hl, hcan, hpe, hpd⟩ := (C42_panic_exact _ _ _).mp h
      have hi : l.length < (connections [] m.entries).length := by rw [← hlen, hl]; simp
      have hline : routeAt doc' l.length = some ps := by simp [routeAt, hl, hpe]
      obtain ⟨⟨s, t⟩, hst⟩ : ∃ c, (connections [] m.entries)[l.length]? = some c := ⟨_, List.getElem?_eq_getElem hi⟩
      have hpre : ((connections [] m.entries).take l.length).length = l.length := by rw [List.length_take]; omega
      refine ⟨doc', g', (connections [] m.entries).take l.length, s, t, (connections [] m.entries).drop (l.length + 1), ps, rfl, ?_, ?_, ?_, ?_⟩
      · have := (List.getElem?_eq_some_iff.mp hst).2
        rw [← this, List.cons_getElem_drop_succ, List.take_append_drop]
      · rw [hpre]
        intro i hil
        obtain ⟨ps', d, h2, h3⟩ := hcan l[i] (List.getElem_mem hil)
        exact ⟨ps', by simp [routeAt, hl, List.getElem?_append_left hil, List.getElem?_eq_getElem hil, h2], (goesOn_iff ps').mpr ⟨d, h3⟩⟩
      · rw [hpre]; exact hline
      · have hiff := hmeet _ s t ps hst hline
        rcases (C46_turnaround_exact ps p).mp hpd with ⟨hshort, rfl⟩ | ⟨k, hk, hmin, rfl⟩
        · exact Or.inl ⟨hiff.mp hshort, rfl⟩
        · refine Or.inr ⟨fun hm => ?_, k, hk, hmin, rfl⟩
          have := hiff.mpr hm
          obtain ⟨a, b, c, d, ha, hb', -⟩ := hk
          have := (List.getElem?_eq_some_iff.mp hb').1
          omega
  · rintro ⟨doc2, g2, pre, s, t, post, ps, h2, hc, hgo, hline, hx⟩
    cases h2
    have hst : (connections [] m.entries)[pre.length]? = some (s, t) := by rw [hc]; simp
    have hiff := hmeet _ s t ps hst hline
    obtain ⟨e, he, hpe⟩ := Option.bind_eq_some_iff.mp hline
    have hsplit : doc'.edges = doc'.edges.take pre.length ++ e :: doc'.edges.drop (pre.length + 1) := by
      have := (List.getElem?_eq_some_iff.mp he).2
      rw [← this, List.cons_getElem_drop_succ, List.take_append_drop]
    have hcan : ∀ y ∈ doc'.edges.take pre.length, CanDraw y := by
      intro y hy
      obtain ⟨i, hi⟩ := List.getElem?_of_mem hy
      have hil : i < pre.length := by
        have := (List.getElem?_eq_some_iff.mp hi).1
        rw [List.length_take] at this; omega
      rw [List.getElem?_take_of_lt hil] at hi
      obtain ⟨ps', h3, h4⟩ := hgo i hil
      obtain ⟨d, hd⟩ := (goesOn_iff ps').mp h4
      rw [routeAt, hi] at h3
      exact ⟨ps', d, h3, hd⟩
    rcases hx with ⟨hm, rfl⟩ | ⟨hm, k, hk, hmin, rfl⟩
    · exact (C42_panic_exact _ _ _).mpr ⟨hplaced, _, e, _, ps, hsplit, hcan, hpe,
        (C46_turnaround_exact ps _).mpr (Or.inl ⟨hiff.mpr hm, rfl⟩)⟩
    · exact (C42_panic_exact _ _ _).mpr ⟨hplaced, _, e, _, ps, hsplit, hcan, hpe,
        (C46_turnaround_exact ps _).mpr (Or.inr ⟨k, hk, hmin, rfl⟩)⟩

/-- The module `turnaround` of C40, with another relation that joins a column to itself, before or behind its relation. -/
def withSelf (first : Bool) : Module :=
  let self : ModuleEntry := .relation ⟨.field c!"a" c!"x", .field c!"a" c!"x"⟩
  ⟨none, if first then turnaround.entries.take 4 ++ self :: turnaround.entries.drop 4 else turnaround.entries ++ [self]⟩

set_option maxRecDepth 1000000 in
/-- The first relation that cannot be drawn decides. -/
example : (placeNodes (withSelf true).intoMir).2.size.height = 320 ∧
    connections [] (withSelf true).entries = [(.column 0 0, .column 0 0), (.table 0, .column 3 0)] ∧
    panicOf (drawModule BinHeap.queue (withSelf true)) = some .pathTooShort ∧
    connections [] (withSelf false).entries = [(.table 0, .column 3 0), (.column 0 0, .column 0 0)] ∧
    panicOf (drawModule BinHeap.queue (withSelf false)) = some (.turnaround 2) := by
  decide +kernel

end Seiren
