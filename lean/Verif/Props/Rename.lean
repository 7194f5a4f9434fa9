import Verif.Proofs.Rename
import Mathlib.Tactic.Linarith
/-! # C70: names do not matter to the drawing -/

namespace Seiren

open Spec

/-- **C70.** Give the tables of a module new names, and the columns of every table new names, so that different names stay
different.  The new drawing is the old one except for the contents of texts: same elements in the same order with the same
attributes, or the same failure. -/
theorem C70_renaming (q : Queue) {f : Str → Str} {g : Str → Str → Str} (hf : Function.Injective f)
    (hg : ∀ e, Function.Injective (g e)) {a b : Module} (h : Renaming f g a b) :
    (drawModule q a).map withoutTexts = (drawModule q b).map withoutTexts := by
  have hm : a.intoMir.reshape blankTitle = b.intoMir.reshape blankTitle := by
    refine intoMir_reshape (renamePath_injective hf hg) (fun _ _ => rfl) ?_ h
    rintro ⟨n, ty, k⟩ ⟨n', ty', k'⟩ ⟨h1, h2⟩
    simp only at h1 h2
    subst h1; subst h2
    rfl
  obtain ⟨h1, h2⟩ := layout_reshape hm q
  unfold drawModule
  simp only
  rw [h1]
  revert h2
  cases drawEdgePath q (placeTerminalPorts (placeNodes a.intoMir).1) RouteGraph.new <;>
    cases drawEdgePath q (placeTerminalPorts (placeNodes b.intoMir).1) RouteGraph.new <;>
    simp only [Except.map, Except.ok.injEq, Except.error.injEq, Prod.mk.injEq, reduceCtorEq, false_imp_iff]
  · rintro rfl; rfl
  · rintro ⟨h3, -⟩
    have e1 := render_blankTitle (some (placeNodes b.intoMir).2)
    rename_i r r'
    have := (e1 r.1).symm.trans ((congrArg (fun d => (render (some (placeNodes b.intoMir).2) d).map withoutTexts) h3).trans
      (e1 r'.1))
    exact this

/-- **C70.** Change also the types and keys of the columns, in any way: everything stays in its place, the view box, all
rectangles, all ports, the route graph, all routes; or the layout fails in the same way. -/
theorem C70_geometry (q : Queue) {f : Str → Str} {g : Str → Str → Str} (hf : Function.Injective f)
    (hg : ∀ e, Function.Injective (g e)) {a b : Module} (h : SameSkeleton f g a b) :
    (placeNodes a.intoMir).2 = (placeNodes b.intoMir).2 ∧
    (drawEdgePath q (placeTerminalPorts (placeNodes a.intoMir).1) RouteGraph.new).map (fun r => (geometry r.1, r.2)) =
      (drawEdgePath q (placeTerminalPorts (placeNodes b.intoMir).1) RouteGraph.new).map (fun r => (geometry r.1, r.2)) := by
  have hm : a.intoMir.reshape (fun _ => {}) = b.intoMir.reshape (fun _ => {}) :=
    intoMir_reshape (t := fun _ => {}) (renamePath_injective hf hg) (fun _ _ => rfl) (fun _ _ _ => rfl) h
  obtain ⟨h1, h2⟩ := layout_reshape hm q
  refine ⟨h1, ?_⟩
  have hgeo : ∀ d : Document, geometry (d.reshape fun _ => {}) = geometry d := by
    intro d; simp [geometry, Document.reshape, NodeData.reshape]
  revert h2
  cases drawEdgePath q (placeTerminalPorts (placeNodes a.intoMir).1) RouteGraph.new <;>
    cases drawEdgePath q (placeTerminalPorts (placeNodes b.intoMir).1) RouteGraph.new <;>
    simp only [Except.map, Except.ok.injEq, Except.error.injEq, Prod.mk.injEq, reduceCtorEq, imp_self]
  rintro ⟨h3, h4⟩
  exact ⟨by rw [← hgeo, h3, hgeo], h4⟩

/-- **C70.** The name of the module itself is never drawn. -/
theorem C70_module_name (q : Queue) (m : Module) (n : Option Str) : drawModule q { m with name := n } = drawModule q m := rfl

/-! Examples. -/

/-- Two tables with a relation between columns. -/
private def ex : Module := ⟨none,
  [.definition ⟨c!"users", [⟨c!"id", .int, some .primaryKey⟩]⟩,
   .definition ⟨c!"posts", [⟨c!"id", .uuid, some .primaryKey⟩, ⟨c!"author", .int, some .foreignKey⟩]⟩,
   .relation ⟨.field c!"posts" c!"author", .field c!"users" c!"id"⟩]⟩

/-- The module with `t` before every table name and, in front of every column, the name of its table. -/
private def ex' : Module := ⟨some c!"blog",
  [.definition ⟨c!"tusers", [⟨c!"usersid", .int, some .primaryKey⟩]⟩,
   .definition ⟨c!"tposts", [⟨c!"postsid", .uuid, some .primaryKey⟩, ⟨c!"postsauthor", .int, some .foreignKey⟩]⟩,
   .relation ⟨.field c!"tposts" c!"postsauthor", .field c!"tusers" c!"usersid"⟩]⟩

private theorem ex_renaming : Renaming (fun s => c!"t" ++ s) (fun e s => e ++ s) ex ex' := by
  refine .cons (.table _ _ rfl ?_) (.cons (.table _ _ rfl ?_)
    (.cons (.relation ⟨.field c!"posts" c!"author", .field c!"users" c!"id"⟩) .nil))
  · exact .cons ⟨rfl, rfl, rfl⟩ .nil
  · exact .cons ⟨rfl, rfl, rfl⟩ (.cons ⟨rfl, rfl, rfl⟩ .nil)

example (q : Queue) : (drawModule q ex).map withoutTexts = (drawModule q ex').map withoutTexts :=
  C70_renaming q (f := fun s => c!"t" ++ s) (g := fun e s => e ++ s) (fun _ _ h => List.append_cancel_left h)
    (fun _ _ _ h => List.append_cancel_left h) ex_renaming

/-- The columns of `ex` with other types and keys. -/
private def ex'' : Module := ⟨none,
  [.definition ⟨c!"users", [⟨c!"id", .text, none⟩]⟩,
   .definition ⟨c!"posts", [⟨c!"id", .text, some .foreignKey⟩, ⟨c!"author", .timestamp, none⟩]⟩,
   .relation ⟨.field c!"posts" c!"author", .field c!"users" c!"id"⟩]⟩

private theorem ex_skeleton : SameSkeleton id (fun _ => id) ex ex'' := by
  refine .cons (.table _ _ rfl ?_) (.cons (.table _ _ rfl ?_)
    (.cons (.relation ⟨.field c!"posts" c!"author", .field c!"users" c!"id"⟩) .nil))
  · exact .cons ⟨rfl, trivial⟩ .nil
  · exact .cons ⟨rfl, trivial⟩ (.cons ⟨rfl, trivial⟩ .nil)

example (q : Queue) : (placeNodes ex.intoMir).2 = (placeNodes ex''.intoMir).2 :=
  (C70_geometry q Function.injective_id (fun _ => Function.injective_id) ex_skeleton).1

set_option maxRecDepth 100000 in
/-- The layout of `ex` succeeds, with a route. -/
example : ((drawEdgePath BinHeap.queue (placeTerminalPorts (placeNodes ex.intoMir).1) RouteGraph.new).map fun r =>
    r.1.edges.map (·.pathPoints.isSome)) = .ok [true] := by
  decide +kernel

/-- Different names must stay different: if the two tables get one name, the relation runs between other lines. -/
example : ¬ ((⟨none, [.definition ⟨c!"a", []⟩, .definition ⟨c!"b", []⟩, .relation ⟨.entity c!"a", .entity c!"b"⟩]⟩ : Module).intoMir.edges
    = (⟨none, [.definition ⟨c!"a", []⟩, .definition ⟨c!"a", []⟩, .relation ⟨.entity c!"a", .entity c!"a"⟩]⟩ : Module).intoMir.edges) := by
  decide +kernel

end Seiren
