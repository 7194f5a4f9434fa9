import Verif.Proofs.SvgExact
import Verif.Props.SvgText
import Verif.Props.OneRow
/-! # C80: which drawings are read back -/

namespace Seiren
open Spec

theorem decode_length : ∀ {s d : Str}, decode s = some d → d.length ≤ s.length := by
  intro s
  induction s using decode.induct with
  | case1 => intro d h; cases h; rfl
  | case2 s ih | case3 s ih | case4 s ih | case5 s ih | case6 s ih | case8 s ih =>
    intro d h
    rw [decode] at h
    obtain ⟨d', h', rfl⟩ := Option.map_eq_some_iff.mp h
    have := ih h'
    simp only [List.length_cons]; omega
  | case7 s => intro d h; rw [decode] at h; cases h
  | case9 s hx ih =>
    intro d h
    rw [decode] at h
    · obtain ⟨d', h', rfl⟩ := Option.map_eq_some_iff.mp h
      have := ih h'
      simp only [List.length_cons]; omega
    · exact hx
  | case10 c s h1 h2 h3 h4 h5 h6 h7 h8 hx =>
    intro d h
    rw [decode] at h
    · rw [if_pos hx] at h; cases h
    all_goals assumption
  | case11 c s h1 h2 h3 h4 h5 h6 h7 h8 hx ih =>
    intro d h
    rw [decode] at h
    · rw [if_neg hx] at h
      obtain ⟨d', h', rfl⟩ := Option.map_eq_some_iff.mp h
      have := ih h'
      simp only [List.length_cons]; omega
    all_goals assumption

/-- Character data that stand for themselves are plain text. -/
theorem decode_self : ∀ {s : Str}, decode s = some s → PlainText s := by
  intro s
  induction s using decode.induct with
  | case1 => intro _; exact ⟨by simp, by decide⟩
  | case2 s ih | case3 s ih | case4 s ih | case5 s ih | case6 s ih | case8 s ih =>
    intro h
    rw [decode] at h
    obtain ⟨d', h', h2⟩ := Option.map_eq_some_iff.mp h
    have := decode_length h'
    have h3 := congrArg List.length h2
    simp only [List.length_cons] at h3; omega
  | case7 s => intro h; rw [decode] at h; cases h
  | case9 s hx ih =>
    intro h
    rw [decode] at h
    · obtain ⟨d', h', h2⟩ := Option.map_eq_some_iff.mp h
      simp at h2
    · exact hx
  | case10 c s h1 h2 h3 h4 h5 h6 h7 h8 hx =>
    intro h
    rw [decode] at h
    · rw [if_pos hx] at h; cases h
    all_goals assumption
  | case11 c s h1 h2 h3 h4 h5 h6 h7 h8 hx ih =>
    intro h
    rw [decode] at h
    · rw [if_neg hx] at h
      obtain ⟨d', h', h9⟩ := Option.map_eq_some_iff.mp h
      simp only [List.cons.injEq, true_and] at h9
      subst h9
      obtain ⟨i1, i2⟩ := ih h'
      simp only [Bool.or_eq_true, beq_iff_eq, Bool.not_eq_true', not_or, Bool.not_eq_false] at hx
      refine ⟨?_, ?_⟩
      · intro x hx'
        rcases List.mem_cons.mp hx' with rfl | hx'
        · exact ⟨hx.2, hx.1.2, hx.1.1, fun e => h8 e⟩
        · exact i1 x hx'
      · intro hi
        rcases List.infix_cons_iff.mp hi with hp | hi
        · obtain ⟨u, hu⟩ := hp
          simp only [List.cons_append, List.nil_append, List.cons.injEq] at hu
          exact h6 _ hu.1.symm hu.2.symm
        · exact i2 hi
    all_goals assumption

/-- What character data stand for consists of characters that XML allows. -/
theorem decode_chars : ∀ {s d : Str}, decode s = some d → ∀ c ∈ d, isXmlChar c = true ∧ c ≠ '\r' := by
  intro s
  induction s using decode.induct with
  | case1 => intro d h; cases h; simp
  | case2 s ih | case3 s ih | case4 s ih | case5 s ih | case6 s ih | case8 s ih =>
    intro d h
    rw [decode] at h
    obtain ⟨d', h', rfl⟩ := Option.map_eq_some_iff.mp h
    intro c hc
    rcases List.mem_cons.mp hc with rfl | hc
    · decide
    · exact ih h' c hc
  | case7 s => intro d h; rw [decode] at h; cases h
  | case9 s hx ih =>
    intro d h
    rw [decode] at h
    · obtain ⟨d', h', rfl⟩ := Option.map_eq_some_iff.mp h
      intro c hc
      rcases List.mem_cons.mp hc with rfl | hc
      · decide
      · exact ih h' c hc
    · exact hx
  | case10 c s h1 h2 h3 h4 h5 h6 h7 h8 hx =>
    intro d h
    rw [decode] at h
    · rw [if_pos hx] at h; cases h
    all_goals assumption
  | case11 c s h1 h2 h3 h4 h5 h6 h7 h8 hx ih =>
    intro d h
    rw [decode] at h
    · rw [if_neg hx] at h
      obtain ⟨d', h', rfl⟩ := Option.map_eq_some_iff.mp h
      simp only [Bool.or_eq_true, beq_iff_eq, Bool.not_eq_true', not_or, Bool.not_eq_false] at hx
      intro x hx'
      rcases List.mem_cons.mp hx' with rfl | hx'
      · exact ⟨hx.2, fun e => h8 e⟩
      · exact ih h' x hx'
    all_goals assumption

theorem goodText_id_iff (t : Str) : GoodText id t ↔ PlainText t := by
  refine ⟨fun h => ?_, goodText_plain⟩
  obtain ⟨h1, h2⟩ := decode_self h.2
  exact ⟨fun c hc => h1 c (by simp [hc]), fun hi => h2 (hi.trans ⟨c!"\n", c!"\n", rfl⟩)⟩

theorem goodText_escape_iff (t : Str) : GoodText xmlEscape t ↔ ∀ c ∈ t, isXmlChar c = true ∧ c ≠ '\r' := by
  refine ⟨fun h c hc => decode_chars h.2 c (by simp [hc]), goodText_escape⟩

/-- The texts of a picture include the names. -/
theorem goodPicture_names {G : Str → Prop} (ds : List EntityDefinition) (relations : List Element)
    (h : GoodElement G (withNamespace (picture ds relations))) : ∀ t ∈ shownNames ds, G t := by
  obtain ⟨-, -, -, hch, -⟩ := h
  rw [goodElements_iff] at hch
  have key : ∀ x y anchor fill font style t, picText x y anchor fill font style t ∈ ds.zipIdx.flatMap (fun (d, k) => picTable (lineNumbers ds) d k) →
      G t := by
    intro x y anchor fill font style t hm
    have := hch _ (by simp only [List.cons_append, List.mem_cons, List.mem_append]; exact Or.inr (Or.inr (Or.inl hm)))
    exact (this.2.2.2.2 t rfl).2
  intro t ht
  obtain ⟨d, hd, ht⟩ := List.mem_flatMap.mp ht
  obtain ⟨k, hk⟩ := List.getElem?_of_mem hd
  have hdk : (d, k) ∈ ds.zipIdx := List.mem_zipIdx_iff_getElem?.mpr hk
  rcases List.mem_cons.mp ht with rfl | ht
  · exact key (tableX k + 12) (rowTop (lineNumbers ds) (k / 3)) _ _ _ _ _ (List.mem_flatMap.mpr ⟨(d, k), hdk, by
      simp only [picTable, picHeader]
      exact List.mem_cons_of_mem _ (List.mem_append_left _ (List.mem_cons_of_mem _ (List.mem_singleton.mpr rfl)))⟩)
  · obtain ⟨f, hf, rfl⟩ := List.mem_map.mp ht
    obtain ⟨j, hj⟩ := List.getElem?_of_mem hf
    have hfj : (f, j) ∈ d.fields.zipIdx := List.mem_zipIdx_iff_getElem?.mpr hj
    exact key (tableX k + 12) (rowTop (lineNumbers ds) (k / 3) + 35 * ((j : Rat) + 1)) _ _ _ _ _ (List.mem_flatMap.mpr ⟨(d, k), hdk, by
      simp only [picTable]
      refine List.mem_cons_of_mem _ (List.mem_append_right _ (List.mem_flatMap.mpr ⟨(f, j), hfj, ?_⟩))
      simp only [picColumn]
      exact List.mem_append_left _ (List.mem_cons_of_mem _ (List.mem_cons_self ..))⟩)

/-- The general form of C80. -/
theorem svgText_exact {q : Queue} {QI : List Entry → Prop} (hq : q.Lawful QI) (m : Module) (hne : definitions m.entries ≠ [])
    (hsize : picHeight (lineNumbers (definitions m.entries)) ≤ 1000000000) (el : Element) (h : drawModule q m = .ok el) (esc : Str → Str)
    (htt : ∀ t, GoodText esc (typeText t)) (hkt : ∀ k, GoodText esc (keyText k)) :
    (∃ x, readXml (svgText esc el) = some x ∧ Shows (svgDocument el) x) ↔ ∀ t ∈ shownNames (definitions m.entries), GoodText esc t := by
  obtain ⟨relations, rfl, hrel⟩ := C58_picture hq m hne hsize el h
  refine (readXml_exact (G := fun _ => True) esc _ (goodPicture _ _ _ _ hrel (fun _ _ => trivial) (fun _ => trivial) (fun _ => trivial))).trans
    ⟨goodPicture_names _ _, fun hn => goodPicture _ _ _ _ hrel hn htt hkt⟩

/-- **C80.** The text written for a drawn module is read back as a document that shows the drawing if and only if all names of
tables and columns are plain text. -/
theorem C80_exact {q : Queue} {QI : List Entry → Prop} (hq : q.Lawful QI) (m : Module) (hne : definitions m.entries ≠ [])
    (hsize : picHeight (lineNumbers (definitions m.entries)) ≤ 1000000000) (el : Element) (h : drawModule q m = .ok el) :
    (∃ x, readXml (svgText id el) = some x ∧ Shows (svgDocument el) x) ↔ ∀ t ∈ shownNames (definitions m.entries), PlainText t := by
  rw [svgText_exact hq m hne hsize el h id (fun t => goodText_plain (plainOk_spec (by cases t <;> decide)))
    (fun k => goodText_plain (plainOk_spec (by cases k <;> decide)))]
  exact forall₂_congr fun t _ => goodText_id_iff t

/-- **C80**, if text were escaped: if and only if the names consist of characters XML allows other than carriage returns. -/
theorem C80_exact_escaped {q : Queue} {QI : List Entry → Prop} (hq : q.Lawful QI) (m : Module) (hne : definitions m.entries ≠ [])
    (hsize : picHeight (lineNumbers (definitions m.entries)) ≤ 1000000000) (el : Element) (h : drawModule q m = .ok el) :
    (∃ x, readXml (svgText xmlEscape el) = some x ∧ Shows (svgDocument el) x) ↔
      ∀ t ∈ shownNames (definitions m.entries), ∀ c ∈ t, isXmlChar c = true ∧ c ≠ '\r' := by
  rw [svgText_exact hq m hne hsize el h xmlEscape (fun t => goodText_escape (by cases t <;> decide))
    (fun k => goodText_escape (by cases k <;> decide))]
  exact forall₂_congr fun t _ => goodText_escape_iff t

/-- **C80**, for a whole run: what is written is read back as the drawing if and only if the names in the source are plain. -/
theorem C80_output {q : Queue} {QI : List Entry → Prop} (hq : q.Lawful QI) (src : Str) (m : Module) (hm : Contains src m)
    (hne : definitions m.entries ≠ []) (hsize : picHeight (lineNumbers (definitions m.entries)) ≤ 1000000000)
    (out : Str) (hout : stdoutText q id src = some out) :
    ∃ el, drawModule q m = .ok el ∧ out = svgText id el ∧
      ((∃ x, readXml out = some x ∧ Shows (svgDocument el) x) ↔ ∀ t ∈ shownNames (definitions m.entries), PlainText t) := by
  have hd : (runMain q src).drawing = some (drawModule q m) := by
    rw [runMain_drawing, (parse_contains src m).mpr hm]; rfl
  rw [stdoutText, hd] at hout
  cases hdm : drawModule q m with
  | error e => rw [hdm] at hout; cases hout
  | ok el =>
    rw [hdm] at hout
    simp only [Option.some.injEq] at hout
    subst hout
    exact ⟨el, rfl, rfl, C80_exact hq m hne hsize el hdm⟩

/-- **C80**: every text that is not plain is the name of a table in some source for which a drawing is written, but one that is
not read back. -/
theorem C80_every_name {q : Queue} {QI : List Entry → Prop} (hq : q.Lawful QI) (t : Str) (ht : ¬ PlainText t) :
    ∃ (src : Str) (m : Module) (el : Element), parse src = (some m, [], []) ∧ definitions m.entries = [⟨t, []⟩] ∧
      drawModule q m = .ok el ∧ stdoutText q id src = some (svgText id el) ∧
      ¬ ∃ x, readXml (svgText id el) = some x ∧ Shows (svgDocument el) x := by
  obtain ⟨src, hsrc⟩ := C02_every_module ⟨none, [.definition ⟨t, []⟩]⟩
  have hds : definitions (Module.mk none [.definition ⟨t, []⟩]).entries = [⟨t, []⟩] := rfl
  have hsize : picHeight (lineNumbers (definitions (Module.mk none [.definition ⟨t, []⟩]).entries)) ≤ 1000000000 := by
    rw [show lineNumbers (definitions (Module.mk none [.definition ⟨t, []⟩]).entries) = [1] from rfl]
    decide +kernel
  obtain ⟨el, hel⟩ := (C40_two_tables hq ⟨none, [.definition ⟨t, []⟩]⟩ (by rw [hds]; simp) (picture_blocks hq _ (by simp [hds]) hsize).1).mpr (by
    intro c hc
    exact absurd hc (List.not_mem_nil))
  refine ⟨src, _, el, hsrc, hds, hel, ?_, ?_⟩
  · rw [stdoutText, runMain_drawing, hsrc]
    simp only [Option.map_some, hel]
  · rw [C80_exact hq _ (by simp [hds]) hsize el hel, hds]
    intro h
    exact ht (h t (by simp [shownNames]))

/-! A text that is not plain, and a module meeting the hypotheses with names that are plain although they look unusual: the
drawing is read back. -/
example : ¬ PlainText c!"a&lt;b" := fun h => (h.1 '&' (by decide)).2.2.1 rfl

set_option maxRecDepth 100000 in
example : ∃ el, drawModule BinHeap.queue ⟨none, [.definition ⟨c!"a > b", [⟨c!"\"]]", .int, none⟩]⟩]⟩ = .ok el ∧
    (readXml (svgText id el)).isSome = true := by
  have h : ((drawModule BinHeap.queue ⟨none, [.definition ⟨c!"a > b", [⟨c!"\"]]", .int, none⟩]⟩]⟩).toOption.map fun el =>
      (readXml (svgText id el)).isSome) = some true := by decide +kernel
  cases hd : drawModule BinHeap.queue ⟨none, [.definition ⟨c!"a > b", [⟨c!"\"]]", .int, none⟩]⟩]⟩ with
  | error e => rw [hd] at h; cases h
  | ok el => rw [hd] at h; exact ⟨el, rfl, Option.some.inj h⟩

end Seiren
