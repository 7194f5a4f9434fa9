import Verif.Props.Debug
import Verif.Props.SvgText
/-! # C71: the text of the debug drawing -/

namespace Seiren
open Spec

section
variable {G : Str → Prop}

theorem goodPoints {ps : List Point} (h : ∀ p ∈ ps, Half p.x ∧ Half p.y) : GoodValue (.points ps) := by
  refine ⟨?_, numbers_points h⟩
  intro c hc
  rcases joinWith_mem hc with hc | ⟨w, hw, hc⟩
  · simp at hc; subst hc; decide
  · obtain ⟨p, -, rfl⟩ := List.mem_map.mp hw
    simp only [List.mem_append, List.mem_cons, List.not_mem_nil, or_false] at hc
    rcases hc with (hc | rfl | rfl) | hc
    · exact numChar_safe (displayNum_chars _ c hc)
    · decide
    · decide
    · exact numChar_safe (displayNum_chars _ c hc)

theorem goodDot {p : Point} (hp : Half p.x ∧ Half p.y) {fill : Str} (hf : fill.all safeChar = true) : GoodElement G (dot p fill) := by
  refine goodLeaf (by decide) (by constructor <;> simp [nameOk, isNameStart, isNameChar]) ?_ (by simp)
  intro v hv
  simp only [List.map_cons, List.map_nil, List.mem_cons, List.not_mem_nil, or_false] at hv
  rcases hv with rfl | rfl | rfl | rfl | rfl | rfl
  · exact goodNum hp.1
  · exact goodNum hp.2
  · exact goodNum ⟨8, by norm_num⟩
  · exact goodStr (by decide)
  · exact goodNum ⟨2, by norm_num⟩
  · exact goodStr hf

theorem goodNumber {x y : Rat} (hx : Half x) (hy : Half y) {n : Nat} (ht : G (Nat.toDigits 10 n)) :
    GoodElement G (number x y n) := by
  refine goodLeaf (by decide) (by constructor <;> simp [nameOk, isNameStart, isNameChar]) ?_ (by simpa using ht)
  intro v hv
  simp only [List.map_cons, List.map_nil, List.mem_cons, List.not_mem_nil, or_false] at hv
  rcases hv with rfl | rfl | rfl | rfl | rfl | rfl
  · exact goodNum hx
  · exact goodNum hy
  · exact goodStr (by decide)
  · exact goodStr (by decide)
  · exact goodNum ⟨24, by norm_num⟩
  · exact goodStr (by decide)

theorem before_half {d : Orientation} {b : Point} (hb : Half b.x ∧ Half b.y) {l w : Rat} (hl : Half l) (hw : Half w) :
    Half (before d b l w).x ∧ Half (before d b l w).y := by
  cases d
  · exact ⟨hb.1.add hw, hb.2.add hl⟩
  · exact ⟨hb.1.add hw, hb.2.sub hl⟩
  · exact ⟨hb.1.add hl, hb.2.add hw⟩
  · exact ⟨hb.1.sub hl, hb.2.add hw⟩

theorem goodLink {a b : Point} (ha : Half a.x ∧ Half a.y) (hb : Half b.x ∧ Half b.y) {d : Orientation} (hd : Towards d a b)
    {els : List Element} (h : ShowsLink a b els) : ∀ e ∈ els, GoodElement G e := by
  obtain ⟨ps, rfl, harrow⟩ := h
  intro e he
  simp only [List.mem_cons, List.not_mem_nil, or_false] at he
  rcases he with rfl | rfl
  · refine goodLeaf (by decide) (by constructor <;> simp [nameOk, isNameStart, isNameChar]) ?_ (by simp)
    intro v hv
    simp only [List.map_cons, List.map_nil, List.mem_cons, List.not_mem_nil, or_false] at hv
    rcases hv with rfl | rfl | rfl | rfl | rfl | rfl
    · exact goodNum ha.1
    · exact goodNum ha.2
    · exact goodNum hb.1
    · exact goodNum hb.2
    · exact goodStr (by decide)
    · exact goodNum ⟨2, by norm_num⟩
  · refine goodLeaf (by decide) (by constructor <;> simp [nameOk, isNameStart, isNameChar]) ?_ (by simp)
    intro v hv
    simp only [List.map_cons, List.map_nil, List.mem_cons, List.not_mem_nil, or_false] at hv
    rcases hv with rfl | rfl
    · exact goodStr (by decide)
    · refine goodPoints ?_
      obtain ⟨t, l, r, rfl, rfl, hlr⟩ := harrow d hd
      have h4 : Half 4 := ⟨8, by norm_num⟩
      have h0 : Half 0 := ⟨0, by norm_num⟩
      have h11 : Half 11 := ⟨22, by norm_num⟩
      have h1 : Half (-5/2) := ⟨-5, by norm_num⟩
      have h2 : Half (5/2) := ⟨5, by norm_num⟩
      intro p hp
      simp only [List.mem_cons, List.not_mem_nil, or_false] at hp
      rcases hlr with ⟨rfl, rfl⟩ | ⟨rfl, rfl⟩ <;> rcases hp with rfl | rfl | rfl <;> apply before_half hb <;> assumption

theorem goodText_digits (n : Nat) : GoodText id (Nat.toDigits 10 n) ∧ GoodText xmlEscape (Nat.toDigits 10 n) := by
  have h : ∀ c ∈ Nat.toDigits 10 n, safeChar c = true := fun c hc =>
    numChar_safe (by simp [numChar, Nat.isDigit_of_mem_toDigits (by decide : 0 < 10) (by decide) hc])
  constructor
  · refine goodText_plain ⟨fun c hc => ?_, fun hi => ?_⟩
    · obtain ⟨h1, h2, h3, h4, -⟩ := safeChar_spec (h c hc)
      exact ⟨h4, h2, h1, h3⟩
    · exact (safeChar_spec (h ']' (hi.subset (by simp)))).2.2.2.2.1 rfl
  · refine goodText_escape fun c hc => ?_
    obtain ⟨-, -, h3, h4, -⟩ := safeChar_spec (h c hc)
    exact ⟨h4, h3⟩

end

/-- All elements of the debug drawing are read back if every name is, as text of an element. -/
theorem debug_good {q : Queue} {QI : List Entry → Prop} (hq : q.Lawful QI) (m : Module) (hne : definitions m.entries ≠ [])
    (hsize : picHeight (lineNumbers (definitions m.entries)) ≤ 1000000000) (el : Element) (h : drawModuleDebug q m = .ok el)
    (esc : Str → Str) (hn : ∀ t ∈ shownNames (definitions m.entries), GoodText esc t) (htt : ∀ t, GoodText esc (typeText t))
    (hkt : ∀ k, GoodText esc (keyText k)) (hdt : ∀ n, GoodText esc (Nat.toDigits 10 n)) :
    GoodElement (GoodText esc) (svgDocument el) := by
  have hd := drawable_intoMir m
  have hns : lineCounts m.intoMir = lineNumbers (definitions m.entries) := lineCounts_intoMir m
  have htlen : (tables m.intoMir).length = (definitions m.entries).length := by rw [tables_intoMir, recordIds_length]
  have htne : tables m.intoMir ≠ [] := by
    intro h0
    rw [h0] at htlen
    exact hne (List.length_eq_zero_iff.mp htlen.symm)
  have hsize' : (placeNodes m.intoMir).2.size.height ≤ 1000000000 := by
    have := placed_viewBox hd.tabular htne
    simp only at this
    rw [this, hns, htlen]
    simpa [lineNumbers, picHeight] using hsize
  obtain ⟨g, es, hg, hdraw, -⟩ := draw_ok hq (scene_laidOut hd hsize') (edgeEnds_laidOut hd)
  obtain ⟨doc', g', hdraw', hwf, hdir, hdbg, hplain⟩ := C59_module hq m hsize'
  rw [hdraw] at hdraw'
  have hnodes : ∀ n ∈ g'.nodes, Half n.location.x ∧ Half n.location.y := by
    intro n hn
    cases hdraw'
    rw [(connect_nodes _ _).1] at hn
    exact OnGrid.half ((scene_laidOut hd hsize').node_grid hg hn)
  have hdn : doc'.nodes = (laidOut m.intoMir).nodes ∧ doc'.bodyId = (laidOut m.intoMir).bodyId := by
    cases hdraw'; exact ⟨rfl, rfl⟩
  have hpts : ∀ e ∈ doc'.edges, ∀ p ∈ e.pathPoints.getD [], Half p.x ∧ Half p.y := by
    intro e he p hp
    cases hps : e.pathPoints with
    | none => rw [hps] at hp; simp at hp
    | some ps =>
      rw [hps] at hp
      exact OnGrid.half (drawn_grid (q := q) hd hsize' (hdraw.trans (congrArg _ (by cases hdraw'; rfl))) he hps hp)
  cases hp : drawModule q m with
  | error e =>
    rw [hp] at hplain
    have := ((C59_debug_only_adds (some (placeNodes m.intoMir).2) g' doc').1 e).mpr hplain.symm
    rw [hdbg, this] at h
    cases h
  | ok el0 =>
    obtain ⟨el', links, h1, h2, h3⟩ := C59_debug_shows g' hwf _ doc' el0 (hplain.symm.trans hp)
    obtain ⟨el'', h1', e1, e2, e3, -⟩ := (C59_debug_only_adds (some (placeNodes m.intoMir).2) g' doc').2.1 el0 (hplain.symm.trans hp)
    rw [h1] at h1'
    cases h1'
    rw [hdbg, h1] at h
    cases h
    obtain ⟨relations, rfl, hrel⟩ := C58_picture hq m hne hsize el0 hp
    have hgood := goodPicture _ _ _ _ hrel hn htt hkt
    have htext : (picture (definitions m.entries) relations.flatten).text = none := rfl
    obtain ⟨name, attrs, children, text⟩ := el
    generalize picture (definitions m.entries) relations.flatten = pic at *
    obtain ⟨pname, pattrs, pchildren, ptext⟩ := pic
    simp only [Element.name, Element.attrs, Element.children, Element.text] at e1 e2 e3 h2 htext
    subst e1 e2 e3 htext
    obtain ⟨g1, g2, g3, g4, -⟩ := hgood
    refine ⟨g1, g2, g3, ?_, by simp⟩
    rw [goodElements_iff] at g4 ⊢
    rw [h2]
    intro e he
    simp only [List.mem_append, List.mem_flatMap, List.mem_flatten, List.mem_map, List.mem_filterMap, List.mem_cons, List.not_mem_nil,
      or_false, Prod.exists] at he
    rcases he with (((he | ⟨els, hels, he⟩) | ⟨n, i, hni, he⟩) | ⟨ed, hed, p, hpp, rfl⟩) | ⟨t, ht, hr⟩
    · exact g4 e he
    · obtain ⟨i, hi⟩ := List.getElem?_of_mem hels
      obtain ⟨hl, hi⟩ := List.getElem?_eq_some_iff.mp hi
      have hlen := h3.length_eq
      obtain ⟨n, k, hn1, hk1, hshow⟩ := (List.forall₂_iff_get.mp h3).2 i (by omega) hl
      obtain ⟨n', k', d, hn2, hk2, hdd⟩ := hdir _ (List.get_mem g'.edges ⟨i, by omega⟩)
      rw [hn1] at hn2
      rw [hk1] at hk2
      cases hn2
      cases hk2
      rw [List.get_eq_getElem, hi] at hshow
      exact goodLink (hnodes n (List.mem_of_getElem? hn1)) (hnodes k (List.mem_of_getElem? hk1)) hdd hshow e he
    · have hh := hnodes n (List.mem_of_getElem? (List.mem_zipIdx_iff_getElem?.mp hni))
      rcases he with rfl | rfl
      · exact goodDot hh (by decide)
      · exact goodNumber (hh.1.add ⟨12, by norm_num⟩) (hh.2.add ⟨8, by norm_num⟩) (hdt i)
    · exact goodDot (hpts ed hed p hpp) (by decide)
    · have ht' : t ∈ tables m.intoMir := by
        rw [← tables_laidOut m.intoMir, tables, childrenOf, ← hdn.1, ← hdn.2]
        exact ht
      obtain ⟨k, hk⟩ := List.getElem?_of_mem ht'
      have hrect := rectOf_table hd.tabular k t hk
      rw [← rectOf_laidOut, rectOf_eq, Document.getNode, ← hdn.1] at hrect
      rw [hrect, Option.map_some, Option.some.injEq] at hr
      subst hr
      refine goodNumber ?_ ?_ (hdt t)
      · exact ((tableX_half k).add ⟨600, by norm_num [tableRect]⟩).add ⟨4, by norm_num⟩
      · exact ((rowTop_half _ _).add ⟨70 * (childrenOf m.intoMir t).length, by simp only [tableRect]; push_cast; ring⟩).add ⟨8, by norm_num⟩

/-- The general form of C71: the text is read back if every name is, as text of an element. -/
theorem debugText_shows {q : Queue} {QI : List Entry → Prop} (hq : q.Lawful QI) (m : Module) (hne : definitions m.entries ≠ [])
    (hsize : picHeight (lineNumbers (definitions m.entries)) ≤ 1000000000) (el : Element) (h : drawModuleDebug q m = .ok el)
    (esc : Str → Str) (hn : ∀ t ∈ shownNames (definitions m.entries), GoodText esc t) (htt : ∀ t, GoodText esc (typeText t))
    (hkt : ∀ k, GoodText esc (keyText k)) (hdt : ∀ n, GoodText esc (Nat.toDigits 10 n)) :
    ∃ x, readXml (svgText esc el) = some x ∧ Shows (svgDocument el) x :=
  readXml_toText esc _ (debug_good hq m hne hsize el h esc hn htt hkt hdt)

/-- **C71.** If the names of tables and columns are plain text, then the text of the debug drawing of a module is well-formed
XML, and reading it gives back the debug drawing: all its elements, in order, with their attributes and texts, and the
numbers that are read in the attributes, those of the corners of the arrows included, are exactly those of the drawing.  What
the drawing consists of is said by C58 and C59. -/
theorem C71_debug_text {q : Queue} {QI : List Entry → Prop} (hq : q.Lawful QI) (m : Module) (hne : definitions m.entries ≠ [])
    (hsize : picHeight (lineNumbers (definitions m.entries)) ≤ 1000000000) (el : Element) (h : drawModuleDebug q m = .ok el)
    (hn : ∀ t ∈ shownNames (definitions m.entries), PlainText t) :
    ∃ x, readXml (svgText id el) = some x ∧ Shows (svgDocument el) x :=
  debugText_shows hq m hne hsize el h id (fun t ht => goodText_plain (hn t ht))
    (fun t => goodText_plain (plainOk_spec (by cases t <;> decide))) (fun k => goodText_plain (plainOk_spec (by cases k <;> decide)))
    (fun n => (goodText_digits n).1)

/-- **C71**, if text were escaped. -/
theorem C71_debug_text_escaped {q : Queue} {QI : List Entry → Prop} (hq : q.Lawful QI) (m : Module) (hne : definitions m.entries ≠ [])
    (hsize : picHeight (lineNumbers (definitions m.entries)) ≤ 1000000000) (el : Element) (h : drawModuleDebug q m = .ok el)
    (hn : ∀ t ∈ shownNames (definitions m.entries), ∀ c ∈ t, isXmlChar c = true ∧ c ≠ '\r') :
    ∃ x, readXml (svgText xmlEscape el) = some x ∧ Shows (svgDocument el) x :=
  debugText_shows hq m hne hsize el h xmlEscape (fun t ht => goodText_escape (hn t ht))
    (fun t => goodText_escape (by cases t <;> decide)) (fun k => goodText_escape (by cases k <;> decide))
    (fun n => (goodText_digits n).2)

/-! A module meeting the hypotheses: three tables, whose debug drawing has 25 arrows. -/
set_option maxRecDepth 100000 in
example : (shownNames (definitions threeTables.entries)).all plainOk = true ∧
    (match drawModuleDebug BinHeap.queue threeTables with
      | .ok el => (el.children.filter fun e => e.name == c!"polygon").length
      | .error _ => 0) = 25 := by
  decide +kernel

end Seiren
