import Verif.Proofs.Determined
import Verif.Props.SvgExact
import Verif.Props.Program
import Verif.Props.Display
/-! # C83: what a drawing tells about the module -/

namespace Seiren
open Spec

theorem noCircle_relations {ns : List Nat} {rs : List (NodeRef × NodeRef)} {l : List (NodeRef × NodeRef)} {bs : List (List Element)}
    (h : List.Forall₂ (ShowsRelation ns rs) l bs) : NoCircle bs.flatten := by
  cases h with
  | nil => intro e he; cases he
  | cons h _ =>
    obtain ⟨ps, cs, a, b, o, o', rfl, -⟩ := h
    intro e he
    simp only [picRelation, List.flatten_cons, List.cons_append, List.head?_cons, Option.mem_def, Option.some.injEq] at he
    subst he
    simp only [Element.name]
    decide

theorem forall₂_at {α β : Type} {R : α → β → Prop} {l : List α} {l' : List β} (h : List.Forall₂ R l l') {i : Nat} {x : α} {y : β}
    (hx : l[i]? = some x) (hy : l'[i]? = some y) : R x y := by
  induction h generalizing i with
  | nil => cases hx
  | cons h _ ih =>
    cases i with
    | zero => cases hx; cases hy; exact h
    | succ i => exact ih hx hy

theorem mem_endsOf {ns : List Nat} {r : NodeRef} {o : Orientation} (h : HasSide ns r o) : (sideMiddle (refRect ns r) o, o) ∈ endsOf ns r := by
  unfold endsOf
  rw [List.mem_map]
  refine ⟨o, ?_, rfl⟩
  cases r with
  | table k => cases o <;> simp [sidesOf]
  | column k j =>
    cases o <;> simp only [HasSide, sidesOf] at h ⊢
    · rw [if_pos h]; simp
    · split <;> simp
    · split <;> simp

/-- Ends of relations at the same place belong to the same thing, or to a table and its own last or middle line. -/
theorem ends_meet (m : Module) (hsize : (placeNodes m.intoMir).2.size.height ≤ 1000000000) {r r' : NodeRef} {i i' : NodeId}
    (hr : nodeOf m.intoMir r = some i) (hr' : nodeOf m.intoMir r' = some i') {o o' : Orientation}
    (h : HasSide (lineNumbers (definitions m.entries)) r o) (h' : HasSide (lineNumbers (definitions m.entries)) r' o')
    (he : sideMiddle (refRect (lineNumbers (definitions m.entries)) r) o = sideMiddle (refRect (lineNumbers (definitions m.entries)) r') o') :
    Meet (definitions m.entries) r r' := by
  rw [← share_iff_meet m hsize hr hr']
  refine ⟨sideMiddle (refRect (lineNumbers (definitions m.entries)) r) o, o, o', ?_, ?_⟩
  · rw [portsOf_ref m r i hr]; exact mem_endsOf h
  · rw [portsOf_ref m r' i' hr', he]; exact mem_endsOf h'

theorem connections_node (m : Module) : ∀ c ∈ connections [] m.entries,
    (∃ i, nodeOf m.intoMir c.1 = some i) ∧ ∃ i, nodeOf m.intoMir c.2 = some i := by
  intro c hc
  have : (nodeOf m.intoMir c.1, nodeOf m.intoMir c.2) ∈
      m.intoMir.edges.map (fun e => (some e.sourceId, some e.targetId)) := by
    rw [(C17_relations m).1]; exact List.mem_map.mpr ⟨c, hc, rfl⟩
  obtain ⟨e, -, he⟩ := List.mem_map.mp this
  simp only [Prod.mk.injEq] at he
  exact ⟨⟨_, he.1.symm⟩, ⟨_, he.2.symm⟩⟩

/-- Without tables there are no relations. -/
theorem connections_empty (m : Module) (h : definitions m.entries = []) : connections [] m.entries = [] := by
  have := (C17_relations m).1
  rw [intoMir_empty m h] at this
  exact (List.map_eq_nil_iff.mp this.symm)

/-- The contents of a drawing, also of a module without tables. -/
theorem drawn_children {q : Queue} {QI : List Entry → Prop} (hq : q.Lawful QI) (m : Module)
    (hsize : picHeight (lineNumbers (definitions m.entries)) ≤ 1000000000) (el : Element) (h : drawModule q m = .ok el) :
    ∃ bs : List (List Element), el.children = (picture (definitions m.entries) bs.flatten).children ∧
      List.Forall₂ (ShowsRelation (lineNumbers (definitions m.entries)) (connections [] m.entries)) (connections [] m.entries) bs := by
  by_cases hne : definitions m.entries = []
  · refine ⟨[], ?_, by rw [connections_empty m hne]; exact .nil⟩
    unfold drawModule at h
    rw [intoMir_empty m hne] at h
    rw [hne]
    cases h
    rfl
  · obtain ⟨bs, rfl, hbs⟩ := C58_picture hq m hne hsize el h
    exact ⟨bs, rfl, hbs⟩

/-- The contents that are read from the text of a drawing. -/
theorem text_children {q : Queue} {QI : List Entry → Prop} (hq : q.Lawful QI) (m : Module)
    (hsize : picHeight (lineNumbers (definitions m.entries)) ≤ 1000000000) (el : Element) (h : drawModule q m = .ok el) (esc : Str → Str)
    (hn : ∀ t ∈ shownNames (definitions m.entries), GoodText esc t) (htt : ∀ t, GoodText esc (typeText t))
    (hkt : ∀ k, GoodText esc (keyText k)) :
    ∃ (n : Str) (found : List (Str × Str)) (content : List Xml) (bs : List (List Element)),
      readXml (svgText esc el) = some (.elem n found content) ∧ ShowsAll (picture (definitions m.entries) bs.flatten).children (elements content) ∧
      List.Forall₂ (ShowsRelation (lineNumbers (definitions m.entries)) (connections [] m.entries)) (connections [] m.entries) bs := by
  by_cases hne : definitions m.entries = []
  · unfold drawModule at h
    rw [intoMir_empty m hne] at h
    have hg : GoodElement (GoodText esc) (withNamespace el) := by
      cases h
      refine ⟨nameOk_spec (by decide), by simp, ?_, ?_, by simp⟩
      · intro a ha
        simp only [List.mem_cons, List.not_mem_nil, or_false] at ha
        rcases ha with rfl | rfl
        · exact ⟨nameOk_spec (by decide), goodStr (by decide)⟩
        · refine ⟨nameOk_spec (n := c!"viewBox") (by decide), goodNums ?_⟩
          simp only [List.mem_cons, List.not_mem_nil, or_false]
          rintro x (rfl | rfl | rfl | rfl)
          · exact ⟨0, by decide +kernel⟩
          · exact ⟨0, by decide +kernel⟩
          · exact ⟨2320, by decide +kernel⟩
          · exact ⟨-680564693277057719623408366969033850680, by decide +kernel⟩
      · refine ⟨?_, ?_, trivial⟩
        · refine goodLeaf (by decide) (by constructor <;> decide) ?_ (by simp)
          simp only [List.map_cons, List.map_nil, List.mem_cons, List.not_mem_nil, or_false]
          rintro v (rfl | rfl | rfl) <;> exact goodStr (by decide)
        · exact ⟨nameOk_spec (by decide), by simp, by simp, trivial, by simp⟩
    obtain ⟨x, hx, hs⟩ := readXml_toText esc _ hg
    cases h
    cases x with
    | text t => cases hs
    | elem n found content => exact ⟨n, found, content, [], hx, by rw [hne]; exact hs.2.2.1, by rw [connections_empty m hne]; exact .nil⟩
  · obtain ⟨x, bs, hx, hs, hbs⟩ := svgText_shows hq m hne hsize el h esc hn htt hkt
    cases x with
    | text t => cases hs
    | elem n found content => exact ⟨n, found, content, bs, hx, hs.2.2.1, hbs⟩

/-- Pictures that agree: the same tables, and relations between ends that meet. -/
theorem determined {q : Queue} {QI : List Entry → Prop} (hq : q.Lawful QI) (a b : Module)
    (hsa : picHeight (lineNumbers (definitions a.entries)) ≤ 1000000000) (bs bs' : List (List Element))
    (hbs : List.Forall₂ (ShowsRelation (lineNumbers (definitions a.entries)) (connections [] a.entries)) (connections [] a.entries) bs)
    (hbs' : List.Forall₂ (ShowsRelation (lineNumbers (definitions b.entries)) (connections [] b.entries)) (connections [] b.entries) bs')
    (hag : AgreeAll (picture (definitions a.entries) bs.flatten).children (picture (definitions b.entries) bs'.flatten).children) :
    definitions a.entries = definitions b.entries ∧
      List.Forall₂ (fun c c' => Meet (definitions a.entries) c.1 c'.1 ∧ Meet (definitions a.entries) c.2 c'.2)
        (connections [] a.entries) (connections [] b.entries) := by
  obtain ⟨hds, hrel⟩ := agree_pictures (noCircle_relations hbs) (noCircle_relations hbs') hag
  have shape : ∀ ns rs c els, ShowsRelation ns rs c els → ∃ x y cs, els = picRelation x y cs := by
    rintro ns rs c els ⟨ps, cs, x, y, o, o', h, -⟩
    exact ⟨x, y, cs, h⟩
  have hb2 := agree_relations (shape _ _) (shape _ _) _ _ _ _ hbs hbs' hrel
  subst hb2
  refine ⟨hds, ?_⟩
  rw [← hds] at hbs'
  by_cases ha : definitions a.entries = []
  · rw [connections_empty a ha, connections_empty b (hds.symm.trans ha)]
    exact .nil
  have hsize := (picture_blocks hq a ha hsa).1
  have hlen : (connections [] a.entries).length = (connections [] b.entries).length := hbs.length_eq.trans hbs'.length_eq.symm
  refine forall₂_of_getElem hlen ?_
  intro i c c' hc hc'
  obtain ⟨⟨i1, h1⟩, ⟨i2, h2⟩⟩ := connections_node a c (List.mem_of_getElem? hc)
  obtain ⟨⟨j1, k1⟩, ⟨j2, k2⟩⟩ := connections_node b c' (List.mem_of_getElem? hc')
  rw [nodeOf_intoMir, ← hds, ← nodeOf_intoMir a] at k1 k2
  have hi : i < bs.length := by rw [← hbs.length_eq]; exact (List.getElem?_eq_some_iff.mp hc).1
  obtain ⟨ps, cs, x, y, o, o', e1, -, -, s1, p1, s2, p2, -⟩ := forall₂_at hbs hc (List.getElem?_eq_getElem hi)
  obtain ⟨ps', cs', x', y', u, u', e2, -, -, t1, q1, t2, q2, -⟩ := forall₂_at hbs' hc' (List.getElem?_eq_getElem hi)
  rw [e1] at e2
  simp only [picRelation, List.cons.injEq, and_true] at e2
  have hx := agree_end (p := x) (p' := x') (by rw [e2.2.1]; exact Agree.refl _)
  have hy := agree_end (p := y) (p' := y') (by rw [e2.2.2]; exact Agree.refl _)
  exact ⟨ends_meet a hsize h1 k1 s1 t1 (by rw [← p1, ← q1, hx]), ends_meet a hsize h2 k2 s2 t2 (by rw [← p2, ← q2, hy])⟩

theorem meets_text {esc : Str → Str} {q q' : Queue} {QI QI' : List Entry → Prop} (hq : q.Lawful QI) (hq' : q'.Lawful QI') (a b : Module)
    (hsa : picHeight (lineNumbers (definitions a.entries)) ≤ 1000000000) (hsb : picHeight (lineNumbers (definitions b.entries)) ≤ 1000000000)
    (el el' : Element) (hel : drawModule q a = .ok el) (hel' : drawModule q' b = .ok el')
    (ha : ∀ t ∈ shownNames (definitions a.entries), GoodText esc t) (hb : ∀ t ∈ shownNames (definitions b.entries), GoodText esc t)
    (htt : ∀ t, GoodText esc (typeText t)) (hkt : ∀ k, GoodText esc (keyText k)) (htext : svgText esc el = svgText esc el') :
    definitions a.entries = definitions b.entries ∧
      List.Forall₂ (fun c c' => Meet (definitions a.entries) c.1 c'.1 ∧ Meet (definitions a.entries) c.2 c'.2)
        (connections [] a.entries) (connections [] b.entries) := by
  obtain ⟨n, found, content, bs, hx, hs, hbs⟩ := text_children hq a hsa el hel esc ha htt hkt
  obtain ⟨n', found', content', bs', hx', hs', hbs'⟩ := text_children hq' b hsb el' hel' esc hb htt hkt
  rw [htext, hx'] at hx
  cases hx
  exact determined hq a b hsa bs bs' hbs hbs' (agreeAll_shown _ _ _ hs hs')

/-! ## C83 -/

/-- The claim: what is written tells the tables and relations of the module. -/
def Spec.OutputTells (q : Queue) : Prop :=
  ∀ (src src' : Str) (a b : Module) (out : Str), Contains src a → Contains src' b → stdoutText q id src = some out →
    stdoutText q id src' = some out →
    definitions a.entries = definitions b.entries ∧ connections [] a.entries = connections [] b.entries

/-- **C83**, for drawings: two modules with the same drawing have the same tables with the same columns, in the same order, and equally
many relations; the relations at the same place join the same things, except that a table may be taken for its own last
or middle line.  (Missing: that exception is real, `C83_refuted`.) -/
theorem C83_drawing_partial {q q' : Queue} {QI QI' : List Entry → Prop} (hq : q.Lawful QI) (hq' : q'.Lawful QI') (a b : Module)
    (hsa : picHeight (lineNumbers (definitions a.entries)) ≤ 1000000000) (hsb : picHeight (lineNumbers (definitions b.entries)) ≤ 1000000000)
    (el : Element) (hel : drawModule q a = .ok el) (hel' : drawModule q' b = .ok el) :
    definitions a.entries = definitions b.entries ∧
      List.Forall₂ (fun c c' => Meet (definitions a.entries) c.1 c'.1 ∧ Meet (definitions a.entries) c.2 c'.2)
        (connections [] a.entries) (connections [] b.entries) := by
  obtain ⟨bs, h, hbs⟩ := drawn_children hq a hsa el hel
  obtain ⟨bs', h', hbs'⟩ := drawn_children hq' b hsb el hel'
  refine determined hq a b hsa bs bs' hbs hbs' ?_
  rw [← h, ← h']
  exact AgreeAll.refl _

/-- **C83**, for the text that is written: the same for two sources without quoted identifiers for which the same is written.  Missing
for the full claim: the relations whose ends meet (`C83_refuted`), and quoted identifiers (`C83_refuted_names`). -/
theorem C83_output_partial {q q' : Queue} {QI QI' : List Entry → Prop} (hq : q.Lawful QI) (hq' : q'.Lawful QI') (src src' : Str)
    (hsrc : '`' ∉ src) (hsrc' : '`' ∉ src') (a b : Module) (ha : Contains src a) (hb : Contains src' b)
    (hsa : picHeight (lineNumbers (definitions a.entries)) ≤ 1000000000) (hsb : picHeight (lineNumbers (definitions b.entries)) ≤ 1000000000)
    (out : Str) (hout : stdoutText q id src = some out) (hout' : stdoutText q' id src' = some out) :
    definitions a.entries = definitions b.entries ∧
      List.Forall₂ (fun c c' => Meet (definitions a.entries) c.1 c'.1 ∧ Meet (definitions a.entries) c.2 c'.2)
        (connections [] a.entries) (connections [] b.entries) := by
  have key : ∀ {q : Queue} {src : Str} {m : Module}, '`' ∉ src → Contains src m → stdoutText q id src = some out →
      ∃ el, drawModule q m = .ok el ∧ svgText id el = out ∧ ∀ t ∈ shownNames (definitions m.entries), GoodText id t := by
    intro q src m hsrc hm hout
    have hd : (runMain q src).drawing = some (drawModule q m) := by
      rw [runMain_drawing, (parse_contains src m).mpr hm]; rfl
    rw [stdoutText, hd] at hout
    cases hdm : drawModule q m with
    | error e => rw [hdm] at hout; cases hout
    | ok el =>
      rw [hdm] at hout
      cases hout
      refine ⟨el, rfl, rfl, ?_⟩
      intro t ht
      obtain ⟨ts, errs, w, r, hs, e, hw⟩ := hm
      refine goodText_plain (word_plain (scan_words hs hsrc t ?_))
      rw [e]
      exact List.mem_append.mpr (Or.inl (names_tokens hw t ht))
  obtain ⟨el, hel, he, hn⟩ := key hsrc ha hout
  obtain ⟨el', hel', he', hn'⟩ := key hsrc' hb hout'
  exact meets_text hq hq' a b hsa hsb el el' hel hel' hn hn' (fun t => goodText_plain (plainOk_spec (by cases t <;> decide)))
    (fun k => goodText_plain (plainOk_spec (by cases k <;> decide))) (he.trans he'.symm)

/-- **C83**, if text were escaped: the same for any names that consist of characters XML allows, except the carriage return. -/
theorem C83_escaped_partial {q q' : Queue} {QI QI' : List Entry → Prop} (hq : q.Lawful QI) (hq' : q'.Lawful QI') (a b : Module)
    (hsa : picHeight (lineNumbers (definitions a.entries)) ≤ 1000000000) (hsb : picHeight (lineNumbers (definitions b.entries)) ≤ 1000000000)
    (el el' : Element) (hel : drawModule q a = .ok el) (hel' : drawModule q' b = .ok el')
    (ha : ∀ t ∈ shownNames (definitions a.entries), ∀ c ∈ t, isXmlChar c = true ∧ c ≠ '\r')
    (hb : ∀ t ∈ shownNames (definitions b.entries), ∀ c ∈ t, isXmlChar c = true ∧ c ≠ '\r')
    (htext : svgText xmlEscape el = svgText xmlEscape el') :
    definitions a.entries = definitions b.entries ∧
      List.Forall₂ (fun c c' => Meet (definitions a.entries) c.1 c'.1 ∧ Meet (definitions a.entries) c.2 c'.2)
        (connections [] a.entries) (connections [] b.entries) :=
  meets_text hq hq' a b hsa hsb el el' hel hel' (fun t ht => goodText_escape (ha t ht)) (fun t ht => goodText_escape (hb t ht))
    (fun t => goodText_escape (by cases t <;> decide)) (fun k => goodText_escape (by cases k <;> decide)) htext

/-- The thing is a column. -/
def Spec.IsColumn : NodeRef → Prop
  | .table _ => False
  | .column _ _ => True

/-- Relations between columns are determined: if no relation of the two modules ends at a whole table, then what is said by C83 are
equalities. -/
theorem C83_columns (a b : Module) (ha : ∀ c ∈ connections [] a.entries, IsColumn c.1 ∧ IsColumn c.2)
    (hb : ∀ c ∈ connections [] b.entries, IsColumn c.1 ∧ IsColumn c.2)
    (h : List.Forall₂ (fun c c' => Meet (definitions a.entries) c.1 c'.1 ∧ Meet (definitions a.entries) c.2 c'.2)
      (connections [] a.entries) (connections [] b.entries)) : connections [] a.entries = connections [] b.entries := by
  have key : ∀ r r' : NodeRef, IsColumn r → IsColumn r' → Meet (definitions a.entries) r r' → r = r' := by
    rintro (k | ⟨k, j⟩) (k' | ⟨k', j'⟩) h h' hm
    · cases h
    · cases h
    · cases h'
    · obtain ⟨rfl, rfl⟩ := hm; rfl
  refine List.ext_getElem? fun i => ?_
  by_cases hi : i < (connections [] a.entries).length
  · have hi' : i < (connections [] b.entries).length := by rw [← h.length_eq]; exact hi
    have hx := List.getElem?_eq_getElem hi
    have hy := List.getElem?_eq_getElem hi'
    have hm := forall₂_at h hx hy
    rw [hx, hy]
    have h1 := ha _ (List.mem_of_getElem? hx)
    have h2 := hb _ (List.mem_of_getElem? hy)
    exact congrArg some (Prod.ext (key _ _ h1.1 h2.1 hm.1) (key _ _ h1.2 h2.2 hm.2))
  · rw [List.getElem?_eq_none (by omega), List.getElem?_eq_none (by rw [← h.length_eq]; omega)]

/-- A relation to a table, and one to its middle line. -/
def toTable : Str := c!"erd { a { x int; y int }; b { z int }; a. o--o b.z }"
def toMiddle : Str := c!"erd { a { x int; y int }; b { z int }; a.x o--o b.z }"

theorem tells_counterexample {q : Queue} {src src' : Str} {P : Module → Module → Prop} [∀ a b, Decidable (P a b)]
    (h : ((parse src).1.bind fun a => (parse src').1.bind fun b => (stdoutText q id src).map fun out =>
      decide (stdoutText q id src' = some out ∧ ¬ P a b)) = some true) :
    ∃ a b out, Contains src a ∧ Contains src' b ∧ stdoutText q id src = some out ∧ stdoutText q id src' = some out ∧ ¬ P a b := by
  obtain ⟨a, ha, h⟩ := Option.bind_eq_some_iff.mp h
  obtain ⟨b, hb, h⟩ := Option.bind_eq_some_iff.mp h
  obtain ⟨out, ho, h⟩ := Option.map_eq_some_iff.mp h
  have h := of_decide_eq_true h
  exact ⟨a, b, out, (parse_contains _ _).mp ha, (parse_contains _ _).mp hb, ho, h.1, h.2⟩

set_option maxRecDepth 100000 in
/-- C83 is false: a relation to a table is drawn like one to its middle line. -/
theorem C83_refuted : ¬ OutputTells BinHeap.queue := by
  intro H
  obtain ⟨a, b, out, ha, hb, ho, ho', hne⟩ := tells_counterexample (q := BinHeap.queue) (src := toTable) (src' := toMiddle)
    (P := fun a b => connections [] a.entries = connections [] b.entries) (by decide +kernel)
  exact hne (H _ _ a b out ha hb ho ho').2

/-- What is written between the names of the first and the second column of a first table, if the first has type `int`. -/
def betweenNames : Str :=
  c!"\n</text>\n<text dominant-baseline=\"middle\" fill=\"#ECC700\" font-family=\"Courier New,monospace\" font-size=\"small\" font-weight=\"lighter\" text-anchor=\"end\" x=\"290\" y=\"102.5\">\nint\n</text>\n<line stroke=\"#494949\" stroke-width=\"1\" x1=\"50\" x2=\"350\" y1=\"120\" y2=\"120\"/>\n<text dominant-baseline=\"middle\" fill=\"white\" font-family=\"Courier New,monospace\" font-weight=\"lighter\" text-anchor=\"start\" x=\"62\" y=\"137.5\">\n"

/-- The names `x…y` and `z`, and the names `x` and `y…z`. -/
def namesFirst : Str := c!"erd { t { `x" ++ betweenNames ++ c!"y` int; z int } }"
def namesSecond : Str := c!"erd { t { x int; `y" ++ betweenNames ++ c!"z` int } }"

set_option maxRecDepth 100000 in
/-- Not even the tables are determined if names are quoted: two tables with different columns for which the same is written. -/
theorem C83_refuted_names : ∃ a b out, Contains namesFirst a ∧ Contains namesSecond b ∧
    stdoutText BinHeap.queue id namesFirst = some out ∧ stdoutText BinHeap.queue id namesSecond = some out ∧
    ¬ definitions a.entries = definitions b.entries :=
  tells_counterexample (P := fun a b => definitions a.entries = definitions b.entries) (by decide +kernel)

/-- The hypotheses of `C83_output_partial` are met by two sources that are not the same: they differ in layout, and in an unused name. -/
def laxSource : Str := c!"erd named { a { id int PK }\n\n b { id int\n a_id int FK }\n a.id o--o b.a_id\n c.none o--o a.id }"

set_option maxRecDepth 100000 in
example : plainSource ≠ laxSource ∧ '`' ∉ plainSource ∧ '`' ∉ laxSource ∧
    (stdoutText BinHeap.queue id plainSource).isSome = true ∧
    stdoutText BinHeap.queue id plainSource = stdoutText BinHeap.queue id laxSource ∧
    ((parse laxSource).1.map fun m => decide (picHeight (lineNumbers (definitions m.entries)) ≤ 1000000000)) = some true ∧
    ((parse plainSource).1.map fun m => decide (picHeight (lineNumbers (definitions m.entries)) ≤ 1000000000)) = some true := by
  decide +kernel

end Seiren
