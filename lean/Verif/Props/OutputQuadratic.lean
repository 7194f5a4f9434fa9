import Verif.Props.OutputSize
import Verif.Props.Grid
import Verif.Props.RoundTrip
import Verif.Proofs.RowCrossing
/-! # C99: the quadratic term is needed -/

namespace Seiren
open Spec

/-! ## Lower bounds for the text -/

theorem displayNum_min (x : Rat) : 1 ≤ byteLen (displayNum x) := by
  unfold displayNum
  simp only
  rw [byteLen_append, byteLen_append]
  have h1 : 1 ≤ byteLen (Nat.toDigits 10 ((x * 2).floor.natAbs / 2)) :=
    le_trans (List.length_pos_iff.mpr (toDigits_ne_nil _)) (byteLen_length _)
  omega

theorem displayNum_plain (x : Rat) : '"' ∉ displayNum x := by
  unfold displayNum
  simp only [List.mem_append, not_or]
  refine ⟨⟨?_, fun h => ?_⟩, ?_⟩
  · split <;> decide
  · have := List.all_eq_true.mp (toDigits_digits ((x * 2).floor.natAbs / 2)) _ h
    revert this; decide
  · split <;> decide

theorem joinWith_min (sep : Str) (k : Nat) (ss : List Str) (h : ∀ s ∈ ss, k ≤ byteLen s) : k * ss.length ≤ byteLen (joinWith sep ss) := by
  induction ss with
  | nil => simp
  | cons s ss ih =>
    have h1 := h s (by simp)
    have h2 := ih fun t ht => h t (by simp [ht])
    cases ss with
    | nil => simpa [joinWith] using h1
    | cons t ss =>
      rw [joinWith, byteLen_append, byteLen_append, List.length_cons, Nat.mul_succ]
      omega

theorem joinWith_char {sep : Str} {ss : List Str} {c : Char} (h : c ∈ joinWith sep ss) : c ∈ sep ∨ ∃ s ∈ ss, c ∈ s := by
  induction ss with
  | nil => simp [joinWith] at h
  | cons s ss ih =>
    cases ss with
    | nil => exact .inr ⟨s, by simp, h⟩
    | cons t ss =>
      simp only [joinWith, List.mem_append] at h
      rcases h with (h | h) | h
      · exact .inr ⟨s, by simp, h⟩
      · exact .inl h
      · rcases ih h with h | ⟨u, hu, h⟩
        · exact .inl h
        · exact .inr ⟨u, by simp only [List.mem_cons] at hu ⊢; tauto, h⟩

theorem command_display (c : PathCommand) : 4 ≤ byteLen c.display ∧ '"' ∉ c.display := by
  have b1 : byteLen c!"M" = 1 := rfl
  have b2 : byteLen c!"L" = 1 := rfl
  have b3 : byteLen c!"Q" = 1 := rfl
  have b4 : byteLen c!" " = 1 := rfl
  cases c with
  | moveTo p =>
    have := displayNum_min p.x
    have := displayNum_min p.y
    refine ⟨by simp only [PathCommand.display, byteLen_append, b1, b4]; omega, ?_⟩
    simp [PathCommand.display, displayNum_plain]
  | lineTo p =>
    have := displayNum_min p.x
    have := displayNum_min p.y
    refine ⟨by simp only [PathCommand.display, byteLen_append, b2, b4]; omega, ?_⟩
    simp [PathCommand.display, displayNum_plain]
  | quadTo p r =>
    have := displayNum_min p.x
    have := displayNum_min p.y
    refine ⟨by simp only [PathCommand.display, byteLen_append, b3, b4]; omega, ?_⟩
    simp [PathCommand.display, displayNum_plain]

/-- A path takes four bytes for each command. -/
theorem path_min (esc : Str → Str) (a b : Point) (cs : List PathCommand) : 4 * cs.length ≤ byteLen (childrenText esc (picRelation a b cs)) := by
  have h1 : 4 * cs.length ≤ byteLen (AttrVal.path cs).display := by
    have := joinWith_min c!" " 4 (cs.map PathCommand.display) (by
      intro s hs
      obtain ⟨c, -, rfl⟩ := List.mem_map.mp hs
      exact (command_display c).1)
    rwa [List.length_map] at this
  have h2 : (AttrVal.path cs).display.contains '"' = false := by
    rw [Bool.eq_false_iff]
    intro h
    rw [List.contains_iff_mem] at h
    rcases joinWith_char h with h | ⟨s, hs, h⟩
    · revert h; decide
    · obtain ⟨c, -, rfl⟩ := List.mem_map.mp hs
      exact (command_display c).2 h
  have h3 : byteLen (AttrVal.path cs).display ≤ byteLen (attrText (c!"d", (AttrVal.path cs).display)) := by
    unfold attrText
    rw [h2]
    simp only [Bool.false_eq_true, if_false, byteLen_append]
    omega
  rw [picRelation, childrenText, Element.toText]
  simp only [byteLen_append, sortAttrs_len, List.map_cons, List.flatMap_cons]
  omega

theorem childrenText_append (esc : Str → Str) (a b : List Element) : childrenText esc (a ++ b) = childrenText esc a ++ childrenText esc b := by
  induction a with
  | nil => simp [childrenText]
  | cons e a ih => simp only [List.cons_append, childrenText, ih, List.append_assoc]

/-- The text of a picture contains the texts of its relations. -/
theorem picture_min (esc : Str → Str) (ds : List EntityDefinition) (rs : List Element) :
    byteLen (childrenText esc rs) ≤ byteLen (svgText esc (picture ds rs)) := by
  rw [svgText, picture, withNamespace, Element.toText]
  rw [if_neg (by simp), childrenText_append]
  simp only [byteLen_append]
  omega

theorem pathData_min {ps : List Point} {cs : List PathCommand} (h : pathData ps = .ok cs) : ps.length ≤ cs.length := by
  obtain ⟨a, b, pieces, -, -, rfl, hl, hp⟩ := C45_path_data ps cs h
  have h2 : ∀ l ∈ pieces, 1 ≤ l.length := by
    intro l hl'
    obtain ⟨k, hk, rfl⟩ := List.getElem_of_mem hl'
    obtain ⟨l, h1, d, d', -, -, -, h3, h4⟩ := hp k ps[k] ps[k + 1] ps[k + 2] (List.getElem?_eq_getElem (by omega)) (List.getElem?_eq_getElem (by omega))
      (List.getElem?_eq_getElem (by omega))
    rw [List.getElem?_eq_getElem hk, Option.some.injEq] at h1
    rw [h1]
    by_cases hd : d = d'
    · rw [h3 hd]; simp
    · rw [h4 hd]; simp
  have h3 : ∀ ls : List (List PathCommand), (∀ l ∈ ls, 1 ≤ l.length) → ls.length ≤ ls.flatten.length := by
    intro ls
    induction ls with
    | nil => simp
    | cons l ls ih =>
      intro h
      have h4 := h l (by simp)
      have h5 := ih fun l' hl' => h l' (by simp [hl'])
      simp only [List.flatten_cons, List.length_append, List.length_cons]; omega
  have h4 := h3 pieces h2
  simp only [List.length_cons, List.length_append, List.length_nil]; omega

theorem blocks_min {es : List EdgeData} {bs : List (List Element)} (h : List.Forall₂ (fun e b => drawEdgeConnection e = .ok b) es bs) (N : Nat)
    (hN : ∀ e ∈ es, ∀ ps, e.pathPoints = some ps → N ≤ ps.length) (esc : Str → Str) :
    es.length * (4 * N) ≤ byteLen (childrenText esc bs.flatten) := by
  induction h with
  | nil => simp
  | @cons e b es bs hb _ ih =>
    have h3 := ih fun e' he' => hN e' (by simp [he'])
    obtain ⟨ps, d, p, r, h4, h5, -, -, rfl⟩ := drawEdge_ok hb
    have h6 : 4 * d.length ≤ byteLen (childrenText esc [leaf c!"path" [(c!"stroke", .str strokeColor.display), (c!"stroke-width", .num (3/2)),
             (c!"fill", .str c!"transparent"), (c!"d", .path d)], endCircle p, endCircle r]) := path_min esc p r d
    have h7 := pathData_min h5
    have h8 := hN e (by simp) ps h4
    rw [List.flatten_cons, childrenText_append, byteLen_append, List.length_cons, Nat.succ_mul]
    omega

/-! ## A family of modules -/

/-- A table with two columns. -/
def twoColumns (n : Str) : EntityDefinition := ⟨n, [⟨c!"c", .int, none⟩, ⟨c!"d", .int, none⟩]⟩

/-- `N + 1` full rows of tables, and `N` times the same relation, between the first and the last table. -/
def tallModule (N : Nat) : Module :=
  ⟨none, .definition (twoColumns c!"b") :: (List.replicate (3 * N + 1) (.definition ⟨c!"a", []⟩) ++
    .definition (twoColumns c!"e") :: List.replicate N (.relation ⟨.field c!"b" c!"c", .field c!"e" c!"c"⟩))⟩

def tallDefs (N : Nat) : List EntityDefinition := twoColumns c!"b" :: (List.replicate (3 * N + 1) ⟨c!"a", []⟩ ++ [twoColumns c!"e"])

theorem definitions_relations (k : Nat) (r : EntityRelation) : definitions (List.replicate k (.relation r)) = [] := by
  induction k with
  | zero => rfl
  | succ k ih => rw [List.replicate_succ, definitions, ih]

theorem definitions_replicate (k : Nat) (d : EntityDefinition) (es : List ModuleEntry) :
    definitions (List.replicate k (.definition d) ++ es) = List.replicate k d ++ definitions es := by
  induction k with
  | zero => rfl
  | succ k ih => rw [List.replicate_succ, List.replicate_succ, List.cons_append, List.cons_append, definitions, ih]

theorem tall_definitions (N : Nat) : definitions (tallModule N).entries = tallDefs N := by
  simp only [tallModule, tallDefs, definitions, definitions_replicate, definitions_relations]

theorem connections_replicate (k : Nat) (d : EntityDefinition) (ds : List EntityDefinition) (es : List ModuleEntry) :
    connections ds (List.replicate k (.definition d) ++ es) = connections (ds ++ List.replicate k d) es := by
  induction k generalizing ds with
  | zero => simp
  | succ k ih => rw [List.replicate_succ, List.replicate_succ, List.cons_append, connections, ih]; simp

theorem connections_relations {ds : List EntityDefinition} {r : EntityRelation} {s t : NodeRef} (hs : resolve ds r.startPath = some s)
    (ht : resolve ds r.endPath = some t) (k : Nat) : connections ds (List.replicate k (.relation r)) = List.replicate k (s, t) := by
  induction k with
  | zero => rfl
  | succ k ih => rw [List.replicate_succ, List.replicate_succ, connections, hs, ht, ih]

theorem tall_resolve (N : Nat) : resolve (tallDefs N) (.field c!"b" c!"c") = some (.column 0 0) ∧
    resolve (tallDefs N) (.field c!"e" c!"c") = some (.column (3 * N + 2) 0) := by
  have h : ∀ (e f : Str) (k i : Nat), e ≠ c!"a" → ((List.replicate k (⟨c!"a", []⟩ : EntityDefinition)).zipIdx i).flatMap (fun (d, k) =>
      if d.name = e then d.fields.zipIdx.filterMap fun (c, j) => if c.name = f then some (NodeRef.column k j) else none else []) = [] := by
    intro e f k i he
    induction k generalizing i with
    | zero => rfl
    | succ k ih =>
      rw [List.replicate_succ, List.zipIdx_cons, List.flatMap_cons, ih]
      simp [Ne.symm he]
  constructor
  · rw [resolve, candidates, tallDefs, List.zipIdx_cons, List.flatMap_cons, List.zipIdx_append, List.flatMap_append, h _ _ _ _ (by decide)]
    simp [twoColumns]
  · rw [resolve, candidates, tallDefs, List.zipIdx_cons, List.flatMap_cons, List.zipIdx_append, List.flatMap_append, h _ _ _ _ (by decide)]
    simp [twoColumns]
    omega

theorem tall_connections (N : Nat) : connections [] (tallModule N).entries = List.replicate N (.column 0 0, .column (3 * N + 2) 0) := by
  rw [tallModule]
  simp only
  rw [connections, connections_replicate, connections]
  have e : [] ++ [twoColumns c!"b"] ++ List.replicate (3 * N + 1) ⟨c!"a", []⟩ ++ [twoColumns c!"e"] = tallDefs N := by simp [tallDefs]
  rw [e]
  exact connections_relations (tall_resolve N).1 (tall_resolve N).2 N

/-- The numbers of lines. -/
theorem tall_lines (N : Nat) : lineNumbers (tallDefs N) = 3 :: (List.replicate (3 * N + 1) 1 ++ [3]) := by
  simp [lineNumbers, tallDefs, twoColumns]

theorem tall_tab (N : Nat) {r c : Nat} (hr : r ≤ N) (hc : c < 3) : ∃ m, Grid.Tab (lineNumbers (tallDefs N)) c r m := by
  have hl : (lineNumbers (tallDefs N)).length = 3 * N + 3 := by simp [tall_lines]
  exact ⟨_, hc, List.getElem?_eq_getElem (by omega)⟩

theorem tall_sides (N : Nat) : Grid.SideEnds (lineNumbers (tallDefs N)) (connections [] (tallModule N).entries) := by
  have h1 : (lineNumbers (tallDefs N))[0]? = some 3 := by rw [tall_lines]; rfl
  have h2 : (lineNumbers (tallDefs N))[3 * N + 2]? = some 3 := by
    rw [tall_lines, List.getElem?_cons_succ, List.getElem?_append_right (by simp)]
    simp
  rintro ⟨p, o⟩ he
  rw [tall_connections] at he
  simp only [allEnds, List.mem_flatMap, List.mem_replicate, List.mem_append] at he
  obtain ⟨c, ⟨-, rfl⟩, he⟩ := he
  simp only [endsOf, sidesOf, h1, h2, Option.some.injEq, Nat.reduceAdd, Nat.reduceEqDiff, if_false, List.map_cons, List.map_nil, List.mem_cons,
    List.not_mem_nil, or_false, Prod.mk.injEq] at he
  rcases he with (⟨-, h⟩ | ⟨-, h⟩) | (⟨-, h⟩ | ⟨-, h⟩) <;> simp [h]

theorem tall_height (N : Nat) : picHeight (lineNumbers (definitions (tallModule N).entries)) ≤ 500 + 185 * (N : Rat) := by
  have h := picHeight_le (lineNumbers (definitions (tallModule N).entries))
  rw [tall_definitions] at h ⊢
  have h1 : (lineNumbers (tallDefs N)).sum = 3 * N + 7 := by simp [tall_lines]; omega
  have h2 : (lineNumbers (tallDefs N)).length = 3 * N + 3 := by simp [tall_lines]
  rw [h1, h2] at h
  have h3 : (3 * N + 3 - 1) / 3 = N := by omega
  rw [h3] at h
  push_cast at h
  linarith

/-- The height of an end of a relation at the first column of table `k`, if it is at a side. -/
theorem end_height {ns : List Nat} {cs : List (NodeRef × NodeRef)} (hs : Grid.SideEnds ns cs) {k : Nat} {p : Point} {o : Orientation}
    (h : (p, o) ∈ endsOf ns (.column k 0)) (hmem : ∀ x ∈ endsOf ns (.column k 0), x ∈ allEnds ns cs) : p.y = rowTop ns (k / 3) + 35 + 35 / 2 := by
  have ho := hs _ (hmem _ h)
  obtain ⟨o1, -, he⟩ := List.mem_map.mp h
  simp only [Prod.mk.injEq] at he
  obtain ⟨rfl, rfl⟩ := he
  simp only at ho
  rcases ho with rfl | rfl <;> simp [sideMiddle, refRect, lineRect]

/-- The text of the drawing of this module. -/
theorem tall_text (N : Nat) (h1 : 1 ≤ N) (hN : N ≤ 4500) :
    ∃ el, drawModule BinHeap.queue (tallModule N) = .ok el ∧ ∀ esc, N * (4 * (N + 2)) ≤ byteLen (svgText esc el) := by
  have hh : picHeight (lineNumbers (definitions (tallModule N).entries)) ≤ 1000000000 := by
    have : (N : Rat) ≤ 4500 := by exact_mod_cast hN
    linarith [tall_height N]
  have hne : definitions (tallModule N).entries ≠ [] := by rw [tall_definitions]; simp [tallDefs]
  obtain ⟨hs, hbl⟩ := picture_blocks BinHeap.lawful (tallModule N) hne hh
  have hc : ∀ c ∈ connections [] (tallModule N).entries, c = (.column 0 0, .column (3 * N + 2) 0) := by
    intro c hc
    rw [tall_connections] at hc
    exact (List.mem_replicate.mp hc).2
  obtain ⟨el, hel⟩ := (C40_any_tables BinHeap.lawful (tallModule N) (by
    intro c hc'
    rw [hc c hc', tall_definitions]
    constructor
    · rintro ⟨d, hd, hf⟩
      cases hd
      cases hf
    · rintro ⟨d, hd, hf⟩
      rw [tallDefs, List.getElem?_cons_succ, List.getElem?_append_right (by simp)] at hd
      simp at hd
      subst hd
      cases hf) hs).mpr (by
    intro c hc'
    rw [hc c hc']
    rintro ⟨h, -⟩
    omega)
  refine ⟨el, hel, fun esc => ?_⟩
  obtain ⟨doc', g', hd, -⟩ := drawn_connections BinHeap.lawful (tallModule N) hs
  obtain ⟨bs, hf, rfl⟩ := hbl el hel doc' g' hd
  have hr := C67_shortest_routes BinHeap.lawful (tallModule N) hs doc' g' hd
  have hlen : doc'.edges.length = N := by rw [← hr.length_eq, tall_connections, List.length_replicate]
  have h := blocks_min hf (N + 2) (by
    intro e he ps hps
    obtain ⟨k, hk, rfl⟩ := List.getElem_of_mem he
    obtain ⟨ps', hps', ⟨⟨w, hw⟩, ⟨a, o, ha, hao⟩, b, o', hb, hbo⟩, -⟩ := List.Forall₂.get hr (hr.length_eq ▸ hk) hk
    simp only [List.get_eq_getElem] at hps' hao hbo
    rw [hps] at hps'
    cases hps'
    rw [hc _ (List.getElem_mem _)] at hao hbo
    have hok := Grid.ok_module (tallModule N)
    rw [tall_definitions] at hok hw hao hbo
    have y1 := end_height (tall_sides N) hao (fun x hx => by
      rw [tall_connections, allEnds, List.mem_flatMap]
      exact ⟨_, List.mem_replicate.mpr ⟨by omega, rfl⟩, List.mem_append.mpr (.inl hx)⟩)
    have y2 := end_height (tall_sides N) hbo (fun x hx => by
      rw [tall_connections, allEnds, List.mem_flatMap]
      exact ⟨_, List.mem_replicate.mpr ⟨by omega, rfl⟩, List.mem_append.mpr (.inr hx)⟩)
    rw [show (3 * N + 2) / 3 = N by omega] at y2
    rw [show 0 / 3 = 0 by omega, show rowTop (lineNumbers (tallDefs N)) 0 = 50 from rfl] at y1
    obtain ⟨m, hm⟩ := tall_tab N (r := 0) (c := 0) (by omega) (by omega)
    have hm3 : m = 3 := by
      have := hm.2
      rw [tall_lines] at this
      exact (Option.some.inj this).symm
    have hap := hm.apart (show 0 < 1 by omega)
    subst hm3
    have e0 : rowTop (lineNumbers (tallDefs N)) 0 = 50 := rfl
    rw [e0] at hap
    exact Grid.rows_length hok (tall_sides N) (fun r _ hr c hc => tall_tab N hr hc) hw ha hb (by rw [y1]; push_cast at hap; linarith) (by rw [y2]; linarith) h1) esc
  rw [hlen] at h
  exact h.trans (picture_min esc _ _)

/-- The source of this module. -/
def tallSource (N : Nat) : Str := printModule id (tallModule N)

theorem tall_source (N : Nat) : parse (tallSource N) = (some (tallModule N), [], []) ∧ byteLen (tallSource N) = 44 * N + 62 := by
  have hword : ∀ s ∈ [c!"a", c!"b", c!"c", c!"d", c!"e"], Lexeme (.ident s) s 0 := by
    intro s hs
    simp only [List.mem_cons, List.not_mem_nil, or_false] at hs
    rcases hs with rfl | rfl | rfl | rfl | rfl <;> refine .word ⟨_, [], rfl, .inl (by decide), by simp⟩ (fun t => ?_) <;>
      simp [keywords]
  constructor
  · apply parse_print
    intro s hs
    apply hword
    simp only [moduleNames, tallModule, Option.toList_none, List.nil_append, List.mem_flatMap, List.mem_cons, List.mem_append, List.mem_replicate] at hs
    obtain ⟨e, he, hs⟩ := hs
    rcases he with rfl | ⟨-, rfl⟩ | rfl | ⟨-, rfl⟩ <;> revert s <;> decide
  · have h1 : ∀ (k : Nat) (e : ModuleEntry), byteLen (printEntries id (List.replicate k e)) = k * byteLen (printEntries id [e]) := by
      intro k e
      induction k with
      | zero => simp [printEntries]
      | succ k ih =>
        have : printEntries id (List.replicate (k + 1) e) = printEntries id [e] ++ printEntries id (List.replicate k e) := by
          simp [printEntries, List.replicate_succ]
        rw [this, byteLen_append, ih, Nat.succ_mul, Nat.add_comm]
    have h2 : ∀ a b, printEntries id (a ++ b) = printEntries id a ++ printEntries id b := by simp [printEntries]
    have e : tallSource N = c!"erd {\n" ++ (printEntries id [.definition (twoColumns c!"b")] ++ (printEntries id (List.replicate (3 * N + 1) (.definition ⟨c!"a", []⟩)) ++
        (printEntries id [.definition (twoColumns c!"e")] ++ printEntries id (List.replicate N (.relation ⟨.field c!"b" c!"c", .field c!"e" c!"c"⟩))))) ++ c!"}" := by
      rw [← h2, ← h2, ← h2]
      rfl
    have b1 : byteLen c!"erd {\n" = 6 := rfl
    have b2 : byteLen (printEntries id [.definition (twoColumns c!"b")]) = 23 := rfl
    have b3 : byteLen (printEntries id [.definition ⟨c!"a", []⟩]) = 9 := rfl
    have b4 : byteLen (printEntries id [.definition (twoColumns c!"e")]) = 23 := rfl
    have b5 : byteLen (printEntries id [.relation ⟨.field c!"b" c!"c", .field c!"e" c!"c"⟩]) = 17 := rfl
    have b6 : byteLen c!"}" = 1 := rfl
    rw [e]
    simp only [byteLen_append, h1, b1, b2, b3, b4, b5, b6]
    omega

/-- **C99, the quadratic term is needed.** For every `N` from 1 to 4500 there is a source of `n = 44 N + 62` bytes (at most 199000) for which
nothing is reported and more than `4 N²`, that is about `n² / 484`, bytes are written, however the crate `svg` writes texts. -/
theorem C99_quadratic (N : Nat) (h1 : 1 ≤ N) (hN : N ≤ 4500) : ∃ src bs m, TextBytes src bs ∧ bs.length = 44 * N + 62 ∧ Contains src m ∧ errorsOf src = [] ∧
    ∀ esc, (∃ text, TextFor esc m text) ∧ ∀ text bytes, TextFor esc m text → TextBytes text bytes → 4 * N * N < bytes.length := by
  obtain ⟨hc, hl⟩ := tall_source N
  obtain ⟨el, hel, ht⟩ := tall_text N h1 hN
  have hne : definitions (tallModule N).entries ≠ [] := by rw [tall_definitions]; simp [tallDefs]
  have he : errorsOf (tallSource N) = [] := by
    have := errors_length (tallSource N)
    rw [hc] at this
    exact List.length_eq_zero_iff.mp this
  refine ⟨_, _, tallModule N, (textBytes_iff _ _).mpr rfl, hl, (parse_contains _ _).mp (by rw [hc]), he, fun esc => ⟨⟨_, .inr ⟨hne, el, hel, rfl⟩⟩, ?_⟩⟩
  rintro text bytes (⟨h0, -⟩ | ⟨-, el', hel', rfl⟩) hb
  · exact absurd h0 hne
  · rw [hel] at hel'
    cases hel'
    have := ht esc
    rw [(textBytes_iff _ _).mp hb]
    change N * (4 * (N + 2)) ≤ (encodeUtf8 (svgText esc el)).length at this
    nlinarith

/-- **C99**, the whole program: given such a source and enough room, so many bytes are written. -/
theorem C99_program_quadratic (N : Nat) (h1 : 1 ≤ N) (hN : N ≤ 4500) : ∃ bs : List UInt8, bs.length = 44 * N + 62 ∧
    ∀ (l : Libraries) (w : RawWorld) (name : Str), RawInput l.readsFirst w name (some bs) → ∃ room, ∀ d : Devices, room ≤ d.room →
      4 * N * N < (runWhole l w d).stdout.length ∧ (runWhole l w d).exit = .success := by
  obtain ⟨src, bs, m, hs, hl, hc, he0, ht⟩ := C99_quadratic N h1 hN
  refine ⟨bs, hl, fun l w name hin => ?_⟩
  obtain ⟨⟨text, htf⟩, hlong⟩ := ht l.escape
  refine ⟨(encodeUtf8 text).length, fun d hd => ?_⟩
  obtain ⟨-, h⟩ := C98_program l w d
  obtain ⟨errors, he, h3, h4⟩ := (h name _ hin).2 bs src rfl hs (by omega)
  have h5 := he.length_eq
  rw [he0, List.length_nil] at h5
  have h6 := hlong text _ htf ((textBytes_iff _ _).mpr rfl)
  rw [(((h4 (by omega)).2 m hc).2 text _ htf ((textBytes_iff _ _).mpr rfl)).1 (by omega), List.take_of_length_le hd]
  exact ⟨h6, rfl⟩

set_option maxRecDepth 1000000 in
/-- For `N = 1`: 106 bytes are read and 4902 written. -/
example : parse c!"erd {\n    b { c int; d int }\n    a {}\n    a {}\n    a {}\n    a {}\n    e { c int; d int }\n    b.c o--o e.c\n}" =
    (some (tallModule 1), [], []) ∧ (stdoutText BinHeap.queue id (tallSource 1)).map byteLen = some 4902 := by
  constructor <;> decide +kernel

end Seiren
