import Verif.Props.Formatting
import Verif.Props.Effort
import Verif.Props.Panics
/-! # C88: how large things get, in terms of the source -/

namespace Seiren
open Spec

/-- The number of columns of all tables. -/
def Spec.columnCount (ds : List EntityDefinition) : Nat := (ds.map fun d => d.fields.length).sum

/-- The number of relations. -/
def Spec.relationCount : List ModuleEntry → Nat
  | [] => 0
  | .definition _ :: es => relationCount es
  | .relation _ :: es => relationCount es + 1

/-! ## Tokens and characters -/

/-- Every token takes a character. -/
theorem scan_length {pos : Nat} {src : Str} {ts : List (Token × Span)} {errs : List LexError} (h : Scan pos src ts errs) :
    ts.length ≤ src.length := by
  induction h with
  | stop => simp
  | token hg hw h ih =>
    have := List.length_pos_iff.mpr (lexeme_ne hw.1)
    simp only [List.length_cons, List.length_append]; omega
  | skip hg ht hx hu hw h ih =>
    have := List.length_pos_iff.mpr (lexeme_ne hw.1)
    simp only [List.length_cons, List.length_append]; omega

/-- Every character takes a byte. -/
theorem textBytes_length {s : Str} {bs : List UInt8} (h : TextBytes s bs) : s.length ≤ bs.length := by
  obtain ⟨chunks, h1, h2⟩ := h
  have h3 : bs.length = chunks.flatten.length := by rw [← h2, List.length_map]
  rw [h3]
  clear h2 h3
  induction h1 with
  | nil => simp
  | @cons c b s chunks hb _ ih =>
    have : b ≠ [] := by
      rintro rfl
      cases hb.1
    have := List.length_pos_iff.mpr this
    simp only [List.length_cons, List.flatten_cons, List.length_append]; omega

/-! ## Entries and tokens -/

/-- Items of given sizes take at least as many tokens. -/
theorem more_length {α : Type} {D : Dialect} {item : α → List Token → Prop} (size : α → Nat) (hi : ∀ a w, item a w → size a ≤ w.length)
    {as : List α} {v : List Token} (h : More D item as v) : (as.map size).sum + as.length ≤ v.length := by
  induction h with
  | done => simp
  | more s p a w as v hs hp ha hv ih =>
    have := hi a w ha
    simp only [List.map_cons, List.sum_cons, List.length_cons, List.length_append]; omega

theorem items_length {α : Type} {D : Dialect} {item : α → List Token → Prop} (size : α → Nat) (hi : ∀ a w, item a w → size a ≤ w.length)
    {as : List α} {v : List Token} (h : Items D item as v) : (as.map size).sum + as.length ≤ v.length + 1 := by
  cases h with
  | empty => simp
  | items a w as v ha hv =>
    have := hi a w ha
    have := more_length size hi hv
    simp only [List.map_cons, List.sum_cons, List.length_cons, List.length_append]; omega

/-- A lower bound for the number of tokens of an entry. -/
def entrySize : ModuleEntry → Nat
  | .definition d => 3 * d.fields.length + 2
  | .relation _ => 5

theorem dottedEnd_length {p : EntityPath} {w : List Token} (h : DottedEnd p w) : 2 ≤ w.length := by
  cases h <;> simp

theorem entry_length {e : ModuleEntry} {w : List Token} (h : EntryG implemented e w) : entrySize e ≤ w.length := by
  cases h with
  | definition h =>
    obtain ⟨p, q, ws, r, -, hf, -, rfl⟩ := h
    have := items_length (fun _ => 2) (fun a w (h : FieldG a w) => by rw [h]; simp) hf
    simp only [List.map_const', List.sum_replicate_nat] at this
    simp only [entrySize, List.length_cons, List.length_append, List.length_nil]; omega
  | relation h =>
    obtain ⟨a, p, q, b, ha, hb, -, rfl⟩ := h
    have h1 := dottedEnd_length ha
    have h2 := dottedEnd_length hb
    simp only [entrySize, List.length_cons, List.length_append]; omega

theorem entries_size (es : List ModuleEntry) : (es.map entrySize).sum + es.length =
    3 * (definitions es).length + 3 * columnCount (definitions es) + 6 * relationCount es := by
  induction es with
  | nil => rfl
  | cons e es ih =>
    cases e with
    | definition d =>
      simp only [List.map_cons, List.sum_cons, List.length_cons, definitions, columnCount, relationCount, entrySize] at ih ⊢; omega
    | relation r =>
      simp only [List.map_cons, List.sum_cons, List.length_cons, definitions, columnCount, relationCount, entrySize] at ih ⊢; omega

/-- A table takes three characters, a column three, a relation six; `erd{}` takes three tokens, less the separator that the first
entry does not need. -/
theorem contains_length {src : Str} {m : Module} (h : Contains src m) :
    3 * (definitions m.entries).length + 3 * columnCount (definitions m.entries) + 6 * relationCount m.entries + 2 ≤ src.length := by
  obtain ⟨ts, errs, w, r, hs, hw, p, q, n, r', ws, u, v, -, -, hi, rfl⟩ := h
  have h1 := scan_length hs
  have h2 := congrArg List.length hw
  have h3 := items_length entrySize (fun a w h => entry_length h) hi
  rw [entries_size] at h3
  simp only [List.length_map, List.length_append, List.length_cons] at h2
  omega

theorem connections_count (defs : List EntityDefinition) (es : List ModuleEntry) : (connections defs es).length ≤ relationCount es := by
  induction es generalizing defs with
  | nil => simp [connections]
  | cons e es ih =>
    cases e with
    | definition d => exact ih _
    | relation r =>
      simp only [connections, relationCount]
      have := ih defs
      split
      · simp only [List.length_cons]; omega
      · omega

/-! ## Height -/

theorem getD_split (ns : List Nat) (r : Nat) : tallest ns r + (ns.drop (3 * (r + 1))).sum ≤ (ns.drop (3 * r)).sum := by
  have h : ∀ k, ns[k]?.getD 0 + (ns.drop (k + 1)).sum = (ns.drop k).sum := by
    intro k
    by_cases hk : k < ns.length
    · rw [List.getElem?_eq_getElem hk, List.drop_eq_getElem_cons hk, List.sum_cons]; rfl
    · rw [List.getElem?_eq_none (by omega), List.drop_eq_nil_of_le (by omega), List.drop_eq_nil_of_le (by omega)]; rfl
  have h0 := h (3 * r)
  have h1 := h (3 * r + 1)
  have h2 := h (3 * r + 2)
  unfold tallest
  rw [show 3 * (r + 1) = 3 * r + 2 + 1 by omega]
  rw [show 3 * r + 1 + 1 = 3 * r + 2 by omega] at h1
  omega

theorem rowTop_le (ns : List Nat) (r : Nat) : rowTop ns r + 35 * ((ns.drop (3 * r)).sum : Nat) ≤ 50 + 35 * (ns.sum : Nat) + 80 * r := by
  induction r with
  | zero => simp [rowTop]
  | succ r ih =>
    have h := getD_split ns r
    have h' : ((tallest ns r : Nat) : Rat) + ((ns.drop (3 * (r + 1))).sum : Nat) ≤ ((ns.drop (3 * r)).sum : Nat) := by exact_mod_cast h
    rw [rowTop]
    push_cast at ih h' ⊢
    linarith

/-- The height of a picture: 35 for each line at most, 80 for each row. -/
theorem picHeight_le (ns : List Nat) : picHeight ns ≤ 100 + 35 * (ns.sum : Nat) + 80 * ((ns.length - 1) / 3 : Nat) := by
  have h1 := rowTop_le ns ((ns.length - 1) / 3)
  have h2 := getD_split ns ((ns.length - 1) / 3)
  have h3 : ((tallest ns ((ns.length - 1) / 3) : Nat) : Rat) ≤ ((ns.drop (3 * ((ns.length - 1) / 3))).sum : Nat) := by
    exact_mod_cast (by omega : tallest ns ((ns.length - 1) / 3) ≤ (ns.drop (3 * ((ns.length - 1) / 3))).sum)
  rw [picHeight]
  linarith

theorem lineNumbers_sum (ds : List EntityDefinition) : (lineNumbers ds).sum = ds.length + columnCount ds := by
  induction ds with
  | nil => rfl
  | cons d ds ih => 
    simp only [lineNumbers, columnCount, List.map_cons, List.sum_cons, List.length_cons] at ih ⊢; omega

/-! ## C88 -/

/-- **C88.** How large things get.  A source of `n` characters contains at most `n / 3` tables and columns together and `n / 6`
relations.  The picture is at most `21 n + 100` high.  The document has at most `n` nodes and `n / 6` edges. -/
theorem C88_sizes (src : Str) (m : Module) (h : Contains src m) :
    3 * ((definitions m.entries).length + columnCount (definitions m.entries)) + 6 * (connections [] m.entries).length + 2 ≤ src.length ∧
    picHeight (lineNumbers (definitions m.entries)) ≤ 21 * (src.length : Rat) + 100 ∧
    m.intoMir.nodes.length ≤ src.length ∧ 6 * m.intoMir.edges.length + 2 ≤ src.length := by
  have h1 := contains_length h
  have h2 := connections_count [] m.entries
  have he : m.intoMir.edges.length = (connections [] m.entries).length := by
    simpa using congrArg List.length (C17_relations m).1
  refine ⟨by omega, ?_, ?_, by omega⟩
  · have h3 := picHeight_le (lineNumbers (definitions m.entries))
    rw [lineNumbers_sum] at h3
    have h4 : 3 * (((lineNumbers (definitions m.entries)).length - 1) / 3) ≤ (definitions m.entries).length := by
      have : (lineNumbers (definitions m.entries)).length = (definitions m.entries).length := by simp [lineNumbers]
      omega
    have h5 : 35 * ((definitions m.entries).length + columnCount (definitions m.entries)) +
        80 * (((lineNumbers (definitions m.entries)).length - 1) / 3) ≤ 21 * src.length := by omega
    have h6 : (35 * (((definitions m.entries).length + columnCount (definitions m.entries) : Nat) : Rat) +
        80 * ((((lineNumbers (definitions m.entries)).length - 1) / 3 : Nat) : Rat)) ≤ 21 * (src.length : Rat) := by exact_mod_cast h5
    linarith
  · have h3 : m.intoMir.nodes.length = 1 + sizeOf' (definitions m.entries) := by
      rw [(intoMir_nodes m).1, List.length_cons, nodesFrom_length, Nat.add_comm]
    have h4 : ∀ ds : List EntityDefinition, sizeOf' ds = 2 * ds.length + columnCount ds := by
      intro ds
      induction ds with
      | nil => rfl
      | cons d ds ih =>
        simp only [sizeOf', columnCount, defSize, List.map_cons, List.sum_cons, List.length_cons] at ih ⊢; omega
    rw [h3, h4]
    omega

/-- The bound on the height that other theorems assume holds for all sources of at most 47 million characters. -/
theorem C88_height (src : Str) (m : Module) (h : Contains src m) (hn : src.length ≤ 47000000) :
    (placeNodes m.intoMir).2.size.height ≤ 1000000000 := by
  by_cases hne : definitions m.entries = []
  · rw [intoMir_empty m hne]
    decide +kernel
  · refine (picture_blocks BinHeap.lawful m hne ?_).1
    have h1 := (C88_sizes src m h).2.1
    have h2 : (src.length : Rat) ≤ 47000000 := by exact_mod_cast hn
    linarith

/-- **C88**, the route graph: at most `4 n` nodes and `16 n` edges, so that all indices fit into 32 bits. -/
theorem C88_route_graph {q : Queue} {QI : List Entry → Prop} (hq : q.Lawful QI) (src : Str) (m : Module) (h : Contains src m)
    (hn : src.length ≤ 47000000) (doc' : Document) (g' : RouteGraph)
    (hd : drawEdgePath q (laidOut m.intoMir) .new = .ok (doc', g')) :
    g'.nodes.length ≤ 4 * src.length ∧ g'.edges.length ≤ 16 * src.length ∧ g'.nodes.length < 2 ^ 32 - 1 ∧ g'.edges.length < 2 ^ 32 - 1 := by
  obtain ⟨h1, h2, -⟩ := C75_effort hq m (C88_height src m h hn) doc' g' hd
  have h3 := (C88_sizes src m h).1
  refine ⟨by omega, by omega, by omega, by omega⟩

/-- **C88**, the machine: for a file of at most 199000 bytes whose module has a table, the program, computing with 32-bit numbers, does
what the exact model does. -/
theorem C88_machine (ovf : Rat → Rat) (wr : Nat → Nat) (hw : ∀ n < 4294967296, wr n = n) {q : Queue} {QI : List Entry → Prop}
    (hq : q.Lawful QI) (esc : Str → Str) (world : World) (name : Str) (bs : List UInt8) (hin : InputOf world name (some bs))
    (hsize : bs.length ≤ 199000) (ht : ∀ src m, TextBytes src bs → Contains src m → definitions m.entries ≠ []) :
    runProgramM (roundOr ovf) sqrtF32 wr q esc world = runProgram q esc world := by
  refine C79_machine_program ovf wr hw hq esc world name _ hin ?_
  rintro bs src m ⟨⟩ hsrc hm
  refine ⟨ht src m hsrc hm, (C88_sizes src m hm).2.1.trans ?_⟩
  have : (src.length : Rat) ≤ 199000 := by exact_mod_cast (textBytes_length hsrc).trans hsize
  norm_num
  linarith

/-- **C88, the whole program on the machine.** A file of at most 199000 bytes that contains a module with a table is never refused.
Either the program succeeds, and if the file has no back quotes, it writes an XML document that shows the picture of the module; or it
panics, writes nothing, and the cause is a relation whose ends have a port at the same place or whose path turns back. -/
theorem C88_program (ovf : Rat → Rat) (wr : Nat → Nat) (hw : ∀ n < 4294967296, wr n = n) {q : Queue} {QI : List Entry → Prop}
    (hq : q.Lawful QI) (world : World) (name : Str) (bs : List UInt8) (hin : InputOf world name (some bs)) (hsize : bs.length ≤ 199000)
    (src : Str) (hs : TextBytes src bs) (m : Module) (hm : Contains src m) (hne : definitions m.entries ≠ []) :
    let o := runProgramM (roundOr ovf) sqrtF32 wr q id world
    (o.exit = .success ∧ ('`' ∉ src → ∃ (text : Str) (x : Xml) (relations : List (List Element)), TextBytes text o.stdout ∧
        readXml text = some x ∧ Shows (svgDocument (picture (definitions m.entries) relations.flatten)) x ∧
        List.Forall₂ (ShowsRelation (lineNumbers (definitions m.entries)) (connections [] m.entries)) (connections [] m.entries) relations)) ∨
    (o.exit = .panic ∧ o.stdout = [] ∧ ∃ pre s t post, connections [] m.entries = pre ++ (s, t) :: post ∧
      (∀ c ∈ pre, ¬ Meet (definitions m.entries) c.1 c.2) ∧
      ((Meet (definitions m.entries) s t ∧ drawModule q m = .error (.panic .pathTooShort)) ∨
        (¬ Meet (definitions m.entries) s t ∧ ∃ k, drawModule q m = .error (.panic (.turnaround (k + 1)))))) := by
  have huniq : ∀ src' m', TextBytes src' bs → Contains src' m' → definitions m'.entries ≠ [] := by
    intro src' m' h1 h2
    rw [C77_utf8.2.2.1 src' src bs h1 hs] at h2
    rw [← parse_contains] at h2 hm
    rw [hm] at h2
    cases h2
    exact hne
  have hlen := textBytes_length hs
  intro o
  have ho : o = runProgram q id world := C88_machine ovf wr hw hq id world name bs hin hsize huniq
  rw [ho]
  obtain ⟨-, hprog⟩ := C76_program q id world name (some bs) hin
  obtain ⟨-, -, -, hp⟩ := hprog bs src rfl hs
  obtain ⟨hok, herr⟩ := hp m hm
  cases hd : drawModule q m with
  | ok el =>
    left
    have hex := (hok el hd).2
    refine ⟨hex, fun hb => ?_⟩
    have h1 := (C88_sizes src m hm).2.1
    have h2 : (src.length : Rat) ≤ 199000 := by exact_mod_cast hlen.trans hsize
    exact C76_bytes hq world name bs hin src hs hb m hm hne (by linarith) hex
  | error x =>
    right
    refine ⟨(herr x hd).2, (herr x hd).1, ?_⟩
    obtain ⟨pre, s, t, post, h1, h2, h3⟩ := C86_failures hq m (C88_height src m hm (by omega)) x hd
    refine ⟨pre, s, t, post, h1, h2, ?_⟩
    rcases h3 with ⟨h3, rfl⟩ | ⟨h3, k, rfl⟩
    · exact .inl ⟨h3, rfl⟩
    · exact .inr ⟨h3, k, rfl⟩

/-- A source of 39 characters with two tables, a column and a relation. -/
example : let src := c!"erd { a { x int }\n b { }\n a.x o--o b. }"
    src.length = 39 ∧ (parse src).1.map (fun m => ((definitions m.entries).length, columnCount (definitions m.entries),
      relationCount m.entries, m.intoMir.nodes.length, picHeight (lineNumbers (definitions m.entries)))) = some (2, 1, 1, 6, 170) := by
  decide +kernel

end Seiren
