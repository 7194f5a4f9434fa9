import Verif.Proofs.OutputSize
import Verif.Props.Whole
/-! # C99: how much is written -/

namespace Seiren
open Spec

/-! ## Relations -/

theorem pathData_length {ps : List Point} {cs : List PathCommand} (h : pathData ps = .ok cs) : cs.length ≤ 2 * ps.length := by
  obtain ⟨a, b, pieces, -, -, rfl, hl, hp⟩ := C45_path_data ps cs h
  have h2 : ∀ l ∈ pieces, l.length ≤ 2 := by
    intro l hl'
    obtain ⟨k, hk, rfl⟩ := List.getElem_of_mem hl'
    obtain ⟨l, h1, d, d', -, -, -, h3, h4⟩ := hp k ps[k] ps[k + 1] ps[k + 2] (List.getElem?_eq_getElem (by omega)) (List.getElem?_eq_getElem (by omega))
      (List.getElem?_eq_getElem (by omega))
    rw [List.getElem?_eq_getElem hk, Option.some.injEq] at h1
    rw [h1]
    by_cases hd : d = d'
    · rw [h3 hd]; simp
    · rw [h4 hd]; simp
  have h3 : ∀ ls : List (List PathCommand), (∀ l ∈ ls, l.length ≤ 2) → ls.flatten.length ≤ 2 * ls.length := by
    intro ls
    induction ls with
    | nil => simp
    | cons l ls ih =>
      intro h
      have h4 := h l (by simp)
      have h5 := ih fun l' hl' => h l' (by simp [hl'])
      simp only [List.flatten_cons, List.length_append, List.length_cons]; omega
  have h4 := h3 pieces h2
  simp only [List.length_cons, List.length_append, List.length_nil]; omega

theorem locations_length {g : RouteGraph} {w : List RouteNodeId} {ps : List Point} (h : Locations g w ps) (hn : w.Nodup) :
    ps.length ≤ g.nodes.length := by
  have h1 : ∀ i ∈ w, i < g.nodes.length := by
    intro i hi
    obtain ⟨k, hk, rfl⟩ := List.getElem_of_mem hi
    obtain ⟨n, hn, -⟩ := List.Forall₂.get h hk (h.length_eq ▸ hk)
    exact (List.getElem?_eq_some_iff.mp hn).1
  have h2 : w.length ≤ (List.range g.nodes.length).length :=
    (hn.subperm fun i hi => List.mem_range.mpr (h1 i hi)).length_le
  rw [List.length_range] at h2
  rw [← h.length_eq]; exact h2

theorem drawEdge_frames {e : EdgeData} {els : List Element} (h : drawEdgeConnection e = .ok els) (N : Nat)
    (hN : ∀ ps, e.pathPoints = some ps → ps.length ≤ N) (esc : Str → Str) : frames els ≤ 330 + 90 * N ∧ wordings esc els = 0 := by
  obtain ⟨ps, d, a, b, h1, h2, -, -, rfl⟩ := drawEdge_ok h
  have h3 := pathData_length h2
  have h4 := hN ps h1
  have h5 := picRelation_frame a b d
  have h6 : frames [leaf c!"path" [(c!"stroke", .str strokeColor.display), (c!"stroke-width", .num (3/2)),
             (c!"fill", .str c!"transparent"), (c!"d", .path d)], endCircle a, endCircle b] = frames (picRelation a b d) := rfl
  exact ⟨by rw [h6, h5]; omega, rfl⟩

theorem blocks_frames {es : List EdgeData} {bs : List (List Element)} (h : List.Forall₂ (fun e b => drawEdgeConnection e = .ok b) es bs) (N : Nat)
    (hN : ∀ e ∈ es, ∀ ps, e.pathPoints = some ps → ps.length ≤ N) (esc : Str → Str) :
    frames bs.flatten ≤ es.length * (330 + 90 * N) ∧ wordings esc bs.flatten = 0 := by
  induction h with
  | nil => simp [frames, wordings]
  | @cons e b es bs hb _ ih =>
    obtain ⟨h1, h2⟩ := drawEdge_frames hb N (hN e (by simp)) esc
    obtain ⟨h3, h4⟩ := ih fun e' he' => hN e' (by simp [he'])
    rw [List.flatten_cons, frames_append, wordings_append, h2, h4, List.length_cons, Nat.succ_mul]
    exact ⟨by omega, rfl⟩

/-! ## The text of a drawing -/

/-- **C99.** The text of a picture that is at most 2^22 high.  Each table adds at most 630 bytes, each column 717, each relation 330 and 90
for each node of the route graph, of which there are at most 10 for each table and 16 for each relation; besides, the names and types are
there, in the form in which the crate `svg` writes them. -/
theorem C99_text {q : Queue} {QI : List Entry → Prop} (hq : q.Lawful QI) (m : Module) (hne : definitions m.entries ≠ [])
    (hh : picHeight (lineNumbers (definitions m.entries)) ≤ 2 ^ 22) (ht : (definitions m.entries).length ≤ 10000000)
    (el : Element) (h : drawModule q m = .ok el) (esc : Str → Str) (e : Nat) (he : ∀ t, byteLen (esc t) ≤ e * byteLen t)
    (bytes : List UInt8) (hb : TextBytes (svgText esc el) bytes) :
    let T := (definitions m.entries).length
    let K := columnCount (definitions m.entries)
    let R := (connections [] m.entries).length
    bytes.length ≤ 178 + 630 * T + 717 * K + e * (nameBytes (definitions m.entries) + 11 * K) + R * (330 + 90 * (10 * T + 16 * R)) := by
  intro T K R
  have hb' : bytes.length = byteLen (svgText esc el) := by rw [(textBytes_iff _ _).mp hb]; rfl
  obtain ⟨hs, hbl⟩ := picture_blocks hq m hne (hh.trans (by norm_num))
  obtain ⟨doc', g', h1, -, -, -, hmap⟩ := drawn_connections hq m hs
  obtain ⟨bs, hf, rfl⟩ := hbl el h doc' g' h1
  have hlen : doc'.edges.length = R := by simpa using congrArg List.length hmap
  have hg := (C75_effort hq m hs doc' g' h1).1
  have h2 := blocks_frames hf (10 * T + 16 * R) (by
    intro e he ps hps
    obtain ⟨⟨w, -, hn, hl⟩, -⟩ := C36_paths_shortest hq m.intoMir (drawable_intoMir m) hs doc' g' h1 e he ps hps
    exact (locations_length hl hn).trans hg) esc
  rw [hlen] at h2
  have h3 := toText_len esc _ (small_drawing hq m hne hh _ h)
  have h4 := picture_frame (definitions m.entries) bs.flatten ht
  have h5 := picture_wording he (definitions m.entries) bs.flatten
  rw [hb', svgText]
  show _ ≤ 178 + 630 * T + 717 * columnCount (definitions m.entries) + e * (nameBytes (definitions m.entries) + 11 * columnCount (definitions m.entries)) + _
  omega

/-! ## Names -/

theorem byteLen_pos (c : Char) : 1 ≤ byteLen [c] := by
  show 1 ≤ (([c] : Str).flatMap encodeChar).length
  simp only [List.flatMap_cons, List.flatMap_nil, List.append_nil]
  unfold encodeChar
  simp only
  split
  · simp
  · split
    · simp
    · split <;> simp

theorem byteLen_four (c : Char) : byteLen [c] ≤ 4 := by
  show (([c] : Str).flatMap encodeChar).length ≤ 4
  simp only [List.flatMap_cons, List.flatMap_nil, List.append_nil]
  unfold encodeChar
  simp only
  split
  · simp
  · split
    · simp
    · split <;> simp

theorem byteLen_length (s : Str) : s.length ≤ byteLen s := by
  induction s with
  | nil => simp
  | cons c s ih =>
    have := byteLen_pos c
    rw [byteLen_cons, List.length_cons]; omega

theorem piece_bytes {c : Char} {w : Str} {e : Nat} (h : Piece c w e) : byteLen [c] ≤ byteLen w := by
  cases h with
  | raw => exact le_rfl
  | escape x c h =>
    have : ∀ p ∈ escapes, byteLen [p.2] ≤ 2 := by decide
    exact (this _ h).trans (byteLen_length ['\\', x])
  | unicode a b c d => exact (byteLen_four _).trans (le_trans (by simp) (byteLen_length ['\\', 'u', a, b, c, d]))
  | surrogate a b c d => exact (byteLen_four _).trans (le_trans (by simp) (byteLen_length ['\\', 'u', a, b, c, d]))

theorem pieces_bytes {s w : Str} {e : Nat} (h : Pieces s w e) : byteLen s ≤ byteLen w := by
  induction h with
  | nil => simp
  | @cons c w e s v n hp h ih =>
    have := piece_bytes hp
    rw [byteLen_cons, byteLen_append]; omega

/-- The bytes of a token that is a name. -/
def identBytes : Token → Nat
  | .ident s => byteLen s
  | _ => 0

/-- The bytes of the names among some tokens. -/
def identsBytes (ts : List Token) : Nat := (ts.map identBytes).sum

theorem identsBytes_append (a b : List Token) : identsBytes (a ++ b) = identsBytes a + identsBytes b := by simp [identsBytes]
theorem identsBytes_cons (t : Token) (b : List Token) : identsBytes (t :: b) = identBytes t + identsBytes b := by simp [identsBytes]

theorem lexeme_bytes {t : Token} {w : Str} {e : Nat} (h : Lexeme t w e) : identBytes t ≤ byteLen w := by
  cases h with
  | edge => exact Nat.zero_le _
  | keyword h =>
    have : ∀ p ∈ keywords, identBytes p.2 = 0 := by decide
    exact (this _ h).trans_le (Nat.zero_le _)
  | word => exact le_rfl
  | quoted h =>
    have := pieces_bytes h
    rw [byteLen_cons, byteLen_append]
    exact this.trans (by omega)
  | ctrl => exact Nat.zero_le _
  | newline => exact Nat.zero_le _
  | crlf => exact Nat.zero_le _

theorem scan_bytes {pos : Nat} {src : Str} {ts : List (Token × Span)} {errs : List LexError} (h : Scan pos src ts errs) :
    identsBytes (ts.map Prod.fst) ≤ byteLen src := by
  induction h with
  | stop => simp [identsBytes]
  | token hg hw h ih =>
    have := lexeme_bytes hw.1
    simp only [List.map_cons, identsBytes_cons, byteLen_append]; omega
  | skip hg ht hx hu hw h ih =>
    have := lexeme_bytes hw.1
    simp only [List.map_cons, identsBytes_cons, byteLen_append]; omega

theorem more_bytes {α : Type} {D : Dialect} {item : α → List Token → Prop} (size : α → Nat) (hi : ∀ a w, item a w → size a ≤ identsBytes w)
    {as : List α} {v : List Token} (h : More D item as v) : (as.map size).sum ≤ identsBytes v := by
  induction h with
  | done => simp
  | more s p a w as v hs hp ha hv ih =>
    have := hi a w ha
    simp only [List.map_cons, List.sum_cons, identsBytes_cons, identsBytes_append]; omega

theorem items_bytes {α : Type} {D : Dialect} {item : α → List Token → Prop} (size : α → Nat) (hi : ∀ a w, item a w → size a ≤ identsBytes w)
    {as : List α} {v : List Token} (h : Items D item as v) : (as.map size).sum ≤ identsBytes v := by
  cases h with
  | empty => simp
  | items a w as v ha hv =>
    have := hi a w ha
    have := more_bytes size hi hv
    simp only [List.map_cons, List.sum_cons, identsBytes_append]; omega

/-- The bytes of the names that an entry defines. -/
def entryBytes : ModuleEntry → Nat
  | .definition d => byteLen d.name + (d.fields.map fun f => byteLen f.name).sum
  | .relation _ => 0

theorem entry_bytes {e : ModuleEntry} {w : List Token} (h : EntryG implemented e w) : entryBytes e ≤ identsBytes w := by
  cases h with
  | definition h =>
    obtain ⟨p, q, ws, r, -, hf, -, rfl⟩ := h
    have := items_bytes (fun f : EntityField => byteLen f.name) (fun a w (h : FieldG a w) => by rw [h, identsBytes_cons]; exact Nat.le_add_right _ _) hf
    simp only [entryBytes, identsBytes_append, identsBytes_cons, identBytes]; omega
  | relation h => exact Nat.zero_le _

theorem entries_bytes (es : List ModuleEntry) : (es.map entryBytes).sum = nameBytes (definitions es) := by
  induction es with
  | nil => rfl
  | cons e es ih =>
    cases e with
    | definition d =>
      simp only [List.map_cons, List.sum_cons, definitions, nameBytes, entryBytes] at ih ⊢; omega
    | relation r =>
      simp only [List.map_cons, List.sum_cons, definitions, nameBytes, entryBytes] at ih ⊢; omega

/-- The names of tables and columns take no more room than the source. -/
theorem contains_bytes {src : Str} {m : Module} (h : Contains src m) : nameBytes (definitions m.entries) ≤ byteLen src := by
  obtain ⟨ts, errs, w, r, hs, hw, p, q, n, r', ws, u, v, -, -, hi, rfl⟩ := h
  have h1 := scan_bytes hs
  have h2 := congrArg identsBytes hw
  have h3 := items_bytes entryBytes (fun a w h => entry_bytes h) hi
  rw [entries_bytes] at h3
  simp only [identsBytes_append, identsBytes_cons] at h2
  omega

/-! ## Sources and the program -/

theorem size_arith {n T K R L e x : Nat} (h : 3 * (T + K) + 6 * R + 2 ≤ n) (hL : L ≤ n)
    (hx : x ≤ 178 + 630 * T + 717 * K + e * (L + 11 * K) + R * (330 + 90 * (10 * T + 16 * R))) :
    x ≤ 178 + (294 + 5 * e) * n + 40 * n * n ∧ (R = 0 → x ≤ 178 + (239 + 5 * e) * n) := by
  have h1 : e * (L + 11 * K) ≤ e * (5 * n) := Nat.mul_le_mul_left e (by omega)
  have h2 : e * (5 * n) = 5 * e * n := by ring
  constructor
  · have h3 : 90 * (R * (10 * T + 16 * R)) ≤ 40 * n * n := by
      have a1 : 3 * T + 6 * R ≤ n := by omega
      nlinarith [Nat.mul_le_mul_left R a1, Nat.mul_le_mul a1 a1, Nat.zero_le (R * T), Nat.zero_le (T * T), Nat.zero_le (R * R)]
    have h4 : R * (330 + 90 * (10 * T + 16 * R)) = 330 * R + 90 * (R * (10 * T + 16 * R)) := by ring
    rw [Nat.add_mul]
    omega
  · rintro rfl
    rw [Nat.add_mul]
    omega

/-- **C99, in terms of the source.** For a source of `n` ≤ 199000 bytes, at most `178 + (294 + 5 e) n + 40 n²` bytes are written, where `e`
says how much the crate `svg` lengthens the texts; without relations at most `178 + (239 + 5 e) n`. -/
theorem C99_source (src : Str) (bs : List UInt8) (hs : TextBytes src bs) (hn : bs.length ≤ 199000) (m : Module) (hm : Contains src m)
    (esc : Str → Str) (e : Nat) (he : ∀ t, byteLen (esc t) ≤ e * byteLen t) (text : Str) (ht : TextFor esc m text) (bytes : List UInt8)
    (hb : TextBytes text bytes) :
    bytes.length ≤ 178 + (294 + 5 * e) * bs.length + 40 * bs.length * bs.length ∧
    (connections [] m.entries = [] → bytes.length ≤ 178 + (239 + 5 * e) * bs.length) := by
  have hlen := textBytes_length hs
  have hbs : bs.length = byteLen src := by rw [(textBytes_iff _ _).mp hs]; rfl
  obtain ⟨hsz, hh, -, -⟩ := C88_sizes src m hm
  rcases ht with ⟨h0, rfl⟩ | ⟨hne, el, hel, rfl⟩
  · have h1 : bytes.length ≤ 178 := by
      rw [(textBytes_iff _ _).mp hb]; decide +kernel
    exact ⟨by omega, fun _ => by omega⟩
  · have hx := C99_text BinHeap.lawful m hne (hh.trans (by
        have : (src.length : Rat) ≤ 199000 := by exact_mod_cast hlen.trans hn
        linarith)) (by omega) el hel esc e he bytes hb
    have hL := contains_bytes hm
    rw [← hbs] at hL
    obtain ⟨h1, h2⟩ := size_arith (n := bs.length) (by omega) hL hx
    exact ⟨h1, fun h => h2 (by rw [h]; rfl)⟩

/-- **C99, the whole program.** With every part in its most detailed form (C98), the program writes at most so many bytes. -/
theorem C99_program (l : Libraries) (w : RawWorld) (d : Devices) (e : Nat) (he : ∀ t, byteLen (l.escape t) ≤ e * byteLen t)
    (name : Str) (bs : List UInt8) (hin : RawInput l.readsFirst w name (some bs)) (hn : bs.length ≤ 199000) :
    (runWhole l w d).stdout.length ≤ 178 + (294 + 5 * e) * bs.length + 40 * bs.length * bs.length := by
  obtain ⟨-, h⟩ := C98_program l w d
  obtain ⟨h1, h2⟩ := h name _ hin
  by_cases hs : ∃ src, TextBytes src bs
  · obtain ⟨src, hs⟩ := hs
    obtain ⟨errors, -, h3, h4⟩ := h2 bs src rfl hs hn
    by_cases hr : d.reports < errors.length
    · rw [h3 hr]; simp
    · obtain ⟨h5, h6⟩ := h4 (by omega)
      by_cases hm : ∃ m, Contains src m
      · obtain ⟨m, hm⟩ := hm
        obtain ⟨h7, h8⟩ := h6 m hm
        have key : ∀ text, TextFor l.escape m text →
            (runWhole l w d).stdout.length ≤ 178 + (294 + 5 * e) * bs.length + 40 * bs.length * bs.length := by
          intro text ht
          have hb := (textBytes_iff text (encodeUtf8 text)).mpr rfl
          have h9 := (C99_source src bs hs hn m hm l.escape e he text ht _ hb).1
          obtain ⟨h10, h11⟩ := h8 text _ ht hb
          by_cases hroom : (encodeUtf8 text).length ≤ d.room + 6
          · rw [h10 hroom]
            exact (by simp : ((encodeUtf8 text).take d.room).length ≤ (encodeUtf8 text).length).trans h9
          · rw [h11 (by omega)]
            exact (by simp : ((encodeUtf8 text).take d.room).length ≤ (encodeUtf8 text).length).trans h9
        by_cases hd : definitions m.entries = []
        · exact key _ (.inl ⟨hd, rfl⟩)
        · cases hx : drawModule BinHeap.queue m with
          | error x => rw [h7 x hx]; simp
          | ok el => exact key _ (.inr ⟨hd, el, hx, rfl⟩)
      · rw [h5 hm]; simp
  · rw [h1 (by
      rintro ⟨bs', src, hb, hs'⟩
      cases hb
      exact hs ⟨src, hs'⟩)]
    simp

set_option maxRecDepth 1000000 in
/-- The source of C97: 66 bytes, three tables with four columns, a relation; nothing has to be escaped.  3506 bytes are written; C99 says at
most 9459 for this module and at most 194152 for any source of 66 bytes. -/
example :
    let ds := definitions threeTables.entries
    (encodeUtf8 storageSource).length = 66 ∧ Contains storageSource threeTables ∧ (∀ t, byteLen (id t) ≤ 1 * byteLen t) ∧
    (ds.length, columnCount ds, (connections [] threeTables.entries).length, nameBytes ds) = (3, 4, 1, 9) ∧
    picHeight (lineNumbers ds) ≤ 2 ^ 22 ∧ (stdoutText BinHeap.queue id storageSource).map byteLen = some 3506 := by
  refine ⟨by decide +kernel, storageSource_contains, fun t => by simp, by decide +kernel, by decide +kernel, by decide +kernel⟩

end Seiren
